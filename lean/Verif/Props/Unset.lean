import Verif.Props.Repeated
import Verif.Props.Result
import Verif.Props.Live
/-!
# C12: a resolver with `enforce_extension` unset

`Resolver::default()` (src/lib.rs:73) does not go through `Resolver::new`: its `enforce_extension` stays unset, and its
file cache has no delay. (`options` is public, so that they can be changed afterwards.)
-/

namespace Verif

variable {cfg cfg' : Nat → Config} {ser : Json → Str} {fs : Fs}

theorem new_same {o : Opts} (h : o.enforceExtension = none → [] ∉ o.extensions) : SameOptions o o.new where
  alias _ := rfl
  conditions _ := Iff.rfl
  enforce := by
    have := C12_new o
    cases he : o.enforceExtension with
    | none => rcases (this.2 he).1 with ⟨-, h1⟩ | ⟨h1, -⟩
              · exact absurd h1 (h he)
              · rw [h1]; rfl
    | some b => rw [this.1 b he, he]
  rest := by cases o; rfl

/-- C12: a resolver whose options did not go through `Resolver::new` does the same as one whose options did, unless
`enforce_extension` is unset and the empty string is among the extensions: in every history, with calls at the same time,
shared caches and changes of files, the state of the system is the same. -/
theorem C12_unset (h : ∀ rid, ((cfg rid).opts.enforceExtension = none → [] ∉ (cfg rid).opts.extensions) ∧
      cfg' rid = { cfg rid with opts := (cfg rid).opts.new }) (l : List Event) :
    (Sys.init fs).after cfg' ser l = (Sys.init fs).after cfg ser l ∧
      (Live.Sys.init fs).after cfg' ser l = (Live.Sys.init fs).after cfg ser l := by
  have hc : ∀ rid, SameConfig (cfg rid) (cfg' rid) := fun rid => by
    rw [(h rid).2]
    exact ⟨new_same (h rid).1, rfl⟩
  exact ⟨C87_order hc l, C87_live hc l⟩

/-- C12: while files stay as they are, `Resolver::default()` and `Resolver::new` with default options answer alike, after
any histories, though only the second one has a delay. -/
theorem C12_alike (hs : Static cfg ser fs) (hs' : Static cfg' ser fs) (l l' : List Event)
    (hl : ∀ e ∈ l, e.calm) (hl' : ∀ e ∈ l', e.calm) (t t' : Task)
    (ht : t ∈ ((Sys.init fs).after cfg ser l).tasks) (ht' : t' ∈ ((Sys.init fs).after cfg' ser l').tasks)
    (ho : (cfg t.rid).opts = Opts.default) (ho' : (cfg' t'.rid).opts = Opts.default.new) (hcall : t.call = t'.call)
    (hfuel : t.fuel = t'.fuel) (o o' : Outcome Answer) (hx : t.prog.outcome = some o)
    (hx' : t'.prog.outcome = some o') : o.Like Answer.Sim o' := by
  -- the options as `Resolver::new` leaves them make no difference for the first system
  let cfg1 : Nat → Config := fun rid => if (cfg rid).opts = Opts.default then
    { cfg rid with opts := Opts.default.new } else cfg rid
  have h1 : ∀ rid, SameConfig (cfg rid) (cfg1 rid) := by
    intro rid
    show SameConfig _ (if _ then _ else _)
    split
    · rename_i h
      refine ⟨?_, by rw [← h]⟩
      rw [h]
      exact new_same (by decide)
    · exact ⟨⟨fun _ => rfl, fun _ => Iff.rfl, rfl, rfl⟩, rfl⟩
  have hrest : ∀ rid, (cfg1 rid).debug = (cfg rid).debug ∧ (cfg1 rid).cache = (cfg rid).cache ∧
      (cfg1 rid).opts.descriptionFile = (cfg rid).opts.descriptionFile ∧
      (cfg1 rid).opts.browserField = (cfg rid).opts.browserField ∧
      (cfg1 rid).opts.extensions = (cfg rid).opts.extensions ∧ (cfg1 rid).opts.tsconfig = (cfg rid).opts.tsconfig := by
    intro rid
    show (ite _ _ _ : Config).debug = _ ∧ (ite _ _ _ : Config).cache = _ ∧ (ite _ _ _ : Config).opts.descriptionFile = _ ∧
      (ite _ _ _ : Config).opts.browserField = _ ∧ (ite _ _ _ : Config).opts.extensions = _ ∧
      (ite _ _ _ : Config).opts.tsconfig = _
    split
    · rename_i h
      rw [h]
      exact ⟨rfl, rfl, rfl, rfl, rfl, rfl⟩
    · exact ⟨rfl, rfl, rfl, rfl, rfl, rfl⟩
  have hs1 : Static cfg1 ser fs := by
    refine ⟨hs.lawful, fun rid => ?_, hs.inj, hs.mix, fun rid rid' d d' => ?_, fun rid desc => ?_, fun rid loc => ?_⟩
    · rw [(hrest rid).1]; exact hs.debug rid
    · rw [(hrest rid).2.1, (hrest rid').2.1, (hrest rid).2.2.1, (hrest rid').2.2.1]; exact hs.desc rid rid' d d'
    · rw [(hrest rid).2.2.1, (hrest rid).2.2.2.1, (hrest rid).2.2.2.2.1]; exact hs.browser rid desc
    · rw [(hrest rid).2.2.2.2.2]; exact hs.tsconfig rid loc
  rw [← C87_order h1 l] at ht
  have h2 : (cfg1 t.rid).opts = Opts.default.new := by
    show (ite _ _ _ : Config).opts = _
    rw [if_pos ho]
  refine C87_aliases hs1 hs' l l' hl hl' t t' ht ht' ?_ hcall hfuel ?_ o o' hx hx'
  · rw [h2, ho']
    exact ⟨fun _ => rfl, rfl⟩
  · rw [h2]
    cases t.call with
    | sideEffects p => trivial
    | resolve p r => exact nofun

/-- Options with an empty extension at the end. -/
def optsEmpty : Opts := { Opts.default with extensions := [cs!".js", cs!""], symlinks := false }

/-- C12: it is sharp that the empty string is not among the extensions: without `Resolver::new` the request gets the file
that it names, with it the file with an extension. -/
theorem C12_empty_sharp :
    let env (o : Opts) : Env := ⟨o, treeFs (.dir [(cs!"a", textFile), (cs!"a.js", textFile)]) [], false, 0, serJson⟩
    ((resolve (env optsEmpty) 20 cs!"/" cs!"./a").freshInfo.map Info.path) = some cs!"/a" ∧
      ((resolve (env optsEmpty.new) 20 cs!"/" cs!"./a").freshInfo.map Info.path) = some cs!"/a.js" := by
  decide +kernel

-- the hypotheses of `C12_alike`: the two resolvers side by side
example : let cfg : Nat → Config := fun rid =>
      if rid = 0 then { opts := Opts.default, cache := 0, debug := false, duration := 0 }
      else { opts := Opts.default.new, cache := 1, debug := false, duration := 1000000000 }
    Static cfg serJson (treeFs (treeM cs!"./a.js" 0) []) ∧ (cfg 0).opts = Opts.default ∧
      (cfg 1).opts = Opts.default.new := by
  refine ⟨⟨treeFs_lawful [] rfl, fun rid => ?_, fun _ _ => serJson_inj, ?_, fun rid rid' d d' _ h h' => ?_,
    fun rid desc h => ?_, fun rid l h => ?_⟩, rfl, rfl⟩
  · split <;> rfl
  · exact (static_tree (t := treeM cs!"./a.js" 0) (o := optsA) rfl rfl rfl (by decide +kernel)).mix
  · have key : ∀ r, (if r = 0 then (⟨Opts.default, 0, false, 0⟩ : Config)
        else ⟨Opts.default.new, 1, false, 1000000000⟩).opts.descriptionFile = some cs!"package.json" := by
      intro r; split <;> rfl
    rw [key] at h h'
    rw [← Option.some.inj h, ← Option.some.inj h']
  · split at h <;> cases h
  · split at h <;> cases h

end Verif
