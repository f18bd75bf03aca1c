import Verif.Proofs.Changes
import Verif.Proofs.System
import Verif.Props.Packages
/-!
# Properties about changes of files: C35, C36
-/

namespace Verif

variable {cfg : Nat → Config} {ser : Json → Str} {fs : Fs} {F : Fs → Prop}

/-- What is found at the directory `d`: the contents of its description file. -/
def FoundAt (fs : Fs) (desc d : Str) (found : Outcome (Except Err (Option Pkg))) : Prop :=
  (∀ pkg, readPkg fs d (pjoin d desc) = .ret (.ok pkg) →
    found.Like (SameLoad fs) (.done (.ok (some pkg)))) ∧
  (∀ err, readPkg fs d (pjoin d desc) = .ret (.error err) →
    found.Like (SameLoad fs) (.done (.error err))) ∧
  ∀ c, readPkg fs d (pjoin d desc) = .crash c → found.Like (SameLoad fs) (.crashed c)

theorem foundAt_of_ends {desc d q : Str} {x : Outcome (Except Err (Option Pkg))}
    {o : Outcome (Except Err (Option Pkg))} (hcl : closest fs desc q = some d)
    (h1 : (findPkg fs (some desc) q).Ends o) (h2 : x.Like (SameLoad fs) o) : FoundAt fs desc d x := by
  rw [findPkg_here hcl] at h1
  refine ⟨fun pkg hp => ?_, fun err hp => ?_, fun c hp => ?_⟩ <;> rw [hp] at h1
  · cases h1; exact h2
  · cases h1; exact h2
  · cases h1; exact h2

/-! ## C35 -/

/-- C35: when calls and changes of files happen one after the other, every call ends as it does on a
fresh resolver and the files at the time of the call: whatever was read before, new contents are
used. This holds if a description file gets a time at least one second (the duration) later whenever
its contents change (less is not enough: `C35_soon_sharp`, `C35_backwards_fails`). Missing: malformed
contents (`C35_malformed_violated`); calls in progress while files change, or while another call reads
them (`C35_race_violated`, `C35_overtaken_violated`); deletion and creation (see C36). -/
theorem C35_changes_partial (hF : Changing cfg ser F) (hfs : F fs) (l : List Event)
    (hl : Turns cfg ser F (Sys.init fs) l) (t : Task)
    (ht : t ∈ ((Sys.init fs).after cfg ser l).tasks) (o : Outcome Answer)
    (ho : t.prog.outcome = some o) :
    (∃ seeds, o.Like Answer.Sim
      ((t.call.prog ((cfg t.rid).env ser t.fs) t.fuel).run (World.init seeds)).1) ∧
    (TsClear (cfg t.rid).opts t.fs t.call → ∀ seeds, o.Like Answer.Sim
      ((t.call.prog ((cfg t.rid).env ser t.fs) t.fuel).run (World.init seeds)).1) := by
  obtain ⟨h1, hc, h2⟩ := (turns_after hF (orderly_init hfs) hl).2.1 t ht
  obtain ⟨o', h3, h4⟩ := h2 o ho
  have hs := hF.static t.fs h1
  have hrel := call_rel hs t.rid hc t.fuel
  have hw : ∀ seeds, FaithWo t.fs (cfg t.rid).opts.descriptionFile ser (World.init seeds) :=
    fun seeds d _ => faithW_init t.fs d ser seeds
  constructor
  · obtain ⟨seeds, h⟩ := hrel.run_exists (hw fun _ => 0) h3
    exact ⟨seeds, Answer.like_join h4 h⟩
  · intro hts seeds
    obtain ⟨x, hx⟩ := call_sure hs t.rid hts t.fuel
    obtain ⟨o'', h5, h6⟩ := hrel.run (hw seeds)
    rw [hx _ h3] at h4
    rw [hx _ h5] at h6
    exact Answer.like_join h4 h6

/-- C35: in such a history, whenever no call is in progress, looking for the package of a path gives
what the closest description file contains at that time. Missing: as for `C35_changes_partial`. -/
theorem C35_lookup_partial (hF : Changing cfg ser F) (hfs : F fs) (l : List Event)
    (hl : Turns cfg ser F (Sys.init fs) l) (hi : ((Sys.init fs).after cfg ser l).Idle)
    (rid : Nat) (desc : Str) (hd : (cfg rid).opts.descriptionFile = some desc) (seeds : Nat → Nat)
    (p : Str) (ha : isAbs p = true) :
    let s := (Sys.init fs).after cfg ser l
    let found := ((loadPkg ((cfg rid).env ser s.fs) p).run (s.shared.view cfg rid seeds)).1
    (closest s.fs desc p = none → found.Like (SameLoad s.fs) (.done (.ok none))) ∧
    ∀ d, closest s.fs desc p = some d → FoundAt s.fs desc d found := by
  intro s found
  have hord := turns_after hF (orderly_init hfs) hl
  have hfr := hord.fresh hF hi rid desc seeds hd
  have hw : SeqI F s.fs (cfg rid).opts.descriptionFile ser (cfg rid).duration
      (s.shared.view cfg rid seeds) (s.shared.view cfg rid seeds) := by
    rw [hd]; exact ⟨hfr, fun key v hv => .inl hv⟩
  obtain ⟨-, o, h1, h2⟩ := loadPkg_seq hF hord.1 rid (s.shared.view cfg rid seeds) ha rfl _ hw
  have h1 : (findPkg s.fs (cfg rid).opts.descriptionFile p).Ends o := h1
  rw [hd] at h1
  constructor
  · intro hcl
    rw [findPkg_none hcl] at h1
    cases h1
    exact h2
  · intro d hcl
    exact foundAt_of_ends hcl h1 h2

/-! ## C36 -/

/-- C36: when files and calls take turns, a description file that was created is used as soon as it is
the closest one, if there was already one above it. Missing: description files with none above them
(`C36_above_violated`; but see `C36_new_partial`); deleted files (`C36_deleted_violated`); and what is
missing for C35. -/
theorem C36_below_partial (hF : Changing cfg ser F) (hfs : F fs) (l : List Event) (fs' : Fs)
    (hl : Turns cfg ser F (Sys.init fs) (l ++ [.change fs']))
    (rid : Nat) (desc : Str) (hd : (cfg rid).opts.descriptionFile = some desc) (seeds : Nat → Nat)
    (p d : Str) (ha : isAbs p = true) (hcl : closest fs' desc p = some d) :
    let s := (Sys.init fs).after cfg ser (l ++ [.change fs'])
    FoundAt fs' desc d ((loadPkg ((cfg rid).env ser fs') p).run (s.shared.view cfg rid seeds)).1 := by
  intro s
  have hsfs : s.fs = fs' := by
    have key : ∀ (l : List Event) (s0 : Sys),
        (s0.after cfg ser (l ++ [.change fs'])).fs = fs' := by
      intro l
      induction l with
      | nil => intro s0; rfl
      | cons e l ih => intro s0; exact ih _
    exact key l _
  have hidle : s.Idle := by
    have key : ∀ (l : List Event) (s0 : Sys), Turns cfg ser F s0 (l ++ [.change fs']) →
        (s0.after cfg ser (l ++ [.change fs'])).Idle := by
      intro l
      induction l with
      | nil => intro s0 h; exact h.1.1
      | cons e l ih => intro s0 h; exact ih _ h.2
    exact key l _ hl
  have := (C35_lookup_partial hF hfs _ hl hidle rid desc hd seeds p ha).2 d
  rw [show ((Sys.init fs).after cfg ser (l ++ [.change fs'])).fs = fs' from hsfs] at this
  exact this hcl

/-- Every operation of a call is one of these. -/
theorem call_ops {G : Op → Prop} {R : (o : Op) → o.Ret → Prop} {e : Env}
    (hG : ∀ o, FileOp e o → G o) (hput : ∀ d v, G (.putPkg d v)) (fuel : Nat) (call : Call) :
    (call.prog e fuel).Sat G R fun _ => True := by
  have hload : ∀ p, (loadPkg e p).Sat G R fun _ => True := fun p =>
    (loadPkg_sat e hG (fun _ _ => hput _ _) (fun _ _ => True) (fun _ _ _ _ _ _ => ⟨trivial, hput _ _⟩)
      (fun _ _ _ _ => trivial) p).mono fun _ _ => trivial
  cases call with
  | sideEffects path => exact Prog.Sat.bind (loadSideEffects_sat (hload path)) fun _ _ => trivial
  | resolve path request =>
    have hI : Inv e.ctx G R (fun _ => True) (fun _ => True) (fun _ => True) (fun _ => True)
        (fun _ => True) True := {
      load := fun p _ => (hload p).mono fun _ _ => ⟨fun _ _ => trivial, fun _ _ => trivial⟩
      ask := fun _ _ => trivial
      askModule := fun _ _ => trivial
      pathGet := fun _ _ => trivial
      pathPkg := fun _ _ _ _ => trivial
      pathModule := fun _ _ => trivial
      pathParent := fun _ _ _ _ _ _ => trivial
      target := fun _ _ _ => trivial
      file := fun i _ => by
        cases resolveAsFile e.ctx i with
        | success r => cases r <;> trivial
        | resolving i => trivial
        | error err i => exact ⟨trivial, trivial⟩
      errTag := trivial
      errPkg := fun _ _ => ⟨fun _ => trivial, fun _ _ _ _ _ => trivial, fun _ _ _ _ _ => trivial⟩
      exports := fun _ _ _ _ => trivial
      imports := fun _ _ _ _ => ⟨trivial, trivial⟩ }
    have := resolve_sat (e := e) (resolveStats_sat hI fuel path request trivial fun _ _ =>
      ⟨hG _ trivial, by constructor <;> intros <;> trivial, ⟨fun _ => True, trivial,
        fun _ _ _ _ _ => trivial, fun _ _ => trivial⟩, fun _ _ _ _ _ => trivial⟩)
    exact Prog.Sat.bind this fun _ _ => trivial

/-- What all caches hold in any history: the file cache knows files that could be read. -/
def Known (F : Fs → Prop) (ser : Json → Str) (s : Shared) : Prop :=
  (∀ rid key m, s.files rid key = some m → ∃ fs p doc, F fs ∧ comps p = key ∧ fs.read p = some doc) ∧
  (∀ n k t, (s.caches n).exportsTree k = some t → TreeIn F ser k t) ∧
  ∀ n k, (s.caches n).importsTree k = none

/-- Operations that keep `Known`. -/
def KnownG (F : Fs → Prop) (ser : Json → Str) : Op → Prop
  | .putFile p _ => ∃ fs doc, F fs ∧ fs.read p = some doc
  | .putExports k t => TreeIn F ser k t
  | _ => True

theorem known_step {s : Shared} {rid : Nat} {o : Op} {seeds : Nat → Nat} (h : Known F ser s)
    (hg : KnownG F ser o) : Known F ser (s.store cfg rid (o.exec (s.view cfg rid seeds)).2) := by
  obtain ⟨h1, h2, h3⟩ := h
  have keep : ∀ w : World,
      (∀ key m, w.file key = some m → ∃ fs p doc, F fs ∧ comps p = key ∧ fs.read p = some doc) →
      (∀ k t, w.exportsTree k = some t → TreeIn F ser k t) → (∀ k, w.importsTree k = none) →
      Known F ser (s.store cfg rid w) := by
    intro w h4 h5 h6
    refine ⟨fun r key m hm => ?_, fun n k t ht => ?_, fun n k => ?_⟩
    · simp only [Shared.store, upd] at hm
      split at hm
      · exact h4 key m hm
      · exact h1 r key m hm
    · simp only [Shared.store, upd] at ht
      split at ht
      · exact h5 k t ht
      · exact h2 n k t ht
    · simp only [Shared.store, upd]
      split
      · exact h6 k
      · exact h3 n k
  cases o with
  | putFile p m =>
    refine keep _ (fun key m' hm => ?_) (h2 _) (h3 _)
    simp only [Op.exec, upd] at hm
    split at hm
    · rename_i hk
      obtain ⟨fs, doc, hf, hr⟩ := hg
      exact ⟨fs, p, doc, hf, hk.symm, hr⟩
    · exact h1 rid key m' hm
  | putExports k t =>
    refine keep _ (h1 rid) (fun k' t' ht => ?_) (h3 _)
    simp only [Op.exec, upd] at ht
    split at ht
    · rename_i hk
      cases ht; rw [hk]; exact hg
    · exact h2 _ k' t' ht
  | _ => exact keep _ (h1 rid) (h2 _) (h3 _)

theorem known_after (hfs : F fs) {l : List Event} (hl : ∀ e ∈ l, EventOk F (fun _ _ => True) e) :
    Known F ser ((Sys.init fs).after cfg ser l).shared := by
  refine (system_inv (cfg := cfg) (ser := ser) (okFs := F) (okCall := fun _ _ => True)
    (G := fun _ => KnownG F ser) (R := fun _ _ _ => True) (J := Known F ser)
    (P := fun _ _ _ _ => True) (fun s rid o seeds h hg => ⟨known_step h hg, trivial⟩)
    (fun rid fs call fuel hf _ => call_ops (fun o ho => ?_) (fun _ _ => trivial) fuel call) hfs hl
    (sh := Shared.init) ⟨nofun, nofun, fun _ _ => rfl⟩).1
  cases o with
  | putFile p m => exact ⟨fs, ho.1.choose, hf, ho.1.choose_spec⟩
  | putExports k t =>
    obtain ⟨v, h1, h2⟩ := ho
    exact ⟨fs, v, hf, h1, h2⟩
  | _ => trivial

/-- C36: after any history - any calls, in any interleaving, and any changes of files - a description
file that did not exist before is used by the next lookup in its own directory. Missing: lookups in
directories below it (`C36_above_violated`, `C36_below_partial`); an exports value that equals an
imports value; debug builds. -/
theorem C36_new_partial {fs' : Fs} (hs : Static cfg ser fs')
    (hmix : ∀ f v t, F f → IsField fs' cs!"exports" v → IsField f cs!"imports" v →
      buildTree .imports v = some (.ok t) → buildTree .exports v = some (.ok t))
    (hfs : F fs) (l : List Event) (hl : ∀ e ∈ l, EventOk F (fun _ _ => True) e)
    (rid : Nat) (desc : Str) (hd : (cfg rid).opts.descriptionFile = some desc) (seeds : Nat → Nat)
    (d : Str) (ha : isAbs d = true) (hh : fs'.Has desc d)
    (hnew : ∀ f p, F f → comps p = comps (pjoin d desc) → f.read p = none) :
    FoundAt fs' desc d ((loadPkg ((cfg rid).env ser fs') d).run
      (((Sys.init fs).after cfg ser l).shared.view cfg rid seeds)).1 := by
  obtain ⟨h1, h2, h3⟩ := known_after (cfg := cfg) (ser := ser) hfs hl
  generalize ((Sys.init fs).after cfg ser l).shared = s at h1 h2 h3
  have hfile : (s.view cfg rid seeds).file (comps (pjoin d desc)) = none := by
    cases hf : s.files rid (comps (pjoin d desc)) with
    | none => exact hf
    | some m =>
      obtain ⟨f, p, doc, hf', hp, hr⟩ := h1 rid _ m hf
      rw [hnew f p hf' hp] at hr
      cases hr
  have hops : ReadOps (RG (fun f => F f ∨ f = fs') fs' ser (pjoin d desc))
      (RR (fun f => F f ∨ f = fs') ser) ((cfg rid).env ser fs') (pjoin d desc) := {
    debug := hs.debug rid
    seed := trivial
    put := fun m hm => ⟨rfl, hm⟩
    getE := fun _ => trivial
    getI := fun _ => trivial
    tree := fun v t hf hr => by
      obtain ⟨f, w, hF, hw, h⟩ := hr t rfl
      obtain rfl := hs.inj _ _ hw
      rcases h with ⟨_, h⟩ | ⟨h4, h5⟩
      · exact h
      · rcases hF with hF | rfl
        · exact hmix f _ _ hF hf h4 h5
        · exact hs.mix _ _ hf h4 h5
    noTree := fun k r hr => hr
    putE := fun v t h => ⟨fs', v, .inr rfl, rfl, h⟩ }
  have hparse : ∀ w : World, w.exportsTree = (s.view cfg rid seeds).exportsTree →
      w.importsTree = (s.view cfg rid seeds).importsTree →
      FoundAt fs' desc d ((parseAndStore ((cfg rid).env ser fs') d (pjoin d desc)).run w).1 := by
    intro w hw1 hw2
    obtain ⟨⟨o, h4, h5⟩, -⟩ := read_run (parseDescription_rel hops d) (w := w)
      (fun k t ht => by
        rw [hw1] at ht
        obtain ⟨f, v, hf, h⟩ := h2 _ k t ht
        exact ⟨f, v, .inl hf, h⟩)
      (fun k => by rw [hw2]; exact h3 _ k)
    have h4 : (readPkg fs' d (pjoin d desc)).Ends o := h4
    unfold parseAndStore
    rw [Prog.run_bind]
    rcases hp : (parseDescription ((cfg rid).env ser fs') d (pjoin d desc)).run w with ⟨x, w'⟩
    rw [hp] at h5
    refine ⟨fun pkg hr => ?_, fun err hr => ?_, fun c hr => ?_⟩
    · rw [hr] at h4
      cases h4
      cases x with
      | crashed c => exact (h5 : False).elim
      | done x =>
        cases x with
        | error err => exact (h5 : False).elim
        | ok x =>
          obtain ⟨seed, rfl⟩ : ∃ seed, x = { pkg with aliasFields := permute seed pkg.aliasFields } := h5
          have hdir := readPkg_dir hr
          refine ⟨rfl, ?_, ?_, seed, rfl⟩
          · show isAbs pkg.absDir = true
            rw [hdir]; exact ha
          · show fs'.isDir pkg.absDir = true
            rw [hdir]; exact hh.1
    · rw [hr] at h4
      cases h4
      cases x with
      | crashed c => exact (h5 : False).elim
      | done x =>
        cases x with
        | ok x => exact (h5 : False).elim
        | error err' =>
          obtain rfl : err' = err := h5
          exact .refl _
    · rw [hr] at h4
      cases h4
      cases x with
      | done x => exact (h5 : False).elim
      | crashed c' => exact h5
  have hdbg : ((cfg rid).env ser fs').debug = false := hs.debug rid
  have hdesc : ((cfg rid).env ser fs').opts.descriptionFile = some desc := hd
  have e1 : ((cfg rid).env ser fs').fs = fs' := rfl
  unfold loadPkg loadPkgAux
  rw [hdesc]
  simp only [e1, hh.1, Bool.not_true, Bool.false_eq_true, if_false, Prog.run, Op.exec]
  cases (s.view cfg rid seeds).pkg (comps d) with
  | none =>
    simp only [hh.2, Bool.not_true, Bool.false_eq_true, if_false]
    exact hparse _ rfl rfl
  | some cached =>
    simp only [needUpdate, e1, hh.2, Bool.not_true, Bool.false_eq_true, if_false, Prog.bind, Prog.run,
      Op.exec, hfile, hdbg]
    exact hparse _ rfl rfl

/-! ## Examples -/

/-- The tree keeps all files and directories; a file with other contents has a time at least `dur`
later. -/
def Evolves (dur : Nat) (t t' : Tree) : Prop :=
  ∀ loc, (∀ l, t.at loc = some (.dir l) → ∃ l', t'.at loc = some (.dir l')) ∧
    ∀ d m, t.at loc = some (.file d m) →
      ∃ d' m', t'.at loc = some (.file d' m') ∧ m ≤ m' ∧ (d' = d ∨ m + dur ≤ m')

theorem Evolves.reach {dur : Nat} {t t' : Tree} (h : Evolves dur t t') {segs loc r : List Str}
    (hr : t.reach loc segs = some r) : t'.reach loc segs = some r := by
  induction segs generalizing loc with
  | nil =>
    simp only [Tree.reach] at hr ⊢
    split at hr
    · rename_i hs
      cases ha : t.at loc with
      | none => rw [ha] at hs; cases hs
      | some u =>
        have : (t'.at loc).isSome = true := by
          cases u with
          | dir l => obtain ⟨l', h'⟩ := (h loc).1 l ha; rw [h']; rfl
          | file d m => obtain ⟨d', m', h', -⟩ := (h loc).2 d m ha; rw [h']; rfl
        rw [if_pos this]; exact hr
    · cases hr
  | cons x segs ih =>
    simp only [Tree.reach] at hr ⊢
    split at hr
    · rename_i l hl
      obtain ⟨l', h'⟩ := (h loc).1 l hl
      rw [h']
      exact ih hr
    · cases hr

theorem Evolves.node {dur : Nat} {t t' : Tree} (h : Evolves dur t t') (p : Str) :
    (∀ l, t.node [] p = some (.dir l) → ∃ l', t'.node [] p = some (.dir l')) ∧
    ∀ d m, t.node [] p = some (.file d m) →
      ∃ d' m', t'.node [] p = some (.file d' m') ∧ m ≤ m' ∧ (d' = d ∨ m + dur ≤ m') := by
  have hl : ∀ loc, t.lookup [] p = some loc → t'.lookup [] p = some loc := by
    intro loc hloc
    unfold Tree.lookup at hloc ⊢
    split at hloc
    · cases hloc
    · rename_i hp
      rw [if_neg hp]
      exact h.reach hloc
  unfold Tree.node
  cases hloc : t.lookup [] p with
  | none => exact ⟨nofun, nofun⟩
  | some loc =>
    rw [hl loc hloc]
    exact h loc

theorem closest_root {desc : Str} (hfs : fs.Lawful) (hdesc : isAbs desc = false)
    (hroot : fs.Has desc cs!"/") : ∀ (n : Nat) (d : Str), d.length < n → isAbs d = true →
    closest fs desc d ≠ none := by
  intro n
  induction n with
  | zero => intro d hn; omega
  | succ n ih =>
    intro d hn ha hc
    rw [closest_step] at hc
    split at hc
    · cases hc
    · rename_i hno
      split at hc
      · rename_i q hq
        exact ih q (by have := pparent_length hq; omega) ((isAbs_pparent hq).trans ha) hc
      · rename_i hq
        refine hno ?_
        have : comps cs!"/" = comps d := by
          rcases (pparent_eq_none d).1 hq with h | h
          · exact absurd ha (by rw [isAbs_iff_comps, h]; simp)
          · rw [h]; decide +kernel
        exact Fs.Has.comps hfs (by decide) this hroot

/-- Trees that evolve, with a description file in the root directory, are an update. -/
theorem Evolves.update {dur : Nat} {t t' : Tree} {desc : Str} (h : Evolves dur t t')
    (ht : t.isDir = true) (hdesc : isAbs desc = false) (hroot : (treeFs t []).Has desc cs!"/") :
    Update (treeFs t []) (treeFs t' []) desc dur where
  kept d _ hh := by
    constructor
    · have := hh.1
      simp only [treeFs] at this ⊢
      split at this
      · rename_i l hl
        obtain ⟨l', h'⟩ := (h.node d).1 l hl
        rw [h']
      · cases this
    · have := hh.2
      simp only [treeFs] at this ⊢
      split at this
      · rename_i doc m hl
        obtain ⟨d', m', h', -⟩ := (h.node _).2 _ _ hl
        rw [h']
      · cases this
  time d m m' _ hh hm hm' := by
    have := hh.2
    simp only [treeFs] at this hm hm' ⊢
    split at this
    · rename_i doc k hl
      obtain ⟨d', k', h', h1, h2⟩ := (h.node _).2 _ _ hl
      rw [hl] at hm
      rw [h'] at hm' ⊢
      cases hm; cases hm'
      exact ⟨h1, h2⟩
    · cases this
  absent d ha hn := (closest_root (treeFs_lawful [] ht) hdesc hroot _ d (Nat.lt_succ_self _) ha hn).elim

/-- A JSON file with a time. -/
def timedFile (j : Json) (m : Nat) : Tree := .file (some ⟨some j, .ok (some j)⟩) m

/-- `/package.json` and the directory `/p` with these entries. -/
def treeRoot (effects : Bool) (m : Nat) (l : List (Str × Tree)) : Tree :=
  .dir [(cs!"package.json", timedFile (.obj [(cs!"sideEffects", .bool effects)]) m),
    (cs!"p", .dir l)]

/-- At the start. -/
def treeCh0 : Tree := treeRoot true 0 []

/-- Two seconds later `/package.json` has other contents. -/
def treeCh1 : Tree := treeRoot false 2000000000 []

/-- And then `/p/package.json` is created. -/
def treeCh2 : Tree := treeRoot false 2000000000
  [(cs!"package.json", timedFile (.obj [(cs!"sideEffects", .bool true)]) 0)]

theorem evolves_ch01 : Evolves 1000000000 treeCh0 treeCh1 := by
  intro loc
  rcases loc with _ | ⟨a, loc⟩
  · exact ⟨fun l _ => ⟨_, rfl⟩, nofun⟩
  · simp only [treeCh0, treeCh1, treeRoot, timedFile, Tree.at, Tree.child, alookup]
    by_cases h1 : cs!"package.json" = a
    · simp only [h1, if_true]
      cases loc with
      | nil => exact ⟨nofun, fun d m h => by cases h; exact ⟨_, _, rfl, by omega, .inr (by omega)⟩⟩
      | cons b loc => exact ⟨nofun, nofun⟩
    · simp only [h1, if_false]
      by_cases h2 : cs!"p" = a
      · simp only [h2, if_true]
        cases loc with
        | nil => exact ⟨fun l h => ⟨_, rfl⟩, nofun⟩
        | cons b loc => exact ⟨nofun, nofun⟩
      · simp only [h2, if_false]
        exact ⟨nofun, nofun⟩

theorem evolves_ch12 : Evolves 1000000000 treeCh1 treeCh2 := by
  intro loc
  rcases loc with _ | ⟨a, loc⟩
  · exact ⟨fun l _ => ⟨_, rfl⟩, nofun⟩
  · simp only [treeCh1, treeCh2, treeRoot, timedFile, Tree.at, Tree.child, alookup]
    by_cases h1 : cs!"package.json" = a
    · simp only [h1, if_true]
      cases loc with
      | nil => exact ⟨nofun, fun d m h => ⟨d, m, h, Nat.le_refl _, .inl rfl⟩⟩
      | cons b loc => exact ⟨nofun, nofun⟩
    · simp only [h1, if_false]
      by_cases h2 : cs!"p" = a
      · simp only [h2, if_true]
        cases loc with
        | nil => exact ⟨fun l h => ⟨_, rfl⟩, nofun⟩
        | cons b loc => exact ⟨nofun, nofun⟩
      · simp only [h2, if_false]
        exact ⟨nofun, nofun⟩

/-- The file systems of the example. -/
def FsCh (fs : Fs) : Prop := ∃ t ∈ [treeCh0, treeCh1, treeCh2], fs = treeFs t []

/-- Two resolvers that share a cache. -/
def cfgCh (_ : Nat) : Config := config optsA 0

mutual
/-- All files of the tree satisfy `P`. -/
def Tree.allFile (P : Option Doc → Bool) : Tree → Bool
  | .file d _ => P d
  | .dir l => allFileList P l
/-- See `Tree.allFile`. -/
def allFileList (P : Option Doc → Bool) : List (Str × Tree) → Bool
  | [] => true
  | (_, t) :: l => t.allFile P && allFileList P l
end

theorem allFile_alookup {P : Option Doc → Bool} {l : List (Str × Tree)} {n : Str} {t : Tree}
    (h : allFileList P l = true) (hl : alookup n l = some t) : t.allFile P = true := by
  induction l with
  | nil => cases hl
  | cons kv l ih =>
    obtain ⟨k, u⟩ := kv
    simp only [allFileList, Bool.and_eq_true] at h
    simp only [alookup] at hl
    split at hl
    · cases hl; exact h.1
    · exact ih h.2 hl

theorem allFile_at {P : Option Doc → Bool} {t u : Tree} {loc : List Str} (h : t.allFile P = true)
    (hl : t.at loc = some u) : u.allFile P = true := by
  induction loc generalizing t with
  | nil => cases hl; exact h
  | cons n loc ih =>
    simp only [Tree.at] at hl
    split at hl
    · rename_i v hv
      refine ih ?_ hl
      cases t with
      | file d m => cases hv
      | dir l => exact allFile_alookup h hv
    · cases hl

/-- A description file with nothing but (well-formed) `sideEffects`. -/
def onlyEffects (d : Option Doc) : Bool :=
  match d with
  | some ⟨some (.obj [(k, .bool _)]), _⟩ => k == cs!"sideEffects"
  | _ => false

theorem readable_tree {t : Tree} (h : t.allFile onlyEffects = true) (desc : Str) :
    Readable (treeFs t []) desc := by
  intro d _ hh
  have hf := hh.2
  have key : ∀ n, t.node [] (pjoin d desc) = some n → n.allFile onlyEffects = true := by
    intro n hn
    unfold Tree.node at hn
    split at hn
    · exact allFile_at h hn
    · cases hn
  simp only [treeFs] at hf
  split at hf
  · rename_i doc m hn
    have hP : onlyEffects doc = true := key _ hn
    unfold onlyEffects at hP
    split at hP
    · rename_i k b jc
      obtain rfl : k = cs!"sideEffects" := by simpa using hP
      refine ⟨⟨d, none, none, [], none, none, some (.bool b), .obj [(cs!"sideEffects", .bool b)]⟩, ?_⟩
      simp only [readPkg, treeFs, hn]
      rfl
    · cases hP
  · cases hf

theorem changing_ch : Changing cfgCh serJson FsCh where
  static fs h := by
    obtain ⟨t, ht, rfl⟩ := h
    simp only [List.mem_cons, List.not_mem_nil, or_false] at ht
    rcases ht with rfl | rfl | rfl <;> exact static_tree rfl rfl rfl (by decide +kernel)
  relative rid desc h := by
    obtain rfl : cs!"package.json" = desc := Option.some.inj h
    decide
  readable fs rid desc h _ := by
    obtain ⟨t, ht, rfl⟩ := h
    refine readable_tree ?_ desc
    simp only [List.mem_cons, List.not_mem_nil, or_false] at ht
    rcases ht with rfl | rfl | rfl <;> decide +kernel
  mix fs fs' v tr _ h _ hi _ := by
    obtain ⟨t, ht, rfl⟩ := h
    obtain ⟨p, doc, json, hr, hj, hv⟩ := hi
    have hall : t.allDoc (fun d => match d.json with
        | none => true
        | some j => (j.get cs!"imports").isNone) = true := by
      simp only [List.mem_cons, List.not_mem_nil, or_false] at ht
      rcases ht with rfl | rfl | rfl <;> decide +kernel
    have := allDoc_read hall hr
    simp only [hj, hv] at this
    cases this

/-- A call of resolver `rid`, number `i`, that runs to its end. -/
def askCh (rid i : Nat) : List Event :=
  .start rid (.sideEffects cs!"/p") 20 :: List.replicate 20 (.step i 0)

/-- Calls of both resolvers before and after each change. -/
def histCh : List Event :=
  askCh 0 0 ++ .change (treeFs treeCh1 []) :: (askCh 1 1 ++ askCh 0 2)

theorem turns_append (l l' : List Event) (s : Sys) :
    Turns cfg ser F s (l ++ l') ↔ Turns cfg ser F s l ∧ Turns cfg ser F (s.after cfg ser l) l' := by
  induction l generalizing s with
  | nil => exact ⟨fun h => ⟨trivial, h⟩, fun h => h.2⟩
  | cons e l ih =>
    show _ ∧ Turns _ _ _ _ (l ++ l') ↔ (_ ∧ _) ∧ _
    rw [ih, and_assoc]
    exact Iff.rfl

theorem turns_ask {rid i : Nat} {s : Sys} (h : s.Idle) : Turns cfg ser F s (askCh rid i) := by
  have key : ∀ k (s : Sys), Turns cfg ser F s (List.replicate k (.step i 0)) := by
    intro k
    induction k with
    | zero => intro s; trivial
    | succ k ih => intro s; exact ⟨trivial, ih _⟩
  exact ⟨⟨h, by show isAbs _ = true; decide⟩, key _ _⟩

theorem next_fs {s : Sys} {i seed : Nat} : (s.next cfg ser (.step i seed)).fs = s.fs := by
  unfold Sys.next
  simp only
  split
  · rfl
  · split <;> rfl

theorem after_cons (e : Event) (l : List Event) (s : Sys) :
    s.after cfg ser (e :: l) = (s.next cfg ser e).after cfg ser l := rfl

theorem ask_fs {rid i : Nat} {s : Sys} : (s.after cfg ser (askCh rid i)).fs = s.fs := by
  have key : ∀ k (s : Sys), (s.after cfg ser (List.replicate k (.step i 0))).fs = s.fs := by
    intro k
    induction k with
    | zero => intro s; rfl
    | succ k ih => intro s; exact (ih _).trans next_fs
  unfold askCh
  rw [after_cons, key]
  rfl

theorem change_fs {s : Sys} : (s.next cfg ser (.change fs)).fs = fs := rfl

theorem after_append (l l' : List Event) (s : Sys) :
    s.after cfg ser (l ++ l') = (s.after cfg ser l).after cfg ser l' := by
  simp [Sys.after, List.foldl_append]

/-- No call is in progress (as a program). -/
def Sys.idle (s : Sys) : Bool := s.tasks.all fun t => t.prog.outcome.isSome

theorem Sys.idle_iff {s : Sys} (h : s.idle = true) : s.Idle := by
  intro t ht
  exact Option.isSome_iff_exists.1 (List.all_eq_true.1 h t ht)

/-- `sideEffects` returned by call number `i`. -/
def Sys.effects (s : Sys) (i : Nat) : Option SideEffects :=
  match s.outcome i with
  | some (.done (.sideEffects (.ok (some (_, e))))) => e
  | _ => none

theorem update_ch01 (rid : Nat) (desc : Str) (h : (cfgCh rid).opts.descriptionFile = some desc) :
    Update (treeFs treeCh0 []) (treeFs treeCh1 []) desc (cfgCh rid).duration := by
  obtain rfl : cs!"package.json" = desc := Option.some.inj h
  exact evolves_ch01.update rfl (by decide) (by unfold Fs.Has; decide +kernel)

theorem update_ch12 (rid : Nat) (desc : Str) (h : (cfgCh rid).opts.descriptionFile = some desc) :
    Update (treeFs treeCh1 []) (treeFs treeCh2 []) desc (cfgCh rid).duration := by
  obtain rfl : cs!"package.json" = desc := Option.some.inj h
  exact evolves_ch12.update rfl (by decide) (by unfold Fs.Has; decide +kernel)

/-- The history meets the hypotheses of the theorems about C35. -/
theorem turns_ch : Turns cfgCh serJson FsCh (Sys.init (treeFs treeCh0 [])) histCh := by
  unfold histCh
  rw [turns_append]
  refine ⟨turns_ask (Sys.idle_iff (by decide +kernel)), ⟨Sys.idle_iff (by decide +kernel), ?_, ?_⟩, ?_⟩
  · exact ⟨treeCh1, by simp, rfl⟩
  · intro rid desc h
    rw [ask_fs]
    exact update_ch01 rid desc h
  · rw [turns_append]
    exact ⟨turns_ask (Sys.idle_iff (by decide +kernel)), turns_ask (Sys.idle_iff (by decide +kernel))⟩

/-- All calls came to an end, and both resolvers noticed the change. -/
example : let s := (Sys.init (treeFs treeCh0 [])).after cfgCh serJson histCh
    s.effects 0 = some (.bool true) ∧ s.effects 1 = some (.bool false) ∧
      s.effects 2 = some (.bool false) := by
  decide +kernel

/-- A later creation of `/p/package.json` meets the hypotheses of `C36_below_partial`. -/
example : Turns cfgCh serJson FsCh (Sys.init (treeFs treeCh0 []))
    (histCh ++ [.change (treeFs treeCh2 [])]) ∧
    closest (treeFs treeCh2 []) cs!"package.json" cs!"/p" = some cs!"/p" := by
  refine ⟨(turns_append _ _ _).2 ⟨turns_ch, ⟨Sys.idle_iff (by decide +kernel), ?_, ?_⟩, trivial⟩,
    by decide +kernel⟩
  · exact ⟨treeCh2, by simp, rfl⟩
  · intro rid desc h
    have : ((Sys.init (treeFs treeCh0 [])).after cfgCh serJson histCh).fs = treeFs treeCh1 [] := by
      unfold histCh
      rw [after_append]
      rw [after_cons, after_append, ask_fs, ask_fs, change_fs]
    rw [this]
    exact update_ch12 rid desc h

/-- And so does the next call. -/
example : ((Sys.init (treeFs treeCh0 [])).after cfgCh serJson
    (histCh ++ .change (treeFs treeCh2 []) :: askCh 0 3)).effects 3 = some (.bool true) := by
  decide +kernel

/-- Before the creation of `/p/package.json`, any history; the hypotheses of `C36_new_partial`. -/
example : let F : Fs → Prop := fun f => ∃ t ∈ [treeCh0, treeCh1], f = treeFs t []
    Static cfgCh serJson (treeFs treeCh2 []) ∧
    (∀ f v t, F f → IsField (treeFs treeCh2 []) cs!"exports" v → IsField f cs!"imports" v →
      buildTree .imports v = some (.ok t) → buildTree .exports v = some (.ok t)) ∧
    (treeFs treeCh2 []).Has cs!"package.json" cs!"/p" ∧
    ∀ f p, F f → comps p = comps (pjoin cs!"/p" cs!"package.json") → f.read p = none := by
  refine ⟨changing_ch.static _ ⟨treeCh2, by simp, rfl⟩, fun f v t hf => ?_, by unfold Fs.Has; decide +kernel,
    fun f p hf hp => ?_⟩
  · obtain ⟨u, hu, rfl⟩ := hf
    refine changing_ch.mix _ _ v t ⟨treeCh2, by simp, rfl⟩ ⟨u, ?_, rfl⟩
    simp only [List.mem_cons, List.not_mem_nil, or_false] at hu ⊢
    grind
  · obtain ⟨u, hu, rfl⟩ := hf
    have ha : isAbs p = true := by rw [isAbs_of_comps hp]; decide +kernel
    have hn : (u.at (normNames (pjoin cs!"/p" cs!"package.json"))).isSome = false := by
      simp only [List.mem_cons, List.not_mem_nil, or_false] at hu
      rcases hu with rfl | rfl <;> decide +kernel
    have : u.node [] p = none := by
      unfold Tree.node
      split
      · rename_i loc hloc
        obtain ⟨h1, h2⟩ := Tree.lookup_abs ha hloc
        rw [h1, normNames, hp, ← normNames, hn] at h2
        cases h2
      · rfl
    simp only [treeFs, this]

/-- `/p/package.json` with `main`, and two files. -/
def treeM (main : Str) (m : Nat) : Tree :=
  .dir [(cs!"p", .dir [
    (cs!"package.json", timedFile (.obj [(cs!"main", .str main)]) m),
    (cs!"a.js", textFile), (cs!"b.js", textFile), (cs!"index.js", textFile),
    (cs!"sub", .dir [])])]

/-- One call, number `i`, that runs to its end. -/
def askM (i : Nat) : List Event :=
  .start 0 (.resolve cs!"/" cs!"./p") 20 :: List.replicate 40 (.step i 0)

/-- The result of call number `i`. -/
def resultM (t : Tree) (l : List Event) (i : Nat) : Option Str :=
  (((Sys.init (treeFs t [])).after cfgCh serJson l).info i).map Info.path

/-- The bound of one second is sharp: with one nanosecond less the old contents are used. -/
theorem C35_soon_sharp :
    resultM (treeM cs!"./a.js" 0)
      (askM 0 ++ .change (treeFs (treeM cs!"./b.js" 999999999) []) :: askM 1) 1 = some cs!"/p/a.js" ∧
    resultM (treeM cs!"./a.js" 0)
      (askM 0 ++ .change (treeFs (treeM cs!"./b.js" 1000000000) []) :: askM 1) 1 = some cs!"/p/b.js" := by
  decide +kernel

/-- A time that goes back makes every later call fail. -/
theorem C35_backwards_fails :
    let l := askM 0 ++ .change (treeFs (treeM cs!"./b.js" 4) []) :: (askM 1 ++ askM 2)
    let s := (Sys.init (treeFs (treeM cs!"./a.js" 5) [])).after cfgCh serJson l
    s.failed 1 = true ∧ s.failed 2 = true := by
  decide +kernel

/-- Like `treeM`, but the description file is not JSON. -/
def treeMalformed (m : Nat) : Tree :=
  .dir [(cs!"p", .dir [
    (cs!"package.json", .file (some ⟨none, .error cs!"not json"⟩) m),
    (cs!"a.js", textFile), (cs!"b.js", textFile), (cs!"index.js", textFile),
    (cs!"sub", .dir [])])]

/-- C35 does not hold for malformed contents: the error is reported once, then the old contents are
used, though nothing changed in between. -/
theorem C35_malformed_violated :
    let l := askM 0 ++ .change (treeFs (treeMalformed 2000000000) []) :: (askM 1 ++ askM 2)
    let t := treeM cs!"./a.js" 0
    ((Sys.init (treeFs t [])).after cfgCh serJson l).failed 1 = true ∧
      resultM t l 2 = some cs!"/p/a.js" := by
  decide +kernel

/-- Call 0 has read the file but not yet stored the package when the file changes; call 1 reads the
new contents; call 0 goes on; call 2. -/
def histRace : List Event :=
  .start 0 (.resolve cs!"/" cs!"./p") 20 :: List.replicate 2 (.step 0 0) ++
    .change (treeFs (treeM cs!"./b.js" 2000000000) []) :: askM 1 ++
    List.replicate 40 (.step 0 0) ++ askM 2

/-- C35 does not hold when calls are in progress during the change: call 0 overwrites the package that
call 1 stored, and the old contents are used from then on. -/
theorem C35_race_violated :
    resultM (treeM cs!"./a.js" 0) histRace 1 = some cs!"/p/b.js" ∧
      resultM (treeM cs!"./a.js" 0) histRace 2 = some cs!"/p/a.js" := by
  decide +kernel

/-- Call 0 is over when the file changes. Call 1 has recorded the new time but not yet stored the
package when call 2 starts. -/
def histOvertaken : List Event :=
  askM 0 ++ .change (treeFs (treeM cs!"./b.js" 2000000000) []) ::
    .start 0 (.resolve cs!"/" cs!"./p") 20 :: List.replicate 3 (.step 1 0) ++ askM 2

/-- C35 does not hold for calls that run at the same time after the change: call 2 starts after the
change and uses the old contents. -/
theorem C35_overtaken_violated :
    resultM (treeM cs!"./a.js" 0) histOvertaken 2 = some cs!"/p/a.js" := by
  decide +kernel

/-- `treeM` without the description file. -/
def treeDeleted : Tree :=
  .dir [(cs!"p", .dir [(cs!"a.js", textFile), (cs!"b.js", textFile), (cs!"index.js", textFile),
    (cs!"sub", .dir [])])]

/-- C36 does not hold for deleted files: the deleted description file is still used. (A fresh resolver
finds `/p/index.js`.) -/
theorem C36_deleted_violated :
    resultM (treeM cs!"./a.js" 0) (askM 0 ++ .change (treeFs treeDeleted []) :: askM 1) 1 =
        some cs!"/p/a.js" ∧
      resultM treeDeleted (askM 0) 0 = some cs!"/p/index.js" := by
  decide +kernel

/-- `sideEffects` of a directory below, as call number `i`. -/
def askSub (i : Nat) : List Event :=
  .start 0 (.sideEffects cs!"/p/sub") 20 :: List.replicate 20 (.step i 0)

/-- The tree with a description file in `/p`, and the same without. -/
def treeSub (there : Bool) : Tree :=
  .dir [(cs!"p", .dir
    ((cs!"sub", .dir []) :: if there then
      [(cs!"package.json", timedFile (.obj [(cs!"sideEffects", .bool true)]) 0)] else []))]

/-- C36 does not hold for created files: for a directory that was looked at before, a description file
created above it is not noticed. (A fresh resolver finds it.) -/
theorem C36_above_violated :
    ((Sys.init (treeFs (treeSub false) [])).after cfgCh serJson
        (askSub 0 ++ .change (treeFs (treeSub true) []) :: askSub 1)).effects 1 = none ∧
      ((Sys.init (treeFs (treeSub true) [])).after cfgCh serJson (askSub 0)).effects 0 =
        some (.bool true) := by
  decide +kernel

end Verif
