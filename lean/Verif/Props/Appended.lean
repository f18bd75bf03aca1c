import Verif.Proofs.Appended
import Verif.Props.Packages
import Verif.Props.Options
/-!
# C70: longer lists of extensions and of main files
-/

namespace Verif

variable {cfg : Nat → Config} {ser : Json → Str} {fs : Fs}

theorem NewAnswer.of_sim {o : Opts} {exts mains : List Str} {a b : Except Err Result}
    (h : NewAnswer o exts mains fs b) (hab : AnsSim a b) : NewAnswer o exts mains fs a := by
  obtain ⟨p, q, f, h1, h2⟩ := h
  refine ⟨p, q, f, h1, ?_⟩
  cases h2 with
  | path h =>
    cases a with
    | ok a => cases (hab : a = _); exact .path h
    | error e => exact (hab : False).elim
  | noPath h h' =>
    cases a with
    | ok a => exact (hab : False).elim
    | error e => cases (hab : ErrSim e _); exact .noPath h h'

/-- C70: two resolvers have the same options, but the lists of extensions and of main files of the second
are longer at the end. After any histories, compare calls `resolve path request` of the two that are over.
The second ended like the first, or it found a file by a new extension or a new main file; so a request
that the first resolves, the second resolves. (The second needs at most one unit of the model's fuel
more.) Missing: `browser_field` is off, and there is no tsconfig. -/
theorem C70_appended_partial (hs : Static cfg ser fs) {exts mains : List Str} {l l' : List Event} {t t' : Task}
    (ho : (cfg t'.rid).opts = (cfg t.rid).opts.appended exts mains)
    (hb : (cfg t.rid).opts.browserField = false) (hts : (cfg t.rid).opts.tsconfig = none)
    (hl : ∀ e ∈ l, e.calm) (ht : t ∈ ((Sys.init fs).after cfg ser l).tasks)
    (hl' : ∀ e ∈ l', e.calm) (ht' : t' ∈ ((Sys.init fs).after cfg ser l').tasks) {path request : Str}
    (hc : t.call = .resolve path request) (hc' : t'.call = .resolve path request)
    {x x' : Outcome Answer} (hx : t.prog.outcome = some x) (hx' : t'.prog.outcome = some x')
    (hf : x ≠ .crashed .fuel) :
    (x' = .crashed .fuel ∧ t'.fuel ≤ t.fuel) ∨ x'.Like Answer.Sim x ∨
      ∃ a, x' = .done (.resolve a) ∧ NewAnswer (cfg t.rid).opts exts mains fs a := by
  obtain ⟨y, h1, h2⟩ := static_ends hs hl ht hx
  obtain ⟨y', h1', h2'⟩ := static_ends hs hl' ht' hx'
  rw [hc] at h1
  rw [hc'] at h1'
  have hyf : y ≠ .crashed .fuel := by
    rintro rfl
    cases x with
    | done a => exact h2
    | crashed c => cases (h2 : c = .fuel); exact hf rfl
  have hg : ((Call.resolve path request).pure (cfg t.rid) fs t.fuel).Grows
      (fun a => ∃ r, a = .resolve r ∧ NewAnswer (cfg t.rid).opts exts mains fs r)
      ((Call.resolve path request).pure (cfg t'.rid) fs (t.fuel + 1)) := by
    unfold Call.pure
    simp only [hs.debug, ho]
    exact (grows_resolve hb hts t.fuel path request).bind (fun r => .ret _)
      fun r hr => ⟨_, rfl, r, rfl, hr⟩
  -- how the second call ends with one unit more
  have key : ∃ z, ((Call.resolve path request).pure (cfg t'.rid) fs (t.fuel + 1)).outcome = some z ∧
      z ≠ .crashed .fuel ∧ (z = y ∨ ∃ r, z = .done (.resolve r) ∧ NewAnswer (cfg t.rid).opts exts mains fs r) := by
    generalize (Call.resolve path request).pure (cfg t.rid) fs t.fuel = p at hg h1
    generalize (Call.resolve path request).pure (cfg t'.rid) fs (t.fuel + 1) = q at hg
    cases hg with
    | fuel => cases h1; exact (hyf rfl).elim
    | ret a => cases h1; exact ⟨_, rfl, nofun, .inl rfl⟩
    | crash c => cases h1; exact ⟨_, rfl, hyf, .inl rfl⟩
    | found _ hn =>
      obtain ⟨r, rfl, hr⟩ := hn
      exact ⟨_, rfl, nofun, .inr ⟨r, rfl, hr⟩⟩
  obtain ⟨z, hz, hzf, hzy⟩ := key
  rcases ends_of_enough (callPure_cut _) hz hzf h1' with ⟨rfl, hlt⟩ | rfl
  · left
    cases x' with
    | done a => exact (h2' : False).elim
    | crashed c => cases (h2' : c = .fuel); exact ⟨rfl, by omega⟩
  · right
    rcases hzy with rfl | ⟨r, rfl, hr⟩
    · exact .inl (Answer.like_join h2' h2)
    · right
      cases x' with
      | crashed c => exact (h2' : False).elim
      | done a' =>
        cases a' with
        | sideEffects a' => exact (h2' : False).elim
        | resolve a' => exact ⟨a', rfl, hr.of_sim h2'⟩

/-- `/p/a.js`, `/p/b.ts`, `/p/d/main.ts`. -/
def treeApp : Tree :=
  .dir [(cs!"p", .dir [(cs!"a.js", textFile), (cs!"b.ts", textFile),
    (cs!"d", .dir [(cs!"main.ts", textFile)])])]

/-- Two resolvers; the second has one extension and one main file more. -/
def cfgApp (rid : Nat) : Config :=
  if rid = 0 then config optsA 0
  else { config optsA 0 with opts := (config optsA 0).opts.appended [cs!".ts"] [cs!"main"] }

theorem static_app : Static cfgApp serJson (treeFs treeApp []) where
  lawful := treeFs_lawful [] rfl
  debug rid := by unfold cfgApp; split <;> rfl
  inj _ _ := serJson_inj
  mix v t' _ h _ := by
    obtain ⟨p, doc, json, hr, hj, hv⟩ := h
    have := allDoc_read (t := treeApp) (P := fun d => d.json.isNone) (by decide +kernel) hr
    simp only [hj] at this
    cases this
  desc rid rid' d d' _ h h' := by
    have : (cfgApp rid).opts.descriptionFile = (cfgApp rid').opts.descriptionFile := by
      unfold cfgApp; split <;> split <;> rfl
    rw [h, h'] at this
    exact Option.some.inj this
  browser rid desc h := by
    have : (cfgApp rid).opts.browserField = false := by unfold cfgApp; split <;> rfl
    rw [this] at h; cases h
  tsconfig rid l h := by
    have : (cfgApp rid).opts.tsconfig = none := by unfold cfgApp; split <;> rfl
    rw [this] at h; cases h

-- the hypotheses are met; the same file, a new extension, a new main file (in a directory on which the
-- first resolver panics)
example : (cfgApp 1).opts = (cfgApp 0).opts.appended [cs!".ts"] [cs!"main"] ∧
    (cfgApp 0).opts.browserField = false ∧ (cfgApp 0).opts.tsconfig = none := ⟨rfl, rfl, rfl⟩
example :
    let run := (Sys.init (treeFs treeApp [])).after cfgApp serJson (oneByOne 60 0
      [(0, .resolve cs!"/p" cs!"./a"), (1, .resolve cs!"/p" cs!"./a"),
       (0, .resolve cs!"/p" cs!"./b"), (1, .resolve cs!"/p" cs!"./b"),
       (0, .resolve cs!"/p" cs!"./d"), (1, .resolve cs!"/p" cs!"./d")])
    run.info 0 = some ⟨cs!"/p/a.js", Request.empty⟩ ∧ run.info 1 = some ⟨cs!"/p/a.js", Request.empty⟩ ∧
    run.failed 2 = true ∧ run.info 3 = some ⟨cs!"/p/b.ts", Request.empty⟩ ∧
    run.crash 4 = some (.panic .resolveUnreachable) ∧ run.info 5 = some ⟨cs!"/p/d/main.ts", Request.empty⟩ := by decide +kernel

/-- `/p`: `a.ts` is to be ignored in browsers. -/
def treeAppBr : Tree :=
  .dir [(cs!"p", .dir [
    (cs!"package.json", jsonFile (.obj [(cs!"browser", .obj [(cs!"./a.ts", .bool false)])])),
    (cs!"a.js", textFile)])]

/-- C70 does not hold with `browser` maps: the request for `./a`, which names the file `a.js`, is ignored
once `.ts` is an extension, though there is no file `a.ts`. -/
theorem C70_browser_violated :
    let o := { optsA with browserField := true }
    (treeFs treeAppBr []).isFile cs!"/p/a.ts" = false ∧
    (resolve (treeEnv o treeAppBr) 20 cs!"/p" cs!"./a").freshInfo = some ⟨cs!"/p/a.js", Request.empty⟩ ∧
    (resolve (treeEnv (o.appended [cs!".ts"] []) treeAppBr) 20 cs!"/p" cs!"./a").freshIgnored = true := by
  decide +kernel

/-- `/p` with a tsconfig that extends `./base`, which is `base.ts`. -/
def treeAppTs : Tree :=
  .dir [(cs!"p", .dir [
    (cs!"tsconfig.json", jsonFile (.obj [(cs!"extends", .str cs!"./base")])),
    (cs!"base.ts", jsonFile (.obj [(cs!"compilerOptions", .obj [(cs!"baseUrl", .str cs!"."),
      (cs!"paths", .obj [(cs!"./a", .arr [.str cs!"b.js"])])])])),
    (cs!"a.js", textFile), (cs!"b.js", textFile)])]

/-- C70 does not hold with a tsconfig: the new extension decides which file the tsconfig extends, and so
which file a request is for. -/
theorem C70_tsconfig_violated :
    let o := { optsA with tsconfig := some cs!"/p/tsconfig.json" }
    (resolve (treeEnv o treeAppTs) 20 cs!"/p" cs!"./a").freshInfo = some ⟨cs!"/p/a.js", Request.empty⟩ ∧
    (resolve (treeEnv (o.appended [cs!".ts"] []) treeAppTs) 20 cs!"/p" cs!"./a").freshInfo =
      some ⟨cs!"/p/b.js", Request.empty⟩ := by
  decide +kernel

end Verif
