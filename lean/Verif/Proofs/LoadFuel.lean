import Verif.Proofs.Blame
/-!
# The loader comes to an end
-/

namespace Verif

/-- More fuel does not change what `find_up` finds. -/
theorem findUp_fuel (fs : Fs) (file : Str) {n : Nat} {dir : Str} (h : dir.length < n) :
    findUp fs file n dir = findUp fs file (dir.length + 1) dir := by
  suffices key : ∀ n m (dir : Str), dir.length < n → dir.length < m →
      findUp fs file n dir = findUp fs file m dir from key _ _ _ h (Nat.lt_succ_self _)
  clear h n dir
  intro n
  induction n with
  | zero => intro m dir h; omega
  | succ n ih =>
    intro m dir h1 h2
    cases m with
    | zero => omega
    | succ m =>
      unfold findUp
      split
      · rfl
      · cases hp : pparent dir with
        | none => rfl
        | some parent =>
          have := pparent_length hp
          exact ih m parent (by omega) (by omega)

/-- The panics of the loader. -/
inductive LoadSite (e : Env) : Site → Prop where
  | exports {v : Json} : IsField e.fs cs!"exports" v → buildTree .exports v = none → LoadSite e .buildTree
  | imports {v : Json} : IsField e.fs cs!"imports" v → buildTree .imports v = none → LoadSite e .buildTree
  | browser {l : List (Str × Json)} {k : Str} : IsField e.fs cs!"browser" (.obj l) →
      (k, .bool true) ∈ l → LoadSite e .browserTrue
  | debug : e.debug = true → LoadSite e .dbgReparse

/-- The crashes of the loader. -/
def LoadCrash (e : Env) (path : Str) : Crash → Prop
  | .fuel => False
  | .hang => ¬ (e.fs.Lawful ∧ isAbs path = true)
  | .panic s => LoadSite e s

theorem good_needUpdate {Y : (o : Op) → o.Ret → Prop} {B : Crash → Prop} (e : Env) (path : Str) :
    (needUpdate e path).Good Y B fun _ => True := by
  unfold needUpdate
  split
  · trivial
  · intro r _
    cases r with
    | none => trivial
    | some stored =>
      show Prog.Good Y B _ (match e.fs.mtime path with
        | none => _
        | some now => _)
      split
      · trivial
      · split <;> trivial

theorem good_exportsTree {e : Env} {Y : (o : Op) → o.Ret → Prop} {B : Crash → Prop} {json : Json}
    (hB : ∀ v, json.get cs!"exports" = some v → buildTree .exports v = none → B (.panic .buildTree)) :
    (exportsTreeOf e json).Good Y B fun _ => True := by
  unfold exportsTreeOf
  split
  · trivial
  · rename_i value hv
    intro r _
    cases r with
    | some tree => trivial
    | none =>
      show Prog.Good Y B _ (match buildTree .exports value with
        | none => _
        | some (.error err) => _
        | some (.ok tree) => _)
      split
      · rename_i h
        exact hB value hv h
      · trivial
      · exact fun _ _ => trivial

theorem good_importsTree {e : Env} {Y : (o : Op) → o.Ret → Prop} {B : Crash → Prop} {json : Json}
    (hB : ∀ v, json.get cs!"imports" = some v → buildTree .imports v = none → B (.panic .buildTree)) :
    (importsTreeOf e json).Good Y B fun _ => True := by
  unfold importsTreeOf
  split
  · trivial
  · rename_i value hv
    intro r _
    cases r with
    | some tree => trivial
    | none =>
      show Prog.Good Y B _ (match buildTree .imports value with
        | none => _
        | some (.error err) => _
        | some (.ok tree) => _)
      split
      · rename_i h
        exact hB value hv h
      · trivial
      · exact fun _ _ => trivial

theorem good_parseAndStore {e : Env} {Y : (o : Op) → o.Ret → Prop} {B : Crash → Prop}
    (hB : ∀ s, LoadSite e s → B (.panic s)) (dir path : Str) :
    (parseAndStore e dir path).Good Y B fun _ => True := by
  unfold parseAndStore
  refine Prog.Good.bind (Q := fun _ => True) ?_ fun r _ => ?_
  · have key : ∀ k : Prog (Except Err Pkg), k.Good Y B (fun _ => True) → (dbgGuard e path k).Good Y B fun _ => True := by
      intro k hk
      unfold dbgGuard
      split
      · rename_i hd
        intro r _
        cases r with
        | true => exact hB _ (.debug hd)
        | false => exact fun _ _ => hk
      · exact hk
    refine key _ ?_
    refine Prog.Good.bind (Q := fun r => ∀ doc, r = .ok doc → e.fs.read path = some doc) ?_ fun r hr => ?_
    · unfold readToString
      split
      · exact nofun
      · rename_i doc hdoc
        split
        · exact nofun
        · exact fun _ _ doc' h => by cases h; exact hdoc
    cases r with
    | error _ => trivial
    | ok doc =>
      show Prog.Good Y B _ (match doc.json with
        | none => _
        | some json => _)
      split
      · trivial
      · rename_i json hj
        have field : ∀ name v, json.get name = some v → IsField e.fs name v :=
          fun name v hv => ⟨path, doc, json, hr doc rfl, hj, hv⟩
        intro seed _
        show Prog.Good Y B _ (match browserFields json with
          | none => _
          | some aliasFields => _)
        split
        · rename_i h
          obtain ⟨l, k, h1, h2⟩ := browserFields_none h
          exact hB _ (.browser (field _ _ h1) h2)
        · refine (good_exportsTree fun v hv h => hB _ (.exports (field _ _ hv) h)).bind fun r _ => ?_
          cases r with
          | error _ => trivial
          | ok et =>
            refine (good_importsTree fun v hv h => hB _ (.imports (field _ _ hv) h)).bind fun r _ => ?_
            cases r with
            | error _ => trivial
            | ok it =>
              show Prog.Good Y B _ (match parseSideEffects path json with
                | .error err => _
                | .ok sideEffects => _)
              split <;> trivial
  · cases r with
    | error _ => trivial
    | ok pkg => exact fun _ _ => trivial

theorem good_cacheNone {Y : (o : Op) → o.Ret → Prop} {e : Env} {path : Str} {n : Nat} {dir : Str} (hn : dir.length < n)
    (hA : e.fs.Lawful ∧ isAbs path = true → isAbs dir = true ∧ e.fs.isDir dir = true) :
    (cacheNone e.fs n dir).Good Y (LoadCrash e path) fun _ => True := by
  induction n generalizing dir with
  | zero => omega
  | succ n ih =>
    unfold cacheNone
    split
    · rename_i hd
      intro _ _
      show Prog.Good _ _ _ (match pparent dir with
        | some parent => _
        | none => _)
      split
      · rename_i parent hp
        have := pparent_length hp
        refine ih (by omega) fun h => ?_
        exact ⟨by rw [(Above.parent hp).2]; exact (hA h).1, h.1.parent _ _ (hA h).1 hp hd⟩
      · trivial
    · rename_i hd
      exact fun h => hd (hA h).2

theorem good_loadPkgAux {Y : (o : Op) → o.Ret → Prop} {e : Env} {path : Str} {n : Nat} {dir : Str} (hn : dir.length < n)
    (hA : e.fs.Lawful ∧ isAbs path = true → isAbs dir = true) :
    (loadPkgAux e n dir).Good Y (LoadCrash e path) fun r => e.opts.descriptionFile = none → r = .ok none := by
  induction n generalizing dir with
  | zero => omega
  | succ n ih =>
    have store : ∀ d p desc, e.opts.descriptionFile = some desc → (parseAndStore e d p).Good Y (LoadCrash e path)
        fun r => e.opts.descriptionFile = none → r = .ok none := by
      intro d p desc hd
      refine (good_parseAndStore (fun _ h => h) d p).mono ?_
      intro r _ h
      rw [hd] at h
      cases h
    unfold loadPkgAux
    split
    · exact fun _ => rfl
    · rename_i desc hdesc
      have free : ∀ r : Except Err (Option Pkg), e.opts.descriptionFile = none → r = .ok none := by
        intro r h
        rw [hdesc] at h
        cases h
      split
      · split
        · rename_i parent hp
          have := pparent_length hp
          exact ih (by omega) fun h => by rw [(Above.parent hp).2]; exact hA h
        · exact free _
      · rename_i hd
        have hd : e.fs.isDir dir = true := by simpa using hd
        intro r _
        cases r with
        | some cached =>
          refine (good_needUpdate e _).bind fun r _ => ?_
          rcases r with err | (_ | _)
          · exact free _
          · exact free _
          · show Prog.Good _ _ _ (if e.debug = true then _ else _)
            split
            · exact fun _ _ => store _ _ _ hdesc
            · exact store _ _ _ hdesc
        | none =>
          show Prog.Good _ _ _ (if (!e.fs.isFile (pjoin dir desc)) = true then _ else _)
          split
          · rename_i hf
            split
            · rename_i d hfu
              unfold findUp at hfu
              rw [if_neg (by simpa using hf)] at hfu
              split at hfu
              · rename_i parent hp
                obtain ⟨h1, h2, -⟩ := findUp_above hfu
                have := pparent_length hp
                refine ih (by omega) fun h => ?_
                rw [(h1.trans (.parent hp)).2]
                exact hA h
              · cases hfu
            · exact (good_cacheNone (by omega) fun h => ⟨hA h, hd⟩).mono fun r _ => free r
          · exact store _ _ _ hdesc

/-- The fuel of the loader suffices, and on absolute paths it does not hang. -/
theorem loadPkg_fuel {Y : (o : Op) → o.Ret → Prop} (e : Env) (path : Str) :
    (loadPkg e path).Good Y (LoadCrash e path) fun r => e.opts.descriptionFile = none → r = .ok none :=
  good_loadPkgAux (Nat.lt_succ_self _) fun h => h.2

theorem good_sideEffects {Y : (o : Op) → o.Ret → Prop} (e : Env) (path : Str) :
    (loadSideEffects e path).Good Y (LoadCrash e path) fun _ => True := by
  unfold loadSideEffects
  refine (loadPkg_fuel e path).bind fun r hr => ?_
  rcases r with err | _ | pkg
  · trivial
  · trivial
  · show Prog.Good _ _ _ (match e.opts.descriptionFile with
      | none => _
      | some desc => _)
    split
    · rename_i h
      cases hr h
    · trivial

/-- What holds of every way in which a call may end, holds of its tasks. -/
theorem system_good {cfg : Nat → Config} {ser : Json → Str} {fs : Fs} {l : List Event}
    {B : Task → Crash → Prop} {Q : Task → Answer → Prop}
    (h : ∀ t : Task, (t.call.prog ((cfg t.rid).env ser t.fs) t.fuel).Good AnyRet (B { t with prog := .crash .fuel })
      (Q { t with prog := .crash .fuel }))
    {t : Task} (ht : t ∈ ((Sys.init fs).after cfg ser l).tasks) :
    t.prog.Good AnyRet (B { t with prog := .crash .fuel }) (Q { t with prog := .crash .fuel }) := by
  have key : ∀ (l : List Event) (s : Sys),
      (∀ t ∈ s.tasks, t.prog.Good AnyRet (B { t with prog := .crash .fuel }) (Q { t with prog := .crash .fuel })) →
      ∀ t ∈ (s.after cfg ser l).tasks,
        t.prog.Good AnyRet (B { t with prog := .crash .fuel }) (Q { t with prog := .crash .fuel }) := by
    intro l
    induction l with
    | nil => intro s h; exact h
    | cons e l ih =>
      intro s hs
      refine ih _ ?_
      cases e with
      | start rid call fuel =>
        intro t ht
        rcases List.mem_append.1 ht with ht | ht
        · exact hs t ht
        · rw [List.mem_singleton.1 ht]
          exact h ⟨rid, s.fs, call, fuel, .crash .fuel⟩
      | change fs => exact hs
      | step i seed =>
        unfold Sys.next
        simp only
        split
        · exact hs
        · rename_i t hi
          split
          · rename_i o k hp
            intro t' ht'
            rcases List.mem_or_eq_of_mem_set ht' with ht' | rfl
            · exact hs t' ht'
            · have := hs t (List.mem_of_getElem? hi)
              rw [hp] at this
              exact this _ trivial
          · exact hs
  exact key l (Sys.init fs) (fun t ht => by cases ht) t ht

end Verif
