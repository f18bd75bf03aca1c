import Verif.Proofs.Options
/-!
# A call uses the loader of description files only by calling it

`p.Paired f g S q`: the programs are the same, but where `p` calls `f`, `q` calls `g`. Apart from that they
ask for hash seeds at most, and for none if `S` does not hold.
-/

namespace Verif

/-- What loading a description file gives. -/
abbrev LoadAns := Except Err (Option Pkg)

/-- See the file comment. -/
inductive Prog.Paired {α : Type} (f g : Str → Prog LoadAns) (S : Prop) : Prog α → Prog α → Prop where
  | ret (a : α) : Paired f g S (.ret a) (.ret a)
  | crash (c : Crash) : Paired f g S (.crash c) (.crash c)
  | seed {k k' : Op.seed.Ret → Prog α} : S → (∀ r, Paired f g S (k r) (k' r)) →
      Paired f g S (.op .seed k) (.op .seed k')
  | load (p : Str) {k k' : LoadAns → Prog α} : (∀ r, Paired f g S (k r) (k' r)) →
      Paired f g S ((f p).bind k) ((g p).bind k')

section
variable {α β : Type} {f g : Str → Prog LoadAns} {S : Prop}

theorem Prog.Paired.bind {p q : Prog α} {k k' : α → Prog β} (h : p.Paired f g S q)
    (hk : ∀ a, (k a).Paired f g S (k' a)) : (p.bind k).Paired f g S (q.bind k') := by
  induction h with
  | ret a => exact hk a
  | crash c => exact .crash c
  | seed hS _ ih => exact .seed hS ih
  | load p _ ih =>
    rw [Prog.bind_assoc, Prog.bind_assoc]
    exact .load p ih

theorem Prog.Paired.panic (s : Site) : (Prog.panic s : Prog α).Paired f g S (Prog.panic s) := .crash _

theorem Stats.paired_andThen {k k' : Info → Prog Stats} (h : ∀ i, (k i).Paired f g S (k' i)) (s : Stats) :
    (s.andThen k).Paired f g S (s.andThen k') := by
  cases s with
  | resolving i => exact h i
  | success r => exact .ret _
  | error e i => exact .ret _

end

/-- The same resolver with another loader, in another build. -/
def Ctx.via (c : Ctx) (g : Str → Prog LoadAns) (debug : Bool) : Ctx := ⟨c.opts, c.fs, debug, g⟩

section
variable {c : Ctx} {g : Str → Prog LoadAns} {b : Bool} {S : Prop}

local notation "Pd" => Prog.Paired c.load g S

theorem via_pick (c : Ctx) (g : Str → Prog LoadAns) (b : Bool) : exportsPick (c.via g b) = exportsPick c := by
  funext d l
  induction l with
  | nil => rfl
  | cons x l ih => simp only [exportsPick, ih]; rfl

theorem via_exports (c : Ctx) (g : Str → Prog LoadAns) (b : Bool) :
    exportsPlugin (c.via g b) = exportsPlugin c := by
  funext p i
  unfold exportsPlugin
  rw [via_pick]
  rfl

theorem paired_exports (pkg : Option Pkg) (i : Info) : Pd (exportsPlugin c pkg i) (exportsPlugin c pkg i) := by
  unfold exportsPlugin exportsRequestOf
  simp only
  repeat' split
  all_goals first
    | exact .ret _
    | exact .crash _
    | skip
  all_goals
    simp only [Prog.panic, Prog.bind]
    repeat' split
  all_goals first
    | exact .ret _
    | exact .crash _

theorem paired_aliasField (n : Nat) (pkg : Option Pkg) (i : Info) :
    Pd (aliasFieldPlugin c n pkg i) (aliasFieldPlugin (c.via g b) n pkg i) := by
  have : aliasFieldPlugin (c.via g b) n pkg i = aliasFieldPlugin c n pkg i := rfl
  rw [this]
  unfold aliasFieldPlugin
  repeat' split
  all_goals first
    | exact .ret _
    | exact .crash _

theorem paired_imports (n : Nat) (pkg : Option Pkg) (i : Info) :
    Pd (importsPlugin c n pkg i) (importsPlugin (c.via g b) n pkg i) := by
  induction n generalizing pkg i with
  | zero => exact .crash _
  | succ n ih =>
    cases pkg with
    | none => exact .ret _
    | some pkg =>
      unfold importsPlugin
      have e : importsCheck (c.via g b) = importsCheck c := rfl
      have e2 : (c.via g b).opts = c.opts := rfl
      simp only [via_exports, e, e2]
      split
      · exact .ret _
      · split
        · exact .ret _
        · split
          · exact .crash _
          · exact .ret _
          · exact .ret _
          · split
            · refine .load _ fun r => ?_
              cases r with
              | error e => exact .ret _
              | ok pkg' =>
                dsimp only
                split
                · exact .ret _
                · exact (paired_exports _ _).bind fun s => (Stats.paired_andThen (fun i => ih pkg' i) s).bind
                    fun s => (Stats.paired_andThen (fun i => paired_aliasField n pkg' i) s).bind fun s =>
                    Stats.paired_andThen (fun i => .ret _) s
            · split
              · exact ih _ _
              · exact .ret _

theorem paired_mainFileLoop (n : Nat) (pkg : Option Pkg) (info : Info) (l : List Str) (cur : Info) :
    Pd (mainFileLoop c n pkg info l cur) (mainFileLoop (c.via g b) n pkg info l cur) := by
  induction l generalizing cur with
  | nil => exact .ret _
  | cons x l ih =>
    have e : resolveAsFile (c.via g b) = resolveAsFile c := rfl
    simp only [mainFileLoop, via_exports, e]
    refine Prog.Paired.bind ((paired_exports _ _).bind fun s =>
      (Stats.paired_andThen (fun i => paired_imports n pkg i) s).bind fun s =>
      (Stats.paired_andThen (fun i => paired_aliasField n pkg i) s).bind fun s =>
      Stats.paired_andThen (fun i => .ret _) s) fun s => ?_
    cases s with
    | success r => exact .ret _
    | resolving i => exact ih i
    | error e i => exact ih i

theorem paired_mainFieldLoop (n : Nat) {asDir asDir' : Info → Prog Stats} (hd : ∀ i, Pd (asDir i) (asDir' i))
    (pkg : Pkg) (info : Info) (l : List Str) (cur : Info) :
    Pd (mainFieldLoop c n asDir pkg info l cur) (mainFieldLoop (c.via g b) n asDir' pkg info l cur) := by
  induction l generalizing cur with
  | nil => exact .ret _
  | cons x l ih =>
    have e : resolveAsFile (c.via g b) = resolveAsFile c := rfl
    simp only [mainFieldLoop, e]
    split
    · exact ih cur
    · split
      · exact .ret _
      · refine Prog.Paired.bind ((paired_aliasField n (some pkg) _).bind fun s =>
          (Stats.paired_andThen (fun i => .ret _) s).bind fun s => Stats.paired_andThen hd s) fun s => ?_
        cases s with
        | success r => exact .ret _
        | resolving i => exact ih i
        | error e i => exact ih i

theorem paired_dir (n : Nat) (i : Info) : Pd (resolveAsDir c n i) (resolveAsDir (c.via g b) n i) := by
  induction n generalizing i with
  | zero => exact .crash _
  | succ n ih =>
    have e : (c.via g b).fs = c.fs := rfl
    unfold resolveAsDir
    simp only [e]
    split
    · exact .ret _
    · refine .load _ fun r => ?_
      cases r with
      | error e => exact .ret _
      | ok pkg =>
        refine Prog.Paired.bind ?_ fun s =>
          Stats.paired_andThen (fun i => paired_mainFileLoop n pkg i c.opts.mainFiles i) s
        cases pkg with
        | none => exact .ret _
        | some pkg =>
          unfold mainFieldPlugin
          simp only
          split
          · exact .ret _
          · exact paired_mainFieldLoop n ih pkg _ _ _

theorem paired_moduleStep (n : Nat) (i : Info) :
    Pd (moduleStep c n i) (moduleStep (c.via g b) n i) := by
  have e : resolveAsFile (c.via g b) = resolveAsFile c := rfl
  have e2 : (c.via g b).fs = c.fs := rfl
  unfold moduleStep
  simp only [e, e2]
  split
  · exact .ret _
  · split
    · exact .panic _
    · refine .load _ fun r => ?_
      cases r with
      | error e => exact .ret _
      | ok pkg =>
        dsimp only
        split
        · split <;> exact .ret _
        · refine Prog.Paired.bind ?_ fun s => ?_
          · unfold modulePackageChain
            simp only [e, via_exports]
            exact (paired_exports _ _).bind fun s => (Stats.paired_andThen (fun i => paired_imports n pkg i) s).bind
              fun s => (Stats.paired_andThen (fun i => paired_aliasField n pkg _) s).bind fun s =>
              (Stats.paired_andThen (fun i => .ret _) s).bind fun s =>
              Stats.paired_andThen (fun i => paired_dir n i) s
          · cases s with
            | error e i => dsimp only; split <;> exact .ret _
            | success r => exact .ret _
            | resolving i => exact .ret _

theorem paired_modules (n : Nat) (i : Info) :
    Pd (resolveAsModules c n i) (resolveAsModules (c.via g b) n i) := by
  induction n generalizing i with
  | zero => exact .crash _
  | succ n ih =>
    unfold resolveAsModules
    refine (paired_moduleStep n i).bind fun sb => ?_
    obtain ⟨s, b⟩ := sb
    cases b with
    | true => exact .ret _
    | false =>
      refine Prog.Paired.bind (Stats.paired_andThen (fun i => ?_) s) fun s => ?_
      · split
        · exact ih _
        · exact .ret _
      · cases s <;> exact .ret _

theorem paired_aliasLoop (info : Info) {rec rec' : Info → Prog Stats} (hr : ∀ i, Pd (rec i) (rec' i))
    (l : List (Str × AliasMap)) : Pd (aliasLoop rec info l) (aliasLoop rec' info l) := by
  induction l with
  | nil => exact .ret _
  | cons x l ih =>
    obtain ⟨k, to⟩ := x
    unfold aliasLoop
    simp only
    split
    · split
      · split
        · exact ih
        · refine (hr _).bind fun s => ?_
          cases s with
          | success r => exact .ret _
          | resolving i => exact ih
          | error e i => exact ih
      · exact .ret _
    · exact ih

theorem paired_inner (n : Nat) (i : Info) : Pd (resolveInner c n i) (resolveInner (c.via g b) n i) := by
  induction n generalizing i with
  | zero => exact .crash _
  | succ n ih =>
    unfold resolveInner
    refine Prog.Paired.bind (Prog.Paired.bind ?_ fun s => Prog.Paired.bind (Stats.paired_andThen (fun i => ?_) s)
      fun s => Prog.Paired.bind (Stats.paired_andThen (fun i => ?_) s)
      fun s => Stats.paired_andThen (fun i => ?_) s) fun s => ?_
    · unfold aliasPlugin
      split
      · exact .ret _
      · exact paired_aliasLoop i ih _
    · unfold preferRelativePlugin
      have e : (c.via g b).opts = c.opts := rfl
      simp only [e]
      split
      · exact .ret _
      · split
        · refine (ih _).bind fun s => ?_
          cases s <;> exact .ret _
        · exact .ret _
    · unfold pkgStage
      simp only
      refine .load _ fun r => ?_
      cases r with
      | error e => exact .ret _
      | ok pkg => exact (paired_imports n pkg i).bind fun s =>
          Stats.paired_andThen (fun i => paired_aliasField n pkg i) s
    · unfold lastStage
      have e : resolveAsFile (c.via g b) = resolveAsFile c := rfl
      rw [e]
      split
      · exact Stats.paired_andThen (fun i => paired_dir n i) _
      · exact Stats.paired_andThen (fun i => paired_dir n i) _
      · exact Stats.paired_andThen (fun i => paired_dir n i) _
      · exact paired_modules n i
    · cases s with
      | success r => exact .ret _
      | error e i => exact .ret _
      | resolving i => exact .panic _

theorem paired_tsValue (n : Nat) (location : Str) :
    Pd (tsValue c n location) (tsValue (c.via g b) n location) := by
  induction n generalizing location with
  | zero => exact .crash _
  | succ n ih =>
    have e : (c.via g b).fs = c.fs := rfl
    unfold tsValue
    rw [e]
    split
    · exact .ret _
    · split
      · exact .ret _
      · exact .panic _
      · split
        · split
          · exact .panic _
          · refine (paired_inner n _).bind fun s => ?_
            cases s with
            | error e i => exact .ret _
            | resolving i => exact .ret _
            | success r =>
              cases r with
              | ignored => exact .ret _
              | info i =>
                refine (ih _).bind fun r => ?_
                cases r <;> exact .ret _
        · exact .ret _

theorem paired_tsEntries {rec rec' : Info → Prog Stats} (hr : ∀ i, Pd (rec i) (rec' i)) (info : Info)
    (l : List (Str × List Str)) : Pd (tsEntries rec info l) (tsEntries rec' info l) := by
  induction l with
  | nil => exact hr _
  | cons x l ih =>
    obtain ⟨pattern, paths⟩ := x
    unfold tsEntries
    simp only
    split
    · exact .panic _
    · exact ih
    · induction paths with
      | nil => exact ih
      | cons p paths ihp =>
        refine (hr _).bind fun s => ?_
        cases s with
        | success r => exact .ret _
        | resolving i => exact ihp
        | error e i => exact ihp

theorem paired_stats (hS : c.opts.tsconfig ≠ none → S) (n : Nat) (path request : Str) :
    Pd (resolveStats c n path request) (resolveStats (c.via g b) n path request) := by
  unfold resolveStats
  have e : (c.via g b).opts = c.opts := rfl
  simp only [e]
  split
  · rename_i hts
    unfold resolveWithTsconfig
    refine (paired_tsValue n _).bind fun r => ?_
    cases r with
    | error e => exact .ret _
    | ok json =>
      dsimp only
      split
      · exact .panic _
      · split
        · exact .panic _
        · exact .seed (hS (by simp [hts])) fun r => paired_tsEntries (paired_inner n) _ _
  · exact paired_inner n _

end

end Verif
