import Verif.Model.Machine
import Verif.Spec.Exec
/-!
# Fuel

With more fuel a call does the same, except that it goes on where it ran out of fuel before.
-/

namespace Verif

/-- `p` is `q`, cut short in places. -/
inductive Prog.Cut {α : Type} : Prog α → Prog α → Prop where
  | fuel (q : Prog α) : Prog.Cut (.crash .fuel) q
  | ret (a : α) : Prog.Cut (.ret a) (.ret a)
  | crash (c : Crash) : Prog.Cut (.crash c) (.crash c)
  | op {o : Op} {k k' : o.Ret → Prog α} : (∀ r, Prog.Cut (k r) (k' r)) →
      Prog.Cut (.op o k) (.op o k')

theorem Prog.Cut.refl {α : Type} (p : Prog α) : p.Cut p := by
  induction p with
  | ret a => exact .ret a
  | crash c => exact .crash c
  | op o k ih => exact .op ih

theorem Prog.Cut.trans {α : Type} {p q r : Prog α} (h : p.Cut q) (h' : q.Cut r) : p.Cut r := by
  induction h generalizing r with
  | fuel q => exact .fuel r
  | ret a => exact h'
  | crash c => exact h'
  | op _ ih =>
    cases h' with
    | op hk => exact .op fun x => ih x (hk x)

theorem Prog.Cut.bind {α β : Type} {p q : Prog α} {f g : α → Prog β} (h : p.Cut q)
    (hf : ∀ a, (f a).Cut (g a)) : (p.bind f).Cut (q.bind g) := by
  induction h with
  | fuel q => exact .fuel _
  | ret a => exact hf a
  | crash c => exact .crash c
  | op _ ih => exact .op ih

theorem Prog.Cut.ends {α : Type} {p q : Prog α} (h : p.Cut q) {o : Outcome α} (he : p.Ends o) :
    o = .crashed .fuel ∨ q.Ends o := by
  induction h with
  | fuel q => cases he; exact .inl rfl
  | ret a => exact .inr he
  | crash c => exact .inr he
  | op _ ih =>
    cases he with
    | op r he =>
      rcases ih r he with h | h
      · exact .inl h
      · exact .inr (.op r h)

theorem Prog.Cut.returns {α : Type} {p q : Prog α} (h : p.Cut q) {a : α} (he : p.Returns a) :
    q.Returns a := by
  induction h with
  | fuel q => cases he
  | ret a => exact he
  | crash c => exact he
  | op _ ih =>
    cases he with
    | op r he => exact .op r (ih r he)

/-- In every state, the longer call ends like the shorter one, unless that ran out of fuel. -/
theorem Prog.Cut.run {α : Type} {p q : Prog α} (h : p.Cut q) (w : World) :
    (p.run w).1 = .crashed .fuel ∨ p.run w = q.run w := by
  induction h generalizing w with
  | fuel q => exact .inl rfl
  | ret a => exact .inr rfl
  | crash c => exact .inr rfl
  | op _ ih => exact ih _ _

theorem Stats.andThen_cut {s : Stats} {f g : Info → Prog Stats} (h : ∀ i, (f i).Cut (g i)) :
    (s.andThen f).Cut (s.andThen g) := by
  cases s with
  | resolving i => exact h i
  | success r => exact .refl _
  | error e i => exact .refl _

theorem aliasChain_fuel {fields : List (Str × AliasMap)} {n m : Nat} (hnm : n ≤ m) {to r : AliasMap}
    (h : aliasChain fields n to = some r) : aliasChain fields m to = some r := by
  induction n generalizing m to with
  | zero => cases h
  | succ n ih =>
    obtain ⟨m, rfl⟩ : ∃ k, m = k + 1 := ⟨m - 1, by omega⟩
    cases to with
    | ignored => exact h
    | target t =>
      simp only [aliasChain] at h ⊢
      cases ht : alookup t fields with
      | none => rw [ht] at h; exact h
      | some next =>
        rw [ht] at h
        exact ih (by omega) h

variable {c : Ctx} {n m : Nat}

theorem aliasFieldPlugin_cut (hnm : n ≤ m) (pkg : Option Pkg) (info : Info) :
    (aliasFieldPlugin c n pkg info).Cut (aliasFieldPlugin c m pkg info) := by
  unfold aliasFieldPlugin
  split
  · exact .refl _
  · split
    · exact .refl _
    · split
      · exact .refl _
      · rename_i pkg _ k to _
        cases h : aliasChain pkg.aliasFields n to with
        | none => exact .fuel _
        | some r =>
          rw [aliasChain_fuel hnm h]
          exact .refl _

theorem importsPlugin_cut (hnm : n ≤ m) (pkg : Option Pkg) (info : Info) :
    (importsPlugin c n pkg info).Cut (importsPlugin c m pkg info) := by
  induction n generalizing m pkg info with
  | zero => exact .fuel _
  | succ n ih =>
    obtain ⟨m, rfl⟩ : ∃ k, m = k + 1 := ⟨m - 1, by omega⟩
    have hnm' : n ≤ m := by omega
    unfold importsPlugin
    split
    · exact .refl _
    · split
      · exact .refl _
      · dsimp only
        split
        · exact .refl _
        · split
          · exact .refl _
          · exact .refl _
          · exact .refl _
          · split
            · refine .bind (.refl _) fun r => ?_
              split
              · exact .refl _
              · split
                · exact .refl _
                · refine .bind (.refl _) fun s => ?_
                  refine .bind (Stats.andThen_cut fun i => ih hnm' _ i) fun s => ?_
                  refine .bind (Stats.andThen_cut fun i => aliasFieldPlugin_cut hnm' _ i) fun s => ?_
                  exact .refl _
            · split
              · exact ih hnm' _ _
              · exact .refl _

theorem mainFileLoop_cut (hnm : n ≤ m) (pkg : Option Pkg) (info : Info) (l : List Str)
    (cur : Info) : (mainFileLoop c n pkg info l cur).Cut (mainFileLoop c m pkg info l cur) := by
  induction l generalizing cur with
  | nil => exact .refl _
  | cons x l ih =>
    unfold mainFileLoop
    refine .bind (.bind (.refl _) fun s => ?_) fun s => ?_
    · refine .bind (Stats.andThen_cut fun i => importsPlugin_cut hnm _ i) fun s => ?_
      exact .bind (Stats.andThen_cut fun i => aliasFieldPlugin_cut hnm _ i) fun s => .refl _
    · cases s with
      | success r => exact .refl _
      | resolving i => exact ih i
      | error e i => exact ih i

theorem mainFieldLoop_cut (hnm : n ≤ m) {f g : Info → Prog Stats} (hf : ∀ i, (f i).Cut (g i))
    (pkg : Pkg) (info : Info) (l : List Str) (cur : Info) :
    (mainFieldLoop c n f pkg info l cur).Cut (mainFieldLoop c m g pkg info l cur) := by
  induction l generalizing cur with
  | nil => exact .refl _
  | cons x l ih =>
    unfold mainFieldLoop
    split
    · exact ih cur
    · split
      · exact .refl _
      · refine .bind (.bind (aliasFieldPlugin_cut hnm _ _) fun s => ?_) fun s => ?_
        · exact .bind (.refl _) fun s => Stats.andThen_cut hf
        · cases s with
          | success r => exact .refl _
          | resolving i => exact ih i
          | error e i => exact ih i

theorem mainFieldPlugin_cut (hnm : n ≤ m) {f g : Info → Prog Stats} (hf : ∀ i, (f i).Cut (g i))
    (pkg : Option Pkg) (info : Info) :
    (mainFieldPlugin c n f pkg info).Cut (mainFieldPlugin c m g pkg info) := by
  unfold mainFieldPlugin
  split
  · exact .refl _
  · split
    · exact .refl _
    · exact mainFieldLoop_cut hnm hf _ _ _ _

theorem resolveAsDir_cut (hnm : n ≤ m) (info : Info) :
    (resolveAsDir c n info).Cut (resolveAsDir c m info) := by
  induction n generalizing m info with
  | zero => exact .fuel _
  | succ n ih =>
    obtain ⟨m, rfl⟩ : ∃ k, m = k + 1 := ⟨m - 1, by omega⟩
    have hnm' : n ≤ m := by omega
    unfold resolveAsDir
    dsimp only
    split
    · exact .refl _
    · refine .bind (.refl _) fun r => ?_
      cases r with
      | error e => exact .refl _
      | ok pkg =>
        refine .bind (mainFieldPlugin_cut hnm' (fun i => ih hnm' i) _ _) fun s => ?_
        exact Stats.andThen_cut fun i => mainFileLoop_cut hnm' _ _ _ _

theorem moduleStep_cut (hnm : n ≤ m) (info : Info) :
    (moduleStep c n info).Cut (moduleStep c m info) := by
  unfold moduleStep
  dsimp only
  split
  · exact .refl _
  · split
    · exact .refl _
    · refine .bind (.refl _) fun r => ?_
      cases r with
      | error e => exact .refl _
      | ok pkg =>
        dsimp only
        split
        · exact .refl _
        · refine .bind ?_ fun s => .refl _
          unfold modulePackageChain
          refine .bind (.refl _) fun s => ?_
          refine .bind (Stats.andThen_cut fun i => importsPlugin_cut hnm _ i) fun s => ?_
          refine .bind (Stats.andThen_cut fun i => aliasFieldPlugin_cut hnm _ _) fun s => ?_
          exact .bind (.refl _) fun s => Stats.andThen_cut fun i => resolveAsDir_cut hnm i

theorem resolveAsModules_cut (hnm : n ≤ m) (info : Info) :
    (resolveAsModules c n info).Cut (resolveAsModules c m info) := by
  induction n generalizing m info with
  | zero => exact .fuel _
  | succ n ih =>
    obtain ⟨m, rfl⟩ : ∃ k, m = k + 1 := ⟨m - 1, by omega⟩
    have hnm' : n ≤ m := by omega
    unfold resolveAsModules
    refine .bind (moduleStep_cut hnm' _) fun r => ?_
    obtain ⟨s, b⟩ := r
    cases b with
    | true => exact .refl _
    | false =>
      refine .bind (Stats.andThen_cut fun i => ?_) fun s => .refl _
      split
      · exact ih hnm' _
      · exact .refl _

theorem aliasLoop_cut {f g : Info → Prog Stats} (hf : ∀ i, (f i).Cut (g i)) (info : Info)
    (l : List (Str × AliasMap)) : (aliasLoop f info l).Cut (aliasLoop g info l) := by
  induction l with
  | nil => exact .refl _
  | cons kv l ih =>
    obtain ⟨k, v⟩ := kv
    unfold aliasLoop
    dsimp only
    split
    · split
      · split
        · exact ih
        · refine .bind (hf _) fun s => ?_
          cases s with
          | success r => exact .refl _
          | resolving i => exact ih
          | error e i => exact ih
      · exact .refl _
    · exact ih

theorem aliasPlugin_cut {f g : Info → Prog Stats} (hf : ∀ i, (f i).Cut (g i)) (info : Info) :
    (aliasPlugin c f info).Cut (aliasPlugin c g info) := by
  unfold aliasPlugin
  split
  · exact .refl _
  · exact aliasLoop_cut hf info _

theorem preferRelativePlugin_cut {f g : Info → Prog Stats} (hf : ∀ i, (f i).Cut (g i))
    (info : Info) : (preferRelativePlugin c f info).Cut (preferRelativePlugin c g info) := by
  unfold preferRelativePlugin
  split
  · exact .refl _
  · split
    · exact .bind (hf _) fun s => .refl _
    · exact .refl _

theorem pkgStage_cut (hnm : n ≤ m) (info : Info) : (pkgStage c n info).Cut (pkgStage c m info) := by
  unfold pkgStage
  refine .bind (.refl _) fun r => ?_
  cases r with
  | error e => exact .refl _
  | ok pkg =>
    exact .bind (importsPlugin_cut hnm _ _) fun s =>
      Stats.andThen_cut fun i => aliasFieldPlugin_cut hnm _ _

theorem lastStage_cut (hnm : n ≤ m) (info : Info) :
    (lastStage c n info).Cut (lastStage c m info) := by
  unfold lastStage
  split <;> first
    | exact Stats.andThen_cut fun i => resolveAsDir_cut hnm _
    | exact resolveAsModules_cut hnm _

theorem resolveInner_cut (hnm : n ≤ m) (info : Info) :
    (resolveInner c n info).Cut (resolveInner c m info) := by
  induction n generalizing m info with
  | zero => exact .fuel _
  | succ n ih =>
    obtain ⟨m, rfl⟩ : ∃ k, m = k + 1 := ⟨m - 1, by omega⟩
    have hnm' : n ≤ m := by omega
    unfold resolveInner
    refine .bind (.bind (aliasPlugin_cut (fun i => ih hnm' i) _) fun s => ?_) fun s => .refl _
    refine .bind (Stats.andThen_cut fun i => preferRelativePlugin_cut (fun i => ih hnm' i) _)
      fun s => ?_
    exact .bind (Stats.andThen_cut fun i => pkgStage_cut hnm' _) fun s =>
      Stats.andThen_cut fun i => lastStage_cut hnm' _

theorem tsValue_cut (hnm : n ≤ m) (location : Str) :
    (tsValue c n location).Cut (tsValue c m location) := by
  induction n generalizing m location with
  | zero => exact .fuel _
  | succ n ih =>
    obtain ⟨m, rfl⟩ : ∃ k, m = k + 1 := ⟨m - 1, by omega⟩
    have hnm' : n ≤ m := by omega
    unfold tsValue
    split
    · exact .refl _
    · split
      · exact .refl _
      · exact .refl _
      · split
        · split
          · exact .refl _
          · refine .bind (resolveInner_cut hnm' _) fun s => ?_
            split
            · exact .bind (ih hnm' _) fun r => .refl _
            · exact .refl _
            · exact .refl _
        · exact .refl _

theorem tsPathsTry_cut {f g : Info → Prog Stats} (hf : ∀ i, (f i).Cut (g i)) (star : Str)
    {next next' : Prog Stats} (hn : next.Cut next') (l : List Str) :
    (tsPathsTry f star next l).Cut (tsPathsTry g star next' l) := by
  induction l with
  | nil => exact hn
  | cons p l ih =>
    unfold tsPathsTry
    refine .bind (hf _) fun s => ?_
    cases s with
    | success r => exact .refl _
    | resolving i => exact ih
    | error e i => exact ih

theorem tsEntries_cut {f g : Info → Prog Stats} (hf : ∀ i, (f i).Cut (g i)) (info : Info)
    (l : List (Str × List Str)) : (tsEntries f info l).Cut (tsEntries g info l) := by
  induction l with
  | nil => exact hf info
  | cons e l ih =>
    obtain ⟨p, ps⟩ := e
    unfold tsEntries
    dsimp only
    split
    · exact .refl _
    · exact ih
    · exact tsPathsTry_cut hf _ ih _

theorem resolveCtx_cut (hnm : n ≤ m) (path request : Str) :
    (resolveCtx c n path request).Cut (resolveCtx c m path request) := by
  unfold resolveCtx resolveStats
  refine .bind ?_ fun s => .refl _
  dsimp only
  split
  · unfold resolveWithTsconfig
    refine .bind (tsValue_cut hnm _) fun r => ?_
    cases r with
    | error e => exact .refl _
    | ok json =>
      dsimp only
      split
      · exact .refl _
      · split
        · exact .refl _
        · exact .op fun seed => tsEntries_cut (fun i => resolveInner_cut hnm i) _ _
  · exact resolveInner_cut hnm _

theorem callProg_cut {cfg : Config} {ser : Json → Str} {fs : Fs} (hnm : n ≤ m) (call : Call) :
    (call.prog (cfg.env ser fs) n).Cut (call.prog (cfg.env ser fs) m) := by
  cases call with
  | resolve path request => exact .bind (resolveCtx_cut hnm _ _) fun r => .refl _
  | sideEffects path => exact .refl _

end Verif
