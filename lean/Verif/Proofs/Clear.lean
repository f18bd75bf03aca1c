import Verif.Proofs.Transparent
import Verif.Proofs.Sat
import Verif.Proofs.Tsconfig
import Verif.Proofs.Yields
import Verif.Proofs.Changes
import Verif.Spec.Clear
/-!
# `paths` entries in any order, if at most one matches
-/

namespace Verif

/-- Entries of which no two at different places match. -/
def ClearList (target : Str) (l : List (Str × List Str)) : Prop :=
  l.Pairwise fun a b => ¬((∃ m, StarMatch a.1 target m) ∧ ∃ m, StarMatch b.1 target m)

theorem clearList_perm {target : Str} {l l' : List (Str × List Str)} (h : l.Perm l')
    (hc : ClearList target l) : ClearList target l' :=
  (h.pairwise_iff fun h h' => h ⟨h'.2, h'.1⟩).1 hc

theorem tsEntries_perm {rec : Info → Prog Stats} {info : Info} {l l' : List (Str × List Str)}
    (h : l.Perm l') (ha : AsciiStr info.request.target) (hc : ClearList info.request.target l) :
    tsEntries rec info l = tsEntries rec info l' := by
  induction h with
  | nil => rfl
  | cons x _ ih =>
    obtain ⟨pattern, paths⟩ := x
    unfold tsEntries
    rw [ih (List.pairwise_cons.1 hc).2]
  | swap x y l =>
    obtain ⟨p, ps⟩ := x
    obtain ⟨q, qs⟩ := y
    have hstar : ∀ p : Str, (∀ m, ¬ StarMatch p info.request.target m) →
        (if p = info.request.target then some (some []) else matchStar p info.request.target) =
          some none := by
      intro p hp
      have hs : ∃ o, (if p = info.request.target then some (some [])
          else matchStar p info.request.target) = some o := by
        split
        · exact ⟨_, rfl⟩
        · exact Option.isSome_iff_exists.1 (matchStar_ascii ha)
      obtain ⟨o, ho⟩ := hs
      cases o with
      | none => exact ho
      | some m => exact absurd ((star_spec ho).1 m rfl) (hp m)
    have hn : (∀ m, ¬ StarMatch q info.request.target m) ∨
        ∀ m, ¬ StarMatch p info.request.target m := by
      have := (List.pairwise_cons.1 hc).1 (p, ps) (by simp)
      grind
    rcases hn with hn | hn
    · have e := hstar q hn
      unfold tsEntries
      simp only [e]
      conv => lhs; rw [tsEntries]
      conv => rhs; rw [tsEntries]
      simp only [e]
    · have e := hstar p hn
      unfold tsEntries
      simp only [e]
      conv => lhs; rw [tsEntries]
      conv => rhs; rw [tsEntries]
      simp only [e]
  | trans h1 _ ih1 ih2 => exact (ih1 hc).trans (ih2 (clearList_perm h1 hc))

theorem permute_short {α : Type} {l : List α} (h : l.length ≤ 1) (seed : Nat) :
    permute seed l = l := by
  have := permute_perm seed l
  match l, h with
  | [], _ => exact List.perm_nil.1 this
  | [x], _ => exact List.perm_singleton.1 this

/-- A program without operations is over at once. -/
theorem Prog.Sat.leaf {α : Type} {R : (o : Op) → o.Ret → Prop} {P : α → Prop} {p : Prog α}
    (h : p.Sat (fun _ => False) R P) : ∃ o, p.outcome = some o := by
  cases p with
  | ret a => exact ⟨_, rfl⟩
  | crash c => exact ⟨_, rfl⟩
  | op o k => exact h.1.elim

theorem findPkg_leaf (fs : Fs) (desc : Option Str) (p : Str) (R : (o : Op) → o.Ret → Prop) :
    (findPkg fs desc p).Sat (fun _ => False) R (fun _ => True) := by
  unfold findPkg
  cases desc with
  | none => trivial
  | some desc =>
    simp only
    split
    · trivial
    · rename_i d _
      rcases readPkg_cases fs d (pjoin d desc) with ⟨a, ha⟩ | ⟨s, hs⟩
      · rw [ha]
        cases a <;> trivial
      · rw [hs]; trivial

/-- The resolver without caches needs nothing but the order of `paths`. -/
theorem leafInv (o : Opts) (fs : Fs) (debug : Bool) (R : (o : Op) → o.Ret → Prop) :
    Inv (pureCtx o fs debug) (fun _ => False) R (fun _ => True) (fun _ => True) (fun _ => True)
      (fun _ => True) (fun _ => True) True where
  load p _ := (findPkg_leaf fs _ p R).mono fun _ _ => ⟨fun _ _ => trivial, fun _ _ => trivial⟩
  ask _ _ := trivial
  askModule _ _ := trivial
  pathGet _ _ := trivial
  pathPkg _ _ _ _ := trivial
  pathModule _ _ := trivial
  pathParent _ _ _ _ _ _ := trivial
  target _ _ _ := trivial
  file i _ := by
    cases h : resolveAsFile (pureCtx o fs debug) i with
    | success r => cases r <;> trivial
    | resolving j => trivial
    | error er j => exact ⟨trivial, trivial⟩
  errTag := trivial
  errPkg _ _ := ⟨fun _ => trivial, fun _ _ _ _ _ => trivial, fun _ _ _ _ _ => trivial⟩
  exports _ _ _ _ := trivial
  imports _ _ _ _ := ⟨trivial, trivial⟩

/-- All ends of a program are alike. -/
def Prog.Sure {α : Type} (p : Prog α) : Prop := ∃ x, ∀ o, p.Ends o → o = x

theorem Prog.sure_of_outcome {α : Type} {p : Prog α} (h : ∃ o, p.outcome = some o) : p.Sure := by
  obtain ⟨x, hx⟩ := h
  exact ⟨x, fun o ho => Prog.outcome_ends hx ho⟩

theorem Prog.sure_bind {α β : Type} {p : Prog α} {f : α → Prog β} (h : p.Sure)
    (hf : ∀ a, p.Returns a → (f a).Sure) : (p.bind f).Sure := by
  obtain ⟨x, hx⟩ := h
  cases x with
  | crashed c =>
    refine ⟨.crashed c, fun o ho => ?_⟩
    rcases Prog.Ends.of_bind ho with ⟨a, h1, -⟩ | ⟨c', h1, rfl⟩
    · cases hx _ h1
    · cases hx _ h1; rfl
  | done a =>
    by_cases ha : p.Returns a
    · obtain ⟨y, hy⟩ := hf a ha
      refine ⟨y, fun o ho => ?_⟩
      rcases Prog.Ends.of_bind ho with ⟨a', h1, h2⟩ | ⟨c', h1, rfl⟩
      · cases hx _ h1
        exact hy o h2
      · cases hx _ h1
    · refine ⟨.crashed .fuel, fun o ho => ?_⟩
      rcases Prog.Ends.of_bind ho with ⟨a', h1, h2⟩ | ⟨c', h1, rfl⟩
      · cases hx _ h1
        exact absurd h1.returns ha
      · cases hx _ h1

theorem tsValue_leaf (o : Opts) (fs : Fs) (debug : Bool) (n : Nat) (loc : Str) :
    ∃ x, (tsValue (pureCtx o fs debug) n loc).outcome = some x :=
  (tsValue_sat (R := fun _ _ => True) (leafInv o fs debug _)
    ⟨fun _ => trivial, fun _ _ => trivial, fun _ _ => trivial⟩ n (T := fun _ => True)
    (fun _ _ _ _ _ => trivial) (fun _ _ => trivial) trivial).leaf

/-- Without caches, a call whose request matches at most one entry of `paths` has one answer. -/
theorem resolve_sure (o : Opts) (fs : Fs) (n : Nat) (path request : Str)
    (h : TsClear o fs (.resolve path request)) :
    (resolveCtx (pureCtx o fs false) n path request).Sure := by
  unfold resolveCtx
  refine Prog.sure_bind ?_ fun s _ => ?_
  · unfold resolveStats
    simp only
    split
    · rename_i loc hloc
      obtain ⟨hw, hclear⟩ := h loc hloc
      unfold resolveWithTsconfig
      refine Prog.sure_bind (Prog.sure_of_outcome (tsValue_leaf _ _ _ _ _)) fun r hr => ?_
      cases r with
      | error e => exact Prog.sure_of_outcome ⟨_, rfl⟩
      | ok json =>
        simp only
        split
        · exact Prog.sure_of_outcome ⟨_, rfl⟩
        · rename_i ts hts
          split
          · exact Prog.sure_of_outcome ⟨_, rfl⟩
          · rename_i entries he
            have hc := hclear n json entries hr
              (tsInfoOf_entries (tsValue_returns (c := pureCtx o fs false) hw hr).1 hts he)
            have hall : ∀ seed, tsEntries (resolveInner (pureCtx o fs false) n)
                ⟨path, parseRequest request⟩ (permute seed entries) =
                tsEntries (resolveInner (pureCtx o fs false) n)
                ⟨path, parseRequest request⟩ entries := by
              intro seed
              rcases hc with hc | ⟨ha, hc⟩
              · rw [permute_short hc]
              · exact (tsEntries_perm (info := ⟨path, parseRequest request⟩)
                  (permute_perm seed entries).symm ha hc).symm
            obtain ⟨x, hx⟩ := (tsEntries_sat (R := fun _ _ => True)
              (fun i hi => resolveInner_sat (leafInv o fs false _) n hi)
              (info := ⟨path, parseRequest request⟩) trivial entries
              fun _ _ _ _ _ => trivial).leaf
            refine ⟨x, fun o' ho' => ?_⟩
            cases ho' with
            | op r h1 =>
              exact Prog.outcome_ends hx (hall r ▸ h1)
    · exact Prog.sure_of_outcome (resolveInner_sat
        (R := fun _ _ => True) (leafInv o fs false _) n trivial).leaf
  · cases s with
    | success r =>
      refine Prog.sure_of_outcome ?_
      unfold normalizeResult
      cases r with
      | ignored => exact ⟨_, rfl⟩
      | info i =>
        simp only
        split
        · exact ⟨_, rfl⟩
        · split <;> exact ⟨_, rfl⟩
    | error e i => exact Prog.sure_of_outcome ⟨_, rfl⟩
    | resolving i => exact Prog.sure_of_outcome ⟨_, rfl⟩

theorem call_sure {cfg : Nat → Config} {ser : Json → Str} {fs : Fs} (hs : Static cfg ser fs)
    (rid : Nat) {call : Call} (h : TsClear (cfg rid).opts fs call) (fuel : Nat) :
    (call.pure (cfg rid) fs fuel).Sure := by
  cases call with
  | resolve path request =>
    unfold Call.pure
    rw [hs.debug rid]
    exact Prog.sure_bind (resolve_sure _ _ _ _ _ h) fun a _ => Prog.sure_of_outcome ⟨_, rfl⟩
  | sideEffects path =>
    unfold Call.pure findSideEffects
    refine Prog.sure_bind (Prog.sure_bind (Prog.sure_of_outcome
      (findPkg_leaf _ _ _ fun _ _ => True).leaf) fun a _ => ?_) fun a _ =>
        Prog.sure_of_outcome ⟨_, rfl⟩
    rcases a with _ | _ | _ <;> exact Prog.sure_of_outcome ⟨_, rfl⟩

end Verif
