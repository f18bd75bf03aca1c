import Verif.Proofs.Transparent
import Verif.Proofs.Fuel
import Verif.Proofs.Modules
/-!
# From the resolver without caches to every history
-/

namespace Verif

variable {cfg : Nat → Config} {ser : Json → Str} {fs : Fs}

theorem Prog.Cut.leaf {α : Type} {p q : Prog α} (h : p.Cut q) {o : Outcome α}
    (ho : p.outcome = some o) (hf : o ≠ .crashed .fuel) : q.outcome = some o := by
  cases h with
  | fuel q => cases ho; exact (hf rfl).elim
  | ret a => exact ho
  | crash c => exact ho
  | op _ => cases ho

/-- A family of calls with more and more fuel, one of which is over without running out of it. -/
theorem ends_of_enough {α : Type} {P : Nat → Prog α} (cut : ∀ n m, n ≤ m → (P n).Cut (P m)) {N : Nat}
    {o : Outcome α} (hN : (P N).outcome = some o) (hf : o ≠ .crashed .fuel) {n : Nat} {x : Outcome α}
    (hx : (P n).Ends x) : (x = .crashed .fuel ∧ n < N) ∨ x = o := by
  rcases Nat.lt_or_ge n N with hn | hn
  · rcases (cut n N (Nat.le_of_lt hn)).ends hx with h | h
    · exact .inl ⟨h, hn⟩
    · exact .inr (Prog.outcome_ends hN h)
  · exact .inr (Prog.outcome_ends ((cut N n hn).leaf hN hf) hx)

theorem callPure_cut {cfg : Config} {fs : Fs} (call : Call) (n m : Nat) (hnm : n ≤ m) :
    (call.pure cfg fs n).Cut (call.pure cfg fs m) := by
  cases call with
  | resolve path request => exact .bind (resolveCtx_cut hnm _ _) fun r => .refl _
  | sideEffects path => exact .refl _

theorem yields_of_pure (hs : Static cfg ser fs) {rid : Nat} {path request : Str} {N : Nat}
    {a : Except Err Result}
    (h : resolveCtx (pureCtx (cfg rid).opts fs false) N path request = .ret a) :
    Yields cfg ser fs rid path request a := by
  have hN : ((Call.resolve path request).pure (cfg rid) fs N).outcome =
      some (.done (.resolve a)) := by
    simp only [Call.pure, hs.debug, h]
    rfl
  have key : ∀ (l : List Event), (∀ e ∈ l, e.calm) → ∀ t ∈ ((Sys.init fs).after cfg ser l).tasks,
      t.rid = rid → t.call = .resolve path request → ∀ o, t.prog.outcome = some o →
      (o = .crashed .fuel ∧ t.fuel < N) ∨ ∃ b, o = .done (.resolve b) ∧ AnsSim b a := by
    intro l hl t ht hr hc o ho
    obtain ⟨x, h1, h2⟩ := static_ends hs hl ht ho
    rw [hr, hc] at h1
    rcases ends_of_enough (callPure_cut _) hN nofun h1 with ⟨rfl, hlt⟩ | rfl
    · cases o with
      | done b => exact (h2 : False).elim
      | crashed c => cases (h2 : c = .fuel); exact .inl ⟨rfl, hlt⟩
    · cases o with
      | crashed c => exact (h2 : False).elim
      | done b =>
        cases b with
        | resolve b => exact .inr ⟨b, rfl, h2⟩
        | sideEffects b => exact (h2 : False).elim
  constructor
  · intro l hl t ht hr hc o ho
    rcases key l hl t ht hr hc o ho with h | h
    · exact .inl h.1
    · exact .inr h
  · refine ⟨N, fun l hl t ht hr hc hn o ho => ?_⟩
    rcases key l hl t ht hr hc o ho with h | ⟨b, rfl, -⟩
    · omega
    · nofun

theorem Prog.Ends.of_bind {α β : Type} {p : Prog α} {f : α → Prog β} {x : Outcome β}
    (h : (p.bind f).Ends x) :
    (∃ a, p.Ends (.done a) ∧ (f a).Ends x) ∨ ∃ c, p.Ends (.crashed c) ∧ x = .crashed c := by
  induction p with
  | ret a => exact .inl ⟨a, .ret a, h⟩
  | crash c => cases h; exact .inr ⟨c, .crash c, rfl⟩
  | op o k ih =>
    cases h with
    | op r h =>
      rcases ih r h with ⟨a, h1, h2⟩ | ⟨c, h1, h2⟩
      · exact .inl ⟨a, .op r h1, h2⟩
      · exact .inr ⟨c, .op r h1, h2⟩

theorem Prog.Cut.ends_after {α : Type} {p q : Prog α} (h : p.Cut q) {x : Outcome α} (hx : q.Ends x) :
    p.Ends (.crashed .fuel) ∨ p.Ends x := by
  induction h with
  | fuel q => exact .inl (.crash _)
  | ret a => exact .inr hx
  | crash c => exact .inr hx
  | op _ ih =>
    cases hx with
    | op r hx =>
      rcases ih r hx with h | h
      · exact .inl (.op r h)
      · exact .inr (.op r h)

/-- The same for a call that may draw numbers, but ends in one way. -/
theorem panics_of_ends (hs : Static cfg ser fs) {rid : Nat} {path request : Str} {N : Nat}
    {site : Site} (h : ∀ x, (resolveCtx (pureCtx (cfg rid).opts fs false) N path request).Ends x →
      x = .crashed (.panic site)) : Panics cfg ser fs rid path request site := by
  have hN : ∀ x, ((Call.resolve path request).pure (cfg rid) fs N).Ends x →
      x = .crashed (.panic site) := by
    intro x hx
    simp only [Call.pure, hs.debug] at hx
    rcases hx.of_bind with ⟨a, h1, -⟩ | ⟨c, h1, rfl⟩
    · cases h _ h1
    · cases h _ h1; rfl
  have key : ∀ (l : List Event), (∀ e ∈ l, e.calm) → ∀ t ∈ ((Sys.init fs).after cfg ser l).tasks,
      t.rid = rid → t.call = .resolve path request → ∀ o, t.prog.outcome = some o →
      (o = .crashed .fuel ∧ t.fuel < N) ∨ o = .crashed (.panic site) := by
    intro l hl t ht hr hc o ho
    obtain ⟨x, h1, h2⟩ := static_ends hs hl ht ho
    rw [hr, hc] at h1
    have hx : (x = .crashed .fuel ∧ t.fuel < N) ∨ x = .crashed (.panic site) := by
      rcases Nat.lt_or_ge t.fuel N with hn | hn
      · rcases (callPure_cut (.resolve path request) _ N (Nat.le_of_lt hn)).ends h1 with h | h
        · exact .inl ⟨h, hn⟩
        · exact .inr (hN _ h)
      · rcases (callPure_cut (.resolve path request) N _ hn).ends_after h1 with h | h
        · cases hN _ h
        · exact .inr (hN _ h)
    rcases hx with ⟨rfl, hlt⟩ | rfl
    · cases o with
      | done b => exact (h2 : False).elim
      | crashed c => cases (h2 : c = .fuel); exact .inl ⟨rfl, hlt⟩
    · cases o with
      | done b => exact (h2 : False).elim
      | crashed c => cases (h2 : c = .panic site); exact .inr rfl
  constructor
  · intro l hl t ht hr hc o ho
    rcases key l hl t ht hr hc o ho with h | h
    · exact .inl h.1
    · exact .inr h
  · refine ⟨N, fun l hl t ht hr hc hn o ho => ?_⟩
    rcases key l hl t ht hr hc o ho with h | rfl
    · omega
    · nofun

theorem panics_of_pure (hs : Static cfg ser fs) {rid : Nat} {path request : Str} {N : Nat}
    {site : Site}
    (h : resolveCtx (pureCtx (cfg rid).opts fs false) N path request = .panic site) :
    Panics cfg ser fs rid path request site := by
  refine panics_of_ends hs (N := N) fun x hx => ?_
  rw [h] at hx
  cases hx
  rfl

/-- The stages of a request without alias, prefer_relative and tsconfig. -/
theorem resolveCtx_plain (c : Ctx) (n : Nat) (path request : Str) (ht : c.opts.tsconfig = none)
    (ha : containsStr path MODULE = true ∨
      ∀ kv ∈ c.opts.alias, ¬ kv.1 <+: (parseRequest request).target)
    (hp : c.opts.preferRelative = false ∨ cs!"./" <+: (parseRequest request).target ∨
      cs!"../" <+: (parseRequest request).target) :
    resolveCtx c (n + 1) path request =
      (plainStages c n ⟨path, parseRequest request⟩).bind
        (answer c ⟨path, parseRequest request⟩) := by
  unfold resolveCtx resolveStats
  simp only [ht]
  rw [resolveInner_plain n ha hp, Prog.bind_assoc]
  congr 1
  funext s
  cases s <;> rfl

/-- A success is returned in its final form. -/
theorem answer_success {c : Ctx} (hd : c.debug = false) {info : Info} {p q : Str} {r : Request}
    (h : FinalPath c.opts c.fs p q) :
    answer c info (.success (.info ⟨p, r⟩)) = .ret (.ok (.info ⟨q, r⟩)) := by
  simp only [answer, normalizeResult, hd, Bool.false_and, Bool.false_eq_true, if_false, normalizePath]
  cases h with
  | lexical hs => rw [hs]; rfl
  | canonical hs hc => rw [hs, hc]; rfl

end Verif
