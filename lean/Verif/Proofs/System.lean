import Verif.Proofs.Success
/-!
# From postconditions of `resolve` to systems
-/

namespace Verif

theorem loadSideEffects_sat {G : Op → Prop} {R : (o : Op) → o.Ret → Prop} {e : Env} {p : Str}
    (h : (loadPkg e p).Sat G R (fun _ => True)) :
    (loadSideEffects e p).Sat G R (fun _ => True) := by
  unfold loadSideEffects
  refine Prog.Sat.bind h fun r (_ : True) => ?_
  split
  · trivial
  · trivial
  · split <;> trivial

/-- `system_inv` for statements about `resolve`. -/
theorem system_resolve {cfg : Nat → Config} {ser : Json → Str} {okFs : Fs → Prop}
    {okCall : Nat → Call → Prop} {G : Nat → Op → Prop} {R : Nat → (o : Op) → o.Ret → Prop}
    {J : Shared → Prop} {P : Nat → Fs → Str → Str → Except Err Result → Prop}
    (hJ : ∀ s rid o seeds, J s → G rid o →
      J (s.store cfg rid (Op.exec (s.view cfg rid seeds) o).2) ∧
      R rid o (Op.exec (s.view cfg rid seeds) o).1)
    (hside : ∀ rid fs p, okFs fs → okCall rid (.sideEffects p) →
      (loadPkg ((cfg rid).env ser fs) p).Sat (G rid) (R rid) (fun _ => True))
    (hres : ∀ rid fs p r fuel, okFs fs → okCall rid (.resolve p r) →
      (resolve ((cfg rid).env ser fs) fuel p r).Sat (G rid) (R rid) (P rid fs p r))
    {fs : Fs} (hfs : okFs fs) {l : List Event} (hl : ∀ e ∈ l, EventOk okFs okCall e)
    (hinit : J Shared.init) {t : Task} (ht : t ∈ ((Sys.init fs).after cfg ser l).tasks)
    {path request : Str} (hc : t.call = .resolve path request) {a : Except Err Result}
    (hd : t.prog = .ret (.resolve a)) : P t.rid t.fs path request a := by
  have key := system_inv (cfg := cfg) (ser := ser) (okFs := okFs) (okCall := okCall) (G := G)
    (R := R) (J := J)
    (P := fun rid fs call ans => ∀ p r a, call = .resolve p r → ans = .resolve a → P rid fs p r a)
    hJ
    (by
      intro rid fs call fuel h1 h2
      cases call with
      | sideEffects p =>
        unfold Call.prog
        exact Prog.Sat.bind (loadSideEffects_sat (hside rid fs p h1 h2)) fun r _ _ _ _ h => by cases h
      | resolve p r =>
        unfold Call.prog
        refine Prog.Sat.bind (hres rid fs p r fuel h1 h2) fun x hx p' r' a hc ha => ?_
        cases hc; cases ha; exact hx)
    hfs hl hinit
  have := key.2.2 t ht
  rw [hd] at this
  exact this path request a hc rfl

/-- What `resolve` returns when `_resolve` satisfies `FinalInv S E N`. -/
def ResolvePost (S : Info → Prop) (E : Err → Prop) (N : Prop) (e : Env) (path request : Str) :
    Except Err Result → Prop
  | .ok (.info i) => ∃ j, S j ∧ i.request = j.request ∧
      if e.opts.symlinks then e.fs.canon j.path = some i.path else i.path = normalizeLex j.path
  | .ok .ignored => N
  | .error err => err = failedMessage ⟨path, parseRequest request⟩ ∨ (E err ∧ err.isTag = false) ∨
      err = .normalizeFailed ∧ e.opts.symlinks = true

/-- From the result of `_resolve` to the result of `resolve`. -/
theorem resolve_sat {G : Op → Prop} {R : (o : Op) → o.Ret → Prop} {e : Env} {n : Nat}
    {path request : Str} {S : Info → Prop} {E : Err → Prop} {N : Prop}
    (h : (resolveStats e.ctx n path request).Sat G R (FinalInv S E N ⟨path, parseRequest request⟩)) :
    (resolve e n path request).Sat G R (ResolvePost S E N e path request) := by
  unfold resolve resolveCtx
  refine Prog.Sat.bind h fun s hs => ?_
  cases s with
  | error err j =>
    rcases hs with hs | hs
    · exact .inl hs
    · exact .inr (.inl hs)
  | resolving j => exact hs.elim
  | success r =>
    cases r with
    | ignored => exact hs
    | info j =>
      simp only [normalizeResult]
      split
      · trivial
      · unfold normalizePath
        cases hsym : e.opts.symlinks with
        | false =>
          have h1 : e.ctx.opts.symlinks = false := hsym
          rw [h1]
          exact ⟨j, hs, rfl, by simp [Info.withPath, hsym]⟩
        | true =>
          have h1 : e.ctx.opts.symlinks = true := hsym
          have h2 : e.ctx.fs = e.fs := rfl
          rw [h1, h2]
          simp only [if_true]
          cases hc : e.fs.canon j.path with
          | none => exact .inr (.inr ⟨rfl, hsym⟩)
          | some q => exact ⟨j, hs, rfl, by simpa [Info.withPath, hsym] using hc⟩

end Verif
