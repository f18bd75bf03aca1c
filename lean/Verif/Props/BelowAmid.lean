import Verif.Props.Below
import Verif.Props.OtherAmid
/-!
# C100 amid changes of the files
-/

namespace Verif.Live

variable {cfg cfg' : Nat → Config} {fs fs' fs1 : Fs} {l l' : List Event} {i i' : Nat} {t t' : Task}

/-- C100 for calls in histories in which files come and go at any moment: if two calls have seen the same files, and there
is no `node_modules` from the directory of the one up to that of the other, they end alike. They may be calls of the same
history. -/
theorem C100_amid (h : SeesFiles cfg fs l i t fs1) (h' : SeesFiles cfg' fs' l' i' t' fs1)
    (ho : (cfg' t'.rid).opts = (cfg t.rid).opts) {p q request : Str} {k n : Nat}
    (hc : t.call = .resolve p request) (hc' : t'.call = .resolve q request)
    (ha : isAbs p = true) (ha' : isAbs q = true)
    (hfuel : t.fuel = n + 2 + k) (hfuel' : t'.fuel = n + 2)
    (hb : NoModulesBelow fs1 k p q)
    (hp : Plain (cfg t.rid).opts p (parseRequest request).target)
    (hq : Plain (cfg t.rid).opts q (parseRequest request).target)
    (hk : getTargetKind (parseRequest request).target = .normal)
    (hf : FirstLoad (cfg t.rid).opts fs1 p (parseRequest request).target)
    (hf' : FirstLoad (cfg t.rid).opts fs1 q (parseRequest request).target)
    (x x' : Outcome Answer) (hx : outcome t.prog = some x) (hx' : outcome t'.prog = some x') :
    x.Like (Answer.SameReply p request q request) x' := by
  have hca : t.call.abs := by rw [hc]; exact ha
  have hca' : t'.call.abs := by rw [hc']; exact ha'
  obtain ⟨seeds, h1⟩ := (C96_kept h.static h.task hca h.look h.kept h.place h.mix hx).1
  obtain ⟨seeds', h1'⟩ := (C96_kept h'.static h'.task hca' h'.look h'.kept h'.place h'.mix hx').1
  obtain ⟨m, g1, u, g2, g3, g4, g5, g6⟩ := fresh_calm cfg serJson fs1 t.rid t.call t.fuel hca seeds
  obtain ⟨m', e1, u', e2, e3, e4, e5, e6⟩ := fresh_calm cfg' serJson fs1 t'.rid t'.call t'.fuel hca' seeds'
  have h2 := C100_below h.static h'.static m m' g1 e1 u u' g2 e2 (by rw [g3, e3]; exact ho) (g4.trans hc) (e4.trans hc')
    (g5.trans hfuel) (e5.trans hfuel') hb (g3 ▸ hp) (g3 ▸ hq) hk (g3 ▸ hf) (g3 ▸ hf') _ _ g6 e6
  revert h1 h1' h2
  generalize (((Call.prog ((cfg t.rid).env serJson fs1) t.fuel t.call).run (World.init seeds)).1) = y
  generalize (((Call.prog ((cfg' t'.rid).env serJson fs1) t'.fuel t'.call).run (World.init seeds')).1) = y'
  intro h1 h1' h2
  cases x <;> cases y <;> cases y' <;> cases x' <;> first
    | exact (h1 : False).elim
    | exact (h2 : False).elim
    | exact (h1' : False).elim
    | exact Answer.SameReply.sim h1 h2 h1'
    | exact Eq.trans h1 (Eq.trans h2 (Eq.symm h1'))

end Verif.Live
