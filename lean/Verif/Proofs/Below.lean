import Verif.Spec.Below
import Verif.Proofs.WatchedBare
import Verif.Proofs.Packages
import Verif.Proofs.Named
/-!
# The search for a package from a directory without `node_modules`
-/

namespace Verif

theorem moduleStep_true {c : Ctx} {n : Nat} {info : Info} {s : Stats} (h : (moduleStep c n info).Returns (s, true)) :
    ∃ e i, s = .error e i := by
  unfold moduleStep at h
  dsimp only at h
  split at h
  · cases h
  · split at h
    · cases h
    · obtain ⟨a, -, h⟩ := Prog.returns_bind h
      cases a with
      | error e => cases h; exact ⟨_, _, rfl⟩
      | ok pkg =>
        dsimp only at h
        split at h
        · split at h <;> cases h
        · obtain ⟨b, -, h⟩ := Prog.returns_bind h
          cases b with
          | error e i => dsimp only at h; split at h <;> cases h
          | _ => cases h

theorem endRest_twice (s : Stats) : (endRest s).bind endRest = endRest s := by cases s <;> rfl

theorem modules_end (c : Ctx) (n : Nat) (info : Info) :
    (resolveAsModules c n info).bind endRest = resolveAsModules c n info := by
  cases n with
  | zero => rfl
  | succ n =>
    rw [resolveAsModules_rest, Prog.bind_assoc]
    refine Prog.bind_same fun x hx => ?_
    obtain ⟨s, b⟩ := x
    cases b with
    | true =>
      obtain ⟨e, i, rfl⟩ := moduleStep_true hx
      rfl
    | false =>
      unfold modulesRest
      rw [Prog.bind_assoc]
      exact congrArg _ (funext endRest_twice)

theorem modules_below {c : Ctx} {k : Nat} {p q : Str} (h : NoModulesBelow c.fs k p q) (n : Nat) (r : Request) :
    resolveAsModules c (n + k) ⟨p, r⟩ = resolveAsModules c n ⟨q, r⟩ := by
  induction h with
  | here p => rfl
  | @up k p d q h1 h2 _ ih =>
    have hm : moduleStep c (n + k) ⟨p, r⟩ = .ret (.resolving ⟨p, r⟩, false) := by
      unfold moduleStep
      dsimp only
      rw [show c.fs.isDir (pjoin p MODULE) = false from h1]
      rfl
    rw [← Nat.add_assoc, resolveAsModules_rest, hm, ← ih]
    show ((Stats.resolving ⟨p, r⟩).andThen fun i => match pparent p with
      | some parent => resolveAsModules c (n + k) (i.withPath parent)
      | none => .ret (.resolving i)).bind endRest = _
    rw [h2]
    exact modules_end c (n + k) ⟨d, r⟩

theorem Prog.Linked.same {α β : Type} {Q : β → β → Prop} (p : Prog α) {f g : α → Prog β}
    (h : ∀ a, (f a).Linked Q (g a)) : (p.bind f).Linked Q (p.bind g) :=
  Prog.Linked.bind (Q := Eq) (fun x hx => ⟨x, hx, by cases x <;> rfl⟩) fun a b hab => by cases hab; exact h a

end Verif
