import Verif.Spec.Install
import Verif.Spec.OtherPackages
import Verif.Proofs.OtherPackages
import Verif.Proofs.Path
import Verif.Proofs.Tsconfig
import Verif.Proofs.Require
/-!
# Installing something in a directory tree changes nothing elsewhere
-/

namespace Verif

/-- What can be seen of a node: contents and time of a file. -/
def seen : Option Tree → Option (Option (Option Doc × Nat))
  | none => none
  | some (.file d m) => some (some (d, m))
  | some (.dir _) => some none

theorem seen_isSome {a b : Option Tree} (h : seen a = seen b) : a.isSome = b.isSome := by
  rcases a with _ | (_ | _) <;> rcases b with _ | (_ | _) <;> first | rfl | cases h

theorem install_at (sub : Tree) {d : List Str} {t : Tree} {loc : List Str} (h : ¬ d <+: loc) :
    seen ((Tree.install sub d t).at loc) = seen (t.at loc) := by
  induction d generalizing t loc with
  | nil => exact absurd List.nil_prefix h
  | cons n d ih =>
    cases t with
    | file doc m => cases d <;> rfl
    | dir l =>
      cases d with
      | nil =>
        cases loc with
        | nil => rfl
        | cons x r =>
          have hx : n ≠ x := by
            rintro rfl
            exact h ⟨r, rfl⟩
          unfold Tree.install Tree.at Tree.child
          dsimp only
          rw [alookup_ainsert, if_neg hx]
      | cons k d =>
        unfold Tree.install
        cases hn : alookup n l with
        | none => rfl
        | some c =>
          cases loc with
          | nil => rfl
          | cons x r =>
            unfold Tree.at Tree.child
            dsimp only
            rw [alookup_ainsert]
            by_cases hx : n = x
            · subst hx
              rw [if_pos rfl, hn]
              exact ih fun hp => h ((List.prefix_cons_inj n).2 hp)
            · rw [if_neg hx]

/-- One step of a walk over the pieces between separators. -/
def goPiece (loc : List Str) (s : Str) : List Str := if s = [] then loc else enter loc s

theorem stand_pieces (l loc : List Str) : (segComps l).foldl Comp.go (.root :: loc.map Comp.normal) =
    .root :: (l.foldl goPiece loc).map Comp.normal := by
  induction l generalizing loc with
  | nil => rfl
  | cons s l ih =>
    rw [List.foldl_cons, ← ih]
    by_cases h1 : s = []
    · subst h1; rfl
    · by_cases h2 : s = cs!"."
      · subst h2; rfl
      · by_cases h3 : s = cs!".."
        · subst h3
          rw [show segComps (cs!".." :: l) = .up :: segComps l from rfl, List.foldl_cons,
            show goPiece loc cs!".." = loc.dropLast from rfl]
          congr 1
          unfold Comp.go
          cases loc with
          | nil => rfl
          | cons x loc =>
            rw [if_neg (by simp)]
            simp [List.map_dropLast]
        · have e : segComp s = some (.normal s) := by simp [segComp, h1, h2, h3]
          rw [show segComps (s :: l) = .normal s :: segComps l from List.filterMap_cons_some e, List.foldl_cons]
          congr 1
          simp [Comp.go, goPiece, enter, h1, h2, h3]

theorem stand_root (l : List Str) : stand (.root :: segComps l) = .root :: (l.foldl goPiece []).map Comp.normal :=
  stand_pieces l []

section
variable {t t' : Tree} {d : List Str} (ht : ∀ loc, ¬ d <+: loc → seen (t'.at loc) = seen (t.at loc))
include ht

theorem reach_same {l loc : List Str} (h : ∀ k, k <+: l → ¬ d <+: k.foldl goPiece loc) :
    t'.reach loc l = t.reach loc l := by
  induction l generalizing loc with
  | nil =>
    unfold Tree.reach
    rw [seen_isSome (ht loc (h [] (List.prefix_refl _)))]
  | cons s l ih =>
    have h0 : ¬ d <+: loc := h [] List.nil_prefix
    have := ih (loc := goPiece loc s) fun k hk => h (s :: k) ((List.prefix_cons_inj s).2 hk)
    have hs := ht loc h0
    unfold Tree.reach
    rcases h1 : t.at loc with _ | (_ | _) <;> rcases h2 : t'.at loc with _ | (_ | _) <;> rw [h1, h2] at hs <;>
      first | exact this | rfl | cases hs

omit ht in
theorem reach_where {l loc r : List Str} (h : t.reach loc l = some r) : r = l.foldl goPiece loc := by
  induction l generalizing loc with
  | nil =>
    unfold Tree.reach at h
    split at h
    · exact (Option.some.inj h).symm
    · cases h
  | cons s l ih =>
    unfold Tree.reach at h
    split at h
    · exact ih h
    · cases h

omit ht in
theorem lookup_abs (t : Tree) (cwd : List Str) (r : Str) :
    t.lookup cwd ('/' :: r) = t.reach [] ([] :: splitC '/' r) := by
  have hs : splitC '/' ('/' :: r) = [] :: splitC '/' r := splitC_append_sep (a := []) ..
  unfold Tree.lookup
  rw [if_neg (by simp), if_pos (show isAbs ('/' :: r) = true from rfl), hs]

omit ht in
/-- A path leads where it stands. -/
theorem lookup_stand {w : Str} (ha : isAbs w = true) {cwd r : List Str} (h : t.lookup cwd w = some r) :
    stand (comps w) = .root :: r.map Comp.normal := by
  obtain ⟨r', rfl⟩ : ∃ r', w = '/' :: r' := by
    obtain ⟨r, hr⟩ := (startsWith_iff _ _).1 ha
    exact ⟨r, hr.symm⟩
  rw [lookup_abs] at h
  rw [reach_where h, comps_abs, stand_root]
  rfl

omit ht in
/-- There is nothing to read at a path that stands where there is no file. -/
theorem read_stand {w : Str} (ha : isAbs w = true) {cwd d : List Str} (hw : stand (comps w) = .root :: d.map Comp.normal)
    (hd : ∀ doc m, t.at d ≠ some (.file doc m)) : (treeFs t cwd).read w = none := by
  unfold treeFs Tree.node
  dsimp only
  cases h : t.lookup cwd w with
  | none => rfl
  | some r =>
    have e := (lookup_stand ha h).symm.trans hw
    have : r = d := by
      have := (List.cons.inj e).2
      exact List.map_inj_right (fun _ _ h => Comp.normal.inj h) |>.1 this
    subst this
    dsimp only
    rcases h1 : t.at r with _ | (_ | _)
    · rfl
    · exact absurd h1 (hd _ _)
    · rfl

omit ht in
/-- In a tree, there are no description files beside the package in `n`, if there is none in `n` itself. -/
theorem noneBeside_tree {o : Opts} {b m : Str} {n cwd : List Str}
    (hn : comps (pjoin b cs!"node_modules") = .root :: n.map Comp.normal)
    (hm : comps (pkgDir b m) = comps (pjoin b cs!"node_modules") ++ [.normal m])
    (hd : ∀ desc, o.descriptionFile = some desc → isAbs desc = false ∧ parts desc = [.normal desc] ∧
      ∀ doc t', t.at (n ++ [desc]) ≠ some (.file doc t')) :
    NoneBeside o (treeFs t cwd) b m := by
  intro u desc ha h1 h2 h3 hdesc
  obtain ⟨d1, d2, d3⟩ := hd desc hdesc
  have hu : stand (comps u) = .root :: n.map Comp.normal := by
    obtain ⟨s, hs⟩ := h1
    rw [hm] at h2 h3
    rw [← hs] at h2 h3
    rcases List.prefix_cons_iff.1 ((List.prefix_append_right_inj _).1 h2) with rfl | ⟨s', rfl, hs'⟩
    · rw [← hs, List.append_nil, hn]
    · cases List.prefix_nil.1 hs'
      exact absurd rfl h3
  refine read_stand (isAbs_pjoin_left _ ha) (d := n ++ [desc]) ?_ d3
  rw [comps_join' (abs_ne_nil ha) d1, d2, stand_append (by simp), hu]
  simp

/-- The trees are the same outside. -/
theorem lookup_same {p : Str} (hd : ∀ s ∈ d, ValidName s) (hp : Outside (absText d) p) (cwd : List Str) :
    t'.lookup cwd p = t.lookup cwd p ∧ ∀ r, t.lookup cwd p = some r → ¬ d <+: r := by
  obtain ⟨h1, h3⟩ := hp
  obtain ⟨r, rfl⟩ : ∃ r, p = '/' :: r := by
    obtain ⟨r, hr⟩ := (startsWith_iff _ _).1 h1
    exact ⟨r, hr.symm⟩
  have key : ∀ k, k <+: splitC '/' r → ¬ d <+: k.foldl goPiece [] := by
    intro k hk hp
    apply h3 (.root :: segComps k) (by
      rw [comps_abs]
      exact (List.prefix_cons_inj _).2 (hk.filterMap _))
    rw [comps_absText hd, stand_root]
    exact (List.prefix_cons_inj _).2 (hp.map _)
  rw [lookup_abs, lookup_abs]
  refine ⟨reach_same ht fun k hk => ?_, fun x hx => ?_⟩
  · cases k with
    | nil => exact key [] List.nil_prefix
    | cons s k =>
      obtain ⟨rfl, hk'⟩ := List.cons_prefix_cons.1 hk
      exact key k hk'
  · rw [reach_where hx]
    exact key (splitC '/' r) (List.prefix_refl _)

theorem tree_same (hd : ∀ s ∈ d, ValidName s) (cwd : List Str) :
    SameAt (Outside (absText d)) (treeFs t cwd) (treeFs t' cwd) ∧
      ∀ w, Outside (absText d) w → (treeFs t' cwd).pathExists w = (treeFs t cwd).pathExists w := by
  have node : ∀ w, Outside (absText d) w → seen (t'.node cwd w) = seen (t.node cwd w) := by
    intro w hw
    obtain ⟨h1, h2⟩ := lookup_same ht hd hw cwd
    unfold Tree.node
    rw [h1]
    cases hl : t.lookup cwd w with
    | none => rfl
    | some loc => exact ht loc (h2 loc hl)
  refine ⟨⟨?_, ?_, ?_, ?_, ?_⟩, fun w hw => seen_isSome (node w hw)⟩
  · intro w hw
    have := node w hw
    unfold treeFs
    dsimp only
    rcases h1 : t.node cwd w with _ | (_ | _) <;> rcases h2 : t'.node cwd w with _ | (_ | _) <;>
      rw [h1, h2] at this <;> first | rfl | cases this
  · intro w hw
    have := node w hw
    unfold treeFs
    dsimp only
    rcases h1 : t.node cwd w with _ | (_ | _) <;> rcases h2 : t'.node cwd w with _ | (_ | _) <;>
      rw [h1, h2] at this <;> first | rfl | cases this
  · intro w hw
    have := node w hw
    unfold treeFs
    dsimp only
    rcases h1 : t.node cwd w with _ | (_ | _) <;> rcases h2 : t'.node cwd w with _ | (_ | _) <;>
      rw [h1, h2] at this <;> first | rfl | cases this <;> rfl
  · intro w hw
    have := node w hw
    unfold treeFs
    dsimp only
    rcases h1 : t.node cwd w with _ | (_ | _) <;> rcases h2 : t'.node cwd w with _ | (_ | _) <;>
      rw [h1, h2] at this <;> first | rfl | cases this
  · intro w hw
    unfold treeFs
    dsimp only
    rw [(lookup_same ht hd hw cwd).1]

end

end Verif
