import Verif.Spec.SelfRef
import Verif.Proofs.Changes
import Verif.Proofs.Packages
/-!
# Lemmas about requests of a package for itself
-/

namespace Verif

variable {fs : Fs} {desc : Str}

/-- What belongs to a path below a directory with a description file. -/
theorem closest_between (hfs : fs.Lawful) {dir : Str} (hd : fs.isDir dir = true)
    (hf : fs.isFile (pjoin dir desc) = true) (hda : isAbs dir = true) {p : Str} (ha : isAbs p = true)
    (hpre : comps dir <+: comps p)
    (hno : ∀ q, isAbs q = true → comps dir <+: comps q → comps q <+: comps p → comps q ≠ comps dir →
      fs.isDir q = true → fs.isFile (pjoin q desc) = false) :
    ∃ d, closest fs desc p = some d ∧ isAbs d = true ∧ comps d = comps dir := by
  induction hn : p.length using Nat.strongRecOn generalizing p with
  | ind n ih =>
    subst hn
    by_cases hc : comps p = comps dir
    · refine ⟨p, ?_, ha, hc⟩
      rw [closest_step, if_pos]
      rw [hfs.dir p dir ha hc, hfs.file _ _ (isAbs_pjoin_left desc ha) (sim_pjoin ha hc desc)]
      exact ⟨hd, hf⟩
    · have hne := hno p ha hpre (List.prefix_refl _) hc
      rw [closest_step, if_neg (by rintro ⟨h1, h2⟩; rw [hne h1] at h2; cases h2)]
      have hlt : (comps dir).length < (comps p).length := by
        rcases Nat.lt_or_ge (comps dir).length (comps p).length with h | h
        · exact h
        · exact absurd (hpre.eq_of_length_le h).symm hc
      cases hp : pparent p with
      | none =>
        have h1 := (pparent_eq_none p).1 hp
        rcases h1 with h1 | h1
        · rw [h1] at hlt; simp at hlt
        · exfalso
          rw [h1] at hlt
          have : comps dir ≠ [] := by
            rw [isAbs_iff_comps] at hda
            intro e; rw [e] at hda; cases hda
          have := List.length_pos_iff.2 this
          rw [List.length_singleton] at hlt
          omega
      | some q =>
        have hcq := comps_pparent hp
        have hpre' : comps dir <+: comps q := by
          rw [hcq]
          refine List.prefix_of_prefix_length_le hpre (List.dropLast_prefix _) ?_
          rw [List.length_dropLast]; omega
        have hqa : isAbs q = true := by rw [isAbs_pparent hp]; exact ha
        exact ih _ (pparent_length hp) hqa hpre' (fun r h1 h2 h3 => hno r h1 h2
          (h3.trans (by rw [hcq]; exact List.dropLast_prefix _))) rfl

/-- The package that belongs to a path below a directory with a description file. -/
theorem loads_between {o : Opts} (hfs : fs.Lawful) {dir name target : Str} {pkg : Pkg}
    (hda : isAbs dir = true) (h : Itself o fs dir name target pkg) (ht : isAbs target = false) :
    ∃ pkg', Loads o fs (pjoin (pjoin dir cs!"node_modules") target) (.ok (some pkg')) ∧
      isAbs pkg'.absDir = true ∧ comps pkg'.absDir = comps dir ∧ pkg'.name = pkg.name ∧
      pkg'.raw = pkg.raw ∧ pkg'.aliasFields = pkg.aliasFields ∧ comps pkg.absDir = comps dir := by
  obtain ⟨desc, hdesc, hf, hno⟩ := h.own
  have hl := h.loads
  have hma : isAbs (pjoin dir cs!"node_modules") = true := isAbs_pjoin_left _ hda
  have hne : ∀ {x : Str}, isAbs x = true → x ≠ [] := by rintro x h rfl; cases h
  have hpre : comps dir <+: comps (pjoin (pjoin dir cs!"node_modules") target) := by
    rw [comps_pjoin (hne hma) ht, comps_pjoin (hne hda) rfl, List.append_assoc]
    exact List.prefix_append ..
  obtain ⟨d, h1, h2, h3⟩ := closest_between hfs h.isDir hf hda (isAbs_pjoin_left target hma) hpre hno
  have h4 : closest fs desc dir = some dir := by
    rw [closest_step, if_pos ⟨h.isDir, hf⟩]
  unfold Loads at hl ⊢
  rw [hdesc] at hl ⊢
  rw [findPkg_here h4] at hl
  rw [findPkg_here h1]
  have hr : readPkg fs dir (pjoin dir desc) = .ret (.ok pkg) := by
    rcases readPkg_cases fs dir (pjoin dir desc) with ⟨a, ha⟩ | ⟨s, hs⟩
    · rw [ha, Prog.ret_bind] at hl
      cases a with
      | error e => cases hl
      | ok x => cases hl; exact ha
    · rw [hs] at hl; cases hl
  have h5 := readPkg_comps (desc := desc) (G := fun _ => True) (R := fun _ _ => True) hfs h2 h3
  rw [hr] at h5
  cases h6 : readPkg fs d (pjoin d desc) with
  | crash s => rw [h6] at h5; cases h5
  | op o k =>
    rcases readPkg_cases fs d (pjoin d desc) with ⟨a, ha⟩ | ⟨s, hs⟩
    · rw [ha] at h6; cases h6
    · rw [hs] at h6; cases h6
  | ret b =>
    rw [h6] at h5
    have hab : ReadRel d b (.ok pkg) := by cases h5; assumption
    cases b with
    | error _ => cases hab
    | ok b =>
      have hb : b = { pkg with absDir := d } := hab
      subst hb
      exact ⟨_, rfl, h2, h3, rfl, rfl, rfl, by rw [readPkg_dir hr]⟩

/-- The same directory, spelled in another way. -/
theorem usable_comps (hfs : fs.Lawful) {d d' t : Str} (ha : isAbs d = true) (hd : fs.isDir d = true)
    (h : comps d = comps d') : Usable fs d t ↔ Usable fs d' t := by
  have ha' : isAbs d' = true := by rw [← isAbs_of_comps h]; exact ha
  unfold Usable
  refine and_congr_left fun _ => ?_
  unfold targetPath
  split
  · rw [hfs.dirNotFile _ ha hd, hfs.dirNotFile _ ha' (by rw [← hfs.dir d d' ha h]; exact hd)]
  · rw [hfs.file _ _ (isAbs_pjoin_left _ ha) (sim_pjoin ha h _)]

theorem usable_target (hfs : fs.Lawful) {d t : Str} (ha : isAbs d = true) (hd : fs.isDir d = true)
    (h : Usable fs d t) : ¬ ((parseRequest t).target = [] ∨ (parseRequest t).target = ['.']) := by
  intro e
  have := h.1
  unfold targetPath at this
  rw [if_pos e, hfs.dirNotFile _ ha hd] at this
  cases this

theorem targetPath_comps {d d' t : Str} (ha : isAbs d = true) (h : comps d = comps d')
    (ht : ¬ (t = [] ∨ t = ['.'])) : Sim (targetPath d t) (targetPath d' t) := by
  unfold targetPath
  rw [if_neg ht, if_neg ht]
  exact sim_pjoin ha h _

theorem exportPath_comps {d d' t : Str} (ha : isAbs d = true) (h : comps d = comps d')
    (ht : ¬ (t = [] ∨ t = ['.'])) : Sim (exportPath d t) (exportPath d' t) := by
  unfold exportPath
  split
  · exact sim_pjoin ha h _
  · exact targetPath_comps ha h ht

theorem covers_comps {exts : List Str} {d d' k x x' : Str} (ha : isAbs d = true) (h : comps d = comps d')
    (hx : isAbs x = true) (hs : Sim x x') (hc : Covers exts d k x) : Covers exts d' k x' := by
  have hk := (sim_pjoin ha h k).1
  rcases hc with hc | ⟨e, he, hc⟩
  · exact .inl (by rw [← hk, hc]; exact hs.1)
  · exact .inr ⟨e, he, by rw [← hk, hc]; exact (sim_append hx hs e).1⟩

end Verif
