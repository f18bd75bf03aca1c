import Verif.Proofs.RequireHash
/-!
# Lemmas on the comparison of requests of a package for itself with Node.js
-/

namespace Verif

variable {o : Opts} {fs : Fs}

theorem readPkg_name {d file : Str} {p : Pkg} (h : readPkg fs d file = .ret (.ok p)) :
    p.name = (p.raw.get cs!"name").bind Json.asStr := by
  unfold readPkg at h
  split at h
  · split at h
    · cases h
    · split at h
      · cases h
      · unfold withTree at h
        repeat' split at h
        all_goals first
          | cases h; rfl
          | cases h
  · cases h

theorem loads_name (ho : NodeOpts o) {x : Str} {p : Pkg} (hx : isAbs x = true) (h : Loads o fs x (.ok (some p))) :
    p.name = (p.raw.get cs!"name").bind Json.asStr := by
  unfold Loads at h
  rw [ho.description] at h
  obtain ⟨d, -, -, h3⟩ := findPkg_found hx (by rw [h]; exact .ret _)
  exact readPkg_name h3

/-- The step of the search at the package. -/
theorem self_node (ho : NodeOpts o) (hl : fs.Lawful) {request name rest : Str} {parts p : List Str} {e : Json}
    (h : CommonSelf o fs request name rest parts p e) {d : Str} (hda : isAbs d = true)
    (hdc : comps d = .root :: p.map Comp.normal) :
    ∃ r, StepOut o fs (Loads o fs) name rest [] [] d (some r) ∧
      HitNode (some r) (some (loadExports fs o.conditionNames (absText p) rest e)) := by
  obtain ⟨j, hscope, hname, hexp⟩ := h.scope
  obtain ⟨hmem, hpj⟩ := packageScope_mem hscope
  have hvalid : ∀ s ∈ p, ValidName s := fun s hs =>
    have ⟨n1, n2, n3, n4⟩ := h.names s (upParts_sub hmem s hs)
    ⟨n1, n4, n2, n3⟩
  have hrel : isAbs (name ++ rest) = false := by rw [← h.target.split]; exact kind_normal_rel h.target.kind
  have hdir := comps_modules hda hvalid hdc
  have hra : isAbs (pjoin d cs!"node_modules") = true := isAbs_pjoin_left _ hda
  have hroot : fs.isDir (pjoin d cs!"node_modules") = true := by rw [hl.dir _ _ hra hdir]; exact h.modules
  have hX : comps (pjoin (pjoin d cs!"node_modules") (name ++ rest)) =
      comps (under (absText (p ++ [cs!"node_modules"])) request) := by
    rw [h.target.split, ← pjoin_under (abs_ne_nil (isAbs_absText _)) hrel]
    exact (sim_pjoin hra hdir _).1
  have hXa := isAbs_pjoin_left (name ++ rest) hra
  have hXUa : isAbs (under (absText (p ++ [cs!"node_modules"])) request) = true := isAbs_under _ (isAbs_absText _)
  obtain ⟨pkg0, hok⟩ := h.loads
  obtain ⟨dd, hcl, hdd⟩ := h.own
  have hpkg : ∃ pkg, Loads o fs (pjoin (pjoin d cs!"node_modules") (name ++ rest)) (.ok (some pkg)) ∧
      comps pkg.absDir = comps (absText p) := by
    rcases loads_spelling hl hXa hX hok with ⟨rfl, h1⟩ | ⟨pkg, d2, rfl, h1, h2, -⟩
    · unfold Loads at hok
      rw [ho.description, findPkg_here hcl] at hok
      rcases readPkg_cases fs dd (pjoin dd cs!"package.json") with ⟨a, ha⟩ | ⟨s, hs⟩
      · rw [ha, Prog.ret_bind] at hok
        cases a <;> cases hok
      · rw [hs] at hok; cases hok
    · obtain ⟨h3, -⟩ := loads_here ho hXUa hok
      rw [hcl] at h3
      cases h3
      exact ⟨_, h1, h2.trans hdd⟩
  obtain ⟨pkg, hload, hpd⟩ := hpkg
  obtain ⟨-, hpa, hraw, htree⟩ := loads_here ho hXa hload
  have hj : pkg.raw = j := by
    rw [packageJson_comps hl hpa hpd, hpj] at hraw
    exact (Option.some.inj hraw).symm
  have hnm : pkg.name = some name := by
    rw [loads_name ho hXa hload, hj, hname]
    rfl
  obtain ⟨hce, hcr, hfound⟩ := h.exports
  obtain ⟨targets, hmapped, h3⟩ := exports_mapped (o := o) (packageName_rest h.target.isName) h.slash
    (by rw [hj]; exact hexp) htree hce hcr
  exact mapped_node ho hl hroot hload
    (.inr ⟨⟨_, _, rfl, hnm, List.prefix_append ..⟩, .inr (.inl hnm)⟩)
    (.inr ⟨_, hnm, List.prefix_append ..⟩) hpa hpd hmapped h3 hfound

end Verif
