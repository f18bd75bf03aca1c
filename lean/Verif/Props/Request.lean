import Verif.Proofs.Parse
import Verif.Proofs.Kind
/-!
# Properties of request strings: C01, C02, C03, C04
-/

namespace Verif

/-- C01: target, query and fragment, concatenated, are the request string. -/
theorem C01_parse_lossless (s : Str) :
    (parseRequest s).target ++ (parseRequest s).query ++ (parseRequest s).fragment = s :=
  (parse_isSplit s).concat.symm

/-- C02: the parser's answer is the one and only split of the specified shape. -/
theorem C02_parse_canonical (s t q f : Str) :
    IsSplit s t q f ↔
      (parseRequest s).target = t ∧ (parseRequest s).query = q ∧ (parseRequest s).fragment = f := by
  constructor
  · intro h; simp [parseRequest, parse_of_isSplit h]
  · rintro ⟨rfl, rfl, rfl⟩; exact parse_isSplit s

-- the shape is met by a request with all three parts, and by a leading `#`
example : IsSplit cs!"#a/b?x=?1#f?g" cs!"#a/b" cs!"?x=?1" cs!"#f?g" := by
  constructor <;> decide
example : (parseRequest cs!"#a/b?x=?1#f?g").target = cs!"#a/b" := by decide

/-- C03: the class of any text is decided by its prefix. -/
theorem C03_target (t : Str) :
    (getTargetKind t = .relative ↔ SpecRelative t) ∧
    (getTargetKind t = .internal ↔ SpecInternal t) ∧
    (getTargetKind t = .absolutePosix ↔ SpecPosix t) ∧
    (getTargetKind t = .absoluteWin ↔ SpecWin t) ∧
    (getTargetKind t = .normal ↔
      ¬ SpecRelative t ∧ ¬ SpecInternal t ∧ ¬ SpecPosix t ∧ ¬ SpecWin t) := by
  obtain ⟨d1, d2, d3⟩ := spec_disjoint t
  rcases getTargetKind_spec t with ⟨h, h'⟩ | ⟨h, h'⟩ | ⟨h, h'⟩ | ⟨h, h'⟩ | ⟨h, h1, h2, h3, h4⟩ <;>
    rw [h] <;> grind

/-- C03: the class of a request is decided by the prefix of its target. -/
theorem C03_kind (s : Str) :
    ((parseRequest s).kind = .relative ↔ SpecRelative (parseRequest s).target) ∧
    ((parseRequest s).kind = .internal ↔ SpecInternal (parseRequest s).target) ∧
    ((parseRequest s).kind = .absolutePosix ↔ SpecPosix (parseRequest s).target) ∧
    ((parseRequest s).kind = .absoluteWin ↔ SpecWin (parseRequest s).target) ∧
    ((parseRequest s).kind = .normal ↔
      ¬ SpecRelative (parseRequest s).target ∧ ¬ SpecInternal (parseRequest s).target ∧
      ¬ SpecPosix (parseRequest s).target ∧ ¬ SpecWin (parseRequest s).target) :=
  C03_target (parseRequest s).target

/-- C03: if the target of a request is replaced, its class is that of the new target. -/
theorem C03_replaced (r : Request) (t : Str) : (r.withTarget t).kind = getTargetKind t := rfl

-- every class is inhabited
example : (parseRequest cs!"../a").kind = .relative ∧ (parseRequest cs!"#a").kind = .internal ∧
    (parseRequest cs!"/a").kind = .absolutePosix ∧ (parseRequest cs!"C:\\a").kind = .absoluteWin ∧
    (parseRequest cs!"aC:/a").kind = .normal ∧ (parseRequest cs!".a").kind = .normal := by decide

/-- C04 fails as stated: Node's `assert/strict` is not recognised, and the string
`assert/,strict`, which is no module, is. -/
theorem C04_builtin_violated :
    isBuiltIn cs!"assert/strict" = false ∧ cs!"assert/strict" ∈ nodeBuiltins ∧
    isBuiltIn cs!"assert/,strict" = true ∧ cs!"assert/,strict" ∉ nodeBuiltins := by decide +kernel

/-- C04, for all strings but those two: `is_build_in_module` is membership in Node's list. -/
theorem C04_builtin_partial (t : Str) (h1 : t ≠ cs!"assert/strict") (h2 : t ≠ cs!"assert/,strict") :
    isBuiltIn t = true ↔ t ∈ nodeBuiltins := by
  have e : builtInModules = nodeBuiltins.map
      (fun x => if x = cs!"assert/strict" then cs!"assert/,strict" else x) := by decide +kernel
  unfold isBuiltIn
  rw [List.contains_iff_mem, e, List.mem_map]
  constructor
  · rintro ⟨x, hx, h⟩
    split at h
    · exact absurd h.symm h2
    · exact h ▸ hx
  · intro h; exact ⟨t, h, if_neg h1⟩

-- both answers occur under the hypotheses
example : isBuiltIn cs!"fs" = true ∧ isBuiltIn cs!"fs/" = false := by decide +kernel

end Verif
