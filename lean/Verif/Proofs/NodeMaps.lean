import Verif.Spec.Node
import Verif.Props.Maps
/-!
# Lemmas: maps as Node.js reads them
-/

namespace Verif

/-! ## Values -/

mutual
/-- The mapping value of a JSON value. -/
def toMV : Json → MV
  | .str s => .direct s
  | .arr l => .arr (mvItems l)
  | .obj l => .cond (mvFields l)
  | _ => .direct []
/-- See `toMV`. -/
def mvItems : List Json → List MV
  | [] => []
  | j :: l => toMV j :: mvItems l
/-- See `toMV`. -/
def mvFields : List (Str × Json) → List (Str × MV)
  | [] => []
  | (p, j) :: l => (p, toMV j) :: mvFields l
end

theorem mvFields_eq (l : List (Str × Json)) : mvFields l = l.map fun kv => (kv.1, toMV kv.2) := by
  induction l with
  | nil => rfl
  | cons kv l ih => rw [mvFields, ih]; rfl

theorem mvFields_keys (l : List (Str × Json)) : (mvFields l).map Prod.fst = l.map Prod.fst := by
  rw [mvFields_eq, List.map_map]; rfl

mutual
theorem fromJson_common : ∀ j : Json, j.common = true → fromJson j = some (toMV j)
  | .null, h => by simp [Json.common] at h
  | .bool _, h => by simp [Json.common] at h
  | .num _, h => by simp [Json.common] at h
  | .str s, _ => rfl
  | .arr l, h => by
    rw [fromJson, toMV]
    rw [Json.common] at h
    have : fromJsonArr l = some (mvItems l) := by
      induction l with
      | nil => rfl
      | cons j l ih =>
        rw [List.all_cons, Bool.and_eq_true] at h
        rw [fromJsonArr, mvItems]
        cases j with
        | str s =>
          rw [show fromJson (.str s) = some (.direct s) from rfl]
          simp only
          rw [ih h.2]
          rfl
        | _ => cases h.1
    rw [this]
    rfl
  | .obj l, h => by
    rw [fromJson, toMV]
    rw [Json.common, Bool.and_eq_true, Bool.and_eq_true, decide_eq_true_eq] at h
    rw [fromJsonObj_common l [] h.2 h.1.1 (by simp)]
    rfl
theorem fromJsonObj_common : ∀ (l : List (Str × Json)) (acc : List (Str × MV)), commonFields l = true →
    (l.map Prod.fst).Nodup → (∀ k ∈ l.map Prod.fst, k ∉ acc.map Prod.fst) →
    fromJsonObj l acc = some (acc ++ mvFields l)
  | [], acc, _, _, _ => by rw [fromJsonObj, mvFields, List.append_nil]
  | (p, j) :: l, acc, h, hn, hd => by
    rw [commonFields, Bool.and_eq_true, Bool.and_eq_true] at h
    rw [List.map_cons, List.nodup_cons] at hn
    rw [fromJsonObj, fromJson_common j h.1.2]
    simp only
    rw [ainsert_new (hd p (by simp)), fromJsonObj_common l _ h.2 hn.2 ?_, mvFields]
    · simp
    · intro k hk hk'
      rw [List.map_append, List.mem_append] at hk'
      rcases hk' with hk' | hk'
      · exact hd k (by simp only [List.map_cons, List.mem_cons]; exact .inr hk) hk'
      · simp only [List.map_cons, List.map_nil, List.mem_singleton] at hk'
        subst hk'
        exact hn.1 hk
end

/-- Which field it is. -/
def FieldKind.isImports : FieldKind → Bool
  | .exports => false
  | .imports => true

/-- The text put in has no odd segments. -/
def GoodMatch (pm : Option Str) : Prop := ∀ c, pm = some c → hasBadSegment c = false

theorem nodeString_common {k : FieldKind} {pm : Option Str} {t : Str} (h : CommonTarget k t)
    (hp : GoodMatch pm) : nodeString k.isImports pm t = .found (withMatch t pm) := by
  unfold nodeString
  rcases h with ⟨h1, h2⟩ | ⟨rfl, h1, h2, h3, h4, -⟩
  · rw [List.isPrefixOf_iff_prefix.2 h1, h2]
    cases pm with
    | none => rfl
    | some c => simp [hp c rfl]
  · have e1 : cs!"./".isPrefixOf t = false := by
      rw [← Bool.not_eq_true, List.isPrefixOf_iff_prefix]; exact h1
    have e2 : cs!"../".isPrefixOf t = false := by
      rw [← Bool.not_eq_true, List.isPrefixOf_iff_prefix]; exact h2
    have e3 : cs!"/".isPrefixOf t = false := by
      rw [← Bool.not_eq_true, List.isPrefixOf_iff_prefix]; exact h3
    simp [e1, e2, e3, h4, FieldKind.isImports]

/-- The first of the targets, or null. -/
def firstOrNull (l : List Str) : NodeOut :=
  match l with
  | [] => .null
  | t :: _ => .found t

theorem nodeLeaf {k : FieldKind} {names : List Str} {pm : Option Str} (hp : GoodMatch pm) {j : Json}
    (hc : j.common = true) (hs : ∀ t ∈ j.strings, CommonTarget k t) (hl : ∀ l, j ≠ .obj l) :
    nodeTarget k.isImports names pm j = firstOrNull (j.strings.map (withMatch · pm)) := by
  cases j with
  | null => cases hc
  | bool _ => cases hc
  | num _ => cases hc
  | obj l => exact absurd rfl (hl l)
  | str t =>
    rw [nodeTarget, nodeString_common (hs t (by simp [Json.strings])) hp]
    rfl
  | arr l =>
    cases l with
    | nil => rfl
    | cons j l =>
      rw [Json.common, List.all_cons, Bool.and_eq_true] at hc
      cases j with
      | str t =>
        rw [nodeTarget, nodeItems, nodeTarget,
          nodeString_common (hs t (by simp [Json.strings, arrStrings])) hp]
        rfl
      | _ => cases hc.1

theorem toMV_cond {j : Json} {inner : List (Str × MV)} (h : toMV j = .cond inner) :
    ∃ l, j = .obj l ∧ inner = mvFields l := by
  cases j with
  | obj l => rw [toMV] at h; cases h; exact ⟨l, rfl, rfl⟩
  | _ => simp [toMV] at h

theorem nodeTarget_obj {b : Bool} {names : List Str} {pm : Option Str} {l : List (Str × Json)}
    (h : (Json.obj l).common = true) :
    nodeTarget b names pm (.obj l) = nodeFields b names pm l := by
  rw [Json.common, Bool.and_eq_true, Bool.and_eq_true] at h
  rw [nodeTarget, if_neg]
  rw [List.any_eq_true]
  rintro ⟨kv, h1, h2⟩
  have := List.all_eq_true.1 h.1.2 kv h1
  rw [h2] at this
  cases this

theorem common_fields {l : List (Str × Json)} (h : (Json.obj l).common = true) : commonFields l = true := by
  rw [Json.common, Bool.and_eq_true] at h
  exact h.2

/-- What a scan finds is what Node.js finds. -/
theorem scan_node {k : FieldKind} {names : List Str} {pm : Option Str} (hp : GoodMatch pm)
    {m : List (Str × MV)} {r : CondResult} (h : Scan (· ∈ names) m r) (l : List (Str × Json))
    (hm : m = mvFields l) (hc : commonFields l = true) (hs : ∀ t ∈ objStrings l, CommonTarget k t) :
    (r = .noMatch ∧ nodeFields k.isImports names pm l = .undefined) ∨
    ∃ j, r = .found (toMV j) ∧ j.common = true ∧ (∀ t ∈ j.strings, t ∈ objStrings l) ∧
      (∀ l, j ≠ .obj l) ∧ nodeFields k.isImports names pm l = nodeTarget k.isImports names pm j := by
  induction h generalizing l with
  | nil =>
    cases l with
    | nil => exact .inl ⟨rfl, rfl⟩
    | cons kv l => cases kv; cases hm
  | bad hne =>
    cases l with
    | nil => cases hm
    | cons kv l =>
      obtain ⟨p, j⟩ := kv
      rw [mvFields] at hm
      simp only [List.cons.injEq, Prod.mk.injEq] at hm
      obtain ⟨⟨rfl, rfl⟩, rfl⟩ := hm
      rw [commonFields, Bool.and_eq_true, Bool.and_eq_true] at hc
      have := hc.1.1
      simp at this
      subst this
      exact absurd rfl hne
  | @skip key v rest r h1 h2 _ ih =>
    cases l with
    | nil => cases hm
    | cons kv l =>
      obtain ⟨p, j⟩ := kv
      rw [mvFields] at hm
      simp only [List.cons.injEq, Prod.mk.injEq] at hm
      obtain ⟨⟨rfl, rfl⟩, rfl⟩ := hm
      rw [commonFields, Bool.and_eq_true] at hc
      rw [objStrings] at hs
      have e : nodeFields k.isImports names pm ((key, j) :: l) = nodeFields k.isImports names pm l := by
        rw [nodeFields, if_neg (fun h => h.elim h1 h2)]
      rw [e]
      rcases ih l rfl hc.2 (fun t ht => hs t (List.mem_append_right _ ht)) with h | ⟨j', a1, a2, a3, a4, a5⟩
      · exact .inl h
      · exact .inr ⟨j', a1, a2, fun t ht => by rw [objStrings]; exact List.mem_append_right _ (a3 t ht), a4, a5⟩
  | @leaf key v rest he hv =>
    cases l with
    | nil => cases hm
    | cons kv l =>
      obtain ⟨p, j⟩ := kv
      rw [mvFields] at hm
      simp only [List.cons.injEq, Prod.mk.injEq] at hm
      obtain ⟨⟨rfl, rfl⟩, rfl⟩ := hm
      rw [commonFields, Bool.and_eq_true, Bool.and_eq_true] at hc
      rw [objStrings] at hs
      have hl : ∀ l, j ≠ .obj l := by
        rintro l' rfl
        exact hv _ (by rw [toMV])
      refine .inr ⟨j, rfl, hc.1.2, fun t ht => by rw [objStrings]; exact List.mem_append_left _ ht, hl, ?_⟩
      rw [nodeFields, if_pos (he.imp And.left And.right),
        nodeLeaf hp hc.1.2 (fun t ht => hs t (List.mem_append_left _ ht)) hl]
      unfold firstOrNull
      split
      · rename_i h; split at h <;> cases h
      · rfl
  | @into key inner rest r he _ hr ih =>
    cases l with
    | nil => cases hm
    | cons kv l =>
      obtain ⟨p, j⟩ := kv
      rw [mvFields] at hm
      simp only [List.cons.injEq, Prod.mk.injEq] at hm
      obtain ⟨⟨rfl, hj⟩, rfl⟩ := hm
      obtain ⟨l', rfl, rfl⟩ := toMV_cond hj.symm
      rw [commonFields, Bool.and_eq_true, Bool.and_eq_true] at hc
      rw [objStrings] at hs
      have hs' : ∀ t ∈ objStrings l', CommonTarget k t := fun t ht =>
        hs t (List.mem_append_left _ (by rw [Json.strings]; exact ht))
      rcases ih l' rfl (common_fields hc.1.2) hs' with ⟨h, -⟩ | ⟨j', a1, a2, a3, a4, a5⟩
      · exact absurd h hr
      · refine .inr ⟨j', a1, a2, fun t ht => ?_, a4, ?_⟩
        · rw [objStrings, Json.strings]; exact List.mem_append_left _ (a3 t ht)
        · rw [nodeFields, if_pos (he.imp And.left And.right), nodeTarget_obj hc.1.2,
            a5, nodeLeaf hp a2 (fun t ht => hs' t (a3 t ht)) a4]
          unfold firstOrNull
          split
          · rename_i h; split at h <;> cases h
          · rfl
  | @back key inner rest r he _ _ ih1 ih2 =>
    cases l with
    | nil => cases hm
    | cons kv l =>
      obtain ⟨p, j⟩ := kv
      rw [mvFields] at hm
      simp only [List.cons.injEq, Prod.mk.injEq] at hm
      obtain ⟨⟨rfl, hj⟩, rfl⟩ := hm
      obtain ⟨l', rfl, rfl⟩ := toMV_cond hj.symm
      rw [commonFields, Bool.and_eq_true, Bool.and_eq_true] at hc
      rw [objStrings] at hs
      have hs' : ∀ t ∈ objStrings l', CommonTarget k t := fun t ht =>
        hs t (List.mem_append_left _ (by rw [Json.strings]; exact ht))
      rcases ih1 l' rfl (common_fields hc.1.2) hs' with ⟨-, h⟩ | ⟨j', a1, -⟩
      · have e : nodeFields k.isImports names pm ((key, .obj l') :: l) = nodeFields k.isImports names pm l := by
          rw [nodeFields, if_pos (he.imp And.left And.right), nodeTarget_obj hc.1.2, h]
        rw [e]
        rcases ih2 l rfl hc.2 (fun t ht => hs t (List.mem_append_right _ ht)) with h | ⟨j', a1, a2, a3, a4, a5⟩
        · exact .inl h
        · exact .inr ⟨j', a1, a2, fun t ht => by rw [objStrings]; exact List.mem_append_right _ (a3 t ht), a4, a5⟩
      · cases a1

/-- The targets of an array of strings, or of a string. -/
theorem outputs_leaf {cond : Str → Prop} {g : Str → Except Err Str} {f : Str → Str} {j : Json}
    (hc : j.common = true) (hl : ∀ l, j ≠ .obj l) (hg : ∀ t ∈ j.strings, g t = .ok (f t))
    {out : Except Err (List Str)} (h : Outputs cond g (toMV j) out) : out = .ok (j.strings.map f) := by
  cases j with
  | null => cases hc
  | bool _ => cases hc
  | num _ => cases hc
  | obj l => exact absurd rfl (hl l)
  | str t =>
    rw [toMV] at h
    have := hg t (by simp [Json.strings])
    cases h with
    | direct h => rw [this] at h; cases h; rfl
    | directErr h => rw [this] at h; cases h
  | arr l =>
    rw [toMV] at h
    rw [Json.common] at hc
    rw [Json.strings] at hg ⊢
    clear hl
    induction l generalizing out with
    | nil => cases h; rfl
    | cons j l ih =>
      rw [List.all_cons, Bool.and_eq_true] at hc
      rw [arrStrings] at hg ⊢
      cases j with
      | str t =>
        rw [mvItems, toMV] at h
        have h0 := hg t (by simp [Json.strings])
        have hg' : ∀ t ∈ arrStrings l, g t = .ok (f t) := fun t ht => hg t (List.mem_append_right _ ht)
        cases h with
        | cons h1 h2 =>
          have := ih hc.2 hg' h2
          cases this
          cases h1 with
          | direct h => rw [h0] at h; cases h; rfl
        | err h1 =>
          cases h1 with
          | directErr h => rw [h0] at h; cases h
        | errTail _ h2 => cases ih hc.2 hg' h2
      | _ => cases hc.1

theorem firstOrNull_orThrow (l : List Str) : (firstOrNull l).orThrow = firstTarget l := by
  cases l <;> rfl

/-- What a value stands for is what Node.js makes of it. -/
theorem outputs_node {k : FieldKind} {names : List Str} {pm : Option Str} (hp : GoodMatch pm)
    {g : Str → Except Err Str} {j : Json} (hc : j.common = true)
    (hs : ∀ t ∈ j.strings, CommonTarget k t ∧ g t = .ok (withMatch t pm))
    {out : Except Err (List Str)} (h : Outputs (· ∈ names) g (toMV j) out) :
    ∃ l, out = .ok l ∧ (nodeTarget k.isImports names pm j).orThrow = firstTarget l := by
  have leaf : ∀ j : Json, j.common = true → (∀ l, j ≠ .obj l) →
      (∀ t ∈ j.strings, CommonTarget k t ∧ g t = .ok (withMatch t pm)) → ∀ out,
      Outputs (· ∈ names) g (toMV j) out →
      ∃ l, out = .ok l ∧ (nodeTarget k.isImports names pm j).orThrow = firstTarget l := by
    intro j hc hl hs out h
    refine ⟨_, outputs_leaf hc hl (fun t ht => (hs t ht).2) h, ?_⟩
    rw [nodeLeaf hp hc (fun t ht => (hs t ht).1) hl, firstOrNull_orThrow]
  by_cases ho : ∃ l, j = .obj l
  · obtain ⟨l, rfl⟩ := ho
    rw [toMV] at h
    rw [Json.strings] at hs
    rw [nodeTarget_obj hc]
    have key := fun r (hr : Scan (· ∈ names) (mvFields l) r) =>
      scan_node hp hr l rfl (common_fields hc) (fun t ht => (hs t ht).1)
    cases h with
    | noMatch h =>
      rcases key _ h with ⟨-, e⟩ | ⟨_, h, -⟩
      · rw [e]; exact ⟨[], rfl, rfl⟩
      · cases h
    | badDefault h =>
      rcases key _ h with ⟨h, -⟩ | ⟨_, h, -⟩ <;> cases h
    | found h h' =>
      rcases key _ h with ⟨h, -⟩ | ⟨j', a1, a2, a3, a4, a5⟩
      · cases h
      · cases a1
        rw [a5]
        exact leaf j' a2 a4 (fun t ht => hs t (a3 t ht)) _ h'
  · exact leaf j hc (fun l hl => ho ⟨l, hl⟩) hs _ h

/-! ## Targets -/

theorem badSegment_slash {s : Str} (h : s = [] ∨ s.getLast? = some '/') : hasBadSegment s = true := by
  unfold hasBadSegment
  have h' : s.map (fun c => if c = '\\' then '/' else c) = [] ∨
      (s.map fun c => if c = '\\' then '/' else c).getLast? = some '/' := by
    rcases h with rfl | h
    · exact .inl rfl
    · right; rw [List.getLast?_map, h]; rfl
  obtain ⟨p, hp⟩ := splitC_folder h'
  rw [hp, List.any_eq_true]
  exact ⟨[], by simp, by decide⟩

theorem common_target {k : FieldKind} {t : Str} (h : CommonTarget k t) :
    ¬ BadTarget k t ∧ t.getLast? ≠ some '/' := by
  rcases h with ⟨⟨r, rfl⟩, h2⟩ | ⟨rfl, -, -, -, -, h⟩
  · have hr : ¬ (r = [] ∨ r.getLast? = some '/') := by
      intro h
      have := badSegment_slash h
      rw [show (cs!"./" ++ r).drop 2 = r from rfl] at h2
      rw [h2] at this
      cases this
    constructor
    · rintro ⟨-, h | ⟨x, h⟩ | ⟨-, h⟩⟩
      · rw [utf8Len_append] at h
        have : utf8Len cs!"./" = 2 := rfl
        omega
      · cases h
      · exact h ⟨r, rfl⟩
    · rw [List.getLast?_append]
      cases hg : r.getLast? with
      | none => rw [List.getLast?_eq_none_iff] at hg; exact absurd (.inl hg) hr
      | some c =>
        rw [Option.some_or]
        intro h
        cases h
        exact hr (.inr hg)
  · exact ⟨fun h => (by cases h.1), h⟩

/-- Putting in nothing. -/
theorem subst_exact {k : FieldKind} {t : Str} (h : CommonTarget k t) {r : Option Str}
    (hr : Subst k .exact t r) : r = some (withMatch t none) := by
  obtain ⟨h1, h2⟩ := common_target h
  exact subst_det hr (.exact h1 h2)

/-- Putting in a text. -/
theorem subst_star {k : FieldKind} {t c : Str} (h : CommonTarget k t) {r : Option Str}
    (hr : Subst k (.star c) t r) : r = some (withMatch t (some c)) := by
  obtain ⟨h1, h2⟩ := common_target h
  exact subst_det hr (.star h1 h2)

theorem toOption_some {ε α : Type} {e : Except ε α} {a : α} (h : e.toOption = some a) : e = .ok a := by
  cases e with
  | error _ => cases h
  | ok b => cases h; rfl

/-! ## Keys -/

theorem insertPattern_perm (kv : Str × Json) (l : List (Str × Json)) : (insertPattern kv l).Perm (kv :: l) := by
  induction l with
  | nil => exact .refl _
  | cons x l ih =>
    rw [insertPattern]
    split
    · exact .refl _
    · exact (ih.cons x).trans (.swap ..)

theorem sortPatterns_perm (l : List (Str × Json)) : (sortPatterns l).Perm l := by
  induction l with
  | nil => exact .refl _
  | cons kv l ih => rw [sortPatterns]; exact (insertPattern_perm kv _).trans (ih.cons kv)

theorem insertPattern_sorted {kv : Str × Json} {l : List (Str × Json)}
    (h : l.Pairwise fun a b => (patternBase b.1).length ≤ (patternBase a.1).length) :
    (insertPattern kv l).Pairwise fun a b => (patternBase b.1).length ≤ (patternBase a.1).length := by
  induction l with
  | nil => rw [insertPattern]; exact List.pairwise_singleton _ _
  | cons x l ih =>
    rw [List.pairwise_cons] at h
    rw [insertPattern]
    split
    · rename_i hb
      have hle : (patternBase x.1).length ≤ (patternBase kv.1).length := by
        unfold patternBefore at hb
        rw [Bool.or_eq_true, Bool.and_eq_true, decide_eq_true_eq, decide_eq_true_eq] at hb
        omega
      refine List.pairwise_cons.2 ⟨fun y hy => ?_, List.pairwise_cons.2 h⟩
      rcases List.mem_cons.1 hy with rfl | hy
      · exact hle
      · exact Nat.le_trans (h.1 y hy) hle
    · rename_i hb
      refine List.pairwise_cons.2 ⟨fun y hy => ?_, ih h.2⟩
      rcases List.mem_cons.1 ((insertPattern_perm kv l).mem_iff.1 hy) with rfl | hy
      · unfold patternBefore at hb
        rw [Bool.or_eq_true, Bool.and_eq_true, decide_eq_true_eq, decide_eq_true_eq] at hb
        omega
      · exact h.1 y hy

theorem sortPatterns_sorted (l : List (Str × Json)) :
    (sortPatterns l).Pairwise fun a b => (patternBase b.1).length ≤ (patternBase a.1).length := by
  induction l with
  | nil => exact .nil
  | cons kv l ih => exact insertPattern_sorted ih

/-- The first key that matches has the longest base. -/
theorem find_best {l : List (Str × Json)}
    (hs : l.Pairwise fun a b => (patternBase b.1).length ≤ (patternBase a.1).length)
    {f : Str × Json → Bool} {kv : Str × Json} (h : l.find? f = some kv) :
    ∀ kv' ∈ l, f kv' = true → (patternBase kv'.1).length ≤ (patternBase kv.1).length := by
  induction l with
  | nil => cases h
  | cons x l ih =>
    rw [List.pairwise_cons] at hs
    rw [List.find?_cons] at h
    intro kv' hm hf
    split at h
    · cases h
      rcases List.mem_cons.1 hm with rfl | hm
      · exact Nat.le_refl _
      · exact hs.1 kv' hm
    · rename_i hx
      rcases List.mem_cons.1 hm with rfl | hm
      · rw [hx] at hf; cases hf
      · exact ih hs.2 h kv' hm hf

theorem takeWhile_star {lit : Str} (h : '*' ∉ lit) :
    patternBase (lit ++ cs!"*") = lit ∧ patternTrailer (lit ++ cs!"*") = [] := by
  unfold patternBase patternTrailer
  have h' : ∀ c ∈ lit, (c ≠ '*') = true := fun c hc => by
    simp only [ne_eq, eq_iff_iff, iff_true]; rintro rfl; exact h hc
  induction lit with
  | nil => exact ⟨by decide, by decide⟩
  | cons c lit ih =>
    have hc : c ≠ '*' := by rintro rfl; exact h (List.mem_cons_self ..)
    obtain ⟨h1, h2⟩ := ih (fun hm => h (List.mem_cons_of_mem _ hm)) (fun c hc => h' c (List.mem_cons_of_mem _ hc))
    constructor
    · rw [List.cons_append, List.takeWhile_cons, if_pos (by simpa using hc), h1]
    · rw [List.cons_append, List.dropWhile_cons, if_pos (by simpa using hc), h2]

/-- A key with one `*`, which is at the end. -/
theorem star_key {key : Str} (h : '*' ∉ key.dropLast) : key.count '*' = 1 ↔ ∃ lit, key = lit ++ cs!"*" ∧ '*' ∉ lit := by
  constructor
  · intro hc
    have hne : key ≠ [] := by rintro rfl; cases hc
    refine ⟨key.dropLast, ?_, h⟩
    have e := List.dropLast_concat_getLast hne
    rw [← e, List.count_append, List.count_eq_zero.2 h] at hc
    have : key.getLast hne = '*' := by
      false_or_by_contra
      rename_i hn
      rw [List.count_eq_zero.2 (by simp; exact fun h => hn h.symm)] at hc
      cases hc
    rw [← e, this]
    simp
  · rintro ⟨lit, rfl, hl⟩
    rw [List.count_append, List.count_eq_zero.2 hl]
    decide

/-- An entry of the map is an entry of the object. -/
theorem mem_mvFields {l : List (Str × Json)} {key : Str} {v : MV} :
    (key, v) ∈ mvFields l ↔ ∃ j, (key, j) ∈ l ∧ toMV j = v := by
  rw [mvFields_eq, List.mem_map]
  constructor
  · rintro ⟨⟨key', j⟩, h, e⟩
    cases e
    exact ⟨j, h, rfl⟩
  · rintro ⟨j, h, rfl⟩
    exact ⟨_, h, rfl⟩

theorem patternMatches_star {request lit : Str} (h : '*' ∉ lit) :
    patternMatches request (lit ++ cs!"*") = true ↔ lit <+: request ∧ request ≠ lit := by
  unfold patternMatches
  rw [(takeWhile_star h).1, (takeWhile_star h).2]
  simp [List.isPrefixOf_iff_prefix]

/-- What a map gives is what Node.js gives. -/
theorem selected_node {k : FieldKind} {names : List Str} {l : List (Str × Json)} {request : Str}
    (hm : CommonMap k l) (hr : CommonRequest (l.map Prod.fst) request) (hs : request.getLast? ≠ some '/')
    {out : Except Err (List Str)} (h : Selected k names (mvFields l) request out) :
    ∃ targets, out = .ok targets ∧
      (nodeMatch k.isImports names request l).orThrow = firstTarget targets := by
  -- no key that is equal
  have noEqual : (∀ v, ¬ KeyEqual (mvFields l) request v) → ∀ j, alookup request l = some j → '*' ∈ request := by
    intro h j hj
    false_or_by_contra
    rename_i hn
    refine h (toMV j) ⟨mem_mvFields.2 ⟨j, alookup_mem hj, rfl⟩, fun he => hn ?_, hs⟩
    exact List.mem_of_getLast? he
  unfold nodeMatch
  rw [if_neg hs]
  cases h with
  | exact v hk hmean =>
    obtain ⟨h1, h2, -⟩ := hk
    obtain ⟨j, hj, rfl⟩ := mem_mvFields.1 h1; replace h1 := hj
    rw [alookup_of_mem hm.nodup h1]
    have hstar : '*' ∉ request := by
      intro h
      have hne : request ≠ [] := by rintro rfl; cases h
      rw [← List.dropLast_concat_getLast hne, List.mem_append, List.mem_singleton] at h
      rcases h with h | h
      · exact (hm.key _ h1).1 h
      · exact h2 (by rw [List.getLast?_eq_some_getLast hne, ← h])
    simp only
    rw [if_neg hstar]
    obtain ⟨g, hg, -, ho⟩ := hmean
    obtain ⟨hc, hv⟩ := hm.value _ h1
    refine outputs_node (pm := none) nofun hc (fun t ht => ⟨(hv t ht).1, ?_⟩) ho
    refine toOption_some (subst_exact (hv t ht).1 (hg t ?_))
    exact fun h => hstar ((hv t ht).2 h)
  | star lit v hno hch hmean =>
    obtain ⟨⟨h1, -, h3⟩, hbest⟩ := hch
    simp only [if_true] at h1
    obtain ⟨j, hj, rfl⟩ := mem_mvFields.1 h1; replace h1 := hj
    have hl : '*' ∉ lit := by have := (hm.key _ h1).1; simpa using this
    obtain ⟨rest, hrest⟩ := h3
    obtain ⟨-, b2, b3, b4⟩ := hr lit rest (List.mem_map.2 ⟨_, h1, rfl⟩) hrest.symm
    have hin : (lit ++ cs!"*", j) ∈ sortPatterns (l.filter fun kv => kv.1.count '*' = 1) := by
      rw [(sortPatterns_perm _).mem_iff, List.mem_filter, decide_eq_true_eq]
      exact ⟨h1, (star_key (hm.key _ h1).1).2 ⟨lit, rfl, hl⟩⟩
    have hmat : patternMatches request (lit ++ cs!"*") = true := by
      rw [patternMatches_star hl, ← hrest]
      exact ⟨⟨rest, rfl⟩, by simpa using b2⟩
    cases hf : (sortPatterns (l.filter fun kv => kv.1.count '*' = 1)).find? fun kv =>
        patternMatches request kv.1 with
    | none =>
      have := List.find?_eq_none.1 hf _ hin
      rw [hmat] at this
      exact absurd rfl this
    | some kv =>
      have h4 := find_best (sortPatterns_sorted _) hf _ hin hmat
      have h5 := List.find?_some hf
      have h6 := List.mem_of_find?_eq_some hf
      rw [(sortPatterns_perm _).mem_iff, List.mem_filter, decide_eq_true_eq] at h6
      obtain ⟨lit', e', hl'⟩ := (star_key (hm.key _ h6.1).1).1 h6.2
      obtain ⟨key, j'⟩ := kv
      simp only at e' h5 h6 h4
      subst e'
      rw [(takeWhile_star hl).1, (takeWhile_star hl').1] at h4
      rw [patternMatches_star hl'] at h5
      have e : lit' = lit := by
        rcases hbest true lit' (toMV j') ⟨by simp only [if_true]; exact mem_mvFields.2 ⟨j', h6.1, rfl⟩, nofun, h5.1⟩
          with h | h
        · omega
        · exact h.1
      subst e
      have ej : j' = j := by
        have := (alookup_of_mem hm.nodup h6.1).symm.trans (alookup_of_mem hm.nodup h1)
        exact Option.some.inj this
      subst ej
      have etake : (request.drop (patternBase (lit' ++ cs!"*")).length).take
          (request.length - (patternBase (lit' ++ cs!"*")).length - (patternTrailer (lit' ++ cs!"*")).length) =
          rest := by
        rw [(takeWhile_star hl').1, (takeWhile_star hl').2, ← hrest]
        simp
      have edrop : request.drop lit'.length = rest := by rw [← hrest]; simp
      have goal : ∃ targets, out = .ok targets ∧
          (nodeTarget k.isImports names (some rest) j').orThrow = firstTarget targets := by
        rw [edrop] at hmean
        obtain ⟨g, hg, -, ho⟩ := hmean
        obtain ⟨hc, hv⟩ := hm.value _ h1
        refine outputs_node (pm := some rest) (fun c hc => by cases hc; exact b4) hc
          (fun t ht => ⟨(hv t ht).1, ?_⟩) ho
        exact toOption_some (subst_star (hv t ht).1 (hg t (.inl b3)))
      simp only [etake]
      cases ha : alookup request l with
      | none => exact goal
      | some w =>
        simp only
        rw [if_pos (noEqual hno w ha)]
        exact goal
  | folder lit v hno hch hmean =>
    obtain ⟨⟨h1, h2, -⟩, -⟩ := hch
    simp only [Bool.false_eq_true, if_false, List.append_nil] at h1
    obtain ⟨j, h1, -⟩ := mem_mvFields.1 h1
    exact absurd (h2 rfl) (hm.key _ h1).2
  | none hno hnm hout =>
    subst hout
    refine ⟨[], rfl, ?_⟩
    have hf : ((sortPatterns (l.filter fun kv => kv.1.count '*' = 1)).find? fun kv =>
        patternMatches request kv.1) = none := by
      rw [List.find?_eq_none]
      rintro ⟨key, j⟩ hin hmat
      rw [(sortPatterns_perm _).mem_iff, List.mem_filter, decide_eq_true_eq] at hin
      obtain ⟨lit, e, hl⟩ := (star_key (hm.key _ hin.1).1).1 hin.2
      simp only at e hmat
      subst e
      rw [patternMatches_star hl] at hmat
      exact hnm true lit (toMV j) ⟨by simp only [if_true]; exact mem_mvFields.2 ⟨j, hin.1, rfl⟩, nofun, hmat.1⟩
    rw [hf]
    cases ha : alookup request l with
    | none => rfl
    | some w =>
      simp only
      rw [if_pos (noEqual hno w ha)]
      rfl

theorem common_ascii {l : List (Str × Json)} {request : Str} (hr : CommonRequest (l.map Prod.fst) request) :
    AsciiStars (mvFields l) request := by
  rintro lit v ⟨h1, -, rest, h3⟩
  simp only [if_true] at h1
  obtain ⟨j, h1, -⟩ := mem_mvFields.1 h1
  exact (hr lit rest (List.mem_map.2 ⟨_, h1, rfl⟩) h3.symm).1

theorem fromJson_map {k : FieldKind} {l : List (Str × Json)} (hm : CommonMap k l) :
    fromJson (.obj l) = some (.cond (mvFields l)) := by
  rw [fromJson]
  have key : ∀ (l : List (Str × Json)) (acc : List (Str × MV)), (∀ kv ∈ l, kv.2.common = true) →
      (l.map Prod.fst).Nodup → (∀ k ∈ l.map Prod.fst, k ∉ acc.map Prod.fst) →
      fromJsonObj l acc = some (acc ++ mvFields l) := by
    intro l
    induction l with
    | nil => intro acc _ _ _; rw [fromJsonObj, mvFields, List.append_nil]
    | cons kv l ih =>
      obtain ⟨p, j⟩ := kv
      intro acc h hn hd
      rw [List.map_cons, List.nodup_cons] at hn
      rw [fromJsonObj, fromJson_common j (h _ (List.mem_cons_self ..))]
      simp only
      rw [ainsert_new (hd p (by simp)), ih _ (fun kv hkv => h kv (List.mem_cons_of_mem _ hkv)) hn.2 ?_, mvFields]
      · simp
      · intro k hk hk'
        rw [List.map_append, List.mem_append] at hk'
        rcases hk' with hk' | hk'
        · exact hd k (by simp only [List.map_cons, List.mem_cons]; exact .inr hk) hk'
        · simp only [List.map_cons, List.map_nil, List.mem_singleton] at hk'
          subst hk'
          exact hn.1 hk
  rw [key l [] (fun kv h => (hm.value kv h).1) hm.nodup (by simp)]
  rfl

end Verif
