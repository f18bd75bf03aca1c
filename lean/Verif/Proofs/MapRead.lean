import Verif.Spec.MapRead
import Verif.Proofs.NodeMaps
/-!
# What is written in `package.json`, as a map: proofs
-/

namespace Verif

theorem fieldsRead_keys {l : List (Str × Json)} {m : List (Str × MV)} (h : FieldsRead l m) :
    m.map Prod.fst = l.map Prod.fst := by
  induction l generalizing m with
  | nil => cases h; rfl
  | cons kj l ih => cases h with | cons _ h => simp [ih h]

theorem fresh_snoc {l : List (Str × Json)} {acc : List (Str × MV)} {p : Str} {j : Json} {v : MV}
    (hn : p ∉ l.map Prod.fst) (hd : ∀ k ∈ ((p, j) :: l).map Prod.fst, k ∉ acc.map Prod.fst) :
    ∀ k ∈ l.map Prod.fst, k ∉ (acc ++ [(p, v)]).map Prod.fst := by
  intro k hk hk'
  rw [List.map_append, List.mem_append] at hk'
  rcases hk' with hk' | hk'
  · exact hd k (by simp only [List.map_cons, List.mem_cons]; exact .inr hk) hk'
  · simp only [List.map_cons, List.map_nil, List.mem_singleton] at hk'
    subst hk'
    exact hn hk

mutual
theorem mapRead_fromJson : ∀ (j : Json) (v : MV), MapRead j v → fromJson j = some v
  | .null, v, h => by cases h
  | .bool _, v, h => by cases h
  | .num _, v, h => by cases h
  | .str s, v, h => by cases h; rfl
  | .arr l, v, h => by
    cases h with
    | list h => rw [fromJson, listRead_fromJson l _ h]; rfl
  | .obj l, v, h => by
    cases h with
    | object hn h => rw [fromJson, fieldsRead_fromJson l [] _ h hn (by simp)]; rfl
theorem listRead_fromJson : ∀ (l : List Json) (r : List MV), ListRead l r → fromJsonArr l = some r
  | [], r, h => by cases h; rfl
  | j :: l, r, h => by
    cases h with
    | @cons _ v _ r h1 h2 h3 =>
      rw [fromJsonArr, mapRead_fromJson j v h1]
      cases v with
      | arr a => exact absurd rfl (h2 a)
      | direct t => simp only; rw [listRead_fromJson l r h3]; rfl
      | cond m => simp only; rw [listRead_fromJson l r h3]; rfl
theorem fieldsRead_fromJson : ∀ (l : List (Str × Json)) (acc m : List (Str × MV)), FieldsRead l m →
    (l.map Prod.fst).Nodup → (∀ k ∈ l.map Prod.fst, k ∉ acc.map Prod.fst) → fromJsonObj l acc = some (acc ++ m)
  | [], acc, m, h, _, _ => by cases h; rw [fromJsonObj, List.append_nil]
  | (p, j) :: l, acc, m, h, hn, hd => by
    cases h with
    | @cons _ _ v _ m h1 h2 =>
      rw [List.map_cons, List.nodup_cons] at hn
      rw [fromJsonObj, mapRead_fromJson j v h1]
      simp only
      rw [ainsert_new (hd p (by simp)), fieldsRead_fromJson l _ m h2 hn.2 (fresh_snoc hn.1 hd)]
      simp
end

mutual
theorem fromJson_mapRead : ∀ (j : Json) (v : MV), j.uniqueKeys = true → fromJson j = some v → MapRead j v
  | .null, v, _, h => by simp [fromJson] at h
  | .bool _, v, _, h => by simp [fromJson] at h
  | .num _, v, _, h => by simp [fromJson] at h
  | .str s, v, _, h => by simp [fromJson] at h; subst h; exact .target s
  | .arr l, v, hu, h => by
    simp only [fromJson, Option.map_eq_some_iff] at h
    obtain ⟨r, h1, rfl⟩ := h
    exact .list (fromJson_listRead l r hu h1)
  | .obj l, v, hu, h => by
    simp only [fromJson, Option.map_eq_some_iff] at h
    obtain ⟨r, h1, rfl⟩ := h
    rw [Json.uniqueKeys, Bool.and_eq_true, decide_eq_true_eq] at hu
    obtain ⟨m, rfl, hm⟩ := fromJson_fieldsRead l [] r hu.2 hu.1 (by simp) h1
    exact .object hu.1 hm
theorem fromJson_listRead : ∀ (l : List Json) (r : List MV), uniqueItems l = true → fromJsonArr l = some r → ListRead l r
  | [], r, _, h => by simp [fromJsonArr] at h; subst h; exact .nil
  | j :: l, r, hu, h => by
    rw [uniqueItems, Bool.and_eq_true] at hu
    unfold fromJsonArr at h
    cases hj : fromJson j with
    | none => rw [hj] at h; cases h
    | some v =>
      rw [hj] at h
      have hna : ∀ a, v ≠ .arr a := by
        intro a ha
        subst ha
        cases h
      have : (fromJsonArr l).map (v :: ·) = some r := by
        cases v with
        | arr a => exact (hna a rfl).elim
        | direct _ => exact h
        | cond _ => exact h
      rw [Option.map_eq_some_iff] at this
      obtain ⟨r', h1, rfl⟩ := this
      exact .cons (fromJson_mapRead j v hu.1 hj) hna (fromJson_listRead l r' hu.2 h1)
theorem fromJson_fieldsRead : ∀ (l : List (Str × Json)) (acc r : List (Str × MV)), uniqueFields l = true →
    (l.map Prod.fst).Nodup → (∀ k ∈ l.map Prod.fst, k ∉ acc.map Prod.fst) → fromJsonObj l acc = some r →
    ∃ m, r = acc ++ m ∧ FieldsRead l m
  | [], acc, r, _, _, _, h => by
    simp [fromJsonObj] at h
    subst h
    exact ⟨[], by simp, .nil⟩
  | (p, j) :: l, acc, r, hu, hn, hd, h => by
    rw [uniqueFields, Bool.and_eq_true] at hu
    rw [List.map_cons, List.nodup_cons] at hn
    unfold fromJsonObj at h
    cases hj : fromJson j with
    | none => rw [hj] at h; cases h
    | some v =>
      rw [hj] at h
      simp only at h
      rw [ainsert_new (hd p (by simp))] at h
      obtain ⟨m, rfl, hm⟩ := fromJson_fieldsRead l _ r hu.2 hn.2 (fresh_snoc hn.1 hd) h
      exact ⟨(p, v) :: m, by simp, .cons (fromJson_mapRead j v hu.1 hj) hm⟩
end

end Verif
