import Verif.Proofs.Maps
/-!
# From the path tree to the keys it was built from
-/

namespace Verif

theorem splitC_snoc (s : Str) : ∃ p l, splitC '/' s = p ++ [l] := by
  have h := splitC_ne_nil '/' s
  exact ⟨_, _, (List.dropLast_concat_getLast h).symm⟩

theorem noSep_snoc {s : Str} {p : List Str} {l : Str} (h : splitC '/' s = p ++ [l]) :
    (∀ x ∈ p, '/' ∉ x) ∧ '/' ∉ l := by
  refine ⟨fun x hx => not_mem_of_mem_splitC (s := s) ?_, not_mem_of_mem_splitC (s := s) ?_⟩
  · rw [h]; exact List.mem_append_left _ hx
  · rw [h]; exact List.mem_append_right _ (List.mem_singleton.2 rfl)

theorem splitC_join_snoc {p : List Str} {l : Str} (hp : ∀ x ∈ p, '/' ∉ x) (hl : '/' ∉ l) :
    splitC '/' (joinC '/' (p ++ [l])) = p ++ [l] := by
  refine splitC_joinC (by simp) ?_
  intro x hx
  rcases List.mem_append.1 hx with h | h
  · exact hp x h
  · rw [List.mem_singleton.1 h]; exact hl

/-- A string is the segments `p ++ [l]` joined. -/
theorem join_snoc_iff {s : Str} {p : List Str} {l : Str} (hp : ∀ x ∈ p, '/' ∉ x) (hl : '/' ∉ l) :
    joinC '/' (p ++ [l]) = s ↔ splitC '/' s = p ++ [l] := by
  constructor
  · rintro rfl; exact splitC_join_snoc hp hl
  · intro h; rw [← h, joinC_splitC]

/-- The tree holds the mappings `f` from keys (without their `./` or `#`) to values, and `dot` is
the value of the key `.`. -/
structure Represents (node : Node) (f : Str → Option MV) (dot : Option MV) : Prop where
  folder : ∀ p, (∀ x ∈ p, '/' ∉ x) → (node.sub p).folder = f (joinC '/' (p ++ [[]]))
  nodup : ∀ p, ((node.sub p).wilds.map Prod.fst).Nodup
  wild : ∀ p l, (∀ x ∈ p, '/' ∉ x) → '/' ∉ l →
    alookup l (node.sub p).wilds = f (joinC '/' (p ++ [l ++ cs!"*"]))
  file : ∀ p s, (∀ x ∈ p, '/' ∉ x) → '/' ∉ s → s ≠ [] → endsWithC s '*' = false →
    alookup s (node.sub p).files = f (joinC '/' (p ++ [s]))
  noFile : ∀ p s, '/' ∈ s ∨ endsWithC s '*' = true → alookup s (node.sub p).files = none
  dot : alookup [] node.files = dot
  flat : (node.children = none ∧ node.folder = none ∧ node.wildcards = none) ↔
    ∀ k v, f k = some v → '/' ∉ k ∧ k ≠ [] ∧ endsWithC k '*' = false

theorem represents_empty : Represents Node.empty (fun _ => none) none := by
  refine ⟨?_, ?_, ?_, ?_, ?_, rfl, ⟨fun _ k v h => (by cases h), fun _ => ⟨rfl, rfl, rfl⟩⟩⟩ <;> intros <;> rw [empty_sub] <;>
    first | rfl | simp [Node.empty, Node.wilds, Node.wildcards]

theorem star_ne_nil (l : Str) : l ++ cs!"*" ≠ [] := by simp

theorem endsWithC_star (l : Str) : endsWithC (l ++ cs!"*") '*' = true := by simp [endsWithC]

/-- Whether a key needs more than the files of the root. -/
theorem walkSegs_flat (v : MV) (k : Str) (node : Node) :
    (((walkSegs v (splitC '/' k) node).children = none ∧ (walkSegs v (splitC '/' k) node).folder = none ∧
      (walkSegs v (splitC '/' k) node).wildcards = none) ↔
    (node.children = none ∧ node.folder = none ∧ node.wildcards = none) ∧
      '/' ∉ k ∧ k ≠ [] ∧ endsWithC k '*' = false) := by
  by_cases hk : '/' ∈ k
  · obtain ⟨s, t, l, hs⟩ : ∃ s t l, splitC '/' k = s :: t :: l := by
      cases h : splitC '/' k with
      | nil => exact (splitC_ne_nil _ _ h).elim
      | cons s r =>
        cases r with
        | nil =>
          exfalso
          have hj := joinC_splitC '/' k
          rw [h] at hj
          have : '/' ∉ s := not_mem_of_mem_splitC (s := k) (by rw [h]; simp)
          rw [show joinC '/' [s] = s from rfl] at hj
          exact this (hj ▸ hk)
        | cons t l => exact ⟨s, t, l, rfl⟩
    rw [hs, walkSegs]
    simp [Node.children, hk]
  · rw [splitC_of_not_mem hk, walkSegs]
    by_cases h1 : k = []
    · simp [h1, Node.children, Node.folder]
    · by_cases h2 : endsWithC k '*' = true
      · simp [h1, h2, Node.children, Node.folder, Node.wildcards]
      · simp [h1, h2, hk, Node.children, Node.folder, Node.wildcards]

theorem Represents.walk {node : Node} {f : Str → Option MV} {dot : Option MV}
    (h : Represents node f dot) (k : Str) (v : MV) :
    Represents (walk node k v) (fun x => if x = k then some v else f x) dot := by
  obtain ⟨p0, s0, hk⟩ := splitC_snoc k
  have hns := noSep_snoc hk
  have key : ∀ p l, (∀ x ∈ p, '/' ∉ x) → '/' ∉ l →
      (joinC '/' (p ++ [l]) = k ↔ p = p0 ∧ l = s0) := by
    intro p l hp hl
    rw [join_snoc_iff hp hl, hk]
    constructor
    · intro e
      have := List.append_inj' e rfl
      exact ⟨this.1.symm, by simpa using this.2.symm⟩
    · rintro ⟨rfl, rfl⟩; rfl
  have hw : ∀ q, _ := fun q => walkSegs_sub v p0 s0 node q
  have hflat := walkSegs_flat v k node
  rw [walk_segs]
  rw [hk] at hflat ⊢
  refine ⟨fun p hp => ?_, fun p => ?_, fun p l hp hl => ?_, fun p s hp hs hne hst => ?_,
    fun p s hs => ?_, ?_, ?_⟩
  · rw [(hw p).1, h.folder p hp]
    have := key p [] hp (by simp)
    by_cases he : p = p0 ∧ s0 = []
    · rw [if_pos he, if_pos (this.2 ⟨he.1, he.2.symm⟩)]
    · rw [if_neg he, if_neg fun e => he ⟨(this.1 e).1, (this.1 e).2.symm⟩]
  · rw [(hw p).2.1]
    split
    · exact (ainsert_keys (h.nodup p)).1
    · exact h.nodup p
  · rw [(hw p).2.1]
    have := key p (l ++ cs!"*") hp (by simp [hl])
    by_cases he : p = p0 ∧ s0 ≠ [] ∧ endsWithC s0 '*' = true
    · rw [if_pos he, alookup_ainsert]
      have hs0 : s0 = s0.dropLast ++ cs!"*" := by
        have h1 := (endsWithC_iff _ _).1 he.2.2
        obtain ⟨ys, hys⟩ := List.getLast?_eq_some_iff.1 h1
        rw [hys]; simp
      by_cases hl' : s0.dropLast = l
      · rw [if_pos hl', if_pos (this.2 ⟨he.1, by rw [← hl', ← hs0]⟩)]
      · rw [if_neg hl', if_neg, h.wild p l hp hl]
        intro e
        apply hl'
        rw [← (this.1 e).2]
        simp
    · rw [if_neg he, if_neg, h.wild p l hp hl]
      intro e
      obtain ⟨rfl, rfl⟩ := this.1 e
      exact he ⟨rfl, star_ne_nil l, endsWithC_star l⟩
  · rw [(hw p).2.2]
    have := key p s hp hs
    by_cases he : p = p0 ∧ s0 ≠ [] ∧ endsWithC s0 '*' = false
    · rw [if_pos he, alookup_ainsert, h.file p s hp hs hne hst]
      by_cases hl' : s0 = s
      · rw [if_pos hl', if_pos (this.2 ⟨he.1, hl'.symm⟩)]
      · rw [if_neg hl', if_neg fun e => hl' (this.1 e).2.symm]
    · rw [if_neg he, h.file p s hp hs hne hst, if_neg]
      intro e
      obtain ⟨rfl, rfl⟩ := this.1 e
      exact he ⟨rfl, hne, hst⟩
  · rw [(hw p).2.2]
    split
    · rename_i he
      rw [alookup_ainsert, if_neg, h.noFile p s hs]
      rintro rfl
      rcases hs with hs | hs
      · exact hns.2 hs
      · rw [he.2.2] at hs; cases hs
    · exact h.noFile p s hs
  · have := (hw []).2.2
    change _ = (if _ then ainsert s0 v node.files else node.files) at this
    change alookup [] ((walkSegs v (p0 ++ [s0]) node).sub []).files = _
    rw [this]
    split
    · rename_i he
      rw [alookup_ainsert, if_neg he.2.1, h.dot]
    · exact h.dot
  · rw [hflat]
    constructor
    · rintro ⟨h1, h2⟩ k' v' he
      split at he
      · rename_i hkk; rw [hkk]; exact h2
      · exact h.flat.1 h1 k' v' he
    · intro hall
      have hk' := hall k v (by simp)
      refine ⟨h.flat.2 fun k' v' he => ?_, hk'⟩
      by_cases hkk : k' = k
      · rw [hkk]; exact hk'
      · exact hall k' v' (by simp [hkk, he])

theorem Represents.setDot {node : Node} {f : Str → Option MV} {dot : Option MV}
    (h : Represents node f dot) (v : MV) :
    Represents (.mk node.children node.folder node.wildcards (ainsert [] v node.files)) f (some v) := by
  have hsub : ∀ p, ((Node.mk node.children node.folder node.wildcards
      (ainsert [] v node.files)).sub p).folder = (node.sub p).folder ∧
      ((Node.mk node.children node.folder node.wildcards
      (ainsert [] v node.files)).sub p).wilds = (node.sub p).wilds ∧
      ∀ s, s ≠ [] → alookup s ((Node.mk node.children node.folder node.wildcards
      (ainsert [] v node.files)).sub p).files = alookup s (node.sub p).files := by
    intro p
    cases p with
    | nil =>
      refine ⟨rfl, rfl, fun s hs => ?_⟩
      change alookup s (ainsert [] v node.files) = alookup s node.files
      rw [alookup_ainsert, if_neg (Ne.symm hs)]
    | cons t p => exact ⟨rfl, rfl, fun _ _ => rfl⟩
  refine ⟨fun p hp => ?_, fun p => ?_, fun p l hp hl => ?_, fun p s hp hs hne hst => ?_,
    fun p s hs => ?_, ?_, h.flat⟩
  · rw [(hsub p).1]; exact h.folder p hp
  · rw [(hsub p).2.1]; exact h.nodup p
  · rw [(hsub p).2.1]; exact h.wild p l hp hl
  · rw [(hsub p).2.2 s hne]; exact h.file p s hp hs hne hst
  · rw [(hsub p).2.2 s]
    · exact h.noFile p s hs
    · rintro rfl
      rcases hs with hs | hs
      · cases hs
      · simp [endsWithC] at hs
  · change alookup [] (ainsert [] v node.files) = some v
    rw [alookup_ainsert, if_pos rfl]

/-! ## Finding a match, on strings -/

theorem join_snoc_length (p : List Str) (l : Str) :
    (joinC '/' (p ++ [l])).length = segLen p + l.length := by
  induction p with
  | nil => simp [joinC, segLen]
  | cons s p ih =>
    rw [List.cons_append, joinC_cons_of_ne _ _ (by simp), List.length_append, List.length_cons, ih]
    simp [segLen]
    omega

theorem join_snoc_append (p : List Str) (l x : Str) :
    joinC '/' (p ++ [l ++ x]) = joinC '/' (p ++ [l]) ++ x := by
  induction p with
  | nil => rfl
  | cons s p ih =>
    rw [List.cons_append, List.cons_append, joinC_cons_of_ne _ _ (by simp),
      joinC_cons_of_ne _ _ (by simp), ih]
    simp

theorem mem_joinC {l : List Str} {s : Str} {c : Char} (hs : s ∈ l) (hc : c ∈ s) :
    c ∈ joinC '/' l := by
  induction l with
  | nil => cases hs
  | cons x l ih =>
    rcases List.mem_cons.1 hs with rfl | hs
    · cases l with
      | nil => exact hc
      | cons y l => rw [joinC_cons_cons]; exact List.mem_append_left _ hc
    · rw [joinC_cons_of_ne _ _ (List.ne_nil_of_mem hs)]
      exact List.mem_append_right _ (List.mem_cons_of_mem _ (ih hs))

/-- A prefix of a string, segment by segment. -/
theorem prefix_segs {a b : Str} {p : List Str} {l : Str} (ha : splitC '/' a = p ++ [l]) :
    a <+: b ↔ ∃ r rest, splitC '/' b = p ++ r :: rest ∧ l <+: r := by
  have hns := noSep_snoc ha
  have haj : a = joinC '/' (p ++ [l]) := by rw [← ha, joinC_splitC]
  constructor
  · rintro ⟨t, rfl⟩
    obtain ⟨r, rest, hr⟩ : ∃ r rest, splitC '/' (l ++ t) = r :: rest := by
      cases h : splitC '/' (l ++ t) with
      | nil => exact (splitC_ne_nil _ _ h).elim
      | cons r rest => exact ⟨r, rest, rfl⟩
    refine ⟨r, rest, ?_, ?_⟩
    · rw [haj, ← join_snoc_append]
      clear ha haj
      induction p with
      | nil => simpa [joinC] using hr
      | cons s p ih =>
        rw [List.cons_append, joinC_cons_of_ne _ _ (by simp), splitC_append_sep,
          splitC_of_not_mem (hns.1 s (List.mem_cons_self ..)),
          ih ⟨fun x hx => hns.1 x (List.mem_cons_of_mem _ hx), hns.2⟩]
        rfl
    · have h2 := hns.2
      clear ha haj hns
      induction l generalizing r rest with
      | nil => exact List.nil_prefix
      | cons x l ih =>
        simp only [List.mem_cons, not_or] at h2
        obtain ⟨hd, tl, h3, h4⟩ := splitC_cons_ne (c := '/') (l ++ t) (Ne.symm h2.1)
        rw [List.cons_append, h4] at hr
        injection hr with hr1 hr2
        rw [← hr1]
        exact List.cons_prefix_cons.2 ⟨rfl, ih hd tl h3 h2.2⟩
  · rintro ⟨r, rest, h1, ⟨t, rfl⟩⟩
    have hb : b = joinC '/' (p ++ (l ++ t) :: rest) := by rw [← h1, joinC_splitC]
    rw [haj, hb]
    clear ha haj hb h1 hns
    induction p with
    | nil =>
      cases rest with
      | nil => exact ⟨t, rfl⟩
      | cons y rest => exact ⟨t ++ '/' :: joinC '/' (y :: rest), by simp [joinC]⟩
    | cons s p ih =>
      rw [List.cons_append, List.cons_append, joinC_cons_of_ne _ _ (by simp),
        joinC_cons_of_ne _ _ (by simp)]
      exact (List.prefix_append_right_inj s).2 (List.cons_prefix_cons.2 ⟨rfl, ih⟩)

/-- A pattern key of `f` whose literal part is a prefix of the request (`KeyMatches` without the
`./` or `#`). -/
structure PatF (f : Str → Option MV) (req : Str) (star : Bool) (lit : Str) (v : MV) : Prop where
  key : f (lit ++ (if star then cs!"*" else [])) = some v
  slash : star = false → lit = [] ∨ lit.getLast? = some '/'
  pre : lit <+: req

theorem splitC_folder {lit : Str} (h : lit = [] ∨ lit.getLast? = some '/') :
    ∃ p, splitC '/' lit = p ++ [[]] := by
  rcases h with rfl | h
  · exact ⟨[], rfl⟩
  · obtain ⟨ys, hys⟩ := List.getLast?_eq_some_iff.1 h
    refine ⟨splitC '/' ys, ?_⟩
    rw [hys, show ys ++ ['/'] = ys ++ '/' :: [] from rfl, splitC_append_sep]
    rfl

theorem patF_cand {node : Node} {f : Str → Option MV} {dot : Option MV} (h : Represents node f dot)
    {req : Str} {star : Bool} {lit : Str} {v : MV} (hp : PatF f req star lit v) :
    ∃ p l, splitC '/' lit = p ++ [l] ∧ Cand node (splitC '/' req) star p l v := by
  cases star with
  | false =>
    obtain ⟨p, hs⟩ := splitC_folder (hp.slash rfl)
    have hns := noSep_snoc hs
    refine ⟨p, [], hs, (prefix_segs hs).1 hp.pre, rfl, ?_⟩
    rw [h.folder p hns.1, ← hs, joinC_splitC]
    simpa using hp.key
  | true =>
    obtain ⟨p, l, hs⟩ := splitC_snoc lit
    have hns := noSep_snoc hs
    refine ⟨p, l, hs, (prefix_segs hs).1 hp.pre, ?_⟩
    simp only [if_true]
    apply alookup_mem
    rw [h.wild p l hns.1 hns.2, join_snoc_append, ← hs, joinC_splitC]
    simpa using hp.key

theorem cand_patF {node : Node} {f : Str → Option MV} {dot : Option MV} (h : Represents node f dot)
    {req : Str} {star : Bool} {p : List Str} {l : Str} {v : MV}
    (hc : Cand node (splitC '/' req) star p l v) :
    PatF f req star (joinC '/' (p ++ [l])) v ∧ splitC '/' (joinC '/' (p ++ [l])) = p ++ [l] := by
  obtain ⟨⟨r, rest, h1, h2⟩, h3⟩ := hc
  have hp : ∀ x ∈ p, '/' ∉ x := fun x hx => not_mem_of_mem_splitC (s := req) (by
    rw [h1]; exact List.mem_append_left _ hx)
  have hr : '/' ∉ r := not_mem_of_mem_splitC (s := req) (by rw [h1]; simp)
  have hl : '/' ∉ l := fun hm => hr (h2.subset hm)
  have hs := splitC_join_snoc hp hl
  have hpre := (prefix_segs (b := req) hs).2 ⟨r, rest, h1, h2⟩
  cases star with
  | true =>
    simp only [if_true] at h3
    have := alookup_of_mem (h.nodup p) h3
    rw [h.wild p l hp hl, join_snoc_append] at this
    exact ⟨⟨by simpa using this, nofun, hpre⟩, hs⟩
  | false =>
    obtain ⟨rfl, h4⟩ := h3
    rw [h.folder p hp] at h4
    refine ⟨⟨by simpa using h4, fun _ => ?_, hpre⟩, hs⟩
    cases p with
    | nil => exact .inl rfl
    | cons s p =>
      right
      rw [joinC_append (by simp) (by simp)]
      simp [joinC]

/-- The mapping found for a request. -/
theorem findMatch_spec {node : Node} {f : Str → Option MV} {dot : Option MV}
    (h : Represents node f dot) {req : Str} (ha : ∀ lit v, PatF f req true lit v → AsciiStr lit)
    (hne : req ≠ [])
    (hsl : endsWithC req '/' = false) :
    (∀ v, f req = some v → endsWithC req '*' = false →
      ∃ idx : Int, 0 ≤ idx ∧ findMatch node req = some (v, idx)) ∧
    (f req = none ∨ endsWithC req '*' = true →
      (findMatch node req = none ∧ ∀ star lit v, ¬ PatF f req star lit v) ∨
      ∃ star lit v, PatF f req star lit v ∧
        findMatch node req = some (v, if star then (lit.length : Int) else -(lit.length : Int) - 1) ∧
        ∀ star' lit' v', PatF f req star' lit' v' →
          lit'.length < lit.length ∨ lit' = lit ∧ (star' = true → star = true)) := by
  obtain ⟨p0, s0, hsp⟩ := splitC_snoc req
  have hns := noSep_snoc hsp
  have hj : req = joinC '/' (p0 ++ [s0]) := by rw [← hsp, joinC_splitC]
  have hasc : ∀ p l v, Cand node (splitC '/' req) true p l v → AsciiStr l := by
    intro p l v hc c hm
    exact ha _ _ (cand_patF h hc).1 c (mem_joinC (List.mem_append_right _ (List.mem_singleton_self _)) hm)
  have hs0 : s0 ≠ [] := by
    rintro rfl
    cases p0 with
    | nil => exact hne (by rw [hj]; rfl)
    | cons s p =>
      rw [hj, joinC_append (by simp) (by simp)] at hsl
      simp [joinC, endsWithC] at hsl
  have hst : endsWithC s0 '*' = endsWithC req '*' := by
    have hnil : joinC '/' (p0 ++ [s0]) = joinC '/' (p0 ++ [[]]) ++ s0 := by
      rw [← join_snoc_append]; rfl
    rw [hj, hnil]
    unfold endsWithC
    rw [List.getLast?_append]
    cases hl : s0.getLast? with
    | none => exact (hs0 (List.getLast?_eq_none_iff.1 hl)).elim
    | some c => rfl
  -- the general loop
  have hgen : findMatchLoop req (nextList req '/') (req.length + 1) node 0 none =
      (exactSegs (splitC '/' req) node).or (bestSegs (splitC '/' req) 0 node) := by
    rw [findMatchLoop_segs req _ 0 node none (Nat.zero_le _) (by omega), List.drop_zero,
      findSegs_eq _ _ _ _ (splitC_ne_nil _ _) hasc (by intro v j h; cases h)]
    simp
  have hfind : ∃ idx : Int, 0 ≤ idx ∧ findMatch node req =
      ((exactSegs (splitC '/' req) node).map fun x => (x.1, idx)).or
        (bestSegs (splitC '/' req) 0 node) := by
    unfold findMatch
    rw [if_neg hne]
    split
    · rename_i hnone
      simp only [Bool.and_eq_true, Option.isNone_iff_eq_none] at hnone
      have hbest : bestSegs (splitC '/' req) 0 node = none := by
        rcases bestSegs_spec (splitC '/' req) 0 node hasc with ⟨h1, -⟩ | ⟨v, star, p, l, -, h2, -⟩
        · exact h1
        · exfalso
          obtain ⟨-, h3⟩ := h2
          cases p with
          | nil =>
            cases star with
            | true =>
              simp only [if_true, Node.sub, Node.wilds] at h3
              rw [hnone.2] at h3
              cases h3
            | false => rw [show (node.sub []).folder = none from hnone.1.2] at h3; cases h3.2
          | cons s p =>
            rw [sub_cons, show node.child s = Node.empty by
              unfold Node.child; rw [hnone.1.1]; rfl, empty_sub] at h3
            cases star with
            | true => cases h3
            | false => cases h3.2
      refine ⟨(req.length : Int) + 1, by omega, ?_⟩
      rw [hbest, Option.or_none]
      unfold exactSegs
      rw [hsp]
      simp only [List.getLast?_concat, Option.bind_some, List.dropLast_concat]
      cases p0 with
      | nil =>
        have : req = s0 := hj
        rw [this, Option.map_map]
        rfl
      | cons s p =>
        rw [sub_cons, show node.child s = Node.empty by
          unfold Node.child; rw [hnone.1.1]; rfl, empty_sub]
        rw [show alookup req node.files = none from h.noFile [] req (.inl ?_)]
        · rfl
        · rw [hj, joinC_append (by simp) (by simp)]
          simp
    · refine ⟨(utf8Len s0 : Int) + 1, by omega, ?_⟩
      rw [hgen]
      unfold exactSegs
      rw [hsp]
      simp only [List.getLast?_concat, Option.bind_some, List.dropLast_concat, Option.map_map]
      rfl
  obtain ⟨idx, hidx, hfind⟩ := hfind
  have hexact : ((exactSegs (splitC '/' req) node).map fun x => (x.1, idx)) =
      if endsWithC req '*' = true then none else (f req).map fun v => (v, idx) := by
    unfold exactSegs
    rw [hsp]
    simp only [List.getLast?_concat, Option.bind_some, List.dropLast_concat, Option.map_map]
    split
    · rename_i he
      rw [h.noFile p0 s0 (.inr (by rw [hst]; exact he))]
      rfl
    · rename_i he
      rw [h.file p0 s0 hns.1 hns.2 hs0 (by rw [hst]; simpa using he), ← hj]
      rfl
  rw [hfind, hexact]
  constructor
  · intro v hv he
    rw [if_neg (by simp [he]), hv]
    exact ⟨idx, hidx, rfl⟩
  · intro hno
    have : (if endsWithC req '*' = true then none else (f req).map fun v => (v, idx)) =
        (none : Option (MV × Int)) := by
      rcases hno with h | h
      · rw [h]; simp
      · rw [if_pos h]
    rw [this, Option.none_or]
    rcases bestSegs_spec (splitC '/' req) 0 node hasc with ⟨h1, h2⟩ | ⟨v, star, p, l, h1, h2, h3⟩
    · left
      refine ⟨h1, fun star lit v hp => ?_⟩
      obtain ⟨p, l, -, hc⟩ := patF_cand h hp
      exact h2 _ _ _ _ hc
    · right
      obtain ⟨hpat, hsl2⟩ := cand_patF h h2
      refine ⟨star, _, v, hpat, ?_, ?_⟩
      · rw [h1, join_snoc_length]
        cases star with
        | true => simp
        | false =>
          have hl : l = [] := h2.2.1
          subst hl
          simp
      · intro star' lit' v' hp'
        obtain ⟨p', l', hs', hc'⟩ := patF_cand h hp'
        have hlit' : lit' = joinC '/' (p' ++ [l']) := by rw [← hs', joinC_splitC]
        rcases h3 _ _ _ _ hc' with hlt | ⟨rfl, hlt | ⟨rfl, hb⟩⟩
        · left
          -- both are prefixes of the request, the longer has more segments
          rcases Nat.lt_or_ge lit'.length (joinC '/' (p ++ [l])).length with hx | hx
          · exact hx
          · exfalso
            have hpre : joinC '/' (p ++ [l]) <+: lit' :=
              List.prefix_of_prefix_length_le hpat.pre hp'.pre hx
            obtain ⟨r, rest, h5, -⟩ := (prefix_segs hsl2).1 hpre
            rw [hs'] at h5
            have := congrArg List.length h5
            simp at this
            omega
        · left
          rw [hlit', join_snoc_length, join_snoc_length]
          omega
        · right
          exact ⟨hlit', hb⟩

end Verif
