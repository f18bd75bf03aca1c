import Verif.Proofs.Cond
import Verif.Proofs.Path
import Verif.Proofs.Kind
/-!
# The path tree of exports and imports: from index arithmetic to path segments
-/

namespace Verif

theorem nextListAux_length (c : Char) (i : Nat) (s : Str) : (nextListAux c i s).length = s.length := by
  induction s generalizing i with
  | nil => rfl
  | cons x s ih => simp [nextListAux, ih]

theorem nextListAux_get (c : Char) (i : Nat) (s : Str) (j : Nat) (hj : j < s.length) :
    (nextListAux c i s)[j]? = some ((splitFirst c (s.drop j)).map fun ab => i + j + ab.1.length) := by
  induction s generalizing i j with
  | nil => simp at hj
  | cons x s ih =>
    rw [nextListAux]
    cases j with
    | zero =>
      simp only [List.getElem?_cons_zero, List.drop_zero, splitFirst]
      split
      · rfl
      · cases s with
        | nil => rfl
        | cons y s =>
          have := ih (i + 1) 0 (by simp)
          rw [← List.head?_eq_getElem?] at this
          rw [this]
          simp only [List.drop_zero, Option.join_some, Option.map_map, Option.some.injEq]
          congr 1
          funext ab
          simp
          omega
    | succ j =>
      simp only [List.getElem?_cons_succ, List.drop_succ_cons]
      rw [ih (i + 1) j (by simpa using hj)]
      congr 2
      funext ab
      omega

theorem nextList_get (c : Char) (s : Str) (j : Nat) (hj : j < s.length) :
    (nextList s c)[j]? = some ((splitFirst c (s.drop j)).map fun ab => j + ab.1.length) := by
  unfold nextList
  rw [nextListAux_get c 0 s j hj]
  simp

theorem nextList_get_none (c : Char) (s : Str) (j : Nat) (hj : s.length ≤ j) :
    (nextList s c)[j]? = none := by
  rw [List.getElem?_eq_none_iff]
  unfold nextList
  rwa [nextListAux_length]

/-- The index of the next separator, and the text up to it and after it. -/
theorem nextList_cases (s : Str) (i : Nat) (hi : i ≤ s.length) :
    (∃ a b, s.drop i = a ++ '/' :: b ∧ '/' ∉ a ∧ (nextList s '/')[i]? = some (some (i + a.length)) ∧
      i + a.length + 1 ≤ s.length ∧ s.drop (i + a.length + 1) = b ∧
      splitC '/' (s.drop i) = a :: splitC '/' b) ∨
    ('/' ∉ s.drop i ∧ (∀ k, (nextList s '/')[i]? ≠ some (some k)) ∧
      splitC '/' (s.drop i) = [s.drop i]) := by
  cases h : splitFirst '/' (s.drop i) with
  | none =>
    right
    have h1 := splitFirst_none.1 h
    refine ⟨h1, fun k hk => ?_, splitC_of_not_mem h1⟩
    by_cases hl : i < s.length
    · rw [nextList_get '/' s i hl, h] at hk; cases hk
    · rw [nextList_get_none '/' s i (by omega)] at hk; cases hk
  | some ab =>
    left
    obtain ⟨a, b0⟩ := ab
    obtain ⟨b, rfl, h1, h2⟩ : ∃ b, b0 = '/' :: b ∧ s.drop i = a ++ '/' :: b ∧ '/' ∉ a := by
      obtain ⟨h1, h2, h3⟩ := splitFirst_some h
      cases b0 with
      | nil => cases h3
      | cons x b => cases h3; exact ⟨b, rfl, h1, h2⟩
    have hlen : s.length - i = a.length + (b.length + 1) := by
      have := congrArg List.length h1
      simpa using this
    have hl : i < s.length := by omega
    refine ⟨a, b, h1, h2, ?_, by omega, ?_, ?_⟩
    · rw [nextList_get '/' s i hl, h]; rfl
    · rw [Nat.add_assoc, ← List.drop_drop, h1]
      simp
    · rw [h1, splitC_append_sep, splitC_of_not_mem h2]; rfl

/-! ## Walking -/

/-- `walk` on path segments. -/
def walkSegs (v : MV) : List Str → Node → Node
  | [], node => node
  | [s], node =>
    if s = [] then .mk node.children (some v) node.wildcards node.files
    else if endsWithC s '*' then
      .mk node.children node.folder (some (ainsert s.dropLast v (node.wildcards.getD []))) node.files
    else .mk node.children node.folder node.wildcards (ainsert s v node.files)
  | s :: t :: l, node =>
    .mk (some (ainsert s
        (walkSegs v (t :: l) ((alookup s (node.children.getD [])).getD Node.empty))
        (node.children.getD []))) node.folder node.wildcards node.files

theorem walkSegs_cons {v : MV} {s : Str} {l : List Str} (h : l ≠ []) (node : Node) :
    walkSegs v (s :: l) node =
    .mk (some (ainsert s (walkSegs v l ((alookup s (node.children.getD [])).getD Node.empty))
        (node.children.getD []))) node.folder node.wildcards node.files := by
  cases l with
  | nil => exact (h rfl).elim
  | cons t l => rfl

theorem walkEnd_segs {path : Str} {i : Nat} {v : MV} {node : Node} (hi : i ≤ path.length) :
    walkEnd path i v node = walkSegs v [path.drop i] node := by
  unfold walkEnd walkSegs
  by_cases h : path.length ≤ i
  · rw [if_pos h, if_pos (List.drop_eq_nil_iff.2 h)]
  · rw [if_neg h, if_neg (fun h' => h (List.drop_eq_nil_iff.1 h'))]

theorem walkLoop_segs (path : Str) (v : MV) (n i : Nat) (node : Node) (hi : i ≤ path.length)
    (hn : path.length - i < n) :
    walkLoop path (nextList path '/') v n i node = walkSegs v (splitC '/' (path.drop i)) node := by
  induction n generalizing i node with
  | zero => omega
  | succ n ih =>
    unfold walkLoop
    rcases nextList_cases path i hi with ⟨a, b, h1, h2, h3, h4, h5, h6⟩ | ⟨h1, h2, h3⟩
    · rw [h3]
      simp only
      rw [h6, walkSegs_cons (splitC_ne_nil _ _), ih _ _ h4 (by omega), h5]
      have : (path.drop i).take (i + a.length - i) = a := by
        rw [h1, Nat.add_sub_cancel_left]; simp
      rw [this]
    · rw [h3, walkEnd_segs hi]
      split
      · rename_i k hk; exact (h2 k hk).elim
      · rfl

theorem walk_segs (root : Node) (path : Str) (v : MV) :
    walk root path v = walkSegs v (splitC '/' path) root := by
  unfold walk
  split
  · rename_i h; subst h; rfl
  · exact walkLoop_segs path v _ 0 root (Nat.zero_le _) (by omega)

/-- The node at a list of folder names; an empty node if there is none. -/
def Node.sub : List Str → Node → Node
  | [], node => node
  | s :: l, node => ((alookup s (node.children.getD [])).getD Node.empty).sub l

theorem empty_sub (p : List Str) : Node.empty.sub p = Node.empty := by
  induction p with
  | nil => rfl
  | cons s p ih => exact ih

/-- The wildcards of a node as a list. -/
def Node.wilds (node : Node) : List (Str × MV) := node.wildcards.getD []

/-- What `walkSegs` changes. -/
theorem walkSegs_sub (v : MV) (p : List Str) (s : Str) (node : Node) (q : List Str) :
    ((walkSegs v (p ++ [s]) node).sub q).folder =
      (if q = p ∧ s = [] then some v else (node.sub q).folder) ∧
    ((walkSegs v (p ++ [s]) node).sub q).wilds =
      (if q = p ∧ s ≠ [] ∧ endsWithC s '*' = true then ainsert s.dropLast v (node.sub q).wilds
        else (node.sub q).wilds) ∧
    ((walkSegs v (p ++ [s]) node).sub q).files =
      (if q = p ∧ s ≠ [] ∧ endsWithC s '*' = false then ainsert s v (node.sub q).files
        else (node.sub q).files) := by
  induction p generalizing node q with
  | nil =>
    rw [List.nil_append, walkSegs]
    cases q with
    | nil =>
      simp only [Node.sub, true_and]
      by_cases hs : s = []
      · simp [hs, Node.folder, Node.wilds, Node.wildcards, Node.files]
      · by_cases he : endsWithC s '*' = true
        · simp [hs, he, Node.folder, Node.wilds, Node.wildcards, Node.files]
        · simp [hs, he, Node.folder, Node.wilds, Node.wildcards, Node.files]
    | cons t q =>
      simp only [Node.sub, reduceCtorEq, false_and, if_false]
      have : ∀ a b d, (Node.mk node.children a b d).children = node.children := fun _ _ _ => rfl
      split <;> (try split) <;> simp [this]
  | cons t p ih =>
    rw [List.cons_append, walkSegs_cons (by simp)]
    cases q with
    | nil => simp [Node.sub, Node.folder, Node.wilds, Node.wildcards, Node.files]
    | cons u q =>
      have key : (Node.mk (some (ainsert t
          (walkSegs v (p ++ [s]) ((alookup t (node.children.getD [])).getD Node.empty))
          (node.children.getD []))) node.folder node.wildcards node.files).sub (u :: q) =
          if t = u then (walkSegs v (p ++ [s])
              ((alookup t (node.children.getD [])).getD Node.empty)).sub q
            else node.sub (u :: q) := by
        simp only [Node.sub, Node.children, Option.getD_some, alookup_ainsert]
        split <;> rfl
      rw [key]
      by_cases htu : t = u
      · subst htu
        simp only [if_true, List.cons.injEq, true_and]
        exact ih _ q
      · simp only [htu, if_false, List.cons.injEq, Ne.symm htu, false_and]
        exact ⟨trivial, trivial, trivial⟩

/-! ## Finding -/

/-- The folder and wildcard mappings of one node (src/map.rs:404-433). -/
def level (last : Option (MV × Int)) (node : Node) (s : Str) (i : Nat) : Option (MV × Int) :=
  applyWildcards (applyFolder last node i) node s i

/-- `find_match` on path segments. -/
def findSegs : List Str → Nat → Node → Option (MV × Int) → Option (MV × Int)
  | [], _, _, last => last
  | [s], i, node, last =>
    match alookup s node.files with
    | some v => some (v, (utf8Len s : Int) + 1)
    | none => level last node s i
  | s :: t :: l, i, node, last =>
    match alookup s (node.children.getD []) with
    | some node' => findSegs (t :: l) (i + s.length + 1) node' (level last node s i)
    | none => level last node s i

theorem findMatchEnd_segs {req : Str} {i : Nat} {node : Node} {last : Option (MV × Int)} :
    findMatchEnd node req i last = findSegs [req.drop i] i node last := rfl

theorem findMatchLoop_segs (req : Str) (n i : Nat) (node : Node) (last : Option (MV × Int))
    (hi : i ≤ req.length) (hn : req.length - i < n) :
    findMatchLoop req (nextList req '/') n node i last =
      findSegs (splitC '/' (req.drop i)) i node last := by
  induction n generalizing i node last with
  | zero => omega
  | succ n ih =>
    unfold findMatchLoop
    rcases nextList_cases req i hi with ⟨a, b, h1, h2, h3, h4, h5, h6⟩ | ⟨h1, h2, h3⟩
    · rw [h3]
      simp only
      have hb : splitC '/' b ≠ [] := splitC_ne_nil _ _
      rw [h6]
      have hf : (req.drop i).take (i + a.length - i) = a := by
        rw [h1, Nat.add_sub_cancel_left]; simp
      rw [hf]
      have hrec : ∀ node' last', findMatchLoop req (nextList req '/') n node' (i + a.length + 1) last' =
          findSegs (splitC '/' b) (i + a.length + 1) node' last' := by
        intro node' last'
        rw [ih _ _ _ h4 (by omega), h5]
      have hlast : applyWildcards (applyFolder last node i) node a i = level last node a i := rfl
      cases hs : splitC '/' b with
      | nil => exact (hb hs).elim
      | cons t l =>
        rw [findSegs]
        rw [hlast]
        cases hc : node.children with
        | none =>
          simp only [Option.isNone_none, Bool.and_true, Option.getD_none, alookup]
          split
          · rename_i hw
            simp only [Option.isNone_iff_eq_none] at hw
            simp only [level, applyWildcards, hw]
          · rfl
        | some ch =>
          simp only [Option.isNone_some, Bool.and_false, Bool.false_eq_true, if_false,
            Option.getD_some]
          cases alookup a ch with
          | none => rfl
          | some node' => simp only; rw [hrec, hs]
    · rw [h3, ← findMatchEnd_segs]
      split
      · rename_i k hk; exact (h2 k hk).elim
      · rfl

/-- An earlier match that is shorter is kept only if there is no other. -/
theorem applyWildcardsLoop_or (rem : Str) (i : Nat) (l : List (Str × MV)) (v : MV) (j : Int)
    (hj : j < i) : applyWildcardsLoop rem i l (some (v, j)) =
      (applyWildcardsLoop rem i l none).or (some (v, j)) := by
  induction l with
  | nil => rfl
  | cons x l ih =>
    obtain ⟨key, target⟩ := x
    unfold applyWildcardsLoop
    split
    · simp only
      rw [if_pos (by omega)]
      have : ∀ (l : List (Str × MV)) (a : MV) (b : Int),
          ∃ c, applyWildcardsLoop rem i l (some (a, b)) = some c := by
        intro l
        induction l with
        | nil => intro a b; exact ⟨_, rfl⟩
        | cons x l ih =>
          intro a b
          obtain ⟨key, target⟩ := x
          unfold applyWildcardsLoop
          split
          · simp only
            split
            · exact ih _ _
            · exact ih _ _
          · exact ih _ _
      obtain ⟨c, hc⟩ := this l target (i + utf8Len key)
      rw [hc]
      rfl
    · exact ih

theorem level_or {last : Option (MV × Int)} (node : Node) (s : Str) (i : Nat)
    (h : ∀ v j, last = some (v, j) → j < i) :
    level last node s i = (level none node s i).or last := by
  unfold level applyFolder
  cases hf : node.folder with
  | some m =>
    simp only
    unfold applyWildcards
    split
    · rw [applyWildcardsLoop_or s i _ m _ (by omega)]
      cases applyWildcardsLoop s i _ none <;> rfl
    · rfl
  | none =>
    simp only
    unfold applyWildcards
    split
    · cases last with
      | none => simp
      | some vj =>
        obtain ⟨v, j⟩ := vj
        exact applyWildcardsLoop_or s i _ v j (h v j rfl)
    · simp

/-- What the loop over wildcards finds: the longest. -/
theorem applyWildcardsLoop_spec (rem : Str) (i : Nat) (l : List (Str × MV)) :
    (∀ start : MV × Int, start.2 ≥ i → ∃ v j, applyWildcardsLoop rem i l (some start) = some (v, j) ∧
      start.2 ≤ j ∧ ((v, j) = start ∨ ∃ key, (key, v) ∈ l ∧ key <+: rem ∧ j = i + utf8Len key) ∧
      ∀ kv ∈ l, kv.1 <+: rem → (i : Int) + utf8Len kv.1 ≤ j) ∧
    ((applyWildcardsLoop rem i l none = none ∧ ∀ kv ∈ l, ¬ kv.1 <+: rem) ∨
      ∃ key v, applyWildcardsLoop rem i l none = some (v, (i : Int) + utf8Len key) ∧
        (key, v) ∈ l ∧ key <+: rem ∧ ∀ kv ∈ l, kv.1 <+: rem → utf8Len kv.1 ≤ utf8Len key) := by
  induction l with
  | nil =>
    refine ⟨fun start _ => ⟨start.1, start.2, rfl, Int.le_refl _, .inl rfl, nofun⟩, .inl ⟨rfl, nofun⟩⟩
  | cons x l ih =>
    obtain ⟨key, target⟩ := x
    obtain ⟨ih1, ih2⟩ := ih
    constructor
    · intro start hs
      obtain ⟨v0, j0⟩ := start
      simp only at hs
      unfold applyWildcardsLoop
      split
      · rename_i hp
        rw [startsWith_iff] at hp
        simp only
        split
        · rename_i hlt
          obtain ⟨v, j, h1, h2, h3, h4⟩ := ih1 (target, (i : Int) + utf8Len key) (by simp; omega)
          refine ⟨v, j, h1, by simp at h2 ⊢; omega, ?_, ?_⟩
          · right
            rcases h3 with h3 | ⟨k, h3, h5, h6⟩
            · cases h3
              exact ⟨key, List.mem_cons_self .., hp, rfl⟩
            · exact ⟨k, List.mem_cons_of_mem _ h3, h5, h6⟩
          · intro kv hkv hpre
            rcases List.mem_cons.1 hkv with rfl | hkv
            · exact h2
            · exact h4 kv hkv hpre
        · rename_i hge
          obtain ⟨v, j, h1, h2, h3, h4⟩ := ih1 (v0, j0) hs
          refine ⟨v, j, h1, h2, ?_, ?_⟩
          · rcases h3 with h3 | ⟨k, h3, h5, h6⟩
            · exact .inl h3
            · exact .inr ⟨k, List.mem_cons_of_mem _ h3, h5, h6⟩
          · intro kv hkv hpre
            rcases List.mem_cons.1 hkv with rfl | hkv
            · simp only at h2 ⊢; omega
            · exact h4 kv hkv hpre
      · rename_i hp
        rw [startsWith_iff] at hp
        obtain ⟨v, j, h1, h2, h3, h4⟩ := ih1 (v0, j0) hs
        refine ⟨v, j, h1, h2, ?_, ?_⟩
        · rcases h3 with h3 | ⟨k, h3, h5, h6⟩
          · exact .inl h3
          · exact .inr ⟨k, List.mem_cons_of_mem _ h3, h5, h6⟩
        · intro kv hkv hpre
          rcases List.mem_cons.1 hkv with rfl | hkv
          · exact (hp hpre).elim
          · exact h4 kv hkv hpre
    · unfold applyWildcardsLoop
      split
      · rename_i hp
        rw [startsWith_iff] at hp
        right
        simp only
        obtain ⟨v, j, h1, h2, h3, h4⟩ := ih1 (target, (i : Int) + utf8Len key) (by simp; omega)
        rcases h3 with h3 | ⟨k, h3, h5, h6⟩
        · cases h3
          refine ⟨key, target, h1, List.mem_cons_self .., hp, ?_⟩
          intro kv hkv hpre
          rcases List.mem_cons.1 hkv with rfl | hkv
          · exact Nat.le_refl _
          · have := h4 kv hkv hpre; omega
        · subst h6
          refine ⟨k, v, h1, List.mem_cons_of_mem _ h3, h5, ?_⟩
          intro kv hkv hpre
          rcases List.mem_cons.1 hkv with rfl | hkv
          · simp only at h2 ⊢; omega
          · have := h4 kv hkv hpre; omega
      · rename_i hp
        rw [startsWith_iff] at hp
        rcases ih2 with ⟨h1, h2⟩ | ⟨k, v, h1, h2, h3, h4⟩
        · left
          refine ⟨h1, fun kv hkv => ?_⟩
          rcases List.mem_cons.1 hkv with rfl | hkv
          · exact hp
          · exact h2 kv hkv
        · right
          refine ⟨k, v, h1, List.mem_cons_of_mem _ h2, h3, fun kv hkv hpre => ?_⟩
          rcases List.mem_cons.1 hkv with rfl | hkv
          · exact (hp hpre).elim
          · exact h4 kv hkv hpre

/-- What one node offers. -/
theorem level_spec (node : Node) (s : Str) (i : Nat) :
    (level none node s i = none ∧ node.folder = none ∧ ∀ kv ∈ node.wilds, ¬ kv.1 <+: s) ∨
    (∃ v, level none node s i = some (v, -(i : Int) - 1) ∧ node.folder = some v ∧
      ∀ kv ∈ node.wilds, ¬ kv.1 <+: s) ∨
    ∃ key v, level none node s i = some (v, (i : Int) + utf8Len key) ∧ (key, v) ∈ node.wilds ∧
      key <+: s ∧ ∀ kv ∈ node.wilds, kv.1 <+: s → utf8Len kv.1 ≤ utf8Len key := by
  unfold level applyWildcards Node.wilds
  cases hw : node.wildcards with
  | none =>
    simp only [Option.getD_none]
    unfold applyFolder
    cases hf : node.folder with
    | none => exact .inl ⟨rfl, rfl, nofun⟩
    | some v => exact .inr (.inl ⟨v, rfl, rfl, nofun⟩)
  | some l =>
    simp only [Option.getD_some]
    unfold applyFolder
    cases hf : node.folder with
    | none =>
      simp only
      rcases (applyWildcardsLoop_spec s i l).2 with ⟨h1, h2⟩ | ⟨k, v, h⟩
      · exact .inl ⟨h1, trivial, h2⟩
      · exact .inr (.inr ⟨k, v, h⟩)
    | some v =>
      simp only
      rw [applyWildcardsLoop_or s i l v _ (by omega)]
      rcases (applyWildcardsLoop_spec s i l).2 with ⟨h1, h2⟩ | ⟨k, v', h1, h2⟩
      · exact .inr (.inl ⟨v, by rw [h1]; rfl, rfl, h2⟩)
      · exact .inr (.inr ⟨k, v', by rw [h1]; rfl, h2⟩)

/-- The child of a node; empty if there is none. -/
def Node.child (node : Node) (s : Str) : Node :=
  (alookup s (node.children.getD [])).getD Node.empty

theorem sub_cons (s : Str) (l : List Str) (node : Node) :
    node.sub (s :: l) = (node.child s).sub l := rfl

/-- The best folder or wildcard mapping along the segments. -/
def bestSegs : List Str → Nat → Node → Option (MV × Int)
  | [], _, _ => none
  | s :: l, i, node => (bestSegs l (i + s.length + 1) (node.child s)).or (level none node s i)

theorem bestSegs_empty (rs : List Str) (i : Nat) : bestSegs rs i Node.empty = none := by
  induction rs generalizing i with
  | nil => rfl
  | cons s l ih =>
    unfold bestSegs
    rw [show Node.empty.child s = Node.empty from rfl, ih]
    rfl

/-- The exact mapping for the segments. -/
def exactSegs (rs : List Str) (node : Node) : Option (MV × Int) :=
  (rs.getLast?.bind fun s => (alookup s (node.sub rs.dropLast).files).map fun v =>
    (v, (utf8Len s : Int) + 1))

theorem prefix_length {a b : Str} (h : a <+: b) : a.length ≤ b.length := h.length_le

theorem ascii_prefix {a b : Str} (h : a <+: b) (hb : AsciiStr b) : AsciiStr a := fun c hc =>
  hb c (h.subset hc)

theorem level_lt {node : Node} {s : Str} {i : Nat}
    (hs : ∀ k v, (k, v) ∈ node.wilds → k <+: s → AsciiStr k) {v : MV} {j : Int}
    (h : level none node s i = some (v, j)) : j < ((i + s.length + 1 : Nat) : Int) := by
  rcases level_spec node s i with ⟨h1, -⟩ | ⟨v', h1, -⟩ | ⟨k, v', h1, h0, h2, -⟩
  · rw [h1] at h; cases h
  · rw [h1] at h; cases h; omega
  · rw [h1] at h
    cases h
    have := utf8Len_ascii (hs _ _ h0 h2)
    have := prefix_length h2
    omega

/-- The length of the text of segments, each with its separator. -/
def segLen (p : List Str) : Nat := (p.map fun s => s.length + 1).sum

/-- A folder (`star = false`) or wildcard mapping along the segments `rs`. -/
structure Cand (node : Node) (rs : List Str) (star : Bool) (p : List Str) (l : Str) (v : MV) : Prop where
  pos : ∃ r rest, rs = p ++ r :: rest ∧ l <+: r
  val : if star then (l, v) ∈ (node.sub p).wilds else l = [] ∧ (node.sub p).folder = some v

theorem Cand.cons {node : Node} {s : Str} {rs : List Str} {star : Bool} {p : List Str} {l : Str}
    {v : MV} (h : Cand (node.child s) rs star p l v) : Cand node (s :: rs) star (s :: p) l v := by
  obtain ⟨⟨r, rest, h1, h2⟩, h3⟩ := h
  exact ⟨⟨r, rest, by rw [h1]; rfl, h2⟩, h3⟩

theorem Cand.cases {node : Node} {s : Str} {rs : List Str} {star : Bool} {p : List Str} {l : Str}
    {v : MV} (h : Cand node (s :: rs) star p l v) :
    (p = [] ∧ l <+: s ∧ if star then (l, v) ∈ node.wilds else l = [] ∧ node.folder = some v) ∨
    ∃ p', p = s :: p' ∧ Cand (node.child s) rs star p' l v := by
  obtain ⟨⟨r, rest, h1, h2⟩, h3⟩ := h
  cases p with
  | nil =>
    simp only [List.nil_append, List.cons.injEq] at h1
    obtain ⟨rfl, rfl⟩ := h1
    exact .inl ⟨rfl, h2, h3⟩
  | cons t p =>
    simp only [List.cons_append, List.cons.injEq] at h1
    obtain ⟨rfl, rfl⟩ := h1
    exact .inr ⟨p, rfl, ⟨r, rest, rfl, h2⟩, h3⟩

theorem findSegs_eq (rs : List Str) (i : Nat) (node : Node) (last : Option (MV × Int))
    (hrs : rs ≠ []) (ha : ∀ p l v, Cand node rs true p l v → AsciiStr l) (hl : ∀ v j, last = some (v, j) → j < i) :
    findSegs rs i node last = (exactSegs rs node).or ((bestSegs rs i node).or last) := by
  induction rs generalizing i node last with
  | nil => exact (hrs rfl).elim
  | cons s l ih =>
    cases l with
    | nil =>
      unfold findSegs exactSegs
      simp only [List.getLast?_singleton, Option.bind_some, List.dropLast_singleton, Node.sub]
      cases alookup s node.files with
      | some v => rfl
      | none =>
        simp only [Option.map_none, Option.none_or]
        rw [level_or _ _ _ hl]
        rfl
    | cons t l =>
      have hex : exactSegs (s :: t :: l) node = exactSegs (t :: l) (node.child s) := by
        unfold exactSegs
        rw [List.getLast?_cons_cons]
        rfl
      rw [findSegs, hex, bestSegs, level_or _ _ _ hl]
      cases hc : alookup s (node.children.getD []) with
      | none =>
        have hch : node.child s = Node.empty := by unfold Node.child; rw [hc]; rfl
        rw [hch, bestSegs_empty]
        have : exactSegs (t :: l) Node.empty = none := by
          unfold exactSegs
          rw [empty_sub]
          cases (t :: l).getLast? <;> rfl
        rw [this]
        simp
      | some node' =>
        have hch : node.child s = node' := by unfold Node.child; rw [hc]; rfl
        simp only
        rw [hch, ih _ _ _ (by simp) (fun p l v h => ha _ _ _ (hch ▸ h).cons) ?_]
        · simp [Option.or_assoc]
        · intro v j h
          cases hlev : level none node s i with
          | some vj =>
            obtain ⟨v', j'⟩ := vj
            rw [hlev] at h
            simp only [Option.some_or, Option.some.injEq, Prod.mk.injEq] at h
            have := level_lt (fun k v h1 h2 => ha [] k v ⟨⟨s, t :: l, rfl, h2⟩, h1⟩) hlev
            omega
          | none =>
            rw [hlev] at h
            simp only [Option.none_or] at h
            have := hl v j h
            omega

theorem bestSegs_spec (rs : List Str) (i : Nat) (node : Node)
    (ha : ∀ p l v, Cand node rs true p l v → AsciiStr l) :
    (bestSegs rs i node = none ∧ ∀ star p l v, ¬ Cand node rs star p l v) ∨
    ∃ v star p l, bestSegs rs i node = some (v, if star then (i + segLen p + l.length : Nat)
        else -((i + segLen p : Nat) : Int) - 1) ∧ Cand node rs star p l v ∧
      ∀ star' p' l' v', Cand node rs star' p' l' v' → p'.length < p.length ∨
        p' = p ∧ (l'.length < l.length ∨ l' = l ∧ (star' = true → star = true)) := by
  induction rs generalizing i node with
  | nil =>
    left
    refine ⟨rfl, fun star p l v h => ?_⟩
    obtain ⟨⟨r, rest, h1, h2⟩, h3⟩ := h
    simp at h1
  | cons s rs ih =>
    have hlen : ∀ k v, (k, v) ∈ node.wilds → k <+: s → utf8Len k = k.length := fun k v h1 h2 =>
      utf8Len_ascii (ha [] k v ⟨⟨s, rs, rfl, h2⟩, h1⟩)
    rw [bestSegs]
    rcases ih (i + s.length + 1) (node.child s) (fun p l v h => ha _ _ _ h.cons) with
      ⟨h1, h2⟩ | ⟨v, star, p, l, h1, h2, h3⟩
    · rw [h1, Option.none_or]
      rcases level_spec node s i with ⟨h4, h5, h6⟩ | ⟨v, h4, h5, h6⟩ | ⟨k, v, h4, h5, h6, h7⟩
      · left
        refine ⟨h4, fun star p l v h => ?_⟩
        rcases h.cases with ⟨-, hl, hv⟩ | ⟨p', -, h'⟩
        · cases star with
          | true => exact h6 _ hv hl
          | false => rw [h5] at hv; cases hv.2
        · exact h2 _ _ _ _ h'
      · right
        refine ⟨v, false, [], [], by rw [h4]; simp [segLen],
          ⟨⟨s, rs, rfl, List.nil_prefix⟩, rfl, h5⟩, fun star' p' l' v' h => ?_⟩
        rcases h.cases with ⟨rfl, hl, hv⟩ | ⟨p'', -, h'⟩
        · cases star' with
          | true => exact (h6 _ hv hl).elim
          | false => exact .inr ⟨rfl, .inr ⟨hv.1, nofun⟩⟩
        · exact (h2 _ _ _ _ h').elim
      · right
        refine ⟨v, true, [], k, by rw [h4, hlen k v h5 h6]; simp [segLen],
          ⟨⟨s, rs, rfl, h6⟩, h5⟩, fun star' p' l' v' h => ?_⟩
        rcases h.cases with ⟨rfl, hl, hv⟩ | ⟨p'', -, h'⟩
        · refine .inr ⟨rfl, ?_⟩
          have hle : l'.length ≤ k.length := by
            cases star' with
            | true =>
              have := h7 _ hv hl
              rw [hlen k v h5 h6] at this
              simp only at this
              rw [hlen _ _ hv hl] at this
              exact this
            | false => rw [hv.1]; exact Nat.zero_le _
          rcases Nat.lt_or_eq_of_le hle with h | h
          · exact .inl h
          · refine .inr ⟨?_, fun _ => rfl⟩
            rw [List.prefix_iff_eq_take.1 hl, List.prefix_iff_eq_take.1 h6, h]
        · exact (h2 _ _ _ _ h').elim
    · right
      refine ⟨v, star, s :: p, l, ?_, h2.cons, fun star' p' l' v' h => ?_⟩
      · rw [h1, Option.some_or]
        have : segLen (s :: p) = s.length + 1 + segLen p := by simp [segLen]
        rw [this]
        cases star <;> simp <;> omega
      · rcases h.cases with ⟨rfl, hl, hv⟩ | ⟨p'', rfl, h'⟩
        · left; simp
        · rcases h3 _ _ _ _ h' with h | ⟨rfl, h⟩
          · left; simpa using h
          · exact .inr ⟨rfl, h⟩

end Verif
