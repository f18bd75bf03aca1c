import Verif.Proofs.Sim
import Verif.Proofs.TreeFs
import Verif.Model.Ser
/-!
# Trees are lawful file systems; the example rendering of JSON is injective
-/

namespace Verif

/-- Whether there is a directory at a location. -/
def Tree.dirAt (t : Tree) (loc : List Str) : Bool :=
  match t.at loc with
  | some (.dir _) => true
  | _ => false

/-- Walk through directories only. -/
def Tree.walk (t : Tree) : List Str → List Comp → Option (List Str)
  | loc, [] => if t.dirAt loc then some loc else none
  | loc, c :: l => if t.dirAt loc then t.walk (stepComp loc c) l else none

theorem Tree.walk_not {t : Tree} {loc : List Str} (h : t.dirAt loc = false) (l : List Comp) :
    t.walk loc l = none := by
  cases l <;> simp [Tree.walk, h]

theorem Tree.walk_append (t : Tree) (loc : List Str) (a b : List Comp) :
    t.walk loc (a ++ b) = (t.walk loc a).bind fun l => t.walk l b := by
  induction a generalizing loc with
  | nil =>
    cases h : t.dirAt loc with
    | true => simp [Tree.walk, h]
    | false => simp [Tree.walk, h, Tree.walk_not h]
  | cons c a ih =>
    simp only [List.cons_append, Tree.walk]
    split
    · exact ih _
    · rfl

theorem Tree.walk_dir {t : Tree} {loc l1 : List Str} {l : List Comp} (h : t.walk loc l = some l1) :
    t.dirAt l1 = true := by
  induction l generalizing loc with
  | nil =>
    unfold Tree.walk at h
    split at h
    · cases h; assumption
    · cases h
  | cons c l ih =>
    unfold Tree.walk at h
    split at h
    · exact ih h
    · cases h

theorem stepSeg_none {loc : List Str} {s : Str} (h : segComp s = none) : stepSeg loc s = loc := by
  unfold segComp at h
  unfold stepSeg enter
  split
  · rfl
  · split
    · rfl
    · rename_i h1 h2
      rw [if_neg h1, if_neg h2] at h
      split at h <;> cases h

theorem stepSeg_some {loc : List Str} {s : Str} {c : Comp} (h : segComp s = some c) :
    stepSeg loc s = stepComp loc c := by
  unfold segComp at h
  unfold stepSeg enter
  split at h
  · cases h
  · split at h
    · cases h
    · split at h
      · cases h; simp_all [stepComp]
      · cases h; simp_all [stepComp]

theorem Tree.reach_cons (t : Tree) (loc : List Str) (s : Str) (l : List Str) :
    t.reach loc (s :: l) = if t.dirAt loc then t.reach (stepSeg loc s) l else none := by
  rw [Tree.reach]
  unfold Tree.dirAt
  cases t.at loc with
  | none => rfl
  | some u => cases u <;> rfl

theorem Tree.reach_walk (t : Tree) (loc : List Str) (A : List Str) (x : Str) :
    t.reach loc (A ++ [x]) = (t.walk loc (segComps A)).bind fun l1 =>
      if (t.at (stepSeg l1 x)).isSome then some (stepSeg l1 x) else none := by
  induction A generalizing loc with
  | nil =>
    rw [List.nil_append, Tree.reach_cons]
    show _ = (t.walk loc []).bind _
    unfold Tree.walk
    split <;> rfl
  | cons s A ih =>
    rw [List.cons_append, Tree.reach_cons]
    cases hd : t.dirAt loc with
    | false => rw [Tree.walk_not hd]; rfl
    | true =>
      simp only [if_true]
      rw [ih]
      cases hc : segComp s with
      | none => rw [stepSeg_none hc, segComps, segComps, List.filterMap_cons_none hc]
      | some c =>
        rw [stepSeg_some hc, segComps, segComps, List.filterMap_cons_some hc, Tree.walk, if_pos hd]

theorem snoc_segs (p : Str) : ∃ A x, splitC '/' p = A ++ [x] ∧ lastSeg p = some x := by
  cases hl : lastSeg p with
  | none => exact absurd (List.getLast?_eq_none_iff.1 hl) (splitC_ne_nil _ _)
  | some x =>
    obtain ⟨A, hA⟩ := List.getLast?_eq_some_iff.1 hl
    exact ⟨A, x, hA, rfl⟩

theorem Tree.lookup_sim {t : Tree} {cwd : List Str} {p q : Str} (ha : isAbs p = true)
    (h : Sim p q) : t.lookup cwd p = t.lookup cwd q := by
  have ha' : isAbs q = true := by rw [← h.abs]; exact ha
  obtain ⟨A, x, hA, hx⟩ := snoc_segs p
  obtain ⟨B, y, hB, hy⟩ := snoc_segs q
  have hxy : x = y := by
    have := h.2
    rw [hx, hy] at this; cases this; rfl
  subst hxy
  have hc := h.1
  rw [comps_eq_root ha, comps_eq_root ha', hA, hB, segComps_append, segComps_append] at hc
  have hAB : segComps A = segComps B := List.append_cancel_right (List.cons.inj hc).2
  unfold Tree.lookup
  rw [if_neg (abs_ne_nil ha), if_neg (abs_ne_nil ha'), if_pos ha, if_pos ha', hA, hB,
    Tree.reach_walk, Tree.reach_walk, hAB]

theorem treeFs_isDir {t : Tree} {cwd : List Str} {p : Str} (ha : isAbs p = true) :
    (treeFs t cwd).isDir p = (t.walk [] (segComps (splitC '/' p))).isSome := by
  obtain ⟨A, x, hA, -⟩ := snoc_segs p
  have e : (treeFs t cwd).isDir p = match t.lookup cwd p with
      | some loc => t.dirAt loc
      | none => false := by
    simp only [treeFs, Tree.node, Tree.dirAt]
    cases t.lookup cwd p <;> rfl
  rw [e]
  unfold Tree.lookup
  rw [if_neg (abs_ne_nil ha), if_pos ha, hA, Tree.reach_walk, segComps_append, Tree.walk_append]
  cases hw : t.walk [] (segComps A) with
  | none => rfl
  | some l1 =>
    have hd := Tree.walk_dir hw
    simp only [Option.bind_some]
    have hsegs : t.walk l1 (segComps [x]) = if t.dirAt (stepSeg l1 x) then some (stepSeg l1 x) else none := by
      cases hc : segComp x with
      | none => rw [stepSeg_none hc, segComps, List.filterMap_cons_none hc]; rfl
      | some c =>
        rw [stepSeg_some hc, segComps, List.filterMap_cons_some hc]
        simp [Tree.walk, hd]
    rw [hsegs]
    cases hs : t.at (stepSeg l1 x) with
    | none => simp [Tree.dirAt, hs]
    | some u =>
      simp only [Option.isSome_some, if_true]
      cases t.dirAt (stepSeg l1 x) <;> rfl

/-- A tree whose root is a directory is a lawful file system. -/
theorem treeFs_lawful {t : Tree} (cwd : List Str) (hroot : t.isDir = true) :
    (treeFs t cwd).Lawful where
  dir p q ha h := by
    have ha' : isAbs q = true := by rw [← isAbs_of_comps h]; exact ha
    rw [treeFs_isDir ha, treeFs_isDir ha']
    rw [comps_eq_root ha, comps_eq_root ha'] at h
    rw [(List.cons.inj h).2]
  file p q ha h := by simp only [treeFs, Tree.node, Tree.lookup_sim ha h]
  pathExists p q ha h := by simp only [treeFs, Tree.node, Tree.lookup_sim ha h]
  read p q ha h := by simp only [treeFs, Tree.node, Tree.lookup_sim ha h]
  mtime p q ha h := by simp only [treeFs, Tree.node, Tree.lookup_sim ha h]
  canon p q ha h := by simp only [treeFs, Tree.lookup_sim ha h]
  dirNotFile p _ h := by
    simp only [treeFs] at h ⊢
    split at h
    · rename_i hn; rw [hn]
    · cases h
  dirExists p _ h := by
    simp only [treeFs] at h ⊢
    split at h
    · rename_i hn; rw [hn]; rfl
    · cases h
  parent p q ha hp h := by
    have ha' : isAbs q = true := by rw [isAbs_pparent hp]; exact ha
    rw [treeFs_isDir ha] at h
    rw [treeFs_isDir ha']
    have hc := comps_pparent hp
    rw [comps_eq_root ha, comps_eq_root ha'] at hc
    generalize segComps (splitC '/' p) = a at h hc
    generalize segComps (splitC '/' q) = b at hc ⊢
    cases hl : a.getLast? with
    | none =>
      rw [List.getLast?_eq_none_iff.1 hl] at hc
      cases hc
    | some c =>
      obtain ⟨a', rfl⟩ := List.getLast?_eq_some_iff.1 hl
      rw [← List.cons_append, List.dropLast_concat] at hc
      rw [(List.cons.inj hc).2]
      rw [Tree.walk_append] at h
      cases hw : t.walk [] a' with
      | none => rw [hw] at h; cases h
      | some _ => rfl
  root := by
    rw [treeFs_isDir (by decide)]
    have : segComps (splitC '/' cs!"/") = [] := by decide
    rw [this]
    cases t with
    | dir l => rfl
    | file _ _ => cases hroot

/-! ## The rendering -/

/-- The value of a digit that `hexChar` gives. -/
def hexVal (c : Char) : Nat := if c.toNat < 58 then c.toNat - 48 else c.toNat - 87

/-- Read one escaped character. -/
def readChar : Str → Char × Str
  | '\\' :: 'u' :: '0' :: '0' :: a :: b :: s => (Char.ofNat (hexVal a * 16 + hexVal b), s)
  | '\\' :: 'n' :: s => ('\n', s)
  | '\\' :: 'r' :: s => ('\r', s)
  | '\\' :: 't' :: s => ('\t', s)
  | '\\' :: 'b' :: s => ('\x08', s)
  | '\\' :: 'f' :: s => ('\x0c', s)
  | '\\' :: c :: s => (c, s)
  | c :: s => (c, s)
  | [] => ('a', [])

theorem hexVal_hexChar {n : Nat} (h : n < 16) : hexVal (hexChar n) = n := by
  have : ∀ n : Fin 16, hexVal (hexChar n) = n := by decide
  exact this ⟨n, h⟩

theorem readChar_esc (c : Char) (s : Str) : readChar (escChar c ++ s) = (c, s) := by
  unfold escChar
  split
  · rename_i h; subst h; rfl
  split
  · rename_i h; subst h; rfl
  split
  · rename_i h; subst h; rfl
  split
  · rename_i h; subst h; rfl
  split
  · rename_i h; subst h; rfl
  split
  · rename_i h; subst h; rfl
  split
  · rename_i h; subst h; rfl
  split
  · rename_i h
    have h1 := hexVal_hexChar (n := c.toNat / 16) (by omega)
    have h2 := hexVal_hexChar (n := c.toNat % 16) (by omega)
    show (Char.ofNat (hexVal (hexChar (c.toNat / 16)) * 16 + hexVal (hexChar (c.toNat % 16))), s) = (c, s)
    rw [h1, h2, Nat.div_add_mod', Char.ofNat_toNat]
  · rename_i h _ _ _ _ _ _
    show readChar (c :: s) = (c, s)
    unfold readChar
    split <;> simp_all

theorem escChar_head (c : Char) (s : Str) : escChar c ++ s ≠ [] ∧ ∀ t, escChar c ++ s ≠ '"' :: t := by
  unfold escChar
  repeat' split
  all_goals simp_all

theorem serStr_inj {a b r s : Str} (h : serStr a ++ r = serStr b ++ s) : a = b ∧ r = s := by
  simp only [serStr, List.cons_append, List.cons.injEq, true_and, List.append_assoc, List.nil_append] at h
  induction a generalizing b with
  | nil =>
    cases b with
    | nil => exact ⟨rfl, by simpa using h⟩
    | cons c b =>
      rw [List.flatMap_cons, List.append_assoc] at h
      exact absurd h.symm ((escChar_head c _).2 _)
  | cons c a ih =>
    cases b with
    | nil =>
      rw [List.flatMap_cons, List.append_assoc] at h
      exact absurd h ((escChar_head c _).2 _)
    | cons d b =>
      rw [List.flatMap_cons, List.flatMap_cons, List.append_assoc, List.append_assoc] at h
      have := congrArg readChar h
      rw [readChar_esc, readChar_esc, Prod.mk.injEq] at this
      obtain ⟨h1, h2⟩ := ih this.2
      exact ⟨by rw [this.1, h1], h2⟩

/-- A text that does not go on with a number. -/
def Stop (s : Str) : Prop := ∀ c t, s = c :: t → isNumChar c = false

theorem num_prefix {a b r s : Str} (ha : ∀ c ∈ a, isNumChar c = true) (hb : ∀ c ∈ b, isNumChar c = true)
    (hr : Stop r) (hs : Stop s) (h : a ++ r = b ++ s) : a = b ∧ r = s := by
  induction a generalizing b with
  | nil =>
    cases b with
    | nil => exact ⟨rfl, h⟩
    | cons c b =>
      have := hr c (b ++ s) h
      rw [hb c (List.mem_cons_self ..)] at this
      cases this
  | cons c a ih =>
    cases b with
    | nil =>
      have := hs c (a ++ r) h.symm
      rw [ha c (List.mem_cons_self ..)] at this
      cases this
    | cons d b =>
      simp only [List.cons_append, List.cons.injEq] at h
      obtain ⟨h1, h2⟩ := ih (fun c hc => ha c (List.mem_cons_of_mem _ hc))
        (fun c hc => hb c (List.mem_cons_of_mem _ hc)) h.2
      exact ⟨by rw [h.1, h1], h2⟩

/-- The kind of a value, from the first character of its text. -/
def firstKind (s : Str) : Nat :=
  match s with
  | 'n' :: _ => 0
  | 't' :: _ => 1
  | 'f' :: _ => 2
  | '"' :: _ => 3
  | '[' :: _ => 4
  | '{' :: _ => 5
  | ']' :: _ => 6
  | c :: _ => if isNumChar c then 7 else 8
  | [] => 9

/-- The kind of a value. -/
def Json.kind : Json → Nat
  | .null => 0
  | .bool true => 1
  | .bool false => 2
  | .str _ => 3
  | .arr _ => 4
  | .obj _ => 5
  | .num _ => 7

theorem firstKind_num {c : Char} {s : Str} (h : isNumChar c = true) : firstKind (c :: s) = 7 := by
  unfold firstKind
  split
  all_goals rename_i heq; cases heq
  all_goals first | rw [if_pos h] | exact absurd h (by decide)

theorem firstKind_ser (j : Json) (s : Str) : firstKind (serJson j ++ s) = j.kind := by
  cases j with
  | bool b => cases b <;> rfl
  | num n =>
    obtain ⟨t, h1, h2⟩ := n
    cases t with
    | nil => exact (h1 rfl).elim
    | cons c t => rw [serJson]; exact firstKind_num (h2 c (List.mem_cons_self ..))
  | null => rfl
  | str t => rw [serJson]; rfl
  | arr l => rw [serJson]; rfl
  | obj l => rw [serJson]; rfl

theorem stop_arr (l : List Json) (r : Str) : Stop (serArr false l ++ r) := by
  intro c t h
  cases l with
  | nil => rw [serArr] at h; cases h; decide
  | cons j l => rw [serArr] at h; cases h; decide

theorem stop_obj (l : List (Str × Json)) (r : Str) : Stop (serObj false l ++ r) := by
  intro c t h
  cases l with
  | nil => rw [serObj] at h; cases h; decide
  | cons j l => rw [serObj] at h; cases h; decide

mutual
theorem serJson_prefix : ∀ (a b : Json) (r s : Str), Stop r → Stop s → serJson a ++ r = serJson b ++ s →
    a = b ∧ r = s
  | a, b, r, s, hr, hs, h => by
    have hk : a.kind = b.kind := by rw [← firstKind_ser a r, ← firstKind_ser b s, h]
    match a, b, hk with
    | .null, .null, _ => exact ⟨rfl, by simpa [serJson] using h⟩
    | .bool true, .bool true, _ => exact ⟨rfl, by simpa [serJson] using h⟩
    | .bool false, .bool false, _ => exact ⟨rfl, by simpa [serJson] using h⟩
    | .num n, .num m, _ =>
      rw [serJson, serJson] at h
      obtain ⟨h1, h2⟩ := num_prefix n.ok.2 m.ok.2 hr hs h
      cases n
      cases m
      simp only at h1
      subst h1
      exact ⟨rfl, h2⟩
    | .str t, .str u, _ =>
      rw [serJson, serJson] at h
      obtain ⟨h1, h2⟩ := serStr_inj h
      exact ⟨by rw [h1], h2⟩
    | .arr l, .arr m, _ =>
      simp only [serJson, List.cons_append, List.cons.injEq, true_and] at h
      obtain ⟨h1, h2⟩ := serArr_prefix l m true r s hr hs h
      exact ⟨by rw [h1], h2⟩
    | .obj l, .obj m, _ =>
      simp only [serJson, List.cons_append, List.cons.injEq, true_and] at h
      obtain ⟨h1, h2⟩ := serObj_prefix l m true r s hr hs h
      exact ⟨by rw [h1], h2⟩
theorem serArr_prefix : ∀ (a b : List Json) (first : Bool) (r s : Str), Stop r → Stop s →
    serArr first a ++ r = serArr first b ++ s → a = b ∧ r = s
  | [], b, first, r, s, _, _, h => by
    cases b with
    | nil => simpa [serArr] using h
    | cons j b =>
      cases first with
      | true =>
        have hk := firstKind_ser j (serArr false b ++ s)
        simp only [serArr, serSep, if_true, List.nil_append, List.append_assoc] at h
        rw [← h] at hk
        cases j with
        | bool x => cases x <;> exact absurd hk (by simp [Json.kind, firstKind])
        | _ => exact absurd hk (by simp [Json.kind, firstKind])
      | false => simp [serArr, serSep] at h
  | j :: l, b, first, r, s, hr, hs, h => by
    cases b with
    | nil =>
      cases first with
      | true =>
        have hk := firstKind_ser j (serArr false l ++ r)
        simp only [serArr, serSep, if_true, List.nil_append, List.append_assoc] at h
        rw [h] at hk
        cases j with
        | bool x => cases x <;> exact absurd hk (by simp [Json.kind, firstKind])
        | _ => exact absurd hk (by simp [Json.kind, firstKind])
      | false => simp [serArr, serSep] at h
    | cons k m =>
      simp only [serArr, List.append_assoc] at h
      obtain ⟨h1, h2⟩ := serJson_prefix j k _ _ (stop_arr l r) (stop_arr m s) (List.append_cancel_left h)
      obtain ⟨h3, h4⟩ := serArr_prefix l m false r s hr hs h2
      exact ⟨by rw [h1, h3], h4⟩
theorem serObj_prefix : ∀ (a b : List (Str × Json)) (first : Bool) (r s : Str), Stop r → Stop s →
    serObj first a ++ r = serObj first b ++ s → a = b ∧ r = s
  | [], b, first, r, s, _, _, h => by
    cases b with
    | nil => simpa [serObj] using h
    | cons kv b => cases first <;> simp [serObj, serSep, serStr] at h
  | (n, j) :: l, b, first, r, s, hr, hs, h => by
    cases b with
    | nil => cases first <;> simp [serObj, serSep, serStr] at h
    | cons k m =>
      obtain ⟨n', k⟩ := k
      simp only [serObj, List.append_assoc] at h
      obtain ⟨h0, h⟩ := serStr_inj (List.append_cancel_left h)
      simp only [List.cons_append, List.cons.injEq, true_and, List.append_assoc] at h
      obtain ⟨h1, h2⟩ := serJson_prefix j k _ _ (stop_obj l r) (stop_obj m s) h
      obtain ⟨h3, h4⟩ := serObj_prefix l m false r s hr hs h2
      exact ⟨by rw [h0, h1, h3], h4⟩
end

theorem serJson_inj {a b : Json} (h : serJson a = serJson b) : a = b :=
  (serJson_prefix a b [] [] nofun nofun (by rw [h])).1

end Verif
