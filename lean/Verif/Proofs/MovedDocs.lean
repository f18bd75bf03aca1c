import Verif.Proofs.MovedTree
import Verif.Proofs.TreeVals
/-!
# Description files that do not lead out of their project
-/

namespace Verif

/-- Only the first segment may be a step up. -/
def TailUp (z : Str) : Prop := ∀ y B, splitC '/' z = y :: B → ∀ s ∈ B, s ≠ cs!".."

theorem tailUp_suffix {x key : Str} (h : NoUp key) (hx : x <:+ key) : TailUp x := by
  obtain ⟨w, rfl⟩ := hx
  obtain ⟨A, u, y, B, -, h2, h3⟩ := splitC_glue w x
  intro y' B' h' s hs
  rw [h2] at h'
  obtain ⟨rfl, rfl⟩ := List.cons.inj h'
  exact h s (by rw [h3]; simp [hs])

theorem tailUp_noSlash {x : Str} (h : '/' ∉ x) : TailUp x := by
  intro y B hy s hs
  rw [splitC_of_not_mem h] at hy
  obtain ⟨-, rfl⟩ := List.cons.inj hy
  cases hs

theorem splitC_dollar (s : Str) : splitC '/' (replaceChar s '$' cs!"$$") =
    (splitC '/' s).map (replaceChar · '$' cs!"$$") := by
  induction s with
  | nil => rfl
  | cons c s ih =>
    have hcons : replaceChar (c :: s) '$' cs!"$$" =
        (if c = '$' then cs!"$$" else [c]) ++ replaceChar s '$' cs!"$$" := rfl
    rw [hcons]
    by_cases hc : c = '/'
    · subst hc
      rw [if_neg (by decide), List.singleton_append, splitC_cons_sep, splitC_cons_sep, ih]
      rfl
    · obtain ⟨hd, tl, h1, h2⟩ := splitC_cons_ne (c := '/') s hc
      rw [h2]
      rw [h1] at ih
      by_cases hd' : c = '$'
      · subst hd'
        rw [if_pos rfl]
        obtain ⟨hd1, tl1, h3, h4⟩ := splitC_cons_ne (c := '/') (replaceChar s '$' cs!"$$") hc
        obtain ⟨hd2, tl2, h5, h6⟩ := splitC_cons_ne (c := '/') ('$' :: replaceChar s '$' cs!"$$") hc
        change splitC '/' ('$' :: '$' :: replaceChar s '$' cs!"$$") = _
        rw [h6]
        rw [h4] at h5
        rw [ih] at h3
        simp only [List.map_cons, List.cons.injEq] at h3 h5 ⊢
        rw [← h5.1, ← h5.2, ← h3.1, ← h3.2]
        exact ⟨rfl, rfl⟩
      · rw [if_neg hd', List.singleton_append]
        obtain ⟨hd1, tl1, h3, h4⟩ := splitC_cons_ne (c := '/') (replaceChar s '$' cs!"$$") hc
        rw [h4]
        rw [ih] at h3
        simp only [List.map_cons, List.cons.injEq] at h3 ⊢
        rw [← h3.1, ← h3.2]
        refine ⟨?_, rfl⟩
        simp [replaceChar, hd']

theorem dollar_up {s : Str} (h : replaceChar s '$' cs!"$$" = cs!"..") : s = cs!".." := by
  have key : ∀ s : Str, '$' ∉ replaceChar s '$' cs!"$$" → replaceChar s '$' cs!"$$" = s := by
    intro s
    induction s with
    | nil => intro _; rfl
    | cons c s ih =>
      intro h
      have hcons : replaceChar (c :: s) '$' cs!"$$" =
        (if c = '$' then cs!"$$" else [c]) ++ replaceChar s '$' cs!"$$" := rfl
      rw [hcons] at h ⊢
      by_cases hc : c = '$'
      · subst hc; exact absurd (by simp) h
      · rw [if_neg hc] at h ⊢
        rw [ih (fun hm => h (List.mem_append_right _ hm))]
        rfl
  rw [← key s (by rw [h]; decide), h]

theorem tailUp_dollar {x : Str} (h : TailUp x) : TailUp (replaceChar x '$' cs!"$$") := by
  intro y B hy s hs
  rw [splitC_dollar] at hy
  cases hx : splitC '/' x with
  | nil => rw [hx] at hy; cases hy
  | cons y' B' =>
    rw [hx] at hy
    obtain ⟨-, rfl⟩ := List.cons.inj hy
    obtain ⟨s', hs', rfl⟩ := List.mem_map.1 hs
    exact fun he => h y' B' hx s' hs' (dollar_up he)

theorem tailUp_append {x v : Str} (h : TailUp x) (hv : '/' ∉ v) (hd : v = [] ∨ ∃ c ∈ v, c ≠ '.') :
    TailUp (x ++ v) := by
  rcases hd with rfl | ⟨c, hc, hcd⟩
  · rwa [List.append_nil]
  · obtain ⟨A, u, y, B, h1, h2, h3⟩ := splitC_glue x v
    rw [splitC_of_not_mem hv] at h2
    obtain ⟨rfl, rfl⟩ := List.cons.inj h2
    intro y' B' hy s hs
    rw [h3] at hy
    have hlast : u ++ v ≠ cs!".." := by
      intro he
      have : c ∈ cs!".." := by rw [← he]; exact List.mem_append_right _ hc
      simp at this
      exact hcd this
    cases A with
    | nil =>
      obtain ⟨-, rfl⟩ := List.cons.inj hy
      cases hs
    | cons z A =>
      obtain ⟨-, rfl⟩ := List.cons.inj hy
      rcases List.mem_append.1 hs with hs | hs
      · exact h z (A ++ [u]) h1 s (List.mem_append_left _ hs)
      · rw [List.mem_singleton.1 hs]; exact hlast

/-- Two names first: then two steps up do not lead out. -/
theorem noClimb_two {d e : Str} (hd : isName d = true) (he : isName e = true) {l : List Str}
    (h : l.countP (· = cs!"..") ≤ 2) : NoClimb ([cs!".", d, e] ++ l) := by
  have hd' : d ≠ cs!".." := ((isName_iff d).1 hd).2.2
  have he' : e ≠ cs!".." := ((isName_iff e).1 he).2.2
  intro pre hp
  rcases prefix_append_cases hp with hp | ⟨r, rfl, hr⟩
  · refine noClimb_names (l := [cs!".", d, e]) ?_ pre hp
    intro s hs
    simp at hs
    rcases hs with rfl | rfl | rfl
    · decide
    · exact hd'
    · exact he'
  · obtain ⟨w, rfl⟩ := hr
    rw [List.countP_append] at h
    have h1 : [cs!".", d, e].countP isName = 2 := by
      simp [List.countP_cons, hd, he, show isName cs!"." = false by decide]
    have h2 : [cs!".", d, e].countP (· = cs!"..") = 0 := by simp [List.countP_cons, hd', he']
    rw [List.countP_append, List.countP_append, h1, h2]
    omega

theorem countP_zero_of {l : List Str} (h : ∀ s ∈ l, s ≠ cs!"..") : l.countP (· = cs!"..") = 0 := by
  rw [List.countP_eq_zero]
  intro s hs
  simpa using h s hs

theorem fits_deep {d e z : Str} (hd : isName d = true) (he : isName e = true) (hc : ∀ c ∈ cs!"/*?#", c ∉ d ++ e)
    (hz : TailUp z) : Fits (parseRequest (cs!"./" ++ d ++ cs!"/" ++ e ++ cs!"/" ++ z)) := by
  generalize hP : cs!"./" ++ d ++ cs!"/" ++ e ++ cs!"/" = P
  have hPq : ∀ c, c = '?' ∨ c = '#' → c ∉ P := by
    intro c hq hm
    rw [← hP] at hm
    simp only [List.mem_append] at hm
    have h1 := hc c (by rcases hq with rfl | rfl <;> decide)
    simp only [List.mem_append, not_or] at h1
    have h2 : c ∉ cs!"./" ∧ c ∉ cs!"/" := by rcases hq with rfl | rfl <;> decide
    grind
  have hsp := parse_isSplit (P ++ z)
  have hstart := tail_start hsp.query_start hsp.fragment_start
  have hcat := hsp.concat
  rw [List.append_assoc] at hcat
  change Fits ⟨(parseIdentifier (P ++ z)).1, _, _, _⟩
  generalize hw : (parseIdentifier (P ++ z)).2.1 ++ (parseIdentifier (P ++ z)).2.2 = w at hcat hstart
  generalize (parseIdentifier (P ++ z)).1 = t at hcat
  -- the target goes on behind the two directories
  obtain ⟨z', rfl⟩ : ∃ z', t = P ++ z' := by
    have h1 : P <+: t ++ w := ⟨z, hcat⟩
    rcases prefix_append_cases h1 with h | ⟨r, h, hr⟩
    · obtain ⟨z', h⟩ := h; exact ⟨z', h.symm⟩
    · rcases hstart with rfl | ⟨c, w, rfl, hq⟩
      · rw [List.prefix_nil.1 hr, List.append_nil] at h
        exact ⟨[], by rw [h, List.append_nil]⟩
      · cases r with
        | nil => exact ⟨[], by rw [h]; simp⟩
        | cons x r =>
          obtain ⟨rfl, -⟩ := List.cons_prefix_cons.1 hr
          exact absurd (by rw [h]; simp) (hPq x hq)
  have hzz : z = z' ++ w := by
    rw [List.append_assoc] at hcat
    exact List.append_cancel_left hcat
  subst hzz
  obtain ⟨A, x, y, B, h1, h2, h3⟩ := splitC_glue z' w
  have hsegs : splitC '/' (P ++ z') = [cs!".", d, e] ++ splitC '/' z' := by
    have hd1 : '/' ∉ d := fun hm => hc '/' (by decide) (List.mem_append_left _ hm)
    have he1 : '/' ∉ e := fun hm => hc '/' (by decide) (List.mem_append_right _ hm)
    have : P ++ z' = cs!"." ++ '/' :: (d ++ '/' :: (e ++ '/' :: z')) := by
      rw [← hP]; simp
    rw [this, splitC_append_sep, splitC_append_sep, splitC_append_sep, splitC_of_not_mem hd1,
      splitC_of_not_mem he1]
    rfl
  constructor
  · refine ⟨⟨?_, ?_⟩, .inl ?_⟩
    · change isAbs (P ++ z') = false
      rw [← hP]; rfl
    · change NoClimb (splitC '/' (P ++ z'))
      rw [hsegs]
      refine noClimb_two hd he ?_
      rw [h1]
      cases A with
      | nil => exact Nat.le_trans (List.countP_le_length) (by simp)
      | cons a A =>
        rw [List.cons_append, List.countP_cons, List.countP_append]
        have h0 : A.countP (· = cs!"..") = 0 := countP_zero_of fun s hs => by
          refine hz a (A ++ (x ++ y) :: B) h3 s (List.mem_append_left _ hs)
        have h4 : [x].countP (· = cs!"..") ≤ 1 := List.countP_le_length
        rw [h0]
        split <;> omega
    · change getTargetKind (P ++ z') = .relative
      have : P ++ z' = cs!"./" ++ (d ++ cs!"/" ++ e ++ cs!"/" ++ z') := by rw [← hP]; simp
      rw [this]
      exact getTargetKind_dotSlash _
  · suffices hfin : NoUp w by
      rw [← hw] at hfin
      exact hfin
    intro s hs
    rw [h2] at hs
    rcases List.mem_cons.1 hs with rfl | hs
    · rcases hstart with rfl | ⟨c, w, rfl, hq⟩
      · obtain ⟨rfl, -⟩ := List.cons.inj (h2 : [[]] = _); decide
      · obtain ⟨hd', tl, -, h6⟩ := splitC_cons_ne (c := '/') w (x := c) (by rcases hq with rfl | rfl <;> decide)
        rw [h6] at h2
        obtain ⟨rfl, -⟩ := List.cons.inj h2
        rcases hq with rfl | rfl <;> simp
    · cases A with
      | nil => exact hz (x ++ y) B h3 s hs
      | cons a A => exact hz a (A ++ (x ++ y) :: B) h3 s (by simp [hs])

theorem replaceChar_noop {t : Str} (h : '*' ∉ t) (x : Str) : replaceChar t '*' x = t := by
  induction t with
  | nil => rfl
  | cons c t ih =>
    have hcons : replaceChar (c :: t) '*' x = (if c = '*' then x else [c]) ++ replaceChar t '*' x := rfl
    rw [hcons, if_neg (by rintro rfl; exact h (by simp)), ih (fun hm => h (List.mem_cons_of_mem _ hm))]
    rfl

theorem replaceChar_append (s t : Str) (c : Char) (x : Str) :
    replaceChar (s ++ t) c x = replaceChar s c x ++ replaceChar t c x := by
  simp [replaceChar]

/-- An easy target, filled in with a part of a key without steps up. -/
theorem EasyTarget.fits {k : FieldKind} {t s : Str} (h : EasyTarget t) {rem : Option Str} {sub : Bool}
    (hr : ∀ x, rem = some x → TailUp x) (hs : targetMapping k rem sub t = .ok s) : Fits (parseRequest s) := by
  have hfolder : ∀ f, assertTarget k t true = .ok f → f = endsWithC t '/' := by
    intro f hf
    unfold assertTarget at hf
    cases he : endsWithC t '/' <;> cases k <;> simp only [he] at hf <;> (repeat' split at hf) <;> simp_all
  unfold targetMapping at hs
  split at hs
  · cases hs
  · rename_i f hf
    have hf := hfolder f hf
    cases h with
    | plain h1 h2 h3 =>
      have : f = false := by rw [hf]; simpa [endsWithC] using h2
      subst this
      split at hs
      · split at hs <;> first | cases hs | skip
        · rename_i hx; cases hx
        · rw [replaceChar_noop h1]; exact h3
      · cases hs; exact h3
    | star d e v h1 h2 h3 h4 h5 =>
      have hv : '/' ∉ v := fun hm => h4 '/' (by decide) (List.mem_append_right _ hm)
      have h4' : ∀ c ∈ cs!"/*?#", c ∉ d ++ e := fun c hc hm => h4 c hc (List.mem_append_left _ hm)
      have : f = false := by
        rw [hf, h1]
        cases v with
        | nil =>
          unfold endsWithC
          rw [List.append_nil, List.getLast?_append]
          rfl
        | cons c v =>
          cases hend : endsWithC (c :: v) '/' with
          | false =>
            rw [← hend]
            unfold endsWithC
            rw [List.getLast?_append]
            cases hl : (c :: v).getLast? with
            | none => simp at hl
            | some x => rfl
          | true =>
            have : (c :: v).getLast? = some '/' := by simpa [endsWithC] using hend
            exact absurd (List.mem_of_getLast? this) hv
      subst this
      split at hs
      · rename_i x
        split at hs <;> first | cases hs | skip
        · rename_i hx; cases hx
        · have hP : replaceChar (cs!"./" ++ d ++ cs!"/" ++ e ++ cs!"/*" ++ v) '*' (replaceChar x '$' cs!"$$") =
              cs!"./" ++ d ++ cs!"/" ++ e ++ cs!"/" ++ (replaceChar x '$' cs!"$$" ++ v) := by
            have hstar : ∀ {w : Str}, w ⊆ d ++ e ++ v → ∀ y, replaceChar w '*' y = w := fun hw y =>
              replaceChar_noop (fun hm => h4 '*' (by decide) (hw hm)) y
            simp only [replaceChar_append]
            rw [hstar (w := d) (by simp), hstar (w := e) (by simp), hstar (w := v) (by simp)]
            simp [replaceChar]
          rw [h1, hP]
          exact fits_deep h2 h3 h4' (tailUp_append (tailUp_dollar (hr x rfl)) hv h5)
      · cases hs
        rw [h1]
        have : cs!"./" ++ d ++ cs!"/" ++ e ++ cs!"/*" ++ v = cs!"./" ++ d ++ cs!"/" ++ e ++ cs!"/" ++ ('*' :: v) := by
          simp
        rw [this]
        exact fits_deep h2 h3 h4' (tailUp_noSlash (by simp [hv]))
    | folder d e h1 h2 h3 h4 =>
      have : f = true := by
        unfold endsWithC at hf
        rw [hf, h1, List.getLast?_append]
        rfl
      subst this
      split at hs
      · rename_i x
        split at hs <;> first | cases hs | skip
        · rw [h1]
          exact fits_deep h2 h3 h4 (hr x rfl)
        · rename_i hx; cases hx
      · cases hs

/-- The text that is filled in is the end of the key. -/
theorem fieldProcess_suffix {H : Str → Prop} {k : FieldKind} {root : Node} (hr : root.Vals (MV.Of H)) {key : Str}
    {names l : List Str} (h : fieldProcess k root key names = some (.ok l)) : ∀ s ∈ l, ∃ t rem sub, H t ∧
      targetMapping k rem sub t = .ok s ∧ ∀ x, rem = some x → x <:+ key := by
  unfold fieldProcess at h
  cases ha : assertRequest k key with
  | error e => rw [ha] at h; cases h
  | ok req =>
    rw [ha] at h
    have hreq : req <:+ key := by
      unfold assertRequest at ha
      cases k <;> simp only at ha <;> (repeat' split at ha) <;> cases ha <;>
        first | exact List.nil_suffix | exact List.drop_suffix ..
    simp only at h
    cases hm : findMatch root req with
    | none => rw [hm] at h; cases h; nofun
    | some mi =>
      obtain ⟨m, idx⟩ := mi
      rw [hm] at h
      simp only at h
      obtain ⟨hw, hH⟩ : m.Of H := findMatch_ok hr req m idx hm
      obtain ⟨r, h1, h2⟩ := (mapping_spec k (if idx = (req.length : Int) + 1 then none
        else if idx < 0 then some (req.drop (idx.natAbs - 1)) else some (req.drop idx.toNat))
        (decide (idx < 0)) names (m.size + 1)).1 m hw (by omega)
      rw [h1] at h
      cases h
      intro s hs
      obtain ⟨t, ht, h⟩ := outputs_strings h2 rfl s hs
      refine ⟨t, _, _, hH t ht, h, fun x hx => ?_⟩
      split at hx
      · cases hx
      · split at hx <;> cases hx <;> exact (List.drop_suffix ..).trans hreq

theorem fits_of_easy {k : FieldKind} {v : Json} {tree : Node} {key : Str} {names l : List Str}
    (hv : ∀ t ∈ v.strings, EasyTarget t) (ht : buildTree k v = some (.ok tree)) (hk : NoUp key)
    (h : fieldProcess k tree key names = some (.ok l)) : ∀ t ∈ l, Fits (parseRequest t) := by
  intro s hs
  obtain ⟨t, rem, sub, h1, h2, h3⟩ := fieldProcess_suffix (buildTree_vals hv ht) h s hs
  exact h1.fits (fun x hx => tailUp_suffix hk (h3 x hx)) h2

theorem selfContained_of_easy {o : Opts} {fs : Fs} {a : List Str}
    (h : ∀ json, Describes o fs a json → EasyDoc o json) : SelfContained o fs a where
  main json hj := (h json hj).main
  browser hb json hj := (h json hj).browser hb
  exports json hj v _ _ _ hv ht hk hf t htl _ := fits_of_easy ((h json hj).exports v hv) ht hk hf t htl
  imports json hj v _ _ _ hv ht hk hf := fits_of_easy ((h json hj).imports v hv) ht hk hf

end Verif
