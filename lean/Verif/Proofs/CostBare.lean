import Verif.Spec.CostBare
import Verif.Proofs.CostPath
import Verif.Proofs.HaltsCall
/-!
# The number of steps of requests that lead into packages
-/

namespace Verif

/-! ## Lengths -/

theorem condStrings_ainsert (k : Str) (v : MV) (l : List (Str × MV)) :
    (condStrings (ainsert k v l)).length ≤ (condStrings l).length + v.strings.length := by
  induction l with
  | nil => simp [ainsert, condStrings]
  | cons x l ih =>
    obtain ⟨k', v'⟩ := x
    simp only [ainsert]
    split
    · simp only [condStrings, List.length_append]; omega
    · simp only [condStrings, List.length_append]; omega

mutual
theorem fromJson_count : ∀ (j : Json) (v : MV), fromJson j = some v → v.strings.length ≤ j.strings.length
  | .str s, v, h => by cases h; exact Nat.le_refl _
  | .arr l, v, h => by
    simp only [fromJson, Option.map_eq_some_iff] at h
    obtain ⟨r, hr, rfl⟩ := h
    exact fromJsonArr_count l r hr
  | .obj l, v, h => by
    simp only [fromJson, Option.map_eq_some_iff] at h
    obtain ⟨r, hr, rfl⟩ := h
    have := fromJsonObj_count l [] r hr
    simpa [MV.strings, Json.strings, condStrings] using this
  | .null, v, h => by simp [fromJson] at h
  | .bool b, v, h => by simp [fromJson] at h
  | .num n, v, h => by simp [fromJson] at h
theorem fromJsonArr_count : ∀ (l : List Json) (r : List MV), fromJsonArr l = some r →
    (itemStrings r).length ≤ (arrStrings l).length
  | [], r, h => by simp [fromJsonArr] at h; subst h; exact Nat.le_refl _
  | j :: l, r, h => by
    unfold fromJsonArr at h
    cases hj : fromJson j with
    | none => rw [hj] at h; cases h
    | some v =>
      rw [hj] at h
      have key : ∀ r', fromJsonArr l = some r' → r = v :: r' →
          (itemStrings r).length ≤ (arrStrings (j :: l)).length := by
        rintro r' hr' rfl
        have h1 := fromJson_count j v hj
        have h2 := fromJsonArr_count l r' hr'
        simp only [itemStrings, arrStrings, List.length_append]
        omega
      cases v with
      | arr _ => cases h
      | direct s =>
        simp only [Option.map_eq_some_iff] at h
        obtain ⟨r', hr', e⟩ := h
        exact key r' hr' e.symm
      | cond s =>
        simp only [Option.map_eq_some_iff] at h
        obtain ⟨r', hr', e⟩ := h
        exact key r' hr' e.symm
theorem fromJsonObj_count : ∀ (l : List (Str × Json)) (acc r : List (Str × MV)),
    fromJsonObj l acc = some r → (condStrings r).length ≤ (objStrings l).length + (condStrings acc).length
  | [], acc, r, h => by simp [fromJsonObj] at h; subst h; exact Nat.le_add_left ..
  | (k, j) :: l, acc, r, h => by
    unfold fromJsonObj at h
    cases hj : fromJson j with
    | none => rw [hj] at h; cases h
    | some v =>
      rw [hj] at h
      have h1 := fromJson_count j v hj
      have h2 := fromJsonObj_count l _ r h
      have h3 := condStrings_ainsert k v acc
      simp only [objStrings, List.length_append]
      omega
end

theorem condStrings_mem {m : List (Str × MV)} {kv : Str × MV} (h : kv ∈ m) :
    kv.2.strings.length ≤ (condStrings m).length := by
  induction m with
  | nil => cases h
  | cons x m ih =>
    obtain ⟨k, v⟩ := x
    simp only [condStrings, List.length_append]
    rcases List.mem_cons.1 h with rfl | h
    · exact Nat.le_add_right ..
    · exact Nat.le_trans (ih h) (Nat.le_add_left ..)

/-- A value with few targets, none of which names an import. -/
def MV.Few (E : Nat) (v : MV) : Prop := v.Of NotHash ∧ v.strings.length ≤ E

theorem few_cond {E : Nat} {m : List (Str × MV)} (h : (MV.cond m).Few E) : ∀ kv ∈ m, kv.2.Few E :=
  fun kv hk => ⟨of_cond h.1 kv hk, Nat.le_trans (condStrings_mem hk) h.2⟩

theorem buildTree_few {E : Nat} {k : FieldKind} {j : Json} {root : Node}
    (hj : j.strings.length ≤ E ∧ ∀ t ∈ j.strings, NotHash t) (h : buildTree k j = some (.ok root)) :
    root.Vals (MV.Few E) := by
  unfold buildTree at h
  cases hf : fromJson j with
  | none => rw [hf] at h; cases h
  | some v =>
    rw [hf] at h
    have hv : v.Few E := ⟨⟨fromJson_wf j v hf, fun t ht => hj.2 t (fromJson_strings j v hf t ht)⟩,
      Nat.le_trans (fromJson_count j v hf) hj.1⟩
    cases k with
    | exports =>
      simp only [Option.some.injEq] at h
      unfold buildExportsMV at h
      split at h
      · rename_i m
        simp only at h
        split at h
        · cases h
        · split at h
          · cases h; exact vals_root hv
          · exact buildExportsLoop_vals (few_cond hv) vals_empty h
      · cases h; exact vals_root hv
      · cases h; exact vals_root hv
    | imports =>
      simp only at h
      split at h
      · simp only [Option.some.injEq] at h
        exact buildImportsLoop_vals (few_cond hv) vals_empty h
      · cases h

theorem scan_count {cond : Str → Prop} {m : List (Str × MV)} {v : MV} (h : Scan cond m (.found v)) :
    v.strings.length ≤ (condStrings m).length := by
  generalize hr : CondResult.found v = r at h
  induction h with
  | nil => cases hr
  | bad => cases hr
  | skip _ _ _ ih => exact Nat.le_trans (ih hr) (by simp [condStrings])
  | leaf => cases hr; simp [condStrings]
  | into _ _ _ ih => exact Nat.le_trans (ih hr) (by simp [condStrings, MV.strings])
  | back _ _ _ _ ih => exact Nat.le_trans (ih hr) (by simp [condStrings])

theorem outputs_count {cond : Str → Prop} {f : Str → Except Err Str} {v : MV}
    {r : Except Err (List Str)} (h : Outputs cond f v r) {l : List Str} (hl : r = .ok l) :
    l.length ≤ v.strings.length := by
  induction h generalizing l with
  | direct => cases hl; exact Nat.le_refl _
  | directErr => cases hl
  | noMatch => cases hl; exact Nat.zero_le _
  | badDefault => cases hl
  | found hs _ ih => exact Nat.le_trans (ih hl) (scan_count hs)
  | nil => cases hl; exact Nat.zero_le _
  | cons _ _ ih1 ih2 =>
    cases hl
    have h1 := ih1 rfl
    have h2 := ih2 rfl
    simp only [MV.strings, itemStrings, List.length_append] at h1 h2 ⊢
    omega
  | err => cases hl
  | errTail => cases hl

/-- A lookup gives no more targets than there are. -/
theorem fieldProcess_count {k : FieldKind} {root : Node} {E : Nat} (hr : root.Vals (MV.Few E)) (target : Str)
    (names : List Str) {l : List Str} (h : fieldProcess k root target names = some (.ok l)) : l.length ≤ E := by
  unfold fieldProcess at h
  cases ha : assertRequest k target with
  | error e => rw [ha] at h; cases h
  | ok req =>
    rw [ha] at h
    simp only at h
    cases hm : findMatch root req with
    | none => rw [hm] at h; cases h; exact Nat.zero_le _
    | some mi =>
      obtain ⟨m, idx⟩ := mi
      rw [hm] at h
      simp only at h
      obtain ⟨⟨hw, -⟩, hE⟩ : m.Few E := findMatch_ok hr req m idx hm
      obtain ⟨r, h1, h2⟩ := (mapping_spec k (if idx = (req.length : Int) + 1 then none
        else if idx < 0 then some (req.drop (idx.natAbs - 1)) else some (req.drop idx.toNat))
        (decide (idx < 0)) names (m.size + 1)).1 m hw (by omega)
      rw [h1] at h
      cases h
      exact Nat.le_trans (outputs_count h2 rfl) hE

theorem vals_few_of {E : Nat} {root : Node} (h : root.Vals (MV.Few E)) : root.Vals (MV.Of NotHash) :=
  fun q => ⟨fun v hv => ((h q).1 v hv).1, fun kv hk => ((h q).2.1 kv hk).1, fun kv hk => ((h q).2.2 kv hk).1⟩

/-! ## Depths -/

theorem body_length (l : List Comp) : (body l).length ≤ l.length := by
  unfold body
  split
  · exact Nat.le_succ _
  · exact Nat.le_refl _

theorem depth_pjoin {p : Str} (ha : isAbs p = true) (q : Str) : depth (pjoin p q) ≤ depth p + depth q := by
  cases hq : isAbs q with
  | true => unfold pjoin; rw [if_pos hq]; exact Nat.le_add_left ..
  | false =>
    unfold depth
    rw [comps_pjoin (by rintro rfl; cases ha) hq, List.length_append]
    exact Nat.add_le_add_left (body_length _) _

theorem comps_pjoin_here {p t : Str} (hp : p ≠ []) (ht : isAbs t = false) :
    comps (pjoin p (cs!"./" ++ t)) = comps (pjoin p t) := by
  rw [comps_pjoin hp (by rfl), comps_pjoin hp ht, body_comps_rel (by rintro r h; cases h), body_comps_rel]
  · congr 1
  · rintro r rfl
    cases ht

end Verif

namespace Verif.Live

section
variable {α : Type} {A : (q : Query) → q.Ret → Prop} {G : Op → Prop} {R : (o : Op) → o.Ret → Prop}
  {K C : Crash → Prop} {Q : α → Nat → Prop}

theorem Bound.sat {P : α → Prop} {p : Live α} {n : Nat} (h : Bound A R K Q p n) (h' : p.Sat A G R C P) :
    Bound A R K (fun a k => P a ∧ Q a k) p n := by
  induction p generalizing n with
  | ret a => exact ⟨h', h⟩
  | crash c => exact h
  | ask q k ih =>
    obtain ⟨m, rfl, h⟩ := h
    exact ⟨m, rfl, fun r hr => ih r (h r hr) (h' r hr)⟩
  | op o k ih =>
    obtain ⟨m, rfl, h⟩ := h
    exact ⟨m, rfl, fun r hr => ih r (h r hr) (h'.2 r hr)⟩

end

/-- The files when the call is in progress: `W`; before, too: `V`. -/
structure Course (o : Opts) (V W : Fs → Prop) (D F : Str → Bool) (E R d : Nat) : Prop where
  sub : ∀ fs, W fs → V fs
  layout : ∀ fs, W fs → Layout o.descriptionFile D F fs
  up : ∀ p q, isAbs p = true → D p = true → pparent p = some q → D q = true
  lawful : ∀ fs, W fs → fs.Lawful
  modest : Modest o V E R d
  browser : o.browserField = false

section
variable {h : Host} {V W : Fs → Prop} {D F : Str → Bool} {E R d : Nat} {K : Crash → Prop}

/-- Within so many steps, with a value as in `Q` and `n` steps left. -/
local notation "Bd[" V ", " W ", " K "]" => Bound (Among W) (HaltR V) K

theorem isDir_is (hs : Course h.opts V W D F E R d) {p : Str} {b : Bool} (hp : isAbs p = true)
    (hb : Among W (.isDir p) b) : b = D p := by
  obtain ⟨fs, h1, h2⟩ := hb
  rw [← h2]
  exact (hs.layout fs h1).isDir p hp

theorem load_steps (hK : ∀ s, K (.panic s)) (hs : Course h.opts V W D F E R d) {path : Str} (ha : isAbs path = true)
    {N : Nat} (hd : depth path ≤ N) (n : Nat) :
    Bd[V, W, K] (fun r k => (∀ pkg, r = .ok pkg → KnownPkg V pkg) ∧ n ≤ k) (loadPkg h path) (5 * N + 18 + n) := by
  have h1 : Bd[V, W, K] (fun _ _ => True) (loadPkg h path) (5 * depth path + 18) :=
    loadPkgAux_bound hK (fun p b hp hb => isDir_is hs hp hb) (fun name p b hname hp ⟨fs, h1, h2⟩ => by
      rw [← h2]; exact (hs.layout fs h1).isFile p name hname hp) hs.up _ _ ha
      (Nat.le_trans (depth_le ha) (Nat.le_add_right ..)) _ (Nat.le_refl _)
  have h2 := ((load_hist (h := h) (F := V) path).both (load_at path)).loosen
    (A' := Among W) (G' := HaltG V) (R' := HaltR V) (C' := fun _ => True)
    (fun q r ⟨fs, h3, h4⟩ => ⟨fs, hs.sub fs h3, h4⟩) (fun _ h => h) (fun _ _ h => h) (fun _ _ => trivial)
  refine ((h1.more n).sat h2).weaken (by omega) fun r m m' hr hm => ⟨fun pkg hp p hpkg => ?_, Nat.le_trans hr.2 hm⟩
  subst hpkg
  obtain ⟨⟨h3, h4⟩, -⟩ := hr
  exact ⟨(h3 p hp).2, (h4 p hp).2, (h4 p hp).1.2.trans ha⟩

/-- Where the search in a directory leaves off. -/
def LeavesAt (info : Info) : Stats → Prop
  | .success _ => True
  | .resolving i => i.path = info.getPath ∧ i.request.target = [] ∧ i.request.kind = .relative
  | .error _ i => i = info

theorem mainFieldLoop_steps (hs : Course h.opts V W D F E R d) {pkg : Pkg} (info : Info)
    {asDir : Info → Live Stats} {l : List Str} {cur : Info} (hc : Abs cur) {C fuel : Nat}
    (hd : ∀ i : Info, Abs i → Tries h.opts pkg l cur.path i.getPath → ∀ n,
      Bd[V, W, K] (fun s k => LeavesAt i s ∧ n ≤ k) (asDir i) (C + n)) (n : Nat) :
    Bd[V, W, K] (fun s k => SameInfo info s ∧ n ≤ k) (mainFieldLoop h fuel asDir pkg info l cur)
      (l.length * (h.opts.extensions.length + 1 + C) + n) := by
  induction l generalizing cur with
  | nil => exact ⟨Eq.refl info, Nat.le_add_left ..⟩
  | cons f l ih =>
    have hmono : Bd[V, W, K] (fun s k => SameInfo info s ∧ n ≤ k) (.ret (.resolving info))
        ((f :: l).length * (h.opts.extensions.length + 1 + C) + n) := ⟨Eq.refl info, Nat.le_add_left ..⟩
    have hlen : (f :: l).length * (h.opts.extensions.length + 1 + C) + n =
        h.opts.extensions.length + 1 + (C + (l.length * (h.opts.extensions.length + 1 + C) + n)) := by
      rw [List.length_cons, Nat.add_mul]; omega
    simp only [mainFieldLoop]
    cases hm : (pkg.raw.get f).bind Json.asStr with
    | none =>
      refine (ih hc fun i ha hi => hd i ha (.next (fun m h => ?_) (.inl rfl) hi)).mono (by omega)
        fun _ _ _ h1 h2 => ⟨h2.1, Nat.le_trans h2.2 h1⟩
      rw [h] at hm
      cases hm
    | some m =>
      have hm' : pkg.raw.get f = some (.str m) := by
        cases hg : pkg.raw.get f with
        | none => rw [hg] at hm; cases hm
        | some v =>
          rw [hg] at hm
          cases v <;> cases hm
          rfl
      simp only
      split
      · exact hmono
      · rename_i hself
        have hself : ¬ SelfValue m := fun h => hself (by simpa [SelfValue] using h)
        have hself' : ∀ m, pkg.raw.get f = some (.str m) → ¬ SelfValue m := by
          intro m' h
          rw [hm'] at h
          cases h
          exact hself
        rw [startsWith_dotted]
        have ha : Abs (cur.withTarget (dotted m)) := hc
        have lead : Leads h.opts pkg cur.path m (cur.withTarget (dotted m)).getPath := .inl (getPath_dotted cur m)
        have hpath : (cur.withTarget (dotted m)).path = cur.path := rfl
        generalize cur.withTarget (dotted m) = i at ha lead hpath ⊢
        have h2 : Live.aliasFieldPlugin h fuel (some pkg) i = .ret (.resolving i) := by
          unfold Live.aliasFieldPlugin Verif.aliasFieldPlugin
          dsimp only
          rw [hs.browser]
          rfl
        rw [h2, hlen]
        simp only [Live.bind, andThen]
        refine Bound.then (Q := fun s k => (∀ j, (s = .resolving j ∨ ∃ e, s = .error e j) → Abs j ∧ (j.path = cur.path ∨
          Leads h.opts pkg cur.path m j.path)) ∧ l.length * (h.opts.extensions.length + 1 + C) + n ≤ k) ?_
          fun s k hs' => ?_
        · refine (resolveAsFile_bound _ _).then fun s k hs' => ?_
          obtain ⟨h3, h4⟩ := hs'
          cases s with
          | success r => exact ⟨fun j hj => (by rcases hj with hj | ⟨e, hj⟩ <;> cases hj), Nat.le_trans (by omega) h4⟩
          | error e j => exact h3.elim
          | resolving j =>
            cases (h3 : j = _)
            refine (hd i ha (.here hm' hself lead) _).weaken h4 fun s k k' hs' hk => ⟨fun j hj => ?_,
              Nat.le_trans hs'.2 hk⟩
            rcases hj with rfl | ⟨e, rfl⟩
            · have hj : j.path = i.getPath := hs'.1.1
              exact ⟨by unfold Abs; rw [hj]; exact getPath_abs ha, .inr (hj ▸ lead)⟩
            · have hj : j = i := hs'.1
              exact hj ▸ ⟨ha, .inl hpath⟩
        · have go : ∀ j, (s = .resolving j ∨ ∃ e, s = .error e j) → Bd[V, W, K] (fun s k => SameInfo info s ∧ n ≤ k)
              (mainFieldLoop h fuel asDir pkg info l j) k := by
            intro j hj
            obtain ⟨h3, h4⟩ := hs'.1 j hj
            refine (ih h3 fun x hx ht => hd x hx (.next hself' ?_ ht)).mono hs'.2
              fun _ _ _ h1 h2 => ⟨h2.1, Nat.le_trans h2.2 h1⟩
            rcases h4 with h4 | h4
            · exact .inl h4
            · exact .inr (.inr ⟨m, hm', h4⟩)
          cases s with
          | success r => exact ⟨trivial, Nat.le_trans (Nat.le_add_left ..) hs'.2⟩
          | resolving j => exact go j (.inl rfl)
          | error e j => exact go j (.inr ⟨e, rfl⟩)

/-- Steps in a directory, for the options. -/
abbrev stepsIn (o : Opts) (N r : Nat) : Nat :=
  dirSteps (5 * N + 18) o.extensions.length o.mainFields.length o.mainFiles.length r

theorem stepsIn_pos (o : Opts) (N r : Nat) : 1 ≤ stepsIn o N r := by
  unfold stepsIn
  cases r with
  | zero => exact Nat.le_refl _
  | succ r => unfold dirSteps; omega

theorem resolveAsDir_steps (hK : ∀ s, K (.panic s)) (hs : Course h.opts V W D F E R d) {rank : Str → Nat}
    (hrank : ∀ p' p, MainStepAmong h.opts V p' p → rank p' < rank p ∧ depth p' ≤ depth p + d) {N : Nat}
    (r : Nat) {info : Info} (ha : Abs info)
    (hr : D info.getPath = false ∨ rank info.getPath < r ∧ depth info.getPath + rank info.getPath * d ≤ N)
    {fuel : Nat} (hfuel : r + 1 ≤ fuel) (n : Nat) :
    Bd[V, W, K] (fun s k => LeavesAt info s ∧ n ≤ k) (resolveAsDir h fuel info) (stepsIn h.opts N r + n) := by
  induction r generalizing info fuel n with
  | zero =>
    have hr : D info.getPath = false := hr.elim id fun h => by omega
    obtain ⟨fuel, rfl⟩ : ∃ m, fuel = m + 1 := ⟨fuel - 1, by omega⟩
    rw [show stepsIn h.opts N 0 + n = n + 1 by unfold stepsIn dirSteps; omega]
    unfold resolveAsDir
    dsimp only
    refine .isDir fun b hb => ?_
    cases (isDir_is hs (getPath_abs ha) hb).trans hr
    exact ⟨rfl, Nat.le_refl _⟩
  | succ r ih =>
    obtain ⟨fuel, rfl⟩ : ∃ m, fuel = m + 1 := ⟨fuel - 1, by omega⟩
    have hlen : stepsIn h.opts N (r + 1) + n = 5 * N + 18 + (h.opts.mainFields.length *
        (h.opts.extensions.length + 1 + stepsIn h.opts N r) +
          (h.opts.mainFiles.length * (h.opts.extensions.length + 1) + n)) + 1 := by
      unfold stepsIn
      rw [dirSteps]
      omega
    rw [hlen]
    unfold resolveAsDir
    dsimp only
    refine .isDir fun b hb => ?_
    obtain ⟨fs, hfs, -⟩ := id hb
    have hb := isDir_is hs (getPath_abs ha) hb
    split
    · exact ⟨rfl, by omega⟩
    · rename_i hdir
      have hdir : D info.getPath = true := by rw [← hb]; cases b <;> simp_all
      obtain ⟨hr1, hr2⟩ : rank info.getPath < r + 1 ∧ depth info.getPath + rank info.getPath * d ≤ N :=
        hr.elim (fun h => by rw [hdir] at h; cases h) id
      refine (load_steps hK hs (getPath_abs ha) (Nat.le_trans (Nat.le_add_right ..) hr2) _).then fun a k hk => ?_
      cases a with
      | error e => exact ⟨rfl, Nat.le_trans (by omega) hk.2⟩
      | ok pkg =>
        have hp : KnownPkg V pkg := hk.1 pkg rfl
        dsimp only
        have hi' : Abs ((info.withPath info.getPath).withTarget []) := getPath_abs ha
        refine Bound.then (Q := fun s k => SameInfo ((info.withPath info.getPath).withTarget []) s ∧
          h.opts.mainFiles.length * (h.opts.extensions.length + 1) + n ≤ k) ?_ fun s k hs' => ?_
        · have skip : Bd[V, W, K] (fun s k => SameInfo ((info.withPath info.getPath).withTarget []) s ∧
              h.opts.mainFiles.length * (h.opts.extensions.length + 1) + n ≤ k)
              (.ret (.resolving ((info.withPath info.getPath).withTarget []))) k := ⟨Eq.refl _, Nat.le_trans (by omega) hk.2⟩
          unfold mainFieldPlugin
          cases pkg with
          | none => exact skip
          | some pkg =>
            simp only
            split
            · exact skip
            · rename_i hq
              have hc : comps info.getPath = comps pkg.absDir := by
                simpa [pathEq, Info.withPath, Info.withTarget] using hq
              refine (mainFieldLoop_steps (l := h.opts.mainFields) hs _ hi'
                (C := stepsIn h.opts N r) (fun i hi ht n => ?_) _).mono hk.2
                fun _ _ _ h1 h2 => ⟨h2.1, Nat.le_trans h2.2 h1⟩
              refine ih hi ?_ (by omega) n
              cases hDi : D i.getPath with
              | false => exact .inl rfl
              | true =>
                refine .inr ?_
                have := hrank i.getPath info.getPath ⟨⟨fs, hs.sub fs hfs, by
                  rw [(hs.layout fs hfs).isDir _ (getPath_abs hi), hDi]⟩, pkg, (hp pkg rfl).among, hc, ht⟩
                refine ⟨by omega, ?_⟩
                have h1 : (rank i.getPath + 1) * d ≤ rank info.getPath * d := Nat.mul_le_mul_right d this.1
                rw [Nat.succ_mul] at h1
                omega
        · cases s with
          | success r => exact ⟨trivial, Nat.le_trans (by omega) hs'.2⟩
          | error e i => exact hs'.1.elim
          | resolving i =>
            cases (hs'.1 : i = _)
            refine (mainFileLoop_bound hs.browser (by omega) _ _ _ _ n).weaken hs'.2
              fun s k k' hk hle => ⟨?_, Nat.le_trans hk.2 hle⟩
            cases s with
            | success r => trivial
            | error e i => exact hk.1.elim
            | resolving i => rw [show i = _ from hk.1]; exact ⟨rfl, rfl, rfl⟩

theorem exportsPick_steps (dir : Str) (l : List Str) (n : Nat) :
    Bd[V, W, K] (fun r k => (∀ i, r = some i → i.request.kind = getTargetKind i.request.target ∧
      ∃ fs, W fs ∧ fs.isFile i.getPath = true) ∧ n ≤ k) (exportsPick dir l) (l.length + n) := by
  induction l with
  | nil => exact ⟨nofun, by simp⟩
  | cons x l ih =>
    unfold exportsPick
    dsimp only
    rw [show (x :: l).length + n = (l.length + n) + 1 by simp; omega]
    refine .isFile fun b hb => ?_
    split
    · rename_i hc
      refine ⟨?_, by omega⟩
      rintro i hi
      cases hi
      obtain ⟨fs, h1, h2⟩ := hb
      exact ⟨rfl, fs, h1, Eq.trans h2 ((Bool.and_eq_true _ _).mp hc).1⟩
    · exact ih

/-- What comes after the exports of a package. -/
def AfterExports (W : Fs → Prop) (info : Info) : Stats → Prop
  | .success _ => False
  | .error _ _ => True
  | .resolving i => i = info ∨ Abs i ∧ HashFree i ∧ i.request.kind = getTargetKind i.request.target ∧
      ∃ fs, W fs ∧ fs.isFile i.getPath = true

theorem exportsPlugin_steps (hK : ∀ s, K (.panic s)) (hs : Course h.opts V W D F E R d) {pkg : Option Pkg}
    (hp : KnownPkg V pkg) (info : Info) (n : Nat) :
    Bd[V, W, K] (fun s k => AfterExports W info s ∧ n ≤ k) (exportsPlugin h pkg info) (E + 1 + n) := by
  have same : Bd[V, W, K] (fun s k => AfterExports W info s ∧ n ≤ k) (.ret (.resolving info)) (E + 1 + n) :=
    ⟨.inl rfl, by omega⟩
  unfold exportsPlugin
  cases pkg with
  | none => exact same
  | some pkg =>
    simp only
    split
    · exact same
    · split
      · exact same
      · cases hr : pkg.exportsTree with
        | none => exact same
        | some root =>
          simp only
          have hv : root.Vals (MV.Few E) := by
            obtain ⟨v, k, ⟨fs, h1, h2⟩ | ⟨fs, h1, h2⟩, h3⟩ := (hp pkg rfl).origin.exports root hr
            · exact buildTree_few (hs.modest.targets fs v h1 (.inl h2)) h3
            · exact buildTree_few (hs.modest.targets fs v h1 (.inr h2)) h3
          rw [show E + 1 + n = (E + n) + 1 by omega]
          refine Bound.then (Q := fun _ k => E + n ≤ k) ?_ fun a k hk => ?_
          · unfold exportsRequestOf
            simp only
            split
            · exact hK _
            · split
              · exact Nat.le_succ _
              · refine ⟨E + n, rfl, fun r _ => ?_⟩
                show Bound _ _ _ _ (if _ then _ else _) _
                split <;> exact Nat.le_refl _
          · cases a with
            | none => exact ⟨trivial, by omega⟩
            | some remaining =>
              simp only
              obtain ⟨r, h1, h2⟩ := fieldProcess_items (k := .exports) (vals_few_of hv) remaining h.opts.conditionNames
              rw [h1]
              cases r with
              | error e => exact ⟨trivial, by omega⟩
              | ok l =>
                simp only
                have hlen := fieldProcess_count hv remaining h.opts.conditionNames h1
                refine (((exportsPick_steps (V := V) (W := W) (K := K) pkg.absDir l n).sat (G := fun _ => True)
                  (C := fun _ => True) (exportsPick_free fun s hs => ?_)).mono (by omega)
                  fun _ _ _ h1 h2 => ⟨h2.1, h2.2.1, Nat.le_trans h2.2.2 h1⟩).then fun r k hr => ?_
                · obtain ⟨t, rem, sub, ht, h3⟩ := h2 l rfl s hs
                  exact parse_notHash (targetMapping_notHash ht h3.1)
                · cases r with
                  | none => exact ⟨trivial, hr.2.2⟩
                  | some i =>
                    obtain ⟨h3, h4⟩ := hr.1 i rfl
                    exact ⟨.inr ⟨by unfold Abs; rw [h4]; exact (hp pkg rfl).abs, h3, hr.2.1 i rfl⟩, hr.2.2⟩

theorem importsPlugin_free {fuel : Nat} (hf : fuel ≠ 0) (pkg : Option Pkg) {i : Info} (hi : HashFree i) :
    importsPlugin h fuel pkg i = .ret (.resolving i) := by
  obtain ⟨n, rfl⟩ : ∃ n, fuel = n + 1 := ⟨fuel - 1, by omega⟩
  unfold importsPlugin
  cases pkg with
  | none => rfl
  | some pkg => dsimp only; rw [show startsWith i.request.target cs!"#" = false from hi]; rfl

theorem aliasFieldPlugin_off (hb : h.opts.browserField = false) (fuel : Nat) (pkg : Option Pkg) (i : Info) :
    Live.aliasFieldPlugin h fuel pkg i = .ret (.resolving i) := by
  unfold Live.aliasFieldPlugin Verif.aliasFieldPlugin
  dsimp only
  rw [hb]
  rfl

theorem kind_normal {t : Str} (h : getTargetKind t = .normal) :
    t ≠ [] ∧ t ≠ cs!"." ∧ isAbs t = false ∧ startsWith t cs!"#" = false := by
  unfold getTargetKind at h
  repeat' split at h
  all_goals first | (cases h; done) | skip
  all_goals
    rename_i h1 h2 h3 h4 _ _ _
    simp only [Bool.or_eq_true, decide_eq_true_eq, not_or, Bool.not_eq_true] at h2 h3 h4
    exact ⟨h1, h4.1.1.1, h3, h2⟩

/-- A request by name, or what is left of it after a package directory in which nothing was found. -/
def OnTheWay (r : Request) : Prop :=
  r.kind = .normal ∧ getTargetKind r.target = .normal ∨ r.kind = .relative ∧ r.target = []

/-- The end of a stage with `n` steps left, or a shorter request. -/
def Onward (info : Info) (s : Stats) : Prop :=
  ∀ i, s = .resolving i → OnTheWay i.request ∧ depth i.request.target ≤ depth info.request.target

theorem OnTheWay.free {r : Request} (h : OnTheWay r) : startsWith r.target cs!"#" = false ∧ isAbs r.target = false := by
  rcases h with ⟨-, h⟩ | ⟨-, h⟩
  · exact ⟨(kind_normal h).2.2.2, (kind_normal h).2.2.1⟩
  · rw [h]; exact ⟨rfl, rfl⟩

theorem modulePackageChain_steps (hK : ∀ s, K (.panic s)) (hs : Course h.opts V W D F E R d) {N : Nat}
    {pkg : Option Pkg} (hp : KnownPkg V pkg) {info : Info} (ha : Abs info) (hk : OnTheWay info.request)
    (hd : depth (pjoin info.path info.request.target) + R * d ≤ N) (hd' : depth info.path + R * d ≤ N) {fuel : Nat}
    (hfuel : R + 2 ≤ fuel) (n : Nat) :
    Bd[V, W, K] (fun s k => Onward info s ∧ n ≤ k) (modulePackageChain h fuel pkg info)
      (E + 1 + (h.opts.extensions.length + 1 + (stepsIn h.opts N (R + 1) + n))) := by
  obtain ⟨rank, hR, hrank⟩ := hs.modest.main
  have hfile : ∀ i : Info, Abs i → (∃ fs, W fs ∧ fs.isFile i.getPath = true) → D i.getPath = false := by
    rintro i hi ⟨fs, h1, h2⟩
    cases hD : D i.getPath with
    | false => rfl
    | true =>
      rw [(hs.lawful fs h1).dirNotFile _ (getPath_abs hi) (by rw [(hs.layout fs h1).isDir _ (getPath_abs hi), hD])] at h2
      cases h2
  -- the rest, once it is clear where to look
  have rest : ∀ i : Info, Abs i → (D i.getPath = false ∨ depth i.getPath + R * d ≤ N) → ∀ k,
      h.opts.extensions.length + 1 + (stepsIn h.opts N (R + 1) + n) ≤ k →
      Bd[V, W, K] (fun s k => Onward info s ∧ n ≤ k)
        ((resolveAsFile h i).bind fun s => andThen s fun i => resolveAsDir h fuel i) k := by
    intro i hi hD k hk
    refine Bound.mono ?_ hk fun _ _ _ h1 h2 => ⟨h2.1, Nat.le_trans h2.2 h1⟩
    refine (resolveAsFile_bound i _).then fun s k hs' => ?_
    obtain ⟨h3, h4⟩ := hs'
    cases s with
    | success r => exact ⟨nofun, Nat.le_trans (Nat.le_add_left ..) h4⟩
    | error e j => exact h3.elim
    | resolving j =>
      cases (h3 : j = i)
      refine (resolveAsDir_steps hK hs hrank (R + 1) hi (hD.imp id fun h =>
        ⟨Nat.lt_succ_of_le (hR _), Nat.le_trans (Nat.add_le_add_left (Nat.mul_le_mul_right d (hR _)) _) h⟩)
        hfuel n).weaken h4 fun s _ _ h1 h2 => ⟨?_, Nat.le_trans h1.2 h2⟩
      rintro i rfl
      obtain ⟨-, h5, h6⟩ := h1.1
      exact ⟨.inr ⟨h6, h5⟩, by rw [h5]; exact Nat.zero_le _⟩
  have hne : ∀ i : Info, Abs i → i.path ≠ [] := by
    rintro i hi h0
    unfold Abs at hi
    rw [h0] at hi
    cases hi
  unfold modulePackageChain
  refine (exportsPlugin_steps hK hs hp info _).then fun s k hs' => ?_
  obtain ⟨h1, h2⟩ := hs'
  cases s with
  | success r => exact h1.elim
  | error e i => exact ⟨nofun, Nat.le_trans (by omega) h2⟩
  | resolving i =>
    have hfree : HashFree i := by
      rcases h1 with rfl | ⟨-, h, -⟩
      · exact hk.free.1
      · exact h
    simp only [andThen, importsPlugin_free (by omega : fuel ≠ 0) pkg hfree, Live.bind, aliasFieldPlugin_off hs.browser]
    rcases h1 with rfl | ⟨hi, -, hik, hf⟩
    · rcases hk with ⟨hk1, hk2⟩ | ⟨hk1, hk2⟩
      · rw [if_pos hk1]
        refine rest (i.withTarget _) ha (.inr ?_) k h2
        show depth (pjoin i.path (cs!"./" ++ i.request.target)) + R * d ≤ N
        unfold depth
        rw [comps_pjoin_here (hne i ha) (kind_normal hk2).2.2.1]
        exact hd
      · rw [if_neg (by rw [hk1]; nofun)]
        refine rest i ha (.inr ?_) k h2
        unfold Info.getPath
        rw [if_pos (by simp [hk2])]
        exact hd'
    · have hD := hfile i hi hf
      split
      · rename_i hn
        refine rest (i.withTarget _) hi (.inl ?_) k h2
        obtain ⟨hn1, hn2, hn3, -⟩ := kind_normal (hik.symm.trans hn)
        obtain ⟨fs, hfs, -⟩ := hf
        have hget : i.getPath = pjoin i.path i.request.target := by
          unfold Info.getPath
          rw [if_neg (by simp [hn1, hn2])]
        have hx : isAbs (pjoin i.path (cs!"./" ++ i.request.target)) = true := isAbs_pjoin_left _ hi
        show D (pjoin i.path (cs!"./" ++ i.request.target)) = false
        rw [← (hs.layout fs hfs).isDir _ hx, (hs.lawful fs hfs).dir _ _ hx (comps_pjoin_here (hne i hi) hn3), ← hget,
          (hs.layout fs hfs).isDir _ (getPath_abs hi), hD]
      · exact rest i hi (.inl hD) k h2

/-- Steps at one directory. -/
abbrev levelSteps (o : Opts) (E R N : Nat) : Nat := 5 * N + 18 + E + o.extensions.length + 4 + stepsIn o N (R + 1)

theorem moduleStep_steps (hK : ∀ s, K (.panic s)) (hs : Course h.opts V W D F E R d) {N : Nat}
    {info : Info} (ha : Abs info) (hk : OnTheWay info.request)
    (hd : depth info.path + 1 + depth info.request.target + R * d ≤ N) {fuel : Nat} (hfuel : R + 2 ≤ fuel) (n : Nat) :
    Bd[V, W, K] (fun r k => Onward info r.1 ∧ n ≤ k) (moduleStep h fuel info) (levelSteps h.opts E R N + n) := by
  have hroot : isAbs (pjoin info.path MODULE) = true := isAbs_pjoin_left MODULE ha
  have hdepth' : depth (pjoin info.path MODULE) + R * d ≤ N := by
    have h2 := depth_pjoin ha MODULE
    have h3 : depth MODULE = 1 := by decide
    omega
  have hdepth : depth (pjoin (pjoin info.path MODULE) info.request.target) + R * d ≤ N := by
    have h1 := depth_pjoin hroot info.request.target
    have h2 := depth_pjoin ha MODULE
    have h3 : depth MODULE = 1 := by decide
    omega
  have same : Onward info (.resolving info) := by
    rintro i hi
    cases hi
    exact ⟨hk, Nat.le_refl _⟩
  unfold moduleStep
  simp only
  rw [show levelSteps h.opts E R N + n = 5 * N + 18 + (E + 1 + (h.opts.extensions.length + 1 +
    (stepsIn h.opts N (R + 1) + n)) + 1) + 1 by unfold levelSteps; omega]
  refine .isDir fun b _ => ?_
  split
  · exact ⟨same, by omega⟩
  · split
    · exact hK _
    · refine (load_steps hK hs (isAbs_pjoin_left _ hroot) (Nat.le_trans (Nat.le_add_right ..) hdepth) _).then fun a k hk' => ?_
      cases a with
      | error e => exact ⟨nofun, Nat.le_trans (by omega) hk'.2⟩
      | ok pkg =>
        simp only
        obtain ⟨k, rfl⟩ : ∃ m, k = m + 1 := ⟨k - 1, by have := hk'.2; omega⟩
        have hk2 := Nat.le_of_succ_le_succ hk'.2
        refine .isDir fun b _ => ?_
        split
        · refine ((resolveAsFile_bound ⟨pjoin info.path MODULE, info.request⟩ n).mono
            (Nat.le_trans (by omega) hk2) fun _ _ _ h1 h2 => ⟨h2.1, Nat.le_trans h2.2 h1⟩).then fun s k hs' => ?_
          split
          · exact ⟨nofun, hs'.2⟩
          · exact ⟨same, hs'.2⟩
        · refine ((modulePackageChain_steps hK hs (hk'.1 pkg rfl) (info := ⟨_, info.request⟩) hroot hk hdepth hdepth'
            hfuel n).mono hk2 fun _ _ _ h1 h2 => ⟨h2.1, Nat.le_trans h2.2 h1⟩).then fun s k hs' => ?_
          split
          · split
            · exact ⟨same, hs'.2⟩
            · exact ⟨nofun, hs'.2⟩
          · exact hs'

theorem resolveAsModules_steps (hK : ∀ s, K (.panic s)) (hs : Course h.opts V W D F E R d) {N : Nat}
    (m : Nat) {info : Info} (ha : Abs info) (hm : depth info.path = m) (hk : OnTheWay info.request)
    (hd : depth info.path + 1 + depth info.request.target + R * d ≤ N) {fuel : Nat} (hfuel : R + 2 + m ≤ fuel) (n : Nat) :
    Bd[V, W, K] (fun _ k => n ≤ k) (resolveAsModules h fuel info) (m * levelSteps h.opts E R N + n) := by
  induction m generalizing info fuel n with
  | zero => exact absurd (depth_pos ha) (by omega)
  | succ m ih =>
    obtain ⟨fuel, rfl⟩ : ∃ k, fuel = k + 1 := ⟨fuel - 1, by omega⟩
    rw [Nat.succ_mul, Nat.add_comm (m * _), Nat.add_assoc]
    unfold resolveAsModules
    refine (moduleStep_steps hK hs ha hk hd (by omega) _).then fun r k hr => ?_
    obtain ⟨s, b⟩ := r
    have hn : n ≤ k := Nat.le_trans (Nat.le_add_left ..) hr.2
    cases b with
    | true => exact hn
    | false =>
      simp only
      refine Bound.then (Q := fun _ k => n ≤ k) ?_ fun s k hs' => ?_
      · cases s with
        | success r => exact hn
        | error e i => exact hn
        | resolving i =>
          obtain ⟨h1, h2⟩ := hr.1 i rfl
          simp only [andThen]
          cases hp : pparent info.path with
          | none => exact hn
          | some parent =>
            have h3 := depth_pparent ha hp
            refine (ih (info := i.withPath parent) ((isAbs_pparent hp).trans ha) (by show depth parent = m; omega) h1 ?_
              (by omega) n).mono hr.2 fun _ _ _ h1 h2 => Nat.le_trans h2 h1
            show depth parent + 1 + depth i.request.target + R * d ≤ N
            have h2 : depth i.request.target ≤ depth info.request.target := h2
            omega
      · split <;> exact hs'

/-- The last step of a call: the path is made canonical. -/
theorem normalizeResult_steps (hK : ∀ s, K (.panic s)) {A : (q : Query) → q.Ret → Prop} {R' : (o : Op) → o.Ret → Prop}
    (r : Result) (n : Nat) : Bound A R' K (fun _ _ => True) (normalizeResult h r) (n + 1) := by
  unfold normalizeResult
  cases r with
  | ignored => trivial
  | info i =>
    dsimp only
    split
    · exact hK _
    · refine Bound.then (Q := fun _ _ => True) ?_ fun a m _ => ?_
      · unfold normalizePath
        split
        · refine ⟨n, rfl, fun r _ => ?_⟩
          cases (r : Option Str) <;> trivial
        · trivial
      · cases a <;> trivial

/-- A request by name. -/
theorem bare_steps (hK : ∀ s, K (.panic s)) (hs : Course h.opts V W D F E R d) {N : Nat}
    {path request : Str} (ha : isAbs path = true) (hp : Plain h.opts path (parseRequest request).target)
    (hk : getTargetKind (parseRequest request).target = .normal)
    (hd : depth path + 1 + depth (parseRequest request).target + R * d ≤ N) {fuel : Nat}
    (hfuel : R + 3 + depth path ≤ fuel) :
    Bd[V, W, K] (fun _ _ => True) (Live.prog h fuel (.resolve path request))
      (5 * N + 18 + depth path * levelSteps h.opts E R N + 1) := by
  obtain ⟨n, rfl⟩ : ∃ n, fuel = n + 1 := ⟨fuel - 1, by omega⟩
  have hroot : isAbs (pjoin path MODULE) = true := isAbs_pjoin_left MODULE ha
  have hdepth : depth (pjoin (pjoin path MODULE) (parseRequest request).target) + R * d ≤ N := by
    have h1 := depth_pjoin hroot (parseRequest request).target
    have h2 := depth_pjoin ha MODULE
    have h3 : depth MODULE = 1 := by decide
    omega
  have hkind : (parseRequest request).kind = .normal := hk
  have hway : OnTheWay (parseRequest request) := .inl ⟨hkind, hk⟩
  unfold Live.prog resolve resolveStats
  dsimp only
  rw [hp.tsconfig]
  dsimp only
  unfold resolveInner
  have hal : aliasPlugin h (resolveInner h n) ⟨path, parseRequest request⟩ =
      .ret (.resolving ⟨path, parseRequest request⟩) := by
    unfold aliasPlugin
    split
    · rfl
    · rename_i hc
      rcases hp.alias with h1 | h1
      · exact absurd ((containsStr_iff _ _).2 h1) hc
      · exact aliasLoop_none _ _ h1
  have hpr : preferRelativePlugin h (resolveInner h n) ⟨path, parseRequest request⟩ =
      .ret (.resolving ⟨path, parseRequest request⟩) := by
    unfold preferRelativePlugin
    split
    · rfl
    · rename_i hc
      rw [Bool.or_eq_true, startsWith_iff, startsWith_iff] at hc
      rcases hp.prefer with h1 | h1 | h1
      · rw [if_neg (by rw [h1]; decide)]
      · exact absurd (.inr h1) hc
      · exact absurd (.inl h1) hc
  rw [hal]
  simp only [Live.bind, andThen, hpr]
  have hstage : Bd[V, W, K] (fun s k => (SameInfo ⟨path, parseRequest request⟩ s ∨
      ∃ e i, s = .error e i) ∧ depth path * levelSteps h.opts E R N + 1 ≤ k) (pkgStage h n ⟨path, parseRequest request⟩)
      (5 * N + 18 + (depth path * levelSteps h.opts E R N + 1)) := by
    unfold pkgStage
    dsimp only
    rw [if_pos hkind]
    refine (load_steps hK hs (isAbs_pjoin_left _ hroot) (Nat.le_trans (Nat.le_add_right ..) hdepth) _).then fun a k hk' => ?_
    cases a with
    | error e => exact ⟨.inr ⟨_, _, rfl⟩, hk'.2⟩
    | ok pkg =>
      dsimp only
      rw [importsPlugin_free (by omega : n ≠ 0) pkg (i := ⟨path, parseRequest request⟩) hway.free.1]
      simp only [Live.bind, andThen, aliasFieldPlugin_off hs.browser]
      exact ⟨.inl rfl, hk'.2⟩
  refine Bound.then (Q := fun _ _ => True) ?_ fun _ _ _ => trivial
  refine Bound.then (Q := fun _ k => 1 ≤ k) ?_ fun s k hk1 => ?_
  · refine Bound.then (Q := fun _ k => 1 ≤ k) ?_ fun s k hk1 => ?_
    · rw [Nat.add_assoc]
      refine hstage.then fun s k hs' => ?_
      obtain ⟨hs', hk1⟩ := hs'
      rcases hs' with hs' | ⟨e, i, rfl⟩
      · cases s with
        | success r => exact Nat.le_trans (by omega) hk1
        | error e i => exact hs'.elim
        | resolving i =>
          cases (hs' : i = _)
          have : lastStage h n ⟨path, parseRequest request⟩ = resolveAsModules h n ⟨path, parseRequest request⟩ := by
            unfold lastStage
            simp only [hkind]
          simp only [this]
          exact (resolveAsModules_steps hK hs (depth path) (info := ⟨path, parseRequest request⟩) ha rfl hway hd
            (by omega) 1).mono hk1 fun _ _ _ h1 h2 => Nat.le_trans h2 h1
      · exact Nat.le_trans (by omega) hk1
    · cases s with
      | success r => exact hk1
      | error e i => exact hk1
      | resolving i => exact hK _
  · cases s with
    | error e i => trivial
    | resolving i => exact hK _
    | success r =>
      obtain ⟨k, rfl⟩ : ∃ j, k = j + 1 := ⟨k - 1, by omega⟩
      exact normalizeResult_steps hK r k

/-- A request by path, with main fields. -/
theorem main_steps (hK : ∀ s, K (.panic s)) (hs : Course h.opts V W D F E R d) {N : Nat}
    {path request : Str} (ha : isAbs path = true) (hp : Plain h.opts path (parseRequest request).target)
    (hk : IsPath (parseRequest request).target) (hd : depth (targetPath path (parseRequest request).target) + R * d ≤ N)
    {fuel : Nat} (hfuel : R + 3 ≤ fuel) :
    Bd[V, W, K] (fun _ _ => True) (Live.prog h fuel (.resolve path request))
      (5 * depth (targetPath path (parseRequest request).target) + h.opts.extensions.length + 20 +
        stepsIn h.opts N (R + 1)) := by
  obtain ⟨n, rfl⟩ : ∃ n, fuel = n + 2 := ⟨fuel - 2, by omega⟩
  obtain ⟨rank, hR, hrank⟩ := hs.modest.main
  refine resolve_bound_of hK (fun p b hp hb => isDir_is hs hp hb) (fun name p b hname hp ⟨fs, h1, h2⟩ => by
    rw [← h2]; exact (hs.layout fs h1).isFile p name hname hp) hs.up ha hp hs.browser hk fun k hk => ?_
  refine (resolveAsDir_steps hK hs hrank (R + 1) (info := ⟨path, parseRequest request⟩) ha
    (.inr ⟨Nat.lt_succ_of_le (hR _), ?_⟩) (by omega) 1).weaken hk fun _ _ _ h1 h2 => Nat.le_trans h1.2 h2
  rw [getPath_eq]
  exact Nat.le_trans (Nat.add_le_add_left (Nat.mul_le_mul_right d (hR _)) _) hd

end

/-! ## Histories -/

section
variable {cfg : Nat → Config} {ser : Json → Str} {V W : Fs → Prop} {K : Crash → Prop}

theorem bound_primed (hsub : ∀ fs, W fs → V fs) {i : Nat} (l : List Event) (hl : ∀ fs', .change fs' ∈ l → W fs')
    (s : Sys) (hs : Primed V W s) (t : Task) (ht : s.tasks[i]? = some t) (n : Nat)
    (hb : Bound (Among W) (HaltR V) K (fun _ _ => True) t.prog n) :
    ∃ t', (s.after cfg ser l).tasks[i]? = some t' ∧
      Bound (Among W) (HaltR V) K (fun _ _ => True) t'.prog (n - stepsOf i l) := by
  induction l generalizing s t n with
  | nil => exact ⟨t, ht, hb⟩
  | cons e l ih =>
    have hl' := fun fs' h => hl fs' (List.mem_cons_of_mem _ h)
    have hnext : Primed V W (s.next cfg ser e) := hs.next hsub fun fs h => hl fs (h ▸ List.mem_cons_self)
    cases e with
    | start rid' call fuel =>
      refine ih hl' _ hnext t ?_ n hb
      simp only [Sys.next]
      rw [List.getElem?_append_left (List.getElem?_eq_some_iff.1 ht).1]
      exact ht
    | change fs' => exact ih hl' _ hnext t ht n hb
    | step j seed =>
      have key : ∀ s', s.next cfg ser (.step j seed) = s' → (j ≠ i → s'.tasks[i]? = some t) ∧
          (j = i → ∃ t', s'.tasks[i]? = some t' ∧ Bound (Among W) (HaltR V) K (fun _ _ => True) t'.prog (n - 1)) := by
        rintro s' rfl
        unfold Sys.next
        dsimp only
        cases hj : s.tasks[j]? with
        | none =>
          refine ⟨fun _ => ht, ?_⟩
          rintro rfl
          rw [ht] at hj; cases hj
        | some u =>
          dsimp only
          cases hu : u.prog with
          | ret a =>
            refine ⟨fun _ => ht, ?_⟩
            rintro rfl
            rw [ht] at hj; cases hj
            exact ⟨t, ht, by rw [hu] at hb ⊢; exact hb⟩
          | crash c =>
            refine ⟨fun _ => ht, ?_⟩
            rintro rfl
            rw [ht] at hj; cases hj
            exact ⟨t, ht, by rw [hu] at hb ⊢; exact hb⟩
          | ask q k =>
            refine ⟨fun hne => ?_, ?_⟩
            · dsimp only
              rw [List.getElem?_set_ne hne]; exact ht
            · rintro rfl
              rw [ht] at hj; cases hj
              refine ⟨_, List.getElem?_set_self (List.getElem?_eq_some_iff.1 ht).1, ?_⟩
              rw [hu] at hb
              obtain ⟨m, rfl, hb⟩ := hb
              exact hb _ ⟨_, hs.fs, rfl⟩
          | op o k =>
            refine ⟨fun hne => ?_, ?_⟩
            · dsimp only
              rw [List.getElem?_set_ne hne]; exact ht
            · rintro rfl
              rw [ht] at hj; cases hj
              refine ⟨_, List.getElem?_set_self (List.getElem?_eq_some_iff.1 ht).1, ?_⟩
              have hG := hs.tasks t (List.mem_of_getElem? ht)
              rw [hu] at hG hb
              obtain ⟨m, rfl, hb⟩ := hb
              exact hb _ (halt_step (cfg := cfg) hs.hist hs.stored t.rid hG.1 fun _ => seed).2
      obtain ⟨h3, h4⟩ := key _ rfl
      by_cases e : j = i
      · obtain ⟨t', h5, h7⟩ := h4 e
        obtain ⟨t'', h8, h9⟩ := ih hl' _ hnext t' h5 (n - 1) h7
        refine ⟨t'', h8, ?_⟩
        rw [stepsOf, if_pos e, ← Nat.sub_sub]
        exact h9
      · obtain ⟨t'', h8, h9⟩ := ih hl' _ hnext t (h3 e) n hb
        refine ⟨t'', h8, ?_⟩
        rw [stepsOf, if_neg e, Nat.zero_add]
        exact h9

end
end Verif.Live
