import Verif.Spec.Again
import Verif.Proofs.Debug
import Verif.Proofs.Loader
/-!
# A call made again finds what it found
-/

namespace Verif

/-! ## What a call leaves as it is -/

/-- The entry of the directory, if there is one, is used as it is. -/
def Current (e : Env) (desc : Str) (w : World) (d : Str) : Prop :=
  e.fs.isFile (pjoin d desc) = true → ∃ m now, w.file (comps (pjoin d desc)) = some m ∧
    e.fs.mtime (pjoin d desc) = some now ∧ (now < m ∨ now - m < e.duration)

/-- Entries that are used as they are stay, and directories below a description file that have no entry get
none. -/
structure StaysAt (e : Env) (desc : Str) (w w' : World) : Prop where
  kept : ∀ d v, w.pkg (comps d) = some v → Current e desc w d → w'.pkg (comps d) = some v ∧
    (e.fs.isFile (pjoin d desc) = true → w'.file (comps (pjoin d desc)) = w.file (comps (pjoin d desc)))
  free : ∀ d, w.pkg (comps d) = none → e.fs.isFile (pjoin d desc) = false →
    (∃ a, Above a d ∧ e.fs.isFile (pjoin a desc) = true) → w'.pkg (comps d) = none

/-- The same for the description file of the resolver. -/
def Stays (e : Env) (w w' : World) : Prop := ∀ desc, e.opts.descriptionFile = some desc → StaysAt e desc w w'

theorem StaysAt.refl (e : Env) (desc : Str) (w : World) : StaysAt e desc w w :=
  ⟨fun _ _ h _ => ⟨h, fun _ => rfl⟩, fun _ h _ _ => h⟩

theorem StaysAt.trans {e : Env} {desc : Str} {w w' w'' : World} (h : StaysAt e desc w w')
    (h' : StaysAt e desc w' w'') : StaysAt e desc w w'' where
  kept d v hv hc := by
    obtain ⟨h1, h2⟩ := h.kept d v hv hc
    have hc' : Current e desc w' d := fun hf => by
      obtain ⟨m, now, h3, h4⟩ := hc hf
      exact ⟨m, now, (h2 hf).trans h3, h4⟩
    obtain ⟨h3, h4⟩ := h'.kept d v h1 hc'
    exact ⟨h3, fun hf => (h4 hf).trans (h2 hf)⟩
  free d hn hf ha := h'.free d (h.free d hn hf ha) hf ha

theorem Stays.refl (e : Env) (w : World) : Stays e w w := fun _ _ => .refl _ _ _

theorem Stays.trans {e : Env} {w w' w'' : World} (h : Stays e w w') (h' : Stays e w' w'') : Stays e w w'' :=
  fun desc hd => (h desc hd).trans (h' desc hd)

/-- The call does no harm, and made again later it ends in the same way and changes nothing. `S`: it asks for
hash seeds; these are then the same. -/
def Again {α : Type} (e : Env) (S : Prop) (s : Nat) (p : Prog α) : Prop :=
  ∀ w, (S → w.seeds = fun _ => s) → NoneLost e.fs e.opts.descriptionFile w →
    (S → (p.run w).2.seeds = fun _ => s) ∧ NoneLost e.fs e.opts.descriptionFile (p.run w).2 ∧
    Stays e w (p.run w).2 ∧ ∀ a, (p.run w).1 = .done a → ∀ w', (S → w'.seeds = fun _ => s) →
      Stays e (p.run w).2 w' → p.run w' = (.done a, w')

section
variable {α β : Type} {e : Env} {S : Prop} {s : Nat}

theorem Again.ret (a : α) : Again e S s (.ret a) := by
  intro w hs hn
  refine ⟨hs, hn, .refl _ _, ?_⟩
  rintro b hb w' hs' -
  cases hb
  rfl

theorem Again.crash (c : Crash) : Again e S s (.crash c : Prog α) := by
  intro w hs hn
  refine ⟨hs, hn, .refl _ _, ?_⟩
  rintro b hb
  cases hb

theorem Again.bind {p : Prog α} {k : α → Prog β} (h : Again e S s p) (hk : ∀ a, Again e S s (k a)) :
    Again e S s (p.bind k) := by
  intro w hs hn
  obtain ⟨h1, h2, h3, h4⟩ := h w hs hn
  rw [Prog.run_bind]
  rcases hp : p.run w with ⟨x, v⟩
  rw [hp] at h1 h2 h3 h4
  cases x with
  | crashed c => exact ⟨h1, h2, h3, by rintro b hb; cases hb⟩
  | done a =>
    obtain ⟨h5, h6, h7, h8⟩ := hk a v h1 h2
    refine ⟨h5, h6, h3.trans h7, fun b hb w' hs' hw' => ?_⟩
    rw [Prog.run_bind, h4 a rfl w' hs' (h7.trans hw')]
    exact h8 b hb w' hs' hw'

theorem Again.seed {k : Op.seed.Ret → Prog α} (hS : S) (hk : ∀ r, Again e S s (k r)) :
    Again e S s (.op .seed k) := by
  intro w hs hn
  have hc : ∀ v : World, v.seeds = (fun _ => s) → (Op.seed.exec v).1 = s ∧ (Op.seed.exec v).2 = v := by
    intro v hv
    refine ⟨?_, ?_⟩
    · show v.seeds 0 = s
      rw [hv]
    · show { v with seeds := fun n => v.seeds (n + 1) } = v
      cases v
      simp only at hv
      subst hv
      rfl
  have hr : ∀ v : World, v.seeds = (fun _ => s) → (Prog.op .seed k).run v = (k s).run v := by
    intro v hv
    obtain ⟨h1, h2⟩ := hc v hv
    show (k (Op.seed.exec v).1).run (Op.seed.exec v).2 = _
    rw [h1, h2]
  rw [hr w (hs hS)]
  obtain ⟨h1, h2, h3, h4⟩ := hk s w hs hn
  refine ⟨h1, h2, h3, fun a ha w' hs' hw' => ?_⟩
  rw [hr w' (hs' hS)]
  exact h4 a ha w' hs' hw'

theorem Prog.Paired.again {f : Str → Prog LoadAns} {p q : Prog α} (h : p.Paired f f S q)
    (hl : ∀ d, Again e S s (f d)) : Again e S s p := by
  induction h with
  | ret a => exact .ret a
  | crash c => exact .crash c
  | seed hS _ ih => exact .seed hS ih
  | load d _ ih => exact (hl d).bind ih

theorem run_seeds (p : Prog α) (w : World) (h : w.seeds = fun _ => s) : (p.run w).2.seeds = fun _ => s := by
  induction p generalizing w with
  | ret a => exact h
  | crash c => exact h
  | op o k ih =>
    refine ih _ _ ?_
    cases o <;> first
      | exact h
      | (simp only [Op.exec, h])

end

/-! ## Parsing a description file -/

section
variable {e : Env} {desc : Str}

theorem exportsTreeOf_keeps (e : Env) (json : Json) (w : World) :
    ((exportsTreeOf e json).run w).2.pkg = w.pkg ∧ ((exportsTreeOf e json).run w).2.file = w.file := by
  unfold exportsTreeOf
  split
  · exact ⟨rfl, rfl⟩
  · simp only [Prog.run]
    cases hx : (Op.exec w (.getExports (e.ser _))).1 with
    | some t => exact ⟨rfl, rfl⟩
    | none =>
      dsimp only
      split <;> exact ⟨rfl, rfl⟩

theorem importsTreeOf_keeps (e : Env) (json : Json) (w : World) :
    ((importsTreeOf e json).run w).2.pkg = w.pkg ∧ ((importsTreeOf e json).run w).2.file = w.file := by
  unfold importsTreeOf
  split
  · exact ⟨rfl, rfl⟩
  · simp only [Prog.run]
    cases hx : (Op.exec w (.getImports (e.ser _))).1 with
    | some t => exact ⟨rfl, rfl⟩
    | none =>
      dsimp only
      split <;> exact ⟨rfl, rfl⟩

/-- What parsing a well-formed file does to the caches. -/
theorem parse_effect {d file : Str} {p : Pkg} (h : readPkg e.fs d file = .ret (.ok p)) (w : World) :
    ∃ m, e.fs.mtime file = some m ∧
      ((parseDescription e.release d file).run w).2.pkg = w.pkg ∧
      ((parseDescription e.release d file).run w).2.file = upd w.file (comps file) (some m) := by
  have hr := parse_run h
  unfold readPkg at h
  split at h
  case h_2 => cases h
  case h_1 doc m hr hm =>
    refine ⟨m, hm, ?_⟩
    split at h
    case h_1 => cases h
    case h_2 json hj =>
      split at h
      case h_1 => cases h
      case h_2 fields hb =>
        obtain ⟨h1, et, h⟩ := withTree_inv h
        obtain ⟨h2, it, h⟩ := withTree_inv h
        have hs : ∃ se, parseSideEffects file json = .ok se := by
          split at h
          · cases h
          · exact ⟨_, by assumption⟩
        obtain ⟨se, hs⟩ := hs
        have hr' : e.release.fs.read file = some doc := hr
        have hm' : e.release.fs.mtime file = some m := hm
        have hdb : e.release.debug = false := rfl
        unfold parseDescription dbgGuard readToString
        simp only [hr', hm', hj, hb, hdb, Bool.false_eq_true, if_false, Prog.bind, Prog.run]
        rw [Prog.run_bind]
        generalize hw1 : (Op.exec _ Op.seed).2 = w1
        have hp1 : w1.pkg = w.pkg := by rw [← hw1]; rfl
        have hf1 : w1.file = upd w.file (comps file) (some m) := by rw [← hw1]; rfl
        obtain ⟨t, ht⟩ := exportsTreeOf_run e.release h1 w1
        have hk := exportsTreeOf_keeps e.release json w1
        rcases hx : (exportsTreeOf e.release json).run w1 with ⟨x, w2⟩
        rw [hx] at ht hk
        simp only at ht
        subst ht
        simp only
        rw [Prog.run_bind]
        obtain ⟨t', ht⟩ := importsTreeOf_run e.release h2 w2
        have hk' := importsTreeOf_keeps e.release json w2
        rcases hx : (importsTreeOf e.release json).run w2 with ⟨x, w3⟩
        rw [hx] at ht hk'
        simp only at ht
        subst ht
        simp only [hs]
        exact ⟨hk'.1.trans (hk.1.trans hp1), hk'.2.trans (hk.2.trans hf1)⟩

/-- Storing a well-formed file: the package is stored with the time of the file, or a debug build panics
without having done anything. -/
theorem store_effect {d : Str} {p : Pkg} (h : readPkg e.fs d (pjoin d desc) = .ret (.ok p)) (w : World) :
    (∃ c, (parseAndStore e d (pjoin d desc)).run w = (.crashed c, w)) ∨
    ∃ pkg m, e.fs.mtime (pjoin d desc) = some m ∧
      ((parseAndStore e d (pjoin d desc)).run w).1 = .done (.ok (some pkg)) ∧
      ((parseAndStore e d (pjoin d desc)).run w).2.pkg = upd w.pkg (comps d) (some (some pkg)) ∧
      ((parseAndStore e d (pjoin d desc)).run w).2.file = upd w.file (comps (pjoin d desc)) (some m) := by
  have key : ∀ v : World, v.pkg = w.pkg → v.file = w.file →
      (parseDescription e d (pjoin d desc)).run w = (parseDescription e.release d (pjoin d desc)).run v →
      ∃ pkg m, e.fs.mtime (pjoin d desc) = some m ∧
        ((parseAndStore e d (pjoin d desc)).run w).1 = .done (.ok (some pkg)) ∧
        ((parseAndStore e d (pjoin d desc)).run w).2.pkg = upd w.pkg (comps d) (some (some pkg)) ∧
        ((parseAndStore e d (pjoin d desc)).run w).2.file = upd w.file (comps (pjoin d desc)) (some m) := by
    intro v hp hf hv
    obtain ⟨m, hm, h1, h2⟩ := parse_effect h v
    obtain ⟨pkg, h3⟩ := parse_run h v
    unfold parseAndStore
    rw [Prog.run_bind, hv]
    rcases hx : (parseDescription e.release d (pjoin d desc)).run v with ⟨x, u⟩
    rw [hx] at h1 h2 h3
    simp only at h1 h2 h3
    subst h3
    refine ⟨pkg, m, hm, rfl, ?_, ?_⟩
    · show upd u.pkg (comps d) _ = _
      rw [h1, hp]
    · show u.file = _
      rw [h2, hf]
  cases hdb : e.debug with
  | false =>
    refine .inr (key w rfl rfl ?_)
    rw [parse_guard]
    unfold dbgGuard
    rw [if_neg (by simp [hdb])]
  | true =>
    have e2 : ∀ k : Bool → Prog (Except Err Pkg), (Prog.op (.dbgHas (pjoin d desc)) k).run w =
        (k (w.dbg (comps (pjoin d desc)))).run w := fun k => rfl
    cases hx : w.dbg (comps (pjoin d desc)) with
    | true =>
      refine .inl ⟨.panic .dbgReparse, ?_⟩
      have hc : (parseDescription e d (pjoin d desc)).run w = (.crashed (.panic .dbgReparse), w) := by
        rw [parse_guard]
        generalize parseDescription e.release d (pjoin d desc) = k
        unfold dbgGuard
        rw [if_pos hdb]
        refine (e2 _).trans ?_
        rw [hx]
        rfl
      unfold parseAndStore
      rw [Prog.run_bind, hc]
    | false =>
      refine .inr (key (Op.exec w (.dbgIns (pjoin d desc))).2 rfl rfl ?_)
      rw [parse_guard]
      generalize parseDescription e.release d (pjoin d desc) = k
      unfold dbgGuard
      rw [if_pos hdb]
      refine (e2 _).trans ?_
      rw [hx]
      rfl

/-! ## Loading -/

theorem findUp_none {fs : Fs} (hs : Spelled fs desc) {n : Nat} {p : Str} (hn : p.length < n)
    (h : findUp fs desc n p = none) {a : Str} (ha : Above a p) : fs.isFile (pjoin a desc) = false := by
  induction n generalizing p with
  | zero => omega
  | succ n ih =>
    unfold findUp at h
    split at h
    · cases h
    · rename_i hf
      have hf : fs.isFile (pjoin p desc) = false := by simpa using hf
      rcases Nat.lt_or_ge (comps a).length (comps p).length with hlt | hge
      · split at h
        · rename_i q hq
          refine ih (Nat.lt_of_lt_of_le (pparent_length hq) (Nat.le_of_lt_succ hn)) h ?_
          refine ⟨?_, ha.2.trans (isAbs_pparent hq).symm⟩
          rw [comps_pparent hq]
          obtain ⟨t, ht⟩ := ha.1
          rw [← ht]
          rcases List.eq_nil_or_concat t with rfl | ⟨t', x, rfl⟩
          · rw [← ht] at hlt; simp at hlt
          · rw [List.concat_eq_append, ← List.append_assoc, List.dropLast_concat]
            exact List.prefix_append _ _
        · rename_i hq
          rcases (pparent_eq_none p).1 hq with hc | hc
          · rw [hc] at hlt; simp at hlt
          · have h0 : comps a = [] := by
              rw [hc] at hlt
              exact List.eq_nil_of_length_eq_zero (by simpa using hlt)
            have h1 := (isAbs_iff_comps (p := p)).2 (by rw [hc]; simp)
            rw [← ha.2, isAbs_iff_comps, h0] at h1
            cases h1
      · have : comps a = comps p := ha.1.eq_of_length_le hge
        rw [hs.file a p this]
        exact hf

/-- Noting that there is no description file. -/
theorem cacheNone_effect (P : Str → Prop) (hP : ∀ p q, P p → pparent p = some q → P q) (fs : Fs) (n : Nat)
    (path : Str) (hp : P path) (w : World) :
    ((cacheNone fs n path).run w).2.file = w.file ∧
    (∀ k, ((cacheNone fs n path).run w).2.pkg k = w.pkg k ∨
      ((cacheNone fs n path).run w).2.pkg k = some none ∧ ∃ d, P d ∧ k = comps d) ∧
    ∀ a, ((cacheNone fs n path).run w).1 = .done a → a = .ok none ∧
      ((cacheNone fs n path).run w).2.pkg (comps path) = some none := by
  induction n generalizing path w with
  | zero => exact ⟨rfl, fun _ => .inl rfl, nofun⟩
  | succ n ih =>
    unfold cacheNone
    split
    · simp only [Prog.run]
      generalize hv : (Op.exec w (.putPkg path none)).2 = v
      have hvp : v.pkg = upd w.pkg (comps path) (some none) := by rw [← hv]; rfl
      have hvf : v.file = w.file := by rw [← hv]; rfl
      have h0 : ∀ k, v.pkg k = w.pkg k ∨ v.pkg k = some none ∧ ∃ d, P d ∧ k = comps d := by
        intro k
        rw [hvp]
        unfold upd
        split
        · rename_i hk
          exact .inr ⟨rfl, path, hp, hk⟩
        · exact .inl rfl
      cases hq : pparent path with
      | none =>
        refine ⟨hvf, h0, fun a ha => ?_⟩
        cases ha
        refine ⟨rfl, ?_⟩
        show v.pkg _ = _
        rw [hvp]
        simp [upd]
      | some q =>
        obtain ⟨h1, h2, h3⟩ := ih q (hP _ _ hp hq) v
        refine ⟨h1.trans hvf, fun k => ?_, fun a ha => ⟨(h3 a ha).1, ?_⟩⟩
        · rcases h2 k with h | h
          · rw [h]; exact h0 k
          · exact .inr h
        · rcases h2 (comps path) with h | ⟨h, -⟩
          · refine h.trans ?_
            rw [hvp]
            simp [upd]
          · exact h
    · exact ⟨rfl, fun _ => .inl rfl, nofun⟩

theorem needUpdate_run (e : Env) (path : Str) (w : World) : ((needUpdate e path).run w).2 = w := by
  unfold needUpdate
  split
  · rfl
  · simp only [Prog.run]
    split
    · rfl
    · split
      · rfl
      · split <;> rfl

/-- A package that is stored is current. -/
theorem store_again (he : e.Steady) (hd : e.opts.descriptionFile = some desc) {d : Str}
    (hf : e.fs.isFile (pjoin d desc) = true) (w : World) (hn : NoneLost e.fs e.opts.descriptionFile w)
    (hw : ∀ v, w.pkg (comps d) = some v → ¬ Current e desc w d) :
    NoneLost e.fs e.opts.descriptionFile ((parseAndStore e d (pjoin d desc)).run w).2 ∧
    StaysAt e desc w ((parseAndStore e d (pjoin d desc)).run w).2 ∧
    ∀ a, ((parseAndStore e d (pjoin d desc)).run w).1 = .done a → ∃ pkg, a = .ok (some pkg) ∧
      ((parseAndStore e d (pjoin d desc)).run w).2.pkg (comps d) = some (some pkg) ∧
      Current e desc ((parseAndStore e d (pjoin d desc)).run w).2 d ∧
      ((parseAndStore e d (pjoin d desc)).run w).2.file (comps (pjoin d desc)) = e.fs.mtime (pjoin d desc) := by
  obtain ⟨p, hp⟩ := he.sound desc hd d hf
  have hsp := he.spelled desc hd
  rcases store_effect hp w with ⟨c, hc⟩ | ⟨pkg, m, hm, h1, h2, h3⟩
  · rw [hc]
    exact ⟨hn, .refl _ _ _, nofun⟩
  · rcases hx : (parseAndStore e d (pjoin d desc)).run w with ⟨x, u⟩
    rw [hx] at h1 h2 h3
    simp only at h1 h2 h3 ⊢
    subst h1
    have hcur : Current e desc u d := fun _ => ⟨m, m, by rw [h3]; simp [upd], hm, .inr (by
      rw [Nat.sub_self]; exact he.duration)⟩
    refine ⟨?_, ⟨?_, ?_⟩, ?_⟩
    · intro name hname d' p' hp'
      rw [hd] at hname
      cases hname
      rw [h2] at hp'
      unfold upd at hp'
      split at hp'
      · rename_i hk
        rw [hsp.file d' d hk]
        exact hf
      · exact hn desc hd d' p' hp'
    · intro d' v hv hc
      have hne : comps d' ≠ comps d := fun hk => by
        refine hw v (hk ▸ hv) fun _ => ?_
        obtain ⟨m', now, h4, h5, h6⟩ := hc (by rw [hsp.file d' d hk]; exact hf)
        refine ⟨m', now, ?_, ?_, h6⟩
        · have : comps (pjoin d desc) = comps (pjoin d' desc) := plain_join (he.plain desc hd) hk.symm
          rw [this]
          exact h4
        · rw [← hsp.mtime d' d hk]; exact h5
      refine ⟨?_, fun _ => ?_⟩
      · rw [h2]
        simp [upd, hne, hv]
      · rw [h3]
        have : comps (pjoin d' desc) ≠ comps (pjoin d desc) := fun h => hne (plain_inj (he.plain desc hd) h)
        simp [upd, this]
    · intro d' hv hf' _
      have hne : comps d' ≠ comps d := fun hk => by
        rw [hsp.file d' d hk, hf] at hf'
        cases hf'
      rw [h2]
      simp [upd, hne, hv]
    · rintro a ha
      cases ha
      exact ⟨pkg, rfl, by rw [h2]; simp [upd], hcur, by rw [h3, hm]; simp [upd]⟩

/-- What a current entry is used for: with a time in the future it is an error. -/
def usedAs (e : Env) (desc d : Str) (time : Option Nat) (v : Option Pkg) : LoadAns :=
  match e.fs.isFile (pjoin d desc), time, e.fs.mtime (pjoin d desc) with
  | true, some m, some now => if now < m then .error (.compareFailed (pjoin d desc)) else .ok v
  | _, _, _ => .ok v

/-- The loader on a directory with a current entry. -/
theorem loadPkg_current {n : Nat} {d : Str} {v : Option Pkg} {w : World} (hd : e.opts.descriptionFile = some desc)
    (hdir : e.fs.isDir d = true) (hv : w.pkg (comps d) = some v) (hc : Current e desc w d) :
    (loadPkgAux e (n + 1) d).run w = (.done (usedAs e desc d (w.file (comps (pjoin d desc))) v), w) := by
  unfold loadPkgAux usedAs
  rw [hd]
  simp only [hdir, Bool.not_true, Bool.false_eq_true, if_false, Prog.run]
  have e1 : (Op.exec w (.getPkg d)).1 = some v := hv
  have e2 : (Op.exec w (.getPkg d)).2 = w := rfl
  rw [e1, e2]
  simp only
  cases hf : e.fs.isFile (pjoin d desc) with
  | false =>
    unfold needUpdate
    simp [hf, Prog.run, Prog.bind]
  | true =>
    obtain ⟨m, now, h1, h2, h3⟩ := hc hf
    have e3 : ∀ (α : Type) (k : Option Nat → Prog α), (Prog.op (.getFile (pjoin d desc)) k).run w = (k (some m)).run w := by
      intro α k
      show (k (w.file _)).run w = _
      rw [h1]
    unfold needUpdate
    simp only [hf, Bool.not_true, Bool.false_eq_true, if_false, Prog.bind]
    refine (e3 _ _).trans ?_
    simp only [h1, h2]
    by_cases hlt : now < m
    · rw [if_pos hlt, if_pos hlt]
      rfl
    · have hlt' : ¬ (e.duration ≤ now - m) := by omega
      rw [if_neg hlt, if_neg hlt]
      simp [hlt', Prog.bind, Prog.run]

theorem StaysAt.current {w w' : World} {d : Str} {v : Option Pkg} (h : StaysAt e desc w w')
    (hv : w.pkg (comps d) = some v) (hc : Current e desc w d) :
    w'.pkg (comps d) = some v ∧ Current e desc w' d := by
  obtain ⟨h1, h2⟩ := h.kept d v hv hc
  refine ⟨h1, fun hf => ?_⟩
  obtain ⟨m, now, h3, h4⟩ := hc hf
  exact ⟨m, now, (h2 hf).trans h3, h4⟩

/-- The loader on a directory with an entry that is not current reads the file. -/
theorem loadPkg_stale {n : Nat} {d : Str} {v : Option Pkg} {w : World} (he : e.Steady)
    (hd : e.opts.descriptionFile = some desc) (hdir : e.fs.isDir d = true) (hv : w.pkg (comps d) = some v)
    (hc : ¬ Current e desc w d) :
    e.fs.isFile (pjoin d desc) = true ∧ ∃ w2 : World, w2.pkg = w.pkg ∧ w2.file = w.file ∧ w2.seeds = w.seeds ∧
      (loadPkgAux e (n + 1) d).run w = (parseAndStore e d (pjoin d desc)).run w2 := by
  have hf : e.fs.isFile (pjoin d desc) = true := by
    cases hf : e.fs.isFile (pjoin d desc) with
    | true => rfl
    | false => exact absurd (fun h => by rw [hf] at h; cases h) hc
  refine ⟨hf, ?_⟩
  have hm : ∃ now, e.fs.mtime (pjoin d desc) = some now := by
    obtain ⟨p, hp⟩ := he.sound desc hd d hf
    obtain ⟨m, hm, -⟩ := parse_effect hp w
    exact ⟨m, hm⟩
  obtain ⟨now, hm⟩ := hm
  have hu : (needUpdate e (pjoin d desc)).run w = (.done (.ok true), w) := by
    have e3 : ∀ (α : Type) (k : Option Nat → Prog α), (Prog.op (.getFile (pjoin d desc)) k).run w =
        (k (w.file (comps (pjoin d desc)))).run w := fun α k => rfl
    unfold needUpdate
    simp only [hf, Bool.not_true, Bool.false_eq_true, if_false]
    refine (e3 _ _).trans ?_
    cases hw : w.file (comps (pjoin d desc)) with
    | none => rfl
    | some m =>
      simp only [hm]
      by_cases hlt : now < m
      · exact absurd (fun _ => ⟨m, now, hw, hm, .inl hlt⟩) hc
      · by_cases hlt' : now - m < e.duration
        · exact absurd (fun _ => ⟨m, now, hw, hm, .inr hlt'⟩) hc
        · rw [if_neg hlt]
          simp only [Prog.run, Prod.mk.injEq, Outcome.done.injEq, Except.ok.injEq, decide_eq_true_eq, and_true]
          omega
  have hr : (loadPkgAux e (n + 1) d).run w = (if e.debug then .op (.dbgDel (pjoin d desc)) fun _ =>
      parseAndStore e d (pjoin d desc) else parseAndStore e d (pjoin d desc)).run w := by
    conv => lhs; unfold loadPkgAux
    rw [hd]
    simp only [hdir, Bool.not_true, Bool.false_eq_true, if_false, Prog.run]
    have e1 : (Op.exec w (.getPkg d)).1 = some v := hv
    have e2 : (Op.exec w (.getPkg d)).2 = w := rfl
    rw [e1, e2]
    simp only
    rw [Prog.run_bind, hu]
  rw [hr]
  split
  · exact ⟨(Op.exec w (.dbgDel (pjoin d desc))).2, rfl, rfl, rfl, rfl⟩
  · exact ⟨w, rfl, rfl, rfl, rfl⟩

theorem loadPkgAux_again (he : e.Steady) {S : Prop} {s : Nat} (n : Nat) (d : Str) :
    Again e S s (loadPkgAux e n d) := by
  intro w hs hn
  refine ⟨fun h => run_seeds _ _ (hs h), ?_⟩
  cases hd : e.opts.descriptionFile with
  | none =>
    rw [hd] at hn
    have h0 : ∀ w', ∃ x, (loadPkgAux e n d).run w' = (x, w') ∧ ((loadPkgAux e n d).run w).1 = x := by
      intro w'
      cases n with
      | zero => exact ⟨_, rfl, rfl⟩
      | succ n =>
        unfold loadPkgAux
        rw [hd]
        exact ⟨_, rfl, rfl⟩
    obtain ⟨x, h1, -⟩ := h0 w
    refine ⟨(by intro name h; cases h), (by intro desc h; rw [hd] at h; cases h), fun a ha w' _ _ => ?_⟩
    obtain ⟨y, h2, h3⟩ := h0 w'
    rw [h2, ← h3, ha]
  | some desc =>
    rw [← hd]
    have hsp := he.spelled desc hd
    have hst : ∀ {w w' : World}, StaysAt e desc w w' → Stays e w w' := by
      intro w w' h desc' hd'
      rw [hd] at hd'
      cases hd'
      exact h
    suffices h : NoneLost e.fs e.opts.descriptionFile ((loadPkgAux e n d).run w).2 ∧
        StaysAt e desc w ((loadPkgAux e n d).run w).2 ∧ ∀ a, ((loadPkgAux e n d).run w).1 = .done a →
          ∀ w', StaysAt e desc ((loadPkgAux e n d).run w).2 w' → (loadPkgAux e n d).run w' = (.done a, w') from
      ⟨h.1, hst h.2.1, fun a ha w' _ hw' => h.2.2 a ha w' (hw' desc hd)⟩
    clear hs
    induction n generalizing d w with
    | zero => exact ⟨hn, .refl _ _ _, nofun⟩
    | succ n ih =>
      cases hdir : e.fs.isDir d with
      | false =>
        have hr : ∀ w, (loadPkgAux e (n + 1) d).run w = match pparent d with
            | some q => (loadPkgAux e n q).run w
            | none => (.done (.error .tag), w) := by
          intro w
          conv => lhs; unfold loadPkgAux
          rw [hd]
          simp only [hdir, Bool.not_false, if_true]
          cases pparent d <;> rfl
        simp only [hr]
        cases pparent d with
        | none =>
          refine ⟨hn, .refl _ _ _, ?_⟩
          rintro a ha w' -
          cases ha
          rfl
        | some q => exact ih q w hn
      | true =>
        have hrep : ∀ {u : World} {pkg : Pkg}, e.fs.isFile (pjoin d desc) = true →
            u.pkg (comps d) = some (some pkg) → Current e desc u d →
            u.file (comps (pjoin d desc)) = e.fs.mtime (pjoin d desc) → ∀ w', StaysAt e desc u w' →
            (loadPkgAux e (n + 1) d).run w' = (.done (.ok (some pkg)), w') := by
          intro u pkg hf h7 h8 h9 w' hw'
          have hcur := hw'.current h7 h8
          rw [loadPkg_current hd hdir hcur.1 hcur.2, (hw'.kept d _ h7 h8).2 hf, h9]
          unfold usedAs
          rw [hf]
          cases e.fs.mtime (pjoin d desc) with
          | none => rfl
          | some now => simp
        cases hv : w.pkg (comps d) with
        | some v =>
          by_cases hc : Current e desc w d
          · rw [loadPkg_current hd hdir hv hc]
            refine ⟨hn, .refl _ _ _, ?_⟩
            rintro a ha w' hw'
            simp only at ha hw'
            cases ha
            obtain ⟨h1, h2⟩ := hw'.kept d v hv hc
            rw [loadPkg_current hd hdir h1 (hw'.current hv hc).2]
            cases hf : e.fs.isFile (pjoin d desc) with
            | true => rw [h2 hf]
            | false => simp only [usedAs, hf]
          · obtain ⟨hf, w2, h1, h2, -, h3⟩ := loadPkg_stale (n := n) he hd hdir hv hc
            rw [h3]
            have hn2 : NoneLost e.fs e.opts.descriptionFile w2 := by unfold NoneLost; rw [h1]; exact hn
            have hc2 : ¬ Current e desc w2 d := by unfold Current; rw [h2]; exact hc
            obtain ⟨h4, h5, h6⟩ := store_again he hd hf w2 hn2 fun _ _ => hc2
            refine ⟨h4, ⟨fun d' v' hv' hc' => ?_, fun d' hv' hf' ha' => ?_⟩, fun a ha w' hw' => ?_⟩
            · have := h5.kept d' v' (by rw [h1]; exact hv') (by unfold Current; rw [h2]; exact hc')
              rw [h2] at this
              exact this
            · exact h5.free d' (by rw [h1]; exact hv') hf' ha'
            · obtain ⟨pkg, rfl, h7, h8, h9⟩ := h6 a ha
              exact hrep hf h7 h8 h9 w' hw'
        | none =>
          have hr : ∀ w : World, w.pkg (comps d) = none → (loadPkgAux e (n + 1) d).run w =
              (if !e.fs.isFile (pjoin d desc) then
                match findUp e.fs desc (d.length + 1) d with
                | some dir => loadPkgAux e n dir
                | none => cacheNone e.fs (d.length + 1) d
              else parseAndStore e d (pjoin d desc)).run w := by
            intro w hv
            conv => lhs; unfold loadPkgAux
            rw [hd]
            simp only [hdir, Bool.not_true, Bool.false_eq_true, if_false, Prog.run]
            have e1 : (Op.exec w (.getPkg d)).1 = none := hv
            have e2 : (Op.exec w (.getPkg d)).2 = w := rfl
            rw [e1, e2]
            rfl
          cases hf : e.fs.isFile (pjoin d desc) with
          | true =>
            rw [hr w hv]
            simp only [hf, Bool.not_true, Bool.false_eq_true, if_false]
            obtain ⟨h4, h5, h6⟩ := store_again he hd hf w hn fun v hv' => by rw [hv] at hv'; cases hv'
            refine ⟨h4, h5, fun a ha w' hw' => ?_⟩
            obtain ⟨pkg, rfl, h7, h8, h9⟩ := h6 a ha
            exact hrep hf h7 h8 h9 w' hw'
          | false =>
            rw [hr w hv]
            simp only [hf, Bool.not_false, if_true]
            cases hu : findUp e.fs desc (d.length + 1) d with
            | some dir =>
              simp only
              obtain ⟨h1, h2, h3⟩ := ih dir w hn
              refine ⟨h1, h2, fun a ha w' hw' => ?_⟩
              obtain ⟨hu1, -, hu3⟩ := findUp_above hu
              rw [hr w' ((h2.trans hw').free d hv hf ⟨dir, hu1, hu3⟩)]
              simp only [hf, Bool.not_false, if_true, hu]
              exact h3 a ha w' hw'
            | none =>
              simp only
              have hno : ∀ a, Above a d → e.fs.isFile (pjoin a desc) = false := fun a ha =>
                findUp_none hsp (Nat.lt_succ_self _) hu ha
              obtain ⟨h1, h2, h3⟩ := cacheNone_effect (fun a => Above a d)
                (fun p q hp hq => (Above.parent hq).trans hp) e.fs (d.length + 1) d (.refl d) w
              rcases hx : (cacheNone e.fs (d.length + 1) d).run w with ⟨x, u⟩
              rw [hx] at h1 h2 h3
              simp only at h1 h2 h3 ⊢
              refine ⟨?_, ⟨fun d' v' hv' hc' => ?_, fun d' hv' hf' ha' => ?_⟩, fun a ha w' hw' => ?_⟩
              · intro name hname d' p hp
                rcases h2 (comps d') with h | ⟨h, -⟩
                · exact hn name hname d' p (by rw [← h]; exact hp)
                · rw [h] at hp
                  cases hp
              · refine ⟨?_, fun _ => by rw [h1]⟩
                rcases h2 (comps d') with h | ⟨h, a, ha, hk⟩
                · rw [h]; exact hv'
                · rw [h]
                  cases v' with
                  | none => rfl
                  | some p =>
                    have := hn desc hd d' p hv'
                    rw [hsp.file d' a hk, hno a ha] at this
                    cases this
              · rcases h2 (comps d') with h | ⟨h, a, ha, hk⟩
                · rw [h]; exact hv'
                · obtain ⟨b, hb, hbf⟩ := ha'
                  rw [hno b (hb.trans ((Above.of_comps hk).trans ha))] at hbf
                  cases hbf
              · obtain ⟨rfl, h4⟩ := h3 a ha
                have hc : Current e desc u d := fun h => by rw [hf] at h; cases h
                have := hw'.current h4 hc
                rw [loadPkg_current hd hdir this.1 this.2]
                simp only [usedAs, hf]

/-! ## Calls -/

theorem call_again (he : e.Steady) {S : Prop} {s : Nat} (hS : e.opts.tsconfig ≠ none → S) (fuel : Nat)
    (call : Call) : Again e S s (call.prog e fuel) := by
  have hl : ∀ d, Again e S s (loadPkg e d) := fun d => loadPkgAux_again he _ d
  cases call with
  | resolve path request =>
    refine Again.bind ?_ fun _ => .ret _
    unfold resolve resolveCtx
    refine Again.bind ((paired_stats (c := e.ctx) (g := loadPkg e) (b := e.debug) (S := S) hS fuel path
      request).again hl) fun st => ?_
    cases st with
    | error err i => exact .ret _
    | resolving i => exact .crash _
    | success r =>
      dsimp only
      unfold normalizeResult
      split
      · split
        · exact .crash _
        · split <;> exact .ret _
      · exact .ret _
  | sideEffects path =>
    refine Again.bind ?_ fun _ => .ret _
    unfold loadSideEffects
    refine Again.bind (hl path) fun r => ?_
    split
    · exact .ret _
    · exact .ret _
    · split
      · exact .crash _
      · exact .ret _

theorem afterCalls_stays (he : e.Steady) {S : Prop} {s : Nat} (hS : e.opts.tsconfig ≠ none → S)
    (l : List (Call × Nat)) (w : World) (hs : S → w.seeds = fun _ => s)
    (hn : NoneLost e.fs e.opts.descriptionFile w) :
    (S → (afterCalls e l w).seeds = fun _ => s) ∧ NoneLost e.fs e.opts.descriptionFile (afterCalls e l w) ∧
      Stays e w (afterCalls e l w) := by
  induction l generalizing w with
  | nil => exact ⟨hs, hn, .refl _ _⟩
  | cons c l ih =>
    obtain ⟨h1, h2, h3, -⟩ := call_again he hS c.2 c.1 w hs hn
    obtain ⟨h4, h5, h6⟩ := ih _ h1 h2
    exact ⟨h4, h5, h3.trans h6⟩

end
end Verif
