import Verif.Spec.OtherPackages
import Verif.Proofs.WatchedBare
import Verif.Proofs.Packages
import Verif.Proofs.Require
/-!
# Packages that have nothing to do with a request: proofs
-/

namespace Verif

theorem parts_eq (s : Str) : parts s = segComps (splitC '/' s) := rfl

theorem parts_dot (s : Str) : parts (cs!"./" ++ s) = parts s := by
  rw [parts_eq, parts_eq, show cs!"./" ++ s = cs!"." ++ '/' :: s from rfl, splitC_append_sep, segComps_append]
  rfl

theorem comps_join {q t : Str} (e : Str) (hq : q ≠ []) (ht : isAbs t = false) :
    comps (pjoin q t ++ e) = comps q ++ parts (t ++ e) := by
  obtain ⟨p0, h1, h2⟩ := pjoin_text hq ht
  rw [h2, List.append_assoc, List.cons_append, parts_eq]
  rcases h1 with ⟨rfl, -⟩ | rfl
  · exact comps_append_sep_of_ne hq
  · cases p0 with
    | nil => rfl
    | cons x xs =>
      rw [comps_append_sep_of_ne (by simp), show (x :: xs) ++ cs!"/" = (x :: xs) ++ '/' :: [] from rfl,
        comps_append_sep_of_ne (by simp)]
      simp [splitC]

theorem comps_join' {q t : Str} (hq : q ≠ []) (ht : isAbs t = false) :
    comps (pjoin q t) = comps q ++ parts t := by
  have := comps_join [] hq ht
  rwa [List.append_nil, List.append_nil] at this

theorem upward_within {n : Nat} {q u : Str} (h : u ∈ upward n q) : comps u <+: comps q := by
  induction n generalizing q with
  | zero => cases h
  | succ n ih =>
    unfold upward at h
    rcases List.mem_cons.1 h with rfl | h
    · exact List.prefix_refl _
    · cases hp : pparent q with
      | none => rw [hp] at h; cases h
      | some q' =>
        rw [hp] at h
        refine (ih h).trans ?_
        rw [comps_pparent hp]
        exact List.dropLast_prefix _

theorem upward_abs {n : Nat} {q u : Str} (ha : isAbs q = true) (h : u ∈ upward n q) : isAbs u = true := by
  induction n generalizing q with
  | zero => cases h
  | succ n ih =>
    unfold upward at h
    rcases List.mem_cons.1 h with rfl | h
    · exact ha
    · cases hp : pparent q with
      | none => rw [hp] at h; cases h
      | some q' =>
        rw [hp] at h
        exact ih ((isAbs_pparent hp).trans ha) h

theorem prefix_of_append {α : Type} {k u v : List α} (h : k <+: u ++ v) : k <+: u ∨ ∃ t, k = u ++ t ∧ t <+: v := by
  rcases List.prefix_or_prefix_of_prefix h (List.prefix_append u v) with h1 | ⟨t, rfl⟩
  · exact .inl h1
  · exact .inr ⟨t, rfl, (List.prefix_append_right_inj u).1 h⟩

/-- A list that is not a beginning of `u`, and whose last element is not in `v`. -/
theorem prefix_last {α : Type} {k u v : List α} (hu : ¬ k <+: u) (hk : k ≠ [])
    (hv : ∀ x, k.getLast? = some x → x ∉ v) : ¬ k <+: u ++ v := by
  intro h
  rcases prefix_of_append h with h | ⟨t, rfl, ht⟩
  · exact hu h
  · have hne : t ≠ [] := by rintro rfl; exact hu (by simp)
    obtain ⟨x, hx⟩ := Option.isSome_iff_exists.1 (by simpa using hne : t.getLast?.isSome = true)
    refine hv x (by rw [List.getLast?_append, hx]; rfl) (ht.subset (List.mem_of_getLast? hx))

theorem stand_append {k s : List Comp} (hs : Comp.up ∉ s) : stand (k ++ s) = stand k ++ s := by
  unfold stand
  rw [List.foldl_append]
  generalize List.foldl Comp.go [] k = a
  induction s generalizing a with
  | nil => simp
  | cons c s ih =>
    rw [List.mem_cons, not_or] at hs
    rw [List.foldl_cons, ih hs.2]
    cases c with
    | up => exact absurd rfl hs.1
    | _ => simp [Comp.go]

theorem stand_plain {k : List Comp} (h : Comp.up ∉ k) : stand k = k := stand_append (k := []) h

theorem Outside.here {d q : Str} (h : Outside d q) : ¬ comps d <+: stand (comps q) := h.2 _ (List.prefix_refl _)

theorem Outside.of_prefix {d q u : Str} (h : Outside d q) (ha : isAbs u = true) (hu : comps u <+: comps q) : Outside d u :=
  ⟨ha, fun k hk => h.2 k (hk.trans hu)⟩

theorem outside_plain {d w : Str} (ha : isAbs w = true) (hu : Comp.up ∉ comps w) (h : ¬ comps d <+: comps w) :
    Outside d w := by
  refine ⟨ha, fun k hk => ?_⟩
  rw [stand_plain fun hm => hu (hk.subset hm)]
  exact fun hp => h (hp.trans hk)

theorem outside_of {d w : Str} (ha : isAbs w = true)
    (h : ∀ n ≤ (comps w).length, ¬ comps d <+: stand ((comps w).take n)) : Outside d w := by
  refine ⟨ha, fun k hk => ?_⟩
  rw [List.prefix_iff_eq_take.1 hk]
  exact h _ hk.length_le

/-- Going on from a path. -/
theorem out_ext {d q t e : Str} (hq : Outside d q) (ht : isAbs t = false) (hup : Comp.up ∉ parts (t ++ e))
    (h : ¬ comps d <+: stand (comps q) ++ parts (t ++ e)) : Outside d (pjoin q t ++ e) := by
  refine ⟨isAbs_append (isAbs_pjoin_left _ hq.1) _, fun k hk => ?_⟩
  rw [comps_join e (abs_ne_nil hq.1) ht] at hk
  rcases prefix_of_append hk with hk | ⟨l, rfl, hl⟩
  · exact hq.2 k hk
  · rw [stand_append fun hm => hup (hl.subset hm)]
    exact fun hp => h (hp.trans ((List.prefix_append_right_inj _).2 hl))

section
variable {o : Opts} {fs : Fs} {b m : Str}

theorem pkgDir_comps (hb : isAbs b = true) (hm : isAbs m = false) :
    comps (pkgDir b m) = comps b ++ .normal cs!"node_modules" :: parts m := by
  have h1 : pjoin b cs!"node_modules" ≠ [] := abs_ne_nil (isAbs_pjoin_left _ hb)
  rw [pkgDir, comps_join' h1 hm, comps_join' (abs_ne_nil hb) rfl, List.append_assoc]
  rfl

theorem pkgDir_last (hb : isAbs b = true) (hu : NotOwn o m) :
    comps (pkgDir b m) ≠ [] ∧ (comps (pkgDir b m)).getLast? = (parts m).getLast? := by
  rw [pkgDir_comps hb hu.relative]
  refine ⟨by simp, ?_⟩
  obtain ⟨x, hx⟩ := Option.isSome_iff_exists.1 (by simpa using hu.ne : (parts m).getLast?.isSome = true)
  rw [List.getLast?_append, List.getLast?_cons, hx]
  rfl

/-- The path is not in the package, and is not a directory between `b/node_modules` and the package. -/
def Away (b m q : Str) : Prop :=
  Outside (pkgDir b m) q ∧ (Within (pjoin b cs!"node_modules") q → ¬ stand (comps q) <+: comps (pkgDir b m))

theorem away_of_read (hn : NoneBeside o fs b m) {q desc : Str} (hq : Outside (pkgDir b m) q)
    (hd : o.descriptionFile = some desc) {doc : Doc} (hr : fs.read (pjoin q desc) = some doc) : Away b m q := by
  refine ⟨hq, fun h1 h2 => ?_⟩
  have := hn q desc hq.1 h1 h2 (fun e => hq.here (by rw [e]; exact List.prefix_refl _)) hd
  rw [this] at hr
  cases hr

theorem within_pkgDir (hb : isAbs b = true) (hm : isAbs m = false) :
    comps (pjoin b cs!"node_modules") <+: comps (pkgDir b m) := by
  rw [pkgDir_comps hb hm, comps_join' (abs_ne_nil hb) rfl]
  exact ⟨parts m, by rw [List.append_assoc]; rfl⟩

theorem away_join (hb : isAbs b = true) (hm : isAbs m = false) {q t e : Str}
    (ht : isAbs t = false) (h : Away b m q)
    (hs : Comp.normal cs!"node_modules" ∉ parts (t ++ e) ∧ Comp.up ∉ parts (t ++ e)) :
    Away b m (pjoin q t ++ e) := by
  have hq := abs_ne_nil h.1.1
  have hst : stand (comps (pjoin q t ++ e)) = stand (comps q) ++ parts (t ++ e) := by
    rw [comps_join e hq ht, stand_append hs.2]
  have key : comps (pjoin b cs!"node_modules") <+: stand (comps q) ++ parts (t ++ e) →
      comps (pjoin b cs!"node_modules") <+: stand (comps q) := by
    intro hw
    rw [comps_join' (abs_ne_nil hb) rfl] at hw ⊢
    by_cases hp : comps b ++ parts cs!"node_modules" <+: stand (comps q)
    · exact hp
    · refine absurd hw (prefix_last hp
        (by rw [show parts cs!"node_modules" = [Comp.normal cs!"node_modules"] from rfl]; simp) ?_)
      intro x hx
      rw [show parts cs!"node_modules" = [Comp.normal cs!"node_modules"] from rfl, List.getLast?_concat] at hx
      cases hx
      exact hs.1
  have pre : stand (comps q) <+: stand (comps q) ++ parts (t ++ e) := List.prefix_append ..
  refine ⟨out_ext h.1 ht hs.2 fun hw => ?_, fun h1 h2 => ?_⟩
  · have h1 := key ((within_pkgDir hb hm).trans hw)
    rcases List.prefix_or_prefix_of_prefix hw pre with h2 | h2
    · exact h.1.here h2
    · exact h.2 h1 h2
  · unfold Within at h1
    rw [hst] at h1 h2
    exact h.2 (key h1) (pre.trans h2)

/-- All that is looked at on behalf of the path is outside of the package. -/
def LooksAway (o : Opts) (b m q : Str) : Prop := ∀ w, LookedAt o q w → Outside (pkgDir b m) w

theorem LooksAway.out {q : Str} (h : LooksAway o b m q) : Outside (pkgDir b m) q := h q (.above (upward_self q))

theorem out_join {q s e : Str} (hb : isAbs b = true) (hu : NotOwn o m)
    (hs : isAbs s = false) (h : Outside (pkgDir b m) q)
    (hx : Comp.up ∉ parts (s ++ e) ∧ ∀ x, (parts m).getLast? = some x → x ∉ parts (s ++ e)) :
    Outside (pkgDir b m) (pjoin q s ++ e) := by
  obtain ⟨h1, h2⟩ := pkgDir_last hb hu
  exact out_ext h hs hx.1 (prefix_last h.here h1 (by rw [h2]; exact hx.2))

theorem outside_upward {n : Nat} {d q u : Str} (h : Outside d q) (hu : u ∈ upward n q) : Outside d u :=
  h.of_prefix (upward_abs h.1 hu) (upward_within hu)

theorem own_ending {e : Str} (he : e ∈ o.endings) : e ∈ o.ownNames :=
  List.mem_append_left _ (List.mem_flatMap.2 ⟨e, he, by simp⟩)

theorem own_modules {e : Str} (he : e ∈ o.endings) : cs!"node_modules" ++ e ∈ o.ownNames :=
  List.mem_append_left _ (List.mem_flatMap.2 ⟨e, he, by simp⟩)

theorem own_mainFile {f e : Str} (hf : f ∈ o.mainFiles) (he : e ∈ o.endings) : f ++ e ∈ o.ownNames :=
  List.mem_append_left _ (List.mem_flatMap.2 ⟨e, he, by
    simp only [List.mem_cons]; exact .inr (.inr (List.mem_map.2 ⟨f, hf, rfl⟩))⟩)

/-- For what is looked at, the path with and without extensions is all that matters. -/
theorem away_of_endings {q : Str} (hb : isAbs b = true) (hu : NotOwn o m)
    (h : ∀ e ∈ o.endings, Outside (pkgDir b m) (q ++ e)) : LooksAway o b m q := by
  have h0 : Outside (pkgDir b m) q := by
    have := h [] List.mem_cons_self
    rwa [List.append_nil] at this
  intro w hw
  cases hw with
  | file hw =>
    rcases List.mem_cons.1 hw with rfl | hw
    · exact h0
    · obtain ⟨e, he, rfl⟩ := List.mem_map.1 hw
      exact h e (List.mem_cons_of_mem _ he)
  | @mainFile f _ hf hw =>
    have step : ∀ e ∈ o.endings, Outside (pkgDir b m) (pjoin q (cs!"./" ++ f) ++ e) := fun e he => by
      refine out_join hb hu rfl h0 ?_
      rw [List.append_assoc, parts_dot]
      exact hu.own _ (own_mainFile hf he)
    rcases List.mem_cons.1 hw with rfl | hw
    · have := step [] List.mem_cons_self
      rwa [List.append_nil] at this
    · obtain ⟨e, he, rfl⟩ := List.mem_map.1 hw
      exact step e (List.mem_cons_of_mem _ he)
  | above hw => exact outside_upward h0 hw
  | @description u desc hw hd =>
    have := out_join (e := []) hb hu (hu.description desc hd) (outside_upward h0 hw) (by
      rw [List.append_nil]
      exact hu.own desc (List.mem_append_right _ (by rw [hd]; exact List.mem_cons_self)))
    rwa [List.append_nil] at this

theorem mainsLead_fields {d q : Str} {l : List Str} (h : MainsLead o fs d l q) : ∀ f ∈ l, f ∈ o.mainFields := by
  induction h with
  | here => exact fun _ h => h
  | next _ ih => exact fun f hf => ih f (List.mem_cons_of_mem _ hf)
  | main _ _ ih => exact fun f hf => ih f (List.mem_cons_of_mem _ hf)

theorem mainTarget_dotted (v : Str) : cs!"./" <+: mainTarget v := by
  unfold mainTarget
  split
  · assumption
  · exact List.prefix_append ..

theorem parts_mainTarget (v e : Str) : parts (mainTarget v ++ e) = parts (v ++ e) := by
  unfold mainTarget
  split
  · rfl
  · rw [List.append_assoc, parts_dot]

theorem filledWith_dotted {text t s : Str} (ht : cs!"./" <+: t) (h : FilledWith text t s) : cs!"./" <+: s := by
  obtain ⟨r, rfl⟩ := ht
  cases h with
  | asIs => exact ⟨r, rfl⟩
  | folder x _ _ => exact ⟨r ++ x, by simp⟩
  | star x _ => exact ⟨_, rfl⟩

theorem dotted_rel {x : Str} (h : cs!"./" <+: x) : isAbs x = false := by
  obtain ⟨r, rfl⟩ := h
  rfl

theorem away_mains {d q : Str} {l : List Str} (hb : isAbs b = true)
    (hu : NotOwn o m) (hk : MainsStayOut o fs) (hn : NoneBeside o fs b m) (hd : LooksAway o b m d)
    (h : MainsLead o fs d l q) :
    LooksAway o b m q ∧ ((∃ f v, NamesMain o fs d f v) → Away b m q) := by
  induction h with
  | here =>
    refine ⟨hd, ?_⟩
    rintro ⟨f, v, desc, doc, json, h1, -, h3, -⟩
    exact away_of_read hn hd.out h1 h3
  | next _ ih => exact ih
  | @main p f v l hp hv ih =>
    have haway := ih.2 ⟨f, v, hv⟩
    have hout := hk d f (mainsLead_fields hp f List.mem_cons_self) v hv
    have step : ∀ e ∈ o.endings, Away b m (targetPath p (mainTarget v) ++ e) := by
      intro e he
      rw [targetPath_dotted (mainTarget_dotted v)]
      refine away_join hb hu.relative (dotted_rel (mainTarget_dotted v)) haway ?_
      rw [parts_mainTarget]
      exact hout e he
    have h0 := step [] List.mem_cons_self
    rw [List.append_nil] at h0
    exact ⟨away_of_endings hb hu fun e he => (step e he).1, fun _ => h0⟩

theorem away_leads {p q : Str} (hb : isAbs b = true)
    (hu : NotOwn o m) (hk : MainsStayOut o fs) (hn : NoneBeside o fs b m) (hp : LooksAway o b m p)
    (h : PathLeads o fs p q) : LooksAway o b m q := by
  induction h with
  | here => exact hp
  | mains _ hq ih => exact (away_mains hb hu hk hn ih hq).1

/-- Nothing that has a say in the answer to a request by path is in the package. -/
theorem watched_out {p w : Str} (hb : isAbs b = true) (hu : NotOwn o m) (hk : MainsStayOut o fs)
    (hn : NoneBeside o fs b m) (hp : ∀ e ∈ o.endings, Outside (pkgDir b m) (p ++ e)) (h : Watched o fs p w) :
    Outside (pkgDir b m) w := by
  obtain ⟨q, hq, hw⟩ := h
  exact away_leads hb hu hk hn (away_of_endings hb hu hp) hq w hw

/-- The `node_modules` directories are not in the package. -/
theorem out_root {target a : Str} (hb : isAbs b = true) (hu : Unrelated o target m)
    (h : Outside (pkgDir b m) a) {e : Str} (he : e ∈ o.endings) :
    Outside (pkgDir b m) (pjoin a cs!"node_modules" ++ e) :=
  out_join hb hu.toNotOwn rfl h (hu.own _ (own_modules he))

theorem out_root' {target a : Str} (hb : isAbs b = true) (hu : Unrelated o target m)
    (h : Outside (pkgDir b m) a) : Outside (pkgDir b m) (pjoin a cs!"node_modules") := by
  have := out_root hb hu h (List.mem_cons_self (a := []) (l := o.extensions))
  rwa [List.append_nil] at this

/-- Two lists with the same mark, which is in neither of the ends. -/
theorem mark_inj {α : Type} {k : α} {a b u v : List α} (hu : k ∉ u) (hv : k ∉ v) (h : a ++ k :: u = b ++ k :: v) :
    u = v := by
  rcases List.append_eq_append_iff.1 h with ⟨t, rfl, ht⟩ | ⟨t, rfl, ht⟩
  · cases t with
    | nil => cases ht; rfl
    | cons x t =>
      cases ht
      exact absurd (by simp) hu
  · cases t with
    | nil => cases ht; rfl
    | cons x t =>
      cases ht
      exact absurd (by simp) hv

theorem out_target {target a : Str} (hb : isAbs b = true) (hu : Unrelated o target m)
    (h : Outside (pkgDir b m) a) {t e : Str} (ht : isAbs t = false)
    (hp : parts (t ++ e) = parts (target ++ e)) (he : e ∈ o.endings) :
    Outside (pkgDir b m) (pjoin (pjoin a cs!"node_modules") t ++ e) := by
  have hr := out_root' hb hu h
  refine out_ext hr ht (by rw [hp]; exact (hu.target_out e he).2) fun hw => ?_
  rw [hp] at hw
  rcases prefix_of_append hw with h1 | ⟨l, h1, h2⟩
  · exact hr.here h1
  · refine hu.target e he ?_
    rw [pkgDir_comps hb hu.relative, comps_join' (abs_ne_nil h.1) rfl, stand_append (by decide), List.append_assoc] at h1
    have : parts m = l := mark_inj hu.modules (fun hx => (hu.target_out e he).1 (h2.subset hx)) h1
    rwa [this]

theorem out_target' {target a : Str} (hb : isAbs b = true) (hu : Unrelated o target m)
    (h : Outside (pkgDir b m) a) (ht : isAbs target = false) :
    Outside (pkgDir b m) (pjoin (pjoin a cs!"node_modules") target) := by
  have := out_target (e := []) hb hu h ht rfl List.mem_cons_self
  rwa [List.append_nil] at this

theorem away_sought {path target text p : Str} (hb : isAbs b = true)
    (hu : Unrelated o target m) (hk : KeepToThemselves o fs text) (hn : NoneBeside o fs b m)
    (hout : Outside (pkgDir b m) path) (ht : isAbs target = false)
    (h : Sought o fs path target text p) : LooksAway o b m p := by
  cases h with
  | root h => exact away_of_endings hb hu.toNotOwn fun e he => out_root hb hu (outside_upward hout h) he
  | left h =>
    exact away_of_endings hb hu.toNotOwn fun e he =>
      out_join hb hu.toNotOwn rfl (out_root' hb hu (outside_upward hout h)) (hu.own _ (own_ending he))
  | named h => exact away_of_endings hb hu.toNotOwn fun e he => out_target hb hu (outside_upward hout h) ht rfl he
  | dotted h =>
    exact away_of_endings hb hu.toNotOwn fun e he =>
      out_target hb hu (outside_upward hout h) rfl (by rw [List.append_assoc, parts_dot]) he
  | @exported a d t s desc doc json v ha hdesc hd hr hj hv hts hf _ =>
    obtain ⟨k1, k2⟩ := hk.exports v ⟨_, doc, json, hr, hj, hv⟩ t hts
    have k3 := k2 s hf
    have h3 := out_target' hb hu (outside_upward hout ha) ht
    have haway : Away b m d := away_of_read hn (outside_upward h3 (List.mem_of_find?_eq_some hd)) hdesc hr
    exact away_of_endings hb hu.toNotOwn fun e he =>
      (away_join hb hu.relative (dotted_rel (parse_dotted (filledWith_dotted k1 hf))) haway (k3 e he)).1

theorem package_rest {target name : Str} (h : PackageName target name) :
    ∃ rest, target = name ++ rest ∧ (rest = [] ∨ ['/'] <+: rest) := by
  cases h with
  | plain _ _ h => exact ⟨_, rfl, h⟩
  | @inScope a b rest _ _ _ h => exact ⟨rest, by simp, h⟩
  | scope _ _ => exact ⟨[], by simp, .inl rfl⟩

/-- Nothing that has a say in the answer is in the other package. -/
theorem watchedBare_out {path target text name w : Str} (hb : isAbs b = true)
    (hu : Unrelated o target m) (hk : KeepToThemselves o fs text) (hn : NoneBeside o fs b m)
    (hout : Outside (pkgDir b m) path) (ht : isAbs target = false)
    (hname : PackageName target name) (h : WatchedBare o fs path target text name w) : Outside (pkgDir b m) w := by
  rcases h with ⟨p, hp, q, hq, hw⟩ | ⟨a, ha, rfl⟩
  · exact away_leads hb hu.toNotOwn hk.mains hn (away_sought hb hu hk hn hout ht hp) hq w hw
  · obtain ⟨rest, rfl, hr⟩ := package_rest hname
    have h1 := outside_upward hout ha
    have h3 := out_target' hb hu h1 ht
    have pre := comps_name (isAbs_pjoin_left cs!"node_modules" h1.1) ht hr
    exact h3.of_prefix (isAbs_pjoin_left _ (isAbs_pjoin_left _ h1.1)) pre

end

end Verif
