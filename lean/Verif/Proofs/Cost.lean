import Verif.Spec.Cost
import Verif.Proofs.Reread
import Verif.Proofs.LockDisc
/-!
# The number of steps of the loader
-/

namespace Verif.Live

/-- The call ends within `n` steps if looks are answered by `A` and operations by `R`; if it returns `a` with
`m` steps left, then `Q a m`, and it crashes in a way `K` only. -/
def Bound {α : Type} (A : (q : Query) → q.Ret → Prop) (R : (o : Op) → o.Ret → Prop) (K : Crash → Prop)
    (Q : α → Nat → Prop) :
    Live α → Nat → Prop
  | .ret a, n => Q a n
  | .crash c, _ => K c
  | .ask q k, n => ∃ m, n = m + 1 ∧ ∀ r, A q r → Bound A R K Q (k r) m
  | .op o k, n => ∃ m, n = m + 1 ∧ ∀ r, R o r → Bound A R K Q (k r) m

section
variable {α β : Type} {A : (q : Query) → q.Ret → Prop} {R : (o : Op) → o.Ret → Prop}
  {K : Crash → Prop} {Q : α → Nat → Prop} {Q' : β → Nat → Prop}

theorem Bound.then {p : Live α} {f : α → Live β} {n : Nat} (h : Bound A R K Q p n)
    (hf : ∀ a m, Q a m → Bound A R K Q' (f a) m) : Bound A R K Q' (p.bind f) n := by
  induction p generalizing n with
  | ret a => exact hf a n h
  | crash c => exact h
  | ask q k ih =>
    obtain ⟨m, rfl, h⟩ := h
    exact ⟨m, rfl, fun r hr => ih r (h r hr)⟩
  | op o k ih =>
    obtain ⟨m, rfl, h⟩ := h
    exact ⟨m, rfl, fun r hr => ih r (h r hr)⟩

theorem Bound.isFile {p : Str} {f : Bool → Live β} {n : Nat}
    (hf : ∀ b, A (.isFile p) b → Bound A R K Q' (f b) n) : Bound A R K Q' ((isFile p).bind f) (n + 1) :=
  ⟨n, rfl, hf⟩

theorem Bound.isDir {p : Str} {f : Bool → Live β} {n : Nat}
    (hf : ∀ b, A (.isDir p) b → Bound A R K Q' (f b) n) : Bound A R K Q' ((isDir p).bind f) (n + 1) :=
  ⟨n, rfl, hf⟩

theorem depth_pparent {p q : Str} (ha : isAbs p = true) (h : pparent p = some q) : depth q + 1 = depth p := by
  unfold depth
  rw [comps_pparent h, List.length_dropLast]
  have : comps p ≠ [] := fun e => by rw [(pparent_eq_none p).2 (.inl e)] at h; cases h
  have := List.length_pos_iff.2 this
  omega

theorem depth_pos {p : Str} (ha : isAbs p = true) : 1 ≤ depth p := by
  unfold depth
  refine List.length_pos_iff.2 fun e => ?_
  have := (isAbs_iff_comps p).1 ha
  rw [e] at this
  cases this

/-- What is left after the search for a description file. -/
def FoundUp (F : Str → Bool) (dir : Str) (n : Nat) : Option Str → Nat → Prop
  | some d, m => isAbs d = true ∧ F d = true ∧ (d = dir ∨ depth d < depth dir) ∧ n ≤ m + (depth dir - depth d) + 1
  | none, m => n ≤ m + depth dir

variable {D F : Str → Bool} {desc : Str}

theorem findUp_bound (hF : ∀ d b, isAbs d = true → A (.isFile (pjoin d desc)) b → b = F d) (k : Nat) (dir : Str)
    (ha : isAbs dir = true) (n : Nat) (hn : depth dir ≤ n) :
    Bound A R K (FoundUp F dir n) (findUp desc k dir) n := by
  induction k generalizing dir n with
  | zero => show n ≤ n + depth dir; omega
  | succ k ih =>
    have hpos := depth_pos ha
    obtain ⟨m, rfl⟩ : ∃ m, n = m + 1 := ⟨n - 1, by omega⟩
    unfold findUp
    refine .isFile fun b hb => ?_
    have hb := hF dir b ha hb
    split
    · rename_i h
      rw [h] at hb
      exact ⟨ha, hb.symm, .inl rfl, by omega⟩
    · split
      · rename_i q hq
        have hd := depth_pparent ha hq
        have haq : isAbs q = true := (isAbs_pparent hq).trans ha
        have h := ih q haq m (by omega)
        have e : findUp desc k q = (findUp desc k q).bind .ret := by
          have : ∀ p : Live (Option Str), p = p.bind .ret := by
            intro p
            induction p with
            | ret a => rfl
            | crash c => rfl
            | ask q k ih => exact congrArg (Live.ask q) (funext fun r => ih r)
            | op q k ih => exact congrArg (Live.op q) (funext fun r => ih r)
          exact this _
        rw [e]
        refine h.then fun a m' h' => ?_
        cases a with
        | none =>
          have h' : m ≤ m' + depth q := h'
          show m + 1 ≤ m' + depth dir
          omega
        | some d =>
          obtain ⟨h1, h2, h3, h4⟩ := h'
          have h5 : depth d ≤ depth q := h3.elim (fun e => e ▸ Nat.le_refl _) Nat.le_of_lt
          exact ⟨h1, h2, .inr (by omega), by omega⟩
      · show m + 1 ≤ m + depth dir
        omega

theorem cacheNone_bound (hD : ∀ d b, isAbs d = true → A (.isDir d) b → b = D d)
    (hup : ∀ p q, isAbs p = true → D p = true → pparent p = some q → D q = true) (k : Nat) (path : Str)
    (ha : isAbs path = true) (hk : depth path ≤ k) (hd : D path = true) (n : Nat) (hn : 2 * depth path ≤ n) :
    Bound A R K (fun _ _ => True) (cacheNone k path) n := by
  induction k generalizing path n with
  | zero => exact absurd (depth_pos ha) (by omega)
  | succ k ih =>
    have hpos := depth_pos ha
    obtain ⟨m, rfl⟩ : ∃ m, n = m + 2 := ⟨n - 2, by omega⟩
    unfold cacheNone
    refine .isDir fun b hb => ?_
    cases (hD path b ha hb).trans hd
    rw [if_pos rfl]
    refine ⟨m, rfl, fun _ _ => ?_⟩
    split
    · rename_i q hq
      have := depth_pparent ha hq
      exact ih q ((isAbs_pparent hq).trans ha) (by omega) (hup path q ha hd hq) m (by omega)
    · trivial

theorem needUpdate_bound {h : Host} (path : Str) (n : Nat) :
    Bound A R K (fun _ m => n ≤ m) (needUpdate h path) (n + 3) := by
  unfold needUpdate
  refine .isFile fun b _ => ?_
  split
  · show n ≤ n + 2; omega
  · refine ⟨n + 1, rfl, fun r _ => ?_⟩
    cases (r : Option Nat) with
    | none => show n ≤ n + 1; omega
    | some s =>
      refine ⟨n, rfl, fun r _ => ?_⟩
      cases (r : Option Nat) with
      | none => exact Nat.le_refl _
      | some now =>
        dsimp only
        split <;> exact Nat.le_refl _

variable (hK : ∀ s, K (.panic s))

include hK in
theorem exportsTreeOf_bound (e : Env) (json : Json) (n : Nat) :
    Bound A R K (fun _ m => n ≤ m) (lift (exportsTreeOf e json)) (n + 2) := by
  unfold exportsTreeOf
  split
  · show n ≤ n + 2; omega
  · refine ⟨n + 1, rfl, fun r _ => ?_⟩
    cases (r : Option Node) with
    | some _ => show n ≤ n + 1; omega
    | none =>
      dsimp only
      split
      · exact hK _
      · show n ≤ n + 1; omega
      · exact ⟨n, rfl, fun _ _ => Nat.le_refl _⟩

include hK in
theorem importsTreeOf_bound (e : Env) (json : Json) (n : Nat) :
    Bound A R K (fun _ m => n ≤ m) (lift (importsTreeOf e json)) (n + 2) := by
  unfold importsTreeOf
  split
  · show n ≤ n + 2; omega
  · refine ⟨n + 1, rfl, fun r _ => ?_⟩
    cases (r : Option Node) with
    | some _ => show n ≤ n + 1; omega
    | none =>
      dsimp only
      split
      · exact hK _
      · show n ≤ n + 1; omega
      · exact ⟨n, rfl, fun _ _ => Nat.le_refl _⟩

theorem Bound.mono {p : Live α} {n n' : Nat} (h : Bound A R K Q p n) (hn : n ≤ n')
    (hQ : ∀ a m m', m ≤ m' → Q a m → Q a m') : Bound A R K Q p n' := by
  induction p generalizing n n' with
  | ret a => exact hQ a n n' hn h
  | crash c => exact h
  | ask q k ih =>
    obtain ⟨m, rfl, h⟩ := h
    exact ⟨n' - 1, by omega, fun r hr => ih r (h r hr) (by omega)⟩
  | op o k ih =>
    obtain ⟨m, rfl, h⟩ := h
    exact ⟨n' - 1, by omega, fun r hr => ih r (h r hr) (by omega)⟩

include hK in
theorem parseContents_bound {h : Host} (dir path : Str) (doc : Doc) (n : Nat) :
    Bound A R K (fun _ m => n ≤ m) (lift (parseContents h dir path doc)) (n + 5) := by
  unfold parseContents
  dsimp only
  split
  · show n ≤ n + 5; omega
  · refine ⟨n + 4, rfl, fun r _ => ?_⟩
    dsimp only
    split
    · exact hK _
    · rw [lift_bind]
      refine (exportsTreeOf_bound hK _ _ (n + 2)).then fun a m hm => ?_
      cases a with
      | error err => show n ≤ m; omega
      | ok ex =>
        dsimp only
        rw [lift_bind]
        refine ((importsTreeOf_bound hK _ _ n).mono hm fun _ _ _ h1 h2 => Nat.le_trans h2 h1).then fun a m hm => ?_
        cases a with
        | error err => exact hm
        | ok im =>
          dsimp only
          split <;> exact hm

include hK in
theorem parseAndStore_bound {h : Host} (path descPath : Str) (n : Nat) (hn : 11 ≤ n) :
    Bound A R K (fun _ _ => True) (parseAndStore h path descPath) n := by
  have key : Bound A R K (fun _ m => 1 ≤ m) (parseDescription h path descPath) 11 := by
    have hk : Bound A R K (fun _ m => 1 ≤ m) ((readToString descPath).bind fun
        | .error _ => .ret (.error (.openFailed descPath))
        | .ok doc => lift (parseContents h path descPath doc)) 9 := by
      refine Bound.then (Q := fun _ m => 6 ≤ m) ⟨8, rfl, fun r _ => ?_⟩ fun a m hm => ?_
      · cases (r : Option Doc) with
        | none => exact (by omega : 6 ≤ 8)
        | some doc =>
          refine ⟨7, rfl, fun r _ => ?_⟩
          cases (r : Option Nat) with
          | none => exact (by omega : 6 ≤ 7)
          | some m => exact ⟨6, rfl, fun _ _ => Nat.le_refl 6⟩
      · cases a with
        | error e => exact (by omega : 1 ≤ m)
        | ok doc => exact (parseContents_bound hK path descPath doc 1).mono hm fun _ _ _ h1 h2 => Nat.le_trans h2 h1
    unfold parseDescription dbgGuard
    split
    · refine ⟨10, rfl, fun r _ => ?_⟩
      cases (r : Bool) with
      | true => exact hK _
      | false => exact ⟨9, rfl, fun _ _ => hk⟩
    · exact hk.mono (by omega) fun _ _ _ h1 h2 => Nat.le_trans h2 h1
  unfold parseAndStore
  refine (key.mono hn fun _ _ _ h1 h2 => Nat.le_trans h2 h1).then fun a m hm => ?_
  cases a with
  | error e => trivial
  | ok pkg => exact ⟨m - 1, by omega, fun _ _ => trivial⟩

include hK in
theorem stored_bound {h : Host} (path descPath : Str) (cached : Option Pkg) (n : Nat) (hn : 16 ≤ n) :
    Bound A R K (fun _ _ => True) ((needUpdate h descPath).bind fun
      | .error err => .ask .release fun _ => .ret (.error err)
      | .ok false => .ask .release fun _ => .ret (.ok cached)
      | .ok true =>
        if h.debug then
          .op (.dbgDel descPath) fun _ => .ask .release fun _ => parseAndStore h path descPath
        else .ask .release fun _ => parseAndStore h path descPath) n := by
  refine ((needUpdate_bound descPath 13).mono hn fun _ _ _ h1 h2 => Nat.le_trans h2 h1).then fun a m hm => ?_
  cases a with
  | error e => exact ⟨m - 1, by omega, fun _ _ => trivial⟩
  | ok b =>
    cases b with
    | false => exact ⟨m - 1, by omega, fun _ _ => trivial⟩
    | true =>
      dsimp only
      split
      · exact ⟨m - 1, by omega, fun _ _ => ⟨m - 2, by omega, fun _ _ => parseAndStore_bound hK _ _ _ (by omega)⟩⟩
      · exact ⟨m - 1, by omega, fun _ _ => parseAndStore_bound hK _ _ _ (by omega)⟩

theorem splitC_length (p : Str) : (splitC '/' p).length ≤ p.length + 1 := by
  induction p with
  | nil => simp [splitC]
  | cons c p ih =>
    unfold splitC
    split
    · simpa using ih
    · split
      · simp
      · rename_i h
        rw [h] at ih
        simp only [List.length_cons] at ih ⊢
        omega

/-- The fuel of the loader is enough. -/
theorem depth_le {p : Str} (ha : isAbs p = true) : depth p ≤ p.length + 1 := by
  cases p with
  | nil => cases ha
  | cons c p =>
    have hc : '/' = c := by simpa [isAbs, startsWith] using ha
    subst hc
    unfold depth comps
    have h1 := List.length_filterMap_le segComp (splitC '/' p)
    have h2 := splitC_length p
    simp only [List.length_cons]
    omega

include hK in
theorem loadPkgAux_bound {h : Host} (hD : ∀ d b, isAbs d = true → A (.isDir d) b → b = D d)
    (hF : ∀ name d b, h.opts.descriptionFile = some name → isAbs d = true → A (.isFile (pjoin d name)) b → b = F d)
    (hup : ∀ p q, isAbs p = true → D p = true → pparent p = some q → D q = true) (k : Nat) (path : Str)
    (ha : isAbs path = true) (hk : depth path ≤ k) (n : Nat) (hn : 5 * depth path + 18 ≤ n) :
    Bound A R K (fun _ _ => True) (loadPkgAux h k path) n := by
  induction k generalizing path n with
  | zero => exact absurd (depth_pos ha) (by omega)
  | succ k ih =>
    have hpos := depth_pos ha
    unfold loadPkgAux
    split
    · trivial
    · rename_i name hname
      obtain ⟨n, rfl⟩ : ∃ m, n = m + 3 := ⟨n - 3, by omega⟩
      refine .isDir fun b hb => ?_
      cases hD path b ha hb
      split
      · split
        · rename_i q hq
          have := depth_pparent ha hq
          exact ih q ((isAbs_pparent hq).trans ha) (by omega) _ (by omega)
        · trivial
      · rename_i hdir
        have hdir : D path = true := by simpa using hdir
        refine ⟨n + 1, rfl, fun r _ => ?_⟩
        cases (r : Option (Option Pkg)) with
        | some cached => exact stored_bound (fun _ => hK _) _ _ _ _ (by omega)
        | none =>
          refine .isFile fun b hb => ?_
          cases hF name path b hname ha hb
          split
          · rename_i hfile
            have hfile : F path = false := by simpa using hfile
            refine (findUp_bound (hF name · · hname) _ path ha n (by omega)).then fun a m hm => ?_
            cases a with
            | none =>
              have hm : n ≤ m + depth path := hm
              exact cacheNone_bound hD hup _ path ha (Nat.le_trans (depth_le ha) (by omega)) hdir m (by omega)
            | some d =>
              obtain ⟨h1, h2, h3, h4⟩ := hm
              rcases h3 with rfl | h3
              · rw [hfile] at h2; cases h2
              · exact ih d h1 (by omega) m (by omega)
          · exact parseAndStore_bound (fun _ => hK _) _ _ _ (by omega)

include hK in
theorem sideEffects_bound {h : Host} {path : Str} {n : Nat}
    (hl : Bound A R K (fun _ _ => True) (loadPkg h path) n) (fuel : Nat) :
    Bound A R K (fun _ _ => True) (Live.prog h fuel (.sideEffects path)) n := by
  unfold Live.prog loadSideEffects
  refine Bound.then (Q := fun _ _ => True) (hl.then fun a m _ => ?_) fun _ _ _ => trivial
  cases a with
  | error e => trivial
  | ok p =>
    cases p with
    | none => trivial
    | some p =>
      dsimp only
      split
      · exact hK _
      · trivial

include hK in
/-- With an entry for the directory in the cache. -/
theorem loadPkg_stored {h : Host} {path : Str} (hD : ∀ b, A (.isDir path) b → b = true)
    (hR : ∀ r, R (.getPkg path) r → r ≠ none) (n : Nat) (hn : 18 ≤ n) :
    Bound A R K (fun _ _ => True) (loadPkg h path) n := by
  obtain ⟨k, hk⟩ : ∃ k, path.length + 1 + h.spin = k + 1 := ⟨path.length + h.spin, by omega⟩
  unfold loadPkg
  rw [hk]
  unfold loadPkgAux
  split
  · trivial
  · obtain ⟨n, rfl⟩ : ∃ m, n = m + 2 := ⟨n - 2, by omega⟩
    refine .isDir fun b hb => ?_
    cases hD b hb
    rw [if_neg (by decide)]
    refine ⟨n, rfl, fun r hr => ?_⟩
    have hr := hR r hr
    revert hr
    cases (r : Option (Option Pkg)) with
    | none => exact fun hr => absurd rfl hr
    | some cached => exact fun _ => stored_bound hK _ _ _ _ (by omega)

end

/-! ## Histories -/

section
variable {cfg : Nat → Config} {ser : Json → Str} {A : (q : Query) → q.Ret → Prop}
  {R : (o : Op) → o.Ret → Prop} {K : Crash → Prop} {Ok : Fs → Prop} {P : Shared → Prop}

/-- A call stays the same call. -/
theorem task_call {i : Nat} (l : List Event) (s : Sys) (u : Task) (h1 : s.tasks[i]? = some u) :
    ∃ t, (s.after cfg ser l).tasks[i]? = some t ∧ t.call = u.call := by
  induction l generalizing s u with
  | nil => exact ⟨u, h1, rfl⟩
  | cons e l ih =>
    have : ∃ u', (s.next cfg ser e).tasks[i]? = some u' ∧ u'.call = u.call := by
      obtain ⟨hlt, -⟩ := List.getElem?_eq_some_iff.1 h1
      cases e with
      | start rid call fuel =>
        refine ⟨u, ?_, rfl⟩
        show (s.tasks ++ _)[i]? = _
        rw [List.getElem?_append_left hlt, h1]
      | change fs => exact ⟨u, h1, rfl⟩
      | step j seed =>
        unfold Sys.next
        dsimp only
        split
        · exact ⟨u, h1, rfl⟩
        · rename_i v hv
          have key : ∀ p, ∃ u', (s.tasks.set j { v with prog := p })[i]? = some u' ∧ u'.call = u.call := by
            intro p
            by_cases hij : j = i
            · subst hij
              rw [h1] at hv
              cases hv
              exact ⟨_, List.getElem?_set_self hlt, rfl⟩
            · exact ⟨u, by rw [List.getElem?_set_ne hij]; exact h1, rfl⟩
          split
          · exact key _
          · exact key _
          · exact ⟨u, h1, rfl⟩
    obtain ⟨u', h3, h4⟩ := this
    obtain ⟨t, h5, h6⟩ := ih _ u' h3
    exact ⟨t, h5, h6.trans h4⟩

/-- A call with a bound is over, or has used up some of it. -/
theorem bound_after (hA : ∀ fs q, Ok fs → A q (q.answer fs))
    (hP : ∀ (s : Shared) rid o seeds, P s → P (s.store cfg rid (Op.exec (s.view cfg rid seeds) o).2))
    {rid : Nat} (hR : ∀ (s : Shared) seeds o, P s → R o (Op.exec (s.view cfg rid seeds) o).1) {i : Nat}
    (l : List Event) (hl : ∀ fs', .change fs' ∈ l → Ok fs') (s : Sys) (hfs : Ok s.fs) (hs : P s.shared)
    (t : Task) (ht : s.tasks[i]? = some t) (hrid : t.rid = rid) (n : Nat)
    (hb : Bound A R K (fun _ _ => True) t.prog n) :
    ∃ t', (s.after cfg ser l).tasks[i]? = some t' ∧
      Bound A R K (fun _ _ => True) t'.prog (n - stepsOf i l) := by
  induction l generalizing s t n with
  | nil => exact ⟨t, ht, hb⟩
  | cons e l ih =>
    have hl' := fun fs' h => hl fs' (List.mem_cons_of_mem _ h)
    cases e with
    | start rid' call fuel =>
      refine ih hl' (s.next cfg ser (.start rid' call fuel)) hfs hs t ?_ hrid n hb
      simp only [Sys.next]
      rw [List.getElem?_append_left (List.getElem?_eq_some_iff.1 ht).1]
      exact ht
    | change fs' => exact ih hl' (s.next cfg ser (.change fs')) (hl fs' List.mem_cons_self) hs t ht hrid n hb
    | step j seed =>
      have key : ∀ s', s.next cfg ser (.step j seed) = s' → Ok s'.fs ∧ P s'.shared ∧
          (j ≠ i → s'.tasks[i]? = some t) ∧
          (j = i → ∃ t', s'.tasks[i]? = some t' ∧ t'.rid = rid ∧
            Bound A R K (fun _ _ => True) t'.prog (n - 1)) := by
        rintro s' rfl
        unfold Sys.next
        dsimp only
        cases hj : s.tasks[j]? with
        | none =>
          refine ⟨hfs, hs, fun _ => ht, ?_⟩
          rintro rfl
          rw [ht] at hj; cases hj
        | some u =>
          dsimp only
          cases hu : u.prog with
          | ret a =>
            refine ⟨hfs, hs, fun _ => ht, ?_⟩
            rintro rfl
            rw [ht] at hj; cases hj
            exact ⟨t, ht, hrid, by rw [hu] at hb ⊢; exact hb⟩
          | crash c =>
            refine ⟨hfs, hs, fun _ => ht, ?_⟩
            rintro rfl
            rw [ht] at hj; cases hj
            exact ⟨t, ht, hrid, by rw [hu] at hb ⊢; exact hb⟩
          | ask q k =>
            refine ⟨hfs, hs, fun hne => ?_, ?_⟩
            · dsimp only
              rw [List.getElem?_set_ne hne]; exact ht
            · rintro rfl
              rw [ht] at hj; cases hj
              refine ⟨_, List.getElem?_set_self (List.getElem?_eq_some_iff.1 ht).1, hrid, ?_⟩
              rw [hu] at hb
              obtain ⟨m, rfl, hb⟩ := hb
              exact hb _ (hA _ _ hfs)
          | op o k =>
            refine ⟨hfs, hP _ _ _ _ hs, fun hne => ?_, ?_⟩
            · dsimp only
              rw [List.getElem?_set_ne hne]; exact ht
            · rintro rfl
              rw [ht] at hj; cases hj
              refine ⟨_, List.getElem?_set_self (List.getElem?_eq_some_iff.1 ht).1, hrid, ?_⟩
              rw [hu] at hb
              obtain ⟨m, rfl, hb⟩ := hb
              exact hb _ (hrid ▸ hR _ _ _ hs)
      obtain ⟨h1, h2, h3, h4⟩ := key _ rfl
      by_cases e : j = i
      · obtain ⟨t', h5, h6, h7⟩ := h4 e
        obtain ⟨t'', h8, h9⟩ := ih hl' _ h1 h2 t' h5 h6 (n - 1) h7
        refine ⟨t'', h8, ?_⟩
        rw [stepsOf, if_pos e, ← Nat.sub_sub]
        exact h9
      · obtain ⟨t'', h8, h9⟩ := ih hl' _ h1 h2 t (h3 e) hrid n hb
        refine ⟨t'', h8, ?_⟩
        rw [stepsOf, if_neg e, Nat.zero_add]
        exact h9

theorem bound_over {α : Type} {Q : α → Nat → Prop} {p : Live α} (h : Bound A R K Q p 0) :
    ∃ x, outcome p = some x := by
  cases p with
  | ret a => exact ⟨_, rfl⟩
  | crash c => exact ⟨_, rfl⟩
  | ask q k => obtain ⟨m, h, -⟩ := h; cases h
  | op o k => obtain ⟨m, h, -⟩ := h; cases h

end
end Verif.Live
