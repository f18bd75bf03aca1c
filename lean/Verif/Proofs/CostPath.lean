import Verif.Proofs.Cost
import Verif.Proofs.Packages
/-!
# The number of steps of requests by path
-/

namespace Verif.Live

section
variable {α β : Type} {A : (q : Query) → q.Ret → Prop} {R : (o : Op) → o.Ret → Prop}
  {K : Crash → Prop} {Q : α → Nat → Prop} {Q' : β → Nat → Prop}

theorem Bound.more {p : Live α} {n : Nat} (m : Nat) (h : Bound A R K (fun _ _ => True) p n) :
    Bound A R K (fun _ k => m ≤ k) p (n + m) := by
  induction p generalizing n with
  | ret a => exact Nat.le_add_left ..
  | crash c => exact h
  | ask q k ih =>
    obtain ⟨j, rfl, h⟩ := h
    exact ⟨j + m, by omega, fun r hr => ih r (h r hr)⟩
  | op o k ih =>
    obtain ⟨j, rfl, h⟩ := h
    exact ⟨j + m, by omega, fun r hr => ih r (h r hr)⟩

theorem Bound.weaken {Q' : α → Nat → Prop} {p : Live α} {n n' : Nat} (h : Bound A R K Q p n) (hn : n ≤ n')
    (hQ : ∀ a m m', Q a m → m ≤ m' → Q' a m') : Bound A R K Q' p n' := by
  induction p generalizing n n' with
  | ret a => exact hQ a n n' h hn
  | crash c => exact h
  | ask q k ih =>
    obtain ⟨m, rfl, h⟩ := h
    exact ⟨n' - 1, by omega, fun r hr => ih r (h r hr) (by omega)⟩
  | op o k ih =>
    obtain ⟨m, rfl, h⟩ := h
    exact ⟨n' - 1, by omega, fun r hr => ih r (h r hr) (by omega)⟩

theorem Bound.seq {p : Live α} {f : α → Live β} {n m : Nat} (h : Bound A R K (fun _ _ => True) p n)
    (hf : ∀ a k, m ≤ k → Bound A R K Q' (f a) k) : Bound A R K Q' (p.bind f) (n + m) :=
  (h.more m).then hf

/-- Success, or the request goes on as it is. -/
def SameInfo (info : Info) : Stats → Prop
  | .success _ => True
  | .resolving i => i = info
  | .error _ _ => False

theorem extensionsLoop_bound (path : Str) (info : Info) (l : List Str) (n : Nat) :
    Bound A R K (fun s k => SameInfo info s ∧ n ≤ k) (extensionsLoop path info l) (l.length + n) := by
  induction l generalizing n with
  | nil => exact ⟨rfl, by simp⟩
  | cons ext l ih =>
    unfold extensionsLoop
    rw [show (ext :: l).length + n = (l.length + n) + 1 by simp; omega]
    refine .isFile fun b _ => ?_
    split
    · exact ⟨trivial, by omega⟩
    · exact ih n

theorem resolveAsFile_bound {h : Host} (info : Info) (n : Nat) :
    Bound A R K (fun s k => SameInfo info s ∧ n ≤ k) (resolveAsFile h info) (h.opts.extensions.length + 1 + n) := by
  unfold resolveAsFile
  dsimp only
  have up : ∀ m, Bound A R K (fun s k => SameInfo info s ∧ n ≤ k)
      (extensionsLoop info.getPath info h.opts.extensions) (h.opts.extensions.length + n + m) := fun m =>
    (extensionsLoop_bound _ _ _ n).mono (Nat.le_add_right ..) fun _ _ _ h1 h2 => ⟨h2.1, Nat.le_trans h2.2 h1⟩
  split
  · have := up 1
    rwa [show h.opts.extensions.length + n + 1 = h.opts.extensions.length + 1 + n by omega] at this
  · rw [show h.opts.extensions.length + 1 + n = (h.opts.extensions.length + n) + 1 by omega]
    refine .isFile fun b _ => ?_
    split
    · exact ⟨trivial, by omega⟩
    · exact up 0

theorem aliasLoop_none (rec : Info → Live Stats) (info : Info) {l : List (Str × AliasMap)}
    (h : ∀ kv ∈ l, ¬ kv.1 <+: info.request.target) : aliasLoop rec info l = .ret (.resolving info) := by
  induction l with
  | nil => rfl
  | cons kv l ih =>
    obtain ⟨k, v⟩ := kv
    unfold aliasLoop
    dsimp only
    rw [if_neg (by rw [startsWith_iff]; exact h _ List.mem_cons_self)]
    exact ih fun kv hkv => h kv (List.mem_cons_of_mem _ hkv)

theorem isPath_noHash {t : Str} (h : IsPath t) : startsWith t cs!"#" = false := by
  cases hs : startsWith t cs!"#" with
  | false => rfl
  | true => exact absurd ((startsWith_iff _ _).1 hs) (not_hash_of_kind h)

variable {D F : Str → Bool}

theorem resolve_bound_of {h : Host} (hK : ∀ s, K (.panic s)) (hD : ∀ d b, isAbs d = true → A (.isDir d) b → b = D d)
    (hF : ∀ name d b, h.opts.descriptionFile = some name → isAbs d = true → A (.isFile (pjoin d name)) b → b = F d)
    (hup : ∀ p q, isAbs p = true → D p = true → pparent p = some q → D q = true) {path request : Str}
    (ha : isAbs path = true) (hp : Plain h.opts path (parseRequest request).target)
    (hb : h.opts.browserField = false) (hk : IsPath (parseRequest request).target)
    {n B : Nat} (hdir : ∀ k, B + 1 ≤ k →
      Bound A R K (fun _ k => 1 ≤ k) (resolveAsDir h (n + 1) ⟨path, parseRequest request⟩) k) :
    Bound A R K (fun _ _ => True) (Live.prog h (n + 2) (.resolve path request))
      (5 * depth (targetPath path (parseRequest request).target) + h.opts.extensions.length + 20 + B) := by
  have hkind : (parseRequest request).kind = getTargetKind (parseRequest request).target := rfl
  have hget : (⟨path, parseRequest request⟩ : Info).getPath = targetPath path (parseRequest request).target :=
    getPath_eq _
  have hat : isAbs (targetPath path (parseRequest request).target) = true := targetPath_abs ha
  have hload : Bound A R K (fun _ _ => True) (loadPkg h (targetPath path (parseRequest request).target))
      (5 * depth (targetPath path (parseRequest request).target) + 18) :=
    loadPkgAux_bound hK hD hF hup _ _ hat (Nat.le_trans (depth_le hat) (Nat.le_add_right ..)) _ (Nat.le_refl _)
  unfold Live.prog resolve resolveStats
  dsimp only
  rw [hp.tsconfig]
  dsimp only
  unfold resolveInner
  have hal : aliasPlugin h (resolveInner h (n + 1)) ⟨path, parseRequest request⟩ =
      .ret (.resolving ⟨path, parseRequest request⟩) := by
    unfold aliasPlugin
    split
    · rfl
    · rename_i hc
      rcases hp.alias with h1 | h1
      · exact absurd ((containsStr_iff _ _).2 h1) hc
      · exact aliasLoop_none _ _ h1
  have hpr : preferRelativePlugin h (resolveInner h (n + 1)) ⟨path, parseRequest request⟩ =
      .ret (.resolving ⟨path, parseRequest request⟩) := by
    unfold preferRelativePlugin
    split
    · rfl
    · rename_i hc
      rw [Bool.or_eq_true, startsWith_iff, startsWith_iff] at hc
      rcases hp.prefer with h1 | h1 | h1
      · rw [if_neg (by rw [h1]; decide)]
      · exact absurd (.inr h1) hc
      · exact absurd (.inl h1) hc
  rw [hal]
  simp only [Live.bind, andThen, hpr]
  have hnk : (parseRequest request).kind ≠ .normal := by
    rw [hkind]
    rcases hk with h1 | h1 | h1 <;> rw [h1] <;> nofun
  have hstage : Bound A R K (fun s k => (SameInfo ⟨path, parseRequest request⟩ s ∨
      ∃ e i, s = .error e i) ∧ h.opts.extensions.length + 2 + B ≤ k) (pkgStage h (n + 1) ⟨path, parseRequest request⟩)
      (5 * depth (targetPath path (parseRequest request).target) + 18 + (h.opts.extensions.length + 2 + B)) := by
    unfold pkgStage
    dsimp only
    rw [if_neg hnk, hget]
    refine hload.seq fun a k hk' => ?_
    cases a with
    | error e => exact ⟨.inr ⟨_, _, rfl⟩, hk'⟩
    | ok pkg =>
      have h1 : importsPlugin h (n + 1) pkg ⟨path, parseRequest request⟩ =
          .ret (.resolving ⟨path, parseRequest request⟩) := by
        unfold importsPlugin
        cases pkg with
        | none => rfl
        | some pkg => dsimp only; rw [isPath_noHash hk]; rfl
      have h2 : Live.aliasFieldPlugin h (n + 1) pkg ⟨path, parseRequest request⟩ =
          .ret (.resolving ⟨path, parseRequest request⟩) := by
        unfold Live.aliasFieldPlugin Verif.aliasFieldPlugin
        dsimp only
        rw [hb]
        rfl
      dsimp only
      rw [h1]
      simp only [Live.bind, andThen, h2]
      exact ⟨.inl rfl, hk'⟩
  have hlast : ∀ k, h.opts.extensions.length + 2 + B ≤ k →
      Bound A R K (fun _ k => 1 ≤ k) (lastStage h (n + 1) ⟨path, parseRequest request⟩) k := by
    intro k hk'
    have key : Bound A R K (fun _ k => 1 ≤ k) ((resolveAsFile h ⟨path, parseRequest request⟩).bind fun s =>
        andThen s fun i => resolveAsDir h (n + 1) i) (h.opts.extensions.length + 1 + (B + 1)) := by
      refine (resolveAsFile_bound _ (B + 1)).then fun s k hs => ?_
      obtain ⟨hs, hk2⟩ := hs
      cases s with
      | success r => exact Nat.le_trans (by omega) hk2
      | error e i => exact hs.elim
      | resolving i =>
        cases (hs : i = _)
        exact hdir _ hk2
    unfold lastStage
    dsimp only
    have := key.mono (Nat.le_trans (by omega) hk') fun _ _ _ h1 h2 => Nat.le_trans h2 h1
    cases hkk : (parseRequest request).kind with
    | normal => exact absurd hkk hnk
    | internal => rw [hkind] at hkk; rcases hk with h1 | h1 | h1 <;> rw [h1] at hkk <;> cases hkk
    | relative => exact this
    | absolutePosix => exact this
    | absoluteWin => exact this
  refine Bound.then (Q := fun _ _ => True) ?_ fun _ _ _ => trivial
  refine Bound.then (Q := fun _ k => 1 ≤ k) ?_ fun s k hk1 => ?_
  · refine Bound.then (Q := fun _ k => 1 ≤ k) ?_ fun s k hk1 => ?_
    · rw [show 5 * depth (targetPath path (parseRequest request).target) + h.opts.extensions.length + 20 + B =
        5 * depth (targetPath path (parseRequest request).target) + 18 + (h.opts.extensions.length + 2 + B) by omega]
      refine hstage.then fun s k hs => ?_
      obtain ⟨hs, hk1⟩ := hs
      rcases hs with hs | ⟨e, i, rfl⟩
      · cases s with
        | success r => exact Nat.le_trans (by omega) hk1
        | error e i => exact hs.elim
        | resolving i => cases (hs : i = _); exact hlast k hk1
      · exact Nat.le_trans (by omega) hk1
    · cases s with
      | success r => exact hk1
      | error e i => exact hk1
      | resolving i => exact hK _
  · cases s with
    | error e i => trivial
    | resolving i => exact hK _
    | success r =>
      dsimp only
      unfold normalizeResult
      cases r with
      | ignored => trivial
      | info i =>
        dsimp only
        split
        · exact hK _
        · refine Bound.then (Q := fun _ _ => True) ?_ fun a m _ => ?_
          · unfold normalizePath
            split
            · obtain ⟨k, rfl⟩ : ∃ j, k = j + 1 := ⟨k - 1, by omega⟩
              refine ⟨k, rfl, fun r _ => ?_⟩
              cases (r : Option Str) <;> trivial
            · trivial
          · cases a <;> trivial

theorem resolve_bound {h : Host} (hK : ∀ s, K (.panic s)) (hD : ∀ d b, isAbs d = true → A (.isDir d) b → b = D d)
    (hF : ∀ name d b, h.opts.descriptionFile = some name → isAbs d = true → A (.isFile (pjoin d name)) b → b = F d)
    (hup : ∀ p q, isAbs p = true → D p = true → pparent p = some q → D q = true) {path request : Str}
    (ha : isAbs path = true) (hp : Plain h.opts path (parseRequest request).target)
    (hb : h.opts.browserField = false) (hk : IsPath (parseRequest request).target)
    (hdir : D (targetPath path (parseRequest request).target) = false) {fuel : Nat} (hfuel : 2 ≤ fuel) :
    Bound A R K (fun _ _ => True) (Live.prog h fuel (.resolve path request))
      (5 * depth (targetPath path (parseRequest request).target) + h.opts.extensions.length + 21) := by
  obtain ⟨n, rfl⟩ : ∃ n, fuel = n + 2 := ⟨fuel - 2, by omega⟩
  refine resolve_bound_of (B := 1) hK hD hF hup ha hp hb hk fun k hk => ?_
  obtain ⟨k, rfl⟩ : ∃ j, k = j + 1 := ⟨k - 1, by omega⟩
  unfold resolveAsDir
  dsimp only
  rw [getPath_eq]
  refine .isDir fun b hb => ?_
  cases (hD _ b (targetPath_abs ha) hb).trans hdir
  exact Nat.le_of_succ_le_succ hk

/-- The loop over the main files, one look for each and for each extension. -/
theorem mainFileLoop_bound {h : Host} (hb : h.opts.browserField = false) {fuel : Nat} (hfuel : fuel ≠ 0)
    (pkg : Option Pkg) (info : Info) (l : List Str) (cur : Info) (m : Nat) :
    Bound A R K (fun s k => SameInfo info s ∧ m ≤ k) (mainFileLoop h fuel pkg info l cur)
      (l.length * (h.opts.extensions.length + 1) + m) := by
  induction l generalizing cur m with
  | nil => exact ⟨rfl, Nat.le_add_left ..⟩
  | cons x l ih =>
    unfold mainFileLoop
    dsimp only
    obtain ⟨n, rfl⟩ : ∃ n, fuel = n + 1 := ⟨fuel - 1, by omega⟩
    have hkind : (cur.withTarget (cs!"./" ++ x)).request.kind = .relative := rfl
    have htarget : (cur.withTarget (cs!"./" ++ x)).request.target = cs!"./" ++ x := rfl
    generalize cur.withTarget (cs!"./" ++ x) = cur at hkind htarget ⊢
    have h0 : exportsPlugin h pkg cur = .ret (.resolving cur) := by
      unfold exportsPlugin
      cases pkg with
      | none => rfl
      | some pkg => dsimp only; rw [if_pos (by rw [hkind]; nofun)]
    have h1 : importsPlugin h (n + 1) pkg cur = .ret (.resolving cur) := by
      unfold importsPlugin
      cases pkg with
      | none => rfl
      | some pkg => dsimp only; rw [htarget]; rfl
    have h2 : Live.aliasFieldPlugin h (n + 1) pkg cur = .ret (.resolving cur) := by
      unfold Live.aliasFieldPlugin Verif.aliasFieldPlugin
      dsimp only
      rw [hb]
      rfl
    rw [h0]
    simp only [Live.bind, andThen, h1, h2]
    rw [show (x :: l).length * (h.opts.extensions.length + 1) + m =
      h.opts.extensions.length + 1 + (l.length * (h.opts.extensions.length + 1) + m) by
        rw [List.length_cons, Nat.add_mul]; omega]
    refine (resolveAsFile_bound _ _).then fun s k hs => ?_
    obtain ⟨hs, hk⟩ := hs
    cases s with
    | success r => exact ⟨trivial, Nat.le_trans (Nat.le_add_left ..) hk⟩
    | error e i => exact hs.elim
    | resolving i => exact (ih i m).mono hk fun _ _ _ h1 h2 => ⟨h2.1, Nat.le_trans h2.2 h1⟩

/-- Directories too, without main fields. -/
theorem resolve_bound_dir {h : Host} (hK : ∀ s, K (.panic s))
    (hD : ∀ d b, isAbs d = true → A (.isDir d) b → b = D d)
    (hF : ∀ name d b, h.opts.descriptionFile = some name → isAbs d = true → A (.isFile (pjoin d name)) b → b = F d)
    (hup : ∀ p q, isAbs p = true → D p = true → pparent p = some q → D q = true) {path request : Str}
    (ha : isAbs path = true) (hp : Plain h.opts path (parseRequest request).target)
    (hb : h.opts.browserField = false) (hk : IsPath (parseRequest request).target)
    (hmain : h.opts.mainFields = []) {fuel : Nat} (hfuel : 3 ≤ fuel) :
    Bound A R K (fun _ _ => True) (Live.prog h fuel (.resolve path request))
      (10 * depth (targetPath path (parseRequest request).target) +
        (h.opts.mainFiles.length + 1) * (h.opts.extensions.length + 1) + 38) := by
  obtain ⟨n, rfl⟩ : ∃ n, fuel = n + 3 := ⟨fuel - 3, by omega⟩
  have hat : isAbs (targetPath path (parseRequest request).target) = true := targetPath_abs ha
  rw [show 10 * depth (targetPath path (parseRequest request).target) +
        (h.opts.mainFiles.length + 1) * (h.opts.extensions.length + 1) + 38 =
      5 * depth (targetPath path (parseRequest request).target) + h.opts.extensions.length + 20 +
        (5 * depth (targetPath path (parseRequest request).target) + 18 +
          h.opts.mainFiles.length * (h.opts.extensions.length + 1) + 1) by rw [Nat.add_mul]; omega]
  refine resolve_bound_of (n := n + 1) hK hD hF hup ha hp hb hk fun k hk => ?_
  obtain ⟨k, rfl⟩ : ∃ j, k = j + 1 := ⟨k - 1, by omega⟩
  unfold resolveAsDir
  dsimp only
  rw [getPath_eq]
  refine .isDir fun b _ => ?_
  split
  · show 1 ≤ k; omega
  have hload : Bound A R K (fun _ _ => True) (loadPkg h (targetPath path (parseRequest request).target))
      (5 * depth (targetPath path (parseRequest request).target) + 18) :=
    loadPkgAux_bound hK hD hF hup _ _ hat (Nat.le_trans (depth_le hat) (Nat.le_add_right ..)) _ (Nat.le_refl _)
  refine Bound.mono (n := 5 * depth (targetPath path (parseRequest request).target) + 18 +
    (h.opts.mainFiles.length * (h.opts.extensions.length + 1) + 1)) ?_ (by omega)
    fun _ _ _ h1 h2 => Nat.le_trans h2 h1
  refine hload.seq fun a k hk => ?_
  cases a with
  | error e => show 1 ≤ k; omega
  | ok pkg =>
    dsimp only
    have : ∀ i, mainFieldPlugin h (n + 1) (resolveAsDir h (n + 1)) pkg i = .ret (.resolving i) := by
      intro i
      unfold mainFieldPlugin
      cases pkg with
      | none => rfl
      | some pkg =>
        dsimp only
        split
        · rfl
        · rw [hmain]; rfl
    rw [this]
    exact (mainFileLoop_bound hb (by omega) _ _ _ _ 1).weaken hk fun _ _ _ h1 h2 => Nat.le_trans h1.2 h2

end
end Verif.Live
