import Verif.Spec.Repeated
import Verif.Proofs.Options
import Verif.Proofs.Clear
/-!
# The order of options, and entries that are repeated
-/

namespace Verif

theorem aliasLoop_applying (rec : Info → Prog Stats) (info : Info) (l : List (Str × AliasMap)) :
    aliasLoop rec info l = aliasLoop rec info (applying l info.request.target) := by
  induction l with
  | nil => rfl
  | cons kv l ih =>
    obtain ⟨k, v⟩ := kv
    unfold applying at ih ⊢
    by_cases h : k <+: info.request.target
    · rw [List.filter_cons_of_pos (by simpa using h)]
      unfold aliasLoop
      rw [ih]
    · rw [List.filter_cons_of_neg (by simpa using h)]
      conv => lhs; unfold aliasLoop
      dsimp only
      rw [if_neg (by rw [startsWith_iff]; exact h)]
      exact ih

theorem aliasPlugin_same {c c' : Ctx} (h : ∀ t, applying c'.opts.alias t = applying c.opts.alias t)
    (rec : Info → Prog Stats) (info : Info) : aliasPlugin c' rec info = aliasPlugin c rec info := by
  unfold aliasPlugin
  rw [aliasLoop_applying, aliasLoop_applying (l := c.opts.alias), h]

/-- If two contexts agree, and what they make of aliases is the same, they resolve in the same way. -/
theorem inner_same {c c' : Ctx} (h : c.Agree c') (hp : c.opts.preferRelative = c'.opts.preferRelative)
    (ha : ∀ n info, aliasPlugin c' (resolveInner c n) info = aliasPlugin c (resolveInner c n) info) :
    resolveInner c' = resolveInner c := by
  funext n
  induction n with
  | zero => rfl
  | succ n ih =>
    funext i
    rw [resolveInner_succ, resolveInner_succ, ih, ha]
    simp only [preferRelativePlugin, hp, h.plain]

theorem tsValue_same {c c' : Ctx} (hi : resolveInner c' = resolveInner c) (hfs : c'.fs = c.fs) :
    tsValue c' = tsValue c := by
  funext n
  induction n with
  | zero => rfl
  | succ n ih =>
    funext l
    simp only [tsValue, hi, ih, hfs]

theorem resolveCtx_same {c c' : Ctx} (hi : resolveInner c' = resolveInner c) (hfs : c'.fs = c.fs)
    (ht : c'.opts.tsconfig = c.opts.tsconfig) (hl : c'.opts.symlinks = c.opts.symlinks) (hd : c'.debug = c.debug) :
    resolveCtx c' = resolveCtx c := by
  funext n p r
  unfold resolveCtx resolveStats
  simp only [ht, hi, resolveWithTsconfig, tsValue_same hi hfs]
  congr 1
  funext s
  cases s with
  | success r => simp only [normalizeResult, normalizePath, hl, hd, hfs]
  | error e i => rfl
  | resolving i => rfl

theorem sys_same {cfg cfg' : Nat → Config} {ser : Json → Str} (hcache : ∀ rid, (cfg' rid).cache = (cfg rid).cache)
    (hp : ∀ rid fs, Call.prog ((cfg' rid).env ser fs) = Call.prog ((cfg rid).env ser fs)) (s : Sys) (l : List Event) :
    s.after cfg' ser l = s.after cfg ser l := by
  have hn : Sys.next cfg' ser = Sys.next cfg ser := by
    funext s e
    cases e with
    | start rid call fuel => simp only [Sys.next, hp]
    | change fs => rfl
    | step i seed => simp only [Sys.next, Shared.view, Shared.store, hcache]
  unfold Sys.after
  rw [hn]

/-! ## Repeated aliases -/

/-- Where `rec` needs no operations, an entry decides, or it is as if it were not there. -/
theorem aliasLoop_cases {rec : Info → Prog Stats} (hrec : ∀ i, ∃ o, (rec i).outcome = some o) (info : Info)
    (kv : Str × AliasMap) :
    (∃ p, ∀ l, aliasLoop rec info (kv :: l) = p) ∨ ∀ l, aliasLoop rec info (kv :: l) = aliasLoop rec info l := by
  obtain ⟨k, v⟩ := kv
  by_cases h : startsWith info.request.target k = true
  · cases v with
    | ignored => exact .inl ⟨.ret (.success .ignored), fun l => by unfold aliasLoop; rw [if_pos h]⟩
    | target to =>
      by_cases ht : (info.request.target = to || startsWith info.request.target to) = true
      · exact .inr fun l => by conv => { lhs; unfold aliasLoop }; dsimp only; rw [if_pos h, if_pos ht]
      · obtain ⟨o, ho⟩ := hrec ⟨info.path, info.request.withTarget (replaceFirst info.request.target k to)⟩
        cases hr : rec ⟨info.path, info.request.withTarget (replaceFirst info.request.target k to)⟩ with
        | crash c =>
          exact .inl ⟨.crash c, fun l => by unfold aliasLoop; dsimp only; rw [if_pos h, if_neg ht, hr]; rfl⟩
        | op o k => rw [hr] at ho; cases ho
        | ret s =>
          cases s with
          | success r =>
            exact .inl ⟨.ret (.success r), fun l => by
              unfold aliasLoop; dsimp only; rw [if_pos h, if_neg ht, hr]; rfl⟩
          | resolving i =>
            exact .inr fun l => by
              conv => lhs; unfold aliasLoop
              dsimp only; rw [if_pos h, if_neg ht, hr]; rfl
          | error e i =>
            exact .inr fun l => by
              conv => lhs; unfold aliasLoop
              dsimp only; rw [if_pos h, if_neg ht, hr]; rfl
  · exact .inr fun l => by conv => { lhs; unfold aliasLoop }; dsimp only; rw [if_neg h]

theorem aliasLoop_without {rec : Info → Prog Stats} {info : Info} {kv : Str × AliasMap}
    (h : ∀ l, aliasLoop rec info (kv :: l) = aliasLoop rec info l) (l : List (Str × AliasMap)) :
    aliasLoop rec info (l.filter fun x => !(x == kv)) = aliasLoop rec info l := by
  induction l with
  | nil => rfl
  | cons x l ih =>
    by_cases hx : x = kv
    · subst hx
      rw [List.filter_cons_of_neg (by simp), h, ih]
    · rw [List.filter_cons_of_pos (by simpa using hx)]
      obtain ⟨k, v⟩ := x
      unfold aliasLoop
      rw [ih]

theorem aliasLoop_eraseDups {rec : Info → Prog Stats} (hrec : ∀ i, ∃ o, (rec i).outcome = some o) (info : Info)
    (n : Nat) : ∀ l : List (Str × AliasMap), l.length ≤ n → aliasLoop rec info l.eraseDups = aliasLoop rec info l := by
  induction n with
  | zero =>
    intro l hl
    cases l with
    | nil => rfl
    | cons => cases hl
  | succ n ih =>
    intro l hl
    cases l with
    | nil => rfl
    | cons x l =>
      rw [List.eraseDups_cons]
      rcases aliasLoop_cases hrec info x with ⟨p, h⟩ | h
      · rw [h, h]
      · rw [h, h, ih _ (Nat.le_trans (List.length_filter_le ..) (Nat.le_of_succ_le_succ hl)), aliasLoop_without h]

theorem pureInner_leaf (o : Opts) (fs : Fs) (debug : Bool) (n : Nat) (i : Info) :
    ∃ x, (resolveInner (pureCtx o fs debug) n i).outcome = some x :=
  (resolveInner_sat (R := fun _ _ => True) (leafInv o fs debug _) n trivial).leaf

theorem callPure_repeated {a : Config} {o' : Opts} (h : RepeatedAliases a.opts o') (fs : Fs) :
    Call.pure { a with opts := o' } fs = Call.pure a fs := by
  obtain ⟨ha, hr⟩ := h
  funext n call
  cases call with
  | sideEffects p =>
    show (findSideEffects fs o'.descriptionFile p).bind _ = (findSideEffects fs a.opts.descriptionFile p).bind _
    rw [← hr]
  | resolve p r =>
    have hag : (pureCtx a.opts fs a.debug).Agree (pureCtx o' fs a.debug) := by
      rw [← hr]
      exact ⟨rfl, rfl, rfl, rfl, rfl, rfl, rfl, rfl, rfl, fun _ => rfl⟩
    have hi : resolveInner (pureCtx o' fs a.debug) = resolveInner (pureCtx a.opts fs a.debug) := by
      refine inner_same hag (by rw [← hr]; rfl) fun n info => ?_
      unfold aliasPlugin
      have hleaf := fun i => pureInner_leaf a.opts fs a.debug n i
      rw [aliasLoop_applying, ← aliasLoop_eraseDups hleaf _ _ _ (Nat.le_refl _),
        aliasLoop_applying (l := (pureCtx a.opts fs a.debug).opts.alias),
        ← aliasLoop_eraseDups hleaf _ _ (applying (pureCtx a.opts fs a.debug).opts.alias _) (Nat.le_refl _)]
      show (if _ then _ else aliasLoop _ _ (applying o'.alias _).eraseDups) = _
      rw [ha]
      rfl
    show (resolveCtx (pureCtx o' fs a.debug) n p r).bind _ = (resolveCtx (pureCtx a.opts fs a.debug) n p r).bind _
    rw [resolveCtx_same hi rfl (by rw [← hr]; rfl) (by rw [← hr]; rfl) rfl]

end Verif
