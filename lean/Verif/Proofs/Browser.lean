import Verif.Spec.Browser
import Verif.Proofs.Packages
/-!
# The `browser` field
-/

namespace Verif

theorem pkgPath_abs {path target : Str} (h : isAbs path = true) : isAbs (pkgPath path target) = true := by
  unfold pkgPath
  split
  · exact isAbs_pjoin_left _ (isAbs_pjoin_left _ h)
  · unfold targetPath
    split
    · assumption
    · exact isAbs_pjoin_left _ h

/-- On an unchanging file system at most one key fits. -/
theorem onlyKey {cfg : Nat → Config} {ser : Json → Str} {fs : Fs} (hs : Static cfg ser fs) {rid : Nat}
    {path target p : Str} {pkg : Pkg} (ha : isAbs path = true) (hpa : isAbs p = true)
    (hb : (cfg rid).opts.browserField = true)
    (hl : Loads (cfg rid).opts fs p (.ok (some pkg)))
    (hu : ∀ m, pkg.raw.get cs!"browser" = some (.obj m) → UniqueKeys m) {k : Str} {v : AliasMap}
    (he : BrowserEntry pkg.raw k v)
    (hk : KeyFits (cfg rid).opts pkg.absDir path target k) (k' : Str) (v' : AliasMap)
    (he' : BrowserEntry pkg.raw k' v')
    (hk' : KeyFits (cfg rid).opts pkg.absDir path target k') : k' = k := by
  obtain ⟨hf, desc, doc, hd, habs, hr, hj⟩ := loads_fields hl hpa
  unfold KeyFits at hk hk'
  split at hk
  · rename_i h
    rw [if_pos h] at hk'
    rw [hk, hk']
  · rename_i h
    rw [if_neg h] at hk'
    have hx : isAbs (targetPath path target) = true := by
      have := pkgPath_abs (target := target) ha
      rwa [pkgPath, if_neg h] at this
    exact (hs.browser rid desc hb hd _ _ _ _ habs hr hj hf).1 _ _ _ _ _ hx
      (mem_of_alookup ((browserFields_entry hf hu _ _).2 he'))
      (mem_of_alookup ((browserFields_entry hf hu _ _).2 he)) hk' hk

/-- The stages of a request for which the `browser` map has an entry. -/
theorem browser_stages {cfg : Nat → Config} {ser : Json → Str} {fs : Fs} (hs : Static cfg ser fs)
    {rid : Nat} {path request : Str} {pkg : Pkg} {k : Str} {v w : AliasMap}
    (ha : isAbs path = true) (hb : (cfg rid).opts.browserField = true)
    (hp : Plain (cfg rid).opts path (parseRequest request).target)
    (hh : ¬ cs!"#" <+: (parseRequest request).target)
    (hl : Loads (cfg rid).opts fs (pkgPath path (parseRequest request).target) (.ok (some pkg)))
    (hu : ∀ m, pkg.raw.get cs!"browser" = some (.obj m) → UniqueKeys m)
    (hk : KeyFits (cfg rid).opts pkg.absDir path (parseRequest request).target k)
    (he : BrowserEntry pkg.raw k v) (hc : ChainEnd pkg.raw v w) :
    ∃ N, ∀ n, N ≤ n → resolveCtx (pureCtx (cfg rid).opts fs false) (n + 1) path request =
      (Prog.ret (replaced pkg ⟨path, parseRequest request⟩ w)).bind fun s =>
        (s.andThen fun i => lastStage (pureCtx (cfg rid).opts fs false) n i).bind
          (answer (pureCtx (cfg rid).opts fs false) ⟨path, parseRequest request⟩) := by
  have hpa := pkgPath_abs (target := (parseRequest request).target) ha
  obtain ⟨hf, -⟩ := loads_fields hl hpa
  obtain ⟨N, hN⟩ := aliasField_chosen (c := pureCtx (cfg rid).opts fs false)
    (info := ⟨path, parseRequest request⟩) hb hf (.refl _) hu rfl hk
    (onlyKey hs ha hpa hb hl hu he hk) he hc
  refine ⟨N + 1, fun n hn => ?_⟩
  obtain ⟨n, rfl⟩ : ∃ m, n = m + 1 := ⟨n - 1, by omega⟩
  rw [resolveCtx_plain (pureCtx (cfg rid).opts fs false) (n + 1) path request hp.tsconfig
    (hp.alias.imp_left (containsStr_iff _ _).2) hp.prefer]
  unfold plainStages pkgStage
  have hload : (pureCtx (cfg rid).opts fs false).load
      (if (parseRequest request).kind = .normal then
        pjoin (pjoin path MODULE) (parseRequest request).target
      else (Info.getPath ⟨path, parseRequest request⟩)) = .ret (.ok (some pkg)) := by
    rw [getPath_eq]
    exact hl
  simp only [hload, Prog.ret_bind]
  rw [importsPlugin_pass hh]
  simp only [Prog.ret_bind, Stats.andThen_resolving, hN (n + 1) (by omega)]

end Verif
