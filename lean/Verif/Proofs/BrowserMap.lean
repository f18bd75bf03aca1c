import Verif.Spec.Dirs
import Verif.Proofs.Transparent
import Verif.Proofs.Modules
/-!
# Entries of `browser` maps
-/

namespace Verif

theorem browserLoop_lookup {l : List (Str × Json)} {acc fields : List (Str × AliasMap)}
    (h : browserLoop l acc = some fields) (hu : UniqueKeys l)
    (hacc : ∀ kv ∈ l, alookup kv.1 acc = none) (k : Str) (v : AliasMap) :
    alookup k fields = some v ↔ alookup k acc = some v ∨ (v = .ignored ∧ (k, .bool false) ∈ l) ∨
      ∃ t, v = .target t ∧ (k, .str t) ∈ l := by
  induction l generalizing acc with
  | nil =>
    cases h
    simp
  | cons kv l ih =>
    obtain ⟨k', j⟩ := kv
    have hu' : UniqueKeys l := (List.nodup_cons.1 hu).2
    have hk' : ∀ j, (k', j) ∉ l := fun j hj =>
      (List.nodup_cons.1 hu).1 (List.mem_map.2 ⟨_, hj, rfl⟩)
    have hnone := hacc _ (List.mem_cons_self ..)
    have hother : ∀ kv ∈ l, alookup kv.1 acc = none := fun kv hkv => hacc kv (List.mem_cons_of_mem _ hkv)
    have hins : ∀ x : AliasMap, ∀ kv ∈ l, alookup kv.1 (ainsert k' x acc) = none := by
      intro x kv hkv
      have : k' ≠ kv.1 := fun e => (List.nodup_cons.1 hu).1 (e ▸ List.mem_map.2 ⟨kv, hkv, rfl⟩)
      rw [alookup_ainsert, if_neg this]
      exact hother kv hkv
    cases j with
    | bool b =>
      cases b with
      | true => simp [browserLoop, Json.asBool] at h
      | false =>
        simp only [browserLoop, Json.asBool] at h
        rw [ih h hu' (hins _), alookup_ainsert]
        by_cases e : k' = k
        · subst e
          rw [if_pos rfl, hnone]
          simp [hk', eq_comm]
        · rw [if_neg e]
          simp [Ne.symm (Ne.intro e)]
    | str s =>
      simp only [browserLoop, Json.asBool, Json.asStr] at h
      rw [ih h hu' (hins _), alookup_ainsert]
      by_cases e : k' = k
      · subst e
        rw [if_pos rfl, hnone]
        simp [hk', eq_comm]
      · rw [if_neg e]
        simp [Ne.symm (Ne.intro e)]
    | null =>
      simp only [browserLoop, Json.asBool, Json.asStr] at h
      rw [ih h hu' hother]; simp
    | num s =>
      simp only [browserLoop, Json.asBool, Json.asStr] at h
      rw [ih h hu' hother]; simp
    | arr s =>
      simp only [browserLoop, Json.asBool, Json.asStr] at h
      rw [ih h hu' hother]; simp
    | obj s =>
      simp only [browserLoop, Json.asBool, Json.asStr] at h
      rw [ih h hu' hother]; simp

/-- The entries kept are those of the JSON value. -/
theorem browserFields_entry {json : Json} {fields : List (Str × AliasMap)}
    (h : browserFields json = some fields)
    (hu : ∀ m, json.get cs!"browser" = some (.obj m) → UniqueKeys m) (k : Str) (v : AliasMap) :
    alookup k fields = some v ↔ BrowserEntry json k v := by
  unfold browserFields at h
  cases hb : json.get cs!"browser" with
  | none =>
    rw [hb] at h
    cases h
    constructor
    · intro h; cases h
    · intro h
      cases h with
      | ignored h => rw [hb] at h; cases h
      | target h => rw [hb] at h; cases h
  | some j =>
    rw [hb] at h
    cases ho : j.asObj with
    | none =>
      simp only [ho] at h
      cases h
      constructor
      · intro h; cases h
      · intro h
        cases h with
        | ignored h => rw [hb] at h; cases h; cases ho
        | target h => rw [hb] at h; cases h; cases ho
    | some m =>
      simp only [ho] at h
      have hj : j = .obj m := by
        cases j <;> simp [Json.asObj] at ho
        subst ho; rfl
      subst hj
      rw [browserLoop_lookup h (hu m hb) (fun _ _ => rfl)]
      constructor
      · rintro (h | ⟨rfl, h⟩ | ⟨t, rfl, h⟩)
        · cases h
        · exact .ignored hb h
        · exact .target hb h
      · intro h
        cases h with
        | ignored h' h =>
          rw [hb] at h'
          cases h'
          exact .inr (.inl ⟨rfl, h⟩)
        | target h' h =>
          rw [hb] at h'
          cases h'
          exact .inr (.inr ⟨_, rfl, h⟩)

/-- The recursive lookup follows the chain, with enough fuel. -/
theorem aliasChain_end {json : Json} {fields : List (Str × AliasMap)}
    (h : browserFields json = some fields)
    (hu : ∀ m, json.get cs!"browser" = some (.obj m) → UniqueKeys m) {v w : AliasMap}
    (hc : ChainEnd json v w) : ∃ N, ∀ n, N ≤ n → aliasChain fields n v = some w := by
  induction hc with
  | ignored => exact ⟨1, fun n hn => by obtain ⟨n, rfl⟩ : ∃ k, n = k + 1 := ⟨n - 1, by omega⟩; rfl⟩
  | stop hno =>
    refine ⟨1, fun n hn => ?_⟩
    obtain ⟨n, rfl⟩ : ∃ k, n = k + 1 := ⟨n - 1, by omega⟩
    rename_i t
    have : alookup t fields = none := by
      cases he : alookup t fields with
      | none => rfl
      | some v => exact absurd ((browserFields_entry h hu t v).1 he) (hno v)
    simp only [aliasChain, this]
  | next he _ ih =>
    obtain ⟨N, ih⟩ := ih
    refine ⟨N + 1, fun n hn => ?_⟩
    obtain ⟨n, rfl⟩ : ∃ k, n = k + 1 := ⟨n - 1, by omega⟩
    simp only [aliasChain, (browserFields_entry h hu _ _).2 he]
    exact ih n (by omega)

theorem browserFields_nodup {json : Json} {fields : List (Str × AliasMap)}
    (h : browserFields json = some fields) : (fields.map (·.1)).Nodup :=
  browserFields_keys h

theorem mem_of_alookup {β : Type} {k : Str} {v : β} {l : List (Str × β)} (h : alookup k l = some v) :
    (k, v) ∈ l := by
  induction l with
  | nil => cases h
  | cons kv l ih =>
    obtain ⟨k', v'⟩ := kv
    simp only [alookup] at h
    split at h
    · rename_i e
      rw [e] at *
      cases h
      exact List.mem_cons_self ..
    · exact List.mem_cons_of_mem _ (ih h)

/-- What the plugin gives for a replacement. -/
def replaced (pkg : Pkg) (info : Info) : AliasMap → Stats
  | .ignored => .success .ignored
  | .target t => .resolving ⟨pkg.absDir, info.request.withTarget t⟩

theorem aliasMatches_fits {c : Ctx} {pkg : Pkg} {info : Info} {k : Str}
    (hk : info.request.kind = getTargetKind info.request.target) :
    aliasMatches c pkg info k = true ↔
      KeyFits c.opts pkg.absDir info.path info.request.target k := by
  unfold KeyFits
  by_cases h : info.request.kind = .normal
  · rw [if_pos (hk ▸ h)]
    unfold aliasMatches
    rw [if_pos h]
    simp [eq_comm]
  · rw [if_neg (hk ▸ h), aliasMatches_covers h, getPath_eq]

/-- The entry of the only key that fits is followed to its end. -/
theorem aliasField_chosen' {c : Ctx} {pkg : Pkg} {info : Info} {fields : List (Str × AliasMap)}
    {k : Str} {v w : AliasMap} (hb : c.opts.browserField = true)
    (hf : browserFields pkg.raw = some fields) (hp : pkg.aliasFields.Perm fields)
    (hu : ∀ m, pkg.raw.get cs!"browser" = some (.obj m) → UniqueKeys m)
    (hkind : info.request.kind = getTargetKind info.request.target)
    (hk : KeyFits c.opts pkg.absDir info.path info.request.target k)
    (honly : ∀ k' v', BrowserEntry pkg.raw k' v' →
      KeyFits c.opts pkg.absDir info.path info.request.target k' → k' = k)
    (he : BrowserEntry pkg.raw k v) {n : Nat} (hN : aliasChain fields n v = some w) :
    aliasFieldPlugin c n (some pkg) info = .ret (replaced pkg info w) := by
  have hnd := browserFields_keys hf
  have hnd' : (pkg.aliasFields.map (·.1)).Nodup := (hp.map _).nodup_iff.2 hnd
  have hmem : (k, v) ∈ pkg.aliasFields :=
    hp.mem_iff.2 (mem_of_alookup ((browserFields_entry hf hu k v).2 he))
  have hfind : pkg.aliasFields.find? (fun kv => aliasMatches c pkg info kv.1) = some (k, v) := by
    cases hx : pkg.aliasFields.find? (fun kv => aliasMatches c pkg info kv.1) with
    | none =>
      rw [List.find?_eq_none] at hx
      exact absurd ((aliasMatches_fits hkind).2 hk) (hx _ hmem)
    | some kv =>
      obtain ⟨k', v'⟩ := kv
      have h1 := List.find?_some hx
      have h2 := List.mem_of_find?_eq_some hx
      have h3 : k' = k := honly k' v'
        ((browserFields_entry hf hu k' v').1 (alookup_of_mem hnd (hp.mem_iff.1 h2)))
        ((aliasMatches_fits hkind).1 h1)
      subst h3
      have := alookup_of_mem hnd' h2
      rw [alookup_of_mem hnd' hmem] at this
      cases this
      rfl
  unfold aliasFieldPlugin
  simp only [hb, Bool.not_true, Bool.false_eq_true, if_false, hfind, aliasChain_perm hp hnd, hN]
  cases w <;> rfl

/-- The entry of the only key that fits is followed to its end. -/
theorem aliasField_chosen {c : Ctx} {pkg : Pkg} {info : Info} {fields : List (Str × AliasMap)}
    {k : Str} {v w : AliasMap} (hb : c.opts.browserField = true)
    (hf : browserFields pkg.raw = some fields) (hp : pkg.aliasFields.Perm fields)
    (hu : ∀ m, pkg.raw.get cs!"browser" = some (.obj m) → UniqueKeys m)
    (hkind : info.request.kind = getTargetKind info.request.target)
    (hk : KeyFits c.opts pkg.absDir info.path info.request.target k)
    (honly : ∀ k' v', BrowserEntry pkg.raw k' v' →
      KeyFits c.opts pkg.absDir info.path info.request.target k' → k' = k)
    (he : BrowserEntry pkg.raw k v) (hc : ChainEnd pkg.raw v w) :
    ∃ N, ∀ n, N ≤ n → aliasFieldPlugin c n (some pkg) info = .ret (replaced pkg info w) := by
  obtain ⟨N, hN⟩ := aliasChain_end hf hu hc
  exact ⟨N, fun n hn => aliasField_chosen' hb hf hp hu hkind hk honly he (hN n hn)⟩

/-- Nothing happens if no key fits. -/
theorem aliasField_unchanged {c : Ctx} {n : Nat} {pkg : Pkg} {info : Info}
    {fields : List (Str × AliasMap)}
    (hf : browserFields pkg.raw = some fields) (hp : pkg.aliasFields.Perm fields)
    (hu : ∀ m, pkg.raw.get cs!"browser" = some (.obj m) → UniqueKeys m)
    (hkind : info.request.kind = getTargetKind info.request.target)
    (hno : ∀ k v, BrowserEntry pkg.raw k v →
      ¬ KeyFits c.opts pkg.absDir info.path info.request.target k) :
    aliasFieldPlugin c n (some pkg) info = .ret (.resolving info) := by
  have hfind : pkg.aliasFields.find? (fun kv => aliasMatches c pkg info kv.1) = none := by
    rw [List.find?_eq_none]
    intro kv hkv hm
    exact hno kv.1 kv.2 ((browserFields_entry hf hu _ _).1
      (alookup_of_mem (browserFields_keys hf) (hp.mem_iff.1 hkv))) ((aliasMatches_fits hkind).1 hm)
  unfold aliasFieldPlugin
  split
  · rfl
  · simp only [hfind]

/-- What is needed of a resolver without caches: a lawful file system, and packages as their files
say. -/
structure Ctx.Sound (c : Ctx) : Prop where
  lawful : c.fs.Lawful
  err : ∀ d e, c.load d = .ret (.error e) → e.isTag = false
  abs : ∀ d pkg, isAbs d = true → c.load d = .ret (.ok (some pkg)) → isAbs pkg.absDir = true
  own : ∀ d pkg, isAbs d = true → c.load d = .ret (.ok (some pkg)) → comps d = comps pkg.absDir →
    pkg.absDir = d
  fields : ∀ d pkg, isAbs d = true → c.load d = .ret (.ok (some pkg)) →
    browserFields pkg.raw = some pkg.aliasFields
  only : c.opts.browserField = true → ∀ d pkg, isAbs d = true → c.load d = .ret (.ok (some pkg)) →
    ∀ x k v k' v', isAbs x = true → (k, v) ∈ pkg.aliasFields → (k', v') ∈ pkg.aliasFields →
      Covers c.opts.extensions pkg.absDir k x → Covers c.opts.extensions pkg.absDir k' x → k = k'

theorem aliasFieldPlugin_notCovered {c : Ctx} {n : Nat} {pkg : Option Pkg} {info : Info}
    (hk : info.request.kind ≠ .normal)
    (h : NotCovered c.opts pkg (targetPath info.path info.request.target)) :
    aliasFieldPlugin c n pkg info = .ret (.resolving info) := by
  unfold aliasFieldPlugin
  split
  · rfl
  · rename_i hb
    cases pkg with
    | none => rfl
    | some p =>
      have : p.aliasFields.find? (fun kv => aliasMatches c p info kv.1) = none := by
        rw [List.find?_eq_none]
        intro kv hkv hm
        rw [aliasMatches_covers hk, getPath_eq] at hm
        exact h (by simpa using hb) p kv rfl hkv hm
      simp only [this]

theorem aliasFieldPlugin_notKeyed {c : Ctx} {n : Nat} {pkg : Option Pkg} {info : Info}
    (hk : info.request.kind = .normal) (h : NotKeyed c.opts pkg info.request.target) :
    aliasFieldPlugin c n pkg info = .ret (.resolving info) := by
  unfold aliasFieldPlugin
  split
  · rfl
  · rename_i hb
    cases pkg with
    | none => rfl
    | some p =>
      have : p.aliasFields.find? (fun kv => aliasMatches c p info kv.1) = none := by
        rw [List.find?_eq_none]
        intro kv hkv hm
        unfold aliasMatches at hm
        rw [if_pos hk] at hm
        refine h (by simpa using hb) p kv rfl hkv ?_
        simpa [eq_comm] using hm
      simp only [this]

/-- An entry that covers the path is followed to its end. -/
theorem replaced_run_all {c : Ctx} (hc : c.Sound) {d x : Str} {pkg : Pkg} (hd : isAbs d = true)
    (hl : c.load d = .ret (.ok (some pkg))) (ha : isAbs x = true) {w : AliasMap}
    (h : Replaced c.opts pkg x w) :
    ∃ N, ∀ n, N ≤ n → ∀ info : Info, info.request.kind = getTargetKind info.request.target →
      info.request.kind ≠ .normal → targetPath info.path info.request.target = x →
      aliasFieldPlugin c n (some pkg) info = .ret (replaced pkg info w) := by
  obtain ⟨hb, hu, k, v, he, hcov, hend⟩ := h
  have hf := hc.fields d pkg hd hl
  obtain ⟨N, hN⟩ := aliasChain_end hf hu hend
  refine ⟨N, fun n hn info hkind hk hx => ?_⟩
  have hfits : ∀ k, KeyFits c.opts pkg.absDir info.path info.request.target k ↔
      Covers c.opts.extensions pkg.absDir k x := by
    intro k
    unfold KeyFits
    rw [if_neg (hkind ▸ hk), hx]
  refine aliasField_chosen' hb hf (.refl _) hu hkind ((hfits k).2 hcov) (fun k' v' he' hk' => ?_) he
    (hN n hn)
  exact hc.only hb d pkg hd hl x k' v' k v ha (mem_of_alookup ((browserFields_entry hf hu _ _).2 he'))
    (mem_of_alookup ((browserFields_entry hf hu _ _).2 he)) ((hfits k').1 hk') hcov

theorem replaced_run {c : Ctx} (hc : c.Sound) {d x : Str} {pkg : Pkg} (hd : isAbs d = true)
    (hl : c.load d = .ret (.ok (some pkg))) (ha : isAbs x = true) {w : AliasMap}
    (h : Replaced c.opts pkg x w) {info : Info}
    (hkind : info.request.kind = getTargetKind info.request.target) (hk : info.request.kind ≠ .normal)
    (hx : targetPath info.path info.request.target = x) :
    ∃ N, ∀ n, N ≤ n → aliasFieldPlugin c n (some pkg) info = .ret (replaced pkg info w) := by
  obtain ⟨N, hN⟩ := replaced_run_all hc hd hl ha h
  exact ⟨N, fun n hn => hN n hn info hkind hk hx⟩

theorem targetPath_abs {d t : Str} (h : isAbs d = true) : isAbs (targetPath d t) = true := by
  unfold targetPath
  split
  · assumption
  · exact isAbs_pjoin_left _ h

/-- The plugin uses what the specification says in place of a path. -/
theorem swap_run {c : Ctx} (hc : c.Sound) {d x : Str} {pkg : Option Pkg} (hd : isAbs d = true)
    (hl : c.load d = .ret (.ok pkg)) {info : Info}
    (hkind : info.request.kind = getTargetKind info.request.target) (hk : info.request.kind ≠ .normal)
    (hx : targetPath info.path info.request.target = x) (ha : isAbs x = true) :
    (Swap c.opts pkg x none →
      ∃ N, ∀ n, N ≤ n → aliasFieldPlugin c n pkg info = .ret (.success .ignored)) ∧
    ∀ y, Swap c.opts pkg x (some y) → isAbs y = true ∧
      ∃ i : Info, targetPath i.path i.request.target = y ∧
        (∀ t, i.request.withTarget t = info.request.withTarget t) ∧
        (i.path = info.path ∨ ∃ p, pkg = some p ∧ i.path = p.absDir) ∧
        ∃ N, ∀ n, N ≤ n → aliasFieldPlugin c n pkg info = .ret (.resolving i) := by
  constructor
  · intro h
    cases h with
    | drop hp h =>
      subst hp
      exact replaced_run hc hd hl ha h hkind hk hx
  · intro y h
    cases h with
    | keep h =>
      exact ⟨ha, info, hx, fun _ => rfl, .inl rfl, 0, fun n _ =>
        aliasFieldPlugin_notCovered hk (hx ▸ h)⟩
    | @instead p t hp h =>
      subst hp
      exact ⟨targetPath_abs (hc.abs d p hd hl), ⟨p.absDir, info.request.withTarget t⟩, rfl, fun _ => rfl,
        .inr ⟨p, rfl, rfl⟩,
        replaced_run hc hd hl ha h hkind hk hx⟩

end Verif
