import Verif.Proofs.Halts
/-!
# Coming to an end while files change: the functions one by one

As `Verif.Proofs.Termination`.
-/

namespace Verif.Live

local notation "Sd[" V ", " W "]" => Halting (Among W) (HaltG V) (HaltR V)

/-- The path is absolute. -/
def Abs (i : Info) : Prop := isAbs i.path = true

/-- What is known of a stage result, by its kind. -/
def LStats (R E : Info → Prop) : Stats → Prop
  | .resolving i => R i
  | .error _ i => E i
  | .success (.info i) => Abs i
  | .success .ignored => True

/-- Any stage result with an absolute path. -/
abbrev AbsStats : Stats → Prop := LStats Abs Abs

theorem LStats.abs {R E : Info → Prop} {s : Stats} (h : LStats R E s) (hR : ∀ i, R i → Abs i) (hE : ∀ i, E i → Abs i) :
    AbsStats s := by
  rcases s with (i | _) | i | ⟨e, i⟩
  · exact h
  · trivial
  · exact hR i h
  · exact hE i h

section
variable {c : Config} {ser : Json → Str} {V W : Fs → Prop} {D F : Str → Bool} {σ : Nat → Nat}

theorem andThen_settled {R E R' E' : Info → Prop} {s : Stats} {f : Nat → Info → Live Stats} (h : LStats R E s)
    (hf : ∀ i, R i → Sd[V, W] (LStats R' E') fun n => f n i) (he : ∀ i, E i → E' i) :
    Sd[V, W] (LStats R' E') fun n => andThen s (f n) := by
  rcases s with (i | _) | i | ⟨e, i⟩
  · exact .ret h
  · exact .ret trivial
  · exact hf i h
  · exact .ret (he i h)

theorem trees_vals (hn : NoCycleAmong c.opts V) {root : Node} (h : TreeOf (.among V) root) :
    root.Vals (MV.Of NotHash) := by
  obtain ⟨v, k, ⟨fs, h1, h2⟩ | ⟨fs, h1, h2⟩, h3⟩ := h
  · exact buildTree_vals (hn.exports fs v h1 h2) h3
  · exact buildTree_vals (hn.imports fs v h1 h2) h3

theorem exportsPick_free {A : (q : Query) → q.Ret → Prop} {G : Op → Prop} {R : (o : Op) → o.Ret → Prop}
    {C : Crash → Prop} {d : Str} {l : List Str} (hl : ∀ s ∈ l, startsWith (parseRequest s).target cs!"#" = false) :
    (exportsPick d l).Sat A G R C fun r => ∀ i, r = some i → HashFree i ∧ i.path = d := by
  induction l with
  | nil => exact nofun
  | cons s l ih =>
    rw [exportsPick]
    refine sat_isFile fun b _ => ?_
    dsimp only
    split
    · rintro i h
      cases h
      exact ⟨hl s (List.mem_cons_self ..), rfl⟩
    · exact ih fun s hs => hl s (List.mem_cons_of_mem _ hs)

theorem exportsPlugin_settled (hs : Setting c V W D F) {pkg : Option Pkg} (hp : KnownPkg V pkg) {info : Info}
    (hi : Abs info) : Sd[V, W] (LStats (fun i => (i = info ∨ HashFree i) ∧ Abs i) fun i => i = info)
      fun n => exportsPlugin (host c ser (σ n)) pkg info := by
  refine .of_sat (p := exportsPlugin (host c ser 0) pkg info) (C := fun c => ∃ s, c = .panic s) ?_ (fun _ h => h)
    fun n => .refl _
  have same : LStats (fun i => (i = info ∨ HashFree i) ∧ Abs i) (fun i => i = info) (.resolving info) := ⟨.inl rfl, hi⟩
  unfold exportsPlugin
  cases pkg with
  | none => exact same
  | some pkg =>
    simp only
    split
    · exact same
    · split
      · exact same
      · cases hr : pkg.exportsTree with
        | none => exact same
        | some root =>
          simp only
          have hv := trees_vals hs.calm ((hp pkg rfl).origin.exports root hr)
          refine Sat.bind (P := fun _ => True) ?_ fun a _ => ?_
          · unfold exportsRequestOf
            simp only
            split
            · exact ⟨_, rfl⟩
            · split
              · trivial
              · refine sat_exists fun b _ => ?_
                split <;> trivial
          · cases a with
            | none => exact Eq.refl info
            | some remaining =>
              simp only
              obtain ⟨r, h1, h2⟩ := fieldProcess_items (k := .exports) hv remaining (host c ser 0).opts.conditionNames
              rw [h1]
              cases r with
              | error e => exact Eq.refl info
              | ok l =>
                simp only
                refine Sat.bind (exportsPick_free fun s hs => ?_) fun r hr => ?_
                · obtain ⟨t, rem, sub, ht, h3⟩ := h2 l rfl s hs
                  exact parse_notHash (targetMapping_notHash ht h3.1)
                · cases r with
                  | none => exact Eq.refl info
                  | some i =>
                    obtain ⟨h3, h4⟩ := hr i rfl
                    exact ⟨.inr h3, by unfold Abs; rw [h4]; exact (hp pkg rfl).abs⟩

theorem aliasChain_stops {json : Json} {fields : List (Str × AliasMap)}
    (hb : ∀ k t, (k, .target t) ∈ fields → BrowserStep json t k) (hw : WellFounded (BrowserStep json)) (t : Str) :
    ∃ N r, (∀ n, N ≤ n → aliasChain fields n (.target t) = some r) ∧
      ∀ t', r = .target t' → t' = t ∨ ∃ k, (k, .target t') ∈ fields := by
  induction t using hw.induction with
  | _ t ih =>
    cases hl : alookup t fields with
    | none =>
      refine ⟨1, .target t, fun n hn => ?_, fun t' h => by cases h; exact .inl rfl⟩
      obtain ⟨n, rfl⟩ : ∃ k, n = k + 1 := ⟨n - 1, by omega⟩
      simp only [aliasChain, hl]
    | some v =>
      cases v with
      | ignored =>
        refine ⟨2, .ignored, fun n hn => ?_, nofun⟩
        obtain ⟨n, rfl⟩ : ∃ k, n = k + 2 := ⟨n - 2, by omega⟩
        simp only [aliasChain, hl]
      | target t' =>
        have hm := mem_of_alookup hl
        obtain ⟨N, r, h1, h2⟩ := ih t' (hb _ _ hm)
        refine ⟨N + 1, r, fun n hn => ?_, fun x hx => .inr ?_⟩
        · obtain ⟨n, rfl⟩ : ∃ k, n = k + 1 := ⟨n - 1, by omega⟩
          simp only [aliasChain, hl]
          exact h1 n (by omega)
        · rcases h2 x hx with h | h
          · exact ⟨t, h ▸ hm⟩
          · exact h

/-- The browser-field plugin hands on the request, or a target of the map. -/
def Swapped (o : Opts) (pkg : Option Pkg) (info i : Info) : Prop :=
  i = info ∨ o.browserField = true ∧ ∃ p, pkg = some p ∧
    ∃ k t, (k, .target t) ∈ p.aliasFields ∧ i = (info.withPath p.absDir).withTarget t

theorem Swapped.abs {pkg : Option Pkg} (hp : KnownPkg V pkg) {info i : Info} (hi : Abs info)
    (h : Swapped c.opts pkg info i) : Abs i := by
  rcases h with rfl | ⟨-, p, h1, k, t, -, rfl⟩
  · exact hi
  · exact (hp p h1).abs

theorem aliasFieldPlugin_settled (hs : Setting c V W D F) {pkg : Option Pkg} (hp : KnownPkg V pkg) (info : Info) :
    Sd[V, W] (LStats (Swapped c.opts pkg info) fun _ => False)
      fun n => aliasFieldPlugin (host c ser (σ n)) n pkg info := by
  have same : Sd[V, W] (LStats (Swapped c.opts pkg info) fun _ => False) fun _ => .ret (.resolving info) :=
    .ret (.inl rfl)
  by_cases hbr : c.opts.browserField = true
  · cases pkg with
    | none =>
      refine same.of_eq 0 fun n _ => ?_
      unfold aliasFieldPlugin Verif.aliasFieldPlugin
      split <;> rfl
    | some pkg =>
      have hkn := hp pkg rfl
      have key : ∀ n, aliasFieldPlugin (host c ser (σ n)) n (some pkg) info =
          match pkg.aliasFields.find? (fun kv =>
            aliasMatches ⟨c.opts, noFs, c.debug, fun _ => .ret (.ok none)⟩ pkg info kv.1) with
          | none => .ret (.resolving info)
          | some (_, to) =>
            match aliasChain pkg.aliasFields n to with
            | none => .crash .fuel
            | some .ignored => .ret (.success .ignored)
            | some (.target t) => .ret (.resolving ((info.withPath pkg.absDir).withTarget t)) := by
        intro n
        unfold aliasFieldPlugin Verif.aliasFieldPlugin
        rw [if_neg (by show ¬ (!c.opts.browserField) = true; rw [hbr]; exact Bool.false_ne_true)]
        show lift (α := Stats) (match pkg.aliasFields.find? (fun kv =>
            aliasMatches ⟨c.opts, noFs, c.debug, fun _ => .ret (.ok none)⟩ pkg info kv.1) with
          | none => .ret (.resolving info)
          | some (_, to) =>
            match aliasChain pkg.aliasFields n to with
            | none => .crash .fuel
            | some (.target t) => .ret (.resolving ((info.withPath pkg.absDir).withTarget t))
            | some .ignored => .ret (.success .ignored)) = _
        cases pkg.aliasFields.find? (fun kv =>
            aliasMatches ⟨c.opts, noFs, c.debug, fun _ => .ret (.ok none)⟩ pkg info kv.1) with
        | none => rfl
        | some kv =>
          obtain ⟨k, to⟩ := kv
          dsimp only
          rcases aliasChain pkg.aliasFields n to with _ | (t | _) <;> rfl
      cases hf : pkg.aliasFields.find? (fun kv =>
          aliasMatches ⟨c.opts, noFs, c.debug, fun _ => .ret (.ok none)⟩ pkg info kv.1) with
      | none => exact same.of_eq 0 fun n _ => by rw [key n, hf]
      | some kv =>
        obtain ⟨k, to⟩ := kv
        have hm := List.mem_of_find?_eq_some hf
        obtain ⟨fs, file, doc, h1, h2, h2'⟩ := hkn.origin.file
        obtain ⟨N, r, h3, h4⟩ : ∃ N r, (∀ n, N ≤ n → aliasChain pkg.aliasFields n to = some r) ∧
            ∀ t', r = .target t' → ∃ k, (k, .target t') ∈ pkg.aliasFields := by
          cases to with
          | ignored =>
            refine ⟨1, .ignored, fun n hn => ?_, nofun⟩
            obtain ⟨n, rfl⟩ : ∃ k, n = k + 1 := ⟨n - 1, by omega⟩
            simp only [aliasChain]
          | target t =>
            obtain ⟨N, r, h3, h4⟩ := aliasChain_stops (json := pkg.raw) (fun k t h => by
              cases hkn.origin.browser k _ h with
              | target h5 h6 => exact ⟨_, h5, h6⟩) (hs.calm.browser hbr fs file doc _ h1 h2 h2') t
            exact ⟨N, r, h3, fun t' ht => (h4 t' ht).elim (fun e => ⟨k, e ▸ hm⟩) id⟩
        cases r with
        | ignored =>
          refine .done N (.success .ignored) (fun n hn => ?_) trivial
          rw [key n, hf]
          simp only [h3 n hn]
        | target t =>
          obtain ⟨k', hk'⟩ := h4 t rfl
          refine .done N (.resolving ((info.withPath pkg.absDir).withTarget t)) (fun n hn => ?_)
            (.inr ⟨hbr, pkg, rfl, k', t, hk', rfl⟩)
          rw [key n, hf]
          simp only [h3 n hn]
  · refine same.of_eq 0 fun n _ => ?_
    unfold aliasFieldPlugin Verif.aliasFieldPlugin
    rw [if_pos]
    · rfl
    · show (!c.opts.browserField) = true
      rw [Bool.not_eq_true _ |>.mp hbr]
      rfl

theorem importsPlugin_skip {pkg : Option Pkg} {i : Info} (h : HashFree i) (σ : Nat → Nat) :
    Sd[V, W] (LStats (fun j => j = i) fun _ => False) fun n => importsPlugin (host c ser (σ n)) n pkg i := by
  refine .succ (Halting.of_eq (P := fun _ => .ret (.resolving i)) (.ret (show LStats (fun j => j = i) (fun _ => False) (.resolving i) from Eq.refl i)) 0 fun n _ => ?_)
  cases pkg with
  | none => rfl
  | some pkg =>
    rw [importsPlugin]
    simp only [show (!startsWith i.request.target cs!"#") = true by rw [h]; rfl, if_true]

theorem importsCheck_settled {i : Info} (hi : Abs i) (t : Str) : Sd[V, W] AbsStats fun _ => importsCheck i t := by
  unfold importsCheck
  refine settled_isFile fun b _ => ?_
  split
  · exact .ret hi
  · exact .ret hi

theorem importsPlugin_settled (hs : Setting c V W D F) {pkg : Option Pkg} (hp : KnownPkg V pkg) {info : Info}
    (hi : Abs info) (σ : Nat → Nat) : Sd[V, W] AbsStats fun n => importsPlugin (host c ser (σ n)) n pkg info := by
  refine .succ ?_
  simp only [importsPlugin]
  cases pkg with
  | none => exact .ret hi
  | some pkg =>
    simp only
    split
    · exact .ret hi
    · cases hr : pkg.importsTree with
      | none => exact .ret hi
      | some root =>
        simp only
        obtain ⟨r, h1, h2⟩ := fieldProcess_items (k := .imports)
          (trees_vals hs.calm ((hp pkg rfl).origin.imports root hr)) info.request.target c.opts.conditionNames
        simp only [show ∀ n, (host c ser (σ (n + 1))).opts.conditionNames = c.opts.conditionNames from fun _ => rfl, h1]
        cases r with
        | error e => exact .ret hi
        | ok l =>
          cases l with
          | nil => exact .ret hi
          | cons item l =>
            simp only
            have hh : startsWith (parseRequest item).target cs!"#" = false := by
              obtain ⟨t, rem, sub, ht, h3⟩ := h2 _ rfl item (List.mem_cons_self ..)
              exact parse_notHash (targetMapping_notHash ht h3.1)
            have hdir := (hp pkg rfl).abs
            split
            · have ha : Abs ⟨pjoin pkg.absDir MODULE, parseRequest item⟩ := isAbs_pjoin_left MODULE hdir
              refine load_settled hs (σ := fun n => σ (n + 1)) (getPath_abs ha) (fun e => .ret ha) fun pkg' hp' => ?_
              simp only
              split
              · exact .ret ha
              · refine Halting.bind (exportsPlugin_settled hs hp' ha) fun s hs' => ?_
                refine Halting.bind (Q := LStats (fun i => Abs i) Abs) ?_ fun s hs' => ?_
                · refine andThen_settled hs' (fun i hi => ?_) fun i hi => hi ▸ ha
                  refine (importsPlugin_skip (hi.1.elim (fun e => e ▸ hh) id) fun n => σ (n + 1)).mono fun s h => ?_
                  exact h.abs (fun j hj => hj ▸ hi.2) nofun
                · refine Halting.bind (Q := AbsStats) ?_ fun s hs' => ?_
                  · refine andThen_settled hs' (fun i hi => ?_) fun i hi => hi
                    exact (aliasFieldPlugin_settled (σ := fun n => σ (n + 1)) hs hp' i).mono fun s h =>
                      h.abs (fun j hj => hj.abs hp' hi) nofun
                  · exact andThen_settled hs' (fun i hi => importsCheck_settled hi _) fun i hi => hi
            · split
              · refine (importsPlugin_skip (i := ⟨pkg.absDir, parseRequest item⟩) hh fun n => σ (n + 1)).mono fun s h => ?_
                exact h.abs (fun j hj => hj ▸ hdir) nofun
              · exact importsCheck_settled (i := ⟨pkg.absDir, parseRequest item⟩) hdir _

theorem extensionsLoop_settled {info : Info} {path : Str} (hp : isAbs path = true) (l : List Str) :
    Sd[V, W] (LStats (fun i => i = info) fun _ => False) fun _ => extensionsLoop path info l := by
  induction l with
  | nil => exact .ret (Eq.refl info)
  | cons ext l ih =>
    rw [extensionsLoop]
    refine settled_isFile fun b _ => ?_
    cases b with
    | false => exact ih
    | true =>
      refine .ret ?_
      obtain ⟨r, hr⟩ := (isAbs_iff _).1 hp
      show isAbs (path ++ ext) = true
      rw [hr]; simp [isAbs, startsWith, List.isPrefixOf]

theorem resolveAsFile_settled {info : Info} (hi : Abs info) (σ : Nat → Nat) :
    Sd[V, W] (LStats (fun i => i = info) fun _ => False) fun n => resolveAsFile (host c ser (σ n)) info := by
  show Sd[V, W] _ fun _ => resolveAsFile (host c ser 0) info
  unfold resolveAsFile
  dsimp only
  split
  · exact extensionsLoop_settled (getPath_abs hi) _
  · refine settled_isFile fun b _ => ?_
    cases b with
    | false => exact extensionsLoop_settled (getPath_abs hi) _
    | true => exact .ret (getPath_abs hi)

theorem mainFileLoop_settled (hs : Setting c V W D F) {pkg : Option Pkg} (hp : KnownPkg V pkg) (info : Info)
    (l : List Str) {cur : Info} (hc : Abs cur) (σ : Nat → Nat) :
    Sd[V, W] (LStats (fun i => i = info) fun _ => False)
      fun n => mainFileLoop (host c ser (σ n)) n pkg info l cur := by
  induction l generalizing cur with
  | nil => exact .ret (Eq.refl info)
  | cons f l ih =>
    simp only [mainFileLoop]
    have ha : Abs (cur.withTarget (cs!"./" ++ f)) := hc
    refine Halting.bind (Q := AbsStats) ?_ fun s hs' => ?_
    · refine Halting.bind (exportsPlugin_settled hs hp ha) fun s hs' => ?_
      refine Halting.bind (Q := AbsStats) ?_ fun s hs' => ?_
      · exact andThen_settled hs' (fun i hi => importsPlugin_settled hs hp hi.2 σ) fun i hi => hi ▸ ha
      · refine Halting.bind (Q := AbsStats) ?_ fun s hs' => ?_
        · exact andThen_settled hs' (fun i hi => (aliasFieldPlugin_settled hs hp i).mono fun s h =>
            h.abs (fun j hj => hj.abs hp hi) nofun) fun i hi => hi
        · exact andThen_settled hs' (fun i hi => (resolveAsFile_settled hi σ).mono fun s h =>
            h.abs (fun j hj => hj ▸ hi) nofun) fun i hi => hi
    · rcases s with (i | _) | i | ⟨e, i⟩
      · exact .ret hs'
      · exact .ret trivial
      · exact ih hs'
      · exact ih hs'

/-- Where `resolve_as_dir` leaves off. -/
abbrev DirLStats (info : Info) : Stats → Prop := LStats (fun i => i.path = info.getPath) fun i => i = info

theorem mainFieldLoop_settled (hs : Setting c V W D F) {pkg : Pkg} (hp : KnownFrom V pkg) (info : Info)
    {asDir : Nat → Info → Live Stats} {l : List Str} {cur : Info} (hc : Abs cur) (σ : Nat → Nat)
    (hd : ∀ i : Info, Abs i → Tries c.opts pkg l cur.path i.getPath →
      Sd[V, W] (DirLStats i) fun n => asDir n i) :
    Sd[V, W] (LStats (fun i => i = info) fun _ => False)
      fun n => mainFieldLoop (host c ser (σ n)) n (asDir n) pkg info l cur := by
  induction l generalizing cur with
  | nil => exact .ret (Eq.refl info)
  | cons f l ih =>
    simp only [mainFieldLoop]
    cases hm : (pkg.raw.get f).bind Json.asStr with
    | none =>
      refine ih hc fun i ha hi => hd i ha (.next (fun m h => ?_) (.inl rfl) hi)
      rw [h] at hm
      cases hm
    | some m =>
      have hm' : pkg.raw.get f = some (.str m) := by
        cases hg : pkg.raw.get f with
        | none => rw [hg] at hm; cases hm
        | some v =>
          rw [hg] at hm
          cases v <;> cases hm
          rfl
      simp only
      split
      · exact .ret (Eq.refl info)
      · rename_i hself
        have hself : ¬ SelfValue m := fun h => hself (by simpa [SelfValue] using h)
        have hself' : ∀ m, pkg.raw.get f = some (.str m) → ¬ SelfValue m := by
          intro m' h
          rw [hm'] at h
          cases h
          exact hself
        rw [startsWith_dotted]
        have hknown : KnownPkg V (some pkg) := fun p h => by cases h; exact hp
        have ha : Abs (cur.withTarget (dotted m)) := hc
        have lead : ∀ i : Info, Swapped c.opts (some pkg) (cur.withTarget (dotted m)) i →
            Leads c.opts pkg cur.path m i.getPath ∧
              (i.path = cur.path ∨ c.opts.browserField = true ∧ i.path = pkg.absDir) := by
          rintro i (rfl | ⟨hb, p, hp, k, t, hk, rfl⟩)
          · exact ⟨.inl (getPath_dotted cur m), .inl rfl⟩
          · cases hp
            refine ⟨.inr ⟨hb, k, t, hk, ?_⟩, .inr ⟨hb, rfl⟩⟩
            rw [getPath_eq]
            rfl
        refine Halting.bind (Q := LStats
          (fun i => Abs i ∧ (i.path = cur.path ∨ (c.opts.browserField = true ∧ i.path = pkg.absDir) ∨
            Leads c.opts pkg cur.path m i.path))
          (fun i => Abs i ∧ (i.path = cur.path ∨ (c.opts.browserField = true ∧ i.path = pkg.absDir)))) ?_ fun s hs' => ?_
        · refine Halting.bind (aliasFieldPlugin_settled hs hknown _) fun s hs' => ?_
          rcases s with (i | _) | i | ⟨e, i⟩
          · exact .ret hs'
          · exact .ret trivial
          · obtain ⟨h1, h2⟩ := lead i hs'
            have hi : Abs i := Swapped.abs hknown ha hs'
            refine Halting.bind (resolveAsFile_settled hi σ) fun s hs' => ?_
            rcases s with (j | _) | j | ⟨e, j⟩
            · exact .ret hs'
            · exact .ret trivial
            · cases hs'
              refine (hd i hi (.here hm' hself h1)).mono fun s hs' => ?_
              rcases s with (k | _) | k | ⟨e, k⟩
              · exact hs'
              · trivial
              · have hk : k.path = i.getPath := hs'
                exact ⟨by unfold Abs; rw [hk]; exact getPath_abs hi, .inr (.inr (hk ▸ h1))⟩
              · have hk : k = i := hs'
                exact hk ▸ ⟨hi, h2⟩
            · exact hs'.elim
          · exact hs'.elim
        · rcases s with (i | _) | i | ⟨e, i⟩
          · exact .ret hs'
          · exact .ret trivial
          · refine ih hs'.1 fun j ha hj => hd j ha (.next hself' ?_ hj)
            rcases hs'.2 with h | h | h
            · exact .inl h
            · exact .inr (.inl h)
            · exact .inr (.inr ⟨m, hm', h⟩)
          · refine ih hs'.1 fun j ha hj => hd j ha (.next hself' ?_ hj)
            rcases hs'.2 with h | h
            · exact .inl h
            · exact .inr (.inl h)

theorem resolveAsDir_settled (hs : Setting c V W D F) {info : Info} (ha : Abs info) (σ : Nat → Nat) :
    Sd[V, W] (DirLStats info) fun n => resolveAsDir (host c ser (σ n)) n info := by
  generalize hd : info.getPath = d
  induction d using hs.calm.main.induction generalizing info σ with
  | _ d ih =>
    subst hd
    refine .succ ?_
    simp only [resolveAsDir]
    refine settled_isDir fun b hb => ?_
    cases b with
    | false => exact .ret (Eq.refl info)
    | true =>
      refine load_settled hs (σ := fun n => σ (n + 1)) (getPath_abs ha) (fun e => .ret (Eq.refl info)) fun pkg hp => ?_
      simp only
      have hi' : Abs ((info.withPath info.getPath).withTarget []) := getPath_abs ha
      refine Halting.bind (Q := LStats (fun i => i.path = info.getPath) fun _ => False) ?_ fun s hs' => ?_
      · unfold mainFieldPlugin
        cases pkg with
        | none => exact .ret (Eq.refl info.getPath)
        | some pkg =>
          simp only
          split
          · exact .ret (Eq.refl info.getPath)
          · rename_i hq
            have hc : comps info.getPath = comps pkg.absDir := by
              simpa [pathEq, Info.withPath, Info.withTarget] using hq
            refine (mainFieldLoop_settled (ser := ser) (l := c.opts.mainFields) hs (hp pkg rfl) _ hi' (fun n => σ (n + 1))
              (asDir := fun n => resolveAsDir (host c ser (σ (n + 1))) n) fun i hi ht => ?_).mono fun s h => ?_
            · by_cases hdir : ∃ fs, V fs ∧ fs.isDir i.getPath = true
              · exact ih i.getPath ⟨hdir, pkg, (hp pkg rfl).among, hc, ht⟩ hi (fun n => σ (n + 1)) rfl
              · refine .succ ?_
                simp only [resolveAsDir]
                refine settled_isDir fun b hb => ?_
                cases b with
                | false => exact .ret (Eq.refl i)
                | true =>
                  obtain ⟨fs, h1, h2⟩ := hb
                  exact absurd ⟨fs, hs.sub fs h1, h2⟩ hdir
            · rcases s with (j | _) | j | ⟨e, j⟩
              · exact h
              · trivial
              · rw [show j = _ from h]; exact Eq.refl info.getPath
              · exact h.elim
      · refine andThen_settled hs' (fun i hi => ?_) nofun
        have hi'' : Abs i := by unfold Abs; rw [hi]; exact getPath_abs ha
        refine (mainFileLoop_settled (ser := ser) hs hp i c.opts.mainFiles hi'' fun n => σ (n + 1)).mono fun s h => ?_
        rcases s with (j | _) | j | ⟨e, j⟩
        · exact h
        · trivial
        · rw [show j = i from h]; exact hi
        · exact h.elim

theorem resolveAsDir_abs (hs : Setting c V W D F) {info : Info} (ha : Abs info) (σ : Nat → Nat) :
    Sd[V, W] AbsStats fun n => resolveAsDir (host c ser (σ n)) n info :=
  (resolveAsDir_settled hs ha σ).mono fun s h =>
    h.abs (fun i hi => by unfold Abs; rw [hi]; exact getPath_abs ha) fun i hi => hi ▸ ha

theorem modulePackageChain_settled (hs : Setting c V W D F) {pkg : Option Pkg} (hp : KnownPkg V pkg) {info : Info}
    (ha : Abs info) (σ : Nat → Nat) : Sd[V, W] AbsStats fun n => modulePackageChain (host c ser (σ n)) n pkg info := by
  unfold modulePackageChain
  refine Halting.bind (exportsPlugin_settled hs hp ha) fun s hs' => ?_
  refine Halting.bind (Q := AbsStats) (andThen_settled hs' (fun i hi => importsPlugin_settled hs hp hi.2 σ)
    fun i hi => hi ▸ ha) fun s hs' => ?_
  refine Halting.bind (Q := AbsStats) (andThen_settled hs' (fun i hi => ?_) fun i hi => hi) fun s hs' => ?_
  · refine (aliasFieldPlugin_settled hs hp _).mono fun s h => h.abs (fun j hj => hj.abs hp ?_) nofun
    split <;> exact hi
  · refine Halting.bind (Q := AbsStats) (andThen_settled hs' (fun i hi => (resolveAsFile_settled hi σ).mono fun s h =>
      h.abs (fun j hj => hj ▸ hi) nofun) fun i hi => hi) fun s hs' => ?_
    exact andThen_settled hs' (fun i hi => resolveAsDir_abs hs hi σ) fun i hi => hi

theorem moduleStep_settled (hs : Setting c V W D F) {info : Info} (ha : Abs info) (σ : Nat → Nat) :
    Sd[V, W] (fun r => AbsStats r.1) fun n => moduleStep (host c ser (σ n)) n info := by
  unfold moduleStep
  simp only
  have hroot : isAbs (pjoin info.path MODULE) = true := isAbs_pjoin_left MODULE ha
  refine settled_isDir fun b _ => ?_
  split
  · exact .ret ha
  · split
    · exact .panic _
    · refine load_settled hs (isAbs_pjoin_left _ hroot) (fun e => .ret ha) fun pkg hp => ?_
      simp only
      refine settled_isDir fun b _ => ?_
      split
      · refine Halting.bind (resolveAsFile_settled (info := ⟨_, info.request⟩) hroot σ) fun s hs' => ?_
        split
        · exact .ret (by rename_i r; cases r <;> exact hs')
        · exact .ret ha
      · refine Halting.bind (modulePackageChain_settled hs hp (info := ⟨_, info.request⟩) hroot σ) fun s hs' => ?_
        split
        · split
          · exact .ret ha
          · exact .ret hs'
        · exact .ret hs'

theorem resolveAsModules_settled (hs : Setting c V W D F) {info : Info} (ha : Abs info) (σ : Nat → Nat) :
    Sd[V, W] AbsStats fun n => resolveAsModules (host c ser (σ n)) n info := by
  generalize hk : info.path.length = k
  induction k using Nat.strongRecOn generalizing info σ with
  | _ k ih =>
    subst hk
    refine .succ ?_
    simp only [resolveAsModules]
    refine Halting.bind (moduleStep_settled hs ha fun n => σ (n + 1)) fun r hr => ?_
    obtain ⟨s, b⟩ := r
    cases b with
    | true => exact .ret hr
    | false =>
      simp only
      refine Halting.bind (Q := AbsStats) (andThen_settled hr (fun i hi => ?_) fun i hi => hi) fun s hs' => ?_
      · cases hp : pparent info.path with
        | none => exact .ret hi
        | some parent =>
          exact ih _ (pparent_length hp) (info := i.withPath parent) ((isAbs_pparent hp).trans ha)
            (fun n => σ (n + 1)) rfl
      · rcases s with (i | _) | i | ⟨e, i⟩
        · exact .ret hs'
        · exact .ret trivial
        · exact .ret hs'
        · exact .ret hs'

theorem pkgStage_settled (hs : Setting c V W D F) {info : Info} (ha : Abs info) (σ : Nat → Nat) :
    Sd[V, W] AbsStats fun n => pkgStage (host c ser (σ n)) n info := by
  unfold pkgStage
  refine load_settled hs ?_ (fun e => .ret ha) fun pkg hp => ?_
  · split
    · exact isAbs_pjoin_left _ (isAbs_pjoin_left _ ha)
    · exact getPath_abs ha
  · refine Halting.bind (importsPlugin_settled hs hp ha σ) fun s hs' => ?_
    exact andThen_settled hs' (fun i hi => (aliasFieldPlugin_settled hs hp i).mono fun s h =>
      h.abs (fun j hj => hj.abs hp hi) nofun) fun i hi => hi

theorem lastStage_settled (hs : Setting c V W D F) {info : Info} (ha : Abs info) (σ : Nat → Nat) :
    Sd[V, W] AbsStats fun n => lastStage (host c ser (σ n)) n info := by
  have dir : Sd[V, W] AbsStats fun n => (resolveAsFile (host c ser (σ n)) info).bind fun s =>
      andThen s fun i => resolveAsDir (host c ser (σ n)) n i :=
    Halting.bind (resolveAsFile_settled ha σ) fun s hs' =>
      andThen_settled hs' (fun i hi => resolveAsDir_abs hs (hi ▸ ha) σ) nofun
  unfold lastStage
  cases info.request.kind
  all_goals first
    | exact dir
    | exact resolveAsModules_settled hs ha σ

theorem aliasLoop_settled {o : Opts} {rec : Nat → Info → Live Stats} {info : Info} {l : List (Str × AliasMap)}
    (hl : ∀ x ∈ l, x ∈ o.alias)
    (hr : ∀ i : Info, i.path = info.path → AliasStep o i.request.target info.request.target →
      Sd[V, W] AbsStats fun n => rec n i) :
    Sd[V, W] (LStats (fun i => i = info) fun _ => False) fun n => aliasLoop (rec n) info l := by
  induction l with
  | nil => exact .ret (Eq.refl info)
  | cons x l ih =>
    have ih := ih fun x hx => hl x (List.mem_cons_of_mem _ hx)
    obtain ⟨src, to⟩ := x
    simp only [aliasLoop]
    split
    · rename_i hs
      cases to with
      | ignored => exact .ret trivial
      | target to =>
        simp only
        split
        · exact ih
        · rename_i hne
          obtain ⟨rest, hrest⟩ := (startsWith_iff _ _).1 hs
          refine Halting.bind (hr _ rfl ?_) fun s hs' => ?_
          · have : replaceFirst info.request.target src to = to ++ rest := by
              rw [← hrest]; exact replaceFirst_prefix src rest to
            show AliasStep o (replaceFirst info.request.target src to) _
            rw [this, ← hrest]
            refine .replace (hl _ (List.mem_cons_self ..)) fun h => hne ?_
            rw [hrest] at h
            simp [(startsWith_iff _ _).2 h]
          · rcases s with (i | _) | i | ⟨e, i⟩
            · exact .ret hs'
            · exact .ret trivial
            · exact ih
            · exact ih
    · exact ih

theorem resolveInner_settled (hs : Setting c V W D F) {info : Info} (ha : Abs info) (σ : Nat → Nat) :
    Sd[V, W] AbsStats fun n => resolveInner (host c ser (σ n)) n info := by
  generalize ht : info.request.target = t
  induction t using hs.calm.alias.induction generalizing info σ with
  | _ t ih =>
    subst ht
    refine .succ ?_
    simp only [resolveInner]
    refine Halting.bind (Q := AbsStats) ?_ fun s hs' => ?_
    · refine Halting.bind (Q := LStats (fun i => i = info) fun _ => False) ?_ fun s hs' => ?_
      · unfold aliasPlugin
        split
        · exact .ret (Eq.refl info)
        · exact aliasLoop_settled (o := c.opts) (fun x hx => hx) fun i hp hi =>
            ih _ hi (info := i) (by unfold Abs; rw [hp]; exact ha) (fun n => σ (n + 1)) rfl
      · refine Halting.bind (Q := AbsStats) (andThen_settled hs' (fun i hi => ?_) nofun) fun s hs' => ?_
        · cases hi
          simp only [preferRelativePlugin]
          split
          · exact .ret ha
          · rename_i hne
            show Sd[V, W] AbsStats fun n => if c.opts.preferRelative = true then _ else _
            split
            · rename_i hpr
              refine Halting.bind (ih _ (.prefer hpr (fun h => hne ?_) (fun h => hne ?_))
                (info := ⟨info.path, info.request.withTarget (cs!"./" ++ info.request.target)⟩) ha (fun n => σ (n + 1)) rfl)
                fun s hs' => ?_
              · simp [(startsWith_iff _ _).2 h]
              · simp [(startsWith_iff _ _).2 h]
              · rcases s with (i | _) | i | ⟨e, i⟩
                · exact .ret hs'
                · exact .ret trivial
                · exact .ret ha
                · exact .ret ha
            · exact .ret ha
        · refine Halting.bind (Q := AbsStats) (andThen_settled hs' (fun i hi => pkgStage_settled hs hi fun n => σ (n + 1))
            fun i hi => hi) fun s hs' => ?_
          exact andThen_settled hs' (fun i hi => lastStage_settled hs hi fun n => σ (n + 1)) fun i hi => hi
    · rcases s with (i | _) | i | ⟨e, i⟩
      · exact .ret hs'
      · exact .ret trivial
      · exact .panic _
      · exact .ret hs'

/-! ## tsconfig, and the whole call -/

theorem tsValue_settled (hs : Setting c V W D F) (ht : c.opts.tsconfig ≠ none) {location : Str}
    (ha : isAbs location = true) (σ : Nat → Nat) :
    Sd[V, W] (fun _ => True) fun n => tsValue (host c ser (σ n)) n location := by
  induction location using (hs.calm.tsconfig ht).induction generalizing σ with
  | _ location ih =>
    refine .succ ?_
    simp only [tsValue]
    refine .ask 0 _ _ (fun _ _ => rfl) fun r hr => ?_
    obtain ⟨fs, h1, h2⟩ := hr
    cases r with
    | none => exact .ret trivial
    | some doc =>
      simp only
      cases hj : doc.jsonc with
      | error msg => exact .ret trivial
      | ok json =>
        cases json with
        | none => exact .panic _
        | some json =>
          simp only
          split
          · rename_i s hsx
            cases hp : pparent location with
            | none => exact .panic _
            | some dir =>
              simp only
              have had : Abs ⟨dir, parseRequest s⟩ := (isAbs_pparent hp).trans ha
              refine Halting.bind (resolveInner_settled hs had fun n => σ (n + 1)).strong fun st hst => ?_
              obtain ⟨hst, n, hen⟩ := hst
              rcases st with (i | _) | i | ⟨e, i⟩
              · simp only
                refine Halting.bind (ih i.getPath ⟨fs, doc, json, s, dir, i, _, n, hs.sub fs h1, h2, hj, hsx, hp, ?_,
                  hen.mono (fun q r ⟨fs, h3, h4⟩ => ⟨fs, hs.sub fs h3, h4⟩) haltR_cached, rfl⟩ (getPath_abs hst)
                  fun n => σ (n + 1)) fun r _ => ?_
                · rfl
                · cases r <;> exact .ret trivial
              · exact .ret trivial
              · exact .ret trivial
              · exact .ret trivial
          · exact .ret trivial

theorem tsPathsTry_settled {rec : Nat → Info → Live Stats} {star : Str} {next : Nat → Live Stats} {l : List Str}
    (hr : ∀ p ∈ l, Sd[V, W] AbsStats fun n => rec n ⟨replaceChar p '*' star, Request.empty⟩)
    (hn : Sd[V, W] AbsStats next) : Sd[V, W] AbsStats fun n => tsPathsTry (rec n) star (next n) l := by
  induction l with
  | nil => exact hn
  | cons p l ih =>
    simp only [tsPathsTry]
    refine Halting.bind (hr p (List.mem_cons_self ..)) fun s hs' => ?_
    have ih := ih fun q hq => hr q (List.mem_cons_of_mem _ hq)
    rcases s with (i | _) | i | ⟨e, i⟩
    · exact .ret hs'
    · exact .ret trivial
    · exact ih
    · exact ih

theorem tsEntries_settled {rec : Nat → Info → Live Stats} {info : Info} {l : List (Str × List Str)}
    (hi : Sd[V, W] AbsStats fun n => rec n info)
    (hr : ∀ kp ∈ l, ∀ p ∈ kp.2, ∀ star, Sd[V, W] AbsStats fun n => rec n ⟨replaceChar p '*' star, Request.empty⟩) :
    Sd[V, W] AbsStats fun n => tsEntries (rec n) info l := by
  induction l with
  | nil => exact hi
  | cons e l ih =>
    obtain ⟨pattern, paths⟩ := e
    have ih := ih fun e he => hr e (List.mem_cons_of_mem _ he)
    simp only [tsEntries]
    change Sd[V, W] AbsStats fun n => (match tsStar info pattern with
      | none => .panic .starSlice
      | some none => tsEntries (rec n) info l
      | some (some s) => tsPathsTry (rec n) s (tsEntries (rec n) info l) paths)
    split
    · exact .panic _
    · exact ih
    · rename_i s _
      exact tsPathsTry_settled (fun p hp => hr _ (List.mem_cons_self ..) p hp s) ih

theorem resolveStats_settled (hs : Setting c V W D F) {path : Str} (ha : isAbs path = true)
    (ht : ∀ l, c.opts.tsconfig = some l → isAbs l = true) (request : Str) (σ : Nat → Nat) :
    Sd[V, W] AbsStats fun n => resolveStats (host c ser (σ n)) n path request := by
  have hi : Abs ⟨path, parseRequest request⟩ := ha
  unfold resolveStats
  simp only [show ∀ n, (host c ser (σ n)).opts.tsconfig = c.opts.tsconfig from fun _ => rfl]
  cases hl : c.opts.tsconfig with
  | none => exact resolveInner_settled hs hi σ
  | some location =>
    simp only
    unfold resolveWithTsconfig
    have hal := ht location hl
    refine Halting.bind (tsValue_settled hs (by rw [hl]; nofun) hal σ) fun r _ => ?_
    cases r with
    | error e => exact .ret hi
    | ok json =>
      dsimp only
      split
      · exact .panic _
      · split
        · exact .panic _
        · rename_i entries he
          refine .op 0 _ _ (fun _ _ => rfl) ⟨trivial, trivial⟩ fun r _ => ?_
          refine tsEntries_settled (resolveInner_settled hs hi σ) fun kp hkp p hp star => ?_
          obtain ⟨dir, b, q, hd, rfl⟩ := createMatchList_mem he kp (mem_permute hkp) p hp
          exact resolveInner_settled hs (info := ⟨_, _⟩) (isAbs_replaceChar
            (isAbs_pjoin_left _ (isAbs_pjoin_left _ ((isAbs_pparent hd).trans hal)))) σ

/-- Every call settles. -/
theorem prog_settled (hs : Setting c V W D F) {call : Call} (ha : call.abs)
    (ht : ∀ l, c.opts.tsconfig = some l → isAbs l = true) (σ : Nat → Nat) :
    Sd[V, W] (fun _ => True) fun n => Live.prog (host c ser (σ n)) n call := by
  cases call with
  | resolve path request =>
    unfold Live.prog
    refine Halting.bind (Q := fun _ => True) ?_ fun _ _ => .ret trivial
    unfold resolve
    refine Halting.bind (resolveStats_settled hs ha ht request σ) fun s _ => ?_
    cases s with
    | error err j => exact .ret trivial
    | resolving j => exact .panic _
    | success r =>
      refine .of_sat (p := normalizeResult (host c ser 0) r) (C := fun c => ∃ s, c = .panic s) ?_ (fun _ h => h)
        fun n => .refl _
      exact (normalizeResult_was r fun _ _ _ => ⟨_, rfl⟩).mono fun _ _ => trivial
  | sideEffects path =>
    unfold Live.prog
    refine Halting.bind (Q := fun _ => True) ?_ fun _ _ => .ret trivial
    unfold loadSideEffects
    refine load_settled hs ha (fun e => .ret trivial) fun pkg _ => ?_
    cases pkg with
    | none => exact .ret trivial
    | some pkg =>
      dsimp only
      simp only [show ∀ n, (host c ser (σ n)).opts.descriptionFile = c.opts.descriptionFile from fun _ => rfl]
      split
      · exact .panic _
      · exact .ret trivial

end

/-! ## The system -/

/-- The state with another task number `i`. -/
def Sys.put (s : Sys) (i : Nat) (t : Task) : Sys := { s with tasks := s.tasks.set i t }

section
variable {cfg : Nat → Config} {ser : Json → Str} {V W : Fs → Prop}

theorem put_next {s : Sys} {i : Nat} {t : Task} (hi : i < s.tasks.length) {e : Event}
    (he : ∀ seed, e ≠ .step i seed) : (s.put i t).next cfg ser e = (s.next cfg ser e).put i t := by
  cases e with
  | start rid call fuel =>
    simp only [Sys.next, Sys.put, List.set_append, hi, if_true]
  | change fs => rfl
  | step j seed =>
    have hj : j ≠ i := fun h => he seed (h ▸ rfl)
    have hg : (s.put i t).tasks[j]? = s.tasks[j]? := by
      simp only [Sys.put]
      rw [List.getElem?_set_ne (fun h => hj h.symm)]
    unfold Sys.next
    dsimp only
    rw [hg]
    cases hx : s.tasks[j]? with
    | none => rfl
    | some u =>
      dsimp only
      cases hq : u.prog with
      | ret a => rfl
      | crash c => rfl
      | ask q k =>
        simp only [Sys.put]
        rw [List.set_comm _ _ (fun h => hj h.symm)]
      | op o k =>
        simp only [Sys.put]
        rw [List.set_comm _ _ (fun h => hj h.symm)]

theorem next_length (s : Sys) (e : Event) : s.tasks.length ≤ (s.next cfg ser e).tasks.length := by
  cases e with
  | start rid call fuel => simp [Sys.next]
  | change fs => exact Nat.le_refl _
  | step j seed =>
    unfold Sys.next
    dsimp only
    split
    · exact Nat.le_refl _
    · split <;> simp

/-- What is known of the other tasks, and of the shared state. -/
structure Primed (V W : Fs → Prop) (s : Sys) : Prop where
  hist : HistJ V s.shared
  stored : Stored (AtQ V) s.shared
  fs : W s.fs
  tasks : ∀ t ∈ s.tasks, t.prog.Sat (Among V) (HaltG V) (HaltR V) (fun _ => True) fun _ => True

theorem halt_step {s : Shared} (h1 : HistJ V s) (h2 : Stored (AtQ V) s) (rid : Nat) {o : Op} (hG : HaltG V o)
    (seeds : Nat → Nat) : (HistJ V (s.store cfg rid (Op.exec (s.view cfg rid seeds) o).2) ∧
      Stored (AtQ V) (s.store cfg rid (Op.exec (s.view cfg rid seeds) o).2)) ∧
      HaltR V o (Op.exec (s.view cfg rid seeds) o).1 :=
  have a := hist_step (cfg := cfg) s rid o seeds h1 hG.1
  have b := Verif.stored_step cfg s rid o seeds h2 hG.2
  ⟨⟨a.1, b.1⟩, a.2, b.2⟩

theorem Primed.next (hsub : ∀ fs, W fs → V fs) {s : Sys} (h : Primed V W s) {e : Event}
    (he : ∀ fs, e = .change fs → W fs) : Primed V W (s.next cfg ser e) := by
  cases e with
  | start rid call fuel =>
    refine ⟨h.hist, h.stored, h.fs, fun t ht => ?_⟩
    rcases List.mem_append.1 ht with ht | ht
    · exact h.tasks t ht
    · rw [List.mem_singleton.1 ht]; exact prog_halt _ _ _
  | change fs => exact ⟨h.hist, h.stored, he fs rfl, h.tasks⟩
  | step j seed =>
    unfold Sys.next
    dsimp only
    split
    · exact h
    · rename_i t hi
      have ht := h.tasks t (List.mem_of_getElem? hi)
      split
      · rename_i q k hp
        rw [hp] at ht
        refine ⟨h.hist, h.stored, h.fs, fun t' ht' => ?_⟩
        rcases List.mem_or_eq_of_mem_set ht' with ht' | rfl
        · exact h.tasks t' ht'
        · exact ht _ ⟨_, hsub _ h.fs, rfl⟩
      · rename_i o k hp
        rw [hp] at ht
        obtain ⟨⟨h1, h2⟩, hr⟩ := halt_step (cfg := cfg) h.hist h.stored t.rid ht.1 fun _ => seed
        refine ⟨h1, h2, h.fs, fun t' ht' => ?_⟩
        rcases List.mem_or_eq_of_mem_set ht' with ht' | rfl
        · exact h.tasks t' ht'
        · exact ht.2 _ hr
      · exact h

theorem ended_put {s : Sys} {i : Nat} (hi : i < s.tasks.length) (t : Task) :
    (s.put i t).ended i = outcome t.prog := by
  unfold Sys.ended Sys.put
  simp [hi]

theorem range_shift {m : Nat} (ev : Nat → Event) :
    (List.range (m + 1)).map ev = ev 0 :: (List.range m).map fun n => ev (n + 1) := by
  rw [List.range_succ_eq_map, List.map_cons, List.map_map]
  rfl

theorem fair_shift {ev : Nat → Event} {i : Nat} (h : Fair ev i) : Fair (fun n => ev (n + 1)) i := fun n => by
  obtain ⟨m, h1, seed, h2⟩ := h (n + 1)
  exact ⟨m - 1, by omega, seed, by show ev (m - 1 + 1) = _; rw [show m - 1 + 1 = m by omega]; exact h2⟩

/-- The end of a call. -/
def Good (x : Outcome Answer) : Prop := (∃ a, x = .done a) ∨ ∃ site, x = .crashed (.panic site)

/-- A call that settles comes to an end. -/
theorem settled_ends (hsub : ∀ fs, W fs → V fs) {i : Nat} {Q : Answer → Prop} {P : Nat → Live Answer}
    (hP : Halting (Among W) (HaltG V) (HaltR V) Q P) :
    ∀ (ev : Nat → Event), Fair ev i → (∀ n fs, ev n = .change fs → W fs) → ∀ s : Sys, Primed V W s →
      i < s.tasks.length → ∀ (rid N : Nat) (t : Nat → Task), (∀ n, N ≤ n → (t n).prog = P n) →
      (∀ n, (t n).rid = rid) →
      ∃ M m x, Good x ∧ ∀ n, M ≤ n → ((s.put i (t n)).after cfg ser ((List.range m).map ev)).ended i = some x := by
  -- up to the next step of the call
  have walk : ∀ (C : Sys → (Nat → Event) → (Nat → Task) → Prop) (t : Nat → Task),
      (∀ (ev : Nat → Event), Fair ev i → (∀ n fs, ev n = .change fs → W fs) → ∀ s : Sys, Primed V W s →
        i < s.tasks.length → (∃ seed, ev 0 = .step i seed) → C s ev t) →
      (∀ (ev : Nat → Event) (s : Sys), i < s.tasks.length → (∀ seed, ev 0 ≠ .step i seed) →
        C (s.next cfg ser (ev 0)) (fun n => ev (n + 1)) t → C s ev t) →
      ∀ (d : Nat) (ev : Nat → Event), Fair ev i → (∀ n fs, ev n = .change fs → W fs) → ∀ s : Sys, Primed V W s →
        i < s.tasks.length → (∃ seed, ev d = .step i seed) → C s ev t := by
    intro C t h1 h2 d
    induction d with
    | zero => exact h1
    | succ d ih =>
      intro ev hf hev s hs hi hd
      by_cases h0 : ∃ seed, ev 0 = .step i seed
      · exact h1 ev hf hev s hs hi h0
      · exact h2 ev s hi (fun seed h => h0 ⟨seed, h⟩) (ih _ (fair_shift hf) (fun n => hev _) _ (hs.next hsub (hev 0))
          (Nat.lt_of_lt_of_le hi (next_length s _)) hd)
  have skip : ∀ (t : Nat → Task) (ev : Nat → Event) (s : Sys), i < s.tasks.length → (∀ seed, ev 0 ≠ .step i seed) →
      (∃ M m x, Good x ∧ ∀ n, M ≤ n → (((s.next cfg ser (ev 0)).put i (t n)).after cfg ser
        ((List.range m).map fun n => ev (n + 1))).ended i = some x) →
      ∃ M m x, Good x ∧ ∀ n, M ≤ n → ((s.put i (t n)).after cfg ser ((List.range m).map ev)).ended i = some x := by
    rintro t ev s hi h0 ⟨M, m, x, hx, h⟩
    refine ⟨M, m + 1, x, hx, fun n hn => ?_⟩
    rw [range_shift]
    show (((s.put i (t n)).next cfg ser (ev 0)).after cfg ser _).ended i = _
    rw [put_next hi h0]
    exact h n hn
  induction hP with
  | done N' a h _ =>
    intro ev _ _ s _ hi rid N t ht _
    refine ⟨max N N', 0, .done a, .inl ⟨a, rfl⟩, fun n hn => ?_⟩
    show (s.put i (t n)).ended i = _
    rw [ended_put hi, ht n (by omega), h n (by omega)]
    rfl
  | stop N' site h =>
    intro ev _ _ s _ hi rid N t ht _
    refine ⟨max N N', 0, .crashed (.panic site), .inr ⟨site, rfl⟩, fun n hn => ?_⟩
    show (s.put i (t n)).ended i = _
    rw [ended_put hi, ht n (by omega), h n (by omega)]
    rfl
  | ask N' q K h _ ih =>
    intro ev hf hev s hs hi rid N t ht hr
    obtain ⟨d, -, hd⟩ := hf 0
    refine walk (fun s ev t => ∃ M m x, Good x ∧ ∀ n, M ≤ n →
      ((s.put i (t n)).after cfg ser ((List.range m).map ev)).ended i = some x) t ?_ (skip t) d ev hf hev s hs hi hd
    rintro ev hf hev s hs hi ⟨seed, h0⟩
    obtain ⟨M, m, x, hx, hm⟩ := ih (q.answer s.fs) ⟨_, hs.fs, rfl⟩ _ (fair_shift hf) (fun n => hev _) s hs hi rid 0
      (fun n => { t n with prog := K n (q.answer s.fs) }) (fun _ _ => rfl) hr
    refine ⟨max M (max N N'), m + 1, x, hx, fun n hn => ?_⟩
    rw [range_shift, h0, ← hm n (by omega)]
    show (((s.put i (t n)).next cfg ser (.step i seed)).after cfg ser _).ended i = _
    congr 2
    have hg : (s.put i (t n)).tasks[i]? = some (t n) := by simp [Sys.put, hi]
    have hp : (t n).prog = .ask q (K n) := by rw [ht n (by omega), h n (by omega)]
    simp only [Sys.next, hg, hp]
    simp [Sys.put]
  | op N' o K h hG _ ih =>
    intro ev hf hev s hs hi rid N t ht hr
    obtain ⟨d, -, hd⟩ := hf 0
    refine walk (fun s ev t => ∃ M m x, Good x ∧ ∀ n, M ≤ n →
      ((s.put i (t n)).after cfg ser ((List.range m).map ev)).ended i = some x) t ?_ (skip t) d ev hf hev s hs hi hd
    rintro ev hf hev s hs hi ⟨seed, h0⟩
    obtain ⟨⟨h1, h2⟩, h3⟩ := halt_step (cfg := cfg) hs.hist hs.stored rid hG fun _ => seed
    obtain ⟨M, m, x, hx, hm⟩ := ih _ h3 _ (fair_shift hf) (fun n => hev _)
      { s with shared := s.shared.store cfg rid (Op.exec (s.shared.view cfg rid fun _ => seed) o).2 }
      ⟨h1, h2, hs.fs, hs.tasks⟩ hi rid 0
      (fun n => { t n with prog := K n (Op.exec (s.shared.view cfg rid fun _ => seed) o).1 }) (fun _ _ => rfl) hr
    refine ⟨max M (max N N'), m + 1, x, hx, fun n hn => ?_⟩
    rw [range_shift, h0, ← hm n (by omega)]
    show (((s.put i (t n)).next cfg ser (.step i seed)).after cfg ser _).ended i = _
    congr 2
    have hg : (s.put i (t n)).tasks[i]? = some (t n) := by simp [Sys.put, hi]
    have hp : (t n).prog = .op o (K n) := by rw [ht n (by omega), h n (by omega)]
    simp only [Sys.next, hg, hp, hr]
    simp [Sys.put]

theorem ready_after {W' : Fs → Prop} {l : List Event} {s : Sys} (hs : Primed V V s) (hl : ∀ fs, .change fs ∈ l → V fs)
    (hW : W' (s.after cfg ser l).fs) : Primed V W' (s.after cfg ser l) := by
  have : Primed V V (s.after cfg ser l) := by
    induction l generalizing s with
    | nil => exact hs
    | cons e l ih =>
      exact ih (hs.next (fun _ h => h) fun fs h => hl fs (h ▸ List.mem_cons_self ..))
        (fun fs h => hl fs (List.mem_cons_of_mem _ h)) hW
  exact ⟨this.hist, this.stored, hW, this.tasks⟩

/-- The whole statement: see `Verif.Props.Halts`. -/
theorem call_stops {fs : Fs} {l : List Event} {rid : Nat} {call : Call} {ev : Nat → Event} {D F : Str → Bool}
    (hs : Setting (cfg rid) V W D F) (ha : call.abs) (ht : ∀ l, (cfg rid).opts.tsconfig = some l → isAbs l = true)
    (hV : V fs) (hl : ∀ fs, .change fs ∈ l → V fs) (hW : W ((Sys.init fs).after cfg ser l).fs)
    (hf : Fair ev ((Sys.init fs).after cfg ser l).tasks.length) (hev : ∀ n fs, ev n = .change fs → W fs) :
    StopsAfter cfg ser fs l rid call ev := by
  have hr : Primed V W ((Sys.init fs).after cfg ser l) :=
    ready_after (s := Sys.init fs) ⟨hist_init V, stored_init _, hV, fun _ h => by cases h⟩ hl hW
  have hr' := hr.next (cfg := cfg) (ser := ser) hs.sub (e := .start rid call 0) nofun
  obtain ⟨M, m, x, hx, h⟩ := settled_ends (cfg := cfg) (ser := ser) hs.sub
    (prog_settled (ser := ser) hs ha ht fun n => n) ev hf hev _ hr' (by simp [Sys.next]) rid 0
    (fun n => ⟨rid, ((Sys.init fs).after cfg ser l).fs, call, n, Live.prog (host (cfg rid) ser n) n call⟩)
    (fun _ _ => rfl) fun _ => rfl
  refine ⟨M, m, x, hx, fun n hn => ?_⟩
  rw [← h n hn]
  congr 1
  show List.foldl _ _ _ = List.foldl _ _ _
  rw [List.foldl_append, List.foldl_cons]
  congr 1
  show Sys.next cfg ser ((Sys.init fs).after cfg ser l) _ = _
  simp [Sys.next, Sys.put]

end
end Verif.Live
