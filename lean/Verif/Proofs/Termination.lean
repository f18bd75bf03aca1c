import Verif.Proofs.TreeVals
import Verif.Proofs.BrowserOff
import Verif.Proofs.Browser
import Verif.Proofs.Yields
/-!
# Coming to an end
-/

namespace Verif

/-- With enough fuel: always the same value, or always the same panic. -/
def Settles {α : Type} (Q : α → Prop) (P : Nat → Prog α) : Prop :=
  ∃ N, (∃ a, Q a ∧ ∀ n, N ≤ n → P n = .ret a) ∨ ∃ s, ∀ n, N ≤ n → P n = .panic s

section
variable {α β : Type} {Q : α → Prop} {P : Nat → Prog α}

theorem Settles.ret {a : α} (h : Q a) : Settles Q fun _ => .ret a := ⟨0, .inl ⟨a, h, fun _ _ => rfl⟩⟩

theorem Settles.panic (s : Site) : Settles Q fun _ => .panic s := ⟨0, .inr ⟨s, fun _ _ => rfl⟩⟩

theorem Settles.bind {R : β → Prop} {f : Nat → α → Prog β} (h : Settles Q P)
    (hf : ∀ a, Q a → Settles R fun n => f n a) : Settles R fun n => (P n).bind (f n) := by
  obtain ⟨N, ⟨a, ha, h⟩ | ⟨s, h⟩⟩ := h
  · obtain ⟨M, ⟨b, hb, h'⟩ | ⟨s, h'⟩⟩ := hf a ha
    · refine ⟨max N M, .inl ⟨b, hb, fun n hn => ?_⟩⟩
      simp only [h n (by omega)]
      exact h' n (by omega)
    · refine ⟨max N M, .inr ⟨s, fun n hn => ?_⟩⟩
      simp only [h n (by omega)]
      exact h' n (by omega)
  · refine ⟨N, .inr ⟨s, fun n hn => ?_⟩⟩
    simp only [h n hn]
    rfl

theorem Settles.succ (h : Settles Q fun n => P (n + 1)) : Settles Q P := by
  obtain ⟨N, h⟩ := h
  refine ⟨N + 1, ?_⟩
  have key : ∀ p : Prog α → Prop, (∀ n, N ≤ n → p (P (n + 1))) → ∀ n, N + 1 ≤ n → p (P n) := by
    intro p hp n hn
    obtain ⟨m, rfl⟩ : ∃ k, n = k + 1 := ⟨n - 1, by omega⟩
    exact hp m (by omega)
  rcases h with ⟨a, ha, h⟩ | ⟨s, h⟩
  · exact .inl ⟨a, ha, key (· = .ret a) h⟩
  · exact .inr ⟨s, key (· = .panic s) h⟩

theorem Settles.mono {R : α → Prop} (h : Settles Q P) (hQ : ∀ a, Q a → R a) : Settles R P := by
  obtain ⟨N, ⟨a, ha, h⟩ | h⟩ := h
  · exact ⟨N, .inl ⟨a, hQ a ha, h⟩⟩
  · exact ⟨N, .inr h⟩

theorem Settles.of_cases {p : Prog α} (h : (∃ a, Q a ∧ p = .ret a) ∨ ∃ s, p = .panic s) :
    Settles Q fun _ => p := by
  rcases h with ⟨a, ha, rfl⟩ | ⟨s, rfl⟩
  · exact .ret ha
  · exact .panic s

theorem Settles.congr {P' : Nat → Prog α} (h : Settles Q P) (e : ∀ n, P n = P' n) : Settles Q P' := by
  have : P = P' := funext e
  rwa [← this]
end

/-- What is known of a stage result, by its kind. -/
def StatsAre (R E : Info → Prop) : Stats → Prop
  | .resolving i => R i
  | .error _ i => E i
  | .success _ => True

theorem Settles.andThen {R E R' E' : Info → Prop} {P : Nat → Prog Stats} {f : Nat → Info → Prog Stats}
    (h : Settles (StatsAre R E) P) (hf : ∀ i, R i → Settles (StatsAre R' E') fun n => f n i)
    (he : ∀ i, E i → E' i) :
    Settles (StatsAre R' E') fun n => (P n).bind fun s => s.andThen (f n) := by
  refine h.bind fun s hs => ?_
  cases s with
  | resolving i => exact hf i hs
  | success r => exact .ret trivial
  | error e i => exact .ret (he i hs)

/-! ## Packages -/

theorem findPkg_settles (fs : Fs) (desc : Option Str) (p : Str) :
    (∃ a, findPkg fs desc p = .ret a) ∨ ∃ s, findPkg fs desc p = .panic s := by
  have key : ∀ d file, (∃ a, readPkg fs d file = .ret a) ∨ ∃ s, readPkg fs d file = .panic s := by
    intro d file
    unfold readPkg withTree
    simp only
    repeat' split
    all_goals first
      | exact .inl ⟨_, rfl⟩
      | exact .inr ⟨_, rfl⟩
  unfold findPkg
  cases desc with
  | none => exact .inl ⟨_, rfl⟩
  | some desc =>
    simp only
    cases closest fs desc p with
    | none => exact .inl ⟨_, rfl⟩
    | some d =>
      simp only
      rcases key d (pjoin d desc) with ⟨a, h⟩ | ⟨c, h⟩
      · rw [h]
        cases a with
        | error e => exact .inl ⟨_, rfl⟩
        | ok p => exact .inl ⟨_, rfl⟩
      · rw [h]
        exact .inr ⟨_, rfl⟩

/-- A package as read from a description file. -/
structure FromFile (fs : Fs) (pkg : Pkg) : Prop where
  file : ∃ p doc, fs.read p = some doc ∧ doc.json = some pkg.raw
  browser : browserFields pkg.raw = some pkg.aliasFields
  exports : ∀ t, pkg.exportsTree = some t →
    ∃ v, pkg.raw.get cs!"exports" = some v ∧ buildTree .exports v = some (.ok t)
  imports : ∀ t, pkg.importsTree = some t →
    ∃ v, pkg.raw.get cs!"imports" = some v ∧ buildTree .imports v = some (.ok t)

theorem withTree_ok {α : Type} {k : FieldKind} {v : Option Json}
    {next : Option Node → Prog (Except Err α)} {a : α} (h : withTree k v next = .ret (.ok a)) :
    ∃ t, next t = .ret (.ok a) ∧ ∀ x, t = some x → ∃ w, v = some w ∧ buildTree k w = some (.ok x) := by
  unfold withTree at h
  split at h
  · exact ⟨none, h, nofun⟩
  · rename_i w
    split at h
    · cases h
    · cases h
    · rename_i t ht
      exact ⟨some t, h, fun x hx => by cases hx; exact ⟨w, rfl, ht⟩⟩

theorem readPkg_fromFile {fs : Fs} {d file : Str} {p : Pkg} (h : readPkg fs d file = .ret (.ok p)) :
    FromFile fs p := by
  unfold readPkg at h
  split at h
  · rename_i doc m hr hm
    split at h
    · cases h
    · rename_i json hj
      split at h
      · cases h
      · rename_i fields hb
        obtain ⟨et, h, h1⟩ := withTree_ok h
        obtain ⟨it, h, h2⟩ := withTree_ok h
        split at h
        · cases h
        · cases h
          exact ⟨⟨file, doc, hr, hj⟩, hb, h1, h2⟩
  · cases h

theorem loads_fromFile {o : Opts} {fs : Fs} {p : Str} {pkg : Pkg}
    (h : findPkg fs o.descriptionFile p = .ret (.ok (some pkg))) : FromFile fs pkg := by
  unfold findPkg at h
  split at h
  · cases h
  · split at h
    · cases h
    · rename_i desc _ _ d hd
      rcases readPkg_cases fs d (pjoin d desc) with ⟨a, ha⟩ | ⟨s, hs⟩
      · rw [ha] at h
        cases a with
        | error e => cases h
        | ok q =>
          have : q = pkg := by
            simp only [Prog.bind] at h
            cases h
            rfl
          exact this ▸ readPkg_fromFile ha
      · rw [hs] at h; cases h

/-- A package stage: nothing, or a package read from a file. -/
def PkgRead (fs : Fs) (pkg : Option Pkg) : Prop := ∀ p, pkg = some p → FromFile fs p

variable {o : Opts} {fs : Fs} {debug : Bool}

/-- Loading a package settles. -/
theorem load_settles {β : Type} {p : Str} {R : β → Prop} {f : Nat → Except Err (Option Pkg) → Prog β}
    (he : ∀ e, Settles R fun n => f n (.error e))
    (hk : ∀ pkg, Loads o fs p (.ok pkg) → PkgRead fs pkg → Settles R fun n => f n (.ok pkg)) :
    Settles R fun n => ((pureCtx o fs debug).load p).bind (f n) := by
  refine Settles.bind (Q := fun a => findPkg fs o.descriptionFile p = .ret a) (.of_cases ?_) fun a ha => ?_
  · rcases findPkg_settles fs o.descriptionFile p with ⟨a, h⟩ | ⟨s, h⟩
    · exact .inl ⟨a, h, h⟩
    · exact .inr ⟨s, h⟩
  · cases a with
    | error e => exact he e
    | ok pkg => exact hk pkg ha fun p hp => loads_fromFile (hp ▸ ha)

/-! ## The plugins -/

/-- Nothing in this request asks for an import. -/
def HashFree (i : Info) : Prop := startsWith i.request.target cs!"#" = false

theorem exports_vals (hn : NoCycle o fs) {pkg : Pkg} (hp : FromFile fs pkg) {root : Node}
    (h : pkg.exportsTree = some root) : root.Vals (MV.Of NotHash) := by
  obtain ⟨v, h1, h2⟩ := hp.exports root h
  obtain ⟨p, doc, h3, h4⟩ := hp.file
  exact buildTree_vals (hn.exports v ⟨p, doc, _, h3, h4, h1⟩) h2

theorem imports_vals (hn : NoCycle o fs) {pkg : Pkg} (hp : FromFile fs pkg) {root : Node}
    (h : pkg.importsTree = some root) : root.Vals (MV.Of NotHash) := by
  obtain ⟨v, h1, h2⟩ := hp.imports root h
  obtain ⟨p, doc, h3, h4⟩ := hp.file
  exact buildTree_vals (hn.imports v ⟨p, doc, _, h3, h4, h1⟩) h2

theorem exportsPick_plain {c : Ctx} {d : Str} {l : List Str} {i : Info}
    (hl : ∀ s ∈ l, startsWith (parseRequest s).target cs!"#" = false)
    (h : exportsPick c d l = some i) : HashFree i := by
  induction l with
  | nil => cases h
  | cons s l ih =>
    simp only [exportsPick] at h
    split at h
    · cases h; exact hl s (List.mem_cons_self ..)
    · exact ih (fun s hs => hl s (List.mem_cons_of_mem _ hs)) h

/-- The exports plugin settles; what it hands on is the request, or asks for no import. -/
theorem exportsPlugin_settles (hn : NoCycle o fs) {pkg : Option Pkg} (hp : PkgRead fs pkg) (info : Info) :
    Settles (StatsAre (fun i => i = info ∨ HashFree i) fun i => i = info)
      fun _ => exportsPlugin (pureCtx o fs debug) pkg info := by
  refine .of_cases ?_
  unfold exportsPlugin
  cases pkg with
  | none => exact .inl ⟨.resolving info, Or.inl rfl, rfl⟩
  | some pkg =>
    simp only
    split
    · exact .inl ⟨.resolving info, Or.inl rfl, rfl⟩
    · split
      · exact .inl ⟨.resolving info, Or.inl rfl, rfl⟩
      · cases hr : pkg.exportsTree with
        | none => exact .inl ⟨.resolving info, Or.inl rfl, rfl⟩
        | some root =>
          simp only
          have hv := exports_vals hn (hp pkg rfl) hr
          have hq : (∃ a, exportsRequestOf (pureCtx o fs debug) pkg info = .ret a) ∨
              ∃ s, exportsRequestOf (pureCtx o fs debug) pkg info = .panic s := by
            unfold exportsRequestOf
            simp only
            repeat' split
            all_goals first
              | exact .inl ⟨_, rfl⟩
              | exact .inr ⟨_, rfl⟩
          rcases hq with ⟨a, hq⟩ | ⟨s, hq⟩
          · rw [hq]
            simp only [Prog.bind]
            cases a with
            | none => exact .inl ⟨.error .tag info, Eq.refl info, rfl⟩
            | some remaining =>
              simp only
              obtain ⟨r, h1, h2⟩ := fieldProcess_items (k := .exports) hv remaining
                (pureCtx o fs debug).opts.conditionNames
              rw [h1]
              cases r with
              | error e => exact .inl ⟨.error e info, Eq.refl info, rfl⟩
              | ok l =>
                simp only
                cases hk : exportsPick (pureCtx o fs debug) pkg.absDir l with
                | none => exact .inl ⟨.error _ info, Eq.refl info, rfl⟩
                | some i =>
                  refine .inl ⟨.resolving i, Or.inr (exportsPick_plain (fun s hs => ?_) hk), rfl⟩
                  obtain ⟨t, rem, sub, ht, h3⟩ := h2 l rfl s hs
                  exact parse_notHash (targetMapping_notHash ht h3.1)
          · rw [hq]
            exact .inr ⟨_, rfl⟩

theorem mem_ainsert_pair {β : Type} {k : Str} {v : β} {l : List (Str × β)} {kv : Str × β}
    (h : kv ∈ ainsert k v l) : kv = (k, v) ∨ kv ∈ l := by
  induction l with
  | nil => simp only [ainsert, List.mem_singleton] at h; exact .inl h
  | cons x l ih =>
    obtain ⟨k', v'⟩ := x
    simp only [ainsert] at h
    split at h
    · rename_i e
      rcases List.mem_cons.1 h with h | h
      · exact .inl (by rw [h, e])
      · exact .inr (List.mem_cons_of_mem _ h)
    · rcases List.mem_cons.1 h with h | h
      · exact .inr (h ▸ List.mem_cons_self ..)
      · rcases ih h with h | h
        · exact .inl h
        · exact .inr (List.mem_cons_of_mem _ h)

theorem browserLoop_mem {l : List (Str × Json)} {acc fields : List (Str × AliasMap)}
    (h : browserLoop l acc = some fields) {k t : Str} (hm : (k, .target t) ∈ fields) :
    (k, .str t) ∈ l ∨ (k, .target t) ∈ acc := by
  induction l generalizing acc with
  | nil => cases h; exact .inr hm
  | cons x l ih =>
    obtain ⟨key, v⟩ := x
    have tail : ∀ {acc'}, browserLoop l acc' = some fields →
        (k, .str t) ∈ (key, v) :: l ∨ (k, .target t) ∈ acc' := fun h =>
      (ih h).imp (List.mem_cons_of_mem _) id
    simp only [browserLoop] at h
    split at h
    · cases h
    · rcases tail h with h | h
      · exact .inl h
      · rcases mem_ainsert_pair h with h | h
        · cases h
        · exact .inr h
    · split at h
      · rename_i s hs
        rcases tail h with h | h
        · exact .inl h
        · rcases mem_ainsert_pair h with h | h
          · cases h
            cases v <;> cases hs
            exact .inl (List.mem_cons_self ..)
          · exact .inr h
      · exact tail h

theorem browserFields_mem {json : Json} {fields : List (Str × AliasMap)}
    (h : browserFields json = some fields) {k t : Str} (hm : (k, .target t) ∈ fields) :
    BrowserStep json t k := by
  unfold browserFields at h
  split at h
  · cases h; cases hm
  · rename_i v hv
    split at h
    · cases h; cases hm
    · rename_i m hm'
      rcases browserLoop_mem h hm with h | h
      · cases v <;> cases hm'
        exact ⟨m, hv, h⟩
      · cases h

theorem aliasChain_settles {json : Json} {fields : List (Str × AliasMap)}
    (hb : browserFields json = some fields) (hw : WellFounded (BrowserStep json)) (t : Str) :
    ∃ N r, (∀ n, N ≤ n → aliasChain fields n (.target t) = some r) ∧
      ∀ t', r = .target t' → t' = t ∨ ∃ k, (k, .target t') ∈ fields := by
  induction t using hw.induction with
  | _ t ih =>
    cases hl : alookup t fields with
    | none =>
      refine ⟨1, .target t, fun n hn => ?_, fun t' h => by cases h; exact .inl rfl⟩
      obtain ⟨n, rfl⟩ : ∃ k, n = k + 1 := ⟨n - 1, by omega⟩
      simp only [aliasChain, hl]
    | some v =>
      cases v with
      | ignored =>
        refine ⟨2, .ignored, fun n hn => ?_, nofun⟩
        obtain ⟨n, rfl⟩ : ∃ k, n = k + 2 := ⟨n - 2, by omega⟩
        simp only [aliasChain, hl]
      | target t' =>
        have hm := mem_of_alookup hl
        obtain ⟨N, r, h1, h2⟩ := ih t' (browserFields_mem hb hm)
        refine ⟨N + 1, r, fun n hn => ?_, fun x hx => .inr ?_⟩
        · obtain ⟨n, rfl⟩ : ∃ k, n = k + 1 := ⟨n - 1, by omega⟩
          simp only [aliasChain, hl]
          exact h1 n (by omega)
        · rcases h2 x hx with h | h
          · exact ⟨t, h ▸ hm⟩
          · exact h

/-- The browser-field plugin settles: it hands on the request, or a target of the map. -/
theorem aliasFieldPlugin_settles (hn : NoCycle o fs) {pkg : Option Pkg} (hp : PkgRead fs pkg) (info : Info) :
    Settles (StatsAre (fun i => i = info ∨ o.browserField = true ∧ ∃ p, pkg = some p ∧
        ∃ k t, (k, .target t) ∈ p.aliasFields ∧ i = (info.withPath p.absDir).withTarget t) fun i => False)
      fun n => aliasFieldPlugin (pureCtx o fs debug) n pkg info := by
  unfold aliasFieldPlugin
  have same : Settles (StatsAre (fun i => i = info ∨ o.browserField = true ∧ ∃ p, pkg = some p ∧
        ∃ k t, (k, .target t) ∈ p.aliasFields ∧ i = (info.withPath p.absDir).withTarget t) fun i => False)
      fun _ => .ret (.resolving info) := .ret (.inl rfl)
  split
  · exact same
  · rename_i hbr
    have hbr : o.browserField = true := by
      cases h : o.browserField with
      | true => rfl
      | false => exact (hbr (by rw [show (pureCtx o fs debug).opts.browserField = false from h]; rfl)).elim
    cases pkg with
    | none => exact same
    | some pkg =>
      simp only
      split
      · exact same
      · rename_i k to hf
        have hff := hp pkg rfl
        obtain ⟨p, doc, h1, h2⟩ := hff.file
        have hm := List.mem_of_find?_eq_some hf
        obtain ⟨N, r, h3, h4⟩ : ∃ N r, (∀ n, N ≤ n → aliasChain pkg.aliasFields n to = some r) ∧
            ∀ t', r = .target t' → ∃ k, (k, .target t') ∈ pkg.aliasFields := by
          cases to with
          | ignored =>
            refine ⟨1, .ignored, fun n hn => ?_, nofun⟩
            obtain ⟨n, rfl⟩ : ∃ k, n = k + 1 := ⟨n - 1, by omega⟩
            simp only [aliasChain]
          | target t =>
            obtain ⟨N, r, h3, h4⟩ := aliasChain_settles hff.browser (hn.browser hbr p doc _ h1 h2) t
            exact ⟨N, r, h3, fun t' ht => (h4 t' ht).elim (fun e => ⟨k, e ▸ hm⟩) id⟩
        cases r with
        | ignored =>
          refine ⟨N, .inl ⟨.success .ignored, trivial, fun n hn => ?_⟩⟩
          simp only [h3 n hn]
        | target t =>
          obtain ⟨k', hk'⟩ := h4 t rfl
          refine ⟨N, .inl ⟨.resolving ((info.withPath pkg.absDir).withTarget t),
            .inr ⟨hbr, pkg, rfl, k', t, hk', rfl⟩, fun n hn => ?_⟩⟩
          simp only [h3 n hn]

theorem importsPlugin_plain {c : Ctx} {pkg : Option Pkg} {i : Info} (h : HashFree i) :
    Settles (StatsAre (fun j => j = i) fun _ => False) fun n => importsPlugin c n pkg i := by
  refine .succ (Settles.congr (P := fun _ => .ret (.resolving i))
    (.ret (show StatsAre (fun j => j = i) (fun _ => False) (.resolving i) from Eq.refl i)) fun n => ?_)
  cases pkg with
  | none => rfl
  | some pkg =>
    show _ = importsPlugin c (n + 1) (some pkg) i
    rw [importsPlugin]
    simp only [show (!startsWith i.request.target cs!"#") = true by rw [h]; rfl, if_true]

/-- The imports plugin settles: one import does not lead to another. -/
theorem importsPlugin_settles (hn : NoCycle o fs) {pkg : Option Pkg} (hp : PkgRead fs pkg) (info : Info) :
    Settles (StatsAre (fun _ => True) fun _ => True)
      fun n => importsPlugin (pureCtx o fs debug) n pkg info := by
  refine .succ ?_
  simp only [importsPlugin]
  cases pkg with
  | none => exact .ret trivial
  | some pkg =>
    simp only
    split
    · exact .ret trivial
    · cases hr : pkg.importsTree with
      | none => exact .ret trivial
      | some root =>
        simp only
        obtain ⟨r, h1, h2⟩ := fieldProcess_items (k := .imports) (imports_vals hn (hp pkg rfl) hr)
          info.request.target (pureCtx o fs debug).opts.conditionNames
        rw [h1]
        cases r with
        | error e => exact .ret trivial
        | ok l =>
          cases l with
          | nil => exact .ret trivial
          | cons item l =>
            simp only
            have hh : startsWith (parseRequest item).target cs!"#" = false := by
              obtain ⟨t, rem, sub, ht, h3⟩ := h2 _ rfl item (List.mem_cons_self ..)
              exact parse_notHash (targetMapping_notHash ht h3.1)
            split
            · refine load_settles (fun e => .ret trivial) fun pkg' _ hp' => ?_
              simp only
              split
              · exact .ret trivial
              · refine Settles.bind (exportsPlugin_settles hn hp' _) fun s hs => ?_
                cases s with
                | success r => exact .ret trivial
                | error e i => exact .ret trivial
                | resolving i =>
                  have hi : HashFree i := hs.elim (fun e => e ▸ hh) id
                  refine Settles.bind (Q := StatsAre (fun j => j = i) fun _ => False)
                    (importsPlugin_plain hi) fun s hs => ?_
                  cases s with
                  | success r => exact .ret trivial
                  | error e i => exact hs.elim
                  | resolving j =>
                    refine Settles.bind (aliasFieldPlugin_settles hn hp' j) fun s hs => ?_
                    cases s with
                    | success r => exact .ret trivial
                    | error e i => exact hs.elim
                    | resolving k =>
                      refine .ret ?_
                      unfold importsCheck
                      split <;> trivial
            · split
              · rename_i hk
                refine (importsPlugin_plain (i := ⟨pkg.absDir, parseRequest item⟩) hh).mono fun s hs => ?_
                cases s <;> trivial
              · refine .ret ?_
                unfold importsCheck
                split <;> trivial

theorem resolveAsFile_stats (c : Ctx) (info : Info) :
    StatsAre (fun i => i = info) (fun _ => False) (resolveAsFile c info) := by
  unfold resolveAsFile extensionsPlugin
  simp only
  split
  · trivial
  · split
    · trivial
    · rfl

/-- Any stage result that is over, or goes on from anywhere. -/
abbrev AnyStats : Stats → Prop := StatsAre (fun _ => True) fun _ => True

theorem anyStats (s : Stats) : AnyStats s := by cases s <;> trivial

theorem mainFileLoop_settles (hn : NoCycle o fs) {pkg : Option Pkg} (hp : PkgRead fs pkg) (info : Info)
    (l : List Str) (cur : Info) :
    Settles (StatsAre (fun i => i = info) fun _ => False)
      fun n => mainFileLoop (pureCtx o fs debug) n pkg info l cur := by
  induction l generalizing cur with
  | nil => exact .ret rfl
  | cons f l ih =>
    simp only [mainFileLoop]
    refine Settles.bind (Q := AnyStats) ?_ fun s _ => ?_
    · refine Settles.bind ((exportsPlugin_settles hn hp _).mono fun s _ => anyStats s) fun s _ => ?_
      cases s with
      | success r => exact .ret trivial
      | error e i => exact .ret trivial
      | resolving i =>
        refine Settles.bind (Q := AnyStats) (importsPlugin_settles hn hp i) fun s _ => ?_
        cases s with
        | success r => exact .ret trivial
        | error e i => exact .ret trivial
        | resolving i =>
          refine Settles.bind ((aliasFieldPlugin_settles hn hp i).mono fun s _ => anyStats s)
            fun s _ => ?_
          cases s with
          | success r => exact .ret trivial
          | error e i => exact .ret trivial
          | resolving i => exact .ret (anyStats _)
    · cases s with
      | success r => exact .ret trivial
      | error e i => exact ih i
      | resolving i => exact ih i

theorem startsWith_dotted (m : Str) (i : Info) :
    (if startsWith m cs!"./" then i.withTarget m else i.withTarget (cs!"./" ++ m)) =
      i.withTarget (dotted m) := by
  unfold dotted
  by_cases h : cs!"./" <+: m
  · rw [if_pos ((startsWith_iff _ _).2 h), if_pos h]
  · rw [if_neg (fun e => h ((startsWith_iff _ _).1 e)), if_neg h]

theorem getPath_dotted (i : Info) (m : Str) : (i.withTarget (dotted m)).getPath = pjoin i.path (dotted m) := by
  have : ∃ r, dotted m = cs!"./" ++ r := by
    unfold dotted
    split
    · rename_i h; obtain ⟨r, h⟩ := h; exact ⟨r, h.symm⟩
    · exact ⟨m, rfl⟩
  obtain ⟨r, hr⟩ := this
  rw [getPath_eq, hr]
  exact targetPath_dotSlash i.path r

/-- Where `resolve_as_dir` leaves off. -/
abbrev DirStats (info : Info) : Stats → Prop :=
  StatsAre (fun i => i.path = info.getPath) fun i => i = info

/-- The main-field loop settles, when `resolve_as_dir` settles for all that the fields lead to. -/
theorem mainFieldLoop_settles (hn : NoCycle o fs) {pkg : Pkg} (hp : FromFile fs pkg) (info : Info)
    {asDir : Nat → Info → Prog Stats} {l : List Str} {cur : Info}
    (hd : ∀ i : Info, Tries o pkg l cur.path i.getPath → Settles (DirStats i) fun n => asDir n i) :
    Settles (StatsAre (fun i => i = info) fun _ => False)
      fun n => mainFieldLoop (pureCtx o fs debug) n (asDir n) pkg info l cur := by
  induction l generalizing cur with
  | nil => exact .ret rfl
  | cons f l ih =>
    simp only [mainFieldLoop]
    cases hm : (pkg.raw.get f).bind Json.asStr with
    | none =>
      refine ih fun i hi => hd i (.next (fun m h => ?_) (.inl rfl) hi)
      rw [h] at hm
      cases hm
    | some m =>
      have hm' : pkg.raw.get f = some (.str m) := by
        cases hg : pkg.raw.get f with
        | none => rw [hg] at hm; cases hm
        | some v =>
          rw [hg] at hm
          cases v <;> cases hm
          rfl
      simp only
      split
      · exact .ret rfl
      · rename_i hself
        have hself : ¬ SelfValue m := fun h => hself (by simpa [SelfValue] using h)
        have hself' : ∀ m, pkg.raw.get f = some (.str m) → ¬ SelfValue m := by
          intro m' h
          rw [hm'] at h
          cases h
          exact hself
        rw [startsWith_dotted]
        -- where the value leads
        have lead : ∀ i : Info, (i = cur.withTarget (dotted m) ∨ o.browserField = true ∧
            ∃ p, some pkg = some p ∧ ∃ k t, (k, .target t) ∈ p.aliasFields ∧
              i = ((cur.withTarget (dotted m)).withPath p.absDir).withTarget t) →
            Leads o pkg cur.path m i.getPath ∧
              (i.path = cur.path ∨ o.browserField = true ∧ i.path = pkg.absDir) := by
          rintro i (rfl | ⟨hb, p, hp, k, t, hk, rfl⟩)
          · exact ⟨.inl (getPath_dotted cur m), .inl rfl⟩
          · cases hp
            refine ⟨.inr ⟨hb, k, t, hk, ?_⟩, .inr ⟨hb, rfl⟩⟩
            rw [getPath_eq]
            rfl
        refine Settles.bind (Q := StatsAre
          (fun i => i.path = cur.path ∨ (o.browserField = true ∧ i.path = pkg.absDir) ∨
            Leads o pkg cur.path m i.path)
          (fun i => i.path = cur.path ∨ (o.browserField = true ∧ i.path = pkg.absDir))) ?_ fun s hs => ?_
        · refine Settles.bind (aliasFieldPlugin_settles hn (pkg := some pkg)
            (fun p h => by cases h; exact hp) _) fun s hs => ?_
          cases s with
          | success r => exact .ret trivial
          | error e i => exact hs.elim
          | resolving i =>
            obtain ⟨h1, h2⟩ := lead i hs
            refine Settles.bind (Q := StatsAre (fun j => j = i) fun _ => False)
              (.ret (resolveAsFile_stats _ _)) fun s hs => ?_
            cases s with
            | success r => exact .ret trivial
            | error e i => exact hs.elim
            | resolving j =>
              cases hs
              refine (hd i (.here hm' hself h1)).mono fun s hs => ?_
              cases s with
              | success r => trivial
              | error e k => exact hs ▸ h2
              | resolving k => exact .inr (.inr ((show k.path = _ from hs) ▸ h1))
        · cases s with
          | success r => exact .ret trivial
          | error e i =>
            refine ih fun j hj => hd j (.next hself' ?_ hj)
            rcases hs with h | h
            · exact .inl h
            · exact .inr (.inl h)
          | resolving i =>
            refine ih fun j hj => hd j (.next hself' ?_ hj)
            rcases hs with h | h | h
            · exact .inl h
            · exact .inr (.inl h)
            · exact .inr (.inr ⟨m, hm', h⟩)

/-- `resolve_as_dir` settles. -/
theorem resolveAsDir_settles (hn : NoCycle o fs) (info : Info) :
    Settles (DirStats info) fun n => resolveAsDir (pureCtx o fs debug) n info := by
  generalize hd : info.getPath = d
  induction d using hn.main.induction generalizing info with
  | _ d ih =>
    subst hd
    refine .succ ?_
    simp only [resolveAsDir]
    split
    · exact .ret rfl
    · refine load_settles (fun e => .ret rfl) fun pkg hl hp => ?_
      simp only
      have rest : ∀ s, StatsAre (fun i => i.path = info.getPath) (fun _ => False) s →
          Settles (DirStats info) fun n =>
            s.andThen fun i => mainFilePlugin (pureCtx o fs debug) n pkg i := by
        intro s hs
        cases s with
        | success r => exact .ret trivial
        | error e i => exact hs.elim
        | resolving i =>
          refine (mainFileLoop_settles hn hp i _ i).mono fun s h => ?_
          cases s with
          | success r => trivial
          | error e i => exact h.elim
          | resolving j => exact (show j = i from h) ▸ hs
      refine Settles.bind (Q := StatsAre (fun i => i.path = info.getPath) fun _ => False) ?_ rest
      unfold mainFieldPlugin
      cases pkg with
      | none => exact .ret rfl
      | some pkg =>
        simp only
        split
        · exact .ret rfl
        · rename_i hq
          have hc : comps info.getPath = comps pkg.absDir := by
            simpa [pathEq, Info.withPath, Info.withTarget] using hq
          refine (mainFieldLoop_settles hn (hp pkg rfl) _ fun i hi => ?_).mono fun s h => ?_
          · by_cases hdir : fs.isDir i.getPath = true
            · exact ih i.getPath ⟨hdir, pkg, hl, hc, hi⟩ i rfl
            · refine .succ (Settles.congr (P := fun _ => .ret (.error .tag i))
                (.ret (show DirStats i (.error .tag i) from Eq.refl i)) fun n => ?_)
              rw [resolveAsDir, if_pos]
              have hdir : (pureCtx o fs debug).fs.isDir i.getPath = false := Bool.not_eq_true _ |>.mp hdir
              rw [hdir]
              rfl
          · cases s with
            | success r => trivial
            | error e i => exact h.elim
            | resolving j => rw [show j = _ from h]; rfl

theorem modulePackageChain_settles (hn : NoCycle o fs) {pkg : Option Pkg} (hp : PkgRead fs pkg)
    (info : Info) : Settles AnyStats fun n => modulePackageChain (pureCtx o fs debug) n pkg info := by
  unfold modulePackageChain
  refine Settles.bind ((exportsPlugin_settles hn hp _).mono fun s _ => anyStats s) fun s _ => ?_
  cases s with
  | success r => exact .ret trivial
  | error e i => exact .ret trivial
  | resolving i =>
    refine Settles.bind (Q := AnyStats) (importsPlugin_settles hn hp i) fun s _ => ?_
    cases s with
    | success r => exact .ret trivial
    | error e i => exact .ret trivial
    | resolving i =>
      refine Settles.bind ((aliasFieldPlugin_settles hn hp _).mono fun s _ => anyStats s)
        fun s _ => ?_
      cases s with
      | success r => exact .ret trivial
      | error e i => exact .ret trivial
      | resolving i =>
        refine Settles.bind (Q := AnyStats) (.ret (anyStats _)) fun s _ => ?_
        cases s with
        | success r => exact .ret trivial
        | error e i => exact .ret trivial
        | resolving i => exact (resolveAsDir_settles hn i).mono fun s _ => anyStats s

theorem moduleStep_settles (hn : NoCycle o fs) (info : Info) :
    Settles (fun _ => True) fun n => moduleStep (pureCtx o fs debug) n info := by
  unfold moduleStep
  simp only
  split
  · exact .ret trivial
  · split
    · exact .panic _
    · refine load_settles (fun e => .ret trivial) fun pkg hl hp => ?_
      simp only
      split
      · split
        · exact .ret trivial
        · exact .ret trivial
      · refine Settles.bind (modulePackageChain_settles hn hp _) fun s _ => ?_
        split
        · split
          · exact .ret trivial
          · exact .ret trivial
        · exact .ret trivial

theorem resolveAsModules_settles (hn : NoCycle o fs) (info : Info) :
    Settles AnyStats fun n => resolveAsModules (pureCtx o fs debug) n info := by
  generalize hk : info.path.length = k
  induction k using Nat.strongRecOn generalizing info with
  | _ k ih =>
    subst hk
    refine .succ ?_
    simp only [resolveAsModules]
    refine Settles.bind (moduleStep_settles hn info) fun r _ => ?_
    obtain ⟨s, b⟩ := r
    cases b with
    | true => exact .ret (anyStats _)
    | false =>
      simp only
      refine Settles.bind (Q := AnyStats) ?_ fun s _ => ?_
      · cases s with
        | success r => exact .ret trivial
        | error e i => exact .ret trivial
        | resolving i =>
          simp only [Stats.andThen]
          cases hp : pparent info.path with
          | none => exact .ret trivial
          | some parent => exact ih _ (pparent_length hp) _ rfl
      · cases s <;> exact .ret trivial

theorem pkgStage_settles (hn : NoCycle o fs) (info : Info) :
    Settles AnyStats fun n => pkgStage (pureCtx o fs debug) n info := by
  unfold pkgStage
  refine load_settles (fun e => .ret trivial) fun pkg hl hp => ?_
  refine Settles.bind (Q := AnyStats) (importsPlugin_settles hn hp info) fun s _ => ?_
  cases s with
  | success r => exact .ret trivial
  | error e i => exact .ret trivial
  | resolving i => exact (aliasFieldPlugin_settles hn hp _).mono fun s _ => anyStats s

theorem lastStage_settles (hn : NoCycle o fs) (info : Info) :
    Settles AnyStats fun n => lastStage (pureCtx o fs debug) n info := by
  have dir : Settles AnyStats fun n => (resolveAsFile (pureCtx o fs debug) info).andThen fun i =>
      resolveAsDir (pureCtx o fs debug) n i := by
    cases resolveAsFile (pureCtx o fs debug) info with
    | success r => exact .ret trivial
    | error e i => exact .ret trivial
    | resolving i => exact (resolveAsDir_settles hn i).mono fun s _ => anyStats s
  unfold lastStage
  cases info.request.kind
  all_goals first
    | exact dir
    | exact resolveAsModules_settles hn info

theorem aliasLoop_settles {rec : Nat → Info → Prog Stats} {info : Info} {l : List (Str × AliasMap)}
    (hl : ∀ x ∈ l, x ∈ o.alias)
    (hr : ∀ i : Info, AliasStep o i.request.target info.request.target →
      Settles AnyStats fun n => rec n i) :
    Settles (StatsAre (fun i => i = info) fun _ => False) fun n => aliasLoop (rec n) info l := by
  induction l with
  | nil => exact .ret rfl
  | cons x l ih =>
    have ih := ih fun x hx => hl x (List.mem_cons_of_mem _ hx)
    obtain ⟨src, to⟩ := x
    simp only [aliasLoop]
    split
    · rename_i hs
      cases to with
      | ignored => exact .ret trivial
      | target to =>
        simp only
        split
        · exact ih
        · rename_i hne
          obtain ⟨rest, hrest⟩ := (startsWith_iff _ _).1 hs
          refine Settles.bind (hr _ ?_) fun s _ => ?_
          · have : replaceFirst info.request.target src to = to ++ rest := by
              rw [← hrest]; exact replaceFirst_prefix src rest to
            show AliasStep o (replaceFirst info.request.target src to) _
            rw [this, ← hrest]
            refine .replace (hl _ (List.mem_cons_self ..)) fun h => hne ?_
            rw [hrest] at h
            simp [(startsWith_iff _ _).2 h]
          · cases s with
            | success r => exact .ret trivial
            | error e i => exact ih
            | resolving i => exact ih
    · exact ih

/-- `_resolve` settles. -/
theorem resolveInner_settles (hn : NoCycle o fs) (info : Info) :
    Settles AnyStats fun n => resolveInner (pureCtx o fs debug) n info := by
  generalize ht : info.request.target = t
  induction t using hn.alias.induction generalizing info with
  | _ t ih =>
    subst ht
    refine .succ ?_
    simp only [resolveInner]
    refine Settles.bind (Q := AnyStats) ?_ fun s _ => ?_
    · refine Settles.bind (Q := StatsAre (fun i => i = info) fun _ => False) ?_ fun s hs => ?_
      · unfold aliasPlugin
        split
        · exact .ret rfl
        · exact aliasLoop_settles (o := o) (fun x hx => hx) fun i hi => ih _ hi i rfl
      · cases s with
        | success r => exact .ret trivial
        | error e i => exact hs.elim
        | resolving i =>
          cases hs
          refine Settles.bind (Q := AnyStats) ?_ fun s _ => ?_
          · simp only [Stats.andThen, preferRelativePlugin]
            split
            · exact .ret trivial
            · rename_i hne
              split
              · rename_i hpr
                refine Settles.bind (ih _ (.prefer hpr (fun h => hne ?_) (fun h => hne ?_)) _ rfl)
                  fun s _ => ?_
                · simp [(startsWith_iff _ _).2 h]
                · simp [(startsWith_iff _ _).2 h]
                · cases s <;> exact .ret trivial
              · exact .ret trivial
          · cases s with
            | success r => exact .ret trivial
            | error e i => exact .ret trivial
            | resolving i =>
              refine Settles.bind (pkgStage_settles hn i) fun s _ => ?_
              cases s with
              | success r => exact .ret trivial
              | error e i => exact .ret trivial
              | resolving i => exact lastStage_settles hn i
    · cases s with
      | success r => exact .ret trivial
      | error e i => exact .ret trivial
      | resolving i => exact .panic _

/-! ## tsconfig, and the whole call -/

theorem Settles.strong {α : Type} {Q : α → Prop} {P : Nat → Prog α} (h : Settles Q P) :
    Settles (fun a => Q a ∧ ∃ n, P n = .ret a) P := by
  obtain ⟨N, ⟨a, ha, h⟩ | h⟩ := h
  · exact ⟨N, .inl ⟨a, ⟨ha, N, h N (Nat.le_refl _)⟩, h⟩⟩
  · exact ⟨N, .inr h⟩

theorem tsValue_settles (hn : NoCycle o fs) (ht : o.tsconfig ≠ none) (location : Str) :
    Settles (fun _ => True) fun n => tsValue (pureCtx o fs false) n location := by
  induction location using (hn.tsconfig ht).induction with
  | _ location ih =>
    refine .succ ?_
    simp only [tsValue]
    cases hr : (pureCtx o fs false).fs.read location with
    | none => exact .ret trivial
    | some doc =>
      simp only
      cases hj : doc.jsonc with
      | error msg => exact .ret trivial
      | ok json =>
        cases json with
        | none => exact .panic _
        | some json =>
          simp only
          split
          · rename_i s hs
            cases hp : pparent location with
            | none => exact .panic _
            | some dir =>
              simp only
              refine Settles.bind (resolveInner_settles hn ⟨dir, parseRequest s⟩).strong fun st hst => ?_
              obtain ⟨-, n, hst⟩ := hst
              cases st with
              | resolving i => exact .ret trivial
              | error e i => exact .ret trivial
              | success r =>
                cases r with
                | ignored => exact .ret trivial
                | info i =>
                  simp only
                  refine Settles.bind (ih i.getPath ⟨doc, json, s, dir, i, n, hr, hj, hs, hp, hst, rfl⟩)
                    fun r _ => ?_
                  cases r <;> exact .ret trivial
          · exact .ret trivial

/-- A call that is over, not for lack of fuel. -/
def Over {α : Type} (p : Prog α) : Prop := (∃ a, p = .ret a) ∨ ∃ s, p = .panic s

theorem Over.bind {α β : Type} {p : Prog α} {f : α → Prog β} (h : Over p) (hf : ∀ a, Over (f a)) :
    Over (p.bind f) := by
  rcases h with ⟨a, rfl⟩ | ⟨s, rfl⟩
  · exact hf a
  · exact .inr ⟨s, rfl⟩

theorem Settles.over {α : Type} {Q : α → Prop} {P : Nat → Prog α} (h : Settles Q P) :
    ∃ N, ∀ n, N ≤ n → Over (P n) := by
  obtain ⟨N, ⟨a, -, h⟩ | ⟨s, h⟩⟩ := h
  · exact ⟨N, fun n hn => .inl ⟨a, h n hn⟩⟩
  · exact ⟨N, fun n hn => .inr ⟨s, h n hn⟩⟩

theorem over_all {α ι : Type} {P : Nat → ι → Prog α} (h : ∀ i, ∃ N, ∀ n, N ≤ n → Over (P n i))
    (l : List ι) : ∃ N, ∀ n, N ≤ n → ∀ i ∈ l, Over (P n i) := by
  induction l with
  | nil => exact ⟨0, fun _ _ => nofun⟩
  | cons i l ih =>
    obtain ⟨N, hN⟩ := ih
    obtain ⟨M, hM⟩ := h i
    refine ⟨max N M, fun n hn j hj => ?_⟩
    rcases List.mem_cons.1 hj with rfl | hj
    · exact hM n (by omega)
    · exact hN n (by omega) j hj

/-- What `*` stands for in an entry of `paths`. -/
def tsStar (info : Info) (pattern : Str) : Option (Option Str) :=
  if pattern = info.request.target then some (some []) else matchStar pattern info.request.target

/-- The paths that an entry of `paths` may lead to. -/
def tsTargets (info : Info) (e : Str × List Str) : List Info :=
  match tsStar info e.1 with
  | some (some s) => e.2.map fun p => ⟨replaceChar p '*' s, Request.empty⟩
  | _ => []

theorem tsPathsTry_over {rec : Info → Prog Stats} {star : Str} {next : Prog Stats} {l : List Str}
    (hr : ∀ p ∈ l, Over (rec ⟨replaceChar p '*' star, Request.empty⟩)) (hn : Over next) :
    Over (tsPathsTry rec star next l) := by
  induction l with
  | nil => exact hn
  | cons p l ih =>
    simp only [tsPathsTry]
    refine (hr p (List.mem_cons_self ..)).bind fun s => ?_
    cases s with
    | success r => exact .inl ⟨_, rfl⟩
    | resolving i => exact ih fun q hq => hr q (List.mem_cons_of_mem _ hq)
    | error e i => exact ih fun q hq => hr q (List.mem_cons_of_mem _ hq)

theorem tsEntries_over {rec : Info → Prog Stats} {info : Info} {l : List (Str × List Str)}
    (hi : Over (rec info)) (hr : ∀ e ∈ l, ∀ i ∈ tsTargets info e, Over (rec i)) :
    Over (tsEntries rec info l) := by
  induction l with
  | nil => exact hi
  | cons e l ih =>
    obtain ⟨pattern, paths⟩ := e
    have ih := ih fun e he => hr e (List.mem_cons_of_mem _ he)
    have hr := hr _ (List.mem_cons_self ..)
    simp only [tsTargets] at hr
    simp only [tsEntries]
    change Over (match tsStar info pattern with
      | none => .panic .starSlice
      | some none => tsEntries rec info l
      | some (some s) => tsPathsTry rec s (tsEntries rec info l) paths)
    split
    · exact .inr ⟨_, rfl⟩
    · exact ih
    · rename_i s hs
      refine tsPathsTry_over (fun p hp => ?_) ih
      simp only [hs] at hr
      exact hr _ (List.mem_map.2 ⟨p, hp, rfl⟩)

/-- However it ends, it is over, not for lack of fuel. -/
def Halts {α : Type} (p : Prog α) : Prop :=
  ∀ x, p.Ends x → (∃ a, x = .done a) ∨ ∃ s, x = .crashed (.panic s)

theorem Over.halts {α : Type} {p : Prog α} (h : Over p) : Halts p := by
  rcases h with ⟨a, rfl⟩ | ⟨s, rfl⟩
  · intro x hx; cases hx; exact .inl ⟨a, rfl⟩
  · intro x hx; cases hx; exact .inr ⟨s, rfl⟩

theorem Halts.bind {α β : Type} {p : Prog α} {f : α → Prog β} (h : Halts p) (hf : ∀ a, Halts (f a)) :
    Halts (p.bind f) := by
  induction p with
  | ret a => exact hf a
  | crash c =>
    rcases h _ (.crash c) with ⟨a, e⟩ | ⟨s, e⟩
    · cases e
    · cases e
      intro x hx
      cases hx
      exact .inr ⟨s, rfl⟩
  | op o k ih =>
    intro x hx
    cases hx with
    | op r hx => exact ih r (fun x hx => h x (.op r hx)) x hx

theorem resolveStats_halts (hn : NoCycle o fs) (path request : Str) :
    ∃ N, ∀ n, N ≤ n → Halts (resolveStats (pureCtx o fs false) n path request) := by
  unfold resolveStats
  simp only
  have inner := fun i => (resolveInner_settles (debug := false) hn i).over
  split
  · rename_i location hl
    have hl : o.tsconfig ≠ none := fun e => by
      rw [show (pureCtx o fs false).opts.tsconfig = none from e] at hl; cases hl
    generalize hi : (⟨path, parseRequest request⟩ : Info) = info
    unfold resolveWithTsconfig
    obtain ⟨N, ⟨r, -, h⟩ | ⟨s, h⟩⟩ := tsValue_settles hn hl location
    · simp only at h
      cases r with
      | error e => exact ⟨N, fun n hn => by rw [h n hn]; exact Over.halts (.inl ⟨_, rfl⟩)⟩
      | ok json =>
        cases hts : tsInfoOf json with
        | none => exact ⟨N, fun n hn => by
            rw [h n hn]; simp only [Prog.bind, hts]; exact Over.halts (.inr ⟨_, rfl⟩)⟩
        | some ts =>
          cases hm : createMatchList location ts with
          | none => exact ⟨N, fun n hn => by
              rw [h n hn]; simp only [Prog.bind, hts, hm]; exact Over.halts (.inr ⟨_, rfl⟩)⟩
          | some entries =>
            obtain ⟨M, hM⟩ := over_all inner (info :: entries.flatMap (tsTargets info))
            refine ⟨max N M, fun n hn => ?_⟩
            rw [h n (by omega)]
            simp only [Prog.bind, hts, hm]
            have hM := hM n (by omega)
            intro x hx
            cases hx with
            | op seed hx =>
              refine Over.halts (tsEntries_over (hM info (List.mem_cons_self ..)) fun e he i hi => ?_) x hx
              refine hM i (List.mem_cons_of_mem _ (List.mem_flatMap.2 ⟨e, ?_, hi⟩))
              exact (permute_perm _ _).mem_iff.1 he
    · simp only at h
      exact ⟨N, fun n hn => by rw [h n hn]; exact Over.halts (.inr ⟨_, rfl⟩)⟩
  · obtain ⟨N, h⟩ := inner ⟨path, parseRequest request⟩
    exact ⟨N, fun n hn => (h n hn).halts⟩

theorem resolveCtx_halts (hn : NoCycle o fs) (path request : Str) :
    ∃ N, ∀ n, N ≤ n → Halts (resolveCtx (pureCtx o fs false) n path request) := by
  obtain ⟨N, h⟩ := resolveStats_halts hn path request
  refine ⟨N, fun n hn => (h n hn).bind fun s => ?_⟩
  cases s with
  | success r =>
    refine Over.halts ?_
    show Over (normalizeResult (pureCtx o fs false) r)
    unfold normalizeResult
    repeat' split
    all_goals first
      | exact .inl ⟨_, rfl⟩
      | exact .inr ⟨_, rfl⟩
  | error e i => exact Over.halts (.inl ⟨_, rfl⟩)
  | resolving i => exact Over.halts (.inr ⟨_, rfl⟩)

end Verif
