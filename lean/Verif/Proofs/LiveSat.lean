import Verif.Proofs.Live
import Verif.Proofs.Bytes
import Verif.Spec.Messages
import Verif.Proofs.Success
/-!
# Postconditions of calls on files that change at any moment

As `Verif.Proofs.Sat`, with answers `A` to looks at files and a demand `C` on crashes.
-/

namespace Verif.Live

/-- If every answer to a look at a file satisfies `A` and every answer to an operation `R`, then every
operation performed satisfies `G`, the value returned `P`, and a crash `C`. -/
def Sat {α : Type} (A : (q : Query) → q.Ret → Prop) (G : Op → Prop) (R : (o : Op) → o.Ret → Prop)
    (C : Crash → Prop) (P : α → Prop) : Live α → Prop
  | .ret a => P a
  | .crash c => C c
  | .ask q k => ∀ r, A q r → (k r).Sat A G R C P
  | .op o k => G o ∧ ∀ r, R o r → (k r).Sat A G R C P

section
variable {α β : Type} {A : (q : Query) → q.Ret → Prop} {G : Op → Prop} {R : (o : Op) → o.Ret → Prop}
  {C : Crash → Prop}

theorem Sat.mono {P Q : α → Prop} {p : Live α} (h : p.Sat A G R C P) (hPQ : ∀ a, P a → Q a) :
    p.Sat A G R C Q := by
  induction p with
  | ret a => exact hPQ a h
  | crash c => exact h
  | ask q k ih => exact fun r hr => ih r (h r hr)
  | op o k ih => exact ⟨h.1, fun r hr => ih r (h.2 r hr)⟩

theorem Sat.bind {P : α → Prop} {Q : β → Prop} {p : Live α} {f : α → Live β}
    (h : p.Sat A G R C P) (hf : ∀ a, P a → (f a).Sat A G R C Q) : (p.bind f).Sat A G R C Q := by
  induction p with
  | ret a => exact hf a h
  | crash c => exact h
  | ask q k ih => exact fun r hr => ih r (h r hr)
  | op o k ih => exact ⟨h.1, fun r hr => ih r (h.2 r hr)⟩

theorem sat_lift {P : α → Prop} {p : Prog α} (h : p.Sat G R P) (hc : ∀ c, p.Ends (.crashed c) → C c) :
    (lift p).Sat A G R C P := by
  induction p with
  | ret a => exact h
  | crash c => exact hc c (.crash c)
  | op o k ih => exact ⟨h.1, fun r hr => ih r (h.2 r hr) fun c he => hc c (.op r he)⟩

theorem sat_isFile {Q : β → Prop} {p : Str} {f : Bool → Live β}
    (h : ∀ b, A (.isFile p) b → (f b).Sat A G R C Q) : ((isFile p).bind f).Sat A G R C Q := h

theorem sat_isDir {Q : β → Prop} {p : Str} {f : Bool → Live β}
    (h : ∀ b, A (.isDir p) b → (f b).Sat A G R C Q) : ((isDir p).bind f).Sat A G R C Q := h

theorem sat_exists {Q : β → Prop} {p : Str} {f : Bool → Live β}
    (h : ∀ b, A (.pathExists p) b → (f b).Sat A G R C Q) : ((pathExists p).bind f).Sat A G R C Q := h

theorem sat_canon {Q : β → Prop} {p : Str} {f : Option Str → Live β}
    (h : ∀ b, A (.canon p) b → (f b).Sat A G R C Q) : ((canon p).bind f).Sat A G R C Q := h

/-- A call with a postcondition returns only values that satisfy it. -/
theorem Sat.returns {P : α → Prop} {p : Live α} (h : p.Sat A G R C P) {a : α}
    (hr : Ends A R p (.done a)) : P a := by
  generalize hx : Outcome.done a = x at hr
  induction hr with
  | ret a => cases hx; exact h
  | crash c => cases hx
  | ask r hA _ ih => exact ih (h r hA) hx
  | op r hR _ ih => exact ih (h.2 r hR) hx

/-- A call with a postcondition crashes only as allowed. -/
theorem Sat.crash {P : α → Prop} {p : Live α} (h : p.Sat A G R C P) {c : Crash}
    (hr : Ends A R p (.crashed c)) : C c := by
  generalize hx : Outcome.crashed c = x at hr
  induction hr with
  | ret a => cases hx
  | crash c => cases hx; exact h
  | ask r hA _ ih => exact ih (h r hA) hx
  | op r hR _ ih => exact ih (h.2 r hR) hx

theorem Ends.mono {p : Live α} {x : Outcome α} (h : Ends A R p x) {A' : (q : Query) → q.Ret → Prop}
    {R' : (o : Op) → o.Ret → Prop} (hA : ∀ q r, A q r → A' q r) (hR : ∀ o r, R o r → R' o r) :
    Ends A' R' p x := by
  induction h with
  | ret a => exact .ret a
  | crash c => exact .crash c
  | ask r h _ ih => exact .ask r (hA _ _ h) ih
  | op r h _ ih => exact .op r (hR _ _ h) ih

end

/-- The panics that are not at the end of `resolve`. -/
def Inner (s : Site) : Prop := s ≠ .apiUnreachable ∧ s ≠ .dbgTarget ∧ s ≠ .descUnwrap

instance (s : Site) : Decidable (Inner s) := by unfold Inner; infer_instance

/-- There was no file at this place, or the place is outside of its package. -/
def Unfit (A : (q : Query) → q.Ret → Prop) (i : Info) : Prop :=
  A (.isFile i.getPath) false ∨ checkTarget i.request.target = false

/-- The errors that the maps of a package give rise to satisfy `E`. -/
structure MapErrs (h : Host) (A : (q : Query) → q.Ret → Prop) (E : Err → Prop) (pkg : Pkg) : Prop where
  exportsErr : ∀ root t r e, pkg.exportsTree = some root → AskedAs t r →
    fieldProcess .exports root r h.opts.conditionNames = some (.error e) → E e
  importsErr : ∀ root t e, pkg.importsTree = some root → startsWith t cs!"#" = true →
    fieldProcess .imports root t h.opts.conditionNames = some (.error e) → E e
  noExport : ∀ root t r l, pkg.exportsTree = some root → AskedAs t r →
    fieldProcess .exports root r h.opts.conditionNames = some (.ok l) →
    (∀ item ∈ l, Unfit A ⟨pkg.absDir, parseRequest item⟩) → E (.notExported t)
  noImport : ∀ root t l, pkg.importsTree = some root → startsWith t cs!"#" = true →
    fieldProcess .imports root t h.opts.conditionNames = some (.ok l) →
    (∀ item ∈ l.head?, ∃ i, Unfit A i ∧
      ((parseRequest item).kind ≠ .normal → i = ⟨pkg.absDir, parseRequest item⟩)) → E (.notExported t)

/-- If all errors of lookups satisfy `E`. -/
theorem MapErrs.of_all {h : Host} {A : (q : Query) → q.Ret → Prop} {E : Err → Prop} {pkg : Pkg}
    (h1 : ∀ t, E (.notExported t))
    (h2 : ∀ root t e, pkg.exportsTree = some root →
      fieldProcess .exports root t h.opts.conditionNames = some (.error e) → E e)
    (h3 : ∀ root t e, pkg.importsTree = some root →
      fieldProcess .imports root t h.opts.conditionNames = some (.error e) → E e) : MapErrs h A E pkg :=
  ⟨fun root _ r e h _ h' => h2 root r e h h', fun root t e h _ h' => h3 root t e h h',
    fun _ t _ _ _ _ _ _ => h1 t, fun _ t _ _ _ _ _ => h1 t⟩

/-- The errors of reading a tsconfig satisfy `E`. -/
structure TsErrs (A : (q : Query) → q.Ret → Prop) (E : Err → Prop) (N : Prop) : Prop where
  open_ : ∀ p, A (.read p) none → E (.openFailed p)
  parse : ∀ p doc m, A (.read p) (some doc) → doc.jsonc = .error m → E (.tsParseFailed p m)
  ext : ∀ p doc json s, A (.read p) (some doc) → doc.jsonc = .ok (some json) →
    json.get cs!"extends" = some (.str s) → N → E (.extendsIgnored s p)

/-- If all of them satisfy `E`. -/
theorem TsErrs.of_all {A : (q : Query) → q.Ret → Prop} {E : Err → Prop} {N : Prop} (h : TsErrOk E) :
    TsErrs A E N :=
  ⟨fun p _ => h.open_ p, fun p _ m _ _ => h.parse p m, fun p _ _ s _ _ _ _ => h.ext s p⟩

/-- As `Verif.Inv`, for calls that look at files one by one. Inner panics and a lack of fuel are allowed. -/
structure Inv (h : Host) (A : (q : Query) → q.Ret → Prop) (G : Op → Prop)
    (R : (o : Op) → o.Ret → Prop) (C : Crash → Prop) (D : Str → Prop)
    (L : Pkg → Prop) (S I : Info → Prop) (E : Err → Prop) (N : Prop) : Prop where
  load : ∀ p, D p → (loadPkg h p).Sat A G R C fun r =>
    (∀ pkg, r = .ok (some pkg) → L pkg) ∧ ∀ e, r = .error e → E e
  ask : ∀ i, I i → D i.getPath
  askModule : ∀ i, I i → D (pjoin (pjoin i.path MODULE) i.request.target)
  pathGet : ∀ i, I i → I (i.withPath i.getPath)
  pathPkg : ∀ i pkg, L pkg → I i → I (i.withPath pkg.absDir)
  pathModule : ∀ i, I i → I (i.withPath (pjoin i.path MODULE))
  pathParent : ∀ i j q, I i → I j → pparent i.path = some q → I (j.withPath q)
  target : ∀ i t, I i → I (i.withTarget t)
  file : ∀ i, I i → (resolveAsFile h i).Sat A G R C (StatsInv S I E N)
  errTag : E .tag
  errPkg : ∀ pkg, L pkg → MapErrs h A E pkg
  exports : ∀ pkg, L pkg → ∀ item, ItemOf .exports pkg.exportsTree h.opts.conditionNames item →
    I ⟨pkg.absDir, parseRequest item⟩
  imports : ∀ pkg, L pkg → ∀ item, ItemOf .imports pkg.importsTree h.opts.conditionNames item →
    I ⟨pkg.absDir, parseRequest item⟩ ∧ I ⟨pjoin pkg.absDir MODULE, parseRequest item⟩
  ignAlias : ∀ k, (k, .ignored) ∈ h.opts.alias → N := by intros; trivial
  ignField : ∀ pkg k, L pkg → h.opts.browserField = true → (k, .ignored) ∈ pkg.aliasFields → N := by
    intros; trivial
  panics : ∀ s, Inner s → C (.panic s)
  fuel : C .fuel

section
variable {h : Host} {A : (q : Query) → q.Ret → Prop} {G : Op → Prop} {R : (o : Op) → o.Ret → Prop}
  {C : Crash → Prop} {D : Str → Prop} {L : Pkg → Prop} {S I : Info → Prop} {E : Err → Prop} {N : Prop}

theorem sat_andThen {s : Stats} {f : Info → Live Stats} (hs : StatsInv S I E N s)
    (hf : ∀ i, I i → (f i).Sat A G R C (StatsInv S I E N)) :
    (andThen s f).Sat A G R C (StatsInv S I E N) := by
  cases s with
  | success r => exact hs
  | resolving i => exact hf i hs
  | error e i => exact hs

theorem exportsPick_sat (dir : Str) (l : List Str) :
    (exportsPick dir l).Sat A G R C (fun r => (∀ i, r = some i → ∃ item ∈ l,
      i = ⟨dir, parseRequest item⟩ ∧ A (.isFile i.getPath) true ∧
        checkTarget i.request.target = true) ∧
      (r = none → ∀ item ∈ l, Unfit A ⟨dir, parseRequest item⟩)) := by
  induction l with
  | nil => exact ⟨nofun, fun _ => nofun⟩
  | cons x l ih =>
    rw [exportsPick]
    refine sat_isFile fun b hb => ?_
    split
    · rename_i hc
      have hc := Bool.and_eq_true_iff.1 hc
      refine ⟨fun i hi => ?_, nofun⟩
      cases hi
      exact ⟨x, by simp, rfl, hc.1 ▸ hb, hc.2⟩
    · rename_i hc
      refine ih.mono fun r hr => ⟨fun i hi => ?_, fun hn item hm => ?_⟩
      · obtain ⟨item, h1, h2⟩ := hr.1 i hi
        exact ⟨item, List.mem_cons_of_mem _ h1, h2⟩
      · rcases List.mem_cons.1 hm with rfl | hm
        · cases b with
          | false => exact .inl hb
          | true => exact .inr (by simpa using hc)
        · exact hr.2 hn item hm

theorem exportsRequestOf_sat (hc : ∀ s, Inner s → C (.panic s)) (pkg : Pkg) (info : Info) :
    (exportsRequestOf pkg info).Sat A G R C
      (fun r => ∀ x, r = some x → AskedAs info.request.target x) := by
  have last : ∀ name rest, PackageName info.request.target name → info.request.target = name ++ rest →
      AskedAs info.request.target
        (if info.request.query ≠ [] ∨ info.request.fragment ≠ [] then
          (if '.' :: rest = cs!"." then cs!"./" else '.' :: rest) ++ info.request.query ++ info.request.fragment
        else '.' :: rest) := by
    intro name rest h1 h2
    split
    · split
      · rename_i h
        exact ⟨name, rest, info.request.query ++ info.request.fragment, h1, h2,
          .inr ⟨by simpa using h, by simp⟩⟩
      · rename_i h
        exact ⟨name, rest, info.request.query ++ info.request.fragment, h1, h2,
          .inl ⟨by simp, fun hr => (h (by simp [hr])).elim⟩⟩
    · exact ⟨name, rest, [], h1, h2, .inl ⟨by simp, fun _ => rfl⟩⟩
  unfold exportsRequestOf
  dsimp only
  split
  · exact hc _ (by decide)
  · rename_i chars hch
    have hname : ∃ pre, (∀ n b, chars = n ++ b → '/' ∉ n → (b = [] ∨ ['/'] <+: b) →
        PackageName info.request.target (pre ++ n)) ∧ info.request.target = pre ++ chars := by
      split at hch
      · rename_i hs
        simp only [Option.map_eq_some_iff] at hch
        obtain ⟨⟨a, b⟩, h1, h2⟩ := hch
        obtain ⟨h3, h4, h5⟩ := splitFirst_some h1
        obtain ⟨b', rfl⟩ : ∃ b', b = '/' :: b' := by
          cases b with
          | nil => cases h5
          | cons x b => exact ⟨b, by simpa using h5⟩
        have h2 : b' = chars := by simpa using h2
        subst h2
        have ha : ['@'] <+: a := by
          have : ['@'] <+: info.request.target := List.isPrefixOf_iff_prefix.1 hs
          rw [h3] at this
          cases a with
          | nil => simp at this
          | cons x a => simpa using this
        refine ⟨a ++ ['/'], fun n b h hn hb => ?_, by rw [h3]; simp⟩
        rw [h3, h]
        have := PackageName.inScope ha h4 hn hb
        simpa using this
      · rename_i hs
        cases hch
        refine ⟨[], fun n b h hn hb => ?_, rfl⟩
        have := PackageName.plain (name := n) (rest := b)
          (by rw [← h]; exact fun h' => hs (List.isPrefixOf_iff_prefix.2 h')) hn hb
        rw [← h] at this
        exact this
    obtain ⟨pre, h1, h2⟩ := hname
    split
    · rename_i a b hsp
      obtain ⟨h3, h4, h5⟩ := splitFirst_some hsp
      obtain ⟨b', rfl⟩ : ∃ b', b = '/' :: b' := by
        cases b with
        | nil => cases h5
        | cons x b => exact ⟨b, by simpa using h5⟩
      intro x hx
      cases hx
      exact last (pre ++ a) _ (h1 a _ h3 h4 (.inr ⟨b', rfl⟩)) (by rw [h2, h3]; simp)
    · rename_i hsp
      refine sat_exists fun b _ => ?_
      split
      · intro x hx
        cases hx
        exact last (pre ++ chars) [] (h1 chars [] (by simp) (splitFirst_none.1 hsp) (.inl rfl))
          (by rw [h2]; simp)
      · exact nofun

theorem exportsPlugin_sat (hI : Inv h A G R C D L S I E N) {pkg : Option Pkg} (hp : PkgOk L pkg)
    {info : Info} (hi : I info) : (exportsPlugin h pkg info).Sat A G R C (StatsInv S I E N) := by
  cases pkg with
  | none => exact hi
  | some pkg =>
    have hp := hp pkg rfl
    unfold exportsPlugin
    dsimp only
    split
    · exact hi
    · split
      · exact hi
      · split
        · exact hi
        · rename_i root hroot
          refine Sat.bind (exportsRequestOf_sat hI.panics pkg info) fun a ha => ?_
          cases a with
          | none => exact ⟨hI.errTag, hi⟩
          | some remaining =>
            dsimp only
            split
            · exact hI.fuel
            · rename_i he
              exact ⟨(hI.errPkg pkg hp).exportsErr _ _ _ _ hroot (ha _ rfl) he, hi⟩
            · rename_i hl
              refine Sat.bind (exportsPick_sat _ _) fun r hr => ?_
              cases r with
              | some i =>
                obtain ⟨item, hm, rfl, -⟩ := hr.1 i rfl
                exact hI.exports pkg hp item ⟨_, _, _, hroot, hl, hm⟩
              | none => exact ⟨(hI.errPkg pkg hp).noExport _ _ _ _ hroot (ha _ rfl) hl (hr.2 rfl), hi⟩

theorem aliasField_sat (hI : Inv h A G R C D L S I E N) (fuel : Nat) {pkg : Option Pkg}
    (hp : PkgOk L pkg) {info : Info} (hi : I info) :
    (aliasFieldPlugin h fuel pkg info).Sat A G R C (StatsInv S I E N) := by
  unfold aliasFieldPlugin Verif.aliasFieldPlugin
  split
  · exact hi
  · split
    · exact hi
    · split
      · exact hi
      · split
        · exact hI.fuel
        · exact hI.target _ _ (hI.pathPkg _ _ (hp _ rfl) hi)
        · rename_i hb _ _ _ _ _ hf _ hc
          obtain ⟨k', hk'⟩ := aliasChain_ignored (List.mem_of_find?_eq_some hf) hc
          exact hI.ignField _ k' (hp _ rfl) (by simpa using hb) hk'

theorem check_sat {i : Info} {t : Str} (hne : Unfit A i → E (.notExported t)) (hi : I i) :
    (importsCheck i t).Sat A G R C (StatsInv S I E N) := by
  unfold importsCheck
  refine sat_isFile fun b hb => ?_
  split
  · exact hi
  · rename_i hc
    refine ⟨hne ?_, hi⟩
    cases b with
    | false => exact .inl hb
    | true => exact .inr (by simpa using hc)

theorem importsPlugin_sat (hI : Inv h A G R C D L S I E N) (n : Nat) {pkg : Option Pkg}
    (hp : PkgOk L pkg) {info : Info} (hi : I info) :
    (importsPlugin h n pkg info).Sat A G R C (StatsInv S I E N) := by
  induction n generalizing pkg info with
  | zero => exact hI.fuel
  | succ n ih =>
    cases pkg with
    | none => exact hi
    | some pkg =>
      have hL := hp pkg rfl
      rw [importsPlugin]
      dsimp only
      split
      · exact hi
      · rename_i hs
        have hs : startsWith info.request.target cs!"#" = true := by simpa using hs
        split
        · exact hi
        · rename_i root hroot
          split
          · exact hI.fuel
          · rename_i he
            exact ⟨(hI.errPkg pkg hL).importsErr _ _ _ hroot hs he, hi⟩
          · rename_i hl
            exact ⟨(hI.errPkg pkg hL).noImport _ _ _ hroot hs hl nofun, hi⟩
          · rename_i item l hl
            have hne : ∀ i, Unfit A i →
                ((parseRequest item).kind ≠ .normal → i = ⟨pkg.absDir, parseRequest item⟩) →
                E (.notExported info.request.target) := fun i h1 h2 =>
              (hI.errPkg pkg hL).noImport _ _ _ hroot hs hl fun x hx => by
                cases hx
                exact ⟨i, h1, h2⟩
            have him := hI.imports pkg hL item ⟨_, _, _, hroot, hl, List.mem_cons_self ..⟩
            split
            · rename_i hk
              refine Sat.bind (hI.load _ (hI.ask _ him.2)) fun r hr => ?_
              cases r with
              | error e => exact ⟨hr.2 e rfl, him.2⟩
              | ok pkg' =>
                have hp' : PkgOk L pkg' := fun p hp => hr.1 p (by rw [hp])
                dsimp only
                split
                · exact him.2
                · refine Sat.bind (exportsPlugin_sat hI hp' him.2) fun s hs => ?_
                  refine Sat.bind (sat_andThen hs fun i hi => ih hp' hi) fun s hs => ?_
                  refine Sat.bind (sat_andThen hs fun i hi => aliasField_sat hI n hp' hi)
                    fun s hs => ?_
                  exact sat_andThen hs fun i hi => check_sat (fun hu => hne i hu fun h => (h hk).elim) hi
            · split
              · exact ih hp him.1
              · exact check_sat (fun hu => hne _ hu fun _ => rfl) him.1

theorem mainFileLoop_sat (hI : Inv h A G R C D L S I E N) (n : Nat) {pkg : Option Pkg}
    (hp : PkgOk L pkg) {info : Info} (hi : I info) (l : List Str) {cur : Info} (hc : I cur) :
    (mainFileLoop h n pkg info l cur).Sat A G R C (StatsInv S I E N) := by
  induction l generalizing cur with
  | nil => exact hi
  | cons f l ih =>
    rw [mainFileLoop]
    refine Sat.bind (P := StatsInv S I E N) ?_ ?_
    · refine Sat.bind (exportsPlugin_sat hI hp (hI.target _ _ hc)) fun s hs => ?_
      refine Sat.bind (sat_andThen hs fun i hi => importsPlugin_sat hI n hp hi) fun s hs => ?_
      refine Sat.bind (sat_andThen hs fun i hi => aliasField_sat hI n hp hi) fun s hs => ?_
      exact sat_andThen hs fun i hi => hI.file i hi
    · intro s hs
      cases s with
      | success r => exact hs
      | resolving i => exact ih hs
      | error e i => exact ih hs.2

theorem mainFieldLoop_sat (hI : Inv h A G R C D L S I E N) (n : Nat) {asDir : Info → Live Stats}
    (hd : ∀ i, I i → (asDir i).Sat A G R C (StatsInv S I E N)) {pkg : Pkg} (hp : L pkg) {info : Info}
    (hi : I info) (l : List Str) {cur : Info} (hc : I cur) :
    (mainFieldLoop h n asDir pkg info l cur).Sat A G R C (StatsInv S I E N) := by
  induction l generalizing cur with
  | nil => exact hi
  | cons f l ih =>
    rw [mainFieldLoop]
    split
    · exact ih hc
    · dsimp only
      split
      · exact hi
      · refine Sat.bind (P := StatsInv S I E N) ?_ ?_
        · refine Sat.bind (aliasField_sat hI n (pkg := some pkg)
            (fun p e => by cases e; exact hp) ?_) fun s hs => ?_
          · split <;> exact hI.target _ _ hc
          refine Sat.bind (sat_andThen hs fun i hi => hI.file i hi) fun s hs => ?_
          exact sat_andThen hs hd
        · intro s hs
          cases s with
          | success r => exact hs
          | resolving i => exact ih hs
          | error e i => exact ih hs.2

theorem resolveAsDir_sat (hI : Inv h A G R C D L S I E N) (n : Nat) {info : Info} (hi : I info) :
    (resolveAsDir h n info).Sat A G R C (StatsInv S I E N) := by
  induction n generalizing info with
  | zero => exact hI.fuel
  | succ n ih =>
    rw [resolveAsDir]
    refine sat_isDir fun b _ => ?_
    split
    · exact ⟨hI.errTag, hi⟩
    · refine Sat.bind (hI.load _ (hI.ask _ hi)) fun r hr => ?_
      cases r with
      | error e => exact ⟨hr.2 e rfl, hi⟩
      | ok pkg =>
        have hp : PkgOk L pkg := fun p hp => hr.1 p (by rw [hp])
        have h' := hI.target _ [] (hI.pathGet info hi)
        refine Sat.bind (P := StatsInv S I E N) ?_ fun s hs => ?_
        · unfold mainFieldPlugin
          split
          · exact h'
          · split
            · exact h'
            · exact mainFieldLoop_sat hI n (fun i hi => ih hi) (hp _ rfl) h' _ h'
        · exact sat_andThen hs fun i hi => mainFileLoop_sat hI n hp hi _ hi

theorem chain_sat (hI : Inv h A G R C D L S I E N) (n : Nat) {pkg : Option Pkg}
    (hp : PkgOk L pkg) {info : Info} (hi : I info) :
    (modulePackageChain h n pkg info).Sat A G R C (StatsInv S I E N) := by
  unfold modulePackageChain
  refine Sat.bind (exportsPlugin_sat hI hp hi) fun s hs => ?_
  refine Sat.bind (sat_andThen hs fun i hi => importsPlugin_sat hI n hp hi) fun s hs => ?_
  refine Sat.bind (P := StatsInv S I E N) (sat_andThen hs fun i hi => ?_) fun s hs => ?_
  · dsimp only
    split
    · exact aliasField_sat hI n hp (hI.target _ _ hi)
    · exact aliasField_sat hI n hp hi
  refine Sat.bind (sat_andThen hs fun i hi => hI.file i hi) fun s hs => ?_
  exact sat_andThen hs fun i hi => resolveAsDir_sat hI n hi

theorem moduleStep_sat (hI : Inv h A G R C D L S I E N) (n : Nat) {info : Info} (hi : I info) :
    (moduleStep h n info).Sat A G R C (fun r => StatsInv S I E N r.1) := by
  unfold moduleStep
  refine sat_isDir fun b _ => ?_
  split
  · exact hi
  · dsimp only
    split
    · exact hI.panics _ (by decide)
    · refine Sat.bind (hI.load _ (hI.askModule _ hi)) fun r hr => ?_
      have hm : I ⟨pjoin info.path MODULE, info.request⟩ := hI.pathModule info hi
      cases r with
      | error e => exact ⟨hr.2 e rfl, hi⟩
      | ok pkg =>
        have hp : PkgOk L pkg := fun p hp => hr.1 p (by rw [hp])
        refine sat_isDir fun b _ => ?_
        split
        · refine Sat.bind (hI.file _ hm) fun s hs => ?_
          cases s with
          | success r => exact hs
          | resolving i => exact hi
          | error e i => exact hi
        · refine Sat.bind (chain_sat hI n hp hm) fun s hs => ?_
          cases s with
          | error e i =>
            dsimp only
            split
            · exact hi
            · exact hs
          | success r => exact hs
          | resolving i => exact hs

theorem modules_sat (hI : Inv h A G R C D L S I E N) (n : Nat) {info : Info} (hi : I info) :
    (resolveAsModules h n info).Sat A G R C (StatsInv S I E N) := by
  induction n generalizing info with
  | zero => exact hI.fuel
  | succ n ih =>
    rw [resolveAsModules]
    refine Sat.bind (moduleStep_sat hI n hi) fun r hr => ?_
    obtain ⟨s, b⟩ := r
    cases b with
    | true => exact hr
    | false =>
      refine Sat.bind (P := StatsInv S I E N) (sat_andThen hr fun i hj => ?_) fun s hs => ?_
      · split
        · rename_i q hq
          exact ih (hI.pathParent info i q hi hj hq)
        · exact hj
      · cases s with
        | success r => exact hs
        | resolving i => exact ⟨hI.errTag, hs⟩
        | error e i => exact hs

theorem aliasLoop_sat (hI : Inv h A G R C D L S I E N) {rec : Info → Live Stats}
    (hr : ∀ i, I i → (rec i).Sat A G R C (FinalInv S E N i)) {info : Info} (hi : I info)
    (l : List (Str × AliasMap)) (hN : ∀ k, (k, .ignored) ∈ l → N) :
    (aliasLoop rec info l).Sat A G R C (StatsInv S I E N) := by
  induction l with
  | nil => exact hi
  | cons kv l ih =>
    obtain ⟨k, v⟩ := kv
    have ih := ih fun k hk => hN k (List.mem_cons_of_mem _ hk)
    cases v with
    | ignored =>
      rw [aliasLoop]
      split
      · exact hN k (List.mem_cons_self ..)
      · exact ih
    | target to =>
      rw [aliasLoop]
      split
      · split
        · exact ih
        · refine Sat.bind (hr _ (hI.target info _ hi)) fun s hs => ?_
          cases s with
          | success r => cases r <;> exact hs
          | resolving i => exact ih
          | error e i => exact ih
      · exact ih

theorem inner_sat (hI : Inv h A G R C D L S I E N) (n : Nat) {info : Info} (hi : I info) :
    (resolveInner h n info).Sat A G R C (FinalInv S E N info) := by
  induction n generalizing info with
  | zero => exact hI.fuel
  | succ n ih =>
    rw [resolveInner]
    refine Sat.bind (P := StatsInv S I E N) ?_ ?_
    · refine Sat.bind (P := StatsInv S I E N) ?_ fun s hs => ?_
      · unfold aliasPlugin
        split
        · exact hi
        · exact aliasLoop_sat hI (fun i hi => ih hi) hi _ hI.ignAlias
      refine Sat.bind (P := StatsInv S I E N) (sat_andThen hs fun i hi => ?_) fun s hs => ?_
      · unfold preferRelativePlugin
        split
        · exact hi
        · split
          · refine Sat.bind (ih (hI.target i _ hi)) fun s hs => ?_
            cases s with
            | success r => cases r <;> exact hs
            | resolving j => exact hi
            | error e j => exact hi
          · exact hi
      refine Sat.bind (P := StatsInv S I E N) (sat_andThen hs fun i hi => ?_) fun s hs => ?_
      · unfold pkgStage
        refine Sat.bind (hI.load _ ?_) fun r hr => ?_
        · split
          · exact hI.askModule i hi
          · exact hI.ask i hi
        cases r with
        | error e => exact ⟨hr.2 e rfl, hi⟩
        | ok pkg =>
          have hp : PkgOk L pkg := fun p hp => hr.1 p (by rw [hp])
          refine Sat.bind (importsPlugin_sat hI n hp hi) fun s hs => ?_
          exact sat_andThen hs fun j hj => aliasField_sat hI n hp hj
      refine sat_andThen hs fun i hi => ?_
      have file : ((resolveAsFile h i).bind fun s => andThen s fun i => resolveAsDir h n i).Sat A G R C
          (StatsInv S I E N) :=
        Sat.bind (hI.file i hi) fun s hs => sat_andThen hs fun j hj => resolveAsDir_sat hI n hj
      unfold lastStage
      split
      · exact file
      · exact file
      · exact file
      · exact modules_sat hI n hi
    · intro s hs
      cases s with
      | success r => cases r <;> exact hs
      | resolving i => exact hI.panics _ (by decide)
      | error e i =>
        dsimp only
        split
        · exact Or.inl rfl
        · rename_i ht
          exact Or.inr ⟨hs.1, by simpa using ht⟩

theorem tsValue_sat (hI : Inv h A G R C D L S I E N) (hE : TsErrs A E N) (n : Nat) {T : Str → Prop}
    (hnew : ∀ p dir s, T p → pparent p = some dir → I ⟨dir, parseRequest s⟩)
    (hS : ∀ i, S i → T i.getPath) {location : Str} (hT : T location) :
    (tsValue h n location).Sat A G R C (fun r => ∀ e, r = .error e → E e ∧ e.isTag = false) := by
  induction n generalizing location with
  | zero => exact hI.fuel
  | succ n ih =>
    rw [tsValue]
    intro r hread
    cases r with
    | none => intro e he; cases he; exact ⟨hE.open_ _ hread, rfl⟩
    | some doc =>
      dsimp only
      split
      · rename_i hj
        intro e he; cases he; exact ⟨hE.parse _ _ _ hread hj, rfl⟩
      · exact hI.panics _ (by decide)
      · rename_i json hj
        split
        · rename_i ext hext
          split
          · exact hI.panics _ (by decide)
          · rename_i dir hdir
            refine Sat.bind (inner_sat hI n (hnew _ _ _ hT hdir)) fun s hs => ?_
            split
            · refine Sat.bind (ih (hS _ hs)) fun r hr => ?_
              split
              · intro e he; cases he; exact hr _ rfl
              · intro e he; cases he
            · intro e he; cases he; exact ⟨hE.ext _ _ _ _ hread hj hext hs, rfl⟩
            · intro e he; cases he
        · intro e he; cases he

theorem tsPathsTry_sat {rec : Info → Live Stats}
    (hr : ∀ i, I i → (rec i).Sat A G R C (FinalInv S E N i)) (star : Str) {next : Live Stats}
    {info : Info} (hn : next.Sat A G R C (FinalInv S E N info)) (l : List Str)
    (hempty : ∀ p ∈ l, I ⟨replaceChar p '*' star, Request.empty⟩) :
    (tsPathsTry rec star next l).Sat A G R C (FinalInv S E N info) := by
  induction l with
  | nil => exact hn
  | cons p ps ihp =>
    rw [tsPathsTry]
    have ihp := ihp fun p hp => hempty p (List.mem_cons_of_mem _ hp)
    refine Sat.bind (hr _ (hempty p (by simp))) fun s hs => ?_
    cases s with
    | success r => cases r <;> exact hs
    | resolving i => exact ihp
    | error e i => exact ihp

theorem tsEntries_sat (hc : ∀ s, Inner s → C (.panic s)) {rec : Info → Live Stats}
    (hr : ∀ i, I i → (rec i).Sat A G R C (FinalInv S E N i)) {info : Info} (hi : I info)
    (l : List (Str × List Str))
    (hempty : ∀ kp ∈ l, ∀ p ∈ kp.2, ∀ star, I ⟨replaceChar p '*' star, Request.empty⟩) :
    (tsEntries rec info l).Sat A G R C (FinalInv S E N info) := by
  induction l with
  | nil => exact hr _ hi
  | cons kv l ih =>
    obtain ⟨k, paths⟩ := kv
    have ih := ih fun kp hkp => hempty kp (List.mem_cons_of_mem _ hkp)
    rw [tsEntries]
    split
    · exact hc _ (by decide)
    · exact ih
    · exact tsPathsTry_sat hr _ ih paths fun p hp => hempty _ List.mem_cons_self p hp _

/-- As `stats_sat`, with other demands on what is resolved while the tsconfig is read. -/
theorem stats_sat2 {D' : Str → Prop} {L' : Pkg → Prop} {S' I' : Info → Prop} {N' : Prop}
    (hI : Inv h A G R C D L S I E N) (hI' : Inv h A G R C D' L' S' I' E N') (n : Nat) (path request : Str)
    (hi : I ⟨path, parseRequest request⟩)
    (hts : ∀ location, h.opts.tsconfig = some location →
      G .seed ∧ TsErrs A E N' ∧ (∃ T : Str → Prop, T location ∧
        (∀ p dir s, T p → pparent p = some dir → I' ⟨dir, parseRequest s⟩) ∧
        ∀ i, S' i → T i.getPath) ∧
      ∀ dir b q star, pparent location = some dir →
        I ⟨replaceChar (pjoin (pjoin dir b) q) '*' star, Request.empty⟩) :
    (resolveStats h n path request).Sat A G R C (FinalInv S E N ⟨path, parseRequest request⟩) := by
  unfold resolveStats
  dsimp only
  split
  · rename_i location hl
    obtain ⟨hseed, hE, ⟨T, hT, hnew, hS⟩, hempty⟩ := hts location hl
    unfold resolveWithTsconfig
    refine Sat.bind (tsValue_sat hI' hE n hnew hS hT) fun r hr => ?_
    cases r with
    | error e => exact Or.inr (hr e rfl)
    | ok json =>
      dsimp only
      split
      · exact hI.panics _ (by decide)
      · split
        · exact hI.panics _ (by decide)
        · rename_i entries he
          refine ⟨hseed, fun r _ => ?_⟩
          refine tsEntries_sat hI.panics (fun i hi => inner_sat hI n hi) hi _ fun kp hkp p hp star => ?_
          obtain ⟨dir, b, q, hd, rfl⟩ := createMatchList_mem he kp (mem_permute hkp) p hp
          exact hempty dir b q star hd
  · exact inner_sat hI n hi

theorem stats_sat (hI : Inv h A G R C D L S I E N) (n : Nat) (path request : Str)
    (hi : I ⟨path, parseRequest request⟩)
    (hts : ∀ location, h.opts.tsconfig = some location →
      G .seed ∧ TsErrs A E N ∧ (∃ T : Str → Prop, T location ∧
        (∀ p dir s, T p → pparent p = some dir → I ⟨dir, parseRequest s⟩) ∧
        ∀ i, S i → T i.getPath) ∧
      ∀ dir b q star, pparent location = some dir →
        I ⟨replaceChar (pjoin (pjoin dir b) q) '*' star, Request.empty⟩) :
    (resolveStats h n path request).Sat A G R C (FinalInv S E N ⟨path, parseRequest request⟩) :=
  stats_sat2 hI hI n path request hi hts


end

end Verif.Live
