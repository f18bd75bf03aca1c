import Verif.Spec.Exec
/-!
# Postconditions of calls

`p.Sat G R P`: if every answer to an operation satisfies `R`, then every operation performed
satisfies `G`, and the value returned satisfies `P`. A call that crashes returns no value.
-/

namespace Verif

/-- See the file comment. -/
def Prog.Sat {α : Type} (G : Op → Prop) (R : (o : Op) → o.Ret → Prop) (P : α → Prop) :
    Prog α → Prop
  | .ret a => P a
  | .crash _ => True
  | .op o k => G o ∧ ∀ r, R o r → (k r).Sat G R P

/-- The value returned satisfies `P`, whatever the operations answer. -/
def Prog.All {α : Type} (P : α → Prop) (p : Prog α) : Prop :=
  p.Sat (fun _ => True) (fun _ _ => True) P

section
variable {α β : Type} {G : Op → Prop} {R : (o : Op) → o.Ret → Prop}

@[simp] theorem Prog.sat_ret (a : α) (P : α → Prop) : (Prog.ret a).Sat G R P ↔ P a := Iff.rfl
@[simp] theorem Prog.sat_crash (c : Crash) (P : α → Prop) :
    (Prog.crash c : Prog α).Sat G R P ↔ True := Iff.rfl
@[simp] theorem Prog.sat_panic (c : Site) (P : α → Prop) :
    (Prog.panic c : Prog α).Sat G R P ↔ True := Iff.rfl
theorem Prog.sat_op (o : Op) (k : o.Ret → Prog α) (P : α → Prop) :
    (Prog.op o k).Sat G R P ↔ G o ∧ ∀ r, R o r → (k r).Sat G R P := Iff.rfl

theorem Prog.Sat.mono {P Q : α → Prop} {p : Prog α} (h : p.Sat G R P) (hPQ : ∀ a, P a → Q a) :
    p.Sat G R Q := by
  induction p with
  | ret a => exact hPQ a h
  | crash c => trivial
  | op o k ih => exact ⟨h.1, fun r hr => ih r (h.2 r hr)⟩

theorem Prog.Sat.bind {P : α → Prop} {Q : β → Prop} {p : Prog α} {f : α → Prog β}
    (h : p.Sat G R P) (hf : ∀ a, P a → (f a).Sat G R Q) : (p.bind f).Sat G R Q := by
  induction p with
  | ret a => exact hf a h
  | crash c => trivial
  | op o k ih => exact ⟨h.1, fun r hr => ih r (h.2 r hr)⟩

theorem Prog.Sat.and {P Q : α → Prop} {p : Prog α} (h : p.Sat G R P) (h' : p.Sat G R Q) :
    p.Sat G R (fun a => P a ∧ Q a) := by
  induction p with
  | ret a => exact ⟨h, h'⟩
  | crash c => trivial
  | op o k ih => exact ⟨h.1, fun r hr => ih r (h.2 r hr) (h'.2 r hr)⟩

/-- Nothing is demanded of a call without demands on operations and value. -/
theorem Prog.sat_true {p : Prog α} : p.Sat (fun _ => True) R (fun _ => True) := by
  induction p with
  | ret a => trivial
  | crash c => trivial
  | op o k ih => exact ⟨trivial, fun r _ => ih r⟩

theorem Prog.all_true (p : Prog α) : p.All (fun _ => True) := Prog.sat_true

/-- Running a call from a state in an invariant that the operations keep. -/
theorem Prog.Sat.run {I : World → Prop} {P : α → Prop}
    (hI : ∀ w o, I w → G o → I (Op.exec w o).2 ∧ R o (Op.exec w o).1) {p : Prog α}
    (h : p.Sat G R P) {w : World} (hw : I w) :
    I (p.run w).2 ∧ ∀ a, (p.run w).1 = .done a → P a := by
  induction p generalizing w with
  | ret a => exact ⟨hw, fun b hb => by cases hb; exact h⟩
  | crash c => exact ⟨hw, fun b hb => by cases hb⟩
  | op o k ih =>
    obtain ⟨h1, h2⟩ := hI w o hw h.1
    exact ih _ (h.2 _ h2) h1

/-- Running a call with a postcondition, from any state. -/
theorem Prog.All.run {P : α → Prop} {p : Prog α} (h : p.All P) {w w' : World} {a : α}
    (hr : p.run w = (.done a, w')) : P a :=
  (Prog.Sat.run (I := fun _ => True) (fun _ _ _ _ => ⟨trivial, trivial⟩) h (w := w) trivial).2 a
    (by rw [hr])

end

/-! ## A generic invariant of resolution

`I` holds of the information in flight, `S` of the information returned with a success, `E` of
errors. -/

/-- The invariant on `Stats`. -/
def StatsInv (S I : Info → Prop) (E : Err → Prop) (N : Prop) : Stats → Prop
  | .success (.info i) => S i
  | .success .ignored => N
  | .resolving i => I i
  | .error e i => E e ∧ I i

/-- What holds of the result of `_resolve`: it is not `Resolving`, and a marker error has been
replaced by the message for the request. -/
def FinalInv (S : Info → Prop) (E : Err → Prop) (N : Prop) (info : Info) : Stats → Prop
  | .success (.info i) => S i
  | .success .ignored => N
  | .resolving _ => False
  | .error e _ => e = failedMessage info ∨ E e ∧ e.isTag = false

/-- `item` is in the result of a lookup in the tree. -/
def ItemOf (k : FieldKind) (tree : Option Node) (names : List Str) (item : Str) : Prop :=
  ∃ root req l, tree = some root ∧ fieldProcess k root req names = some (.ok l) ∧ item ∈ l

/-- The demands on `I` and `S`, on the paths `D` asked of the loader, and on the packages `L`
that it returns. -/
structure Inv (c : Ctx) (G : Op → Prop) (R : (o : Op) → o.Ret → Prop) (D : Str → Prop)
    (L : Pkg → Prop) (S I : Info → Prop) (E : Err → Prop) (N : Prop) : Prop where
  load : ∀ p, D p → (c.load p).Sat G R fun r =>
    (∀ pkg, r = .ok (some pkg) → L pkg) ∧ ∀ e, r = .error e → E e
  ask : ∀ i, I i → D i.getPath
  askModule : ∀ i, I i → D (pjoin (pjoin i.path MODULE) i.request.target)
  pathGet : ∀ i, I i → I (i.withPath i.getPath)
  pathPkg : ∀ i pkg, L pkg → I i → I (i.withPath pkg.absDir)
  pathModule : ∀ i, I i → I (i.withPath (pjoin i.path MODULE))
  pathParent : ∀ i j q, I i → I j → pparent i.path = some q → I (j.withPath q)
  target : ∀ i t, I i → I (i.withTarget t)
  file : ∀ i, I i → StatsInv S I E N (resolveAsFile c i)
  errTag : E .tag
  errPkg : ∀ pkg, L pkg → (∀ t, E (.notExported t)) ∧
    (∀ root t e, pkg.exportsTree = some root →
      fieldProcess .exports root t c.opts.conditionNames = some (.error e) → E e) ∧
    ∀ root t e, pkg.importsTree = some root →
      fieldProcess .imports root t c.opts.conditionNames = some (.error e) → E e
  exports : ∀ pkg, L pkg → ∀ item, ItemOf .exports pkg.exportsTree c.opts.conditionNames item →
    I ⟨pkg.absDir, parseRequest item⟩
  imports : ∀ pkg, L pkg → ∀ item, ItemOf .imports pkg.importsTree c.opts.conditionNames item →
    I ⟨pkg.absDir, parseRequest item⟩ ∧ I ⟨pjoin pkg.absDir MODULE, parseRequest item⟩
  ignAlias : ∀ k, (k, .ignored) ∈ c.opts.alias → N := by intros; trivial
  ignField : ∀ pkg k, L pkg → c.opts.browserField = true → (k, .ignored) ∈ pkg.aliasFields → N := by
    intros; trivial

section
variable {c : Ctx} {G : Op → Prop} {R : (o : Op) → o.Ret → Prop} {D : Str → Prop}
  {L : Pkg → Prop} {S I : Info → Prop} {E : Err → Prop} {N : Prop}

theorem StatsInv.andThen {s : Stats} {f : Info → Prog Stats} (h : StatsInv S I E N s)
    (hf : ∀ i, I i → (f i).Sat G R (StatsInv S I E N)) : (s.andThen f).Sat G R (StatsInv S I E N) := by
  cases s with
  | success r => exact h
  | resolving i => exact hf i h
  | error e i => exact h

/-- The packages handed around satisfy `L`. -/
abbrev PkgOk (L : Pkg → Prop) (pkg : Option Pkg) : Prop := ∀ p, pkg = some p → L p

theorem exportsPick_mem {c : Ctx} {dir : Str} {l : List Str} {i : Info}
    (h : exportsPick c dir l = some i) :
    ∃ item ∈ l, i = ⟨dir, parseRequest item⟩ ∧ c.fs.isFile i.getPath = true ∧
      checkTarget i.request.target = true := by
  induction l with
  | nil => cases h
  | cons x l ih =>
    unfold exportsPick at h
    simp only at h
    split at h
    · rename_i hc
      cases h
      simp only [Bool.and_eq_true] at hc
      exact ⟨x, by simp, rfl, hc.1, hc.2⟩
    · obtain ⟨item, h1, h2⟩ := ih h
      exact ⟨item, List.mem_cons_of_mem _ h1, h2⟩

theorem exportsPlugin_sat (hI : Inv c G R D L S I E N) {pkg : Option Pkg} (hp : PkgOk L pkg) {info : Info}
    (h : I info) : (exportsPlugin c pkg info).Sat G R (StatsInv S I E N) := by
  cases pkg with
  | none => exact h
  | some pkg =>
    have hp := hp pkg rfl
    unfold exportsPlugin
    simp only
    split
    · exact h
    · split
      · exact h
      · split
        · exact h
        · rename_i root hroot
          refine Prog.Sat.bind (P := fun _ => True) ?_ ?_
          · unfold exportsRequestOf
            simp only
            split
            · trivial
            · split
              · trivial
              · split <;> trivial
          · intro a _
            cases a with
            | none => exact ⟨hI.errTag, h⟩
            | some remaining =>
              simp only
              split
              · trivial
              · rename_i he
                exact ⟨(hI.errPkg pkg hp).2.1 _ _ _ hroot he, h⟩
              · rename_i hl
                split
                · rename_i i hi
                  obtain ⟨item, hm, rfl, -⟩ := exportsPick_mem hi
                  exact hI.exports pkg hp item ⟨_, _, _, hroot, hl, hm⟩
                · exact ⟨(hI.errPkg pkg hp).1 _, h⟩

theorem alookup_mem {β : Type} {k : Str} {l : List (Str × β)} {v : β} (h : alookup k l = some v) :
    (k, v) ∈ l := by
  induction l with
  | nil => cases h
  | cons x l ih =>
    obtain ⟨k', v'⟩ := x
    unfold alookup at h
    split at h
    · rename_i hk
      cases h
      rw [hk]
      exact List.mem_cons_self ..
    · exact List.mem_cons_of_mem _ (ih h)

theorem aliasChain_ignored {fields : List (Str × AliasMap)} {n : Nat} {k : Str} {v : AliasMap}
    (hk : (k, v) ∈ fields) (h : aliasChain fields n v = some .ignored) :
    ∃ k, (k, .ignored) ∈ fields := by
  induction n generalizing k v with
  | zero => cases h
  | succ n ih =>
    cases v with
    | ignored => exact ⟨k, hk⟩
    | target t =>
      unfold aliasChain at h
      split at h
      · rename_i next hn
        exact ih (alookup_mem hn) h
      · cases h

theorem aliasFieldPlugin_sat (hI : Inv c G R D L S I E N) (fuel : Nat) {pkg : Option Pkg}
    (hp : PkgOk L pkg) {info : Info} (h : I info) : (aliasFieldPlugin c fuel pkg info).Sat G R (StatsInv S I E N) := by
  unfold aliasFieldPlugin
  split
  · exact h
  · split
    · exact h
    · split
      · exact h
      · split
        · trivial
        · exact hI.target _ _ (hI.pathPkg _ _ (hp _ rfl) h)
        · rename_i hb _ _ _ _ _ hf _ hc
          obtain ⟨k', hk'⟩ := aliasChain_ignored (List.mem_of_find?_eq_some hf) hc
          exact hI.ignField _ k' (hp _ rfl) (by simpa using hb) hk'

theorem importsCheck_sat {G : Op → Prop} {R : (o : Op) → o.Ret → Prop}
    (hne : ∀ t, E (.notExported t)) {i : Info} (hi : I i) {t : Str} :
    (Prog.ret (importsCheck c i t)).Sat G R (StatsInv S I E N) := by
  unfold importsCheck
  split
  · exact hi
  · exact ⟨hne t, hi⟩

theorem importsPlugin_sat (hI : Inv c G R D L S I E N) (n : Nat) {pkg : Option Pkg} (hp : PkgOk L pkg)
    {info : Info} (h : I info) : (importsPlugin c n pkg info).Sat G R (StatsInv S I E N) := by
  induction n generalizing pkg info with
  | zero => trivial
  | succ n ih =>
    cases pkg with
    | none => exact h
    | some pkg =>
      have hL := hp pkg rfl
      unfold importsPlugin
      simp only
      split
      · exact h
      · split
        · exact h
        · rename_i root hroot
          have hne := (hI.errPkg pkg hL).1
          split
          · trivial
          · rename_i he
            exact ⟨(hI.errPkg pkg hL).2.2 _ _ _ hroot he, h⟩
          · exact ⟨hne _, h⟩
          · rename_i item l hl
            have him := hI.imports pkg hL item ⟨_, _, _, hroot, hl, List.mem_cons_self ..⟩
            split
            · refine Prog.Sat.bind (hI.load _ (hI.ask _ him.2)) ?_
              intro r hr
              cases r with
              | error e => exact ⟨hr.2 e rfl, him.2⟩
              | ok pkg' =>
                have hp' : PkgOk L pkg' := fun p hp => hr.1 p (by rw [hp])
                simp only
                split
                · exact him.2
                · refine Prog.Sat.bind (exportsPlugin_sat hI hp' him.2) fun s hs => ?_
                  refine Prog.Sat.bind (hs.andThen fun i hi => ih hp' hi) fun s hs => ?_
                  refine Prog.Sat.bind (hs.andThen fun i hi => aliasFieldPlugin_sat hI n hp' hi)
                    fun s hs => ?_
                  refine hs.andThen fun i hi => ?_
                  exact importsCheck_sat hne hi
            · split
              · exact ih hp him.1
              · exact importsCheck_sat hne him.1

theorem mainFileLoop_sat (hI : Inv c G R D L S I E N) (n : Nat) {pkg : Option Pkg} (hp : PkgOk L pkg)
    {info : Info} (h : I info) (l : List Str) {cur : Info} (hc : I cur) :
    (mainFileLoop c n pkg info l cur).Sat G R (StatsInv S I E N) := by
  induction l generalizing cur with
  | nil => exact h
  | cons f l ih =>
    unfold mainFileLoop
    refine Prog.Sat.bind (P := StatsInv S I E N) ?_ ?_
    · refine Prog.Sat.bind (exportsPlugin_sat hI hp (hI.target _ _ hc)) fun s hs => ?_
      refine Prog.Sat.bind (hs.andThen fun i hi => importsPlugin_sat hI n hp hi) fun s hs => ?_
      refine Prog.Sat.bind (hs.andThen fun i hi => aliasFieldPlugin_sat hI n hp hi) fun s hs => ?_
      exact hs.andThen fun i hi => hI.file i hi
    · intro s hs
      cases s with
      | success r => exact hs
      | resolving i => exact ih hs
      | error e i => exact ih hs.2

theorem mainFieldLoop_sat (hI : Inv c G R D L S I E N) (n : Nat) {asDir : Info → Prog Stats}
    (hd : ∀ i, I i → (asDir i).Sat G R (StatsInv S I E N)) {pkg : Pkg} (hp : L pkg) {info : Info}
    (h : I info) (l : List Str) {cur : Info} (hc : I cur) :
    (mainFieldLoop c n asDir pkg info l cur).Sat G R (StatsInv S I E N) := by
  induction l generalizing cur with
  | nil => exact h
  | cons f l ih =>
    unfold mainFieldLoop
    split
    · exact ih hc
    · simp only
      split
      · exact h
      · refine Prog.Sat.bind (P := StatsInv S I E N) ?_ ?_
        · refine Prog.Sat.bind (aliasFieldPlugin_sat hI n (pkg := some pkg) (fun p e => by cases e; exact hp) ?_) fun s hs => ?_
          · split <;> exact hI.target _ _ hc
          refine Prog.Sat.bind (hs.andThen fun i hi => hI.file i hi) fun s hs => ?_
          exact hs.andThen hd
        · intro s hs
          cases s with
          | success r => exact hs
          | resolving i => exact ih hs
          | error e i => exact ih hs.2

theorem resolveAsDir_sat (hI : Inv c G R D L S I E N) (n : Nat) {info : Info} (h : I info) :
    (resolveAsDir c n info).Sat G R (StatsInv S I E N) := by
  induction n generalizing info with
  | zero => trivial
  | succ n ih =>
    unfold resolveAsDir
    simp only
    split
    · exact ⟨hI.errTag, h⟩
    · refine Prog.Sat.bind (hI.load _ (hI.ask _ h)) fun r hr => ?_
      cases r with
      | error e => exact ⟨hr.2 e rfl, h⟩
      | ok pkg =>
        have hp : PkgOk L pkg := fun p hp => hr.1 p (by rw [hp])
        have h' := hI.target _ [] (hI.pathGet info h)
        refine Prog.Sat.bind (P := StatsInv S I E N) ?_ fun s hs => ?_
        · unfold mainFieldPlugin
          split
          · exact h'
          · split
            · exact h'
            · exact mainFieldLoop_sat hI n (fun i hi => ih hi) (hp _ rfl) h' _ h'
        · exact hs.andThen fun i hi => mainFileLoop_sat hI n hp hi _ hi

theorem modulePackageChain_sat (hI : Inv c G R D L S I E N) (n : Nat) {pkg : Option Pkg} (hp : PkgOk L pkg)
    {info : Info} (h : I info) : (modulePackageChain c n pkg info).Sat G R (StatsInv S I E N) := by
  unfold modulePackageChain
  refine Prog.Sat.bind (exportsPlugin_sat hI hp h) fun s hs => ?_
  refine Prog.Sat.bind (hs.andThen fun i hi => importsPlugin_sat hI n hp hi) fun s hs => ?_
  refine Prog.Sat.bind (P := StatsInv S I E N) (hs.andThen fun i hi => ?_) fun s hs => ?_
  · simp only
    split
    · exact aliasFieldPlugin_sat hI n hp (hI.target _ _ hi)
    · exact aliasFieldPlugin_sat hI n hp hi
  refine Prog.Sat.bind (hs.andThen fun i hi => hI.file i hi) fun s hs => ?_
  exact hs.andThen fun i hi => resolveAsDir_sat hI n hi

theorem moduleStep_sat (hI : Inv c G R D L S I E N) (n : Nat) {info : Info} (h : I info) :
    (moduleStep c n info).Sat G R (fun r => StatsInv S I E N r.1) := by
  unfold moduleStep
  simp only
  split
  · exact h
  · split
    · trivial
    · refine Prog.Sat.bind (hI.load _ (hI.askModule _ h)) fun r hr => ?_
      have hm : I ⟨pjoin info.path MODULE, info.request⟩ := hI.pathModule info h
      cases r with
      | error e => exact ⟨hr.2 e rfl, h⟩
      | ok pkg =>
        have hp : PkgOk L pkg := fun p hp => hr.1 p (by rw [hp])
        simp only
        split
        · have := hI.file _ hm
          split
          · rename_i r he
            rw [he] at this; exact this
          · exact h
        · refine Prog.Sat.bind (modulePackageChain_sat hI n hp hm) fun s hs => ?_
          cases s with
          | error e i =>
            simp only
            split
            · exact h
            · exact hs
          | success r => exact hs
          | resolving i => exact hs

theorem resolveAsModules_sat (hI : Inv c G R D L S I E N) (n : Nat) {info : Info} (h : I info) :
    (resolveAsModules c n info).Sat G R (StatsInv S I E N) := by
  induction n generalizing info with
  | zero => trivial
  | succ n ih =>
    unfold resolveAsModules
    refine Prog.Sat.bind (moduleStep_sat hI n h) fun r hr => ?_
    obtain ⟨s, b⟩ := r
    cases b with
    | true => exact hr
    | false =>
      refine Prog.Sat.bind (P := StatsInv S I E N) (hr.andThen fun i hi => ?_) fun s hs => ?_
      · split
        · rename_i q hq
          exact ih (hI.pathParent info i q h hi hq)
        · exact hi
      · cases s with
        | success r => exact hs
        | resolving i => exact ⟨hI.errTag, hs⟩
        | error e i => exact hs

theorem aliasLoop_sat (hI : Inv c G R D L S I E N) {rec : Info → Prog Stats}
    (hr : ∀ i, I i → (rec i).Sat G R (FinalInv S E N i)) {info : Info} (h : I info)
    (l : List (Str × AliasMap)) (hN : ∀ k, (k, .ignored) ∈ l → N) :
    (aliasLoop rec info l).Sat G R (StatsInv S I E N) := by
  induction l with
  | nil => exact h
  | cons kv l ih =>
    obtain ⟨k, v⟩ := kv
    have ih := ih fun k hk => hN k (List.mem_cons_of_mem _ hk)
    unfold aliasLoop
    simp only
    split
    · split
      · split
        · exact ih
        · refine Prog.Sat.bind (hr _ (hI.target info _ h)) fun s hs => ?_
          cases s with
          | success r => cases r <;> exact hs
          | resolving i => exact ih
          | error e i => exact ih
      · exact hN k (List.mem_cons_self ..)
    · exact ih

theorem resolveInner_sat (hI : Inv c G R D L S I E N) (n : Nat) {info : Info} (h : I info) :
    (resolveInner c n info).Sat G R (FinalInv S E N info) := by
  induction n generalizing info with
  | zero => trivial
  | succ n ih =>
    unfold resolveInner
    refine Prog.Sat.bind (P := StatsInv S I E N) ?_ ?_
    · refine Prog.Sat.bind (P := StatsInv S I E N) ?_ fun s hs => ?_
      · unfold aliasPlugin
        split
        · exact h
        · exact aliasLoop_sat hI (fun i hi => ih hi) h _ hI.ignAlias
      refine Prog.Sat.bind (P := StatsInv S I E N) (hs.andThen fun i hi => ?_) fun s hs => ?_
      · unfold preferRelativePlugin
        split
        · exact hi
        · split
          · refine Prog.Sat.bind (ih (hI.target i _ hi)) fun s hs => ?_
            cases s with
            | success r => cases r <;> exact hs
            | resolving j => exact hi
            | error e j => exact hi
          · exact hi
      refine Prog.Sat.bind (P := StatsInv S I E N) (hs.andThen fun i hi => ?_) fun s hs => ?_
      · unfold pkgStage
        refine Prog.Sat.bind (hI.load _ ?_) fun r hr => ?_
        · split
          · exact hI.askModule i hi
          · exact hI.ask i hi
        cases r with
        | error e => exact ⟨hr.2 e rfl, hi⟩
        | ok pkg =>
          have hp : PkgOk L pkg := fun p hp => hr.1 p (by rw [hp])
          refine Prog.Sat.bind (importsPlugin_sat hI n hp hi) fun s hs => ?_
          exact hs.andThen fun j hj => aliasFieldPlugin_sat hI n hp hj
      refine hs.andThen fun i hi => ?_
      unfold lastStage
      split
      · exact (hI.file i hi).andThen fun j hj => resolveAsDir_sat hI n hj
      · exact (hI.file i hi).andThen fun j hj => resolveAsDir_sat hI n hj
      · exact (hI.file i hi).andThen fun j hj => resolveAsDir_sat hI n hj
      · exact resolveAsModules_sat hI n hi
    · intro s hs
      cases s with
      | success r => cases r <;> exact hs
      | resolving i => trivial
      | error e i =>
        simp only
        split
        · exact Or.inl rfl
        · rename_i ht
          exact Or.inr ⟨hs.1, by simpa using ht⟩

/-- The errors of reading a tsconfig satisfy `E`. -/
structure TsErrOk (E : Err → Prop) : Prop where
  open_ : ∀ p, E (.openFailed p)
  parse : ∀ p m, E (.tsParseFailed p m)
  ext : ∀ s p, E (.extendsIgnored s p)

theorem tsValue_sat (hI : Inv c G R D L S I E N) (hE : TsErrOk E) (n : Nat) {T : Str → Prop}
    (hnew : ∀ p dir s, T p → pparent p = some dir → I ⟨dir, parseRequest s⟩)
    (hS : ∀ i, S i → T i.getPath) {location : Str} (hT : T location) :
    (tsValue c n location).Sat G R (fun r => ∀ e, r = .error e → E e ∧ e.isTag = false) := by
  induction n generalizing location with
  | zero => trivial
  | succ n ih =>
    unfold tsValue
    split
    · intro e he; cases he; exact ⟨hE.open_ _, rfl⟩
    · split
      · intro e he; cases he; exact ⟨hE.parse _ _, rfl⟩
      · trivial
      · split
        · split
          · trivial
          · rename_i dir hdir
            refine Prog.Sat.bind (resolveInner_sat hI n (hnew _ _ _ hT hdir)) fun s hs => ?_
            split
            · refine Prog.Sat.bind (ih (hS _ hs)) fun r hr => ?_
              split
              · intro e he; cases he; exact hr _ rfl
              · intro e he; cases he
            · intro e he; cases he; exact ⟨hE.ext _ _, rfl⟩
            · intro e he; cases he
        · intro e he; cases he

theorem tsPathsTry_sat {rec : Info → Prog Stats}
    (hr : ∀ i, I i → (rec i).Sat G R (FinalInv S E N i)) (star : Str) {next : Prog Stats}
    {info : Info} (hn : next.Sat G R (FinalInv S E N info)) (l : List Str)
    (hempty : ∀ p ∈ l, I ⟨replaceChar p '*' star, Request.empty⟩) :
    (tsPathsTry rec star next l).Sat G R (FinalInv S E N info) := by
  induction l with
  | nil => exact hn
  | cons p ps ihp =>
    unfold tsPathsTry
    have ihp := ihp fun p hp => hempty p (List.mem_cons_of_mem _ hp)
    refine Prog.Sat.bind (hr _ (hempty p (by simp))) fun s hs => ?_
    cases s with
    | success r => cases r <;> exact hs
    | resolving i => exact ihp
    | error e i => exact ihp

theorem tsEntries_sat {rec : Info → Prog Stats}
    (hr : ∀ i, I i → (rec i).Sat G R (FinalInv S E N i)) {info : Info} (h : I info)
    (l : List (Str × List Str))
    (hempty : ∀ kp ∈ l, ∀ p ∈ kp.2, ∀ star, I ⟨replaceChar p '*' star, Request.empty⟩) :
    (tsEntries rec info l).Sat G R (FinalInv S E N info) := by
  induction l with
  | nil => exact hr _ h
  | cons kv l ih =>
    obtain ⟨k, paths⟩ := kv
    have ih := ih fun kp hkp => hempty kp (List.mem_cons_of_mem _ hkp)
    unfold tsEntries
    simp only
    split
    · trivial
    · exact ih
    · exact tsPathsTry_sat hr _ ih paths fun p hp => hempty _ List.mem_cons_self p hp _

theorem mem_permute {α : Type} {seed : Nat} {l : List α} {x : α} (h : x ∈ permute seed l) :
    x ∈ l := by
  unfold permute at h
  generalize l.length = n at h
  induction n generalizing seed l with
  | zero => simp [permuteAux] at h
  | succ n ih =>
    unfold permuteAux at h
    split at h
    · cases h
    · rename_i y hy
      rcases List.mem_cons.1 h with rfl | h
      · exact List.mem_of_getElem? hy
      · exact List.mem_of_mem_eraseIdx (ih h)

theorem createMatchList_mem {location : Str} {ts : TsInfo} {l : List (Str × List Str)}
    (h : createMatchList location ts = some l) :
    ∀ kp ∈ l, ∀ p ∈ kp.2, ∃ dir b q, pparent location = some dir ∧ p = pjoin (pjoin dir b) q := by
  unfold createMatchList at h
  split at h
  · cases h
  · rename_i dir hdir
    split at h
    · cases h; simp
    · rename_i b _
      split at h
      · cases h; simp
      · cases h
        intro kp hkp p hp
        obtain ⟨kp', -, rfl⟩ := List.mem_map.1 hkp
        obtain ⟨q, -, rfl⟩ := List.mem_map.1 hp
        exact ⟨dir, b, q, hdir, rfl⟩

/-- As `resolveStats_sat`, with other demands on what is resolved while the tsconfig is read. -/
theorem resolveStats_sat2 {D' : Str → Prop} {L' : Pkg → Prop} {S' I' : Info → Prop} {N' : Prop}
    (hI : Inv c G R D L S I E N) (hI' : Inv c G R D' L' S' I' E N') (n : Nat) (path request : Str)
    (h : I ⟨path, parseRequest request⟩)
    (hts : ∀ location, c.opts.tsconfig = some location →
      G .seed ∧ TsErrOk E ∧ (∃ T : Str → Prop, T location ∧
        (∀ p dir s, T p → pparent p = some dir → I' ⟨dir, parseRequest s⟩) ∧
        ∀ i, S' i → T i.getPath) ∧
      ∀ dir b q star, pparent location = some dir →
        I ⟨replaceChar (pjoin (pjoin dir b) q) '*' star, Request.empty⟩) :
    (resolveStats c n path request).Sat G R (FinalInv S E N ⟨path, parseRequest request⟩) := by
  unfold resolveStats
  simp only
  split
  · rename_i location hl
    obtain ⟨hseed, hE, ⟨T, hT, hnew, hS⟩, hempty⟩ := hts location hl
    unfold resolveWithTsconfig
    refine Prog.Sat.bind (tsValue_sat hI' hE n hnew hS hT) fun r hr => ?_
    cases r with
    | error e => exact Or.inr (hr e rfl)
    | ok json =>
      simp only
      split
      · trivial
      · split
        · trivial
        · rename_i entries he
          refine ⟨hseed, fun r _ => ?_⟩
          refine tsEntries_sat (fun i hi => resolveInner_sat hI n hi) h _ fun kp hkp p hp star => ?_
          obtain ⟨dir, b, q, hd, rfl⟩ := createMatchList_mem he kp (mem_permute hkp) p hp
          exact hempty dir b q star hd
  · exact resolveInner_sat hI n h

theorem resolveStats_sat (hI : Inv c G R D L S I E N) (n : Nat) (path request : Str)
    (h : I ⟨path, parseRequest request⟩)
    (hts : ∀ location, c.opts.tsconfig = some location →
      G .seed ∧ TsErrOk E ∧ (∃ T : Str → Prop, T location ∧
        (∀ p dir s, T p → pparent p = some dir → I ⟨dir, parseRequest s⟩) ∧
        ∀ i, S i → T i.getPath) ∧
      ∀ dir b q star, pparent location = some dir →
        I ⟨replaceChar (pjoin (pjoin dir b) q) '*' star, Request.empty⟩) :
    (resolveStats c n path request).Sat G R (FinalInv S E N ⟨path, parseRequest request⟩) :=
  resolveStats_sat2 hI hI n path request h hts


end

theorem Prog.all_iff_returns {α : Type} {P : α → Prop} {p : Prog α} :
    p.All P ↔ ∀ a, p.Returns a → P a := by
  constructor
  · intro h a hr
    induction hr with
    | ret a => exact h
    | op r _ ih => exact ih (h.2 r trivial)
  · intro h
    induction p with
    | ret a => exact h a (.ret a)
    | crash c => trivial
    | op o k ih => exact ⟨trivial, fun r _ => ih r fun a ha => h a (.op r ha)⟩

theorem Prog.returns_of_run {α : Type} {p : Prog α} {w w' : World} {a : α}
    (h : p.run w = (.done a, w')) : p.Returns a := by
  induction p generalizing w with
  | ret b => cases h; exact .ret _
  | crash c => cases h
  | op o k ih => exact .op _ (ih _ h)

theorem Prog.returns_of_fresh {α : Type} {p : Prog α} {a : α} (h : p.fresh = some a) :
    p.Returns a := by
  unfold Prog.fresh at h
  split at h
  · rename_i b hb
    cases h
    exact Prog.returns_of_run (w' := (p.run (World.init fun _ => 0)).2) (by rw [← hb])
  · cases h

theorem Prog.returns_of_freshInfo {p : Prog (Except Err Result)} {i : Info}
    (h : p.freshInfo = some i) : p.Returns (.ok (.info i)) := by
  unfold Prog.freshInfo at h
  split at h
  · rename_i j hj
    cases h
    exact Prog.returns_of_fresh hj
  · cases h

end Verif
