import Verif.Proofs.Reads
import Verif.Spec.Absolute
import Verif.Spec.LinkFs
/-!
# Calls with absolute paths look at absolute paths
-/

namespace Verif.Live

/-- A look at a path of `D`. -/
def _root_.Verif.Query.within (D : Str → Prop) (q : Query) : Prop := ∀ p, q.path = some p → D p

section
variable {α β : Type} {A : (q : Query) → q.Ret → Prop} {G : Op → Prop} {R : (o : Op) → o.Ret → Prop}
  {C : Crash → Prop} {Q : Query → Prop} {O : Op → Prop} {h : Host} {D : Str → Prop} {L : Pkg → Prop}
  {S I : Info → Prop} {E : Err → Prop} {N : Prop}

theorem Looks.then {P : α → Prop} {p : Live α} {f : α → Live β} (hp : p.Looks A R Q O)
    (hs : p.Sat A G R C P) (hf : ∀ a, P a → (f a).Looks A R Q O) : (p.bind f).Looks A R Q O :=
  hp.bind' fun a ha => hf a (hs.returns ha)

local notation "Lk" p => Looks A R (Query.within D) (fun _ => True) p

theorem within_isFile {p : Str} {f : Bool → Live β} (hp : D p) (hf : ∀ b, Lk (f b)) :
    Lk ((isFile p).bind f) := ⟨fun _ e => by cases e; exact hp, fun b _ => hf b⟩

theorem within_isDir {p : Str} {f : Bool → Live β} (hp : D p) (hf : ∀ b, Lk (f b)) :
    Lk ((isDir p).bind f) := ⟨fun _ e => by cases e; exact hp, fun b _ => hf b⟩

theorem within_exists {p : Str} {f : Bool → Live β} (hp : D p) (hf : ∀ b, Lk (f b)) :
    Lk ((pathExists p).bind f) := ⟨fun _ e => by cases e; exact hp, fun b _ => hf b⟩

/-! ## The loader -/

variable (hup : ∀ p q, D p → pparent p = some q → D q)
include hup

theorem within_findUp {file : Str} (hjoin : ∀ p, D p → D (pjoin p file)) (n : Nat) {dir : Str} (hd : D dir) :
    Lk (findUp file n dir) := by
  induction n generalizing dir with
  | zero => trivial
  | succ n ih =>
    rw [findUp]
    refine within_isFile (hjoin _ hd) fun b => ?_
    split
    · trivial
    · split
      · rename_i q hq
        exact ih (hup _ _ hd hq)
      · trivial

theorem findUp_within {file : Str} (n : Nat) {dir : Str} (hd : D dir) :
    (findUp file n dir).Sat A (fun _ => True) R (fun _ => True) fun r => ∀ d, r = some d → D d := by
  induction n generalizing dir with
  | zero => intro d h; cases h
  | succ n ih =>
    rw [findUp]
    refine sat_isFile fun b _ => ?_
    split
    · intro d h; cases h; exact hd
    · split
      · rename_i q hq
        exact ih (hup _ _ hd hq)
      · intro d h; cases h

theorem within_cacheNone (n : Nat) {path : Str} (hp : D path) : Lk (cacheNone n path) := by
  induction n generalizing path with
  | zero => trivial
  | succ n ih =>
    rw [cacheNone]
    refine within_isDir hp fun b => ?_
    split
    · refine ⟨trivial, fun r _ => ?_⟩
      dsimp only
      split
      · rename_i q hq
        exact ih (hup _ _ hp hq)
      · trivial
    · exact ih hp

omit hup in
theorem within_parse {path desc : Str} (hd : D desc) : Lk (parseAndStore h path desc) :=
  looks_parseAndStore (fun _ _ => trivial) (fun _ e => by cases e; exact hd)
    (fun _ e => by cases e; exact hd) (fun _ _ => trivial) fun _ _ _ => trivial

theorem within_load (hjoin : ∀ desc p, h.opts.descriptionFile = some desc → D p → D (pjoin p desc))
    {path : Str} (n : Nat) (hp : D path) : Lk (loadPkgAux h n path) := by
  induction n generalizing path with
  | zero => trivial
  | succ n ih =>
    rw [loadPkgAux]
    split
    · trivial
    · rename_i desc hdesc
      have hd := hjoin desc path hdesc hp
      refine within_isDir hp fun b => ?_
      split
      · split
        · rename_i q hq
          exact ih (hup _ _ hp hq)
        · trivial
      · refine ⟨trivial, fun r _ => ?_⟩
        have rel : ∀ {β : Type} (k : Unit → Live β), (∀ u, Lk (k u)) → Lk (.ask .release k) :=
          fun k hk => ⟨fun _ e => (by cases e), fun u _ => hk u⟩
        cases r with
        | some cached =>
          refine Looks.bind ?_ fun r => ?_
          · unfold needUpdate
            refine within_isFile hd fun b => ?_
            split
            · trivial
            · refine ⟨trivial, fun r _ => ?_⟩
              cases r with
              | none => trivial
              | some stored =>
                refine ⟨fun _ e => by cases e; exact hd, fun m _ => ?_⟩
                cases m with
                | none => trivial
                | some now =>
                  dsimp only
                  split <;> trivial
          · rcases r with e | (_ | _)
            · exact rel _ fun _ => trivial
            · exact rel _ fun _ => trivial
            · dsimp only
              split
              · exact ⟨trivial, fun _ _ => rel _ fun _ => within_parse hd⟩
              · exact rel _ fun _ => within_parse hd
        | none =>
          refine within_isFile hd fun b => ?_
          split
          · refine (within_findUp hup (hjoin desc · hdesc) _ hp).then (findUp_within hup _ hp) fun r hr => ?_
            cases r with
            | some dir => exact ih (hr _ rfl)
            | none => exact within_cacheNone hup _ hp
          · exact within_parse hd

/-! ## Plugins and resolution -/

omit hup

/-- What is needed to know that all looks are at paths of `D`. -/
structure Asks (h : Host) (A : (q : Query) → q.Ret → Prop) (R : (o : Op) → o.Ret → Prop) (D : Str → Prop)
    (I : Info → Prop) : Prop where
  load : ∀ p, D p → Looks A R (Query.within D) (fun _ => True) (loadPkg h p)
  ext : ∀ i e, I i → D (appendExt i.getPath e)
  root : ∀ i, I i → D (pjoin i.path MODULE)
  module : ∀ i name, I i → D (pjoin (pjoin i.path MODULE) name)
  raw : ∀ i, I i → D (pjoin i.path i.request.target)

variable (hI : Inv h A G R C D L S I E N) (hA : Asks h A R D I)

theorem within_andThen {s : Stats} {f : Info → Live Stats} (hs : StatsInv S I E N s)
    (hf : ∀ i, I i → Lk (f i)) : Lk (andThen s f) := by
  cases s with
  | success r => trivial
  | resolving i => exact hf i hs
  | error e i => trivial

include hI hA

theorem within_ext {i : Info} (hi : I i) (info : Info) (l : List Str) :
    Lk (extensionsLoop i.getPath info l) := by
  induction l with
  | nil => trivial
  | cons e l ih =>
    refine within_isFile (hA.ext _ _ hi) fun b => ?_
    split
    · trivial
    · exact ih

theorem within_asFile {i : Info} (hi : I i) : Lk (resolveAsFile h i) := by
  unfold resolveAsFile
  dsimp only
  split
  · exact within_ext hI hA hi _ _
  · refine within_isFile (hI.ask _ hi) fun b => ?_
    split
    · trivial
    · exact within_ext hI hA hi _ _

theorem within_exportsPick {pkg : Pkg} (hp : L pkg) (l : List Str)
    (hl : ∀ t ∈ l, ItemOf .exports pkg.exportsTree h.opts.conditionNames t) :
    Lk (exportsPick pkg.absDir l) := by
  induction l with
  | nil => trivial
  | cons t l ih =>
    rw [exportsPick]
    refine within_isFile (hI.ask _ (hI.exports pkg hp t (hl t List.mem_cons_self))) fun b => ?_
    split
    · trivial
    · exact ih fun t ht => hl t (List.mem_cons_of_mem _ ht)

theorem within_exports {pkg : Option Pkg} (hp : PkgOk L pkg) {info : Info} (hi : I info) :
    Lk (exportsPlugin h pkg info) := by
  unfold exportsPlugin
  split
  · trivial
  · split
    · trivial
    · split
      · trivial
      · split
        · trivial
        · rename_i root hroot
          refine Looks.bind ?_ fun r => ?_
          · unfold exportsRequestOf
            dsimp only
            split
            · trivial
            · split
              · trivial
              · refine within_exists (hA.raw _ hi) fun b => ?_
                split <;> trivial
          · cases r with
            | none => trivial
            | some remaining =>
              dsimp only
              split
              · trivial
              · trivial
              · rename_i hl
                refine (within_exportsPick hI hA (hp _ rfl) _ fun t ht =>
                  ⟨_, _, _, hroot, hl, ht⟩).bind fun r => ?_
                cases r <;> trivial

omit hA in
theorem within_check {i : Info} (hi : I i) (t : Str) : Lk (importsCheck i t) :=
  within_isFile (hI.ask _ hi) fun b => by split <;> trivial

theorem within_imports (n : Nat) {pkg : Option Pkg} (hp : PkgOk L pkg) {info : Info} (hi : I info) :
    Lk (importsPlugin h n pkg info) := by
  induction n generalizing pkg info with
  | zero => trivial
  | succ n ih =>
    cases pkg with
    | none => trivial
    | some pkg =>
      have hL := hp pkg rfl
      rw [importsPlugin]
      dsimp only
      split
      · trivial
      · split
        · trivial
        · rename_i root hroot
          split
          · trivial
          · trivial
          · trivial
          · rename_i item l hl
            have him := hI.imports pkg hL item ⟨_, _, _, hroot, hl, List.mem_cons_self ..⟩
            split
            · refine (hA.load _ (hI.ask _ him.2)).then (hI.load _ (hI.ask _ him.2)) fun r hr => ?_
              cases r with
              | error e => trivial
              | ok pkg' =>
                have hp' : PkgOk L pkg' := fun p hp => hr.1 p (by rw [hp])
                dsimp only
                split
                · trivial
                · refine (within_exports hI hA hp' him.2).then (exportsPlugin_sat hI hp' him.2) fun s hs => ?_
                  refine (within_andThen hs fun i hi => ih hp' hi).then
                    (sat_andThen hs fun i hi => importsPlugin_sat hI n hp' hi) fun s hs => ?_
                  refine (within_andThen hs fun i hi => looks_aliasField _ _ _).then
                    (sat_andThen hs fun i hi => aliasField_sat hI n hp' hi) fun s hs => ?_
                  exact within_andThen hs fun i hi => within_check hI hi _
            · split
              · exact ih hp him.1
              · exact within_check hI him.1 _

theorem within_mainFile (n : Nat) {pkg : Option Pkg} (hp : PkgOk L pkg) (info : Info) (l : List Str)
    {cur : Info} (hc : I cur) : Lk (mainFileLoop h n pkg info l cur) := by
  induction l generalizing cur with
  | nil => trivial
  | cons m l ih =>
    rw [mainFileLoop]
    have hc' := hI.target _ (cs!"./" ++ m) hc
    refine Looks.then (G := G) (C := C) (P := StatsInv S I E N) ?_ ?_ fun s hs => ?_
    · refine (within_exports hI hA hp hc').then (exportsPlugin_sat hI hp hc') fun s hs => ?_
      refine (within_andThen hs fun i hi => within_imports hI hA n hp hi).then
        (sat_andThen hs fun i hi => importsPlugin_sat hI n hp hi) fun s hs => ?_
      refine (within_andThen hs fun i hi => looks_aliasField _ _ _).then
        (sat_andThen hs fun i hi => aliasField_sat hI n hp hi) fun s hs => ?_
      exact within_andThen hs fun i hi => within_asFile hI hA hi
    · refine Sat.bind (exportsPlugin_sat hI hp hc') fun s hs => ?_
      refine Sat.bind (sat_andThen hs fun i hi => importsPlugin_sat hI n hp hi) fun s hs => ?_
      refine Sat.bind (sat_andThen hs fun i hi => aliasField_sat hI n hp hi) fun s hs => ?_
      exact sat_andThen hs fun i hi => hI.file i hi
    · cases s with
      | success r => trivial
      | resolving i => exact ih hs
      | error e i => exact ih hs.2

theorem within_mainField (n : Nat) {asDir : Info → Live Stats} (hdir : ∀ i, I i → Lk (asDir i))
    (hd : ∀ i, I i → (asDir i).Sat A G R C (StatsInv S I E N)) {pkg : Pkg} (hp : L pkg) (info : Info)
    (l : List Str) {cur : Info} (hc : I cur) : Lk (mainFieldLoop h n asDir pkg info l cur) := by
  induction l generalizing cur with
  | nil => trivial
  | cons f l ih =>
    rw [mainFieldLoop]
    split
    · exact ih hc
    · dsimp only
      split
      · trivial
      · have hp' : PkgOk L (some pkg) := fun p e => by cases e; exact hp
        have hs0 : ∀ {cur : Info}, I cur → (aliasFieldPlugin h n (some pkg) cur).Sat A G R C
            (StatsInv S I E N) := fun hc => aliasField_sat hI n hp' hc
        refine Looks.then (G := G) (C := C) (P := StatsInv S I E N) ?_ ?_ fun s hs => ?_
        · refine (looks_aliasField _ _ _).then (hs0 ?_) fun s hs => ?_
          · split <;> exact hI.target _ _ hc
          refine (within_andThen hs fun i hi => within_asFile hI hA hi).then
            (sat_andThen hs fun i hi => hI.file i hi) fun s hs => ?_
          exact within_andThen hs hdir
        · refine Sat.bind (hs0 ?_) fun s hs => ?_
          · split <;> exact hI.target _ _ hc
          refine Sat.bind (sat_andThen hs fun i hi => hI.file i hi) fun s hs => ?_
          exact sat_andThen hs hd
        · cases s with
          | success r => trivial
          | resolving i => exact ih hs
          | error e i => exact ih hs.2

theorem within_dir (n : Nat) {info : Info} (hi : I info) : Lk (resolveAsDir h n info) := by
  induction n generalizing info with
  | zero => trivial
  | succ n ih =>
    rw [resolveAsDir]
    refine within_isDir (hI.ask _ hi) fun b => ?_
    split
    · trivial
    · refine (hA.load _ (hI.ask _ hi)).then (hI.load _ (hI.ask _ hi)) fun r hr => ?_
      cases r with
      | error e => trivial
      | ok pkg =>
        have hp : PkgOk L pkg := fun p hp => hr.1 p (by rw [hp])
        have h' := hI.target _ [] (hI.pathGet info hi)
        refine Looks.then (G := G) (C := C) (P := StatsInv S I E N) ?_ ?_ fun s hs => ?_
        · unfold mainFieldPlugin
          split
          · trivial
          · split
            · trivial
            · exact within_mainField hI hA n (fun i hi => ih hi)
                (fun i hi => resolveAsDir_sat hI n hi) (hp _ rfl) _ _ h'
        · unfold mainFieldPlugin
          split
          · exact h'
          · split
            · exact h'
            · exact mainFieldLoop_sat hI n (fun i hi => resolveAsDir_sat hI n hi) (hp _ rfl) h' _ h'
        · exact within_andThen hs fun i hi => within_mainFile hI hA n hp _ _ hi

theorem within_chain (n : Nat) {pkg : Option Pkg} (hp : PkgOk L pkg) {info : Info} (hi : I info) :
    Lk (modulePackageChain h n pkg info) := by
  unfold modulePackageChain
  refine (within_exports hI hA hp hi).then (exportsPlugin_sat hI hp hi) fun s hs => ?_
  refine (within_andThen hs fun i hi => within_imports hI hA n hp hi).then
    (sat_andThen hs fun i hi => importsPlugin_sat hI n hp hi) fun s hs => ?_
  refine Looks.then (G := G) (C := C) (P := StatsInv S I E N)
    (within_andThen hs fun i hi => looks_aliasField _ _ _) (sat_andThen hs fun i hi => ?_) fun s hs => ?_
  · dsimp only
    split
    · exact aliasField_sat hI n hp (hI.target _ _ hi)
    · exact aliasField_sat hI n hp hi
  refine (within_andThen hs fun i hi => within_asFile hI hA hi).then
    (sat_andThen hs fun i hi => hI.file i hi) fun s hs => ?_
  exact within_andThen hs fun i hi => within_dir hI hA n hi

theorem within_step (n : Nat) {info : Info} (hi : I info) : Lk (moduleStep h n info) := by
  unfold moduleStep
  refine within_isDir (hA.root _ hi) fun b => ?_
  split
  · trivial
  · dsimp only
    split
    · trivial
    · refine (hA.load _ (hI.askModule _ hi)).then (hI.load _ (hI.askModule _ hi)) fun r hr => ?_
      have hm : I ⟨pjoin info.path MODULE, info.request⟩ := hI.pathModule info hi
      cases r with
      | error e => trivial
      | ok pkg =>
        have hp : PkgOk L pkg := fun p hp => hr.1 p (by rw [hp])
        refine within_isDir (hA.module _ _ hi) fun b => ?_
        split
        · refine (within_asFile hI hA hm).bind fun s => ?_
          cases s <;> trivial
        · refine (within_chain hI hA n hp hm).bind fun s => ?_
          cases s with
          | success r => trivial
          | resolving i => trivial
          | error e i =>
            dsimp only
            split <;> trivial

theorem within_modules (n : Nat) {info : Info} (hi : I info) : Lk (resolveAsModules h n info) := by
  induction n generalizing info with
  | zero => trivial
  | succ n ih =>
    rw [resolveAsModules]
    refine (within_step hI hA n hi).then (moduleStep_sat hI n hi) fun r hr => ?_
    obtain ⟨s, b⟩ := r
    cases b with
    | true => trivial
    | false =>
      refine Looks.bind (within_andThen hr fun i hj => ?_) fun s => ?_
      · split
        · rename_i q hq
          exact ih (hI.pathParent info i q hi hj hq)
        · trivial
      · cases s <;> trivial

theorem within_alias {rec : Info → Live Stats} (hrec : ∀ i, I i → Lk (rec i)) {info : Info} (hi : I info)
    (l : List (Str × AliasMap)) : Lk (aliasLoop rec info l) := by
  induction l with
  | nil => trivial
  | cons e l ih =>
    obtain ⟨from_, to⟩ := e
    unfold aliasLoop
    dsimp only
    split
    · split
      · split
        · exact ih
        · refine (hrec _ (hI.target info _ hi)).bind fun s => ?_
          cases s with
          | success r => trivial
          | resolving i => exact ih
          | error e i => exact ih
      · trivial
    · exact ih

theorem within_inner (n : Nat) {info : Info} (hi : I info) : Lk (resolveInner h n info) := by
  induction n generalizing info with
  | zero => trivial
  | succ n ih =>
    rw [resolveInner]
    refine Looks.bind ?_ fun s => ?_
    · refine Looks.then (G := G) (C := C) (P := StatsInv S I E N) ?_ ?_ fun s hs => ?_
      · unfold aliasPlugin
        split
        · trivial
        · exact within_alias hI hA (fun i hi => ih hi) hi _
      · unfold aliasPlugin
        split
        · exact hi
        · exact aliasLoop_sat hI (fun i hi => inner_sat hI n hi) hi _ hI.ignAlias
      refine Looks.then (G := G) (C := C) (P := StatsInv S I E N) (within_andThen hs fun i hi => ?_)
        (sat_andThen hs fun i hi => ?_) fun s hs => ?_
      · unfold preferRelativePlugin
        split
        · trivial
        · split
          · refine (ih (hI.target i _ hi)).bind fun s => ?_
            cases s <;> trivial
          · trivial
      · unfold preferRelativePlugin
        split
        · exact hi
        · split
          · refine Sat.bind (inner_sat hI n (hI.target i _ hi)) fun s hs => ?_
            cases s with
            | success r => cases r <;> exact hs
            | resolving j => exact hi
            | error e j => exact hi
          · exact hi
      have hask : ∀ i, I i → D (if i.request.kind = .normal then pjoin (pjoin i.path MODULE) i.request.target
          else i.getPath) := fun i hi => by
        split
        · exact hI.askModule i hi
        · exact hI.ask i hi
      refine Looks.then (G := G) (C := C) (P := StatsInv S I E N) (within_andThen hs fun i hi => ?_)
        (sat_andThen hs fun i hi => ?_) fun s hs => ?_
      · unfold pkgStage
        refine (hA.load _ (hask i hi)).then (hI.load _ (hask i hi)) fun r hr => ?_
        cases r with
        | error e => trivial
        | ok pkg =>
          have hp : PkgOk L pkg := fun p hp => hr.1 p (by rw [hp])
          exact (within_imports hI hA n hp hi).bind fun s => looks_andThen fun j => looks_aliasField _ _ _
      · unfold pkgStage
        refine Sat.bind (hI.load _ (hask i hi)) fun r hr => ?_
        cases r with
        | error e => exact ⟨hr.2 e rfl, hi⟩
        | ok pkg =>
          have hp : PkgOk L pkg := fun p hp => hr.1 p (by rw [hp])
          refine Sat.bind (importsPlugin_sat hI n hp hi) fun s hs => ?_
          exact sat_andThen hs fun j hj => aliasField_sat hI n hp hj
      refine within_andThen hs fun i hi => ?_
      have file : Lk ((resolveAsFile h i).bind fun s => andThen s fun i => resolveAsDir h n i) :=
        (within_asFile hI hA hi).then (hI.file i hi) fun s hs =>
          within_andThen hs fun j hj => within_dir hI hA n hj
      unfold lastStage
      split
      · exact file
      · exact file
      · exact file
      · exact within_modules hI hA n hi
    · cases s <;> trivial

/-! ## tsconfig and the entry point -/

theorem within_tsValue (n : Nat) (hnew : ∀ p dir s, D p → pparent p = some dir → I ⟨dir, parseRequest s⟩)
    (hS : ∀ i, S i → D i.getPath) {location : Str} (hT : D location) : Lk (tsValue h n location) := by
  induction n generalizing location with
  | zero => trivial
  | succ n ih =>
    rw [tsValue]
    refine ⟨fun _ e => by cases e; exact hT, fun r _ => ?_⟩
    cases r with
    | none => trivial
    | some doc =>
      dsimp only
      split
      · trivial
      · trivial
      · split
        · split
          · trivial
          · rename_i dir hdir
            have hi := fun s => hnew location dir s hT hdir
            refine (within_inner hI hA n (hi _)).then (inner_sat hI n (hi _)) fun s hs => ?_
            split
            · refine (ih (hS _ hs)).bind fun r => ?_
              cases r <;> trivial
            · trivial
            · trivial
        · trivial

omit hI hA in
theorem within_tsTry {rec : Info → Live Stats} (hrec : ∀ i, I i → Lk (rec i)) (star : Str)
    {next : Live Stats} (hnext : Lk next) (l : List Str)
    (hl : ∀ p ∈ l, I ⟨replaceChar p '*' star, Request.empty⟩) : Lk (tsPathsTry rec star next l) := by
  induction l with
  | nil => exact hnext
  | cons p l ih =>
    rw [tsPathsTry]
    have ih := ih fun p hp => hl p (List.mem_cons_of_mem _ hp)
    refine (hrec _ (hl p List.mem_cons_self)).bind fun s => ?_
    cases s with
    | success r => trivial
    | resolving i => exact ih
    | error e i => exact ih

omit hI hA in
theorem within_tsEntries {rec : Info → Live Stats} (hrec : ∀ i, I i → Lk (rec i)) {info : Info}
    (hi : I info) (l : List (Str × List Str))
    (hl : ∀ kp ∈ l, ∀ p ∈ kp.2, ∀ star, I ⟨replaceChar p '*' star, Request.empty⟩) :
    Lk (tsEntries rec info l) := by
  induction l with
  | nil => exact hrec _ hi
  | cons e l ih =>
    obtain ⟨pattern, paths⟩ := e
    have ih := ih fun kp hkp => hl kp (List.mem_cons_of_mem _ hkp)
    rw [tsEntries]
    split
    · trivial
    · exact ih
    · exact within_tsTry hrec _ ih _ fun p hp => hl _ List.mem_cons_self p hp _

theorem within_stats (n : Nat) {path request : Str} (hi : I ⟨path, parseRequest request⟩)
    (hts : ∀ location, h.opts.tsconfig = some location → D location ∧
      (∀ p dir s, D p → pparent p = some dir → I ⟨dir, parseRequest s⟩) ∧ (∀ i, S i → D i.getPath) ∧
      ∀ dir b q star, pparent location = some dir →
        I ⟨replaceChar (pjoin (pjoin dir b) q) '*' star, Request.empty⟩) :
    Lk (resolveStats h n path request) := by
  unfold resolveStats
  dsimp only
  split
  · rename_i location hl
    obtain ⟨hT, hnew, hS, hempty⟩ := hts location hl
    unfold resolveWithTsconfig
    refine (within_tsValue hI hA n hnew hS hT).bind fun r => ?_
    cases r with
    | error e => trivial
    | ok json =>
      dsimp only
      split
      · trivial
      · split
        · trivial
        · rename_i entries he
          refine ⟨trivial, fun r _ => ?_⟩
          refine within_tsEntries (rec := resolveInner h n) (fun i hi => within_inner hI hA n hi) hi _ fun kp hkp p hp star => ?_
          obtain ⟨dir, b, q, hd, rfl⟩ := createMatchList_mem he kp (mem_permute hkp) p hp
          exact hempty dir b q star hd
  · exact within_inner hI hA n hi

end

/-! ## Absolute paths -/

variable {h : Host}

theorem abs_asks (h : Host) : Asks h (fun _ _ => True) KeyR (fun p => isAbs p = true)
    (fun i => isAbs i.path = true) where
  load p hp := within_load (fun _ _ h hq => (isAbs_pparent hq).trans h)
    (fun _ _ _ h => isAbs_pjoin_left _ h) _ hp
  ext _ _ hi := isAbs_append (getPath_abs hi) _
  root _ hi := isAbs_pjoin_left _ hi
  module _ _ hi := isAbs_pjoin_left _ (isAbs_pjoin_left _ hi)
  raw _ hi := isAbs_pjoin_left _ hi

/-- A call with absolute paths looks at absolute paths only, whatever it sees. -/
theorem prog_abs (fuel : Nat) (call : Call) (hp : call.abs) (ht : h.opts.tsconfigAbs) :
    (Live.prog h fuel call).Looks (fun _ _ => True) KeyR (Query.within fun p => isAbs p = true)
      (fun _ => True) := by
  have hI := abs_inv (A := fun _ _ => True) (C := fun _ => True) h (fun _ _ => trivial) trivial
    fun _ _ _ => cacheNone_sat (fun _ _ => trivial) trivial _ _
  cases call with
  | resolve path request =>
    refine Looks.bind ?_ fun _ => trivial
    refine (within_stats hI (abs_asks h) fuel hp fun l hl => ⟨ht l hl,
      fun p dir s h hd => (isAbs_pparent hd).trans h, fun i hi => hI.ask i hi.2,
      fun dir b q star hd => isAbs_replaceChar
        (isAbs_pjoin_left _ (isAbs_pjoin_left _ ((isAbs_pparent hd).trans (ht l hl))))⟩).then
      (stats_abs hI fuel path request hp ht) fun s hs => ?_
    cases s with
    | error e i => trivial
    | resolving i => trivial
    | success r =>
      cases r with
      | ignored => trivial
      | info i =>
        have hi : isAbs i.path = true := hs.2
        dsimp only [normalizeResult]
        split
        · trivial
        · unfold normalizePath
          split
          · refine Looks.bind ⟨fun _ e => by cases e; exact hi, fun r _ => ?_⟩ fun r => ?_
            · cases r <;> trivial
            · cases r <;> trivial
          · trivial
  | sideEffects path =>
    refine Looks.bind (Looks.bind ((abs_asks h).load path hp) fun r => ?_) fun _ => trivial
    split
    · trivial
    · trivial
    · split <;> trivial

theorem Looks.anti {α : Type} {A A' : (q : Query) → q.Ret → Prop} {R R' : (o : Op) → o.Ret → Prop}
    {Q : Query → Prop} {O : Op → Prop} {p : Live α} (hp : p.Looks A R Q O) (hA : ∀ q r, A' q r → A q r)
    (hR : ∀ o r, R' o r → R o r) : p.Looks A' R' Q O := by
  induction p with
  | ret a => trivial
  | crash c => trivial
  | ask q k ih => exact ⟨hp.1, fun r hr => ih r (hp.2 r (hA _ _ hr))⟩
  | op o k ih => exact ⟨hp.1, fun r hr => ih r (hp.2 r (hR _ _ hr))⟩

/-! ## Two file systems that say the same of absolute paths -/

theorem answer_same {fs fs' : Fs} (h : SameFiles fs fs') {q : Query}
    (hq : q.within fun p => isAbs p = true) : q.answer fs = q.answer fs' := by
  cases q with
  | isFile p => exact h.isFile p (hq p rfl)
  | isDir p => exact h.isDir p (hq p rfl)
  | pathExists p => exact h.pathExists p (hq p rfl)
  | read p => exact h.read p (hq p rfl)
  | mtime p => exact h.mtime p (hq p rfl)
  | canon p => exact h.canon p (hq p rfl)
  | release => rfl

/-- The state but for the files. -/
def Sys.core (s : Sys) : Shared × List (Nat × Call × Nat × Live Answer) :=
  (s.shared, s.tasks.map fun t => (t.rid, t.call, t.fuel, t.prog))

/-- Every call in progress looks at absolute paths only. -/
def Sys.AllAbs (s : Sys) : Prop :=
  Keyed s.shared ∧ ∀ t ∈ s.tasks, t.prog.Looks (fun _ _ => True) KeyR (Query.within fun p => isAbs p = true)
    (fun _ => True) ∧ t.prog.Sat (fun _ _ => True) KeyG KeyR (fun _ => True) fun _ => True

section
variable {cfg : Nat → Config} {ser : Json → Str}

theorem next_allAbs {s : Sys} {e : Event} (hs : s.AllAbs)
    (hstart : ∀ rid call fuel, e = .start rid call fuel → call.abs ∧ (cfg rid).opts.tsconfigAbs) :
    (s.next cfg ser e).AllAbs := by
  obtain ⟨h1, h2⟩ := hs
  cases e with
  | start rid call fuel =>
    obtain ⟨h3, h4⟩ := hstart rid call fuel rfl
    refine ⟨h1, fun t ht => ?_⟩
    rcases List.mem_append.1 ht with ht | ht
    · exact h2 t ht
    · rw [List.mem_singleton.1 ht]
      exact ⟨prog_abs _ _ h3 h4, prog_keyed _ _ _⟩
  | change fs => exact ⟨h1, h2⟩
  | step i seed =>
    unfold Sys.next
    dsimp only
    split
    · exact ⟨h1, h2⟩
    · rename_i t hi
      obtain ⟨ht, ht'⟩ := h2 t (List.mem_of_getElem? hi)
      split
      · rename_i q k hp
        rw [hp] at ht ht'
        refine ⟨h1, fun u hu => ?_⟩
        rcases List.mem_or_eq_of_mem_set hu with hu | rfl
        · exact h2 u hu
        · exact ⟨ht.2 _ trivial, ht' _ trivial⟩
      · rename_i o k hp
        rw [hp] at ht ht'
        obtain ⟨hj, hr⟩ := keyed_step cfg s.shared t.rid o (fun _ => seed) h1 ht'.1
        refine ⟨hj, fun u hu => ?_⟩
        rcases List.mem_or_eq_of_mem_set hu with hu | rfl
        · exact h2 u hu
        · exact ⟨ht.2 _ hr, ht'.2 _ hr⟩
      · exact ⟨h1, h2⟩

theorem core_step {s s' : Sys} (hs : s.AllAbs) (hfs : SameFiles s.fs s'.fs) (hc : s.core = s'.core)
    (i seed : Nat) : (s.next cfg ser (.step i seed)).core = (s'.next cfg ser (.step i seed)).core := by
  have hsh : s.shared = s'.shared := congrArg Prod.fst hc
  have hts : s.tasks.map (fun t => (t.rid, t.call, t.fuel, t.prog)) =
    s'.tasks.map fun t => (t.rid, t.call, t.fuel, t.prog) := congrArg Prod.snd hc
  have hget := congrArg (·[i]?) hts
  simp only [List.getElem?_map] at hget
  unfold Sys.next
  dsimp only
  cases h1 : s.tasks[i]? with
  | none =>
    rw [h1] at hget
    cases h2 : s'.tasks[i]? with
    | none => exact hc
    | some t' => rw [h2] at hget; cases hget
  | some t =>
    rw [h1] at hget
    cases h2 : s'.tasks[i]? with
    | none => rw [h2] at hget; cases hget
    | some t' =>
      rw [h2] at hget
      have he := Option.some.inj hget
      simp only [Prod.mk.injEq] at he
      obtain ⟨e1, e2, e3, e4⟩ := he
      have ht := (hs.2 t (List.mem_of_getElem? h1)).1
      dsimp only
      rw [← e4]
      have key : ∀ p, (s.tasks.set i { t with prog := p }).map (fun t => (t.rid, t.call, t.fuel, t.prog)) =
          (s'.tasks.set i { t' with prog := p }).map fun t => (t.rid, t.call, t.fuel, t.prog) := by
        intro p
        rw [List.map_set, List.map_set, hts, e1, e2, e3]
      split
      · rename_i q k hp
        rw [hp] at ht
        rw [answer_same hfs ht.1]
        exact Prod.ext hsh (key _)
      · rename_i o k hp
        rw [← e1] at key ⊢
        rw [← hsh]
        exact Prod.ext rfl (key _)
      · exact hc

/-- Two histories that differ in the current directory at most lead to the same state. -/
theorem core_after {l l' : List Event} (hl : SameEvents l l')
    (hstart : ∀ rid call fuel, .start rid call fuel ∈ l → call.abs ∧ (cfg rid).opts.tsconfigAbs) {s s' : Sys}
    (hs : s.AllAbs) (hfs : SameFiles s.fs s'.fs) (hc : s.core = s'.core) :
    (s.after cfg ser l).core = (s'.after cfg ser l').core := by
  induction hl generalizing s s' with
  | nil => exact hc
  | start rid call fuel _ ih =>
    refine ih (fun _ _ _ h => hstart _ _ _ (List.mem_cons_of_mem _ h))
      (next_allAbs hs fun _ _ _ e => by cases e; exact hstart _ _ _ List.mem_cons_self) hfs ?_
    refine Prod.ext (show s.shared = s'.shared from congrArg Prod.fst hc) ?_
    have h2 := congrArg Prod.snd hc
    dsimp only [Sys.core] at h2
    simp only [Sys.core, Sys.next, List.map_append, h2, List.map_cons, List.map_nil]
  | change h _ ih =>
    exact ih (fun _ _ _ h => hstart _ _ _ (List.mem_cons_of_mem _ h))
      (next_allAbs hs fun _ _ _ e => by cases e) h hc
  | step i seed _ ih =>
    refine ih (fun _ _ _ h => hstart _ _ _ (List.mem_cons_of_mem _ h))
      (next_allAbs hs fun _ _ _ e => by cases e) ?_ (core_step hs hfs hc i seed)
    have : ∀ s : Sys, (s.next cfg ser (.step i seed)).fs = s.fs := by
      intro s
      unfold Sys.next
      dsimp only
      split
      · rfl
      · split <;> rfl
    rw [this, this]
    exact hfs

end

/-! ## Trees -/

theorem sameFiles_tree (t : Tree) (cwd cwd' : List Str) : SameFiles (treeFs t cwd) (treeFs t cwd') := by
  have h : ∀ p, isAbs p = true → t.lookup cwd p = t.lookup cwd' p := by
    intro p hp
    unfold Tree.lookup
    simp [hp]
  constructor <;> intro p hp <;> simp only [treeFs, Tree.node, h p hp]

theorem sameFiles_links (t : Links) (cwd cwd' : List Str) : SameFiles (linkFs t cwd) (linkFs t cwd') := by
  have h : ∀ p, isAbs p = true → t.lookup cwd p = t.lookup cwd' p := by
    intro p hp
    unfold Links.lookup
    simp [hp]
  constructor <;> intro p hp <;> simp only [linkFs, Links.node, h p hp]

end Verif.Live
