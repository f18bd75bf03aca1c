import Verif.Spec.Fields
import Verif.Spec.Live
import Verif.Proofs.LockDisc
/-!
# Which fields of JSON files matter

Two runs in lockstep: the same looks and operations, with answers that agree on the fields that matter.
-/

namespace Verif

/-! ## tsconfig values -/

section
variable (P : Str → Bool) (g : Str → Json → Json)

/-- Some fields, each seen through a glass. -/
def through (l : List (Str × Json)) : List (Str × Json) :=
  (l.filter fun kv => P kv.1).map fun kv => (kv.1, g kv.1 kv.2)

variable {P} in
theorem through_in {k : Str} (h : P k = true) (v : Json) (l : List (Str × Json)) :
    through P g ((k, v) :: l) = (k, g k v) :: through P g l := by
  unfold through
  rw [List.filter_cons_of_pos (by exact h), List.map_cons]

variable {P} in
theorem through_out {k : Str} (h : ¬P k = true) (v : Json) (l : List (Str × Json)) :
    through P g ((k, v) :: l) = through P g l := by
  unfold through
  rw [List.filter_cons_of_neg (by exact h)]

theorem alookup_through {k : Str} (h : P k = true) (l : List (Str × Json)) :
    alookup k (through P g l) = (alookup k l).map (g k) := by
  induction l with
  | nil => rfl
  | cons kv l ih =>
    obtain ⟨k', v⟩ := kv
    by_cases e : k' = k
    · subst e
      rw [through_in g h, alookup, alookup, if_pos rfl, if_pos rfl]
      rfl
    · rw [alookup, if_neg e, ← ih]
      by_cases e' : P k' = true
      · rw [through_in g e', alookup, if_neg e]
      · rw [through_out g e']

theorem through_ainsert_in {k : Str} (h : P k = true) (v : Json) (l : List (Str × Json)) :
    through P g (ainsert k v l) = ainsert k (g k v) (through P g l) := by
  induction l with
  | nil => simp [through, ainsert, h]
  | cons kv l ih =>
    obtain ⟨k', v'⟩ := kv
    by_cases e : k' = k
    · subst e
      rw [ainsert, if_pos rfl, through_in g h, through_in g h, ainsert, if_pos rfl]
    · rw [ainsert, if_neg e]
      by_cases e' : P k' = true
      · rw [through_in g e', through_in g e', ih, ainsert, if_neg e]
      · rw [through_out g e', through_out g e', ih]

theorem through_ainsert_out {k : Str} (h : ¬P k = true) (v : Json) (l : List (Str × Json)) :
    through P g (ainsert k v l) = through P g l := by
  induction l with
  | nil => simp [through, ainsert, h]
  | cons kv l ih =>
    obtain ⟨k', v'⟩ := kv
    by_cases e : k' = k
    · subst e
      rw [ainsert, if_pos rfl, through_out g h, through_out g h]
    · rw [ainsert, if_neg e]
      by_cases e' : P k' = true
      · rw [through_in g e', through_in g e', ih]
      · rw [through_out g e', through_out g e', ih]

theorem through_jmergeFields (h0 : ∀ k, g k .null = .null)
    (hg : ∀ k a b, g k (jmerge a b) = jmerge (g k a) (g k b)) (fa fb : List (Str × Json)) :
    through P g (jmergeFields fa fb) = jmergeFields (through P g fa) (through P g fb) := by
  induction fb generalizing fa with
  | nil => simp [jmergeFields, through]
  | cons kv fb ih =>
    obtain ⟨k, v⟩ := kv
    rw [jmergeFields, ih]
    by_cases e : P k = true
    case neg => rw [through_ainsert_out P g e, through_out g e]
    case pos =>
      rw [through_ainsert_in P g e, hg, through_in g e, jmergeFields, alookup_through P g e]
      congr 3
      cases alookup k fa with
      | none => exact h0 k
      | some a => rfl

end

theorem only_eq (keep : Str → Bool) (l : List (Str × Json)) :
    (Json.obj l).only keep = .obj (through keep (fun _ j => j) l) := by
  simp [Json.only, through]

theorem only_jmerge (keep : Str → Bool) (a b : Json) :
    (jmerge a b).only keep = jmerge (a.only keep) (b.only keep) := by
  cases b with
  | obj fb =>
    cases a with
    | obj fa =>
      rw [jmerge, only_eq, only_eq, only_eq, jmerge, through_jmergeFields _ _ (fun _ => rfl) fun _ _ _ => rfl]
    | _ => simp only [jmerge, Json.only]
  | _ => cases a <;> simp only [jmerge, Json.only]

/-- The glass of `Json.tsOnly`. -/
def tsGlass (k : Str) (j : Json) : Json :=
  if k = cs!"compilerOptions" then j.only fun k => k == cs!"baseUrl" || k == cs!"paths" else j

theorem tsOnly_eq (l : List (Str × Json)) : (Json.obj l).tsOnly =
    .obj (through (fun k => k == cs!"extends" || k == cs!"compilerOptions") tsGlass l) := rfl

theorem tsOnly_jmerge (a b : Json) : (jmerge a b).tsOnly = jmerge a.tsOnly b.tsOnly := by
  cases b with
  | obj fb =>
    cases a with
    | obj fa =>
      rw [jmerge, tsOnly_eq, tsOnly_eq, tsOnly_eq, jmerge, through_jmergeFields]
      · intro k
        unfold tsGlass
        split <;> rfl
      · intro k a b
        unfold tsGlass
        split
        · exact only_jmerge ..
        · rfl
    | _ => simp only [jmerge, Json.tsOnly]
  | _ => cases a <;> simp only [jmerge, Json.tsOnly]

theorem get_only {keep : Str → Bool} {k : Str} (h : keep k = true) (j : Json) :
    (j.only keep).get k = j.get k := by
  cases j with
  | obj l =>
    rw [only_eq]
    show alookup k _ = alookup k l
    rw [alookup_through _ _ h]
    cases alookup k l <;> rfl
  | _ => rfl

theorem get_tsOnly {k : Str} (h : (k == cs!"extends" || k == cs!"compilerOptions") = true) (j : Json) :
    j.tsOnly.get k = (j.get k).map (tsGlass k) := by
  cases j with
  | obj l =>
    rw [tsOnly_eq]
    exact alookup_through _ _ h l
  | _ => rfl

theorem extends_tsOnly {j j' : Json} (h : j.tsOnly = j'.tsOnly) :
    j.get cs!"extends" = j'.get cs!"extends" := by
  have h1 := get_tsOnly (k := cs!"extends") (by decide) j
  have h2 := get_tsOnly (k := cs!"extends") (by decide) j'
  rw [h, h2] at h1
  have h3 : tsGlass cs!"extends" = fun j => j := by
    funext j
    exact if_neg (by decide)
  rw [h3] at h1
  simpa using h1.symm

theorem tsInfoOf_tsOnly {j j' : Json} (h : j.tsOnly = j'.tsOnly) : tsInfoOf j = tsInfoOf j' := by
  have h1 := get_tsOnly (k := cs!"compilerOptions") (by decide) j
  have h2 := get_tsOnly (k := cs!"compilerOptions") (by decide) j'
  rw [h, h2] at h1
  unfold tsInfoOf
  cases e : j.get cs!"compilerOptions" with
  | none =>
    rw [e] at h1
    cases e' : j'.get cs!"compilerOptions" with
    | none => rfl
    | some o' => rw [e'] at h1; cases h1
  | some o =>
    rw [e] at h1
    cases e' : j'.get cs!"compilerOptions" with
    | none => rw [e'] at h1; cases h1
    | some o' =>
      rw [e'] at h1
      have h3 : tsGlass cs!"compilerOptions" o' = tsGlass cs!"compilerOptions" o := Option.some.inj h1
      unfold tsGlass at h3
      rw [if_pos rfl, if_pos rfl] at h3
      have hb := congrArg (Json.get · cs!"baseUrl") h3
      have hp := congrArg (Json.get · cs!"paths") h3
      rw [get_only (by decide), get_only (by decide)] at hb hp
      dsimp only
      rw [hb, hp]

theorem through_twice {P : Str → Bool} {g : Str → Json → Json} (hg : ∀ k j, g k (g k j) = g k j)
    (l : List (Str × Json)) : through P g (through P g l) = through P g l := by
  induction l with
  | nil => rfl
  | cons kv l ih =>
    obtain ⟨k, v⟩ := kv
    by_cases e : P k = true
    · rw [through_in g e, through_in g e, ih, hg]
    · rw [through_out g e, ih]

theorem only_twice (keep : Str → Bool) (j : Json) : (j.only keep).only keep = j.only keep := by
  cases j with
  | obj l => rw [only_eq, only_eq, through_twice fun _ _ => rfl]
  | _ => rfl

theorem tsOnly_twice (j : Json) : j.tsOnly.tsOnly = j.tsOnly := by
  cases j with
  | obj l =>
    rw [tsOnly_eq, tsOnly_eq, through_twice]
    intro k j
    unfold tsGlass
    split
    · exact only_twice ..
    · rfl
  | _ => rfl

theorem strip_text {main : Str → Prop} {mains : List Str} (hm : ∀ k, main k → k ∈ mains) (d : Doc) :
    SameText main d (d.strip mains) := by
  refine ⟨by simp [Doc.strip], fun j j' hj hj' k hk => ?_, ?_⟩
  · unfold Doc.strip at hj'
    rw [hj] at hj'
    cases hj'
    refine (get_only ?_ j).symm
    rcases hk with hk | hk
    · simp [hk]
    · simp [hm k hk]
  · unfold Doc.strip
    dsimp only
    cases d.jsonc with
    | error m => rfl
    | ok v =>
      cases v with
      | none => rfl
      | some j =>
        show Except.ok (some j.tsOnly) = Except.ok (some j.tsOnly.tsOnly)
        rw [tsOnly_twice]

theorem strip_fields {main : Str → Prop} {mains : List Str} (hm : ∀ k, main k → k ∈ mains) (fs : Fs) :
    SameFields main fs (fs.strip mains) := by
  refine ⟨fun _ => rfl, fun _ => rfl, fun _ => rfl, fun _ => rfl, fun _ => rfl, fun p => ?_,
    fun p d d' hd hd' => ?_⟩
  · simp [Fs.strip]
  · unfold Fs.strip at hd'
    dsimp only at hd'
    rw [hd] at hd'
    cases hd'
    exact strip_text hm d

theorem strip_events {main : Str → Prop} {mains : List Str} (hm : ∀ k, main k → k ∈ mains) (l : List Event) :
    FieldEvents main l (l.map (Event.strip mains)) := by
  induction l with
  | nil => exact .nil
  | cons e l ih =>
    cases e with
    | start rid call fuel => exact .start _ _ _ ih
    | change fs => exact .change (strip_fields hm fs) ih
    | step i seed => exact .step _ _ ih

namespace Live

/-! ## Lockstep -/

section
variable {main : Str → Prop}

/-- The same, as far as the fields that matter go. -/
structure PkgSame (main : Str → Prop) (p p' : Pkg) : Prop where
  absDir : p.absDir = p'.absDir
  name : p.name = p'.name
  aliasFields : p.aliasFields = p'.aliasFields
  exportsTree : p.exportsTree = p'.exportsTree
  importsTree : p.importsTree = p'.importsTree
  sideEffects : p.sideEffects = p'.sideEffects
  raw : ∀ k, main k → p.raw.get k = p'.raw.get k

/-- Both absent, or both there and related. -/
inductive OptRel {α : Type} (R : α → α → Prop) : Option α → Option α → Prop
  | none : OptRel R .none .none
  | some {a a' : α} : R a a' → OptRel R (.some a) (.some a')

/-- Related answers of the file system. -/
def QSame (main : Str → Prop) : (q : Query) → q.Ret → q.Ret → Prop
  | .read _, r, r' => OptRel (SameText main) r r'
  | .isFile _, r, r' => r = r'
  | .isDir _, r, r' => r = r'
  | .pathExists _, r, r' => r = r'
  | .mtime _, r, r' => r = r'
  | .canon _, r, r' => r = r'
  | .release, r, r' => r = r'

/-- Related answers of the shared state. -/
def RSame (main : Str → Prop) : (o : Op) → o.Ret → o.Ret → Prop
  | .getPkg _, r, r' => OptRel (OptRel (PkgSame main)) r r'
  | .putPkg _ _, r, r' => r = r'
  | .getExports _, r, r' => r = r'
  | .getImports _, r, r' => r = r'
  | .putExports _ _, r, r' => r = r'
  | .getFile _, r, r' => r = r'
  | .putFile _ _, r, r' => r = r'
  | .dbgHas _, r, r' => r = r'
  | .dbgIns _, r, r' => r = r'
  | .dbgDel _, r, r' => r = r'
  | .seed, r, r' => r = r'

/-- Two trees in lockstep. -/
inductive Same (main : Str → Prop) {α : Type} (Q : α → α → Prop) : Live α → Live α → Prop
  | ret {a a' : α} : Q a a' → Same main Q (.ret a) (.ret a')
  | crash (c : Crash) : Same main Q (.crash c) (.crash c)
  | ask {q : Query} {k k' : q.Ret → Live α} :
      (∀ r r', QSame main q r r' → Same main Q (k r) (k' r')) → Same main Q (.ask q k) (.ask q k')
  | op {o : Op} {k k' : o.Ret → Live α} :
      (∀ r r', RSame main o r r' → Same main Q (k r) (k' r')) → Same main Q (.op o k) (.op o k')
  | put {d : Str} {v v' : Option Pkg} {k k' : Unit → Live α} :
      OptRel (PkgSame main) v v' → Same main Q (k ()) (k' ()) →
      Same main Q (.op (.putPkg d v) k) (.op (.putPkg d v') k')

variable {α β : Type} {Q : α → α → Prop} {R : β → β → Prop}

theorem Same.then {p p' : Live α} {f f' : α → Live β} (h : Same main Q p p')
    (hf : ∀ a a', Q a a' → Same main R (f a) (f' a')) : Same main R (p.bind f) (p'.bind f') := by
  induction h with
  | ret h => exact hf _ _ h
  | crash c => exact .crash c
  | ask _ ih => exact .ask fun r r' hr => ih r r' hr
  | op _ ih => exact .op fun r r' hr => ih r r' hr
  | put hv _ ih => exact .put hv ih

/-- A tree in lockstep with itself. -/
abbrev Blind (main : Str → Prop) (p : Live α) : Prop := Same main Eq p p

theorem Same.eqThen {p p' : Live α} {f f' : α → Live β} (h : Same main Eq p p')
    (hf : ∀ a, Same main R (f a) (f' a)) : Same main R (p.bind f) (p'.bind f') :=
  h.then fun a _ e => e ▸ hf a

theorem Same.ret_eq (a : α) : Blind main (.ret a) := .ret rfl

theorem blind_isFile (p : Str) : Blind main (isFile p) := .ask fun _ _ e => .ret e
theorem blind_isDir (p : Str) : Blind main (isDir p) := .ask fun _ _ e => .ret e
theorem blind_pathExists (p : Str) : Blind main (pathExists p) := .ask fun _ _ e => .ret e
theorem blind_canon (p : Str) : Blind main (canon p) := .ask fun _ _ e => .ret e

variable {h : Host}

theorem blind_findUp (file : Str) (n : Nat) (dir : Str) : Blind main (findUp file n dir) := by
  induction n generalizing dir with
  | zero => exact .ret rfl
  | succ n ih =>
    unfold findUp
    refine (blind_isFile _).eqThen fun b => ?_
    split
    · exact .ret rfl
    · split
      · exact ih _
      · exact .ret rfl

theorem blind_needUpdate (path : Str) : Blind main (needUpdate h path) := by
  unfold needUpdate
  refine (blind_isFile _).eqThen fun b => ?_
  split
  · exact .ret rfl
  · refine .op fun r r' e => ?_
    cases (show r = r' from e)
    cases (r : Option Nat) with
    | none => exact .ret rfl
    | some m =>
      refine .ask fun r r' e => ?_
      cases (show r = r' from e)
      cases (r : Option Nat) with
      | none => exact .ret rfl
      | some now =>
        dsimp only
        split <;> exact .ret rfl

/-- Both errors and the same, or both fine and related. -/
inductive ExRel {α : Type} (R : α → α → Prop) : Except Err α → Except Err α → Prop
  | error (e : Err) : ExRel R (.error e) (.error e)
  | ok {a a' : α} : R a a' → ExRel R (.ok a) (.ok a')

theorem same_readToString (path : Str) :
    Same main (ExRel (SameText main)) (readToString path) (readToString path) := by
  refine .ask fun r r' e => ?_
  cases (show OptRel (SameText main) r r' from e) with
  | none => exact .ret (.error _)
  | some hd =>
    refine .ask fun r r' e => ?_
    cases (show r = r' from e)
    cases (r : Option Nat) with
    | none => exact .ret (.error _)
    | some m => exact .op fun _ _ _ => .ret (.ok hd)

theorem blind_exportsTreeOf (e : Env) (json : Json) : Blind main (lift (exportsTreeOf e json)) := by
  unfold exportsTreeOf
  split
  · exact .ret rfl
  · refine .op fun r r' e => ?_
    cases (show r = r' from e)
    cases (r : Option Node) with
    | some _ => exact .ret rfl
    | none =>
      dsimp only
      split
      · exact .crash _
      · exact .ret rfl
      · exact .op fun _ _ _ => .ret rfl

theorem blind_importsTreeOf (e : Env) (json : Json) : Blind main (lift (importsTreeOf e json)) := by
  unfold importsTreeOf
  split
  · exact .ret rfl
  · refine .op fun r r' e => ?_
    cases (show r = r' from e)
    cases (r : Option Node) with
    | some _ => exact .ret rfl
    | none =>
      dsimp only
      split
      · exact .crash _
      · exact .ret rfl
      · exact .op fun _ _ _ => .ret rfl

theorem same_parseContents (dir path : Str) {d d' : Doc} (hd : SameText main d d') :
    Same main (ExRel (PkgSame main)) (lift (parseContents h dir path d))
      (lift (parseContents h dir path d')) := by
  unfold parseContents
  have hp := hd.parses
  have hf := hd.fields
  cases e : d.json with
  | none =>
    rw [e] at hp
    cases e' : d'.json with
    | some _ => rw [e'] at hp; cases hp
    | none => exact .ret (.error _)
  | some j =>
    rw [e] at hp
    cases e' : d'.json with
    | none => rw [e'] at hp; cases hp
    | some j' =>
      have hf := hf j j' e e'
      have hname := hf cs!"name" (.inl (by decide))
      have hbrowser := hf cs!"browser" (.inl (by decide))
      have hexports := hf cs!"exports" (.inl (by decide))
      have himports := hf cs!"imports" (.inl (by decide))
      have hside := hf cs!"sideEffects" (.inl (by decide))
      have h1 : browserFields j = browserFields j' := by unfold browserFields; rw [hbrowser]
      have h2 : exportsTreeOf (h.env noFs) j = exportsTreeOf (h.env noFs) j' := by
        unfold exportsTreeOf; rw [hexports]
      have h3 : importsTreeOf (h.env noFs) j = importsTreeOf (h.env noFs) j' := by
        unfold importsTreeOf; rw [himports]
      have h4 : parseSideEffects path j = parseSideEffects path j' := by
        unfold parseSideEffects; rw [hside]
      refine .op fun r r' e => ?_
      cases (show r = r' from e)
      dsimp only
      rw [h1]
      cases browserFields j' with
      | none => exact .crash _
      | some al =>
        dsimp only
        rw [lift_bind, lift_bind, h2]
        refine (blind_exportsTreeOf _ _).eqThen fun ex => ?_
        cases ex with
        | error err => exact .ret (.error _)
        | ok ex =>
          dsimp only
          rw [lift_bind, lift_bind, h3]
          refine (blind_importsTreeOf _ _).eqThen fun im => ?_
          cases im with
          | error err => exact .ret (.error _)
          | ok im =>
            dsimp only
            rw [h4]
            cases parseSideEffects path j' with
            | error err => exact .ret (.error _)
            | ok se =>
              refine .ret (.ok ⟨rfl, ?_, rfl, rfl, rfl, rfl, fun k hk => hf k (.inr hk)⟩)
              dsimp only
              rw [hname]

theorem same_parseDescription (dir path : Str) :
    Same main (ExRel (PkgSame main)) (parseDescription h dir path) (parseDescription h dir path) := by
  have hk : Same main (ExRel (PkgSame main))
      ((readToString path).bind fun
        | .error _ => .ret (.error (.openFailed path))
        | .ok doc => lift (parseContents h dir path doc))
      ((readToString path).bind fun
        | .error _ => .ret (.error (.openFailed path))
        | .ok doc => lift (parseContents h dir path doc)) := by
    refine (same_readToString path).then fun a a' ha => ?_
    cases ha with
    | error e => exact .ret (.error _)
    | ok hd => exact same_parseContents dir path hd
  unfold parseDescription dbgGuard
  split
  · refine .op fun r r' e => ?_
    cases (show r = r' from e)
    cases (r : Bool) with
    | true => exact .crash _
    | false => exact .op fun _ _ _ => hk
  · exact hk

/-- Related loads. -/
abbrev LoadSame (main : Str → Prop) : Except Err (Option Pkg) → Except Err (Option Pkg) → Prop :=
  ExRel (OptRel (PkgSame main))

theorem same_parseAndStore (path descPath : Str) :
    Same main (LoadSame main) (parseAndStore h path descPath) (parseAndStore h path descPath) := by
  unfold parseAndStore
  refine (same_parseDescription _ _).then fun a a' ha => ?_
  cases ha with
  | error e => exact .ret (.error _)
  | ok hp => exact .put (.some hp) (.ret (.ok (.some hp)))

theorem same_cacheNone (n : Nat) (path : Str) :
    Same main (LoadSame main) (cacheNone n path) (cacheNone n path) := by
  induction n generalizing path with
  | zero => exact .crash _
  | succ n ih =>
    unfold cacheNone
    refine (blind_isDir _).eqThen fun b => ?_
    split
    · refine .op fun _ _ _ => ?_
      split
      · exact ih _
      · exact .ret (.ok .none)
    · exact ih _

theorem same_loadPkgAux (n : Nat) (path : Str) :
    Same main (LoadSame main) (loadPkgAux h n path) (loadPkgAux h n path) := by
  induction n generalizing path with
  | zero => exact .crash _
  | succ n ih =>
    unfold loadPkgAux
    split
    · exact .ret (.ok .none)
    · refine (blind_isDir _).eqThen fun b => ?_
      split
      · split
        · exact ih _
        · exact .ret (.error _)
      · refine .op fun r r' e => ?_
        cases (show OptRel (OptRel (PkgSame main)) r r' from e) with
        | none =>
          refine (blind_isFile _).eqThen fun b => ?_
          split
          · refine (blind_findUp _ _ _).eqThen fun u => ?_
            cases u with
            | some d => exact ih _
            | none => exact same_cacheNone _ _
          · exact same_parseAndStore _ _
        | some hv =>
          refine (blind_needUpdate _).eqThen fun u => ?_
          cases u with
          | error err => exact .ask fun _ _ _ => .ret (.error _)
          | ok b =>
            cases b with
            | false => exact .ask fun _ _ _ => .ret (.ok hv)
            | true =>
              dsimp only
              split
              · exact .op fun _ _ _ => .ask fun _ _ _ => same_parseAndStore _ _
              · exact .ask fun _ _ _ => same_parseAndStore _ _

theorem same_loadPkg (path : Str) : Same main (LoadSame main) (loadPkg h path) (loadPkg h path) :=
  same_loadPkgAux _ _

theorem blind_loadSideEffects (path : Str) : Blind main (loadSideEffects h path) := by
  unfold loadSideEffects
  refine (same_loadPkg _).then fun a a' ha => ?_
  cases ha with
  | error e => exact .ret rfl
  | ok hp =>
    cases hp with
    | none => exact .ret rfl
    | some hp =>
      dsimp only
      split
      · exact .crash _
      · rw [hp.absDir, hp.sideEffects]
        exact .ret rfl

/-! ## Plugins and resolution -/

theorem same_andThen {s : Stats} {f f' : Info → Live Stats} (hf : ∀ i, Same main Eq (f i) (f' i)) :
    Same main Eq (andThen s f) (andThen s f') := by
  cases s with
  | resolving i => exact hf i
  | _ => exact .ret rfl

theorem blind_extensionsLoop (path : Str) (info : Info) (l : List Str) :
    Blind main (extensionsLoop path info l) := by
  induction l with
  | nil => exact .ret rfl
  | cons ext l ih =>
    unfold extensionsLoop
    refine (blind_isFile _).eqThen fun b => ?_
    split
    · exact .ret rfl
    · exact ih

theorem blind_resolveAsFile (info : Info) : Blind main (resolveAsFile h info) := by
  unfold resolveAsFile
  dsimp only
  split
  · exact blind_extensionsLoop ..
  · refine (blind_isFile _).eqThen fun b => ?_
    split
    · exact .ret rfl
    · exact blind_extensionsLoop ..

theorem same_exportsRequestOf {p p' : Pkg} (hp : PkgSame main p p') (info : Info) :
    Same main Eq (exportsRequestOf p info) (exportsRequestOf p' info) := by
  have e : exportsRequestOf p info = exportsRequestOf p' info := by
    unfold exportsRequestOf
    rw [hp.name]
  rw [e]
  unfold exportsRequestOf
  dsimp only
  split
  · exact .crash _
  · split
    · exact .ret rfl
    · refine (blind_pathExists _).eqThen fun b => ?_
      split <;> exact .ret rfl

theorem blind_exportsPick (absDir : Str) (l : List Str) : Blind main (exportsPick absDir l) := by
  induction l with
  | nil => exact .ret rfl
  | cons item l ih =>
    unfold exportsPick
    refine (blind_isFile _).eqThen fun b => ?_
    split
    · exact .ret rfl
    · exact ih

theorem PkgSame.isInModule {p p' : Pkg} (hp : PkgSame main p p') : isInModule p = isInModule p' := by
  unfold Verif.isInModule
  rw [hp.absDir]

theorem PkgSame.isResolveSelf {p p' : Pkg} (hp : PkgSame main p p') (info : Info) :
    isResolveSelf p info = isResolveSelf p' info := by
  unfold Verif.isResolveSelf
  rw [hp.name]

theorem same_exportsPlugin {p p' : Option Pkg} (hp : OptRel (PkgSame main) p p') (info : Info) :
    Same main Eq (exportsPlugin h p info) (exportsPlugin h p' info) := by
  cases hp with
  | none => exact .ret rfl
  | some hp =>
    unfold exportsPlugin
    dsimp only
    rw [hp.isInModule, hp.isResolveSelf, hp.exportsTree, hp.absDir]
    split
    · exact .ret rfl
    · split
      · exact .ret rfl
      · split
        · exact .ret rfl
        · refine (same_exportsRequestOf hp _).eqThen fun r => ?_
          cases r with
          | none => exact .ret rfl
          | some r =>
            dsimp only
            split
            · exact .crash _
            · exact .ret rfl
            · refine (blind_exportsPick _ _).eqThen fun i => ?_
              cases i <;> exact .ret rfl

theorem same_aliasFieldPlugin (n : Nat) {p p' : Option Pkg} (hp : OptRel (PkgSame main) p p') (info : Info) :
    Same main Eq (aliasFieldPlugin h n p info) (aliasFieldPlugin h n p' info) := by
  unfold aliasFieldPlugin Verif.aliasFieldPlugin
  split
  · exact .ret rfl
  · cases hp with
    | none => exact .ret rfl
    | @some p p' hp =>
      have e : ∀ c : Ctx, (fun kv : Str × AliasMap => aliasMatches c p info kv.1) =
          fun kv => aliasMatches c p' info kv.1 := by
        intro c
        funext kv
        unfold aliasMatches
        rw [hp.absDir]
      dsimp only
      rw [hp.aliasFields, hp.absDir, e]
      split
      · exact .ret rfl
      · split
        · exact .crash _
        · exact .ret rfl
        · exact .ret rfl

theorem blind_importsCheck (info : Info) (target : Str) : Blind main (importsCheck info target) := by
  unfold importsCheck
  refine (blind_isFile _).eqThen fun b => ?_
  split <;> exact .ret rfl

theorem outsideModule_same {p p' : Option Pkg} (hp : OptRel (PkgSame main) p p') :
    outsideModule p = outsideModule p' := by
  cases hp with
  | none => rfl
  | some hp =>
    unfold outsideModule
    dsimp only
    rw [hp.absDir]

theorem selfOf_same {p p' : Option Pkg} (hp : OptRel (PkgSame main) p p') (info : Info) :
    selfOf p info = selfOf p' info := by
  cases hp with
  | none => rfl
  | some hp => exact hp.isResolveSelf info

theorem same_importsPlugin (n : Nat) {p p' : Option Pkg} (hp : OptRel (PkgSame main) p p') (info : Info) :
    Same main Eq (importsPlugin h n p info) (importsPlugin h n p' info) := by
  induction n generalizing p p' info with
  | zero => exact .crash _
  | succ n ih =>
    unfold importsPlugin
    cases hp with
    | none => exact .ret rfl
    | some hp =>
      dsimp only
      rw [hp.importsTree, hp.absDir]
      split
      · exact .ret rfl
      · split
        · exact .ret rfl
        · split
          · exact .crash _
          · exact .ret rfl
          · exact .ret rfl
          · split
            · refine (same_loadPkg _).then fun a a' ha => ?_
              cases ha with
              | error e => exact .ret rfl
              | ok hq =>
                dsimp only
                rw [outsideModule_same hq]
                split
                · exact .ret rfl
                · refine (same_exportsPlugin hq _).eqThen fun s => ?_
                  refine (same_andThen fun i => ih hq i).eqThen fun s => ?_
                  refine (same_andThen fun i => same_aliasFieldPlugin n hq i).eqThen fun s => ?_
                  exact same_andThen fun i => blind_importsCheck ..
            · split
              · exact ih (.some hp) _
              · exact blind_importsCheck ..

theorem same_mainFileLoop (n : Nat) {p p' : Option Pkg} (hp : OptRel (PkgSame main) p p') (info : Info)
    (l : List Str) (cur : Info) :
    Same main Eq (mainFileLoop h n p info l cur) (mainFileLoop h n p' info l cur) := by
  induction l generalizing cur with
  | nil => exact .ret rfl
  | cons f l ih =>
    unfold mainFileLoop
    dsimp only
    refine Same.eqThen ((same_exportsPlugin hp _).eqThen fun s =>
      (same_andThen fun i => same_importsPlugin n hp i).eqThen fun s =>
      (same_andThen fun i => same_aliasFieldPlugin n hp i).eqThen fun s =>
      same_andThen fun i => blind_resolveAsFile i) fun s => ?_
    cases s with
    | success r => exact .ret rfl
    | resolving i => exact ih _
    | error e i => exact ih _

theorem same_mainFieldLoop (n : Nat) {asDir : Info → Live Stats} (hd : ∀ i, Blind main (asDir i)) {p p' : Pkg}
    (hp : PkgSame main p p') (info : Info) (l : List Str) (hl : ∀ k ∈ l, main k) (cur : Info) :
    Same main Eq (mainFieldLoop h n asDir p info l cur) (mainFieldLoop h n asDir p' info l cur) := by
  induction l generalizing cur with
  | nil => exact .ret rfl
  | cons f l ih =>
    have ih := fun cur => ih (fun k hk => hl k (List.mem_cons_of_mem _ hk)) cur
    unfold mainFieldLoop
    rw [hp.raw f (hl f List.mem_cons_self)]
    split
    · exact ih _
    · dsimp only
      split
      · exact .ret rfl
      · refine Same.eqThen ((same_aliasFieldPlugin n (.some hp) _).eqThen fun s =>
          (same_andThen fun i => blind_resolveAsFile i).eqThen fun s => same_andThen hd) fun s => ?_
        cases s with
        | success r => exact .ret rfl
        | resolving i => exact ih _
        | error e i => exact ih _

variable (hm : ∀ k ∈ h.opts.mainFields, main k)
include hm

theorem same_mainFieldPlugin (n : Nat) {asDir : Info → Live Stats} (hd : ∀ i, Blind main (asDir i))
    {p p' : Option Pkg} (hp : OptRel (PkgSame main) p p') (info : Info) :
    Same main Eq (mainFieldPlugin h n asDir p info) (mainFieldPlugin h n asDir p' info) := by
  cases hp with
  | none => exact .ret rfl
  | some hp =>
    unfold mainFieldPlugin
    dsimp only
    rw [hp.absDir]
    split
    · exact .ret rfl
    · exact same_mainFieldLoop n hd hp info _ hm info

theorem blind_resolveAsDir (n : Nat) (info : Info) : Blind main (resolveAsDir h n info) := by
  induction n generalizing info with
  | zero => exact .crash _
  | succ n ih =>
    unfold resolveAsDir
    dsimp only
    refine (blind_isDir _).eqThen fun b => ?_
    split
    · exact .ret rfl
    · refine (same_loadPkg _).then fun a a' ha => ?_
      cases ha with
      | error e => exact .ret rfl
      | ok hp =>
        refine (same_mainFieldPlugin hm n ih hp _).eqThen fun s => ?_
        exact same_andThen fun i => same_mainFileLoop n hp ..

theorem same_modulePackageChain (n : Nat) {p p' : Option Pkg} (hp : OptRel (PkgSame main) p p') (i : Info) :
    Same main Eq (modulePackageChain h n p i) (modulePackageChain h n p' i) := by
  unfold modulePackageChain
  refine (same_exportsPlugin hp _).eqThen fun s => ?_
  refine (same_andThen fun i => same_importsPlugin n hp i).eqThen fun s => ?_
  refine (same_andThen fun i => same_aliasFieldPlugin n hp _).eqThen fun s => ?_
  refine (same_andThen fun i => blind_resolveAsFile i).eqThen fun s => ?_
  exact same_andThen fun i => blind_resolveAsDir hm n i

theorem blind_moduleStep (n : Nat) (info : Info) : Blind main (moduleStep h n info) := by
  unfold moduleStep
  dsimp only
  refine (blind_isDir _).eqThen fun b => ?_
  split
  · exact .ret rfl
  · split
    · exact .crash _
    · refine (same_loadPkg _).then fun a a' ha => ?_
      cases ha with
      | error e => exact .ret rfl
      | ok hp =>
        refine (blind_isDir _).eqThen fun b => ?_
        rw [selfOf_same hp]
        split
        · refine (blind_resolveAsFile _).eqThen fun s => ?_
          cases s <;> exact .ret rfl
        · refine (same_modulePackageChain hm n hp _).eqThen fun s => ?_
          cases s with
          | error err i =>
            dsimp only
            split <;> exact .ret rfl
          | _ => exact .ret rfl

theorem blind_resolveAsModules (n : Nat) (info : Info) : Blind main (resolveAsModules h n info) := by
  induction n generalizing info with
  | zero => exact .crash _
  | succ n ih =>
    unfold resolveAsModules
    refine (blind_moduleStep hm n info).eqThen fun s => ?_
    obtain ⟨s, b⟩ := s
    cases b with
    | true => exact .ret rfl
    | false =>
      refine Same.eqThen (same_andThen fun i => ?_) fun s => ?_
      · split
        · exact ih _
        · exact .ret rfl
      · cases s <;> exact .ret rfl

omit hm in
theorem blind_aliasLoop {rec : Info → Live Stats} (hr : ∀ i, Blind main (rec i)) (info : Info)
    (l : List (Str × AliasMap)) : Blind main (aliasLoop rec info l) := by
  induction l with
  | nil => exact .ret rfl
  | cons ft l ih =>
    obtain ⟨f, t⟩ := ft
    unfold aliasLoop
    dsimp only
    split
    · split
      · split
        · exact ih
        · refine (hr _).eqThen fun s => ?_
          cases s with
          | success r => exact .ret rfl
          | _ => exact ih
      · exact .ret rfl
    · exact ih

omit hm in
theorem blind_aliasPlugin {rec : Info → Live Stats} (hr : ∀ i, Blind main (rec i)) (info : Info) :
    Blind main (aliasPlugin h rec info) := by
  unfold aliasPlugin
  split
  · exact .ret rfl
  · exact blind_aliasLoop hr ..

omit hm in
theorem blind_preferRelativePlugin {rec : Info → Live Stats} (hr : ∀ i, Blind main (rec i)) (info : Info) :
    Blind main (preferRelativePlugin h rec info) := by
  unfold preferRelativePlugin
  split
  · exact .ret rfl
  · split
    · refine (hr _).eqThen fun s => ?_
      cases s <;> exact .ret rfl
    · exact .ret rfl

omit hm in
theorem blind_pkgStage (n : Nat) (info : Info) : Blind main (pkgStage h n info) := by
  unfold pkgStage
  dsimp only
  refine (same_loadPkg _).then fun a a' ha => ?_
  cases ha with
  | error e => exact .ret rfl
  | ok hp =>
    refine (same_importsPlugin n hp _).eqThen fun s => ?_
    exact same_andThen fun i => same_aliasFieldPlugin n hp i

theorem blind_lastStage (n : Nat) (info : Info) : Blind main (lastStage h n info) := by
  have hp : Blind main ((resolveAsFile h info).bind fun s => andThen s fun i => resolveAsDir h n i) :=
    (blind_resolveAsFile _).eqThen fun s => same_andThen fun i => blind_resolveAsDir hm n i
  unfold lastStage
  split
  · exact hp
  · exact hp
  · exact hp
  · exact blind_resolveAsModules hm n info

theorem blind_resolveInner (n : Nat) (info : Info) : Blind main (resolveInner h n info) := by
  induction n generalizing info with
  | zero => exact .crash _
  | succ n ih =>
    unfold resolveInner
    refine Same.eqThen ((blind_aliasPlugin ih info).eqThen fun s =>
      (same_andThen fun i => blind_preferRelativePlugin ih i).eqThen fun s =>
      (same_andThen fun i => blind_pkgStage n i).eqThen fun s =>
      same_andThen fun i => blind_lastStage hm n i) fun s => ?_
    cases s with
    | resolving i => exact .crash _
    | _ => exact .ret rfl

/-- The same tsconfig, as far as the fields that matter go. -/
def TsOnly (j j' : Json) : Prop := j.tsOnly = j'.tsOnly

theorem same_tsValue (n : Nat) (location : Str) :
    Same main (ExRel TsOnly) (tsValue h n location) (tsValue h n location) := by
  induction n generalizing location with
  | zero => exact .crash _
  | succ n ih =>
    unfold tsValue
    refine .ask fun r r' e => ?_
    cases (show OptRel (SameText main) r r' from e) with
    | none => exact .ret (.error _)
    | @some d d' hd =>
      have ht := hd.ts
      dsimp only
      cases e : d.jsonc with
      | error msg =>
        rw [e] at ht
        cases e' : d'.jsonc with
        | error msg' => rw [e'] at ht; cases ht; exact .ret (.error _)
        | ok v => rw [e'] at ht; cases ht
      | ok v =>
        rw [e] at ht
        cases e' : d'.jsonc with
        | error msg' => rw [e'] at ht; cases ht
        | ok v' =>
          rw [e'] at ht
          have ht : v.map Json.tsOnly = v'.map Json.tsOnly := by injection ht
          cases v with
          | none =>
            cases v' with
            | none => exact .crash _
            | some j' => cases ht
          | some j =>
            cases v' with
            | none => cases ht
            | some j' =>
              have ht : j.tsOnly = j'.tsOnly := Option.some.inj ht
              dsimp only
              rw [extends_tsOnly ht]
              split
              · split
                · exact .crash _
                · refine (blind_resolveInner hm n _).eqThen fun s => ?_
                  cases s with
                  | success r =>
                    cases r with
                    | info i =>
                      refine (ih _).then fun a a' ha => ?_
                      cases ha with
                      | error e => exact .ret (.error _)
                      | ok hx =>
                        refine .ret (.ok ?_)
                        unfold TsOnly at hx ⊢
                        rw [tsOnly_jmerge, tsOnly_jmerge, ht, hx]
                    | ignored => exact .ret (.error _)
                  | _ => exact .ret (.ok ht)
              · exact .ret (.ok ht)

omit hm in
theorem blind_tsPathsTry {rec : Info → Live Stats} (hr : ∀ i, Blind main (rec i)) (star : Str)
    {next : Live Stats} (hn : Blind main next) (l : List Str) : Blind main (tsPathsTry rec star next l) := by
  induction l with
  | nil => exact hn
  | cons p l ih =>
    unfold tsPathsTry
    refine (hr _).eqThen fun s => ?_
    cases s with
    | success r => exact .ret rfl
    | _ => exact ih

omit hm in
theorem blind_tsEntries {rec : Info → Live Stats} (hr : ∀ i, Blind main (rec i)) (info : Info)
    (l : List (Str × List Str)) : Blind main (tsEntries rec info l) := by
  induction l with
  | nil => exact hr _
  | cons e l ih =>
    obtain ⟨pattern, paths⟩ := e
    unfold tsEntries
    dsimp only
    split
    · exact .crash _
    · exact ih
    · exact blind_tsPathsTry hr _ ih _

theorem blind_resolveWithTsconfig (n : Nat) (info : Info) (location : Str) :
    Blind main (resolveWithTsconfig h n info location) := by
  unfold resolveWithTsconfig
  refine (same_tsValue hm n location).then fun a a' ha => ?_
  cases ha with
  | error e => exact .ret rfl
  | ok hx =>
    dsimp only
    rw [tsInfoOf_tsOnly hx]
    split
    · exact .crash _
    · split
      · exact .crash _
      · refine .op fun r r' e => ?_
        cases (show r = r' from e)
        exact blind_tsEntries (blind_resolveInner hm n) ..

omit hm in
theorem blind_normalizeResult (r : Result) : Blind main (normalizeResult h r) := by
  unfold normalizeResult
  split
  · split
    · exact .crash _
    · refine Same.eqThen ?_ fun x => ?_
      · unfold normalizePath
        split
        · refine (blind_canon _).eqThen fun q => ?_
          cases q <;> exact .ret rfl
        · exact .ret rfl
      · cases x <;> exact .ret rfl
  · exact .ret rfl

theorem blind_resolve (n : Nat) (path request : Str) : Blind main (resolve h n path request) := by
  unfold resolve
  refine Same.eqThen ?_ fun s => ?_
  · unfold resolveStats
    dsimp only
    split
    · exact blind_resolveWithTsconfig hm ..
    · exact blind_resolveInner hm ..
  · cases s with
    | success r => exact blind_normalizeResult r
    | error e i => exact .ret rfl
    | resolving i => exact .crash _

theorem blind_prog (n : Nat) (call : Call) : Blind main (prog h n call) := by
  cases call with
  | resolve path request => exact (blind_resolve hm ..).eqThen fun _ => .ret rfl
  | sideEffects path => exact (blind_loadSideEffects _).eqThen fun _ => .ret rfl

end

/-! ## Histories -/

section
variable {main : Str → Prop}

/-- Shared states that agree on the fields that matter. -/
structure SharedSame (main : Str → Prop) (s s' : Shared) : Prop where
  pkg : ∀ c d, OptRel (OptRel (PkgSame main)) ((s.caches c).pkg d) ((s'.caches c).pkg d)
  exportsTree : ∀ c, (s.caches c).exportsTree = (s'.caches c).exportsTree
  importsTree : ∀ c, (s.caches c).importsTree = (s'.caches c).importsTree
  files : s.files = s'.files
  dbgs : s.dbgs = s'.dbgs

/-- Calls in lockstep. -/
structure TaskSame (main : Str → Prop) (t t' : Task) : Prop where
  rid : t.rid = t'.rid
  prog : Same main Eq t.prog t'.prog

/-- Systems in lockstep. -/
structure SysSame (main : Str → Prop) (s s' : Sys) : Prop where
  shared : SharedSame main s.shared s'.shared
  fs : SameFields main s.fs s'.fs
  length : s.tasks.length = s'.tasks.length
  tasks : ∀ (i : Nat) (t t' : Task), s.tasks[i]? = some t → s'.tasks[i]? = some t' → TaskSame main t t'

theorem same_answer {fs fs' : Fs} (hf : SameFields main fs fs') (q : Query) :
    QSame main q (q.answer fs) (q.answer fs') := by
  cases q with
  | isFile p => exact hf.isFile p
  | isDir p => exact hf.isDir p
  | pathExists p => exact hf.pathExists p
  | mtime p => exact hf.mtime p
  | canon p => exact hf.canon p
  | release => rfl
  | read p =>
    have h1 := hf.readable p
    have h2 := hf.read p
    show OptRel (SameText main) (fs.read p) (fs'.read p)
    cases e : fs.read p with
    | none =>
      rw [e] at h1
      cases e' : fs'.read p with
      | none => exact .none
      | some d' => rw [e'] at h1; cases h1
    | some d =>
      rw [e] at h1
      cases e' : fs'.read p with
      | none => rw [e'] at h1; cases h1
      | some d' => exact .some (h2 d d' e e')

theorem OptRel.refl {α : Type} {R : α → α → Prop} (h : ∀ a, R a a) (o : Option α) : OptRel R o o := by
  cases o with
  | none => exact .none
  | some a => exact .some (h a)

theorem PkgSame.refl (p : Pkg) : PkgSame main p p := ⟨rfl, rfl, rfl, rfl, rfl, rfl, fun _ _ => rfl⟩

/-- What resolvers see, in lockstep. -/
structure WorldSame (main : Str → Prop) (w w' : World) : Prop where
  pkg : ∀ d, OptRel (OptRel (PkgSame main)) (w.pkg d) (w'.pkg d)
  exportsTree : w.exportsTree = w'.exportsTree
  importsTree : w.importsTree = w'.importsTree
  file : w.file = w'.file
  dbg : w.dbg = w'.dbg
  seeds : w.seeds = w'.seeds

theorem WorldSame.put {w w' : World} (hw : WorldSame main w w') (d : List Comp) {v v' : Option Pkg}
    (hv : OptRel (PkgSame main) v v') :
    WorldSame main { w with pkg := upd w.pkg d (some v) } { w' with pkg := upd w'.pkg d (some v') } := by
  refine { hw with pkg := fun d' => ?_ }
  show OptRel _ (upd w.pkg d (some v) d') (upd w'.pkg d (some v') d')
  unfold upd
  split
  · exact .some hv
  · exact hw.pkg d'

theorem same_exec {w w' : World} (hw : WorldSame main w w') (o : Op) :
    RSame main o (o.exec w).1 (o.exec w').1 ∧ WorldSame main (o.exec w).2 (o.exec w').2 := by
  cases o with
  | getPkg d => exact ⟨hw.pkg _, hw⟩
  | putPkg d v => exact ⟨rfl, hw.put _ (.refl PkgSame.refl v)⟩
  | getExports k => exact ⟨congrFun hw.exportsTree k, hw⟩
  | getImports k => exact ⟨congrFun hw.importsTree k, hw⟩
  | putExports k t => exact ⟨rfl, { hw with exportsTree := congrArg (upd · k (some t)) hw.exportsTree }⟩
  | getFile p => exact ⟨congrFun hw.file _, hw⟩
  | putFile p m => exact ⟨rfl, { hw with file := congrArg (upd · (comps p) (some m)) hw.file }⟩
  | dbgHas p => exact ⟨congrFun hw.dbg _, hw⟩
  | dbgIns p => exact ⟨rfl, { hw with dbg := congrArg (upd · (comps p) true) hw.dbg }⟩
  | dbgDel p => exact ⟨rfl, { hw with dbg := congrArg (upd · (comps p) false) hw.dbg }⟩
  | seed => exact ⟨congrFun hw.seeds 0, { hw with seeds := congrArg (fun f n => f (n + 1)) hw.seeds }⟩

variable {cfg : Nat → Config} {ser : Json → Str}

theorem SharedSame.view {s s' : Shared} (hs : SharedSame main s s') (rid : Nat) (seeds : Nat → Nat) :
    WorldSame main (s.view cfg rid seeds) (s'.view cfg rid seeds) :=
  ⟨hs.pkg _, hs.exportsTree _, hs.importsTree _, congrFun hs.files _, congrFun hs.dbgs _, rfl⟩

theorem SharedSame.store {s s' : Shared} (hs : SharedSame main s s') (rid : Nat) {w w' : World}
    (hw : WorldSame main w w') : SharedSame main (s.store cfg rid w) (s'.store cfg rid w') := by
  have h : ∀ c, (∀ d, OptRel (OptRel (PkgSame main)) (((s.store cfg rid w).caches c).pkg d)
        (((s'.store cfg rid w').caches c).pkg d)) ∧
      ((s.store cfg rid w).caches c).exportsTree = ((s'.store cfg rid w').caches c).exportsTree ∧
      ((s.store cfg rid w).caches c).importsTree = ((s'.store cfg rid w').caches c).importsTree := by
    intro c
    unfold Shared.store upd
    dsimp only
    split
    · exact ⟨hw.pkg, hw.exportsTree, hw.importsTree⟩
    · exact ⟨hs.pkg c, hs.exportsTree c, hs.importsTree c⟩
  refine ⟨fun c => (h c).1, fun c => (h c).2.1, fun c => (h c).2.2, ?_, ?_⟩
  · show upd s.files rid w.file = upd s'.files rid w'.file
    rw [hs.files, hw.file]
  · show upd s.dbgs rid w.dbg = upd s'.dbgs rid w'.dbg
    rw [hs.dbgs, hw.dbg]

/-- Replacing one call by another in lockstep. -/
theorem SysSame.set {s s' : Sys} (hs : SysSame main s s') {sh sh' : Shared} (hsh : SharedSame main sh sh')
    (i : Nat) {t t' : Task} (ht : TaskSame main t t') :
    SysSame main { s with shared := sh, tasks := s.tasks.set i t }
      { s' with shared := sh', tasks := s'.tasks.set i t' } := by
  refine ⟨hsh, hs.fs, by simp [hs.length], fun j u u' hu hu' => ?_⟩
  dsimp only at hu hu'
  rw [List.getElem?_set] at hu hu'
  by_cases e : i = j
  · rw [if_pos e] at hu hu'
    split at hu
    · split at hu'
      · cases hu; cases hu'; exact ht
      · cases hu'
    · cases hu
  · rw [if_neg e] at hu hu'
    exact hs.tasks j u u' hu hu'

theorem SysSame.step {s s' : Sys} (hs : SysSame main s s') (i seed : Nat) :
    SysSame main (s.next cfg ser (.step i seed)) (s'.next cfg ser (.step i seed)) := by
  have hlen := hs.length
  unfold Sys.next
  dsimp only
  cases e : s.tasks[i]? with
  | none =>
    cases e' : s'.tasks[i]? with
    | none => exact hs
    | some t' =>
      rw [List.getElem?_eq_none_iff] at e
      have := (List.getElem?_eq_some_iff.1 e').1
      omega
  | some t =>
    cases e' : s'.tasks[i]? with
    | none =>
      rw [List.getElem?_eq_none_iff] at e'
      have := (List.getElem?_eq_some_iff.1 e).1
      omega
    | some t' =>
      obtain ⟨hr, hp⟩ := hs.tasks i t t' e e'
      dsimp only
      rw [← hr]
      generalize e1 : t.prog = p at hp
      generalize e2 : t'.prog = p' at hp
      cases hp with
      | ret h => exact hs
      | crash c => exact hs
      | ask h => exact hs.set hs.shared i ⟨rfl, h _ _ (same_answer hs.fs _)⟩
      | @op o _ _ h =>
        have hx := same_exec (hs.shared.view (cfg := cfg) t.rid fun _ => seed) o
        exact hs.set (hs.shared.store _ hx.2) i ⟨rfl, h _ _ hx.1⟩
      | put hv h =>
        exact hs.set (hs.shared.store _ ((hs.shared.view (cfg := cfg) t.rid fun _ => seed).put _ hv)) i ⟨rfl, h⟩

theorem SysSame.after {l l' : List Event} (hm : ∀ rid, ∀ k ∈ (cfg rid).opts.mainFields, main k)
    (hl : FieldEvents main l l') {s s' : Sys} (hs : SysSame main s s') :
    SysSame main (s.after cfg ser l) (s'.after cfg ser l') := by
  induction hl generalizing s s' with
  | nil => exact hs
  | start rid call fuel _ ih =>
    refine ih ⟨hs.shared, hs.fs, by simp [Sys.next, hs.length], fun i t t' ht ht' => ?_⟩
    have hlen := hs.length
    simp only [Sys.next, List.getElem?_append] at ht ht'
    rw [← hlen] at ht'
    by_cases hlt : i < s.tasks.length
    · rw [if_pos hlt] at ht ht'
      exact hs.tasks i t t' ht ht'
    · rw [if_neg hlt] at ht ht'
      cases e : i - s.tasks.length with
      | succ n => rw [e] at ht; cases ht
      | zero =>
        rw [e] at ht ht'
        cases ht
        cases ht'
        exact ⟨rfl, blind_prog (hm rid) _ _⟩
  | change h _ ih => exact ih ⟨hs.shared, h, hs.length, hs.tasks⟩
  | step i seed _ ih => exact ih (hs.step i seed)

theorem SysSame.init {fs fs' : Fs} (hfs : SameFields main fs fs') :
    SysSame main (Sys.init fs) (Sys.init fs') :=
  ⟨⟨fun _ _ => .none, fun _ => rfl, fun _ => rfl, rfl, rfl⟩, hfs, rfl, fun _ _ _ h => by cases h⟩

theorem SysSame.ended {s s' : Sys} (hs : SysSame main s s') (i : Nat) : s.ended i = s'.ended i := by
  have hlen := hs.length
  unfold Sys.ended
  cases e : s.tasks[i]? with
  | none =>
    cases e' : s'.tasks[i]? with
    | none => rfl
    | some t' =>
      rw [List.getElem?_eq_none_iff] at e
      have := (List.getElem?_eq_some_iff.1 e').1
      omega
  | some t =>
    cases e' : s'.tasks[i]? with
    | none =>
      rw [List.getElem?_eq_none_iff] at e'
      have := (List.getElem?_eq_some_iff.1 e).1
      omega
    | some t' =>
      have hp := (hs.tasks i t t' e e').prog
      dsimp only
      generalize t.prog = p at hp
      generalize t'.prog = p' at hp
      cases hp with
      | ret h => rw [h]
      | _ => rfl

end
end Live
end Verif
