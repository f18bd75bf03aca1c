import Verif.Proofs.Sim
import Verif.Proofs.Kind
/-!
# Two calls that go the same way

`p.Rel G R Q q`: the call `p` performs operations (allowed by `G`, answered as in `R`) that `q`
does without, apart from asking for hash seeds; if one ends, so does the other, in the same way,
and the values are related by `Q`.
-/

namespace Verif

/-- See the file comment. -/
inductive Prog.Rel {α β : Type} (G : Op → Prop) (R : (o : Op) → o.Ret → Prop) (Q : α → β → Prop) :
    Prog α → Prog β → Prop where
  | ret {a : α} {b : β} : Q a b → Rel G R Q (.ret a) (.ret b)
  | crash (c : Crash) : Rel G R Q (.crash c) (.crash c)
  | left {o : Op} {k : o.Ret → Prog α} {q : Prog β} : G o →
      (∀ r, R o r → Rel G R Q (k r) q) → Rel G R Q (.op o k) q
  | both {k : Op.seed.Ret → Prog α} {k' : Op.seed.Ret → Prog β} : G .seed →
      (∀ r, R .seed r → Rel G R Q (k r) (k' r)) → Rel G R Q (.op .seed k) (.op .seed k')

section
variable {α β α' β' : Type} {G : Op → Prop} {R : (o : Op) → o.Ret → Prop}

theorem Prog.Rel.panic {Q : α → β → Prop} (s : Site) :
    Prog.Rel G R Q (Prog.panic s) (Prog.panic s) := .crash _

theorem Prog.Rel.mono {Q Q' : α → β → Prop} {p : Prog α} {q : Prog β} (h : p.Rel G R Q q)
    (hQ : ∀ a b, Q a b → Q' a b) : p.Rel G R Q' q := by
  induction h with
  | ret h => exact .ret (hQ _ _ h)
  | crash c => exact .crash c
  | left hg _ ih => exact .left hg ih
  | both hg _ ih => exact .both hg ih

theorem Prog.Rel.bind {Q : α → β → Prop} {Q' : α' → β' → Prop} {p : Prog α} {q : Prog β}
    {f : α → Prog α'} {g : β → Prog β'} (h : p.Rel G R Q q)
    (hf : ∀ a b, Q a b → (f a).Rel G R Q' (g b)) : (p.bind f).Rel G R Q' (q.bind g) := by
  induction h with
  | ret h => exact hf _ _ h
  | crash c => exact .crash c
  | left hg _ ih => exact .left hg ih
  | both hg _ ih => exact .both hg ih

end

/-- A way to compare programs, as far as the comparison of two resolvers needs it. -/
structure RelSys where
  /-- the programs go the same way -/
  rel : {α β : Type} → (α → β → Prop) → Prog α → Prog β → Prop
  /-- hash seeds may be asked for -/
  seed : Prop
  ret : ∀ {α β : Type} {Q : α → β → Prop} {a : α} {b : β}, Q a b → rel Q (.ret a) (.ret b)
  crash : ∀ {α β : Type} {Q : α → β → Prop} (c : Crash), rel Q (.crash c) (.crash c)
  bind : ∀ {α β α' β' : Type} {Q : α → β → Prop} {Q' : α' → β' → Prop} {p : Prog α} {q : Prog β}
    {f : α → Prog α'} {g : β → Prog β'}, rel Q p q → (∀ a b, Q a b → rel Q' (f a) (g b)) →
    rel Q' (p.bind f) (q.bind g)
  both : ∀ {α β : Type} {Q : α → β → Prop} {k : Op.seed.Ret → Prog α} {k' : Op.seed.Ret → Prog β},
    seed → (∀ r, rel Q (k r) (k' r)) → rel Q (.op .seed k) (.op .seed k')

/-- The programs go the same way. -/
def Prog.RelBy {α β : Type} (p : Prog α) (S : RelSys) (Q : α → β → Prop) (q : Prog β) : Prop :=
  S.rel Q p q

/-- `Prog.Rel` as a way to compare programs. -/
def opSys (G : Op → Prop) (R : (o : Op) → o.Ret → Prop) : RelSys where
  rel Q p q := p.Rel G R Q q
  seed := G .seed
  ret := .ret
  crash := .crash
  bind := Prog.Rel.bind
  both hg h := .both hg fun r _ => h r

section
variable {α β α' β' : Type} {S : RelSys}

theorem Prog.RelBy.ret {Q : α → β → Prop} {a : α} {b : β} (h : Q a b) :
    (Prog.ret a).RelBy S Q (Prog.ret b) := S.ret h

theorem Prog.RelBy.crash {Q : α → β → Prop} (c : Crash) :
    (Prog.crash c : Prog α).RelBy S Q (Prog.crash c) := S.crash c

theorem Prog.RelBy.panic {Q : α → β → Prop} (s : Site) :
    (Prog.panic s).RelBy S Q (Prog.panic s) := S.crash _

theorem Prog.RelBy.bind {Q : α → β → Prop} {Q' : α' → β' → Prop} {p : Prog α} {q : Prog β}
    {f : α → Prog α'} {g : β → Prog β'} (h : p.RelBy S Q q)
    (hf : ∀ a b, Q a b → (f a).RelBy S Q' (g b)) : (p.bind f).RelBy S Q' (q.bind g) := S.bind h hf

theorem Prog.bind_ret (p : Prog α) : p.bind .ret = p := by
  induction p with
  | ret a => rfl
  | crash c => rfl
  | op o k ih => simp only [Prog.bind, ih]

theorem Prog.RelBy.mono {Q Q' : α → β → Prop} {p : Prog α} {q : Prog β} (h : p.RelBy S Q q)
    (hQ : ∀ a b, Q a b → Q' a b) : p.RelBy S Q' q := by
  have := h.bind (f := .ret) (g := .ret) (Q' := Q') fun a b hab => .ret (hQ a b hab)
  rwa [Prog.bind_ret, Prog.bind_ret] at this

theorem Prog.RelBy.both {Q : α → β → Prop} {k : Op.seed.Ret → Prog α} {k' : Op.seed.Ret → Prog β}
    (hs : S.seed) (h : ∀ r, (k r).RelBy S Q (k' r)) :
    (Prog.op .seed k).RelBy S Q (Prog.op .seed k') := S.both hs h

end

/-- Information that describes the same place: the same request, the same path; if the request
names the path itself, the texts end alike. -/
def RI (i j : Info) : Prop :=
  i.request = j.request ∧ comps i.path = comps j.path ∧ isAbs i.path = true ∧
    (lastSeg i.path = lastSeg j.path ∨ i.request.target ≠ [] ∧ i.request.target ≠ cs!".")

/-- The same without the last part. -/
def RW (i j : Info) : Prop :=
  i.request = j.request ∧ comps i.path = comps j.path ∧ isAbs i.path = true

/-- The same result, up to the spelling of the path. -/
def RS (i j : Info) : Prop := i.request = j.request ∧ Sim i.path j.path ∧ isAbs i.path = true

theorem RI.weak {i j : Info} (h : RI i j) : RW i j := ⟨h.1, h.2.1, h.2.2.1⟩

theorem RI.of_sim {p q : Str} (r : Request) (ha : isAbs p = true) (h : Sim p q) :
    RI ⟨p, r⟩ ⟨q, r⟩ := ⟨rfl, h.1, ha, .inl h.2⟩

theorem RW.withTarget {i j : Info} (h : RW i j) {t : Str} (h1 : t ≠ []) (h2 : t ≠ cs!".") :
    RI (i.withTarget t) (j.withTarget t) := by
  refine ⟨?_, h.2.1, h.2.2, .inr ⟨h1, h2⟩⟩
  simp only [Info.withTarget, h.1]

theorem RS.info {i j : Info} (h : RS i j) : RI i j := ⟨h.1, h.2.1.1, h.2.2, .inl h.2.1.2⟩

theorem RI.getPath {i j : Info} (h : RI i j) :
    Sim i.getPath j.getPath ∧ isAbs i.getPath = true := by
  obtain ⟨h1, h2, h3, h4⟩ := h
  unfold Info.getPath
  rw [← h1]
  split
  · rename_i ht
    refine ⟨⟨h2, ?_⟩, h3⟩
    rcases h4 with h4 | ⟨h4, h5⟩
    · exact h4
    · simp [h4, h5] at ht
  · exact ⟨sim_pjoin h3 h2 _, isAbs_pjoin_left _ h3⟩

/-- Related states of the resolution. -/
def SRel : Stats → Stats → Prop
  | .success (.info i), .success (.info j) => RS i j
  | .success .ignored, .success .ignored => True
  | .resolving i, .resolving j => RI i j
  | .error e i, .error e' j => ErrSim e e' ∧ RW i j
  | _, _ => False

theorem ErrSim.isTag {e e' : Err} (h : ErrSim e e') : e.isTag = e'.isTag := by
  cases h <;> rfl

/-- The packages lead to the same redirects. -/
structure BrowserRel (c c' : Ctx) (p q : Pkg) : Prop where
  find : ∀ i j, RI i j →
    (p.aliasFields.find? fun kv => aliasMatches c p i kv.1).map (·.2) =
      (q.aliasFields.find? fun kv => aliasMatches c' q j kv.1).map (·.2)
  chain : ∀ n to, aliasChain p.aliasFields n to = aliasChain q.aliasFields n to
  targets : ∀ kv ∈ p.aliasFields, ∀ n t, aliasChain p.aliasFields n kv.2 = some (.target t) →
    t ≠ [] ∧ t ≠ cs!"."

/-- Packages that are the same for the resolution. -/
structure PkgRel (c c' : Ctx) (p q : Pkg) : Prop where
  dir : comps p.absDir = comps q.absDir
  abs : isAbs p.absDir = true
  isDir : c.fs.isDir p.absDir = true
  name : p.name = q.name
  exports : p.exportsTree = q.exportsTree
  imports : p.importsTree = q.importsTree
  main : ∀ f ∈ c.opts.mainFields, (p.raw.get f).bind Json.asStr = (q.raw.get f).bind Json.asStr
  browser : c.opts.browserField = true → BrowserRel c c' p q

/-- See `PkgRel`. -/
def OPkgRel (c c' : Ctx) : Option Pkg → Option Pkg → Prop
  | none, none => True
  | some p, some q => PkgRel c c' p q
  | _, _ => False

/-- Results of looking for a package. -/
def LoadRel (c c' : Ctx) : Except Err (Option Pkg) → Except Err (Option Pkg) → Prop
  | .ok p, .ok q => OPkgRel c c' p q
  | .error e, .error e' => ErrSim e e'
  | _, _ => False

/-- The same JSON value as far as tsconfig files go: the `browser` field does not count. -/
def TsSame (j j' : Json) : Prop := j.without cs!"browser" = j'.without cs!"browser"

theorem alookup_filter {k k' : Str} (h : k' ≠ k) (l : List (Str × Json)) :
    alookup k' (l.filter fun kv => kv.1 ≠ k) = alookup k' l := by
  induction l with
  | nil => rfl
  | cons kv l ih =>
    obtain ⟨k'', v⟩ := kv
    by_cases e : k'' = k
    · rw [List.filter_cons_of_neg (by simp [e]), ih, alookup, if_neg (by rw [e]; exact Ne.symm h)]
    · rw [List.filter_cons_of_pos (by simp [e]), alookup, alookup, ih]

theorem get_without {k k' : Str} (h : k' ≠ k) (j : Json) : (j.without k).get k' = j.get k' := by
  cases j with
  | obj l => exact alookup_filter h l
  | _ => rfl

theorem TsSame.get {j j' : Json} (h : TsSame j j') {k : Str} (hk : k ≠ cs!"browser") :
    j.get k = j'.get k := by
  rw [← get_without hk j, ← get_without hk j', h]

theorem filter_ainsert_same {k : Str} (v : Json) (l : List (Str × Json)) :
    (ainsert k v l).filter (fun kv => kv.1 ≠ k) = l.filter fun kv => kv.1 ≠ k := by
  induction l with
  | nil => simp [ainsert]
  | cons kv l ih =>
    obtain ⟨k', v'⟩ := kv
    by_cases e : k' = k
    · simp [ainsert, e]
    · simp only [ainsert, if_neg e]
      rw [List.filter_cons_of_pos (by simp [e]), List.filter_cons_of_pos (by simp [e]), ih]

theorem filter_ainsert_other {k k' : Str} (h : k' ≠ k) (v : Json) (l : List (Str × Json)) :
    (ainsert k' v l).filter (fun kv => kv.1 ≠ k) = ainsert k' v (l.filter fun kv => kv.1 ≠ k) := by
  induction l with
  | nil => simp [ainsert, h]
  | cons kv l ih =>
    obtain ⟨k'', v'⟩ := kv
    by_cases e : k'' = k'
    · subst e
      simp [ainsert, h]
    · simp only [ainsert, if_neg e]
      by_cases e' : k'' = k
      · rw [List.filter_cons_of_neg (by simp [e']), List.filter_cons_of_neg (by simp [e']), ih]
      · rw [List.filter_cons_of_pos (by simp [e']), List.filter_cons_of_pos (by simp [e']), ih,
          ainsert, if_neg e]

theorem jmergeFields_without (k : Str) (fa fb : List (Str × Json)) :
    (jmergeFields fa fb).filter (fun kv => kv.1 ≠ k) =
      jmergeFields (fa.filter fun kv => kv.1 ≠ k) (fb.filter fun kv => kv.1 ≠ k) := by
  induction fb generalizing fa with
  | nil => simp [jmergeFields]
  | cons kv fb ih =>
    obtain ⟨k', v⟩ := kv
    rw [jmergeFields, ih]
    by_cases e : k' = k
    · subst e
      rw [filter_ainsert_same, List.filter_cons_of_neg (by simp)]
    · rw [filter_ainsert_other e, List.filter_cons_of_pos (by simp [e]), jmergeFields,
        alookup_filter e]

theorem jmerge_without (k : Str) (a b : Json) :
    (jmerge a b).without k = jmerge (a.without k) (b.without k) := by
  cases b with
  | obj fb =>
    cases a with
    | obj fa => simp only [jmerge, Json.without, jmergeFields_without]
    | _ => simp only [jmerge, Json.without]
  | _ => cases a <;> simp only [jmerge, Json.without]

theorem TsSame.merge {a a' b b' : Json} (h : TsSame a a') (h' : TsSame b b') :
    TsSame (jmerge a b) (jmerge a' b') := by
  unfold TsSame at *
  rw [jmerge_without, jmerge_without, h, h']

theorem tsInfoOf_same {j j' : Json} (h : TsSame j j') : tsInfoOf j = tsInfoOf j' := by
  unfold tsInfoOf
  rw [h.get (by decide)]

/-- What is seen in tsconfig files. -/
def tsView (d : Doc) : Except Str (Option Json) := d.jsonc.map (·.map (Json.without cs!"browser"))

/-- Two resolvers that see the same. -/
structure CtxSim (S : RelSys) (c c' : Ctx) : Prop where
  opts : c.opts = c'.opts
  debug : c.debug = c'.debug
  isFile : ∀ p q, isAbs p = true → Sim p q → c.fs.isFile p = c'.fs.isFile q
  isDir : ∀ p q, isAbs p = true → comps p = comps q → c.fs.isDir p = c'.fs.isDir q
  pathExists : ∀ p q, isAbs p = true → Sim p q → c.fs.pathExists p = c'.fs.pathExists q
  canon : ∀ p q, isAbs p = true → Sim p q → c.fs.canon p = c'.fs.canon q
  jsonc : c.opts.tsconfig ≠ none → ∀ p q, isAbs p = true → Sim p q →
    (c.fs.read p).map tsView = (c'.fs.read q).map tsView
  dirNotFile : ∀ p, isAbs p = true → c.fs.isDir p = true → c.fs.isFile p = false
  dirNotFile' : ∀ p, isAbs p = true → c'.fs.isDir p = true → c'.fs.isFile p = false
  load : ∀ p q, isAbs p = true → comps p = comps q →
    (c.load p).RelBy S (LoadRel c c') (c'.load q)

section
variable {S : RelSys} {c c' : Ctx}

theorem SRel.andThen {s t : Stats} {f g : Info → Prog Stats} (h : SRel s t)
    (hf : ∀ i j, RI i j → (f i).RelBy S SRel (g j)) :
    (s.andThen f).RelBy S SRel (t.andThen g) := by
  cases s with
  | resolving i =>
    cases t with
    | resolving j => exact hf i j h
    | success r => exact (h : False).elim
    | error e j => exact (h : False).elim
  | success r =>
    cases t with
    | resolving j => cases r <;> exact (h : False).elim
    | success r' => exact .ret h
    | error e j => cases r <;> exact (h : False).elim
  | error e i =>
    cases t with
    | resolving j => exact (h : False).elim
    | success r => exact (h : False).elim
    | error e' j => exact .ret h

theorem resolveAsFile_rel (hc : CtxSim S c c') {i j : Info} (h : RI i j) :
    SRel (resolveAsFile c i) (resolveAsFile c' j) := by
  obtain ⟨hs, ha⟩ := h.getPath
  have hr : i.request = j.request := h.1
  unfold resolveAsFile extensionsPlugin
  simp only [← hc.opts, ← hc.isFile _ _ ha hs]
  split
  · exact ⟨by simp [Info.withTarget, Info.withPath, hr], hs, ha⟩
  · have : (fun ext => c'.fs.isFile (appendExt j.getPath ext)) =
        fun ext => c.fs.isFile (appendExt i.getPath ext) := by
      funext ext
      exact (hc.isFile _ _ (isAbs_append ha ext) (sim_append ha hs ext)).symm
    rw [this]
    cases hf : c.opts.extensions.find? fun ext => c.fs.isFile (appendExt i.getPath ext) with
    | none => exact h
    | some ext =>
      exact ⟨by simp [Info.withTarget, Info.withPath, hr], sim_append ha hs ext,
        isAbs_append ha ext⟩

theorem exportsPick_rel (hc : CtxSim S c c') {d d' : Str} (hd : comps d = comps d')
    (ha : isAbs d = true) (hdir : c.fs.isDir d = true) (l : List Str) :
    (exportsPick c d l = none ∧ exportsPick c' d' l = none) ∨
      ∃ i j, exportsPick c d l = some i ∧ exportsPick c' d' l = some j ∧ RI i j := by
  induction l with
  | nil => exact .inl ⟨rfl, rfl⟩
  | cons x l ih =>
    unfold exportsPick
    simp only
    have ha' : isAbs d' = true := by rw [← isAbs_of_comps hd]; exact ha
    by_cases ht : (parseRequest x).target = [] ∨ (parseRequest x).target = cs!"."
    · have h1 : (⟨d, parseRequest x⟩ : Info).getPath = d := by
        unfold Info.getPath; rw [if_pos (by simpa using ht)]
      have h2 : (⟨d', parseRequest x⟩ : Info).getPath = d' := by
        unfold Info.getPath; rw [if_pos (by simpa using ht)]
      rw [h1, h2, hc.dirNotFile d ha hdir,
        hc.dirNotFile' d' ha' (by rw [← hc.isDir d d' ha hd]; exact hdir)]
      simpa using ih
    · have hi : RI ⟨d, parseRequest x⟩ ⟨d', parseRequest x⟩ :=
        ⟨rfl, hd, ha, .inr (by simpa using ht)⟩
      rw [← hc.isFile _ _ hi.getPath.2 hi.getPath.1]
      split
      · exact .inr ⟨_, _, rfl, rfl, hi⟩
      · exact ih

theorem exportsRequestOf_rel (hc : CtxSim S c c') {p q : Pkg} (hp : PkgRel c c' p q) {i j : Info}
    (h : RI i j) : (exportsRequestOf c p i).RelBy S Eq (exportsRequestOf c' q j) := by
  obtain ⟨h1, h2, h3, -⟩ := h
  have hx := hc.pathExists _ _ (isAbs_pjoin_left i.request.target h3) (sim_pjoin h3 h2 i.request.target)
  have : exportsRequestOf c' q j = exportsRequestOf c p i := by
    unfold exportsRequestOf
    simp only [← h1, ← hx, ← hp.name]
  rw [this]
  unfold exportsRequestOf
  simp only
  split
  · exact .panic _
  · split
    · exact .ret rfl
    · split <;> exact .ret rfl

theorem exportsPlugin_rel (hc : CtxSim S c c') {p q : Option Pkg} (hp : OPkgRel c c' p q)
    {i j : Info} (h : RI i j) : (exportsPlugin c p i).RelBy S SRel (exportsPlugin c' q j) := by
  cases p with
  | none =>
    cases q with
    | none => exact .ret h
    | some q => exact (hp : False).elim
  | some p =>
    cases q with
    | none => exact (hp : False).elim
    | some q =>
      have hp : PkgRel c c' p q := hp
      have h1 : i.request = j.request := h.1
      unfold exportsPlugin
      simp only [← h1]
      have e1 : isInModule q = isInModule p := (contains_module_comps hp.abs hp.dir).symm
      have e2 : isResolveSelf q j = isResolveSelf p i := by
        unfold isResolveSelf; rw [← hp.name, ← h1]
      rw [e1, e2, ← hp.exports, ← hc.opts]
      split
      · exact .ret h
      · split
        · exact .ret h
        · split
          · exact .ret h
          · refine (exportsRequestOf_rel hc hp h).bind ?_
            rintro a _ rfl
            cases a with
            | none => exact .ret ⟨.refl _, h.weak⟩
            | some remaining =>
              simp only
              split
              · exact .crash _
              · exact .ret ⟨.refl _, h.weak⟩
              · rename_i list _
                rcases exportsPick_rel hc hp.dir hp.abs hp.isDir list with ⟨h5, h6⟩ | ⟨i', j', h5, h6, hr⟩
                · rw [h5, h6]
                  exact .ret ⟨.refl _, h.weak⟩
                · rw [h5, h6]
                  exact .ret hr

theorem aliasFieldPlugin_rel (hc : CtxSim S c c') (n : Nat) {p q : Option Pkg}
    (hp : OPkgRel c c' p q) {i j : Info} (h : RI i j) :
    (aliasFieldPlugin c n p i).RelBy S SRel (aliasFieldPlugin c' n q j) := by
  unfold aliasFieldPlugin
  rw [← hc.opts]
  split
  · exact .ret h
  · rename_i hb
    cases p with
    | none =>
      cases q with
      | none => exact .ret h
      | some q => exact (hp : False).elim
    | some p =>
      cases q with
      | none => exact (hp : False).elim
      | some q =>
        have hp : PkgRel c c' p q := hp
        have hbr := hp.browser (by simpa using hb)
        have hf := hbr.find i j h
        simp only
        cases h1 : p.aliasFields.find? fun kv => aliasMatches c p i kv.1 with
        | none =>
          rw [h1] at hf
          cases h2 : q.aliasFields.find? fun kv => aliasMatches c' q j kv.1 with
          | none => exact .ret h
          | some kv => rw [h2] at hf; cases hf
        | some kv =>
          rw [h1] at hf
          cases h2 : q.aliasFields.find? fun kv => aliasMatches c' q j kv.1 with
          | none => rw [h2] at hf; cases hf
          | some kv' =>
            rw [h2] at hf
            obtain ⟨k, to⟩ := kv
            obtain ⟨k', to'⟩ := kv'
            cases hf
            simp only [← hbr.chain]
            cases hch : aliasChain p.aliasFields n to with
            | none => exact .crash _
            | some a =>
              cases a with
              | ignored => exact .ret trivial
              | target t =>
                obtain ⟨ht1, ht2⟩ := hbr.targets _ (List.mem_of_find?_eq_some h1) n t hch
                exact .ret ⟨by simp [Info.withTarget, Info.withPath, h.1], hp.dir, hp.abs,
                  .inr ⟨ht1, ht2⟩⟩

theorem importsCheck_rel (hc : CtxSim S c c') {i j : Info} (h : RI i j) (t : Str) :
    SRel (importsCheck c i t) (importsCheck c' j t) := by
  unfold importsCheck
  rw [← hc.isFile _ _ h.getPath.2 h.getPath.1, ← h.1]
  split
  · exact h
  · exact ⟨.refl _, h.weak⟩

/-- A package directory is not a file. -/
theorem importsCheck_rel' (hc : CtxSim S c c') {p q : Pkg} (hp : PkgRel c c' p q) (r : Request)
    (t : Str) : SRel (importsCheck c ⟨p.absDir, r⟩ t) (importsCheck c' ⟨q.absDir, r⟩ t) := by
  by_cases ht : r.target = [] ∨ r.target = cs!"."
  · have ha' : isAbs q.absDir = true := by rw [← isAbs_of_comps hp.dir]; exact hp.abs
    unfold importsCheck
    have h1 : (⟨p.absDir, r⟩ : Info).getPath = p.absDir := by
      unfold Info.getPath; rw [if_pos (by simpa using ht)]
    have h2 : (⟨q.absDir, r⟩ : Info).getPath = q.absDir := by
      unfold Info.getPath; rw [if_pos (by simpa using ht)]
    rw [h1, h2, hc.dirNotFile _ hp.abs hp.isDir,
      hc.dirNotFile' _ ha' (by rw [← hc.isDir _ _ hp.abs hp.dir]; exact hp.isDir)]
    exact ⟨.refl _, rfl, hp.dir, hp.abs⟩
  · exact importsCheck_rel (i := ⟨p.absDir, r⟩) (j := ⟨q.absDir, r⟩) hc ⟨rfl, hp.dir, hp.abs, .inr (not_or.1 ht)⟩ t

theorem outsideModule_rel {p q : Option Pkg} (hp : OPkgRel c c' p q) :
    outsideModule p = outsideModule q := by
  cases p with
  | none =>
    cases q with
    | none => rfl
    | some q => exact (hp : False).elim
  | some p =>
    cases q with
    | none => exact (hp : False).elim
    | some q =>
      have hp : PkgRel c c' p q := hp
      unfold outsideModule
      simp only [contains_module_comps hp.abs hp.dir]

theorem normal_target {s : Str} (h : (parseRequest s).kind = .normal) :
    (parseRequest s).target ≠ [] ∧ (parseRequest s).target ≠ cs!"." := by
  have hk : getTargetKind (parseRequest s).target = .normal := h
  constructor
  · intro e; rw [e] at hk; cases hk
  · intro e; rw [e] at hk; cases hk

theorem internal_target {s : Str} (h : (parseRequest s).kind = .internal) :
    (parseRequest s).target ≠ [] ∧ (parseRequest s).target ≠ cs!"." := by
  have hk : getTargetKind (parseRequest s).target = .internal := h
  constructor
  · intro e; rw [e] at hk; cases hk
  · intro e; rw [e] at hk; cases hk

theorem importsPlugin_rel (hc : CtxSim S c c') (n : Nat) {p q : Option Pkg}
    (hp : OPkgRel c c' p q) {i j : Info} (h : RI i j) :
    (importsPlugin c n p i).RelBy S SRel (importsPlugin c' n q j) := by
  induction n generalizing p q i j with
  | zero => exact .crash _
  | succ n ih =>
    cases p with
    | none =>
      cases q with
      | none => exact .ret h
      | some q => exact (hp : False).elim
    | some p =>
      cases q with
      | none => exact (hp : False).elim
      | some q =>
        have hpo := hp
        have hp : PkgRel c c' p q := hp
        have h1 : i.request = j.request := h.1
        unfold importsPlugin
        simp only [← h1, ← hp.imports, ← hc.opts]
        split
        · exact .ret h
        · split
          · exact .ret h
          · split
            · exact .crash _
            · exact .ret ⟨.refl _, h.weak⟩
            · exact .ret ⟨.refl _, h.weak⟩
            · rename_i item _ _
              split
              · have hi : RI ⟨pjoin p.absDir MODULE, parseRequest item⟩
                    ⟨pjoin q.absDir MODULE, parseRequest item⟩ :=
                  .of_sim _ (isAbs_pjoin_left _ hp.abs) (sim_pjoin hp.abs hp.dir _)
                refine (hc.load _ _ hi.getPath.2 hi.getPath.1.1).bind ?_
                intro a b hab
                cases a with
                | error e =>
                  cases b with
                  | error e' => exact .ret ⟨hab, hi.weak⟩
                  | ok q' => exact (hab : False).elim
                | ok p' =>
                  cases b with
                  | error e' => exact (hab : False).elim
                  | ok q' =>
                    have hab : OPkgRel c c' p' q' := hab
                    simp only [outsideModule_rel hab]
                    split
                    · exact .ret hi
                    · refine (exportsPlugin_rel hc hab hi).bind fun s t hs => ?_
                      refine (hs.andThen fun i j hi => ih hab hi).bind fun s t hs => ?_
                      refine (hs.andThen fun i j hi => aliasFieldPlugin_rel hc n hab hi).bind
                        fun s t hs => ?_
                      exact hs.andThen fun i j hi => .ret (importsCheck_rel hc hi _)
              · split
                · rename_i hk
                  exact ih hpo ⟨rfl, hp.dir, hp.abs, .inr (internal_target hk)⟩
                · exact .ret (importsCheck_rel' hc hp _ _)

theorem dotSlash_ne (s : Str) : cs!"./" ++ s ≠ [] ∧ cs!"./" ++ s ≠ cs!"." := by
  constructor <;> simp

theorem mainFileLoop_rel (hc : CtxSim S c c') (n : Nat) {p q : Option Pkg}
    (hp : OPkgRel c c' p q) {i j : Info} (h : RI i j) (l : List Str) {a b : Info} (hab : RW a b) :
    (mainFileLoop c n p i l a).RelBy S SRel (mainFileLoop c' n q j l b) := by
  induction l generalizing a b with
  | nil => exact .ret h
  | cons f l ih =>
    unfold mainFileLoop
    have hcur := hab.withTarget (dotSlash_ne f).1 (dotSlash_ne f).2
    refine Prog.RelBy.bind (Q := SRel) ?_ ?_
    · refine (exportsPlugin_rel hc hp hcur).bind fun s t hs => ?_
      refine (hs.andThen fun i j hi => importsPlugin_rel hc n hp hi).bind fun s t hs => ?_
      refine (hs.andThen fun i j hi => aliasFieldPlugin_rel hc n hp hi).bind fun s t hs => ?_
      exact hs.andThen fun i j hi => .ret (resolveAsFile_rel hc hi)
    · intro s t hs
      cases s with
      | success r =>
        cases t with
        | success r' => exact .ret hs
        | resolving j => cases r <;> exact (hs : False).elim
        | error e j => cases r <;> exact (hs : False).elim
      | resolving i' =>
        cases t with
        | resolving j' => exact ih (RI.weak hs)
        | success r => exact (hs : False).elim
        | error e j => exact (hs : False).elim
      | error e i' =>
        cases t with
        | error e' j' => exact ih hs.2
        | resolving j => exact (hs : False).elim
        | success r => exact (hs : False).elim

theorem mainFieldLoop_rel (hc : CtxSim S c c') (n : Nat) {f g : Info → Prog Stats}
    (hfg : ∀ i j, RI i j → (f i).RelBy S SRel (g j)) {p q : Pkg} (hp : PkgRel c c' p q) {i j : Info}
    (h : RI i j) (l : List Str) (hl : ∀ x ∈ l, x ∈ c.opts.mainFields) {a b : Info}
    (hab : RW a b) :
    (mainFieldLoop c n f p i l a).RelBy S SRel (mainFieldLoop c' n g q j l b) := by
  induction l generalizing a b with
  | nil => exact .ret h
  | cons x l ih =>
    have ih := fun {a b} => ih (fun y hy => hl y (List.mem_cons_of_mem _ hy)) (a := a) (b := b)
    unfold mainFieldLoop
    rw [← hp.main x (hl x (List.mem_cons_self ..))]
    cases hv : (p.raw.get x).bind Json.asStr with
    | none => exact ih hab
    | some v =>
      simp only
      split
      · exact .ret h
      · rename_i hv
        refine Prog.RelBy.bind (Q := SRel) ?_ ?_
        · refine (aliasFieldPlugin_rel hc n (p := some p) (q := some q) hp ?_).bind
            fun s t hs => ?_
          · split
            · rename_i hpre
              rw [startsWith_iff] at hpre
              refine hab.withTarget ?_ ?_
              · rintro rfl; simp at hpre
              · rintro rfl; exact absurd hpre (by decide)
            · exact hab.withTarget (dotSlash_ne v).1 (dotSlash_ne v).2
          refine (hs.andThen fun i j hi => .ret (resolveAsFile_rel hc hi)).bind fun s t hs => ?_
          exact hs.andThen hfg
        · intro s t hs
          cases s with
          | success r =>
            cases t with
            | success r' => exact .ret hs
            | resolving j => cases r <;> exact (hs : False).elim
            | error e j => cases r <;> exact (hs : False).elim
          | resolving i' =>
            cases t with
            | resolving j' => exact ih (RI.weak hs)
            | success r => exact (hs : False).elim
            | error e j => exact (hs : False).elim
          | error e i' =>
            cases t with
            | error e' j' => exact ih hs.2
            | resolving j => exact (hs : False).elim
            | success r => exact (hs : False).elim

theorem resolveAsDir_rel (hc : CtxSim S c c') (n : Nat) {i j : Info} (h : RI i j) :
    (resolveAsDir c n i).RelBy S SRel (resolveAsDir c' n j) := by
  induction n generalizing i j with
  | zero => exact .crash _
  | succ n ih =>
    unfold resolveAsDir
    obtain ⟨hs, ha⟩ := h.getPath
    simp only [← hc.isDir _ _ ha hs.1]
    split
    · exact .ret ⟨.refl _, h.weak⟩
    · refine (hc.load _ _ ha hs.1).bind ?_
      intro a b hab
      cases a with
      | error e =>
        cases b with
        | error e' => exact .ret ⟨hab, h.weak⟩
        | ok q => exact (hab : False).elim
      | ok p =>
        cases b with
        | error e' => exact (hab : False).elim
        | ok q =>
          have hp : OPkgRel c c' p q := hab
          have h' : RI ((i.withPath i.getPath).withTarget []) ((j.withPath j.getPath).withTarget []) :=
            ⟨by simp [Info.withTarget, Info.withPath, h.1], hs.1, ha, .inl hs.2⟩
          refine Prog.RelBy.bind (Q := SRel) ?_ fun s t hs => ?_
          · unfold mainFieldPlugin
            cases p with
            | none =>
              cases q with
              | none => exact .ret h'
              | some q => exact (hp : False).elim
            | some p =>
              cases q with
              | none => exact (hp : False).elim
              | some q =>
                have hp : PkgRel c c' p q := hp
                have e : pathEq ((j.withPath j.getPath).withTarget []).path q.absDir =
                    pathEq ((i.withPath i.getPath).withTarget []).path p.absDir := by
                  unfold pathEq
                  rw [hp.dir, h'.2.1]
                simp only [e, ← hc.opts]
                split
                · exact .ret h'
                · exact mainFieldLoop_rel hc n (fun i j hi => ih hi) hp h' _ (fun _ hx => hx)
                    h'.weak
          · refine hs.andThen fun i j hi => ?_
            unfold mainFilePlugin
            rw [← hc.opts]
            exact mainFileLoop_rel hc n hp hi _ hi.weak

theorem modulePackageChain_rel (hc : CtxSim S c c') (n : Nat) {p q : Option Pkg}
    (hp : OPkgRel c c' p q) {i j : Info} (h : RI i j) :
    (modulePackageChain c n p i).RelBy S SRel (modulePackageChain c' n q j) := by
  unfold modulePackageChain
  refine (exportsPlugin_rel hc hp h).bind fun s t hs => ?_
  refine (hs.andThen fun i j hi => importsPlugin_rel hc n hp hi).bind fun s t hs => ?_
  refine Prog.RelBy.bind (Q := SRel) (hs.andThen fun i j hi => ?_) fun s t hs => ?_
  · simp only [← hi.1]
    split
    · exact aliasFieldPlugin_rel hc n hp (hi.weak.withTarget (dotSlash_ne _).1 (dotSlash_ne _).2)
    · exact aliasFieldPlugin_rel hc n hp hi
  refine (hs.andThen fun i j hi => .ret (resolveAsFile_rel hc hi)).bind fun s t hs => ?_
  exact hs.andThen fun i j hi => resolveAsDir_rel hc n hi

theorem selfOf_rel {p q : Option Pkg} (hp : OPkgRel c c' p q) {i j : Info}
    (h : i.request = j.request) : selfOf p i = selfOf q j := by
  cases p with
  | none =>
    cases q with
    | none => rfl
    | some q => exact (hp : False).elim
  | some p =>
    cases q with
    | none => exact (hp : False).elim
    | some q =>
      have hp : PkgRel c c' p q := hp
      unfold selfOf isResolveSelf
      simp only [hp.name, h]

/-- Related results of one step of the search through `node_modules`. -/
def StepRel (a b : Stats × Bool) : Prop := SRel a.1 b.1 ∧ a.2 = b.2

theorem moduleStep_rel (hc : CtxSim S c c') (n : Nat) {i j : Info} (h : RI i j) :
    (moduleStep c n i).RelBy S StepRel (moduleStep c' n j) := by
  have hroot := sim_pjoin h.2.2.1 h.2.1 MODULE
  have hra := isAbs_pjoin_left MODULE h.2.2.1
  have h1 : i.request = j.request := h.1
  unfold moduleStep
  simp only [← hc.isDir _ _ hra hroot.1, ← h1]
  split
  · exact .ret ⟨h, rfl⟩
  · split
    · exact .panic _
    · rename_i name _
      refine (hc.load _ _ (isAbs_pjoin_left _ hra) (sim_pjoin hra hroot.1 _).1).bind ?_
      have hm : RI ⟨pjoin i.path MODULE, i.request⟩ ⟨pjoin j.path MODULE, i.request⟩ :=
        .of_sim _ hra hroot
      intro a b hab
      cases a with
      | error e =>
        cases b with
        | error e' => exact .ret ⟨⟨hab, h.weak⟩, rfl⟩
        | ok q => exact (hab : False).elim
      | ok p =>
        cases b with
        | error e' => exact (hab : False).elim
        | ok q =>
          have hp : OPkgRel c c' p q := hab
          simp only [← hc.isDir _ _ (isAbs_pjoin_left name hra) (sim_pjoin hra hroot.1 name).1,
            ← selfOf_rel hp hm.1]
          split
          · have hf := resolveAsFile_rel hc hm
            cases hl : resolveAsFile c ⟨pjoin i.path MODULE, i.request⟩ with
            | success r =>
              cases hr : resolveAsFile c' ⟨pjoin j.path MODULE, i.request⟩ with
              | success r' => rw [hl, hr] at hf; exact .ret ⟨hf, rfl⟩
              | resolving j => rw [hl, hr] at hf; cases r <;> exact (hf : False).elim
              | error e j => rw [hl, hr] at hf; cases r <;> exact (hf : False).elim
            | resolving i' =>
              cases hr : resolveAsFile c' ⟨pjoin j.path MODULE, i.request⟩ with
              | success r' => rw [hl, hr] at hf; exact (hf : False).elim
              | resolving j => exact .ret ⟨h, rfl⟩
              | error e j => exact .ret ⟨h, rfl⟩
            | error e i' =>
              cases hr : resolveAsFile c' ⟨pjoin j.path MODULE, i.request⟩ with
              | success r' => rw [hl, hr] at hf; exact (hf : False).elim
              | resolving j => exact .ret ⟨h, rfl⟩
              | error e j => exact .ret ⟨h, rfl⟩
          · refine (modulePackageChain_rel hc n hp hm).bind fun s t hs => ?_
            cases s with
            | success r =>
              cases t with
              | success r' => exact .ret ⟨hs, rfl⟩
              | resolving j => cases r <;> exact (hs : False).elim
              | error e j => cases r <;> exact (hs : False).elim
            | resolving i' =>
              cases t with
              | resolving j' => exact .ret ⟨hs, rfl⟩
              | success r => exact (hs : False).elim
              | error e j => exact (hs : False).elim
            | error e i' =>
              cases t with
              | error e' j' =>
                simp only [← hs.1.isTag]
                split
                · exact .ret ⟨h, rfl⟩
                · exact .ret ⟨hs, rfl⟩
              | resolving j => exact (hs : False).elim
              | success r => exact (hs : False).elim

theorem resolveAsModules_rel (hc : CtxSim S c c') (n : Nat) {i j : Info} (h : RI i j) :
    (resolveAsModules c n i).RelBy S SRel (resolveAsModules c' n j) := by
  induction n generalizing i j with
  | zero => exact .crash _
  | succ n ih =>
    unfold resolveAsModules
    refine (moduleStep_rel hc n h).bind ?_
    rintro ⟨s, b⟩ ⟨t, b'⟩ ⟨hs, hb⟩
    simp only at hb
    subst hb
    cases b with
    | true => exact .ret hs
    | false =>
      refine Prog.RelBy.bind (Q := SRel) (hs.andThen fun i' j' hi => ?_) fun s t hs => ?_
      · rcases sim_pparent h.2.2.1 h.2.1 with ⟨h1, h2⟩ | ⟨p', q', h1, h2, h3, h4⟩
        · rw [h1, h2]; exact .ret hi
        · rw [h1, h2]
          exact ih ⟨hi.1, h3.1, h4, .inl h3.2⟩
      · cases s with
        | success r =>
          cases t with
          | success r' => exact .ret hs
          | resolving j => cases r <;> exact (hs : False).elim
          | error e j => cases r <;> exact (hs : False).elim
        | resolving i' =>
          cases t with
          | resolving j' => exact .ret ⟨.refl _, RI.weak hs⟩
          | success r => exact (hs : False).elim
          | error e j => exact (hs : False).elim
        | error e i' =>
          cases t with
          | error e' j' => exact .ret hs
          | resolving j => exact (hs : False).elim
          | success r => exact (hs : False).elim

/-- What is left of the path stays: the alias and prefer-relative plugins pass on the
information unchanged. -/
def SRelAt (i j : Info) (s t : Stats) : Prop :=
  SRel s t ∧ ∀ i', s = .resolving i' → i' = i ∧ t = .resolving j

/-- The texts of the paths end alike, or no alias makes that matter. -/
def EndOk (alias : List (Str × AliasMap)) (i j : Info) : Prop :=
  lastSeg i.path = lastSeg j.path ∨ ∀ kv ∈ alias, ∀ t, kv.2 = .target t → t ≠ [] ∧ t ≠ cs!"."

theorem replaceFirst_start (a b to : Str) : replaceFirst (a ++ b) a to = to ++ b := by
  have hp : a.isPrefixOf (a ++ b) = true := by
    rw [List.isPrefixOf_iff_prefix]; exact List.prefix_append a b
  cases h : a ++ b with
  | nil =>
    obtain ⟨rfl, rfl⟩ := List.append_eq_nil_iff.1 h
    simp [replaceFirst]
  | cons c s =>
    rw [h] at hp
    rw [replaceFirst, if_pos hp, ← h]
    simp

theorem replaceFirst_names {s k to : Str} (h : startsWith s k = true) (h1 : to ≠ []) (h2 : to ≠ cs!".") :
    replaceFirst s k to ≠ [] ∧ replaceFirst s k to ≠ cs!"." := by
  obtain ⟨b, rfl⟩ := List.isPrefixOf_iff_prefix.1 h
  rw [replaceFirst_start]
  refine ⟨by simp [h1], fun e => ?_⟩
  cases to with
  | nil => exact h1 rfl
  | cons c to =>
    have e' : c :: (to ++ b) = ['.'] := e
    injection e' with e1 e2
    obtain ⟨e3, -⟩ := List.append_eq_nil_iff.1 e2
    exact h2 (by rw [e1, e3])

theorem aliasLoop_relAt {f g : Info → Prog Stats} {i j : Info}
    (hfg : ∀ r, RI ⟨i.path, r⟩ ⟨j.path, r⟩ → (f ⟨i.path, r⟩).RelBy S SRel (g ⟨j.path, r⟩))
    (h : RI i j) (l : List (Str × AliasMap)) (hl : EndOk l i j) :
    (aliasLoop f i l).RelBy S (SRelAt i j) (aliasLoop g j l) := by
  induction l with
  | nil => exact .ret ⟨h, fun i' e => by cases e; exact ⟨rfl, rfl⟩⟩
  | cons kv l ih =>
    replace ih := ih (hl.imp_right fun h kv hkv => h kv (List.mem_cons_of_mem _ hkv))
    obtain ⟨k, v⟩ := kv
    unfold aliasLoop
    simp only [← h.1]
    split
    · split
      · split
        · exact ih
        · rename_i hk _ to _
          refine Prog.RelBy.bind (hfg _ ⟨rfl, h.2.1, h.2.2.1, ?_⟩) fun s t hs => ?_
          · refine hl.imp_right fun hl => ?_
            obtain ⟨h1, h2⟩ := hl _ (List.mem_cons_self ..) to rfl
            exact replaceFirst_names hk h1 h2
          cases s with
          | success r =>
            cases t with
            | success r' => exact .ret ⟨hs, nofun⟩
            | resolving j => cases r <;> exact (hs : False).elim
            | error e j => cases r <;> exact (hs : False).elim
          | resolving i' =>
            cases t with
            | resolving j' => exact ih
            | success r => exact (hs : False).elim
            | error e j => exact (hs : False).elim
          | error e i' =>
            cases t with
            | error e' j' => exact ih
            | resolving j => exact (hs : False).elim
            | success r => exact (hs : False).elim
      · exact .ret ⟨trivial, nofun⟩
    · exact ih

theorem resolveInner_rel' (hc : CtxSim S c c') (n : Nat) {i j : Info} (h : RI i j)
    (he : EndOk c.opts.alias i j) :
    (resolveInner c n i).RelBy S SRel (resolveInner c' n j) := by
  induction n generalizing i j with
  | zero => exact .crash _
  | succ n ih =>
    unfold resolveInner
    refine Prog.RelBy.bind (Q := SRel) ?_ ?_
    · refine Prog.RelBy.bind (Q := SRelAt i j) ?_ fun s t hs => ?_
      · unfold aliasPlugin
        rw [← contains_module_comps h.2.2.1 h.2.1, ← hc.opts]
        split
        · exact .ret ⟨h, fun i' e => by cases e; exact ⟨rfl, rfl⟩⟩
        · exact aliasLoop_relAt (fun r hr => ih hr he) h _ he
      refine Prog.RelBy.bind (Q := SRel) ?_ fun s t hs => ?_
      · cases s with
        | resolving i' =>
          obtain ⟨rfl, rfl⟩ := hs.2 i' rfl
          show (preferRelativePlugin c (resolveInner c n) i').RelBy S SRel
            (preferRelativePlugin c' (resolveInner c' n) j)
          unfold preferRelativePlugin
          rw [← h.1, ← hc.opts]
          split
          · exact .ret h
          · split
            · refine Prog.RelBy.bind (ih ⟨rfl, h.2.1, h.2.2.1, .inr ⟨nofun, nofun⟩⟩ he) fun s t hs => ?_
              cases s with
              | success r =>
                cases t with
                | success r' => exact .ret hs
                | resolving j => cases r <;> exact (hs : False).elim
                | error e j => cases r <;> exact (hs : False).elim
              | resolving i' =>
                cases t with
                | resolving j' => exact .ret h
                | success r => exact (hs : False).elim
                | error e j => exact (hs : False).elim
              | error e i' =>
                cases t with
                | error e' j' => exact .ret h
                | resolving j => exact (hs : False).elim
                | success r => exact (hs : False).elim
            · exact .ret h
        | success r =>
          cases t with
          | success r' => exact .ret hs.1
          | resolving j => cases r <;> exact (hs.1 : False).elim
          | error e j => cases r <;> exact (hs.1 : False).elim
        | error e i' =>
          cases t with
          | error e' j' => exact .ret hs.1
          | resolving j => exact (hs.1 : False).elim
          | success r => exact (hs.1 : False).elim
      refine Prog.RelBy.bind (Q := SRel) (hs.andThen fun i j hi => ?_) fun s t hs => ?_
      · unfold pkgStage
        simp only [← hi.1]
        have hload : (c.load (if i.request.kind = .normal then
              pjoin (pjoin i.path MODULE) i.request.target else i.getPath)).RelBy S (LoadRel c c')
            (c'.load (if i.request.kind = .normal then
              pjoin (pjoin j.path MODULE) i.request.target else j.getPath)) := by
          split
          · have h1 := isAbs_pjoin_left MODULE hi.2.2.1
            exact hc.load _ _ (isAbs_pjoin_left _ h1)
              (sim_pjoin h1 (sim_pjoin hi.2.2.1 hi.2.1 _).1 _).1
          · exact hc.load _ _ hi.getPath.2 hi.getPath.1.1
        refine hload.bind ?_
        intro a b hab
        cases a with
        | error e =>
          cases b with
          | error e' => exact .ret ⟨hab, hi.weak⟩
          | ok q => exact (hab : False).elim
        | ok p =>
          cases b with
          | error e' => exact (hab : False).elim
          | ok q =>
            have hp : OPkgRel c c' p q := hab
            refine (importsPlugin_rel hc n hp hi).bind fun s t hs => ?_
            exact hs.andThen fun i j hi => aliasFieldPlugin_rel hc n hp hi
      refine hs.andThen fun i j hi => ?_
      unfold lastStage
      rw [← hi.1]
      split
      · exact (resolveAsFile_rel hc hi).andThen fun i j hi => resolveAsDir_rel hc n hi
      · exact (resolveAsFile_rel hc hi).andThen fun i j hi => resolveAsDir_rel hc n hi
      · exact (resolveAsFile_rel hc hi).andThen fun i j hi => resolveAsDir_rel hc n hi
      · exact resolveAsModules_rel hc n hi
    · intro s t hs
      cases s with
      | success r =>
        cases t with
        | success r' => exact .ret hs
        | resolving j => cases r <;> exact (hs : False).elim
        | error e j => cases r <;> exact (hs : False).elim
      | resolving i' =>
        cases t with
        | resolving j' => exact .panic _
        | success r => exact (hs : False).elim
        | error e j => exact (hs : False).elim
      | error e i' =>
        cases t with
        | error e' j' =>
          refine .ret ⟨?_, hs.2⟩
          rw [← hs.1.isTag]
          split
          · unfold failedMessage
            rw [h.1]
            exact .failed _ h.2.1
          · exact hs.1
        | resolving j => exact (hs : False).elim
        | success r => exact (hs : False).elim

theorem resolveInner_rel (hc : CtxSim S c c') (n : Nat) {i j : Info} (h : RS i j) :
    (resolveInner c n i).RelBy S SRel (resolveInner c' n j) :=
  resolveInner_rel' hc n h.info (.inl h.2.1.2)

/-- Results of reading a tsconfig. -/
def TsRel : Except Err Json → Except Err Json → Prop
  | .ok a, .ok b => TsSame a b
  | .error e, .error e' => ErrSim e e'
  | _, _ => False

theorem tsValue_rel (hc : CtxSim S c c') (hts : c.opts.tsconfig ≠ none) (n : Nat) {p q : Str} (ha : isAbs p = true)
    (h : Sim p q) : (tsValue c n p).RelBy S TsRel (tsValue c' n q) := by
  induction n generalizing p q with
  | zero => exact .crash _
  | succ n ih =>
    have hj := hc.jsonc hts p q ha h
    unfold tsValue
    cases hp : c.fs.read p with
    | none =>
      rw [hp] at hj
      cases hq : c'.fs.read q with
      | some d => rw [hq] at hj; cases hj
      | none => exact .ret (.openFailed h.1)
    | some d =>
      rw [hp] at hj
      cases hq : c'.fs.read q with
      | none => rw [hq] at hj; cases hj
      | some d' =>
        rw [hq] at hj
        have hj : tsView d = tsView d' := by simpa using hj
        unfold tsView at hj
        cases h1 : d.jsonc with
        | error msg =>
          cases h2 : d'.jsonc with
          | ok o' => rw [h1, h2] at hj; cases hj
          | error msg' =>
            rw [h1, h2] at hj
            cases hj
            simp only [h1, h2]
            exact .ret (.tsParseFailed _ h.1)
        | ok o =>
          cases h2 : d'.jsonc with
          | error msg' => rw [h1, h2] at hj; cases hj
          | ok o' =>
            rw [h1, h2] at hj
            have hj : o.map (Json.without cs!"browser") = o'.map (Json.without cs!"browser") :=
              Except.ok.inj hj
            cases o with
            | none =>
              cases o' with
              | some j' => cases hj
              | none => simp only [h1, h2]; exact .panic _
            | some json =>
              cases o' with
              | none => cases hj
              | some json' =>
                have hj : TsSame json json' := Option.some.inj hj
                simp only [h1, h2, ← hj.get (k := cs!"extends") (by decide)]
                split
                · rename_i s _
                  rcases sim_pparent ha h.1 with ⟨h1, h2⟩ | ⟨p', q', h1, h2, h3, h4⟩
                  · rw [h1, h2]; exact .panic _
                  · rw [h1, h2]
                    simp only
                    refine (resolveInner_rel hc n (i := ⟨p', parseRequest s⟩)
                      (j := ⟨q', parseRequest s⟩) ⟨rfl, h3, h4⟩).bind fun s t hs => ?_
                    cases s with
                    | success r =>
                      cases t with
                      | success r' =>
                        cases r with
                        | ignored =>
                          cases r' with
                          | ignored => exact .ret (.extendsIgnored _ h.1)
                          | info j => exact (hs : False).elim
                        | info i =>
                          cases r' with
                          | ignored => exact (hs : False).elim
                          | info j =>
                            have hi : RI i j := RS.info hs
                            refine (ih hi.getPath.2 hi.getPath.1).bind ?_
                            intro a b hab
                            cases a with
                            | error e =>
                              cases b with
                              | error e' => exact .ret hab
                              | ok y => exact (hab : False).elim
                            | ok x =>
                              cases b with
                              | error e' => exact (hab : False).elim
                              | ok y => exact .ret (hj.merge hab)
                      | resolving j => cases r <;> exact (hs : False).elim
                      | error e j => cases r <;> exact (hs : False).elim
                    | resolving i' =>
                      cases t with
                      | resolving j' => exact .ret hj
                      | success r => exact (hs : False).elim
                      | error e j => exact (hs : False).elim
                    | error e i' =>
                      cases t with
                      | error e' j' => exact .ret hj
                      | resolving j => exact (hs : False).elim
                      | success r => exact (hs : False).elim
                · exact .ret hj

theorem tsPathsTry_rel {f g : Info → Prog Stats} (hfg : ∀ i j, RS i j → (f i).RelBy S SRel (g j))
    (star : Str) {next next' : Prog Stats} (hn : next.RelBy S SRel next') (l : List Str)
    (hl : ∀ p ∈ l, isAbs (replaceChar p '*' star) = true) :
    (tsPathsTry f star next l).RelBy S SRel (tsPathsTry g star next' l) := by
  induction l with
  | nil => exact hn
  | cons p ps ih =>
    unfold tsPathsTry
    have ih := ih fun p hp => hl p (List.mem_cons_of_mem _ hp)
    refine Prog.RelBy.bind (hfg _ _ ⟨rfl, .refl _, hl p (List.mem_cons_self ..)⟩) fun s t hs => ?_
    cases s with
    | success r =>
      cases t with
      | success r' => exact .ret hs
      | resolving j => cases r <;> exact (hs : False).elim
      | error e j => cases r <;> exact (hs : False).elim
    | resolving i' =>
      cases t with
      | resolving j' => exact ih
      | success r => exact (hs : False).elim
      | error e j => exact (hs : False).elim
    | error e i' =>
      cases t with
      | error e' j' => exact ih
      | resolving j => exact (hs : False).elim
      | success r => exact (hs : False).elim

theorem tsEntries_rel {f g : Info → Prog Stats} (hfg : ∀ i j, RS i j → (f i).RelBy S SRel (g j))
    {i j : Info} (hr : i.request = j.request) (hij : (f i).RelBy S SRel (g j)) (l : List (Str × List Str))
    (hl : ∀ kp ∈ l, ∀ p ∈ kp.2, ∀ star, isAbs (replaceChar p '*' star) = true) :
    (tsEntries f i l).RelBy S SRel (tsEntries g j l) := by
  induction l with
  | nil => exact hij
  | cons kv l ih =>
    obtain ⟨k, paths⟩ := kv
    have ih := ih fun kp hkp => hl kp (List.mem_cons_of_mem _ hkp)
    unfold tsEntries
    simp only [← hr]
    split
    · exact .panic _
    · exact ih
    · exact tsPathsTry_rel hfg _ ih paths fun p hp => hl _ (List.mem_cons_self ..) p hp _

theorem isAbs_star {p : Str} (h : isAbs p = true) (star : Str) :
    isAbs (replaceChar p '*' star) = true := by
  obtain ⟨r, rfl⟩ := (isAbs_iff p).1 h
  exact (isAbs_iff _).2 ⟨replaceChar r '*' star, by simp [replaceChar]⟩

theorem resolveStats_rel' (hc : CtxSim S c c') (hseed : c.opts.tsconfig ≠ none → S.seed) (n : Nat)
    {path path' request : Str} (hp : RI ⟨path, parseRequest request⟩ ⟨path', parseRequest request⟩)
    (he : EndOk c.opts.alias ⟨path, parseRequest request⟩ ⟨path', parseRequest request⟩)
    (hts : ∀ l, c.opts.tsconfig = some l → isAbs l = true) :
    (resolveStats c n path request).RelBy S SRel (resolveStats c' n path' request) := by
  unfold resolveStats
  rw [← hc.opts]
  simp only
  split
  · rename_i location hl
    have hla := hts location hl
    unfold resolveWithTsconfig
    refine (tsValue_rel hc (by rw [hl]; nofun) n hla (.refl _)).bind ?_
    intro a b hab
    cases a with
    | error e =>
      cases b with
      | error e' => exact .ret ⟨hab, hp.weak⟩
      | ok y => exact (hab : False).elim
    | ok x =>
      cases b with
      | error e' => exact (hab : False).elim
      | ok y =>
        simp only [← tsInfoOf_same hab]
        split
        · exact .panic _
        · split
          · exact .panic _
          · rename_i entries hen
            refine .both (hseed (by rw [hl]; nofun)) fun r => ?_
            refine tsEntries_rel (fun i j hi => resolveInner_rel hc n hi)
              (i := ⟨path, parseRequest request⟩) (j := ⟨path', parseRequest request⟩) rfl (resolveInner_rel' hc n hp he) _ ?_
            intro kp hkp p hp star
            obtain ⟨dir, b, q, hd, rfl⟩ := createMatchList_mem hen kp (mem_permute hkp) p hp
            refine isAbs_star ?_ star
            refine isAbs_pjoin_left _ (isAbs_pjoin_left _ ?_)
            rw [isAbs_pparent hd, hla]
  · exact resolveInner_rel' hc n hp he

/-- Resolvers that see the same give the same answers, for paths that are the same. -/
theorem resolveCtx_rel' (hc : CtxSim S c c') (hseed : c.opts.tsconfig ≠ none → S.seed) (n : Nat)
    {path path' request : Str} (hp : RI ⟨path, parseRequest request⟩ ⟨path', parseRequest request⟩)
    (he : EndOk c.opts.alias ⟨path, parseRequest request⟩ ⟨path', parseRequest request⟩)
    (hts : ∀ l, c.opts.tsconfig = some l → isAbs l = true) :
    (resolveCtx c n path request).RelBy S AnsSim (resolveCtx c' n path' request) := by
  unfold resolveCtx
  refine (resolveStats_rel' hc hseed n hp he hts).bind fun s t hs => ?_
  cases s with
  | success r =>
    cases t with
    | success r' =>
      cases r with
      | ignored =>
        cases r' with
        | ignored => exact .ret rfl
        | info j => exact (hs : False).elim
      | info i =>
        cases r' with
        | ignored => exact (hs : False).elim
        | info j =>
          obtain ⟨h1, h2, h3⟩ : RS i j := hs
          have e : normalizePath c' j.path = normalizePath c i.path := by
            unfold normalizePath
            rw [← hc.opts, ← hc.canon _ _ h3 h2, normalizeLex_comps h2.1]
          simp only [normalizeResult, ← hc.debug, ← h1, e]
          split
          · exact .panic _
          · split
            · exact .ret (.refl _)
            · refine .ret ?_
              simp only [AnsSim, Info.withPath, h1]
    | resolving j => cases r <;> exact (hs : False).elim
    | error e j => cases r <;> exact (hs : False).elim
  | resolving i' =>
    cases t with
    | resolving j' => exact .panic _
    | success r => exact (hs : False).elim
    | error e j => exact (hs : False).elim
  | error e i' =>
    cases t with
    | error e' j' => exact .ret hs.1
    | resolving j => exact (hs : False).elim
    | success r => exact (hs : False).elim

/-- The same for one path. -/
theorem resolveCtx_rel (hc : CtxSim S c c') (hseed : c.opts.tsconfig ≠ none → S.seed) (n : Nat) (path request : Str)
    (ha : isAbs path = true) (hts : ∀ l, c.opts.tsconfig = some l → isAbs l = true) :
    (resolveCtx c n path request).RelBy S AnsSim (resolveCtx c' n path request) :=
  resolveCtx_rel' hc hseed n ⟨rfl, rfl, ha, .inl rfl⟩ (.inl rfl) hts

end

end Verif
