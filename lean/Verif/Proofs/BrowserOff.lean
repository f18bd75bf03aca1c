import Verif.Spec.Browser
import Verif.Proofs.Transparent
/-!
# The `browser` field when it is switched off
-/

namespace Verif

theorem browserLoop_ok {l : List (Str × Json)} (h : ∀ k, (k, Json.bool true) ∉ l)
    (acc : List (Str × AliasMap)) : ∃ fields, browserLoop l acc = some fields := by
  induction l generalizing acc with
  | nil => exact ⟨acc, rfl⟩
  | cons kv l ih =>
    have ih := ih fun k hk => h k (List.mem_cons_of_mem _ hk)
    obtain ⟨k, v⟩ := kv
    cases v with
    | bool b =>
      cases b with
      | true => exact absurd (List.mem_cons_self ..) (h k)
      | false => exact ih _
    | str s => exact ih _
    | null => exact ih _
    | num n => exact ih _
    | arr a => exact ih _
    | obj o => exact ih _

theorem browserFields_ok {j : Json} (h : NoTrue j) :
    ∃ fields, browserFields j = some fields := by
  unfold browserFields
  cases hb : j.get cs!"browser" with
  | none => exact ⟨_, rfl⟩
  | some v =>
    simp only
    cases v with
    | obj m => exact browserLoop_ok (fun k => h m k hb) []
    | _ => exact ⟨_, rfl⟩

/-- The same package but for what comes from the `browser` field. -/
def PkgBut (p q : Pkg) : Prop :=
  (∀ f, f ≠ cs!"browser" → p.raw.get f = q.raw.get f) ∧
    q = { p with aliasFields := q.aliasFields, raw := q.raw }

/-- The same for results. -/
def ReadBut : Except Err Pkg → Except Err Pkg → Prop
  | .ok p, .ok q => PkgBut p q
  | .error e, .error e' => e = e'
  | _, _ => False

variable {fs fs' : Fs}

theorem readPkg_but {G : Op → Prop} {R : (o : Op) → o.Ret → Prop} (h : BrowserOnly fs fs') (d file : Str) :
    (readPkg fs d file).Rel G R ReadBut (readPkg fs' d file) := by
  have hr := h.read file
  have hm := h.mtime file
  unfold readPkg withTree
  cases h1 : fs.read file with
  | none =>
    rw [h1] at hr
    cases h2 : fs'.read file with
    | none => exact .ret rfl
    | some d' => rw [h2] at hr; cases hr
  | some doc =>
    rw [h1] at hr
    cases h2 : fs'.read file with
    | none => rw [h2] at hr; cases hr
    | some doc' =>
      cases h3 : fs.mtime file with
      | none =>
        rw [h3] at hm
        cases h4 : fs'.mtime file with
        | none => exact .ret rfl
        | some d' => rw [h4] at hm; cases hm
      | some m =>
        rw [h3] at hm
        cases h4 : fs'.mtime file with
        | none => rw [h4] at hm; cases hm
        | some m' =>
          have hd := h.doc file doc doc' h1 h2
          have : (doc.json = none ∧ doc'.json = none) ∨
              ∃ j j', doc.json = some j ∧ doc'.json = some j' ∧ TsSame j j' := by
            have := hd.json
            cases h5 : doc.json with
            | none =>
              cases h6 : doc'.json with
              | none => exact .inl ⟨rfl, rfl⟩
              | some j' => rw [h5, h6] at this; cases this
            | some j =>
              cases h6 : doc'.json with
              | none => rw [h5, h6] at this; cases this
              | some j' =>
                rw [h5, h6] at this
                exact .inr ⟨j, j', rfl, rfl, Option.some.inj this⟩
          rcases this with ⟨h5, h6⟩ | ⟨j, j', h5, h6, h7⟩
          · simp only [h5, h6]; exact .ret rfl
          · obtain ⟨l, hl⟩ := browserFields_ok (hd.noTrue j h5)
            obtain ⟨l', hl'⟩ := browserFields_ok (hd.noTrue' j' h6)
            have hse : parseSideEffects file j' = parseSideEffects file j := by
              unfold parseSideEffects
              rw [h7.get (k := cs!"sideEffects") (by decide)]
            simp only [h5, h6, hl, hl', ← h7.get (k := cs!"exports") (by decide),
              ← h7.get (k := cs!"imports") (by decide), ← h7.get (k := cs!"name") (by decide),
              ← h7.get (k := cs!"version") (by decide), hse]
            repeat' split
            all_goals first
              | exact .panic _
              | exact .ret rfl
              | exact .ret ⟨fun f hf => h7.get hf, rfl⟩

/-- The same for what is found. -/
def FindBut : Except Err (Option Pkg) → Except Err (Option Pkg) → Prop
  | .ok none, .ok none => True
  | .ok (some p), .ok (some q) => PkgBut p q
  | .error e, .error e' => e = e'
  | _, _ => False

theorem findPkg_but {G : Op → Prop} {R : (o : Op) → o.Ret → Prop} (h : BrowserOnly fs fs') (desc : Option Str) (p : Str) :
    (findPkg fs desc p).Rel G R FindBut (findPkg fs' desc p) := by
  unfold findPkg
  cases desc with
  | none => exact .ret trivial
  | some desc =>
    simp only
    have hc : closest fs' desc p = closest fs desc p := by
      unfold closest
      rw [h.file, h.dir]
    rw [hc]
    cases closest fs desc p with
    | none => exact .ret trivial
    | some d =>
      refine (readPkg_but h d _).bind fun a b hab => ?_
      cases a <;> cases b
      · exact .ret hab
      · exact (hab : False).elim
      · exact (hab : False).elim
      · exact .ret hab

/-- Looking for a package never performs an operation. -/
theorem findPkg_cases (fs : Fs) (desc : Option Str) (p : Str) :
    (∃ a, findPkg fs desc p = .ret a) ∨ ∃ c, findPkg fs desc p = .crash c := by
  unfold findPkg
  cases desc with
  | none => exact .inl ⟨_, rfl⟩
  | some desc =>
    simp only
    cases closest fs desc p with
    | none => exact .inl ⟨_, rfl⟩
    | some d =>
      simp only
      rcases readPkg_cases fs d (pjoin d desc) with ⟨a, h⟩ | ⟨c, h⟩
      · rw [h]
        cases a <;> exact .inl ⟨_, rfl⟩
      · rw [h]; exact .inr ⟨c, rfl⟩

theorem Prog.Rel.then {α β γ : Type} {G : Op → Prop} {R : (o : Op) → o.Ret → Prop}
    {Q : α → β → Prop} {Q' : β → γ → Prop} {Q'' : α → γ → Prop} {p : Prog α} {q : Prog β} {r : Prog γ}
    (h : p.Rel G R Q q) (hq : (∃ a, q = .ret a) ∨ ∃ c, q = .crash c)
    (h' : q.Rel G R Q' r) (hr : (∃ a, r = .ret a) ∨ ∃ c, r = .crash c)
    (hQ : ∀ a b c, Q a b → Q' b c → Q'' a c) : p.Rel G R Q'' r := by
  induction h with
  | @ret a b h =>
    rcases hr with ⟨c, rfl⟩ | ⟨c, rfl⟩
    · cases h' with
      | ret h' => exact .ret (hQ _ _ _ h h')
    · cases h'
  | crash c =>
    rcases hr with ⟨d, rfl⟩ | ⟨d, rfl⟩
    · cases h'
    · cases h'; exact .crash _
  | left hg _ ih => exact .left hg fun r hr => ih r hr hq h'
  | both hg _ _ => rcases hq with ⟨a, h⟩ | ⟨c, h⟩ <;> cases h

theorem browserOff_ctxSim {o : Opts} (debug : Bool) (hfs : fs.Lawful) (hfs' : fs'.Lawful)
    (h : BrowserOnly fs fs') (hb : o.browserField = false) (hm : cs!"browser" ∉ o.mainFields)
    {G : Op → Prop} {R : (o : Op) → o.Ret → Prop} :
    CtxSim (opSys G R) (pureCtx o fs debug) (pureCtx o fs' debug) where
  opts := rfl
  debug := rfl
  isFile p q ha hs := by
    show fs.isFile p = fs'.isFile q
    rw [← h.file]; exact hfs.file p q ha hs
  isDir p q ha hs := by
    show fs.isDir p = fs'.isDir q
    rw [← h.dir]; exact hfs.dir p q ha hs
  pathExists p q ha hs := by
    show fs.pathExists p = fs'.pathExists q
    rw [← h.pathExists]; exact hfs.pathExists p q ha hs
  canon p q ha hs := by
    show fs.canon p = fs'.canon q
    rw [← h.canon]; exact hfs.canon p q ha hs
  jsonc _ p q ha hs := by
    show (fs.read p).map _ = (fs'.read q).map _
    rw [hfs.read p q ha hs]
    cases h1 : fs.read q with
    | none =>
      have := h.read q
      rw [h1] at this
      cases h2 : fs'.read q with
      | none => rfl
      | some d => rw [h2] at this; cases this
    | some d =>
      have := h.read q
      rw [h1] at this
      cases h2 : fs'.read q with
      | none => rw [h2] at this; cases this
      | some d' =>
        show some (tsView d) = some (tsView d')
        exact congrArg some (h.doc q d d' h1 h2).jsonc
  dirNotFile := hfs.dirNotFile
  dirNotFile' := hfs'.dirNotFile
  load p q ha hs := by
    have h1 := (pure_ctxSim (o := o) debug hfs (fun h => by cases hb.symm.trans h)
      (G := G) (R := R)).load p q ha hs
    refine Prog.Rel.then h1 (findPkg_cases ..) (findPkg_but h _ _) (findPkg_cases ..) ?_
    intro a b c hab hbc
    cases a with
    | error e =>
      cases b with
      | ok b => exact (hab : False).elim
      | error e' =>
        cases c with
        | error e'' =>
          obtain rfl : e' = e'' := hbc
          exact hab
        | ok c => exact (hbc : False).elim
    | ok a =>
      cases b with
      | error e => exact (hab : False).elim
      | ok b =>
        cases c with
        | error e => cases b <;> exact (hbc : False).elim
        | ok c =>
          cases b with
          | none =>
            cases c with
            | some c => exact (hbc : False).elim
            | none =>
              cases a with
              | none => trivial
              | some a => exact (hab : False).elim
          | some b =>
            cases c with
            | none => exact (hbc : False).elim
            | some c =>
              cases a with
              | none => exact (hab : False).elim
              | some a =>
                obtain ⟨e1, e2⟩ : PkgBut b c := hbc
                have hab : PkgRel (pureCtx o fs debug) (pureCtx o fs debug) a b := hab
                refine ⟨?_, hab.abs, hab.isDir, ?_, ?_, ?_, fun f hf => ?_, fun h => ?_⟩
                · rw [e2]; exact hab.dir
                · rw [e2]; exact hab.name
                · rw [e2]; exact hab.exports
                · rw [e2]; exact hab.imports
                · rw [← e1 f (fun e => hm (e ▸ hf))]; exact hab.main f hf
                · cases hb.symm.trans h

/-- An end of the one is an end of the other. -/
theorem Prog.Rel.ends_any {α β : Type} {G : Op → Prop} {Q : α → β → Prop} {p : Prog α} {q : Prog β}
    (h : p.Rel G (fun _ _ => True) Q q) {o : Outcome α} (hp : p.Ends o) :
    ∃ o', q.Ends o' ∧ o.Like Q o' := by
  induction h generalizing o with
  | ret h => cases hp; exact ⟨_, .ret _, h⟩
  | crash c => cases hp; exact ⟨_, .crash c, rfl⟩
  | left _ _ ih =>
    cases hp with
    | op r hp => exact ih r trivial hp
  | both _ _ ih =>
    cases hp with
    | op r hp =>
      obtain ⟨o', h1, h2⟩ := ih r trivial hp
      exact ⟨o', .op r h1, h2⟩

/-- The calls without caches. -/
theorem browserOff_call {cfg : Config} (hfs : fs.Lawful) (hfs' : fs'.Lawful)
    (h : BrowserOnly fs fs') (hb : cfg.opts.browserField = false)
    (hm : cs!"browser" ∉ cfg.opts.mainFields) (hts : ∀ l, cfg.opts.tsconfig = some l → isAbs l = true)
    {call : Call} (hc : call.abs) (n : Nat) :
    (call.pure cfg fs n).Rel (fun _ => True) (fun _ _ => True) Answer.Sim (call.pure cfg fs' n) := by
  cases call with
  | resolve path request =>
    exact Prog.Rel.bind (resolveCtx_rel (browserOff_ctxSim (G := fun _ => True) (R := fun _ _ => True) cfg.debug hfs hfs' h hb hm)
      (fun _ => trivial) n path request hc hts) fun a b hab => .ret hab
  | sideEffects path =>
    refine Prog.Rel.bind (Q := SideSim) ?_ fun a b hab => .ret hab
    unfold findSideEffects
    refine (findPkg_but h _ path).bind fun a b hab => ?_
    cases a with
    | error e =>
      cases b with
      | error e' =>
        obtain rfl : e = e' := hab
        exact .ret (.refl _)
      | ok b => exact (hab : False).elim
    | ok a =>
      cases b with
      | error e => cases a <;> exact (hab : False).elim
      | ok b =>
        cases a with
        | none =>
          cases b with
          | none => exact .ret trivial
          | some b => exact (hab : False).elim
        | some a =>
          cases b with
          | none => exact (hab : False).elim
          | some b =>
            obtain ⟨-, e2⟩ : PkgBut a b := hab
            refine .ret ⟨?_, ?_⟩
            · rw [e2]
            · rw [e2]

end Verif
