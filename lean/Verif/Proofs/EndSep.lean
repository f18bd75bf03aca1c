import Verif.Proofs.Named
import Verif.Spec.EndSep
import Verif.Proofs.Lawful
/-!
# Paths that differ in a separator at the end: proofs
-/

namespace Verif

/-- The request in progress is another one. -/
def Stats.putBack (info : Info) : Stats → Stats
  | .resolving _ => .resolving info
  | .success r => .success r
  | .error e i => .error e i

theorem mainFileLoop_info (c : Ctx) (n : Nat) (pkg : Option Pkg) (i j : Info) (l : List Str) (a : Info) :
    mainFileLoop c n pkg i l a = (mainFileLoop c n pkg j l a).bind fun s => .ret (s.putBack i) := by
  induction l generalizing a with
  | nil => rfl
  | cons m l ih =>
    unfold mainFileLoop
    dsimp only
    conv => rhs; rw [Prog.bind_assoc]
    refine congrArg (Prog.bind _) ?_
    funext s
    cases s with
    | success r => rfl
    | resolving k => exact ih k
    | error e k => exact ih k

theorem mainFieldLoop_info (c : Ctx) (n : Nat) (f : Info → Prog Stats) (pkg : Pkg) (i j : Info) (l : List Str)
    (a : Info) :
    mainFieldLoop c n f pkg i l a = (mainFieldLoop c n f pkg j l a).bind fun s => .ret (s.putBack i) := by
  induction l generalizing a with
  | nil => rfl
  | cons m l ih =>
    unfold mainFieldLoop
    split
    · exact ih a
    · split
      · rfl
      · dsimp only
        conv => rhs; rw [Prog.bind_assoc]
        refine congrArg (Prog.bind _) ?_
        funext s
        cases s with
        | success r => rfl
        | resolving k => exact ih k
        | error e k => exact ih k

/-- Related results; what is still in progress is given. -/
def EndS (i j : Info) : Stats → Stats → Prop
  | .success (.info a), .success (.info b) => RS a b
  | .success .ignored, .success .ignored => True
  | .resolving a, .resolving b => a = i ∧ b = j
  | .error e _, .error e' _ => ErrSim e e'
  | _, _ => False

theorem SRel.putBack {s t : Stats} (h : SRel s t) (i j : Info) : EndS i j (s.putBack i) (t.putBack j) := by
  cases s with
  | success r =>
    cases t with
    | success r' => cases r <;> cases r' <;> exact h
    | resolving _ => cases r <;> exact (h : False).elim
    | error _ _ => cases r <;> exact (h : False).elim
  | resolving _ =>
    cases t with
    | resolving _ => exact ⟨rfl, rfl⟩
    | success _ => exact (h : False).elim
    | error _ _ => exact (h : False).elim
  | error _ _ =>
    cases t with
    | error _ _ => exact h.1
    | success _ => exact (h : False).elim
    | resolving _ => exact (h : False).elim

section
variable {S : RelSys} {c c' : Ctx}

/-- A directory, with and without a separator at the end. -/
theorem resolveAsDir_end (hc : CtxSim S c c') (n : Nat) {i j : Info} (hr : i.request = j.request)
    (hp : comps i.getPath = comps j.getPath) (ha : isAbs i.getPath = true) :
    (resolveAsDir c n i).RelBy S NS (resolveAsDir c' n j) := by
  cases n with
  | zero => exact .crash _
  | succ n =>
    unfold resolveAsDir
    simp only [← hc.isDir _ _ ha hp]
    split
    · exact .ret (.refl _)
    · refine (hc.load _ _ ha hp).bind ?_
      intro a b hab
      cases a with
      | error e =>
        cases b with
        | error e' => exact .ret hab
        | ok q => exact (hab : False).elim
      | ok p =>
        cases b with
        | error e' => exact (hab : False).elim
        | ok q =>
          have hp' : OPkgRel c c' p q := hab
          have hw : RW ((i.withPath i.getPath).withTarget []) ((j.withPath j.getPath).withTarget []) :=
            ⟨by simp [Info.withTarget, Info.withPath, hr], hp, ha⟩
          generalize (i.withPath i.getPath).withTarget [] = i' at hw
          generalize (j.withPath j.getPath).withTarget [] = j' at hw
          have hz : RI i' i' := ⟨rfl, rfl, hw.2.2, .inl rfl⟩
          refine Prog.RelBy.bind (Q := EndS i' j') ?_ fun s t hs => ?_
          · unfold mainFieldPlugin
            cases p with
            | none =>
              cases q with
              | none => exact .ret ⟨rfl, rfl⟩
              | some q => exact (hp' : False).elim
            | some p =>
              cases q with
              | none => exact (hp' : False).elim
              | some q =>
                have hp' : PkgRel c c' p q := hp'
                have e : pathEq j'.path q.absDir = pathEq i'.path p.absDir := by
                  unfold pathEq
                  rw [hp'.dir, hw.2.1]
                simp only [e, ← hc.opts]
                split
                · exact .ret ⟨rfl, rfl⟩
                · rw [mainFieldLoop_info c n _ p i' i', mainFieldLoop_info c' n _ q j' i']
                  refine (mainFieldLoop_rel hc n (fun i j hi => resolveAsDir_rel hc n hi) hp' hz _
                    (fun _ hx => hx) hw).bind fun s t hs => ?_
                  exact .ret (hs.putBack i' j')
          · cases s with
            | success r =>
              cases t with
              | success r' => cases r <;> cases r' <;> exact .ret hs
              | resolving _ => cases r <;> exact (hs : False).elim
              | error _ _ => cases r <;> exact (hs : False).elim
            | error _ _ =>
              cases t with
              | error _ _ => exact .ret hs
              | success _ => exact (hs : False).elim
              | resolving _ => exact (hs : False).elim
            | resolving _ =>
              cases t with
              | error _ _ => exact (hs : False).elim
              | success _ => exact (hs : False).elim
              | resolving _ =>
                rw [hs.1, hs.2]
                dsimp only [Stats.andThen]
                unfold mainFilePlugin
                rw [← hc.opts, mainFileLoop_info c n p _ i', mainFileLoop_info c' n q _ i']
                refine (mainFileLoop_rel hc n hp' hz _ hw).bind fun s t hs => .ret ?_
                have := hs.putBack i' j'
                revert this
                cases s <;> cases t <;> first
                  | exact fun h => (h : False).elim
                  | skip
                · rename_i r r'
                  cases r <;> cases r' <;> exact id
                · rename_i r _
                  cases r <;> exact fun h => (h : False).elim
                · rename_i r _ _
                  cases r <;> exact fun h => (h : False).elim
                · exact fun _ => trivial
                · exact id

/-- A request by path that names no file, with and without a separator at the end. -/
theorem afterAlias_end (hc : CtxSim S c c') (hb : c.opts.browserField = false) (n : Nat) {i j : Info}
    (hi : PathReq i.request) (hr : i.request = j.request)
    (hp : comps i.getPath = comps j.getPath) (ha : isAbs i.getPath = true)
    (hf : resolveAsFile c i = .resolving i) (hf' : resolveAsFile c' j = .resolving j) :
    (afterAlias c n i).RelBy S NS (afterAlias c' n j) := by
  have hj : PathReq j.request := hr ▸ hi
  have off : ∀ (d : Ctx), d.opts.browserField = false → ∀ pkg (k : Info),
      aliasFieldPlugin d n pkg k = .ret (.resolving k) := by
    intro d hd pkg k
    unfold aliasFieldPlugin
    rw [hd]
    rfl
  have last : ∀ (d : Ctx) (k : Info), PathReq k.request → resolveAsFile d k = .resolving k →
      lastStage d n k = resolveAsDir d n k := by
    intro d k hk hf
    unfold lastStage
    rw [hf]
    rcases hk.1 with h | h | h <;> rw [h] <;> rfl
  unfold afterAlias pkgStage
  dsimp only
  rw [if_neg hi.kind, if_neg hj.kind]
  refine Prog.RelBy.bind (Q := fun s t => NS s t ∧ ∀ a b, s = .resolving a → t = .resolving b → a = i ∧ b = j) ?_ ?_
  · refine (hc.load _ _ ha hp).bind fun a b hab => ?_
    cases a with
    | error e =>
      cases b with
      | error e' => exact .ret ⟨hab, nofun⟩
      | ok q => exact (hab : False).elim
    | ok p =>
      cases b with
      | error e' => exact (hab : False).elim
      | ok q =>
        dsimp only
        cases n with
        | zero => exact .crash _
        | succ n =>
          rw [hi.imports, hj.imports]
          simp only [Prog.bind, Stats.andThen, off c hb, off c' (hc.opts ▸ hb)]
          exact .ret ⟨trivial, fun a b h h' => ⟨(Stats.resolving.inj h).symm, (Stats.resolving.inj h').symm⟩⟩
  · rintro s t ⟨hs, hij⟩
    cases s with
    | success r =>
      cases t with
      | success r' => cases r <;> cases r' <;> exact .ret hs
      | resolving _ => cases r <;> exact (hs : False).elim
      | error _ _ => cases r <;> exact (hs : False).elim
    | error _ _ =>
      cases t with
      | error _ _ => exact .ret hs
      | success _ => exact (hs : False).elim
      | resolving _ => exact (hs : False).elim
    | resolving _ =>
      cases t with
      | error _ _ => exact (hs : False).elim
      | success _ => exact (hs : False).elim
      | resolving _ =>
        obtain ⟨rfl, rfl⟩ := hij _ _ rfl rfl
        dsimp only [Stats.andThen]
        rw [last c _ hi hf, last c' _ hj hf']
        exact resolveAsDir_end hc n hr hp ha

end

theorem namedPath_target (p t : Str) : namedPath p t = targetPath p t := by
  rw [namedPath_pjoin]
  rfl

theorem resolveCtx_directory {c : Ctx} (hc : CtxSim (opSys (fun _ => True) (fun _ _ => True)) c c)
    (hts : c.opts.tsconfig = none) (hb : c.opts.browserField = false) (n : Nat) {p request q request' : Str}
    (h : SameDirectory c.opts c.fs p request q request') :
    (resolveCtx c n p request).Linked (SameReply p request q request') (resolveCtx c n q request') := by
  refine resolveCtx_around hc hts n h.direct h.direct' fun n => afterAlias_around n h.left.pathReq h.right.pathReq ?_
  have none : ∀ p request, (∀ x ∈ fileCandidates c.opts (namedPath p (parseRequest request).target),
      c.fs.isFile x = false) → resolveAsFile c (Info.mk p (parseRequest request)).itself =
        .resolving (Info.mk p (parseRequest request)).itself := by
    intro p request hx
    refine resolveAsFile_none ?_
    rw [namedPath_getPath] at hx
    exact hx
  refine (afterAlias_end hc hb n (.inr (.inr rfl) |> fun h => ⟨h, rfl⟩) ?_ ?_ ?_ (none p request h.noFile)
    (none q request' h.noFile')).linked fun _ _ => id
  · simp only [Info.itself, h.query, h.fragment]
  · show comps (Info.mk p (parseRequest request)).getPath = comps (Info.mk q (parseRequest request')).getPath
    rw [← namedPath_getPath, ← namedPath_getPath]
    exact h.path
  · show isAbs (Info.mk p (parseRequest request)).getPath = true
    rw [← namedPath_getPath]
    exact namedPath_abs h.abs _

theorem Fs.Solid.candidates {fs : Fs} (hf : fs.Solid) {o : Opts} {d : Str} (ha : isAbs (d ++ cs!"/") = true) (hd : fs.isDir (d ++ cs!"/") = false) :
    ∀ x ∈ fileCandidates o (d ++ cs!"/"), fs.isFile x = false := by
  intro x hx
  cases hfile : fs.isFile x with
  | false => rfl
  | true =>
    have : ∃ r, x = d ++ '/' :: r := by
      unfold fileCandidates at hx
      rcases List.mem_append.1 hx with h | h
      · split at h
        · cases h
        · exact ⟨[], List.mem_singleton.1 h⟩
      · obtain ⟨e, -, rfl⟩ := List.mem_map.1 h
        exact ⟨e, by simp⟩
    obtain ⟨r, rfl⟩ := this
    rw [hf d r ha hfile] at hd
    cases hd

/-- A tree is solid. -/
theorem treeFs_solid (t : Tree) (cwd : List Str) : (treeFs t cwd).Solid := by
  intro d r ha h
  have key : ∀ (A : List Str) (B : List Str) (loc l : List Str), B ≠ [] → t.reach loc (A ++ B) = some l →
      ∃ l', t.reach loc (A ++ [[]]) = some l' ∧ t.dirAt l' = true := by
    intro A
    induction A with
    | nil =>
      intro B loc l hB h
      cases B with
      | nil => exact (hB rfl).elim
      | cons x B =>
        rw [List.nil_append, Tree.reach_cons] at h
        split at h
        · next hd =>
          refine ⟨loc, ?_, hd⟩
          rw [List.nil_append, Tree.reach_cons, if_pos hd]
          show t.reach loc [] = _
          unfold Tree.reach
          have : (t.at loc).isSome = true := by
            unfold Tree.dirAt at hd
            cases h : t.at loc with
            | none => rw [h] at hd; cases hd
            | some u => rfl
          rw [if_pos this]
        · cases h
    | cons a A ih =>
      intro B loc l hB h
      rw [List.cons_append, Tree.reach_cons] at h
      split at h
      · next hd =>
        obtain ⟨l', h1, h2⟩ := ih B _ l hB h
        exact ⟨l', by rw [List.cons_append, Tree.reach_cons, if_pos hd]; exact h1, h2⟩
      · cases h
  have ha' : isAbs (d ++ '/' :: r) = true := by cases d <;> exact ha
  cases hl : t.lookup cwd (d ++ '/' :: r) with
  | none => simp [treeFs, Tree.node, hl] at h
  | some loc =>
    unfold Tree.lookup at hl
    rw [if_neg (by simp), if_pos ha', splitC_append_sep] at hl
    obtain ⟨l', h1, h2⟩ := key _ _ _ _ (splitC_ne_nil _ _) hl
    have : t.lookup cwd (d ++ cs!"/") = some l' := by
      unfold Tree.lookup
      rw [if_neg (by simp), if_pos ha, splitC_append_sep]
      exact h1
    simp only [treeFs, Tree.node, this]
    unfold Tree.dirAt at h2
    revert h2
    cases t.at l' with
    | none => exact fun h => h
    | some u => cases u <;> exact fun h => h

/-- A request by path that names neither a file nor a directory does not succeed, whatever the caches answer. -/
theorem resolve_nothing {e : Env} (hb : e.opts.browserField = false) (hts : e.opts.tsconfig = none) {p request : Str}
    (hk : ByPath (parseRequest request).target) (hd : Direct e.opts p (parseRequest request).target)
    (hdir : e.fs.isDir (namedPath p (parseRequest request).target) = false)
    (hf : ∀ x ∈ fileCandidates e.opts (namedPath p (parseRequest request).target), e.fs.isFile x = false)
    {n : Nat} {r : Result} (h : (resolve e n p request).Returns (.ok r)) : False := by
  cases n with
  | zero => unfold resolve resolveCtx resolveStats at h; rw [show e.ctx.opts.tsconfig = none from hts] at h; cases h
  | succ n =>
  rw [resolve_plain e n p request hts (hd.alias.imp_left (containsStr_iff _ _).2) hd.prefer] at h
  obtain ⟨s, hs, h⟩ := Prog.returns_bind h
  have hk' := hk.pathReq
  obtain ⟨s', hs', hs⟩ := Prog.returns_bind hs
  have h1 : (∃ err, s' = .error err ⟨p, parseRequest request⟩) ∨ s' = .resolving ⟨p, parseRequest request⟩ := by
    unfold pkgStage at hs'
    dsimp only at hs'
    rw [if_neg hk'.kind] at hs'
    obtain ⟨a, -, hs'⟩ := Prog.returns_bind hs'
    cases a with
    | error err => cases hs'; exact .inl ⟨_, rfl⟩
    | ok pkg =>
      cases n with
      | zero => cases hs'
      | succ n =>
        dsimp only at hs'
        rw [hk'.imports] at hs'
        have off : aliasFieldPlugin e.ctx (n + 1) pkg ⟨p, parseRequest request⟩ =
            .ret (.resolving ⟨p, parseRequest request⟩) := by
          unfold aliasFieldPlugin
          rw [show e.ctx.opts.browserField = false from hb]
          rfl
        simp only [Prog.bind, Stats.andThen, off] at hs'
        cases hs'
        exact .inr rfl
  rcases h1 with ⟨err, rfl⟩ | rfl
  · cases hs
    cases h
  · have hfile : resolveAsFile e.ctx ⟨p, parseRequest request⟩ = .resolving ⟨p, parseRequest request⟩ :=
      resolveAsFile_none (by rw [namedPath_target] at hf; exact hf)
    have hlast : lastStage e.ctx n ⟨p, parseRequest request⟩ = resolveAsDir e.ctx n ⟨p, parseRequest request⟩ := by
      unfold lastStage
      rw [hfile]
      rcases hk'.1 with h | h | h <;> rw [h] <;> rfl
    dsimp only [Stats.andThen] at hs
    rw [hlast] at hs
    cases n with
    | zero => cases hs
    | succ n =>
      unfold resolveAsDir at hs
      rw [namedPath_getPath] at hdir
      dsimp only at hs
      rw [if_pos (by show (!e.fs.isDir _) = true; rw [hdir]; rfl)] at hs
      cases hs
      cases h

end Verif
