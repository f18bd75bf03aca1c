import Verif.Proofs.Base
import Verif.Proofs.BrowserOff
import Verif.Proofs.Kind
import Verif.Props.Request
import Verif.Proofs.Parse
import Verif.Proofs.Yields
import Verif.Proofs.Changes
/-!
# Requests for the same path
-/

namespace Verif

section
variable {S : RelSys} {c c' : Ctx}

theorem afterAlias_rel (hc : CtxSim S c c') (n : Nat) {i j : Info} (h : RI i j) :
    (afterAlias c n i).RelBy S SRel (afterAlias c' n j) := by
  unfold afterAlias
  refine Prog.RelBy.bind (Q := SRel) ?_ fun s t hs => ?_
  · unfold pkgStage
    simp only [← h.1]
    have hload : (c.load (if i.request.kind = .normal then
          pjoin (pjoin i.path MODULE) i.request.target else i.getPath)).RelBy S (LoadRel c c')
        (c'.load (if i.request.kind = .normal then
          pjoin (pjoin j.path MODULE) i.request.target else j.getPath)) := by
      split
      · have h1 := isAbs_pjoin_left MODULE h.2.2.1
        exact hc.load _ _ (isAbs_pjoin_left _ h1) (sim_pjoin h1 (sim_pjoin h.2.2.1 h.2.1 _).1 _).1
      · exact hc.load _ _ h.getPath.2 h.getPath.1.1
    refine hload.bind ?_
    intro a b hab
    cases a with
    | error e =>
      cases b with
      | error e' => exact .ret ⟨hab, h.weak⟩
      | ok q => exact (hab : False).elim
    | ok p =>
      cases b with
      | error e' => exact (hab : False).elim
      | ok q =>
        have hp : OPkgRel c c' p q := hab
        refine (importsPlugin_rel hc n hp h).bind fun s t hs => ?_
        exact hs.andThen fun i j hi => aliasFieldPlugin_rel hc n hp hi
  refine hs.andThen fun i j hi => ?_
  unfold lastStage
  rw [← hi.1]
  split
  · exact (resolveAsFile_rel hc hi).andThen fun i j hi => resolveAsDir_rel hc n hi
  · exact (resolveAsFile_rel hc hi).andThen fun i j hi => resolveAsDir_rel hc n hi
  · exact (resolveAsFile_rel hc hi).andThen fun i j hi => resolveAsDir_rel hc n hi
  · exact resolveAsModules_rel hc n hi

end

/-- Whatever the one ends with, the other can end with something related. -/
def Prog.Linked {α β : Type} (Q : α → β → Prop) (p : Prog α) (q : Prog β) : Prop :=
  ∀ x, p.Ends x → ∃ y, q.Ends y ∧ x.Like Q y

variable {α β γ δ : Type}

theorem Prog.Linked.bind {Q : α → β → Prop} {Q' : γ → δ → Prop} {p : Prog α} {q : Prog β}
    {f : α → Prog γ} {g : β → Prog δ} (h : p.Linked Q q) (hfg : ∀ a b, Q a b → (f a).Linked Q' (g b)) :
    (p.bind f).Linked Q' (q.bind g) := by
  intro x hx
  rcases hx.of_bind with ⟨a, h1, h2⟩ | ⟨c, h1, rfl⟩
  · obtain ⟨y, h3, h4⟩ := h _ h1
    cases y with
    | crashed c => exact (h4 : False).elim
    | done b =>
      obtain ⟨z, h5, h6⟩ := hfg a b h4 x h2
      exact ⟨z, h3.bind h5, h6⟩
  · obtain ⟨y, h3, h4⟩ := h _ h1
    cases y with
    | done b => exact (h4 : False).elim
    | crashed c' =>
      cases (h4 : c = c')
      exact ⟨_, h3.bind_crash, rfl⟩

theorem Prog.Linked.trans {Q : α → β → Prop} {Q' : β → γ → Prop} {p : Prog α} {q : Prog β} {r : Prog γ}
    (h : p.Linked Q q) (h' : q.Linked Q' r) : p.Linked (fun a c => ∃ b, Q a b ∧ Q' b c) r := by
  intro x hx
  obtain ⟨y, h1, h2⟩ := h x hx
  obtain ⟨z, h3, h4⟩ := h' y h1
  refine ⟨z, h3, ?_⟩
  cases x <;> cases y <;> cases z <;> first
    | exact (h2 : False).elim
    | exact (h4 : False).elim
    | exact ⟨_, h2, h4⟩
    | exact Eq.trans h2 h4

theorem Prog.Linked.ret {Q : α → β → Prop} {a : α} {b : β} (h : Q a b) : (Prog.ret a).Linked Q (.ret b) := by
  intro x hx
  cases hx
  exact ⟨_, .ret _, h⟩

theorem Prog.Linked.crash {Q : α → β → Prop} (c : Crash) : (Prog.crash c : Prog α).Linked Q (.crash c) := by
  intro x hx
  cases hx
  exact ⟨_, .crash c, rfl⟩

/-- The request for the path itself. -/
def Info.itself (i : Info) : Info := ⟨i.getPath, ⟨[], i.request.query, i.request.fragment, .relative⟩⟩

theorem samePlace_itself {i : Info} (h : PathReq i.request) : SamePlace i i.itself :=
  ⟨rfl, rfl, rfl, h, .inr (.inr rfl), rfl⟩

/-- The same state, but for the message and the request that is in progress. -/
def NS : Stats → Stats → Prop
  | .success (.info i), .success (.info j) => RS i j
  | .success .ignored, .success .ignored => True
  | .resolving _, .resolving _ => True
  | .error e _, .error e' _ => ErrSim e e'
  | _, _ => False

theorem SamePlace.symm {i j : Info} (h : SamePlace i j) : SamePlace j i :=
  ⟨h.path.symm, h.query.symm, h.fragment.symm, h.right, h.left⟩

theorem SRel.ns {s t : Stats} (h : SRel s t) : NS s t := by
  cases s with
  | success r =>
    cases t with
    | success r' => cases r <;> cases r' <;> exact h
    | resolving _ => cases r <;> exact (h : False).elim
    | error _ _ => cases r <;> exact (h : False).elim
  | resolving _ => cases t <;> first | trivial | exact (h : False).elim
  | error _ _ => cases t <;> first | exact h.1 | exact (h : False).elim

theorem afterAlias_around {c : Ctx} (n : Nat) {i j : Info} (hi : PathReq i.request) (hj : PathReq j.request)
    (h2 : (afterAlias c n i.itself).Linked NS (afterAlias c n j.itself)) :
    (afterAlias c n i).Linked NS (afterAlias c n j) := by
  have h1 : (afterAlias c n i).Linked TS (afterAlias c n i.itself) :=
    fun x hx => (afterAlias_twin c n (.inr (samePlace_itself hi))).ends hx
  have h3 : (afterAlias c n j.itself).Linked TS (afterAlias c n j) :=
    fun x hx => (afterAlias_twin c n (.inr (samePlace_itself hj).symm)).ends hx
  intro x hx
  obtain ⟨z, hz, hxz⟩ := (h1.trans (h2.trans h3)) x hx
  refine ⟨z, hz, ?_⟩
  cases x with
  | crashed c =>
    cases z with
    | crashed c' => exact hxz
    | done b => exact (hxz : False).elim
  | done a =>
    cases z with
    | crashed c' => exact (hxz : False).elim
    | done d =>
      obtain ⟨b, hab, b', hbb, hbd⟩ := hxz
      show NS a d
      cases a <;> cases b <;> first
        | exact (hab : False).elim
        | skip
      · have hab : _ = _ := hab
        subst hab
        cases b' with
        | success r =>
          cases d with
          | success r' => cases (hbd : r = r'); rename_i r0; cases r0 <;> cases r <;> exact hbb
          | resolving _ => exact (hbd : False).elim
          | error _ _ => exact (hbd : False).elim
        | resolving _ => rename_i r0 _; cases r0 <;> exact (hbb : False).elim
        | error _ _ => rename_i r0 _ _; cases r0 <;> exact (hbb : False).elim
      · cases b' with
        | resolving _ =>
          cases d with
          | resolving _ => trivial
          | success _ => exact (hbd : False).elim
          | error _ _ => exact (hbd : False).elim
        | success _ => exact (hbb : False).elim
        | error _ _ => exact (hbb : False).elim
      · have hab : _ = _ := hab
        subst hab
        cases b' with
        | error e' _ =>
          cases d with
          | error e'' _ => cases (hbd : e' = e''); exact hbb
          | success _ => exact (hbd : False).elim
          | resolving _ => exact (hbd : False).elim
        | success _ => exact (hbb : False).elim
        | resolving _ => exact (hbb : False).elim

theorem Prog.RelBy.linked {α β : Type} {Q Q' : α → β → Prop} {p : Prog α} {q : Prog β}
    (h : p.RelBy (opSys (fun _ => True) (fun _ _ => True)) Q q) (hq : ∀ a b, Q a b → Q' a b) : p.Linked Q' q := by
  intro x hx
  obtain ⟨y, hy, hxy⟩ := Prog.Rel.ends_any (G := fun _ => True) h hx
  refine ⟨y, hy, ?_⟩
  cases x <;> cases y <;> first | exact hq _ _ hxy | exact hxy

theorem afterAlias_linked {c : Ctx}
    (hc : CtxSim (opSys (fun _ => True) (fun _ _ => True)) c c) (n : Nat) {i j : Info}
    (hi : PathReq i.request) (hj : PathReq j.request) (ha : isAbs i.getPath = true)
    (h : Sim i.getPath j.getPath) (hq : i.request.query = j.request.query)
    (hf : i.request.fragment = j.request.fragment) :
    (afterAlias c n i).Linked NS (afterAlias c n j) := by
  have hri : RI i.itself j.itself := ⟨by simp only [Info.itself, hq, hf], h.1, ha, .inl h.2⟩
  exact afterAlias_around n hi hj ((afterAlias_rel hc n hri).linked fun _ _ => SRel.ns)

theorem ByPath.pathReq {s : Str} (h : ByPath (parseRequest s).target) : PathReq (parseRequest s) := by
  have hn : startsWith (parseRequest s).target cs!"#" = false := by
    rcases h with (h | h | h | ⟨t, h⟩ | ⟨t, h⟩) | ⟨t, h⟩ <;>
      first | (rw [h]; rfl) | (rw [← h]; rfl)
  refine ⟨?_, hn⟩
  have hk : (parseRequest s).kind = getTargetKind (parseRequest s).target := rfl
  have hkind := (C03_kind s)
  rcases h with h | h
  · exact .inr (.inr (hkind.1.2 h))
  · exact .inl (hkind.2.2.1.2 h)

theorem Direct.unaliased {o : Opts} {p s : Str} (h : Direct o p (parseRequest s).target) :
    Unaliased o ⟨p, parseRequest s⟩ := by
  refine ⟨h.alias.imp (containsStr_iff _ _).2 ?_, h.prefer.imp_right ?_⟩
  · intro h kv hkv
    rw [Bool.eq_false_iff]
    exact fun e => h kv hkv (List.isPrefixOf_iff_prefix.1 e)
  · intro h
    exact h.symm.imp List.isPrefixOf_iff_prefix.2 List.isPrefixOf_iff_prefix.2

theorem namedPath_pjoin (p t : Str) :
    namedPath p t = if t = [] ∨ t = cs!"." then p else pjoin p t := by
  unfold namedPath pjoin isAbs endsWithC
  split
  · rfl
  · cases t with
    | nil => simp_all
    | cons c t =>
      by_cases hc : c = '/'
      · subst hc; simp [startsWith]
      · simp [startsWith, hc, Ne.symm hc]

theorem namedPath_getPath (p s : Str) :
    namedPath p (parseRequest s).target = (Info.mk p (parseRequest s)).getPath := by
  rw [namedPath_pjoin]
  unfold Info.getPath
  simp only [Bool.or_eq_true, decide_eq_true_eq]

theorem namedPath_abs {p : Str} (h : isAbs p = true) (t : Str) : isAbs (namedPath p t) = true := by
  rw [namedPath_pjoin]
  split
  · exact h
  · exact isAbs_pjoin_left _ h

/-- As `NS`, after the last word of `_resolve`. -/
def NF (p request q request' : Str) : Stats → Stats → Prop
  | .success (.info i), .success (.info j) => RS i j
  | .success .ignored, .success .ignored => True
  | .resolving _, .resolving _ => True
  | .error e _, .error e' _ => ErrSim e e' ∨ e = .failed request p ∧ e' = .failed request' q
  | _, _ => False

theorem failedMessage_parse (p s : Str) : failedMessage ⟨p, parseRequest s⟩ = .failed s p := by
  have hdisp : (parseRequest s).display = s := (parse_isSplit s).concat.symm
  simp only [failedMessage, hdisp]

theorem resolveCtx_around {c : Ctx}
    (hc : CtxSim (opSys (fun _ => True) (fun _ _ => True)) c c) (hts : c.opts.tsconfig = none) (n : Nat)
    {p request q request' : Str} (hd : Direct c.opts p (parseRequest request).target)
    (hd' : Direct c.opts q (parseRequest request').target)
    (h : ∀ n, (afterAlias c n ⟨p, parseRequest request⟩).Linked NS (afterAlias c n ⟨q, parseRequest request'⟩)) :
    (resolveCtx c n p request).Linked (SameReply p request q request') (resolveCtx c n q request') := by
  unfold resolveCtx resolveStats
  simp only [hts]
  refine Prog.Linked.bind (Q := NF p request q request') ?_ fun s t hs => ?_
  · cases n with
    | zero => exact .crash _
    | succ n =>
      rw [hd.unaliased.resolveInner, hd'.unaliased.resolveInner]
      refine (h n).bind fun s t hs => ?_
      cases s with
      | success r =>
        cases t with
        | success r' =>
          refine .ret ?_
          cases r <;> cases r' <;> exact hs
        | resolving j => cases r <;> exact (hs : False).elim
        | error e j => cases r <;> exact (hs : False).elim
      | resolving i =>
        cases t with
        | resolving j => exact .crash _
        | success r => exact (hs : False).elim
        | error e j => exact (hs : False).elim
      | error e i =>
        cases t with
        | error e' j =>
          have hs : ErrSim e e' := hs
          simp only [lastWord, ← hs.isTag, failedMessage_parse]
          refine .ret ?_
          cases e.isTag with
          | true => exact .inr ⟨rfl, rfl⟩
          | false => exact .inl hs
        | resolving j => exact (hs : False).elim
        | success r => exact (hs : False).elim
  · cases s with
    | success r =>
      cases t with
      | success r' =>
        cases r with
        | ignored =>
          cases r' with
          | ignored => exact .ret rfl
          | info j => exact (hs : False).elim
        | info i =>
          cases r' with
          | ignored => exact (hs : False).elim
          | info j =>
            obtain ⟨h1, h2, h3⟩ : RS i j := hs
            have e : normalizePath c j.path = normalizePath c i.path := by
              unfold normalizePath
              rw [← hc.canon _ _ h3 h2, normalizeLex_comps h2.1]
            simp only [normalizeResult, ← h1, e]
            split
            · exact .crash _
            · split
              · exact .ret (.inl (.refl _))
              · refine .ret ?_
                simp only [SameReply, Info.withPath, h1]
      | resolving j => cases r <;> exact (hs : False).elim
      | error e j => cases r <;> exact (hs : False).elim
    | resolving i' =>
      cases t with
      | resolving j' => exact .crash _
      | success r => exact (hs : False).elim
      | error e j => exact (hs : False).elim
    | error e i' =>
      cases t with
      | error e' j' =>
        refine .ret (hs.imp_right ?_)
        rintro ⟨rfl, rfl⟩
        exact ⟨.refl _, .refl _⟩
      | resolving j => exact (hs : False).elim
      | success r => exact (hs : False).elim

theorem resolveCtx_linked {c : Ctx}
    (hc : CtxSim (opSys (fun _ => True) (fun _ _ => True)) c c) (hts : c.opts.tsconfig = none) (n : Nat)
    {p request q request' : Str} (h : SameRequest c.opts p request q request') :
    (resolveCtx c n p request).Linked (SameReply p request q request') (resolveCtx c n q request') :=
  resolveCtx_around hc hts n h.direct h.direct' fun n => afterAlias_linked hc n h.left.pathReq h.right.pathReq
    (namedPath_getPath p request ▸ namedPath_abs h.abs _)
    (namedPath_getPath p request ▸ namedPath_getPath q request' ▸ h.path) h.query h.fragment

end Verif
