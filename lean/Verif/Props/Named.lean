import Verif.Proofs.Named
import Verif.Props.Base
/-!
# Properties about requests for the same path: C64
-/

namespace Verif

variable {cfg : Nat → Config} {ser : Json → Str} {fs : Fs}

/-- C64, one call in any state of the caches: requests for the same path, spelled alike once the directory
is put in front, end alike and leave the same state; only the message "Resolve … failed in …" differs.
Missing: tsconfig, `prefer_relative` with a request that does not begin with `./` or `../`, and aliases that
apply to either request (`C64_options_violated`). -/
theorem C64_state_partial (e : Env) (n : Nat) (p request q request' : Str)
    (hts : e.opts.tsconfig = none)
    (hpath : namedPath p (parseRequest request).target = namedPath q (parseRequest request').target)
    (hq : (parseRequest request).query = (parseRequest request').query)
    (hf : (parseRequest request).fragment = (parseRequest request').fragment)
    (hl : ByPath (parseRequest request).target) (hr : ByPath (parseRequest request').target)
    (hd : Direct e.opts p (parseRequest request).target)
    (hd' : Direct e.opts q (parseRequest request').target) (w : World) :
    ((resolve e n p request).run w).2 = ((resolve e n q request').run w).2 ∧
      (((resolve e n p request).run w).1 = ((resolve e n q request').run w).1 ∨
        ((resolve e n p request).run w).1 = .done (.error (.failed request p)) ∧
          ((resolve e n q request').run w).1 = .done (.error (.failed request' q))) := by
  rw [namedPath_getPath, namedPath_getPath] at hpath
  obtain ⟨h1, h2⟩ := (resolve_place e n hts ⟨hpath, hq, hf, hl.pathReq, hr.pathReq⟩ hd.unaliased
    hd'.unaliased).run w
  refine ⟨h2, ?_⟩
  revert h1
  generalize ((resolve e n p request).run w).1 = x
  generalize ((resolve e n q request').run w).1 = y
  intro h1
  cases x with
  | crashed c =>
    cases y with
    | crashed c' => cases (h1 : c = c'); exact .inl rfl
    | done b => exact (h1 : False).elim
  | done a =>
    cases y with
    | crashed c' => exact (h1 : False).elim
    | done b =>
      rcases h1 with rfl | ⟨rfl, rfl⟩
      · exact .inl rfl
      · rw [failedMessage_parse, failedMessage_parse]
        exact .inr ⟨rfl, rfl⟩

/-- Replies, in the answers to calls. -/
def Answer.SameReply (p request q request' : Str) : Answer → Answer → Prop
  | .resolve a, .resolve b => Verif.SameReply p request q request' a b
  | _, _ => False

theorem Answer.SameReply.sim {p request q request' : Str} {a b c d : Answer} (h : Answer.Sim a b)
    (h' : Answer.SameReply p request q request' b c) (h'' : Answer.Sim d c) :
    Answer.SameReply p request q request' a d := by
  cases a <;> cases b <;> cases c <;> cases d <;> first
    | exact (h : False).elim
    | exact (h' : False).elim
    | exact (h'' : False).elim
    | skip
  rename_i a b c d
  cases a <;> cases b <;> cases c <;> cases d <;> first
    | exact (h : False).elim
    | exact (h' : False).elim
    | exact (h'' : False).elim
    | skip
  · have h : ErrSim _ _ := h
    have h'' : ErrSim _ _ := h''
    rcases h' with h' | ⟨h1, h2⟩
    · exact .inl (h.trans (h'.trans h''.symm))
    · exact .inr ⟨h.trans h1, h''.trans h2⟩
  · have h : _ = _ := h
    have h' : _ = _ := h'
    have h'' : _ = _ := h''
    exact h.trans (h'.trans h''.symm)

/-- C64: requests for the same path, however the directories and the requests spell it, end alike in any
two histories. Missing: as for `C64_state_partial`; a separator at the end of one spelling of the path only
(`C64_end_violated`; see `C89_same_partial`); and what is missing in C33. -/
theorem C64_history_partial {cfg' : Nat → Config} (hs : Static cfg ser fs) (hs' : Static cfg' ser fs)
    (l l' : List Event) (hl : ∀ e ∈ l, e.calm) (hl' : ∀ e ∈ l', e.calm)
    (t t' : Task) (ht : t ∈ ((Sys.init fs).after cfg ser l).tasks)
    (ht' : t' ∈ ((Sys.init fs).after cfg' ser l').tasks)
    (hopts : (cfg t.rid).opts = (cfg' t'.rid).opts) (hts : (cfg t.rid).opts.tsconfig = none)
    {p request q request' : Str} (hc : t.call = .resolve p request) (hc' : t'.call = .resolve q request')
    (hsame : SameRequest (cfg t.rid).opts p request q request') (hfuel : t.fuel = t'.fuel)
    (o o' : Outcome Answer) (ho : t.prog.outcome = some o) (ho' : t'.prog.outcome = some o') :
    o.Like (Answer.SameReply p request q request') o' := by
  obtain ⟨x, h1, h2⟩ := static_ends hs hl ht ho
  obtain ⟨x', h1', h2'⟩ := static_ends hs' hl' ht' ho'
  have e : t'.call.pure (cfg' t'.rid) fs t'.fuel = t'.call.pure (cfg t.rid) fs t.fuel := by
    rw [← hfuel]
    unfold Call.pure
    rw [hopts, hs.debug t.rid, hs'.debug t'.rid]
  rw [e] at h1'
  have hts' : TsClear (cfg t.rid).opts fs t'.call := by
    rw [hc']
    intro loc h
    rw [hts] at h
    cases h
  obtain ⟨y, hy⟩ := call_sure hs t.rid hts' t.fuel
  have hlink : (t.call.pure (cfg t.rid) fs t.fuel).Linked (Answer.SameReply p request q request')
      (t'.call.pure (cfg t.rid) fs t.fuel) := by
    rw [hc, hc']
    exact Prog.Linked.bind (resolveCtx_linked (pure_ctxSim (G := fun _ => True) (R := fun _ _ => True) _ hs.lawful
      (fun hb desc hd => hs.browser t.rid desc hb hd)) hts t.fuel hsame) fun a b hab => .ret hab
  obtain ⟨x'', h3, h4⟩ := hlink _ h1
  rw [hy _ h1', ← hy _ h3] at h2'
  cases o <;> cases x <;> cases x'' <;> cases o' <;> first
    | exact (h2 : False).elim
    | exact (h4 : False).elim
    | exact (h2' : False).elim
    | exact Answer.SameReply.sim h2 h4 h2'
    | exact Eq.trans h2 (Eq.trans h4 (Eq.symm h2'))

/-- C64 does not hold with `prefer_relative`, an alias that applies to one spelling of the path, or a
tsconfig that maps it: `./a.js` from `/` is `/a.js`, but `/a.js` is `/p/a.js`. -/
theorem C64_options_violated :
    ∀ o ∈ [{ optsA with preferRelative := true },
        { optsA with alias := [(cs!"/a", .target cs!"/p/a")] },
        { optsA with tsconfig := some cs!"/tsconfig.json" }],
      ((resolve (treeEnv o treeTaken) 20 cs!"/" cs!"./a.js").freshInfo).map (·.path) = some cs!"/a.js" ∧
      ((resolve (treeEnv o treeTaken) 20 cs!"/p" cs!"/a.js").freshInfo).map (·.path) =
        some cs!"/p/a.js" := by
  decide +kernel

/-- C64 does not hold for a separator at the end: it decides whether an extension may be added. -/
theorem C64_end_violated :
    ((resolve (treeEnv optsA treeEnd) 20 cs!"/" cs!"./p").freshInfo).map (·.path) = some cs!"/p.js" ∧
      ((resolve (treeEnv optsA treeEnd) 20 cs!"/" cs!"/p/").freshInfo).map (·.path) =
        some cs!"/p/index.js" := by
  decide +kernel

-- the hypotheses of C64 are met: `./a` from `/p`, and `/p/a` from `/x`
example : namedPath cs!"/p" (parseRequest cs!"./a?q").target =
      namedPath cs!"/x" (parseRequest cs!"/p/./a?q").target ∧
    (parseRequest cs!"./a?q").query = cs!"?q" ∧
    ByPath (parseRequest cs!"./a?q").target ∧ ByPath (parseRequest cs!"/p/./a?q").target ∧
    Direct (treeEnv optsA treeA).opts cs!"/p" (parseRequest cs!"./a?q").target ∧
    Direct (treeEnv optsA treeA).opts cs!"/x" (parseRequest cs!"/p/./a?q").target ∧
    (resolve (treeEnv optsA treeA) 20 cs!"/p" cs!"./a?q").freshInfo =
      some ⟨cs!"/p/a.js", ⟨[], cs!"?q", [], .relative⟩⟩ := by
  refine ⟨by decide, by decide, .inl (.inr (.inr (.inr (.inl ⟨cs!"a", by decide⟩)))),
    .inr ⟨cs!"p/./a", by decide⟩, ⟨.inr nofun, .inl rfl⟩, ⟨.inr nofun, .inl rfl⟩, by decide +kernel⟩

-- and with spellings that differ
example : SameRequest (cfgPk 0).opts cs!"/p" cs!"./a" cs!"/x" cs!"//p/a" ∧
    (cfgPk 0).opts.tsconfig = none ∧
    ((Sys.init (treeFs treePk [])).after cfgPk serJson
      (.start 0 (.resolve cs!"/x" cs!"//p/a") 20 :: List.replicate 40 (.step 0 0))).info 0 =
        some ⟨cs!"/p/a.js", ⟨[], [], [], .relative⟩⟩ := by
  refine ⟨⟨by decide, ⟨by decide, by decide⟩, by decide, by decide,
    .inl (.inr (.inr (.inr (.inl ⟨cs!"a", by decide⟩)))), .inr ⟨cs!"/p/a", by decide⟩,
    ⟨.inr nofun, .inl rfl⟩, ⟨.inr nofun, .inl rfl⟩⟩, rfl, by decide +kernel⟩

end Verif
