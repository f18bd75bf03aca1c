import Verif.Proofs.EndSep
import Verif.Proofs.Clear
import Verif.Props.Named
import Verif.Props.Result
import Verif.Props.NewFiles
import Verif.Props.Findings
/-!
# C89: a request that ends in a separator is for a directory
-/

namespace Verif

variable {cfg : Nat → Config} {ser : Json → Str} {fs : Fs}

/-- C89: a request by path that ends in a separator succeeds only if a directory has this path, whatever the caches
answer. Missing: options that send the request elsewhere. -/
theorem C89_directory_partial (e : Env) (hf : e.fs.Solid)
    (hb : e.opts.browserField = false) (hts : e.opts.tsconfig = none) {p request d : Str} (ha : isAbs p = true)
    (hk : ByPath (parseRequest request).target) (hd : Direct e.opts p (parseRequest request).target)
    (hend : namedPath p (parseRequest request).target = d ++ cs!"/") (n : Nat) (r : Result)
    (h : (resolve e n p request).Returns (.ok r)) : e.fs.isDir (d ++ cs!"/") = true := by
  cases hdir : e.fs.isDir (d ++ cs!"/") with
  | true => rfl
  | false =>
    have habs := namedPath_abs ha (parseRequest request).target
    rw [hend] at habs
    exact (resolve_nothing hb hts hk hd (by rw [hend]; exact hdir) (by rw [hend]; exact hf.candidates habs hdir) h).elim

/-- C89 for systems: any resolvers, shared caches, threads, histories, changes of files. `t.fs` is the file system
the call ran on. -/
theorem C89_system_partial (cfg : Nat → Config) (ser : Json → Str) (fs : Fs) (l : List Event) (t : Task)
    (ht : t ∈ ((Sys.init fs).after cfg ser l).tasks) {p request d : Str} (hc : t.call = .resolve p request)
    (hf : t.fs.Solid) (hb : (cfg t.rid).opts.browserField = false) (hts : (cfg t.rid).opts.tsconfig = none)
    (ha : isAbs p = true) (hk : ByPath (parseRequest request).target)
    (hd : Direct (cfg t.rid).opts p (parseRequest request).target)
    (hend : namedPath p (parseRequest request).target = d ++ cs!"/") (r : Result)
    (h : t.prog = .ret (.resolve (.ok r))) : t.fs.isDir (d ++ cs!"/") = true := by
  have h := system_returns cfg ser fs l t ht _ h
  rw [hc] at h
  unfold Call.prog at h
  obtain ⟨r', h1, h2⟩ := Prog.returns_bind h
  cases h2
  exact C89_directory_partial _ hf hb hts ha hk hd hend _ _ h1

/-- C89: with and without a separator at the end, requests for a path that is not the path of a file end alike, in any
two histories. Missing: options that send the request elsewhere; a file next to the directory, or in it, whose name
is completed by an extension (`C89_hidden_violated`, `C64_end_violated`); and what is missing in C33. -/
theorem C89_same_partial {cfg' : Nat → Config} (hs : Static cfg ser fs) (hs' : Static cfg' ser fs)
    (l l' : List Event) (hl : ∀ e ∈ l, e.calm) (hl' : ∀ e ∈ l', e.calm)
    (t t' : Task) (ht : t ∈ ((Sys.init fs).after cfg ser l).tasks)
    (ht' : t' ∈ ((Sys.init fs).after cfg' ser l').tasks)
    (hopts : (cfg t.rid).opts = (cfg' t'.rid).opts) (hts : (cfg t.rid).opts.tsconfig = none)
    (hb : (cfg t.rid).opts.browserField = false)
    {p request q request' : Str} (hc : t.call = .resolve p request) (hc' : t'.call = .resolve q request')
    (hsame : SameDirectory (cfg t.rid).opts fs p request q request') (hfuel : t.fuel = t'.fuel)
    (o o' : Outcome Answer) (ho : t.prog.outcome = some o) (ho' : t'.prog.outcome = some o') :
    o.Like (Answer.SameReply p request q request') o' := by
  obtain ⟨x, h1, h2⟩ := static_ends hs hl ht ho
  obtain ⟨x', h1', h2'⟩ := static_ends hs' hl' ht' ho'
  have e : t'.call.pure (cfg' t'.rid) fs t'.fuel = t'.call.pure (cfg t.rid) fs t.fuel := by
    rw [← hfuel]
    unfold Call.pure
    rw [hopts, hs.debug t.rid, hs'.debug t'.rid]
  rw [e] at h1'
  have hts' : TsClear (cfg t.rid).opts fs t'.call := by
    rw [hc']
    intro loc h
    rw [hts] at h
    cases h
  obtain ⟨y, hy⟩ := call_sure hs t.rid hts' t.fuel
  have hlink : (t.call.pure (cfg t.rid) fs t.fuel).Linked (Answer.SameReply p request q request')
      (t'.call.pure (cfg t.rid) fs t.fuel) := by
    rw [hc, hc']
    exact Prog.Linked.bind (resolveCtx_directory (pure_ctxSim (G := fun _ => True) (R := fun _ _ => True) _ hs.lawful
      (fun hb desc hd => hs.browser t.rid desc hb hd)) hts hb t.fuel hsame) fun a b hab => .ret hab
  obtain ⟨x'', h3, h4⟩ := hlink _ h1
  rw [hy _ h1', ← hy _ h3] at h2'
  cases o <;> cases x <;> cases x'' <;> cases o' <;> first
    | exact (h2 : False).elim
    | exact (h4 : False).elim
    | exact (h2' : False).elim
    | exact Answer.SameReply.sim h2 h4 h2'
    | exact Eq.trans h2 (Eq.trans h4 (Eq.symm h2'))

/-- `/p` with a main field, `/p/lib/index.js`, and in `/q` a file with the name `.js`. -/
def treeSep : Tree :=
  .dir [(cs!"p", .dir [(cs!"package.json", jsonFile (.obj [(cs!"main", .str cs!"./lib/")])),
    (cs!"lib", .dir [(cs!"index.js", textFile)])]),
    (cs!"q", .dir [(cs!".js", textFile), (cs!"index.js", textFile)]), (cs!"a.js", textFile)]

/-- A request that ends in a separator may still get a file that an extension is completed to: `./q/` is `/q/.js`,
not `/q/index.js` as for `./q`. -/
theorem C89_hidden_violated :
    foundPath optsA treeSep cs!"/" cs!"./q/" = some cs!"/q/.js" ∧
      foundPath optsA treeSep cs!"/" cs!"./q" = some cs!"/q/index.js" := by
  decide +kernel

-- the hypotheses are met: `./p/` and `/p`, and for `./a.js/` nothing is found
example : (treeFs treeSep []).Solid := treeFs_solid _ _
example : Static (fun _ => config optsA 0) serJson (treeFs treeSep []) := static_new rfl (by decide +kernel)
example : SameDirectory (config optsA 0).opts (treeFs treeSep []) cs!"/" cs!"./p/" cs!"/x" cs!"/p" where
  abs := by decide
  path := by decide +kernel
  query := by decide +kernel
  fragment := by decide +kernel
  left := .inl (.inr (.inr (.inr (.inl ⟨cs!"p/", by decide +kernel⟩))))
  right := .inr ⟨cs!"p", by decide +kernel⟩
  direct := ⟨.inr nofun, .inl rfl⟩
  direct' := ⟨.inr nofun, .inl rfl⟩
  noFile := by decide +kernel
  noFile' := by decide +kernel
example : namedPath cs!"/" (parseRequest cs!"./p/").target = cs!"/./p" ++ cs!"/" := by decide +kernel
example : foundPath optsA treeSep cs!"/" cs!"./p/" = some cs!"/p/lib/index.js" ∧
    foundPath optsA treeSep cs!"/x" cs!"/p" = some cs!"/p/lib/index.js" ∧
    foundPath optsA treeSep cs!"/" cs!"./a.js" = some cs!"/a.js" ∧
    foundPath optsA treeSep cs!"/" cs!"./a.js/" = none := by decide +kernel

end Verif
