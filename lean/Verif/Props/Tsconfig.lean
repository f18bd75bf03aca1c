import Verif.Proofs.Tsconfig
import Verif.Props.Options
import Verif.Spec.Examples
/-!
# Properties about tsconfig: C39, C40, C41, and C15 to C18 with a tsconfig
-/

namespace Verif

/-! ## C39 -/

/-- C39: merging gives the extending value with the extended one as deep default. -/
theorem C39_merge (own base : Json) (h1 : own.wf = true) (h2 : base.wf = true) :
    DeepDefault own base (jmerge own base) :=
  jmerge_deepDefault h1 h2

/-- C39 for files: the value of a tsconfig with a resolvable `extends` is its own contents with
the value of the extended file as deep default; otherwise it is its own contents. `j` is any
value that reading the tsconfig may give, whatever the caches answer. -/
theorem C39_extends (c : Ctx) (n : Nat) (loc : Str) (j : Json) (hw : WfDocs c.fs)
    (h : (tsValue c n loc).Returns (.ok j)) :
    ∃ doc json m, c.fs.read loc = some doc ∧ doc.jsonc = .ok (some json) ∧ n = m + 1 ∧
      ((∃ s dir i base, json.get cs!"extends" = some (.str s) ∧ pparent loc = some dir ∧
          (resolveInner c m ⟨dir, parseRequest s⟩).Returns (.success (.info i)) ∧
          (tsValue c m i.getPath).Returns (.ok base) ∧ DeepDefault json base j) ∨
        j = json ∧ ((∀ s, json.get cs!"extends" ≠ some (.str s)) ∨
          ∃ s dir st, json.get cs!"extends" = some (.str s) ∧ pparent loc = some dir ∧
            (resolveInner c m ⟨dir, parseRequest s⟩).Returns st ∧ ∀ r, st ≠ .success r)) :=
  (tsValue_returns hw h).2

/-- An extending tsconfig. -/
def tsOwn : Json := .obj [(cs!"extends", .str cs!"./base.json"),
  (cs!"compilerOptions", .obj [(cs!"strict", .bool true), (cs!"target", .null)])]

/-- The extended tsconfig. -/
def tsBase : Json := .obj [(cs!"compilerOptions", .obj [(cs!"strict", .bool false),
  (cs!"target", .str cs!"es5"), (cs!"baseUrl", .str cs!"./src"),
  (cs!"paths", .obj [(cs!"@/*", .arr [.str cs!"./*"])])])]

example : tsOwn.wf = true ∧ tsBase.wf = true := by decide +kernel
-- one leaf of each kind
example : tsOwn.at [cs!"compilerOptions", cs!"strict"] = some (.bool true) ∧
    Absent tsOwn [cs!"compilerOptions", cs!"target"] ∧
    Absent tsOwn [cs!"compilerOptions", cs!"baseUrl"] ∧
    tsBase.at [cs!"compilerOptions", cs!"target"] = some (.str cs!"es5") :=
  ⟨rfl, .step (x := .obj [(cs!"strict", .bool true), (cs!"target", .null)])
    (List.mem_cons_of_mem _ (List.mem_cons_self ..))
    (.step (x := .null) (List.mem_cons_of_mem _ (List.mem_cons_self ..)) (.null _)),
   .step (x := .obj [(cs!"strict", .bool true), (cs!"target", .null)])
    (List.mem_cons_of_mem _ (List.mem_cons_self ..)) (.missing (by simp)), rfl⟩

/-- `/p/tsconfig.json` extends `/p/base.json`; `/p/src/x.js`. -/
def treeTs : Tree :=
  .dir [(cs!"p", .dir [(cs!"tsconfig.json", jsonFile tsOwn), (cs!"base.json", jsonFile tsBase),
    (cs!"src", .dir [(cs!"x.js", textFile)]), (cs!"y.js", textFile)])]

/-- Options with a tsconfig. -/
def optsTs : Opts := { optsA with tsconfig := some cs!"/p/tsconfig.json" }

-- an inherited entry is used
example : (resolve (treeEnv optsTs treeTs) 20 cs!"/p" cs!"@/x").freshInfo =
    some ⟨cs!"/p/src/x.js", Request.empty⟩ := by decide +kernel
example : WfDocs (treeFs treeTs []) := by
  intro p doc j h1 h2
  have := allDoc_read (t := treeTs) (P := fun d => match d.jsonc with
    | .ok (some j) => j.wf
    | _ => true) (by decide +kernel) h1
  simpa only [h2] using this

/-! ## C40 -/

/-- A resolver with the pattern `ab*`. -/
def optsStar : Opts := { optsA with tsconfig := some cs!"/t.json" }

/-- Its tree. -/
def treeStar : Tree :=
  .dir [(cs!"t.json", jsonFile (.obj [(cs!"compilerOptions", .obj [(cs!"baseUrl", .str cs!"."),
      (cs!"paths", .obj [(cs!"ab*", .arr [.str cs!"./x*"])])])])), (cs!"x", textFile),
    (cs!"xc", textFile)]

/-- C40 fails as stated: the star does not match the empty text (although the request starts
with the part before it and ends with the part after it), and a request with a character that
straddles the byte length of the part before the star makes `resolve` panic. -/
theorem C40_star_violated :
    cs!"ab" = cs!"ab" ++ [] ++ [] ∧ matchStar cs!"ab*" cs!"ab" = some none ∧
    (resolve (treeEnv optsStar treeStar) 20 cs!"/" cs!"ab").freshInfo = none ∧
    (resolve (treeEnv optsStar treeStar) 20 cs!"/" cs!"abc").freshInfo =
      some ⟨cs!"/xc", Request.empty⟩ ∧
    (resolve (treeEnv optsStar treeStar) 20 cs!"/" cs!"aéé").freshCrash =
      some (.panic .starSlice) := by
  decide +kernel

/-- C40: a pattern matches and captures `m` exactly if the request is the part before the star,
`m`, and the part after it, for non-empty `m`; an ASCII request is always either matched or
not. Missing: empty captures and requests where the code panics (`C40_star_violated`, `C40_panics`). -/
theorem C40_star_partial (pattern request m : Str) :
    (matchStar pattern request = some (some m) ↔
      m ≠ [] ∧ ∃ pre post, pattern = pre ++ '*' :: post ∧ '*' ∉ pre ∧
        request = pre ++ m ++ post) ∧
    (AsciiStr request → matchStar pattern request ≠ none) :=
  ⟨matchStar_some, fun h hn => by
    have := matchStar_ascii (pattern := pattern) h
    rw [hn] at this
    cases this⟩

/-- C40, where the code panics: exactly if the request is no shorter than the pattern, in bytes, and is cut
inside a character, by the length of the part before the star or, if it starts with that part, by the length
of the part after it. -/
theorem C40_panics (pattern request : Str) :
    matchStar pattern request = none ↔ ∃ pre post, pattern = pre ++ '*' :: post ∧ '*' ∉ pre ∧
      utf8Len pattern ≤ utf8Len request ∧ (¬ Boundary request (utf8Len pre) ∨
        pre <+: request ∧ ¬ Boundary request (utf8Len request - utf8Len post)) :=
  matchStar_none

-- both cuts
example : matchStar cs!"a*" cs!"éb" = none ∧ matchStar cs!"*a" cs!"bé" = none := by decide +kernel

example : matchStar cs!"@/*.js" cs!"@/x/y.js" = some (some cs!"x/y") := by decide +kernel
example : matchStar cs!"@/*.js" cs!"@/x/y.ts" = some none := by decide +kernel
example : matchStar cs!"é*é" cs!"éaé" = some (some cs!"a") := by decide +kernel

/-! ## C41 -/

/-- C41: with a tsconfig that can be read, the entries are tried in some order; the first mapped
path that resolves decides, and if none does the result is that of the resolver without
tsconfig. The order is that of a `HashMap`. -/
theorem C41_paths (e : Env) (n : Nat) (path request loc : Str) (hw : WfDocs e.fs)
    (ht : e.opts.tsconfig = some loc) (a : Except Err Result)
    (h : (resolve e n path request).Returns a) :
    (∃ err, (tsValue e.ctx n loc).Returns (.error err) ∧ a = .error err) ∨
    ∃ json entries order, (tsValue e.ctx n loc).Returns (.ok json) ∧
      HasEntries loc json entries ∧ order.Perm entries ∧
      ((∃ r, EntriesTried (fun p s => (resolveInner e.ctx n ⟨p, Request.empty⟩).Returns s)
          (parseRequest request).target order (some r) ∧ (normalizeResult e.ctx r).Returns a) ∨
        (EntriesTried (fun p s => (resolveInner e.ctx n ⟨p, Request.empty⟩).Returns s)
            (parseRequest request).target order none ∧
          (resolve (e.withOpts e.opts.noTs) n path request).Returns a)) := by
  have hinner : resolveInner (e.withOpts e.opts.noTs).ctx = resolveInner e.ctx :=
    ((e.agree_withOpts e.opts.noTs rfl rfl rfl rfl rfl rfl (fun _ => rfl)).inner rfl rfl).symm
  have hnots : resolve (e.withOpts e.opts.noTs) n path request =
      (resolveInner e.ctx n ⟨path, parseRequest request⟩).bind fun
        | .success r => normalizeResult e.ctx r
        | .error err _ => .ret (.error err)
        | .resolving _ => .panic .apiUnreachable := by
    unfold resolve resolveCtx resolveStats
    simp only [show (e.withOpts e.opts.noTs).ctx.opts.tsconfig = none from rfl, hinner]
    rfl
  rw [hnots]
  unfold resolve resolveCtx resolveStats at h
  simp only [show e.ctx.opts.tsconfig = some loc from ht] at h
  obtain ⟨s, h1, h2⟩ := Prog.returns_bind h
  unfold resolveWithTsconfig at h1
  obtain ⟨v, h3, h4⟩ := Prog.returns_bind h1
  cases v with
  | error err =>
    simp only [Prog.returns_ret] at h4
    subst h4
    simp only [Prog.returns_ret] at h2
    exact .inl ⟨err, h3, h2⟩
  | ok json =>
    right
    simp only at h4
    split at h4
    · cases h4
    · rename_i ts hts
      split at h4
      · cases h4
      · rename_i entries hen
        cases h4 with
        | op seed h4 =>
          refine ⟨json, entries, permute seed entries, h3,
            tsInfoOf_entries (tsValue_returns hw h3).1 hts hen, permute_perm _ _, ?_⟩
          rcases tsEntries_returns h4 with ⟨r, rfl, h5⟩ | ⟨h5, h6⟩
          · exact .inl ⟨r, h5, h2⟩
          · exact .inr ⟨h5, Prog.returns_bind_iff.2 ⟨s, h6, h2⟩⟩

/-- C41: without `baseUrl` or without `paths` the result is that of the resolver without
tsconfig. -/
theorem C41_no_base (e : Env) (n : Nat) (path request loc : Str) (hw : WfDocs e.fs)
    (ht : e.opts.tsconfig = some loc)
    (hb : ∀ json, (tsValue e.ctx n loc).Returns (.ok json) →
      json.at [cs!"compilerOptions", cs!"baseUrl"] = none ∨
        json.at [cs!"compilerOptions", cs!"paths"] = none)
    (a : Except Err Result) (h : (resolve e n path request).Returns a) :
    (∃ err, (tsValue e.ctx n loc).Returns (.error err) ∧ a = .error err) ∨
    (resolve (e.withOpts e.opts.noTs) n path request).Returns a := by
  rcases C41_paths e n path request loc hw ht a h with h1 | ⟨json, entries, order, h1, h2, h3, h4⟩
  · exact .inl h1
  · right
    have : entries = [] := by
      obtain ⟨dir, -, ⟨-, h⟩ | ⟨b, paths, h5, h6, -⟩⟩ := h2
      · exact h
      · rcases hb json h1 with h | h
        · rw [h] at h5; cases h5
        · rw [h] at h6; cases h6
    subst this
    have := h3.eq_nil
    subst this
    rcases h4 with ⟨r, h5, -⟩ | ⟨-, h5⟩
    · cases h5
    · exact h5

-- preferred over a module of the same name; fallback when the mapped path does not exist
example : (resolve (treeEnv optsTs treeTs) 20 cs!"/p" cs!"./y").freshInfo =
    some ⟨cs!"/p/y.js", Request.empty⟩ := by decide +kernel
example : (resolve (treeEnv { optsA with tsconfig := some cs!"/t.json" } (.dir [
      (cs!"t.json", jsonFile (.obj [(cs!"compilerOptions", .obj [(cs!"baseUrl", .str cs!"."),
        (cs!"paths", .obj [(cs!"m", .arr [.str cs!"./nope", .str cs!"./src"])])])])),
      (cs!"src.js", textFile),
      (cs!"node_modules", .dir [(cs!"m.js", textFile)])])) 20 cs!"/" cs!"m").freshInfo =
    some ⟨cs!"/src.js", Request.empty⟩ := by decide +kernel
example : (resolve (treeEnv { optsA with tsconfig := some cs!"/t.json" } (.dir [
      (cs!"t.json", jsonFile (.obj [(cs!"compilerOptions", .obj [(cs!"baseUrl", .str cs!"."),
        (cs!"paths", .obj [(cs!"m", .arr [.str cs!"./nope"])])])])),
      (cs!"node_modules", .dir [(cs!"m.js", textFile)])])) 20 cs!"/" cs!"m").freshInfo =
    some ⟨cs!"/node_modules/m.js", Request.empty⟩ := by decide +kernel

/-! ## C15 -/

/-- C15 with a tsconfig: the answer is `Ignored`, unless the tsconfig cannot be read or one of its
`paths` entries resolves. -/
theorem C15_tsconfig_partial (e : Env) (n : Nat) (path request loc : Str) (hw : WfDocs e.fs)
    (ht : e.opts.tsconfig = some loc) (hm : containsStr path MODULE = false) (key : Str)
    (hf : FirstIn (fun kv : Str × AliasMap => kv.1 <+: (parseRequest request).target)
      e.opts.alias (key, .ignored))
    (a : Except Err Result) (h : (resolve e (n + 1) path request).Returns a) :
    a = .ok .ignored ∨
    (∃ err, (tsValue e.ctx (n + 1) loc).Returns (.error err) ∧ a = .error err) ∨
    ∃ json entries order r, (tsValue e.ctx (n + 1) loc).Returns (.ok json) ∧
      HasEntries loc json entries ∧ order.Perm entries ∧
      EntriesTried (fun p s => (resolveInner e.ctx (n + 1) ⟨p, Request.empty⟩).Returns s)
        (parseRequest request).target order (some r) ∧ (normalizeResult e.ctx r).Returns a := by
  rcases C41_paths e (n + 1) path request loc hw ht a h with h1 | ⟨json, entries, order, h1, h2, h3, h4⟩
  · exact .inr (.inl h1)
  · rcases h4 with ⟨r, h5, h6⟩ | ⟨-, h5⟩
    · exact .inr (.inr ⟨json, entries, order, r, h1, h2, h3, h5, h6⟩)
    · rw [C15_ignored_partial (e.withOpts e.opts.noTs) n path request rfl hm key hf,
        Prog.returns_ret] at h5
      exact .inl h5

/-- C15 does not hold with a tsconfig: a `paths` entry wins over the ignored alias, and a tsconfig that
is missing is an error. -/
theorem C15_tsconfig_violated :
    FirstIn (fun kv : Str × AliasMap => kv.1 <+: (parseRequest cs!"@/x").target)
      [(cs!"@", AliasMap.ignored)] (cs!"@", .ignored) ∧
    (resolve (treeEnv { optsTs with alias := [(cs!"@", .ignored)] } treeTs) 20 cs!"/p"
      cs!"@/x").freshInfo = some ⟨cs!"/p/src/x.js", Request.empty⟩ ∧
    (resolve (treeEnv { optsTs with alias := [(cs!"@", .ignored)] } treeTs) 20 cs!"/p"
      cs!"@/y").freshIgnored = true ∧
    (resolve (treeEnv { optsA with tsconfig := some cs!"/none.json", alias := [(cs!"@", .ignored)] }
      treeTs) 20 cs!"/p" cs!"@/x").freshIgnored = false :=
  ⟨⟨[], [], rfl, by decide, by decide⟩, by decide +kernel, by decide +kernel, by decide +kernel⟩

/-! ## C16, C17 and C18 -/

-- the hypotheses of `C16_unrelated_partial` are met with a tsconfig that extends another
example : (∀ p, Apart { optsTs with alias := [(cs!"b", .ignored)] } p []) ∧
    (∀ file doc json s dir, (treeFs treeTs []).read file = some doc → doc.jsonc = .ok (some json) →
      json.get cs!"extends" = some (.str s) → pparent file = some dir →
      Apart { optsTs with alias := [(cs!"b", .ignored)] } dir (parseRequest s).target) ∧
    Apart { optsTs with alias := [(cs!"b", .ignored)] } cs!"/p" (parseRequest cs!"@/x").target := by
  refine ⟨fun _ => .inr ⟨by decide, nofun⟩, fun file doc json s dir h1 h2 h3 _ => .inr ⟨?_, nofun⟩,
    .inr ⟨by decide, nofun⟩⟩
  have := allDoc_read (t := treeTs) (P := fun d => match d.jsonc with
    | .ok (some j) => match j.get cs!"extends" with
      | some (.str s) => !startsWith (parseRequest s).target cs!"b"
      | _ => true
    | _ => true) (by decide +kernel) h1
  simp only [h2, h3, Bool.not_eq_true', Bool.eq_false_iff, Ne, startsWith_iff] at this
  intro kv hkv
  simp only [List.mem_cons, List.not_mem_nil, or_false] at hkv
  subst hkv
  exact this

/-- C17 with a tsconfig: unless the tsconfig cannot be read or one of its `paths` entries resolves, aliases
are tried in order, and the request is resolved without aliases if none decides. Missing: prefer_relative
(`C17_in_order_violated`). -/
theorem C17_tsconfig_partial (e : Env) (n : Nat) (path request loc : Str) (hw : WfDocs e.fs)
    (ht : e.opts.tsconfig = some loc) (hp : e.opts.preferRelative = false)
    (hm : containsStr path MODULE = false)
    (a : Except Err Result) (h : (resolve e (n + 1) path request).Returns a) :
    (∃ r, Tried (fun t s => (resolveInner e.ctx n ⟨path, (parseRequest request).withTarget t⟩).Returns s)
        (parseRequest request).target e.opts.alias (some r) ∧ (normalizeResult e.ctx r).Returns a) ∨
    (Tried (fun t s => (resolveInner e.ctx n ⟨path, (parseRequest request).withTarget t⟩).Returns s)
        (parseRequest request).target e.opts.alias none ∧
      (resolve (e.withOpts e.opts.noTs.noAlias) (n + 1) path request).Returns a) ∨
    (∃ err, (tsValue e.ctx (n + 1) loc).Returns (.error err) ∧ a = .error err) ∨
    ∃ json entries order r, (tsValue e.ctx (n + 1) loc).Returns (.ok json) ∧
      HasEntries loc json entries ∧ order.Perm entries ∧
      EntriesTried (fun p s => (resolveInner e.ctx (n + 1) ⟨p, Request.empty⟩).Returns s)
        (parseRequest request).target order (some r) ∧ (normalizeResult e.ctx r).Returns a := by
  rcases C41_paths e (n + 1) path request loc hw ht a h with h1 | ⟨json, entries, order, h1, h2, h3, h4⟩
  · exact .inr (.inr (.inl h1))
  · rcases h4 with ⟨r, h5, h6⟩ | ⟨-, h5⟩
    · exact .inr (.inr (.inr ⟨json, entries, order, r, h1, h2, h3, h5, h6⟩))
    · have hinner : resolveInner (e.withOpts e.opts.noTs).ctx = resolveInner e.ctx :=
        ((e.agree_withOpts e.opts.noTs rfl rfl rfl rfl rfl rfl (fun _ => rfl)).inner rfl rfl).symm
      have h6 := (C17_in_order_partial (e.withOpts e.opts.noTs) n path request rfl hp hm a).1 h5
      rw [hinner] at h6
      rcases h6 with h6 | h6
      · exact .inl h6
      · exact .inr (.inl h6)

/-- C18 with a tsconfig: unless the tsconfig cannot be read or one of its `paths` entries resolves, the
result is the relative reading if that is found, otherwise that without prefer_relative. Missing: aliases
(`C18_prefer_violated`), and requests starting with `#`. -/
theorem C18_tsconfig_partial (e : Env) (n : Nat) (path request loc : Str) (hw : WfDocs e.fs)
    (ht : e.opts.tsconfig = some loc) (ha : e.opts.alias = []) (hp : e.opts.preferRelative = true)
    (hr : ¬ (cs!"./" <+: (parseRequest request).target ∨ cs!"../" <+: (parseRequest request).target))
    (hh : request.head? ≠ some '#')
    (a : Except Err Result) (h : (resolve e (n + 1) path request).Returns a) :
    ((resolve (e.withOpts e.opts.noTs.noPrefer) n path (cs!"./" ++ request)).Returns a ∧ Found a) ∨
    ((∃ b, (resolve (e.withOpts e.opts.noTs.noPrefer) n path (cs!"./" ++ request)).Returns b ∧ ¬ Found b) ∧
      (resolve (e.withOpts e.opts.noTs.noPrefer) (n + 1) path request).Returns a) ∨
    (∃ err, (tsValue e.ctx (n + 1) loc).Returns (.error err) ∧ a = .error err) ∨
    ∃ json entries order r, (tsValue e.ctx (n + 1) loc).Returns (.ok json) ∧
      HasEntries loc json entries ∧ order.Perm entries ∧
      EntriesTried (fun p s => (resolveInner e.ctx (n + 1) ⟨p, Request.empty⟩).Returns s)
        (parseRequest request).target order (some r) ∧ (normalizeResult e.ctx r).Returns a := by
  rcases C41_paths e (n + 1) path request loc hw ht a h with h1 | ⟨json, entries, order, h1, h2, h3, h4⟩
  · exact .inr (.inr (.inl h1))
  · rcases h4 with ⟨r, h5, h6⟩ | ⟨-, h5⟩
    · exact .inr (.inr (.inr ⟨json, entries, order, r, h1, h2, h3, h5, h6⟩))
    · rcases ((C18_prefer_partial (e.withOpts e.opts.noTs) n path request rfl ha hp).2 hr hh a).1 h5 with h6 | h6
      · exact .inl h6
      · exact .inr (.inl h6)

-- an alias and a relative reading with a tsconfig
example : (resolve (treeEnv { optsTs with alias := [(cs!"b", .target cs!"./y")] } treeTs) 20 cs!"/p"
      cs!"b").freshInfo = some ⟨cs!"/p/y.js", Request.empty⟩ ∧
    (resolve (treeEnv { optsTs with preferRelative := true } treeTs) 20 cs!"/p" cs!"y").freshInfo =
      some ⟨cs!"/p/y.js", Request.empty⟩ := by
  decide +kernel

end Verif
