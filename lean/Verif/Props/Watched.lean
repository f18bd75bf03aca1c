import Verif.Proofs.Watched
import Verif.Proofs.Clear
import Verif.Props.NewFiles
import Verif.Props.Findings
/-!
# C88: the files that have a say in the answer to a request by path
-/

namespace Verif

variable {cfg cfg' : Nat → Config} {ser : Json → Str} {fs fs' : Fs}

/-- C88: two file systems have the same at the paths `Watched` by a request, and anything else may differ. Then after
any histories the request ends in the same way on both. -/
theorem C88_watched (hs : Static cfg ser fs) (hs' : Static cfg' ser fs') (l l' : List Event)
    (hl : ∀ e ∈ l, e.calm) (hl' : ∀ e ∈ l', e.calm) (t t' : Task)
    (ht : t ∈ ((Sys.init fs).after cfg ser l).tasks) (ht' : t' ∈ ((Sys.init fs').after cfg' ser l').tasks)
    (ho : (cfg' t'.rid).opts = (cfg t.rid).opts) (hfuel : t'.fuel = t.fuel) {path request : Str}
    (hc : t.call = .resolve path request) (hc' : t'.call = .resolve path request)
    (hp : Plain (cfg t.rid).opts path (parseRequest request).target) (hk : IsPath (parseRequest request).target)
    (hb : (cfg t.rid).opts.browserField = false)
    (hw : SameAt (Watched (cfg t.rid).opts fs (targetPath path (parseRequest request).target)) fs fs')
    (x x' : Outcome Answer) (hx : t.prog.outcome = some x) (hx' : t'.prog.outcome = some x') :
    x.Like Answer.Sim x' := by
  obtain ⟨y, h1, h2⟩ := static_ends hs hl ht hx
  obtain ⟨y', h1', h2'⟩ := static_ends hs' hl' ht' hx'
  have hts : TsClear (cfg t.rid).opts fs t.call := by
    rw [hc]
    intro loc hloc
    rw [hp.tsconfig] at hloc
    cases hloc
  obtain ⟨z, hz⟩ := call_sure hs t.rid hts t.fuel
  have e : t'.call.pure (cfg' t'.rid) fs' t'.fuel = t.call.pure (cfg t.rid) fs t.fuel := by
    rw [hc', hc, hfuel]
    unfold Call.pure
    dsimp only
    rw [hs.debug t.rid, hs'.debug t'.rid, ho, resolveCtx_watched hw hb hp hk fun _ => id]
  rw [e] at h1'
  rw [hz _ h1] at h2
  rw [hz _ h1'] at h2'
  exact Answer.like_join h2 h2'

/-- C88 for side effects: the path and what is above it, and the description files there. -/
theorem C88_side_effects (hs : Static cfg ser fs) (hs' : Static cfg' ser fs') (l l' : List Event)
    (hl : ∀ e ∈ l, e.calm) (hl' : ∀ e ∈ l', e.calm) (t t' : Task)
    (ht : t ∈ ((Sys.init fs).after cfg ser l).tasks) (ht' : t' ∈ ((Sys.init fs').after cfg' ser l').tasks)
    (ho : (cfg' t'.rid).opts = (cfg t.rid).opts) {path : Str}
    (hc : t.call = .sideEffects path) (hc' : t'.call = .sideEffects path)
    (hw : SameAt (fun w => ∃ a ∈ upward (path.length + 1) path, w = a ∨
      ∃ desc, (cfg t.rid).opts.descriptionFile = some desc ∧ w = pjoin a desc) fs fs')
    (x x' : Outcome Answer) (hx : t.prog.outcome = some x) (hx' : t'.prog.outcome = some x') :
    x.Like Answer.Sim x' := by
  obtain ⟨y, h1, h2⟩ := static_ends hs hl ht hx
  obtain ⟨y', h1', h2'⟩ := static_ends hs' hl' ht' hx'
  have hts : TsClear (cfg t.rid).opts fs t.call := by
    rw [hc]
    trivial
  obtain ⟨z, hz⟩ := call_sure hs t.rid hts t.fuel
  have e : t'.call.pure (cfg' t'.rid) fs' t'.fuel = t.call.pure (cfg t.rid) fs t.fuel := by
    rw [hc', hc]
    unfold Call.pure
    rw [ho]
    simp only [findSideEffects]
    rw [findPkg_above hw (fun a ha => ⟨a, ha, .inl rfl⟩) fun a ha desc hd => ⟨a, ha, .inr ⟨desc, hd, rfl⟩⟩]
  rw [e] at h1'
  rw [hz _ h1] at h2
  rw [hz _ h1'] at h2'
  exact Answer.like_join h2 h2'

/-! ## The hypotheses are met -/

/-- `/p` with the main field `./lib`, and `/p/lib/index.js`. -/
def treeWatch (l : List (Str × Tree)) : Tree :=
  .dir [(cs!"p", .dir ([(cs!"package.json", jsonFile (.obj [(cs!"main", .str cs!"./lib")])),
    (cs!"lib", .dir [(cs!"index.js", textFile)])] ++ l))]

example : Static (fun _ => config optsA 0) serJson (treeFs (treeWatch []) []) := static_new rfl (by decide +kernel)
example : foundPath optsA (treeWatch []) cs!"/" cs!"./p" = some cs!"/p/lib/index.js" := by decide +kernel

theorem treeWatch_names {d f m : Str} (hd : d = cs!"/./p" ∨ d = cs!"/./p/./lib")
    (h : NamesMain optsA (treeFs (treeWatch []) []) d f m) : d = cs!"/./p" ∧ f = cs!"main" ∧ m = cs!"./lib" := by
  obtain ⟨desc, doc, json, h1, -, h2, h3, h4⟩ := h
  cases (Option.some.inj h1 : cs!"package.json" = desc)
  rcases hd with rfl | rfl
  · have e : (treeFs (treeWatch []) []).read (pjoin cs!"/./p" cs!"package.json") =
        some ⟨some (.obj [(cs!"main", .str cs!"./lib")]), .ok (some (.obj [(cs!"main", .str cs!"./lib")]))⟩ := by rfl
    rw [e] at h2
    cases h2
    cases h3
    refine ⟨rfl, ?_⟩
    have h4 : alookup f [(cs!"main", Json.str cs!"./lib")] = some (.str m) := h4
    rw [alookup] at h4
    split at h4
    · rename_i hf
      cases h4
      exact ⟨by simpa using Eq.symm (by simpa using hf), rfl⟩
    · cases h4
  · have e : (treeFs (treeWatch []) []).read (pjoin cs!"/./p/./lib" cs!"package.json") = none := by rfl
    rw [e] at h2
    cases h2

/-- Nothing but `/p` and `/p/lib` is led to. -/
theorem treeWatch_leads {q : Str} (h : PathLeads optsA (treeFs (treeWatch []) []) cs!"/./p" q) :
    q = cs!"/./p" ∨ q = cs!"/./p/./lib" := by
  induction h with
  | here => exact .inl rfl
  | @mains d q l _ hq ih =>
    have : (l = [cs!"main"] ∧ q = d) ∨ (l = [] ∧ (q = d ∨ d = cs!"/./p" ∧ q = cs!"/./p/./lib")) := by
      induction hq with
      | here => exact .inl ⟨rfl, rfl⟩
      | next _ ih' =>
        rcases ih' with ⟨h, rfl⟩ | ⟨h, -⟩
        · cases h; exact .inr ⟨rfl, .inl rfl⟩
        · cases h
      | main _ hn ih' =>
        rcases ih' with ⟨h, rfl⟩ | ⟨h, -⟩
        · cases h
          obtain ⟨rfl, -, rfl⟩ := treeWatch_names ih hn
          exact .inr ⟨rfl, .inr ⟨rfl, by decide⟩⟩
        · cases h
    grind

/-- The paths that are watched by the request. -/
def watchList : List Str := [cs!"/./p", cs!"/./p/./lib"].flatMap fun q =>
  (q :: optsA.extensions.map (q ++ ·)) ++
  (optsA.mainFiles.flatMap fun m => pjoin q (cs!"./" ++ m) :: optsA.extensions.map (pjoin q (cs!"./" ++ m) ++ ·)) ++
  upward (q.length + 1) q ++ (upward (q.length + 1) q).map (pjoin · cs!"package.json")

theorem treeWatch_watched {w : Str} (h : Watched optsA (treeFs (treeWatch []) []) cs!"/./p" w) : w ∈ watchList := by
  obtain ⟨q, hq, hw⟩ := h
  refine List.mem_flatMap.2 ⟨q, by rcases treeWatch_leads hq with rfl | rfl <;> decide, ?_⟩
  simp only [List.mem_append]
  cases hw with
  | file h => exact .inl (.inl (.inl h))
  | mainFile hm h => exact .inl (.inl (.inr (List.mem_flatMap.2 ⟨_, hm, h⟩)))
  | above h => exact .inl (.inr h)
  | description h hd =>
    cases (Option.some.inj hd : cs!"package.json" = _)
    exact .inr (List.mem_map.2 ⟨_, h, rfl⟩)

/-- Another file and another directory in `/p`. -/
def treeWatch' : Tree := treeWatch [(cs!"other.js", textFile), (cs!"node_modules", .dir [(cs!"a.js", textFile)])]

example : SameAt (Watched optsA (treeFs (treeWatch []) []) cs!"/./p") (treeFs (treeWatch []) []) (treeFs treeWatch' [])
    where
  isFile w h := (by decide +kernel : ∀ w ∈ watchList, (treeFs treeWatch' []).isFile w = _) w (treeWatch_watched h)
  isDir w h := (by decide +kernel : ∀ w ∈ watchList, (treeFs treeWatch' []).isDir w = _) w (treeWatch_watched h)
  read w h := List.map_inj_left.1
    (by rfl : watchList.map (treeFs treeWatch' []).read = watchList.map (treeFs (treeWatch []) []).read) w
    (treeWatch_watched h)
  mtime w h := (by decide +kernel : ∀ w ∈ watchList, ((treeFs treeWatch' []).mtime w).isSome =
    ((treeFs (treeWatch []) []).mtime w).isSome) w
    (treeWatch_watched h)
  canon w h := (by decide +kernel : ∀ w ∈ watchList, (treeFs treeWatch' []).canon w = _) w (treeWatch_watched h)

example : Static (fun _ => config optsA 0) serJson (treeFs treeWatch' []) := static_new rfl (by decide +kernel)
example : targetPath cs!"/" (parseRequest cs!"./p").target = cs!"/./p" := by decide +kernel
example : IsPath (parseRequest cs!"./p").target := by unfold IsPath; decide +kernel
example : Plain (config optsA 0).opts cs!"/" (parseRequest cs!"./p").target := by
  exact ⟨rfl, .inr nofun, .inl rfl⟩
example : foundPath optsA treeWatch' cs!"/" cs!"./p" = some cs!"/p/lib/index.js" := by decide +kernel

-- each sort of path has a say: the file with an extension, the main file, what the main field names, the description file
example : foundPath optsA (.dir [(cs!"p.js", textFile), (cs!"p", .dir [(cs!"index.js", textFile)])]) cs!"/" cs!"./p" =
    some cs!"/p.js" := by decide +kernel
example : foundPath optsA (.dir [(cs!"p", .dir [(cs!"index.js", textFile)])]) cs!"/" cs!"./p" =
    some cs!"/p/index.js" := by decide +kernel
example : foundPath optsA (.dir [(cs!"package.json", textFile), (cs!"p", .dir [(cs!"index.js", textFile)])]) cs!"/"
    cs!"./p" = none := by decide +kernel

end Verif
