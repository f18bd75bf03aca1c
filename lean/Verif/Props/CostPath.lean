import Verif.Proofs.CostPath
import Verif.Props.Cost
/-!
# C86: requests by path take a bounded number of steps
-/

namespace Verif.Live

variable {cfg : Nat → Config} {ser : Json → Str} {fs : Fs}

/-- C86: a request by path, to which no alias applies, that names no directory ends after at most
`5 * d + e + 21` steps of its own, where `d` is the depth of the path it names and `e` the number of extensions,
whatever other calls do in the meantime, if the directories and the places of description files stay as they are
from its start on. Files may come and go, and contents and times may change at any moment. -/
theorem C86_file (l1 l2 : List Event) (rid fuel : Nat) (path request : Str) (ha : isAbs path = true)
    (hp : Plain (cfg rid).opts path (parseRequest request).target) (hb : (cfg rid).opts.browserField = false)
    (hk : IsPath (parseRequest request).target) (D F : Str → Bool)
    (hup : ∀ p q, isAbs p = true → D p = true → pparent p = some q → D q = true)
    (hdir : D (targetPath path (parseRequest request).target) = false)
    (h0 : Layout (cfg rid).opts.descriptionFile D F ((Sys.init fs).after cfg ser l1).fs)
    (hl : ∀ fs', .change fs' ∈ l2 → Layout (cfg rid).opts.descriptionFile D F fs') (hfuel : 2 ≤ fuel)
    (hn : 5 * depth (targetPath path (parseRequest request).target) + (cfg rid).opts.extensions.length + 21 ≤
      stepsOf ((Sys.init fs).after cfg ser l1).tasks.length l2) :
    ∃ x, ((Sys.init fs).after cfg ser (l1 ++ .start rid (.resolve path request) fuel :: l2)).ended
        ((Sys.init fs).after cfg ser l1).tasks.length = some x ∧
      x ≠ .crashed .hang ∧ x ≠ .crashed .fuel := by
  obtain ⟨x, hx, hk⟩ := bound_ended (A := fun q r => ∃ fs', Layout (cfg rid).opts.descriptionFile D F fs' ∧
      q.answer fs' = r) (R := fun _ _ => True) (K := fun c => ∃ s, c = .panic s) (P := fun _ => True)
    (fun fs q h => ⟨fs, h, rfl⟩) (fun _ _ _ _ _ => trivial) (fun _ _ _ _ => trivial) l1 l2 h0 hl trivial
    (.resolve path request) fuel _ (resolve_bound (D := D) (F := F) (fun s => ⟨s, rfl⟩)
      (by rintro d b hd ⟨fs', h, rfl⟩; exact h.isDir d hd)
      (by rintro name d b hname hd ⟨fs', h, rfl⟩; exact h.isFile d name hname hd) hup ha hp hb hk hdir hfuel) hn
  refine ⟨x, hx, ?_, ?_⟩ <;>
  · rintro rfl
    obtain ⟨s, hs⟩ := hk _ rfl
    cases hs

/-- C86 for directories too, if there are no main fields: then at most `10 * d + (m + 1) * (e + 1) + 38` steps,
where `m` is the number of main files. -/
theorem C86_directory (l1 l2 : List Event) (rid fuel : Nat) (path request : Str) (ha : isAbs path = true)
    (hp : Plain (cfg rid).opts path (parseRequest request).target) (hb : (cfg rid).opts.browserField = false)
    (hk : IsPath (parseRequest request).target) (hmain : (cfg rid).opts.mainFields = []) (D F : Str → Bool)
    (hup : ∀ p q, isAbs p = true → D p = true → pparent p = some q → D q = true)
    (h0 : Layout (cfg rid).opts.descriptionFile D F ((Sys.init fs).after cfg ser l1).fs)
    (hl : ∀ fs', .change fs' ∈ l2 → Layout (cfg rid).opts.descriptionFile D F fs') (hfuel : 3 ≤ fuel)
    (hn : 10 * depth (targetPath path (parseRequest request).target) +
        ((cfg rid).opts.mainFiles.length + 1) * ((cfg rid).opts.extensions.length + 1) + 38 ≤
      stepsOf ((Sys.init fs).after cfg ser l1).tasks.length l2) :
    ∃ x, ((Sys.init fs).after cfg ser (l1 ++ .start rid (.resolve path request) fuel :: l2)).ended
        ((Sys.init fs).after cfg ser l1).tasks.length = some x ∧
      x ≠ .crashed .hang ∧ x ≠ .crashed .fuel := by
  obtain ⟨x, hx, hk⟩ := bound_ended (A := fun q r => ∃ fs', Layout (cfg rid).opts.descriptionFile D F fs' ∧
      q.answer fs' = r) (R := fun _ _ => True) (K := fun c => ∃ s, c = .panic s) (P := fun _ => True)
    (fun fs q h => ⟨fs, h, rfl⟩) (fun _ _ _ _ _ => trivial) (fun _ _ _ _ => trivial) l1 l2 h0 hl trivial
    (.resolve path request) fuel _ (resolve_bound_dir (D := D) (F := F) (fun s => ⟨s, rfl⟩)
      (by rintro d b hd ⟨fs', h, rfl⟩; exact h.isDir d hd)
      (by rintro name d b hname hd ⟨fs', h, rfl⟩; exact h.isFile d name hname hd) hup ha hp hb hk hmain hfuel) hn
  refine ⟨x, hx, ?_, ?_⟩ <;>
  · rintro rfl
    obtain ⟨s, hs⟩ := hk _ rfl
    cases hs

/-! ## The hypotheses are met -/

/-- `/a/b/c/x.json` with a description file in `/a`. -/
def treePathCost : Tree :=
  .dir [(cs!"a", .dir [(cs!"package.json", jsonFile (.obj [])),
    (cs!"b", .dir [(cs!"c", .dir [(cs!"x.json", textFile)])])])]

/-- After how many steps a request from `/a/b/c` ends, with empty caches. -/
def stepsToPath (o : Opts) (request : Str) : Option Nat :=
  (List.range 60).find? fun n => (((Sys.init (treeFs treePathCost [])).after (fun _ => config o 0) serJson
    (.start 0 (.resolve cs!"/a/b/c" request) 20 :: List.replicate n (.step 0 0))).ended 0).isSome

-- the bound is 5 * 5 + 3 + 21 = 49
example : stepsToPath optsA cs!"./x" = some 18 ∧ stepsToPath optsA cs!"./x.json" = some 16 ∧ stepsToPath optsA cs!"./y" = some 20 := by
  decide +kernel
-- the bound is 10 * 4 + 2 * 4 + 38 = 86
example : stepsToPath { optsA with mainFields := [] } cs!"." = some 35 := by decide +kernel
example : Plain optsA cs!"/a/b/c" (parseRequest cs!"./x").target :=
  ⟨rfl, .inr (by decide), .inr (.inl (by decide))⟩
example : IsPath (parseRequest cs!"./x").target := .inl (by decide)
example : let fs := treeFs treePathCost []
    Layout (some cs!"package.json") fs.isDir (fun d => fs.isFile (pjoin d cs!"package.json")) fs ∧
      fs.isDir (targetPath cs!"/a/b/c" (parseRequest cs!"./x").target) = false :=
  ⟨⟨fun _ _ => rfl, fun _ _ h _ => by cases h; rfl⟩, by decide +kernel⟩
example : depth (targetPath cs!"/a/b/c" (parseRequest cs!"./x").target) = 5 := by decide

end Verif.Live
