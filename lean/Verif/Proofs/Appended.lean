import Verif.Spec.Appended
import Verif.Proofs.Yields
import Verif.Proofs.Dirs
import Verif.Proofs.BrowserOff
/-!
# The resolver with longer lists of extensions and of main files
-/

namespace Verif

/-- The second program (with more fuel) does what the first does, or it comes to something new. -/
inductive Prog.Grows {α : Type} (New : α → Prop) : Prog α → Prog α → Prop where
  | fuel (q : Prog α) : Prog.Grows New (.crash .fuel) q
  | ret (a : α) : Prog.Grows New (.ret a) (.ret a)
  | crash (c : Crash) : Prog.Grows New (.crash c) (.crash c)
  | found (p : Prog α) {a : α} : New a → Prog.Grows New p (.ret a)

theorem Prog.Grows.bind {α β : Type} {New : α → Prop} {New' : β → Prop} {p q : Prog α}
    {f g : α → Prog β} (h : p.Grows New q) (hf : ∀ a, (f a).Grows New' (g a))
    (hn : ∀ a, New a → ∃ b, g a = .ret b ∧ New' b) : (p.bind f).Grows New' (q.bind g) := by
  cases h with
  | fuel => exact .fuel _
  | ret a => exact hf a
  | crash c => exact .crash c
  | found _ ha =>
    obtain ⟨b, h1, h2⟩ := hn _ ha
    show (p.bind f).Grows New' (g _)
    rw [h1]
    exact .found _ h2

/-- The two sides do the same. -/
theorem Prog.Grows.of_cases {α : Type} {New : α → Prop} {p : Prog α}
    (h : (∃ a, p = .ret a) ∨ ∃ c, p = .crash c) : p.Grows New p := by
  rcases h with ⟨a, rfl⟩ | ⟨c, rfl⟩
  · exact .ret a
  · exact .crash c

theorem normalizeResult_file {c : Ctx} (hd : c.debug = false) (p query fragment : Str) :
    ∃ b, normalizeResult c (.info ⟨p, ⟨[], query, fragment, .relative⟩⟩) = .ret b ∧
      FileAnswer c.opts c.fs p query fragment b := by
  unfold normalizeResult normalizePath
  simp only [hd, Bool.false_and, Bool.false_eq_true, if_false]
  cases hs : c.opts.symlinks with
  | false => exact ⟨_, rfl, .path (.lexical hs)⟩
  | true =>
    simp only [if_true]
    cases hc : c.fs.canon p with
    | none => exact ⟨_, rfl, .noPath hs hc⟩
    | some r => exact ⟨_, rfl, .path (.canonical hs hc)⟩

/-- A success with a new file. -/
def NewStats (o : Opts) (exts mains : List Str) (fs : Fs) : Stats → Prop
  | .success (.info i) => NewFile o exts mains fs i.path ∧ i.request.target = [] ∧ i.request.kind = .relative
  | _ => False

section
variable {o : Opts} {exts mains : List Str} {fs : Fs}

local notation "ca" => pureCtx o fs false
local notation "cb" => pureCtx (Opts.appended o exts mains) fs false
local notation "Nw" => NewStats o exts mains fs

theorem NewStats.passes {s : Stats} (h : Nw s) : ∃ i, s = .success (.info i) := by
  cases s with
  | success r =>
    cases r with
    | info i => exact ⟨i, rfl⟩
    | ignored => exact h.elim
  | resolving i => exact h.elim
  | error e i => exact h.elim

/-- One stage after another. -/
theorem Prog.Grows.andThen {p q : Prog Stats} {f g : Info → Prog Stats} (h : p.Grows Nw q)
    (hf : ∀ i, (f i).Grows Nw (g i)) :
    (p.bind fun s => s.andThen f).Grows Nw (q.bind fun s => s.andThen g) := by
  refine h.bind (fun s => ?_) fun s hs => ?_
  · cases s with
    | resolving i => exact hf i
    | success r => exact .ret _
    | error e i => exact .ret _
  · obtain ⟨i, rfl⟩ := hs.passes
    exact ⟨_, rfl, hs⟩

theorem Prog.Grows.stage {s : Stats} {f g : Info → Prog Stats} (hf : ∀ i, (f i).Grows Nw (g i)) :
    (s.andThen f).Grows Nw (s.andThen g) := by
  cases s with
  | resolving i => exact hf i
  | success r => exact .ret _
  | error e i => exact .ret _

theorem grows_load {α : Type} {New' : α → Prop} {p : Str} {f g : Except Err (Option Pkg) → Prog α}
    (h : ∀ r, (f r).Grows New' (g r)) : (((ca).load p).bind f).Grows New' (((cb).load p).bind g) := by
  refine Prog.Grows.bind (New := fun _ => False) (.of_cases ?_) h nofun
  exact findPkg_cases fs o.descriptionFile p

theorem fileCandidates_appended (p : Str) :
    fileCandidates (o.appended exts mains) p = fileCandidates o p ++ exts.map fun ext => p ++ ext := by
  unfold fileCandidates Opts.appended
  simp only [List.map_append]
  split <;> simp

theorem grows_file (i : Info) :
    (Prog.ret (resolveAsFile ca i)).Grows Nw (.ret (resolveAsFile cb i)) := by
  have he := fileCandidates_appended (o := o) (exts := exts) (mains := mains)
    (targetPath i.path i.request.target)
  rcases resolveAsFile_cases ca i with ⟨p, ⟨a, b, h1, h2, h3⟩, h4⟩ | ⟨h1, h2⟩
  · have : resolveAsFile cb i = _ := resolveAsFile_first (c := cb) (info := i) (p := p)
      ⟨a, b ++ exts.map fun ext => targetPath i.path i.request.target ++ ext,
        by rw [show (cb).opts = o.appended exts mains from rfl, he,
          show fileCandidates o _ = a ++ p :: b from h1]; simp, h2, h3⟩
    rw [h4, this]
    exact .ret _
  · rcases resolveAsFile_cases cb i with ⟨p, ⟨a, b, h3, h4, -⟩, h5⟩ | ⟨-, h3⟩
    · rw [h5]
      refine .found _ ⟨⟨h4, ?_⟩, rfl, rfl⟩
      have hp : p ∈ fileCandidates o (targetPath i.path i.request.target) ++
          exts.map fun ext => targetPath i.path i.request.target ++ ext := by
        rw [← he, show fileCandidates (o.appended exts mains) _ = a ++ p :: b from h3]
        simp
      rcases List.mem_append.1 hp with hp | hp
      · cases (h1 p hp).symm.trans h4
      · obtain ⟨ext, hx, rfl⟩ := List.mem_map.1 hp
        exact .inl ⟨_, ext, hx, rfl⟩
    · rw [h2, h3]
      exact .ret _

theorem Prog.leaf_bind {α β : Type} {p : Prog α} {f : α → Prog β}
    (h : (∃ a, p = .ret a) ∨ ∃ c, p = .crash c)
    (hf : ∀ a, (∃ b, f a = .ret b) ∨ ∃ c, f a = .crash c) :
    (∃ b, p.bind f = .ret b) ∨ ∃ c, p.bind f = .crash c := by
  rcases h with ⟨a, rfl⟩ | ⟨c, rfl⟩
  · exact hf a
  · exact .inr ⟨c, rfl⟩

theorem exportsPlugin_leaf (c : Ctx) (pkg : Option Pkg) (i : Info) :
    (∃ s, exportsPlugin c pkg i = .ret s) ∨ ∃ x, exportsPlugin c pkg i = .crash x := by
  unfold exportsPlugin
  split
  · exact .inl ⟨_, rfl⟩
  · split
    · exact .inl ⟨_, rfl⟩
    · split
      · exact .inl ⟨_, rfl⟩
      · split
        · exact .inl ⟨_, rfl⟩
        · refine Prog.leaf_bind ?_ fun r => ?_
          · unfold exportsRequestOf
            dsimp only
            generalize (if startsWith i.request.target cs!"@" = true then _ else _ : Option Str) = x
            cases x with
            | none => exact .inr ⟨_, rfl⟩
            | some x =>
              dsimp only
              repeat' split
              all_goals exact .inl ⟨_, rfl⟩
          · split
            · exact .inl ⟨_, rfl⟩
            · split
              · exact .inr ⟨_, rfl⟩
              · exact .inl ⟨_, rfl⟩
              · split <;> exact .inl ⟨_, rfl⟩

theorem exportsPlugin_appended (pkg : Option Pkg) (i : Info) :
    exportsPlugin cb pkg i = exportsPlugin ca pkg i := by
  unfold exportsPlugin
  have : ∀ d l, exportsPick cb d l = exportsPick ca d l := by
    intro d l
    induction l with
    | nil => rfl
    | cons x l ih => unfold exportsPick; rw [ih]; rfl
  simp only [this]
  rfl

theorem grows_exports (pkg : Option Pkg) (i : Info) :
    (exportsPlugin ca pkg i).Grows Nw (exportsPlugin cb pkg i) := by
  rw [exportsPlugin_appended]
  exact .of_cases (exportsPlugin_leaf ..)

variable (hb : o.browserField = false)
include hb

theorem aliasField_off (n : Nat) (pkg : Option Pkg) (i : Info) :
    aliasFieldPlugin ca n pkg i = .ret (.resolving i) ∧
      aliasFieldPlugin cb n pkg i = .ret (.resolving i) := by
  unfold aliasFieldPlugin
  simp [pureCtx, Opts.appended, hb]

theorem grows_alias (n m : Nat) (pkg : Option Pkg) (i : Info) :
    (aliasFieldPlugin ca n pkg i).Grows Nw (aliasFieldPlugin cb m pkg i) := by
  rw [(aliasField_off (exts := exts) (mains := mains) hb n pkg i).1,
    (aliasField_off (exts := exts) (mains := mains) hb m pkg i).2]
  exact .ret _

theorem grows_imports (n : Nat) (pkg : Option Pkg) (i : Info) :
    (importsPlugin ca n pkg i).Grows Nw (importsPlugin cb (n + 1) pkg i) := by
  induction n generalizing pkg i with
  | zero => exact .fuel _
  | succ n ih =>
    unfold importsPlugin
    cases pkg with
    | none => exact .ret _
    | some pkg =>
      dsimp only
      by_cases h1 : (!startsWith i.request.target cs!"#") = true
      · simp only [if_pos h1]; exact .ret _
      · simp only [if_neg h1]
        cases pkg.importsTree with
        | none => exact .ret _
        | some root =>
          dsimp only
          show Prog.Grows _ _ (match fieldProcess .imports root i.request.target o.conditionNames with
            | none => _ | some (.error err) => _ | some (.ok []) => _ | some (.ok (item :: _)) => _)
          show Prog.Grows _ (match fieldProcess .imports root i.request.target o.conditionNames with
            | none => _ | some (.error err) => _ | some (.ok []) => _ | some (.ok (item :: _)) => _) _
          split
          · exact .crash _
          · exact .ret _
          · exact .ret _
          · rename_i item _ _
            by_cases h2 : (parseRequest item).kind = .normal
            · simp only [if_pos h2]
              refine grows_load fun r => ?_
              cases r with
              | error err => exact .ret _
              | ok pkg' =>
                dsimp only
                split
                · exact .ret _
                · refine (grows_exports _ _).bind (fun s => ?_) fun s hs => ?_
                  · refine Prog.Grows.bind (.stage (ih _)) (fun s => ?_) fun s hs => ?_
                    · refine Prog.Grows.bind (.stage (grows_alias hb _ _ _)) (fun s => ?_) fun s hs => ?_
                      · exact .stage fun i => .ret _
                      · obtain ⟨i, rfl⟩ := hs.passes
                        exact ⟨_, rfl, hs⟩
                    · obtain ⟨i, rfl⟩ := hs.passes
                      exact ⟨_, rfl, hs⟩
                  · obtain ⟨i, rfl⟩ := hs.passes
                    exact ⟨_, rfl, hs⟩
            · simp only [if_neg h2]
              split
              · exact ih _ _
              · exact .ret _

theorem grows_mainFileLoop (n : Nat) (pkg : Option Pkg) (info : Info) (l : List Str) (cur : Info) :
    (mainFileLoop ca n pkg info l cur).Grows Nw (mainFileLoop cb (n + 1) pkg info (l ++ mains) cur) := by
  induction l generalizing cur with
  | nil =>
    have hs := mainFileLoop_spec cb n pkg info cur mains (.inl hb)
    rcases firstIn_or_none (fun p => fs.isFile p = true)
      (mains.flatMap fun m => fileCandidates (cb).opts (pjoin cur.path (cs!"./" ++ m))) with ⟨p, h⟩ | h
    · rw [List.nil_append, hs.1 p h]
      obtain ⟨a, b, h1, h2, -⟩ := h
      refine .found _ ⟨⟨h2, .inr ?_⟩, rfl, rfl⟩
      have hp : p ∈ mains.flatMap fun m => fileCandidates (cb).opts (pjoin cur.path (cs!"./" ++ m)) := by
        rw [h1]; simp
      obtain ⟨m, hm, hp⟩ := List.mem_flatMap.1 hp
      exact ⟨cur.path, m, hm, hp⟩
    · rw [List.nil_append, hs.2 fun p hp => Bool.eq_false_iff.2 (h p hp)]
      exact .ret _
  | cons f l ih =>
    rw [List.cons_append]
    unfold mainFileLoop
    refine Prog.Grows.bind (New := Nw) ?_ (fun s => ?_) fun s hs => ?_
    · refine (grows_exports _ _).bind (fun s => ?_) fun s hs => ?_
      · refine Prog.Grows.bind (.stage (grows_imports hb _ _)) (fun s => ?_) fun s hs => ?_
        · refine Prog.Grows.bind (.stage (grows_alias hb _ _ _)) (fun s => ?_) fun s hs => ?_
          · exact .stage grows_file
          · obtain ⟨i, rfl⟩ := hs.passes
            exact ⟨_, rfl, hs⟩
        · obtain ⟨i, rfl⟩ := hs.passes
          exact ⟨_, rfl, hs⟩
      · obtain ⟨i, rfl⟩ := hs.passes
        exact ⟨_, rfl, hs⟩
    · cases s with
      | success r => exact .ret _
      | resolving i => exact ih i
      | error e i => exact ih i
    · obtain ⟨i, rfl⟩ := hs.passes
      exact ⟨_, rfl, hs⟩

theorem grows_mainFieldLoop (n : Nat) {asDir asDir' : Info → Prog Stats}
    (hd : ∀ i, (asDir i).Grows Nw (asDir' i)) (pkg : Pkg) (info : Info) (l : List Str) (cur : Info) :
    (mainFieldLoop ca n asDir pkg info l cur).Grows Nw
      (mainFieldLoop cb (n + 1) asDir' pkg info l cur) := by
  induction l generalizing cur with
  | nil => exact .ret _
  | cons f l ih =>
    unfold mainFieldLoop
    split
    · exact ih cur
    · dsimp only
      split
      · exact .ret _
      · refine Prog.Grows.bind (New := Nw) ?_ (fun s => ?_) fun s hs => ?_
        · refine (grows_alias hb _ _ _ _).bind (fun s => ?_) fun s hs => ?_
          · refine Prog.Grows.bind (.stage grows_file) (fun s => ?_) fun s hs => ?_
            · exact .stage hd
            · obtain ⟨i, rfl⟩ := hs.passes
              exact ⟨_, rfl, hs⟩
          · obtain ⟨i, rfl⟩ := hs.passes
            exact ⟨_, rfl, hs⟩
        · cases s with
          | success r => exact .ret _
          | resolving i => exact ih i
          | error e i => exact ih i
        · obtain ⟨i, rfl⟩ := hs.passes
          exact ⟨_, rfl, hs⟩

theorem grows_dir (n : Nat) (i : Info) :
    (resolveAsDir ca n i).Grows Nw (resolveAsDir cb (n + 1) i) := by
  induction n generalizing i with
  | zero => exact .fuel _
  | succ n ih =>
    unfold resolveAsDir
    by_cases h : fs.isDir i.getPath = true
    · have h1 : (!(ca).fs.isDir i.getPath) = false := congrArg (!·) h
      have h2 : (!(cb).fs.isDir i.getPath) = false := congrArg (!·) h
      simp only [h1, h2, Bool.false_eq_true, if_false]
      refine grows_load fun r => ?_
      cases r with
      | error err => exact .ret _
      | ok pkg =>
        dsimp only
        refine Prog.Grows.andThen ?_ fun i => grows_mainFileLoop hb _ _ _ _ _
        unfold mainFieldPlugin
        cases pkg with
        | none => exact .ret _
        | some pkg =>
          dsimp only
          split
          · exact .ret _
          · exact grows_mainFieldLoop hb _ ih _ _ _ _
    · have h1 : (!(ca).fs.isDir i.getPath) = true := congrArg (!·) (Bool.eq_false_iff.2 h)
      have h2 : (!(cb).fs.isDir i.getPath) = true := congrArg (!·) (Bool.eq_false_iff.2 h)
      simp only [h1, h2, if_true]
      exact .ret _

theorem grows_chain (n : Nat) (pkg : Option Pkg) (i : Info) :
    (modulePackageChain ca n pkg i).Grows Nw (modulePackageChain cb (n + 1) pkg i) := by
  unfold modulePackageChain
  refine (grows_exports _ _).bind (fun s => ?_) fun s hs => ?_
  · refine Prog.Grows.bind (.stage (grows_imports hb _ _)) (fun s => ?_) fun s hs => ?_
    · refine Prog.Grows.bind (.stage fun i => grows_alias hb _ _ _ _) (fun s => ?_) fun s hs => ?_
      · refine Prog.Grows.bind (.stage grows_file) (fun s => ?_) fun s hs => ?_
        · exact .stage (grows_dir hb _)
        · obtain ⟨i, rfl⟩ := hs.passes
          exact ⟨_, rfl, hs⟩
      · obtain ⟨i, rfl⟩ := hs.passes
        exact ⟨_, rfl, hs⟩
    · obtain ⟨i, rfl⟩ := hs.passes
      exact ⟨_, rfl, hs⟩
  · obtain ⟨i, rfl⟩ := hs.passes
    exact ⟨_, rfl, hs⟩

theorem grows_moduleStep (n : Nat) (i : Info) :
    (moduleStep ca n i).Grows (fun x => Nw x.1 ∧ x.2 = false) (moduleStep cb (n + 1) i) := by
  unfold moduleStep
  dsimp only
  split
  · rename_i h
    rw [if_pos (show (!(cb).fs.isDir _) = true from h)]
    exact .ret _
  · rename_i h
    rw [if_neg (show ¬ (!(cb).fs.isDir _) = true from h)]
    split
    · exact .crash _
    · refine grows_load fun r => ?_
      cases r with
      | error err => exact .ret _
      | ok pkg =>
        dsimp only
        split
        · rename_i h
          rw [if_pos (show (!(cb).fs.isDir _ && _) = true from h)]
          have := grows_file (o := o) (exts := exts) (mains := mains) (fs := fs)
            ⟨pjoin i.path MODULE, i.request⟩
          generalize resolveAsFile ca ⟨pjoin i.path MODULE, i.request⟩ = s at this ⊢
          generalize resolveAsFile cb ⟨pjoin i.path MODULE, i.request⟩ = s' at this ⊢
          cases this with
          | ret => split <;> exact .ret _
          | found _ hn =>
            obtain ⟨j, rfl⟩ := hn.passes
            exact .found _ ⟨hn, rfl⟩
        · rename_i h
          rw [if_neg (show ¬ (!(cb).fs.isDir _ && _) = true from h)]
          refine (grows_chain hb _ _ _).bind (fun s => ?_) fun s hs => ?_
          · cases s with
            | success r => exact .ret _
            | resolving j => exact .ret _
            | error e j => dsimp only; split <;> exact .ret _
          · obtain ⟨j, rfl⟩ := hs.passes
            exact ⟨_, rfl, hs, rfl⟩

theorem grows_modules (n : Nat) (i : Info) :
    (resolveAsModules ca n i).Grows Nw (resolveAsModules cb (n + 1) i) := by
  induction n generalizing i with
  | zero => exact .fuel _
  | succ n ih =>
    unfold resolveAsModules
    refine (grows_moduleStep hb n i).bind (fun x => ?_) fun x hx => ?_
    · obtain ⟨s, b⟩ := x
      cases b with
      | true => exact .ret _
      | false =>
        refine Prog.Grows.bind (New := Nw) (.stage fun j => ?_) (fun s => ?_) fun s hs => ?_
        · split
          · exact ih _
          · exact .ret _
        · cases s <;> exact .ret _
        · obtain ⟨j, rfl⟩ := hs.passes
          exact ⟨_, rfl, hs⟩
    · obtain ⟨s, b⟩ := x
      obtain ⟨h1, h2⟩ := hx
      cases (h2 : b = false)
      obtain ⟨j, rfl⟩ := NewStats.passes h1
      exact ⟨_, rfl, h1⟩

omit hb in
theorem grows_aliasLoop {rec rec' : Info → Prog Stats} (hr : ∀ i, (rec i).Grows Nw (rec' i)) (info : Info)
    (l : List (Str × AliasMap)) : (aliasLoop rec info l).Grows Nw (aliasLoop rec' info l) := by
  induction l with
  | nil => exact .ret _
  | cons kv l ih =>
    obtain ⟨from_, to⟩ := kv
    unfold aliasLoop
    dsimp only
    split
    · cases to with
      | ignored => exact .ret _
      | target to =>
        dsimp only
        split
        · exact ih
        · refine (hr _).bind (fun s => ?_) fun s hs => ?_
          · cases s with
            | success r => exact .ret _
            | resolving j => exact ih
            | error e j => exact ih
          · obtain ⟨j, rfl⟩ := hs.passes
            exact ⟨_, rfl, hs⟩
    · exact ih

theorem grows_inner (n : Nat) (i : Info) :
    (resolveInner ca n i).Grows Nw (resolveInner cb (n + 1) i) := by
  induction n generalizing i with
  | zero => exact .fuel _
  | succ n ih =>
    unfold resolveInner
    refine Prog.Grows.bind (New := Nw) ?_ (fun s => ?_) fun s hs => ?_
    · refine Prog.Grows.bind (New := Nw) ?_ (fun s => ?_) fun s hs => ?_
      · unfold aliasPlugin
        split
        · exact .ret _
        · exact grows_aliasLoop ih _ _
      · refine Prog.Grows.bind (New := Nw) (.stage fun i => ?_) (fun s => ?_) fun s hs => ?_
        · unfold preferRelativePlugin
          split
          · exact .ret _
          · split
            · rename_i h
              rw [if_pos (show (cb).opts.preferRelative = true from h)]
              refine (ih _).bind (fun s => ?_) fun s hs => ?_
              · cases s <;> exact .ret _
              · obtain ⟨j, rfl⟩ := hs.passes
                exact ⟨_, rfl, hs⟩
            · rename_i h
              rw [if_neg (show ¬ (cb).opts.preferRelative = true from h)]
              exact .ret _
        · refine Prog.Grows.bind (New := Nw) (.stage fun i => ?_) (fun s => ?_) fun s hs => ?_
          · unfold pkgStage
            refine grows_load fun r => ?_
            cases r with
            | error err => exact .ret _
            | ok pkg => exact Prog.Grows.andThen (grows_imports hb _ _ _) (grows_alias hb _ _ _)
          · refine .stage fun i => ?_
            unfold lastStage
            have : ((resolveAsFile ca i).andThen fun i => resolveAsDir ca n i).Grows Nw
                ((resolveAsFile cb i).andThen fun i => resolveAsDir cb (n + 1) i) :=
              Prog.Grows.andThen (grows_file i) (grows_dir hb n)
            split
            · exact this
            · exact this
            · exact this
            · exact grows_modules hb _ _
          · obtain ⟨j, rfl⟩ := hs.passes
            exact ⟨_, rfl, hs⟩
        · obtain ⟨j, rfl⟩ := hs.passes
          exact ⟨_, rfl, hs⟩
      · obtain ⟨j, rfl⟩ := hs.passes
        exact ⟨_, rfl, hs⟩
    · cases s with
      | success r => exact .ret _
      | resolving j => exact .crash _
      | error e j => exact .ret _
    · obtain ⟨j, rfl⟩ := hs.passes
      exact ⟨_, rfl, hs⟩

theorem grows_resolve (ht : o.tsconfig = none) (n : Nat) (path request : Str) :
    (resolveCtx ca n path request).Grows (NewAnswer o exts mains fs)
      (resolveCtx cb (n + 1) path request) := by
  unfold resolveCtx resolveStats
  have h1 : (ca).opts.tsconfig = none := ht
  have h2 : (cb).opts.tsconfig = none := ht
  simp only [h1, h2]
  refine (grows_inner hb n _).bind (fun s => ?_) fun s hs => ?_
  · cases s with
    | error e i => exact .ret _
    | resolving i => exact .crash _
    | success r =>
      show (normalizeResult ca r).Grows _ (normalizeResult ca r)
      refine .of_cases ?_
      unfold normalizeResult
      split
      · split
        · exact .inr ⟨_, rfl⟩
        · split <;> exact .inl ⟨_, rfl⟩
      · exact .inl ⟨_, rfl⟩
  · obtain ⟨⟨p, t, q, f, k⟩, rfl⟩ := hs.passes
    obtain ⟨hf, ht', hk⟩ := hs
    cases (ht' : t = [])
    cases (hk : k = .relative)
    obtain ⟨b, h3, h4⟩ := normalizeResult_file (c := ca) rfl p q f
    exact ⟨b, h3, p, q, f, hf, h4⟩

end

end Verif
