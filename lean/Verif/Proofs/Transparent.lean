import Verif.Proofs.Faithful
import Verif.Proofs.Tsconfig
/-!
# Calls on a file system that does not change do what they would do without caches
-/

namespace Verif

/-! ## Browser maps -/

theorem browserLoop_keys {l : List (Str × Json)} {acc fields : List (Str × AliasMap)}
    (h : browserLoop l acc = some fields) (ha : (acc.map (·.1)).Nodup) :
    (fields.map (·.1)).Nodup := by
  induction l generalizing acc with
  | nil => cases h; exact ha
  | cons kv l ih =>
    obtain ⟨k, v⟩ := kv
    unfold browserLoop at h
    split at h
    · cases h
    · exact ih h (ainsert_keys ha).1
    · split at h
      · exact ih h (ainsert_keys ha).1
      · exact ih h ha

theorem browserFields_keys {json : Json} {fields : List (Str × AliasMap)}
    (h : browserFields json = some fields) : (fields.map (·.1)).Nodup := by
  unfold browserFields at h
  split at h
  · cases h; exact .nil
  · split at h
    · cases h; exact .nil
    · exact browserLoop_keys h .nil

theorem alookup_perm {β : Type} {l m : List (Str × β)} (hp : l.Perm m) (hn : (m.map (·.1)).Nodup)
    (k : Str) : alookup k l = alookup k m := by
  have hn' : (l.map (·.1)).Nodup := (hp.map _).nodup_iff.2 hn
  cases h : alookup k m with
  | none =>
    refine alookup_none.2 fun v hm => ?_
    have := alookup_of_mem hn (hp.mem_iff.1 hm)
    rw [h] at this; cases this
  | some v => exact alookup_of_mem hn' (hp.mem_iff.2 (alookup_mem h))

theorem aliasChain_perm {l m : List (Str × AliasMap)} (hp : l.Perm m) (hn : (m.map (·.1)).Nodup)
    (n : Nat) (to : AliasMap) : aliasChain l n to = aliasChain m n to := by
  induction n generalizing to with
  | zero => rfl
  | succ n ih =>
    cases to with
    | ignored => rfl
    | target t =>
      simp only [aliasChain, alookup_perm hp hn]
      split
      · exact ih _
      · rfl

theorem aliasChain_targets {l : List (Str × AliasMap)}
    (hl : ∀ k t, (k, .target t) ∈ l → t ≠ [] ∧ t ≠ cs!".") {n : Nat} {to : AliasMap} {t : Str}
    (hto : ∀ t, to = .target t → t ≠ [] ∧ t ≠ cs!".") (h : aliasChain l n to = some (.target t)) :
    t ≠ [] ∧ t ≠ cs!"." := by
  induction n generalizing to with
  | zero => cases h
  | succ n ih =>
    cases to with
    | ignored => cases h
    | target t' =>
      unfold aliasChain at h
      split at h
      · rename_i next hn
        exact ih (fun t ht => by subst ht; exact hl _ _ (alookup_mem hn)) h
      · cases h; exact hto _ rfl

/-- The first of a list that satisfies `f`, when no two do. -/
theorem find_perm {α : Type} {l m : List α} {f g : α → Bool} (hp : l.Perm m)
    (hfg : ∀ x ∈ m, f x = g x) (hu : ∀ x ∈ m, ∀ y ∈ m, g x = true → g y = true → x = y) :
    l.find? f = m.find? g := by
  cases hm : m.find? g with
  | none =>
    rw [List.find?_eq_none] at hm ⊢
    intro x hx
    have hx' := hp.mem_iff.1 hx
    rw [hfg x hx']; exact hm x hx'
  | some x =>
    have hx := List.mem_of_find?_eq_some hm
    have hg := List.find?_some hm
    cases hl : l.find? f with
    | none =>
      rw [List.find?_eq_none] at hl
      exact absurd (by rw [hfg x hx]; exact hg) (hl x (hp.mem_iff.2 hx))
    | some y =>
      have hy := hp.mem_iff.1 (List.mem_of_find?_eq_some hl)
      have hgy : g y = true := by rw [← hfg y hy]; exact List.find?_some hl
      rw [hu y hy x hx hgy hg]

theorem aliasMatches_covers {c : Ctx} {p : Pkg} {i : Info} {key : Str}
    (h : i.request.kind ≠ .normal) :
    aliasMatches c p i key = true ↔ Covers c.opts.extensions p.absDir key i.getPath := by
  unfold aliasMatches aliasPathMatches Covers
  rw [if_neg h]
  simp [pathEq, appendExt]

theorem aliasMatches_rel {c c' : Ctx} (ho : c.opts = c'.opts) {p q : Pkg}
    (hd : comps p.absDir = comps q.absDir) (ha : isAbs p.absDir = true) {i j : Info} (h : RI i j)
    (key : Str) : aliasMatches c p i key = aliasMatches c' q j key := by
  obtain ⟨hs, hga⟩ := h.getPath
  by_cases hk : i.request.kind = .normal
  · have hk' : j.request.kind = .normal := by rw [← h.1]; exact hk
    unfold aliasMatches
    rw [if_pos hk, if_pos hk', h.1]
  · have hk' : ¬ j.request.kind = .normal := by rw [← h.1]; exact hk
    rw [Bool.eq_iff_iff, aliasMatches_covers hk, aliasMatches_covers hk', ← ho]
    unfold Covers
    rw [(sim_pjoin ha hd key).1, hs.1]
    have : ∀ ext, comps (i.getPath ++ ext) = comps (j.getPath ++ ext) := fun ext =>
      (sim_append hga hs ext).1
    simp only [this]

/-- What is known about a package read from a file. -/
theorem readPkg_fields {fs : Fs} {d file : Str} {p : Pkg} (h : readPkg fs d file = .ret (.ok p)) :
    ∃ doc json, fs.read file = some doc ∧ doc.json = some json ∧
      browserFields json = some p.aliasFields ∧ p.raw = json := by
  unfold readPkg at h
  split at h
  · rename_i doc m hr hm
    split at h
    · cases h
    · rename_i json hj
      split at h
      · cases h
      · rename_i fields hb
        unfold withTree at h
        refine ⟨doc, json, hr, hj, ?_⟩
        repeat' split at h
        all_goals first
          | cases h; exact ⟨hb, rfl⟩
          | cases h
  · cases h

theorem findPkg_found {fs : Fs} {desc q : Str} {p : Pkg} (ha : isAbs q = true)
    (h : (findPkg fs (some desc) q).Returns (.ok (some p))) :
    ∃ d, closest fs desc q = some d ∧ isAbs d = true ∧ readPkg fs d (pjoin d desc) = .ret (.ok p) := by
  cases hc : closest fs desc q with
  | none => rw [findPkg_none hc] at h; cases h
  | some d =>
    rw [findPkg_here hc] at h
    refine ⟨d, rfl, ?_, ?_⟩
    · clear h
      induction hn : q.length using Nat.strongRecOn generalizing q with
      | ind n ih =>
        subst hn
        rw [closest_step] at hc
        split at hc
        · cases hc; exact ha
        · cases hp : pparent q with
          | none => rw [hp] at hc; cases hc
          | some q' =>
            rw [hp] at hc
            exact ih _ (pparent_length hp) (by rw [isAbs_pparent hp, ha]) hc rfl
    · rcases readPkg_cases fs d (pjoin d desc) with ⟨a, hr⟩ | ⟨s, hr⟩
      · rw [hr] at h ⊢
        cases a with
        | error err => cases h
        | ok p' => cases h; rfl
      · rw [hr] at h; cases h

theorem samePkg_pkgRel {c c' : Ctx} (ho : c.opts = c'.opts) {desc : Str}
    (hb : c.opts.browserField = true → BrowserOk c.fs desc c.opts.extensions) {p q : Pkg} {d : Str}
    (hda : isAbs d = true) (hq : readPkg c.fs d (pjoin d desc) = .ret (.ok q))
    (h : SamePkg c.fs p q) : PkgRel c c' p q := by
  obtain ⟨h1, h2, h3, seed, h4⟩ := h
  refine ⟨h1, h2, h3, by rw [h4], by rw [h4], by rw [h4], fun f _ => by rw [h4], fun hbr => ?_⟩
  obtain ⟨doc, json, hr, hj, hf, -⟩ := readPkg_fields hq
  have hqd := readPkg_dir hq
  obtain ⟨hu, ht⟩ := hb hbr d doc json _ hda hr hj hf
  have hn := browserFields_keys hf
  have hperm : p.aliasFields.Perm q.aliasFields := by
    have : p.aliasFields = permute seed q.aliasFields := by rw [h4]
    rw [this]; exact permute_perm _ _
  refine ⟨fun i j hij => ?_, fun n to => aliasChain_perm hperm hn n to, fun kv hkv n t hc => ?_⟩
  · rw [find_perm hperm (g := fun kv => aliasMatches c' q j kv.1)]
    · intro x _
      exact aliasMatches_rel ho h1 h2 hij x.1
    · rintro ⟨k, v⟩ hx ⟨k', v'⟩ hy hgx hgy
      have hkk : k = k' := by
        by_cases hk : j.request.kind = .normal
        · simp only [aliasMatches, if_pos hk, decide_eq_true_eq] at hgx hgy
          rw [← hgx, ← hgy]
        · rw [aliasMatches_covers hk, hqd, ← ho] at hgx hgy
          obtain ⟨hs, hga⟩ := hij.getPath
          exact hu j.getPath k v k' v' (by rw [← hs.abs]; exact hga) hx hy hgx hgy
      subst hkk
      have e1 := alookup_of_mem hn hx
      have e2 := alookup_of_mem hn hy
      rw [e1] at e2
      cases e2; rfl
  · have ht' : ∀ k t, (k, AliasMap.target t) ∈ p.aliasFields → t ≠ [] ∧ t ≠ cs!"." :=
      fun k t hm => ht k t (hperm.mem_iff.1 hm)
    obtain ⟨k, to⟩ := kv
    exact aliasChain_targets ht' (fun t hto => by subst hto; exact ht' k t hkv) hc

theorem loadPkg_rel {e : Env} {desc : Str} (he : e.Faith)
    (hdesc : e.opts.descriptionFile = some desc)
    (hb : e.opts.browserField = true → BrowserOk e.fs desc e.opts.extensions) {p q : Str}
    (ha : isAbs p = true) (h : comps p = comps q) :
    (loadPkg e p).Rel (FG e.fs desc e.ser) (FR e.fs desc e.ser)
      (LoadRel e.ctx (pureCtx e.opts e.fs e.debug)) (findPkg e.fs (some desc) q) := by
  refine (loadPkgAux_rel he hdesc (by omega) ha h).returns.mono ?_
  rintro a b ⟨hab, hb'⟩
  cases a with
  | error err =>
    cases b with
    | ok y => exact (by cases hab)
    | error err' => exact hab
  | ok x =>
    cases b with
    | error err' => cases x <;> exact (by cases hab)
    | ok y =>
      cases x with
      | none => cases y with
        | none => exact trivial
        | some y => exact (by cases hab)
      | some x => cases y with
        | none => exact (by cases hab)
        | some y =>
          obtain ⟨d, -, hda, hr⟩ := findPkg_found (by rw [← isAbs_of_comps h]; exact ha) hb'
          exact samePkg_pkgRel (c := e.ctx) (c' := pureCtx e.opts e.fs e.debug) rfl hb hda hr hab

/-- Without description file there is nothing to look for. -/
theorem loadPkg_rel_none {e : Env} (hdesc : e.opts.descriptionFile = none) {G : Op → Prop}
    {R : (o : Op) → o.Ret → Prop} {c c' : Ctx} (p : Str) :
    (loadPkg e p).Rel G R (LoadRel c c') (.ret (.ok none)) := by
  unfold loadPkg loadPkgAux
  rw [hdesc]
  exact .ret trivial

/-- What a resolver needs to know. -/
structure Env.Plain (e : Env) : Prop extends Env.Faith e where
  browser : e.opts.browserField = true → ∀ desc, e.opts.descriptionFile = some desc →
    BrowserOk e.fs desc e.opts.extensions
  tsconfig : ∀ l, e.opts.tsconfig = some l → isAbs l = true

/-- `FG` for an optional description file. -/
def FGo (fs : Fs) (desc : Option Str) (ser : Json → Str) (o : Op) : Prop :=
  match desc with
  | some desc => FG fs desc ser o
  | none => o = .seed

/-- `FR` for an optional description file. -/
def FRo (fs : Fs) (desc : Option Str) (ser : Json → Str) (o : Op) (r : o.Ret) : Prop :=
  match desc with
  | some desc => FR fs desc ser o r
  | none => True

theorem env_ctxSim {e : Env} (he : e.Plain) :
    CtxSim (opSys (FGo e.fs e.opts.descriptionFile e.ser) (FRo e.fs e.opts.descriptionFile e.ser)) e.ctx
      (pureCtx e.opts e.fs e.debug) where
  opts := rfl
  debug := rfl
  isFile := he.fs.file
  isDir := he.fs.dir
  pathExists := he.fs.pathExists
  canon := he.fs.canon
  jsonc _ p q ha h := by
    show (e.fs.read p).map _ = (e.fs.read q).map _
    rw [he.fs.read p q ha h]
  dirNotFile := he.fs.dirNotFile
  dirNotFile' := he.fs.dirNotFile
  load p q ha h := by
    show (loadPkg e p).Rel _ _ _ (findPkg e.fs e.opts.descriptionFile q)
    cases hd : e.opts.descriptionFile with
    | none => exact loadPkg_rel_none hd p
    | some desc => exact loadPkg_rel he.toFaith hd (fun hb => he.browser hb desc hd) ha h

/-- A call of `resolve` and the resolver without caches. -/
theorem resolve_rel {e : Env} (he : e.Plain) (n : Nat) {path : Str} (request : Str)
    (ha : isAbs path = true) :
    (resolve e n path request).Rel (FGo e.fs e.opts.descriptionFile e.ser)
      (FRo e.fs e.opts.descriptionFile e.ser) AnsSim
      (resolveCtx (pureCtx e.opts e.fs e.debug) n path request) := by
  refine resolveCtx_rel (env_ctxSim he) (fun _ => ?_) n path request ha he.tsconfig
  show FGo _ _ _ _
  unfold FGo; split
  · trivial
  · rfl

/-- A call of `load_side_effects` and the resolver without caches. -/
theorem sideEffects_rel {e : Env} (he : e.Faith) {path : Str} (ha : isAbs path = true) :
    (loadSideEffects e path).Rel (FGo e.fs e.opts.descriptionFile e.ser)
      (FRo e.fs e.opts.descriptionFile e.ser) SideSim
      (findSideEffects e.fs e.opts.descriptionFile path) := by
  unfold loadSideEffects findSideEffects
  cases hd : e.opts.descriptionFile with
  | none =>
    have : loadPkg e path = .ret (.ok none) := by unfold loadPkg loadPkgAux; rw [hd]
    rw [this]
    exact .ret trivial
  | some desc =>
    refine Prog.Rel.bind (loadPkgAux_rel he hd (by omega) ha rfl) fun a b hab => ?_
    cases a with
    | error err =>
      cases b with
      | ok y => exact (by cases hab)
      | error err' => exact .ret hab
    | ok x =>
      cases b with
      | error err' => cases x <;> exact (by cases hab)
      | ok y =>
        cases x with
        | none => cases y with
          | none => exact .ret trivial
          | some y => exact (by cases hab)
        | some x => cases y with
          | none => exact (by cases hab)
          | some y =>
            obtain ⟨h1, h2, h3, seed, h4⟩ : SamePkg e.fs x y := hab
            refine .ret ⟨(sim_pjoin h2 h1 desc).1, by rw [h4]⟩

theorem Static.env {cfg : Nat → Config} {ser : Json → Str} {fs : Fs} (h : Static cfg ser fs)
    (rid : Nat) : ((cfg rid).env ser fs).Plain where
  fs := h.lawful
  debug := h.debug rid
  ser := h.inj
  mix := h.mix
  browser hb desc hd := h.browser rid desc hb hd
  tsconfig := h.tsconfig rid

theorem call_rel {cfg : Nat → Config} {ser : Json → Str} {fs : Fs} (h : Static cfg ser fs)
    (rid : Nat) {call : Call} (hc : call.abs) (fuel : Nat) :
    (call.prog ((cfg rid).env ser fs) fuel).Rel (FGo fs (cfg rid).opts.descriptionFile ser)
      (FRo fs (cfg rid).opts.descriptionFile ser) Answer.Sim (call.pure (cfg rid) fs fuel) := by
  cases call with
  | resolve path request =>
    exact (resolve_rel (h.env rid) fuel request hc).bind fun a b hab => .ret hab
  | sideEffects path =>
    exact (sideEffects_rel (h.env rid).toFaith hc).bind fun a b hab => .ret hab

/-! ## Faithful states -/

/-- A state whose caches are faithful. -/
structure FaithW (fs : Fs) (desc : Str) (ser : Json → Str) (w : World) : Prop where
  pkg : ∀ key v, w.pkg key = some v → FaithPkg fs desc key v
  trees : ∀ k t, w.exportsTree k = some t → TreeOk fs ser k t
  imports : ∀ k, w.importsTree k = none
  file : ∀ key m, w.file key = some m → MtimeOk fs desc key m

/-- The same for an optional description file. -/
def FaithWo (fs : Fs) (desc : Option Str) (ser : Json → Str) (w : World) : Prop :=
  ∀ d, desc = some d → FaithW fs d ser w

theorem faithW_init (fs : Fs) (desc : Str) (ser : Json → Str) (seeds : Nat → Nat) :
    FaithW fs desc ser (World.init seeds) :=
  ⟨nofun, nofun, fun _ => rfl, nofun⟩

theorem faithW_exec {fs : Fs} {desc : Str} {ser : Json → Str} {w : World} (h : FaithW fs desc ser w)
    {o : Op} (hg : FG fs desc ser o) :
    FaithW fs desc ser (o.exec w).2 ∧ FR fs desc ser o (o.exec w).1 := by
  obtain ⟨h1, h2, h3, h4⟩ := h
  cases o with
  | getPkg d => exact ⟨⟨h1, h2, h3, h4⟩, fun v hv => h1 _ v hv⟩
  | putPkg d v =>
    refine ⟨⟨fun key v' hv => ?_, h2, h3, h4⟩, trivial⟩
    simp only [Op.exec, upd] at hv
    split at hv
    · rename_i hk
      cases hv; rw [hk]; exact hg
    · exact h1 _ _ hv
  | getExports k => exact ⟨⟨h1, h2, h3, h4⟩, fun t ht => h2 _ _ ht⟩
  | getImports k => exact ⟨⟨h1, h2, h3, h4⟩, h3 _⟩
  | putExports k t =>
    refine ⟨⟨h1, fun k' t' hv => ?_, h3, h4⟩, trivial⟩
    simp only [Op.exec, upd] at hv
    split at hv
    · rename_i hk
      cases hv; rw [hk]; exact hg
    · exact h2 _ _ hv
  | getFile p => exact ⟨⟨h1, h2, h3, h4⟩, fun m hm => h4 _ _ hm⟩
  | putFile p m =>
    refine ⟨⟨h1, h2, h3, fun key m' hv => ?_⟩, trivial⟩
    simp only [Op.exec, upd] at hv
    split at hv
    · rename_i hk
      cases hv; rw [hk]; exact hg
    · exact h4 _ _ hv
  | dbgHas p => exact ⟨⟨h1, h2, h3, h4⟩, trivial⟩
  | dbgIns p => exact ⟨⟨h1, h2, h3, h4⟩, trivial⟩
  | dbgDel p => exact ⟨⟨h1, h2, h3, h4⟩, trivial⟩
  | seed => exact ⟨⟨h1, h2, h3, h4⟩, trivial⟩

theorem faithWo_exec {fs : Fs} {desc : Option Str} {ser : Json → Str} {w : World}
    (h : FaithWo fs desc ser w) {o : Op} (hg : FGo fs desc ser o) :
    FaithWo fs desc ser (o.exec w).2 ∧ FRo fs desc ser o (o.exec w).1 := by
  cases desc with
  | none => exact ⟨nofun, trivial⟩
  | some desc =>
    obtain ⟨h1, h2⟩ := faithW_exec (h desc rfl) hg
    exact ⟨fun d hd => by cases hd; exact h1, h2⟩

/-- The caches are faithful for every resolver. -/
def Faithful (cfg : Nat → Config) (ser : Json → Str) (fs : Fs) (s : Shared) : Prop :=
  ∀ rid seeds, FaithWo fs (cfg rid).opts.descriptionFile ser (s.view cfg rid seeds)

theorem faithful_init (cfg : Nat → Config) (ser : Json → Str) (fs : Fs) :
    Faithful cfg ser fs Shared.init :=
  fun _ _ _ _ => ⟨nofun, nofun, fun _ => rfl, nofun⟩

theorem faithful_step {cfg : Nat → Config} {ser : Json → Str} {fs : Fs} (hs : Static cfg ser fs)
    {s : Shared} (h : Faithful cfg ser fs s) {rid : Nat} {o : Op}
    (hg : FGo fs (cfg rid).opts.descriptionFile ser o) (seeds : Nat → Nat) :
    Faithful cfg ser fs (s.store cfg rid (o.exec (s.view cfg rid seeds)).2) ∧
      FRo fs (cfg rid).opts.descriptionFile ser o (o.exec (s.view cfg rid seeds)).1 := by
  obtain ⟨h1, h2⟩ := faithWo_exec (h rid seeds) hg
  refine ⟨fun rid' seeds' d' hd' => ?_, h2⟩
  have hold := h rid' seeds' d' hd'
  have hcache : (cfg rid').cache = (cfg rid).cache → ∀ d, (cfg rid).opts.descriptionFile = some d →
      (∀ key v, (o.exec (s.view cfg rid seeds)).2.pkg key = some v → FaithPkg fs d' key v) ∧
      (∀ k t, (o.exec (s.view cfg rid seeds)).2.exportsTree k = some t → TreeOk fs ser k t) ∧
      ∀ k, (o.exec (s.view cfg rid seeds)).2.importsTree k = none := by
    intro hc d hd
    obtain rfl := hs.desc rid' rid d' d hc hd' hd
    have := h1 d' hd
    exact ⟨this.pkg, this.trees, this.imports⟩
  have hnone : (cfg rid).opts.descriptionFile = none →
      (o.exec (s.view cfg rid seeds)).2.pkg = (s.view cfg rid seeds).pkg ∧
      (o.exec (s.view cfg rid seeds)).2.exportsTree = (s.view cfg rid seeds).exportsTree ∧
      (o.exec (s.view cfg rid seeds)).2.importsTree = (s.view cfg rid seeds).importsTree := by
    intro hd
    unfold FGo at hg
    rw [hd] at hg
    have hg : o = .seed := hg
    subst hg
    exact ⟨rfl, rfl, rfl⟩
  generalize (o.exec (s.view cfg rid seeds)).2 = w at h1 hcache hnone ⊢
  refine ⟨?_, ?_, ?_, ?_⟩
  · intro key v hv
    simp only [Shared.view, Shared.store, upd] at hv
    split at hv
    · rename_i hc
      cases hd : (cfg rid).opts.descriptionFile with
      | none =>
        refine hold.pkg key v ?_
        have hv : w.pkg key = some v := hv
        rw [(hnone hd).1] at hv
        simp only [Shared.view] at hv ⊢
        rw [hc]; exact hv
      | some d => exact (hcache hc d hd).1 key v hv
    · exact hold.pkg key v hv
  · intro key v hv
    simp only [Shared.view, Shared.store, upd] at hv
    split at hv
    · rename_i hc
      cases hd : (cfg rid).opts.descriptionFile with
      | none =>
        refine hold.trees key v ?_
        have hv : w.exportsTree key = some v := hv
        rw [(hnone hd).2.1] at hv
        simp only [Shared.view] at hv ⊢
        rw [hc]; exact hv
      | some d => exact (hcache hc d hd).2.1 key v hv
    · exact hold.trees key v hv
  · intro key
    simp only [Shared.view, Shared.store, upd]
    split
    · rename_i hc
      cases hd : (cfg rid).opts.descriptionFile with
      | none =>
        have := hold.imports key
        show w.importsTree key = none
        rw [(hnone hd).2.2]
        simp only [Shared.view] at this ⊢
        rw [← hc]; exact this
      | some d => exact (hcache hc d hd).2.2 key
    · exact hold.imports key
  · intro key m hm
    simp only [Shared.view, Shared.store, upd] at hm
    split at hm
    · rename_i hr
      subst hr
      exact (h1 d' hd').file key m hm
    · exact hold.file key m hm

/-! ## Whole systems -/

/-- What is left of a task goes the same way as something the call without caches may come to. -/
def Follows (cfg : Nat → Config) (ser : Json → Str) (fs : Fs) (t : Task) : Prop :=
  t.fs = fs ∧ ∃ q, t.prog.Rel (FGo fs (cfg t.rid).opts.descriptionFile ser)
    (FRo fs (cfg t.rid).opts.descriptionFile ser) Answer.Sim q ∧
    ∀ o, q.Ends o → (t.call.pure (cfg t.rid) fs t.fuel).Ends o

theorem follows_step {cfg : Nat → Config} {ser : Json → Str} {fs : Fs} {t : Task}
    (h : Follows cfg ser fs t) {o : Op} {k : o.Ret → Prog Answer} (hp : t.prog = .op o k) :
    FGo fs (cfg t.rid).opts.descriptionFile ser o ∧
      ∀ r, FRo fs (cfg t.rid).opts.descriptionFile ser o r →
        Follows cfg ser fs { t with prog := k r } := by
  obtain ⟨hfs, q, hq, he⟩ := h
  rw [hp] at hq
  cases hq with
  | left hg hk => exact ⟨hg, fun r hr => ⟨hfs, q, hk r hr, he⟩⟩
  | both hg hk =>
    exact ⟨hg, fun r hr => ⟨hfs, _, hk r hr, fun o ho => he o (.op r ho)⟩⟩

theorem static_after {cfg : Nat → Config} {ser : Json → Str} {fs : Fs} (hs : Static cfg ser fs)
    {l : List Event} (hl : ∀ e ∈ l, e.calm) :
    Faithful cfg ser fs ((Sys.init fs).after cfg ser l).shared ∧
      ((Sys.init fs).after cfg ser l).fs = fs ∧
      ∀ t ∈ ((Sys.init fs).after cfg ser l).tasks, Follows cfg ser fs t := by
  have key : ∀ (l : List Event) (s : Sys), (∀ e ∈ l, e.calm) →
      (Faithful cfg ser fs s.shared ∧ s.fs = fs ∧ ∀ t ∈ s.tasks, Follows cfg ser fs t) →
      Faithful cfg ser fs (s.after cfg ser l).shared ∧ (s.after cfg ser l).fs = fs ∧
        ∀ t ∈ (s.after cfg ser l).tasks, Follows cfg ser fs t := by
    intro l
    induction l with
    | nil => intro s _ h; exact h
    | cons e l ih =>
      intro s hl h
      refine ih (s.next cfg ser e) (fun e he => hl e (List.mem_cons_of_mem _ he)) ?_
      obtain ⟨h1, h2, h3⟩ := h
      have he := hl e (by simp)
      cases e with
      | start rid call fuel =>
        refine ⟨h1, h2, fun t ht => ?_⟩
        rcases List.mem_append.1 ht with ht | ht
        · exact h3 t ht
        · rw [List.mem_singleton.1 ht]
          refine ⟨h2, _, ?_, fun o ho => ho⟩
          simp only
          rw [h2]
          exact call_rel hs rid he fuel
      | change fs => exact (he : False).elim
      | step i seed =>
        unfold Sys.next
        simp only
        split
        · exact ⟨h1, h2, h3⟩
        · rename_i t hi
          split
          · rename_i o k hp
            obtain ⟨hg, hk⟩ := follows_step (h3 t (List.mem_of_getElem? hi)) hp
            obtain ⟨hj, hr⟩ := faithful_step hs h1 hg fun _ => seed
            refine ⟨hj, h2, fun t' ht' => ?_⟩
            rcases List.mem_or_eq_of_mem_set ht' with ht' | rfl
            · exact h3 t' ht'
            · exact hk _ hr
          · exact ⟨h1, h2, h3⟩
  exact key l _ hl ⟨faithful_init cfg ser fs, rfl, fun t ht => by cases ht⟩

theorem Prog.Rel.ends {α β : Type} {G : Op → Prop} {R : (o : Op) → o.Ret → Prop} {Q : α → β → Prop}
    {p : Prog α} {q : Prog β} (h : p.Rel G R Q q) {o : Outcome α} (hp : p.outcome = some o) :
    ∃ o', q.Ends o' ∧ o.Like Q o' := by
  cases h with
  | ret h => cases hp; exact ⟨_, .ret _, h⟩
  | crash c => cases hp; exact ⟨_, .crash c, rfl⟩
  | left _ _ => cases hp
  | both _ _ => cases hp

/-- A call that is over ended as the call without caches may end. -/
theorem static_ends {cfg : Nat → Config} {ser : Json → Str} {fs : Fs} (hs : Static cfg ser fs)
    {l : List Event} (hl : ∀ e ∈ l, e.calm) {t : Task}
    (ht : t ∈ ((Sys.init fs).after cfg ser l).tasks) {o : Outcome Answer}
    (ho : t.prog.outcome = some o) :
    ∃ o', (t.call.pure (cfg t.rid) fs t.fuel).Ends o' ∧ o.Like Answer.Sim o' := by
  obtain ⟨-, q, hq, he⟩ := (static_after hs hl).2.2 t ht
  obtain ⟨o', h1, h2⟩ := hq.ends ho
  exact ⟨o', he o' h1, h2⟩

/-! ## Running alone -/

theorem Prog.Rel.run {α β : Type} {fs : Fs} {desc : Option Str} {ser : Json → Str}
    {Q : α → β → Prop} {p : Prog α} {q : Prog β}
    (h : p.Rel (FGo fs desc ser) (FRo fs desc ser) Q q) {w : World} (hw : FaithWo fs desc ser w) :
    ∃ o, q.Ends o ∧ (p.run w).1.Like Q o := by
  induction h generalizing w with
  | ret h => exact ⟨_, .ret _, h⟩
  | crash c => exact ⟨_, .crash c, rfl⟩
  | left hg _ ih =>
    obtain ⟨h1, h2⟩ := faithWo_exec hw hg
    exact ih _ h2 h1
  | both hg _ ih =>
    obtain ⟨h1, h2⟩ := faithWo_exec hw hg
    obtain ⟨o, h3, h4⟩ := ih _ h2 h1
    exact ⟨o, .op _ h3, h4⟩

theorem exec_seeds {o : Op} (ho : o ≠ .seed) (w : World) (seeds : Nat → Nat) :
    o.exec { w with seeds := seeds } = ((o.exec w).1, { (o.exec w).2 with seeds := seeds }) := by
  cases o <;> first | rfl | exact absurd rfl ho

theorem faithWo_seeds {fs : Fs} {desc : Option Str} {ser : Json → Str} {w : World}
    (h : FaithWo fs desc ser w) (seeds : Nat → Nat) :
    FaithWo fs desc ser { w with seeds := seeds } :=
  fun d hd => ⟨(h d hd).1, (h d hd).2, (h d hd).3, (h d hd).4⟩

/-- Every end of the call without caches is an end of the call alone, for some hash seeds. -/
theorem Prog.Rel.run_exists {α β : Type} {fs : Fs} {desc : Option Str} {ser : Json → Str}
    {Q : α → β → Prop} {p : Prog α} {q : Prog β}
    (h : p.Rel (FGo fs desc ser) (FRo fs desc ser) Q q) {w : World} (hw : FaithWo fs desc ser w)
    {o : Outcome β} (ho : q.Ends o) : ∃ seeds, (p.run { w with seeds := seeds }).1.Like Q o := by
  induction h generalizing w with
  | ret h => cases ho; exact ⟨w.seeds, h⟩
  | crash c => cases ho; exact ⟨w.seeds, rfl⟩
  | @left o' k q hg _ ih =>
    by_cases hs : o' = .seed
    · subst hs
      obtain ⟨seeds, h⟩ := ih (0 : Nat) (by unfold FRo; split <;> trivial) hw ho
      refine ⟨fun n => match n with
        | 0 => 0
        | n + 1 => seeds n, h⟩
    · obtain ⟨h1, h2⟩ := faithWo_exec hw hg
      obtain ⟨seeds, h⟩ := ih _ h2 h1 ho
      refine ⟨seeds, ?_⟩
      rw [Prog.run, exec_seeds hs w seeds]
      exact h
  | @both k k' hg _ ih =>
    cases ho with
    | op r ho =>
      obtain ⟨seeds, h⟩ := ih r (by unfold FRo; split <;> trivial) hw ho
      refine ⟨fun n => match n with
        | 0 => r
        | n + 1 => seeds n, h⟩

/-! ## Without tsconfig the call without caches is a value -/

theorem pure_ctxSim {o : Opts} {fs : Fs} (debug : Bool) (hfs : fs.Lawful)
    (hb : o.browserField = true → ∀ desc, o.descriptionFile = some desc →
      BrowserOk fs desc o.extensions) {G : Op → Prop} {R : (o : Op) → o.Ret → Prop} :
    CtxSim (opSys G R) (pureCtx o fs debug) (pureCtx o fs debug) where
  opts := rfl
  debug := rfl
  isFile := hfs.file
  isDir := hfs.dir
  pathExists := hfs.pathExists
  canon := hfs.canon
  jsonc _ p q ha h := by
    show (fs.read p).map _ = (fs.read q).map _
    rw [hfs.read p q ha h]
  dirNotFile := hfs.dirNotFile
  dirNotFile' := hfs.dirNotFile
  load p q ha h := by
    show (findPkg fs o.descriptionFile p).Rel _ _ _ (findPkg fs o.descriptionFile q)
    cases hd : o.descriptionFile with
    | none => exact .ret trivial
    | some desc =>
      rcases closest_comps (desc := desc) hfs ha h with ⟨h1, h2⟩ | ⟨d, d', h1, h2, h3, h4, h5, -⟩
      · rw [findPkg_none h1, findPkg_none h2]; exact .ret trivial
      · rw [findPkg_here h1, findPkg_here h2]
        refine Prog.Rel.bind (readPkg_comps hfs h4 h3).returns fun a b ⟨hab, hb'⟩ => ?_
        cases a with
        | error err =>
          cases b with
          | ok y => exact (by cases hab)
          | error err' => exact .ret hab
        | ok x =>
          cases b with
          | error err' => exact (by cases hab)
          | ok y =>
            have hxy : x = { y with absDir := d } := hab
            have hr := readPkg_returns hb'
            have hyd := readPkg_dir hr
            have had' : isAbs d' = true := by rw [← isAbs_of_comps h3]; exact h4
            obtain ⟨seed, hseed⟩ := permute_surj (List.Perm.refl y.aliasFields)
            refine .ret (samePkg_pkgRel (c := pureCtx o fs debug) rfl
              (fun hbr => hb hbr desc hd) had' hr ⟨?_, ?_, ?_, seed, ?_⟩)
            · rw [hxy, hyd]; exact h3
            · rw [hxy]; exact h4
            · rw [hxy]; exact h5
            · rw [hseed, hxy]

theorem Prog.Rel.leaf {α β : Type} {R : (o : Op) → o.Ret → Prop} {Q : α → β → Prop}
    {p : Prog α} {q : Prog β} (h : p.Rel (fun _ => False) R Q q) :
    ∃ o, p.outcome = some o := by
  cases h with
  | ret _ => exact ⟨_, rfl⟩
  | crash c => exact ⟨_, rfl⟩
  | left hg _ => exact hg.elim
  | both hg _ => exact hg.elim

theorem Prog.outcome_ends {α : Type} {p : Prog α} {o o' : Outcome α} (h : p.outcome = some o)
    (he : p.Ends o') : o' = o := by
  cases he with
  | ret a => cases h; rfl
  | crash c => cases h; rfl
  | op r _ => cases h

theorem pure_leaf {o : Opts} {fs : Fs} (debug : Bool) (hfs : fs.Lawful)
    (hb : o.browserField = true → ∀ desc, o.descriptionFile = some desc →
      BrowserOk fs desc o.extensions) (hts : o.tsconfig = none) (n : Nat) {path : Str}
    (request : Str) (ha : isAbs path = true) :
    ∃ x, (resolveCtx (pureCtx o fs debug) n path request).outcome = some x :=
  Prog.Rel.leaf (R := fun _ _ => True) (resolveCtx_rel (pure_ctxSim debug hfs hb)
    (fun h => absurd hts h) n path request ha (fun l hl => by
      have : o.tsconfig = some l := hl
      rw [hts] at this; cases this))

end Verif
