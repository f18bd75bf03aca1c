import Verif.Proofs.LoadFuel
import Verif.Proofs.Success
import Verif.Proofs.Query
/-!
# Panics in any history of calls and changes of files
-/

namespace Verif

/-- As `system_inv`, for the ways in which calls may end. -/
theorem system_rely {cfg : Nat → Config} {ser : Json → Str} {okFs : Fs → Prop}
    {G : Nat → Op → Prop} {R : Nat → (o : Op) → o.Ret → Prop} {J : Shared → Prop}
    {B : Nat → Fs → Call → Crash → Prop} {P : Nat → Fs → Call → Answer → Prop}
    (hJ : ∀ s rid o seeds, J s → G rid o →
      J (s.store cfg rid (Op.exec (s.view cfg rid seeds) o).2) ∧
      R rid o (Op.exec (s.view cfg rid seeds) o).1)
    (hsat : ∀ rid fs (call : Call) fuel, okFs fs →
      (call.prog ((cfg rid).env ser fs) fuel).Sat (G rid) (R rid) fun _ => True)
    (hgood : ∀ rid fs (call : Call) fuel, okFs fs →
      (call.prog ((cfg rid).env ser fs) fuel).Good (R rid) (B rid fs call) (P rid fs call))
    {fs : Fs} (hfs : okFs fs) {l : List Event} (hl : ∀ fs', .change fs' ∈ l → okFs fs')
    (hinit : J Shared.init) :
    ∀ t ∈ ((Sys.init fs).after cfg ser l).tasks,
      t.prog.Good (R t.rid) (B t.rid t.fs t.call) (P t.rid t.fs t.call) := by
  have key : ∀ (l : List Event) (s : Sys), (∀ fs', .change fs' ∈ l → okFs fs') →
      (J s.shared ∧ okFs s.fs ∧ ∀ t ∈ s.tasks, t.prog.Sat (G t.rid) (R t.rid) (fun _ => True) ∧
        t.prog.Good (R t.rid) (B t.rid t.fs t.call) (P t.rid t.fs t.call)) →
      ∀ t ∈ (s.after cfg ser l).tasks,
        t.prog.Good (R t.rid) (B t.rid t.fs t.call) (P t.rid t.fs t.call) := by
    intro l
    induction l with
    | nil => intro s _ h t ht; exact (h.2.2 t ht).2
    | cons e l ih =>
      intro s hl h
      refine ih (s.next cfg ser e) (fun e he => hl e (List.mem_cons_of_mem _ he)) ?_
      obtain ⟨h1, h2, h3⟩ := h
      cases e with
      | start rid call fuel =>
        refine ⟨h1, h2, fun t ht => ?_⟩
        rcases List.mem_append.1 ht with ht | ht
        · exact h3 t ht
        · rw [List.mem_singleton.1 ht]
          exact ⟨hsat rid s.fs call fuel h2, hgood rid s.fs call fuel h2⟩
      | change fs => exact ⟨h1, hl fs (List.mem_cons_self ..), h3⟩
      | step i seed =>
        unfold Sys.next
        simp only
        split
        · exact ⟨h1, h2, h3⟩
        · rename_i t hi
          split
          · rename_i o k hp
            have ht := h3 t (List.mem_of_getElem? hi)
            rw [hp] at ht
            obtain ⟨hj, hr⟩ := hJ s.shared t.rid o (fun _ => seed) h1 ht.1.1
            refine ⟨hj, h2, fun t' ht' => ?_⟩
            rcases List.mem_or_eq_of_mem_set ht' with ht' | rfl
            · exact h3 t' ht'
            · exact ⟨ht.1.2 _ hr, ht.2 _ hr⟩
          · exact ⟨h1, h2, h3⟩
  exact key l (Sys.init fs) hl ⟨hinit, hfs, fun t ht => by cases ht⟩

/-! ## What is in the caches -/

/-- A map built from a field of a file. -/
def TreeOf (S : Sources) (root : Node) : Prop :=
  ∃ v k, (S.field cs!"exports" v ∨ S.field cs!"imports" v) ∧ buildTree k v = some (.ok root)

/-- A package read from a file. -/
structure Origin (F : Fs → Prop) (p : Pkg) : Prop where
  file : ∃ fs file doc, F fs ∧ fs.read file = some doc ∧ doc.json = some p.raw
  browser : ∀ k v, (k, v) ∈ p.aliasFields → BrowserEntry p.raw k v
  exports : ∀ root, p.exportsTree = some root → TreeOf (.among F) root
  imports : ∀ root, p.importsTree = some root → TreeOf (.among F) root

/-- What is stored for a directory. -/
def StoredIn (F : Fs → Prop) (key : List Comp) (r : Option (Option Pkg)) : Prop :=
  ∀ p, r = some (some p) → comps p.absDir = key ∧ Origin F p

/-- What may be stored. -/
def HistG (F : Fs → Prop) : Op → Prop
  | .putPkg d v => StoredIn F (comps d) (some v)
  | .putExports _ t => TreeOf (.among F) t
  | _ => True

/-- What may be answered. -/
def HistR (F : Fs → Prop) : (o : Op) → o.Ret → Prop
  | .getPkg d, r => StoredIn F (comps d) r
  | .getExports _, r => ∀ t, r = some t → TreeOf (.among F) t
  | .getImports _, r => ∀ t, r = some t → TreeOf (.among F) t
  | _, _ => True

/-- What is in the caches. -/
def HistJ (F : Fs → Prop) (s : Shared) : Prop :=
  ∀ c, (∀ key, StoredIn F key ((s.caches c).pkg key)) ∧
    (∀ key t, (s.caches c).exportsTree key = some t → TreeOf (.among F) t) ∧
    ∀ key t, (s.caches c).importsTree key = some t → TreeOf (.among F) t

theorem hist_init (F : Fs → Prop) : HistJ F Shared.init :=
  fun _ => ⟨fun _ => nofun, fun _ _ => nofun, fun _ _ => nofun⟩

theorem hist_step {F : Fs → Prop} {cfg : Nat → Config} (s : Shared) (rid : Nat) (o : Op) (seeds : Nat → Nat)
    (h : HistJ F s) (hg : HistG F o) :
    HistJ F (s.store cfg rid (Op.exec (s.view cfg rid seeds) o).2) ∧
      HistR F o (Op.exec (s.view cfg rid seeds) o).1 := by
  have put : ∀ w : World, (∀ key, StoredIn F key (w.pkg key)) →
      (∀ key t, w.exportsTree key = some t → TreeOf (.among F) t) →
      (∀ key t, w.importsTree key = some t → TreeOf (.among F) t) → HistJ F (s.store cfg rid w) := by
    intro w h1 h2 h3 c
    simp only [Shared.store, upd]
    split
    · exact ⟨h1, h2, h3⟩
    · exact h c
  obtain ⟨h1, h2, h3⟩ := h (cfg rid).cache
  cases o with
  | getPkg d => exact ⟨put _ h1 h2 h3, h1 _⟩
  | getExports k => exact ⟨put _ h1 h2 h3, h2 k⟩
  | getImports k => exact ⟨put _ h1 h2 h3, h3 k⟩
  | putPkg d v =>
    refine ⟨put _ (fun key => ?_) h2 h3, trivial⟩
    simp only [Op.exec, Shared.view, upd]
    split
    · rename_i hk
      rw [hk]
      exact hg
    · exact h1 key
  | putExports k t =>
    refine ⟨put _ h1 (fun key t' => ?_) h3, trivial⟩
    simp only [Op.exec, Shared.view, upd]
    split
    · intro h
      cases h
      exact hg
    · exact h2 key t'
  | _ => exact ⟨put _ h1 h2 h3, trivial⟩

theorem treeFrom_origin {F : Fs → Prop} {e : Env} {v : Json} {t : Node} {k : FieldKind}
    (hv : (Sources.among F).field cs!"exports" v ∨ (Sources.among F).field cs!"imports" v)
    (h : TreeFrom (HistR F) e k v t) : TreeOf (.among F) t := by
  rcases h with h | h
  · exact ⟨v, k, hv, h⟩
  · cases k with
    | exports => exact h t rfl
    | imports => exact h t rfl

theorem parsed_origin {F : Fs → Prop} {e : Env} {d path : Str} {p : Pkg}
    (hF : ∀ doc, e.fs.read path = some doc → ∃ fs, F fs ∧ fs.read path = some doc)
    (h : Parsed (HistR F) e d path p) : Origin F p := by
  obtain ⟨doc, h0, h2⟩ := h.read
  obtain ⟨fs, hF, h1⟩ := hF doc h0
  refine ⟨⟨fs, path, doc, hF, h1, h2⟩, fun k v hm => ?_, fun root hr => ?_, fun root hr => ?_⟩
  · obtain ⟨seed, fields, h3, h4⟩ := h.browser
    rw [h4] at hm
    exact browserFields_written h3 (mem_permute hm)
  · have h3 := h.exports
    split at h3
    · rw [h3] at hr; cases hr
    · rename_i v hv
      obtain ⟨t, h4, h5⟩ := h3
      rw [h4] at hr
      cases hr
      exact treeFrom_origin (.inl ⟨fs, hF, path, doc, _, h1, h2, hv⟩) h5
  · have h3 := h.imports
    split at h3
    · rw [h3] at hr; cases hr
    · rename_i v hv
      obtain ⟨t, h4, h5⟩ := h3
      rw [h4] at hr
      cases hr
      exact treeFrom_origin (.inr ⟨fs, hF, path, doc, _, h1, h2, hv⟩) h5

theorem loadPkg_hist {F : Fs → Prop} (e : Env) (hF : F e.fs) (path : Str) :
    (loadPkg e path).Sat (HistG F) (HistR F) fun r =>
      ∀ p, r = .ok (some p) → comps p.absDir <+: comps path ∧ Origin F p := by
  refine (loadPkg_sat e (fun o ho => ?_) (fun _ _ => nofun)
    (fun d p => comps p.absDir = comps d ∧ Origin F p) (fun desc d p _ _ hp => ?_)
    (fun d p _ h => h p rfl) path).mono fun r hr p hp => ?_
  · cases o with
    | putPkg d v => exact ho.elim
    | putExports key t =>
      obtain ⟨v, -, h⟩ := ho
      rcases h with ⟨h1, h2⟩ | ⟨h1, h2⟩
      · exact ⟨v, _, .inl ⟨e.fs, hF, h1⟩, h2⟩
      · exact ⟨v, _, .inr ⟨e.fs, hF, h1⟩, h2⟩
    | _ => trivial
  · have := parsed_origin (fun _ h => ⟨_, hF, h⟩) hp
    refine ⟨⟨by rw [hp.dir], this⟩, fun q hq => ?_⟩
    cases hq
    exact ⟨by rw [hp.dir], this⟩
  · obtain ⟨d, h1, -, h2, h3⟩ := hr.1 p hp
    exact ⟨h2 ▸ h1.1, h3⟩

theorem Origin.known {F : Fs → Prop} {d : Str} {p : Pkg} (hd : comps p.absDir <+: comps d)
    (h : Origin F p) : KnownPkg (.among F) d p := by
  obtain ⟨fs, file, doc, h1, h2, h3⟩ := h.file
  refine ⟨⟨hd, h.file, h.browser⟩, fun k t hm => ?_, h.exports, h.imports⟩
  cases h.browser k _ hm with
  | target h4 h5 => exact ⟨_, ⟨fs, h1, file, doc, _, h2, h3, h4⟩, h5⟩

/-- The panics of a call that are accounted for, in a history with the file systems `F`. -/
def HistB (F : Fs → Prop) (cfg : Config) (fs : Fs) (call : Call) : Crash → Prop
  | .panic s => call.Blame cfg.opts (.among F) fs s ∨ (s = .dbgReparse ∧ cfg.debug = true)
  | _ => True

theorem loadSite_blame {S : Sources} {e : Env} (hS : ∀ name v, IsField e.fs name v → S.field name v)
    {s : Site} (h : LoadSite e s) (path request : Str) :
    ((s = .buildTree ∨ s = .browserTrue) ∧ Blame e.opts S e.fs path request s) ∨
      (s = .dbgReparse ∧ e.debug = true) := by
  cases h with
  | exports h1 h2 =>
    refine .inl ⟨.inl rfl, ?_⟩
    rcases buildTree_none h2 with h | ⟨h, -⟩
    · exact Blame.exports (hS _ _ h1) h
    · cases h
  | imports h1 h2 =>
    refine .inl ⟨.inl rfl, ?_⟩
    rcases buildTree_none h2 with h | ⟨-, h⟩
    · exact Blame.imports (hS _ _ h1) (.inl h)
    · exact Blame.imports (hS _ _ h1) (.inr h)
  | browser h1 h2 => exact .inl ⟨.inr rfl, Blame.browser (hS _ _ h1) h2⟩
  | debug h => exact .inr ⟨rfl, h⟩

theorem good_hist {F : Fs → Prop} (cfg : Config) (ser : Json → Str) {fs : Fs} (hF : F fs) (call : Call)
    (n : Nat) :
    (call.prog (cfg.env ser fs) n).Good (HistR F) (HistB F cfg fs call) fun _ => True := by
  cases call with
  | resolve path request =>
    unfold Call.prog resolve
    refine Prog.Good.bind (Q := fun _ => True) ?_ fun r _ => trivial
    refine good_blame (S := .among F) n path request trivial (fun s h => .inl h) (fun p => ?_) fun _ => ?_
    · have h1 : (loadPkg (cfg.env ser fs) p).Good (HistR F) (HistB F cfg fs (.resolve path request))
          fun _ => True := by
        refine ((loadPkg_fuel (cfg.env ser fs) p).weaken fun c hc => ?_).mono fun _ _ => trivial
        cases c with
        | panic s => exact (loadSite_blame (e := cfg.env ser fs) (S := .among F) (fun _ _ h => ⟨fs, hF, h⟩) hc path request).imp (·.2) id
        | hang => exact trivial
        | fuel => exact trivial
      exact (h1.sat (loadPkg_hist (cfg.env ser fs) hF p)).mono fun r hr pkg h =>
        (hr.2 pkg h).2.known (hr.2 pkg h).1
    · refine (resolveStats_fileOk (cfg.env ser fs) n path request).mono fun s hs i h => ?_
      subst h
      exact FileOk.target hs
  | sideEffects path =>
    unfold Call.prog
    refine Prog.Good.bind (Q := fun _ => True) ?_ fun r _ => trivial
    refine (good_sideEffects (cfg.env ser fs) path).weaken fun c hc => ?_
    cases c with
    | panic s => exact loadSite_blame (e := cfg.env ser fs) (S := .among F) (fun _ _ h => ⟨fs, hF, h⟩) hc path []
    | hang => exact trivial
    | fuel => exact trivial

theorem sat_hist {F : Fs → Prop} (cfg : Config) (ser : Json → Str) {fs : Fs} (hF : F fs) (call : Call)
    (n : Nat) : (call.prog (cfg.env ser fs) n).Sat (HistG F) (HistR F) fun _ => True := by
  cases call with
  | resolve p r =>
    unfold Call.prog
    refine Prog.Sat.bind (P := fun _ => True) ?_ fun x _ => trivial
    exact resolve_any _ trivial (fun p => (loadPkg_hist _ hF p).mono fun _ _ => trivial) _ _ _
  | sideEffects p =>
    unfold Call.prog loadSideEffects
    refine Prog.Sat.bind (P := fun _ => True) (Prog.Sat.bind (loadPkg_hist _ hF p) fun x _ => ?_)
      fun x _ => trivial
    cases x with
    | error err => trivial
    | ok o =>
      cases o with
      | none => trivial
      | some pkg =>
        simp only
        split <;> trivial

/-- Every panic in any history is accounted for. -/
theorem history_blame {cfg : Nat → Config} {ser : Json → Str} {fs : Fs} {l : List Event} {t : Task}
    (ht : t ∈ ((Sys.init fs).after cfg ser l).tasks) {site : Site}
    (ho : t.prog.outcome = some (.crashed (.panic site))) :
    t.call.Blame (cfg t.rid).opts (.among fun fs' => fs' = fs ∨ .change fs' ∈ l) t.fs site ∨
      (site = .dbgReparse ∧ (cfg t.rid).debug = true) := by
  have key := system_rely (cfg := cfg) (ser := ser) (okFs := fun fs' => fs' = fs ∨ .change fs' ∈ l)
    (G := fun _ => HistG fun fs' => fs' = fs ∨ .change fs' ∈ l)
    (R := fun _ => HistR fun fs' => fs' = fs ∨ .change fs' ∈ l)
    (J := HistJ fun fs' => fs' = fs ∨ .change fs' ∈ l)
    (B := fun rid fs' call => HistB (fun fs' => fs' = fs ∨ .change fs' ∈ l) (cfg rid) fs' call)
    (P := fun _ _ _ _ => True)
    (fun s rid o seeds h hg => hist_step s rid o seeds h hg) ?_ ?_ (.inl rfl) (l := l) (fun _ h => .inr h) (hist_init _) t ht
  · have hp : t.prog = .crash (.panic site) := by
      cases h : t.prog with
      | ret a => rw [h] at ho; cases ho
      | op o k => rw [h] at ho; cases ho
      | crash c' => rw [h] at ho; cases ho; rfl
    rw [hp] at key
    exact key
  · exact fun rid fs' call n h => sat_hist (F := fun fs' => fs' = fs ∨ .change fs' ∈ l) (cfg rid) ser h call n
  · exact fun rid fs' call n h => good_hist (F := fun fs' => fs' = fs ∨ .change fs' ∈ l) (cfg rid) ser h call n

end Verif
