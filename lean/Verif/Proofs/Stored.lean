import Verif.Proofs.LiveHistory
import Verif.Proofs.BrowserMap
import Verif.Proofs.Lawful
import Verif.Proofs.SideEffects
import Verif.Spec.Stored
/-!
# What the caches hold, while files change
-/

namespace Verif.Live

/-- As `live_got`, for the shared state, with demands that depend on the resolver. -/
theorem live_shared {cfg : Nat → Config} {ser : Json → Str} {F : Fs → Prop}
    {A : (q : Query) → q.Ret → Prop} (hA : ∀ fs q, F fs → A q (q.answer fs)) {G : Nat → Op → Prop}
    {R : Nat → (o : Op) → o.Ret → Prop} {J : Shared → Prop} (hJ : ∀ s rid o seeds, J s → G rid o →
      J (s.store cfg rid (Op.exec (s.view cfg rid seeds) o).2) ∧
        R rid o (Op.exec (s.view cfg rid seeds) o).1)
    (hinit : J Shared.init)
    (hcall : ∀ rid fuel call, (Live.prog (host (cfg rid) ser fuel) fuel call).Sat A (G rid) (R rid)
      (fun _ => True) fun _ => True)
    {fs : Fs} {l : List Event} (hF : ∀ fs', Versions fs l fs' → F fs') :
    J ((Sys.init fs).after cfg ser l).shared := by
  have key : ∀ (l : List Event) (s : Sys), (∀ fs', .change fs' ∈ l → F fs') → (J s.shared ∧ F s.fs ∧ ∀ t ∈ s.tasks,
      t.prog.Sat A (G t.rid) (R t.rid) (fun _ => True) fun _ => True) →
      J (s.after cfg ser l).shared := by
    intro l
    induction l with
    | nil => exact fun s _ h => h.1
    | cons e l ih =>
      intro s hl hs
      refine ih (s.next cfg ser e) (fun _ h => hl _ (List.mem_cons_of_mem _ h)) ?_
      obtain ⟨h1, h2, h3⟩ := hs
      cases e with
      | start rid call fuel =>
        refine ⟨h1, h2, fun t ht => ?_⟩
        rcases List.mem_append.1 ht with ht | ht
        · exact h3 t ht
        · rw [List.mem_singleton.1 ht]; exact hcall _ _ _
      | change fs => exact ⟨h1, hl fs (List.mem_cons_self ..), h3⟩
      | step i seed =>
        unfold Sys.next
        dsimp only
        split
        · exact ⟨h1, h2, h3⟩
        · rename_i t hi
          have ht := h3 t (List.mem_of_getElem? hi)
          split
          · rename_i q k hp
            rw [hp] at ht
            refine ⟨h1, h2, fun t' ht' => ?_⟩
            rcases List.mem_or_eq_of_mem_set ht' with ht' | rfl
            · exact h3 t' ht'
            · exact ht _ (hA _ _ h2)
          · rename_i o k hp
            rw [hp] at ht
            obtain ⟨hj, hr⟩ := hJ s.shared t.rid o (fun _ => seed) h1 ht.1
            refine ⟨hj, h2, fun t' ht' => ?_⟩
            rcases List.mem_or_eq_of_mem_set ht' with ht' | rfl
            · exact h3 t' ht'
            · exact ht.2 _ hr
          · exact ⟨h1, h2, h3⟩
  exact key l (Sys.init fs) (fun fs' h => hF fs' (.inr h)) ⟨hinit, hF fs (.inl rfl), fun _ h => by cases h⟩

/-! ## The loader -/

theorem Up.trans {a b c : Str} (h : Up a b) (k : Up b c) : Up a c := by
  induction k with
  | refl => exact h
  | step hp _ ih => exact .step hp ih

section
variable {h : Host} {A : (q : Query) → q.Ret → Prop} {G : Op → Prop} {R : (o : Op) → o.Ret → Prop}
  {C : Crash → Prop}

theorem findUp_none (file : Str) (n : Nat) (dir : Str) (hn : dir.length < n) :
    (findUp file n dir).Sat A G R C (fun r => r = none → ∀ d, Up d dir → A (.isFile (pjoin d file)) false) := by
  induction n generalizing dir with
  | zero => omega
  | succ n ih =>
    rw [findUp]
    refine sat_isFile fun b hb => ?_
    cases b with
    | true => exact nofun
    | false =>
      cases hp : pparent dir with
      | none =>
        intro _ d hd
        cases hd with
        | refl => exact hb
        | step h _ => rw [hp] at h; cases h
      | some q =>
        refine (ih q (by have := pparent_length hp; omega)).mono fun r hr h d hd => ?_
        cases hd with
        | refl => exact hb
        | step h hd =>
          rw [hp] at h
          cases h
          exact hr ‹_› d hd

theorem cacheNone_up (hC : C .hang) (n : Nat) (path : Str)
    (hG : ∀ d, Up d path → A (.isDir d) true → G (.putPkg d none)) :
    (cacheNone n path).Sat A G R C (fun _ => True) := by
  induction n generalizing path with
  | zero => exact hC
  | succ n ih =>
    rw [cacheNone]
    refine sat_isDir fun b hb => ?_
    cases b with
    | true =>
      refine ⟨hG _ .refl hb, fun _ _ => ?_⟩
      dsimp only
      split
      · rename_i parent hp
        exact ih _ fun d hd hA => hG d (.step hp hd) hA
      · trivial
    | false => exact ih _ hG

/-- What the loader stores. -/
theorem loadAux_puts (hG : ∀ o, FileOp A h.ser o → G o) (hC : ∀ c, C c)
    (hput : ∀ desc d p, h.opts.descriptionFile = some desc → A (.isDir d) true →
      Parsed R A h d (pjoin d desc) p → G (.putPkg d (some p)))
    (hnone : ∀ desc d, h.opts.descriptionFile = some desc → A (.isDir d) true →
      (∀ up, Up up d → A (.isFile (pjoin up desc)) false) → G (.putPkg d none))
    (n : Nat) (path : Str) : (loadPkgAux h n path).Sat A G R C (fun _ => True) := by
  induction n generalizing path with
  | zero => exact hC _
  | succ n ih =>
    rw [loadPkgAux]
    split
    · trivial
    · rename_i desc hdesc
      refine sat_isDir fun b hb => ?_
      cases b with
      | false =>
        cases hd : pparent path with
        | some dir => exact ih dir
        | none => trivial
      | true =>
        have hps : (parseAndStore h path (pjoin path desc)).Sat A G R C (fun _ => True) := by
          unfold parseAndStore
          refine Sat.bind (parse_sat hG (fun c _ => hC c) (fun _ => hC _) path (pjoin path desc)) fun r hr => ?_
          cases r with
          | error err => trivial
          | ok pkg => exact ⟨hput desc path pkg hdesc hb (hr.2 _ rfl), fun _ _ => trivial⟩
        refine ⟨hG _ trivial, fun r hr => ?_⟩
        cases r with
        | some cached =>
          refine Sat.bind (needUpdate_sat (fun _ => hG _ trivial) _) fun u hu => ?_
          rcases u with e | (_ | _)
          · exact fun _ _ => trivial
          · exact fun _ _ => trivial
          · dsimp only
            split
            · exact ⟨hG _ trivial, fun _ _ _ _ => hps⟩
            · exact fun _ _ => hps
        | none =>
          refine sat_isFile fun b _ => ?_
          cases b with
          | false =>
            refine Sat.bind (findUp_none desc _ path (Nat.lt_succ_self _)) fun r hr => ?_
            cases r with
            | some dir => exact ih dir
            | none => exact cacheNone_up (hC _) _ _ fun d hd hA => hnone desc d hdesc hA fun up h => hr rfl up (Up.trans h hd)
          | true => exact hps

end

/-! ## The caches -/

/-- What resolver `rid` may store. -/
def StoredG (F : Fs → Prop) (desc : Option Str) : Op → Prop
  | .putPkg d v => ∃ name, desc = some name ∧ EntryWas F name d v
  | .putExports key t => TreeText F key t
  | .putFile p m => TimeWas F (comps p) m
  | _ => True

/-- What may be answered. -/
def StoredR (F : Fs → Prop) : (o : Op) → o.Ret → Prop
  | .getExports key, r => ∀ t, r = some t → TreeText F key t
  | .getImports _, r => r = none
  | _, _ => True

/-- What the caches hold. -/
structure StoredJ (F : Fs → Prop) (cfg : Nat → Config) (s : Shared) : Prop where
  pkg : ∀ c key v, (s.caches c).pkg key = some v → ∃ rid desc d, (cfg rid).cache = c ∧
    (cfg rid).opts.descriptionFile = some desc ∧ comps d = key ∧ EntryWas F desc d v
  exports : ∀ c key t, (s.caches c).exportsTree key = some t → TreeText F key t
  imports : ∀ c key, (s.caches c).importsTree key = none
  time : ∀ rid key m, s.files rid key = some m → TimeWas F key m

theorem stored_step {F : Fs → Prop} {cfg : Nat → Config} (s : Shared) (rid : Nat)
    (o : Op) (seeds : Nat → Nat) (h : StoredJ F cfg s)
    (hg : StoredG F (cfg rid).opts.descriptionFile o) :
    StoredJ F cfg (s.store cfg rid (Op.exec (s.view cfg rid seeds) o).2) ∧
      StoredR F o (Op.exec (s.view cfg rid seeds) o).1 := by
  have put : ∀ w : World,
      (∀ key v, w.pkg key = some v → ∃ rid' desc d, (cfg rid').cache = (cfg rid).cache ∧
        (cfg rid').opts.descriptionFile = some desc ∧ comps d = key ∧ EntryWas F desc d v) →
      (∀ key t, w.exportsTree key = some t → TreeText F key t) →
      (∀ key, w.importsTree key = none) →
      (∀ key m, w.file key = some m → TimeWas F key m) → StoredJ F cfg (s.store cfg rid w) := by
    intro w h1 h2 h3 h4
    constructor
    · intro c
      simp only [Shared.store, upd]
      split
      · rename_i hc; subst hc; exact h1
      · exact h.pkg c
    · intro c
      simp only [Shared.store, upd]
      split
      · exact h2
      · exact h.exports c
    · intro c
      simp only [Shared.store, upd]
      split
      · exact h3
      · exact h.imports c
    · intro r
      simp only [Shared.store, upd]
      split
      · exact h4
      · exact h.time r
  have h1 := h.pkg (cfg rid).cache
  have h2 := h.exports (cfg rid).cache
  have h3 := h.imports (cfg rid).cache
  have h4 := h.time rid
  cases o with
  | putPkg d v =>
    refine ⟨put _ (fun key w => ?_) h2 h3 h4, trivial⟩
    simp only [Op.exec, Shared.view, upd]
    split
    · rename_i hk
      intro h
      cases h
      obtain ⟨desc, h5, h6⟩ := hg
      exact ⟨rid, desc, d, rfl, h5, hk.symm, h6⟩
    · exact h1 key w
  | putExports k t =>
    refine ⟨put _ h1 (fun key t' => ?_) h3 h4, trivial⟩
    simp only [Op.exec, Shared.view, upd]
    split
    · rename_i hk
      intro h
      cases h
      rw [hk]
      exact hg
    · exact h2 key t'
  | putFile p m =>
    refine ⟨put _ h1 h2 h3 fun key m' => ?_, trivial⟩
    simp only [Op.exec, Shared.view, upd]
    split
    · rename_i hk
      intro h
      cases h
      rw [hk]
      exact hg
    · exact h4 key m'
  | getExports k => exact ⟨put _ h1 h2 h3 h4, h2 k⟩
  | getImports k => exact ⟨put _ h1 h2 h3 h4, h3 k⟩
  | _ => exact ⟨put _ h1 h2 h3 h4, trivial⟩

section
variable {h : Host} {F : Fs → Prop}

theorem asStr_iff {j : Option Json} {s : Str} : j.bind Json.asStr = some s ↔ j = some (.str s) := by
  cases j with
  | none => simp
  | some j => cases j <;> simp [Json.asStr]

theorem parsed_trees (hser : h.ser = serJson) {d path : Str} {p : Pkg}
    (hp : Parsed (StoredR F) (Among F) h d path p) : OwnTrees F p := by
  obtain ⟨doc, -, hp⟩ := hp
  constructor
  · have := hp.imports
    unfold OwnTree
    split at this
    · rename_i hn; rw [hn]; exact this
    · rename_i v hv
      rw [hv]
      obtain ⟨t, h1, h2 | h2⟩ := this
      · exact ⟨t, h1, h2⟩
      · cases h2
  · have := hp.exports
    unfold OwnTree
    split at this
    · rename_i hn; rw [hn]; exact .inl this
    · rename_i v hv
      rw [hv]
      obtain ⟨t, h1, h2 | h2⟩ := this
      · exact .inl ⟨t, h1, h2⟩
      · obtain ⟨fs, w, hF, hk, h3⟩ := h2 t rfl
        have hk : h.ser v = serJson w := hk
        rw [hser] at hk
        obtain rfl := serJson_inj hk
        rcases h3 with ⟨-, h4⟩ | ⟨h3, h4⟩
        · exact .inl ⟨t, h1, h4⟩
        · exact .inr ⟨⟨t, h1, h4⟩, fs, _, hF, rfl, h3⟩

theorem load_stored (hser : h.ser = serJson) (path : Str) :
    (loadPkg h path).Sat (Among F) (StoredG F h.opts.descriptionFile) (StoredR F) (fun _ => True)
      fun _ => True := by
  refine loadAux_puts (fun o ho => ?_) (fun _ => trivial) (fun desc d p hdesc hdir hp => ?_)
    (fun desc d hdesc hdir hf => ?_) _ path
  · cases o with
    | putPkg d v => exact ho.elim
    | putExports key t =>
      obtain ⟨v, hk, ⟨⟨file, doc, json, ⟨fs, hF, h1⟩, h2, h3⟩, h4⟩ | ⟨⟨file, doc, json, ⟨fs, hF, h1⟩, h2, h3⟩, h4⟩⟩ := ho
      · exact ⟨fs, v, hF, by rw [hk, hser], .inl ⟨⟨file, doc, json, h1, h2, h3⟩, h4⟩⟩
      · exact ⟨fs, v, hF, by rw [hk, hser], .inr ⟨⟨file, doc, json, h1, h2, h3⟩, h4⟩⟩
    | putFile p m =>
      obtain ⟨⟨doc, fs', hF', h1'⟩, fs, hF, h1⟩ := ho
      exact ⟨p, fs, fs', doc, rfl, hF, h1, hF', h1'⟩
    | _ => trivial
  · have htrees := parsed_trees hser hp
    obtain ⟨doc, ⟨fs, hF, h1⟩, hp⟩ := hp
    obtain ⟨fs', hF', h1'⟩ := hdir
    refine ⟨desc, hdesc, hp.dir, ⟨fs', hF', h1'⟩, ?_, fun s => ?_, fun s => ?_, ?_, htrees, ?_, hp.browser⟩
    · obtain ⟨doc', h2, h3⟩ := hp.read
      cases h2
      exact ⟨fs, doc, hF, h1, h3⟩
    · rw [hp.name]; exact asStr_iff
    · rw [hp.version]; exact asStr_iff
    · intro hu k v
      obtain ⟨seed, fields, h2, h3⟩ := hp.browser
      rw [h3, (permute_perm seed fields).mem_iff, ← browserFields_entry h2 hu]
      exact ⟨alookup_of_mem (browserFields_keys h2), mem_of_alookup⟩
    · exact (parseSideEffects_iff _ _ _).1 hp.sideEffects
  · obtain ⟨fs', hF', h1'⟩ := hdir
    refine ⟨desc, hdesc, ⟨fs', hF', h1'⟩, fun up hup => ?_⟩
    obtain ⟨fs, hF, h1⟩ := hf up hup
    exact ⟨fs, hF, h1⟩

theorem stored_inv (h : Host) (hser : h.ser = serJson) (F : Fs → Prop) :
    Inv h (Among F) (StoredG F h.opts.descriptionFile) (StoredR F) (fun _ => True)
      (fun _ => True) (fun _ => True) (fun _ => True) (fun _ => True) (fun _ => True) True where
  load p _ := (load_stored hser p).mono fun _ _ => ⟨fun _ _ => trivial, fun _ _ => trivial⟩
  errTag := trivial
  errPkg := fun _ _ => .of_all (fun _ => trivial) (fun _ _ _ _ _ => trivial) fun _ _ _ _ _ => trivial
  ask := fun _ _ => trivial
  askModule := fun _ _ => trivial
  pathGet := fun _ _ => trivial
  pathPkg := fun _ _ _ _ => trivial
  pathModule := fun _ _ => trivial
  pathParent := fun _ _ _ _ _ _ => trivial
  target := fun _ _ _ => trivial
  file := fun _ _ => resolveAsFile_sat trivial fun _ _ _ _ => trivial
  exports := fun _ _ _ _ => trivial
  imports := fun _ _ _ _ => ⟨trivial, trivial⟩
  panics := fun _ _ => trivial
  fuel := trivial

theorem prog_stored (h : Host) (hser : h.ser = serJson) (fuel : Nat) (call : Call) :
    (Live.prog h fuel call).Sat (Among F) (StoredG F h.opts.descriptionFile) (StoredR F)
      (fun _ => True) fun _ => True := by
  cases call with
  | resolve path request =>
    unfold Live.prog
    refine Sat.bind (P := fun _ => True) ?_ fun _ _ => trivial
    unfold resolve
    refine Sat.bind (stats_sat (stored_inv h hser F) fuel path request trivial fun _ _ =>
      ⟨trivial, .of_all ⟨fun _ => trivial, fun _ _ => trivial, fun _ _ => trivial⟩,
        ⟨fun _ => True, trivial, fun _ _ _ _ _ => trivial, fun _ _ => trivial⟩,
        fun _ _ _ _ _ => trivial⟩) fun s hs => ?_
    cases s with
    | error err j => trivial
    | resolving j => trivial
    | success r => exact (normalizeResult_was r fun _ _ _ => trivial).mono fun _ _ => trivial
  | sideEffects path =>
    unfold Live.prog
    refine Sat.bind (P := fun _ => True) ?_ fun _ _ => trivial
    unfold loadSideEffects
    refine Sat.bind (load_stored hser path) fun s _ => ?_
    rcases s with e | (_ | pkg)
    · trivial
    · trivial
    · dsimp only
      split <;> trivial

end

theorem stored_after (cfg : Nat → Config) (fs : Fs) (l : List Event) :
    StoredJ (Versions fs l) cfg ((Sys.init fs).after cfg serJson l).shared :=
  live_shared (F := Versions fs l) (A := Among (Versions fs l)) (R := fun _ => StoredR (Versions fs l))
    (G := fun rid => StoredG (Versions fs l) (cfg rid).opts.descriptionFile)
    (fun fs _ hF => ⟨fs, hF, rfl⟩) (fun s rid o seeds h hg => stored_step s rid o seeds h hg)
    ⟨fun _ _ _ h => (by cases h), fun _ _ _ h => (by cases h), fun _ _ => rfl, fun _ _ _ h => (by cases h)⟩
    (fun rid fuel call => prog_stored (host (cfg rid) serJson fuel) rfl fuel call) (fun _ h => h)

end Verif.Live
