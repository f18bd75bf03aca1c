import Verif.Proofs.LiveHistory
import Verif.Proofs.TreeVals
import Verif.Proofs.Parse
import Verif.Spec.Marks
/-!
# Where the query and the fragment of a result come from
-/

namespace Verif

variable {F : Fs → Prop}

theorem targetMapping_filled {k : FieldKind} {rem : Option Str} {sub : Bool} {t s : Str}
    (h : targetMapping k rem sub t = .ok s) : Filled t s := by
  unfold targetMapping at h
  split at h
  · cases h
  · rename_i isFolder ha
    split at h
    · rename_i x
      split at h
      · cases h
        refine .folder x ?_
        cases he : endsWithC t '/' with
        | true => rwa [endsWithC_iff] at he
        | false =>
          exfalso
          unfold assertTarget at ha
          cases k <;> simp [he] at ha
          split at ha <;> cases ha
      · cases h
      · cases h
      · cases h
        exact .star _
    · split at h
      · cases h; exact .asIs
      · cases h

theorem item_filled {k : FieldKind} {tree : Option Node} {names : List Str} {item : Str}
    (ht : ∀ root, tree = some root → TreeOf (.among F) root) (hi : ItemOf k tree names item) :
    ∃ fs name v t, F fs ∧ (name = cs!"exports" ∨ name = cs!"imports") ∧ IsField fs name v ∧
      t ∈ v.strings ∧ Filled t item := by
  obtain ⟨root, req, l, h1, h2, h3⟩ := hi
  obtain ⟨v, k', h4, h5⟩ := ht root h1
  obtain ⟨r, h6, h7⟩ := fieldProcess_items (k := k) (buildTree_vals (H := (· ∈ v.strings)) (fun _ h => h) h5) req names
  rw [h2] at h6
  cases h6
  obtain ⟨t, rem, sub, h8, h9, -⟩ := h7 l rfl item h3
  rcases h4 with ⟨fs, hF, hf⟩ | ⟨fs, hF, hf⟩
  · exact ⟨fs, _, v, t, hF, .inl rfl, hf, h8, targetMapping_filled h9⟩
  · exact ⟨fs, _, v, t, hF, .inr rfl, hf, h8, targetMapping_filled h9⟩

theorem star_absent {t : Str} (x : Str) (h : '*' ∉ t) : (t.flatMap fun c => if c = '*' then x else [c]) = t := by
  induction t with
  | nil => rfl
  | cons c t ih =>
    rw [List.mem_cons, not_or] at h
    rw [List.flatMap_cons, ih h.2, if_neg (Ne.symm h.1)]
    rfl

theorem filled_plain {t s : Str} (h : PlainTarget t) (hs : Filled t s) : s = t := by
  cases hs with
  | asIs => rfl
  | folder x hx => exact absurd hx h.2.2.2
  | star x => exact star_absent x h.2.2.1

theorem split_plain {t target q f : Str} (h : PlainTarget t) (hs : IsSplit t target q f) : q = [] ∧ f = [] := by
  obtain ⟨h1, h2, -, -⟩ := h
  have h3 : q = [] := by
    rcases hs.query_start with h | h
    · exact h
    · exfalso
      refine h1 ?_
      rw [hs.concat]
      simp [List.mem_of_mem_head? h]
  subst h3
  refine ⟨rfl, ?_⟩
  rcases hs.fragment_start with h | h
  · exact h
  · by_cases ht : target = []
    · exact hs.leading_hash ht rfl
    · exfalso
      refine h2 ?_
      rw [hs.concat]
      cases target with
      | nil => exact absurd rfl ht
      | cons c r => simp [List.mem_of_mem_head? h]

/-- Plain targets leave the marks of the request or none. -/
theorem MarksFrom.plain {o : Opts} {request q f : Str} (h : MarksFrom o F request q f)
    (hp : ∀ fs name v t, F fs → name = cs!"exports" ∨ name = cs!"imports" → IsField fs name v → t ∈ v.strings →
      PlainTarget t) : (∃ target, IsSplit request target q f) ∨ q = [] ∧ f = [] := by
  cases h with
  | request target h => exact .inl ⟨target, h⟩
  | mapped fs name v t s target h1 h2 h3 h4 h5 h6 =>
    have h7 := hp fs name v t h1 h2 h3 h4
    rw [filled_plain h7 h5] at h6
    exact .inr (split_plain h7 h6)
  | paths _ h1 h2 => exact .inr ⟨h1, h2⟩

/-- The marks of a request on its way. -/
def Marked (o : Opts) (F : Fs → Prop) (request : Str) (i : Info) : Prop :=
  MarksFrom o F request i.request.query i.request.fragment

theorem marked_parse (o : Opts) (F : Fs → Prop) (request path : Str) :
    Marked o F request ⟨path, parseRequest request⟩ :=
  .request _ (parse_isSplit request)

theorem marked_item {o : Opts} {request : Str} {k : FieldKind} {tree : Option Node} {names : List Str} {item : Str}
    (ht : ∀ root, tree = some root → TreeOf (.among F) root) (hi : ItemOf k tree names item) (path : Str) :
    Marked o F request ⟨path, parseRequest item⟩ := by
  obtain ⟨fs, name, v, t, h1, h2, h3, h4, h5⟩ := item_filled ht hi
  exact .mapped fs name v t item _ h1 h2 h3 h4 h5 (parse_isSplit item)

theorem marksInv (e : Env) (hF : F e.fs) (request : Str) :
    Inv e.ctx (HistG F) (HistR F) (fun _ => True) (Origin F) (Marked e.opts F request)
      (Marked e.opts F request) (fun _ => True) True where
  load p _ := (loadPkg_hist e hF p).mono fun _ h =>
    ⟨fun pkg hp => (h pkg hp).2, fun _ _ => trivial⟩
  ask _ _ := trivial
  askModule _ _ := trivial
  pathGet _ h := h
  pathPkg _ _ _ h := h
  pathModule _ h := h
  pathParent _ _ _ _ h _ := h
  target _ _ h := h
  file i hi := by
    unfold resolveAsFile extensionsPlugin
    simp only
    split
    · exact hi
    · split <;> exact hi
  errTag := trivial
  errPkg _ _ := ⟨fun _ => trivial, fun _ _ _ _ _ => trivial, fun _ _ _ _ _ => trivial⟩
  exports _ hp _ hi := marked_item hp.exports hi _
  imports _ hp _ hi := ⟨marked_item hp.imports hi _, marked_item hp.imports hi _⟩

/-- The marks of a result. -/
def MarksPost (o : Opts) (F : Fs → Prop) (request : Str) (a : Except Err Result) : Prop :=
  ∀ i, a = .ok (.info i) → MarksFrom o F request i.request.query i.request.fragment

theorem resolve_marks (e : Env) (hF : F e.fs) (n : Nat) (path request : Str) :
    (resolve e n path request).Sat (HistG F) (HistR F) (MarksPost e.opts F request) := by
  refine (resolve_sat (resolveStats_sat2 (marksInv e hF request) (ignInv e hF) n path request
    (marked_parse _ _ _ _) fun location hl =>
      ⟨trivial, ⟨fun _ => trivial, fun _ _ => trivial, fun _ _ => trivial⟩,
        ⟨fun _ => True, trivial, fun _ _ _ _ _ => trivial, fun _ _ => trivial⟩,
        fun _ _ _ _ _ => .paths (by
          rw [show e.opts.tsconfig = some location from hl]; nofun) rfl rfl⟩)).mono ?_
  rintro _ ha i rfl
  obtain ⟨j, hj, he, -⟩ := ha
  rw [he]
  exact hj

theorem system_marks {cfg : Nat → Config} {ser : Json → Str} {fs : Fs} {l : List Event} {t : Task}
    (ht : t ∈ ((Sys.init fs).after cfg ser l).tasks) {path request : Str} {i : Info}
    (hc : t.call = .resolve path request) (hd : t.prog = .ret (.resolve (.ok (.info i)))) :
    MarksFrom (cfg t.rid).opts (Versions fs l) request i.request.query i.request.fragment :=
  system_resolve (okFs := Versions fs l) (okCall := fun _ _ => True)
    (G := fun _ => HistG (Versions fs l)) (R := fun _ => HistR (Versions fs l))
    (J := HistJ (Versions fs l))
    (P := fun rid _ _ request => MarksPost (cfg rid).opts (Versions fs l) request)
    (fun s rid o seeds h hg => hist_step s rid o seeds h hg)
    (fun rid fs' p h _ => (loadPkg_hist _ h p).mono fun _ _ => trivial)
    (fun rid fs' p r fuel h _ => resolve_marks ((cfg rid).env ser fs') h fuel p r)
    (.inl rfl) (fun e he => by
      cases e with
      | start _ _ _ => trivial
      | change fs' => exact .inr he
      | step _ _ => trivial) (hist_init _) ht hc hd i rfl

namespace Live

theorem marks_inv (h : Host) (request : Str) :
    Inv h (Among F) (HistG F) (HistR F) (fun _ => True) (fun _ => True) (Origin F)
      (Marked h.opts F request) (Marked h.opts F request) (fun _ => True) True where
  load p _ := (load_hist p).mono fun _ h => ⟨fun pkg hp => (h pkg hp).2, fun _ _ => trivial⟩
  errTag := trivial
  errPkg := fun _ _ => .of_all (fun _ => trivial) (fun _ _ _ _ _ => trivial) fun _ _ _ _ _ => trivial
  ask := fun _ _ => trivial
  askModule := fun _ _ => trivial
  pathGet _ h := h
  pathPkg _ _ _ h := h
  pathModule _ h := h
  pathParent _ _ _ _ h _ := h
  target _ _ h := h
  file i hi := resolveAsFile_sat hi fun _ _ _ _ => hi
  exports _ hp _ hi := marked_item hp.exports hi _
  imports _ hp _ hi := ⟨marked_item hp.imports hi _, marked_item hp.imports hi _⟩
  panics := fun _ _ => trivial
  fuel := trivial

theorem stats_marks {h : Host} (n : Nat) (path request : Str) :
    (resolveStats h n path request).Sat (Among F) (HistG F) (HistR F) (fun _ => True)
      (FinalInv (Marked h.opts F request) (fun _ => True) True ⟨path, parseRequest request⟩) :=
  stats_sat2 (marks_inv h request) (ign_inv h F) n path request (marked_parse _ _ _ _) fun location hl =>
    ⟨trivial, .of_all ⟨fun _ => trivial, fun _ _ => trivial, fun _ _ => trivial⟩,
      ⟨fun _ => True, trivial, fun _ _ _ _ _ => trivial, fun _ _ => trivial⟩,
      fun _ _ _ _ _ => .paths (by rw [hl]; nofun) rfl rfl⟩

theorem resolve_marks {h : Host} {n : Nat} {path request : Str} {i : Info}
    (hr : Ends (Among F) (HistR F) (resolve h n path request) (.done (.ok (.info i)))) :
    MarksFrom h.opts F request i.request.query i.request.fragment := by
  unfold resolve at hr
  obtain ⟨s, h1, h2⟩ := Ends.done_bind hr
  have hs := (stats_marks n path request).returns h1
  cases s with
  | error err j => cases h2
  | resolving j => cases h2
  | success r =>
    replace h2 : Ends (Among F) (HistR F) (normalizeResult h r) (.done (.ok (.info i))) := h2
    cases r with
    | ignored => cases h2
    | info j =>
      unfold normalizeResult at h2
      dsimp only at h2
      by_cases hd : (h.debug && decide (j.request.target ≠ [])) = true
      · rw [if_pos hd] at h2
        cases h2
      · rw [if_neg hd] at h2
        obtain ⟨a, -, h3⟩ := Ends.done_bind h2
        cases a with
        | error _ => cases h3
        | ok p => cases h3; exact hs

end Live

end Verif
