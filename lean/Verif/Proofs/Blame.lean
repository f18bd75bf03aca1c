import Verif.Proofs.Panics
/-!
# What panics are blamed on
-/

namespace Verif

/-! ## Maps -/

theorem fromJson_arr {j : Json} {x : List MV} (h : fromJson j = some (.arr x)) : ∃ l, j = .arr l := by
  cases j with
  | arr l => exact ⟨l, rfl⟩
  | obj l =>
    simp only [fromJson, Option.map_eq_some_iff] at h
    obtain ⟨_, -, h⟩ := h
    cases h
  | str s => simp [fromJson] at h
  | _ => simp [fromJson] at h

theorem convertible_fromJson {j : Json} (h : Convertible j) : ∃ v, fromJson j = some v := by
  induction h with
  | str s => exact ⟨_, rfl⟩
  | @arr l hc hn ih =>
    suffices h : ∃ r, fromJsonArr l = some r by
      obtain ⟨r, h⟩ := h
      exact ⟨.arr r, by rw [fromJson, h]; rfl⟩
    induction l with
    | nil => exact ⟨_, rfl⟩
    | cons j l ihl =>
      obtain ⟨v, hv⟩ := ih j (List.mem_cons_self ..)
      obtain ⟨r, hr⟩ := ihl (fun j h => hc j (List.mem_cons_of_mem _ h))
        (fun j h => hn j (List.mem_cons_of_mem _ h)) fun j h => ih j (List.mem_cons_of_mem _ h)
      unfold fromJsonArr
      rw [hv]
      cases v with
      | arr x =>
        obtain ⟨l', rfl⟩ := fromJson_arr hv
        exact (hn _ (List.mem_cons_self ..) l' rfl).elim
      | direct s => exact ⟨_, by simp only [hr]; rfl⟩
      | cond s => exact ⟨_, by simp only [hr]; rfl⟩
  | @obj l hc ih =>
    suffices h : ∀ acc, ∃ r, fromJsonObj l acc = some r by
      obtain ⟨r, h⟩ := h []
      exact ⟨.cond r, by rw [fromJson, h]; rfl⟩
    induction l with
    | nil => exact fun acc => ⟨_, rfl⟩
    | cons kv l ihl =>
      intro acc
      obtain ⟨k, j⟩ := kv
      obtain ⟨v, hv⟩ := ih (k, j) (List.mem_cons_self ..)
      unfold fromJsonObj
      simp only at hv
      rw [hv]
      exact ihl (fun j h => hc j (List.mem_cons_of_mem _ h))
        (fun j h => ih j (List.mem_cons_of_mem _ h)) _

theorem buildTree_none {k : FieldKind} {v : Json} (h : buildTree k v = none) :
    ¬ Convertible v ∨ (k = .imports ∧ ∀ l, v ≠ .obj l) := by
  by_cases hc : Convertible v
  · obtain ⟨mv, hv⟩ := convertible_fromJson hc
    unfold buildTree at h
    rw [hv] at h
    cases k with
    | exports => cases h
    | imports =>
      refine .inr ⟨rfl, ?_⟩
      rintro l rfl
      simp only [fromJson, Option.map_eq_some_iff] at hv
      obtain ⟨m, -, rfl⟩ := hv
      cases h
  · exact .inl hc

theorem browserLoop_none {l : List (Str × Json)} {acc : List (Str × AliasMap)}
    (h : browserLoop l acc = none) : ∃ k, (k, .bool true) ∈ l := by
  induction l generalizing acc with
  | nil => cases h
  | cons x l ih =>
    obtain ⟨k, v⟩ := x
    have tail : ∀ {acc}, browserLoop l acc = none → ∃ k', (k', Json.bool true) ∈ (k, v) :: l := by
      intro acc h
      obtain ⟨k', hk⟩ := ih h
      exact ⟨k', List.mem_cons_of_mem _ hk⟩
    unfold browserLoop at h
    split at h
    · rename_i hv
      cases v with
      | bool b =>
        simp only [Json.asBool, Option.some.injEq] at hv
        subst hv
        exact ⟨k, List.mem_cons_self ..⟩
      | _ => cases hv
    · exact tail h
    · split at h <;> exact tail h

theorem browserFields_none {json : Json} (h : browserFields json = none) :
    ∃ l k, json.get cs!"browser" = some (.obj l) ∧ (k, .bool true) ∈ l := by
  unfold browserFields at h
  split at h
  · cases h
  · rename_i v hv
    split at h
    · cases h
    · rename_i m hm
      cases v with
      | obj l =>
        simp only [Json.asObj, Option.some.injEq] at hm
        subst hm
        obtain ⟨k, hk⟩ := browserLoop_none h
        exact ⟨l, k, hv, hk⟩
      | _ => cases hm

variable {o : Opts} {S : Sources} {fs : Fs} {path request : Str}

/-- The crashes that are accounted for. -/
def Blamed (P : Site → Prop) : Crash → Prop
  | .panic s => P s
  | .hang => False
  | .fuel => True

theorem good_withTree {α : Type} {Y : (o : Op) → o.Ret → Prop} {B : Crash → Prop} {Q : Except Err α → Prop} {k : FieldKind}
    {v : Option Json} {next : Option Node → Prog (Except Err α)}
    (hB : ∀ w, v = some w → buildTree k w = none → B (.panic .buildTree)) (he : ∀ e, Q (.error e))
    (hn : ∀ t, (next t).Good Y B Q) : (withTree k v next).Good Y B Q := by
  unfold withTree
  split
  · exact hn none
  · rename_i w
    split
    · rename_i h
      exact hB w rfl h
    · exact he _
    · exact hn _

/-- What is wrong with a description file is accounted for. -/
def LoadBlame (o : Opts) (S : Sources) (fs : Fs) (path request : Str) (P : Site → Prop) : Prop :=
  ∀ s, s = .buildTree ∨ s = .browserTrue → Blame o S fs path request s → P s

variable {P : Site → Prop} {Y : (o : Op) → o.Ret → Prop}

theorem good_readPkg (hS : ∀ name v, IsField fs name v → S.field name v)
    (hP : LoadBlame o S fs path request P) (d file : Str) :
    (readPkg fs d file).Good Y (Blamed P) fun _ => True := by
  unfold readPkg
  split
  · rename_i doc m hr hm
    split
    · exact trivial
    · rename_i json hj
      split
      · rename_i h
        obtain ⟨l, k, h1, h2⟩ := browserFields_none h
        exact hP _ (.inr rfl) (Blame.browser (hS _ _ ⟨_, doc, json, hr, hj, h1⟩) h2)
      · refine good_withTree (fun w hw h => ?_) (fun _ => trivial) fun et => ?_
        · rcases buildTree_none h with h | ⟨h, -⟩
          · exact hP _ (.inl rfl) (Blame.exports (hS _ _ ⟨_, doc, json, hr, hj, hw⟩) h)
          · cases h
        refine good_withTree (fun w hw h => ?_) (fun _ => trivial) fun it => ?_
        · rcases buildTree_none h with h | ⟨-, h⟩
          · exact hP _ (.inl rfl) (Blame.imports (hS _ _ ⟨_, doc, json, hr, hj, hw⟩) (.inl h))
          · exact hP _ (.inl rfl) (Blame.imports (hS _ _ ⟨_, doc, json, hr, hj, hw⟩) (.inr h))
        split <;> exact trivial
  · exact trivial

theorem good_findPkg (hS : ∀ name v, IsField fs name v → S.field name v)
    (hP : LoadBlame o S fs path request P) (desc : Option Str) (p : Str) :
    (findPkg fs desc p).Good Y (Blamed P) fun r => findPkg fs desc p = .ret r := by
  have key : (findPkg fs desc p).Good Y (Blamed P) fun _ => True := by
    unfold findPkg
    split
    · exact trivial
    · split
      · exact trivial
      · refine (good_readPkg hS hP _ _).bind fun r _ => ?_
        cases r <;> exact trivial
  rcases findPkg_settles fs desc p with ⟨a, h⟩ | ⟨s, h⟩
  · rw [h]; exact rfl
  · rw [h] at key ⊢; exact key

/-! ## Characters -/

theorem ascii_append {a b : Str} (ha : AsciiStr a) (hb : AsciiStr b) : AsciiStr (a ++ b) :=
  fun c hc => (List.mem_append.1 hc).elim (ha c) (hb c)

theorem ascii_sub {a b : Str} (h : ∀ c ∈ a, c ∈ b) (hb : AsciiStr b) : AsciiStr a :=
  fun c hc => hb c (h c hc)

theorem ascii_replace {s to : Str} {x : Char} (hs : AsciiStr s) (ht : AsciiStr to) :
    AsciiStr (replaceChar s x to) := by
  intro c hc
  obtain ⟨y, hy, hc⟩ := List.mem_flatMap.1 hc
  split at hc
  · exact ht c hc
  · rw [List.mem_singleton.1 hc]; exact hs y hy

/-- A request in ASCII. -/
def ReqAscii (r : Request) : Prop := AsciiStr r.target ∧ AsciiStr r.query ∧ AsciiStr r.fragment

theorem parse_ascii {s : Str} (h : AsciiStr s) : ReqAscii (parseRequest s) := by
  have hc := (parse_isSplit s).concat
  refine ⟨ascii_sub (fun c hc' => ?_) h, ascii_sub (fun c hc' => ?_) h, ascii_sub (fun c hc' => ?_) h⟩
  all_goals
    rw [hc]
    simp only [List.mem_append]
  · exact .inl (.inl hc')
  · exact .inl (.inr hc')
  · exact .inr hc'

theorem targetMapping_ascii {k : FieldKind} {rem : Option Str} {sub : Bool} {t s : Str}
    (ht : AsciiStr t) (hr : ∀ x, rem = some x → AsciiStr x) (h : targetMapping k rem sub t = .ok s) :
    AsciiStr s := by
  unfold targetMapping at h
  split at h
  · cases h
  · split at h
    · rename_i x
      have hx := hr x rfl
      split at h
      · cases h; exact ascii_append ht hx
      · cases h
      · cases h
      · cases h
        exact ascii_replace ht (ascii_replace hx (by decide))
    · split at h
      · cases h; exact ht
      · cases h

theorem exportsRequest_ascii {c : Ctx} {pkg : Pkg} {info : Info} {rem : Str}
    (hi : ReqAscii info.request) (h : exportsRequestOf c pkg info = .ret (some rem)) : AsciiStr rem := by
  obtain ⟨h1, h2, h3⟩ := hi
  have hdot : AsciiStr cs!"." := by decide
  have hsplit : ∀ {s a b : Str}, AsciiStr s → splitFirst '/' s = some (a, b) → AsciiStr b := by
    intro s a b hs h
    obtain ⟨h, -⟩ := splitFirst_some h
    exact ascii_sub (fun c hc => h ▸ List.mem_append_right _ hc) hs
  unfold exportsRequestOf at h
  simp only at h
  split at h
  · cases h
  · rename_i chars hch
    have hchars : AsciiStr chars := by
      split at hch
      · simp only [Option.map_eq_some_iff] at hch
        obtain ⟨⟨a, b⟩, h4, rfl⟩ := hch
        exact ascii_sub (fun c hc => List.mem_of_mem_drop hc) (hsplit h1 h4)
      · cases hch; exact h1
    split at h
    · cases h
    · rename_i t ht
      have hta : AsciiStr t := by
        split at ht
        · rename_i a b hab
          cases ht
          exact ascii_append hdot (hsplit hchars hab)
        · split at ht
          · cases ht; exact hdot
          · cases ht
      split at h
      · cases h
        refine ascii_append (ascii_append ?_ h2) h3
        split
        · decide
        · exact hta
      · cases h; exact hta

theorem moduleName_ascii {t : Str} (h : AsciiStr t) : moduleName t ≠ none := by
  unfold moduleName
  split
  · nofun
  · rename_i i hi
    have hl : i < t.length := by
      unfold slashIndex at hi
      have := List.mem_of_getElem? hi
      simp only [List.mem_map, List.mem_filter] at this
      obtain ⟨⟨c, j⟩, ⟨h1, -⟩, rfl⟩ := this
      have := List.snd_lt_of_mem_zipIdx h1
      simpa using this
    rw [takeBytes_ascii h (Nat.le_of_lt hl)]
    nofun

/-! ## Scopes -/

/-- A scope is followed by a name. -/
def ReqScoped (r : Request) : Prop := startsWith r.target cs!"@" = true → '/' ∈ r.target

theorem scoped_slash {t : Str} (h : Scoped t) (hs : startsWith t cs!"@" = true) : '/' ∈ t := by
  obtain ⟨r, rfl⟩ := (startsWith_iff _ _).1 hs
  obtain ⟨a, b, rfl, -⟩ := h r rfl
  simp

theorem scoped_append {t x : Str} (h : Scoped t) (hh : Headed t) : Scoped (t ++ x) := by
  obtain ⟨c, r, rfl, hc⟩ := hh
  intro r' hr
  simp only [List.cons_append, List.cons.injEq] at hr
  obtain ⟨rfl, rfl⟩ := hr
  obtain ⟨a, b, rfl, ha⟩ := h r rfl
  exact ⟨a, b ++ x, by simp, ha⟩

theorem scoped_replace {t x : Str} (h : Scoped t) (hh : Headed t) : Scoped (replaceChar t '*' x) := by
  obtain ⟨c, r, rfl, hc⟩ := hh
  intro r' hr
  rw [replaceChar, List.flatMap_cons, if_neg hc] at hr
  simp only [List.cons_append, List.nil_append, List.cons.injEq] at hr
  obtain ⟨rfl, rfl⟩ := hr
  obtain ⟨a, b, rfl, ha⟩ := h r rfl
  refine ⟨a, b.flatMap fun y => if y = '*' then x else [y], ?_, ha⟩
  have : ∀ a : Str, (∀ c ∈ a, c ≠ '?' ∧ c ≠ '#' ∧ c ≠ '*') →
      (a.flatMap fun y => if y = '*' then x else [y]) = a := by
    intro a ha
    induction a with
    | nil => rfl
    | cons y a ih =>
      rw [List.flatMap_cons, if_neg (ha y (List.mem_cons_self ..)).2.2,
        ih fun c hc => ha c (List.mem_cons_of_mem _ hc)]
      rfl
  rw [List.flatMap_append, this a ha, List.flatMap_cons, if_neg (by decide)]
  rfl

theorem targetMapping_scoped {k : FieldKind} {rem : Option Str} {sub : Bool} {t s : Str}
    (ht : Scoped t) (hh : Headed t) (h : targetMapping k rem sub t = .ok s) : Scoped s := by
  unfold targetMapping at h
  split at h
  · cases h
  · split at h
    · split at h
      · cases h; exact scoped_append ht hh
      · cases h
      · cases h
      · cases h; exact scoped_replace ht hh
    · split at h
      · cases h; exact ht
      · cases h

theorem parse_scoped {s : Str} (h : Scoped s) : ReqScoped (parseRequest s) := by
  intro hs
  have hp := parse_isSplit s
  have hc := hp.concat
  generalize hq : (parseIdentifier s).2.1 = q at *
  generalize hf : (parseIdentifier s).2.2 = f at *
  have e : (parseRequest s).target = (parseIdentifier s).1 := rfl
  rw [e] at hs ⊢
  generalize (parseIdentifier s).1 = t at *
  obtain ⟨r, rfl⟩ := (startsWith_iff _ _).1 hs
  obtain ⟨a, b, hab, ha⟩ := h (r ++ (q ++ f)) (by rw [hc]; simp)
  suffices h : '/' ∈ r from List.mem_append_right _ h
  have hstart : ∀ c, (q ++ f).head? = some c → c = '?' ∨ c = '#' := by
    intro c hc
    rcases hp.query_start with rfl | h1
    · rcases hp.fragment_start with rfl | h2
      · cases hc
      · rw [List.nil_append, h2] at hc; cases hc; exact .inr rfl
    · cases q with
      | nil => cases h1
      | cons y q =>
        simp only [List.head?_cons, List.cons_append] at h1 hc
        cases h1
        cases hc
        exact .inl rfl
  rcases List.append_eq_append_iff.1 hab with ⟨x, hx, hy⟩ | ⟨x, hx, hy⟩
  · -- the target ends before the slash
    cases x with
    | nil =>
      rw [List.nil_append] at hy
      rcases hstart '/' (by rw [hy]; rfl) with h | h <;> cases h
    | cons y x =>
      have := ha y (hx ▸ List.mem_append_right _ (List.mem_cons_self ..))
      rcases hstart y (by rw [hy]; rfl) with h | h
      · exact (this.1 h).elim
      · exact (this.2.1 h).elim
  · cases x with
    | nil =>
      rw [List.nil_append] at hy
      rcases hstart '/' (by rw [← hy]; rfl) with h | h <;> cases h
    | cons y x =>
      rw [hx]
      simp only [List.cons_append, List.cons.injEq] at hy
      rw [← hy.1]
      simp

/-! ## tsconfig -/

theorem jmergeFields_closed {P : Str → Json → Prop}
    (hP : ∀ k a b, (a = .null ∨ P k a) → P k b → P k (jmerge a b)) {fa fb : List (Str × Json)}
    (ha : ∀ kv ∈ fa, P kv.1 kv.2) (hb : ∀ kv ∈ fb, P kv.1 kv.2) :
    ∀ kv ∈ jmergeFields fa fb, P kv.1 kv.2 := by
  induction fb generalizing fa with
  | nil => rw [jmergeFields]; exact ha
  | cons x l ih =>
    obtain ⟨k, v⟩ := x
    rw [jmergeFields]
    refine ih (fun kv hk => ?_) fun kv hk => hb kv (List.mem_cons_of_mem _ hk)
    have hv : P k (jmerge ((alookup k fa).getD .null) v) := by
      refine hP _ _ _ ?_ (hb (k, v) (List.mem_cons_self ..))
      cases h : alookup k fa with
      | none => exact .inl rfl
      | some a => exact .inr (ha (k, a) (alookup_mem h))
    rcases mem_ainsert_pair hk with h | h
    · rw [h]; exact hv
    · exact ha kv h

theorem jmerge_obj_cases {a b : Json} {m : List (Str × Json)} (h : jmerge a b = .obj m) :
    a = .obj m ∨ (a = .null ∧ b = .obj m) ∨
      ∃ fa fb, a = .obj fa ∧ b = .obj fb ∧ m = jmergeFields fa fb := by
  cases a with
  | obj fa =>
    cases b with
    | obj fb => rw [jmerge_obj] at h; exact .inr (.inr ⟨fa, fb, rfl, rfl, (Json.obj.inj h).symm⟩)
    | _ => rw [jmerge_obj_leaf (by rintro f ⟨⟩)] at h; exact .inl h
  | null => rw [jmerge_null] at h; exact .inr (.inl ⟨rfl, h⟩)
  | _ => cases b <;> simp [jmerge] at h

/-- A list of texts. -/
def ListShape (_ : Str) (x : Json) : Prop := ∃ ss : List Str, x = .arr (ss.map .str)

/-- A field of the compiler options. -/
def OptShape (k : Str) (x : Json) : Prop :=
  (k = cs!"baseUrl" → ∃ s, x = .str s) ∧
    (k = cs!"paths" → ∃ l, x = .obj l ∧ ∀ kv ∈ l, ListShape kv.1 kv.2)

/-- A field of a tsconfig. -/
def TopShape (k : Str) (x : Json) : Prop :=
  k = cs!"compilerOptions" → ∀ m, x = .obj m → ∀ kv ∈ m, OptShape kv.1 kv.2

theorem listShape_merge (k : Str) (a b : Json) (ha : a = .null ∨ ListShape k a) (hb : ListShape k b) :
    ListShape k (jmerge a b) := by
  rcases ha with rfl | ⟨ss, rfl⟩
  · rwa [jmerge_null]
  · exact ⟨ss, by cases b <;> simp [jmerge]⟩

theorem optShape_merge (k : Str) (a b : Json) (ha : a = .null ∨ OptShape k a) (hb : OptShape k b) :
    OptShape k (jmerge a b) := by
  rcases ha with rfl | ha
  · rwa [jmerge_null]
  · refine ⟨fun hk => ?_, fun hk => ?_⟩
    · obtain ⟨s, rfl⟩ := ha.1 hk
      exact ⟨s, by cases b <;> simp [jmerge]⟩
    · obtain ⟨l, rfl, hl⟩ := ha.2 hk
      obtain ⟨l', rfl, hl'⟩ := hb.2 hk
      rw [jmerge_obj]
      exact ⟨_, rfl, jmergeFields_closed listShape_merge hl hl'⟩

theorem topShape_merge (k : Str) (a b : Json) (ha : a = .null ∨ TopShape k a) (hb : TopShape k b) :
    TopShape k (jmerge a b) := by
  intro hk m hm
  rcases jmerge_obj_cases hm with rfl | ⟨-, h⟩ | ⟨fa, fb, rfl, rfl, rfl⟩
  · exact (ha.resolve_left nofun) hk m rfl
  · exact hb hk m h
  · exact jmergeFields_closed optShape_merge ((ha.resolve_left nofun) hk fa rfl) (hb hk fb rfl)

theorem tsShape_iff {json : Json} :
    TsShape json ↔ ∀ l, json = .obj l → ∀ kv ∈ l, TopShape kv.1 kv.2 := by
  constructor
  · rintro h l rfl ⟨k, x⟩ hk rfl m rfl ⟨k', y⟩ hy
    exact ⟨fun e => by subst e; exact h.baseUrl y ⟨l, m, rfl, hk, hy⟩,
      fun e => by subst e; exact h.paths y ⟨l, m, rfl, hk, hy⟩⟩
  · intro h
    refine ⟨?_, ?_⟩
    · rintro v ⟨l, m, rfl, h1, h2⟩
      exact (h l rfl _ h1 rfl m rfl _ h2).1 rfl
    · rintro v ⟨l, m, rfl, h1, h2⟩
      exact (h l rfl _ h1 rfl m rfl _ h2).2 rfl

theorem tsShape_merge {a b : Json} (ha : TsShape a) (hb : TsShape b) : TsShape (jmerge a b) := by
  rw [tsShape_iff] at *
  intro l hl
  rcases jmerge_obj_cases hl with rfl | ⟨-, h⟩ | ⟨fa, fb, rfl, rfl, rfl⟩
  · exact ha l rfl
  · exact hb l h
  · exact jmergeFields_closed topShape_merge (ha fa rfl) (hb fb rfl)

theorem tsStrings_map (ss : List Str) : tsStrings (ss.map .str) = some ss := by
  induction ss with
  | nil => rfl
  | cons s ss ih => simp [tsStrings, Json.asStr, ih]

theorem get_obj {json v : Json} {k : Str} (h : json.get k = some v) :
    ∃ l, json = .obj l ∧ (k, v) ∈ l := by
  cases json with
  | obj l => exact ⟨l, rfl, alookup_mem h⟩
  | _ => cases h

theorem tsShape_info {json : Json} (h : TsShape json) : tsInfoOf json ≠ none := by
  unfold tsInfoOf
  split
  · nofun
  rename_i options ho
  obtain ⟨l, rfl, hl⟩ := get_obj ho
  simp only
  have hb : ∃ b, (match options.get cs!"baseUrl" with
      | none => some none
      | some v => v.asStr.map some) = some b := by
    cases hv : options.get cs!"baseUrl" with
    | none => exact ⟨_, rfl⟩
    | some v =>
      obtain ⟨m, rfl, hm⟩ := get_obj hv
      obtain ⟨s, rfl⟩ := h.baseUrl v ⟨l, m, rfl, hl, hm⟩
      exact ⟨_, rfl⟩
  have hp : ∃ p, (match options.get cs!"paths" with
      | none => some none
      | some v => (v.asObj.bind fun o => tsPathsLoop o []).map some) = some p := by
    cases hv : options.get cs!"paths" with
    | none => exact ⟨_, rfl⟩
    | some v =>
      obtain ⟨m, rfl, hm⟩ := get_obj hv
      obtain ⟨ps, rfl, hps⟩ := h.paths v ⟨l, m, rfl, hl, hm⟩
      have loop : ∀ acc, ∃ r, tsPathsLoop ps acc = some r := by
        clear hm hv
        induction ps with
        | nil => exact fun acc => ⟨_, rfl⟩
        | cons x ps ih =>
          intro acc
          obtain ⟨k, x⟩ := x
          obtain ⟨ss, hss⟩ := hps (k, x) (List.mem_cons_self ..)
          simp only at hss
          subst hss
          obtain ⟨r, hr⟩ := ih (fun kv hk => hps kv (List.mem_cons_of_mem _ hk)) (ainsert k ss acc)
          refine ⟨r, ?_⟩
          rw [tsPathsLoop]
          simp only [Json.asArr, Option.bind_some, tsStrings_map]
          exact hr
      obtain ⟨r, hr⟩ := loop []
      exact ⟨some r, by simp [Json.asObj, hr]⟩
  obtain ⟨b, hb⟩ := hb
  obtain ⟨p, hp⟩ := hp
  split
  · nofun
  · rename_i h'
    exact (h' b p hb hp).elim

/-! ## The demands are met -/

/-- No text is outside ASCII. -/
def AllAscii (o : Opts) (S : Sources) (fs : Fs) (request : Str) : Prop :=
  ∀ t, t = request ∨ Written o S fs t → AsciiStr t

/-- No text is a scope without name, or may become one. -/
def AllScoped (o : Opts) (S : Sources) (fs : Fs) (request : Str) : Prop :=
  (∀ t, t = request ∨ Written o S fs t → Scoped t) ∧ ∀ t, Written o S fs t → Headed t

/-- What is kept of requests. -/
def CleanReq (o : Opts) (S : Sources) (fs : Fs) (request : Str) (r : Request) : Prop :=
  (AllAscii o S fs request → ReqAscii r) ∧ (AllScoped o S fs request → ReqScoped r)

theorem clean_parse {s : Str} (h : s = request ∨ Written o S fs s) :
    CleanReq o S fs request (parseRequest s) :=
  ⟨fun ha => parse_ascii (ha s h), fun hs => parse_scoped (hs.1 s h)⟩

theorem clean_item {k k' : FieldKind} {root : Node} {r : Str} {names : List Str} {l : List Str}
    (hw : ∃ v, (∀ t ∈ v.strings, Written o S fs t) ∧ buildTree k' v = some (.ok root))
    (hr : AllAscii o S fs request → AsciiStr r)
    (hf : fieldProcess k root r names = some (.ok l)) : ∀ item ∈ l, CleanReq o S fs request (parseRequest item) := by
  obtain ⟨v, hv, ht⟩ := hw
  obtain ⟨r', h1, h2⟩ := fieldProcess_items (k := k) (buildTree_vals hv ht) r names
  rw [hf] at h1
  intro item hi
  obtain ⟨t, rem, sub, hw, hm, hc⟩ := h2 l (Option.some.inj h1).symm item hi
  refine ⟨fun ha => parse_ascii ?_, fun hs => parse_scoped ?_⟩
  · exact targetMapping_ascii (ha t (.inr hw)) (fun x hx => ascii_sub (hc x hx) (hr ha)) hm
  · exact targetMapping_scoped (hs.1 t (.inr hw)) (hs.2 t hw) hm

/-- The packages that are met: known to the sources, and their maps are written in files. -/
structure KnownPkg (S : Sources) (d : Str) (pkg : Pkg) : Prop where
  found : S.pkg d pkg
  browser : ∀ k t, (k, .target t) ∈ pkg.aliasFields → ∃ l, S.field cs!"browser" (.obj l) ∧ (k, .str t) ∈ l
  exports : ∀ root, pkg.exportsTree = some root → ∃ v k, (S.field cs!"exports" v ∨ S.field cs!"imports" v) ∧
    buildTree k v = some (.ok root)
  imports : ∀ root, pkg.importsTree = some root → ∃ v k, (S.field cs!"exports" v ∨ S.field cs!"imports" v) ∧
    buildTree k v = some (.ok root)

theorem written_field {v : Json} (h : S.field cs!"exports" v ∨ S.field cs!"imports" v) :
    ∀ t ∈ v.strings, Written o S fs t :=
  fun _ ht => h.elim (.exports · ht) (.imports · ht)

theorem safe_ctx {c : Ctx} {B : Crash → Prop} (path request : Str) (hf : B .fuel)
    (hB : ∀ s, Blame c.opts S c.fs path request s → B (.panic s))
    (hl : ∀ p, (c.load p).Good Y B fun r => ∀ pkg, r = .ok (some pkg) → KnownPkg S p pkg) :
    Safe c Y B (KnownPkg S) (CleanReq c.opts S c.fs request) where
  fuel := hf
  load := hl
  prefer r hr := ⟨fun ha => ⟨ascii_append (by decide) (hr.1 ha).1, (hr.1 ha).2⟩, fun _ h => nomatch h⟩
  empty r hr := ⟨fun ha => ⟨nofun, (hr.1 ha).2⟩, fun _ h => nomatch h⟩
  browser hb p pkg k t r hl hm hr := by
    obtain ⟨l, h1, h2⟩ := hl.browser k t hm
    have hw : Written c.opts S c.fs t := .browser hb h1 h2
    exact ⟨fun ha => ⟨ha t (.inr hw), (hr.1 ha).2⟩, fun hs => scoped_slash (hs.1 t (.inr hw))⟩
  imports p pkg root r l hl ht hr hf := by
    obtain ⟨v, k, h1, h2⟩ := hl.imports root ht
    exact clean_item ⟨v, written_field h1, h2⟩ (fun ha => (hr.1 ha).1) hf
  exports p pkg root info rem l hl ht hr hq hf := by
    obtain ⟨v, k, h1, h2⟩ := hl.exports root ht
    exact clean_item ⟨v, written_field h1, h2⟩ (fun ha => exportsRequest_ascii (hr.1 ha) hq) hf
  noSlash r hr h1 h2 := by
    refine hB _ ?_
    by_cases hs : AllScoped c.opts S c.fs request
    · exact (splitFirst_none.1 h2 (hr.2 hs h1)).elim
    · apply Classical.byContradiction
      intro hn
      refine hs ⟨fun t ht => ?_, fun t ht => ?_⟩
      · exact Classical.byContradiction fun h => hn (.scope ht h)
      · exact Classical.byContradiction fun h => hn (.head ht h)
  slice r hr h := by
    refine hB _ ?_
    by_cases ha : AllAscii c.opts S c.fs request
    · exact (moduleName_ascii (hr.1 ha).1 h).elim
    · apply Classical.byContradiction
      intro hn
      exact ha fun t ht => Classical.byContradiction fun h => hn (.slice ht h)

/-- What is kept of what is resolved. -/
def CleanInfo (o : Opts) (S : Sources) (fs : Fs) (path request : Str) (i : Info) : Prop :=
  CleanReq o S fs request i.request ∧ (¬ Indirect o request → i = ⟨path, parseRequest request⟩)

theorem safeInfo_ctx {c : Ctx} {B : Crash → Prop} (path request : Str)
    (hB : ∀ s, Blame c.opts S c.fs path request s → B (.panic s)) :
    SafeInfo c B (KnownPkg S) (CleanReq c.opts S c.fs request) (CleanInfo c.opts S c.fs path request) where
  req i hi := hi.1
  alias i src to hi hm hp := by
    refine ⟨?_, fun hn => (hn (.inl fun h => ?_)).elim⟩
    · obtain ⟨rest, hrest⟩ := hp
      rw [← hrest, replaceFirst_prefix]
      refine ⟨fun ha => ⟨ascii_append (ha to (.inr (.alias hm))) ?_, (hi.1.1 ha).2⟩, fun hs => ?_⟩
      · exact ascii_sub (fun c hc => hrest ▸ List.mem_append_right _ hc) (hi.1.1 ha).1
      · exact scoped_slash (scoped_append (hs.1 to (.inr (.alias hm))) (hs.2 to (.alias hm)))
    · have hm' : (src, AliasMap.target to) ∈ c.opts.alias := hm
      rw [h] at hm'
      cases hm'
  prefer i hi hp :=
    ⟨⟨fun ha => ⟨ascii_append (by decide) (hi.1.1 ha).1, (hi.1.1 ha).2⟩, fun _ h => nomatch h⟩,
      fun hn => (hn (.inr (.inl hp))).elim⟩
  mapped i j hi h hj := by
    refine ⟨hj, fun hn => ?_⟩
    rcases h with h | h
    · refine (hn (.inr (.inr (.inr (.inr ?_))))).elim
      rw [hi.2 hn, startsWith_iff] at h
      rw [(parse_isSplit request).concat, List.append_assoc]
      exact h.trans (List.prefix_append ..)
    · exact (hn (.inr (.inr (.inl h)))).elim
  dir i hi h1 h2 h := by
    refine hB _ ?_
    obtain ⟨hd, h | ⟨hb, m, k, pkg, v, hl, hm, hk, hc⟩⟩ := h
    · refine Blame.dir ?_ hd h
      by_cases hn : Indirect c.opts request
      · exact .inl hn
      · rw [hi.2 hn] at h1 ⊢
        exact .inr ⟨h1, getPath_eq _⟩
    · exact Blame.covered hb hd hl.found hm hk hc

theorem safeTs_ctx {c : Ctx} {B : Crash → Prop} (path request : Str)
    (hB : ∀ s, Blame c.opts S c.fs path request s → B (.panic s)) (ht : c.opts.tsconfig ≠ none) :
    SafeTs c B (CleanInfo c.opts S c.fs path request)
      (fun json => Blame c.opts S c.fs path request .tsShape ∨ TsShape json) where
  empty f doc h1 h2 := hB _ (.tsEmpty ht h1 h2)
  parent f json h1 h2 := hB _ (.tsParent ht h1 h2)
  base f json s h1 h2 d :=
    ⟨clean_parse (.inr (.base ht h1 h2)), fun hn => (hn (.inr (.inr (.inr (.inl ht))))).elim⟩
  file f json h := by
    by_cases hs : TsShape json
    · exact .inr hs
    · exact .inl (.tsShape ht h hs)
  merge a b ha hb := by
    rcases ha with ha | ha
    · exact .inl ha
    · rcases hb with hb | hb
      · exact .inl hb
      · exact .inr (tsShape_merge ha hb)
  shape json h hn := h.elim (hB _) fun h => (tsShape_info h hn).elim
  none p := ⟨⟨fun _ => ⟨nofun, nofun, nofun⟩, fun _ h => nomatch h⟩,
    fun hn => (hn (.inr (.inr (.inr (.inl ht))))).elim⟩

/-- Every panic of a resolution is accounted for. -/
theorem good_blame {c : Ctx} {B : Crash → Prop} (n : Nat) (path request : Str) (hf : B .fuel)
    (hB : ∀ s, Blame c.opts S c.fs path request s → B (.panic s))
    (hl : ∀ p, (c.load p).Good Y B fun r => ∀ pkg, r = .ok (some pkg) → KnownPkg S p pkg)
    (hd : c.debug = true → (resolveStats c n path request).All fun s =>
      ∀ i, s = .success (.info i) → i.request.target = []) :
    (resolveCtx c n path request).Good Y B fun _ => True := by
  refine good_ctx (safe_ctx path request hf hB hl) (safeInfo_ctx path request hB)
    (fun ht => safeTs_ctx path request hB ht) n path request hd ⟨clean_parse (.inl rfl), fun _ => rfl⟩ ?_
  intro f json ts entries hf _ _ _ x _ hm
  refine hB _ (Blame.search (by rw [hf]; nofun) fun ha => ?_)
  have := matchStar_ascii (pattern := x.1) (parse_ascii ha).1
  rw [hm] at this
  cases this

/-! ## Without caches -/

theorem browserLoop_ignored {l : List (Str × Json)} {acc fields : List (Str × AliasMap)}
    (h : browserLoop l acc = some fields) {k : Str} (hm : (k, .ignored) ∈ fields) :
    (k, .bool false) ∈ l ∨ (k, .ignored) ∈ acc := by
  induction l generalizing acc with
  | nil => cases h; exact .inr hm
  | cons x l ih =>
    obtain ⟨key, v⟩ := x
    have tail : ∀ {acc'}, browserLoop l acc' = some fields →
        (k, .bool false) ∈ (key, v) :: l ∨ (k, .ignored) ∈ acc' := fun h =>
      (ih h).imp (List.mem_cons_of_mem _) id
    simp only [browserLoop] at h
    split at h
    · cases h
    · rename_i hv
      rcases tail h with h | h
      · exact .inl h
      · rcases mem_ainsert_pair h with h | h
        · cases h
          cases v <;> cases hv
          exact .inl (List.mem_cons_self ..)
        · exact .inr h
    · split at h
      · rcases tail h with h | h
        · exact .inl h
        · rcases mem_ainsert_pair h with h | h
          · cases h
          · exact .inr h
      · exact tail h

theorem browserFields_written {json : Json} {fields : List (Str × AliasMap)}
    (h : browserFields json = some fields) {k : Str} {v : AliasMap} (hm : (k, v) ∈ fields) :
    BrowserEntry json k v := by
  unfold browserFields at h
  split at h
  · cases h; cases hm
  · rename_i w hw
    split at h
    · cases h; cases hm
    · rename_i m hm'
      cases w with
      | obj m' =>
        cases hm'
        cases v with
        | target t =>
          rcases browserLoop_mem h hm with h | h
          · exact .target hw h
          · cases h
        | ignored =>
          rcases browserLoop_ignored h hm with h | h
          · exact .ignored hw h
          · cases h
      | _ => cases hm'

theorem known_pure {o : Opts} {fs : Fs} {p : Str} {pkg : Pkg}
    (h : findPkg fs o.descriptionFile p = .ret (.ok (some pkg))) : KnownPkg (.of o fs) p pkg := by
  have hf := loads_fromFile h
  obtain ⟨q, doc, h1, h2⟩ := hf.file
  refine ⟨h, fun k t hm => ?_, fun root hr => ?_, fun root hr => ?_⟩
  · cases browserFields_written hf.browser hm with
    | target h3 h4 => exact ⟨_, ⟨q, doc, _, h1, h2, h3⟩, h4⟩
  · obtain ⟨v, h3, h4⟩ := hf.exports root hr
    exact ⟨v, _, .inl ⟨q, doc, _, h1, h2, h3⟩, h4⟩
  · obtain ⟨v, h3, h4⟩ := hf.imports root hr
    exact ⟨v, _, .inr ⟨q, doc, _, h1, h2, h3⟩, h4⟩

/-- Every crash of a call without caches is accounted for. -/
theorem good_pure {cfg : Config} (hd : cfg.debug = false) (fs : Fs) (n : Nat) (call : Call) :
    (call.pure cfg fs n).Good AnyRet (Blamed fun s => call.Blame cfg.opts (.of cfg.opts fs) fs s)
      fun _ => True := by
  cases call with
  | resolve path request =>
    unfold Call.pure
    rw [hd]
    refine Prog.Good.bind (Q := fun _ => True) ?_ fun r _ => trivial
    refine good_blame (S := .of cfg.opts fs) n path request trivial (fun _ h => h) (fun p => ?_) nofun
    exact (good_findPkg (S := .of cfg.opts fs) (fun _ _ h => h) (fun _ _ h => h) _ p).mono
      fun r hr pkg h => known_pure (by rw [← h]; exact hr)
  | sideEffects path =>
    unfold Call.pure findSideEffects
    refine Prog.Good.bind (Q := fun _ => True) ?_ fun r _ => trivial
    refine (good_findPkg (S := .of cfg.opts fs) (o := cfg.opts) (path := path) (request := [])
      (fun _ _ h => h) (fun s h hb => ⟨h, hb⟩) _ path).bind fun r _ => ?_
    cases r with
    | error e => exact trivial
    | ok p => cases p <;> exact trivial

end Verif
