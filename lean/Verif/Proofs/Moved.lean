import Verif.Proofs.MovedPath
import Verif.Proofs.Messages
import Verif.Proofs.Fuel
import Verif.Proofs.BrowserOff
/-!
# Two calls for a project in two places

`p.Moves Q q`: unless `p` runs out of fuel, `q` ends in the same way, and the values are related by `Q`.
-/

namespace Verif

/-- See the file comment. -/
inductive Prog.Moves {α β : Type} (Q : α → β → Prop) : Prog α → Prog β → Prop where
  | fuel (q : Prog β) : Moves Q (.crash .fuel) q
  | crash (c : Crash) : Moves Q (.crash c) (.crash c)
  | ret {x : α} {y : β} : Q x y → Moves Q (.ret x) (.ret y)

theorem Prog.Moves.bind {α β α' β' : Type} {Q : α → β → Prop} {Q' : α' → β' → Prop} {p : Prog α} {q : Prog β}
    {f : α → Prog α'} {g : β → Prog β'} (h : p.Moves Q q)
    (hf : ∀ x y, Q x y → (f x).Moves Q' (g y)) : (p.bind f).Moves Q' (q.bind g) := by
  cases h with
  | fuel => exact .fuel _
  | crash c => exact .crash c
  | ret h => exact hf _ _ h

theorem Prog.Moves.mono {α β : Type} {Q Q' : α → β → Prop} {p : Prog α} {q : Prog β} (h : p.Moves Q q)
    (hf : ∀ x y, Q x y → Q' x y) : p.Moves Q' q := by
  cases h with
  | fuel => exact .fuel _
  | crash c => exact .crash c
  | ret h => exact .ret (hf _ _ h)

/-- The same package in the two projects. -/
structure PkgMoved (o : Opts) (a b : List Str) (p q : Pkg) : Prop where
  dir : Placed a b p.absDir q.absDir
  rest : q = { p with absDir := q.absDir }
  main : ∀ f ∈ o.mainFields, ∀ v, p.raw.get f = some (.str v) → NoClimb (splitC '/' v)
  browser : o.browserField = true → ∀ k v, (k, v) ∈ p.aliasFields → isAbs k = false ∧ ∀ t, v = .target t → Harmless t
  exports : ∀ root key l, p.exportsTree = some root → NoUp key →
    fieldProcess .exports root key o.conditionNames = some (.ok l) → ∀ t ∈ l,
    checkTarget (parseRequest t).target = true → Fits (parseRequest t)
  imports : ∀ root key l, p.importsTree = some root → NoUp key →
    fieldProcess .imports root key o.conditionNames = some (.ok l) → ∀ t ∈ l, Fits (parseRequest t)
  exportsErr : ∀ root key e, p.exportsTree = some root →
    fieldProcess .exports root key o.conditionNames = some (.error e) → e.place = none
  importsErr : ∀ root key e, p.importsTree = some root →
    fieldProcess .imports root key o.conditionNames = some (.error e) → e.place = none

/-- Two optional packages. -/
def OptPkgMoved (o : Opts) (a b : List Str) : Option Pkg → Option Pkg → Prop
  | none, none => True
  | some p, some q => PkgMoved o a b p q
  | _, _ => False

/-- Results of looking for a package. -/
def LoadMoved (o : Opts) (a b : List Str) : Except Err (Option Pkg) → Except Err (Option Pkg) → Prop
  | .ok p, .ok q => OptPkgMoved o a b p q
  | .error e, .error e' => ErrMoved a b e e'
  | _, _ => False

/-- Results of reading a package. -/
def ReadMoved (o : Opts) (a b : List Str) : Except Err Pkg → Except Err Pkg → Prop
  | .ok p, .ok q => PkgMoved o a b p q
  | .error e, .error e' => ErrMoved a b e e'
  | _, _ => False

/-! ## Errors -/

theorem placedSim {a b : List Str} {p q : Str} (h : Placed a b p q) : PlacedSim a b p q := ⟨p, q, rfl, rfl, h⟩

theorem ErrMoved.isTag {a b : List Str} {e e' : Err} (h : ErrMoved a b e e') : e'.isTag = e.isTag := by
  cases h <;> rfl

theorem buildTree_place {k : FieldKind} {v : Json} {e : Err} (h : buildTree k v = some (.error e)) :
    e.place = none := by
  obtain ⟨l, -, hk⟩ := buildTree_key h
  cases hk <;> rfl

theorem assertRequest_place {k : FieldKind} {t : Str} {e : Err} (h : assertRequest k t = .error e) :
    e.place = none := by
  cases k <;> simp only [assertRequest] at h <;> repeat' split at h
  all_goals first | (cases h; rfl) | cases h

theorem fieldProcess_place {k k' : FieldKind} {j : Json} {root : Node} {target : Str} {names : List Str}
    {e : Err} (hb : buildTree k' j = some (.ok root))
    (h : fieldProcess k root target names = some (.error e)) : e.place = none := by
  rcases fieldProcess_true hb h with h | ⟨t, -, h⟩ | ⟨rfl, -⟩
  · exact assertRequest_place h
  · cases h <;> rfl
  · rfl

section
variable {o : Opts} {a b : List Str} {fs fs' : Fs} (H : TwoPlaces o a b fs fs')

/-! ## Above the project -/

theorem pparent_place {l : List Str} (h : IsPlace l) : pparent (absText l) = some (absText l.dropLast) := by
  have := pparent_below h (s := []) (.inl rfl)
  rwa [List.append_nil] at this

theorem IsPlace.of_prefix {l : List Str} (ha : IsPlace a) (h : l <+: a) (hl : l ≠ []) : IsPlace l :=
  ⟨hl, fun n hn => ha.2 n (h.subset hn)⟩

theorem dropLast_up {l : List Str} (h : l <+: a) (hl : l ≠ []) :
    l.dropLast <+: a ∧ l.dropLast ≠ a := by
  have h1 := (List.dropLast_prefix l).trans h
  refine ⟨h1, fun h2 => ?_⟩
  have e1 := congrArg List.length h2
  have e2 := h.length_le
  have e3 := List.length_pos_iff.2 hl
  rw [List.length_dropLast] at e1
  omega

theorem closest_outside {desc : Str} (hdesc : o.descriptionFile = some desc) (ha : IsPlace a)
    (hal : OnItsOwn o fs a) {l : List Str} (hl : l <+: a) (hne : l ≠ a) :
    closest fs desc (absText l) = none := by
  induction hn : l.length generalizing l with
  | zero =>
    cases l with
    | cons x l => cases hn
    | nil =>
      rw [closest_step, hal.desc _ _ hl hne hdesc, if_neg (by simp), show pparent (absText []) = none by decide]
  | succ n ih =>
    have hl0 : l ≠ [] := by rintro rfl; cases hn
    rw [closest_step, hal.desc _ _ hl hne hdesc, pparent_place (ha.of_prefix hl hl0)]
    simp only [Bool.false_eq_true, and_false, if_false]
    exact ih (dropLast_up hl hl0).1 (dropLast_up hl hl0).2 (by simp [hn])

/-! ## Looking for packages -/

include H

theorem closest_moved {desc : Str} (hdesc : o.descriptionFile = some desc) {p q : Str}
    (h : Placed a b p q) :
    (closest fs desc p = none ∧ closest fs' desc q = none) ∨
      ∃ d d', closest fs desc p = some d ∧ closest fs' desc q = some d' ∧ Placed a b d d' := by
  induction hn : p.length using Nat.strongRecOn generalizing p q with
  | ind n ih =>
    subst hn
    have hj := h.pjoin H.ha H.hb (H.opts.desc _ hdesc)
    rw [closest_step fs desc p, closest_step fs' desc q, H.moved.isDir _ _ h, H.moved.isFile _ _ hj]
    split
    · exact .inr ⟨p, q, rfl, rfl, h⟩
    · rcases h.parent H.ha H.hb with ⟨p', q', h1, h2, h3⟩ | ⟨h1, h2⟩
      · rw [h1, h2]
        exact ih _ (pparent_length h1) h3 rfl
      · rw [h1, h2]
        obtain ⟨h3, h4⟩ := dropLast_up (List.prefix_refl a) H.ha.1
        obtain ⟨h5, h6⟩ := dropLast_up (List.prefix_refl b) H.hb.1
        exact .inl ⟨closest_outside hdesc H.ha H.alone h3 h4, closest_outside hdesc H.hb H.alone' h5 h6⟩

theorem readPkg_moved {desc : Str} (hdesc : o.descriptionFile = some desc) {p q : Str}
    (h : Placed a b p q) :
    (readPkg fs p (pjoin p desc)).Moves (ReadMoved o a b)
      (readPkg fs' q (pjoin q desc)) := by
  have hj := h.pjoin H.ha H.hb (H.opts.desc _ hdesc)
  unfold readPkg
  rw [H.moved.read _ _ hj, H.moved.mtime _ _ hj]
  split
  · rename_i doc m hd hm
    split
    · exact .ret (.parseFailed (placedSim hj))
    · rename_i json hjson
      have hdes : Describes o fs a json := by
        obtain ⟨s, hs, rfl, -⟩ := h
        exact ⟨desc, s, doc, hdesc, hs, hd, hjson⟩
      split
      · exact .crash _
      · rename_i fields hfields
        have key : ∀ et it,
            (∀ root, et = some root → ∃ v, json.get cs!"exports" = some v ∧ buildTree .exports v = some (.ok root)) →
            (∀ root, it = some root → ∃ v, json.get cs!"imports" = some v ∧ buildTree .imports v = some (.ok root)) →
            Prog.Moves (ReadMoved o a b)
              (match parseSideEffects (pjoin p desc) json with
              | .error err => .ret (.error err)
              | .ok se => .ret (.ok (⟨p, (json.get cs!"name").bind Json.asStr,
                  (json.get cs!"version").bind Json.asStr, fields, et, it, se, json⟩ : Pkg)))
              (match parseSideEffects (pjoin q desc) json with
              | .error err => .ret (.error err)
              | .ok se => .ret (.ok ⟨q, (json.get cs!"name").bind Json.asStr,
                  (json.get cs!"version").bind Json.asStr, fields, et, it, se, json⟩)) := by
          intro et it het hit
          cases hp : parseSideEffects (pjoin p desc) json with
          | error e =>
            obtain ⟨x, v, -, -, rfl⟩ := parseSideEffects_true hp
            rcases parseSideEffects_comps (pjoin p desc) (pjoin q desc) json with he | ⟨w, h1, h2⟩
            · rw [hp] at he
              obtain ⟨x', v', -, -, he'⟩ := parseSideEffects_true he.symm
              rw [← he]
              injection he' with e1 e2
              exact .ret (.sideEffects _ (by
                refine ⟨pjoin p desc, pjoin q desc, rfl, by rw [e1], hj⟩))
            · rw [hp] at h1
              injection h1 with h1
              injection h1 with _ h1
              subst h1
              rw [h2]
              exact .ret (.sideEffects _ (placedSim hj))
          | ok se =>
            rcases parseSideEffects_comps (pjoin p desc) (pjoin q desc) json with he | ⟨w, h1, -⟩
            · rw [← he, hp]
              refine .ret ?_
              refine ⟨h, rfl, H.self.main json hdes, fun hb k v hk => H.self.browser hb json hdes _ hfields k v hk,
                ?_, ?_, ?_, ?_⟩
              · intro root key l hr hk hf
                obtain ⟨v, h1, h2⟩ := het root hr
                exact H.self.exports json hdes v root key l h1 h2 hk hf
              · intro root key l hr hk hf
                obtain ⟨v, h1, h2⟩ := hit root hr
                exact H.self.imports json hdes v root key l h1 h2 hk hf
              · intro root key e hr hf
                obtain ⟨v, h1, h2⟩ := het root hr
                exact fieldProcess_place h2 hf
              · intro root key e hr hf
                obtain ⟨v, h1, h2⟩ := hit root hr
                exact fieldProcess_place h2 hf
            · rw [hp] at h1; cases h1
        unfold withTree
        cases he : json.get cs!"exports" with
        | none =>
          simp only
          cases hi : json.get cs!"imports" with
          | none => exact key _ _ nofun nofun
          | some w =>
            simp only
            cases hw : buildTree .imports w with
            | none => exact .crash _
            | some r =>
              cases r with
              | error e => exact .ret (.same (buildTree_place hw))
              | ok it => exact key _ _ nofun fun root hr => ⟨w, hi, by cases hr; exact hw⟩
        | some v =>
          simp only
          cases hv : buildTree .exports v with
          | none => exact .crash _
          | some r =>
            cases r with
            | error e => exact .ret (.same (buildTree_place hv))
            | ok et =>
              simp only
              cases hi : json.get cs!"imports" with
              | none => exact key _ _ (fun root hr => ⟨v, he, by cases hr; exact hv⟩) nofun
              | some w =>
                simp only
                cases hw : buildTree .imports w with
                | none => exact .crash _
                | some r =>
                  cases r with
                  | error e => exact .ret (.same (buildTree_place hw))
                  | ok it =>
                    exact key _ _ (fun root hr => ⟨v, he, by cases hr; exact hv⟩)
                      fun root hr => ⟨w, hi, by cases hr; exact hw⟩
  · exact .ret (.openFailed (placedSim hj))

theorem load_moved {p q : Str} (h : Placed a b p q) :
    (findPkg fs o.descriptionFile p).Moves (LoadMoved o a b) (findPkg fs' o.descriptionFile q) := by
  unfold findPkg
  cases hd : o.descriptionFile with
  | none => exact .ret trivial
  | some desc =>
    simp only
    rcases closest_moved H hd h with ⟨h1, h2⟩ | ⟨d, d', h1, h2, h3⟩
    · rw [h1, h2]; exact .ret trivial
    · rw [h1, h2]
      refine (readPkg_moved H hd h3).bind fun x y hxy => ?_
      cases x <;> cases y <;> first | exact .ret hxy | exact (hxy : False).elim

end

/-! ## Requests on their way -/

/-- Queries and fragments of requests on their way. -/
structure Tails (r : Request) : Prop where
  rest : NoUp (r.query ++ r.fragment)
  start : r.query ++ r.fragment = [] ∨ ∃ c w, r.query ++ r.fragment = c :: w ∧ (c = '?' ∨ c = '#')

/-- The same request in the two projects, whatever its target. -/
structure MW (a b : List Str) (i j : Info) : Prop where
  request : j.request = i.request
  path : Placed a b i.path j.path
  tails : Tails i.request

/-- The same request in the two projects. If `x` is set, the target may lead out of the directory it starts
from. -/
structure MI (o : Opts) (a b : List Str) (x : Bool) (i j : Info) : Prop where
  weak : MW a b i j
  kind : i.request.kind = getTargetKind i.request.target
  inside : Harmless i.request.target ∨ x = true ∧ i.request.kind = .relative ∧
    Placed a b i.getPath j.getPath ∧
    (∀ kv ∈ o.alias, startsWith i.request.target kv.1 = false) ∧
    (o.preferRelative = false ∨ startsWith i.request.target cs!"./" = true ∨
      startsWith i.request.target cs!"../" = true)

/-- The same state of a call. -/
inductive SM (o : Opts) (a b : List Str) (x : Bool) : Stats → Stats → Prop where
  | info {i j : Info} : MW a b i j → SM o a b x (.success (.info i)) (.success (.info j))
  | ignored : SM o a b x (.success .ignored) (.success .ignored)
  | resolving {i j : Info} : MI o a b x i j → SM o a b x (.resolving i) (.resolving j)
  | error {e e' : Err} {i j : Info} : ErrMoved a b e e' → MW a b i j → SM o a b x (.error e i) (.error e' j)

/-- The same state of a call at the end. -/
inductive SE (a b : List Str) : Stats → Stats → Prop where
  | info {i j : Info} : MW a b i j → SE a b (.success (.info i)) (.success (.info j))
  | ignored : SE a b (.success .ignored) (.success .ignored)
  | resolving (i j : Info) : SE a b (.resolving i) (.resolving j)
  | error {e e' : Err} (i j : Info) : ErrMoved a b e e' → SE a b (.error e i) (.error e' j)

theorem SM.se {o : Opts} {a b : List Str} {x : Bool} {s s' : Stats} (h : SM o a b x s s') : SE a b s s' := by
  cases h with
  | info h => exact .info h
  | ignored => exact .ignored
  | resolving h => exact .resolving _ _
  | error h _ => exact .error _ _ h

theorem MI.request {o : Opts} {a b : List Str} {x : Bool} {i j : Info} (h : MI o a b x i j) :
    j.request = i.request := h.weak.request

theorem MI.path {o : Opts} {a b : List Str} {x : Bool} {i j : Info} (h : MI o a b x i j) :
    Placed a b i.path j.path := h.weak.path

theorem tail_start {q f : Str} (hq : q = [] ∨ q.head? = some '?') (hf : f = [] ∨ f.head? = some '#') :
    q ++ f = [] ∨ ∃ c w, q ++ f = c :: w ∧ (c = '?' ∨ c = '#') := by
  rcases hq with rfl | hq
  · rcases hf with rfl | hf
    · exact .inl rfl
    · cases f with
      | nil => cases hf
      | cons c w => cases hf; exact .inr ⟨_, w, rfl, .inr rfl⟩
  · cases q with
    | nil => cases hq
    | cons c w => cases hq; exact .inr ⟨_, w ++ f, rfl, .inl rfl⟩

theorem Fits.tails {t : Str} (h : Fits (parseRequest t)) : Tails (parseRequest t) := by
  have := parse_isSplit t
  exact ⟨h.rest, tail_start this.query_start this.fragment_start⟩

theorem MI.of_good {o : Opts} {a b : List Str} {x : Bool} {i j : Info} (h : MW a b i j)
    (hk : i.request.kind = getTargetKind i.request.target) (ht : Harmless i.request.target) : MI o a b x i j :=
  ⟨h, hk, .inl ht⟩

theorem MI.of_fits {o : Opts} {a b : List Str} {x : Bool} {p q t : Str} (h : Placed a b p q)
    (ht : Fits (parseRequest t)) : MI o a b x ⟨p, parseRequest t⟩ ⟨q, parseRequest t⟩ :=
  ⟨⟨rfl, h, ht.tails⟩, rfl, .inl ht.target⟩

theorem MI.good {o : Opts} {a b : List Str} {x : Bool} {i j : Info} (h : MI o a b x i j)
    (hk : i.request.kind ≠ .relative) : Harmless i.request.target := by
  rcases h.inside with h | h
  · exact h
  · exact absurd h.2.1 hk

theorem MI.plain {o : Opts} {a b : List Str} {x : Bool} {i j : Info} (h : MI o a b x i j)
    (hk : i.request.kind ≠ .relative) : NoUp i.request.target := by
  rcases (h.good hk).2 with h' | h'
  · exact absurd (h.kind.trans h') hk
  · exact h'

theorem MI.good' {o : Opts} {a b : List Str} {i j : Info} (h : MI o a b false i j) :
    Harmless i.request.target := by
  rcases h.inside with h | h
  · exact h
  · cases h.1

theorem MW.withTarget {a b : List Str} {i j : Info} (h : MW a b i j) (t : Str) :
    MW a b (i.withTarget t) (j.withTarget t) := by
  refine ⟨?_, h.path, ⟨h.tails.rest, h.tails.start⟩⟩
  simp only [Info.withTarget, h.request]

theorem MI.to_good {o : Opts} {a b : List Str} {x : Bool} {i j : Info} (h : MW a b i j) {t : Str}
    (ht : Harmless t) : MI o a b x (i.withTarget t) (j.withTarget t) :=
  .of_good (h.withTarget t) rfl ht

theorem MW.withPath {a b : List Str} {i j : Info} (h : MW a b i j) {p q : Str} (hp : Placed a b p q) :
    MW a b (i.withPath p) (j.withPath q) := ⟨h.request, hp, h.tails⟩

theorem good_dotSlash {t : Str} (h : NoClimb (splitC '/' t)) : Harmless (cs!"./" ++ t) := by
  refine ⟨⟨rfl, ?_⟩, .inl (getTargetKind_dotSlash t)⟩
  have : splitC '/' (cs!"./" ++ t) = [cs!"."] ++ splitC '/' t := by
    rw [show cs!"./" ++ t = cs!"." ++ '/' :: t from rfl, splitC_append_sep]
    rfl
  rw [this]
  exact (noClimb_single (by decide)).append h

theorem good_relative {t : Str} (h : NoClimb (splitC '/' t)) (hr : startsWith t cs!"./" = true) : Harmless t := by
  obtain ⟨r, rfl⟩ := (startsWith_iff _ _).1 hr
  exact ⟨⟨rfl, h⟩, .inl (getTargetKind_dotSlash r)⟩

theorem good_nil : Harmless [] := ⟨stays_nil, .inl rfl⟩

/-- The key that is looked up for a request. -/
theorem noUp_key {t : Str} {r : Request} (ht : NoUp t) (h : Tails r) : NoUp (t ++ r.query ++ r.fragment) := by
  rw [List.append_assoc]
  rcases h.start with h' | ⟨c, w, h', hc⟩
  · rw [h', List.append_nil]; exact ht
  · have := h.rest
    rw [h'] at this ⊢
    exact noUp_glue ht this (by rcases hc with rfl | rfl <;> decide) (by rcases hc with rfl | rfl <;> decide)

theorem exportsRequestOf_key {c : Ctx} {pkg : Pkg} {i : Info} (ht : NoUp i.request.target)
    (h : Tails i.request) {key : Str} (hk : exportsRequestOf c pkg i = .ret (some key)) : NoUp key := by
  have hrest : ∀ {x y u : Str}, NoUp u → splitFirst '/' u = some (x, y) → NoUp ('.' :: y) ∧ NoUp (y.drop 1) := by
    intro x y u hu hs
    obtain ⟨y', rfl, rfl, -⟩ := splitFirst_cut hs
    have := (noUp_append.1 hu).2
    exact ⟨noUp_append (s := cs!".").2 ⟨noUp_dot, this⟩, this⟩
  unfold exportsRequestOf at hk
  simp only at hk
  split at hk
  · cases hk
  · rename_i chars hchars
    have hch : NoUp chars := by
      split at hchars
      · simp only [Option.map_eq_some_iff] at hchars
        obtain ⟨⟨x, y⟩, h1, rfl⟩ := hchars
        exact (hrest ht h1).2
      · cases hchars; exact ht
    split at hk
    · cases hk
    · rename_i t htt
      have hpt : NoUp t := by
        split at htt
        · rename_i b hb
          cases htt
          exact (hrest hch hb).1
        · split at htt
          · cases htt; exact noUp_dot
          · cases htt
      split at hk
      · cases hk
        refine noUp_key ?_ h
        split
        · exact noUp_append (s := cs!".").2 ⟨noUp_dot, noUp_nil⟩
        · exact hpt
      · cases hk
        exact hpt

/-- Continuing with a request that is still on its way. -/
theorem SM.andThen {o : Opts} {a b : List Str} {x : Bool} {s s' : Stats} (h : SM o a b x s s')
    {Q : Stats → Stats → Prop} {f g : Info → Prog Stats} (hQ : ∀ s s', SM o a b false s s' → Q s s')
    (hf : ∀ i j, MI o a b x i j → (f i).Moves Q (g j)) :
    (s.andThen f).Moves Q (s'.andThen g) := by
  cases h with
  | info h => exact .ret (hQ _ _ (.info h))
  | ignored => exact .ret (hQ _ _ .ignored)
  | resolving h => exact hf _ _ h
  | error h h' => exact .ret (hQ _ _ (.error h h'))

theorem SM.widen {o : Opts} {a b : List Str} {x : Bool} {s s' : Stats} (h : SM o a b false s s') :
    SM o a b x s s' := by
  cases h with
  | info h => exact .info h
  | ignored => exact .ignored
  | resolving h => exact .resolving (.of_good h.weak h.kind h.good')
  | error h h' => exact .error h h'

theorem getTargetKind_hash {t : Str} (h : startsWith t cs!"#" = true) : getTargetKind t = .internal := by
  unfold getTargetKind
  cases t with
  | nil => cases h
  | cons c t => rw [if_neg (by simp), if_pos h]

section
variable {o : Opts} {a b : List Str} {fs fs' : Fs} (H : TwoPlaces o a b fs fs') {x : Bool} {i j : Info}
  {p q : Pkg} {n m : Nat}
include H

theorem MI.getPath (h : MI o a b x i j) : Placed a b i.getPath j.getPath := by
  rcases h.inside with ht | ⟨-, -, h, -⟩
  · unfold Info.getPath
    rw [h.request]
    split
    · exact h.path
    · exact h.path.pjoin H.ha H.hb ht.1
  · exact h

theorem ext_moved {p q : Str} (h : Placed a b p q) {e : Str} (he : e ∈ o.extensions) :
    fs'.isFile (q ++ e) = fs.isFile (p ++ e) ∧ (fs.isFile (p ++ e) = true → Placed a b (p ++ e) (q ++ e)) := by
  obtain ⟨h1, h2⟩ := H.opts.extensions e he
  rcases h.append h1 h2 with h | ⟨rfl, rfl, hne⟩
  · exact ⟨H.moved.isFile _ _ h, fun _ => h⟩
  · rw [H.alone.next e he hne, H.alone'.next e he hne]
    exact ⟨rfl, nofun⟩

omit H in
theorem find_ext {α : Type} {l : List α} {f g : α → Bool} (h : ∀ e ∈ l, g e = f e) : l.find? g = l.find? f := by
  induction l with
  | nil => rfl
  | cons e l ih =>
    rw [List.find?_cons, List.find?_cons, h e (by simp), ih fun e he => h e (List.mem_cons_of_mem _ he)]

theorem resolveAsFile_moved (h : MI o a b x i j) :
    SM o a b x (resolveAsFile (pureCtx o fs false) i) (resolveAsFile (pureCtx o fs' false) j) := by
  have hp := h.getPath H
  unfold resolveAsFile pureCtx
  simp only
  rw [H.moved.isFile _ _ hp]
  split
  · exact .info ((h.weak.withPath hp).withTarget [])
  · unfold extensionsPlugin appendExt
    simp only
    rw [find_ext fun e he => (ext_moved H hp he).1]
    cases hf : o.extensions.find? fun ext => fs.isFile (i.getPath ++ ext) with
    | none => exact .resolving h
    | some e =>
      have h1 := List.mem_of_find?_eq_some hf
      have h2 := List.find?_some hf
      exact .info ((h.weak.withPath ((ext_moved H hp h1).2 h2)).withTarget [])

/-! ## `exports` -/

theorem contains_moved {p q : Str} (h : Placed a b p q) : containsStr q MODULE = containsStr p MODULE := by
  rw [Bool.eq_iff_iff, containsStr_iff, containsStr_iff]
  obtain ⟨s, hs, rfl, rfl⟩ := h
  rcases hs with rfl | ⟨t, rfl, -⟩
  · rw [List.append_nil, List.append_nil]; exact H.modules.symm
  · rw [infix_append_sep (by decide), infix_append_sep (by decide), MODULE, H.modules]

theorem isInModule_moved (h : PkgMoved o a b p q) : isInModule q = isInModule p := contains_moved H h.dir

omit H in
theorem isResolveSelf_moved (h : PkgMoved o a b p q) (hij : j.request = i.request) :
    isResolveSelf q j = isResolveSelf p i := by
  rw [h.rest]
  unfold isResolveSelf
  rw [hij]

theorem exportsRequestOf_moved (h : PkgMoved o a b p q) (hm : MI o a b x i j) (hk : i.request.kind = .normal) :
    exportsRequestOf (pureCtx o fs' false) q j = exportsRequestOf (pureCtx o fs false) p i := by
  have hpl := hm.path.pjoin H.ha H.hb (hm.good (by rw [hk]; nofun)).1
  rw [h.rest]
  unfold exportsRequestOf pureCtx
  simp only [hm.request, H.moved.pathExists _ _ hpl]

theorem exportsPick_moved {d d' : Str} (hd : Placed a b d d') (l : List Str)
    (hl : ∀ t ∈ l, checkTarget (parseRequest t).target = true → Fits (parseRequest t)) :
    (exportsPick (pureCtx o fs false) d l = none ∧ exportsPick (pureCtx o fs' false) d' l = none) ∨
      ∃ i j, exportsPick (pureCtx o fs false) d l = some i ∧ exportsPick (pureCtx o fs' false) d' l = some j ∧
        MI o a b false i j := by
  induction l with
  | nil => exact .inl ⟨rfl, rfl⟩
  | cons t l ih =>
    have ih := ih fun t ht => hl t (List.mem_cons_of_mem _ ht)
    unfold exportsPick
    simp only
    cases hc : checkTarget (parseRequest t).target with
    | false =>
      simp only [Bool.and_false, Bool.false_eq_true, if_false]
      exact ih
    | true =>
      have hmi : MI o a b false ⟨d, parseRequest t⟩ ⟨d', parseRequest t⟩ := .of_fits hd (hl t (by simp) hc)
      have he : (pureCtx o fs' false).fs.isFile (⟨d', parseRequest t⟩ : Info).getPath =
          (pureCtx o fs false).fs.isFile (⟨d, parseRequest t⟩ : Info).getPath := H.moved.isFile _ _ (hmi.getPath H)
      rw [he]
      split
      · exact .inr ⟨_, _, rfl, rfl, hmi⟩
      · exact ih

theorem exportsPlugin_moved {p q : Option Pkg} (h : OptPkgMoved o a b p q) (hm : MI o a b x i j) :
    (exportsPlugin (pureCtx o fs false) p i).Moves (SM o a b x) (exportsPlugin (pureCtx o fs' false) q j) := by
  match p, q, h with
  | none, none, _ => exact .ret (.resolving hm)
  | some p, some q, h =>
    have h : PkgMoved o a b p q := h
    unfold exportsPlugin
    simp only
    rw [isInModule_moved H h, isResolveSelf_moved h hm.request, hm.request,
      show q.exportsTree = p.exportsTree by rw [h.rest]]
    split
    · exact .ret (.resolving hm)
    · rename_i hk
      split
      · exact .ret (.resolving hm)
      · split
        · exact .ret (.resolving hm)
        · rename_i root hroot
          rw [exportsRequestOf_moved H h hm (by simpa using hk)]
          have hk : i.request.kind = .normal := by simpa using hk
          have hsame : (exportsRequestOf (pureCtx o fs false) p i).Moves
              (fun x y => y = x ∧ exportsRequestOf (pureCtx o fs false) p i = .ret x)
              (exportsRequestOf (pureCtx o fs false) p i) := by
            have hc : (∃ r, exportsRequestOf (pureCtx o fs false) p i = .ret r) ∨
                ∃ c, exportsRequestOf (pureCtx o fs false) p i = .crash c := by
              unfold exportsRequestOf
              simp only
              repeat' split
              all_goals first | exact .inl ⟨_, rfl⟩ | exact .inr ⟨_, rfl⟩
            rcases hc with ⟨r, hr⟩ | ⟨c, hc⟩
            · rw [hr]; exact .ret ⟨rfl, rfl⟩
            · rw [hc]; exact .crash _
          refine hsame.bind ?_
          intro r r' hr
          obtain ⟨rfl, hkey⟩ := hr
          cases r' with
          | none => exact .ret (.error (.same rfl) hm.weak)
          | some r =>
            simp only [pureCtx]
            cases hf : fieldProcess .exports root r o.conditionNames with
            | none => exact .fuel _
            | some res =>
              cases res with
              | error e => exact .ret (.error (.same (h.exportsErr root r e hroot hf)) hm.weak)
              | ok l =>
                simp only
                have hask := exportsRequestOf_key (hm.plain (by rw [hk]; nofun)) hm.weak.tails hkey
                rcases exportsPick_moved H h.dir l (h.exports root r l hroot hask hf) with ⟨h1, h2⟩ | ⟨i', j', h1, h2, h3⟩
                · simp only [pureCtx] at h1 h2
                  rw [h1, h2]; exact .ret (.error (.same rfl) hm.weak)
                · simp only [pureCtx] at h1 h2
                  rw [h1, h2]; exact .ret (.resolving (.of_good h3.weak h3.kind h3.good'))

/-! ## `browser` -/

omit H in
theorem aliasChain_good {fields : List (Str × AliasMap)}
    (hf : ∀ k v, (k, v) ∈ fields → ∀ t, v = .target t → Harmless t) {to r : AliasMap}
    (hto : ∀ t, to = .target t → Harmless t) (h : aliasChain fields n to = some r) :
    ∀ t, r = .target t → Harmless t := by
  induction n generalizing to with
  | zero => cases h
  | succ n ih =>
    cases to with
    | ignored => cases h; nofun
    | target s =>
      unfold aliasChain at h
      cases ha : alookup s fields with
      | none => rw [ha] at h; cases h; exact hto
      | some next =>
        rw [ha] at h
        exact ih (hf s next (alookup_mem ha)) h

theorem aliasPath_moved {d d' key : Str} (hd : Placed a b d d') (hk : isAbs key = false) (hm : MI o a b x i j) :
    aliasPathMatches (pureCtx o fs' false) (pjoin d' key) j = aliasPathMatches (pureCtx o fs false) (pjoin d key) i := by
  have hp := hm.getPath H
  have h1 : ∀ {u v : Str}, Placed a b u v → pathEq (pjoin d' key) v = pathEq (pjoin d key) u := by
    intro u v huv
    obtain ⟨s, hs, rfl, rfl⟩ := hd
    obtain ⟨s', hs', rfl, rfl⟩ := huv
    rw [Bool.eq_iff_iff]
    simp only [pathEq, beq_iff_eq]
    rw [comps_pjoin_below H.ha hs hk, comps_pjoin_below H.hb hs hk, comps_below H.ha hs', comps_below H.hb hs',
      List.append_cancel_left_eq, List.append_cancel_left_eq]
  unfold aliasPathMatches pureCtx appendExt
  rw [h1 hp]
  congr 1
  rw [Bool.eq_iff_iff, List.any_eq_true, List.any_eq_true]
  have h2 : ∀ e ∈ o.extensions, pathEq (pjoin d' key) (j.getPath ++ e) = pathEq (pjoin d key) (i.getPath ++ e) := by
    intro e he
    obtain ⟨he1, he2⟩ := H.opts.extensions e he
    rcases hp.append he1 he2 with h | ⟨e1, e2, hne⟩
    · exact h1 h
    · rw [e1, e2]
      obtain ⟨s, hs, rfl, rfl⟩ := hd
      rw [Bool.eq_iff_iff]
      simp only [pathEq, beq_iff_eq]
      rw [comps_pjoin_below H.ha hs hk, comps_pjoin_below H.hb hs hk]
      exact ⟨fun h => absurd h.symm (comps_next H.hb he1 hne _), fun h => absurd h.symm (comps_next H.ha he1 hne _)⟩
  constructor
  · rintro ⟨e, he, h⟩; exact ⟨e, he, by rw [← h2 e he]; exact h⟩
  · rintro ⟨e, he, h⟩; exact ⟨e, he, by rw [h2 e he]; exact h⟩

theorem aliasFieldPlugin_moved (hnm : n ≤ m) {p q : Option Pkg} (h : OptPkgMoved o a b p q)
    (hm : MI o a b x i j) :
    (aliasFieldPlugin (pureCtx o fs false) n p i).Moves (SM o a b x)
      (aliasFieldPlugin (pureCtx o fs' false) m q j) := by
  unfold aliasFieldPlugin
  cases hb : o.browserField with
  | false => simp only [pureCtx, hb]; exact .ret (.resolving hm)
  | true =>
    simp only [pureCtx, hb]
    match p, q, h with
    | none, none, _ => exact .ret (.resolving hm)
    | some p, some q, h =>
      have h : PkgMoved o a b p q := h
      have hbr := h.browser hb
      simp only [Bool.not_true, Bool.false_eq_true, if_false]
      rw [show q.aliasFields = p.aliasFields by rw [h.rest]]
      have hfind : p.aliasFields.find? (fun kv => aliasMatches (pureCtx o fs' false) q j kv.1) =
          p.aliasFields.find? (fun kv => aliasMatches (pureCtx o fs false) p i kv.1) := by
        have : ∀ kv ∈ p.aliasFields, aliasMatches (pureCtx o fs' false) q j kv.1 =
            aliasMatches (pureCtx o fs false) p i kv.1 := by
          rintro ⟨k, v⟩ hkv
          unfold aliasMatches
          rw [hm.request]
          split
          · rfl
          · exact aliasPath_moved H h.dir (hbr k v hkv).1 hm
        exact find_ext this
      simp only [pureCtx] at hfind
      rw [hfind]
      cases hf : p.aliasFields.find? (fun kv => aliasMatches ⟨o, fs, false, findPkg fs o.descriptionFile⟩ p i kv.1) with
      | none => exact .ret (.resolving hm)
      | some kv =>
        obtain ⟨k, to⟩ := kv
        simp only
        cases hc : aliasChain p.aliasFields n to with
        | none => exact .fuel _
        | some r =>
          rw [aliasChain_fuel hnm hc]
          cases r with
          | ignored => exact .ret .ignored
          | target t =>
            refine .ret (.resolving (.to_good (hm.weak.withPath h.dir) ?_))
            exact aliasChain_good (fun k v hkv => (hbr k v hkv).2)
              (hbr k to (List.mem_of_find?_eq_some hf)).2 hc t rfl

/-! ## `imports` -/

theorem importsCheck_moved (hm : MI o a b x i j) (t : Str) :
    SM o a b x (importsCheck (pureCtx o fs false) i t) (importsCheck (pureCtx o fs' false) j t) := by
  unfold importsCheck pureCtx
  simp only
  rw [H.moved.isFile _ _ (hm.getPath H), hm.request]
  split
  · exact .resolving hm
  · exact .error (.same rfl) hm.weak

theorem outsideModule_moved {p q : Option Pkg} (h : OptPkgMoved o a b p q) :
    outsideModule q = outsideModule p := by
  match p, q, h with
  | none, none, _ => rfl
  | some p, some q, h =>
    have h : PkgMoved o a b p q := h
    unfold outsideModule
    simp only [contains_moved H h.dir]

theorem importsPlugin_moved (hnm : n ≤ m) {p q : Option Pkg} (h : OptPkgMoved o a b p q)
    (hm : MI o a b x i j) :
    (importsPlugin (pureCtx o fs false) n p i).Moves (SM o a b x)
      (importsPlugin (pureCtx o fs' false) m q j) := by
  induction n generalizing m p q i j x with
  | zero => exact .fuel _
  | succ n ih =>
    obtain ⟨m, rfl⟩ : ∃ k, m = k + 1 := ⟨m - 1, by omega⟩
    have hnm : n ≤ m := by omega
    match p, q, h with
    | none, none, _ => exact .ret (.resolving hm)
    | some p, some q, h =>
      have h' : OptPkgMoved o a b (some p) (some q) := h
      have h : PkgMoved o a b p q := h
      unfold importsPlugin
      simp only
      rw [hm.request, show q.importsTree = p.importsTree by rw [h.rest]]
      split
      · exact .ret (.resolving hm)
      · rename_i hhash
        split
        · exact .ret (.resolving hm)
        · rename_i root hroot
          simp only [show (pureCtx o fs false).opts.conditionNames = o.conditionNames from rfl,
            show (pureCtx o fs' false).opts.conditionNames = o.conditionNames from rfl]
          cases hf : fieldProcess .imports root i.request.target o.conditionNames with
          | none => exact .fuel _
          | some res =>
            cases res with
            | error e => exact .ret (.error (.same (h.importsErr root _ e hroot hf)) hm.weak)
            | ok l =>
              cases l with
              | nil => exact .ret (.error (.same rfl) hm.weak)
              | cons t l =>
                simp only
                have hint : i.request.kind ≠ .relative := by
                  rw [hm.kind, getTargetKind_hash (by simpa using hhash)]
                  nofun
                have hask : NoUp i.request.target := hm.plain hint
                have hst := h.imports root _ _ hroot hask hf t (by simp)
                split
                · have hmi : ∀ x, MI o a b x ⟨pjoin p.absDir MODULE, parseRequest t⟩
                      ⟨pjoin q.absDir MODULE, parseRequest t⟩ :=
                    fun x => .of_fits (h.dir.pjoin H.ha H.hb stays_module) hst
                  refine (load_moved H ((hmi x).getPath H)).bind fun r r' hr => ?_
                  match r, r', hr with
                  | .error e, .error e', hr => exact .ret (.error hr (hmi x).weak)
                  | .ok p', .ok q', hr =>
                    have hr : OptPkgMoved o a b p' q' := hr
                    simp only
                    rw [outsideModule_moved H hr]
                    split
                    · exact .ret (.resolving (hmi x))
                    · refine (exportsPlugin_moved H hr (hmi x)).bind fun s s' hs => ?_
                      refine (hs.andThen (fun _ _ => SM.widen) fun i j hij => ih hnm hr hij).bind fun s s' hs => ?_
                      refine (hs.andThen (fun _ _ => SM.widen) fun i j hij =>
                        aliasFieldPlugin_moved H hnm hr hij).bind fun s s' hs => ?_
                      exact hs.andThen (fun _ _ => SM.widen) fun i j hij => .ret (importsCheck_moved H hij _)
                · have hmi : ∀ x, MI o a b x ⟨p.absDir, parseRequest t⟩ ⟨q.absDir, parseRequest t⟩ :=
                    fun x => .of_fits h.dir hst
                  split
                  · exact ih hnm h' (hmi x)
                  · exact .ret (importsCheck_moved H (hmi x) _)

/-! ## Directories -/

theorem mainFileLoop_moved (hnm : n ≤ m) {p q : Option Pkg} (h : OptPkgMoved o a b p q)
    (hm : MI o a b false i j) {l : List Str} (hl : ∀ f ∈ l, StaysIn (cs!"./" ++ f)) {cur cur' : Info}
    (hc : MW a b cur cur') :
    (mainFileLoop (pureCtx o fs false) n p i l cur).Moves (SM o a b false)
      (mainFileLoop (pureCtx o fs' false) m q j l cur') := by
  induction l generalizing cur cur' with
  | nil => exact .ret (.resolving hm)
  | cons f l ih =>
    have ih := @ih fun f hf => hl f (List.mem_cons_of_mem _ hf)
    unfold mainFileLoop
    simp only
    have hmi : MI o a b false (cur.withTarget (cs!"./" ++ f)) (cur'.withTarget (cs!"./" ++ f)) :=
      .to_good hc ⟨hl f (by simp), .inl (getTargetKind_dotSlash f)⟩
    refine Prog.Moves.bind (Q := SM o a b false) ?_ fun s s' hs => ?_
    · refine (exportsPlugin_moved H h hmi).bind fun s s' hs => ?_
      refine (hs.andThen (fun _ _ => SM.widen) fun i j hij => importsPlugin_moved H hnm h hij).bind fun s s' hs => ?_
      refine (hs.andThen (fun _ _ => SM.widen) fun i j hij => aliasFieldPlugin_moved H hnm h hij).bind
        fun s s' hs => ?_
      exact hs.andThen (fun _ _ => SM.widen) fun i j hij => .ret (resolveAsFile_moved H hij)
    · cases hs with
      | info h => exact .ret (.info h)
      | ignored => exact .ret .ignored
      | resolving h => exact ih h.weak
      | error _ h => exact ih h

theorem mainFieldLoop_moved (hnm : n ≤ m) (h : PkgMoved o a b p q)
    (hm : MI o a b false i j) {f g : Info → Prog Stats}
    (hfg : ∀ i j, MI o a b false i j → (f i).Moves (SM o a b false) (g j))
    {l : List Str} (hl : ∀ f ∈ l, f ∈ o.mainFields) {cur cur' : Info} (hc : MW a b cur cur') :
    (mainFieldLoop (pureCtx o fs false) n f p i l cur).Moves (SM o a b false)
      (mainFieldLoop (pureCtx o fs' false) m g q j l cur') := by
  induction l generalizing cur cur' with
  | nil => exact .ret (.resolving hm)
  | cons k l ih =>
    have ih := @ih fun f hf => hl f (List.mem_cons_of_mem _ hf)
    unfold mainFieldLoop
    rw [show q.raw = p.raw by rw [h.rest]]
    cases hv : (p.raw.get k).bind Json.asStr with
    | none => exact ih hc
    | some v =>
      simp only
      have hst : NoClimb (splitC '/' v) := by
        cases hg : p.raw.get k with
        | none => rw [hg] at hv; cases hv
        | some w =>
          rw [hg] at hv
          cases w with
          | str s => cases hv; exact h.main k (hl k (by simp)) _ hg
          | _ => cases hv
      split
      · exact .ret (.resolving hm)
      · have hmi : MI o a b false
            (if startsWith v cs!"./" then cur.withTarget v else cur.withTarget (cs!"./" ++ v))
            (if startsWith v cs!"./" then cur'.withTarget v else cur'.withTarget (cs!"./" ++ v)) := by
          split
          · rename_i hd; exact .to_good hc (good_relative hst hd)
          · exact .to_good hc (good_dotSlash hst)
        refine Prog.Moves.bind (Q := SM o a b false) ?_ fun s s' hs => ?_
        · refine (aliasFieldPlugin_moved H hnm (p := some p) (q := some q) h hmi).bind fun s s' hs => ?_
          refine (hs.andThen (fun _ _ => SM.widen) fun i j hij => .ret (resolveAsFile_moved H hij)).bind
            fun s s' hs => ?_
          exact hs.andThen (fun _ _ => SM.widen) hfg
        · cases hs with
          | info h => exact .ret (.info h)
          | ignored => exact .ret .ignored
          | resolving h => exact ih h.weak
          | error _ h => exact ih h

theorem resolveAsDir_moved (hnm : n ≤ m) (hm : MI o a b x i j) :
    (resolveAsDir (pureCtx o fs false) n i).Moves (SM o a b false) (resolveAsDir (pureCtx o fs' false) m j) := by
  induction n generalizing m i j x with
  | zero => exact .fuel _
  | succ n ih =>
    obtain ⟨m, rfl⟩ : ∃ k, m = k + 1 := ⟨m - 1, by omega⟩
    have hnm : n ≤ m := by omega
    have hp := hm.getPath H
    unfold resolveAsDir
    simp only [show (pureCtx o fs false).fs = fs from rfl, show (pureCtx o fs' false).fs = fs' from rfl,
      H.moved.isDir _ _ hp]
    split
    · exact .ret (.error (.same rfl) hm.weak)
    · refine (load_moved H hp).bind fun r r' hr => ?_
      match r, r', hr with
      | .error e, .error e', hr => exact .ret (.error hr hm.weak)
      | .ok p, .ok q, hr =>
        have hr : OptPkgMoved o a b p q := hr
        simp only
        have hmi : MI o a b false ((i.withPath i.getPath).withTarget []) ((j.withPath j.getPath).withTarget []) :=
          .to_good (hm.weak.withPath hp) good_nil
        have hfield : (mainFieldPlugin (pureCtx o fs false) n (resolveAsDir (pureCtx o fs false) n) p
            ((i.withPath i.getPath).withTarget [])).Moves (SM o a b false)
            (mainFieldPlugin (pureCtx o fs' false) m (resolveAsDir (pureCtx o fs' false) m) q
            ((j.withPath j.getPath).withTarget [])) := by
          unfold mainFieldPlugin
          match p, q, hr with
          | none, none, _ => exact .ret (.resolving hmi)
          | some p, some q, hr =>
            have hr : PkgMoved o a b p q := hr
            simp only
            have : pathEq ((j.withPath j.getPath).withTarget []).path q.absDir =
                pathEq ((i.withPath i.getPath).withTarget []).path p.absDir := by
              rw [Bool.eq_iff_iff]
              simp only [pathEq, beq_iff_eq]
              exact (comps_below_eq H.ha H.hb hp hr.dir).symm
            rw [this]
            split
            · exact .ret (.resolving hmi)
            · exact mainFieldLoop_moved H hnm hr hmi (fun i j hij => ih hnm hij) (fun f hf => hf) hmi.weak
        refine hfield.bind fun s s' hs => ?_
        exact hs.andThen (fun _ _ => SM.widen) fun i j hij =>
          mainFileLoop_moved H hnm hr hij H.opts.mainFiles hij.weak

/-! ## Packages -/

theorem modulePackageChain_moved (hnm : n ≤ m) {p q : Option Pkg} (h : OptPkgMoved o a b p q)
    (hm : MI o a b false i j) :
    (modulePackageChain (pureCtx o fs false) n p i).Moves (SM o a b false)
      (modulePackageChain (pureCtx o fs' false) m q j) := by
  unfold modulePackageChain
  refine (exportsPlugin_moved H h hm).bind fun s s' hs => ?_
  refine (hs.andThen (fun _ _ => SM.widen) fun i j hij => importsPlugin_moved H hnm h hij).bind fun s s' hs => ?_
  refine (hs.andThen (Q := SM o a b false) (fun _ _ => SM.widen) fun i j hij => ?_).bind fun s s' hs => ?_
  · refine aliasFieldPlugin_moved H hnm h ?_
    rw [hij.request]
    split
    · exact .to_good hij.weak (good_dotSlash hij.good'.1.2)
    · exact hij
  · refine (hs.andThen (fun _ _ => SM.widen) fun i j hij => .ret (resolveAsFile_moved H hij)).bind fun s s' hs => ?_
    exact hs.andThen (fun _ _ => SM.widen) fun i j hij => resolveAsDir_moved H hnm hij

omit H in
theorem selfOf_moved {p q : Option Pkg} (h : OptPkgMoved o a b p q) (hij : j.request = i.request) :
    selfOf q j = selfOf p i := by
  match p, q, h with
  | none, none, _ => rfl
  | some p, some q, h => exact isResolveSelf_moved (p := p) (q := q) h hij

theorem moduleStep_moved (hnm : n ≤ m) (hm : MI o a b false i j) :
    (moduleStep (pureCtx o fs false) n i).Moves (fun s s' => s'.2 = s.2 ∧ SM o a b false s.1 s'.1)
      (moduleStep (pureCtx o fs' false) m j) := by
  have hroot := hm.path.pjoin H.ha H.hb stays_module
  unfold moduleStep
  simp only [show (pureCtx o fs false).fs = fs from rfl, show (pureCtx o fs' false).fs = fs' from rfl,
    H.moved.isDir _ _ hroot, hm.request]
  split
  · exact .ret ⟨rfl, .resolving hm⟩
  · cases hn : moduleName i.request.target with
    | none => exact .crash _
    | some name =>
      simp only
      have hmi : MI o a b false ⟨pjoin i.path MODULE, i.request⟩ ⟨pjoin j.path MODULE, i.request⟩ :=
        ⟨⟨rfl, hroot, hm.weak.tails⟩, hm.kind, .inl hm.good'⟩
      refine (load_moved H (hroot.pjoin H.ha H.hb hm.good'.1)).bind fun r r' hr => ?_
      match r, r', hr with
      | .error e, .error e', hr => exact .ret ⟨rfl, .error hr hm.weak⟩
      | .ok p, .ok q, hr =>
        have hr : OptPkgMoved o a b p q := hr
        simp only
        rw [H.moved.isDir _ _ (hroot.pjoin H.ha H.hb (moduleName_stays hm.good'.1 hn)),
          selfOf_moved hr (i := ⟨pjoin i.path MODULE, i.request⟩) (j := ⟨pjoin j.path MODULE, i.request⟩) rfl]
        split
        · have := resolveAsFile_moved H hmi
          generalize resolveAsFile (pureCtx o fs false) ⟨pjoin i.path MODULE, i.request⟩ = s at this
          generalize resolveAsFile (pureCtx o fs' false) ⟨pjoin j.path MODULE, i.request⟩ = s' at this
          cases this with
          | info h => exact .ret ⟨rfl, .info h⟩
          | ignored => exact .ret ⟨rfl, .ignored⟩
          | resolving h => exact .ret ⟨rfl, .resolving hm⟩
          | error _ h => exact .ret ⟨rfl, .resolving hm⟩
        · refine (modulePackageChain_moved H hnm hr hmi).bind fun s s' hs => ?_
          cases hs with
          | info h => exact .ret ⟨rfl, .info h⟩
          | ignored => exact .ret ⟨rfl, .ignored⟩
          | resolving h => exact .ret ⟨rfl, .resolving h⟩
          | error he h =>
            simp only
            rw [he.isTag]
            split
            · exact .ret ⟨rfl, .resolving hm⟩
            · exact .ret ⟨rfl, .error he h⟩

omit H in
/-- Above the project, nothing is found. -/
theorem resolveAsModules_above {l : List Str} (ha : IsPlace a) (hal : OnItsOwn o fs a) (hl : l <+: a) (hne : l ≠ a)
    (hi : i.path = absText l) (n : Nat) :
    (∃ k, resolveAsModules (pureCtx o fs false) n i = .ret (.error .tag k)) ∨
      resolveAsModules (pureCtx o fs false) n i = .crash .fuel ∧ n ≤ l.length := by
  induction n generalizing i l with
  | zero => exact .inr ⟨rfl, Nat.zero_le _⟩
  | succ n ih =>
    unfold resolveAsModules moduleStep
    simp only [show (pureCtx o fs false).fs = fs from rfl]
    rw [hi, show MODULE = cs!"node_modules" from rfl, hal.modules l hl hne]
    simp only [Bool.not_false, if_true, Prog.bind, Stats.andThen]
    by_cases hl0 : l = []
    · subst hl0
      rw [show pparent (absText []) = none by decide]
      exact .inl ⟨_, rfl⟩
    · rw [pparent_place (ha.of_prefix hl hl0)]
      simp only
      rcases ih (i := i.withPath (absText l.dropLast)) (dropLast_up hl hl0).1 (dropLast_up hl hl0).2 rfl with
        ⟨k, h⟩ | ⟨h, hn⟩
      · rw [h]; exact .inl ⟨_, rfl⟩
      · rw [h]
        refine .inr ⟨rfl, ?_⟩
        have := List.length_pos_iff.2 hl0
        rw [List.length_dropLast] at hn
        omega

theorem resolveAsModules_moved (hnm : n + b.length ≤ m) (hm : MI o a b false i j) :
    (resolveAsModules (pureCtx o fs false) n i).Moves (SE a b) (resolveAsModules (pureCtx o fs' false) m j) := by
  induction n generalizing m i j with
  | zero => exact .fuel _
  | succ n ih =>
    obtain ⟨m, rfl⟩ : ∃ k, m = k + 1 := ⟨m - 1, by omega⟩
    unfold resolveAsModules
    refine (moduleStep_moved H (by omega) hm).bind ?_
    rintro ⟨s, f⟩ ⟨s', f'⟩ ⟨hf, hs⟩
    cases (hf : f' = f)
    simp only at hs
    cases f with
    | true => exact .ret hs.se
    | false =>
      simp only
      refine Prog.Moves.bind (Q := SE a b) ?_ fun s s' hs => ?_
      · refine hs.andThen (fun _ _ => SM.se) fun i' j' hij => ?_
        rcases hm.path.parent H.ha H.hb with ⟨p', q', h1, h2, h3⟩ | ⟨h1, h2⟩
        · rw [h1, h2]
          exact ih (by omega) (.of_good (hij.weak.withPath h3) hij.kind hij.good')
        · rw [h1, h2]
          simp only
          obtain ⟨h3, h4⟩ := dropLast_up (List.prefix_refl a) H.ha.1
          obtain ⟨h5, h6⟩ := dropLast_up (List.prefix_refl b) H.hb.1
          rcases resolveAsModules_above (i := i'.withPath (absText a.dropLast)) H.ha H.alone h3 h4 rfl n with
            ⟨k, hk⟩ | ⟨hk, -⟩
          · rw [hk]
            rcases resolveAsModules_above (i := j'.withPath (absText b.dropLast)) H.hb H.alone' h5 h6 rfl m with
              ⟨k', hk'⟩ | ⟨hk', hlt⟩
            · rw [hk']; exact .ret (.error _ _ (.same rfl))
            · have := List.length_pos_iff.2 H.hb.1
              rw [List.length_dropLast] at hlt
              omega
          · rw [hk]; exact .fuel _
      · cases hs with
        | info h => exact .ret (.info h)
        | ignored => exact .ret .ignored
        | resolving h => exact .ret (.error _ _ (.same rfl))
        | error _ _ h => exact .ret (.error _ _ h)

/-! ## The whole call -/

theorem aliasLoop_moved {f g : Info → Prog Stats}
    (hfg : ∀ i j, MI o a b true i j → (f i).Moves (SE a b) (g j)) (hm : MI o a b true i j)
    {l : List (Str × AliasMap)} (hl : ∀ kv ∈ l, kv ∈ o.alias) :
    (aliasLoop f i l).Moves (SM o a b true) (aliasLoop g j l) := by
  induction l with
  | nil => exact .ret (.resolving hm)
  | cons kv l ih =>
    have ih := ih fun f hf => hl f (List.mem_cons_of_mem _ hf)
    obtain ⟨k, to⟩ := kv
    unfold aliasLoop
    simp only
    rw [hm.request]
    cases hs : startsWith i.request.target k with
    | false => exact ih
    | true =>
      simp only [if_true]
      cases to with
      | ignored => exact .ret .ignored
      | target t =>
        simp only
        split
        · exact ih
        · have hst : Harmless i.request.target := by
            rcases hm.inside with h | ⟨-, -, -, h, -⟩
            · exact h
            · rw [h _ (hl _ (List.mem_cons_self ..))] at hs; cases hs
          obtain ⟨r, hr⟩ := (startsWith_iff _ _).1 hs
          have hmi : MI o a b true ⟨i.path, i.request.withTarget (replaceFirst i.request.target k t)⟩
              ⟨j.path, i.request.withTarget (replaceFirst i.request.target k t)⟩ := by
            refine .of_good (i := ⟨_, _⟩) (j := ⟨_, _⟩) ⟨rfl, hm.path, ⟨hm.weak.tails.rest, hm.weak.tails.start⟩⟩ rfl ?_
            change Harmless (replaceFirst i.request.target k t)
            rw [← hr, replaceFirst_prefix]
            exact H.opts.alias k t (hl _ (List.mem_cons_self ..)) r (by rw [hr]; exact hst)
          refine (hfg _ _ hmi).bind fun s s' hs => ?_
          cases hs with
          | info h => exact .ret (.info h)
          | ignored => exact .ret .ignored
          | resolving h => exact ih
          | error _ _ h => exact ih

omit H in
theorem preferRelative_moved {f g : Info → Prog Stats}
    (hfg : ∀ i j, MI o a b true i j → (f i).Moves (SE a b) (g j)) (hm : MI o a b true i j) :
    (preferRelativePlugin (pureCtx o fs false) f i).Moves (SM o a b true)
      (preferRelativePlugin (pureCtx o fs' false) g j) := by
  unfold preferRelativePlugin
  rw [hm.request]
  split
  · exact .ret (.resolving hm)
  · rename_i hd
    by_cases hp : o.preferRelative = false
    · rw [if_neg (by simp [pureCtx, hp]), if_neg (by simp [pureCtx, hp])]
      exact .ret (.resolving hm)
    · have hp : o.preferRelative = true := by simpa using hp
      rw [if_pos (by simp [pureCtx, hp]), if_pos (by simp [pureCtx, hp])]
      have hst : StaysIn i.request.target := by
        rcases hm.inside with h | ⟨-, -, -, -, h⟩
        · exact h.1
        · rw [hp] at h
          simp only [Bool.or_eq_true, not_or] at hd
          rcases h with h | h | h
          · cases h
          · exact absurd h hd.2
          · exact absurd h hd.1
      have hmi : MI o a b true ⟨i.path, i.request.withTarget (cs!"./" ++ i.request.target)⟩
          ⟨j.path, i.request.withTarget (cs!"./" ++ i.request.target)⟩ :=
        .of_good (i := ⟨_, _⟩) (j := ⟨_, _⟩) ⟨rfl, hm.path, ⟨hm.weak.tails.rest, hm.weak.tails.start⟩⟩ rfl (good_dotSlash hst.2)
      refine (hfg _ _ hmi).bind fun s s' hs => ?_
      cases hs with
      | info h => exact .ret (.info h)
      | ignored => exact .ret .ignored
      | resolving h => exact .ret (.resolving hm)
      | error _ _ h => exact .ret (.resolving hm)

theorem pkgStage_moved (hnm : n ≤ m) (hm : MI o a b true i j) :
    (pkgStage (pureCtx o fs false) n i).Moves (SM o a b true) (pkgStage (pureCtx o fs' false) m j) := by
  unfold pkgStage
  have hp : Placed a b
      (if i.request.kind = .normal then pjoin (pjoin i.path MODULE) i.request.target else i.getPath)
      (if i.request.kind = .normal then pjoin (pjoin j.path MODULE) i.request.target else j.getPath) := by
    split
    · rename_i hk
      exact (hm.path.pjoin H.ha H.hb stays_module).pjoin H.ha H.hb (hm.good (by rw [hk]; nofun)).1
    · exact hm.getPath H
  simp only [hm.request]
  refine (load_moved H hp).bind fun r r' hr => ?_
  match r, r', hr with
  | .error e, .error e', hr => exact .ret (.error hr hm.weak)
  | .ok p, .ok q, hr =>
    have hr : OptPkgMoved o a b p q := hr
    refine (importsPlugin_moved H hnm hr hm).bind fun s s' hs => ?_
    exact hs.andThen (fun _ _ => SM.widen) fun i j hij => aliasFieldPlugin_moved H hnm hr hij

theorem lastStage_moved (hnm : n + b.length ≤ m) (hm : MI o a b true i j) :
    (lastStage (pureCtx o fs false) n i).Moves (SE a b) (lastStage (pureCtx o fs' false) m j) := by
  unfold lastStage
  rw [hm.request]
  have hfile : ((resolveAsFile (pureCtx o fs false) i).andThen fun i => resolveAsDir (pureCtx o fs false) n i).Moves
      (SE a b) ((resolveAsFile (pureCtx o fs' false) j).andThen fun i => resolveAsDir (pureCtx o fs' false) m i) :=
    (resolveAsFile_moved H hm).andThen (fun _ _ => SM.se) fun i j hij =>
      (resolveAsDir_moved H (by omega) hij).mono fun _ _ => SM.se
  cases hk : i.request.kind <;> first | exact hfile | skip
  all_goals
    refine resolveAsModules_moved H hnm (.of_good hm.weak hm.kind (hm.good (by rw [hk]; nofun)))

theorem resolveInner_moved (hnm : n + b.length ≤ m) (hm : MI o a b true i j) :
    (resolveInner (pureCtx o fs false) n i).Moves (SE a b) (resolveInner (pureCtx o fs' false) m j) := by
  induction n generalizing m i j with
  | zero => exact .fuel _
  | succ n ih =>
    obtain ⟨m, rfl⟩ : ∃ k, m = k + 1 := ⟨m - 1, by omega⟩
    have hnm : n + b.length ≤ m := by omega
    unfold resolveInner
    refine Prog.Moves.bind (Q := SE a b) ?_ fun s s' hs => ?_
    · have halias : (aliasPlugin (pureCtx o fs false) (resolveInner (pureCtx o fs false) n) i).Moves (SM o a b true)
          (aliasPlugin (pureCtx o fs' false) (resolveInner (pureCtx o fs' false) m) j) := by
        unfold aliasPlugin
        rw [contains_moved H hm.path]
        split
        · exact .ret (.resolving hm)
        · exact aliasLoop_moved H (fun i j hij => ih hnm hij) hm fun kv h => h
      refine halias.bind fun s s' hs => ?_
      refine (hs.andThen (fun _ _ => SM.widen) fun i j hij =>
        preferRelative_moved (fun i j hij => ih hnm hij) hij).bind fun s s' hs => ?_
      refine (hs.andThen (fun _ _ => SM.widen) fun i j hij => pkgStage_moved H (by omega) hij).bind fun s s' hs => ?_
      exact hs.andThen (fun _ _ => SM.se) fun i j hij => lastStage_moved H hnm hij
    · cases hs with
      | info h => exact .ret (.info h)
      | ignored => exact .ret .ignored
      | resolving h => exact .crash _
      | error _ _ h =>
        refine .ret (.error _ _ ?_)
        rw [h.isTag]
        split
        · unfold failedMessage
          rw [hm.request]
          exact .failed _ (placedSim hm.path)
        · exact h

theorem resolveCtx_moved (hnm : n + b.length ≤ m) {p q request : Str}
    (hm : MI o a b true ⟨p, parseRequest request⟩ ⟨q, parseRequest request⟩) :
    (resolveCtx (pureCtx o fs false) n p request).Moves (AnsMoved a b)
      (resolveCtx (pureCtx o fs' false) m q request) := by
  unfold resolveCtx resolveStats
  simp only [show (pureCtx o fs false).opts.tsconfig = none from H.opts.tsconfig,
    show (pureCtx o fs' false).opts.tsconfig = none from H.opts.tsconfig]
  refine (resolveInner_moved H hnm hm).bind fun s s' hs => ?_
  cases hs with
  | ignored => exact .ret trivial
  | resolving _ _ => exact .crash _
  | error _ _ h => exact .ret h
  | @info i j h =>
    unfold normalizeResult normalizePath
    simp only [show (pureCtx o fs false).opts = o from rfl, show (pureCtx o fs' false).opts = o from rfl,
      show (pureCtx o fs false).fs = fs from rfl, show (pureCtx o fs' false).fs = fs' from rfl,
      show (pureCtx o fs false).debug = false from rfl, show (pureCtx o fs' false).debug = false from rfl,
      Bool.false_and, Bool.false_eq_true, if_false]
    cases o.symlinks with
    | true =>
      simp only [if_true]
      rcases H.moved.canon _ _ h.path with ⟨h1, h2⟩ | ⟨p', q', h1, h2, h3⟩
      · rw [h1, h2]; exact .ret (.same rfl)
      · rw [h1, h2]; exact .ret ⟨h3, h.request.symm⟩
    | false => exact .ret ⟨h.path.normalize H.ha H.hb, h.request.symm⟩

theorem findSideEffects_moved {p q : Str} (h : Placed a b p q) :
    (findSideEffects fs o.descriptionFile p).Moves (SideMoved a b) (findSideEffects fs' o.descriptionFile q) := by
  unfold findSideEffects
  refine (load_moved H h).bind fun r r' hr => ?_
  match r, r', hr with
  | .error e, .error e', hr => exact .ret hr
  | .ok none, .ok none, _ => exact .ret trivial
  | .ok (some p), .ok (some q), hr =>
    have hr : PkgMoved o a b p q := hr
    refine .ret ⟨?_, by rw [hr.rest]⟩
    cases hd : o.descriptionFile with
    | none => exact placedSim (hr.dir.pjoin H.ha H.hb stays_nil)
    | some desc => exact placedSim (hr.dir.pjoin H.ha H.hb (H.opts.desc _ hd))

end

end Verif
