import Verif.Spec.WatchedBare
import Verif.Proofs.Watched
import Verif.Proofs.Modules
import Verif.Proofs.Termination
import Verif.Proofs.Marks
import Verif.Proofs.MovedPath
/-!
# The files that have a say in the answer to a request by name: proofs
-/

namespace Verif

theorem upward_step {p a b : Str} (h : a ∈ upward (p.length + 1) p) (hb : pparent a = some b) :
    b ∈ upward (p.length + 1) p := by
  have key : ∀ n (p : Str), p.length < n → a ∈ upward n p → b ∈ upward n p := by
    intro n
    induction n with
    | zero => intro p hp; omega
    | succ n ih =>
      intro p hp h
      unfold upward at h ⊢
      rcases List.mem_cons.1 h with rfl | h
      · rw [hb]
        refine List.mem_cons_of_mem _ ?_
        have := pparent_length hb
        cases n with
        | zero => omega
        | succ n => unfold upward; exact List.mem_cons_self
      · refine List.mem_cons_of_mem _ ?_
        cases hq : pparent p with
        | none => rw [hq] at h; cases h
        | some q =>
          rw [hq] at h
          exact ih q (by have := pparent_length hq; omega) h
  exact key _ p (Nat.lt_succ_self _) h

theorem upward_self (p : Str) : p ∈ upward (p.length + 1) p := by unfold upward; exact List.mem_cons_self

theorem targetMapping_dotted {k : FieldKind} {rem : Option Str} {sub : Bool} {t s : Str}
    (ht : cs!"./" <+: t) (h : targetMapping k rem sub t = .ok s) : cs!"./" <+: s := by
  obtain ⟨r, rfl⟩ := ht
  unfold targetMapping at h
  split at h
  · cases h
  · split at h
    · split at h
      · cases h; exact ⟨_, (List.append_assoc ..).symm⟩
      · cases h
      · cases h
      · cases h
        exact ⟨_, rfl⟩
    · split at h
      · cases h; exact ⟨r, rfl⟩
      · cases h

theorem targetMapping_with {k : FieldKind} {rem : Option Str} {sub : Bool} {text t s : Str}
    (hx : ∀ x, rem = some x → x <:+ text) (h : targetMapping k rem sub t = .ok s) : FilledWith text t s := by
  unfold targetMapping at h
  split at h
  · cases h
  · rename_i isFolder ha
    split at h
    · rename_i x
      split at h
      · cases h
        refine .folder x (hx x rfl) ?_
        cases he : endsWithC t '/' with
        | true => rwa [endsWithC_iff] at he
        | false =>
          exfalso
          unfold assertTarget at ha
          cases k <;> simp [he] at ha
          split at ha <;> cases ha
      · cases h
      · cases h
      · cases h
        exact .star x (hx x rfl)
    · split at h
      · cases h; exact .asIs
      · cases h

/-- The text that is filled in is the end of the request, as it is looked for. -/
theorem fieldProcess_req {H : Str → Prop} {k : FieldKind} {root : Node} (hr : root.Vals (MV.Of H)) {key : Str}
    {names l : List Str} (h : fieldProcess k root key names = some (.ok l)) :
    ∃ req, assertRequest k key = .ok req ∧ ∀ s ∈ l, ∃ t rem sub, H t ∧
      targetMapping k rem sub t = .ok s ∧ ∀ x, rem = some x → x <:+ req := by
  unfold fieldProcess at h
  cases ha : assertRequest k key with
  | error e => rw [ha] at h; cases h
  | ok req =>
    rw [ha] at h
    refine ⟨req, rfl, ?_⟩
    simp only at h
    cases hm : findMatch root req with
    | none => rw [hm] at h; cases h; nofun
    | some mi =>
      obtain ⟨m, idx⟩ := mi
      rw [hm] at h
      simp only at h
      obtain ⟨hw, hH⟩ : m.Of H := findMatch_ok hr req m idx hm
      obtain ⟨r, h1, h2⟩ := (mapping_spec k (if idx = (req.length : Int) + 1 then none
        else if idx < 0 then some (req.drop (idx.natAbs - 1)) else some (req.drop idx.toNat))
        (decide (idx < 0)) names (m.size + 1)).1 m hw (by omega)
      rw [h1] at h
      cases h
      intro s hs
      obtain ⟨t, ht, h⟩ := outputs_strings h2 rfl s hs
      refine ⟨t, _, _, hH t ht, h, fun x hx => ?_⟩
      split at hx
      · cases hx
      · split at hx <;> cases hx <;> exact List.drop_suffix ..

/-- What is looked for in exports is an end of the request. -/
theorem exportsRequestOf_text {c : Ctx} {pkg : Pkg} {i : Info} {key : Str}
    (h : (exportsRequestOf c pkg i).Returns (some key)) {req : Str} (ha : assertRequest .exports key = .ok req) :
    req <:+ i.request.target ++ i.request.query ++ i.request.fragment := by
  have hdrop : ∀ y, key = cs!"./" ++ y → req = y := by
    rintro y rfl
    unfold assertRequest at ha
    dsimp only at ha
    split at ha
    · cases ha
    · split at ha
      · rename_i hu
        have : utf8Len (cs!"./" ++ y) ≥ 2 := by
          have := utf8Len_ge (cs!"./" ++ y)
          have : (cs!"./" ++ y).length = y.length + 2 := rfl
          omega
        omega
      · split at ha
        · cases ha
        · split at ha
          · cases ha
          · cases ha; rfl
  have hdot : key = cs!"." → req = [] := by
    rintro rfl
    cases ha
    rfl
  have tail : ∀ {y : Str}, y <:+ i.request.target →
      y ++ i.request.query ++ i.request.fragment <:+ i.request.target ++ i.request.query ++ i.request.fragment := by
    rintro y ⟨u, hu⟩
    exact ⟨u, by rw [← hu]; simp⟩
  unfold exportsRequestOf at h
  dsimp only at h
  split at h
  · cases h
  · rename_i chars hchars
    have hsuf : chars <:+ i.request.target := by
      split at hchars
      · cases hcut : splitFirst '/' i.request.target with
        | none => rw [hcut] at hchars; cases hchars
        | some ab =>
          obtain ⟨a, b⟩ := ab
          rw [hcut] at hchars
          cases hchars
          obtain ⟨b', rfl, h1, -⟩ := splitFirst_cut hcut
          exact ⟨a ++ ['/'], by rw [h1]; simp⟩
      · cases hchars; exact List.suffix_refl _
    have hpart : ∀ t, (match splitFirst '/' chars with
        | some (_, b) => some ('.' :: b)
        | none =>
          if c.fs.pathExists (pjoin i.path i.request.target) || pkg.name = some i.request.target then some cs!"."
          else none) = some t → t = cs!"." ∨ ∃ y, t = cs!"./" ++ y ∧ y <:+ i.request.target := by
      intro t ht
      cases hcut : splitFirst '/' chars with
      | none =>
        rw [hcut] at ht
        dsimp only at ht
        split at ht
        · cases ht; exact .inl rfl
        · cases ht
      | some ab =>
        obtain ⟨a, b⟩ := ab
        rw [hcut] at ht
        cases ht
        obtain ⟨b', rfl, h1, -⟩ := splitFirst_cut hcut
        have hb : b' <:+ chars := ⟨a ++ ['/'], by rw [h1]; simp⟩
        exact .inr ⟨b', rfl, hb.trans hsuf⟩
    split at h
    · cases h
    · rename_i t ht
      rcases hpart t ht with rfl | ⟨y, rfl, hy⟩
      · split at h
        · cases h
          rw [if_pos rfl, List.append_assoc] at hdrop
          rw [hdrop _ rfl]
          exact ⟨i.request.target, by simp⟩
        · cases h
          rw [hdot rfl]
          exact List.nil_suffix
      · split at h
        · cases h
          rw [if_neg (by nofun), List.append_assoc, List.append_assoc] at hdrop
          rw [hdrop _ rfl, ← List.append_assoc]
          exact tail hy
        · cases h
          rename_i hq
          rw [hdrop _ rfl]
          have h1 : i.request.query = [] := by grind
          have h2 : i.request.fragment = [] := by grind
          rw [h1, h2]
          simpa using hy

theorem parse_concat (s : Str) :
    (parseRequest s).target ++ (parseRequest s).query ++ (parseRequest s).fragment = s :=
  (parse_isSplit s).concat.symm

theorem parse_dotted {s : Str} (h : cs!"./" <+: s) : cs!"./" <+: (parseRequest s).target := by
  obtain ⟨r, rfl⟩ := h
  have hs := parse_isSplit (cs!"./" ++ r)
  show cs!"./" <+: (parseIdentifier (cs!"./" ++ r)).1
  generalize parseIdentifier (cs!"./" ++ r) = x at hs
  obtain ⟨t, q, f⟩ := x
  have h1 := hs.concat
  have h2 := hs.query_start
  have h3 := hs.fragment_start
  dsimp only at h1 h2 h3 ⊢
  match t, q, f with
  | [], [], [] => cases h1
  | [], [], c :: f =>
    rcases h3 with h | h
    · cases h
    · simp at h; subst h; cases h1
  | [], c :: q, f =>
    rcases h2 with h | h
    · cases h
    · simp at h; subst h; cases h1
  | [b], [], [] => cases h1
  | [b], [], c :: f =>
    rcases h3 with h | h
    · cases h
    · simp at h; subst h; cases h1
  | [b], c :: q, f =>
    rcases h2 with h | h
    · cases h
    · simp at h; subst h; cases h1
  | b :: c :: t, q, f =>
    cases h1
    exact ⟨t, rfl⟩

theorem kind_dotted {x : Str} (h : cs!"./" <+: x) : getTargetKind x = .relative := by
  obtain ⟨r, rfl⟩ := h
  rfl

theorem targetPath_dotted {d x : Str} (h : cs!"./" <+: x) : targetPath d x = pjoin d x := by
  obtain ⟨r, rfl⟩ := h
  unfold targetPath
  rw [if_neg (by rintro (h | h) <;> cases h)]

/-- A file among the paths, or the directory in which nothing was found. -/
def ChainOr (W : Str → Prop) : Stats → Prop
  | .success (.info j) => W j.path
  | .success .ignored => True
  | .resolving j => j.request.kind = .relative ∧ j.request.target = []
  | .error _ _ => True

/-- The end of a lookup of a file in `node_modules`. -/
def fileRest (info : Info) : Stats → Prog (Stats × Bool)
  | .success r => .ret (.success r, false)
  | _ => .ret (.resolving info, false)

/-- The end of a lookup of a package. -/
def chainRest (info : Info) : Stats → Prog (Stats × Bool)
  | .error err i => if err.isTag then .ret (.resolving info, false) else .ret (.error err i, false)
  | s => .ret (s, false)

/-- The lookup in `node_modules` after the description file has been loaded. -/
def stepRest (c : Ctx) (n : Nat) (info : Info) (name : Str) : Except Err (Option Pkg) → Prog (Stats × Bool)
  | .error err => .ret (.error err info, true)
  | .ok pkg =>
    if !c.fs.isDir (pjoin (pjoin info.path MODULE) name) && !selfOf pkg ⟨pjoin info.path MODULE, info.request⟩ then
      fileRest info (resolveAsFile c ⟨pjoin info.path MODULE, info.request⟩)
    else (modulePackageChain c n pkg ⟨pjoin info.path MODULE, info.request⟩).bind (chainRest info)

/-- The end of the search. -/
def endRest : Stats → Prog Stats
  | .resolving i => .ret (.error .tag i)
  | s => .ret s

/-- The search after one `node_modules` directory. -/
def modulesRest (c : Ctx) (n : Nat) (a : Str) : Stats × Bool → Prog Stats
  | (s, true) => .ret s
  | (s, false) =>
    (s.andThen fun i =>
      match pparent a with
      | some parent => resolveAsModules c n (i.withPath parent)
      | none => .ret (.resolving i)).bind endRest

theorem resolveAsModules_rest (c : Ctx) (n : Nat) (info : Info) :
    resolveAsModules c (n + 1) info = (moduleStep c n info).bind (modulesRest c n info.path) := by
  unfold resolveAsModules
  refine congrArg _ (funext fun x => ?_)
  obtain ⟨s, b⟩ := x
  cases b with
  | true => rfl
  | false =>
    unfold modulesRest
    dsimp only
    refine congrArg _ (funext fun s => ?_)
    cases s <;> rfl

section
variable {o : Opts} {fs fs' : Fs} {debug : Bool} {W : Str → Prop} (hw : SameAt W fs fs')
include hw

theorem fileDir_same (hb : o.browserField = false) (n : Nat) {i : Info} (hd : ∀ w, Watched o fs i.getPath w → W w) :
    ((resolveAsFile (pureCtx o fs' debug) i).andThen fun j => resolveAsDir (pureCtx o fs' debug) n j) =
      ((resolveAsFile (pureCtx o fs debug) i).andThen fun j => resolveAsDir (pureCtx o fs debug) n j) ∧
    ∀ s, ((resolveAsFile (pureCtx o fs debug) i).andThen fun j => resolveAsDir (pureCtx o fs debug) n j).Returns s →
      ChainOr W s := by
  obtain ⟨h1, h2⟩ := resolveAsFile_same (o := o) (debug := debug) hw (info := i)
    fun w hw' => hd w ⟨_, .here, .file hw'⟩
  obtain ⟨h3, h4⟩ := resolveAsDir_same (debug := debug) hw hb hd n i .here
  rw [h1]
  cases hr : resolveAsFile (pureCtx o fs debug) i with
  | success r =>
    rw [hr] at h2
    refine ⟨rfl, fun s hs => ?_⟩
    cases hs
    cases r <;> exact h2
  | error e j => rw [hr] at h2; exact h2.elim
  | resolving j =>
    rw [hr] at h2
    cases (h2 : j = _)
    refine ⟨h3, fun s hs => ?_⟩
    have := h4 s hs
    cases s with
    | success r => cases r <;> exact this
    | error e j => trivial
    | resolving j => cases (this : j = _); exact ⟨rfl, rfl⟩

theorem exportsPick_same {d : Str} {l : List Str}
    (hl : ∀ s ∈ l, cs!"./" <+: (parseRequest s).target ∧
      (Contained (parseRequest s).target → W (pjoin d (parseRequest s).target))) :
    exportsPick (pureCtx o fs' debug) d l = exportsPick (pureCtx o fs debug) d l ∧
      ∀ i, exportsPick (pureCtx o fs debug) d l = some i → ∃ s ∈ l, cs!"./" <+: (parseRequest s).target ∧
        Contained (parseRequest s).target ∧ i = ⟨d, parseRequest s⟩ := by
  induction l with
  | nil => exact ⟨rfl, nofun⟩
  | cons s l ih =>
    obtain ⟨h1, h2⟩ := ih fun s hs => hl s (List.mem_cons_of_mem _ hs)
    have h2 : ∀ i, exportsPick (pureCtx o fs debug) d l = some i → ∃ s' ∈ s :: l,
        cs!"./" <+: (parseRequest s').target ∧ Contained (parseRequest s').target ∧ i = ⟨d, parseRequest s'⟩ :=
      fun i hi => (h2 i hi).imp fun s' h => ⟨List.mem_cons_of_mem _ h.1, h.2⟩
    obtain ⟨hs, hd⟩ := hl s List.mem_cons_self
    have hget : (⟨d, parseRequest s⟩ : Info).getPath = pjoin d (parseRequest s).target := by
      rw [getPath_eq]; exact targetPath_dotted hs
    have e : ∀ fs, exportsPick (pureCtx o fs debug) d (s :: l) =
        if fs.isFile (⟨d, parseRequest s⟩ : Info).getPath && checkTarget (parseRequest s).target then
          some ⟨d, parseRequest s⟩ else exportsPick (pureCtx o fs debug) d l := fun _ => rfl
    rw [e, e]
    cases hc : checkTarget (parseRequest s).target with
    | false =>
      rw [Bool.and_false, Bool.and_false]
      exact ⟨h1, h2⟩
    | true =>
      have hc' := (contained_iff _).1 hc
      rw [Bool.and_true, Bool.and_true, hget, hw.isFile _ (hd hc')]
      split
      · refine ⟨rfl, fun i hi => ?_⟩
        cases hi
        exact ⟨s, List.mem_cons_self, hs, hc', rfl⟩
      · exact ⟨h1, h2⟩

/-- Where exports lead to. -/
def ExportsTo (fs : Fs) (o : Opts) (q : Str) (info : Info) : Stats → Prop
  | .success _ => False
  | .error _ _ => True
  | .resolving i => i = info ∨ ∃ t s desc d doc json v, cs!"./" <+: (parseRequest s).target ∧
      Contained (parseRequest s).target ∧ i = ⟨d, parseRequest s⟩ ∧ t ∈ v.strings ∧
      (info.request.kind = .normal ∧
        FilledWith (info.request.target ++ info.request.query ++ info.request.fragment) t s) ∧
      o.descriptionFile = some desc ∧ closest fs desc q = some d ∧ fs.read (pjoin d desc) = some doc ∧ doc.json = some json ∧ json.get cs!"exports" = some v

omit hw in
theorem findPkg_from {q : Str} {pkg : Pkg} (hp : (findPkg fs o.descriptionFile q).Returns (.ok (some pkg))) :
    ∃ desc doc, o.descriptionFile = some desc ∧ closest fs desc q = some pkg.absDir ∧
      fs.read (pjoin pkg.absDir desc) = some doc ∧ doc.json = some pkg.raw ∧ FromFile fs pkg := by
  cases hdesc : o.descriptionFile with
  | none => rw [hdesc] at hp; cases hp
  | some desc =>
    rw [hdesc] at hp
    cases hc : closest fs desc q with
    | none => rw [findPkg_none hc] at hp; cases hp
    | some d =>
      rw [findPkg_here hc] at hp
      have hr : readPkg fs d (pjoin d desc) = .ret (.ok pkg) := by
        rcases readPkg_cases fs d (pjoin d desc) with ⟨a, hr⟩ | ⟨s, hr⟩
        · rw [hr] at hp ⊢
          cases a with
          | error err => cases hp
          | ok p' => cases hp; rfl
        · rw [hr] at hp; cases hp
      obtain ⟨doc, json, h1, h2, -, h3⟩ := readPkg_fields hr
      cases readPkg_dir hr
      exact ⟨desc, doc, rfl, hc, h1, by rw [h3]; exact h2, readPkg_fromFile hr⟩

theorem exportsPlugin_same (hx : DottedExports fs) {pkg : Option Pkg} {root : Str} {r : Request}
    (hp : (findPkg fs o.descriptionFile (pjoin root r.target)).Returns (.ok pkg))
    (he : fs'.pathExists (pjoin root r.target) = fs.pathExists (pjoin root r.target))
    (hd : ∀ t s desc d doc json v, t ∈ Json.strings v → FilledWith (r.target ++ r.query ++ r.fragment) t s →
      Contained (parseRequest s).target → o.descriptionFile = some desc →
      closest fs desc (pjoin root r.target) = some d → fs.read (pjoin d desc) = some doc → doc.json = some json →
      json.get cs!"exports" = some v → W (pjoin d (parseRequest s).target)) :
    exportsPlugin (pureCtx o fs' debug) pkg ⟨root, r⟩ = exportsPlugin (pureCtx o fs debug) pkg ⟨root, r⟩ ∧
      ∀ s, (exportsPlugin (pureCtx o fs debug) pkg ⟨root, r⟩).Returns s →
        ExportsTo fs o (pjoin root r.target) ⟨root, r⟩ s := by
  have same : ∀ s, (Prog.ret (Stats.resolving ⟨root, r⟩)).Returns s →
      ExportsTo fs o (pjoin root r.target) ⟨root, r⟩ s := by
    intro s hs
    cases hs
    exact .inl rfl
  unfold exportsPlugin
  cases pkg with
  | none => exact ⟨rfl, same⟩
  | some pkg =>
    dsimp only
    split
    · exact ⟨rfl, same⟩
    · rename_i hkind
      have hkind : r.kind = .normal := Classical.not_not.1 hkind
      split
      · exact ⟨rfl, same⟩
      · cases htree : pkg.exportsTree with
        | none => exact ⟨rfl, same⟩
        | some tree =>
          dsimp only
          obtain ⟨desc, doc, h1, h2, h3, h4, h5⟩ := findPkg_from hp
          obtain ⟨v, h6, h7⟩ := h5.exports tree htree
          have hv : tree.Vals (MV.Of fun t => cs!"./" <+: t ∧ t ∈ v.strings) :=
            buildTree_vals (fun t ht => ⟨hx v ⟨_, doc, _, h3, h4, h6⟩ t ht, ht⟩) h7
          have hreq : exportsRequestOf (pureCtx o fs' debug) pkg ⟨root, r⟩ =
              exportsRequestOf (pureCtx o fs debug) pkg ⟨root, r⟩ := by
            have he' : (pureCtx o fs' debug).fs.pathExists (pjoin root r.target) =
                (pureCtx o fs debug).fs.pathExists (pjoin root r.target) := he
            unfold exportsRequestOf
            simp only [he']
          rw [hreq]
          have step : ∀ a, (exportsRequestOf (pureCtx o fs debug) pkg ⟨root, r⟩).Returns a →
              (match a with
              | none => Prog.ret (Stats.error Err.tag ⟨root, r⟩)
              | some remaining =>
                match fieldProcess .exports tree remaining o.conditionNames with
                | none => .crash .fuel
                | some (.error err) => .ret (.error err ⟨root, r⟩)
                | some (.ok list) =>
                  match exportsPick (pureCtx o fs' debug) pkg.absDir list with
                  | some i => .ret (.resolving i)
                  | none => .ret (.error (.notExported r.target) ⟨root, r⟩)) =
              (match a with
              | none => Prog.ret (Stats.error Err.tag ⟨root, r⟩)
              | some remaining =>
                match fieldProcess .exports tree remaining o.conditionNames with
                | none => .crash .fuel
                | some (.error err) => .ret (.error err ⟨root, r⟩)
                | some (.ok list) =>
                  match exportsPick (pureCtx o fs debug) pkg.absDir list with
                  | some i => .ret (.resolving i)
                  | none => .ret (.error (.notExported r.target) ⟨root, r⟩)) ∧
              ∀ s, (match a with
              | none => Prog.ret (Stats.error Err.tag ⟨root, r⟩)
              | some remaining =>
                match fieldProcess .exports tree remaining o.conditionNames with
                | none => .crash .fuel
                | some (.error err) => .ret (.error err ⟨root, r⟩)
                | some (.ok list) =>
                  match exportsPick (pureCtx o fs debug) pkg.absDir list with
                  | some i => .ret (.resolving i)
                  | none => .ret (.error (.notExported r.target) ⟨root, r⟩)).Returns s →
                ExportsTo fs o (pjoin root r.target) ⟨root, r⟩ s := by
            intro a ha
            cases a with
            | none => exact ⟨rfl, fun s hs => by cases hs; trivial⟩
            | some remaining =>
              dsimp only
              obtain ⟨y, hy1, -⟩ := fieldProcess_items (k := .exports) hv remaining o.conditionNames
              rw [hy1]
              cases y with
              | error e => exact ⟨rfl, fun s hs => by cases hs; trivial⟩
              | ok l =>
                dsimp only
                obtain ⟨req, hreq', hy2⟩ := fieldProcess_req hv hy1
                have htext := exportsRequestOf_text ha hreq'
                obtain ⟨h8, h9⟩ := exportsPick_same (o := o) (debug := debug) hw (d := pkg.absDir) (l := l)
                  fun s hs => by
                    obtain ⟨t, rem, sub, ht, h, hrem⟩ := hy2 s hs
                    exact ⟨parse_dotted (targetMapping_dotted ht.1 h), fun hc =>
                      hd t s _ _ _ _ _ ht.2 (targetMapping_with (fun x hx => (hrem x hx).trans htext) h) hc h1 h2 h3 h4 h6⟩
                rw [h8]
                refine ⟨rfl, fun s hs => ?_⟩
                cases hk : exportsPick (pureCtx o fs debug) pkg.absDir l with
                | none => rw [hk] at hs; cases hs; trivial
                | some i =>
                  rw [hk] at hs
                  cases hs
                  obtain ⟨s, hs, k1, k2, k3⟩ := h9 i hk
                  obtain ⟨t, rem, sub, ht, h, hrem⟩ := hy2 s hs
                  exact .inr ⟨t, s, desc, _, doc, _, v, k1, k2, k3, ht.2, ⟨hkind,
                    targetMapping_with (fun x hx => (hrem x hx).trans htext) h⟩, h1, h2, h3, h4, h6⟩
          refine ⟨Prog.bind_same fun a ha => (step a ha).1, fun s hs => ?_⟩
          obtain ⟨a, ha, hs⟩ := Prog.returns_bind hs
          exact (step a ha).2 s hs

/-- A request by name, or what is left of it after a directory in which nothing was found. -/
def StillNamed (t text : Str) (r : Request) : Prop :=
  r.kind = .normal ∧ r.target = t ∧ r.target ++ r.query ++ r.fragment = text ∨ r.kind = .relative ∧ r.target = []

theorem modulePackageChain_same (hb : o.browserField = false) (hx : DottedExports fs) {path t text a : Str}
    (ht : getTargetKind t = .normal)
    (ha : a ∈ upward (path.length + 1) path) (hd : ∀ p w, Sought o fs path t text p → Watched o fs p w → W w)
    (he : fs'.pathExists (pjoin (pjoin a MODULE) t) = fs.pathExists (pjoin (pjoin a MODULE) t))
    {r : Request} (hr : StillNamed t text r) {pkg : Option Pkg}
    (hp : (findPkg fs o.descriptionFile (pjoin (pjoin a MODULE) r.target)).Returns (.ok pkg)) (n : Nat) :
    modulePackageChain (pureCtx o fs' debug) n pkg ⟨pjoin a MODULE, r⟩ =
        modulePackageChain (pureCtx o fs debug) n pkg ⟨pjoin a MODULE, r⟩ ∧
      ∀ s, (modulePackageChain (pureCtx o fs debug) n pkg ⟨pjoin a MODULE, r⟩).Returns s → ChainOr W s := by
  have hal : ∀ fs pkg i, aliasFieldPlugin (pureCtx o fs debug) n pkg i = .ret (.resolving i) := by
    intro fs pkg i
    unfold aliasFieldPlugin
    rw [show (pureCtx o fs debug).opts.browserField = false from hb]
    rfl
  have htf : startsWith t cs!"#" = false := by
    cases h : startsWith t cs!"#" with
    | false => rfl
    | true =>
      unfold getTargetKind at ht
      rw [if_pos h] at ht
      split at ht <;> cases ht
  obtain ⟨h1, h2⟩ : exportsPlugin (pureCtx o fs' debug) pkg ⟨pjoin a MODULE, r⟩ =
      exportsPlugin (pureCtx o fs debug) pkg ⟨pjoin a MODULE, r⟩ ∧
      ∀ s, (exportsPlugin (pureCtx o fs debug) pkg ⟨pjoin a MODULE, r⟩).Returns s →
        ExportsTo fs o (pjoin (pjoin a MODULE) t) ⟨pjoin a MODULE, r⟩ s := by
    rcases hr with ⟨hk, rfl, rfl⟩ | ⟨hk, hr⟩
    · refine exportsPlugin_same hw hx hp he fun t s desc d doc json v k1 k2 k3 k4 k5 k6 k7 k8 => ?_
      exact hd _ _ (.exported ha k4 k5 k6 k7 k8 k1 k2 k3) ⟨_, .here, .above (upward_self _)⟩
    · have : ∀ fs, exportsPlugin (pureCtx o fs debug) pkg ⟨pjoin a MODULE, r⟩ =
          .ret (.resolving ⟨pjoin a MODULE, r⟩) := by
        intro fs
        unfold exportsPlugin
        cases pkg with
        | none => rfl
        | some pkg => dsimp only; rw [if_pos (by rw [hk]; nofun)]
      rw [this, this]
      exact ⟨rfl, fun s hs => by cases hs; exact .inl rfl⟩
  -- what comes after exports
  have step : ∀ s, ExportsTo fs o (pjoin (pjoin a MODULE) t) ⟨pjoin a MODULE, r⟩ s → ∀ fs1, fs1 = fs ∨ fs1 = fs' →
      ((s.andThen fun i => importsPlugin (pureCtx o fs1 debug) n pkg i).bind fun s =>
        (s.andThen fun i =>
          let i := if i.request.kind = .normal then i.withTarget (cs!"./" ++ i.request.target) else i
          aliasFieldPlugin (pureCtx o fs1 debug) n pkg i).bind fun s =>
        (s.andThen fun i => .ret (resolveAsFile (pureCtx o fs1 debug) i)).bind fun s =>
        s.andThen fun i => resolveAsDir (pureCtx o fs1 debug) n i) =
      ((s.andThen fun i => importsPlugin (pureCtx o fs debug) n pkg i).bind fun s =>
        (s.andThen fun i =>
          let i := if i.request.kind = .normal then i.withTarget (cs!"./" ++ i.request.target) else i
          aliasFieldPlugin (pureCtx o fs debug) n pkg i).bind fun s =>
        (s.andThen fun i => .ret (resolveAsFile (pureCtx o fs debug) i)).bind fun s =>
        s.andThen fun i => resolveAsDir (pureCtx o fs debug) n i) ∧
      ∀ s', ((s.andThen fun i => importsPlugin (pureCtx o fs debug) n pkg i).bind fun s =>
        (s.andThen fun i =>
          let i := if i.request.kind = .normal then i.withTarget (cs!"./" ++ i.request.target) else i
          aliasFieldPlugin (pureCtx o fs debug) n pkg i).bind fun s =>
        (s.andThen fun i => .ret (resolveAsFile (pureCtx o fs debug) i)).bind fun s =>
        s.andThen fun i => resolveAsDir (pureCtx o fs debug) n i).Returns s' → ChainOr W s' := by
    intro s hs fs1 hfs1
    cases s with
    | success r => exact hs.elim
    | error e i => exact ⟨rfl, fun s' h => by cases h; trivial⟩
    | resolving i =>
      cases n with
      | zero => exact ⟨rfl, nofun⟩
      | succ n =>
      have hfree : startsWith i.request.target cs!"#" = false := by
        rcases hs with rfl | ⟨t, s, desc, d, doc, json, v, k1, -, rfl, -⟩
        · rcases hr with ⟨-, h, -⟩ | ⟨-, h⟩
          · show startsWith r.target cs!"#" = false
            rw [h]; exact htf
          · show startsWith r.target cs!"#" = false
            rw [h]; rfl
        · show startsWith (parseRequest s).target cs!"#" = false
          obtain ⟨y, hy⟩ := k1
          rw [← hy]
          rfl
      have himp : ∀ fs, importsPlugin (pureCtx o fs debug) (n + 1) pkg i = .ret (.resolving i) := by
        intro fs
        unfold importsPlugin
        cases pkg with
        | none => rfl
        | some pkg => dsimp only; rw [hfree]; rfl
      simp only [Stats.andThen, himp, Prog.bind, hal]
      have hsought : ∀ w, Watched o fs
          (if i.request.kind = .normal then i.withTarget (cs!"./" ++ i.request.target) else i).getPath w → W w := by
        intro w hw'
        rcases hs with rfl | ⟨t, s, desc, d, doc, json, v, k1, k2, rfl, k4, ⟨k5, k5t⟩, k6, k7, k8, k9, k10⟩
        · rcases hr with ⟨hk, h, -⟩ | ⟨hk, h⟩
          · rw [if_pos hk] at hw'
            refine hd _ w (.dotted ha) ?_
            have e : ((⟨pjoin a MODULE, r⟩ : Info).withTarget (cs!"./" ++ r.target)).getPath =
                pjoin (pjoin a MODULE) (cs!"./" ++ r.target) := by
              rw [getPath_eq]; exact targetPath_dotted ⟨_, rfl⟩
            have hw' : Watched o fs ((⟨pjoin a MODULE, r⟩ : Info).withTarget (cs!"./" ++ r.target)).getPath w := hw'
            rw [e] at hw'
            rw [← h]
            exact hw'
          · rw [if_neg (by rw [hk]; nofun)] at hw'
            refine hd _ w (.root ha) ?_
            rw [getPath_eq] at hw'
            rwa [show targetPath (pjoin a MODULE) r.target = pjoin a MODULE by
              unfold targetPath; rw [h, if_pos (.inl rfl)]] at hw'
        · rw [if_neg (by rw [show (parseRequest s).kind = _ from kind_dotted k1]; nofun)] at hw'
          have k5t : FilledWith text t s := by
            rcases hr with ⟨-, -, h⟩ | ⟨hk, -⟩
            · rw [← h]; exact k5t
            · rw [show r.kind = _ from k5] at hk; cases hk
          refine hd _ w (.exported ha k6 k7 k8 k9 k10 k4 k5t k2) ?_
          rw [getPath_eq] at hw'
          rwa [show targetPath (⟨d, parseRequest s⟩ : Info).path (parseRequest s).target = _ from targetPath_dotted k1]
            at hw'
      obtain ⟨h3, h4⟩ := fileDir_same (debug := debug) hw hb (n + 1) hsought
      refine ⟨?_, h4⟩
      rcases hfs1 with rfl | rfl
      · rfl
      · exact h3
  have e : ∀ fs, modulePackageChain (pureCtx o fs debug) n pkg ⟨pjoin a MODULE, r⟩ =
      (exportsPlugin (pureCtx o fs debug) pkg ⟨pjoin a MODULE, r⟩).bind fun s =>
      (s.andThen fun i => importsPlugin (pureCtx o fs debug) n pkg i).bind fun s =>
      (s.andThen fun i =>
        let i := if i.request.kind = .normal then i.withTarget (cs!"./" ++ i.request.target) else i
        aliasFieldPlugin (pureCtx o fs debug) n pkg i).bind fun s =>
      (s.andThen fun i => .ret (resolveAsFile (pureCtx o fs debug) i)).bind fun s =>
      s.andThen fun i => resolveAsDir (pureCtx o fs debug) n i := fun _ => rfl
  rw [e, e, h1]
  refine ⟨Prog.bind_same fun s hs => (step s (h2 s hs) fs' (.inr rfl)).1, fun s' hs' => ?_⟩
  obtain ⟨s, hs, hs'⟩ := Prog.returns_bind hs'
  exact (step s (h2 s hs) fs (.inl rfl)).2 s' hs'

/-- What one `node_modules` directory comes to. -/
def StepOr (W : Str → Prop) (t text : Str) : Stats → Prop
  | .success (.info j) => W j.path
  | .success .ignored => True
  | .resolving j => StillNamed t text j.request
  | .error _ _ => True

theorem moduleStep_same (hb : o.browserField = false) (hx : DottedExports fs) {path t text name a : Str}
    (ht : getTargetKind t = .normal) (hname : moduleName t = some name)
    (ha : a ∈ upward (path.length + 1) path) (hd : ∀ p w, Sought o fs path t text p → Watched o fs p w → W w)
    (hm : W (pjoin (pjoin a MODULE) name))
    (he : fs'.pathExists (pjoin (pjoin a MODULE) t) = fs.pathExists (pjoin (pjoin a MODULE) t))
    {r : Request} (hr : StillNamed t text r) (n : Nat) :
    moduleStep (pureCtx o fs' debug) n ⟨a, r⟩ = moduleStep (pureCtx o fs debug) n ⟨a, r⟩ ∧
      ∀ s, (moduleStep (pureCtx o fs debug) n ⟨a, r⟩).Returns s → StepOr W t text s.1 := by
  have hhere : ∀ p, Sought o fs path t text p → ∀ w, LookedAt o p w → W w := fun p hp w hw' => hd p w hp ⟨_, .here, hw'⟩
  have hroot : fs'.isDir (pjoin a MODULE) = fs.isDir (pjoin a MODULE) :=
    hw.isDir _ (hhere _ (.root ha) _ (.above (upward_self _)))
  have hsought : Sought o fs path t text (pjoin (pjoin a MODULE) r.target) := by
    rcases hr with ⟨-, h, -⟩ | ⟨-, h⟩ <;> rw [h]
    · exact .named ha
    · exact .left ha
  have hstill : StepOr W t text (.resolving ⟨a, r⟩) := hr
  obtain ⟨name', hname', hm'⟩ : ∃ name', moduleName r.target = some name' ∧
      fs'.isDir (pjoin (pjoin a MODULE) name') = fs.isDir (pjoin (pjoin a MODULE) name') := by
    rcases hr with ⟨-, h, -⟩ | ⟨-, h⟩ <;> rw [h]
    · exact ⟨name, hname, hw.isDir _ hm⟩
    · exact ⟨[], rfl, hw.isDir _ (hhere _ (.left ha) _ (.above (upward_self _)))⟩
  have e : ∀ fs, moduleStep (pureCtx o fs debug) n ⟨a, r⟩ =
      if !fs.isDir (pjoin a MODULE) then .ret (.resolving ⟨a, r⟩, false)
      else (findPkg fs o.descriptionFile (pjoin (pjoin a MODULE) r.target)).bind
        (stepRest (pureCtx o fs debug) n ⟨a, r⟩ name') := by
    intro fs
    unfold moduleStep
    dsimp only
    rw [hname']
    rfl
  rw [e, e, hroot]
  split
  · exact ⟨rfl, fun s hs => by cases hs; exact hstill⟩
  · rw [findPkg_same hw (hhere _ hsought)]
    have step : ∀ x, (findPkg fs o.descriptionFile (pjoin (pjoin a MODULE) r.target)).Returns x → ∀ fs1, fs1 = fs ∨ fs1 = fs' →
        stepRest (pureCtx o fs1 debug) n ⟨a, r⟩ name' x =
        (stepRest (pureCtx o fs debug) n ⟨a, r⟩ name' x) ∧
        ∀ s, (stepRest (pureCtx o fs debug) n ⟨a, r⟩ name' x).Returns s → StepOr W t text s.1 := by
      intro x hx' fs1 hfs1
      cases x with
      | error err => exact ⟨rfl, fun s hs => by cases hs; trivial⟩
      | ok pkg =>
        have hdir : fs1.isDir (pjoin (pjoin a MODULE) name') = fs.isDir (pjoin (pjoin a MODULE) name') := by
          rcases hfs1 with rfl | rfl
          · rfl
          · exact hm'
        have hfile : ∀ w, w ∈ (⟨pjoin a MODULE, r⟩ : Info).getPath ::
            o.extensions.map ((⟨pjoin a MODULE, r⟩ : Info).getPath ++ ·) → W w := by
          intro w hw'
          rw [getPath_eq] at hw'
          rcases hr with ⟨-, h, -⟩ | ⟨-, h⟩
          · refine hhere _ (.named ha) w (.file ?_)
            have hne : ¬ (t = [] ∨ t = cs!".") := by
              rintro (rfl | rfl) <;> cases ht
            have h0 : targetPath (pjoin a MODULE) r.target = pjoin (pjoin a MODULE) t := by
              unfold targetPath; rw [h, if_neg hne]
            rw [show targetPath (⟨pjoin a MODULE, r⟩ : Info).path r.target = _ from h0] at hw'
            exact hw'
          · refine hhere _ (.root ha) w (.file ?_)
            have h0 : targetPath (pjoin a MODULE) r.target = pjoin a MODULE := by
              unfold targetPath; rw [h, if_pos (.inl rfl)]
            rw [show targetPath (⟨pjoin a MODULE, r⟩ : Info).path r.target = _ from h0] at hw'
            exact hw'
        obtain ⟨h1, h2⟩ := resolveAsFile_same (o := o) (debug := debug) hw hfile
        obtain ⟨h3, h4⟩ := modulePackageChain_same (debug := debug) hw hb hx ht ha hd he hr hx' n
        have h1 : resolveAsFile (pureCtx o fs1 debug) ⟨pjoin a MODULE, r⟩ =
            resolveAsFile (pureCtx o fs debug) ⟨pjoin a MODULE, r⟩ := by
          rcases hfs1 with rfl | rfl
          · rfl
          · exact h1
        have h3 : modulePackageChain (pureCtx o fs1 debug) n pkg ⟨pjoin a MODULE, r⟩ =
            modulePackageChain (pureCtx o fs debug) n pkg ⟨pjoin a MODULE, r⟩ := by
          rcases hfs1 with rfl | rfl
          · rfl
          · exact h3
        have e : ∀ fs, stepRest (pureCtx o fs debug) n ⟨a, r⟩ name' (.ok pkg) =
            if !fs.isDir (pjoin (pjoin a MODULE) name') && !selfOf pkg ⟨pjoin a MODULE, r⟩ then
              fileRest ⟨a, r⟩ (resolveAsFile (pureCtx o fs debug) ⟨pjoin a MODULE, r⟩)
            else (modulePackageChain (pureCtx o fs debug) n pkg ⟨pjoin a MODULE, r⟩).bind (chainRest ⟨a, r⟩) :=
          fun _ => rfl
        rw [e, e, hdir, h1, h3]
        refine ⟨rfl, fun s hs => ?_⟩
        split at hs
        · cases hf : resolveAsFile (pureCtx o fs debug) ⟨pjoin a MODULE, r⟩ with
          | success y =>
            rw [hf] at hs h2
            cases hs
            cases y <;> exact h2
          | error e i => rw [hf] at hs; cases hs; exact hstill
          | resolving i => rw [hf] at hs; cases hs; exact hstill
        · obtain ⟨y, hy, hs⟩ := Prog.returns_bind hs
          have := h4 y hy
          cases y with
          | success z => cases hs; cases z <;> exact this
          | resolving i => cases hs; exact .inr this
          | error e i =>
            unfold chainRest at hs
            dsimp only at hs
            split at hs
            · cases hs; exact hstill
            · cases hs; trivial
    refine ⟨Prog.bind_same fun x hx' => (step x hx' fs' (.inr rfl)).1, fun s hs => ?_⟩
    obtain ⟨x, hx', hs⟩ := Prog.returns_bind hs
    exact (step x hx' fs (.inl rfl)).2 s hs

theorem resolveAsModules_same (hb : o.browserField = false) (hx : DottedExports fs) {path t text name : Str}
    (ht : getTargetKind t = .normal) (hname : moduleName t = some name)
    (hd : ∀ p w, Sought o fs path t text p → Watched o fs p w → W w)
    (hm : ∀ a ∈ upward (path.length + 1) path, W (pjoin (pjoin a MODULE) name))
    (he : ∀ a ∈ upward (path.length + 1) path,
      fs'.pathExists (pjoin (pjoin a MODULE) t) = fs.pathExists (pjoin (pjoin a MODULE) t))
    (n : Nat) (a : Str) (ha : a ∈ upward (path.length + 1) path) (r : Request) (hr : StillNamed t text r) :
    resolveAsModules (pureCtx o fs' debug) n ⟨a, r⟩ = resolveAsModules (pureCtx o fs debug) n ⟨a, r⟩ ∧
      ∀ s, (resolveAsModules (pureCtx o fs debug) n ⟨a, r⟩).Returns s →
        ∀ i, s = .success (.info i) → W i.path := by
  induction n generalizing a r with
  | zero => exact ⟨rfl, nofun⟩
  | succ n ih =>
    obtain ⟨h1, h2⟩ := moduleStep_same (debug := debug) hw hb hx ht hname ha hd (hm a ha) (he a ha) hr n
    rw [resolveAsModules_rest, resolveAsModules_rest, h1]
    have step : ∀ x : Stats × Bool, StepOr W t text x.1 → ∀ fs1, fs1 = fs ∨ fs1 = fs' →
        modulesRest (pureCtx o fs1 debug) n a x =
        (modulesRest (pureCtx o fs debug) n a x) ∧
        ∀ s, (modulesRest (pureCtx o fs debug) n a x).Returns s → ∀ i, s = .success (.info i) → W i.path := by
      intro x hx' fs1 hfs1
      obtain ⟨s, b⟩ := x
      cases b with
      | true =>
        refine ⟨rfl, fun s' hs' i hi => ?_⟩
        cases hs'
        rw [show s = _ from hi] at hx'
        exact hx'
      | false =>
        unfold modulesRest
        dsimp only
        cases s with
        | error e i => exact ⟨rfl, fun s hs => by cases hs; nofun⟩
        | success y =>
          refine ⟨rfl, fun s' hs' i hi => ?_⟩
          cases hs'
          cases hi
          exact hx'
        | resolving i =>
          simp only [Stats.andThen]
          cases hpar : pparent a with
          | none => exact ⟨rfl, fun s hs => by cases hs; nofun⟩
          | some parent =>
            dsimp only
            obtain ⟨h3, h4⟩ := ih parent (upward_step ha hpar) i.request hx'
            have h3 : resolveAsModules (pureCtx o fs1 debug) n (i.withPath parent) =
                resolveAsModules (pureCtx o fs debug) n (i.withPath parent) := by
              rcases hfs1 with rfl | rfl
              · rfl
              · exact h3
            rw [h3]
            refine ⟨rfl, fun s hs j hj => ?_⟩
            obtain ⟨y, hy, hs⟩ := Prog.returns_bind hs
            cases y with
            | success z => cases hs; exact h4 _ hy j hj
            | resolving i => cases hs; cases hj
            | error e i => cases hs; cases hj
    refine ⟨Prog.bind_same fun x hx' => (step x (h2 x hx') fs' (.inr rfl)).1, fun s hs => ?_⟩
    obtain ⟨x, hx', hs⟩ := Prog.returns_bind hs
    exact (step x (h2 x hx') fs (.inl rfl)).2 s hs

/-- C88 for requests by name, without caches. -/
theorem resolveCtx_watchedBare (hb : o.browserField = false) (hx : DottedExports fs) {path request name : Str}
    (hp : Plain o path (parseRequest request).target)
    (hk : getTargetKind (parseRequest request).target = .normal)
    (hname : moduleName (parseRequest request).target = some name)
    (hd : ∀ w, WatchedBare o fs path (parseRequest request).target request name w → W w)
    (he : ∀ a ∈ upward (path.length + 1) path,
      fs'.pathExists (pjoin (pjoin a MODULE) (parseRequest request).target) =
        fs.pathExists (pjoin (pjoin a MODULE) (parseRequest request).target)) (n : Nat) :
    resolveCtx (pureCtx o fs' debug) n path request = resolveCtx (pureCtx o fs debug) n path request := by
  have hkind : (parseRequest request).kind = .normal := hk
  have hs : ∀ p w, Sought o fs path (parseRequest request).target request p → Watched o fs p w → W w :=
    fun p w h1 h2 => hd w (.inl ⟨p, h1, h2⟩)
  cases n with
  | zero =>
    unfold resolveCtx resolveStats
    rw [show (pureCtx o fs' debug).opts.tsconfig = none from hp.tsconfig,
      show (pureCtx o fs debug).opts.tsconfig = none from hp.tsconfig]
    rfl
  | succ n =>
  have halias : containsStr path MODULE = true ∨ ∀ kv ∈ o.alias, ¬ kv.1 <+: (parseRequest request).target :=
    hp.alias.imp (containsStr_iff _ _).2 id
  rw [resolveCtx_plain (pureCtx o fs' debug) n path request hp.tsconfig halias hp.prefer,
    resolveCtx_plain (pureCtx o fs debug) n path request hp.tsconfig halias hp.prefer]
  have hans : ∀ s, (∀ i, s = .success (.info i) → W i.path) →
      answer (pureCtx o fs' debug) ⟨path, parseRequest request⟩ s =
        answer (pureCtx o fs debug) ⟨path, parseRequest request⟩ s := by
    intro s hs
    cases s with
    | error e i => rfl
    | resolving i => rfl
    | success r =>
      cases r with
      | ignored => rfl
      | info i =>
        have h1 : normalizePath (pureCtx o fs' debug) i.path = normalizePath (pureCtx o fs debug) i.path := by
          unfold normalizePath
          rw [show (pureCtx o fs' debug).fs.canon i.path = (pureCtx o fs debug).fs.canon i.path from
            hw.canon _ (hs i rfl)]
          rfl
        simp only [answer, normalizeResult, h1]
        rfl
  have hstage : ∀ fs, pkgStage (pureCtx o fs debug) n ⟨path, parseRequest request⟩ =
      (findPkg fs o.descriptionFile (pjoin (pjoin path MODULE) (parseRequest request).target)).bind fun
      | .error err => .ret (.error err ⟨path, parseRequest request⟩)
      | .ok pkg =>
        (importsPlugin (pureCtx o fs debug) n pkg ⟨path, parseRequest request⟩).bind fun s =>
        s.andThen fun i => aliasFieldPlugin (pureCtx o fs debug) n pkg i := by
    intro fs
    unfold pkgStage
    dsimp only
    rw [if_pos hkind]
    rfl
  have hal : ∀ fs pkg i, aliasFieldPlugin (pureCtx o fs debug) n pkg i = .ret (.resolving i) := by
    intro fs pkg i
    unfold aliasFieldPlugin
    rw [show (pureCtx o fs debug).opts.browserField = false from hb]
    rfl
  have hlast : ∀ fs, lastStage (pureCtx o fs debug) n ⟨path, parseRequest request⟩ =
      resolveAsModules (pureCtx o fs debug) n ⟨path, parseRequest request⟩ := by
    intro fs
    unfold lastStage
    dsimp only
    rw [hkind]
  obtain ⟨h3, h4⟩ := resolveAsModules_same (debug := debug) hw hb hx hk hname hs
    (fun a ha => hd _ (.inr ⟨a, ha, rfl⟩)) he n path (upward_self path) (parseRequest request) (.inl ⟨hkind, rfl, parse_concat request⟩)
  unfold plainStages
  rw [Prog.bind_assoc, Prog.bind_assoc, hstage, hstage,
    findPkg_same hw (q := pjoin (pjoin path MODULE) (parseRequest request).target)
      (fun w hw' => hs _ w (.named (upward_self path)) ⟨_, .here, hw'⟩), Prog.bind_assoc, Prog.bind_assoc]
  refine congrArg _ (funext fun a => ?_)
  cases a with
  | error e => rfl
  | ok pkg =>
    dsimp only
    cases n with
    | zero => rfl
    | succ n =>
      have hfree : startsWith (parseRequest request).target cs!"#" = false := by
        cases h : startsWith (parseRequest request).target cs!"#" with
        | false => rfl
        | true =>
          unfold getTargetKind at hk
          rw [if_pos h] at hk
          split at hk <;> cases hk
      have himp : ∀ fs, importsPlugin (pureCtx o fs debug) (n + 1) pkg ⟨path, parseRequest request⟩ =
          .ret (.resolving ⟨path, parseRequest request⟩) := by
        intro fs
        unfold importsPlugin
        cases pkg with
        | none => rfl
        | some pkg => dsimp only; rw [hfree]; rfl
      rw [himp, himp]
      show (aliasFieldPlugin (pureCtx o fs' debug) (n + 1) pkg _).bind _ =
        (aliasFieldPlugin (pureCtx o fs debug) (n + 1) pkg _).bind _
      rw [hal, hal]
      show (lastStage (pureCtx o fs' debug) (n + 1) _).bind _ = (lastStage (pureCtx o fs debug) (n + 1) _).bind _
      rw [hlast, hlast, h3]
      exact Prog.bind_same fun s hs => hans s (h4 s hs)

end
end Verif
