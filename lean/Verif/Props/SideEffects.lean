import Verif.Proofs.Nearest
import Verif.Proofs.Lawful
import Verif.Proofs.SideEffects
import Verif.Spec.SideEffects
import Verif.Spec.Examples
/-!
# Properties about sideEffects: C46, C47
-/

namespace Verif

/-- An array is rejected because of its first item that is no string. -/
theorem sideEffectsLoop_bad {path : Str} {l : List Json} {err : Err} (h : sideEffectsLoop path l = .error err) :
    ∃ (a : List Str) (v : Json) (b : List Json), l = a.map .str ++ v :: b ∧ (∀ s, v ≠ .str s) ∧
      err = .sideEffects path v := by
  induction l with
  | nil => cases h
  | cons x l ih =>
    unfold sideEffectsLoop at h
    cases x with
    | str s =>
      simp only [Json.asStr] at h
      cases hl : sideEffectsLoop path l with
      | ok r => rw [hl] at h; cases h
      | error e' =>
        rw [hl] at h
        cases h
        obtain ⟨a, v, b, h1, h2, h3⟩ := ih hl
        exact ⟨s :: a, v, b, by rw [h1]; rfl, h2, h3⟩
    | _ => cases h; exact ⟨[], _, l, rfl, (fun _ h => by cases h), rfl⟩

/-- C47, the entry itself: it is accepted, unchanged, exactly if it is absent, a boolean or an
array of strings; otherwise the error names the file and what is wrong. -/
theorem C47_entry (path : Str) (json : Json) :
    (∀ se, parseSideEffects path json = .ok se ↔ SideEffectsIs json se) ∧
    ((∀ se, ¬ SideEffectsIs json se) →
      ∃ v, BadPart json v ∧ parseSideEffects path json = .error (.sideEffects path v)) := by
  refine ⟨parseSideEffects_iff path json, fun h => ?_⟩
  cases hp : parseSideEffects path json with
  | ok se => exact (h se ((parseSideEffects_iff path json se).1 hp)).elim
  | error err =>
    unfold parseSideEffects at hp
    cases hv : json.get cs!"sideEffects" with
    | none => rw [hv] at hp; cases hp
    | some v =>
      rw [hv] at hp
      cases v with
      | bool b => cases hp
      | arr l =>
        simp only [Json.asBool, Json.asArr] at hp
        cases hl : sideEffectsLoop path l with
        | ok r => rw [hl] at hp; cases hp
        | error e' =>
          rw [hl] at hp
          cases hp
          obtain ⟨a, v, b, rfl, h2, rfl⟩ := sideEffectsLoop_bad hl
          exact ⟨v, .inl ⟨a, b, hv, h2⟩, rfl⟩
      | _ => cases hp; exact ⟨_, .inr ⟨hv, (fun _ h => by cases h), fun _ h => by cases h⟩, rfl⟩

example : BadPart (.obj [(cs!"sideEffects", .arr [.str cs!"a", .null, .bool true])]) .null :=
  .inl ⟨[cs!"a"], [.bool true], rfl, fun _ h => by cases h⟩

/-- The error text contains the path. -/
theorem C47_names_file (pj : Json → Str) (path : Str) (v : Json) :
    ∃ a b, (Err.sideEffects path v).render pj = a ++ path ++ b :=
  ⟨cs!"sideEffects in ", cs!" had unexpected value " ++ pj v, by
    simp [Err.render, List.append_assoc]⟩

/-- Reading a file gives its contents. -/
theorem readToString_doc {e : Env} {path : Str} {doc : Doc} (h1 : e.fs.read path = some doc) :
    (readToString e path).All (fun r => r = .ok doc ∨
      (∃ err, r = .error err) ∧ e.fs.mtime path = none) := by
  unfold readToString
  rw [h1]
  simp only
  split
  · rename_i hm; exact .inr ⟨⟨_, rfl⟩, hm⟩
  · exact ⟨trivial, fun _ _ => .inl rfl⟩

/-- C47, the description file: a file with any other entry is never accepted. -/
theorem C47_rejected (e : Env) (dir path : Str) (doc : Doc) (json : Json)
    (h1 : e.fs.read path = some doc) (h2 : doc.json = some json)
    (hbad : ∀ se, ¬ SideEffectsIs json se) (r : Except Err Pkg)
    (h : (parseDescription e dir path).Returns r) : ∃ err, r = .error err := by
  obtain ⟨v, -, hv⟩ := (C47_entry path json).2 hbad
  have key : (parseDescription e dir path).All (fun r => ∃ err, r = .error err) := by
    unfold parseDescription
    refine dbgGuard_sat e (fun _ _ => trivial) path
      (Prog.Sat.bind (readToString_doc h1) fun r hr => ?_)
    rcases hr with rfl | ⟨⟨err, rfl⟩, -⟩
    · simp only [h2]
      refine ⟨trivial, fun seed _ => ?_⟩
      split
      · trivial
      · refine Prog.Sat.bind (exportsTreeOf_sat e (fun _ _ => trivial)
          fun v hv => ⟨path, doc, json, h1, h2, hv⟩) fun x _ => ?_
        cases x with
        | error err => exact ⟨_, rfl⟩
        | ok et =>
          refine Prog.Sat.bind (importsTreeOf_sat e (fun _ _ => trivial)
            fun v hv => ⟨path, doc, json, h1, h2, hv⟩) fun x _ => ?_
          cases x with
          | error err => exact ⟨_, rfl⟩
          | ok it =>
            simp only [hv]
            exact ⟨_, rfl⟩
    · exact ⟨_, rfl⟩
  exact Prog.all_iff_returns.1 key r h

/-- C47, the error: if the file has no exports and imports (whose errors come first) the error is
that of the entry and names the file. -/
theorem C47_error (e : Env) (dir path : Str) (doc : Doc) (json : Json)
    (h1 : e.fs.read path = some doc) (h2 : doc.json = some json) (hm : e.fs.mtime path ≠ none)
    (hbad : ∀ se, ¬ SideEffectsIs json se) (he : json.get cs!"exports" = none)
    (hi : json.get cs!"imports" = none) (r : Except Err Pkg)
    (h : (parseDescription e dir path).Returns r) : ∃ v, BadPart json v ∧ r = .error (.sideEffects path v) := by
  obtain ⟨v, hb, hv⟩ := (C47_entry path json).2 hbad
  have key : (parseDescription e dir path).All (fun r => ∃ v, BadPart json v ∧ r = .error (.sideEffects path v)) := by
    unfold parseDescription
    refine dbgGuard_sat e (fun _ _ => trivial) path
      (Prog.Sat.bind (readToString_doc h1) fun r hr => ?_)
    rcases hr with rfl | ⟨-, hm'⟩
    · simp only [h2]
      refine ⟨trivial, fun seed _ => ?_⟩
      split
      · trivial
      · simp only [exportsTreeOf, importsTreeOf, he, hi, Prog.bind, hv]
        exact ⟨v, hb, rfl⟩
    · exact (hm hm').elim
  exact Prog.all_iff_returns.1 key r h

/-- C47 for the API, any history: what `load_side_effects` returns for the entry is the entry, in
one of these three shapes, of a JSON file that existed at some time. -/
theorem C47_history (cfg : Nat → Config) (ser : Json → Str) (fs : Fs) (l : List Event)
    (t : Task) (ht : t ∈ ((Sys.init fs).after cfg ser l).tasks) (path file : Str)
    (se : Option SideEffects) (hc : t.call = .sideEffects path)
    (hd : t.prog = .ret (.sideEffects (.ok (some (file, se))))) :
    ∃ fs' p doc json, Versions fs l fs' ∧ fs'.read p = some doc ∧ doc.json = some json ∧
      SideEffectsIs json se := by
  let Q : List Comp → Pkg → Prop := fun _ pkg =>
    ∃ fs' p doc json, Versions fs l fs' ∧ fs'.read p = some doc ∧ doc.json = some json ∧
      SideEffectsIs json pkg.sideEffects
  have hload : ∀ rid fs' p, Versions fs l fs' →
      (loadPkg ((cfg rid).env ser fs') p).Sat (StoreG Q) (StoreR Q)
        (fun r => ∀ pkg, r = .ok (some pkg) → Q [] pkg) := by
    intro rid fs' p hv
    refine (loadPkg_sat (Q := fun _ => Q []) _ (fun o ho => ?_) (fun _ _ => trivial) ?_ ?_ p).mono
      fun r hr pkg h => ?_
    · cases o <;> first | trivial | exact ho.elim
    · intro desc d pkg _ _ hp
      obtain ⟨doc, h1, h2⟩ := hp.read
      have : Q [] pkg := ⟨fs', _, doc, _, hv, h1, h2, (parseSideEffects_iff _ _ _).1 hp.sideEffects⟩
      exact ⟨this, this⟩
    · intro d pkg _ hp
      exact hp pkg rfl
    · obtain ⟨d, -, -, h2⟩ := hr.1 pkg h
      exact h2
  have key := system_inv (cfg := cfg) (ser := ser) (okFs := Versions fs l)
    (okCall := fun _ _ => True) (G := fun _ => StoreG Q) (R := fun _ => StoreR Q)
    (J := Stored Q)
    (P := fun _ _ call ans => ∀ p file se, call = .sideEffects p →
      ans = .sideEffects (.ok (some (file, se))) →
        ∃ fs' p doc json, Versions fs l fs' ∧ fs'.read p = some doc ∧ doc.json = some json ∧
          SideEffectsIs json se)
    (stored_step cfg)
    (by
      intro rid fs' call fuel h1 _
      cases call with
      | resolve p r =>
        unfold Call.prog
        refine Prog.Sat.bind (P := fun _ => True) ?_ fun x _ p' f s hc ha => by cases hc
        exact resolve_any _ trivial (fun p => (hload rid fs' p h1).mono fun _ _ => trivial) _ _ _
      | sideEffects p =>
        unfold Call.prog loadSideEffects
        refine Prog.Sat.bind (P := fun x => ∀ f s, x = .ok (some (f, s)) →
          ∃ fs' p doc json, Versions fs l fs' ∧ fs'.read p = some doc ∧ doc.json = some json ∧
            SideEffectsIs json s) (Prog.Sat.bind (hload rid fs' p h1) fun x hx => ?_)
          fun x hx p' f s hc ha => by cases ha; exact hx f s rfl
        cases x with
        | error err => nofun
        | ok o =>
          cases o with
          | none => nofun
          | some pkg =>
            simp only
            split
            · trivial
            · intro f s h
              cases h
              exact hx pkg rfl)
    (.inl rfl : Versions fs l fs)
    (l := l)
    (fun e he => by
      cases e with
      | change fs' => exact .inr he
      | _ => trivial)
    (stored_init Q)
  have := key.2.2 t ht
  rw [hd] at this
  exact this path file se hc rfl

example : SideEffectsIs (.obj [(cs!"sideEffects", .arr [.str cs!"a", .str cs!"b"])])
    (some (.array [cs!"a", cs!"b"])) := rfl
example : ∀ se, ¬ SideEffectsIs (.obj [(cs!"sideEffects", .arr [.str cs!"a", .null])]) se := by
  intro se h
  obtain ⟨v, hv⟩ : ∃ v, parseSideEffects [] (.obj [(cs!"sideEffects", .arr [.str cs!"a", .null])]) =
    .error v := ⟨_, rfl⟩
  rw [(parseSideEffects_iff _ _ se).2 h] at hv
  cases hv
example : (loadSideEffects (treeEnv optsA (.dir [(cs!"package.json",
    jsonFile (.obj [(cs!"sideEffects", .bool false)])), (cs!"d", .dir [])])) cs!"/d/x.js").fresh.map
      (fun r => match r with | .ok x => x | .error _ => none) =
    some (some (cs!"/package.json", some (.bool false))) := by decide +kernel

/-! ## C46 -/

/-- The answer is the description file of the closest directory that has one, with its entry. -/
def NearestEntry (fs : Fs) (desc path : Str) : Option (Str × Option SideEffects) → Prop
  | none => closest fs desc path = none
  | some (file, se) => ∃ d doc json, closest fs desc path = some d ∧
      comps file = comps (pjoin d desc) ∧ fs.read (pjoin d desc) = some doc ∧
      doc.json = some json ∧ SideEffectsIs json se

/-- C46: on an unchanging file system, after any calls and in any interleaving, in any build, whatever
the caches hold: if `load_side_effects` returns a file, it is the description file of the closest
directory at or above the path that has one, with its `sideEffects` entry; if it returns nothing, there
is none. Missing: resolvers that share a cache but name their description files differently
(`C46_shared_violated`). That it returns (and not an error or a panic) if the file is fine is
`C46_closest_partial`. -/
theorem C46_found_partial {cfg : Nat → Config} {ser : Json → Str} {fs : Fs} (hfs : fs.Lawful)
    (hdesc : ∀ rid rid' d d', (cfg rid).cache = (cfg rid').cache →
      (cfg rid).opts.descriptionFile = some d → (cfg rid').opts.descriptionFile = some d' → d = d')
    (l : List Event) (hl : ∀ fs', Event.change fs' ∉ l)
    (t : Task) (ht : t ∈ ((Sys.init fs).after cfg ser l).tasks) (path desc : Str)
    (hc : t.call = .sideEffects path) (ha : isAbs path = true)
    (hd : (cfg t.rid).opts.descriptionFile = some desc) (r : Option (Str × Option SideEffects))
    (ho : t.prog = .ret (.sideEffects (.ok r))) :
    NearestEntry fs desc path r := by
  let P : Nat → Fs → Call → Answer → Prop := fun rid _ call ans => ∀ path desc r,
    call = .sideEffects path → isAbs path = true → (cfg rid).opts.descriptionFile = some desc →
    ans = .sideEffects (.ok r) →
    NearestEntry fs desc path r
  have key := system_inv (cfg := cfg) (ser := ser) (okFs := fun fs' => fs' = fs)
    (okCall := fun _ _ => True) (G := fun rid => NearG fs (cfg rid).opts.descriptionFile)
    (R := fun rid => NearR fs (cfg rid).opts.descriptionFile) (J := Near fs cfg) (P := P)
    (near_step hfs hdesc)
    (by
      intro rid fs' call fuel h1 _
      subst h1
      cases call with
      | resolve p r =>
        unfold Call.prog
        refine Prog.Sat.bind (P := fun _ => True) ?_ fun x _ p' f s hc => by cases hc
        exact resolve_any _ trivial (fun p => (loadPkg_entry hfs rid p).mono fun _ _ => trivial) _ _ _
      | sideEffects p =>
        unfold Call.prog loadSideEffects
        refine Prog.Sat.bind (P := fun x => ∀ desc r, isAbs p = true →
          (cfg rid).opts.descriptionFile = some desc → x = .ok r → NearestEntry fs' desc p r)
          (Prog.Sat.bind (loadPkg_entry hfs rid p) fun x hx => ?_)
          fun x hx p' desc r hc ha hd h => by cases hc; cases h; exact hx desc r ha hd rfl
        cases x with
        | error err => intro desc r _ _ h; cases h
        | ok o =>
          cases o with
          | none =>
            intro desc r ha hd h
            cases h
            exact (hx desc hd ha).1 rfl
          | some pkg =>
            simp only
            split
            · trivial
            · rename_i desc hdesc
              intro desc' r ha hd h
              have hdd : (cfg rid).opts.descriptionFile = some desc := hdesc
              rw [hdd] at hd
              cases hd
              cases h
              obtain ⟨d, h1, h2⟩ := (hx desc hdd ha).2 pkg rfl
              obtain ⟨doc, h3, h4⟩ := h2.json
              have had : isAbs d = true := by rw [(closest_above h1).2]; exact ha
              have hpa : isAbs pkg.absDir = true := by rw [isAbs_of_comps h2.dir]; exact had
              exact ⟨d, doc, pkg.raw, h1, (sim_pjoin hpa h2.dir desc).1, h3, h4,
                (parseSideEffects_iff _ _ _).1 h2.sideEffects⟩)
    (rfl : fs = fs) (l := l)
    (fun e he => by
      cases e with
      | change fs' => exact (hl fs' he).elim
      | _ => trivial)
    (near_init fs cfg)
  have := key.2.2 t ht
  rw [ho] at this
  exact this path desc r hc ha hd rfl

/-- `/p/package.json` and `/other.json`. -/
def treeTwoDesc : Tree :=
  .dir [(cs!"p", .dir [(cs!"package.json", jsonFile (.obj [(cs!"sideEffects", .bool true)]))]),
    (cs!"other.json", jsonFile (.obj [(cs!"sideEffects", .bool false)]))]

/-- What a call of `load_side_effects` came to. -/
def Sys.sideEffectsOf (s : Sys) (i : Nat) : Option (Str × Option SideEffects) :=
  match s.tasks[i]? with
  | some t =>
    match t.prog with
    | .ret (.sideEffects (.ok r)) => r
    | _ => none
  | none => none

/-- C46 does not hold if resolvers share a cache and name their description files differently: the
file returned does not exist, and the entry is that of another file. -/
theorem C46_shared_violated :
    let cfg (rid : Nat) := if rid = 0 then config optsA 0
      else config { optsA with descriptionFile := some cs!"other.json" } 0
    let s (l : List (Nat × Call)) := (Sys.init (treeFs treeTwoDesc [])).after cfg serJson
      (oneByOne 40 0 l)
    (s [(1, .sideEffects cs!"/p")]).sideEffectsOf 0 = some (cs!"/other.json", some (.bool false)) ∧
      (s [(0, .sideEffects cs!"/p"), (1, .sideEffects cs!"/p")]).sideEffectsOf 1 =
        some (cs!"/p/other.json", some (.bool true)) := by
  decide +kernel

-- a call that is over, and its answer
example : ((Sys.init (treeFs treeTwoDesc [])).after (fun _ => config optsA 0) serJson
    (oneByOne 40 0 [(0, .sideEffects cs!"/p/x/y.js")])).sideEffectsOf 0 =
      some (cs!"/p/package.json", some (.bool true)) ∧ (treeFs treeTwoDesc []).Lawful :=
  ⟨by decide +kernel, treeFs_lawful [] rfl⟩

end Verif
