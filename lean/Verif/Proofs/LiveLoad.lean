import Verif.Proofs.LiveSat
/-!
# What the loader returns while files change
-/

namespace Verif.Live

/-- Every file has the same contents. -/
def oneDoc (doc : Doc) : Fs := { noFs with read := fun _ => some doc }

/-- The value of a field of a description file that was read. -/
def FieldRead (A : (q : Query) → q.Ret → Prop) (name : Str) (v : Json) : Prop :=
  ∃ file doc json, A (.read file) (some doc) ∧ doc.json = some json ∧ json.get name = some v

/-- As `FileOp`, for what was read. -/
def FileOp (A : (q : Query) → q.Ret → Prop) (ser : Json → Str) : Op → Prop
  | .putPkg _ _ => False
  | .putExports key t => ∃ v, key = ser v ∧
      (FieldRead A cs!"exports" v ∧ buildTree .exports v = some (.ok t) ∨
        FieldRead A cs!"imports" v ∧ buildTree .imports v = some (.ok t))
  | .putFile p m => (∃ doc, A (.read p) (some doc)) ∧ A (.mtime p) (some m)
  | _ => True

/-- As `Verif.Parsed`, from contents that were read. -/
def Parsed (R : (o : Op) → o.Ret → Prop) (A : (q : Query) → q.Ret → Prop) (h : Host)
    (dir path : Str) (p : Pkg) : Prop :=
  ∃ doc, A (.read path) (some doc) ∧ Verif.Parsed R (h.env (oneDoc doc)) dir path p

/-- What a crash of the parser is blamed on. -/
def ParseCrash (A : (q : Query) → q.Ret → Prop) : Crash → Prop
  | .panic .buildTree => (∃ v, FieldRead A cs!"exports" v ∧ buildTree .exports v = none) ∨
      ∃ v, FieldRead A cs!"imports" v ∧ buildTree .imports v = none
  | .panic .browserTrue => ∃ file doc json, A (.read file) (some doc) ∧ doc.json = some json ∧
      browserFields json = none
  | _ => False

section
variable {h : Host} {A : (q : Query) → q.Ret → Prop} {G : Op → Prop} {R : (o : Op) → o.Ret → Prop}
  {C : Crash → Prop}

theorem needUpdate_sat (hG : ∀ p, G (.getFile p)) (path : Str) :
    (needUpdate h path).Sat A G R C (fun r => (∀ err, r = .error err → err.fromLoad = true) ∧
      (r = .ok true → A (.isFile path) true)) := by
  unfold needUpdate
  refine sat_isFile fun b hb => ?_
  cases b with
  | false => exact ⟨fun _ h => (by cases h), nofun⟩
  | true =>
    refine ⟨hG _, fun r _ => ?_⟩
    cases r with
    | none => exact ⟨fun _ h => (by cases h), fun _ => hb⟩
    | some v =>
      intro m _
      cases m with
      | none => exact ⟨fun _ h => (by cases h; rfl), nofun⟩
      | some now =>
        dsimp only
        split
        · exact ⟨fun _ h => (by cases h; rfl), nofun⟩
        · exact ⟨fun _ h => (by cases h), fun _ => hb⟩

theorem readToString_sat (path : Str) (hG : ∀ m, (∃ doc, A (.read path) (some doc)) →
    A (.mtime path) (some m) → G (.putFile path m)) :
    (readToString path).Sat A G R C (fun r => ∀ d, r = .ok d → A (.read path) (some d)) := by
  unfold readToString
  intro r hr
  cases r with
  | none => intro d h; cases h
  | some doc =>
    intro m hm
    cases m with
    | none => intro d h; cases h
    | some m => exact ⟨hG _ ⟨doc, hr⟩ hm, fun r _ d h => by cases h; exact hr⟩

theorem exportsTree_crash {e : Env} {json : Json} {c : Crash}
    (he : (exportsTreeOf e json).Ends (.crashed c)) :
    c = .panic .buildTree ∧ ∃ v, json.get cs!"exports" = some v ∧ buildTree .exports v = none := by
  unfold exportsTreeOf at he
  split at he
  · cases he
  · rename_i v hv
    cases he with
    | op r he =>
      cases r with
      | some t => cases he
      | none =>
        dsimp only at he
        split at he
        · rename_i hb; cases he; exact ⟨rfl, v, hv, hb⟩
        · cases he
        · cases he with | op r he => cases he

theorem importsTree_crash {e : Env} {json : Json} {c : Crash}
    (he : (importsTreeOf e json).Ends (.crashed c)) :
    c = .panic .buildTree ∧ ∃ v, json.get cs!"imports" = some v ∧ buildTree .imports v = none := by
  unfold importsTreeOf at he
  split at he
  · cases he
  · rename_i v hv
    cases he with
    | op r he =>
      cases r with
      | some t => cases he
      | none =>
        dsimp only at he
        split at he
        · rename_i hb; cases he; exact ⟨rfl, v, hv, hb⟩
        · cases he
        · cases he with | op r he => cases he

theorem contents_sat (hG : ∀ o, FileOp A h.ser o → G o) (hC : ∀ c, ParseCrash A c → C c)
    (dir path : Str) {doc : Doc} (hd : A (.read path) (some doc)) :
    (lift (parseContents h dir path doc)).Sat A G R C (fun r =>
      (∀ err, r = .error err → err.fromLoad = true) ∧ ∀ p, r = .ok p → Parsed R A h dir path p) := by
  have hf : ∀ name v, IsField (oneDoc doc) name v → FieldRead A name v := by
    rintro name v ⟨file, d, json, h1, h2, h3⟩
    cases h1
    exact ⟨path, doc, json, hd, h2, h3⟩
  have hO : ∀ o, Verif.FileOp (h.env (oneDoc doc)) o → G o := by
    intro o ho
    refine hG o ?_
    cases o with
    | putExports key t =>
      obtain ⟨v, h1, h2⟩ := ho
      exact ⟨v, h1, h2.imp (fun h => ⟨hf _ _ h.1, h.2⟩) fun h => ⟨hf _ _ h.1, h.2⟩⟩
    | putFile p m => cases ho.2
    | _ => exact ho
  unfold parseContents
  cases hj : doc.json with
  | none => exact ⟨fun _ h => (by cases h; rfl), fun p h => by cases h⟩
  | some json =>
    refine ⟨hO _ trivial, fun seed _ => ?_⟩
    dsimp only
    cases hb : browserFields json with
    | none => exact hC _ ⟨path, doc, json, hd, hj, hb⟩
    | some fields =>
      dsimp only
      rw [← exportsTreeOf_env (oneDoc doc), ← importsTreeOf_env (oneDoc doc)]
      refine sat_lift ?_ fun c hc => hC c ?_
      · refine Prog.Sat.bind (exportsTreeOf_sat _ hO fun v hv => ⟨path, _, _, rfl, hj, hv⟩) fun r hx => ?_
        cases r with
        | error err => exact ⟨fun _ h => (by cases h; exact hx.1 _ rfl), fun p h => by cases h⟩
        | ok et =>
          refine Prog.Sat.bind (importsTreeOf_sat _ hO fun v hv => ⟨path, _, _, rfl, hj, hv⟩) fun r hi => ?_
          cases r with
          | error err => exact ⟨fun _ h => (by cases h; exact hi.1 _ rfl), fun p h => by cases h⟩
          | ok it =>
            dsimp only
            split
            · rename_i he
              refine ⟨fun _ h => ?_, fun p h => by cases h⟩
              cases h
              obtain ⟨_, rfl⟩ := parseSideEffects_err he
              rfl
            · rename_i he
              refine ⟨nofun, fun p h => ?_⟩
              cases h
              exact ⟨doc, hd, rfl, ⟨doc, rfl, hj⟩, ⟨seed, fields, hb, rfl⟩, rfl, rfl, hx.2 _ rfl,
                hi.2 _ rfl, he⟩
      · rcases hc.of_bind with ⟨a, -, hc⟩ | ⟨c', hc, hx⟩
        · cases a with
          | error e => cases hc
          | ok et =>
            rcases hc.of_bind with ⟨a, -, hc⟩ | ⟨c', hc, hx⟩
            · cases a with
              | error e => cases hc
              | ok it =>
                dsimp only at hc
                split at hc <;> cases hc
            · cases hx
              obtain ⟨rfl, v, hv, hn⟩ := importsTree_crash hc
              exact .inr ⟨v, ⟨path, doc, json, hd, hj, hv⟩, hn⟩
        · cases hx
          obtain ⟨rfl, v, hv, hn⟩ := exportsTree_crash hc
          exact .inl ⟨v, ⟨path, doc, json, hd, hj, hv⟩, hn⟩

theorem parse_sat (hG : ∀ o, FileOp A h.ser o → G o) (hC : ∀ c, ParseCrash A c → C c)
    (hdbg : h.debug = true → C (.panic .dbgReparse)) (dir path : Str) :
    (parseDescription h dir path).Sat A G R C (fun r =>
      (∀ err, r = .error err → err.fromLoad = true) ∧ ∀ p, r = .ok p → Parsed R A h dir path p) := by
  have key : ((readToString path).bind fun
      | .error _ => .ret (.error (.openFailed path))
      | .ok doc => lift (parseContents h dir path doc)).Sat A G R C (fun r =>
      (∀ err, r = .error err → err.fromLoad = true) ∧ ∀ p, r = .ok p → Parsed R A h dir path p) := by
    refine Sat.bind (readToString_sat path fun m h1 h2 => hG _ ⟨h1, h2⟩) fun r hr => ?_
    cases r with
    | error err => exact ⟨fun _ h => (by cases h; rfl), fun p h => by cases h⟩
    | ok doc => exact contents_sat hG hC dir path (hr _ rfl)
  unfold parseDescription dbgGuard
  split
  · rename_i hd
    refine ⟨hG _ trivial, fun r _ => ?_⟩
    cases r with
    | true => exact hdbg hd
    | false => exact ⟨hG _ trivial, fun _ _ => key⟩
  · exact key

theorem findUp_sat (file : Str) (n : Nat) (dir : Str) :
    (findUp file n dir).Sat A G R C (fun r => ∀ d, r = some d →
      Above d dir ∧ (d = dir ∨ d.length < dir.length) ∧ A (.isFile (pjoin d file)) true) := by
  induction n generalizing dir with
  | zero => intro d h; cases h
  | succ n ih =>
    rw [findUp]
    refine sat_isFile fun b hb => ?_
    cases b with
    | true => intro d h; cases h; exact ⟨.refl _, .inl rfl, hb⟩
    | false =>
      cases hp : pparent dir with
      | none => intro d h; cases h
      | some q =>
        refine (ih q).mono fun r hr d h => ?_
        obtain ⟨h1, h2, h3⟩ := hr d h
        have := pparent_length hp
        exact ⟨h1.trans (.parent hp), .inr (h2.elim (fun h => h ▸ this) fun h => by omega), h3⟩

theorem cacheNone_sat (hG : ∀ d, A (.isDir d) true → G (.putPkg d none)) (hC : C .hang)
    (n : Nat) (path : Str) : (cacheNone n path).Sat A G R C (fun r => r = .ok none) := by
  induction n generalizing path with
  | zero => exact hC
  | succ n ih =>
    rw [cacheNone]
    refine sat_isDir fun b hb => ?_
    cases b with
    | true =>
      refine ⟨hG _ hb, fun _ _ => ?_⟩
      dsimp only
      split
      · exact ih _
      · rfl
    | false => exact ih _

/-- What the loader returns, for any demand `Q` on stored packages. -/
theorem loadAux_sat (hG : ∀ o, FileOp A h.ser o → G o)
    (hC : ∀ c, ParseCrash A c → C c) (hdbg : h.debug = true → C (.panic .dbgReparse))
    (hfuel : C .fuel) (T : Str → Prop) (hT : ∀ p q, T p → Above q p → T q)
    (hloop : ∀ path, T path → A (.isDir path) true →
      (cacheNone (path.length + 1 + h.spin) path).Sat A G R C fun r => r = .ok none)
    (Q : Str → Pkg → Prop)
    (hput : ∀ desc d p, h.opts.descriptionFile = some desc → A (.isDir d) true →
      Parsed R A h d (pjoin d desc) p → Q d p ∧ G (.putPkg d (some p)))
    (hget : ∀ d p, A (.isDir d) true → R (.getPkg d) (some (some p)) → Q d p)
    (n : Nat) (path : Str) (htop : T path) :
    (loadPkgAux h n path).Sat A G R C (fun r =>
      (∀ p, r = .ok (some p) → ∃ d, Above d path ∧ A (.isDir d) true ∧ Q d p) ∧
      ∀ err, r = .error err → err.fromLoad = true) := by
  induction n generalizing path with
  | zero => exact hfuel
  | succ n ih =>
    rw [loadPkgAux]
    split
    · exact ⟨nofun, fun _ h => by cases h⟩
    · rename_i desc hdesc
      refine sat_isDir fun b hb => ?_
      cases b with
      | false =>
        cases hd : pparent path with
        | some dir =>
          refine (ih dir (hT _ _ htop (.parent hd))).mono fun r hr => ⟨fun p h => ?_, hr.2⟩
          obtain ⟨d, h1, h2⟩ := hr.1 p h
          exact ⟨d, h1.trans (.parent hd), h2⟩
        | none => exact ⟨nofun, fun _ h => by cases h; rfl⟩
      | true =>
        have hps : (parseAndStore h path (pjoin path desc)).Sat A G R C (fun r =>
            (∀ p, r = .ok (some p) → ∃ d, Above d path ∧ A (.isDir d) true ∧ Q d p) ∧
            ∀ err, r = .error err → err.fromLoad = true) := by
          unfold parseAndStore
          refine Sat.bind (parse_sat hG hC hdbg path (pjoin path desc)) fun r hr => ?_
          cases r with
          | error err => exact ⟨nofun, fun _ h => by cases h; exact hr.1 _ rfl⟩
          | ok pkg =>
            obtain ⟨h1, h2⟩ := hput desc path pkg hdesc hb (hr.2 _ rfl)
            refine ⟨h2, fun _ _ => ⟨fun p h => ?_, fun _ h => by cases h⟩⟩
            cases h
            exact ⟨path, .refl _, hb, h1⟩
        refine ⟨hG _ trivial, fun r hr => ?_⟩
        cases r with
        | some cached =>
          refine Sat.bind (needUpdate_sat (fun _ => hG _ trivial) _) fun u hu => ?_
          rcases u with e | (_ | _)
          · exact fun _ _ => ⟨nofun, fun _ h => by cases h; exact hu.1 _ rfl⟩
          · refine fun _ _ => ⟨fun p h => ?_, fun _ h => by cases h⟩
            cases h
            exact ⟨path, .refl _, hb, hget _ _ hb hr⟩
          · dsimp only
            split
            · exact ⟨hG _ trivial, fun _ _ _ _ => hps⟩
            · exact fun _ _ => hps
        | none =>
          refine sat_isFile fun b _ => ?_
          cases b with
          | false =>
            refine Sat.bind (findUp_sat desc _ path) fun r hr => ?_
            cases r with
            | some dir =>
              refine (ih dir (hT _ _ htop (hr dir rfl).1)).mono fun r hr' => ⟨fun p h => ?_, hr'.2⟩
              obtain ⟨d, h1, h2⟩ := hr'.1 p h
              exact ⟨d, h1.trans (hr dir rfl).1, h2⟩
            | none =>
              refine (hloop path htop hb).mono fun r hr => ?_
              subst hr
              exact ⟨nofun, fun _ h => by cases h⟩
          | true => exact hps

/-- Nothing is asked of the cache. -/
theorem load_all (path : Str) :
    (loadPkg h path).Sat A (fun _ => True) (fun _ _ => True) (fun _ => True)
      (fun r => ∀ err, r = .error err → err.fromLoad = true) :=
  (loadAux_sat (fun _ _ => trivial) (fun _ _ => trivial) (fun _ => trivial) trivial
    (fun _ => True) (fun _ _ _ _ => trivial) (fun _ _ _ => cacheNone_sat (fun _ _ => trivial) trivial _ _) (fun _ _ => True) (fun _ _ _ _ _ _ => ⟨trivial, trivial⟩) (fun _ _ _ _ => trivial) _
    path trivial).mono fun _ h => h.2

end
end Verif.Live
