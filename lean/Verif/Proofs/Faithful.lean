import Verif.Proofs.Rel
/-!
# Caches on a file system that does not change
-/

namespace Verif

/-! ## The closest description file -/

theorem upward_fuel {n m : Nat} {p : Str} (hn : p.length < n) (hm : p.length < m) :
    upward n p = upward m p := by
  induction n generalizing m p with
  | zero => omega
  | succ n ih =>
    cases m with
    | zero => omega
    | succ m =>
      unfold upward
      cases hp : pparent p with
      | none => rfl
      | some q =>
        have := pparent_length hp
        simp only
        rw [ih (m := m) (p := q) (by omega) (by omega)]

theorem closest_step (fs : Fs) (desc p : Str) :
    closest fs desc p =
      if fs.isDir p = true ∧ fs.isFile (pjoin p desc) = true then some p
      else match pparent p with
        | some q => closest fs desc q
        | none => none := by
  have e : upward (p.length + 1) p = p :: match pparent p with
      | some q => upward (q.length + 1) q
      | none => [] := by
    rw [upward]
    cases hp : pparent p with
    | none => rfl
    | some q =>
      simp only
      rw [upward_fuel (n := p.length) (m := q.length + 1) (pparent_length hp) (by omega)]
  unfold closest
  rw [e, List.find?_cons]
  cases h : fs.isDir p && fs.isFile (pjoin p desc) with
  | true =>
    rw [if_pos (by simpa using h)]
  | false =>
    rw [if_neg (by rw [← Bool.and_eq_true, h]; simp)]
    cases pparent p <;> rfl

variable {fs : Fs} {desc : Str}

theorem closest_comps (hfs : fs.Lawful) {p q : Str} (ha : isAbs p = true) (h : comps p = comps q) :
    (closest fs desc p = none ∧ closest fs desc q = none) ∨
      ∃ d d', closest fs desc p = some d ∧ closest fs desc q = some d' ∧ comps d = comps d' ∧
        isAbs d = true ∧ fs.isDir d = true ∧ fs.isFile (pjoin d desc) = true := by
  induction hn : p.length using Nat.strongRecOn generalizing p q with
  | ind n ih =>
    subst hn
    rw [closest_step fs desc p, closest_step fs desc q, hfs.dir p q ha h,
      hfs.file _ _ (isAbs_pjoin_left desc ha) (sim_pjoin ha h desc)]
    split
    · rename_i hc
      right
      exact ⟨p, q, rfl, rfl, h, ha, by rw [hfs.dir p q ha h]; exact hc.1,
        by rw [hfs.file _ _ (isAbs_pjoin_left desc ha) (sim_pjoin ha h desc)]; exact hc.2⟩
    · rcases sim_pparent ha h with ⟨h1, h2⟩ | ⟨p', q', h1, h2, h3, h4⟩
      · rw [h1, h2]; exact .inl ⟨rfl, rfl⟩
      · rw [h1, h2]
        exact ih _ (pparent_length h1) h4 h3.1 rfl

theorem findUp_closest (hfs : fs.Lawful) {n : Nat} {p : Str} (hn : p.length < n)
    (ha : isAbs p = true) (hd : fs.isDir p = true) : findUp fs desc n p = closest fs desc p := by
  induction n generalizing p with
  | zero => omega
  | succ n ih =>
    rw [closest_step]
    unfold findUp
    cases hf : fs.isFile (pjoin p desc) with
    | true => simp [hd]
    | false =>
      simp only [Bool.false_eq_true, if_false, and_false]
      cases hp : pparent p with
      | none => rfl
      | some q =>
        have := pparent_length hp
        exact ih (by omega) (by rw [isAbs_pparent hp, ha]) (hfs.parent p q ha hp hd)

/-! ## What the caches hold -/

/-- A package as read from the description file of the directory `key`; the order of the
`browser` entries is open. -/
def PkgFrom (fs : Fs) (desc : Str) (key : List Comp) (p : Pkg) : Prop :=
  ∃ d p' seed, comps d = key ∧ isAbs d = true ∧ fs.isDir d = true ∧
    fs.isFile (pjoin d desc) = true ∧ (readPkg fs d (pjoin d desc)).Returns (.ok p') ∧
    p = { p' with aliasFields := permute seed p'.aliasFields }

/-- What the package cache may hold for a directory. -/
def FaithPkg (fs : Fs) (desc : Str) (key : List Comp) : Option Pkg → Prop
  | some p => PkgFrom fs desc key p
  | none => ∀ d, isAbs d = true → comps d = key → closest fs desc d = none

/-- What the cache of trees may hold. -/
def TreeOk (fs : Fs) (ser : Json → Str) (key : Str) (t : Node) : Prop :=
  ∃ v, key = ser v ∧ (IsField fs cs!"exports" v ∧ buildTree .exports v = some (.ok t) ∨
    IsField fs cs!"imports" v ∧ buildTree .imports v = some (.ok t))

/-- What the file cache may hold. -/
def MtimeOk (fs : Fs) (desc : Str) (key : List Comp) (m : Nat) : Prop :=
  ∀ d, isAbs d = true → comps (pjoin d desc) = key → fs.mtime (pjoin d desc) = some m

/-- Operations that keep the caches faithful. -/
def FG (fs : Fs) (desc : Str) (ser : Json → Str) : Op → Prop
  | .putPkg d v => FaithPkg fs desc (comps d) v
  | .putExports k t => TreeOk fs ser k t
  | .putFile p m => MtimeOk fs desc (comps p) m
  | _ => True

/-- Answers of faithful caches. -/
def FR (fs : Fs) (desc : Str) (ser : Json → Str) : (o : Op) → o.Ret → Prop
  | .getPkg d, r => ∀ v, r = some v → FaithPkg fs desc (comps d) v
  | .getExports k, r => ∀ t, r = some t → TreeOk fs ser k t
  | .getImports _, r => r = none
  | .getFile p, r => ∀ m, r = some m → MtimeOk fs desc (comps p) m
  | _, _ => True

/-! ## Reading -/

theorem Prog.Rel.returns {α β : Type} {G : Op → Prop} {R : (o : Op) → o.Ret → Prop}
    {Q : α → β → Prop} {p : Prog α} {q : Prog β} (h : p.Rel G R Q q) :
    p.Rel G R (fun a b => Q a b ∧ q.Returns b) q := by
  induction h with
  | ret h => exact .ret ⟨h, .ret _⟩
  | crash c => exact .crash c
  | left hg _ ih => exact .left hg ih
  | both hg _ ih => exact .both hg fun r hr => (ih r hr).mono fun a b ⟨h1, h2⟩ => ⟨h1, .op r h2⟩

theorem readPkg_cases (fs : Fs) (d file : Str) :
    (∃ a, readPkg fs d file = .ret a) ∨ ∃ s, readPkg fs d file = .crash s := by
  unfold readPkg withTree
  simp only
  repeat' split
  all_goals first
    | exact .inl ⟨_, rfl⟩
    | exact .inr ⟨_, rfl⟩

theorem readPkg_returns {d file : Str} {a : Except Err Pkg} (h : (readPkg fs d file).Returns a) :
    readPkg fs d file = .ret a := by
  rcases readPkg_cases fs d file with ⟨b, hb⟩ | ⟨s, hs⟩
  · rw [hb] at h ⊢; cases h; rfl
  · rw [hs] at h; cases h

/-- Reading the same description file under two names. -/
def ReadRel (d : Str) : Except Err Pkg → Except Err Pkg → Prop
  | .ok p, .ok q => p = { q with absDir := d }
  | .error e, .error e' => ErrSim e e'
  | _, _ => False

theorem sideEffectsLoop_comps (p q : Str) (l : List Json) :
    sideEffectsLoop p l = sideEffectsLoop q l ∨
      ∃ v, sideEffectsLoop p l = .error (.sideEffects p v) ∧
        sideEffectsLoop q l = .error (.sideEffects q v) := by
  induction l with
  | nil => exact .inl rfl
  | cons v l ih =>
    unfold sideEffectsLoop
    cases v.asStr with
    | none => exact .inr ⟨v, rfl, rfl⟩
    | some s =>
      simp only
      rcases ih with ih | ⟨w, h1, h2⟩
      · rw [ih]; exact .inl rfl
      · rw [h1, h2]; exact .inr ⟨w, rfl, rfl⟩

theorem parseSideEffects_comps (p q : Str) (json : Json) :
    parseSideEffects p json = parseSideEffects q json ∨
      ∃ v, parseSideEffects p json = .error (.sideEffects p v) ∧
        parseSideEffects q json = .error (.sideEffects q v) := by
  unfold parseSideEffects
  cases json.get cs!"sideEffects" with
  | none => exact .inl rfl
  | some v =>
    simp only
    cases v.asBool with
    | some b => exact .inl rfl
    | none =>
      simp only
      cases v.asArr with
      | none => exact .inr ⟨v, rfl, rfl⟩
      | some l =>
        simp only
        rcases sideEffectsLoop_comps p q l with h | ⟨w, h1, h2⟩
        · rw [h]; exact .inl rfl
        · rw [h1, h2]; exact .inr ⟨w, rfl, rfl⟩

theorem readPkg_comps {G : Op → Prop} {R : (o : Op) → o.Ret → Prop} (hfs : fs.Lawful) {d d' : Str}
    (ha : isAbs d = true) (h : comps d = comps d') :
    (readPkg fs d (pjoin d desc)).Rel G R (ReadRel d) (readPkg fs d' (pjoin d' desc)) := by
  have hs := sim_pjoin ha h desc
  have hja := isAbs_pjoin_left desc ha
  unfold readPkg withTree
  rw [← hfs.read _ _ hja hs, ← hfs.mtime _ _ hja hs]
  simp only
  split
  · split
    · exact .ret (.parseFailed hs.1)
    · rename_i json _
      split
      · exact .panic _
      · have hlast : ∀ et it fields,
            Prog.Rel G R (ReadRel d)
              (match parseSideEffects (pjoin d desc) json with
              | .error err => .ret (.error err)
              | .ok se => .ret (.ok (⟨d, (json.get cs!"name").bind Json.asStr,
                  (json.get cs!"version").bind Json.asStr, fields, et, it, se, json⟩ : Pkg)))
              (match parseSideEffects (pjoin d' desc) json with
              | .error err => .ret (.error err)
              | .ok se => .ret (.ok ⟨d', (json.get cs!"name").bind Json.asStr,
                  (json.get cs!"version").bind Json.asStr, fields, et, it, se, json⟩)) := by
          intro et it fields
          rcases parseSideEffects_comps (pjoin d desc) (pjoin d' desc) json with he | ⟨v, h1, h2⟩
          · rw [he]
            split
            · exact .ret (.refl _)
            · exact .ret rfl
          · rw [h1, h2]
            exact .ret (.sideEffects v hs.1)
        split
        · split
          · exact hlast _ _ _
          · split
            · exact .panic _
            · exact .ret (.refl _)
            · exact hlast _ _ _
        · split
          · exact .panic _
          · exact .ret (.refl _)
          · split
            · exact hlast _ _ _
            · split
              · exact .panic _
              · exact .ret (.refl _)
              · exact hlast _ _ _
  · exact .ret (.openFailed hs.1)

/-- A parsed package and the package without caches. -/
def ParseRel : Except Err Pkg → Except Err Pkg → Prop
  | .ok p, .ok q => ∃ seed, p = { q with aliasFields := permute seed q.aliasFields }
  | .error e, .error e' => e = e'
  | _, _ => False

theorem mtimeOk_pjoin (hfs : fs.Lawful) {d : Str} (ha : isAbs d = true) {m : Nat}
    (hm : fs.mtime (pjoin d desc) = some m) : MtimeOk fs desc (comps (pjoin d desc)) m := by
  intro d' ha' hc
  rw [hfs.mtime _ (pjoin d desc) (isAbs_pjoin_left desc ha') ⟨hc, ?_⟩, hm]
  cases ht : isAbs desc with
  | true => rw [pjoin_abs ht, pjoin_abs ht]
  | false => rw [lastSeg_pjoin (abs_ne_nil ha') ht, lastSeg_pjoin (abs_ne_nil ha) ht]

/-- Conditions on a resolver under which its caches are faithful. -/
structure Env.Faith (e : Env) : Prop where
  fs : e.fs.Lawful
  debug : e.debug = false
  ser : ∀ v w, e.ser v = e.ser w → v = w
  mix : NoMix e.fs

/-- What reading a description file does: it may store the time and trees, and finds trees. -/
structure ReadOps (G : Op → Prop) (R : (o : Op) → o.Ret → Prop) (e : Env) (file : Str) : Prop where
  debug : e.debug = false
  seed : G .seed
  put : ∀ m, e.fs.mtime file = some m → G (.putFile file m)
  getE : ∀ k, G (.getExports k)
  getI : ∀ k, G (.getImports k)
  tree : ∀ v t, IsField e.fs cs!"exports" v → R (.getExports (e.ser v)) (some t) →
    buildTree .exports v = some (.ok t)
  noTree : ∀ k r, R (.getImports k) r → r = none
  putE : ∀ v t, IsField e.fs cs!"exports" v ∧ buildTree .exports v = some (.ok t) ∨
    IsField e.fs cs!"imports" v ∧ buildTree .imports v = some (.ok t) →
    G (.putExports (e.ser v) t)

section
variable {e : Env} {G : Op → Prop} {R : (o : Op) → o.Ret → Prop}

theorem exportsTreeOf_rel {file : Str} (ho : ReadOps G R e file) {json : Json} {doc : Doc}
    (hr : e.fs.read file = some doc) (hj : doc.json = some json)
    {Q : Except Err Pkg → Except Err Pkg → Prop} (hQ : ∀ err, Q (.error err) (.error err))
    {k : Option Node → Prog (Except Err Pkg)} {k' : Option Node → Prog (Except Err Pkg)}
    (hk : ∀ t, (k t).Rel G R Q (k' t)) :
    ((exportsTreeOf e json).bind fun
      | .error err => .ret (.error err)
      | .ok t => k t).Rel G R Q
    (withTree .exports (json.get cs!"exports") k') := by
  unfold exportsTreeOf withTree
  cases hv : json.get cs!"exports" with
  | none => exact hk none
  | some v =>
    have hf : IsField e.fs cs!"exports" v := ⟨_, _, _, hr, hj, hv⟩
    refine .left (ho.getE _) fun r hr => ?_
    cases r with
    | some t =>
      have hb : buildTree .exports v = some (.ok t) := ho.tree v t hf hr
      simp only [hb]
      exact hk _
    | none =>
      cases hb : buildTree .exports v with
      | none => simp only [hb]; exact .panic _
      | some x =>
        cases x with
        | error err => simp only [hb]; exact .ret (hQ err)
        | ok t =>
          simp only [hb]
          exact .left (ho.putE v t (.inl ⟨hf, hb⟩)) fun _ _ => hk _

theorem importsTreeOf_rel {file : Str} (ho : ReadOps G R e file) {json : Json} {doc : Doc}
    (hr : e.fs.read file = some doc) (hj : doc.json = some json)
    {Q : Except Err Pkg → Except Err Pkg → Prop} (hQ : ∀ err, Q (.error err) (.error err))
    {k : Option Node → Prog (Except Err Pkg)} {k' : Option Node → Prog (Except Err Pkg)}
    (hk : ∀ t, (k t).Rel G R Q (k' t)) :
    ((importsTreeOf e json).bind fun
      | .error err => .ret (.error err)
      | .ok t => k t).Rel G R Q
    (withTree .imports (json.get cs!"imports") k') := by
  unfold importsTreeOf withTree
  cases hv : json.get cs!"imports" with
  | none => exact hk none
  | some v =>
    have hf : IsField e.fs cs!"imports" v := ⟨_, _, _, hr, hj, hv⟩
    refine .left (ho.getI _) fun r hr => ?_
    obtain rfl : r = none := ho.noTree _ r hr
    cases hb : buildTree .imports v with
    | none => simp only [hb]; exact .panic _
    | some x =>
      cases x with
      | error err => simp only [hb]; exact .ret (hQ err)
      | ok t =>
        simp only [hb]
        exact .left (ho.putE v t (.inr ⟨hf, hb⟩)) fun _ _ => hk _

theorem parseDescription_rel {file : Str} (ho : ReadOps G R e file) (d : Str) :
    (parseDescription e d file).Rel G R ParseRel (readPkg e.fs d file) := by
  unfold parseDescription dbgGuard readPkg readToString
  simp only [ho.debug, Bool.false_eq_true, if_false]
  cases hr : e.fs.read file with
  | none => exact .ret rfl
  | some doc =>
    cases hm : e.fs.mtime file with
    | none => exact .ret rfl
    | some m =>
      refine .left (ho.put m hm) fun _ _ => ?_
      simp only [Prog.bind]
      cases hj : doc.json with
      | none => exact .ret rfl
      | some json =>
        refine .left ho.seed fun seed _ => ?_
        simp only
        cases hb : browserFields json with
        | none => exact .panic _
        | some fields =>
          simp only
          refine exportsTreeOf_rel (Q := ParseRel) ho hr hj (fun _ => rfl) fun et => ?_
          refine importsTreeOf_rel (Q := ParseRel) ho hr hj (fun _ => rfl) fun it => ?_
          cases parseSideEffects file json with
          | error err => exact .ret rfl
          | ok se => exact .ret ⟨seed, rfl⟩

theorem Env.Faith.readOps (he : e.Faith) {d : Str} (ha : isAbs d = true) :
    ReadOps (FG e.fs desc e.ser) (FR e.fs desc e.ser) e (pjoin d desc) where
  debug := he.debug
  seed := trivial
  put m hm := mtimeOk_pjoin he.fs ha hm
  getE _ := trivial
  getI _ := trivial
  tree v t hf hr := by
    obtain ⟨w, hw, h⟩ := hr t rfl
    obtain rfl := he.ser _ _ hw
    rcases h with ⟨_, h⟩ | ⟨h1, h2⟩
    · exact h
    · exact he.mix _ _ hf h1 h2
  noTree k r hr := hr
  putE v t h := ⟨v, rfl, h⟩

end

section
variable {e : Env}

/-! ## Looking for the package -/

theorem readPkg_dir {d file : Str} {p : Pkg} (h : readPkg fs d file = .ret (.ok p)) :
    p.absDir = d := by
  unfold readPkg withTree at h
  simp only at h
  repeat' split at h
  all_goals first
    | cases h; rfl
    | cases h

theorem ErrSim.symm {a b : Err} (h : ErrSim a b) : ErrSim b a := by
  cases h with
  | refl => exact .refl _
  | failed r h => exact .failed r h.symm
  | openFailed h => exact .openFailed h.symm
  | parseFailed h => exact .parseFailed h.symm
  | sideEffects r h => exact .sideEffects r h.symm
  | tsParseFailed r h => exact .tsParseFailed r h.symm
  | extendsIgnored r h => exact .extendsIgnored r h.symm

theorem ErrSim.trans {a b c : Err} (h : ErrSim a b) (h' : ErrSim b c) : ErrSim a c := by
  cases h with
  | refl => exact h'
  | failed r h => cases h' with
    | refl => exact .failed r h
    | failed _ h' => exact .failed r (h.trans h')
  | openFailed h => cases h' with
    | refl => exact .openFailed h
    | openFailed h' => exact .openFailed (h.trans h')
  | parseFailed h => cases h' with
    | refl => exact .parseFailed h
    | parseFailed h' => exact .parseFailed (h.trans h')
  | sideEffects r h => cases h' with
    | refl => exact .sideEffects r h
    | sideEffects _ h' => exact .sideEffects r (h.trans h')
  | tsParseFailed r h => cases h' with
    | refl => exact .tsParseFailed r h
    | tsParseFailed _ h' => exact .tsParseFailed r (h.trans h')
  | extendsIgnored r h => cases h' with
    | refl => exact .extendsIgnored r h
    | extendsIgnored _ h' => exact .extendsIgnored r (h.trans h')

/-- What is found when the closest description file is at `d'`. -/
theorem findPkg_here {q d : Str} (h : closest fs desc q = some d) :
    findPkg fs (some desc) q = (readPkg fs d (pjoin d desc)).bind fun
      | .error err => .ret (.error err)
      | .ok pkg => .ret (.ok (some pkg)) := by
  unfold findPkg; simp only [h]; rfl

theorem findPkg_none {q : Str} (h : closest fs desc q = none) :
    findPkg fs (some desc) q = .ret (.ok none) := by
  unfold findPkg; simp only [h]

theorem findPkg_closest {p q : Str} (h : closest fs desc p = closest fs desc q) :
    findPkg fs (some desc) p = findPkg fs (some desc) q := by
  unfold findPkg; simp only [h]

theorem parseAndStore_rel (he : e.Faith) {d d' : Str} (ha : isAbs d = true)
    (hc : comps d = comps d') (hd : e.fs.isDir d = true) (hf : e.fs.isFile (pjoin d desc) = true) :
    (parseAndStore e d (pjoin d desc)).Rel (FG e.fs desc e.ser) (FR e.fs desc e.ser)
      (SameLoad e.fs) ((readPkg e.fs d' (pjoin d' desc)).bind fun
        | .error err => .ret (.error err)
        | .ok pkg => .ret (.ok (some pkg))) := by
  have h1 := (parseDescription_rel (he.readOps (desc := desc) ha) d).returns
  have h2 := readPkg_comps (desc := desc) (G := FG e.fs desc e.ser) (R := FR e.fs desc e.ser) he.fs ha hc
  unfold parseAndStore
  rcases readPkg_cases e.fs d (pjoin d desc) with ⟨a, ha'⟩ | ⟨s, hs⟩
  · rw [ha'] at h2
    cases h2' : readPkg e.fs d' (pjoin d' desc) with
    | crash s => rw [h2'] at h2; cases h2
    | op o k => rw [h2'] at h2; cases h2
    | ret b =>
      rw [h2'] at h2
      have hab : ReadRel d a b := by cases h2; assumption
      rw [ha'] at h1
      have := Prog.Rel.bind (Q' := SameLoad e.fs) (g := fun x => match (b : Except Err Pkg) with
        | .error err => .ret (.error err)
        | .ok pkg => .ret (.ok (some pkg))) (f := fun
          | .error err => .ret (.error err)
          | .ok pkg => .op (.putPkg d (some pkg)) fun _ => .ret (.ok (some pkg))) h1 ?_
      · exact this
      · rintro x y ⟨hxy, hy⟩
        cases hy
        cases x with
        | error err =>
          cases a with
          | ok _ => cases hxy
          | error err' =>
            cases b with
            | ok _ => cases hab
            | error err'' =>
              obtain rfl : err = err' := hxy
              exact .ret hab
        | ok x =>
          cases a with
          | error _ => cases hxy
          | ok y =>
            cases b with
            | error _ => cases hab
            | ok b =>
              obtain ⟨seed, rfl⟩ := hxy
              have hb : y = { b with absDir := d } := hab
              have hbd := readPkg_dir h2'
              refine .left ⟨d, y, seed, rfl, ha, hd, hf, by rw [ha']; exact .ret _, rfl⟩ fun _ _ => ?_
              refine .ret ⟨?_, ?_, ?_, seed, ?_⟩
              · show comps y.absDir = _
                rw [hb, hbd]; exact hc
              · show isAbs y.absDir = _
                rw [hb]; exact ha
              · show e.fs.isDir y.absDir = _
                rw [hb]; exact hd
              · rw [hb]
  · rw [hs] at h1 h2
    cases h2' : readPkg e.fs d' (pjoin d' desc) with
    | ret b => rw [h2'] at h2; cases h2
    | op o k => rw [h2'] at h2; cases h2
    | crash s' =>
      rw [h2'] at h2
      obtain rfl : s = s' := by cases h2; rfl
      exact Prog.Rel.bind (Q' := SameLoad e.fs) (g := fun
        | .error err => .ret (.error err)
        | .ok pkg => .ret (.ok (some pkg))) h1 (by rintro x y ⟨-, hy⟩; cases hy)

/-- Storing that there is none. -/
theorem cacheNone_rel (he : e.Faith) {n : Nat} {p : Str} (hn : p.length < n) (ha : isAbs p = true)
    (hd : e.fs.isDir p = true) (h : closest e.fs desc p = none) :
    (cacheNone e.fs n p).Rel (FG e.fs desc e.ser) (FR e.fs desc e.ser)
      (SameLoad e.fs) (.ret (.ok none)) := by
  induction n generalizing p with
  | zero => omega
  | succ n ih =>
    unfold cacheNone
    rw [if_pos hd]
    refine .left ?_ fun _ _ => ?_
    · intro d had hc
      rcases closest_comps (desc := desc) he.fs ha hc.symm with ⟨-, h2⟩ | ⟨x, y, h1, -⟩
      · exact h2
      · rw [h] at h1; cases h1
    · rw [closest_step] at h
      split at h
      · cases h
      · cases hp : pparent p with
        | none => exact .ret trivial
        | some q =>
          rw [hp] at h
          have := pparent_length hp
          exact ih (by omega) (by rw [isAbs_pparent hp, ha]) (he.fs.parent p q ha hp hd) h

theorem closest_length {p d : Str} (h : closest fs desc p = some d) :
    (d = p ∨ d.length < p.length) ∧ fs.isDir d = true ∧ fs.isFile (pjoin d desc) = true := by
  induction hn : p.length using Nat.strongRecOn generalizing p with
  | ind n ih =>
    subst hn
    rw [closest_step] at h
    split at h
    · rename_i hc
      cases h
      exact ⟨.inl rfl, hc⟩
    · cases hp : pparent p with
      | none => rw [hp] at h; cases h
      | some q =>
        rw [hp] at h
        have hl := pparent_length hp
        obtain ⟨h1, h2⟩ := ih _ hl h rfl
        refine ⟨.inr ?_, h2⟩
        rcases h1 with rfl | h1
        · exact hl
        · omega

theorem loadPkgAux_rel (he : e.Faith) (hdesc : e.opts.descriptionFile = some desc) {n : Nat}
    {p q : Str} (hn : p.length < n) (ha : isAbs p = true) (h : comps p = comps q) :
    (loadPkgAux e n p).Rel (FG e.fs desc e.ser) (FR e.fs desc e.ser)
      (SameLoad e.fs) (findPkg e.fs (some desc) q) := by
  induction n generalizing p q with
  | zero => omega
  | succ n ih =>
    unfold loadPkgAux
    rw [hdesc]
    simp only
    have hdq := he.fs.dir p q ha h
    have hfq := he.fs.file _ _ (isAbs_pjoin_left desc ha) (sim_pjoin ha h desc)
    cases hd : e.fs.isDir p with
    | false =>
      simp only [Bool.not_false, if_true]
      rw [hd] at hdq
      rcases sim_pparent ha h with ⟨h1, h2⟩ | ⟨p', q', h1, h2, h3, h4⟩
      · exfalso
        -- the root is a directory
        have : comps p = comps cs!"/" := by
          rcases (pparent_eq_none p).1 h1 with h | h
          · rw [comps_eq_root ha] at h; cases h
          · rw [h]; rfl
        rw [he.fs.dir p _ ha this, he.fs.root] at hd
        cases hd
      · rw [h1]
        have hcl : closest e.fs desc q = closest e.fs desc q' := by
          rw [closest_step, if_neg (by rw [← hdq]; simp), h2]
        have hl := pparent_length h1
        have := ih (p := p') (q := q') (by omega) h4 h3.1
        rw [findPkg_closest hcl]
        exact this
    | true =>
      simp only [Bool.not_true, Bool.false_eq_true, if_false]
      rw [hd] at hdq
      have here : e.fs.isFile (pjoin p desc) = true → closest e.fs desc q = some q := by
        intro hf
        rw [closest_step, if_pos ⟨hdq.symm, by rw [← hfq]; exact hf⟩]
      refine .left trivial fun r hr => ?_
      cases r with
      | none =>
        simp only
        cases hf : e.fs.isFile (pjoin p desc) with
        | true =>
          simp only [Bool.not_true, Bool.false_eq_true, if_false]
          rw [findPkg_here (here hf)]
          exact parseAndStore_rel he ha h hd hf
        | false =>
          simp only [Bool.not_false, if_true]
          rw [findUp_closest he.fs (by omega) ha hd]
          rcases closest_comps (desc := desc) he.fs ha h with ⟨h1, h2⟩ | ⟨d, d', h1, h2, h3, h4, h5, h6⟩
          · rw [h1]
            rw [findPkg_none h2]
            exact cacheNone_rel he (by omega) ha hd h1
          · rw [h1]
            obtain ⟨hl, -, hf'⟩ := closest_length h1
            have hl' : d.length < p.length := by
              rcases hl with rfl | hl
              · rw [hf] at hf'; cases hf'
              · exact hl
            have := ih (p := d) (q := d') (by omega) h4 h3
            have e1 : closest e.fs desc d' = some d' := by
              rw [closest_step, if_pos]
              exact (closest_length h2).2
            rw [findPkg_closest (h2.trans e1.symm)]
            exact this
      | some cached =>
        simp only
        have hfa := hr cached rfl
        have hsame : Prog.Rel (FG e.fs desc e.ser) (FR e.fs desc e.ser) (SameLoad e.fs)
              (.ret (.ok cached)) (findPkg e.fs (some desc) q) := by
          cases cached with
          | none =>
            have : closest e.fs desc q = none :=
              hfa q (by rw [← isAbs_of_comps h]; exact ha) h.symm
            rw [findPkg_none this]
            exact .ret trivial
          | some pk =>
            obtain ⟨d, p', seed, hdc, had, hdd, hdf, hdr, rfl⟩ := hfa
            have hf : e.fs.isFile (pjoin p desc) = true := by
              rw [← he.fs.file _ _ (isAbs_pjoin_left desc had) (sim_pjoin had hdc desc)]; exact hdf
            rw [findPkg_here (here hf)]
            have h2 := readPkg_comps (desc := desc) (G := FG e.fs desc e.ser)
              (R := FR e.fs desc e.ser) he.fs had (hdc.trans h)
            have hr' := readPkg_returns hdr
            rw [hr'] at h2
            cases h2' : readPkg e.fs q (pjoin q desc) with
            | crash s => rw [h2'] at h2; cases h2
            | op o k => rw [h2'] at h2; cases h2
            | ret b =>
              rw [h2'] at h2
              have hab : ReadRel d (.ok p') b := by cases h2; assumption
              cases b with
              | error _ => cases hab
              | ok b =>
                have hb : p' = { b with absDir := d } := hab
                have hbd := readPkg_dir h2'
                refine .ret ⟨?_, ?_, ?_, seed, ?_⟩
                · show comps p'.absDir = _
                  rw [hb, hbd]; exact hdc.trans h
                · show isAbs p'.absDir = _
                  rw [hb]; exact had
                · show e.fs.isDir p'.absDir = _
                  rw [hb]; exact hdd
                · rw [hb]
        unfold needUpdate
        cases hf : e.fs.isFile (pjoin p desc) with
        | false => exact hsame
        | true =>
          simp only [Bool.not_true, Bool.false_eq_true, if_false]
          have hparse := parseAndStore_rel (desc := desc) he ha h hd hf
          rw [← findPkg_here (here hf)] at hparse
          refine .left trivial fun r hr => ?_
          cases r with
          | none =>
            simp only [Prog.bind, he.debug, Bool.false_eq_true, if_false]
            exact hparse
          | some m =>
            simp only
            rw [hr m rfl p ha rfl]
            simp only [Nat.lt_irrefl, if_false, Prog.bind]
            cases decide (m - m ≥ e.duration) with
            | false => exact hsame
            | true =>
              simp only [he.debug, Bool.false_eq_true, if_false]
              exact hparse

end

end Verif
