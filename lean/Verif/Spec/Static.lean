import Verif.Model.Machine
import Verif.Spec.Modules
/-!
# File systems that do not change, and what a call means on them without caches
-/

namespace Verif

/-- The last piece of a path text: empty after a trailing separator. -/
def lastSeg (p : Str) : Option Str := (splitC '/' p).getLast?

/-- Two texts for the same path that also end alike: `/a//b` and `/a/b`, but not `/a/b/`. -/
def Sim (p q : Str) : Prop := comps p = comps q ∧ lastSeg p = lastSeg q

/-- Laws of Unix path lookup, for absolute paths. Repeated separators and `.` do not matter, except
at the end of a path to a file. What is above a directory is a directory. -/
structure Fs.Lawful (fs : Fs) : Prop where
  dir : ∀ p q, isAbs p = true → comps p = comps q → fs.isDir p = fs.isDir q
  file : ∀ p q, isAbs p = true → Sim p q → fs.isFile p = fs.isFile q
  pathExists : ∀ p q, isAbs p = true → Sim p q → fs.pathExists p = fs.pathExists q
  read : ∀ p q, isAbs p = true → Sim p q → fs.read p = fs.read q
  mtime : ∀ p q, isAbs p = true → Sim p q → fs.mtime p = fs.mtime q
  canon : ∀ p q, isAbs p = true → Sim p q → fs.canon p = fs.canon q
  dirNotFile : ∀ p, isAbs p = true → fs.isDir p = true → fs.isFile p = false
  parent : ∀ p q, isAbs p = true → pparent p = some q → fs.isDir p = true → fs.isDir q = true
  root : fs.isDir cs!"/" = true
  dirExists : ∀ p, isAbs p = true → fs.isDir p = true → fs.pathExists p = true

/-- The path and the directories above it, nearest first; at most `n` of them. -/
def upward : Nat → Str → List Str
  | 0, _ => []
  | n + 1, p => p :: match pparent p with
    | some q => upward n q
    | none => []

/-- The closest directory, at the path or above it, that has a description file. -/
def closest (fs : Fs) (desc p : Str) : Option Str :=
  (upward (p.length + 1) p).find? fun d => fs.isDir d && fs.isFile (pjoin d desc)

/-- The tree of a value, if there is one, then the rest. -/
def withTree {α : Type} (k : FieldKind) (v : Option Json)
    (next : Option Node → Prog (Except Err α)) : Prog (Except Err α) :=
  match v with
  | none => next none
  | some v =>
    match buildTree k v with
    | none => .panic .buildTree
    | some (.error err) => .ret (.error err)
    | some (.ok t) => next (some t)

/-- The package in a description file, without caches. The `browser` entries are kept in the order
of the file. -/
def readPkg (fs : Fs) (dir file : Str) : Prog (Except Err Pkg) :=
  match fs.read file, fs.mtime file with
  | some doc, some _ =>
    match doc.json with
    | none => .ret (.error (.parseFailed file))
    | some json =>
      match browserFields json with
      | none => .panic .browserTrue
      | some aliasFields =>
        withTree .exports (json.get cs!"exports") fun et =>
        withTree .imports (json.get cs!"imports") fun it =>
        match parseSideEffects file json with
        | .error err => .ret (.error err)
        | .ok se => .ret (.ok {
            absDir := dir
            name := (json.get cs!"name").bind Json.asStr
            version := (json.get cs!"version").bind Json.asStr
            aliasFields := aliasFields
            exportsTree := et
            importsTree := it
            sideEffects := se
            raw := json })
  | _, _ => .ret (.error (.openFailed file))

/-- The package of a path, without caches: the contents of the closest description file. -/
def findPkg (fs : Fs) (desc : Option Str) (p : Str) : Prog (Except Err (Option Pkg)) :=
  match desc with
  | none => .ret (.ok none)
  | some desc =>
    match closest fs desc p with
    | none => .ret (.ok none)
    | some d => (readPkg fs d (pjoin d desc)).bind fun
      | .error err => .ret (.error err)
      | .ok pkg => .ret (.ok (some pkg))

/-- The resolver without caches. -/
def pureCtx (o : Opts) (fs : Fs) (debug : Bool) : Ctx :=
  ⟨o, fs, debug, findPkg fs o.descriptionFile⟩

/-- The value of a field of a JSON file. -/
def IsField (fs : Fs) (name : Str) (v : Json) : Prop :=
  ∃ p doc json, fs.read p = some doc ∧ doc.json = some json ∧ json.get name = some v

/-- No exports value is also an imports value that means something else as such. -/
def NoMix (fs : Fs) : Prop :=
  ∀ v t, IsField fs cs!"exports" v → IsField fs cs!"imports" v →
    buildTree .imports v = some (.ok t) → buildTree .exports v = some (.ok t)

/-- A key of a `browser` map covers a path: it names the path, or the path with an extension. -/
def Covers (exts : List Str) (dir key x : Str) : Prop :=
  comps (pjoin dir key) = comps x ∨ ∃ ext ∈ exts, comps (pjoin dir key) = comps (x ++ ext)

/-- `browser` maps whose meaning does not depend on their order: no path is covered by two keys. (An
empty target, or `.`, is left out as well.) -/
def BrowserOk (fs : Fs) (desc : Str) (exts : List Str) : Prop :=
  ∀ d doc json fields, isAbs d = true → fs.read (pjoin d desc) = some doc →
    doc.json = some json → browserFields json = some fields →
    (∀ x k v k' v', isAbs x = true → (k, v) ∈ fields → (k', v') ∈ fields →
      Covers exts d k x → Covers exts d k' x → k = k') ∧
    ∀ k t, (k, .target t) ∈ fields → t ≠ [] ∧ t ≠ cs!"."

/-- The JSON value without a field. -/
def Json.without (k : Str) : Json → Json
  | .obj l => .obj (l.filter fun kv => kv.1 ≠ k)
  | j => j

/-- The same error, up to the spelling of the paths in it. -/
inductive ErrSim : Err → Err → Prop where
  | refl (e : Err) : ErrSim e e
  | failed (r : Str) {p q : Str} : comps p = comps q → ErrSim (.failed r p) (.failed r q)
  | openFailed {p q : Str} : comps p = comps q → ErrSim (.openFailed p) (.openFailed q)
  | parseFailed {p q : Str} : comps p = comps q → ErrSim (.parseFailed p) (.parseFailed q)
  | sideEffects (v : Json) {p q : Str} : comps p = comps q →
      ErrSim (.sideEffects p v) (.sideEffects q v)
  | tsParseFailed (m : Str) {p q : Str} : comps p = comps q →
      ErrSim (.tsParseFailed p m) (.tsParseFailed q m)
  | extendsIgnored (s : Str) {p q : Str} : comps p = comps q →
      ErrSim (.extendsIgnored s p) (.extendsIgnored s q)

/-- The same answer, up to the spelling of paths in errors. -/
def AnsSim : Except Err Result → Except Err Result → Prop
  | .ok a, .ok b => a = b
  | .error a, .error b => ErrSim a b
  | _, _ => False

/-- The same package, up to the spelling of its directory and the order of its `browser`
entries. -/
def SamePkg (fs : Fs) (p q : Pkg) : Prop :=
  comps p.absDir = comps q.absDir ∧ isAbs p.absDir = true ∧ fs.isDir p.absDir = true ∧
    ∃ seed, p = { q with absDir := p.absDir, aliasFields := permute seed q.aliasFields }

/-- Results of looking for a package. -/
def SameLoad (fs : Fs) : Except Err (Option Pkg) → Except Err (Option Pkg) → Prop
  | .ok none, .ok none => True
  | .ok (some p), .ok (some q) => SamePkg fs p q
  | .error e, .error e' => ErrSim e e'
  | _, _ => False

/-- `load_side_effects` without caches. -/
def findSideEffects (fs : Fs) (desc : Option Str) (p : Str) :
    Prog (Except Err (Option (Str × Option SideEffects))) :=
  (findPkg fs desc p).bind fun
  | .error err => .ret (.error err)
  | .ok none => .ret (.ok none)
  | .ok (some pkg) => .ret (.ok (some (pjoin pkg.absDir (desc.getD []), pkg.sideEffects)))

/-- A call without caches. -/
def Call.pure (cfg : Config) (fs : Fs) (fuel : Nat) : Call → Prog Answer
  | .resolve path request =>
    (resolveCtx (pureCtx cfg.opts fs cfg.debug) fuel path request).bind fun r => .ret (.resolve r)
  | .sideEffects path =>
    (findSideEffects fs cfg.opts.descriptionFile path).bind fun r => .ret (.sideEffects r)

/-- The same side effects, up to the spelling of paths. -/
def SideSim : Except Err (Option (Str × Option SideEffects)) →
    Except Err (Option (Str × Option SideEffects)) → Prop
  | .ok none, .ok none => True
  | .ok (some (d, s)), .ok (some (d', s')) => comps d = comps d' ∧ s = s'
  | .error a, .error b => ErrSim a b
  | _, _ => False

/-- The same answer, up to the spelling of paths in errors and in the side effects file. -/
def Answer.Sim : Answer → Answer → Prop
  | .resolve a, .resolve b => AnsSim a b
  | .sideEffects a, .sideEffects b => SideSim a b
  | _, _ => False

/-- A call with an absolute path. -/
def Call.abs : Call → Prop
  | .resolve path _ => isAbs path = true
  | .sideEffects path => isAbs path = true

/-- A system of resolvers on an unchanging file system, in release builds: resolvers that share a
cache agree on the name of the description file. -/
structure Static (cfg : Nat → Config) (ser : Json → Str) (fs : Fs) : Prop where
  lawful : fs.Lawful
  debug : ∀ rid, (cfg rid).debug = false
  inj : ∀ v w, ser v = ser w → v = w
  mix : NoMix fs
  desc : ∀ rid rid' d d', (cfg rid).cache = (cfg rid').cache →
    (cfg rid).opts.descriptionFile = some d → (cfg rid').opts.descriptionFile = some d' → d = d'
  browser : ∀ rid desc, (cfg rid).opts.browserField = true →
    (cfg rid).opts.descriptionFile = some desc → BrowserOk fs desc (cfg rid).opts.extensions
  tsconfig : ∀ rid l, (cfg rid).opts.tsconfig = some l → isAbs l = true

/-- Calls with absolute paths start, and make progress; nothing else happens. -/
def Event.calm : Event → Prop
  | .start _ call _ => call.abs
  | .change _ => False
  | .step _ _ => True

/-- `resolve path request` of a resolver always comes to this answer: after any history and in any
interleaving of calls on an unchanging file system, a call that is over has returned it (or the
model's fuel was too small; some amount is enough). -/
structure Yields (cfg : Nat → Config) (ser : Json → Str) (fs : Fs) (rid : Nat) (path request : Str)
    (answer : Except Err Result) : Prop where
  right : ∀ (l : List Event), (∀ e ∈ l, e.calm) → ∀ t ∈ ((Sys.init fs).after cfg ser l).tasks,
    t.rid = rid → t.call = .resolve path request → ∀ o, t.prog.outcome = some o →
    o = .crashed .fuel ∨ ∃ a, o = .done (.resolve a) ∧ AnsSim a answer
  enough : ∃ n, ∀ (l : List Event), (∀ e ∈ l, e.calm) →
    ∀ t ∈ ((Sys.init fs).after cfg ser l).tasks,
    t.rid = rid → t.call = .resolve path request → n ≤ t.fuel → ∀ o, t.prog.outcome = some o →
    o ≠ .crashed .fuel

/-- The same for a call that never returns: it panics. -/
structure Panics (cfg : Nat → Config) (ser : Json → Str) (fs : Fs) (rid : Nat) (path request : Str)
    (site : Site) : Prop where
  right : ∀ (l : List Event), (∀ e ∈ l, e.calm) → ∀ t ∈ ((Sys.init fs).after cfg ser l).tasks,
    t.rid = rid → t.call = .resolve path request → ∀ o, t.prog.outcome = some o →
    o = .crashed .fuel ∨ o = .crashed (.panic site)
  enough : ∃ n, ∀ (l : List Event), (∀ e ∈ l, e.calm) →
    ∀ t ∈ ((Sys.init fs).after cfg ser l).tasks,
    t.rid = rid → t.call = .resolve path request → n ≤ t.fuel → ∀ o, t.prog.outcome = some o →
    o ≠ .crashed .fuel

/-- The form in which a path found is returned. -/
inductive FinalPath (o : Opts) (fs : Fs) (p : Str) : Str → Prop where
  | lexical : o.symlinks = false → FinalPath o fs p (normalizeLex p)
  | canonical {q : Str} : o.symlinks = true → fs.canon p = some q → FinalPath o fs p q

end Verif
