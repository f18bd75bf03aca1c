import Verif.Spec.Packages
import Verif.Spec.TreeFs
import Verif.Spec.Termination
/-!
# Projects that are moved to another place
-/

namespace Verif

/-- A segment that is the name of an entry of a directory. -/
def isName (s : Str) : Bool := s ≠ [] && s ≠ cs!"." && s ≠ cs!".."

/-- Never more steps up than down. -/
def NoClimb (segs : List Str) : Prop :=
  ∀ pre, pre <+: segs → pre.countP (· = cs!"..") ≤ pre.countP isName

/-- A relative path that never leads out of the directory it starts from. -/
def StaysIn (t : Str) : Prop := isAbs t = false ∧ NoClimb (splitC '/' t)

/-- No step up. -/
def NoUp (t : Str) : Prop := ∀ s ∈ splitC '/' t, s ≠ cs!".."

/-- A target that never leads out of the directory it starts from; one that is not a relative path has no
steps up. -/
def Harmless (t : Str) : Prop := StaysIn t ∧ (getTargetKind t = .relative ∨ NoUp t)

/-- A request with such a target, and no steps up in its query and fragment, which become part of the keys
that are looked up in `exports`. -/
structure Fits (r : Request) : Prop where
  target : Harmless r.target
  rest : NoUp (r.query ++ r.fragment)

/-- What follows the path of a directory in the text of a path that does not lead out of it. -/
def Below (s : Str) : Prop := s = [] ∨ ∃ t, s = '/' :: t ∧ NoClimb (splitC '/' t)

/-- The place of a project: the names of the directories from the root on. -/
def IsPlace (a : List Str) : Prop := a ≠ [] ∧ ∀ n ∈ a, isName n = true ∧ '/' ∉ n

/-- `q` is for the project in `b` what `p` is for the project in `a`. -/
def Placed (a b : List Str) (p q : Str) : Prop := ∃ s, Below s ∧ p = absText a ++ s ∧ q = absText b ++ s

/-- The project in `a` on `fs` is in `b` on `fs'`. -/
structure MovedTo (a b : List Str) (fs fs' : Fs) : Prop where
  isFile : ∀ p q, Placed a b p q → fs'.isFile q = fs.isFile p
  isDir : ∀ p q, Placed a b p q → fs'.isDir q = fs.isDir p
  pathExists : ∀ p q, Placed a b p q → fs'.pathExists q = fs.pathExists p
  read : ∀ p q, Placed a b p q → fs'.read q = fs.read p
  mtime : ∀ p q, Placed a b p q → fs'.mtime q = fs.mtime p
  canon : ∀ p q, Placed a b p q → fs.canon p = none ∧ fs'.canon q = none ∨
    ∃ p' q', fs.canon p = some p' ∧ fs'.canon q = some q' ∧ Placed a b p' q'

/-- Nothing outside of the project has a say: there are no description files and no `node_modules` above it,
and no file next to it has its name, with an extension. -/
structure OnItsOwn (o : Opts) (fs : Fs) (a : List Str) : Prop where
  desc : ∀ l desc, l <+: a → l ≠ a → o.descriptionFile = some desc → fs.isFile (pjoin (absText l) desc) = false
  modules : ∀ l, l <+: a → l ≠ a → fs.isDir (pjoin (absText l) cs!"node_modules") = false
  next : ∀ ext ∈ o.extensions, ext ≠ [] → fs.isFile (absText a ++ ext) = false

/-- The contents of a description file of the project. -/
def Describes (o : Opts) (fs : Fs) (a : List Str) (json : Json) : Prop :=
  ∃ desc s doc, o.descriptionFile = some desc ∧ Below s ∧ fs.read (pjoin (absText a ++ s) desc) = some doc ∧
    doc.json = some json

/-- No description file of the project says where it is, or leads out of it. -/
structure SelfContained (o : Opts) (fs : Fs) (a : List Str) : Prop where
  main : ∀ json, Describes o fs a json → ∀ f ∈ o.mainFields, ∀ v, json.get f = some (.str v) →
    NoClimb (splitC '/' v)
  browser : o.browserField = true → ∀ json, Describes o fs a json → ∀ fields, browserFields json = some fields →
    ∀ k v, (k, v) ∈ fields → isAbs k = false ∧ ∀ t, v = .target t → Harmless t
  exports : ∀ json, Describes o fs a json → ∀ v tree key l, json.get cs!"exports" = some v →
    buildTree .exports v = some (.ok tree) → NoUp key →
    fieldProcess .exports tree key o.conditionNames = some (.ok l) → ∀ t ∈ l,
    checkTarget (parseRequest t).target = true → Fits (parseRequest t)
  imports : ∀ json, Describes o fs a json → ∀ v tree key l, json.get cs!"imports" = some v →
    buildTree .imports v = some (.ok tree) → NoUp key →
    fieldProcess .imports tree key o.conditionNames = some (.ok l) → ∀ t ∈ l, Fits (parseRequest t)

/-- Options that do not say where the project is, or lead out of it. -/
structure PlacelessOpts (o : Opts) : Prop where
  desc : ∀ desc, o.descriptionFile = some desc → StaysIn desc
  mainFiles : ∀ m ∈ o.mainFiles, StaysIn (cs!"./" ++ m)
  extensions : ∀ e ∈ o.extensions, '/' ∉ e ∧ (e = [] ∨ ∃ c ∈ e, c ≠ '.')
  alias : ∀ k t, (k, .target t) ∈ o.alias → ∀ x, Harmless (k ++ x) → Harmless (t ++ x)
  tsconfig : o.tsconfig = none

/-- A request that does not lead out of the project, from the path `absText a ++ s`. If it leads out of the
directory it starts from, it is a relative path to which no alias applies. -/
def AsksInside (o : Opts) (s request : Str) : Prop :=
  NoUp ((parseRequest request).query ++ (parseRequest request).fragment) ∧
    (Harmless (parseRequest request).target ∨
      getTargetKind (parseRequest request).target = .relative ∧
      Below (s ++ '/' :: (parseRequest request).target) ∧
      (∀ kv ∈ o.alias, ¬ kv.1 <+: (parseRequest request).target) ∧
      (o.preferRelative = false ∨ cs!"./" <+: (parseRequest request).target ∨
        cs!"../" <+: (parseRequest request).target))

/-- A target without `*` that fits, or a target `./d/e/*v` or `./d/e/`. -/
inductive EasyTarget (t : Str) : Prop where
  | plain : '*' ∉ t → t.getLast? ≠ some '/' → Fits (parseRequest t) → EasyTarget t
  | star (d e v : Str) : t = cs!"./" ++ d ++ cs!"/" ++ e ++ cs!"/*" ++ v → isName d = true → isName e = true →
      (∀ c ∈ cs!"/*?#", c ∉ d ++ e ++ v) → (v = [] ∨ ∃ c ∈ v, c ≠ '.') → EasyTarget t
  | folder (d e : Str) : t = cs!"./" ++ d ++ cs!"/" ++ e ++ cs!"/" → isName d = true → isName e = true →
      (∀ c ∈ cs!"/*?#", c ∉ d ++ e) → EasyTarget t

/-- A description file that does not say where it is, or leads out of its directory. -/
structure EasyDoc (o : Opts) (json : Json) : Prop where
  main : ∀ f ∈ o.mainFields, ∀ v, json.get f = some (.str v) → NoClimb (splitC '/' v)
  browser : o.browserField = true → ∀ fields, browserFields json = some fields →
    ∀ k v, (k, v) ∈ fields → isAbs k = false ∧ ∀ t, v = .target t → Harmless t
  exports : ∀ v, json.get cs!"exports" = some v → ∀ t ∈ v.strings, EasyTarget t
  imports : ∀ v, json.get cs!"imports" = some v → ∀ t ∈ v.strings, EasyTarget t

/-- A project in two places. -/
structure TwoPlaces (o : Opts) (a b : List Str) (fs fs' : Fs) : Prop where
  ha : IsPlace a
  hb : IsPlace b
  moved : MovedTo a b fs fs'
  alone : OnItsOwn o fs a
  alone' : OnItsOwn o fs' b
  self : SelfContained o fs a
  opts : PlacelessOpts o
  modules : cs!"node_modules" <:+: absText a ↔ cs!"node_modules" <:+: absText b

/-- The path in an error message. -/
def Err.place : Err → Option Str
  | .failed _ p => some p
  | .openFailed p => some p
  | .parseFailed p => some p
  | .compareFailed p => some p
  | .sideEffects p _ => some p
  | .tsParseFailed p _ => some p
  | .extendsIgnored _ p => some p
  | _ => none

/-- The same place in the two projects, up to the spelling. -/
def PlacedSim (a b : List Str) (p q : Str) : Prop :=
  ∃ p' q', comps p = comps p' ∧ comps q = comps q' ∧ Placed a b p' q'

/-- The same error, about the same place in the two projects. -/
inductive ErrMoved (a b : List Str) : Err → Err → Prop where
  | same {e : Err} : e.place = none → ErrMoved a b e e
  | failed (r : Str) {p q : Str} : PlacedSim a b p q → ErrMoved a b (.failed r p) (.failed r q)
  | openFailed {p q : Str} : PlacedSim a b p q → ErrMoved a b (.openFailed p) (.openFailed q)
  | parseFailed {p q : Str} : PlacedSim a b p q → ErrMoved a b (.parseFailed p) (.parseFailed q)
  | sideEffects (v : Json) {p q : Str} : PlacedSim a b p q →
      ErrMoved a b (.sideEffects p v) (.sideEffects q v)

/-- The same answer for the two projects: the same file, with the same query and fragment, or "ignored", or
the same error. -/
def AnsMoved (a b : List Str) : Except Err Result → Except Err Result → Prop
  | .ok (.info i), .ok (.info j) => Placed a b i.path j.path ∧ i.request = j.request
  | .ok .ignored, .ok .ignored => True
  | .error e, .error e' => ErrMoved a b e e'
  | _, _ => False

/-- The same side effects for the two projects. -/
def SideMoved (a b : List Str) : Except Err (Option (Str × Option SideEffects)) →
    Except Err (Option (Str × Option SideEffects)) → Prop
  | .ok none, .ok none => True
  | .ok (some (p, s)), .ok (some (q, s')) => PlacedSim a b p q ∧ s = s'
  | .error e, .error e' => ErrMoved a b e e'
  | _, _ => False

/-- See `AnsMoved` and `SideMoved`. -/
def Answer.Moved (a b : List Str) : Answer → Answer → Prop
  | .resolve x, .resolve y => AnsMoved a b x y
  | .sideEffects x, .sideEffects y => SideMoved a b x y
  | _, _ => False

/-- The same call for the two projects. -/
inductive Call.Moved (o : Opts) (a b : List Str) : Call → Call → Prop where
  | resolve {s request : Str} : Below s → AsksInside o s request →
      Moved o a b (.resolve (absText a ++ s) request) (.resolve (absText b ++ s) request)
  | sideEffects {s : Str} : Below s → Moved o a b (.sideEffects (absText a ++ s)) (.sideEffects (absText b ++ s))

/-- The tree with nothing but `t`, at the place `a`. -/
def mountAt : List Str → Tree → Tree
  | [], t => t
  | n :: a, t => .dir [(n, mountAt a t)]

end Verif
