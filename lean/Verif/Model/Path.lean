import Verif.Model.Basic
/-!
# Paths

Unix `std::path`. A `PathBuf` is its raw string; equality and hashing go by components.
The definitions model std, as used throughout `/repo/src`.
-/

namespace Verif

/-- `std::path::Component` (Unix, so no `Prefix`). -/
inductive Comp where
  | root
  | cur
  | up
  | normal (name : Str)
  deriving DecidableEq, Repr

/-- The component a segment between separators stands for, away from the start of the path:
empty segments and `.` are skipped (std `Components::parse_single_component`). -/
def segComp (s : Str) : Option Comp :=
  if s = [] then none
  else if s = cs!"." then none
  else if s = cs!".." then some .up
  else some (.normal s)

/-- `Path::components` (std): a leading `.` is kept, other `.` and empty segments are skipped. -/
def comps (p : Str) : List Comp :=
  match p with
  | '/' :: r => .root :: (splitC '/' r).filterMap segComp
  | _ =>
    match splitC '/' p with
    | [] => []
    | h :: t => (if h = cs!"." then [.cur] else (segComp h).toList) ++ t.filterMap segComp

/-- `Path::eq` (std): equality of components. -/
def pathEq (p q : Str) : Bool := comps p == comps q

/-- `Path::is_absolute` (std, Unix). -/
def isAbs (p : Str) : Bool := startsWith p cs!"/"

/-- `Path::join` / `PathBuf::push` (std, Unix): an absolute argument replaces the path;
otherwise a separator is added unless the path is empty or ends with one. -/
def pjoin (p q : Str) : Str :=
  if isAbs q then q
  else if p = [] || endsWithC p '/' then p ++ q
  else p ++ '/' :: q

/-- The part of a raw path before its body: `/`, a leading `.` component, or nothing
(std `Components::len_before_body`). -/
def rawPrefix (p : Str) : Str × Str :=
  match p with
  | '/' :: r => (cs!"/", r)
  | ['.'] => (cs!".", [])
  | '.' :: '/' :: r => (cs!".", '/' :: r)
  | _ => ([], p)

/-- Drop the trailing segments that are not components (std `Components::trim_right`). -/
def trimSegs (l : List Str) : List Str :=
  (l.reverse.dropWhile fun s => (segComp s).isNone).reverse

/-- `Path::parent` (std): drop the last component and the separators before it. -/
def pparent (p : Str) : Option Str :=
  let (pre, body) := rawPrefix p
  match trimSegs (splitC '/' body) with
  | [] => if pre = cs!"." then some [] else none
  | l => some (pre ++ joinC '/' (trimSegs l.dropLast))

/-- `PathBuf::pop` (std): truncate to the parent, or leave the path alone. -/
def ppop (p : Str) : Str :=
  match pparent p with
  | some q => q
  | none => p

/-- `Resolver::normalize_path_without_link`, one step of the fold
(src/normalize.rs:26-37; the `Prefix` arm is Windows only). -/
def normStep (acc : Str) (c : Comp) : Str :=
  match c with
  | .normal name => pjoin acc name
  | .root => pjoin acc cs!"/"
  | .cur => acc
  | .up => ppop acc

/-- `Resolver::normalize_path_without_link` (src/normalize.rs:24-38). -/
def normalizeLex (p : Str) : Str := (comps p).foldl normStep []

end Verif
