import Verif.Spec.Live
import Verif.Spec.SideEffects
/-!
# Which files a call reads: words for the statements
-/

namespace Verif.Live

/-- The look at a file that is the next step of call number `i`. -/
def Sys.look (s : Sys) (i : Nat) : Option Query :=
  match s.tasks[i]? with
  | some t =>
    match t.prog with
    | .ask q _ => some q
    | _ => none
  | none => none

/-- In the history, call number `i` has seen the directory `d`. -/
def SawDir (cfg : Nat → Config) (ser : Json → Str) (fs : Fs) (l : List Event) (i : Nat) (d : Str) : Prop :=
  Looked cfg ser fs l i (.isDir d) true

/-- In the history, call number `i` has seen the file `p`. -/
def SawFile (cfg : Nat → Config) (ser : Json → Str) (fs : Fs) (l : List Event) (i : Nat) (p : Str) : Prop :=
  Looked cfg ser fs l i (.isFile p) true

/-- `p` is a tsconfig: the configured one, or one that the call has found, for an `extends`. -/
def TsconfigOf (cfg : Nat → Config) (ser : Json → Str) (fs : Fs) (l : List Event) (i : Nat) (t : Task)
    (p : Str) : Prop :=
  (∃ path request, t.call = .resolve path request) ∧
  ∃ location, (cfg t.rid).opts.tsconfig = some location ∧
    (p = location ∨ SawFile cfg ser fs l i p)

/-- `p` is the description file of a directory that the call has seen. -/
def DescriptionOf (cfg : Nat → Config) (ser : Json → Str) (fs : Fs) (l : List Event) (i : Nat) (t : Task)
    (p : Str) : Prop :=
  ∃ desc d, (cfg t.rid).opts.descriptionFile = some desc ∧ p = pjoin d desc ∧
    SawDir cfg ser fs l i d ∧ SawFile cfg ser fs l i p

/-- Looks that a call may make: it reads description files and tsconfigs, asks for the times of
description files, and follows the links of files it has found. -/
def LookOk (cfg : Nat → Config) (ser : Json → Str) (fs : Fs) (l : List Event) (i : Nat) (t : Task) :
    Query → Prop
  | .read p => DescriptionOf cfg ser fs l i t p ∨ TsconfigOf cfg ser fs l i t p
  | .mtime p => DescriptionOf cfg ser fs l i t p
  | .canon p => (∃ path request, t.call = .resolve path request) ∧
      (cfg t.rid).opts.symlinks = true ∧ SawFile cfg ser fs l i p
  | _ => True

/-- In the history, a call of resolver `rid` has stored a package for the directory `d`. -/
def StoredBy (cfg : Nat → Config) (ser : Json → Str) (fs : Fs) (l : List Event) (rid : Nat) (d : Str) : Prop :=
  ∃ j t pkg, ((Sys.init fs).after cfg ser l).tasks[j]? = some t ∧ t.rid = rid ∧
    Got cfg ser fs l j (.putPkg d (some pkg)) ()

/-- Call number `i` starts after the history. -/
def Later (cfg : Nat → Config) (ser : Json → Str) (fs : Fs) (l : List Event) (i : Nat) : Prop :=
  ((Sys.init fs).after cfg ser l).tasks[i]? = none

/-- All through the history the modification times of the file `desc` in the directory `d`, also under
other spellings of the directory, lie less than `n` apart. -/
def Settled (fs : Fs) (l : List Event) (d desc : Str) (n : Nat) : Prop :=
  ∀ fs1 fs2, Versions fs l fs1 → Versions fs l fs2 → ∀ d1 d2, comps d1 = comps d → comps d2 = comps d →
    ∀ a b, fs1.mtime (pjoin d1 desc) = some a → fs2.mtime (pjoin d2 desc) = some b → a - b < n

end Verif.Live
