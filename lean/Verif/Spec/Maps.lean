import Verif.Spec.Cond
/-!
# Specification of exports and imports maps
-/

namespace Verif

/-- How a request was matched: by an equal key, by a `*` key with this text in the place of the
star, or by a `/` key with this text after it. -/
inductive How where
  | exact
  | star (captured : Str)
  | folder (rest : Str)

/-- A target that exports does not allow. Imports allow all. -/
def BadTarget (k : FieldKind) (t : Str) : Prop :=
  k = .exports ∧ (utf8Len t < 2 ∨ cs!"/" <+: t ∨ cs!"." <+: t ∧ ¬ cs!"./" <+: t)

/-- Putting the matched text into a target: `none` is a failure. Targets of `/` keys end in `/`,
other targets do not. -/
inductive Subst (k : FieldKind) : How → Str → Option Str → Prop where
  | bad {how t} : BadTarget k t → Subst k how t none
  | exact {t} : ¬ BadTarget k t → t.getLast? ≠ some '/' → Subst k .exact t (some t)
  | star {t c} : ¬ BadTarget k t → t.getLast? ≠ some '/' →
      Subst k (.star c) t (some (t.flatMap fun x => if x = '*' then c else [x]))
  | folder {t rest} : ¬ BadTarget k t → t.getLast? = some '/' →
      Subst k (.folder rest) t (some (t ++ rest))
  | exactFolder {t} : ¬ BadTarget k t → t.getLast? = some '/' → Subst k .exact t none
  | starFolder {t c} : ¬ BadTarget k t → t.getLast? = some '/' → Subst k (.star c) t none
  | folderFile {t rest} : ¬ BadTarget k t → t.getLast? ≠ some '/' → Subst k (.folder rest) t none

/-- The targets a mapping value stands for, where `f` puts the matched text into one target. -/
inductive Outputs (cond : Str → Prop) (f : Str → Except Err Str) :
    MV → Except Err (List Str) → Prop where
  | direct {t s} : f t = .ok s → Outputs cond f (.direct t) (.ok [s])
  | directErr {t e} : f t = .error e → Outputs cond f (.direct t) (.error e)
  | noMatch {m} : Scan cond m .noMatch → Outputs cond f (.cond m) (.ok [])
  | badDefault {m} : Scan cond m .badDefault → Outputs cond f (.cond m) (.error .defaultNotLast)
  | found {m v o} : Scan cond m (.found v) → Outputs cond f v o → Outputs cond f (.cond m) o
  | nil : Outputs cond f (.arr []) (.ok [])
  | cons {v l a b} : Outputs cond f v (.ok a) → Outputs cond f (.arr l) (.ok b) →
      Outputs cond f (.arr (v :: l)) (.ok (a ++ b))
  | err {v l e} : Outputs cond f v (.error e) → Outputs cond f (.arr (v :: l)) (.error e)
  | errTail {v l a e} : Outputs cond f v (.ok a) → Outputs cond f (.arr l) (.error e) →
      Outputs cond f (.arr (v :: l)) (.error e)

/-- A key ending in `/` (`star = false`) or in `*` whose literal part `lit` is a prefix of the
request. -/
structure KeyMatches (m : List (Str × MV)) (request : Str) (star : Bool) (lit : Str) (v : MV) :
    Prop where
  key : (lit ++ (if star then cs!"*" else []), v) ∈ m
  slash : star = false → lit.getLast? = some '/'
  pre : lit <+: request

/-- The key with the longest literal part; a `*` key comes before a `/` key. -/
structure Chosen (m : List (Str × MV)) (request : Str) (star : Bool) (lit : Str) (v : MV) :
    Prop where
  matches_ : KeyMatches m request star lit v
  best : ∀ star' lit' v', KeyMatches m request star' lit' v' →
    lit'.length < lit.length ∨ lit' = lit ∧ (star' = true → star = true)

/-- A key that is equal to the request and is not a pattern. -/
def KeyEqual (m : List (Str × MV)) (request : Str) (v : MV) : Prop :=
  (request, v) ∈ m ∧ request.getLast? ≠ some '*' ∧ request.getLast? ≠ some '/'

/-- The keys that exports allow: `.` and `./…`. -/
def ExportsKey (k : Str) : Prop := k = cs!"." ∨ cs!"./" <+: k

/-- The keys that imports allow: `#…` with something other than `/` after the `#`. -/
def ImportsKey (k : Str) : Prop := cs!"#" <+: k ∧ k ≠ cs!"#" ∧ ¬ cs!"#/" <+: k

/-- The cases in which the code puts in the matched text: not if the text has a `$` (it is
doubled), and an exact key only works for targets without `*`. -/
def PlainFor : How → Str → Prop
  | .exact, t => '*' ∉ t
  | .star c, t => '$' ∉ c ∨ '*' ∉ t
  | .folder _, _ => True

/-- The text with every `$` written twice. -/
def twice (c : Str) : Str := c.flatMap fun x => if x = '$' then cs!"$$" else [x]

/-- `out` is what the value `v` means for a request that was matched as `how`, but for `$`, which are
doubled. -/
def Meaning (k : FieldKind) (names : List Str) (how : How) (v : MV)
    (out : Except Err (List Str)) : Prop :=
  ∃ g : Str → Except Err Str, (∀ t, PlainFor how t → Subst k how t (g t).toOption) ∧
    (∀ c, how = .star c → ∀ t, Subst k (.star (twice c)) t (g t).toOption) ∧
    Outputs (· ∈ names) g v out

/-- What a map with the entries `m` gives for a request: the value of an equal key, else the value
of the best pattern, else nothing. -/
inductive Selected (k : FieldKind) (names : List Str) (m : List (Str × MV)) (request : Str)
    (out : Except Err (List Str)) : Prop where
  | exact (v : MV) : KeyEqual m request v → Meaning k names .exact v out →
      Selected k names m request out
  | star (lit : Str) (v : MV) : (∀ v, ¬ KeyEqual m request v) → Chosen m request true lit v →
      Meaning k names (.star (request.drop lit.length)) v out → Selected k names m request out
  | folder (lit : Str) (v : MV) : (∀ v, ¬ KeyEqual m request v) → Chosen m request false lit v →
      Meaning k names (.folder (request.drop lit.length)) v out → Selected k names m request out
  | none : (∀ v, ¬ KeyEqual m request v) → (∀ star lit v, ¬ KeyMatches m request star lit v) →
      out = .ok [] → Selected k names m request out

/-- The entries of an exports value: its own, or one entry `.` for a value that is not an object
with paths as keys. -/
inductive ExportsOf : MV → List (Str × MV) → Prop where
  | paths {m} : m ≠ [] → (∀ kv ∈ m, ExportsKey kv.1) → ExportsOf (.cond m) m
  | main {v} : (∀ m, v = .cond m → ∀ kv ∈ m, ¬ cs!"." <+: kv.1 ∧ ¬ cs!"/" <+: kv.1) →
      ExportsOf v [(cs!".", v)]

/-- A target written in a value. -/
inductive WrittenIn : MV → Str → Prop where
  | direct (t : Str) : WrittenIn (.direct t) t
  | cond {m k v t} : (k, v) ∈ m → WrittenIn v t → WrittenIn (.cond m) t
  | arr {l v t} : v ∈ l → WrittenIn v t → WrittenIn (.arr l) t

/-- A target written for the request: as it is for an equal key, with the text that the `*` of the key stands
for in the place of each `*`, or with the text after a `/` key appended. -/
inductive Substituted (m : List (Str × MV)) (request s : Str) : Prop where
  | exact (v : MV) : (request, v) ∈ m → WrittenIn v s → Substituted m request s
  | star (lit c t : Str) (v : MV) : (lit ++ cs!"*", v) ∈ m → request = lit ++ c → WrittenIn v t →
      s = (t.flatMap fun x => if x = '*' then c else [x]) → Substituted m request s
  | folder (lit rest t : Str) (v : MV) : (lit, v) ∈ m → lit.getLast? = some '/' → request = lit ++ rest →
      WrittenIn v t → s = t ++ rest → Substituted m request s

end Verif
