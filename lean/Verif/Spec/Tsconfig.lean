import Verif.Spec.Options
/-!
# Specifications for tsconfig
-/

namespace Verif

mutual
/-- No object in the value has a key twice (parsers of JSON return such values). -/
def Json.wf : Json → Bool
  | .arr l => wfList l
  | .obj l => (l.map Prod.fst).Nodup && wfFields l
  | _ => true
/-- `Json.wf` of every item. -/
def wfList : List Json → Bool
  | [] => true
  | j :: l => j.wf && wfList l
/-- `Json.wf` of every value. -/
def wfFields : List (Str × Json) → Bool
  | [] => true
  | (_, j) :: l => j.wf && wfFields l
end

/-- The value under a path of keys. -/
def Json.at : Json → List Str → Option Json
  | j, [] => some j
  | j, k :: ks => (j.get k).bind (·.at ks)

/-- Not an object. -/
def Json.Leaf (j : Json) : Prop := ∀ fs, j ≠ .obj fs

/-- Walking down the path of keys ends at a missing key or at `null`. -/
inductive Absent : Json → List Str → Prop where
  | null (ks : List Str) : Absent .null ks
  | missing {fs : List (Str × Json)} {k : Str} {ks : List Str} :
      (∀ v, (k, v) ∉ fs) → Absent (.obj fs) (k :: ks)
  | step {fs : List (Str × Json)} {k : Str} {ks : List Str} {x : Json} :
      (k, x) ∈ fs → Absent x ks → Absent (.obj fs) (k :: ks)

/-- `merged` is `own` with `base` as default, at every depth: a leaf of `own` other than null
is kept; what is absent (or null) in `own` is taken from `base`; and there is nothing else. -/
structure DeepDefault (own base merged : Json) : Prop where
  own_wins : ∀ ks x, own.at ks = some x → x.Leaf → x ≠ .null → merged.at ks = some x
  base_fills : ∀ ks y, Absent own ks → base.at ks = some y → merged.at ks = some y
  nothing_else : ∀ ks z, merged.at ks = some z → z.Leaf →
    own.at ks = some z ∨ (Absent own ks ∧ base.at ks = some z)

/-- A `paths` pattern matches a target and captures `m`. -/
def StarMatch (pattern target m : Str) : Prop :=
  (pattern = target ∧ m = []) ∨
  (pattern ≠ target ∧ m ≠ [] ∧
    ∃ pre post, pattern = pre ++ '*' :: post ∧ '*' ∉ pre ∧ target = pre ++ m ++ post)

/-- Byte `n` of the text is at the beginning of a character or the end of the text. -/
def Boundary (s : Str) (n : Nat) : Prop := ∃ a b, s = a ++ b ∧ utf8Len a = n

/-- Trying the physical paths of one entry in order. -/
inductive PathsTried (res : Str → Stats → Prop) : List Str → Option Result → Prop where
  | nil : PathsTried res [] none
  | hit {p l r} : res p (.success r) → PathsTried res (p :: l) (some r)
  | miss {p l s o} : res p s → (∀ r, s ≠ .success r) → PathsTried res l o →
      PathsTried res (p :: l) o

/-- Trying `paths` entries in order on a target. `res p s`: resolving the path `p` may give
`s`. -/
inductive EntriesTried (res : Str → Stats → Prop) (target : Str) :
    List (Str × List Str) → Option Result → Prop where
  | nil : EntriesTried res target [] none
  | other {pattern paths l o} : (∀ m, ¬ StarMatch pattern target m) →
      EntriesTried res target l o → EntriesTried res target ((pattern, paths) :: l) o
  | hit {pattern paths l m r} : StarMatch pattern target m →
      PathsTried res (paths.map fun p => replaceChar p '*' m) (some r) →
      EntriesTried res target ((pattern, paths) :: l) (some r)
  | miss {pattern paths l m o} : StarMatch pattern target m →
      PathsTried res (paths.map fun p => replaceChar p '*' m) none →
      EntriesTried res target l o → EntriesTried res target ((pattern, paths) :: l) o

/-- The `paths` entries that a (merged) tsconfig at `location` defines: none without `baseUrl` or
without `paths`, otherwise the paths are relative to `baseUrl`, which is relative to the
directory of the tsconfig. -/
def HasEntries (location : Str) (json : Json) (entries : List (Str × List Str)) : Prop :=
  ∃ dir, pparent location = some dir ∧
    ((json.at [cs!"compilerOptions", cs!"baseUrl"] = none ∨
        json.at [cs!"compilerOptions", cs!"paths"] = none) ∧ entries = [] ∨
      ∃ (b : Str) (paths : List (Str × List Str)),
        json.at [cs!"compilerOptions", cs!"baseUrl"] = some (.str b) ∧
        json.at [cs!"compilerOptions", cs!"paths"] = some (.obj
          (paths.map fun kp => (kp.1, .arr (kp.2.map .str)))) ∧
        entries = paths.map fun kp => (kp.1, kp.2.map (pjoin (pjoin dir b))))

/-- The documents of a file system have no duplicate keys. -/
def WfDocs (fs : Fs) : Prop :=
  ∀ p doc j, fs.read p = some doc → doc.jsonc = .ok (some j) → j.wf = true

/-- The options without tsconfig. -/
def Opts.noTs (o : Opts) : Opts := { o with tsconfig := none }

end Verif
