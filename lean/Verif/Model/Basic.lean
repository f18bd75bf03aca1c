/-!
# Strings

Rust `str`/`String`/`SmolStr` values are lists of characters. Byte lengths and byte slices,
where the Rust code uses them, go through `utf8Len`, `takeBytes` and `dropBytes`.
-/

namespace Verif

/-- A Rust string. Simplification: valid Unicode only (no `OsStr` with invalid UTF-8). -/
abbrev Str := List Char

/-- Notation: `cs!"ab"` is the literal character list `['a', 'b']`. -/
macro:max "cs!" s:str : term => do
  let mut acc ← `(([] : Str))
  for c in s.getString.toList.reverse do
    let c : Lean.TSyntax `term := Lean.Syntax.mkCharLit c
    acc ← `(List.cons $c $acc)
  return acc

/-- `str::len`: the number of UTF-8 bytes (std). -/
def utf8Len : Str → Nat
  | [] => 0
  | c :: s => c.utf8Size + utf8Len s

/-- `&s[..n]` (std): `none` is the panic for an index past the end or inside a character. -/
def takeBytes : Str → Nat → Option Str
  | _, 0 => some []
  | [], _ + 1 => none
  | c :: s, n + 1 =>
    if c.utf8Size ≤ n + 1 then (takeBytes s (n + 1 - c.utf8Size)).map (c :: ·) else none

/-- `&s[n..]` (std): `none` is the panic for an index past the end or inside a character. -/
def dropBytes : Str → Nat → Option Str
  | s, 0 => some s
  | [], _ + 1 => none
  | c :: s, n + 1 =>
    if c.utf8Size ≤ n + 1 then dropBytes s (n + 1 - c.utf8Size) else none

/-- `str::starts_with` for a string pattern (std). -/
def startsWith (s pre : Str) : Bool := pre.isPrefixOf s

/-- `str::ends_with` for a one-character pattern (std). -/
def endsWithC (s : Str) (c : Char) : Bool := s.getLast? == some c

/-- `str::contains` for a string pattern (std). -/
def containsStr : Str → Str → Bool
  | [], sub => sub.isPrefixOf []
  | c :: s, sub => sub.isPrefixOf (c :: s) || containsStr s sub

/-- `str::find(c)` for a character, followed by slicing at the index found: the part before
the first occurrence of `c` and the part from that occurrence on (std). -/
def splitFirst (c : Char) : Str → Option (Str × Str)
  | [] => none
  | x :: xs =>
    if x = c then some ([], x :: xs)
    else (splitFirst c xs).map fun (a, b) => (x :: a, b)

/-- `str::replacen(from, to, 1)` (std): replace the first occurrence. -/
def replaceFirst : Str → Str → Str → Str
  | [], sub, to => if sub.isPrefixOf [] then to else []
  | c :: s, sub, to =>
    if sub.isPrefixOf (c :: s) then to ++ (c :: s).drop sub.length
    else c :: replaceFirst s sub to

/-- `str::replace(c, to)` for a character pattern (std): replace every occurrence. -/
def replaceChar (s : Str) (c : Char) (to : Str) : Str :=
  s.flatMap fun x => if x = c then to else [x]

/-- Split at every occurrence of `c`; always returns at least one piece (`str::split`, std). -/
def splitC (c : Char) : Str → List Str
  | [] => [[]]
  | x :: xs =>
    if x = c then [] :: splitC c xs
    else match splitC c xs with
      | [] => [[x]]
      | h :: t => (x :: h) :: t

/-- Concatenate pieces with the separator `c` between them (inverse of `splitC`). -/
def joinC (c : Char) : List Str → Str
  | [] => []
  | [s] => s
  | s :: t => s ++ c :: joinC c t

/-- Association-list lookup: `HashMap::get` / `IndexMap::get` (std, indexmap). -/
def alookup {β : Type} (k : Str) : List (Str × β) → Option β
  | [] => none
  | (k', v) :: t => if k' = k then some v else alookup k t

/-- `IndexMap::insert`: replace the value in place if the key exists, else append. -/
def ainsert {β : Type} (k : Str) (v : β) : List (Str × β) → List (Str × β)
  | [] => [(k, v)]
  | (k', v') :: t => if k' = k then (k', v) :: t else (k', v') :: ainsert k v t

/-- An iteration order of a `HashMap` (std): the permutation of `l` selected by the number
`seed` (Lehmer code). Every permutation is selected by some seed (`Verif.permute_surj`). -/
def permuteAux {α : Type} : Nat → Nat → List α → List α
  | 0, _, _ => []
  | n + 1, s, l =>
    match l[s % l.length]? with
    | none => []
    | some x => x :: permuteAux n (s / l.length) (l.eraseIdx (s % l.length))

/-- See `permuteAux`. -/
def permute {α : Type} (seed : Nat) (l : List α) : List α := permuteAux l.length seed l

end Verif
