import Verif.Model.Basic
/-!
# JSON values and file contents

The parsers (`serde_json::from_str`, `jsonc_parser::parse_to_serde_value`) are external: a file's
contents are represented by what the two parsers return for it.
-/

namespace Verif

/-- The characters of JSON numbers. -/
def isNumChar (c : Char) : Bool :=
  c.isDigit || c = '-' || c = '+' || c = '.' || c = 'e' || c = 'E'

/-- The text in which a number is printed. Which texts of this kind are printed (by `itoa` and `ryu`) is left
open. -/
structure NumText where
  text : Str
  ok : text ≠ [] ∧ ∀ c ∈ text, isNumChar c = true
  deriving Repr

instance : Inhabited NumText := ⟨⟨cs!"0", by decide⟩⟩

/-- `serde_json::Value` with the `preserve_order` feature (Cargo.toml:11): objects keep
document order. A number is represented by its text. -/
inductive Json where
  | null
  | bool (b : Bool)
  | num (n : NumText)
  | str (s : Str)
  | arr (items : List Json)
  | obj (fields : List (Str × Json))
  deriving Repr, Inhabited

/-- `Value::get(key)`: `None` unless the value is an object with that key. -/
def Json.get (j : Json) (k : Str) : Option Json :=
  match j with
  | .obj fs => alookup k fs
  | _ => none

/-- `Value::as_str`. -/
def Json.asStr : Json → Option Str
  | .str s => some s
  | _ => none

/-- `Value::as_bool`. -/
def Json.asBool : Json → Option Bool
  | .bool b => some b
  | _ => none

/-- `Value::as_array`. -/
def Json.asArr : Json → Option (List Json)
  | .arr l => some l
  | _ => none

/-- `Value::as_object`. -/
def Json.asObj : Json → Option (List (Str × Json))
  | .obj l => some l
  | _ => none

/-- The contents of a readable text file, as seen by the two parsers.
`json`: `serde_json::from_str` (`none` = `Err`), used in src/description.rs:49-53.
`jsonc`: `jsonc_parser::parse_to_serde_value` (`error` = `Err`, `ok none` = `Ok(None)`),
used in src/tsconfig.rs:56-58. -/
structure Doc where
  json : Option Json
  jsonc : Except Str (Option Json)

/-- The file system, as the code observes it through `std::fs` and `std::path`.
It does not change during one call. No laws are built in. -/
structure Fs where
  /-- `Path::is_file` -/
  isFile : Str → Bool
  /-- `Path::is_dir` -/
  isDir : Str → Bool
  /-- `Path::exists` -/
  pathExists : Str → Bool
  /-- `fs::read_to_string`; `none` = `Err` -/
  read : Str → Option Doc
  /-- `fs::metadata(..)` then `modified()`, in nanoseconds; `none` = `Err` of `metadata`.
  Simplification: `modified()` itself does not fail on Unix. -/
  mtime : Str → Option Nat
  /-- `Path::canonicalize`; `none` = `Err` -/
  canon : Str → Option Str

end Verif
