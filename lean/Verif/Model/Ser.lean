import Verif.Model.Json
/-!
# The rendering of JSON values

`serde_json::to_string` (src/description.rs:71, 86) prints the compact form,
without spaces.
-/

namespace Verif

/-- A hexadecimal digit, in lower case. -/
def hexChar (n : Nat) : Char :=
  if n < 10 then Char.ofNat ('0'.toNat + n) else Char.ofNat ('a'.toNat + (n - 10))

/-- `format_escaped_str_contents` of serde_json for one character: quotes, backslashes and control characters
are escaped. -/
def escChar (c : Char) : Str :=
  if c = '"' then cs!"\\\""
  else if c = '\\' then cs!"\\\\"
  else if c = '\n' then cs!"\\n"
  else if c = '\r' then cs!"\\r"
  else if c = '\t' then cs!"\\t"
  else if c = '\x08' then cs!"\\b"
  else if c = '\x0c' then cs!"\\f"
  else if c.toNat < 32 then cs!"\\u00" ++ [hexChar (c.toNat / 16), hexChar (c.toNat % 16)]
  else [c]

/-- A string with its quotes. -/
def serStr (s : Str) : Str := '"' :: (s.flatMap escChar ++ cs!"\"")

/-- A comma before all items but the first. -/
def serSep (first : Bool) : Str := if first then [] else cs!","

mutual
/-- The compact form of a value. -/
def serJson : Json → Str
  | .null => cs!"null"
  | .bool true => cs!"true"
  | .bool false => cs!"false"
  | .num n => n.text
  | .str s => serStr s
  | .arr l => '[' :: serArr true l
  | .obj l => '{' :: serObj true l
/-- The items of an array and its end. -/
def serArr (first : Bool) : List Json → Str
  | [] => cs!"]"
  | j :: l => serSep first ++ (serJson j ++ serArr false l)
/-- The fields of an object and its end. -/
def serObj (first : Bool) : List (Str × Json) → Str
  | [] => cs!"}"
  | (k, j) :: l => serSep first ++ (serStr k ++ ':' :: (serJson j ++ serObj false l))
end

end Verif
