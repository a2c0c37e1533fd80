import Verif.Model.Serde

/-!
Model of the text which `serde_json::to_writer` makes of a document, as it is used for the output format `Json`
(/repo/src/output/mod.rs:65). The writer is that of serde_json 1.0 with its `CompactFormatter`.

Simplification: how the digits of a floating point number are chosen (the crate `ryu`) is a parameter.
-/

set_option autoImplicit false

namespace HunLaw.Json

open HunLaw HunLaw.Serde

/-- A digit of `\u00..`: `b"0123456789abcdef"`. -/
def hexDigit (n : Nat) : Char := if n < 10 then digitChar n else Char.ofNat (87 + n)

/-- `format_escaped_str_contents` for one character: the quotation mark, the backslash and the control characters are
escaped, everything else is written as it is. -/
def escapeChar (c : Char) : Str :=
  if c = '"' then str!"\\\""
  else if c = '\\' then str!"\\\\"
  else if c.toNat = 8 then str!"\\b"
  else if c.toNat = 9 then str!"\\t"
  else if c.toNat = 10 then str!"\\n"
  else if c.toNat = 12 then str!"\\f"
  else if c.toNat = 13 then str!"\\r"
  else if c.toNat < 32 then str!"\\u00" ++ [hexDigit (c.toNat / 16), hexDigit (c.toNat % 16)]
  else [c]

/-- `format_escaped_str` -/
def writeText (s : Str) : Str := '"' :: s.flatMap escapeChar ++ str!"\""

mutual

/-- `Serializer` with `CompactFormatter`; integers are written by `itoa`. -/
def write (float : Rat → Str) : Value → Str
  | .null => str!"null"
  | .bool true => str!"true"
  | .bool false => str!"false"
  | .int n => decInt n
  | .float x => float x
  | .str s => writeText s
  | .seq l => '[' :: writeSeq float l ++ str!"]"
  | .map m => '{' :: writeMap float m ++ str!"}"

/-- `begin_array_value`: a comma before each element but the first. -/
def writeSeq (float : Rat → Str) : List Value → Str
  | [] => []
  | v :: l => write float v ++ writeSeqRest float l

/-- The elements after the first one. -/
def writeSeqRest (float : Rat → Str) : List Value → Str
  | [] => []
  | v :: l => ',' :: write float v ++ writeSeqRest float l

/-- `begin_object_key` and `begin_object_value` -/
def writeMap (float : Rat → Str) : List (Str × Value) → Str
  | [] => []
  | e :: m => writeEntry float e ++ writeMapRest float m

/-- The entries after the first one. -/
def writeMapRest (float : Rat → Str) : List (Str × Value) → Str
  | [] => []
  | e :: m => ',' :: writeEntry float e ++ writeMapRest float m

/-- One entry. -/
def writeEntry (float : Rat → Str) : Str × Value → Str
  | (k, v) => writeText k ++ ':' :: write float v

end

end HunLaw.Json
