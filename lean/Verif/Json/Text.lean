import Verif.Otlp.Json
/-!
# The text of a JSON document (C119)

`write` is `serde_json::to_vec` (`compact`) and `serde_json::to_string_pretty` (`pretty`) of a document, by their documented behaviour; the library calls the
first in `opentelemetry-zipkin/src/exporter/uploader.rs:40` and the second in `opentelemetry-otlp/src/exporter/http/mod.rs:299`, `:318` and `:337`. `parse` is a
reader of JSON by RFC 8259, written without regard to `write`: it allows white space, all escapes and all forms of numbers.

The text of a double is a parameter: `wf` writes one, `rf` reads one. Characters are Unicode scalar values, the UTF-8 bytes of the text are not modelled. An integer
without fraction and exponent is read exactly, whatever its size (`serde_json` makes a double of one that fits in no 64 bits; the library writes no such integer).
-/

namespace Otel.JsonText
open Rust Otel.Otlp.Json

/-! ## The writer -/

/-- Where the two formats differ: what is between the values, and what follows a key. -/
structure Layout where
  /-- before a value or a closing bracket at a level -/
  nl : Nat → Str
  colon : Str

/-- `CompactFormatter`: nothing in between. uploader.rs:40 -/
def compact : Layout := ⟨fun _ => [], [':']⟩

/-- `PrettyFormatter`: a new line with two spaces per level, and a space after the colon. http/mod.rs:299 -/
def pretty : Layout := ⟨fun n => '\n' :: List.replicate (2 * n) ' ', [':', ' ']⟩

/-- The escape of a character: `"`, `\` and the control characters below U+0020 are escaped, nothing else. (`format_escaped_str`) -/
def escape (c : Char) : Str :=
  if c = '"' then ['\\', '"']
  else if c = '\\' then ['\\', '\\']
  else if c.toNat = 0x08 then ['\\', 'b']
  else if c.toNat = 0x09 then ['\\', 't']
  else if c.toNat = 0x0A then ['\\', 'n']
  else if c.toNat = 0x0C then ['\\', 'f']
  else if c.toNat = 0x0D then ['\\', 'r']
  else if c.toNat < 0x20 then ['\\', 'u', '0', '0'] ++ fmtHex 2 c.toNat
  else [c]

/-- A string. (`serialize_str`) -/
def writeStr (s : Str) : Str := '"' :: s.flatMap escape ++ ['"']

mutual
/-- A document at a level of nesting. (`Serialize for Value`) -/
def write (L : Layout) (wf : BitVec 64 → Str) (n : Nat) : Json → Str
  | .null => "null".toList
  | .bool true => "true".toList
  | .bool false => "false".toList
  | .int i => fmtInt i
  | .float f => wf f
  | .str s => writeStr s
  | .arr [] => "[]".toList
  | .arr (x :: xs) => '[' :: (L.nl (n + 1) ++ (write L wf (n + 1) x ++ (writeMore L wf (n + 1) xs ++ (L.nl n ++ [']']))))
  | .obj [] => "{}".toList
  | .obj ((k, x) :: fs) =>
    '{' :: (L.nl (n + 1) ++ (writeStr k.toList ++ (L.colon ++ (write L wf (n + 1) x ++ (writeFields L wf (n + 1) fs ++ (L.nl n ++ ['}']))))))
/-- The elements after the first. -/
def writeMore (L : Layout) (wf : BitVec 64 → Str) (n : Nat) : List Json → Str
  | [] => []
  | x :: xs => ',' :: (L.nl n ++ (write L wf n x ++ writeMore L wf n xs))
/-- The entries after the first. -/
def writeFields (L : Layout) (wf : BitVec 64 → Str) (n : Nat) : List (String × Json) → Str
  | [] => []
  | (k, x) :: fs => ',' :: (L.nl n ++ (writeStr k.toList ++ (L.colon ++ (write L wf n x ++ writeFields L wf n fs))))
end

/-! ## A reader by RFC 8259 -/

/-- White space, RFC 8259 section 2. -/
def isWs (c : Char) : Bool := c == ' ' || c == '\t' || c == '\n' || c == '\r'

/-- Skips white space. -/
def ws (s : Str) : Str := s.dropWhile isWs

/-- Four hexadecimal digits. -/
def hex4 : Str → Option (Nat × Str)
  | a :: b :: c :: d :: r => do
    let a ← hexVal a
    let b ← hexVal b
    let c ← hexVal c
    let d ← hexVal d
    some (((a * 16 + b) * 16 + c) * 16 + d, r)
  | _ => none

/-- `s` after the characters `p`. -/
def after : Str → Str → Option Str
  | [], s => some s
  | _ :: _, [] => none
  | c :: p, d :: s => if c = d then after p s else none

/-- The low half of a surrogate pair, after the high half `n`. -/
def lowHalf (n : Nat) (s : Str) : Option (Char × Str) := do
  let r ← after "\\u".toList s
  let (m, r) ← hex4 r
  if 0xDC00 ≤ m ∧ m < 0xE000 then some (Char.ofNat (0x10000 + (n - 0xD800) * 0x400 + (m - 0xDC00)), r) else none

/-- What follows a backslash, section 7. -/
def escaped : Str → Option (Char × Str)
  | [] => none
  | c :: r =>
    if c = '"' then some ('"', r)
    else if c = '\\' then some ('\\', r)
    else if c = '/' then some ('/', r)
    else if c = 'b' then some (Char.ofNat 0x08, r)
    else if c = 'f' then some (Char.ofNat 0x0C, r)
    else if c = 'n' then some (Char.ofNat 0x0A, r)
    else if c = 'r' then some (Char.ofNat 0x0D, r)
    else if c = 't' then some (Char.ofNat 0x09, r)
    else if c = 'u' then do
      let (n, r) ← hex4 r
      if 0xD800 ≤ n ∧ n < 0xDC00 then lowHalf n r else if 0xDC00 ≤ n ∧ n < 0xE000 then none else some (Char.ofNat n, r)
    else none

/-- The rest of a string after its opening quote. -/
def stringBody : Nat → Str → Option (Str × Str)
  | 0, _ => none
  | _ + 1, [] => none
  | fuel + 1, c :: r =>
    if c = '"' then some ([], r)
    else if c = '\\' then do
      let (c, r) ← escaped r
      let (s, r) ← stringBody fuel r
      some (c :: s, r)
    else if c.toNat < 0x20 then none
    else do
      let (s, r) ← stringBody fuel r
      some (c :: s, r)

/-- The value of decimal digits. -/
def decimal (s : Str) : Nat := s.foldl (fun n c => n * 10 + (c.toNat - 48)) 0

/-- One digit or more. -/
def digits1 (s : Str) : Bool := !s.isEmpty && s.all isAsciiDigit

/-- The integer part, section 6: no leading zero. -/
def intPart (s : Str) : Bool := digits1 s && (s.head? != some '0' || s.length == 1)

/-- The exponent after `e`. -/
def expPart (s : Str) : Bool := digits1 (if s.head? = some '+' ∨ s.head? = some '-' then s.tail else s)

/-- An exponent. -/
def exponent (s : Str) : Bool := (s.head? == some 'e' || s.head? == some 'E') && expPart s.tail

/-- Fraction and exponent, at least one of them. -/
def fracExp (s : Str) : Bool :=
  if s.head? = some '.' then
    digits1 (s.tail.takeWhile isAsciiDigit) && ((s.tail.dropWhile isAsciiDigit).isEmpty || exponent (s.tail.dropWhile isAsciiDigit))
  else exponent s

/-- A number: without fraction and exponent an integer. -/
def number (rf : Str → BitVec 64) (t : Str) : Option Json :=
  let u := if t.head? = some '-' then t.tail else t
  let i := u.takeWhile isAsciiDigit
  let r := u.dropWhile isAsciiDigit
  if intPart i then
    if r.isEmpty then some (.int (if t.head? = some '-' then -(decimal i : Int) else decimal i))
    else if fracExp r then some (.float (rf t)) else none
  else none

/-- The characters of numbers. -/
def numChar (c : Char) : Bool := isAsciiDigit c || c == '-' || c == '+' || c == '.' || c == 'e' || c == 'E'

/-- A literal name. -/
def literal (name : Str) (j : Json) (s : Str) : Option (Json × Str) := (after name s).map fun r => (j, r)

/-- `s` starts with the character. -/
def starts (c : Char) (s : Str) : Bool := s.head? == some c

mutual
/-- A value and what follows it, section 3. The number bounds the nesting and is as large as the text. -/
def value (rf : Str → BitVec 64) : Nat → Str → Option (Json × Str)
  | 0, _ => none
  | fuel + 1, s =>
    match ws s with
    | [] => none
    | c :: r =>
      if c = '{' then
        if starts '}' (ws r) then some (.obj [], (ws r).tail) else (members rf fuel r).map fun p => (.obj p.1, p.2)
      else if c = '[' then
        if starts ']' (ws r) then some (.arr [], (ws r).tail) else (elements rf fuel r).map fun p => (.arr p.1, p.2)
      else if c = '"' then (stringBody (r.length + 1) r).map fun p => (.str p.1, p.2)
      else if c = 't' then literal "rue".toList (.bool true) r
      else if c = 'f' then literal "alse".toList (.bool false) r
      else if c = 'n' then literal "ull".toList .null r
      else (number rf ((c :: r).takeWhile numChar)).map fun j => (j, (c :: r).dropWhile numChar)
/-- The elements of an array up to its end. -/
def elements (rf : Str → BitVec 64) : Nat → Str → Option (List Json × Str)
  | 0, _ => none
  | fuel + 1, s =>
    match value rf fuel s with
    | none => none
    | some (x, r) =>
      if starts ',' (ws r) then (elements rf fuel (ws r).tail).map fun p => (x :: p.1, p.2)
      else if starts ']' (ws r) then some ([x], (ws r).tail)
      else none
/-- The entries of an object up to its end. -/
def members (rf : Str → BitVec 64) : Nat → Str → Option (List (String × Json) × Str)
  | 0, _ => none
  | fuel + 1, s =>
    if starts '"' (ws s) then
      match stringBody ((ws s).length + 1) (ws s).tail with
      | none => none
      | some (k, r) =>
        if starts ':' (ws r) then
          match value rf fuel (ws r).tail with
          | none => none
          | some (x, r) =>
            if starts ',' (ws r) then (members rf fuel (ws r).tail).map fun p => ((String.ofList k, x) :: p.1, p.2)
            else if starts '}' (ws r) then some ([(String.ofList k, x)], (ws r).tail)
            else none
        else none
    else none
end

/-- A whole text. -/
def parse (rf : Str → BitVec 64) (s : Str) : Option Json :=
  match value rf (s.length + 1) s with
  | some (j, r) => if (ws r).isEmpty then some j else none
  | none => none

end Otel.JsonText
