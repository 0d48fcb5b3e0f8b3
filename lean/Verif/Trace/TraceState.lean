import Verif.Trace.Ids
/-! # `TraceState` and `SpanContext` (`opentelemetry/src/trace/span_context.rs`) -/

namespace Otel
open Rust

/-- `allowed_special`, span_context.rs:29. -/
def TraceState.allowedSpecial (c : Char) : Bool := c == '_' || c == '-' || c == '*' || c == '/'

/-- The loop of `TraceState::valid_key`, span_context.rs:31-48. The code loops over bytes; a byte of a non-ASCII
character is rejected at once, so up to the first rejection byte index and character index agree and the loop can be
written over characters. `len` is `key.len()`, `i` the index, `vs` is `vendor_start`. -/
def TraceState.validKeyLoop (len : Nat) : Nat → Option Nat → Str → Bool
  | _, _, [] => true
  | i, vs, b :: rest =>
    if !(isAsciiLower b || isAsciiDigit b || allowedSpecial b || b == '@') then false
    else if i == 0 && (!isAsciiLower b && !isAsciiDigit b) then false
    else if b == '@' then
      if vs.isSome || i + 14 < len then false
      else validKeyLoop len (i + 1) (some i) rest
    else match vs with
      | some start =>
        if i == start + 1 && !(isAsciiLower b || isAsciiDigit b) then false
        else validKeyLoop len (i + 1) vs rest
      | none => validKeyLoop len (i + 1) vs rest

/-- `TraceState::valid_key`, span_context.rs:24-51. -/
def TraceState.validKey (key : Str) : Bool :=
  if byteLen key > 256 then false else validKeyLoop (byteLen key) 0 none key

/-- `TraceState::valid_value`, span_context.rs:56-62. -/
def TraceState.validValue (value : Str) : Bool :=
  if byteLen value > 256 then false else !(value.contains ',' || value.contains '=')

/-- `TraceState(Option<VecDeque<(String, String)>>)`, span_context.rs:15. -/
structure TraceState where
  kvs : Option (List (Str × Str))
deriving DecidableEq, Repr

namespace TraceState

/-- `TraceState::NONE` / `default`, span_context.rs:14, 19. -/
def none : TraceState := ⟨Option.none⟩

/-- `TraceStateError`, span_context.rs:220-238. -/
inductive Error where
  | key (k : Str) | value (v : Str) | list (m : Str)
deriving DecidableEq, Repr

/-- The validation in `from_key_value`, span_context.rs:85-95, with the short-circuiting `collect` of line 96. -/
def checkAll : List (Str × Str) → Except Error (List (Str × Str))
  | [] => .ok []
  | (k, v) :: rest =>
    if !validKey k then .error (.key k)
    else if !validValue v then .error (.value v)
    else match checkAll rest with
      | .error e => .error e
      | .ok r => .ok ((k, v) :: r)

/-- `TraceState::from_key_value`, span_context.rs:77-103. -/
def fromKeyValue (l : List (Str × Str)) : Except Error TraceState :=
  match checkAll l with
  | .error e => .error e
  | .ok r => if r.isEmpty then .ok ⟨Option.none⟩ else .ok ⟨some r⟩

/-- The entries, as seen by iterating (an empty deque and `None` both have none). -/
def entries (t : TraceState) : List (Str × Str) := t.kvs.getD []

/-- `find_map` over the entries. -/
def lookup (key : Str) : List (Str × Str) → Option Str
  | [] => Option.none
  | (k, v) :: rest => if k = key then some v else lookup key rest

/-- `TraceState::get`, span_context.rs:106-116. -/
def get (t : TraceState) (key : Str) : Option Str :=
  match t.kvs with
  | Option.none => Option.none
  | some kvs => lookup key kvs

/-- `position` + `remove`: remove the first entry with this key. -/
def removeFirst (key : Str) : List (Str × Str) → List (Str × Str)
  | [] => []
  | (k, v) :: rest => if k = key then rest else (k, v) :: removeFirst key rest

/-- `TraceState::delete_from_deque`, span_context.rs:162-170. -/
def deleteFromDeque (t : TraceState) (key : Str) : TraceState :=
  match t.kvs with
  | Option.none => t
  | some kvs => ⟨some (removeFirst key kvs)⟩

/-- `TraceState::insert`, span_context.rs:124-143. -/
def insert (t : TraceState) (key value : Str) : Except Error TraceState :=
  if !validKey key then .error (.key key)
  else if !validValue value then .error (.value value)
  else .ok ⟨some ((key, value) :: (t.deleteFromDeque key).kvs.getD [])⟩

/-- `TraceState::delete`, span_context.rs:152-159. -/
def delete (t : TraceState) (key : Str) : Except Error TraceState :=
  if !validKey key then .error (.key key) else .ok (t.deleteFromDeque key)

/-- `TraceState::header_delimited`, span_context.rs:179-189. -/
def headerDelimited (t : TraceState) (entryDelimiter listDelimiter : Str) : Str :=
  match t.kvs with
  | Option.none => []
  | some kvs => join listDelimiter (kvs.map (fun kv => kv.1 ++ entryDelimiter ++ kv.2))

/-- `TraceState::header`, span_context.rs:174-176. -/
def header (t : TraceState) : Str := t.headerDelimited ['='] [',']

/-- The loop of `from_str`, span_context.rs:199-208. -/
def parseMembers : List Str → Except Error (List (Str × Str))
  | [] => .ok []
  | m :: rest =>
    match breakAt '=' m with
    | Option.none => .error (.list m)
    | some (key, value) =>
      match parseMembers rest with
      | .error e => .error e
      | .ok r => .ok ((key, trimStart (· == '=') value) :: r)

/-- `FromStr for TraceState`, span_context.rs:192-212. -/
def fromStr (s : Str) : Except Error TraceState :=
  match parseMembers (splitTerminator ',' s) with
  | .error e => .error e
  | .ok kvs => fromKeyValue kvs

end TraceState

/-- `SpanContext`, span_context.rs:249-256. -/
structure SpanContext where
  traceId : TraceId
  spanId : SpanId
  flags : TraceFlags
  isRemote : Bool
  traceState : TraceState
deriving DecidableEq

namespace SpanContext

/-- `SpanContext::NONE`, span_context.rs:260-266. -/
def none : SpanContext := ⟨TraceId.invalid, SpanId.invalid, TraceFlags.notSampled, false, TraceState.none⟩

/-- `SpanContext::is_valid`, span_context.rs:310-312. -/
def isValid (c : SpanContext) : Bool := c.traceId != TraceId.invalid && c.spanId != SpanId.invalid

/-- `SpanContext::is_sampled`, span_context.rs:322-324. -/
def isSampled (c : SpanContext) : Bool := c.flags.isSampled

end SpanContext

end Otel
