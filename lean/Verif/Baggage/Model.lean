import Verif.Rust.Str
/-! # `Baggage` (`opentelemetry/src/baggage.rs`)

The `HashMap` is a list of entries with distinct keys. Its order is not observable except when iterating; the theorems on
iteration quantify over permutations. -/

namespace Otel.Baggage
open Rust

/-- `MAX_KEY_VALUE_PAIRS`, baggage.rs:29. -/
abbrev maxPairs : Nat := 64
/-- `MAX_LEN_OF_ALL_PAIRS`, baggage.rs:30. -/
abbrev maxLen : Nat := 8192

/-- `INVALID_ASCII_KEY_CHARS`, baggage.rs:33-36. -/
def invalidKeyChars : List Char :=
  ['(', ')', ',', '/', ':', ';', '<', '=', '>', '?', '@', '[', '\\', ']', '{', '}', '"']

/-- `u8::is_ascii_graphic`. -/
def isAsciiGraphic (c : Char) : Bool := '!' ≤ c && c ≤ '~'

/-- `Baggage::is_key_valid`, baggage.rs:229-234. The code looks at bytes; the bytes of a non-ASCII character are not
graphic, so characters can be used. -/
def isKeyValid (key : Str) : Bool := !key.isEmpty && key.all (fun c => isAsciiGraphic c && !invalidKeyChars.contains c)

/-- `BaggageMetadata::from`, baggage.rs:439-449. -/
def metadataFrom (s : Str) : Str := trim s

/-- An entry: key, value, metadata. -/
structure Entry where
  key : Str
  value : Str
  info : Str
deriving DecidableEq, Repr

/-- `key_value_metadata_bytes_size`, baggage.rs:238-240. -/
def bytesSize (key value metadata : Str) : Nat := byteLen key + byteLen value + byteLen metadata

/-- `struct Baggage`, baggage.rs:65-70. -/
structure Bag where
  inner : List Entry
  contentLen : Nat
deriving DecidableEq, Repr

/-- `Baggage::new`, baggage.rs:74-79. -/
def Bag.new : Bag := ⟨[], 0⟩

/-- Lookup in the map. -/
def find (key : Str) : List Entry → Option Entry
  | [] => none
  | e :: es => if e.key = key then some e else find key es

/-- `OccupiedEntry::insert`: replace the value of an existing key. -/
def replace (key value metadata : Str) : List Entry → List Entry
  | [] => []
  | e :: es => if e.key = key then ⟨e.key, value, metadata⟩ :: es else e :: replace key value metadata es

/-- `Baggage::get_with_metadata`, baggage.rs:109-114. -/
def Bag.get (b : Bag) (key : Str) : Option (Str × Str) := (find key b.inner).map (fun e => (e.value, e.info))

/-- `Baggage::insert_with_metadata`, baggage.rs:157-206; `insert` is the case of empty metadata. -/
def Bag.insert (b : Bag) (key value metadata : Str) : Bag × Option (Str × Str) :=
  match find key b.inner with
  | some e =>
    let new := b.contentLen + bytesSize key value metadata - bytesSize key e.value e.info
    if new > maxLen then (b, none)
    else (⟨replace key value metadata b.inner, new⟩, some (e.value, e.info))
  | none =>
    if !isKeyValid key then (b, none)
    else if b.inner.length == maxPairs then (b, none)
    else
      let new := b.contentLen + bytesSize key value metadata
      if new > maxLen then (b, none)
      else (⟨b.inner ++ [⟨key, value, metadata⟩], new⟩, none)

/-- `Baggage::remove`, baggage.rs:210-212: `kv_content_len` is not reduced. -/
def Bag.remove (b : Bag) (key : Str) : Bag × Option (Str × Str) :=
  (⟨b.inner.filter (fun e => e.key ≠ key), b.contentLen⟩, b.get key)

/-- `FromIterator`, baggage.rs:263-291. -/
def Bag.fromIter (es : List Entry) : Bag := es.foldl (fun b e => (b.insert e.key e.value e.info).1) Bag.new

/-- A call on a baggage. -/
inductive Op where
  | insert (key value metadata : Str)
  | remove (key : Str)

/-- One call. -/
def Bag.step (b : Bag) : Op → Bag
  | .insert k v m => (b.insert k v m).1
  | .remove k => (b.remove k).1

/-- A history of calls on a new baggage. -/
def run (ops : List Op) : Bag := ops.foldl Bag.step Bag.new

end Otel.Baggage
