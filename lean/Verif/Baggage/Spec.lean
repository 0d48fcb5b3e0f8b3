import Verif.Baggage.Model
/-! # Specification of baggage -/

namespace Otel.Baggage
open Rust

/-- RFC 7230 token: non-empty, visible ASCII characters other than the separators. -/
def Token (s : Str) : Prop :=
  s ≠ [] ∧ ∀ c ∈ s, 0x21 ≤ c.toNat ∧ c.toNat ≤ 0x7e ∧ c ∉ "(),/:;<=>?@[\\]{}\"".toList

/-- Bytes of all keys, values and metadata. -/
def totalSize (es : List Entry) : Nat := (es.map (fun e => byteLen e.key + byteLen e.value + byteLen e.info)).sum

/-- Content after setting a key. -/
def setEntry (es : List Entry) (k v m : Str) : List Entry :=
  if es.any (fun e => e.key = k) then es.map (fun e => if e.key = k then ⟨k, v, m⟩ else e) else es ++ [⟨k, v, m⟩]

/-- Setting `k` to `v` with metadata `m` stays within the documented limits. -/
def Fits (es : List Entry) (k v m : Str) : Prop :=
  Token k ∧ (setEntry es k v m).length ≤ 64 ∧ totalSize (setEntry es k v m) ≤ 8192

end Otel.Baggage
