import Verif.Rust.Str
/-! # Specification of trace state: legal keys and values, ordered map -/

namespace Otel.TraceStateSpec
open Rust

/-- `keychar` of the W3C grammar without `@`: a-z, 0-9, `_ - * /`. -/
def KeyChar (c : Char) : Prop := ('a' ≤ c ∧ c ≤ 'z') ∨ ('0' ≤ c ∧ c ≤ '9') ∨ c ∈ ['_', '-', '*', '/']

/-- First characters: a-z or 0-9. -/
def StartChar (c : Char) : Prop := ('a' ≤ c ∧ c ≤ 'z') ∨ ('0' ≤ c ∧ c ≤ '9')

/-- W3C Trace Context Level 2, `key = ( lcalpha / DIGIT ) 0*255 ( keychar )`, where `keychar` includes `@`. -/
def W3CKey (k : Str) : Prop :=
  k.length ≤ 256 ∧ (∃ c r, k = c :: r ∧ StartChar c) ∧ ∀ c ∈ k, KeyChar c ∨ c = '@'

/-- The keys this library takes: at most 256 characters, all of them key characters or `@`, the first a letter or digit;
at most one `@`, followed by at most 13 characters the first of which is a letter or digit. -/
def AcceptedKey (k : Str) : Prop :=
  k.length ≤ 256 ∧ (∀ c ∈ k, KeyChar c ∨ c = '@') ∧ (∀ c r, k = c :: r → StartChar c) ∧
  ∀ a b, k = a ++ '@' :: b → '@' ∉ b ∧ b.length ≤ 13 ∧ ∀ c r, b = c :: r → StartChar c

/-- The values this library takes: at most 256 bytes, without `,` and `=`. -/
def AcceptedValue (v : Str) : Prop := byteLen v ≤ 256 ∧ ',' ∉ v ∧ '=' ∉ v

/-- An ordered map as a list: most recently set first. -/
abbrev OMap := List (Str × Str)

/-- Setting a key: the entry moves to the front, the others keep their order. -/
def OMap.set (m : OMap) (k v : Str) : OMap := (k, v) :: m.filter (fun e => e.1 ≠ k)

/-- Deleting a key: the others keep their order. -/
def OMap.del (m : OMap) (k : Str) : OMap := m.filter (fun e => e.1 ≠ k)

/-- Operations of a history. -/
inductive Op where
  | insert (k v : Str)
  | delete (k : Str)

open Classical in
/-- Effect of one operation on the ordered map: a refused operation has no effect. -/
noncomputable def OMap.apply (m : OMap) : Op → OMap
  | .insert k v => if AcceptedKey k ∧ AcceptedValue v then m.set k v else m
  | .delete k => if AcceptedKey k then m.del k else m

end Otel.TraceStateSpec
