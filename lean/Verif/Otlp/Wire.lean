import Verif.Rust.Percent
import Verif.Rust.Bytes
/-!
# The protobuf wire format (the crate `prost`), C96

`prost` is not in /repo: what is modelled is the encoding of the protocol buffers documentation, with the choices of `prost` 0.13 that can be observed: a varint
has at most ten bytes and fits 64 bits, a key fits 32 bits, fields that hold their default are not written, a reader refuses messages nested more than 100
deep, and strings that are not UTF-8.

A message is a list of records, each with the number of its field and a value. Groups, which OTLP does not use, are refused by the reader here, while `prost`
skips a group with an unknown number.
-/

namespace Otel.Otlp.Wire
open Rust

/-- A value on the wire: the wire types `VARINT`, `I64`, `LEN`, `I32`. -/
inductive Val where
  | varint (n : BitVec 64)
  | i64 (b : BitVec 64)
  | len (bs : List Byte)
  | i32 (b : BitVec 32)

/-- A field of a message: its number and its value. -/
abbrev Rec := Nat × Val

/-! ## Writing -/

/-- `encode_varint` -/
def varint (n : Nat) : List Byte := if n < 128 then [BitVec.ofNat 8 n] else BitVec.ofNat 8 (n % 128 + 128) :: varint (n / 128)
termination_by n

/-- `put_u64_le`, `put_u32_le`: `k` bytes, the lowest first. -/
def le : Nat → Nat → List Byte
  | 0, _ => []
  | k + 1, n => BitVec.ofNat 8 (n % 256) :: le k (n / 256)

/-- The number of the wire type. -/
def Val.wireType : Val → Nat
  | .varint _ => 0
  | .i64 _ => 1
  | .len _ => 2
  | .i32 _ => 5

/-- The bytes of a value after its key. -/
def Val.write : Val → List Byte
  | .varint n => Wire.varint n.toNat
  | .i64 b => le 8 b.toNat
  | .len bs => Wire.varint bs.length ++ bs
  | .i32 b => le 4 b.toNat

/-- `encode_key` and the value -/
def writeRec (r : Rec) : List Byte := varint (r.1 * 8 + r.2.wireType) ++ r.2.write

/-- The bytes of a message. -/
def write (rs : List Rec) : List Byte := rs.flatMap writeRec

/-! ## Reading -/

/-- `decode_varint`; `k` bytes have been read. The tenth byte has one bit. -/
def readVarint : Nat → List Byte → Option (Nat × List Byte)
  | _, [] => none
  | k, b :: bs =>
    if b.toNat < 128 then if k = 9 ∧ 2 ≤ b.toNat then none else some (b.toNat, bs)
    else if k = 9 then none
    else (readVarint (k + 1) bs).map fun r => (b.toNat % 128 + 128 * r.1, r.2)

/-- The number of bytes, the lowest first. -/
def fromLe : List Byte → Nat
  | [] => 0
  | b :: bs => b.toNat + 256 * fromLe bs

/-- `get_u64_le`, `get_u32_le` -/
def readLe (k : Nat) (bs : List Byte) : Option (Nat × List Byte) := if bs.length < k then none else some (fromLe (bs.take k), bs.drop k)

/-- `decode_key`, and the value of that wire type. -/
def readRec (bs : List Byte) : Option (Rec × List Byte) :=
  (readVarint 0 bs).bind fun key =>
    if 2 ^ 32 ≤ key.1 ∨ key.1 / 8 = 0 then none
    else if key.1 % 8 = 0 then (readVarint 0 key.2).map fun r => ((key.1 / 8, .varint (BitVec.ofNat 64 r.1)), r.2)
    else if key.1 % 8 = 1 then (readLe 8 key.2).map fun r => ((key.1 / 8, .i64 (BitVec.ofNat 64 r.1)), r.2)
    else if key.1 % 8 = 2 then (readVarint 0 key.2).bind fun l =>
      if l.2.length < l.1 then none else some ((key.1 / 8, .len (l.2.take l.1)), l.2.drop l.1)
    else if key.1 % 8 = 5 then (readLe 4 key.2).map fun r => ((key.1 / 8, .i32 (BitVec.ofNat 32 r.1)), r.2)
    else none

/-- Records until the end; each has at least one byte. -/
def parseFuel : Nat → List Byte → Option (List Rec)
  | _, [] => some []
  | 0, _ :: _ => none
  | n + 1, b :: bs => (readRec (b :: bs)).bind fun r => (parseFuel n r.2).map (r.1 :: ·)

/-- The records of a message. -/
def parse (bs : List Byte) : Option (List Rec) := parseFuel bs.length bs

/-- The message in a value: `message::merge` reads the records of the bytes. -/
def payload : Val → Option (List Rec)
  | .len bs => parse bs
  | _ => none

/-- The values of a field, in order. -/
def sel (t : Nat) (rs : List Rec) : List Val := rs.filterMap fun r => if r.1 = t then some r.2 else none

/-! ## Round trip of records -/

theorem varint_lt {n : Nat} (h : n < 128) : varint n = [BitVec.ofNat 8 n] := by rw [varint, if_pos h]

theorem varint_ge {n : Nat} (h : ¬ n < 128) : varint n = BitVec.ofNat 8 (n % 128 + 128) :: varint (n / 128) := by rw [varint, if_neg h]

theorem varint_ne_nil (n : Nat) : varint n ≠ [] := by
  by_cases h : n < 128
  · rw [varint_lt h]; simp
  · rw [varint_ge h]; simp

theorem readVarint_varint (n : Nat) : ∀ (k : Nat) (rest : List Byte), k ≤ 9 → n < 2 ^ (64 - 7 * k) → readVarint k (varint n ++ rest) = some (n, rest) := by
  induction n using Nat.strongRecOn with
  | _ n ih =>
    intro k rest hk hn
    by_cases h : n < 128
    · have hb : (BitVec.ofNat 8 n).toNat = n := by rw [BitVec.toNat_ofNat]; exact Nat.mod_eq_of_lt (by omega)
      rw [varint_lt h, List.singleton_append, readVarint, hb, if_pos h, if_neg]
      rintro ⟨rfl, h2⟩
      have : n < 2 := hn
      omega
    · have hb : (BitVec.ofNat 8 (n % 128 + 128)).toNat = n % 128 + 128 := by rw [BitVec.toNat_ofNat]; exact Nat.mod_eq_of_lt (by omega)
      have hk9 : k ≠ 9 := by
        rintro rfl
        have : n < 2 := hn
        omega
      have he : 64 - 7 * k = 7 + (64 - 7 * (k + 1)) := by omega
      rw [he, Nat.pow_add] at hn
      have hd : n / 128 < 2 ^ (64 - 7 * (k + 1)) := Nat.div_lt_of_lt_mul hn
      rw [varint_ge h, List.cons_append, readVarint, hb, if_neg (by omega), if_neg hk9, ih (n / 128) (by omega) (k + 1) rest (by omega) hd]
      simp only [Option.map_some, Option.some.injEq, Prod.mk.injEq, and_true]
      omega

theorem readVarint_start (n : Nat) (rest : List Byte) (h : n < 2 ^ 64) : readVarint 0 (varint n ++ rest) = some (n, rest) :=
  readVarint_varint n 0 rest (by omega) h

theorem le_length (k n : Nat) : (le k n).length = k := by
  induction k generalizing n with
  | zero => rfl
  | succ k ih => simp [le, ih]

theorem fromLe_le (k n : Nat) : fromLe (le k n) = n % 256 ^ k := by
  induction k generalizing n with
  | zero => simp [le, fromLe, Nat.mod_one]
  | succ k ih =>
    have : (BitVec.ofNat 8 (n % 256)).toNat = n % 256 := by rw [BitVec.toNat_ofNat]; exact Nat.mod_eq_of_lt (by omega)
    rw [le, fromLe, ih, this, Nat.pow_succ, Nat.mul_comm (256 ^ k) 256, Nat.mod_mul]

theorem readLe_le (k n : Nat) (rest : List Byte) : readLe k (le k n ++ rest) = some (n % 256 ^ k, rest) := by
  have h := le_length k n
  rw [readLe, if_neg (by simp [h]), List.take_append_of_le_length (by omega), List.drop_append_of_le_length (by omega), List.take_of_length_le (by omega),
    List.drop_eq_nil_of_le (by omega), fromLe_le]
  simp

/-- The numbers a field can have, and a length that can be written. -/
def RecOk (r : Rec) : Prop := 1 ≤ r.1 ∧ r.1 < 2 ^ 29 ∧ ∀ bs, r.2 = .len bs → bs.length < 2 ^ 64

theorem readRec_writeRec (r : Rec) (rest : List Byte) (h : RecOk r) : readRec (writeRec r ++ rest) = some (r, rest) := by
  obtain ⟨t, v⟩ := r
  obtain ⟨h1, h2, h3⟩ := h
  simp only at h1 h2 h3
  have hw : v.wireType < 8 := by cases v <;> simp [Val.wireType]
  have hk : t * 8 + v.wireType < 2 ^ 32 := by omega
  have hd : (t * 8 + v.wireType) / 8 = t := by omega
  have hm : (t * 8 + v.wireType) % 8 = v.wireType := by omega
  rw [readRec, writeRec, List.append_assoc, readVarint_start _ _ (show t * 8 + v.wireType < 2 ^ 64 by omega), Option.bind_some]
  simp only [hd, hm]
  rw [if_neg (by omega)]
  cases v with
  | varint n =>
    simp only [Val.wireType, Val.write, if_true]
    rw [readVarint_start _ _ n.isLt]
    simp
  | i64 b =>
    simp only [Val.wireType, Val.write, if_true]
    rw [if_neg (by decide), readLe_le]
    simp only [Option.map_some]
    rw [Nat.mod_eq_of_lt (by simpa using b.isLt)]
    simp
  | len bs =>
    simp only [Val.wireType, Val.write, if_true]
    rw [if_neg (by decide), if_neg (by decide), List.append_assoc, readVarint_start _ _ (h3 bs rfl), Option.bind_some]
    simp
  | i32 b =>
    simp only [Val.wireType, Val.write, if_true]
    rw [if_neg (by decide), if_neg (by decide), if_neg (by decide), readLe_le]
    simp only [Option.map_some]
    rw [Nat.mod_eq_of_lt (by simpa using b.isLt)]
    simp

theorem writeRec_ne_nil (r : Rec) : writeRec r ≠ [] := by
  rw [writeRec]
  intro h
  exact varint_ne_nil _ (List.append_eq_nil_iff.1 h).1

theorem write_cons (r : Rec) (rs : List Rec) : write (r :: rs) = writeRec r ++ write rs := by simp [write]

theorem write_append (a b : List Rec) : write (a ++ b) = write a ++ write b := by simp [write]

theorem parseFuel_write (rs : List Rec) (h : ∀ r ∈ rs, RecOk r) : ∀ n, (write rs).length ≤ n → parseFuel n (write rs) = some rs := by
  induction rs with
  | nil => intro n _; cases n <;> rfl
  | cons r rs ih =>
    intro n hn
    rw [write_cons] at hn ⊢
    obtain ⟨b, bs, hb⟩ : ∃ b bs, writeRec r = b :: bs := by
      cases hw : writeRec r with
      | nil => exact absurd hw (writeRec_ne_nil r)
      | cons b bs => exact ⟨b, bs, rfl⟩
    have hr := readRec_writeRec r (write rs) (h r List.mem_cons_self)
    rw [hb, List.cons_append] at hn hr ⊢
    cases n with
    | zero => simp at hn
    | succ n =>
      rw [parseFuel, hr, Option.bind_some, ih (fun x hx => h x (List.mem_cons_of_mem _ hx)) n (by simp at hn; omega)]
      rfl

/-- What is written is read, if the numbers are possible and the message is shorter than 2^64 bytes. -/
theorem parse_write (rs : List Rec) (h : ∀ r ∈ rs, RecOk r) : parse (write rs) = some rs := parseFuel_write rs h _ Nat.le.refl

theorem len_le_write {rs : List Rec} {t : Nat} {bs : List Byte} (h : (t, Val.len bs) ∈ rs) : bs.length ≤ (write rs).length := by
  induction rs with
  | nil => cases h
  | cons r rs ih =>
    rw [write_cons, List.length_append]
    rcases List.mem_cons.1 h with rfl | h
    · simp only [writeRec, Val.write, List.length_append]; omega
    · have := ih h; omega

/-- The numbers are possible. -/
def Numbered (rs : List Rec) : Prop := ∀ r ∈ rs, 1 ≤ r.1 ∧ r.1 < 2 ^ 29

theorem parse_small {rs : List Rec} (h : Numbered rs) (hs : (write rs).length < 2 ^ 64) : parse (write rs) = some rs :=
  parse_write rs fun r hr => ⟨(h r hr).1, (h r hr).2, fun bs hb => by
    obtain ⟨t, v⟩ := r
    simp only at hb
    subst hb
    have := len_le_write hr
    omega⟩

end Otel.Otlp.Wire
