import Verif.Trace.Ids
import Mathlib.Data.List.Induction
/-! # Property theorems: id encodings (C05) -/

namespace Otel
open Rust

theorem beBytes_length (k n : Nat) : (beBytes k n).length = k := by
  induction k generalizing n with
  | zero => rfl
  | succ k ih => simp [beBytes, ih]

theorem ofBeBytes_append_singleton (bs : List (BitVec 8)) (b : BitVec 8) :
    ofBeBytes (bs ++ [b]) = ofBeBytes bs * 256 + b.toNat := by
  simp [ofBeBytes]

theorem ofBeBytes_beBytes {k n : Nat} (h : n < 256 ^ k) : ofBeBytes (beBytes k n) = n := by
  induction k generalizing n with
  | zero => simp at h; subst h; rfl
  | succ k ih =>
    rw [beBytes, ofBeBytes_append_singleton, ih (by rw [Nat.pow_succ] at h; omega)]
    simp only [BitVec.toNat_ofNat]; omega

theorem ofBeBytes_lt (bs : List (BitVec 8)) : ofBeBytes bs < 256 ^ bs.length := by
  induction bs using List.reverseRecOn with
  | nil => simp [ofBeBytes]
  | append_singleton bs b ih =>
    have hb := b.isLt
    rw [ofBeBytes_append_singleton, List.length_append, List.length_singleton, Nat.pow_succ]; omega

theorem beBytes_ofBeBytes (bs : List (BitVec 8)) : beBytes bs.length (ofBeBytes bs) = bs := by
  induction bs using List.reverseRecOn with
  | nil => rfl
  | append_singleton bs b ih =>
    have hb := b.isLt
    have h1 : (ofBeBytes bs * 256 + b.toNat) / 256 = ofBeBytes bs := by omega
    have h2 : BitVec.ofNat 8 (ofBeBytes bs * 256 + b.toNat) = b := by
      apply BitVec.eq_of_toNat_eq
      simp only [BitVec.toNat_ofNat]; omega
    rw [ofBeBytes_append_singleton, List.length_append, List.length_singleton, beBytes, h1, h2, ih]

/-- **C05 (trace id, text).** Parsing the printed form gives the id back. -/
theorem traceId_text_roundtrip (t : TraceId) : TraceId.fromHex t.toText = some t := by
  have h : t.toNat < 16 ^ 32 := by have := t.isLt; omega
  simp [TraceId.fromHex, TraceId.toText, parseHex_fmtHex (by omega) h t.isLt]

/-- **C05 (span id, text).** -/
theorem spanId_text_roundtrip (t : SpanId) : SpanId.fromHex t.toText = some t := by
  have h : t.toNat < 16 ^ 16 := by have := t.isLt; omega
  simp [SpanId.fromHex, SpanId.toText, parseHex_fmtHex (by omega) h t.isLt]

/-- **C05 (shape).** The text of a trace id is exactly 32 lowercase hexadecimal digits, of a span id exactly 16. -/
theorem id_text_shape (t : TraceId) (s : SpanId) :
    (t.toText.length = 32 ∧ ∀ c ∈ t.toText, c ∈ "0123456789abcdef".toList) ∧
    (s.toText.length = 16 ∧ ∀ c ∈ s.toText, c ∈ "0123456789abcdef".toList) := by
  have key : ∀ c, isLowerHex c = true → c ∈ "0123456789abcdef".toList := by
    intro c h
    have := isLowerHex_not h (fun c => decide (c ∈ "0123456789abcdef".toList)) (by decide +kernel)
    simpa using this
  exact ⟨⟨fmtHex_length _ _, fun c hc => key c (fmtHex_lower _ _ c hc)⟩,
    fmtHex_length _ _, fun c hc => key c (fmtHex_lower _ _ c hc)⟩

/-- **C05 (injectivity).** Distinct ids have distinct texts. -/
theorem id_text_injective : (∀ a b : TraceId, a.toText = b.toText → a = b) ∧ (∀ a b : SpanId, a.toText = b.toText → a = b) := by
  constructor
  · intro a b h
    have h1 := traceId_text_roundtrip a
    rw [h, traceId_text_roundtrip] at h1
    exact (Option.some.inj h1).symm
  · intro a b h
    have h1 := spanId_text_roundtrip a
    rw [h, spanId_text_roundtrip] at h1
    exact (Option.some.inj h1).symm

/-- **C05 (bytes).** The byte encodings are inverse to each other in both directions, with exactly 16 and 8 bytes. -/
theorem traceId_bytes_roundtrip :
    (∀ t : TraceId, t.toBytes.length = 16 ∧ TraceId.fromBytes t.toBytes = t) ∧
    (∀ bs : List (BitVec 8), bs.length = 16 → (TraceId.fromBytes bs).toBytes = bs) := by
  constructor
  · intro t
    refine ⟨beBytes_length _ _, ?_⟩
    have h : t.toNat < 256 ^ 16 := by have := t.isLt; omega
    simp [TraceId.fromBytes, TraceId.toBytes, ofBeBytes_beBytes h]
  · intro bs hl
    have h := ofBeBytes_lt bs
    have h2 := beBytes_ofBeBytes bs
    rw [hl] at h h2
    have h3 : ofBeBytes bs % 2 ^ 128 = ofBeBytes bs := Nat.mod_eq_of_lt (by omega)
    simp only [TraceId.fromBytes, TraceId.toBytes, BitVec.toNat_ofNat, h3, h2]

theorem spanId_bytes_roundtrip :
    (∀ t : SpanId, t.toBytes.length = 8 ∧ SpanId.fromBytes t.toBytes = t) ∧
    (∀ bs : List (BitVec 8), bs.length = 8 → (SpanId.fromBytes bs).toBytes = bs) := by
  constructor
  · intro t
    refine ⟨beBytes_length _ _, ?_⟩
    have h : t.toNat < 256 ^ 8 := by have := t.isLt; omega
    simp [SpanId.fromBytes, SpanId.toBytes, ofBeBytes_beBytes h]
  · intro bs hl
    have h := ofBeBytes_lt bs
    have h2 := beBytes_ofBeBytes bs
    rw [hl] at h h2
    have h3 : ofBeBytes bs % 2 ^ 64 = ofBeBytes bs := Nat.mod_eq_of_lt (by omega)
    simp only [SpanId.fromBytes, SpanId.toBytes, BitVec.toNat_ofNat, h3, h2]

/-- Most significant byte first: the encoding is big-endian (concrete check of the model's byte order). -/
example : TraceId.toBytes 0x0102#128 = List.replicate 14 0#8 ++ [1#8, 2#8] ∧
    TraceId.toText 0xab#128 = "000000000000000000000000000000ab".toList := by decide +kernel

/-- **C05 (flags).** `with_sampled` sets or clears exactly the sampled bit. -/
theorem flags_with_sampled (f : TraceFlags) (b : Bool) :
    (f.withSampled b).isSampled = b ∧ ∀ i, 0 < i → (f.withSampled b).getLsbD i = f.getLsbD i := by
  constructor
  · revert f b; decide +kernel
  · intro i hi
    have h1 : (1#8).getLsbD i = false := by
      rw [BitVec.getLsbD_one]; simp; omega
    cases b
    · simp only [TraceFlags.withSampled, TraceFlags.sampled, Bool.false_eq_true, if_false, BitVec.getLsbD_and,
        BitVec.getLsbD_not, h1]
      by_cases h8 : i < 8
      · simp [h8]
      · simp [h8, BitVec.getLsbD_of_ge f i (by omega)]
    · simp only [TraceFlags.withSampled, TraceFlags.sampled, if_true, BitVec.getLsbD_or, h1, Bool.or_false]

end Otel
