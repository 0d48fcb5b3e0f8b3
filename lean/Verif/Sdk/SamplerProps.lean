import Verif.Sdk.Sampler
import Mathlib.Data.Finset.Card
import Mathlib.Data.Finset.Range
/-! # C19: ratio sampling -/

namespace Otel.Sdk
open Otel.Ctx Rust

/-- The low 63-bit suffix the sampler looks at: bits 1 to 63 of the id. -/
def idSuffix (t : TraceId) : Nat := t.toNat / 2 % 2 ^ 63

/-- The trace id with high part 0, the given suffix, and last bit 0. -/
def idOfSuffix (s : Nat) : TraceId := BitVec.ofNat 128 (2 * s)

theorem low_eq (t : TraceId) : ofBeBytes ((TraceId.toBytes t).drop 8) >>> 1 = idSuffix t := by
  have h : ofBeBytes ((TraceId.toBytes t).drop 8) = t.toNat % 2 ^ 64 := by
    have := t.isLt
    simp [TraceId.toBytes, beBytes, ofBeBytes]
    omega
  rw [h, idSuffix, Nat.shiftRight_eq_div_pow]; omega

theorem idSuffix_idOfSuffix {s : Nat} (h : s < 2 ^ 63) : idSuffix (idOfSuffix s) = s := by
  simp [idSuffix, idOfSuffix]; omega

/-- The threshold for a ratio in the unit interval is exact. -/
theorem bound_eq (r : F64.Rounding) {p : Rat} (hp : F64.Representable p) (h0 : 0 ≤ p) (h1 : p < 1) :
    (((F64.fin p).max0).mulPos r (2 ^ 63)).toU64 = ⌊p * 2 ^ 63⌋.toNat := by
  have hlt : ⌊p * 2 ^ 63⌋ < 2 ^ 63 := by
    rw [Int.floor_lt]; push_cast; nlinarith
  simp only [F64.max0]
  by_cases hz : p ≤ 0
  · have : p = 0 := le_antisymm hz h0
    subst this
    simp [F64.mulPos, r.exact 0 F64.representable_zero, F64.toU64]
  · simp only [if_neg hz, F64.mulPos, r.exact _ (F64.representable_scale hp h0 h1), F64.toU64]
    omega

/-- **C19 (threshold)** For a ratio `p` in the unit interval an id is sampled exactly when its 63-bit suffix is below
`floor(p * 2^63)`; no rounding error enters. -/
theorem ratio_threshold (r : F64.Rounding) {p : Rat} (hp : F64.Representable p) (h0 : 0 ≤ p) (h1 : p < 1) (t : TraceId) :
    sampleBasedOnProbability r (.fin p) t = .recordAndSample ↔ (idSuffix t : Int) < ⌊p * 2 ^ 63⌋ := by
  have hf : 0 ≤ ⌊p * 2 ^ 63⌋ := Int.floor_nonneg.2 (by positivity)
  unfold sampleBasedOnProbability
  rw [if_neg (by simp [F64.ge, h1])]
  dsimp only
  rw [low_eq, bound_eq r hp h0 h1]
  split <;> simp <;> omega

/-- The decision is never "record only". -/
theorem ratio_two_valued (r : F64.Rounding) (p : F64) (t : TraceId) :
    sampleBasedOnProbability r p t = .recordAndSample ∨ sampleBasedOnProbability r p t = .drop := by
  unfold sampleBasedOnProbability
  dsimp only
  split
  · simp
  · split <;> simp

/-- **C19 (extremes)** ratio at least 1: every id is sampled. -/
theorem ratio_ge_one (r : F64.Rounding) {p : F64} (h : p.ge (.fin 1) = true) (t : TraceId) :
    sampleBasedOnProbability r p t = .recordAndSample := by
  simp [sampleBasedOnProbability, h]

/-- **C19 (extremes)** ratio at most 0, or not a number: no id is sampled. -/
theorem ratio_le_zero (r : F64.Rounding) {p : F64} (h : (F64.fin 0).ge p = true ∨ p = .nan) (t : TraceId) :
    sampleBasedOnProbability r p t = .drop := by
  have hb : ((p.max0).mulPos r (2 ^ 63)).toU64 = 0 := by
    have h0 : (r.rnd (0 * 2 ^ 63)) = .fin 0 := by rw [zero_mul]; exact r.exact 0 F64.representable_zero
    rcases h with h | rfl
    · cases p with
      | nan => simp [F64.ge] at h
      | posInf => simp [F64.ge] at h
      | negInf => simp only [F64.max0, F64.mulPos, h0, F64.toU64]; simp
      | fin q =>
        have : q ≤ 0 := by simpa [F64.ge] using h
        simp only [F64.max0, if_pos this, F64.mulPos, h0, F64.toU64]; simp
    · simp only [F64.max0, F64.mulPos, h0, F64.toU64]; simp
  have hg : p.ge (.fin 1) = false := by
    rcases h with h | rfl
    · cases p with
      | nan => rfl
      | posInf => simp [F64.ge] at h
      | negInf => rfl
      | fin q =>
        have : q ≤ 0 := by simpa [F64.ge] using h
        simp only [F64.ge, decide_eq_false_iff_not, not_le]; linarith
    · rfl
  simp [sampleBasedOnProbability, hg, hb]

/-- **C19 (monotone)** An id sampled at one ratio is sampled at every larger one. -/
theorem ratio_monotone (r : F64.Rounding) {p q : F64} (hp : p.WF) (hq : q.WF) (hle : q.ge p = true) (t : TraceId)
    (hs : sampleBasedOnProbability r p t = .recordAndSample) :
    sampleBasedOnProbability r q t = .recordAndSample := by
  by_cases hq1 : q.ge (.fin 1) = true
  · exact ratio_ge_one r hq1 t
  by_cases hp0 : (F64.fin 0).ge p = true ∨ p = .nan
  · rw [ratio_le_zero r hp0] at hs; cases hs
  cases p with
  | nan => simp at hp0
  | negInf => simp [F64.ge] at hp0
  | posInf => cases q <;> simp_all [F64.ge]
  | fin a =>
    cases q with
    | nan => simp [F64.ge] at hle
    | negInf => simp [F64.ge] at hle
    | posInf => simp [F64.ge] at hq1
    | fin b =>
      have hab : a ≤ b := by simpa [F64.ge] using hle
      have hb1 : b < 1 := by simpa [F64.ge] using hq1
      have ha0 : 0 < a := by
        by_contra hneg
        exact hp0 (Or.inl (by simp [F64.ge]; linarith))
      have ha1 : a < 1 := by linarith
      rw [ratio_threshold r hp ha0.le ha1] at hs
      rw [ratio_threshold r hq (ha0.le.trans hab) hb1]
      have : ⌊a * 2 ^ 63⌋ ≤ ⌊b * 2 ^ 63⌋ := Int.floor_le_floor (by nlinarith)
      omega

/-- **C19 (count)** Among the `2^63` id suffixes exactly `floor(p * 2^63)` are sampled. -/
theorem ratio_count (r : F64.Rounding) {p : Rat} (hp : F64.Representable p) (h0 : 0 ≤ p) (h1 : p < 1) :
    (((Finset.range (2 ^ 63)).filter
      (fun s => sampleBasedOnProbability r (.fin p) (idOfSuffix s) = .recordAndSample)).card : Int) = ⌊p * 2 ^ 63⌋ := by
  have hf : 0 ≤ ⌊p * 2 ^ 63⌋ := Int.floor_nonneg.2 (by positivity)
  have hlt : ⌊p * 2 ^ 63⌋ < 2 ^ 63 := by
    rw [Int.floor_lt]; push_cast; nlinarith
  obtain ⟨k, hk⟩ := Int.eq_ofNat_of_zero_le hf
  have hkk : k < 2 ^ 63 := by omega
  generalize hN : (2 : Nat) ^ 63 = N at *
  have : (Finset.range N).filter
      (fun s => sampleBasedOnProbability r (.fin p) (idOfSuffix s) = .recordAndSample) = Finset.range k := by
    ext s
    simp only [Finset.mem_filter, Finset.mem_range]
    constructor
    · rintro ⟨hs, h⟩
      rw [ratio_threshold r hp h0 h1, idSuffix_idOfSuffix (by omega), hk] at h
      exact_mod_cast h
    · intro hs
      have hsN : s < N := by omega
      refine ⟨hsN, ?_⟩
      rw [ratio_threshold r hp h0 h1, idSuffix_idOfSuffix (by omega), hk]
      exact_mod_cast hs
  rw [this, Finset.card_range, hk]

variable {A L B : Type} {U : Nat → Type} {W : Type}

/-- **C19 (determinism)** The decision of a ratio sampler depends on the trace id alone: not on the parent, name, kind,
attributes, links, or anything that happened before. -/
theorem ratio_id_only (r : F64.Rounding) (p : F64) (a a' : SampleArgs A L B U) (w w' : W) (h : a.traceId = a'.traceId) :
    ((Sampler.traceIdRatioBased p).shouldSample r a w).1.decision =
      ((Sampler.traceIdRatioBased p).shouldSample r a' w').1.decision := by
  simp [Sampler.shouldSample, Sampler.decide, h]

/-- Non-vacuity: one half is a ratio the theorems apply to; it samples id 0 and not the all-ones id. -/
example : sampleBasedOnProbability F64.someRounding (.fin (1 / 2)) 0#128 = .recordAndSample
    ∧ sampleBasedOnProbability F64.someRounding (.fin (1 / 2)) (BitVec.allOnes 128) ≠ .recordAndSample := by
  have h1 := ratio_threshold F64.someRounding F64.representable_half (by norm_num) (by norm_num)
  constructor
  · rw [h1]; norm_num [idSuffix]
  · rw [Ne, h1]; norm_num [idSuffix]

example : ((F64.fin (1 / 2)).ge (.fin (1 / 4))) = true := by norm_num [F64.ge]

end Otel.Sdk
