import Verif.Propagation.BaggageProps
import Verif.Propagation.JaegerProps
/-! # Property theorems: exactly what baggage, B3 and Jaeger extraction accept (C13, C15, C16, C17) -/

namespace Otel.Prop
open Rust

theorem lowerChar_fix (c : Char) : lowerChar c = c ↔ isAsciiUpper c = false := by
  unfold lowerChar
  constructor
  · intro h
    cases hu : isAsciiUpper c
    · rfl
    · exfalso
      rw [hu] at h
      simp only [if_true] at h
      have hu' : 'A' ≤ c ∧ c ≤ 'Z' := by simpa [isAsciiUpper] using hu
      have h2 : c.toNat ≤ 90 := hu'.2
      have hv : (Char.ofNat (c.toNat + 32)).toNat = c.toNat + 32 := by
        unfold Char.ofNat
        rw [dif_pos (by left; omega)]
        rfl
      rw [h] at hv
      omega
  · intro h; rw [h]; rfl

theorem lower_fix (s : Str) : lower s = s ↔ ∀ c ∈ s, isAsciiUpper c = false := by
  induction s with
  | nil => simp [lower]
  | cons c s ih =>
    rw [show lower (c :: s) = lowerChar c :: lower s from rfl]
    simp only [List.cons.injEq, ih, lowerChar_fix, List.mem_cons, forall_eq_or_imp]

namespace B3

/-! ## Specification -/

/-- `s` has no upper case letter and denotes the hexadecimal number `n`. -/
def LowerHexNum (s : Str) (n : Nat) : Prop := HexNum s n ∧ ∀ c ∈ s, ¬ ('A' ≤ c ∧ c ≤ 'Z')

/-- A B3 trace id: 16 or 32 bytes. -/
def TraceIdText (s : Str) (t : TraceId) : Prop :=
  (byteLen s = 16 ∨ byteLen s = 32) ∧ ∃ n, LowerHexNum s n ∧ n < 2 ^ 128 ∧ t = BitVec.ofNat 128 n

/-- A B3 span id: 16 bytes. -/
def SpanIdText (s : Str) (t : SpanId) : Prop :=
  byteLen s = 16 ∧ ∃ n, LowerHexNum s n ∧ n < 2 ^ 64 ∧ t = BitVec.ofNat 64 n

/-- The encodings that read and write the single header. -/
def UsesSingle (enc : Encoding) : Prop := enc = .singleHeader ∨ enc = .singleAndMultiHeader

/-- A sampling state: `0`, `false` deny, `1` accepts; `d` is debug where the single header is in use, `true` accepts where it
is not. -/
def StateText (enc : Encoding) (s : Str) (f : TraceFlags) : Prop :=
  ((s = "0".toList ∨ s = "false".toList) ∧ f = 0#8) ∨ (s = "1".toList ∧ f = 1#8) ∨
  (s = "true".toList ∧ ¬ UsesSingle enc ∧ f = 1#8) ∨ (s = "d".toList ∧ UsesSingle enc ∧ f = 4#8)

/-- What the single header says: `{trace id}-{span id}`, `{trace id}-{span id}-{state}` or
`{trace id}-{span id}-{state}-{parent span id}`, with non-zero ids. -/
def SaysSingle (enc : Encoding) (h : Str) (sc : SpanContext) : Prop :=
  ∃ t s rest tid sid f, splitTerminator '-' h = t :: s :: rest ∧ TraceIdText t tid ∧ SpanIdText s sid ∧ tid ≠ 0#128 ∧ sid ≠ 0#64 ∧
    ((rest = [] ∧ f = 2#8) ∨ (∃ st, rest = [st] ∧ StateText enc st f) ∨
     (∃ st p pid, rest = [st, p] ∧ StateText enc st f ∧ SpanIdText p pid)) ∧
    sc = ⟨tid, sid, f, true, TraceState.none⟩

/-- The flags of the multiple header form: `x-b3-flags` decides if it is `0` or `1`, otherwise `x-b3-sampled`, which
must be a state if it is present. -/
def SaysFlags (enc : Encoding) (ex : Extractor) (f : TraceFlags) : Prop :=
  (ex.get "x-b3-flags".toList = some "1".toList ∧ f = 5#8) ∨ (ex.get "x-b3-flags".toList = some "0".toList ∧ f = 0#8) ∨
  (ex.get "x-b3-flags".toList ≠ some "0".toList ∧ ex.get "x-b3-flags".toList ≠ some "1".toList ∧
    ((∃ st, ex.get "x-b3-sampled".toList = some st ∧ StateText enc st f) ∨ (ex.get "x-b3-sampled".toList = none ∧ f = 2#8)))

/-- What the multiple headers say. -/
def SaysMulti (enc : Encoding) (ex : Extractor) (sc : SpanContext) : Prop :=
  ∃ t s tid sid f, ex.get "x-b3-traceid".toList = some t ∧ ex.get "x-b3-spanid".toList = some s ∧ TraceIdText t tid ∧
    SpanIdText s sid ∧ tid ≠ 0#128 ∧ sid ≠ 0#64 ∧ SaysFlags enc ex f ∧ sc = ⟨tid, sid, f, true, TraceState.none⟩

/-- What the single header of a carrier says. -/
def CarriesSingle (enc : Encoding) (ex : Extractor) (sc : SpanContext) : Prop :=
  ∃ h, ex.get "b3".toList = some h ∧ SaysSingle enc h sc

/-! ## Lemmas -/

theorem upper_iff (c : Char) : isAsciiUpper c = false ↔ ¬ ('A' ≤ c ∧ c ≤ 'Z') := by
  unfold isAsciiUpper
  rw [← Bool.not_eq_true, Bool.and_eq_true, decide_eq_true_eq, decide_eq_true_eq]

theorem lower_iff (s : Str) : lower s = s ↔ ∀ c ∈ s, ¬ ('A' ≤ c ∧ c ≤ 'Z') := by
  rw [lower_fix]; exact forall_congr' (fun c => imp_congr_right (fun _ => upper_iff c))

theorem extractTraceId_iff (s : Str) (t : TraceId) : extractTraceId s = some t ↔ TraceIdText s t := by
  unfold extractTraceId TraceIdText LowerHexNum TraceId.fromHex
  rw [← lower_iff]
  constructor
  · intro h
    split at h
    · cases h
    · rename_i hc
      obtain ⟨n, hn, rfl⟩ := Option.map_eq_some_iff.1 h
      obtain ⟨h1, h2⟩ := (parseHex_iff _ _ _).1 hn
      refine ⟨by omega, n, ⟨h1, ?_⟩, h2, rfl⟩
      exact Classical.byContradiction (fun e => hc (Or.inl e))
  · rintro ⟨hl, n, ⟨h1, h2⟩, h3, rfl⟩
    rw [if_neg (by rintro (e | e); exact e h2; omega), (parseHex_iff _ _ _).2 ⟨h1, h3⟩]; rfl

theorem extractSpanId_iff (s : Str) (t : SpanId) : extractSpanId s = some t ↔ SpanIdText s t := by
  unfold extractSpanId SpanIdText LowerHexNum SpanId.fromHex
  rw [← lower_iff]
  constructor
  · intro h
    split at h
    · cases h
    · rename_i hc
      obtain ⟨n, hn, rfl⟩ := Option.map_eq_some_iff.1 h
      obtain ⟨h1, h2⟩ := (parseHex_iff _ _ _).1 hn
      refine ⟨by omega, n, ⟨h1, ?_⟩, h2, rfl⟩
      exact Classical.byContradiction (fun e => hc (Or.inl e))
  · rintro ⟨hl, n, ⟨h1, h2⟩, h3, rfl⟩
    rw [if_neg (by rintro (e | e); exact e h2; omega), (parseHex_iff _ _ _).2 ⟨h1, h3⟩]; rfl

theorem support_single (enc : Encoding) : enc.support .singleHeader = true ↔ UsesSingle enc := by
  cases enc <;> simp [UsesSingle] <;> decide

theorem extractSampledState_iff (enc : Encoding) (s : Str) (f : TraceFlags) :
    extractSampledState enc s = some f ↔ StateText enc s f := by
  unfold extractSampledState StateText
  rw [← support_single, Bool.not_eq_true]
  have d1 : "1".toList ≠ "0".toList := by decide
  have d2 : "1".toList ≠ "false".toList := by decide
  have d3 : "true".toList ≠ "0".toList := by decide
  have d4 : "true".toList ≠ "false".toList := by decide
  have d5 : "true".toList ≠ "1".toList := by decide
  have d6 : "d".toList ≠ "0".toList := by decide
  have d7 : "d".toList ≠ "false".toList := by decide
  have d8 : "d".toList ≠ "1".toList := by decide
  have d9 : "d".toList ≠ "true".toList := by decide
  generalize "0".toList = z at *
  generalize "1".toList = o at *
  generalize "false".toList = fa at *
  generalize "true".toList = tr at *
  generalize "d".toList = dd at *
  constructor
  · intro h
    split at h
    · rename_i h0; cases h; exact Or.inl ⟨h0, rfl⟩
    · split at h
      · rename_i h0; cases h; exact Or.inr (Or.inl ⟨h0, rfl⟩)
      · split at h
        · rename_i h0; cases h; exact Or.inr (Or.inr (Or.inl ⟨h0.1, h0.2, rfl⟩))
        · split at h
          · rename_i h0; cases h; exact Or.inr (Or.inr (Or.inr ⟨h0.1, h0.2, rfl⟩))
          · cases h
  · rintro (⟨h, rfl⟩ | ⟨rfl, rfl⟩ | ⟨rfl, h, rfl⟩ | ⟨rfl, h, rfl⟩)
    · rw [if_pos h]; rfl
    · rw [if_neg (by rintro (e | e); exact d1 e; exact d2 e), if_pos rfl]; rfl
    · rw [if_neg (by rintro (e | e); exact d3 e; exact d4 e), if_neg d5, if_pos ⟨rfl, h⟩]; rfl
    · rw [if_neg (by rintro (e | e); exact d6 e; exact d7 e), if_neg d8, if_neg (fun e => d9 e.1), if_pos ⟨rfl, h⟩]; rfl

theorem extractDebugFlag_iff (s : Str) (f : TraceFlags) :
    extractDebugFlag s = some f ↔ (s = "1".toList ∧ f = 5#8) ∨ (s = "0".toList ∧ f = 0#8) := by
  unfold extractDebugFlag
  constructor
  · intro h
    split at h
    · rename_i h0; cases h; exact Or.inr ⟨h0, rfl⟩
    · split at h
      · rename_i h0; cases h; exact Or.inl ⟨h0, by decide⟩
      · cases h
  · rintro (⟨rfl, rfl⟩ | ⟨rfl, rfl⟩) <;> decide

theorem ifValid_iff (t : TraceId) (s : SpanId) (f : TraceFlags) (sc : SpanContext) :
    ifValid ⟨t, s, f, true, TraceState.none⟩ = some sc ↔ t ≠ 0#128 ∧ s ≠ 0#64 ∧ sc = ⟨t, s, f, true, TraceState.none⟩ := by
  unfold ifValid
  have hv : SpanContext.isValid ⟨t, s, f, true, TraceState.none⟩ = true ↔ t ≠ 0#128 ∧ s ≠ 0#64 := by
    simp [SpanContext.isValid, TraceId.invalid, SpanId.invalid]
  split
  · rename_i h
    rw [hv] at h
    simp only [Option.some.injEq]
    exact ⟨fun e => ⟨h.1, h.2, e.symm⟩, fun e => e.2.2.symm⟩
  · rename_i h
    constructor
    · intro e; cases e
    · rintro ⟨a, b, _⟩; exact absurd (hv.2 ⟨a, b⟩) h

theorem extractSingle_iff (enc : Encoding) (ex : Extractor) (sc : SpanContext) :
    extractSingle enc ex = some sc ↔ CarriesSingle enc ex sc := by
  unfold extractSingle CarriesSingle SaysSingle
  rw [show singleHeader = "b3".toList from rfl]
  cases hg : ex.get "b3".toList with
  | none =>
    simp only [Option.getD_none, splitTerminator_nil]
    constructor
    · intro h; cases h
    · rintro ⟨h, e, _⟩; cases e
  | some hd =>
    simp only [Option.getD_some, Option.some.injEq, exists_eq_left']
    generalize splitTerminator '-' hd = ps
    constructor
    · intro h
      split at h
      · rename_i p0 p1
        simp only [Option.bind_eq_bind, Option.bind_eq_some_iff] at h
        obtain ⟨t, ht, s, hs, h⟩ := h
        obtain ⟨n1, n2, rfl⟩ := (ifValid_iff _ _ _ _).1 h
        exact ⟨p0, p1, [], t, s, _, rfl, (extractTraceId_iff _ _).1 ht, (extractSpanId_iff _ _).1 hs, n1, n2, Or.inl ⟨rfl, rfl⟩, rfl⟩
      · rename_i p0 p1 p2
        simp only [Option.bind_eq_bind, Option.bind_eq_some_iff] at h
        obtain ⟨t, ht, s, hs, f, hf, h⟩ := h
        obtain ⟨n1, n2, rfl⟩ := (ifValid_iff _ _ _ _).1 h
        exact ⟨p0, p1, [p2], t, s, f, rfl, (extractTraceId_iff _ _).1 ht, (extractSpanId_iff _ _).1 hs, n1, n2,
          Or.inr (Or.inl ⟨p2, rfl, (extractSampledState_iff _ _ _).1 hf⟩), rfl⟩
      · rename_i p0 p1 p2 p3
        simp only [Option.bind_eq_bind, Option.bind_eq_some_iff] at h
        obtain ⟨t, ht, s, hs, f, hf, p, hp, h⟩ := h
        obtain ⟨n1, n2, rfl⟩ := (ifValid_iff _ _ _ _).1 h
        exact ⟨p0, p1, [p2, p3], t, s, f, rfl, (extractTraceId_iff _ _).1 ht, (extractSpanId_iff _ _).1 hs, n1, n2,
          Or.inr (Or.inr ⟨p2, p3, p, rfl, (extractSampledState_iff _ _ _).1 hf, (extractSpanId_iff _ _).1 hp⟩), rfl⟩
      · cases h
    · rintro ⟨t, s, rest, tid, sid, f, rfl, ht, hs, n1, n2, hr, rfl⟩
      rcases hr with ⟨rfl, rfl⟩ | ⟨st, rfl, hf⟩ | ⟨st, p, pid, rfl, hf, hp⟩
      · simp only [(extractTraceId_iff _ _).2 ht, (extractSpanId_iff _ _).2 hs, Option.bind_eq_bind, Option.bind_some]
        exact (ifValid_iff _ _ _ _).2 ⟨n1, n2, rfl⟩
      · simp only [(extractTraceId_iff _ _).2 ht, (extractSpanId_iff _ _).2 hs, (extractSampledState_iff _ _ _).2 hf,
          Option.bind_eq_bind, Option.bind_some]
        exact (ifValid_iff _ _ _ _).2 ⟨n1, n2, rfl⟩
      · simp only [(extractTraceId_iff _ _).2 ht, (extractSpanId_iff _ _).2 hs, (extractSampledState_iff _ _ _).2 hf,
          (extractSpanId_iff _ _).2 hp, Option.bind_eq_bind, Option.bind_some]
        exact (ifValid_iff _ _ _ _).2 ⟨n1, n2, rfl⟩

theorem multiFlag_iff (enc : Encoding) (ex : Extractor) (f : TraceFlags) : multiFlag enc ex = some f ↔ SaysFlags enc ex f := by
  unfold multiFlag SaysFlags
  rw [show debugHeader = "x-b3-flags".toList from rfl, show sampledHeader = "x-b3-sampled".toList from rfl]
  have hnil : extractDebugFlag [] = none := by decide
  cases hd : extractDebugFlag ((ex.get "x-b3-flags".toList).getD []) with
  | some g =>
    simp only
    cases hg : ex.get "x-b3-flags".toList with
    | none => rw [hg, Option.getD_none, hnil] at hd; cases hd
    | some v =>
      rw [hg, Option.getD_some, extractDebugFlag_iff] at hd
      rcases hd with ⟨rfl, rfl⟩ | ⟨rfl, rfl⟩
      · constructor
        · intro e; cases e; exact Or.inl ⟨rfl, rfl⟩
        · rintro (⟨_, rfl⟩ | ⟨h, _⟩ | ⟨_, h, _⟩)
          · rfl
          · exact absurd h (by decide)
          · exact absurd rfl h
      · constructor
        · intro e; cases e; exact Or.inr (Or.inl ⟨rfl, rfl⟩)
        · rintro (⟨h, _⟩ | ⟨_, rfl⟩ | ⟨h, _, _⟩)
          · exact absurd h (by decide)
          · rfl
          · exact absurd rfl h
  | none =>
    simp only
    have n0 : ex.get "x-b3-flags".toList ≠ some "0".toList := by
      intro e; rw [e] at hd; revert hd; decide
    have n1 : ex.get "x-b3-flags".toList ≠ some "1".toList := by
      intro e; rw [e] at hd; revert hd; decide
    cases hs : ex.get "x-b3-sampled".toList with
    | none =>
      simp only [n0, n1, false_and, false_or, ne_eq, not_false_eq_true, true_and, reduceCtorEq, exists_false, Option.some.injEq]
      exact eq_comm
    | some st =>
      simp only [n0, n1, false_and, false_or, ne_eq, not_false_eq_true, true_and, reduceCtorEq, or_false, Option.some.injEq,
        exists_eq_left']
      exact extractSampledState_iff _ _ _

theorem extractMulti_iff (enc : Encoding) (ex : Extractor) (sc : SpanContext) : extractMulti enc ex = some sc ↔ SaysMulti enc ex sc := by
  unfold extractMulti SaysMulti
  simp only [Option.bind_eq_bind, Option.bind_eq_some_iff]
  have n1 : extractTraceId [] = none := by decide
  have n2 : extractSpanId [] = none := by decide
  constructor
  · rintro ⟨t, ht, s, hs, f, hf, h⟩
    obtain ⟨h1, h2, rfl⟩ := (ifValid_iff _ _ _ _).1 h
    cases hg : ex.get traceIdHeader with
    | none => rw [hg, Option.getD_none, n1] at ht; cases ht
    | some a =>
      cases hg' : ex.get spanIdHeader with
      | none => rw [hg', Option.getD_none, n2] at hs; cases hs
      | some b =>
        rw [hg, Option.getD_some] at ht
        rw [hg', Option.getD_some] at hs
        exact ⟨a, b, t, s, f, hg, hg', (extractTraceId_iff _ _).1 ht, (extractSpanId_iff _ _).1 hs, h1, h2,
          (multiFlag_iff _ _ _).1 hf, rfl⟩
  · rintro ⟨a, b, t, s, f, hg, hg', ht, hs, h1, h2, hf, rfl⟩
    refine ⟨t, ?_, s, ?_, f, (multiFlag_iff _ _ _).2 hf, (ifValid_iff _ _ _ _).2 ⟨h1, h2, rfl⟩⟩
    · rw [show traceIdHeader = "x-b3-traceid".toList from rfl, hg]; exact (extractTraceId_iff _ _).2 ht
    · rw [show spanIdHeader = "x-b3-spanid".toList from rfl, hg']; exact (extractSpanId_iff _ _).2 hs

/-! ## Theorems -/

/-- **C15/C17 (B3, exact acceptance condition).** Extraction stores what the `b3` header says if it says something, otherwise
what the multiple headers say, and nothing when neither says something. -/
theorem b3_extract_iff (enc : Encoding) (ex : Extractor) (sc : SpanContext) :
    extractSpanContext enc ex = some sc ↔
      CarriesSingle enc ex sc ∨ ((¬ ∃ sc', CarriesSingle enc ex sc') ∧ SaysMulti enc ex sc) := by
  have valid : ∀ t s f, t ≠ 0#128 → s ≠ 0#64 → SpanContext.isValid ⟨t, s, f, true, TraceState.none⟩ = true := by
    intro t s f h1 h2; simp [SpanContext.isValid, TraceId.invalid, SpanId.invalid, h1, h2]
  unfold extractSpanContext
  rw [Option.filter_eq_some_iff, Option.or_eq_some_iff, extractSingle_iff, extractMulti_iff]
  have hnone : extractSingle enc ex = none ↔ ¬ ∃ sc', CarriesSingle enc ex sc' := by
    cases h : extractSingle enc ex with
    | none =>
      simp only [true_iff]
      rintro ⟨sc', h'⟩
      rw [← extractSingle_iff, h] at h'; cases h'
    | some x => simp only [reduceCtorEq, false_iff, not_not]; exact ⟨x, (extractSingle_iff _ _ _).1 h⟩
  rw [hnone]
  constructor
  · rintro ⟨h, _⟩; exact h
  · intro h
    refine ⟨h, ?_⟩
    rcases h with ⟨hd, _, h⟩ | ⟨_, h⟩
    · obtain ⟨_, _, _, tid, sid, f, _, _, _, h1, h2, _, rfl⟩ := h; exact valid _ _ _ h1 h2
    · obtain ⟨_, _, tid, sid, f, _, _, _, _, h1, h2, _, rfl⟩ := h; exact valid _ _ _ h1 h2

/-- **C17.** The header with the id of the parent span plays no part, present or not, valid or not: two requests that differ only there give the same. -/
theorem b3_parent_ignored (enc : Encoding) (ex ex' : Extractor) (h : ∀ n, n ≠ "x-b3-parentspanid".toList → ex.get n = ex'.get n) :
    extractSpanContext enc ex = extractSpanContext enc ex' := by
  have h1 := h singleHeader (by decide)
  have h2 := h traceIdHeader (by decide)
  have h3 := h spanIdHeader (by decide)
  have h4 := h sampledHeader (by decide)
  have h5 := h debugHeader (by decide)
  have hs : extractSingle enc ex = extractSingle enc ex' := by unfold extractSingle; rw [h1]
  have hf : multiFlag enc ex = multiFlag enc ex' := by unfold multiFlag; rw [h4, h5]
  have hm : extractMulti enc ex = extractMulti enc ex' := by unfold extractMulti; simp only [h2, h3, hf]
  unfold extractSpanContext
  rw [hs, hm]

/-- Extraction stores that context and changes nothing else; if nothing is said it changes nothing. -/
theorem b3_extract_effect {B U} (enc : Encoding) (cx : Cx B U) (ex : Extractor) :
    (∀ sc, CarriesSingle enc ex sc ∨ ((¬ ∃ sc', CarriesSingle enc ex sc') ∧ SaysMulti enc ex sc) →
      extract enc cx ex = { cx with span := some sc }) ∧
    ((¬ ∃ sc, CarriesSingle enc ex sc) → (¬ ∃ sc, SaysMulti enc ex sc) → extract enc cx ex = cx) := by
  refine ⟨fun sc h => ?_, fun h1 h2 => ?_⟩
  · unfold extract; rw [(b3_extract_iff enc ex sc).2 h]; rfl
  · unfold extract
    cases h : extractSpanContext enc ex with
    | none => rfl
    | some sc =>
      rcases (b3_extract_iff enc ex sc).1 h with h | ⟨_, h⟩
      · exact absurd ⟨sc, h⟩ h1
      · exact absurd ⟨sc, h⟩ h2

/-- Non-vacuity: a 64 bit trace id in the single header, debug state, parent. -/
example : CarriesSingle .singleHeader (Carrier.toExtractor [("b3".toList, "a3ce929d0e0e4736-00f067aa0ba902b7-d-00f067aa0ba902b8".toList)])
    ⟨0xa3ce929d0e0e4736#128, 0x00f067aa0ba902b7#64, 4#8, true, TraceState.none⟩ := by
  rw [← extractSingle_iff]; decide +kernel

/-- Non-vacuity: the multiple headers with `x-b3-flags: 1`. -/
example : SaysMulti .multipleHeader (Carrier.toExtractor [("x-b3-traceid".toList, "a3ce929d0e0e4736".toList),
    ("x-b3-spanid".toList, "00f067aa0ba902b7".toList), ("x-b3-flags".toList, "1".toList)])
    ⟨0xa3ce929d0e0e4736#128, 0x00f067aa0ba902b7#64, 5#8, true, TraceState.none⟩ := by
  rw [← extractMulti_iff]; decide +kernel

end B3

namespace Jaeger

/-! ## Specification -/

/-- Every `%3A` of `s`, from left to right, replaced by `:`. -/
inductive Decoded : Str → Str → Prop
  | nil : Decoded [] []
  | colon {s d} : Decoded s d → Decoded ('%' :: '3' :: 'A' :: s) (':' :: d)
  | other {c s d} : (¬ ∃ r, c :: s = '%' :: '3' :: 'A' :: r) → Decoded s d → Decoded (c :: s) (c :: d)

/-- The text of the header: as it is if it has a `:`, otherwise with `%3A` decoded. -/
def HeaderText (h d : Str) : Prop := (':' ∈ h ∧ d = h) ∨ (':' ∉ h ∧ Decoded h d)

/-- A trace id of at most 32 bytes. -/
def TraceIdText (s : Str) (t : TraceId) : Prop := byteLen s ≤ 32 ∧ ∃ n, HexNum s n ∧ n < 2 ^ 128 ∧ t = BitVec.ofNat 128 n

/-- A span id of at most 16 bytes: a hexadecimal number. (Below 16 bytes no sign is accepted, and nothing at all is read as
zero.) -/
def SpanIdText (s : Str) (t : SpanId) : Prop :=
  ∃ n, n < 2 ^ 64 ∧ t = BitVec.ofNat 64 n ∧ ((byteLen s = 16 ∧ HexNum s n) ∨ (byteLen s < 16 ∧ Numeral IsHexDigit 16 s n))

/-- The flags: a decimal number of at most two bytes; bit 0 is sampled, bit 1 is debug and counts for sampled contexts. -/
def FlagsText (s : Str) (f : TraceFlags) : Prop :=
  byteLen s ≤ 2 ∧ ∃ n, DecNum s n ∧ f = (if n % 2 = 1 then (if n / 2 % 2 = 1 then 5#8 else 1#8) else 0#8)

/-- The carrier entries that become trace state entries. -/
def stateEntries (cfg : Config) (ex : Extractor) : List (Str × Str) :=
  (ex.keys.filter (fun k => cfg.baggagePrefix.isPrefixOf k)).filterMap (fun k => (ex.get k).map (fun v => (k, v)))

/-! ## Lemmas -/

theorem decoded_decodeColon : ∀ s : Str, Decoded s (decodeColon s)
  | [] => .nil
  | [a] => .other (by rintro ⟨r, h⟩; simp at h) .nil
  | [a, b] => .other (by rintro ⟨r, h⟩; simp at h) (.other (by rintro ⟨r, h⟩; simp at h) .nil)
  | a :: b :: c :: r => by
    unfold decodeColon
    by_cases h : a = '%' ∧ b = '3' ∧ c = 'A'
    · rw [if_pos h]; obtain ⟨rfl, rfl, rfl⟩ := h; exact .colon (decoded_decodeColon r)
    · rw [if_neg h]
      refine .other ?_ (decoded_decodeColon (b :: c :: r))
      rintro ⟨r', e⟩
      simp only [List.cons.injEq] at e
      exact h ⟨e.1, e.2.1, e.2.2.1⟩

theorem decoded_unique {s d d' : Str} (h : Decoded s d) (h' : Decoded s d') : d = d' := by
  induction h generalizing d' with
  | nil => cases h'; rfl
  | colon h ih =>
    cases h' with
    | colon h' => rw [ih h']
    | other hn _ => exact absurd ⟨_, rfl⟩ hn
  | other hn h ih =>
    cases h' with
    | colon h' => exact absurd ⟨_, rfl⟩ hn
    | other _ h' => rw [ih h']

theorem headerText_iff (cfg : Config) (ex : Extractor) (d : Str) :
    headerText cfg ex = d ↔ HeaderText ((ex.get cfg.headerName).getD []) d := by
  unfold headerText HeaderText
  simp only
  split
  · rename_i h; simp [h, eq_comm]
  · rename_i h
    simp only [h, false_and, false_or, not_false_eq_true, true_and]
    exact ⟨fun e => e ▸ decoded_decodeColon _, fun e => decoded_unique (decoded_decodeColon _) e⟩

theorem extractTraceId_iff (s : Str) (t : TraceId) : extractTraceId s = some t ↔ TraceIdText s t := by
  unfold extractTraceId TraceIdText TraceId.fromHex
  constructor
  · intro h
    split at h
    · cases h
    · rename_i hc
      obtain ⟨n, hn, rfl⟩ := Option.map_eq_some_iff.1 h
      obtain ⟨h1, h2⟩ := (parseHex_iff _ _ _).1 hn
      exact ⟨by omega, n, h1, h2, rfl⟩
  · rintro ⟨hl, n, h1, h3, rfl⟩
    rw [if_neg (by omega), (parseHex_iff _ _ _).2 ⟨h1, h3⟩]; rfl

theorem numeral_pad {k : Nat} {s : Str} {n : Nat} :
    Numeral IsHexDigit 16 (List.replicate k '0' ++ s) n ↔ Numeral IsHexDigit 16 s n := by
  have hz : Numeral IsHexDigit 16 (List.replicate k '0') 0 := by
    induction k with
    | zero => exact .nil
    | succ k ih => rw [List.replicate_succ']; exact .snoc (n := 0) (d := 0) ih (by decide)
  have uniq : ∀ {t : Str} {a b : Nat}, Numeral IsHexDigit 16 t a → Numeral IsHexDigit 16 t b → a = b := by
    intro t a b ha hb
    have h1 := (parseDigits_iff hexVal_iff (radix := 16) (bound := a + b + 1) (by omega) (by omega) t a).2 ⟨ha, by omega⟩
    have h2 := (parseDigits_iff hexVal_iff (radix := 16) (bound := a + b + 1) (by omega) (by omega) t b).2 ⟨hb, by omega⟩
    rw [h1] at h2; exact Option.some.inj h2
  induction s using List.reverseRecOn generalizing n with
  | nil =>
    rw [List.append_nil, numeral_nil]
    exact ⟨fun h => uniq h hz, fun h => h ▸ hz⟩
  | append_singleton s c ih =>
    rw [← List.append_assoc, numeral_snoc, numeral_snoc]
    exact exists_congr (fun m => exists_congr (fun d => and_congr_left (fun _ => ih)))

theorem length_le_byteLen (s : Str) : s.length ≤ byteLen s := by
  induction s with
  | nil => simp
  | cons c s ih => rw [byteLen_cons, List.length_cons]; have := Char.utf8Size_pos c; omega

theorem extractSpanId_iff (s : Str) (t : SpanId) : extractSpanId s = some t ↔ SpanIdText s t := by
  unfold extractSpanId SpanIdText SpanId.fromHex
  by_cases h16 : byteLen s = 16
  · rw [if_pos h16]
    constructor
    · intro h
      obtain ⟨n, hn, rfl⟩ := Option.map_eq_some_iff.1 h
      obtain ⟨h1, h2⟩ := (parseHex_iff _ _ _).1 hn
      exact ⟨n, h2, rfl, Or.inl ⟨h16, h1⟩⟩
    · rintro ⟨n, h2, rfl, ⟨_, h1⟩ | ⟨h, _⟩⟩
      · rw [(parseHex_iff _ _ _).2 ⟨h1, h2⟩]; rfl
      · omega
  · rw [if_neg h16]
    by_cases hgt : byteLen s > 16
    · rw [if_pos hgt]
      constructor
      · intro h; cases h
      · rintro ⟨n, _, _, ⟨h, _⟩ | ⟨h, _⟩⟩ <;> omega
    · rw [if_neg hgt]
      have hlen : s.length < 16 := by have := length_le_byteLen s; omega
      have key : ∀ n, HexNum (List.replicate (16 - s.length) '0' ++ s) n ↔ Numeral IsHexDigit 16 s n := by
        intro n
        have hcons : ∃ r, List.replicate (16 - s.length) '0' ++ s = '0' :: r := by
          obtain ⟨k, hk⟩ : ∃ k, 16 - s.length = k + 1 := ⟨15 - s.length, by omega⟩
          exact ⟨List.replicate k '0' ++ s, by rw [hk, List.replicate_succ]; rfl⟩
        unfold HexNum
        constructor
        · rintro ⟨ds, (h | h), _, hn⟩
          · rw [← h] at hn; exact numeral_pad.1 hn
          · obtain ⟨r, hr⟩ := hcons; rw [hr] at h; simp at h
        · intro hn
          refine ⟨_, Or.inl rfl, ?_, numeral_pad.2 hn⟩
          obtain ⟨r, hr⟩ := hcons; rw [hr]; simp
      constructor
      · intro h
        obtain ⟨n, hn, rfl⟩ := Option.map_eq_some_iff.1 h
        obtain ⟨h1, h2⟩ := (parseHex_iff _ _ _).1 hn
        exact ⟨n, h2, rfl, Or.inr ⟨by omega, (key n).1 h1⟩⟩
      · rintro ⟨n, h2, rfl, ⟨h, _⟩ | ⟨_, h1⟩⟩
        · omega
        · rw [(parseHex_iff _ _ _).2 ⟨(key n).2 h1, h2⟩]; rfl

theorem decNum_lt_100 {s : Str} {n : Nat} (hl : byteLen s ≤ 2) (h : DecNum s n) : n < 100 := by
  have key : ∀ ds : Str, ∀ m, Numeral IsDecDigit 10 ds m → m < 10 ^ ds.length := by
    intro ds m hm
    induction hm with
    | nil => simp
    | @snoc s n c d h1 h2 ih =>
      have : d < 10 := by have := (List.getElem?_eq_some_iff.1 h2).1; simpa using this
      rw [List.length_append, List.length_singleton, Nat.pow_succ]; omega
  obtain ⟨ds, hs, _, hn⟩ := h
  have hlen : ds.length ≤ 2 := by
    have := length_le_byteLen s
    rcases hs with rfl | rfl
    · omega
    · simp at this; omega
  have h1 := key ds n hn
  have h2 : 10 ^ ds.length ≤ 10 ^ 2 := Nat.pow_le_pow_right (by omega) hlen
  omega

theorem extractFlags_iff (s : Str) (f : TraceFlags) : extractFlags s = some f ↔ FlagsText s f := by
  have hbits : ∀ n ∈ List.range 100, ((if BitVec.ofNat 8 n &&& 1#8 = 1#8 then
        if BitVec.ofNat 8 n &&& 2#8 = 2#8 then some (TraceFlags.sampled ||| flagDebug) else some TraceFlags.sampled
      else some TraceFlags.notSampled) : Option TraceFlags) =
      some (if n % 2 = 1 then (if n / 2 % 2 = 1 then 5#8 else 1#8) else 0#8) := by decide +kernel
  unfold extractFlags FlagsText
  constructor
  · intro h
    split at h
    · cases h
    · rename_i hl
      split at h
      · cases h
      · rename_i n hn
        obtain ⟨h1, _⟩ := (parseDec_iff _ _ _).1 hn
        simp only at h
        rw [hbits n (List.mem_range.2 (decNum_lt_100 (by omega) h1))] at h
        exact ⟨by omega, n, h1, (Option.some.inj h).symm⟩
  · rintro ⟨hl, n, h1, rfl⟩
    have hlt := decNum_lt_100 hl h1
    rw [if_neg (by omega), (parseDec_iff 8 s n).2 ⟨h1, by omega⟩]
    exact hbits n (List.mem_range.2 hlt)

theorem extractTraceState_iff (cfg : Config) (ex : Extractor) (st : TraceState) :
    extractTraceState cfg ex = some st ↔ TraceState.fromKeyValue (stateEntries cfg ex) = .ok st := by
  unfold extractTraceState stateEntries
  split
  · rename_i t h; rw [h]; simp
  · rename_i e h; rw [h]; simp

/-! ## Theorems -/

/-- **C16/C17 (Jaeger, exact acceptance condition).** Extraction yields a span context exactly when the text of the configured
header consists of four fields separated by `:` — trace id, span id, anything, flags — and the carrier entries that start with
the baggage prefix form a legal trace state. The context is then determined. -/
theorem jaeger_extract_iff (cfg : Config) (ex : Extractor) (sc : SpanContext) :
    extractSpanContext cfg ex = some sc ↔
      ∃ d t s p f tid sid fl st, HeaderText ((ex.get cfg.headerName).getD []) d ∧ splitTerminator ':' d = [t, s, p, f] ∧
        TraceIdText t tid ∧ SpanIdText s sid ∧ FlagsText f fl ∧ TraceState.fromKeyValue (stateEntries cfg ex) = .ok st ∧
        sc = ⟨tid, sid, fl, true, st⟩ := by
  constructor
  · intro h
    unfold extractSpanContext at h
    split at h
    · rename_i p0 p1 p2 p3 hsp
      split at h
      · rename_i t s f st h1 h2 h3 h4
        exact ⟨headerText cfg ex, p0, p1, p2, p3, t, s, f, st, (headerText_iff _ _ _).1 rfl, hsp, (extractTraceId_iff _ _).1 h1,
          (extractSpanId_iff _ _).1 h2, (extractFlags_iff _ _).1 h3, (extractTraceState_iff _ _ _).1 h4, (Option.some.inj h).symm⟩
      · cases h
    · cases h
  · rintro ⟨d, t, s, p, f, tid, sid, fl, st, hd, hsp, h1, h2, h3, h4, rfl⟩
    unfold extractSpanContext
    rw [(headerText_iff _ _ _).2 hd, hsp]
    simp only [(extractTraceId_iff _ _).2 h1, (extractSpanId_iff _ _).2 h2, (extractFlags_iff _ _).2 h3,
      (extractTraceState_iff _ _ _).2 h4]

/-- Non-vacuity: an encoded header with a short span id and a trace state entry. -/
example : extractSpanContext (withCustom [] []) (Carrier.toExtractor [("uber-trace-id".toList, "4d16%3A7c29%3A0%3A3".toList),
    ("uberctx-user".toList, "x".toList)]) = some ⟨0x4d16#128, 0x7c29#64, 5#8, true, ⟨some [("uberctx-user".toList, "x".toList)]⟩⟩ := by
  decide +kernel

/-- Extraction changes at most the span of the context. -/
theorem jaeger_extract_effect {B U} (cfg : Config) (cx : Cx B U) (ex : Extractor) :
    extract cfg cx ex = (match extractSpanContext cfg ex with | some sc => { cx with span := some sc } | none => cx) := by
  unfold extract; cases extractSpanContext cfg ex <;> rfl

end Jaeger

namespace Bag
open Otel.Baggage

/-- **C13 (extraction).** Without a `baggage` header the context is unchanged. With one, its members are inserted in order into
an empty baggage, a member without `=` or not valid UTF-8 once decoded counting for nothing; that baggage replaces the one of the
context, and span, suppression flag and user values are unchanged. -/
theorem baggage_extract_effect {U : Nat → Type} (cx : Cx Bag U) (ex : Extractor) :
    (ex.get "baggage".toList = none → extract cx ex = cx) ∧
    (∀ v, ex.get "baggage".toList = some v →
      baggageOf (extract cx ex) = run (((split ',' v).filterMap parseMember).map (fun e => .insert e.key e.value e.info)) ∧
      (extract cx ex).span = cx.span ∧ (extract cx ex).suppress = cx.suppress ∧
      ∀ t, t ≠ .baggageContextValue → (extract cx ex).get t = cx.get t) := by
  refine ⟨fun h => by unfold extract; rw [show header = "baggage".toList from rfl, h], fun v h => ?_⟩
  have hx : extract cx ex = cx.withBaggage (Bag.fromIter ((split ',' v).filterMap parseMember)) := by
    unfold extract; rw [show header = "baggage".toList from rfl, h]
  rw [hx]
  refine ⟨?_, rfl, rfl, fun t ht => ?_⟩
  · have : baggageOf (cx.withBaggage (Bag.fromIter ((split ',' v).filterMap parseMember))) =
        Bag.fromIter ((split ',' v).filterMap parseMember) := by
      unfold baggageOf; rcases cx with ⟨_, _ | _, _⟩ <;> rfl
    rw [this]
    unfold Bag.fromIter run
    rw [List.foldl_map]
    rfl
  · rcases cx with ⟨sp, _ | m, su⟩
    · show Ctx.insertEntry (fun _ => none) _ _ t = none
      unfold Ctx.insertEntry; rw [dif_neg (fun e => ht e.symm)]
    · show Ctx.insertEntry m _ _ t = m t
      unfold Ctx.insertEntry; rw [dif_neg (fun e => ht e.symm)]

/-- A member: the name is what precedes the first `=`, the value what follows up to the next `=` or `;`, both percent-decoded
and trimmed; the properties after the first `;` are decoded, trimmed and joined again. -/
theorem baggage_member {name value n v : Str} (props : List Str) (hn : ';' ∉ name ∧ '=' ∉ name) (hv : ';' ∉ value ∧ '=' ∉ value)
    (hp : ∀ p ∈ props, ';' ∉ p) (hdn : pctDecode name = some n) (hdv : pctDecode value = some v) :
    parseMember (join [';'] ((name ++ ['='] ++ value) :: props)) =
      some ⟨trim n, trim v, trim (join [';'] ((props.filterMap pctDecode).map trim))⟩ := by
  have h1 : split ';' (join [';'] ((name ++ ['='] ++ value) :: props)) = (name ++ ['='] ++ value) :: props := by
    apply split_join (by simp)
    intro p hp'
    rcases List.mem_cons.1 hp' with rfl | hp'
    · simp only [List.mem_append, not_or]; exact ⟨⟨hn.1, by decide⟩, hv.1⟩
    · exact hp p hp'
  have h2 : split '=' (name ++ ['='] ++ value) = [name, value] := by
    rw [List.append_assoc]
    show split '=' (name ++ '=' :: value) = _
    rw [split_append_sep hn.2, split_eq_self hv.2]
  unfold parseMember
  rw [h1]
  simp only [h2, hdn, hdv]
  rfl

/-- A member without `=` counts for nothing. -/
theorem baggage_member_without_equals {m : Str} (props : List Str) (hm : ';' ∉ m ∧ '=' ∉ m) (hp : ∀ p ∈ props, ';' ∉ p) :
    parseMember (join [';'] (m :: props)) = none := by
  have h1 : split ';' (join [';'] (m :: props)) = m :: props := by
    apply split_join (by simp)
    intro p hp'
    rcases List.mem_cons.1 hp' with rfl | hp'
    · exact hm.1
    · exact hp p hp'
  unfold parseMember
  rw [h1]
  simp only [split_eq_self hm.2]

example : parseMember "k = v ; p;q=1".toList = some ⟨['k'], ['v'], "p;q=1".toList⟩ := by
  have := baggage_member (name := "k ".toList) (value := " v ".toList) (n := "k ".toList) (v := " v ".toList)
    [" p".toList, "q=1".toList] (by decide) (by decide) (by decide) (pctDecode_raw (by decide)) (pctDecode_raw (by decide))
  have h1 : pctDecode " p".toList = some " p".toList := pctDecode_raw (by decide)
  have h2 : pctDecode "q=1".toList = some "q=1".toList := pctDecode_raw (by decide)
  simp only [List.filterMap_cons, h1, h2, List.filterMap_nil] at this
  exact this.trans (by decide)

end Bag
end Otel.Prop
