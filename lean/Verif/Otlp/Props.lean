import Verif.Otlp.Spec
/-! # Property theorems: OTLP conversion of values, spans and log records (C54) -/

namespace Otel.Otlp
open Common (Val Arr Scope)
open Rust

variable {K : Type}

/-! ## Attribute values -/

theorem allOf_map {α : Type} (f : PVal K → Option α) (g : α → PVal K) (h : ∀ a, f (g a) = some a) (l : List α) : allOf f (l.map g) = some l := by
  induction l with
  | nil => rfl
  | cons a l ih => simp [allOf, h, ih]

/-- **C54 (attribute values, partial).** A receiver reads every value that is not an empty array as the value that was recorded. Missing: empty
arrays, see `empty_array_violated`. -/
theorem value_roundtrip_partial {v : Val} (h : NotEmptyArray v) : readVal (ofVal v : PVal K) = some v := by
  cases v with
  | arr a =>
    cases a with
    | bools l =>
      cases l with
      | nil => exact absurd rfl h
      | cons a l => simp [ofVal, readVal, allOf, asBool, allOf_map asBool .bool (fun _ => rfl)]
    | ints l =>
      cases l with
      | nil => exact absurd rfl h
      | cons a l => simp [ofVal, readVal, allOf, asInt, allOf_map asInt .int (fun _ => rfl)]
    | floats l =>
      cases l with
      | nil => exact absurd rfl h
      | cons a l => simp [ofVal, readVal, allOf, asDouble, allOf_map asDouble .double (fun _ => rfl)]
    | strs l =>
      cases l with
      | nil => exact absurd rfl h
      | cons a l => simp [ofVal, readVal, allOf, asString, allOf_map asString .string (fun _ => rfl)]
  | _ => rfl

example : NotEmptyArray (.arr (.strs ["a", "b"])) ∧ (ofVal (.arr (.strs ["a", "b"])) : PVal Nat) = .array [.string "a", .string "b"] :=
  ⟨by simp [NotEmptyArray], rfl⟩

theorem ofVal_empty {v : Val} (h : ¬ NotEmptyArray v) : (ofVal v : PVal K) = .array [] := by
  cases v with
  | arr a => cases a <;> simp_all [NotEmptyArray, ofVal]
  | _ => exact absurd trivial h

/-- **C54 (attribute values).** Two values have the same encoding exactly if they are the same value or both are empty arrays. -/
theorem value_injective_iff (a b : Val) :
    (ofVal a : PVal K) = ofVal b ↔ a = b ∨ (¬ NotEmptyArray a ∧ ¬ NotEmptyArray b) := by
  constructor
  · intro h
    by_cases ha : NotEmptyArray a <;> by_cases hb : NotEmptyArray b
    · have h1 := value_roundtrip_partial (K := K) ha
      rw [h, value_roundtrip_partial hb] at h1
      exact .inl (Option.some.inj h1).symm
    · have h1 := value_roundtrip_partial (K := K) ha
      rw [h, ofVal_empty hb] at h1
      cases h1
    · have h1 := value_roundtrip_partial (K := K) hb
      rw [← h, ofVal_empty ha] at h1
      cases h1
    · exact .inr ⟨ha, hb⟩
  · rintro (rfl | ⟨ha, hb⟩)
    · rfl
    · rw [ofVal_empty ha, ofVal_empty hb]

/-- **C54, violated.** Empty arrays of different element types are different values with the same encoding. -/
theorem empty_array_violated : ∃ a b : Val, a ≠ b ∧ (ofVal a : PVal K) = ofVal b :=
  ⟨.arr (.bools []), .arr (.strs []), by simp, rfl⟩

theorem readAttrs_attributes {kvs : List (K × Val)} (h : PlainAttrs kvs) : readAttrs (attributes kvs) = some kvs := by
  induction kvs with
  | nil => rfl
  | cons kv kvs ih =>
    have h1 := value_roundtrip_partial (K := K) (h kv (List.mem_cons_self ..))
    have h2 := ih fun x hx => h x (List.mem_cons_of_mem _ hx)
    simp only [attributes] at h2
    simp [attributes, readAttrs, h1, h2]

mutual
theorem readLVal_of (v : LVal K) : readLVal (ofLVal v) = v := by
  match v with
  | .int _ | .double _ | .string _ | .boolean _ | .bytes _ => simp [ofLVal, readLVal]
  | .list vs => simp [ofLVal, readLVal, readLVals_of vs]
  | .map kvs => simp [ofLVal, readLVal, readLMap_of kvs]

theorem readLVals_of (vs : List (LVal K)) : readLVals (ofLVals vs) = vs := by
  match vs with
  | [] => simp [ofLVals, readLVals]
  | v :: vs => simp [ofLVals, readLVals, readLVal_of v, readLVals_of vs]

theorem readLMap_of (kvs : List (K × LVal K)) : readLMap (ofLMap kvs) = kvs := by
  match kvs with
  | [] => simp [ofLMap, readLMap]
  | (k, v) :: kvs => simp [ofLMap, readLMap, readLVal_of v, readLMap_of kvs]
end

/-- **C54 (log values).** A receiver reads every value of a log record, however nested, as the value that was recorded; different values have
different encodings. -/
theorem log_value_roundtrip :
    (∀ v : LVal K, readLVal (ofLVal v) = v) ∧ (∀ a b : LVal K, ofLVal a = ofLVal b → a = b) := by
  refine ⟨readLVal_of, fun a b h => ?_⟩
  have h1 := readLVal_of a
  rw [h, readLVal_of] at h1
  exact h1.symm

example : (ofLVal (.map [(1, .list [.int 3, .bytes [7]]), (2, .map [])]) : PVal Nat) =
    .kvlist [(1, .array [.int 3, .bytes [7]]), (2, .kvlist [])] := by simp [ofLVal, ofLVals, ofLMap]

/-! ## Times -/

/-- **C54 (times, partial).** A time from the epoch up to `2^64` nanoseconds is exact. -/
theorem time_exact_partial {t : Int} (h0 : 0 ≤ t) (h1 : t < 2 ^ 64) : ((toNanos t).toNat : Int) = t := by
  simp only [toNanos, BitVec.toNat_ofNat]
  rw [Nat.mod_eq_of_lt (by omega)]
  omega

/-- **C54 (times).** Within the representable range, a later time has a larger encoding. -/
theorem time_monotone {s t : Int} (h0 : 0 ≤ s) (h : s < t) (h1 : t < 2 ^ 64) : (toNanos s).toNat < (toNanos t).toNat := by
  have hs := time_exact_partial h0 (by omega)
  have ht := time_exact_partial (t := t) (by omega) h1
  omega

/-- **C54, violated.** All times before the epoch have the encoding of the epoch; a time `2^64` nanoseconds later has the encoding of the earlier
time. -/
theorem time_violated : (∀ t : Int, t ≤ 0 → toNanos t = 0) ∧ (∀ t : Int, 0 ≤ t → toNanos (t + 2 ^ 64) = toNanos t) := by
  constructor
  · intro t h
    have : t.toNat = 0 := by omega
    simp [toNanos, this]
  · intro t h
    apply BitVec.eq_of_toNat_eq
    simp only [toNanos, BitVec.toNat_ofNat]
    omega

/-! ## Spans -/

theorem readFlags_setWidth (f : TraceFlags) : readFlags (f.setWidth 32) = f := by
  simp [readFlags, BitVec.setWidth_setWidth_of_le]

theorem readContext_of {c : SpanContext} (h : PlainContext c) :
    readContext c.traceId.toBytes c.spanId.toBytes (c.flags.setWidth 32) c.traceState.header = some c := by
  obtain ⟨ht, ht'⟩ := traceId_bytes_roundtrip.1 c.traceId
  obtain ⟨hs, hs'⟩ := spanId_bytes_roundtrip.1 c.spanId
  rcases c with ⟨t, s, f, r, ts⟩
  obtain ⟨hr, hts⟩ := h
  simp only at hr ht hs ht' hs' hts
  subst hr
  simp [readContext, readTraceId, readSpanId, ht, hs, ht', hs', readFlags_setWidth, hts]

theorem readParent_of (p : SpanId) : readParent (if p ≠ SpanId.invalid then p.toBytes else []) = some p := by
  obtain ⟨hs, hs'⟩ := spanId_bytes_roundtrip.1 p
  by_cases h : p = SpanId.invalid
  · simp [h, readParent]
  · rw [if_pos h, readParent]
    · simp [readSpanId, hs, hs']
    · intro h0; rw [h0] at hs; cases hs

theorem readKind_of (k : Sdk.SpanKind) : readKind (kindNumber k) = some k := by cases k <;> rfl

theorem toNanos_nat {t : Nat} (h : Timely t) : (toNanos t).toNat = t := by
  have := time_exact_partial (t := (t : Int)) (by omega) (by unfold Timely at h; omega)
  omega

theorem mapM_read {α β : Type} (f : β → Option α) (g : α → β) (l : List α) (h : ∀ a ∈ l, f (g a) = some a) : (l.map g).mapM f = some l := by
  induction l with
  | nil => rfl
  | cons a l ih =>
    rw [List.map_cons, List.mapM_cons, h a (List.mem_cons_self ..), ih fun x hx => h x (List.mem_cons_of_mem _ hx)]
    rfl

/-- **C54 (spans, partial).** A receiver reads exactly the span that was exported: ids, flags, trace state, parent, kind, name, times, attributes,
events, links, dropped counts and status, for every span that is local, with times within 64 bits of nanoseconds, no empty array
attribute and a trace state that its header can be parsed into. Missing: `remote_violated`, `time_violated`, `empty_array_violated`. -/
theorem span_roundtrip_partial {x : SdkSpan K} (h : Plain x) : readSpan x.scope (spanOf x) = some x := by
  have h1 := readContext_of h.context
  have h2 := readParent_of x.data.parentSpanId
  have h3 := readKind_of x.data.spanKind
  have h4 := readAttrs_attributes h.attrs
  have h5 : (x.data.events.events.map eventOf).mapM readEvent = some x.data.events.events := by
    apply mapM_read
    intro e he
    obtain ⟨ht, ha⟩ := h.events e he
    simp [readEvent, eventOf, readAttrs_attributes ha, toNanos_nat ht]
  have h6 : (x.data.links.links.map linkOf).mapM readLink = some x.data.links.links := by
    apply mapM_read
    intro l hl
    obtain ⟨hc, ha⟩ := h.links l hl
    simp [readLink, linkOf, readAttrs_attributes ha, readContext_of hc]
  have h7 : readStatus (statusNumber x.data.status) (statusMessage x.data.status) = some x.data.status := by
    cases x.data.status <;> rfl
  unfold readSpan
  simp only [spanOf] at *
  rw [h1, h2, h3, h4, h5, h6, h7]
  simp [toNanos_nat h.start, toNanos_nat h.finish]

/-- **C54 (spans).** Different spans of one scope have different encodings, within the same limits. -/
theorem span_injective_partial {x y : SdkSpan K} (hx : Plain x) (hy : Plain y) (hs : x.scope = y.scope) (h : spanOf x = spanOf y) : x = y := by
  have h1 := span_roundtrip_partial hx
  rw [h, hs, span_roundtrip_partial hy] at h1
  exact (Option.some.inj h1).symm

/-- An example span: a child with a trace state, an event, a link and an error. -/
def exampleSpan : SdkSpan Nat where
  spanContext := ⟨0x0102, 7, 1, false, ⟨some [("a".toList, "1".toList)]⟩⟩
  data := {
    parentSpanId := 9
    spanKind := .server
    name := "op".toList
    startTime := 10
    endTime := 25
    attributes := [(1, .arr (.ints [4, 5])), (2, .str "x")]
    droppedAttributesCount := 3
    events := ⟨[⟨"e".toList, 12, [(3, .bool true)], 0⟩], 1⟩
    links := ⟨[⟨⟨5, 6, 0, false, ⟨none⟩⟩, [(4, .float 0)], 2⟩], 0⟩
    status := .error "bad".toList }
  scope := ⟨"lib", some "1", none, []⟩

theorem exampleSpan_plain : Plain exampleSpan where
  context := ⟨rfl, by decide +kernel⟩
  start := by decide
  finish := by decide
  attrs := by intro kv h; simp [exampleSpan] at h; rcases h with rfl | rfl <;> simp [NotEmptyArray]
  events := by intro e h; simp [exampleSpan] at h; subst h; exact ⟨by decide, by intro kv h; simp at h; subst h; trivial⟩
  links := by
    intro l h; simp [exampleSpan] at h; subst h
    exact ⟨⟨rfl, by decide +kernel⟩, by intro kv h; simp at h; subst h; trivial⟩

/-- **C54, violated.** Whether a span context came from a remote process is not exported: a span and a link that differ only in this have the same
encoding. -/
theorem remote_violated : ∃ x y : SdkSpan Nat, x.spanContext.isRemote ≠ y.spanContext.isRemote ∧ spanOf x = spanOf y :=
  ⟨exampleSpan, { exampleSpan with spanContext := { exampleSpan.spanContext with isRemote := true } }, by decide, rfl⟩

/-! ## Log records -/

theorem readSeverity_of (s : Option Severity) : readSeverity (severityNumber s) = s := by
  cases s with
  | none => rfl
  | some s => cases s <;> rfl

/-- **C54 (severities).** The severity number is read as the recorded severity, and none as none. -/
theorem severity_roundtrip : ∀ s : Option Severity, readSeverity (severityNumber s) = s := readSeverity_of

/-- **C54 (log records, partial).** For a record with an observed time, a receiver reads the severity, the body, all attributes in order, the
texts that are not empty, the ids of its trace context, its flags, and times from 1 up to `2^64` nanoseconds after the epoch. Missing: a
recorded time that is not after the epoch reads as no time, an empty text as no text; the target is not in the record, see C53. -/
theorem log_roundtrip_partial (r : SdkLog K) {o : Int} (ho : r.observedTimestamp = some o) (ho0 : 0 ≤ o) (ho1 : o < 2 ^ 64) :
    ∃ p, logOf r = some p ∧
      ((readLog p).observed : Int) = o ∧ (readLog p).severity = r.severityNumber ∧ (readLog p).body = r.body ∧
      (readLog p).attributes = r.attributesIter ∧ p.droppedAttributesCount = 0 ∧
      (∀ t, r.timestamp = some t → 0 < t → t < 2 ^ 64 → (readLog p).timestamp = some t.toNat) ∧
      (r.timestamp = none → (readLog p).timestamp = none) ∧
      (∀ n, r.eventName = some n → n ≠ [] → (readLog p).eventName = some n) ∧ (r.eventName = none → (readLog p).eventName = none) ∧
      (∀ n, r.severityText = some n → n ≠ [] → (readLog p).severityText = some n) ∧
      (r.severityText = none → (readLog p).severityText = none) ∧
      (∀ c, r.traceContext = some c → (readLog p).ids = some (c.traceId, c.spanId) ∧ (readLog p).flags = c.traceFlags.getD 0) ∧
      (r.traceContext = none → (readLog p).ids = none ∧ (readLog p).flags = 0) := by
  refine ⟨_, by rw [logOf, ho, Option.map_some], ?_, ?_, ?_, ?_, ?_, ?_, ?_, ?_, ?_, ?_, ?_, ?_, ?_⟩
  · exact time_exact_partial ho0 ho1
  · exact readSeverity_of _
  · cases hb : r.body <;> simp [readLog, readLVal_of]
  · simp only [readLog, List.map_map]
    conv_rhs => rw [← List.map_id r.attributesIter]
    apply List.map_congr_left
    intro kv _
    simp [Function.comp, readLVal_of]
  · rfl
  · intro t ht h0 h1
    have he := time_exact_partial (t := t) (by omega) h1
    have hne : toNanos t ≠ 0 := by intro h; rw [h] at he; simp at he; omega
    simp only [readLog, ht, Option.map_some, Option.getD_some, if_neg hne]
    congr 1
    omega
  · intro h; simp [readLog, h]
  · intro n hn hne; simp [readLog, hn, readText, hne]
  · intro h; simp [readLog, h, readText]
  · intro n hn hne; simp [readLog, hn, readText, hne]
  · intro h; simp [readLog, h, readText]
  · intro c hc
    obtain ⟨ht, ht'⟩ := traceId_bytes_roundtrip.1 c.traceId
    obtain ⟨hs, hs'⟩ := spanId_bytes_roundtrip.1 c.spanId
    constructor
    · simp [readLog, hc, readTraceId, readSpanId, ht, hs, ht', hs']
    · cases hf : c.traceFlags with
      | none => simp [readLog, hc, hf, readFlags]
      | some f => simp [readLog, hc, hf, readFlags_setWidth]
  · intro h; simp [readLog, h, readTraceId, readSpanId, readFlags]

/-- **C54.** Converting a record panics exactly if it has no observed time; a record that went through `emit` has one. -/
theorem log_converts (r : SdkLog K) : (logOf r = none ↔ r.observedTimestamp = none) ∧
    ∀ {B : Type} {U : Nat → Type} (cx : Sdk.Cx B U) (now : Int), logOf (Logs.prepare cx now r) ≠ none := by
  constructor
  · simp [logOf]
  · intro B U cx now
    simp only [logOf, ne_eq, Option.map_eq_none_iff]
    unfold Logs.prepare
    simp only
    split <;> split <;> simp_all

/-- **C54, violated.** A record made at the epoch and a record without time look the same. -/
theorem log_time_violated : ∃ r r' : SdkLog Nat, r.timestamp ≠ r'.timestamp ∧ logOf r = logOf r' ∧ logOf r ≠ none :=
  ⟨{ (Logs.Record.new : SdkLog Nat) with timestamp := some 0, observedTimestamp := some 5 },
   { (Logs.Record.new : SdkLog Nat) with timestamp := none, observedTimestamp := some 5 }, by simp, rfl, by simp [logOf]⟩

end Otel.Otlp
