import Verif.Otlp.JsonAgree
/-!
# C83, C84: cases that meet the hypotheses, and documents that are written or read wrongly
-/

namespace Otel.Otlp.Json
open Rust

/-! ## Requests -/

/-- A span with these attributes. -/
def spanWith (kvs : List Kv) : Span where
  traceId := [1#8, 2#8]
  spanId := [3#8]
  traceState := []
  parentSpanId := []
  flags := 1#32
  name := "s".toList
  kind := 1#32
  startTimeUnixNano := 5#64
  endTimeUnixNano := 7#64
  attributes := kvs
  droppedAttributesCount := 0#32
  events := [⟨6#64, "e".toList, kvs, 0#32⟩]
  droppedEventsCount := 0#32
  links := []
  droppedLinksCount := 0#32
  status := some ⟨[], 1#32⟩

/-- A request with one item. -/
def requestOf {α : Type} (a : α) : List (ResourceItems α) := [⟨some ⟨[], 0#32⟩, [⟨some ⟨"lib".toList, [], [], 0#32⟩, [a], []⟩], []⟩]

/-- A log record with this body. -/
def logWith (v : AVal) : LogRecord := ⟨5#64, 6#64, 9#32, "INFO".toList, some v, [("k".toList, some v)], 0#32, 0#32, [], [], []⟩

/-- A point with this value. -/
def pointWith (v : Option Num) (es : List Exemplar) : NumPoint := ⟨[], 1#64, 2#64, es, 0#32, v⟩

/-- A metric with these data. -/
def metricWith (d : Data) : Metric := ⟨"m".toList, [], [], [], some d⟩

/-- A value with all kinds of values in it. -/
def manyValues : AVal := .kvlist [("a".toList, some (.array [.int 7#64, .double 0x3FF8000000000000#64, .str "x".toList, .bool true])),
  ("b".toList, none), ("c".toList, some (.bytes [1#8, 255#8]))]

/-- The text layer that reads every double exactly. -/
def exactly : BitVec 64 → BitVec 64 := id

theorem goodVal_of (v : AVal) (d : Nat) (hp : v.noUnset = true) (hf : v.doubles.all finite = true) (hl : v.levels ≤ d) : GoodVal exactly d v :=
  ⟨hp, List.all_eq_true.1 hf, fun _ _ => rfl, hl⟩

theorem good_many (d : Nat) (h : 8 ≤ d) : GoodVal exactly d manyValues :=
  goodVal_of _ _ (by decide +kernel) (by decide +kernel) (Nat.le_trans (by decide +kernel) h)

/-- The hypotheses of `traces_read_back_partial` and `traces_conform_partial` are met by a span with nested attributes, an event and a status. -/
example : (∀ r ∈ requestOf (spanWith [("k".toList, some manyValues)]), ∀ v ∈ r.values Span.values, GoodVal exactly 116 v) ∧
    ∀ r ∈ requestOf (spanWith [("k".toList, some manyValues)]), FiniteVals (r.values Span.values) := by
  have h : (requestOf (spanWith [("k".toList, some manyValues)])).flatMap (fun r => r.values Span.values) = [manyValues, manyValues] := rfl
  have key : ∀ r ∈ requestOf (spanWith [("k".toList, some manyValues)]), ∀ v ∈ r.values Span.values, v = manyValues := fun r hr v hv => by
    have : v ∈ (requestOf (spanWith [("k".toList, some manyValues)])).flatMap (fun r => r.values Span.values) := List.mem_flatMap.2 ⟨r, hr, hv⟩
    rw [h] at this; simpa using this
  exact ⟨fun r hr v hv => key r hr v hv ▸ good_many 116 (by decide), fun r hr v hv => key r hr v hv ▸ (good_many 116 (by decide)).finite⟩

example : (∀ r ∈ requestOf (logWith manyValues), ∀ v ∈ r.values LogRecord.values, GoodVal exactly 118 v) ∧
    ∀ r ∈ requestOf (logWith manyValues), FiniteVals (r.values LogRecord.values) := by
  have h : (requestOf (logWith manyValues)).flatMap (fun r => r.values LogRecord.values) = [manyValues, manyValues] := rfl
  have key : ∀ r ∈ requestOf (logWith manyValues), ∀ v ∈ r.values LogRecord.values, v = manyValues := fun r hr v hv => by
    have : v ∈ (requestOf (logWith manyValues)).flatMap (fun r => r.values LogRecord.values) := List.mem_flatMap.2 ⟨r, hr, hv⟩
    rw [h] at this; simpa using this
  exact ⟨fun r hr v hv => key r hr v hv ▸ good_many 118 (by decide), fun r hr v hv => key r hr v hv ▸ (good_many 118 (by decide)).finite⟩

/-- A sum with two points. -/
def sumMetric : Metric := metricWith (.sum [pointWith (some (.asInt 5#64)) [], pointWith (some (.asDouble 0x3FF8000000000000#64)) []] 2#32 true)

example : (∀ r ∈ requestOf sumMetric, ∀ v ∈ r.values Metric.values, GoodVal exactly 113 v) ∧
    (∀ m ∈ allItems (requestOf sumMetric), ∀ f ∈ m.data.toList.flatMap Data.doubles, GoodF64 exactly f) ∧
    (∀ r ∈ requestOf sumMetric, FiniteVals (r.values Metric.values)) ∧ ∀ m ∈ allItems (requestOf sumMetric), ∀ v ∈ m.data.toList, WritableData v := by
  have h : (requestOf sumMetric).flatMap (fun r => r.values Metric.values) = [] := rfl
  have hno : ∀ r ∈ requestOf sumMetric, ∀ v ∈ r.values Metric.values, False := fun r hr v hv => by
    have : v ∈ (requestOf sumMetric).flatMap (fun r => r.values Metric.values) := List.mem_flatMap.2 ⟨r, hr, hv⟩
    rw [h] at this; simp at this
  have hi : allItems (requestOf sumMetric) = [sumMetric] := rfl
  have hd : sumMetric.data.toList.flatMap Data.doubles = [0x3FF8000000000000#64] := rfl
  refine ⟨fun r hr v hv => (hno r hr v hv).elim, fun m hm f hf => ?_, fun r hr v hv => (hno r hr v hv).elim, fun m hm v hv => ?_⟩
  · rw [hi, List.mem_singleton] at hm; subst hm
    rw [hd, List.mem_singleton] at hf; subst hf
    exact ⟨by decide, rfl⟩
  · rw [hi, List.mem_singleton] at hm; subst hm
    simp only [sumMetric, metricWith, Option.toList, List.mem_singleton] at hv; subst hv
    constructor
    · intro f hf
      have hf : f ∈ [0x3FF8000000000000#64] := hf
      rw [List.mem_singleton] at hf; subst hf; decide
    · intro e he
      have he : e ∈ ([] : List Exemplar) := he
      simp at he

/-! ## C83: what is not written as the standard says -/

section
variable (cast : Int → BitVec 64)

theorem fld_inv {o : Obj} {k : String} {x : Json} {D : Prop} {R : Json → Prop} (hnd : (o.map (·.1)).Nodup) (hm : (k, x) ∈ o) (hx : x ≠ .null)
    (h : Fld o k D R) : R x := by
  rcases h with ⟨_, h⟩ | ⟨j, hj, _, hR⟩
  · exact absurd (h x hm) hx
  · rwa [mem_unique hnd hm hj]

theorem fldArr_inv {α : Type} {o : Obj} {k : String} {js : List Json} {xs : List α} {R : Json → α → Prop} (hnd : (o.map (·.1)).Nodup)
    (hm : (k, .arr js) ∈ o) (h : FldArr o k R xs) : List.Forall₂ R js xs := by
  obtain ⟨js', e, hf⟩ := fld_inv hnd hm (by simp) h
  cases e; exact hf

theorem std_item {α : Type} {R : Json → α → Prop} {enc : α → Json} {i s q : String} {a : α}
    (h : StdRequest cast i s q R (encRequest i s q enc (requestOf a)) (requestOf a)) : R (enc a) a := by
  obtain ⟨o, ⟨e, hnd⟩, h⟩ := h
  cases e
  have h := fldArr_inv hnd (List.mem_cons_self ..) h
  rw [requestOf, List.map_cons, List.forall₂_cons] at h
  obtain ⟨o, ⟨e, hnd⟩, _, h, _⟩ := h.1
  cases e
  have h := fldArr_inv hnd (List.mem_cons_of_mem _ (List.mem_cons_self ..)) h
  rw [List.map_cons, List.forall₂_cons] at h
  obtain ⟨o, ⟨e, hnd⟩, _, h, _⟩ := h.1
  cases e
  have h := fldArr_inv hnd (List.mem_cons_of_mem _ (List.mem_cons_self ..)) h
  rw [List.map_cons, List.forall₂_cons] at h
  exact h.1

/-- C83, against the property: a double in an attribute that is infinite or not a number is written as `null`, which no receiver reads as that double. The
standard has the strings `NaN`, `Infinity` and `-Infinity` for them. -/
theorem traces_conform_violated (f : BitVec 64) (hf : finite f = false) :
    let rs := requestOf (spanWith [("k".toList, some (.double f))])
    ¬ StdTraces cast (encTraces rs) rs := by
  intro rs h
  obtain ⟨o, ⟨e, hnd⟩, _, _, _, _, _, _, _, _, _, h, _⟩ := std_item cast h
  cases e
  obtain ⟨js, e, h⟩ := fld_inv hnd (x := encAttrs [("k".toList, some (.double f))]) (by simp [spanWith]) (by simp [encAttrs]) h
  cases e
  have h : StdKvs cast [("k".toList, some (.double f))] [.obj [("key", .str "k".toList), ("value", encAny (.double f))]] := by
    simpa [spanWith, encKvs] using h
  rw [StdKvs] at h
  obtain ⟨o, ⟨e, hnd⟩, _, h⟩ := h.1
  cases e
  have h := fld_inv hnd (x := encAny (.double f)) (by simp) (by simp [encAny]) h
  rw [StdAny, encAny, encF64, hf] at h
  obtain ⟨o, ⟨e, hnd⟩, ⟨x, hx, h⟩, _⟩ := h
  cases e
  simp only [List.mem_singleton, Prod.mk.injEq, true_and] at hx
  subst hx
  rcases h with ⟨h, _⟩ | ⟨_, h, _⟩ | ⟨h, _⟩ | ⟨h, _⟩ | ⟨h, _⟩ <;> simp at h

/-- A gauge whose point has an exemplar with the value 5. -/
def exemplarMetric : Metric := metricWith (.gauge [pointWith (some (.asInt 5#64)) [⟨[], 3#64, [], [], some (.asInt 5#64)⟩]])

/-- C83, against the property: the value of an exemplar is written as `"value": {"asInt": 5}`, where the standard has `"asInt": 5` in the exemplar itself: a
conforming receiver sees an exemplar without value. -/
theorem exemplar_conform_violated : ¬ StdMetrics cast (encMetrics (requestOf exemplarMetric)) (requestOf exemplarMetric) := by
  intro h
  obtain ⟨o, ⟨e, hnd⟩, _, _, _, _, h⟩ := std_item cast h
  cases e
  obtain ⟨⟨x, hx, p, ⟨e, hnd⟩, h⟩, _⟩ := h
  simp only [exemplarMetric, metricWith, encData, Option.map_some, Option.toList_some, List.cons_append, List.nil_append, List.mem_cons, Prod.mk.injEq,
    String.reduceEq, false_and, true_and, false_or, List.not_mem_nil, or_false] at hx
  subst hx
  cases e
  have h := fldArr_inv hnd (List.mem_cons_self ..) h
  rw [List.map_cons, List.forall₂_cons] at h
  obtain ⟨o, ⟨e, hnd⟩, _, _, _, h, _⟩ := h.1
  cases e
  have h := fldArr_inv hnd (js := [encExemplar ⟨[], 3#64, [], [], some (.asInt 5#64)⟩]) (by simp [pointWith, encArr]) h
  rw [pointWith, List.forall₂_cons] at h
  obtain ⟨o, ⟨e, hnd⟩, _, _, _, _, ⟨x, hx, _⟩, _⟩ := h.1
  cases e
  simp at hx

/-! ## C84: what is not read as it was written, or as the standard says -/

/-- C84, against the property: an attribute value that is unset, which the protocol allows and other senders write, is written as `{}`; the document is
refused as a whole when it is read. -/
theorem unset_read_back_violated : fromText exactly (decTraces cast) (encTraces (requestOf (spanWith [("k".toList, some .unset)]))) = none := by
  rfl

/-- C84, against the property: one attribute that is infinite or not a number makes the whole document unreadable. -/
theorem nan_read_back_violated : fromText exactly (decTraces cast) (encTraces (requestOf (spanWith [("k".toList, some (.double 0x7FF8000000000000#64))]))) = none := by
  rfl

/-- C84, against the property: a gauge that is not a number is read back, without an error, as a point without value. -/
theorem gauge_nan_violated : fromText exactly (decMetrics cast) (encMetrics (requestOf (metricWith (.gauge [pointWith (some (.asDouble 0x7FF8000000000000#64)) []])))) =
    some (requestOf (metricWith (.gauge [pointWith none []]))) := by
  rfl

/-- A histogram point with these bounds. -/
def histWith (bounds : List (BitVec 64)) : HistPoint := ⟨[], 1#64, 2#64, 3#64, none, [1#64, 2#64], bounds, [], 0#32, none, none⟩

/-- C84, against the property: a histogram with an infinite bound is read back, without an error, as a metric without data. -/
theorem histogram_bound_violated : fromText exactly (decMetrics cast) (encMetrics (requestOf (metricWith (.histogram [histWith [0x7FF0000000000000#64]] 2#32)))) =
    some (requestOf ⟨"m".toList, [], [], [], none⟩) := by
  rfl

/-- A value in `n` arrays. -/
def nested : Nat → AVal
  | 0 => .int 1#64
  | n + 1 => .array [nested n]

/-- C84, against the property: an attribute of 39 nested arrays, which is written without complaint, is beyond the parser's limit. The limit in
`traces_read_back_partial` allows 38. -/
theorem deep_read_back_violated : fromText exactly (decTraces cast) (encTraces (requestOf (spanWith [("k".toList, some (nested 39))]))) = none ∧
    (nested 38).levels ≤ 116 := by
  refine ⟨if_neg ?_, by decide +kernel⟩
  have h : (encTraces (requestOf (spanWith [("k".toList, some (nested 39))]))).depth = 129 := by decide +kernel
  rw [h]; decide

/-- A request document around these items, as any sender may write it. -/
def docOf (items scopes req : String) (js : List Json) : Json := .obj [(req, .arr [.obj [(scopes, .arr [.obj [(items, .arr js)]])]])]

theorem stdRequest_doc {α : Type} {R : Json → α → Prop} {i s q : String} {j : Json} {a : α} (hi : i ≠ "scope") (hi' : i ≠ "schemaUrl") (hs : s ≠ "resource")
    (hs' : s ≠ "schemaUrl") (h : R j a) : StdRequest cast i s q R (docOf i s q [j]) [⟨none, [⟨none, [a], []⟩], []⟩] := by
  refine ⟨_, ⟨rfl, by simp⟩, .inr ⟨_, List.mem_cons_self .., by simp, _, rfl, .cons ⟨_, ⟨rfl, by simp⟩, .inl ⟨rfl, ?_⟩, ?_, .inl ⟨rfl, ?_⟩⟩ .nil⟩⟩
  · simp [hs.symm]
  · refine .inr ⟨_, List.mem_cons_self .., by simp, _, rfl, .cons ⟨_, ⟨rfl, by simp⟩, .inl ⟨rfl, ?_⟩, ?_, .inl ⟨rfl, ?_⟩⟩ .nil⟩
    · simp [hi.symm]
    · exact .inr ⟨_, List.mem_cons_self .., by simp, _, rfl, .cons h .nil⟩
    · simp [hi'.symm]
  · simp [hs'.symm]

/-- A span in which only the start time is set. -/
def startedAt (t : BitVec 64) : Span := ⟨[], [], [], [], 0, [], 0, t, 0, [], 0, [], 0, [], 0, none⟩

/-- C84, against the property: `"startTimeUnixNano": 5` is `5` by the standard; the reader refuses the document because the time is not a string. -/
theorem numeric_time_violated :
    let j := docOf "spans" "scopeSpans" "resourceSpans" [.obj [("startTimeUnixNano", .int 5)]]
    (∃ rs, StdTraces cast j rs) ∧ decTraces cast j = none := by
  refine ⟨⟨_, stdRequest_doc cast (a := startedAt 5#64) (by decide) (by decide) (by decide) (by decide) ⟨_, ⟨rfl, by simp⟩, ?_⟩⟩, rfl⟩
  have miss : ∀ {k : String} {R : Json → Prop} {D : Prop}, k ≠ "startTimeUnixNano" → D → Fld [("startTimeUnixNano", .int 5)] k D R :=
    fun hk hd => .inl ⟨hd, by simp [hk]⟩
  refine ⟨miss (by decide) rfl, miss (by decide) rfl, miss (by decide) rfl, miss (by decide) rfl, miss (by decide) rfl, miss (by decide) rfl,
    miss (by decide) rfl, .inr ⟨_, List.mem_cons_self .., by simp, .inl rfl⟩, miss (by decide) rfl, miss (by decide) rfl, miss (by decide) rfl,
    miss (by decide) rfl, miss (by decide) rfl, miss (by decide) rfl, miss (by decide) rfl, miss (by decide) rfl⟩

/-- C84, against the property: the canonical form of a 64-bit integer is a string; of `{"asInt": "5"}`, the point 5 by the standard, the reader makes a
point without value, and no error. -/
theorem canonical_int_violated :
    let j := docOf "metrics" "scopeMetrics" "resourceMetrics" [.obj [("gauge", .obj [("dataPoints", .arr [.obj [("asInt", .str "5".toList)]])])]]
    let m (v : Option Num) : List (ResourceItems Metric) := [⟨none, [⟨none, [⟨[], [], [], [], some (.gauge [⟨[], 0, 0, [], 0, v⟩])⟩], []⟩], []⟩]
    StdMetrics cast j (m (some (.asInt 5#64))) ∧ decMetrics cast j = some (m none) := by
  refine ⟨stdRequest_doc cast (by decide) (by decide) (by decide) (by decide) ⟨_, ⟨rfl, by simp⟩, ?_⟩, rfl⟩
  have miss : ∀ {k k' : String} {j : Json} {R : Json → Prop} {D : Prop}, k ≠ k' → D → Fld [(k', j)] k D R := fun hk hd => .inl ⟨hd, by simp [hk]⟩
  refine ⟨miss (by decide) rfl, miss (by decide) rfl, miss (by decide) rfl, miss (by decide) rfl, ⟨_, List.mem_cons_self .., _, ⟨rfl, by simp⟩,
    .inr ⟨_, List.mem_cons_self .., by simp, _, rfl, .cons ⟨_, ⟨rfl, by simp⟩, ?_⟩ .nil⟩⟩, by simp⟩
  refine ⟨miss (by decide) rfl, miss (by decide) rfl, miss (by decide) rfl, miss (by decide) rfl, miss (by decide) rfl,
    ⟨_, List.mem_cons_self .., .inr ⟨_, rfl, ?_⟩⟩, by simp⟩
  have : DecText (fmtInt 5) 5 := (stdInt_text 5).elim (fun h => by simp at h) fun ⟨s, e, h⟩ => by cases e; exact h
  exact this

/-- C84, against the property: `{"arrayValue": {}}` is the empty array by the standard; the reader refuses the document. -/
theorem empty_array_read_violated :
    StdAny cast (.array []) (.obj [("arrayValue", .obj [])]) ∧ ∀ n, decAny cast n (.obj [("arrayValue", .obj [])]) = none := by
  refine ⟨?_, fun n => ?_⟩
  · rw [StdAny]
    exact ⟨_, ⟨rfl, by simp⟩, ⟨_, List.mem_cons_self .., _, ⟨rfl, by simp⟩, .inl ⟨rfl, by simp⟩⟩, by simp⟩
  · cases n <;> rfl

/-- `traces_agree_partial` is about documents like this one, with an entry that is not known. -/
example : StdTraces cast (docOf "spans" "scopeSpans" "resourceSpans" [.obj [("startTimeUnixNano", .str "5".toList), ("future", .null)]])
      [⟨none, [⟨none, [startedAt 5#64], []⟩], []⟩] ∧
    decTraces cast (docOf "spans" "scopeSpans" "resourceSpans" [.obj [("startTimeUnixNano", .str "5".toList), ("future", .null)]]) =
      some [⟨none, [⟨none, [startedAt 5#64], []⟩], []⟩] := by
  refine ⟨stdRequest_doc cast (a := startedAt 5#64) (by decide) (by decide) (by decide) (by decide) ⟨_, ⟨rfl, by simp⟩, ?_⟩, rfl⟩
  have miss : ∀ {k : String} {j : Json} {R : Json → Prop} {D : Prop}, k ≠ "startTimeUnixNano" → k ≠ "future" → D →
      Fld [("startTimeUnixNano", j), ("future", .null)] k D R := fun hk hk' hd => .inl ⟨hd, by simp [hk, hk']⟩
  have : DecText (fmtInt 5) 5 := (stdInt_text 5).elim (fun h => by simp at h) fun ⟨s, e, h⟩ => by cases e; exact h
  refine ⟨miss (by decide) (by decide) rfl, miss (by decide) (by decide) rfl, miss (by decide) (by decide) rfl, miss (by decide) (by decide) rfl,
    miss (by decide) (by decide) rfl, miss (by decide) (by decide) rfl, miss (by decide) (by decide) rfl,
    .inr ⟨_, List.mem_cons_self .., by simp, .inr ⟨_, rfl, this⟩⟩, miss (by decide) (by decide) rfl, miss (by decide) (by decide) rfl,
    miss (by decide) (by decide) rfl, miss (by decide) (by decide) rfl, miss (by decide) (by decide) rfl, miss (by decide) (by decide) rfl,
    miss (by decide) (by decide) rfl, miss (by decide) (by decide) rfl⟩

end

end Otel.Otlp.Json
