import Verif.Zipkin.Model
import Verif.Trace.IdsProps
/-!
# Zipkin: what an exported span carries (C61)
-/

namespace Otel.Zipkin
open Rust Sdk

variable {V E : Type} (toText : V → Str) (ofText : Str → V) (epoch : Time) (ep : E)

/-- C61. The ids of the exported span are the ids of the span in hexadecimal: they can be read back, and have 32 and 16 digits. -/
theorem ids_exact (x : Exported (Str × V) Scope) :
    TraceId.fromHex (intoZipkin toText ofText epoch ep x).traceId = some x.spanContext.traceId ∧
    SpanId.fromHex (intoZipkin toText ofText epoch ep x).id = some x.spanContext.spanId ∧
    SpanId.fromHex (intoZipkin toText ofText epoch ep x).parentId = some x.data.parentSpanId ∧
    (intoZipkin toText ofText epoch ep x).traceId.length = 32 ∧ (intoZipkin toText ofText epoch ep x).id.length = 16 :=
  ⟨traceId_text_roundtrip _, spanId_text_roundtrip _, spanId_text_roundtrip _, (id_text_shape _ x.spanContext.spanId).1.1, (id_text_shape x.spanContext.traceId _).2.1⟩

/-- C61 (finding). A root span, which has no parent, is exported with the parent id of sixteen zeros. -/
theorem root_parent_violated (x : Exported (Str × V) Scope) (h : x.data.parentSpanId = SpanId.invalid) :
    (intoZipkin toText ofText epoch ep x).parentId = "0000000000000000".toList := by
  show x.data.parentSpanId.toText = _
  rw [h]; decide +kernel

/-! ## Tags -/

/-- The value of the last attribute with key `k`, as text. -/
def lastAttr (attrs : List (Str × V)) (k : Str) : Option Str := ((attrs.filter fun kv => decide (kv.1 = k)).getLast?).map fun kv => toText kv.2

/-- What the tag `k` has to be, rule by rule: the status first, then the scope, then the attributes. -/
def expectedTag (x : Exported (Str × V) Scope) (k : Str) : Option Str :=
  if k = "error".toList then (match x.data.status with | .error m => some m | _ => none)
  else if k = "otel.status_code".toList ∧ x.data.status ≠ .unset then some (if x.data.status = .ok then "OK".toList else "ERROR".toList)
  else if k = "otel.library.version".toList ∧ x.scope.version ≠ none then x.scope.version
  else if k = "otel.library.name".toList then some x.scope.name
  else lastAttr toText x.data.attributes k

theorem expectedTag_eq (x : Exported (Str × V) Scope) (k : Str) : expectedTag toText x k =
    if k = tagError then (match x.data.status with | .error m => some m | _ => none)
    else if k = tagStatus ∧ x.data.status ≠ .unset then some (if x.data.status = .ok then "OK".toList else "ERROR".toList)
    else if k = tagVersion ∧ x.scope.version ≠ none then x.scope.version
    else if k = tagName then some x.scope.name
    else lastAttr toText x.data.attributes k := rfl

theorem mapFromKvs_get (kvs : List (Str × V)) (k : Str) : Assoc.get (mapFromKvs toText kvs) k = lastAttr toText kvs k := by
  have e : mapFromKvs toText kvs = Assoc.insertAll [] (kvs.map fun kv => (kv.1, toText kv.2)) := by
    unfold mapFromKvs Assoc.insertAll
    rw [List.foldl_map]
  rw [e, Assoc.get_insertAll, Assoc.last]
  show Option.or _ none = _
  rw [Option.or_none, lastAttr, List.getLast?_eq_head?_reverse, ← List.filter_reverse, ← List.map_reverse]
  generalize kvs.reverse = l
  induction l with
  | nil => rfl
  | cons p l ih =>
    rw [List.map_cons, Assoc.get_cons]
    by_cases h : p.1 = k
    · rw [List.filter_cons_of_pos (by simp [h]), if_pos h.symm]; rfl
    · rw [List.filter_cons_of_neg (by simp [h]), if_neg (Ne.symm h), ih]

theorem lastAttr_append (a b : List (Str × V)) (k : Str) : lastAttr toText (a ++ b) k = (lastAttr toText b k).or (lastAttr toText a k) := by
  unfold lastAttr
  rw [List.filter_append, List.getLast?_append]
  cases (b.filter fun kv => decide (kv.1 = k)).getLast? <;> rfl

theorem lastAttr_filter_ne (a : List (Str × V)) (k e : Str) :
    lastAttr toText (a.filter fun kv => decide (kv.1 ≠ e)) k = if k = e then none else lastAttr toText a k := by
  unfold lastAttr
  rw [List.filter_filter]
  by_cases h : k = e
  · subst h
    rw [if_pos rfl, List.filter_eq_nil_iff.2 (by intro kv _; simp)]; rfl
  · rw [if_neg h]
    congr 2
    apply List.filter_congr
    intro kv _
    by_cases hk : kv.1 = k
    · simp [hk, h]
    · simp [hk]

/-- C61. The tags are exactly these: `error` only from an error status, `otel.status_code` from a set status, the scope's name and version,
and for any other key the last value given to it. Text given as attribute value is assumed to be shown as it is. -/
theorem tags_exact (hText : ∀ s, toText (ofText s) = s) (x : Exported (Str × V) Scope) (k : Str) :
    Assoc.get (intoZipkin toText ofText epoch ep x).tags k = expectedTag toText x k := by
  have base : Assoc.get (mapFromKvs toText (tagSource ofText x.data.attributes x.scope)) k =
      if k = tagError then none else
        if k = tagVersion ∧ x.scope.version ≠ none then x.scope.version
        else if k = tagName then some x.scope.name
        else lastAttr toText x.data.attributes k := by
    rw [mapFromKvs_get, tagSource, lastAttr_filter_ne]
    by_cases he : k = tagError
    · rw [if_pos he, if_pos he]
    · rw [if_neg he, if_neg he, lastAttr_append]
      have hne : tagName ≠ tagVersion := by decide
      cases hv : x.scope.version with
      | none =>
        rw [if_neg (by simp)]
        simp only [List.filterMap_cons, List.filterMap_nil, Option.map_some, Option.map_none]
        by_cases hn : k = tagName
        · rw [if_pos hn, hn]
          unfold lastAttr
          rw [List.filter_cons_of_pos (by simp)]
          simp [hText]
        · rw [if_neg hn]
          have : lastAttr toText [(tagName, ofText x.scope.name)] k = none := by
            unfold lastAttr; rw [List.filter_cons_of_neg (by simpa using Ne.symm hn)]; rfl
          rw [this]; rfl
      | some v =>
        simp only [List.filterMap_cons, List.filterMap_nil, Option.map_some]
        by_cases hv' : k = tagVersion
        · rw [if_pos ⟨hv', by simp⟩]
          unfold lastAttr
          rw [List.filter_cons_of_neg (by rw [hv']; simpa using hne), List.filter_cons_of_pos (by simp [hv'])]
          simp [hText]
        · rw [if_neg (fun h => hv' h.1)]
          by_cases hn : k = tagName
          · rw [if_pos hn]
            unfold lastAttr
            rw [List.filter_cons_of_pos (by simp [hn]), List.filter_cons_of_neg (by simpa using Ne.symm hv')]
            simp [hText]
          · rw [if_neg hn]
            have : lastAttr toText [(tagName, ofText x.scope.name), (tagVersion, ofText v)] k = none := by
              unfold lastAttr
              rw [List.filter_cons_of_neg (by simpa using Ne.symm hn), List.filter_cons_of_neg (by simpa using Ne.symm hv')]; rfl
            rw [this]; rfl
  have hsc : tagStatus ≠ tagError := by decide
  show Assoc.get (withStatus _ x.data.status) k = _
  generalize mapFromKvs toText (tagSource ofText x.data.attributes x.scope) = tags at base
  rw [expectedTag_eq]
  cases hs : x.data.status with
  | unset =>
    simp only [withStatus, base, ne_eq, not_true, and_false, if_false]
  | ok =>
    simp only [withStatus, Assoc.get_insert, base]
    by_cases he : k = tagError
    · subst he; simp [Ne.symm hsc]
    · by_cases hk : k = tagStatus
      · subst hk; simp [hsc]
      · simp [he, hk]
  | error m =>
    simp only [withStatus, Assoc.get_insert, base]
    by_cases he : k = tagError
    · simp [he]
    · by_cases hk : k = tagStatus
      · subst hk; simp [hsc]
      · simp [he, hk]

/-- C61. No key occurs twice among the tags. -/
theorem tags_nodup (x : Exported (Str × V) Scope) : ((intoZipkin toText ofText epoch ep x).tags.map Prod.fst).Nodup := by
  have hb : ((mapFromKvs toText (tagSource ofText x.data.attributes x.scope)).map Prod.fst).Nodup := by
    have : ∀ (kvs : List (Str × V)) (m : List (Str × Str)), (m.map Prod.fst).Nodup →
        ((kvs.foldl (fun m kv => Assoc.insert m kv.1 (toText kv.2)) m).map Prod.fst).Nodup := by
      intro kvs
      induction kvs with
      | nil => exact fun _ h => h
      | cons p kvs ih => exact fun m h => ih _ (Assoc.nodup_insert h _ _)
    exact this _ [] List.nodup_nil
  show ((withStatus _ x.data.status).map Prod.fst).Nodup
  cases x.data.status with
  | unset => exact hb
  | ok => exact Assoc.nodup_insert hb _ _
  | error m => exact Assoc.nodup_insert (Assoc.nodup_insert hb _ _) _ _

/-- C61. There is an `error` tag exactly for an error status, and it holds the description; an attribute named `error` never appears. -/
theorem error_tag (hText : ∀ s, toText (ofText s) = s) (x : Exported (Str × V) Scope) (v : Str) :
    Assoc.get (intoZipkin toText ofText epoch ep x).tags "error".toList = some v ↔ x.data.status = .error v := by
  rw [tags_exact toText ofText epoch ep hText, expectedTag, if_pos rfl]
  cases x.data.status <;> simp

/-! ## Times, kind, annotations -/

/-- C61. The duration is the difference of the two times in whole microseconds, and 0 if the end is before the start: it is never negative.
(It wraps for a span of more than half a million years.) -/
theorem duration_exact (x : Exported (Str × V) Scope) :
    (x.data.endTime < x.data.startTime → (intoZipkin toText ofText epoch ep x).duration = 0) ∧
    (x.data.startTime ≤ x.data.endTime → x.data.endTime - x.data.startTime < 1000 * 2 ^ 64 →
      (intoZipkin toText ofText epoch ep x).duration * 1000 ≤ x.data.endTime - x.data.startTime ∧
      x.data.endTime - x.data.startTime < (intoZipkin toText ofText epoch ep x).duration * 1000 + 1000) := by
  constructor
  · intro h
    show micros _ _ = 0
    rw [micros, if_neg (Nat.not_le.2 h)]
    rfl
  · intro h h2
    show micros _ _ * 1000 ≤ _ ∧ _ < micros _ _ * 1000 + 1000
    rw [micros, if_pos h, Nat.mod_eq_of_lt (Nat.div_lt_of_lt_mul h2)]
    omega

/-- C61. The start is the number of whole microseconds since the epoch. -/
theorem timestamp_exact (x : Exported (Str × V) Scope) (h : epoch ≤ x.data.startTime) (h2 : x.data.startTime - epoch < 1000 * 2 ^ 64) :
    (intoZipkin toText ofText epoch ep x).timestamp * 1000 ≤ x.data.startTime - epoch ∧
    x.data.startTime - epoch < (intoZipkin toText ofText epoch ep x).timestamp * 1000 + 1000 := by
  show micros _ _ * 1000 ≤ _ ∧ _ < micros _ _ * 1000 + 1000
  rw [micros, if_pos h, Nat.mod_eq_of_lt (Nat.div_lt_of_lt_mul h2)]
  omega

/-- C61. One annotation for every event, in order, with its name. -/
theorem annotations_exact (x : Exported (Str × V) Scope) :
    (intoZipkin toText ofText epoch ep x).annotations.map (fun a => a.value) = x.data.events.events.map (fun e => e.name) := by
  show (List.map _ _).map _ = _
  rw [List.map_map]; rfl

/-- C61. The time of an annotation is the time of its event, in whole microseconds since the epoch. -/
theorem annotation_times (x : Exported (Str × V) Scope) :
    List.Forall₂ (fun (e : Event (Str × V)) (a : Annotation) => epoch ≤ e.timestamp → e.timestamp - epoch < 1000 * 2 ^ 64 →
      a.timestamp * 1000 ≤ e.timestamp - epoch ∧ e.timestamp - epoch < a.timestamp * 1000 + 1000)
      x.data.events.events (intoZipkin toText ofText epoch ep x).annotations := by
  show List.Forall₂ _ _ (List.map _ _)
  rw [List.forall₂_map_right_iff, List.forall₂_same]
  intro e _ h h2
  show micros _ _ * 1000 ≤ _ ∧ _ < micros _ _ * 1000 + 1000
  rw [micros, if_pos h, Nat.mod_eq_of_lt (Nat.div_lt_of_lt_mul h2)]
  omega

/-- C61 (part). The kind is exported, except for internal spans, which have none. Missing: a span with an attribute `span.kind`, whose kind is
left out even if the attribute says something else (`kind_violated`). -/
theorem kind_partial (x : Exported (Str × V) Scope) (h : ∀ kv ∈ x.data.attributes, kv.1 ≠ "span.kind".toList) :
    (x.data.spanKind = .internal → (intoZipkin toText ofText epoch ep x).kind = none) ∧
    (x.data.spanKind = .client → (intoZipkin toText ofText epoch ep x).kind = some .client) ∧
    (x.data.spanKind = .server → (intoZipkin toText ofText epoch ep x).kind = some .server) ∧
    (x.data.spanKind = .producer → (intoZipkin toText ofText epoch ep x).kind = some .producer) ∧
    (x.data.spanKind = .consumer → (intoZipkin toText ofText epoch ep x).kind = some .consumer) := by
  have : (intoZipkin toText ofText epoch ep x).kind = zipkinKind x.data.spanKind := by
    show (if _ then _ else _) = _
    rw [if_neg]
    rw [Bool.not_eq_true, List.any_eq_false]
    intro kv hkv
    rw [decide_eq_true_eq]
    exact h kv hkv
  rw [this]
  refine ⟨?_, ?_, ?_, ?_, ?_⟩ <;> (intro h; rw [h]; rfl)

/-- A span for examples. -/
def exampleSpan (attrs : List (Str × Str)) (status : Status) (kind : SpanKind) : Exported (Str × Str) Scope where
  spanContext := ⟨1#128, 2#64, 1#8, false, TraceState.none⟩
  data := ⟨0#64, kind, "op".toList, 5000, 8500, attrs, 0, ⟨[⟨"e".toList, 6000, [], 0⟩], 0⟩, ⟨[], 0⟩, status⟩
  scope := ⟨"lib".toList, some "1".toList⟩

example : (intoZipkin id id 0 () (exampleSpan [("a".toList, "1".toList), ("a".toList, "2".toList), (tagError, "x".toList)] (.error "bad".toList) .client)).duration = 3 ∧
    Assoc.get (intoZipkin id id 0 () (exampleSpan [("a".toList, "1".toList), ("a".toList, "2".toList), (tagError, "x".toList)] (.error "bad".toList) .client)).tags "a".toList = some "2".toList := by
  decide +kernel

/-- C61 (finding). The kind of a span disappears if the program sets an attribute `span.kind`. -/
theorem kind_violated : (intoZipkin id id 0 () (exampleSpan [("span.kind".toList, "x".toList)] .unset .server)).kind = none := by decide +kernel

/-- C61 (finding). Without a status the program's own `otel.status_code` attribute is exported as if it were the status. -/
theorem status_code_violated : Assoc.get (intoZipkin id id 0 () (exampleSpan [(tagStatus, "OK".toList)] .unset .server)).tags tagStatus =
    some "OK".toList := by decide +kernel

/-- C61 (finding). Links, the attributes of events and the trace state are not exported: spans that differ only there become the same. The
resource (and with it the service name) is no argument of the conversion at all. -/
theorem lost_fields_violated (x : Exported (Str × V) Scope) (links : SpanLinks (Str × V)) (attrs : List (Str × V)) (ts : TraceState) :
    intoZipkin toText ofText epoch ep
      { x with
        spanContext := { x.spanContext with traceState := ts }
        data := { x.data with
          links := links
          events := { x.data.events with events := x.data.events.events.map fun e => { e with attributes := attrs } } } } =
    intoZipkin toText ofText epoch ep x := by
  simp only [intoZipkin, List.map_map]
  congr 1

/-! ## Batches -/

/-- C61. A batch is sent in one request that holds every span once, in order; the result is success exactly if the collector answered with a
status of success. -/
theorem batch_once (send : List (ZSpan E) → Answer) (batch : List (Exported (Str × V) Scope)) :
    (exportBatch toText ofText epoch ep send batch).2 = [batch.map (intoZipkin toText ofText epoch ep)] ∧
    ((exportBatch toText ofText epoch ep send batch).1 = true ↔
      ∃ status, send (batch.map (intoZipkin toText ofText epoch ep)) = some status ∧ 200 ≤ status ∧ status ≤ 299) := by
  refine ⟨rfl, ?_⟩
  unfold exportBatch
  simp only
  cases send (batch.map (intoZipkin toText ofText epoch ep)) with
  | none => simp
  | some s => simp only [decide_eq_true_eq, Option.some.injEq, exists_eq_left']; omega

/-- C61. The collector's address is the last one set by the program, else the environment's if not empty, else the default. -/
theorem endpoint_precedence (env : Option Str) (calls : List Str) :
    (∀ c cs, calls = cs ++ [c] → endpoint env calls = c) ∧
    (calls = [] → ∀ v, env = some v → v ≠ [] → endpoint env calls = v) ∧
    (calls = [] → (env = none ∨ env = some []) → endpoint env calls = "http://127.0.0.1:9411/api/v2/spans".toList) := by
  refine ⟨?_, ?_, ?_⟩
  · rintro c cs rfl; unfold endpoint; rw [List.foldl_append]; rfl
  · rintro rfl v rfl hv
    cases v with
    | nil => exact absurd rfl hv
    | cons _ _ => rfl
  · rintro rfl (rfl | rfl) <;> rfl

end Otel.Zipkin
