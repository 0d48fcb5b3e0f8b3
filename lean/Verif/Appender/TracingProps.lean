import Verif.Appender.Tracing
import Verif.Logs.RecordProps
import Mathlib.Data.List.TakeWhile
/-! # C80: a `tracing` event becomes one log record that says what the event said -/

namespace Otel.Appender
open Rust
open Logs (RecOp Record Processor Prepared Handed watchAll)
open Otlp (LVal Severity)
open Otel.Sdk (Cx)

variable {Time I W B : Type} {U : Nat → Type}

/-! ## Specification -/

/-- The number a field holds. -/
def FieldVal.number : FieldVal → Option Int
  | .i64 i => some i.toInt
  | .u64 n => some n.toNat
  | .i128 i => some i.toInt
  | .u128 n => some n.toNat
  | _ => none

/-- The text a field holds. -/
def FieldVal.text : FieldVal → Option Str
  | .debug t => some t
  | .str t => some t
  | _ => none

/-- The value of the logs API says what the field held. -/
inductive Says : FieldVal → Any → Prop
  | text {f : FieldVal} {t : Str} : f.text = some t → Says f (.string (String.ofList t))
  | fits {f : FieldVal} {n : Int} {i : BitVec 64} : f.number = some n → i.toInt = n → Says f (.int i)
  | large {f : FieldVal} {n : Int} {s : Str} : f.number = some n → (n < -2 ^ 63 ∨ 2 ^ 63 ≤ n) → DecText s n → Says f (.string (String.ofList s))
  | bool (b : Bool) : Says (.bool b) (.boolean b)
  | f64 (bits : BitVec 64) : Says (.f64 bits) (.double bits)
  | bytes (bs : List (BitVec 8)) : Says (.bytes bs) (.bytes bs)
  | error (t : Str) : Says (.error t) (.string (String.ofList t))

/-- A text named `message` is the body. -/
def IsBody (f : Str × FieldVal) : Prop := f.1 = "message".toList ∧ f.2.text ≠ none

/-- What `tracing-log` adds to events from the `log` crate, and the metadata attributes repeat. -/
def Repeated (ft : Features) (f : Str × FieldVal) : Prop :=
  ft.metadataAttributes = true ∧ f.1 ∈ ["log.file".toList, "log.line".toList, "log.module_path".toList, "log.target".toList]
    ∧ (f.2.text ≠ none ∨ f.2.number ≠ none)

/-- The key of the attribute: the name of the field, except for an error. -/
def attrKey : Str × FieldVal → Str
  | (_, .error _) => "exception.message".toList
  | (n, _) => n

/-- The text after the last separator, `/` if there is one, else `\`. -/
def FileName (path name : Str) : Prop :=
  if '/' ∈ path then '/' ∉ name ∧ ∃ d, path = d ++ '/' :: name
  else if '\\' ∈ path then '\\' ∉ name ∧ ∃ d, path = d ++ '\\' :: name
  else name = path

/-- The attributes for the source location. -/
inductive Located (m : Meta) : List (Str × Any) → Prop
  | mk (name : Str) (h : ∀ f, m.file = some f → FileName f name) :
    Located m (m.modulePath.toList.map (fun p => ("code.namespace".toList, .string (String.ofList p)))
      ++ m.file.toList.flatMap (fun f => [("code.filepath".toList, .string (String.ofList f)), ("code.filename".toList, .string (String.ofList name))])
      ++ m.line.toList.map (fun l => ("code.lineno".toList, .int (BitVec.ofNat 64 l.toNat))))

/-- The fields become attributes, in order; those that are the body or repeat metadata do not. -/
inductive FieldsAre (ft : Features) : List (Str × FieldVal) → List (Str × Any) → Prop
  | nil : FieldsAre ft [] []
  | left {f : Str × FieldVal} {fs : List (Str × FieldVal)} {kvs : List (Str × Any)} : (IsBody f ∨ Repeated ft f) → FieldsAre ft fs kvs →
      FieldsAre ft (f :: fs) kvs
  | attr {f : Str × FieldVal} {v : Any} {fs : List (Str × FieldVal)} {kvs : List (Str × Any)} : ¬ IsBody f → ¬ Repeated ft f → Says f.2 v →
      FieldsAre ft fs kvs → FieldsAre ft (f :: fs) ((attrKey f, v) :: kvs)

/-- The text of the last field that is the body. -/
def bodyText : List (Str × FieldVal) → Option Str
  | [] => none
  | f :: fs =>
    match bodyText fs with
    | some t => some t
    | none => if f.1 = "message".toList then f.2.text else none

/-- The severity a level stands for, by its number in the logs data model. -/
def levelNumber : Level → Nat
  | .trace => 1
  | .debug => 5
  | .info => 9
  | .warn => 13
  | .error => 17

/-- The record says what the event said. -/
structure Carries (ft : Features) (ev : Event) (r : Record Any Time Severity) : Prop where
  target : r.target = some ev.metadata.target
  name : r.eventName = some ev.metadata.name
  severity : Otlp.severityNumber r.severityNumber = levelNumber ev.metadata.level
  severityText : r.severityText = some ev.metadata.level.text
  body : r.body = (bodyText ev.fields).map fun t => .string (String.ofList t)
  attributes : ∃ loc kvs, r.attributesIter = loc ++ kvs ∧ FieldsAre ft ev.fields kvs
    ∧ (if ft.metadataAttributes then Located (ev.normalized.getD ev.metadata) loc else loc = [])
  times : r.timestamp = none ∧ r.observedTimestamp = none
  /-- the trace of the outermost span and the id of the event's own span, if both are known -/
  trace : ∀ tc, r.traceContext = some tc ↔ ft.spanContext = true ∧ tc.traceFlags = none
    ∧ (∃ d, ev.spans.getLast? = some (some d) ∧ d.traceId = some tc.traceId) ∧ (∃ d, ev.spans.head? = some (some d) ∧ d.spanId = some tc.spanId)

/-! ## Proofs -/

theorem integer_fits {f : FieldVal} {n : Int} (h : f.number = some n) : Says f (integer n) := by
  unfold integer toI64?
  by_cases hr : -2 ^ 63 ≤ n ∧ n < 2 ^ 63
  · rw [if_pos hr]
    refine .fits h ?_
    rw [BitVec.toInt_ofInt, Int.bmod_eq_of_le] <;> omega
  · rw [if_neg hr]
    exact .large h (by omega) (fmtInt_decText n)

theorem isDuplicatedMetadata_iff (n : Str) : isDuplicatedMetadata n = true ↔
    n ∈ ["log.file".toList, "log.line".toList, "log.module_path".toList, "log.target".toList] := by
  unfold isDuplicatedMetadata stripPrefix
  constructor
  · intro h
    split at h
    · rename_i rest hs
      split at hs
      · rename_i hp
        obtain ⟨t, ht⟩ := List.isPrefixOf_iff_prefix.1 hp
        cases hs
        subst ht
        rw [List.drop_left'] at h
        simp only [Bool.or_eq_true, decide_eq_true_eq] at h
        rcases h with ((h | h) | h) | h <;> subst h <;> decide
        rfl
      · cases hs
    · cases h
  · intro h
    simp only [List.mem_cons, List.not_mem_nil, or_false] at h
    rcases h with h | h | h | h <;> subst h <;> decide

theorem afterLast_spec (c : Char) (s : Str) :
    (c ∈ s → ∃ name, afterLast c s = some name ∧ c ∉ name ∧ ∃ d, s = d ++ c :: name) ∧ (c ∉ s → afterLast c s = none) := by
  constructor
  · intro h
    refine ⟨_, by rw [afterLast, if_pos h], ?_, ?_⟩
    · intro hm
      have := List.mem_takeWhile_imp (List.mem_reverse.1 hm)
      simp at this
    · have hr : c ∈ s.reverse := by simpa using h
      have hd : s.reverse.dropWhile (fun x => decide (x ≠ c)) ≠ [] := by
        intro h0
        have h1 := List.takeWhile_append_dropWhile (p := fun x => decide (x ≠ c)) (l := s.reverse)
        rw [h0, List.append_nil] at h1
        rw [← h1] at hr
        have := List.mem_takeWhile_imp hr
        simp at this
      obtain ⟨x, t, hx⟩ := List.exists_cons_of_ne_nil hd
      have hxc : x = c := by
        have := List.head_dropWhile_not (fun x => decide (x ≠ c)) hd
        simp only [hx, List.head_cons] at this
        simpa using this
      refine ⟨t.reverse, ?_⟩
      have h1 := List.takeWhile_append_dropWhile (p := fun x => decide (x ≠ c)) (l := s.reverse)
      rw [hx, hxc] at h1
      have h2 := congrArg List.reverse h1
      simp only [List.reverse_append, List.reverse_reverse, List.reverse_cons, List.append_assoc, List.singleton_append] at h2
      exact h2.symm
  · intro h; rw [afterLast, if_neg h]

theorem getFilename_spec (path : Str) : FileName path (getFilename path) := by
  unfold FileName getFilename
  by_cases h : '/' ∈ path
  · rw [if_pos h]
    obtain ⟨n, h1, h2⟩ := (afterLast_spec '/' path).1 h
    rw [h1]; exact h2
  · rw [if_neg h, (afterLast_spec '/' path).2 h]
    by_cases h' : '\\' ∈ path
    · rw [if_pos h']
      obtain ⟨n, h1, h2⟩ := (afterLast_spec '\\' path).1 h'
      simp only [h1]; exact h2
    · rw [if_neg h', (afterLast_spec '\\' path).2 h']

theorem located (m : Meta) : Located m ((metaOps (Time := Time) m).flatMap RecOp.added) := by
  have := Located.mk (m := m) (getFilename (m.file.getD [])) (by intro f hf; rw [hf]; exact getFilename_spec f)
  obtain ⟨_, _, _, mp, f, l⟩ := m
  cases mp <;> cases f <;> cases l <;> exact this

theorem fieldsAre (ft : Features) (fs : List (Str × FieldVal)) :
    FieldsAre ft fs ((fs.flatMap fun f => fieldOps (Time := Time) ft f.1 f.2).flatMap RecOp.added) := by
  induction fs with
  | nil => exact .nil
  | cons f fs ih =>
    obtain ⟨n, v⟩ := f
    rw [List.flatMap_cons, List.flatMap_append]
    by_cases hrep : Repeated ft (n, v)
    · have : fieldOps (Time := Time) ft n v = [] := by
        obtain ⟨h1, h2, h3⟩ := hrep
        have hd : (ft.metadataAttributes && isDuplicatedMetadata n) = true := by rw [h1, (isDuplicatedMetadata_iff n).2 h2]; rfl
        cases v <;> simp only [FieldVal.text, FieldVal.number, ne_eq, not_true_eq_false, or_self, reduceCtorEq, not_false_eq_true] at h3 <;>
          simp only [fieldOps, hd, if_true]
      rw [this]
      exact .left (.inr hrep) ih
    by_cases hb : IsBody (n, v)
    · have : (fieldOps (Time := Time) ft n v).flatMap RecOp.added = [] := by
        obtain ⟨h1, h2⟩ := hb
        cases v <;> simp only [FieldVal.text, ne_eq, not_true_eq_false, reduceCtorEq, not_false_eq_true] at h2
        all_goals
          have h1 : n = messageName := h1
          simp only [fieldOps, textOps, if_pos h1]
          split <;> rfl
      rw [this]
      exact .left (.inl hb) ih
    · have hd : FieldVal.text v ≠ none ∨ v.number ≠ none → (ft.metadataAttributes && isDuplicatedMetadata n) = false := by
        intro h
        by_contra hc
        simp only [Bool.not_eq_false, Bool.and_eq_true] at hc
        exact hrep ⟨hc.1, (isDuplicatedMetadata_iff n).1 hc.2, h⟩
      have : ∃ x, (fieldOps (Time := Time) ft n v).flatMap RecOp.added = [(attrKey (n, v), x)] ∧ Says v x := by
        cases v with
        | debug t =>
          have hn : n ≠ messageName := fun h => hb ⟨h, by simp [FieldVal.text]⟩
          exact ⟨_, by simp only [fieldOps, hd (.inl (by simp [FieldVal.text])), textOps, if_neg hn, Bool.false_eq_true, if_false]; rfl, .text rfl⟩
        | str t =>
          have hn : n ≠ messageName := fun h => hb ⟨h, by simp [FieldVal.text]⟩
          exact ⟨_, by simp only [fieldOps, hd (.inl (by simp [FieldVal.text])), textOps, if_neg hn, Bool.false_eq_true, if_false]; rfl, .text rfl⟩
        | error t => exact ⟨_, rfl, .error t⟩
        | bytes bs => exact ⟨_, rfl, .bytes bs⟩
        | bool b => exact ⟨_, rfl, .bool b⟩
        | f64 b => exact ⟨_, rfl, .f64 b⟩
        | i64 i => exact ⟨_, by simp only [fieldOps, hd (.inr (by simp [FieldVal.number])), Bool.false_eq_true, if_false]; rfl, .fits rfl rfl⟩
        | u64 i => exact ⟨_, by simp only [fieldOps, hd (.inr (by simp [FieldVal.number])), Bool.false_eq_true, if_false]; rfl, integer_fits rfl⟩
        | i128 i => exact ⟨_, by simp only [fieldOps, hd (.inr (by simp [FieldVal.number])), Bool.false_eq_true, if_false]; rfl, integer_fits rfl⟩
        | u128 i => exact ⟨_, by simp only [fieldOps, hd (.inr (by simp [FieldVal.number])), Bool.false_eq_true, if_false]; rfl, integer_fits rfl⟩
      obtain ⟨x, h1, h2⟩ := this
      rw [h1]
      exact .attr hb hrep h2 ih

theorem bodies (ft : Features) (fs : List (Str × FieldVal)) :
    ((fs.flatMap fun f => fieldOps (Time := Time) ft f.1 f.2).filterMap RecOp.bodySet).getLast?
      = (bodyText fs).map fun t => .string (String.ofList t) := by
  induction fs with
  | nil => rfl
  | cons f fs ih =>
    obtain ⟨n, v⟩ := f
    rw [List.flatMap_cons, List.filterMap_append, List.getLast?_append, ih]
    have hnd : isDuplicatedMetadata messageName = false := by decide
    have h1 : ((fieldOps (Time := Time) ft n v).filterMap RecOp.bodySet).getLast?
        = (if n = messageName then v.text else none).map fun t => LVal.string (String.ofList t) := by
      by_cases hn : n = messageName
      · subst hn
        cases v <;> simp only [fieldOps, hnd, Bool.and_false, Bool.false_eq_true, if_false, textOps, if_true, FieldVal.text] <;> rfl
      · rw [if_neg hn]
        cases v <;> simp only [fieldOps, textOps, if_neg hn] <;> first | rfl | (split <;> rfl)
    rw [h1, bodyText.eq_2]
    cases bodyText fs <;> rfl

theorem spanOps_added (ev : Event) : (spanOps (Time := Time) ev).flatMap RecOp.added = [] := by
  unfold spanOps
  split
  · rfl
  · split <;> rfl

theorem fieldOps_none {α : Type} (g : Op Time → Option α) (hb : ∀ v, g (.body v) = none) (ha : ∀ k v, g (.attr k v) = none) (ft : Features)
    (fs : List (Str × FieldVal)) : (fs.flatMap fun f => fieldOps (Time := Time) ft f.1 f.2).filterMap g = [] := by
  rw [List.filterMap_eq_nil_iff]
  intro o ho
  obtain ⟨⟨n, v⟩, _, ho⟩ := List.mem_flatMap.1 ho
  cases v <;> simp only [fieldOps, textOps] at ho <;> (repeat' split at ho) <;> simp only [List.not_mem_nil, List.mem_singleton] at ho <;>
    subst ho <;> first | exact hb _ | exact ha _ _

theorem metaOps_none {α : Type} (g : Op Time → Option α) (ha : ∀ k v, g (.attr k v) = none) (m : Meta) :
    (metaOps (Time := Time) m).filterMap g = [] := by
  obtain ⟨_, _, _, mp, f, l⟩ := m
  cases mp <;> cases f <;> cases l <;> simp [metaOps, ha]

theorem spanOps_none {α : Type} (g : Op Time → Option α) (ht : ∀ t s f, g (.traceContext t s f) = none) (ev : Event) :
    (spanOps (Time := Time) ev).filterMap g = [] := by
  unfold spanOps
  split
  · rfl
  · split
    · simp [ht]
    · rfl

theorem zip_trace (a : Option TraceId) (b : Option SpanId) (tc : Logs.TraceContext) :
    ((match a, b with
      | some t, some s => [RecOp.traceContext t s none]
      | _, _ => ([] : List (Op Time))).filterMap RecOp.traceSet).getLast? = some tc
    ↔ tc.traceFlags = none ∧ a = some tc.traceId ∧ b = some tc.spanId := by
  obtain ⟨t, s, f⟩ := tc
  cases a <;> cases b <;> simp [RecOp.traceSet]
  constructor
  · rintro ⟨rfl, rfl, rfl⟩; simp
  · rintro ⟨rfl, rfl, rfl⟩; simp

theorem spanOps_trace (ev : Event) (tc : Logs.TraceContext) :
    ((spanOps (Time := Time) ev).filterMap RecOp.traceSet).getLast? = some tc ↔ tc.traceFlags = none
      ∧ (∃ d, ev.spans.getLast? = some (some d) ∧ d.traceId = some tc.traceId) ∧ (∃ d, ev.spans.head? = some (some d) ∧ d.spanId = some tc.spanId) := by
  unfold spanOps
  cases hsp : ev.spans with
  | nil => simp
  | cons own rest =>
    refine (zip_trace _ _ tc).trans ?_
    simp only [Option.bind_eq_some_iff, Option.join_eq_some_iff, List.head?_cons, Option.some.injEq]

/-- The calls made for the metadata, the fields and the spans set no field of the record that `g` looks at. -/
theorem eventOps_head {α : Type} (g : Op Time → Option α) (hb : ∀ v, g (.body v) = none) (ha : ∀ k v, g (.attr k v) = none)
    (ht : ∀ t s f, g (.traceContext t s f) = none) (ft : Features) (ev : Event) :
    Logs.lastSet g (eventOps ft ev) = (([.target ev.metadata.target, .eventName ev.metadata.name,
      .severityNumber (severityOfLevel ev.metadata.level), .severityText ev.metadata.level.text] : List (Op Time)).filterMap g).getLast? := by
  unfold Logs.lastSet eventOps
  simp only [List.filterMap_append, fieldOps_none g hb ha, List.append_nil]
  have h1 : (if ft.metadataAttributes then metaOps (Time := Time) (ev.normalized.getD ev.metadata) else []).filterMap g = [] := by
    split
    · exact metaOps_none g ha _
    · rfl
  have h2 : (if ft.spanContext then spanOps (Time := Time) ev else []).filterMap g = [] := by
    split
    · exact spanOps_none g ht _
    · rfl
  rw [h1, h2, List.append_nil, List.append_nil]

theorem severity_level (l : Level) : Otlp.severityNumber (some (severityOfLevel l)) = levelNumber l := by cases l <;> rfl

theorem carries (ft : Features) (ev : Event) (r : Record Any Time Severity) (h : (eventOps ft ev).foldlM RecOp.run? Record.new = some r) :
    Carries ft ev r := by
  obtain ⟨h1, h2, h3, h4, h5, h6, h7, h8⟩ := Logs.record_fields _ _ h
  obtain ⟨r', hr', hattr, _, _⟩ := Logs.record_keeps_attributes (eventOps (Time := Time) ft ev)
  rw [h] at hr'; cases hr'
  have head := fun {α : Type} (g : Op Time → Option α) hb ha ht => eventOps_head g hb ha ht ft ev
  refine ⟨?_, ?_, ?_, ?_, ?_, ?_, ⟨?_, ?_⟩, ?_⟩
  · rw [h2, head _ (fun _ => rfl) (fun _ _ => rfl) (fun _ _ _ => rfl)]; rfl
  · rw [h1, head _ (fun _ => rfl) (fun _ _ => rfl) (fun _ _ _ => rfl)]; rfl
  · rw [h6, head _ (fun _ => rfl) (fun _ _ => rfl) (fun _ _ _ => rfl)]; exact severity_level _
  · rw [h5, head _ (fun _ => rfl) (fun _ _ => rfl) (fun _ _ _ => rfl)]; rfl
  · rw [h7]
    unfold Logs.lastSet eventOps
    have e1 : (if ft.metadataAttributes then metaOps (Time := Time) (ev.normalized.getD ev.metadata) else []).filterMap RecOp.bodySet = [] := by
      split
      · exact metaOps_none _ (fun _ _ => rfl) _
      · rfl
    have e2 : (if ft.spanContext then spanOps (Time := Time) ev else []).filterMap RecOp.bodySet = [] := by
      split
      · exact spanOps_none _ (fun _ _ _ => rfl) _
      · rfl
    simp only [List.filterMap_append, e1, e2, List.append_nil]
    exact bodies ft ev.fields
  · refine ⟨(if ft.metadataAttributes then metaOps (Time := Time) (ev.normalized.getD ev.metadata) else []).flatMap RecOp.added, _, ?_,
      fieldsAre (Time := Time) ft ev.fields, ?_⟩
    · rw [hattr]
      have e2 : (if ft.spanContext then spanOps (Time := Time) ev else []).flatMap RecOp.added = [] := by
        split
        · exact spanOps_added _
        · rfl
      unfold eventOps
      simp only [List.flatMap_append, e2, List.append_nil]
      rfl
    · split
      · exact located _
      · rfl
  · rw [h3, head _ (fun _ => rfl) (fun _ _ => rfl) (fun _ _ _ => rfl)]; rfl
  · rw [h4, head _ (fun _ => rfl) (fun _ _ => rfl) (fun _ _ _ => rfl)]; rfl
  · intro tc
    rw [h8]
    have e : Logs.lastSet RecOp.traceSet (eventOps (Time := Time) ft ev)
        = ((if ft.spanContext then spanOps (Time := Time) ev else []).filterMap RecOp.traceSet).getLast? := by
      unfold Logs.lastSet eventOps
      have e1 : (if ft.metadataAttributes then metaOps (Time := Time) (ev.normalized.getD ev.metadata) else []).filterMap RecOp.traceSet = [] := by
        split
        · exact metaOps_none _ (fun _ _ => rfl) _
        · rfl
      simp only [List.filterMap_append, e1, fieldOps_none RecOp.traceSet (fun _ => rfl) (fun _ _ => rfl), List.append_nil]
      rfl
    rw [e]
    cases hf : ft.spanContext with
    | false => simp
    | true =>
      simp only [if_true, true_and]
      exact spanOps_trace ev tc

/-! ## Results -/

/-- **C80** An event that the processors want, in a context that is not suppressed, is handed to every processor exactly once, in order, as a
record that says what the event said; the logger adds the trace context and the observed time as for any record. -/
theorem event_carried (ft : Features) (scope : I) (filters : List Filter) (ps : List (Processor Any Time Severity I W)) (cx : Cx B U) (now : Time)
    (ev : Event) (w : W) (hs : cx.suppress = false)
    (hen : ft.logsEnabled = true → ∃ f ∈ filters, f (severityOfLevel ev.metadata.level) ev.metadata.target (some ev.metadata.name) = true) :
    ∃ r r0 w' cs, onEvent ft scope filters (watchAll 0 ps) cx now ev (w, []) = some (w', cs) ∧ Carries ft ev r ∧ Prepared cx r r0
      ∧ cs.map Logs.Call.who = List.range ps.length ∧ (∀ c ∈ cs, c.scope = scope) ∧ Handed r0 cs := by
  obtain ⟨r, hr, _⟩ := Logs.record_keeps_attributes (eventOps (Time := Time) ft ev)
  obtain ⟨r0, hp, cs, h1, h2, h3, h4⟩ := Logs.emit_reaches_each_once scope ps cx now r w hs
  refine ⟨r, r0, (Logs.emit scope (watchAll 0 ps) cx now r (w, [])).1, cs, ?_, carries ft ev r hr, hp, h2, h3, h4⟩
  have : (ft.logsEnabled && !Logs.eventEnabled (filters.map fun f => f (severityOfLevel ev.metadata.level) ev.metadata.target
      (some ev.metadata.name)) cx) = false := by
    cases hl : ft.logsEnabled with
    | false => rfl
    | true =>
      obtain ⟨f, hf, hft⟩ := hen hl
      rw [(Logs.event_enabled_iff _ cx).2 ⟨hs, true, List.mem_map.2 ⟨f, hf, hft⟩, rfl⟩]; rfl
  rw [onEvent, this, hr, ← h1]
  rfl

/-- **C80** An event that no processor wants, or one in a suppressed context, reaches no processor. -/
theorem event_unwanted (ft : Features) (scope : I) (filters : List Filter) (ps : List (Processor Any Time Severity I W)) (cx : Cx B U) (now : Time)
    (ev : Event) (w : W) (h : cx.suppress = true ∨ ft.logsEnabled = true
      ∧ ∀ f ∈ filters, f (severityOfLevel ev.metadata.level) ev.metadata.target (some ev.metadata.name) = false) :
    onEvent ft scope filters ps cx now ev w = some w := by
  obtain ⟨r, hr, _⟩ := Logs.record_keeps_attributes (eventOps (Time := Time) ft ev)
  unfold onEvent
  split
  · rfl
  · rename_i hc
    rcases h with h | ⟨h1, h2⟩
    · rw [hr]; simp [Logs.emit, h]
    · exfalso; apply hc
      rw [h1, Bool.true_and, Bool.not_eq_true']
      cases he : Logs.eventEnabled (filters.map fun f => f (severityOfLevel ev.metadata.level) ev.metadata.target
        (some ev.metadata.name)) cx with
      | false => rfl
      | true =>
        obtain ⟨_, a, ha, rfl⟩ := (Logs.event_enabled_iff _ cx).1 he
        obtain ⟨f, hf, hft⟩ := List.mem_map.1 ha
        rw [h2 f hf] at hft; cases hft

/-- An event with one field. -/
def oneField (n : Str) (v : FieldVal) : Event := ⟨⟨.info, "app".toList, "event".toList, none, none, none⟩, none, [(n, v)], []⟩

/-- **C80, false as it stands** The message of an event is its body only if it is text: a number named `message` is an attribute, and the record
has no body. -/
theorem message_number_violated (ft : Features) : ∃ r : Record Any Time Severity,
    (eventOps ft (oneField messageName (.i64 7))).foldlM RecOp.run? Record.new = some r ∧ r.body = none := by
  obtain ⟨r, hr, _⟩ := Logs.record_keeps_attributes (eventOps (Time := Time) ft (oneField messageName (.i64 7)))
  exact ⟨r, hr, by rw [(carries ft _ r hr).body]; rfl⟩

/-- **C80, false as it stands** The name of a field that holds an error is lost: two events that differ in it cannot be told apart. -/
theorem error_name_lost_violated (ft : Features) (scope : I) (filters : List Filter) (ps : List (Processor Any Time Severity I W)) (cx : Cx B U)
    (now : Time) (w : W) (n n' text : Str) :
    onEvent ft scope filters ps cx now (oneField n (.error text)) w = onEvent ft scope filters ps cx now (oneField n' (.error text)) w := rfl

/-- The field in which `tracing-log` keeps the target. -/
def logTargetName : Str := "log.target".toList

/-- The event `tracing-log` makes of a record of the `log` crate: its target is always `log`, the real one is in a field. -/
def logEvent (target : Str) : Event where
  metadata := ⟨.info, "log".toList, "log event".toList, none, none, none⟩
  normalized := some ⟨.info, target, "log record".toList, none, none, none⟩
  fields := [(messageName, .debug "hello".toList), (logTargetName, .str target)]
  spans := []

/-- **C80, false as it stands** With the metadata attributes enabled, the target of a record of the `log` crate is lost: it is dropped as a
repeated field, and the record has the target `log`. -/
theorem log_target_lost_violated (scope : I) (filters : List Filter) (ps : List (Processor Any Time Severity I W)) (cx : Cx B U)
    (now : Time) (w : W) (t t' : Str) :
    onEvent ⟨true, e, c⟩ scope filters ps cx now (logEvent t) w = onEvent ⟨true, e, c⟩ scope filters ps cx now (logEvent t') w := by
  have : eventOps (Time := Time) ⟨true, e, c⟩ (logEvent t) = eventOps ⟨true, e, c⟩ (logEvent t') := by
    have hd : isDuplicatedMetadata logTargetName = true := by decide
    have hf : ∀ t, ((logEvent t).fields.flatMap fun f => fieldOps (Time := Time) ⟨true, e, c⟩ f.1 f.2)
        = fieldOps ⟨true, e, c⟩ messageName (.debug "hello".toList) := by
      intro t
      have h0 : fieldOps (Time := Time) ⟨true, e, c⟩ logTargetName (.str t) = [] := by
        unfold fieldOps; rw [hd]; rfl
      show _ ++ (fieldOps _ logTargetName (.str t) ++ []) = _
      rw [h0, List.append_nil, List.append_nil]
    unfold eventOps
    rw [hf t, hf t']
    rfl
  unfold onEvent
  rw [this]
  rfl

/-- An event with a message, numbers that fit and do not fit, and a source location. -/
example : ((eventOps (Time := Nat) ⟨true, true, true⟩ ⟨⟨.warn, "app".toList, "e".toList, none, some "src/a/b.rs".toList, some 7⟩, none,
      [("n".toList, .u64 5), (messageName, .str "hi".toList), ("m".toList, .u64 (BitVec.ofNat 64 (2 ^ 64 - 1)))], []⟩).foldlM
        RecOp.run? Record.new).map (fun r => (Otlp.severityNumber r.severityNumber, r.attributesIter.map Prod.fst))
    = some (13, ["code.filepath".toList, "code.filename".toList, "code.lineno".toList, "n".toList, "m".toList]) := by decide +kernel

end Otel.Appender
