import Verif.Otlp.ProtoLimits
import Verif.Otlp.JsonSdk
/-!
# C96: what the exporters send as protobuf, from the SDK's spans and log records to the receiver

As in `Verif.Otlp.JsonSdk`, `wire…` maps the messages of the conversion (`Verif.Otlp.Model`) to the messages with all their fields. `unwire…` goes back.
-/

namespace Otel.Otlp.Proto
open Rust
open Otel.Otlp.Json

/-! ## Back to the messages of the conversion -/

mutual
/-- A value; one without a variant is none of the conversion's. -/
def unwireVal : AVal → Option (PVal Str)
  | .unset => none
  | .str s => some (.string (String.ofList s))
  | .bool b => some (.bool b)
  | .int i => some (.int i)
  | .double f => some (.double f)
  | .array vs => (unwireVals vs).map .array
  | .kvlist kvs => (unwireKvs kvs).map .kvlist
  | .bytes bs => some (.bytes bs)
def unwireVals : List AVal → Option (List (PVal Str))
  | [] => some []
  | v :: vs => (unwireVal v).bind fun x => (unwireVals vs).map (x :: ·)
def unwireKvs : List (Str × Option AVal) → Option (List (Str × PVal Str))
  | [] => some []
  | (_, none) :: _ => none
  | (k, some v) :: kvs => (unwireVal v).bind fun x => (unwireKvs kvs).map ((k, x) :: ·)
end

mutual
theorem unwire_val : ∀ v : PVal Str, unwireVal (wireVal v) = some v
  | .string s => by rw [wireVal, unwireVal, String.ofList_toList]
  | .bool _ => rfl
  | .int _ => rfl
  | .double _ => rfl
  | .array vs => by rw [wireVal, unwireVal, unwire_vals vs]; rfl
  | .kvlist kvs => by rw [wireVal, unwireVal, unwire_kvs kvs]; rfl
  | .bytes _ => rfl
theorem unwire_vals : ∀ vs : List (PVal Str), unwireVals (wireVals vs) = some vs
  | [] => rfl
  | v :: vs => by rw [wireVals, unwireVals, unwire_val v, unwire_vals vs]; rfl
theorem unwire_kvs : ∀ kvs : List (Str × PVal Str), unwireKvs (wireKvs kvs) = some kvs
  | [] => rfl
  | (k, v) :: kvs => by rw [wireKvs, unwireKvs, unwire_val v, unwire_kvs kvs]; rfl
end

def unwireEvent (e : Event) : Option (PEvent Str) := (unwireKvs e.attributes).map fun a => ⟨e.timeUnixNano, e.name, a, e.droppedAttributesCount⟩

def unwireLink (l : Link) : Option (PLink Str) :=
  (unwireKvs l.attributes).map fun a => ⟨l.traceId, l.spanId, l.traceState, a, l.droppedAttributesCount, l.flags⟩

def unwireSpan (s : Span) : Option (PSpan Str) := do
  let attributes ← unwireKvs s.attributes
  let events ← s.events.mapM unwireEvent
  let links ← s.links.mapM unwireLink
  let status ← s.status
  some { traceId := s.traceId, spanId := s.spanId, traceState := s.traceState, parentSpanId := s.parentSpanId, flags := s.flags, name := s.name,
         kind := s.kind.toNat, startTimeUnixNano := s.startTimeUnixNano, endTimeUnixNano := s.endTimeUnixNano, attributes,
         droppedAttributesCount := s.droppedAttributesCount, events, droppedEventsCount := s.droppedEventsCount, links,
         droppedLinksCount := s.droppedLinksCount, statusCode := status.code.toNat, statusMessage := status.message }

def unwireLog (p : LogRecord) : Option (PLog Str) := do
  let attributes ← unwireKvs p.attributes
  let body ← match p.body with
    | none => some none
    | some v => (unwireVal v).map some
  some { timeUnixNano := p.timeUnixNano, observedTimeUnixNano := p.observedTimeUnixNano, attributes, eventName := p.eventName,
         severityNumber := p.severityNumber.toNat, severityText := p.severityText, body, droppedAttributesCount := p.droppedAttributesCount,
         flags := p.flags, spanId := p.spanId, traceId := p.traceId }

def unwireGroup {I α : Type} (f : α → Option I) (g : ScopeItems α) : Option (PGroup Str I) := do
  let scope ← g.scope
  let attributes ← unwireKvs scope.attributes
  let items ← g.items.mapM f
  some ⟨⟨String.ofList scope.name, String.ofList scope.version, attributes⟩, String.ofList g.schemaUrl, items⟩

/-- The exporters send one resource. -/
def unwireRequest {I α : Type} (f : α → Option I) : List (ResourceItems α) → Option (PRequest Str I)
  | [r] => do
    let res ← r.resource
    let resource ← unwireKvs res.attributes
    let groups ← r.scopes.mapM (unwireGroup f)
    some ⟨resource, groups, String.ofList r.schemaUrl⟩
  | _ => none

theorem mapM_map_some {α β : Type} {f : β → Option α} {g : α → β} {l : List α} (h : ∀ a ∈ l, f (g a) = some a) : (l.map g).mapM f = some l := by
  induction l with
  | nil => rfl
  | cons a l ih => exact mapM_cons_some (h a List.mem_cons_self) (ih fun x hx => h x (List.mem_cons_of_mem _ hx))

theorem unwire_event (e : PEvent Str) : unwireEvent (wireEvent e) = some e := by rw [unwireEvent, wireEvent, unwire_kvs]; rfl
theorem unwire_link (l : PLink Str) : unwireLink (wireLink l) = some l := by rw [unwireLink, wireLink, unwire_kvs]; rfl

theorem unwire_span {p : PSpan Str} (hk : p.kind < 2 ^ 32) (hc : p.statusCode < 2 ^ 32) : unwireSpan (wireSpan p) = some p := by
  simp only [unwireSpan, wireSpan, unwire_kvs, mapM_map_some fun e _ => unwire_event e, mapM_map_some fun e _ => unwire_link e, BitVec.toNat_ofNat,
    Nat.mod_eq_of_lt hk, Nat.mod_eq_of_lt hc, Option.bind_eq_bind, Option.bind_some]

theorem unwire_log {p : PLog Str} (hk : p.severityNumber < 2 ^ 32) : unwireLog (wireLog p) = some p := by
  simp only [unwireLog, wireLog, unwire_kvs, BitVec.toNat_ofNat, Nat.mod_eq_of_lt hk]
  obtain ⟨_, _, _, _, _, _, body, _, _, _, _⟩ := p
  cases body with
  | none => rfl
  | some v => simp only [Option.map_some, unwire_val]; rfl

theorem unwire_request {I α : Type} {f : α → Option I} {g : I → α} {r : PRequest Str I} (h : ∀ x ∈ r.groups, ∀ i ∈ x.items, f (g i) = some i) :
    unwireRequest f (wireRequest g r) = some r := by
  have hg : ((r.groups.map fun x => (⟨some ⟨x.scope.name.toList, x.scope.version.toList, wireKvs x.scope.attributes, 0⟩, x.items.map g, x.schemaUrl.toList⟩ :
      ScopeItems α)).mapM (unwireGroup f)) = some r.groups := mapM_map_some fun x hx => by
    simp only [unwireGroup, unwire_kvs, mapM_map_some (h x hx), String.ofList_toList, Option.bind_eq_bind, Option.bind_some]
  simp only [unwireRequest, wireRequest, unwire_kvs, hg, String.ofList_toList, Option.bind_eq_bind, Option.bind_some]

/-! ## Depth of the SDK's values -/

theorem levelsArr_scalars {α : Type} (l : List α) (mk : α → AVal) (h : ∀ a, levels (mk a) = 0) : levelsArr (l.map mk) ≤ 1 := by
  induction l with
  | nil => exact Nat.zero_le _
  | cons a l ih => rw [List.map_cons, levelsArr, h]; exact Nat.max_le.2 ⟨by omega, ih⟩

theorem levels_ofVal (v : Common.Val) : levels (wireVal (ofVal v)) ≤ 2 := by
  have arr : ∀ {α : Type} (l : List α) (mk : α → PVal Str), (∀ a, levels (wireVal (mk a)) = 0) → levels (wireVal (.array (l.map mk))) ≤ 2 := by
    intro α l mk h
    rw [wireVal, wireVals_map, List.map_map, levels]
    have := levelsArr_scalars l (wireVal ∘ mk) h
    omega
  rcases v with b | i | f | s | l | l | l | l
  · exact Nat.zero_le _
  · exact Nat.zero_le _
  · exact Nat.zero_le _
  · exact Nat.zero_le _
  all_goals exact arr l _ fun _ => rfl

theorem shallow_attributes {n : Nat} (h : 2 ≤ n) (kvs : List (Str × Common.Val)) : Shallow n (wireKvs (attributes kvs)) := by
  intro kv hkv v hv
  rw [wireKvs_map, attributes, List.map_map] at hkv
  obtain ⟨x, _, rfl⟩ := List.mem_map.1 hkv
  cases hv
  exact Nat.le_trans (levels_ofVal x.2) h

theorem shallow_spanOf (x : SdkSpan Str) : ShallowSpan (wireSpan (spanOf x)) := by
  refine ⟨shallow_attributes (by omega) _, fun e he => ?_, fun e he => ?_⟩
  · simp only [wireSpan, spanOf, List.mem_map] at he
    obtain ⟨_, ⟨e', _, rfl⟩, rfl⟩ := he
    exact shallow_attributes (by omega) _
  · simp only [wireSpan, spanOf, List.mem_map] at he
    obtain ⟨_, ⟨e', _, rfl⟩, rfl⟩ := he
    exact shallow_attributes (by omega) _

/-- How deep lists and maps are in each other in the body or an attribute of a log record. -/
def depth {K : Type} : LVal K → Nat
  | .list vs => 1 + depths vs
  | .map kvs => 1 + depthMap kvs
  | _ => 0
where
  depths : List (LVal K) → Nat
    | [] => 0
    | v :: vs => max (depth v) (depths vs)
  depthMap : List (K × LVal K) → Nat
    | [] => 0
    | (_, v) :: kvs => max (depth v) (depthMap kvs)

mutual
theorem levels_ofLVal : ∀ v : LVal Str, levels (wireVal (ofLVal v)) ≤ 3 * depth v
  | .int _ => Nat.zero_le _
  | .double _ => Nat.zero_le _
  | .string _ => Nat.zero_le _
  | .boolean _ => Nat.zero_le _
  | .bytes _ => Nat.zero_le _
  | .list vs => by
    rw [ofLVal, wireVal, levels, depth]
    have := levels_ofLVals vs
    omega
  | .map kvs => by
    rw [ofLVal, wireVal, levels, depth]
    have := levels_ofLMap kvs
    omega
theorem levels_ofLVals : ∀ vs : List (LVal Str), levelsArr (wireVals (ofLVals vs)) ≤ 1 + 3 * depth.depths vs
  | [] => Nat.zero_le _
  | v :: vs => by
    rw [ofLVals, wireVals, levelsArr, depth.depths]
    have h1 := levels_ofLVal v
    have h2 := levels_ofLVals vs
    omega
theorem levels_ofLMap : ∀ kvs : List (Str × LVal Str), levelsKvs (wireKvs (ofLMap kvs)) ≤ 2 + 3 * depth.depthMap kvs
  | [] => Nat.zero_le _
  | (k, v) :: kvs => by
    rw [ofLMap, wireKvs, levelsKvs, depth.depthMap]
    have h1 := levels_ofLVal v
    have h2 := levels_ofLMap kvs
    omega
end

/-- The body and the attributes of a record are at most 31 lists and maps deep. -/
def ShallowRecord (r : SdkLog Str) : Prop := (∀ b, r.body = some b → depth b ≤ 31) ∧ ∀ kv ∈ r.attributesIter, depth kv.2 ≤ 31

theorem shallow_logOf {r : SdkLog Str} {p : PLog Str} (hr : ShallowRecord r) (h : logOf r = some p) : ShallowLog (wireLog p) := by
  rw [logOf, Option.map_eq_some_iff] at h
  obtain ⟨o, _, rfl⟩ := h
  refine ⟨fun v hv => ?_, fun kv hkv v hv => ?_⟩
  · simp only [wireLog] at hv
    cases hb : r.body with
    | none => rw [hb] at hv; cases hv
    | some b =>
      rw [hb] at hv
      cases hv
      have := levels_ofLVal b
      have := hr.1 b hb
      omega
  · simp only [wireLog, wireKvs_map, List.map_map, List.mem_map] at hkv
    obtain ⟨x, hx, rfl⟩ := hkv
    cases hv
    have h1 := levels_ofLVal x.2
    have h2 := hr.2 x hx
    show levels (wireVal (ofLVal x.2)) ≤ 95
    omega

/-! ## Requests of the SDK -/

theorem shallow_spans (hit : Common.Scope Str → Common.Scope Str → Bool) (ord : Order (Common.Scope Str × List (SdkSpan Str)))
    (resource : List (Str × Common.Val)) (url : Option String) (batch : List (SdkSpan Str)) :
    ShallowRequest ShallowSpan (wireRequest wireSpan (groupSpans hit ord ⟨attributes resource, url⟩ batch)) := by
  intro r hr
  simp only [wireRequest, List.mem_singleton] at hr
  subst hr
  refine ⟨fun x hx => ?_, fun s hs => ?_⟩
  · cases hx
    exact shallow_attributes (by omega) _
  · simp only [groupSpans, List.mem_map] at hs
    obtain ⟨_, ⟨g, _, rfl⟩, rfl⟩ := hs
    refine ⟨fun x hx => ?_, fun i hi => ?_⟩
    · cases hx
      exact shallow_attributes (by omega) _
    · simp only [List.mem_map] at hi
      obtain ⟨_, ⟨y, _, rfl⟩, rfl⟩ := hi
      exact shallow_spanOf y

/-- The items of a request. -/
theorem allItems_wire {I α : Type} (f : I → α) (r : PRequest Str I) : allItems (wireRequest f r) = (r.groups.flatMap (·.items)).map f := by
  simp only [allItems, wireRequest, List.flatMap_cons, List.flatMap_nil, List.append_nil, List.flatMap_map, List.map_flatMap]

/-- C96, for spans of the SDK, without exception: every batch of finished spans, with every resource, is sent as bytes that a reader of protobuf reads as a
request with exactly these spans, each once. -/
theorem sdk_spans_decode (hit : Common.Scope Str → Common.Scope Str → Bool) (ord : Order (Common.Scope Str × List (SdkSpan Str)))
    (resource : List (Str × Common.Val)) (url : Option String) (batch : List (SdkSpan Str))
    (hs : (encTraces (wireRequest wireSpan (groupSpans hit ord ⟨attributes resource, url⟩ batch))).length < 2 ^ 64) :
    ∃ rs, decTraces (encTraces (wireRequest wireSpan (groupSpans hit ord ⟨attributes resource, url⟩ batch))) = some rs ∧
      (allItems rs).Perm (batch.map fun x => wireSpan (spanOf x)) := by
  refine ⟨_, traces_decode_partial _ (shallow_spans hit ord resource url batch) hs, ?_⟩
  have h := (spans_once hit ord ⟨attributes resource, url⟩ batch).map wireSpan
  rw [allItems_wire]
  refine h.trans (List.Perm.of_eq ?_)
  rw [List.map_map]; rfl

theorem logs_group {ord : Order (String × List (SdkLog Str × Common.Scope Str))} {res : Otlp.Res Str} {batch : List (SdkLog Str × Common.Scope Str)}
    {req : PRequest Str (PLog Str)} (h : groupLogs ord res batch = some req) :
    req.resource = res.attributes ∧ ∀ g ∈ req.groups, g.scope.attributes = [] ∧ ∀ p ∈ g.items, ∃ x ∈ batch, logOf x.1 = some p := by
  simp only [groupLogs, Option.map_eq_some_iff] at h
  obtain ⟨gs, hgs, rfl⟩ := h
  refine ⟨rfl, fun g hg => ?_⟩
  have hm : some g ∈ gs.map some := List.mem_map_of_mem hg
  rw [Otlp.mapM_some hgs] at hm
  obtain ⟨g0, hg0, he⟩ := List.mem_map.1 hm
  obtain ⟨h1, _⟩ := groupBy_group (hit := fun a b => decide (a = b)) (key := logKey) batch g0 ((ord.perm _).mem_iff.1 hg0)
  simp only [logGroup, Option.bind_eq_bind, Option.bind_eq_some_iff] at he
  obtain ⟨f, _, ps, hps, he⟩ := he
  cases he
  refine ⟨rfl, fun p hp => ?_⟩
  have hm : some p ∈ ps.map some := List.mem_map_of_mem hp
  rw [Otlp.mapM_some hps] at hm
  obtain ⟨x, hx, he⟩ := List.mem_map.1 hm
  exact ⟨x, h1.subset hx, he⟩

theorem shallow_logs {ord : Order (String × List (SdkLog Str × Common.Scope Str))} {resource : List (Str × Common.Val)} {url : Option String}
    {batch : List (SdkLog Str × Common.Scope Str)} {req : PRequest Str (PLog Str)} (h : groupLogs ord ⟨attributes resource, url⟩ batch = some req)
    (hb : ∀ x ∈ batch, ShallowRecord x.1) : ShallowRequest ShallowLog (wireRequest wireLog req) := by
  obtain ⟨h1, h2⟩ := logs_group h
  intro r hr
  simp only [wireRequest, List.mem_singleton] at hr
  subst hr
  refine ⟨fun x hx => ?_, fun s hs => ?_⟩
  · cases hx
    rw [h1]
    exact shallow_attributes (by omega) _
  · simp only [List.mem_map] at hs
    obtain ⟨g, hg, rfl⟩ := hs
    obtain ⟨h3, h4⟩ := h2 g hg
    refine ⟨fun x hx => ?_, fun i hi => ?_⟩
    · cases hx
      rw [h3]
      exact fun kv hkv => (List.not_mem_nil hkv).elim
    · simp only [List.mem_map] at hi
      obtain ⟨p, hp, rfl⟩ := hi
      obtain ⟨x, hx, hl⟩ := h4 p hp
      exact shallow_logOf (hb x hx) hl

/-- C96, for log records of the SDK whose bodies and attributes are at most 31 lists and maps deep. Missing: deeper ones, `deep_value_violated`. -/
theorem sdk_logs_decode_partial (ord : Order (String × List (SdkLog Str × Common.Scope Str))) (resource : List (Str × Common.Val)) (url : Option String)
    (batch : List (SdkLog Str × Common.Scope Str)) (ho : ∀ x ∈ batch, x.1.observedTimestamp.isSome) (hb : ∀ x ∈ batch, ShallowRecord x.1) :
    ∃ req, groupLogs ord ⟨attributes resource, url⟩ batch = some req ∧ ((encLogs (wireRequest wireLog req)).length < 2 ^ 64 →
      ∃ rs, decLogs (encLogs (wireRequest wireLog req)) = some rs ∧ ((allItems rs).map some).Perm (batch.map fun x => (logOf x.1).map wireLog)) := by
  obtain ⟨req, hreq, hperm, _⟩ := logs_once ord ⟨attributes resource, url⟩ batch ho
  refine ⟨req, hreq, fun hs => ⟨_, logs_decode_partial _ (shallow_logs hreq hb) hs, ?_⟩⟩
  rw [allItems_wire]
  have h := hperm.map (Option.map wireLog)
  rw [List.map_map] at h
  rw [List.map_map] at h ⊢
  exact h

/-! ## The wire format of the exporters -/

/-- `encode_to_vec` of the request of a batch of spans: there are no longer vectors. opentelemetry-otlp/src/exporter/http/mod.rs:303 -/
def spanBytes (m : PRequest Str (PSpan Str)) : Option (List Byte) :=
  if (encTraces (wireRequest wireSpan m)).length < 2 ^ 64 then some (encTraces (wireRequest wireSpan m)) else none

/-- What a collector reads. -/
def readSpans (bs : List Byte) : Option (PRequest Str (PSpan Str)) := (decTraces bs).bind (unwireRequest unwireSpan)

/-- As above for log records; a batch whose conversion panics has no bytes. opentelemetry-otlp/src/exporter/http/mod.rs:322 -/
def logBytes (m : Option (PRequest Str (PLog Str))) : Option (List Byte) :=
  m.bind fun m => if (encLogs (wireRequest wireLog m)).length < 2 ^ 64 then some (encLogs (wireRequest wireLog m)) else none

def readLogs (bs : List Byte) : Option (PRequest Str (PLog Str)) := (decLogs bs).bind (unwireRequest unwireLog)

theorem kind_small (k : Sdk.SpanKind) : kindNumber k < 2 ^ 32 := by cases k <;> decide
theorem status_small (s : Sdk.Status) : statusNumber s < 2 ^ 32 := by cases s <;> simp [statusNumber]
theorem severity_small (s : Option Severity) : severityNumber s < 2 ^ 32 := by
  cases s with
  | none => decide
  | some s => cases s <;> decide

/-- The bytes of a batch of spans are read as the request. -/
theorem spanBytes_read {hit : Common.Scope Str → Common.Scope Str → Bool} {ord : Order (Common.Scope Str × List (SdkSpan Str))}
    {resource : List (Str × Common.Val)} {url : Option String} {batch : List (SdkSpan Str)} {bs : List Byte}
    (h : spanBytes (groupSpans hit ord ⟨attributes resource, url⟩ batch) = some bs) :
    readSpans bs = some (groupSpans hit ord ⟨attributes resource, url⟩ batch) := by
  rw [spanBytes] at h
  split at h
  · next hs =>
    cases h
    rw [readSpans, traces_decode_partial _ (shallow_spans hit ord resource url batch) hs, Option.bind_some]
    refine unwire_request fun g hg i hi => ?_
    simp only [groupSpans, List.mem_map] at hg
    obtain ⟨g0, _, rfl⟩ := hg
    simp only [List.mem_map] at hi
    obtain ⟨x, _, rfl⟩ := hi
    exact unwire_span (kind_small _) (status_small _)
  · cases h

theorem logBytes_read {ord : Order (String × List (SdkLog Str × Common.Scope Str))} {resource : List (Str × Common.Val)} {url : Option String}
    {batch : List (SdkLog Str × Common.Scope Str)} {m : PRequest Str (PLog Str)} {bs : List Byte} (hb : ∀ x ∈ batch, ShallowRecord x.1)
    (hm : groupLogs ord ⟨attributes resource, url⟩ batch = some m) (h : logBytes (some m) = some bs) : readLogs bs = some m := by
  rw [logBytes, Option.bind_some] at h
  split at h
  · next hs =>
    cases h
    rw [readLogs, logs_decode_partial _ (shallow_logs hm hb) hs, Option.bind_some]
    refine unwire_request fun g hg i hi => ?_
    obtain ⟨x, _, hx⟩ := ((logs_group hm).2 g hg).2 i hi
    rw [logOf, Option.map_eq_some_iff] at hx
    obtain ⟨o, _, rfl⟩ := hx
    exact unwire_log (severity_small _)
  · cases h

/-- The hypotheses are met: a map in a list in the body. -/
example : ShallowRecord ({ (Logs.Record.new : SdkLog Str) with observedTimestamp := some 5, body := some (.list [.map [("k".toList, .int 1)], .string "x"]) }) := by
  refine ⟨fun b hb => ?_, fun kv hkv => (List.not_mem_nil hkv).elim⟩
  cases hb
  decide

end Otel.Otlp.Proto
