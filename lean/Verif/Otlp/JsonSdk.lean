import Verif.Otlp.JsonProps
import Verif.Otlp.GroupProps
/-!
# C83: what the exporter of spans sends as JSON, from the SDK's spans to the receiver

`Verif.Otlp.Model` converts the SDK's spans to messages; `Verif.Otlp.Json` writes messages. The messages are the same Rust structures in two models: the
first has generic keys and no field the conversion leaves at its default, the second has all the fields. `wire…` maps the first to the second.
-/

namespace Otel.Otlp.Json
open Rust
open Common (Val Arr)

mutual
/-- `AnyValue` -/
def wireVal : PVal Str → AVal
  | .string s => .str s.toList
  | .bool b => .bool b
  | .int i => .int i
  | .double f => .double f
  | .array vs => .array (wireVals vs)
  | .kvlist kvs => .kvlist (wireKvs kvs)
  | .bytes bs => .bytes bs
def wireVals : List (PVal Str) → List AVal
  | [] => []
  | v :: vs => wireVal v :: wireVals vs
def wireKvs : List (Str × PVal Str) → List (Str × Option AVal)
  | [] => []
  | (k, v) :: kvs => (k, some (wireVal v)) :: wireKvs kvs
end

/-- `span::Event` -/
def wireEvent (e : PEvent Str) : Event := ⟨e.timeUnixNano, e.name, wireKvs e.attributes, e.droppedAttributesCount⟩

/-- `span::Link` -/
def wireLink (l : PLink Str) : Link := ⟨l.traceId, l.spanId, l.traceState, wireKvs l.attributes, l.droppedAttributesCount, l.flags⟩

/-- `Span`; the conversion always sets the status. transform/trace.rs:48-91 -/
def wireSpan (s : PSpan Str) : Span where
  traceId := s.traceId
  spanId := s.spanId
  traceState := s.traceState
  parentSpanId := s.parentSpanId
  flags := s.flags
  name := s.name
  kind := BitVec.ofNat 32 s.kind
  startTimeUnixNano := s.startTimeUnixNano
  endTimeUnixNano := s.endTimeUnixNano
  attributes := wireKvs s.attributes
  droppedAttributesCount := s.droppedAttributesCount
  events := s.events.map wireEvent
  droppedEventsCount := s.droppedEventsCount
  links := s.links.map wireLink
  droppedLinksCount := s.droppedLinksCount
  status := some ⟨s.statusMessage, BitVec.ofNat 32 s.statusCode⟩

/-- `ResourceSpans` of the conversion. transform/trace.rs:153-189 -/
def wireRequest {I α : Type} (f : I → α) (r : PRequest Str I) : List (ResourceItems α) :=
  [{ resource := some ⟨wireKvs r.resource, 0⟩
     scopes := r.groups.map fun g => ⟨some ⟨g.scope.name.toList, g.scope.version.toList, wireKvs g.scope.attributes, 0⟩, g.items.map f, g.schemaUrl.toList⟩
     schemaUrl := r.schemaUrl.toList }]

/-! ## The doubles of the SDK's attributes -/

/-- The doubles of an attribute value. -/
def valDoubles : Val → List (BitVec 64)
  | .float f => [f]
  | .arr (.floats l) => l
  | _ => []

/-- The doubles of attributes. -/
def attrDoubles (kvs : List (Str × Val)) : List (BitVec 64) := kvs.flatMap fun kv => valDoubles kv.2

/-- The doubles in the attributes of a span, its events, its links and its scope. -/
def spanDoubles (x : SdkSpan Str) : List (BitVec 64) :=
  attrDoubles x.data.attributes ++ (x.data.events.events.flatMap fun e => attrDoubles e.attributes) ++
    (x.data.links.links.flatMap fun l => attrDoubles l.attributes) ++ attrDoubles x.scope.attrs

theorem wireVals_map (vs : List (PVal Str)) : wireVals vs = vs.map wireVal := by
  induction vs with
  | nil => rfl
  | cons v vs ih => rw [wireVals, ih, List.map_cons]

theorem wireKvs_map (kvs : List (Str × PVal Str)) : wireKvs kvs = kvs.map fun kv => (kv.1, some (wireVal kv.2)) := by
  induction kvs with
  | nil => rfl
  | cons v vs ih => rw [wireKvs, ih, List.map_cons]

theorem attrValues_wire (kvs : List (Str × Val)) : attrValues (wireKvs (attributes kvs)) = kvs.map fun kv => wireVal (ofVal kv.2) := by
  rw [wireKvs_map, attributes, attrValues, List.map_map]
  induction kvs with
  | nil => rfl
  | cons kv kvs ih => rw [List.map_cons, List.filterMap_cons, ih]; rfl

theorem scalars {α : Type} (l : List α) (mk : α → AVal) (hp : ∀ a, (mk a).noUnset = true) (hl : ∀ a, (mk a).levels = 1) :
    noUnsetList (l.map mk) = true ∧ levelsList (l.map mk) ≤ 1 ∧ doublesList (l.map mk) = l.flatMap fun a => (mk a).doubles := by
  induction l with
  | nil => exact ⟨rfl, Nat.zero_le _, rfl⟩
  | cons a l ih =>
    simp only [List.map_cons, noUnsetList, levelsList, doublesList, hp, hl, ih.1, ih.2.2, List.flatMap_cons]
    exact ⟨rfl, Nat.max_le.2 ⟨Nat.le_refl _, ih.2.1⟩, trivial⟩

/-- An attribute value of the SDK is never unset and at most four levels deep. -/
theorem wireVal_shape (v : Val) :
    (wireVal (ofVal v)).noUnset = true ∧ (wireVal (ofVal v)).levels ≤ 4 ∧ (wireVal (ofVal v)).doubles = valDoubles v := by
  have arr : ∀ {α : Type} (l : List α) (mk : α → AVal), (∀ a, (mk a).noUnset = true) → (∀ a, (mk a).levels = 1) →
      (AVal.array (l.map mk)).noUnset = true ∧ (AVal.array (l.map mk)).levels ≤ 4 ∧ (AVal.array (l.map mk)).doubles = l.flatMap fun a => (mk a).doubles := by
    intro α l mk hp hl
    obtain ⟨h1, h2, h3⟩ := scalars l mk hp hl
    rw [AVal.noUnset, AVal.levels, AVal.doubles]
    exact ⟨h1, by omega, h3⟩
  have m : ∀ {α : Type} (l : List α) (mk : α → PVal Str), wireVals (l.map mk) = l.map (wireVal ∘ mk) := fun l mk => by rw [wireVals_map, List.map_map]
  rcases v with b | i | f | s | l | l | l | l
  · exact ⟨rfl, by decide +revert, rfl⟩
  · exact ⟨rfl, by show (AVal.int _).levels ≤ 4; rw [AVal.levels] <;> simp, rfl⟩
  · exact ⟨rfl, by show (AVal.double _).levels ≤ 4; rw [AVal.levels] <;> simp, rfl⟩
  · exact ⟨rfl, by show (AVal.str _).levels ≤ 4; rw [AVal.levels] <;> simp, rfl⟩
  all_goals
    rw [ofVal, wireVal, m]
    refine (?_ : ∀ {P Q R T : _} (e : R = T), P ∧ Q ∧ _ = R → P ∧ Q ∧ _ = T) ?_ (arr l _ (fun _ => rfl) (fun _ => rfl))
    · exact fun e h => ⟨h.1, h.2.1, h.2.2.trans e⟩
    induction l with
    | nil => rfl
    | cons a l ih => first | exact ih | exact congrArg (List.cons a) ih

theorem good_wire {rd : BitVec 64 → BitVec 64} {d : Nat} (hd : 4 ≤ d) {v : Val} (h : ∀ f ∈ valDoubles v, finite f = true ∧ rd f = f) :
    GoodVal rd d (wireVal (ofVal v)) := by
  obtain ⟨h1, h2, h3⟩ := wireVal_shape v
  exact ⟨h1, fun f hf => (h f (h3 ▸ hf)).1, fun f hf => (h f (h3 ▸ hf)).2, Nat.le_trans h2 hd⟩

theorem good_attrs {rd : BitVec 64 → BitVec 64} {d : Nat} (hd : 4 ≤ d) {kvs : List (Str × Val)} (h : ∀ f ∈ attrDoubles kvs, finite f = true ∧ rd f = f) :
    ∀ v ∈ attrValues (wireKvs (attributes kvs)), GoodVal rd d v := by
  intro v hv
  rw [attrValues_wire] at hv
  obtain ⟨kv, hkv, rfl⟩ := List.mem_map.1 hv
  exact good_wire hd fun f hf => h f (List.mem_flatMap.2 ⟨kv, hkv, hf⟩)

theorem good_span {rd : BitVec 64 → BitVec 64} {d : Nat} (hd : 4 ≤ d) {x : SdkSpan Str} (h : ∀ f ∈ spanDoubles x, finite f = true ∧ rd f = f) :
    ∀ v ∈ (wireSpan (spanOf x)).values, GoodVal rd d v := by
  intro v hv
  simp only [Span.values, wireSpan, spanOf, List.mem_append, List.mem_flatMap, List.mem_map] at hv
  rcases hv with (hv | ⟨e, ⟨_, ⟨e', he, rfl⟩, rfl⟩, hv⟩) | ⟨e, ⟨_, ⟨e', he, rfl⟩, rfl⟩, hv⟩
  · exact good_attrs hd (fun f hf => h f (by simp [spanDoubles, hf])) v hv
  · refine good_attrs hd (fun f hf => h f ?_) v hv
    exact List.mem_append.2 (.inl (List.mem_append.2 (.inl (List.mem_append.2 (.inr (List.mem_flatMap.2 ⟨e', he, hf⟩))))))
  · refine good_attrs hd (fun f hf => h f ?_) v hv
    exact List.mem_append.2 (.inl (List.mem_append.2 (.inr (List.mem_flatMap.2 ⟨e', he, hf⟩))))

theorem good_spans {rd : BitVec 64 → BitVec 64} (hit : Common.Scope Str → Common.Scope Str → Bool) (ord : Order (Common.Scope Str × List (SdkSpan Str)))
    (resource : List (Str × Val)) (url : Option String) (batch : List (SdkSpan Str)) (hres : ∀ f ∈ attrDoubles resource, finite f = true ∧ rd f = f)
    (hb : ∀ x ∈ batch, ∀ f ∈ spanDoubles x, finite f = true ∧ rd f = f) :
    ∀ r ∈ wireRequest wireSpan (groupSpans hit ord ⟨attributes resource, url⟩ batch), ∀ v ∈ r.values Span.values, GoodVal rd 116 v := by
  intro r hr v hv
  simp only [wireRequest, List.mem_singleton] at hr
  subst hr
  simp only [ResourceItems.values, Option.toList_some, List.flatMap_cons, List.flatMap_nil, List.append_nil, List.mem_append, List.mem_flatMap,
    List.mem_map] at hv
  rcases hv with hv | ⟨_, ⟨g, hg, rfl⟩, hv⟩
  · exact good_attrs (by decide) hres v hv
  · simp only [groupSpans, List.mem_map] at hg
    obtain ⟨g0, hg0, rfl⟩ := hg
    obtain ⟨h1, x, xs, h2, h3, _⟩ := groupBy_group (hit := hit) (key := fun x : SdkSpan Str => x.scope) batch g0 ((ord.perm _).mem_iff.1 hg0)
    simp only [ScopeItems.values, Option.toList_some, List.flatMap_cons, List.flatMap_nil, List.append_nil, List.mem_append, List.mem_flatMap,
      List.mem_map] at hv
    rcases hv with hv | ⟨_, ⟨_, ⟨y, hy, rfl⟩, rfl⟩, hv⟩
    · have hx : x ∈ batch := h1.subset (by rw [h2]; exact List.mem_cons_self ..)
      rw [h3] at hv
      exact good_attrs (by decide) (fun f hf => hb x hx f (List.mem_append.2 (.inr hf))) v hv
    · exact good_span (by decide) (hb y (h1.subset hy)) v hv

/-! ## C83 -/

/-- C83, for spans of the SDK. Every batch of finished spans, with every resource, whose attributes hold only finite doubles is sent as a document that a
conforming receiver reads as a request with exactly these spans, each once, and which the project's own reader reads as the same request. Missing: attributes
that are infinite or not a number, see `traces_conform_violated`. -/
theorem sdk_spans_conform_partial (cast : Int → BitVec 64) (rd : BitVec 64 → BitVec 64) (hit : Common.Scope Str → Common.Scope Str → Bool)
    (ord : Order (Common.Scope Str × List (SdkSpan Str))) (resource : List (Str × Val)) (url : Option String) (batch : List (SdkSpan Str))
    (hres : ∀ f ∈ attrDoubles resource, finite f = true ∧ rd f = f) (hb : ∀ x ∈ batch, ∀ f ∈ spanDoubles x, finite f = true ∧ rd f = f) :
    ∃ rs, StdTraces cast (encTraces (wireRequest wireSpan (groupSpans hit ord ⟨attributes resource, url⟩ batch))) rs ∧
      fromText rd (decTraces cast) (encTraces (wireRequest wireSpan (groupSpans hit ord ⟨attributes resource, url⟩ batch))) = some rs ∧
      (allItems rs).Perm (batch.map fun x => wireSpan (spanOf x)) := by
  have hv := good_spans hit ord resource url batch hres hb
  refine ⟨_, traces_conform_partial cast _ fun r hr v h => (hv r hr v h).finite, traces_read_back_partial cast rd _ hv, ?_⟩
  have h := (spans_once hit ord ⟨attributes resource, url⟩ batch).map wireSpan
  have e : allItems (wireRequest wireSpan (groupSpans hit ord ⟨attributes resource, url⟩ batch)) =
      ((groupSpans hit ord ⟨attributes resource, url⟩ batch).groups.flatMap (·.items)).map wireSpan := by
    simp only [allItems, wireRequest, List.flatMap_cons, List.flatMap_nil, List.append_nil, List.flatMap_map, List.map_flatMap]
  rw [e]
  refine h.trans (List.Perm.of_eq ?_)
  rw [List.map_map]; rfl

/-- The hypotheses are met: a child span with a trace state, an event, a link, an error and doubles. -/
def jsonSpan : SdkSpan Str where
  spanContext := ⟨0x0102, 7, 1, false, ⟨some [("a".toList, "1".toList)]⟩⟩
  data := {
    parentSpanId := 9
    spanKind := .server
    name := "op".toList
    startTime := 10
    endTime := 25
    attributes := [("k".toList, .arr (.floats [0x3FF8000000000000#64])), ("l".toList, .str "x")]
    droppedAttributesCount := 3
    events := ⟨[⟨"e".toList, 12, [("m".toList, .bool true)], 0⟩], 1⟩
    links := ⟨[⟨⟨5, 6, 0, false, ⟨none⟩⟩, [("n".toList, .float 0)], 2⟩], 0⟩
    status := .error "bad".toList }
  scope := ⟨"lib", some "1", none, []⟩

example : ∀ x ∈ [jsonSpan, jsonSpan], ∀ f ∈ spanDoubles x, finite f = true ∧ exactly f = f := by
  intro x hx f hf
  have hx : x = jsonSpan := by simpa using hx
  subst hx
  have hf : f ∈ [0x3FF8000000000000#64, 0] := hf
  simp only [List.mem_cons, List.not_mem_nil, or_false] at hf
  rcases hf with rfl | rfl <;> exact ⟨by decide, rfl⟩

/-! ## Log records -/

/-- `LogRecord` of the conversion. transform/logs.rs:59-127 -/
def wireLog (p : PLog Str) : LogRecord where
  timeUnixNano := p.timeUnixNano
  observedTimeUnixNano := p.observedTimeUnixNano
  severityNumber := BitVec.ofNat 32 p.severityNumber
  severityText := p.severityText
  body := p.body.map wireVal
  attributes := wireKvs p.attributes
  droppedAttributesCount := p.droppedAttributesCount
  flags := p.flags
  traceId := p.traceId
  spanId := p.spanId
  eventName := p.eventName

mutual
/-- The doubles in a log value. -/
def lvalDoubles : LVal Str → List (BitVec 64)
  | .double f => [f]
  | .list vs => lvalsDoubles vs
  | .map kvs => lmapDoubles kvs
  | _ => []
def lvalsDoubles : List (LVal Str) → List (BitVec 64)
  | [] => []
  | v :: vs => lvalDoubles v ++ lvalsDoubles vs
def lmapDoubles : List (Str × LVal Str) → List (BitVec 64)
  | [] => []
  | (_, v) :: kvs => lvalDoubles v ++ lmapDoubles kvs
end

/-- The doubles in the body and the attributes of a record. -/
def logDoubles (r : SdkLog Str) : List (BitVec 64) := r.body.toList.flatMap lvalDoubles ++ r.attributesIter.flatMap fun kv => lvalDoubles kv.2

mutual
theorem wire_doubles : ∀ v : LVal Str, (wireVal (ofLVal v)).doubles = lvalDoubles v
  | .int _ => rfl
  | .double _ => rfl
  | .string _ => rfl
  | .boolean _ => rfl
  | .bytes _ => rfl
  | .list vs => by rw [ofLVal, wireVal, AVal.doubles, lvalDoubles]; exact wires_doubles vs
  | .map kvs => by rw [ofLVal, wireVal, AVal.doubles, lvalDoubles]; exact wireMap_doubles kvs
theorem wires_doubles : ∀ vs : List (LVal Str), doublesList (wireVals (ofLVals vs)) = lvalsDoubles vs
  | [] => rfl
  | v :: vs => by rw [ofLVals, wireVals, doublesList, lvalsDoubles, wire_doubles v, wires_doubles vs]
theorem wireMap_doubles : ∀ kvs : List (Str × LVal Str), doublesKvs (wireKvs (ofLMap kvs)) = lmapDoubles kvs
  | [] => rfl
  | (k, v) :: kvs => by rw [ofLMap, wireKvs, doublesKvs, lmapDoubles, wire_doubles v, wireMap_doubles kvs]
end

theorem finite_log {r : SdkLog Str} {p : PLog Str} (h : ∀ f ∈ logDoubles r, finite f = true) (hp : logOf r = some p) : FiniteVals (wireLog p).values := by
  rw [logOf, Option.map_eq_some_iff] at hp
  obtain ⟨o, _, rfl⟩ := hp
  intro v hv f hf
  simp only [LogRecord.values, wireLog, wireKvs_map, attrValues, List.mem_append, List.filterMap_map, List.mem_filterMap] at hv
  rcases hv with hv | ⟨kv', hkv, hv⟩
  · cases hb : r.body with
    | none => rw [hb] at hv; simp at hv
    | some b =>
      rw [hb] at hv
      simp only [Option.map_some, Option.toList_some, List.mem_singleton] at hv
      subst hv
      rw [wire_doubles] at hf
      exact h f (by simp [logDoubles, hb, hf])
  · simp only [Function.comp_apply, Option.some.injEq] at hv
    subst hv
    rw [wire_doubles] at hf
    exact h f (List.mem_append.2 (.inr (List.mem_flatMap.2 ⟨kv', hkv, hf⟩)))

/-- C83, for log records of the SDK. Every batch of emitted records, whose bodies, attributes and resource hold only finite doubles, however deeply their values are
nested, is sent as a document that a conforming receiver reads as a request with exactly these records, each once. -/
theorem sdk_logs_conform_partial (cast : Int → BitVec 64) (ord : Order (String × List (SdkLog Str × Common.Scope Str))) (resource : List (Str × Val))
    (url : Option String) (batch : List (SdkLog Str × Common.Scope Str)) (ho : ∀ x ∈ batch, x.1.observedTimestamp.isSome)
    (hres : ∀ f ∈ attrDoubles resource, finite f = true) (hb : ∀ x ∈ batch, ∀ f ∈ logDoubles x.1, finite f = true) :
    ∃ req rs, groupLogs ord ⟨attributes resource, url⟩ batch = some req ∧ StdLogs cast (encLogs (wireRequest wireLog req)) rs ∧
      ((allItems rs).map some).Perm (batch.map fun x => (logOf x.1).map wireLog) := by
  obtain ⟨req, hreq, hperm, hr1, hr2⟩ := logs_once ord ⟨attributes resource, url⟩ batch ho
  refine ⟨req, _, hreq, logs_conform_partial cast _ ?_, ?_⟩
  · intro r hr v hv
    simp only [wireRequest, List.mem_singleton] at hr
    subst hr
    simp only [ResourceItems.values, Option.toList_some, List.flatMap_cons, List.flatMap_nil, List.append_nil, List.mem_append, List.mem_flatMap,
      List.mem_map] at hv
    rcases hv with hv | ⟨_, ⟨g, hg, rfl⟩, hv⟩
    · rw [hr1] at hv
      exact (good_attrs (rd := id) (Nat.le_refl 4) (fun f hf => ⟨hres f hf, rfl⟩) v hv).finite
    · simp only [ScopeItems.values, Option.toList_some, List.flatMap_cons, List.flatMap_nil, List.append_nil, List.mem_append, List.mem_flatMap,
        List.mem_map] at hv
      rcases hv with hv | ⟨_, ⟨p, hp, rfl⟩, hv⟩
      · have : g.scope.attributes = [] := by
          simp only [groupLogs, Option.map_eq_some_iff] at hreq
          obtain ⟨gs, hgs, rfl⟩ := hreq
          have hm : some g ∈ gs.map some := List.mem_map_of_mem hg
          rw [mapM_some hgs] at hm
          obtain ⟨g0, _, he⟩ := List.mem_map.1 hm
          simp only [logGroup, Option.bind_eq_bind, Option.bind_eq_some_iff] at he
          obtain ⟨f, _, ps, _, he⟩ := he
          cases he; rfl
        rw [this] at hv
        simp [wireKvs, attrValues] at hv
      · have hm : some p ∈ (req.groups.flatMap (·.items)).map some := List.mem_map_of_mem (List.mem_flatMap.2 ⟨g, hg, hp⟩)
        rw [hperm.mem_iff] at hm
        obtain ⟨x, hx, he⟩ := List.mem_map.1 hm
        exact finite_log (hb x hx) he v hv
  · have e : allItems (wireRequest wireLog req) = (req.groups.flatMap (·.items)).map wireLog := by
      simp only [allItems, wireRequest, List.flatMap_cons, List.flatMap_nil, List.append_nil, List.flatMap_map, List.map_flatMap]
    rw [e]
    have h := hperm.map (Option.map wireLog)
    rw [List.map_map] at h
    rw [List.map_map] at h ⊢
    exact h

example : let b := [((({ (Logs.Record.new : SdkLog Str) with observedTimestamp := some 5, body := some (.list [.double 0, .string "x"]) }) : SdkLog Str),
      (⟨"lib", none, none, []⟩ : Common.Scope Str))]
    (∀ x ∈ b, x.1.observedTimestamp.isSome) ∧ ∀ x ∈ b, ∀ f ∈ logDoubles x.1, finite f = true := by
  refine ⟨by simp, fun x hx f hf => ?_⟩
  simp only [List.mem_singleton] at hx
  subst hx
  have hf : f ∈ [0#64] := hf
  rw [List.mem_singleton] at hf; subst hf; decide

end Otel.Otlp.Json
