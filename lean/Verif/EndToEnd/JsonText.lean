import Verif.EndToEnd.AsyncDelivery
import Verif.Otlp.ProtoSdk
import Verif.Otlp.JsonSdkMetrics
import Verif.Json.OtlpText
/-!
# C91 over the text of OTLP in JSON (C122)

`Verif.EndToEnd.Delivery` has the wire format as a parameter; `Verif.EndToEnd.Proto` has protobuf for it. Here it is the JSON text of `Verif.Json.OtlpText`:
the collector gets a text, parses it, and has the spans and the log records.
-/

namespace Otel.EndToEnd
open Rust Otel.Otlp
open Common (Val Scope)

section
variable {K : Type} {Y : Type}

/-- As `SpanCfg`, with a wire format that carries the spans for which `ok` holds. -/
structure SpanCfgOn (hit : Scope K → Scope K → Bool) (res : Res K) (ok : SdkSpan K → Prop) (decode : Y → Option (PRequest K (PSpan K)))
    (c : Order (Scope K × List (SdkSpan K)) → Exporter.Cfg (Res K) (List (SdkSpan K)) (PRequest K (PSpan K)) Y) : Prop where
  keys : ∀ a b, hit a b = true → SameScope a b
  signal : ∀ o, (c o).signal = .traces
  message : ∀ o, (c o).message = groupSpans hit o
  wire : ∀ o b y, (∀ x ∈ b, ok x) → (c o).encode (groupSpans hit o res b) = some y → decode y = some (groupSpans hit o res b)

theorem spans_read_on {hit : Scope K → Scope K → Bool} {ok : SdkSpan K → Prop} {decode : Y → Option (PRequest K (PSpan K))}
    {c : Order (Scope K × List (SdkSpan K)) → Exporter.Cfg (Res K) (List (SdkSpan K)) (PRequest K (PSpan K)) Y} {res : Res K} (hc : SpanCfgOn hit res ok decode c)
    {bs : List (List (SdkSpan K))} {qs : List (Exporter.Request Y)} (h : List.Forall₂ (fun b q => ∃ o, (c o).encode ((c o).message res b) = some q.body) bs qs)
    (hp : ∀ x ∈ bs.flatten, Plain x ∧ ok x) : ∃ l', l'.Perm bs.flatten ∧ List.Forall₂ (ReadsAsSpan res) l' (arrived decode qs) := by
  refine arrived_of h fun b hb o y hy => ?_
  rw [hc.message] at hy
  refine ⟨_, (o.run (groupBy hit (·.scope) b)).flatMap Prod.snd, hc.wire o _ y (fun x hx => (hp x (List.mem_flatten.2 ⟨b, hb, hx⟩)).2) hy,
    ((o.perm _).flatMap_right _).trans (groupBy_perm b), ?_⟩
  simp only [arrivals, groupSpans, List.flatMap_map, List.map_map]
  refine forall2_flatMap fun g hg => forall2_map_right fun x hx => ?_
  obtain ⟨h1, z, zs, h2, h3, h4⟩ := groupBy_group (hit := hit) (key := fun x : SdkSpan K => x.scope) b g ((o.perm _).mem_iff.1 hg)
  have hs : SameScope g.1 x.scope := by
    rw [h2] at hx
    rcases List.mem_cons.1 hx with rfl | hx
    · rw [h3]; exact ⟨rfl, rfl, fun _ => .refl _⟩
    · rw [h3]; exact hc.keys _ _ (h4 x hx)
  exact ⟨span_roundtrip_partial (hp x (List.mem_flatten.2 ⟨b, hb, h1.subset hx⟩)).1, rfl, ⟨hs.name, congrArg (fun v => v.getD "") hs.version⟩,
    fun hz => (hs.attributes hz).map _⟩

theorem spans_arrive_once_on {hit : Scope K → Scope K → Bool} {ok : SdkSpan K → Prop} {decode : Y → Option (PRequest K (PSpan K))}
    {c : Order (Scope K × List (SdkSpan K)) → Exporter.Cfg (Res K) (List (SdkSpan K)) (PRequest K (PSpan K)) Y} {res : Res K} (hc : SpanCfgOn hit res ok decode c)
    {cfg : Sdk.Bsp.Cfg} {s : Sdk.Bsp.State (SdkSpan K)} {e : Exporter.St (Res K)} {log : List (Sending Y)} (h : Pipe (spanProc cfg (SdkSpan K)) c res s e log)
    (hp : ∀ x ∈ s.accepted, Plain x ∧ ok x) :
    ∃ l l', List.Sublist l s.accepted ∧ l'.Perm l ∧ List.Forall₂ (ReadsAsSpan res) l' (arrived decode (requests log)) := by
  obtain ⟨_, bs, h1, h2, _⟩ := pipe_requests h
  have hcons := (Sdk.Bsp.inv_reachable (pipe_span_reachable h)).conserved
  have hsub : List.Sublist bs.flatten s.accepted := by
    rw [hcons, List.append_assoc]
    exact (flatten_sublist h1).trans (List.sublist_append_left _ _)
  obtain ⟨l', g1, g2⟩ := spans_read_on hc h2 fun x hx => hp x (hsub.subset hx)
  exact ⟨bs.flatten, l', hsub, g1, g2⟩

theorem flushed_spans_arrive_on {hit : Scope K → Scope K → Bool} {ok : SdkSpan K → Prop} {decode : Y → Option (PRequest K (PSpan K))}
    {c : Order (Scope K × List (SdkSpan K)) → Exporter.Cfg (Res K) (List (SdkSpan K)) (PRequest K (PSpan K)) Y} {res : Res K} (hc : SpanCfgOn hit res ok decode c)
    {cfg : Sdk.Bsp.Cfg} {s : Sdk.Bsp.State (SdkSpan K)} {e : Exporter.St (Res K)} {log : List (Sending Y)} (h : Pipe (spanProc cfg (SdkSpan K)) c res s e log)
    (hp : ∀ x ∈ s.accepted, Plain x ∧ ok x) (hok : AllOk log) (tok : Nat) (r : Sdk.Bsp.Res) (hr : (tok, Sdk.Bsp.Ret.result r) ∈ s.returned)
    (hfit : (s.atCall tok).1 ≤ (s.atCall tok).2 + cfg.maxBatch) :
    ∃ l l', s.accepted.take (s.atCall tok).1 <+: l ∧ l <+: s.accepted ∧ l'.Perm l ∧ List.Forall₂ (ReadsAsSpan res) l' (arrived decode (requests log)) := by
  obtain ⟨_, bs, _, h2, h3⟩ := pipe_requests h
  have hreach := pipe_span_reachable h
  have hcons := (Sdk.Bsp.inv_reachable hreach).conserved
  have hbs : bs = s.exported := h3 (fun o hh => by rw [hc.signal o] at hh; cases hh.1) hok
  have hpre : s.exported.flatten <+: s.accepted := by
    rw [hcons, List.append_assoc]
    exact List.prefix_append _ _
  subst hbs
  obtain ⟨l', g1, g2⟩ := spans_read_on hc h2 fun x hx => hp x (hpre.subset hx)
  exact ⟨_, l', Sdk.Bsp.flush_exports_all_partial cfg s hreach tok r hr hfit, hpre, g1, g2⟩

end

/-! ## The exporters -/

/-- The exporter of spans in JSON, over HTTP. The text is that of `serde_json::to_string_pretty`, which does not fail for these messages (NaN and infinite doubles
become `null`). opentelemetry-otlp/src/exporter/http/mod.rs:288-305 -/
def jsonSpanCfg (wf : BitVec 64 → Str) (t : Exporter.Transport) (headers : Prop.Http.HeaderMap) (contentType : List UInt8) (hit : Scope Str → Scope Str → Bool)
    (o : Order (Scope Str × List (SdkSpan Str))) : Exporter.Cfg (Res Str) (List (SdkSpan Str)) (PRequest Str (PSpan Str)) Str :=
  ⟨.traces, t, headers, contentType, groupSpans hit o, fun m => some (JsonText.body wf (Json.encTraces (Json.wireRequest Json.wireSpan m)))⟩

/-- The exporter of log records in JSON; a batch whose conversion panics has no text. opentelemetry-otlp/src/exporter/http/mod.rs:307-325 -/
def jsonLogCfg (wf : BitVec 64 → Str) (t : Exporter.Transport) (headers : Prop.Http.HeaderMap) (contentType : List UInt8)
    (o : Order (String × List (SdkLog Str × Scope Str))) :
    Exporter.Cfg (Res Str) (List (SdkLog Str × Scope Str)) (Option (PRequest Str (PLog Str))) Str :=
  ⟨.logs, t, headers, contentType, groupLogs o, fun m => m.map fun m => JsonText.body wf (Json.encLogs (Json.wireRequest Json.wireLog m))⟩

/-- What a collector that uses the project's types reads of a text. (`rf` reads doubles, `cast` makes a double of an integer) opentelemetry-proto/src/proto.rs -/
def readSpansText (cast : Int → BitVec 64) (rf : Str → BitVec 64) (s : Str) : Option (PRequest Str (PSpan Str)) :=
  (JsonText.readText rf (Json.decTraces cast) s).bind (Proto.unwireRequest Proto.unwireSpan)

/-- The same for log records. -/
def readLogsText (cast : Int → BitVec 64) (rf : Str → BitVec 64) (s : Str) : Option (PRequest Str (PLog Str)) :=
  (JsonText.readText rf (Json.decLogs cast) s).bind (Proto.unwireRequest Proto.unwireLog)

/-! ## Which items -/

/-- JSON has no infinite doubles and no NaN. -/
def FiniteSpan (x : SdkSpan Str) : Prop := ∀ f ∈ Json.spanDoubles x, Json.finite f = true

/-- Finite doubles, and lists and maps at most 29 deep: the reader has a limit. -/
def FiniteLog (r : SdkLog Str) : Prop :=
  (∀ f ∈ Json.logDoubles r, Json.finite f = true) ∧ (∀ b, r.body = some b → Proto.depth b ≤ 29) ∧ ∀ kv ∈ r.attributesIter, Proto.depth kv.2 ≤ 29

/-- Doubles are written as numbers, and finite ones are read exactly. -/
structure ExactText (wf : BitVec 64 → Str) (rf : Str → BitVec 64) : Prop where
  number : ∀ f, JsonText.FloatText (wf f)
  exact : ∀ f, Json.finite f = true → rf (wf f) = f

mutual
theorem json_levels : ∀ v : LVal Str, (Json.wireVal (ofLVal v)).levels ≤ 1 + 4 * Proto.depth v
  | .int _ => by rw [ofLVal, Json.wireVal, Json.AVal.levels] <;> simp
  | .double _ => by rw [ofLVal, Json.wireVal, Json.AVal.levels] <;> simp
  | .string _ => by rw [ofLVal, Json.wireVal, Json.AVal.levels] <;> simp
  | .boolean _ => by rw [ofLVal, Json.wireVal, Json.AVal.levels] <;> simp
  | .bytes _ => by rw [ofLVal, Json.wireVal, Json.AVal.levels] <;> simp
  | .list vs => by rw [ofLVal, Json.wireVal, Json.AVal.levels, Proto.depth]; have := json_levelsList vs; omega
  | .map kvs => by rw [ofLVal, Json.wireVal, Json.AVal.levels, Proto.depth]; have := json_levelsMap kvs; omega
theorem json_levelsList : ∀ vs : List (LVal Str), Json.levelsList (Json.wireVals (ofLVals vs)) ≤ 1 + 4 * Proto.depth.depths vs
  | [] => by rw [ofLVals, Json.wireVals, Json.levelsList]; omega
  | v :: vs => by
    rw [ofLVals, Json.wireVals, Json.levelsList, Proto.depth.depths]
    have := json_levels v
    have := json_levelsList vs
    omega
theorem json_levelsMap : ∀ kvs : List (Str × LVal Str), Json.levelsKvs (Json.wireKvs (ofLMap kvs)) ≤ 2 + 4 * Proto.depth.depthMap kvs
  | [] => by rw [ofLMap, Json.wireKvs, Json.levelsKvs]; omega
  | (k, v) :: kvs => by
    rw [ofLMap, Json.wireKvs, Json.levelsKvs, Proto.depth.depthMap]
    have := json_levels v
    have := json_levelsMap kvs
    omega
end

mutual
theorem json_present : ∀ v : LVal Str, (Json.wireVal (ofLVal v)).noUnset = true
  | .int _ => rfl
  | .double _ => rfl
  | .string _ => rfl
  | .boolean _ => rfl
  | .bytes _ => rfl
  | .list vs => by rw [ofLVal, Json.wireVal, Json.AVal.noUnset]; exact json_presentList vs
  | .map kvs => by rw [ofLVal, Json.wireVal, Json.AVal.noUnset]; exact json_presentMap kvs
theorem json_presentList : ∀ vs : List (LVal Str), Json.noUnsetList (Json.wireVals (ofLVals vs)) = true
  | [] => rfl
  | v :: vs => by rw [ofLVals, Json.wireVals, Json.noUnsetList, json_present v, json_presentList vs]; rfl
theorem json_presentMap : ∀ kvs : List (Str × LVal Str), Json.noUnsetKvs (Json.wireKvs (ofLMap kvs)) = true
  | [] => rfl
  | (k, v) :: kvs => by rw [ofLMap, Json.wireKvs, Json.noUnsetKvs, json_present v, json_presentMap kvs]; rfl
end

section
variable {wf : BitVec 64 → Str} {rf : Str → BitVec 64} (hx : ExactText wf rf)
include hx

theorem good_lval {v : LVal Str} (h : ∀ f ∈ Json.lvalDoubles v, Json.finite f = true) (hd : Proto.depth v ≤ 29) :
    Json.GoodVal (fun f => rf (wf f)) 118 (Json.wireVal (ofLVal v)) := by
  refine ⟨json_present v, fun f hf => ?_, fun f hf => ?_, ?_⟩
  · rw [Json.wire_doubles] at hf; exact h f hf
  · rw [Json.wire_doubles] at hf; exact hx.exact f (h f hf)
  · have := json_levels v; omega

theorem good_log {r : SdkLog Str} {p : PLog Str} (h : FiniteLog r) (hp : logOf r = some p) :
    ∀ v ∈ (Json.wireLog p).values, Json.GoodVal (fun f => rf (wf f)) 118 v := by
  rw [logOf, Option.map_eq_some_iff] at hp
  obtain ⟨o, _, rfl⟩ := hp
  intro v hv
  simp only [Json.LogRecord.values, Json.wireLog, Json.wireKvs_map, Json.attrValues, List.mem_append, List.filterMap_map, List.mem_filterMap] at hv
  rcases hv with hv | ⟨kv', hkv, hv⟩
  · cases hb : r.body with
    | none => rw [hb] at hv; simp at hv
    | some b =>
      rw [hb] at hv
      simp only [Option.map_some, Option.toList_some, List.mem_singleton] at hv
      subst hv
      exact good_lval hx (fun f hf => h.1 f (by simp [Json.logDoubles, hb, hf])) (h.2.1 b hb)
  · simp only [Function.comp_apply, Option.some.injEq] at hv
    subst hv
    exact good_lval hx (fun f hf => h.1 f (List.mem_append.2 (.inr (List.mem_flatMap.2 ⟨kv', hkv, hf⟩)))) (h.2.2 kv' hkv)

variable (cast : Int → BitVec 64)

/-- The text of a batch of spans is read as the request. -/
theorem spansText_read {hit : Scope Str → Scope Str → Bool} {ord : Order (Scope Str × List (SdkSpan Str))} {resource : List (Str × Val)} {url : Option String}
    {batch : List (SdkSpan Str)} (hres : ∀ f ∈ Json.attrDoubles resource, Json.finite f = true) (hb : ∀ x ∈ batch, FiniteSpan x) :
    readSpansText cast rf (JsonText.body wf (Json.encTraces (Json.wireRequest Json.wireSpan (groupSpans hit ord ⟨attributes resource, url⟩ batch)))) =
      some (groupSpans hit ord ⟨attributes resource, url⟩ batch) := by
  rw [readSpansText, JsonText.traces_text_read_back_partial cast wf rf hx.number _ (Json.good_spans hit ord resource url batch
    (fun f hf => ⟨hres f hf, hx.exact f (hres f hf)⟩) fun x h f hf => ⟨hb x h f hf, hx.exact f (hb x h f hf)⟩), Option.bind_some]
  refine Proto.unwire_request fun g hg i hi => ?_
  simp only [groupSpans, List.mem_map] at hg
  obtain ⟨g0, _, rfl⟩ := hg
  simp only [List.mem_map] at hi
  obtain ⟨x, _, rfl⟩ := hi
  exact Proto.unwire_span (Proto.kind_small _) (Proto.status_small _)

/-- The text of a batch of log records is read as the request. -/
theorem logsText_read {ord : Order (String × List (SdkLog Str × Scope Str))} {resource : List (Str × Val)} {url : Option String}
    {batch : List (SdkLog Str × Scope Str)} {m : PRequest Str (PLog Str)} (hres : ∀ f ∈ Json.attrDoubles resource, Json.finite f = true)
    (hb : ∀ x ∈ batch, FiniteLog x.1) (hm : groupLogs ord ⟨attributes resource, url⟩ batch = some m) :
    readLogsText cast rf (JsonText.body wf (Json.encLogs (Json.wireRequest Json.wireLog m))) = some m := by
  obtain ⟨h1, h2⟩ := Proto.logs_group hm
  have hv : ∀ r ∈ Json.wireRequest Json.wireLog m, ∀ v ∈ r.values Json.LogRecord.values, Json.GoodVal (fun f => rf (wf f)) 118 v := by
    intro r hr v hv
    simp only [Json.wireRequest, List.mem_singleton] at hr
    subst hr
    simp only [Json.ResourceItems.values, Option.toList_some, List.flatMap_cons, List.flatMap_nil, List.append_nil, List.mem_append, List.mem_flatMap,
      List.mem_map] at hv
    rcases hv with hv | ⟨_, ⟨g, hg, rfl⟩, hv⟩
    · rw [h1] at hv
      exact Json.good_attrs (by decide) (fun f hf => ⟨hres f hf, hx.exact f (hres f hf)⟩) v hv
    · simp only [Json.ScopeItems.values, Option.toList_some, List.flatMap_cons, List.flatMap_nil, List.append_nil, List.mem_append, List.mem_flatMap,
        List.mem_map] at hv
      rcases hv with hv | ⟨_, ⟨p, hp, rfl⟩, hv⟩
      · rw [(h2 g hg).1] at hv
        simp [Json.wireKvs, Json.attrValues] at hv
      · obtain ⟨x, hx', he⟩ := (h2 g hg).2 p hp
        exact good_log hx (hb x hx') he v hv
  rw [readLogsText, JsonText.logs_text_read_back_partial cast wf rf hx.number _ hv, Option.bind_some]
  refine Proto.unwire_request fun g hg i hi => ?_
  obtain ⟨x, _, he⟩ := (h2 g hg).2 i hi
  rw [logOf, Option.map_eq_some_iff] at he
  obtain ⟨o, _, rfl⟩ := he
  exact Proto.unwire_log (Proto.severity_small _)

variable {t : Exporter.Transport} {headers : Prop.Http.HeaderMap} {contentType : List UInt8} {resource : List (Str × Val)}
  (hres : ∀ f ∈ Json.attrDoubles resource, Json.finite f = true)
include hres

theorem jsonSpanCfg_ok {hit : Scope Str → Scope Str → Bool} (hk : ∀ a b, hit a b = true → SameScope a b) (url : Option String) :
    SpanCfgOn hit ⟨attributes resource, url⟩ FiniteSpan (readSpansText cast rf) (jsonSpanCfg wf t headers contentType hit) :=
  ⟨hk, fun _ => rfl, fun _ => rfl, fun _ _ _ hb h => by cases h; exact spansText_read hx cast hres hb⟩

theorem jsonLogCfg_ok (url : Option String) :
    LogCfg ⟨attributes resource, url⟩ (fun x => FiniteLog x.1) (readLogsText cast rf) (jsonLogCfg wf t headers contentType) :=
  ⟨fun _ => rfl, fun _ => rfl, fun _ => rfl, fun _ _ _ _ hb hm h => by cases h; exact logsText_read hx cast hres hb hm⟩

/-! ## C122 -/

/-- C122, spans. Whatever the schedule, and whatever the network does, each span with finite doubles that the processor accepted arrives at most once in the texts
the collector gets, reads as it was recorded, and nothing else arrives. Missing: spans with a NaN or an infinite attribute, `nan_batch_lost_violated`. -/
theorem spans_arrive_in_json_partial {hit : Scope Str → Scope Str → Bool} (hk : ∀ a b, hit a b = true → SameScope a b) {url : Option String} {cfg : Sdk.Bsp.Cfg}
    {s : Sdk.Bsp.State (SdkSpan Str)} {e : Exporter.St (Res Str)} {log : List (Sending Str)}
    (h : Pipe (spanProc cfg (SdkSpan Str)) (jsonSpanCfg wf t headers contentType hit) ⟨attributes resource, url⟩ s e log)
    (hp : ∀ x ∈ s.accepted, Plain x ∧ FiniteSpan x) :
    ∃ l l', List.Sublist l s.accepted ∧ l'.Perm l ∧ List.Forall₂ (ReadsAsSpan ⟨attributes resource, url⟩) l' (arrived (readSpansText cast rf) (requests log)) :=
  spans_arrive_once_on (jsonSpanCfg_ok hx cast hres hk url) h hp

/-- C122, spans. After a flush or a shutdown that has returned a result, all the spans that had been accepted are in the texts the collector got. Missing: as above,
and more than one batch waiting, as `flushed_spans_arrive_partial`. -/
theorem flushed_spans_arrive_in_json_partial {hit : Scope Str → Scope Str → Bool} (hk : ∀ a b, hit a b = true → SameScope a b) {url : Option String} {cfg : Sdk.Bsp.Cfg}
    {s : Sdk.Bsp.State (SdkSpan Str)} {e : Exporter.St (Res Str)} {log : List (Sending Str)}
    (h : Pipe (spanProc cfg (SdkSpan Str)) (jsonSpanCfg wf t headers contentType hit) ⟨attributes resource, url⟩ s e log)
    (hp : ∀ x ∈ s.accepted, Plain x ∧ FiniteSpan x) (hok : AllOk log) (tok : Nat) (r : Sdk.Bsp.Res) (hr : (tok, Sdk.Bsp.Ret.result r) ∈ s.returned)
    (hfit : (s.atCall tok).1 ≤ (s.atCall tok).2 + cfg.maxBatch) :
    ∃ l l', s.accepted.take (s.atCall tok).1 <+: l ∧ l <+: s.accepted ∧ l'.Perm l ∧
      List.Forall₂ (ReadsAsSpan ⟨attributes resource, url⟩) l' (arrived (readSpansText cast rf) (requests log)) :=
  flushed_spans_arrive_on (jsonSpanCfg_ok hx cast hres hk url) h hp hok tok r hr hfit

/-- C122, log records with finite doubles whose values are at most 29 lists and maps deep. -/
theorem logs_arrive_in_json_partial {url : Option String} {cfg : Sdk.Bsp.Cfg} {s : Logs.Blp.State (SdkLog Str × Scope Str)} {e : Exporter.St (Res Str)}
    {log : List (Sending Str)} (h : Pipe (logProc cfg (SdkLog Str × Scope Str)) (jsonLogCfg wf t headers contentType) ⟨attributes resource, url⟩ s e log)
    (hp : ∀ x ∈ s.accepted, Dated x.1 ∧ FiniteLog x.1) :
    ∃ l l', List.Sublist l s.accepted ∧ l'.Perm l ∧ List.Forall₂ (ReadsAsLog ⟨attributes resource, url⟩) l' (arrived (readLogsText cast rf) (requests log)) :=
  logs_arrive_once (jsonLogCfg_ok hx cast hres url) h hp

/-- C122, log records, after a flush or a shutdown. -/
theorem flushed_logs_arrive_in_json_partial {url : Option String} {cfg : Sdk.Bsp.Cfg} (hcap : cfg.maxQueue < 2 ^ 64)
    {s : Logs.Blp.State (SdkLog Str × Scope Str)} {e : Exporter.St (Res Str)} {log : List (Sending Str)}
    (h : Pipe (logProc cfg (SdkLog Str × Scope Str)) (jsonLogCfg wf t headers contentType) ⟨attributes resource, url⟩ s e log)
    (hp : ∀ x ∈ s.accepted, Dated x.1 ∧ FiniteLog x.1) (hok : AllOk log) (tok : Nat) (r : Sdk.Bsp.Res)
    (hr : (tok, Sdk.Bsp.Ret.result r, 0) ∈ s.returned) :
    ∃ l l', s.accepted.take (s.atCall tok) <+: l ∧ l <+: s.accepted ∧ l'.Perm l ∧
      List.Forall₂ (ReadsAsLog ⟨attributes resource, url⟩) l' (arrived (readLogsText cast rf) (requests log)) :=
  flushed_logs_arrive_partial (jsonLogCfg_ok hx cast hres url) hcap h hp hok tok r hr

end

/-- C83, C84, C122, metrics. The text of every collection with finite doubles and without exemplars is a JSON document that a conforming receiver reads as the request,
and that the project's reader reads as the same request: the metrics of each scope, in order. -/
theorem sdk_metrics_text_partial {wf : BitVec 64 → Str} {rf : Str → BitVec 64} (hwf : ∀ f, JsonText.FloatText (wf f)) (hex : ∀ f, rf (wf f) = f) (toF64 : Int → BitVec 64)
    (cast : Cast) (resource : List (Str × Val)) (url : Option String) (sms : List (SdkScopeMetrics Str)) (hres : ∀ f ∈ Json.attrDoubles resource, Json.finite f = true)
    (hb : ∀ s ∈ sms, ∀ f ∈ Json.scopeDoubles cast s, Json.finite f = true) (he : ∀ s ∈ sms, ∀ m ∈ s.metrics, Json.NoExemplars m.data) :
    ∃ rs, (∃ j, JsonText.parse rf (JsonText.body wf (Json.encMetrics (Json.wireRequest Proto.wireMetric (metricsRequest cast resource url sms)))) = some j ∧ Json.StdMetrics toF64 j rs) ∧
      JsonText.readText rf (Json.decMetrics toF64) (JsonText.body wf (Json.encMetrics (Json.wireRequest Proto.wireMetric (metricsRequest cast resource url sms)))) = some rs ∧
      (rs.flatMap fun r => r.scopes.map fun g => (g.scope.map fun s => s.name, g.items)) =
        sms.map fun s => (some s.scope.name.toList, s.metrics.map fun m => Proto.wireMetric (metricOf cast m)) := by
  obtain ⟨rs, h1, h2, h3⟩ := Json.sdk_metrics_conform_partial toF64 (fun f => rf (wf f)) cast resource url sms (fun f hf => ⟨hres f hf, hex f⟩)
    (fun s hs f hf => ⟨hb s hs f hf, hex f⟩) he
  refine ⟨rs, ⟨_, ?_, h1⟩, by rw [JsonText.readText_body wf rf hwf, h2], h3⟩
  rw [JsonText.body, JsonText.text_read_back (.inr rfl) wf rf _ fun f _ => hwf f, JsonText.reparse_exact _ fun f _ => hex f]

/-- A record with a double in a list in a map: the hypothesis about log records is met. -/
example : FiniteLog ({ (Logs.Record.new : SdkLog Str) with body := some (.map [("k".toList, .list [.double 0, .string "x"])]) }) := by
  refine ⟨fun f hf => ?_, fun b hb => ?_, fun kv hkv => (List.not_mem_nil hkv).elim⟩
  · have hf : f ∈ [0#64] := hf
    rw [List.mem_singleton] at hf; subst hf; decide
  · cases hb; decide

/-- The hypotheses about doubles hold of a way to write them. -/
theorem bits_exact : ExactText JsonText.bitsText JsonText.readBits := ⟨fun f => (JsonText.bitsText_ok f).1, fun f _ => (JsonText.bitsText_ok f).2⟩

/-- Two spans of one library, the first with an attribute that is not a number. -/
def exNanSpan : SdkSpan Str := { Json.jsonSpan with data := { Json.jsonSpan.data with attributes := [("k".toList, .float 0x7FF8000000000000#64)] } }
def exGoodSpan : SdkSpan Str := { Json.jsonSpan with data := { Json.jsonSpan.data with attributes := [("k".toList, .bool true)], events := ⟨[], 0⟩, links := ⟨[], 0⟩ } }

theorem exGood_finite : FiniteSpan exGoodSpan := by
  intro f hf
  have hf : f ∈ ([] : List (BitVec 64)) := hf
  cases hf

def exEnds (a b : SdkSpan Str) : List (Sdk.Bsp.Action (SdkSpan Str)) :=
  [.call 0 (.onEnd a), .thread 0, .thread 0, .thread 0, .call 0 (.onEnd b), .thread 0, .thread 0, .thread 0, .call 1 .forceFlush, .thread 1, .thread 1, .take,
    .work true, .work true, .work true, .work true, .work true, .thread 1]

/-- Two spans, a flush, every export answered with success. -/
theorem json_two {wf : BitVec 64 → Str} (a b : SdkSpan Str) : ∃ (s : Sdk.Bsp.State (SdkSpan Str)) (log : List (Sending Str)),
    Pipe (spanProc ⟨2, 10⟩ (SdkSpan Str)) (jsonSpanCfg wf (.http true) [] [1] plainHit) ⟨attributes [], none⟩ s ⟨true, ⟨attributes [], none⟩⟩ log ∧ AllOk log ∧
      (0, Sdk.Bsp.Ret.result .ok) ∈ s.returned ∧ s.atCall 0 = (2, 0) ∧ s.accepted = [a, b] ∧ s.exported = [[a, b]] := by
  have h : (Sdk.Bsp.runAll ⟨2, 10⟩ Sdk.Bsp.State.init (exEnds a b)).map (fun s => (s.returned, s.atCall 0, s.accepted, s.exported)) =
      some ([(0, Sdk.Bsp.Ret.result .ok)], (2, 0), [a, b], [[a, b]]) := rfl
  obtain ⟨s, hs, he⟩ := Option.map_eq_some_iff.1 h
  simp only [Prod.mk.injEq] at he
  obtain ⟨log, hp, hok⟩ := span_pipe_of_run (c := jsonSpanCfg wf (.http true) [] [1] plainHit) (res := (⟨attributes [], none⟩ : Res Str)) ⟨true, some ⟨200, 0⟩⟩
    ⟨id, fun _ => .refl _⟩ (fun _ _ => rfl) _ (by intro b hb; simpa [exEnds] using hb) .init (by intro x hx; simp at hx) hs
  exact ⟨s, log, hp, hok, by rw [he.1]; simp, he.2.1, he.2.2.1, he.2.2.2⟩

/-- The hypotheses hold in a case. -/
example : (∃ (s : Sdk.Bsp.State (SdkSpan Str)) (log : List (Sending Str)),
    Pipe (spanProc ⟨2, 10⟩ (SdkSpan Str)) (jsonSpanCfg JsonText.bitsText (.http true) [] [1] plainHit) ⟨attributes [], none⟩ s ⟨true, ⟨attributes [], none⟩⟩ log ∧ AllOk log ∧
      (0, Sdk.Bsp.Ret.result .ok) ∈ s.returned ∧ s.atCall 0 = (2, 0) ∧ s.accepted = [Json.jsonSpan, exGoodSpan]) ∧
    (∀ x ∈ [Json.jsonSpan, exGoodSpan], Plain x ∧ FiniteSpan x) ∧ ∀ a b : Scope Str, plainHit a b = true → SameScope a b := by
  obtain ⟨s, log, h1, h2, h3, h4, h5, _⟩ := json_two (wf := JsonText.bitsText) Json.jsonSpan exGoodSpan
  refine ⟨⟨s, log, h1, h2, h3, h4, h5⟩, fun x hx => ?_, plainHit_keys⟩
  simp only [List.mem_cons, List.not_mem_nil, or_false] at hx
  rcases hx with rfl | rfl
  · refine ⟨AsyncPipe.jsonSpan_plain, fun f hf => ?_⟩
    have hf : f ∈ [0x3FF8000000000000#64, 0] := hf
    simp only [List.mem_cons, List.not_mem_nil, or_false] at hf
    rcases hf with rfl | rfl <;> decide
  · exact ⟨⟨AsyncPipe.jsonSpan_plain.context, AsyncPipe.jsonSpan_plain.start, AsyncPipe.jsonSpan_plain.finish, by intro kv h; simp [exGoodSpan] at h; subst h; trivial,
      by intro e h; simp [exGoodSpan] at h, by intro e h; simp [exGoodSpan] at h⟩, exGood_finite⟩

theorem exNan_unread (cast : Int → BitVec 64) (rd : BitVec 64 → BitVec 64) : Json.fromText rd (Json.decTraces cast) (Json.encTraces (Json.wireRequest Json.wireSpan
    (groupSpans plainHit ⟨id, fun _ => .refl _⟩ ⟨attributes [], none⟩ [exNanSpan, exGoodSpan]))) = none := by
  rfl

/-- C122, against the property. A span with an attribute that is not a number, and one without: the flush and every export succeed, and neither arrives, for the text
is not read. -/
theorem nan_batch_lost_violated (cast : Int → BitVec 64) {wf : BitVec 64 → Str} {rf : Str → BitVec 64} (hx : ExactText wf rf) :
    ∃ (s : Sdk.Bsp.State (SdkSpan Str)) (log : List (Sending Str)),
      Pipe (spanProc ⟨2, 10⟩ (SdkSpan Str)) (jsonSpanCfg wf (.http true) [] [1] plainHit) ⟨attributes [], none⟩ s ⟨true, ⟨attributes [], none⟩⟩ log ∧ AllOk log ∧
      (0, Sdk.Bsp.Ret.result .ok) ∈ s.returned ∧ s.atCall 0 = (2, 0) ∧ s.accepted = [exNanSpan, exGoodSpan] ∧ FiniteSpan exGoodSpan ∧
      arrived (readSpansText cast rf) (requests log) = [] := by
  obtain ⟨s, log, h1, h2, h3, h4, h5, h6⟩ := json_two (wf := wf) exNanSpan exGoodSpan
  refine ⟨s, log, h1, h2, h3, h4, h5, exGood_finite, ?_⟩
  obtain ⟨_, bs, hb, hq, _⟩ := pipe_requests h1
  have hr : ∀ {bs : List (List (SdkSpan Str))} {qs : List (Exporter.Request Str)} {R : List (SdkSpan Str) → Exporter.Request Str → Prop},
      List.Forall₂ R bs qs → ∀ q ∈ qs, ∃ b ∈ bs, R b q := by
    intro bs qs R h
    induction h with
    | nil => intro q hq; cases hq
    | cons h _ ih =>
      intro q hq
      rcases List.mem_cons.1 hq with rfl | hq
      · exact ⟨_, by simp, h⟩
      · obtain ⟨b, h1, h2⟩ := ih q hq
        exact ⟨b, by simp [h1], h2⟩
  have hsub : List.Sublist bs [[exNanSpan, exGoodSpan]] := h6 ▸ hb
  have hall : ∀ q ∈ requests log, readSpansText cast rf q.body = none := by
    intro q hm
    obtain ⟨b, hbm, o, ho⟩ := hr hq q hm
    have hb : b = [exNanSpan, exGoodSpan] := by simpa using hsub.subset hbm
    subst hb
    have hg : (jsonSpanCfg wf (.http true) [] [1] plainHit o).message ⟨attributes [], none⟩ [exNanSpan, exGoodSpan] =
        groupSpans plainHit ⟨id, fun _ => .refl _⟩ ⟨attributes [], none⟩ [exNanSpan, exGoodSpan] := by
      show groupSpans plainHit o _ _ = _
      have : o.run (groupBy plainHit (·.scope) [exNanSpan, exGoodSpan]) = groupBy plainHit (·.scope) [exNanSpan, exGoodSpan] := by
        have hp := o.perm (groupBy plainHit (·.scope) [exNanSpan, exGoodSpan])
        have e : groupBy plainHit (·.scope) [exNanSpan, exGoodSpan] = [(exNanSpan.scope, [exNanSpan, exGoodSpan])] := rfl
        rw [e] at hp ⊢
        exact List.perm_singleton.1 hp
      rw [groupSpans, this]; rfl
    rw [hg] at ho
    have ho : JsonText.body wf _ = q.body := Option.some.inj ho
    rw [← ho, readSpansText, JsonText.readText_body wf rf hx.number, exNan_unread]
    rfl
  rw [arrived, List.flatMap_eq_nil_iff]
  intro q hm
  rw [hall q hm]

end Otel.EndToEnd
