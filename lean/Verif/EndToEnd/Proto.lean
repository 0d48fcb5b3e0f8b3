import Verif.EndToEnd.Delivery
import Verif.EndToEnd.Counter
import Verif.Otlp.ProtoMetrics
import Mathlib.Data.List.Lex
import Mathlib.Data.Char
/-!
# C91 and C92 over the bytes of OTLP in protobuf (C96)

`Verif.EndToEnd.Delivery` has the wire format as a parameter. Here it is the protobuf of `Verif.Otlp.Proto`: the collector gets bytes, reads them, and has the spans
and the log records; so for the counter of `Verif.EndToEnd.Counter`.
-/

namespace Otel.EndToEnd
open Rust Otel.Otlp
open Common (Val Scope)

/-- The exporter of spans in protobuf, over either transport. -/
def protoSpanCfg (t : Exporter.Transport) (headers : Prop.Http.HeaderMap) (contentType : List UInt8) (hit : Scope Str → Scope Str → Bool)
    (o : Order (Scope Str × List (SdkSpan Str))) : Exporter.Cfg (Res Str) (List (SdkSpan Str)) (PRequest Str (PSpan Str)) (List Byte) :=
  ⟨.traces, t, headers, contentType, groupSpans hit o, Proto.spanBytes⟩

/-- The exporter of log records in protobuf. -/
def protoLogCfg (t : Exporter.Transport) (headers : Prop.Http.HeaderMap) (contentType : List UInt8) (o : Order (String × List (SdkLog Str × Scope Str))) :
    Exporter.Cfg (Res Str) (List (SdkLog Str × Scope Str)) (Option (PRequest Str (PLog Str))) (List Byte) :=
  ⟨.logs, t, headers, contentType, groupLogs o, Proto.logBytes⟩

variable {t : Exporter.Transport} {headers : Prop.Http.HeaderMap} {contentType : List UInt8}

theorem protoSpanCfg_ok {hit : Scope Str → Scope Str → Bool} (hk : ∀ a b, hit a b = true → SameScope a b) (resource : List (Str × Val)) (url : Option String) :
    SpanCfg hit ⟨attributes resource, url⟩ Proto.readSpans (protoSpanCfg t headers contentType hit) :=
  ⟨hk, fun _ => rfl, fun _ => rfl, fun _ _ _ h => Proto.spanBytes_read h⟩

theorem protoLogCfg_ok (resource : List (Str × Val)) (url : Option String) :
    LogCfg ⟨attributes resource, url⟩ (fun x => Proto.ShallowRecord x.1) Proto.readLogs (protoLogCfg t headers contentType) :=
  ⟨fun _ => rfl, fun _ => rfl, fun _ => rfl, fun _ _ _ _ hb hm h => Proto.logBytes_read hb hm h⟩

/-- C91 and C96, spans: whatever the schedule, and whatever the network does, each span the processor accepted arrives at most once in the bytes the collector
gets, reads as it was recorded, and nothing else arrives. -/
theorem spans_arrive_in_protobuf {hit : Scope Str → Scope Str → Bool} (hk : ∀ a b, hit a b = true → SameScope a b) {resource : List (Str × Val)} {url : Option String} {cfg : Sdk.Bsp.Cfg}
    {s : Sdk.Bsp.State (SdkSpan Str)} {e : Exporter.St (Res Str)} {log : List (Sending (List Byte))}
    (h : Pipe (spanProc cfg (SdkSpan Str)) (protoSpanCfg t headers contentType hit) ⟨attributes resource, url⟩ s e log) (hp : ∀ x ∈ s.accepted, Plain x) :
    ∃ l l', List.Sublist l s.accepted ∧ l'.Perm l ∧ List.Forall₂ (ReadsAsSpan ⟨attributes resource, url⟩) l' (arrived Proto.readSpans (requests log)) :=
  spans_arrive_once (protoSpanCfg_ok hk resource url) h hp

/-- C91 and C96, spans: after a flush or a shutdown that has returned a result, all the spans that had been accepted are in the bytes the collector got. Missing:
more than one batch waiting, as `flushed_spans_arrive_partial`. -/
theorem flushed_spans_arrive_in_protobuf_partial {hit : Scope Str → Scope Str → Bool} (hk : ∀ a b, hit a b = true → SameScope a b) {resource : List (Str × Val)} {url : Option String} {cfg : Sdk.Bsp.Cfg}
    {s : Sdk.Bsp.State (SdkSpan Str)} {e : Exporter.St (Res Str)} {log : List (Sending (List Byte))}
    (h : Pipe (spanProc cfg (SdkSpan Str)) (protoSpanCfg t headers contentType hit) ⟨attributes resource, url⟩ s e log) (hp : ∀ x ∈ s.accepted, Plain x)
    (hok : AllOk log) (tok : Nat) (r : Sdk.Bsp.Res) (hr : (tok, Sdk.Bsp.Ret.result r) ∈ s.returned)
    (hfit : (s.atCall tok).1 ≤ (s.atCall tok).2 + cfg.maxBatch) :
    ∃ l l', s.accepted.take (s.atCall tok).1 <+: l ∧ l <+: s.accepted ∧ l'.Perm l ∧ List.Forall₂ (ReadsAsSpan ⟨attributes resource, url⟩) l' (arrived Proto.readSpans (requests log)) :=
  flushed_spans_arrive_partial (protoSpanCfg_ok hk resource url) h hp hok tok r hr hfit

/-- C91 and C96, log records that are at most 31 lists and maps deep. -/
theorem logs_arrive_in_protobuf_partial {resource : List (Str × Val)} {url : Option String} {cfg : Sdk.Bsp.Cfg}
    {s : Logs.Blp.State (SdkLog Str × Scope Str)} {e : Exporter.St (Res Str)} {log : List (Sending (List Byte))}
    (h : Pipe (logProc cfg (SdkLog Str × Scope Str)) (protoLogCfg t headers contentType) ⟨attributes resource, url⟩ s e log)
    (hp : ∀ x ∈ s.accepted, Dated x.1 ∧ Proto.ShallowRecord x.1) :
    ∃ l l', List.Sublist l s.accepted ∧ l'.Perm l ∧ List.Forall₂ (ReadsAsLog ⟨attributes resource, url⟩) l' (arrived Proto.readLogs (requests log)) :=
  logs_arrive_once (protoLogCfg_ok resource url) h hp

/-- C91 and C96, log records, after a flush or a shutdown. -/
theorem flushed_logs_arrive_in_protobuf_partial {resource : List (Str × Val)} {url : Option String} {cfg : Sdk.Bsp.Cfg} (hcap : cfg.maxQueue < 2 ^ 64)
    {s : Logs.Blp.State (SdkLog Str × Scope Str)} {e : Exporter.St (Res Str)} {log : List (Sending (List Byte))}
    (h : Pipe (logProc cfg (SdkLog Str × Scope Str)) (protoLogCfg t headers contentType) ⟨attributes resource, url⟩ s e log)
    (hp : ∀ x ∈ s.accepted, Dated x.1 ∧ Proto.ShallowRecord x.1) (hok : AllOk log) (tok : Nat) (r : Sdk.Bsp.Res)
    (hr : (tok, Sdk.Bsp.Ret.result r, 0) ∈ s.returned) :
    ∃ l l', s.accepted.take (s.atCall tok) <+: l ∧ l <+: s.accepted ∧ l'.Perm l ∧
      List.Forall₂ (ReadsAsLog ⟨attributes resource, url⟩) l' (arrived Proto.readLogs (requests log)) :=
  flushed_logs_arrive_partial (protoLogCfg_ok resource url) hcap h hp hok tok r hr

/-- The hypotheses hold in a case: two spans, a flush, every export answered, and the bytes are not too many. -/
example : ∃ (s : Sdk.Bsp.State (SdkSpan Str)) (log : List (Sending (List Byte))),
    Pipe (spanProc ⟨2, 10⟩ (SdkSpan Str)) (protoSpanCfg (.http true) [] [1] plainHit) ⟨attributes [], none⟩ s ⟨true, ⟨attributes [], none⟩⟩ log ∧ AllOk log ∧
      (0, Sdk.Bsp.Ret.result .ok) ∈ s.returned ∧ s.atCall 0 = (2, 0) ∧ s.accepted = [Json.jsonSpan, Json.jsonSpan] := by
  let fin : List (Sdk.Bsp.Action (SdkSpan Str)) := [.call 0 (.onEnd Json.jsonSpan), .thread 0, .thread 0, .thread 0]
  have h : (Sdk.Bsp.runAll ⟨2, 10⟩ Sdk.Bsp.State.init (fin ++ fin ++ [.call 1 .forceFlush, .thread 1, .thread 1, .take,
      .work true, .work true, .work true, .work true, .work true, .thread 1])).map (fun s => (s.returned, s.atCall 0, s.accepted, s.exported)) =
      some ([(0, Sdk.Bsp.Ret.result .ok)], (2, 0), [Json.jsonSpan, Json.jsonSpan], [[Json.jsonSpan, Json.jsonSpan]]) := rfl
  obtain ⟨s, hs, he⟩ := Option.map_eq_some_iff.1 h
  simp only [Prod.mk.injEq] at he
  obtain ⟨log, hp, hok⟩ := span_pipe_of_run (c := protoSpanCfg (.http true) [] [1] plainHit) (res := (⟨attributes [], none⟩ : Res Str)) ⟨true, some ⟨200, 0⟩⟩
    ⟨id, fun _ => .refl _⟩ (fun b hb => by
      rw [he.2.2.2] at hb
      rw [List.mem_singleton.1 hb]
      decide +kernel) _ (by intro b hb; simpa [fin] using hb) .init (by intro x hx; simp at hx) hs
  exact ⟨s, log, hp, hok, by rw [he.1]; simp, he.2.1, he.2.2.1⟩

/-! ## The counter -/

/-- The exporter of metrics in protobuf. -/
def protoMetricCfg (t : Exporter.Transport) (headers : Prop.Http.HeaderMap) (contentType : List UInt8) (cast : Cast) :
    Exporter.Cfg Unit (Batch Str) (PRequest Str (PMetric Str)) (List Byte) :=
  ⟨.metrics, t, headers, contentType, fun _ => metricsMessage cast, Proto.metricBytes⟩

theorem protoMetricCfg_ok (cast : Cast) : MetricCfg cast Proto.readMetrics (protoMetricCfg t headers contentType cast) := by
  refine ⟨rfl, rfl, fun b y h => Proto.metricBytes_read ?_ h⟩
  intro s hs m hm ps st tm temp hd p hp
  obtain ⟨g, _, rfl⟩ := List.mem_map.1 hs
  obtain ⟨x, _, rfl⟩ := List.mem_map.1 hm
  simp only at hd
  cases hx : x.data.data with
  | gauge a b c => rw [hx] at hd; cases hd
  | sum a b c d e => rw [hx] at hd; cases hd
  | histogram a b c d => rw [hx] at hd; cases hd
  | exponentialHistogram a b c d =>
    rw [hx] at hd
    cases hd
    obtain ⟨q, _, hq⟩ := List.mem_filterMap.1 hp
    cases q with
    | num _ => cases hq
    | hist _ => cases hq
    | expo q =>
      cases hq
      show (0#64) ≠ _
      decide

variable {V : Type} [DecidableEq V]

/-- C92 and C96: for every schedule of threads and collections, when no collection is running and every export was answered with success, what the collector reads
from the bytes for the counter and what is still in the store add up to everything recorded. Missing: 2^63 and more, as `counter_arrives_partial`. -/
theorem counter_arrives_in_protobuf_partial {cc : Metrics.Conc.Cfg Str V (BitVec 64) (BitVec 64)} (hagg : cc.agg = Metrics.increment (BitVec 64)) (hd : cc.delta = true)
    {val : V → Val} {dflt : Scope Str} {res : ResVal Str} {ci : CounterId Str} {cast : Cast} (ht : Exporter.TellsStatus (protoMetricCfg t headers contentType cast))
    {s : Store Str V} {e : Exporter.St Unit} {log : List (Sending (List Byte))} (h : Counted cc val dflt res ci (protoMetricCfg t headers contentType cast) s e log)
    (hidle : s.coll = .idle) (hok : AllOk log) (hbound : recorded s < 2 ^ 63) :
    ((counterPoints Proto.readMetrics ci.name (requests log)).map intOf).sum + inStore s = recorded s :=
  counter_arrives_partial hagg hd (protoMetricCfg_ok cast) ht h hidle hok hbound

/-- C92 and C96: whatever the network does, the bytes the collector gets never hold more than was recorded, and no point is negative. -/
theorem counter_never_more_in_protobuf {cc : Metrics.Conc.Cfg Str V (BitVec 64) (BitVec 64)} (hagg : cc.agg = Metrics.increment (BitVec 64)) (hd : cc.delta = true)
    {val : V → Val} {dflt : Scope Str} {res : ResVal Str} {ci : CounterId Str} {cast : Cast} {s : Store Str V} {e : Exporter.St Unit}
    {log : List (Sending (List Byte))} (h : Counted cc val dflt res ci (protoMetricCfg t headers contentType cast) s e log)
    (hidle : s.coll = .idle) (hbound : recorded s < 2 ^ 63) :
    ((counterPoints Proto.readMetrics ci.name (requests log)).map intOf).sum ≤ recorded s ∧ ∀ q ∈ counterPoints Proto.readMetrics ci.name (requests log), 0 ≤ intOf q :=
  counter_never_more hagg hd (protoMetricCfg_ok cast) h hidle hbound

def exProtoCounter : CounterId Str := ⟨⟨"lib", none, none, []⟩, "requests", "", ""⟩
def exProtoAround : Around Str := ⟨[], [], 1, 2, [], [], ⟨⟨[], none⟩, []⟩⟩
def exProtoStore : Metrics.Conc.Cfg Str Bool (BitVec 64) (BitVec 64) := ⟨Metrics.stableSorter, Metrics.increment (BitVec 64), 2000, ([], true), true⟩
def exProtoCount : List (Metrics.Conc.Action Str Bool (BitVec 64)) :=
  [.call 0 5 [(['k'], true)], .thread 0, .thread 0, .call 1 7 [], .thread 1, .collect, .collector [], .thread 1, .collector [([(['k'], true)], 0)], .collector [], .collector []]

/-- The hypotheses hold in a case: 5 arrives in the bytes, 7 is in the store. -/
theorem counter_in_protobuf_example : ∃ (s : Store Str Bool) (log : List (Sending (List Byte))),
    Counted exProtoStore Val.bool ⟨"", none, none, []⟩ ⟨[], none⟩ exProtoCounter (protoMetricCfg (.http true) [] [1] ⟨id, id⟩) s ⟨true, ()⟩ log ∧ s.coll = .idle ∧ AllOk log ∧
      recorded s = 12 ∧ inStore s = 7 := by
  have h : (Metrics.Conc.runAll exProtoStore (.init exProtoStore) exProtoCount).map (fun s => (s.applied, s.hist, s.noHist, s.done.map (·.points)))
      = some ([(0, 5, [(['k'], true)]), (1, 7, [])], [], [(1, 7)], [[([(['k'], true)], 5)]]) := by rfl
  have h' : (Metrics.Conc.runAll exProtoStore (.init exProtoStore) exProtoCount).map (fun s => match s.coll with | .idle => true | _ => false) = some true := by rfl
  obtain ⟨s, hs, he⟩ := Option.map_eq_some_iff.1 h
  obtain ⟨s2, hs2, he2⟩ := Option.map_eq_some_iff.1 h'
  rw [hs] at hs2
  cases hs2
  simp only [Prod.mk.injEq] at he
  obtain ⟨log, hp, hl⟩ := counted_of_run (val := Val.bool) (dflt := ⟨"", none, none, []⟩) (res := ⟨[], none⟩) (ci := exProtoCounter)
    (c := protoMetricCfg (.http true) [] [1] ⟨id, id⟩) ⟨true, some ⟨200, 0⟩⟩ exProtoAround (by constructor <;> (intro i hi; cases hi)) exProtoCount .init hs
  refine ⟨s, log, hp, ?_, fun x hx => ?_, by rw [recorded, he.1]; rfl, by rw [inStore, he.2.1, he.2.2.1]; rfl⟩
  · split at he2
    · assumption
    · cases he2
  · rcases hl x hx with hx | ⟨r, hr, rfl⟩
    · cases hx
    · have hr : r.points ∈ s.done.map (·.points) := List.mem_map_of_mem hr
      rw [he.2.2.2, List.mem_singleton] at hr
      rw [hr]
      decide +kernel

end Otel.EndToEnd
