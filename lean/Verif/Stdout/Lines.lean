import Verif.Otlp.Metrics
/-!
# What the stdout exporters print (`opentelemetry-stdout/src`), C94

Each `println!` is one line here. The text that `Display` and `Debug` of other crates give to values, times and numbers is a parameter; a value can contain line breaks.
-/

namespace Otel.Stdout
open Otel.Otlp
open Common (Val Scope)
open Otel.Metrics (Temporality)

variable {K : Type}

/-- Texts of values (`{}` and `{:?}`), of times (chrono's format) and of numbers. -/
structure Fmt (K : Type) where
  key : K → String
  show_ : Val → String
  dbg : Val → String
  str : Rust.Str → String
  quoted : String → String
  time : Int → String
  num : Num → String
  float : BitVec 64 → String
  traceId : TraceId → String
  spanId : SpanId → String
  flags : TraceFlags → String
  kind : Sdk.SpanKind → String
  status : Sdk.Status → String
  infinity : String
  scope : Scope K → String
  lval : LVal K → String
  severity : Severity → String

/-- A numbered list: `for (i, x) in l.enumerate()` with several lines for each. -/
def numbered {X : Type} (lines : Nat → X → List String) (l : List X) : List String := l.zipIdx.flatMap fun p => lines p.2 p.1

/-- A header before the first of some lines. -/
def headed {X : Type} (header : String) (line : X → String) : List X → List String
  | [] => []
  | l => header :: l.map line

/-- The scope of a span or a metric. trace/exporter.rs:76-94, metrics/exporter.rs:85-101 -/
def scopeLines (f : Fmt K) (name : String) (s : Scope K) : List String :=
  ["\t\tName         : " ++ name] ++ (match s.version with | some v => ["\t\tVersion  : " ++ f.quoted v] | none => []) ++
    (match s.schemaUrl with | some u => ["\t\tSchemaUrl: " ++ f.quoted u] | none => []) ++
    headed "\t\tScope Attributes:" (fun kv => "\t\t\t ->  " ++ f.key kv.1 ++ ": " ++ f.show_ kv.2) s.attrs

/-- An attribute of a span, an event or a link. trace/exporter.rs:116, 132, 148 -/
def attrLine (f : Fmt K) (kv : K × Val) : String := "\t\t ->  " ++ f.key kv.1 ++ ": " ++ f.dbg kv.2

/-- One event. trace/exporter.rs:119-134 -/
def eventLines (f : Fmt K) (i : Nat) (e : Sdk.Event (K × Val)) : List String :=
  (if i = 0 then ["\tEvents:"] else []) ++ ["\tEvent #" ++ toString i, "\tName      : " ++ f.str e.name, "\tTimestamp : " ++ f.time e.timestamp] ++
    headed "\tAttributes:" (attrLine f) e.attributes

/-- One link. trace/exporter.rs:136-150 -/
def linkLines (f : Fmt K) (i : Nat) (l : Sdk.Link (K × Val)) : List String :=
  (if i = 0 then ["\tLinks:"] else []) ++ ["\tLink #" ++ toString i, "\tTraceId: " ++ f.traceId l.spanContext.traceId, "\tSpanId : " ++ f.spanId l.spanContext.spanId] ++
    headed "\tAttributes:" (attrLine f) l.attributes

/-- The lines of a span before its attributes. trace/exporter.rs:74-108 -/
def spanHead (f : Fmt K) (i : Nat) (x : SdkSpan K) : List String :=
  ["Span #" ++ toString i, "\tInstrumentation Scope"] ++ scopeLines f (f.quoted x.scope.name) x.scope ++
    ["", "\tName        : " ++ f.str x.data.name, "\tTraceId     : " ++ f.traceId x.spanContext.traceId, "\tSpanId      : " ++ f.spanId x.spanContext.spanId,
      "\tTraceFlags  : " ++ f.flags x.spanContext.flags, "\tParentSpanId: " ++ f.spanId x.data.parentSpanId, "\tKind        : " ++ f.kind x.data.spanKind,
      "\tStart time: " ++ f.time x.data.startTime, "\tEnd time: " ++ f.time x.data.endTime, "\tStatus: " ++ f.status x.data.status]

/-- One span. trace/exporter.rs:74-150 -/
def spanLines (f : Fmt K) (i : Nat) (x : SdkSpan K) : List String :=
  spanHead f i x ++ headed "\tAttributes:" (attrLine f) x.data.attributes ++ numbered (eventLines f) x.data.events.events ++ numbered (linkLines f) x.data.links.links

/-- `print_spans`. trace/exporter.rs:72-152 -/
def printSpans (f : Fmt K) (batch : List (SdkSpan K)) : List String := numbered (spanLines f) batch

/-- An attribute of a data point. metrics/exporter.rs:204, 215, 235 -/
def pointAttr (f : Fmt K) (kv : K × Val) : String := "\t\t\t\t ->  " ++ f.key kv.1 ++ ": " ++ f.show_ kv.2

/-- One point of a sum or a gauge. metrics/exporter.rs:198-218 -/
def numLines (f : Fmt K) (i : Nat) (p : NumPoint K) : List String :=
  ["\t\tDataPoint #" ++ toString i, "\t\t\tValue        : " ++ f.num p.value, "\t\t\tAttributes   :"] ++ p.attributes.map (pointAttr f)

/-- The buckets of a point: lower bound (none for minus infinity), upper bound (none for infinity), count. A count that is missing is 0. metrics/exporter.rs:239-250 -/
def bucketRows (bounds counts : List (BitVec 64)) : List (Option (BitVec 64) × Option (BitVec 64) × BitVec 64) :=
  let r := bounds.zipIdx.foldl (fun (acc : List (Option (BitVec 64) × Option (BitVec 64) × BitVec 64) × Option (BitVec 64)) p =>
    (acc.1 ++ [(acc.2, some p.1, counts.getD p.2 0)], some p.1)) ([], none)
  r.1 ++ [(r.2, none, counts.getD bounds.length 0)]

/-- A row of the buckets. metrics/exporter.rs:242, 250; the last row has no space before it. -/
def bucketLine (f : Fmt K) (r : Option (BitVec 64) × Option (BitVec 64) × BitVec 64) : String :=
  let lower := match r.1 with | some b => f.float b | none => "-" ++ f.infinity
  match r.2.1 with
  | some u => "\t\t\t\t " ++ lower ++ " to " ++ f.float u ++ " : " ++ toString r.2.2.toNat
  | none => "\t\t\t\t" ++ lower ++ " to +Infinity : " ++ toString r.2.2.toNat

/-- One point of a histogram. metrics/exporter.rs:220-252 -/
def histLines (f : Fmt K) (i : Nat) (p : HistPoint K) : List String :=
  ["\t\tDataPoint #" ++ toString i, "\t\t\tCount        : " ++ toString p.count.toNat, "\t\t\tSum          : " ++ f.num p.sum] ++
    (match p.min with | some m => ["\t\t\tMin          : " ++ f.num m] | none => []) ++ (match p.max with | some m => ["\t\t\tMax          : " ++ f.num m] | none => []) ++
    ["\t\t\tAttributes   :"] ++ p.attributes.map (pointAttr f) ++ ["\t\t\tBuckets"] ++ (bucketRows p.bounds p.bucketCounts).map (bucketLine f)

/-- The temporality. metrics/exporter.rs:143-147, 179-183 -/
def tempLine : Temporality → String
  | .cumulative => "\t\tTemporality  : Cumulative"
  | _ => "\t\tTemporality  : Delta"

/-- `print_info`, `print_gauge`, `print_sum`, `print_histogram`. metrics/exporter.rs:109-196; nothing is printed of an exponential histogram. -/
def dataLines (f : Fmt K) : MData K → List String
  | .gauge ps s t => ["\t\tType         : Gauge", "\t\tGauge DataPoints"] ++ (match s with | some s => ["\t\tStartTime    : " ++ f.time s] | none => []) ++
      ["\t\tEndTime      : " ++ f.time t] ++ numbered (numLines f) ps
  | .sum ps s t temp mono => ["\t\tType         : Sum", "\t\tSum DataPoints", "\t\tMonotonic    : " ++ toString mono, tempLine temp,
      "\t\tStartTime    : " ++ f.time s, "\t\tEndTime      : " ++ f.time t] ++ numbered (numLines f) ps
  | .histogram ps s t temp => ["\t\tType         : Histogram", tempLine temp, "\t\tStartTime    : " ++ f.time s, "\t\tEndTime      : " ++ f.time t,
      "\t\tHistogram DataPoints"] ++ numbered (histLines f) ps
  | .expo _ _ _ _ => ["\t\tType         : Exponential Histogram"]

/-- One metric. metrics/exporter.rs:103-136 -/
def metricLines (f : Fmt K) (i : Nat) (m : SdkMetric K) : List String :=
  ["Metric #" ++ toString i, "\t\tName         : " ++ m.name, "\t\tDescription  : " ++ m.description, "\t\tUnit         : " ++ m.unit] ++ dataLines f m.data

/-- One scope with its metrics. metrics/exporter.rs:84-137 -/
def scopeMetricLines (f : Fmt K) (i : Nat) (s : Scope K × List (SdkMetric K)) : List String :=
  ["\tInstrumentation Scope #" ++ toString i] ++ scopeLines f s.1.name s.1 ++ numbered (metricLines f) s.2

/-- `print_metrics`. metrics/exporter.rs:82-138 -/
def printMetrics (f : Fmt K) (ms : List (Scope K × List (SdkMetric K))) : List String := numbered (scopeMetricLines f) ms

/-- A line for a field that is set. -/
def opt {X : Type} (o : Option X) (line : X → List String) : List String :=
  match o with
  | some x => line x
  | none => []

/-- One log record. logs/exporter.rs:71-115 -/
def logLines (f : Fmt K) (i : Nat) (x : SdkLog K × Scope K) : List String :=
  ["Log #" ++ toString i, "\t Instrumentation Scope: " ++ f.scope x.2] ++ opt x.1.eventName (fun n => ["\t EventName: " ++ f.quoted (f.str n)]) ++
    opt x.1.target (fun t => ["\t Target (Scope): " ++ f.quoted (f.str t)]) ++
    opt x.1.traceContext (fun c => ["\t TraceId: " ++ f.traceId c.traceId, "\t SpanId: " ++ f.spanId c.spanId] ++ opt c.traceFlags fun g => ["\t TraceFlags: " ++ f.flags g]) ++
    opt x.1.timestamp (fun t => ["\t Timestamp: " ++ f.time t]) ++ opt x.1.observedTimestamp (fun t => ["\t Observed Timestamp: " ++ f.time t]) ++
    opt x.1.severityText (fun t => ["\t SeverityText: " ++ f.quoted (f.str t)]) ++ opt x.1.severityNumber (fun n => ["\t SeverityNumber: " ++ f.severity n]) ++
    opt x.1.body (fun b => ["\t Body: " ++ f.lval b]) ++ ["\t Attributes:"] ++ x.1.attributesIter.map fun kv => "\t\t ->  " ++ f.str kv.1 ++ ": " ++ f.lval kv.2

/-- `print_logs`. logs/exporter.rs:70-116 -/
def printLogs (f : Fmt K) (batch : List (SdkLog K × Scope K)) : List String := numbered (logLines f) batch

/-! ## Specification -/

/-- `l` is printed as one run of lines in `out`. -/
def Printed (l out : List String) : Prop := ∃ a b, out = a ++ l ++ b

/-! ## Lemmas -/

theorem numbered_append {X : Type} (lines : Nat → X → List String) (a b : List X) :
    numbered lines (a ++ b) = numbered lines a ++ (b.zipIdx a.length).flatMap fun p => lines p.2 p.1 := by
  simp [numbered, List.zipIdx_append]

theorem numbered_printed {X : Type} (lines : Nat → X → List String) (a b : List X) (x : X) : Printed (lines a.length x) (numbered lines (a ++ x :: b)) := by
  refine ⟨numbered lines a, (b.zipIdx (a.length + 1)).flatMap fun p => lines p.2 p.1, ?_⟩
  rw [numbered_append]
  simp

theorem printed_trans {a b c : List String} (h : Printed a b) (h' : Printed b c) : Printed a c := by
  obtain ⟨p, q, rfl⟩ := h
  obtain ⟨u, v, rfl⟩ := h'
  exact ⟨u ++ p, q ++ v, by simp⟩

theorem printed_mid (a b c : List String) : Printed b (a ++ b ++ c) := ⟨a, c, rfl⟩

end Otel.Stdout
