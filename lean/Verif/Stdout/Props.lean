import Verif.Stdout.Exporter
/-!
# What is on the terminal after exports to standard output, C94

Everything of a batch is printed, in its order; except what the printing leaves out. Lines of exports that run at the same time mix, and then the text does not say
which span a line belongs to.
-/

namespace Otel.Stdout
open Otel.Otlp
open Common (Val Scope)

variable {B K : Type}

/-! ## The three exporters -/

/-- The lines of the resource. trace/exporter.rs:46-53, logs/exporter.rs:46-52, metrics/exporter.rs:50-57; logs have a space before the schema url. -/
def resourceLines (f : Fmt K) (space : String) (schemaUrl : Option String) (attrs : List (K × Val)) : List String :=
  ["Resource"] ++ opt schemaUrl (fun u => ["\t" ++ space ++ "Resource SchemaUrl: " ++ f.quoted u]) ++ attrs.map fun kv => "\t ->  " ++ f.key kv.1 ++ "=" ++ f.dbg kv.2

/-- A resource: schema url and attributes. -/
structure Origin (K : Type) where
  schemaUrl : Option String
  attrs : List (K × Val)

/-- `SpanExporter`. trace/exporter.rs:34-60 -/
def spanExporter (f : Fmt K) (r : Origin K) : Kind (List (SdkSpan K)) := ⟨"Spans", fun _ => resourceLines f "" r.schemaUrl r.attrs, printSpans f, true⟩

/-- `LogExporter`. logs/exporter.rs:34-58 -/
def logExporter (f : Fmt K) (r : Origin K) : Kind (List (SdkLog K × Scope K)) := ⟨"Logs", fun _ => resourceLines f " " r.schemaUrl r.attrs, printLogs f, true⟩

/-- `MetricExporter`; a batch brings its resource. metrics/exporter.rs:45-61 -/
def metricExporter (f : Fmt K) : Kind (Origin K × List (Scope K × List (SdkMetric K))) :=
  ⟨"Metrics", fun b => resourceLines f "" b.1.schemaUrl b.1.attrs, fun b => printMetrics f b.2, false⟩

/-! ## Exports one after the other -/

/-- The exporter after exports that do not overlap. -/
def allAlone (k : Kind B) (s : State B) (bs : List B) : State B := bs.foldl (afterAlone k) s

/-- What stands on the terminal after exports that do not overlap. -/
def wholeText (k : Kind B) : List B → List String
  | [] => []
  | b :: bs => expected k true b ++ bs.flatMap (expected k (!k.once))

theorem runAll_append (k : Kind B) (as cs : List (Action B)) {s s' : State B} (h : runAll k s as = some s') : runAll k s (as ++ cs) = runAll k s' cs := by
  induction as generalizing s with
  | nil => injection h with h; subst h; rfl
  | cons a as ih =>
    rw [List.cons_append, runAll]
    rw [runAll] at h
    cases hs : step k s a with
    | none => rw [hs] at h; cases h
    | some s1 => rw [hs] at h; exact ih h

theorem reachable_runAll (k : Kind B) (as : List (Action B)) {s s' : State B} (h : Reachable k s) (hr : runAll k s as = some s') : Reachable k s' := by
  induction as generalizing s with
  | nil => injection hr with hr; exact hr ▸ h
  | cons a as ih =>
    rw [runAll] at hr
    cases hs : step k s a with
    | none => rw [hs] at hr; cases hr
    | some s1 => rw [hs] at hr; exact ih (.step h hs) hr

theorem allAlone_runs (k : Kind B) (bs : List B) (s : State B) (hs : s.isShutdown = false) : ∃ as, runAll k s as = some (allAlone k s bs) := by
  induction bs generalizing s with
  | nil => exact ⟨[], rfl⟩
  | cons b bs ih =>
    obtain ⟨as, has⟩ := ih (afterAlone k s b) hs
    exact ⟨wholeExport k s b ++ as, by rw [runAll_append k _ _ (export_alone k s b hs)]; exact has⟩

theorem terminal_afterAlone (k : Kind B) (s : State B) (b : B) : terminal (afterAlone k s b) = terminal s ++ expected k (!(k.once && s.emitted)) b := by
  simp [terminal, afterAlone, Function.comp_def]

theorem terminal_later (k : Kind B) (bs : List B) (s : State B) (h : s.emitted = true ∨ k.once = false) :
    terminal (allAlone k s bs) = terminal s ++ bs.flatMap (expected k (!k.once)) := by
  induction bs generalizing s with
  | nil => simp [allAlone]
  | cons b bs ih =>
    rw [allAlone, List.foldl_cons]
    have h' : (afterAlone k s b).emitted = true ∨ k.once = false := by
      rcases h with h | h
      · left; simp [afterAlone, h]
      · exact .inr h
    have h2 : (!(k.once && s.emitted)) = !k.once := by rcases h with h | h <;> simp [h]
    rw [show bs.foldl (afterAlone k) (afterAlone k s b) = allAlone k (afterAlone k s b) bs from rfl, ih _ h', terminal_afterAlone, h2]
    simp

/-- C94: exports that do not overlap all return Ok, and the text on the terminal is one block for each of them in their order; the resource stands in the first block
(spans, log records) or in every block (metrics). -/
theorem sequential_text (k : Kind B) (bs : List B) :
    (∃ as, runAll k State.init as = some (allAlone k State.init bs)) ∧ terminal (allAlone k (State.init : State B) bs) = wholeText k bs := by
  refine ⟨allAlone_runs k bs _ rfl, ?_⟩
  cases bs with
  | nil => rfl
  | cons b bs =>
    rw [allAlone, List.foldl_cons, show bs.foldl (afterAlone k) (afterAlone k State.init b) = allAlone k (afterAlone k State.init b) bs from rfl]
    have h' : (afterAlone k (State.init : State B) b).emitted = true ∨ k.once = false := by cases h : k.once <;> simp [afterAlone, h]
    rw [terminal_later k bs _ h', terminal_afterAlone]
    simp [wholeText, State.init, terminal]

/-- C94, spans: the text of exports that do not overlap. The resource is printed by the first. -/
theorem spans_text (f : Fmt K) (r : Origin K) (b : List (SdkSpan K)) (bs : List (List (SdkSpan K))) :
    terminal (allAlone (spanExporter f r) State.init (b :: bs)) =
      ["Spans"] ++ resourceLines f "" r.schemaUrl r.attrs ++ printSpans f b ++ bs.flatMap fun c => "Spans" :: printSpans f c := by
  rw [(sequential_text _ _).2]; simp [wholeText, expected, spanExporter, Function.comp_def, List.flatMap]; rfl

/-- C94, log records: likewise. -/
theorem logs_text (f : Fmt K) (r : Origin K) (b : List (SdkLog K × Scope K)) (bs : List (List (SdkLog K × Scope K))) :
    terminal (allAlone (logExporter f r) State.init (b :: bs)) =
      ["Logs"] ++ resourceLines f " " r.schemaUrl r.attrs ++ printLogs f b ++ bs.flatMap fun c => "Logs" :: printLogs f c := by
  rw [(sequential_text _ _).2]; simp [wholeText, expected, logExporter, List.flatMap]; rfl

/-- C94, metrics: every export prints its resource. -/
theorem metrics_text (f : Fmt K) (bs : List (Origin K × List (Scope K × List (SdkMetric K)))) :
    terminal (allAlone (metricExporter f) State.init bs) =
      bs.flatMap fun c => ["Metrics"] ++ resourceLines f "" c.1.schemaUrl c.1.attrs ++ printMetrics f c.2 := by
  rw [(sequential_text _ _).2]
  cases bs with
  | nil => rfl
  | cons b bs => simp [wholeText, expected, metricExporter, List.flatMap]; rfl

/-! ## Everything of a batch is printed -/

theorem printed_headed {X : Type} (header : String) (line : X → String) (l : List X) (x : X) (h : x ∈ l) : line x ∈ headed header line l := by
  cases l with
  | nil => cases h
  | cons a l => exact List.mem_cons_of_mem _ (List.mem_map_of_mem h)

/-- C94, spans: the lines of every span of a batch stand together, numbered by its place; among them its name, ids, kind, times and status, every attribute, and the
lines of every event and link with all their attributes. -/
theorem spans_printed (f : Fmt K) (a b : List (SdkSpan K)) (x : SdkSpan K) :
    Printed (spanLines f a.length x) (printSpans f (a ++ x :: b)) ∧ Printed (spanHead f a.length x) (spanLines f a.length x) ∧
    (∀ kv ∈ x.data.attributes, attrLine f kv ∈ spanLines f a.length x) ∧
    (∀ l e r, x.data.events.events = l ++ e :: r → Printed (eventLines f l.length e) (spanLines f a.length x)) ∧
    (∀ l e r, x.data.links.links = l ++ e :: r → Printed (linkLines f l.length e) (spanLines f a.length x)) ∧
    (∀ i e, ∀ kv ∈ (e : Sdk.Event (K × Val)).attributes, attrLine f kv ∈ eventLines f i e) ∧
    (∀ i e, ∀ kv ∈ (e : Sdk.Link (K × Val)).attributes, attrLine f kv ∈ linkLines f i e) := by
  refine ⟨numbered_printed _ _ _ _, ⟨[], _, by simp [spanLines]; rfl⟩, ?_, ?_, ?_, ?_, ?_⟩
  · intro kv h
    simp only [spanLines, List.mem_append]
    exact .inl (.inl (.inr (printed_headed _ _ _ _ h)))
  · intro l e r h
    refine printed_trans (numbered_printed (eventLines f) l r e) ?_
    rw [spanLines, h]
    exact ⟨_, _, rfl⟩
  · intro l e r h
    refine printed_trans (numbered_printed (linkLines f) l r e) ?_
    rw [spanLines, h]
    exact ⟨_, [], (List.append_nil _).symm⟩
  · intro i e kv h
    simp only [eventLines, List.mem_append]
    exact .inr (printed_headed _ _ _ _ h)
  · intro i e kv h
    simp only [linkLines, List.mem_append]
    exact .inr (printed_headed _ _ _ _ h)

/-- C94, spans: the name, the ids, the flags, the parent, the kind, the times and the status of a span each have their line, with the text of that field; so does the scope. -/
theorem span_fields_printed (f : Fmt K) (i : Nat) (x : SdkSpan K) :
    "\tName        : " ++ f.str x.data.name ∈ spanLines f i x ∧ "\tTraceId     : " ++ f.traceId x.spanContext.traceId ∈ spanLines f i x ∧
    "\tSpanId      : " ++ f.spanId x.spanContext.spanId ∈ spanLines f i x ∧ "\tTraceFlags  : " ++ f.flags x.spanContext.flags ∈ spanLines f i x ∧
    "\tParentSpanId: " ++ f.spanId x.data.parentSpanId ∈ spanLines f i x ∧ "\tKind        : " ++ f.kind x.data.spanKind ∈ spanLines f i x ∧
    "\tStart time: " ++ f.time x.data.startTime ∈ spanLines f i x ∧ "\tEnd time: " ++ f.time x.data.endTime ∈ spanLines f i x ∧
    "\tStatus: " ++ f.status x.data.status ∈ spanLines f i x ∧ "\t\tName         : " ++ f.quoted x.scope.name ∈ spanLines f i x ∧
    (∀ v, x.scope.version = some v → "\t\tVersion  : " ++ f.quoted v ∈ spanLines f i x) ∧
    (∀ v, x.scope.schemaUrl = some v → "\t\tSchemaUrl: " ++ f.quoted v ∈ spanLines f i x) ∧
    (∀ kv ∈ x.scope.attrs, "\t\t\t ->  " ++ f.key kv.1 ++ ": " ++ f.show_ kv.2 ∈ spanLines f i x) := by
  refine ⟨?_, ?_, ?_, ?_, ?_, ?_, ?_, ?_, ?_, ?_, ?_, ?_, ?_⟩
  all_goals try (simp [spanLines, spanHead]; done)
  · simp [spanLines, spanHead, scopeLines]
  · intro v h; simp [spanLines, spanHead, scopeLines, h]
  · intro v h; simp [spanLines, spanHead, scopeLines, h]
  · intro kv h
    have := printed_headed "\t\tScope Attributes:" (fun kv : K × Val => "\t\t\t ->  " ++ f.key kv.1 ++ ": " ++ f.show_ kv.2) x.scope.attrs kv h
    simp only [spanLines, spanHead, scopeLines, List.mem_append]
    exact .inl (.inl (.inl (.inl (.inr (.inr this)))))

/-- C94, events and links: their names, times and ids each have their line. -/
theorem event_fields_printed (f : Fmt K) (i : Nat) (e : Sdk.Event (K × Val)) (l : Sdk.Link (K × Val)) :
    "\tName      : " ++ f.str e.name ∈ eventLines f i e ∧ "\tTimestamp : " ++ f.time e.timestamp ∈ eventLines f i e ∧
    "\tTraceId: " ++ f.traceId l.spanContext.traceId ∈ linkLines f i l ∧ "\tSpanId : " ++ f.spanId l.spanContext.spanId ∈ linkLines f i l := by
  refine ⟨?_, ?_, ?_, ?_⟩ <;> simp [eventLines, linkLines]

/-- C94, logs: the lines of every record stand together; among them every field that is set and every attribute. -/
theorem logs_printed (f : Fmt K) (a b : List (SdkLog K × Scope K)) (x : SdkLog K × Scope K) :
    Printed (logLines f a.length x) (printLogs f (a ++ x :: b)) ∧
    (∀ v, x.1.body = some v → "\t Body: " ++ f.lval v ∈ logLines f a.length x) ∧
    (∀ n, x.1.eventName = some n → "\t EventName: " ++ f.quoted (f.str n) ∈ logLines f a.length x) ∧
    (∀ n, x.1.target = some n → "\t Target (Scope): " ++ f.quoted (f.str n) ∈ logLines f a.length x) ∧
    (∀ c, x.1.traceContext = some c → "\t TraceId: " ++ f.traceId c.traceId ∈ logLines f a.length x ∧ "\t SpanId: " ++ f.spanId c.spanId ∈ logLines f a.length x) ∧
    (∀ t, x.1.timestamp = some t → "\t Timestamp: " ++ f.time t ∈ logLines f a.length x) ∧
    (∀ t, x.1.observedTimestamp = some t → "\t Observed Timestamp: " ++ f.time t ∈ logLines f a.length x) ∧
    (∀ t, x.1.severityText = some t → "\t SeverityText: " ++ f.quoted (f.str t) ∈ logLines f a.length x) ∧
    (∀ t, x.1.severityNumber = some t → "\t SeverityNumber: " ++ f.severity t ∈ logLines f a.length x) ∧
    (∀ kv ∈ x.1.attributesIter, "\t\t ->  " ++ f.str kv.1 ++ ": " ++ f.lval kv.2 ∈ logLines f a.length x) := by
  refine ⟨numbered_printed _ _ _ _, ?_, ?_, ?_, ?_, ?_, ?_, ?_, ?_, ?_⟩
  · intro v h; simp [logLines, opt, h]
  · intro v h; simp [logLines, opt, h]
  · intro v h; simp [logLines, opt, h]
  · intro v h; constructor <;> simp [logLines, opt, h]
  · intro v h; simp [logLines, opt, h]
  · intro v h; simp [logLines, opt, h]
  · intro v h; simp [logLines, opt, h]
  · intro v h; simp [logLines, opt, h]
  · intro kv h
    rw [logLines]
    exact List.mem_append_right _ (List.mem_map.2 ⟨kv, h, rfl⟩)

/-- C94, metrics: the lines of every metric of every scope stand together. -/
theorem metrics_printed (f : Fmt K) (a b : List (Scope K × List (SdkMetric K))) (s : Scope K) (l r : List (SdkMetric K)) (m : SdkMetric K) :
    Printed (metricLines f l.length m) (printMetrics f (a ++ (s, l ++ m :: r) :: b)) := by
  refine printed_trans ?_ (numbered_printed (scopeMetricLines f) a b (s, l ++ m :: r))
  refine printed_trans (numbered_printed (metricLines f) l r m) ?_
  exact ⟨["\tInstrumentation Scope #" ++ toString a.length] ++ scopeLines f s.name s, [], by rw [List.append_nil, scopeMetricLines]⟩

/-- C94, metrics: the points follow a line that says what points they are. -/
theorem points_headed (f : Fmt K) (i : Nat) (m : SdkMetric K) :
    (∀ ps s t, m.data = .gauge ps s t → ∃ l, metricLines f i m = l ++ numbered (numLines f) ps ∧ "\t\tGauge DataPoints" ∈ l) ∧
    (∀ ps s t temp mono, m.data = .sum ps s t temp mono → ∃ l, metricLines f i m = l ++ numbered (numLines f) ps ∧ "\t\tSum DataPoints" ∈ l) ∧
    (∀ ps s t temp, m.data = .histogram ps s t temp → ∃ l, metricLines f i m = l ++ numbered (histLines f) ps ∧ l.getLast? = some "\t\tHistogram DataPoints") := by
  refine ⟨?_, ?_, ?_⟩
  · intro ps s t h
    refine ⟨["Metric #" ++ toString i, "\t\tName         : " ++ m.name, "\t\tDescription  : " ++ m.description, "\t\tUnit         : " ++ m.unit] ++
      (["\t\tType         : Gauge", "\t\tGauge DataPoints"] ++ (s.toList.map fun s => "\t\tStartTime    : " ++ f.time s) ++
      ["\t\tEndTime      : " ++ f.time t]), ?_, by simp⟩
    rw [metricLines, h]
    cases s <;> simp [dataLines]
  · intro ps s t temp mono h
    refine ⟨_, by rw [metricLines, h, dataLines, ← List.append_assoc], by simp⟩
  · intro ps s t temp h
    refine ⟨_, by rw [metricLines, h, dataLines, ← List.append_assoc], by simp⟩

/-- C94, metrics: the name, the description, the unit, the kind of data, the temporality, whether it is monotonic and the times each have their line. -/
theorem metric_fields_printed (f : Fmt K) (i : Nat) (m : SdkMetric K) :
    "\t\tName         : " ++ m.name ∈ metricLines f i m ∧ "\t\tDescription  : " ++ m.description ∈ metricLines f i m ∧ "\t\tUnit         : " ++ m.unit ∈ metricLines f i m ∧
    (∀ ps s t, m.data = .gauge ps s t → "\t\tType         : Gauge" ∈ metricLines f i m ∧ "\t\tEndTime      : " ++ f.time t ∈ metricLines f i m ∧
      ∀ t', s = some t' → "\t\tStartTime    : " ++ f.time t' ∈ metricLines f i m) ∧
    (∀ ps s t temp mono, m.data = .sum ps s t temp mono → "\t\tType         : Sum" ∈ metricLines f i m ∧ "\t\tStartTime    : " ++ f.time s ∈ metricLines f i m ∧
      "\t\tEndTime      : " ++ f.time t ∈ metricLines f i m ∧ "\t\tMonotonic    : " ++ (if mono then "true" else "false") ∈ metricLines f i m ∧
      (temp = .cumulative → "\t\tTemporality  : Cumulative" ∈ metricLines f i m) ∧ (temp = .delta → "\t\tTemporality  : Delta" ∈ metricLines f i m)) ∧
    (∀ ps s t temp, m.data = .histogram ps s t temp → "\t\tType         : Histogram" ∈ metricLines f i m ∧ "\t\tStartTime    : " ++ f.time s ∈ metricLines f i m ∧
      "\t\tEndTime      : " ++ f.time t ∈ metricLines f i m ∧
      (temp = .cumulative → "\t\tTemporality  : Cumulative" ∈ metricLines f i m) ∧ (temp = .delta → "\t\tTemporality  : Delta" ∈ metricLines f i m)) := by
  refine ⟨by simp [metricLines], by simp [metricLines], by simp [metricLines], ?_, ?_, ?_⟩
  · intro ps s t h
    refine ⟨by simp [metricLines, h, dataLines], by simp [metricLines, h, dataLines], ?_⟩
    intro t' hs
    simp [metricLines, h, dataLines, hs]
  · intro ps s t temp mono h
    refine ⟨by simp [metricLines, h, dataLines], by simp [metricLines, h, dataLines], by simp [metricLines, h, dataLines], ?_, ?_, ?_⟩
    · have e : (if mono then "true" else "false") = toString mono := by cases mono <;> rfl
      rw [e]; simp [metricLines, h, dataLines]
    · rintro rfl; simp [metricLines, h, dataLines, tempLine]
    · rintro rfl; simp [metricLines, h, dataLines, tempLine]
  · intro ps s t temp h
    refine ⟨by simp [metricLines, h, dataLines], by simp [metricLines, h, dataLines], by simp [metricLines, h, dataLines], ?_, ?_⟩
    · rintro rfl; simp [metricLines, h, dataLines, tempLine]
    · rintro rfl; simp [metricLines, h, dataLines, tempLine]

/-- C94, metrics: of sums, gauges and histograms every data point is printed, with its attributes and its value. -/
theorem points_printed (f : Fmt K) (l r : List (NumPoint K)) (p : NumPoint K) (hl hr : List (HistPoint K)) (h : HistPoint K) (s t : Int) (so : Option Int)
    (temp : Otel.Metrics.Temporality) (mono : Bool) :
    Printed (numLines f l.length p) (dataLines f (.sum (l ++ p :: r) s t temp mono)) ∧ Printed (numLines f l.length p) (dataLines f (.gauge (l ++ p :: r) so t)) ∧
    Printed (histLines f hl.length h) (dataLines f (.histogram (hl ++ h :: hr) s t temp)) ∧
    (∀ kv ∈ p.attributes, pointAttr f kv ∈ numLines f l.length p) ∧ "\t\t\tValue        : " ++ f.num p.value ∈ numLines f l.length p ∧
    (∀ kv ∈ h.attributes, pointAttr f kv ∈ histLines f hl.length h) ∧ "\t\t\tSum          : " ++ f.num h.sum ∈ histLines f hl.length h ∧
    "\t\t\tCount        : " ++ toString h.count.toNat ∈ histLines f hl.length h := by
  refine ⟨?_, ?_, ?_, ?_, ?_, ?_, ?_, ?_⟩
  · exact printed_trans (numbered_printed (numLines f) l r p) ⟨_, [], by rw [List.append_nil]; rfl⟩
  · exact printed_trans (numbered_printed (numLines f) l r p) ⟨_, [], by rw [List.append_nil]; rfl⟩
  · exact printed_trans (numbered_printed (histLines f) hl hr h) ⟨_, [], by rw [List.append_nil]; rfl⟩
  · intro kv hkv
    exact List.mem_append_right _ (List.mem_map_of_mem hkv)
  · simp [numLines]
  · intro kv hkv
    simp only [histLines, List.mem_append]
    exact .inl (.inl (.inr (List.mem_map_of_mem hkv)))
  · simp [histLines]
  · simp [histLines]

/-! ### Buckets -/

/-- C94: the lines of a span, a record, a metric, a scope of metrics and a data point begin with a line that has its number. -/
theorem numbers_printed (f : Fmt K) (i : Nat) (x : SdkSpan K) (l : SdkLog K × Scope K) (m : SdkMetric K) (s : Scope K × List (SdkMetric K)) (p : NumPoint K) (h : HistPoint K) :
    (spanLines f i x).head? = some ("Span #" ++ toString i) ∧ (logLines f i l).head? = some ("Log #" ++ toString i) ∧
    (metricLines f i m).head? = some ("Metric #" ++ toString i) ∧ (scopeMetricLines f i s).head? = some ("\tInstrumentation Scope #" ++ toString i) ∧
    (numLines f i p).head? = some ("\t\tDataPoint #" ++ toString i) ∧ (histLines f i h).head? = some ("\t\tDataPoint #" ++ toString i) := ⟨rfl, rfl, rfl, rfl, rfl, rfl⟩

/-- C94, logs: the scope has its line, and so have the flags of the trace context if they are set. -/
theorem log_scope_printed (f : Fmt K) (i : Nat) (x : SdkLog K × Scope K) : "\t Instrumentation Scope: " ++ f.scope x.2 ∈ logLines f i x ∧
    ∀ c g, x.1.traceContext = some c → c.traceFlags = some g → "\t TraceFlags: " ++ f.flags g ∈ logLines f i x := by
  refine ⟨by simp [logLines], fun c g h hg => ?_⟩
  simp [logLines, opt, h, hg]

/-- C94, histograms: the least and the greatest value have their lines if they are known, and every bucket, given by its bounds and its count, has one; the first begins at minus
infinity and the last ends at infinity. -/
theorem hist_lines_printed (f : Fmt K) (i : Nat) (p : HistPoint K) :
    (∀ m, p.min = some m → "\t\t\tMin          : " ++ f.num m ∈ histLines f i p) ∧ (∀ m, p.max = some m → "\t\t\tMax          : " ++ f.num m ∈ histLines f i p) ∧
    (∀ r ∈ bucketRows p.bounds p.bucketCounts, (match r with
      | (some a, some b, n) => "\t\t\t\t " ++ f.float a ++ " to " ++ f.float b ++ " : " ++ toString n.toNat
      | (none, some b, n) => "\t\t\t\t " ++ ("-" ++ f.infinity) ++ " to " ++ f.float b ++ " : " ++ toString n.toNat
      | (some a, none, n) => "\t\t\t\t" ++ f.float a ++ " to +Infinity : " ++ toString n.toNat
      | (none, none, n) => "\t\t\t\t" ++ ("-" ++ f.infinity) ++ " to +Infinity : " ++ toString n.toNat) ∈ histLines f i p) := by
  refine ⟨fun m h => by simp [histLines, h], fun m h => by simp [histLines, h], fun r hr => ?_⟩
  have h : bucketLine f r ∈ histLines f i p := List.mem_append_right _ (List.mem_map_of_mem hr)
  obtain ⟨a, b, n⟩ := r
  cases a <;> cases b <;> exact h

theorem bucketRows_fold (counts : List (BitVec 64)) (bounds : List (BitVec 64)) (acc : List (Option (BitVec 64) × Option (BitVec 64) × BitVec 64)) (low : Option (BitVec 64)) (i : Nat) :
    (bounds.zipIdx i).foldl (fun (acc : List (Option (BitVec 64) × Option (BitVec 64) × BitVec 64) × Option (BitVec 64)) p =>
      (acc.1 ++ [(acc.2, some p.1, counts.getD p.2 0)], some p.1)) (acc, low) =
    (acc ++ ((low :: bounds.map some).zip ((bounds.map some).zip ((List.range' i bounds.length).map fun j => counts.getD j 0))), ((low :: bounds.map some).getLast?).getD none) := by
  induction bounds generalizing acc low i with
  | nil => simp
  | cons b bounds ih =>
    rw [List.zipIdx_cons, List.foldl_cons, ih]
    refine Prod.ext ?_ ?_
    · simp [List.range'_succ]
    · simp [List.getLast?_cons_cons]

/-- Rows that chain. -/
theorem rows_columns {Z : Type} (low : Option (BitVec 64)) (b : List (BitVec 64)) (c : List Z) (h : c.length = b.length) :
    ((low :: b.map some).zip ((b.map some).zip c)).map (fun r => r.2.2) = c ∧
    ((low :: b.map some).zip ((b.map some).zip c)).map (fun r => r.1) = (low :: b.map some).take b.length ∧
    ((low :: b.map some).zip ((b.map some).zip c)).map (fun r => r.2.1) = b.map some := by
  induction b generalizing low c with
  | nil => simp at h; simp [h]
  | cons x b ih =>
    cases c with
    | nil => simp at h
    | cons z c =>
      obtain ⟨h1, h2, h3⟩ := ih (some x) c (by simpa using h)
      simp only [List.map_cons, List.zip_cons_cons, List.length_cons, List.take_succ_cons] at h1 h2 h3 ⊢
      exact ⟨by rw [h1], by rw [h2], by rw [h3]⟩

/-- C94, histograms: a data point with one count more than bounds, as the SDK makes them, is printed as one row for each count, in their order; the first row reaches from
minus infinity to the first bound, each further one from the bound before to the next, the last to plus infinity. -/
theorem buckets_printed (bounds counts : List (BitVec 64)) (h : counts.length = bounds.length + 1) :
    (bucketRows bounds counts).map (fun r => r.2.2) = counts ∧ (bucketRows bounds counts).map (fun r => r.1) = none :: bounds.map some ∧
    (bucketRows bounds counts).map (fun r => r.2.1) = bounds.map some ++ [none] := by
  have hl : ∀ (low : Option (BitVec 64)) (l : List (BitVec 64)), (low :: l.map some).take l.length ++ [((low :: l.map some).getLast?).getD none] = low :: l.map some := by
    intro low l
    induction l generalizing low with
    | nil => simp
    | cons a l ih => simp only [List.map_cons, List.length_cons, List.take_succ_cons, List.cons_append, List.getLast?_cons_cons, ih (some a)]
  have hr : (List.range' 0 bounds.length).map (fun j => counts.getD j 0) ++ [counts.getD bounds.length 0] = counts := by
    apply List.ext_getElem
    · simp [h]
    · intro i h1 h2
      by_cases hi : i < bounds.length
      · rw [List.getElem_append_left (by simpa using hi)]
        simp [List.getD_eq_getElem?_getD, List.getElem?_eq_getElem h2]
      · have : i = bounds.length := by omega
        subst this
        rw [List.getElem_append_right (by simp)]
        simp [List.getD_eq_getElem?_getD, List.getElem?_eq_getElem h2]
  have e : bucketRows bounds counts = ((none :: bounds.map some).zip ((bounds.map some).zip ((List.range' 0 bounds.length).map fun j => counts.getD j 0))) ++
      [(((none :: bounds.map some).getLast?).getD none, none, counts.getD bounds.length 0)] := by
    have := bucketRows_fold counts bounds [] none 0
    simp only [bucketRows]
    rw [this]
    simp
  rw [e]
  obtain ⟨h1, h2, h3⟩ := rows_columns none bounds ((List.range' 0 bounds.length).map fun j => counts.getD j 0) (by simp)
  refine ⟨?_, ?_, ?_⟩
  · rw [List.map_append, h1]; exact hr
  · rw [List.map_append, h2]; exact hl none bounds
  · rw [List.map_append, h3]; rfl

/-! ## What is not so -/

/-- An export gets on to printing. -/
theorem advance_start {k : Kind B} {s : State B} (h : Reachable k s) (hs : s.isShutdown = false) (b : B) :
    ∃ s', Reachable k s' ∧ s'.pcs s.begun = .print b (if k.once && s.emitted then k.body b else k.resource b ++ k.body b) ∧ (∀ i, i ≠ s.begun → s'.pcs i = s.pcs i) ∧
      terminal s' = terminal s ++ [k.head] ∧ s'.isShutdown = false ∧ s'.begun = s.begun + 1 ∧ s'.emitted = (s.emitted || k.once) := by
  obtain ⟨sd, em, out, pcs, n, w, sa⟩ := s
  dsimp only at hs
  subst hs
  have h1 := Reachable.step (a := .begin b) h rfl
  have h2 := Reachable.step (a := .step n) h1 (by simp only [step, stepExport, State.goto, if_pos]; rfl)
  have h3 := Reachable.step (a := .step n) h2 (by simp only [step, stepExport, State.goto, if_pos, Bool.false_eq_true, if_false]; rfl)
  cases ho : k.once <;> cases em
  all_goals
    have h4 := Reachable.step (a := .step n) h3 (by simp only [step, stepExport, State.goto, if_pos, Bool.false_eq_true, if_false, State.print, ho]; rfl)
    refine ⟨_, h4, ?_, ?_, ?_, ?_, ?_, ?_⟩
    · simp
    · intro i hi
      simp [hi]
    · simp [terminal]
    · rfl
    · rfl
    · rfl

/-- An export prints some of its lines. -/
theorem advance_print {k : Kind B} (p q : List String) {s : State B} (h : Reachable k s) {id : Nat} {b : B} (hp : s.pcs id = .print b (p ++ q)) :
    ∃ s', Reachable k s' ∧ s'.pcs id = .print b q ∧ (∀ i, i ≠ id → s'.pcs i = s.pcs i) ∧ terminal s' = terminal s ++ p ∧ s'.isShutdown = s.isShutdown ∧
      s'.begun = s.begun ∧ s'.emitted = s.emitted := by
  induction p generalizing s with
  | nil => exact ⟨s, h, hp, fun _ _ => rfl, (List.append_nil _).symm, rfl, rfl, rfl⟩
  | cons l p ih =>
    have h1 : step k s (.step id) = some ((s.print id l).goto id (.print b (p ++ q))) := by simp only [step, stepExport, hp, List.cons_append]
    obtain ⟨s', g1, g2, g3, g4, g5, g6, g7⟩ := ih (Reachable.step h h1) (by simp [State.goto])
    refine ⟨s', g1, g2, fun i hi => by rw [g3 i hi]; simp [State.goto, State.print, hi], ?_, g5, g6, g7⟩
    rw [g4]
    simp [terminal, State.goto, State.print]

/-- An export returns. -/
theorem advance_ok {k : Kind B} {s : State B} (h : Reachable k s) {id : Nat} {b : B} (hp : s.pcs id = .print b []) :
    ∃ s', Reachable k s' ∧ s'.pcs id = .ok b ∧ (∀ i, i ≠ id → s'.pcs i = s.pcs i) ∧ terminal s' = terminal s := by
  have h1 : step k s (.step id) = some (s.goto id (.ok b)) := by simp only [step, stepExport, hp]
  exact ⟨_, Reachable.step h h1, by simp [State.goto], fun i hi => by simp [State.goto, hi], rfl⟩

/-- A span with an attribute and the same without. -/
def withAttr (x : SdkSpan K) (kvs : List (K × Val)) : SdkSpan K := { x with data := { x.data with attributes := kvs } }

theorem printSpans_one (f : Fmt K) (x : SdkSpan K) (kvs : List (K × Val)) (he : x.data.events.events = []) (hl : x.data.links.links = []) :
    printSpans f [withAttr x kvs] = printSpans f [withAttr x []] ++ headed "\tAttributes:" (attrLine f) kvs := by
  have e : ∀ l, spanHead f 0 (withAttr x l) = spanHead f 0 (withAttr x []) := fun _ => rfl
  simp only [printSpans, numbered, List.zipIdx_cons, List.zipIdx_nil, List.flatMap_cons, List.flatMap_nil, List.append_nil, spanLines]
  rw [e kvs]
  simp [withAttr, he, hl, headed]

/-- C94 does not hold for exports at the same time: the lines of their batches mix, and the same text comes about when the attribute at the end belongs to the span of
the first export and when it belongs to the span of the second. The lock of `println!` covers a line only. This is so for every resource, every attribute and every pair
of spans without events and links. -/
theorem mixed_lines_violated (f : Fmt K) (r : Origin K) (x y : SdkSpan K) (kv : K × Val) (hx : x.data.events.events = [] ∧ x.data.links.links = [])
    (hy : y.data.events.events = [] ∧ y.data.links.links = []) :
    ∃ s s', Reachable (spanExporter f r) s ∧ Reachable (spanExporter f r) s' ∧
      s.pcs 0 = .ok [withAttr x [kv]] ∧ s.pcs 1 = .ok [withAttr y []] ∧ s'.pcs 0 = .ok [withAttr x []] ∧ s'.pcs 1 = .ok [withAttr y [kv]] ∧ terminal s = terminal s' := by
  generalize hk : spanExporter f r = k
  have ho : k.once = true := by rw [← hk]; rfl
  have hb : ∀ z, k.body z = printSpans f z := by intro z; rw [← hk]; rfl
  have ex := printSpans_one f x [kv] hx.1 hx.2
  have ey := printSpans_one f y [kv] hy.1 hy.2
  generalize hA : headed "\tAttributes:" (attrLine f) [kv] = A at ex ey
  refine Exists.elim (?_ : ∃ s, Reachable k s ∧ s.pcs 0 = .ok [withAttr x [kv]] ∧ s.pcs 1 = .ok [withAttr y []] ∧
      terminal s = [k.head] ++ k.resource [withAttr x []] ++ printSpans f [withAttr x []] ++ [k.head] ++ printSpans f [withAttr y []] ++ A) fun s hs =>
    Exists.elim (?_ : ∃ s, Reachable k s ∧ s.pcs 0 = .ok [withAttr x []] ∧ s.pcs 1 = .ok [withAttr y [kv]] ∧
      terminal s = [k.head] ++ k.resource [withAttr x []] ++ printSpans f [withAttr x []] ++ [k.head] ++ printSpans f [withAttr y []] ++ A) fun s' hs' =>
    ⟨s, s', hs.1, hs'.1, hs.2.1, hs.2.2.1, hs'.2.1, hs'.2.2.1, by rw [hs.2.2.2, hs'.2.2.2]⟩
  · have hres : k.resource [withAttr x [kv]] = k.resource [withAttr x []] := by rw [← hk]; rfl
    obtain ⟨s1, a1, a2, a3, a4, a5, a6, a7⟩ := advance_start (Reachable.init (k := k)) rfl [withAttr x [kv]]
    have a2' : s1.pcs 0 = .print [withAttr x [kv]] ((k.resource [withAttr x []] ++ printSpans f [withAttr x []]) ++ A) := by
      rw [show (0 : Nat) = (State.init : State (List (SdkSpan K))).begun from rfl, a2, hb, ex, hres]
      simp [State.init]
    obtain ⟨s2, b1, b2, b3, b4, b5, b6, b7⟩ := advance_print _ _ a1 a2'
    obtain ⟨s3, c1, c2, c3, c4, c5, c6, c7⟩ := advance_start b1 (b5.trans a5) [withAttr y []]
    have n2 : s2.begun = 1 := by rw [b6, a6]; rfl
    have e2 : s2.emitted = true := by rw [b7, a7, ho, Bool.or_true]
    have c2' : s3.pcs 1 = .print [withAttr y []] (printSpans f [withAttr y []] ++ []) := by
      rw [← n2, c2, hb, ho, e2, List.append_nil]
      rfl
    obtain ⟨s4, d1, d2, d3, d4, _, _, _⟩ := advance_print _ _ c1 c2'
    obtain ⟨s5, f1, f2, f3, f4⟩ := advance_ok d1 d2
    have g2 : s5.pcs 0 = .print [withAttr x [kv]] (A ++ []) := by
      rw [f3 0 (by decide), d3 0 (by decide), c3 0 (by rw [n2]; decide), b2, List.append_nil]
    obtain ⟨s6, i1, i2, i3, i4, _, _, _⟩ := advance_print _ _ f1 g2
    obtain ⟨s7, j1, j2, j3, j4⟩ := advance_ok i1 i2
    refine ⟨s7, j1, j2, by rw [j3 1 (by decide), i3 1 (by decide), f2], ?_⟩
    rw [j4, i4, f4, d4, c4, b4, a4]
    simp [terminal, State.init]
  · obtain ⟨s1, a1, a2, a3, a4, a5, a6, a7⟩ := advance_start (Reachable.init (k := k)) rfl [withAttr x []]
    have a2' : s1.pcs 0 = .print [withAttr x []] ((k.resource [withAttr x []] ++ printSpans f [withAttr x []]) ++ []) := by
      rw [show (0 : Nat) = (State.init : State (List (SdkSpan K))).begun from rfl, a2, hb]
      simp [State.init]
    obtain ⟨s2, b1, b2, b3, b4, b5, b6, b7⟩ := advance_print _ _ a1 a2'
    obtain ⟨s3, c1, c2, c3, c4, c5, c6, c7⟩ := advance_start b1 (b5.trans a5) [withAttr y [kv]]
    have n2 : s2.begun = 1 := by rw [b6, a6]; rfl
    have e2 : s2.emitted = true := by rw [b7, a7, ho, Bool.or_true]
    have c2' : s3.pcs 1 = .print [withAttr y [kv]] (printSpans f [withAttr y []] ++ A ++ []) := by
      rw [← n2, c2, hb, ho, e2, List.append_nil, ← ey]
      rfl
    obtain ⟨s4, d1, d2, d3, d4, _, _, _⟩ := advance_print _ _ c1 c2'
    obtain ⟨s5, f1, f2, f3, f4⟩ := advance_ok d1 d2
    have g2 : s5.pcs 0 = .print [withAttr x []] [] := by
      rw [f3 0 (by decide), d3 0 (by decide), c3 0 (by rw [n2]; decide), b2]
    obtain ⟨s6, i1, i2, i3, i4⟩ := advance_ok f1 g2
    refine ⟨s6, i1, i2, by rw [i3 1 (by decide), f2], ?_⟩
    rw [i4, f4, d4, c4, b4, a4]
    simp [terminal, State.init]

/-- C94: the resource need not come first. An export that has won the race for the resource may print it after the whole batch of another export. -/
theorem resource_late_violated (k : Kind B) (ho : k.once = true) (b c : B) :
    ∃ s, Reachable k s ∧ s.pcs 0 = .ok b ∧ terminal s = [k.head, k.head] ++ k.body b ++ k.resource c ++ k.body c := by
  let s1 : State B := ⟨false, false, [(0, k.head)], fun i => if i = 0 then .cas b else .unused, 1, none, none⟩
  have r1 : Reachable k s1 := by
    have h1 := Reachable.step (a := .begin b) (Reachable.init (k := k)) rfl
    have h2 := Reachable.step (a := .step 0) h1 (by simp only [step, stepExport, State.goto, State.init, if_pos, Bool.false_eq_true, if_false]; rfl)
    have h3 := Reachable.step (a := .step 0) h2 (by simp only [step, stepExport, State.goto, if_pos, State.print]; rfl)
    convert h3 using 1
    simp only [s1, List.nil_append, State.mk.injEq, true_and, and_true]
    funext i
    split <;> simp_all
  obtain ⟨s2, a1, a2, a3, a4, a5, a6, a7⟩ := advance_start r1 rfl c
  have e2 : s2.emitted = true := by rw [a7, ho, Bool.or_true]
  have p0 : s2.pcs 0 = .cas b := by rw [a3 0 Nat.zero_ne_one]; rfl
  have hs3 : step k s2 (.step 0) = some (s2.goto 0 (.print b (k.body b))) := by simp only [step, stepExport, p0, ho, e2, if_true]
  obtain ⟨s4, b1, b2, b3, b4, _, _, _⟩ := advance_print (k.body b) [] (Reachable.step a1 hs3) (id := 0) (b := b) (by simp [State.goto])
  have p1 : s4.pcs 1 = .print c (k.resource c ++ k.body c ++ []) := by
    rw [b3 1 (by decide)]
    rw [goto_pcs, if_neg (by decide), show (1 : Nat) = s1.begun from rfl, a2, List.append_nil]
    simp [s1]
  obtain ⟨s5, c1, c2, c3, c4, _, _, _⟩ := advance_print _ _ b1 p1
  obtain ⟨s6, d1, d2, d3, d4⟩ := advance_ok c1 ((c3 0 (by decide)).trans b2)
  refine ⟨s6, d1, d2, ?_⟩
  have e3 : terminal (s2.goto 0 (.print b (k.body b))) = terminal s2 := rfl
  rw [d4, c4, b4, e3, a4]
  simp [terminal, s1]

/-- C94: of an exponential histogram nothing is printed but its name, description, unit and type: whatever was measured, the text is the same. -/
theorem expo_silent_violated (f : Fmt K) (i : Nat) (name description unit : String) (ps qs : List (ExpoPoint K)) (s t s' t' : Int) (u v : Otel.Metrics.Temporality) :
    metricLines f i ⟨name, description, unit, .expo ps s t u⟩ = metricLines f i ⟨name, description, unit, .expo qs s' t' v⟩ := rfl

/-- C94: the trace state of a span, the counts of what was dropped, and whether its parent is remote are not printed: spans that differ in them have the same lines. -/
theorem span_silent_violated (f : Fmt K) (i : Nat) (x : SdkSpan K) (ts : TraceState) (remote : Bool) (a b c : BitVec 32) :
    spanLines f i { x with spanContext := { x.spanContext with traceState := ts, isRemote := remote }
                           data := { x.data with droppedAttributesCount := a, events := { x.data.events with droppedCount := b }, links := { x.data.links with droppedCount := c } } } =
      spanLines f i x := rfl

/-! ## The hypotheses can be met -/

/-- An exporter of lists of numbers with the resource `r`, for the examples. -/
def demo : Kind (List String) := ⟨"Spans", fun _ => ["Resource", "r"], id, true⟩

/-- Three exports in a row. -/
example : terminal (allAlone demo State.init [["a"], [], ["b", "c"]]) = ["Spans", "Resource", "r", "a", "Spans", "Spans", "b", "c"] := by
  rw [(sequential_text demo _).2]; rfl

/-- Two exports at the same time: the second begins while the first prints, and the first has won. -/
example : ∃ s, Reachable demo s ∧ s.pcs 1 = .ok ["x"] ∧ outOf s 1 = ["Spans", "x"] ∧ s.pcs 0 = .print ["a"] ["a"] := by
  exact ⟨_, reachable_runAll demo [.begin ["a"], .step 0, .step 0, .step 0, .step 0, .step 0, .begin ["x"], .step 1, .step 1, .step 1, .step 1, .step 1] .init rfl,
    rfl, rfl, rfl⟩

/-- Rows of a histogram with three buckets. -/
example : bucketRows [1#64, 2#64] [5#64, 6#64, 7#64] = [(none, some 1#64, 5#64), (some 1#64, some 2#64, 6#64), (some 2#64, none, 7#64)] := by decide


/-- C94: the events of a span, numbered, under one header. -/
theorem events_text (f : Fmt K) (es : List (Sdk.Event (K × Common.Val))) : numbered (eventLines f) es =
    (if es = [] then [] else ["\tEvents:"]) ++ es.zipIdx.flatMap fun e =>
      ["\tEvent #" ++ toString e.2, "\tName      : " ++ f.str e.1.name, "\tTimestamp : " ++ f.time e.1.timestamp] ++ headed "\tAttributes:" (attrLine f) e.1.attributes := by
  have key : ∀ (n : Nat) (es : List (Sdk.Event (K × Common.Val))), 0 < n → (es.zipIdx n).flatMap (fun p => eventLines f p.2 p.1) = (es.zipIdx n).flatMap fun e =>
      ["\tEvent #" ++ toString e.2, "\tName      : " ++ f.str e.1.name, "\tTimestamp : " ++ f.time e.1.timestamp] ++ headed "\tAttributes:" (attrLine f) e.1.attributes := by
    intro n es
    induction es generalizing n with
    | nil => intro _; rfl
    | cons e es ih =>
      intro hn
      rw [List.zipIdx_cons, List.flatMap_cons, List.flatMap_cons, ih (n + 1) (by omega)]
      simp only [eventLines, if_neg (by omega : ¬ n = 0), List.nil_append]
  cases es with
  | nil => rfl
  | cons e es =>
    unfold numbered
    rw [List.zipIdx_cons, List.flatMap_cons, List.flatMap_cons, key 1 es (by omega)]
    simp [eventLines]

/-- C94: the links of a span, numbered, under one header. -/
theorem links_text (f : Fmt K) (ls : List (Sdk.Link (K × Common.Val))) : numbered (linkLines f) ls =
    (if ls = [] then [] else ["\tLinks:"]) ++ ls.zipIdx.flatMap fun l =>
      ["\tLink #" ++ toString l.2, "\tTraceId: " ++ f.traceId l.1.spanContext.traceId, "\tSpanId : " ++ f.spanId l.1.spanContext.spanId] ++
        headed "\tAttributes:" (attrLine f) l.1.attributes := by
  have key : ∀ (n : Nat) (ls : List (Sdk.Link (K × Common.Val))), 0 < n → (ls.zipIdx n).flatMap (fun p => linkLines f p.2 p.1) = (ls.zipIdx n).flatMap fun l =>
      ["\tLink #" ++ toString l.2, "\tTraceId: " ++ f.traceId l.1.spanContext.traceId, "\tSpanId : " ++ f.spanId l.1.spanContext.spanId] ++
        headed "\tAttributes:" (attrLine f) l.1.attributes := by
    intro n ls
    induction ls generalizing n with
    | nil => intro _; rfl
    | cons e es ih =>
      intro hn
      rw [List.zipIdx_cons, List.flatMap_cons, List.flatMap_cons, ih (n + 1) (by omega)]
      simp only [linkLines, if_neg (by omega : ¬ n = 0), List.nil_append]
  cases ls with
  | nil => rfl
  | cons e es =>
    unfold numbered
    rw [List.zipIdx_cons, List.flatMap_cons, List.flatMap_cons, key 1 es (by omega)]
    simp [linkLines]

end Otel.Stdout
