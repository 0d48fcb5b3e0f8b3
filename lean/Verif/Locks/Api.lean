import Verif.Locks.Core
/-!
# The locks of the API and the SDK, and the user's code run under them, C95

Each call as the locks it takes, in its order, with the code of the user that runs in between. Code of the user is again made of calls. A counter's `add` or a
span's `end` thus becomes a program of `Core`. The memory an operation changes does not matter here (C38, C88 treat it), nor do operations that take no lock.

Not in the table: the locks of the globals (C89), of contexts (C62: not a lock but a `RefCell`), of the batch processors (they wait with a timeout), of Prometheus and of
the remote sampler (held for a moment, with no code of the user).
-/

namespace Otel.Locks

/-- The locks. Readers, pipelines, streams and so on are numbered. -/
inductive Lock where
  /-- Not a lock: the thread of a periodic reader, which does one collection at a time. periodic_reader.rs:146-332 -/
  | worker (reader : Nat)
  /-- `ManualReader::inner`, `PeriodicReaderInner::producer`. manual_reader.rs:33, periodic_reader.rs:348 -/
  | reader (reader : Nat)
  /-- `Inserter::views`. pipeline.rs:213, one per meter -/
  | views (meter : Nat)
  /-- `Inserter::aggregators`. pipeline.rs:205, one per meter, type of numbers and reader: the number of the meter stands for the type too -/
  | aggregators (meter reader : Nat)
  /-- `Pipeline::inner`. pipeline.rs:41 -/
  | pipeline (reader : Nat)
  /-- The mutex around a span that is in a context. opentelemetry/src/trace/context.rs:26 -/
  | span (id : Nat)
  /-- `SimpleSpanProcessor::exporter`. span_processor.rs:115 -/
  | spanExporter (processor : Nat)
  /-- `SdkMeterProviderInner::meters`. meter_provider.rs:41 -/
  | meters (provider : Nat)
  /-- `SimpleLogProcessor::exporter`. simple_log_processor.rs:63 -/
  | logExporter (processor : Nat)
  /-- `AggregateTimeInitiator`. internal/aggregate.rs:60 -/
  | startTime (stream : Nat)
  /-- `PrecomputedSum::reported`. internal/precomputed_sum.rs:18 -/
  | reported (stream : Nat)
  /-- `ValueMap::trackers_for_collect`. internal/mod.rs:63 -/
  | collectMap (stream : Nat)
  /-- `ValueMap::trackers`. internal/mod.rs:58 -/
  | trackers (stream : Nat)
  /-- The mutex of one histogram. internal/histogram.rs:17, internal/exponential_histogram.rs:316 -/
  | point (stream index : Nat)
deriving DecidableEq

abbrev Code := Prog Lock

/-- `Mutex::lock` or `RwLock::write`, and the code under it. -/
abbrev locked (l : Lock) (body : Code) : Code := withLock l .exclusive body

/-- `RwLock::read`, and the code under it. -/
abbrev shared (l : Lock) (body : Code) : Code := withLock l .shared body

/-! ## Metrics -/

/-- Updating a data point: sums and gauges are atomic, histograms have a mutex. internal/histogram.rs:25-47, internal/exponential_histogram.rs:328-340 -/
def update (histogram : Bool) (stream index : Nat) : Code := if histogram then locked (.point stream index) [.work] else [.work]

/-- The ways a measurement can take in one stream. -/
inductive Path where
  | noAttributes
  | known
  | fresh

/-- `ValueMap::measure`. internal/mod.rs:103-156 -/
def measureStream (histogram : Bool) (stream index : Nat) : Path → Code
  | .noAttributes => update histogram stream index
  | .known => shared (.trackers stream) (update histogram stream index)
  | .fresh => shared (.trackers stream) [.work] ++ locked (.trackers stream) (update histogram stream index)

/-- A measurement, or an observation in a callback: each stream in turn. opentelemetry-sdk/src/metrics/instrument.rs:294-320 -/
def measure (streams : List (Bool × Nat × Nat × Path)) : Code := (streams.map fun s => measureStream s.1 s.2.1 s.2.2.1 s.2.2.2).flatten

/-- What a stream is collected as. -/
inductive Collect where
  | cumulative
  | delta
  | precomputedDelta

/-- `collect_readonly`: the point without attributes, then those of the map under its lock. internal/mod.rs:160-179 -/
def collectReadonly (histogram : Bool) (stream : Nat) (points : List Nat) : Code :=
  update histogram stream 0 ++ shared (.trackers stream) (points.map fun i => update histogram stream i).flatten

/-- `collect_and_reset`. internal/mod.rs:183-215 -/
def collectAndReset (histogram : Bool) (stream : Nat) (points : List Nat) : Code :=
  update histogram stream 0 ++ locked (.collectMap stream) (locked (.trackers stream) [.work] ++ (points.map fun i => update histogram stream i).flatten)

/-- `ComputeAggregation::call`. internal/sum.rs:70-147, internal/precomputed_sum.rs:38-130, internal/last_value.rs:66-136, internal/histogram.rs:111-221,
internal/exponential_histogram.rs:390-511; start times: internal/aggregate.rs:63-84 -/
def collectStream (histogram : Bool) (stream : Nat) (points : List Nat) : Collect → Code
  | .cumulative => locked (.startTime stream) [.work] ++ collectReadonly histogram stream points
  | .delta => locked (.startTime stream) [.work] ++ collectAndReset histogram stream points
  | .precomputedDelta => locked (.startTime stream) [.work] ++ locked (.reported stream) (collectAndReset histogram stream points)

/-- `Pipeline::produce`: a diagnostic, the callbacks, then the streams, under the lock of the pipeline. pipeline.rs:103-173 -/
def produce (reader : Nat) (diagnostic : Code) (callbacks : List Code) (streams : List (Bool × Nat × List Nat × Collect)) : Code :=
  locked (.pipeline reader) (diagnostic ++ callbacks.flatten ++ (streams.map fun s => collectStream s.1 s.2.1 s.2.2.1 s.2.2.2).flatten)

/-- `ManualReader::collect`. manual_reader.rs:93-108 -/
def collectManual (reader : Nat) (diagnostic : Code) (callbacks : List Code) (streams : List (Bool × Nat × List Nat × Collect)) : Code :=
  locked (.reader reader) (produce reader diagnostic callbacks streams)

/-- A collection of a periodic reader, for a tick or for `force_flush`: the exporter runs when the lock of the reader is free again. The thread that asks waits until the
reader's thread has done all this, so it counts as doing it itself while it holds the reader's thread. periodic_reader.rs:361-446 -/
def collectPeriodic (reader : Nat) (diagnostic : Code) (callbacks : List Code) (streams : List (Bool × Nat × List Nat × Collect)) (exporter : Code) : Code :=
  locked (.worker reader) (locked (.reader reader) (produce reader diagnostic callbacks streams) ++ exporter)

/-- `Inserter::cached_aggregator`: the lock of the views with a diagnostic, then that of the aggregators; a new stream asks the reader for its temporality, makes a
diagnostic and enters the pipeline. pipeline.rs:350-451, 76-80 -/
def cachedAggregator (meter reader : Nat) (isNew : Bool) (conflict temporality diagnostic : Code) : Code :=
  locked (.views meter) conflict ++
    locked (.aggregators meter reader) (if isNew then temporality ++ diagnostic ++ locked (.pipeline reader) [.work] else [.work])

/-- Creating an instrument: each stream of each reader, then each callback in each pipeline. meter.rs:72-175, pipeline.rs:253-345, 656-664, 726-747 -/
def createInstrument (streams : List (Nat × Nat × Bool × Code × Code × Code)) (callbackReaders : List Nat) : Code :=
  (streams.map fun s => cachedAggregator s.1 s.2.1 s.2.2.1 s.2.2.2.1 s.2.2.2.2.1 s.2.2.2.2.2).flatten ++ (callbackReaders.map fun r => locked (.pipeline r) [.work]).flatten

/-- `meter_with_scope`, with its diagnostic. meter_provider.rs:190-225 -/
def getMeter (provider : Nat) (diagnostic : Code) : Code := locked (.meters provider) diagnostic

/-! ## Spans -/

/-- A call on a span that is in a context; what is recorded may be computed while the lock is held (the text of an error, an iterator of attributes).
opentelemetry/src/trace/context.rs:54-70, 79-199 -/
def onSpan (id : Nat) (user : Code) : Code := locked (.span id) (user ++ [.work])

/-- A span processor: the simple one runs its exporter under its lock, others are code of the user (a batch processor has no lock of this table). -/
inductive SpanProc where
  | simple (processor : Nat) (exporter : Code)
  | other (code : Code)

/-- `on_end`. span_processor.rs:132-150 -/
def SpanProc.onEnd : SpanProc → Code
  | .simple p exporter => locked (.spanExporter p) exporter
  | .other code => code

/-- The end of a span that is not in a context, or of one when its last context is dropped. opentelemetry-sdk/src/trace/span.rs:194-247 -/
def endSpan (procs : List SpanProc) : Code := (procs.map SpanProc.onEnd).flatten

/-- `end` through a context: under the lock of the span. opentelemetry/src/trace/context.rs:189-196 -/
def endInContext (id : Nat) (procs : List SpanProc) : Code := onSpan id (endSpan procs)

/-! ## Logs -/

/-- A log processor. -/
inductive LogProc where
  | simple (processor : Nat) (exporter : Code)
  | other (code : Code)

/-- `emit`. simple_log_processor.rs:78-113 -/
def LogProc.emit : LogProc → Code
  | .simple p exporter => locked (.logExporter p) exporter
  | .other code => code

/-- `Logger::emit`. opentelemetry-sdk/src/logs/logger.rs:31-53 -/
def emitLog (procs : List LogProc) : Code := (procs.map LogProc.emit).flatten

/-! ## Specification: what code of the user may do where -/

/-- Where code of the user runs. -/
inductive Place where
  /-- in the program itself, in `on_start`, in a sampler: under no lock -/
  | program
  /-- in the exporter of a periodic reader -/
  | metricExporter
  /-- `temporality` of a reader or exporter -/
  | temporality
  /-- in the callback of an observable instrument -/
  | callback
  /-- in what a call on a span in a context computes, and in the processors when such a span ends -/
  | spanLock
  /-- in the exporter of a simple span processor -/
  | spanExporter
  /-- in the subscriber that gets the SDK's own diagnostics -/
  | diagnostic
  /-- in the exporter of a simple log processor -/
  | logExporter
deriving DecidableEq

/-- The rules. Measuring is allowed everywhere. Logging is allowed everywhere but in the exporter of a simple log processor. Spans may be used where the user's code
does not run under a lock of a span or below, and so on. -/
inductive Allowed : Place → Code → Prop
  | nothing {w} : Allowed w []
  | work {w} : Allowed w [.work]
  | seq {w p q} : Allowed w p → Allowed w q → Allowed w (p ++ q)
  /-- measure, observe: everywhere -/
  | measure {w} (streams) : Allowed w (measure streams)
  /-- log: everywhere but in log exporters -/
  | log {w} (procs : List LogProc) : w ≠ .logExporter → (∀ p e, .simple p e ∈ procs → Allowed .logExporter e) → (∀ c, .other c ∈ procs → Allowed w c) →
      Allowed w (emitLog procs)
  /-- get a meter: everywhere but in log exporters and diagnostics -/
  | meter {w} (provider : Nat) {d : Code} : w ≠ .logExporter → w ≠ .diagnostic → Allowed .diagnostic d → Allowed w (getMeter provider d)
  /-- end a span that is not in a context: in the program, in metric exporters, callbacks, `temporality`, and under the lock of a span -/
  | endSpan {w} (procs : List SpanProc) : w ∈ [Place.program, .metricExporter, .temporality, .callback, .spanLock] → (∀ p e, .simple p e ∈ procs → Allowed .spanExporter e) →
      (∀ c, .other c ∈ procs → Allowed w c) → Allowed w (endSpan procs)
  /-- use a span that is in a context: in the program, in metric exporters, callbacks and `temporality` -/
  | onSpan {w} (id : Nat) {u : Code} : w ∈ [Place.program, .metricExporter, .temporality, .callback] → Allowed .spanLock u → Allowed w (onSpan id u)
  /-- create instruments: in the program and in metric exporters -/
  | create {w} (streams) (readers : List Nat) : w ∈ [Place.program, .metricExporter] →
      (∀ s ∈ streams, Allowed .diagnostic s.2.2.2.1) → (∀ s ∈ streams, Allowed .temporality s.2.2.2.2.1) → (∀ s ∈ streams, Allowed .diagnostic s.2.2.2.2.2) →
      Allowed w (createInstrument streams readers)
  /-- collect or flush: in the program only -/
  | collectManual (reader : Nat) {d : Code} (callbacks : List Code) (streams) : Allowed .diagnostic d → (∀ c ∈ callbacks, Allowed .callback c) →
      Allowed .program (collectManual reader d callbacks streams)
  | collectPeriodic (reader : Nat) {d : Code} (callbacks : List Code) (streams) {e : Code} : Allowed .diagnostic d → (∀ c ∈ callbacks, Allowed .callback c) →
      Allowed .metricExporter e → Allowed .program (collectPeriodic reader d callbacks streams e)

/-! ## The order of the locks -/

/-- The order in which the SDK takes its locks. -/
def Lock.rank : Lock → Nat
  | .worker _ => 1
  | .reader _ => 2
  | .views _ => 3
  | .aggregators .. => 3
  | .pipeline _ => 4
  | .span _ => 5
  | .spanExporter _ => 6
  | .meters _ => 7
  | .logExporter _ => 8
  | .startTime _ => 9
  | .reported _ => 10
  | .collectMap _ => 11
  | .trackers _ => 12
  | .point .. => 13

/-- The highest lock under which code of the user runs. -/
def Place.floor : Place → Nat
  | .program => 0
  | .metricExporter => 1
  | .temporality => 3
  | .callback => 4
  | .spanLock => 5
  | .spanExporter => 6
  | .diagnostic => 7
  | .logExporter => 8

abbrev Over (n : Nat) (p : Code) : Prop := Above Lock.rank n p

theorem over_update (h : Bool) (s i n : Nat) (hn : n < 13) : Over n (update h s i) := by
  cases h
  · exact above_work
  · exact above_withLock (by exact hn) above_work

theorem over_measure (n : Nat) (hn : n < 12) (streams) : Over n (measure streams) := by
  refine above_flatten fun p hp => ?_
  obtain ⟨⟨h, s, i, path⟩, _, rfl⟩ := List.mem_map.1 hp
  cases path with
  | noAttributes => exact over_update h s i n (by omega)
  | known => exact above_withLock (by exact hn) (over_update h s i 12 (by omega))
  | fresh => exact above_append (above_withLock (by exact hn) above_work) (above_withLock (by exact hn) (over_update h s i 12 (by omega)))

theorem over_updates (h : Bool) (s n : Nat) (hn : n < 13) (points : List Nat) : Over n (points.map fun i => update h s i).flatten := by
  refine above_flatten fun p hp => ?_
  obtain ⟨i, _, rfl⟩ := List.mem_map.1 hp
  exact over_update h s i n hn

theorem over_collectAndReset (h : Bool) (s n : Nat) (hn : n < 11) (points : List Nat) : Over n (collectAndReset h s points) :=
  above_append (over_update h s 0 n (by omega)) (above_withLock (by exact hn) (above_append (above_withLock (by simp [Lock.rank, Place.floor]) above_work) (over_updates h s 11 (by omega) points)))

theorem over_collectStream (h : Bool) (s : Nat) (points : List Nat) (c : Collect) : Over 4 (collectStream h s points c) := by
  cases c with
  | cumulative =>
    exact above_append (above_withLock (by simp [Lock.rank, Place.floor]) above_work) (above_append (over_update h s 0 4 (by omega)) (above_withLock (by simp [Lock.rank, Place.floor]) (over_updates h s 12 (by omega) points)))
  | delta => exact above_append (above_withLock (by simp [Lock.rank, Place.floor]) above_work) (over_collectAndReset h s 4 (by omega) points)
  | precomputedDelta => exact above_append (above_withLock (by simp [Lock.rank, Place.floor]) above_work) (above_withLock (by simp [Lock.rank, Place.floor]) (over_collectAndReset h s 10 (by omega) points))

theorem over_produce (r n : Nat) (hn : n < 4) {d : Code} (hd : Over 4 d) {callbacks : List Code} (hc : ∀ c ∈ callbacks, Over 4 c) (streams) :
    Over n (produce r d callbacks streams) := by
  refine above_withLock (by exact hn) (above_append (above_append hd (above_flatten hc)) (above_flatten fun p hp => ?_))
  obtain ⟨⟨h, s, points, c⟩, _, rfl⟩ := List.mem_map.1 hp
  exact over_collectStream h s points c

/-- Code that keeps to the rules takes only locks above those under which it runs. -/
theorem allowed_over {w : Place} {p : Code} (h : Allowed w p) : Over w.floor p := by
  induction h with
  | nothing => exact above_nil _
  | work => exact above_work
  | seq _ _ h1 h2 => exact above_append h1 h2
  | @measure w streams => exact over_measure _ (by cases w <;> decide) streams
  | @log w procs hw _ _ h1 h2 =>
    have hf : w.floor < 8 := by cases w <;> first | decide | exact absurd rfl hw
    refine above_flatten fun p hp => ?_
    obtain ⟨q, hq, rfl⟩ := List.mem_map.1 hp
    cases q with
    | simple i e => exact above_withLock (by exact hf) (h1 i e hq)
    | other c => exact h2 c hq
  | @meter w provider d hw hw' _ hd =>
    have hf : w.floor < 7 := by cases w <;> first | decide | exact absurd rfl hw | exact absurd rfl hw'
    exact above_withLock (by exact hf) hd
  | @endSpan w procs hw _ _ h1 h2 =>
    have hf : w.floor < 6 := by cases w <;> first | decide | (simp at hw)
    refine above_flatten fun p hp => ?_
    obtain ⟨q, hq, rfl⟩ := List.mem_map.1 hp
    cases q with
    | simple i e => exact above_withLock (by exact hf) (h1 i e hq)
    | other c => exact h2 c hq
  | @onSpan w id u hw _ hu =>
    have hf : w.floor < 5 := by cases w <;> first | decide | (simp at hw)
    exact above_withLock (by exact hf) (above_append hu above_work)
  | @create w streams readers hw _ _ _ g1 g2 g3 =>
    have hf : w.floor < 3 := by cases w <;> first | decide | (simp at hw)
    refine above_append (above_flatten fun p hp => ?_) (above_flatten fun p hp => ?_)
    · obtain ⟨⟨m, r, n, c, t, d⟩, hq, rfl⟩ := List.mem_map.1 hp
      have h1 := g1 _ hq
      have h2 := g2 _ hq
      have h3 := g3 _ hq
      refine above_append (above_withLock (by exact hf) (above_mono h1 (by simp [Lock.rank, Place.floor]))) (above_withLock (by exact hf) ?_)
      cases n with
      | false => exact above_work
      | true => exact above_append (above_append h2 (above_mono h3 (by simp [Lock.rank, Place.floor]))) (above_withLock (by simp [Lock.rank, Place.floor]) above_work)
    · obtain ⟨r, _, rfl⟩ := List.mem_map.1 hp
      exact above_withLock (show w.floor < 4 by omega) above_work
  | collectManual r callbacks streams _ _ hd hc =>
    exact above_withLock (by simp [Lock.rank, Place.floor]) (over_produce r 2 (by decide) (above_mono hd (by decide)) hc streams)
  | collectPeriodic r callbacks streams _ _ _ hd hc he =>
    exact above_withLock (by simp [Lock.rank, Place.floor]) (above_append (above_withLock (by simp [Lock.rank, Place.floor]) (over_produce r 2 (by decide) (above_mono hd (by decide)) hc streams)) he)

/-! ## Theorems -/

/-- C95: any number of threads, each with any sequence of calls, all return, if the user's code that runs inside the SDK keeps to the rules: at every moment some thread is
sure to be able to go on as long as one is not done, no run is longer than what there is to do, and each run that is as long has brought all threads to their end. -/
theorem calls_return_partial (ps : List Code) (h : ∀ p ∈ ps, Allowed .program p) (ts : Threads Lock) (hr : Reach ps ts) :
    (¬ Done ts → ∃ ts', SureStep ts ts') ∧ (∀ n ts', Steps n ts ts' → n ≤ left ts) ∧ (∀ ts', Steps (left ts) ts ts' → Done ts') ∧ ¬ Stuck ts := by
  obtain ⟨h1, _, h3, h4⟩ := ordered_ends Lock.rank (fun p hp => ordered_of_above (allowed_over (h p hp))) hr
  refine ⟨h1, h4, h3, fun hs => ?_⟩
  obtain ⟨ts', hss⟩ := h1 hs.1
  exact hs.2 ts' (sure_step hss)

end Otel.Locks
