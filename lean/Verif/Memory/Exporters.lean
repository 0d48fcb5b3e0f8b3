import Verif.EndToEnd.Delivery
import Verif.Otlp.Metrics
import Verif.Sdk.Processors
/-!
# The in-memory exporters (`opentelemetry-sdk/src/{trace,logs,metrics}/in_memory_exporter.rs`), C93

All clones of an exporter share its store, and each access to it happens under a lock, so what any number of threads do with the clones is a sequence of actions. The
only call with two of them is `shutdown` of the log exporter. The locks are never poisoned: no code of the user runs while one is held. `get_emitted_logs` holds the
lock of the records while it takes the one of the resource; it is one action here, at the moment it reads the resource.
-/

namespace Otel.Memory
open Otel.Otlp Otel.EndToEnd
open Common (Scope)
open Otel.Metrics (Temporality)

variable {X R K : Type}

/-! ## Spans -/

/-- `InMemorySpanExporter`: what its two locks protect. trace/in_memory_exporter.rs:49-53 -/
structure Spans (X R : Type) where
  spans : List X
  resource : R

/-- What threads do with the clones of a span exporter. -/
inductive SpanAct (X R : Type) where
  | export (batch : List X)
  | reset
  | shutdown
  | setResource (r : R)

/-- `InMemorySpanExporterBuilder::build`. trace/in_memory_exporter.rs:84-89 -/
def Spans.new (r : R) : Spans X R := ⟨[], r⟩

/-- `reset`. trace/in_memory_exporter.rs:126-128 -/
def Spans.reset (s : Spans X R) : Spans X R := { s with spans := [] }

/-- `export`. trace/in_memory_exporter.rs:132-141 -/
def Spans.export (s : Spans X R) (batch : List X) : Spans X R := { s with spans := s.spans ++ batch }

/-- `shutdown` resets. trace/in_memory_exporter.rs:143-146 -/
def Spans.shutdown (s : Spans X R) : Spans X R := s.reset

/-- `set_resource`. trace/in_memory_exporter.rs:148-153 -/
def Spans.setResource (s : Spans X R) (r : R) : Spans X R := { s with resource := r }

/-- `get_finished_spans`. trace/in_memory_exporter.rs:107-114 -/
def Spans.get (s : Spans X R) : List X := s.spans

/-- Dispatch. -/
def SpanAct.run (s : Spans X R) : SpanAct X R → Spans X R
  | .export b => s.export b
  | .reset => s.reset
  | .shutdown => s.shutdown
  | .setResource r => s.setResource r

/-! ## Log records -/

/-- `InMemoryLogExporter`; a record with its scope is an `X`. logs/in_memory_exporter.rs:39-45 -/
structure Logs (X R : Type) where
  logs : List X
  resource : R
  shouldReset : Bool
  shutdownCalled : Bool

/-- What threads do with the clones of a log exporter: `flag` and `clear` are the two parts of `shutdown`. -/
inductive LogAct (X R : Type) where
  | export (batch : List X)
  | reset
  | flag
  | clear
  | setResource (r : R)

/-- `InMemoryLogExporterBuilder::build`; users cannot change `reset_on_shutdown`, which is set. logs/in_memory_exporter.rs:110-127 -/
def Logs.new (r : R) : Logs X R := ⟨[], r, true, false⟩

/-- `reset`. logs/in_memory_exporter.rs:185-191 -/
def Logs.reset (s : Logs X R) : Logs X R := { s with logs := [] }

/-- `export`: the records are pushed one by one under the lock. logs/in_memory_exporter.rs:195-207 -/
def Logs.export (s : Logs X R) (batch : List X) : Logs X R := batch.foldl (fun s x => { s with logs := s.logs ++ [x] }) s

/-- The first part of `shutdown`. logs/in_memory_exporter.rs:210-211 -/
def Logs.flag (s : Logs X R) : Logs X R := { s with shutdownCalled := true }

/-- The second part of `shutdown`. logs/in_memory_exporter.rs:212-215 -/
def Logs.clear (s : Logs X R) : Logs X R := if s.shouldReset then s.reset else s

/-- `shutdown` when nothing happens in between. logs/in_memory_exporter.rs:209-216 -/
def Logs.shutdown (s : Logs X R) : Logs X R := s.flag.clear

/-- `get_emitted_logs`: every record gets the resource the exporter has now. logs/in_memory_exporter.rs:159-172 -/
def Logs.get (s : Logs X R) : List (X × R) := s.logs.map fun x => (x, s.resource)

/-- Dispatch. -/
def LogAct.run (s : Logs X R) : LogAct X R → Logs X R
  | .export b => s.export b
  | .reset => s.reset
  | .flag => s.flag
  | .clear => s.clear
  | .setResource r => { s with resource := r }

/-! ## Metrics -/

/-- `ScopeMetrics`. opentelemetry-sdk/src/metrics/data/mod.rs:20-28 -/
structure ScopeMs (K : Type) where
  scope : Scope K
  metrics : List (SdkMetric K)

/-- `ResourceMetrics`. opentelemetry-sdk/src/metrics/data/mod.rs:10-18 -/
structure ResMs (K R : Type) where
  resource : R
  scopeMetrics : List (ScopeMs K)

/-- `clone_data`; the three number types are one here. metrics/in_memory_exporter.rs:198-236 -/
def cloneData : MData K → MData K
  | .gauge ps s t => .gauge ps s t
  | .sum ps s t temp mono => .sum ps s t temp mono
  | .histogram ps s t temp => .histogram ps s t temp
  | .expo ps s t temp => .expo ps s t temp

/-- `clone_metrics`. metrics/in_memory_exporter.rs:175-196 -/
def cloneMetrics (m : ResMs K R) : ResMs K R where
  resource := m.resource
  scopeMetrics := m.scopeMetrics.map fun s =>
    { scope := s.scope
      metrics := s.metrics.map fun m =>
        { name := m.name
          description := m.description
          unit := m.unit
          data := cloneData m.data } }

/-- `InMemoryMetricExporter`. metrics/in_memory_exporter.rs:62-65 -/
structure Ms (K R : Type) where
  metrics : List (ResMs K R)
  temporality : Temporality

/-- `InMemoryMetricExporterBuilder`: `with_temporality` calls, then `build`. metrics/in_memory_exporter.rs:112-132 -/
def Ms.build (calls : List Temporality) : Ms K R := ⟨[], (calls.foldl (fun _ t => some t) none).getD .cumulative⟩

/-- What threads do with the clones of a metric exporter. -/
inductive MsAct (K R : Type) where
  | export (m : ResMs K R)
  | reset
  | forceFlush
  | shutdown

/-- `export`: 240-247, `reset`: 168-173, `force_flush`: 249-251, `shutdown`: 253-259 of metrics/in_memory_exporter.rs -/
def MsAct.run (s : Ms K R) : MsAct K R → Ms K R
  | .export m => { s with metrics := s.metrics ++ [cloneMetrics m] }
  | .reset => { s with metrics := [] }
  | .forceFlush => s
  | .shutdown => s

/-- `get_finished_metrics`. metrics/in_memory_exporter.rs:149-156 -/
def Ms.get (s : Ms K R) : List (ResMs K R) := s.metrics.map cloneMetrics

/-! ## Specification -/

/-- The batches exported by a sequence of actions on a span exporter. -/
def spanBatches (h : List (SpanAct X R)) : List (List X) := h.filterMap fun a => match a with | .export b => some b | _ => none

/-- No action that empties a span exporter. -/
def NoSpanClear (h : List (SpanAct X R)) : Prop := ∀ a ∈ h, a ≠ .reset ∧ a ≠ .shutdown

/-- The batches exported by a sequence of actions on a log exporter. -/
def logBatches (h : List (LogAct X R)) : List (List X) := h.filterMap fun a => match a with | .export b => some b | _ => none

/-- No action that empties a log exporter. -/
def NoLogClear (h : List (LogAct X R)) : Prop := ∀ a ∈ h, a ≠ .reset ∧ a ≠ .clear

/-- The last resource that was set, if any was. -/
def lastResource (h : List (LogAct X R)) : Option R := (h.filterMap fun a => match a with | .setResource r => some r | _ => none).getLast?

/-- What was exported by a sequence of actions on a metric exporter. -/
def msExports (h : List (MsAct K R)) : List (ResMs K R) := h.filterMap fun a => match a with | .export m => some m | _ => none

/-! ## Lemmas -/

theorem spans_run_noclear {h : List (SpanAct X R)} (hn : NoSpanClear h) (s : Spans X R) :
    (h.foldl SpanAct.run s).get = s.get ++ (spanBatches h).flatten := by
  induction h generalizing s with
  | nil => simp [spanBatches]
  | cons a h ih =>
    rw [List.foldl_cons, ih fun b hb => hn b (by simp [hb])]
    have ha := hn a (by simp)
    cases a with
    | «export» b => simp [SpanAct.run, Spans.export, Spans.get, spanBatches]
    | reset => exact absurd rfl ha.1
    | shutdown => exact absurd rfl ha.2
    | setResource r => simp [SpanAct.run, Spans.setResource, Spans.get, spanBatches]

theorem logs_export (s : Logs X R) (b : List X) : s.export b = { s with logs := s.logs ++ b } := by
  induction b generalizing s with
  | nil => simp [Logs.export]
  | cons x b ih =>
    have := ih { s with logs := s.logs ++ [x] }
    rw [Logs.export] at this ⊢
    rw [List.foldl_cons, this]
    simp

theorem logs_run_noclear {h : List (LogAct X R)} (hn : NoLogClear h) (s : Logs X R) :
    (h.foldl LogAct.run s).logs = s.logs ++ (logBatches h).flatten := by
  induction h generalizing s with
  | nil => simp [logBatches]
  | cons a h ih =>
    rw [List.foldl_cons, ih fun b hb => hn b (by simp [hb])]
    have ha := hn a (by simp)
    cases a with
    | «export» b => simp [LogAct.run, logs_export, logBatches]
    | reset => exact absurd rfl ha.1
    | clear => exact absurd rfl ha.2
    | flag => simp [LogAct.run, Logs.flag, logBatches]
    | setResource r => simp [LogAct.run, logBatches]

theorem logs_run_keeps (h : List (LogAct X R)) (s : Logs X R) (hs : s.shouldReset = true) :
    (h.foldl LogAct.run s).shouldReset = true ∧ (h.foldl LogAct.run s).resource = (lastResource h).getD s.resource ∧
      ((h.foldl LogAct.run s).shutdownCalled = true ↔ s.shutdownCalled = true ∨ LogAct.flag ∈ h) := by
  induction h generalizing s with
  | nil => simp [hs, lastResource]
  | cons a h ih =>
    rw [List.foldl_cons]
    cases a with
    | «export» b =>
      have := ih (LogAct.run s (.export b)) (by simp [LogAct.run, logs_export, hs])
      simpa [LogAct.run, logs_export, lastResource] using this
    | reset =>
      have := ih (LogAct.run s .reset) (by simp [LogAct.run, Logs.reset, hs])
      simpa [LogAct.run, Logs.reset, lastResource] using this
    | clear =>
      have := ih (LogAct.run s .clear) (by simp [LogAct.run, Logs.clear, Logs.reset, hs])
      simpa [LogAct.run, Logs.clear, Logs.reset, lastResource, hs] using this
    | flag =>
      have := ih (LogAct.run s .flag) (by simp [LogAct.run, Logs.flag, hs])
      simpa [LogAct.run, Logs.flag, lastResource] using this
    | setResource r =>
      have := ih (LogAct.run s (.setResource r)) (by simp [LogAct.run, hs])
      refine ⟨this.1, this.2.1.trans ?_, by simpa [LogAct.run] using this.2.2⟩
      simp only [lastResource, LogAct.run, List.filterMap_cons]
      rw [List.getLast?_cons]
      cases (List.filterMap (fun a => match a with | LogAct.setResource r => some r | _ => none) h).getLast? <;> rfl

theorem cloneData_eq (d : MData K) : cloneData d = d := by cases d <;> rfl

/-! ## Theorems -/

/-- C93, spans: whatever any threads do with the clones of the exporter, `get_finished_spans` returns every span exported since the store was last emptied (by
`reset` or `shutdown`), once each, in the order of the exports, and nothing else. -/
theorem spans_since_clear (r : R) (before after : List (SpanAct X R)) (clear : SpanAct X R) (hc : clear = .reset ∨ clear = .shutdown) (hn : NoSpanClear after) :
    ((before ++ clear :: after).foldl SpanAct.run (Spans.new r)).get = (spanBatches after).flatten ∧
    (after.foldl SpanAct.run (Spans.new r)).get = (spanBatches after).flatten := by
  refine ⟨?_, spans_run_noclear hn _⟩
  rw [List.foldl_append, List.foldl_cons, spans_run_noclear hn]
  rcases hc with rfl | rfl <;> rfl

example : ([.setResource 7, .export [3], .reset, .export [1, 2], .setResource 8, .export [4]].foldl SpanAct.run (Spans.new (X := Nat) 0)).get = [1, 2, 4] := rfl

/-- C93, log records: the same, with `reset` and the second part of `shutdown`; each record comes with the last resource that was set before the call. The exporter
says that it was shut down exactly when some `shutdown` has begun. -/
theorem logs_since_clear_partial (r : R) (before after : List (LogAct X R)) (clear : LogAct X R) (hc : clear = .reset ∨ clear = .clear) (hn : NoLogClear after) :
    ((before ++ clear :: after).foldl LogAct.run (Logs.new r)).get =
      (logBatches after).flatten.map (fun x => (x, (lastResource (before ++ clear :: after)).getD r)) ∧
    (after.foldl LogAct.run (Logs.new r)).get = (logBatches after).flatten.map (fun x => (x, (lastResource after).getD r)) ∧
    (((before ++ clear :: after).foldl LogAct.run (Logs.new r)).shutdownCalled = true ↔ LogAct.flag ∈ before ++ clear :: after) := by
  have hk := logs_run_keeps (before ++ clear :: after) (Logs.new (X := X) r) rfl
  refine ⟨?_, ?_, by simpa [Logs.new] using hk.2.2⟩
  · rw [Logs.get, hk.2.1]
    congr 1
    rw [List.foldl_append, List.foldl_cons, logs_run_noclear hn]
    rcases hc with rfl | rfl
    · rfl
    · have := (logs_run_keeps before (Logs.new (X := X) r) rfl).1
      simp [LogAct.run, Logs.clear, this, Logs.reset]
  · rw [Logs.get, (logs_run_keeps after (Logs.new (X := X) r) rfl).2.1, logs_run_noclear hn]
    rfl

example : ([.setResource 7, .export [3], .flag, .clear, .export [1, 2], .setResource 8].foldl LogAct.run (Logs.new (X := Nat) 0)).get = [(1, 8), (2, 8)] := rfl

/-- C93, metrics: `clone_metrics` loses nothing. -/
theorem clone_exact (m : ResMs K R) : cloneMetrics m = m := by
  obtain ⟨r, ss⟩ := m
  simp only [cloneMetrics, ResMs.mk.injEq, true_and]
  refine (List.map_congr_left (g := id) fun s _ => ?_).trans (List.map_id _)
  obtain ⟨sc, ms⟩ := s
  simp only [id, ScopeMs.mk.injEq, true_and]
  refine (List.map_congr_left (g := id) fun m _ => ?_).trans (List.map_id _)
  obtain ⟨n, d, u, x⟩ := m
  simp [cloneData_eq]

/-- C93, metrics: `get_finished_metrics` returns what was exported since the last `reset`, unchanged and in order; `shutdown` and `force_flush` empty nothing. -/
theorem metrics_since_reset (calls : List Temporality) (before after : List (MsAct K R)) (hn : MsAct.reset ∉ after) :
    ((before ++ .reset :: after).foldl MsAct.run (Ms.build calls)).get = msExports after ∧
    (after.foldl MsAct.run (Ms.build calls)).get = msExports after := by
  have hid : ∀ l : List (ResMs K R), l.map cloneMetrics = l := fun l => (List.map_congr_left (g := id) fun m _ => clone_exact m).trans (List.map_id _)
  have key : ∀ (after : List (MsAct K R)), MsAct.reset ∉ after → ∀ s : Ms K R, (after.foldl MsAct.run s).metrics = s.metrics ++ msExports after := by
    intro after
    induction after with
    | nil => intro _ s; simp [msExports]
    | cons a h ih =>
      intro hn s
      rw [List.foldl_cons, ih (fun hh => hn (by simp [hh]))]
      cases a with
      | «export» m => simp [MsAct.run, msExports, clone_exact]
      | reset => exact absurd (by simp) hn
      | forceFlush => simp [MsAct.run, msExports]
      | shutdown => simp [MsAct.run, msExports]
  constructor
  · rw [Ms.get, hid, List.foldl_append, List.foldl_cons, key after hn]
    rfl
  · rw [Ms.get, hid, key after hn]
    rfl

/-- C93, metrics: the temporality is the last one chosen, cumulative without a choice, and no action changes it. -/
theorem metrics_temporality (calls : List Temporality) (h : List (MsAct K R)) :
    (h.foldl MsAct.run (Ms.build calls)).temporality = calls.getLast?.getD .cumulative := by
  have h0 : ∀ s : Ms K R, (h.foldl MsAct.run s).temporality = s.temporality := by
    induction h with
    | nil => intro s; rfl
    | cons a h ih => intro s; rw [List.foldl_cons, ih]; cases a <;> rfl
  rw [h0, Ms.build]
  have : ∀ (o : Option Temporality), calls.foldl (fun _ t => some t) o = calls.getLast?.or o := by
    induction calls with
    | nil => intro o; rfl
    | cons c cs ih =>
      intro o
      rw [List.foldl_cons, ih, List.getLast?_cons]
      cases cs.getLast? <;> rfl
  rw [this]
  cases calls.getLast? <;> rfl

example : (Ms.build (K := Nat) (R := Nat) [.delta, .lowMemory]).temporality = .lowMemory ∧ (Ms.build (K := Nat) (R := Nat) []).temporality = .cumulative := ⟨rfl, rfl⟩

/-- C93 violated, spans and log records: an exporter that was shut down still takes what is exported (the specification asks exporters to refuse it, as the stdout and
OTLP exporters do). -/
theorem export_after_shutdown_violated : ∃ (h : List (SpanAct Nat Nat)) (g : List (LogAct Nat Nat)), .shutdown ∈ h ∧ .flag ∈ g ∧ .clear ∈ g ∧
    (h.foldl SpanAct.run (Spans.new 0)).get = [5] ∧ (g.foldl LogAct.run (Logs.new 0)).get = [(5, 0)] :=
  ⟨[.shutdown, .export [5]], [.flag, .clear, .export [5]], by simp, by simp, by simp, rfl, rfl⟩

/-- C93 violated, log records: when clones of one exporter serve two providers, the records of the first come out with the resource of the second, because the resource
is attached when records are read and not when they are exported. -/
theorem resource_violated : ∃ before after : List (LogAct Nat Nat),
    (before.foldl LogAct.run (Logs.new 0)).get = [(5, 1)] ∧ ((before ++ after).foldl LogAct.run (Logs.new 0)).get = [(5, 2)] ∧ logBatches after = [] :=
  ⟨[.setResource 1, .export [5]], [.setResource 2], rfl, rfl, rfl⟩

/-! ## Behind a processor -/

/-- A processor and an in-memory exporter of spans; its exports always succeed. The steps of the processor are those of C91. -/
inductive Feeds (p : Proc X) (r : R) : p.S → Spans X R → Prop
  | init : Feeds p r p.init (Spans.new r)
  | quiet {s s' m} : Feeds p r s m → p.step s true s' → p.exported s' = p.exported s → p.shutdowns s' = p.shutdowns s → Feeds p r s' m
  | export {s s' m} (b : List X) : Feeds p r s m → p.step s true s' → p.exported s' = p.exported s ++ [b] → p.shutdowns s' = p.shutdowns s → Feeds p r s' (m.export b)
  | shut {s s' m} : Feeds p r s m → p.step s true s' → p.exported s' = p.exported s → p.shutdowns s' = p.shutdowns s + 1 → Feeds p r s' m.shutdown

/-- A processor and an in-memory exporter of log records. -/
inductive FeedsLogs (p : Proc X) (r : R) : p.S → Logs X R → Prop
  | init : FeedsLogs p r p.init (Logs.new r)
  | quiet {s s' m} : FeedsLogs p r s m → p.step s true s' → p.exported s' = p.exported s → p.shutdowns s' = p.shutdowns s → FeedsLogs p r s' m
  | export {s s' m} (b : List X) : FeedsLogs p r s m → p.step s true s' → p.exported s' = p.exported s ++ [b] → p.shutdowns s' = p.shutdowns s → FeedsLogs p r s' (m.export b)
  | shut {s s' m} : FeedsLogs p r s m → p.step s true s' → p.exported s' = p.exported s → p.shutdowns s' = p.shutdowns s + 1 → FeedsLogs p r s' m.shutdown

theorem feeds_state {p : Proc X} {r : R} {s : p.S} {m : Spans X R} (h : Feeds p r s m)
    (P : p.S → Prop) (h0 : P p.init) (h1 : ∀ s s', P s → p.step s true s' → P s') : P s := by
  induction h with
  | init => exact h0
  | quiet _ hs _ _ ih => exact h1 _ _ ih hs
  | «export» b _ hs _ _ ih => exact h1 _ _ ih hs
  | shut _ hs _ _ ih => exact h1 _ _ ih hs

theorem feedsLogs_state {p : Proc X} {r : R} {s : p.S} {m : Logs X R} (h : FeedsLogs p r s m)
    (P : p.S → Prop) (h0 : P p.init) (h1 : ∀ s s', P s → p.step s true s' → P s') : P s := by
  induction h with
  | init => exact h0
  | quiet _ hs _ _ ih => exact h1 _ _ ih hs
  | «export» b _ hs _ _ ih => exact h1 _ _ ih hs
  | shut _ hs _ _ ih => exact h1 _ _ ih hs

theorem feeds_get {p : Proc X} {r : R} {s : p.S} {m : Spans X R} (h : Feeds p r s m) (hz : p.shutdowns s ≤ p.shutdowns p.init) :
    p.shutdowns p.init ≤ p.shutdowns s ∧ m.get = (p.exported s).flatten := by
  have hmono : ∀ {s m}, Feeds p r s m → p.shutdowns p.init ≤ p.shutdowns s := by
    intro s m h
    induction h with
    | init => exact Nat.le_refl _
    | quiet _ _ _ e ih => omega
    | «export» b _ _ _ e ih => omega
    | shut _ _ _ e ih => omega
  refine ⟨hmono h, ?_⟩
  induction h with
  | init => rw [p.fresh]; rfl
  | quiet _ _ e1 e2 ih => rw [e1]; exact ih (by omega)
  | «export» b _ _ e1 e2 ih => rw [e1, Spans.get, Spans.export, List.flatten_append, ← ih (by omega)]; simp [Spans.get]
  | shut h _ _ e2 _ => have := hmono h; omega

theorem feedsLogs_get {p : Proc X} {r : R} {s : p.S} {m : Logs X R} (h : FeedsLogs p r s m) (hz : p.shutdowns s ≤ p.shutdowns p.init) :
    p.shutdowns p.init ≤ p.shutdowns s ∧ m.get = (p.exported s).flatten.map (fun x => (x, r)) := by
  have hmono : ∀ {s m}, FeedsLogs p r s m → p.shutdowns p.init ≤ p.shutdowns s := by
    intro s m h
    induction h with
    | init => exact Nat.le_refl _
    | quiet _ _ _ e ih => omega
    | «export» b _ _ _ e ih => omega
    | shut _ _ _ e ih => omega
  have hres : ∀ {s m}, FeedsLogs p r s m → m.resource = r := by
    intro s m h
    induction h with
    | init => rfl
    | quiet _ _ _ e ih => exact ih
    | «export» b _ _ _ e ih => rw [logs_export]; exact ih
    | shut _ _ _ e ih => rw [← ih, Logs.shutdown, Logs.clear]; split <;> rfl
  refine ⟨hmono h, ?_⟩
  rw [Logs.get, hres h]
  congr 1
  induction h with
  | init => rw [p.fresh]; rfl
  | quiet _ _ e1 e2 ih => rw [e1]; exact ih (by omega)
  | «export» b _ _ e1 e2 ih => rw [e1, logs_export, List.flatten_append, ← ih (by omega)]; simp
  | shut h _ _ e2 _ => have := hmono h; omega

/-- C93 with the batch span processor: whatever the schedule, the exporter shows a prefix of the spans the processor accepted, also after the provider has been shut
down; once a `force_flush` or `shutdown` has returned a result and at most one batch was waiting when it was called, all spans accepted before the call are there. -/
theorem batch_spans_shown_partial (cfg : Sdk.Bsp.Cfg) (r : R) (s : Sdk.Bsp.State X) (m : Spans X R) (h : Feeds (spanProc cfg X) r s m) :
    m.get <+: s.accepted ∧
    ∀ (tok : Nat) (res : Sdk.Bsp.Res), (tok, Sdk.Bsp.Ret.result res) ∈ s.returned → (s.atCall tok).1 ≤ (s.atCall tok).2 + cfg.maxBatch →
      s.accepted.take (s.atCall tok).1 <+: m.get := by
  have hreach : Sdk.Bsp.Reachable cfg s := feeds_state h (Sdk.Bsp.Reachable cfg) .init fun s s' hr ⟨a, ha, _⟩ => .step hr ha
  have hget := (feeds_get h (Nat.le_of_eq (Sdk.Bsp.exporter_shutdown_violated cfg s hreach))).2
  rw [hget]
  refine ⟨?_, fun tok res hr hfit => Sdk.Bsp.flush_exports_all_partial cfg s hreach tok res hr hfit⟩
  show s.exported.flatten <+: s.accepted
  rw [(Sdk.Bsp.inv_reachable hreach).conserved, List.append_assoc]
  exact List.prefix_append _ _

/-- C93 with the batch log processor: until the exporter is shut down it shows a prefix of the records the processor accepted, with the provider's resource. -/
theorem batch_logs_shown (cfg : Sdk.Bsp.Cfg) (r : R) (s : Logs.Blp.State X) (m : Logs X R) (h : FeedsLogs (logProc cfg X) r s m) (hz : s.exporterShutdowns = 0) :
    m.get <+: s.accepted.map (fun x => (x, r)) := by
  have hreach : Otel.Logs.Blp.Reachable cfg s := feedsLogs_state h (Otel.Logs.Blp.Reachable cfg) .init fun s s' hr ⟨a, ha, _⟩ => .step hr ha
  rw [(feedsLogs_get h (Nat.le_of_eq hz)).2]
  show s.exported.flatten.map _ <+: _
  rw [(Otel.Logs.Blp.inv_reachable hreach).conserved, List.append_assoc, List.map_append]
  exact List.prefix_append _ _

theorem feedsLogs_gone {p : Proc X} {r : R} (P : p.S → Prop) (h0 : P p.init) (h1 : ∀ s s', P s → p.step s true s' → P s') (hi : p.shutdowns p.init = 0)
    (h2 : ∀ s s', P s → p.step s true s' → p.shutdowns s ≠ 0 → p.exported s' = p.exported s) {s : p.S} {m : Logs X R} (h : FeedsLogs p r s m) :
    m.shouldReset = true ∧ (p.shutdowns s ≠ 0 → m.logs = [] ∧ m.shutdownCalled = true) := by
  induction h with
  | init => exact ⟨rfl, fun hh => absurd hi hh⟩
  | quiet _ _ _ e ih => rw [e]; exact ih
  | @«export» s s' m b h hs e1 e2 ih =>
    refine ⟨by rw [logs_export]; exact ih.1, fun hh => ?_⟩
    rw [e2] at hh
    have := h2 s s' (feedsLogs_state h P h0 h1) hs hh
    rw [this] at e1
    exact absurd (congrArg List.length e1) (by simp)
  | shut _ _ _ e ih =>
    have hc : ∀ m : Logs X R, m.shouldReset = true → m.shutdown = { m with logs := [], shutdownCalled := true } := by
      intro m hm
      simp [Logs.shutdown, Logs.flag, Logs.clear, Logs.reset, hm]
    rw [hc _ ih.1]
    exact ⟨ih.1, fun _ => ⟨rfl, rfl⟩⟩

/-- C93 violated with the batch log processor: once its exporter has been shut down, which a `shutdown` of the provider does before it returns, the exporter shows no
record at all, whatever was emitted before. -/
theorem logs_gone_violated (cfg : Sdk.Bsp.Cfg) (r : R) (s : Logs.Blp.State X) (m : Logs X R) (h : FeedsLogs (logProc cfg X) r s m) (hz : s.exporterShutdowns ≠ 0) :
    m.get = [] ∧ m.shutdownCalled = true := by
  obtain ⟨h1, h2⟩ := (feedsLogs_gone (p := logProc cfg X) (Otel.Logs.Blp.Reachable cfg) .init (fun s s' hr ⟨a, ha, _⟩ => .step hr ha) rfl
    (fun s s' hr ⟨a, ha, _⟩ hz => by
      have hn := Otel.Logs.Blp.nothing_after_exporter_shutdown cfg s s' hr (.step .refl ha)
      have hz : s.exporterShutdowns ≠ 0 := hz
      exact (hn.2 (by omega)).1) h).2 hz
  exact ⟨by rw [Logs.get, h1]; rfl, h2⟩

/-! ### The simple processor -/

/-- The calls of a program on a simple processor with an in-memory exporter: the processor and the store afterwards. -/
def simpleShown {A I : Type} (r : R) (ops : List (Sdk.SimpleOp A I)) : Sdk.SimpleProc A I × Spans (Sdk.Exported A I) R :=
  ops.foldl (fun st op =>
    let p := st.1.run [op]
    -- what the processor did with its exporter
    let m := ((p.exports.drop st.1.exports.length).foldl Spans.export st.2)
    (p, if p.shutdowns = st.1.shutdowns then m else m.shutdown)) (⟨[], 0⟩, Spans.new r)

/-- C93 with the simple span processor: the exporter shows exactly the sampled spans that ended since the last `shutdown` of the processor, in order. -/
theorem simple_spans_shown {A I : Type} (r : R) (before after : List (Sdk.SimpleOp A I)) (hn : ∀ o ∈ after, o ≠ .shutdown) :
    (simpleShown r (before ++ .shutdown :: after)).2.get = (Sdk.endedSpans after).filter (fun x => x.spanContext.isSampled) ∧
    (simpleShown r after).2.get = (Sdk.endedSpans after).filter (fun x => x.spanContext.isSampled) := by
  have key : ∀ (st : Sdk.SimpleProc A I × Spans (Sdk.Exported A I) R), (after.foldl (fun st op =>
    let p := st.1.run [op]
    let m := ((p.exports.drop st.1.exports.length).foldl Spans.export st.2)
    (p, if p.shutdowns = st.1.shutdowns then m else m.shutdown)) st).2.get = st.2.get ++ (Sdk.endedSpans after).filter (fun x => x.spanContext.isSampled) := by
    induction after with
    | nil => intro st; simp [Sdk.endedSpans]
    | cons o after ih =>
      intro st
      rw [List.foldl_cons, ih fun o ho => hn o (by simp [ho])]
      cases o with
      | shutdown => exact absurd rfl (hn _ (by simp))
      | onEnd x =>
        by_cases hs : x.spanContext.isSampled = true
        · simp [Sdk.SimpleProc.run, Sdk.SimpleProc.onEnd, hs, Sdk.endedSpans, Spans.export, Spans.get]
        · simp [Sdk.SimpleProc.run, Sdk.SimpleProc.onEnd, hs, Sdk.endedSpans, Spans.get]
  constructor
  · rw [simpleShown, List.foldl_append, List.foldl_cons, key]
    simp [Sdk.SimpleProc.run, Sdk.SimpleProc.shutdown, Spans.shutdown, Spans.reset, Spans.get]
  · rw [simpleShown, key]
    rfl

example : (simpleShown (A := Nat) (I := Unit) 0 [.onEnd Sdk.recordOnlySpan]).2.get = [] := rfl

/-! ### Witnesses -/

theorem feeds_of_run {cfg : Sdk.Bsp.Cfg} {r : R} (as : List (Sdk.Bsp.Action X)) (hw : ∀ b, .work b ∈ as → b = true) {s s' : Sdk.Bsp.State X} {m : Spans X R}
    (h : Feeds (spanProc cfg X) r s m) (hr : Sdk.Bsp.runAll cfg s as = some s') : ∃ m', Feeds (spanProc cfg X) r s' m' := by
  induction as generalizing s m with
  | nil => simp [Sdk.Bsp.runAll] at hr; subst hr; exact ⟨m, h⟩
  | cons a as ih =>
    simp only [Sdk.Bsp.runAll] at hr
    split at hr
    · rename_i s1 hs1
      have hst : (spanProc cfg X).step s true s1 := ⟨a, hs1, fun b hb => hw b (by simp [hb])⟩
      obtain ⟨h1, h2 | ⟨ok, b, _, h2⟩⟩ := bsp_step_exporter hs1
      · exact ih (fun b hb => hw b (by simp [hb])) (.quiet h hst h2 h1) hr
      · exact ih (fun b hb => hw b (by simp [hb])) (.export b h hst h2 h1) hr
    · cases hr

theorem feedsLogs_of_run {cfg : Sdk.Bsp.Cfg} {r : R} (as : List (Logs.Blp.Action X)) (hw : ∀ b, .work b ∈ as → b = true) {s s' : Logs.Blp.State X} {m : Logs X R}
    (h : FeedsLogs (logProc cfg X) r s m) (hr : Otel.Logs.Blp.runAll cfg s as = some s') : ∃ m', FeedsLogs (logProc cfg X) r s' m' := by
  induction as generalizing s m with
  | nil => simp [Otel.Logs.Blp.runAll] at hr; subst hr; exact ⟨m, h⟩
  | cons a as ih =>
    simp only [Otel.Logs.Blp.runAll] at hr
    split at hr
    · rename_i s1 hs1
      have hst : (logProc cfg X).step s true s1 := ⟨a, hs1, fun b hb => hw b (by simp [hb])⟩
      rcases blp_step_exporter hs1 with ⟨h1, h2 | ⟨ok, b, _, h2⟩⟩ | ⟨h1, h2⟩
      · exact ih (fun b hb => hw b (by simp [hb])) (.quiet h hst h2 h1) hr
      · exact ih (fun b hb => hw b (by simp [hb])) (.export b h hst h2 h1) hr
      · exact ih (fun b hb => hw b (by simp [hb])) (.shut h hst h2 h1) hr
    · cases hr

/-- Two spans end and a flush returns: the exporter shows both. -/
example : ∃ (s : Sdk.Bsp.State Nat) (m : Spans Nat Nat), Feeds (spanProc ⟨2, 10⟩ Nat) 0 s m ∧ (0, Sdk.Bsp.Ret.result .ok) ∈ s.returned ∧ s.atCall 0 = (2, 0) ∧ m.get = [5, 6] := by
  have h : (Sdk.Bsp.runAll ⟨2, 10⟩ Sdk.Bsp.State.init ([.call 0 (.onEnd 5), .thread 0, .thread 0, .thread 0, .call 0 (.onEnd 6), .thread 0, .thread 0, .thread 0,
      .call 1 .forceFlush, .thread 1, .thread 1, .take, .work true, .work true, .work true, .work true, .work true, .thread 1])).map
        (fun s => (s.returned, s.atCall 0, s.exported)) = some ([(0, Sdk.Bsp.Ret.result .ok)], (2, 0), [[5, 6]]) := rfl
  obtain ⟨s, hs, he⟩ := Option.map_eq_some_iff.1 h
  simp only [Prod.mk.injEq] at he
  obtain ⟨m, hm⟩ := feeds_of_run (r := 0) _ (by intro b hb; simpa using hb) .init hs
  have hreach : Sdk.Bsp.Reachable ⟨2, 10⟩ s := feeds_state hm (Sdk.Bsp.Reachable ⟨2, 10⟩) .init fun s s' hr ⟨a, ha, _⟩ => .step hr ha
  refine ⟨s, m, hm, by rw [he.1]; simp, he.2.1, ?_⟩
  rw [(feeds_get hm (Nat.le_of_eq (Sdk.Bsp.exporter_shutdown_violated _ s hreach))).2]
  show s.exported.flatten = _
  rw [he.2.2]; rfl

/-- A record is exported, the provider is shut down with success, and the exporter shows nothing. -/
example : ∃ (s : Logs.Blp.State Nat) (m : Logs Nat Nat), FeedsLogs (logProc ⟨10, 10⟩ Nat) 0 s m ∧ s.exported = [[5]] ∧ (0, Sdk.Bsp.Ret.result .ok, 0) ∈ s.returned ∧ m.get = [] := by
  have h : (Otel.Logs.Blp.runAll ⟨10, 10⟩ Otel.Logs.Blp.State.init ([.call 0 (.emit 5), .thread 0, .thread 0, .call 0 .shutdown, .thread 0, .take, .work true, .work true,
      .work true, .work true, .work true, .work true, .work true, .work true, .work true, .work true, .thread 0, .thread 0])).map
        (fun s => (s.returned, s.exported, s.exporterShutdowns)) = some ([(0, Sdk.Bsp.Ret.result .ok, 0)], [[5]], 1) := rfl
  obtain ⟨s, hs, he⟩ := Option.map_eq_some_iff.1 h
  simp only [Prod.mk.injEq] at he
  obtain ⟨m, hm⟩ := feedsLogs_of_run (r := 0) _ (by intro b hb; simpa using hb) .init hs
  exact ⟨s, m, hm, he.2.1, by rw [he.1]; simp, (logs_gone_violated _ 0 s m hm (by rw [he.2.2]; decide)).1⟩

end Otel.Memory
