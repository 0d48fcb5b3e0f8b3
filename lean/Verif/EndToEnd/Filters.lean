import Verif.Appender.TracingProps
/-!
# C116: what the exporters of a logger provider want, and which events they get

Each exporter may refuse events (`LogExporter::event_enabled`); a processor passes the question on, or answers for itself; the logger asks all
processors; the `tracing` layer asks the logger before it makes a record (feature `spec_unstable_logs_enabled`).
-/

namespace Otel.EndToEnd.Filters
open Rust Otel.Appender
open Logs (RecOp Record Processor Prepared Handed watchAll)
open Otlp (LVal Severity)
open Otel.Sdk (Cx)

variable {Time I W B : Type} {U : Nat → Type}

/-- The processors of the SDK. `poisoned`: an export panicked while it held the exporter's lock. -/
inductive Kind where
  | simple (poisoned : Bool)
  | concurrent
  | batch
  | asyncBatch
deriving DecidableEq, Repr

/-- A processor and what its exporter wants. -/
structure Proc where
  kind : Kind
  wants : Filter

/-- The processor's `event_enabled`. simple_log_processor.rs:137-150, concurrent_log_processor.rs:50-59; batch_log_processor.rs and
log_processor_with_async_runtime.rs have none, so the default of the trait holds: log_processor.rs:60-65 -/
def Proc.enabled (p : Proc) : Filter := match p.kind with
  | .simple poisoned => if poisoned then fun _ _ _ => true else p.wants
  | .concurrent => p.wants
  | .batch => fun _ _ _ => true
  | .asyncBatch => fun _ _ _ => true

/-- The default of an exporter that does not implement the question: everything. export.rs:142-147 -/
def defaultWants : Filter := fun _ _ _ => true

/-- The event goes to the exporter. -/
def Wanted (p : Proc) (ev : Event) : Prop :=
  p.wants (severityOfLevel ev.metadata.level) ev.metadata.target (some ev.metadata.name) = true

/-- A processor answers true when its exporter does. -/
theorem enabled_of_wants (p : Proc) (l : Severity) (t : Str) (n : Option Str) (h : p.wants l t n = true) : p.enabled l t n = true := by
  obtain ⟨k, f⟩ := p
  cases k with
  | simple b => cases b <;> simp_all [Proc.enabled]
  | _ => simp_all [Proc.enabled]

/-- **C116** No event that some exporter wants is held back: outside a suppressed context it is handed to every processor exactly once, in the
order of registration, as the record that says what the event said. -/
theorem wanted_event_delivered (ft : Features) (scope : I) (procs : List Proc) (ps : List (Processor Any Time Severity I W))
    (cx : Cx B U) (now : Time) (ev : Event) (w : W) (hs : cx.suppress = false) (p : Proc) (hp : p ∈ procs) (hw : Wanted p ev) :
    ∃ r r0 w' cs, onEvent ft scope (procs.map Proc.enabled) (watchAll 0 ps) cx now ev (w, []) = some (w', cs) ∧ Carries ft ev r
      ∧ Prepared cx r r0 ∧ cs.map Logs.Call.who = List.range ps.length ∧ (∀ c ∈ cs, c.scope = scope) ∧ Handed r0 cs :=
  event_carried ft scope _ ps cx now ev w hs fun _ =>
    ⟨p.enabled, List.mem_map.2 ⟨p, hp, rfl⟩, enabled_of_wants p _ _ _ hw⟩

/-- **C116 (partial)** With the question compiled in, an event no exporter wants reaches no processor, if every processor passes the question on:
simple ones whose lock is sound, and concurrent ones. Missing: the batch processors, see `batch_filter_ignored_violated`. -/
theorem unwanted_event_held_back_partial (ft : Features) (hft : ft.logsEnabled = true) (scope : I) (procs : List Proc)
    (ps : List (Processor Any Time Severity I W)) (cx : Cx B U) (now : Time) (ev : Event) (w : W)
    (hk : ∀ p ∈ procs, p.kind = .simple false ∨ p.kind = .concurrent) (hw : ∀ p ∈ procs, ¬ Wanted p ev) :
    onEvent ft scope (procs.map Proc.enabled) ps cx now ev w = some w := by
  refine event_unwanted ft scope _ ps cx now ev w (Or.inr ⟨hft, ?_⟩)
  intro f hf
  obtain ⟨p, hp, rfl⟩ := List.mem_map.1 hf
  have h1 := hw p hp
  have : p.enabled = p.wants := by
    rcases hk p hp with h | h <;> simp [Proc.enabled, h]
  rw [this]
  simpa [Wanted] using h1

/-- **C116, false as it stands** A batch processor never asks its exporter: an event its exporter refuses is made into a record and handed to it,
whatever the event and whatever else is registered. -/
theorem batch_filter_ignored_violated (ft : Features) (scope : I) (others : List Proc) (k : Kind) (hk : k = .batch ∨ k = .asyncBatch)
    (ps : List (Processor Any Time Severity I W)) (cx : Cx B U) (now : Time) (ev : Event) (w : W) (hs : cx.suppress = false) :
    let p : Proc := ⟨k, fun _ _ _ => false⟩
    ¬ Wanted p ev ∧
    ∃ r0 w' cs, onEvent ft scope ((p :: others).map Proc.enabled) (watchAll 0 ps) cx now ev (w, []) = some (w', cs)
      ∧ cs.map Logs.Call.who = List.range ps.length ∧ Handed r0 cs := by
  refine ⟨by simp [Wanted], ?_⟩
  obtain ⟨r, r0, w', cs, h1, _, _, h2, _, h3⟩ := event_carried ft scope (((⟨k, fun _ _ _ => false⟩ : Proc) :: others).map Proc.enabled) ps cx now ev w hs
    (fun _ => ⟨_, List.mem_cons_self, by rcases hk with rfl | rfl <;> rfl⟩)
  exact ⟨r0, w', cs, h1, h2, h3⟩

/-- **C116, false as it stands** An exporter that refuses an event is handed it all the same as soon as another exporter wants it: the logger asks
whether anybody wants the event, and then gives it to everybody. Here two concurrent processors, of which the first's exporter refuses everything. -/
theorem refused_event_delivered_violated (ft : Features) (scope : I) (p q : Processor Any Time Severity I W) (cx : Cx B U) (now : Time) (ev : Event)
    (w : W) (hs : cx.suppress = false) :
    ∃ r0 w' cs, onEvent ft scope ([⟨.concurrent, fun _ _ _ => false⟩, ⟨.concurrent, defaultWants⟩].map Proc.enabled) (watchAll 0 [p, q]) cx now ev (w, [])
      = some (w', cs) ∧ cs.map Logs.Call.who = [0, 1] ∧ Handed r0 cs := by
  obtain ⟨r, r0, w', cs, h1, _, _, h2, _, h3⟩ := event_carried ft scope
    ([⟨.concurrent, fun _ _ _ => false⟩, ⟨.concurrent, defaultWants⟩].map Proc.enabled) [p, q] cx now ev w hs
    (fun _ => ⟨defaultWants, by simp [Proc.enabled], rfl⟩)
  exact ⟨r0, w', cs, h1, h2, h3⟩

/-- A simple processor whose exporter wants warnings, beside one that wants nothing: the premise of `wanted_event_delivered` is met for a warning
and that of `unwanted_event_held_back_partial` for a debug event. -/
example : let procs : List Proc := [⟨.simple false, fun s _ _ => decide (s = .warn)⟩, ⟨.concurrent, fun _ _ _ => false⟩]
    let ev : Level → Event := fun l => ⟨⟨l, "app".toList, "event".toList, none, none, none⟩, none, [], []⟩
    (∃ p ∈ procs, Wanted p (ev .warn)) ∧ (∀ p ∈ procs, ¬ Wanted p (ev .debug))
      ∧ (∀ p ∈ procs, p.kind = .simple false ∨ p.kind = .concurrent) := by
  refine ⟨⟨_, List.mem_cons_self, rfl⟩, ?_, ?_⟩
  · intro p hp
    simp only [List.mem_cons, List.not_mem_nil, or_false] at hp
    rcases hp with rfl | rfl <;> simp [Wanted, severityOfLevel]
  · intro p hp
    simp only [List.mem_cons, List.not_mem_nil, or_false] at hp
    rcases hp with rfl | rfl <;> simp

end Otel.EndToEnd.Filters
