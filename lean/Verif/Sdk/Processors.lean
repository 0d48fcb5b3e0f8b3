import Verif.Sdk.Span
import Verif.Sdk.BspProps

/-! # C25: which spans reach an exporter -/

namespace Otel.Sdk

variable {A I : Type}

/-- The calls an exporter received from a `SimpleSpanProcessor`, oldest first. -/
structure SimpleProc (A I : Type) where
  exports : List (List (Exported A I))
  shutdowns : Nat

/-- `SimpleSpanProcessor::on_end`: filter, then one export per span, under a lock, so calls by several threads are a sequence.
A poisoned lock is not modelled. opentelemetry-sdk/src/trace/span_processor.rs:132-150 -/
def SimpleProc.onEnd (p : SimpleProc A I) (x : Exported A I) : SimpleProc A I :=
  if !x.spanContext.isSampled then p else { p with exports := p.exports ++ [[x]] }

/-- `SimpleSpanProcessor::shutdown` calls the exporter's. span_processor.rs:157-165 -/
def SimpleProc.shutdown (p : SimpleProc A I) : SimpleProc A I := { p with shutdowns := p.shutdowns + 1 }

/-- The calls on a simple processor. -/
inductive SimpleOp (A I : Type) where
  | onEnd (x : Exported A I)
  | shutdown

/-- Run calls. -/
def SimpleProc.run (p : SimpleProc A I) (ops : List (SimpleOp A I)) : SimpleProc A I :=
  ops.foldl (fun p o => match o with | .onEnd x => p.onEnd x | .shutdown => p.shutdown) p

/-- The spans that ended, in order. -/
def endedSpans (ops : List (SimpleOp A I)) : List (Exported A I) :=
  ops.filterMap fun o => match o with | .onEnd x => some x | .shutdown => none

/-- **C25 (simple processor)** The exporter of a simple processor receives exactly the sampled spans, each alone in one export,
in the order they ended; no unsampled one. -/
theorem simple_exports_sampled_partial (ops : List (SimpleOp A I)) :
    (SimpleProc.run ⟨[], 0⟩ ops).exports = ((endedSpans ops).filter (fun x => x.spanContext.isSampled)).map (fun x => [x]) := by
  suffices h : ∀ p : SimpleProc A I, (SimpleProc.run p ops).exports
      = p.exports ++ ((endedSpans ops).filter (fun x => x.spanContext.isSampled)).map (fun x => [x]) by
    simpa using h ⟨[], 0⟩
  induction ops with
  | nil => intro p; simp [SimpleProc.run, endedSpans]
  | cons o ops ih =>
    intro p
    have hrun : SimpleProc.run p (o :: ops)
        = SimpleProc.run (match o with | .onEnd x => p.onEnd x | .shutdown => p.shutdown) ops := rfl
    rw [hrun, ih]
    cases o with
    | shutdown => simp [endedSpans, SimpleProc.shutdown]
    | onEnd x =>
      by_cases hs : x.spanContext.isSampled = true
      · simp [endedSpans, SimpleProc.onEnd, hs]
      · simp [endedSpans, SimpleProc.onEnd, hs]

/-- A span that is recorded but not sampled, as `RecordOnly` makes them. -/
def recordOnlySpan : Exported Nat Unit where
  spanContext := ⟨7, 9, 0, false, TraceState.none⟩
  data := { parentSpanId := 0, spanKind := .internal, name := [], startTime := 0, endTime := 1, attributes := [],
            droppedAttributesCount := 0, events := ⟨[], 0⟩, links := ⟨[], 0⟩, status := .unset }
  scope := ()

open Bsp in
/-- **C25 (batch processor, violated)** The batch processor does not look at the sampled flag: it exports a span whose context is
not sampled. -/
theorem batch_exports_unsampled_violated : ∃ s : Bsp.State (Exported Nat Unit), Bsp.Reachable ⟨10, 10⟩ s
    ∧ s.exported = [[recordOnlySpan]] ∧ recordOnlySpan.spanContext.isSampled = false := by
  have h : (Bsp.runAll ⟨10, 10⟩ Bsp.State.init [.call 0 (.onEnd recordOnlySpan), .thread 0, .thread 0, .timer, .work true, .work true,
      .work true]).map (fun s => s.exported) = some [[recordOnlySpan]] := by rfl
  obtain ⟨s, hs, he⟩ := Option.map_eq_some_iff.1 h
  exact ⟨s, Bsp.reachable_runAll .init _ hs, he, by decide⟩

/-- The batch processor exports exactly the accepted spans whatever their flags (C26 for this type). -/
theorem batch_exports_any (cfg : Bsp.Cfg) (s : Bsp.State (Exported A I)) (h : Bsp.Reachable cfg s) (x : Exported A I)
    (hx : x ∈ s.exported.flatten) : x ∈ s.accepted := by
  rw [(Bsp.inv_reachable h).conserved]
  simp only [List.mem_append]
  exact Or.inl (Or.inl hx)

end Otel.Sdk
