import Verif.Sdk.Scoped
import Verif.Sdk.SpanLife
/-! # Start and end notifications of a span, C64 -/

namespace Otel.Sdk
open Otel.Ctx Rust Spec

variable {A I W B : Type} {U : Nat → Type}

theorem runHist_starts (env : Env A I B U W) (h : List (HistOp A W)) (s : Span A I) (st : PState A I W) :
    (runHist env h (s, st)).2.obs.starts = st.obs.starts := by
  induction h generalizing s st with
  | nil => rfl
  | cons o h ih =>
    rw [runHist_cons]
    refine (ih (o.run env (s, st)).1 (o.run env (s, st)).2).trans ?_
    cases o with
    | op c => exact Scoped.run_starts env c s st
    | shutdown => rfl
    | world w => rfl

/-- **C64 (partial)** A span started with any builder in any context, under processors that only watch, and not dropped by sampling: whatever
is done with it until it is dropped, each processor is told its start once and its end once, in the order of the processors, if the provider is not
shut down in its life. Missing: spans dropped by sampling (`on_start_pairs_violated`), processors that end the span while it starts
(`end_before_start_violated`), and a shutdown during its life, after which no end is told (`shutdown_first`). -/
theorem recorded_pairs_partial (env : Env A I B U W) (hp : Passive env) (cfg : Config A (Link A) B U W) (scope : I) (b : SpanBuilder A)
    (cx : Cx B U) (st : PState A I W) (hs : cx.suppress = false) (hd : st.isShutdown = false) :
    ∃ sr, IsDecision cfg b cx (buildWithContext env cfg scope b cx st).1.spanContext.traceId sr ∧
      (sr.decision ≠ .drop → ∀ h : List (HistOp A W), HistOp.shutdown ∉ h → ∃ ends : List (Nat × Exported A I),
        (dropSpan env (runHist env h (buildWithContext env cfg scope b cx st))).obs.ends = st.obs.ends ++ ends ∧
        (dropSpan env (runHist env h (buildWithContext env cfg scope b cx st))).obs.starts
          = st.obs.starts ++ ends.map (fun e => (e.1, e.2.spanContext)) ∧
        ends.map (fun e => e.1) = List.range env.processors.length ∧
        ∀ e ∈ ends, e.2.spanContext = (buildWithContext env cfg scope b cx st).1.spanContext) := by
  obtain ⟨sr, hdec, h1, h2, h3⟩ := build_passive env hp cfg scope b cx st hs hd
  refine ⟨sr, hdec, fun hne h hsd => ?_⟩
  obtain ⟨start, -, hsp⟩ := h3 hne
  have hdat : (buildWithContext env cfg scope b cx st).1.data = some (recordingData cfg.limits (spanContextOf cx) b sr.attributes start) := by
    rw [hsp]
  have hst : (dropSpan env (runHist env h (buildWithContext env cfg scope b cx st))).obs.starts = st.obs.starts ++
      (List.range env.processors.length).map (fun i => (i, (buildWithContext env cfg scope b cx st).1.spanContext)) := by
    rw [dropSpan, Scoped.ensureEnded_starts, runHist_starts env h _ (buildWithContext env cfg scope b cx st).2,
      on_start_once env cfg scope b cx st hs hd]
  have key : ∃ x : Exported A I, x.spanContext = (buildWithContext env cfg scope b cx st).1.spanContext ∧
      (dropSpan env (runHist env h (buildWithContext env cfg scope b cx st))).obs.ends
        = st.obs.ends ++ oncePerProcessor env.processors.length x := by
    rcases history_cases h with hq | ⟨pre, o, post, hq, rfl, rfl | rfl | ⟨t, rfl⟩⟩
    · exact ⟨_, rfl, h2 ▸ dropped_once env _ (buildWithContext env cfg scope b cx st).2 _ hdat h1 h hq⟩
    · simp at hsd
    · exact ⟨_, rfl, h2 ▸ ended_once_now env _ (buildWithContext env cfg scope b cx st).2 _ hdat h1 pre post hq⟩
    · exact ⟨_, rfl, h2 ▸ ended_once env _ (buildWithContext env cfg scope b cx st).2 _ hdat h1 pre post hq t⟩
  obtain ⟨x, hx, he⟩ := key
  refine ⟨oncePerProcessor env.processors.length x, he, ?_, ?_, ?_⟩
  · rw [hst]
    simp [oncePerProcessor, hx, Function.comp_def]
  · simp [oncePerProcessor, Function.comp_def]
  · intro e hmem
    obtain ⟨i, -, rfl⟩ := List.mem_map.1 hmem
    exact hx

/-- A processor that ends every span while it starts, followed by one that only watches; both write down what they are told: their number and whether it was
a start. -/
def meddling : Env Nat Unit Unit (fun _ => Unit) (List (Nat × Bool)) where
  now w := (w.length, w)
  processors := [⟨fun _ _ w => ([.endNow], w ++ [(0, true)]), fun _ w => w ++ [(0, false)]⟩,
    ⟨fun _ _ w => ([], w ++ [(1, true)]), fun _ w => w ++ [(1, false)]⟩]

/-- A configuration that samples every span. -/
def meddlingCfg : Config Nat (Link Nat) Unit (fun _ => Unit) (List (Nat × Bool)) where
  newTraceId w := (1, w)
  newSpanId w := (1, w)
  sampler _ w := (⟨.recordAndSample, [], TraceState.none⟩, w)
  limits := SpanLimits.default

/-- **C64 (order, violated)** `on_start` gets the span itself and may end it: a processor registered later is then told the end of the span before
its start. -/
theorem end_before_start_violated :
    (buildWithContext meddling meddlingCfg () {} (Context.new : Cx Unit (fun _ => Unit)) ⟨false, ⟨[], []⟩, []⟩).2.world
      = [(0, true), (0, false), (1, false), (1, true)] := rfl

/-- A span that is edited, ended and edited again. -/
example : HistOp.shutdown ∉ ([.op (.edit (.setAttribute 2)), .op .endNow, .op (.edit (.updateName []))] : List (HistOp Nat Nat)) := by
  intro h
  simp at h

end Otel.Sdk
