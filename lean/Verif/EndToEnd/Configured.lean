import Verif.Sdk.ConfigProps
import Verif.Sdk.SamplerProps
import Verif.Sdk.SpanLife
import Mathlib.Data.List.Induction
/-!
# From environment variables and builder calls to exported spans, C127

The configuration of `Verif.Sdk.Config` (`trace/config.rs`, `trace/provider.rs`) is given to the tracer of `Verif.Sdk.Tracer`, the samplers being those of
`Verif.Sdk.Sampler`.
-/

namespace Otel.Sdk.Configured
open Otel.Ctx Rust Spec Config

variable {A I W B : Type} {U : Nat → Type}

/-- The limits as `u32`. trace/span_limit.rs:23-34 -/
def limitsOf (l : Limits) : SpanLimits where
  maxEventsPerSpan := BitVec.ofNat 32 l.maxEvents
  maxAttributesPerSpan := BitVec.ofNat 32 l.maxAttributes
  maxLinksPerSpan := BitVec.ofNat 32 l.maxLinks
  maxAttributesPerEvent := BitVec.ofNat 32 l.maxAttributesPerEvent
  maxAttributesPerLink := BitVec.ofNat 32 l.maxAttributesPerLink

/-- The sampler without parent. trace/config.rs:62-131 -/
def baseSampler (b : Base) : Sampler A (Link A) B U W :=
  match b with
  | .alwaysOn => .alwaysOn
  | .alwaysOff => .alwaysOff
  | .ratio p => .traceIdRatioBased p

/-- The sampler chosen. trace/config.rs:62-131 -/
def samplerOf (r : F64.Rounding) (c : Choice) : ShouldSample A (Link A) B U W :=
  if c.parent then (Sampler.parentBased ((baseSampler c.base).shouldSample r)).shouldSample r else (baseSampler c.base).shouldSample r

/-- The configuration of the provider that `SdkTracerProvider::builder().with_…().build()` makes; the generators of ids are any. trace/provider.rs:349-394, 417-456 -/
def configOf (r : F64.Rounding) (parseF64 : Str → Option F64) (vars : Config.Env) (calls : List ProvCall) (newTraceId : W → TraceId × W)
    (newSpanId : W → SpanId × W) : Sdk.Config A (Link A) B U W where
  newTraceId := newTraceId
  newSpanId := newSpanId
  sampler := samplerOf r (provConfig parseF64 vars calls).sampler
  limits := limitsOf (provConfig parseF64 vars calls).limits

/-! ## Specification -/

/-- Ids that a ratio samples: all if it is at least one, else those whose last 63 bits before the lowest are below the share. -/
def InRatio (p : F64) (t : TraceId) : Prop :=
  p.ge (.fin 1) = true ∨ ∃ q : Rat, p = .fin q ∧ 0 ≤ q ∧ (idSuffix t : Int) < ⌊q * 2 ^ 63⌋

/-- What a sampler chosen in code samples: if it follows the parent and there is one, what the parent is; else always, never, or by ratio. -/
def ChoiceSamples (c : Choice) (parent : Option SpanContext) (t : TraceId) : Prop :=
  match c.parent, parent with
  | true, some sc => sc.isSampled = true
  | _, _ => match c.base with
    | .alwaysOn => True
    | .alwaysOff => False
    | .ratio p => InRatio p t

/-- What the environment asks for: `name` and `arg` are the values of `OTEL_TRACES_SAMPLER` and `OTEL_TRACES_SAMPLER_ARG`, the latter read as a number if it
is one. -/
def EnvSamples (name : Option Str) (arg : Option F64) (parent : Option SpanContext) (t : TraceId) : Prop :=
  if name = some ['a', 'l', 'w', 'a', 'y', 's', '_', 'o', 'n'] then True
  else if name = some ['a', 'l', 'w', 'a', 'y', 's', '_', 'o', 'f', 'f'] then False
  else if name = some ['t', 'r', 'a', 'c', 'e', 'i', 'd', 'r', 'a', 't', 'i', 'o'] then InRatio (arg.getD (.fin 1)) t
  else match parent with
    | some sc => sc.isSampled = true
    | none =>
      if name = some ("parentbased_".toList ++ ['a', 'l', 'w', 'a', 'y', 's', '_', 'o', 'f', 'f']) then False
      else if name = some ("parentbased_".toList ++ ['t', 'r', 'a', 'c', 'e', 'i', 'd', 'r', 'a', 't', 'i', 'o']) then InRatio (arg.getD (.fin 1)) t
      else True

/-- The last sampler given in code decides, else the environment. -/
def Samples (parseF64 : Str → Option F64) (vars : Config.Env) (calls : List ProvCall) (parent : Option SpanContext) (t : TraceId) : Prop :=
  match (calls.filterMap ProvCall.sampler?).getLast? with
  | some c => ChoiceSamples c parent t
  | none => EnvSamples (vars "OTEL_TRACES_SAMPLER".toList) ((vars "OTEL_TRACES_SAMPLER_ARG".toList).bind parseF64) parent t

/-- Numbers in code are `u32`, ratios are floats. -/
def ProvCall.Fits : ProvCall → Prop
  | .sampler ⟨_, .ratio p⟩ => p.WF
  | .sampler _ => True
  | .events n | .attributes n | .links n | .attributesPerEvent n | .attributesPerLink n => n < 2 ^ 32
  | .limits l => l.maxEvents < 2 ^ 32 ∧ l.maxAttributes < 2 ^ 32 ∧ l.maxLinks < 2 ^ 32 ∧ l.maxAttributesPerEvent < 2 ^ 32 ∧ l.maxAttributesPerLink < 2 ^ 32

/-- The limits that environment and calls give. -/
structure Limited (vars : Config.Env) (calls : List ProvCall) (l : SpanLimits) : Prop where
  attributes : Config.Configured vars 32 "OTEL_SPAN_ATTRIBUTE_COUNT_LIMIT" 128 (calls.map ProvCall.attributes?) l.maxAttributesPerSpan.toNat
  events : Config.Configured vars 32 "OTEL_SPAN_EVENT_COUNT_LIMIT" 128 (calls.map ProvCall.events?) l.maxEventsPerSpan.toNat
  links : Config.Configured vars 32 "OTEL_SPAN_LINK_COUNT_LIMIT" 128 (calls.map ProvCall.links?) l.maxLinksPerSpan.toNat
  perEvent : l.maxAttributesPerEvent.toNat = (calls.filterMap ProvCall.perEvent?).getLast?.getD 128
  perLink : l.maxAttributesPerLink.toNat = (calls.filterMap ProvCall.perLink?).getLast?.getD 128

/-! ## Proofs -/

/-- All limits are `u32`. -/
def Small (l : Limits) : Prop :=
  l.maxEvents < 2 ^ 32 ∧ l.maxAttributes < 2 ^ 32 ∧ l.maxLinks < 2 ^ 32 ∧ l.maxAttributesPerEvent < 2 ^ 32 ∧ l.maxAttributesPerLink < 2 ^ 32

theorem fromEnv_small {vars : Config.Env} {name : String} {v : Nat} (h : FromEnv vars 32 name 128 v) : v < 2 ^ 32 := by
  rcases h with ⟨_, _, _, h⟩ | ⟨_, rfl⟩
  · exact h
  · decide

theorem small_config (parseF64 : Str → Option F64) (vars : Config.Env) (calls : List ProvCall) (hc : ∀ c ∈ calls, ProvCall.Fits c) :
    Small (provConfig parseF64 vars calls).limits := by
  have hinit : Small (limitsFromEnv vars) := by
    obtain ⟨h1, h2, h3, h4, h5⟩ := limits_from_env vars
    exact ⟨fromEnv_small h2, fromEnv_small h1, fromEnv_small h3, by rw [h4]; decide, by rw [h5]; decide⟩
  have : ∀ (calls : List ProvCall) (p : Prov), (∀ c ∈ calls, ProvCall.Fits c) → Small p.limits → Small (calls.foldl Prov.call p).limits := by
    intro calls
    induction calls with
    | nil => intro p _ h; exact h
    | cons c calls ih =>
      intro p hc h
      refine ih _ (fun d hd => hc d (List.mem_cons_of_mem _ hd)) ?_
      have hf := hc c List.mem_cons_self
      obtain ⟨h1, h2, h3, h4, h5⟩ := h
      cases c with
      | sampler _ => exact ⟨h1, h2, h3, h4, h5⟩
      | events n => exact ⟨hf, h2, h3, h4, h5⟩
      | attributes n => exact ⟨h1, hf, h3, h4, h5⟩
      | links n => exact ⟨h1, h2, hf, h4, h5⟩
      | attributesPerEvent n => exact ⟨h1, h2, h3, hf, h5⟩
      | attributesPerLink n => exact ⟨h1, h2, h3, h4, hf⟩
      | limits l => exact hf
  exact this calls _ hc hinit

theorem last_or {X : Type} (get : Prov → X) (f : ProvCall → Option X) (h : ∀ p c, get (Prov.call p c) = (f c).getD (get p)) (p : Prov) (calls : List ProvCall) :
    get (calls.foldl Prov.call p) = (calls.filterMap f).getLast?.getD (get p) := by
  refine List.reverseRecOn calls rfl fun calls c ih => ?_
  rw [List.foldl_append, List.foldl_cons, List.foldl_nil, h, ih, List.filterMap_append]
  cases hc : f c <;> simp [hc]

theorem limited (parseF64 : Str → Option F64) (vars : Config.Env) (calls : List ProvCall) (hc : ∀ c ∈ calls, ProvCall.Fits c) :
    Limited vars calls (limitsOf (provConfig parseF64 vars calls).limits) := by
  obtain ⟨h1, h2, h3, h4, h5⟩ := small_config parseF64 vars calls hc
  obtain ⟨p1, p2, p3⟩ := prov_precedence parseF64 vars calls
  refine ⟨?_, ?_, ?_, ?_, ?_⟩
  · simp only [limitsOf, BitVec.toNat_ofNat, Nat.mod_eq_of_lt h2]; exact p1
  · simp only [limitsOf, BitVec.toNat_ofNat, Nat.mod_eq_of_lt h1]; exact p2
  · simp only [limitsOf, BitVec.toNat_ofNat, Nat.mod_eq_of_lt h3]; exact p3
  · simp only [limitsOf, BitVec.toNat_ofNat, Nat.mod_eq_of_lt h4]
    exact last_or (fun p => p.limits.maxAttributesPerEvent) ProvCall.perEvent? (by intro p c; cases c <;> rfl) _ calls
  · simp only [limitsOf, BitVec.toNat_ofNat, Nat.mod_eq_of_lt h5]
    exact last_or (fun p => p.limits.maxAttributesPerLink) ProvCall.perLink? (by intro p c; cases c <;> rfl) _ calls

theorem inRatio_iff (r : F64.Rounding) {p : F64} (hp : p.WF) (t : TraceId) :
    sampleBasedOnProbability r p t = .recordAndSample ↔ InRatio p t := by
  by_cases h1 : p.ge (.fin 1) = true
  · exact ⟨fun _ => .inl h1, fun _ => ratio_ge_one r h1 t⟩
  · by_cases h0 : (F64.fin 0).ge p = true ∨ p = .nan
    · refine ⟨fun h => ?_, fun h => ?_⟩
      · rw [ratio_le_zero r h0] at h; cases h
      · rcases h with h | ⟨q, rfl, hq, hlt⟩
        · exact absurd h h1
        · rcases h0 with h0 | h0
          · have hq0 : q = 0 := le_antisymm (by simpa [F64.ge] using h0) hq
            rw [hq0, zero_mul, Int.floor_zero] at hlt
            omega
          · cases h0
    · cases p with
      | nan => exact absurd (.inr rfl) h0
      | fin q =>
        have hlt : q < 1 := by simpa [F64.ge] using h1
        have hpos : 0 ≤ q := by
          by_contra hn
          exact h0 (.inl (by simpa [F64.ge] using le_of_lt (not_le.1 hn)))
        rw [ratio_threshold r hp hpos hlt]
        exact ⟨fun h => .inr ⟨q, rfl, hpos, h⟩, fun h => by
          rcases h with h | ⟨q', he, _, h⟩
          · exact absurd h h1
          · cases he; exact h⟩
      | _ => simp [F64.ge] at h1 h0

/-- What a sampler chosen decides. -/
theorem samplerOf_decision (r : F64.Rounding) (c : Choice) (hc : ∀ p, c.base = .ratio p → p.WF) (cx : Cx B U) (t : TraceId) (name : Str) (kind : SpanKind)
    (attrs : List A) (links : List (Link A)) (w : W) :
    (ChoiceSamples c cx.span t → ((samplerOf r c) ⟨some cx, t, name, kind, attrs, links⟩ w).1.decision = .recordAndSample) ∧
    (¬ ChoiceSamples c cx.span t → ((samplerOf r c) ⟨some cx, t, name, kind, attrs, links⟩ w).1.decision = .drop) := by
  have hbase : ∀ (d : SamplingDecision), d = (((baseSampler c.base : Sampler A (Link A) B U W).shouldSample r) ⟨some cx, t, name, kind, attrs, links⟩ w).1.decision →
      ((match c.base with | .alwaysOn => True | .alwaysOff => False | .ratio p => InRatio p t) → d = .recordAndSample) ∧
      (¬ (match c.base with | .alwaysOn => True | .alwaysOff => False | .ratio p => InRatio p t) → d = .drop) := by
    rintro d rfl
    cases hb : c.base with
    | alwaysOn => exact ⟨fun _ => rfl, fun h => absurd trivial h⟩
    | alwaysOff => exact ⟨fun h => h.elim, fun _ => rfl⟩
    | ratio p =>
      show (InRatio p t → sampleBasedOnProbability r p t = _) ∧ (¬ InRatio p t → sampleBasedOnProbability r p t = _)
      refine ⟨(inRatio_iff r (hc p hb) t).2, fun h => ?_⟩
      exact (ratio_two_valued r p t).resolve_left fun h' => h ((inRatio_iff r (hc p hb) t).1 h')
  have hb := hbase _ rfl
  obtain ⟨par, base⟩ := c
  cases par with
  | false => exact hb
  | true =>
    rw [samplerOf, if_pos rfl]
    cases hs : cx.span with
    | none =>
      have : (((Sampler.parentBased ((baseSampler base).shouldSample r)).shouldSample r) (⟨some cx, t, name, kind, attrs, links⟩ : SampleArgs A (Link A) B U) w).1.decision =
          (((baseSampler base : Sampler A (Link A) B U W).shouldSample r) ⟨some cx, t, name, kind, attrs, links⟩ w).1.decision := by
        simp [Sampler.shouldSample, Sampler.decide, Option.filter, Context.hasActiveSpan, hs]
      rw [this]
      exact hb
    | some sc =>
      have : (((Sampler.parentBased ((baseSampler base).shouldSample r)).shouldSample r) (⟨some cx, t, name, kind, attrs, links⟩ : SampleArgs A (Link A) B U) w).1.decision =
          if sc.isSampled then .recordAndSample else .drop := by
        simp [Sampler.shouldSample, Sampler.decide, Option.filter, Context.hasActiveSpan, hs, spanContextOf]
      rw [this]
      exact ⟨fun h => if_pos h, fun h => if_neg h⟩

/-- The sampler of the environment samples what the environment asks for. -/
theorem env_choice (parseF64 : Str → Option F64) (vars : Config.Env) (parent : Option SpanContext) (t : TraceId) :
    ChoiceSamples (samplerFromEnv parseF64 vars) parent t ↔
      EnvSamples (vars "OTEL_TRACES_SAMPLER".toList) ((vars "OTEL_TRACES_SAMPLER_ARG".toList).bind parseF64) parent t := by
  have hr : ratioArg parseF64 (vars "OTEL_TRACES_SAMPLER_ARG".toList) = ((vars "OTEL_TRACES_SAMPLER_ARG".toList).bind parseF64).getD (.fin 1) := by
    rw [ratioArg]; cases (vars "OTEL_TRACES_SAMPLER_ARG".toList).bind parseF64 <;> rfl
  have n1 : "always_on".toList = ['a', 'l', 'w', 'a', 'y', 's', '_', 'o', 'n'] := by decide
  have n2 : "always_off".toList = ['a', 'l', 'w', 'a', 'y', 's', '_', 'o', 'f', 'f'] := by decide
  have n3 : "traceidratio".toList = ['t', 'r', 'a', 'c', 'e', 'i', 'd', 'r', 'a', 't', 'i', 'o'] := by decide
  have n4 : "parentbased_always_off".toList = "parentbased_".toList ++ ['a', 'l', 'w', 'a', 'y', 's', '_', 'o', 'f', 'f'] := by decide
  have n5 : "parentbased_traceidratio".toList = "parentbased_".toList ++ ['t', 'r', 'a', 'c', 'e', 'i', 'd', 'r', 'a', 't', 'i', 'o'] := by decide
  have n6 : "parentbased_always_on".toList ≠ "parentbased_always_off".toList ∧ "parentbased_always_on".toList ≠ "parentbased_traceidratio".toList := by decide
  unfold EnvSamples
  rw [samplerFromEnv, hr, ← n4, ← n5, ← n1, ← n2, ← n3]
  generalize ((vars "OTEL_TRACES_SAMPLER_ARG".toList).bind parseF64).getD (.fin 1) = p
  generalize "always_on".toList = m1 at *
  generalize "always_off".toList = m2 at *
  generalize "traceidratio".toList = m3 at *
  generalize "parentbased_always_off".toList = m4 at *
  generalize "parentbased_traceidratio".toList = m5 at *
  generalize "parentbased_always_on".toList = m6 at *
  cases vars "OTEL_TRACES_SAMPLER".toList with
  | none => cases parent <;> simp [ChoiceSamples]
  | some s =>
    simp only [Option.some.injEq]
    by_cases h1 : s = m1
    · rw [if_pos h1, if_pos h1]; cases parent <;> exact Iff.rfl
    rw [if_neg h1, if_neg h1]
    by_cases h2 : s = m2
    · rw [if_pos h2, if_pos h2]; cases parent <;> exact Iff.rfl
    rw [if_neg h2, if_neg h2]
    by_cases h3 : s = m3
    · rw [if_pos h3, if_pos h3]; cases parent <;> exact Iff.rfl
    rw [if_neg h3, if_neg h3]
    by_cases h6 : s = m6
    · rw [if_pos h6]
      cases parent with
      | none => simp only []; rw [if_neg (h6 ▸ n6.1), if_neg (h6 ▸ n6.2)]; exact Iff.rfl
      | some sc => exact Iff.rfl
    rw [if_neg h6]
    by_cases h4 : s = m4
    · rw [if_pos h4]
      cases parent with
      | none => simp only []; rw [if_pos h4]; exact Iff.rfl
      | some sc => exact Iff.rfl
    rw [if_neg h4]
    by_cases h5 : s = m5
    · rw [if_pos h5]
      cases parent with
      | none => simp only []; rw [if_neg h4, if_pos h5]; exact Iff.rfl
      | some sc => exact Iff.rfl
    rw [if_neg h5, ite_self, ite_self, ite_self]
    cases parent with
    | none => simp only []; rw [if_neg h4, if_neg h5]; exact Iff.rfl
    | some sc => exact Iff.rfl

theorem samples_iff (parseF64 : Str → Option F64) (vars : Config.Env) (calls : List ProvCall) (parent : Option SpanContext) (t : TraceId) :
    ChoiceSamples (provConfig parseF64 vars calls).sampler parent t ↔ Samples parseF64 vars calls parent t := by
  have h := last_or (fun p => p.sampler) ProvCall.sampler? (by intro p c; cases c <;> rfl) ⟨samplerFromEnv parseF64 vars, limitsFromEnv vars⟩ calls
  rw [Samples, provConfig]
  simp only [] at h
  rw [h]
  cases (calls.filterMap ProvCall.sampler?).getLast? with
  | some c => exact Iff.rfl
  | none => exact env_choice parseF64 vars parent t

theorem choice_wf (parseF64 : Str → Option F64) (hparse : ∀ s p, parseF64 s = some p → p.WF) (vars : Config.Env) (calls : List ProvCall)
    (hc : ∀ c ∈ calls, ProvCall.Fits c) (p : F64) (h : (provConfig parseF64 vars calls).sampler.base = .ratio p) : p.WF := by
  have hl := last_or (fun p => p.sampler) ProvCall.sampler? (by intro p c; cases c <;> rfl) ⟨samplerFromEnv parseF64 vars, limitsFromEnv vars⟩ calls
  rw [provConfig] at h
  simp only [] at hl
  rw [hl] at h
  cases hg : (calls.filterMap ProvCall.sampler?).getLast? with
  | some c =>
    rw [hg, Option.getD_some] at h
    obtain ⟨d, hd, hdc⟩ := List.mem_filterMap.1 (List.mem_of_getLast? hg)
    have hf := hc d hd
    cases d <;> cases hdc
    obtain ⟨par, base⟩ := c
    cases base <;> cases h
    exact hf
  | none =>
    rw [hg, Option.getD_none] at h
    have hr : (ratioArg parseF64 (vars "OTEL_TRACES_SAMPLER_ARG".toList)).WF := by
      rw [ratioArg]
      cases hb : (vars "OTEL_TRACES_SAMPLER_ARG".toList).bind parseF64 with
      | none => exact F64.representable_one
      | some p =>
        obtain ⟨s, _, hs⟩ := Option.bind_eq_some_iff.1 hb
        exact hparse s p hs
    rw [samplerFromEnv] at h
    generalize ratioArg parseF64 (vars "OTEL_TRACES_SAMPLER_ARG".toList) = q at h hr
    split at h
    · cases h
    · repeat' split at h
      all_goals first | (cases h; exact hr) | cases h

/-- **C127.** For every environment and all calls on the builder of a tracer provider, and every span the program then starts (no decision being given with
it, no suppression, before shutdown, processors that leave it alone when it starts): the span is sampled if and only if the last sampler given in code, or else
the environment, says so for its parent and trace id. If it is sampled, then however it is used until it is ended and whatever comes after, every processor
gets it exactly once, its attributes, events and links being the first ones recorded up to the limits that code or else environment give. If it is not, no
processor ever gets it. -/
theorem configured_spans (r : F64.Rounding) (parseF64 : Str → Option F64) (hparse : ∀ s p, parseF64 s = some p → p.WF) (vars : Config.Env)
    (calls : List ProvCall) (hc : ∀ c ∈ calls, ProvCall.Fits c) (newTraceId : W → TraceId × W) (newSpanId : W → SpanId × W)
    (env : Sdk.Env A I B U W) (hp : Passive env) (scope : I) (b : SpanBuilder A) (hb : b.samplingResult = none) (cx : Cx B U) (st : PState A I W)
    (hs : cx.suppress = false) (hd : st.isShutdown = false) (x : Span A I × PState A I W)
    (hx : buildWithContext env (configOf r parseF64 vars calls newTraceId newSpanId) scope b cx st = x) :
    (x.1.spanContext.isSampled = true ↔ Samples parseF64 vars calls cx.span x.1.spanContext.traceId) ∧
    (Samples parseF64 vars calls cx.span x.1.spanContext.traceId → ∀ (pre post : List (HistOp A W)) (t : Time), Quiet pre → ∃ y : Exported A I,
      (dropSpan env (runHist env (pre ++ .op (.endAt t) :: post) x)).obs.ends = st.obs.ends ++ oncePerProcessor env.processors.length y ∧
      y.spanContext = x.1.spanContext ∧ y.scope = scope ∧ y.data.endTime = t ∧
      ∃ l : SpanLimits, Limited vars calls l ∧ Holds l (b.attributes.getD [] ++ attributesSet (editsOf pre))
        (b.events.getD [] ++ eventsAdded (editsOf pre)) (b.links.getD [] ++ linksAdded (editsOf pre)) y.data) ∧
    (¬ Samples parseF64 vars calls cx.span x.1.spanContext.traceId → ∀ h : List (HistOp A W), (dropSpan env (runHist env h x)).obs.ends = st.obs.ends) := by
  subst hx
  obtain ⟨sr1, hd1, f1, -, f3⟩ := span_follows_decision env (configOf r parseF64 vars calls newTraceId newSpanId) scope b cx st hs hd
  obtain ⟨sr2, hd2, g2⟩ := span_life env hp (configOf r parseF64 vars calls newTraceId newSpanId) scope b cx st hs hd
  obtain ⟨sr3, -, -, k2, -⟩ := build_passive env hp (configOf r parseF64 vars calls newTraceId newSpanId) scope b cx st hs hd
  generalize hy : buildWithContext env (configOf r parseF64 vars calls newTraceId newSpanId) scope b cx st = x at *
  have key : ∀ sr, IsDecision (configOf r parseF64 vars calls newTraceId newSpanId : Sdk.Config A (Link A) B U W) b cx x.1.spanContext.traceId sr →
      (Samples parseF64 vars calls cx.span x.1.spanContext.traceId → sr.decision = .recordAndSample) ∧
      (¬ Samples parseF64 vars calls cx.span x.1.spanContext.traceId → sr.decision = .drop) ∧ sr.attributes = [] := by
    intro sr hdec
    rcases hdec with h | ⟨-, w, rfl⟩
    · rw [hb] at h; cases h
    · rw [← samples_iff]
      refine ⟨(samplerOf_decision r _ (choice_wf parseF64 hparse vars calls hc) cx x.1.spanContext.traceId b.name _ _ _ w).1,
        (samplerOf_decision r _ (choice_wf parseF64 hparse vars calls hc) cx x.1.spanContext.traceId b.name _ _ _ w).2, ?_⟩
      show ((samplerOf r (provConfig parseF64 vars calls).sampler) _ w).1.attributes = []
      rw [samplerOf]; split <;> rfl
  refine ⟨?_, fun hsm pre post t hq => ?_, fun hns h => ?_⟩
  · rw [f1]
    by_cases hsm : Samples parseF64 vars calls cx.span x.1.spanContext.traceId
    · exact ⟨fun _ => hsm, fun _ => (key sr1 hd1).1 hsm⟩
    · rw [(key sr1 hd1).2.1 hsm]
      exact ⟨fun h => (by cases h), fun h => absurd h hsm⟩
  · have hdec := (key sr2 hd2).1 hsm
    obtain ⟨y, h1, h2, h3, h4, -, -, -, -, h5⟩ := g2 (by rw [hdec]; decide) pre post t hq
    rw [(key sr2 hd2).2.2, List.append_nil] at h5
    exact ⟨y, h1, h2, h3, h4, _, limited parseF64 vars calls hc, h5⟩
  · rw [nonrecording_never_delivered env x.1 x.2 (f3 ((key sr1 hd1).2.1 hns)) h]
    exact k2

/-! ## Examples -/

/-- The hypotheses are met, and the environment matters: with `always_off` nothing is sampled, with `parentbased_always_off` a sampled parent is followed, and
a sampler in code comes first. -/
example (t : TraceId) (sc : SpanContext) (hs : sc.isSampled = true) :
    let vars (v : String) : Config.Env := fun n => if n = "OTEL_TRACES_SAMPLER".toList then some v.toList else none
    ¬ Samples (fun _ => none) (vars "always_off") [] none t ∧ ¬ Samples (fun _ => none) (vars "always_off") [.events 3] (some sc) t ∧
    Samples (fun _ => none) (vars "parentbased_always_off") [] (some sc) t ∧ Samples (fun _ => none) (vars "always_off") [.sampler ⟨false, .alwaysOn⟩] none t ∧
    ∀ c ∈ [ProvCall.events 3, .sampler ⟨false, .alwaysOn⟩], ProvCall.Fits c := by
  refine ⟨?_, ?_, ?_, trivial, ?_⟩
  · intro h
    rw [← samples_iff] at h
    exact h
  · intro h
    rw [← samples_iff] at h
    exact h
  · rw [← samples_iff]
    exact hs
  · intro c hc
    simp at hc
    rcases hc with rfl | rfl
    · show 3 < 2 ^ 32; decide
    · trivial

end Otel.Sdk.Configured
