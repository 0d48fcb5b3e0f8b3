import Verif.Metrics.Views
import Verif.EndToEnd.Counter
import Mathlib.Data.List.Induction
/-!
# From the temporality asked for to the temporality a collector is told, C129

The builders of the metric exporters and of the manual reader, what each reader answers for a kind of instrument, the aggregators made for instruments in the
pipelines of a provider (`Verif.Metrics.Instruments`), what they report, and the OTLP message.
-/

namespace Otel.Temporality
open Otel.Metrics Otel.Metrics.Inst Otel.Otlp
open Otel.EndToEnd (Pt toMData)
open Rust (Str)

/-! ## Model -/

/-- The client chosen on the OTLP builder. opentelemetry-otlp/src/metric.rs:54-70 -/
inductive Client where
  | tonic
  | http
deriving DecidableEq

/-- A call on the OTLP builder; `config` is any of the methods for endpoint, headers and the like, which only touch the client. metric.rs:54-75, 97-123 -/
inductive OtlpCall where
  | temporality (t : Temporality)
  | tonic
  | http
  | config

/-- `MetricExporterBuilder`. metric.rs:40-44 -/
structure OtlpBuilder where
  client : Option Client
  temporality : Temporality

/-- `MetricExporterBuilder::default`; the default temporality is cumulative. metric.rs:40, 46-50, opentelemetry-sdk/src/metrics/mod.rs:99-107 -/
def OtlpBuilder.new : OtlpBuilder := ⟨none, .cumulative⟩

/-- `with_tonic`, `with_http`, `with_temporality`. metric.rs:53-75 -/
def OtlpBuilder.call (b : OtlpBuilder) : OtlpCall → OtlpBuilder
  | .temporality t => ⟨b.client, t⟩
  | .tonic => ⟨some .tonic, b.temporality⟩
  | .http => ⟨some .http, b.temporality⟩
  | .config => b

/-- The exporters: OTLP, stdout, in memory. metric.rs:133-136, opentelemetry-stdout/src/metrics/exporter.rs:20-23, opentelemetry-sdk/src/metrics/in_memory_exporter.rs:62-65 -/
inductive Exporter where
  | otlp (client : Client) (temporality : Temporality)
  | stdout (temporality : Temporality)
  | memory (temporality : Temporality)

/-- `build` of the OTLP builder; there is none before a client is chosen, and errors of the client are C86 and C123. metric.rs:77-94, exporter/http/mod.rs:237-254,
exporter/tonic/mod.rs:275-294 -/
def OtlpBuilder.build (b : OtlpBuilder) : Option Exporter := b.client.map fun c => .otlp c b.temporality

/-- `with_temporality` of the stdout and in-memory builders, any number of times. exporter.rs:262-265, in_memory_exporter.rs:119-122 -/
def optCalls (args : List Temporality) : Option Temporality := args.foldl (fun _ t => some t) none

/-- `with_temporality` of `ManualReaderBuilder`, any number of times. manual_reader.rs:136-157 -/
def manualCalls (args : List Temporality) : Temporality := args.foldl (fun _ t => t) .cumulative

/-- `PushMetricExporter::temporality`. metric.rs:179-181, exporter.rs:77-79, in_memory_exporter.rs:261-263 -/
def Exporter.temporality : Exporter → Temporality
  | .otlp _ t => t
  | .stdout t => t
  | .memory t => t

/-- The readers. periodic_reader.rs, periodic_reader_with_async_runtime.rs, manual_reader.rs, opentelemetry-prometheus/src/lib.rs:157-160 -/
inductive Reader where
  | periodic (e : Exporter)
  | async (e : Exporter)
  | manual (t : Temporality)
  | prometheus

/-- `MetricReader::temporality`. periodic_reader.rs:357-359, 508-510, periodic_reader_with_async_runtime.rs:437-439, manual_reader.rs:130-132,
opentelemetry-prometheus/src/lib.rs:181-183 -/
def Reader.temporality : Reader → Kind → Temporality
  | .periodic e, k => temporalityPreference k e.temporality
  | .async e, k => temporalityPreference k e.temporality
  | .manual t, k => temporalityPreference k t
  | .prometheus, _ => .cumulative

/-- What a program writes to get an exporter. -/
inductive ExpSetup where
  | otlp (calls : List OtlpCall)
  | stdout (args : List Temporality)
  | memory (args : List Temporality)

/-- The exporter built; `none` does not compile. exporter.rs:268-273, in_memory_exporter.rs:126-131 -/
def ExpSetup.build : ExpSetup → Option Exporter
  | .otlp calls => (calls.foldl OtlpBuilder.call .new).build
  | .stdout args => some (.stdout ((optCalls args).getD .cumulative))
  | .memory args => some (.memory ((optCalls args).getD .cumulative))

/-- What a program writes to get a reader. -/
inductive Setup where
  | periodic (e : ExpSetup)
  | async (e : ExpSetup)
  | manual (args : List Temporality)
  | prometheus

/-- The reader built. manual_reader.rs:160-162 -/
def Setup.build : Setup → Option Reader
  | .periodic e => e.build.map .periodic
  | .async e => e.build.map .async
  | .manual args => some (.manual (manualCalls args))
  | .prometheus => some .prometheus

/-- The temporalities the pipelines of a provider ask their readers for. pipeline.rs:394-396 -/
def tempsOf (readers : List Reader) (i : Nat) (k : Kind) : Temporality := ((readers[i]?).map fun r => r.temporality k).getD .cumulative

/-- Instruments created one after the other. -/
def creates (views : List View) (temps : Nat → Kind → Temporality) (ps : List Pipe) : List (Request × Option Str) → List Pipe
  | [] => ps
  | r :: rs => creates views temps (create views temps r.1 r.2 ps).1 rs

/-- The temporality an aggregator works with: only last values have it overwritten. internal/aggregate.rs:147-214 -/
def ownTemporality (y : Sync) : Temporality :=
  match y.built with
  | .lastValue o => o.getD y.temporality
  | _ => y.temporality

/-- Which aggregation reports. -/
def aggKind : Built → AggKind
  | .lastValue _ => .lastValue
  | .precomputedSum m => .sum m
  | .sum m => .sum m
  | .explicitBucketHistogram .. => .histogram
  | .exponentialHistogram .. => .expoHistogram

/-- A collection of an aggregator with some points: `delta` if its temporality is delta, else `cumulative`, and that is what the data say. internal/sum.rs:84, 93, 123, 133,
164-167, precomputed_sum.rs:53, 62, 107, 116, 147-150, histogram.rs:126, 132, 180, 186, 246-249, exponential_histogram.rs:405, 411, 465, 471, 535-538, last_value.rs:153-156 -/
def collect {P : Type} (y : Sync) (start now : Nat) (points : List P) : Collected P :=
  ⟨y.number, aggKind y.built, match ownTemporality y with | .delta => .delta | _ => .cumulative, start, now, points⟩

/-! ## Specification -/

/-- The temporality given with a call. -/
def OtlpCall.arg? : OtlpCall → Option Temporality
  | .temporality t => some t
  | _ => none

/-- The temporalities a program gives while it sets up an exporter, in order. -/
def ExpSetup.args : ExpSetup → List Temporality
  | .otlp calls => calls.filterMap OtlpCall.arg?
  | .stdout args => args
  | .memory args => args

/-- The temporalities a program gives while it sets up a reader, in order; there is no way to give one to the Prometheus exporter. -/
def Setup.args : Setup → List Temporality
  | .periodic e => e.args
  | .async e => e.args
  | .manual args => args
  | .prometheus => []

/-- What the last one asks for a kind of instrument; cumulative if there is none. Delta: all but the up-down counters. Low memory: counter and histogram only. -/
def WantsDelta (args : List Temporality) (k : Kind) : Prop :=
  match args.getLast? with
  | some .delta => k ≠ .upDownCounter ∧ k ≠ .observableUpDownCounter
  | some .lowMemory => k = .counter ∨ k = .histogram
  | some .cumulative => False
  | none => False

/-- What a metric says of its temporality: 1 is delta, 2 is cumulative; gauges say nothing. -/
def Tells {K : Type} (delta : Prop) : PData K → Prop
  | .gauge _ => True
  | .sum _ n _ => (delta → n = 1) ∧ (¬ delta → n = 2)
  | .histogram _ n => (delta → n = 1) ∧ (¬ delta → n = 2)
  | .expo _ n => (delta → n = 1) ∧ (¬ delta → n = 2)

/-! ## Proofs -/

/-- Invariant of a pipeline. -/
def Ok (temp : Kind → Temporality) (kinds : List Kind) (p : Pipe) : Prop := ∀ y ∈ p.syncs, y.temporality = temp y.kind ∧ y.kind ∈ kinds ∧
  ∀ o, y.built = .lastValue o → y.kind = .gauge ∧ o = none ∨ y.kind = .observableGauge ∧ o = some .delta

theorem aggregateFn_last {kind : Kind} {a : Aggregation} {o : Option Temporality} (h : aggregateFn kind a = some (some (.lastValue o))) :
    kind = .gauge ∧ o = none ∨ kind = .observableGauge ∧ o = some .delta := by
  cases kind <;> cases a <;> simp_all [aggregateFn, aggregateFn', defaultAggregation]

theorem cached_ok {temp : Kind → Temporality} {kinds : List Kind} (number : NumKind) {p : Pipe} (scope : Scope) {kind : Kind} (hk : kind ∈ kinds) (s : Stream) (h : Ok temp kinds p) :
    Ok temp kinds (cachedAggregator temp number p scope kind s).1 := by
  unfold cachedAggregator
  dsimp only
  split
  · exact h
  · split
    · exact h
    · split
      · exact h
      · exact h
      · rename_i b hb
        intro y hy
        rcases List.mem_append.1 hy with hy | hy
        · exact h y hy
        · rw [List.mem_singleton.1 hy]
          exact ⟨rfl, hk, fun o ho => aggregateFn_last (by rw [hb]; exact congrArg (some ∘ some) ho)⟩

theorem viewLoop_ok {temp : Kind → Temporality} {kinds : List Kind} (number : NumKind) (inst : Instrument) {kind : Kind} (hk : kind ∈ kinds) (views : List View) :
    ∀ (p : Pipe) (seen : List Id) (ms : List Nat) (m e : Bool), Ok temp kinds p → Ok temp kinds (viewLoop temp number inst kind views p seen ms m e).1 := by
  induction views with
  | nil => intro p seen ms m e h; exact h
  | cons v vs ih =>
    intro p seen ms m e h
    unfold viewLoop
    split
    · exact ih _ _ _ _ _ h
    · rename_i s _
      have hc := cached_ok number inst.scope hk s h
      dsimp only
      split
      · exact ih _ _ _ _ _ h
      · split <;> (rename_i heq; rw [heq] at hc; exact ih _ _ _ _ _ hc)

theorem instrument_ok {temp : Kind → Temporality} {kinds : List Kind} (views : List View) (number : NumKind) {p : Pipe} (inst : Instrument) (hk : ∀ k, inst.kind = some k → k ∈ kinds)
    (b : Option (List Rust.F64)) (l : Option Nat) (h : Ok temp kinds p) : Ok temp kinds (instrument views temp number p inst b l).1 := by
  unfold instrument
  split
  · exact h
  · rename_i kind hkind
    have hv := viewLoop_ok number inst (hk kind hkind) views p [] [] false false h
    split
    · rename_i heq; rw [heq] at hv; exact hv
    · rename_i p' ms _ heq
      rw [heq] at hv
      have hc := cached_ok number inst.scope (hk kind hkind) (defaultStream inst b l) hv
      split <;> (rename_i h2; rw [h2] at hc; exact hc)

theorem measures_get (views : List View) (temps : Nat → Kind → Temporality) (r : Request) : ∀ (i : Nat) (ps : List Pipe) (j : Nat),
    (measures views temps r i ps).1[j]? = (ps[j]?).map fun p => (instrument views (temps (i + j)) r.number p r.inst r.boundaries r.limit).1
  | i, [], j => by simp [measures]
  | i, p :: ps, 0 => by simp [measures]
  | i, p :: ps, j + 1 => by
    have := measures_get views temps r (i + 1) ps j
    simp only [measures, List.getElem?_cons_succ, this]
    congr 2
    funext p
    rw [show i + 1 + j = i + (j + 1) by omega]

theorem create_ok (views : List View) (temps : Nat → Kind → Temporality) (r : Request) (unit : Option Str) (ps : List Pipe) (kinds : List Kind)
    (hk : ∀ k, r.inst.kind = some k → k ∈ kinds) (h : ∀ i p, ps[i]? = some p → Ok (temps i) kinds p) :
    ∀ i p, (create views temps r unit ps).1[i]? = some p → Ok (temps i) kinds p := by
  have hm : ∀ i p, (measures views temps r 0 ps).1[i]? = some p → Ok (temps i) kinds p := by
    intro i p hp
    rw [measures_get, Nat.zero_add, Option.map_eq_some_iff] at hp
    obtain ⟨q, hq, rfl⟩ := hp
    exact instrument_ok views _ _ hk _ _ (h i q hq)
  unfold create
  split
  · exact h
  · split
    · exact h
    · split <;> (rename_i heq; rw [heq] at hm; exact hm)

theorem creates_ok (views : List View) (temps : Nat → Kind → Temporality) (kinds : List Kind) : ∀ (rs : List (Request × Option Str)) (ps : List Pipe),
    (∀ r ∈ rs, ∀ k, r.1.inst.kind = some k → k ∈ kinds) → (∀ i p, ps[i]? = some p → Ok (temps i) kinds p) →
    ∀ i p, (creates views temps ps rs)[i]? = some p → Ok (temps i) kinds p
  | [], _, _, h => h
  | r :: rs, ps, hk, h => creates_ok views temps kinds rs _ (fun r' hr => hk r' (List.mem_cons_of_mem _ hr))
      (create_ok views temps r.1 r.2 ps kinds (hk r List.mem_cons_self) h)

theorem optCalls_eq (args : List Temporality) : optCalls args = args.getLast? := by
  induction args using List.reverseRecOn with
  | nil => rfl
  | append_singleton l a ih => simp [optCalls]

theorem manualCalls_eq (args : List Temporality) : manualCalls args = args.getLast?.getD .cumulative := by
  induction args using List.reverseRecOn with
  | nil => rfl
  | append_singleton l a ih => simp [manualCalls]

theorem otlp_temporality (calls : List OtlpCall) : (calls.foldl OtlpBuilder.call .new).temporality = (calls.filterMap OtlpCall.arg?).getLast?.getD .cumulative := by
  induction calls using List.reverseRecOn with
  | nil => rfl
  | append_singleton l c ih =>
    rw [List.foldl_append, List.filterMap_append]
    cases c <;> simp [OtlpBuilder.call, OtlpCall.arg?, ih]

theorem exporter_temporality {s : ExpSetup} {e : Exporter} (h : s.build = some e) : e.temporality = s.args.getLast?.getD .cumulative := by
  cases s with
  | otlp calls =>
    simp only [ExpSetup.build, OtlpBuilder.build, Option.map_eq_some_iff] at h
    obtain ⟨c, _, rfl⟩ := h
    exact otlp_temporality calls
  | stdout args => cases h; simp only [Exporter.temporality, ExpSetup.args, optCalls_eq]
  | memory args => cases h; simp only [Exporter.temporality, ExpSetup.args, optCalls_eq]

theorem reader_temporality {s : Setup} {r : Reader} (h : s.build = some r) (k : Kind) : r.temporality k = .delta ↔ WantsDelta s.args k := by
  have key : ∀ args : List Temporality, temporalityPreference k (args.getLast?.getD .cumulative) = .delta ↔ WantsDelta args k := by
    intro args
    rw [temporality_table]
    unfold WantsDelta
    cases args.getLast? with
    | none => simp
    | some t => cases t <;> simp
  cases s with
  | periodic e =>
    obtain ⟨x, hx, rfl⟩ := Option.map_eq_some_iff.1 h
    rw [Reader.temporality, exporter_temporality hx]; exact key _
  | async e =>
    obtain ⟨x, hx, rfl⟩ := Option.map_eq_some_iff.1 h
    rw [Reader.temporality, exporter_temporality hx]; exact key _
  | manual args => cases h; rw [Reader.temporality, manualCalls_eq]; exact key _
  | prometheus => cases h; simp [Reader.temporality, WantsDelta, Setup.args]

theorem mapM_get {α β : Type} {f : α → Option β} : ∀ {l : List α} {r : List β} {i : Nat} {a : α}, l.mapM f = some r → l[i]? = some a → ∃ b, r[i]? = some b ∧ f a = some b
  | x :: l, r, i, a, h, ha => by
    simp only [List.mapM_cons, Option.pure_def, Option.bind_eq_bind, Option.bind_eq_some_iff, Option.some.injEq] at h
    obtain ⟨y, hy, ys, hys, rfl⟩ := h
    cases i with
    | zero => cases ha; exact ⟨y, rfl, hy⟩
    | succ i => exact mapM_get (i := i) hys ha

theorem sync_temporality (views : List View) (setups : List Setup) (readers : List Reader) (hb : setups.mapM Setup.build = some readers)
    (rs : List (Request × Option Str)) (i : Nat) (s : Setup) (hs : setups[i]? = some s) (p : Pipe)
    (hp : (creates views (tempsOf readers) (List.replicate setups.length .init) rs)[i]? = some p) (y : Sync) (hy : y ∈ p.syncs) :
    (∃ r ∈ rs, r.1.inst.kind = some y.kind) ∧ (y.temporality = .delta ↔ WantsDelta s.args y.kind) ∧
      ∀ o, y.built = .lastValue o → y.kind = .gauge ∧ o = none ∨ y.kind = .observableGauge ∧ o = some .delta := by
  obtain ⟨h1, h2, h3⟩ := creates_ok views (tempsOf readers) (rs.filterMap fun r => r.1.inst.kind) rs (List.replicate setups.length .init)
    (fun r hr k hk => List.mem_filterMap.2 ⟨r, hr, hk⟩) (fun j q hq y hy => by
      rw [List.getElem?_replicate] at hq
      split at hq
      · cases hq; cases hy
      · cases hq) i p hp y hy
  obtain ⟨r, hr, hk⟩ := List.mem_filterMap.1 h2
  refine ⟨⟨r, hr, hk⟩, ?_, h3⟩
  obtain ⟨rd, hrd, hsb⟩ := mapM_get hb hs
  rw [h1, tempsOf, hrd]
  exact reader_temporality hsb y.kind

/-- **C129.** For every provider with readers set up in any way and every list of created instruments: every aggregator of a reader's pipeline belongs to a kind of
instrument that was created, and whatever it has to report, the collector is told delta for exactly the kinds the last temporality given to that reader asks for. -/
theorem temporality_told {K : Type} (views : List View) (setups : List Setup) (readers : List Reader) (hb : setups.mapM Setup.build = some readers)
    (rs : List (Request × Option Str)) (i : Nat) (s : Setup) (hs : setups[i]? = some s) (p : Pipe)
    (hp : (creates views (tempsOf readers) (List.replicate setups.length .init) rs)[i]? = some p) (y : Sync) (hy : y ∈ p.syncs)
    (cast : Cast) (start now : Nat) (points : List (Pt K)) :
    (∃ r ∈ rs, r.1.inst.kind = some y.kind) ∧ Tells (WantsDelta s.args y.kind) (dataOf cast (toMData (collect y start now points).fresh)) := by
  obtain ⟨h1, hw, -⟩ := sync_temporality views setups readers hb rs i s hs p hp y hy
  refine ⟨h1, ?_⟩
  have hnum : (WantsDelta s.args y.kind → temporalityNumber (match y.temporality with | .delta => .delta | _ => .cumulative) = 1) ∧
      (¬ WantsDelta s.args y.kind → temporalityNumber (match y.temporality with | .delta => .delta | _ => .cumulative) = 2) := by
    rw [← hw]
    cases y.temporality <;> simp [temporalityNumber]
  unfold collect ownTemporality
  cases hbt : y.built <;> simp only [aggKind, Collected.fresh, toMData, dataOf, Tells] <;> exact hnum

/-- **C129 for gauges.** A gauge has no temporality in the message. An observable gauge reports what was observed since the last collection, whatever is asked for;
a gauge does exactly if delta is asked for. -/
theorem gauge_resets (views : List View) (setups : List Setup) (readers : List Reader) (hb : setups.mapM Setup.build = some readers)
    (rs : List (Request × Option Str)) (i : Nat) (s : Setup) (hs : setups[i]? = some s) (p : Pipe)
    (hp : (creates views (tempsOf readers) (List.replicate setups.length .init) rs)[i]? = some p) (y : Sync) (hy : y ∈ p.syncs)
    (o : Option Temporality) (hg : y.built = .lastValue o) {P : Type} (start now : Nat) (points : List P) :
    (collect y start now points).temporality = .delta ↔ y.kind = .observableGauge ∨ y.kind = .gauge ∧ s.args.getLast? = some .delta := by
  obtain ⟨-, hw, h3⟩ := sync_temporality views setups readers hb rs i s hs p hp y hy
  rcases h3 o hg with ⟨hk, rfl⟩ | ⟨hk, rfl⟩
  · have : (WantsDelta s.args .gauge) ↔ s.args.getLast? = some .delta := by
      unfold WantsDelta
      cases s.args.getLast? with
      | none => simp
      | some t => cases t <;> simp
    rw [hk, this] at hw
    simp only [collect, ownTemporality, hg, Option.getD_none, hk, true_and, reduceCtorEq, false_or, ← hw]
    cases y.temporality <;> simp
  · simp [collect, ownTemporality, hg, hk]

/-- An OTLP metric exporter can be built exactly if a client was chosen. -/
theorem otlp_build_iff (calls : List OtlpCall) : (ExpSetup.otlp calls).build ≠ none ↔ OtlpCall.tonic ∈ calls ∨ OtlpCall.http ∈ calls := by
  simp only [ExpSetup.build, OtlpBuilder.build, ne_eq, Option.map_eq_none_iff]
  induction calls using List.reverseRecOn with
  | nil => simp [OtlpBuilder.new]
  | append_singleton l c ih =>
    rw [List.foldl_append]
    cases c <;> simp [OtlpBuilder.call] <;> simpa using ih

/-! ## Examples -/

/-- Two readers, one asked for delta and one for low memory, with an up-down counter, a counter and an observable counter. -/
def exSetups : List Setup := [.periodic (.otlp [.temporality .cumulative, .http, .temporality .delta, .config]), .async (.stdout [.lowMemory]), .prometheus]

/-- The kinds and temporalities of the aggregators of three readers. -/
example : ∃ readers, exSetups.mapM Setup.build = some readers ∧
    (creates [] (tempsOf readers) (List.replicate 3 .init) [(exReq "c" .counter, none), (exReq "u" .upDownCounter, none), (exReq "o" .observableCounter, none)]).map
      (fun p => p.syncs.map fun y => (y.kind, y.temporality)) =
    [[(.counter, .delta), (.upDownCounter, .cumulative), (.observableCounter, .delta)],
     [(.counter, .delta), (.upDownCounter, .cumulative), (.observableCounter, .cumulative)],
     [(.counter, .cumulative), (.upDownCounter, .cumulative), (.observableCounter, .cumulative)]] :=
  ⟨[.periodic (.otlp .http .delta), .async (.stdout .lowMemory), .prometheus], rfl, by decide +kernel⟩

/-- An observable gauge of a cumulative reader still reports anew. -/
example : (creates [] (tempsOf [.manual .cumulative]) [.init] [(exReq "g" .observableGauge, none)]).map
    (fun p => p.syncs.map fun y => (y.built, (collect y 0 0 ([] : List Nat)).temporality)) = [[(.lastValue (some .delta), .delta)]] := by decide +kernel

end Otel.Temporality
