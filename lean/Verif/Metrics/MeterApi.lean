import Verif.Metrics.Views
import Verif.Metrics.StreamProps
import Verif.Metrics.AggregationProps
import Mathlib.Data.List.Induction
/-!
# From the builder of an instrument to what readers collect for it, C130

The sixteen methods of `Meter`, the calls on the builders they return, `build`, and the SDK's meter behind it: the aggregators of each reader's pipeline and the
callbacks registered with it. No views; views are C47 and C70.
-/

namespace Otel.Metrics.MeterApi
open Otel.Metrics.Inst
open Rust (Str F64)

/-! ## Model -/

/-- The methods of `Meter`, of `InstrumentProvider` and the `build` of their builders. opentelemetry/src/metrics/meter.rs:314-474, instruments/mod.rs:128-149, 211-230, 343-370 -/
inductive Method where
  | u64Counter | f64Counter | u64ObservableCounter | f64ObservableCounter
  | i64UpDownCounter | f64UpDownCounter | i64ObservableUpDownCounter | f64ObservableUpDownCounter
  | u64Gauge | f64Gauge | i64Gauge | u64ObservableGauge | i64ObservableGauge | f64ObservableGauge
  | f64Histogram | u64Histogram
deriving DecidableEq

/-- The kind each method of `SdkMeter` creates. opentelemetry-sdk/src/metrics/meter.rs:72-446, 450-558 -/
def Method.kind : Method → Kind
  | .u64Counter | .f64Counter => .counter
  | .u64ObservableCounter | .f64ObservableCounter => .observableCounter
  | .i64UpDownCounter | .f64UpDownCounter => .upDownCounter
  | .i64ObservableUpDownCounter | .f64ObservableUpDownCounter => .observableUpDownCounter
  | .u64Gauge | .f64Gauge | .i64Gauge => .gauge
  | .u64ObservableGauge | .i64ObservableGauge | .f64ObservableGauge => .observableGauge
  | .f64Histogram | .u64Histogram => .histogram

/-- The resolver each method uses. meter.rs:450-558 -/
def Method.number : Method → NumKind
  | .u64Counter | .u64ObservableCounter | .u64Gauge | .u64ObservableGauge | .u64Histogram => .u64
  | .i64UpDownCounter | .i64ObservableUpDownCounter | .i64Gauge | .i64ObservableGauge => .i64
  | .f64Counter | .f64ObservableCounter | .f64UpDownCounter | .f64ObservableUpDownCounter | .f64Gauge | .f64ObservableGauge | .f64Histogram => .f64

/-- Whether the builder is an `AsyncInstrumentBuilder`. instruments/mod.rs:356-370 -/
def Method.async : Method → Bool
  | .u64ObservableCounter | .f64ObservableCounter | .i64ObservableUpDownCounter | .f64ObservableUpDownCounter
  | .u64ObservableGauge | .i64ObservableGauge | .f64ObservableGauge => true
  | _ => false

/-- A call on a builder; `boundaries` is there for histograms only and `callback` for observable instruments only. instruments/mod.rs:73-125, 185-208, 308-340 -/
inductive Call (Cb : Type) where
  | description (s : Str)
  | unit (s : Str)
  | limit (n : Nat)
  | boundaries (bs : List F64)
  | callback (c : Cb)

/-- The three builders in one. opentelemetry/src/metrics/instruments/mod.rs:35-56, 152-169, 271-291 -/
structure Builder (Cb : Type) where
  name : Str
  description : Option Str
  unit : Option Str
  limit : Option Nat
  boundaries : Option (List F64)
  callbacks : List Cb

variable {Cb : Type}

/-- `new`. instruments/mod.rs:60-70, 173-182, 295-305 -/
def Builder.new (name : Str) : Builder Cb := ⟨name, none, none, none, none, []⟩

/-- The `with_…` methods. instruments/mod.rs:73-125, 185-208, 308-340 -/
def Builder.call (b : Builder Cb) : Call Cb → Builder Cb
  | .description s => { b with description := some s }
  | .unit s => { b with unit := some s }
  | .limit n => { b with limit := some n }
  | .boundaries bs => { b with boundaries := some bs }
  | .callback c => { b with callbacks := b.callbacks ++ [c] }

/-- The arguments of `InstrumentResolver::measures`: `None` for the boundaries of all but histograms. meter.rs:92-101, 425-433, 673-694 -/
def request (m : Method) (scope : Scope) (b : Builder Cb) : Request :=
  ⟨m.number, ⟨b.name, b.description.getD [], some m.kind, b.unit.getD [], scope⟩, if m.kind = .histogram then b.boundaries else none, b.limit⟩

/-- A meter provider: for each reader its aggregators and its callbacks, each with the aggregators its observations go to. opentelemetry-sdk/src/metrics/pipeline.rs:37-42, 56-59 -/
structure Prov (Cb : Type) where
  pipes : List Pipe
  callbacks : List (List (Cb × List (Nat × Nat)))

/-- A provider with some readers. -/
def Prov.init (n : Nat) : Prov Cb := ⟨List.replicate n .init, List.replicate n []⟩

/-- `Pipelines::register_callback`. pipeline.rs:656-664, 83-88 -/
def register (cbs : List (List (Cb × List (Nat × Nat)))) (c : Cb) (ms : List (Nat × Nat)) : List (List (Cb × List (Nat × Nat))) := cbs.map (· ++ [(c, ms)])

/-- What a program writes to create an instrument. -/
structure Decl (Cb : Type) where
  method : Method
  scope : Scope
  name : Str
  calls : List (Call Cb)

/-- The builder after the calls. -/
def Decl.builder (d : Decl Cb) : Builder Cb := d.calls.foldl Builder.call (.new d.name)

/-- `build`; also gives the aggregators, each with the number of its reader, that the measurements of the instrument, or the observations of its callbacks, go to.
meter.rs:72-446 -/
def make (temps : Nat → Kind → Temporality) (p : Prov Cb) (d : Decl Cb) : Prov Cb × List (Nat × Nat) :=
  let r := create [] temps (request d.method d.scope d.builder) d.builder.unit p.pipes
  if d.method.async ∧ r.2 ≠ [] then (⟨r.1, d.builder.callbacks.foldl (fun cbs c => register cbs c r.2) p.callbacks⟩, r.2)
  else (⟨r.1, p.callbacks⟩, r.2)

/-- Instruments created one after the other, each with where its measurements go. -/
def makes (temps : Nat → Kind → Temporality) (p : Prov Cb) : List (Decl Cb) → Prov Cb × List (Decl Cb × List (Nat × Nat))
  | [] => (p, [])
  | d :: ds =>
    let r := make temps p d
    let rest := makes temps r.1 ds
    (rest.1, (d, r.2) :: rest.2)

/-! ## Specification -/

/-- The names of the methods. -/
def Method.text : Method → String
  | .u64Counter => "u64_counter" | .f64Counter => "f64_counter"
  | .u64ObservableCounter => "u64_observable_counter" | .f64ObservableCounter => "f64_observable_counter"
  | .i64UpDownCounter => "i64_up_down_counter" | .f64UpDownCounter => "f64_up_down_counter"
  | .i64ObservableUpDownCounter => "i64_observable_up_down_counter" | .f64ObservableUpDownCounter => "f64_observable_up_down_counter"
  | .u64Gauge => "u64_gauge" | .f64Gauge => "f64_gauge" | .i64Gauge => "i64_gauge"
  | .u64ObservableGauge => "u64_observable_gauge" | .i64ObservableGauge => "i64_observable_gauge" | .f64ObservableGauge => "f64_observable_gauge"
  | .f64Histogram => "f64_histogram" | .u64Histogram => "u64_histogram"

/-- The methods whose builders take callbacks. -/
def observableMethods : List String := ["u64_observable_counter", "f64_observable_counter", "i64_observable_up_down_counter", "f64_observable_up_down_counter",
  "u64_observable_gauge", "i64_observable_gauge", "f64_observable_gauge"]

/-- How a kind is called in the name of a method. -/
def kindText : Kind → String
  | .counter => "counter" | .upDownCounter => "up_down_counter" | .histogram => "histogram" | .gauge => "gauge"
  | .observableCounter => "observable_counter" | .observableUpDownCounter => "observable_up_down_counter" | .observableGauge => "observable_gauge"

/-- How a number type is called in the name of a method. -/
def numText : NumKind → String
  | .u64 => "u64" | .i64 => "i64" | .f64 => "f64"

def Call.description? : Call Cb → Option Str | .description s => some s | _ => none
def Call.unit? : Call Cb → Option Str | .unit s => some s | _ => none
def Call.limit? : Call Cb → Option Nat | .limit n => some n | _ => none
def Call.boundaries? : Call Cb → Option (List F64) | .boundaries bs => some bs | _ => none
def Call.callback? : Call Cb → Option Cb | .callback c => some c | _ => none

/-- The argument of the last call of a kind. -/
def Decl.last {X : Type} (d : Decl Cb) (f : Call Cb → Option X) : Option X := (d.calls.filterMap f).getLast?

/-- The declaration is a valid one: name and unit as the specification wants them, boundaries of a histogram finite and increasing. -/
def Decl.Valid (d : Decl Cb) : Prop :=
  ValidName d.name ∧ (∀ u, d.last Call.unit? = some u → ValidUnit u) ∧
    ∀ bs, d.method.kind = .histogram → d.last Call.boundaries? = some bs → (∀ b ∈ bs, ∃ q, b = .fin q) ∧ bs.Pairwise fun a b => F64.lt a b = true

/-- The same instrument as far as readers are concerned: the case of letters in the name does not count. -/
def Same (d : Decl Cb) (y : Sync) : Prop :=
  y.scope = d.scope ∧ y.name.map asciiLower = d.name.map asciiLower ∧ y.description = (d.last Call.description?).getD [] ∧ y.unit = (d.last Call.unit?).getD [] ∧
    numText y.number ++ "_" ++ kindText y.kind = d.method.text

/-- What aggregates the measurements of a new instrument: its name as written, at most the sets asked for or 2000, and sums, last values, or a histogram with the
boundaries asked for or those of the specification. -/
def Fresh (temp : Kind → Temporality) (d : Decl Cb) (y : Sync) : Prop :=
  y.name = d.name ∧ y.limit = (d.last Call.limit?).getD 2000 ∧ y.allowedKeys = none ∧ y.temporality = temp y.kind ∧
    match y.kind with
    | .counter => y.built = .sum true
    | .upDownCounter => y.built = .sum false
    | .observableCounter => y.built = .precomputedSum true
    | .observableUpDownCounter => y.built = .precomputedSum false
    | .gauge => y.built = .lastValue none
    | .observableGauge => y.built = .lastValue (some .delta)
    | .histogram => y.built = .explicitBucketHistogram ((d.last Call.boundaries?).getD specBoundaries) true true

open Classical in
/-- The callbacks a declaration gives a reader, each with where its observations go: those of valid observable instruments. -/
noncomputable def gives (x : Decl Cb × List (Nat × Nat)) : List (Cb × List (Nat × Nat)) :=
  if x.1.method.text ∈ observableMethods ∧ x.1.Valid then (x.1.calls.filterMap Call.callback?).map fun c => (c, x.2) else []

/-! ## Proofs -/

theorem method_text (m : Method) : numText m.number ++ "_" ++ kindText m.kind = m.text := by cases m <;> decide +kernel

/-- A method's name determines number type and kind. -/
theorem text_inj (n n' : NumKind) (k k' : Kind) (h : numText n ++ "_" ++ kindText k = numText n' ++ "_" ++ kindText k') : n = n' ∧ k = k' := by
  revert h
  cases n <;> cases n' <;> cases k <;> cases k' <;> decide +kernel

theorem builder_name (d : Decl Cb) : d.builder.name = d.name := by
  unfold Decl.builder
  induction d.calls using List.reverseRecOn with
  | nil => rfl
  | append_singleton l c ih => rw [List.foldl_append]; cases c <;> exact ih

theorem builder_field {X : Type} (f : Call Cb → Option X) (g : Builder Cb → Option X) (hnew : ∀ n, g (.new n) = none)
    (hcall : ∀ b c, g (b.call c) = (f c).or (g b)) (d : Decl Cb) : g d.builder = d.last f := by
  unfold Decl.builder Decl.last
  induction d.calls using List.reverseRecOn with
  | nil => exact hnew _
  | append_singleton l c ih =>
    rw [List.foldl_append, List.foldl_cons, List.foldl_nil, hcall, ih, List.filterMap_append]
    cases h : f c <;> simp [h]

theorem builder_description (d : Decl Cb) : d.builder.description = d.last Call.description? :=
  builder_field _ Builder.description (fun _ => rfl) (by intro b c; cases c <;> rfl) d
theorem builder_unit (d : Decl Cb) : d.builder.unit = d.last Call.unit? :=
  builder_field _ Builder.unit (fun _ => rfl) (by intro b c; cases c <;> rfl) d
theorem builder_limit (d : Decl Cb) : d.builder.limit = d.last Call.limit? :=
  builder_field _ Builder.limit (fun _ => rfl) (by intro b c; cases c <;> rfl) d
theorem builder_boundaries (d : Decl Cb) : d.builder.boundaries = d.last Call.boundaries? :=
  builder_field _ Builder.boundaries (fun _ => rfl) (by intro b c; cases c <;> rfl) d

theorem builder_callbacks (d : Decl Cb) : d.builder.callbacks = d.calls.filterMap Call.callback? := by
  unfold Decl.builder
  induction d.calls using List.reverseRecOn with
  | nil => rfl
  | append_singleton l c ih => rw [List.foldl_append, List.filterMap_append]; cases c <;> simp [Builder.call, Call.callback?, ih]

theorem async_iff (m : Method) : m.async = true ↔ m.text ∈ observableMethods := by cases m <;> decide +kernel

theorem reach_step {views : List View} {temp : Kind → Temporality} {p : Pipe} (h : Reach views temp p) (r : Request) :
    Reach views temp (instrument views temp r.number p r.inst r.boundaries r.limit).1 := by
  obtain ⟨rs, rfl⟩ := h
  refine ⟨rs ++ [r], ?_⟩
  have hrun : ∀ (q : Pipe) (l₁ : List Request), runRequests views temp q (l₁ ++ [r]) =
      (instrument views temp r.number (runRequests views temp q l₁) r.inst r.boundaries r.limit).1 := by
    intro q l₁
    induction l₁ generalizing q with
    | nil => rfl
    | cons x l₁ ih => exact ih _
  rw [hrun]

/-- The stream of a declaration. -/
def Decl.stream (d : Decl Cb) : Stream :=
  ⟨d.name, (d.last Call.description?).getD [], (d.last Call.unit?).getD [],
    if d.method.kind = .histogram then (d.last Call.boundaries?).map (.explicitBucketHistogram · true) else none, none, d.last Call.limit?⟩

/-- The request of a declaration. -/
abbrev Decl.request (d : Decl Cb) : Request := MeterApi.request d.method d.scope d.builder

theorem streams (d : Decl Cb) : streamsOf [] d.request.inst d.request.boundaries d.request.limit = [d.stream] := by
  simp only [streamsOf, List.filterMap_nil, request, Decl.stream, builder_name, builder_description, builder_unit, builder_boundaries, builder_limit]
  by_cases h : d.method.kind = .histogram <;> simp [h]

theorem same_iff (d : Decl Cb) (y : Sync) : Same d y ↔ y.identity = streamIdentity d.request d.method.kind d.stream := by
  simp only [Same, Sync.identity, streamIdentity, identity, request, Decl.stream, Prod.mk.injEq, ← method_text]
  constructor
  · rintro ⟨h1, h2, h3, h4, h5⟩
    obtain ⟨h6, h7⟩ := text_inj _ _ _ _ h5
    exact ⟨h1, h7, h6, h2, h3, h4⟩
  · rintro ⟨h1, h7, h6, h2, h3, h4⟩
    exact ⟨h1, h2, h3, h4, by rw [h6, h7]⟩

theorem stream_compatible (d : Decl Cb) : compatible d.method.kind (resolved d.method.kind d.stream) = true := by
  by_cases h : d.method.kind = .histogram
  · cases hb : d.last Call.boundaries? <;> simp [resolved, Decl.stream, h, hb] <;> rfl
  · have : resolved d.method.kind d.stream = resolved d.method.kind ⟨[], [], [], none, none, none⟩ := by simp [resolved, Decl.stream, h]
    rw [this]
    generalize d.method.kind = k
    cases k <;> rfl

/-- What aggregates the stream. -/
theorem stream_built (temp : Kind → Temporality) (d : Decl Cb) (b : Built) (hb : aggregateFn d.method.kind (resolved d.method.kind d.stream) = some (some b))
    (agg : Nat) : Fresh temp d ⟨d.scope, d.method.kind, d.method.number, d.stream.name, d.stream.description, d.stream.unit, agg, b, temp d.method.kind,
      d.stream.allowedKeys, d.stream.cardinalityLimit.getD 2000⟩ := by
  refine ⟨rfl, rfl, rfl, rfl, ?_⟩
  dsimp only
  by_cases h : d.method.kind = .histogram
  · rw [h] at hb ⊢
    cases hbs : d.last Call.boundaries? with
    | none =>
      simp only [resolved, Decl.stream, h, hbs, if_true, Option.map_none] at hb
      simpa [aggregateFn, aggregateFn', recordSum, defaultAggregation, specBoundaries] using hb.symm
    | some bs =>
      simp only [resolved, Decl.stream, h, hbs, if_true, Option.map_some] at hb
      simpa [aggregateFn, aggregateFn', recordSum] using hb.symm
  · have hr : resolved d.method.kind d.stream = resolved d.method.kind ⟨[], [], [], none, none, none⟩ := by simp [resolved, Decl.stream, h]
    rw [hr] at hb
    revert hb h
    generalize d.method.kind = k
    intro hb h
    cases k <;> first | exact absurd rfl h | simpa [resolved, aggregateFn, aggregateFn', defaultAggregation] using hb.symm

/-- What a valid declaration does to the pipeline of one reader. -/
theorem one_reader (temp : Kind → Temporality) (q : Pipe) (h : Reach [] temp q) (d : Decl Cb) :
    ∃ y ∈ (instrument [] temp d.request.number q d.request.inst d.request.boundaries d.request.limit).1.syncs, Same d y ∧
      (instrument [] temp d.request.number q d.request.inst d.request.boundaries d.request.limit).2 = some [y.agg] ∧
      ((instrument [] temp d.request.number q d.request.inst d.request.boundaries d.request.limit).1 = q ∨
        (∀ z ∈ q.syncs, ¬ Same d z) ∧ (instrument [] temp d.request.number q d.request.inst d.request.boundaries d.request.limit).1.syncs = q.syncs ++ [y] ∧
        Fresh temp d y) := by
  by_cases hex : ∃ z ∈ q.syncs, Same d z
  · obtain ⟨z, hz, hs⟩ := hex
    have hl := (h.inv.feed (syncKey z) z.agg).2 ⟨z, hz, rfl, rfl⟩
    have hkey : syncKey z = key d.request.inst.scope d.method.kind d.request.number d.stream := (syncKey_eq ..).2 ((same_iff d z).1 hs)
    have hstream : d.stream = defaultStream d.request.inst d.request.boundaries d.request.limit := by
      have := streams d
      simp only [streamsOf, List.filterMap_nil, List.cons.injEq, and_true] at this
      exact this.symm
    have hcached : cachedAggregator temp d.request.number q d.request.inst.scope d.method.kind d.stream = (q, some (some z.agg)) := by
      unfold cachedAggregator
      dsimp only
      rw [if_neg (by rw [stream_compatible]; simp)]
      rw [hkey] at hl
      have : lookup (d.request.inst.scope, (instId d.method.kind d.stream d.request.number).normalize) q.cache = some (some (some z.agg)) := hl
      rw [this]
    have hi : instrument [] temp d.request.number q d.request.inst d.request.boundaries d.request.limit = (q, some [z.agg]) := by
      have hk : d.request.inst.kind = some d.method.kind := rfl
      unfold instrument
      rw [hk]
      simp only [viewLoop]
      rw [← hstream, hcached]
      rfl
    rw [hi]
    exact ⟨z, hz, hs, rfl, Or.inl rfl⟩
  · have hnew : ∀ z ∈ q.syncs, ¬ Same d z := fun z hz hs => hex ⟨z, hz, hs⟩
    obtain ⟨b, hb, h1, h2⟩ := new_aggregator [] temp q h (by intro v hv; cases hv) d.request d.method.kind rfl d.stream (streams d) (stream_compatible d)
      (fun y hy he => hnew y hy ((same_iff d y).2 he))
    rw [h1, h2]
    refine ⟨_, List.mem_append_right _ (List.mem_singleton_self _), ?_, rfl, Or.inr ⟨hnew, rfl, ?_⟩⟩
    · rw [same_iff]; rfl
    · exact stream_built temp d b hb _

theorem measures_get' (views : List View) (temps : Nat → Kind → Temporality) (r : Request) : ∀ (i : Nat) (ps : List Pipe) (j : Nat),
    (measures views temps r i ps).1[j]? = (ps[j]?).map fun p => (instrument views (temps (i + j)) r.number p r.inst r.boundaries r.limit).1
  | i, [], j => by simp [measures]
  | i, p :: ps, 0 => by simp [measures]
  | i, p :: ps, j + 1 => by
    have := measures_get' views temps r (i + 1) ps j
    simp only [measures, List.getElem?_cons_succ, this]
    congr 2
    funext p
    rw [show i + 1 + j = i + (j + 1) by omega]

theorem measures_each (views : List View) (temps : Nat → Kind → Temporality) (r : Request) (f : Nat → Nat) : ∀ (k : Nat) (ps : List Pipe),
    (∀ j p, ps[j]? = some p → (instrument views (temps (k + j)) r.number p r.inst r.boundaries r.limit).2 = some [f (k + j)]) →
    (measures views temps r k ps).2 = some ((List.range' k ps.length).map fun i => (i, f i))
  | k, [], _ => rfl
  | k, p :: ps, h => by
    have h0 := h 0 p rfl
    have := measures_each views temps r f (k + 1) ps (by
      intro j p hp
      have := h (j + 1) p (by simpa using hp)
      rw [show k + 1 + j = k + (j + 1) by omega]
      exact this)
    simp only [Nat.add_zero] at h0
    simp only [measures, h0, this, List.length_cons, List.range'_succ]
    rfl

/-- What every reachable provider is. -/
def Good (temps : Nat → Kind → Temporality) (n : Nat) (p : Prov Cb) : Prop :=
  p.pipes.length = n ∧ ∀ i q, p.pipes[i]? = some q → Reach [] (temps i) q

theorem good_init (temps : Nat → Kind → Temporality) (n : Nat) : Good temps n (Prov.init n : Prov Cb) := by
  refine ⟨by simp [Prov.init], ?_⟩
  intro i q h
  simp only [Prov.init, List.getElem?_replicate] at h
  split at h
  · injection h with h; subst h; exact ⟨[], rfl⟩
  · cases h

theorem make_fst_pipes (temps : Nat → Kind → Temporality) (p : Prov Cb) (d : Decl Cb) :
    (make temps p d).1.pipes = (create [] temps d.request d.builder.unit p.pipes).1 ∧
    (make temps p d).2 = (create [] temps d.request d.builder.unit p.pipes).2 := by
  unfold make
  dsimp only
  split <;> exact ⟨rfl, rfl⟩

theorem valid_iff (d : Decl Cb) : d.Valid ↔ validateConfig d.request.inst.name d.builder.unit = .ok () ∧ (d.request.boundaries.map validateBucketBoundaries).getD true = true := by
  rw [config_valid_iff]
  simp only [Decl.Valid, request, builder_name, builder_unit, builder_boundaries, and_assoc]
  refine and_congr_right fun _ => and_congr_right fun _ => ?_
  by_cases h : d.method.kind = .histogram
  · cases hb : d.last Call.boundaries? with
    | none => simp [h]
    | some bs => simp only [h, if_true, Option.map_some, Option.getD_some, validate_boundaries]; simp
  · simp [h]

theorem create_valid (temps : Nat → Kind → Temporality) (n : Nat) (p : Prov Cb) (hp : Good temps n p) (d : Decl Cb) (hd : d.Valid) :
    ∃ f : Nat → Nat, (make temps p d).2 = (List.range n).map (fun i => (i, f i)) ∧
      ∀ i q, p.pipes[i]? = some q →
        (instrument [] (temps i) d.request.number q d.request.inst d.request.boundaries d.request.limit).2 = some [f i] ∧
        (make temps p d).1.pipes[i]? = some (instrument [] (temps i) d.request.number q d.request.inst d.request.boundaries d.request.limit).1 := by
  obtain ⟨h1, h2⟩ := (valid_iff d).1 hd
  have hf : ∃ f : Nat → Nat, ∀ i q, p.pipes[i]? = some q →
      (instrument [] (temps i) d.request.number q d.request.inst d.request.boundaries d.request.limit).2 = some [f i] := by
    have : ∀ i, ∃ a : Nat, ∀ q, p.pipes[i]? = some q →
        (instrument [] (temps i) d.request.number q d.request.inst d.request.boundaries d.request.limit).2 = some [a] := by
      intro i
      cases hq : p.pipes[i]? with
      | none => exact ⟨0, fun q h => by cases h⟩
      | some q =>
        obtain ⟨y, -, -, hy, -⟩ := one_reader (temps i) q (hp.2 i q hq) d
        exact ⟨y.agg, fun q' h => by injection h with h; subst h; exact hy⟩
    exact ⟨fun i => (this i).choose, fun i => (this i).choose_spec⟩
  obtain ⟨f, hf⟩ := hf
  have hm := measures_each [] temps d.request f 0 p.pipes (by intro j q hq; rw [Nat.zero_add]; exact hf j q hq)
  have hc : create [] temps d.request d.builder.unit p.pipes = ((measures [] temps d.request 0 p.pipes).1, (List.range n).map fun i => (i, f i)) := by
    unfold create
    rw [h1]
    dsimp only
    rw [if_neg (by rw [h2]; simp)]
    rw [hp.1, ← List.range_eq_range'] at hm
    generalize measures [] temps d.request 0 p.pipes = x at hm
    obtain ⟨a, b⟩ := x
    simp only at hm
    rw [hm]
  refine ⟨f, by rw [(make_fst_pipes temps p d).2, hc], fun i q hq => ⟨hf i q hq, ?_⟩⟩
  rw [(make_fst_pipes temps p d).1, hc]
  dsimp only
  rw [measures_get', hq, Nat.zero_add]
  rfl

theorem create_invalid (temps : Nat → Kind → Temporality) (p : Prov Cb) (d : Decl Cb) (hd : ¬ d.Valid) : make temps p d = (p, []) := by
  have hc : create [] temps d.request d.builder.unit p.pipes = (p.pipes, []) := by
    rw [valid_iff, not_and] at hd
    unfold create
    cases hv : validateConfig d.request.inst.name d.builder.unit with
    | error e => rfl
    | ok u =>
      dsimp only
      rw [if_pos]
      have := hd hv
      revert this
      cases (d.request.boundaries.map validateBucketBoundaries).getD true <;> simp
  unfold make
  rw [show MeterApi.request d.method d.scope d.builder = d.request from rfl, hc]
  simp

theorem good_make (temps : Nat → Kind → Temporality) (n : Nat) (p : Prov Cb) (hp : Good temps n p) (d : Decl Cb) : Good temps n (make temps p d).1 := by
  by_cases hd : d.Valid
  · obtain ⟨f, hf, h⟩ := create_valid temps n p hp d hd
    have hlen : (make temps p d).1.pipes.length = n := by
      have hsome : ∀ i, i < n ↔ i < (make temps p d).1.pipes.length := by
        intro i
        by_cases hi : i < n
        · obtain ⟨q, hq⟩ : ∃ q, p.pipes[i]? = some q := ⟨_, List.getElem?_eq_getElem (hp.1 ▸ hi)⟩
          exact ⟨fun _ => (List.getElem?_eq_some_iff.1 (h i q hq).2).1, fun _ => hi⟩
        · refine ⟨fun h => absurd h hi, fun hl => ?_⟩
          exfalso
          have hnone : p.pipes[i]? = none := List.getElem?_eq_none (by rw [hp.1]; omega)
          have : (make temps p d).1.pipes[i]? = none := by
            obtain ⟨h1, h2⟩ := (valid_iff d).1 hd
            rw [(make_fst_pipes temps p d).1]
            unfold create
            rw [h1]
            dsimp only
            rw [if_neg (by rw [h2]; simp)]
            have hg := measures_get' [] temps d.request 0 p.pipes i
            rw [hnone] at hg
            generalize measures [] temps d.request 0 p.pipes = x at hg
            obtain ⟨a, b⟩ := x
            cases b <;> exact hg
          rw [List.getElem?_eq_none_iff] at this
          omega
      have a1 := hsome n
      have a2 := hsome (make temps p d).1.pipes.length
      omega
    refine ⟨hlen, ?_⟩
    intro i q' hq'
    have hi : i < n := hlen ▸ (List.getElem?_eq_some_iff.1 hq').1
    obtain ⟨q, hq⟩ : ∃ q, p.pipes[i]? = some q := ⟨_, List.getElem?_eq_getElem (hp.1 ▸ hi)⟩
    have := (h i q hq).2
    rw [hq'] at this
    injection this with this
    subst this
    exact reach_step (hp.2 i q hq) d.request
  · rw [create_invalid temps p d hd]; exact hp

theorem good_makes (temps : Nat → Kind → Temporality) (n : Nat) : ∀ (ds : List (Decl Cb)) (p : Prov Cb), Good temps n p → Good temps n (makes temps p ds).1
  | [], _, h => h
  | d :: ds, p, h => good_makes temps n ds _ (good_make temps n p h d)

theorem registered (ms : List (Nat × Nat)) : ∀ (cs : List Cb) (cbs : List (List (Cb × List (Nat × Nat)))),
    cs.foldl (fun cbs c => register cbs c ms) cbs = cbs.map (· ++ cs.map fun c => (c, ms))
  | [], cbs => by simp
  | c :: cs, cbs => by
    rw [List.foldl_cons, registered ms cs]
    simp [register, List.map_map, Function.comp_def]

theorem make_callbacks (temps : Nat → Kind → Temporality) (n : Nat) (hn : 0 < n) (p : Prov Cb) (hp : Good temps n p) (d : Decl Cb) :
    (make temps p d).1.callbacks = p.callbacks.map (· ++ gives (d, (make temps p d).2)) := by
  by_cases hd : d.Valid
  · obtain ⟨f, hf, -⟩ := create_valid temps n p hp d hd
    have hne : (make temps p d).2 ≠ [] := by
      rw [hf]
      intro h
      have := congrArg List.length h
      simp at this
      omega
    unfold gives
    dsimp only
    by_cases ha : d.method.async = true
    · rw [if_pos ⟨(async_iff _).1 ha, hd⟩]
      rw [(make_fst_pipes temps p d).2] at hne ⊢
      unfold make
      dsimp only
      rw [if_pos ⟨ha, hne⟩]
      dsimp only
      rw [registered, builder_callbacks]
    · rw [if_neg (fun h => ha ((async_iff _).2 h.1))]
      unfold make
      dsimp only
      rw [if_neg (fun h => ha h.1)]
      simp
  · rw [create_invalid temps p d hd]
    simp [gives, hd]

theorem makes_callbacks (temps : Nat → Kind → Temporality) (n : Nat) (hn : 0 < n) : ∀ (ds : List (Decl Cb)) (p : Prov Cb), Good temps n p →
    (makes temps p ds).1.callbacks = p.callbacks.map (· ++ (makes temps p ds).2.flatMap gives)
  | [], p, _ => by simp [makes]
  | d :: ds, p, h => by
    simp only [makes, List.flatMap_cons]
    rw [makes_callbacks temps n hn ds _ (good_make temps n p h d), make_callbacks temps n hn p h d]
    simp [List.map_map, Function.comp_def]

/-! ## Theorems -/

/-- Property C130. Whatever instruments were created before, a valid declaration yields an instrument whose every measurement goes, for each reader, to exactly one
aggregator: the one aggregator of the reader with that scope, kind and number type, description and unit, and that name up to the case of letters. If the reader had none,
it has one more, with the name, limit and boundaries as asked; otherwise it is as before. -/
theorem asked_is_created (temps : Nat → Kind → Temporality) (n : Nat) (before : List (Decl Cb)) (d : Decl Cb) (hd : d.Valid) :
    ∃ f : Nat → Nat, (make temps (makes temps (.init n) before).1 d).2 = (List.range n).map (fun i => (i, f i)) ∧
      ∀ i, i < n → ∃ q q' y, (makes temps (.init n) before).1.pipes[i]? = some q ∧ (make temps (makes temps (.init n) before).1 d).1.pipes[i]? = some q' ∧
        y ∈ q'.syncs ∧ y.agg = f i ∧ Same d y ∧ (∀ z ∈ q'.syncs, (Same d z ∨ z.agg = f i) → z = y) ∧
        (q' = q ∨ (∀ z ∈ q.syncs, ¬ Same d z) ∧ q'.syncs = q.syncs ++ [y] ∧ Fresh (temps i) d y) := by
  have hg := good_makes temps n before _ (good_init temps n)
  generalize (makes temps (.init n) before).1 = p at hg
  obtain ⟨f, hf, h⟩ := create_valid temps n p hg d hd
  refine ⟨f, hf, ?_⟩
  intro i hi
  obtain ⟨q, hq⟩ : ∃ q, p.pipes[i]? = some q := ⟨_, List.getElem?_eq_getElem (hg.1 ▸ hi)⟩
  obtain ⟨h1, h2⟩ := h i q hq
  obtain ⟨y, hy, hs, ha, hor⟩ := one_reader (temps i) q (hg.2 i q hq) d
  have hya : y.agg = f i := by
    rw [h1] at ha
    simpa using ha.symm
  have huniq := one_aggregator_per_identity [] (temps i) _ (reach_step (hg.2 i q hq) d.request)
  refine ⟨q, _, y, hq, h2, hy, hya, hs, ?_, hor⟩
  rintro z hz (hzs | hza)
  · exact List.inj_on_of_nodup_map huniq.2 hz hy (((same_iff d z).1 hzs).trans ((same_iff d y).1 hs).symm)
  · exact List.inj_on_of_nodup_map huniq.1 hz hy (hza.trans hya.symm)

/-- Property C130. A declaration that is not valid changes nothing for any reader, and its measurements go nowhere. -/
theorem invalid_asked_for_nothing (temps : Nat → Kind → Temporality) (p : Prov Cb) (d : Decl Cb) (hd : ¬ d.Valid) : make temps p d = (p, []) :=
  create_invalid temps p d hd

/-- Property C130. The callbacks a reader runs are those given to the builders of the valid observable instruments, each as often as it was given, in the order
given, and each observes into the aggregators of its own instrument. -/
theorem callbacks_registered (temps : Nat → Kind → Temporality) (n : Nat) (ds : List (Decl Cb)) :
    (makes temps (.init n) ds).1.callbacks = List.replicate n ((makes temps (.init n) ds).2.flatMap gives) := by
  cases n with
  | zero =>
    have : ∀ (ds : List (Decl Cb)) (p : Prov Cb), p.callbacks = [] → (makes temps p ds).1.callbacks = [] := by
      intro ds
      induction ds with
      | nil => exact fun p h => h
      | cons d ds ih =>
        intro p h
        refine ih _ ?_
        unfold make
        dsimp only
        split
        · dsimp only; rw [registered, h]; rfl
        · exact h
    exact this ds _ rfl
  | succ n =>
    rw [makes_callbacks temps (n + 1) (by omega) ds _ (good_init temps (n + 1))]
    simp [Prov.init]

/-! ## A case: two readers, a histogram, the same gauge twice with callbacks, and an invalid name -/

def exScope : Scope := ⟨"lib".toList, none, none, []⟩
def exTemps : Nat → Kind → Temporality := fun i _ => if i = 0 then .cumulative else .delta
def exHistogram : Decl Nat := ⟨.f64Histogram, exScope, "latency".toList, [.unit "s".toList, .boundaries [.fin 1, .fin 2], .unit "ms".toList, .limit 7]⟩
def exGauge : Decl Nat := ⟨.i64ObservableGauge, exScope, "temp".toList, [.callback 10, .description "d".toList, .callback 11]⟩
def exGauge' : Decl Nat := ⟨.i64ObservableGauge, exScope, "Temp".toList, [.callback 12, .description "d".toList]⟩
def exBad : Decl Nat := ⟨.u64ObservableCounter, exScope, "1st".toList, [.callback 13]⟩

example : exHistogram.Valid := (valid_iff _).2 (by decide +kernel)
example : exGauge.Valid ∧ exGauge'.Valid := ⟨(valid_iff _).2 (by decide +kernel), (valid_iff _).2 (by decide +kernel)⟩
example : ¬ exBad.Valid := fun h => absurd ((valid_iff _).1 h) (by decide +kernel)

/-- Each reader has an aggregator for the histogram and one for both gauges, whose three callbacks it runs. -/
example : (makes exTemps (.init 2) [exHistogram, exGauge, exBad, exGauge']).2.map Prod.snd = [[(0, 0), (1, 0)], [(0, 1), (1, 1)], [], [(0, 1), (1, 1)]] ∧
    (makes exTemps (.init 2) [exHistogram, exGauge, exBad, exGauge']).1.callbacks =
      List.replicate 2 [(10, [(0, 1), (1, 1)]), (11, [(0, 1), (1, 1)]), (12, [(0, 1), (1, 1)])] ∧
    (makes exTemps (.init 2) [exHistogram, exGauge, exBad, exGauge']).1.pipes.map (fun q => q.syncs.map fun y => (y.name, y.unit, y.limit)) =
      List.replicate 2 [("latency".toList, "ms".toList, 7), ("temp".toList, [], 2000)] := by decide +kernel

end Otel.Metrics.MeterApi
