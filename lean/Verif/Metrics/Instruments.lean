import Verif.Metrics.Aggregations
import Verif.Metrics.Names
import Verif.Metrics.Produce
import Verif.Rust.F64
/-!
# Instruments, views and streams (`opentelemetry-sdk/src/metrics/{pipeline,instrument,view,meter,aggregation}.rs`) (C47)

How the creation of an instrument is resolved to aggregators. An aggregator is a number: the order of its allocation in its pipeline.
A meter provider keeps one meter per scope and a meter keeps one cache of aggregators per pipeline and number type; here there is one
cache per pipeline with the scope in the key (the number type is part of the identifier already).
-/

namespace Otel.Metrics.Inst
open Rust (Str F64)

/-- `InstrumentKind`. instrument.rs:14-37 -/
inductive Kind where
  | counter | upDownCounter | histogram | observableCounter | observableUpDownCounter | gauge | observableGauge
deriving DecidableEq

/-- `Aggregation`. aggregation.rs:9-92 -/
inductive Aggregation where
  | drop
  | default
  | sum
  | lastValue
  | explicitBucketHistogram (boundaries : List F64) (recordMinMax : Bool)
  | base2ExponentialHistogram (maxSize : Nat) (maxScale : Int) (recordMinMax : Bool)
deriving DecidableEq

/-- `InstrumentationScope`, as far as instruments look at it: name, version and schema URL (attributes are in `attrs`).
opentelemetry/src/common.rs:462-509 -/
structure Scope where
  name : Str
  version : Option Str
  schemaUrl : Option Str
  attrs : List (Str × Str)
deriving DecidableEq

/-- `InstrumentationScope::default()` -/
def Scope.default : Scope := ⟨[], none, none, []⟩

/-- `Instrument`. instrument.rs:87-98 -/
structure Instrument where
  name : Str
  description : Str
  kind : Option Kind
  unit : Str
  scope : Scope
deriving DecidableEq

/-- `Stream`. instrument.rs:191-209 -/
structure Stream where
  name : Str
  description : Str
  unit : Str
  aggregation : Option Aggregation
  allowedKeys : Option (List Str)
  cardinalityLimit : Option Nat
deriving DecidableEq

/-- `InstrumentId`. instrument.rs:261-272 -/
structure Id where
  name : Str
  description : Str
  kind : Kind
  unit : Str
  number : NumKind
deriving DecidableEq

/-- `char::to_ascii_lowercase` -/
def asciiLower (c : Char) : Char := if Rust.isAsciiUpper c then Char.ofNat (c.toNat + 32) else c

/-- `InstrumentId::normalize`. instrument.rs:283-287 -/
def Id.normalize (i : Id) : Id :=
  if i.name.any Rust.isAsciiUpper then { i with name := i.name.map asciiLower } else i

/-- `inst_id`. pipeline.rs:454-462 -/
def instId (kind : Kind) (s : Stream) (number : NumKind) : Id := ⟨s.name, s.description, kind, s.unit, number⟩

/-- `default_aggregation_selector`. pipeline.rs:478-494 -/
def defaultAggregation : Kind → Aggregation
  | .counter | .upDownCounter | .observableCounter | .observableUpDownCounter => .sum
  | .gauge => .lastValue
  | .observableGauge => .lastValue
  | .histogram => .explicitBucketHistogram
      ([0, 5, 10, 25, 50, 75, 100, 250, 500, 750, 1000, 2500, 5000, 7500, 10000].map F64.fin) true

/-- `is_aggregator_compatible`. pipeline.rs:581-629 -/
def compatible (kind : Kind) : Aggregation → Bool
  | .default => true
  | .explicitBucketHistogram _ _ | .base2ExponentialHistogram _ _ _ => true
  | .sum => match kind with
    | .observableCounter | .observableUpDownCounter | .counter | .histogram | .upDownCounter => true
    | _ => false
  | .lastValue => match kind with
    | .gauge | .observableGauge => true
    | _ => false
  | .drop => true

/-- What is built for a stream: one of the methods of `AggregateBuilder` with its arguments. internal/aggregate.rs:90-180 -/
inductive Built where
  | lastValue (override : Option Temporality)
  | precomputedSum (monotonic : Bool)
  | sum (monotonic : Bool)
  | explicitBucketHistogram (boundaries : List F64) (recordMinMax recordSum : Bool)
  | exponentialHistogram (maxSize : Nat) (maxScale : Int) (recordMinMax recordSum : Bool)
deriving DecidableEq

/-- `record_sum`. pipeline.rs:531-536, 552-557 -/
def recordSum : Kind → Bool
  | .upDownCounter | .observableUpDownCounter | .observableGauge => false
  | _ => true

/-- `aggregate_fn` for an aggregation that is not `Default`; `none` is an error, `some none` is `Drop`. pipeline.rs:499-566 -/
def aggregateFn' (kind : Kind) : Aggregation → Option (Option Built)
  | .default => none
  | .drop => some none
  | .lastValue => match kind with
    | .gauge => some (some (.lastValue none))
    | .observableGauge => some (some (.lastValue (some .delta)))
    | _ => none
  | .sum => match kind with
    | .observableCounter => some (some (.precomputedSum true))
    | .observableUpDownCounter => some (some (.precomputedSum false))
    | .counter | .histogram => some (some (.sum true))
    | _ => some (some (.sum false))
  | .explicitBucketHistogram b m => some (some (.explicitBucketHistogram b m (recordSum kind)))
  | .base2ExponentialHistogram s c m => some (some (.exponentialHistogram s c m (recordSum kind)))

/-- `aggregate_fn`. `Default` is resolved first. pipeline.rs:499-566 -/
def aggregateFn (kind : Kind) (a : Aggregation) : Option (Option Built) :=
  match a with
  | .default => aggregateFn' kind (defaultAggregation kind)
  | a => aggregateFn' kind a

/-- `InstrumentKind::temporality_preference`. instrument.rs:43-65 -/
def temporalityPreference (k : Kind) : Temporality → Temporality
  | .cumulative => .cumulative
  | .delta => match k with
    | .counter | .histogram | .observableCounter | .gauge | .observableGauge => .delta
    | .upDownCounter | .observableUpDownCounter => .cumulative
  | .lowMemory => match k with
    | .counter | .histogram => .delta
    | _ => .cumulative

/-- `View`: any function from instruments to streams. view.rs:49-55 -/
abbrev View := Instrument → Option Stream

/-- The aggregator behind a stream and what the reader sees of it (`InstrumentSync` and the arguments of `AggregateBuilder`).
pipeline.rs:176-182, 378-416 -/
structure Sync where
  scope : Scope
  kind : Kind
  number : NumKind
  name : Str
  description : Str
  unit : Str
  agg : Nat
  built : Built
  temporality : Temporality
  allowedKeys : Option (List Str)
  limit : Nat
deriving DecidableEq

/-- A pipeline: its inserters' caches and the aggregators registered for collection. pipeline.rs:36-59, 194-216 -/
structure Pipe where
  cache : List ((Scope × Id) × Option (Option Nat))
  syncs : List Sync
  next : Nat

/-- A fresh pipeline. -/
def Pipe.init : Pipe := ⟨[], [], 0⟩

/-- `HashMap::get` -/
def lookup {α β : Type} [DecidableEq α] (k : α) : List (α × β) → Option β
  | [] => none
  | (a, b) :: r => if a = k then some b else lookup k r

/-- The aggregation a stream asks for. pipeline.rs:356-364 -/
def resolved (kind : Kind) (s : Stream) : Aggregation :=
  let a := s.aggregation.getD (defaultAggregation kind)
  if a = .default then defaultAggregation kind else a

/-- `DEFAULT_CARDINALITY_LIMIT`. pipeline.rs:52 -/
def defaultLimit : Nat := 2000

/-- `cached_aggregator`. `none`: error, `some none`: dropped. Concurrent creations take turns (the cache is locked throughout); logging is
left out. pipeline.rs:350-424 -/
def cachedAggregator (temp : Kind → Temporality) (number : NumKind) (p : Pipe) (scope : Scope) (kind : Kind) (s : Stream) :
    Pipe × Option (Option Nat) :=
  let agg := resolved kind s
  if compatible kind agg = false then (p, none)
  else
    let id := (instId kind s number).normalize
    match lookup (scope, id) p.cache with
    | some r => (p, r)
    | none =>
      match aggregateFn kind agg with
      | none => ({ p with cache := p.cache ++ [((scope, id), none)] }, none)
      | some none => ({ p with cache := p.cache ++ [((scope, id), some none)] }, some none)
      | some (some b) =>
        let sync : Sync := ⟨scope, kind, number, s.name, s.description, s.unit, p.next, b, temp kind, s.allowedKeys, s.cardinalityLimit.getD defaultLimit⟩
        (⟨p.cache ++ [((scope, id), some (some p.next))], p.syncs ++ [sync], p.next + 1⟩, some (some p.next))

/-- The loop over the views in `instrument`: `seen`, the aggregators so far, and whether there was an error. pipeline.rs:268-295 -/
def viewLoop (temp : Kind → Temporality) (number : NumKind) (inst : Instrument) (kind : Kind) :
    List View → Pipe → List Id → List Nat → Bool → Bool → Pipe × List Nat × Bool × Bool
  | [], p, _, ms, matched, err => (p, ms, matched, err)
  | v :: vs, p, seen, ms, matched, err =>
    match v inst with
    | none => viewLoop temp number inst kind vs p seen ms matched err
    | some s =>
      let id := instId kind s number
      if id ∈ seen then viewLoop temp number inst kind vs p seen ms true err
      else
        match cachedAggregator temp number p inst.scope kind s with
        | (p', some (some a)) => viewLoop temp number inst kind vs p' (seen ++ [id]) (ms ++ [a]) true err
        | (p', some none) => viewLoop temp number inst kind vs p' seen ms true err
        | (p', none) => viewLoop temp number inst kind vs p' seen ms true true

/-- The stream of an instrument no view matches. pipeline.rs:305-321 -/
def defaultStream (inst : Instrument) (boundaries : Option (List F64)) (limit : Option Nat) : Stream :=
  ⟨inst.name, inst.description, inst.unit, boundaries.map fun b => .explicitBucketHistogram b true, none, limit⟩

/-- `Inserter::instrument`. `none`: error. pipeline.rs:253-335 -/
def instrument (views : List View) (temp : Kind → Temporality) (number : NumKind) (p : Pipe) (inst : Instrument)
    (boundaries : Option (List F64)) (limit : Option Nat) : Pipe × Option (List Nat) :=
  match inst.kind with
  | none => (p, none)
  | some kind =>
    match viewLoop temp number inst kind views p [] [] false false with
    | (p', ms, true, err) => (p', if err then none else some ms)
    | (p', ms, false, _) =>
      match cachedAggregator temp number p' inst.scope kind (defaultStream inst boundaries limit) with
      | (p'', some (some a)) => (p'', some (ms ++ [a]))
      | (p'', some none) => (p'', some ms)
      | (p'', none) => (p'', none)

/-- A request to create an instrument. -/
structure Request where
  number : NumKind
  inst : Instrument
  boundaries : Option (List F64)
  limit : Option Nat

/-- The pipelines after some requests. pipeline.rs:726-750 -/
def runRequests (views : List View) (temp : Kind → Temporality) (p : Pipe) : List Request → Pipe
  | [] => p
  | r :: rs => runRequests views temp (instrument views temp r.number p r.inst r.boundaries r.limit).1 rs

/-- `Resolver::measures` over the pipelines of a provider: every reader's pipeline is asked, any error makes the result an error. The
aggregators are paired with the number of their pipeline. pipeline.rs:726-750 -/
def measures (views : List View) (temps : Nat → Kind → Temporality) (r : Request) : Nat → List Pipe → List Pipe × Option (List (Nat × Nat))
  | _, [] => ([], some [])
  | i, p :: ps =>
    let here := instrument views (temps i) r.number p r.inst r.boundaries r.limit
    let rest := measures views temps r (i + 1) ps
    (here.1 :: rest.1,
      match here.2, rest.2 with
      | some a, some b => some (a.map (fun n => (i, n)) ++ b)
      | _, _ => none)

/-- `SdkMeter::create_*`: the name and the unit, and a histogram's boundaries, are validated first; an instrument that cannot be made
ignores its measurements, which is the empty list here. meter.rs:72-112, 387-446 and the other `create_` functions, 698-720 -/
def create (views : List View) (temps : Nat → Kind → Temporality) (r : Request) (unit : Option Str) (ps : List Pipe) :
    List Pipe × List (Nat × Nat) :=
  match validateConfig r.inst.name unit with
  | .error _ => (ps, [])
  | .ok () =>
    if (r.boundaries.map validateBucketBoundaries).getD true = false then (ps, [])
    else
      match measures views temps r 0 ps with
      | (ps', some ms) => (ps', ms)
      | (ps', none) => (ps', [])

end Otel.Metrics.Inst
