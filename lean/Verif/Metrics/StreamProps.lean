import Verif.Metrics.InstrumentsProps
/-!
# What is aggregated, and how (C78)
-/

namespace Otel.Metrics.Inst
open Rust (Str F64)

/-! ### Specification: the table of the OpenTelemetry metrics SDK -/

/-- Asynchronous instruments report the total themselves. -/
def Kind.observed : Kind → Bool
  | .observableCounter | .observableUpDownCounter | .observableGauge => true
  | .counter | .upDownCounter | .histogram | .gauge => false

/-- Instruments whose values are not negative. -/
def Kind.grows : Kind → Bool
  | .counter | .observableCounter | .histogram => true
  | .upDownCounter | .observableUpDownCounter | .gauge | .observableGauge => false

/-- The boundaries of the specification. -/
def specBoundaries : List F64 := [.fin 0, .fin 5, .fin 10, .fin 25, .fin 50, .fin 75, .fin 100, .fin 250, .fin 500, .fin 750, .fin 1000, .fin 2500,
  .fin 5000, .fin 7500, .fin 10000]

/-- The aggregation in force for what a stream says: its own, or the default of the instrument kind. -/
def InForce (kind : Kind) (asked : Option Aggregation) (a : Aggregation) : Prop :=
  (asked = some a ∧ a ≠ .default) ∨
  ((asked = none ∨ asked = some .default) ∧
    match kind with
    | .gauge | .observableGauge => a = .lastValue
    | .histogram => a = .explicitBucketHistogram specBoundaries true
    | _ => a = .sum)

/-- What aggregates the measurements of an instrument of a kind under an aggregation. A sum that is not kept for instruments with negative values
is `sum`. -/
def Aggregates (kind : Kind) (a : Aggregation) (sum : Bool) (b : Built) : Prop :=
  match a with
  | .sum => b = if kind.observed then .precomputedSum kind.grows else .sum kind.grows
  | .lastValue => b = .lastValue (if kind.observed then some .delta else none)
  | .explicitBucketHistogram bs mm => b = .explicitBucketHistogram bs mm sum
  | .base2ExponentialHistogram size scale mm => b = .exponentialHistogram size scale mm sum
  | .drop => False
  | .default => False

/-- `y` is what the stream `s` of the instrument of `r` asks for. -/
def AsAsked (temp : Kind → Temporality) (r : Request) (kind : Kind) (s : Stream) (y : Sync) : Prop :=
  r.inst.kind = some kind ∧ y.scope = r.inst.scope ∧ y.kind = kind ∧ y.number = r.number ∧
  y.name = s.name ∧ y.description = s.description ∧ y.unit = s.unit ∧ y.allowedKeys = s.allowedKeys ∧ y.limit = s.cardinalityLimit.getD 2000 ∧
  y.temporality = temp kind ∧ ∃ a, InForce kind s.aggregation a ∧ Aggregates kind a (kind.grows || decide (kind = .gauge)) y.built

/-! ### Proofs -/

theorem resolved_inForce (kind : Kind) (s : Stream) : InForce kind s.aggregation (resolved kind s) := by
  unfold resolved
  cases h : s.aggregation with
  | none => right; refine ⟨.inl rfl, ?_⟩; cases kind <;> rfl
  | some a =>
    cases a
    case default => right; refine ⟨.inr rfl, ?_⟩; cases kind <;> rfl
    all_goals left; exact ⟨rfl, by simp⟩

theorem aggregates_of (kind : Kind) (a : Aggregation) (ha : a ≠ .default) (hc : compatible kind a = true) (b : Built) (h : aggregateFn kind a = some (some b)) :
    Aggregates kind a (kind.grows || decide (kind = .gauge)) b := by
  cases a with
  | drop => cases h
  | default => exact absurd rfl ha
  | sum => cases kind <;> first | (cases hc; done) | (injection h with h; injection h with h; subst h; rfl)
  | lastValue => cases kind <;> first | (cases hc; done) | (injection h with h; injection h with h; subst h; rfl)
  | explicitBucketHistogram bs mm => cases kind <;> (injection h with h; injection h with h; subst h; rfl)
  | base2ExponentialHistogram x y z => cases kind <;> (injection h with h; injection h with h; subst h; rfl)

theorem resolved_ne_default (kind : Kind) (s : Stream) : resolved kind s ≠ .default := by
  unfold resolved
  dsimp only
  split
  · cases kind <;> simp [defaultAggregation]
  · rename_i h; exact h

theorem cached_asked (temp : Kind → Temporality) (r : Request) (p : Pipe) (kind : Kind) (hk : r.inst.kind = some kind) (s : Stream) :
    ∀ y ∈ (cachedAggregator temp r.number p r.inst.scope kind s).1.syncs, y ∈ p.syncs ∨ AsAsked temp r kind s y := by
  intro y hy
  simp only [cachedAggregator] at hy
  split at hy
  · exact .inl hy
  · rename_i hcomp
    split at hy
    · exact .inl hy
    · split at hy
      · exact .inl hy
      · exact .inl hy
      · rename_i b hb
        simp only [List.mem_append, List.mem_singleton] at hy
        rcases hy with hy | hy
        · exact .inl hy
        · subst hy
          exact .inr ⟨hk, rfl, rfl, rfl, rfl, rfl, rfl, rfl, rfl, rfl, _, resolved_inForce kind s, aggregates_of kind _ (resolved_ne_default kind s) (by simpa using hcomp) b hb⟩

theorem viewLoop_asked (temp : Kind → Temporality) (r : Request) (kind : Kind) (hk : r.inst.kind = some kind) (views : List View) (p : Pipe)
    (seen : List Id) (ms : List Nat) (matched err : Bool) :
    ∀ y ∈ (viewLoop temp r.number r.inst kind views p seen ms matched err).1.syncs,
      y ∈ p.syncs ∨ ∃ s ∈ views.filterMap (fun v => v r.inst), AsAsked temp r kind s y := by
  induction views generalizing p seen ms matched err with
  | nil => intro y hy; exact .inl hy
  | cons v vs ih =>
    intro y hy
    unfold viewLoop at hy
    split at hy
    · rename_i hv
      rcases ih _ _ _ _ _ y hy with h | ⟨s, hs, h⟩
      · exact .inl h
      · exact .inr ⟨s, by rw [List.filterMap_cons, hv]; exact hs, h⟩
    · rename_i s hv
      have key : ∀ p' : Pipe, y ∈ p'.syncs ∨ (∃ s ∈ vs.filterMap (fun v => v r.inst), AsAsked temp r kind s y) →
          (y ∈ p'.syncs → y ∈ p.syncs ∨ AsAsked temp r kind s y) →
          y ∈ p.syncs ∨ ∃ s ∈ (v :: vs).filterMap (fun v => v r.inst), AsAsked temp r kind s y := by
        intro p' h1 h2
        rw [List.filterMap_cons, hv]
        rcases h1 with h1 | ⟨s', hs', h'⟩
        · rcases h2 h1 with h | h
          · exact .inl h
          · exact .inr ⟨s, List.mem_cons_self, h⟩
        · exact .inr ⟨s', List.mem_cons_of_mem _ hs', h'⟩
      have hc := cached_asked temp r p kind hk s
      simp only at hy
      split at hy
      · exact key p (ih _ _ _ _ _ y hy) .inl
      · split at hy
        all_goals
          rename_i he
          rw [he] at hc
          exact key _ (ih _ _ _ _ _ y hy) (fun h => hc y h)

theorem instrument_asked (views : List View) (temp : Kind → Temporality) (r : Request) (p : Pipe) (hp : Inv p) :
    ∀ y ∈ (instrument views temp r.number p r.inst r.boundaries r.limit).1.syncs,
      y ∈ p.syncs ∨ ∃ kind, ∃ s ∈ streamsOf views r.inst r.boundaries r.limit, AsAsked temp r kind s y := by
  intro y hy
  unfold instrument at hy
  cases hk : r.inst.kind with
  | none => rw [hk] at hy; exact .inl hy
  | some kind =>
    rw [hk] at hy
    dsimp only at hy
    have hv := viewLoop_asked temp r kind hk views p [] [] false false
    have h0 : LoopInv r.inst.scope kind r.number [] p [] [] false := by
      constructor
      · exact hp
      all_goals simp
    obtain ⟨seen', -, h2, -, -⟩ := viewLoop_spec temp r.number r.inst kind views p [] [] false false [] h0
    generalize viewLoop temp r.number r.inst kind views p [] [] false false = vl at hy hv h2
    obtain ⟨p', ms, matched, err⟩ := vl
    dsimp only at hv h2
    cases hf : views.filterMap (fun v => v r.inst) with
    | nil =>
      rw [hf] at h2 hv
      have hm : matched = false := by rw [h2]; rfl
      subst hm
      dsimp only at hy
      have hc := cached_asked temp r p' kind hk (defaultStream r.inst r.boundaries r.limit) y
      have hst : streamsOf views r.inst r.boundaries r.limit = [defaultStream r.inst r.boundaries r.limit] := by
        unfold streamsOf; rw [hf]; rfl
      have hy' : y ∈ (cachedAggregator temp r.number p' r.inst.scope kind (defaultStream r.inst r.boundaries r.limit)).1.syncs := by
        split at hy
        all_goals (rename_i he; rw [he]; exact hy)
      rcases hc hy' with h | h
      · rcases hv y h with h | ⟨s, hs, _⟩
        · exact .inl h
        · cases hs
      · exact .inr ⟨kind, _, by rw [hst]; exact List.mem_cons_self, h⟩
    | cons s₀ ss =>
      rw [hf] at h2 hv
      have hm : matched = true := by rw [h2]; rfl
      subst hm
      dsimp only at hy
      rcases hv y hy with h | ⟨s, hs, h⟩
      · exact .inl h
      · refine .inr ⟨kind, s, ?_, h⟩
        unfold streamsOf
        rw [hf]
        exact hs

theorem runRequests_asked (views : List View) (temp : Kind → Temporality) (rs : List Request) (p : Pipe) (hp : Inv p) :
    ∀ y ∈ (runRequests views temp p rs).syncs,
      y ∈ p.syncs ∨ ∃ r ∈ rs, ∃ kind, ∃ s ∈ streamsOf views r.inst r.boundaries r.limit, AsAsked temp r kind s y := by
  induction rs generalizing p with
  | nil => intro y hy; exact .inl hy
  | cons r rs ih =>
    intro y hy
    have hp' : Inv (instrument views temp r.number p r.inst r.boundaries r.limit).1 := (runRequests_spec views temp [r] p hp).1
    rcases ih _ hp' y hy with h | ⟨r', hr', h⟩
    · rcases instrument_asked views temp r p hp y h with h | h
      · exact .inl h
      · exact .inr ⟨r, List.mem_cons_self, h⟩
    · exact .inr ⟨r', List.mem_cons_of_mem _ hr', h⟩

/-! ### Results -/

/-- Property C78. Whatever instruments are asked for, each aggregator that is collected was asked for by a stream of one of them: it has the
stream's name, description, unit and allowed attributes, the stream's cardinality limit or 2000, the temporality the reader prefers for the kind,
and it aggregates as the stream says or, if it says nothing, as the table of the specification says for the kind. -/
theorem aggregated_as_asked (views : List View) (temp : Kind → Temporality) (rs : List Request) :
    ∀ y ∈ (runRequests views temp .init rs).syncs,
      ∃ r ∈ rs, ∃ kind, ∃ s ∈ streamsOf views r.inst r.boundaries r.limit, AsAsked temp r kind s y := by
  intro y hy
  rcases runRequests_asked views temp rs .init .init y hy with h | h
  · cases h
  · exact h

/-- Property C78. An instrument whose stream takes the aggregation of its kind is never refused, and its stream is not dropped: the default is
always compatible. -/
theorem default_accepted (kind : Kind) (s : Stream) (h : s.aggregation = none ∨ s.aggregation = some .default) :
    MayAggregate kind (resolved kind s) ∧ ∃ b, aggregateFn kind (resolved kind s) = some (some b) := by
  rcases h with h | h <;> (unfold resolved; rw [h]; cases kind <;> exact ⟨trivial, _, rfl⟩)

/-- Property C78 fails for gauges aggregated as histograms: the sum is not to be kept for instruments that may record negative values, and it is
not kept for an observable gauge, but it is for a gauge, whose sum is then exported. -/
theorem gauge_sum_violated (bs : List F64) (mm : Bool) :
    aggregateFn .gauge (.explicitBucketHistogram bs mm) = some (some (.explicitBucketHistogram bs mm true)) ∧
    aggregateFn .observableGauge (.explicitBucketHistogram bs mm) = some (some (.explicitBucketHistogram bs mm false)) ∧
    Kind.gauge.grows = false := ⟨rfl, rfl, rfl⟩

/-- Property C78, the part for all kinds but the gauge: the sum is kept exactly for the kinds whose values are not negative. -/
theorem aggregated_sum_partial (views : List View) (temp : Kind → Temporality) (rs : List Request) :
    ∀ y ∈ (runRequests views temp .init rs).syncs, y.kind ≠ .gauge →
      ∃ r ∈ rs, ∃ s ∈ streamsOf views r.inst r.boundaries r.limit, ∃ a, InForce y.kind s.aggregation a ∧ Aggregates y.kind a y.kind.grows y.built := by
  intro y hy hg
  obtain ⟨r, hr, kind, s, hs, -, -, hk, -, -, -, -, -, -, -, a, h1, h2⟩ := aggregated_as_asked views temp rs y hy
  subst hk
  exact ⟨r, hr, s, hs, a, h1, by rwa [show (y.kind.grows || decide (y.kind = .gauge)) = y.kind.grows by simp [hg]] at h2⟩

/-- Two instruments without views: what is collected for them. -/
example : (runRequests [] exTemp .init [exReq "c" .counter, exReq "g" .observableGauge]).syncs.map (fun y => (y.name, y.built, y.limit)) =
    [("c".toList, .sum true, 2000), ("g".toList, .lastValue (some .delta), 2000)] := by rfl

end Otel.Metrics.Inst
