import Verif.Sdk.Sampler
import Verif.Sdk.RateLimit
import Verif.Rust.Assoc
/-!
# The remote sampler (`trace/sampler/jaeger_remote/{sampler,sampling_strategy,remote}.rs`), C58

The lock around the strategy is not poisoned, so updates and decisions happen one after the other. Fetching is an event with a result: a
failure (not sent, status not 200, not JSON) or a parsed response.
-/

namespace Otel.Sdk.JaegerRemote
open Rust Otel.Ctx Otel.Sdk.RateLimit

/-- `PerOperationSamplingStrategies`; the two throughput bounds are stored but never used. remote.rs:34-51 -/
structure PerOp where
  dflt : F64
  ops : List (Str × F64)

/-- `SamplingStrategyResponse`; `strategyType` is ignored by the code. remote.rs:57-70 -/
structure Response where
  operation : Option PerOp
  rateLimiting : Option Int
  probabilistic : Option F64

/-- `Strategy`; the map of operations is a hash map. sampling_strategy.rs:18-24, 197-204 -/
inductive Strategy where
  | probabilistic (p : F64)
  | rateLimiting (b : Bucket)
  | perOperation (dflt : F64) (map : List (Str × F64))

/-- `PerOperationStrategies::update`: collecting into a hash map, so the last entry of a name stays. sampling_strategy.rs:205-222 -/
def initPerOp (p : PerOp) : Strategy := .perOperation p.dflt (Assoc.insertAll [] p.ops)

/-- `Inner::init_strategy` at time `now`. sampling_strategy.rs:117-150 -/
def init (size : Rat) (now : Nat) (r : Response) : Option Strategy :=
  match r.operation, r.rateLimiting, r.probabilistic with
  | some p, _, _ => some (initPerOp p)
  | none, some x, _ => some (.rateLimiting (Bucket.new size x now))
  | none, none, some p => some (.probabilistic p)
  | none, none, none => none

/-- `Inner::update`. sampling_strategy.rs:60-115 -/
def update (size : Rat) (now : Nat) (old : Option Strategy) (r : Response) : Option Strategy :=
  match old with
  | some s =>
    match r.operation, r.rateLimiting, r.probabilistic, s with
    | none, some x, none, .rateLimiting b => some (.rateLimiting (b.update x))
    | _, _, _, _ => init size now r
  | none => init size now r

/-- One round of the update task: a failed fetch is only logged. sampler.rs:199-215 -/
def fetched (size : Rat) (now : Nat) (old : Option Strategy) : Option Response → Option Strategy
  | some r => update size now old r
  | none => old

/-- The decision of a strategy at time `now`. sampling_strategy.rs:161-179; `get_probability` 224-229 -/
def Strategy.decide (R : F64.Rounding) (Rb : Rnd) (s : Strategy) (now : Nat) (traceId : TraceId) (name : Str) : SamplingDecision × Strategy :=
  match s with
  | .rateLimiting b =>
    let (ok, b') := b.check Rb now
    (if ok then .recordAndSample else .drop, .rateLimiting b')
  | .probabilistic p => (sampleBasedOnProbability R p traceId, s)
  | .perOperation d m =>
    (sampleBasedOnProbability R (match Assoc.get m name with | some p => p | none => d) traceId, s)

variable {A L B : Type} {U : Nat → Type} {W : Type}

/-- `JaegerRemoteSampler::should_sample`, with the default sampler's world. sampler.rs:256-277, sampling_strategy.rs:152-193 -/
def shouldSample (R : F64.Rounding) (Rb : Rnd) (dflt : ShouldSample A L B U W) (now : Nat) (st : Option Strategy) (a : SampleArgs A L B U) (w : W) :
    SamplingResult A × Option Strategy × W :=
  match st with
  | some s =>
    let (d, s') := s.decide R Rb now a.traceId a.name
    ({ decision := d
       attributes := []
       traceState := match a.parent with
         | some cx => (spanContextOf cx).traceState
         | none => TraceState.none }, some s', w)
  | none => let (res, w') := dflt a w; (res, none, w')

/-! ## Specification -/

/-- A response that names a strategy. -/
def Usable (r : Response) : Prop := r.operation ≠ none ∨ r.rateLimiting ≠ none ∨ r.probabilistic ≠ none

/-- What a usable response asks for, most specific first: `get` gives the probability of an operation. -/
inductive Asks (r : Response) : Strategy → Prop where
  | perOp {p m} : r.operation = some p →
      (∀ k v, Assoc.get m k = some v ↔ ∃ pre post, p.ops = pre ++ (k, v) :: post ∧ ∀ q ∈ post, q.1 ≠ k) → Asks r (.perOperation p.dflt m)
  | rate {x b} : r.operation = none → r.rateLimiting = some x → b.rate = x → Asks r (.rateLimiting b)
  | prob {p} : r.operation = none → r.rateLimiting = none → r.probabilistic = some p → Asks r (.probabilistic p)

/-! ## Theorems -/

theorem last_iff {V : Type} (kvs : List (Str × V)) (k : Str) (v : V) :
    Assoc.last kvs k = some v ↔ ∃ pre post, kvs = pre ++ (k, v) :: post ∧ ∀ q ∈ post, q.1 ≠ k := by
  constructor
  · intro h
    induction kvs with
    | nil => cases h
    | cons p kvs ih =>
      rw [Assoc.last, List.reverse_cons, Assoc.get_append] at h
      cases hr : Assoc.get kvs.reverse k with
      | some w =>
        rw [hr] at h
        obtain ⟨pre, post, he, hp⟩ := ih (by rw [Assoc.last, hr]; exact h)
        exact ⟨p :: pre, post, by rw [he]; rfl, hp⟩
      | none =>
        rw [hr] at h
        have hm := Assoc.mem_of_get (l := [p]) (by simpa using h)
        obtain rfl := List.mem_singleton.1 hm
        refine ⟨[], kvs, rfl, fun q hq hqk => ?_⟩
        have := Assoc.get_isSome.2 (List.mem_map.2 ⟨q, List.mem_reverse.2 hq, hqk⟩)
        rw [hr] at this; cases this
  · rintro ⟨pre, post, rfl, hp⟩
    rw [Assoc.last, List.reverse_append, List.reverse_cons, List.append_assoc, Assoc.get_append]
    have hn : Assoc.get post.reverse k = none := by
      cases hr : Assoc.get post.reverse k with
      | none => rfl
      | some w => exact absurd rfl (hp _ (List.mem_reverse.1 (Assoc.mem_of_get hr)))
    rw [hn]
    show Assoc.get ((k, v) :: pre.reverse) k = _
    rw [Assoc.get_cons, if_pos rfl]

theorem init_asks {size : Rat} {now : Nat} {r : Response} (h : Usable r) : ∃ s, init size now r = some s ∧ Asks r s := by
  unfold init
  cases h1 : r.operation with
  | some p =>
    refine ⟨_, rfl, .perOp h1 fun k v => ?_⟩
    rw [Assoc.get_insertAll, show Assoc.get ([] : List (Str × F64)) k = none from rfl, Option.or_none]
    exact last_iff _ _ _
  | none =>
    cases h2 : r.rateLimiting with
    | some x => exact ⟨_, rfl, .rate h1 h2 rfl⟩
    | none =>
      cases h3 : r.probabilistic with
      | some p => exact ⟨_, rfl, .prob h1 h2 h3⟩
      | none =>
        rcases h with h | h | h
        · exact absurd h1 h
        · exact absurd h2 h
        · exact absurd h3 h

/-- C58. A usable response replaces the strategy, whatever the previous one was, by what it asks for; a rate limit that stays in force keeps the
tokens it has (`available`, bucket size and clock), only its rate changes. -/
theorem valid_replaces (size : Rat) (now : Nat) (old : Option Strategy) {r : Response} (h : Usable r) :
    ∃ s, update size now old r = some s ∧ Asks r s ∧
      (∀ b b', old = some (.rateLimiting b) → r.probabilistic = none → s = .rateLimiting b' →
        b'.avail = b.avail ∧ b'.size = b.size ∧ b'.last = b.last) := by
  unfold update
  split
  · rename_i s
    split
    · rename_i x b h1 h2 h3
      refine ⟨_, rfl, .rate h1 h2 rfl, fun b1 b2 he _ hs => ?_⟩
      injection he with he; injection he with he; subst he
      injection hs with hs; subst hs
      exact ⟨rfl, rfl, rfl⟩
    · rename_i hx
      obtain ⟨s', h1, h2⟩ := init_asks (size := size) (now := now) h
      refine ⟨s', h1, h2, fun b b' he hp hs => ?_⟩
      injection he with he; subst he; subst hs
      cases h2 with
      | rate g1 g2 g3 => exact (hx _ b g1 g2 hp rfl).elim
  · obtain ⟨s', h1, h2⟩ := init_asks (size := size) (now := now) h
    exact ⟨s', h1, h2, fun b b' he => by cases he⟩

/-- C58 (finding). An answer without a usable strategy drops the strategy in force, whatever it was, although the warning says that the
previous one continues to be used: the next decision is the default sampler's. -/
theorem invalid_strategy_violated (size : Rat) (now : Nat) (old : Option Strategy) {r : Response} (h : ¬ Usable r) :
    fetched size now old (some r) = none ∧
    ∀ (R : F64.Rounding) (Rb : Rnd) (dflt : ShouldSample A L B U W) (t : Nat) (a : SampleArgs A L B U) (w : W),
      (shouldSample R Rb dflt t (fetched size now old (some r)) a w).1 = (dflt a w).1 := by
  have hn : r.operation = none ∧ r.rateLimiting = none ∧ r.probabilistic = none := by
    refine ⟨?_, ?_, ?_⟩
    · cases h1 : r.operation with | none => rfl | some x => exact (h (.inl (by rw [h1]; exact nofun))).elim
    · cases h1 : r.rateLimiting with | none => rfl | some x => exact (h (.inr (.inl (by rw [h1]; exact nofun)))).elim
    · cases h1 : r.probabilistic with | none => rfl | some x => exact (h (.inr (.inr (by rw [h1]; exact nofun)))).elim
  have : fetched size now old (some r) = none := by
    show update size now old r = none
    obtain ⟨h1, h2, h3⟩ := hn
    cases old <;> simp [update, init, h1, h2, h3]
  refine ⟨this, fun R Rb dflt t a w => ?_⟩
  rw [this]; rfl

example : Usable ⟨none, some 5, none⟩ ∧ ¬ Usable ⟨none, none, none⟩ := ⟨.inr (.inl nofun), by rintro (h | h | h) <;> exact h rfl⟩

/-- The strategy after a sequence of fetches. -/
def afterFetches (size : Rat) : Option Strategy → List (Nat × Option Response) → Option Strategy
  | st, [] => st
  | st, (now, f) :: fs => afterFetches size (fetched size now st f) fs

theorem afterFetches_append (size : Rat) (st : Option Strategy) (a b : List (Nat × Option Response)) :
    afterFetches size st (a ++ b) = afterFetches size (afterFetches size st a) b := by
  induction a generalizing st with
  | nil => rfl
  | cons p a ih => obtain ⟨n, f⟩ := p; exact ih _

/-- C58 (part). After any history of fetches the strategy in force is what the last answer asked for, failed fetches not counting; before the first
usable answer the default sampler decides. Missing: answers without a usable strategy, which should not count either
(`invalid_strategy_violated`). -/
theorem last_answer_partial (size : Rat) (fs : List (Nat × Option Response)) :
    (∀ pre now r post, fs = pre ++ (now, some r) :: post → (∀ p ∈ post, p.2 = none) → Usable r →
      ∃ s, afterFetches size none fs = some s ∧ Asks r s) ∧
    ((∀ p ∈ fs, p.2 = none) → afterFetches size none fs = none) := by
  have hkeep : ∀ (post : List (Nat × Option Response)) (st : Option Strategy), (∀ p ∈ post, p.2 = none) → afterFetches size st post = st := by
    intro post
    induction post with
    | nil => intro st _; rfl
    | cons p post ih =>
      intro st h
      obtain ⟨n, f⟩ := p
      have : f = none := h (n, f) List.mem_cons_self
      subst this
      exact ih st fun q hq => h q (List.mem_cons_of_mem _ hq)
  refine ⟨?_, fun h => hkeep fs none h⟩
  rintro pre now r post rfl hp hu
  rw [afterFetches_append]
  show ∃ s, afterFetches size (fetched size now _ (some r)) post = some s ∧ _
  rw [hkeep post _ hp]
  obtain ⟨s, h1, h2, _⟩ := valid_replaces size now (afterFetches size none pre) hu
  exact ⟨s, h1, h2⟩

/-- C58. A per-operation strategy samples an operation by its own probability and all others by the default one. -/
theorem per_operation (R : F64.Rounding) (Rb : Rnd) (size : Rat) (now t : Nat) (p : PerOp) (r : Response) (hr : r.operation = some p) (old : Option Strategy)
    (traceId : TraceId) (name : Str) :
    ∃ s, update size now old r = some s ∧
      (∀ v, (∃ pre post, p.ops = pre ++ (name, v) :: post ∧ ∀ q ∈ post, q.1 ≠ name) →
        (s.decide R Rb t traceId name).1 = sampleBasedOnProbability R v traceId) ∧
      ((∀ q ∈ p.ops, q.1 ≠ name) → (s.decide R Rb t traceId name).1 = sampleBasedOnProbability R p.dflt traceId) := by
  obtain ⟨s, h1, h2, _⟩ := valid_replaces size now old (r := r) (.inl (by rw [hr]; exact nofun))
  refine ⟨s, h1, ?_⟩
  cases h2 with
  | perOp g1 g2 =>
    rw [hr] at g1; injection g1 with g1; subst g1
    refine ⟨fun v hv => ?_, fun hn => ?_⟩
    · simp only [Strategy.decide, (g2 name v).2 hv]
    · rename_i m _
      have : Assoc.get m name = none := by
        cases hg : Assoc.get m name with
        | none => rfl
        | some v =>
          obtain ⟨pre, post, he, _⟩ := (g2 name v).1 hg
          exact absurd rfl (hn (name, v) (by rw [he]; simp))
      simp only [Strategy.decide, this]
  | rate g1 _ _ => rw [hr] at g1; cases g1
  | prob g1 _ _ => rw [hr] at g1; cases g1

/-- C58. A strategy in force decides alone: the result has no attributes, carries the parent's trace state and does not call the default
sampler. -/
theorem strategy_decides (R : F64.Rounding) (Rb : Rnd) (dflt : ShouldSample A L B U W) (now : Nat) (s : Strategy) (a : SampleArgs A L B U) (w : W) :
    (shouldSample R Rb dflt now (some s) a w).2.2 = w ∧
    (shouldSample R Rb dflt now (some s) a w).1.attributes = [] ∧
    (∀ cx, a.parent = some cx → (shouldSample R Rb dflt now (some s) a w).1.traceState = (spanContextOf cx).traceState) ∧
    (shouldSample R Rb dflt now (some s) a w).1.decision ≠ .recordOnly ∧
    (shouldSample R Rb dflt now (some s) a w).1.decision = (s.decide R Rb now a.traceId a.name).1 := by
  refine ⟨rfl, rfl, fun cx h => by simp only [shouldSample, h], ?_, rfl⟩
  show (s.decide R Rb now a.traceId a.name).1 ≠ .recordOnly
  have hp : ∀ p, sampleBasedOnProbability R p a.traceId ≠ .recordOnly := by
    intro p
    unfold sampleBasedOnProbability
    split
    · exact nofun
    · simp only
      split <;> exact nofun
  cases s with
  | rateLimiting b => simp only [Strategy.decide]; split <;> exact nofun
  | probabilistic p => exact hp _
  | perOperation d m => exact hp _

/-! ## The limit over time -/

/-- What happens to the sampler: a decision, or an answer of the server (`none`: the fetch failed). -/
inductive Event where
  | ask (now : Nat) (traceId : TraceId) (name : Str)
  | fetch (now : Nat) (answer : Option Response)

/-- Runs events on a strategy in force and counts the decisions to sample; without a strategy the default sampler decides, which is not counted. -/
def sampled (R : F64.Rounding) (Rb : Rnd) (size : Rat) : Option Strategy → List Event → Nat
  | _, [] => 0
  | st, .fetch now f :: es => sampled R Rb size (fetched size now st f) es
  | none, .ask .. :: es => sampled R Rb size none es
  | some s, .ask now traceId name :: es =>
    let (d, s') := s.decide R Rb now traceId name
    (if d = .recordAndSample then 1 else 0) + sampled R Rb size (some s') es

/-- The requests of a history and the rates of its answers. -/
def opsOf : List Event → List Op
  | [] => []
  | .ask now _ _ :: es => .ask now :: opsOf es
  | .fetch _ (some r) :: es => (match r.rateLimiting with | some x => [.setRate x] | none => []) ++ opsOf es
  | .fetch _ none :: es => opsOf es

/-- An answer that gives a rate and nothing else. -/
def RateOnly (r : Response) : Prop := r.operation = none ∧ r.rateLimiting ≠ none ∧ r.probabilistic = none

theorem sampled_run (R : F64.Rounding) (Rb : Rnd) (size : Rat) (es : List Event) (b : Bucket) (h : ∀ now r, Event.fetch now (some r) ∈ es → RateOnly r) :
    sampled R Rb size (some (.rateLimiting b)) es = (b.run Rb (opsOf es)).1 := by
  induction es generalizing b with
  | nil => rfl
  | cons e es ih =>
    have h' : ∀ now r, Event.fetch now (some r) ∈ es → RateOnly r := fun n r hr => h n r (List.mem_cons_of_mem _ hr)
    cases e with
    | ask now t name =>
      simp only [sampled, Strategy.decide, opsOf, Bucket.run, ih _ h']
      by_cases hc : (b.check Rb now).1 = true
      · simp [hc]
      · simp [hc]
    | fetch now f =>
      cases f with
      | none => exact ih b h'
      | some r =>
        obtain ⟨h1, h2, h3⟩ := h now r List.mem_cons_self
        cases hx : r.rateLimiting with
        | none => exact absurd hx h2
        | some x =>
          have e : fetched size now (some (.rateLimiting b)) (some r) = some (.rateLimiting (b.update x)) := by
            simp [fetched, update, h1, hx, h3]
          simp only [sampled, e, opsOf, hx]
          exact ih _ h'

/-- C57, C58. While the server asks for rate limits of up to `r` per second, the sampler samples at most `size + r * seconds elapsed` requests from the first such answer
on, whatever is asked when and however often the server answers or fails to. -/
theorem rate_limit_in_force (R : F64.Rounding) (Rb : Rnd) {size : Rat} {r rate : Int} {t0 t1 : Nat} (hs : Sane size r t0 t1) (h0 : 0 ≤ rate) (h1 : rate ≤ r)
    (es : List Event) (hw : Within t0 t1 (opsOf es)) (hr : ∀ now a, Event.fetch now (some a) ∈ es → RateOnly a ∧ ∀ x, a.rateLimiting = some x → 0 ≤ x ∧ x ≤ r) :
    (sampled R Rb size none (.fetch t0 (some ⟨none, some rate, none⟩) :: es) : Rat) ≤ size + r * ((t1 - t0 : Nat) : Rat) / 1000000000 := by
  show (sampled R Rb size (some (.rateLimiting (Bucket.new size rate t0))) es : Rat) ≤ _
  rw [sampled_run R Rb size es _ fun n a h => (hr n a h).1]
  refine rate_bound hs h0 h1 hw ?_
  intro x hx
  clear hw
  induction es with
  | nil => cases hx
  | cons e es ih =>
    have hr' : ∀ now a, Event.fetch now (some a) ∈ es → RateOnly a ∧ ∀ x, a.rateLimiting = some x → 0 ≤ x ∧ x ≤ r :=
      fun n a h => hr n a (List.mem_cons_of_mem _ h)
    cases e with
    | ask now t name =>
      rcases List.mem_cons.1 hx with h | h
      · cases h
      · exact ih hr' h
    | fetch now f =>
      cases f with
      | none => exact ih hr' hx
      | some a =>
        rw [opsOf] at hx
        rcases List.mem_append.1 hx with h | h
        · have ha := (hr now a List.mem_cons_self).2
          cases hl : a.rateLimiting with
          | none => rw [hl] at h; cases h
          | some y =>
            rw [hl] at h
            have := List.mem_singleton.1 h
            injection this with this
            exact this ▸ ha y hl
        · exact ih hr' h

example : RateOnly ⟨none, some 5, none⟩ ∧ opsOf [.ask 1 0 [], .fetch 2 (some ⟨none, some 5, none⟩), .fetch 3 none, .ask 4 0 []] = [.ask 1, .setRate 5, .ask 4] :=
  ⟨⟨rfl, nofun, rfl⟩, rfl⟩

end Otel.Sdk.JaegerRemote
