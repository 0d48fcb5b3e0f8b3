import Verif.Context.Context
import Mathlib.Data.List.Induction
/-! # Property theorems: context derivation (C03), clearing baggage (C14) -/

namespace Otel.Ctx

variable {S B : Type} {U : Nat → Type}

/-! ## Specification of a chain of derivations: the last one of its kind wins -/

/-- The value of type `t` set last in a chain. -/
def lastValue (t : TypeKey) : List (Deriv S B U) → Option (Val B U t)
  | [] => none
  | .value t' v :: ds =>
    match lastValue t ds with
    | some w => some w
    | none => if h : t' = t then some (h ▸ v) else none
  | .span _ :: ds => lastValue t ds
  | .suppress :: ds => lastValue t ds

/-- The span set last in a chain. -/
def lastSpan : List (Deriv S B U) → Option S
  | [] => none
  | .span s :: ds => match lastSpan ds with | some x => some x | none => some s
  | .value _ _ :: ds => lastSpan ds
  | .suppress :: ds => lastSpan ds

/-- Whether some step of the chain suppresses telemetry. -/
def anySuppress : List (Deriv S B U) → Bool
  | [] => false
  | .suppress :: _ => true
  | .value _ _ :: ds => anySuppress ds
  | .span _ :: ds => anySuppress ds

theorem get_withValue (c : Context S B U) (t t' : TypeKey) (v : Val B U t) :
    (c.withValue t v).get t' = if h : t = t' then some (h ▸ v) else c.get t' := by
  unfold Context.withValue Context.get insertEntry
  cases c.entries <;> simp

/-- **C03.** After any chain of derivations: each type's value is the one set last in the chain (else the original's), the
span likewise, and telemetry is suppressed iff it was or some step suppressed it. -/
theorem derive_chain (c : Context S B U) (ds : List (Deriv S B U)) :
    (∀ t, (ds.foldl Context.derive c).get t = (lastValue t ds).or (c.get t)) ∧
    (ds.foldl Context.derive c).span = (lastSpan ds).or c.span ∧
    (ds.foldl Context.derive c).suppress = (c.suppress || anySuppress ds) := by
  induction ds generalizing c with
  | nil => simp [lastValue, lastSpan, anySuppress]
  | cons d ds ih =>
    obtain ⟨h1, h2, h3⟩ := ih (c.derive d)
    refine ⟨?_, ?_, ?_⟩
    · intro t
      rw [List.foldl_cons, h1]
      cases d with
      | value t' v =>
        simp only [Context.derive, get_withValue, lastValue]
        cases lastValue t ds <;> simp
        split <;> simp
      | span s => simp [Context.derive, lastValue, Context.get, Context.withSpan]
      | suppress => simp [Context.derive, lastValue, Context.get, Context.withTelemetrySuppressed]
    · rw [List.foldl_cons, h2]
      cases d with
      | value t' v => simp [Context.derive, lastSpan, Context.withValue]
      | span s => simp only [Context.derive, lastSpan, Context.withSpan]; cases lastSpan ds <;> simp
      | suppress => simp [Context.derive, lastSpan, Context.withTelemetrySuppressed]
    · rw [List.foldl_cons, h3]
      cases d with
      | value t' v => simp [Context.derive, anySuppress, Context.withValue]
      | span s => simp [Context.derive, anySuppress, Context.withSpan]
      | suppress => simp [Context.derive, anySuppress, Context.withTelemetrySuppressed]

/-- Non-vacuity of C03. -/
example : let ds : List (Deriv Nat Nat (fun _ => Nat)) :=
      [.value (.user 1) (5 : Nat), .span 3, .value (.user 2) (6 : Nat), .suppress, .value (.user 1) (7 : Nat)]
    (ds.foldl Context.derive Context.new).get (.user 1) = some (7 : Nat) ∧
    (ds.foldl Context.derive Context.new).get (.user 2) = some (6 : Nat) ∧
    (ds.foldl Context.derive Context.new).span = some 3 ∧
    (ds.foldl Context.derive Context.new).suppress = true := ⟨rfl, rfl, rfl, rfl⟩

/-- **C14, the part that holds.** `with_baggage` sets exactly the baggage: later reads see it, the span, the suppression
flag and application values are untouched. -/
theorem with_baggage_partial (empty : B) (c : Context S B U) (b : B) :
    (c.withBaggage b).baggage empty = b ∧ (c.withBaggage b).span = c.span ∧
    (c.withBaggage b).suppress = c.suppress ∧ ∀ n, (c.withBaggage b).get (.user n) = c.get (.user n) := by
  refine ⟨?_, rfl, rfl, ?_⟩
  · rcases c with ⟨_, _ | _, _⟩ <;> rfl
  · intro n; rcases c with ⟨_, _ | _, _⟩ <;> rfl

/-- The full statement of C14: clearing leaves no baggage. -/
def ClearedBaggageIsEmpty (S B : Type) (U : Nat → Type) (empty : B) : Prop :=
  ∀ c : Context S B U, (c.withClearedBaggage empty).baggage empty = empty

/-- **C14 is violated.** Clearing never changes the baggage that `baggage()` returns, so the full statement fails as soon
as some non-empty baggage exists. -/
theorem cleared_baggage_unchanged (empty : B) (c : Context S B U) :
    (c.withClearedBaggage empty).baggage empty = c.baggage empty := by
  rcases c with ⟨_, _ | _, _⟩ <;> rfl

/-- **C14 (violated)** After clearing, non-empty baggage is still there. -/
theorem cleared_baggage_violated (empty b : B) (h : b ≠ empty) :
    ¬ ClearedBaggageIsEmpty S B U empty := by
  intro hc
  have := hc ((Context.new : Context S B U).withBaggage b)
  rw [cleared_baggage_unchanged, (with_baggage_partial empty _ b).1] at this
  exact h this

example : (1 : Nat) ≠ 0 := by decide

end Otel.Ctx
