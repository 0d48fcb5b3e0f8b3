/-!
# Model of `Context` as an immutable value

Models `opentelemetry/src/context.rs` (`Context`), `opentelemetry/src/trace/context.rs` (span accessors) and the baggage
accessors of `opentelemetry/src/baggage.rs`. Values stored in a context are looked up by their Rust `TypeId`; the
types that matter to the library (`Baggage` and the private `BaggageContextValue`) are named, application types are
numbered. The hash map of entries is a partial function.
-/

namespace Otel.Ctx

/-- The `TypeId`s used as keys of `EntryMap`. `/repo/opentelemetry/src/context.rs:103`,
`/repo/opentelemetry/src/baggage.rs:402-403` -/
inductive TypeKey where
  | baggage
  | baggageContextValue
  | user (n : Nat)
deriving DecidableEq, Repr

/-- The Rust type behind a `TypeId`: `B` is `Baggage` (also wrapped in `BaggageContextValue`), `U` application types. -/
def Val (B : Type) (U : Nat → Type) : TypeKey → Type
  | .baggage => B
  | .baggageContextValue => B
  | .user n => U n

/-- `struct Context`. `/repo/opentelemetry/src/context.rs:96-101` -/
structure Context (S B : Type) (U : Nat → Type) where
  span : Option S
  entries : Option ((t : TypeKey) → Option (Val B U t))
  suppress : Bool

variable {S B : Type} {U : Nat → Type}

/-- `Context::new`. `/repo/opentelemetry/src/context.rs:112-114` -/
def Context.new : Context S B U := { span := none, entries := none, suppress := false }

/-- `Context::get`. `/repo/opentelemetry/src/context.rs:200-205` -/
def Context.get (c : Context S B U) (t : TypeKey) : Option (Val B U t) :=
  match c.entries with
  | none => none
  | some m => m t

/-- `HashMap::insert`. -/
def insertEntry (m : (t : TypeKey) → Option (Val B U t)) (t : TypeKey) (v : Val B U t) :
    (t : TypeKey) → Option (Val B U t) :=
  fun t' => if h : t = t' then some (h ▸ v) else m t'

/-- `Context::with_value`. `/repo/opentelemetry/src/context.rs:234-250` -/
def Context.withValue (c : Context S B U) (t : TypeKey) (v : Val B U t) : Context S B U :=
  let entries := match c.entries with
    | some m => some (insertEntry m t v)
    | none => some (insertEntry (fun _ => none) t v)
  { entries := entries, span := c.span, suppress := c.suppress }

/-- `Context::with_telemetry_suppressed`. `/repo/opentelemetry/src/context.rs:342-349` -/
def Context.withTelemetrySuppressed (c : Context S B U) : Context S B U :=
  { entries := c.entries, span := c.span, suppress := true }

/-- `with_synchronized_span`, hence `with_span` and `with_remote_span_context`.
`/repo/opentelemetry/src/context.rs:421-427`, `/repo/opentelemetry/src/trace/context.rs:282-284`, `298-300` -/
def Context.withSpan (c : Context S B U) (s : S) : Context S B U :=
  { span := some s, entries := c.entries, suppress := c.suppress }

/-- `has_active_span`. `/repo/opentelemetry/src/trace/context.rs:294-296` -/
def Context.hasActiveSpan (c : Context S B U) : Bool := c.span.isSome

/-- `with_baggage`. `/repo/opentelemetry/src/baggage.rs:406-408` -/
def Context.withBaggage (c : Context S B U) (b : B) : Context S B U :=
  c.withValue .baggageContextValue b

/-- `with_cleared_baggage`: stores a `Baggage`, not a `BaggageContextValue`. `/repo/opentelemetry/src/baggage.rs:414-416` -/
def Context.withClearedBaggage (empty : B) (c : Context S B U) : Context S B U :=
  c.withValue .baggage empty

/-- `baggage`. `/repo/opentelemetry/src/baggage.rs:418-421` -/
def Context.baggage (empty : B) (c : Context S B U) : B :=
  match c.get .baggageContextValue with
  | some b => b
  | none => empty

/-- One derivation step available to user code. -/
inductive Deriv (S B : Type) (U : Nat → Type) where
  | value (t : TypeKey) (v : Val B U t)
  | span (s : S)
  | suppress

/-- A derivation step applied to a context: the three constructors above. -/
def Context.derive (c : Context S B U) : Deriv S B U → Context S B U
  | .value t v => c.withValue t v
  | .span s => c.withSpan s
  | .suppress => c.withTelemetrySuppressed

end Otel.Ctx
