import Verif.Trace.TraceState
import Verif.Context.Context
/-! # Carriers (`opentelemetry/src/propagation/mod.rs`) and propagators in general -/

namespace Otel.Prop
open Rust

/-- ASCII `to_lowercase` of a character. -/
def lowerChar (c : Char) : Char := if isAsciiUpper c then Char.ofNat (c.toNat + 32) else c

/-- `str::to_lowercase`. Simplification: only ASCII letters are mapped; header names are ASCII. -/
def lower (s : Str) : Str := s.map lowerChar

/-- `trait Extractor`, propagation/mod.rs:37-43. -/
structure Extractor where
  get : Str → Option Str
  keys : List Str

/-- The carrier `HashMap<String, String>` as a list of entries with distinct keys. -/
abbrev Carrier := List (Str × Str)

/-- `Injector::set for HashMap`, propagation/mod.rs:47-49. -/
def Carrier.set (c : Carrier) (key value : Str) : Carrier :=
  (lower key, value) :: c.filter (fun e => e.1 ≠ lower key)

/-- `Extractor for HashMap`, propagation/mod.rs:52-62. The order of `keys` is some order. -/
def Carrier.toExtractor (c : Carrier) : Extractor :=
  { get := fun key => TraceState.lookup (lower key) c, keys := c.map Prod.fst }

/-- Applying the `set` calls of an injection, in order. -/
def Carrier.setAll (c : Carrier) (sets : List (Str × Str)) : Carrier := sets.foldl (fun c kv => c.set kv.1 kv.2) c

/-- A context as far as trace propagation is concerned: spans are represented by their span context
(`with_remote_span_context` stores just that, `opentelemetry/src/trace/context.rs:298-300`). -/
abbrev Cx (B : Type) (U : Nat → Type) := Ctx.Context SpanContext B U

/-- `cx.span().span_context()`: the no-op span has the invalid context. `opentelemetry/src/trace/context.rs:12, 286-292`. -/
def activeSpanContext {B U} (cx : Cx B U) : SpanContext := cx.span.getD SpanContext.none

/-- `trait TextMapPropagator` (`opentelemetry/src/propagation/text_map_propagator.rs`): `inject` is the list of
`Injector::set` calls made, in order. -/
structure Propagator (B : Type) (U : Nat → Type) where
  inject : Cx B U → List (Str × Str)
  extract : Cx B U → Extractor → Cx B U
  fields : List Str

/-- `TextMapCompositePropagator` from its members, composite.rs:77-112. The code collects `fields` through a hash set:
the same names without repetition, in some order. -/
def composite {B U} (ps : List (Propagator B U)) : Propagator B U :=
  { inject := fun cx => ps.flatMap (fun p => p.inject cx)
    extract := fun cx ex => ps.foldl (fun cur p => p.extract cur ex) cx
    fields := (ps.flatMap (fun p => p.fields)).eraseDups }

theorem lookup_set_self (c : Carrier) (k v : Str) : (c.set k v).toExtractor.get k = some v := by
  simp [Carrier.set, Carrier.toExtractor, TraceState.lookup]

theorem lookup_filter_ne {k k' : Str} (h : k' ≠ k) (c : Carrier) :
    TraceState.lookup k' (c.filter (fun e => e.1 ≠ k)) = TraceState.lookup k' c := by
  induction c with
  | nil => rfl
  | cons e c ih =>
    obtain ⟨a, b⟩ := e
    rw [List.filter_cons]
    by_cases ha : a = k
    · subst ha
      simp only [ne_eq, not_true_eq_false, decide_false, Bool.false_eq_true, if_false, TraceState.lookup]
      rw [if_neg (Ne.symm h)]; exact ih
    · simp only [ne_eq, ha, not_false_eq_true, decide_true, if_true, TraceState.lookup, ih]

theorem lookup_set_ne (c : Carrier) {k k' : Str} (v : Str) (h : lower k' ≠ lower k) :
    (c.set k v).toExtractor.get k' = c.toExtractor.get k' := by
  simp only [Carrier.set, Carrier.toExtractor, TraceState.lookup]
  rw [if_neg (Ne.symm h)]
  exact lookup_filter_ne h c

end Otel.Prop
