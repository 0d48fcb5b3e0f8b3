import Verif.Propagation.TraceContext
import Verif.Propagation.Baggage
import Verif.Propagation.JaegerProps
/-! # Property theorems: announced headers and composites (C18) -/

namespace Otel.Prop
open Rust

/-! ## Specification -/

/-- Everything the propagator writes is announced by `fields`. -/
def Announces {B U} (p : Propagator B U) : Prop := ∀ cx, ∀ kv ∈ p.inject cx, kv.1 ∈ p.fields

/-- The value a list of `set` calls leaves in a carrier under a (lower case) name: that of the last call. -/
def lastSet (k : Str) (sets : List (Str × Str)) : Option Str :=
  ((sets.filter (fun kv => lower kv.1 = k)).getLast?).map Prod.snd

/-! ## Members -/

theorem w3c_announces (B : Type) (U : Nat → Type) : Announces (W3C.propagator B U) := by
  intro cx kv h
  simp only [W3C.propagator, W3C.inject] at h ⊢
  split at h
  · simp only [List.mem_cons, List.not_mem_nil, or_false] at h
    rcases h with rfl | rfl <;> simp
  · cases h

theorem baggage_announces (U : Nat → Type) (order : Bag.Order) : Announces (Bag.propagator (U := U) order) := by
  intro cx kv h
  simp only [Bag.propagator, Bag.inject] at h ⊢
  split at h
  · cases h
  · simp only [List.mem_singleton] at h; subst h; simp

/-- B3 announces everything unless it is configured for the single header. -/
theorem b3_announces_partial (B : Type) (U : Nat → Type) (enc : B3.Encoding) (henc : enc ≠ .singleHeader) :
    Announces (B3.propagator B U enc) := by
  intro cx kv h
  simp only [B3.propagator] at h ⊢
  have hmulti : ∀ sc, ∀ kv ∈ B3.multiSets sc, kv.1 ∈ [B3.traceIdHeader, B3.spanIdHeader, B3.sampledHeader, B3.debugHeader] := by
    intro sc kv he
    unfold B3.multiSets at he
    simp only [List.mem_append, List.mem_cons, List.not_mem_nil, or_false] at he
    rcases he with (rfl | rfl) | he
    · simp
    · simp
    · split at he
      · simp only [List.mem_singleton] at he; subst he; simp
      · split at he
        · cases he
        · simp only [List.mem_singleton] at he; subst he; simp
  have hkeys : kv.1 ∈ (if enc.support .singleHeader then [B3.singleHeader] else []) ++
      [B3.traceIdHeader, B3.spanIdHeader, B3.sampledHeader, B3.debugHeader] := by
    unfold B3.inject at h
    simp only at h
    split at h
    · rcases List.mem_append.1 h with h | h
      · apply List.mem_append_left
        split at h
        · simp only [List.mem_singleton] at h; subst h; simp_all
        · cases h
      · apply List.mem_append_right
        split at h
        · exact hmulti _ _ h
        · cases h
    · rcases List.mem_append.1 h with h | h
      · apply List.mem_append_left
        split at h
        · simp only [List.mem_singleton] at h; subst h; simp_all
        · cases h
      · apply List.mem_append_right
        split at h
        · simp only [List.mem_singleton] at h; subst h; simp
        · cases h
  revert hkeys
  generalize kv.1 = k
  cases enc with
  | singleHeader => exact absurd rfl henc
  | unSpecified => exact id
  | multipleHeader => exact id
  | singleAndMultiHeader => exact id

/-- Jaeger announces its header when the configured name has no surrounding white space. -/
theorem jaeger_announces_partial (B : Type) (U : Nat → Type) (header baggage : Str) (hh : trim header = header) :
    Announces (Jaeger.propagator B U (Jaeger.withCustom header baggage)) := by
  intro cx kv h
  simp only [Jaeger.propagator, Jaeger.inject] at h ⊢
  split at h
  · simp only [List.mem_singleton] at h
    subst h
    simp only [Jaeger.withCustom]
    have : trim Jaeger.defaultHeader = Jaeger.defaultHeader := by decide
    split
    · simp [this]
    · simp [hh]
  · cases h

/-- **C18 is violated** by B3 with the single header encoding: it also writes the multiple headers and announces only `b3`. -/
theorem b3_single_announce_violated : ¬ Announces (B3.propagator Unit (fun _ => Unit) .singleHeader) := by
  intro h
  have := h (Ctx.Context.new.withSpan ⟨1#128, 1#64, 1#8, false, TraceState.none⟩) (B3.traceIdHeader, TraceId.toText 1#128) (by decide +kernel)
  revert this; decide

/-- **C18 is violated** by Jaeger with a header name that has white space around it: the trimmed name is written, the other
one announced. -/
theorem jaeger_announce_violated : ¬ Announces (Jaeger.propagator Unit (fun _ => Unit) (Jaeger.withCustom " h ".toList [])) := by
  intro h
  have := h (Ctx.Context.new.withSpan ⟨1#128, 1#64, 1#8, false, TraceState.none⟩)
    ("h".toList, Jaeger.headerValue ⟨1#128, 1#64, 1#8, false, TraceState.none⟩) (by decide +kernel)
  revert this; decide

/-! ## Composites -/

theorem nodup_eraseDups' (l : List Str) : l.eraseDups.Nodup := by
  suffices ∀ n (l : List Str), l.length ≤ n → l.eraseDups.Nodup from this _ l (Nat.le_refl _)
  intro n
  induction n with
  | zero => intro l h; have : l = [] := List.eq_nil_of_length_eq_zero (by omega); subst this; simp
  | succ n ih =>
    intro l h
    cases l with
    | nil => simp
    | cons a l =>
      rw [List.eraseDups_cons, List.nodup_cons]
      refine ⟨by simp [List.mem_eraseDups], ih _ ?_⟩
      have := List.length_filter_le (fun b => !b == a) l
      simp only [List.length_cons] at h; omega

/-- **C18 (composite fields).** A composite, of any members including composites, announces what its members announce,
each once; so it announces all that it writes when they do. -/
theorem composite_announces {B U} (ps : List (Propagator B U)) :
    ((∀ p ∈ ps, Announces p) → Announces (composite ps)) ∧
    (∀ k, k ∈ (composite ps).fields ↔ ∃ p ∈ ps, k ∈ p.fields) ∧ (composite ps).fields.Nodup := by
  have hmem : ∀ k, k ∈ (composite ps).fields ↔ ∃ p ∈ ps, k ∈ p.fields := by
    intro k; simp [composite, List.mem_eraseDups, List.mem_flatMap]
  refine ⟨?_, hmem, nodup_eraseDups' _⟩
  intro h cx kv hkv
  rw [hmem]
  obtain ⟨p, hp, hkv⟩ := List.mem_flatMap.1 hkv
  exact ⟨p, hp, h p hp cx kv hkv⟩

theorem lastSet_append (k : Str) (a b : List (Str × Str)) : lastSet k (a ++ b) = (lastSet k b).or (lastSet k a) := by
  unfold lastSet
  rw [List.filter_append, List.getLast?_append]
  cases (b.filter (fun kv => lower kv.1 = k)).getLast? <;> simp

/-- What a carrier holds after a list of `set` calls: the last value set for the name, else what it held. -/
theorem get_setAll (c : Carrier) (sets : List (Str × Str)) (k : Str) :
    (c.setAll sets).toExtractor.get k = (lastSet (lower k) sets).or (c.toExtractor.get k) := by
  induction sets generalizing c with
  | nil => rfl
  | cons e r ih =>
    have happ : lastSet (lower k) (e :: r) = (lastSet (lower k) r).or (lastSet (lower k) [e]) := lastSet_append (lower k) [e] r
    rw [show c.setAll (e :: r) = (c.set e.1 e.2).setAll r from rfl, ih, happ, Option.or_assoc]
    congr 1
    by_cases hk : lower e.1 = lower k
    · have h1 : lastSet (lower k) [e] = some e.2 := by simp [lastSet, hk]
      rw [h1, Option.some_or]
      have : (c.set e.1 e.2).toExtractor.get k = (c.set e.1 e.2).toExtractor.get e.1 := by
        simp only [Carrier.toExtractor, hk]
      rw [this, lookup_set_self]
    · have h1 : lastSet (lower k) [e] = none := by simp [lastSet, hk]
      rw [h1, Option.none_or, lookup_set_ne _ _ (Ne.symm hk)]

/-- **C18 (composite behaviour).** A composite writes what its members write, in order; under any header name the last
member that writes it wins; it extracts by running its members in order, each on the result of the one before. -/
theorem composite_inject_extract {B U} (ps qs : List (Propagator B U)) (cx : Cx B U) (c : Carrier) (k : Str) (ex : Extractor) :
    (c.setAll ((composite (ps ++ qs)).inject cx)).toExtractor.get k =
      (lastSet (lower k) ((composite qs).inject cx)).or ((c.setAll ((composite ps).inject cx)).toExtractor.get k) ∧
    (composite (ps ++ qs)).extract cx ex = (composite qs).extract ((composite ps).extract cx ex) ex ∧
    (composite ([] : List (Propagator B U))).inject cx = [] ∧ (composite ([] : List (Propagator B U))).extract cx ex = cx ∧
    ∀ p : Propagator B U, (composite [p]).inject cx = p.inject cx ∧ (composite [p]).extract cx ex = p.extract cx ex := by
  refine ⟨?_, by simp [composite], rfl, rfl, fun p => ⟨by simp [composite], rfl⟩⟩
  rw [get_setAll, get_setAll, ← Option.or_assoc, ← lastSet_append]
  simp [composite]

/-- Nesting composites makes no difference. -/
theorem composite_nested {B U} (ps qs rs : List (Propagator B U)) (cx : Cx B U) (ex : Extractor) :
    (composite (ps ++ [composite qs] ++ rs)).inject cx = (composite (ps ++ qs ++ rs)).inject cx ∧
    (composite (ps ++ [composite qs] ++ rs)).extract cx ex = (composite (ps ++ qs ++ rs)).extract cx ex := by
  constructor <;> simp [composite]

/-- A composite of W3C trace context, baggage and B3 announces everything it writes. -/
example (order : Bag.Order) : Announces (composite [W3C.propagator Otel.Baggage.Bag (fun _ => Unit), Bag.propagator order,
    B3.propagator _ _ .singleAndMultiHeader]) :=
  (composite_announces _).1 (by
    intro p hp
    simp only [List.mem_cons, List.not_mem_nil, or_false] at hp
    rcases hp with rfl | rfl | rfl
    · exact w3c_announces _ _
    · exact baggage_announces _ _
    · exact b3_announces_partial _ _ _ (by decide))

end Otel.Prop
