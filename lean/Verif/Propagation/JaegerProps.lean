import Verif.Propagation.Jaeger
import Verif.Propagation.B3Props
import Verif.Rust.NumSpec
/-! # Property theorems: Jaeger (C16, C17) -/

namespace Otel.Prop.Jaeger
open Rust

/-! ## Lemmas -/

theorem no_colon (w n : Nat) : ':' ∉ fmtHex w n := fun h => isLowerHex_ne (fmtHex_lower w n _ h) (by decide) rfl

theorem flagDigit_cases (sc : SpanContext) : flagDigit sc = '0' ∨ flagDigit sc = '1' ∨ flagDigit sc = '3' := by
  unfold flagDigit; split
  · split <;> simp
  · simp

theorem header_parts (sc : SpanContext) :
    splitTerminator ':' (headerValue sc) = [sc.traceId.toText, sc.spanId.toText, ['0'], [flagDigit sc]] := by
  have hj : headerValue sc = join [':'] [sc.traceId.toText, sc.spanId.toText, ['0'], [flagDigit sc]] := by
    simp [headerValue, join]
  rw [hj]
  apply splitTerminator_join (by simp)
  · intro p hp
    simp only [List.mem_cons, List.not_mem_nil, or_false] at hp
    rcases hp with h | h | h | h <;> rw [h]
    · exact no_colon 32 _
    · exact no_colon 16 _
    · decide
    · rcases flagDigit_cases sc with h | h | h <;> rw [h] <;> decide
  · simp

theorem extractTraceId_text (t : TraceId) : extractTraceId t.toText = some t := by
  unfold extractTraceId
  rw [if_neg, traceId_text_roundtrip]
  rw [show byteLen t.toText = 32 from B3.byteLen_hex 32 _]; omega

theorem extractSpanId_text (t : SpanId) : extractSpanId t.toText = some t := by
  unfold extractSpanId
  rw [if_pos (show byteLen t.toText = 16 from B3.byteLen_hex 16 _), spanId_text_roundtrip]

/-- Flags after a round trip. -/
def roundFlags (f : TraceFlags) : TraceFlags :=
  if f.isSampled then (if f &&& 4#8 = 4#8 then TraceFlags.sampled ||| 4#8 else TraceFlags.sampled)
  else TraceFlags.notSampled

theorem extractFlags_digit (sc : SpanContext) : extractFlags [flagDigit sc] = some (roundFlags sc.flags) := by
  unfold flagDigit roundFlags SpanContext.isSampled flagDebug
  split
  · split <;> decide
  · decide

theorem mem_headerValue (sc : SpanContext) : ':' ∈ headerValue sc := by simp [headerValue]

/-- Extraction of an injected header when the carrier has no entry with the baggage prefix. -/
theorem extract_injected (cfg : Config) (c : Carrier) (sc : SpanContext)
    (hc : ∀ e ∈ c, cfg.baggagePrefix.isPrefixOf e.1 = false) (hh : cfg.baggagePrefix.isPrefixOf (lower cfg.headerName) = false) :
    extractSpanContext cfg (c.set cfg.headerName (headerValue sc)).toExtractor =
      some ⟨sc.traceId, sc.spanId, roundFlags sc.flags, true, TraceState.none⟩ := by
  have ht : headerText cfg (c.set cfg.headerName (headerValue sc)).toExtractor = headerValue sc := by
    unfold headerText
    rw [lookup_set_self]
    simp only [Option.getD_some, mem_headerValue, if_true]
  have hst : extractTraceState cfg (c.set cfg.headerName (headerValue sc)).toExtractor = some TraceState.none := by
    unfold extractTraceState
    have : (c.set cfg.headerName (headerValue sc)).toExtractor.keys.filter (fun k => cfg.baggagePrefix.isPrefixOf k) = [] := by
      rw [List.filter_eq_nil_iff]
      intro k hk
      unfold Carrier.toExtractor Carrier.set at hk
      simp only [List.map_cons, List.mem_cons, List.mem_map, List.mem_filter] at hk
      rcases hk with rfl | ⟨e, ⟨he, _⟩, rfl⟩
      · simp [hh]
      · simp [hc e he]
    rw [this]; rfl
  unfold extractSpanContext
  rw [ht, header_parts]
  simp only [extractTraceId_text, extractSpanId_text, extractFlags_digit, hst]

/-! ## C16 -/

/-- **C16, the part that holds.** With any configured header name and baggage prefix such that the header does not itself
start with the baggage prefix, and a carrier without entries starting with the prefix, ids and the sampled flag survive, and
so does the debug bit of a sampled context. Missing: a debug context that is not sampled, and header names that start with
the baggage prefix, see below. -/
theorem jaeger_roundtrip_partial {B U} (header baggage : Str) (cx base : Cx B U) (c : Carrier)
    (hv : (activeSpanContext cx).isValid = true)
    (hc : ∀ e ∈ c, (withCustom header baggage).baggagePrefix.isPrefixOf e.1 = false)
    (hh : (withCustom header baggage).baggagePrefix.isPrefixOf (lower (withCustom header baggage).headerName) = false) :
    ∃ sc : SpanContext,
      extract (withCustom header baggage) base (c.setAll (inject (withCustom header baggage) cx)).toExtractor = base.withSpan sc ∧
      sc.traceId = (activeSpanContext cx).traceId ∧ sc.spanId = (activeSpanContext cx).spanId ∧
      sc.isSampled = (activeSpanContext cx).isSampled ∧ sc.isRemote = true ∧
      (((activeSpanContext cx).flags.getLsbD 2 = true → (activeSpanContext cx).isSampled = true) →
        sc.flags.getLsbD 2 = (activeSpanContext cx).flags.getLsbD 2) := by
  have hset : c.setAll (inject (withCustom header baggage) cx) =
      c.set (withCustom header baggage).headerName (headerValue (activeSpanContext cx)) := by
    simp [Carrier.setAll, inject, hv]
  refine ⟨⟨(activeSpanContext cx).traceId, (activeSpanContext cx).spanId, roundFlags (activeSpanContext cx).flags, true, TraceState.none⟩,
    ?_, rfl, rfl, ?_, rfl, ?_⟩
  · rw [hset]; unfold extract; rw [extract_injected _ c _ hc hh]
  · have : ∀ f : TraceFlags, (roundFlags f).isSampled = f.isSampled := by decide +kernel
    exact this _
  · have : ∀ f : TraceFlags, (f.getLsbD 2 = true → f.isSampled = true) → (roundFlags f).getLsbD 2 = f.getLsbD 2 := by decide +kernel
    exact this _

example : let cfg := withCustom "my-header".toList "  ".toList
    cfg.headerName = "my-header".toList ∧ cfg.baggagePrefix = "uberctx-".toList ∧
    cfg.baggagePrefix.isPrefixOf (lower cfg.headerName) = false := by decide +kernel

/-- C16 in full, for the empty carrier. -/
def KeepsIdsAndDebug : Prop :=
  ∀ (header baggage : Str) (sc : SpanContext), sc.isValid = true →
    ∃ sc' : SpanContext, extractSpanContext (withCustom header baggage)
      (Carrier.setAll [] (inject (withCustom header baggage) ((Ctx.Context.new : Cx Unit (fun _ => Unit)).withSpan sc))).toExtractor = some sc' ∧
      sc'.traceId = sc.traceId ∧ sc'.spanId = sc.spanId ∧ sc'.isSampled = sc.isSampled ∧
      sc'.flags.getLsbD 2 = sc.flags.getLsbD 2

/-- **C16 is violated** in two ways: a debug context that is not sampled comes back without the debug bit, and with a header
name such as `uberctx-trace.id`, which starts with the baggage prefix and is not a legal trace state key, nothing is extracted
at all. -/
theorem jaeger_debug_violated : ¬ KeepsIdsAndDebug := by
  intro h
  obtain ⟨sc', h1, _, _, _, h2⟩ := h [] [] ⟨1#128, 1#64, 4#8, false, TraceState.none⟩ (by decide)
  have : extractSpanContext (withCustom [] []) (Carrier.setAll [] (inject (withCustom [] [])
      ((Ctx.Context.new : Cx Unit (fun _ => Unit)).withSpan ⟨1#128, 1#64, 4#8, false, TraceState.none⟩))).toExtractor =
      some ⟨1#128, 1#64, 0#8, true, TraceState.none⟩ := by decide +kernel
  rw [this] at h1
  cases h1
  exact absurd h2 (by decide)

/-- **C16 (violated)** With the header name `uberctx-trace.id` nothing is extracted from what was injected. -/
theorem jaeger_header_violated :
    extractSpanContext (withCustom "uberctx-trace.id".toList [])
      (Carrier.setAll [] (inject (withCustom "uberctx-trace.id".toList [])
        ((Ctx.Context.new : Cx Unit (fun _ => Unit)).withSpan ⟨1#128, 1#64, 1#8, false, TraceState.none⟩))).toExtractor = none := by
  decide +kernel

/-! ## C17 for Jaeger -/

/-- C17 for Jaeger, in full. -/
def ExtractsOnlyValid : Prop :=
  ∀ (cfg : Config) (ex : Extractor) (sc : SpanContext), extractSpanContext cfg ex = some sc → sc.isValid = true

/-- **C17 is violated** by Jaeger: a header with all-zero ids is extracted as a remote span context. -/
theorem jaeger_valid_violated : ¬ ExtractsOnlyValid := by
  intro h
  have := h (withCustom [] []) (Carrier.toExtractor [("uber-trace-id".toList, "0:0:0:1".toList)])
    ⟨0#128, 0#64, 1#8, true, TraceState.none⟩ (by decide +kernel)
  exact absurd this (by decide)

/-- **C17, the part that holds for Jaeger.** Extraction leaves the context as it is, or stores a remote span context that has
no flags other than sampled and debug, debug only together with sampled, and whose trace state entries are carrier entries
with the prefix. Missing: non-zero ids. -/
theorem jaeger_extract_partial {B U} (cfg : Config) (cx : Cx B U) (ex : Extractor) :
    extract cfg cx ex = cx ∨
    ∃ sc : SpanContext, extract cfg cx ex = cx.withSpan sc ∧ sc.isRemote = true ∧
      (sc.flags = 0#8 ∨ sc.flags = 1#8 ∨ sc.flags = 5#8) ∧
      ∀ e ∈ sc.traceState.entries, cfg.baggagePrefix.isPrefixOf e.1 = true ∧ e.1 ∈ ex.keys ∧ ex.get e.1 = some e.2 := by
  unfold extract
  cases h : extractSpanContext cfg ex with
  | none => exact Or.inl rfl
  | some sc =>
    refine Or.inr ⟨sc, rfl, ?_⟩
    unfold extractSpanContext at h
    split at h
    · split at h
      · rename_i t s f st _ _ hf hst
        simp only [Option.some.injEq] at h
        subst h
        refine ⟨rfl, ?_, ?_⟩
        · simp only
          unfold extractFlags at hf
          split at hf
          · cases hf
          · split at hf
            · cases hf
            · simp only at hf
              split at hf
              · split at hf
                · cases hf; right; right; decide
                · cases hf; right; left; decide
              · cases hf; left; decide
        · intro e he
          simp only at he
          unfold extractTraceState at hst
          split at hst
          · rename_i t' heq
            cases hst
            have hmem : e ∈ (ex.keys.filter (fun k => cfg.baggagePrefix.isPrefixOf k)).filterMap (fun k => (ex.get k).map (fun v => (k, v))) := by
              have hchk : ∀ (l r : List (Str × Str)), TraceState.checkAll l = .ok r → r = l := by
                intro l
                induction l with
                | nil => intro r hr; simp [TraceState.checkAll] at hr; exact hr
                | cons a l ih =>
                  intro r hr
                  obtain ⟨k, v⟩ := a
                  simp only [TraceState.checkAll] at hr
                  split at hr
                  · cases hr
                  · split at hr
                    · cases hr
                    · split at hr
                      · cases hr
                      · rename_i r' hr'
                        cases hr
                        rw [ih r' hr']
              unfold TraceState.fromKeyValue at heq
              split at heq
              · cases heq
              · rename_i r hr
                rw [← hchk _ _ hr]
                split at heq
                · cases heq; simp [TraceState.entries] at he
                · cases heq; simpa [TraceState.entries] using he
            obtain ⟨k, hk, hkv⟩ := List.mem_filterMap.1 hmem
            rw [List.mem_filter] at hk
            rw [Option.map_eq_some_iff] at hkv
            obtain ⟨v, hv, rfl⟩ := hkv
            exact ⟨hk.2, hk.1, hv⟩
          · cases hst
      · cases h
    · cases h

example : (extractSpanContext (withCustom [] []) (Carrier.toExtractor [("uber-trace-id".toList, "4d0000000000000016:17c29:0:3".toList),
    ("uberctx-user".toList, "x".toList)])) = some ⟨0x4d0000000000000016#128, 0x17c29#64, 5#8, true, ⟨some [("uberctx-user".toList, "x".toList)]⟩⟩ := by
  decide +kernel

end Otel.Prop.Jaeger
