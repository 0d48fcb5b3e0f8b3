import Verif.Propagation.B3
import Verif.Trace.IdsProps
/-! # Property theorems: B3 (C15, C17) -/

namespace Otel.Prop.B3
open Rust

/-! ## Specification: what a B3 context says about sampling -/

/-- The four B3 sampling states. -/
inductive Sampling where
  | accept | deny | defer | debug
deriving DecidableEq, Repr

/-- The state a flags byte stands for: bit 2 is debug, bit 1 is deferred, bit 0 is sampled. -/
def samplingOf (f : TraceFlags) : Sampling :=
  if f.getLsbD 2 then .debug else if f.getLsbD 1 then .defer else if f.getLsbD 0 then .accept else .deny

/-- The B3 headers. -/
def allHeaders : List Str :=
  ["b3", "x-b3-traceid", "x-b3-spanid", "x-b3-sampled", "x-b3-flags"].map String.toList

/-! ## Lemmas -/

theorem lowerChar_eq {c : Char} (h : isLowerHex c = true) : lowerChar c = c := by
  unfold lowerChar; rw [isLowerHex_not_upper h]; rfl

theorem lower_hex (w n : Nat) : lower (fmtHex w n) = fmtHex w n := by
  unfold lower
  conv => rhs; rw [← List.map_id (fmtHex w n)]
  exact List.map_congr_left (fun c hc => lowerChar_eq (fmtHex_lower w n c hc))

theorem utf8Size_lowerHex {c : Char} (h : isLowerHex c = true) : c.utf8Size = 1 := by
  unfold isLowerHex isAsciiDigit at h
  simp only [Bool.or_eq_true, Bool.and_eq_true, decide_eq_true_eq] at h
  have : c.val ≤ 127 := by
    rcases h with h | h
    · exact Nat.le_trans (show c.val.toNat ≤ 57 from h.2) (by decide)
    · exact Nat.le_trans (show c.val.toNat ≤ 102 from h.2) (by decide)
  simp [Char.utf8Size, this]

theorem byteLen_lowerHex {s : Str} (h : ∀ c ∈ s, isLowerHex c = true) : byteLen s = s.length := by
  induction s with
  | nil => rfl
  | cons c s ih =>
    rw [byteLen_cons, utf8Size_lowerHex (h c (by simp)), ih (fun d hd => h d (by simp [hd])), List.length_cons]; omega

theorem byteLen_hex (w n : Nat) : byteLen (fmtHex w n) = w := by
  rw [byteLen_lowerHex (fmtHex_lower w n), fmtHex_length]

theorem extractTraceId_text (t : TraceId) : extractTraceId t.toText = some t := by
  unfold extractTraceId
  rw [if_neg, traceId_text_roundtrip]
  rw [show lower t.toText = t.toText from lower_hex 32 _, show byteLen t.toText = 32 from byteLen_hex 32 _]
  simp

theorem extractSpanId_text (t : SpanId) : extractSpanId t.toText = some t := by
  unfold extractSpanId
  rw [if_neg, spanId_text_roundtrip]
  rw [show lower t.toText = t.toText from lower_hex 16 _, show byteLen t.toText = 16 from byteLen_hex 16 _]
  simp

theorem no_dash (w n : Nat) : '-' ∉ fmtHex w n := fun h => isLowerHex_ne (fmtHex_lower w n _ h) (by decide) rfl

theorem get_setAll_cons (c : Carrier) (k v : Str) (r : List (Str × Str)) : c.setAll ((k, v) :: r) = (c.set k v).setAll r := rfl

theorem get_setAll_ne (c : Carrier) (k : Str) (r : List (Str × Str)) (h : ∀ e ∈ r, lower k ≠ lower e.1) :
    (c.setAll r).toExtractor.get k = c.toExtractor.get k := by
  induction r generalizing c with
  | nil => rfl
  | cons e r ih =>
    rw [get_setAll_cons, ih _ (fun x hx => h x (by simp [hx])), lookup_set_ne _ _ (h e (by simp))]

theorem single_parts (sc : SpanContext) : splitTerminator '-' (singleValue sc) =
    [sc.traceId.toText, sc.spanId.toText] ++
      (if sc.flags &&& flagDeferred = flagDeferred then []
       else [if sc.flags &&& flagDebug = flagDebug then "d".toList else if sc.isSampled then "1".toList else "0".toList]) := by
  have h1 : '-' ∉ sc.traceId.toText := no_dash 32 _
  have h2 : '-' ∉ sc.spanId.toText := no_dash 16 _
  have hne : sc.spanId.toText ≠ [] := by
    intro e; have := fmtHex_length 16 sc.spanId.toNat
    rw [show fmtHex 16 sc.spanId.toNat = [] from e] at this; simp at this
  by_cases hd : sc.flags &&& flagDeferred = flagDeferred
  · have : singleValue sc = join ['-'] [sc.traceId.toText, sc.spanId.toText] := by
      simp [singleValue, hd, join]
    rw [this, if_pos hd, splitTerminator_join (by simp) (by simpa using ⟨h1, h2⟩)]
    · rfl
    · simpa using hne
  · generalize hf : (if sc.flags &&& flagDebug = flagDebug then "d".toList else if sc.isSampled then "1".toList else "0".toList) = f
    have hfd : '-' ∉ f ∧ f ≠ [] := by
      rw [← hf]; split
      · decide
      · split <;> decide
    have : singleValue sc = join ['-'] [sc.traceId.toText, sc.spanId.toText, f] := by
      simp only [singleValue, hd, if_false, hf, join]; simp
    rw [this, if_neg hd, splitTerminator_join (by simp) (by simpa using ⟨h1, h2, hfd.1⟩)]
    · rfl
    · simpa using hfd.2

theorem ifValid_of {sc : SpanContext} (f : TraceFlags) (r : Bool) (ts : TraceState) (h : sc.isValid = true) :
    ifValid ⟨sc.traceId, sc.spanId, f, r, ts⟩ = some ⟨sc.traceId, sc.spanId, f, r, ts⟩ := by
  have : SpanContext.isValid ⟨sc.traceId, sc.spanId, f, r, ts⟩ = true := h
  simp [ifValid, this]

/-- Flags after a round trip through the single header. -/
def singleFlags (f : TraceFlags) : TraceFlags :=
  if f &&& flagDeferred = flagDeferred then flagDeferred
  else if f &&& flagDebug = flagDebug then flagDebug
  else if f.isSampled then TraceFlags.sampled else TraceFlags.notSampled

/-- Flags after a round trip through the multiple headers. -/
def multiFlags (f : TraceFlags) : TraceFlags :=
  if f &&& flagDebug = flagDebug then flagDebug ||| TraceFlags.sampled
  else if f &&& flagDeferred = flagDeferred then flagDeferred
  else if f.isSampled then TraceFlags.sampled else TraceFlags.notSampled

theorem extractSingle_injected {enc : Encoding} (henc : enc.support .singleHeader = true) {ex : Extractor} {sc : SpanContext}
    (hv : sc.isValid = true) (hg : ex.get singleHeader = some (singleValue sc)) :
    extractSingle enc ex = some ⟨sc.traceId, sc.spanId, singleFlags sc.flags, true, TraceState.none⟩ := by
  unfold extractSingle
  simp only [hg, Option.getD_some, single_parts]
  unfold singleFlags
  by_cases hd : sc.flags &&& flagDeferred = flagDeferred
  · simp only [hd, if_true, List.append_nil, extractTraceId_text, extractSpanId_text]
    exact ifValid_of _ _ _ hv
  · simp only [hd, if_false, List.cons_append, List.nil_append, extractTraceId_text, extractSpanId_text]
    have : extractSampledState enc (if sc.flags &&& flagDebug = flagDebug then "d".toList else if sc.isSampled then "1".toList else "0".toList) =
        some (if sc.flags &&& flagDebug = flagDebug then flagDebug else if sc.flags.isSampled then TraceFlags.sampled else TraceFlags.notSampled) := by
      unfold extractSampledState SpanContext.isSampled
      rw [henc]
      by_cases h1 : sc.flags &&& flagDebug = flagDebug
      · simp only [h1, if_true]; decide
      · by_cases h2 : sc.flags.isSampled = true
        · simp only [h1, h2, if_true, if_false]; decide
        · simp only [h1, h2, if_false]; decide
    rw [this]
    exact ifValid_of _ _ _ hv

theorem extractMulti_injected {enc : Encoding} {ex : Extractor} {sc : SpanContext} (hv : sc.isValid = true)
    (h1 : ex.get traceIdHeader = some sc.traceId.toText) (h2 : ex.get spanIdHeader = some sc.spanId.toText)
    (h3 : multiFlag enc ex = some (multiFlags sc.flags)) :
    extractMulti enc ex = some ⟨sc.traceId, sc.spanId, multiFlags sc.flags, true, TraceState.none⟩ := by
  unfold extractMulti
  simp only [h1, h2, h3, Option.getD_some, extractTraceId_text, extractSpanId_text]
  exact ifValid_of _ _ _ hv

theorem extract_of_some {B U} {enc : Encoding} {ex : Extractor} {sc : SpanContext} (base : Cx B U)
    (h : (extractSingle enc ex).or (extractMulti enc ex) = some sc) (hv : sc.isValid = true) :
    extract enc base ex = base.withSpan sc := by
  unfold extract extractSpanContext
  rw [h]; simp [Option.filter, hv]

theorem sampledState_flag (enc : Encoding) (b : Bool) :
    extractSampledState enc (if b then "1".toList else "0".toList) = some (if b then TraceFlags.sampled else TraceFlags.notSampled) := by
  cases b <;> cases enc <;> decide

theorem extractSingle_none {enc : Encoding} {ex : Extractor} (h : ex.get singleHeader = none) : extractSingle enc ex = none := by
  unfold extractSingle
  simp only [h, Option.getD_none, splitTerminator_nil]

/-! ## C15 -/

/-- What a round trip yields, for a carrier without B3 headers of its own. -/
theorem b3_roundtrip_flags {B U} (enc : Encoding) (cx base : Cx B U) (c : Carrier)
    (hc : ∀ h ∈ allHeaders, c.toExtractor.get h = none) (hv : (activeSpanContext cx).isValid = true) :
    extract enc base (c.setAll (inject enc cx)).toExtractor =
      base.withSpan ⟨(activeSpanContext cx).traceId, (activeSpanContext cx).spanId,
        if enc.support .singleHeader then singleFlags (activeSpanContext cx).flags else multiFlags (activeSpanContext cx).flags,
        true, TraceState.none⟩ := by
  have hinj : inject enc cx = (if enc.support .singleHeader then [(singleHeader, singleValue (activeSpanContext cx))] else []) ++
      multiSets (activeSpanContext cx) := by
    unfold inject
    have : (enc.support .multipleHeader || enc.support .unSpecified) = true := by cases enc <;> rfl
    simp only [hv, this, if_true]
  rw [hinj]
  generalize activeSpanContext cx = sc at hv
  have hkeys : ∀ e ∈ multiSets sc, lower singleHeader ≠ lower e.1 := by
    intro e he
    have : e.1 ∈ [traceIdHeader, spanIdHeader, debugHeader, sampledHeader] := by
      unfold multiSets at he
      simp only [List.mem_append, List.mem_cons, List.not_mem_nil, or_false] at he
      rcases he with (rfl | rfl) | he
      · simp
      · simp
      · split at he
        · simp only [List.mem_singleton] at he; subst he; simp
        · split at he
          · cases he
          · simp only [List.mem_singleton] at he; subst he; simp
    revert this
    generalize e.1 = k
    intro hk
    simp only [List.mem_cons, List.not_mem_nil, or_false] at hk
    rcases hk with rfl | rfl | rfl | rfl <;> decide
  by_cases hs : enc.support .singleHeader = true
  · rw [if_pos hs, if_pos hs, List.cons_append, List.nil_append, get_setAll_cons]
    have hg : ((c.set singleHeader (singleValue sc)).setAll (multiSets sc)).toExtractor.get singleHeader = some (singleValue sc) := by
      rw [get_setAll_ne _ _ _ hkeys, lookup_set_self]
    exact extract_of_some base (by rw [extractSingle_injected hs hv hg]; rfl) hv
  · rw [if_neg hs, if_neg hs, List.nil_append]
    have hg : (c.setAll (multiSets sc)).toExtractor.get singleHeader = none := by
      rw [get_setAll_ne _ _ _ hkeys]; exact hc _ (by decide)
    have cd := hc debugHeader (by decide)
    have cs := hc sampledHeader (by decide)
    refine extract_of_some (sc := ⟨sc.traceId, sc.spanId, multiFlags sc.flags, true, TraceState.none⟩) base ?_ hv
    rw [extractSingle_none hg, Option.none_or]
    by_cases h1 : sc.flags &&& flagDebug = flagDebug
    · have hm : multiSets sc = [(traceIdHeader, sc.traceId.toText), (spanIdHeader, sc.spanId.toText), (debugHeader, "1".toList)] := by
        simp [multiSets, h1]
      rw [hm]
      simp only [get_setAll_cons]
      apply extractMulti_injected hv
      · show ((((c.set _ _).set _ _).set _ _)).toExtractor.get _ = _
        rw [lookup_set_ne _ _ (by decide), lookup_set_ne _ _ (by decide), lookup_set_self]
      · show ((((c.set _ _).set _ _).set _ _)).toExtractor.get _ = _
        rw [lookup_set_ne _ _ (by decide), lookup_set_self]
      · unfold multiFlag multiFlags
        rw [show (Carrier.setAll (((c.set traceIdHeader sc.traceId.toText).set spanIdHeader sc.spanId.toText).set debugHeader "1".toList) []).toExtractor.get debugHeader =
          some "1".toList from lookup_set_self _ _ _]
        simp only [h1, if_true]
        rfl
    · by_cases h2 : sc.flags &&& flagDeferred = flagDeferred
      · have hm : multiSets sc = [(traceIdHeader, sc.traceId.toText), (spanIdHeader, sc.spanId.toText)] := by
          simp [multiSets, h1, h2]
        rw [hm]
        simp only [get_setAll_cons]
        apply extractMulti_injected hv
        · show ((((c.set _ _).set _ _))).toExtractor.get _ = _
          rw [lookup_set_ne _ _ (by decide), lookup_set_self]
        · exact lookup_set_self _ _ _
        · unfold multiFlag multiFlags
          have e1 : (Carrier.setAll ((c.set traceIdHeader sc.traceId.toText).set spanIdHeader sc.spanId.toText) []).toExtractor.get debugHeader = none := by
            show ((((c.set _ _).set _ _))).toExtractor.get _ = _
            rw [lookup_set_ne _ _ (by decide), lookup_set_ne _ _ (by decide), cd]
          have e2 : (Carrier.setAll ((c.set traceIdHeader sc.traceId.toText).set spanIdHeader sc.spanId.toText) []).toExtractor.get sampledHeader = none := by
            show ((((c.set _ _).set _ _))).toExtractor.get _ = _
            rw [lookup_set_ne _ _ (by decide), lookup_set_ne _ _ (by decide), cs]
          rw [e1, e2]
          simp only [h1, h2, if_true, if_false]
          rfl
      · have hm : multiSets sc = [(traceIdHeader, sc.traceId.toText), (spanIdHeader, sc.spanId.toText),
            (sampledHeader, if sc.isSampled then "1".toList else "0".toList)] := by
          simp [multiSets, h1, h2]
        rw [hm]
        simp only [get_setAll_cons]
        apply extractMulti_injected hv
        · show ((((c.set _ _).set _ _).set _ _)).toExtractor.get _ = _
          rw [lookup_set_ne _ _ (by decide), lookup_set_ne _ _ (by decide), lookup_set_self]
        · show ((((c.set _ _).set _ _).set _ _)).toExtractor.get _ = _
          rw [lookup_set_ne _ _ (by decide), lookup_set_self]
        · unfold multiFlag multiFlags
          generalize hfl : (if sc.isSampled then "1".toList else "0".toList) = fl
          have e1 : (Carrier.setAll (((c.set traceIdHeader sc.traceId.toText).set spanIdHeader sc.spanId.toText).set sampledHeader fl) []).toExtractor.get debugHeader = none := by
            show ((((c.set _ _).set _ _).set _ _)).toExtractor.get _ = _
            rw [lookup_set_ne _ _ (by decide), lookup_set_ne _ _ (by decide), lookup_set_ne _ _ (by decide), cd]
          rw [e1, show (Carrier.setAll (((c.set traceIdHeader sc.traceId.toText).set spanIdHeader sc.spanId.toText).set sampledHeader fl) []).toExtractor.get sampledHeader =
            some fl from lookup_set_self _ _ _]
          have e3 : extractDebugFlag ((none : Option Str).getD []) = none := by decide
          rw [e3]
          simp only [h1, h2, if_false]
          rw [← hfl, sampledState_flag]
          rfl

/-- The flags bytes of which a B3 encoding can carry the sampling state: with the single header, not debug and deferred at
the same time. -/
def Carries (enc : Encoding) (f : TraceFlags) : Prop :=
  (enc = .singleHeader ∨ enc = .singleAndMultiHeader) → ¬ (f.getLsbD 2 = true ∧ f.getLsbD 1 = true)

theorem sampling_single : ∀ f : TraceFlags, ¬ (f.getLsbD 2 = true ∧ f.getLsbD 1 = true) → samplingOf (singleFlags f) = samplingOf f := by
  decide +kernel

theorem sampling_multi : ∀ f : TraceFlags, samplingOf (multiFlags f) = samplingOf f := by decide +kernel

/-- **C15, the part that holds.** Ids and sampling state survive injection and extraction with every encoding. Missing: the
single header drops the debug state of a context whose flags say both debug and deferred (`b3_single_violated`). -/
theorem b3_roundtrip_partial {B U} (enc : Encoding) (cx base : Cx B U) (c : Carrier)
    (hc : ∀ h ∈ allHeaders, c.toExtractor.get h = none) (hv : (activeSpanContext cx).isValid = true)
    (hf : Carries enc (activeSpanContext cx).flags) :
    ∃ sc : SpanContext, extract enc base (c.setAll (inject enc cx)).toExtractor = base.withSpan sc ∧
      sc.traceId = (activeSpanContext cx).traceId ∧ sc.spanId = (activeSpanContext cx).spanId ∧ sc.isRemote = true ∧
      samplingOf sc.flags = samplingOf (activeSpanContext cx).flags := by
  refine ⟨_, b3_roundtrip_flags enc cx base c hc hv, rfl, rfl, rfl, ?_⟩
  cases enc with
  | unSpecified => exact sampling_multi _
  | multipleHeader => exact sampling_multi _
  | singleHeader => exact sampling_single _ (hf (Or.inl rfl))
  | singleAndMultiHeader => exact sampling_single _ (hf (Or.inr rfl))

/-- Non-vacuity: a debug context. -/
example : let sc : SpanContext := ⟨0x4bf92f3577b34da6a3ce929d0e0e4736#128, 0x00f067aa0ba902b7#64, 4#8, false, TraceState.none⟩
    sc.isValid = true ∧ Carries .singleHeader sc.flags ∧ ∀ h ∈ allHeaders, (Carrier.toExtractor []).get h = none :=
  ⟨by decide, fun _ => by decide, by decide⟩

/-- The sampling state through the single header, in full. -/
def SingleKeepsSampling : Prop := ∀ f : TraceFlags, samplingOf (singleFlags f) = samplingOf f

/-- **C15 is violated** for flags that say both debug and deferred: the single header then carries no state and is read back
as deferred. -/
theorem b3_single_violated : ¬ SingleKeepsSampling := by
  intro h; exact absurd (h 6#8) (by decide)

/-- Debug implies sampled in B3. The single header loses it: a sampled debug context comes back not sampled, with every
encoding that reads the single header; the multiple headers bring it back sampled. -/
theorem debug_sampled_flag {B U} (enc : Encoding) (cx base : Cx B U) (c : Carrier)
    (hc : ∀ h ∈ allHeaders, c.toExtractor.get h = none) (hv : (activeSpanContext cx).isValid = true)
    (hf : (activeSpanContext cx).flags = 5#8) :
    (activeSpanContext (extract enc base (c.setAll (inject enc cx)).toExtractor)).isSampled =
      decide (enc = .unSpecified ∨ enc = .multipleHeader) := by
  rw [b3_roundtrip_flags enc cx base c hc hv, hf]
  show TraceFlags.isSampled (if enc.support .singleHeader then singleFlags 5#8 else multiFlags 5#8) = _
  cases enc <;> decide

/-! ## C17 for B3 -/

/-- **C17 (B3).** Whatever the carrier says, extraction leaves the context as it is or stores a valid remote span context. -/
theorem b3_extract_valid {B U} (enc : Encoding) (cx : Cx B U) (ex : Extractor) :
    extract enc cx ex = cx ∨
    ∃ sc : SpanContext, extract enc cx ex = cx.withSpan sc ∧ sc.traceId ≠ 0#128 ∧ sc.spanId ≠ 0#64 ∧ sc.isRemote = true := by
  unfold extract
  cases h : extractSpanContext enc ex with
  | none => exact Or.inl rfl
  | some sc =>
    right
    refine ⟨sc, rfl, ?_⟩
    unfold extractSpanContext at h
    rw [Option.filter_eq_some_iff] at h
    have hv : sc.isValid = true := h.2
    have hrem : sc.isRemote = true := by
      have hif : ∀ {a b : SpanContext}, ifValid a = some b → b = a := by
        intro a b hab; unfold ifValid at hab; split at hab <;> simp_all
      rcases Option.or_eq_some_iff.1 h.1 with hs | ⟨_, hs⟩
      · unfold extractSingle at hs
        simp only at hs
        split at hs
        · simp only [Option.bind_eq_bind, Option.bind_eq_some_iff] at hs
          obtain ⟨_, _, _, _, hs⟩ := hs; rw [hif hs]
        · simp only [Option.bind_eq_bind, Option.bind_eq_some_iff] at hs
          obtain ⟨_, _, _, _, _, _, hs⟩ := hs; rw [hif hs]
        · simp only [Option.bind_eq_bind, Option.bind_eq_some_iff] at hs
          obtain ⟨_, _, _, _, _, _, _, _, hs⟩ := hs; rw [hif hs]
        · cases hs
      · unfold extractMulti at hs
        simp only [Option.bind_eq_bind, Option.bind_eq_some_iff] at hs
        obtain ⟨_, _, _, _, _, _, hs⟩ := hs; rw [hif hs]
    simp only [SpanContext.isValid, Bool.and_eq_true, bne_iff_ne, ne_eq] at hv
    exact ⟨hv.1, hv.2, hrem⟩

example : extract (B := Unit) (U := fun _ => Unit) .singleHeader Ctx.Context.new
    (Carrier.toExtractor [("b3".toList, "a3ce929d0e0e4736-00f067aa0ba902b7-1".toList)]) ≠ Ctx.Context.new := by
  intro h
  have := congrArg activeSpanContext h
  revert this
  decide +kernel


/-- **C15 (B3, no valid span)** Without a valid span only the sampling state is sent, `1` or `0`: in `x-b3-sampled`, and with the single header encodings also in `b3`. -/
theorem b3_inject_invalid {B U} (enc : Encoding) (cx : Cx B U) (hv : (activeSpanContext cx).isValid = false) :
    inject enc cx = (if enc = .singleHeader ∨ enc = .singleAndMultiHeader then [("b3".toList, if (activeSpanContext cx).isSampled then ['1'] else ['0'])] else []) ++
      [("x-b3-sampled".toList, if (activeSpanContext cx).isSampled then ['1'] else ['0'])] := by
  unfold inject
  simp only [hv]
  cases enc <;> cases (activeSpanContext cx).isSampled <;> rfl

/-- A context without a span. -/
example {B U} (cx : Cx B U) (h : cx.span = none) : inject .singleHeader cx = [("b3".toList, ['0']), ("x-b3-sampled".toList, ['0'])] := by
  have e : activeSpanContext cx = SpanContext.none := by unfold activeSpanContext; rw [h]; rfl
  rw [b3_inject_invalid .singleHeader cx (by rw [e]; rfl), e]; rfl

end Otel.Prop.B3
