import Verif.Propagation.TraceContext
import Verif.Trace.IdsProps
import Verif.Trace.TraceStateProps
import Verif.Rust.NumSpec
/-! # Property theorems: W3C trace context (C06, C07, C08) -/

namespace Otel.Prop.W3C
open Rust

/-! ## C06: round trip -/

theorem lower_traceparent_ne : lower tracestateHeader ≠ lower traceparentHeader := by decide

theorem lowerhex_no_dash {s : Str} (h : ∀ c ∈ s, isLowerHex c = true) : '-' ∉ s :=
  fun hm => absurd (h _ hm) (by decide)

theorem any_upper_false {s : Str} (h : ∀ c ∈ s, isLowerHex c = true) : s.any isAsciiUpper = false := by
  rw [List.any_eq_false]; intro c hc; rw [isLowerHex_not_upper (h c hc)]; decide

theorem flags_text (f : TraceFlags) : (f &&& TraceFlags.sampled).toNat ≤ 1 := by
  revert f; decide +kernel

theorem traceparent_parts (sc : SpanContext) :
    splitTerminator '-' (trim (traceparentValue sc)) =
      [fmtHex 2 0, sc.traceId.toText, sc.spanId.toText, fmtHex 2 (sc.flags &&& TraceFlags.sampled).toNat] := by
  have hj : traceparentValue sc =
      join ['-'] [fmtHex 2 0, sc.traceId.toText, sc.spanId.toText, fmtHex 2 (sc.flags &&& TraceFlags.sampled).toNat] := by
    simp [traceparentValue, join, supportedVersion, List.append_assoc]
  have htrim : trim (traceparentValue sc) = traceparentValue sc := by
    apply trim_of_ends
    · intro c hc
      have : c ∈ fmtHex 2 0 := by
        have h2 : (fmtHex 2 0) = ['0', '0'] := by decide
        simp only [traceparentValue, supportedVersion, h2, List.cons_append, List.head?_cons, Option.some.injEq] at hc
        rw [h2, ← hc]; simp
      exact isLowerHex_not_ws (fmtHex_lower _ _ c this)
    · intro c hc
      have hne : fmtHex 2 (sc.flags &&& TraceFlags.sampled).toNat ≠ [] := by
        intro e; have := fmtHex_length 2 (sc.flags &&& TraceFlags.sampled).toNat; rw [e] at this; simp at this
      unfold traceparentValue at hc
      rw [List.getLast?_append, List.getLast?_eq_some_getLast hne] at hc
      simp only [Option.some_or, Option.some.injEq] at hc
      exact isLowerHex_not_ws (fmtHex_lower _ _ c (hc ▸ List.getLast_mem hne))
  rw [htrim, hj]
  apply splitTerminator_join (by simp)
  · intro p hp
    simp only [List.mem_cons, List.not_mem_nil, or_false] at hp
    rcases hp with h | h | h | h <;> rw [h]
    · exact lowerhex_no_dash (fmtHex_lower 2 0)
    · exact lowerhex_no_dash (fmtHex_lower 32 sc.traceId.toNat)
    · exact lowerhex_no_dash (fmtHex_lower 16 sc.spanId.toNat)
    · exact lowerhex_no_dash (fmtHex_lower 2 _)
  · intro e
    simp only [List.getLast?_cons_cons, List.getLast?_singleton, Option.some.injEq] at e
    have := fmtHex_length 2 (sc.flags &&& TraceFlags.sampled).toNat; rw [e] at this; simp at this

/-- What extraction returns when the carrier holds the injected `traceparent` and any `tracestate` text. -/
theorem extract_injected (sc : SpanContext) (hv : sc.isValid = true) (ex : Extractor)
    (h1 : ex.get traceparentHeader = some (traceparentValue sc)) :
    extractSpanContext ex = some ⟨sc.traceId, sc.spanId, sc.flags &&& TraceFlags.sampled, true, traceStateOf ex⟩ := by
  have hf := flags_text sc.flags
  have p0 : parseHex 8 (fmtHex 2 0) = some 0 := by decide +kernel
  have p3 : parseHex 8 (fmtHex 2 (sc.flags &&& TraceFlags.sampled).toNat) = some (sc.flags &&& TraceFlags.sampled).toNat :=
    parseHex_fmtHex (by omega) (by omega) (by omega)
  have hb : BitVec.ofNat 8 (sc.flags &&& TraceFlags.sampled).toNat &&& TraceFlags.sampled = sc.flags &&& TraceFlags.sampled := by
    rw [BitVec.ofNat_toNat, BitVec.setWidth_eq, BitVec.and_assoc, BitVec.and_self]
  have hopt : decide ((sc.flags &&& TraceFlags.sampled).toNat > 2) = false := decide_eq_false (by omega)
  simp only [extractSpanContext, h1, Option.getD_some, traceparent_parts, p0, p3, traceId_text_roundtrip,
    spanId_text_roundtrip, hb, hopt]
  have u1 : sc.traceId.toText.any isAsciiUpper = false := any_upper_false (fmtHex_lower _ _)
  have u2 : sc.spanId.toText.any isAsciiUpper = false := any_upper_false (fmtHex_lower _ _)
  rw [u1, u2]
  have hv2 : (!SpanContext.isValid ⟨sc.traceId, sc.spanId, sc.flags &&& TraceFlags.sampled, true, traceStateOf ex⟩) = false := by
    simp only [SpanContext.isValid] at hv ⊢; rw [hv]; rfl
  simp [hv2]

/-- **C06.** Inject a context whose span context is valid into any carrier, extract with any base context: the result is
the base context with a remote span context having the same trace id, span id, sampled flag (and no other flag) and the
same trace state entries. -/
theorem w3c_roundtrip {B U} (cx base : Cx B U) (carrier : Carrier) (hv : (activeSpanContext cx).isValid = true)
    (hts : TraceState.Built (activeSpanContext cx).traceState) :
    ∃ sc : SpanContext,
      extract base (carrier.setAll (inject cx)).toExtractor = base.withSpan sc ∧
      sc.traceId = (activeSpanContext cx).traceId ∧ sc.spanId = (activeSpanContext cx).spanId ∧
      sc.isSampled = (activeSpanContext cx).isSampled ∧ (sc.flags = 0#8 ∨ sc.flags = 1#8) ∧ sc.isRemote = true ∧
      sc.traceState.entries = (activeSpanContext cx).traceState.entries := by
  obtain ⟨t', ht', he⟩ := TraceState.header_roundtrip hts
  have hset : carrier.setAll (inject cx) =
      (carrier.set traceparentHeader (traceparentValue (activeSpanContext cx))).set tracestateHeader
        (activeSpanContext cx).traceState.header := by
    simp [Carrier.setAll, inject, hv]
  have hx := extract_injected (activeSpanContext cx) hv (carrier.setAll (inject cx)).toExtractor (by
    rw [hset, lookup_set_ne _ _ (by decide), lookup_set_self])
  have h2 : (carrier.setAll (inject cx)).toExtractor.get tracestateHeader = some (activeSpanContext cx).traceState.header := by
    rw [hset, lookup_set_self]
  have h3 : traceStateOf (carrier.setAll (inject cx)).toExtractor = t' := by simp only [traceStateOf, h2, ht']
  rw [h3] at hx
  refine ⟨⟨(activeSpanContext cx).traceId, (activeSpanContext cx).spanId,
    (activeSpanContext cx).flags &&& TraceFlags.sampled, true, t'⟩, ?_, rfl, rfl, ?_, ?_, rfl, he⟩
  · simp only [extract, hx]
  · have key : ∀ f : TraceFlags, TraceFlags.isSampled (f &&& TraceFlags.sampled) = f.isSampled := by decide +kernel
    exact key _
  · have key : ∀ f : TraceFlags, f &&& TraceFlags.sampled = 0#8 ∨ f &&& TraceFlags.sampled = 1#8 := by decide +kernel
    exact key _

/-- Non-vacuity of C06. -/
example : let sc : SpanContext := ⟨0x4bf92f3577b34da6a3ce929d0e0e4736#128, 0x00f067aa0ba902b7#64, 1#8, false,
      ⟨some [("congo".toList, "t61".toList)]⟩⟩
    let cx : Cx Unit (fun _ => Unit) := Ctx.Context.new.withSpan sc
    (activeSpanContext cx).isValid = true ∧ TraceState.Built (activeSpanContext cx).traceState ∧
    (inject cx).map Prod.snd = ["00-4bf92f3577b34da6a3ce929d0e0e4736-00f067aa0ba902b7-01".toList, "congo=t61".toList] :=
  ⟨by decide +kernel, .fromStr (s := "congo=t61".toList) (by decide), by decide +kernel⟩

/-! ## C07: extraction is all-or-nothing -/

/-- The fields of a header: the pieces between `-` of the trimmed text; a final empty piece does not count. -/
def Fields (h : Str) : List Str := splitTerminator '-' (trim h)

/-- The trace state that goes with a header set: the parsed `tracestate`, or none when missing or malformed. -/
def carriedState (ex : Extractor) : TraceState :=
  match ex.get "tracestate".toList with
  | some s => (match TraceState.fromStr s with | .ok t => t | .error _ => TraceState.none)
  | none => TraceState.none

/-- **C07 (exact acceptance condition).** Extraction yields a span context exactly when there is a `traceparent` header
whose fields are version, trace id, span id, flags: hexadecimal numbers in range, version at most 254, no further field
and flags at most 2 in version 0, no uppercase letter in the ids, ids non-zero. The context is then determined. -/
theorem extract_iff (ex : Extractor) (sc : SpanContext) :
    extractSpanContext ex = some sc ↔
      ∃ h v t s f rest vn tn sn fn, ex.get "traceparent".toList = some h ∧ Fields h = [v, t, s, f] ++ rest ∧
        HexNum v vn ∧ vn ≤ 254 ∧ HexNum t tn ∧ tn ≠ 0 ∧ tn < 2 ^ 128 ∧ HexNum s sn ∧ sn ≠ 0 ∧ sn < 2 ^ 64 ∧
        HexNum f fn ∧ fn < 256 ∧ (vn = 0 → rest = [] ∧ fn ≤ 2) ∧
        (∀ c ∈ t, isAsciiUpper c = false) ∧ (∀ c ∈ s, isAsciiUpper c = false) ∧
        sc = ⟨BitVec.ofNat 128 tn, BitVec.ofNat 64 sn, if fn % 2 = 1 then 1#8 else 0#8, true, carriedState ex⟩ := by
  have hflag : ∀ fn < 256, BitVec.ofNat 8 fn &&& TraceFlags.sampled = if fn % 2 = 1 then 1#8 else 0#8 := by
    intro fn hfn
    have : ∀ fn ∈ List.range 256, BitVec.ofNat 8 fn &&& TraceFlags.sampled = if fn % 2 = 1 then 1#8 else 0#8 := by decide +kernel
    exact this fn (List.mem_range.2 hfn)
  constructor
  · intro h
    unfold extractSpanContext at h
    simp only at h
    split at h
    case h_2 => cases h
    rename_i p0 p1 p2 p3 rest hsplit
    cases hget : ex.get traceparentHeader with
    | none =>
      rw [hget] at hsplit
      exfalso
      have : splitTerminator '-' (trim ((none : Option Str).getD [])) = [] := by decide
      rw [this] at hsplit; cases hsplit
    | some hd =>
      rw [hget] at hsplit
      simp only [Option.getD_some] at hsplit
      split at h
      · cases h
      rename_i vn hv
      split at h
      · cases h
      rename_i hver
      split at h
      · cases h
      rename_i hup1
      split at h
      · cases h
      rename_i tid htid
      split at h
      · cases h
      rename_i hup2
      split at h
      · cases h
      rename_i sid hsid
      split at h
      · cases h
      rename_i fn hfn
      split at h
      · cases h
      rename_i hopt
      split at h
      · cases h
      rename_i hvalid
      simp only [Option.some.injEq] at h
      obtain ⟨tn, htn, rfl⟩ := Option.map_eq_some_iff.1 htid
      obtain ⟨sn, hsn, rfl⟩ := Option.map_eq_some_iff.1 hsid
      obtain ⟨hv1, hv2⟩ := (parseHex_iff _ _ _).1 hv
      obtain ⟨ht1, ht2⟩ := (parseHex_iff _ _ _).1 htn
      obtain ⟨hs1, hs2⟩ := (parseHex_iff _ _ _).1 hsn
      obtain ⟨hf1, hf2⟩ := (parseHex_iff _ _ _).1 hfn
      simp only [Bool.or_eq_true, decide_eq_true_eq, Bool.and_eq_true, beq_iff_eq, bne_iff_ne, not_or, not_and] at hver
      simp only [Bool.and_eq_true, beq_iff_eq, decide_eq_true_eq, not_and] at hopt
      simp only [SpanContext.isValid, TraceId.invalid, SpanId.invalid, Bool.not_eq_true', Bool.and_eq_false_iff, bne_eq_false_iff_eq,
        not_or] at hvalid
      refine ⟨hd, p0, p1, p2, p3, rest, vn, tn, sn, fn, hget, hsplit, hv1, by have := hver.1; unfold maxVersion at this; omega, ht1, ?_, ht2, hs1, ?_, hs2, hf1, by omega,
        ?_, ?_, ?_, ?_⟩
      · rintro rfl; exact hvalid.1 rfl
      · rintro rfl; exact hvalid.2 rfl
      · intro h0
        refine ⟨?_, ?_⟩
        · have := hver.2 h0
          exact List.length_eq_zero_iff.1 (by omega)
        · have := hopt h0; omega
      · simpa using hup1
      · simpa using hup2
      · rw [← h, hflag fn (by omega)]; rfl
  · rintro ⟨h, v, t, s, f, rest, vn, tn, sn, fn, hget, hfields, hv, hv2, ht, ht0, ht2, hs, hs0, hs2, hf, hf2, h0, hu1, hu2, rfl⟩
    have hget' : ex.get traceparentHeader = some h := hget
    have hfields' : splitTerminator '-' (trim h) = v :: t :: s :: f :: rest := hfields
    have e0 : parseHex 8 v = some vn := (parseHex_iff _ _ _).2 ⟨hv, by omega⟩
    have e1 : TraceId.fromHex t = some (BitVec.ofNat 128 tn) := by
      simp [TraceId.fromHex, (parseHex_iff 128 t tn).2 ⟨ht, ht2⟩]
    have e2 : SpanId.fromHex s = some (BitVec.ofNat 64 sn) := by
      simp [SpanId.fromHex, (parseHex_iff 64 s sn).2 ⟨hs, hs2⟩]
    have e3 : parseHex 8 f = some fn := (parseHex_iff _ _ _).2 ⟨hf, by omega⟩
    have u1 : t.any isAsciiUpper = false := by simpa using hu1
    have u2 : s.any isAsciiUpper = false := by simpa using hu2
    have c1 : (decide (vn > maxVersion) || (vn == 0 && rest.length != 0)) = false := by
      simp only [Bool.or_eq_false_iff, decide_eq_false_iff_not, Bool.and_eq_false_iff, beq_eq_false_iff_ne,
        bne_eq_false_iff_eq]
      refine ⟨by unfold maxVersion; omega, ?_⟩
      by_cases hz : vn = 0
      · right; rw [(h0 hz).1]; rfl
      · left; exact hz
    have c2 : (vn == 0 && decide (fn > 2)) = false := by
      by_cases hz : vn = 0
      · have := (h0 hz).2; simp; omega
      · simp [hz]
    have n1 : BitVec.ofNat 128 tn ≠ 0#128 := by
      intro e; have := congrArg BitVec.toNat e; simp only [BitVec.toNat_ofNat] at this
      rw [Nat.mod_eq_of_lt ht2] at this; simp at this; exact ht0 this
    have n2 : BitVec.ofNat 64 sn ≠ 0#64 := by
      intro e; have := congrArg BitVec.toNat e; simp only [BitVec.toNat_ofNat] at this
      rw [Nat.mod_eq_of_lt hs2] at this; simp at this; exact hs0 this
    have hvv : ∀ fl r ts, SpanContext.isValid ⟨BitVec.ofNat 128 tn, BitVec.ofNat 64 sn, fl, r, ts⟩ = true := by
      intro fl r ts
      simp only [SpanContext.isValid, TraceId.invalid, SpanId.invalid, Bool.and_eq_true, bne_iff_ne]
      exact ⟨n1, n2⟩
    simp only [extractSpanContext, hget', Option.getD_some, hfields', e0, c1, Bool.false_eq_true, if_false, u1, e1, u2, e2, e3, c2,
      hvv, Bool.not_true, hflag fn hf2]
    rfl

/-- **C07.** For every carrier content, extraction either leaves the context unchanged or sets a remote span context
with non-zero ids, no flag other than sampled, and a legal trace state. -/
theorem extract_all_or_nothing {B U} (cx : Cx B U) (ex : Extractor) :
    extract cx ex = cx ∨
    ∃ sc, extract cx ex = cx.withSpan sc ∧ sc.isRemote = true ∧ sc.traceId ≠ 0#128 ∧ sc.spanId ≠ 0#64 ∧
      (sc.flags = 0#8 ∨ sc.flags = 1#8) ∧ TraceState.Built sc.traceState := by
  unfold extract
  cases h : extractSpanContext ex with
  | none => exact Or.inl rfl
  | some sc =>
    right
    obtain ⟨h', v, t, s, f, rest, vn, tn, sn, fn, hget, hfields, hv, hv2, ht, ht0, ht2, hs, hs0, hs2, hf, hf2, h0, hu1, hu2, rfl⟩ :=
      (extract_iff ex sc).1 h
    refine ⟨_, rfl, rfl, ?_, ?_, ?_, ?_⟩
    · intro e; have := congrArg BitVec.toNat e; simp only [BitVec.toNat_ofNat] at this
      rw [Nat.mod_eq_of_lt ht2] at this; simp at this; exact ht0 this
    · intro e; have := congrArg BitVec.toNat e; simp only [BitVec.toNat_ofNat] at this
      rw [Nat.mod_eq_of_lt hs2] at this; simp at this; exact hs0 this
    · simp only; split <;> simp
    · simp only [carriedState]
      split
      · split
        · rename_i hh; exact .fromStr hh
        · exact .default
      · exact .default

/-- **C07 (refusals).** Whatever the rest, a header is refused when: it has fewer than four fields; its version is ff; it is
version 00 and has a fifth field; an id has an uppercase letter; an id is zero. -/
theorem extract_refuses (ex : Extractor) (h : Str) (hget : ex.get "traceparent".toList = some h) :
    ((Fields h).length < 4 → extractSpanContext ex = none) ∧
    (∀ rest, Fields h = "ff".toList :: rest → extractSpanContext ex = none) ∧
    (∀ a b c d rest, Fields h = "00".toList :: a :: b :: c :: d :: rest → extractSpanContext ex = none) ∧
    (∀ v t s rest, Fields h = v :: t :: s :: rest → (∃ c, (c ∈ t ∨ c ∈ s) ∧ 'A' ≤ c ∧ c ≤ 'Z') → extractSpanContext ex = none) ∧
    (∀ v t s rest, Fields h = v :: t :: s :: rest → (HexNum t 0 ∨ HexNum s 0) → extractSpanContext ex = none) := by
  have key : ∀ P : Prop, (∀ v t s f rest vn tn sn fn, Fields h = [v, t, s, f] ++ rest →
        HexNum v vn → vn ≤ 254 → HexNum t tn → tn ≠ 0 → HexNum s sn → sn ≠ 0 → HexNum f fn → (vn = 0 → rest = [] ∧ fn ≤ 2) →
        (∀ c ∈ t, isAsciiUpper c = false) → (∀ c ∈ s, isAsciiUpper c = false) → ¬ P) → P → extractSpanContext ex = none := by
    intro P hP hp
    cases hx : extractSpanContext ex with
    | none => rfl
    | some sc =>
      exfalso
      obtain ⟨h', v, t, s, f, rest, vn, tn, sn, fn, hget', hfields, hv, hv2, ht, ht0, ht2, hs, hs0, hs2, hf, hf2, h0, hu1, hu2, _⟩ :=
        (extract_iff ex sc).1 hx
      rw [hget] at hget'
      obtain rfl := Option.some.inj hget'
      exact hP v t s f rest vn tn sn fn hfields hv hv2 ht ht0 hs hs0 hf h0 hu1 hu2 hp
  refine ⟨?_, ?_, ?_, ?_, ?_⟩
  · exact key _ (by intro v t s f rest vn tn sn fn hF; intros; rw [hF]; simp)
  · intro rest hr
    refine key _ ?_ hr
    intro v t s f rest' vn tn sn fn hF hv hv2
    intros
    intro hr
    rw [hF] at hr
    simp only [List.cons_append, List.cons.injEq] at hr
    rw [hr.1] at hv
    have := hexNum_unique hv (((parseHex_iff 8 "ff".toList 255).1 (by decide +kernel)).1)
    omega
  · intro a b c d rest hr
    refine key _ ?_ hr
    intro v t s f rest' vn tn sn fn hF hv hv2 _ _ _ _ _ h0 _ _ hr
    rw [hF] at hr
    simp only [List.cons_append, List.nil_append, List.cons.injEq] at hr
    obtain ⟨rfl, rfl, rfl, rfl, hrest⟩ := hr
    have := hexNum_unique hv (((parseHex_iff 8 "00".toList 0).1 (by decide +kernel)).1)
    rw [(h0 this).1] at hrest; cases hrest
  · intro v' t' s' rest hr hup
    refine key _ ?_ hup
    intro v t s f rest' vn tn sn fn hF _ _ _ _ _ _ _ _ hu1 hu2 hup
    rw [hF] at hr
    simp only [List.cons_append, List.nil_append, List.cons.injEq] at hr
    obtain ⟨rfl, rfl, rfl, _⟩ := hr
    obtain ⟨c, hm, h1, h2⟩ := hup
    have hc : isAsciiUpper c = true := by simp [isAsciiUpper, h1, h2]
    rcases hm with hm | hm
    · rw [hu1 c hm] at hc; cases hc
    · rw [hu2 c hm] at hc; cases hc
  · intro v' t' s' rest hr hz
    refine key _ ?_ hz
    intro v t s f rest' vn tn sn fn hF _ _ ht ht0 hs hs0 _ _ _ _ hz
    rw [hF] at hr
    simp only [List.cons_append, List.nil_append, List.cons.injEq] at hr
    obtain ⟨rfl, rfl, rfl, _⟩ := hr
    rcases hz with hz | hz
    · exact ht0 (hexNum_unique ht hz)
    · exact hs0 (hexNum_unique hs hz)

/-! ## C08: the grammar -/

/-- The characters 0-9a-f. -/
def HexDigLC (c : Char) : Prop := c ∈ "0123456789abcdef".toList

/-- `traceparent` of the W3C recommendation, version 00: 2HEXDIGLC "-" 32HEXDIGLC "-" 16HEXDIGLC "-" 2HEXDIGLC. -/
def Grammar (h : Str) : Prop :=
  ∃ v t s f, h = v ++ ['-'] ++ t ++ ['-'] ++ s ++ ['-'] ++ f ∧ v.length = 2 ∧ t.length = 32 ∧ s.length = 16 ∧ f.length = 2 ∧
    ∀ c ∈ v ++ t ++ s ++ f, HexDigLC c

/-- The full statement of C08. -/
def AcceptsOnlyGrammar : Prop :=
  ∀ (ex : Extractor) (h : Str), ex.get "traceparent".toList = some h → (extractSpanContext ex).isSome = true → Grammar h

/-- **C08 is violated**: `00-1-1-01` (ids of one digit), `+0-+1-+1-+1` (signs) and a header with a trailing dash are
accepted. -/
theorem grammar_violated : ¬ AcceptsOnlyGrammar ∧
    (extractSpanContext ⟨fun _ => some "+0-+1-+1-+1".toList, []⟩).isSome = true ∧
    (extractSpanContext ⟨fun _ => some "00-4bf92f3577b34da6a3ce929d0e0e4736-00f067aa0ba902b7-01-".toList, []⟩).isSome = true := by
  refine ⟨?_, by decide +kernel, by decide +kernel⟩
  intro h
  obtain ⟨v, t, s, f, he, hv, ht, hs, hf, _⟩ := h ⟨fun _ => some "00-1-1-01".toList, []⟩ _ rfl (by decide +kernel)
  have := congrArg List.length he
  simp [hv, ht, hs, hf] at this

/-- **C08, converse, violated for Level 2 flags**: a header of the grammar with the random-trace-id flag (flags 03) is
refused. -/
theorem level2_flags_refused :
    Grammar "00-4bf92f3577b34da6a3ce929d0e0e4736-00f067aa0ba902b7-03".toList ∧
    extractSpanContext ⟨fun _ => some "00-4bf92f3577b34da6a3ce929d0e0e4736-00f067aa0ba902b7-03".toList, []⟩ = none := by
  refine ⟨⟨"00".toList, "4bf92f3577b34da6a3ce929d0e0e4736".toList, "00f067aa0ba902b7".toList, "03".toList,
    by decide +kernel, by decide, by decide, by decide, by decide, ?_⟩, by decide +kernel⟩
  unfold HexDigLC; decide +kernel

/-- **C08, the part that holds.** Every field of an accepted header is a hexadecimal number, possibly with a leading `+`;
the ids have no uppercase letter. -/
theorem grammar_partial (ex : Extractor) (h : Str) (hget : ex.get "traceparent".toList = some h)
    (hacc : (extractSpanContext ex).isSome = true) :
    ∃ v t s f rest, Fields h = [v, t, s, f] ++ rest ∧
      ∀ x ∈ [v, t, s, f], ∃ n, HexNum x n ∧ ∀ c ∈ t ++ s, isAsciiUpper c = false := by
  obtain ⟨sc, hsc⟩ := Option.isSome_iff_exists.1 hacc
  obtain ⟨h', v, t, s, f, rest, vn, tn, sn, fn, hget', hfields, hv, hv2, ht, ht0, ht2, hs, hs0, hs2, hf, hf2, h0, hu1, hu2, _⟩ :=
    (extract_iff ex sc).1 hsc
  rw [hget] at hget'
  obtain rfl := Option.some.inj hget'
  have hall : ∀ c ∈ t ++ s, isAsciiUpper c = false := by
    intro c hc
    rcases List.mem_append.1 hc with hc | hc
    · exact hu1 c hc
    · exact hu2 c hc
  refine ⟨v, t, s, f, rest, hfields, ?_⟩
  intro x hx
  simp only [List.mem_cons, List.not_mem_nil, or_false] at hx
  rcases hx with rfl | rfl | rfl | rfl
  · exact ⟨_, hv, hall⟩
  · exact ⟨_, ht, hall⟩
  · exact ⟨_, hs, hall⟩
  · exact ⟨_, hf, hall⟩

example : ∃ ex h, Extractor.get ex "traceparent".toList = some h ∧ (extractSpanContext ex).isSome = true :=
  ⟨⟨fun _ => some "00-4bf92f3577b34da6a3ce929d0e0e4736-00f067aa0ba902b7-01".toList, []⟩, _, rfl, by decide +kernel⟩

end Otel.Prop.W3C
