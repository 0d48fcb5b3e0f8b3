import Verif.Propagation.CompositeProps
import Verif.Propagation.B3Props
import Verif.Propagation.BaggageProps
import Verif.Propagation.TraceContextProps
/-!
# Propagation in HTTP headers (`opentelemetry-http/src/lib.rs`), C85

`http::HeaderMap` is a dependency. It is modelled as the list of its headers, names in lower case, with repetition. Its limit of 32768 headers, past which
`insert` panics, is left out. Whether `HeaderValue::from_str` takes bytes above 127 differs between what the crate documents and what it does: the model has
both, as a parameter.
-/

namespace Otel.Prop.Http
open Rust

/-- Whether a header value made from a string may have bytes above 127. -/
structure Rules where
  opaqueBytes : Bool

/-- A character of a header name: a token character of RFC 9110. `http::header::HEADER_CHARS` -/
def nameChar (c : Char) : Bool := ('a' ≤ c && c ≤ 'z') || ('A' ≤ c && c ≤ 'Z') || ('0' ≤ c && c ≤ '9') || c ∈ "!#$%&'*+-.^_`|~".toList

/-- `HeaderName::from_bytes`: not empty, at most 65535 bytes, token characters; in lower case. Used by lib.rs:19 and, for a look-up, by `HeaderMap::get` -/
def headerName (k : Str) : Option Str := if k ≠ [] ∧ k.length ≤ 65535 ∧ k.all nameChar then some (lower k) else none

/-- A byte `HeaderValue::to_str` takes: visible ASCII, space or tab. -/
def visibleByte (b : UInt8) : Bool := b.toNat == 9 || (32 ≤ b.toNat && b.toNat < 127)

/-- `HeaderValue::from_str`: no control character but the tab. lib.rs:20 -/
def headerValue (r : Rules) (v : Str) : Option (List UInt8) :=
  if (utf8 v).all fun b => visibleByte b || (r.opaqueBytes && 128 ≤ b.toNat) then some (utf8 v) else none

/-- `HeaderValue::to_str`. lib.rs:36 -/
def toStr (bs : List UInt8) : Option Str := if bs.all visibleByte then some (bs.map fun b => Char.ofNat b.toNat) else none

/-- `http::HeaderMap` -/
abbrev HeaderMap := List (Str × List UInt8)

/-- The names in a map are those `HeaderName` makes. -/
def WF (m : HeaderMap) : Prop := ∀ e ∈ m, headerName e.1 = some e.1

/-- `HeaderMap::insert`: replaces all values of the name. -/
def insert (m : HeaderMap) (n : Str) (v : List UInt8) : HeaderMap := (n, v) :: m.filter (fun e => e.1 ≠ n)

/-- The first value under a name. -/
def first (n : Str) : HeaderMap → Option (List UInt8)
  | [] => none
  | (n', v) :: m => if n' = n then some v else first n m

/-- `HeaderInjector::set`. lib.rs:18-24 -/
def set (r : Rules) (m : HeaderMap) (key value : Str) : HeaderMap :=
  match headerName key with
  | none => m
  | some n => match headerValue r value with
    | none => m
    | some v => insert m n v

/-- The `set` calls of an injection. -/
def setAll (r : Rules) (m : HeaderMap) (sets : List (Str × Str)) : HeaderMap := sets.foldl (fun m kv => set r m kv.1 kv.2) m

/-- `HeaderExtractor::get`. lib.rs:35-37 -/
def get (m : HeaderMap) (key : Str) : Option Str :=
  match headerName key with
  | none => none
  | some n => (first n m).bind toStr

/-- `HeaderExtractor`; `keys` has each name once. lib.rs:33-46 -/
def toExtractor (m : HeaderMap) : Extractor := { get := get m, keys := (m.map Prod.fst).eraseDups }

/-! ## Specification -/

/-- Only printable ASCII characters, spaces and tabs. -/
def Printable (s : Str) : Prop := ∀ c ∈ s, c = '\t' ∨ (' ' ≤ c ∧ c ≤ '~')

/-- A name that a header can have. -/
def ValidName (k : Str) : Prop := k ≠ [] ∧ k.length ≤ 65535 ∧ ∀ c ∈ k, nameChar c = true

/-- A propagator that looks headers up by name and does not list them. -/
def ByName {B U} (p : Propagator B U) : Prop := ∀ cx ex ex', ex.get = ex'.get → p.extract cx ex = p.extract cx ex'

/-- What a header map says, as a string map: the first value of every name, if it is text. -/
def asCarrier : HeaderMap → Carrier
  | [] => []
  | (n, v) :: m => ((toStr v).map fun s => (n, s)).toList ++ (asCarrier m).filter (fun e => e.1 ≠ n)

/-! ## Lemmas -/

theorem headerName_some {k : Str} (h : ValidName k) : headerName k = some (lower k) := by
  rw [headerName, if_pos ⟨h.1, h.2.1, List.all_eq_true.2 h.2.2⟩]

theorem printable_range {c : Char} (h : c = '\t' ∨ (' ' ≤ c ∧ c ≤ '~')) : c.toNat = 9 ∨ (32 ≤ c.toNat ∧ c.toNat ≤ 126) := by
  rcases h with rfl | ⟨h1, h2⟩
  · exact .inl rfl
  · exact .inr ⟨h1, h2⟩

theorem utf8_printable {s : Str} (h : Printable s) : utf8 s = s.map (fun c => UInt8.ofNat c.toNat) := by
  induction s with
  | nil => rfl
  | cons c s ih =>
    have hc := printable_range (h c (List.mem_cons_self ..))
    rw [utf8_cons, utf8Char_ascii (by omega), ih fun x hx => h x (List.mem_cons_of_mem _ hx)]
    rfl

theorem visible_printable {s : Str} (h : Printable s) : (utf8 s).all visibleByte = true := by
  rw [utf8_printable h, List.all_map, List.all_eq_true]
  intro c hc
  have hc := printable_range (h c hc)
  have : (UInt8.ofNat c.toNat).toNat = c.toNat := by rw [UInt8.toNat_ofNat', Nat.mod_eq_of_lt (by omega)]
  simp only [Function.comp_apply, visibleByte, this]
  rcases hc with hc | hc
  · simp [hc]
  · simp only [Bool.or_eq_true, Bool.and_eq_true, decide_eq_true_eq]; right; omega

theorem headerValue_some (r : Rules) {s : Str} (h : Printable s) : headerValue r s = some (utf8 s) := by
  rw [headerValue, if_pos]
  have := List.all_eq_true.1 (visible_printable h)
  exact List.all_eq_true.2 fun b hb => by rw [this b hb]; rfl

theorem toStr_printable {s : Str} (h : Printable s) : toStr (utf8 s) = some s := by
  rw [toStr, if_pos (visible_printable h), utf8_printable h, List.map_map]
  congr 1
  refine (List.map_congr_left fun c hc => ?_).trans (List.map_id s)
  have hc := printable_range (h c hc)
  have : (UInt8.ofNat c.toNat).toNat = c.toNat := by rw [UInt8.toNat_ofNat', Nat.mod_eq_of_lt (by omega)]
  simp only [Function.comp_apply, this, id_eq]
  exact Char.ofNat_toNat c

theorem upper_cases {c : Char} (h : isAsciiUpper c = true) : ∃ n, n < 26 ∧ c = Char.ofNat (n + 65) := by
  have h1 : 65 ≤ c.toNat ∧ c.toNat ≤ 90 := by simpa [isAsciiUpper, Char.le_def, UInt32.le_iff_toNat_le] using h
  exact ⟨c.toNat - 65, by omega, by rw [show c.toNat - 65 + 65 = c.toNat by omega]; exact (Char.ofNat_toNat c).symm⟩

theorem nameChar_lower (c : Char) : nameChar (lowerChar c) = nameChar c := by
  cases h : isAsciiUpper c with
  | false => rw [lowerChar, h]; rfl
  | true =>
    obtain ⟨n, hn, rfl⟩ := upper_cases h
    have key : ∀ n, n < 26 → nameChar (lowerChar (Char.ofNat (n + 65))) = nameChar (Char.ofNat (n + 65)) := by decide +kernel
    exact key n hn

theorem validName_lower {k k' : Str} (h : lower k = lower k') (hv : ValidName k) : ValidName k' := by
  have hl : k.length = k'.length := by simpa [lower] using congrArg List.length h
  refine ⟨fun h0 => hv.1 (List.eq_nil_of_length_eq_zero (by rw [hl, h0]; rfl)), hl ▸ hv.2.1, fun c hc => ?_⟩
  have : lowerChar c ∈ lower k := by rw [h]; exact List.mem_map_of_mem hc
  obtain ⟨c', hc', he⟩ := List.mem_map.1 this
  rw [← nameChar_lower, ← he, nameChar_lower]
  exact hv.2.2 c' hc'

theorem lower_lower (k : Str) : lower (lower k) = lower k := by
  unfold lower
  rw [List.map_map]
  refine List.map_congr_left fun c _ => ?_
  simp only [Function.comp_apply]
  cases h : isAsciiUpper c with
  | false =>
    have : lowerChar c = c := by rw [lowerChar, h]; rfl
    rw [this, this]
  | true =>
    obtain ⟨n, hn, rfl⟩ := upper_cases h
    have key : ∀ n, n < 26 → lowerChar (lowerChar (Char.ofNat (n + 65))) = lowerChar (Char.ofNat (n + 65)) := by decide +kernel
    exact key n hn

theorem validName_of {k n : Str} (h : headerName k = some n) : ValidName k ∧ n = lower k := by
  unfold headerName at h
  split at h
  · rename_i hc
    exact ⟨⟨hc.1, hc.2.1, List.all_eq_true.1 hc.2.2⟩, (Option.some.inj h).symm⟩
  · simp at h

theorem first_filter {n n' : Str} (h : n' ≠ n) (m : HeaderMap) : first n' (m.filter fun e => e.1 ≠ n) = first n' m := by
  induction m with
  | nil => rfl
  | cons e m ih =>
    obtain ⟨a, b⟩ := e
    rw [List.filter_cons]
    by_cases ha : a = n
    · subst ha
      simp only [ne_eq, not_true_eq_false, decide_false, Bool.false_eq_true, if_false, first, ih]
      rw [if_neg h.symm]
    · simp only [ne_eq, ha, not_false_eq_true, decide_true, if_true, first, ih]

theorem get_set_self (r : Rules) (m : HeaderMap) {k k' v : Str} (hn : ValidName k) (hv : Printable v) (h : lower k' = lower k) :
    get (set r m k v) k' = some v := by
  rw [set, headerName_some hn, headerValue_some r hv]
  simp only
  rw [get, headerName_some (validName_lower h.symm hn), h]
  simp only [insert, first, if_true, Option.bind_some]
  exact toStr_printable hv

theorem get_set_ne (r : Rules) (m : HeaderMap) {k k' v : Str} (h : lower k' ≠ lower k) : get (set r m k v) k' = get m k' := by
  unfold set
  cases hn : headerName k with
  | none => rfl
  | some n =>
    obtain ⟨_, rfl⟩ := validName_of hn
    cases headerValue r v with
    | none => rfl
    | some v =>
      unfold get
      cases hk : headerName k' with
      | none => rfl
      | some n' =>
        obtain ⟨_, rfl⟩ := validName_of hk
        simp only [insert, first]
        rw [if_neg h.symm, first_filter h]

theorem lookup_asCarrier (m : HeaderMap) (n : Str) : TraceState.lookup n (asCarrier m) = (first n m).bind toStr := by
  induction m with
  | nil => rfl
  | cons e m ih =>
    obtain ⟨a, v⟩ := e
    by_cases ha : a = n
    · subst ha
      simp only [asCarrier, first, if_true, Option.bind_some]
      cases toStr v with
      | some s => simp [TraceState.lookup]
      | none =>
        simp only [Option.map_none, Option.toList_none, List.nil_append]
        generalize asCarrier m = c
        induction c with
        | nil => rfl
        | cons e c ih =>
          rw [List.filter_cons]
          by_cases he : e.1 = a
          · simpa [he] using ih
          · simp only [ne_eq, he, not_false_eq_true, decide_true, if_true]
            rw [TraceState.lookup, if_neg he]; exact ih
    · simp only [asCarrier, first]
      rw [if_neg ha, ← ih]
      cases toStr v with
      | some s =>
        simp only [Option.map_some, Option.toList_some, List.cons_append, List.nil_append, TraceState.lookup]
        rw [if_neg ha]; exact lookup_filter_ne (Ne.symm ha) _
      | none => exact lookup_filter_ne (Ne.symm ha) _

theorem get_asCarrier {m : HeaderMap} (h : WF m) : (asCarrier m).toExtractor.get = get m := by
  funext k
  show TraceState.lookup (lower k) (asCarrier m) = get m k
  rw [lookup_asCarrier, get]
  cases hk : headerName k with
  | some n => obtain ⟨_, rfl⟩ := validName_of hk; rfl
  | none =>
    cases hf : first (lower k) m with
    | none => rfl
    | some v =>
      exfalso
      have : ∃ e ∈ m, e.1 = lower k := by
        clear h hk
        induction m with
        | nil => simp [first] at hf
        | cons e m ih =>
          obtain ⟨a, b⟩ := e
          by_cases ha : a = lower k
          · exact ⟨_, List.mem_cons_self .., ha⟩
          · rw [first, if_neg ha] at hf
            obtain ⟨e, he, h⟩ := ih hf
            exact ⟨e, List.mem_cons_of_mem _ he, h⟩
      obtain ⟨e, he, hl⟩ := this
      have hv := (validName_of (h e he)).1
      rw [hl] at hv
      rw [headerName_some (validName_lower (lower_lower k) hv)] at hk
      simp at hk

/-! ## C85 -/

/-- C85. After any `set` calls with valid names and printable values, in any order and number, a look-up in the headers, in any case of letters, finds the
last value set under the name, or else what the headers said before. -/
theorem http_get_setAll (r : Rules) (m : HeaderMap) (sets : List (Str × Str)) (h : ∀ kv ∈ sets, ValidName kv.1 ∧ Printable kv.2) (k : Str) :
    (toExtractor (setAll r m sets)).get k = (lastSet (lower k) sets).or ((toExtractor m).get k) := by
  show get (setAll r m sets) k = (lastSet (lower k) sets).or (get m k)
  induction sets generalizing m with
  | nil => rfl
  | cons e s ih =>
    have happ : lastSet (lower k) (e :: s) = (lastSet (lower k) s).or (lastSet (lower k) [e]) := lastSet_append (lower k) [e] s
    rw [show setAll r m (e :: s) = setAll r (set r m e.1 e.2) s from rfl, ih _ fun x hx => h x (List.mem_cons_of_mem _ hx), happ, Option.or_assoc]
    congr 1
    have he := h e (List.mem_cons_self ..)
    by_cases hk : lower e.1 = lower k
    · rw [get_set_self r m he.1 he.2 hk.symm]
      simp [lastSet, hk]
    · rw [get_set_ne r m (Ne.symm hk)]
      simp [lastSet, hk]

/-- C85. For every propagator that looks up by name, every context to inject and to extract into, and all headers of a request: if the injected names
and values are valid, propagation through HTTP headers is the same as propagation through a string map that says what the headers say. -/
theorem http_as_map {B U} (p : Propagator B U) (hp : ByName p) (r : Rules) (m : HeaderMap) (hm : WF m) (cx base : Cx B U)
    (h : ∀ kv ∈ p.inject cx, ValidName kv.1 ∧ Printable kv.2) :
    p.extract base (toExtractor (setAll r m (p.inject cx))) = p.extract base ((asCarrier m).setAll (p.inject cx)).toExtractor := by
  apply hp
  funext k
  rw [http_get_setAll r m _ h, get_setAll, get_asCarrier hm]
  rfl

theorem w3c_byName (B U) : ByName (W3C.propagator B U) := by
  intro cx ex ex' h
  obtain ⟨g, ks⟩ := ex
  obtain ⟨g', ks'⟩ := ex'
  simp only at h; subst h; rfl

theorem baggage_byName (U) (order : Bag.Order) : ByName (Bag.propagator (U := U) order) := by
  intro cx ex ex' h
  obtain ⟨g, ks⟩ := ex
  obtain ⟨g', ks'⟩ := ex'
  simp only at h; subst h; rfl

theorem b3_byName (B U) (enc : B3.Encoding) : ByName (B3.propagator B U enc) := by
  intro cx ex ex' h
  obtain ⟨g, ks⟩ := ex
  obtain ⟨g', ks'⟩ := ex'
  simp only at h; subst h; rfl

theorem printable_append {a b : Str} (ha : Printable a) (hb : Printable b) : Printable (a ++ b) := fun c hc =>
  (List.mem_append.1 hc).elim (ha c) (hb c)

theorem printable_hex (w n : Nat) : Printable (fmtHex w n) := by
  intro c hc
  have := fmtHex_lower w n c hc
  right
  simp only [isLowerHex, isAsciiDigit, Bool.or_eq_true, Bool.and_eq_true, decide_eq_true_eq, Char.le_def, UInt32.le_iff_toNat_le] at this ⊢
  have e0 : ('0' : Char).val.toNat = 48 := rfl
  have e9 : ('9' : Char).val.toNat = 57 := rfl
  have ea : ('a' : Char).val.toNat = 97 := rfl
  have ef : ('f' : Char).val.toNat = 102 := rfl
  have es : (' ' : Char).val.toNat = 32 := rfl
  have et : ('~' : Char).val.toNat = 126 := rfl
  omega

theorem valid_traceparent : ValidName W3C.traceparentHeader := ⟨by decide, by decide, by decide⟩
theorem valid_tracestate : ValidName W3C.tracestateHeader := ⟨by decide, by decide, by decide⟩
theorem valid_baggage : ValidName Bag.header := ⟨by decide, by decide, by decide⟩

/-- What the W3C propagator sets are valid headers, if the trace state is printable. -/
theorem w3c_inject_valid {B U} (cx : Cx B U) (hv : (activeSpanContext cx).isValid = true) (hp : Printable (activeSpanContext cx).traceState.header) :
    ∀ kv ∈ W3C.inject cx, ValidName kv.1 ∧ Printable kv.2 := by
  intro kv hkv
  simp only [W3C.inject, hv, if_true, List.mem_cons, List.not_mem_nil, or_false] at hkv
  have dash : Printable ['-'] := by intro c hc; rw [List.mem_singleton] at hc; subst hc; exact .inr (by decide)
  rcases hkv with rfl | rfl
  · refine ⟨valid_traceparent, ?_⟩
    unfold W3C.traceparentValue
    exact printable_append (printable_append (printable_append (printable_append (printable_append (printable_append (printable_hex _ _) dash)
      (printable_hex _ _)) dash) (printable_hex _ _)) dash) (printable_hex _ _)
  · exact ⟨valid_tracestate, hp⟩

/-- C85, W3C trace context. A valid span context whose trace state is printable arrives through HTTP headers, whatever headers the request had: same ids, same
sampled flag, same trace state entries. Missing: other trace states, see `http_tracestate_violated`. -/
theorem w3c_http_roundtrip_partial {B U} (r : Rules) (m : HeaderMap) (hm : WF m) (cx base : Cx B U) (hv : (activeSpanContext cx).isValid = true)
    (hts : TraceState.Built (activeSpanContext cx).traceState) (hp : Printable (activeSpanContext cx).traceState.header) :
    ∃ sc : SpanContext, W3C.extract base (toExtractor (setAll r m (W3C.inject cx))) = base.withSpan sc ∧
      sc.traceId = (activeSpanContext cx).traceId ∧ sc.spanId = (activeSpanContext cx).spanId ∧
      sc.isSampled = (activeSpanContext cx).isSampled ∧ (sc.flags = 0#8 ∨ sc.flags = 1#8) ∧ sc.isRemote = true ∧
      sc.traceState.entries = (activeSpanContext cx).traceState.entries := by
  have h := w3c_inject_valid cx hv hp
  have e := http_as_map (W3C.propagator B U) (w3c_byName B U) r m hm cx base h
  have := W3C.w3c_roundtrip cx base (asCarrier m) hv hts
  exact (show W3C.extract base (toExtractor (setAll r m (W3C.inject cx))) = _ from e) ▸ this

theorem printable_encoded (s : Str) : Printable (pctEncode Bag.fragment s) := by
  intro c hc
  unfold pctEncode at hc
  obtain ⟨b, _, hc⟩ := List.mem_flatMap.1 hc
  have hb := b.toNat_lt
  have key : ∀ n, n < 256 → ∀ c ∈ (if 0x80 ≤ n ∨ Bag.fragment (UInt8.ofNat n) = true then pctByte (UInt8.ofNat n) else [Char.ofNat n]),
      c = '\t' ∨ (' ' ≤ c ∧ c ≤ '~') := by decide +kernel
  have := key b.toNat hb c
  rw [UInt8.ofNat_toNat] at this
  exact this hc

theorem printable_join {ps : List Str} (h : ∀ p ∈ ps, Printable p) : Printable (join [','] ps) := by
  induction ps with
  | nil => intro c hc; simp [join] at hc
  | cons p ps ih =>
    cases ps with
    | nil => simpa [join] using h p (List.mem_cons_self ..)
    | cons q qs =>
      rw [join]
      · refine printable_append (printable_append (h p (List.mem_cons_self ..)) ?_) (ih fun x hx => h x (List.mem_cons_of_mem _ hx))
        intro c hc; rw [List.mem_singleton] at hc; subst hc; exact .inr (by decide)

/-- C85, baggage. Portable baggage (C13) whose metadata are printable arrives through HTTP headers. Missing: other metadata, see
`http_baggage_violated`. -/
theorem baggage_http_roundtrip_partial {U : Nat → Type} (r : Rules) (m : HeaderMap) (hm : WF m) (ops : List Baggage.Op) (order : Bag.Order)
    (horder : ∀ es, (order es).Perm es) (hne : (Baggage.run ops).inner ≠ []) (hp : ∀ e ∈ (Baggage.run ops).inner, Bag.Portable e)
    (hi : ∀ e ∈ (Baggage.run ops).inner, Printable e.info) (cx cx' : Cx Baggage.Bag U) (hcx : Bag.baggageOf cx = Baggage.run ops) :
    (∀ k, (Bag.baggageOf (Bag.extract cx' (toExtractor (setAll r m (Bag.inject order cx))))).get k = (Baggage.run ops).get k) ∧
    (Bag.baggageOf (Bag.extract cx' (toExtractor (setAll r m (Bag.inject order cx))))).inner.length = (Baggage.run ops).inner.length ∧
    (Bag.extract cx' (toExtractor (setAll r m (Bag.inject order cx)))).span = cx'.span := by
  have h : ∀ kv ∈ Bag.inject order cx, ValidName kv.1 ∧ Printable kv.2 := by
    intro kv hkv
    unfold Bag.inject at hkv
    simp only [hcx] at hkv
    rw [if_neg (by simpa using hne), List.mem_singleton] at hkv
    subst hkv
    refine ⟨valid_baggage, printable_join fun p hp' => ?_⟩
    obtain ⟨e, he, rfl⟩ := List.mem_map.1 hp'
    have he := (horder _).mem_iff.1 he
    unfold Bag.member
    have one : ∀ c : Char, (c = '\t' ∨ (' ' ≤ c ∧ c ≤ '~')) → Printable [c] := fun c h d hd => by rw [List.mem_singleton] at hd; exact hd ▸ h
    refine printable_append (printable_append (printable_append (printable_append (printable_encoded _) (one _ (.inr (by decide)))) (printable_encoded _)) ?_) ?_
    · split
      · intro c hc; simp at hc
      · exact one _ (.inr (by decide))
    · rw [(hp e he).infoTrim]; exact hi e he
  have e := http_as_map (Bag.propagator (U := U) order) (baggage_byName U order) r m hm cx cx' h
  have := Bag.baggage_roundtrip_partial ops order horder hne hp cx cx' hcx (asCarrier m)
  exact (show Bag.extract cx' (toExtractor (setAll r m (Bag.inject order cx))) = _ from e) ▸ this

theorem valid_b3 : ∀ h ∈ B3.allHeaders, ValidName h := by
  have : ∀ h ∈ B3.allHeaders, h ≠ [] ∧ h.length ≤ 65535 ∧ ∀ c ∈ h, nameChar c = true := by decide +kernel
  exact this

/-- What the B3 propagator sets are valid headers. -/
theorem b3_inject_valid {B U} (enc : B3.Encoding) (cx : Cx B U) (hv : (activeSpanContext cx).isValid = true) :
    ∀ kv ∈ B3.inject enc cx, ValidName kv.1 ∧ Printable kv.2 := by
  have one : ∀ c : Char, (c = '\t' ∨ (' ' ≤ c ∧ c ≤ '~')) → Printable [c] := fun c h d hd => by rw [List.mem_singleton] at hd; exact hd ▸ h
  have p1 : Printable "1".toList := one '1' (.inr (by decide))
  have p0 : Printable "0".toList := one '0' (.inr (by decide))
  have pd : Printable "d".toList := one 'd' (.inr (by decide))
  have pn : Printable [] := fun c hc => by simp at hc
  have dash : Printable ['-'] := one '-' (.inr (by decide))
  have hname : ∀ {k : Str}, k ∈ B3.allHeaders → ValidName k := fun h => valid_b3 _ h
  intro kv hkv
  unfold B3.inject at hkv
  simp only [hv, if_true, List.mem_append] at hkv
  rcases hkv with hkv | hkv
  · split at hkv
    · rw [List.mem_singleton] at hkv
      subst hkv
      refine ⟨hname (by dsimp only; decide), ?_⟩
      unfold B3.singleValue
      refine printable_append (printable_append (printable_append (printable_hex _ _) dash) (printable_hex _ _)) ?_
      split
      · exact pn
      · refine printable_append dash ?_
        split
        · exact pd
        · split
          · exact p1
          · exact p0
    · simp at hkv
  · split at hkv
    · unfold B3.multiSets at hkv
      simp only [List.mem_append, List.mem_cons, List.not_mem_nil, or_false] at hkv
      rcases hkv with (rfl | rfl) | hkv
      · exact ⟨hname (by dsimp only; decide), printable_hex _ _⟩
      · exact ⟨hname (by dsimp only; decide), printable_hex _ _⟩
      · split at hkv
        · rw [List.mem_singleton] at hkv; subst hkv; exact ⟨hname (by dsimp only; decide), p1⟩
        · split at hkv
          · simp at hkv
          · rw [List.mem_singleton] at hkv; subst hkv
            refine ⟨hname (by dsimp only; decide), ?_⟩
            show Printable (if _ then _ else _)
            split
            · exact p1
            · exact p0
    · simp at hkv

/-- C85, B3. A valid span context arrives through the HTTP headers of a request that had no B3 headers, with every encoding (C15). -/
theorem b3_http_roundtrip_partial {B U} (r : Rules) (m : HeaderMap) (hm : WF m) (enc : B3.Encoding) (cx base : Cx B U)
    (hc : ∀ h ∈ B3.allHeaders, (toExtractor m).get h = none) (hv : (activeSpanContext cx).isValid = true)
    (hf : B3.Carries enc (activeSpanContext cx).flags) :
    ∃ sc : SpanContext, B3.extract enc base (toExtractor (setAll r m (B3.inject enc cx))) = base.withSpan sc ∧
      sc.traceId = (activeSpanContext cx).traceId ∧ sc.spanId = (activeSpanContext cx).spanId ∧ sc.isRemote = true ∧
      B3.samplingOf sc.flags = B3.samplingOf (activeSpanContext cx).flags := by
  have h := b3_inject_valid enc cx hv
  have e := http_as_map (B3.propagator B U enc) (b3_byName B U enc) r m hm cx base h
  have := B3.b3_roundtrip_partial enc cx base (asCarrier m) (fun h hh => by rw [get_asCarrier hm]; exact hc h hh) hv hf
  exact (show B3.extract enc base (toExtractor (setAll r m (B3.inject enc cx))) = _ from e) ▸ this

/-! ## Cases, and what goes wrong -/

/-- A request that has headers already: two values of one name, and one that is not text. -/
def someHeaders : HeaderMap :=
  [("tracestate".toList, utf8 "old=1".toList), ("tracestate".toList, utf8 "older=1".toList), ("x".toList, [0xff])]

/-- A context with this trace state entry. -/
def stateCx (v : Str) : Cx Unit (fun _ => Unit) := Ctx.Context.new.withSpan ⟨3#128, 5#64, 1#8, false, ⟨some [("a".toList, v)]⟩⟩

theorem someHeaders_wf : WF someHeaders := by unfold WF; decide +kernel

/-- The hypotheses of the theorems about trace context are met. -/
example : WF someHeaders ∧ (activeSpanContext (stateCx "b".toList)).isValid = true ∧ TraceState.Built (activeSpanContext (stateCx "b".toList)).traceState ∧
    Printable (activeSpanContext (stateCx "b".toList)).traceState.header :=
  ⟨someHeaders_wf, by decide +kernel, .fromKeyValue (l := [("a".toList, "b".toList)]) (by decide), by unfold Printable; decide +kernel⟩

/-- Those of the theorem about baggage: escaped values, printable metadata. -/
example : ∀ e ∈ (Baggage.run [.insert "user".toList "ü".toList "p;q=1".toList]).inner, Printable e.info := by unfold Printable; decide +kernel

/-- Those of the theorem about B3. -/
example : ∀ h ∈ B3.allHeaders, (toExtractor someHeaders).get h = none := by decide +kernel

/-- C85, against the property: the trace state `a` = `x⏎y`, which the API accepts, is no header value. It is dropped without an error, and the receiver gets the
new ids with the trace state that the request's headers held before, the state of another trace. -/
theorem http_tracestate_violated (r : Rules) : ∃ (cx base : Cx Unit (fun _ => Unit)) (sc : SpanContext),
    TraceState.Built (activeSpanContext cx).traceState ∧ W3C.extract base (toExtractor (setAll r someHeaders (W3C.inject cx))) = base.withSpan sc ∧
    sc.traceId = (activeSpanContext cx).traceId ∧ (activeSpanContext cx).traceState.entries = [("a".toList, "x\ny".toList)] ∧
    sc.traceState.entries = [("old".toList, "1".toList)] := by
  refine ⟨stateCx "x\ny".toList, Ctx.Context.new, ⟨3#128, 5#64, 1#8, true, ⟨some [("old".toList, "1".toList)]⟩⟩,
    .fromKeyValue (l := [("a".toList, "x\ny".toList)]) (by decide), ?_, rfl, rfl, rfl⟩
  have h : ∀ b, W3C.extractSpanContext (toExtractor (setAll ⟨b⟩ someHeaders (W3C.inject (stateCx "x\ny".toList)))) =
      some ⟨3#128, 5#64, 1#8, true, ⟨some [("old".toList, "1".toList)]⟩⟩ := by decide +kernel
  rw [W3C.extract, h r.opaqueBytes]

/-- C85, against the property: one entry with metadata that are not ASCII makes the whole baggage unreadable for the receiver: either the header is not
set, or it is set and not read. -/
theorem http_baggage_violated (r : Rules) : ∃ (ops : List Baggage.Op) (cx : Cx Baggage.Bag (fun _ => Unit)),
    Bag.baggageOf cx = Baggage.run ops ∧ (Baggage.run ops).inner.length = 2 ∧
    (Bag.baggageOf (Bag.extract (Ctx.Context.new : Cx Baggage.Bag (fun _ => Unit)) (toExtractor (setAll r [] (Bag.inject id cx))))).inner = [] := by
  refine ⟨[.insert "a".toList "1".toList [], .insert "b".toList "2".toList "ü".toList],
    Ctx.Context.new.withBaggage (Baggage.run [.insert "a".toList "1".toList [], .insert "b".toList "2".toList "ü".toList]), rfl, by decide, ?_⟩
  have h : ∀ b, (toExtractor (setAll ⟨b⟩ [] (Bag.inject id ((Ctx.Context.new : Cx Baggage.Bag (fun _ => Unit)).withBaggage
      (Baggage.run [.insert "a".toList "1".toList [], .insert "b".toList "2".toList "ü".toList]))))).get Bag.header = none := by decide +kernel
  rw [Bag.extract, h r.opaqueBytes]
  rfl

end Otel.Prop.Http
