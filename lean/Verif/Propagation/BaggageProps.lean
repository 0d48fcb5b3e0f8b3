import Verif.Propagation.Baggage
import Verif.Baggage.Props
import Mathlib.Data.List.Nodup
/-! # Property theorems: baggage propagation (C13) -/

namespace Otel.Prop.Bag
open Rust Otel.Baggage

/-! ## Specification -/

/-- The entries the header can carry: neither key nor value contains `%` followed by two hexadecimal digits, the value has no
surrounding white space, and the metadata has no `,`, no such escape, and white space neither around it nor around any of its
`;`-separated properties. -/
structure Portable (e : Entry) : Prop where
  key : noEscape e.key = true
  value : noEscape e.value = true
  valueTrim : trim e.value = e.value
  info : noEscape e.info = true
  infoComma : ',' ∉ e.info
  infoTrim : trim e.info = e.info
  props : ∀ p ∈ split ';' e.info, trim p = p

/-! ## Lemmas -/

theorem fragment_not_mem {s : Str} {c : Char} (hc : c = ',' ∨ c = ';' ∨ c = '=') : c ∉ pctEncode fragment s := by
  intro h
  rcases mem_pctEncode h with h | h | h
  · subst h; revert hc; decide
  · rcases hc with rfl | rfl | rfl <;> revert h <;> decide
  · rcases hc with rfl | rfl | rfl <;> exact absurd h.2 (by decide)

theorem isWhitespace_of_graphic {c : Char} (h1 : 0x21 ≤ c.toNat) (h2 : c.toNat ≤ 0x7e) : isWhitespace c = false := by
  cases hc : isWhitespace c
  · rfl
  · exfalso
    simp [isWhitespace] at hc
    omega

theorem trim_token {k : Str} (h : Token k) : trim k = k := by
  apply trim_of_ends
  · intro c hc
    have := h.2 c (List.mem_of_mem_head? hc)
    exact isWhitespace_of_graphic this.1 this.2.1
  · intro c hc
    have := h.2 c (List.mem_of_getLast? hc)
    exact isWhitespace_of_graphic this.1 this.2.1

theorem hex2_append {a b : Str} (h : hex2 a = true) : hex2 (a ++ b) = true := by
  match a, h with
  | _ :: _ :: _, h => simpa [hex2] using h

theorem noEscape_append {a b : Str} (h : noEscape (a ++ b) = true) : noEscape a = true ∧ noEscape b = true := by
  induction a with
  | nil => exact ⟨rfl, h⟩
  | cons c a ih =>
    simp only [List.cons_append, noEscape, Bool.and_eq_true] at h
    have := ih h.2
    refine ⟨?_, this.2⟩
    simp only [noEscape, Bool.and_eq_true, this.1, and_true]
    have h1 := h.1
    cases hh : hex2 a
    · simp
    · rw [hex2_append hh] at h1; exact h1

theorem noEscape_join {sep : Str} {ps : List Str} (h : noEscape (join sep ps) = true) : ∀ p ∈ ps, noEscape p = true := by
  induction ps with
  | nil => simp
  | cons a ps ih =>
    match ps, ih with
    | [], _ => intro p hp; simp only [List.mem_singleton] at hp; subst hp; exact h
    | b :: r, ih =>
      rw [join_cons_cons] at h
      have h1 := noEscape_append h
      intro p hp
      rcases List.mem_cons.1 hp with rfl | hp
      · exact (noEscape_append h1.1).1
      · exact ih h1.2 p hp

theorem decodeProps_split {m : Str} (h : noEscape m = true) (ht : ∀ p ∈ split ';' m, trim p = p) :
    decodeProps (split ';' m) = m := by
  have hall : ∀ p ∈ split ';' m, noEscape p = true := noEscape_join (sep := [';']) (by rw [join_split]; exact h)
  have h1 : ∀ ps : List Str, (∀ p ∈ ps, noEscape p = true) → (∀ p ∈ ps, trim p = p) → (ps.filterMap pctDecode).map trim = ps := by
    intro ps ha hb
    induction ps with
    | nil => rfl
    | cons p ps ih =>
      rw [List.filterMap_cons, pctDecode_raw (ha p (by simp))]
      simp only [List.map_cons]
      rw [hb p (by simp), ih (fun q hq => ha q (by simp [hq])) (fun q hq => hb q (by simp [hq]))]
  unfold decodeProps
  rw [h1 _ hall ht, join_split]

theorem not_mem_member_comma {e : Entry} (h : Portable e) : ',' ∉ member e := by
  unfold member
  simp only [h.infoTrim]
  have h1 := fragment_not_mem (s := trim e.key) (c := ',') (Or.inl rfl)
  have h2 := fragment_not_mem (s := trim e.value) (c := ',') (Or.inl rfl)
  simp only [List.mem_append, not_or]
  refine ⟨⟨⟨⟨h1, by decide⟩, h2⟩, ?_⟩, h.infoComma⟩
  split <;> decide

theorem parseMember_member {e : Entry} (h : Portable e) (hk : Token e.key) : parseMember (member e) = some e := by
  have k1 := fragment_not_mem (s := e.key) (c := ';') (Or.inr (Or.inl rfl))
  have v1 := fragment_not_mem (s := e.value) (c := ';') (Or.inr (Or.inl rfl))
  have k2 := fragment_not_mem (s := e.key) (c := '=') (Or.inr (Or.inr rfl))
  have v2 := fragment_not_mem (s := e.value) (c := '=') (Or.inr (Or.inr rfl))
  have hkt := trim_token hk
  have hnv : ';' ∉ pctEncode fragment e.key ++ ['='] ++ pctEncode fragment e.value := by
    simp only [List.mem_append, not_or]; exact ⟨⟨k1, by decide⟩, v1⟩
  have hsplit2 : split '=' (pctEncode fragment e.key ++ ['='] ++ pctEncode fragment e.value) =
      [pctEncode fragment e.key, pctEncode fragment e.value] := by
    rw [List.append_assoc]
    show split '=' (pctEncode fragment e.key ++ '=' :: pctEncode fragment e.value) = _
    rw [split_append_sep k2, split_eq_self v2]
  have hsplit1 : ∃ props, split ';' (member e) = (pctEncode fragment e.key ++ ['='] ++ pctEncode fragment e.value) :: props ∧
      decodeProps props = e.info := by
    unfold member
    simp only [h.infoTrim, h.valueTrim, hkt]
    by_cases hm : e.info = []
    · refine ⟨[], ?_, by rw [hm]; rfl⟩
      rw [hm]
      simp only [List.isEmpty_nil, if_true, List.append_nil]
      rw [split_eq_self hnv]
    · refine ⟨split ';' e.info, ?_, decodeProps_split h.info h.props⟩
      have : e.info.isEmpty = false := by simpa using hm
      simp only [this, Bool.false_eq_true, if_false]
      rw [List.append_assoc _ [';']]
      exact split_append_sep hnv
  obtain ⟨props, hs, hd⟩ := hsplit1
  unfold parseMember
  rw [hs]
  simp only [hsplit2, pctDecode_pctEncode h.key, pctDecode_pctEncode h.value, hd, metadataFrom, h.infoTrim, h.valueTrim, hkt]

theorem fromIter_self {es : List Entry} (hn : (es.map Entry.key).Nodup) (hk : ∀ e ∈ es, Token e.key) (hc : es.length ≤ 64)
    (hs : totalSize es ≤ 8192) : Bag.fromIter es = ⟨es, totalSize es⟩ := by
  induction es using List.reverseRecOn with
  | nil => rfl
  | append_singleton es e ih =>
    simp only [List.map_append, List.map_cons, List.map_nil, List.nodup_append] at hn
    rw [totalSize_append] at hs
    simp only [List.length_append, List.length_cons, List.length_nil] at hc
    have h1 := ih hn.1 (fun x hx => hk x (by simp [hx])) (by omega) (by omega)
    unfold Bag.fromIter at h1 ⊢
    rw [List.foldl_append, h1]
    simp only [List.foldl_cons, List.foldl_nil]
    have hf : find e.key es = none := find_none.2 (fun x hx => hn.2.2 x.key (List.mem_map_of_mem hx) e.key (by simp))
    have hte : totalSize [e] = bytesSize e.key e.value e.info := by simp [totalSize, bytesSize]
    unfold Bag.insert
    simp only [hf]
    rw [if_neg (by rw [(isKeyValid_iff e.key).2 (hk e (by simp))]; decide), if_neg (by simp only [beq_iff_eq, maxPairs]; omega),
      if_neg (by simp only [maxLen]; omega), totalSize_append, hte]

/-- Lookups do not depend on the order of the entries. -/
theorem find_perm {es es' : List Entry} (hp : es.Perm es') (hn : (es.map Entry.key).Nodup) (k : Str) : find k es = find k es' := by
  have hn' : (es'.map Entry.key).Nodup := (hp.map _).nodup_iff.1 hn
  have huniq : ∀ l : List Entry, (l.map Entry.key).Nodup → ∀ e ∈ l, ∀ e' ∈ l, e.key = e'.key → e = e' := by
    intro l hl e he e' he' hee
    exact List.inj_on_of_nodup_map hl he he' hee
  cases h : find k es with
  | none =>
    symm; rw [find_none] at h ⊢
    intro e he; exact h e (hp.mem_iff.2 he)
  | some e =>
    obtain ⟨hm, hk⟩ := find_some h
    cases h' : find k es' with
    | none => exact absurd hk (find_none.1 h' e (hp.mem_iff.1 hm))
    | some e' =>
      obtain ⟨hm', hk'⟩ := find_some h'
      rw [huniq es hn e hm e' (hp.mem_iff.2 hm') (hk.trans hk'.symm)]

/-- Extraction reads a list of members back, if each is read back, and they fit. -/
theorem extract_members {U : Nat → Type} {mem : Entry → Str} {es : List Entry} (hne : es ≠ []) (hp : ∀ e ∈ es, parseMember (mem e) = some e)
    (hcomma : ∀ e ∈ es, ',' ∉ mem e) (hn : (es.map Entry.key).Nodup) (hk : ∀ e ∈ es, Token e.key) (hc : es.length ≤ 64) (hs : totalSize es ≤ 8192)
    (ex : Extractor) (hget : ex.get header = some (join [','] (es.map mem))) (cx' : Cx Bag U) : extract cx' ex = cx'.withBaggage ⟨es, totalSize es⟩ := by
  have hparse : (split ',' (join [','] (es.map mem))).filterMap parseMember = es := by
    rw [split_join]
    · clear hne hn hk hc hs hget hcomma
      induction es with
      | nil => rfl
      | cons e es ih =>
        rw [List.map_cons, List.filterMap_cons, hp e (by simp)]
        simp only [ih (fun x hx => hp x (by simp [hx]))]
    · simpa using hne
    · intro p hp'
      obtain ⟨e, he, rfl⟩ := List.mem_map.1 hp'
      exact hcomma e he
  unfold extract
  rw [hget]
  simp only
  rw [hparse, fromIter_self hn hk hc hs]

theorem baggageOf_withBaggage {U : Nat → Type} (cx : Cx Bag U) (b : Bag) : baggageOf (cx.withBaggage b) = b := by
  unfold baggageOf
  rcases cx with ⟨_, _ | _, _⟩ <;> rfl

/-! ## C13 -/

/-- **C13, the part that holds.** Any baggage an application can build, all of whose entries are portable, is the same map
after injection into any carrier and extraction there into any context, whatever the iteration order of the hash map; it
replaces the baggage of the context extracted into and changes nothing else of it. Missing: entries that are not portable and
the empty baggage, for which see the theorems below. -/
theorem baggage_roundtrip_partial {U : Nat → Type} (ops : List Op) (order : Order) (horder : ∀ es, (order es).Perm es)
    (hne : (run ops).inner ≠ []) (hp : ∀ e ∈ (run ops).inner, Portable e)
    (cx cx' : Cx Bag U) (hcx : baggageOf cx = run ops) (c : Carrier) :
    (∀ k, (baggageOf (extract cx' (c.setAll (inject order cx)).toExtractor)).get k = (run ops).get k) ∧
    (baggageOf (extract cx' (c.setAll (inject order cx)).toExtractor)).inner.length = (run ops).inner.length ∧
    (extract cx' (c.setAll (inject order cx)).toExtractor).span = cx'.span := by
  have hinv := inv_run ops
  have hb := horder (run ops).inner
  have hinj : inject order cx = [(header, join [','] ((order (run ops).inner).map member))] := by
    unfold inject
    simp only [hcx]
    rw [if_neg (by simpa using hne)]
  have hget : (c.setAll (inject order cx)).toExtractor.get header = some (join [','] ((order (run ops).inner).map member)) := by
    rw [hinj]; exact lookup_set_self c header _
  have hn : ((order (run ops).inner).map Entry.key).Nodup := (hb.map _).nodup_iff.2 hinv.nodup
  have htot : totalSize (order (run ops).inner) = totalSize (run ops).inner := (hb.map _).sum_nat
  have hext : extract cx' (c.setAll (inject order cx)).toExtractor =
      cx'.withBaggage ⟨order (run ops).inner, totalSize (order (run ops).inner)⟩ := by
    refine extract_members ?_ (fun e he => parseMember_member (hp e (hb.mem_iff.1 he)) (hinv.keys e (hb.mem_iff.1 he)))
      (fun e he => not_mem_member_comma (hp e (hb.mem_iff.1 he))) hn (fun e he => hinv.keys e (hb.mem_iff.1 he)) (by rw [hb.length_eq]; exact hinv.count)
      (by rw [htot]; exact Nat.le_trans hinv.size hinv.len) _ hget cx'
    intro h
    rw [h] at hb
    exact hne (List.nil_perm.1 hb)
  have hwb : baggageOf (extract cx' (c.setAll (inject order cx)).toExtractor) = ⟨order (run ops).inner, totalSize (order (run ops).inner)⟩ := by
    rw [hext, baggageOf_withBaggage]
  refine ⟨fun k => ?_, ?_, ?_⟩
  · rw [hwb]
    simp only [Bag.get]
    rw [find_perm hb hn k]
  · rw [hwb]; exact hb.length_eq
  · rw [hext]; rfl

/-- A baggage whose entries are all portable, with characters that need escaping and with metadata. -/
example : ∀ e ∈ (run [.insert "user".toList "a, b=ü;100%".toList "p;q=1".toList, .insert "k".toList [] []]).inner, Portable e := by
  have : (run [.insert "user".toList "a, b=ü;100%".toList "p;q=1".toList, .insert "k".toList [] []]).inner =
    [⟨"user".toList, "a, b=ü;100%".toList, "p;q=1".toList⟩, ⟨"k".toList, [], []⟩] := by decide
  rw [this]
  intro e he
  simp only [List.mem_cons, List.not_mem_nil, or_false] at he
  rcases he with rfl | rfl <;> exact ⟨by decide, by decide, by decide, by decide, by decide, by decide, by decide⟩

/-- The full statement of C13. -/
def RoundTrips : Prop :=
  ∀ (ops : List Op) (cx cx' : Cx Bag (fun _ => Unit)), baggageOf cx = run ops →
    ∀ k, (baggageOf (extract cx' (Carrier.setAll [] (inject id cx)).toExtractor)).get k = (run ops).get k

theorem roundtrip_get {k : Str} (ops : List Op) (h : RoundTrips) :
    (baggageOf (extract (Ctx.Context.new : Cx Bag (fun _ => Unit)) (Carrier.setAll []
      (inject id ((Ctx.Context.new : Cx Bag (fun _ => Unit)).withBaggage (run ops)))).toExtractor)).get k = (run ops).get k :=
  h ops _ _ rfl k

/-- `utf8Decode?` goes through well-founded recursion, so evaluating it needs the theorem about it. -/
theorem fromUtf8_of {bs : List UInt8} (s : Str) (h : utf8 s = bs) : fromUtf8 bs = some s := h ▸ fromUtf8_utf8 s

/-- **C13 is violated** by a value that contains `%` followed by two hexadecimal digits (`%41` comes back as `A`): the
encoder does not escape `%`. -/
theorem percent_value_violated : ¬ RoundTrips := by
  intro h
  have := roundtrip_get (k := ['k']) [.insert ['k'] ['%', '4', '1'] []] h
  have h1 : pctDecode ['%', '4', '1'] = some ['A'] := fromUtf8_of ['A'] (by decide)
  have h2 : pctDecode ['k'] = some ['k'] := pctDecode_raw (by decide)
  have hp : parseMember (member ⟨['k'], ['%', '4', '1'], []⟩) = some ⟨['k'], ['A'], []⟩ := by
    have : member ⟨['k'], ['%', '4', '1'], []⟩ = ['k', '=', '%', '4', '1'] := by decide
    rw [this]
    have s1 : split ';' ['k', '=', '%', '4', '1'] = [['k', '=', '%', '4', '1']] := by decide
    have s2 : split '=' ['k', '=', '%', '4', '1'] = [['k'], ['%', '4', '1']] := by decide
    unfold parseMember
    rw [s1]
    simp only [s2, h1, h2]
    decide
  have hrun : run [.insert ['k'] ['%', '4', '1'] []] = ⟨[⟨['k'], ['%', '4', '1'], []⟩], 4⟩ := by decide
  have hjoin : join [','] [member ⟨['k'], ['%', '4', '1'], []⟩] = member ⟨['k'], ['%', '4', '1'], []⟩ := rfl
  have hsplit : split ',' (member ⟨['k'], ['%', '4', '1'], []⟩) = [member ⟨['k'], ['%', '4', '1'], []⟩] := by decide
  rw [hrun] at this
  have hex : extract (Ctx.Context.new : Cx Bag (fun _ => Unit)) (Carrier.setAll []
      (inject id ((Ctx.Context.new : Cx Bag (fun _ => Unit)).withBaggage ⟨[⟨['k'], ['%', '4', '1'], []⟩], 4⟩))).toExtractor =
      (Ctx.Context.new : Cx Bag (fun _ => Unit)).withBaggage (Bag.fromIter [⟨['k'], ['A'], []⟩]) := by
    have hi : inject id ((Ctx.Context.new : Cx Bag (fun _ => Unit)).withBaggage ⟨[⟨['k'], ['%', '4', '1'], []⟩], 4⟩) =
      [(header, member ⟨['k'], ['%', '4', '1'], []⟩)] := rfl
    rw [hi]
    unfold extract
    rw [show (Carrier.setAll [] [(header, member ⟨['k'], ['%', '4', '1'], []⟩)]).toExtractor.get header =
      some (member ⟨['k'], ['%', '4', '1'], []⟩) from lookup_set_self [] header _]
    simp only [hsplit, List.filterMap_cons, hp, List.filterMap_nil]
  rw [hex] at this
  revert this
  decide

/-- A W3C baggage value may contain `=`; extraction cuts the value at it. -/
theorem value_cut_at_equals {name a b : Str} (hn : noEscape name = true) (ha : noEscape a = true)
    (hs : ';' ∉ name ++ ['='] ++ a ++ ['='] ++ b) (hen : '=' ∉ name) (hea : '=' ∉ a) :
    parseMember (name ++ ['='] ++ a ++ ['='] ++ b) = some ⟨trim name, trim a, []⟩ := by
  have h2 : split '=' (name ++ ['='] ++ a ++ ['='] ++ b) = name :: a :: split '=' b := by
    have : name ++ ['='] ++ a ++ ['='] ++ b = name ++ '=' :: (a ++ '=' :: b) := by simp
    rw [this, split_append_sep hen, split_append_sep hea]
  unfold parseMember
  rw [split_eq_self hs]
  simp only [h2, pctDecode_raw hn, pctDecode_raw ha]
  rfl

example : parseMember "k=a=b".toList = some ⟨['k'], ['a'], []⟩ :=
  value_cut_at_equals (name := ['k']) (a := ['a']) (b := ['b']) (by decide) (by decide) (by decide) (by decide) (by decide)

/-- Injecting an empty baggage writes nothing: the baggage header of an earlier request stays in a reused carrier. -/
theorem empty_baggage_not_injected {U : Nat → Type} (order : Order) (cx : Cx Bag U) (h : (baggageOf cx).inner = [])
    (c : Carrier) : c.setAll (inject order cx) = c := by
  unfold inject; simp [h, Carrier.setAll]

end Otel.Prop.Bag
