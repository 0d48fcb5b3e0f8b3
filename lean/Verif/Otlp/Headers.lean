import Verif.Rust.Percent
import Verif.Rust.NumSpec
/-!
# Header strings of the OTLP exporters (`opentelemetry-otlp/src/exporter/mod.rs`), C56
-/

namespace Otel.Otlp
open Rust

/-- `result.push_str(from_utf8(&chars_to_decode).ok()?)` if there is anything to decode. exporter/mod.rs:323-326 -/
def flush (pending : List UInt8) (result : Str) : Option Str :=
  if pending = [] then some result else (fromUtf8 pending).map (result ++ ·)

/-- The loop of `url_decode`. exporter/mod.rs:312-333 -/
def urlDecodeLoop : Str → List UInt8 → Str → Option Str
  | [], pending, result => flush pending result
  | c :: rest, pending, result =>
    if c = '%' then
      match rest with
      | a :: b :: rest' =>
        match parseHex 8 [a, b] with
        | some n => urlDecodeLoop rest' (pending ++ [UInt8.ofNat n]) result
        | none => none
      | _ => none
    else
      match flush pending result with
      | some result => urlDecodeLoop rest [] (result ++ [c])
      | none => none

/-- `url_decode`. exporter/mod.rs:307-334 -/
def urlDecode (value : Str) : Option Str := urlDecodeLoop value [] []

/-- `parse_header_key_value_string`; if the value cannot be decoded it is taken as it is, untrimmed. exporter/mod.rs:337-347 -/
def parseHeaderKeyValue (s : Str) : Option (Str × Str) :=
  match breakAt '=' s with
  | none => none
  | some (key, rest) =>
    let value := rest.tail
    let kv := (trim key, (urlDecode (trim value)).getD value)
    if kv.1 ≠ [] ∧ kv.2 ≠ [] then some kv else none

/-- `parse_header_string`. exporter/mod.rs:299-304 -/
def parseHeaderString (value : Str) : List (Str × Str) := ((splitTerminator ',' value).map trim).filterMap parseHeaderKeyValue

/-! ## Specification -/

/-- The header string for a list of pairs, as users write it: values percent-encoded, pairs joined by commas. The encoding escapes the bytes of
`set` and all non-ASCII bytes. -/
def headerString (set : UInt8 → Bool) (kvs : List (Str × Str)) : Str :=
  join [','] (kvs.map fun kv => kv.1 ++ '=' :: pctEncode set kv.2)

/-- The encoding escapes what it must: the percent sign, the comma and ASCII white space. -/
def Escapes (set : UInt8 → Bool) : Prop := ∀ b : UInt8, b = 0x25 ∨ b = 0x2C ∨ b = 0x20 ∨ (9 ≤ b.toNat ∧ b.toNat ≤ 13) → set b = true

/-- The text does not begin or end with white space. -/
def Trimmed (s : Str) : Prop := (∀ c, s.head? = some c → isWhitespace c = false) ∧ (∀ c, s.getLast? = some c → isWhitespace c = false)

/-- A key that can be written in a header string. -/
def HeaderKey (k : Str) : Prop := k ≠ [] ∧ ',' ∉ k ∧ '=' ∉ k ∧ Trimmed k

/-! ## Lemmas -/

theorem flush_utf8 (s res : Str) : flush (utf8 s) res = some (res ++ s) := by
  unfold flush
  split
  · rename_i h
    have : s = [] := by
      have h2 := fromUtf8_utf8 s
      rw [h] at h2
      have h3 : fromUtf8 ([] : List UInt8) = some [] := fromUtf8_utf8 []
      rw [h3] at h2
      exact (Option.some.inj h2).symm
    simp [this]
  · simp [fromUtf8_utf8]

theorem loop_char {c : Char} (h : c ≠ '%') (rest : Str) {pending : List UInt8} {res res' : Str} (hf : flush pending res = some res') :
    urlDecodeLoop (c :: rest) pending res = urlDecodeLoop rest [] (res' ++ [c]) := by
  cases rest with
  | nil => simp [urlDecodeLoop, h, hf]
  | cons a rest =>
    cases rest with
    | nil => simp only [urlDecodeLoop, if_neg h, hf]
    | cons b rest => conv => lhs; simp only [urlDecodeLoop, if_neg h, hf]

theorem hexVal_upperHex : ∀ n < 16, hexVal (upperHex n) = some n := by decide

theorem parseHex_pct (b : UInt8) : parseHex 8 [upperHex (b.toNat / 16), upperHex (b.toNat % 16)] = some b.toNat := by
  have hb := b.toNat_lt
  have h1 := hexVal_upperHex (b.toNat / 16) (by omega)
  have h2 := hexVal_upperHex (b.toNat % 16) (by omega)
  have hplus : ∀ n < 16, upperHex n ≠ '+' := by decide
  rw [parseHex, parseUnsigned_of_no_plus (by simp) (by
    intro h; simp only [List.head?_cons, Option.some.injEq] at h; exact hplus _ (by omega) h)]
  simp only [parseDigits, h1, h2]
  rw [if_pos (by omega), if_pos (by omega)]
  congr 1; omega

theorem loop_pctByte (b : UInt8) (rest : Str) (pending : List UInt8) (res : Str) :
    urlDecodeLoop (pctByte b ++ rest) pending res = urlDecodeLoop rest (pending ++ [b]) res := by
  simp only [pctByte, List.cons_append, List.nil_append]
  rw [urlDecodeLoop, if_pos rfl]
  simp only [parseHex_pct, UInt8.ofNat_toNat]

theorem loop_pctBytes (bs : List UInt8) (rest : Str) (pending : List UInt8) (res : Str) :
    urlDecodeLoop (bs.flatMap pctByte ++ rest) pending res = urlDecodeLoop rest (pending ++ bs) res := by
  induction bs generalizing pending with
  | nil => simp
  | cons b bs ih => simp only [List.flatMap_cons, List.append_assoc, loop_pctByte, ih]; simp

theorem pctEncode_cons (set : UInt8 → Bool) (c : Char) (s : Str) :
    pctEncode set (c :: s) = (String.utf8EncodeChar c).flatMap (encByte set) ++ pctEncode set s := by
  show (utf8 (c :: s)).flatMap (encByte set) = _ ++ (utf8 s).flatMap (encByte set)
  rw [utf8_cons, List.flatMap_append]

theorem flatMap_enc_high {set : UInt8 → Bool} {bs : List UInt8} (h : ∀ b ∈ bs, 0x80 ≤ b.toNat) : bs.flatMap (encByte set) = bs.flatMap pctByte := by
  induction bs with
  | nil => rfl
  | cons b bs ih =>
    rw [List.flatMap_cons, List.flatMap_cons, ih fun x hx => h x (List.mem_cons_of_mem _ hx), encByte, if_pos (.inl (h b (List.mem_cons_self ..)))]

theorem loop_encode {set : UInt8 → Bool} (hset : Escapes set) (v s0 res : Str) :
    urlDecodeLoop (pctEncode set v) (utf8 s0) res = some (res ++ s0 ++ v) := by
  induction v generalizing s0 res with
  | nil =>
    have : pctEncode set [] = [] := rfl
    rw [this, urlDecodeLoop, flush_utf8]; simp
  | cons c v ih =>
    rw [pctEncode_cons]
    by_cases hc : c.toNat ≤ 127
    · rw [utf8Char_ascii hc]
      simp only [List.flatMap_cons, List.flatMap_nil, List.append_nil]
      have hn : (UInt8.ofNat c.toNat).toNat = c.toNat := by simp [UInt8.toNat_ofNat']; omega
      by_cases hs : set (UInt8.ofNat c.toNat) = true
      · rw [encByte, if_pos (.inr hs), loop_pctByte]
        have : utf8 s0 ++ [UInt8.ofNat c.toNat] = utf8 (s0 ++ [c]) := by
          rw [utf8_append, utf8_cons, utf8Char_ascii hc]; rfl
        rw [this, ih]; simp
      · rw [encByte, if_neg (by rw [hn]; simp only [not_or]; exact ⟨by omega, hs⟩), hn]
        have hcc : Char.ofNat c.toNat = c := Char.ofNat_toNat c
        rw [hcc]
        have hne : c ≠ '%' := by
          rintro rfl
          exact hs (hset _ (.inl (by decide)))
        rw [List.singleton_append, loop_char hne _ (flush_utf8 s0 res)]
        have hnil : ([] : List UInt8) = utf8 [] := rfl
        rw [hnil, ih]; simp
    · rw [flatMap_enc_high (utf8Char_high (by omega)), loop_pctBytes]
      have : utf8 s0 ++ String.utf8EncodeChar c = utf8 (s0 ++ [c]) := by
        rw [utf8_append, utf8_cons]; simp [utf8]
      rw [this, ih]; simp

theorem loop_raw (v : Str) (h : '%' ∉ v) (res : Str) : urlDecodeLoop v [] res = some (res ++ v) := by
  induction v generalizing res with
  | nil => simp [urlDecodeLoop, flush]
  | cons c v ih =>
    simp only [List.mem_cons, not_or] at h
    rw [loop_char (Ne.symm h.1) _ (res' := res) (by simp [flush]), ih h.2]; simp

theorem encoded_char {set : UInt8 → Bool} (hset : Escapes set) {s : Str} {c : Char} (h : c ∈ pctEncode set s) :
    isWhitespace c = false ∧ c ≠ ',' := by
  have hhex : ∀ d ∈ "0123456789ABCDEF".toList, isWhitespace d = false ∧ d ≠ ',' := by decide
  rcases mem_pctEncode h with rfl | h | ⟨h1, h2⟩
  · decide
  · exact hhex c h
  · have hn : (UInt8.ofNat c.toNat).toNat = c.toNat := by simp [UInt8.toNat_ofNat']; omega
    have hno : ¬ (UInt8.ofNat c.toNat = 0x25 ∨ UInt8.ofNat c.toNat = 0x2C ∨ UInt8.ofNat c.toNat = 0x20 ∨
        (9 ≤ (UInt8.ofNat c.toNat).toNat ∧ (UInt8.ofNat c.toNat).toNat ≤ 13)) := by
      intro hc; rw [hset _ hc] at h2; cases h2
    simp only [not_or, hn] at hno
    obtain ⟨_, hcomma, hsp, hws⟩ := hno
    refine ⟨?_, ?_⟩
    · have h20 : c.toNat ≠ 0x20 := by intro hc; apply hsp; rw [hc]; rfl
      simp only [isWhitespace, Bool.or_eq_false_iff, Bool.and_eq_false_iff, decide_eq_false_iff_not, beq_eq_false_iff_ne]
      omega
    · rintro rfl; exact hcomma (by decide)

theorem trimmed_of_all {s : Str} (h : ∀ c ∈ s, isWhitespace c = false) : Trimmed s :=
  ⟨fun c hc => h c (List.mem_of_head? hc), fun c hc => h c (List.mem_of_getLast? hc)⟩

/-! ## C56 -/

/-- **C56 (decoding).** Decoding a percent-encoded text gives the text. -/
theorem url_decode_encode {set : UInt8 → Bool} (hset : Escapes set) (v : Str) : urlDecode (pctEncode set v) = some v := by
  have := loop_encode hset v [] []
  simp only [List.append_nil, List.nil_append] at this
  exact this

/-- **C56 (decoding).** A text without percent sign is decoded to itself. -/
theorem url_decode_raw {v : Str} (h : '%' ∉ v) : urlDecode v = some v := by
  have := loop_raw v h []
  simp only [List.nil_append] at this
  exact this

theorem parse_pair {k w v : Str} (hk : HeaderKey k) (hne : v ≠ []) (hw : Trimmed w) (hd : urlDecode w = some v) :
    parseHeaderKeyValue (k ++ '=' :: w) = some (k, v) := by
  rw [parseHeaderKeyValue, breakAt_append hk.2.2.1]
  simp only [List.tail_cons, trim_of_ends hk.2.2.2.1 hk.2.2.2.2, trim_of_ends hw.1 hw.2, hd, Option.getD_some]
  rw [if_pos ⟨hk.1, hne⟩]

theorem trimmed_pair {k w : Str} (hk : HeaderKey k) (hw : Trimmed w) : Trimmed (k ++ '=' :: w) := by
  constructor
  · intro c hc
    cases k with
    | nil => exact absurd rfl hk.1
    | cons a k => exact hk.2.2.2.1 c (by simpa using hc)
  · intro c hc
    rw [List.getLast?_append, List.getLast?_cons] at hc
    cases hl : w.getLast? with
    | none => rw [hl] at hc; simp at hc; subst hc; decide
    | some d => rw [hl] at hc; simp at hc; subst hc; exact hw.2 _ hl

/-- **C56.** For every list of pairs with proper keys and values that are not empty, the parser recovers exactly the pairs, in order, from their header
string, for every encoding that escapes the percent sign, the comma and white space. -/
theorem header_string_roundtrip_partial {set : UInt8 → Bool} (hset : Escapes set) {kvs : List (Str × Str)}
    (h : ∀ kv ∈ kvs, HeaderKey kv.1 ∧ kv.2 ≠ []) : parseHeaderString (headerString set kvs) = kvs := by
  by_cases hne : kvs = []
  · subst hne; simp [headerString, parseHeaderString, join, splitTerminator_nil]
  · have henc : ∀ v : Str, Trimmed (pctEncode set v) := fun v => trimmed_of_all fun c hc => (encoded_char hset hc).1
    have hsplit : splitTerminator ',' (headerString set kvs) = kvs.map fun kv => kv.1 ++ '=' :: pctEncode set kv.2 := by
      apply splitTerminator_join
      · simpa using hne
      · intro p hp
        obtain ⟨kv, hkv, rfl⟩ := List.mem_map.1 hp
        simp only [List.mem_append, List.mem_cons, not_or]
        exact ⟨(h kv hkv).1.2.1, by decide, fun hc => (encoded_char hset hc).2 rfl⟩
      · intro hl
        obtain ⟨kv, _, he⟩ := List.mem_map.1 (List.mem_of_getLast? hl)
        simp at he
    rw [parseHeaderString, hsplit, List.map_map, List.filterMap_map]
    have : ∀ l : List (Str × Str), (∀ kv ∈ l, HeaderKey kv.1 ∧ kv.2 ≠ []) →
        l.filterMap (parseHeaderKeyValue ∘ (trim ∘ fun kv => kv.1 ++ '=' :: pctEncode set kv.2)) = l := by
      intro l
      induction l with
      | nil => intro _; rfl
      | cons kv l ih =>
        intro hl
        obtain ⟨h1, h2⟩ := hl kv (List.mem_cons_self ..)
        have ht := trimmed_pair h1 (henc kv.2)
        rw [List.filterMap_cons]
        simp only [Function.comp, trim_of_ends ht.1 ht.2, parse_pair h1 h2 (henc kv.2) (url_decode_encode hset kv.2)]
        congr 1
        exact ih fun x hx => hl x (List.mem_cons_of_mem _ hx)
    exact this kvs h

/-- An encoding that escapes everything but letters and digits. -/
def escapeMost (b : UInt8) : Bool := !((0x30 ≤ b.toNat && b.toNat ≤ 0x39) || (0x41 ≤ b.toNat && b.toNat ≤ 0x5A) || (0x61 ≤ b.toNat && b.toNat ≤ 0x7A))

example : Escapes escapeMost ∧
    (∀ kv ∈ [("k".toList, "a, b=é%41".toList), ("x-y".toList, "1".toList)], HeaderKey kv.1 ∧ kv.2 ≠ []) := by
  refine ⟨?_, ?_⟩
  · rintro b (rfl | rfl | rfl | ⟨h1, h2⟩)
    · decide
    · decide
    · decide
    · simp only [escapeMost, Bool.not_eq_true', Bool.or_eq_false_iff, Bool.and_eq_false_iff, decide_eq_false_iff_not]
      omega
  · intro kv h
    simp only [List.mem_cons, List.not_mem_nil, or_false] at h
    rcases h with rfl | rfl <;> exact ⟨⟨by decide, by decide, by decide, by constructor <;> (intro c hc; simp at hc; subst hc; decide)⟩, by decide⟩

/-- **C56 (unescaped values).** Values without percent sign and comma that do not begin or end with white space may be written as they are. -/
theorem header_string_raw {kvs : List (Str × Str)} (h : ∀ kv ∈ kvs, HeaderKey kv.1 ∧ kv.2 ≠ [] ∧ '%' ∉ kv.2 ∧ ',' ∉ kv.2 ∧ Trimmed kv.2) :
    parseHeaderString (join [','] (kvs.map fun kv => kv.1 ++ '=' :: kv.2)) = kvs := by
  by_cases hne : kvs = []
  · subst hne; simp [parseHeaderString, join, splitTerminator_nil]
  · have hsplit : splitTerminator ',' (join [','] (kvs.map fun kv => kv.1 ++ '=' :: kv.2)) = kvs.map fun kv => kv.1 ++ '=' :: kv.2 := by
      apply splitTerminator_join
      · simpa using hne
      · intro p hp
        obtain ⟨kv, hkv, rfl⟩ := List.mem_map.1 hp
        simp only [List.mem_append, List.mem_cons, not_or]
        exact ⟨(h kv hkv).1.2.1, by decide, (h kv hkv).2.2.2.1⟩
      · intro hl
        obtain ⟨kv, _, he⟩ := List.mem_map.1 (List.mem_of_getLast? hl)
        simp at he
    rw [parseHeaderString, hsplit, List.map_map, List.filterMap_map]
    have : ∀ l : List (Str × Str), (∀ kv ∈ l, HeaderKey kv.1 ∧ kv.2 ≠ [] ∧ '%' ∉ kv.2 ∧ ',' ∉ kv.2 ∧ Trimmed kv.2) →
        l.filterMap (parseHeaderKeyValue ∘ (trim ∘ fun kv => kv.1 ++ '=' :: kv.2)) = l := by
      intro l
      induction l with
      | nil => intro _; rfl
      | cons kv l ih =>
        intro hl
        obtain ⟨h1, h2, h3, _, h5⟩ := hl kv (List.mem_cons_self ..)
        have ht := trimmed_pair h1 h5
        rw [List.filterMap_cons]
        simp only [Function.comp, trim_of_ends ht.1 ht.2, parse_pair h1 h2 h5 (url_decode_raw h3)]
        congr 1
        exact ih fun x hx => hl x (List.mem_cons_of_mem _ hx)
    exact this kvs h

/-- **C56.** Every pair the parser returns has a key and a value that are not empty, and the key is trimmed and has no `=` or `,`. -/
theorem header_pairs_proper (s : Str) : ∀ kv ∈ parseHeaderString s, kv.1 ≠ [] ∧ kv.2 ≠ [] ∧ '=' ∉ kv.1 := by
  intro kv h
  simp only [parseHeaderString, List.mem_filterMap] at h
  obtain ⟨p, _, hp⟩ := h
  unfold parseHeaderKeyValue at hp
  cases hb : breakAt '=' p with
  | none => rw [hb] at hp; cases hp
  | some ab =>
    obtain ⟨a, b⟩ := ab
    rw [hb] at hp
    simp only at hp
    split at hp
    · rename_i hc
      cases hp
      refine ⟨hc.1, hc.2, ?_⟩
      intro hm
      have hsub : ∀ (s : Str) (c : Char), c ∈ trim s → c ∈ s := by
        intro s c hc
        simp only [trim, trimEnd, trimStart, List.mem_reverse] at hc
        have h1 := (List.dropWhile_sublist (p := isWhitespace)).subset hc
        simp only [List.mem_reverse] at h1
        exact (List.dropWhile_sublist (p := isWhitespace)).subset h1
      exact (breakAt_some hb).1 (hsub _ _ hm)
    · cases hp

/-- **C56, violated.** A pair with an empty value is dropped. -/
theorem empty_value_violated : parseHeaderString (headerString escapeMost [("k".toList, [])]) = [] := by decide +kernel

/-- **C56, violated.** What is not percent-encoded text is accepted: `%+5` is decoded as the byte 5. -/
theorem sign_violated : urlDecode "%+5".toList = some [Char.ofNat 5] := by decide +kernel

/-- **C56, violated.** A value that cannot be decoded is kept as it is, with the white space that would otherwise be trimmed. -/
theorem untrimmed_violated : parseHeaderString "k= v%zz".toList = [("k".toList, " v%zz".toList)] ∧
    parseHeaderString "k= v".toList = [("k".toList, "v".toList)] := by decide +kernel

end Otel.Otlp
