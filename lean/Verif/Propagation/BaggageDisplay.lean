import Verif.Propagation.BaggageProps
/-!
# The text of a baggage (C107)

`Display` of `Baggage` (`opentelemetry/src/baggage.rs`) has its own encoding. What a receiver makes of the text as the value of the header.
-/

namespace Otel.Prop.Bag
open Rust Otel.Baggage

/-- The bytes that `encode` writes as they are: `a`-`z`, `A`-`Z`, `0`-`9`, `.`, `-`, `_` and `~`. baggage.rs:307-309 -/
def unreserved (b : UInt8) : Bool :=
  (97 ≤ b.toNat && b.toNat ≤ 122) || (65 ≤ b.toNat && b.toNat ≤ 90) || (48 ≤ b.toNat && b.toNat ≤ 57) || b.toNat == 46 || b.toNat == 45 || b.toNat == 95 || b.toNat == 126

/-- `encode`: a space is `%20`, other bytes `%XX` in upper case. baggage.rs:303-316 -/
def encode (s : Str) : Str :=
  (utf8 s).flatMap fun b => if unreserved b then [Char.ofNat b.toNat] else if b.toNat == 0x20 then "%20".toList else pctByte b

/-- One entry: key, `=`, the encoded value, and `;` with the metadata if there are any. baggage.rs:321-324 -/
def displayEntry (e : Entry) : Str := e.key ++ ['='] ++ encode e.value ++ (if !e.info.isEmpty then [';'] ++ e.info else [])

/-- The loop over the entries with their numbers: a comma after all but the last. baggage.rs:320-329 -/
def displayLoop (len : Nat) : Nat → List Entry → Str
  | _, [] => []
  | i, e :: es => displayEntry e ++ (if i < len - 1 then [','] else []) ++ displayLoop len (i + 1) es

/-- `Display` of a baggage; `order` is the iteration order of the hash map. baggage.rs:318-333 -/
def display (order : Order) (b : Bag) : Str := displayLoop b.inner.length 0 (order b.inner)

/-! ## Specification -/

/-- The entries whose text is read back: the key has no `%XX`, the value no white space around it, and the metadata are as for the propagator (C13). -/
structure Readable (e : Entry) : Prop where
  key : noEscape e.key = true
  valueTrim : trim e.value = e.value
  info : noEscape e.info = true
  infoComma : ',' ∉ e.info
  infoTrim : trim e.info = e.info
  props : ∀ p ∈ split ';' e.info, trim p = p

/-! ## Lemmas -/

theorem displayLoop_join (es : List Entry) (i : Nat) : displayLoop (i + es.length) i es = join [','] (es.map displayEntry) := by
  induction es generalizing i with
  | nil => rfl
  | cons e es ih =>
    have h := ih (i + 1)
    rw [show i + 1 + es.length = i + (e :: es).length by simp; omega] at h
    rw [displayLoop, h]
    cases es with
    | nil => simp [join]
    | cons e' es =>
      rw [if_pos (by simp)]
      simp [join]

theorem utf8_unreserved : ∀ n < 256, unreserved (UInt8.ofNat n) = true → n < 128 ∧ n ≠ 0x25 := by decide +kernel

/-- Escapes are decoded, other bytes are no `%`. -/
theorem decode_encode_bytes (bs : List UInt8) :
    pctDecodeBytes (utf8 (bs.flatMap fun b => if unreserved b then [Char.ofNat b.toNat] else if b.toNat == 0x20 then "%20".toList else pctByte b)) = bs := by
  induction bs with
  | nil => rfl
  | cons b bs ih =>
    rw [List.flatMap_cons, utf8_append]
    by_cases hu : unreserved b = true
    · rw [if_pos hu]
      have h := utf8_unreserved b.toNat b.toNat_lt (by rw [UInt8.ofNat_toNat]; exact hu)
      rw [utf8_raw_byte (by omega), List.singleton_append, pctDecodeBytes_cons, ih]
      have hb : (b == 0x25) = false := by
        rw [beq_eq_false_iff_ne]
        intro hb
        exact h.2 (by rw [hb]; rfl)
      rw [hb]; rfl
    · have hsp : (if b.toNat == 0x20 then "%20".toList else pctByte b) = pctByte b := by
        split
        · rename_i h
          have : b = 0x20 := by rw [beq_iff_eq] at h; exact UInt8.toNat_inj.1 h
          subst this; decide
        · rfl
      rw [if_neg hu, hsp, pctDecodeBytes_pctByte, ih]

/-- Decoding an encoded value gives the value, whatever it is. -/
theorem decode_encode (s : Str) : pctDecode (encode s) = some s := by
  unfold pctDecode encode
  rw [decode_encode_bytes, fromUtf8_utf8]

theorem mem_encode {s : Str} {c : Char} (h : c ∈ encode s) : c ≠ ',' ∧ c ≠ ';' ∧ c ≠ '=' := by
  unfold encode at h
  obtain ⟨b, _, hb⟩ := List.mem_flatMap.1 h
  have key : ∀ n < 256, ∀ c ∈ (if unreserved (UInt8.ofNat n) then [Char.ofNat n] else if n == 0x20 then "%20".toList else pctByte (UInt8.ofNat n)),
      c ≠ ',' ∧ c ≠ ';' ∧ c ≠ '=' := by decide +kernel
  have := key b.toNat b.toNat_lt c
  rw [UInt8.ofNat_toNat] at this
  exact this hb

theorem token_not {k : Str} (h : Token k) {c : Char} (hc : c ∈ "(),/:;<=>?@[\\]{}\"".toList) : c ∉ k := fun hm => (h.2 c hm).2.2 hc

theorem displayEntry_comma {e : Entry} (h : Readable e) (hk : Token e.key) : ',' ∉ displayEntry e := by
  unfold displayEntry
  simp only [List.mem_append, not_or]
  refine ⟨⟨⟨token_not hk (by decide), by decide⟩, fun hm => (mem_encode hm).1 rfl⟩, ?_⟩
  split
  · simp only [List.mem_append, not_or]
    exact ⟨by decide, h.infoComma⟩
  · simp

theorem parseMember_display {e : Entry} (h : Readable e) (hk : Token e.key) : parseMember (displayEntry e) = some e := by
  have hkt := trim_token hk
  have hnv : ';' ∉ e.key ++ ['='] ++ encode e.value := by
    simp only [List.mem_append, not_or]
    exact ⟨⟨token_not hk (by decide), by decide⟩, fun hm => (mem_encode hm).2.1 rfl⟩
  have hsplit2 : split '=' (e.key ++ ['='] ++ encode e.value) = [e.key, encode e.value] := by
    rw [List.append_assoc]
    show split '=' (e.key ++ '=' :: encode e.value) = _
    rw [split_append_sep (token_not hk (by decide)), split_eq_self (fun hm => (mem_encode hm).2.2 rfl)]
  have hsplit1 : ∃ props, split ';' (displayEntry e) = (e.key ++ ['='] ++ encode e.value) :: props ∧ decodeProps props = e.info := by
    unfold displayEntry
    by_cases hm : e.info = []
    · refine ⟨[], ?_, by rw [hm]; rfl⟩
      rw [hm]
      simp only [List.isEmpty_nil, Bool.not_true, Bool.false_eq_true, if_false, List.append_nil]
      rw [split_eq_self hnv]
    · refine ⟨split ';' e.info, ?_, decodeProps_split h.info h.props⟩
      have : e.info.isEmpty = false := by simpa using hm
      simp only [this, Bool.not_false, if_true]
      exact split_append_sep hnv
  obtain ⟨props, hs, hd⟩ := hsplit1
  unfold parseMember
  rw [hs]
  simp only [hsplit2, pctDecode_raw h.key, decode_encode, hd, metadataFrom, h.infoTrim, h.valueTrim, hkt]

/-! ## C107 -/

/-- C107, the part that holds. The text of a baggage that an application can build, in a header, is read back as the same baggage: any values without white space around
them, also with `%`, which the propagator's own text does not carry (`percent_value_violated`). Missing: entries that are not `Readable`, see below. -/
theorem display_read_partial {U : Nat → Type} (ops : List Op) (order : Order) (horder : ∀ es, (order es).Perm es) (hne : (run ops).inner ≠ [])
    (hr : ∀ e ∈ (run ops).inner, Readable e) (cx : Cx Bag U) (ex : Extractor) (hget : ex.get header = some (display order (run ops))) :
    (∀ k, (baggageOf (extract cx ex)).get k = (run ops).get k) ∧ (baggageOf (extract cx ex)).inner.length = (run ops).inner.length := by
  have hinv := inv_run ops
  have hb := horder (run ops).inner
  have hn : ((order (run ops).inner).map Entry.key).Nodup := (hb.map _).nodup_iff.2 hinv.nodup
  have htot : totalSize (order (run ops).inner) = totalSize (run ops).inner := (hb.map _).sum_nat
  have hd : display order (run ops) = join [','] ((order (run ops).inner).map displayEntry) := by
    have := displayLoop_join (order (run ops).inner) 0
    rw [Nat.zero_add, hb.length_eq] at this
    exact this
  rw [hd] at hget
  have hext : extract cx ex = cx.withBaggage ⟨order (run ops).inner, totalSize (order (run ops).inner)⟩ := by
    refine extract_members ?_ (fun e he => parseMember_display (hr e (hb.mem_iff.1 he)) (hinv.keys e (hb.mem_iff.1 he)))
      (fun e he => displayEntry_comma (hr e (hb.mem_iff.1 he)) (hinv.keys e (hb.mem_iff.1 he))) hn (fun e he => hinv.keys e (hb.mem_iff.1 he))
      (by rw [hb.length_eq]; exact hinv.count) (by rw [htot]; exact Nat.le_trans hinv.size hinv.len) _ hget cx
    intro h
    rw [h] at hb
    exact hne (List.nil_perm.1 hb)
  rw [hext, baggageOf_withBaggage]
  refine ⟨fun k => ?_, hb.length_eq⟩
  simp only [Bag.get]
  rw [find_perm hb hn k]

/-- C107: different texts for different baggages: if two baggages of `Readable` entries have the same text in some order of their maps, all look-ups agree. -/
theorem display_injective_partial (ops ops' : List Op) (order order' : Order) (horder : ∀ es, (order es).Perm es) (horder' : ∀ es, (order' es).Perm es)
    (hr : ∀ e ∈ (run ops).inner, Readable e) (hr' : ∀ e ∈ (run ops').inner, Readable e) (h : display order (run ops) = display order' (run ops')) :
    ∀ k, (run ops).get k = (run ops').get k := by
  have nonempty : ∀ (ops : List Op) (order : Order), (∀ es, (order es).Perm es) → (run ops).inner ≠ [] → display order (run ops) ≠ [] := by
    intro ops order ho hne hd
    unfold display at hd
    cases hes : order (run ops).inner with
    | nil => exact hne (List.nil_perm.1 (hes ▸ ho (run ops).inner))
    | cons e es => rw [hes] at hd; simp [displayLoop, displayEntry] at hd
  have empty : ∀ (ops : List Op) (order : Order), (∀ es, (order es).Perm es) → (run ops).inner = [] → display order (run ops) = [] := by
    intro ops order ho he
    unfold display
    have := ho (run ops).inner
    rw [he] at this ⊢
    rw [List.perm_nil.1 this]; rfl
  by_cases h1 : (run ops).inner = []
  · by_cases h2 : (run ops').inner = []
    · intro k; simp only [Bag.get, h1, h2]
    · exact absurd (h ▸ empty ops order horder h1) (nonempty ops' order' horder' h2)
  · by_cases h2 : (run ops').inner = []
    · exact absurd (h.trans (empty ops' order' horder' h2)) (nonempty ops order horder h1)
    · intro k
      have r1 := (display_read_partial (U := fun _ => Unit) ops order horder h1 hr Ctx.Context.new ⟨fun _ => some (display order (run ops)), []⟩ rfl).1 k
      have r2 := (display_read_partial (U := fun _ => Unit) ops' order' horder' h2 hr' Ctx.Context.new ⟨fun _ => some (display order (run ops)), []⟩ (by rw [h])).1 k
      exact r1.symm.trans r2

/-- The characters that a text shows as they are. -/
def PlainChar (c : Char) : Prop := c.isAlphanum = true ∨ c ∈ ".-_~".toList

/-- C107: a value of letters, digits, `.`, `-`, `_` and `~` is shown as it is, and no other value is: every other character is escaped. -/
theorem encode_plain_iff (s : Str) : encode s = s ↔ ∀ c ∈ s, PlainChar c := by
  have table : ∀ n < 128, unreserved (UInt8.ofNat n) = ((Char.ofNat n).isAlphanum || ".-_~".toList.contains (Char.ofNat n)) := by decide +kernel
  have chars : ∀ n < 256, ∀ c ∈ (if unreserved (UInt8.ofNat n) then [Char.ofNat n] else if n == 0x20 then "%20".toList else pctByte (UInt8.ofNat n)),
      c = '%' ∨ c.isAlphanum = true ∨ c ∈ ".-_~".toList := by decide +kernel
  constructor
  · intro h c hc
    have hall : ∀ c ∈ encode s, c = '%' ∨ PlainChar c := by
      intro c hc
      unfold encode at hc
      obtain ⟨b, _, hb⟩ := List.mem_flatMap.1 hc
      have := chars b.toNat b.toNat_lt c
      rw [UInt8.ofNat_toNat] at this
      exact this hb
    have hno : '%' ∉ s := by
      intro hm
      have hlen : ∀ t : Str, t.length ≤ (encode t).length ∧ ('%' ∈ t → t.length < (encode t).length) := by
        have each : ∀ b : UInt8, 1 ≤ (if unreserved b then [Char.ofNat b.toNat] else if b.toNat == 0x20 then "%20".toList else pctByte b).length := by
          intro b
          split
          · simp
          · split
            · decide
            · simp [pctByte]
        have bytes : ∀ bs : List UInt8, bs.length ≤ (bs.flatMap fun b => if unreserved b then [Char.ofNat b.toNat] else if b.toNat == 0x20 then "%20".toList else pctByte b).length := by
          intro bs
          induction bs with
          | nil => simp
          | cons b bs ih => rw [List.flatMap_cons, List.length_append, List.length_cons]; have := each b; omega
        intro t
        induction t with
        | nil => simp [encode]
        | cons c t ih =>
          have e1 : encode (c :: t) = ((String.utf8EncodeChar c).flatMap fun b => if unreserved b then [Char.ofNat b.toNat] else if b.toNat == 0x20 then "%20".toList else pctByte b) ++ encode t := by
            unfold encode; rw [utf8_cons, List.flatMap_append]
          have e2 : 1 ≤ (String.utf8EncodeChar c).length := by
            rw [String.length_utf8EncodeChar]; exact Char.utf8Size_pos c
          have e3 := bytes (String.utf8EncodeChar c)
          rw [e1, List.length_append, List.length_cons]
          refine ⟨by omega, fun hm => ?_⟩
          rcases List.mem_cons.1 hm with rfl | hm
          · have : ((String.utf8EncodeChar '%').flatMap fun b => if unreserved b then [Char.ofNat b.toNat] else if b.toNat == 0x20 then "%20".toList else pctByte b).length = 3 := by decide +kernel
            omega
          · have := ih.2 hm; omega
      have := (hlen s).2 hm
      rw [h] at this
      omega
    rw [← h] at hc
    rcases hall c hc with rfl | hp
    · exact absurd (h ▸ hc) hno
    · exact hp
  · intro h
    induction s with
    | nil => rfl
    | cons c t ih =>
      have hp := h c (by simp)
      have ht := ih fun d hd => h d (by simp [hd])
      have hlt : c.toNat < 128 := by
        rcases hp with hp | hp
        · simp only [Char.isAlphanum, Char.isAlpha, Char.isUpper, Char.isLower, Char.isDigit, Bool.or_eq_true, Bool.and_eq_true, decide_eq_true_eq] at hp
          simp only [UInt32.le_iff_toNat_le, ge_iff_le] at hp
          change ((_ ∧ c.toNat ≤ 90) ∨ (_ ∧ c.toNat ≤ 122)) ∨ (_ ∧ c.toNat ≤ 57) at hp
          omega
        · have : c = '.' ∨ c = '-' ∨ c = '_' ∨ c = '~' := by simpa using hp
          rcases this with rfl | rfl | rfl | rfl <;> decide
      have hu : unreserved (UInt8.ofNat c.toNat) = true := by
        rw [table c.toNat hlt, Char.ofNat_toNat, Bool.or_eq_true]
        rcases hp with hp | hp
        · exact Or.inl hp
        · exact Or.inr (List.contains_iff_mem.2 hp)
      unfold encode at ht ⊢
      rw [utf8_cons, utf8Char_ascii (by omega), List.flatMap_append, ht]
      simp only [List.flatMap_cons, List.flatMap_nil, List.append_nil, hu, if_true]
      rw [show (UInt8.ofNat c.toNat).toNat = c.toNat by rw [UInt8.toNat_ofNat']; omega, Char.ofNat_toNat]
      rfl

/-- C107 is violated by metadata with a comma, which is written as it is: a baggage of one entry has the text of a baggage of two. -/
theorem display_metadata_violated :
    let one := run [.insert "a".toList "1".toList "m,b=2".toList]
    let two := run [.insert "a".toList "1".toList "m".toList, .insert "b".toList "2".toList []]
    display id one = display id two ∧ one.get "b".toList = none ∧ two.get "b".toList = some ("2".toList, []) := by decide +kernel

/-- A baggage with `%`, spaces, other scripts and metadata meets the hypotheses, and its text. -/
example : let ops : List Op := [.insert "user".toList "a, b=ü;%41".toList "p;q=1".toList, .insert "k".toList [] []]
    (run ops).inner ≠ [] ∧ (∀ e ∈ (run ops).inner, Readable e) ∧ display id (run ops) = "user=a%2C%20b%3D%C3%BC%3B%2541;p;q=1,k=".toList := by
  intro ops
  have : (run ops).inner = [⟨"user".toList, "a, b=ü;%41".toList, "p;q=1".toList⟩, ⟨"k".toList, [], []⟩] := by decide
  refine ⟨by rw [this]; simp, ?_, by decide +kernel⟩
  rw [this]
  intro e he
  simp only [List.mem_cons, List.not_mem_nil, or_false] at he
  rcases he with rfl | rfl <;> exact ⟨by decide, by decide, by decide, by decide, by decide, by decide⟩

end Otel.Prop.Bag
