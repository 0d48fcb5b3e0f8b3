import Verif.Rust.Percent
/-!
# The address the remote sampler asks (`JaegerRemoteSamplerBuilder`, `trace/sampler/jaeger_remote/sampler.rs`), C114

The `url` crate's source is not in /repo: a parsed address is the text before the query and the query, and `query_pairs_mut().append_pair` is the
documented `application/x-www-form-urlencoded` serialisation. Which texts parse (`parse`) and which addresses the `http` crate accepts (`uriOk`) are
arbitrary. A server reads the query with the standard's parser.
-/

namespace Otel.Sdk.JaegerEndpoint
open Rust

/-- `url::Url`: what comes before the query, and the query. The fragment is not sent and left out. -/
structure Url where
  base : Str
  query : Option Str
deriving DecidableEq

/-- The bytes written as they are by the form serialiser: letters, digits, `*`, `-`, `.` and `_`. -/
def plain (b : UInt8) : Bool :=
  let n := b.toNat
  (48 ≤ n && n ≤ 57) || (65 ≤ n && n ≤ 90) || (97 ≤ n && n ≤ 122) || n == 42 || n == 45 || n == 46 || n == 95

/-- `form_urlencoded::byte_serialize`: a space is `+`, other bytes are escaped. -/
def formByte (b : UInt8) : Str := if b = 0x20 then ['+'] else if plain b then [Char.ofNat b.toNat] else pctByte b

/-- The form serialisation of a text. -/
def formEncode (s : Str) : Str := (utf8 s).flatMap formByte

/-- `query_pairs_mut().append_pair(k, v)`: `&` unless the query is empty so far. -/
def appendPair (u : Url) (k v : Str) : Url :=
  let q := u.query.getD []
  { u with query := some (q ++ (if q.isEmpty then [] else ['&']) ++ formEncode k ++ ['='] ++ formEncode v) }

/-- `Url::as_str`. -/
def Url.text (u : Url) : Str := u.base ++ (match u.query with | some q => '?' :: q | none => [])

/-- sampler.rs:15. -/
def defaultEndpoint : Url := ⟨"http://localhost:5778/sampling".toList, none⟩
/-- sampler.rs:122. -/
def service : Str := "service".toList

/-- `get_endpoint`. sampler.rs:113-126; `build` hands its error on, 99-111 -/
def getEndpoint (parse : Str → Option Url) (uriOk : Str → Bool) (endpoint name : Str) : Except Unit Str :=
  if endpoint.isEmpty || name.isEmpty then .error ()
  else
    let u := appendPair ((parse endpoint).getD defaultEndpoint) service name
    if uriOk u.text then .ok u.text else .error ()

/-! ## Specification: how a server reads a query -/

/-- `+` is a space. -/
def unplus (s : Str) : Str := s.map fun c => if c = '+' then ' ' else c

/-- One piece of a query: the text before the first `=` and the text after it, decoded. -/
def readPair (p : Str) : Option Str × Option Str :=
  match breakAt '=' p with
  | some (k, v) => (pctDecode (unplus k), pctDecode (unplus v.tail))
  | none => (pctDecode (unplus p), some [])

/-- The pairs of a query. -/
def readQuery (q : Str) : List (Option Str × Option Str) := ((split '&' q).filter (fun p => !p.isEmpty)).map readPair

/-- The values of a key, in order. -/
def values (k : Str) (q : Str) : List (Option Str) := ((readQuery q).filter (fun p => p.1 = some k)).map (·.2)

/-! ## Lemmas -/

theorem plain_ascii {b : UInt8} (h : plain b = true) : b.toNat ≤ 127 := by
  simp only [plain, Bool.or_eq_true, Bool.and_eq_true, decide_eq_true_eq, beq_iff_eq] at h
  omega

theorem toNat_char {n : Nat} (h : n ≤ 127) : (Char.ofNat n).toNat = n := toNat_ofNat_small (by omega)

/-- Characters of the serialised text. -/
theorem mem_formByte {b : UInt8} {c : Char} (h : c ∈ formByte b) :
    c = '+' ∨ c = '%' ∨ c ∈ "0123456789ABCDEF".toList ∨ (c.toNat ≤ 127 ∧ plain (UInt8.ofNat c.toNat) = true) := by
  unfold formByte at h
  split at h
  · exact .inl (List.mem_singleton.1 h)
  · split at h
    · rename_i hp
      have hc := List.mem_singleton.1 h
      subst hc
      rw [toNat_char (plain_ascii hp), UInt8.ofNat_toNat]
      exact .inr (.inr (.inr ⟨plain_ascii hp, hp⟩))
    · have h1 : b.toNat / 16 < 16 := by have := b.toNat_lt; omega
      have h2 : b.toNat % 16 < 16 := by omega
      simp only [pctByte, List.mem_cons, List.not_mem_nil, or_false] at h
      rcases h with rfl | rfl | rfl
      · exact .inr (.inl rfl)
      · exact .inr (.inr (.inl (upperHex_mem _ h1)))
      · exact .inr (.inr (.inl (upperHex_mem _ h2)))

theorem not_mem_formEncode {c : Char} (h1 : c ≠ '+') (h2 : c ≠ '%') (h3 : c ∉ "0123456789ABCDEF".toList)
    (h4 : plain (UInt8.ofNat c.toNat) = false) (s : Str) : c ∉ formEncode s := by
  intro h
  obtain ⟨b, _, hb⟩ := List.mem_flatMap.1 h
  rcases mem_formByte hb with h | h | h | ⟨_, h⟩
  · exact h1 h
  · exact h2 h
  · exact h3 h
  · rw [h4] at h; cases h

theorem amp_formEncode (s : Str) : '&' ∉ formEncode s := not_mem_formEncode (by decide) (by decide) (by decide) (by decide) s
theorem eq_formEncode (s : Str) : '=' ∉ formEncode s := not_mem_formEncode (by decide) (by decide) (by decide) (by decide) s

theorem unplus_append (a b : Str) : unplus (a ++ b) = unplus a ++ unplus b := by simp [unplus]

theorem unplus_pctByte (b : UInt8) : unplus (pctByte b) = pctByte b := by
  have h1 : b.toNat / 16 < 16 := by have := b.toNat_lt; omega
  have h2 : b.toNat % 16 < 16 := by omega
  have hu : ∀ n < 16, upperHex n ≠ '+' := by decide
  simp [unplus, pctByte, hu _ h1, hu _ h2]

theorem decode_formByte (b : UInt8) (rest : List UInt8) : pctDecodeBytes (utf8 (unplus (formByte b)) ++ rest) = b :: pctDecodeBytes rest := by
  have hraw : ∀ c : UInt8, c ≠ 0x25 → pctDecodeBytes ([c] ++ rest) = c :: pctDecodeBytes rest := by
    intro c hc
    exact pctDecodeBytes_cons (by simp [hc])
  unfold formByte
  split
  · rename_i h
    subst h
    exact hraw 0x20 (by decide)
  · split
    · rename_i hp
      have h1 := plain_ascii hp
      have hne : Char.ofNat b.toNat ≠ '+' := by
        intro hc
        have := congrArg Char.toNat hc
        rw [toNat_char h1] at this
        have hb : b = 0x2B := by apply UInt8.toNat_inj.1; rw [this]; rfl
        subst hb; revert hp; decide
      have hu : unplus [Char.ofNat b.toNat] = [Char.ofNat b.toNat] := by simp [unplus, hne]
      rw [hu, utf8_raw_byte (by omega)]
      refine hraw b ?_
      rintro rfl
      revert hp; decide
    · rw [unplus_pctByte]; exact pctDecodeBytes_pctByte b rest

theorem decode_form (bs : List UInt8) : pctDecodeBytes (utf8 (unplus (bs.flatMap formByte))) = bs := by
  induction bs with
  | nil => rfl
  | cons b bs ih =>
    rw [List.flatMap_cons, unplus_append, utf8_append, decode_formByte, ih]

/-- What the serialiser writes is read back, for every text. -/
theorem form_round_trip (s : Str) : pctDecode (unplus (formEncode s)) = some s := by
  unfold pctDecode formEncode
  rw [decode_form, fromUtf8_utf8]

theorem readPair_written (k v : Str) : readPair (formEncode k ++ ['='] ++ formEncode v) = (some k, some v) := by
  unfold readPair
  rw [List.append_assoc, List.singleton_append, breakAt_append (eq_formEncode k)]
  simp only [List.tail_cons, form_round_trip]

theorem split_append {c : Char} (a b : Str) : split c (a ++ c :: b) = split c a ++ split c b := by
  induction a with
  | nil => simp [split]
  | cons x a ih =>
    rw [List.cons_append]
    by_cases hx : x = c
    · simp only [split, if_pos hx, ih, List.cons_append]
    · simp only [split, if_neg hx, ih]
      cases h : split c a with
      | nil => exact absurd h (split_ne_nil c a)
      | cons y ys => rfl

theorem piece_ne (k v : Str) : (formEncode k ++ ['='] ++ formEncode v).isEmpty = false := by simp

theorem readQuery_append (u : Url) (k v : Str) :
    ∃ q, (appendPair u k v).query = some q ∧ readQuery q = readQuery (u.query.getD []) ++ [(some k, some v)] := by
  refine ⟨_, rfl, ?_⟩
  have hamp : '&' ∉ formEncode k ++ ['='] ++ formEncode v := by
    simp only [List.mem_append, List.mem_singleton, not_or]
    exact ⟨⟨amp_formEncode k, by decide⟩, amp_formEncode v⟩
  have hone : readQuery (formEncode k ++ ['='] ++ formEncode v) = [(some k, some v)] := by
    unfold readQuery
    rw [split_eq_self hamp, List.filter_cons_of_pos (by rw [piece_ne]; rfl), List.filter_nil, List.map_cons, List.map_nil, readPair_written]
  cases hq : u.query.getD [] with
  | nil =>
    have : readQuery [] = [] := rfl
    rw [this]
    simpa using hone
  | cons x xs =>
    have e : (x :: xs) ++ (if (x :: xs).isEmpty = true then [] else ['&']) ++ formEncode k ++ ['='] ++ formEncode v =
        (x :: xs) ++ '&' :: (formEncode k ++ ['='] ++ formEncode v) := by simp
    rw [e]
    unfold readQuery at hone ⊢
    rw [split_append, List.filter_append, List.map_append, hone]

/-! ## Theorems -/

/-- C114. A sampler is built only for an endpoint and a service name that are not empty; the address it asks is the endpoint's (the default one
when the endpoint cannot be parsed), and a server reads from its query the pairs of the endpoint and then the service name, whatever characters it has. -/
theorem endpoint_service (parse : Str → Option Url) (uriOk : Str → Bool) {endpoint name addr : Str} (h : getEndpoint parse uriOk endpoint name = .ok addr) :
    endpoint ≠ [] ∧ name ≠ [] ∧
    ∃ u q, (parse endpoint = some u ∨ (parse endpoint = none ∧ u = ⟨"http://localhost:5778/sampling".toList, none⟩)) ∧ addr = u.base ++ '?' :: q ∧
      readQuery q = readQuery (u.query.getD []) ++ [(some "service".toList, some name)] := by
  unfold getEndpoint at h
  split at h
  · cases h
  · rename_i he
    simp only [Bool.or_eq_true, List.isEmpty_iff, not_or] at he
    simp only at h
    split at h
    · injection h with h; subst h
      refine ⟨he.1, he.2, (parse endpoint).getD defaultEndpoint, ?_⟩
      obtain ⟨q, h1, h2⟩ := readQuery_append ((parse endpoint).getD defaultEndpoint) service name
      refine ⟨q, ?_, ?_, h2⟩
      · cases parse endpoint with
        | none => exact .inr ⟨rfl, rfl⟩
        | some u => exact .inl rfl
      · unfold Url.text; rw [h1]; rfl
    · cases h

/-- C114. An endpoint or a service name that is empty is an error. -/
theorem endpoint_empty (parse : Str → Option Url) (uriOk : Str → Bool) (endpoint name : Str) (h : endpoint = [] ∨ name = []) :
    getEndpoint parse uriOk endpoint name = .error () := by
  unfold getEndpoint
  rw [if_pos]
  rcases h with rfl | rfl <;> simp

/-- C114 (part). When the endpoint names no service, the only service a server reads is the builder's. Missing: an endpoint that names one
(`service_in_endpoint_violated`). -/
theorem service_only_partial (parse : Str → Option Url) (uriOk : Str → Bool) {endpoint name addr : Str} (h : getEndpoint parse uriOk endpoint name = .ok addr)
    (hn : ∀ u, parse endpoint = some u → values "service".toList (u.query.getD []) = []) :
    ∃ u q, addr = u.base ++ '?' :: q ∧ (parse endpoint = some u ∨ (parse endpoint = none ∧ u = ⟨"http://localhost:5778/sampling".toList, none⟩)) ∧ values "service".toList q = [some name] := by
  obtain ⟨_, _, u, q, hu, ha, hq⟩ := endpoint_service parse uriOk h
  refine ⟨u, q, ha, hu, ?_⟩
  have h0 : values "service".toList (u.query.getD []) = [] := by
    rcases hu with h1 | ⟨_, rfl⟩
    · exact hn u h1
    · rfl
  have : values "service".toList q = values "service".toList (u.query.getD []) ++ [some name] := by
    unfold values
    rw [hq, List.filter_append, List.map_append]
    congr 1
  rw [this, h0]; rfl

/-- C114 (finding). "If service name is provided as part of the endpoint, it will be ignored", says `with_endpoint`; but it stays in the address, in front of
the builder's: a server that takes the first value gives the strategies of the wrong service. -/
theorem service_in_endpoint_violated (parse : Str → Option Url) (uriOk : Str → Bool) {endpoint name addr : Str} {u : Url} {v : Option Str} {vs : List (Option Str)}
    (hu : parse endpoint = some u) (hv : values "service".toList (u.query.getD []) = v :: vs) (h : getEndpoint parse uriOk endpoint name = .ok addr) :
    ∃ q, addr = u.base ++ '?' :: q ∧ values "service".toList q = v :: (vs ++ [some name]) := by
  obtain ⟨_, _, u', q, hu', ha, hq⟩ := endpoint_service parse uriOk h
  have : u' = u := by
    rcases hu' with h1 | ⟨h1, _⟩
    · rw [hu] at h1; injection h1 with h1; exact h1.symm
    · rw [hu] at h1; cases h1
  subst this
  refine ⟨q, ha, ?_⟩
  have : values "service".toList q = values "service".toList (u'.query.getD []) ++ [some name] := by
    unfold values
    rw [hq, List.filter_append, List.map_append]
    congr 1
  rw [this, hv]; rfl

/-- An endpoint that names a service. -/
def exampleUrl : Url := ⟨"http://h/s".toList, some "service=old&x=1".toList⟩

example : values "service".toList (exampleUrl.query.getD []) = [some "old".toList] ∧
    getEndpoint (fun _ => some exampleUrl) (fun _ => true) ['e'] "a b&é".toList = .ok "http://h/s?service=old&x=1&service=a+b%26%C3%A9".toList := by
  constructor <;> decide +kernel

example : getEndpoint (fun _ => none) (fun _ => true) ['e'] "svc".toList = .ok "http://localhost:5778/sampling?service=svc".toList := by decide +kernel

end Otel.Sdk.JaegerEndpoint
