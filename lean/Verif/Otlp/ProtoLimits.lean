import Verif.Otlp.ProtoFormat
/-!
# C96: requests one after the other, fields of later versions, and values that are nested too deep
-/

namespace Otel.Otlp.Proto
open Rust Wire
open Otel.Otlp.Json

/-! ## Concatenation -/

/-- C96: the bytes of two requests, one after the other, are the bytes of the request with the items of both. -/
theorem encode_append {α : Type} (f : α → List Rec) (a b : List (ResourceItems α)) : encode f (a ++ b) = encode f a ++ encode f b := by
  rw [encode, requestF, repF, List.map_append, write_append]
  rfl

/-! ## Fields of later versions -/

theorem sel_insert {t : Nat} {r : Rec} (h : r.1 ≠ t) (a b : List Rec) : sel t (a ++ r :: b) = sel t (a ++ b) := by
  rw [sel_append, sel_append, sel, sel, sel, List.filterMap_cons, if_neg h]

/-- C96: a reader of this version skips a field it does not know, wherever in the span it is. -/
theorem span_skips (n : Nat) (a b : List Rec) (r : Rec) (h : 16 < r.1) : decSpan (n + 1) (a ++ r :: b) = decSpan (n + 1) (a ++ b) := by
  simp only [decSpan, skip_succ]
  simp only [sel_insert (show r.1 ≠ 1 by omega), sel_insert (show r.1 ≠ 2 by omega), sel_insert (show r.1 ≠ 3 by omega), sel_insert (show r.1 ≠ 4 by omega),
    sel_insert (show r.1 ≠ 5 by omega), sel_insert (show r.1 ≠ 6 by omega), sel_insert (show r.1 ≠ 7 by omega), sel_insert (show r.1 ≠ 8 by omega),
    sel_insert (show r.1 ≠ 9 by omega), sel_insert (show r.1 ≠ 10 by omega), sel_insert (show r.1 ≠ 11 by omega), sel_insert (show r.1 ≠ 12 by omega),
    sel_insert (show r.1 ≠ 13 by omega), sel_insert (show r.1 ≠ 14 by omega), sel_insert (show r.1 ≠ 15 by omega), sel_insert (show r.1 ≠ 16 by omega)]

/-- C96: as above for a log record. -/
theorem log_skips (n : Nat) (a b : List Rec) (r : Rec) (h : 12 < r.1) : decLog (n + 1) (a ++ r :: b) = decLog (n + 1) (a ++ b) := by
  simp only [decLog, skip_succ]
  simp only [sel_insert (show r.1 ≠ 1 by omega), sel_insert (show r.1 ≠ 2 by omega), sel_insert (show r.1 ≠ 3 by omega),
    sel_insert (show r.1 ≠ 5 by omega), sel_insert (show r.1 ≠ 6 by omega), sel_insert (show r.1 ≠ 7 by omega), sel_insert (show r.1 ≠ 8 by omega),
    sel_insert (show r.1 ≠ 9 by omega), sel_insert (show r.1 ≠ 10 by omega), sel_insert (show r.1 ≠ 11 by omega), sel_insert (show r.1 ≠ 12 by omega)]

/-- C96: a request followed by a field of a later version is the request. -/
theorem request_skips {α : Type} (fields : α → List Rec) (dec : Nat → List Rec → Option α) (rs : List (ResourceItems α)) (r : Rec) (h : 1 < r.1)
    (h2 : r.1 < 2 ^ 29) (hs : (encode fields rs ++ writeRec r).length < 2 ^ 64) :
    decode dec (encode fields rs ++ writeRec r) = decode dec (encode fields rs) := by
  have e : encode fields rs ++ writeRec r = write (requestF fields rs ++ [r]) := by
    rw [write_append, write_cons]
    show write (requestF fields rs) ++ writeRec r = write (requestF fields rs) ++ (writeRec r ++ write [])
    rw [show write [] = [] from rfl, List.append_nil]
  have hs2 : (encode fields rs).length < 2 ^ 64 := by rw [List.length_append] at hs; omega
  rw [decode, decode, encode, parse_small (numbered_request fields rs) hs2, ← encode, e, parse_small (numbered_append (numbered_request fields rs)
    (fun x hx => by rw [List.mem_singleton.1 hx]; exact ⟨by omega, h2⟩)) (by rw [← e]; exact hs)]
  simp only [Option.bind_some, decRequest, limit]
  rw [sel_insert (b := []) (show r.1 ≠ 1 by omega), List.append_nil]
  rfl

/-! ## Too deep -/

theorem mapM_none {α β : Type} {f : α → Option β} {l : List α} {a : α} (h : a ∈ l) (hf : f a = none) : l.mapM f = none := by
  induction l with
  | nil => cases h
  | cons x l ih =>
    rw [List.mapM_cons]
    rcases List.mem_cons.1 h with rfl | h
    · rw [hf]; rfl
    · rw [ih h]; cases f x <;> rfl

theorem kv_deep (n : Nat) (k : Str) (v : AVal) (hs : Small (kvF (k, some v))) (h : ∀ n', n = n' + 1 → decAny n' (anyF v) = none) :
    decKv n (kvF (k, some v)) = none := by
  have hk : sel 1 (kvF (k, some v)) = sel 1 (strF 1 k) := by rw [kvF, sel_append, sel_msgF (by decide), List.append_nil]
  have hv : sel 2 (kvF (k, some v)) = [.len (write (anyF v))] := by rw [kvF, sel_append, sel_strF (by decide), List.nil_append]; rfl
  have hsm : Small (anyF v) := small_inner (small_append (show Small (strF 1 k ++ msgF 2 anyF (some v)) from hs)).2 (t := 2) (by simp [msgF])
  cases n with
  | zero =>
    rw [decKv, skip, if_pos]
    · rfl
    · exact ⟨rfl, (2, .len (write (anyF v))), by simp [kvF, msgF], by simp⟩
  | succ n =>
    rw [decKv, hk, read_str, Option.bind_some, hv, opt, if_neg (by simp), mapM_single, payload_write (numbered_any v) hsm, Option.map_some, Option.bind_some,
      List.flatten_cons, List.flatten_nil, List.append_nil, h n rfl]
    rfl

mutual
theorem any_deep : ∀ (v : AVal) (n : Nat), n < levels v → Small (anyF v) → decAny n (anyF v) = none
  | .unset, n, h, _ => by simp [levels] at h
  | .str _, n, h, _ => by simp [levels] at h
  | .bool _, n, h, _ => by simp [levels] at h
  | .int _, n, h, _ => by simp [levels] at h
  | .double _, n, h, _ => by simp [levels] at h
  | .bytes _, n, h, _ => by simp [levels] at h
  | .array vs, 0, h, hs => by
    rw [anyF] at hs ⊢
    rw [decAny_single_zero]
    have hin : Small (arrF vs) := small_inner hs (t := 5) (by simp)
    show (inner (fun _ => none) (.len (write (arrF vs)))).map (fun us => AVal.array ([] ++ us)) = _
    rw [inner, payload_write (numbered_arr vs) hin]; rfl
  | .array vs, n + 1, h, hs => by
    rw [levels] at h
    rw [anyF] at hs ⊢
    have hin : Small (arrF vs) := small_inner hs (t := 5) (by simp)
    rw [decAny_single_succ]
    show (inner (decArr n) (.len (write (arrF vs)))).map (fun us => AVal.array ([] ++ us)) = _
    rw [inner, payload_write (numbered_arr vs) hin, Option.bind_some, arr_deep vs n (by omega) hin]
    rfl
  | .kvlist vs, 0, h, hs => by
    rw [anyF] at hs ⊢
    rw [decAny_single_zero]
    have hin : Small (kvlF vs) := small_inner hs (t := 6) (by simp)
    show (inner (fun _ => none) (.len (write (kvlF vs)))).map (fun us => AVal.kvlist ([] ++ us)) = _
    rw [inner, payload_write (numbered_kvl vs) hin]; rfl
  | .kvlist vs, n + 1, h, hs => by
    rw [levels] at h
    rw [anyF] at hs ⊢
    have hin : Small (kvlF vs) := small_inner hs (t := 6) (by simp)
    rw [decAny_single_succ]
    show (inner (decKvl n) (.len (write (kvlF vs)))).map (fun us => AVal.kvlist ([] ++ us)) = _
    rw [inner, payload_write (numbered_kvl vs) hin, Option.bind_some, kvl_deep vs n (by omega) hin]
    rfl
theorem arr_deep : ∀ (vs : List AVal) (n : Nat), n < levelsArr vs → Small (arrF vs) → decArr n (arrF vs) = none
  | [], n, h, _ => by simp [levelsArr] at h
  | v :: vs, 0, _, _ => by rw [arrF, decArr, if_neg (by simp)]
  | v :: vs, n + 1, h, hs => by
    rw [levelsArr] at h
    rw [arrF] at hs ⊢
    have hin : Small (anyF v) := small_inner hs (t := 1) (by simp)
    have htl : Small (arrF vs) := (small_append (a := [_]) hs).2
    rw [decArr, sel_cons_same, rep, List.mapM_cons]
    rcases Nat.lt_or_ge (n + 1) (1 + levels v) with h1 | h1
    · rw [inner, payload_write (numbered_any v) hin, Option.bind_some, any_deep v n (by omega) hin]; rfl
    · have ih := arr_deep vs (n + 1) (by omega) htl
      rw [decArr, rep] at ih
      rw [ih]
      cases inner (decAny n) (.len (write (anyF v))) <;> rfl
theorem kvl_deep : ∀ (kvs : List (Str × Option AVal)) (n : Nat), n < levelsKvs kvs → Small (kvlF kvs) → decKvl n (kvlF kvs) = none
  | [], n, h, _ => by simp [levelsKvs] at h
  | kv :: kvs, 0, _, _ => by rw [kvlF_cons, decKvl, if_neg (by simp)]
  | (k, none) :: kvs, n + 1, h, hs => by
    rw [levelsKvs] at h
    rw [kvlF_cons] at hs ⊢
    have htl : Small (kvlF kvs) := (small_append (a := [_]) hs).2
    have ih := kvl_deep kvs (n + 1) (by omega) htl
    rw [decKvl, rep] at ih
    rw [decKvl, sel_cons_same, rep, List.mapM_cons, ih]
    cases inner (decKv n) (.len (write (kvF (k, none)))) <;> rfl
  | (k, some v) :: kvs, n + 1, h, hs => by
    rw [levelsKvs] at h
    rw [kvlF_cons] at hs ⊢
    have hin : Small (kvF (k, some v)) := small_inner hs (t := 1) (by simp)
    have hv : Small (anyF v) := small_inner (small_append (show Small (strF 1 k ++ msgF 2 anyF (some v)) from hin)).2 (t := 2) (by simp [msgF])
    have htl : Small (kvlF kvs) := (small_append (a := [_]) hs).2
    rw [decKvl, sel_cons_same, rep, List.mapM_cons]
    rcases Nat.lt_or_ge (n + 1) (2 + levels v) with h1 | h1
    · rw [inner, payload_write (numbered_kv _) hin, Option.bind_some, kv_deep n k v hin fun n' hn' => any_deep v n' (by omega) hv]; rfl
    · have ih := kvl_deep kvs (n + 1) (by omega) htl
      rw [decKvl, rep] at ih
      rw [ih]
      cases inner (decKv n) (.len (write (kvF (k, some v)))) <;> rfl
end

/-- In a list of messages, one that cannot be read. -/
theorem rep_none {α : Type} {f : α → List Rec} {dec : List Rec → Option α} {t : Nat} {ms : List α} {m : α} (hn : Numbered (f m)) (hs : Small (repF t f ms))
    (hm : m ∈ ms) (hd : Small (f m) → dec (f m) = none) : rep dec (sel t (repF t f ms)) = none := by
  have hmem : (t, Val.len (write (f m))) ∈ repF t f ms := List.mem_map.2 ⟨m, hm, rfl⟩
  have hi : Small (f m) := small_inner hs hmem
  refine mapM_none (a := .len (write (f m))) ?_ ?_
  · rw [sel_same tag_repF]; exact List.mem_map.2 ⟨_, hmem, rfl⟩
  · rw [inner, payload_write hn hi, Option.bind_some, hd hi]

theorem bind_none_right {α β : Type} (o : Option α) : (o.bind fun _ => (none : Option β)) = none := by cases o <;> rfl

theorem log_deep {n : Nat} {s : LogRecord} (hs : Small (logF s)) {v : AVal} (hb : s.body = some v) (h : n + 1 < levels v) : decLog (n + 2) (logF s) = none := by
  unfold logF at hs
  have hb5 : Small (msgF 5 anyF s.body) := by part hs
  have hv : Small (anyF v) := small_inner hb5 (t := 5) (by simp [msgF, hb])
  have a5 : opt (decAny (n + 1)) (sel 5 (msgF 5 anyF s.body)) = none := by
    rw [hb]
    have : sel 5 (msgF 5 anyF (some v)) = [.len (write (anyF v))] := rfl
    rw [this, opt, if_neg (by simp), mapM_single, payload_write (numbered_any v) hv, Option.map_some, Option.bind_some, List.flatten_cons, List.flatten_nil, List.append_nil,
      any_deep v (n + 1) h hv]
    rfl
  simp only [decLog, logF, skip_succ, lim]
  select
  simp only [read_str, read_enum, read_f64, a5]
  rfl

section
variable {α : Type} {fields : α → List Rec} {dec : Nat → List Rec → Option α}

theorem scopeItems_fail {n : Nat} {i : α} (hn : Numbered (fields i)) {s : ScopeItems α} (hs : Small (scopeItemsF fields s)) (hi : i ∈ s.items)
    (hd : Small (fields i) → dec (n + 2) (fields i) = none) : decScopeItems dec (n + 3) (scopeItemsF fields s) = none := by
  unfold scopeItemsF at hs
  have a2 : rep (dec (n + 2)) (sel 2 (repF 2 fields s.items)) = none := rep_none hn (by part hs) hi hd
  simp only [decScopeItems, scopeItemsF, skip_succ, lim]
  select
  simp only [a2]
  exact bind_none_right _

theorem resourceItems_fail {n : Nat} {i : α} (hn : Numbered (fields i)) {s : ResourceItems α} (hs : Small (resourceItemsF fields s)) {g : ScopeItems α}
    (hg : g ∈ s.scopes) (hi : i ∈ g.items) (hd : Small (fields i) → dec (n + 2) (fields i) = none) :
    decResourceItems dec (n + 4) (resourceItemsF fields s) = none := by
  unfold resourceItemsF at hs
  have a2 : rep (decScopeItems dec (n + 3)) (sel 2 (repF 2 (scopeItemsF fields) s.scopes)) = none :=
    rep_none (numbered_scopeItems fields g) (by part hs) hg fun h => scopeItems_fail hn h hi hd
  simp only [decResourceItems, resourceItemsF, skip_succ, lim]
  select
  simp only [a2]
  exact bind_none_right _

/-- One item that cannot be read makes the whole request unreadable. -/
theorem request_fails {i : α} (hn : Numbered (fields i)) {rs : List (ResourceItems α)} (hs : (encode fields rs).length < 2 ^ 64) {r : ResourceItems α}
    (hr : r ∈ rs) {g : ScopeItems α} (hg : g ∈ r.scopes) (hi : i ∈ g.items) (hd : Small (fields i) → dec 97 (fields i) = none) :
    decode dec (encode fields rs) = none := by
  have a : rep (decResourceItems dec 99) (sel 1 (repF 1 (resourceItemsF fields) rs)) = none :=
    rep_none (numbered_resourceItems fields r) hs hr fun h => resourceItems_fail (n := 95) hn h hg hi hd
  rw [decode, encode, parse_small (numbered_request fields rs) hs, Option.bind_some, decRequest, requestF]
  exact a
end

/-- C96, negation of reading back for every request: one log record whose body has more than 96 levels of messages, which is more than 48 lists in each other,
makes the request with all its other records unreadable for `prost`, whose limit is 100. -/
theorem deep_body_unreadable {rs : List (ResourceItems LogRecord)} (hs : (encLogs rs).length < 2 ^ 64) {r : ResourceItems LogRecord} (hr : r ∈ rs)
    {g : ScopeItems LogRecord} (hg : g ∈ r.scopes) {i : LogRecord} (hi : i ∈ g.items) {v : AVal} (hb : i.body = some v) (h : 96 < levels v) :
    decLogs (encLogs rs) = none :=
  request_fails (numbered_log i) hs hr hg hi fun hsm => log_deep (n := 95) hsm hb h

/-- Lists in each other. -/
def nest : Nat → AVal
  | 0 => .int 1#64
  | n + 1 => .array [nest n]

theorem levels_nest (n : Nat) : levels (nest n) = 2 * n := by
  induction n with
  | zero => rfl
  | succ n ih => rw [nest, levels, levelsArr, levelsArr, ih]; omega

/-- A record with such a body, and an empty one. -/
def deepLogs : List (ResourceItems LogRecord) :=
  [{ resource := none, schemaUrl := [], scopes := [{ scope := none, schemaUrl := [], items := [
    { timeUnixNano := 0, observedTimeUnixNano := 0, severityNumber := 0, severityText := [], body := some (nest 49), attributes := [],
      droppedAttributesCount := 0, flags := 0, traceId := [], spanId := [], eventName := [] }] }] }]

/-- C96: a request that is written but cannot be read. -/
theorem deep_value_violated : ∃ rs, decLogs (encLogs rs) = none := by
  refine ⟨deepLogs, deep_body_unreadable (r := deepLogs.head (by simp [deepLogs])) ?_ (List.head_mem _) (List.mem_singleton.2 rfl) (List.mem_singleton.2 rfl) rfl ?_⟩
  · decide +kernel
  · rw [levels_nest]; omega


/-- A point with this threshold. -/
def thresholdPoint (z : BitVec 64) : ExpoPoint :=
  { attributes := [], startTimeUnixNano := 0, timeUnixNano := 0, count := 0, sum := none, scale := 0, zeroCount := 0, positive := none, negative := none,
    flags := 0, exemplars := [], min := none, max := none, zeroThreshold := z }

/-- C96: the two zeros of the threshold of an exponential histogram have the same bytes. -/
theorem negative_zero_violated : ∃ p q : ExpoPoint, p ≠ q ∧ expoPointF p = expoPointF q := by
  refine ⟨thresholdPoint 0x8000000000000000#64, thresholdPoint 0#64, fun h => absurd (congrArg ExpoPoint.zeroThreshold h) (by decide), ?_⟩
  have h1 : dblF 14 0x8000000000000000#64 = [] := if_pos (by decide)
  have h2 : dblF 14 0#64 = [] := if_pos (by decide)
  rw [expoPointF, expoPointF]
  exact congrArg₂ (· ++ ·) rfl (h1.trans h2.symm)

/-! ## Concrete bytes -/

/-- A span with a name, an attribute and a status. -/
def exSpan : Span :=
  { traceId := [1#8, 2#8], spanId := [3#8], traceState := [], parentSpanId := [], flags := 0x101#32, name := "ab".toList, kind := 2#32,
    startTimeUnixNano := 300#64, endTimeUnixNano := 0#64, attributes := [("k".toList, some (.int (-1#64)))], droppedAttributesCount := 200#32, events := [],
    droppedEventsCount := 0#32, links := [], droppedLinksCount := 0#32, status := some { message := [], code := 1#32 } }

def exRequest : List (ResourceItems Span) := [{ resource := none, schemaUrl := [], scopes := [{ scope := none, items := [exSpan], schemaUrl := [] }] }]

/-- The bytes as `protoc --encode` gives them: keys `0x0a` (1, LEN), `0x30` (6, VARINT), `0x39` (7, I64), `0x52`… -/
example : encTraces exRequest = ([
    0x0a, 0x39, 0x12, 0x37, 0x12, 0x35,
    0x0a, 0x02, 0x01, 0x02, 0x12, 0x01, 0x03, 0x2a, 0x02, 0x61, 0x62, 0x30, 0x02, 0x39, 0x2c, 0x01, 0, 0, 0, 0, 0, 0,
    0x4a, 0x10, 0x0a, 0x01, 0x6b, 0x12, 0x0b, 0x18, 0xff, 0xff, 0xff, 0xff, 0xff, 0xff, 0xff, 0xff, 0xff, 0x01,
    0x50, 0xc8, 0x01, 0x7a, 0x02, 0x18, 0x01, 0x85, 0x01, 0x01, 0x01, 0, 0] : List Nat).map (BitVec.ofNat 8) := by decide +kernel

example : ShallowRequest ShallowSpan exRequest := by
  intro r hr
  rw [List.mem_singleton.1 hr]
  refine ⟨fun x hx => (Option.some_ne_none _ hx.symm).elim, fun s hs => ?_⟩
  rw [List.mem_singleton.1 hs]
  refine ⟨fun x hx => (Option.some_ne_none _ hx.symm).elim, fun i hi => ?_⟩
  rw [List.mem_singleton.1 hi]
  refine ⟨fun kv hkv v hv => ?_, fun e he => (List.not_mem_nil he).elim, fun e he => (List.not_mem_nil he).elim⟩
  rw [List.mem_singleton.1 hkv] at hv
  cases hv
  exact Nat.zero_le _

example : (encTraces exRequest).length < 2 ^ 64 := by decide +kernel

/-- A field of a later version after the request. -/
example : (encTraces exRequest ++ writeRec (7, .len [1#8])).length < 2 ^ 64 := by decide +kernel

/-- Zigzag: 1 is 2, -1 is 1. -/
example : write (bucketsF { offset := -1#32, bucketCounts := [300#64, 1#64] }) = ([0x08, 0x01, 0x12, 0x03, 0xac, 0x02, 0x01] : List Nat).map (BitVec.ofNat 8) := by
  decide +kernel

end Otel.Otlp.Proto
