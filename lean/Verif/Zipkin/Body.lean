import Verif.Zipkin.Props
import Verif.Json.TextProps
/-!
# The body of the Zipkin exporter's request (C119)

The text that `JsonV2Client::upload` sends for a batch, and what a collector reads in it.
-/

namespace Otel.Zipkin
open Rust Sdk Otel.Otlp.Json Otel.JsonText

/-- The address of the service, `std::net::SocketAddr`. -/
inductive SocketAddr where
  | v4 (a b c d : BitVec 8) (port : BitVec 16)
  | v6 (ip : BitVec 128) (port : BitVec 16)

/-- `Endpoint`. model/endpoint.rs:6-16 -/
structure Endpoint where
  ipv4 : Option (BitVec 8 × BitVec 8 × BitVec 8 × BitVec 8)
  ipv6 : Option (BitVec 128)
  port : Option (BitVec 16)

/-- `Endpoint::new`. model/endpoint.rs:18-26 -/
def Endpoint.new : Option SocketAddr → Endpoint
  | some (.v4 a b c d port) => ⟨some (a, b, c, d), none, some port⟩
  | some (.v6 ip port) => ⟨none, some ip, some port⟩
  | none => ⟨none, none, none⟩

/-- `Display` of an `Ipv4Addr`. -/
def v4Text (p : BitVec 8 × BitVec 8 × BitVec 8 × BitVec 8) : Str :=
  fmtNat p.1.toNat ++ ['.'] ++ fmtNat p.2.1.toNat ++ ['.'] ++ fmtNat p.2.2.1.toNat ++ ['.'] ++ fmtNat p.2.2.2.toNat

/-- `Serialize` of an endpoint; `v6Text` is `Display` of an `Ipv6Addr`. model/endpoint.rs:4-16 -/
def encEndpoint (v6Text : BitVec 128 → Str) (e : Endpoint) : Json :=
  .obj ((e.ipv4.map fun p => ("ipv4", Json.str (v4Text p))).toList ++ (e.ipv6.map fun p => ("ipv6", Json.str (v6Text p))).toList ++
    (e.port.map fun p => ("port", encU p)).toList)

/-- The text of a kind, `rename_all = "SCREAMING_SNAKE_CASE"`. model/span.rs:5-12 -/
def kindText : Kind → Str
  | .client => "CLIENT".toList
  | .server => "SERVER".toList
  | .producer => "PRODUCER".toList
  | .consumer => "CONSUMER".toList

/-- `Serialize` of an annotation. model/annotation.rs:5-14 -/
def encAnnotation (a : Annotation) : Json := .obj [("timestamp", .int a.timestamp), ("value", .str a.value)]

/-- `Serialize` of a span: entries in the order of the fields, `None` is left out; the remote endpoint is never set. `order` is
the order in which the hash map gives the tags. model/span.rs:14-54 -/
def encZSpan (order : List (Str × Str) → List (Str × Str)) (v6Text : BitVec 128 → Str) (s : ZSpan Endpoint) : Json :=
  .obj ([("traceId", .str s.traceId), ("parentId", .str s.parentId), ("id", .str s.id)] ++ (s.kind.map fun k => ("kind", Json.str (kindText k))).toList ++
    [("name", .str s.name), ("timestamp", .int s.timestamp), ("duration", .int s.duration), ("localEndpoint", encEndpoint v6Text s.localEndpoint),
     ("annotations", .arr (s.annotations.map encAnnotation)), ("tags", .obj ((order s.tags).map fun p => (String.ofList p.1, .str p.2))),
     ("debug", .bool false), ("shared", .bool false)])

/-- The body for a batch: `serde_json::to_vec` of the spans. uploader.rs:38-42, mod.rs:121-132. There are no doubles in it. -/
def zipkinBody {V : Type} (order : List (Str × Str) → List (Str × Str)) (v6Text : BitVec 128 → Str) (toText : V → Str) (ofText : Str → V) (epoch : Time) (addr : Option SocketAddr)
    (batch : List (Exported (Str × V) Scope)) : Str :=
  write compact (fun _ => []) 0 (.arr (batch.map fun x => encZSpan order v6Text (intoZipkin toText ofText epoch (.new addr) x)))

/-! ## Specification -/

/-- `t` is the number of whole microseconds from `a` to `b`. -/
def WholeMicros (a b : Time) (j : Option Json) : Prop := ∃ t : Nat, j = some (.int t) ∧ (b < a → t = 0) ∧
  (a ≤ b → b - a < 1000 * 2 ^ 64 → t * 1000 ≤ b - a ∧ b - a < t * 1000 + 1000)

/-- The kind that Zipkin has for a kind of span. -/
def expectedKind {V : Type} (x : Exported (Str × V) Scope) : Option Json :=
  if ∃ kv ∈ x.data.attributes, kv.1 = "span.kind".toList then none
  else match x.data.spanKind with
    | .client => some (.str "CLIENT".toList)
    | .server => some (.str "SERVER".toList)
    | .producer => some (.str "PRODUCER".toList)
    | .consumer => some (.str "CONSUMER".toList)
    | .internal => none

/-- The JSON value describes the event: its name and its time. -/
def DescribesEvent {V : Type} (epoch : Time) (e : Event (Str × V)) (j : Json) : Prop :=
  ∃ o, j = .obj o ∧ (o.map Prod.fst).Nodup ∧ WholeMicros epoch e.timestamp (o.lookup "timestamp") ∧ o.lookup "value" = some (.str e.name)

/-- The JSON value describes the address of the service. -/
def DescribesAddr (v6Text : BitVec 128 → Str) (addr : Option SocketAddr) (j : Option Json) : Prop :=
  ∃ o, j = some (.obj o) ∧ (o.map Prod.fst).Nodup ∧ match addr with
    | none => o = []
    | some (.v4 a b c d port) => o.lookup "ipv4" = some (.str (".".toList.intercalate ([a, b, c, d].map fun n => fmtNat n.toNat))) ∧
        o.lookup "ipv6" = none ∧ o.lookup "port" = some (.int port.toNat)
    | some (.v6 ip port) => o.lookup "ipv4" = none ∧ o.lookup "ipv6" = some (.str (v6Text ip)) ∧ o.lookup "port" = some (.int port.toNat)

/-- The JSON value describes the span, as Zipkin's API (version 2) reads it: no entry occurs twice; ids are hexadecimal; times are whole microseconds; the tags are those of
`expectedTag`. -/
structure DescribesSpan {V : Type} (v6Text : BitVec 128 → Str) (toText : V → Str) (epoch : Time) (addr : Option SocketAddr) (x : Exported (Str × V) Scope) (o : Obj) : Prop where
  once : (o.map Prod.fst).Nodup
  traceId : ∃ t, o.lookup "traceId" = some (.str t) ∧ t.length = 32 ∧ TraceId.fromHex t = some x.spanContext.traceId
  id : ∃ t, o.lookup "id" = some (.str t) ∧ t.length = 16 ∧ SpanId.fromHex t = some x.spanContext.spanId
  parentId : ∃ t, o.lookup "parentId" = some (.str t) ∧ t.length = 16 ∧ SpanId.fromHex t = some x.data.parentSpanId
  name : o.lookup "name" = some (.str x.data.name)
  kind : o.lookup "kind" = expectedKind x
  timestamp : WholeMicros epoch x.data.startTime (o.lookup "timestamp")
  duration : WholeMicros x.data.startTime x.data.endTime (o.lookup "duration")
  annotations : ∃ js, o.lookup "annotations" = some (.arr js) ∧ List.Forall₂ (DescribesEvent epoch) x.data.events.events js
  tags : ∃ ts : Obj, o.lookup "tags" = some (.obj ts) ∧ (ts.map Prod.fst).Nodup ∧ ∀ k : Str, ts.lookup (String.ofList k) = (expectedTag toText x k).map .str
  localEndpoint : DescribesAddr v6Text addr (o.lookup "localEndpoint")
  remoteEndpoint : o.lookup "remoteEndpoint" = none
  flags : o.lookup "debug" = some (.bool false) ∧ o.lookup "shared" = some (.bool false)

/-! ## Lemmas -/

theorem floats_list_nil {xs : List Json} (h : ∀ x ∈ xs, floats x = []) : floatsList xs = [] := by
  induction xs with
  | nil => rw [floatsList]
  | cons x xs ih => rw [floatsList, h x (by simp), ih fun y hy => h y (by simp [hy])]; rfl

theorem floats_obj_nil {fs : Obj} (h : ∀ p ∈ fs, floats p.2 = []) : floatsObj fs = [] := by
  induction fs with
  | nil => rw [floatsObj]
  | cons p fs ih =>
    obtain ⟨k, x⟩ := p
    rw [floatsObj, h (k, x) (by simp), ih fun y hy => h y (by simp [hy])]; rfl

theorem floats_encZSpan (order : List (Str × Str) → List (Str × Str)) (v6Text : BitVec 128 → Str) (s : ZSpan Endpoint) : floats (encZSpan order v6Text s) = [] := by
  have hk : ∀ p ∈ (s.kind.map fun k => ("kind", Json.str (kindText k))).toList, floats p.2 = [] := by
    cases s.kind <;> simp [floats]
  have he : floats (encEndpoint v6Text s.localEndpoint) = [] := by
    rw [encEndpoint, floats]
    apply floats_obj_nil
    cases s.localEndpoint.ipv4 <;> cases s.localEndpoint.ipv6 <;> cases s.localEndpoint.port <;> simp [floats, encU]
  have ha : floats (.arr (s.annotations.map encAnnotation)) = [] := by
    rw [floats]
    apply floats_list_nil
    intro x hx
    obtain ⟨a, _, rfl⟩ := List.mem_map.1 hx
    simp [encAnnotation, floats, floatsObj]
  have ht : floats (.obj ((order s.tags).map fun p => (String.ofList p.1, Json.str p.2))) = [] := by
    rw [floats]
    apply floats_obj_nil
    intro p hp
    obtain ⟨a, _, rfl⟩ := List.mem_map.1 hp
    simp [floats]
  rw [encZSpan, floats]
  apply floats_obj_nil
  intro p hp
  simp only [List.mem_append, List.mem_cons, List.not_mem_nil, or_false] at hp
  rcases hp with ((rfl | rfl | rfl) | hp) | rfl | rfl | rfl | rfl | rfl | rfl | rfl | rfl
  any_goals exact hk p hp
  all_goals first | exact he | exact ha | exact ht | simp [floats]

theorem wholeMicros (a b : Time) : WholeMicros a b (some (.int (micros b a))) := by
  refine ⟨micros b a, rfl, fun h => ?_, fun h h2 => ?_⟩
  · rw [micros, if_neg (Nat.not_le.2 h)]; rfl
  · show micros b a * 1000 ≤ (b - a : Nat) ∧ (b - a : Nat) < micros b a * 1000 + 1000
    rw [micros, if_pos h, Nat.mod_eq_of_lt (Nat.div_lt_of_lt_mul h2)]
    have key : ∀ d : Nat, d / 1000 * 1000 ≤ d ∧ d < d / 1000 * 1000 + 1000 := by intro d; omega
    exact key _

theorem lookup_tags (m : List (Str × Str)) (k : Str) :
    (m.map fun p => (String.ofList p.1, Json.str p.2)).lookup (String.ofList k) = (Assoc.get m k).map Json.str := by
  induction m with
  | nil => rfl
  | cons p m ih =>
    obtain ⟨a, v⟩ := p
    rw [List.map_cons, List.lookup_cons]
    by_cases h : k = a
    · subst h
      simp [Assoc.get]
    · have hne : (String.ofList k == String.ofList a) = false := by
        rw [beq_eq_false_iff_ne]
        intro h'
        exact h (String.ofList_injective h')
      simp only [hne]
      rw [ih]
      simp [Assoc.get, h]

theorem get_iff_mem {m : List (Str × Str)} (h : (m.map Prod.fst).Nodup) (k v : Str) : Assoc.get m k = some v ↔ (k, v) ∈ m := by
  induction m with
  | nil => simp [Assoc.get]
  | cons p m ih =>
    obtain ⟨a, w⟩ := p
    rw [List.map_cons, List.nodup_cons] at h
    by_cases hk : k = a
    · subst hk
      have hno : (k, v) ∉ m := fun hm => h.1 (List.mem_map.2 ⟨(k, v), hm, rfl⟩)
      simp only [Assoc.get, if_true, Option.some.injEq, List.mem_cons, Prod.mk.injEq, true_and, hno, or_false]
      exact eq_comm
    · simp [Assoc.get, hk, ih h.2]

theorem get_perm {m m' : List (Str × Str)} (hp : m'.Perm m) (h : (m.map Prod.fst).Nodup) (k : Str) : Assoc.get m' k = Assoc.get m k := by
  have h' : (m'.map Prod.fst).Nodup := (hp.map _).nodup_iff.2 h
  apply Option.ext
  intro v
  rw [get_iff_mem h', get_iff_mem h, hp.mem_iff]

/-! ## C119 -/

section
variable {V : Type} (order : List (Str × Str) → List (Str × Str)) (horder : ∀ l, (order l).Perm l) (v6Text : BitVec 128 → Str) (toText : V → Str) (ofText : Str → V) (epoch : Time) (addr : Option SocketAddr)

include horder in
theorem describes_span (hText : ∀ s, toText (ofText s) = s) (x : Exported (Str × V) Scope) :
    ∃ o, encZSpan order v6Text (intoZipkin toText ofText epoch (.new addr) x) = .obj o ∧ DescribesSpan v6Text toText epoch addr x o := by
  obtain ⟨i1, i2, i3, i4, i5⟩ := ids_exact toText ofText epoch (Endpoint.new addr) x
  have i6 : (intoZipkin toText ofText epoch (Endpoint.new addr) x).parentId.length = 16 := (id_text_shape x.spanContext.traceId x.data.parentSpanId).2.1
  have hkind : (intoZipkin toText ofText epoch (Endpoint.new addr) x).kind.map (fun k => Json.str (kindText k)) = expectedKind x := by
    show (if x.data.attributes.any (fun kv => decide (kv.1 = keyKind)) then none else zipkinKind x.data.spanKind).map _ = _
    unfold expectedKind
    by_cases h : ∃ kv ∈ x.data.attributes, kv.1 = "span.kind".toList
    · rw [if_pos h, if_pos]
      · rfl
      · rw [List.any_eq_true]
        obtain ⟨kv, h1, h2⟩ := h
        exact ⟨kv, h1, decide_eq_true h2⟩
    · rw [if_neg h, if_neg]
      · cases x.data.spanKind <;> rfl
      · rw [List.any_eq_true]
        rintro ⟨kv, h1, h2⟩
        exact h ⟨kv, h1, of_decide_eq_true h2⟩
  refine ⟨_, rfl, ?_⟩
  generalize hz : intoZipkin toText ofText epoch (Endpoint.new addr) x = z at *
  have hT : z.timestamp = micros x.data.startTime epoch := by rw [← hz]; rfl
  have hD : z.duration = micros x.data.endTime x.data.startTime := by rw [← hz]; rfl
  have hN : z.name = x.data.name := by rw [← hz]; rfl
  have hA : z.annotations = x.data.events.events.map (annotation epoch) := by rw [← hz]; rfl
  have hE : z.localEndpoint = Endpoint.new addr := by rw [← hz]; rfl
  have hG : ∀ k, Assoc.get z.tags k = expectedTag toText x k := by rw [← hz]; exact tags_exact toText ofText epoch _ hText x
  have hGn : (z.tags.map Prod.fst).Nodup := by rw [← hz]; exact tags_nodup toText ofText epoch _ x
  have look : ∀ k j, k ≠ "kind" → ([("traceId", Json.str z.traceId), ("parentId", .str z.parentId), ("id", .str z.id), ("name", .str z.name), ("timestamp", .int z.timestamp),
      ("duration", .int z.duration), ("localEndpoint", encEndpoint v6Text z.localEndpoint), ("annotations", .arr (z.annotations.map encAnnotation)),
      ("tags", .obj ((order z.tags).map fun p => (String.ofList p.1, .str p.2))), ("debug", .bool false), ("shared", .bool false)] : Obj).lookup k = j →
      ([("traceId", Json.str z.traceId), ("parentId", .str z.parentId), ("id", .str z.id)] ++ (z.kind.map fun k => ("kind", Json.str (kindText k))).toList ++
        [("name", .str z.name), ("timestamp", .int z.timestamp), ("duration", .int z.duration), ("localEndpoint", encEndpoint v6Text z.localEndpoint),
        ("annotations", .arr (z.annotations.map encAnnotation)), ("tags", .obj ((order z.tags).map fun p => (String.ofList p.1, .str p.2))),
        ("debug", .bool false), ("shared", .bool false)] : Obj).lookup k = j := by
    intro k j hk h
    have hb : (k == "kind") = false := by rw [beq_eq_false_iff_ne]; exact hk
    rw [← h]
    cases z.kind with
    | none => rfl
    | some kd => simp [List.lookup_cons, hb]
  constructor
  · cases z.kind <;> simp
  · exact ⟨z.traceId, look _ _ (by decide) rfl, i4, i1⟩
  · exact ⟨z.id, look _ _ (by decide) rfl, i5, i2⟩
  · exact ⟨z.parentId, look _ _ (by decide) rfl, i6, i3⟩
  · rw [← hN]; exact look _ _ (by decide) rfl
  · rw [← hkind]
    cases z.kind <;> rfl
  · rw [look "timestamp" _ (by decide) rfl]
    show WholeMicros _ _ (some (.int z.timestamp))
    rw [hT]; exact wholeMicros _ _
  · rw [look "duration" _ (by decide) rfl]
    show WholeMicros _ _ (some (.int z.duration))
    rw [hD]; exact wholeMicros _ _
  · refine ⟨z.annotations.map encAnnotation, look _ _ (by decide) rfl, ?_⟩
    rw [hA, List.map_map, List.forall₂_map_right_iff, List.forall₂_same]
    intro e _
    exact ⟨_, rfl, by simp, wholeMicros _ _, rfl⟩
  · refine ⟨_, look _ _ (by decide) rfl, ?_, fun k => ?_⟩
    · rw [List.map_map]
      have : (Prod.fst ∘ fun p : Str × Str => (String.ofList p.1, Json.str p.2)) = String.ofList ∘ Prod.fst := rfl
      rw [this, ← List.map_map]
      exact (((horder _).map _).nodup_iff.2 hGn).map fun _ _ h => String.ofList_injective h
    · rw [lookup_tags, get_perm (horder _) hGn, hG]
  · refine ⟨_, (look "localEndpoint" _ (by decide) rfl).trans rfl, ?_, ?_⟩
    · rw [hE]
      cases addr with
      | none => simp [Endpoint.new]
      | some a => cases a <;> simp [Endpoint.new]
    · rw [hE]
      cases addr with
      | none => rfl
      | some a =>
        cases a with
        | v4 a b c d port =>
          refine ⟨?_, rfl, rfl⟩
          simp [Endpoint.new, v4Text, List.intercalate]
        | v6 ip port => exact ⟨rfl, rfl, rfl⟩
  · exact look _ _ (by decide) rfl
  · exact ⟨look _ _ (by decide) rfl, look _ _ (by decide) rfl⟩

include horder in
/-- C119. The body of the request is a JSON array with one object for every span of the batch, in order, and each object describes its span: whatever characters are in
names, tags, messages and events, and whatever attributes there are. -/
theorem zipkin_body_describes (hText : ∀ s, toText (ofText s) = s) (rf : Str → BitVec 64) (batch : List (Exported (Str × V) Scope)) :
    ∃ os : List Obj, parse rf (zipkinBody order v6Text toText ofText epoch addr batch) = some (.arr (os.map .obj)) ∧
      List.Forall₂ (DescribesSpan v6Text toText epoch addr) batch os := by
  have hfl : floats (.arr (batch.map fun x => encZSpan order v6Text (intoZipkin toText ofText epoch (.new addr) x))) = [] := by
    rw [floats]
    apply floats_list_nil
    intro j hj
    obtain ⟨x, _, rfl⟩ := List.mem_map.1 hj
    exact floats_encZSpan _ _ _
  have hp : parse rf (zipkinBody order v6Text toText ofText epoch addr batch) =
      some (.arr (batch.map fun x => encZSpan order v6Text (intoZipkin toText ofText epoch (.new addr) x))) := by
    rw [zipkinBody, text_read_back (.inl rfl) _ rf _ (by rw [hfl]; simp), reparse_exact _ (by rw [hfl]; simp)]
  rw [hp]
  clear hp hfl
  induction batch with
  | nil => exact ⟨[], rfl, .nil⟩
  | cons x batch ih =>
    obtain ⟨os, h1, h2⟩ := ih
    obtain ⟨o, h3, h4⟩ := describes_span order horder v6Text toText ofText epoch addr hText x
    refine ⟨o :: os, ?_, .cons h4 h2⟩
    simp only [Option.some.injEq, Json.arr.injEq] at h1
    simp only [List.map_cons, h1, h3]

end

/-- A batch with a quote and a line break in a tag, and its body. -/
example : zipkinBody (V := Str) List.reverse (fun _ => []) id id 0 (some (.v4 127 0 0 1 8080)) [exampleSpan [("a\"b".toList, "x\ny".toList)] (.error "bad".toList) .client] =
    "[{\"traceId\":\"00000000000000000000000000000001\",\"parentId\":\"0000000000000000\",\"id\":\"0000000000000002\",\"kind\":\"CLIENT\",\"name\":\"op\",\"timestamp\":5,\"duration\":3,\"localEndpoint\":{\"ipv4\":\"127.0.0.1\",\"port\":8080},\"annotations\":[{\"timestamp\":6,\"value\":\"e\"}],\"tags\":{\"a\\\"b\":\"x\\ny\",\"otel.library.name\":\"lib\",\"otel.library.version\":\"1\",\"otel.status_code\":\"ERROR\",\"error\":\"bad\"},\"debug\":false,\"shared\":false}]".toList := by
  decide +kernel

end Otel.Zipkin
