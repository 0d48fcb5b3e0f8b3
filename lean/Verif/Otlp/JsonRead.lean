import Verif.Otlp.JsonLemmas
/-!
# C84: the reader reads back what was written
-/

namespace Otel.Otlp.Json
open Rust

section
variable {rd : BitVec 64 → BitVec 64}

@[simp] theorem reparse_encU {w : Nat} (n : BitVec w) : reparse rd (encU n) = encU n := rfl
@[simp] theorem reparse_encI {w : Nat} (n : BitVec w) : reparse rd (encI n) = encI n := rfl
@[simp] theorem reparse_encTime (n : BitVec 64) : reparse rd (encTime n) = encTime n := rfl
@[simp] theorem reparse_encHex (bs : List Byte) : reparse rd (encHex bs) = encHex bs := rfl
@[simp] theorem depth_encU {w : Nat} (n : BitVec w) : (encU n).depth = 0 := by simp [encU, Json.depth]
@[simp] theorem depth_encI {w : Nat} (n : BitVec w) : (encI n).depth = 0 := by simp [encI, Json.depth]
@[simp] theorem depth_encTime (n : BitVec 64) : (encTime n).depth = 0 := by simp [encTime, Json.depth]
@[simp] theorem depth_encHex (bs : List Byte) : (encHex bs).depth = 0 := by simp [encHex, Json.depth]
@[simp] theorem depth_str (s : Str) : (Json.str s).depth = 0 := by simp [Json.depth]
@[simp] theorem depth_bool (b : Bool) : (Json.bool b).depth = 0 := by simp [Json.depth]

variable (cast : Int → BitVec 64) {d : Nat}

theorem faithful_scope (h1 : 1 ≤ d) (hd : d < maxDepth) {s : Scope} (h : ∀ v ∈ attrValues s.attributes, GoodVal rd d v) :
    Faithful rd encScope (decScope cast) (d + 3) s := by
  have ha := faithful_attrs cast h1 hd h
  refine ⟨?_, ?_, faithful_depth_obj ?_⟩
  · simp only [decScope, encScope]
    rw [entries_obj (by simp)]
    simp -implicitDefEqProofs [fieldOr, get_cons, decStr, ha.read, decU_encU]
  · simp [encScope, reparse, reparseObj, ha.text]
  · simp [ha.depth]

theorem faithful_res (h1 : 1 ≤ d) (hd : d < maxDepth) {s : Res} (h : ∀ v ∈ attrValues s.attributes, GoodVal rd d v) :
    Faithful rd encRes (decRes cast) (d + 3) s := by
  have ha := faithful_attrs cast h1 hd h
  refine ⟨?_, ?_, faithful_depth_obj ?_⟩
  · simp only [decRes, encRes]
    rw [entries_obj (by simp)]
    simp -implicitDefEqProofs [fieldOr, get_cons, ha.read, decU_encU]
  · simp [encRes, reparse, reparseObj, ha.text]
  · simp [ha.depth]

theorem faithful_event (h1 : 1 ≤ d) (hd : d < maxDepth) {s : Event} (h : ∀ v ∈ attrValues s.attributes, GoodVal rd d v) :
    Faithful rd encEvent (decEvent cast) (d + 3) s := by
  have ha := faithful_attrs cast h1 hd h
  refine ⟨?_, ?_, faithful_depth_obj ?_⟩
  · simp only [decEvent, encEvent]
    rw [entries_obj (by simp)]
    simp -implicitDefEqProofs [fieldOr, get_cons, decStr, ha.read, decU_encU, decTime_encTime]
  · simp [encEvent, reparse, reparseObj, ha.text]
  · simp [ha.depth]

theorem faithful_link (h1 : 1 ≤ d) (hd : d < maxDepth) {s : Link} (h : ∀ v ∈ attrValues s.attributes, GoodVal rd d v) :
    Faithful rd encLink (decLink cast) (d + 3) s := by
  have ha := faithful_attrs cast h1 hd h
  refine ⟨?_, ?_, faithful_depth_obj ?_⟩
  · simp only [decLink, encLink]
    rw [entries_obj (by simp)]
    simp -implicitDefEqProofs [fieldOr, get_cons, decStr, ha.read, decU_encU, decHex_encHex]
  · simp [encLink, reparse, reparseObj, ha.text]
  · simp [ha.depth]

theorem faithful_status {s : Status} : Faithful rd encStatus decStatus 1 s := by
  refine ⟨?_, ?_, faithful_depth_obj ?_⟩
  · simp only [decStatus, encStatus]
    rw [entries_obj (by simp)]
    simp -implicitDefEqProofs [fieldOr, get_cons, decStr, decI_encI]
  · simp [encStatus, reparse, reparseObj]
  · simp

theorem faithful_span (h1 : 1 ≤ d) (hd : d < maxDepth) {s : Span} (h : ∀ v ∈ s.values, GoodVal rd d v) :
    Faithful rd encSpan (decSpan cast) (d + 5) s := by
  have ha := faithful_attrs cast h1 hd (kvs := s.attributes) fun v hv => h v (by simp only [Span.values, List.mem_append]; exact .inl (.inl hv))
  have he : Faithful rd (encArr encEvent) (decArr (decEvent cast)) (d + 4) s.events :=
    faithful_arr fun e he => faithful_event cast h1 hd fun v hv => h v (by
      simp only [Span.values, List.mem_append]; exact .inl (.inr (List.mem_flatMap.2 ⟨e, he, hv⟩)))
  have hl : Faithful rd (encArr encLink) (decArr (decLink cast)) (d + 4) s.links :=
    faithful_arr fun e he => faithful_link cast h1 hd fun v hv => h v (by
      simp only [Span.values, List.mem_append]; exact .inr (List.mem_flatMap.2 ⟨e, he, hv⟩))
  have hs : Faithful rd (encOpt encStatus) (decOpt decStatus) 1 s.status :=
    faithful_opt (fun a _ => by simp [encStatus]) fun a _ => faithful_status
  refine ⟨?_, ?_, faithful_depth_obj ?_⟩
  · simp only [decSpan, encSpan]
    rw [entries_obj (by simp)]
    simp -implicitDefEqProofs [fieldOr, fieldOpt, get_cons, decStr, ha.read, he.read, hl.read, hs.read, decU_encU, decHex_encHex, decI_encI, decTime_encTime]
  · simp [encSpan, reparse, reparseObj, ha.text, he.text, hl.text, hs.text]
  · have := ha.depth; have := he.depth; have := hl.depth; have := hs.depth
    simp only [List.mem_cons, List.not_mem_nil, or_false, forall_eq_or_imp, forall_eq, depth_encU, depth_encI, depth_encTime, depth_encHex, depth_str]
    omega

theorem faithful_log (h1 : 1 ≤ d) (hd : d < maxDepth) {r : LogRecord} (h : ∀ v ∈ r.values, GoodVal rd d v) :
    Faithful rd encLog (decLog cast) (d + 3) r := by
  have ha := faithful_attrs cast h1 hd (kvs := r.attributes) fun v hv => h v (by simp only [LogRecord.values, List.mem_append]; exact .inr hv)
  have hb : Faithful rd (encOpt encAny) (decOpt (decAny cast maxDepth)) d r.body :=
    faithful_opt (fun a _ => by cases a <;> simp [encAny]) fun a h' => faithful_any cast (by omega) (h a (by
      simp only [LogRecord.values, List.mem_append]; exact .inl h'))
  refine ⟨?_, ?_, faithful_depth_obj ?_⟩
  · simp only [decLog, encLog]
    rw [entries_obj (by simp)]
    simp -implicitDefEqProofs [fieldOr, fieldOpt, get_cons, decStr, ha.read, hb.read, decU_encU, decHex_encHex, decI_encI, decTime_encTime]
  · simp [encLog, reparse, reparseObj, ha.text, hb.text]
  · have := ha.depth; have := hb.depth
    simp only [List.mem_cons, List.not_mem_nil, or_false, forall_eq_or_imp, forall_eq, depth_encU, depth_encI, depth_encTime, depth_encHex, depth_str]
    omega

/-! ## Metrics -/

theorem numVariant {v : Num} (h : ∀ f ∈ v.doubles, GoodF64 rd f) :
    ((numVariants cast).find? (·.1 == (encNum v).1)).bind (fun r => r.2 (encNum v).2) = some v := by
  cases v with
  | asDouble f =>
    have := decF64_encF64 cast (h f (by simp [Num.doubles])).finite
    simp [encNum, numVariants, this]
  | asInt i => simp [encNum, numVariants, decI_encI]

theorem reparse_encNum {v : Num} (h : ∀ f ∈ v.doubles, GoodF64 rd f) : reparse rd (encNum v).2 = (encNum v).2 := by
  cases v with
  | asDouble f => exact reparse_encF64 (h f (by simp [Num.doubles])).exact
  | asInt i => rfl

theorem depth_encNum (v : Num) : (encNum v).2.depth = 0 := by cases v <;> simp [encNum, depth_encF64]

theorem encNum_name (v : Num) : (encNum v).1 = "asDouble" ∨ (encNum v).1 = "asInt" := by cases v <;> simp [encNum]

theorem faithful_exemplar (h1 : 1 ≤ d) (hd : d < maxDepth) {e : Exemplar} (h : ∀ v ∈ e.values, GoodVal rd d v) (hf : ∀ f ∈ e.doubles, GoodF64 rd f) :
    Faithful rd encExemplar (decExemplar cast) (d + 3) e := by
  have ha := faithful_attrs cast h1 hd (kvs := e.filteredAttributes) h
  have hv : Faithful rd (encOpt fun v => .obj [encNum v]) (decOpt (tagged (numVariants cast))) 1 e.value := by
    refine faithful_opt (fun a _ => by simp) fun a ha => ?_
    have hg : ∀ f ∈ a.doubles, GoodF64 rd f := fun f h' => hf f (List.mem_flatMap.2 ⟨a, ha, h'⟩)
    refine ⟨numVariant cast hg, ?_, faithful_depth_obj (by simp [depth_encNum])⟩
    have := reparse_encNum hg
    generalize hq : encNum a = q at this ⊢
    obtain ⟨k, j⟩ := q
    simp only [reparse, reparseObj, this]
  refine ⟨?_, ?_, faithful_depth_obj ?_⟩
  · simp only [decExemplar, encExemplar]
    rw [entries_obj (by simp)]
    simp -implicitDefEqProofs [field, fieldOr, fieldOpt, get_cons, ha.read, hv.read, decU_encU, decHex_encHex]
  · simp [encExemplar, reparse, reparseObj, ha.text, hv.text]
  · have := ha.depth; have := hv.depth
    simp only [List.mem_cons, List.not_mem_nil, or_false, forall_eq_or_imp, forall_eq, depth_encU, depth_encI, depth_encTime, depth_encHex, depth_str]
    omega

theorem faithful_exemplars (h1 : 1 ≤ d) (hd : d < maxDepth) {es : List Exemplar} (h : ∀ v ∈ es.flatMap Exemplar.values, GoodVal rd d v)
    (hf : ∀ f ∈ es.flatMap Exemplar.doubles, GoodF64 rd f) : Faithful rd (encArr encExemplar) (decArr (decExemplar cast)) (d + 4) es :=
  faithful_arr fun e he => faithful_exemplar cast h1 hd (fun v hv => h v (List.mem_flatMap.2 ⟨e, he, hv⟩)) fun f h' => hf f (List.mem_flatMap.2 ⟨e, he, h'⟩)

theorem faithful_optF64 {o : Option (BitVec 64)} (h : ∀ f ∈ o.toList, GoodF64 rd f) : Faithful rd (encOpt encF64) (decOpt (decF64 cast)) 0 o :=
  faithful_opt (fun a ha => encF64_ne_null (h a (by simp [ha]))) fun a ha => faithful_f64 cast (h a ha)

theorem faithful_counts (ns : List (BitVec 64)) : Faithful rd (encArr encU) (decArr (decU 64)) 1 ns := faithful_arr fun n _ => faithful_u n

/-- Entries with another name do not matter for the fields. -/
theorem get_append {o : Obj} {e : Option (String × Json)} {k : String} (h : ∀ x ∈ e.toList, x.1 ≠ k) : get (o ++ e.toList) k = get o k := by
  unfold get
  rw [List.find?_append]
  have : e.toList.find? (fun x => x.1 == k) = none := List.find?_eq_none.2 fun x hx => by simpa using h x hx
  rw [this, Option.or_none]

theorem reparseObj_append (a b : Obj) : reparseObj rd (a ++ b) = reparseObj rd a ++ reparseObj rd b := by
  induction a with
  | nil => rfl
  | cons e a ih => obtain ⟨k, x⟩ := e; simp [reparseObj, ih]

theorem flat_append {α : Type} {o : Obj} {variants : List (String × (Json → Option α))} {e : Option (String × Json)}
    (h : ∀ x ∈ o, ∀ v ∈ variants, v.1 ≠ x.1) (he : ∀ x ∈ e.toList, ∃ v ∈ variants, v.1 = x.1) :
    flat (o ++ e.toList) variants = e.bind fun x => (variants.find? (·.1 == x.1)).bind fun v => v.2 x.2 := by
  unfold flat
  rw [List.find?_append]
  have hn : o.find? (fun x => variants.any (·.1 == x.1)) = none := List.find?_eq_none.2 fun x hx => by
    simp only [List.any_eq_true, beq_iff_eq, not_exists, not_and]
    exact h x hx
  rw [hn, Option.none_or]
  cases e with
  | none => rfl
  | some x =>
    have : variants.any (·.1 == x.1) = true := by
      obtain ⟨v, hv, hx⟩ := he x (by simp)
      exact List.any_eq_true.2 ⟨v, hv, by simpa using hx⟩
    simp [this]

theorem faithful_numPoint (h1 : 1 ≤ d) (hd : d < maxDepth) {p : NumPoint} (h : ∀ v ∈ p.values, GoodVal rd d v) (hf : ∀ f ∈ p.doubles, GoodF64 rd f) :
    Faithful rd encNumPoint (decNumPoint cast) (d + 5) p := by
  simp only [NumPoint.values, NumPoint.doubles, List.mem_append] at h hf
  have ha := faithful_attrs cast h1 hd (kvs := p.attributes) fun v hv => h v (.inl hv)
  have he := faithful_exemplars cast h1 hd (es := p.exemplars) (fun v hv => h v (.inr hv)) (fun f h' => hf f (.inl h'))
  have hg : ∀ v ∈ p.value.toList, ∀ f ∈ v.doubles, GoodF64 rd f := fun v hv f h' => hf f (.inr (List.mem_flatMap.2 ⟨v, hv, h'⟩))
  have hne : ∀ k, k ≠ "asDouble" → k ≠ "asInt" → ∀ x ∈ (p.value.map encNum).toList, x.1 ≠ k := by
    intro k h1 h2 x hx
    cases hv : p.value with
    | none => simp [hv] at hx
    | some v =>
      simp only [hv, Option.map_some, Option.toList_some, List.mem_singleton] at hx
      rcases encNum_name v with h | h <;> rw [hx, h] <;> exact Ne.symm ‹_›
  refine ⟨?_, ?_, ?_⟩
  · have hnd : ((([("attributes", encAttrs p.attributes), ("startTimeUnixNano", encTime p.startTimeUnixNano), ("timeUnixNano", encTime p.timeUnixNano),
        ("exemplars", encArr encExemplar p.exemplars), ("flags", encU p.flags)] : Obj) ++ (p.value.map encNum).toList).map (·.1)).Nodup := by
      cases hv : p.value with
      | none => simp
      | some v => rcases encNum_name v with h | h <;> simp [h]
    have hfl : flat (([("attributes", encAttrs p.attributes), ("startTimeUnixNano", encTime p.startTimeUnixNano), ("timeUnixNano", encTime p.timeUnixNano),
        ("exemplars", encArr encExemplar p.exemplars), ("flags", encU p.flags)] : Obj) ++ (p.value.map encNum).toList) (numVariants cast) = p.value := by
      rw [flat_append]
      · cases hv : p.value with
        | none => rfl
        | some v => exact numVariant cast (hg v (by simp [hv]))
      · simp [numVariants]
      · intro x hx
        cases hv : p.value with
        | none => simp [hv] at hx
        | some v =>
          simp only [hv, Option.map_some, Option.toList_some, List.mem_singleton] at hx
          rcases encNum_name v with h | h <;> simp [hx, h, numVariants]
    have g := fun k (h1 : k ≠ "asDouble") (h2 : k ≠ "asInt") => get_append (o := [("attributes", encAttrs p.attributes),
      ("startTimeUnixNano", encTime p.startTimeUnixNano), ("timeUnixNano", encTime p.timeUnixNano),
      ("exemplars", encArr encExemplar p.exemplars), ("flags", encU p.flags)]) (hne k h1 h2)
    have g1 := (g "attributes" (by simp) (by simp)).trans (b := _) (c := some (encAttrs p.attributes)) (by simp [get_cons])
    have g2 := (g "startTimeUnixNano" (by simp) (by simp)).trans (b := _) (c := some (encTime p.startTimeUnixNano)) (by simp [get_cons])
    have g3 := (g "timeUnixNano" (by simp) (by simp)).trans (b := _) (c := some (encTime p.timeUnixNano)) (by simp [get_cons])
    have g4 := (g "exemplars" (by simp) (by simp)).trans (b := _) (c := some (encArr encExemplar p.exemplars)) (by simp [get_cons])
    have g5 := (g "flags" (by simp) (by simp)).trans (b := _) (c := some (encU p.flags)) (by simp [get_cons])
    unfold decNumPoint encNumPoint
    rw [entries_obj hnd]
    generalize ([("attributes", encAttrs p.attributes), ("startTimeUnixNano", encTime p.startTimeUnixNano), ("timeUnixNano", encTime p.timeUnixNano),
        ("exemplars", encArr encExemplar p.exemplars), ("flags", encU p.flags)] : Obj) ++ (p.value.map encNum).toList = o at g1 g2 g3 g4 g5 hfl ⊢
    simp -implicitDefEqProofs [fieldOr, g1, g2, g3, g4, g5, hfl, ha.read, he.read, decTime_encTime, decU_encU]
  · rw [encNumPoint, reparse, reparseObj_append]
    simp only [reparseObj, reparse_encU, reparse_encTime, ha.text, he.text]
    cases hv : p.value with
    | none => rfl
    | some v =>
      have := reparse_encNum (hg v (by simp [hv]))
      simp only [Option.map_some, Option.toList_some]
      generalize hq : encNum v = q at this ⊢
      obtain ⟨k, j⟩ := q
      simp only [reparseObj, this]
  · refine faithful_depth_obj ?_
    have := ha.depth; have := he.depth
    refine List.forall_mem_append.2 ⟨?_, fun e h' => ?_⟩
    · simp only [List.mem_cons, List.not_mem_nil, or_false, forall_eq_or_imp, forall_eq, depth_encU, depth_encTime]
      omega
    · cases hv : p.value with
      | none => simp [hv] at h'
      | some v =>
        simp only [hv, Option.map_some, Option.toList_some, List.mem_singleton] at h'
        rw [h', depth_encNum]; omega

theorem faithful_histPoint (h1 : 1 ≤ d) (hd : d < maxDepth) {p : HistPoint} (h : ∀ v ∈ p.values, GoodVal rd d v) (hf : ∀ f ∈ p.doubles, GoodF64 rd f) :
    Faithful rd encHistPoint (decHistPoint cast) (d + 5) p := by
  simp only [HistPoint.values, HistPoint.doubles, List.mem_append] at h hf
  have ha := faithful_attrs cast h1 hd (kvs := p.attributes) fun v hv => h v (.inl hv)
  have he := faithful_exemplars cast h1 hd (es := p.exemplars) (fun v hv => h v (.inr hv)) (fun f h' => hf f (.inl (.inl (.inl (.inl h')))))
  have hs := faithful_optF64 cast (o := p.sum) fun f h' => hf f (.inl (.inl (.inl (.inr h'))))
  have hi := faithful_optF64 cast (o := p.min) fun f h' => hf f (.inl (.inl (.inr h')))
  have hm := faithful_optF64 cast (o := p.max) fun f h' => hf f (.inl (.inr h'))
  have hb : Faithful rd (encArr encF64) (decArr (decF64 cast)) 1 p.explicitBounds := faithful_arr fun f h' => faithful_f64 cast (hf f (.inr h'))
  have hc := faithful_counts (rd := rd) p.bucketCounts
  refine ⟨?_, ?_, faithful_depth_obj ?_⟩
  · simp only [decHistPoint, encHistPoint]
    rw [entries_obj (by simp)]
    simp -implicitDefEqProofs [fieldOr, fieldOpt, get_cons, ha.read, he.read, hs.read, hi.read, hm.read, hb.read, hc.read, decU_encU, decTime_encTime]
  · simp [encHistPoint, reparse, reparseObj, ha.text, he.text, hs.text, hi.text, hm.text, hb.text, hc.text]
  · have := ha.depth; have := he.depth; have := hs.depth; have := hi.depth; have := hm.depth; have := hb.depth; have := hc.depth
    simp only [List.mem_cons, List.not_mem_nil, or_false, forall_eq_or_imp, forall_eq, depth_encU, depth_encI, depth_encTime, depth_encHex, depth_str]
    omega

theorem faithful_buckets {b : Buckets} : Faithful rd encBuckets decBuckets 2 b := by
  have hc := faithful_counts (rd := rd) b.bucketCounts
  refine ⟨?_, ?_, faithful_depth_obj ?_⟩
  · simp only [decBuckets, encBuckets]
    rw [entries_obj (by simp)]
    simp -implicitDefEqProofs [field, get_cons, hc.read, decI_encI]
  · simp [encBuckets, reparse, reparseObj, hc.text]
  · simp [hc.depth]

theorem faithful_expoPoint (h1 : 1 ≤ d) (hd : d < maxDepth) {p : ExpoPoint} (h : ∀ v ∈ p.values, GoodVal rd d v) (hf : ∀ f ∈ p.doubles, GoodF64 rd f) :
    Faithful rd encExpoPoint (decExpoPoint cast) (d + 5) p := by
  simp only [ExpoPoint.values, ExpoPoint.doubles, List.mem_append] at h hf
  have ha := faithful_attrs cast h1 hd (kvs := p.attributes) fun v hv => h v (.inl hv)
  have he := faithful_exemplars cast h1 hd (es := p.exemplars) (fun v hv => h v (.inr hv)) (fun f h' => hf f (.inl (.inl (.inl (.inl h')))))
  have hs := faithful_optF64 cast (o := p.sum) fun f h' => hf f (.inl (.inl (.inl (.inr h'))))
  have hi := faithful_optF64 cast (o := p.min) fun f h' => hf f (.inl (.inl (.inr h')))
  have hm := faithful_optF64 cast (o := p.max) fun f h' => hf f (.inl (.inr h'))
  have hz := faithful_f64 cast (hf p.zeroThreshold (.inr (by simp)))
  have hp : Faithful rd (encOpt encBuckets) (decOpt decBuckets) 2 p.positive := faithful_opt (fun a _ => by simp [encBuckets]) fun a _ => faithful_buckets
  have hn : Faithful rd (encOpt encBuckets) (decOpt decBuckets) 2 p.negative := faithful_opt (fun a _ => by simp [encBuckets]) fun a _ => faithful_buckets
  refine ⟨?_, ?_, faithful_depth_obj ?_⟩
  · simp only [decExpoPoint, encExpoPoint]
    rw [entries_obj (by simp)]
    simp -implicitDefEqProofs [field, fieldOr, fieldOpt, get_cons, ha.read, he.read, hs.read, hi.read, hm.read, hz.read, hp.read, hn.read, decU_encU, decI_encI]
  · simp [encExpoPoint, reparse, reparseObj, ha.text, he.text, hs.text, hi.text, hm.text, hz.text, hp.text, hn.text]
  · have := ha.depth; have := he.depth; have := hs.depth; have := hi.depth; have := hm.depth; have := hz.depth; have := hp.depth; have := hn.depth
    simp only [List.mem_cons, List.not_mem_nil, or_false, forall_eq_or_imp, forall_eq, depth_encU, depth_encI, depth_encTime, depth_encHex, depth_str]
    omega

theorem encData_name (v : Data) : (encData v).1 ∈ ["gauge", "sum", "histogram", "exponentialHistogram"] := by cases v <;> simp [encData]

theorem faithful_data (h1 : 1 ≤ d) (hd : d < maxDepth) {v : Data} (h : ∀ x ∈ v.values, GoodVal rd d x) (hf : ∀ f ∈ v.doubles, GoodF64 rd f) :
    ((dataVariants cast).find? (·.1 == (encData v).1)).bind (fun r => r.2 (encData v).2) = some v ∧
      reparse rd (encData v).2 = (encData v).2 ∧ (encData v).2.depth ≤ d + 7 := by
  have num (ps : List NumPoint) (h : ∀ x ∈ ps.flatMap NumPoint.values, GoodVal rd d x) (hf : ∀ f ∈ ps.flatMap NumPoint.doubles, GoodF64 rd f) :
      Faithful rd (encArr encNumPoint) (decArr (decNumPoint cast)) (d + 6) ps :=
    faithful_arr fun p hp => faithful_numPoint cast h1 hd (fun x hx => h x (List.mem_flatMap.2 ⟨p, hp, hx⟩)) fun f h' => hf f (List.mem_flatMap.2 ⟨p, hp, h'⟩)
  cases v with
  | gauge ps =>
    have hp := num ps h hf
    refine ⟨?_, ?_, faithful_depth_obj ?_⟩
    · simp only [encData, dataVariants, List.find?_cons, String.reduceBEq, Option.bind_some, decGauge]
      rw [entries_obj (by simp)]
      simp -implicitDefEqProofs [fieldOr, get_cons, hp.read]
    · simp [encData, reparse, reparseObj, hp.text]
    · simp [hp.depth]
  | sum ps t m =>
    have hp := num ps h hf
    refine ⟨?_, ?_, faithful_depth_obj ?_⟩
    · simp only [encData, dataVariants, List.find?_cons, String.reduceBEq, Option.bind_some, decSum]
      rw [entries_obj (by simp)]
      simp -implicitDefEqProofs [fieldOr, get_cons, hp.read, decI_encI, decBool]
    · simp [encData, reparse, reparseObj, hp.text]
    · simp [hp.depth]
  | histogram ps t =>
    have hp : Faithful rd (encArr encHistPoint) (decArr (decHistPoint cast)) (d + 6) ps :=
      faithful_arr fun p hp => faithful_histPoint cast h1 hd (fun x hx => h x (List.mem_flatMap.2 ⟨p, hp, hx⟩)) fun f h' => hf f (List.mem_flatMap.2 ⟨p, hp, h'⟩)
    refine ⟨?_, ?_, faithful_depth_obj ?_⟩
    · simp only [encData, dataVariants, List.find?_cons, String.reduceBEq, Option.bind_some, decHistogram]
      rw [entries_obj (by simp)]
      simp -implicitDefEqProofs [fieldOr, get_cons, hp.read, decI_encI]
    · simp [encData, reparse, reparseObj, hp.text]
    · simp [hp.depth]
  | expo ps t =>
    have hp : Faithful rd (encArr encExpoPoint) (decArr (decExpoPoint cast)) (d + 6) ps :=
      faithful_arr fun p hp => faithful_expoPoint cast h1 hd (fun x hx => h x (List.mem_flatMap.2 ⟨p, hp, hx⟩)) fun f h' => hf f (List.mem_flatMap.2 ⟨p, hp, h'⟩)
    refine ⟨?_, ?_, faithful_depth_obj ?_⟩
    · simp only [encData, dataVariants, List.find?_cons, String.reduceBEq, Option.bind_some, decExpo]
      rw [entries_obj (by simp)]
      simp -implicitDefEqProofs [fieldOr, get_cons, hp.read, decI_encI]
    · simp [encData, reparse, reparseObj, hp.text]
    · simp [hp.depth]

theorem faithful_metric (h1 : 1 ≤ d) (hd : d < maxDepth) {m : Metric} (h : ∀ v ∈ m.values, GoodVal rd d v)
    (hf : ∀ f ∈ m.data.toList.flatMap Data.doubles, GoodF64 rd f) : Faithful rd encMetric (decMetric cast) (d + 8) m := by
  simp only [Metric.values, List.mem_append] at h
  have ha := faithful_attrs cast h1 hd (kvs := m.metadata) fun v hv => h v (.inl hv)
  have hg := fun v hv => faithful_data cast h1 hd (v := v) (fun x hx => h x (.inr (List.mem_flatMap.2 ⟨v, hv, hx⟩))) (fun f h' => hf f (List.mem_flatMap.2 ⟨v, hv, h'⟩))
  have hne : ∀ k, k ∉ ["gauge", "sum", "histogram", "exponentialHistogram"] → ∀ x ∈ (m.data.map encData).toList, x.1 ≠ k := by
    intro k h1 x hx
    cases hv : m.data with
    | none => simp [hv] at hx
    | some v =>
      simp only [hv, Option.map_some, Option.toList_some, List.mem_singleton] at hx
      intro he
      exact h1 (he ▸ hx ▸ encData_name v)
  refine ⟨?_, ?_, ?_⟩
  · have hnd : ((([("name", .str m.name), ("description", .str m.description), ("unit", .str m.unit), ("metadata", encAttrs m.metadata)] : Obj) ++
        (m.data.map encData).toList).map (·.1)).Nodup := by
      cases hv : m.data with
      | none => simp
      | some v =>
        have := encData_name v
        simp only [List.mem_cons, List.not_mem_nil, or_false] at this
        rcases this with h | h | h | h <;> simp [h]
    have hfl : flat (([("name", .str m.name), ("description", .str m.description), ("unit", .str m.unit), ("metadata", encAttrs m.metadata)] : Obj) ++
        (m.data.map encData).toList) (dataVariants cast) = m.data := by
      rw [flat_append]
      · cases hv : m.data with
        | none => rfl
        | some v => exact (hg v (by simp [hv])).1
      · simp [dataVariants]
      · intro x hx
        cases hv : m.data with
        | none => simp [hv] at hx
        | some v =>
          simp only [hv, Option.map_some, Option.toList_some, List.mem_singleton] at hx
          have := encData_name v
          rw [hx]
          simp only [List.mem_cons, List.not_mem_nil, or_false] at this
          rcases this with h | h | h | h <;> simp [h, dataVariants]
    have g := fun k h1 => get_append (o := [("name", .str m.name), ("description", .str m.description), ("unit", .str m.unit), ("metadata", encAttrs m.metadata)])
      (hne k h1)
    have g1 := (g "name" (by simp)).trans (b := _) (c := some (.str m.name)) (by simp [get_cons])
    have g2 := (g "description" (by simp)).trans (b := _) (c := some (.str m.description)) (by simp [get_cons])
    have g3 := (g "unit" (by simp)).trans (b := _) (c := some (.str m.unit)) (by simp [get_cons])
    have g4 := (g "metadata" (by simp)).trans (b := _) (c := some (encAttrs m.metadata)) (by simp [get_cons])
    unfold decMetric encMetric
    rw [entries_obj hnd]
    generalize ([("name", .str m.name), ("description", .str m.description), ("unit", .str m.unit), ("metadata", encAttrs m.metadata)] : Obj) ++
        (m.data.map encData).toList = o at g1 g2 g3 g4 hfl ⊢
    simp -implicitDefEqProofs [fieldOr, g1, g2, g3, g4, hfl, ha.read, decStr]
  · rw [encMetric, reparse, reparseObj_append]
    simp only [reparseObj, ha.text]
    cases hv : m.data with
    | none => rfl
    | some v =>
      have := (hg v (by simp [hv])).2.1
      simp only [Option.map_some, Option.toList_some]
      generalize hq : encData v = q at this ⊢
      obtain ⟨k, j⟩ := q
      simp only [reparseObj, this]
      rfl
  · refine faithful_depth_obj ?_
    have := ha.depth
    refine List.forall_mem_append.2 ⟨?_, fun e h' => ?_⟩
    · simp only [List.mem_cons, List.not_mem_nil, or_false, forall_eq_or_imp, forall_eq, depth_str]
      omega
    · cases hv : m.data with
      | none => simp [hv] at h'
      | some v =>
        have := (hg v (by simp [hv])).2.2
        simp only [hv, Option.map_some, Option.toList_some, List.mem_singleton] at h'
        rw [h']; omega

/-! ## Requests -/

section
variable {α : Type} {enc : α → Json} {dec : Json → Option α} {values : α → List AVal} {i : Nat}

theorem faithful_request (h1 : 1 ≤ d) (hd : d < maxDepth) (hi : d + 3 ≤ i + 1) (items scopes req : String) (n1 : items ∉ ["scope", "schemaUrl"])
    (n2 : scopes ∉ ["resource", "schemaUrl"]) {rs : List (ResourceItems α)}
    (hit : ∀ a ∈ allItems rs, Faithful rd enc dec i a) (hv : ∀ r ∈ rs, ∀ v ∈ r.values values, GoodVal rd d v) :
    Faithful rd (encRequest items scopes req enc) (decRequest cast items scopes req dec) (i + 6) rs := by
  simp only [List.mem_cons, List.not_mem_nil, or_false, not_or] at n1 n2
  have n1b := Ne.symm n1.1; have n1c := Ne.symm n1.2; have n2b := Ne.symm n2.1; have n2c := Ne.symm n2.2
  have hs : ∀ r ∈ rs, ∀ s ∈ r.scopes, Faithful rd (encScopeItems items enc) (decScopeItems cast items dec) (i + 2) s := by
    intro r hr s hs
    have ha : Faithful rd (encArr enc) (decArr dec) (i + 1) s.items := faithful_arr fun a ha =>
      hit a (List.mem_flatMap.2 ⟨r, hr, List.mem_flatMap.2 ⟨s, hs, ha⟩⟩)
    have hc : Faithful rd (encOpt encScope) (decOpt (decScope cast)) (d + 3) s.scope :=
      faithful_opt (fun a _ => by simp [encScope]) fun c hc => faithful_scope cast h1 hd fun v h' => hv r hr v (by
        simp only [ResourceItems.values, List.mem_append]
        exact .inr (List.mem_flatMap.2 ⟨s, hs, List.mem_append.2 (.inl (List.mem_flatMap.2 ⟨c, hc, h'⟩))⟩))
    refine ⟨?_, ?_, faithful_depth_obj ?_⟩
    · simp only [decScopeItems, encScopeItems]
      rw [entries_obj (by simp [n1.1, n1.2, n1b, n1c])]
      simp -implicitDefEqProofs [fieldOr, fieldOpt, get_cons, n1.1, n1.2, n1b, n1c, ha.read, hc.read, decStr]
    · simp [encScopeItems, reparse, reparseObj, ha.text, hc.text]
    · have := ha.depth; have := hc.depth
      simp only [List.mem_cons, List.not_mem_nil, or_false, forall_eq_or_imp, forall_eq, depth_str]
      omega
  have hr : ∀ r ∈ rs, Faithful rd (encResourceItems items scopes enc) (decResourceItems cast items scopes dec) (i + 4) r := by
    intro r hr
    have ha : Faithful rd (encArr (encScopeItems items enc)) (decArr (decScopeItems cast items dec)) (i + 3) r.scopes := faithful_arr (hs r hr)
    have hc : Faithful rd (encOpt encRes) (decOpt (decRes cast)) (d + 3) r.resource :=
      faithful_opt (fun a _ => by simp [encRes]) fun c hc => faithful_res cast h1 hd fun v h' => hv r hr v (by
        simp only [ResourceItems.values, List.mem_append]
        exact .inl (List.mem_flatMap.2 ⟨c, hc, h'⟩))
    refine ⟨?_, ?_, faithful_depth_obj ?_⟩
    · simp only [decResourceItems, encResourceItems]
      rw [entries_obj (by simp [n2.1, n2.2, n2b, n2c])]
      simp -implicitDefEqProofs [fieldOr, fieldOpt, get_cons, n2.1, n2.2, n2b, n2c, ha.read, hc.read, decStr]
    · simp [encResourceItems, reparse, reparseObj, ha.text, hc.text]
    · have := ha.depth; have := hc.depth
      simp only [List.mem_cons, List.not_mem_nil, or_false, forall_eq_or_imp, forall_eq, depth_str]
      omega
  have ha := faithful_arr hr
  refine ⟨?_, ?_, faithful_depth_obj ?_⟩
  · simp only [decRequest, encRequest]
    rw [entries_obj (by simp)]
    simp -implicitDefEqProofs [field, get_cons, ha.read]
  · simp [encRequest, reparse, reparseObj, ha.text]
  · have := ha.depth
    simp only [List.mem_cons, List.not_mem_nil, or_false, forall_eq]
    omega

theorem fromText_of {n : Nat} {a : α} (h : Faithful rd enc dec n a) (hn : n ≤ maxDepth) : fromText rd dec (enc a) = some a := by
  have := h.depth
  rw [fromText, if_pos (by omega), h.text, h.read]

end

theorem item_values {α : Type} {values : α → List AVal} {rs : List (ResourceItems α)} {P : AVal → Prop} (hv : ∀ r ∈ rs, ∀ v ∈ r.values values, P v)
    {a : α} (ha : a ∈ allItems rs) : ∀ v ∈ values a, P v := by
  intro v h
  obtain ⟨r, hr, h'⟩ := List.mem_flatMap.1 ha
  obtain ⟨s, hs, h'⟩ := List.mem_flatMap.1 h'
  exact hv r hr v (List.mem_append.2 (.inr (List.mem_flatMap.2 ⟨s, hs, List.mem_append.2 (.inr (List.mem_flatMap.2 ⟨a, h', h⟩))⟩)))

end

/-! ## C84: round trips -/

variable (cast : Int → BitVec 64) (rd : BitVec 64 → BitVec 64)

/-- C84. A trace request that is written as JSON is read back as it was, if no attribute value is unset, doubles in attributes are finite and read
exactly by the parser, and values are not nested too deeply. -/
theorem traces_read_back_partial (rs : List (ResourceItems Span)) (h : ∀ r ∈ rs, ∀ v ∈ r.values Span.values, GoodVal rd 116 v) :
    fromText rd (decTraces cast) (encTraces rs) = some rs :=
  fromText_of (n := 127) (faithful_request (i := 121) cast (by decide) (by decide) (by decide) _ _ _ (by decide) (by decide)
    (fun _ ha => faithful_span cast (by decide) (by decide) (item_values h ha)) h) (by decide)

/-- C84. The same for logs. -/
theorem logs_read_back_partial (rs : List (ResourceItems LogRecord)) (h : ∀ r ∈ rs, ∀ v ∈ r.values LogRecord.values, GoodVal rd 118 v) :
    fromText rd (decLogs cast) (encLogs rs) = some rs :=
  fromText_of (n := 127) (faithful_request (i := 121) cast (by decide) (by decide) (by decide) _ _ _ (by decide) (by decide)
    (fun _ ha => faithful_log cast (by decide) (by decide) (item_values h ha)) h) (by decide)

/-- C84. The same for metrics, if all doubles of data points are finite too. -/
theorem metrics_read_back_partial (rs : List (ResourceItems Metric)) (h : ∀ r ∈ rs, ∀ v ∈ r.values Metric.values, GoodVal rd 113 v)
    (hf : ∀ m ∈ allItems rs, ∀ f ∈ m.data.toList.flatMap Data.doubles, GoodF64 rd f) :
    fromText rd (decMetrics cast) (encMetrics rs) = some rs :=
  fromText_of (n := 127) (faithful_request (i := 121) cast (by decide) (by decide) (by decide) _ _ _ (by decide) (by decide)
    (fun m ha => faithful_metric cast (by decide) (by decide) (item_values h ha) (hf m ha)) h) (by decide)

end Otel.Otlp.Json
