import Verif.Otlp.JsonLemmas
/-!
# C83: a conforming receiver reads what was written
-/

namespace Otel.Otlp.Json
open Rust

section
variable {o : Obj} {k : String}

theorem fld_mem {D : Prop} {R : Json → Prop} {j : Json} (h : (k, j) ∈ o) (hn : j ≠ .null) (hr : R j) : Fld o k D R := .inr ⟨j, h, hn, hr⟩

theorem mem_unique {j j' : Json} (hnd : (o.map (·.1)).Nodup) (h : (k, j) ∈ o) (h' : (k, j') ∈ o) : j = j' := by
  induction o with
  | nil => simp at h
  | cons e o ih =>
    rw [List.map_cons, List.nodup_cons] at hnd
    simp only [List.mem_cons] at h h'
    rcases h with h | h <;> rcases h' with h' | h'
    · have := h.trans h'.symm; simpa using this
    · exact absurd (List.mem_map.2 ⟨(k, j'), h', by rw [← h]⟩) hnd.1
    · exact absurd (List.mem_map.2 ⟨(k, j), h, by rw [← h']⟩) hnd.1
    · exact ih hnd.2 h h'

theorem fldStr_mem {s : Str} (h : (k, Json.str s) ∈ o) : FldStr o k s := fld_mem h (by simp) rfl

theorem fldHex_mem {bs : List Byte} (h : (k, encHex bs) ∈ o) : FldHex o k bs := fld_mem h (by simp [encHex]) ⟨_, rfl, hexEncode_text bs⟩

theorem fldU_mem {w : Nat} {n : BitVec w} (h : (k, encU n) ∈ o) : FldU o k n := fld_mem h (by simp [encU]) (.inl rfl)

theorem stdInt_text (i : Int) : StdInt (.str (fmtInt i)) i := .inr ⟨_, rfl, fmtInt_decText i⟩

theorem fldTime_mem {n : BitVec 64} (h : (k, encTime n) ∈ o) : FldU o k n := fld_mem h (by simp [encTime]) (stdInt_text n.toNat)

theorem fldI_mem {w : Nat} {n : BitVec w} (h : (k, encI n) ∈ o) : FldI o k n := fld_mem h (by simp [encI]) (.inl rfl)

theorem stdArr_map {α : Type} {R : Json → α → Prop} {enc : α → Json} {xs : List α} (hr : ∀ x ∈ xs, R (enc x) x) : StdArr R (encArr enc xs) xs := by
  refine ⟨_, rfl, ?_⟩
  induction xs with
  | nil => exact .nil
  | cons x xs ih =>
    simp only [List.mem_cons, forall_eq_or_imp] at hr
    exact .cons hr.1 (ih hr.2)

theorem fldArr_mem {α : Type} {R : Json → α → Prop} {enc : α → Json} {xs : List α} (h : (k, encArr enc xs) ∈ o) (hr : ∀ x ∈ xs, R (enc x) x) :
    FldArr o k R xs := fld_mem h (by simp [encArr]) (stdArr_map hr)

theorem fldOpt_mem {α : Type} {R : Json → α → Prop} {enc : α → Json} {a : Option α} (hnd : (o.map (·.1)).Nodup) (h : (k, encOpt enc a) ∈ o)
    (hn : ∀ x, a = some x → enc x ≠ .null) (hr : ∀ x ∈ a.toList, R (enc x) x) : FldOpt o k R a := by
  cases a with
  | none => exact .inl ⟨rfl, fun j hj => mem_unique hnd hj h⟩
  | some x => exact .inr ⟨enc x, h, hn x rfl, x, rfl, hr x (by simp)⟩

end

theorem stdF64 (cast : Int → BitVec 64) {f : BitVec 64} (h : finite f = true) : StdF64 cast (encF64 f) f := by
  rw [encF64, if_pos h]; exact .inl ⟨rfl, h⟩

theorem encF64_ne {f : BitVec 64} (h : finite f = true) : encF64 f ≠ .null := by rw [encF64, if_pos h]; simp

theorem oneOf_single {k : String} {j : Json} {R : Json → Prop} {names : List String} (h : R j) : OneOf names [(k, j)] k R :=
  ⟨⟨j, by simp, h⟩, by simp⟩

section
variable (cast : Int → BitVec 64)

mutual
theorem stdAny : ∀ v : AVal, (∀ f ∈ v.doubles, finite f = true) → StdAny cast v (encAny v)
  | .unset, _ => by rw [StdAny, encAny]; exact ⟨[], ⟨rfl, by simp⟩, by simp⟩
  | .str s, _ => by rw [StdAny, encAny]; exact ⟨_, ⟨rfl, by simp⟩, oneOf_single rfl⟩
  | .bool s, _ => by rw [StdAny, encAny]; exact ⟨_, ⟨rfl, by simp⟩, oneOf_single rfl⟩
  | .int i, _ => by rw [StdAny, encAny]; exact ⟨_, ⟨rfl, by simp⟩, oneOf_single (stdInt_text _)⟩
  | .double f, h => by rw [StdAny, encAny]; exact ⟨_, ⟨rfl, by simp⟩, oneOf_single (stdF64 cast (h f (by simp [AVal.doubles])))⟩
  | .bytes bs, _ => by rw [StdAny, encAny]; exact ⟨_, ⟨rfl, by simp⟩, oneOf_single ⟨_, rfl, b64Encode_text bs⟩⟩
  | .array vs, h => by
    have := stdAnys vs (by simpa only [AVal.doubles] using h)
    rw [StdAny, encAny]
    exact ⟨_, ⟨rfl, by simp⟩, oneOf_single ⟨_, ⟨rfl, by simp⟩, fld_mem (List.mem_singleton.2 rfl) (by simp) ⟨_, rfl, this⟩⟩⟩
  | .kvlist kvs, h => by
    have := stdKvs kvs (by simpa only [AVal.doubles] using h)
    rw [StdAny, encAny]
    exact ⟨_, ⟨rfl, by simp⟩, oneOf_single ⟨_, ⟨rfl, by simp⟩, fld_mem (List.mem_singleton.2 rfl) (by simp) ⟨_, rfl, this⟩⟩⟩
theorem stdAnys : ∀ vs : List AVal, (∀ f ∈ doublesList vs, finite f = true) → StdAnys cast vs (encAnys vs)
  | [], _ => by rw [encAnys, StdAnys]; trivial
  | v :: vs, h => by
    simp only [doublesList, List.mem_append] at h
    rw [encAnys, StdAnys]
    exact ⟨stdAny v (fun f hf => h f (.inl hf)), stdAnys vs (fun f hf => h f (.inr hf))⟩
theorem stdKvs : ∀ kvs : List (Str × Option AVal), (∀ f ∈ doublesKvs kvs, finite f = true) → StdKvs cast kvs (encKvs kvs)
  | [], _ => by rw [encKvs, StdKvs]; trivial
  | (k, none) :: kvs, h => by
    simp only [doublesKvs] at h
    rw [encKvs, StdKvs]
    exact ⟨⟨_, ⟨rfl, by simp⟩, fldStr_mem (by simp), .inl ⟨trivial, by simp⟩⟩, stdKvs kvs h⟩
  | (k, some v) :: kvs, h => by
    simp only [doublesKvs, List.mem_append] at h
    rw [encKvs, StdKvs]
    exact ⟨⟨_, ⟨rfl, by simp⟩, fldStr_mem (by simp), fld_mem (j := encAny v) (by simp) (by cases v <;> simp [encAny]) (stdAny v (fun f hf => h f (.inl hf)))⟩,
      stdKvs kvs (fun f hf => h f (.inr hf))⟩
end

theorem fldAttrs_mem {o : Obj} {k : String} {kvs : List Kv} (h : (k, encAttrs kvs) ∈ o) (hf : ∀ v ∈ attrValues kvs, ∀ f ∈ v.doubles, finite f = true) :
    FldAttrs cast o k kvs := by
  refine fld_mem h (by simp [encAttrs]) ⟨_, rfl, stdKvs cast kvs ?_⟩
  rw [doublesKvs_eq]
  intro f h'
  obtain ⟨v, hv, h'⟩ := List.mem_flatMap.1 h'
  exact hf v hv f h'

/-- All doubles in the values are finite. -/
def FiniteVals (vs : List AVal) : Prop := ∀ v ∈ vs, ∀ f ∈ v.doubles, finite f = true

theorem stdScope {s : Scope} (h : FiniteVals (attrValues s.attributes)) : StdScope cast (encScope s) s :=
  ⟨_, ⟨rfl, by simp⟩, fldStr_mem (by simp), fldStr_mem (by simp), fldAttrs_mem cast (by simp) h, fldU_mem (by simp)⟩

theorem stdRes {s : Res} (h : FiniteVals (attrValues s.attributes)) : StdRes cast (encRes s) s :=
  ⟨_, ⟨rfl, by simp⟩, fldAttrs_mem cast (by simp) h, fldU_mem (by simp)⟩

theorem stdEvent {s : Event} (h : FiniteVals (attrValues s.attributes)) : StdEvent cast (encEvent s) s :=
  ⟨_, ⟨rfl, by simp⟩, fldTime_mem (by simp), fldStr_mem (by simp), fldAttrs_mem cast (by simp) h, fldU_mem (by simp)⟩

theorem stdLink {s : Link} (h : FiniteVals (attrValues s.attributes)) : StdLink cast (encLink s) s :=
  ⟨_, ⟨rfl, by simp⟩, fldHex_mem (by simp), fldHex_mem (by simp), fldStr_mem (by simp), fldAttrs_mem cast (by simp) h, fldU_mem (by simp), fldU_mem (by simp)⟩

theorem stdStatus (s : Status) : StdStatus (encStatus s) s := ⟨_, ⟨rfl, by simp⟩, fldStr_mem (by simp), fldI_mem (by simp)⟩

theorem stdSpan {s : Span} (h : FiniteVals s.values) : StdSpan cast (encSpan s) s := by
  have ha : FiniteVals (attrValues s.attributes) := fun v hv => h v (by simp only [Span.values, List.mem_append]; exact .inl (.inl hv))
  have he : ∀ e ∈ s.events, StdEvent cast (encEvent e) e := fun e he => stdEvent cast fun v hv => h v (by
    simp only [Span.values, List.mem_append]; exact .inl (.inr (List.mem_flatMap.2 ⟨e, he, hv⟩)))
  have hl : ∀ e ∈ s.links, StdLink cast (encLink e) e := fun e he => stdLink cast fun v hv => h v (by
    simp only [Span.values, List.mem_append]; exact .inr (List.mem_flatMap.2 ⟨e, he, hv⟩))
  exact ⟨_, ⟨rfl, by simp⟩, fldHex_mem (by simp), fldHex_mem (by simp), fldStr_mem (by simp), fldHex_mem (by simp), fldU_mem (by simp), fldStr_mem (by simp),
    fldI_mem (by simp), fldTime_mem (by simp), fldTime_mem (by simp), fldAttrs_mem cast (by simp) ha, fldU_mem (by simp),
    fldArr_mem (enc := encEvent) (by simp) he, fldU_mem (by simp), fldArr_mem (enc := encLink) (by simp) hl, fldU_mem (by simp),
    fldOpt_mem (enc := encStatus) (by simp) (by simp) (by simp [encStatus]) (fun x _ => stdStatus x)⟩

theorem stdLog {r : LogRecord} (h : FiniteVals r.values) : StdLog cast (encLog r) r := by
  have ha : FiniteVals (attrValues r.attributes) := fun v hv => h v (by simp only [LogRecord.values, List.mem_append]; exact .inr hv)
  have hb : ∀ v ∈ r.body.toList, StdAny cast v (encAny v) := fun v hv => stdAny cast v (h v (by simp only [LogRecord.values, List.mem_append]; exact .inl hv))
  exact ⟨_, ⟨rfl, by simp⟩, fldTime_mem (by simp), fldTime_mem (by simp), fldI_mem (by simp), fldStr_mem (by simp),
    fldOpt_mem (enc := encAny) (by simp) (by simp) (fun x _ => by cases x <;> simp [encAny]) hb, fldAttrs_mem cast (by simp) ha, fldU_mem (by simp),
    fldU_mem (by simp), fldHex_mem (by simp), fldHex_mem (by simp), fldStr_mem (by simp)⟩

/-! ## Metrics -/

/-- All doubles are finite. -/
def Finites (fs : List (BitVec 64)) : Prop := ∀ f ∈ fs, finite f = true

theorem fldOptF64 {o : Obj} {k : String} {a : Option (BitVec 64)} (hnd : (o.map (·.1)).Nodup) (h : (k, encOpt encF64 a) ∈ o) (hf : Finites a.toList) :
    FldOpt o k (StdF64 cast) a :=
  fldOpt_mem hnd h (fun x hx => encF64_ne (hf x (by simp [hx]))) fun x hx => stdF64 cast (hf x hx)

/-- An exemplar without a value. -/
theorem stdExemplar {e : Exemplar} (h : FiniteVals e.values) (hn : e.value = none) : StdExemplar cast (encExemplar e) e :=
  ⟨_, ⟨rfl, by simp⟩, fldAttrs_mem cast (by simp) h, fldU_mem (by simp), fldHex_mem (by simp), fldHex_mem (by simp), by rw [hn]; simp [StdNum]⟩

theorem fldExemplars {o : Obj} {es : List Exemplar} (hm : ("exemplars", encArr encExemplar es) ∈ o) (h : FiniteVals (es.flatMap Exemplar.values))
    (hn : ∀ e ∈ es, e.value = none) : FldArr o "exemplars" (StdExemplar cast) es :=
  fldArr_mem hm fun e he => stdExemplar cast (fun v hv => h v (List.mem_flatMap.2 ⟨e, he, hv⟩)) (hn e he)

theorem stdNumPoint {p : NumPoint} (h : FiniteVals p.values) (hf : Finites p.doubles) (hn : ∀ e ∈ p.exemplars, e.value = none) :
    StdNumPoint cast (encNumPoint p) p := by
  have ha : FiniteVals (attrValues p.attributes) := fun v hv => h v (List.mem_append.2 (.inl hv))
  have he : FiniteVals (p.exemplars.flatMap Exemplar.values) := fun v hv => h v (List.mem_append.2 (.inr hv))
  refine ⟨_, ⟨rfl, ?_⟩, fldAttrs_mem cast (by simp) ha, fldTime_mem (by simp), fldTime_mem (by simp), fldExemplars cast (by simp) he hn, fldU_mem (by simp), ?_⟩
  · rcases p.value with _ | ⟨f | i⟩ <;> simp [encNum]
  · cases hv : p.value with
    | none => simp [StdNum]
    | some v =>
      cases v with
      | asDouble f =>
        refine ⟨⟨encF64 f, by simp [encNum], stdF64 cast (hf f ?_)⟩, by simp [encNum]⟩
        simp [NumPoint.doubles, hv, Num.doubles]
      | asInt i => exact ⟨⟨encI i, by simp [encNum], .inl rfl⟩, by simp [encNum]⟩

theorem stdHistPoint {p : HistPoint} (h : FiniteVals p.values) (hf : Finites p.doubles) (hn : ∀ e ∈ p.exemplars, e.value = none) :
    StdHistPoint cast (encHistPoint p) p := by
  have ha : FiniteVals (attrValues p.attributes) := fun v hv => h v (List.mem_append.2 (.inl hv))
  have he : FiniteVals (p.exemplars.flatMap Exemplar.values) := fun v hv => h v (List.mem_append.2 (.inr hv))
  simp only [Finites, HistPoint.doubles, List.mem_append] at hf
  exact ⟨_, ⟨rfl, by simp⟩, fldAttrs_mem cast (by simp) ha, fldTime_mem (by simp), fldTime_mem (by simp), fldU_mem (by simp),
    fldOptF64 cast (by simp) (by simp) (fun f h' => hf f (.inl (.inl (.inl (.inr h'))))),
    fldArr_mem (enc := encU) (by simp) (fun x _ => .inl rfl), fldArr_mem (enc := encF64) (by simp) (fun f h' => stdF64 cast (hf f (.inr h'))),
    fldExemplars cast (by simp) he hn, fldU_mem (by simp), fldOptF64 cast (by simp) (by simp) (fun f h' => hf f (.inl (.inl (.inr h')))),
    fldOptF64 cast (by simp) (by simp) (fun f h' => hf f (.inl (.inr h')))⟩

theorem stdBuckets (b : Buckets) : StdBuckets (encBuckets b) b :=
  ⟨_, ⟨rfl, by simp⟩, fldI_mem (by simp), fldArr_mem (enc := encU) (by simp) (fun x _ => .inl rfl)⟩

theorem stdExpoPoint {p : ExpoPoint} (h : FiniteVals p.values) (hf : Finites p.doubles) (hn : ∀ e ∈ p.exemplars, e.value = none) :
    StdExpoPoint cast (encExpoPoint p) p := by
  have ha : FiniteVals (attrValues p.attributes) := fun v hv => h v (List.mem_append.2 (.inl hv))
  have he : FiniteVals (p.exemplars.flatMap Exemplar.values) := fun v hv => h v (List.mem_append.2 (.inr hv))
  simp only [Finites, ExpoPoint.doubles, List.mem_append] at hf
  have hz := hf p.zeroThreshold (.inr (by simp))
  exact ⟨_, ⟨rfl, by simp⟩, fldAttrs_mem cast (by simp) ha, fldU_mem (by simp), fldU_mem (by simp), fldU_mem (by simp),
    fldOptF64 cast (by simp) (by simp) (fun f h' => hf f (.inl (.inl (.inl (.inr h'))))), fldI_mem (by simp), fldU_mem (by simp),
    fldOpt_mem (enc := encBuckets) (by simp) (by simp) (by simp [encBuckets]) (fun x _ => stdBuckets x),
    fldOpt_mem (enc := encBuckets) (by simp) (by simp) (by simp [encBuckets]) (fun x _ => stdBuckets x), fldU_mem (by simp),
    fldExemplars cast (by simp) he hn, fldOptF64 cast (by simp) (by simp) (fun f h' => hf f (.inl (.inl (.inr h')))),
    fldOptF64 cast (by simp) (by simp) (fun f h' => hf f (.inl (.inr h'))), fld_mem (j := encF64 p.zeroThreshold) (by simp) (encF64_ne hz) (stdF64 cast hz)⟩

/-- A metric whose data points have finite doubles and whose exemplars have no value. -/
structure WritableData (v : Data) : Prop where
  doubles : Finites v.doubles
  exemplars : ∀ e ∈ v.exemplars, e.value = none

theorem stdMetric {m : Metric} (h : FiniteVals m.values) (hd : ∀ v ∈ m.data.toList, WritableData v) : StdMetric cast (encMetric m) m := by
  have ha : FiniteVals (attrValues m.metadata) := fun v hv => h v (List.mem_append.2 (.inl hv))
  refine ⟨_, ⟨rfl, ?_⟩, fldStr_mem (by simp), fldStr_mem (by simp), fldStr_mem (by simp), fldAttrs_mem cast (by simp) ha, ?_⟩
  · rcases m.data with _ | ⟨_ | _ | _ | _⟩ <;> simp [encData]
  · have hval : ∀ v ∈ m.data.toList, FiniteVals v.values := fun v hv w hw => h w (List.mem_append.2 (.inr (List.mem_flatMap.2 ⟨v, hv, hw⟩)))
    have num (ps : List NumPoint) (h : FiniteVals (ps.flatMap NumPoint.values)) (hf : Finites (ps.flatMap NumPoint.doubles))
        (hn : ∀ e ∈ ps.flatMap (·.exemplars), e.value = none) : ∀ p ∈ ps, StdNumPoint cast (encNumPoint p) p := fun p hp =>
      stdNumPoint cast (fun v hv => h v (List.mem_flatMap.2 ⟨p, hp, hv⟩)) (fun v hv => hf v (List.mem_flatMap.2 ⟨p, hp, hv⟩))
        (fun e he => hn e (List.mem_flatMap.2 ⟨p, hp, he⟩))
    cases hv : m.data with
    | none => simp [dataNames]
    | some v =>
      have h1 := hval v (by simp [hv])
      obtain ⟨h2, h3⟩ := hd v (by simp [hv])
      cases v with
      | gauge ps =>
        exact ⟨⟨_, by simp only [Option.map_some, Option.toList_some, List.mem_append, encData]; exact .inr (List.mem_singleton.2 rfl),
          _, ⟨rfl, by simp⟩, fldArr_mem (enc := encNumPoint) (by simp) (num ps h1 h2 h3)⟩, by simp [dataNames, encData]⟩
      | sum ps t b =>
        exact ⟨⟨_, by simp only [Option.map_some, Option.toList_some, List.mem_append, encData]; exact .inr (List.mem_singleton.2 rfl),
          _, ⟨rfl, by simp⟩, fldArr_mem (enc := encNumPoint) (by simp) (num ps h1 h2 h3), fldI_mem (by simp), fld_mem (j := .bool b) (by simp) (by simp) rfl⟩,
          by simp [dataNames, encData]⟩
      | histogram ps t =>
        exact ⟨⟨_, by simp only [Option.map_some, Option.toList_some, List.mem_append, encData]; exact .inr (List.mem_singleton.2 rfl),
          _, ⟨rfl, by simp⟩, fldArr_mem (enc := encHistPoint) (by simp) (fun p hp => stdHistPoint cast (fun v hv => h1 v (List.mem_flatMap.2 ⟨p, hp, hv⟩))
            (fun v hv => h2 v (List.mem_flatMap.2 ⟨p, hp, hv⟩)) (fun e he => h3 e (List.mem_flatMap.2 ⟨p, hp, he⟩))), fldI_mem (by simp)⟩,
          by simp [dataNames, encData]⟩
      | expo ps t =>
        exact ⟨⟨_, by simp only [Option.map_some, Option.toList_some, List.mem_append, encData]; exact .inr (List.mem_singleton.2 rfl),
          _, ⟨rfl, by simp⟩, fldArr_mem (enc := encExpoPoint) (by simp) (fun p hp => stdExpoPoint cast (fun v hv => h1 v (List.mem_flatMap.2 ⟨p, hp, hv⟩))
            (fun v hv => h2 v (List.mem_flatMap.2 ⟨p, hp, hv⟩)) (fun e he => h3 e (List.mem_flatMap.2 ⟨p, hp, he⟩))), fldI_mem (by simp)⟩,
          by simp [dataNames, encData]⟩

theorem stdRequest {α : Type} {enc : α → Json} {R : Json → α → Prop} {values : α → List AVal} (items scopes req : String) (n1 : items ∉ ["scope", "schemaUrl"])
    (n2 : scopes ∉ ["resource", "schemaUrl"]) {rs : List (ResourceItems α)} (hit : ∀ a ∈ allItems rs, R (enc a) a)
    (hv : ∀ r ∈ rs, FiniteVals (r.values values)) : StdRequest cast items scopes req R (encRequest items scopes req enc rs) rs := by
  simp only [List.mem_cons, List.not_mem_nil, or_false, not_or] at n1 n2
  have n1b := Ne.symm n1.1; have n2b := Ne.symm n2.1
  refine ⟨_, ⟨rfl, by simp⟩, fldArr_mem (enc := encResourceItems items scopes enc) (by simp) fun r hr => ?_⟩
  have nd1 : (([("resource", encOpt encRes r.resource), (scopes, encArr (encScopeItems items enc) r.scopes), ("schemaUrl", .str r.schemaUrl)] : Obj).map (·.1)).Nodup := by
    simp [n2.2, n2b]
  refine ⟨_, ⟨rfl, nd1⟩, fldOpt_mem (enc := encRes) nd1 (by simp) (by simp [encRes]) (fun c hc => stdRes cast fun v h' => ?_),
    fldArr_mem (enc := encScopeItems items enc) (by simp) fun s hs => ?_, fldStr_mem (by simp)⟩
  · exact hv r hr v (List.mem_append.2 (.inl (List.mem_flatMap.2 ⟨c, hc, h'⟩)))
  · have nd2 : (([("scope", encOpt encScope s.scope), (items, encArr enc s.items), ("schemaUrl", .str s.schemaUrl)] : Obj).map (·.1)).Nodup := by
      simp [n1.2, n1b]
    refine ⟨_, ⟨rfl, nd2⟩, fldOpt_mem (enc := encScope) nd2 (by simp) (by simp [encScope]) (fun c hc => stdScope cast fun v h' => ?_),
      fldArr_mem (enc := enc) (by simp) fun a ha => hit a (List.mem_flatMap.2 ⟨r, hr, List.mem_flatMap.2 ⟨s, hs, ha⟩⟩), fldStr_mem (by simp)⟩
    exact hv r hr v (List.mem_append.2 (.inr (List.mem_flatMap.2 ⟨s, hs, List.mem_append.2 (.inl (List.mem_flatMap.2 ⟨c, hc, h'⟩))⟩)))

theorem item_finite {α : Type} {values : α → List AVal} {rs : List (ResourceItems α)} (hv : ∀ r ∈ rs, FiniteVals (r.values values))
    {a : α} (ha : a ∈ allItems rs) : FiniteVals (values a) := by
  intro v h
  obtain ⟨r, hr, h'⟩ := List.mem_flatMap.1 ha
  obtain ⟨s, hs, h'⟩ := List.mem_flatMap.1 h'
  exact hv r hr v (List.mem_append.2 (.inr (List.mem_flatMap.2 ⟨s, hs, List.mem_append.2 (.inr (List.mem_flatMap.2 ⟨a, h', h⟩))⟩)))

/-! ## C83 -/

/-- C83. A conforming receiver reads a written trace request as the request, if doubles in attributes are finite. -/
theorem traces_conform_partial (rs : List (ResourceItems Span)) (h : ∀ r ∈ rs, FiniteVals (r.values Span.values)) : StdTraces cast (encTraces rs) rs :=
  stdRequest cast _ _ _ (by decide) (by decide) (fun _ ha => stdSpan cast (item_finite h ha)) h

/-- C83. The same for logs. -/
theorem logs_conform_partial (rs : List (ResourceItems LogRecord)) (h : ∀ r ∈ rs, FiniteVals (r.values LogRecord.values)) : StdLogs cast (encLogs rs) rs :=
  stdRequest cast _ _ _ (by decide) (by decide) (fun _ ha => stdLog cast (item_finite h ha)) h

/-- C83. The same for metrics, if doubles in data points are finite and exemplars have no value. -/
theorem metrics_conform_partial (rs : List (ResourceItems Metric)) (h : ∀ r ∈ rs, FiniteVals (r.values Metric.values))
    (hd : ∀ m ∈ allItems rs, ∀ v ∈ m.data.toList, WritableData v) : StdMetrics cast (encMetrics rs) rs :=
  stdRequest cast _ _ _ (by decide) (by decide) (fun m ha => stdMetric cast (item_finite h ha) (hd m ha)) h

end

end Otel.Otlp.Json
