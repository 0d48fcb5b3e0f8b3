import Verif.Otlp.JsonSpec
/-!
# Lemmas on reading back what was written
-/

namespace Otel.Otlp.Json
open Rust

/-! ## Scalars -/

theorem decU_encU {w : Nat} (n : BitVec w) : decU w (encU n) = some n := by
  have h := n.isLt
  have : (0 : Int) ≤ n.toNat ∧ (n.toNat : Int) < 2 ^ w := ⟨by omega, by exact_mod_cast h⟩
  rw [encU, decU, if_pos this]
  congr 1
  apply BitVec.eq_of_toNat_eq
  rw [BitVec.toNat_ofInt]
  have e : ((n.toNat : Int) % ((2 ^ w : Nat) : Int)).toNat = n.toNat := by
    rw [Int.emod_eq_of_lt (by omega) (by exact_mod_cast h)]; rfl
  exact e

theorem decI_encI {w : Nat} (hw : 0 < w) (n : BitVec w) : decI w (encI n) = some n := by
  have h1 := BitVec.le_toInt n
  have h2 := BitVec.toInt_lt (x := n)
  rw [encI, decI, if_pos ⟨h1, h2⟩, BitVec.ofInt_toInt]

theorem decTime_encTime (n : BitVec 64) : decTime (encTime n) = some n := by
  have := parseDec_text (bits := 64) (s := fmtNat n.toNat) (n := n.toNat) (fmtInt_decText n.toNat) n.isLt
  rw [encTime, decTime, this]
  simp

theorem decHex_encHex (bs : List Byte) : decHex (encHex bs) = some bs := hexDecode_encode bs

theorem decF64_encF64 (cast : Int → BitVec 64) {f : BitVec 64} (h : finite f = true) : decF64 cast (encF64 f) = some f := by
  rw [encF64, if_pos h, decF64]

theorem decInt_text (i : BitVec 64) : decInt (.str (fmtInt i.toInt)) = some i := by
  have h1 := BitVec.le_toInt i
  have h2 := BitVec.toInt_lt (x := i)
  rw [decInt, parseI64_text (fmtInt_decText i.toInt) h1 h2]
  simp

/-! ## Nesting -/

theorem depthList_le {d : Nat} {xs : List Json} : depthList xs ≤ d ↔ ∀ x ∈ xs, x.depth ≤ d := by
  induction xs with
  | nil => simp [depthList]
  | cons x xs ih => simp [depthList, Nat.max_le, ih]

theorem depthObj_le {d : Nat} {fs : Obj} : depthObj fs ≤ d ↔ ∀ e ∈ fs, e.2.depth ≤ d := by
  induction fs with
  | nil => simp [depthObj]
  | cons e fs ih => obtain ⟨k, x⟩ := e; simp [depthObj, Nat.max_le, ih]

theorem depth_encF64 (f : BitVec 64) : (encF64 f).depth = 0 := by unfold encF64; split <;> rfl

mutual
theorem depth_encAny : ∀ v : AVal, (encAny v).depth = v.levels
  | .unset => rfl
  | .str _ => rfl
  | .bool _ => rfl
  | .int _ => rfl
  | .double f => by simp [encAny, Json.depth, depthObj, depth_encF64, AVal.levels]
  | .bytes _ => rfl
  | .array vs => by
    have := depth_encAnys vs
    simp only [encAny, Json.depth, depthObj, AVal.levels, this]; omega
  | .kvlist kvs => by
    have := depth_encKvs kvs
    simp only [encAny, Json.depth, depthObj, AVal.levels, this]; omega
theorem depth_encAnys : ∀ vs : List AVal, depthList (encAnys vs) = levelsList vs
  | [] => rfl
  | v :: vs => by rw [encAnys, depthList, levelsList, depth_encAny v, depth_encAnys vs]
theorem depth_encKvs : ∀ kvs : List (Str × Option AVal), depthList (encKvs kvs) = levelsKvs kvs
  | [] => rfl
  | (k, none) :: kvs => by
    rw [encKvs, depthList, levelsKvs, depth_encKvs kvs]
    simp [Json.depth, depthObj]
  | (k, some v) :: kvs => by
    rw [encKvs, depthList, levelsKvs, depth_encKvs kvs]
    simp [Json.depth, depthObj, depth_encAny v]
end

theorem levelsKvs_le {d : Nat} (hd : 1 ≤ d) {kvs : List Kv} (h : ∀ v ∈ attrValues kvs, v.levels ≤ d) : levelsKvs kvs ≤ d + 1 := by
  induction kvs with
  | nil => simp [levelsKvs]
  | cons e kvs ih =>
    obtain ⟨k, v⟩ := e
    cases v with
    | none =>
      have := ih (fun v hv => h v (by simpa [attrValues] using hv))
      simp only [levelsKvs, Nat.max_le]; omega
    | some v =>
      have h1 := ih (fun w hw => h w (by simp only [attrValues, List.filterMap_cons, List.mem_cons]; exact .inr hw))
      have h2 := h v (by simp [attrValues])
      simp only [levelsKvs, Nat.max_le]; omega

/-! ## The text of doubles -/

section
variable {rd : BitVec 64 → BitVec 64}

theorem reparse_encF64 {f : BitVec 64} (h : rd f = f) : reparse rd (encF64 f) = encF64 f := by
  unfold encF64; split <;> simp [reparse, h]

mutual
theorem reparse_encAny : ∀ v : AVal, (∀ f ∈ v.doubles, rd f = f) → reparse rd (encAny v) = encAny v
  | .unset, _ => rfl
  | .str _, _ => rfl
  | .bool _, _ => rfl
  | .int _, _ => rfl
  | .double f, h => by
    have := reparse_encF64 (h f (by simp [AVal.doubles]))
    simp only [encAny, reparse, reparseObj, this]
  | .bytes _, _ => rfl
  | .array vs, h => by
    have := reparse_encAnys vs (by simpa only [AVal.doubles] using h)
    simp only [encAny, reparse, reparseObj, this]
  | .kvlist kvs, h => by
    have := reparse_encKvs kvs (by simpa only [AVal.doubles] using h)
    simp only [encAny, reparse, reparseObj, this]
theorem reparse_encAnys : ∀ vs : List AVal, (∀ f ∈ doublesList vs, rd f = f) → reparseList rd (encAnys vs) = encAnys vs
  | [], _ => rfl
  | v :: vs, h => by
    simp only [doublesList, List.mem_append] at h
    rw [encAnys, reparseList, reparse_encAny v (fun f hf => h f (.inl hf)), reparse_encAnys vs (fun f hf => h f (.inr hf))]
theorem reparse_encKvs : ∀ kvs : List (Str × Option AVal), (∀ f ∈ doublesKvs kvs, rd f = f) → reparseList rd (encKvs kvs) = encKvs kvs
  | [], _ => rfl
  | (k, none) :: kvs, h => by
    simp only [doublesKvs] at h
    rw [encKvs, reparseList, reparse_encKvs kvs h]
    rfl
  | (k, some v) :: kvs, h => by
    simp only [doublesKvs, List.mem_append] at h
    rw [encKvs, reparseList, reparse_encKvs kvs (fun f hf => h f (.inr hf))]
    simp only [reparse, reparseObj, reparse_encAny v (fun f hf => h f (.inl hf))]
end

end

theorem doublesKvs_eq (kvs : List Kv) : doublesKvs kvs = (attrValues kvs).flatMap AVal.doubles := by
  induction kvs with
  | nil => rfl
  | cons e kvs ih =>
    obtain ⟨k, v⟩ := e
    cases v with
    | none => simp only [doublesKvs, ih]; rfl
    | some v => simp only [doublesKvs, ih]; rfl

theorem noUnsetKvs_eq (kvs : List Kv) : noUnsetKvs kvs = (attrValues kvs).all AVal.noUnset := by
  induction kvs with
  | nil => rfl
  | cons e kvs ih =>
    obtain ⟨k, v⟩ := e
    cases v with
    | none => simp only [noUnsetKvs, ih]; rfl
    | some v => simp only [noUnsetKvs, ih]; rfl

/-! ## Objects -/

theorem get_cons (k k' : String) (j : Json) (o : Obj) : get ((k, j) :: o) k' = if k == k' then some j else get o k' := by
  unfold get
  rw [List.find?_cons]
  cases h : k == k' <;> simp [h]

theorem get_nil (k : String) : get [] k = none := rfl

theorem entries_obj {names : List String} {o : Obj} (h : (o.map (·.1)).Nodup) : entries names (.obj o) = some o := by
  rw [entries, if_pos]
  rw [List.all_eq_true]
  intro k _
  have hf : ((o.map (·.1)).filter (· == k)).length ≤ 1 := by
    rw [← List.count_eq_length_filter]
    exact List.nodup_iff_count.1 h k
  rw [List.filter_map, List.length_map] at hf
  simpa [Function.comp_def] using hf

/-- A message that comes back from its document, in at most `d` levels. -/
structure Faithful (rd : BitVec 64 → BitVec 64) {α : Type} (enc : α → Json) (dec : Json → Option α) (d : Nat) (a : α) : Prop where
  read : dec (enc a) = some a
  text : reparse rd (enc a) = enc a
  depth : (enc a).depth ≤ d

section
variable {rd : BitVec 64 → BitVec 64} {α : Type} {enc : α → Json} {dec : Json → Option α}

theorem Faithful.mono {d d' : Nat} {a : α} (h : Faithful rd enc dec d a) (hd : d ≤ d') : Faithful rd enc dec d' a :=
  ⟨h.read, h.text, Nat.le_trans h.depth hd⟩

theorem reparseList_map {xs : List α} (h : ∀ x ∈ xs, reparse rd (enc x) = enc x) : reparseList rd (xs.map enc) = xs.map enc := by
  induction xs with
  | nil => rfl
  | cons x xs ih =>
    simp only [List.mem_cons, forall_eq_or_imp] at h
    rw [List.map_cons, reparseList, h.1, ih h.2]

theorem mapM_enc {xs : List α} (h : ∀ x ∈ xs, dec (enc x) = some x) : (xs.map enc).mapM dec = some xs := by
  induction xs with
  | nil => rfl
  | cons x xs ih =>
    simp only [List.mem_cons, forall_eq_or_imp] at h
    rw [List.map_cons, List.mapM_cons, h.1, ih h.2]
    rfl

theorem faithful_arr {d : Nat} {xs : List α} (h : ∀ x ∈ xs, Faithful rd enc dec d x) : Faithful rd (encArr enc) (decArr dec) (d + 1) xs where
  read := mapM_enc fun x hx => (h x hx).read
  text := by
    rw [encArr, reparse, reparseList_map fun x hx => (h x hx).text]
  depth := by
    rw [encArr, Json.depth, Nat.add_comm 1]
    refine Nat.add_le_add_right (depthList_le.2 fun j hj => ?_) 1
    obtain ⟨x, hx, rfl⟩ := List.mem_map.1 hj
    exact (h x hx).depth

theorem faithful_opt {d : Nat} {o : Option α} (hn : ∀ a, o = some a → enc a ≠ .null) (h : ∀ a ∈ o.toList, Faithful rd enc dec d a) :
    Faithful rd (encOpt enc) (decOpt dec) d o := by
  cases o with
  | none => exact ⟨rfl, rfl, by simp [encOpt, Json.depth]⟩
  | some a =>
    have ha := h a (by simp)
    refine ⟨?_, ha.text, ha.depth⟩
    have := ha.read
    show decOpt dec (enc a) = _
    unfold decOpt
    split
    · exact absurd ‹_› (hn a rfl)
    · rw [this]; rfl

theorem faithful_depth_obj {d : Nat} {o : Obj} (h : ∀ e ∈ o, e.2.depth ≤ d) : (Json.obj o).depth ≤ d + 1 := by
  rw [Json.depth, Nat.add_comm 1]
  exact Nat.add_le_add_right (depthObj_le.2 h) 1

end

/-! ## Attributes -/

theorem decOpt_encAny {dec : Json → Option AVal} {v : AVal} (h : dec (encAny v) = some v) : decOpt dec (encAny v) = some (some v) := by
  unfold decOpt
  split
  · rename_i hn
    cases v <;> simp [encAny] at hn
  · rw [h]; rfl

theorem visit_one {cast : Int → BitVec 64} {any : Json → Option AVal} {kv : Json → Option Kv} {k : String} {j : Json} {v : AVal}
    (h : visit cast any kv none (k, j) = some (some v)) : (([(k, j)] : Obj).foldlM (visit cast any kv) none).join = some v := by
  rw [List.foldlM_cons, h]
  rfl

theorem field_values {α : Type} {dec : Json → Option α} {j : Json} : field [("values", j)] "values" dec = dec j := by
  simp [field, get_cons]

section
variable (cast : Int → BitVec 64)

mutual
theorem decAny_encAny : ∀ (n : Nat) (v : AVal), v.levels ≤ n → v.noUnset = true → (∀ f ∈ v.doubles, finite f = true) →
    decAny cast n (encAny v) = some v
  | 0, v, h, _, _ => by cases v <;> simp [AVal.levels] at h
  | n + 1, .unset, _, h, _ => by simp [AVal.noUnset] at h
  | n + 1, .str s, _, _, _ => by rw [encAny, decAny]; exact visit_one (by simp [visit, decStr])
  | n + 1, .bool b, _, _, _ => by rw [encAny, decAny]; exact visit_one (by simp [visit, decBool])
  | n + 1, .int i, _, _, _ => by rw [encAny, decAny]; exact visit_one (by simp [visit, decInt_text])
  | n + 1, .double f, _, _, h => by
    have := decF64_encF64 cast (h f (by simp [AVal.doubles]))
    rw [encAny, decAny]; exact visit_one (by simp [visit, this])
  | n + 1, .bytes bs, _, _, _ => by rw [encAny, decAny]; exact visit_one (by simp [visit, decB64, b64Decode_encode])
  | n + 1, .array vs, hl, hu, hd => by
    have h := decAny_encAnys n vs (by simp only [AVal.levels] at hl; omega) (by simpa only [AVal.noUnset] using hu) (by simpa only [AVal.doubles] using hd)
    rw [encAny, decAny]
    refine visit_one ?_
    have he := entries_obj (names := ["values"]) (o := [("values", .arr (encAnys vs))]) (by simp)
    simp [visit, he, field_values, decArr, h]
  | n + 1, .kvlist kvs, hl, hu, hd => by
    have h := decAny_encKvs n kvs (by simp only [AVal.levels] at hl; omega) (by simpa only [AVal.noUnset] using hu) (by simpa only [AVal.doubles] using hd)
    rw [encAny, decAny]
    refine visit_one ?_
    have he := entries_obj (names := ["values"]) (o := [("values", .arr (encKvs kvs))]) (by simp)
    simp [visit, he, field_values, decArr, h]
theorem decAny_encAnys : ∀ (n : Nat) (vs : List AVal), levelsList vs ≤ n → noUnsetList vs = true → (∀ f ∈ doublesList vs, finite f = true) →
    (encAnys vs).mapM (decAny cast n) = some vs
  | _, [], _, _, _ => rfl
  | n, v :: vs, hl, hu, hd => by
    simp only [levelsList, Nat.max_le] at hl
    simp only [noUnsetList, Bool.and_eq_true] at hu
    simp only [doublesList, List.mem_append] at hd
    rw [encAnys, List.mapM_cons, decAny_encAny n v hl.1 hu.1 (fun f hf => hd f (.inl hf)), decAny_encAnys n vs hl.2 hu.2 (fun f hf => hd f (.inr hf))]
    rfl
theorem decAny_encKvs : ∀ (n : Nat) (kvs : List (Str × Option AVal)), levelsKvs kvs ≤ n → noUnsetKvs kvs = true → (∀ f ∈ doublesKvs kvs, finite f = true) →
    (encKvs kvs).mapM (decKvWith (decAny cast n)) = some kvs
  | _, [], _, _, _ => rfl
  | n, (k, none) :: kvs, hl, hu, hd => by
    simp only [levelsKvs, Nat.max_le] at hl
    simp only [noUnsetKvs] at hu
    simp only [doublesKvs] at hd
    have he := entries_obj (names := ["key", "value"]) (o := [("key", .str k), ("value", .null)]) (by simp)
    have h1 : decKvWith (decAny cast n) (.obj [("key", .str k), ("value", .null)]) = some (k, none) := by
      simp [decKvWith, he, field, fieldOpt, fieldOr, get_cons, decStr, decOpt]
    rw [encKvs, List.mapM_cons, h1, decAny_encKvs n kvs hl.2 hu hd]
    rfl
  | n, (k, some v) :: kvs, hl, hu, hd => by
    simp only [levelsKvs, Nat.max_le] at hl
    simp only [noUnsetKvs, Bool.and_eq_true] at hu
    simp only [doublesKvs, List.mem_append] at hd
    have hv := decOpt_encAny (decAny_encAny n v (by omega) hu.1 (fun f hf => hd f (.inl hf)))
    have he := entries_obj (names := ["key", "value"]) (o := [("key", .str k), ("value", encAny v)]) (by simp)
    have h1 : decKvWith (decAny cast n) (.obj [("key", .str k), ("value", encAny v)]) = some (k, some v) := by
      simp [decKvWith, he, field, fieldOpt, fieldOr, get_cons, decStr, hv]
    rw [encKvs, List.mapM_cons, h1, decAny_encKvs n kvs hl.2 hu.2 (fun f hf => hd f (.inr hf))]
    rfl
end

end

section
variable {rd : BitVec 64 → BitVec 64} (cast : Int → BitVec 64) {d : Nat}

theorem faithful_attrs (h1 : 1 ≤ d) (hd : d < maxDepth) {kvs : List Kv} (h : ∀ v ∈ attrValues kvs, GoodVal rd d v) :
    Faithful rd encAttrs (decAttrs cast) (d + 2) kvs where
  read := by
    have hl := levelsKvs_le h1 fun v hv => (h v hv).levels
    refine decAny_encKvs cast maxDepth kvs (by omega) ?_ ?_
    · rw [noUnsetKvs_eq, List.all_eq_true]; exact fun v hv => (h v hv).present
    · rw [doublesKvs_eq]
      intro f hf
      obtain ⟨v, hv, hf⟩ := List.mem_flatMap.1 hf
      exact (h v hv).finite f hf
  text := by
    rw [encAttrs, reparse, reparse_encKvs]
    rw [doublesKvs_eq]
    intro f hf
    obtain ⟨v, hv, hf⟩ := List.mem_flatMap.1 hf
    exact (h v hv).exact f hf
  depth := by
    rw [encAttrs, Json.depth, depth_encKvs]
    have := levelsKvs_le h1 fun v hv => (h v hv).levels
    omega

theorem faithful_any (hd : d ≤ maxDepth) {v : AVal} (h : GoodVal rd d v) : Faithful rd encAny (decAny cast maxDepth) d v where
  read := decAny_encAny cast maxDepth v (by have := h.levels; omega) h.present h.finite
  text := reparse_encAny v h.exact
  depth := by rw [depth_encAny]; exact h.levels

theorem faithful_f64 {f : BitVec 64} (h : GoodF64 rd f) : Faithful rd encF64 (decF64 cast) 0 f where
  read := decF64_encF64 cast h.finite
  text := reparse_encF64 h.exact
  depth := by rw [depth_encF64]; omega

theorem encF64_ne_null {f : BitVec 64} (h : GoodF64 rd f) : encF64 f ≠ .null := by
  rw [encF64, if_pos h.finite]; simp

end

theorem faithful_u {rd : BitVec 64 → BitVec 64} {w : Nat} (n : BitVec w) : Faithful rd encU (decU w) 0 n :=
  ⟨decU_encU n, rfl, by simp [encU, Json.depth]⟩

theorem depth_leaf {w : Nat} (n : BitVec w) (t : BitVec 64) (bs : List Byte) (s : Str) (b : Bool) :
    (encU n).depth = 0 ∧ (encI n).depth = 0 ∧ (encTime t).depth = 0 ∧ (encHex bs).depth = 0 ∧ (Json.str s).depth = 0 ∧ (Json.bool b).depth = 0 := by
  simp [encU, encI, encTime, encHex, Json.depth]

theorem reparse_leaf {rd : BitVec 64 → BitVec 64} {w : Nat} (n : BitVec w) : reparse rd (encU n) = encU n ∧ reparse rd (encI n) = encI n := ⟨rfl, rfl⟩

end Otel.Otlp.Json
