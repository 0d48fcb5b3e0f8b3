import Verif.Otlp.ProtoProps
/-!
# C96: the numbers and types of the specification, other readers, and limits
-/

namespace Otel.Otlp.Proto
open Rust Wire
open Otel.Otlp.Json

/-! ## The values of each kind of field -/

theorem val_str (t : Nat) (s : Str) : sel t (strF t s) = stringV s := by
  rw [sel_same tag_strF, strF, stringV]; split <;> rfl
theorem val_bytes (t : Nat) (s : List Byte) : sel t (bytesF t s) = bytesV s := by
  rw [sel_same tag_bytesF, bytesF, bytesV]; split <;> rfl

theorem toNat_eq_zero (n : BitVec 32) : n.toNat = 0 ↔ n = 0#32 := ⟨fun h => BitVec.eq_of_toNat_eq h, fun h => by rw [h]; rfl⟩
theorem toInt_eq_zero (n : BitVec 32) : n.toInt = 0 ↔ n = 0#32 := ⟨fun h => BitVec.eq_of_toInt_eq h, fun h => by rw [h]; rfl⟩

theorem val_u32 (t : Nat) (n : BitVec 32) : sel t (u32F t n) = uintV n.toNat := by
  rw [sel_same tag_u32F, u32F, uintV]
  by_cases h : n = 0#32
  · rw [if_pos h, if_pos ((toNat_eq_zero n).2 h)]; rfl
  · rw [if_neg h, if_neg (mt (toNat_eq_zero n).1 h), BitVec.ofNat_toNat]; rfl
theorem val_enum (t : Nat) (n : BitVec 32) : sel t (enumF t n) = intV n.toInt := by
  rw [sel_same tag_enumF, enumF, intV]
  by_cases h : n = 0#32
  · rw [if_pos h, if_pos ((toInt_eq_zero n).2 h)]; rfl
  · rw [if_neg h, if_neg (mt (toInt_eq_zero n).1 h)]; rfl

theorem zigzag_toNat (n : BitVec 32) : zigzag n = BitVec.ofNat 64 (if 0 ≤ n.toInt then 2 * n.toInt.toNat else 2 * (-n.toInt).toNat - 1) := by
  have hlt := n.isLt
  apply BitVec.eq_of_toNat_eq
  rw [zigzag, sshiftRight_31]
  cases hm : n.msb
  · have hi : n.toInt = n.toNat := BitVec.toInt_eq_toNat_of_msb hm
    have hb : n.toNat < 2 ^ 31 := by
      have := BitVec.msb_eq_decide n; rw [hm] at this; simpa using this
    simp only [hi, Int.toNat_natCast, Int.natCast_nonneg, if_true, BitVec.toNat_ofNat]
    simp [BitVec.toNat_shiftLeft, Nat.shiftLeft_eq]
    omega
  · have hb : 2 ^ 31 ≤ n.toNat := by
      have := BitVec.msb_eq_decide n; rw [hm] at this; simpa using this
    have hi : n.toInt = n.toNat - 2 ^ 32 := by
      rw [BitVec.toInt_eq_toNat_cond, if_neg (by omega)]; simp
    have hx : (n <<< 1) ^^^ BitVec.allOnes 32 = ~~~ (n <<< 1) := by rw [BitVec.xor_allOnes]
    simp only [if_true]
    rw [hx, BitVec.toNat_setWidth, BitVec.toNat_not, BitVec.toNat_shiftLeft, Nat.shiftLeft_eq, hi, if_neg (by omega), BitVec.toNat_ofNat]
    omega

theorem val_s32 (t : Nat) (n : BitVec 32) : sel t (s32F t n) = sintV n.toInt := by
  rw [sel_same tag_s32F, s32F, sintV, ← zigzag_toNat]
  by_cases h : n = 0#32
  · rw [if_pos h, if_pos ((toInt_eq_zero n).2 h)]; rfl
  · rw [if_neg h, if_neg (mt (toInt_eq_zero n).1 h)]; rfl

theorem val_bool (t : Nat) (b : Bool) : sel t (boolF t b) = boolV b := by
  rw [sel_same tag_boolF, boolF, boolV]; split <;> rfl
theorem val_f64 (t : Nat) (n : BitVec 64) : sel t (f64F t n) = fixed64V n := by
  rw [sel_same tag_f64F, f64F, fixed64V]
  by_cases h : n = 0#64
  · subst h; rfl
  · rw [if_neg h, if_neg (show ¬ n = 0 from h)]; rfl
theorem val_f32 (t : Nat) (n : BitVec 32) : sel t (f32F t n) = fixed32V n := by
  rw [sel_same tag_f32F, f32F, fixed32V]
  by_cases h : n = 0#32
  · subst h; rfl
  · rw [if_neg h, if_neg (show ¬ n = 0 from h)]; rfl
theorem val_dbl (t : Nat) (f : BitVec 64) : sel t (dblF t f) = doubleV f := by
  rw [sel_same tag_dblF, dblF, doubleV]
  by_cases h : f = 0 ∨ f = 0x8000000000000000#64
  · rw [if_pos h, if_pos (by rcases h with rfl | rfl <;> decide)]; rfl
  · rw [if_neg h, if_neg]
    · rfl
    · intro h0
      by_cases hn : f = 0x8000000000000000#64
      · exact h (Or.inr hn)
      · exact h (Or.inl (shl_zero hn h0))
theorem val_optDbl (t : Nat) (f : Option (BitVec 64)) : sel t (optDblF t f) = optDoubleV f := by
  rw [sel_same tag_optDblF, optDblF, optDoubleV]; cases f <;> rfl
theorem val_packed64 (t : Nat) (ns : List (BitVec 64)) : sel t (packed64F t ns) = fixed64sV ns := by
  rw [sel_same tag_packed64F, packed64F, fixed64sV]; split <;> rfl
theorem val_packedVarint (t : Nat) (ns : List (BitVec 64)) : sel t (packedVarintF t ns) = uint64sV ns := by
  rw [sel_same tag_packedVarintF, packedVarintF, uint64sV]; split <;> rfl
theorem val_msg {α : Type} (f : α → List Rec) (t : Nat) (m : Option α) : sel t (msgF t f m) = messagesV f m.toList := by
  rw [sel_same tag_msgF, msgF, messagesV]; cases m <;> rfl
theorem val_rep {α : Type} (f : α → List Rec) (t : Nat) (ms : List α) : sel t (repF t f ms) = messagesV f ms := by
  rw [sel_same tag_repF, repF, messagesV, List.map_map]; rfl

theorem val_double {d : Nat} (h : d ≠ 6) (v : Option Num) : sel d (numF d v) = doubleOf v := by
  rcases v with _ | _ | _ <;> simp [numF, sel, doubleOf, Ne.symm h]
theorem val_int {d : Nat} (h : d ≠ 6) (v : Option Num) : sel 6 (numF d v) = intOf v := by
  rcases v with _ | _ | _ <;> simp [numF, sel, intOf, h]

/-! ## The numbers -/

theorem within_of {t : Nat} {l : List Nat} {rs : List Rec} (h : ∀ r ∈ rs, r.1 = t) (ht : t ∈ l) : ∀ r ∈ rs, r.1 ∈ l := fun r hr => by rw [h r hr]; exact ht
theorem within_append {l : List Nat} {a b : List Rec} (ha : ∀ r ∈ a, r.1 ∈ l) (hb : ∀ r ∈ b, r.1 ∈ l) : ∀ r ∈ a ++ b, r.1 ∈ l := fun r hr =>
  (List.mem_append.1 hr).elim (ha r) (hb r)
theorem within_num {d : Nat} {l : List Nat} (v : Option Num) (h1 : d ∈ l) (h2 : 6 ∈ l) : ∀ r ∈ numF d v, r.1 ∈ l := by
  rcases v with _ | _ | _
  · exact fun _ h => (List.not_mem_nil h).elim
  · exact fun r h => by rw [List.mem_singleton.1 h]; exact h1
  · exact fun r h => by rw [List.mem_singleton.1 h]; exact h2

/-- Proves that a list of fields has no other numbers than a list. -/
macro "within" : tactic => `(tactic| repeat' (first
  | with_reducible exact within_of tag_strF (by simp) | with_reducible exact within_of tag_bytesF (by simp) | with_reducible exact within_of tag_u32F (by simp)
  | with_reducible exact within_of tag_enumF (by simp) | with_reducible exact within_of tag_s32F (by simp) | with_reducible exact within_of tag_boolF (by simp)
  | with_reducible exact within_of tag_f64F (by simp) | with_reducible exact within_of tag_f32F (by simp) | with_reducible exact within_of tag_dblF (by simp)
  | with_reducible exact within_of tag_optDblF (by simp) | with_reducible exact within_of tag_packed64F (by simp)
  | with_reducible exact within_of tag_packedVarintF (by simp) | with_reducible exact within_of tag_msgF (by simp)
  | with_reducible exact within_of tag_repF (by simp)
  | with_reducible exact within_num _ (by simp) (by simp) | with_reducible apply within_append))

/-- Each value of the table. -/
macro "values" : tactic => `(tactic| (
  simp only [List.forall_mem_cons, List.not_mem_nil, false_imp_iff, implies_true, and_true]
  repeat' apply And.intro
  all_goals (try select)
  all_goals simp only [sel_numF, val_double, val_int, List.append_nil, List.nil_append, ne_eq, Nat.reduceEqDiff, not_false_eq_true,
    val_str, val_bytes, val_u32, val_enum, val_s32, val_bool, val_f64, val_f32, val_dbl, val_optDbl, val_packed64, val_packedVarint, val_msg, val_rep]))

/-- C96: an attribute value. -/
theorem any_follows (v : AVal) (h : (write (anyF v)).length < 2 ^ 64) : Follows anyTable v (write (anyF v)) := by
  refine ⟨anyF v, parse_small (numbered_any v) h, ?_, ?_⟩
  · have harr : ∀ vs, arrF vs = vs.map fun v => ((1 : Nat), Val.len (write (anyF v))) := by
      intro vs; induction vs with
      | nil => rw [arrF]; rfl
      | cons v vs ih => rw [arrF, ih]; rfl
    have hkvl : ∀ kvs, kvlF kvs = kvs.map fun kv => ((1 : Nat), Val.len (write (kvF kv))) := by
      intro vs; induction vs with
      | nil => rw [kvlF]; rfl
      | cons v vs ih => rw [kvlF_cons, ih]; rfl
    cases v <;> simp [anyTable, anyF, sel, harr, hkvl, text]
  · cases v <;> simp [anyTable, anyF]

theorem kv_follows (m : Kv) (h : (write (kvF m)).length < 2 ^ 64) : Follows kvTable m (write (kvF m)) :=
  ⟨_, parse_small (numbered_kv m) h, by unfold kvTable kvF; values, by unfold kvTable kvF; within⟩
theorem scope_follows (m : Scope) (h : (write (scopeF m)).length < 2 ^ 64) : Follows scopeTable m (write (scopeF m)) :=
  ⟨_, parse_small (numbered_scope m) h, by unfold scopeTable scopeF; values, by unfold scopeTable scopeF; within⟩
theorem res_follows (m : Res) (h : (write (resF m)).length < 2 ^ 64) : Follows resTable m (write (resF m)) :=
  ⟨_, parse_small (numbered_res m) h, by unfold resTable resF; values, by unfold resTable resF; within⟩
theorem event_follows (m : Event) (h : (write (eventF m)).length < 2 ^ 64) : Follows eventTable m (write (eventF m)) :=
  ⟨_, parse_small (numbered_event m) h, by unfold eventTable eventF; values, by unfold eventTable eventF; within⟩
theorem link_follows (m : Link) (h : (write (linkF m)).length < 2 ^ 64) : Follows linkTable m (write (linkF m)) :=
  ⟨_, parse_small (numbered_link m) h, by unfold linkTable linkF; values, by unfold linkTable linkF; within⟩
theorem status_follows (m : Status) (h : (write (statusF m)).length < 2 ^ 64) : Follows statusTable m (write (statusF m)) :=
  ⟨_, parse_small (numbered_status m) h, by unfold statusTable statusF; values, by unfold statusTable statusF; within⟩
/-- C96: a span. -/
theorem span_follows (m : Span) (h : (write (spanF m)).length < 2 ^ 64) : Follows spanTable m (write (spanF m)) :=
  ⟨_, parse_small (numbered_span m) h, by unfold spanTable spanF; values, by unfold spanTable spanF; within⟩
/-- C96: a log record. -/
theorem log_follows (m : LogRecord) (h : (write (logF m)).length < 2 ^ 64) : Follows logTable m (write (logF m)) :=
  ⟨_, parse_small (numbered_log m) h, by unfold logTable logF; values, by unfold logTable logF; within⟩
theorem exemplar_follows (m : Exemplar) (h : (write (exemplarF m)).length < 2 ^ 64) : Follows exemplarTable m (write (exemplarF m)) :=
  ⟨_, parse_small (numbered_exemplar m) h, by unfold exemplarTable exemplarF; values, by unfold exemplarTable exemplarF; within⟩
theorem numPoint_follows (m : NumPoint) (h : (write (numPointF m)).length < 2 ^ 64) : Follows numPointTable m (write (numPointF m)) :=
  ⟨_, parse_small (numbered_numPoint m) h, by unfold numPointTable numPointF; values, by unfold numPointTable numPointF; within⟩
theorem histPoint_follows (m : HistPoint) (h : (write (histPointF m)).length < 2 ^ 64) : Follows histPointTable m (write (histPointF m)) :=
  ⟨_, parse_small (numbered_histPoint m) h, by unfold histPointTable histPointF; values, by unfold histPointTable histPointF; within⟩
theorem buckets_follow (m : Buckets) (h : (write (bucketsF m)).length < 2 ^ 64) : Follows bucketsTable m (write (bucketsF m)) :=
  ⟨_, parse_small (numbered_buckets m) h, by unfold bucketsTable bucketsF; values, by unfold bucketsTable bucketsF; within⟩
theorem expoPoint_follows (m : ExpoPoint) (h : (write (expoPointF m)).length < 2 ^ 64) : Follows expoPointTable m (write (expoPointF m)) :=
  ⟨_, parse_small (numbered_expoPoint m) h, by unfold expoPointTable expoPointF; values, by unfold expoPointTable expoPointF; within⟩
theorem gauge_follows (m : List NumPoint) (h : (write (gaugeF m)).length < 2 ^ 64) : Follows gaugeTable m (write (gaugeF m)) :=
  ⟨_, parse_small (numbered_gauge m) h, by unfold gaugeTable gaugeF; values, by unfold gaugeTable gaugeF; within⟩
theorem sum_follows (m : List NumPoint × BitVec 32 × Bool) (h : (write (sumF m.1 m.2.1 m.2.2)).length < 2 ^ 64) :
    Follows sumTable m (write (sumF m.1 m.2.1 m.2.2)) :=
  ⟨_, parse_small (numbered_sum _ _ _) h, by unfold sumTable sumF; values, by unfold sumTable sumF; within⟩
theorem histogram_follows (m : List HistPoint × BitVec 32) (h : (write (histogramF m.1 m.2)).length < 2 ^ 64) :
    Follows histogramTable m (write (histogramF m.1 m.2)) :=
  ⟨_, parse_small (numbered_histogram _ _) h, by unfold histogramTable histogramF; values, by unfold histogramTable histogramF; within⟩
theorem expo_follows (m : List ExpoPoint × BitVec 32) (h : (write (expoF m.1 m.2)).length < 2 ^ 64) : Follows expoTable m (write (expoF m.1 m.2)) :=
  ⟨_, parse_small (numbered_expo _ _) h, by unfold expoTable expoF; values, by unfold expoTable expoF; within⟩

theorem within_data {l : List Nat} (v : Option Data) (h : 5 ∈ l ∧ 7 ∈ l ∧ 9 ∈ l ∧ 10 ∈ l) : ∀ r ∈ dataF v, r.1 ∈ l := by
  obtain ⟨h5, h7, h9, h10⟩ := h
  rcases v with _ | _ | _ | _ | _
  · exact fun _ h => (List.not_mem_nil h).elim
  all_goals (intro r hr; rw [List.mem_singleton.1 hr]; assumption)

/-- C96: a metric. -/
theorem metric_follows (m : Metric) (h : (write (metricF m)).length < 2 ^ 64) : Follows metricTable m (write (metricF m)) := by
  refine ⟨_, parse_small (numbered_metric m) h, ?_, ?_⟩
  · unfold metricTable metricF
    simp only [List.forall_mem_cons, List.not_mem_nil, false_imp_iff, implies_true, and_true]
    refine ⟨?_, ?_, ?_, ?_, ?_, ?_, ?_, ?_⟩
    all_goals select
    all_goals first
      | (rw [sel_dataF (by decide)]; simp only [List.append_nil, List.nil_append, val_str, val_rep])
      | (cases hd : m.data with
         | none => rfl
         | some d => cases d <;> simp [dataF, sel])
  · unfold metricTable metricF
    exact within_append (within_append (within_append (within_append (within_of tag_strF (by decide)) (within_of tag_strF (by decide)))
      (within_of tag_strF (by decide))) (within_data _ (by decide))) (within_of tag_repF (by decide))

theorem scopeItems_follow {α : Type} (f : α → List Rec) (m : ScopeItems α) (h : (write (scopeItemsF f m)).length < 2 ^ 64) :
    Follows (scopeItemsTable f) m (write (scopeItemsF f m)) :=
  ⟨_, parse_small (numbered_scopeItems f m) h, by unfold scopeItemsTable scopeItemsF; values, by unfold scopeItemsTable scopeItemsF; within⟩
theorem resourceItems_follow {α : Type} (f : α → List Rec) (m : ResourceItems α) (h : (write (resourceItemsF f m)).length < 2 ^ 64) :
    Follows (resourceItemsTable f) m (write (resourceItemsF f m)) :=
  ⟨_, parse_small (numbered_resourceItems f m) h, by unfold resourceItemsTable resourceItemsF; values, by unfold resourceItemsTable resourceItemsF; within⟩
/-- C96: a request. -/
theorem request_follows {α : Type} (f : α → List Rec) (m : List (ResourceItems α)) (h : (encode f m).length < 2 ^ 64) :
    Follows (requestTable f) m (encode f m) :=
  ⟨_, parse_small (numbered_request f m) h, by unfold requestTable requestF; values, by unfold requestTable requestF; within⟩

end Otel.Otlp.Proto
