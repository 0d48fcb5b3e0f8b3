import Verif.Otlp.ProtoSpec
/-!
# C96: OTLP in protobuf is what the specification says, and is read back as written
-/

namespace Otel.Otlp.Proto
open Rust Wire
open Otel.Otlp.Json

/-! ## Numbers of the fields are possible -/

theorem numbered_any (v : AVal) : Numbered (anyF v) := by
  cases v <;> rw [anyF] <;> first | exact (fun _ h => (List.not_mem_nil h).elim) | exact numbered_single (by omega) (by omega)

theorem numbered_arr (vs : List AVal) : Numbered (arrF vs) := by
  induction vs with
  | nil => rw [arrF]; exact fun _ h => (List.not_mem_nil h).elim
  | cons v vs ih =>
    rw [arrF]
    intro r hr
    rcases List.mem_cons.1 hr with rfl | h
    · exact (show 1 ≤ 1 ∧ 1 < 2 ^ 29 from ⟨by decide, by decide⟩)
    · exact ih r h

theorem kvlF_cons (kv : Kv) (kvs : List Kv) : kvlF (kv :: kvs) = (1, .len (write (kvF kv))) :: kvlF kvs := by
  obtain ⟨k, o⟩ := kv
  cases o <;> simp [kvlF, kvF, msgF]

theorem numbered_kvl (vs : List Kv) : Numbered (kvlF vs) := by
  induction vs with
  | nil => rw [kvlF]; exact fun _ h => (List.not_mem_nil h).elim
  | cons v vs ih =>
    rw [kvlF_cons]
    intro r hr
    rcases List.mem_cons.1 hr with rfl | h
    · exact (show 1 ≤ 1 ∧ 1 < 2 ^ 29 from ⟨by decide, by decide⟩)
    · exact ih r h

theorem numbered_num (d : Nat) (h1 : 1 ≤ d) (h2 : d < 2 ^ 29) (v : Option Num) : Numbered (numF d v) := by
  rcases v with _ | _ | _
  · exact fun _ h => (List.not_mem_nil h).elim
  · exact numbered_single h1 h2
  · exact numbered_single (by omega) (by omega)

theorem numbered_data (v : Option Data) : Numbered (dataF v) := by
  rcases v with _ | _ | _ | _ | _
  · exact fun _ h => (List.not_mem_nil h).elim
  all_goals exact numbered_single (by omega) (by omega)

/-- Proves that the numbers in a list of fields are possible. -/
macro "numbers" : tactic => `(tactic| repeat' (first
  | with_reducible exact numbered_of tag_strF (by omega) (by omega) | with_reducible exact numbered_of tag_bytesF (by omega) (by omega) | with_reducible exact numbered_of tag_u32F (by omega) (by omega)
  | with_reducible exact numbered_of tag_enumF (by omega) (by omega) | with_reducible exact numbered_of tag_s32F (by omega) (by omega) | with_reducible exact numbered_of tag_boolF (by omega) (by omega)
  | with_reducible exact numbered_of tag_f64F (by omega) (by omega) | with_reducible exact numbered_of tag_f32F (by omega) (by omega) | with_reducible exact numbered_of tag_dblF (by omega) (by omega)
  | with_reducible exact numbered_of tag_optDblF (by omega) (by omega) | with_reducible exact numbered_of tag_packed64F (by omega) (by omega)
  | with_reducible exact numbered_of tag_packedVarintF (by omega) (by omega) | with_reducible exact numbered_of tag_msgF (by omega) (by omega) | with_reducible exact numbered_of tag_repF (by omega) (by omega)
  | with_reducible exact numbered_num _ (by omega) (by omega) _ | with_reducible exact numbered_data _ | with_reducible apply numbered_append))

theorem numbered_kv (kv : Kv) : Numbered (kvF kv) := by unfold kvF; numbers
theorem numbered_scope (s : Scope) : Numbered (scopeF s) := by unfold scopeF; numbers
theorem numbered_res (s : Res) : Numbered (resF s) := by unfold resF; numbers
theorem numbered_event (s : Event) : Numbered (eventF s) := by unfold eventF; numbers
theorem numbered_link (s : Link) : Numbered (linkF s) := by unfold linkF; numbers
theorem numbered_status (s : Status) : Numbered (statusF s) := by unfold statusF; numbers
theorem numbered_span (s : Span) : Numbered (spanF s) := by unfold spanF; numbers
theorem numbered_log (s : LogRecord) : Numbered (logF s) := by unfold logF; numbers
theorem numbered_exemplar (s : Exemplar) : Numbered (exemplarF s) := by unfold exemplarF; numbers
theorem numbered_numPoint (s : NumPoint) : Numbered (numPointF s) := by unfold numPointF; numbers
theorem numbered_histPoint (s : HistPoint) : Numbered (histPointF s) := by unfold histPointF; numbers
theorem numbered_buckets (s : Buckets) : Numbered (bucketsF s) := by unfold bucketsF; numbers
theorem numbered_expoPoint (s : ExpoPoint) : Numbered (expoPointF s) := by unfold expoPointF; numbers
theorem numbered_gauge (ps : List NumPoint) : Numbered (gaugeF ps) := by unfold gaugeF; numbers
theorem numbered_sum (ps : List NumPoint) (t : BitVec 32) (m : Bool) : Numbered (sumF ps t m) := by unfold sumF; numbers
theorem numbered_histogram (ps : List HistPoint) (t : BitVec 32) : Numbered (histogramF ps t) := by unfold histogramF; numbers
theorem numbered_expo (ps : List ExpoPoint) (t : BitVec 32) : Numbered (expoF ps t) := by unfold expoF; numbers
theorem numbered_metric (s : Metric) : Numbered (metricF s) := by unfold metricF; numbers
theorem numbered_scopeItems {α : Type} (f : α → List Rec) (s : ScopeItems α) : Numbered (scopeItemsF f s) := by unfold scopeItemsF; numbers
theorem numbered_resourceItems {α : Type} (f : α → List Rec) (s : ResourceItems α) : Numbered (resourceItemsF f s) := by unfold resourceItemsF; numbers
theorem numbered_request {α : Type} (f : α → List Rec) (s : List (ResourceItems α)) : Numbered (requestF f s) := by unfold requestF; numbers

/-! ## Values -/

theorem sel_cons_same (t : Nat) (v : Val) (rs : List Rec) : sel t ((t, v) :: rs) = v :: sel t rs := by simp [sel]

theorem mapM_cons_some {α β : Type} {f : α → Option β} {a : α} {l : List α} {b : β} {bs : List β} (h : f a = some b) (hl : l.mapM f = some bs) :
    (a :: l).mapM f = some (b :: bs) := by
  rw [List.mapM_cons, h, hl]; rfl

theorem kv_reads (n : Nat) (k : Str) (o : Option AVal) (hs : Small (kvF (k, o))) (h : ∀ v, o = some v → ∃ n', n = n' + 1 ∧ (Small (anyF v) → decAny n' (anyF v) = some v)) :
    decKv n (kvF (k, o)) = some (k, o) := by
  have hk : sel 1 (kvF (k, o)) = sel 1 (strF 1 k) := by rw [kvF, sel_append, sel_msgF (by decide), List.append_nil]
  have hv : sel 2 (kvF (k, o)) = sel 2 (msgF 2 anyF o) := by rw [kvF, sel_append, sel_strF (by decide), List.nil_append]
  have hsm : Small (msgF 2 anyF o) := (small_append hs).2
  cases n with
  | zero =>
    cases o with
    | none =>
      have : skip 0 [1] (kvF (k, none)) = some () := by
        rw [skip, if_neg]
        rintro ⟨_, r, hr, hn⟩
        rw [kvF, msgF, Option.map_none, Option.toList_none, List.append_nil] at hr
        rw [tag_strF r hr] at hn
        exact hn (by simp)
      rw [decKv, this, Option.bind_some, hk, read_str]
      rfl
    | some v => obtain ⟨n', h1, _⟩ := h v rfl; cases h1
  | succ n =>
    rw [decKv, hk, read_str, Option.bind_some, hv, read_opt hsm numbered_any fun a ha hsa => ?_]
    · rfl
    · obtain ⟨n', h1, h2⟩ := h a ha
      cases h1
      exact h2 hsa

theorem decAny_single_succ (n : Nat) (r : Rec) : decAny (n + 1) [r] = stepAny (decArr n) (decKvl n) (n + 1) .unset r := by
  rw [decAny, List.foldlM_cons]
  cases stepAny (decArr n) (decKvl n) (n + 1) .unset r <;> rfl

theorem decAny_single_zero (r : Rec) : decAny 0 [r] = stepAny (fun _ => none) (fun _ => none) 0 .unset r := by
  rw [decAny, List.foldlM_cons]
  cases stepAny (fun _ => none) (fun _ => none) 0 .unset r <;> rfl

mutual
theorem any_reads : ∀ (v : AVal) (n : Nat), levels v ≤ n → Small (anyF v) → decAny n (anyF v) = some v
  | .unset, n, _, _ => by rw [anyF]; cases n <;> rfl
  | .str s, n, _, _ => by
    rw [anyF]
    cases n
    · rw [decAny_single_zero]
      show (asText (.len (text s))).map AVal.str = _
      rw [asText_text]; rfl
    · rw [decAny_single_succ]
      show (asText (.len (text s))).map AVal.str = _
      rw [asText_text]; rfl
  | .bool b, n, _, _ => by
    rw [anyF]
    cases n
    · rw [decAny_single_zero]; cases b <;> rfl
    · rw [decAny_single_succ]; cases b <;> rfl
  | .int i, n, _, _ => by rw [anyF]; cases n <;> first | (rw [decAny_single_zero]; rfl) | (rw [decAny_single_succ]; rfl)
  | .double f, n, _, _ => by rw [anyF]; cases n <;> first | (rw [decAny_single_zero]; rfl) | (rw [decAny_single_succ]; rfl)
  | .bytes bs, n, _, _ => by rw [anyF]; cases n <;> first | (rw [decAny_single_zero]; rfl) | (rw [decAny_single_succ]; rfl)
  | .array vs, 0, h, _ => by rw [levels] at h; omega
  | .array vs, n + 1, h, hs => by
    rw [levels] at h
    rw [anyF] at hs ⊢
    have hin : Small (arrF vs) := small_inner hs (t := 5) (by simp)
    rw [decAny_single_succ]
    show (inner (decArr n) (.len (write (arrF vs)))).map (fun us => AVal.array ([] ++ us)) = _
    rw [inner, payload_write (numbered_arr vs) hin, Option.bind_some, arr_reads vs n (by omega) hin]
    rfl
  | .kvlist kvs, 0, h, _ => by rw [levels] at h; omega
  | .kvlist kvs, n + 1, h, hs => by
    rw [levels] at h
    rw [anyF] at hs ⊢
    have hin : Small (kvlF kvs) := small_inner hs (t := 6) (by simp)
    rw [decAny_single_succ]
    show (inner (decKvl n) (.len (write (kvlF kvs)))).map (fun us => AVal.kvlist ([] ++ us)) = _
    rw [inner, payload_write (numbered_kvl kvs) hin, Option.bind_some, kvl_reads kvs n (by omega) hin]
    rfl
theorem arr_reads : ∀ (vs : List AVal) (n : Nat), levelsArr vs ≤ n → Small (arrF vs) → decArr n (arrF vs) = some vs
  | [], n, _, _ => by rw [arrF]; cases n <;> rfl
  | v :: vs, 0, h, _ => by rw [levelsArr] at h; omega
  | v :: vs, n + 1, h, hs => by
    rw [levelsArr] at h
    rw [arrF] at hs ⊢
    have hin : Small (anyF v) := small_inner hs (t := 1) (by simp)
    have htl : Small (arrF vs) := (small_append (a := [_]) hs).2
    have ih := arr_reads vs (n + 1) (by omega) htl
    rw [decArr] at ih ⊢
    rw [sel_cons_same]
    refine mapM_cons_some ?_ ih
    rw [inner, payload_write (numbered_any v) hin, Option.bind_some]
    exact any_reads v n (by omega) hin
theorem kvl_reads : ∀ (kvs : List (Str × Option AVal)) (n : Nat), levelsKvs kvs ≤ n → Small (kvlF kvs) → decKvl n (kvlF kvs) = some kvs
  | [], n, _, _ => by rw [kvlF]; cases n <;> rfl
  | (k, none) :: kvs, 0, h, _ => by rw [levelsKvs] at h; omega
  | (k, some v) :: kvs, 0, h, _ => by rw [levelsKvs] at h; omega
  | (k, none) :: kvs, n + 1, h, hs => by
    rw [levelsKvs] at h
    rw [kvlF_cons] at hs ⊢
    have hin : Small (kvF (k, none)) := small_inner hs (t := 1) (by simp)
    have htl : Small (kvlF kvs) := (small_append (a := [_]) hs).2
    have ih := kvl_reads kvs (n + 1) (by omega) htl
    rw [decKvl] at ih ⊢
    rw [sel_cons_same]
    refine mapM_cons_some ?_ ih
    rw [inner, payload_write (numbered_kv _) hin, Option.bind_some]
    exact kv_reads n k none hin (by simp)
  | (k, some v) :: kvs, n + 1, h, hs => by
    rw [levelsKvs] at h
    rw [kvlF_cons] at hs ⊢
    have hin : Small (kvF (k, some v)) := small_inner hs (t := 1) (by simp)
    have htl : Small (kvlF kvs) := (small_append (a := [_]) hs).2
    have ih := kvl_reads kvs (n + 1) (by omega) htl
    rw [decKvl] at ih ⊢
    rw [sel_cons_same]
    refine mapM_cons_some ?_ ih
    rw [inner, payload_write (numbered_kv _) hin, Option.bind_some]
    refine kv_reads n k (some v) hin fun v' hv' => ?_
    cases hv'
    exact ⟨n - 1, by omega, fun hsv => any_reads v (n - 1) (by omega) hsv⟩
end

theorem attrs_read {t n : Nat} {kvs : List Kv} (hs : Small (repF t kvF kvs)) (h : Shallow n kvs) : rep (decKv (n + 1)) (sel t (repF t kvF kvs)) = some kvs :=
  read_rep hs numbered_kv fun kv hkv hsk => kv_reads (n + 1) kv.1 kv.2 hsk fun v hv => ⟨n, rfl, any_reads v n (h kv hkv v hv)⟩

/-- Keeps of a list of fields the one with the number. -/
macro "select" : tactic => `(tactic| simp only [sel_append, sel_strF, sel_bytesF, sel_u32F, sel_enumF, sel_s32F, sel_boolF, sel_f64F, sel_f32F, sel_dblF,
  sel_packed64F, sel_packedVarintF, sel_optDblF, sel_msgF, sel_repF, List.append_nil, List.nil_append, ne_eq, Nat.reduceEqDiff, not_false_eq_true, reduceCtorEq])

/-- A part of a small message is small. -/
macro "part" h:ident : tactic => `(tactic| (unfold Small at $h:ident ⊢; simp only [write_append, List.length_append] at $h:ident; omega))

theorem scope_reads {n : Nat} {s : Scope} (hs : Small (scopeF s)) (h : Shallow n s.attributes) : decScope (n + 2) (scopeF s) = some s := by
  unfold scopeF at hs
  have a := attrs_read (t := 3) (by part hs) h
  simp only [decScope, scopeF, skip_succ, lim]
  select
  simp only [read_str, read_u32, a]
  rfl

theorem res_reads {n : Nat} {s : Res} (hs : Small (resF s)) (h : Shallow n s.attributes) : decRes (n + 2) (resF s) = some s := by
  unfold resF at hs
  have a := attrs_read (t := 1) (by part hs) h
  simp only [decRes, resF, skip_succ, lim]
  select
  simp only [read_u32, a]
  rfl

theorem event_reads {n : Nat} {s : Event} (hs : Small (eventF s)) (h : Shallow n s.attributes) : decEvent (n + 2) (eventF s) = some s := by
  unfold eventF at hs
  have a := attrs_read (t := 3) (by part hs) h
  simp only [decEvent, eventF, skip_succ, lim]
  select
  simp only [read_str, read_u32, read_f64, a]
  rfl

theorem link_reads {n : Nat} {s : Link} (hs : Small (linkF s)) (h : Shallow n s.attributes) : decLink (n + 2) (linkF s) = some s := by
  unfold linkF at hs
  have a := attrs_read (t := 4) (by part hs) h
  simp only [decLink, linkF, skip_succ, lim]
  select
  simp only [read_str, read_bytes, read_u32, read_f32, a]
  rfl

theorem status_reads (n : Nat) (s : Status) : decStatus (n + 1) (statusF s) = some s := by
  simp only [decStatus, statusF, skip_succ]
  select
  simp only [read_str, read_enum]
  rfl

theorem span_reads {n : Nat} {s : Span} (hs : Small (spanF s)) (ha : Shallow (n + 1) s.attributes) (he : ∀ e ∈ s.events, Shallow n e.attributes)
    (hl : ∀ l ∈ s.links, Shallow n l.attributes) : decSpan (n + 3) (spanF s) = some s := by
  unfold spanF at hs
  have a9 := attrs_read (t := 9) (by part hs) ha
  have a11 : rep (decEvent (n + 2)) (sel 11 (repF 11 eventF s.events)) = some s.events :=
    read_rep (by part hs) numbered_event fun e h hse => event_reads hse (he e h)
  have a13 : rep (decLink (n + 2)) (sel 13 (repF 13 linkF s.links)) = some s.links :=
    read_rep (by part hs) numbered_link fun e h hse => link_reads hse (hl e h)
  have a15 : opt (decStatus (n + 2)) (sel 15 (msgF 15 statusF s.status)) = some s.status :=
    read_opt (by part hs) numbered_status fun x _ _ => status_reads _ x
  simp only [decSpan, spanF, skip_succ, lim]
  select
  simp only [read_str, read_bytes, read_enum, read_f64, read_u32, read_f32, a9, a11, a13, a15]
  rfl

theorem log_reads {n : Nat} {s : LogRecord} (hs : Small (logF s)) (hb : ∀ v, s.body = some v → levels v ≤ n + 1) (ha : Shallow n s.attributes) :
    decLog (n + 2) (logF s) = some s := by
  unfold logF at hs
  have a6 := attrs_read (t := 6) (by part hs) ha
  have a5 : opt (decAny (n + 1)) (sel 5 (msgF 5 anyF s.body)) = some s.body :=
    read_opt (by part hs) numbered_any fun v hv hsv => any_reads v (n + 1) (hb v hv) hsv
  simp only [decLog, logF, skip_succ, lim]
  select
  simp only [read_str, read_bytes, read_enum, read_f64, read_u32, read_f32, a5, a6]
  rfl

/-! ## Metrics -/

theorem sel_numF {t d : Nat} (h1 : d ≠ t) (h2 : 6 ≠ t) (v : Option Num) : sel t (numF d v) = [] := by
  rcases v with _ | _ | _ <;> simp [numF, sel, h1, h2]

theorem decNum_skip (d : Nat) (rs : List Rec) (cur : Option Num) (h : ∀ r ∈ rs, r.1 ≠ d ∧ r.1 ≠ 6) :
    rs.foldlM (m := Option) (fun cur r => if r.1 = d then (as64 r.2).map (some ∘ Num.asDouble) else if r.1 = 6 then (as64 r.2).map (some ∘ Num.asInt) else some cur) cur
      = some cur := by
  induction rs with
  | nil => rfl
  | cons r rs ih =>
    rw [List.foldlM_cons, if_neg (h r List.mem_cons_self).1, if_neg (h r List.mem_cons_self).2]
    exact ih fun x hx => h x (List.mem_cons_of_mem _ hx)

theorem read_num {d : Nat} (a b : List Rec) (v : Option Num) (ha : ∀ r ∈ a, r.1 ≠ d ∧ r.1 ≠ 6) (hb : ∀ r ∈ b, r.1 ≠ d ∧ r.1 ≠ 6) (hd : d ≠ 6) :
    decNum d (a ++ numF d v ++ b) = some v := by
  rw [decNum, List.foldlM_append, List.foldlM_append, decNum_skip d a none ha]
  have hm : (numF d v).foldlM (m := Option) (fun cur r => if r.1 = d then (as64 r.2).map (some ∘ Num.asDouble) else if r.1 = 6 then (as64 r.2).map (some ∘ Num.asInt)
      else some cur) none = some v := by
    rcases v with _ | f | i
    · rfl
    · rw [numF, List.foldlM_cons, if_pos rfl]; rfl
    · rw [numF, List.foldlM_cons, if_neg (Ne.symm hd), if_pos rfl]; rfl
  simp only [Option.bind_eq_bind, Option.bind_some, hm]
  exact decNum_skip d b v hb

theorem avoid_append {d : Nat} {a b : List Rec} (ha : ∀ r ∈ a, r.1 ≠ d ∧ r.1 ≠ 6) (hb : ∀ r ∈ b, r.1 ≠ d ∧ r.1 ≠ 6) : ∀ r ∈ a ++ b, r.1 ≠ d ∧ r.1 ≠ 6 := by
  intro r hr
  rcases List.mem_append.1 hr with h | h
  · exact ha r h
  · exact hb r h

theorem avoid_of {d t : Nat} {rs : List Rec} (h : ∀ r ∈ rs, r.1 = t) (h1 : t ≠ d) (h2 : t ≠ 6) : ∀ r ∈ rs, r.1 ≠ d ∧ r.1 ≠ 6 := fun r hr => by
  rw [h r hr]; exact ⟨h1, h2⟩

theorem exemplar_reads {n : Nat} {s : Exemplar} (hs : Small (exemplarF s)) (h : Shallow n s.filteredAttributes) : decExemplar (n + 2) (exemplarF s) = some s := by
  have hv : decNum 3 (exemplarF s) = some s.value := by
    have e : exemplarF s = f64F 2 s.timeUnixNano ++ numF 3 s.value ++ (bytesF 4 s.spanId ++ bytesF 5 s.traceId ++ repF 7 kvF s.filteredAttributes) := by
      simp only [exemplarF, List.append_assoc]
    rw [e]
    exact read_num _ _ _ (avoid_of tag_f64F (by decide) (by decide))
      (avoid_append (avoid_append (avoid_of tag_bytesF (by decide) (by decide)) (avoid_of tag_bytesF (by decide) (by decide)))
        (avoid_of tag_repF (by decide) (by decide))) (by decide)
  unfold exemplarF at hs
  have a := attrs_read (t := 7) (by part hs) h
  simp only [decExemplar, hv, skip_succ, lim]
  simp only [exemplarF, sel_numF, ne_eq, Nat.reduceEqDiff, not_false_eq_true]
  select
  simp only [read_bytes, read_f64, sel_numF, ne_eq, Nat.reduceEqDiff, not_false_eq_true, List.append_nil, List.nil_append, a]
  rfl

theorem exemplars_read {t n : Nat} {es : List Exemplar} (hs : Small (repF t exemplarF es)) (h : ∀ e ∈ es, Shallow n e.filteredAttributes) :
    rep (decExemplar (n + 2)) (sel t (repF t exemplarF es)) = some es :=
  read_rep hs numbered_exemplar fun e he hse => exemplar_reads hse (h e he)

theorem numPoint_reads {n : Nat} {s : NumPoint} (hs : Small (numPointF s)) (ha : Shallow (n + 1) s.attributes)
    (he : ∀ e ∈ s.exemplars, Shallow n e.filteredAttributes) : decNumPoint (n + 3) (numPointF s) = some s := by
  have hv : decNum 4 (numPointF s) = some s.value := by
    have e : numPointF s = f64F 2 s.startTimeUnixNano ++ f64F 3 s.timeUnixNano ++ numF 4 s.value ++
        (repF 5 exemplarF s.exemplars ++ repF 7 kvF s.attributes ++ u32F 8 s.flags) := by
      simp only [numPointF, List.append_assoc]
    rw [e]
    exact read_num _ _ _ (avoid_append (avoid_of tag_f64F (by decide) (by decide)) (avoid_of tag_f64F (by decide) (by decide)))
      (avoid_append (avoid_append (avoid_of tag_repF (by decide) (by decide)) (avoid_of tag_repF (by decide) (by decide)))
        (avoid_of tag_u32F (by decide) (by decide))) (by decide)
  unfold numPointF at hs
  have a7 := attrs_read (t := 7) (by part hs) ha
  have a5 := exemplars_read (t := 5) (by part hs) he
  simp only [decNumPoint, hv, skip_succ, lim]
  simp only [numPointF]
  select
  simp only [read_f64, read_u32, sel_numF, ne_eq, Nat.reduceEqDiff, not_false_eq_true, List.append_nil, List.nil_append, a5, a7]
  rfl

theorem histPoint_reads {n : Nat} {s : HistPoint} (hs : Small (histPointF s)) (ha : Shallow (n + 1) s.attributes)
    (he : ∀ e ∈ s.exemplars, Shallow n e.filteredAttributes) : decHistPoint (n + 3) (histPointF s) = some s := by
  unfold histPointF at hs
  have a9 := attrs_read (t := 9) (by part hs) ha
  have a8 := exemplars_read (t := 8) (by part hs) he
  simp only [decHistPoint, histPointF, skip_succ, lim]
  select
  simp only [read_f64, read_u32, read_optDbl, read_packed64, a8, a9]
  rfl

theorem buckets_read (n : Nat) (s : Buckets) : decBuckets (n + 1) (bucketsF s) = some s := by
  simp only [decBuckets, bucketsF, skip_succ]
  select
  simp only [read_s32, read_packedVarint]
  rfl

theorem shl_zero {f : BitVec 64} (h : f ≠ 0x8000000000000000#64) (hz : f <<< 1 = 0#64) : f = 0#64 := by
  have h1 : (f <<< 1).toNat = 0 := by rw [hz]; rfl
  have h2 := f.isLt
  rw [BitVec.toNat_shiftLeft, Nat.shiftLeft_eq] at h1
  have h3 : f.toNat = 0 ∨ f.toNat = 2 ^ 63 := by omega
  rcases h3 with h3 | h3
  · exact BitVec.eq_of_toNat_eq h3
  · exact absurd (BitVec.eq_of_toNat_eq h3) h

theorem expoPoint_reads {n : Nat} {s : ExpoPoint} (hs : Small (expoPointF s)) (ha : Shallow (n + 1) s.attributes)
    (he : ∀ e ∈ s.exemplars, Shallow n e.filteredAttributes) (hz : s.zeroThreshold ≠ 0x8000000000000000#64) : decExpoPoint (n + 3) (expoPointF s) = some s := by
  unfold expoPointF at hs
  have a1 := attrs_read (t := 1) (by part hs) ha
  have a11 := exemplars_read (t := 11) (by part hs) he
  have a8 : opt (decBuckets (n + 2)) (sel 8 (msgF 8 bucketsF s.positive)) = some s.positive :=
    read_opt (by part hs) numbered_buckets fun x _ _ => buckets_read _ x
  have a9 : opt (decBuckets (n + 2)) (sel 9 (msgF 9 bucketsF s.negative)) = some s.negative :=
    read_opt (by part hs) numbered_buckets fun x _ _ => buckets_read _ x
  have a14 := read_dbl 14 s.zeroThreshold (shl_zero hz)
  simp only [decExpoPoint, expoPointF, skip_succ, lim]
  select
  simp only [read_f64, read_u32, read_s32, read_optDbl, a1, a8, a9, a11, a14]
  rfl

/-- The values of a metric are small enough for a reader with so many levels left at its data points. -/
def DataFits (n : Nat) : Data → Prop
  | .gauge ps => ∀ p ∈ ps, Shallow (n + 1) p.attributes ∧ ∀ e ∈ p.exemplars, Shallow n e.filteredAttributes
  | .sum ps _ _ => ∀ p ∈ ps, Shallow (n + 1) p.attributes ∧ ∀ e ∈ p.exemplars, Shallow n e.filteredAttributes
  | .histogram ps _ => ∀ p ∈ ps, Shallow (n + 1) p.attributes ∧ ∀ e ∈ p.exemplars, Shallow n e.filteredAttributes
  | .expo ps _ => ∀ p ∈ ps, Shallow (n + 1) p.attributes ∧ (∀ e ∈ p.exemplars, Shallow n e.filteredAttributes) ∧ p.zeroThreshold ≠ 0x8000000000000000#64

theorem gauge_reads {n : Nat} {ps : List NumPoint} (hs : Small (gaugeF ps)) (h : DataFits n (.gauge ps)) : decGauge (n + 4) (gaugeF ps) = some (.gauge ps) := by
  have a : rep (decNumPoint (n + 3)) (sel 1 (repF 1 numPointF ps)) = some ps := read_rep hs numbered_numPoint fun p hp hsp => numPoint_reads hsp (h p hp).1 (h p hp).2
  simp only [decGauge, gaugeF, skip_succ, lim, a]
  rfl

theorem sum_reads {n : Nat} {ps : List NumPoint} {t : BitVec 32} {m : Bool} (hs : Small (sumF ps t m)) (h : DataFits n (.sum ps t m)) :
    decSum (n + 4) (sumF ps t m) = some (.sum ps t m) := by
  unfold sumF at hs
  have a : rep (decNumPoint (n + 3)) (sel 1 (repF 1 numPointF ps)) = some ps :=
    read_rep (by part hs) numbered_numPoint fun p hp hsp => numPoint_reads hsp (h p hp).1 (h p hp).2
  simp only [decSum, sumF, skip_succ, lim]
  select
  simp only [read_enum, read_bool, a]
  rfl

theorem histogram_reads {n : Nat} {ps : List HistPoint} {t : BitVec 32} (hs : Small (histogramF ps t)) (h : DataFits n (.histogram ps t)) :
    decHistogram (n + 4) (histogramF ps t) = some (.histogram ps t) := by
  unfold histogramF at hs
  have a : rep (decHistPoint (n + 3)) (sel 1 (repF 1 histPointF ps)) = some ps :=
    read_rep (by part hs) numbered_histPoint fun p hp hsp => histPoint_reads hsp (h p hp).1 (h p hp).2
  simp only [decHistogram, histogramF, skip_succ, lim]
  select
  simp only [read_enum, a]
  rfl

theorem expo_reads {n : Nat} {ps : List ExpoPoint} {t : BitVec 32} (hs : Small (expoF ps t)) (h : DataFits n (.expo ps t)) :
    decExpo (n + 4) (expoF ps t) = some (.expo ps t) := by
  unfold expoF at hs
  have a : rep (decExpoPoint (n + 3)) (sel 1 (repF 1 expoPointF ps)) = some ps :=
    read_rep (by part hs) numbered_expoPoint fun p hp hsp => expoPoint_reads hsp (h p hp).1 (h p hp).2.1 (h p hp).2.2
  simp only [decExpo, expoF, skip_succ, lim]
  select
  simp only [read_enum, a]
  rfl

theorem stepData_skip (n : Nat) (rs : List Rec) (cur : Variant) (h : ∀ r ∈ rs, dataDec n r.1 = none) : rs.foldlM (stepData n) cur = some cur := by
  induction rs with
  | nil => rfl
  | cons r rs ih =>
    have hr : stepData n cur r = some cur := by simp only [stepData, h r List.mem_cons_self]
    rw [List.foldlM_cons, hr]
    exact ih fun x hx => h x (List.mem_cons_of_mem _ hx)

theorem sel_dataF {t : Nat} (h : t ≠ 5 ∧ t ≠ 7 ∧ t ≠ 9 ∧ t ≠ 10) (d : Option Data) : sel t (dataF d) = [] := by
  obtain ⟨h5, h7, h9, h10⟩ := h
  rcases d with _ | _ | _ | _ | _ <;> simp [dataF, sel, h5.symm, h7.symm, h9.symm, h10.symm]

theorem data_reads {n : Nat} (d : Option Data) (hs : Small (dataF d)) (h : ∀ x, d = some x → DataFits n x) (a b : List Rec)
    (ha : ∀ r ∈ a, dataDec (n + 5) r.1 = none) (hb : ∀ r ∈ b, dataDec (n + 5) r.1 = none) : decData (n + 5) (a ++ dataF d ++ b) = some d := by
  rw [decData, List.foldlM_append, List.foldlM_append, stepData_skip _ a _ ha]
  simp only [Option.bind_eq_bind, Option.bind_some]
  have key : ∀ (t : Nat) (rs : List Rec) (dec : List Rec → Option Data) (x : Data), dataF d = [(t, .len (write rs))] → dataDec (n + 5) t = some dec → Numbered rs →
      Small rs → dec rs = some x → d = some x → (((dataF d).foldlM (stepData (n + 5)) none).bind fun init => b.foldlM (stepData (n + 5)) init).bind (fun cur =>
        match cur with
        | none => some none
        | some c => ((dataDec (n + 5) c.1).bind fun dec => dec c.2).map some) = some d := by
    intro t rs dec x hd ht hn hsm hx hdx
    have hstep : stepData (n + 5) none (t, .len (write rs)) = some (some (t, rs)) := by
      rw [stepData]
      simp only [ht, payload_write hn hsm, Option.bind_some, List.nil_append, hx, Option.map_some]
    rw [hd, List.foldlM_cons, hstep]
    simp only [Option.bind_eq_bind, Option.bind_some, List.foldlM_nil, Option.pure_def]
    rw [stepData_skip _ b _ hb]
    simp only [Option.bind_some, ht, hx, Option.map_some, hdx]
  cases d with
  | none =>
    rw [dataF, List.foldlM_nil]
    simp only [Option.pure_def, Option.bind_some]
    rw [stepData_skip _ b _ hb]
    rfl
  | some x =>
    have hf := h x rfl
    cases x with
    | gauge ps =>
      have hi : Small (gaugeF ps) := small_inner hs (t := 5) (by simp [dataF])
      exact key 5 _ (decGauge (n + 4)) _ rfl rfl (numbered_gauge ps) hi (gauge_reads hi hf) rfl
    | sum ps t m =>
      have hi : Small (sumF ps t m) := small_inner hs (t := 7) (by simp [dataF])
      exact key 7 _ (decSum (n + 4)) _ rfl rfl (numbered_sum ps t m) hi (sum_reads hi hf) rfl
    | histogram ps t =>
      have hi : Small (histogramF ps t) := small_inner hs (t := 9) (by simp [dataF])
      exact key 9 _ (decHistogram (n + 4)) _ rfl rfl (numbered_histogram ps t) hi (histogram_reads hi hf) rfl
    | expo ps t =>
      have hi : Small (expoF ps t) := small_inner hs (t := 10) (by simp [dataF])
      exact key 10 _ (decExpo (n + 4)) _ rfl rfl (numbered_expo ps t) hi (expo_reads hi hf) rfl

theorem noData_of {n t : Nat} {rs : List Rec} (h : ∀ r ∈ rs, r.1 = t) (ht : dataDec n t = none) : ∀ r ∈ rs, dataDec n r.1 = none := fun r hr => by
  rw [h r hr]; exact ht

theorem noData_append {n : Nat} {a b : List Rec} (ha : ∀ r ∈ a, dataDec n r.1 = none) (hb : ∀ r ∈ b, dataDec n r.1 = none) :
    ∀ r ∈ a ++ b, dataDec n r.1 = none := by
  intro r hr
  rcases List.mem_append.1 hr with h | h
  · exact ha r h
  · exact hb r h

theorem metric_reads {n : Nat} {s : Metric} (hs : Small (metricF s)) (ha : Shallow (n + 3) s.metadata) (hd : ∀ d, s.data = some d → DataFits n d) :
    decMetric (n + 5) (metricF s) = some s := by
  have hs' := hs
  unfold metricF at hs'
  have hv : decData (n + 5) (metricF s) = some s.data :=
    data_reads s.data (by part hs') hd _ _
      (noData_append (noData_append (noData_of tag_strF rfl) (noData_of tag_strF rfl)) (noData_of tag_strF rfl)) (noData_of tag_repF rfl)
  have a := attrs_read (t := 12) (by part hs') ha
  simp only [decMetric, hv, skip_succ, lim]
  simp only [metricF]
  select
  simp only [sel_dataF, ne_eq, Nat.reduceEqDiff, not_false_eq_true, and_self, List.append_nil, List.nil_append, read_str, a]
  rfl

/-! ## Requests -/

section
variable {α : Type} {fields : α → List Rec} {dec : Nat → List Rec → Option α}

theorem scopeItems_read {n : Nat} (hn : ∀ a, Numbered (fields a)) {s : ScopeItems α} (hs : Small (scopeItemsF fields s))
    (hsc : ∀ x, s.scope = some x → Shallow n x.attributes) (hi : ∀ i ∈ s.items, Small (fields i) → dec (n + 2) (fields i) = some i) :
    decScopeItems dec (n + 3) (scopeItemsF fields s) = some s := by
  unfold scopeItemsF at hs
  have a1 : opt (decScope (n + 2)) (sel 1 (msgF 1 scopeF s.scope)) = some s.scope :=
    read_opt (by part hs) numbered_scope fun x hx hsx => scope_reads hsx (hsc x hx)
  have a2 : rep (dec (n + 2)) (sel 2 (repF 2 fields s.items)) = some s.items := read_rep (by part hs) hn hi
  simp only [decScopeItems, scopeItemsF, skip_succ, lim]
  select
  simp only [read_str, a1, a2]
  rfl

theorem resourceItems_read {n : Nat} (hn : ∀ a, Numbered (fields a)) {s : ResourceItems α} (hs : Small (resourceItemsF fields s))
    (hsc : ∀ x, s.resource = some x → Shallow (n + 1) x.attributes)
    (hi : ∀ i ∈ s.scopes, (∀ x, i.scope = some x → Shallow n x.attributes) ∧ ∀ j ∈ i.items, Small (fields j) → dec (n + 2) (fields j) = some j) :
    decResourceItems dec (n + 4) (resourceItemsF fields s) = some s := by
  unfold resourceItemsF at hs
  have a1 : opt (decRes (n + 3)) (sel 1 (msgF 1 resF s.resource)) = some s.resource :=
    read_opt (by part hs) numbered_res fun x hx hsx => res_reads hsx (hsc x hx)
  have a2 : rep (decScopeItems dec (n + 3)) (sel 2 (repF 2 (scopeItemsF fields) s.scopes)) = some s.scopes :=
    read_rep (by part hs) (numbered_scopeItems fields) fun i h hsi => scopeItems_read hn hsi (hi i h).1 (hi i h).2
  simp only [decResourceItems, resourceItemsF, skip_succ, lim]
  select
  simp only [read_str, a1, a2]
  rfl

theorem request_reads (hn : ∀ a, Numbered (fields a)) (item : α → Prop) (hitem : ∀ i, item i → Small (fields i) → dec 97 (fields i) = some i)
    (rs : List (ResourceItems α)) (h : ShallowRequest item rs) (hs : (encode fields rs).length < 2 ^ 64) : decode dec (encode fields rs) = some rs := by
  have a : rep (decResourceItems dec 99) (sel 1 (repF 1 (resourceItemsF fields) rs)) = some rs :=
    read_rep hs (numbered_resourceItems fields) fun r hr hsr =>
      resourceItems_read (n := 95) hn hsr (h r hr).1 fun s hsc => ⟨((h r hr).2 s hsc).1, fun i hi => hitem i (((h r hr).2 s hsc).2 i hi)⟩
  rw [decode, encode, parse_small (numbered_request fields rs) hs, Option.bind_some, decRequest, requestF]
  exact a
end

/-- C96, spans: what is written, a reader of protobuf reads back, for every request whose values are not nested too deep. Missing: deeper values,
`deep_value_violated`. -/
theorem traces_decode_partial (rs : List (ResourceItems Span)) (h : ShallowRequest ShallowSpan rs) (hs : (encTraces rs).length < 2 ^ 64) :
    decTraces (encTraces rs) = some rs :=
  request_reads numbered_span ShallowSpan (fun _ hi hsm => span_reads (n := 94) hsm hi.attributes hi.events hi.links) rs h hs

/-- C96, log records. -/
theorem logs_decode_partial (rs : List (ResourceItems LogRecord)) (h : ShallowRequest ShallowLog rs) (hs : (encLogs rs).length < 2 ^ 64) :
    decLogs (encLogs rs) = some rs :=
  request_reads numbered_log ShallowLog (fun _ hi hsm => log_reads (n := 95) hsm hi.body hi.attributes) rs h hs

/-- C96, metrics; the threshold of exponential histograms must not be the negative zero. -/
theorem metrics_decode_partial (rs : List (ResourceItems Metric)) (h : ShallowRequest ShallowMetric rs) (hs : (encMetrics rs).length < 2 ^ 64) :
    decMetrics (encMetrics rs) = some rs :=
  request_reads numbered_metric ShallowMetric (fun _ hi hsm => metric_reads (n := 92) hsm hi.metadata fun d hd => by
    have := hi.data d hd
    cases d <;> exact this) rs h hs

end Otel.Otlp.Proto
