import Verif.Sdk.SpanLemmas
/-! # C22, C23, C24: contents and delivery of spans -/

namespace Otel.Sdk
open Otel.Ctx Rust Spec

variable {A I W B : Type} {U : Nat → Type}

/-- One `on_end` call for each of `n` processors, in order, with the same span. -/
def oncePerProcessor (n : Nat) (x : Exported A I) : List (Nat × Exported A I) := (List.range n).map fun i => (i, x)

theorem deliver_obs (x : Exported A I) (i : Nat) (ps : List (Processor A I B U W)) (st : PState A I W) :
    (deliver x i ps st).obs.ends = st.obs.ends ++ (List.range' i ps.length).map (fun j => (j, x))
      ∧ (deliver x i ps st).obs.starts = st.obs.starts ∧ (deliver x i ps st).isShutdown = st.isShutdown := by
  induction ps generalizing i st with
  | nil => simp [deliver]
  | cons p ps ih =>
    simp only [deliver]
    obtain ⟨h1, h2, h3⟩ := ih (i + 1) { st with world := p.onEnd x st.world, obs := { st.obs with ends := st.obs.ends ++ [(i, x)] } }
    refine ⟨?_, h2, h3⟩
    rw [h1]; simp [List.range'_succ]

theorem deliver_ends (x : Exported A I) (ps : List (Processor A I B U W)) (st : PState A I W) :
    (deliver x 0 ps st).obs.ends = st.obs.ends ++ oncePerProcessor ps.length x := by
  rw [(deliver_obs x 0 ps st).1, oncePerProcessor, List.range_eq_range']

/-- A span that no longer records is not changed by anything and delivers nothing. -/
theorem run_dead (env : Env A I B U W) (o : HistOp A W) (s : Span A I) (st : PState A I W) (h : s.data = none) :
    (o.run env (s, st)).1 = s ∧ (o.run env (s, st)).2.obs = st.obs := by
  cases o with
  | op o =>
    cases o with
    | edit e => cases s; simp_all [HistOp.run, SpanOp.run, Span.edit]
    | endAt t => simp [HistOp.run, SpanOp.run, ensureEnded, h]
    | endNow => simp [HistOp.run, SpanOp.run, ensureEnded, h]
  | shutdown => simp [HistOp.run]
  | world w => simp [HistOp.run]

theorem runHist_dead (env : Env A I B U W) (h : List (HistOp A W)) (s : Span A I) (st : PState A I W) (hd : s.data = none) :
    (runHist env h (s, st)).1 = s ∧ (runHist env h (s, st)).2.obs = st.obs := by
  induction h generalizing st with
  | nil => simp [runHist]
  | cons o h ih =>
    obtain ⟨h1, h2⟩ := run_dead env o s st hd
    have heq : runHist env (o :: h) (s, st) = runHist env h (s, (o.run env (s, st)).2) := by
      show runHist env h (o.run env (s, st)) = _
      rw [show o.run env (s, st) = ((o.run env (s, st)).1, (o.run env (s, st)).2) from rfl, h1]
    rw [heq]
    obtain ⟨h3, h4⟩ := ih (o.run env (s, st)).2
    exact ⟨h3, h4.trans h2⟩

theorem runHist_append (env : Env A I B U W) (a b : List (HistOp A W)) (x : Span A I × PState A I W) :
    runHist env (a ++ b) x = runHist env b (runHist env a x) := List.foldl_append

theorem runHist_cons (env : Env A I B U W) (o : HistOp A W) (b : List (HistOp A W)) (x : Span A I × PState A I W) :
    runHist env (o :: b) x = runHist env b (o.run env x) := rfl

theorem quiet_cons {o : HistOp A W} {h : List (HistOp A W)} (hq : Quiet (o :: h)) :
    ((∃ e, o = .op (.edit e)) ∨ ∃ w, o = .world w) ∧ Quiet h :=
  ⟨hq o (by simp), fun p hp => hq p (by simp [hp])⟩

theorem runHist_quiet (env : Env A I B U W) (h : List (HistOp A W)) (hq : Quiet h) (s : Span A I) (st : PState A I W) :
    runHist env h (s, st) =
      ({ s with data := s.data.map (editAll s.limits (editsOf h)) }, { st with world := worldAfter st.world h }) := by
  induction h generalizing s st with
  | nil => cases s; rename_i a d b c; cases d <;> simp [runHist, editsOf, editAll, worldAfter]
  | cons o h ih =>
    obtain ⟨ho, hq'⟩ := quiet_cons hq
    rw [runHist_cons]
    rcases ho with ⟨e, rfl⟩ | ⟨w, rfl⟩
    · rw [show HistOp.run env (.op (.edit e)) (s, st) = (s.edit e, st) from rfl, ih hq']
      cases s; rename_i a d b c
      cases d <;> simp [Span.edit, editsOf, editAll, worldAfter]
    · rw [show HistOp.run env (.world w) (s, st) = (s, { st with world := w }) from rfl, ih hq']
      simp [editsOf, worldAfter]

/-- After the first end: nothing more is delivered. -/
theorem after_end (env : Env A I B U W) (post : List (HistOp A W)) (s : Span A I) (st : PState A I W) (hd : s.data = none) :
    (dropSpan env (runHist env post (s, st))).obs = st.obs := by
  obtain ⟨h1, h2⟩ := runHist_dead env post s st hd
  have : ensureEnded env none (runHist env post (s, st)).1 (runHist env post (s, st)).2
      = ((runHist env post (s, st)).1, (runHist env post (s, st)).2) := by
    unfold ensureEnded; rw [h1, hd]
  rw [dropSpan, this]; exact h2

/-- **C23 (end with a timestamp)** A recording span is ended at `t` for the first time, after the calls `pre`; whatever
happens later - more calls, more ends, shutdown, and the drop - every processor gets `on_end` exactly once in total, in
order, with the data as of that first end and end time `t`. -/
theorem ended_once (env : Env A I B U W) (s : Span A I) (st : PState A I W) (d : SpanData A) (hd : s.data = some d)
    (hsd : st.isShutdown = false) (pre post : List (HistOp A W)) (hq : Quiet pre) (t : Time) :
    (dropSpan env (runHist env (pre ++ .op (.endAt t) :: post) (s, st))).obs.ends = st.obs.ends ++
      oncePerProcessor env.processors.length
        ⟨s.spanContext, { editAll s.limits (editsOf pre) d with endTime := t }, s.scope⟩ := by
  rw [runHist_append, runHist_quiet env pre hq, runHist_cons]
  have hr : HistOp.run env (.op (.endAt t)) ({ s with data := s.data.map (editAll s.limits (editsOf pre)) },
      { st with world := worldAfter st.world pre }) = ({ s with data := none },
      deliver ⟨s.spanContext, { editAll s.limits (editsOf pre) d with endTime := t }, s.scope⟩ 0 env.processors
        { st with world := worldAfter st.world pre }) := by
    simp [HistOp.run, SpanOp.run, ensureEnded, hd, hsd]
  rw [hr, after_end env post _ _ rfl, deliver_ends]

/-- **C23 (end)** The same for `end`, whose time is read from the clock at the call. -/
theorem ended_once_now (env : Env A I B U W) (s : Span A I) (st : PState A I W) (d : SpanData A) (hd : s.data = some d)
    (hsd : st.isShutdown = false) (pre post : List (HistOp A W)) (hq : Quiet pre) :
    (dropSpan env (runHist env (pre ++ .op .endNow :: post) (s, st))).obs.ends = st.obs.ends ++
      oncePerProcessor env.processors.length
        ⟨s.spanContext, { editAll s.limits (editsOf pre) d with endTime := (env.now (worldAfter st.world pre)).1 },
          s.scope⟩ := by
  rw [runHist_append, runHist_quiet env pre hq, runHist_cons]
  have hr : HistOp.run env (.op .endNow) ({ s with data := s.data.map (editAll s.limits (editsOf pre)) },
      { st with world := worldAfter st.world pre }) = ({ s with data := none },
      deliver ⟨s.spanContext, { editAll s.limits (editsOf pre) d with endTime := (env.now (worldAfter st.world pre)).1 },
        s.scope⟩ 0 env.processors { st with world := (env.now (worldAfter st.world pre)).2 }) := by
    simp [HistOp.run, SpanOp.run, ensureEnded, hd, hsd]
  rw [hr, after_end env post _ _ rfl, deliver_ends]

/-- **C23 (drop)** A recording span that is never ended is delivered once by its drop; its end time is the one the
builder gave if that differs from the start, else the clock's. -/
theorem dropped_once (env : Env A I B U W) (s : Span A I) (st : PState A I W) (d : SpanData A) (hd : s.data = some d)
    (hsd : st.isShutdown = false) (h : List (HistOp A W)) (hq : Quiet h) :
    (dropSpan env (runHist env h (s, st))).obs.ends = st.obs.ends ++
      oncePerProcessor env.processors.length
        ⟨s.spanContext, { editAll s.limits (editsOf h) d with
            endTime := if d.endTime = d.startTime then (env.now (worldAfter st.world h)).1 else d.endTime }, s.scope⟩ := by
  rw [runHist_quiet env h hq, dropSpan]
  obtain ⟨_, _, hs, he, _⟩ := editAll_other s.limits (editsOf h) d
  by_cases hc : d.endTime = d.startTime
  · simp only [ensureEnded, hd, Option.map_some, hsd, Bool.false_eq_true, if_false, hs, he, if_pos hc]
    rw [deliver_ends]
  · simp only [ensureEnded, hd, Option.map_some, hsd, Bool.false_eq_true, if_false, hs, he, if_neg hc]
    rw [deliver_ends, ← he, ← hs]

/-- **C23 (shutdown first)** If the provider is shut down before the span ends, the span is not delivered at all. -/
theorem shutdown_first (env : Env A I B U W) (s : Span A I) (st : PState A I W) (pre post : List (HistOp A W))
    (hq : Quiet pre) :
    (dropSpan env (runHist env (pre ++ .shutdown :: post) (s, st))).obs = st.obs := by
  rw [runHist_append, runHist_quiet env pre hq, runHist_cons]
  generalize hs : ({ s with data := s.data.map (editAll s.limits (editsOf pre)) } : Span A I) = s'
  have key : ∀ (h : List (HistOp A W)) (s' : Span A I) (st' : PState A I W), st'.isShutdown = true →
      (dropSpan env (runHist env h (s', st'))).obs = st'.obs := by
    intro h
    induction h with
    | nil =>
      intro s' st' hs'
      simp only [runHist, List.foldl_nil, dropSpan, ensureEnded, hs', if_true]
      split <;> rfl
    | cons o h ih =>
      intro s' st' hs'
      rw [runHist_cons]
      cases o with
      | op o =>
        cases o with
        | edit e => exact ih _ _ hs'
        | endAt t =>
          simp only [HistOp.run, SpanOp.run, ensureEnded, hs', if_true]
          split <;> exact ih _ _ hs'
        | endNow =>
          simp only [HistOp.run, SpanOp.run, ensureEnded, hs', if_true]
          split
          · exact ih _ ⟨true, st'.obs, (env.now st'.world).2⟩ rfl
          · exact ih _ ⟨true, st'.obs, (env.now st'.world).2⟩ rfl
      | shutdown => exact ih _ { st' with isShutdown := true } rfl
      | world w => exact ih _ { st' with world := w } hs'
  exact key post s' _ rfl

/-- **C23 (non-recording)** A span that does not record delivers nothing, whatever is done with it. -/
theorem nonrecording_never_delivered (env : Env A I B U W) (s : Span A I) (st : PState A I W) (hd : s.isRecording = false)
    (h : List (HistOp A W)) : (dropSpan env (runHist env h (s, st))).obs = st.obs :=
  after_end env h s st (by simpa [Span.isRecording] using hd)

/-- The four cases are all there is: every history is quiet, or has a first end or shutdown. -/
theorem history_cases (h : List (HistOp A W)) :
    Quiet h ∨ ∃ pre o post, Quiet pre ∧ h = pre ++ o :: post ∧ (o = .shutdown ∨ o = .op .endNow ∨ ∃ t, o = .op (.endAt t)) := by
  induction h with
  | nil => left; intro o ho; cases ho
  | cons o h ih =>
    have hcons : ((∃ e, o = .op (.edit e)) ∨ ∃ w, o = .world w) → Quiet h ∨ (∃ pre o post, Quiet pre ∧ h = pre ++ o :: post ∧
        (o = .shutdown ∨ o = .op .endNow ∨ ∃ t, o = .op (.endAt t))) → Quiet (o :: h) ∨ ∃ pre o' post, Quiet pre ∧
        o :: h = pre ++ o' :: post ∧ (o' = .shutdown ∨ o' = .op .endNow ∨ ∃ t, o' = .op (.endAt t)) := by
      intro ho ih
      rcases ih with hq | ⟨pre, o', post, hq, rfl, ho'⟩
      · left
        intro p hp
        rcases List.mem_cons.1 hp with rfl | hp
        · exact ho
        · exact hq p hp
      · right
        refine ⟨o :: pre, o', post, ?_, rfl, ho'⟩
        intro p hp
        rcases List.mem_cons.1 hp with rfl | hp
        · exact ho
        · exact hq p hp
    have hnil : Quiet ([] : List (HistOp A W)) := by intro o ho; cases ho
    cases o with
    | op o =>
      cases o with
      | edit e => exact hcons (Or.inl ⟨e, rfl⟩) ih
      | endAt t => exact Or.inr ⟨[], _, h, hnil, rfl, Or.inr (Or.inr ⟨t, rfl⟩)⟩
      | endNow => exact Or.inr ⟨[], _, h, hnil, rfl, Or.inr (Or.inl rfl)⟩
    | shutdown => exact Or.inr ⟨[], _, h, hnil, rfl, Or.inl rfl⟩
    | world w => exact hcons (Or.inr ⟨w, rfl⟩) ih

/-- Once ended, a span no longer records and never records again. -/
theorem not_recording_after_end (env : Env A I B U W) (s : Span A I) (st : PState A I W) (t : Time) (post : List (HistOp A W)) :
    (runHist env (.op (.endAt t) :: post) (s, st)).1.isRecording = false := by
  rw [runHist_cons]
  have : (HistOp.run env (.op (.endAt t)) (s, st)).1.data = none := by
    simp only [HistOp.run, SpanOp.run, ensureEnded]
    split
    · assumption
    · split <;> rfl
  obtain ⟨h1, _⟩ := runHist_dead env post (HistOp.run env (.op (.endAt t)) (s, st)).1
    (HistOp.run env (.op (.endAt t)) (s, st)).2 this
  have h2 : runHist env post (HistOp.run env (.op (.endAt t)) (s, st)) =
    runHist env post ((HistOp.run env (.op (.endAt t)) (s, st)).1, (HistOp.run env (.op (.endAt t)) (s, st)).2) := rfl
  rw [h2, Span.isRecording, h1, this]; rfl

/-! ## C22 -/

/-- **C22** A span started with a builder (and the sampler's attributes) and ended after the calls `pre`: what every
processor receives holds exactly the earliest attributes, events and links up to the limits, in order, and counts the
rest; the other fields are those of the builder and the last name given. -/
theorem span_limits (env : Env A I B U W) (l : SpanLimits) (psc sc : SpanContext) (b : SpanBuilder A) (extra : List A)
    (scope : I) (start : Time) (st : PState A I W) (hsd : st.isShutdown = false) (pre post : List (HistOp A W)) (hq : Quiet pre)
    (t : Time) :
    ∃ x : Exported A I,
      (dropSpan env (runHist env (pre ++ .op (.endAt t) :: post)
        (⟨sc, some (recordingData l psc b extra start), scope, l⟩, st))).obs.ends
        = st.obs.ends ++ oncePerProcessor env.processors.length x
      ∧ x.spanContext = sc ∧ x.scope = scope ∧ x.data.endTime = t ∧ x.data.startTime = start
      ∧ x.data.parentSpanId = psc.spanId ∧ x.data.spanKind = b.spanKind.getD .internal
      ∧ x.data.name = (namesGiven (editsOf pre)).getLastD b.name
      ∧ Holds l (b.attributes.getD [] ++ extra ++ attributesSet (editsOf pre)) (b.events.getD [] ++ eventsAdded (editsOf pre))
          (b.links.getD [] ++ linksAdded (editsOf pre)) x.data := by
  refine ⟨_, ended_once env _ st _ rfl hsd pre post hq t, rfl, rfl, rfl, ?_⟩
  obtain ⟨h1, h2, h3, h4, h5, h6⟩ := editAll_other l (editsOf pre) (recordingData l psc b extra start)
  refine ⟨h3, h1, h2, h5, ?_⟩
  obtain ⟨a1, a2, a3, a4, a5⟩ := holds_edits (editsOf pre) (holds_init l psc b extra start)
  exact ⟨a1, a2, a3, a4, a5⟩

/-- **C22 (counting)** Kept plus dropped is what was recorded, as long as that is below `2^32`. -/
theorem kept_plus_dropped {X : Type} {limit : Nat} {recorded kept : List X} {dropped : BitVec 32}
    (h : Kept limit recorded kept dropped) (hn : recorded.length < 2 ^ 32) :
    kept.length + dropped.toNat = recorded.length ∧ kept.length ≤ limit ∧ kept <+: recorded := by
  obtain ⟨rfl, rfl⟩ := h
  refine ⟨?_, by simp, List.take_prefix _ _⟩
  simp only [List.length_take, BitVec.toNat_ofNat]
  rw [Nat.mod_eq_of_lt (by omega)]; omega

/-! ## C24 -/

theorem status_gt_ok (s : Status) : s.gt .ok = false := by cases s <;> rfl

theorem status_fold_ok (ss : List Status) : ss.foldl (fun s s' => if Status.gt s' s then s' else s) Status.ok = .ok := by
  induction ss with
  | nil => rfl
  | cons a ss ih => simp [status_gt_ok, ih]

/-- The recorded status after the calls `ss`, starting with the builder's status. -/
def recordedStatus (s0 : Status) (ss : List Status) : Status :=
  ss.foldl (fun s s' => if Status.gt s' s then s' else s) s0

/-- `recordedStatus` is what the span holds. -/
theorem status_of_edits (l : SpanLimits) (es : List (Edit A)) (d : SpanData A) :
    (editAll l es d).status = recordedStatus d.status (statusesSet es) := (editAll_other l es d).2.2.2.2.2

/-- **C24 (Ok is final)** -/
theorem status_ok_final (s0 : Status) (ss : List Status) (h : .ok ∈ s0 :: ss) : recordedStatus s0 ss = .ok := by
  induction ss generalizing s0 with
  | nil => simp at h; subst h; rfl
  | cons a ss ih =>
    simp only [recordedStatus, List.foldl_cons]
    apply ih
    by_cases h0 : s0 = .ok
    · subst h0; simp [status_gt_ok]
    · by_cases h1 : a = .ok
      · subst h1
        have : Status.gt .ok s0 = true := by cases s0 <;> first | rfl | exact absurd rfl h0
        simp [this]
      · have : .ok ∈ ss := by
          simp only [List.mem_cons] at h
          rcases h with h | h | h
          · exact absurd h.symm h0
          · exact absurd h.symm h1
          · exact h
        exact List.mem_cons_of_mem _ this

/-- **C24 (what is recorded)** Without Ok the recorded status is unset if only unset was set, and otherwise the error
with the lexicographically greatest description. -/
theorem status_exact (s0 : Status) (ss : List Status) (h : .ok ∉ s0 :: ss) :
    (recordedStatus s0 ss = .unset ∧ ∀ s ∈ s0 :: ss, s = .unset) ∨
    ∃ d, recordedStatus s0 ss = .error d ∧ .error d ∈ s0 :: ss ∧ ∀ d', .error d' ∈ s0 :: ss → d' ≤ d := by
  induction ss generalizing s0 with
  | nil =>
    cases s0 with
    | unset => left; simp [recordedStatus]
    | ok => simp at h
    | error d => right; exact ⟨d, rfl, by simp, by intro d' hd'; simp at hd'; subst hd'; exact List.le_refl _⟩
  | cons a ss ih =>
    have hrec : recordedStatus s0 (a :: ss) = recordedStatus (if Status.gt a s0 then a else s0) ss := rfl
    rw [hrec]
    have hn : .ok ∉ (if Status.gt a s0 then a else s0) :: ss := by
      simp only [List.mem_cons, not_or] at h ⊢
      refine ⟨?_, h.2.2⟩
      split
      · exact h.2.1
      · exact h.1
    have := ih _ hn
    cases s0 with
    | ok => simp at h
    | unset =>
      cases a with
      | ok => simp at h
      | unset =>
        simp only [Status.gt, Bool.false_eq_true, if_false] at this ⊢
        rcases this with ⟨h1, h2⟩ | ⟨d, h1, h2, h3⟩
        · left; exact ⟨h1, by simpa using h2⟩
        · right; exact ⟨d, h1, by simpa using h2, by simpa using h3⟩
      | error e =>
        simp only [Status.gt, if_true] at this ⊢
        rcases this with ⟨h1, h2⟩ | ⟨d, h1, h2, h3⟩
        · have := h2 (.error e) (by simp); cases this
        · right; exact ⟨d, h1, List.mem_cons_of_mem _ h2, by simpa using h3⟩
    | error e0 =>
      cases a with
      | ok => simp at h
      | unset =>
        simp only [Status.gt, Bool.false_eq_true, if_false] at this ⊢
        rcases this with ⟨h1, h2⟩ | ⟨d, h1, h2, h3⟩
        · have := h2 (.error e0) (by simp); cases this
        · right; refine ⟨d, h1, ?_, ?_⟩
          · simp at h2 ⊢; exact h2
          · simpa using h3
      | error e =>
        simp only [Status.gt, decide_eq_true_eq] at this ⊢
        by_cases hlt : e0 < e
        · simp only [hlt, if_true] at this ⊢
          rcases this with ⟨h1, h2⟩ | ⟨d, h1, h2, h3⟩
          · have := h2 (.error e) (by simp); cases this
          · right
            refine ⟨d, h1, List.mem_cons_of_mem _ h2, ?_⟩
            intro d' hd'
            rcases List.mem_cons.1 hd' with hd' | hd'
            · injection hd' with hd'; subst hd'
              exact List.le_trans (List.le_of_lt hlt) (h3 e (by simp))
            · exact h3 d' hd'
        · simp only [hlt, if_false] at this ⊢
          rcases this with ⟨h1, h2⟩ | ⟨d, h1, h2, h3⟩
          · have := h2 (.error e0) (by simp); cases this
          · right
            refine ⟨d, h1, ?_, ?_⟩
            · simp at h2 ⊢; rcases h2 with h2 | h2 <;> simp [h2]
            · intro d' hd'
              simp only [List.mem_cons] at hd'
              rcases hd' with hd' | hd' | hd'
              · exact h3 d' (by simp [hd'])
              · injection hd' with hd'; subst hd'
                exact List.le_trans (List.not_lt.1 hlt) (h3 e0 (by simp))
              · exact h3 d' (by simp [hd'])

/-- **C24 (partial)** The documented status is recorded when no error description follows a greater one. -/
theorem status_partial (s0 : Status) (ss : List Status)
    (hmax : ∀ d d', (((s0 :: ss).filter (fun s => s ≠ .unset)).getLastD .unset) = .error d → .error d' ∈ s0 :: ss → d' ≤ d) :
    recordedStatus s0 ss = documentedStatus (s0 :: ss) := by
  unfold documentedStatus
  split
  · rename_i h; exact status_ok_final s0 ss h
  · rename_i h
    have hlast : ∀ (xs : List Status), xs ≠ [] → xs.getLastD .unset ∈ xs := by
      intro xs hx
      rw [List.getLastD_eq_getLast?, List.getLast?_eq_some_getLast hx]
      exact List.getLast_mem hx
    rcases status_exact s0 ss h with ⟨h1, h2⟩ | ⟨d, h1, h2, h3⟩
    · rw [h1]
      have : (s0 :: ss).filter (fun s => s ≠ .unset) = [] := by
        rw [List.filter_eq_nil_iff]; intro a ha; simp [h2 a ha]
      rw [this]; rfl
    · rw [h1]
      have hne : (s0 :: ss).filter (fun s => s ≠ .unset) ≠ [] := by
        intro hnil
        have := List.filter_eq_nil_iff.1 hnil _ h2
        simp at this
      have hm := hlast _ hne
      generalize hg : ((s0 :: ss).filter (fun s => s ≠ .unset)).getLastD .unset = last at *
      have hmem := List.mem_filter.1 hm
      cases last with
      | unset => simp at hmem
      | ok => exact absurd hmem.1 h
      | error e =>
        have h4 := h3 e hmem.1
        have h5 := hmax e d rfl h2
        rw [List.le_antisymm h4 h5]

/-- **C24 (violated)** `set_status(Error "b")` followed by `set_status(Error "a")` leaves "b": the last call is lost. -/
theorem status_last_error_violated :
    recordedStatus .unset [.error ['b'], .error ['a']] = .error ['b']
      ∧ documentedStatus [.unset, .error ['b'], .error ['a']] = .error ['a'] := by
  constructor <;> decide

/-! ## Non-vacuity -/

/-- A world whose state is its clock. -/
def exampleEnv : Env Nat Unit Unit (fun _ => Unit) Nat where
  now w := (w, w + 1)
  processors := [⟨fun _ _ w => ([], w), fun _ w => w⟩, ⟨fun _ _ w => ([], w), fun _ w => w⟩]

/-- A quiet history of three attributes on a span limited to two. -/
example :
    let l : SpanLimits := ⟨1, 2, 1, 1, 1⟩
    let b : SpanBuilder Nat := { name := ['n'], attributes := some [1] }
    let h : List (HistOp Nat Nat) := [.op (.edit (.setAttribute 2)), .world 7, .op (.edit (.setAttribute 3))]
    Quiet h ∧ (editAll l (editsOf h) (recordingData l SpanContext.none b [] 5)).attributes = [1, 2]
      ∧ (editAll l (editsOf h) (recordingData l SpanContext.none b [] 5)).droppedAttributesCount = 1 := by
  refine ⟨?_, by decide, by decide⟩
  intro o ho
  simp only [List.mem_cons, List.not_mem_nil, or_false] at ho
  rcases ho with rfl | rfl | rfl
  · exact Or.inl ⟨_, rfl⟩
  · exact Or.inr ⟨_, rfl⟩
  · exact Or.inl ⟨_, rfl⟩

example : recordedStatus .unset [.error ['a'], .unset, .error ['b']] = documentedStatus [.unset, .error ['a'], .unset, .error ['b']] := by
  decide

end Otel.Sdk
