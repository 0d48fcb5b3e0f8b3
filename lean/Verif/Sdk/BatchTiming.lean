import Mathlib.Tactic.Common
/-!
# C118: how long an item waits in a batch processor

The clock of the worker threads of the batch span processor (`opentelemetry-sdk/src/trace/span_processor.rs`, cited as spans) and the batch log
processor (`opentelemetry-sdk/src/logs/batch_log_processor.rs`, cited as logs). Time is a natural number.

Simplifications: a thread that can go on does so without delay, so that time passes only while the worker waits in `recv_timeout` with no message, or
in the exporter; what the exports of one wake-up take together is at most `work`, a parameter. Emitting is one step (that its parts can interleave is
the matter of C26 and C33). The channel of control messages (64) is never full. Shutdown, and the resource message sent when the provider is built,
are left out.
-/

namespace Otel.Sdk.BatchTiming

/-- Which processor, `scheduled_delay`, `max_export_batch_size`, `max_queue_size`, and the longest time the exports of one wake-up take. -/
structure Cfg where
  spans : Bool
  delay : Nat
  batch : Nat
  maxQueue : Nat
  work : Nat

/-- An item: when it was emitted, and how many items were then in the channel before it. -/
structure Item where
  at_ : Nat
  ahead : Nat
deriving DecidableEq, Repr

/-- A handed-over item and when its export began. -/
structure Handed where
  item : Item
  at_ : Nat
deriving DecidableEq, Repr

/-- Control messages: `ExportSpan`/`ExportLog`, `ForceFlush`. -/
inductive Msg where
  | size
  | flush
deriving DecidableEq, Repr

/-- Where the worker is: in `recv_timeout` (spans:337, logs:400), or exporting `taken` items in a wake-up that began at `start`, with `left` items of
the target still to take (logs only). -/
inductive Phase where
  | waiting (deadline : Nat)
  | exporting (start taken left : Nat)
deriving DecidableEq, Repr

/-- The state; `out` is a ghost. `count` is `current_batch_size`, `flag` is `export_span_message_sent`/`export_log_message_sent`. -/
structure St where
  now : Nat
  last : Nat
  queue : List Item
  count : Nat
  flag : Bool
  msgs : List Msg
  phase : Phase
  out : List Handed

/-- `scheduled_delay.checked_sub(last_export_time.elapsed())`, or the whole delay. spans:330-336, logs:395-398 -/
def remaining (cfg : Cfg) (now last : Nat) : Nat :=
  if now - last ≤ cfg.delay then cfg.delay - (now - last) else cfg.delay

/-- The head of the loop. spans:329-337, logs:394-400 -/
def St.wait (cfg : Cfg) (s : St) : St := { s with phase := .waiting (s.now + remaining cfg s.now s.last) }

/-- The worker starts. spans:327, logs:352 -/
def St.init (cfg : Cfg) : St := ⟨0, 0, [], 0, false, [], .waiting (remaining cfg 0 0), []⟩

/-- Take up to a batch out of the channel and hand it to the exporter. spans:464-472, 487-493; logs:376-387, 522-528 -/
def St.hand (cfg : Cfg) (s : St) (start target : Nat) : St :=
  let b := s.queue.take cfg.batch
  { s with
    last := s.now
    queue := s.queue.drop cfg.batch
    phase := .exporting start b.length (target - b.length)
    out := s.out ++ b.map fun x => ⟨x, s.now⟩ }

/-- A wake-up: `get_spans_and_export` (spans:448-476), `get_logs_and_export` (logs:356-392). -/
def St.wake (cfg : Cfg) (s : St) : St :=
  if cfg.spans then
    if s.queue.isEmpty then ({ s with last := s.now } : St).wait cfg else s.hand cfg s.now 0
  else if s.count = 0 then s.wait cfg else s.hand cfg s.now s.count

/-- Scheduler choices. -/
inductive Act where
  | emit
  | forceFlush
  | pass (d : Nat)
  | message
  | timer
  | finish

/-- Count an item and send the size message when a batch is full and none is under way. spans:535-561, logs:167-203 -/
def St.counted (cfg : Cfg) (s : St) : St :=
  if s.count + 1 ≥ cfg.batch ∧ s.flag = false then { s with count := s.count + 1, flag := true, msgs := s.msgs ++ [.size] }
  else { s with count := s.count + 1 }

/-- `on_end`, `emit`: the item goes into the channel unless it is full; the span processor counts dropped spans too. spans:516-563, logs:149-214 -/
def St.emit (cfg : Cfg) (s : St) : St :=
  if s.queue.length < cfg.maxQueue then ({ s with queue := s.queue ++ [⟨s.now, s.queue.length⟩] } : St).counted cfg
  else if cfg.spans then s.counted cfg else s

/-- One step. -/
def step (cfg : Cfg) (s : St) : Act → Option St
  | .emit => some (s.emit cfg)
  | .forceFlush => some { s with msgs := s.msgs ++ [.flush] }
  | .pass d => match s.phase with
    | .waiting dl => if s.msgs = [] ∧ s.now + d ≤ dl then some { s with now := s.now + d } else none
    | .exporting start _ _ => if s.now + d ≤ start + cfg.work then some { s with now := s.now + d } else none
  | .message => match s.phase, s.msgs with
    | .waiting _, .size :: ms => some (({ s with msgs := ms, flag := false } : St).wake cfg)
    | .waiting _, .flush :: ms => some (({ s with msgs := ms } : St).wake cfg)
    | _, _ => none
  | .timer => match s.phase with
    | .waiting dl => if s.msgs = [] ∧ s.now = dl then some (s.wake cfg) else none
    | _ => none
  | .finish => match s.phase with
    | .exporting start taken left =>
      let s := { s with count := s.count - taken }
      some (if left = 0 then s.wait cfg else s.hand cfg start left)
    | _ => none

/-- Reachable states. -/
inductive Reach (cfg : Cfg) : St → Prop
  | init : Reach cfg (.init cfg)
  | step {s s' a} : Reach cfg s → step cfg s a = some s' → Reach cfg s'

/-- A schedule. -/
def runAll (cfg : Cfg) (s : St) : List Act → Option St
  | [] => some s
  | a :: as => match step cfg s a with
    | some s' => runAll cfg s' as
    | none => none

theorem reach_runAll {cfg : Cfg} {s s' : St} (h : Reach cfg s) (as : List Act) (hr : runAll cfg s as = some s') : Reach cfg s' := by
  induction as generalizing s with
  | nil => injection hr with hr; subst hr; exact h
  | cons a as ih =>
    simp only [runAll] at hr
    split at hr
    · rename_i s1 hs1; exact ih (.step h hs1) hr
    · cases hr

/-! ## The clock -/

theorem remaining_le (cfg : Cfg) (now last : Nat) : remaining cfg now last ≤ cfg.delay := by
  unfold remaining; split <;> omega

/-- Where the clock can be. -/
structure ClockInv (cfg : Cfg) (s : St) : Prop where
  last : s.last ≤ s.now
  waiting : ∀ dl, s.phase = .waiting dl → s.now ≤ dl ∧ dl ≤ s.now + cfg.delay ∧ s.last + cfg.delay ≤ dl
  exporting : ∀ st n l, s.phase = .exporting st n l → st ≤ s.now ∧ s.now ≤ st + cfg.work

theorem clock_wait {cfg : Cfg} {s : St} (h : s.last ≤ s.now) : ClockInv cfg (s.wait cfg) := by
  refine ⟨h, ?_, ?_⟩
  · intro dl hd
    simp only [St.wait, Phase.waiting.injEq] at hd ⊢
    subst hd
    unfold remaining
    split <;> omega
  · intro st n l hp; cases hp

theorem clock_hand {cfg : Cfg} {s : St} {st : Nat} (t : Nat) (h1 : st ≤ s.now) (h2 : s.now ≤ st + cfg.work) : ClockInv cfg (s.hand cfg st t) := by
  refine ⟨Nat.le_refl _, ?_, ?_⟩
  · intro dl hd; cases hd
  · intro st' n l hp
    simp only [St.hand, Phase.exporting.injEq] at hp
    obtain ⟨rfl, _, _⟩ := hp
    exact ⟨h1, h2⟩

theorem clock_wake {cfg : Cfg} {s : St} (h : s.last ≤ s.now) : ClockInv cfg (s.wake cfg) := by
  unfold St.wake
  split
  · split
    · exact clock_wait (Nat.le_refl _)
    · exact clock_hand _ (Nat.le_refl _) (by omega)
  · split
    · exact clock_wait h
    · exact clock_hand _ (Nat.le_refl _) (by omega)

theorem counted_same (cfg : Cfg) (s : St) : (s.counted cfg).now = s.now ∧ (s.counted cfg).last = s.last ∧ (s.counted cfg).phase = s.phase
    ∧ (s.counted cfg).queue = s.queue ∧ (s.counted cfg).out = s.out ∧ (s.counted cfg).count = s.count + 1 := by
  unfold St.counted; split <;> exact ⟨rfl, rfl, rfl, rfl, rfl, rfl⟩

theorem emit_same (cfg : Cfg) (s : St) : (s.emit cfg).now = s.now ∧ (s.emit cfg).last = s.last ∧ (s.emit cfg).phase = s.phase
    ∧ (s.emit cfg).out = s.out ∧ ((s.emit cfg).queue = s.queue ∨ (s.emit cfg).queue = s.queue ++ [⟨s.now, s.queue.length⟩]) := by
  unfold St.emit
  split
  · obtain ⟨h1, h2, h3, h4, h5, _⟩ := counted_same cfg { s with queue := s.queue ++ [⟨s.now, s.queue.length⟩] }
    exact ⟨h1, h2, h3, h5, Or.inr h4⟩
  · split
    · obtain ⟨h1, h2, h3, h4, h5, _⟩ := counted_same cfg s
      exact ⟨h1, h2, h3, h5, Or.inl h4⟩
    · exact ⟨rfl, rfl, rfl, rfl, Or.inl rfl⟩

theorem clock_reach {cfg : Cfg} {s : St} (h : Reach cfg s) : ClockInv cfg s := by
  induction h with
  | init =>
    have h := clock_wait (cfg := cfg) (s := ⟨0, 0, [], 0, false, [], .waiting 0, []⟩) (Nat.le_refl _)
    simpa [St.wait, St.init] using h
  | @step s s' a _ hs ih =>
    cases a with
    | emit =>
      simp only [step, Option.some.injEq] at hs; subst hs
      obtain ⟨h1, h2, h3, _, _⟩ := emit_same cfg s
      exact ⟨by rw [h1, h2]; exact ih.last, fun dl hd => by rw [h1, h2]; exact ih.waiting dl (h3 ▸ hd),
        fun st n l hp => by rw [h1]; exact ih.exporting st n l (h3 ▸ hp)⟩
    | forceFlush =>
      simp only [step, Option.some.injEq] at hs; subst hs
      exact ⟨ih.last, ih.waiting, ih.exporting⟩
    | pass d =>
      simp only [step] at hs
      split at hs
      · rename_i dl hp
        split at hs
        · rename_i hc
          injection hs with hs; subst hs
          have := ih.waiting dl hp
          have := ih.last
          refine ⟨by show s.last ≤ s.now + d; omega, ?_, ?_⟩
          · intro dl' hd
            have : dl' = dl := by rw [show s.phase = .waiting dl' from hd] at hp; injection hp
            subst this
            show s.now + d ≤ dl' ∧ dl' ≤ s.now + d + cfg.delay ∧ s.last + cfg.delay ≤ dl'
            omega
          · intro st n l hp'; rw [show s.phase = _ from hp'] at hp; cases hp
        · cases hs
      · rename_i st n l hp
        split at hs
        · rename_i hc
          injection hs with hs; subst hs
          have := ih.exporting st n l hp
          have := ih.last
          refine ⟨by show s.last ≤ s.now + d; omega, ?_, ?_⟩
          · intro dl' hd; rw [show s.phase = _ from hd] at hp; cases hp
          · intro st' n' l' hp'
            rw [show s.phase = _ from hp'] at hp
            injection hp with e1 _ _
            subst e1
            show st' ≤ s.now + d ∧ s.now + d ≤ _
            omega
        · cases hs
    | message =>
      simp only [step] at hs
      split at hs
      · injection hs with hs; subst hs; exact clock_wake ih.last
      · injection hs with hs; subst hs; exact clock_wake ih.last
      · cases hs
    | timer =>
      simp only [step] at hs
      split at hs
      · split at hs
        · injection hs with hs; subst hs; exact clock_wake ih.last
        · cases hs
      · cases hs
    | finish =>
      simp only [step] at hs
      split at hs
      · rename_i st n l hp
        injection hs with hs; subst hs
        have := ih.exporting st n l hp
        split
        · exact clock_wait ih.last
        · exact clock_hand _ this.1 this.2
      · cases hs

/-- **C118** The timer does not export early: when it fires, at least the scheduled delay has passed since the last export began. -/
theorem timer_not_early {cfg : Cfg} {s s' : St} (h : Reach cfg s) (hs : step cfg s .timer = some s') : s.last + cfg.delay ≤ s.now := by
  simp only [step] at hs
  split at hs
  · rename_i dl hp
    split at hs
    · rename_i hc
      have := (clock_reach h).waiting dl hp
      omega
    · cases hs
  · cases hs

/-- **C118** The worker does not spin: when the timer fires past the delay and there is nothing to export, or an export took longer than the delay, the
worker waits the whole delay again. -/
theorem idle_waits_whole_delay {cfg : Cfg} {s s' : St} {a : Act} (ha : a = .timer ∨ a = .finish) (hl : s.last + cfg.delay < s.now)
    (hs : step cfg s a = some s') (dl : Nat) (hd : s'.phase = .waiting dl) : dl = s.now + cfg.delay := by
  have key : ∀ s1 : St, s1.now = s.now → (s1.last = s.now ∨ s1.last = s.last) → (s1.wait cfg).phase = .waiting dl → dl = s.now + cfg.delay := by
    intro s1 h1 h2 h3
    simp only [St.wait, Phase.waiting.injEq, h1] at h3
    rw [← h3]
    unfold remaining
    rcases h2 with h2 | h2 <;> rw [h2]
    · rw [if_pos (by omega)]; omega
    · rw [if_neg (by omega)]
  rcases ha with rfl | rfl
  · simp only [step] at hs
    split at hs
    · split at hs
      · injection hs with hs; subst hs
        unfold St.wake at hd
        split at hd
        · split at hd
          · exact key { s with last := s.now } rfl (Or.inl rfl) hd
          · cases hd
        · split at hd
          · exact key _ rfl (Or.inr rfl) hd
          · cases hd
      · cases hs
    · cases hs
  · simp only [step] at hs
    split at hs
    · injection hs with hs; subst hs
      split at hd
      · exact key _ rfl (Or.inr rfl) hd
      · cases hd
    · cases hs

/-- **C118** The clock never stops for good: in every state the worker can go on, or time can pass. -/
theorem never_stuck {cfg : Cfg} {s : St} (h : Reach cfg s) :
    (∃ s', step cfg s .message = some s') ∨ (∃ s', step cfg s .timer = some s') ∨ (∃ s', step cfg s .finish = some s')
      ∨ ∃ s', step cfg s (.pass 1) = some s' := by
  cases hp : s.phase with
  | exporting st n l => exact Or.inr (Or.inr (Or.inl (Option.isSome_iff_exists.1 (by simp [step, hp]))))
  | waiting dl =>
    have := (clock_reach h).waiting dl hp
    cases hm : s.msgs with
    | cons m ms => cases m <;> exact Or.inl (Option.isSome_iff_exists.1 (by simp [step, hp, hm]))
    | nil =>
      by_cases he : s.now = dl
      · exact Or.inr (Or.inl ⟨s.wake cfg, by simp [step, hp, hm, he]⟩)
      · exact Or.inr (Or.inr (Or.inr ⟨{ s with now := s.now + 1 }, by
          simp only [step, hp, hm]; rw [if_pos ⟨trivial, by omega⟩]⟩))

/-- An idle log processor whose timer fires at 11, past the delay of 10: it waits until 21. -/
example : (runAll ⟨false, 10, 2, 8, 6⟩ { St.init ⟨false, 10, 2, 8, 6⟩ with now := 11, phase := .waiting 11 } [.timer]).map (fun s => s.phase)
    = some (.waiting 21) := by
  decide

/-! ## Spans: one batch for each wake-up -/

/-- The longest time from one wake-up to the next. -/
def Cfg.round (cfg : Cfg) : Nat := cfg.delay + cfg.work

/-- When an item is due that had `ahead` items before it: a round for each full batch before it, and one for its own. -/
def Cfg.due (cfg : Cfg) (x : Item) : Nat := x.at_ + (x.ahead / cfg.batch + 1) * cfg.round

/-- The item at place `i` will be taken in time. -/
structure SpanInv (cfg : Cfg) (s : St) : Prop where
  out : ∀ o ∈ s.out, o.at_ ≤ cfg.due o.item
  waiting : ∀ dl, s.phase = .waiting dl → ∀ i x, s.queue[i]? = some x → dl + i / cfg.batch * cfg.round ≤ cfg.due x
  exporting : ∀ st n l, s.phase = .exporting st n l → l = 0 ∧ ∀ i x, s.queue[i]? = some x → st + (i / cfg.batch + 1) * cfg.round ≤ cfg.due x

theorem span_wake {cfg : Cfg} {s : St} (hk : cfg.spans = true) (hb : 0 < cfg.batch) (ho : ∀ o ∈ s.out, o.at_ ≤ cfg.due o.item) (dl : Nat)
    (hdl : s.now ≤ dl) (hq : ∀ i x, s.queue[i]? = some x → dl + i / cfg.batch * cfg.round ≤ cfg.due x) : SpanInv cfg (s.wake cfg) := by
  unfold St.wake
  rw [if_pos hk]
  split
  · rename_i he
    have he : s.queue = [] := by simpa using he
    refine ⟨ho, ?_, ?_⟩
    · intro _ _ i x hx
      simp [St.wait, he] at hx
    · intro _ _ _ hp; cases hp
  · refine ⟨?_, ?_, ?_⟩
    · intro o hm
      simp only [St.hand, List.mem_append, List.mem_map] at hm
      rcases hm with hm | ⟨x, hx, rfl⟩
      · exact ho o hm
      · obtain ⟨i, hi⟩ := List.mem_iff_getElem?.1 hx
        rw [List.getElem?_take] at hi
        split at hi
        · rename_i hlt
          have h1 := hq i x hi
          rw [Nat.div_eq_of_lt hlt] at h1
          show s.now ≤ cfg.due x
          omega
        · cases hi
    · intro _ hp; cases hp
    · intro st n l hp
      simp only [St.hand, Phase.exporting.injEq] at hp
      obtain ⟨rfl, _, hl⟩ := hp
      refine ⟨by omega, ?_⟩
      intro i x hx
      simp only [St.hand, List.getElem?_drop] at hx
      have h1 := hq (cfg.batch + i) x hx
      rw [Nat.add_div_left i hb] at h1
      have : (i / cfg.batch).succ * cfg.round = (i / cfg.batch + 1) * cfg.round := rfl
      omega

theorem span_reach {cfg : Cfg} {s : St} (hk : cfg.spans = true) (hb : 0 < cfg.batch) (h : Reach cfg s) : SpanInv cfg s := by
  induction h with
  | init => exact ⟨by simp [St.init], by simp [St.init], by simp [St.init]⟩
  | @step s s' a hr hs ih =>
    have hc := clock_reach hr
    cases a with
    | emit =>
      simp only [step, Option.some.injEq] at hs; subst hs
      obtain ⟨h1, h2, h3, h4, h5⟩ := emit_same cfg s
      have new : ∀ i x, (s.emit cfg).queue[i]? = some x → s.queue[i]? = some x ∨ i = s.queue.length ∧ x = ⟨s.now, i⟩ := by
        intro i x hx
        rcases h5 with h5 | h5 <;> rw [h5] at hx
        · exact Or.inl hx
        · rw [List.getElem?_append] at hx
          split at hx
          · exact Or.inl hx
          · rename_i hlt
            have : i - s.queue.length = 0 := by
              by_contra hne
              rw [List.getElem?_eq_none (by simp; omega)] at hx
              cases hx
            have hi : i = s.queue.length := by omega
            rw [this] at hx
            simp only [List.getElem?_cons_zero, Option.some.injEq] at hx
            exact Or.inr ⟨hi, by rw [← hx, hi]⟩
      refine ⟨by rw [h4]; exact ih.out, ?_, ?_⟩
      · intro dl hp i x hx
        rw [h3] at hp
        rcases new i x hx with hx | ⟨_, rfl⟩
        · exact ih.waiting dl hp i x hx
        · have := (hc.waiting dl hp).2.1
          show dl + i / cfg.batch * cfg.round ≤ s.now + (i / cfg.batch + 1) * cfg.round
          have : (i / cfg.batch + 1) * cfg.round = i / cfg.batch * cfg.round + (cfg.delay + cfg.work) := Nat.succ_mul _ _
          omega
      · intro st n l hp
        rw [h3] at hp
        refine ⟨(ih.exporting st n l hp).1, ?_⟩
        intro i x hx
        rcases new i x hx with hx | ⟨_, rfl⟩
        · exact (ih.exporting st n l hp).2 i x hx
        · have := (hc.exporting st n l hp).1
          show st + (i / cfg.batch + 1) * cfg.round ≤ s.now + (i / cfg.batch + 1) * cfg.round
          omega
    | forceFlush =>
      simp only [step, Option.some.injEq] at hs; subst hs
      exact ⟨ih.out, ih.waiting, ih.exporting⟩
    | pass d =>
      simp only [step] at hs
      split at hs
      · split at hs
        · injection hs with hs; subst hs; exact ⟨ih.out, ih.waiting, ih.exporting⟩
        · cases hs
      · split at hs
        · injection hs with hs; subst hs; exact ⟨ih.out, ih.waiting, ih.exporting⟩
        · cases hs
    | message =>
      simp only [step] at hs
      split at hs
      · rename_i dl _ hp _
        injection hs with hs; subst hs
        exact span_wake hk hb ih.out dl (hc.waiting dl hp).1 (ih.waiting dl hp)
      · rename_i dl _ hp _
        injection hs with hs; subst hs
        exact span_wake hk hb ih.out dl (hc.waiting dl hp).1 (ih.waiting dl hp)
      · cases hs
    | timer =>
      simp only [step] at hs
      split at hs
      · rename_i dl hp
        split at hs
        · injection hs with hs; subst hs
          exact span_wake hk hb ih.out dl (hc.waiting dl hp).1 (ih.waiting dl hp)
        · cases hs
      · cases hs
    | finish =>
      simp only [step] at hs
      split at hs
      · rename_i st n l hp
        injection hs with hs; subst hs
        obtain ⟨hl, hq⟩ := ih.exporting st n l hp
        have h1 := (hc.exporting st n l hp).2
        rw [if_pos hl]
        refine ⟨ih.out, ?_, ?_⟩
        · intro dl hd i x hx
          simp only [St.wait, Phase.waiting.injEq] at hd
          have h2 := hq i x hx
          have h3 := remaining_le cfg s.now s.last
          have : (i / cfg.batch + 1) * cfg.round = i / cfg.batch * cfg.round + (cfg.delay + cfg.work) := Nat.succ_mul _ _
          omega
        · intro _ _ _ hp'; cases hp'
      · cases hs

/-- **C118 (spans, partial)** If the exports of one wake-up take at most `work`, a span with `ahead` spans before it in the channel is handed to the
exporter at most `ahead / batch + 1` times delay plus `work` after it ended; none in the channel is overdue. Missing: one delay for all, see
`span_waits_longer_violated`. -/
theorem span_in_time_partial {cfg : Cfg} {s : St} (hk : cfg.spans = true) (hb : 0 < cfg.batch) (h : Reach cfg s) :
    (∀ o ∈ s.out, o.at_ ≤ o.item.at_ + (o.item.ahead / cfg.batch + 1) * (cfg.delay + cfg.work))
      ∧ ∀ x ∈ s.queue, s.now ≤ x.at_ + (x.ahead / cfg.batch + 1) * (cfg.delay + cfg.work) := by
  have hi := span_reach hk hb h
  have hc := clock_reach h
  refine ⟨hi.out, ?_⟩
  intro x hx
  obtain ⟨i, hi'⟩ := List.mem_iff_getElem?.1 hx
  show s.now ≤ cfg.due x
  cases hp : s.phase with
  | waiting dl =>
    have := hi.waiting dl hp i x hi'
    have := (hc.waiting dl hp).1
    have : 0 ≤ i / cfg.batch * cfg.round := Nat.zero_le _
    omega
  | exporting st n l =>
    have := (hi.exporting st n l hp).2 i x hi'
    have := (hc.exporting st n l hp).2
    have : (i / cfg.batch + 1) * cfg.round = i / cfg.batch * cfg.round + (cfg.delay + cfg.work) := Nat.succ_mul _ _
    omega

/-- **C118 (spans)** A span that finds less than a batch in the channel is exported within the scheduled delay and the time of one export. -/
theorem span_in_one_round {cfg : Cfg} {s : St} (hk : cfg.spans = true) (hb : 0 < cfg.batch) (h : Reach cfg s) (o : Handed) (ho : o ∈ s.out)
    (hl : o.item.ahead < cfg.batch) : o.at_ ≤ o.item.at_ + cfg.delay + cfg.work := by
  have := (span_in_time_partial hk hb h).1 o ho
  rw [Nat.div_eq_of_lt hl] at this
  omega

/-- **C118, false as it stands** A span can wait longer than the scheduled delay and an export: each wake-up exports one batch only, and a full channel
does not wake the worker again. Here batches of one, delay 10, exports of at most 3: four spans end during the first export, the last of them is handed
over 33 after it ended. -/
theorem span_waits_longer_violated : ∃ s : St, Reach ⟨true, 10, 1, 8, 3⟩ s ∧ ∃ o ∈ s.out, o.at_ = o.item.at_ + 33 := by
  have h : ∃ s, runAll ⟨true, 10, 1, 8, 3⟩ (.init ⟨true, 10, 1, 8, 3⟩) [.emit, .message, .emit, .emit, .emit, .emit, .pass 3, .finish, .message, .pass 3, .finish,
      .pass 7, .timer, .pass 3, .finish, .pass 7, .timer, .pass 3, .finish, .pass 7, .timer] = some s
      ∧ s.out = [⟨⟨0, 0⟩, 0⟩, ⟨⟨0, 0⟩, 3⟩, ⟨⟨0, 1⟩, 13⟩, ⟨⟨0, 2⟩, 23⟩, ⟨⟨0, 3⟩, 33⟩] := ⟨_, rfl, rfl⟩
  obtain ⟨s, h1, h2⟩ := h
  exact ⟨s, reach_runAll .init _ h1, ⟨⟨0, 3⟩, 33⟩, by rw [h2]; simp, by simp⟩

/-! ## Logs: everything that is there for each wake-up -/

/-- `current_batch_size` is right, what is in the channel will be taken in time, and a wake-up takes all that was there when it began. -/
structure LogInv (cfg : Cfg) (s : St) : Prop where
  out : ∀ o ∈ s.out, o.at_ ≤ o.item.at_ + cfg.delay + 2 * cfg.work
  waiting : ∀ dl, s.phase = .waiting dl → s.count = s.queue.length ∧ ∀ x ∈ s.queue, dl ≤ x.at_ + cfg.delay + cfg.work
  exporting : ∀ st n l, s.phase = .exporting st n l → s.count = n + s.queue.length ∧ l ≤ s.queue.length
    ∧ (∀ x ∈ s.queue.take l, st ≤ x.at_ + cfg.delay + cfg.work) ∧ ∀ x ∈ s.queue.drop l, st ≤ x.at_

/-- Taking a batch out of what the wake-up is to take. -/
theorem log_hand {cfg : Cfg} {s : St} {st t : Nat} (hn : s.now ≤ st + cfg.work)
    (ho : ∀ o ∈ s.out, o.at_ ≤ o.item.at_ + cfg.delay + 2 * cfg.work) (hc : s.count = s.queue.length) (ht : t ≤ s.queue.length)
    (h1 : ∀ x ∈ s.queue.take t, st ≤ x.at_ + cfg.delay + cfg.work) (h2 : ∀ x ∈ s.queue.drop t, st ≤ x.at_) : LogInv cfg (s.hand cfg st t) := by
  have hall : ∀ x ∈ s.queue, st ≤ x.at_ + cfg.delay + cfg.work := by
    intro x hx
    rw [← List.take_append_drop t s.queue] at hx
    rcases List.mem_append.1 hx with hx | hx
    · exact h1 x hx
    · have := h2 x hx; omega
  refine ⟨?_, ?_, ?_⟩
  · intro o hm
    simp only [St.hand, List.mem_append, List.mem_map] at hm
    rcases hm with hm | ⟨x, hx, rfl⟩
    · exact ho o hm
    · have := hall x (List.mem_of_mem_take hx)
      show s.now ≤ x.at_ + cfg.delay + 2 * cfg.work
      omega
  · intro _ hp; cases hp
  · intro st' n l hp
    simp only [St.hand, Phase.exporting.injEq] at hp
    obtain ⟨rfl, rfl, rfl⟩ := hp
    simp only [St.hand, List.length_drop, List.length_take]
    refine ⟨by omega, by omega, ?_, ?_⟩
    · intro x hx
      exact hall x (List.mem_of_mem_drop (List.mem_of_mem_take hx))
    · intro x hx
      rw [List.drop_drop] at hx
      by_cases hle : cfg.batch ≤ t
      · have : cfg.batch + (t - min cfg.batch s.queue.length) = t := by omega
        rw [this] at hx
        exact h2 x hx
      · have h0 : t - min cfg.batch s.queue.length = 0 := by omega
        rw [h0, Nat.add_zero] at hx
        have : s.queue.drop cfg.batch = (s.queue.drop t).drop (cfg.batch - t) := by
          rw [List.drop_drop]; congr 1; omega
        rw [this] at hx
        exact h2 x (List.mem_of_mem_drop hx)

theorem log_wake {cfg : Cfg} {s : St} (hk : cfg.spans = false) (dl : Nat) (hdl : s.now ≤ dl)
    (ho : ∀ o ∈ s.out, o.at_ ≤ o.item.at_ + cfg.delay + 2 * cfg.work) (hc : s.count = s.queue.length)
    (hq : ∀ x ∈ s.queue, dl ≤ x.at_ + cfg.delay + cfg.work) : LogInv cfg (s.wake cfg) := by
  unfold St.wake
  rw [if_neg (by simp [hk])]
  split
  · rename_i h0
    have he : s.queue = [] := List.length_eq_zero_iff.1 (by omega)
    refine ⟨ho, ?_, ?_⟩
    · intro _ _
      refine ⟨hc, ?_⟩
      intro x hx
      simp [St.wait, he] at hx
    · intro _ _ _ hp; cases hp
  · refine log_hand (by omega) ho hc (by omega) ?_ ?_
    · intro x hx
      have := hq x (List.mem_of_mem_take hx); omega
    · intro x hx
      rw [hc, List.drop_length] at hx; cases hx

theorem log_reach {cfg : Cfg} {s : St} (hk : cfg.spans = false) (h : Reach cfg s) : LogInv cfg s := by
  induction h with
  | init => exact ⟨by simp [St.init], by simp [St.init], by simp [St.init]⟩
  | @step s s' a hr hs ih =>
    have hc := clock_reach hr
    cases a with
    | emit =>
      simp only [step, Option.some.injEq] at hs; subst hs
      unfold St.emit
      split
      · obtain ⟨h1, h2, h3, h4, h5, h6⟩ := counted_same cfg { s with queue := s.queue ++ [⟨s.now, s.queue.length⟩] }
        refine ⟨by rw [h5]; exact ih.out, ?_, ?_⟩
        · intro dl hp
          rw [h3] at hp
          obtain ⟨g1, g2⟩ := ih.waiting dl hp
          have := (hc.waiting dl hp).2.1
          rw [h6, h4]
          refine ⟨by simp [g1], ?_⟩
          intro x hx
          rcases List.mem_append.1 hx with hx | hx
          · exact g2 x hx
          · rw [List.mem_singleton.1 hx]; show dl ≤ s.now + cfg.delay + cfg.work; omega
        · intro st n l hp
          rw [h3] at hp
          obtain ⟨g1, g2, g3, g4⟩ := ih.exporting st n l hp
          have := (hc.exporting st n l hp).1
          rw [h6, h4]
          refine ⟨by simp [g1]; omega, by simp; omega, ?_, ?_⟩
          · rw [List.take_append_of_le_length g2]; exact g3
          · rw [List.drop_append_of_le_length g2]
            intro x hx
            rcases List.mem_append.1 hx with hx | hx
            · exact g4 x hx
            · rw [List.mem_singleton.1 hx]; exact this
      · rw [if_neg (by simp [hk])]
        exact ih
    | forceFlush =>
      simp only [step, Option.some.injEq] at hs; subst hs
      exact ⟨ih.out, ih.waiting, ih.exporting⟩
    | pass d =>
      simp only [step] at hs
      split at hs
      · split at hs
        · injection hs with hs; subst hs; exact ⟨ih.out, ih.waiting, ih.exporting⟩
        · cases hs
      · split at hs
        · injection hs with hs; subst hs; exact ⟨ih.out, ih.waiting, ih.exporting⟩
        · cases hs
    | message =>
      simp only [step] at hs
      split at hs
      · rename_i dl _ hp _
        injection hs with hs; subst hs
        exact log_wake hk dl (hc.waiting dl hp).1 ih.out (ih.waiting dl hp).1 (ih.waiting dl hp).2
      · rename_i dl _ hp _
        injection hs with hs; subst hs
        exact log_wake hk dl (hc.waiting dl hp).1 ih.out (ih.waiting dl hp).1 (ih.waiting dl hp).2
      · cases hs
    | timer =>
      simp only [step] at hs
      split at hs
      · rename_i dl hp
        split at hs
        · injection hs with hs; subst hs
          exact log_wake hk dl (hc.waiting dl hp).1 ih.out (ih.waiting dl hp).1 (ih.waiting dl hp).2
        · cases hs
      · cases hs
    | finish =>
      simp only [step] at hs
      split at hs
      · rename_i st n l hp
        injection hs with hs; subst hs
        obtain ⟨g1, g2, g3, g4⟩ := ih.exporting st n l hp
        have h1 := (hc.exporting st n l hp).2
        split
        · rename_i hl
          subst hl
          refine ⟨ih.out, ?_, ?_⟩
          · intro dl hd
            simp only [St.wait, Phase.waiting.injEq] at hd ⊢
            refine ⟨by omega, ?_⟩
            intro x hx
            have h2 := g4 x (by simpa using hx)
            have h3 := remaining_le cfg s.now s.last
            omega
          · intro _ _ _ hp'; cases hp'
        · exact log_hand h1 ih.out (by show s.count - n = s.queue.length; omega) g2 g3 g4
      · cases hs

/-- **C118 (logs)** If the exports of one wake-up take at most `work`, a log record is handed to the exporter at most the scheduled delay and twice
`work` after it was emitted, however many there are; none in the channel is overdue. -/
theorem log_in_time {cfg : Cfg} {s : St} (hk : cfg.spans = false) (h : Reach cfg s) :
    (∀ o ∈ s.out, o.at_ ≤ o.item.at_ + cfg.delay + 2 * cfg.work) ∧ ∀ x ∈ s.queue, s.now ≤ x.at_ + cfg.delay + 2 * cfg.work := by
  have hi := log_reach hk h
  have hc := clock_reach h
  refine ⟨hi.out, ?_⟩
  intro x hx
  cases hp : s.phase with
  | waiting dl =>
    have := (hi.waiting dl hp).2 x hx
    have := (hc.waiting dl hp).1
    omega
  | exporting st n l =>
    obtain ⟨_, _, g3, g4⟩ := hi.exporting st n l hp
    have := (hc.exporting st n l hp).2
    rw [← List.take_append_drop l s.queue] at hx
    rcases List.mem_append.1 hx with hx | hx
    · have := g3 x hx; omega
    · have := g4 x hx; omega

/-- Three records with batches of two: one wake-up exports them all, in two exports. -/
example : ∃ s : St, Reach ⟨false, 10, 2, 8, 6⟩ s ∧ s.out = [⟨⟨0, 0⟩, 0⟩, ⟨⟨0, 1⟩, 0⟩, ⟨⟨0, 2⟩, 3⟩] := by
  have h : ∃ s, runAll ⟨false, 10, 2, 8, 6⟩ (.init ⟨false, 10, 2, 8, 6⟩) [.emit, .emit, .emit, .message, .pass 3, .finish] = some s
      ∧ s.out = [⟨⟨0, 0⟩, 0⟩, ⟨⟨0, 1⟩, 0⟩, ⟨⟨0, 2⟩, 3⟩] := ⟨_, rfl, rfl⟩
  obtain ⟨s, h1, h2⟩ := h
  exact ⟨s, reach_runAll .init _ h1, h2⟩

end Otel.Sdk.BatchTiming
