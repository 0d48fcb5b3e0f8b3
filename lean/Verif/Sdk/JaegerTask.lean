import Verif.Sdk.JaegerRemote
/-!
# The task that asks the server for strategies (`trace/sampler/jaeger_remote/sampler.rs`), C114

Users hold clones of the sampler and sample through them on any thread, while a task of the runtime waits for its interval, asks the server and
stores the answer. Every step below is one of their steps, in any order. The two clocks are apart: the runtime's timer (`now`), and the system
clock the rate limit uses, which comes with the step. The answer of the server is any; so is the time it takes.

`Inner` is shared by the clones and the task through an `Arc`: its `drop`, which tells the task to stop, runs when the last of them is gone.
-/

namespace Otel.Sdk.JaegerTask
open Rust Otel.Sdk.RateLimit Otel.Sdk.JaegerRemote

/-- What users and the server see. -/
inductive Entry where
  /-- a request is sent, at this time of the timer -/
  | request (now : Nat)
  /-- the request is answered; `none`: it failed -/
  | answer (r : Option Response)
  /-- a clone decides; `none`: it asks the default sampler -/
  | decided (traceId : TraceId) (name : Str) (d : Option SamplingDecision)

/-- Where the task is: waiting for the interval or the shutdown message (sampler.rs:194), waiting for the server (199), or ended. -/
inductive At where
  | waiting
  | requesting
  | ended
deriving DecidableEq

/-- The clones, the task, the shutdown channel and the shared `Inner`. sampler.rs:143-168, sampling_strategy.rs:26-31 -/
structure State where
  /-- clones of the sampler held by users and providers -/
  handles : Nat
  task : At
  /-- messages in the shutdown channel -/
  inbox : Nat
  /-- `Inner::drop` has run -/
  dropped : Bool
  strategy : Option Strategy
  now : Nat
  /-- when the interval the task waits for has passed -/
  wake : Nat
  log : List Entry

/-- `JaegerRemoteSampler::new`: the task has its own reference to `Inner` and first waits one interval. sampler.rs:149-175, 189 -/
def State.init (interval : Nat) : State := ⟨1, .waiting, 0, false, none, 0, interval, []⟩

/-- Steps. -/
inductive Act where
  | clone
  | drop
  | decide (clock : Nat) (traceId : TraceId) (name : Str)
  | pass (d : Nat)
  | tick
  | stop
  | answer (clock : Nat) (r : Option Response)
  /-- the runtime drops the task, for example because it is shut down itself -/
  | cancel

/-- The references to `Inner`: one per clone and one of the task. sampler.rs:161, 165 -/
def State.refs (s : State) : Nat := s.handles + (if s.task = .ended then 0 else 1)

/-- `Inner::drop` when the last reference is gone: one message to the task. sampling_strategy.rs:42-46 -/
def State.release (s : State) : State :=
  if s.refs = 0 ∧ s.dropped = false then { s with dropped := true, inbox := s.inbox + 1 } else s

/-- One step, if it is possible. The loop of the task: sampler.rs:191-221. Deciding: sampler.rs:256-277, sampling_strategy.rs:152-193. Storing an
answer: sampling_strategy.rs:60-115. -/
def step (R : F64.Rounding) (Rb : Rnd) (size : Rat) (interval : Nat) (s : State) : Act → Option State
  | .clone => if 0 < s.handles then some { s with handles := s.handles + 1 } else none
  | .drop => if 0 < s.handles then some { s with handles := s.handles - 1 }.release else none
  | .decide clock t name =>
    if 0 < s.handles then
      match s.strategy with
      | some st =>
        let (d, st') := st.decide R Rb clock t name
        some { s with strategy := some st', log := s.log ++ [.decided t name (some d)] }
      | none => some { s with log := s.log ++ [.decided t name none] }
    else none
  | .pass d => some { s with now := s.now + d }
  | .tick => if s.task = .waiting ∧ s.wake ≤ s.now then some { s with task := .requesting, log := s.log ++ [.request s.now] } else none
  | .stop => if s.task = .waiting ∧ 0 < s.inbox then some { s with task := .ended, inbox := s.inbox - 1 }.release else none
  | .answer clock r =>
    if s.task = .requesting then
      some { s with task := .waiting, strategy := fetched size clock s.strategy r, wake := s.now + interval, log := s.log ++ [.answer r] }
    else none
  | .cancel => if s.task = .ended then none else some { s with task := .ended }.release

/-- A run. -/
def exec (R : F64.Rounding) (Rb : Rnd) (size : Rat) (interval : Nat) (s : State) : List Act → Option State
  | [] => some s
  | a :: as => (step R Rb size interval s a).bind fun s' => exec R Rb size interval s' as

/-! ## Specification -/

/-- The last answer with a content is `r`. -/
def LastAnswer (log : List Entry) (r : Response) : Prop :=
  ∃ pre post, log = pre ++ .answer (some r) :: post ∧ ∀ r', Entry.answer (some r') ∉ post

/-- No answer with a content yet. -/
def NoAnswer (log : List Entry) : Prop := ∀ r, Entry.answer (some r) ∉ log

/-- The times of the requests. -/
def requests (log : List Entry) : List Nat := log.filterMap fun | .request t => some t | _ => none

/-- The runtime does not drop the task. -/
def KeepsTask (as : List Act) : Prop := ∀ a ∈ as, a ≠ .cancel

/-! ## Lemmas -/

section
variable {R : F64.Rounding} {Rb : Rnd} {size : Rat} {interval : Nat}

theorem exec_append (s : State) (as bs : List Act) :
    exec R Rb size interval s (as ++ bs) = (exec R Rb size interval s as).bind fun s' => exec R Rb size interval s' bs := by
  induction as generalizing s with
  | nil => rfl
  | cons a as ih =>
    rw [List.cons_append, exec, exec]
    cases step R Rb size interval s a with
    | none => rfl
    | some s' => exact ih s'

theorem exec_inv {P : State → Prop} {Q : Act → Prop} (hs : ∀ s a s', P s → Q a → step R Rb size interval s a = some s' → P s') :
    ∀ (as : List Act) (s s' : State), P s → (∀ a ∈ as, Q a) → exec R Rb size interval s as = some s' → P s' := by
  intro as
  induction as with
  | nil => intro s s' h _ he; injection he with he; exact he ▸ h
  | cons a as ih =>
    intro s s' h hq he
    rw [exec] at he
    cases h1 : step R Rb size interval s a with
    | none => rw [h1] at he; cases he
    | some s1 =>
      rw [h1] at he
      exact ih s1 s' (hs s a s1 h (hq a List.mem_cons_self) h1) (fun x hx => hq x (List.mem_cons_of_mem _ hx)) he

theorem release_log (s : State) : s.release.log = s.log ∧ s.release.strategy = s.strategy ∧ s.release.task = s.task ∧ s.release.now = s.now ∧
    s.release.wake = s.wake ∧ s.release.handles = s.handles := by
  unfold State.release; split <;> exact ⟨rfl, rfl, rfl, rfl, rfl, rfl⟩

theorem lastAnswer_append {log : List Entry} {e : Entry} {r : Response} (he : ∀ r', e ≠ .answer (some r')) :
    LastAnswer (log ++ [e]) r ↔ LastAnswer log r := by
  constructor
  · rintro ⟨pre, post, h, hp⟩
    rcases List.eq_nil_or_concat post with rfl | ⟨post', x, rfl⟩
    · have := congrArg List.getLast? h
      simp at this
      exact absurd this (he r)
    · have h' : log ++ [e] = (pre ++ .answer (some r) :: post') ++ [x] := by rw [h]; simp
      have := List.append_inj' h' rfl
      exact ⟨pre, post', this.1, fun r' hr => hp r' (by simp [hr])⟩
  · rintro ⟨pre, post, rfl, hp⟩
    refine ⟨pre, post ++ [e], by simp, fun r' hr => ?_⟩
    rcases List.mem_append.1 hr with h | h
    · exact hp r' h
    · exact he r' (List.mem_singleton.1 h).symm

theorem lastAnswer_answer {log : List Entry} {r r' : Response} : LastAnswer (log ++ [.answer (some r')]) r ↔ r = r' := by
  constructor
  · rintro ⟨pre, post, h, hp⟩
    rcases List.eq_nil_or_concat post with rfl | ⟨post', x, rfl⟩
    · have := congrArg List.getLast? h
      simpa using this.symm
    · have h' : log ++ [.answer (some r')] = (pre ++ .answer (some r) :: post') ++ [x] := by rw [h]; simp
      have := (List.append_inj' h' rfl).2
      injection this with this
      exact absurd (by rw [this]; simp) (hp r')
  · rintro rfl
    exact ⟨log, [], rfl, by simp⟩

theorem check_rate (b : Bucket) (t : Nat) : (b.check Rb t).2.rate = b.rate := by
  unfold Bucket.check
  split
  · rfl
  · split
    · simp only; split <;> rfl
    · rfl

theorem asks_decide {r : Response} {st : Strategy} (h : Asks r st) (clock : Nat) (t : TraceId) (name : Str) : Asks r (st.decide R Rb clock t name).2 := by
  cases h with
  | perOp h1 h2 => exact .perOp h1 h2
  | rate h1 h2 h3 => exact .rate h1 h2 ((check_rate _ _).trans h3)
  | prob h1 h2 h3 => exact .prob h1 h2 h3

/-- The strategy in force is the last answer's. -/
def Follows (s : State) : Prop :=
  (∀ r, LastAnswer s.log r → Usable r → ∃ st, s.strategy = some st ∧ Asks r st) ∧ (NoAnswer s.log → s.strategy = none)

theorem follows_of {s s' : State} (h : Follows s) (hl : s'.log = s.log) (hs : s'.strategy = s.strategy) : Follows s' := by
  unfold Follows; rw [hl, hs]; exact h

theorem follows_keep {s s' : State} {e : Entry} (h : Follows s) (he : ∀ r', e ≠ .answer (some r')) (hl : s'.log = s.log ++ [e])
    (hs : s'.strategy = s.strategy) : Follows s' := by
  unfold Follows; rw [hl, hs]
  refine ⟨fun r hr hu => h.1 r ((lastAnswer_append he).1 hr) hu, fun hn => h.2 fun r hr => hn r (by simp [hr])⟩

theorem follows_step (s : State) (a : Act) (s' : State) (h : Follows s) (_ : True) (he : step R Rb size interval s a = some s') : Follows s' := by
  cases a with
  | clone => simp only [step] at he; split at he <;> cases he; exact follows_of h rfl rfl
  | drop =>
    simp only [step] at he; split at he <;> cases he
    exact follows_of h (release_log _).1 (release_log _).2.1
  | decide clock t name =>
    simp only [step] at he
    split at he
    · split at he
      · rename_i st hst
        injection he with he; subst he
        refine ⟨fun r hr hu => ?_, fun hn => ?_⟩
        · obtain ⟨st0, h1, h2⟩ := h.1 r ((lastAnswer_append (by intro _ hx; cases hx)).1 hr) hu
          rw [hst] at h1; injection h1 with h1; subst h1
          exact ⟨_, rfl, asks_decide h2 clock t name⟩
        · rw [h.2 fun r hr => hn r (by simp [hr])] at hst; cases hst
      · injection he with he; subst he
        exact follows_keep h (by intro _ hx; cases hx) rfl rfl
    · cases he
  | pass d => cases he; exact follows_of h rfl rfl
  | tick =>
    simp only [step] at he; split at he <;> cases he
    exact follows_keep h (by intro _ hx; cases hx) rfl rfl
  | stop =>
    simp only [step] at he; split at he <;> cases he
    exact follows_of h (release_log _).1 (release_log _).2.1
  | cancel =>
    simp only [step] at he; split at he <;> cases he
    exact follows_of h (release_log _).1 (release_log _).2.1
  | answer clock r =>
    simp only [step] at he; split at he <;> cases he
    cases r with
    | none => exact follows_keep h (by intro _ hx; cases hx) rfl rfl
    | some r =>
      refine ⟨fun r' hr hu => ?_, fun hn => absurd (by simp) (hn r)⟩
      have := lastAnswer_answer.1 hr
      subst this
      obtain ⟨st, h1, h2, _⟩ := valid_replaces size clock s.strategy hu
      exact ⟨st, h1, h2⟩

/-- Every decision in the log follows from the log before it. -/
def Decided (R : F64.Rounding) (Rb : Rnd) (log : List Entry) : Prop :=
  ∀ pre t name d post, log = pre ++ .decided t name d :: post →
    (∀ r, LastAnswer pre r → Usable r → ∃ st clock, Asks r st ∧ d = some (st.decide R Rb clock t name).1) ∧ (NoAnswer pre → d = none)

theorem decided_keep {log : List Entry} {e : Entry} (h : Decided R Rb log) (he : ∀ t n d, e ≠ .decided t n d) : Decided R Rb (log ++ [e]) := by
  intro pre t name d post hl
  rcases List.eq_nil_or_concat post with rfl | ⟨post', x, rfl⟩
  · have := congrArg List.getLast? hl
    simp at this
    exact absurd this (he t name d)
  · have h' : log ++ [e] = (pre ++ .decided t name d :: post') ++ [x] := by rw [hl]; simp
    exact h pre t name d post' (List.append_inj' h' rfl).1

theorem decided_new {log : List Entry} {t : TraceId} {n : Str} {d : Option SamplingDecision} (h : Decided R Rb log)
    (h1 : ∀ r, LastAnswer log r → Usable r → ∃ st clock, Asks r st ∧ d = some (st.decide R Rb clock t n).1) (h2 : NoAnswer log → d = none) :
    Decided R Rb (log ++ [.decided t n d]) := by
  intro pre t' name d' post hl
  rcases List.eq_nil_or_concat post with rfl | ⟨post', x, rfl⟩
  · have := List.append_inj' hl rfl
    obtain ⟨h3, h4⟩ := this
    injection h4 with h4
    injection h4 with h4 h5 h6
    subst h3 h4 h5 h6
    exact ⟨h1, h2⟩
  · have h' : log ++ [.decided t n d] = (pre ++ .decided t' name d' :: post') ++ [x] := by rw [hl]; simp
    exact h pre t' name d' post' (List.append_inj' h' rfl).1

theorem decided_step (s : State) (a : Act) (s' : State) (h : Follows s ∧ Decided R Rb s.log) (_ : True)
    (he : step R Rb size interval s a = some s') : Follows s' ∧ Decided R Rb s'.log := by
  refine ⟨follows_step s a s' h.1 trivial he, ?_⟩
  cases a with
  | clone => simp only [step] at he; split at he <;> cases he; exact h.2
  | drop =>
    simp only [step] at he; split at he <;> cases he
    rw [(release_log _).1]; exact h.2
  | decide clock t name =>
    simp only [step] at he
    split at he
    · split at he
      · rename_i st hst
        injection he with he; subst he
        refine decided_new h.2 (fun r hr hu => ?_) (fun hn => ?_)
        · obtain ⟨st0, h1, h2⟩ := h.1.1 r hr hu
          rw [hst] at h1; injection h1 with h1; subst h1
          exact ⟨_, clock, h2, rfl⟩
        · rw [h.1.2 hn] at hst; cases hst
      · rename_i hst
        injection he with he; subst he
        refine decided_new h.2 (fun r hr hu => ?_) (fun _ => rfl)
        obtain ⟨st0, h1, _⟩ := h.1.1 r hr hu
        rw [hst] at h1; cases h1
    · cases he
  | pass d => cases he; exact h.2
  | tick =>
    simp only [step] at he; split at he <;> cases he
    exact decided_keep h.2 (by intro _ _ _ hx; cases hx)
  | stop =>
    simp only [step] at he; split at he <;> cases he
    rw [(release_log _).1]; exact h.2
  | cancel =>
    simp only [step] at he; split at he <;> cases he
    rw [(release_log _).1]; exact h.2
  | answer clock r =>
    simp only [step] at he; split at he <;> cases he
    exact decided_keep h.2 (by intro _ _ _ hx; cases hx)

/-! ## Theorems -/

/-- C114. Whatever clones there are, on whatever threads they decide and whenever the answers come: a decision is the strategy's that the last answer before
it asked for, and the default sampler's when there was no answer yet. -/
theorem clones_follow_last_answer {as : List Act} {s : State} (h : exec R Rb size interval (State.init interval) as = some s) :
    ∀ pre t name d post, s.log = pre ++ .decided t name d :: post →
      (∀ r, LastAnswer pre r → Usable r → ∃ st clock, Asks r st ∧ d = some (st.decide R Rb clock t name).1) ∧ (NoAnswer pre → d = none) := by
  have h0 : Follows (State.init interval) ∧ Decided R Rb (State.init interval).log := by
    refine ⟨⟨?_, fun _ => rfl⟩, ?_⟩
    · rintro r ⟨pre, post, hl, _⟩ _
      cases pre <;> cases hl
    · intro pre t name d post hl
      cases pre <;> cases hl
  exact (exec_inv (P := fun s => Follows s ∧ Decided R Rb s.log) (Q := fun _ => True) decided_step as _ _ h0 (fun _ _ => trivial) h).2

/-- The task's waiting and the requests sent so far. -/
def Spaced (interval : Nat) (s : State) : Prop :=
  (0 :: requests s.log).Pairwise (fun a b => a + interval ≤ b) ∧ (s.task = .waiting → ∀ t ∈ 0 :: requests s.log, t + interval ≤ s.wake) ∧
    ∀ t ∈ 0 :: requests s.log, t ≤ s.now

theorem requests_append (a b : List Entry) : requests (a ++ b) = requests a ++ requests b := by simp [requests]

theorem spaced_of {s s' : State} (h : Spaced interval s) (hl : requests s'.log = requests s.log) (ht : s'.task = .waiting → s.task = .waiting) (hw : s'.wake = s.wake)
    (hn : s.now ≤ s'.now) : Spaced interval s' := by
  unfold Spaced; rw [hl, hw]
  exact ⟨h.1, fun hw => h.2.1 (ht hw), fun t ht => Nat.le_trans (h.2.2 t ht) hn⟩

theorem spaced_step (s : State) (a : Act) (s' : State) (h : Spaced interval s) (_ : True) (he : step R Rb size interval s a = some s') : Spaced interval s' := by
  cases a with
  | clone => simp only [step] at he; split at he <;> cases he; exact spaced_of h rfl id rfl (Nat.le_refl _)
  | drop =>
    simp only [step] at he; split at he <;> cases he
    obtain ⟨h1, _, h3, h4, h5, _⟩ := release_log { s with handles := s.handles - 1 }
    exact spaced_of h (by rw [h1]) (by rw [h3]; exact id) h5 (by rw [h4])
  | decide clock t name =>
    simp only [step] at he
    split at he
    · split at he <;> injection he with he <;> subst he <;> exact spaced_of h (by simp [requests]) id rfl (Nat.le_refl _)
    · cases he
  | pass d => cases he; exact spaced_of h rfl id rfl (Nat.le_add_right _ _)
  | tick =>
    simp only [step] at he
    split at he
    · rename_i hc
      injection he with he; subst he
      have hr : requests (s.log ++ [.request s.now]) = requests s.log ++ [s.now] := by rw [requests_append]; rfl
      unfold Spaced
      simp only [hr]
      rw [← List.cons_append]
      refine ⟨List.pairwise_append.2 ⟨h.1, List.pairwise_singleton _ _, fun a ha b hb => ?_⟩, nofun, fun t ht => ?_⟩
      · rw [List.mem_singleton.1 hb]
        exact Nat.le_trans (h.2.1 hc.1 a ha) hc.2
      · rcases List.mem_append.1 ht with h1 | h1
        · exact h.2.2 t h1
        · rw [List.mem_singleton.1 h1]
    · cases he
  | stop =>
    simp only [step] at he; split at he <;> cases he
    obtain ⟨h1, _, h3, h4, h5, _⟩ := release_log { s with task := .ended, inbox := s.inbox - 1 }
    exact spaced_of h (by rw [h1]) (by rw [h3]; exact nofun) h5 (by rw [h4])
  | cancel =>
    simp only [step] at he; split at he <;> cases he
    obtain ⟨h1, _, h3, h4, h5, _⟩ := release_log { s with task := .ended }
    exact spaced_of h (by rw [h1]) (by rw [h3]; exact nofun) h5 (by rw [h4])
  | answer clock r =>
    simp only [step] at he; split at he <;> cases he
    have hr : requests (s.log ++ [.answer r]) = requests s.log := by simp [requests]
    unfold Spaced
    simp only [hr]
    exact ⟨h.1, fun _ t ht => Nat.add_le_add_right (h.2.2 t ht) _, h.2.2⟩

/-- C114. The server is first asked one interval after the sampler was built, and never more often than once per interval, however fast or slow it answers. -/
theorem requests_spaced {as : List Act} {s : State} (h : exec R Rb size interval (State.init interval) as = some s) :
    (requests s.log).Pairwise (fun a b => a + interval ≤ b) ∧ ∀ t ∈ requests s.log, interval ≤ t ∧ t ≤ s.now := by
  have h0 : Spaced interval (State.init interval) := ⟨List.pairwise_singleton _ _, fun _ t ht => by
    rw [List.mem_singleton.1 ht]; exact Nat.le_of_eq (Nat.zero_add _), fun t ht => by rw [List.mem_singleton.1 ht]; exact Nat.le_refl _⟩
  obtain ⟨h1, _, h3⟩ := exec_inv (P := Spaced interval) (Q := fun _ => True) spaced_step as _ _ h0 (fun _ _ => trivial) h
  obtain ⟨h4, h5⟩ := List.pairwise_cons.1 h1
  exact ⟨h5, fun t ht => ⟨by simpa using h4 t ht, h3 t (List.mem_cons_of_mem _ ht)⟩⟩

/-- `Inner` is dropped once nobody refers to it, and nobody tells the task to stop before. -/
def Alive (s : State) : Prop := (s.dropped = true ↔ s.refs = 0) ∧ (s.task ≠ .ended → s.inbox = 0)

theorem alive_release {s : State} (hd : s.dropped = false) (hi : s.task ≠ .ended → s.inbox = 0) : Alive s.release := by
  unfold State.release
  split
  · rename_i h
    refine ⟨⟨fun _ => h.1, fun _ => rfl⟩, fun ht => absurd h.1 ?_⟩
    have : s.task ≠ .ended := ht
    simp [State.refs, this]
  · rename_i h
    refine ⟨⟨fun hx => absurd hx (by simp [hd]), fun hx => absurd ⟨hx, hd⟩ h⟩, hi⟩

theorem alive_step (s : State) (a : Act) (s' : State) (h : Alive s) (_ : True) (he : step R Rb size interval s a = some s') : Alive s' := by
  have hd : 0 < s.refs → s.dropped = false := fun hp => by
    cases hx : s.dropped with
    | false => rfl
    | true => have := h.1.1 hx; omega
  have hh : 0 < s.handles → 0 < s.refs := fun hp => by unfold State.refs; omega
  have ht : s.task ≠ .ended → 0 < s.refs := fun hp => by unfold State.refs; rw [if_neg hp]; omega
  cases a with
  | clone =>
    simp only [step] at he
    split at he
    · rename_i hp
      injection he with he; subst he
      refine ⟨⟨fun hx => ?_, fun hx => ?_⟩, h.2⟩
      · rw [hd (hh hp)] at hx; cases hx
      · simp [State.refs] at hx
    · cases he
  | drop =>
    simp only [step] at he
    split at he
    · rename_i hp
      injection he with he; subst he
      exact alive_release (hd (hh hp)) h.2
    · cases he
  | decide clock t name =>
    simp only [step] at he
    split at he
    · split at he <;> injection he with he <;> subst he <;> exact h
    · cases he
  | pass d => cases he; exact h
  | tick =>
    simp only [step] at he
    split at he
    · rename_i hc
      injection he with he; subst he
      refine ⟨?_, fun _ => h.2 (by rw [hc.1]; exact nofun)⟩
      have := h.1
      simpa [State.refs, hc.1] using this
    · cases he
  | stop =>
    simp only [step] at he
    split at he
    · rename_i hc
      have := h.2 (by rw [hc.1]; exact nofun)
      omega
    · cases he
  | answer clock r =>
    simp only [step] at he
    split at he
    · rename_i hc
      injection he with he; subst he
      refine ⟨?_, fun _ => h.2 (by rw [hc]; exact nofun)⟩
      have := h.1
      simpa [State.refs, hc] using this
    · cases he
  | cancel =>
    simp only [step] at he
    split at he
    · cases he
    · rename_i hc
      injection he with he; subst he
      exact alive_release (hd (ht hc)) fun hx => absurd rfl hx

theorem alive_init : Alive (State.init interval) := ⟨⟨nofun, nofun⟩, fun _ => rfl⟩

theorem running_step (s : State) (a : Act) (s' : State) (h : Alive s ∧ s.task ≠ .ended) (ha : a ≠ .cancel)
    (he : step R Rb size interval s a = some s') : Alive s' ∧ s'.task ≠ .ended := by
  refine ⟨alive_step s a s' h.1 trivial he, ?_⟩
  cases a with
  | clone => simp only [step] at he; split at he <;> cases he; exact h.2
  | drop => simp only [step] at he; split at he <;> cases he; rw [(release_log _).2.2.1]; exact h.2
  | decide clock t name =>
    simp only [step] at he
    split at he
    · split at he <;> injection he with he <;> subst he <;> exact h.2
    · cases he
  | pass d => cases he; exact h.2
  | tick => simp only [step] at he; split at he <;> cases he; exact nofun
  | stop =>
    simp only [step] at he
    split at he
    · rename_i hc
      have := h.1.2 h.2
      omega
    · cases he
  | answer clock r => simp only [step] at he; split at he <;> cases he; exact nofun
  | cancel => exact absurd rfl ha

theorem drop_all (s : State) (ht : s.task ≠ .ended) : exec R Rb size interval s (List.replicate s.handles .drop) = some { s with handles := 0 } := by
  have key : ∀ n (s : State), s.task ≠ .ended → s.handles = n → exec R Rb size interval s (List.replicate n .drop) = some { s with handles := 0 } := by
    intro n
    induction n with
    | zero => intro s _ h; cases s; cases h; rfl
    | succ n ih =>
      intro s ht h
      have h1 : step R Rb size interval s .drop = some { s with handles := n } := by
        have : 0 < s.handles := by omega
        simp only [step, if_pos this]
        rw [State.release, if_neg, h]
        · rfl
        · rintro ⟨hr, _⟩
          simp [State.refs, ht] at hr
      rw [List.replicate_succ, exec, h1]
      exact ih { s with handles := n } ht rfl
  exact key _ s ht rfl

/-- Waiting, asking and failing, `n` times. -/
def rounds (interval : Nat) : Nat → List Act
  | 0 => []
  | n + 1 => [.pass interval, .tick, .answer 0 none] ++ rounds interval n

theorem rounds_run (n : Nat) : ∀ s : State, s.task = .waiting → s.wake ≤ s.now + interval →
    ∃ s', exec R Rb size interval s (rounds interval n) = some s' ∧ s'.handles = s.handles ∧ (requests s'.log).length = (requests s.log).length + n := by
  induction n with
  | zero => exact fun s _ _ => ⟨s, rfl, rfl, rfl⟩
  | succ n ih =>
    intro s ht hw
    obtain ⟨s', h1, h2, h3⟩ := ih
      { s with task := .waiting, now := s.now + interval, wake := s.now + interval + interval, log := s.log ++ [.request (s.now + interval)] ++ [.answer none] }
      rfl (Nat.le_refl _)
    refine ⟨s', ?_, h2, ?_⟩
    · rw [rounds, exec_append]
      have : exec R Rb size interval s [.pass interval, .tick, .answer 0 none] =
          some { s with task := .waiting, now := s.now + interval, wake := s.now + interval + interval,
                        log := s.log ++ [.request (s.now + interval)] ++ [.answer none] } := by
        simp [exec, step, ht, hw, fetched]
      rw [this]; exact h1
    · rw [h3]; simp [requests]; omega

/-- C114 (finding). The task is never told to stop: as long as the runtime keeps it, it has not ended, whatever the users do, because it holds a
reference to the very value whose `drop` would tell it. So after all samplers are gone it goes on asking the server for ever: from
every state any number of further requests can follow with no sampler left. -/
theorem polling_stops_violated {as : List Act} {s : State} (hk : KeepsTask as) (h : exec R Rb size interval (State.init interval) as = some s) :
    (s.task ≠ .ended ∧ s.dropped = false ∧ Act.stop ∉ as) ∧
    ∀ n, ∃ as1 as2 s1 s2, exec R Rb size interval s as1 = some s1 ∧ s1.handles = 0 ∧
      exec R Rb size interval s1 as2 = some s2 ∧ s2.handles = 0 ∧ (requests s2.log).length = (requests s1.log).length + n := by
  have hr : ∀ (bs : List Act) (s : State), KeepsTask bs → exec R Rb size interval (State.init interval) bs = some s → Alive s ∧ s.task ≠ .ended :=
    fun bs s hk h => exec_inv (P := fun s => Alive s ∧ s.task ≠ .ended) (Q := fun a => a ≠ .cancel) running_step bs _ _ ⟨alive_init, nofun⟩ hk h
  obtain ⟨ha, ht⟩ := hr as s hk h
  refine ⟨⟨ht, ?_, fun hm => ?_⟩, fun n => ?_⟩
  · cases hx : s.dropped with
    | false => rfl
    | true => have := ha.1.1 hx; simp [State.refs, ht] at this
  · obtain ⟨pre, post, rfl⟩ := List.append_of_mem hm
    rw [exec_append] at h
    cases h1 : exec R Rb size interval (State.init interval) pre with
    | none => rw [h1] at h; cases h
    | some s1 =>
      rw [h1] at h
      obtain ⟨ha1, ht1⟩ := hr pre s1 (fun a hx => hk a (by simp [hx])) h1
      have hz := ha1.2 ht1
      have : step R Rb size interval s1 .stop = none := by simp [step, hz]
      change (exec R Rb size interval s1 (.stop :: post)) = some s at h
      rw [exec, this] at h; cases h
  · -- let the task finish its request, then drop every clone
    have hd := drop_all (R := R) (Rb := Rb) (size := size) (interval := interval) s ht
    cases hq : s.task with
    | ended => exact absurd hq ht
    | waiting =>
      obtain ⟨s2, h2, h3, h4⟩ := rounds_run (R := R) (Rb := Rb) (size := size) (interval := interval) n
        { s with handles := 0, now := s.now + s.wake } hq (by show s.wake ≤ s.now + s.wake + interval; omega)
      refine ⟨List.replicate s.handles .drop, .pass s.wake :: rounds interval n, _, s2, hd, rfl, ?_, h3, h4⟩
      exact h2
    | requesting =>
      obtain ⟨s2, h2, h3, h4⟩ := rounds_run (R := R) (Rb := Rb) (size := size) (interval := interval) n
        { s with handles := 0, task := .waiting, wake := s.now + interval, log := s.log ++ [.answer none] } rfl (Nat.le_refl _)
      refine ⟨List.replicate s.handles .drop, .answer 0 none :: rounds interval n, _, s2, hd, rfl, ?_, h3, ?_⟩
      · rw [exec]
        simp only [step, hq, if_pos, fetched]
        exact h2
      · rw [h4]; simp [requests]

theorem ended_step (n : Nat) (s : State) (a : Act) (s' : State) (h : s.task = .ended ∧ (requests s.log).length = n) (_ : True)
    (he : step R Rb size interval s a = some s') : s'.task = .ended ∧ (requests s'.log).length = n := by
  cases a with
  | clone => simp only [step] at he; split at he <;> cases he; exact h
  | drop => simp only [step] at he; split at he <;> cases he; rw [(release_log _).1, (release_log _).2.2.1]; exact h
  | decide clock t name =>
    simp only [step] at he
    split at he
    · split at he <;> injection he with he <;> subst he <;> exact ⟨h.1, by simpa [requests] using h.2⟩
    · cases he
  | pass d => cases he; exact h
  | tick => simp [step, h.1] at he
  | stop => simp [step, h.1] at he
  | answer clock r => simp [step, h.1] at he
  | cancel => simp [step, h.1] at he

/-- C114 (part). Once the runtime has dropped the task no more requests are sent, whatever happens, and the shared state is freed exactly when the
last sampler is gone as well. Missing: that the last sampler going away ends the task (`polling_stops_violated`). -/
theorem polling_stops_partial {as bs : List Act} {s s' : State} (h : exec R Rb size interval (State.init interval) as = some s) (hc : s.task = .ended)
    (h' : exec R Rb size interval s bs = some s') :
    (requests s'.log).length = (requests s.log).length ∧ (s'.dropped = true ↔ s'.handles = 0) := by
  have h1 := exec_inv (P := fun x => x.task = .ended ∧ (requests x.log).length = (requests s.log).length) (Q := fun _ => True) (ended_step _) bs _ _
    ⟨hc, rfl⟩ (fun _ _ => trivial) h'
  have h0 := exec_inv (P := Alive) (Q := fun _ => True) alive_step as _ _ alive_init (fun _ _ => trivial) h
  have h2 := exec_inv (P := Alive) (Q := fun _ => True) alive_step bs _ _ h0 (fun _ _ => trivial) h'
  refine ⟨h1.2, ?_⟩
  have := h2.1
  simpa [State.refs, h1.1] using this

end

/-- A run: a clone decides before and after the first answer, then both samplers go away and the task still asks. -/
def exampleActs : List Act :=
  [.clone, .decide 0 1#128 [], .pass 5, .tick, .answer 5 (some ⟨none, some 1, none⟩), .decide 5 1#128 [], .decide 5 1#128 [], .drop, .drop, .pass 5, .tick]

example (R : F64.Rounding) (Rb : Rnd) : ∃ s, exec R Rb 1 5 (State.init 5) exampleActs = some s ∧ KeepsTask exampleActs ∧ s.handles = 0 ∧ requests s.log = [5, 10] ∧
    ∃ pre post d, s.log = pre ++ .decided 1#128 [] d :: post ∧ LastAnswer pre ⟨none, some 1, none⟩ ∧ Usable ⟨none, some 1, none⟩ := by
  refine ⟨_, rfl, ?_, rfl, rfl, [.decided 1#128 [] none, .request 5, .answer (some ⟨none, some 1, none⟩)], _, _, rfl,
    ⟨[.decided 1#128 [] none, .request 5], [], rfl, nofun⟩, .inr (.inl nofun)⟩
  intro a ha; simp [exampleActs] at ha
  rcases ha with rfl | rfl | rfl | rfl | rfl | rfl | rfl | rfl | rfl <;> exact nofun

example (R : F64.Rounding) (Rb : Rnd) : ∃ s s', exec R Rb 1 5 (State.init 5) [.pass 5, .tick, .cancel] = some s ∧ s.task = .ended ∧
    exec R Rb 1 5 s [.clone, .drop, .drop] = some s' ∧ s'.dropped = true := ⟨_, _, rfl, rfl, rfl, rfl⟩

end Otel.Sdk.JaegerTask
