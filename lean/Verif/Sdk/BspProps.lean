import Verif.Sdk.Bsp
/-! # C26, C27, C28, C65: the batch span processor -/

namespace Otel.Sdk.Bsp

variable {X : Type}

/-- Split a hypothesis about the step function into all its cases. -/
macro "cases_step " h:ident : tactic =>
  `(tactic| repeat' (first | split at $h:ident | dsimp only at $h:ident))

/-- What the worker holds between the queue and the exporter. -/
def Worker.buffer : Worker X → List X
  | .drain buf _ => buf
  | .export buf _ => buf
  | _ => []

/-! ## C26 -/

/-- The invariant behind C26. -/
structure Inv (cfg : Cfg) (s : State X) : Prop where
  conserved : s.accepted = s.exported.flatten ++ s.worker.buffer ++ s.queue
  batches : ∀ b ∈ s.exported, b ≠ [] ∧ (0 < cfg.maxBatch → b.length ≤ cfg.maxBatch)
  draining : ∀ buf k, s.worker = .drain buf k → 0 < cfg.maxBatch → buf.length < cfg.maxBatch
  exporting : ∀ buf k, s.worker = .export buf k → 0 < cfg.maxBatch → buf.length ≤ cfg.maxBatch
  queue : s.queue.length ≤ cfg.maxQueue
  dropped : s.droppedSpanCount = s.refused.length

theorem inv_init (cfg : Cfg) : Inv cfg (State.init : State X) := by
  constructor <;> simp [State.init, Worker.buffer]

/-- Application threads touch nothing of the invariant but by accepting or refusing a span. -/
theorem inv_same {cfg : Cfg} {s s' : State X} (h : Inv cfg s) (h1 : s'.accepted = s.accepted) (h2 : s'.exported = s.exported)
    (h3 : s'.worker = s.worker) (h4 : s'.queue = s.queue) (h5 : s'.droppedSpanCount = s.droppedSpanCount)
    (h6 : s'.refused = s.refused) : Inv cfg s' := by
  obtain ⟨a, b, c, d, e, f⟩ := h
  exact ⟨by rw [h1, h2, h3, h4]; exact a, by rw [h2]; exact b, by rw [h3]; exact c, by rw [h3]; exact d, by rw [h4]; exact e,
    by rw [h5, h6]; exact f⟩

theorem inv_thread {cfg : Cfg} {s s' : State X} {t : Nat} (h : Inv cfg s) (hs : threadStep cfg s t = some s') : Inv cfg s' := by
  unfold threadStep at hs
  split at hs
  case h_3 x hx =>
    split at hs
    · rename_i hc
      injection hs with hs; subst hs
      obtain ⟨a, b, c, d, e, f⟩ := h
      refine ⟨?_, b, c, d, ?_, f⟩
      · simp only [State.goto]; rw [a]; simp
      · simp only [List.length_append, List.length_singleton]; omega
    · injection hs with hs; subst hs
      obtain ⟨a, b, c, d, e, f⟩ := h
      exact ⟨a, b, c, d, e, by simp [f]⟩
  all_goals
    cases_step hs
    all_goals first
      | (cases hs; done)
      | (injection hs with hs; subst hs; exact inv_same h rfl rfl rfl rfl rfl rfl)

theorem inv_work {cfg : Cfg} {s s' : State X} {ok : Bool} (h : Inv cfg s) (hs : workStep cfg s ok = some s') : Inv cfg s' := by
  obtain ⟨a, b, c, d, e, f⟩ := h
  unfold workStep at hs
  split at hs
  · cases hs
  · rename_i hw
    injection hs with hs; subst hs
    refine ⟨by simpa [hw, Worker.buffer] using a, b, ?_, by simp, e, f⟩
    intro buf k hk; simp at hk; obtain ⟨rfl, rfl⟩ := hk; simp
  · rename_i buf k hw
    split at hs
    · rename_i hq
      injection hs with hs; subst hs
      refine ⟨by simpa [hw, hq, Worker.buffer] using a, b, by simp, ?_, e, f⟩
      intro buf' k' hk; simp at hk; obtain ⟨rfl, rfl⟩ := hk
      intro hpos; exact Nat.le_of_lt (c buf k hw hpos)
    · rename_i x q hq
      dsimp only at hs
      split at hs
      · rename_i hlen
        injection hs with hs; subst hs
        refine ⟨by simpa [hw, hq, Worker.buffer] using a, b, by simp, ?_, by rw [hq] at e; simp at e ⊢; omega, f⟩
        intro buf' k' hk; simp at hk; obtain ⟨rfl, rfl⟩ := hk
        intro hpos; omega
      · rename_i hlen
        injection hs with hs; subst hs
        refine ⟨by simpa [hw, hq, Worker.buffer] using a, b, ?_, by simp, by rw [hq] at e; simp at e ⊢; omega, f⟩
        intro buf' k' hk; simp at hk; obtain ⟨rfl, rfl⟩ := hk
        intro hpos
        have := c buf k hw hpos
        simp at hlen ⊢; omega
  · rename_i buf k hw
    split at hs
    · rename_i hemp
      injection hs with hs; subst hs
      have : buf = [] := by simpa using hemp
      refine ⟨by simpa [hw, this, Worker.buffer] using a, b, by simp, by simp, e, f⟩
    · rename_i hemp
      injection hs with hs; subst hs
      refine ⟨by simpa [hw, Worker.buffer] using a, ?_, by simp, by simp, e, f⟩
      intro b' hb'
      rcases List.mem_append.1 hb' with hb' | hb'
      · exact b b' hb'
      · simp at hb'; subst hb'
        exact ⟨by simpa using hemp, d b' k hw⟩
  · rename_i n r k hw
    dsimp only at hs
    split at hs <;>
    · injection hs with hs; subst hs
      exact ⟨by simpa [hw, Worker.buffer] using a, b, by simp, by simp, e, f⟩
  · rename_i r k hw
    split at hs
    · cases hs
    · injection hs with hs; subst hs
      exact ⟨by simpa [hw, Worker.buffer] using a, b, by simp, by simp, e, f⟩
    · injection hs with hs; subst hs
      exact ⟨by simpa [hw, Worker.buffer] using a, b, by simp, by simp, e, f⟩
  · rename_i hw
    injection hs with hs; subst hs
    exact ⟨by simpa [hw, Worker.buffer] using a, b, by simp, by simp, e, f⟩
  · cases hs

theorem inv_step {cfg : Cfg} {s s' : State X} {act : Action X} (h : Inv cfg s) (hs : step cfg s act = some s') : Inv cfg s' := by
  cases act with
  | call t c =>
    simp only [step, callStep] at hs
    split at hs
    · cases c <;> (injection hs with hs; subst hs; exact inv_same h rfl rfl rfl rfl rfl rfl)
    · cases hs
  | thread t => exact inv_thread h hs
  | timeout t =>
    simp only [step, timeoutStep] at hs
    split at hs <;> first
      | (cases hs; done)
      | (injection hs with hs; subst hs; exact inv_same h rfl rfl rfl rfl rfl rfl)
  | take =>
    obtain ⟨a, b, c, d, e, f⟩ := h
    simp only [step, takeStep] at hs
    split at hs
    · rename_i m ms hw hm
      cases m with
      | setResource r => injection hs with hs; subst hs; exact ⟨a, b, c, d, e, f⟩
      | _ =>
        injection hs with hs; subst hs
        refine ⟨by simpa [hw, Worker.buffer] using a, b, ?_, by simp, e, f⟩
        intro buf k hk; simp at hk
        try (obtain ⟨rfl, rfl⟩ := hk; simp)
    · cases hs
  | timer =>
    obtain ⟨a, b, c, d, e, f⟩ := h
    simp only [step, timerStep] at hs
    split at hs
    · rename_i hw
      injection hs with hs; subst hs
      refine ⟨by simpa [hw, Worker.buffer] using a, b, ?_, by simp, e, f⟩
      intro buf k hk; simp at hk
      obtain ⟨rfl, rfl⟩ := hk; simp
    · cases hs
  | work ok => exact inv_work h hs
  | setResource r =>
    injection hs with hs; subst hs
    unfold setResourceStep; split
    · exact inv_same h rfl rfl rfl rfl rfl rfl
    · exact h

theorem inv_reachable {cfg : Cfg} {s : State X} (h : Reachable cfg s) : Inv cfg s := by
  induction h with
  | init => exact inv_init cfg
  | step _ hs ih => exact inv_step ih hs

/-- **C26** In every reachable state of every schedule: the accepted spans are exactly the exported ones, then those in
the worker's hands, then those queued, in acceptance order; the refused ones are exactly counted; the queue is within its
bound; every exported batch is non-empty and within the batch size, when that is not zero. -/
theorem bsp_conservation (cfg : Cfg) (hb : 0 < cfg.maxBatch) (s : State X) (h : Reachable cfg s) :
    s.accepted = s.exported.flatten ++ s.worker.buffer ++ s.queue
      ∧ s.droppedSpanCount = s.refused.length
      ∧ s.queue.length ≤ cfg.maxQueue
      ∧ ∀ b ∈ s.exported, b ≠ [] ∧ b.length ≤ cfg.maxBatch := by
  have hi := inv_reachable h
  exact ⟨hi.conserved, hi.dropped, hi.queue, fun b hbm => ⟨(hi.batches b hbm).1, (hi.batches b hbm).2 hb⟩⟩

/-- The span of an `on_end` call past `try_send`. -/
def Pc.sent : Pc X → Option X
  | .onEnd2 x => some x
  | .onEnd3 x => some x
  | .onEnd4 x => some x
  | .onEnd5 x => some x
  | .onEnd6 x => some x
  | _ => none

/-- **C26 (every call accounted for)** A step by which an `on_end` call returns leaves its span accepted, refused (and
counted), or ignored because of shutdown. -/
theorem bsp_every_span_accounted (cfg : Cfg) (s s' : State X) (h : Reachable cfg s) (t : Nat) (x : X)
    (hpc : s.threads t = .onEnd0 x ∨ (s.threads t).sent = some x) (hs : step cfg s (.thread t) = some s')
    (hret : s'.threads t = .idle) : x ∈ s'.accepted ∨ x ∈ s'.refused ∨ x ∈ s'.ignored := by
  have key : ∀ {s : State X}, Reachable cfg s → ∀ t x, (s.threads t).sent = some x → x ∈ s.accepted ∨ x ∈ s.refused := by
    intro s hr
    induction hr with
    | init => intro t x hx; simp [State.init, Pc.sent] at hx
    | @step s s' a _ hs ih =>
      intro t' x hx
      cases a with
      | call t c =>
        simp only [step, callStep] at hs
        split at hs
        · cases c <;>
          · injection hs with hs; subst hs
            simp only [State.goto, set] at hx ⊢
            split at hx
            · simp [Pc.sent] at hx
            · exact ih t' x hx
        · cases hs
      | thread t =>
        simp only [step, threadStep] at hs
        split at hs
        case h_1 => cases hs
        case h_2 y hy =>
          split at hs <;>
          · injection hs with hs; subst hs
            simp only [State.goto, set] at hx ⊢
            split at hx
            · simp [Pc.sent] at hx
            · exact ih t' x hx
        case h_3 y hy =>
          split at hs
          · injection hs with hs; subst hs
            simp only [State.goto, set] at hx ⊢
            split at hx
            · simp [Pc.sent] at hx; simp [hx]
            · rcases ih t' x hx with h | h <;> simp [h]
          · injection hs with hs; subst hs
            simp only [State.goto, set] at hx ⊢
            split at hx
            · simp [Pc.sent] at hx; simp [hx]
            · rcases ih t' x hx with h | h <;> simp [h]
        all_goals
          rename_i y hy
          have hy' : ∀ z, (s.threads t).sent = some z → z ∈ s.accepted ∨ z ∈ s.refused := ih t
          rw [hy] at hy'
          cases_step hs
          all_goals first
            | (cases hs; done)
            | (injection hs with hs; subst hs
               simp only [State.goto, State.ret, set] at hx ⊢
               split at hx
               · first
                   | (simp [Pc.sent] at hx; done)
                   | (exact hy' x hx)
               · exact ih t' x hx)
      | timeout t =>
        simp only [step, timeoutStep] at hs
        split at hs <;> first
          | (cases hs; done)
          | (injection hs with hs; subst hs
             simp only [State.ret, set] at hx ⊢
             split at hx
             · simp [Pc.sent] at hx
             · exact ih t' x hx)
      | take =>
        simp only [step, takeStep] at hs
        split at hs
        · rename_i m ms hw hm
          cases m <;> (injection hs with hs; subst hs; exact ih t' x hx)
        · cases hs
      | timer =>
        simp only [step, timerStep] at hs
        split at hs
        · injection hs with hs; subst hs; exact ih t' x hx
        · cases hs
      | work ok =>
        simp only [step, workStep] at hs
        cases_step hs
        all_goals first
          | (cases hs; done)
          | (injection hs with hs; subst hs; exact ih t' x hx)
      | setResource r =>
        injection hs with hs; subst hs
        revert hx; unfold setResourceStep; split <;> exact ih t' x
  rcases hpc with hpc | hpc
  · simp only [step, threadStep, hpc] at hs
    split at hs
    · injection hs with hs; subst hs; simp
    · injection hs with hs; subst hs; simp [State.goto, set] at hret
  · have hm := key h t x hpc
    have hk : s'.accepted = s.accepted ∧ s'.refused = s.refused := by
      simp only [step, threadStep] at hs
      split at hs
      case h_3 y hy => rw [hy] at hpc; simp [Pc.sent] at hpc
      all_goals
        cases_step hs
        all_goals first
          | (cases hs; done)
          | (injection hs with hs; subst hs; exact ⟨rfl, rfl⟩)
    rw [hk.1, hk.2]
    rcases hm with h | h <;> simp [h]

/-! ## C27 -/

/-- The token the worker is serving. -/
def Cont.tok : Cont → Option Nat
  | .loop => none
  | .flush t => some t
  | .shut t => some t

/-- The token of a flush or shutdown call. -/
def Pc.tok : Pc X → Option Nat
  | .flush0 t => some t
  | .flush1 t => some t
  | .flushWait t => some t
  | .shut0 t => some t
  | .shut1 t => some t
  | .shutWait t => some t
  | .shutJoin t _ => some t
  | _ => none

/-- The token of a message. -/
def Msg.tok : Msg → Option Nat
  | .exportSpan => none
  | .forceFlush t => some t
  | .shutdown t => some t
  | .setResource _ => none

/-- What the worker's position guarantees for the token it serves. -/
def WorkerServes (cfg : Cfg) (s : State X) : Prop :=
  match s.worker with
  | .drain _ k => ∀ tok, k.tok = some tok → tok < s.nextTok
  | .export buf k => ∀ tok, k.tok = some tok → tok < s.nextTok ∧
      min (s.atCall tok).1 ((s.atCall tok).2 + cfg.maxBatch) ≤ s.exportedCount + buf.length
  | .sub _ _ k => ∀ tok, k.tok = some tok → tok < s.nextTok ∧
      min (s.atCall tok).1 ((s.atCall tok).2 + cfg.maxBatch) ≤ s.exportedCount
  | .reply _ k => ∀ tok, k.tok = some tok → tok < s.nextTok ∧
      min (s.atCall tok).1 ((s.atCall tok).2 + cfg.maxBatch) ≤ s.exportedCount
  | _ => True

/-- The invariant behind C27. -/
structure FlushInv (cfg : Cfg) (s : State X) : Prop where
  base : Inv cfg s
  past : ∀ tok, (s.atCall tok).1 ≤ s.accepted.length ∧ (s.atCall tok).2 ≤ s.exportedCount
  threads : ∀ t tok, (s.threads t).tok = some tok → tok < s.nextTok
  msgs : ∀ m ∈ s.msgs, ∀ tok, m.tok = some tok → tok < s.nextTok
  worker : WorkerServes cfg s
  replies : ∀ p ∈ s.replies, p.1 < s.nextTok ∧
    min (s.atCall p.1).1 ((s.atCall p.1).2 + cfg.maxBatch) ≤ s.exportedCount
  joining : ∀ t tok r, s.threads t = .shutJoin tok r →
    min (s.atCall tok).1 ((s.atCall tok).2 + cfg.maxBatch) ≤ s.exportedCount
  returned : ∀ tok r, (tok, Ret.result r) ∈ s.returned → tok < s.nextTok ∧
    min (s.atCall tok).1 ((s.atCall tok).2 + cfg.maxBatch) ≤ s.exportedCount

theorem flushInv_init (cfg : Cfg) : FlushInv cfg (State.init : State X) := by
  constructor
  · exact inv_init cfg
  all_goals simp [State.init, WorkerServes, State.exportedCount, Pc.tok]

/-- A thread step that changes no counted list: only the program counter `pc` of `t`, the messages and the results. -/
theorem flushInv_thread_frame {cfg : Cfg} {s s' : State X} (h : FlushInv cfg s) (hi : Inv cfg s')
    (t : Nat) (pc : Pc X) (ha : s.accepted.length ≤ s'.accepted.length) (he : s'.exported = s.exported)
    (hw : s'.worker = s.worker) (hc : s'.atCall = s.atCall) (hn : s'.nextTok = s.nextTok) (hr : s'.replies = s.replies)
    (ht : s'.threads = set s.threads t pc) (hpt : ∀ tok, pc.tok = some tok → tok < s.nextTok)
    (hj : ∀ tok r, pc = .shutJoin tok r → min (s.atCall tok).1 ((s.atCall tok).2 + cfg.maxBatch) ≤ s.exportedCount)
    (hm : ∀ m ∈ s'.msgs, m ∈ s.msgs ∨ ∀ tok, m.tok = some tok → tok < s.nextTok)
    (hret : ∀ tok r, (tok, Ret.result r) ∈ s'.returned → (tok, Ret.result r) ∈ s.returned ∨ (tok < s.nextTok ∧
      min (s.atCall tok).1 ((s.atCall tok).2 + cfg.maxBatch) ≤ s.exportedCount)) : FlushInv cfg s' := by
  have hec : s'.exportedCount = s.exportedCount := by simp [State.exportedCount, he]
  refine ⟨hi, ?_, ?_, ?_, ?_, ?_, ?_, ?_⟩
  · intro tok
    obtain ⟨h1, h2⟩ := h.past tok
    rw [hc, hec]; exact ⟨by omega, h2⟩
  · intro t' tok hk
    rw [hn]; rw [ht] at hk
    simp only [set] at hk
    split at hk
    · exact hpt tok hk
    · exact h.threads t' tok hk
  · intro m hmm tok hk
    rw [hn]
    rcases hm m hmm with h1 | h1
    · exact h.msgs m h1 tok hk
    · exact h1 tok hk
  · have := h.worker
    simp only [WorkerServes] at this ⊢
    rw [hw, hn, hc, hec]; exact this
  · rw [hr, hn, hc, hec]; exact h.replies
  · intro t' tok r hk
    rw [hc, hec]; rw [ht] at hk
    simp only [set] at hk
    split at hk
    · exact hj tok r hk
    · exact h.joining t' tok r hk
  · intro tok r hk
    rw [hn, hc, hec]
    rcases hret tok r hk with h1 | h1
    · exact h.returned tok r h1
    · exact h1

theorem flushInv_thread {cfg : Cfg} {s s' : State X} {t : Nat} (h : FlushInv cfg s)
    (hs : threadStep cfg s t = some s') : FlushInv cfg s' := by
  have hi := inv_thread h.base hs
  have htok : ∀ tok, (s.threads t).tok = some tok → tok < s.nextTok := h.threads t
  have hjoin := h.joining t
  unfold threadStep at hs
  split at hs
  case h_11 tok hpc =>
    -- flushWait
    split at hs
    · rename_i p hf
      injection hs with hs; subst hs
      have hp := List.mem_of_find?_eq_some hf
      have hpe : p.1 = tok := by simpa using List.find?_some hf
      refine flushInv_thread_frame h hi t .idle (by simp [State.ret]) rfl rfl rfl rfl rfl rfl (by simp [Pc.tok]) (by simp) ?_ ?_
      · intro m hm; exact Or.inl hm
      · intro tok' r hk
        simp only [State.ret, List.mem_append, List.mem_singleton, Prod.mk.injEq] at hk
        rcases hk with hk | ⟨rfl, _⟩
        · exact Or.inl hk
        · right; have := h.replies p hp; rw [hpe] at this; exact this
    · cases hs
  case h_14 tok hpc =>
    -- shutWait
    split at hs
    · rename_i p hf
      injection hs with hs; subst hs
      have hp := List.mem_of_find?_eq_some hf
      have hpe : p.1 = tok := by simpa using List.find?_some hf
      have hrep := h.replies p hp
      rw [hpe] at hrep
      refine flushInv_thread_frame h hi t (.shutJoin tok p.2) (by simp [State.goto]) rfl rfl rfl rfl rfl rfl ?_ ?_ ?_ ?_
      · intro tok' hk; simp [Pc.tok] at hk; subst hk; exact hrep.1
      · intro tok' r hk; injection hk with hk1 hk2; subst hk1; exact hrep.2
      · intro m hm; exact Or.inl hm
      · intro tok' r hk; exact Or.inl hk
    · cases hs
  case h_15 tok r hpc =>
    split at hs
    · injection hs with hs; subst hs
      refine flushInv_thread_frame h hi t .idle (by simp [State.ret]) rfl rfl rfl rfl rfl rfl (by simp [Pc.tok]) (by simp) ?_ ?_
      · intro m hm; exact Or.inl hm
      · intro tok' r' hk
        simp only [State.ret, List.mem_append, List.mem_singleton, Prod.mk.injEq] at hk
        rcases hk with hk | ⟨rfl, _⟩
        · exact Or.inl hk
        · right; exact ⟨htok _ (by rw [hpc]; rfl), hjoin _ _ hpc⟩
    · cases hs
  all_goals
    rename_i hpc
    rw [hpc] at htok
    cases_step hs
    all_goals first
      | (cases hs; done)
      | (injection hs with hs; subst hs
         refine flushInv_thread_frame h hi t _ (by simp [State.goto, State.ret]) rfl rfl rfl rfl rfl rfl ?_ ?_ ?_ ?_
         · first
             | (simp [Pc.tok]; done)
             | (simpa [Pc.tok] using htok)
         · simp
         · intro m hm
           simp only [State.goto, State.ret, List.mem_append, List.mem_singleton] at hm
           first
             | exact Or.inl hm
             | (rcases hm with hm | rfl
                · exact Or.inl hm
                · right; first
                    | (simp [Msg.tok]; done)
                    | (simpa [Msg.tok, Pc.tok] using htok))
         · intro tok' r hk
           simp [State.goto, State.ret] at hk
           exact Or.inl hk)

theorem flushInv_step {cfg : Cfg} {s s' : State X} {a : Action X} (h : FlushInv cfg s) (hs : step cfg s a = some s') :
    FlushInv cfg s' := by
  have hi := inv_step h.base hs
  cases a with
  | thread t => exact flushInv_thread h hs
  | timeout t =>
    simp only [step, timeoutStep] at hs
    split at hs
    · injection hs with hs; subst hs
      refine flushInv_thread_frame h hi t .idle (by simp [State.ret]) rfl rfl rfl rfl rfl rfl (by simp [Pc.tok]) (by simp)
        (fun m hm => Or.inl hm) ?_
      intro tok' r hk; simp [State.ret] at hk; exact Or.inl hk
    · injection hs with hs; subst hs
      refine flushInv_thread_frame h hi t .idle (by simp [State.ret]) rfl rfl rfl rfl rfl rfl (by simp [Pc.tok]) (by simp)
        (fun m hm => Or.inl hm) ?_
      intro tok' r hk; simp [State.ret] at hk; exact Or.inl hk
    · cases hs
  | call t c =>
    simp only [step, callStep] at hs
    split at hs
    · -- a new token is fresh
      have fresh : ∀ {pc : Pc X} {s1 : State X}, (∀ tok, pc.tok = some tok → tok = s.nextTok) → (∀ tok r, pc ≠ .shutJoin tok r) →
          Inv cfg s1 → s1.accepted = s.accepted → s1.exported = s.exported → s1.threads = set s.threads t pc →
          s1.msgs = s.msgs → s1.worker = s.worker → s1.replies = s.replies → s1.returned = s.returned →
          s1.nextTok = s.nextTok + 1 → s1.atCall = set s.atCall s.nextTok (s.accepted.length, s.exportedCount) →
          FlushInv cfg s1 := by
        intro pc s1 hpc hnj hi1 e1 e2 e3 e4 e5 e6 e7 e8 e9
        have hec : s1.exportedCount = s.exportedCount := by simp [State.exportedCount, e2]
        have hold : ∀ tok, tok < s.nextTok → s1.atCall tok = s.atCall tok := by
          intro tok hlt; rw [e9]; simp [set]; intro heq; omega
        refine ⟨hi1, ?_, ?_, ?_, ?_, ?_, ?_, ?_⟩
        · intro tok
          rw [e9, e1, hec]
          simp only [set]
          split
          · exact ⟨Nat.le_refl _, Nat.le_refl _⟩
          · exact h.past tok
        · intro t' tok hk
          rw [e3] at hk; rw [e8]
          simp only [set] at hk
          split at hk
          · have := hpc tok hk; omega
          · have := h.threads t' tok hk; omega
        · intro m hm tok hk
          rw [e4] at hm; rw [e8]
          have := h.msgs m hm tok hk; omega
        · have := h.worker
          simp only [WorkerServes] at this ⊢
          rw [e5, e8, hec]
          split
          · rename_i hw; rw [hw] at this
            intro tok hk; have := this tok hk; omega
          · rename_i hw; rw [hw] at this
            intro tok hk; have := this tok hk; rw [hold tok this.1]; exact ⟨by omega, this.2⟩
          · rename_i hw; rw [hw] at this
            intro tok hk; have := this tok hk; rw [hold tok this.1]; exact ⟨by omega, this.2⟩
          · rename_i hw; rw [hw] at this
            intro tok hk; have := this tok hk; rw [hold tok this.1]; exact ⟨by omega, this.2⟩
          · trivial
        · intro p hp
          rw [e6] at hp
          have := h.replies p hp
          rw [hold _ this.1, hec, e8]; exact ⟨by omega, this.2⟩
        · intro t' tok r hk
          rw [e3] at hk
          simp only [set] at hk
          split at hk
          · exact absurd hk (hnj tok r)
          · rw [hold tok (h.threads t' tok (by rw [hk]; rfl)), hec]; exact h.joining t' tok r hk
        · intro tok r hk
          rw [e7] at hk
          have := h.returned tok r hk
          rw [hold _ this.1, hec, e8]; exact ⟨by omega, this.2⟩
      cases c with
      | onEnd x =>
        injection hs with hs; subst hs
        exact flushInv_thread_frame h hi t (.onEnd0 x) (by simp [State.goto]) rfl rfl rfl rfl rfl rfl (by simp [Pc.tok]) (by simp)
          (fun m hm => Or.inl hm) (fun tok r hk => Or.inl hk)
      | forceFlush =>
        injection hs with hs; subst hs
        exact fresh (pc := .flush0 s.nextTok) (by intro tok hk; simp [Pc.tok] at hk; exact hk.symm) (by simp) hi rfl rfl rfl rfl rfl
          rfl rfl rfl rfl
      | shutdown =>
        injection hs with hs; subst hs
        exact fresh (pc := .shut0 s.nextTok) (by intro tok hk; simp [Pc.tok] at hk; exact hk.symm) (by simp) hi rfl rfl rfl rfl rfl
          rfl rfl rfl rfl
    · cases hs
  | take =>
    simp only [step, takeStep] at hs
    split at hs
    · rename_i m ms hw hm
      have hmt := h.msgs m (by rw [hm]; simp)
      have hmm : ∀ m ∈ ms, ∀ tok, m.tok = some tok → tok < s.nextTok := fun m' h' => h.msgs m' (by rw [hm]; simp [h'])
      cases m with
      | exportSpan =>
        injection hs with hs; subst hs
        exact ⟨hi, h.past, h.threads, hmm, by simp [WorkerServes], h.replies, h.joining, h.returned⟩
      | forceFlush tok =>
        injection hs with hs; subst hs
        exact ⟨hi, h.past, h.threads, hmm, by simpa [WorkerServes, Cont.tok, Msg.tok] using hmt, h.replies, h.joining, h.returned⟩
      | shutdown tok =>
        injection hs with hs; subst hs
        exact ⟨hi, h.past, h.threads, hmm, by simpa [WorkerServes, Cont.tok, Msg.tok] using hmt, h.replies, h.joining, h.returned⟩
      | setResource r =>
        injection hs with hs; subst hs
        exact ⟨hi, h.past, h.threads, hmm, h.worker, h.replies, h.joining, h.returned⟩
    · cases hs
  | timer =>
    simp only [step, timerStep] at hs
    split at hs
    · injection hs with hs; subst hs
      exact ⟨hi, h.past, h.threads, h.msgs, by simp [WorkerServes, Cont.tok], h.replies, h.joining, h.returned⟩
    · cases hs
  | work ok =>
    simp only [step, workStep] at hs
    have hcons := h.base.conserved
    split at hs
    · cases hs
    · injection hs with hs; subst hs
      exact ⟨hi, h.past, h.threads, h.msgs, by simp [WorkerServes, Cont.tok], h.replies, h.joining, h.returned⟩
    · rename_i buf k hw
      have hwk := h.worker
      simp only [WorkerServes, hw] at hwk
      simp only [hw, Worker.buffer] at hcons
      split at hs
      · rename_i hq
        injection hs with hs; subst hs
        refine ⟨hi, h.past, h.threads, h.msgs, ?_, h.replies, h.joining, h.returned⟩
        simp only [WorkerServes]
        intro tok hk
        refine ⟨hwk tok hk, ?_⟩
        have h1 := (h.past tok).1
        rw [hcons, hq] at h1
        simp only [List.append_nil, List.length_append] at h1
        simp only [State.exportedCount]; omega
      · rename_i x q hq
        split at hs
        · rename_i hlen
          injection hs with hs; subst hs
          refine ⟨hi, h.past, h.threads, h.msgs, ?_, h.replies, h.joining, h.returned⟩
          simp only [WorkerServes]
          intro tok hk
          refine ⟨hwk tok hk, ?_⟩
          have h2 := (h.past tok).2
          simp only [State.exportedCount] at h2 ⊢; omega
        · injection hs with hs; subst hs
          refine ⟨hi, h.past, h.threads, h.msgs, ?_, h.replies, h.joining, h.returned⟩
          simp only [WorkerServes]
          exact hwk
    · rename_i buf k hw
      have hwk := h.worker
      simp only [WorkerServes, hw] at hwk
      split at hs
      · rename_i hemp
        injection hs with hs; subst hs
        refine ⟨hi, h.past, h.threads, h.msgs, ?_, h.replies, h.joining, h.returned⟩
        have : buf = [] := by simpa using hemp
        subst this
        simpa [WorkerServes, State.exportedCount] using hwk
      · injection hs with hs; subst hs
        have hmono : s.exportedCount ≤ (s.exported ++ [buf]).flatten.length := by simp [State.exportedCount]
        have hex : (s.exported ++ [buf]).flatten.length = s.exportedCount + buf.length := by simp [State.exportedCount]
        refine ⟨hi, ?_, h.threads, h.msgs, ?_, ?_, ?_, ?_⟩
        · intro tok; exact ⟨(h.past tok).1, Nat.le_trans (h.past tok).2 hmono⟩
        · simp only [WorkerServes]
          intro tok hk
          have := hwk tok hk
          exact ⟨this.1, by simp only [State.exportedCount] at hex ⊢; rw [hex]; exact this.2⟩
        · intro p hp; exact ⟨(h.replies p hp).1, Nat.le_trans (h.replies p hp).2 hmono⟩
        · intro t tok r hk; exact Nat.le_trans (h.joining t tok r hk) hmono
        · intro tok r hk; exact ⟨(h.returned tok r hk).1, Nat.le_trans (h.returned tok r hk).2 hmono⟩
    · rename_i n r k hw
      have hwk := h.worker
      simp only [WorkerServes, hw] at hwk
      split at hs
      · injection hs with hs; subst hs
        exact ⟨hi, h.past, h.threads, h.msgs, by simp [WorkerServes], h.replies, h.joining, h.returned⟩
      · injection hs with hs; subst hs
        exact ⟨hi, h.past, h.threads, h.msgs, by simpa [WorkerServes, State.exportedCount] using hwk, h.replies, h.joining, h.returned⟩
    · rename_i r k hw
      have hwk := h.worker
      simp only [WorkerServes, hw] at hwk
      split at hs
      · cases hs
      · rename_i tok
        injection hs with hs; subst hs
        refine ⟨hi, h.past, h.threads, h.msgs, by simp [WorkerServes], ?_, h.joining, h.returned⟩
        intro p hp
        rcases List.mem_append.1 hp with hp | hp
        · exact h.replies p hp
        · simp at hp; subst hp; exact hwk tok rfl
      · rename_i tok
        injection hs with hs; subst hs
        refine ⟨hi, h.past, h.threads, h.msgs, by simp [WorkerServes], ?_, h.joining, h.returned⟩
        intro p hp
        rcases List.mem_append.1 hp with hp | hp
        · exact h.replies p hp
        · simp at hp; subst hp; exact hwk tok rfl
    · injection hs with hs; subst hs
      exact ⟨hi, h.past, h.threads, h.msgs, by simp [WorkerServes], h.replies, h.joining, h.returned⟩
    · cases hs
  | setResource r =>
    injection hs with hs; subst hs
    unfold setResourceStep at hi ⊢; split
    · rename_i hc; rw [if_pos hc] at hi
      refine ⟨hi, h.past, h.threads, ?_, h.worker, h.replies, h.joining, h.returned⟩
      intro m hm tok hk
      rcases List.mem_append.1 hm with hm | hm
      · exact h.msgs m hm tok hk
      · simp at hm; subst hm; simp [Msg.tok] at hk
    · exact h

theorem flushInv_reachable {cfg : Cfg} {s : State X} (h : Reachable cfg s) : FlushInv cfg s := by
  induction h with
  | init => exact flushInv_init cfg
  | step _ hs ih => exact flushInv_step ih hs

/-- **C27 (what a flush guarantees)** When `force_flush` or `shutdown` has returned the worker's result, then of the spans
accepted before the call at least one full batch of those then unexported has been handed to the exporter. -/
theorem flush_exports_one_batch (cfg : Cfg) (s : State X) (h : Reachable cfg s) (tok : Nat) (r : Res)
    (hr : (tok, Ret.result r) ∈ s.returned) :
    min (s.atCall tok).1 ((s.atCall tok).2 + cfg.maxBatch) ≤ s.exported.flatten.length :=
  ((flushInv_reachable h).returned tok r hr).2

/-- **C27 (partial)** If at most one batch was unexported when the call was made, everything accepted before the call has been
handed to the exporter, in order, when it returns. -/
theorem flush_exports_all_partial (cfg : Cfg) (s : State X) (h : Reachable cfg s) (tok : Nat) (r : Res)
    (hr : (tok, Ret.result r) ∈ s.returned) (hfit : (s.atCall tok).1 ≤ (s.atCall tok).2 + cfg.maxBatch) :
    s.accepted.take (s.atCall tok).1 <+: s.exported.flatten := by
  have h1 := flush_exports_one_batch cfg s h tok r hr
  have h2 := (inv_reachable h).conserved
  have h3 : (s.atCall tok).1 ≤ s.exported.flatten.length := by omega
  rw [h2, List.append_assoc, List.take_append_of_le_length h3]
  exact List.take_prefix _ _

/-! ## C28 -/

theorem done_frozen {cfg : Cfg} {s s' : State X} {a : Action X} (hw : s.worker = .done) (hs : step cfg s a = some s') :
    s'.worker = .done ∧ s'.exported = s.exported ∧ s'.accepted = s.accepted := by
  cases a with
  | call t c =>
    simp only [step, callStep] at hs
    cases_step hs
    all_goals first | (cases hs; done) | (injection hs with hs; subst hs; exact ⟨hw, rfl, rfl⟩)
  | thread t =>
    simp only [step, threadStep, hw, Worker.alive] at hs
    cases_step hs
    all_goals first
      | (cases hs; done)
      | (injection hs with hs; subst hs; exact ⟨hw, rfl, rfl⟩)
      | (injection hs with hs; subst hs; exact ⟨rfl, rfl, rfl⟩)
      | (rename_i hc; exact absurd hc.2 (by decide))
  | timeout t =>
    simp only [step, timeoutStep] at hs
    cases_step hs
    all_goals first | (cases hs; done) | (injection hs with hs; subst hs; exact ⟨hw, rfl, rfl⟩)
  | take => simp [step, takeStep, hw] at hs
  | timer => simp [step, timerStep, hw] at hs
  | work ok => simp [step, workStep, hw] at hs
  | setResource r =>
    injection hs with hs; subst hs
    simp [setResourceStep, canSend, hw, Worker.alive]

/-- **C28 (nothing after completion)** When a `shutdown` call returns the worker's result, the worker has ended: in no later
state has anything more been accepted or exported. -/
theorem nothing_after_shutdown (cfg : Cfg) (s s1 s2 : State X) (t tok : Nat) (r : Res) (hpc : s.threads t = .shutJoin tok r)
    (hs : step cfg s (.thread t) = some s1) (hl : Later cfg s1 s2) :
    s2.exported = s1.exported ∧ s2.accepted = s1.accepted := by
  have hw : s1.worker = .done := by
    simp only [step, threadStep, hpc] at hs
    split at hs
    · rename_i hw; injection hs with hs; subst hs; exact hw
    · cases hs
  have : s2.worker = .done ∧ s2.exported = s1.exported ∧ s2.accepted = s1.accepted := by
    induction hl with
    | refl => exact ⟨hw, rfl, rfl⟩
    | step _ hs ih =>
      obtain ⟨h1, h2, h3⟩ := ih
      obtain ⟨h4, h5, h6⟩ := done_frozen h1 hs
      exact ⟨h4, h5.trans h2, h6.trans h3⟩
  exact this.2

/-- The invariant behind the other parts of C28. -/
structure ShutInv (s : State X) : Prop where
  late : ∀ t, s.late t = true → s.isShutdown = true ∧ ∀ x, s.threads t ≠ .onEnd1 x
  winners : s.winners.length = if s.isShutdown then 1 else 0

theorem shutInv_reachable {cfg : Cfg} {s : State X} (h : Reachable cfg s) : ShutInv s := by
  induction h with
  | init => constructor <;> simp [State.init]
  | @step s s' a _ hs ih =>
    obtain ⟨hl, hwn⟩ := ih
    cases a with
    | call t c =>
      simp only [step, callStep] at hs
      split at hs
      · cases c <;>
        · injection hs with hs; subst hs
          refine ⟨?_, hwn⟩
          intro t' ht'
          simp only [State.goto, set] at ht' ⊢
          split at ht'
          · rename_i heq; simp [heq, ht']
          · rename_i hne; simp only [hne, if_false]; exact hl t' ht'
      · cases hs
    | thread t =>
      simp only [step, threadStep] at hs
      split at hs
      case h_2 x hpc =>
        split at hs
        · injection hs with hs; subst hs
          refine ⟨?_, hwn⟩
          intro t' ht'
          refine ⟨(hl t' ht').1, ?_⟩
          intro y; simp only [State.goto, set]
          split
          · simp
          · exact (hl t' ht').2 y
        · rename_i hns
          injection hs with hs; subst hs
          refine ⟨?_, hwn⟩
          intro t' ht'
          exact absurd (hl t' ht').1 hns
      case h_12 tok hpc =>
        split at hs
        · rename_i hsd
          injection hs with hs; subst hs
          refine ⟨?_, by simpa [State.ret, hsd] using hwn⟩
          intro t' ht'
          refine ⟨rfl, ?_⟩
          intro y; simp only [State.ret, set]
          split
          · simp
          · exact (hl t' ht').2 y
        · rename_i hsd
          injection hs with hs; subst hs
          refine ⟨?_, by simp at hsd; simpa [State.goto, hsd] using hwn⟩
          intro t' ht'
          refine ⟨rfl, ?_⟩
          intro y; simp only [State.goto, set]
          split
          · simp
          · exact (hl t' ht').2 y
      all_goals
        cases_step hs
        all_goals first
          | (cases hs; done)
          | (injection hs with hs; subst hs
             refine ⟨?_, hwn⟩
             intro t' ht'
             refine ⟨(hl t' ht').1, ?_⟩
             intro y; simp only [State.goto, State.ret, set]
             split
             · simp
             · exact (hl t' ht').2 y)
    | timeout t =>
      simp only [step, timeoutStep] at hs
      cases_step hs
      all_goals first
        | (cases hs; done)
        | (injection hs with hs; subst hs
           refine ⟨?_, hwn⟩
           intro t' ht'
           refine ⟨(hl t' ht').1, ?_⟩
           intro y; simp only [State.ret, set]
           split
           · simp
           · exact (hl t' ht').2 y)
    | take =>
      simp only [step, takeStep] at hs
      cases_step hs
      all_goals first | (cases hs; done) | (injection hs with hs; subst hs; exact ⟨hl, hwn⟩)
    | timer =>
      simp only [step, timerStep] at hs
      cases_step hs
      all_goals first | (cases hs; done) | (injection hs with hs; subst hs; exact ⟨hl, hwn⟩)
    | work ok =>
      simp only [step, workStep] at hs
      cases_step hs
      all_goals first | (cases hs; done) | (injection hs with hs; subst hs; exact ⟨hl, hwn⟩)
    | setResource r =>
      injection hs with hs; subst hs
      unfold setResourceStep; split <;> exact ⟨hl, hwn⟩

/-- **C28 (late calls are ignored)** A step of a thread whose `on_end` call was made after `is_shutdown` was set accepts
nothing. -/
theorem late_call_not_accepted (cfg : Cfg) (s s' : State X) (h : Reachable cfg s) (t : Nat) (hl : s.late t = true)
    (hs : step cfg s (.thread t) = some s') : s'.accepted = s.accepted ∧ s'.queue = s.queue := by
  have hn := ((shutInv_reachable h).late t hl).2
  simp only [step, threadStep] at hs
  split at hs
  case h_3 x hpc => exact absurd hpc (hn x)
  all_goals
    cases_step hs
    all_goals first
      | (cases hs; done)
      | (injection hs with hs; subst hs; exact ⟨rfl, rfl⟩)

/-- **C28 (once)** In every history at most one `shutdown` call gets past the flag; it is the one that set it. -/
theorem one_shutdown_wins (cfg : Cfg) (s : State X) (h : Reachable cfg s) :
    s.winners.length = if s.isShutdown then 1 else 0 := (shutInv_reachable h).winners

/-- **C28 (idempotent)** A `shutdown` call that finds the flag set returns `AlreadyShutdown` and changes nothing else. -/
theorem second_shutdown (cfg : Cfg) (s : State X) (t tok : Nat) (hpc : s.threads t = .shut0 tok) (hsd : s.isShutdown = true) :
    step cfg s (.thread t) = some { s with
      threads := set s.threads t .idle, returned := s.returned ++ [(tok, .alreadyShutdown)] } := by
  simp [step, threadStep, hpc, hsd, State.ret]

/-- **C28 (exporter, violated)** In no history does the processor call the exporter's own `shutdown`. -/
theorem exporter_shutdown_violated (cfg : Cfg) (s : State X) (h : Reachable cfg s) : s.exporterShutdowns = 0 := by
  induction h with
  | init => rfl
  | @step s s' a _ hs ih =>
    cases a with
    | call t c =>
      simp only [step, callStep] at hs
      cases_step hs
      all_goals first | (cases hs; done) | (injection hs with hs; subst hs; exact ih)
    | thread t =>
      simp only [step, threadStep] at hs
      cases_step hs
      all_goals first | (cases hs; done) | (injection hs with hs; subst hs; exact ih)
    | timeout t =>
      simp only [step, timeoutStep] at hs
      cases_step hs
      all_goals first | (cases hs; done) | (injection hs with hs; subst hs; exact ih)
    | take =>
      simp only [step, takeStep] at hs
      cases_step hs
      all_goals first | (cases hs; done) | (injection hs with hs; subst hs; exact ih)
    | timer =>
      simp only [step, timerStep] at hs
      cases_step hs
      all_goals first | (cases hs; done) | (injection hs with hs; subst hs; exact ih)
    | work ok =>
      simp only [step, workStep] at hs
      cases_step hs
      all_goals first | (cases hs; done) | (injection hs with hs; subst hs; exact ih)
    | setResource r =>
      injection hs with hs; subst hs
      unfold setResourceStep; split <;> exact ih

/-! ## Schedules that break the stronger claims -/

theorem reachable_runAll {cfg : Cfg} {s s' : State X} (h : Reachable cfg s) (as : List (Action X))
    (hr : runAll cfg s as = some s') : Reachable cfg s' := by
  induction as generalizing s with
  | nil => simp [runAll] at hr; subst hr; exact h
  | cons a as ih =>
    simp only [runAll] at hr
    split at hr
    · rename_i s1 hs1; exact ih (.step h hs1) hr
    · cases hr

/-- Thread `t` ends span `x`, with a batch size that is not reached. -/
def endSpan (t x : Nat) : List (Action Nat) := [.call t (.onEnd x), .thread t, .thread t, .thread t]

/-- Thread `t` ends span `x`, and the export message is already on its way. -/
def endSpanFull (t x : Nat) : List (Action Nat) := endSpan t x ++ [.thread t]

/-- A schedule: batch size 2, five spans end, then a flush that the exporter answers with success. -/
def flushSchedule : List (Action Nat) :=
  endSpan 0 1 ++ endSpan 0 2 ++ [.thread 0, .thread 0, .thread 0] ++ endSpanFull 0 3 ++ endSpanFull 0 4 ++ endSpanFull 0 5
    ++ [.take, .work true, .work true, .work true, .work true, .work true]
    ++ [.call 1 .forceFlush, .thread 1, .thread 1, .take, .work true, .work true, .work true, .work true, .work true, .thread 1]

/-- **C27 (violated for `force_flush`)** Five spans are accepted, then `force_flush` is called and returns Ok; one of them has
not been exported. -/
theorem flush_violated : ∃ s : State Nat, Reachable ⟨2, 10⟩ s ∧ (0, Ret.result .ok) ∈ s.returned ∧ (s.atCall 0).1 = 5
    ∧ s.exported = [[1, 2], [3, 4]] ∧ s.queue = [5] := by
  have h : (runAll ⟨2, 10⟩ State.init flushSchedule).map
      (fun s => (s.returned, (s.atCall 0).1, s.exported, s.queue)) = some ([(0, Ret.result .ok)], 5, [[1, 2], [3, 4]], [5]) := by
    decide +kernel
  obtain ⟨s, hs, he⟩ := Option.map_eq_some_iff.1 h
  simp only [Prod.mk.injEq] at he
  exact ⟨s, reachable_runAll .init _ hs, by rw [he.1]; simp, he.2.1, he.2.2.1, he.2.2.2⟩

/-- Non-vacuity of `flush_exports_all_partial`: a flush that finds one full batch. -/
example : ∃ s : State Nat, Reachable ⟨2, 10⟩ s ∧ (0, Ret.result .ok) ∈ s.returned ∧ (s.atCall 0) = (2, 0)
    ∧ s.exported = [[1, 2]] := by
  have h : (runAll ⟨2, 10⟩ State.init (endSpan 0 1 ++ endSpan 0 2 ++ [.call 1 .forceFlush, .thread 1, .thread 1, .take,
      .work true, .work true, .work true, .work true, .work true, .thread 1])).map
      (fun s => (s.returned, s.atCall 0, s.exported)) = some ([(0, Ret.result .ok)], (2, 0), [[1, 2]]) := by
    rfl
  obtain ⟨s, hs, he⟩ := Option.map_eq_some_iff.1 h
  simp only [Prod.mk.injEq] at he
  exact ⟨s, reachable_runAll .init _ hs, by rw [he.1]; simp, he.2.1, he.2.2⟩

/-- A schedule: batch size 2, five spans end while the worker is busy with the first two, then shutdown. -/
def shutdownLoses : List (Action Nat) :=
  endSpan 0 1 ++ endSpan 0 2 ++ [.thread 0, .thread 0] ++ [.timer] ++ endSpanFull 2 3
    ++ endSpanFull 3 4 ++ endSpanFull 3 5 ++ [.call 1 .shutdown, .thread 1, .thread 1]
    ++ [.work true, .work true, .work true, .work true]
    ++ [.take, .work true, .work true, .work true, .work true, .work true, .work true, .thread 1, .thread 1]

/-- **C27 (violated for `shutdown`)** Five spans are accepted before `shutdown`, which returns Ok; the worker has ended and one of
them was never exported. -/
theorem shutdown_loses_violated : ∃ s : State Nat, Reachable ⟨2, 10⟩ s ∧ (0, Ret.result .ok) ∈ s.returned ∧ (s.atCall 0).1 = 5
    ∧ s.worker = .done ∧ s.exported = [[1, 2], [3, 4]] ∧ s.queue = [5] := by
  have h : (runAll ⟨2, 10⟩ State.init shutdownLoses).map
      (fun s => (s.returned, (s.atCall 0).1, s.worker, s.exported, s.queue))
        = some ([(0, Ret.result .ok)], 5, (.done : Worker Nat), [[1, 2], [3, 4]], [5]) := by
    rfl
  obtain ⟨s, hs, he⟩ := Option.map_eq_some_iff.1 h
  simp only [Prod.mk.injEq] at he
  exact ⟨s, reachable_runAll .init _ hs, by rw [he.1]; simp, he.2.1, he.2.2.1, he.2.2.2.1, he.2.2.2.2⟩

/-- **C26 (batch size zero, violated)** With batch size 0 the loop never stops at the batch size: a batch of two is exported. -/
theorem zero_batch_violated : ∃ s : State Nat, Reachable ⟨0, 10⟩ s ∧ s.exported = [[1, 2]] := by
  have h : (runAll ⟨0, 10⟩ State.init ([.call 0 (.onEnd 1), .thread 0, .thread 0, .call 1 (.onEnd 2), .thread 1, .thread 1,
      .timer, .work true, .work true, .work true, .work true] : List (Action Nat))).map (fun s => s.exported) = some [[1, 2]] := by
    decide +kernel
  obtain ⟨s, hs, he⟩ := Option.map_eq_some_iff.1 h
  exact ⟨s, reachable_runAll .init _ hs, he⟩

end Otel.Sdk.Bsp
