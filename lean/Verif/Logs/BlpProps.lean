import Verif.Logs.Blp
import Verif.Sdk.BspProps
/-! # C33, C34, C66: the batch log processor -/

namespace Otel.Logs.Blp

open Otel.Sdk.Bsp (Cfg msgCap Res Ret Cont)

variable {X : Type}

/-- What the worker holds between the queue and the exporter. -/
def Worker.buffer : Worker X → List X
  | .drain _ buf => buf
  | .export _ buf => buf
  | _ => []

/-- Records taken from the queue and not yet subtracted from the counter. -/
def Worker.held : Worker X → Nat
  | .drain _ buf => buf.length
  | .export _ buf => buf.length
  | .sub _ n => n
  | _ => 0

/-- The worker is in the loop of `get_logs_and_export`. -/
def Worker.looping : Worker X → Option Job
  | .test j => some j
  | .drain j _ => some j
  | .export j _ => some j
  | .sub j _ => some j
  | _ => none

/-- The worker has left the loop and is answering. -/
def Worker.answering : Worker X → Option Job
  | .closing j => some j
  | .reply j => some j
  | _ => none

/-- The token the worker is serving. -/
def Worker.tok (w : Worker X) : Option Nat :=
  match w with
  | .load k => Otel.Sdk.Bsp.Cont.tok k
  | .test j => Otel.Sdk.Bsp.Cont.tok j.k
  | .drain j _ => Otel.Sdk.Bsp.Cont.tok j.k
  | .export j _ => Otel.Sdk.Bsp.Cont.tok j.k
  | .sub j _ => Otel.Sdk.Bsp.Cont.tok j.k
  | .closing j => Otel.Sdk.Bsp.Cont.tok j.k
  | .reply j => Otel.Sdk.Bsp.Cont.tok j.k
  | _ => none

/-- The token of a flush or shutdown call. -/
def Pc.tok : Pc X → Option Nat
  | .flush0 t => some t
  | .flushWait t => some t
  | .shut0 t => some t
  | .shutWait t => some t
  | .shutJoin t _ => some t
  | _ => none

/-- The token of a message. -/
def Msg.tok : Msg → Option Nat
  | .exportLog => none
  | .forceFlush t => some t
  | .shutdown t => some t
  | .setResource _ => none

/-- Between `try_send` and `fetch_add`. -/
def Pc.adding : Pc X → Bool
  | .emit1 _ => true
  | _ => false

/-! ## C33 -/

/-- Conservation, batch sizes, counts. -/
structure Inv (cfg : Cfg) (s : State X) : Prop where
  conserved : s.accepted = s.exported.flatten ++ s.worker.buffer ++ s.queue
  batches : ∀ b ∈ s.exported, b ≠ [] ∧ (0 < cfg.maxBatch → b.length ≤ cfg.maxBatch)
  draining : ∀ j buf, s.worker = .drain j buf → 0 < cfg.maxBatch → buf.length < cfg.maxBatch
  exporting : ∀ j buf, s.worker = .export j buf → 0 < cfg.maxBatch → buf.length ≤ cfg.maxBatch
  queue : s.queue.length ≤ cfg.maxQueue
  dropped : s.droppedLogsCount = s.refused.length
  pendingIff : ∀ t, t ∈ s.pending ↔ (s.threads t).adding = true
  pendingNodup : s.pending.Nodup
  counter : s.currentBatchSize + BitVec.ofNat 64 s.pending.length = BitVec.ofNat 64 (s.queue.length + s.worker.held)

theorem inv_init (cfg : Cfg) : Inv cfg (State.init : State X) := by
  constructor <;> simp [State.init, Worker.buffer, Worker.held, Pc.adding]

theorem inv_frame {cfg : Cfg} {s s' : State X} (h : Inv cfg s) (t : Nat) (pc : Pc X) (h0 : (s.threads t).adding = false)
    (hpc : pc.adding = false) (ht : s'.threads = Sdk.Bsp.set s.threads t pc) (h1 : s'.accepted = s.accepted) (h2 : s'.exported = s.exported)
    (h3 : s'.worker = s.worker) (h4 : s'.queue = s.queue) (h5 : s'.droppedLogsCount = s.droppedLogsCount)
    (h6 : s'.refused = s.refused) (h7 : s'.pending = s.pending) (h8 : s'.currentBatchSize = s.currentBatchSize) : Inv cfg s' := by
  obtain ⟨a, b, c, d, e, f, g, i, k⟩ := h
  refine ⟨by rw [h1, h2, h3, h4]; exact a, by rw [h2]; exact b, by rw [h3]; exact c, by rw [h3]; exact d, by rw [h4]; exact e,
    by rw [h5, h6]; exact f, ?_, by rw [h7]; exact i, by rw [h8, h7, h4, h3]; exact k⟩
  intro t'
  rw [h7, ht, g t']
  simp only [Sdk.Bsp.set]
  split
  · rename_i he; rw [he, h0, hpc]
  · rfl

theorem inv_thread {cfg : Cfg} {s s' : State X} {t : Nat} (h : Inv cfg s) (hs : threadStep cfg s t = some s') : Inv cfg s' := by
  unfold threadStep at hs
  split at hs
  case h_2 x hpc =>
    split at hs
    · injection hs with hs; subst hs
      exact inv_frame h t .idle (by rw [hpc]; rfl) rfl rfl rfl rfl rfl rfl rfl rfl rfl rfl
    · split at hs
      · rename_i hq
        injection hs with hs; subst hs
        obtain ⟨a, b, c, d, e, f, g, i, k⟩ := h
        have hnm : t ∉ s.pending := by rw [g t, hpc]; simp [Pc.adding]
        refine ⟨?_, b, c, d, ?_, f, ?_, ?_, ?_⟩
        · show s.accepted ++ [x] = _
          rw [a]; simp [State.goto]
        · show (s.queue ++ [x]).length ≤ _
          simp; omega
        · intro t'
          simp only [State.goto, Sdk.Bsp.set, List.mem_cons]
          split
          · rename_i he; simp [he, Pc.adding]
          · rename_i he; rw [← g t']; simp [he]
        · exact List.nodup_cons.2 ⟨hnm, i⟩
        · show s.currentBatchSize + BitVec.ofNat 64 (t :: s.pending).length = BitVec.ofNat 64 ((s.queue ++ [x]).length + s.worker.held)
          simp only [List.length_cons, List.length_append, List.length_nil]
          rw [BitVec.ofNat_add, ← BitVec.add_assoc, k, ← BitVec.ofNat_add]
          congr 1; omega
      · injection hs with hs; subst hs
        have := inv_frame (s' := s.goto t .idle) h t .idle (by rw [hpc]; rfl) rfl rfl rfl rfl rfl rfl rfl rfl rfl rfl
        obtain ⟨a, b, c, d, e, f, g, i, k⟩ := this
        exact ⟨a, b, c, d, e, by simp only [List.length_append, List.length_singleton]; exact congrArg (· + 1) f, g, i, k⟩
  case h_3 x hpc =>
    obtain ⟨a, b, c, d, e, f, g, i, k⟩ := h
    have hm : t ∈ s.pending := by rw [g t, hpc]; rfl
    have hlen : s.pending.length = (s.pending.erase t).length + 1 := by
      rw [List.length_erase_of_mem hm]
      have := List.length_pos_of_mem hm
      omega
    have hk : s.currentBatchSize + 1 + BitVec.ofNat 64 (s.pending.erase t).length
        = BitVec.ofNat 64 (s.queue.length + s.worker.held) := by
      rw [← k, hlen, BitVec.ofNat_add, BitVec.add_assoc, BitVec.add_comm 1]; rfl
    dsimp only at hs
    have hg : ∀ pc : Pc X, pc.adding = false → ∀ t', t' ∈ s.pending.erase t ↔ (Sdk.Bsp.set s.threads t pc t').adding = true := by
      intro pc hpc' t'
      rw [i.mem_erase_iff]
      simp only [Sdk.Bsp.set]
      split
      · rename_i he; simp [he, hpc']
      · rename_i he; simp [he, g t']
    split at hs
    · injection hs with hs; subst hs
      exact ⟨a, b, c, d, e, f, hg (.emit2 x) rfl, i.erase t, hk⟩
    · injection hs with hs; subst hs
      exact ⟨a, b, c, d, e, f, hg .idle rfl, i.erase t, hk⟩
  all_goals
    rename_i hpc
    cases_step hs
    all_goals first
      | (cases hs; done)
      | (injection hs with hs; subst hs
         exact inv_frame h t _ (by rw [hpc]; rfl) rfl rfl rfl rfl rfl rfl rfl rfl rfl rfl)

theorem next_buffer (j : Job) : (j.next : Worker X).buffer = [] := by
  simp only [Job.next]; split <;> rfl

theorem next_held (j : Job) : (j.next : Worker X).held = 0 := by
  simp only [Job.next]; split <;> rfl

theorem next_drain (j j' : Job) (buf : List X) : j.next ≠ .drain j' buf := by
  simp only [Job.next]; split <;> simp

theorem next_export (j j' : Job) (buf : List X) : j.next ≠ .export j' buf := by
  simp only [Job.next]; split <;> simp

theorem inv_work {cfg : Cfg} {s s' : State X} {ok : Bool} (h : Inv cfg s) (hs : workStep cfg s ok = some s') : Inv cfg s' := by
  obtain ⟨a, b, c, d, e, f, g, i, k⟩ := h
  unfold workStep at hs
  split at hs
  · cases hs
  · rename_i hw
    injection hs with hs; subst hs
    exact ⟨by simpa [hw, Worker.buffer] using a, b, by simp, by simp, e, f, g, i, by simpa [hw, Worker.held] using k⟩
  · rename_i k' hw
    injection hs with hs; subst hs
    exact ⟨by simpa [hw, Worker.buffer] using a, b, by simp, by simp, e, f, g, i, by simpa [hw, Worker.held] using k⟩
  · rename_i j hw
    split at hs
    · injection hs with hs; subst hs
      refine ⟨by simpa [hw, Worker.buffer] using a, b, ?_, by simp, e, f, g, i, by simpa [hw, Worker.held] using k⟩
      intro j' buf hk; simp at hk; obtain ⟨rfl, rfl⟩ := hk; simp
    · injection hs with hs; subst hs
      rw [hw] at a k
      refine ⟨by rw [next_buffer]; exact a, b, ?_, ?_, e, f, g, i, by rw [next_held]; exact k⟩
      · intro j' buf hk; exact absurd hk (next_drain _ _ _)
      · intro j' buf hk; exact absurd hk (next_export _ _ _)
  · rename_i j buf hw
    split at hs
    · rename_i hq
      injection hs with hs; subst hs
      refine ⟨by simpa [hw, hq, Worker.buffer] using a, b, by simp, ?_, e, f, g, i, by simpa [hw, Worker.held] using k⟩
      intro j' buf' hk; simp at hk; obtain ⟨rfl, rfl⟩ := hk
      intro hpos; exact Nat.le_of_lt (c _ _ hw hpos)
    · rename_i x q hq
      have hk : s.currentBatchSize + BitVec.ofNat 64 s.pending.length = BitVec.ofNat 64 (q.length + (buf ++ [x]).length) := by
        rw [k, hw, hq]; congr 1; simp [Worker.held]; omega
      split at hs
      · rename_i hlen
        injection hs with hs; subst hs
        refine ⟨by simpa [hw, hq, Worker.buffer] using a, b, by simp, ?_, by rw [hq] at e; simp at e ⊢; omega, f, g, i, hk⟩
        intro j' buf' hk; simp at hk; obtain ⟨rfl, rfl⟩ := hk
        intro hpos; omega
      · rename_i hlen
        injection hs with hs; subst hs
        refine ⟨by simpa [hw, hq, Worker.buffer] using a, b, ?_, by simp, by rw [hq] at e; simp at e ⊢; omega, f, g, i, hk⟩
        intro j' buf' hk; simp at hk; obtain ⟨rfl, rfl⟩ := hk
        intro hpos
        have := c _ _ hw hpos
        simp at hlen ⊢; omega
  · rename_i j buf hw
    split at hs
    · rename_i hemp
      injection hs with hs; subst hs
      have : buf = [] := by simpa using hemp
      exact ⟨by simpa [hw, this, Worker.buffer] using a, b, by simp, by simp, e, f, g, i, by simpa [hw, this, Worker.held] using k⟩
    · rename_i hemp
      injection hs with hs; subst hs
      refine ⟨by simpa [hw, Worker.buffer] using a, ?_, by simp, by simp, e, f, g, i, by simpa [hw, Worker.held] using k⟩
      intro b' hb'
      rcases List.mem_append.1 hb' with hb' | hb'
      · exact b b' hb'
      · simp at hb'; subst hb'
        exact ⟨by simpa using hemp, d _ _ hw⟩
  · rename_i j n hw
    injection hs with hs; subst hs
    refine ⟨by simpa [hw, Worker.buffer] using a, b, by simp, by simp, e, f, g, i, ?_⟩
    rw [hw] at k
    simp only [Worker.held] at k ⊢
    rw [BitVec.ofNat_add s.queue.length n] at k
    have h2 : s.currentBatchSize - BitVec.ofNat 64 n + BitVec.ofNat 64 s.pending.length
        = (s.currentBatchSize + BitVec.ofNat 64 s.pending.length) - BitVec.ofNat 64 n := by
      rw [BitVec.sub_eq_add_neg, BitVec.sub_eq_add_neg, BitVec.add_assoc, BitVec.add_comm (-_), ← BitVec.add_assoc]
    rw [h2, k, BitVec.add_sub_cancel]; simp
  · rename_i j hw
    injection hs with hs; subst hs
    exact ⟨by simpa [hw, Worker.buffer] using a, b, by simp, by simp, e, f, g, i, by simpa [hw, Worker.held] using k⟩
  · rename_i j hw
    split at hs
    · cases hs
    · injection hs with hs; subst hs
      exact ⟨by simpa [hw, Worker.buffer] using a, b, by simp, by simp, e, f, g, i, by simpa [hw, Worker.held] using k⟩
    · injection hs with hs; subst hs
      exact ⟨by simpa [hw, Worker.buffer] using a, b, by simp, by simp, e, f, g, i, by simpa [hw, Worker.held] using k⟩
  · rename_i hw
    injection hs with hs; subst hs
    exact ⟨by simpa [hw, Worker.buffer] using a, b, by simp, by simp, e, f, g, i, by simpa [hw, Worker.held] using k⟩
  · cases hs

theorem inv_step {cfg : Cfg} {s s' : State X} {act : Action X} (h : Inv cfg s) (hs : step cfg s act = some s') : Inv cfg s' := by
  cases act with
  | call t c =>
    simp only [step, callStep] at hs
    split at hs
    · rename_i hpc
      cases c <;> (injection hs with hs; subst hs; exact inv_frame h t _ (by rw [hpc]; rfl) rfl rfl rfl rfl rfl rfl rfl rfl rfl rfl)
    · cases hs
  | thread t => exact inv_thread h hs
  | timeout t =>
    simp only [step, timeoutStep] at hs
    split at hs <;> first
      | (cases hs; done)
      | (rename_i hpc; injection hs with hs; subst hs; exact inv_frame h t _ (by rw [hpc]; rfl) rfl rfl rfl rfl rfl rfl rfl rfl rfl rfl)
  | take =>
    obtain ⟨a, b, c, d, e, f, g, i, k⟩ := h
    simp only [step, takeStep] at hs
    split at hs
    · rename_i m ms hw hm
      cases m with
      | setResource r => injection hs with hs; subst hs; exact ⟨a, b, c, d, e, f, g, i, k⟩
      | _ =>
        injection hs with hs; subst hs
        exact ⟨by simpa [hw, Worker.buffer] using a, b, by simp, by simp, e, f, g, i, by simpa [hw, Worker.held] using k⟩
    · cases hs
  | timer =>
    obtain ⟨a, b, c, d, e, f, g, i, k⟩ := h
    simp only [step, timerStep] at hs
    split at hs
    · rename_i hw
      injection hs with hs; subst hs
      exact ⟨by simpa [hw, Worker.buffer] using a, b, by simp, by simp, e, f, g, i, by simpa [hw, Worker.held] using k⟩
    · cases hs
  | work ok => exact inv_work h hs
  | setResource r =>
    obtain ⟨a, b, c, d, e, f, g, i, k⟩ := h
    injection hs with hs; subst hs
    unfold setResourceStep; split <;> exact ⟨a, b, c, d, e, f, g, i, k⟩

theorem inv_reachable {cfg : Cfg} {s : State X} (h : Reachable cfg s) : Inv cfg s := by
  induction h with
  | init => exact inv_init cfg
  | step _ hs ih => exact inv_step ih hs

/-- **C33** In every reachable state: the accepted records are those exported, then those the worker holds, then those queued, in
acceptance order; no exported batch is empty or larger than the batch size (if that is positive); the queue respects its bound;
refused records are counted. -/
theorem blp_conservation (cfg : Cfg) (s : State X) (h : Reachable cfg s) :
    s.accepted = s.exported.flatten ++ s.worker.buffer ++ s.queue
    ∧ (∀ b ∈ s.exported, b ≠ [] ∧ (0 < cfg.maxBatch → b.length ≤ cfg.maxBatch))
    ∧ s.queue.length ≤ cfg.maxQueue ∧ s.droppedLogsCount = s.refused.length :=
  let i := inv_reachable h
  ⟨i.conserved, i.batches, i.queue, i.dropped⟩

/-- **C33 (once)** When the worker rests, nothing is in between: no record is lost or exported twice. -/
theorem blp_resting (cfg : Cfg) (s : State X) (h : Reachable cfg s) (hw : s.worker = .idle ∨ s.worker = .done) :
    s.accepted = s.exported.flatten ++ s.queue := by
  have := (inv_reachable h).conserved
  rcases hw with hw | hw <;> simpa [hw, Worker.buffer] using this

/-! ## C34 -/

/-- Bookkeeping for tokens. -/
structure FlushInv (cfg : Cfg) (s : State X) : Prop where
  base : Inv cfg s
  past : ∀ tok, s.atCall tok ≤ s.accepted.length
  threads : ∀ t tok, (s.threads t).tok = some tok → tok < s.nextTok
  msgs : ∀ m ∈ s.msgs, ∀ tok, m.tok = some tok → tok < s.nextTok
  wtok : ∀ tok, s.worker.tok = some tok → tok < s.nextTok
  loop : ∀ j, s.worker.looping = some j → s.exportedCount = j.base + j.total ∧
    ∀ tok, j.k.tok = some tok → s.atCall tok ≤ j.base + j.target + j.p
  answer : ∀ j, s.worker.answering = some j → ∀ tok, j.k.tok = some tok → s.atCall tok ≤ s.exportedCount + j.p
  replies : ∀ q ∈ s.replies, q.1 < s.nextTok ∧ s.atCall q.1 ≤ s.exportedCount + q.2.2
  joining : ∀ t tok p, s.threads t = .shutJoin tok p → s.atCall tok ≤ s.exportedCount + p
  returned : ∀ tok r p, (tok, Ret.result r, p) ∈ s.returned → tok < s.nextTok ∧ s.atCall tok ≤ s.exportedCount + p

theorem flushInv_init (cfg : Cfg) : FlushInv cfg (State.init : State X) := by
  constructor
  · exact inv_init cfg
  all_goals simp [State.init, State.exportedCount, Pc.tok, Worker.tok, Worker.looping, Worker.answering]

theorem flushInv_thread_frame {cfg : Cfg} {s s' : State X} (h : FlushInv cfg s) (hi : Inv cfg s')
    (t : Nat) (pc : Pc X) (ha : s.accepted.length ≤ s'.accepted.length) (he : s'.exported = s.exported)
    (hw : s'.worker = s.worker) (hc : s'.atCall = s.atCall) (hn : s'.nextTok = s.nextTok) (hr : s'.replies = s.replies)
    (ht : s'.threads = Sdk.Bsp.set s.threads t pc) (hpt : ∀ tok, pc.tok = some tok → tok < s.nextTok)
    (hj : ∀ tok p, pc = .shutJoin tok p → s.atCall tok ≤ s.exportedCount + p)
    (hm : ∀ m ∈ s'.msgs, m ∈ s.msgs ∨ ∀ tok, m.tok = some tok → tok < s.nextTok)
    (hret : ∀ tok r p, (tok, Ret.result r, p) ∈ s'.returned → (tok, Ret.result r, p) ∈ s.returned ∨ (tok < s.nextTok ∧
      s.atCall tok ≤ s.exportedCount + p)) : FlushInv cfg s' := by
  have hec : s'.exportedCount = s.exportedCount := by simp [State.exportedCount, he]
  refine ⟨hi, ?_, ?_, ?_, ?_, ?_, ?_, ?_, ?_, ?_⟩
  · intro tok
    have := h.past tok
    rw [hc]; omega
  · intro t' tok hk
    rw [hn]; rw [ht] at hk
    simp only [Sdk.Bsp.set] at hk
    split at hk
    · exact hpt tok hk
    · exact h.threads t' tok hk
  · intro m hmm tok hk
    rw [hn]
    rcases hm m hmm with h1 | h1
    · exact h.msgs m h1 tok hk
    · exact h1 tok hk
  · rw [hw, hn]; exact h.wtok
  · rw [hw, hc, hec]; exact h.loop
  · rw [hw, hc, hec]; exact h.answer
  · rw [hr, hn, hc, hec]; exact h.replies
  · intro t' tok p hk
    rw [hc, hec]; rw [ht] at hk
    simp only [Sdk.Bsp.set] at hk
    split at hk
    · exact hj tok p hk
    · exact h.joining t' tok p hk
  · intro tok r p hk
    rw [hn, hc, hec]
    rcases hret tok r p hk with h1 | h1
    · exact h.returned tok r p h1
    · exact h1

theorem flushInv_thread {cfg : Cfg} {s s' : State X} {t : Nat} (h : FlushInv cfg s)
    (hs : threadStep cfg s t = some s') : FlushInv cfg s' := by
  have hi := inv_thread h.base hs
  have htok : ∀ tok, (s.threads t).tok = some tok → tok < s.nextTok := h.threads t
  have hjoin := h.joining t
  unfold threadStep at hs
  split at hs
  case h_9 tok hpc =>
    split at hs
    · rename_i q hf
      injection hs with hs; subst hs
      have hp := List.mem_of_find?_eq_some hf
      have hpe : q.1 = tok := by simpa using List.find?_some hf
      refine flushInv_thread_frame h hi t .idle (by simp [State.ret]) rfl rfl rfl rfl rfl rfl (by simp [Pc.tok]) (by simp) ?_ ?_
      · intro m hm; exact Or.inl hm
      · intro tok' r p hk
        simp only [State.ret, List.mem_append, List.mem_singleton, Prod.mk.injEq] at hk
        rcases hk with hk | ⟨rfl, _, rfl⟩
        · exact Or.inl hk
        · right; have := h.replies q hp; rw [hpe] at this; exact this
    · cases hs
  case h_11 tok hpc =>
    split at hs
    · rename_i q hf
      injection hs with hs; subst hs
      have hp := List.mem_of_find?_eq_some hf
      have hpe : q.1 = tok := by simpa using List.find?_some hf
      have hrep := h.replies q hp
      rw [hpe] at hrep
      refine flushInv_thread_frame h hi t (.shutJoin tok q.2.2) (by simp [State.goto]) rfl rfl rfl rfl rfl rfl ?_ ?_ ?_ ?_
      · intro tok' hk; simp [Pc.tok] at hk; subst hk; exact hrep.1
      · intro tok' p hk; injection hk with hk1 hk2; subst hk1; subst hk2; exact hrep.2
      · intro m hm; exact Or.inl hm
      · intro tok' r p hk; exact Or.inl hk
    · cases hs
  case h_12 tok p hpc =>
    split at hs
    · injection hs with hs; subst hs
      refine flushInv_thread_frame h hi t .idle (by simp [State.ret]) rfl rfl rfl rfl rfl rfl (by simp [Pc.tok]) (by simp) ?_ ?_
      · intro m hm; exact Or.inl hm
      · intro tok' r' p' hk
        simp only [State.ret, List.mem_append, List.mem_singleton, Prod.mk.injEq] at hk
        rcases hk with hk | ⟨rfl, _, rfl⟩
        · exact Or.inl hk
        · right; exact ⟨htok _ (by rw [hpc]; rfl), hjoin _ _ hpc⟩
    · cases hs
  all_goals
    rename_i hpc
    rw [hpc] at htok
    cases_step hs
    all_goals first
      | (cases hs; done)
      | (injection hs with hs; subst hs
         refine flushInv_thread_frame h hi t _ (by simp [State.goto, State.ret]) rfl rfl rfl rfl rfl rfl ?_ ?_ ?_ ?_
         · first
             | (simp [Pc.tok]; done)
             | (simpa [Pc.tok] using htok)
         · simp
         · intro m hm
           simp only [State.goto, State.ret, List.mem_append, List.mem_singleton] at hm
           first
             | exact Or.inl hm
             | (rcases hm with hm | rfl
                · exact Or.inl hm
                · right; first
                    | (simp [Msg.tok]; done)
                    | (simpa [Msg.tok, Pc.tok] using htok))
         · intro tok' r p hk
           simp [State.goto, State.ret] at hk
           exact Or.inl hk)

theorem flushInv_call {cfg : Cfg} {s s' : State X} {t : Nat} {c : Call X} (h : FlushInv cfg s) (hi : Inv cfg s')
    (hs : callStep s t c = some s') : FlushInv cfg s' := by
  simp only [callStep] at hs
  split at hs
  · have fresh : ∀ {pc : Pc X} {s1 : State X}, (∀ tok, pc.tok = some tok → tok = s.nextTok) → (∀ tok r, pc ≠ .shutJoin tok r) →
        Inv cfg s1 → s1.accepted = s.accepted → s1.exported = s.exported → s1.threads = Sdk.Bsp.set s.threads t pc →
        s1.msgs = s.msgs → s1.worker = s.worker → s1.replies = s.replies → s1.returned = s.returned →
        s1.nextTok = s.nextTok + 1 → s1.atCall = Sdk.Bsp.set s.atCall s.nextTok s.accepted.length →
        FlushInv cfg s1 := by
      intro pc s1 hpc hnj hi1 e1 e2 e3 e4 e5 e6 e7 e8 e9
      have hec : s1.exportedCount = s.exportedCount := by simp [State.exportedCount, e2]
      have hold : ∀ tok, tok < s.nextTok → s1.atCall tok = s.atCall tok := by
        intro tok hlt; rw [e9]; simp [Sdk.Bsp.set]; intro heq; omega
      refine ⟨hi1, ?_, ?_, ?_, ?_, ?_, ?_, ?_, ?_, ?_⟩
      · intro tok
        rw [e9, e1]
        simp only [Sdk.Bsp.set]
        split
        · exact Nat.le_refl _
        · exact h.past tok
      · intro t' tok hk
        rw [e3] at hk; rw [e8]
        simp only [Sdk.Bsp.set] at hk
        split at hk
        · have := hpc tok hk; omega
        · have := h.threads t' tok hk; omega
      · intro m hm tok hk
        rw [e4] at hm; rw [e8]
        have := h.msgs m hm tok hk; omega
      · intro tok hk
        rw [e5] at hk; rw [e8]
        have := h.wtok tok hk; omega
      · intro j hk
        rw [e5] at hk; rw [hec]
        refine ⟨(h.loop j hk).1, ?_⟩
        intro tok htk
        have hlt : tok < s.nextTok := by
          refine h.wtok tok ?_
          cases hw : s.worker <;> rw [hw] at hk <;> simp [Worker.looping] at hk <;> subst hk <;> exact htk
        rw [hold tok hlt]; exact (h.loop j hk).2 tok htk
      · intro j hk tok htk
        rw [e5] at hk; rw [hec]
        have hlt : tok < s.nextTok := by
          refine h.wtok tok ?_
          cases hw : s.worker <;> rw [hw] at hk <;> simp [Worker.answering] at hk <;> subst hk <;> exact htk
        rw [hold tok hlt]; exact h.answer j hk tok htk
      · intro p hp
        rw [e6] at hp
        have := h.replies p hp
        rw [hold _ this.1, hec, e8]; exact ⟨by omega, this.2⟩
      · intro t' tok r hk
        rw [e3] at hk
        simp only [Sdk.Bsp.set] at hk
        split at hk
        · exact absurd hk (hnj tok r)
        · rw [hold tok (h.threads t' tok (by rw [hk]; rfl)), hec]; exact h.joining t' tok r hk
      · intro tok r p hk
        rw [e7] at hk
        have := h.returned tok r p hk
        rw [hold _ this.1, hec, e8]; exact ⟨by omega, this.2⟩
    cases c with
    | emit x =>
      injection hs with hs; subst hs
      exact flushInv_thread_frame h hi t (.emit0 x) (by simp [State.goto]) rfl rfl rfl rfl rfl rfl (by simp [Pc.tok]) (by simp)
        (fun m hm => Or.inl hm) (fun tok r p hk => Or.inl hk)
    | forceFlush =>
      injection hs with hs; subst hs
      exact fresh (pc := .flush0 s.nextTok) (by intro tok hk; simp [Pc.tok] at hk; exact hk.symm) (by simp) hi rfl rfl rfl rfl rfl
        rfl rfl rfl rfl
    | shutdown =>
      injection hs with hs; subst hs
      exact fresh (pc := .shut0 s.nextTok) (by intro tok hk; simp [Pc.tok] at hk; exact hk.symm) (by simp) hi rfl rfl rfl rfl rfl
        rfl rfl rfl rfl
  · cases hs

/-- A step of the worker that exports nothing. -/
theorem flushInv_worker {cfg : Cfg} {s s' : State X} (h : FlushInv cfg s) (hi : Inv cfg s') (he : s'.exported = s.exported)
    (ha : s'.accepted = s.accepted) (hc : s'.atCall = s.atCall) (hn : s'.nextTok = s.nextTok) (ht : s'.threads = s.threads)
    (hm : ∀ m ∈ s'.msgs, m ∈ s.msgs) (hret : s'.returned = s.returned)
    (hr : ∀ q ∈ s'.replies, q ∈ s.replies ∨ (q.1 < s.nextTok ∧ s.atCall q.1 ≤ s.exportedCount + q.2.2))
    (hw : ∀ tok, s'.worker.tok = some tok → tok < s.nextTok)
    (hl : ∀ j, s'.worker.looping = some j → s.exportedCount = j.base + j.total ∧
      ∀ tok, j.k.tok = some tok → s.atCall tok ≤ j.base + j.target + j.p)
    (han : ∀ j, s'.worker.answering = some j → ∀ tok, j.k.tok = some tok → s.atCall tok ≤ s.exportedCount + j.p) :
    FlushInv cfg s' := by
  have hec : s'.exportedCount = s.exportedCount := by simp [State.exportedCount, he]
  refine ⟨hi, by rw [hc, ha]; exact h.past, by rw [ht, hn]; exact h.threads, ?_, by rw [hn]; exact hw, by rw [hc, hec]; exact hl,
    by rw [hc, hec]; exact han, ?_, by rw [ht, hc, hec]; exact h.joining, by rw [hret, hn, hc, hec]; exact h.returned⟩
  · intro m hmm; rw [hn]; exact h.msgs m (hm m hmm)
  · intro q hq
    rw [hn, hc, hec]
    rcases hr q hq with h1 | h1
    · exact h.replies q h1
    · exact h1

theorem flushInv_work {cfg : Cfg} (hcap : cfg.maxQueue < 2 ^ 64) {s s' : State X} {ok : Bool} (h : FlushInv cfg s)
    (hs : workStep cfg s ok = some s') : FlushInv cfg s' := by
  have hi := inv_work h.base hs
  have hwt := h.wtok
  have hlp := h.loop
  have han := h.answer
  have hinv := h.base
  unfold workStep at hs
  split at hs
  · cases hs
  · rename_i hw
    injection hs with hs; subst hs
    exact flushInv_worker h hi rfl rfl rfl rfl rfl (fun m hm => hm) rfl (fun q hq => Or.inl hq) (by simp [Worker.tok, Otel.Sdk.Bsp.Cont.tok])
      (by simp [Worker.looping]) (by simp [Worker.answering])
  · rename_i k hw
    rw [hw] at hwt
    injection hs with hs; subst hs
    refine flushInv_worker h hi rfl rfl rfl rfl rfl (fun m hm => hm) rfl (fun q hq => Or.inl hq) hwt ?_ (by simp [Worker.answering])
    intro j hj
    simp only [Worker.looping, Option.some.injEq] at hj
    subst hj
    refine ⟨by simp, ?_⟩
    intro tok htok
    have h1 := h.past tok
    have h2 : s.accepted.length = s.exportedCount + s.queue.length := by
      rw [hinv.conserved, hw]; simp [Worker.buffer, State.exportedCount]
    have h3 := hinv.counter
    rw [hw] at h3
    have h4 : (s.currentBatchSize.toNat + s.pending.length) % 2 ^ 64 = s.queue.length := by
      have := congrArg BitVec.toNat h3
      simp only [BitVec.toNat_add, BitVec.toNat_ofNat, Worker.held, Nat.add_zero, Nat.add_mod_mod] at this
      rw [this]
      exact Nat.mod_eq_of_lt (Nat.lt_of_le_of_lt hinv.queue hcap)
    have h5 : s.queue.length ≤ s.currentBatchSize.toNat + s.pending.length := by
      rw [← h4]; exact Nat.mod_le _ _
    show s.atCall tok ≤ s.exportedCount + s.currentBatchSize.toNat + s.pending.length
    omega
  · rename_i j hw
    rw [hw] at hwt hlp
    have hj := hlp j rfl
    split at hs
    · injection hs with hs; subst hs
      refine flushInv_worker h hi rfl rfl rfl rfl rfl (fun m hm => hm) rfl (fun q hq => Or.inl hq) hwt ?_ (by simp [Worker.answering])
      intro j' hj'; simp [Worker.looping] at hj'; subst hj'; exact hj
    · rename_i hexit
      have hdone : ∀ tok, j.k.tok = some tok → s.atCall tok ≤ s.exportedCount + j.p := by
        intro tok htok
        have := hj.2 tok htok
        have := hj.1
        omega
      injection hs with hs; subst hs
      refine flushInv_worker h hi rfl rfl rfl rfl rfl (fun m hm => hm) rfl (fun q hq => Or.inl hq) ?_ ?_ ?_
      · intro tok hk
        refine hwt tok ?_
        simp only [Job.next] at hk
        split at hk
        · simp [Worker.tok] at hk
        · exact hk
        · exact hk
      · intro j' hk
        simp only [Job.next] at hk
        split at hk <;> simp [Worker.looping] at hk
      · intro j' hk
        simp only [Job.next] at hk
        split at hk
        · simp [Worker.answering] at hk
        · simp [Worker.answering] at hk; subst hk; exact hdone
        · simp [Worker.answering] at hk; subst hk; exact hdone
  · rename_i j buf hw
    rw [hw] at hwt hlp
    have hj := hlp j rfl
    split at hs
    · injection hs with hs; subst hs
      refine flushInv_worker h hi rfl rfl rfl rfl rfl (fun m hm => hm) rfl (fun q hq => Or.inl hq) hwt ?_ (by simp [Worker.answering])
      intro j' hj'; simp [Worker.looping] at hj'; subst hj'; exact hj
    · split at hs <;>
      · injection hs with hs; subst hs
        refine flushInv_worker h hi rfl rfl rfl rfl rfl (fun m hm => hm) rfl (fun q hq => Or.inl hq) hwt ?_ (by simp [Worker.answering])
        intro j' hj'; simp [Worker.looping] at hj'; subst hj'; exact hj
  · rename_i j buf hw
    rw [hw] at hwt hlp
    have hj := hlp j rfl
    split at hs
    · injection hs with hs; subst hs
      refine flushInv_worker h hi rfl rfl rfl rfl rfl (fun m hm => hm) rfl (fun q hq => Or.inl hq) hwt ?_ (by simp [Worker.answering])
      intro j' hj'; simp [Worker.looping] at hj'; subst hj'; exact hj
    · injection hs with hs; subst hs
      have hex : (s.exported ++ [buf]).flatten.length = s.exportedCount + buf.length := by simp [State.exportedCount]
      have hmono : s.exportedCount ≤ (s.exported ++ [buf]).flatten.length := by omega
      refine ⟨hi, h.past, h.threads, h.msgs, hwt, ?_, by simp [Worker.answering], ?_, ?_, ?_⟩
      · intro j' hj'
        simp only [Worker.looping, Option.some.injEq] at hj'
        subst hj'
        refine ⟨?_, hj.2⟩
        show (s.exported ++ [buf]).flatten.length = j.base + (j.total + buf.length)
        rw [hex, hj.1]; omega
      · intro q hq
        have := h.replies q hq
        exact ⟨this.1, Nat.le_trans this.2 (Nat.add_le_add_right hmono _)⟩
      · intro t tok p hk
        exact Nat.le_trans (h.joining t tok p hk) (Nat.add_le_add_right hmono _)
      · intro tok r p hk
        have := h.returned tok r p hk
        exact ⟨this.1, Nat.le_trans this.2 (Nat.add_le_add_right hmono _)⟩
  · rename_i j n hw
    rw [hw] at hwt hlp
    have hj := hlp j rfl
    injection hs with hs; subst hs
    refine flushInv_worker h hi rfl rfl rfl rfl rfl (fun m hm => hm) rfl (fun q hq => Or.inl hq) hwt ?_ (by simp [Worker.answering])
    intro j' hj'; simp [Worker.looping] at hj'; subst hj'; exact hj
  · rename_i j hw
    rw [hw] at hwt han
    injection hs with hs; subst hs
    exact flushInv_worker h hi rfl rfl rfl rfl rfl (fun m hm => hm) rfl (fun q hq => Or.inl hq) hwt (by simp [Worker.looping]) han
  · rename_i j hw
    rw [hw] at hwt han
    have hj := han j rfl
    split at hs
    · cases hs
    · rename_i tok hk
      injection hs with hs; subst hs
      refine flushInv_worker h hi rfl rfl rfl rfl rfl (fun m hm => hm) rfl ?_ (by simp [Worker.tok]) (by simp [Worker.looping]) (by simp [Worker.answering])
      intro q hq
      rcases List.mem_append.1 hq with hq | hq
      · exact Or.inl hq
      · simp at hq; subst hq
        exact Or.inr ⟨hwt tok (by simp [Worker.tok, hk, Otel.Sdk.Bsp.Cont.tok]), hj tok (by rw [hk]; rfl)⟩
    · rename_i tok hk
      injection hs with hs; subst hs
      refine flushInv_worker h hi rfl rfl rfl rfl rfl (fun m hm => hm) rfl ?_ (by simp [Worker.tok]) (by simp [Worker.looping]) (by simp [Worker.answering])
      intro q hq
      rcases List.mem_append.1 hq with hq | hq
      · exact Or.inl hq
      · simp at hq; subst hq
        exact Or.inr ⟨hwt tok (by simp [Worker.tok, hk, Otel.Sdk.Bsp.Cont.tok]), hj tok (by rw [hk]; rfl)⟩
  · injection hs with hs; subst hs
    exact flushInv_worker h hi rfl rfl rfl rfl rfl (fun m hm => hm) rfl (fun q hq => Or.inl hq) (by simp [Worker.tok])
      (by simp [Worker.looping]) (by simp [Worker.answering])
  · cases hs

theorem flushInv_step {cfg : Cfg} (hcap : cfg.maxQueue < 2 ^ 64) {s s' : State X} {a : Action X} (h : FlushInv cfg s)
    (hs : step cfg s a = some s') : FlushInv cfg s' := by
  have hi := inv_step h.base hs
  cases a with
  | call t c => exact flushInv_call h hi hs
  | thread t => exact flushInv_thread h hs
  | timeout t =>
    simp only [step, timeoutStep] at hs
    split at hs
    · injection hs with hs; subst hs
      refine flushInv_thread_frame h hi t .idle (by simp [State.ret]) rfl rfl rfl rfl rfl rfl (by simp [Pc.tok]) (by simp)
        (fun m hm => Or.inl hm) ?_
      intro tok' r p hk; simp [State.ret] at hk; exact Or.inl hk
    · injection hs with hs; subst hs
      refine flushInv_thread_frame h hi t .idle (by simp [State.ret]) rfl rfl rfl rfl rfl rfl (by simp [Pc.tok]) (by simp)
        (fun m hm => Or.inl hm) ?_
      intro tok' r p hk; simp [State.ret] at hk; exact Or.inl hk
    · cases hs
  | take =>
    simp only [step, takeStep] at hs
    split at hs
    · rename_i m ms hw hm
      have hmt := h.msgs m (by rw [hm]; simp)
      have hmm : ∀ m' ∈ ms, m' ∈ s.msgs := by intro m' h'; rw [hm]; simp [h']
      cases m with
      | exportLog =>
        injection hs with hs; subst hs
        exact flushInv_worker h hi rfl rfl rfl rfl rfl hmm rfl (fun q hq => Or.inl hq) (by simp [Worker.tok])
          (by simp [Worker.looping]) (by simp [Worker.answering])
      | forceFlush tok =>
        injection hs with hs; subst hs
        exact flushInv_worker h hi rfl rfl rfl rfl rfl hmm rfl (fun q hq => Or.inl hq)
          (by simpa [Worker.tok, Otel.Sdk.Bsp.Cont.tok, Msg.tok] using hmt) (by simp [Worker.looping]) (by simp [Worker.answering])
      | shutdown tok =>
        injection hs with hs; subst hs
        exact flushInv_worker h hi rfl rfl rfl rfl rfl hmm rfl (fun q hq => Or.inl hq)
          (by simpa [Worker.tok, Otel.Sdk.Bsp.Cont.tok, Msg.tok] using hmt) (by simp [Worker.looping]) (by simp [Worker.answering])
      | setResource r =>
        injection hs with hs; subst hs
        exact flushInv_worker h hi rfl rfl rfl rfl rfl hmm rfl (fun q hq => Or.inl hq)
          (by simp [Worker.tok, hw]) (by simp [Worker.looping, hw]) (by simp [Worker.answering, hw])
    · cases hs
  | timer =>
    simp only [step, timerStep] at hs
    split at hs
    · injection hs with hs; subst hs
      exact flushInv_worker h hi rfl rfl rfl rfl rfl (fun m hm => hm) rfl (fun q hq => Or.inl hq)
        (by simp [Worker.tok, Otel.Sdk.Bsp.Cont.tok]) (by simp [Worker.looping]) (by simp [Worker.answering])
    · cases hs
  | work ok => exact flushInv_work hcap h hs
  | setResource r =>
    injection hs with hs; subst hs
    unfold setResourceStep at hi ⊢; split
    · rename_i hc; rw [if_pos hc] at hi
      constructor
      case msgs =>
        intro m hm
        rcases List.mem_append.1 hm with hm | hm
        · exact h.msgs m hm
        · simp at hm; subst hm; simp [Msg.tok]
      case base => exact hi
      all_goals first | exact h.past | exact h.threads | exact h.replies | exact h.joining | exact h.returned | (cases h; assumption)
    · exact h

theorem flushInv_reachable {cfg : Cfg} (hcap : cfg.maxQueue < 2 ^ 64) {s : State X} (h : Reachable cfg s) : FlushInv cfg s := by
  induction h with
  | init => exact flushInv_init cfg
  | step _ hs ih => exact flushInv_step hcap ih hs

/-- **C34 (what a flush guarantees)** When `force_flush` or `shutdown` has returned the worker's result, all records accepted before
the call have been handed to the exporter, except at most as many as there were emits between `try_send` and `fetch_add` when the
worker began to serve the call. -/
theorem flush_exports_but_inflight (cfg : Cfg) (hcap : cfg.maxQueue < 2 ^ 64) (s : State X) (h : Reachable cfg s) (tok : Nat) (r : Res)
    (p : Nat) (hr : (tok, Ret.result r, p) ∈ s.returned) : s.atCall tok ≤ s.exported.flatten.length + p :=
  ((flushInv_reachable hcap h).returned tok r p hr).2

/-- **C34 (partial)** If no emit was in between at that moment, every record accepted before the call has been handed to the
exporter, in order. -/
theorem flush_exports_all_partial (cfg : Cfg) (hcap : cfg.maxQueue < 2 ^ 64) (s : State X) (h : Reachable cfg s) (tok : Nat) (r : Res)
    (hr : (tok, Ret.result r, 0) ∈ s.returned) : s.accepted.take (s.atCall tok) <+: s.exported.flatten := by
  have h1 := flush_exports_but_inflight cfg hcap s h tok r 0 hr
  have h2 := (inv_reachable h).conserved
  rw [h2, List.append_assoc, List.take_append_of_le_length (by omega)]
  exact List.take_prefix _ _

/-- What `p` is: the number of threads between their `try_send` and their `fetch_add`, in the state in which the worker reads the
counter. -/
theorem inflight_counts (cfg : Cfg) (s s' : State X) (h : Reachable cfg s) (k : Cont) (hw : s.worker = .load k) (ok : Bool)
    (hs : step cfg s (.work ok) = some s') :
    ∃ j, s'.worker = .test j ∧ j.p = s.pending.length ∧ s.pending.Nodup ∧ ∀ t, t ∈ s.pending ↔ ∃ x, s.threads t = .emit1 x := by
  simp only [step, workStep, hw] at hs
  injection hs with hs; subst hs
  refine ⟨_, rfl, rfl, (inv_reachable h).pendingNodup, ?_⟩
  intro t
  rw [(inv_reachable h).pendingIff t]
  cases s.threads t <;> simp [Pc.adding]

/-! ## After shutdown -/

/-- The worker is past `exporter.shutdown()`. -/
def Worker.closed : Worker X → Bool
  | .reply j => match j.k with
    | .shut _ => true
    | _ => false
  | .exiting => true
  | .done => true
  | _ => false

theorem closed_next (j : Job) : (j.next : Worker X).closed = false := by
  simp only [Job.next]
  split
  · rfl
  · rename_i hk; simp [Worker.closed, hk]
  · rfl

theorem closed_step {cfg : Cfg} {s s' : State X} {a : Action X} (hs : step cfg s a = some s') :
    (s.worker.closed = true → s'.worker.closed = true ∧ s'.exported = s.exported ∧ s'.exporterShutdowns = s.exporterShutdowns) ∧
    (s.worker.closed = false → (s'.worker.closed = false ∧ s'.exporterShutdowns = s.exporterShutdowns) ∨
      s'.exporterShutdowns = s.exporterShutdowns + 1 ∧ ∃ j, s.worker = .closing j ∧ s'.worker = .reply j) := by
  cases a with
  | call t c =>
    simp only [step, callStep] at hs
    cases_step hs
    all_goals first
      | (cases hs; done)
      | (injection hs with hs; subst hs; exact ⟨fun h => ⟨h, rfl, rfl⟩, fun h => Or.inl ⟨h, rfl⟩⟩)
  | thread t =>
    simp only [step, threadStep] at hs
    cases_step hs
    all_goals first
      | (cases hs; done)
      | (injection hs with hs; subst hs; exact ⟨fun h => ⟨h, rfl, rfl⟩, fun h => Or.inl ⟨h, rfl⟩⟩)
  | timeout t =>
    simp only [step, timeoutStep] at hs
    cases_step hs
    all_goals first
      | (cases hs; done)
      | (injection hs with hs; subst hs; exact ⟨fun h => ⟨h, rfl, rfl⟩, fun h => Or.inl ⟨h, rfl⟩⟩)
  | take =>
    simp only [step, takeStep] at hs
    split at hs
    · rename_i m ms hw hm
      rw [hw]
      cases m <;> (injection hs with hs; subst hs; exact ⟨fun h => by simp [Worker.closed] at h, fun _ => Or.inl ⟨by simp [Worker.closed, hw], rfl⟩⟩)
    · cases hs
  | timer =>
    simp only [step, timerStep] at hs
    split at hs
    · rename_i hw
      rw [hw]
      injection hs with hs; subst hs; exact ⟨fun h => by simp [Worker.closed] at h, fun _ => Or.inl ⟨rfl, rfl⟩⟩
    · cases hs
  | work ok =>
    simp only [step, workStep] at hs
    split at hs
    · cases hs
    · rename_i hw; rw [hw]
      injection hs with hs; subst hs; exact ⟨fun h => by simp [Worker.closed] at h, fun _ => Or.inl ⟨rfl, rfl⟩⟩
    · rename_i hw; rw [hw]
      injection hs with hs; subst hs; exact ⟨fun h => by simp [Worker.closed] at h, fun _ => Or.inl ⟨rfl, rfl⟩⟩
    · rename_i hw; rw [hw]
      split at hs
      · injection hs with hs; subst hs; exact ⟨fun h => by simp [Worker.closed] at h, fun _ => Or.inl ⟨rfl, rfl⟩⟩
      · injection hs with hs; subst hs; exact ⟨fun h => by simp [Worker.closed] at h, fun _ => Or.inl ⟨closed_next _, rfl⟩⟩
    · rename_i hw; rw [hw]
      cases_step hs <;>
        (injection hs with hs; subst hs; exact ⟨fun h => by simp [Worker.closed] at h, fun _ => Or.inl ⟨rfl, rfl⟩⟩)
    · rename_i hw; rw [hw]
      split at hs <;>
        (injection hs with hs; subst hs; exact ⟨fun h => by simp [Worker.closed] at h, fun _ => Or.inl ⟨rfl, rfl⟩⟩)
    · rename_i hw; rw [hw]
      injection hs with hs; subst hs; exact ⟨fun h => by simp [Worker.closed] at h, fun _ => Or.inl ⟨rfl, rfl⟩⟩
    · rename_i j hw; rw [hw]
      injection hs with hs; subst hs; exact ⟨fun h => by simp [Worker.closed] at h, fun _ => Or.inr ⟨rfl, j, rfl, rfl⟩⟩
    · rename_i j hw; rw [hw]
      split at hs
      · cases hs
      · rename_i hk
        injection hs with hs; subst hs; exact ⟨fun h => by simp [Worker.closed, hk] at h, fun _ => Or.inl ⟨rfl, rfl⟩⟩
      · rename_i hk
        injection hs with hs; subst hs; exact ⟨fun _ => ⟨rfl, rfl, rfl⟩, fun h => by simp [Worker.closed, hk] at h⟩
    · rename_i hw; rw [hw]
      injection hs with hs; subst hs; exact ⟨fun _ => ⟨rfl, rfl, rfl⟩, fun h => by simp [Worker.closed] at h⟩
    · cases hs
  | setResource r =>
    injection hs with hs; subst hs
    unfold setResourceStep; split <;> exact ⟨fun h => ⟨h, rfl, rfl⟩, fun h => Or.inl ⟨h, rfl⟩⟩

/-- The worker reaches `exporter.shutdown()` only for a shutdown message. -/
theorem closing_is_shut {cfg : Cfg} {s : State X} (h : Reachable cfg s) :
    (∀ j, s.worker = .closing j → ∃ tok, j.k = .shut tok) ∧ s.exporterShutdowns = s.worker.closed.toNat := by
  induction h with
  | init => exact ⟨by simp [State.init], rfl⟩
  | @step s s' a _ hs ih =>
    obtain ⟨h1, h2⟩ := ih
    have hc := closed_step hs
    constructor
    · intro j hj
      cases a with
      | work ok =>
        simp only [step, workStep] at hs
        cases_step hs
        all_goals first
          | (cases hs; done)
          | (injection hs with hs; subst hs; simp at hj; done)
          | (injection hs with hs; subst hs
             simp only [Job.next] at hj
             split at hj <;> simp at hj
             rename_i hk
             subst hj
             exact ⟨_, hk⟩)
      | call t c =>
        simp only [step, callStep] at hs
        cases_step hs
        all_goals first | (cases hs; done) | (injection hs with hs; subst hs; exact h1 j hj)
      | thread t =>
        simp only [step, threadStep] at hs
        cases_step hs
        all_goals first | (cases hs; done) | (injection hs with hs; subst hs; exact h1 j hj)
      | timeout t =>
        simp only [step, timeoutStep] at hs
        cases_step hs
        all_goals first | (cases hs; done) | (injection hs with hs; subst hs; exact h1 j hj)
      | take =>
        simp only [step, takeStep] at hs
        cases_step hs
        all_goals first | (cases hs; done) | (injection hs with hs; subst hs; simp at hj; done) | (injection hs with hs; subst hs; exact h1 j hj)
      | timer =>
        simp only [step, timerStep] at hs
        cases_step hs
        all_goals first | (cases hs; done) | (injection hs with hs; subst hs; simp at hj)
      | setResource r =>
        injection hs with hs; subst hs
        revert hj; unfold setResourceStep; split <;> exact h1 j
    · cases hcl : s.worker.closed with
      | true =>
        obtain ⟨h3, _, h4⟩ := hc.1 hcl
        rw [h4, h2, hcl, h3]
      | false =>
        rcases hc.2 hcl with ⟨h3, h4⟩ | ⟨h3, j, hj, hj'⟩
        · rw [h4, h2, hcl, h3]
        · obtain ⟨tok, hk⟩ := h1 j hj
          rw [h3, h2, hcl, hj']
          simp [Worker.closed, hk]

/-- **C34 (exporter)** The exporter is shut down at most once, and after it has been, nothing more is exported, in any later
state. -/
theorem nothing_after_exporter_shutdown (cfg : Cfg) (s s' : State X) (h : Reachable cfg s) (hl : Later cfg s s') :
    s.exporterShutdowns ≤ 1 ∧ (s.exporterShutdowns = 1 → s'.exported = s.exported ∧ s'.exporterShutdowns = 1) := by
  have h0 := (closing_is_shut h).2
  refine ⟨by rw [h0]; cases s.worker.closed <;> simp, ?_⟩
  intro h1
  have hcl : s.worker.closed = true := by
    cases hc : s.worker.closed with
    | true => rfl
    | false => rw [h0, hc] at h1; simp at h1
  have : s'.worker.closed = true ∧ s'.exported = s.exported ∧ s'.exporterShutdowns = s.exporterShutdowns := by
    induction hl with
    | refl => exact ⟨hcl, rfl, rfl⟩
    | step _ hs ih =>
      obtain ⟨a, b, c⟩ := ih
      obtain ⟨a', b', c'⟩ := (closed_step hs).1 a
      exact ⟨a', b'.trans b, c'.trans c⟩
  exact ⟨this.2.1, this.2.2.trans h1⟩

/-- **C34 (shutdown completes)** When `shutdown` returns the worker's result the worker has ended and the exporter has been shut
down. -/
theorem shutdown_completes (cfg : Cfg) (s s' : State X) (h : Reachable cfg s) (t tok p : Nat) (hpc : s.threads t = .shutJoin tok p)
    (hs : step cfg s (.thread t) = some s') : s'.worker = .done ∧ s'.exporterShutdowns = 1 := by
  have h0 := (closing_is_shut h).2
  simp only [step, threadStep, hpc] at hs
  split at hs
  · rename_i hw
    injection hs with hs; subst hs
    rw [hw] at h0
    exact ⟨hw, h0⟩
  · cases hs

/-! ## Schedules that break the stronger claims -/

theorem reachable_runAll {cfg : Cfg} {s s' : State X} (h : Reachable cfg s) (as : List (Action X))
    (hr : runAll cfg s as = some s') : Reachable cfg s' := by
  induction as generalizing s with
  | nil => simp [runAll] at hr; subst hr; exact h
  | cons a as ih =>
    simp only [runAll] at hr
    split at hr
    · rename_i s1 hs1; exact ih (.step h hs1) hr
    · cases hr

/-- Thread `t` emits `x`, below the batch size or with the message already sent. -/
def emitQuiet (t x : Nat) : List (Action Nat) := [.call t (.emit x), .thread t, .thread t]

theorem later_runAll {cfg : Cfg} {s s' : State X} (as : List (Action X)) (hr : runAll cfg s as = some s') : Later cfg s s' := by
  have : ∀ (as : List (Action X)) (s1 : State X), Later cfg s s1 → runAll cfg s1 as = some s' → Later cfg s s' := by
    intro as
    induction as with
    | nil => intro s1 h hr; simp [runAll] at hr; subst hr; exact h
    | cons a as ih =>
      intro s1 h hr
      simp only [runAll] at hr
      split at hr
      · rename_i s2 hs2; exact ih s2 (.step h hs2) hr
      · cases hr
  exact this as s .refl hr

theorem runAll_append {cfg : Cfg} {s : State X} (as bs : List (Action X)) :
    runAll cfg s (as ++ bs) = (runAll cfg s as).bind fun s' => runAll cfg s' bs := by
  induction as generalizing s with
  | nil => rfl
  | cons a as ih =>
    simp only [List.cons_append, runAll]
    split
    · exact ih
    · rfl

/-- Thread 0 has sent record 1 but not yet counted it; thread 1 emits record 2, and the worker serves the message thread 1 sent.
Batch size 1. -/
def missSchedule : List (Action Nat) :=
  [.call 0 (.emit 1), .thread 0] ++ emitQuiet 1 2 ++ [.thread 1, .thread 1, .thread 1]
    ++ [.take, .work true, .work true, .work true, .work true, .work true, .work true, .work true]

/-- Thread 2 flushes. -/
def missFlush : List (Action Nat) := [.call 2 .forceFlush, .thread 2, .take, .work true, .work true, .work true, .thread 2]

/-- **C34 (missed record, violated)** In `s0` the emit of record 2 has returned. Then `force_flush` is called, and returns Ok;
record 2 has not been exported. Another thread was inside `emit`. -/
theorem flush_misses_violated : ∃ s0 s : State Nat, Reachable ⟨1, 10⟩ s0 ∧ s0.accepted = [1, 2] ∧ s0.threads 1 = .idle ∧
    s0.returned = [] ∧ s0.nextTok = 0 ∧ Later ⟨1, 10⟩ s0 s ∧ s.returned = [(0, Ret.result .ok, 1)] ∧ s.exported = [[1]] ∧ s.queue = [2] := by
  have h : (runAll ⟨1, 10⟩ State.init missSchedule).map (fun s => (s.accepted, s.threads 1, s.returned, s.nextTok))
      = some ([1, 2], .idle, [], 0) := by rfl
  have h' : (runAll ⟨1, 10⟩ State.init (missSchedule ++ missFlush)).map (fun s => (s.returned, s.exported, s.queue))
      = some ([(0, Ret.result .ok, 1)], [[1]], [2]) := by rfl
  obtain ⟨s0, hs0, he0⟩ := Option.map_eq_some_iff.1 h
  obtain ⟨s, hs, he⟩ := Option.map_eq_some_iff.1 h'
  rw [runAll_append, hs0] at hs
  simp only [Prod.mk.injEq] at he he0
  exact ⟨s0, s, reachable_runAll .init _ hs0, he0.1, he0.2.1, he0.2.2.1, he0.2.2.2, later_runAll _ hs, he.1, he.2.1, he.2.2⟩

/-! ## A wrapped counter stops the worker for good -/

/-- The worker is inside `get_logs_and_export` with this goal. -/
def Stuck (tok base target : Nat) (s : State X) : Prop :=
  ∃ j, s.worker.looping = some j ∧ j.k = .flush tok ∧ j.base = base ∧ j.target = target ∧ s.exportedCount = j.base + j.total

theorem stuck_step {cfg : Cfg} {tok base target : Nat} {s s' : State X} {a : Action X} (h : Stuck tok base target s)
    (hg : s.exportedCount < base + target) (hs : step cfg s a = some s') :
    Stuck tok base target s' ∧ s'.replies = s.replies ∧ s.exportedCount ≤ s'.exportedCount := by
  obtain ⟨j, hj, hk, hb, ht, he⟩ := h
  cases a with
  | call t c =>
    simp only [step, callStep] at hs
    cases_step hs
    all_goals first
      | (cases hs; done)
      | (injection hs with hs; subst hs; exact ⟨⟨j, hj, hk, hb, ht, he⟩, rfl, Nat.le_refl _⟩)
  | thread t =>
    simp only [step, threadStep] at hs
    cases_step hs
    all_goals first
      | (cases hs; done)
      | (injection hs with hs; subst hs; exact ⟨⟨j, hj, hk, hb, ht, he⟩, rfl, Nat.le_refl _⟩)
  | timeout t =>
    simp only [step, timeoutStep] at hs
    cases_step hs
    all_goals first
      | (cases hs; done)
      | (injection hs with hs; subst hs; exact ⟨⟨j, hj, hk, hb, ht, he⟩, rfl, Nat.le_refl _⟩)
  | take =>
    simp only [step, takeStep] at hs
    split at hs
    · rename_i hw _; rw [hw] at hj; cases hj
    · cases hs
  | setResource r =>
    injection hs with hs; subst hs
    unfold setResourceStep; split <;> exact ⟨⟨j, hj, hk, hb, ht, he⟩, rfl, Nat.le_refl _⟩
  | timer =>
    simp only [step, timerStep] at hs
    split at hs
    · rename_i hw; rw [hw] at hj; cases hj
    · cases hs
  | work ok =>
    simp only [step, workStep] at hs
    split at hs
    all_goals first
      | (cases hs; done)
      | (rename_i hw; rw [hw] at hj; cases hj; done)
      | skip
    · rename_i j' hw
      rw [hw] at hj; injection hj with hj; subst hj
      split at hs
      · injection hs with hs; subst hs
        exact ⟨⟨_, rfl, hk, hb, ht, he⟩, rfl, Nat.le_refl _⟩
      · omega
    · rename_i j' buf hw
      rw [hw] at hj; injection hj with hj; subst hj
      cases_step hs <;>
      · injection hs with hs; subst hs
        exact ⟨⟨_, rfl, hk, hb, ht, he⟩, rfl, Nat.le_refl _⟩
    · rename_i j' buf hw
      rw [hw] at hj; injection hj with hj; subst hj
      split at hs
      · injection hs with hs; subst hs
        exact ⟨⟨_, rfl, hk, hb, ht, he⟩, rfl, Nat.le_refl _⟩
      · injection hs with hs; subst hs
        have hex : (s.exported ++ [buf]).flatten.length = s.exportedCount + buf.length := by simp [State.exportedCount]
        refine ⟨⟨_, rfl, hk, hb, ht, ?_⟩, rfl, ?_⟩
        · show (s.exported ++ [buf]).flatten.length = j'.base + (j'.total + buf.length)
          omega
        · show s.exportedCount ≤ (s.exported ++ [buf]).flatten.length
          omega
    · rename_i j' n hw
      rw [hw] at hj; injection hj with hj; subst hj
      injection hs with hs; subst hs
      exact ⟨⟨_, rfl, hk, hb, ht, he⟩, rfl, Nat.le_refl _⟩

/-- While the worker has a goal it cannot reach, no call gets an answer. -/
theorem stuck_later {cfg : Cfg} {tok base target : Nat} {s s' : State X} (h : Stuck tok base target s) (hl : Later cfg s s')
    (hg : s'.exportedCount < base + target) : Stuck tok base target s' ∧ s'.replies = s.replies := by
  have : ∀ s', Later cfg s s' → s'.exportedCount < base + target →
      Stuck tok base target s' ∧ s'.replies = s.replies := by
    intro s' hl
    induction hl with
    | refl => exact fun _ => ⟨h, rfl⟩
    | @step s1 s2 a _ hs ih =>
      intro hg
      have hmono : s1.exportedCount ≤ s2.exportedCount := by
        cases a with
        | work ok =>
          simp only [step, workStep] at hs
          cases_step hs
          all_goals first
            | (cases hs; done)
            | (injection hs with hs; subst hs; exact Nat.le_refl _)
            | (injection hs with hs; subst hs; simp [State.exportedCount])
        | call t c =>
          simp only [step, callStep] at hs
          cases_step hs
          all_goals first | (cases hs; done) | (injection hs with hs; subst hs; exact Nat.le_refl _)
        | setResource r =>
          injection hs with hs; subst hs
          unfold setResourceStep; split <;> exact Nat.le_refl _
        | thread t =>
          simp only [step, threadStep] at hs
          cases_step hs
          all_goals first | (cases hs; done) | (injection hs with hs; subst hs; exact Nat.le_refl _)
        | timeout t =>
          simp only [step, timeoutStep] at hs
          cases_step hs
          all_goals first | (cases hs; done) | (injection hs with hs; subst hs; exact Nat.le_refl _)
        | take =>
          simp only [step, takeStep] at hs
          cases_step hs
          all_goals first | (cases hs; done) | (injection hs with hs; subst hs; exact Nat.le_refl _)
        | timer =>
          simp only [step, timerStep] at hs
          cases_step hs
          all_goals first | (cases hs; done) | (injection hs with hs; subst hs; exact Nat.le_refl _)
      obtain ⟨h1, h2⟩ := ih (by omega)
      obtain ⟨h3, h4, _⟩ := stuck_step h1 (by omega) hs
      exact ⟨h3, h4.trans h2⟩
  exact this s' hl hg

/-- Thread 0 emits record 1; thread 1 has sent record 2 and not counted it; thread 2 flushes, which drains both and subtracts 2 from
1; thread 2 flushes again. -/
def wrapSchedule : List (Action Nat) :=
  emitQuiet 0 1 ++ [.call 1 (.emit 2), .thread 1]
    ++ [.call 2 .forceFlush, .thread 2, .take, .work true, .work true, .work true, .work true, .work true, .work true, .work true,
        .work true, .work true, .thread 2]
    ++ [.call 2 .forceFlush, .thread 2, .take, .work true, .work true]

/-- **C34 (worker stuck, violated)** Two emits and two flushes lead to a state from which the second flush, and every later call of
`force_flush` or `shutdown`, is never answered, in any continuation with fewer than 2^64 - 1 further records. -/
theorem worker_stuck_violated : ∃ s : State Nat, Reachable ⟨10, 10⟩ s ∧ s.accepted = [1, 2] ∧ s.replies.length = 1 ∧
    s.threads 2 = .flushWait 1 ∧
    ∀ s', Later ⟨10, 10⟩ s s' → s'.accepted.length < 2 ^ 64 - 1 → s'.replies = s.replies ∧ s'.worker ≠ .idle := by
  have h : (runAll ⟨10, 10⟩ State.init wrapSchedule).map (fun s => (s.accepted, s.replies.length, s.threads 2, s.worker, s.exported))
      = some ([1, 2], 1, .flushWait 1, .drain ⟨2 ^ 64 - 1, 0, .ok, .flush 1, 2, 1, []⟩ [], [[1, 2]]) := by rfl
  obtain ⟨s, hs, he⟩ := Option.map_eq_some_iff.1 h
  simp only [Prod.mk.injEq] at he
  obtain ⟨h1, h2, h3, h4, h5⟩ := he
  have hreach := reachable_runAll .init _ hs
  refine ⟨s, hreach, h1, h2, h3, ?_⟩
  intro s' hl hlt
  have hst : Stuck 1 2 (2 ^ 64 - 1) s := ⟨_, by rw [h4]; rfl, rfl, rfl, rfl, by simp [State.exportedCount, h5]⟩
  have hr' : Reachable ⟨10, 10⟩ s' := by
    clear hlt
    induction hl with
    | refl => exact hreach
    | step _ hs ih => exact .step ih hs
  have hle : s'.exportedCount ≤ s'.accepted.length := by
    rw [(inv_reachable hr').conserved]; simp [State.exportedCount]
  obtain ⟨⟨j, hj, _⟩, hrep⟩ := stuck_later hst hl (by omega)
  exact ⟨hrep, by intro hw; rw [hw] at hj; cases hj⟩

/-- **C34 (overflow, violated)** In the same situation the pending `fetch_add` overflows; in `emit` a debug build panics. -/
theorem counter_overflows_violated : ∃ s : State Nat, Reachable ⟨10, 10⟩ s ∧ s.overflowed = true ∧ s.accepted = [1, 2] := by
  have h : (runAll ⟨10, 10⟩ State.init (wrapSchedule ++ [.thread 1])).map (fun s => (s.overflowed, s.accepted)) = some (true, [1, 2]) := by rfl
  obtain ⟨s, hs, he⟩ := Option.map_eq_some_iff.1 h
  simp only [Prod.mk.injEq] at he
  exact ⟨s, reachable_runAll .init _ hs, he.1, he.2⟩

/-! ## C66: what an Ok means -/

/-- A failure is only reported if the exporter reported one. -/
structure ResInv (s : State X) : Prop where
  job : ∀ j, s.worker.looping = some j ∨ s.worker.answering = some j → j.r = .failed → Res.failed ∈ s.answers
  replies : ∀ q ∈ s.replies, q.2.1 = .failed → Res.failed ∈ s.answers
  returned : ∀ tok p, (tok, Ret.result .failed, p) ∈ s.returned → Res.failed ∈ s.answers

theorem resInv_step {cfg : Cfg} {s s' : State X} {a : Action X} (h : ResInv s) (hs : step cfg s a = some s') : ResInv s' := by
  obtain ⟨h1, h2, h3⟩ := h
  cases a with
  | call t c =>
    simp only [step, callStep] at hs
    cases_step hs
    all_goals first | (cases hs; done) | (injection hs with hs; subst hs; exact ⟨h1, h2, h3⟩)
  | timeout t =>
    simp only [step, timeoutStep] at hs
    cases_step hs
    all_goals first | (cases hs; done) | (injection hs with hs; subst hs; exact ⟨h1, h2, by simpa [State.ret] using h3⟩)
  | thread t =>
    simp only [step, threadStep] at hs
    cases_step hs
    all_goals first
      | (cases hs; done)
      | (injection hs with hs; subst hs; exact ⟨h1, h2, h3⟩)
      | (injection hs with hs; subst hs; exact ⟨h1, h2, by simpa [State.ret] using h3⟩)
      | (rename_i q hf
         injection hs with hs; subst hs
         refine ⟨h1, h2, ?_⟩
         intro tok p hk
         simp only [State.ret, List.mem_append, List.mem_singleton, Prod.mk.injEq, Ret.result.injEq] at hk
         rcases hk with hk | ⟨_, hk, _⟩
         · exact h3 tok p hk
         · exact h2 q (List.mem_of_find?_eq_some hf) hk.symm)
  | take =>
    simp only [step, takeStep] at hs
    cases_step hs
    all_goals first
      | (cases hs; done)
      | (injection hs with hs; subst hs; exact ⟨h1, h2, h3⟩)
      | (injection hs with hs; subst hs; exact ⟨by simp [Worker.looping, Worker.answering], h2, h3⟩)
  | setResource r =>
    injection hs with hs; subst hs
    unfold setResourceStep; split <;> exact ⟨h1, h2, h3⟩
  | timer =>
    simp only [step, timerStep] at hs
    cases_step hs
    all_goals first
      | (cases hs; done)
      | (injection hs with hs; subst hs; exact ⟨by simp [Worker.looping, Worker.answering], h2, h3⟩)
  | work ok =>
    simp only [step, workStep] at hs
    split at hs
    · cases hs
    · injection hs with hs; subst hs; exact ⟨by simp [Worker.looping, Worker.answering], h2, h3⟩
    · injection hs with hs; subst hs
      refine ⟨?_, h2, h3⟩
      intro j hj hr
      simp [Worker.looping, Worker.answering] at hj; subst hj; cases hr
    · rename_i j hw
      rw [hw] at h1
      have hj := h1 j (Or.inl rfl)
      split at hs
      · injection hs with hs; subst hs
        refine ⟨?_, h2, h3⟩
        intro j' hj'; simp [Worker.looping, Worker.answering] at hj'; subst hj'; exact hj
      · injection hs with hs; subst hs
        refine ⟨?_, h2, h3⟩
        intro j' hj'
        simp only [Job.next] at hj'
        split at hj' <;> simp [Worker.looping, Worker.answering] at hj' <;> subst hj' <;> exact hj
    · rename_i j buf hw
      rw [hw] at h1
      have hj := h1 j (Or.inl rfl)
      cases_step hs <;>
      · injection hs with hs; subst hs
        refine ⟨?_, h2, h3⟩
        intro j' hj'; simp [Worker.looping, Worker.answering] at hj'; subst hj'; exact hj
    · rename_i j buf hw
      split at hs
      · injection hs with hs; subst hs
        refine ⟨?_, h2, h3⟩
        intro j' hj' hr; simp [Worker.looping, Worker.answering] at hj'; subst hj'; cases hr
      · injection hs with hs; subst hs
        refine ⟨?_, fun q hq hr => List.mem_append_left _ (h2 q hq hr), fun tok p hk => List.mem_append_left _ (h3 tok p hk)⟩
        intro j' hj' hr
        simp [Worker.looping, Worker.answering] at hj'; subst hj'
        exact List.mem_append_right _ (List.mem_singleton.2 (by simp only at hr; exact hr.symm))
    · rename_i j n hw
      rw [hw] at h1
      have hj := h1 j (Or.inl rfl)
      injection hs with hs; subst hs
      refine ⟨?_, h2, h3⟩
      intro j' hj'; simp [Worker.looping, Worker.answering] at hj'; subst hj'; exact hj
    · rename_i j hw
      rw [hw] at h1
      have hj := h1 j (Or.inr rfl)
      injection hs with hs; subst hs
      refine ⟨?_, h2, h3⟩
      intro j' hj'; simp [Worker.looping, Worker.answering] at hj'; subst hj'; exact hj
    · rename_i j hw
      rw [hw] at h1
      have hj := h1 j (Or.inr rfl)
      have hrep : ∀ tok, ∀ q ∈ s.replies ++ [(tok, j.r, j.p)], q.2.1 = .failed → Res.failed ∈ s.answers := by
        intro tok q hq hr
        rcases List.mem_append.1 hq with hq | hq
        · exact h2 q hq hr
        · simp at hq; subst hq; exact hj hr
      split at hs
      · cases hs
      · injection hs with hs; subst hs
        exact ⟨by simp [Worker.looping, Worker.answering], hrep _, h3⟩
      · injection hs with hs; subst hs
        exact ⟨by simp [Worker.looping, Worker.answering], hrep _, h3⟩
    · injection hs with hs; subst hs; exact ⟨by simp [Worker.looping, Worker.answering], h2, h3⟩
    · cases hs

/-- **C66 (partial)** `force_flush` and `shutdown` report an export failure only if an export has failed. Missing: the converse,
refuted below. -/
theorem flush_failure_real_partial (cfg : Cfg) (s : State X) (h : Reachable cfg s) (tok p : Nat)
    (hr : (tok, Ret.result .failed, p) ∈ s.returned) : Res.failed ∈ s.answers := by
  have : ResInv s := by
    clear hr
    induction h with
    | init => exact ⟨by simp [State.init, Worker.looping, Worker.answering], by simp [State.init], by simp [State.init]⟩
    | step _ hs ih => exact resInv_step ih hs
  exact this.returned tok p hr

/-- Two records, batch size 1, one flush: the first batch fails, the second succeeds. -/
def maskSchedule : List (Action Nat) :=
  [.call 0 (.emit 1), .thread 0, .call 1 (.emit 2), .thread 1, .thread 0, .thread 1]
    ++ [.call 2 .forceFlush, .thread 2]
    ++ [.take, .work true, .work true, .work true, .work false, .work true, .work true, .work true, .work true, .work true, .work true,
        .work true, .thread 2]

/-- **C66 (flush, violated)** `force_flush` returns Ok although the export of its first batch failed. -/
theorem flush_masks_failure_violated : ∃ s : State Nat, Reachable ⟨1, 10⟩ s ∧ (0, Ret.result .ok, 0) ∈ s.returned
    ∧ s.exported = [[1], [2]] ∧ s.answers = [.failed, .ok] := by
  have h : (runAll ⟨1, 10⟩ State.init maskSchedule).map (fun s => (s.returned, s.exported, s.answers))
      = some ([(0, Ret.result .ok, 0)], [[1], [2]], [.failed, .ok]) := by rfl
  obtain ⟨s, hs, he⟩ := Option.map_eq_some_iff.1 h
  simp only [Prod.mk.injEq] at he
  exact ⟨s, reachable_runAll .init _ hs, by rw [he.1]; simp, he.2.1, he.2.2⟩

/-- One record, then shutdown, whose export fails. -/
def shutFailSchedule : List (Action Nat) :=
  emitQuiet 0 1 ++ [.call 0 .shutdown, .thread 0, .take, .work true, .work true, .work true, .work true, .work false, .work true,
    .work true, .work true, .work true, .work true, .thread 0, .thread 0]

/-- **C66 (shutdown, violated)** `shutdown` returns Ok although the export it made failed. -/
theorem shutdown_masks_failure_violated : ∃ s : State Nat, Reachable ⟨10, 10⟩ s ∧ (0, Ret.result .ok, 0) ∈ s.returned
    ∧ s.exported = [[1]] ∧ s.answers = [.failed] := by
  have h : (runAll ⟨10, 10⟩ State.init shutFailSchedule).map (fun s => (s.returned, s.exported, s.answers))
      = some ([(0, Ret.result .ok, 0)], [[1]], [.failed]) := by rfl
  obtain ⟨s, hs, he⟩ := Option.map_eq_some_iff.1 h
  simp only [Prod.mk.injEq] at he
  exact ⟨s, reachable_runAll .init _ hs, by rw [he.1]; simp, he.2.1, he.2.2⟩

end Otel.Logs.Blp
