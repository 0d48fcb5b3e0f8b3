import Verif.Async.Batch
import Mathlib.Data.List.Basic
/-!
# Properties of the batch processors on an async runtime (C76, C77)
-/

namespace Otel.Async

variable {X R : Type}

/-! ### Specification -/

/-- All items handed to the exporter, in the order of the exports. -/
def State.delivered (s : State X R) : List X := (s.exported.map Prod.fst).flatten

/-- The call `t` has not returned. -/
def State.waiting (s : State X R) (t : Nat) : Prop := t < s.nextTok ∧ ∀ a ∈ s.returned, a.tok ≠ t

/-! ### Invariants -/

theorem items_append (a b : List (Msg X R)) : items (a ++ b) = items a ++ items b := by
  induction a with
  | nil => rfl
  | cons m a ih => cases m <;> simp [items, ih]

theorem tokens_append (a b : List (Msg X R)) : tokens (a ++ b) = tokens a ++ tokens b := by
  induction a with
  | nil => rfl
  | cons m a ih => cases m <;> simp [tokens, ih]

theorem refuse_none {cfg : Cfg} {s : State X R} (h : s.refuse cfg = none) : s.worker ≠ .done ∧ s.queue.length < cfg.maxQueue := by
  unfold State.refuse at h
  split at h
  · cases h
  · rename_i h1
    split at h
    · exact ⟨h1, ‹_›⟩
    · cases h

/-- Where items are, how many batches there are and how large they are. -/
structure Inv (cfg : Cfg) (s : State X R) : Prop where
  acct : s.accepted = s.delivered ++ s.buf ++ items s.queue ++ s.lost
  alive : s.worker ≠ .done → s.lost = []
  dead : s.worker = .done → s.queue = [] ∧ s.buf = []
  busy : s.worker ≠ .idle → s.buf = []
  cnt : s.dropped + s.counting = s.refused.length
  full : ∀ b ∈ s.exported, b.1 ≠ [] ∧ (0 < cfg.maxBatch → b.1.length ≤ cfg.maxBatch)
  room : 0 < cfg.maxBatch → s.buf.length < cfg.maxBatch
  outc : s.outcomes.length ≤ s.exported.length ∧ s.exported.length ≤ s.outcomes.length + 1
  outcE : ∀ k, s.worker = .exporting k → s.exported.length = s.outcomes.length + 1
  outcI : (∀ k, s.worker ≠ .exporting k) → s.worker ≠ .done → s.exported.length = s.outcomes.length

theorem inv_init (cfg : Cfg) (r : R) : Inv (X := X) cfg (.init r) where
  acct := rfl
  alive _ := rfl
  dead h := by cases h
  busy _ := rfl
  cnt := rfl
  full _ h := by cases h
  room h := h
  outc := ⟨Nat.le_refl _, by simp [State.init]⟩
  outcE k h := by cases h
  outcI _ _ := rfl

theorem inv_after {cfg : Cfg} {s : State X R} {k : Cont} {r : Res} {own : Option Nat} (h : Inv cfg s) (hd : s.worker ≠ .done)
    (hb : s.buf = []) (ho : s.exported.length = s.outcomes.length) : Inv cfg (s.after cfg k r own) := by
  have ha := h.alive hd
  unfold State.after
  split
  all_goals try split
  all_goals
    refine ⟨h.acct, fun _ => ha, fun h' => ?_, fun _ => hb, h.cnt, h.full, h.room, h.outc, fun k h' => ?_, fun _ _ => ho⟩
  all_goals simp at h'

theorem inv_export {cfg : Cfg} {s : State X R} {k : Cont} (h : Inv cfg { s with buf := [], exported := s.exported, accepted := s.delivered ++ items s.queue ++ s.lost })
    (hacct : s.accepted = s.delivered ++ s.buf ++ items s.queue ++ s.lost) (hd : s.worker = .idle)
    (hroom : 0 < cfg.maxBatch → s.buf.length ≤ cfg.maxBatch) : Inv cfg (s.export cfg k) := by
  have ha := h.alive (by simp [hd])
  have ho := h.outcI (by simp [hd]) (by simp [hd])
  unfold State.export
  split
  · rename_i hb
    simp only [List.isEmpty_iff] at hb
    refine inv_after ⟨hacct, fun _ => ha, fun h' => ?_, fun _ => hb, h.cnt, h.full, fun h0 => by rw [hb]; exact h0, h.outc, h.outcE, h.outcI⟩ (by simp [hd]) hb ho
    rw [hd] at h'; cases h'
  · rename_i hb
    simp only [List.isEmpty_iff] at hb
    simp only at ha ho
    refine ⟨?_, fun _ => ha, fun h' => ?_, fun _ => rfl, h.cnt, ?_, fun h0 => h0, ?_, fun k _ => ?_, fun h' => ?_⟩
    · simp only [State.delivered] at hacct
      simp only [State.delivered, hacct, List.map_append, List.flatten_append]
      simp
    · simp at h'
    · intro b hb'
      simp only [List.mem_append, List.mem_singleton] at hb'
      rcases hb' with hb' | hb'
      · exact h.full b hb'
      · subst hb'; exact ⟨hb, hroom⟩
    · simp only [List.length_append, List.length_singleton]; omega
    · simp only [List.length_append, List.length_singleton]; omega
    · simp at h'

theorem inv_step {cfg : Cfg} {sampled : X → Bool} {s s' : State X R} {a : Action X} (h : Inv cfg s) (hs : step cfg sampled s a = some s') : Inv cfg s' := by
  cases a with
  | emit x =>
    simp only [step, Option.some.injEq] at hs
    subst hs
    unfold State.emit
    split
    · exact ⟨h.acct, h.alive, h.dead, h.busy, h.cnt, h.full, h.room, h.outc, h.outcE, h.outcI⟩
    · split
      · rename_i hr
        have hd := (refuse_none hr).1
        refine ⟨?_, h.alive, fun h' => absurd h' hd, h.busy, h.cnt, h.full, h.room, h.outc, h.outcE, h.outcI⟩
        have := h.acct
        rw [h.alive hd] at this
        simp only [h.alive hd, this, items_append]
        simp [items, State.delivered]
      · refine ⟨h.acct, h.alive, h.dead, h.busy, ?_, h.full, h.room, h.outc, h.outcE, h.outcI⟩
        simp only [List.length_append, List.length_singleton]
        have := h.cnt
        omega
  | count =>
    simp only [step] at hs
    split at hs
    · cases hs
    · rename_i h0
      injection hs with hs; subst hs
      refine ⟨h.acct, h.alive, h.dead, h.busy, ?_, h.full, h.room, h.outc, h.outcE, h.outcI⟩
      have := h.cnt
      simp only
      omega
  | forceFlush =>
    simp only [step, Option.some.injEq, State.call] at hs
    subst hs
    split
    · rename_i hr
      have hd := (refuse_none hr).1
      refine ⟨?_, h.alive, fun h' => absurd h' hd, h.busy, h.cnt, h.full, h.room, h.outc, h.outcE, h.outcI⟩
      rw [show items (s.queue ++ [_]) = items s.queue by simp [items_append, items]]
      exact h.acct
    · exact ⟨h.acct, h.alive, h.dead, h.busy, h.cnt, h.full, h.room, h.outc, h.outcE, h.outcI⟩
  | shutdown =>
    simp only [step, Option.some.injEq, State.call] at hs
    subst hs
    split
    · rename_i hr
      have hd := (refuse_none hr).1
      refine ⟨?_, h.alive, fun h' => absurd h' hd, h.busy, h.cnt, h.full, h.room, h.outc, h.outcE, h.outcI⟩
      rw [show items (s.queue ++ [_]) = items s.queue by simp [items_append, items]]
      exact h.acct
    · exact ⟨h.acct, h.alive, h.dead, h.busy, h.cnt, h.full, h.room, h.outc, h.outcE, h.outcI⟩
  | recv =>
    simp only [step] at hs
    split at hs
    case h_2 => cases hs
    rename_i m q hw hq
    injection hs with hs; subst hs
    have hacct := h.acct
    have hl := h.alive (by simp [hw])
    rw [hq, hl] at hacct
    cases m with
    | item x =>
      simp only [items, State.process] at hacct ⊢
      split
      · rename_i hfull
        refine inv_export ⟨?_, fun _ => hl, fun h' => ?_, fun h' => rfl, h.cnt, h.full, fun h0 => h0, h.outc, h.outcE, h.outcI⟩ ?_ hw ?_
        · simp [State.delivered]
        · simp [hw] at h'
        · simp only [hacct, hl]; simp [State.delivered]
        · intro _; exact Nat.le_of_eq hfull
      · rename_i hfull
        refine ⟨?_, fun _ => hl, fun h' => ?_, fun h' => ?_, h.cnt, h.full, fun h0 => ?_, h.outc, h.outcE, h.outcI⟩
        · simp only [hacct, hl]; simp [State.delivered]
        · simp [hw] at h'
        · exact absurd hw h'
        · have := h.room h0
          simp only [List.length_append, List.length_singleton] at hfull ⊢
          omega
    | flush t =>
      simp only [items, State.process] at hacct ⊢
      refine inv_export ⟨by simp [State.delivered], fun _ => hl, fun h' => ?_, fun h' => rfl, h.cnt, h.full, fun h0 => h0, h.outc, h.outcE, h.outcI⟩ ?_ hw ?_
      · simp [hw] at h'
      · simp only [hacct, hl]; simp [State.delivered]
      · intro h0; exact Nat.le_of_lt (h.room h0)
    | shutdown t =>
      simp only [items, State.process] at hacct ⊢
      refine inv_export ⟨by simp [State.delivered], fun _ => hl, fun h' => ?_, fun h' => rfl, h.cnt, h.full, fun h0 => h0, h.outc, h.outcE, h.outcI⟩ ?_ hw ?_
      · simp [hw] at h'
      · simp only [hacct, hl]; simp [State.delivered]
      · intro h0; exact Nat.le_of_lt (h.room h0)
    | setResource r =>
      simp only [items, State.process] at hacct ⊢
      refine ⟨?_, fun _ => hl, fun h' => ?_, fun h' => absurd hw h', h.cnt, h.full, h.room, h.outc, h.outcE, h.outcI⟩
      · simp only [hacct, hl]; simp [State.delivered]
      · simp [hw] at h'
  | tick =>
    simp only [step] at hs
    split at hs
    case h_2 => cases hs
    rename_i hw
    injection hs with hs; subst hs
    have hl := h.alive (by simp [hw])
    refine inv_export ⟨by simp [State.delivered], fun _ => hl, fun h' => ?_, fun h' => rfl, h.cnt, h.full, fun h0 => h0, h.outc, h.outcE, h.outcI⟩ h.acct hw ?_
    · simp [hw] at h'
    · intro h0; exact Nat.le_of_lt (h.room h0)
  | finish r =>
    simp only [step] at hs
    split at hs
    case h_2 => cases hs
    rename_i k hw
    injection hs with hs; subst hs
    have hd : s.worker ≠ .done := by simp [hw]
    have hE := h.outcE k hw
    have hb := h.busy (by simp [hw])
    have key : Inv cfg { s with outcomes := s.outcomes ++ [r], worker := .idle } := by
      refine ⟨h.acct, fun _ => h.alive hd, fun h' => by simp at h', fun h' => hb, h.cnt, h.full, h.room, ?_, fun k h' => by simp at h', fun _ _ => ?_⟩
      · simp only [List.length_append, List.length_singleton]; omega
      · simp only [List.length_append, List.length_singleton]; omega
    have := inv_after (k := k) (r := r) (own := some s.outcomes.length) key (by simp) hb (by simp [hE])
    rw [show State.after cfg { s with outcomes := s.outcomes ++ [r] } k r (some s.outcomes.length)
      = State.after cfg { s with outcomes := s.outcomes ++ [r], worker := .idle } k r (some s.outcomes.length) by
        cases k <;> simp only [State.after]]
    exact this
  | stop =>
    simp only [step] at hs
    split at hs
    case h_3 => cases hs
    all_goals
      rename_i hw
      injection hs with hs; subst hs
      have hd : s.worker ≠ .done := by simp [hw]
      refine ⟨h.acct, fun _ => h.alive hd, fun h' => by simp at h', fun h' => h.busy (by simp [hw]), h.cnt, h.full, h.room, h.outc, fun k h' => by simp at h', fun _ _ => ?_⟩
      exact h.outcI (by simp [hw]) hd
  | close =>
    simp only [step] at hs
    split at hs
    case h_2 => cases hs
    rename_i hw
    injection hs with hs; subst hs
    have hl := h.alive (by simp [hw])
    refine ⟨?_, fun h' => absurd rfl h', fun _ => ⟨rfl, rfl⟩, fun _ => rfl, h.cnt, h.full, fun h0 => h0, h.outc, fun k h' => by simp [State.drop] at h', fun _ h' => absurd rfl h'⟩
    have := h.acct
    simp only [State.drop, State.delivered, items, hl, this]
    simp
  | die =>
    simp only [step] at hs
    split at hs
    case h_1 => cases hs
    rename_i hw
    injection hs with hs; subst hs
    have hl := h.alive hw
    refine ⟨?_, fun h' => absurd rfl h', fun _ => ⟨rfl, rfl⟩, fun _ => rfl, h.cnt, h.full, fun h0 => h0, h.outc, fun k h' => by simp [State.drop] at h', fun _ h' => absurd rfl h'⟩
    have := h.acct
    simp only [State.drop, State.delivered, items, hl, this]
    simp

theorem inv_reachable {cfg : Cfg} {sampled : X → Bool} {r : R} {s : State X R} (h : Reachable cfg sampled r s) : Inv cfg s := by
  induction h with
  | init => exact inv_init cfg r
  | step _ hs ih => exact inv_step ih hs

/-! Calls -/

/-- The control messages of a queue: `n` items come before it. -/
def QueueOk (at_ : Nat → Nat) (shut : Nat → Bool) : Nat → List (Msg X R) → Prop
  | _, [] => True
  | n, .item _ :: q => QueueOk at_ shut (n + 1) q
  | n, .flush t :: q => at_ t = n ∧ shut t = false ∧ QueueOk at_ shut n q
  | n, .shutdown t :: q => at_ t = n ∧ shut t = true ∧ QueueOk at_ shut n q
  | n, .setResource _ :: q => QueueOk at_ shut n q

theorem queueOk_append (at_ : Nat → Nat) (shut : Nat → Bool) (n : Nat) (a b : List (Msg X R)) :
    QueueOk at_ shut n (a ++ b) ↔ QueueOk at_ shut n a ∧ QueueOk at_ shut (n + (items a).length) b := by
  induction a generalizing n with
  | nil => simp [QueueOk, items]
  | cons m a ih =>
    cases m with
    | item x =>
      simp only [List.cons_append, QueueOk, items, List.length_cons, ih]
      rw [show n + 1 + (items a).length = n + ((items a).length + 1) by omega]
    | flush t => simp only [List.cons_append, QueueOk, items, ih, and_assoc]
    | shutdown t => simp only [List.cons_append, QueueOk, items, ih, and_assoc]
    | setResource r => simp only [List.cons_append, QueueOk, items, ih]

theorem queueOk_congr {at_ at' : Nat → Nat} {shut shut' : Nat → Bool} {n : Nat} {q : List (Msg X R)}
    (h : ∀ t ∈ tokens q, at' t = at_ t ∧ shut' t = shut t) (hq : QueueOk at_ shut n q) : QueueOk at' shut' n q := by
  induction q generalizing n with
  | nil => trivial
  | cons m q ih =>
    cases m with
    | item x => exact ih h hq
    | flush t =>
      obtain ⟨h1, h2, h3⟩ := hq
      have := h t (by simp [tokens])
      exact ⟨by rw [this.1, h1], by rw [this.2, h2], ih (fun u hu => h u (by simp [tokens, hu])) h3⟩
    | shutdown t =>
      obtain ⟨h1, h2, h3⟩ := hq
      have := h t (by simp [tokens])
      exact ⟨by rw [this.1, h1], by rw [this.2, h2], ih (fun u hu => h u (by simp [tokens, hu])) h3⟩
    | setResource r => exact ih h hq

/-- The items of the first `n` exports. -/
def State.deliveredBy (s : State X R) (n : Nat) : List X := ((s.exported.take n).map Prod.fst).flatten

/-- An answer `r` to call `t` tells the truth: it was given after exports had carried all items accepted before the call, and is the outcome of the last
of them, or `ok` when there was nothing left to export. -/
def Honest (s : State X R) (t : Nat) (r : Res) (own : Option Nat) : Prop :=
  ∃ n, n ≤ s.outcomes.length ∧ (s.deliveredBy n).length = s.atCall t ∧
    (own = none → r = .ok) ∧ ∀ i, own = some i → n = i + 1 ∧ s.outcomes[i]? = some r

theorem honest_mono {s s' : State X R} {t : Nat} {r : Res} {own : Option Nat} {o : List Res} {e : List (List X × Option R)} (h : Honest s t r own)
    (ho : s'.outcomes = s.outcomes ++ o) (he : s'.exported = s.exported ++ e) (hl : s.outcomes.length ≤ s.exported.length)
    (ha : s'.atCall t = s.atCall t) : Honest s' t r own := by
  obtain ⟨n, h1, h2, h3, h4⟩ := h
  refine ⟨n, ?_, ?_, h3, fun i hi => ⟨(h4 i hi).1, ?_⟩⟩
  · rw [ho, List.length_append]; omega
  · rw [State.deliveredBy, he, List.take_append_of_le_length (by omega), ha]; exact h2
  · have h5 := (h4 i hi).2
    rw [ho, List.getElem?_append_left (by have := (h4 i hi).1; omega)]; exact h5

/-- The task is past its last export. -/
def Worker.past : Worker → Bool
  | .stopping _ => true
  | .ending => true
  | .done => true
  | _ => false

/-- How often the exporter has been shut down when the task is here. -/
def Worker.stopsOk : Worker → Nat → Prop
  | .ending, n => n = 1
  | .done, n => n ≤ 1
  | _, n => n = 0

/-- Calls and answers. -/
structure InvT (cfg : Cfg) (s : State X R) : Prop where
  perm : (tokens s.queue ++ s.worker.serving ++ s.returned.map Answer.tok).Perm (List.range s.nextTok)
  pos : QueueOk s.atCall s.isShutdown (s.delivered.length + s.buf.length) s.queue
  serv : ∀ t ∈ s.worker.serving, s.atCall t = s.delivered.length
  kindF : ∀ t, s.worker = .exporting (.flush t) → s.isShutdown t = false
  ans : ∀ a ∈ s.returned, ∀ r, a.ret = .result r → Honest s a.tok r a.own
  stopAns : ∀ t r own, s.worker = .stopping (some (t, r, own)) → Honest s t r own ∧ cfg.kind = .log
  down : ∀ a ∈ s.returned, s.isShutdown a.tok = true → ∀ r, a.ret = .result r →
    s.worker.past = true ∧ (cfg.kind = .log → s.exporterShutdowns = 1)
  stops : s.worker.stopsOk s.exporterShutdowns
  logs : s.worker = .stopping none → cfg.kind = .span

theorem InvT.fresh {cfg : Cfg} {s : State X R} (h : InvT cfg s) {t : Nat} (ht : t ∈ tokens s.queue ++ s.worker.serving ++ s.returned.map Answer.tok) :
    t < s.nextTok := List.mem_range.1 (h.perm.mem_iff.1 ht)

theorem invT_init (cfg : Cfg) (r : R) : InvT (X := X) cfg (.init r) where
  perm := List.Perm.refl _
  pos := trivial
  serv t h := by cases h
  kindF t h := by cases h
  ans a h := by cases h
  stopAns t r own h := by cases h
  down a h := by cases h
  stops := rfl
  logs h := by cases h

/-- The state while the task serves `k`: nothing else is held by the task. -/
def Cont.toks : Cont → List Nat
  | .loop => []
  | .flush t => [t]
  | .shut t => [t]

theorem serving_exporting (k : Cont) : (Worker.exporting k).serving = k.toks := by cases k <;> rfl

theorem invT_after {cfg : Cfg} {s : State X R} {k : Cont} {r : Res} {own : Option Nat}
    (perm : (tokens s.queue ++ k.toks ++ s.returned.map Answer.tok).Perm (List.range s.nextTok))
    (pos : QueueOk s.atCall s.isShutdown (s.delivered.length + s.buf.length) s.queue)
    (hon : ∀ t ∈ k.toks, Honest s t r own) (serv : ∀ t ∈ k.toks, s.atCall t = s.delivered.length)
    (kindF : ∀ t, k = .flush t → s.isShutdown t = false)
    (ans : ∀ a ∈ s.returned, ∀ r, a.ret = .result r → Honest s a.tok r a.own)
    (down : ∀ a ∈ s.returned, s.isShutdown a.tok = true → ∀ r, a.ret ≠ .result r) (stops : s.exporterShutdowns = 0) :
    InvT cfg (s.after cfg k r own) := by
  unfold State.after
  split
  · refine ⟨by simpa [Worker.serving, Cont.toks] using perm, pos, fun t ht => (by cases ht), fun t ht => (by cases ht), ans, fun t r own h => (by cases h),
      fun a ha h1 r h2 => absurd h2 (down a ha h1 r), stops, fun h => (by cases h)⟩
  · rename_i t
    refine ⟨?_, pos, fun t ht => (by cases ht), fun t ht => (by cases ht), ?_, fun t r own h => (by cases h), ?_, stops, fun h => (by cases h)⟩
    · simp only [Worker.serving, List.append_nil, List.map_append, List.map_cons, List.map_nil]
      refine List.Perm.trans ?_ perm
      simp only [Cont.toks, List.append_assoc]
      exact List.Perm.append_left _ List.perm_append_comm
    · intro a ha r' hr'
      simp only [List.mem_append, List.mem_singleton] at ha
      rcases ha with ha | ha
      · exact ans a ha r' hr'
      · subst ha; injection hr' with hr'; subst hr'; exact hon t (by simp [Cont.toks])
    · intro a ha h1 r' hr'
      simp only [List.mem_append, List.mem_singleton] at ha
      rcases ha with ha | ha
      · exact absurd hr' (down a ha h1 r')
      · subst ha; simp only [kindF t rfl] at h1; cases h1
  · rename_i t
    split
    · rename_i hk
      refine ⟨?_, pos, fun t ht => (by cases ht), fun t ht => (by cases ht), ?_, fun t r own h => (by cases h), ?_, stops, fun _ => hk⟩
      · simp only [Worker.serving, List.append_nil, List.map_append, List.map_cons, List.map_nil]
        refine List.Perm.trans ?_ perm
        simp only [Cont.toks, List.append_assoc]
        exact List.Perm.append_left _ List.perm_append_comm
      · intro a ha r' hr'
        simp only [List.mem_append, List.mem_singleton] at ha
        rcases ha with ha | ha
        · exact ans a ha r' hr'
        · subst ha; injection hr' with hr'; subst hr'; exact hon t (by simp [Cont.toks])
      · intro a ha h1 r' hr'
        exact ⟨rfl, fun h => by rw [hk] at h; cases h⟩
    · rename_i hk
      refine ⟨perm, pos, ?_, fun t ht => (by cases ht), ans, ?_, ?_, stops, fun h => (by cases h)⟩
      · intro u hu; exact serv u hu
      · intro u r' own' h
        injection h with h; injection h with h; injection h with h1 h2; injection h2 with h2 h3
        subst h1 h2 h3
        exact ⟨hon _ (by simp [Cont.toks]), hk⟩
      · exact fun a ha h1 r h2 => absurd h2 (down a ha h1 r)

theorem invT_export {cfg : Cfg} {s : State X R} {k : Cont} (hi : s.outcomes.length = s.exported.length)
    (perm : (tokens s.queue ++ k.toks ++ s.returned.map Answer.tok).Perm (List.range s.nextTok))
    (pos : QueueOk s.atCall s.isShutdown (s.delivered.length + s.buf.length) s.queue)
    (serv : ∀ t ∈ k.toks, s.atCall t = s.delivered.length + s.buf.length)
    (kindF : ∀ t, k = .flush t → s.isShutdown t = false)
    (ans : ∀ a ∈ s.returned, ∀ r, a.ret = .result r → Honest s a.tok r a.own)
    (down : ∀ a ∈ s.returned, s.isShutdown a.tok = true → ∀ r, a.ret ≠ .result r) (stops : s.exporterShutdowns = 0) :
    InvT cfg (s.export cfg k) := by
  unfold State.export
  split
  · rename_i hb
    simp only [List.isEmpty_iff] at hb
    rw [hb, List.length_nil, Nat.add_zero] at serv
    refine invT_after perm pos ?_ serv kindF ans down stops
    intro t ht
    refine ⟨s.outcomes.length, Nat.le_refl _, ?_, fun _ => rfl, fun i h => (by cases h)⟩
    rw [serv t ht, State.deliveredBy, hi, List.take_length]
    rfl
  · refine ⟨by rw [serving_exporting]; exact perm, ?_, ?_, ?_, ?_, fun t r own h => (by cases h), ?_, stops, fun h => (by cases h)⟩
    · simpa [State.delivered] using pos
    · intro t ht
      rw [serving_exporting] at ht
      simpa [State.delivered] using serv t ht
    · intro t ht; injection ht with ht; exact kindF t ht
    · intro a ha r hr
      exact honest_mono (ans a ha r hr) (o := []) (by simp) rfl (Nat.le_of_eq hi) rfl
    · exact fun a ha h1 r h2 => absurd h2 (down a ha h1 r)

theorem honest_congr {s s' : State X R} {t : Nat} {r : Res} {own : Option Nat} (h : Honest s t r own) (ho : s'.outcomes = s.outcomes)
    (he : s'.exported = s.exported) (ha : s'.atCall t = s.atCall t) : Honest s' t r own := by
  unfold Honest State.deliveredBy at *
  rw [ho, he, ha]; exact h

theorem invT_call {cfg : Cfg} {s : State X R} {shut : Bool} (hi : Inv cfg s) (h : InvT cfg s) : InvT cfg (s.call cfg shut) := by
  have hq : ∀ t ∈ tokens s.queue, (if t = s.nextTok then s.accepted.length else s.atCall t) = s.atCall t
      ∧ (if t = s.nextTok then shut else s.isShutdown t) = s.isShutdown t := by
    intro t ht
    have := h.fresh (t := t) (by simp [ht])
    rw [if_neg (by omega), if_neg (by omega)]; exact ⟨rfl, rfl⟩
  have hs : ∀ t ∈ s.worker.serving, (if t = s.nextTok then s.accepted.length else s.atCall t) = s.atCall t
      ∧ (if t = s.nextTok then shut else s.isShutdown t) = s.isShutdown t := by
    intro t ht
    have := h.fresh (t := t) (by simp [ht])
    rw [if_neg (by omega), if_neg (by omega)]; exact ⟨rfl, rfl⟩
  have hr_ : ∀ a ∈ s.returned, (if a.tok = s.nextTok then s.accepted.length else s.atCall a.tok) = s.atCall a.tok
      ∧ (if a.tok = s.nextTok then shut else s.isShutdown a.tok) = s.isShutdown a.tok := by
    intro a ha
    have := h.fresh (t := a.tok) (by simp only [List.mem_append, List.mem_map]; exact .inr ⟨a, ha, rfl⟩)
    rw [if_neg (by omega), if_neg (by omega)]; exact ⟨rfl, rfl⟩
  have hpos := queueOk_congr (at' := fun u => if u = s.nextTok then s.accepted.length else s.atCall u)
    (shut' := fun u => if u = s.nextTok then shut else s.isShutdown u) hq h.pos
  have hkF : ∀ t, s.worker = .exporting (.flush t) → (if t = s.nextTok then shut else s.isShutdown t) = false := by
    intro t ht
    rw [(hs t (by rw [ht]; simp [Worker.serving])).2]; exact h.kindF t ht
  have hans : ∀ {s' : State X R}, s'.outcomes = s.outcomes → s'.exported = s.exported →
      s'.atCall = (fun u => if u = s.nextTok then s.accepted.length else s.atCall u) → ∀ a ∈ s.returned, ∀ r, a.ret = .result r → Honest s' a.tok r a.own :=
    fun h1 h2 h3 a ha r hr => honest_congr (h.ans a ha r hr) h1 h2 (by rw [h3]; exact (hr_ a ha).1)
  have hst : ∀ {s' : State X R}, s'.outcomes = s.outcomes → s'.exported = s.exported →
      s'.atCall = (fun u => if u = s.nextTok then s.accepted.length else s.atCall u) →
      ∀ t r own, s.worker = .stopping (some (t, r, own)) → Honest s' t r own ∧ cfg.kind = .log :=
    fun h1 h2 h3 t r own ht => ⟨honest_congr (h.stopAns t r own ht).1 h1 h2 (by rw [h3]; exact (hs t (by rw [ht]; simp [Worker.serving])).1), (h.stopAns t r own ht).2⟩
  have hdown : ∀ a ∈ s.returned, (if a.tok = s.nextTok then shut else s.isShutdown a.tok) = true → ∀ r, a.ret = .result r →
      s.worker.past = true ∧ (cfg.kind = .log → s.exporterShutdowns = 1) := by
    intro a ha h1 r h2
    rw [(hr_ a ha).2] at h1
    exact h.down a ha h1 r h2
  simp only [State.call]
  split
  · rename_i hn
    have hd := (refuse_none hn).1
    refine ⟨?_, ?_, fun t ht => (hs t ht).1.trans (h.serv t ht), hkF, hans rfl rfl rfl, hst rfl rfl rfl, hdown, h.stops, h.logs⟩
    · rw [tokens_append, show tokens [if shut = true then (Msg.shutdown s.nextTok : Msg X R) else .flush s.nextTok] = [s.nextTok] by cases shut <;> rfl,
        List.range_succ]
      refine List.Perm.trans ?_ (h.perm.append_right _)
      simp only [List.append_assoc]
      refine List.Perm.append_left _ ?_
      rw [← List.append_assoc s.worker.serving]
      exact List.perm_append_comm
    · rw [queueOk_append]
      refine ⟨hpos, ?_⟩
      have hacct : s.accepted.length = s.delivered.length + s.buf.length + (items s.queue).length := by
        have := hi.acct
        rw [hi.alive hd] at this
        rw [this]; simp only [List.length_append, List.length_nil]; omega
      have h1 : (if s.nextTok = s.nextTok then s.accepted.length else s.atCall s.nextTok) = s.delivered.length + s.buf.length + (items s.queue).length := by
        rw [if_pos rfl, hacct]
      have h2 : (if s.nextTok = s.nextTok then shut else s.isShutdown s.nextTok) = shut := if_pos rfl
      cases shut
      · exact ⟨h1, h2, trivial⟩
      · exact ⟨h1, h2, trivial⟩
  · rename_i e he
    have hne : ∀ r, e ≠ .result r := by
      intro r hr
      subst hr
      unfold State.refuse at he
      split at he
      · cases he
      · split at he <;> cases he
    refine ⟨?_, hpos, fun t ht => (hs t ht).1.trans (h.serv t ht), hkF, ?_, hst rfl rfl rfl, ?_, h.stops, h.logs⟩
    · rw [List.map_append, List.range_succ, ← List.append_assoc]
      exact h.perm.append_right _
    · intro a ha r hr
      simp only [List.mem_append, List.mem_singleton] at ha
      rcases ha with ha | ha
      · exact honest_congr (h.ans a ha r hr) rfl rfl (hr_ a ha).1
      · subst ha; exact absurd hr (hne r)
    · intro a ha h1 r hr
      simp only [List.mem_append, List.mem_singleton] at ha
      rcases ha with ha | ha
      · exact hdown a ha h1 r hr
      · subst ha; exact absurd hr (hne r)

theorem invT_drop {cfg : Cfg} {s : State X R} (perm : (tokens s.queue ++ s.returned.map Answer.tok).Perm (List.range s.nextTok))
    (ans : ∀ a ∈ s.returned, ∀ r, a.ret = .result r → Honest s a.tok r a.own)
    (down : ∀ a ∈ s.returned, s.isShutdown a.tok = true → ∀ r, a.ret = .result r → cfg.kind = .log → s.exporterShutdowns = 1)
    (stops : s.exporterShutdowns ≤ 1) : InvT cfg s.drop := by
  refine ⟨?_, trivial, fun t ht => (by cases ht), fun t ht => (by cases ht), ?_, fun t r own h => (by cases h), ?_, stops, fun h => (by cases h)⟩
  · simp only [State.drop, tokens, Worker.serving, List.nil_append, List.map_append, List.map_map]
    rw [show (Answer.tok ∘ fun t => (⟨t, .canceled, none⟩ : Answer)) = id from rfl, List.map_id]
    exact List.perm_append_comm.trans perm
  · intro a ha r hr
    simp only [State.drop, List.mem_append, List.mem_map] at ha
    rcases ha with ha | ⟨t, _, ha⟩
    · exact honest_congr (ans a ha r hr) rfl rfl rfl
    · subst ha; cases hr
  · intro a ha h1 r hr
    simp only [State.drop, List.mem_append, List.mem_map] at ha
    rcases ha with ha | ⟨t, _, ha⟩
    · exact ⟨rfl, down a ha h1 r hr⟩
    · subst ha; cases hr

theorem invT_step {cfg : Cfg} {sampled : X → Bool} {s s' : State X R} {a : Action X} (hi : Inv cfg s) (h : InvT cfg s)
    (hs : step cfg sampled s a = some s') : InvT cfg s' := by
  have hnd : s.worker = .idle ∨ (∃ k, s.worker = .exporting k) → ∀ a ∈ s.returned, s.isShutdown a.tok = true → ∀ r, a.ret ≠ .result r := by
    intro hw a ha h1 r h2
    have := (h.down a ha h1 r h2).1
    rcases hw with hw | ⟨k, hw⟩ <;> rw [hw] at this <;> cases this
  cases a with
  | emit x =>
    simp only [step, Option.some.injEq] at hs
    subst hs
    unfold State.emit
    split
    · exact ⟨h.perm, h.pos, h.serv, h.kindF, h.ans, h.stopAns, h.down, h.stops, h.logs⟩
    · split
      · refine ⟨?_, ?_, h.serv, h.kindF, h.ans, h.stopAns, h.down, h.stops, h.logs⟩
        · rw [tokens_append]; simpa [tokens] using h.perm
        · rw [queueOk_append]; exact ⟨h.pos, trivial⟩
      · exact ⟨h.perm, h.pos, h.serv, h.kindF, h.ans, h.stopAns, h.down, h.stops, h.logs⟩
  | count =>
    simp only [step] at hs
    split at hs
    · cases hs
    · injection hs with hs; subst hs
      exact ⟨h.perm, h.pos, h.serv, h.kindF, h.ans, h.stopAns, h.down, h.stops, h.logs⟩
  | forceFlush => simp only [step, Option.some.injEq] at hs; subst hs; exact invT_call hi h
  | shutdown => simp only [step, Option.some.injEq] at hs; subst hs; exact invT_call hi h
  | recv =>
    simp only [step] at hs
    split at hs
    case h_2 => cases hs
    rename_i m q hw hq
    injection hs with hs; subst hs
    have ho := hi.outcI (by simp [hw]) (by simp [hw])
    have hperm := h.perm
    have hpos := h.pos
    have hst := h.stops
    rw [hw] at hst
    rw [hq, hw] at hperm
    rw [hq] at hpos
    have hnd := hnd (.inl hw)
    cases m with
    | item x =>
      simp only [State.process]
      split
      · refine invT_export ho.symm ?_ ?_ (fun t ht => (by cases ht)) (fun t ht => (by cases ht)) h.ans hnd hst
        · simpa [tokens, Cont.toks, Worker.serving] using hperm
        · simpa [State.delivered, QueueOk, Nat.add_assoc] using hpos
      · refine ⟨?_, ?_, h.serv, h.kindF, h.ans, h.stopAns, h.down, h.stops, h.logs⟩
        · simpa [tokens, hw] using hperm
        · simpa [State.delivered, QueueOk, Nat.add_assoc] using hpos
    | flush t =>
      obtain ⟨p1, p2, p3⟩ := hpos
      refine invT_export ho.symm ?_ p3 (fun u hu => ?_) (fun u hu => ?_) h.ans hnd hst
      · refine List.Perm.trans ?_ hperm
        simp only [tokens, Worker.serving, Cont.toks, List.append_nil, List.cons_append, List.append_assoc, List.nil_append]
        exact List.perm_middle
      · simp only [Cont.toks, List.mem_singleton] at hu; subst hu; exact p1
      · injection hu with hu; subst hu; exact p2
    | shutdown t =>
      obtain ⟨p1, p2, p3⟩ := hpos
      refine invT_export ho.symm ?_ p3 (fun u hu => ?_) (fun u hu => (by cases hu)) h.ans hnd hst
      · refine List.Perm.trans ?_ hperm
        simp only [tokens, Worker.serving, Cont.toks, List.append_nil, List.cons_append, List.append_assoc, List.nil_append]
        exact List.perm_middle
      · simp only [Cont.toks, List.mem_singleton] at hu; subst hu; exact p1
    | setResource r =>
      refine ⟨?_, hpos, h.serv, h.kindF, h.ans, h.stopAns, h.down, h.stops, h.logs⟩
      simpa [State.process, tokens, hw] using hperm
  | tick =>
    simp only [step] at hs
    split at hs
    case h_2 => cases hs
    rename_i hw
    injection hs with hs; subst hs
    have ho := hi.outcI (by simp [hw]) (by simp [hw])
    have hperm := h.perm
    have hst := h.stops
    rw [hw] at hst hperm
    exact invT_export ho.symm hperm h.pos (fun t ht => (by cases ht)) (fun t ht => (by cases ht)) h.ans (hnd (.inl hw)) hst
  | finish r =>
    simp only [step] at hs
    split at hs
    case h_2 => cases hs
    rename_i k hw
    injection hs with hs; subst hs
    have hE := hi.outcE k hw
    have hperm := h.perm
    have hst := h.stops
    have hserv := h.serv
    rw [hw] at hst hperm hserv
    rw [serving_exporting] at hperm hserv
    refine invT_after hperm h.pos ?_ hserv ?_ ?_ (hnd (.inr ⟨k, hw⟩)) hst
    · intro t ht
      refine ⟨s.outcomes.length + 1, by simp, ?_, fun h => (by cases h), fun i hi => ?_⟩
      · rw [State.deliveredBy, ← hE]
        simp only [List.take_length]
        rw [hserv t ht]; rfl
      · injection hi with hi; subst hi; exact ⟨rfl, by simp⟩
    · intro t ht; subst ht; exact h.kindF t hw
    · intro a ha r' hr'
      exact honest_mono (h.ans a ha r' hr') rfl (e := []) (by simp) hi.outc.1 rfl
  | stop =>
    simp only [step] at hs
    split at hs
    case h_3 => cases hs
    · rename_i hw
      injection hs with hs; subst hs
      have hst := h.stops
      have hperm := h.perm
      rw [hw] at hst hperm
      refine ⟨hperm, h.pos, fun t ht => (by cases ht), fun t ht => (by cases ht), h.ans, fun t r own ht => (by cases ht), ?_, ?_, fun ht => (by cases ht)⟩
      · intro a ha h1 r hr
        refine ⟨rfl, fun hk => ?_⟩
        have := h.logs hw
        rw [hk] at this; cases this
      · show s.exporterShutdowns + 1 = 1
        rw [hst]
    · rename_i t r own hw
      injection hs with hs; subst hs
      have hst := h.stops
      have hperm := h.perm
      rw [hw] at hst hperm
      have hst' : s.exporterShutdowns + 1 = 1 := by rw [hst]
      refine ⟨?_, h.pos, fun t ht => (by cases ht), fun t ht => (by cases ht), ?_, fun t r own ht => (by cases ht), ?_, hst', fun ht => (by cases ht)⟩
      · refine List.Perm.trans ?_ hperm
        simp only [Worker.serving, List.append_nil, List.map_append, List.map_cons, List.map_nil, List.append_assoc]
        exact List.Perm.append_left _ List.perm_append_comm
      · intro a ha r' hr'
        simp only [List.mem_append, List.mem_singleton] at ha
        rcases ha with ha | ha
        · exact h.ans a ha r' hr'
        · subst ha; injection hr' with hr'; subst hr'; exact (h.stopAns _ _ _ hw).1
      · intro a ha h1 r hr
        exact ⟨rfl, fun _ => hst'⟩
  | close =>
    simp only [step] at hs
    split at hs
    case h_2 => cases hs
    rename_i hw
    injection hs with hs; subst hs
    have hst := h.stops
    have hperm := h.perm
    rw [hw] at hst hperm
    refine invT_drop ?_ h.ans (fun a ha h1 r h2 => (h.down a ha h1 r h2).2) (Nat.le_of_eq hst)
    simpa [Worker.serving] using hperm
  | die =>
    simp only [step] at hs
    split at hs
    case h_1 => cases hs
    rename_i hw
    injection hs with hs; subst hs
    refine invT_drop ?_ ?_ ?_ ?_
    · refine List.Perm.trans ?_ h.perm
      simp only [List.map_append, List.map_map, List.append_assoc]
      rw [show (Answer.tok ∘ fun t => (⟨t, .canceled, none⟩ : Answer)) = id from rfl, List.map_id]
      exact List.Perm.append_left _ List.perm_append_comm
    · intro a ha r hr
      simp only [List.mem_append, List.mem_map] at ha
      rcases ha with ha | ⟨t, _, ha⟩
      · exact honest_congr (h.ans a ha r hr) rfl rfl rfl
      · subst ha; cases hr
    · intro a ha h1 r hr
      simp only [List.mem_append, List.mem_map] at ha
      rcases ha with ha | ⟨t, _, ha⟩
      · exact (h.down a ha h1 r hr).2
      · subst ha; cases hr
    · have hst := h.stops
      show s.exporterShutdowns ≤ 1
      unfold Worker.stopsOk at hst
      split at hst <;> omega

theorem invT_reachable {cfg : Cfg} {sampled : X → Bool} {r : R} {s : State X R} (h : Reachable cfg sampled r s) : InvT cfg s := by
  induction h with
  | init => exact invT_init cfg r
  | step h0 hs ih => exact invT_step (inv_reachable h0) ih hs

end Otel.Async
