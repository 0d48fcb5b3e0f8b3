import Verif.Metrics.ConcurrentCut
import Verif.Metrics.Periodic
import Verif.EndToEnd.Instruments
/-!
# A successful flush of a periodic reader (C104)

The composition of C99 with the periodic reader of C48: threads record, other threads call `force_flush` and `shutdown`, the worker takes their messages, collects from the
store step by step while measurements go on, exports, and answers. opentelemetry-sdk/src/metrics/periodic_reader.rs:144-470.

Simplifications: those of `Metrics/Periodic.lean` and `Instruments.lean`, except that a collection is not one step; callbacks that call `force_flush` are left to C48.
-/

set_option linter.unusedSectionVars false

namespace Otel.EndToEnd.Flush
open Otel.Otlp Otel.Metrics
open Common (Val Scope)
open Periodic (Cont Ret)

variable {K V A X Y : Type} [LinearOrder K] [DecidableEq V]

/-- A step of a thread that records. -/
def OfThread : Conc.Action K V X → Prop
  | .call _ _ _ => True
  | .thread _ => True
  | _ => False

/-- A step of a caller of the reader, or of the worker while it waits. -/
def OfCaller : Periodic.Action → Prop
  | .flush _ => True
  | .shutdown _ => True
  | .thread _ => True
  | .timeout _ => True
  | .take => True
  | .timer => True
  | _ => False

/-- The whole system. The state of the reader `p` is that of C48, of which the fields for measurements and exports are not used, but for the number of measurements whose calls
have returned. -/
inductive Runs (cc : Conc.Cfg K V A X) (st : Style K A) (val : V → Val) (dflt : Scope K) (res : ResVal K) (ci : CounterId K)
    (c : Exporter.Cfg Unit (Batch K) (PRequest K (PMetric K)) Y) (t0 : Nat) : Conc.State K V A X → Nat → Exporter.St Unit → List (Sending Y) → Periodic.State → Prop
  | init : Runs cc st val dflt res ci c t0 (.init cc) t0 ⟨true, ()⟩ [] .init
  /-- a step of a measurement -/
  | measure {s s' t e log p} (a : Conc.Action K V X) : Runs cc st val dflt res ci c t0 s t e log p → OfThread a → Conc.step cc s a = some s' →
      Runs cc st val dflt res ci c t0 s' t e log { p with recorded := s'.returned.length }
  /-- a step of `force_flush` or `shutdown`, or the worker's wait ends. periodic_reader.rs:171-290, 427-470 -/
  | caller {s t e log p p'} (a : Periodic.Action) : Runs cc st val dflt res ci c t0 s t e log p → OfCaller a → Periodic.step .cumulative p a = some p' →
      Runs cc st val dflt res ci c t0 s t e log p'
  /-- the worker begins to collect. periodic_reader.rs:390 -/
  | begin {s s' t e log p} (k : Cont) : Runs cc st val dflt res ci c t0 s t e log p → p.worker = .collecting k → Conc.step cc s .collect = some s' →
      Runs cc st val dflt res ci c t0 s' t e log p
  /-- it cannot: no pipeline. periodic_reader.rs:393-399 -/
  | refuse {s t e log p} (k : Cont) : Runs cc st val dflt res ci c t0 s t e log p → p.worker = .collecting k → s.coll = .idle →
      Runs cc st val dflt res ci c t0 s t e log { p with worker := Periodic.afterExport k false }
  /-- a step of the collection -/
  | walk {s s' t e log p} (k : Cont) (it : List (Attrs K V × Nat)) : Runs cc st val dflt res ci c t0 s t e log p → p.worker = .collecting k →
      Conc.step cc s (.collector it) = some s' → s'.done = s.done → Runs cc st val dflt res ci c t0 s' t e log p
  /-- it is complete, and there is nothing in it. periodic_reader.rs:401-404 -/
  | nothing {s s' t e log p} (k : Cont) (it : List (Attrs K V × Nat)) (r : Conc.Collection K V A X) (o : Around K) :
      Runs cc st val dflt res ci c t0 s t e log p → p.worker = .collecting k → Conc.step cc s (.collector it) = some s' → s'.done = s.done ++ [r] → o.Distinct ci →
      (timesOf cc.delta t o.now).1.1 = o.start → (gathered st cc.delta val dflt res ci o r.points).scopeMetrics = [] →
      Runs cc st val dflt res ci c t0 s' (timesOf cc.delta t o.now).2 e log { p with worker := Periodic.afterExport k true }
  /-- it is complete and is exported. periodic_reader.rs:406-415 -/
  | export {s s' t e log p} (k : Cont) (it : List (Attrs K V × Nat)) (r : Conc.Collection K V A X) (o : Around K) (w : Exporter.World) :
      Runs cc st val dflt res ci c t0 s t e log p → p.worker = .collecting k → Conc.step cc s (.collector it) = some s' → s'.done = s.done ++ [r] → o.Distinct ci →
      (timesOf cc.delta t o.now).1.1 = o.start → (gathered st cc.delta val dflt res ci o r.points).scopeMetrics ≠ [] →
      Runs cc st val dflt res ci c t0 s' (timesOf cc.delta t o.now).2 e (log ++ [⟨w, (Exporter.doExport c e (gathered st cc.delta val dflt res ci o r.points) w).1,
        (Exporter.doExport c e (gathered st cc.delta val dflt res ci o r.points) w).2⟩])
        { p with worker := Periodic.afterExport k (decide ((Exporter.doExport c e (gathered st cc.delta val dflt res ci o r.points) w).1 = .ok)) }
  /-- the exporter is shut down. periodic_reader.rs:240-252 -/
  | close {s t e log p p'} (tok : Nat) (ok : Bool) : Runs cc st val dflt res ci c t0 s t e log p → p.worker = .closing tok ok →
      Periodic.step .cumulative p (.work (decide ((Exporter.shutdown c e).1 = .ok))) = some p' → Runs cc st val dflt res ci c t0 s t (Exporter.shutdown c e).2 log p'
  /-- the worker answers, or ends. periodic_reader.rs:196-211, 254-276 -/
  | answer {s t e log p p'} : Runs cc st val dflt res ci c t0 s t e log p → (∃ k ok, p.worker = .reply k ok) ∨ p.worker = .exiting →
      Periodic.step .cumulative p (.work true) = some p' → Runs cc st val dflt res ci c t0 s t e log p'

/-! ## Specification -/

/-- A call of `force_flush` or `shutdown` returned `Ok`. -/
def Succeeded (p : Periodic.State) (tok : Nat) : Prop := (tok, Ret.ok) ∈ p.returned

/-- The measurements whose calls had returned when it was called. -/
def before (s : Conc.State K V A X) (p : Periodic.State) (tok : Nat) : List (Nat × X × Attrs K V) := s.returned.take (p.atCall tok)

/-! ## Lemmas -/

theorem measured_of_runs {cc : Conc.Cfg K V A X} {st : Style K A} {val : V → Val} {dflt : Scope K} {res : ResVal K} {ci : CounterId K}
    {c : Exporter.Cfg Unit (Batch K) (PRequest K (PMetric K)) Y} {t0 t : Nat} {s : Conc.State K V A X} {e : Exporter.St Unit} {log : List (Sending Y)} {p : Periodic.State}
    (h : Runs cc st val dflt res ci c t0 s t e log p) : Measured cc st val dflt res ci c t0 s t e log := by
  induction h with
  | init => exact .init
  | measure a _ ha hs ih =>
    refine .work a ih hs ?_
    cases a with
    | call t x a => simp only [Conc.step] at hs; split at hs <;> cases hs; rfl
    | thread t =>
      simp only [Conc.step, Conc.threadStep] at hs
      split at hs
      · cases hs
      · injection hs with hs; subst hs; rfl
      · injection hs with hs; subst hs; rfl
      · split at hs <;> (injection hs with hs; subst hs; rfl)
      · injection hs with hs; subst hs; rfl
      · split at hs
        · injection hs with hs; subst hs; rfl
        · cases hs
    | collect => exact ha.elim
    | collector it => exact ha.elim
  | caller a _ _ _ ih => exact ih
  | begin k _ _ hs ih =>
    refine .work _ ih hs ?_
    simp only [Conc.step] at hs; split at hs <;> cases hs; rfl
  | refuse k _ _ _ ih => exact ih
  | walk k it _ _ hs hd ih => exact .work _ ih hs hd
  | nothing k it r o _ _ hs hd ho ht hn ih => exact .nothing _ r o ih hs hd ho ht hn
  | «export» k it r o w _ _ hs hd ho ht hn ih => exact .export _ r o w ih hs hd ho ht hn
  | close tok ok _ _ _ ih => exact .shut ih
  | answer _ _ _ ih => exact ih

/-- The call for which the worker collects. -/
def tokOf : Cont → Option Nat
  | .timer => none
  | .flush tok => some tok
  | .shut tok => some tok

/-- The calls are followed: `T` holds of what had returned before a call while the worker collects for it, `D` once it has been exported. -/
structure Follows (T : List (Nat × X × Attrs K V) → Conc.State K V A X → Prop) (D : List (Nat × X × Attrs K V) → Conc.State K V A X → List (Sending Y) → Prop)
    (s : Conc.State K V A X) (log : List (Sending Y)) (p : Periodic.State) : Prop where
  recorded : p.recorded = s.returned.length
  cuts : ∀ tok, p.atCall tok ≤ s.returned.length
  threads : ∀ t tok, (p.threads t = .flush0 tok ∨ p.threads t = .flushWait tok ∨ p.threads t = .shut0 tok ∨ p.threads t = .shutWait tok) → tok < p.nextTok
  msgs : ∀ m ∈ p.msgs, m.tok < p.nextTok
  idle : (∀ k, p.worker ≠ .collecting k) → s.coll = .idle
  busy : ∀ k tok, p.worker = .collecting k → tokOf k = some tok → tok < p.nextTok ∧ (s.coll ≠ .idle → T (before s p tok) s)
  closing : ∀ tok ok, p.worker = .closing tok ok → tok < p.nextTok ∧ (ok = true → D (before s p tok) s log)
  reply : ∀ k ok tok, p.worker = .reply k ok → tokOf k = some tok → tok < p.nextTok ∧ (ok = true → D (before s p tok) s log)
  replies : ∀ tok ok, (tok, ok) ∈ p.replies → tok < p.nextTok ∧ (ok = true → D (before s p tok) s log)
  returned : ∀ tok r, (tok, r) ∈ p.returned → tok < p.nextTok ∧ (r = .ok → D (before s p tok) s log)

theorem before_mono {s s' : Conc.State K V A X} {p : Periodic.State} {tok : Nat} (hc : p.atCall tok ≤ s.returned.length) (hp : s.returned <+: s'.returned) :
    before s' p tok = before s p tok := by
  obtain ⟨x, hx⟩ := hp
  rw [before, ← hx, List.take_append_of_le_length hc]; rfl

/-- The worker goes on with the answer. -/
theorem Follows.finish {T : List (Nat × X × Attrs K V) → Conc.State K V A X → Prop} {D : List (Nat × X × Attrs K V) → Conc.State K V A X → List (Sending Y) → Prop}
    {s s' : Conc.State K V A X} {log log' : List (Sending Y)} {p : Periodic.State} (h : Follows T D s log p)
    (hm : ∀ B, D B s log → D B s' log') (hr : s'.returned = s.returned) (hidle : s'.coll = .idle) {k : Cont} (hw : p.worker = .collecting k) (ok : Bool)
    (hok : ∀ tok, tokOf k = some tok → ok = true → D (before s p tok) s' log') : Follows T D s' log' { p with worker := Periodic.afterExport k ok } := by
  have hb : ∀ tok w, before s' { p with worker := w } tok = before s p tok := fun tok w => by rw [before, hr]; rfl
  refine ⟨by rw [hr]; exact h.recorded, fun tok => by rw [hr]; exact h.cuts tok, h.threads, h.msgs, fun _ => hidle, fun k' tok hk => ?_, fun tok ok' hk => ?_, fun k' ok' tok hk ht => ?_,
    fun tok ok' hm' => ⟨(h.replies tok ok' hm').1, fun e => by rw [hb]; exact hm _ ((h.replies tok ok' hm').2 e)⟩,
    fun tok r hm' => ⟨(h.returned tok r hm').1, fun e => by rw [hb]; exact hm _ ((h.returned tok r hm').2 e)⟩⟩
  · cases k <;> cases hk
  · cases k <;> cases hk
    exact ⟨(h.busy _ _ hw rfl).1, fun e => by rw [hb]; exact hok _ rfl e⟩
  · cases k <;> cases hk
    cases ht
    exact ⟨(h.busy _ _ hw rfl).1, fun e => by rw [hb]; exact hok _ rfl e⟩

/-- Nothing happens to the reader. -/
theorem Follows.other {T : List (Nat × X × Attrs K V) → Conc.State K V A X → Prop} {D : List (Nat × X × Attrs K V) → Conc.State K V A X → List (Sending Y) → Prop}
    {s s' : Conc.State K V A X} {log : List (Sending Y)} {p : Periodic.State} (h : Follows T D s log p) (hm : ∀ B, D B s log → D B s' log)
    (hr : s.returned <+: s'.returned) (hidle : (∀ k, p.worker ≠ .collecting k) → s'.coll = .idle)
    (hT : ∀ k tok, p.worker = .collecting k → tokOf k = some tok → s'.coll ≠ .idle → T (before s p tok) s') :
    Follows T D s' log { p with recorded := s'.returned.length } := by
  have hb : ∀ tok w, before s' { p with recorded := w } tok = before s p tok := fun tok w => before_mono (h.cuts tok) hr
  exact ⟨rfl, fun tok => Nat.le_trans (h.cuts tok) hr.length_le, h.threads, h.msgs, hidle, fun k tok hk ht => ⟨(h.busy k tok hk ht).1, fun hi => by rw [hb]; exact hT k tok hk ht hi⟩,
    fun tok ok hk => ⟨(h.closing tok ok hk).1, fun e => by rw [hb]; exact hm _ ((h.closing tok ok hk).2 e)⟩,
    fun k ok tok hk ht => ⟨(h.reply k ok tok hk ht).1, fun e => by rw [hb]; exact hm _ ((h.reply k ok tok hk ht).2 e)⟩,
    fun tok ok hm' => ⟨(h.replies tok ok hm').1, fun e => by rw [hb]; exact hm _ ((h.replies tok ok hm').2 e)⟩,
    fun tok r hm' => ⟨(h.returned tok r hm').1, fun e => by rw [hb]; exact hm _ ((h.returned tok r hm').2 e)⟩⟩

theorem thread_coll {cc : Conc.Cfg K V A X} {s s' : Conc.State K V A X} {a : Conc.Action K V X} (ha : OfThread a) (hs : Conc.step cc s a = some s') :
    s'.coll = s.coll ∧ s'.done = s.done := by
  cases a with
  | call t x a => simp only [Conc.step] at hs; split at hs <;> cases hs; exact ⟨rfl, rfl⟩
  | thread t =>
    simp only [Conc.step, Conc.threadStep] at hs
    split at hs
    · cases hs
    · injection hs with hs; subst hs; exact ⟨rfl, rfl⟩
    · injection hs with hs; subst hs; exact ⟨rfl, rfl⟩
    · split at hs <;> (injection hs with hs; subst hs; exact ⟨rfl, rfl⟩)
    · injection hs with hs; subst hs; exact ⟨rfl, rfl⟩
    · split at hs
      · injection hs with hs; subst hs; exact ⟨rfl, rfl⟩
      · cases hs
  | collect => exact ha.elim
  | collector it => exact ha.elim

theorem collector_frame {cc : Conc.Cfg K V A X} {s s' : Conc.State K V A X} {it : List (Attrs K V × Nat)} (hs : Conc.step cc s (.collector it) = some s') :
    s'.returned = s.returned ∧ s.coll ≠ .idle ∧ ((s'.done = s.done ∧ s'.coll ≠ .idle) ∨ ∃ r, s'.done = s.done ++ [r] ∧ s'.coll = .idle) := by
  simp only [Conc.step, Conc.collectorStep] at hs
  split at hs
  · cases hs
  · rename_i hc
    split at hs <;> (injection hs with hs; subst hs; exact ⟨rfl, by rw [hc]; simp, .inl ⟨rfl, by simp⟩⟩)
  · rename_i hc
    injection hs with hs; subst hs; exact ⟨rfl, by rw [hc]; simp, .inl ⟨rfl, by simp⟩⟩
  · rename_i hc
    split at hs
    · split at hs
      · split at hs
        · injection hs with hs; subst hs; exact ⟨rfl, by rw [hc]; simp, .inl ⟨rfl, by simp⟩⟩
        · cases hs
      · injection hs with hs; subst hs; exact ⟨rfl, by rw [hc]; simp, .inl ⟨rfl, by simp⟩⟩
    · cases hs
  · rename_i hc
    injection hs with hs; subst hs; exact ⟨rfl, by rw [hc]; simp, .inr ⟨_, rfl, rfl⟩⟩
  · rename_i hc
    split at hs <;> (injection hs with hs; subst hs; exact ⟨rfl, by rw [hc]; simp, .inl ⟨rfl, by simp⟩⟩)

/-- Of a step of a caller. -/
theorem follows_caller {T : List (Nat × X × Attrs K V) → Conc.State K V A X → Prop} {D : List (Nat × X × Attrs K V) → Conc.State K V A X → List (Sending Y) → Prop}
    {s : Conc.State K V A X} {log : List (Sending Y)} {p p' : Periodic.State} (h : Follows T D s log p) {a : Periodic.Action} (ha : OfCaller a)
    (hs : Periodic.step .cumulative p a = some p') : Follows T D s log p' := by
  obtain ⟨h1, h2, h3, h4, h5, h6, h7, h8, h9, h10⟩ := h
  have hcall : ∀ (t : Nat) (b : Bool) (pc : Nat → Periodic.Pc), (∀ n tok, (pc n = .flush0 tok ∨ pc n = .flushWait tok ∨ pc n = .shut0 tok ∨ pc n = .shutWait tok) → tok = n) →
      Periodic.callStep p t b pc = some p' → Follows T D s log p' := by
    intro t b pc hpc hs
    unfold Periodic.callStep at hs
    split at hs
    · injection hs with hs; subst hs
      have hb : ∀ tok, tok < p.nextTok → before s { p.goto t (pc p.nextTok) with
          nextTok := p.nextTok + 1, atCall := Periodic.set p.atCall p.nextTok p.recorded, isFlush := Periodic.set p.isFlush p.nextTok b } tok = before s p tok := by
        intro tok hlt
        simp only [before, Periodic.set, if_neg (Nat.ne_of_lt hlt)]
      have up : ∀ {tok : Nat} {B : List (Nat × X × Attrs K V) → Prop} {q : Prop}, (tok < p.nextTok ∧ (q → B (before s p tok))) →
          tok < p.nextTok + 1 ∧ (q → B (before s { p.goto t (pc p.nextTok) with
          nextTok := p.nextTok + 1, atCall := Periodic.set p.atCall p.nextTok p.recorded, isFlush := Periodic.set p.isFlush p.nextTok b } tok)) :=
        fun {tok B q} hh => ⟨by omega, fun e => by rw [hb tok hh.1]; exact hh.2 e⟩
      refine ⟨h1, fun tok => ?_, fun u tok hu => ?_, fun m hm => Nat.lt_succ_of_lt (h4 m hm), h5, fun k tok hk ht => up (B := fun b => T b s) (h6 k tok hk ht), fun tok ok hk => up (B := fun b => D b s log) (h7 tok ok hk),
        fun k ok tok hk ht => up (B := fun b => D b s log) (h8 k ok tok hk ht), fun tok ok hm => up (B := fun b => D b s log) (h9 tok ok hm), fun tok r hm => up (B := fun b => D b s log) (h10 tok r hm)⟩
      · simp only [Periodic.set]
        split
        · exact Nat.le_of_eq h1
        · exact h2 tok
      · simp only [Periodic.State.goto, Periodic.set] at hu
        split at hu
        · rw [hpc _ _ hu]; exact Nat.lt_succ_self _
        · exact Nat.lt_succ_of_lt (h3 u tok hu)
    · cases hs
  have hret : ∀ (t tok : Nat) (r : Ret), (p.threads t = .flush0 tok ∨ p.threads t = .flushWait tok ∨ p.threads t = .shut0 tok ∨ p.threads t = .shutWait tok) →
      (r = .ok → D (before s p tok) s log) → Follows T D s log (p.ret t tok r) := by
    intro t tok r ht hr
    refine ⟨h1, h2, fun u tok' hu => ?_, h4, h5, h6, h7, h8, h9, fun tok' r' hm => ?_⟩
    · simp only [Periodic.State.ret, Periodic.State.goto, Periodic.set] at hu
      split at hu
      · simp at hu
      · exact h3 u tok' hu
    · rcases List.mem_append.1 hm with hm | hm
      · exact h10 tok' r' hm
      · cases List.mem_singleton.1 hm
        exact ⟨h3 t tok ht, hr⟩
  have hwait : ∀ (t tok : Nat), (p.threads t = .flush0 tok ∨ p.threads t = .flushWait tok ∨ p.threads t = .shut0 tok ∨ p.threads t = .shutWait tok) →
      (Periodic.answerFor p tok).map (p.ret t tok) = some p' → Follows T D s log p' := by
    intro t tok ht hs
    obtain ⟨r, hr, rfl⟩ := Option.map_eq_some_iff.1 hs
    refine hret t tok r ht fun hok => ?_
    subst hok
    unfold Periodic.answerFor at hr
    split at hr
    · rename_i q hq
      have hm := List.mem_of_find?_eq_some hq
      have he : q.1 = tok := by simpa using List.find?_some hq
      split at hr
      · rename_i hq2
        obtain ⟨q1, q2⟩ := q
        exact he ▸ (h9 q1 q2 hm).2 hq2
      · cases hr
    · split at hr <;> cases hr
  have hsend : ∀ (t tok : Nat) (pc : Periodic.Pc) (m : Periodic.Msg), m.tok = tok →
      (p.threads t = .flush0 tok ∨ p.threads t = .flushWait tok ∨ p.threads t = .shut0 tok ∨ p.threads t = .shutWait tok) →
      (∀ tok', (pc = .flush0 tok' ∨ pc = .flushWait tok' ∨ pc = .shut0 tok' ∨ pc = .shutWait tok') → tok' = tok) →
      Follows T D s log { p.goto t pc with msgs := p.msgs ++ [m] } := by
    intro t tok pc m hm ht hpc
    refine ⟨h1, h2, fun u tok' hu => ?_, fun m' hm' => ?_, h5, h6, h7, h8, h9, h10⟩
    · simp only [Periodic.State.goto, Periodic.set] at hu
      split at hu
      · rw [hpc tok' hu]; exact h3 t tok ht
      · exact h3 u tok' hu
    · rcases List.mem_append.1 hm' with hm' | hm'
      · exact h4 m' hm'
      · rw [List.mem_singleton.1 hm', hm]; exact h3 t tok ht
  have htake : ∀ (k : Cont) (ms : List Periodic.Msg), p.worker = .idle → (∀ m ∈ ms, m ∈ p.msgs) → (∀ tok, tokOf k = some tok → tok < p.nextTok) →
      Follows T D s log { p with msgs := ms, worker := .collecting k } := by
    intro k ms hw hms hk
    have hi : s.coll = .idle := h5 fun k' => by rw [hw]; simp
    exact ⟨h1, h2, h3, fun m hm => h4 m (hms m hm), fun hn => absurd rfl (hn k), fun k' tok hk' ht => by cases hk'; exact ⟨hk tok ht, fun hc => absurd hi hc⟩,
      fun tok ok hk' => by simp at hk', fun k' ok tok hk' => by simp at hk', h9, h10⟩
  cases a with
  | flush t => exact hcall t true _ (fun n tok hn => by simpa [eq_comm] using hn) hs
  | shutdown t => exact hcall t false _ (fun n tok hn => by simpa [eq_comm] using hn) hs
  | thread t =>
    simp only [Periodic.step, Periodic.threadStep] at hs
    split at hs
    · cases hs
    · rename_i tok ht
      split at hs
      · injection hs with hs; subst hs
        exact hsend t tok _ _ rfl (.inl ht) fun tok' h' => by simpa [eq_comm] using h'
      · injection hs with hs; subst hs
        exact hret t tok _ (.inl ht) fun h' => by cases h'
    · rename_i tok ht; exact hwait t tok (.inr (.inl ht)) hs
    · rename_i tok ht
      split at hs
      · injection hs with hs; subst hs
        exact hsend t tok _ _ rfl (.inr (.inr (.inl ht))) fun tok' h' => by simpa [eq_comm] using h'
      · injection hs with hs; subst hs
        exact hret t tok _ (.inr (.inr (.inl ht))) fun h' => by cases h'
    · rename_i tok ht; exact hwait t tok (.inr (.inr (.inr ht))) hs
  | timeout t =>
    simp only [Periodic.step, Periodic.timeoutStep] at hs
    split at hs
    · rename_i tok ht
      injection hs with hs; subst hs
      exact hret t tok _ (.inr (.inr (.inr ht))) fun h' => by cases h'
    · cases hs
  | take =>
    simp only [Periodic.step, Periodic.takeStep] at hs
    split at hs
    · rename_i tok ms hw hm
      injection hs with hs; subst hs
      exact htake _ _ hw (fun m h' => by rw [hm]; simp [h']) fun tok' ht => by cases ht; exact h4 (.flush tok) (by rw [hm]; simp)
    · rename_i tok ms hw hm
      injection hs with hs; subst hs
      exact htake _ _ hw (fun m h' => by rw [hm]; simp [h']) fun tok' ht => by cases ht; exact h4 (.shutdown tok) (by rw [hm]; simp)
    · cases hs
  | timer =>
    simp only [Periodic.step, Periodic.timerStep] at hs
    split at hs
    · rename_i hw hm
      injection hs with hs; subst hs
      have := htake .timer p.msgs hw (fun m h' => h') fun tok' ht => by cases ht
      exact this
    · cases hs
  | record => exact ha.elim
  | work ok => exact ha.elim
  | callbackFlush => exact ha.elim

theorem gathered_nothing {st : Style K A} {delta : Bool} {val : V → Val} {dflt : Scope K} {res : ResVal K} {ci : CounterId K} {o : Around K} (ho : o.Distinct ci)
    {pts : List (Attrs K V × A)} (hn : (gathered st delta val dflt res ci o pts).scopeMetrics = []) : pts = [] := by
  by_contra hp
  have := message_heard st delta val dflt res ci o ho ⟨id, id⟩ pts
  rw [if_neg hp, metricsMessage, metricsRequest, hn] at this
  simp [heardIn] at this

theorem requests_append (l m : List (Sending Y)) : requests (l ++ m) = requests l ++ requests m := by simp [requests]

theorem heard_append (decode : Y → Option (PRequest K (PMetric K))) (name : String) (l m : List (Exporter.Request Y)) : heard decode name (l ++ m) = heard decode name l ++ heard decode name m := by
  simp [heard]

/-- An export that succeeded was heard. -/
theorem export_heard {st : Style K A} {delta : Bool} {val : V → Val} {dflt : Scope K} {res : ResVal K} {ci : CounterId K} {cast : Cast} {o : Around K} (ho : o.Distinct ci)
    {decode : Y → Option (PRequest K (PMetric K))} {c : Exporter.Cfg Unit (Batch K) (PRequest K (PMetric K)) Y} (hc : MetricCfg cast decode c) (ht : Exporter.TellsStatus c)
    {e : Exporter.St Unit} {w : Exporter.World} {pts : List (Attrs K V × A)} (hne : pts ≠ []) (hok : (Exporter.doExport c e (gathered st delta val dflt res ci o pts) w).1 = .ok) :
    saidOf cast st delta val res ci o pts ∈ heard decode ci.name (Exporter.doExport c e (gathered st delta val dflt res ci o pts) w).2 := by
  obtain ⟨_, q, hq, henc⟩ := (Exporter.doExport_ok c ht e _ w).1 hok
  rw [hq]
  rw [hc.message] at henc
  simp only [heard, List.flatMap_cons, List.flatMap_nil, List.append_nil, hc.wire _ _ henc]
  rw [message_heard st delta val dflt res ci o ho cast pts, if_neg hne]
  exact List.mem_singleton_self _

/-- What has to be shown to follow the calls. -/
theorem follows_runs {cc : Conc.Cfg K V A X} {st : Style K A} {val : V → Val} {dflt : Scope K} {res : ResVal K} {ci : CounterId K}
    {c : Exporter.Cfg Unit (Batch K) (PRequest K (PMetric K)) Y} {t0 : Nat}
    {T : List (Nat × X × Attrs K V) → Conc.State K V A X → Prop} {D : List (Nat × X × Attrs K V) → Conc.State K V A X → List (Sending Y) → Prop}
    (hbegin : ∀ B s s', Conc.Reachable cc s → B <+: s.returned → Conc.step cc s .collect = some s' → T B s')
    (hstep : ∀ B s s' a, Conc.Reachable cc s → B <+: s.returned → T B s → Conc.step cc s a = some s' → s'.done = s.done → T B s')
    (hmono : ∀ B s s' log log', D B s log → s.done <+: s'.done → log <+: log' → D B s' log')
    (hnothing : ∀ B s s' it r log, Conc.Reachable cc s → B <+: s.returned → T B s → Conc.step cc s (.collector it) = some s' → s'.done = s.done ++ [r] → r.points = [] → D B s' log)
    (hexport : ∀ B s s' it r (o : Around K) e w log, Conc.Reachable cc s → B <+: s.returned → T B s → Conc.step cc s (.collector it) = some s' → s'.done = s.done ++ [r] → o.Distinct ci →
      (Exporter.doExport c e (gathered st cc.delta val dflt res ci o r.points) w).1 = .ok →
      D B s' (log ++ [⟨w, (Exporter.doExport c e (gathered st cc.delta val dflt res ci o r.points) w).1, (Exporter.doExport c e (gathered st cc.delta val dflt res ci o r.points) w).2⟩]))
    {t : Nat} {s : Conc.State K V A X} {e : Exporter.St Unit} {log : List (Sending Y)} {p : Periodic.State} (h : Runs cc st val dflt res ci c t0 s t e log p) : Follows T D s log p := by
  have hcut : ∀ (s : Conc.State K V A X) (p : Periodic.State) tok, before s p tok <+: s.returned := fun s p tok => List.take_prefix _ _
  induction h with
  | init =>
    exact ⟨rfl, fun _ => Nat.le_refl _, fun t tok h => by simp [Periodic.State.init] at h, fun m hm => (by cases hm), fun _ => rfl, fun k tok hk => (by cases hk), fun tok ok hk => (by cases hk),
      fun k ok tok hk => (by cases hk), fun tok ok hm => (by cases hm), fun tok r hm => (by cases hm)⟩
  | @measure s s' t e log p a h0 ha hs ih =>
    obtain ⟨hc, hd⟩ := thread_coll ha hs
    have hr := measured_reachable (measured_of_runs h0)
    refine ih.other (fun B hD => hmono _ _ _ _ _ hD (by rw [hd]) (List.prefix_refl _)) (Conc.returned_grows hs) (fun hn => by rw [hc]; exact ih.idle hn) fun k tok hk ht hi => ?_
    exact hstep _ _ _ a hr (hcut _ _ _) ((ih.busy k tok hk ht).2 (by rw [← hc]; exact hi)) hs hd
  | caller a _ ha hs ih => exact follows_caller ih ha hs
  | @begin s s' t e log p k h0 hw hs ih =>
    have hr := measured_reachable (measured_of_runs h0)
    have hret : s'.returned = s.returned ∧ s'.done = s.done := by
      simp only [Conc.step] at hs; split at hs <;> cases hs; exact ⟨rfl, rfl⟩
    have := ih.other (s' := s') (fun B hD => hmono _ _ _ _ _ hD (by rw [hret.2]) (List.prefix_refl _)) (by rw [hret.1])
      (fun hn => absurd hw (hn k)) fun k' tok hk ht hi => hbegin _ _ _ hr (hcut _ _ _) hs
    rw [hret.1, ← ih.recorded] at this
    exact this
  | @refuse s t e log p k h0 hw hi ih => exact ih.finish (fun B hD => hD) rfl hi hw false fun tok _ h => by cases h
  | @walk s s' t e log p k it h0 hw hs hd ih =>
    have hr := measured_reachable (measured_of_runs h0)
    obtain ⟨f1, f2, _⟩ := collector_frame hs
    have := ih.other (s' := s') (fun B hD => hmono _ _ _ _ _ hD (by rw [hd]) (List.prefix_refl _)) (by rw [f1])
      (fun hn => absurd hw (hn k)) fun k' tok hk ht hi => hstep _ _ _ _ hr (hcut _ _ _) ((ih.busy k' tok hk ht).2 f2) hs hd
    rw [f1, ← ih.recorded] at this
    exact this
  | @nothing s s' t e log p k it r o h0 hw hs hd ho ht hn ih =>
    have hr := measured_reachable (measured_of_runs h0)
    obtain ⟨f1, f2, f3⟩ := collector_frame hs
    have f4 : s'.coll = .idle := by
      rcases f3 with ⟨g, _⟩ | ⟨_, _, g⟩
      · rw [hd] at g; simp at g
      · exact g
    exact ih.finish (fun B hD => hmono _ _ _ _ _ hD (by rw [hd]; exact List.prefix_append _ _) (List.prefix_refl _)) f1 f4 hw true fun tok htok _ =>
      hnothing _ _ _ it r _ hr (hcut _ _ _) ((ih.busy k tok hw htok).2 f2) hs hd (gathered_nothing ho hn)
  | @«export» s s' t e log p k it r o w h0 hw hs hd ho ht hn ih =>
    have hr := measured_reachable (measured_of_runs h0)
    obtain ⟨f1, f2, f3⟩ := collector_frame hs
    have f4 : s'.coll = .idle := by
      rcases f3 with ⟨g, _⟩ | ⟨_, _, g⟩
      · rw [hd] at g; simp at g
      · exact g
    exact ih.finish (fun B hD => hmono _ _ _ _ _ hD (by rw [hd]; exact List.prefix_append _ _) (List.prefix_append _ _)) f1 f4 hw _ fun tok htok hok =>
      hexport _ _ _ it r o e w _ hr (hcut _ _ _) ((ih.busy k tok hw htok).2 f2) hs hd ho (of_decide_eq_true hok)
  | @close s t e log p p' tok ok h0 hw hs ih =>
    obtain ⟨h1, h2, h3, h4, h5, h6, h7, h8, h9, h10⟩ := ih
    simp only [Periodic.step, Periodic.workStep, hw] at hs
    injection hs with hs; subst hs
    refine ⟨h1, h2, h3, h4, fun _ => h5 (by rw [hw]; simp), fun k tok hk => by simp at hk, fun tok ok hk => by simp at hk, fun k ok' tok' hk ht => ?_, h9, h10⟩
    simp only [Periodic.Worker.reply.injEq] at hk
    obtain ⟨rfl, rfl⟩ := hk
    cases ht
    exact ⟨(h7 tok ok hw).1, fun he => (h7 tok ok hw).2 (by simp at he; exact he.1)⟩
  | @answer s t e log p p' h0 hw hs ih =>
    obtain ⟨h1, h2, h3, h4, h5, h6, h7, h8, h9, h10⟩ := ih
    rcases hw with ⟨k, ok, hw⟩ | hw
    · have hi := h5 (by rw [hw]; simp)
      cases k with
      | timer => simp [Periodic.step, Periodic.workStep, hw] at hs
      | flush tok =>
        simp only [Periodic.step, Periodic.workStep, hw] at hs
        injection hs with hs; subst hs
        refine ⟨h1, h2, h3, h4, fun _ => hi, fun k tok hk => by simp at hk, fun tok ok hk => by simp at hk, fun k ok' tok' hk => by simp at hk, fun tok' ok' hm => ?_, h10⟩
        rcases List.mem_append.1 hm with hm | hm
        · exact h9 tok' ok' hm
        · cases List.mem_singleton.1 hm; exact h8 _ _ _ hw rfl
      | shut tok =>
        simp only [Periodic.step, Periodic.workStep, hw] at hs
        injection hs with hs; subst hs
        refine ⟨h1, h2, h3, h4, fun _ => hi, fun k tok hk => by simp at hk, fun tok ok hk => by simp at hk, fun k ok' tok' hk => by simp at hk, fun tok' ok' hm => ?_, h10⟩
        rcases List.mem_append.1 hm with hm | hm
        · exact h9 tok' ok' hm
        · cases List.mem_singleton.1 hm; exact h8 _ _ _ hw rfl
    · have hi := h5 (by rw [hw]; simp)
      simp only [Periodic.step, Periodic.workStep, hw] at hs
      injection hs with hs; subst hs
      exact ⟨h1, h2, h3, fun m hm => by simp at hm, fun _ => hi, fun k tok hk => by simp at hk, fun tok ok hk => by simp at hk, fun k ok' tok' hk => by simp at hk, h9, h10⟩

theorem mem_right {α β : Type} {R : α → β → Prop} {l : List α} {m : List β} (h : List.Forall₂ R l m) {b : β} (hb : b ∈ m) : ∃ a ∈ l, R a b := by
  induction h with
  | nil => cases hb
  | cons hab _ ih =>
    rcases List.mem_cons.1 hb with rfl | hb
    · exact ⟨_, by simp, hab⟩
    · obtain ⟨a, ha, hr⟩ := ih hb
      exact ⟨a, by simp [ha], hr⟩

/-- The measurements are in a collection that was exported, or there was nothing to export. -/
def Exported (cast : Cast) (st : Style K A) (delta : Bool) (val : V → Val) (res : ResVal K) (ci : CounterId K) (decode : Y → Option (PRequest K (PMetric K)))
    (B : List (Nat × X × Attrs K V)) (s : Conc.State K V A X) (log : List (Sending Y)) : Prop :=
  ∃ r ∈ s.done, Conc.TookAll B r ∧ (r.points = [] ∨ ∃ o, saidOf cast st delta val res ci o r.points ∈ heard decode ci.name (requests log))

theorem exported_runs {cc : Conc.Cfg K V A X} (hd : cc.delta = false) {st : Style K A} {val : V → Val} {dflt : Scope K} {res : ResVal K} {ci : CounterId K} {cast : Cast}
    {decode : Y → Option (PRequest K (PMetric K))} {c : Exporter.Cfg Unit (Batch K) (PRequest K (PMetric K)) Y} (hc : MetricCfg cast decode c) (ht : Exporter.TellsStatus c) {t0 t : Nat}
    {s : Conc.State K V A X} {e : Exporter.St Unit} {log : List (Sending Y)} {p : Periodic.State} (h : Runs cc st val dflt res ci c t0 s t e log p) :
    Follows Conc.TakesAll (Exported cast st cc.delta val res ci decode) s log p := by
  refine follows_runs (fun B s s' hr hB hs => Conc.takesAll_begin hd hr hB hs) (fun B s s' a hr hB hT hs hdone => ?_) (fun B s s' log log' hD h1 h2 => ?_)
    (fun B s s' it r log hr hB hT hs hdone hp => ?_) (fun B s s' it r o e w log hr hB hT hs hdone ho hok => ?_) h
  · rcases Conc.takesAll_step hd hr hB hT a hs with ⟨_, h'⟩ | ⟨r, h', _⟩
    · exact h'
    · rw [hdone] at h'; simp at h'
  · obtain ⟨r, hr, h3, h4⟩ := hD
    refine ⟨r, h1.subset hr, h3, h4.imp_right fun ⟨o, ho⟩ => ⟨o, ?_⟩⟩
    obtain ⟨x, rfl⟩ := h2
    rw [requests_append, heard_append]
    exact List.mem_append_left _ ho
  · rcases Conc.takesAll_step hd hr hB hT _ hs with ⟨h', _⟩ | ⟨r', h', _, h3⟩
    · rw [hdone] at h'; simp at h'
    · have : r = r' := by rw [hdone] at h'; simpa using h'
      subst this
      exact ⟨r, by rw [hdone]; simp, h3, .inl hp⟩
  · rcases Conc.takesAll_step hd hr hB hT _ hs with ⟨h', _⟩ | ⟨r', h', _, h3⟩
    · rw [hdone] at h'; simp at h'
    · have : r = r' := by rw [hdone] at h'; simpa using h'
      subst this
      refine ⟨r, by rw [hdone]; simp, h3, ?_⟩
      by_cases hp : r.points = []
      · exact .inl hp
      · refine .inr ⟨o, ?_⟩
        rw [requests_append, heard_append]
        refine List.mem_append_right _ ?_
        have := export_heard ho hc ht hp hok
        simpa [requests] using this

theorem took_runs {cc : Conc.Cfg K V A X} (hd : cc.delta = true) {st : Style K A} {val : V → Val} {dflt : Scope K} {res : ResVal K} {ci : CounterId K}
    {c : Exporter.Cfg Unit (Batch K) (PRequest K (PMetric K)) Y} {t0 t : Nat}
    {s : Conc.State K V A X} {e : Exporter.St Unit} {log : List (Sending Y)} {p : Periodic.State} (h : Runs cc st val dflt res ci c t0 s t e log p) :
    Follows Conc.TakesDelta (fun B s (_ : List (Sending Y)) => Conc.TookDelta B s.done) s log p := by
  refine follows_runs (fun B s s' _ _ hs => Conc.takesDelta_begin B hs) (fun B s s' a hr hB hT hs hdone => ?_) (fun B s s' log log' hD h1 h2 => ?_)
    (fun B s s' it r log hr hB hT hs hdone hp => ?_) (fun B s s' it r o e w log hr hB hT hs hdone ho hok => ?_) h
  · rcases Conc.takesDelta_step hd hr hB hT a hs with ⟨_, h'⟩ | ⟨⟨r, h'⟩, _⟩
    · exact h'
    · rw [hdone] at h'; simp at h'
  · obtain ⟨x, hx⟩ := h1
    show Conc.TookDelta B s'.done
    rw [← hx]
    exact Conc.TookDelta.append hD x
  · rcases Conc.takesDelta_step hd hr hB hT _ hs with ⟨h', _⟩ | ⟨_, _, h3⟩
    · rw [hdone] at h'; simp at h'
    · exact h3
  · rcases Conc.takesDelta_step hd hr hB hT _ hs with ⟨h', _⟩ | ⟨_, _, h3⟩
    · rw [hdone] at h'; simp at h'
    · exact h3

theorem setValues_canon {srt : Sorter K V} {a b : Attrs K V} (h : sortAndDedup srt a = sortAndDedup srt b) (hi : Hist K V X) (no : List (Nat × X)) :
    Conc.setValues srt hi no a = Conc.setValues srt hi no b := by
  have hnil : a = [] ↔ b = [] := by rw [← canon_eq_nil srt a, ← canon_eq_nil srt b, h]
  rw [Conc.setValues, Conc.setValues, h]
  simp only [hnil]

/-! ## C104 -/

/-- C104, cumulative temporality: when `force_flush` or `shutdown` has returned `Ok`, whatever happened to exports before, the collector has a metric of the instrument with a
point for every set for which a measurement had returned before the call; the point tells (`reads`) a list of values recorded for the set, in order, among them all those that
had returned before the call. For at most as many sets as the limit, attribute values that are not empty arrays (C52), and exporters that look at the answer (C86). -/
theorem flushed_cumulative_partial {cc : Conc.Cfg K V A X} (hd : cc.delta = false) {st : Style K A} (hfit : st.Fit) (hkeep : st.Keeps) {val : V → Val}
    (hinj : Function.Injective val) (hplain : ∀ v, NotEmptyArray (val v)) {dflt : Scope K} {res : ResVal K} {ci : CounterId K} {cast : Cast}
    {decode : Y → Option (PRequest K (PMetric K))} {c : Exporter.Cfg Unit (Batch K) (PRequest K (PMetric K)) Y} (hc : MetricCfg cast decode c) (ht : Exporter.TellsStatus c)
    {reads : WPt K → List X → Prop} (hreads : ∀ start now kvs xs, reads (wireOf cast st.kind start now (st.point kvs (xs.foldl cc.agg.update cc.agg.create))) xs) {t0 t : Nat}
    {s : Conc.State K V A X} {e : Exporter.St Unit} {log : List (Sending Y)} {p : Periodic.State} (h : Runs cc st val dflt res ci c t0 s t e log p) {L : List (Attrs K V)}
    (hL : L.length ≤ cc.limit) (hsets : ∀ e ∈ s.applied, e.2.2 ≠ [] → sortAndDedup cc.srt e.2.2 ∈ L) {tok : Nat} (hok : Succeeded p tok) (hne : before s p tok ≠ []) :
    ∃ m ∈ heard decode ci.name (requests log), (∃ now, Names st.kind false res ci t0 now m) ∧ ∀ a, Conc.valuesIn cc.srt (before s p tok) a ≠ [] →
      ∃ q ∈ wpoints m.metric.data, ∃ b xs, ReadsSet val q.attributes b ∧ sortAndDedup cc.srt b = sortAndDedup cc.srt a ∧ reads q xs ∧
        (Conc.valuesIn cc.srt (before s p tok) a).Subperm xs ∧ xs <+: Conc.recordedOf cc.srt s a := by
  have hm := measured_of_runs h
  have hr := measured_reachable hm
  obtain ⟨r, hrd, ⟨hA, hN⟩, hsaid⟩ := ((exported_runs hd hc ht h).returned tok .ok hok).2 rfl
  have hpts := Conc.cumulative_sets hd hr hL hsets r hrd
  have hN' : (Conc.bareOf (before s p tok)).Subperm (r.noVals.getD []) := by
    by_cases hb : Conc.bareOf (before s p tok) = []
    · rw [hb]; exact List.nil_subperm
    · obtain ⟨vs, h1, h2⟩ := hN hb
      rw [h1]; exact h2
  have hmust : ∀ a, Conc.valuesIn cc.srt (before s p tok) a ≠ [] → Conc.cumMust cc.srt r a := fun a ha he => by
    have := (Conc.setValues_subperm cc.srt hA hN' a).length_le
    rw [he, ← Conc.valuesIn_eq] at this
    exact ha (List.length_eq_zero_iff.1 (Nat.le_zero.1 this))
  rcases hsaid with hnil | ⟨o, ho⟩
  · exfalso
    obtain ⟨e, he⟩ := List.exists_mem_of_ne_nil _ hne
    obtain ⟨q, hq, _⟩ := hpts.complete e.2.2 (hmust e.2.2 (List.ne_nil_of_mem (a := e.2.1) (List.mem_map.2 ⟨e, List.mem_filter.2 ⟨he, by simp⟩, rfl⟩)))
    rw [hnil] at hq; cases hq
  · refine ⟨_, ho, ?_, fun a ha => ?_⟩
    · obtain ⟨all, bs, _, _, _, _, hf, _⟩ := instrument_cumulative_partial hd hfit hkeep hinj hplain hc hreads hm hL hsets
      obtain ⟨x, _, hx, _⟩ := mem_right hf ho
      exact ⟨_, hx⟩
    · have hcar := carries_of hinj hplain (f := fun kvs x' => wireOf cast st.kind o.start o.now (st.point kvs x')) (hkeep _ _ _) (fun kvs _ xs _ => hreads _ _ kvs xs) hpts
      rw [← said_points cast st hfit cc.delta val res ci o r.points] at hcar
      obtain ⟨q, hq, b, hb, hab⟩ := hcar.complete a (hmust a ha)
      obtain ⟨b', xs, hb', hxs, hrd'⟩ := hcar.values q hq
      obtain rfl := CarriesPoints.readsOne hinj hb hb'
      have hw := (Conc.cumulative_within hd hr hrd hxs).2
      have hrec : Conc.recordedOf cc.srt s b = Conc.recordedOf cc.srt s a := by rw [Conc.recordedOf, Conc.recordedOf, hab]
      refine ⟨q, hq, b, xs, hb, hab, hrd', ?_, by rw [← hrec]; exact hw⟩
      obtain ⟨h', no, g1, g2, g3, g4, _⟩ := hxs
      rw [g4, Conc.valuesIn_eq, ← setValues_canon hab]
      by_cases hbn : b = []
      · exact Conc.setValues_subperm _ (hA.trans g1) (by rw [g3 hbn] at hN'; exact hN') _
      · have e1 : ∀ n : List (Nat × X), Conc.setValues cc.srt h' no b = Conc.setValues cc.srt h' n b := fun n => by rw [Conc.setValues, Conc.setValues, if_neg hbn, if_neg hbn]
        rw [e1 (r.noVals.getD [])]
        exact Conc.setValues_subperm _ (hA.trans g1) hN' _

/-- C104, delta temporality: the same if no export has failed: the metrics that the collector has tell, for every set, at least what had returned before the call. -/
theorem flushed_delta_partial {cc : Conc.Cfg K V A X} (hd : cc.delta = true) {st : Style K A} (hfit : st.Fit) (hkeep : st.Keeps) {val : V → Val} (hinj : Function.Injective val)
    (hplain : ∀ v, NotEmptyArray (val v)) {dflt : Scope K} {res : ResVal K} {ci : CounterId K} {cast : Cast} {decode : Y → Option (PRequest K (PMetric K))}
    {c : Exporter.Cfg Unit (Batch K) (PRequest K (PMetric K)) Y} (hc : MetricCfg cast decode c) (ht : Exporter.TellsStatus c) {reads : WPt K → List X → Prop}
    (hreads : ∀ start now kvs xs, reads (wireOf cast st.kind start now (st.point kvs (xs.foldl cc.agg.update cc.agg.create))) xs) {t0 t : Nat}
    {s : Conc.State K V A X} {e : Exporter.St Unit} {log : List (Sending Y)} {p : Periodic.State} (h : Runs cc st val dflt res ci c t0 s t e log p) {L : List (Attrs K V)}
    (hL : L.length ≤ cc.limit) (hsets : ∀ e ∈ s.applied, e.2.2 ≠ [] → sortAndDedup cc.srt e.2.2 ∈ L) {tok : Nat} (hok : Succeeded p tok) (hall : AllOk log) :
    ∃ bs : List (Conc.Collection K V A X × Around K),
      List.Forall₂ (fun x m => Names st.kind true res ci x.2.start x.2.now m ∧
        CarriesPoints cc.srt val reads (Conc.deltaOk cc.srt x.1) (Conc.deltaMust cc.srt x.1) (wpoints m.metric.data)) bs (heard decode ci.name (requests log)) ∧
      ∀ a, (Conc.valuesIn cc.srt (before s p tok) a).Subperm (bs.flatMap fun x => Conc.setValues cc.srt x.1.period (x.1.noVals.getD []) a) := by
  have hm := measured_of_runs h
  have hr := measured_reachable hm
  obtain ⟨hN, hA⟩ := ((took_runs hd h).returned tok .ok hok).2 rfl
  obtain ⟨all, bs, _, _, _, hf, _, hpart⟩ := instrument_delta_partial hd hfit hkeep hinj hplain hc hreads hm hL hsets
  refine ⟨bs, hf, fun a => ?_⟩
  have h1 := hpart ht hall a
  rw [Conc.delta_partition hd hr] at h1
  rw [← List.append_cancel_right h1, ← Conc.setValues_flatMap, Conc.valuesIn_eq]
  exact Conc.setValues_subperm _ hA hN _

theorem sum_subperm {l m : List Nat} (h : l.Subperm m) : l.sum ≤ m.sum := by
  obtain ⟨l', hp, hs⟩ := h
  rw [← hp.sum_eq]
  exact sum_sublist hs

/-- C104 for a counter: after a successful flush the collector has, for every set, an integer that is at least the sum of what had been added before the call, and at most
what has been added by now. -/
theorem flushed_counter_partial {cc : Conc.Cfg K V (BitVec 64) (BitVec 64)} (hagg : cc.agg = increment (BitVec 64)) (hd : cc.delta = false) (mono : Bool) {val : V → Val}
    (hinj : Function.Injective val) (hplain : ∀ v, NotEmptyArray (val v)) {dflt : Scope K} {res : ResVal K} {ci : CounterId K} {cast : Cast}
    {decode : Y → Option (PRequest K (PMetric K))} {c : Exporter.Cfg Unit (Batch K) (PRequest K (PMetric K)) Y} (hc : MetricCfg cast decode c) (ht : Exporter.TellsStatus c) {t0 t : Nat}
    {s : Store K V} {e : Exporter.St Unit} {log : List (Sending Y)} {p : Periodic.State} (h : Runs cc (u64Sum mono) val dflt res ci c t0 s t e log p) {L : List (Attrs K V)}
    (hL : L.length ≤ cc.limit) (hsets : ∀ e ∈ s.applied, e.2.2 ≠ [] → sortAndDedup cc.srt e.2.2 ∈ L) (hbound : recorded s < 2 ^ 63) {tok : Nat} (hok : Succeeded p tok) :
    ∀ a, Conc.valuesIn cc.srt (before s p tok) a ≠ [] → ∃ m ∈ heard decode ci.name (requests log), ∃ q ∈ wpoints m.metric.data, ∃ b i, ReadsSet val q.attributes b ∧
      sortAndDedup cc.srt b = sortAndDedup cc.srt a ∧ TellsInt q i ∧ (((Conc.valuesIn cc.srt (before s p tok) a).map BitVec.toNat).sum : Int) ≤ i ∧
      i ≤ ((Conc.recordedOf cc.srt s a).map BitVec.toNat).sum := by
  intro a ha
  have hne : before s p tok ≠ [] := fun hn => ha (by rw [hn]; rfl)
  obtain ⟨m, hm, _, hall⟩ := flushed_cumulative_partial hd (u64Sum_ok mono).1 (u64Sum_ok mono).2 hinj hplain hc ht
    (reads := fun q xs => (xs.map BitVec.toNat).sum < 2 ^ 63 → TellsInt q (xs.map BitVec.toNat).sum) (fun start now kvs xs => by rw [hagg]; exact u64_reads cast mono start now kvs xs)
    h hL hsets hok hne
  obtain ⟨q, hq, b, xs, h1, h2, h3, h4, h5⟩ := hall a ha
  have k1 := sum_sublist (h5.sublist.map BitVec.toNat)
  have k2 : ((Conc.recordedOf cc.srt s a).map BitVec.toNat).sum ≤ recorded s := by
    rw [Conc.recordedOf, List.map_map]
    exact sum_sublist (List.filter_sublist.map _)
  have k3 : ((Conc.valuesIn cc.srt (before s p tok) a).map BitVec.toNat).sum ≤ (xs.map BitVec.toNat).sum := by
    obtain ⟨l, hp, hs⟩ := h4
    rw [← (hp.map _).sum_eq]
    exact sum_sublist (hs.map _)
  exact ⟨m, hm, q, hq, b, _, h1, h2, h3 (by omega), by exact_mod_cast k3, by exact_mod_cast k1⟩

/-! ## The hypotheses are met -/

/-- What to do next. -/
inductive Act (K V X : Type) where
  | measure (a : Conc.Action K V X)
  | caller (a : Periodic.Action)
  | begin
  | walk (it : List (Attrs K V × Nat)) (w : Exporter.World)
  | close
  | answer

/-- Everything. -/
structure All (K V A X Y : Type) where
  s : Conc.State K V A X
  t : Nat
  e : Exporter.St Unit
  log : List (Sending Y)
  p : Periodic.State

/-- Does it belong to a thread that records? -/
def ofThread : Conc.Action K V X → Bool
  | .call _ _ _ => true
  | .thread _ => true
  | _ => false

/-- Does it belong to a caller of the reader? -/
def ofCaller : Periodic.Action → Bool
  | .record => false
  | .work _ => false
  | .callbackFlush => false
  | _ => true

theorem ofThread_iff {a : Conc.Action K V X} (h : ofThread a = true) : OfThread a := by cases a <;> trivial
theorem ofCaller_iff {a : Periodic.Action} (h : ofCaller a = true) : OfCaller a := by cases a <;> trivial

/-- One step, with the same surroundings each time. -/
def exec (cc : Conc.Cfg K V A X) (st : Style K A) (val : V → Val) (dflt : Scope K) (res : ResVal K) (ci : CounterId K) (c : Exporter.Cfg Unit (Batch K) (PRequest K (PMetric K)) Y)
    (o : Around K) (x : All K V A X Y) : Act K V X → Option (All K V A X Y)
  | .measure a => if ofThread a then (Conc.step cc x.s a).map fun s' => { x with s := s', p := { x.p with recorded := s'.returned.length } } else none
  | .caller a => if ofCaller a then (Periodic.step .cumulative x.p a).map fun p' => { x with p := p' } else none
  | .begin => match x.p.worker with
    | .collecting _ => (Conc.step cc x.s .collect).map fun s' => { x with s := s' }
    | _ => none
  | .walk it w => match x.p.worker with
    | .collecting k => match Conc.step cc x.s (.collector it) with
      | none => none
      | some s' => match s'.done.drop x.s.done.length with
        | [] => some { x with s := s' }
        | r :: _ =>
          let o' : Around K := { o with start := (timesOf cc.delta x.t o.now).1.1 }
          let b := gathered st cc.delta val dflt res ci o' r.points
          let t' := (timesOf cc.delta x.t o.now).2
          match b.scopeMetrics with
          | [] => some { x with s := s', t := t', p := { x.p with worker := Periodic.afterExport k true } }
          | _ :: _ => some { x with
              s := s', t := t', log := x.log ++ [⟨w, (Exporter.doExport c x.e b w).1, (Exporter.doExport c x.e b w).2⟩],
              p := { x.p with worker := Periodic.afterExport k (decide ((Exporter.doExport c x.e b w).1 = .ok)) } }
    | _ => none
  | .close => match x.p.worker with
    | .closing _ _ => (Periodic.step .cumulative x.p (.work (decide ((Exporter.shutdown c x.e).1 = .ok)))).map fun p' => { x with e := (Exporter.shutdown c x.e).2, p := p' }
    | _ => none
  | .answer => match x.p.worker with
    | .reply _ _ => (Periodic.step .cumulative x.p (.work true)).map fun p' => { x with p := p' }
    | .exiting => (Periodic.step .cumulative x.p (.work true)).map fun p' => { x with p := p' }
    | _ => none

/-- Some steps. -/
def execAll (cc : Conc.Cfg K V A X) (st : Style K A) (val : V → Val) (dflt : Scope K) (res : ResVal K) (ci : CounterId K) (c : Exporter.Cfg Unit (Batch K) (PRequest K (PMetric K)) Y)
    (o : Around K) (x : All K V A X Y) : List (Act K V X) → Option (All K V A X Y)
  | [] => some x
  | a :: as => match exec cc st val dflt res ci c o x a with
    | some x' => execAll cc st val dflt res ci c o x' as
    | none => none

theorem runs_exec {cc : Conc.Cfg K V A X} {st : Style K A} {val : V → Val} {dflt : Scope K} {res : ResVal K} {ci : CounterId K}
    {c : Exporter.Cfg Unit (Batch K) (PRequest K (PMetric K)) Y} {o : Around K} (ho : o.Distinct ci) {t0 : Nat} {x x' : All K V A X Y} {a : Act K V X}
    (h : Runs cc st val dflt res ci c t0 x.s x.t x.e x.log x.p) (hs : exec cc st val dflt res ci c o x a = some x') : Runs cc st val dflt res ci c t0 x'.s x'.t x'.e x'.log x'.p := by
  cases a with
  | measure a =>
    simp only [exec] at hs
    split at hs
    · rename_i ha
      obtain ⟨s', h1, rfl⟩ := Option.map_eq_some_iff.1 hs
      exact .measure a h (ofThread_iff ha) h1
    · cases hs
  | caller a =>
    simp only [exec] at hs
    split at hs
    · rename_i ha
      obtain ⟨s', h1, rfl⟩ := Option.map_eq_some_iff.1 hs
      exact .caller a h (ofCaller_iff ha) h1
    · cases hs
  | begin =>
    simp only [exec] at hs
    split at hs
    · rename_i k hw
      obtain ⟨s', h1, rfl⟩ := Option.map_eq_some_iff.1 hs
      exact .begin k h hw h1
    · cases hs
  | walk it w =>
    simp only [exec] at hs
    split at hs
    · rename_i k hw
      split at hs
      · cases hs
      · rename_i s' h1
        obtain ⟨_, _, f3⟩ := collector_frame h1
        split at hs
        · rename_i hdrop
          injection hs with hs; subst hs
          refine .walk k it h hw h1 ?_
          rcases f3 with ⟨f3, _⟩ | ⟨r, f3, _⟩
          · exact f3
          · rw [f3] at hdrop; simp at hdrop
        · rename_i r rest hdrop
          have hd : s'.done = x.s.done ++ [r] := by
            rcases f3 with ⟨f3, _⟩ | ⟨r', f3, _⟩
            · rw [f3] at hdrop; simp at hdrop
            · rw [f3] at hdrop ⊢; simp at hdrop; rw [hdrop.1]
          split at hs
          · rename_i hn
            injection hs with hs; subst hs
            exact .nothing k it r { o with start := (timesOf cc.delta x.t o.now).1.1 } h hw h1 hd ho rfl hn
          · rename_i hn
            injection hs with hs; subst hs
            exact .export k it r { o with start := (timesOf cc.delta x.t o.now).1.1 } w h hw h1 hd ho rfl (by rw [hn]; simp)
    · cases hs
  | close =>
    simp only [exec] at hs
    split at hs
    · rename_i tok ok hw
      obtain ⟨p', h1, rfl⟩ := Option.map_eq_some_iff.1 hs
      exact .close tok ok h hw h1
    · cases hs
  | answer =>
    simp only [exec] at hs
    split at hs
    · rename_i k ok hw
      obtain ⟨p', h1, rfl⟩ := Option.map_eq_some_iff.1 hs
      exact .answer h (.inl ⟨k, ok, hw⟩) h1
    · rename_i hw
      obtain ⟨p', h1, rfl⟩ := Option.map_eq_some_iff.1 hs
      exact .answer h (.inr hw) h1
    · cases hs

theorem runs_execAll {cc : Conc.Cfg K V A X} {st : Style K A} {val : V → Val} {dflt : Scope K} {res : ResVal K} {ci : CounterId K}
    {c : Exporter.Cfg Unit (Batch K) (PRequest K (PMetric K)) Y} {o : Around K} (ho : o.Distinct ci) {t0 : Nat} (as : List (Act K V X)) {x x' : All K V A X Y}
    (h : Runs cc st val dflt res ci c t0 x.s x.t x.e x.log x.p) (hs : execAll cc st val dflt res ci c o x as = some x') : Runs cc st val dflt res ci c t0 x'.s x'.t x'.e x'.log x'.p := by
  induction as generalizing x with
  | nil => injection hs with hs; exact hs ▸ h
  | cons a as ih =>
    simp only [execAll] at hs
    split at hs
    · rename_i x1 h1; exact ih (runs_exec ho h h1) hs
    · cases hs

/-- A network that answers, and a client whose interceptor refuses. -/
def good : Exporter.World := ⟨true, some ⟨0, 0⟩⟩
def bad : Exporter.World := ⟨false, none⟩

/-- Two threads record, the second without attributes; the third flushes; while the worker collects, the first records again. -/
def exFlush (x y z : BitVec 64) (it : List (Attrs Nat Bool × Nat)) : List (Act Nat Bool (BitVec 64)) :=
  [.measure (.call 0 x [(1, true)]), .measure (.thread 0), .measure (.thread 0), .measure (.call 1 y []), .measure (.thread 1), .measure (.thread 1),
   .caller (.flush 2), .caller (.thread 2), .caller .take, .begin, .walk [] good, .measure (.call 0 z [(1, true)]), .measure (.thread 0), .walk [] good, .measure (.thread 0),
   .walk it good, .walk [] good, .walk [] good, .answer, .caller (.thread 2)]

/-- A run of the example. -/
def exRun (cc : Conc.Cfg Nat Bool (BitVec 64) (BitVec 64)) (as : List (Act Nat Bool (BitVec 64))) : Option (All Nat Bool (BitVec 64) (BitVec 64) (PRequest Nat (PMetric Nat))) :=
  execAll cc (u64Sum true) Val.bool ⟨"", none, none, []⟩ ⟨[], none⟩ exCounter exMetricCfg exAround ⟨.init cc, 1, ⟨true, ()⟩, [], .init⟩ as

/-- The hypotheses of `flushed_cumulative_partial` and `flushed_counter_partial` are met: the flush has returned `Ok`; 5 and 7 had been recorded before it, and 6 during it. -/
theorem flushed_cumulative_example : ∃ (s : Store Nat Bool) (t : Nat) (log : List (Sending (PRequest Nat (PMetric Nat)))) (p : Periodic.State),
    Runs exStoreCum (u64Sum true) Val.bool ⟨"", none, none, []⟩ ⟨[], none⟩ exCounter exMetricCfg 1 s t ⟨true, ()⟩ log p ∧ Succeeded p 0 ∧
      before s p 0 = [(0, 5, [(1, true)]), (1, 7, [])] ∧ s.applied = [(0, 5, [(1, true)]), (1, 7, []), (0, 6, [(1, true)])] ∧ AllOk log := by
  have h : (exRun exStoreCum (exFlush 5 7 6 [([(1, true)], 0)])).map (fun x => (x.p.returned, before x.s x.p 0, x.s.applied, x.log.map (·.outcome)))
      = some ([(0, .ok)], [(0, 5, [(1, true)]), (1, 7, [])], [(0, 5, [(1, true)]), (1, 7, []), (0, 6, [(1, true)])], [.ok]) := by rfl
  have h' : (exRun exStoreCum (exFlush 5 7 6 [([(1, true)], 0)])).map (fun x => x.e) = some ⟨true, ()⟩ := by rfl
  obtain ⟨x, hx, he⟩ := Option.map_eq_some_iff.1 h
  rw [hx] at h'
  simp only [Prod.mk.injEq] at he
  have hr := runs_execAll exAround_distinct _ Runs.init hx
  rw [show x.e = ⟨true, ()⟩ from Option.some.inj h'] at hr
  refine ⟨x.s, x.t, x.log, x.p, hr, by rw [Succeeded, he.1]; simp, he.2.1, he.2.2.1, fun y hy => ?_⟩
  have := List.mem_map_of_mem (f := fun z : Sending (PRequest Nat (PMetric Nat)) => z.outcome) hy
  rw [he.2.2.2] at this
  simpa using this

/-- The hypotheses of `flushed_delta_partial` are met by the same schedule. -/
theorem flushed_delta_example : ∃ (s : Store Nat Bool) (t : Nat) (log : List (Sending (PRequest Nat (PMetric Nat)))) (p : Periodic.State),
    Runs exStore (u64Sum true) Val.bool ⟨"", none, none, []⟩ ⟨[], none⟩ exCounter exMetricCfg 1 s t ⟨true, ()⟩ log p ∧ Succeeded p 0 ∧
      before s p 0 = [(0, 5, [(1, true)]), (1, 7, [])] ∧ s.applied = [(0, 5, [(1, true)]), (1, 7, []), (0, 6, [(1, true)])] ∧ AllOk log := by
  have h : (exRun exStore (exFlush 5 7 6 [([(1, true)], 0)])).map (fun x => (x.p.returned, before x.s x.p 0, x.s.applied, x.log.map (·.outcome)))
      = some ([(0, .ok)], [(0, 5, [(1, true)]), (1, 7, [])], [(0, 5, [(1, true)]), (1, 7, []), (0, 6, [(1, true)])], [.ok]) := by rfl
  have h' : (exRun exStore (exFlush 5 7 6 [([(1, true)], 0)])).map (fun x => x.e) = some ⟨true, ()⟩ := by rfl
  obtain ⟨x, hx, he⟩ := Option.map_eq_some_iff.1 h
  rw [hx] at h'
  simp only [Prod.mk.injEq] at he
  have hr := runs_execAll exAround_distinct _ Runs.init hx
  rw [show x.e = ⟨true, ()⟩ from Option.some.inj h'] at hr
  refine ⟨x.s, x.t, x.log, x.p, hr, by rw [Succeeded, he.1]; simp, he.2.1, he.2.2.1, fun y hy => ?_⟩
  have := List.mem_map_of_mem (f := fun z : Sending (PRequest Nat (PMetric Nat)) => z.outcome) hy
  rw [he.2.2.2] at this
  simpa using this

/-- A measurement, the timer's export of which fails, and then a flush. -/
def exLost : List (Act Nat Bool (BitVec 64)) :=
  [.measure (.call 0 5 [(1, true)]), .measure (.thread 0), .measure (.thread 0), .caller .timer, .begin, .walk [] bad, .walk [([(1, true)], 0)] bad, .walk [] bad, .walk [] bad,
   .caller (.flush 2), .caller (.thread 2), .caller .take, .begin, .walk [] good, .walk [] good, .walk [] good, .answer, .caller (.thread 2)]

/-- C104 fails with delta temporality after an export that failed: the values of a collection are gone with it, and the next flush returns `Ok`. opentelemetry-sdk/src/metrics/internal/mod.rs:160-187, periodic_reader.rs:381-415 -/
theorem flushed_delta_violated : ∃ (s : Store Nat Bool) (t : Nat) (log : List (Sending (PRequest Nat (PMetric Nat)))) (p : Periodic.State),
    Runs exStore (u64Sum true) Val.bool ⟨"", none, none, []⟩ ⟨[], none⟩ exCounter exMetricCfg 1 s t ⟨true, ()⟩ log p ∧ Succeeded p 0 ∧
      before s p 0 = [(0, 5, [(1, true)])] ∧ heard some exCounter.name (requests log) = [] := by
  have h : (exRun exStore exLost).map (fun x => (x.p.returned, before x.s x.p 0, heard some exCounter.name (requests x.log))) = some ([(0, .ok)], [(0, 5, [(1, true)])], []) := by rfl
  have h' : (exRun exStore exLost).map (fun x => x.e) = some ⟨true, ()⟩ := by rfl
  obtain ⟨x, hx, he⟩ := Option.map_eq_some_iff.1 h
  rw [hx] at h'
  simp only [Prod.mk.injEq] at he
  have hr := runs_execAll exAround_distinct _ Runs.init hx
  rw [show x.e = ⟨true, ()⟩ from Option.some.inj h'] at hr
  exact ⟨x.s, x.t, x.log, x.p, hr, by rw [Succeeded, he.1]; simp, he.2.1, he.2.2⟩

end Otel.EndToEnd.Flush
