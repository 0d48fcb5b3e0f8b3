import Verif.Async.BatchResults
import Verif.EndToEnd.Proto
/-!
# From the batch processors for async runtimes to the collector (C108)

The counterpart of C91 for the processors of `Verif.Async.Batch` (opentelemetry-sdk/src/trace/span_processor_with_async_runtime.rs,
opentelemetry-sdk/src/logs/log_processor_with_async_runtime.rs) with the exporters of C86 (opentelemetry-otlp/src/exporter). Here the export is a future that the
task waits for: it may be dropped by the timeout of the processor or with the task, before or after its request has left.
-/

namespace Otel.EndToEnd.AsyncPipe
open Rust Otel.Otlp
open Common (Val Scope)
open Async (State Action Msg)

variable {X R M Y O : Type}

/-- The exporter after a step of the task: given the resource if the task has been (spans:294-297, logs:202-204). -/
def follow (c : Exporter.Cfg R (List X) M Y) (e : Exporter.St R) : Option R → Exporter.St R
  | some r => Exporter.setResource c e r
  | none => e

/-- Processor and exporter together: the state of the processor, that of the exporter, and the requests that have left, in order. `o` stands for what can differ from
export to export: the order in which a hash map is iterated. `empty` is the resource of an exporter that was given none. -/
inductive Piped (cfg : Async.Cfg) (sampled : X → Bool) (c : O → Exporter.Cfg R (List X) M Y) (empty res : R) :
    State X R → Exporter.St R → List (Exporter.Request Y) → Prop
  | init : Piped cfg sampled c empty res (.init res) ⟨true, empty⟩ []
  /-- a step that ends no export and does not stop the exporter; if the task dies during an export, its request has not left -/
  | quiet {s s' e qs} (a : Action X) (o : O) : Piped cfg sampled c empty res s e qs → Async.step cfg sampled s a = some s' → (∀ r, a ≠ .finish r) → a ≠ .stop →
      Piped cfg sampled c empty res s' (follow (c o) e s'.resource) qs
  /-- the export ends, and the processor gets its result -/
  | finish {s s' e qs} (b : List X × Option R) (w : Exporter.World) (o : O) (r : Async.Res) : Piped cfg sampled c empty res s e qs →
      Async.step cfg sampled s (.finish r) = some s' → s.exported.getLast? = some b → r ≠ .timeout → (r = .ok ↔ (Exporter.doExport (c o) e b.1 w).1 = .ok) →
      Piped cfg sampled c empty res s' e (qs ++ (Exporter.doExport (c o) e b.1 w).2)
  /-- the timeout comes before the request has left -/
  | early {s s' e qs} : Piped cfg sampled c empty res s e qs → Async.step cfg sampled s (.finish .timeout) = some s' → Piped cfg sampled c empty res s' e qs
  /-- the timeout comes after the request has left -/
  | late {s s' e qs} (b : List X × Option R) (w : Exporter.World) (o : O) : Piped cfg sampled c empty res s e qs →
      Async.step cfg sampled s (.finish .timeout) = some s' → s.exported.getLast? = some b →
      Piped cfg sampled c empty res s' e (qs ++ (Exporter.doExport (c o) e b.1 w).2)
  /-- the task dies during an export whose request has left -/
  | died {s s' e qs} (k : Async.Cont) (b : List X × Option R) (w : Exporter.World) (o : O) : Piped cfg sampled c empty res s e qs → s.worker = .exporting k →
      Async.step cfg sampled s .die = some s' → s.exported.getLast? = some b →
      Piped cfg sampled c empty res s' e (qs ++ (Exporter.doExport (c o) e b.1 w).2)
  /-- the exporter is shut down -/
  | stop {s s' e qs} (o : O) : Piped cfg sampled c empty res s e qs → Async.step cfg sampled s .stop = some s' →
      Piped cfg sampled c empty res s' (Exporter.shutdown (c o) e).2 qs

/-- Every export that has ended has succeeded. -/
def Succeeded (s : State X R) : Prop := ∀ r ∈ s.outcomes, r = .ok

/-! ## Lemmas -/

variable {cfg : Async.Cfg} {sampled : X → Bool} {c : O → Exporter.Cfg R (List X) M Y} {empty res : R} {s s' : State X R} {e : Exporter.St R}
  {qs : List (Exporter.Request Y)}

theorem piped_reachable (h : Piped cfg sampled c empty res s e qs) : Async.Reachable cfg sampled res s := by
  induction h with
  | init => exact .init
  | quiet a o _ hs _ _ ih => exact .step ih hs
  | finish b w o r _ hs _ _ _ ih => exact .step ih hs
  | early _ hs ih => exact .step ih hs
  | late b w o _ hs _ ih => exact .step ih hs
  | died k b w o _ _ hs _ ih => exact .step ih hs
  | stop o _ hs ih => exact .step ih hs

/-- How the export ended with this step, if one did. -/
def endedBy : Action X → List Async.Res
  | .finish r => [r]
  | _ => []

/-- What a step does to the exports. -/
theorem step_exports {a : Action X} (hs : Async.step cfg sampled s a = some s') :
    s'.outcomes = s.outcomes ++ endedBy a ∧
      ((∃ r, a = .finish r) ∨ a = .stop ∨ a = .die → s'.exported = s.exported) ∧
      (s.worker = .done → s'.worker = .done) ∧ (((∃ r, a = .finish r) ∨ a = .stop) → s'.resource = s.resource) ∧ (a = .die → s'.worker = .done) ∧
      ((∃ r, a = .finish r) → ∃ k, s.worker = .exporting k) := by
  have after : ∀ (s : State X R) k r own, (s.after cfg k r own).exported = s.exported ∧ (s.after cfg k r own).outcomes = s.outcomes ∧
      (s.after cfg k r own).resource = s.resource := by
    intro s k r own; unfold State.after; split; exact ⟨rfl, rfl, rfl⟩; exact ⟨rfl, rfl, rfl⟩; split <;> exact ⟨rfl, rfl, rfl⟩
  have exp : ∀ (s : State X R) k, (s.export cfg k).outcomes = s.outcomes := by
    intro s k; unfold State.export; split
    · exact (after _ _ _ _).2.1
    · rfl
  cases a with
  | emit x =>
    simp only [Async.step, Option.some.injEq] at hs; subst hs
    unfold State.emit
    split
    · simp [endedBy]
    · cases s.refuse cfg <;> simp [endedBy]
  | count => simp only [Async.step] at hs; split at hs <;> cases hs; simp [endedBy]
  | forceFlush =>
    simp only [Async.step, Option.some.injEq] at hs; subst hs
    simp only [State.call]
    generalize State.refuse cfg _ = x
    cases x <;> simp [endedBy]
  | shutdown =>
    simp only [Async.step, Option.some.injEq] at hs; subst hs
    simp only [State.call]
    generalize State.refuse cfg _ = x
    cases x <;> simp [endedBy]
  | recv =>
    simp only [Async.step] at hs
    split at hs
    case h_2 => cases hs
    rename_i m q hw hq
    injection hs with hs; subst hs
    refine ⟨?_, by simp, fun h => absurd (hw.symm.trans h) (by simp), by simp, by simp, by simp⟩
    cases m with
    | item x => simp only [State.process]; split <;> simp [endedBy, exp]
    | flush t => simp [endedBy, State.process, exp]
    | shutdown t => simp [endedBy, State.process, exp]
    | setResource r1 => simp [endedBy, State.process]
  | tick =>
    simp only [Async.step] at hs
    split at hs
    case h_2 => cases hs
    rename_i hw
    injection hs with hs; subst hs
    exact ⟨by simp [endedBy, exp], by simp, fun h => absurd (hw.symm.trans h) (by simp), by simp, by simp, by simp⟩
  | finish r =>
    simp only [Async.step] at hs
    split at hs
    case h_2 => cases hs
    rename_i k hw
    injection hs with hs; subst hs
    have := after { s with outcomes := s.outcomes ++ [r] } k r (some s.outcomes.length)
    exact ⟨by simp [endedBy, this.2.1], by simp [endedBy, this.1], fun h => absurd (hw.symm.trans h) (by simp), by simp [endedBy, this.2.2], by simp, fun _ => ⟨k, hw⟩⟩
  | stop => simp only [Async.step] at hs; split at hs <;> cases hs <;> simp_all [endedBy]
  | close => simp only [Async.step] at hs; split at hs <;> cases hs <;> simp [endedBy, State.drop]
  | die => simp only [Async.step] at hs; split at hs <;> cases hs <;> simp [endedBy, State.drop]

theorem step_prefix {a : Action X} (h : Async.Reachable cfg sampled res s) (hs : Async.step cfg sampled s a = some s') : s.exported <+: s'.exported := by
  by_cases hn : s'.exported = s.exported
  · rw [hn]
  · obtain ⟨_, b, hb⟩ := Async.async_no_overlap h hs hn
    rw [hb]; exact List.prefix_append _ _

theorem exporting_resource {k : Async.Cont} (h : Async.Reachable cfg sampled res s) (hw : s.worker = .exporting k) : s.resource = some res := by
  rcases (Async.resInv_reachable h).2 with h | ⟨h, _⟩ | ⟨h, _⟩
  · rw [hw] at h; cases h
  · exact h
  · rw [hw] at h; cases h

/-- The batches among the first `n` exports. -/
def batches (n : Nat) (s : State X R) : List (List X) := (s.exported.take n).map Prod.fst

theorem take_last {α : Type} {l : List α} {n : Nat} {b : α} (hl : l.length = n + 1) (hb : l.getLast? = some b) : l = l.take n ++ [b] := by
  obtain rfl | ⟨l', x, rfl⟩ := l.eq_nil_or_concat
  · cases hb
  · simp only [List.concat_eq_append, List.length_append, List.length_cons, List.length_nil, List.getLast?_append, List.getLast?_singleton, Option.or,
      Option.some.injEq] at *
    subst hb
    rw [List.take_append_of_le_length (by omega), List.take_of_length_le (by omega)]

/-- Which batches the requests that have left carry. -/
structure Carries (c : O → Exporter.Cfg R (List X) M Y) (res : R) (s : State X R) (bs : List (List X)) (qs : List (Exporter.Request Y)) : Prop where
  carries : List.Forall₂ (fun b q => ∃ o, (c o).encode ((c o).message res b) = some q.body) bs qs
  sub : bs.Sublist (s.exported.map Prod.fst)
  ended : s.worker ≠ .done → bs.Sublist (batches s.outcomes.length s)
  all : (∀ o, Exporter.TellsStatus (c o)) → Succeeded s → batches s.outcomes.length s <+: bs ∧ bs <+: s.exported.map Prod.fst

theorem batches_mono (n : Nat) (hn : n ≤ s.exported.length) (hp : s.exported <+: s'.exported) : batches n s' = batches n s := by
  obtain ⟨t, ht⟩ := hp
  simp only [batches, ← ht, List.take_append_of_le_length hn]

theorem setResource_of {e : Exporter.St R} {x : Exporter.Cfg R (List X) M Y} (hx : x.signal ≠ .metrics) (r : R) : (Exporter.setResource x e r).resource = r := by
  unfold Exporter.setResource
  split
  · exact absurd ‹_› hx
  · rfl

/-- A step that ends no export. -/
theorem Carries.quiet {bs : List (List X)} {a : Action X} (h : Carries c res s bs qs) (hr : Async.Reachable cfg sampled res s)
    (hs : Async.step cfg sampled s a = some s') (ha : ∀ r, a ≠ .finish r) : Carries c res s' bs qs := by
  obtain ⟨h1, _, h3, _, _, _⟩ := step_exports hs
  have h1 : s'.outcomes = s.outcomes := by
    cases a <;> simp_all [endedBy]
  have hp := step_prefix hr hs
  have hn := (Async.inv_reachable hr).outc.1
  refine ⟨h.carries, h.sub.trans (hp.sublist.map _), fun hw => ?_, fun ht hk => ?_⟩
  · rw [h1, batches_mono _ hn hp]
    exact h.ended fun hd => hw (h3 hd)
  · rw [h1, batches_mono _ hn hp]
    obtain ⟨k1, k2⟩ := h.all ht (fun r hr => hk r (h1 ▸ hr))
    exact ⟨k1, k2.trans (hp.map _)⟩

/-- The end of an export, or of the task during one. `sent` are the requests that left. -/
theorem Carries.ends {bs : List (List X)} {k : Async.Cont} {b : List X × Option R} {o : O} {w : Exporter.World} (h : Carries c res s bs qs)
    (hr : Async.Reachable cfg sampled res s) (hw : s.worker = .exporting k) (hb : s.exported.getLast? = some b) (he : s'.exported = s.exported)
    (ho : s'.worker = .done ∧ s'.outcomes = s.outcomes ∨ ∃ r, s'.outcomes = s.outcomes ++ [r] ∧ (r = .ok → (Exporter.doExport (c o) e b.1 w).1 = .ok))
    (hres : e.resource = res) : ∃ bs, Carries c res s' bs (qs ++ (Exporter.doExport (c o) e b.1 w).2) := by
  have hlen := (Async.inv_reachable hr).outcE k hw
  have hl := take_last hlen hb
  have hend := h.ended (by rw [hw]; intro h; cases h)
  have hbs : bs.Sublist ((s.exported.take s.outcomes.length).map Prod.fst) := hend
  have hall : batches (s.outcomes.length + 1) s' = batches s.outcomes.length s ++ [b.1] := by
    simp only [batches, he]
    rw [List.take_of_length_le (by omega)]
    conv_lhs => rw [hl]
    simp
  have hmap : s'.exported.map Prod.fst = batches s.outcomes.length s ++ [b.1] := by
    rw [he, batches]
    conv_lhs => rw [hl]
    simp
  rcases Exporter.doExport_sent (c o) e b.1 w with hs | ⟨q, hs, henc, _⟩
  · refine ⟨bs, ?_, ?_, ?_, ?_⟩
    · rw [hs, List.append_nil]; exact h.carries
    · rw [he]; exact h.sub
    · intro hd
      rcases ho with ⟨hd', _⟩ | ⟨r, hr', _⟩
      · exact absurd hd' hd
      · rw [hr', List.length_append, List.length_singleton, hall]
        exact hend.trans (List.sublist_append_left _ _)
    · intro ht hk
      rcases ho with ⟨_, h1⟩ | ⟨r, hr', hok⟩
      · have := h.all ht (fun r hr => hk r (h1 ▸ hr))
        rw [h1, he]
        have hb' : batches s.outcomes.length s' = batches s.outcomes.length s := by simp only [batches, he]
        rw [hb']; exact this
      · obtain ⟨_, q, hq, _⟩ := (Exporter.doExport_ok (c o) (ht o) e b.1 w).1 (hok (hk r (by rw [hr']; simp)))
        rw [hs] at hq; cases hq
  · refine ⟨bs ++ [b.1], ?_, ?_, ?_, ?_⟩
    · rw [hs]
      exact List.rel_append h.carries (.cons ⟨o, by rw [← hres]; exact henc⟩ .nil)
    · rw [hmap]; exact hend.append (List.Sublist.refl _)
    · intro hd
      rcases ho with ⟨hd', _⟩ | ⟨r, hr', _⟩
      · exact absurd hd' hd
      · rw [hr', List.length_append, List.length_singleton, hall]
        exact hend.append (List.Sublist.refl _)
    · intro ht hk
      have hk' : Succeeded s := fun r hr => hk r (by
        rcases ho with ⟨_, h1⟩ | ⟨r', h1, _⟩ <;> rw [h1]
        · exact hr
        · exact List.mem_append_left _ hr)
      have heq : bs = batches s.outcomes.length s := hend.antisymm (h.all ht hk').1.sublist
      rw [hmap, ← heq]
      refine ⟨?_, List.prefix_refl _⟩
      rcases ho with ⟨_, h1⟩ | ⟨r', h1, _⟩
      · have hb' : batches s.outcomes.length s' = batches s.outcomes.length s := by simp only [batches, he]
        rw [h1, hb', ← heq]; exact List.prefix_append _ _
      · rw [h1, List.length_append, List.length_singleton, hall, ← heq]

/-- The invariant of the pipe. -/
theorem piped_carries (hsig : ∀ o, (c o).signal ≠ .metrics) (h : Piped cfg sampled c empty res s e qs) :
    (∀ r, s.resource = some r → e.resource = r) ∧ ∃ bs, Carries c res s bs qs := by
  induction h with
  | init => exact ⟨fun r hr => (by cases hr), [], .nil, by simp, fun _ => by simp, fun _ _ => ⟨by simp [batches, State.init], by simp⟩⟩
  | @quiet s s' e qs a o h0 hs ha hstop ih =>
    obtain ⟨h1, bs, h2⟩ := ih
    refine ⟨fun r hr => ?_, bs, h2.quiet (piped_reachable h0) hs ha⟩
    rw [hr]
    exact setResource_of (hsig o) r
  | @finish s s' e qs b w o r h0 hs hb ht hok ih =>
    obtain ⟨h1, bs, h2⟩ := ih
    obtain ⟨g1, g2, g3, g4, g5, g6⟩ := step_exports hs
    obtain ⟨k, hw⟩ := g6 ⟨r, rfl⟩
    have hr := piped_reachable h0
    refine ⟨by rw [g4 (.inl ⟨r, rfl⟩)]; exact h1, ?_⟩
    exact h2.ends hr hw hb (g2 (.inl ⟨r, rfl⟩)) (.inr ⟨r, g1, hok.1⟩) (h1 _ (exporting_resource hr hw))
  | @early s s' e qs h0 hs ih =>
    obtain ⟨h1, bs, h2⟩ := ih
    obtain ⟨g1, g2, g3, g4, g5, g6⟩ := step_exports hs
    obtain ⟨k, hw⟩ := g6 ⟨_, rfl⟩
    have he := g2 (.inl ⟨_, rfl⟩)
    have hr := piped_reachable h0
    refine ⟨by rw [g4 (.inl ⟨_, rfl⟩)]; exact h1, bs, h2.carries, by rw [he]; exact h2.sub, fun _ => ?_, fun _ hk => ?_⟩
    · have h3 := h2.ended (by rw [hw]; intro h; cases h)
      refine h3.trans ?_
      simp only [batches, he, g1, List.length_append]
      exact (List.take_sublist_take_left (Nat.le_add_right _ _)).map _
    · have := hk .timeout (by rw [g1]; simp [endedBy])
      cases this
  | @late s s' e qs b w o h0 hs hb ih =>
    obtain ⟨h1, bs, h2⟩ := ih
    obtain ⟨g1, g2, g3, g4, g5, g6⟩ := step_exports hs
    obtain ⟨k, hw⟩ := g6 ⟨_, rfl⟩
    have hr := piped_reachable h0
    refine ⟨by rw [g4 (.inl ⟨_, rfl⟩)]; exact h1, ?_⟩
    exact h2.ends hr hw hb (g2 (.inl ⟨_, rfl⟩)) (.inr ⟨.timeout, g1, fun h => by cases h⟩) (h1 _ (exporting_resource hr hw))
  | @died s s' e qs k b w o h0 hw hs hb ih =>
    obtain ⟨h1, bs, h2⟩ := ih
    obtain ⟨g1, g2, g3, g4, g5, g6⟩ := step_exports hs
    have hr := piped_reachable h0
    have hres : s'.resource = s.resource := by
      simp only [Async.step, hw, Option.some.injEq] at hs
      subst hs; rfl
    refine ⟨by rw [hres]; exact h1, ?_⟩
    exact h2.ends hr hw hb (g2 (.inr (.inr rfl))) (.inl ⟨g5 rfl, by simpa [endedBy] using g1⟩) (h1 _ (exporting_resource hr hw))
  | @stop s s' e qs o h0 hs ih =>
    obtain ⟨h1, bs, h2⟩ := ih
    obtain ⟨g1, g2, g3, g4, g5, g6⟩ := step_exports hs
    refine ⟨fun r hr => ?_, bs, h2.quiet (piped_reachable h0) hs (fun r h => by cases h)⟩
    rw [Exporter.shutdown_resource]
    exact h1 r (by rw [← g4 (.inr rfl)]; exact hr)

/-! ## C108 -/

/-- The items whose request has left. -/
theorem left_once (hsig : ∀ o, (c o).signal ≠ .metrics) (h : Piped cfg sampled c empty res s e qs) :
    ∃ bs, List.Forall₂ (fun b q => ∃ o, (c o).encode ((c o).message res b) = some q.body) bs qs ∧ bs.flatten.Sublist s.accepted ∧
      ((∀ o, Exporter.TellsStatus (c o)) → Succeeded s → bs.flatten <+: s.accepted ∧
        ∀ a ∈ s.returned, ∀ r, a.ret = .result r → s.accepted.take (s.atCall a.tok) <+: bs.flatten) := by
  obtain ⟨_, bs, hc⟩ := piped_carries hsig h
  have hr := piped_reachable h
  have hd := (Async.async_order hr).1
  have flat : ∀ {l l' : List (List X)}, l <+: l' → l.flatten <+: l'.flatten := by
    rintro l _ ⟨t, rfl⟩
    rw [List.flatten_append]; exact List.prefix_append _ _
  refine ⟨bs, hc.carries, (flatten_sublist hc.sub).trans hd.sublist, fun ht hk => ?_⟩
  obtain ⟨k1, k2⟩ := hc.all ht hk
  refine ⟨(flat k2).trans hd, fun a ha r hr' => ?_⟩
  obtain ⟨n, g1, g2, _⟩ := Async.async_answer hr a ha r hr'
  rw [g2]
  refine List.IsPrefix.trans ?_ (flat k1)
  refine flat (List.IsPrefix.map _ ?_)
  exact List.take_prefix_take_left g1

section spans
variable {K : Type} {hit : Scope K → Scope K → Bool} {decode : Y → Option (PRequest K (PSpan K))} {res : Res K} {empty : Res K}
  {c : Order (Scope K × List (SdkSpan K)) → Exporter.Cfg (Res K) (List (SdkSpan K)) (PRequest K (PSpan K)) Y} {sampled : SdkSpan K → Bool}
  {s : State (SdkSpan K) (Res K)} {e : Exporter.St (Res K)}

/-- C108, spans: whatever the schedule, the network, the timeouts and the moment the task dies, each span the processor accepted arrives at most once, reads as it was
recorded, and nothing else arrives. -/
theorem async_spans_arrive_once (hc : SpanCfg hit res decode c) (h : Piped cfg sampled c empty res s e qs) (hp : ∀ x ∈ s.accepted, Plain x) :
    ∃ l l', List.Sublist l s.accepted ∧ l'.Perm l ∧ List.Forall₂ (ReadsAsSpan res) l' (arrived decode qs) := by
  obtain ⟨bs, h1, h2, _⟩ := left_once (fun o => by rw [hc.signal o]; intro h; cases h) h
  obtain ⟨l', g1, g2⟩ := spans_read hc h1 fun x hx => hp x (h2.subset hx)
  exact ⟨bs.flatten, l', h2, g1, g2⟩

/-- C108, spans: when a `force_flush` or `shutdown` has returned a result of the task, and every export succeeded, then every span accepted before the call has
arrived exactly once, and reads as it was recorded. -/
theorem async_flushed_spans_arrive (hc : SpanCfg hit res decode c) (h : Piped cfg sampled c empty res s e qs) (hp : ∀ x ∈ s.accepted, Plain x) (hok : Succeeded s)
    (a : Async.Answer) (ha : a ∈ s.returned) (r : Async.Res) (hr : a.ret = .result r) :
    ∃ l l', s.accepted.take (s.atCall a.tok) <+: l ∧ l <+: s.accepted ∧ l'.Perm l ∧ List.Forall₂ (ReadsAsSpan res) l' (arrived decode qs) := by
  obtain ⟨bs, h1, h2, h3⟩ := left_once (fun o => by rw [hc.signal o]; intro h; cases h) h
  obtain ⟨k1, k2⟩ := h3 (fun o hh => by rw [hc.signal o] at hh; cases hh.1) hok
  obtain ⟨l', g1, g2⟩ := spans_read hc h1 fun x hx => hp x (h2.subset hx)
  exact ⟨bs.flatten, l', k2 a ha r hr, k1, g1, g2⟩

end spans

section logs
variable {K : Type} [DecidableEq K] {ok : SdkLog K × Scope K → Prop} {decode : Y → Option (PRequest K (PLog K))} {res : Res K} {empty : Res K}
  {c : Order (String × List (SdkLog K × Scope K)) → Exporter.Cfg (Res K) (List (SdkLog K × Scope K)) (Option (PRequest K (PLog K))) Y}
  {sampled : SdkLog K × Scope K → Bool} {s : State (SdkLog K × Scope K) (Res K)} {e : Exporter.St (Res K)}

/-- C108, log records: each record the processor accepted arrives at most once, reads as it was emitted, and nothing else arrives. -/
theorem async_logs_arrive_once (hc : LogCfg res ok decode c) (h : Piped cfg sampled c empty res s e qs) (hp : ∀ x ∈ s.accepted, Dated x.1 ∧ ok x) :
    ∃ l l', List.Sublist l s.accepted ∧ l'.Perm l ∧ List.Forall₂ (ReadsAsLog res) l' (arrived decode qs) := by
  obtain ⟨bs, h1, h2, _⟩ := left_once (fun o => by rw [hc.signal o]; intro h; cases h) h
  obtain ⟨l', g1, g2⟩ := logs_read hc h1 fun x hx => hp x (h2.subset hx)
  exact ⟨bs.flatten, l', h2, g1, g2⟩

/-- C108, log records: when a `force_flush` or `shutdown` has returned a result of the task, and every export succeeded, then every record accepted before the call
has arrived exactly once, and reads as it was emitted. -/
theorem async_flushed_logs_arrive (hc : LogCfg res ok decode c) (h : Piped cfg sampled c empty res s e qs) (hp : ∀ x ∈ s.accepted, Dated x.1 ∧ ok x)
    (hok : Succeeded s) (a : Async.Answer) (ha : a ∈ s.returned) (r : Async.Res) (hr : a.ret = .result r) :
    ∃ l l', s.accepted.take (s.atCall a.tok) <+: l ∧ l <+: s.accepted ∧ l'.Perm l ∧ List.Forall₂ (ReadsAsLog res) l' (arrived decode qs) := by
  obtain ⟨bs, h1, h2, h3⟩ := left_once (fun o => by rw [hc.signal o]; intro h; cases h) h
  obtain ⟨k1, k2⟩ := h3 (fun o hh => by rw [hc.signal o] at hh; cases hh.1) hok
  obtain ⟨l', g1, g2⟩ := logs_read hc h1 fun x hx => hp x (h2.subset hx)
  exact ⟨bs.flatten, l', k2 a ha r hr, k1, g1, g2⟩

end logs

/-- The bytes of OTLP in protobuf, spans (C96). -/
theorem async_spans_in_protobuf {t : Exporter.Transport} {headers : Prop.Http.HeaderMap} {contentType : List UInt8} {hit : Scope Str → Scope Str → Bool}
    (hk : ∀ a b, hit a b = true → SameScope a b) {resource : List (Str × Val)} {url : Option String} {empty : Res Str} {sampled : SdkSpan Str → Bool}
    {s : State (SdkSpan Str) (Res Str)} {e : Exporter.St (Res Str)} {qs : List (Exporter.Request (List Byte))}
    (h : Piped cfg sampled (protoSpanCfg t headers contentType hit) empty ⟨attributes resource, url⟩ s e qs) (hp : ∀ x ∈ s.accepted, Plain x) (hok : Succeeded s)
    (a : Async.Answer) (ha : a ∈ s.returned) (r : Async.Res) (hr : a.ret = .result r) :
    ∃ l l', s.accepted.take (s.atCall a.tok) <+: l ∧ l <+: s.accepted ∧ l'.Perm l ∧
      List.Forall₂ (ReadsAsSpan ⟨attributes resource, url⟩) l' (arrived Proto.readSpans qs) :=
  async_flushed_spans_arrive (protoSpanCfg_ok hk resource url) h hp hok a ha r hr

/-! ## A case -/

theorem runAll_prefix {as : List (Action X)} (h : Async.Reachable cfg sampled res s) (hs : Async.runAll cfg sampled s as = some s') : s.exported <+: s'.exported := by
  induction as generalizing s with
  | nil => injection hs with hs; subst hs; exact List.prefix_refl _
  | cons a as ih =>
    simp only [Async.runAll] at hs
    split at hs
    · rename_i s1 h1
      exact (step_prefix h h1).trans (ih (h.step h1) hs)
    · cases hs

/-- A schedule in which every export that ends succeeds is one of the pipe, if the network lets all requests succeed. -/
theorem piped_of_run (w : Exporter.World) (o : O) (hsig : ∀ o, (c o).signal = .traces) (as : List (Action X)) (has : ∀ r, .finish r ∈ as → r = .ok)
    (hg : ∀ b ∈ s'.exported, (Exporter.doExport (c o) ⟨true, res⟩ b.1 w).1 = .ok) (h : Piped cfg sampled c empty res s e qs) (he : e.alive = true)
    (hs : Async.runAll cfg sampled s as = some s') : ∃ e' qs', Piped cfg sampled c empty res s' e' qs' := by
  induction as generalizing s e qs with
  | nil => injection hs with hs; subst hs; exact ⟨e, qs, h⟩
  | cons a as ih =>
    simp only [Async.runAll] at hs
    split at hs
    case h_2 => cases hs
    rename_i s1 h1
    have has' : ∀ r, .finish r ∈ as → r = .ok := fun r hr => has r (by simp [hr])
    by_cases hf : ∃ r, a = .finish r
    · obtain ⟨r, rfl⟩ := hf
      have hrk := has r (by simp)
      subst hrk
      obtain ⟨g1, g2, g3, g4, g5, g6⟩ := step_exports h1
      obtain ⟨k, hw⟩ := g6 ⟨_, rfl⟩
      have hr := piped_reachable h
      have hlen := (Async.inv_reachable hr).outcE k hw
      obtain ⟨b, hb⟩ : ∃ b, s.exported.getLast? = some b := by
        cases hx : s.exported.getLast? with
        | none => rw [List.getLast?_eq_none_iff] at hx; rw [hx] at hlen; cases hlen
        | some b => exact ⟨b, rfl⟩
      have hee : e = ⟨true, res⟩ := by
        have := (piped_carries (fun o => by rw [hsig o]; intro h; cases h) h).1 res (exporting_resource hr hw)
        cases e; simp_all
      have hmem : b ∈ s'.exported := (runAll_prefix (hr.step h1) hs).subset (by rw [g2 (.inl ⟨_, rfl⟩)]; exact List.mem_of_getLast? hb)
      refine ih has' (.finish b w o .ok h h1 hb (by simp) ?_) he hs
      rw [hee]
      simp [hg b hmem]
    · by_cases hst : a = .stop
      · subst hst
        refine ih has' (.stop o h h1) ?_ hs
        simp [Exporter.shutdown, hsig o, he]
      · refine ih has' (.quiet a o h h1 (fun r hr => hf ⟨r, hr⟩) hst) ?_ hs
        unfold follow Exporter.setResource
        cases s1.resource <;> simp [hsig o, he]

theorem jsonSpan_plain : Plain Json.jsonSpan where
  context := ⟨rfl, by decide +kernel⟩
  start := by decide
  finish := by decide
  attrs := by intro kv h; simp [Json.jsonSpan] at h; rcases h with rfl | rfl <;> simp [NotEmptyArray]
  events := by intro e h; simp [Json.jsonSpan] at h; subst h; exact ⟨by decide, by intro kv h; simp at h; subst h; trivial⟩
  links := by
    intro l h; simp [Json.jsonSpan] at h; subst h
    exact ⟨⟨rfl, by decide +kernel⟩, by intro kv h; simp at h; subst h; trivial⟩

/-- The hypotheses hold in a case: batches of at most two, three sampled spans, a flush, every export answered. -/
example : ∃ (s : State (SdkSpan Str) (Res Str)) (e : Exporter.St (Res Str)) (qs : List (Exporter.Request (List Byte))),
    Piped ⟨.span, 10, 2⟩ (fun _ => true) (protoSpanCfg (.http true) [] [1] plainHit) ⟨[], none⟩ ⟨attributes [], none⟩ s e qs ∧ Succeeded s ∧
      ⟨0, .result .ok, some 1⟩ ∈ s.returned ∧ s.atCall 0 = 3 ∧ s.accepted = [Json.jsonSpan, Json.jsonSpan, Json.jsonSpan] ∧ ∀ x ∈ s.accepted, Plain x := by
  have h : (Async.runAll ⟨.span, 10, 2⟩ (fun _ => true) (.init (⟨attributes [], none⟩ : Res Str))
      [.emit Json.jsonSpan, .recv, .emit Json.jsonSpan, .emit Json.jsonSpan, .forceFlush, .recv, .recv, .finish .ok, .recv, .recv, .finish .ok]).map
        (fun s => (s.returned, s.atCall 0, s.accepted, s.exported, s.outcomes)) =
      some ([⟨0, .result .ok, some 1⟩], 3, [Json.jsonSpan, Json.jsonSpan, Json.jsonSpan],
        [([Json.jsonSpan, Json.jsonSpan], some ⟨attributes [], none⟩), ([Json.jsonSpan], some ⟨attributes [], none⟩)], [.ok, .ok]) := rfl
  obtain ⟨s, hs, he⟩ := Option.map_eq_some_iff.1 h
  simp only [Prod.mk.injEq] at he
  obtain ⟨e, qs, hp⟩ := piped_of_run (c := protoSpanCfg (.http true) [] [1] plainHit) (empty := (⟨[], none⟩ : Res Str)) ⟨true, some ⟨200, 0⟩⟩
    ⟨id, fun _ => .refl _⟩ (fun _ => rfl) _ (by intro r hr; simpa using hr) (fun b hb => by
      rw [he.2.2.2.1] at hb
      simp only [List.mem_cons, List.not_mem_nil, or_false] at hb
      rcases hb with rfl | rfl <;> decide +kernel) .init rfl hs
  refine ⟨s, e, qs, hp, fun r hr => ?_, by rw [he.1]; simp, he.2.1, he.2.2.1, fun x hx => ?_⟩
  · rw [he.2.2.2.2] at hr; simpa using hr
  · rw [he.2.2.1] at hx
    simp at hx
    subst hx
    exact jsonSpan_plain

end Otel.EndToEnd.AsyncPipe
