import Verif.Sdk.BspProps
import Verif.Logs.BlpProps
import Verif.Otlp.Exporter
import Verif.Otlp.GroupProps
import Verif.Otlp.Props
/-!
# From the batch processors to the collector (C91)

A batch processor together with an OTLP exporter: whenever the worker of the processor hands a batch to its exporter, the exporter of C86 builds the request of C53 and
C54 and sends it, and the worker gets its result. What the collector receives is read by the receiver of `Verif.Otlp.Spec`. The parts are the models of C26 to C28
(opentelemetry-sdk/src/trace/span_processor.rs), C33 and C34 (opentelemetry-sdk/src/logs/batch_log_processor.rs), C86 (opentelemetry-otlp/src/exporter); this file
puts them together. The wire format is a parameter that can be decoded.
-/

namespace Otel.EndToEnd
open Rust Otel.Otlp
open Common (Val Scope)

/-- A processor seen from its exporter: its steps, given the answer of the exporter to the batch of the step if there is one, the batches handed over so far, and the
calls of the exporter's `shutdown`. -/
structure Proc (X : Type) where
  S : Type
  init : S
  step : S → Bool → S → Prop
  exported : S → List (List X)
  shutdowns : S → Nat
  fresh : exported init = []

/-- The batch span processor of C26. -/
def spanProc (cfg : Sdk.Bsp.Cfg) (X : Type) : Proc X where
  S := Sdk.Bsp.State X
  init := Sdk.Bsp.State.init
  step s ok s' := ∃ a, Sdk.Bsp.step cfg s a = some s' ∧ ∀ b, a = .work b → b = ok
  exported := Sdk.Bsp.State.exported
  shutdowns := Sdk.Bsp.State.exporterShutdowns
  fresh := rfl

/-- The batch log processor of C33. -/
def logProc (cfg : Sdk.Bsp.Cfg) (X : Type) : Proc X where
  S := Logs.Blp.State X
  init := Logs.Blp.State.init
  step s ok s' := ∃ a, Logs.Blp.step cfg s a = some s' ∧ ∀ b, a = .work b → b = ok
  exported := Logs.Blp.State.exported
  shutdowns := Logs.Blp.State.exporterShutdowns
  fresh := rfl

/-- The export of one batch: what happened outside, the result and the requests sent. -/
structure Sending (Y : Type) where
  world : Exporter.World
  outcome : Exporter.Outcome
  sent : List (Exporter.Request Y)

variable {X R M Y O : Type}

/-- Processor and exporter together. `o` stands for what can differ from export to export: the order in which a hash map is iterated. -/
inductive Pipe (p : Proc X) (c : O → Exporter.Cfg R (List X) M Y) (res : R) : p.S → Exporter.St R → List (Sending Y) → Prop
  /-- the provider has set the resource when it was built (the thread of a batch processor sets it when it reads the message: `Sdk.Bsp.labelled_after_flush` and
  `Sdk.Bsp.at_most_one_unlabelled_partial` say when) -/
  | init : Pipe p c res p.init ⟨true, res⟩ []
  /-- a step without the exporter -/
  | quiet {s s' e log} (ok : Bool) : Pipe p c res s e log → p.step s ok s' → p.exported s' = p.exported s → p.shutdowns s' = p.shutdowns s → Pipe p c res s' e log
  /-- a batch is exported, and the processor gets the result -/
  | export {s s' e log} (b : List X) (w : Exporter.World) (o : O) : Pipe p c res s e log →
      p.step s (decide ((Exporter.doExport (c o) e b w).1 = .ok)) s' → p.exported s' = p.exported s ++ [b] →
      Pipe p c res s' e (log ++ [⟨w, (Exporter.doExport (c o) e b w).1, (Exporter.doExport (c o) e b w).2⟩])
  /-- the exporter is shut down -/
  | shut {s s' e log} (ok : Bool) (o : O) : Pipe p c res s e log → p.step s ok s' → p.exported s' = p.exported s → p.shutdowns s' = p.shutdowns s + 1 →
      Pipe p c res s' (Exporter.shutdown (c o) e).2 log

/-- The requests that were sent, in order. -/
def requests (log : List (Sending Y)) : List (Exporter.Request Y) := log.flatMap (·.sent)

/-- Every export succeeded. -/
def AllOk (log : List (Sending Y)) : Prop := ∀ x ∈ log, x.outcome = .ok

/-! ## Lemmas -/

/-- The exporter keeps its resource; each request is a batch, in order; if every export succeeded, every batch has its request. -/
theorem pipe_requests {p : Proc X} {c : O → Exporter.Cfg R (List X) M Y} {res : R} {s : p.S} {e : Exporter.St R} {log : List (Sending Y)} (h : Pipe p c res s e log) :
    e.resource = res ∧ ∃ bs, List.Sublist bs (p.exported s) ∧
      List.Forall₂ (fun b q => ∃ o, (c o).encode ((c o).message res b) = some q.body) bs (requests log) ∧
      ((∀ o, Exporter.TellsStatus (c o)) → AllOk log → bs = p.exported s) := by
  induction h with
  | init => exact ⟨rfl, [], by simp, .nil, fun _ _ => p.fresh.symm⟩
  | quiet ok _ _ he _ ih => rw [he]; exact ih
  | @shut s s' e log ok o _ _ he _ ih =>
    obtain ⟨h1, h2⟩ := ih
    rw [he]
    exact ⟨(Exporter.shutdown_resource (c o) e).trans h1, h2⟩
  | @«export» s s' e log b w o _ _ he ih =>
    obtain ⟨h1, bs, h2, h3, h4⟩ := ih
    refine ⟨h1, ?_⟩
    have hr : requests (log ++ [(⟨w, (Exporter.doExport (c o) e b w).1, (Exporter.doExport (c o) e b w).2⟩ : Sending Y)]) = requests log ++ (Exporter.doExport (c o) e b w).2 := by
      rw [requests, List.flatMap_append]
      simp [requests]
    have hall : AllOk (log ++ [(⟨w, (Exporter.doExport (c o) e b w).1, (Exporter.doExport (c o) e b w).2⟩ : Sending Y)]) →
        AllOk log ∧ (Exporter.doExport (c o) e b w).1 = .ok := fun ha =>
      ⟨fun x hx => ha x (by simp [hx]), ha ⟨w, _, (Exporter.doExport (c o) e b w).2⟩ (by simp)⟩
    rcases Exporter.doExport_sent (c o) e b w with hs | ⟨q, hs, henc, _⟩
    · refine ⟨bs, ?_, ?_, ?_⟩
      · rw [he]; exact h2.trans (List.sublist_append_left _ _)
      · rw [hr, hs, List.append_nil]; exact h3
      · intro ht ha
        obtain ⟨_, q, hq, _⟩ := (Exporter.doExport_ok (c o) (ht o) e b w).1 (hall ha).2
        rw [hs] at hq
        cases hq
    · refine ⟨bs ++ [b], ?_, ?_, ?_⟩
      · rw [he]; exact h2.append (List.Sublist.refl _)
      · rw [hr, hs]
        exact List.rel_append h3 (.cons ⟨o, by rw [← h1]; exact henc⟩ .nil)
      · intro ht ha
        rw [he, h4 ht (hall ha).1]

/-- A processor in the pipe is in a state of its own model. -/
theorem pipe_state {p : Proc X} {c : O → Exporter.Cfg R (List X) M Y} {res : R} {s : p.S} {e : Exporter.St R} {log : List (Sending Y)} (h : Pipe p c res s e log)
    (P : p.S → Prop) (h0 : P p.init) (h1 : ∀ s ok s', P s → p.step s ok s' → P s') : P s := by
  induction h with
  | init => exact h0
  | quiet ok _ hs _ _ ih => exact h1 _ _ _ ih hs
  | «export» b w o _ hs _ ih => exact h1 _ _ _ ih hs
  | shut ok o _ hs _ _ ih => exact h1 _ _ _ ih hs

theorem pipe_span_reachable {cfg : Sdk.Bsp.Cfg} {c : O → Exporter.Cfg R (List X) M Y} {res : R} {s : Sdk.Bsp.State X} {e : Exporter.St R} {log : List (Sending Y)}
    (h : Pipe (spanProc cfg X) c res s e log) : Sdk.Bsp.Reachable cfg s :=
  pipe_state h (Sdk.Bsp.Reachable cfg) .init fun _ _ _ ih ⟨_, ha, _⟩ => .step ih ha

theorem pipe_log_reachable {cfg : Sdk.Bsp.Cfg} {c : O → Exporter.Cfg R (List X) M Y} {res : R} {s : Logs.Blp.State X} {e : Exporter.St R} {log : List (Sending Y)}
    (h : Pipe (logProc cfg X) c res s e log) : Logs.Blp.Reachable cfg s :=
  pipe_state h (Logs.Blp.Reachable cfg) .init fun _ _ _ ih ⟨_, ha, _⟩ => .step ih ha

/-- A rearrangement of mapped elements is the map of a rearrangement. -/
theorem perm_of_map {α β : Type} {f : α → β} {xs ys : List β} (h : xs.Perm ys) : ∀ l : List α, ys = l.map f → ∃ l' : List α, l'.Perm l ∧ xs = l'.map f := by
  induction h with
  | nil => intro l hl; exact ⟨l, .refl _, hl⟩
  | cons x _ ih =>
    intro l hl
    cases l with
    | nil => cases hl
    | cons a l =>
      simp only [List.map_cons, List.cons.injEq] at hl
      obtain ⟨l', h1, h2⟩ := ih l hl.2
      exact ⟨a :: l', h1.cons a, by rw [List.map_cons, ← hl.1, h2]⟩
  | swap x y xs =>
    intro l hl
    match l, hl with
    | a :: b :: l, hl =>
      simp only [List.map_cons, List.cons.injEq] at hl
      exact ⟨b :: a :: l, .swap _ _ _, by simp [hl.1, hl.2.1, hl.2.2]⟩
  | trans _ _ ih1 ih2 =>
    intro l hl
    obtain ⟨l1, h1, h2⟩ := ih2 l hl
    obtain ⟨l2, h3, h4⟩ := ih1 l1 h2
    exact ⟨l2, h3.trans h1, h4⟩

/-! ## Specification -/

variable {K : Type}

/-- A span or record as the collector finds it: with the resource and the scope under which it is. -/
structure Arrival (K I : Type) where
  resource : List (PKv K)
  scope : PScope K
  item : I

/-- The spans or records of all groups of a request. -/
def arrivals {I : Type} (r : PRequest K I) : List (Arrival K I) := r.groups.flatMap fun g => g.items.map fun i => ⟨r.resource, g.scope, i⟩

/-- What the collector finds in the requests. `decode` reads the wire format. -/
def arrived {I : Type} (decode : Y → Option (PRequest K I)) (qs : List (Exporter.Request Y)) : List (Arrival K I) :=
  qs.flatMap fun q => match decode q.body with
    | some r => arrivals r
    | none => []

/-- The collector's reading of a span is the span: ids, flags, trace state, parent, kind, name, times, attributes, events, links, counts and status; under the
resource of the provider, the name and the version of the scope and its attributes, up to their order, unless one is a zero float. -/
structure ReadsAsSpan (res : Res K) (x : SdkSpan K) (a : Arrival K (PSpan K)) : Prop where
  span : readSpan x.scope a.item = some x
  resource : a.resource = res.attributes
  scope : a.scope.name = x.scope.name ∧ a.scope.version = x.scope.version.getD ""
  scopeAttributes : (∀ p ∈ x.scope.attrs, Common.ZeroFree p.2) → a.scope.attributes.Perm (attributes x.scope.attrs)

/-- The record was observed between 1970 and 2554, as every record is that went through `emit` under a sane clock. -/
def Dated (r : SdkLog K) : Prop := ∃ o, r.observedTimestamp = some o ∧ 0 ≤ o ∧ o < 2 ^ 64

/-- The collector's reading of a record says what the record says. -/
structure SaysLog (r : SdkLog K) (p : PLog K) : Prop where
  observed : r.observedTimestamp = some ((readLog p).observed : Int)
  severity : (readLog p).severity = r.severityNumber
  body : (readLog p).body = r.body
  attributes : (readLog p).attributes = r.attributesIter
  timestamp : ∀ t, r.timestamp = some t → 0 < t → t < 2 ^ 64 → (readLog p).timestamp = some t.toNat
  noTimestamp : r.timestamp = none → (readLog p).timestamp = none
  eventName : ∀ n, r.eventName = some n → n ≠ [] → (readLog p).eventName = some n
  noEventName : r.eventName = none → (readLog p).eventName = none
  severityText : ∀ n, r.severityText = some n → n ≠ [] → (readLog p).severityText = some n
  noSeverityText : r.severityText = none → (readLog p).severityText = none
  trace : ∀ c, r.traceContext = some c → (readLog p).ids = some (c.traceId, c.spanId) ∧ (readLog p).flags = c.traceFlags.getD 0
  noTrace : r.traceContext = none → (readLog p).ids = none ∧ (readLog p).flags = 0

/-- It does so under the resource of the provider and a scope that has the name of the record's target, or of the logger's scope if it has none. -/
structure ReadsAsLog (res : Res K) (x : SdkLog K × Scope K) (a : Arrival K (PLog K)) : Prop where
  record : SaysLog x.1 a.item
  resource : a.resource = res.attributes
  target : ∀ t, x.1.target = some t → a.scope.name = String.ofList t
  scope : x.1.target = none → a.scope.name = x.2.name

/-! ## Lemmas on the readings -/

theorem readsAsLog {r : SdkLog K} (hd : Dated r) {p : PLog K} (h : logOf r = some p) : SaysLog r p := by
  obtain ⟨o, ho, h0, h1⟩ := hd
  obtain ⟨p', hp, g1, g2, g3, g4, _, g5, g6, g7, g8, g9, g10, g11, g12⟩ := log_roundtrip_partial r ho h0 h1
  rw [h] at hp
  cases hp
  exact ⟨by rw [g1]; exact ho, g2, g3, g4, g5, g6, g7, g8, g9, g10, g11, g12⟩

/-- What arrives, if each request is a batch that was encoded so that the items are those of the batch. -/
theorem arrived_of {I : Type} {c : O → Exporter.Cfg R (List X) M Y} {res : R} {decode : Y → Option (PRequest K I)} {P : X → Arrival K I → Prop}
    {bs : List (List X)} {qs : List (Exporter.Request Y)} (h : List.Forall₂ (fun b q => ∃ o, (c o).encode ((c o).message res b) = some q.body) bs qs)
    (hd : ∀ b ∈ bs, ∀ o y, (c o).encode ((c o).message res b) = some y → ∃ r l, decode y = some r ∧ l.Perm b ∧ List.Forall₂ P l (arrivals r)) :
    ∃ l, l.Perm bs.flatten ∧ List.Forall₂ P l (arrived decode qs) := by
  induction h with
  | nil => exact ⟨[], .refl _, .nil⟩
  | @cons b q bs qs hq _ ih =>
    obtain ⟨o, ho⟩ := hq
    obtain ⟨r, l, hr, hp, hl⟩ := hd b (by simp) o _ ho
    obtain ⟨l', hp', hl'⟩ := ih fun b hb => hd b (by simp [hb])
    have e : arrived decode (q :: qs) = arrivals r ++ arrived decode qs := by simp [arrived, hr]
    exact ⟨l ++ l', by rw [List.flatten_cons]; exact hp.append hp', by rw [e]; exact List.rel_append hl hl'⟩

theorem forall2_flatMap {α β γ : Type} {P : β → γ → Prop} {l : List α} {f : α → List β} {g : α → List γ} (h : ∀ a ∈ l, List.Forall₂ P (f a) (g a)) :
    List.Forall₂ P (l.flatMap f) (l.flatMap g) := by
  induction l with
  | nil => exact .nil
  | cons a l ih =>
    rw [List.flatMap_cons, List.flatMap_cons]
    exact List.rel_append (h a (by simp)) (ih fun b hb => h b (by simp [hb]))

theorem forall2_map_right {α β : Type} {P : α → β → Prop} {l : List α} {f : α → β} (h : ∀ a ∈ l, P a (f a)) : List.Forall₂ P l (l.map f) := by
  induction l with
  | nil => exact .nil
  | cons a l ih => exact .cons (h a (by simp)) (ih fun b hb => h b (by simp [hb]))

theorem flatten_sublist {α : Type} {a b : List (List α)} (h : List.Sublist a b) : List.Sublist a.flatten b.flatten := by
  induction h with
  | slnil => exact List.Sublist.refl _
  | cons x _ ih => exact ih.trans (List.sublist_append_right _ _)
  | cons_cons x _ ih => exact List.Sublist.append (List.Sublist.refl _) ih

/-! ## Spans -/

/-- The scopes show the same: name, version, and, unless one is a zero float, the attributes up to their order. -/
structure SameScope (a b : Scope K) : Prop where
  name : a.name = b.name
  version : a.version = b.version
  attributes : (∀ p ∈ b.attrs, Common.ZeroFree p.2) → a.attrs.Perm b.attrs

/-- Keys that the map of the SDK takes for the same show the same. -/
theorem sameScope_of_hit [LinearOrder K] {srt : Metrics.Sorter K Val} {hit : Scope K → Scope K → Bool} (hk : MapKeys srt hit) (a b : Scope K) (h : hit a b = true) :
    SameScope a b := by
  have h1 := hk.sound a b h
  have h2 := Common.scope_eq_partial srt ((Common.scope_equivalence srt).1 _ _ h1)
  exact ⟨h2.1.symm, h2.2.1.symm, fun hz => (h2.2.2.2.2 hz).1.symm⟩

/-- The exporter's configuration for spans: OTLP traces, the message of C53 with a map whose keys are scopes that show the same (`sameScope_of_hit`), any wire format
in which the messages for batches with this resource can be decoded. -/
structure SpanCfg (hit : Scope K → Scope K → Bool) (res : Res K) (decode : Y → Option (PRequest K (PSpan K)))
    (c : Order (Scope K × List (SdkSpan K)) → Exporter.Cfg (Res K) (List (SdkSpan K)) (PRequest K (PSpan K)) Y) : Prop where
  keys : ∀ a b, hit a b = true → SameScope a b
  signal : ∀ o, (c o).signal = .traces
  message : ∀ o, (c o).message = groupSpans hit o
  wire : ∀ o b y, (c o).encode (groupSpans hit o res b) = some y → decode y = some (groupSpans hit o res b)

/-- What arrives from a list of batches of spans. -/
theorem spans_read {hit : Scope K → Scope K → Bool} {decode : Y → Option (PRequest K (PSpan K))}
    {c : Order (Scope K × List (SdkSpan K)) → Exporter.Cfg (Res K) (List (SdkSpan K)) (PRequest K (PSpan K)) Y} {res : Res K} (hc : SpanCfg hit res decode c)
    {bs : List (List (SdkSpan K))} {qs : List (Exporter.Request Y)} (h : List.Forall₂ (fun b q => ∃ o, (c o).encode ((c o).message res b) = some q.body) bs qs)
    (hp : ∀ x ∈ bs.flatten, Plain x) : ∃ l', l'.Perm bs.flatten ∧ List.Forall₂ (ReadsAsSpan res) l' (arrived decode qs) := by
  refine arrived_of h fun b hb o y hy => ?_
  rw [hc.message] at hy
  refine ⟨_, (o.run (groupBy hit (·.scope) b)).flatMap Prod.snd, hc.wire o _ y hy, ((o.perm _).flatMap_right _).trans (groupBy_perm b), ?_⟩
  simp only [arrivals, groupSpans, List.flatMap_map, List.map_map]
  refine forall2_flatMap fun g hg => forall2_map_right fun x hx => ?_
  obtain ⟨h1, z, zs, h2, h3, h4⟩ := groupBy_group (hit := hit) (key := fun x : SdkSpan K => x.scope) b g ((o.perm _).mem_iff.1 hg)
  have hs : SameScope g.1 x.scope := by
    rw [h2] at hx
    rcases List.mem_cons.1 hx with rfl | hx
    · rw [h3]; exact ⟨rfl, rfl, fun _ => .refl _⟩
    · rw [h3]; exact hc.keys _ _ (h4 x hx)
  exact ⟨span_roundtrip_partial (hp x (List.mem_flatten.2 ⟨b, hb, h1.subset hx⟩)), rfl, ⟨hs.name, congrArg (fun v => v.getD "") hs.version⟩,
    fun hz => (hs.attributes hz).map _⟩

/-- C91, spans: whatever the schedule, and whatever the network does, each span the processor accepted arrives at most once, in the order of the batches up to the
grouping in each request, reads as it was recorded, and nothing else arrives. -/
theorem spans_arrive_once {hit : Scope K → Scope K → Bool} {decode : Y → Option (PRequest K (PSpan K))}
    {c : Order (Scope K × List (SdkSpan K)) → Exporter.Cfg (Res K) (List (SdkSpan K)) (PRequest K (PSpan K)) Y} {res : Res K} (hc : SpanCfg hit res decode c)
    {cfg : Sdk.Bsp.Cfg} {s : Sdk.Bsp.State (SdkSpan K)} {e : Exporter.St (Res K)} {log : List (Sending Y)} (h : Pipe (spanProc cfg (SdkSpan K)) c res s e log)
    (hp : ∀ x ∈ s.accepted, Plain x) :
    ∃ l l', List.Sublist l s.accepted ∧ l'.Perm l ∧ List.Forall₂ (ReadsAsSpan res) l' (arrived decode (requests log)) := by
  obtain ⟨_, bs, h1, h2, _⟩ := pipe_requests h
  have hcons := (Sdk.Bsp.inv_reachable (pipe_span_reachable h)).conserved
  have hsub : List.Sublist bs.flatten s.accepted := by
    rw [hcons, List.append_assoc]
    exact (flatten_sublist h1).trans (List.sublist_append_left _ _)
  obtain ⟨l', g1, g2⟩ := spans_read hc h2 fun x hx => hp x (hsub.subset hx)
  exact ⟨bs.flatten, l', hsub, g1, g2⟩

/-- C91, spans: when a `force_flush` or `shutdown` has returned a result, at most one batch was waiting when it was called, and every export succeeded, then every
span accepted before the call has arrived exactly once, and reads as it was recorded. -/
theorem flushed_spans_arrive_partial {hit : Scope K → Scope K → Bool} {decode : Y → Option (PRequest K (PSpan K))}
    {c : Order (Scope K × List (SdkSpan K)) → Exporter.Cfg (Res K) (List (SdkSpan K)) (PRequest K (PSpan K)) Y} {res : Res K} (hc : SpanCfg hit res decode c)
    {cfg : Sdk.Bsp.Cfg} {s : Sdk.Bsp.State (SdkSpan K)} {e : Exporter.St (Res K)} {log : List (Sending Y)} (h : Pipe (spanProc cfg (SdkSpan K)) c res s e log)
    (hp : ∀ x ∈ s.accepted, Plain x) (hok : AllOk log) (tok : Nat) (r : Sdk.Bsp.Res) (hr : (tok, Sdk.Bsp.Ret.result r) ∈ s.returned)
    (hfit : (s.atCall tok).1 ≤ (s.atCall tok).2 + cfg.maxBatch) :
    ∃ l l', s.accepted.take (s.atCall tok).1 <+: l ∧ l <+: s.accepted ∧ l'.Perm l ∧ List.Forall₂ (ReadsAsSpan res) l' (arrived decode (requests log)) := by
  obtain ⟨_, bs, _, h2, h3⟩ := pipe_requests h
  have hreach := pipe_span_reachable h
  have hcons := (Sdk.Bsp.inv_reachable hreach).conserved
  have hbs : bs = s.exported := h3 (fun o hh => by rw [hc.signal o] at hh; cases hh.1) hok
  have hpre : s.exported.flatten <+: s.accepted := by
    rw [hcons, List.append_assoc]
    exact List.prefix_append _ _
  subst hbs
  obtain ⟨l', g1, g2⟩ := spans_read hc h2 fun x hx => hp x (hpre.subset hx)
  exact ⟨_, l', Sdk.Bsp.flush_exports_all_partial cfg s hreach tok r hr hfit, hpre, g1, g2⟩

/-! ## Log records -/

/-- The exporter's configuration for log records; a message that panics is no message. Records that are `ok`, with this resource, can be decoded. -/
structure LogCfg (res : Res K) (ok : SdkLog K × Scope K → Prop) (decode : Y → Option (PRequest K (PLog K)))
    (c : Order (String × List (SdkLog K × Scope K)) → Exporter.Cfg (Res K) (List (SdkLog K × Scope K)) (Option (PRequest K (PLog K))) Y) : Prop where
  signal : ∀ o, (c o).signal = .logs
  message : ∀ o, (c o).message = groupLogs o
  panic : ∀ o, (c o).encode none = none
  wire : ∀ o b m y, (∀ x ∈ b, ok x) → groupLogs o res b = some m → (c o).encode (some m) = some y → decode y = some m

theorem logs_read {decode : Y → Option (PRequest K (PLog K))}
    {c : Order (String × List (SdkLog K × Scope K)) → Exporter.Cfg (Res K) (List (SdkLog K × Scope K)) (Option (PRequest K (PLog K))) Y} {res : Res K}
    {ok : SdkLog K × Scope K → Prop} (hc : LogCfg res ok decode c) {bs : List (List (SdkLog K × Scope K))} {qs : List (Exporter.Request Y)}
    (h : List.Forall₂ (fun b q => ∃ o, (c o).encode ((c o).message res b) = some q.body) bs qs) (hp : ∀ x ∈ bs.flatten, Dated x.1 ∧ ok x) :
    ∃ l', l'.Perm bs.flatten ∧ List.Forall₂ (ReadsAsLog res) l' (arrived decode qs) := by
  refine arrived_of h fun b hb o y hy => ?_
  rw [hc.message] at hy
  have hd : ∀ x ∈ b, Dated x.1 ∧ ok x := fun x hx => hp x (List.mem_flatten.2 ⟨b, hb, hx⟩)
  obtain ⟨req, hreq, hjunk⟩ := logs_once o res b (fun x hx => by
    obtain ⟨t, ht, _⟩ := (hd x hx).1
    rw [ht]; rfl)
  clear hjunk
  rw [hreq] at hy
  refine ⟨req, (o.run (groupBy (fun a b => decide (a = b)) logKey b)).flatMap Prod.snd, hc.wire o b _ y (fun x hx => (hd x hx).2) hreq hy,
    ((o.perm _).flatMap_right _).trans (groupBy_perm b), ?_⟩
  obtain ⟨gs, hgs, rfl⟩ := Option.map_eq_some_iff.1 hreq
  have hg : ∀ g ∈ o.run (groupBy (fun a b => decide (a = b)) logKey b), ∀ x ∈ g.2, x ∈ b ∧ g.1 = logKey x := fun g hg x hx => by
    obtain ⟨h1, z, zs, h2, h3, h4⟩ := groupBy_group (hit := fun a b => decide (a = b)) (key := logKey) b g ((o.perm _).mem_iff.1 hg)
    refine ⟨h1.subset hx, ?_⟩
    rw [h2] at hx
    rcases List.mem_cons.1 hx with rfl | hx
    · exact h3
    · rw [h3]; exact of_decide_eq_true (h4 x hx)
  generalize o.run (groupBy (fun a b => decide (a = b)) logKey b) = m at hgs hg
  show List.Forall₂ (ReadsAsLog res) (m.flatMap Prod.snd) (gs.flatMap fun g => g.items.map fun i => ⟨res.attributes, g.scope, i⟩)
  clear hreq hy h
  induction m generalizing gs with
  | nil => cases hgs; exact .nil
  | cons g m ih =>
    rw [List.mapM_cons] at hgs
    obtain ⟨g', h1, h2⟩ := Option.bind_eq_some_iff.1 hgs
    obtain ⟨gs', h3, h4⟩ := Option.bind_eq_some_iff.1 h2
    cases h4
    rw [List.flatMap_cons, List.flatMap_cons]
    refine List.rel_append ?_ (ih gs' h3 fun g hg' => hg g (by simp [hg']))
    obtain ⟨f, hf, h5⟩ := Option.bind_eq_some_iff.1 h1
    obtain ⟨rs, hrs, h6⟩ := Option.bind_eq_some_iff.1 h5
    cases h6
    have hg2 := hg g (by simp)
    simp only
    generalize hl : g.2 = l at hrs hg2
    clear hf hl h1 h5 h2 hgs hg
    induction l generalizing rs with
    | nil => cases hrs; exact .nil
    | cons x l ih2 =>
      rw [List.mapM_cons] at hrs
      obtain ⟨p, k1, k2⟩ := Option.bind_eq_some_iff.1 hrs
      obtain ⟨ps, k3, k4⟩ := Option.bind_eq_some_iff.1 k2
      cases k4
      refine .cons ⟨readsAsLog (hd x (hg2 x (by simp)).1).1 k1, rfl, fun t ht => ?_, fun ht => ?_⟩ (ih2 ps k3 fun x hx => hg2 x (by simp [hx]))
      · simp only [scopeOf]
        rw [(hg2 x (by simp)).2, logKey, ht]; rfl
      · simp only [scopeOf]
        rw [(hg2 x (by simp)).2, logKey, ht]; rfl

/-- C91, log records: each record the processor accepted arrives at most once, reads as it was emitted, and nothing else arrives. -/
theorem logs_arrive_once {decode : Y → Option (PRequest K (PLog K))}
    {c : Order (String × List (SdkLog K × Scope K)) → Exporter.Cfg (Res K) (List (SdkLog K × Scope K)) (Option (PRequest K (PLog K))) Y} {res : Res K}
    {ok : SdkLog K × Scope K → Prop} (hc : LogCfg res ok decode c) {cfg : Sdk.Bsp.Cfg} {s : Logs.Blp.State (SdkLog K × Scope K)} {e : Exporter.St (Res K)} {log : List (Sending Y)}
    (h : Pipe (logProc cfg (SdkLog K × Scope K)) c res s e log) (hp : ∀ x ∈ s.accepted, Dated x.1 ∧ ok x) :
    ∃ l l', List.Sublist l s.accepted ∧ l'.Perm l ∧ List.Forall₂ (ReadsAsLog res) l' (arrived decode (requests log)) := by
  obtain ⟨_, bs, h1, h2, _⟩ := pipe_requests h
  have hcons := (Logs.Blp.inv_reachable (pipe_log_reachable h)).conserved
  have hsub : List.Sublist bs.flatten s.accepted := by
    rw [hcons, List.append_assoc]
    exact (flatten_sublist h1).trans (List.sublist_append_left _ _)
  obtain ⟨l', g1, g2⟩ := logs_read hc h2 fun x hx => hp x (hsub.subset hx)
  exact ⟨bs.flatten, l', hsub, g1, g2⟩

/-- C91, log records: when a `force_flush` or `shutdown` has returned a result, no emit was between its two steps when the worker began it, and every export succeeded,
then every record accepted before the call has arrived exactly once, and reads as it was emitted. -/
theorem flushed_logs_arrive_partial {decode : Y → Option (PRequest K (PLog K))}
    {c : Order (String × List (SdkLog K × Scope K)) → Exporter.Cfg (Res K) (List (SdkLog K × Scope K)) (Option (PRequest K (PLog K))) Y} {res : Res K}
    {ok : SdkLog K × Scope K → Prop} (hc : LogCfg res ok decode c) {cfg : Sdk.Bsp.Cfg} (hcap : cfg.maxQueue < 2 ^ 64) {s : Logs.Blp.State (SdkLog K × Scope K)} {e : Exporter.St (Res K)} {log : List (Sending Y)}
    (h : Pipe (logProc cfg (SdkLog K × Scope K)) c res s e log) (hp : ∀ x ∈ s.accepted, Dated x.1 ∧ ok x) (hok : AllOk log) (tok : Nat) (r : Sdk.Bsp.Res)
    (hr : (tok, Sdk.Bsp.Ret.result r, 0) ∈ s.returned) :
    ∃ l l', s.accepted.take (s.atCall tok) <+: l ∧ l <+: s.accepted ∧ l'.Perm l ∧ List.Forall₂ (ReadsAsLog res) l' (arrived decode (requests log)) := by
  obtain ⟨_, bs, _, h2, h3⟩ := pipe_requests h
  have hreach := pipe_log_reachable h
  have hcons := (Logs.Blp.inv_reachable hreach).conserved
  have hbs : bs = s.exported := h3 (fun o hh => by rw [hc.signal o] at hh; cases hh.1) hok
  have hpre : s.exported.flatten <+: s.accepted := by
    rw [hcons, List.append_assoc]
    exact List.prefix_append _ _
  subst hbs
  obtain ⟨l', g1, g2⟩ := logs_read hc h2 fun x hx => hp x (hpre.subset hx)
  exact ⟨_, l', Logs.Blp.flush_exports_all_partial cfg hcap s hreach tok r hr, hpre, g1, g2⟩

/-! ## Witnesses -/

theorem bsp_step_exporter {cfg : Sdk.Bsp.Cfg} {s s' : Sdk.Bsp.State X} {a : Sdk.Bsp.Action X} (hs : Sdk.Bsp.step cfg s a = some s') :
    s'.exporterShutdowns = s.exporterShutdowns ∧ (s'.exported = s.exported ∨ ∃ ok b, a = .work ok ∧ s'.exported = s.exported ++ [b]) := by
  cases a with
  | call t c =>
    simp only [Sdk.Bsp.step, Sdk.Bsp.callStep] at hs
    cases_step hs
    all_goals first | (cases hs; done) | (injection hs with hs; subst hs; exact ⟨rfl, .inl rfl⟩)
  | thread t =>
    simp only [Sdk.Bsp.step, Sdk.Bsp.threadStep] at hs
    cases_step hs
    all_goals first | (cases hs; done) | (injection hs with hs; subst hs; exact ⟨rfl, .inl rfl⟩)
  | timeout t =>
    simp only [Sdk.Bsp.step, Sdk.Bsp.timeoutStep] at hs
    cases_step hs
    all_goals first | (cases hs; done) | (injection hs with hs; subst hs; exact ⟨rfl, .inl rfl⟩)
  | take =>
    simp only [Sdk.Bsp.step, Sdk.Bsp.takeStep] at hs
    cases_step hs
    all_goals first | (cases hs; done) | (injection hs with hs; subst hs; exact ⟨rfl, .inl rfl⟩)
  | timer =>
    simp only [Sdk.Bsp.step, Sdk.Bsp.timerStep] at hs
    cases_step hs
    all_goals first | (cases hs; done) | (injection hs with hs; subst hs; exact ⟨rfl, .inl rfl⟩)
  | work ok =>
    simp only [Sdk.Bsp.step, Sdk.Bsp.workStep] at hs
    cases_step hs
    all_goals first | (cases hs; done) | (injection hs with hs; subst hs; exact ⟨rfl, .inl rfl⟩) | (injection hs with hs; subst hs; exact ⟨rfl, .inr ⟨ok, _, rfl, rfl⟩⟩)
  | setResource r =>
    injection hs with hs; subst hs
    unfold Sdk.Bsp.setResourceStep; split <;> exact ⟨rfl, .inl rfl⟩

theorem bsp_run_prefix {cfg : Sdk.Bsp.Cfg} (as : List (Sdk.Bsp.Action X)) {s s' : Sdk.Bsp.State X} (hr : Sdk.Bsp.runAll cfg s as = some s') :
    s.exported <+: s'.exported := by
  induction as generalizing s with
  | nil => simp [Sdk.Bsp.runAll] at hr; subst hr; exact List.prefix_refl _
  | cons a as ih =>
    simp only [Sdk.Bsp.runAll] at hr
    split at hr
    · rename_i s1 hs1
      have h2 := ih hr
      obtain ⟨_, h3 | ⟨_, b, _, h3⟩⟩ := bsp_step_exporter hs1
      · exact h3 ▸ h2
      · exact (List.prefix_append _ _).trans (h3 ▸ h2)
    · cases hr

/-- A schedule of the processor in which every export succeeds is one of the pipe, if the network lets all requests succeed. -/
theorem span_pipe_of_run {cfg : Sdk.Bsp.Cfg} {c : O → Exporter.Cfg R (List X) M Y} {res : R} {s s' : Sdk.Bsp.State X} (w : Exporter.World) (o : O)
    (hg : ∀ b ∈ s'.exported, (Exporter.doExport (c o) ⟨true, res⟩ b w).1 = .ok) (as : List (Sdk.Bsp.Action X)) (hw : ∀ b, .work b ∈ as → b = true)
    {log : List (Sending Y)} (h : Pipe (spanProc cfg X) c res s ⟨true, res⟩ log) (hok : AllOk log) (hr : Sdk.Bsp.runAll cfg s as = some s') :
    ∃ log', Pipe (spanProc cfg X) c res s' ⟨true, res⟩ log' ∧ AllOk log' := by
  induction as generalizing s log with
  | nil => simp [Sdk.Bsp.runAll] at hr; subst hr; exact ⟨log, h, hok⟩
  | cons a as ih =>
    simp only [Sdk.Bsp.runAll] at hr
    split at hr
    · rename_i s1 hs1
      have m2 := bsp_run_prefix as hr
      obtain ⟨h1, h2 | ⟨ok, b, ha, h2⟩⟩ := bsp_step_exporter hs1
      · exact ih (fun b hb => hw b (by simp [hb])) (.quiet true h ⟨a, hs1, fun b hb => hw b (by simp [hb])⟩ h2 h1) hok hr
      · have hb : b ∈ s'.exported := m2.subset (by rw [h2]; simp)
        refine ih (fun b hb => hw b (by simp [hb])) (.export b w o h ⟨a, hs1, fun b' hb' => ?_⟩ h2) (fun x hx => ?_) hr
        · rw [hg b hb]; exact hw b' (by simp [hb'])
        · rw [List.mem_append, List.mem_singleton] at hx
          rcases hx with hx | rfl
          · exact hok x hx
          · exact hg b hb
    · cases hr

/-- Equality of scopes without attributes. -/
def plainHit (a b : Scope K) : Bool := a.attrs.isEmpty && b.attrs.isEmpty && decide (a.name = b.name) && decide (a.version = b.version) && decide (a.schemaUrl = b.schemaUrl)

theorem plainHit_keys (a b : Scope K) (h : plainHit a b = true) : SameScope a b := by
  simp only [plainHit, Bool.and_eq_true, List.isEmpty_iff, decide_eq_true_eq] at h
  obtain ⟨⟨⟨⟨h1, h2⟩, h3⟩, h4⟩, _⟩ := h
  exact ⟨h3, h4, fun _ => by rw [h1, h2]⟩

/-- A collector that takes every request, and a wire format that carries the message. -/
def exSpanCfg (o : Order (Scope Nat × List (SdkSpan Nat))) : Exporter.Cfg (Res Nat) (List (SdkSpan Nat)) (PRequest Nat (PSpan Nat)) (PRequest Nat (PSpan Nat)) :=
  ⟨.traces, .http true, [], [1], groupSpans plainHit o, some⟩

/-- Thread `t` ends a span. -/
def exEnd (t : Nat) : List (Sdk.Bsp.Action (SdkSpan Nat)) := [.call t (.onEnd exampleSpan), .thread t, .thread t, .thread t]

/-- Batch size 2, five spans end, one batch is exported, then a flush is called and returns (the schedule of `Sdk.Bsp.flush_violated`). -/
def exFlush : List (Sdk.Bsp.Action (SdkSpan Nat)) :=
  exEnd 0 ++ exEnd 0 ++ [.thread 0, .thread 0, .thread 0] ++ (exEnd 0 ++ [.thread 0]) ++ (exEnd 0 ++ [.thread 0]) ++ (exEnd 0 ++ [.thread 0])
    ++ [.take, .work true, .work true, .work true, .work true, .work true]
    ++ [.call 1 .forceFlush, .thread 1, .thread 1, .take, .work true, .work true, .work true, .work true, .work true, .thread 1]

theorem exCfg_ok : SpanCfg (K := Nat) plainHit ⟨[], none⟩ some exSpanCfg := ⟨plainHit_keys, fun _ => rfl, fun _ => rfl, fun _ _ _ h => h.symm⟩

/-- C91 violated for `force_flush` of spans: five spans were accepted, the flush returned Ok, every export succeeded, and only four spans have arrived. -/
theorem flushed_spans_violated : ∃ (s : Sdk.Bsp.State (SdkSpan Nat)) (log : List (Sending (PRequest Nat (PSpan Nat)))),
    Pipe (spanProc ⟨2, 10⟩ (SdkSpan Nat)) exSpanCfg ⟨[], none⟩ s ⟨true, ⟨[], none⟩⟩ log ∧ AllOk log ∧ (0, Sdk.Bsp.Ret.result .ok) ∈ s.returned
      ∧ (s.atCall 0).1 = 5 ∧ (arrived some (requests log)).length = 4 := by
  have h : (Sdk.Bsp.runAll ⟨2, 10⟩ Sdk.Bsp.State.init exFlush).map (fun s => (s.returned, (s.atCall 0).1, s.exported, s.accepted)) =
      some ([(0, Sdk.Bsp.Ret.result .ok)], 5, [[exampleSpan, exampleSpan], [exampleSpan, exampleSpan]], List.replicate 5 exampleSpan) := rfl
  obtain ⟨s, hs, he⟩ := Option.map_eq_some_iff.1 h
  simp only [Prod.mk.injEq] at he
  obtain ⟨log, hp, hok⟩ := span_pipe_of_run (c := exSpanCfg) (res := (⟨[], none⟩ : Res Nat)) ⟨true, some ⟨200, 0⟩⟩ ⟨id, fun _ => .refl _⟩ (fun _ _ => rfl) exFlush
    (by intro b hb; simpa [exFlush, exEnd] using hb) .init (by intro x hx; simp at hx) hs
  refine ⟨s, log, hp, hok, by rw [he.1]; simp, he.2.1, ?_⟩
  obtain ⟨_, bs, _, h2, h3⟩ := pipe_requests hp
  have hbs : bs = s.exported := h3 (fun o hh => by cases hh.1) hok
  obtain ⟨l', g1, g2⟩ := spans_read exCfg_ok h2 (fun x hx => by
    rw [hbs, he.2.2.1] at hx
    simp at hx
    subst hx
    exact exampleSpan_plain)
  have e1 := g2.length_eq
  have e2 := g1.length_eq
  rw [hbs, he.2.2.1] at e2
  rw [← e1, e2]
  rfl

/-- The hypotheses of the theorems on spans hold in a case: two spans, a flush that finds one batch, and both have arrived. -/
example : ∃ (s : Sdk.Bsp.State (SdkSpan Nat)) (log : List (Sending (PRequest Nat (PSpan Nat)))),
    Pipe (spanProc ⟨2, 10⟩ (SdkSpan Nat)) exSpanCfg ⟨[], none⟩ s ⟨true, ⟨[], none⟩⟩ log ∧ AllOk log ∧ (0, Sdk.Bsp.Ret.result .ok) ∈ s.returned
      ∧ s.atCall 0 = (2, 0) ∧ s.accepted = [exampleSpan, exampleSpan] ∧ (∀ x ∈ s.accepted, Plain x) := by
  have h : (Sdk.Bsp.runAll ⟨2, 10⟩ Sdk.Bsp.State.init (exEnd 0 ++ exEnd 0 ++ [.call 1 .forceFlush, .thread 1, .thread 1, .take,
      .work true, .work true, .work true, .work true, .work true, .thread 1])).map (fun s => (s.returned, s.atCall 0, s.accepted)) =
      some ([(0, Sdk.Bsp.Ret.result .ok)], (2, 0), [exampleSpan, exampleSpan]) := rfl
  obtain ⟨s, hs, he⟩ := Option.map_eq_some_iff.1 h
  simp only [Prod.mk.injEq] at he
  obtain ⟨log, hp, hok⟩ := span_pipe_of_run (c := exSpanCfg) (res := (⟨[], none⟩ : Res Nat)) ⟨true, some ⟨200, 0⟩⟩ ⟨id, fun _ => .refl _⟩ (fun _ _ => rfl) _
    (by intro b hb; simpa [exEnd] using hb) .init (by intro x hx; simp at hx) hs
  refine ⟨s, log, hp, hok, by rw [he.1]; simp, he.2.1, he.2.2, ?_⟩
  rw [he.2.2]
  intro x hx
  simp at hx
  subst hx
  exact exampleSpan_plain

theorem blp_step_exporter {cfg : Sdk.Bsp.Cfg} {s s' : Logs.Blp.State X} {a : Logs.Blp.Action X} (hs : Logs.Blp.step cfg s a = some s') :
    (s'.exporterShutdowns = s.exporterShutdowns ∧ (s'.exported = s.exported ∨ ∃ ok b, a = .work ok ∧ s'.exported = s.exported ++ [b])) ∨
    (s'.exporterShutdowns = s.exporterShutdowns + 1 ∧ s'.exported = s.exported) := by
  cases a with
  | call t c =>
    simp only [Logs.Blp.step, Logs.Blp.callStep] at hs
    cases_step hs
    all_goals first | (cases hs; done) | (injection hs with hs; subst hs; exact .inl ⟨rfl, .inl rfl⟩)
  | thread t =>
    simp only [Logs.Blp.step, Logs.Blp.threadStep] at hs
    cases_step hs
    all_goals first | (cases hs; done) | (injection hs with hs; subst hs; exact .inl ⟨rfl, .inl rfl⟩)
  | timeout t =>
    simp only [Logs.Blp.step, Logs.Blp.timeoutStep] at hs
    cases_step hs
    all_goals first | (cases hs; done) | (injection hs with hs; subst hs; exact .inl ⟨rfl, .inl rfl⟩)
  | take =>
    simp only [Logs.Blp.step, Logs.Blp.takeStep] at hs
    cases_step hs
    all_goals first | (cases hs; done) | (injection hs with hs; subst hs; exact .inl ⟨rfl, .inl rfl⟩)
  | timer =>
    simp only [Logs.Blp.step, Logs.Blp.timerStep] at hs
    cases_step hs
    all_goals first | (cases hs; done) | (injection hs with hs; subst hs; exact .inl ⟨rfl, .inl rfl⟩)
  | work ok =>
    simp only [Logs.Blp.step, Logs.Blp.workStep] at hs
    cases_step hs
    all_goals first | (cases hs; done) | (injection hs with hs; subst hs; exact .inl ⟨rfl, .inl rfl⟩) | (injection hs with hs; subst hs; exact .inr ⟨rfl, rfl⟩) | (injection hs with hs; subst hs; exact .inl ⟨rfl, .inr ⟨ok, _, rfl, rfl⟩⟩)
  | setResource r =>
    injection hs with hs; subst hs
    unfold Logs.Blp.setResourceStep; split <;> exact .inl ⟨rfl, .inl rfl⟩

theorem blp_run_mono {cfg : Sdk.Bsp.Cfg} (as : List (Logs.Blp.Action X)) {s s' : Logs.Blp.State X} (hr : Logs.Blp.runAll cfg s as = some s') :
    s.exporterShutdowns ≤ s'.exporterShutdowns ∧ s.exported <+: s'.exported := by
  induction as generalizing s with
  | nil => simp [Logs.Blp.runAll] at hr; subst hr; exact ⟨Nat.le_refl _, List.prefix_refl _⟩
  | cons a as ih =>
    simp only [Logs.Blp.runAll] at hr
    split at hr
    · rename_i s1 hs1
      obtain ⟨h1, h2⟩ := ih hr
      rcases blp_step_exporter hs1 with ⟨h, h3 | ⟨_, b, _, h3⟩⟩ | ⟨h, h3⟩
      · exact ⟨by omega, h3 ▸ h2⟩
      · exact ⟨by omega, (List.prefix_append _ _).trans (h3 ▸ h2)⟩
      · exact ⟨by omega, h3 ▸ h2⟩
    · cases hr

/-- A schedule of the processor in which every export succeeds and the exporter is not shut down is one of the pipe, if the network lets all requests succeed. -/
theorem log_pipe_of_run {cfg : Sdk.Bsp.Cfg} {c : O → Exporter.Cfg R (List X) M Y} {res : R} (w : Exporter.World) (o : O) (as : List (Logs.Blp.Action X))
    (hw : ∀ b, .work b ∈ as → b = true) {s s' : Logs.Blp.State X} {log : List (Sending Y)} (h : Pipe (logProc cfg X) c res s ⟨true, res⟩ log) (hok : AllOk log)
    (hr : Logs.Blp.runAll cfg s as = some s') (hs : s'.exporterShutdowns = 0)
    (hg : ∀ b ∈ s'.exported, (Exporter.doExport (c o) ⟨true, res⟩ b w).1 = .ok) :
    ∃ log', Pipe (logProc cfg X) c res s' ⟨true, res⟩ log' ∧ AllOk log' := by
  induction as generalizing s log with
  | nil => simp [Logs.Blp.runAll] at hr; subst hr; exact ⟨log, h, hok⟩
  | cons a as ih =>
    simp only [Logs.Blp.runAll] at hr
    split at hr
    · rename_i s1 hs1
      obtain ⟨m1, m2⟩ := blp_run_mono as hr
      rcases blp_step_exporter hs1 with ⟨h1, h2 | ⟨ok, b, ha, h2⟩⟩ | ⟨h1, _⟩
      · exact ih (fun b hb => hw b (by simp [hb])) (.quiet true h ⟨a, hs1, fun b hb => hw b (by simp [hb])⟩ h2 h1) hok hr
      · have hb : b ∈ s'.exported := m2.subset (by rw [h2]; simp)
        refine ih (fun b hb => hw b (by simp [hb])) (.export b w o h ⟨a, hs1, fun b' hb' => ?_⟩ h2) (fun x hx => ?_) hr
        · rw [hg b hb]; exact hw b' (by simp [hb'])
        · rw [List.mem_append, List.mem_singleton] at hx
          rcases hx with hx | rfl
          · exact hok x hx
          · exact hg b hb
      · omega
    · cases hr

/-- A collector for log records that takes every request. -/
def exLogCfg (o : Order (String × List (SdkLog Nat × Scope Nat))) :
    Exporter.Cfg (Res Nat) (List (SdkLog Nat × Scope Nat)) (Option (PRequest Nat (PLog Nat))) (PRequest Nat (PLog Nat)) :=
  ⟨.logs, .http true, [], [1], groupLogs o, id⟩

/-- A record of a library. -/
def exRecord : SdkLog Nat × Scope Nat := (exampleLog (some "t".toList), ⟨"lib", none, none, []⟩)

/-- The hypotheses of the theorems on log records hold in a case: two records, a flush, all exports succeed. -/
example : LogCfg (K := Nat) ⟨[], none⟩ (fun _ => True) some exLogCfg ∧ ∃ (s : Logs.Blp.State (SdkLog Nat × Scope Nat)) (log : List (Sending (PRequest Nat (PLog Nat)))),
    Pipe (logProc ⟨2, 10⟩ (SdkLog Nat × Scope Nat)) exLogCfg ⟨[], none⟩ s ⟨true, ⟨[], none⟩⟩ log ∧ AllOk log ∧ (0, Sdk.Bsp.Ret.result .ok, 0) ∈ s.returned
      ∧ s.atCall 0 = 2 ∧ s.accepted = [exRecord, exRecord] ∧ (∀ x ∈ s.accepted, Dated x.1 ∧ True) := by
  refine ⟨⟨fun _ => rfl, fun _ => rfl, fun _ => rfl, fun _ _ _ _ _ _ h => by cases h; rfl⟩, ?_⟩
  have h : (Logs.Blp.runAll ⟨2, 10⟩ Logs.Blp.State.init ([.call 0 (.emit exRecord), .thread 0, .thread 0, .call 0 (.emit exRecord), .thread 0, .thread 0,
      .call 1 .forceFlush, .thread 1, .take, .work true, .work true, .work true, .work true, .work true, .work true, .work true, .work true, .thread 1])).map
      (fun s => (s.returned, s.atCall 0, s.accepted, s.exporterShutdowns, s.exported)) =
      some ([(0, Sdk.Bsp.Ret.result .ok, 0)], 2, [exRecord, exRecord], 0, [[exRecord, exRecord]]) := rfl
  obtain ⟨s, hs, he⟩ := Option.map_eq_some_iff.1 h
  simp only [Prod.mk.injEq] at he
  obtain ⟨log, hp, hok⟩ := log_pipe_of_run (c := exLogCfg) (res := (⟨[], none⟩ : Res Nat)) ⟨true, some ⟨200, 0⟩⟩ ⟨id, fun _ => .refl _⟩ _
    (by intro b hb; simpa using hb) .init (by intro x hx; simp at hx) hs he.2.2.2.1 (by
      rw [he.2.2.2.2]
      intro b hb
      simp at hb
      subst hb
      rfl)
  refine ⟨s, log, hp, hok, by rw [he.1]; simp, he.2.1, he.2.2.1, ?_⟩
  rw [he.2.2.1]
  intro x hx
  simp at hx
  subst hx
  exact ⟨⟨5, rfl, by decide, by decide⟩, trivial⟩

end Otel.EndToEnd
