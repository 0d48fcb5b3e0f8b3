import Verif.Logs.LoggerProps
/-! # C32: the fields of a log record, and `event_enabled` -/

namespace Otel.Logs

open Otel.Sdk (Cx)
open Rust

variable {V Time Sev B α : Type} {U : Nat → Type}

/-- What each call sets. -/
def RecOp.eventNameSet : RecOp V Time Sev → Option Str
  | .eventName n => some n
  | _ => none

def RecOp.targetSet : RecOp V Time Sev → Option Str
  | .target n => some n
  | _ => none

def RecOp.timestampSet : RecOp V Time Sev → Option Time
  | .timestamp t => some t
  | _ => none

def RecOp.observedSet : RecOp V Time Sev → Option Time
  | .observedTimestamp t => some t
  | _ => none

def RecOp.severityTextSet : RecOp V Time Sev → Option Str
  | .severityText n => some n
  | _ => none

def RecOp.severityNumberSet : RecOp V Time Sev → Option Sev
  | .severityNumber n => some n
  | _ => none

/-- The last value given to a field by a sequence of calls. -/
def lastSet (f : RecOp V Time Sev → Option α) (ops : List (RecOp V Time Sev)) : Option α := (ops.filterMap f).getLast?

theorem addAttribute_same (r r' : Record V Time Sev) (k : Str) (v : V) (h : r.addAttribute? k v = some r') :
    ∃ a, r' = { r with attributes := a } := by
  simp only [Record.addAttribute?, Option.map_eq_some_iff] at h
  obtain ⟨a, _, h⟩ := h
  exact ⟨a, h.symm⟩

theorem addAll_same (kvs : List (Str × V)) (r r' : Record V Time Sev)
    (h : kvs.foldlM (fun r kv => Record.addAttribute? r kv.1 kv.2) r = some r') : ∃ a, r' = { r with attributes := a } := by
  induction kvs generalizing r with
  | nil => exact ⟨r.attributes, by simp only [List.foldlM, pure, Option.some.injEq] at h; rw [← h]⟩
  | cons kv kvs ih =>
    simp only [List.foldlM, bind, Option.bind_eq_some_iff] at h
    obtain ⟨r1, h1, h2⟩ := h
    obtain ⟨a1, e1⟩ := addAttribute_same _ _ _ _ h1
    obtain ⟨a2, e2⟩ := ih r1 h2
    exact ⟨a2, by rw [e2, e1]⟩

theorem field_last (π : Record V Time Sev → Option α) (f : RecOp V Time Sev → Option α)
    (hstep : ∀ r o r', RecOp.run? r o = some r' → π r' = (f o).or (π r)) (ops : List (RecOp V Time Sev)) (r r' : Record V Time Sev)
    (h : ops.foldlM RecOp.run? r = some r') : π r' = (lastSet f ops).or (π r) := by
  induction ops generalizing r with
  | nil => simp only [List.foldlM, pure, Option.some.injEq] at h; simp [lastSet, h]
  | cons o ops ih =>
    simp only [List.foldlM, bind, Option.bind_eq_some_iff] at h
    obtain ⟨r1, h1, h2⟩ := h
    rw [ih r1 h2, hstep r o r1 h1]
    cases ho : f o <;> simp [lastSet, ho, List.getLast?_cons]

/-- **C32 (fields)** Whatever calls are made on a new record, it carries in every field the last value given to that field, and no
value in a field that was never given one. -/
theorem record_fields (ops : List (RecOp V Time Sev)) (r : Record V Time Sev) (h : ops.foldlM RecOp.run? Record.new = some r) :
    r.eventName = lastSet RecOp.eventNameSet ops ∧ r.target = lastSet RecOp.targetSet ops
      ∧ r.timestamp = lastSet RecOp.timestampSet ops ∧ r.observedTimestamp = lastSet RecOp.observedSet ops
      ∧ r.severityText = lastSet RecOp.severityTextSet ops ∧ r.severityNumber = lastSet RecOp.severityNumberSet ops
      ∧ r.body = lastSet RecOp.bodySet ops ∧ r.traceContext = lastSet RecOp.traceSet ops := by
  have go : ∀ {β : Type} (π : Record V Time Sev → Option β) (f : RecOp V Time Sev → Option β)
      (_ : ∀ r o r', RecOp.run? r o = some r' → π r' = (f o).or (π r)) (_ : π Record.new = none), π r = lastSet f ops := by
    intro β π f hstep h0
    rw [field_last π f hstep ops _ _ h, h0, Option.or_none]
  refine ⟨go _ _ ?_ rfl, go _ _ ?_ rfl, go _ _ ?_ rfl, go _ _ ?_ rfl, go _ _ ?_ rfl, go _ _ ?_ rfl, go _ _ ?_ rfl, go _ _ ?_ rfl⟩
  all_goals
    intro r o r' hr
    cases o with
    | attr k v => obtain ⟨a, e⟩ := addAttribute_same _ _ _ _ hr; rw [e]; rfl
    | attrs l => obtain ⟨a, e⟩ := addAll_same _ _ _ hr; rw [e]; rfl
    | _ => simp only [RecOp.run?, Option.some.injEq] at hr; rw [← hr]; rfl

/-- **C32 (enabled)** `event_enabled` says true exactly if telemetry is not suppressed and at least one processor wants the event. -/
theorem event_enabled_iff (answers : List Bool) (cx : Cx B U) :
    eventEnabled answers cx = true ↔ cx.suppress = false ∧ ∃ a ∈ answers, a = true := by
  unfold eventEnabled
  cases cx.suppress <;> simp

/-- Two severities and an event name. -/
example : ([RecOp.severityNumber 3, .eventName ['e'], .severityNumber 4] : List (RecOp Nat Nat Nat)).foldlM RecOp.run? Record.new
    = some { (Record.new : Record Nat Nat Nat) with eventName := some ['e'], severityNumber := some 4 } := rfl

end Otel.Logs
