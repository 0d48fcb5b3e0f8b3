import Verif.Appender.SerdeProps
import Verif.Appender.TracingProps
/-! # C81: a record of the `log` crate becomes one log record that says what it said -/

namespace Otel.Appender
open Rust
open Logs (RecOp Record Processor Prepared Handed watchAll)
open Otlp (LVal Severity)
open Otel.Sdk (Cx)

variable {Time I W B V : Type} {U : Nat → Type}

/-! ## Specification -/

/-- The number a key-value holds. -/
def KvVal.number : KvVal → Option Int
  | .i64 i => some i.toInt
  | .u64 n => some n.toNat
  | .i128 i => some i.toInt
  | .u128 n => some n.toNat
  | _ => none

/-- The value of the logs API says what the key-value held. -/
inductive KvSays : KvVal → Any → Prop
  | fits {v : KvVal} {n : Int} {i : BitVec 64} : v.number = some n → i.toInt = n → KvSays v (.int i)
  | large {v : KvVal} {n : Int} {s : Str} : v.number = some n → (n < -2 ^ 63 ∨ 2 ^ 63 ≤ n) → DecText s n → KvSays v (.string (String.ofList s))
  | any (t : Str) : KvSays (.any t) (.string (String.ofList t))
  | str (t : Str) : KvSays (.str t) (.string (String.ofList t))
  | bool (b : Bool) : KvSays (.bool b) (.boolean b)
  | f64 (bits : BitVec 64) : KvSays (.f64 bits) (.double bits)

/-- The record says what the `log` record said; its key-values are attributes, in order, as far as they have a value. -/
structure LogCarries (ft : Features) (conv : Conversion V) (l : LogRecord V) (r : Record Any Time Severity) : Prop where
  target : r.target = some l.target
  name : r.eventName = none
  severity : Otlp.severityNumber r.severityNumber = levelNumber l.level
  severityText : r.severityText = some l.level.text
  body : r.body = some (.string (String.ofList l.message))
  attributes : r.attributesIter
    = (if ft.metadataAttributes then
        l.file.toList.map (fun f => ("code.file.path".toList, .string (String.ofList f)))
        ++ l.line.toList.map (fun n => ("code.line.number".toList, .int (BitVec.ofNat 64 n.toNat)))
        ++ l.modulePath.toList.map (fun m => ("code.function.name".toList, .string (String.ofList m)))
      else [])
      ++ l.keyValues.flatMap (fun kv => (conv.run kv.2).toList.map fun a => (kv.1, a))
  times : r.timestamp = none ∧ r.observedTimestamp = none
  trace : r.traceContext = none

/-! ## Proofs -/

theorem logAttributes_eq (conv : Conversion V) (kvs : List (Str × V)) :
    logAttributes conv kvs = kvs.flatMap fun kv => (conv.run kv.2).toList.map fun a => (kv.1, a) := by
  induction kvs with
  | nil => rfl
  | cons kv kvs ih =>
    rw [List.flatMap_cons, ← ih]
    unfold logAttributes
    rw [List.filterMap_cons]
    cases conv.run kv.2 <;> rfl

theorem logCarries (ft : Features) (conv : Conversion V) (l : LogRecord V) (r : Record Any Time Severity)
    (h : (logOps ft conv l).foldlM RecOp.run? Record.new = some r) : LogCarries ft conv l r := by
  obtain ⟨h1, h2, h3, h4, h5, h6, h7, h8⟩ := Logs.record_fields _ _ h
  obtain ⟨r', hr', hattr, _, _⟩ := Logs.record_keeps_attributes (logOps (Time := Time) ft conv l)
  rw [h] at hr'; cases hr'
  obtain ⟨lv, tg, msg, f, n, m, kvs⟩ := l
  obtain ⟨mt, e, c⟩ := ft
  refine ⟨?_, ?_, ?_, ?_, ?_, ?_, ⟨?_, ?_⟩, ?_⟩
  · rw [h2]; cases mt <;> cases f <;> cases n <;> cases m <;> rfl
  · rw [h1]; cases mt <;> cases f <;> cases n <;> cases m <;> rfl
  · rw [h6]; cases mt <;> cases f <;> cases n <;> cases m <;> exact severity_level _
  · rw [h5]; cases mt <;> cases f <;> cases n <;> cases m <;> rfl
  · rw [h7]; cases mt <;> cases f <;> cases n <;> cases m <;> rfl
  · rw [hattr, ← logAttributes_eq]
    cases mt <;> cases f <;> cases n <;> cases m <;>
      simp only [logOps, List.flatMap_append, List.flatMap_cons, List.flatMap_nil, RecOp.added, if_true, if_false, Bool.false_eq_true,
        Option.toList_some, Option.toList_none, List.map_cons, List.map_nil, List.append_nil, List.nil_append]
  · rw [h3]; cases mt <;> cases f <;> cases n <;> cases m <;> rfl
  · rw [h4]; cases mt <;> cases f <;> cases n <;> cases m <;> rfl
  · rw [h8]; cases mt <;> cases f <;> cases n <;> cases m <;> rfl

/-! ## Results -/

/-- **C81** A record that the processors want, in a context that is not suppressed, is handed to every processor exactly once, in order, as a
log record that says what it said. -/
theorem log_carried (ft : Features) (conv : Conversion V) (scope : I) (filters : List Filter) (ps : List (Processor Any Time Severity I W))
    (cx : Cx B U) (now : Time) (l : LogRecord V) (w : W) (hs : cx.suppress = false)
    (hen : ft.logsEnabled = true → ∃ f ∈ filters, f (severityOfLevel l.level) l.target none = true) :
    ∃ r r0 w' cs, logRecord ft conv scope filters (watchAll 0 ps) cx now l (w, []) = some (w', cs) ∧ LogCarries ft conv l r ∧ Prepared cx r r0
      ∧ cs.map Logs.Call.who = List.range ps.length ∧ (∀ c ∈ cs, c.scope = scope) ∧ Handed r0 cs := by
  obtain ⟨r, hr, _⟩ := Logs.record_keeps_attributes (logOps (Time := Time) ft conv l)
  obtain ⟨r0, hp, cs, h1, h2, h3, h4⟩ := Logs.emit_reaches_each_once scope ps cx now r w hs
  refine ⟨r, r0, (Logs.emit scope (watchAll 0 ps) cx now r (w, [])).1, cs, ?_, logCarries ft conv l r hr, hp, h2, h3, h4⟩
  have : logEnabled ft filters cx l.level l.target = true := by
    unfold logEnabled
    split
    · rename_i hl
      obtain ⟨f, hf, hft⟩ := hen hl
      exact (Logs.event_enabled_iff _ cx).2 ⟨hs, true, List.mem_map.2 ⟨f, hf, hft⟩, rfl⟩
    · rfl
  rw [logRecord, this, hr, ← h1]
  rfl

/-- **C81** A record that no processor wants, or one in a suppressed context, reaches no processor; and `enabled`, by which the `log` macros decide
whether to build it at all, says false only then. -/
theorem log_unwanted (ft : Features) (conv : Conversion V) (scope : I) (filters : List Filter) (ps : List (Processor Any Time Severity I W))
    (cx : Cx B U) (now : Time) (l : LogRecord V) (w : W) :
    (cx.suppress = true ∨ ft.logsEnabled = true ∧ (∀ f ∈ filters, f (severityOfLevel l.level) l.target none = false) →
      logRecord ft conv scope filters ps cx now l w = some w)
    ∧ (logEnabled ft filters cx l.level l.target = false ↔ ft.logsEnabled = true
      ∧ (cx.suppress = true ∨ ∀ f ∈ filters, f (severityOfLevel l.level) l.target none = false)) := by
  have key : logEnabled ft filters cx l.level l.target = false ↔ ft.logsEnabled = true
      ∧ (cx.suppress = true ∨ ∀ f ∈ filters, f (severityOfLevel l.level) l.target none = false) := by
    unfold logEnabled
    cases hl : ft.logsEnabled with
    | false => simp
    | true =>
      simp only [if_true, true_and]
      unfold Logs.eventEnabled
      cases cx.suppress <;> simp
  refine ⟨fun h => ?_, key⟩
  obtain ⟨r, hr, _⟩ := Logs.record_keeps_attributes (logOps (Time := Time) ft conv l)
  unfold logRecord
  split
  · rename_i hc
    rw [hr]
    rcases h with h | ⟨h1, h2⟩
    · simp [Logs.emit, h]
    · rw [key.2 ⟨h1, .inr h2⟩] at hc; cases hc
  · rfl

/-- **C81** Without serde, every key-value becomes an attribute that says what it held. -/
theorem kv_says (v : KvVal) : ∃ a, plain.run v = some a ∧ KvSays v a := by
  have int : ∀ {v : KvVal} {n : Int}, v.number = some n → KvSays v (integer n) := by
    intro v n h
    unfold integer toI64?
    by_cases hr : -2 ^ 63 ≤ n ∧ n < 2 ^ 63
    · rw [if_pos hr]
      refine .fits h ?_
      rw [BitVec.toInt_ofInt, Int.bmod_eq_of_le] <;> omega
    · rw [if_neg hr]
      exact .large h (by omega) (fmtInt_decText n)
  cases v with
  | any t => exact ⟨_, rfl, .any t⟩
  | bool b => exact ⟨_, rfl, .bool b⟩
  | str s => exact ⟨_, rfl, .str s⟩
  | i64 i => exact ⟨_, rfl, .fits rfl rfl⟩
  | u64 n => exact ⟨_, rfl, int rfl⟩
  | i128 i => exact ⟨_, rfl, int rfl⟩
  | u128 n => exact ⟨_, rfl, int rfl⟩
  | f64 b => exact ⟨_, rfl, .f64 b⟩

/-- A record with a repeated key and a source line. -/
example : ((logOps (Time := Nat) ⟨true, true, false⟩ plain ⟨.error, "t".toList, "m".toList, none, some 3, none,
      [("k".toList, .i64 1), ("k".toList, .u128 (BitVec.ofNat 128 (2 ^ 64)))]⟩).foldlM RecOp.run? Record.new).map
        (fun r => (Otlp.severityNumber r.severityNumber, r.attributesIter.map Prod.fst))
    = some (17, ["code.line.number".toList, "k".toList, "k".toList]) := by decide +kernel

end Otel.Appender
