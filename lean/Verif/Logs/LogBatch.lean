import Mathlib.Data.List.Basic
/-!
# Going through a batch of log records (`opentelemetry-sdk/src/logs/export.rs`), C120

`R` is a record with its scope. The owned and the borrowed form have an arm each in the code and here.
-/

namespace Otel.Logs.LogBatch

variable {R : Type}

/-- `LogBatchData`. export.rs:28-32 -/
inductive Data (R : Type) where
  | owned (l : List R)
  | borrowed (l : List R)

/-- `LogBatchDataIter`. export.rs:81-84 -/
structure Iter (R : Type) where
  data : Data R
  index : Nat

/-- `LogBatch::iter`. export.rs:73-78 -/
def iter (d : Data R) : Iter R := ⟨d, 0⟩

/-- `next`: what it yields and the iterator after it. (indexing past the end would panic; the guard makes that impossible, as the type says here) export.rs:89-111 -/
def Iter.next (it : Iter R) : Option R × Iter R :=
  match it.data with
  | .owned data => if h : it.index < data.length then (some data[it.index], { it with index := it.index + 1 }) else (none, it)
  | .borrowed data => if h : it.index < data.length then (some data[it.index], { it with index := it.index + 1 }) else (none, it)

/-- What `n` calls of `next` yield. -/
def calls : Nat → Iter R → List (Option R)
  | 0, _ => []
  | n + 1, it => it.next.1 :: calls n it.next.2

/-! ## Specification -/

/-- The records of a batch. -/
def Data.records : Data R → List R
  | .owned l => l
  | .borrowed l => l

/-! ## C120 -/

theorem next_eq (it : Iter R) : it.next = (it.data.records[it.index]?, if it.index < it.data.records.length then { it with index := it.index + 1 } else it) := by
  rcases it with ⟨d, i⟩
  cases d with
  | owned l =>
    by_cases h : i < l.length <;> simp [Iter.next, Data.records, h]
  | borrowed l =>
    by_cases h : i < l.length <;> simp [Iter.next, Data.records, h]

theorem calls_get (n : Nat) (it : Iter R) (k : Nat) (hk : k < n) : (calls n it)[k]? = some (it.data.records[it.index + k]?) := by
  induction n generalizing it k with
  | zero => omega
  | succ n ih =>
    rw [calls, next_eq]
    cases k with
    | zero => simp
    | succ k =>
      rw [List.getElem?_cons_succ, ih _ _ (by omega)]
      simp only
      split
      · rw [show it.index + 1 + k = it.index + (k + 1) by omega]
      · rename_i h
        rw [List.getElem?_eq_none (by omega), List.getElem?_eq_none (by omega)]

/-- C120. Call number `k` yields record number `k` of the batch, and every call after the last record yields nothing: every record comes once, in order. -/
theorem iter_yields (d : Data R) (n k : Nat) (hk : k < n) : (calls n (iter d))[k]? = some (d.records[k]?) := by
  have := calls_get n (iter d) k hk
  simpa [iter] using this

/-- Two records, and two calls too many. -/
example : calls 4 (iter (.owned ["a", "b"])) = [some "a", some "b", none, none] := by decide

end Otel.Logs.LogBatch
