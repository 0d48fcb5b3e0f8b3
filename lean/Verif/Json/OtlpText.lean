import Verif.Json.TextProps
import Verif.Otlp.JsonRead
import Verif.Otlp.JsonWrite
/-!
# OTLP requests as JSON text (C83, C84, C119)

The theorems about documents (`Verif/Otlp/JsonWrite.lean`, `Verif/Otlp/JsonRead.lean`), stated about the text in the body of a request.
-/

namespace Otel.JsonText
open Rust Otel.Otlp.Json

/-- The body of a request in JSON. `opentelemetry-otlp/src/exporter/http/mod.rs:299`, `:318`, `:337` -/
def body (wf : BitVec 64 → Str) (j : Json) : Str := write pretty wf 0 j

/-- `serde_json::from_str`: the text is parsed, with a limit for the nesting, and the value is made of the document. (`rf` reads doubles) -/
def readText {α : Type} (rf : Str → BitVec 64) (dec : Json → Option α) (s : Str) : Option α :=
  match parse rf s with
  | some j => if j.depth ≤ maxDepth then dec j else none
  | none => none

mutual
theorem depth_reparse (g : BitVec 64 → BitVec 64) : ∀ j : Json, (reparse g j).depth = j.depth
  | .null => by rw [reparse]
  | .bool _ => by rw [reparse]
  | .int _ => by rw [reparse]
  | .float f => by simp only [reparse, Json.depth]
  | .str _ => by rw [reparse]
  | .arr xs => by simp only [reparse, Json.depth, depth_reparseList g xs]
  | .obj fs => by simp only [reparse, Json.depth, depth_reparseObj g fs]
theorem depth_reparseList (g : BitVec 64 → BitVec 64) : ∀ xs : List Json, depthList (reparseList g xs) = depthList xs
  | [] => by rw [reparseList]
  | x :: xs => by simp only [reparseList, depthList, depth_reparse g x, depth_reparseList g xs]
theorem depth_reparseObj (g : BitVec 64 → BitVec 64) : ∀ fs : List (String × Json), depthObj (reparseObj g fs) = depthObj fs
  | [] => by rw [reparseObj]
  | (k, x) :: fs => by simp only [reparseObj, depthObj, depth_reparse g x, depth_reparseObj g fs]
end

/-- Reading the text is what `fromText` says of the document. -/
theorem readText_body {α : Type} (wf : BitVec 64 → Str) (rf : Str → BitVec 64) (hwf : ∀ f, FloatText (wf f)) (dec : Json → Option α) (j : Json) :
    readText rf dec (body wf j) = fromText (fun f => rf (wf f)) dec j := by
  unfold readText body fromText
  rw [text_read_back (.inr rfl) wf rf j fun f _ => hwf f]
  simp only
  rw [depth_reparse]

section
variable (cast : Int → BitVec 64) (wf : BitVec 64 → Str) (rf : Str → BitVec 64) (hwf : ∀ f, FloatText (wf f))
include hwf

/-- C83, C119. The text of a trace request is a JSON document that a conforming receiver reads as the request, if doubles in attributes are finite and read exactly. -/
theorem traces_text_conform_partial (hex : ∀ f, rf (wf f) = f) (rs : List (ResourceItems Span)) (h : ∀ r ∈ rs, FiniteVals (r.values Span.values)) :
    ∃ j, parse rf (body wf (encTraces rs)) = some j ∧ StdTraces cast j rs := by
  refine ⟨encTraces rs, ?_, traces_conform_partial cast rs h⟩
  rw [body, text_read_back (.inr rfl) wf rf _ fun f _ => hwf f, reparse_exact _ fun f _ => hex f]

/-- C83, C119. The same for logs. -/
theorem logs_text_conform_partial (hex : ∀ f, rf (wf f) = f) (rs : List (ResourceItems LogRecord)) (h : ∀ r ∈ rs, FiniteVals (r.values LogRecord.values)) :
    ∃ j, parse rf (body wf (encLogs rs)) = some j ∧ StdLogs cast j rs := by
  refine ⟨encLogs rs, ?_, logs_conform_partial cast rs h⟩
  rw [body, text_read_back (.inr rfl) wf rf _ fun f _ => hwf f, reparse_exact _ fun f _ => hex f]

/-- C83, C119. The same for metrics, if doubles in data points are finite and exemplars have no value. -/
theorem metrics_text_conform_partial (hex : ∀ f, rf (wf f) = f) (rs : List (ResourceItems Metric)) (h : ∀ r ∈ rs, FiniteVals (r.values Metric.values))
    (hd : ∀ m ∈ allItems rs, ∀ v ∈ m.data.toList, WritableData v) :
    ∃ j, parse rf (body wf (encMetrics rs)) = some j ∧ StdMetrics cast j rs := by
  refine ⟨encMetrics rs, ?_, metrics_conform_partial cast rs h hd⟩
  rw [body, text_read_back (.inr rfl) wf rf _ fun f _ => hwf f, reparse_exact _ fun f _ => hex f]

/-- C84, C119. The text of a trace request is read back as the request, under the conditions of `traces_read_back_partial`. -/
theorem traces_text_read_back_partial (rs : List (ResourceItems Span)) (h : ∀ r ∈ rs, ∀ v ∈ r.values Span.values, GoodVal (fun f => rf (wf f)) 116 v) :
    readText rf (decTraces cast) (body wf (encTraces rs)) = some rs := by
  rw [readText_body wf rf hwf, traces_read_back_partial cast _ rs h]

/-- C84, C119. The same for logs. -/
theorem logs_text_read_back_partial (rs : List (ResourceItems LogRecord)) (h : ∀ r ∈ rs, ∀ v ∈ r.values LogRecord.values, GoodVal (fun f => rf (wf f)) 118 v) :
    readText rf (decLogs cast) (body wf (encLogs rs)) = some rs := by
  rw [readText_body wf rf hwf, logs_read_back_partial cast _ rs h]

/-- C84, C119. The same for metrics. -/
theorem metrics_text_read_back_partial (rs : List (ResourceItems Metric)) (h : ∀ r ∈ rs, ∀ v ∈ r.values Metric.values, GoodVal (fun f => rf (wf f)) 113 v)
    (hf : ∀ m ∈ allItems rs, ∀ f ∈ m.data.toList.flatMap Data.doubles, GoodF64 (fun f => rf (wf f)) f) :
    readText rf (decMetrics cast) (body wf (encMetrics rs)) = some rs := by
  rw [readText_body wf rf hwf, metrics_read_back_partial cast _ rs h hf]

end

/-- A text for each double that is read as that double: the number of its bits with a fraction. -/
def bitsText (f : BitVec 64) : Str := fmtNat f.toNat ++ ".0".toList

/-- Reading it. -/
def readBits (t : Str) : BitVec 64 := BitVec.ofNat 64 (decimal (t.takeWhile isAsciiDigit))

/-- It meets the hypotheses about doubles. -/
theorem bitsText_ok (f : BitVec 64) : FloatText (bitsText f) ∧ readBits (bitsText f) = f := by
  obtain ⟨h1, h2⟩ := fmtNatF_digits (f.toNat + 1) f.toNat (by omega)
  obtain ⟨h3, _, h4⟩ := fmtNatF_spec (f.toNat + 1) f.toNat (by omega)
  have hw := takeWhile_ends (p := isAsciiDigit) (a := fmtNat f.toNat) (r := ".0".toList) h1 (by
    intro c hc
    have : c = '.' := by simpa using hc.symm
    rw [this]; decide)
  have hne : (bitsText f).head? ≠ some '-' := by
    unfold bitsText
    cases hf : fmtNat f.toNat with
    | nil => exact absurd hf h3
    | cons c t =>
      have := h1 c (by show c ∈ fmtNat f.toNat; rw [hf]; simp)
      intro h
      simp only [List.cons_append, List.head?_cons, Option.some.injEq] at h
      rw [h] at this
      exact absurd this (by decide)
  refine ⟨⟨fun c hc => ?_, ?_⟩, ?_⟩
  · rcases List.mem_append.1 hc with hc | hc
    · exact numChar_digit (h1 c hc)
    · have : ∀ c ∈ ".0".toList, numChar c = true := by decide
      exact this c hc
  · simp only [if_neg hne]
    unfold bitsText
    rw [hw.1, hw.2]
    refine ⟨?_, by decide⟩
    unfold intPart digits1
    rw [Bool.and_eq_true, Bool.and_eq_true]
    refine ⟨⟨by rw [Bool.not_eq_true', List.isEmpty_eq_false_iff]; exact h3, List.all_eq_true.2 h1⟩, ?_⟩
    by_cases h0 : (fmtNat f.toNat).head? = some '0'
    · rw [Bool.or_eq_true]; right
      have := (h4 h0).2
      unfold fmtNat; rw [this]; rfl
    · simp [h0]
  · unfold readBits bitsText
    rw [hw.1]
    show BitVec.ofNat 64 (decimal (fmtNatF (f.toNat + 1) f.toNat)) = f
    rw [h2, BitVec.ofNat_toNat, BitVec.setWidth_eq]

end Otel.JsonText
