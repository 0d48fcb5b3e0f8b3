import Verif.Propagation.JaegerProps
/-! # Names of a Jaeger propagator (C16) -/

namespace Otel.Prop.Jaeger
open Rust

/-! ## Specification -/

/-- A text consists of white space only. -/
def Blank (s : Str) : Prop := ∀ c ∈ s, isWhitespace c = true

/-- `t` is what is between the white space at the ends of `s`. -/
def Between (s t : Str) : Prop :=
  ∃ a b, s = a ++ t ++ b ∧ Blank a ∧ Blank b ∧ (∀ c, t.head? = some c → isWhitespace c = false) ∧ ∀ c, t.getLast? = some c → isWhitespace c = false

/-- The name used for the name given: `dflt` for a blank one. -/
def NameFor (dflt : String) (given used : Str) : Prop := (Blank given → used = dflt.toList) ∧ (¬ Blank given → used ≠ [] ∧ Between given used)

/-! ## Proofs -/

theorem drop_blank (s : Str) : ∃ a, s = a ++ s.dropWhile isWhitespace ∧ Blank a :=
  ⟨s.takeWhile isWhitespace, (List.takeWhile_append_dropWhile).symm, fun c h => (List.all_eq_true.1 List.all_takeWhile) c h⟩

theorem dropWhile_head (s : Str) (c : Char) (h : (s.dropWhile isWhitespace).head? = some c) : isWhitespace c = false := by
  induction s with
  | nil => cases h
  | cons x s ih =>
    rw [List.dropWhile_cons] at h
    split at h
    · exact ih h
    · rename_i hx
      injection h with h
      subst h
      simpa using hx

theorem trim_between (s : Str) : Between s (trim s) := by
  obtain ⟨a, ha, hba⟩ := drop_blank s
  obtain ⟨b, hb, hbb⟩ := drop_blank (s.dropWhile isWhitespace).reverse
  have he : s.dropWhile isWhitespace = trim s ++ b.reverse := by
    have := congrArg List.reverse hb
    rw [List.reverse_reverse, List.reverse_append] at this
    exact this
  refine ⟨a, b.reverse, ?_, hba, fun c hc => hbb c (List.mem_reverse.1 hc), fun c hc => ?_, fun c hc => ?_⟩
  · rw [List.append_assoc, ← he]; exact ha
  · refine dropWhile_head s c ?_
    rw [he, List.head?_append, hc]
    rfl
  · refine dropWhile_head (s.dropWhile isWhitespace).reverse c ?_
    have : trim s = ((s.dropWhile isWhitespace).reverse.dropWhile isWhitespace).reverse := rfl
    rw [this, List.getLast?_reverse] at hc
    exact hc

theorem trim_blank (s : Str) : trim s = [] ↔ Blank s := by
  obtain ⟨a, b, hs, ha, hb, hh, -⟩ := trim_between s
  constructor
  · intro h c hc
    rw [hs, h] at hc
    simp only [List.append_nil, List.mem_append] at hc
    exact hc.elim (ha c) (hb c)
  · intro h
    cases ht : trim s with
    | nil => rfl
    | cons x t =>
      have h1 := hh x (by rw [ht]; rfl)
      have h2 := h x (by rw [hs, ht]; simp)
      rw [h1] at h2
      cases h2

theorem name_for (dflt : String) (hd : trim dflt.toList = dflt.toList) (s : Str) : NameFor dflt s (trim (if (trim s).isEmpty then dflt.toList else s)) := by
  constructor
  · intro h
    rw [if_pos (by rw [(trim_blank s).2 h]; rfl)]
    exact hd
  · intro h
    have hne : trim s ≠ [] := fun e => h ((trim_blank s).1 e)
    rw [if_neg (by simpa using hne)]
    exact ⟨hne, trim_between s⟩

/-- **C16 (names).** For every header name and baggage prefix given to the constructor: the header that is written and read is the one given without the white space at its ends, or
`uber-trace-id` if that is blank; the entries taken for baggage are those that begin with the prefix given without the white space at its ends, or with `uberctx-`. -/
theorem jaeger_names {B U} (header baggage : Str) : ∃ h p, NameFor "uber-trace-id" header h ∧ NameFor "uberctx-" baggage p ∧
    (∀ (cx : Cx B U), ∀ kv ∈ inject (withCustom header baggage) cx, kv.1 = h) ∧
    (∀ cx : Cx B U, (activeSpanContext cx).isValid = true → inject (withCustom header baggage) cx ≠ []) ∧
    (∀ ex : Extractor, ex.get h = none → extractSpanContext (withCustom header baggage) ex = none) ∧
    ∀ (ex : Extractor) sc, extractSpanContext (withCustom header baggage) ex = some sc → ∀ e ∈ sc.traceState.entries, p <+: e.1 := by
  refine ⟨_, _, name_for "uber-trace-id" (by decide +kernel) header, name_for "uberctx-" (by decide +kernel) baggage, ?_, ?_, ?_, ?_⟩
  · intro cx kv hkv
    unfold inject at hkv
    split at hkv
    · rw [List.mem_singleton] at hkv; rw [hkv]; rfl
    · cases hkv
  · intro cx hv
    unfold inject
    rw [if_pos hv]
    simp
  · intro ex hn
    have ht : headerText (withCustom header baggage) ex = [] := by
      unfold headerText
      rw [show ex.get (withCustom header baggage).headerName = none from hn]
      rfl
    unfold extractSpanContext
    rw [ht]
    rfl
  · intro ex sc hsc e he
    have hx : extract (withCustom header baggage) (Ctx.Context.new : Cx Unit (fun _ => Unit)) ex = (Ctx.Context.new : Cx Unit (fun _ => Unit)).withSpan sc := by
      unfold extract
      rw [hsc]
    rcases jaeger_extract_partial (withCustom header baggage) (Ctx.Context.new : Cx Unit (fun _ => Unit)) ex with h | ⟨sc', h, -, -, h'⟩
    · rw [hx] at h
      have := congrArg (·.span) h
      cases this
    · rw [hx] at h
      have := congrArg (·.span) h
      injection this with this
      subst this
      exact List.isPrefixOf_iff_prefix.1 (h' e he).1

/-- White space around a header name, and a blank prefix. -/
example : NameFor "uber-trace-id" " my-header ".toList "my-header".toList ∧ NameFor "uberctx-" "  ".toList "uberctx-".toList ∧ ¬ NameFor "uberctx-" "  ".toList [] := by
  refine ⟨?_, ?_, ?_⟩
  · have := name_for "uber-trace-id" (by decide +kernel) " my-header ".toList
    rwa [show trim (if (trim " my-header ".toList).isEmpty then "uber-trace-id".toList else " my-header ".toList) = "my-header".toList by decide +kernel] at this
  · have := name_for "uberctx-" (by decide +kernel) "  ".toList
    rwa [show trim (if (trim "  ".toList).isEmpty then "uberctx-".toList else "  ".toList) = "uberctx-".toList by decide +kernel] at this
  · intro h
    have := h.1 (by intro c hc; revert c; decide +kernel)
    revert this
    decide +kernel

end Otel.Prop.Jaeger
