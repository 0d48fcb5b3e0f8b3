import Verif.Prometheus.Props
/-!
C60: the suffix that a unit puts behind the name of a metric, for every unit.

The specification lists the words by their names, each with the codes that stand for it, as the Prometheus compatibility rules of OpenTelemetry do.
-/
namespace Otel.Prom
open Rust Metrics

/-! ## Specification -/

/-- The words for units and the codes that stand for each. -/
def unitWords : List (String × List String) :=
  [("days", ["d"]), ("hours", ["h"]), ("minutes", ["min"]), ("seconds", ["s"]), ("milliseconds", ["ms"]), ("microseconds", ["us"]), ("nanoseconds", ["ns"]),
   ("bytes", ["By", "B"]),
   ("kibibytes", ["KiBy"]), ("mebibytes", ["MiBy"]), ("gibibytes", ["GiBy"]), ("tibibytes", ["TiBy"]),
   ("kilobytes", ["KBy", "KB"]), ("megabytes", ["MBy", "MB"]), ("gigabytes", ["GBy", "GB"]), ("terabytes", ["TBy", "TB"]),
   ("meters", ["m"]), ("grams", ["g"]), ("volts", ["V"]), ("amperes", ["A"]), ("joules", ["J"]), ("watts", ["W"]),
   ("celsius", ["Cel"]), ("hertz", ["Hz"]), ("ratio", ["1"]), ("percent", ["%"])]

/-- The words for what stands behind `per`. -/
def perWords : List (String × List String) :=
  [("second", ["s"]), ("minute", ["m"]), ("hour", ["h"]), ("day", ["d"]), ("week", ["w"]), ("month", ["mo"]), ("year", ["y"])]

/-- Words for times, and the one for plain numbers, are not written in front of `per`. -/
def bareWords : List String := ["days", "hours", "minutes", "seconds", "milliseconds", "microseconds", "nanoseconds", "ratio"]

/-- The code stands for the word. -/
def StandsFor (table : List (String × List String)) (code word : Str) : Prop :=
  ∃ p ∈ table, p.1.toList = word ∧ ∃ c ∈ p.2, c.toList = code

/-- The suffix of a unit: its word; for `a/b`, split at the first slash, the word of `a`, `_per_` and the word of `b`, where an `a` without a word, or with one that is
not written in front of `per`, is left out. -/
inductive UnitSuffix : Str → Str → Prop
  | word {u w} : StandsFor unitWords u w → UnitSuffix u w
  | per {a b w p} : '/' ∉ a → StandsFor unitWords a w → (∀ x ∈ bareWords, x.toList ≠ w) → StandsFor perWords b p → UnitSuffix (a ++ '/' :: b) (w ++ "_per_".toList ++ p)
  | only {a b p} : '/' ∉ a → (∀ w, StandsFor unitWords a w → ∃ x ∈ bareWords, x.toList = w) → StandsFor perWords b p → UnitSuffix (a ++ '/' :: b) ("per_".toList ++ p)

/-! ## The tables of the code are those of the specification -/

/-- All pairs of a table of words. -/
def pairsOf (t : List (String × List String)) : List (Str × Str) := t.flatMap fun p => p.2.map fun c => (c.toList, p.1.toList)

theorem standsFor_iff (t : List (String × List String)) (c w : Str) : StandsFor t c w ↔ (c, w) ∈ pairsOf t := by
  unfold StandsFor pairsOf
  simp only [List.mem_flatMap, List.mem_map, Prod.mk.injEq]
  constructor
  · rintro ⟨p, hp, h1, x, hx, h2⟩
    exact ⟨p, hp, x, hx, h2, h1⟩
  · rintro ⟨p, hp, x, hx, h2, h1⟩
    exact ⟨p, hp, h1, x, hx, h2⟩

theorem unit_table : (∀ p ∈ promUnits, p ∈ pairsOf unitWords) ∧ (∀ p ∈ pairsOf unitWords, Assoc.get promUnits p.1 = some p.2) := by
  constructor <;> decide +kernel

theorem per_table : (∀ p ∈ promPerUnits, p ∈ pairsOf perWords) ∧ (∀ p ∈ pairsOf perWords, Assoc.get promPerUnits p.1 = some p.2) := by
  constructor <;> decide +kernel

theorem get_units (u w : Str) : Assoc.get promUnits u = some w ↔ StandsFor unitWords u w := by
  rw [standsFor_iff]
  exact ⟨fun h => unit_table.1 _ (Assoc.mem_of_get h), fun h => unit_table.2 _ h⟩

theorem get_per (u w : Str) : Assoc.get promPerUnits u = some w ↔ StandsFor perWords u w := by
  rw [standsFor_iff]
  exact ⟨fun h => per_table.1 _ (Assoc.mem_of_get h), fun h => per_table.2 _ h⟩

theorem bare_table : (∀ p ∈ pairsOf unitWords, nonApplicable.contains p.1 = true ↔ ∃ x ∈ bareWords, x.toList = p.2) ∧
    (∀ a ∈ nonApplicable, (Assoc.get promUnits a).isSome = true) := by
  constructor <;> decide +kernel

theorem no_slash : ∀ p ∈ pairsOf unitWords, '/' ∉ p.1 := by decide +kernel

theorem nonApplicable_iff {a w : Str} (h : StandsFor unitWords a w) : nonApplicable.contains a = true ↔ ∃ x ∈ bareWords, x.toList = w :=
  bare_table.1 (a, w) ((standsFor_iff _ _ _).1 h)

/-! ## The property -/

/-- C60: a unit puts exactly the suffix of the specification behind the name, and none if the specification has none: for every unit. -/
theorem unit_suffix_iff (u sfx : Str) : unitSuffix u = some sfx ↔ UnitSuffix u sfx := by
  have hempty : ∀ w, ¬ StandsFor unitWords [] w := by
    intro w h
    have := (get_units _ _).2 h
    have e : Assoc.get promUnits [] = none := by decide +kernel
    rw [e] at this; cases this
  have hsplit : ∀ a b, '/' ∉ a → ∀ w, ¬ StandsFor unitWords (a ++ '/' :: b) w := fun a b _ w h =>
    no_slash _ ((standsFor_iff _ _ _).1 h) (List.mem_append_right _ List.mem_cons_self)
  constructor
  · intro h
    unfold unitSuffix at h
    split at h
    · cases h
    · split at h
      · rename_i w hw
        injection h with h; subst h
        exact .word ((get_units _ _).1 hw)
      · split at h
        · cases h
        · rename_i first rest hb
          obtain ⟨hs, t, rfl, rfl⟩ := breakAt_some hb
          split at h
          · rename_i s hn hs'
            injection h with h; subst h
            refine .only hs (fun w hw => (nonApplicable_iff hw).1 hn) ((get_per _ _).1 hs')
          · rename_i s hn hf hs'
            injection h with h; subst h
            refine .only hs (fun w hw => ?_) ((get_per _ _).1 hs')
            rw [(get_units _ _).2 hw] at hf; cases hf
          · rename_i f s hn hf hs'
            injection h with h; subst h
            refine .per hs ((get_units _ _).1 hf) (fun x hx he => ?_) ((get_per _ _).1 hs')
            rw [(nonApplicable_iff ((get_units _ _).1 hf)).2 ⟨x, hx, he⟩] at hn; cases hn
          · cases h
  · intro h
    cases h with
    | word h =>
      unfold unitSuffix
      rw [if_neg (fun he => hempty sfx (List.isEmpty_iff.1 he ▸ h)), (get_units _ _).2 h]
    | @per a b w p ha hw hb hp =>
      have hn : nonApplicable.contains a = false := by
        cases hc : nonApplicable.contains a with
        | false => rfl
        | true => obtain ⟨x, hx, he⟩ := (nonApplicable_iff hw).1 hc; exact absurd he (hb x hx)
      have hno : Assoc.get promUnits (a ++ '/' :: b) = none := by
        cases hg : Assoc.get promUnits (a ++ '/' :: b) with
        | none => rfl
        | some v => exact absurd ((get_units _ _).1 hg) (hsplit a b ha v)
      unfold unitSuffix
      rw [if_neg (by simp), hno]
      simp only [breakAt_append ha, hn, (get_units _ _).2 hw, List.drop_one, List.tail_cons, (get_per _ _).2 hp]
    | @only a b p ha hw hp =>
      have hno : Assoc.get promUnits (a ++ '/' :: b) = none := by
        cases hg : Assoc.get promUnits (a ++ '/' :: b) with
        | none => rfl
        | some v => exact absurd ((get_units _ _).1 hg) (hsplit a b ha v)
      unfold unitSuffix
      rw [if_neg (by simp), hno]
      cases hg : Assoc.get promUnits a with
      | none =>
        cases hc : nonApplicable.contains a <;>
          simp only [breakAt_append ha, hc, hg, List.drop_one, List.tail_cons, (get_per _ _).2 hp]
      | some w =>
        have hc := (nonApplicable_iff ((get_units _ _).1 hg)).2 (hw w ((get_units _ _).1 hg))
        simp only [breakAt_append ha, hc, hg, List.drop_one, List.tail_cons, (get_per _ _).2 hp]

/-- C60: a unit without slash that is no code in the table, such as an annotation `{request}`, leaves the name as it is. -/
theorem unknown_unit (u : Str) (hs : '/' ∉ u) (hu : ∀ w, ¬ StandsFor unitWords u w) : unitSuffix u = none := by
  cases h : unitSuffix u with
  | none => rfl
  | some s =>
    cases (unit_suffix_iff u s).1 h with
    | word hw => exact absurd hw (hu s)
    | per _ _ _ _ => exact absurd (List.mem_append_right _ List.mem_cons_self) hs
    | only _ _ _ => exact absurd (List.mem_append_right _ List.mem_cons_self) hs

example : unitSuffix "{request}".toList = none := by decide +kernel
example : UnitSuffix "By/s".toList "bytes_per_second".toList :=
  .per (a := "By".toList) (b := "s".toList) (w := "bytes".toList) (p := "second".toList) (by decide +kernel) ⟨_, .tail _ (.tail _ (.tail _ (.tail _ (.tail _ (.tail _ (.tail _ (.head _))))))), rfl, _, .head _, rfl⟩
    (by decide +kernel) ⟨_, .head _, rfl, _, .head _, rfl⟩

/-- C60 (finding): what is in front of the slash is dropped when it has no word, so metrics that measure different things get the same suffix; the comment in the code
promises `kilometers_per_second` for `km/s`. utils.rs:19-20 -/
theorem prefix_lost_violated : unitSuffix "km/s".toList = some "per_second".toList ∧ ∀ a : Str, '/' ∉ a → (∀ w, ¬ StandsFor unitWords a w) →
    unitSuffix (a ++ "/s".toList) = some "per_second".toList :=
  ⟨by decide +kernel, fun a ha hw => (unit_suffix_iff _ _).2 (.only (b := "s".toList) (p := "second".toList) ha (fun w h => absurd h (hw w)) ⟨_, .head _, rfl, _, .head _, rfl⟩)⟩

end Otel.Prom
