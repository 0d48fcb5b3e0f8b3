import Verif.EndToEnd.ViewedMany
import Verif.EndToEnd.ViewedReaders
/-!
# Several views and several readers (C136)

As `EndToEnd/ViewedReaders.lean`, for any number of views that select the instrument.
-/

namespace Otel.EndToEnd.ViewedReaders
open Otel.Otlp Otel.Metrics Otel.Metrics.Inst Otel.Temporality Otel.EndToEnd.Created Otel.EndToEnd.CreatedFlush Otel.EndToEnd.Viewed
open Rust (Str F64)
open Common (Val)

variable {V : Type} [DecidableEq V]

/-- **C136, several views.** Readers set up somehow, each after any requests, and a request for an instrument that some of the provider's views select. Each reader has one
aggregation for each of these views that does not drop the instrument, in the order of the views and no other; and for each of the views, once the provider's `force_flush` or
`shutdown` has returned `Ok`, each reader's collector has what was measured before the call as that view wants it. -/
theorem several_views_provider_partial {n : Nat} {s : Fin n → Setup} {rd : Fin n → Reader} {glob : Str → Option (Str → Bool)} {cs : List (Option (Instrument × Stream))}
    {views : List View} {rs : Fin n → List Request} {r : Request} {kind : Kind} (h : ∀ j, Several (s j) (rd j) glob cs views (rs j) r kind)
    {forms : Instrument × Stream → Form} (hf : Asks kind forms cs) (g : Given V) {val : V → Val} (hinj : Function.Injective val) (hplain : ∀ v, NotEmptyArray (val v)) :
    ∃ feds : Fin n → List (List (Works V × Option (List Str))),
      (∀ j, fedBy g views (rd j).temporality (runRequests views (rd j).temporality .init (rs j)) r = (feds j).flatten ∧ (feds j).length = (keeping cs).length) ∧
      ∀ (k : Nat) (c : Instrument × Stream), (keeping cs)[k]? = some c →
        AllReadersFlushedAs g val c.2 (fun j => (feds j).getD k []) r.inst (fun j => (s j).args) (formMeaning g kind (forms c) r.number) := by
  choose feds hfl hfa _ using fun j => several_fed (h j) hf g
  refine ⟨feds, fun j => ⟨hfl j, (hfa j).length_eq.symm⟩, ?_⟩
  intro k c hk
  have hm : c ∈ keeping cs := List.mem_of_getElem? hk
  have hone : ∀ j, Case (s j) (rd j) glob c.1 c.2 [(newView glob c.1 c.2).getD fun _ => none] .init r kind ∧
      (feds j).getD k [] = fedBy g [(newView glob c.1 c.2).getD fun _ => none] (rd j).temporality .init r := by
    intro j
    obtain ⟨hlt, hget⟩ := List.getElem?_eq_some_iff.1 hk
    have hlt' : k < (feds j).length := by rw [← (hfa j).length_eq]; exact hlt
    obtain ⟨-, v, hv, hcase, he⟩ := List.Forall₂.get (hfa j) hlt hlt'
    simp only [List.get_eq_getElem, hget] at hv hcase he
    rw [hv]
    refine ⟨hcase, ?_⟩
    rw [List.getD_eq_getElem?_getD, List.getElem?_eq_getElem hlt', Option.getD_some, he]
    rfl
  have := viewed_provider_flushed_partial (fun j => (hone j).1) g hinj hplain (forms c) (hf c hm).1 (hf c hm).2
  rw [show (fun j => (feds j).getD k []) = fun j => fedBy g [(newView glob c.1 c.2).getD fun _ => none] (rd j).temporality .init r from funext fun j => (hone j).2]
  exact this

/-- The hypotheses hold for two readers with different temporalities and a counter that three of four views select. -/
example : ∃ (s : Fin 2 → Setup) (rd : Fin 2 → Reader), (s 0).args ≠ (s 1).args ∧ (∀ j, Several (s j) (rd j) exGlob exChoices exFour [exOther] exRequest .counter) ∧
    Asks .counter exForms exChoices ∧ (keeping exChoices).length = 2 := by
  have h := exSeveral
  have h2 : Several (.periodic (.stdout [.cumulative])) (((Setup.periodic (.stdout [.cumulative])).build).getD .prometheus) exGlob exChoices exFour [exOther] exRequest .counter :=
    ⟨rfl, h.1.ofKind, h.1.chosen, h.1.any, h.1.new, h.1.differ⟩
  refine ⟨fun j => if j = 0 then exSetup else .periodic (.stdout [.cumulative]), fun j => if j = 0 then exReader else ((Setup.periodic (.stdout [.cumulative])).build).getD .prometheus,
    by decide +kernel, fun j => ?_, h.2.1, by rw [h.2.2]; rfl⟩
  by_cases hj : j = 0
  · simp only [hj, if_true]; exact h.1
  · simp only [hj, if_false]; exact h2

end Otel.EndToEnd.ViewedReaders
