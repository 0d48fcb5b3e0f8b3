import Verif.Sdk.SpanSpec
import Mathlib.Data.List.Induction
/-! # Lemmas on the contents of spans -/

namespace Otel.Sdk
open Otel.Ctx Rust Spec

variable {A I W B : Type} {U : Nat → Type}

/-- A sequence of edits on the data of a recording span. -/
def editAll (l : SpanLimits) (es : List (Edit A)) (d : SpanData A) : SpanData A :=
  es.foldl (fun d e => e.apply l d) d

/-! ## Lemmas on bounded lists -/

theorem Spec.Kept.push_lt {X : Type} {n : Nat} {r k : List X} {c : BitVec 32} (h : Kept n r k c) (x : X)
    (hlt : k.length < n) : Kept n (r ++ [x]) (k ++ [x]) c := by
  obtain ⟨rfl, rfl⟩ := h
  have hr : r.length < n := by simp at hlt; omega
  constructor
  · rw [List.take_of_length_le (by omega), List.take_of_length_le (by simp; omega)]
  · simp; congr 1; omega

theorem Spec.Kept.push_ge {X : Type} {n : Nat} {r k : List X} {c : BitVec 32} (h : Kept n r k c) (x : X)
    (hge : ¬ k.length < n) : Kept n (r ++ [x]) k (c + 1) := by
  obtain ⟨rfl, rfl⟩ := h
  have hr : n ≤ r.length := by simp at hge; omega
  constructor
  · rw [List.take_append_of_le_length hr]
  · rw [List.length_append, List.length_singleton,
      show r.length + 1 - n = (r.length - n) + 1 by omega, BitVec.ofNat_add]
    rfl

theorem Spec.Forall2.length {X Y : Type} {R : X → Y → Prop} {a : List X} {b : List Y} (h : Forall2 R a b) :
    a.length = b.length := by
  induction h with
  | nil => rfl
  | cons _ _ ih => simp [ih]

theorem Spec.Forall2.snoc {X Y : Type} {R : X → Y → Prop} {a : List X} {b : List Y} (h : Forall2 R a b) {x y} (hxy : R x y) :
    Forall2 R (a ++ [x]) (b ++ [y]) := by
  induction h with
  | nil => exact .cons hxy .nil
  | cons h1 _ ih => exact .cons h1 ih

theorem Spec.Forall2.of_map {X Y : Type} {R : X → Y → Prop} {f : X → Y} (h : ∀ x, R x (f x)) (xs : List X) :
    Forall2 R xs (xs.map f) := by
  induction xs with
  | nil => exact .nil
  | cons x xs ih => exact .cons (h x) ih

/-! ## C22 -/

theorem holds_init (l : SpanLimits) (psc : SpanContext) (b : SpanBuilder A) (attrs : List A) (t : Time) :
    Holds l (b.attributes.getD [] ++ attrs) (b.events.getD []) (b.links.getD []) (recordingData l psc b attrs t) := by
  constructor
  · exact ⟨rfl, rfl⟩
  · cases h : b.events with
    | none => simp [recordingData, builderEvents, h]; exact .nil
    | some es =>
      simp only [recordingData, builderEvents, h, Option.getD_some]
      exact Forall2.of_map (fun e => ⟨rfl, rfl, rfl, rfl⟩) _
  · cases h : b.events <;> simp [recordingData, builderEvents, h]
  · cases h : b.links with
    | none => simp [recordingData, builderLinks, h]; exact .nil
    | some es =>
      simp only [recordingData, builderLinks, h, Option.getD_some]
      exact Forall2.of_map (fun e => ⟨rfl, rfl, rfl⟩) _
  · cases h : b.links <;> simp [recordingData, builderLinks, h]

theorem take_snoc_lt {X : Type} {xs : List X} {n : Nat} (h : xs.length < n) (x : X) :
    (xs ++ [x]).take n = xs.take n ++ [x] := by
  rw [List.take_of_length_le (by simp; omega), List.take_of_length_le (by omega)]

theorem take_snoc_ge {X : Type} {xs : List X} {n : Nat} (h : n ≤ xs.length) (x : X) :
    (xs ++ [x]).take n = xs.take n := by
  rw [List.take_append_of_le_length h]

theorem ofNat_sub_succ {a n : Nat} (h : n ≤ a) :
    BitVec.ofNat 32 (a + 1 - n) = BitVec.ofNat 32 (a - n) + 1 := by
  rw [show a + 1 - n = (a - n) + 1 by omega, BitVec.ofNat_add]
  rfl

theorem holds_edit {l : SpanLimits} {attrs : List A} {events : List (Event A)} {links : List (Link A)} {d : SpanData A}
    (h : Holds l attrs events links d) (e : Edit A) :
    Holds l (attrs ++ attributesSet [e]) (events ++ eventsAdded [e]) (links ++ linksAdded [e]) (e.apply l d) := by
  obtain ⟨ha, he, hed, hl, hld⟩ := h
  cases e with
  | setStatus s =>
    simp only [attributesSet, eventsAdded, linksAdded, List.filterMap_cons, List.filterMap_nil, List.append_nil, Edit.apply,
      setStatus]
    split <;> exact ⟨ha, he, hed, hl, hld⟩
  | updateName n =>
    simp only [attributesSet, eventsAdded, linksAdded, List.filterMap_cons, List.filterMap_nil, List.append_nil, Edit.apply,
      updateName]
    exact ⟨ha, he, hed, hl, hld⟩
  | setAttribute a =>
    simp only [attributesSet, eventsAdded, linksAdded, List.filterMap_cons, List.filterMap_nil, List.append_nil, Edit.apply,
      setAttribute]
    split
    · rename_i hlt; exact ⟨ha.push_lt a hlt, he, hed, hl, hld⟩
    · rename_i hge; exact ⟨ha.push_ge a hge, he, hed, hl, hld⟩
  | addEvent n t as =>
    simp only [attributesSet, eventsAdded, linksAdded, List.filterMap_cons, List.filterMap_nil, List.append_nil, Edit.apply,
      addEvent]
    have hlen := he.length
    rw [List.length_take] at hlen
    split
    · rename_i hlt
      have hlt' : events.length < l.maxEventsPerSpan.toNat := by omega
      refine ⟨ha, ?_, ?_, hl, hld⟩
      · simp only
        rw [take_snoc_lt hlt']
        exact he.snoc ⟨rfl, rfl, rfl, rfl⟩
      · simp only [hed, List.length_append, List.length_singleton]; congr 1; omega
    · rename_i hge
      have hge' : l.maxEventsPerSpan.toNat ≤ events.length := by omega
      refine ⟨ha, ?_, ?_, hl, hld⟩
      · simp only
        rw [take_snoc_ge hge']; exact he
      · simp only [hed, List.length_append, List.length_singleton, ofNat_sub_succ hge']
  | addLink sc as =>
    simp only [attributesSet, eventsAdded, linksAdded, List.filterMap_cons, List.filterMap_nil, List.append_nil, Edit.apply,
      addLink]
    have hlen := hl.length
    rw [List.length_take] at hlen
    split
    · rename_i hlt
      have hlt' : links.length < l.maxLinksPerSpan.toNat := by omega
      refine ⟨ha, he, hed, ?_, ?_⟩
      · simp only
        rw [take_snoc_lt hlt']
        exact hl.snoc ⟨rfl, rfl, rfl⟩
      · simp only [hld, List.length_append, List.length_singleton]; congr 1; omega
    · rename_i hge
      have hge' : l.maxLinksPerSpan.toNat ≤ links.length := by omega
      refine ⟨ha, he, hed, ?_, ?_⟩
      · simp only
        rw [take_snoc_ge hge']; exact hl
      · simp only [hld, List.length_append, List.length_singleton, ofNat_sub_succ hge']

theorem holds_edits {l : SpanLimits} (es : List (Edit A)) {attrs : List A} {events : List (Event A)} {links : List (Link A)}
    {d : SpanData A} (h : Holds l attrs events links d) :
    Holds l (attrs ++ attributesSet es) (events ++ eventsAdded es) (links ++ linksAdded es) (editAll l es d) := by
  induction es generalizing attrs events links d with
  | nil => simpa [attributesSet, eventsAdded, linksAdded, editAll] using h
  | cons e es ih =>
    have := ih (holds_edit h e)
    have h1 : ∀ xs : List (Edit A), attributesSet (e :: xs) = attributesSet [e] ++ attributesSet xs := fun xs =>
      List.filterMap_append (l := [e])
    have h2 : ∀ xs : List (Edit A), eventsAdded (e :: xs) = eventsAdded [e] ++ eventsAdded xs := fun xs =>
      List.filterMap_append (l := [e])
    have h3 : ∀ xs : List (Edit A), linksAdded (e :: xs) = linksAdded [e] ++ linksAdded xs := fun xs =>
      List.filterMap_append (l := [e])
    rw [h1, h2, h3, ← List.append_assoc, ← List.append_assoc, ← List.append_assoc]
    exact this

/-- The other fields: the parent, kind and start time are those of the start; the name is the last one given. -/
theorem editAll_other (l : SpanLimits) (es : List (Edit A)) (d : SpanData A) :
    (editAll l es d).parentSpanId = d.parentSpanId ∧ (editAll l es d).spanKind = d.spanKind
      ∧ (editAll l es d).startTime = d.startTime ∧ (editAll l es d).endTime = d.endTime
      ∧ (editAll l es d).name = (namesGiven es).getLastD d.name
      ∧ (editAll l es d).status = (statusesSet es).foldl (fun s s' => if s'.gt s then s' else s) d.status := by
  induction es generalizing d with
  | nil => simp [editAll, namesGiven, statusesSet]
  | cons e es ih =>
    have := ih (e.apply l d)
    have he : editAll l (e :: es) d = editAll l es (e.apply l d) := rfl
    rw [he]
    obtain ⟨h1, h2, h3, h4, h5, h6⟩ := this
    rw [h1, h2, h3, h4, h5, h6]
    cases e with
    | setStatus s =>
      simp only [Edit.apply, setStatus, namesGiven, statusesSet, List.filterMap_cons, List.foldl_cons]
      split <;> simp
    | updateName n =>
      simp only [Edit.apply, updateName, namesGiven, statusesSet, List.filterMap_cons, List.getLastD_cons]
      simp
    | setAttribute a =>
      simp only [Edit.apply, setAttribute, namesGiven, statusesSet, List.filterMap_cons]
      split <;> simp
    | addEvent n t as =>
      simp only [Edit.apply, addEvent, namesGiven, statusesSet, List.filterMap_cons]
      split <;> simp
    | addLink n as =>
      simp only [Edit.apply, addLink, namesGiven, statusesSet, List.filterMap_cons]
      split <;> simp

end Otel.Sdk
