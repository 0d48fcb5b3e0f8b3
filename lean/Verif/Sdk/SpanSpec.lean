import Verif.Sdk.Tracer
/-! # What was recorded on a span: specification of C22–C24, apart from the span implementation -/

namespace Otel.Sdk.Spec
open Otel.Sdk Rust

variable {A I W : Type}

/-- All attributes set by a sequence of calls, oldest first. -/
def attributesSet (es : List (Edit A)) : List A :=
  es.filterMap fun | .setAttribute a => some a | _ => none

/-- All events added, oldest first, with all their attributes. -/
def eventsAdded (es : List (Edit A)) : List (Event A) :=
  es.filterMap fun | .addEvent n t as => some ⟨n, t, as, 0⟩ | _ => none

/-- All links added. -/
def linksAdded (es : List (Edit A)) : List (Link A) :=
  es.filterMap fun | .addLink sc as => some ⟨sc, as, 0⟩ | _ => none

/-- All names given. -/
def namesGiven (es : List (Edit A)) : List Str :=
  es.filterMap fun | .updateName n => some n | _ => none

/-- All statuses set. -/
def statusesSet (es : List (Edit A)) : List Status :=
  es.filterMap fun | .setStatus s => some s | _ => none

/-- The first `limit` items are kept, the others counted (in 32 bits). -/
def Kept {X : Type} (limit : Nat) (recorded kept : List X) (dropped : BitVec 32) : Prop :=
  kept = recorded.take limit ∧ dropped = BitVec.ofNat 32 (recorded.length - limit)

/-- An event as exported: same name and time, the first `limit` attributes kept, the others counted. -/
def EventKept (limit : Nat) (recorded kept : Event A) : Prop :=
  kept.name = recorded.name ∧ kept.timestamp = recorded.timestamp
    ∧ Kept limit recorded.attributes kept.attributes kept.droppedAttributesCount

/-- A link as exported. -/
def LinkKept (limit : Nat) (recorded kept : Link A) : Prop :=
  kept.spanContext = recorded.spanContext
    ∧ Kept limit recorded.attributes kept.attributes kept.droppedAttributesCount

/-- Pointwise relation between the recorded items that fit and the exported ones. -/
inductive Forall2 {X Y : Type} (R : X → Y → Prop) : List X → List Y → Prop
  | nil : Forall2 R [] []
  | cons {x y xs ys} : R x y → Forall2 R xs ys → Forall2 R (x :: xs) (y :: ys)

/-- What the data of a span holds after any sequence of calls, in terms of what was recorded. -/
structure Holds (l : SpanLimits) (as : List A) (es : List (Event A)) (ls : List (Link A))
    (d : SpanData A) : Prop where
  attributes : Kept l.maxAttributesPerSpan.toNat as d.attributes d.droppedAttributesCount
  events : Forall2 (EventKept l.maxAttributesPerEvent.toNat) (es.take l.maxEventsPerSpan.toNat) d.events.events
  eventsDropped : d.events.droppedCount = BitVec.ofNat 32 (es.length - l.maxEventsPerSpan.toNat)
  links : Forall2 (LinkKept l.maxAttributesPerLink.toNat) (ls.take l.maxLinksPerSpan.toNat) d.links.links
  linksDropped : d.links.droppedCount = BitVec.ofNat 32 (ls.length - l.maxLinksPerSpan.toNat)

/-- The final status claimed by the documentation: Ok if Ok was ever set, else the last error set, else unset. -/
def documentedStatus (ss : List Status) : Status :=
  if .ok ∈ ss then .ok
  else (ss.filter (fun s => s ≠ .unset)).getLastD .unset

/-- The edits of a history. -/
def editsOf (h : List (HistOp A W)) : List (Edit A) :=
  h.filterMap fun | .op (.edit e) => some e | _ => none

/-- The world after a history in which the span itself touches nothing. -/
def worldAfter (w : W) : List (HistOp A W) → W
  | [] => w
  | .world w' :: h => worldAfter w' h
  | _ :: h => worldAfter w h

/-- Nobody ends the span or shuts its provider down. -/
def Quiet (h : List (HistOp A W)) : Prop :=
  ∀ o ∈ h, (∃ e, o = .op (.edit e)) ∨ ∃ w, o = .world w

end Otel.Sdk.Spec
