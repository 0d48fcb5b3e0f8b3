import Verif.Rust.Percent
import Verif.Baggage.Model
import Verif.Propagation.Carrier
/-! # `BaggagePropagator` (`opentelemetry-sdk/src/propagation/baggage.rs`) -/

namespace Otel.Prop.Bag
open Rust Otel.Baggage

/-- `FRAGMENT`, baggage.rs:12: the control characters and `' ' '"' ';' ',' '='`. -/
def fragment (b : UInt8) : Bool :=
  b.toNat < 0x20 || b.toNat == 0x7f || b.toNat == 0x20 || b.toNat == 0x22 || b.toNat == 0x3b || b.toNat == 0x2c || b.toNat == 0x3d

/-- `BAGGAGE_HEADER`, baggage.rs:11. -/
def header : Str := "baggage".toList

/-- One list member, the closure of baggage.rs:86-95. -/
def member (e : Entry) : Str :=
  let metadata := trim e.info
  pctEncode fragment (trim e.key) ++ ['='] ++ pctEncode fragment (trim e.value) ++
    (if metadata.isEmpty then [] else [';']) ++ metadata

/-- The entries of the map in iteration order. -/
abbrev Order := List Entry → List Entry

/-- The baggage of a context: `cx.baggage()`. -/
def baggageOf {U} (cx : Cx Bag U) : Bag := cx.baggage Bag.new

/-- `inject_context`, baggage.rs:81-100. `order` is the iteration order of the hash map. -/
def inject {U} (order : Order) (cx : Cx Bag U) : List (Str × Str) :=
  let b := baggageOf cx
  if b.inner.isEmpty then []
  else [(header, join [','] ((order b.inner).map member))]

/-- The properties after the first `;`, baggage.rs:119-124: pieces that are not UTF-8 after decoding are skipped. -/
def decodeProps (props : List Str) : Str :=
  join [';'] ((props.filterMap pctDecode).map trim)

/-- One list member, baggage.rs:106-151; `KeyValueMetadata::new` turns the metadata into `BaggageMetadata`, which trims. -/
def parseMember (contextValue : Str) : Option Entry :=
  match split ';' contextValue with
  | [] => none
  | nameAndValue :: props =>
    match split '=' nameAndValue with
    | name :: value :: _ =>
      match pctDecode name, pctDecode value with
      | some name, some value => some ⟨trim name, trim value, metadataFrom (decodeProps props)⟩
      | _, _ => none
    | _ => none

/-- `extract_with_context`, baggage.rs:103-156. -/
def extract {U} (cx : Cx Bag U) (ex : Extractor) : Cx Bag U :=
  match ex.get header with
  | some value => cx.withBaggage (Bag.fromIter ((split ',' value).filterMap parseMember))
  | none => cx

/-- The propagator; `fields` baggage.rs:158-160. -/
def propagator {U} (order : Order) : Propagator Bag U :=
  { inject := inject order, extract := extract, fields := [header] }

end Otel.Prop.Bag
