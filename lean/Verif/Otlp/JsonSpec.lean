import Verif.Otlp.Json
/-!
# What OTLP/JSON is, for C83 and C84

The OTLP specification's JSON encoding: the proto3 JSON mapping with lowerCamelCase keys, where trace and span ids are hexadecimal, enums are numbers,
64-bit integers are decimal strings or numbers, `bytes` are base64, doubles are numbers or one of the strings `NaN`, `Infinity`, `-Infinity`. Unknown entries
are to be ignored; a field that is missing or `null` has its default value. `Std… j m` says that a conforming receiver reads the document `j` as the
message `m`; a document in which a name occurs twice, or with several alternatives of a `oneof`, is none.
-/

namespace Otel.Otlp.Json
open Rust

/-! ## A conforming receiver -/

/-- An integer: a number, or its decimal text. -/
def StdInt (j : Json) (i : Int) : Prop := j = .int i ∨ ∃ s, j = .str s ∧ DecText s i

/-- Bytes in hexadecimal. -/
def StdHex (j : Json) (bs : List Byte) : Prop := ∃ s, j = .str s ∧ HexText s bs

/-- Bytes in base64. -/
def StdB64 (j : Json) (bs : List Byte) : Prop := ∃ s, j = .str s ∧ B64Text s bs

/-- Not a number: the exponent is all ones and the fraction is not 0. -/
def isNaN (f : BitVec 64) : Bool := !finite f && f.extractLsb' 0 52 != 0#52

/-- A double. -/
def StdF64 (cast : Int → BitVec 64) (j : Json) (f : BitVec 64) : Prop :=
  (j = .float f ∧ finite f = true) ∨ (∃ i, j = .int i ∧ cast i = f) ∨ (j = .str "NaN".toList ∧ isNaN f = true) ∨
    (j = .str "Infinity".toList ∧ f = 0x7FF0000000000000#64) ∨ (j = .str "-Infinity".toList ∧ f = 0xFFF0000000000000#64)

/-- The entries of an object, no name twice. -/
def StdObj (j : Json) (o : Obj) : Prop := j = .obj o ∧ (o.map (·.1)).Nodup

/-- A field: missing or `null`, and the message has the default; or the entry satisfies `R`. -/
def Fld (o : Obj) (k : String) (dflt : Prop) (R : Json → Prop) : Prop :=
  (dflt ∧ ∀ j, (k, j) ∈ o → j = .null) ∨ ∃ j, (k, j) ∈ o ∧ j ≠ .null ∧ R j

/-- A repeated field. -/
def StdArr {α : Type} (R : Json → α → Prop) (j : Json) (xs : List α) : Prop := ∃ js, j = .arr js ∧ List.Forall₂ R js xs

/-- A field that holds a message or nothing. -/
def FldOpt {α : Type} (o : Obj) (k : String) (R : Json → α → Prop) (a : Option α) : Prop := Fld o k (a = none) fun j => ∃ x, a = some x ∧ R j x

/-- A repeated field. -/
def FldArr {α : Type} (o : Obj) (k : String) (R : Json → α → Prop) (xs : List α) : Prop := Fld o k (xs = []) fun j => StdArr R j xs

def FldStr (o : Obj) (k : String) (s : Str) : Prop := Fld o k (s = []) fun j => j = .str s

def FldHex (o : Obj) (k : String) (bs : List Byte) : Prop := Fld o k (bs = []) fun j => StdHex j bs

def FldU {w : Nat} (o : Obj) (k : String) (n : BitVec w) : Prop := Fld o k (n = 0) fun j => StdInt j n.toNat

def FldI {w : Nat} (o : Obj) (k : String) (n : BitVec w) : Prop := Fld o k (n = 0) fun j => StdInt j n.toInt

/-- The alternatives of `AnyValue`. -/
def valueNames : List String := ["stringValue", "boolValue", "intValue", "doubleValue", "arrayValue", "kvlistValue", "bytesValue"]

/-- One alternative is present and no other. -/
def OneOf (names : List String) (o : Obj) (k : String) (R : Json → Prop) : Prop :=
  (∃ j, (k, j) ∈ o ∧ R j) ∧ ∀ e ∈ o, e.1 ∈ names → e.1 = k

mutual
def StdAny (cast : Int → BitVec 64) (v : AVal) (j : Json) : Prop := ∃ o, StdObj j o ∧
  match v with
  | .unset => ∀ e ∈ o, e.1 ∉ valueNames
  | .str s => OneOf valueNames o "stringValue" fun x => x = .str s
  | .bool b => OneOf valueNames o "boolValue" fun x => x = .bool b
  | .int i => OneOf valueNames o "intValue" fun x => StdInt x i.toInt
  | .double f => OneOf valueNames o "doubleValue" fun x => StdF64 cast x f
  | .bytes bs => OneOf valueNames o "bytesValue" fun x => StdB64 x bs
  | .array vs => OneOf valueNames o "arrayValue" fun x => ∃ p, StdObj x p ∧ Fld p "values" (vs = []) fun y => ∃ js, y = .arr js ∧ StdAnys cast vs js
  | .kvlist kvs => OneOf valueNames o "kvlistValue" fun x => ∃ p, StdObj x p ∧ Fld p "values" (kvs = []) fun y => ∃ js, y = .arr js ∧ StdKvs cast kvs js
def StdAnys (cast : Int → BitVec 64) (vs : List AVal) (js : List Json) : Prop :=
  match vs, js with
  | [], [] => True
  | v :: vs, j :: js => StdAny cast v j ∧ StdAnys cast vs js
  | _, _ => False
def StdKvs (cast : Int → BitVec 64) (kvs : List (Str × Option AVal)) (js : List Json) : Prop :=
  match kvs, js with
  | [], [] => True
  | (k, none) :: kvs, j :: js => (∃ o, StdObj j o ∧ FldStr o "key" k ∧ Fld o "value" True fun _ => False) ∧ StdKvs cast kvs js
  | (k, some v) :: kvs, j :: js => (∃ o, StdObj j o ∧ FldStr o "key" k ∧ Fld o "value" False fun x => StdAny cast v x) ∧ StdKvs cast kvs js
  | _, _ => False
end

/-- The field `attributes`. -/
def FldAttrs (cast : Int → BitVec 64) (o : Obj) (k : String) (kvs : List Kv) : Prop := Fld o k (kvs = []) fun j => ∃ js, j = .arr js ∧ StdKvs cast kvs js

variable (cast : Int → BitVec 64)

def StdScope (j : Json) (s : Scope) : Prop := ∃ o, StdObj j o ∧ FldStr o "name" s.name ∧ FldStr o "version" s.version ∧
  FldAttrs cast o "attributes" s.attributes ∧ FldU o "droppedAttributesCount" s.droppedAttributesCount

def StdRes (j : Json) (r : Res) : Prop := ∃ o, StdObj j o ∧ FldAttrs cast o "attributes" r.attributes ∧
  FldU o "droppedAttributesCount" r.droppedAttributesCount

def StdEvent (j : Json) (e : Event) : Prop := ∃ o, StdObj j o ∧ FldU o "timeUnixNano" e.timeUnixNano ∧ FldStr o "name" e.name ∧
  FldAttrs cast o "attributes" e.attributes ∧ FldU o "droppedAttributesCount" e.droppedAttributesCount

def StdLink (j : Json) (l : Link) : Prop := ∃ o, StdObj j o ∧ FldHex o "traceId" l.traceId ∧ FldHex o "spanId" l.spanId ∧
  FldStr o "traceState" l.traceState ∧ FldAttrs cast o "attributes" l.attributes ∧ FldU o "droppedAttributesCount" l.droppedAttributesCount ∧
  FldU o "flags" l.flags

def StdStatus (j : Json) (s : Status) : Prop := ∃ o, StdObj j o ∧ FldStr o "message" s.message ∧ FldI o "code" s.code

def StdSpan (j : Json) (s : Span) : Prop := ∃ o, StdObj j o ∧ FldHex o "traceId" s.traceId ∧ FldHex o "spanId" s.spanId ∧
  FldStr o "traceState" s.traceState ∧ FldHex o "parentSpanId" s.parentSpanId ∧ FldU o "flags" s.flags ∧ FldStr o "name" s.name ∧
  FldI o "kind" s.kind ∧ FldU o "startTimeUnixNano" s.startTimeUnixNano ∧ FldU o "endTimeUnixNano" s.endTimeUnixNano ∧
  FldAttrs cast o "attributes" s.attributes ∧ FldU o "droppedAttributesCount" s.droppedAttributesCount ∧ FldArr o "events" (StdEvent cast) s.events ∧
  FldU o "droppedEventsCount" s.droppedEventsCount ∧ FldArr o "links" (StdLink cast) s.links ∧ FldU o "droppedLinksCount" s.droppedLinksCount ∧
  FldOpt o "status" StdStatus s.status

def StdLog (j : Json) (r : LogRecord) : Prop := ∃ o, StdObj j o ∧ FldU o "timeUnixNano" r.timeUnixNano ∧
  FldU o "observedTimeUnixNano" r.observedTimeUnixNano ∧ FldI o "severityNumber" r.severityNumber ∧ FldStr o "severityText" r.severityText ∧
  FldOpt o "body" (fun j v => StdAny cast v j) r.body ∧ FldAttrs cast o "attributes" r.attributes ∧
  FldU o "droppedAttributesCount" r.droppedAttributesCount ∧ FldU o "flags" r.flags ∧ FldHex o "traceId" r.traceId ∧ FldHex o "spanId" r.spanId ∧
  FldStr o "eventName" r.eventName

/-- The value of a number point or an exemplar, in the object itself. -/
def StdNum (o : Obj) : Option Num → Prop
  | none => ∀ e ∈ o, e.1 ∉ ["asDouble", "asInt"]
  | some (.asDouble f) => OneOf ["asDouble", "asInt"] o "asDouble" fun x => StdF64 cast x f
  | some (.asInt i) => OneOf ["asDouble", "asInt"] o "asInt" fun x => StdInt x i.toInt

def StdExemplar (j : Json) (e : Exemplar) : Prop := ∃ o, StdObj j o ∧ FldAttrs cast o "filteredAttributes" e.filteredAttributes ∧
  FldU o "timeUnixNano" e.timeUnixNano ∧ FldHex o "spanId" e.spanId ∧ FldHex o "traceId" e.traceId ∧ StdNum cast o e.value

def StdNumPoint (j : Json) (p : NumPoint) : Prop := ∃ o, StdObj j o ∧ FldAttrs cast o "attributes" p.attributes ∧
  FldU o "startTimeUnixNano" p.startTimeUnixNano ∧ FldU o "timeUnixNano" p.timeUnixNano ∧ FldArr o "exemplars" (StdExemplar cast) p.exemplars ∧
  FldU o "flags" p.flags ∧ StdNum cast o p.value

def StdHistPoint (j : Json) (p : HistPoint) : Prop := ∃ o, StdObj j o ∧ FldAttrs cast o "attributes" p.attributes ∧
  FldU o "startTimeUnixNano" p.startTimeUnixNano ∧ FldU o "timeUnixNano" p.timeUnixNano ∧ FldU o "count" p.count ∧ FldOpt o "sum" (StdF64 cast) p.sum ∧
  FldArr o "bucketCounts" (fun j (n : BitVec 64) => StdInt j n.toNat) p.bucketCounts ∧ FldArr o "explicitBounds" (StdF64 cast) p.explicitBounds ∧
  FldArr o "exemplars" (StdExemplar cast) p.exemplars ∧ FldU o "flags" p.flags ∧ FldOpt o "min" (StdF64 cast) p.min ∧ FldOpt o "max" (StdF64 cast) p.max

def StdBuckets (j : Json) (b : Buckets) : Prop := ∃ o, StdObj j o ∧ FldI o "offset" b.offset ∧
  FldArr o "bucketCounts" (fun j (n : BitVec 64) => StdInt j n.toNat) b.bucketCounts

def StdExpoPoint (j : Json) (p : ExpoPoint) : Prop := ∃ o, StdObj j o ∧ FldAttrs cast o "attributes" p.attributes ∧
  FldU o "startTimeUnixNano" p.startTimeUnixNano ∧ FldU o "timeUnixNano" p.timeUnixNano ∧ FldU o "count" p.count ∧ FldOpt o "sum" (StdF64 cast) p.sum ∧
  FldI o "scale" p.scale ∧ FldU o "zeroCount" p.zeroCount ∧ FldOpt o "positive" StdBuckets p.positive ∧ FldOpt o "negative" StdBuckets p.negative ∧
  FldU o "flags" p.flags ∧ FldArr o "exemplars" (StdExemplar cast) p.exemplars ∧ FldOpt o "min" (StdF64 cast) p.min ∧ FldOpt o "max" (StdF64 cast) p.max ∧
  Fld o "zeroThreshold" (p.zeroThreshold = 0) fun j => StdF64 cast j p.zeroThreshold

def dataNames : List String := ["gauge", "sum", "histogram", "exponentialHistogram", "summary"]

def StdMetric (j : Json) (m : Metric) : Prop := ∃ o, StdObj j o ∧ FldStr o "name" m.name ∧ FldStr o "description" m.description ∧
  FldStr o "unit" m.unit ∧ FldAttrs cast o "metadata" m.metadata ∧
  match m.data with
  | none => ∀ e ∈ o, e.1 ∉ dataNames
  | some (.gauge ps) => OneOf dataNames o "gauge" fun x => ∃ p, StdObj x p ∧ FldArr p "dataPoints" (StdNumPoint cast) ps
  | some (.sum ps t m) => OneOf dataNames o "sum" fun x => ∃ p, StdObj x p ∧ FldArr p "dataPoints" (StdNumPoint cast) ps ∧
      FldI p "aggregationTemporality" t ∧ Fld p "isMonotonic" (m = false) fun y => y = .bool m
  | some (.histogram ps t) => OneOf dataNames o "histogram" fun x => ∃ p, StdObj x p ∧ FldArr p "dataPoints" (StdHistPoint cast) ps ∧
      FldI p "aggregationTemporality" t
  | some (.expo ps t) => OneOf dataNames o "exponentialHistogram" fun x => ∃ p, StdObj x p ∧ FldArr p "dataPoints" (StdExpoPoint cast) ps ∧
      FldI p "aggregationTemporality" t

section
variable {α : Type} (itemsName scopesName requestName : String) (R : Json → α → Prop)

def StdScopeItems (j : Json) (s : ScopeItems α) : Prop := ∃ o, StdObj j o ∧ FldOpt o "scope" (StdScope cast) s.scope ∧ FldArr o itemsName R s.items ∧
  FldStr o "schemaUrl" s.schemaUrl

def StdResourceItems (j : Json) (s : ResourceItems α) : Prop := ∃ o, StdObj j o ∧ FldOpt o "resource" (StdRes cast) s.resource ∧
  FldArr o scopesName (StdScopeItems cast itemsName R) s.scopes ∧ FldStr o "schemaUrl" s.schemaUrl

def StdRequest (j : Json) (rs : List (ResourceItems α)) : Prop := ∃ o, StdObj j o ∧ FldArr o requestName (StdResourceItems cast itemsName scopesName R) rs
end

/-- The document is an `ExportTraceServiceRequest` with this content. -/
def StdTraces : Json → List (ResourceItems Span) → Prop := StdRequest cast "spans" "scopeSpans" "resourceSpans" (StdSpan cast)

/-- The document is an `ExportLogsServiceRequest` with this content. -/
def StdLogs : Json → List (ResourceItems LogRecord) → Prop := StdRequest cast "logRecords" "scopeLogs" "resourceLogs" (StdLog cast)

/-- The document is an `ExportMetricsServiceRequest` with this content. -/
def StdMetrics : Json → List (ResourceItems Metric) → Prop := StdRequest cast "metrics" "scopeMetrics" "resourceMetrics" (StdMetric cast)

/-! ## What is in a message -/

mutual
/-- The doubles in a value. -/
def AVal.doubles : AVal → List (BitVec 64)
  | .double f => [f]
  | .array vs => doublesList vs
  | .kvlist kvs => doublesKvs kvs
  | _ => []
def doublesList : List AVal → List (BitVec 64)
  | [] => []
  | v :: vs => v.doubles ++ doublesList vs
def doublesKvs : List (Str × Option AVal) → List (BitVec 64)
  | [] => []
  | (_, none) :: kvs => doublesKvs kvs
  | (_, some v) :: kvs => v.doubles ++ doublesKvs kvs
end

mutual
/-- Every value in it, itself included, is present. -/
def AVal.noUnset : AVal → Bool
  | .unset => false
  | .array vs => noUnsetList vs
  | .kvlist kvs => noUnsetKvs kvs
  | _ => true
def noUnsetList : List AVal → Bool
  | [] => true
  | v :: vs => v.noUnset && noUnsetList vs
def noUnsetKvs : List (Str × Option AVal) → Bool
  | [] => true
  | (_, none) :: kvs => noUnsetKvs kvs
  | (_, some v) :: kvs => v.noUnset && noUnsetKvs kvs
end

mutual
/-- The number of JSON arrays and objects around the innermost value: one for a plain value, two more around an array, three more around a list of pairs. -/
def AVal.levels : AVal → Nat
  | .array vs => 3 + levelsList vs
  | .kvlist kvs => 3 + levelsKvs kvs
  | _ => 1
def levelsList : List AVal → Nat
  | [] => 0
  | v :: vs => max v.levels (levelsList vs)
def levelsKvs : List (Str × Option AVal) → Nat
  | [] => 0
  | (_, none) :: kvs => max 1 (levelsKvs kvs)
  | (_, some v) :: kvs => max (1 + v.levels) (levelsKvs kvs)
end

/-- A value that is read back: nothing unset, finite doubles that the parser reads exactly, at most `d` levels. -/
structure GoodVal (rd : BitVec 64 → BitVec 64) (d : Nat) (v : AVal) : Prop where
  present : v.noUnset = true
  finite : ∀ f ∈ v.doubles, finite f = true
  exact : ∀ f ∈ v.doubles, rd f = f
  levels : v.levels ≤ d

/-- A double that is read back. -/
structure GoodF64 (rd : BitVec 64 → BitVec 64) (f : BitVec 64) : Prop where
  finite : finite f = true
  exact : rd f = f

/-- The values of attributes. -/
def attrValues (kvs : List Kv) : List AVal := kvs.filterMap (·.2)

def Span.values (s : Span) : List AVal :=
  attrValues s.attributes ++ s.events.flatMap (fun e => attrValues e.attributes) ++ s.links.flatMap (fun l => attrValues l.attributes)

def LogRecord.values (r : LogRecord) : List AVal := r.body.toList ++ attrValues r.attributes

/-- Values of attributes of scopes and resources, and in the items. -/
def ScopeItems.values {α : Type} (f : α → List AVal) (s : ScopeItems α) : List AVal :=
  (s.scope.toList.flatMap fun c => attrValues c.attributes) ++ s.items.flatMap f

def ResourceItems.values {α : Type} (f : α → List AVal) (r : ResourceItems α) : List AVal :=
  (r.resource.toList.flatMap fun c => attrValues c.attributes) ++ r.scopes.flatMap (ScopeItems.values f)

def Exemplar.values (e : Exemplar) : List AVal := attrValues e.filteredAttributes
def NumPoint.values (p : NumPoint) : List AVal := attrValues p.attributes ++ p.exemplars.flatMap Exemplar.values
def HistPoint.values (p : HistPoint) : List AVal := attrValues p.attributes ++ p.exemplars.flatMap Exemplar.values
def ExpoPoint.values (p : ExpoPoint) : List AVal := attrValues p.attributes ++ p.exemplars.flatMap Exemplar.values

def Data.values : Data → List AVal
  | .gauge ps => ps.flatMap NumPoint.values
  | .sum ps _ _ => ps.flatMap NumPoint.values
  | .histogram ps _ => ps.flatMap HistPoint.values
  | .expo ps _ => ps.flatMap ExpoPoint.values

def Metric.values (m : Metric) : List AVal := attrValues m.metadata ++ m.data.toList.flatMap Data.values

/-- The doubles of a number. -/
def Num.doubles : Num → List (BitVec 64)
  | .asDouble f => [f]
  | .asInt _ => []

def Exemplar.doubles (e : Exemplar) : List (BitVec 64) := e.value.toList.flatMap Num.doubles
def NumPoint.doubles (p : NumPoint) : List (BitVec 64) := p.exemplars.flatMap Exemplar.doubles ++ p.value.toList.flatMap Num.doubles
def HistPoint.doubles (p : HistPoint) : List (BitVec 64) :=
  p.exemplars.flatMap Exemplar.doubles ++ p.sum.toList ++ p.min.toList ++ p.max.toList ++ p.explicitBounds
def ExpoPoint.doubles (p : ExpoPoint) : List (BitVec 64) :=
  p.exemplars.flatMap Exemplar.doubles ++ p.sum.toList ++ p.min.toList ++ p.max.toList ++ [p.zeroThreshold]

/-- The doubles of the data points, outside attributes. -/
def Data.doubles : Data → List (BitVec 64)
  | .gauge ps => ps.flatMap NumPoint.doubles
  | .sum ps _ _ => ps.flatMap NumPoint.doubles
  | .histogram ps _ => ps.flatMap HistPoint.doubles
  | .expo ps _ => ps.flatMap ExpoPoint.doubles

/-- The exemplars of the data points. -/
def Data.exemplars : Data → List Exemplar
  | .gauge ps => ps.flatMap (·.exemplars)
  | .sum ps _ _ => ps.flatMap (·.exemplars)
  | .histogram ps _ => ps.flatMap (·.exemplars)
  | .expo ps _ => ps.flatMap (·.exemplars)

/-- All items of a request. -/
def allItems {α : Type} (rs : List (ResourceItems α)) : List α := rs.flatMap fun r => r.scopes.flatMap (·.items)

end Otel.Otlp.Json
