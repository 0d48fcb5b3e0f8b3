import Verif.Appender.Tracing
import Verif.Rust.Assoc
/-!
# The bridge from the `log` crate (`opentelemetry-appender-log/src/lib.rs`), C81

A `log::Record` is a level, a target, the formatted message, an optional source location and a list of key-values in the order in which its
source yields them. The file has two versions of the conversion of values, chosen by the feature `with-serde`: `serializeKv` and `serialize`.
-/

namespace Otel.Appender
open Rust
open Logs (RecOp Record Processor)
open Otlp (LVal Severity)
open Otel.Sdk (Cx)

variable {Time : Type}

/-! ## Without serde -/

/-- A value of `log::kv`, by the method of `VisitValue` it is handed to; `any` holds the text printed for it. lib.rs:247-301 -/
inductive KvVal where
  | any (text : Str)
  | bool (b : Bool)
  | str (s : Str)
  | i64 (i : BitVec 64)
  | u64 (n : BitVec 64)
  | i128 (i : BitVec 128)
  | u128 (n : BitVec 128)
  | f64 (bits : BitVec 64)

/-- `any_value::serialize` without serde. lib.rs:244-307 -/
def serializeKv : KvVal → Option Any
  | .any text => some (.string (String.ofList text))
  | .bool b => some (.boolean b)
  | .str s => some (.string (String.ofList s))
  | .i64 i => some (.int i)
  | .u64 n => some (integer n.toNat)
  | .i128 i => some (integer i.toInt)
  | .u128 n => some (integer n.toNat)
  | .f64 bits => some (.double bits)

/-! ## With serde -/

/-- A value as it presents itself to a `serde::Serializer`: the method it calls and what it passes. `fail` is a `Serialize` that returns an
error. A map is a list of entries: that `serialize_key` and `serialize_value` alternate is assumed. lib.rs:385-586 -/
inductive SVal where
  | bool (b : Bool)
  | i8 (v : BitVec 8)
  | i16 (v : BitVec 16)
  | i32 (v : BitVec 32)
  | i64 (v : BitVec 64)
  | i128 (v : BitVec 128)
  | u8 (v : BitVec 8)
  | u16 (v : BitVec 16)
  | u32 (v : BitVec 32)
  | u64 (v : BitVec 64)
  | u128 (v : BitVec 128)
  | f32 (bits : BitVec 32)
  | f64 (bits : BitVec 64)
  | char (c : Char)
  | str (s : Str)
  | bytes (bs : List (BitVec 8))
  | optNone
  | optSome (v : SVal)
  | unit
  | unitStruct (name : Str)
  | unitVariant (variant : Str)
  | newtypeStruct (v : SVal)
  | newtypeVariant (variant : Str) (v : SVal)
  | seq (vs : List SVal)
  | tuple (vs : List SVal)
  | tupleStruct (vs : List SVal)
  | tupleVariant (variant : Str) (vs : List SVal)
  | map (kvs : List (SVal × SVal))
  | struct (fs : List (Str × SVal))
  | structVariant (variant : Str) (fs : List (Str × SVal))
  | fail

/-- Two conversions of the standard library that are not modelled: `f32 as f64`, and the `Debug` text of an `Option<AnyValue>`. -/
structure Env where
  widen : BitVec 32 → BitVec 64
  dbg : Option Any → Str

/-- The key of a map entry. lib.rs:688-691 -/
def keyText (env : Env) : Option Any → Str
  | some (.string s) => s.toList
  | o => env.dbg o

/-- The entry of a map with one key, as the variants make it. lib.rs:667-676, 762-771 -/
def tagged (variant : Str) (v : Any) : Any := .map [(variant, v)]

mutual
/-- `any_value::serialize` with serde, before `.ok()`: `none` is an error, `some none` no value. lib.rs:328-330, 404-586 -/
def serialize (env : Env) : SVal → Option (Option Any)
  | .bool b => some (some (.boolean b))
  | .i8 v => some (some (.int (v.signExtend 64)))
  | .i16 v => some (some (.int (v.signExtend 64)))
  | .i32 v => some (some (.int (v.signExtend 64)))
  | .i64 v => some (some (.int v))
  | .i128 v => some (some (integer v.toInt))
  | .u8 v => some (some (.int (v.setWidth 64)))
  | .u16 v => some (some (.int (v.setWidth 64)))
  | .u32 v => some (some (.int (v.setWidth 64)))
  | .u64 v => some (some (integer v.toNat))
  | .u128 v => some (some (integer v.toNat))
  | .f32 bits => some (some (.double (env.widen bits)))
  | .f64 bits => some (some (.double bits))
  | .char c => some (some (.string (String.ofList [c])))
  | .str s => some (some (.string (String.ofList s)))
  | .bytes bs => some (some (.bytes bs))
  | .optNone => some none
  | .optSome v => serialize env v
  | .unit => some none
  | .unitStruct name => some (some (.string (String.ofList name)))
  | .unitVariant variant => some (some (.string (String.ofList variant)))
  | .newtypeStruct v => serialize env v
  | .newtypeVariant variant v =>
    match serialize env v with
    | some (some a) => some (some (.map (Assoc.insert [] variant a)))
    | some none => some (some (.map []))
    | none => none
  | .seq vs => (serializeElems env [] vs).map fun l => some (.list l)
  | .tuple vs => (serializeElems env [] vs).map fun l => some (.list l)
  | .tupleStruct vs => (serializeElems env [] vs).map fun l => some (.list l)
  | .tupleVariant variant vs => (serializeElems env [] vs).map fun l => some (tagged variant (.list l))
  | .map kvs => (serializeEntries env [] kvs).map fun m => some (.map m)
  | .struct fs => (serializeFields env [] fs).map fun m => some (.map m)
  | .structVariant variant fs => (serializeFields env [] fs).map fun m => some (tagged variant (.map m))
  | .fail => none

/-- `serialize_element`, or `serialize_field` of a tuple, for each element. lib.rs:593-602, 614-623, 635-644, 656-665 -/
def serializeElems (env : Env) (acc : List Any) : List SVal → Option (List Any)
  | [] => some acc
  | v :: vs =>
    match serialize env v with
    | some (some a) => serializeElems env (acc ++ [a]) vs
    | some none => serializeElems env acc vs
    | none => none

/-- `serialize_key` and `serialize_value` for each entry. lib.rs:684-712 -/
def serializeEntries (env : Env) (acc : List (Str × Any)) : List (SVal × SVal) → Option (List (Str × Any))
  | [] => some acc
  | (k, v) :: kvs =>
    match serialize env k with
    | none => none
    | some key =>
      match serialize env v with
      | some (some a) => serializeEntries env (Assoc.insert acc (keyText env key) a) kvs
      | some none => serializeEntries env acc kvs
      | none => none

/-- `serialize_field` for each field. lib.rs:724-736, 748-760 -/
def serializeFields (env : Env) (acc : List (Str × Any)) : List (Str × SVal) → Option (List (Str × Any))
  | [] => some acc
  | (k, v) :: fs =>
    match serialize env v with
    | some (some a) => serializeFields env (Assoc.insert acc k a) fs
    | some none => serializeFields env acc fs
    | none => none
end

/-! ## The bridge -/

/-- The conversion of values that was compiled in. -/
structure Conversion (V : Type) where
  run : V → Option Any

/-- Without the feature `with-serde`. lib.rs:239-308 -/
def plain : Conversion KvVal := ⟨serializeKv⟩

/-- With it: an error is no value. lib.rs:328-330 -/
def serde (env : Env) : Conversion SVal := ⟨fun v => (serialize env v).join⟩

/-- `log::Record` -/
structure LogRecord (V : Type) where
  level : Level
  target : Str
  message : Str
  file : Option Str
  line : Option (BitVec 32)
  modulePath : Option Str
  keyValues : List (Str × V)

/-- `log_attributes`. lib.rs:214-237 -/
def logAttributes {V : Type} (conv : Conversion V) (kvs : List (Str × V)) : List (Str × Any) :=
  kvs.filterMap fun kv => (conv.run kv.2).map fun a => (kv.1, a)

/-- The calls `log` makes on the new record, in order. lib.rs:151-177 -/
def logOps {V : Type} (ft : Features) (conv : Conversion V) (r : LogRecord V) : List (Op Time) :=
  [.severityNumber (severityOfLevel r.level), .severityText r.level.text, .body (.string (String.ofList r.message))]
  ++ (if ft.metadataAttributes then
      (match r.file with
        | some f => [.attr "code.file.path".toList (.string (String.ofList f))]
        | none => []) ++
      (match r.line with
        | some l => [.attr "code.line.number".toList (.int (BitVec.ofNat 64 l.toNat))]
        | none => []) ++
      (match r.modulePath with
        | some m => [.attr "code.function.name".toList (.string (String.ofList m))]
        | none => [])
    else [])
  ++ [.attrs (logAttributes conv r.keyValues), .target r.target]

/-- `enabled`. lib.rs:137-146 -/
def logEnabled {B : Type} {U : Nat → Type} (ft : Features) (filters : List Filter) (cx : Cx B U) (level : Level) (target : Str) : Bool :=
  if ft.logsEnabled then Logs.eventEnabled (filters.map fun f => f (severityOfLevel level) target none) cx else true

/-- `log`; `none` is a panic. lib.rs:148-181 -/
def logRecord {V I W B : Type} {U : Nat → Type} (ft : Features) (conv : Conversion V) (scope : I) (filters : List Filter)
    (ps : List (Processor Any Time Severity I W)) (cx : Cx B U) (now : Time) (r : LogRecord V) (w : W) : Option W :=
  if logEnabled ft filters cx r.level r.target then
    ((logOps ft conv r).foldlM RecOp.run? Record.new).map fun rec => Logs.emit scope ps cx now rec w
  else some w

end Otel.Appender
