import Verif.Rust.Assoc
import Verif.Rust.Str
import Verif.Sdk.Config
/-!
# Resources (`opentelemetry-sdk/src/resource`), C50 and C51

Attributes are a map from keys to values; values are a parameter `V`, with `ofStr` for `Value::from(String)`. Equality of resources is
equality of the two maps and of the schema url (derived `PartialEq`, mod.rs:41-52).
-/

namespace Otel.Resource
open Rust

/-- `ResourceInner`. mod.rs:42-45 -/
structure Res (V : Type) where
  attrs : List (Str × V)
  schemaUrl : Option Str

variable {V : Type}

/-- `Resource::get`. mod.rs:228-230 -/
def Res.get (r : Res V) (k : Str) : Option V := Assoc.get r.attrs k

/-- `Resource::empty`. mod.rs:83-90 -/
def Res.empty : Res V := ⟨[], none⟩

/-- `Resource::new`. mod.rs:95-107 -/
def Res.new (kvs : List (Str × V)) : Res V := ⟨Assoc.insertAll [] kvs, none⟩

/-- `Resource::from_schema_url`. mod.rs:117-138 -/
def Res.fromSchemaUrl (kvs : List (Str × V)) (url : Str) : Res V :=
  ⟨Assoc.insertAll [] kvs, if url.isEmpty then none else some url⟩

/-- `Resource::from_detectors`, given what the detectors return. mod.rs:141-155 -/
def Res.fromDetectors (ds : List (Res V)) : Res V :=
  ⟨ds.foldl (fun m d => Assoc.insertAll m d.attrs) [], none⟩

/-- The schema url of a merged resource. mod.rs:185-196 -/
def mergeUrl : Option Str → Option Str → Option Str
  | some a, some b => if a = b then some a else none
  | none, some b => some b
  | some a, none => some a
  | none, none => none

/-- `Resource::merge`. mod.rs:172-203 -/
def Res.merge (r other : Res V) : Res V :=
  if r.attrs.isEmpty && r.schemaUrl.isNone then other
  else if other.attrs.isEmpty && other.schemaUrl.isNone then r
  else ⟨Assoc.insertAll r.attrs other.attrs, mergeUrl r.schemaUrl other.schemaUrl⟩

/-- Calls on a `ResourceBuilder`. mod.rs:274-325; `with_attribute`, `with_detector`, `with_service_name` are special cases -/
inductive Call (V : Type) where
  | detectors (ds : List (Res V))
  | attributes (kvs : List (Str × V))
  | schemaUrl (kvs : List (Str × V)) (url : Str)

/-- One call. `with_detectors`: 281-284, `with_attributes`: 292-295, `with_schema_url`: 312-319 -/
def Res.call (r : Res V) : Call V → Res V
  | .detectors ds => r.merge (Res.fromDetectors ds)
  | .attributes kvs => r.merge (Res.new kvs)
  | .schemaUrl kvs url => (Res.fromSchemaUrl kvs url).merge r

/-! ## Detectors -/

/-- One entry of `OTEL_RESOURCE_ATTRIBUTES`. env.rs:47-55 -/
def parseEntry (entry : Str) : Option (Str × Str) :=
  match breakAt '=' entry with
  | none => none
  | some (a, b) => some (trim a, trim (b.drop 1))

/-- `construct_otel_resources`. env.rs:45-59; merging into the empty resource gives the argument -/
def construct (ofStr : Str → V) (s : Str) : Res V :=
  Res.empty.merge (Res.new (((splitTerminator ',' s).filterMap parseEntry).map fun p => (p.1, ofStr p.2)))

/-- `EnvResourceDetector::detect`. env.rs:22-27 -/
def envDetect (ofStr : Str → V) (env : Sdk.Config.Env) : Res V :=
  match env "OTEL_RESOURCE_ATTRIBUTES".toList with
  | some s => if s.isEmpty then Res.empty else construct ofStr s
  | none => Res.empty

/-- `SERVICE_NAME`. attributes.rs -/
def serviceName : Str := "service.name".toList

/-- `SdkProvidedResourceDetector::detect`. env.rs:75-92 -/
def sdkDetect (ofStr : Str → V) (env : Sdk.Config.Env) : Res V :=
  let fromVar : Option V := match env "OTEL_SERVICE_NAME".toList with
    | some s => if s.isEmpty then none else some (ofStr s)
    | none => none
  let name := match fromVar with
    | some v => v
    | none => match (envDetect ofStr env).get serviceName with
      | some v => v
      | none => ofStr "unknown_service".toList
  Res.empty.merge (Res.new [(serviceName, name)])

/-- `TelemetryResourceDetector::detect`; `version` is the crate's. telemetry.rs:17-27 -/
def telemetryDetect (ofStr : Str → V) (version : Str) : Res V :=
  Res.empty.merge (Res.new [("telemetry.sdk.name".toList, ofStr "opentelemetry".toList),
    ("telemetry.sdk.language".toList, ofStr "rust".toList), ("telemetry.sdk.version".toList, ofStr version)])

/-- `Resource::builder`. mod.rs:62-70 -/
def builder (ofStr : Str → V) (version : Str) (env : Sdk.Config.Env) : Res V :=
  Res.fromDetectors [sdkDetect ofStr env, telemetryDetect ofStr version, envDetect ofStr env]

/-- `Resource::builder().with_…().….build()`. -/
def build (ofStr : Str → V) (version : Str) (env : Sdk.Config.Env) (calls : List (Call V)) : Res V :=
  calls.foldl Res.call (builder ofStr version env)

end Otel.Resource
