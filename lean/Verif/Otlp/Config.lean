import Verif.Sdk.ConfigProps
import Verif.Rust.Assoc
import Verif.Otlp.Headers
/-!
# Configuration of the OTLP exporters (`opentelemetry-otlp/src/exporter`), C55 and C56
-/

namespace Otel.Otlp
open Rust Sdk.Config

/-- The signals, each with an exporter of its own. -/
inductive Signal where
  | traces | metrics | logs
deriving DecidableEq

/-- The variable names of a signal. span.rs:28-37, logs.rs:20-32, metric.rs:29-38 -/
structure Vars where
  endpoint : String
  timeout : String
  compression : String
  headers : String

/-- `OTEL_EXPORTER_OTLP_TRACES_…`, span.rs:28-37; `OTEL_EXPORTER_OTLP_METRICS_…`, metric.rs:29-38; `OTEL_EXPORTER_OTLP_LOGS_…`, logs.rs:20-32 -/
def vars : Signal → Vars
  | .traces => ⟨"OTEL_EXPORTER_OTLP_TRACES_ENDPOINT", "OTEL_EXPORTER_OTLP_TRACES_TIMEOUT", "OTEL_EXPORTER_OTLP_TRACES_COMPRESSION", "OTEL_EXPORTER_OTLP_TRACES_HEADERS"⟩
  | .metrics => ⟨"OTEL_EXPORTER_OTLP_METRICS_ENDPOINT", "OTEL_EXPORTER_OTLP_METRICS_TIMEOUT", "OTEL_EXPORTER_OTLP_METRICS_COMPRESSION", "OTEL_EXPORTER_OTLP_METRICS_HEADERS"⟩
  | .logs => ⟨"OTEL_EXPORTER_OTLP_LOGS_ENDPOINT", "OTEL_EXPORTER_OTLP_LOGS_TIMEOUT", "OTEL_EXPORTER_OTLP_LOGS_COMPRESSION", "OTEL_EXPORTER_OTLP_LOGS_HEADERS"⟩

/-- The path given to `build_client`. exporter/http/mod.rs:201-254 -/
def signalPath : Signal → Str
  | .traces => "/v1/traces".toList
  | .metrics => "/v1/metrics".toList
  | .logs => "/v1/logs".toList

/-- The general variables. exporter/mod.rs:20-54 -/
def generalVars : Vars :=
  ⟨"OTEL_EXPORTER_OTLP_ENDPOINT", "OTEL_EXPORTER_OTLP_TIMEOUT", "OTEL_EXPORTER_OTLP_COMPRESSION", "OTEL_EXPORTER_OTLP_HEADERS"⟩

/-- `OTEL_EXPORTER_OTLP_HTTP_ENDPOINT_DEFAULT`. exporter/mod.rs:61 -/
def httpDefault : Str := "http://localhost:4318".toList

/-- `OTEL_EXPORTER_OTLP_GRPC_ENDPOINT_DEFAULT`. exporter/mod.rs:60 -/
def grpcDefault : Str := "http://localhost:4317".toList

/-- `OTEL_EXPORTER_OTLP_TIMEOUT_DEFAULT`, in nanoseconds. exporter/mod.rs:56 -/
def timeoutDefault : Nat := 10000 * 1000000

/-- `Duration::from_millis`, in nanoseconds. -/
def fromMillis (n : Nat) : Nat := n * 1000000

/-- `ExportConfig`, without the protocol; durations are nanoseconds. exporter/mod.rs:68-99 -/
structure ExportConfig where
  endpoint : Option Str := none
  timeout : Option Nat := none

/-- Calls on the builder of an exporter. exporter/mod.rs:228-250 -/
inductive BuilderCall where
  | endpoint (e : Str)
  | timeout (d : Nat)
  | config (c : ExportConfig)

/-- `WithExportConfig`. exporter/mod.rs:252-274 -/
def ExportConfig.call (b : ExportConfig) : BuilderCall → ExportConfig
  | .endpoint e => { b with endpoint := some e }
  | .timeout d => { b with timeout := some d }
  | .config c => { b with endpoint := c.endpoint, timeout := c.timeout }

/-- The builder after the calls. -/
def configured (calls : List BuilderCall) : ExportConfig := calls.foldl ExportConfig.call {}

/-- `resolve_timeout`. exporter/mod.rs:277-296 -/
def resolveTimeout (env : Env) (signalVar : String) (provided : Option Nat) : Nat :=
  match provided with
  | some t => t
  | none =>
    match envNum env 64 signalVar with
    | some n => fromMillis n
    | none =>
      match envNum env 64 generalVars.timeout with
      | some n => fromMillis n
      | none => timeoutDefault

section Http
/-! `parse` is `str::parse::<Uri>`; the error carries the text that was not a URI. -/
variable {U : Type} (parse : Str → Option U)

/-- `endpoint.parse().map_err(…)`. exporter/http/mod.rs:356-358, 370-374 -/
def parseUri (s : Str) : Except Str U :=
  match parse s with
  | some u => .ok u
  | none => .error s

/-- `build_endpoint_uri`, the text. exporter/http/mod.rs:349-355 -/
def endpointText (endpoint path : Str) : Str :=
  let path := if endpoint.getLast? = some '/' ∧ path.head? = some '/' then path.tail else path
  endpoint ++ path

/-- `build_endpoint_uri`. exporter/http/mod.rs:349-359 -/
def buildEndpointUri (endpoint path : Str) : Except Str U := parseUri parse (endpointText endpoint path)

/-- `resolve_http_endpoint`. exporter/http/mod.rs:362-392 -/
def resolveHttpEndpoint (env : Env) (signalVar : String) (path : Str) (provided : Option Str) : Except Str U :=
  match provided with
  | some e => parseUri parse e
  | none =>
    match (env signalVar.toList).bind parse with
    | some u => .ok u
    | none =>
      match (env generalVars.endpoint.toList).bind (fun s => (buildEndpointUri parse s path).toOption) with
      | some u => .ok u
      | none => buildEndpointUri parse httpDefault path

/-- The endpoint of the HTTP exporter of a signal. exporter/http/mod.rs:104-118, 201-254 -/
def httpEndpoint (env : Env) (sig : Signal) (calls : List BuilderCall) : Except Str U :=
  resolveHttpEndpoint parse env (vars sig).endpoint (signalPath sig) (configured calls).endpoint

end Http

/-- The timeout of the exporter of a signal. exporter/http/mod.rs:120, exporter/tonic/mod.rs:200 -/
def exporterTimeout (env : Env) (sig : Signal) (calls : List BuilderCall) : Nat :=
  resolveTimeout env (vars sig).timeout (configured calls).timeout

/-- `resolve_endpoint` of the gRPC exporter. exporter/tonic/mod.rs:220-237 -/
def resolveGrpcEndpoint (env : Env) (signalVar : String) (provided : Option Str) : Str :=
  match provided with
  | some e => e
  | none =>
    match env signalVar.toList with
    | some e => e
    | none =>
      match env generalVars.endpoint.toList with
      | some e => e
      | none => grpcDefault

/-- The endpoint of the gRPC exporter of a signal, the text given to `Channel::from_shared`. exporter/tonic/mod.rs:189-197, 254-312 -/
def grpcEndpoint (env : Env) (sig : Signal) (calls : List BuilderCall) : Str :=
  resolveGrpcEndpoint env (vars sig).endpoint (configured calls).endpoint

/-- `Compression`. exporter/mod.rs:141-147 -/
inductive Compression where
  | gzip | zstd
deriving DecidableEq

/-- The errors of `resolve_compression`: an unknown name, or an algorithm that is not compiled in. exporter/mod.rs:107-127 -/
inductive CompressionError where
  | unsupported (s : Str)
  | featureRequired (c : Compression)
deriving DecidableEq

def gzipName : Str := "gzip".toList
def zstdName : Str := "zstd".toList

/-- `Compression::from_str`. exporter/mod.rs:158-170 -/
def compressionOf (s : Str) : Except CompressionError Compression :=
  if s = gzipName then .ok .gzip else if s = zstdName then .ok .zstd else .error (.unsupported s)

/-- `CompressionEncoding::try_from`; `has` tells which algorithms are compiled in. exporter/tonic/mod.rs:48-69 -/
def encodingOf (has : Compression → Bool) (c : Compression) : Except CompressionError Compression :=
  if has c then .ok c else .error (.featureRequired c)

/-- `compression.parse::<Compression>()?.try_into()?`. exporter/tonic/mod.rs:246, 248 -/
def encodingFrom (has : Compression → Bool) (s : Str) : Except CompressionError (Option Compression) := do
  let c ← compressionOf s
  let e ← encodingOf has c
  return some e

/-- `resolve_compression`. exporter/tonic/mod.rs:239-252 -/
def resolveCompression (has : Compression → Bool) (env : Env) (signalVar : String) (provided : Option Compression) :
    Except CompressionError (Option Compression) :=
  match provided with
  | some c => do
    let e ← encodingOf has c
    return some e
  | none =>
    match env signalVar.toList with
    | some s => encodingFrom has s
    | none =>
      match env generalVars.compression.toList with
      | some s => encodingFrom has s
      | none => .ok none

/-! ## Headers of the HTTP exporter -/

section HttpHeaders
/-! `name` is `HeaderName::from_str`, which lowers ASCII letters and refuses what is not a token; `value` tells which texts `HeaderValue::from_str`
accepts. The headers set with `with_headers` come in the order a `HashMap` yields them. -/
variable (name : Str → Option Str) (value : Str → Bool)

/-- `Some((HeaderName::from_str(k).ok()?, HeaderValue::from_str(v).ok()?))`. exporter/http/mod.rs:175-179, 397-400 -/
def headerOf (kv : Str × Str) : Option (Str × Str) :=
  match name kv.1 with
  | some k => if value kv.2 then some (k, kv.2) else none
  | none => none

/-- `with_headers`: the values are URL-decoded, the entries are added to those there are. exporter/http/mod.rs:443-453 -/
def withHeaders (headers : List (Str × Str)) (given : List (Str × Str)) : List (Str × Str) :=
  Assoc.insertAll headers (given.map fun kv => (kv.1, (urlDecode kv.2).getD kv.2))

/-- The header variable that is read. exporter/http/mod.rs:183-185, exporter/tonic/mod.rs:334-335 -/
def headersInput (env : Env) (sig : Signal) : Option Str :=
  match env (vars sig).headers.toList with
  | some s => some s
  | none => env generalVars.headers.toList

/-- The headers of the HTTP exporter: those of the code, then those of the environment. exporter/http/mod.rs:167-188 -/
def httpHeaders (env : Env) (sig : Signal) (code : List (Str × Str)) : List (Str × Str) :=
  let headers := Assoc.insertAll [] (code.filterMap (headerOf name value))
  match headersInput env sig with
  | some input => Assoc.insertAll headers ((parseHeaderString input).filterMap (headerOf name value))
  | none => headers

end HttpHeaders

end Otel.Otlp
