import Verif.Rust.Num
import Verif.Rust.F64
/-!
# Configuration from the environment and from builders (C52, C71, C72)

The environment is a function from names to values; a variable that is unset or not Unicode is `none`. Durations are counted in
milliseconds where they come from the environment. `usize` has 64 bits.
-/

namespace Otel.Sdk.Config
open Rust

/-- `env::var(name).ok()`. -/
abbrev Env := Str → Option Str

/-- `env::var(name).ok().and_then(|s| uN::from_str(&s).ok())`. -/
def envNum (env : Env) (bits : Nat) (name : String) : Option Nat := (env name.toList).bind (parseDec bits)

/-- `if let Some(v) = … { field = v }`. -/
def orElse (v : Option Nat) (dflt : Nat) : Nat :=
  match v with
  | some n => n
  | none => dflt

/-! ## Batch span processor -/

/-- `BatchConfigBuilder` of the span processor. trace/span_processor.rs:691-697; `BatchConfig`: 659-681 has the same fields -/
structure Bsp where
  maxQueueSize : Nat
  scheduledDelay : Nat
  maxExportBatchSize : Nat
  maxExportTimeout : Nat
  maxConcurrentExports : Nat
deriving DecidableEq, Repr

/-- The defaults. span_processor.rs:55-72, 711-717 -/
def Bsp.defaults : Bsp where
  maxQueueSize := 2048
  scheduledDelay := 5000
  maxExportBatchSize := 512
  maxExportTimeout := 30000
  maxConcurrentExports := 1

/-- `init_from_env_vars`. span_processor.rs:808-852 -/
def Bsp.initFromEnv (env : Env) (b : Bsp) : Bsp :=
  let b := { b with maxConcurrentExports := orElse (envNum env 64 "OTEL_BSP_MAX_CONCURRENT_EXPORTS") b.maxConcurrentExports }
  let b := { b with maxQueueSize := orElse (envNum env 64 "OTEL_BSP_MAX_QUEUE_SIZE") b.maxQueueSize }
  let b := { b with scheduledDelay := orElse (envNum env 64 "OTEL_BSP_SCHEDULE_DELAY") b.scheduledDelay }
  let b := { b with maxExportBatchSize := orElse (envNum env 64 "OTEL_BSP_MAX_EXPORT_BATCH_SIZE") b.maxExportBatchSize }
  let b := if b.maxExportBatchSize > b.maxQueueSize then { b with maxExportBatchSize := b.maxQueueSize } else b
  { b with maxExportTimeout := orElse (envNum env 64 "OTEL_BSP_EXPORT_TIMEOUT") b.maxExportTimeout }

/-- A builder call. -/
inductive Call where
  | queue (n : Nat)
  | batch (n : Nat)
  | delay (n : Nat)
  | timeout (n : Nat)
  | concurrent (n : Nat)
deriving DecidableEq, Repr

/-- The `with_…` methods. span_processor.rs:731-790 -/
def Bsp.call (b : Bsp) : Call → Bsp
  | .queue n => { b with maxQueueSize := n }
  | .batch n => { b with maxExportBatchSize := n }
  | .delay n => { b with scheduledDelay := n }
  | .timeout n => { b with maxExportTimeout := n }
  | .concurrent n => { b with maxConcurrentExports := n }

/-- `build`. span_processor.rs:794-806 -/
def Bsp.build (b : Bsp) : Bsp := { b with maxExportBatchSize := min b.maxExportBatchSize b.maxQueueSize }

/-- `BatchConfigBuilder::default().with_…().….build()`. -/
def bspConfig (env : Env) (calls : List Call) : Bsp := ((Bsp.defaults.initFromEnv env) |> fun b => calls.foldl Bsp.call b).build

/-! ## Batch log processor -/

/-- `BatchConfigBuilder` of the log processor, with the field of the feature `experimental_logs_batch_log_processor_with_async_runtime`.
logs/batch_log_processor.rs:600-608 -/
structure Blp where
  maxQueueSize : Nat
  scheduledDelay : Nat
  maxExportBatchSize : Nat
  maxExportTimeout : Nat
deriving DecidableEq, Repr

/-- The defaults. batch_log_processor.rs:40-56, 620-629 -/
def Blp.defaults : Blp where
  maxQueueSize := 2048
  scheduledDelay := 1000
  maxExportBatchSize := 512
  maxExportTimeout := 30000

/-- `init_from_env_vars`. batch_log_processor.rs:701-733 -/
def Blp.initFromEnv (env : Env) (b : Blp) : Blp :=
  let b := { b with maxQueueSize := orElse (envNum env 64 "OTEL_BLRP_MAX_QUEUE_SIZE") b.maxQueueSize }
  let b := { b with maxExportBatchSize := orElse (envNum env 64 "OTEL_BLRP_MAX_EXPORT_BATCH_SIZE") b.maxExportBatchSize }
  let b := { b with scheduledDelay := orElse (envNum env 64 "OTEL_BLRP_SCHEDULE_DELAY") b.scheduledDelay }
  { b with maxExportTimeout := orElse (envNum env 64 "OTEL_BLRP_EXPORT_TIMEOUT") b.maxExportTimeout }

/-- The `with_…` methods; there is none for concurrency. batch_log_processor.rs:641-683 -/
def Blp.call (b : Blp) : Call → Blp
  | .queue n => { b with maxQueueSize := n }
  | .batch n => { b with maxExportBatchSize := n }
  | .delay n => { b with scheduledDelay := n }
  | .timeout n => { b with maxExportTimeout := n }
  | .concurrent _ => b

/-- `build`. batch_log_processor.rs:687-699 -/
def Blp.build (b : Blp) : Blp := { b with maxExportBatchSize := min b.maxExportBatchSize b.maxQueueSize }

/-- `BatchConfigBuilder::default().with_…().….build()`. -/
def blpConfig (env : Env) (calls : List Call) : Blp := ((Blp.defaults.initFromEnv env) |> fun b => calls.foldl Blp.call b).build

/-! ## Periodic reader -/

/-- `PeriodicReaderBuilder::new`: the interval in milliseconds. metrics/periodic_reader.rs:39-46 -/
def readerInterval (env : Env) : Nat := orElse (envNum env 64 "OTEL_METRIC_EXPORT_INTERVAL") 60000

/-- `with_interval`. metrics/periodic_reader.rs:55-60 -/
def withInterval (interval : Nat) (arg : Nat) : Nat := if arg ≠ 0 then arg else interval

/-- `PeriodicReader::builder(exporter).with_interval(..)….build()`. -/
def readerConfig (env : Env) (args : List Nat) : Nat := args.foldl withInterval (readerInterval env)

/-! ## Tracer provider -/

/-- The samplers that the environment can select. trace/config.rs:62-131 -/
inductive Base where
  | alwaysOn
  | alwaysOff
  | ratio (p : F64)
deriving DecidableEq

/-- A sampler: `parent` for `Sampler::ParentBased(Box::new(base))`. -/
structure Choice where
  parent : Bool
  base : Base
deriving DecidableEq

/-- `SpanLimits`. trace/span_limit.rs:23-34 -/
structure Limits where
  maxEvents : Nat
  maxAttributes : Nat
  maxLinks : Nat
  maxAttributesPerEvent : Nat
  maxAttributesPerLink : Nat
deriving DecidableEq, Repr

/-- `SpanLimits::default`. trace/span_limit.rs:36-46 -/
def Limits.defaults : Limits where
  maxEvents := 128
  maxAttributes := 128
  maxLinks := 128
  maxAttributesPerEvent := 128
  maxAttributesPerLink := 128

/-- The limits of `Config::default`. trace/config.rs:39-58 -/
def limitsFromEnv (env : Env) : Limits :=
  let l := Limits.defaults
  let l := { l with maxAttributes := orElse (envNum env 32 "OTEL_SPAN_ATTRIBUTE_COUNT_LIMIT") l.maxAttributes }
  let l := { l with maxEvents := orElse (envNum env 32 "OTEL_SPAN_EVENT_COUNT_LIMIT") l.maxEvents }
  { l with maxLinks := orElse (envNum env 32 "OTEL_SPAN_LINK_COUNT_LIMIT") l.maxLinks }

/-- The ratio of `OTEL_TRACES_SAMPLER_ARG`; `parseF64` stands for `str::parse::<f64>`. trace/config.rs:60, 66-79 -/
def ratioArg (parseF64 : Str → Option F64) (arg : Option Str) : F64 :=
  match arg.bind parseF64 with
  | some r => r
  | none => .fin 1

/-- The sampler of `Config::default`. trace/config.rs:32-33, 60-131 -/
def samplerFromEnv (parseF64 : Str → Option F64) (env : Env) : Choice :=
  let arg := env "OTEL_TRACES_SAMPLER_ARG".toList
  match env "OTEL_TRACES_SAMPLER".toList with
  | none => ⟨true, .alwaysOn⟩
  | some s =>
    if s = "always_on".toList then ⟨false, .alwaysOn⟩
    else if s = "always_off".toList then ⟨false, .alwaysOff⟩
    else if s = "traceidratio".toList then ⟨false, .ratio (ratioArg parseF64 arg)⟩
    else if s = "parentbased_always_on".toList then ⟨true, .alwaysOn⟩
    else if s = "parentbased_always_off".toList then ⟨true, .alwaysOff⟩
    else if s = "parentbased_traceidratio".toList then ⟨true, .ratio (ratioArg parseF64 arg)⟩
    else if s = "parentbased_jaeger_remote".toList then ⟨true, .alwaysOn⟩
    else if s = "jaeger_remote".toList then ⟨true, .alwaysOn⟩
    else if s = "xray".toList then ⟨true, .alwaysOn⟩
    else ⟨true, .alwaysOn⟩

/-- Calls on the provider builder. -/
inductive ProvCall where
  | sampler (c : Choice)
  | events (n : Nat)
  | attributes (n : Nat)
  | links (n : Nat)
  | attributesPerEvent (n : Nat)
  | attributesPerLink (n : Nat)
  | limits (l : Limits)

/-- The part of `Config` modelled here. trace/config.rs:13-27 -/
structure Prov where
  sampler : Choice
  limits : Limits

/-- `with_sampler`, `with_max_…`, `with_span_limits`. trace/provider.rs:349-394 -/
def Prov.call (p : Prov) : ProvCall → Prov
  | .sampler c => { p with sampler := c }
  | .events n => { p with limits := { p.limits with maxEvents := n } }
  | .attributes n => { p with limits := { p.limits with maxAttributes := n } }
  | .links n => { p with limits := { p.limits with maxLinks := n } }
  | .attributesPerEvent n => { p with limits := { p.limits with maxAttributesPerEvent := n } }
  | .attributesPerLink n => { p with limits := { p.limits with maxAttributesPerLink := n } }
  | .limits l => { p with limits := l }

/-- `SdkTracerProvider::builder().with_…()`. -/
def provConfig (parseF64 : Str → Option F64) (env : Env) (calls : List ProvCall) : Prov :=
  calls.foldl Prov.call ⟨samplerFromEnv parseF64 env, limitsFromEnv env⟩

end Otel.Sdk.Config
