import Verif.Appender.LogBridge
import Verif.Appender.LogBridgeProps
import Verif.Appender.SerdeProps
import Verif.Appender.Tracing
import Verif.Appender.TracingProps
import Verif.Async.Batch
import Verif.Async.BatchProps
import Verif.Async.BatchResults
import Verif.Async.Dropped
import Verif.Async.Reader
import Verif.Async.ReaderProps
import Verif.Async.ReaderResults
import Verif.Async.Ticker
import Verif.Baggage.Model
import Verif.Baggage.Props
import Verif.Baggage.Spec
import Verif.Common.Attr
import Verif.Common.Text
import Verif.Context.Context
import Verif.Context.ContextProps
import Verif.Context.Futures
import Verif.Context.Reentrancy
import Verif.Context.Stack
import Verif.Context.StackLemmas
import Verif.Context.StackProps
import Verif.Context.StackSpec
import Verif.EndToEnd.AsyncDelivery
import Verif.EndToEnd.BaggageRoute
import Verif.EndToEnd.Chain
import Verif.EndToEnd.Configured
import Verif.EndToEnd.ConfiguredBatch
import Verif.EndToEnd.Counter
import Verif.EndToEnd.Created
import Verif.EndToEnd.CreatedFlush
import Verif.EndToEnd.CreatedObservable
import Verif.EndToEnd.CreatedReaders
import Verif.EndToEnd.Delivery
import Verif.EndToEnd.Enrich
import Verif.EndToEnd.ExpoInstrument
import Verif.EndToEnd.Fan
import Verif.EndToEnd.Filters
import Verif.EndToEnd.Flush
import Verif.EndToEnd.Hops
import Verif.EndToEnd.Instruments
import Verif.EndToEnd.JsonText
import Verif.EndToEnd.Logging
import Verif.EndToEnd.Observable
import Verif.EndToEnd.Overflow
import Verif.EndToEnd.Processors
import Verif.EndToEnd.Proto
import Verif.EndToEnd.Providers
import Verif.EndToEnd.Readers
import Verif.EndToEnd.Scrape
import Verif.EndToEnd.ScrapeObservable
import Verif.EndToEnd.SimpleAsync
import Verif.EndToEnd.Temporality
import Verif.EndToEnd.Together
import Verif.EndToEnd.Tracing
import Verif.EndToEnd.Viewed
import Verif.EndToEnd.ViewedAll
import Verif.EndToEnd.ViewedMany
import Verif.EndToEnd.ViewedManyReaders
import Verif.EndToEnd.ViewedReaders
import Verif.Global.Globals
import Verif.Global.GlobalsProps
import Verif.Http.Headers
import Verif.Json.OtlpText
import Verif.Json.Text
import Verif.Json.TextProps
import Verif.Locks.Api
import Verif.Locks.Core
import Verif.Locks.Props
import Verif.Logs.Blp
import Verif.Logs.BlpFlag
import Verif.Logs.BlpProps
import Verif.Logs.BlpResource
import Verif.Logs.BlpResults
import Verif.Logs.ConcurrentLog
import Verif.Logs.GrowableArray
import Verif.Logs.LogBatch
import Verif.Logs.Logger
import Verif.Logs.LoggerProps
import Verif.Logs.RecordProps
import Verif.Logs.SimpleLog
import Verif.Memory.Exporters
import Verif.Metrics.AggregationProps
import Verif.Metrics.Aggregations
import Verif.Metrics.AtomicFloat
import Verif.Metrics.Concurrent
import Verif.Metrics.ConcurrentCut
import Verif.Metrics.ConcurrentInv
import Verif.Metrics.ConcurrentLemmas
import Verif.Metrics.ConcurrentOverflow
import Verif.Metrics.ConcurrentProps
import Verif.Metrics.ConcurrentSets
import Verif.Metrics.ConcurrentWalk
import Verif.Metrics.ExpoBucketLemmas
import Verif.Metrics.ExpoHistogram
import Verif.Metrics.ExpoInv
import Verif.Metrics.ExpoLemmas
import Verif.Metrics.ExpoProps
import Verif.Metrics.ExpoSpec
import Verif.Metrics.Frexp
import Verif.Metrics.Instruments
import Verif.Metrics.InstrumentsProps
import Verif.Metrics.ManualReader
import Verif.Metrics.MeterApi
import Verif.Metrics.Names
import Verif.Metrics.ObservableRuns
import Verif.Metrics.Observables
import Verif.Metrics.Periodic
import Verif.Metrics.PeriodicAnswers
import Verif.Metrics.PeriodicProps
import Verif.Metrics.PeriodicResults
import Verif.Metrics.PeriodicTiming
import Verif.Metrics.Precomputed
import Verif.Metrics.Produce
import Verif.Metrics.StreamProps
import Verif.Metrics.ValueMap
import Verif.Metrics.ValueMapLemmas
import Verif.Metrics.ValueMapProps
import Verif.Metrics.ValueMapSpec
import Verif.Metrics.Views
import Verif.Otlp.Config
import Verif.Otlp.ConfigProps
import Verif.Otlp.Exporter
import Verif.Otlp.GroupProps
import Verif.Otlp.Grpc
import Verif.Otlp.Headers
import Verif.Otlp.Json
import Verif.Otlp.JsonAgree
import Verif.Otlp.JsonLemmas
import Verif.Otlp.JsonProps
import Verif.Otlp.JsonRead
import Verif.Otlp.JsonSdk
import Verif.Otlp.JsonSdkMetrics
import Verif.Otlp.JsonSpec
import Verif.Otlp.JsonWrite
import Verif.Otlp.Metrics
import Verif.Otlp.MetricsProps
import Verif.Otlp.Model
import Verif.Otlp.Props
import Verif.Otlp.Proto
import Verif.Otlp.ProtoFormat
import Verif.Otlp.ProtoLemmas
import Verif.Otlp.ProtoLimits
import Verif.Otlp.ProtoMetrics
import Verif.Otlp.ProtoProps
import Verif.Otlp.ProtoSdk
import Verif.Otlp.ProtoSpec
import Verif.Otlp.Single
import Verif.Otlp.Spec
import Verif.Otlp.Wire
import Verif.Prometheus.Builder
import Verif.Prometheus.Model
import Verif.Prometheus.Props
import Verif.Prometheus.Units
import Verif.Propagation.B3
import Verif.Propagation.B3Props
import Verif.Propagation.Baggage
import Verif.Propagation.BaggageDisplay
import Verif.Propagation.BaggageProps
import Verif.Propagation.Carrier
import Verif.Propagation.CompositeProps
import Verif.Propagation.ExtractProps
import Verif.Propagation.Jaeger
import Verif.Propagation.JaegerNames
import Verif.Propagation.JaegerProps
import Verif.Propagation.TraceContext
import Verif.Propagation.TraceContextProps
import Verif.Resource.Model
import Verif.Resource.Props
import Verif.Resource.Provider
import Verif.Rust.Assoc
import Verif.Rust.Bytes
import Verif.Rust.Decimal
import Verif.Rust.F64
import Verif.Rust.Num
import Verif.Rust.NumSpec
import Verif.Rust.Percent
import Verif.Rust.Str
import Verif.Sdk.BatchTiming
import Verif.Sdk.Bsp
import Verif.Sdk.BspCounter
import Verif.Sdk.BspFlag
import Verif.Sdk.BspProps
import Verif.Sdk.BspResource
import Verif.Sdk.Config
import Verif.Sdk.ConfigProps
import Verif.Sdk.Facade
import Verif.Sdk.JaegerAnswer
import Verif.Sdk.JaegerEndpoint
import Verif.Sdk.JaegerRemote
import Verif.Sdk.JaegerTask
import Verif.Sdk.Pairs
import Verif.Sdk.Processors
import Verif.Sdk.Provider
import Verif.Sdk.ProviderProps
import Verif.Sdk.ProviderResults
import Verif.Sdk.RateLimit
import Verif.Sdk.Sampler
import Verif.Sdk.SamplerProps
import Verif.Sdk.Scoped
import Verif.Sdk.ScopedTree
import Verif.Sdk.Shared
import Verif.Sdk.SharedProps
import Verif.Sdk.Span
import Verif.Sdk.SpanLemmas
import Verif.Sdk.SpanLife
import Verif.Sdk.SpanProps
import Verif.Sdk.SpanSpec
import Verif.Sdk.Tracer
import Verif.Sdk.TracerProps
import Verif.Stdout.Exporter
import Verif.Stdout.Lines
import Verif.Stdout.Props
import Verif.Trace.Ids
import Verif.Trace.IdsProps
import Verif.Trace.TraceState
import Verif.Trace.TraceStateLemmas
import Verif.Trace.TraceStateProps
import Verif.Trace.TraceStateSpec
import Verif.Zipkin.Body
import Verif.Zipkin.Model
import Verif.Zipkin.Props
