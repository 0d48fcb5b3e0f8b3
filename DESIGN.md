# Formal model of opentelemetry-rust: design

The source at `/repo` is read as text and modelled by hand in Lean 4. Nothing of `/repo` is built or run. A theorem
here is a fact about the model; the link to the code is the citation (file and lines) on each definition.

Contents: 1 trusted base, 2 conventions, 3 plan per property, 4 what is modelled and what is not, 5 where the code does
not have a property, 6 how the theorems are tested, 7 modules, 8 axioms of each theorem.

## 1. Trusted base

* Lean 4.33.0's kernel. `lake build` elaborates; the gate replays every constant through the kernel.
* Axioms: at most `propext`, `Classical.choice`, `Quot.sound` (section 8 lists them per theorem). No axiom of our own, no
  `sorry`, no `native_decide`, no `bv_decide`, no `implemented_by`, no `unsafe`. `decide +kernel` is used for closed
  facts about literals (witnesses) and full finite tables; it rests on the kernel's reduction only.
* The reading of the Rust source: each definition cites what it models and says where it simplifies.
* The meaning of the Rust standard library and of external crates, written as Lean definitions in `Verif/Rust/*` (string
  splitting, trimming, hexadecimal and decimal parsing and printing, UTF-8, percent coding, IEEE doubles, hash maps), or
  as parameters that the theorems quantify over. Parameters: rounding of float arithmetic (`Rounding`, only assumed
  exact on representable results), `ln` in exponential histograms (assumed to pick
  the right bucket, `ExactLn`), parsing of floats, of URIs and of glob patterns, the iteration order of hash maps, the random id
  generator, clocks, schedulers, exporters and user callbacks.
* Memory model: atomics and locks are sequentially consistent steps. The weaker orderings of the code (`Relaxed`,
  `Acquire`/`Release`) are not distinguished; this is the main gap of the concurrent models.

## 2. Conventions

* `str` / `String` is `List Char` (`Rust.Str`); byte lengths are sums of UTF-8 sizes. Rust strings are always valid UTF-8,
  so this loses nothing.
* `u128`/`u64`/`u8` values are `BitVec n` where bit operations or wrap-around matter, else `Nat` or `Int`.
* `&mut self` methods return the new value. `Result`/`Option` stay data; a panic is an explicit value.
* A `HashMap` is a finite association list with unique keys (`Rust.Assoc`); where the code iterates over a map, the
  order is arbitrary and the theorem quantifies over it.
* Concurrency: a transition system whose steps are the atomic operations of the code (one atomic operation, one lock
  section, one channel operation). `Reachable` ranges over every interleaving and every answer of the environment.
  Ghost fields (histories, tokens of calls) are written by the model and read by theorems only, never by a step.
* `f64`: `Rust.F64` (sign, infinities, NaN, a dyadic rational) with an abstract rounding; 64-bit words where the bit
  pattern is what matters (equality and hashing, conversions); exact rationals with an abstract rounding in the rate
  limiter.
* Each area has a model (code), a specification (small, independent of the model's helpers), lemmas, and property
  theorems with an `example` of a concrete case beside them. A theorem named `_partial` proves part of the English
  property and its comment says what is missing; a theorem named `_violated` proves that the unchanged code lacks the
  full property, with a concrete witness.
* "partial" in `MANIFEST.json` means that some `_violated` theorem, or a side condition, separates what is proved from
  the English statement. The note says which.

## 3. Plan per property

| id | model | proof |
|----|-------|-------|
| C01, C02 | `Context/Stack`: current, stack of optional contexts, guards with positions; ops attach / drop(any live guard) | refinement to "list of live attachments, newest last"; invariant relating positions to live guards; overflow by explicit capacity parameter |
| C03 | contexts as records with a type-indexed map | algebraic laws, induction over derivation chains |
| C04 | program tree of polls (nested), interpreted on the stack model; a poll as a part of a history of attaches and drops | induction on the tree, using C01's push/pop lemma; C01 and a decomposition of the live attachments |
| C05 | hex formatting / parsing on `Nat` with width | round trip by induction on digits |
| C06–C08 | `Propagation/TraceContext` on `Str` | round trip from C05 + split lemmas; soundness by case analysis; grammar: the code is more lenient, witness + partial |
| C09, C10 | `TraceState` as list of pairs | invariants over op histories; duplicates break delete: witness + partial under "no duplicate keys" |
| C11, C12 | `Baggage` with byte counter | invariant `true size ≤ counter ≤ 8192`; counter drift after remove: witness + partial |
| C13 | percent-encoding model | round trip under "no `%`, no surrounding whitespace" partial, witness for `%` |
| C14 | context model with two value types | witness that clearing does nothing |
| C15–C17 | B3, Jaeger propagators | round trips per encoding; witnesses for the debug flag and zero ids |
| C18 | carrier as finite map, propagators as functions | inclusion proofs; witnesses for B3 single header, Jaeger untrimmed name |
| C19, C20, C21 | sampler on ids; tracer's `build_with_context` | threshold arithmetic; induction on span trees |
| C22, C23, C24 | span state machine | simulation by lists of recorded items; induction over op histories; status is a max |
| C25–C28 | batch span processor as interleaved transition system | inductive invariants; witnesses for single-batch flush and unsampled spans |
| C29, C30, C35 | provider state machines | invariants over histories |
| C31 | inline array + overflow | refinement to list |
| C32 | emit as fold | equational |
| C33, C34 | batch log processor as interleaved transition system | inductive invariants; partial: no emit in flight; witnesses |
| C36–C38, C42, C43 | `ValueMap` model: trackers keyed by provided and sorted attribute lists | refinement to a spec map over canonical attribute sets; conservation over interleavings |
| C39 | CAS loop transition system | invariant |
| C40 | histogram over a linear order | induction; partition point lemma |
| C41 | exponential histogram over abstract bin function with coherence law | invariants; coherence proved for the exact real logarithm; witness for max_size 1 and overflow |
| C44, C45 | time initiator; produce | equational / independence |
| C46 | validators | iff with spec predicate |
| C47 | inserter, cache, views | invariants over creation sequences |
| C48, C49 | reader transition systems | inductive invariants |
| C50, C51 | finite maps | laws; witnesses for precedence |
| C52 | config builder | case analysis |
| C53, C54 | grouping fold, conversions | permutation; injectivity; witnesses |
| C55, C56 | config resolution, header parsing | case analysis; round trip |
| C57, C58 | leaky bucket over rationals; strategy update | invariant bound; starvation witness (general) |
| C59 | scope equality via sorting | permutation-sorting uniqueness; witnesses for floats |
| C60, C61 | sanitizing, zipkin conversion | character-wise; witness for non-ASCII letters |
| C62 | programs of nested `Context` calls against a borrow counter of the `RefCell` | exact condition for a panic by induction on the program; witnesses |
| C63, C64 | tracer and span model, processors as observers of `on_start`/`on_end` | invariant over histories of starts; witnesses |
| C65 | batch processors with the batch counter and the export-request flag | inductive invariants over every schedule; witnesses of leak and overflow |
| C66 | batch log processor with the answers of the exporter | invariant relating the answer to the last round; witnesses |
| C67, C68 | simple and concurrent log processors, exporter that logs; transition system with the mutex | induction on nesting; inductive invariant; witnesses |
| C69 | canonical form of attribute sets | sorting and deduplication lemmas; witness |
| C70, C78 | `new_view`, `Aggregation::validate`, stream resolution, aggregate builder | decision logic as iff against a table; glob matching is a parameter |
| C71 | loop of the periodic reader over an arbitrary clock | invariant on deadlines |
| C72 | environment parsing and builders | precedence stated as first candidate that applies |
| C73 | Prometheus collector: families, labels, buckets | case analysis and induction over collected metrics; witnesses |
| C74, C75 | attribute filter in front of the store; several readers of one observable | refinement to the filtered history; witnesses |
| C76, C77 | batch processors on an async runtime as transition systems: channel, task, in-flight exports | inductive invariants, progress lemma; witnesses |
| C79 | periodic reader on an async runtime | inductive invariants, progress lemma; witnesses |
| C80, C81, C82 | tracing layer, log bridge, serde serializer | meaning function of fields and serde values, equality by structural induction; witnesses |
| C83, C84 | serde encoding of the OTLP messages as trees of JSON, and the readers; the text layer is a parameter that may change doubles | conformance as a relation between documents and messages, structural induction; round trip with exact nesting bounds; witnesses |
| C85 | header map as a list with repetition; injector and extractor | refinement to the string map for propagators that look up by name; witnesses |
| C86, C87 | OTLP exporters as machines: requests sent, results, shutdown; the collector's answers are arbitrary | decision logic for each call, induction over histories; witnesses |
| C88 | Shared spans as a transition system: holders, mutex poisoning, calls of any thread | invariant by induction over interleavings, first action that ends a span; witnesses |
| C89 | the globals as cells under a lock, providers with a drop that may use the globals; threads as a transition system | invariant over interleavings, progress from every reachable state; witnesses of deadlock |
| C90 | chains of services as an inductive relation over the models of C06, C20, C21 | induction over the nesting and the chain; witness of the break |
| C91 | the models of the batch processors (C26, C33), the exporters (C86) and the messages (C53, C54) put together: the worker's export step runs the exporter | induction over the combined system, then composition of the parts' theorems; witness of a flush that leaves a span behind |
| C92 | the concurrent store (C38), the collection (C45), the message (C54) and the exporter (C86) put together, with any other instruments around | induction over the combined system; the wrapping sums are sums of numbers below 2^64; witnesses of lost values |
| C93 | the in-memory exporters as stores, with processors in front of them (C91) | induction over histories; witnesses of exports taken after shutdown and of the wrong resource |
| C94 | the lines each exporter prints, and exports as processes that interleave line by line | invariant per export by induction over the steps; induction over sequential exports; witnesses of mixed lines |
| C95 | each call as the sequence of locks it takes, with the user's code nested in it, run by threads that interleave | every program that keeps to the rules takes locks in one order, so some thread can always go on (induction over the rules, then over reachable states); witnesses of deadlocks found by running schedules |
| C96 | the protobuf encoding field by field (`Otlp/Wire.lean`: varints, keys, records; `Otlp/Proto.lean`: prost's writer and reader of each message) and the published tables of field numbers and types as a separate specification (`Otlp/ProtoSpec.lean`) | round trip by induction over values; every message follows its table; witnesses for deep values and for -0.0 |
| C97 | the shared spans of C88, the batch processor of C26 and the exporter pipe of C91 run together: threads act on spans, enter `on_end` with what ended, the worker exports (`EndToEnd/Tracing.lean`) | a conservation invariant (ended = accepted + refused + ignored + inside + waiting) by induction over the composed runs, then C91 and C96 |
| C98 | logging calls (C32, C80, C81), the batch log processor (C33) and the exporter pipe (C91) run together; what the collector is to see of each kind of call is a separate specification, `Sees` (`EndToEnd/Logging.lean`) | a conservation invariant by induction over the composed runs, then C91, C54 and C96; a run with an event, a record and a suppressed record as witness |
| C99 | C92 for every aggregation: an instrument is a `Style` (number type, aggregation, how its result becomes a point); recording threads, store (C38), times (C44), collection (C45), messages (C54) and exporter (C86) run together, for delta and for cumulative stores (`Metrics/ConcurrentSets.lean`, `EndToEnd/Instruments.lean`, `EndToEnd/ExpoInstrument.lean`) | what a received metric must say is a separate specification (`Names`, `CarriesPoints`, `TellsHistogram`, `TellsExpo`); invariants of the composed runs by induction, a chain invariant for cumulative collections, then the aggregation theorems of C39 to C42 for each instrument |
| C100 | a small language of nested blocks (`Prog`); `exec` runs it on a thread with context stack (C01), shared spans with holders (C88) and tracer (C21), unwinding on panics (`Sdk/Scoped.lean`) | refinement: `exec` equals `eval`, which knows only the block around a call; then `eval` against `outline`, read off the program, and `Recorded`, a relation on trees (`Sdk/ScopedTree.lean`) |
| C101 | recording threads and the cumulative store (C38), the reader, the collection (C45) and the conversion to Prometheus with the names known from earlier scrapes (C60, C73) run together (`EndToEnd/Scrape.lean`) | what a scrape must show is a separate specification (`Shows`); the known names are an invariant of the composed runs; labels are shown to tell attribute sets apart, then the chain of cumulative collections of C99 and the aggregation theorems of C39 and C40; two findings with runs as witnesses |
| C102 | `Display` of values and arrays, `as_str` and the conversion into strings, over a `Display` of doubles of which three facts are used (`Common/Text.lean`) | items of an array are shown to end at a comma or bracket, then induction over the two arrays; unescaped quotes and texts of different types as findings |
| C103 | `Pipeline::produce` running callbacks and then reading the store, beside callbacks run by other readers, on the concurrent store of C38; `PrecomputedSum::delta` with its table of reported values; then the exporter of C99 (`Metrics/ObservableRuns.lean`, `EndToEnd/Observable.lean`) | invariant relating what the reader's callbacks made with the history of the store in each phase; changes telescope to the last value; skipped sets and decreasing values as findings |
| C104 | the periodic reader of C48 (calls, messages, worker, answers) whose collections are the steps of the concurrent store of C38, with the exporter of C99 (`Metrics/ConcurrentCut.lean`, `EndToEnd/Flush.lean`) | an invariant of the store with the calls that have not set the flag yet; what had returned before a call is followed through the phases of the collection made for it, generic in the temporality; values of delta exports that fail are a finding with a run as witness |
| C105 | the services of C90, where each request has its own format, W3C, B3 or Jaeger, and its own carrier, a map or HTTP headers (`EndToEnd/Hops.lean`) | what one request and what nested spans keep, composed by induction over the route; debug contexts of B3 in the single header are a finding |
| C106 | the baggage of C11 and its propagator of C13 over maps and over the HTTP headers of C85, in a chain of services that change it (`EndToEnd/BaggageRoute.lean`) | invariant over the route: look-ups equal the last change, the content fits; the bytes of removed entries are a finding |
| C107 | `encode` and `Display` of a baggage (`Propagation/BaggageDisplay.lean`), read by the parser of C13 | encoding is undone byte by byte, and never writes a separator; metadata with commas as a finding |
| C108 | the processors of C76 with the exporters of C86; an export may be cut off by the timeout or with the task, before or after its request has left (`EndToEnd/AsyncDelivery.lean`) | invariant relating requests to the exports that have ended; with C77 everything accepted before an answered call has arrived |
| C109 | C99 without its assumption on the number of attribute sets (`Metrics/ConcurrentOverflow.lean`, `EndToEnd/Overflow.lean`) | sharing out by classes is a permutation; the routes of measurements do not change as more arrive, which bounds cumulative collections from both sides |
| C110 | `set_resource` as a message of the batch processors of C26 and C33, and the resource each batch was exported with (`Sdk/BspResource.lean`, `Logs/BlpResource.lean`) | the message channel is first in, first out; false when the timer has just expired, with a witness; at most one batch of spans, or one round of exports of records, is affected |
| C111 | A product of the systems of C104, one per reader, each with its own view, store, worker and collector; a measurement is handed from one to the next, the provider's `force_flush` and `shutdown` ask one after the other (`EndToEnd/Readers.lean`) | every reader runs as in C104 (simulation); an invariant counts what each reader has taken of calls that are between readers; the calls' tokens tie the provider's answer to C104's |
| C112 | A product of processors, each a simple, batch or asynchronous processor with its exporter and collector; an item is handed from one to the next, the provider's `force_flush` and `shutdown` ask one after the other (`EndToEnd/Fan.lean` over an abstract processor, `EndToEnd/Processors.lean`, `EndToEnd/SimpleAsync.lean`, `EndToEnd/Providers.lean`) | every processor runs as it would alone (simulation); an invariant counts what each has been given of calls that are between processors; the calls' tokens tie the provider's answer to C27, C34 and C36 |
| C113 | `with_resource` and `build` of the three provider builders, with the process-wide static of tracer providers as state (`Resource/Provider.lean`) | induction over the calls and over the providers of a process; equality of maps gives equal values, which are the same unless a zero |
| C114 | The update task, the clones, the shared reference and the shutdown channel as one transition system with a timer (`Sdk/JaegerTask.lean`); `get_endpoint` with the form serialisation of the `url` crate and a server that reads it (`Sdk/JaegerEndpoint.lean`) | invariants over all runs: the strategy is the last answer's, requests are one interval apart, the task's reference keeps the shutdown message from being sent (finding); round trip of the serialisation for all texts |
| C115 | `TextMapCompositePropagator` of the two propagators over the same carrier, contexts with both a span and baggage, and routes that mix spans, changes and requests (`EndToEnd/Together.lean`) | induction over the route; under each header name the composite writes what its member writes, and each member changes only its part of the context, so C105 and C106 apply side by side |
| C116 | `event_enabled` of exporters, processors and the logger, and the concurrent log processor as threads whose exports begin and end (`EndToEnd/Filters.lean`, `Logs/ConcurrentLog.lean`) | case analysis on the processor kinds over C80; induction over the schedule: the exporter's history on each thread is the thread's calls |
| C117 | the async batch processors of C76 when callers stop: only the task's own steps go on (`Async/Dropped.lean`) | invariant that no shutdown is pending, a measure that every working step lowers, and C76 for the order |
| C118 | a timed model of both batch workers (`Sdk/BatchTiming.lean`) and of the ticks of async tasks (`Async/Ticker.lean`) | invariants that bound the deadline and, for each place in the queue, when its item is due |
| C119 | a printer of JSON text with both layouts, a reader after RFC 8259 (`Json/Text.lean`), the body of a Zipkin request (`Zipkin/Body.lean`) and of an OTLP/JSON request (`Json/OtlpText.lean`) | round trip by induction over documents; an independent description of what a Zipkin object says of a span |
| C120 | `ResourceSpans::new`, the conversion of one log record, the zPages messages (`Otlp/Single.lean`) and the iterator of `LogBatch` (`Logs/LogBatch.lean`) | the reading functions of C54, `spans_once` for batches, induction over calls of the iterator |
| C121 | the derived deserialisation of the answer (`Sdk/JaegerAnswer.lean`) on top of the JSON reader of C119 | lemmas on entries of objects; the specification says what a document after sampling.proto asks for |
| C122 | the exporters of C91 with the JSON text of C119 as wire format (`EndToEnd/JsonText.lean`) | `Delivery` with a predicate on items the wire format carries; reading back by C84 and C119 |
| C123 | `TonicExporterBuilder`, `build_channel`, the metadata and the interceptor of each export (`Otlp/Grpc.lean`); header maps with several values per name | induction over builder calls for the fields and the values of each header; the precedence lemmas of C55; induction over exports |
| C124 | callbacks, store, cumulative reader and Prometheus scrapes as one transition system (`EndToEnd/ScrapeObservable.lean`) | a simulation into the system of C101; each answer is paired with its collection and the earlier ones by induction over the schedule; `run_tells` of C104 |
| C125 | spans as tables of methods over any state, the trait's bodies, `BoxedSpan`, `SpanRef`, tracers and providers (`Sdk/Facade.lean`); the SDK's span and `NoopSpan` as instances | a boxed call is the call of the table with the trait's bodies; induction over the history |
| C126 | `ExporterBuilder`, its calls and `build`; registries as lists of collectors with their numbers, which of them the program has a handle of (`Prometheus/Builder.lean`) | induction over the calls for each setting; the entries of a built exporter are invariant under every step of the program; a registry without handle is never scraped |
| C127 | the configuration of `Sdk/Config.lean` given to the tracer of `Sdk/Tracer.lean` with the samplers of `Sdk/Sampler.lean` (`EndToEnd/Configured.lean`) | the chosen sampler's decision is the specified one for every parent and id; composition with the configuration's precedence and the whole life of a span |
| C128 | the sizes of `Sdk/Config.lean` given to the batch processors of `Sdk/Bsp.lean`, `Logs/Blp.lean` and `Async/Batch.lean` (`EndToEnd/ConfiguredBatch.lean`) | the used sizes are positive and at most the configured ones by induction over the calls; composition with the invariants of the processors over all schedules |
| C129 | the builders of metric exporters and manual reader, the readers' `temporality`, the aggregators of `Metrics/Instruments.lean` and the temporality their data say (`EndToEnd/Temporality.lean`) | induction over the calls and over the created instruments, pipeline by pipeline; composition with the conversion to OTLP |
| C130 | the methods of `Meter`, the three builders, `SdkMeter`'s `create_*` over `Metrics/Instruments.lean`, and the registration of callbacks (`Metrics/MeterApi.lean`) | induction over the builder calls and over the created instruments; the identity found or made in each pipeline by the invariant of C47 |
| C131 | log processors as functions that call setters on the record, before and after the batch processor of `EndToEnd/Logging.lean` (`EndToEnd/Enrich.lean`) | the record each processor leaves by induction over the processors; then the invariant of C98 with the record as changed |
| C132 | `AggregateBuilder`: the store, aggregation and points for each aggregator of C130 with the temporalities of C129 (`EndToEnd/Created.lean`) | the one aggregator of a new instrument by C130 and an induction over the instruments created before; then the theorems of C99 for each aggregation |
| C133 | the same for `last_value` and `precomputed_sum`, with the callbacks registered (`EndToEnd/CreatedObservable.lean`) | C130 for the one aggregator and the callbacks, C129 for the temporality; then the theorems of C103 |
| C134 | a view's stream at the reader's pipeline, `AttributeSetFilter::apply` before the store, `AggregateBuilder` for what views ask for (`EndToEnd/Viewed.lean`, `ViewedAll.lean`, `ViewedMany.lean`) | C70 for the stream, by induction over the views, C47 for the one aggregator, C129 for the temporality; then the theorems of C99 and C41 on the filtered measurements |
| C135 | no new code: declared instruments (C132) with the periodic reader (C104) and with the limit (C109) (`EndToEnd/CreatedFlush.lean`) | one lemma gives, for each method, the aggregation with its facts; then the theorems of C104 and C109 |
| C136 | no new code: declared instruments (C132, C135) with several periodic readers and the provider's `force_flush` and `shutdown` (C111), and with a view (C134) (`EndToEnd/CreatedReaders.lean`, `ViewedReaders.lean`, `ViewedManyReaders.lean`) | each reader's aggregation by C135's lemma; then the theorems of C111 and C109; a new invariant says that a thread is inside a store only during a call |

## 4. What is modelled and what is not

Modelled, function by function (the citations in each module give the lines):

| crate | modelled | not modelled |
|-------|----------|--------------|
| opentelemetry | `context.rs`, `context/future_ext.rs` (the stack, derivation, guards, futures, re-entrancy), `baggage.rs`, `common.rs` (values, attributes, scopes: equality, order, hash), `trace_context.rs`, `trace/span_context.rs`, `trace/context.rs` (the span of a context), `propagation/*`, `logs/record.rs` (severity), `global/trace.rs`, `global/metrics.rs`, `global/propagation.rs` (C89), `trace/noop.rs` (span contexts, C90) | `KeyValue`/`Key` formatting, the macros of `global/internal_logging.rs` (they only write diagnostics), builders that only store a field |
| opentelemetry-sdk, trace | tracer, span, limits, samplers, remote sampler and rate limiter, id validity, providers, simple and batch processors on threads and on async runtimes, configuration | the random generator itself, HTTP fetch of sampling strategies, test support |
| opentelemetry-sdk, logs | records, attribute array, logger, simple, concurrent and batch processors, provider | diagnostics |
| opentelemetry-sdk, metrics | value map with concurrency, sums, gauges, histograms, exponential histograms, observables, time intervals, pipelines, views, instruments, meters, readers (periodic on a thread and on async runtimes, manual), provider | the glob matcher (external crate), exemplars (the code has none), bound instruments' downcasts |
| opentelemetry-sdk, resource and propagation | detectors, merging, builder, W3C and baggage propagators, composite | operating-system detectors (in contrib, not in this repository) |
| opentelemetry-proto, -otlp | conversions of spans, logs, metrics and values, grouping, endpoints, headers, timeouts, compression choice, requests, results and shutdown of the exporters, OTLP/JSON as trees (writer and reader) and as text (C119), OTLP in protobuf as bytes (C96: what `prost` generates from the attributes of the generated structs, modelled from the rules of protobuf because the source of `prost` is not in the repository) | protobuf groups, Summary data, the digits of doubles in JSON, the errors of serde_json's parser, Summary data in JSON, the gRPC and HTTP stacks, gzip/zstd, TLS |
| opentelemetry-http | `HeaderInjector`, `HeaderExtractor`, which answers the clients report as errors | the HTTP clients themselves |
| opentelemetry-prometheus, -zipkin, -jaeger-propagator | exporters, the Prometheus exporter's builder and registration, propagators | the text encoder of the `prometheus` crate; `Registry::register` is modelled after its documentation (a collector whose descriptors are taken is refused), HTTP upload |
| opentelemetry-stdout | the three exporters, line by line, with concurrent exports (C94) | the texts `Display`/`Debug`/chrono give to values and times, a closed standard output |
| opentelemetry-sdk, test exporters | the in-memory exporters (C93) | poisoned mutexes |
| opentelemetry-appender-tracing, -appender-log | layer, bridge, serde conversion | the `tracing` registry |
| opentelemetry-semantic-conventions | nothing: constants only | |

Across the board: allocation failure, stack exhaustion of deep recursion, thread creation failure, weak memory order,
durations and clocks beyond what a theorem names, and what an external crate does inside.

## 5. Where the code does not have a property

Each line is a theorem that proves the failure, with a concrete witness or for every run; the sentence is its comment.

* **C01** The current context is the most recently attached one that is still alive
  * `rebinding_refused_violated`: Dropped guards below a live one keep their places, so an attach can be refused although a single context is attached: a guard that is replaced 65533 times by `guard = cx.attach()` fills the stack. The next such attach has no effect: the current context stays the old one, not the newest one.
* **C04** A future polled with a context sees it during every poll and leaks it into none
  * `guard_across_await_violated`: A future that keeps a guard across an await leaks its context: after the poll it is current for whatever runs next on the thread; it stops to be when the guard is dropped in a later poll.
* **C08** W3C extraction accepts only the grammar of the W3C recommendation
  * `grammar_violated`: `00-1-1-01` (ids of one digit), `+0-+1-+1-+1` (signs) and a header with a trailing dash are accepted.
* **C09** TraceState behaves as an ordered map with most-recent-first insertion
  * `delete_violated`: A trace state built from a list with a repeated key still has the key after `delete`.
* **C10** Every entry of every TraceState is valid, and header/parse are inverse
  * `empty_key_violated`: The empty key is accepted (the header `=v` parses), although the grammar requires at least one character.
  * `w3c_key_refused_violated`: The key `t@aaaaaaaaaaaaaa` (a system id of 14 characters, allowed by the grammar) is refused; and a list with a blank after the comma, which the grammar allows, is refused as a whole.
* **C100** The trace of nested calls has the shape of the program
  * `full_stack_violated`: On a thread whose context stack is full, `mark_span_as_active` ends the new span before the block runs, and the block sees the outer span as the active one.
* **C101** From an instrument to a Prometheus scrape
  * `series_of_repeated_key_violated`: The same single measurement gives different series, and which one is up to the order in which the hash map is read: if a key is given twice, the store has the list as it was given and the list without the repetition (C38), and the collection reports the first it meets. One gives a label with both values joined, the other one a label with the first value only. The order of a `HashMap` differs from process to process.
  * `series_distinct_violated`: The values of labels are the texts of the attributes, so sets that differ in a type only give two series with the same labels in one scrape.
* **C102** The text of an attribute value tells the value
  * `string_array_violated`: Strings in arrays are not escaped: an array of one string has the text of an array of two.
  * `text_types_violated`: Texts do not tell types apart: 1 and `"1"`, and empty arrays of any type.
* **C103** Observable instruments from the callbacks to the collector
  * `skipped_set_violated`: C103 fails for a set that the callbacks skip once: the whole value counts again. The callbacks observe 5, nothing, and 7; the reported changes are 5 and 7, together 12.
  * `restarted_counter_violated`: C103 fails for an observable counter of `u64` that starts again: after 10, the value 3 gives the change 2^64 - 7 (in debug builds the subtraction panics), which the collector receives as 0 (C54).
* **C104** A successful flush delivers the measurements made before it
  * `flushed_delta_violated`: C104 fails with delta temporality after an export that failed: the values of a collection are gone with it, and the next flush returns `Ok`. opentelemetry-sdk/src/metrics/internal/mod.rs:160-187, periodic_reader.rs:381-415
* **C105** A request keeps its trace whatever formats its services use
  * `route_debug_violated`: C105 is violated for debug traces: sent in the single header of B3, a sampled debug context arrives as one that is not sampled, and a parent-based SDK there, with any other settings, makes spans that are not recorded and that lose the debug flag.
* **C106** Baggage follows a request through all services
  * `route_limit_violated`: C106 is violated at the limits, where removed entries still count (C12): the same changes, whose content never exceeds the limits, leave the entry out when one service makes them, and have it when there is a request before the last of them.
* **C107** The text of a baggage can be read back
  * `display_metadata_violated`: C107 is violated by metadata with a comma, which is written as it is: a baggage of one entry has the text of a baggage of two.
* **C110** Every exported batch carries the resource of the provider
  * `span_batch_unlabelled_violated`: A span that ends after the provider was built, and so after its resource was handed to the processor, is exported without it.
  * `log_batch_unlabelled_violated`: A record emitted after the provider was built, and so after its resource was handed to the processor, is exported without it.
* **C113** A provider has the resource its builder was given
  * `tracer_resource_violated`: The condition is needed: after a provider with the attribute `0.0`, one that is given `-0.0` has `0.0`.
* **C114** The remote sampler asks the right address, at its interval, and stops when it is dropped
  * `polling_stops_violated`: The task is never told to stop: as long as the runtime keeps it, it has not ended, whatever the users do, because it holds a reference to the very value whose `drop` would tell it. So after all samplers are gone it goes on asking the server for ever: from every state any number of further requests can follow with no sampler left.
  * `service_in_endpoint_violated`: "If service name is provided as part of the endpoint, it will be ignored", says `with_endpoint`; but it stays in the address, in front of the builder's: a server that takes the first value gives the strategies of the wrong service.
* **C115** Trace and baggage travel together without disturbing each other
  * `stale_baggage_violated`: C115 is violated when a service that has no baggage sends a request into headers that have some already (a forwarded request, or a retry that reuses the map): the trace headers are replaced, the baggage header stays, and the receiver gets the trace of the sender with baggage that the sender does not have.
* **C116** Exporters get the log events they want and no others, each once
  * `batch_filter_ignored_violated`: A batch processor never asks its exporter: an event its exporter refuses is made into a record and handed to it, whatever the event and whatever else is registered.
  * `refused_event_delivered_violated`: An exporter that refuses an event is handed it all the same as soon as another exporter wants it: the logger asks whether anybody wants the event, and then gives it to everybody. Here two concurrent processors, of which the first's exporter refuses everything.
  * `concurrent_emit_after_shutdown_violated`: "After shutdown returns the log processor should stop processing any logs": an `emit` made after a shutdown that returned calls the exporter's `export` all the same, on a single thread.
* **C117** An async batch processor that is let go still delivers and cleans up
  * `abandoned_never_stops_violated`: A processor that is let go without a shutdown is never cleaned up: however the task goes on, the exporter is never told to shut down, the task is not finished, and it can always go on.
  * `drop_with_full_queue_violated`: Dropping a provider does not make up for it: its `shutdown` is refused when the channel is full, and the state is then abandoned. Here with room for one message, which the item has taken.
* **C118** An item waits in a batch processor no longer than the scheduled delay and the exports under way
  * `span_waits_longer_violated`: A span can wait longer than the scheduled delay and an export: each wake-up exports one batch only, and a full channel does not wake the worker again. Here batches of one, delay 10, exports of at most 3: four spans end during the first export, the last of them is handed over 33 after it ended.
  * `first_tick_two_intervals_violated`: The comment at `.skip(1)` says that the ticker fires immediately; it does not. The first tick, and with it the first export a timer makes, comes no sooner than two intervals after the start, whatever the task does meanwhile.
* **C12** Baggage behaves as a map with capacity
  * `rejected_after_remove_violated`: After inserting and removing a value of 8000 bytes the baggage is empty, yet an insert of 8000 bytes is rejected, because `remove` does not give the bytes back.
* **C120** One item alone, and in a batch
  * `single_span_schema_violated`: C120, violated. A batch of one span is not the request of that span: the batch has the schema url of the resource for the scope.
  * `single_log_scope_violated`: C120, violated. A batch of one log record is not the request of that record: version and attributes of the scope are only in the latter.
* **C121** The remote sampler understands the server's answers
  * `rate_limit_refused_violated`: C121, violated. An answer that asks for a rate limit is never understood: the name that `sampling.proto` has for this strategy is refused, and the sampler goes on as before.
  * `left_out_refused_violated`: C121, violated. Entries with a default value may be left out in the JSON form of protobuf, but an answer without the type, or with strategies per operation but without one of the bounds, is refused.
* **C122** Spans, log records and metrics sent as OTLP/JSON arrive
  * `nan_batch_lost_violated`: C122, against the property. A span with an attribute that is not a number, and one without: the flush and every export succeed, and neither arrives, for the text is not read.
* **C123** What a gRPC exporter is built with and what each request carries
  * `code_metadata_overridden_violated`: Metadata the code sets for a header is replaced by that of the environment, against the precedence of every other setting; and of a header that a variable has twice, the gRPC exporter sends both values where the HTTP exporter sends the last.
* **C124** What a Prometheus scrape shows of an observable instrument
  * `stale_series_violated`: A scrape ought to show what the callbacks observe now, but a set they no longer observe keeps its series with the old value.
* **C125** The boxed API does what the implementation does
  * `own_end_violated`: Neither a boxed span nor a context calls it: they call `end_with_timestamp`. The same holds for `add_event`, `record_error` and `set_attributes`.
  * `ref_link_violated`: Links cannot be added through a context: the call does not exist (here, it does nothing).
* **C126** A Prometheus exporter has the settings its builder calls ask for and shows in the registry it was given
  * `second_exporter_violated`: Two exporters, of two meter providers for instance, cannot be in one registry: for all their settings the second `build` is an error.
  * `default_registry_violated`: The documentation says that the default of `prometheus` is then used. `build` succeeds, but whatever the program does afterwards, no scrape of any registry it has, the default one included, shows this exporter.
* **C128** The sizes configured by environment or code bound the batches exported and the queue
  * `zero_size_violated`: A batch size of zero in the environment is taken as it is, and then no batch is limited by it: there is a run in which the exporter gets a batch of two.
* **C13** Baggage survives inject then extract
  * `percent_value_violated`: By a value that contains `%` followed by two hexadecimal digits (`%41` comes back as `A`): the encoder does not escape `%`.
* **C14** Clearing baggage removes it
  * `cleared_baggage_violated`: After clearing, non-empty baggage is still there.
* **C15** B3 context survives inject then extract for each encoding
  * `b3_single_violated`: For flags that say both debug and deferred: the single header then carries no state and is read back as deferred.
* **C16** Jaeger context survives inject then extract
  * `jaeger_debug_violated`: In two ways: a debug context that is not sampled comes back without the debug bit, and with a header name such as `uberctx-trace.id`, which starts with the baggage prefix and is not a legal trace state key, nothing is extracted at all.
  * `jaeger_header_violated`: With the header name `uberctx-trace.id` nothing is extracted from what was injected.
* **C17** Extracted contexts are valid
  * `jaeger_valid_violated`: By Jaeger: a header with all-zero ids is extracted as a remote span context.
* **C18** A propagator writes only the headers it announces
  * `b3_single_announce_violated`: By B3 with the single header encoding: it also writes the multiple headers and announces only `b3`.
  * `jaeger_announce_violated`: By Jaeger with a header name that has white space around it: the trimmed name is written, the other one announced.
* **C24** Span status: Ok is final, Error beats Unset, last call wins otherwise
  * `status_last_error_violated`: `set_status(Error "b")` followed by `set_status(Error "a")` leaves "b": the last call is lost.
* **C25** Only sampled spans are exported
  * `batch_exports_unsampled_violated`: The batch processor does not look at the sampled flag: it exports a span whose context is not sampled.
* **C26** The batch span processor neither loses nor duplicates nor reorders accepted spans
  * `zero_batch_violated`: With batch size 0 the loop never stops at the batch size: a batch of two is exported.
* **C27** force_flush and shutdown of the batch span processor export everything accepted before
  * `flush_violated`: Five spans are accepted, then `force_flush` is called and returns Ok; one of them has not been exported.
  * `shutdown_loses_violated`: Five spans are accepted before `shutdown`, which returns Ok; the worker has ended and one of them was never exported.
* **C28** After shutdown the batch span processor accepts and exports nothing, and shutdown is idempotent
  * `exporter_shutdown_violated`: In no history does the processor call the exporter's own `shutdown`.
* **C29** Tracer provider shutdown runs once and silences tracing
  * `end_after_shutdown_violated`: A span that passes the flag check just before `shutdown` reaches the processor after the processor has been shut down.
* **C34** force_flush and shutdown of the batch log processor export everything emitted before
  * `flush_misses_violated`: In `s0` the emit of record 2 has returned. Then `force_flush` is called, and returns Ok; record 2 has not been exported. Another thread was inside `emit`.
  * `worker_stuck_violated`: Two emits and two flushes lead to a state from which the second flush, and every later call of `force_flush` or `shutdown`, is never answered, in any continuation with fewer than 2^64 - 1 further records.
  * `counter_overflows_violated`: In the same situation the pending `fetch_add` overflows; in `emit` a debug build panics.
* **C35** Logger provider shutdown runs once and silences logging
  * `emit_after_shutdown_violated`: `emit` does not look at the flag: a logger obtained before `shutdown` hands a record emitted after `shutdown` has returned to the processors, which have been shut down.
* **C40** Explicit-bucket histograms count every value once, in the right bucket
  * `infinite_min_violated`: An infinite measurement: the reported minimum is `f64::MAX`, which was never recorded.
  * `nan_counted_violated`: NaN is counted in the first bucket, makes the sum NaN, and a histogram of NaNs reports `f64::MAX` as minimum and `f64::MIN` as maximum.
* **C41** Exponential histograms stay within their size and keep every count
  * `max_size_one_violated`: With `max_size` 1 the values 1 and 2 give a count of 2 with a single value in the buckets.
  * `max_size_two_violated`: Although the comment in the source says that this needs `max_size` 1: the smallest subnormal and 2.
  * `max_size_zero_violated`: `max_size` 0 is accepted: the first value makes one bucket, an equal second one is dropped.
  * `span_overflow_violated`: At scale 20 and any size below `2^31`, the smallest subnormal and `2^1023` panic: with overflow checks in `scale_change`, without them in `ExpoBuckets::record`, which asks for more memory than a vector can have.
* **C42** Gauges report the last value recorded
  * `spurious_point_violated`: A gauge on which only 7 and 8 were ever recorded is reported with the value 0: a delta collection can report a point for a set that was not measured since the previous collection.
* **C43** Observable counters report correct deltas
  * `reordered_attributes_violated`: The same attributes in a fixed but unsorted order, observed as 5 and then 12: the map has an entry for the order given and one for the sorted order, and the collection takes whichever the hash map yields first. When that differs between two collections, the second reports 12 instead of 7.
* **C47** Instruments are identified case-insensitively and once
  * `case_views_count_twice_violated`: Two views that match a counter and rename it to `Requests` and `requests`: one aggregator, which is given each measurement twice.
  * `later_boundaries_ignored_violated`: A second histogram of the same identity: its own boundaries are not used.
  * `view_discards_boundaries_violated`: A view that only renames a histogram discards the boundaries and the cardinality limit it was created with.
* **C48** The periodic reader answers every caller and never exports after shutting the exporter down
  * `ok_not_delivered_violated`: With a delta exporter a flush may return `Ok` although a measurement recorded before the call was never exported successfully: a periodic export failed, and what it carried is gone.
  * `callback_flush_deadlocks_violated`: An observable callback that calls `force_flush` stops the reader for ever: nothing is exported in any later state, and a thread that waits in `force_flush` never returns.
* **C49** Meter provider and manual reader shutdown is final
  * `collect_after_shutdown_violated`: The documentation says any call of `collect` after `shutdown` returns an error. Given to a second provider, a reader that was shut down collects again; `is_shutdown` is never read.
* **C50** Resource merging is right-biased union
  * `merge_assoc_violated`: Associativity of the schema url fails: a conflict followed by another resource brings a url back.
* **C51** Resource detection follows the documented precedence
  * `env_leniency_violated`: Entries with an empty key are accepted, and values are not percent-decoded although the specification encodes them as in `baggage`.
  * `service_name_violated`: With both variables set, `Resource::builder()` takes the name of `OTEL_RESOURCE_ATTRIBUTES`, against the documented precedence: the environment detector runs last.
  * `detector_schema_violated`: The schema url of what a detector returns is lost.
* **C52** Batch configuration is always consistent
  * `bsp_batch_violated`: The environment sets a queue size of 100, the program overrides it with 4096 and nobody sets a batch size: the processor uses batches of 100 and not of 512.
* **C53** OTLP export contains every span and log record exactly once
  * `span_schema_url_violated`: The schema url of a scope is not exported: every group carries the schema url of the resource. Two spans of scopes that differ only in their schema url are in two groups that look the same.
  * `span_schema_url_lost_violated`: Two scopes that differ in their schema url have the same encoding.
  * `log_scope_violated`: Of a log record's scope only a name is exported: with or without target, no group carries a version or attributes, and every group carries the schema url of the resource.
  * `log_scopes_merged_violated`: Records of two different scopes with the same name end up in one group, and a record whose target is the name of another scope joins the records of that scope.
* **C54** OTLP conversion preserves values
  * `empty_array_violated`: Empty arrays of different element types are different values with the same encoding.
  * `time_violated`: All times before the epoch have the encoding of the epoch; a time `2^64` nanoseconds later has the encoding of the earlier time.
  * `remote_violated`: Whether a span context came from a remote process is not exported: a span and a link that differ only in this have the same encoding.
  * `log_time_violated`: A record made at the epoch and a record without time look the same.
  * `number_violated`: A `u64` sum or gauge above `i64::MAX` is exported as 0: a counter of `2^63` looks like one that has just been reset.
  * `histogram_sum_violated`: The sum of a histogram is always sent. Where the SDK does not record it (as for instruments that may go down), the message says that the sum is zero although it may be anything: two sets of buckets with different totals give the same point.
* **C55** OTLP configuration precedence
  * `empty_endpoint_violated`: `with_endpoint("")` is documented to use the default address: over HTTP building fails, the empty text being no URI; over gRPC the empty address is used.
  * `empty_variable_violated`: An empty general variable counts as set: the endpoint is the path alone, although an empty variable is to be treated as unset.
  * `empty_compression_violated`: An empty compression variable, to be treated as unset, makes building fail.
* **C56** OTLP header strings are decoded correctly
  * `empty_value_violated`: A pair with an empty value is dropped.
  * `sign_violated`: What is not percent-encoded text is accepted: `%+5` is decoded as the byte 5.
  * `untrimmed_violated`: A value that cannot be decoded is kept as it is, with the white space that would otherwise be trimmed.
  * `code_header_overridden_violated`: A header the code sets is replaced by one of the environment, against the precedence of every other setting.
  * `code_value_decoded_violated`: A value set in code is percent-decoded, so that `%41` cannot be sent as it is.
* **C57** The rate-limiting sampler never exceeds its rate and recovers
  * `burst_violated`: Bursts of twice the bucket size: after an hour without requests a limiter of size 100 at 1 trace per second samples 200 requests made at one moment, as the elapsed time is credited only when the bucket has run empty.
  * `starvation_violated`: Starvation: once the bucket is empty, requests that come more often than once per second are never sampled again, at any rate the server allows and however long it goes on, because every refused request resets the clock and only whole seconds are credited.
* **C58** An invalid remote sampling strategy keeps the previous one
  * `invalid_strategy_violated`: An answer without a usable strategy drops the strategy in force, whatever it was, although the warning says that the previous one continues to be used: the next decision is the default sampler's.
* **C59** Scope and attribute equality agree with hashing
  * `kv_refl_violated`: `KeyValue` promises `Eq`, but an attribute holding NaN does not equal itself.
  * `kv_hash_violated`: `0.0` and `-0.0` are equal attributes with different hashes: `Hash` writes the bits.
  * `nan_points_violated`: Every measurement with an attribute holding NaN makes a new data point, until the limit is reached, and no more then: the series is never found again.
* **C60** Prometheus names are legal
  * `sanitize_violated`: A letter outside ASCII is kept, unless an invalid character comes before it.
  * `namespace_violated`: The namespace goes into every name as it is.
  * `label_violated`: A label name may start with a digit and may contain a colon, both illegal.
  * `prefix_lost_violated`: What is in front of the slash is dropped when it has no word, so metrics that measure different things get the same suffix; the comment in the code promises `kilometers_per_second` for `km/s`. utils.rs:19-20
* **C61** Zipkin export keeps identity and tags
  * `root_parent_violated`: A root span, which has no parent, is exported with the parent id of sixteen zeros.
  * `kind_violated`: The kind of a span disappears if the program sets an attribute `span.kind`.
  * `status_code_violated`: Without a status the program's own `otel.status_code` attribute is exported as if it were the status.
  * `lost_fields_violated`: Links, the attributes of events and the trace state are not exported: spans that differ only there become the same. The resource (and with it the service name) is no argument of the conversion at all.
* **C62** The current context can be used from every callback
  * `never_panics_violated`: (1) A span processor that reads the current context in `on_end` (emitting a log record does) panics when the span ends because the guard holding its context is dropped. (2) A span processor or sampler that attaches a context while a span is started on the current context panics.
* **C63** Recorded spans have valid identifiers
  * `recorded_ids_valid_violated`: A span started while telemetry is suppressed has the invalid context. A child of it started in an unsuppressed context records, is sampled and will be exported, with the all-zero trace id.
* **C64** Start and end notifications pair up
  * `on_start_pairs_violated`: A span that the sampler drops is still announced to every processor by `on_start`, and no `on_end` ever follows.
  * `end_before_start_violated`: `on_start` gets the span itself and may end it: a processor registered later is then told the end of the span before its start.
* **C65** The batch span processor asks for an export exactly when a batch is full
  * `counter_leak_violated`: After one span was dropped the counter says one span is queued although the queue is empty, for ever: with batch size 3 exports are then requested for batches of two.
  * `counter_overflow_violated`: The worker may subtract before the producer adds; the counter is then `usize::MAX` and the producer's `fetch_add(1) + 1` overflows, which panics in a build with overflow checks.
* **C66** Ok from force_flush or shutdown of the batch log processor means its exports succeeded
  * `flush_masks_failure_violated`: `force_flush` returns Ok although the export of its first batch failed.
  * `shutdown_masks_failure_violated`: `shutdown` returns Ok although the export it made failed.
* **C67** Logging done by an exporter is not fed back into it
  * `concurrent_log_feedback_violated`: With the concurrent processor an exporter that emits at least one record per export never returns: every amount of nesting is exceeded.
* **C68** The simple log processor exports each record once and nothing after shutdown
  * `export_after_shutdown_violated`: An export can reach the exporter after its shutdown: an emit checks the flag, another thread shuts down, the emit goes on.
* **C69** Reported attributes are the attributes measured, in canonical form
  * `duplicate_keys_reported_violated`: An attribute list with a repeated key is reported as given, with the key twice.
* **C70** A view selects exactly the instruments its criteria describe
  * `scope_attributes_ignored_violated`: The criteria's scope attributes are not looked at: a view for a scope with an attribute selects every instrument.
  * `view_nan_boundaries_violated`: A view may have NaN and infinite boundaries, which `validate_bucket_boundaries` refuses for an instrument's own.
* **C71** The periodic reader keeps its cadence
  * `zero_interval_violated`: The documentation says a zero interval is replaced by 60 seconds; `OTEL_METRIC_EXPORT_INTERVAL=0` gives an interval of zero: the reader exports without pause.
  * `late_flushes_postpone_violated`: After a flush that ends past the end of the interval, a second flush puts the periodic collection off by a whole interval: with an interval of 10, a flush from 9 to 12 and another from 12 to 13 leave the next periodic collection at 22, not at 13.
* **C73** A Prometheus scrape is complete and consistent
  * `duplicate_label_violated`: Labels are not unique in general: an attribute `otel_scope_name` meets the label of the scope.
  * `name_clash_violated`: Different instruments can have the same exported name; then the second one disappears if its type differs.
  * `duplicate_series_violated`: With equal types both are exported, and one scrape holds the same series twice.
  * `resource_labels_violated`: Switching off scope information also removes the selected resource attributes from the data points, though the selector is documented to add them to every metric.
  * `scope_attributes_violated`: The attributes of a scope appear nowhere: the information metric that is written for a scope with attributes carries only its name and version, so the output does not depend on them except through there being any.
* **C75** A reader of an observable instrument reports the observations of its own collections
  * `foreign_set_reported_violated`: A set that the callbacks observed only when reader 1 collected is reported by reader 0, whose own collection did not observe it.
  * `stale_set_reported_violated`: With cumulative temporality a set that is no longer observed is reported for ever, with one reader too: the store is read and not reset (precomputed_sum.rs:88-124).
  * `foreign_observation_counted_violated`: An observable instrument with a histogram view: each reader's histogram also counts the observations made for the other. Two readers collect once each, the callback observes one value each time; the second reader's histogram has two observations.
* **C76** Batch processors on an async runtime deliver what they accept, in order and in bounded batches
  * `async_batch_zero_violated`: A batch size of 0, which the builder and the environment allow, is no limit: the buffer grows until the next tick and is then exported at once.
  * `async_lost_uncounted_violated`: Between the answer to `shutdown` and the end of the task an item is still accepted; it is neither exported nor counted as dropped.
  * `first_tick_late_violated`: The comment says that the ticker fires at once, so that the first tick is skipped; it does not, and the first tick comes after two intervals. From then on the ticks are one interval apart.
* **C77** force_flush and shutdown of the async batch processors answer for what was emitted before
  * `async_failure_masked_violated`: `force_flush` returns `ok` although an item accepted before it was not delivered: the export of its full batch had failed, which only the log of the SDK says.
  * `span_exporter_running_violated`: The span processor's `shutdown` returns `ok` before the exporter is shut down; the task may even die in between.
  * `async_shutdown_refused_violated`: When the channel is full `shutdown` returns an error and does nothing: the task goes on exporting, items are accepted later and the exporter is not shut down.
* **C78** Each instrument is aggregated as its kind and its stream ask
  * `gauge_sum_violated`: Property C78 fails for gauges aggregated as histograms: the sum is not to be kept for instruments that may record negative values, and it is not kept for an observable gauge, but it is for a gauge, whose sum is then exported.
* **C79** The periodic reader on an async runtime hands over every measurement once and answers its callers
  * `reader_failure_masked_violated`: With a delta exporter: a tick's export fails, the following `force_flush` finds nothing to collect and returns Ok. The measurement never reached the backend.
  * `reader_exporter_failure_hidden_violated`: The exporter's `shutdown` fails and the reader's returns Ok.
  * `reader_second_shutdown_violated`: Two threads call `shutdown`: the second is told of a failure, not that the reader is shut down already.
  * `reader_unregistered_blocks_violated`: A call on a reader that is not registered with a provider does not return, whatever happens short of registering it: the task that would answer is not running, and the channel is not closed.
* **C80** A tracing event becomes one log record that says what the event said
  * `message_number_violated`: The message of an event is its body only if it is text: a number named `message` is an attribute, and the record has no body.
  * `error_name_lost_violated`: The name of a field that holds an error is lost: two events that differ in it cannot be told apart.
  * `log_target_lost_violated`: With the metadata attributes enabled, the target of a record of the `log` crate is lost: it is dropped as a repeated field, and the record has the target `log`.
* **C82** A structured value logged through serde keeps its structure
  * `serde_position_violated`: Elements of a list that are absent are left out, so the positions of those after them shift: a list with a hole cannot be told from the shorter list.
  * `serde_keys_collide_violated`: Keys that are not text are printed for debugging, and then meet text keys: two entries with different keys become one.
  * `serde_variant_lost_violated`: The name of a variant is lost if what it holds is absent.
* **C83** OTLP as JSON is what the OTLP specification says
  * `traces_conform_violated`: C83, against the property: a double in an attribute that is infinite or not a number is written as `null`, which no receiver reads as that double. The standard has the strings `NaN`, `Infinity` and `-Infinity` for them.
  * `exemplar_conform_violated`: C83, against the property: the value of an exemplar is written as `"value": {"asInt": 5}`, where the standard has `"asInt": 5` in the exemplar itself: a conforming receiver sees an exemplar without value.
* **C84** OTLP documents in JSON are read back as written, and standard documents as the standard says
  * `unset_read_back_violated`: C84, against the property: an attribute value that is unset, which the protocol allows and other senders write, is written as `{}`; the document is refused as a whole when it is read.
  * `nan_read_back_violated`: C84, against the property: one attribute that is infinite or not a number makes the whole document unreadable.
  * `gauge_nan_violated`: C84, against the property: a gauge that is not a number is read back, without an error, as a point without value.
  * `histogram_bound_violated`: C84, against the property: a histogram with an infinite bound is read back, without an error, as a metric without data.
  * `deep_read_back_violated`: C84, against the property: an attribute of 39 nested arrays, which is written without complaint, is beyond the parser's limit. The limit in `traces_read_back_partial` allows 38.
  * `numeric_time_violated`: C84, against the property: `"startTimeUnixNano": 5` is `5` by the standard; the reader refuses the document because the time is not a string.
  * `canonical_int_violated`: C84, against the property: the canonical form of a 64-bit integer is a string; of `{"asInt": "5"}`, the point 5 by the standard, the reader makes a point without value, and no error.
  * `empty_array_read_violated`: C84, against the property: `{"arrayValue": {}}` is the empty array by the standard; the reader refuses the document.
* **C85** What a propagator writes into HTTP headers, the receiver reads from them
  * `http_tracestate_violated`: C85, against the property: the trace state `a` = `x⏎y`, which the API accepts, is no header value. It is dropped without an error, and the receiver gets the new ids with the trace state that the request's headers held before, the state of another trace.
  * `http_baggage_violated`: C85, against the property: one entry with metadata that are not ASCII makes the whole baggage unreadable for the receiver: either the header is not set, or it is set and not read.
* **C86** The result of an OTLP export tells whether the collector took the batch
  * `metrics_status_violated`: C86, against the property: the metric exporter, with a HTTP client given by the user that reports the answer as it is (as the trait `HttpClient` says it should), returns success for the answer 500. Spans and logs are handled right.
  * `partial_success_violated`: C86, against the property: an answer that says that the collector refused all spans of the request is success for every exporter: `partial_success` is never read, the loss is not reported at all.
* **C87** An OTLP exporter that was shut down sends nothing
  * `span_shutdown_violated`: C87, against the property: the span exporter ignores `shutdown`, over both transports, which the trait says must make `export` fail. It goes on sending, and a second `shutdown` succeeds too.
  * `log_grpc_shutdown_violated`: C87, against the property: the log exporter over gRPC goes on sending after `shutdown`.
  * `metric_shutdown_error_violated`: C87, against the property: the metric exporter over gRPC says after `shutdown` that it failed, not that it is shut down, and a second `shutdown` of a metric exporter is a success where that of the log exporter over HTTP is `AlreadyShutdown`.
* **C88** A span in a context is reported once, with what all threads recorded on it
  * `in_span_violated`: C88 is violated: the documentation of `in_span` says that it ends the span before it returns. If the closure keeps the context it is given, as in `tracer.in_span("x", |cx| cx)`, or spawned work has it, the span has not ended when `in_span` returns, and nobody received it.
  * `poison_violated`: C88 is violated: once a call on the span of a context panics (an iterator of attributes, a conversion), what any thread records on it later is lost, although it is still recording and is reported when its last context is dropped; also `end` does nothing, the span is reported with the time of the drop.
* **C89** The globals give what was set last, and using them never blocks for ever
  * `meter_violated`: C89 is violated: `set_meter_provider` drops the provider it replaces while it holds the lock of the global. If that was its last handle, the provider is shut down there, and if anything in this (an exporter, a callback of the last collection) asks for `global::meter`, the program stands still for ever.
  * `propagator_violated`: C89 is violated: `get_text_map_propagator` calls its closure with the lock of the global: a closure that sets the propagator waits for itself, for ever.
  * `drop_violated`: C89 is violated: the example of `SdkTracerProvider::force_flush` makes a clone of the provider global and says that dropping the provider then exports all remaining spans. The global keeps a handle, so the provider is not shut down, in no execution, and what its processors have not exported is lost. Here provider 5 has two handles, one given to the global, one dropped.
* **C90** A request keeps its trace through every service it passes
  * `chain_broken_violated`: C90 is violated in a service whose SDK is shut down, or which suppresses telemetry: the span it starts has no valid span context, so the next request carries no trace, although a service without any SDK would pass the trace on.
* **C91** What a batch processor accepts arrives at the collector exactly once and unchanged
  * `flushed_spans_violated`: C91 violated for `force_flush` of spans: five spans were accepted, the flush returned Ok, every export succeeded, and only four spans have arrived.
* **C92** What is added to a counter arrives at the collector, once
  * `counter_large_violated`: C92 violated for large totals: 2^63 was recorded, every export succeeded, nothing is in the store, and what the collector received adds up to 0.
  * `counter_failed_violated`: C92 violated when an export fails: 5 was recorded, nothing is in the store, and nothing was or will be sent of it.
* **C93** In-memory exporters show exactly what was exported
  * `export_after_shutdown_violated`: An export can reach the exporter after its shutdown: an emit checks the flag, another thread shuts down, the emit goes on.
  * `resource_violated`: C93 violated, log records: when clones of one exporter serve two providers, the records of the first come out with the resource of the second, because the resource is attached when records are read and not when they are exported.
  * `logs_gone_violated`: C93 violated with the batch log processor: once its exporter has been shut down, which a `shutdown` of the provider does before it returns, the exporter shows no record at all, whatever was emitted before.
* **C94** The stdout exporters print every export completely, in order, with the resource once
  * `mixed_lines_violated`: C94 does not hold for exports at the same time: the lines of their batches mix, and the same text comes about when the attribute at the end belongs to the span of the first export and when it belongs to the span of the second. The lock of `println!` covers a line only. This is so for every resource, every attribute and every pair of spans without events and links.
  * `resource_late_violated`: C94: the resource need not come first. An export that has won the race for the resource may print it after the whole batch of another export.
  * `expo_silent_violated`: C94: of an exponential histogram nothing is printed but its name, description, unit and type: whatever was measured, the text is the same.
  * `span_silent_violated`: C94: the trace state of a span, the counts of what was dropped, and whether its parent is remote are not printed: spans that differ in them have the same lines.
* **C95** Calls of the API return: no deadlock between threads, callbacks and exporters
  * `create_in_callback_violated`: C95 violated: a callback of an observable instrument that creates an instrument never returns, nor does the collection: `produce` runs callbacks while it holds the lock of the pipeline, and a new instrument enters the pipeline under this lock.
  * `flush_in_callback_violated`: C95 violated: a callback that flushes its provider never returns: with a periodic reader the thread that runs the callback is the one that would answer (`force_flush` waits without a timeout), with a manual reader a collection waits for the lock of the reader.
  * `flush_in_exporter_violated`: C95 violated: an exporter that flushes the provider it belongs to never returns.
  * `span_in_exporter_violated`: C95 violated: when the exporter of a simple span processor ends a span of its own provider (an instrumented HTTP client), `end` never returns: the processor holds its lock during the export and, unlike the simple log processor, does not suppress telemetry.
  * `span_under_lock_violated`: C95 violated: a span processor that looks at the span of the current context (`is_recording`) when this span is ended through its context never returns; nor does an error or an iterator of attributes given to a span that uses the same span.
  * `two_spans_violated`: C95 violated: two threads that use two spans in opposite order under their locks.
  * `exporters_cross_violated`: C95 violated: the exporter of a simple log processor that ends a span, while the exporter of a simple span processor logs.
  * `instrument_in_span_exporter_violated`: C95 violated: a span exporter that creates an instrument, while a callback ends a span.
  * `meter_in_diagnostic_violated`: C95 violated: a subscriber that gets a meter when the SDK reports that a meter was made (the diagnostic is written under the lock of the meters).
* **C96** OTLP in protobuf is what the specification says and is read back as written
  * `deep_value_violated`: C96: a request that is written but cannot be read.
  * `negative_zero_violated`: C96: the two zeros of the threshold of an exponential histogram have the same bytes.

## 6. How the theorems are tested

`seeded/LOG.jsonl` records, one line each, edits of the model in a scratch copy that a realistic bug would make: the
definition, the edit, the claim it breaks, the theorems that stopped proving, and the theorems tightened because of an
edit that had survived. Entries without failed theorems were judged: either the edited program still has every claim
(equivalent program, or an unobservable choice), or the entry names the theorem that was added.

## 7. Modules

| module | content |
|---|---|
| `Verif.Appender.LogBridge` | The bridge from the `log` crate (`opentelemetry-appender-log/src/lib.rs`), C81 |
| `Verif.Appender.LogBridgeProps` | C81: a record of the `log` crate becomes one log record that says what it said |
| `Verif.Appender.SerdeProps` | C82: a structured value logged through `log` keeps its structure |
| `Verif.Appender.Tracing` | The bridge from `tracing` events to log records (`opentelemetry-appender-tracing/src/layer.rs`), C80 |
| `Verif.Appender.TracingProps` | C80: a `tracing` event becomes one log record that says what the event said |
| `Verif.Async.Batch` | The batch processors that run on an async runtime |
| `Verif.Async.BatchProps` | Properties of the batch processors on an async runtime (C76, C77) |
| `Verif.Async.BatchResults` | The theorems on the batch processors on an async runtime (C76, C77) |
| `Verif.Async.Dropped` | C117: an async batch processor that is let go without a shutdown |
| `Verif.Async.Reader` | The periodic metric reader that runs on an async runtime |
| `Verif.Async.ReaderProps` | The periodic metric reader on an async runtime: deliveries, answers, shutdown (C79) |
| `Verif.Async.ReaderResults` | The periodic metric reader on an async runtime: results (C79) |
| `Verif.Async.Ticker` | C118: the ticks of the batch processors and the periodic reader on an async runtime |
| `Verif.Baggage.Model` | `Baggage` (`opentelemetry/src/baggage.rs`) |
| `Verif.Baggage.Props` | Property theorems: baggage as a bounded map (C11, C12) |
| `Verif.Baggage.Spec` | Specification of baggage |
| `Verif.Common.Attr` | Equality and hashing of attributes and scopes (`opentelemetry/src/common.rs`), C59 |
| `Verif.Common.Text` | The texts of attribute values (`opentelemetry/src/common.rs`), C102 |
| `Verif.Context.Context` | Model of `Context` as an immutable value |
| `Verif.Context.ContextProps` | Property theorems: context derivation (C03), clearing baggage (C14) |
| `Verif.Context.Futures` | Polling futures with a context (C04) |
| `Verif.Context.Reentrancy` | Re-entrancy of the current context (C62) |
| `Verif.Context.Stack` | Model of the thread-local context stack |
| `Verif.Context.StackLemmas` | Lemmas for the context stack refinement. |
| `Verif.Context.StackProps` | Property theorems: the current context (C01, C02) |
| `Verif.Context.StackSpec` | Specification of the current context, in terms of the history only |
| `Verif.EndToEnd.AsyncDelivery` | From the batch processors for async runtimes to the collector (C108) |
| `Verif.EndToEnd.BaggageRoute` | Baggage through any number of services (C106) |
| `Verif.EndToEnd.Chain` | One trace through a chain of services (C90) |
| `Verif.EndToEnd.Configured` | From environment variables and builder calls to exported spans, C127 |
| `Verif.EndToEnd.ConfiguredBatch` | From environment variables and builder calls to the batches exported, C128 |
| `Verif.EndToEnd.Counter` | From a counter to the collector (C92) |
| `Verif.EndToEnd.Created` | From the calls that set up readers and create an instrument to the collector (C132) |
| `Verif.EndToEnd.CreatedFlush` | What the collector has after a flush, and past the limit, of an instrument as declared (C135) |
| `Verif.EndToEnd.CreatedObservable` | From the calls that set up readers and create an observable instrument to the collector (C133) |
| `Verif.EndToEnd.CreatedReaders` | An instrument as declared, with several readers, when the provider is flushed (C136) |
| `Verif.EndToEnd.Delivery` | From the batch processors to the collector (C91) |
| `Verif.EndToEnd.Enrich` | Log processors that change records on their way to the collector, C131 |
| `Verif.EndToEnd.ExpoInstrument` | Exponential histograms at the collector (C99) |
| `Verif.EndToEnd.Fan` | Several processors (C112) |
| `Verif.EndToEnd.Filters` | C116: what the exporters of a logger provider want, and which events they get |
| `Verif.EndToEnd.Flush` | A successful flush of a periodic reader (C104) |
| `Verif.EndToEnd.Hops` | One trace through services with any propagators (C105) |
| `Verif.EndToEnd.Instruments` | From any synchronous instrument to the collector (C99) |
| `Verif.EndToEnd.JsonText` | C91 over the text of OTLP in JSON (C122) |
| `Verif.EndToEnd.Logging` | From the logging API, `tracing` events and the `log` crate to the collector (C98) |
| `Verif.EndToEnd.Observable` | From the callbacks of an observable instrument to the collector (C103) |
| `Verif.EndToEnd.Overflow` | Beyond the cardinality limit nothing is lost on the way to the collector (C109) |
| `Verif.EndToEnd.Processors` | The processors of a provider (C112) |
| `Verif.EndToEnd.Proto` | C91 and C92 over the bytes of OTLP in protobuf (C96) |
| `Verif.EndToEnd.Providers` | From a provider with several processors to their collectors (C112) |
| `Verif.EndToEnd.Readers` | Several readers (C111) |
| `Verif.EndToEnd.Scrape` | From any synchronous instrument to a Prometheus scrape (C101) |
| `Verif.EndToEnd.ScrapeObservable` | From the callbacks of an observable instrument to a Prometheus scrape (C124) |
| `Verif.EndToEnd.SimpleAsync` | The simple processors and those on an async runtime, as processors of a provider (C112) |
| `Verif.EndToEnd.Temporality` | From the temporality asked for to the temporality a collector is told, C129 |
| `Verif.EndToEnd.Together` | Trace and baggage together through any number of services (C115) |
| `Verif.EndToEnd.Tracing` | From the tracing API to the collector (C97) |
| `Verif.EndToEnd.Viewed` | From a view and an instrument to the collector (C134) |
| `Verif.EndToEnd.ViewedAll` | Everything a view can ask for of a synchronous instrument, flushed and past the limit (C134) |
| `Verif.EndToEnd.ViewedMany` | Several views that select the same instrument (C134) |
| `Verif.EndToEnd.ViewedManyReaders` | Several views and several readers (C136) |
| `Verif.EndToEnd.ViewedReaders` | An instrument that a view selects, with several readers, when the provider is flushed (C136) |
| `Verif.Global.Globals` | The global providers and the global propagator (`opentelemetry/src/global/{trace,metrics,propagation}.rs`), C89 |
| `Verif.Global.GlobalsProps` | C89: the globals give what was set last, and using them never blocks for ever |
| `Verif.Http.Headers` | Propagation in HTTP headers (`opentelemetry-http/src/lib.rs`), C85 |
| `Verif.Json.OtlpText` | OTLP requests as JSON text (C83, C84, C119) |
| `Verif.Json.Text` | The text of a JSON document (C119) |
| `Verif.Json.TextProps` | What is written as JSON text is read as it was (C119) |
| `Verif.Locks.Api` | The locks of the API and the SDK, and the user's code run under them, C95 |
| `Verif.Locks.Core` | Threads and locks |
| `Verif.Locks.Props` | Calls that never return, and programs that keep to the rules, C95 |
| `Verif.Logs.Blp` | The batch log processor (`opentelemetry-sdk/src/logs/batch_log_processor.rs`) |
| `Verif.Logs.BlpFlag` | C65: the export request of the batch log processor |
| `Verif.Logs.BlpProps` | C33, C34, C66: the batch log processor |
| `Verif.Logs.BlpResource` | C110: batches of the batch log processor and the provider's resource |
| `Verif.Logs.BlpResults` | C66: exactly what a flush of the batch log processor reports |
| `Verif.Logs.ConcurrentLog` | The simple concurrent log processor (`opentelemetry-sdk/src/logs/concurrent_log_processor.rs`), C116 |
| `Verif.Logs.GrowableArray` | The log attribute array (`opentelemetry-sdk/src/growable_array.rs`) |
| `Verif.Logs.LogBatch` | Going through a batch of log records (`opentelemetry-sdk/src/logs/export.rs`), C120 |
| `Verif.Logs.Logger` | Log records and the logger (`opentelemetry-sdk/src/logs/record.rs`, `logger.rs`, `simple_log_processor.rs`) |
| `Verif.Logs.LoggerProps` | C30 (logs), C31 (records), C32 |
| `Verif.Logs.RecordProps` | C32: the fields of a log record, and `event_enabled` |
| `Verif.Logs.SimpleLog` | The simple log processor (`opentelemetry-sdk/src/logs/simple_log_processor.rs`), C68 |
| `Verif.Memory.Exporters` | The in-memory exporters (`opentelemetry-sdk/src/{trace,logs,metrics}/in_memory_exporter.rs`), C93 |
| `Verif.Metrics.AggregationProps` | Properties of gauges and explicit bucket histograms (C40, C42) |
| `Verif.Metrics.Aggregations` | The aggregations (`opentelemetry-sdk/src/metrics/internal/{last_value,histogram}.rs`) |
| `Verif.Metrics.AtomicFloat` | Atomic addition of floats (`opentelemetry-sdk/src/metrics/internal/mod.rs`, `F64AtomicTracker`) (C39) |
| `Verif.Metrics.Concurrent` | Measurements and collections at the same time (`opentelemetry-sdk/src/metrics/internal/mod.rs`) |
| `Verif.Metrics.ConcurrentCut` | What a collection has of the measurements made before it began (C104) |
| `Verif.Metrics.ConcurrentInv` | More invariants of the concurrent store: the logs, the flag, the collector's loop |
| `Verif.Metrics.ConcurrentLemmas` | Invariants of the concurrent store |
| `Verif.Metrics.ConcurrentOverflow` | What a collection reports beyond the cardinality limit (C109) |
| `Verif.Metrics.ConcurrentProps` | Nothing is lost or counted twice between concurrent measurements and collections (C38, C42) |
| `Verif.Metrics.ConcurrentSets` | What a collection reports for each attribute set (C99) |
| `Verif.Metrics.ConcurrentWalk` | The collector's loop in the concurrent store |
| `Verif.Metrics.ExpoBucketLemmas` | Lemmas about the bucket arrays of exponential histograms: what `record`, `downscale` and `scale_change` do to them. |
| `Verif.Metrics.ExpoHistogram` | Exponential histograms (`opentelemetry-sdk/src/metrics/internal/exponential_histogram.rs`) |
| `Verif.Metrics.ExpoInv` | The invariant of an exponential histogram. |
| `Verif.Metrics.ExpoLemmas` | Lemmas about the bucket indices of exponential histograms. |
| `Verif.Metrics.ExpoProps` | Property C41: exponential histograms stay within their size and keep every count |
| `Verif.Metrics.ExpoSpec` | What an exponential histogram means (OpenTelemetry metrics data model) |
| `Verif.Metrics.Frexp` | `frexp` on the bits of a double (`exponential_histogram.rs:209-229`) |
| `Verif.Metrics.Instruments` | Instruments, views and streams (`opentelemetry-sdk/src/metrics/{pipeline,instrument,view,meter,aggregation}.rs`) (C47) |
| `Verif.Metrics.InstrumentsProps` | Property C47: instruments are identified case-insensitively and once |
| `Verif.Metrics.ManualReader` | The manual reader and the meters of a provider (C49) |
| `Verif.Metrics.MeterApi` | From the builder of an instrument to what readers collect for it, C130 |
| `Verif.Metrics.Names` | Instrument names and units (`opentelemetry-sdk/src/metrics/meter.rs`) (C46) |
| `Verif.Metrics.ObservableRuns` | The callbacks of observable instruments and the store (`opentelemetry-sdk/src/metrics/{pipeline,meter}.rs`, `internal/precomputed_sum.rs`), C103 |
| `Verif.Metrics.Observables` | The attribute filter of a view (C74), and observable instruments read by several readers (C75) |
| `Verif.Metrics.Periodic` | The periodic reader (`opentelemetry-sdk/src/metrics/periodic_reader.rs`), C48 |
| `Verif.Metrics.PeriodicAnswers` | C48: every caller of the periodic reader is answered |
| `Verif.Metrics.PeriodicProps` | C48: the periodic reader |
| `Verif.Metrics.PeriodicResults` | C48: what the answers of the periodic reader mean |
| `Verif.Metrics.PeriodicTiming` | The cadence of the periodic reader (C71) |
| `Verif.Metrics.Precomputed` | Observable counters (`opentelemetry-sdk/src/metrics/internal/precomputed_sum.rs`) and collection times (C43, C44) |
| `Verif.Metrics.Produce` | Collecting into a buffer (`opentelemetry-sdk/src/metrics/pipeline.rs`, `Pipeline::produce`) (C45) |
| `Verif.Metrics.StreamProps` | What is aggregated, and how (C78) |
| `Verif.Metrics.ValueMap` | The store of data points (`opentelemetry-sdk/src/metrics/internal/mod.rs`) |
| `Verif.Metrics.ValueMapLemmas` | Lemmas about the value map |
| `Verif.Metrics.ValueMapProps` | Properties of the store of data points (C36, C37, C42) |
| `Verif.Metrics.ValueMapSpec` | What a store of data points should report |
| `Verif.Metrics.Views` | Views (`opentelemetry-sdk/src/metrics/view.rs`, `new_view`) and the creation of instruments by a meter (C70) |
| `Verif.Otlp.Config` | Configuration of the OTLP exporters (`opentelemetry-otlp/src/exporter`), C55 and C56 |
| `Verif.Otlp.ConfigProps` | C55: endpoint, timeout and compression of the OTLP exporters; C56: their headers |
| `Verif.Otlp.Exporter` | The OTLP exporters: requests, results, shutdown (`opentelemetry-otlp/src/{span,logs,metric}.rs`, `src/exporter/{http,tonic}`), C86, C87 |
| `Verif.Otlp.GroupProps` | Property theorems: OTLP grouping by scope (C53) |
| `Verif.Otlp.Grpc` | Building gRPC exporters and the metadata of their requests (`opentelemetry-otlp/src/exporter/tonic/mod.rs`), C123 |
| `Verif.Otlp.Headers` | Header strings of the OTLP exporters (`opentelemetry-otlp/src/exporter/mod.rs`), C56 |
| `Verif.Otlp.Json` | OTLP as JSON (`opentelemetry-proto/src/proto.rs`, `opentelemetry-proto/src/proto/tonic/*.rs` with feature `with-serde`), C83, C84 |
| `Verif.Otlp.JsonAgree` | C84: a document of the standard is read as the standard says, or refused (traces and logs) |
| `Verif.Otlp.JsonLemmas` | Lemmas on reading back what was written |
| `Verif.Otlp.JsonProps` | C83, C84: cases that meet the hypotheses, and documents that are written or read wrongly |
| `Verif.Otlp.JsonRead` | C84: the reader reads back what was written |
| `Verif.Otlp.JsonSdk` | C83: what the exporter of spans sends as JSON, from the SDK's spans to the receiver |
| `Verif.Otlp.JsonSdkMetrics` | C83: what the exporters send as JSON, from the SDK's metrics to the receiver |
| `Verif.Otlp.JsonSpec` | What OTLP/JSON is, for C83 and C84 |
| `Verif.Otlp.JsonWrite` | C83: a conforming receiver reads what was written |
| `Verif.Otlp.Metrics` | Conversion of metrics to OTLP (`opentelemetry-proto/src/transform/metrics.rs`), C54 |
| `Verif.Otlp.MetricsProps` | Property theorems: OTLP conversion of metrics (C54) |
| `Verif.Otlp.Model` | Conversion to OTLP messages (`opentelemetry-proto/src/transform/{common,trace,logs}.rs`), C53, C54 |
| `Verif.Otlp.Props` | Property theorems: OTLP conversion of values, spans and log records (C54) |
| `Verif.Otlp.Proto` | OTLP in protobuf (`opentelemetry-proto/src/proto/tonic/*.rs`), C96 |
| `Verif.Otlp.ProtoFormat` | C96: the numbers and types of the specification, other readers, and limits |
| `Verif.Otlp.ProtoLemmas` | C96: lemmas about the fields of protobuf messages |
| `Verif.Otlp.ProtoLimits` | C96: requests one after the other, fields of later versions, and values that are nested too deep |
| `Verif.Otlp.ProtoMetrics` | C96: what the exporters send as protobuf, from the SDK's metrics to the receiver |
| `Verif.Otlp.ProtoProps` | C96: OTLP in protobuf is what the specification says, and is read back as written |
| `Verif.Otlp.ProtoSdk` | C96: what the exporters send as protobuf, from the SDK's spans and log records to the receiver |
| `Verif.Otlp.ProtoSpec` | C96: what OTLP in protobuf has to be |
| `Verif.Otlp.Single` | Conversions of a single item (`opentelemetry-proto/src/transform/{trace,logs,tracez}.rs`), C120 |
| `Verif.Otlp.Spec` | What a receiver of OTLP messages reads (specification for C53, C54) |
| `Verif.Otlp.Wire` | The protobuf wire format (the crate `prost`), C96 |
| `Verif.Prometheus.Builder` | Building a Prometheus exporter and its registry (`opentelemetry-prometheus/src/config.rs`, `resource_selector.rs`, `lib.rs`), C126 |
| `Verif.Prometheus.Model` | The Prometheus exporter (`opentelemetry-prometheus/src`), C60 and C73 |
| `Verif.Prometheus.Props` | Prometheus: legal names (C60) and the exposition (C73) |
| `Verif.Prometheus.Units` | C60: the suffix that a unit puts behind the name of a metric, for every unit. |
| `Verif.Propagation.B3` | B3 propagator (`opentelemetry-zipkin/src/propagator/mod.rs`) |
| `Verif.Propagation.B3Props` | Property theorems: B3 (C15, C17) |
| `Verif.Propagation.Baggage` | `BaggagePropagator` (`opentelemetry-sdk/src/propagation/baggage.rs`) |
| `Verif.Propagation.BaggageDisplay` | The text of a baggage (C107) |
| `Verif.Propagation.BaggageProps` | Property theorems: baggage propagation (C13) |
| `Verif.Propagation.Carrier` | Carriers (`opentelemetry/src/propagation/mod.rs`) and propagators in general |
| `Verif.Propagation.CompositeProps` | Property theorems: announced headers and composites (C18) |
| `Verif.Propagation.ExtractProps` | Property theorems: exactly what baggage, B3 and Jaeger extraction accept (C13, C15, C16, C17) |
| `Verif.Propagation.Jaeger` | Jaeger propagator (`opentelemetry-jaeger-propagator/src/propagator.rs`) |
| `Verif.Propagation.JaegerNames` | Names of a Jaeger propagator (C16) |
| `Verif.Propagation.JaegerProps` | Property theorems: Jaeger (C16, C17) |
| `Verif.Propagation.TraceContext` | W3C trace context propagator (`opentelemetry-sdk/src/propagation/trace_context.rs`) |
| `Verif.Propagation.TraceContextProps` | Property theorems: W3C trace context (C06, C07, C08) |
| `Verif.Resource.Model` | Resources (`opentelemetry-sdk/src/resource`), C50 and C51 |
| `Verif.Resource.Props` | Resources: merging and detection (C50, C51) |
| `Verif.Resource.Provider` | The resource of a provider (C113) |
| `Verif.Rust.Assoc` | A `HashMap` as an association list |
| `Verif.Rust.Bytes` | Bytes as text: the crates `hex` and `base64`, and parsing of `i64` |
| `Verif.Rust.Decimal` | Printing integers in decimal, as in Rust's standard library (`{}` and `{:?}` of the integer types) |
| `Verif.Rust.F64` | IEEE-754 doubles |
| `Verif.Rust.Num` | Parsing and printing of integers, as in Rust's standard library |
| `Verif.Rust.NumSpec` | What a hexadecimal / decimal numeral denotes, and that the parsers decide it |
| `Verif.Rust.Percent` | UTF-8 and percent encoding |
| `Verif.Rust.Str` | The Rust `str` operations the code relies on |
| `Verif.Sdk.BatchTiming` | C118: how long an item waits in a batch processor |
| `Verif.Sdk.Bsp` | The batch span processor (`opentelemetry-sdk/src/trace/span_processor.rs`, `BatchSpanProcessor`) |
| `Verif.Sdk.BspCounter` | The batch counter of the batch span processor (C65) |
| `Verif.Sdk.BspFlag` | C65, C28: the export request of the batch span processor, and late flushes |
| `Verif.Sdk.BspProps` | C26, C27, C28, C65: the batch span processor |
| `Verif.Sdk.BspResource` | C110: batches of the batch span processor and the provider's resource |
| `Verif.Sdk.Config` | Configuration from the environment and from builders (C52, C71, C72) |
| `Verif.Sdk.ConfigProps` | C52, C71, C72: configuration |
| `Verif.Sdk.Facade` | The boxed API: `global::tracer`, `BoxedTracer`, `BoxedSpan`, `SpanRef` (`opentelemetry/src/global/trace.rs`, `src/trace/{span,tracer,tracer_provider,context}.rs`), C125 |
| `Verif.Sdk.JaegerAnswer` | The answer of the sampling server as text (`trace/sampler/jaeger_remote/{remote,sampler}.rs`), C121 |
| `Verif.Sdk.JaegerEndpoint` | The address the remote sampler asks (`JaegerRemoteSamplerBuilder`, `trace/sampler/jaeger_remote/sampler.rs`), C114 |
| `Verif.Sdk.JaegerRemote` | The remote sampler (`trace/sampler/jaeger_remote/{sampler,sampling_strategy,remote}.rs`), C58 |
| `Verif.Sdk.JaegerTask` | The task that asks the server for strategies (`trace/sampler/jaeger_remote/sampler.rs`), C114 |
| `Verif.Sdk.Pairs` | Start and end notifications of a span, C64 |
| `Verif.Sdk.Processors` | C25: which spans reach an exporter |
| `Verif.Sdk.Provider` | Tracer, logger and meter providers as a transition system (C29, C35, C49) |
| `Verif.Sdk.ProviderProps` | C29, C35, C49: provider shutdown |
| `Verif.Sdk.ProviderResults` | C29, C35, C49: the results of flushes and shutdowns of a provider |
| `Verif.Sdk.RateLimit` | The rate limiter of the remote sampler (`trace/sampler/jaeger_remote/rate_limit.rs`), C57 |
| `Verif.Sdk.Sampler` | Samplers (`opentelemetry-sdk/src/trace/sampler.rs`) |
| `Verif.Sdk.SamplerProps` | C19: ratio sampling |
| `Verif.Sdk.Scoped` | Spans of nested calls (`opentelemetry/src/trace/tracer.rs`, `src/trace/context.rs`, `src/context.rs`), C100 |
| `Verif.Sdk.ScopedTree` | The trace of nested calls, C100 |
| `Verif.Sdk.Shared` | Spans in contexts, shared between threads (`opentelemetry/src/trace/context.rs`, `src/trace/tracer.rs`), C88 |
| `Verif.Sdk.SharedProps` | C88: a span shared by contexts on many threads is reported once, with all that was recorded before its end |
| `Verif.Sdk.Span` | The SDK span (`opentelemetry-sdk/src/trace/span.rs`, `span_limit.rs`, `events.rs`, `links.rs`) |
| `Verif.Sdk.SpanLemmas` | Lemmas on the contents of spans |
| `Verif.Sdk.SpanLife` | C21–C23, C29: from the builder to the exported span |
| `Verif.Sdk.SpanProps` | C22, C23, C24: contents and delivery of spans |
| `Verif.Sdk.SpanSpec` | What was recorded on a span: specification of C22–C24, apart from the span implementation |
| `Verif.Sdk.Tracer` | The SDK tracer (`opentelemetry-sdk/src/trace/tracer.rs`) |
| `Verif.Sdk.TracerProps` | C20, C21, C30 (spans), C63, C64: starting spans |
| `Verif.Stdout.Exporter` | The stdout exporters as concurrent programs (`opentelemetry-stdout/src`), C94 |
| `Verif.Stdout.Lines` | What the stdout exporters print (`opentelemetry-stdout/src`), C94 |
| `Verif.Stdout.Props` | What is on the terminal after exports to standard output, C94 |
| `Verif.Trace.Ids` | Trace ids, span ids, trace flags (`opentelemetry/src/trace_context.rs`) |
| `Verif.Trace.IdsProps` | Property theorems: id encodings (C05) |
| `Verif.Trace.TraceState` | `TraceState` and `SpanContext` (`opentelemetry/src/trace/span_context.rs`) |
| `Verif.Trace.TraceStateLemmas` | Helper lemmas for trace state |
| `Verif.Trace.TraceStateProps` | Property theorems: trace state (C09, C10) |
| `Verif.Trace.TraceStateSpec` | Specification of trace state: legal keys and values, ordered map |
| `Verif.Zipkin.Body` | The body of the Zipkin exporter's request (C119) |
| `Verif.Zipkin.Model` | The Zipkin exporter (`opentelemetry-zipkin/src/exporter`) |
| `Verif.Zipkin.Props` | Zipkin: what an exported span carries (C61) |

## 8. Axioms of each theorem

The output of `#print axioms` for every theorem of `MANIFEST.json`, grouped.

**no axioms** (10): `Otel.TraceState.accepted_key_w3c_partial`, `Otel.Ctx.with_baggage_partial`, `Otel.Ctx.cleared_baggage_unchanged`, `Otel.Ctx.cleared_baggage_violated`, `Otel.Logs.watch_faithful`, `Otel.Metrics.increment`, `Otel.Metrics.Manual.collect_after_shutdown_violated`, `Otel.Ctx.Reentrancy.never_panics_violated`, `Otel.Metrics.Timing.late_flushes_postpone_violated`, `Otel.EndToEnd.instrument_kinds`

**propext** (65): `Otel.Ctx.guard_across_await_violated`, `Otel.EndToEnd.i64_tells`, `Otel.EndToEnd.f64_tells`, `Otel.Metrics.Conc.pointValues_own`, `Otel.Async.async_resource`, `Otel.EndToEnd.Fan.each_alone`, `Otel.Resource.Provider.provider_resource_url`, `Otel.Logs.Conc.exporter_sees_calls`, `Otel.Sdk.BatchTiming.span_waits_longer_violated`, `Otel.Sdk.dropped_once`, `Otel.Sdk.nonrecording_never_delivered`, `Otel.Sdk.history_cases`, `Otel.Sdk.status_of_edits`, `Otel.Sdk.status_ok_final`, `Otel.Sdk.status_last_error_violated`, `Otel.Sdk.Bsp.second_shutdown`, `Otel.Sdk.Bsp.late_flush_refused`, `Otel.Sdk.Prov.later_shutdown`, `Otel.Sdk.suppressed_derived`, `Otel.Logs.suppressed_emit`, `Otel.Metrics.AtomicFloat.add_call_completes`, `Otel.Metrics.bucket_index_lt`, `Otel.Metrics.delta_tiles`, `Otel.Metrics.cumulative_starts`, `Otel.Metrics.Manual.collect_iff`, `Otel.Metrics.Manual.noop_iff_shutdown`, `Otel.Resource.merge_schema`, `Otel.Resource.merge_empty`, `Otel.Otlp.spans_resource`, `Otel.Otlp.value_roundtrip_partial`, `Otel.Otlp.empty_array_violated`, `Otel.Otlp.log_value_roundtrip`, `Otel.Otlp.severity_roundtrip`, `Otel.Otlp.log_converts`, `Otel.Otlp.log_time_violated`, `Otel.Otlp.histogram_sum_violated`, `Otel.Common.kv_refl_violated`, `Otel.Common.kv_hash_partial`, `Otel.Common.kv_hash_violated`, `Otel.Common.scope_eq_partial`, `Otel.Async.async_accepts_iff`, `Otel.Async.async_tick_exports`, `Otel.Async.first_tick_late_violated`, `Otel.Metrics.Inst.compatible_iff`, `Otel.Metrics.Inst.temporality_table`, `Otel.AsyncReader.reader_after_shutdown`, `Otel.Sdk.Shared.in_span_violated`, `Otel.Sdk.Shared.poison_violated`, `Otel.Glob.global_last_set`, `Otel.Glob.meter_violated`, `Otel.Glob.propagator_violated`, `Otel.Memory.metrics_temporality`, `Otel.Memory.export_after_shutdown_violated`, `Otel.Memory.resource_violated`, `Otel.Stdout.metrics_printed`, `Otel.Stdout.expo_silent_violated`, `Otel.Stdout.span_silent_violated`, `Otel.Stdout.event_fields_printed`, `Otel.Stdout.numbers_printed`, `Otel.EndToEnd.f64_reads`, `Otel.EndToEnd.u64Sum_ok`, `Otel.EndToEnd.i64Sum_ok`, `Otel.EndToEnd.f64Sum_ok`, `Otel.EndToEnd.gaugeOf_ok`, `Otel.EndToEnd.histogramOf_ok`

**propext, Quot.sound** (222): `Otel.Ctx.refused_attach_noop`, `Otel.Ctx.stack_fills`, `Otel.Ctx.derive_chain`, `Otel.Ctx.poll_restores`, `Otel.Ctx.poll_sees_own_context`, `Otel.traceId_text_roundtrip`, `Otel.spanId_text_roundtrip`, `Otel.id_text_injective`, `Otel.traceId_bytes_roundtrip`, `Otel.spanId_bytes_roundtrip`, `Otel.Sdk.Scoped.exec_eval`, `Otel.Sdk.Scoped.nested_calls_traced`, `Otel.Sdk.Scoped.one_trace_inside`, `Otel.Sdk.Scoped.sampled_delivered`, `Otel.Sdk.Scoped.full_stack_violated`, `Otel.EndToEnd.Scrape.u64_shown`, `Otel.EndToEnd.Scrape.i64_shown`, `Otel.EndToEnd.Scrape.gauge_shown`, `Otel.EndToEnd.u64_tells`, `Otel.EndToEnd.assign_reads`, `Otel.Metrics.Obs.callbacks_run_to_end`, `Otel.Metrics.Conc.pointValues_overflow`, `Otel.Sdk.Bsp.labels_length`, `Otel.Sdk.Bsp.labelled_once_handled`, `Otel.Sdk.Bsp.labelled_after_flush`, `Otel.Sdk.Bsp.flush_batch_labelled`, `Otel.Sdk.Bsp.span_batch_unlabelled_violated`, `Otel.Logs.Blp.labels_length`, `Otel.Logs.Blp.labelled_once_handled`, `Otel.Logs.Blp.all_labelled_partial`, `Otel.Logs.Blp.labelled_after_round`, `Otel.Logs.Blp.log_batch_unlabelled_violated`, `Otel.EndToEnd.Fan.every_part_given`, `Otel.EndToEnd.Fan.provider_asks_all`, `Otel.EndToEnd.Fan.provider_ok_all`, `Otel.EndToEnd.Fan.Simple.simple_after_shutdown`, `Otel.Resource.Provider.provider_resource`, `Otel.Resource.Provider.tracer_resource_partial`, `Otel.Resource.Provider.tracer_resource_equal`, `Otel.Logs.Conc.returned_is_exported`, `Otel.Logs.Conc.exported_was_emitted`, `Otel.Logs.Conc.exports_overlap`, `Otel.Logs.Conc.concurrent_emit_after_shutdown_violated`, `Otel.Async.abandoned_never_stops_violated`, `Otel.Async.drop_with_full_queue_violated`, `Otel.Async.Ticker.ticks_regular_partial`, `Otel.Async.Ticker.first_tick_two_intervals_violated`, `Otel.Sdk.BatchTiming.idle_waits_whole_delay`, `Otel.Baggage.remove_effect`, `Otel.Otlp.single_span_partial`, `Otel.Otlp.single_spans_batch`, `Otel.Otlp.single_log`, `Otel.Otlp.latency_partial`, `Otel.Otlp.running_partial`, `Otel.Otlp.error_partial`, `Otel.Otlp.single_log_scope_violated`, `Otel.Prom.Builder.prom_settings`, `Otel.Temporality.otlp_build_iff`, `Otel.Prop.B3.b3_single_violated`, `Otel.Prop.Jaeger.jaeger_extract_effect`, `Otel.Prop.Jaeger.jaeger_extract_partial`, `Otel.Prop.composite_inject_extract`, `Otel.Prop.composite_nested`, `Otel.Prop.get_setAll`, `Otel.Sdk.span_follows_decision`, `Otel.Sdk.builder_decision_final`, `Otel.Sdk.child_linked`, `Otel.Sdk.root_linked`, `Otel.Sdk.tree_one_trace`, `Otel.Sdk.span_limits`, `Otel.Sdk.kept_plus_dropped`, `Otel.Sdk.with_links_valid`, `Otel.Sdk.span_life`, `Otel.Sdk.ended_once`, `Otel.Sdk.ended_once_now`, `Otel.Sdk.shutdown_first`, `Otel.Sdk.not_recording_after_end`, `Otel.Sdk.span_life_dropped`, `Otel.Sdk.simple_exports_sampled_partial`, `Otel.Sdk.batch_exports_unsampled_violated`, `Otel.Sdk.batch_exports_any`, `Otel.Sdk.Bsp.bsp_conservation`, `Otel.Sdk.Bsp.bsp_every_span_accounted`, `Otel.Sdk.Bsp.zero_batch_violated`, `Otel.Sdk.Bsp.flush_exports_one_batch`, `Otel.Sdk.Bsp.flush_exports_all_partial`, `Otel.Sdk.Bsp.flush_violated`, `Otel.Sdk.Bsp.shutdown_loses_violated`, `Otel.Sdk.Bsp.nothing_after_shutdown`, `Otel.Sdk.Bsp.exporter_shutdown_violated`, `Otel.Sdk.no_span_after_shutdown`, `Otel.Sdk.Prov.obtained_after_shutdown`, `Otel.Sdk.Prov.late_end_not_delivered`, `Otel.Sdk.Prov.end_after_shutdown_violated`, `Otel.Sdk.Prov.results_honest`, `Otel.Sdk.suppressed_span`, `Otel.Logs.emit_reaches_each_once`, `Otel.Logs.record_fields`, `Otel.Logs.event_enabled_iff`, `Otel.Logs.Blp.nothing_after_exporter_shutdown`, `Otel.Logs.Blp.shutdown_completes`, `Otel.Logs.Blp.flush_misses_violated`, `Otel.Logs.Blp.counter_overflows_violated`, `Otel.Sdk.Prov.emit_after_shutdown_violated`, `Otel.Metrics.AtomicFloat.additions_never_lost`, `Otel.Metrics.AtomicFloat.add_completes`, `Otel.Metrics.Expo.frexpBits_special`, `Otel.Metrics.name_valid_iff`, `Otel.Metrics.Periodic.exporter_shutdown_last`, `Otel.Metrics.Periodic.ok_not_delivered_violated`, `Otel.Metrics.Periodic.late_call_fails`, `Otel.Metrics.Periodic.no_false_alarm`, `Otel.Sdk.Prov.late_meter_flush`, `Otel.Metrics.Manual.collect_after_shutdown_partial`, `Otel.Metrics.Manual.first_registration_wins`, `Otel.Metrics.Manual.meters_per_scope`, `Otel.Metrics.Manual.meters_after_shutdown`, `Otel.Metrics.Manual.collect_after_history`, `Otel.Resource.merge_get`, `Otel.Resource.merge_any_order`, `Otel.Resource.merge_assoc_partial`, `Otel.Resource.new_get`, `Otel.Resource.with_schema_url`, `Otel.Resource.with_detectors`, `Otel.Otlp.spans_once`, `Otel.Otlp.spans_grouped`, `Otel.Otlp.logs_once`, `Otel.Otlp.span_schema_url_violated`, `Otel.Otlp.log_scope_violated`, `Otel.Otlp.time_exact_partial`, `Otel.Otlp.time_monotone`, `Otel.Otlp.time_violated`, `Otel.Otlp.span_roundtrip_partial`, `Otel.Otlp.span_injective_partial`, `Otel.Otlp.number_exact_partial`, `Otel.Otlp.number_violated`, `Otel.Sdk.JaegerRemote.valid_replaces`, `Otel.Sdk.JaegerRemote.last_answer_partial`, `Otel.Common.kv_equivalence`, `Otel.Common.scope_order`, `Otel.Common.scope_equivalence`, `Otel.Prom.sanitize_legal_partial`, `Otel.Prom.sanitize_id`, `Otel.Prom.sanitize_shape`, `Otel.Prom.label_chars`, `Otel.Prom.label_legal_partial`, `Otel.Prom.namespace_underscore`, `Otel.Sdk.recorded_ids_valid_partial`, `Otel.Sdk.on_start_once`, `Otel.Sdk.recorded_pairs_partial`, `Otel.Sdk.end_before_start_violated`, `Otel.Sdk.Bsp.counter_leak_violated`, `Otel.Sdk.Bsp.counter_overflow_violated`, `Otel.Sdk.Bsp.flag_means_request`, `Otel.Sdk.Bsp.flag_down_at_rest`, `Otel.Sdk.Bsp.full_batch_asks`, `Otel.Logs.Blp.flag_means_request`, `Otel.Logs.Blp.flag_down_at_rest`, `Otel.Logs.Blp.full_batch_asks`, `Otel.Logs.Blp.flush_failure_real_partial`, `Otel.Logs.Blp.flush_masks_failure_violated`, `Otel.Logs.Blp.shutdown_masks_failure_violated`, `Otel.Logs.simple_log_no_feedback_partial`, `Otel.Logs.concurrent_log_feedback_violated`, `Otel.Logs.Simple.late_emit_exports_nothing`, `Otel.Logs.Simple.export_after_shutdown_violated`, `Otel.Metrics.Inst.view_exact`, `Otel.Metrics.Inst.view_wildcard`, `Otel.Metrics.Inst.view_inert`, `Otel.Metrics.Inst.view_nan_boundaries_violated`, `Otel.Metrics.Timing.no_underflow`, `Otel.Metrics.Timing.next_collection_soon`, `Otel.Metrics.Timing.cadence`, `Otel.Metrics.Timing.flush_keeps_deadline`, `Otel.Metrics.Timing.flushes_keep_deadline`, `Otel.Prom.labels_complete`, `Otel.Prom.buckets_cumulative`, `Otel.Prom.buckets_monotone`, `Otel.Async.async_batch_zero_violated`, `Otel.Async.async_lost_uncounted_violated`, `Otel.Async.async_failure_masked_violated`, `Otel.Async.span_exporter_running_violated`, `Otel.Async.async_shutdown_refused_violated`, `Otel.Metrics.Inst.default_accepted`, `Otel.Metrics.Inst.gauge_sum_violated`, `Otel.AsyncReader.reader_failure_masked_violated`, `Otel.AsyncReader.reader_exporter_failure_hidden_violated`, `Otel.AsyncReader.reader_second_shutdown_violated`, `Otel.AsyncReader.reader_unregistered_blocks_violated`, `Otel.Glob.drop_violated`, `Otel.Memory.spans_since_clear`, `Otel.Memory.logs_since_clear_partial`, `Otel.Memory.clone_exact`, `Otel.Memory.metrics_since_reset`, `Otel.Stdout.export_alone`, `Otel.Stdout.sequential_text`, `Otel.Stdout.spans_printed`, `Otel.Stdout.logs_printed`, `Otel.Stdout.points_printed`, `Otel.Stdout.mixed_lines_violated`, `Otel.Stdout.resource_late_violated`, `Otel.Stdout.spans_text`, `Otel.Stdout.logs_text`, `Otel.Stdout.metrics_text`, `Otel.Stdout.events_text`, `Otel.Stdout.links_text`, `Otel.Stdout.log_scope_printed`, `Otel.Stdout.hist_lines_printed`, `Otel.Locks.create_in_callback_violated`, `Otel.Locks.flush_in_callback_violated`, `Otel.Locks.flush_in_exporter_violated`, `Otel.Locks.span_in_exporter_violated`, `Otel.Locks.span_under_lock_violated`, `Otel.Locks.two_spans_violated`, `Otel.Locks.exporters_cross_violated`, `Otel.Locks.instrument_in_span_exporter_violated`, `Otel.Locks.meter_in_diagnostic_violated`, `Otel.Otlp.Proto.encode_append`, `Otel.Otlp.Proto.negative_zero_violated`, `Otel.EndToEnd.u64_reads`, `Otel.EndToEnd.i64_reads`, `Otel.EndToEnd.gauge_reads`

**propext, Classical.choice, Quot.sound** (637): `Otel.Ctx.current_is_newest_live`, `Otel.Ctx.current_while_room`, `Otel.Ctx.rebinding_refused_violated`, `Otel.Ctx.current_with_overflow`, `Otel.Ctx.current_with_overflow'`, `Otel.Ctx.refused_only_when_full`, `Otel.Ctx.poll_with_guards`, `Otel.Ctx.poll_restores_tidy`, `Otel.id_text_shape`, `Otel.flags_with_sampled`, `Otel.Prop.W3C.w3c_roundtrip`, `Otel.Prop.W3C.extract_iff`, `Otel.Prop.W3C.extract_all_or_nothing`, `Otel.Prop.W3C.extract_refuses`, `Otel.Prop.W3C.grammar_partial`, `Otel.Prop.W3C.grammar_violated`, `Otel.Prop.W3C.level2_flags_refused`, `Otel.TraceState.insert_spec`, `Otel.TraceState.delete_partial`, `Otel.TraceState.delete_violated`, `Otel.TraceState.history_partial`, `Otel.TraceState.built_valid`, `Otel.TraceState.header_roundtrip`, `Otel.TraceState.empty_key_violated`, `Otel.TraceState.w3c_key_refused_violated`, `Otel.EndToEnd.Scrape.scrape_shows_partial`, `Otel.EndToEnd.Scrape.series_distinct_partial`, `Otel.EndToEnd.Scrape.series_grows_partial`, `Otel.EndToEnd.Scrape.counter_never_falls_partial`, `Otel.EndToEnd.Scrape.series_types`, `Otel.EndToEnd.Scrape.histogram_shown`, `Otel.EndToEnd.Scrape.scraped_example`, `Otel.EndToEnd.Scrape.series_of_repeated_key_violated`, `Otel.EndToEnd.Scrape.series_distinct_violated`, `Otel.EndToEnd.Scrape.apart_of_type`, `Otel.Common.value_texts`, `Otel.Common.text_tells_values_partial`, `Otel.Common.string_array_violated`, `Otel.Common.text_types_violated`, `Otel.EndToEnd.observable_changes_partial`, `Otel.EndToEnd.observable_values_partial`, `Otel.EndToEnd.changes_add_up`, `Otel.EndToEnd.watched_measured`, `Otel.EndToEnd.skipped_set_violated`, `Otel.EndToEnd.restarted_counter_violated`, `Otel.EndToEnd.observable_changes_example`, `Otel.EndToEnd.observable_values_example`, `Otel.Metrics.Obs.delta_tells_callbacks`, `Otel.Metrics.Obs.cumulative_tells_callbacks`, `Otel.EndToEnd.Flush.flushed_cumulative_partial`, `Otel.EndToEnd.Flush.flushed_delta_partial`, `Otel.EndToEnd.Flush.flushed_counter_partial`, `Otel.EndToEnd.Flush.flushed_delta_violated`, `Otel.EndToEnd.Flush.flushed_cumulative_example`, `Otel.EndToEnd.Flush.flushed_delta_example`, `Otel.EndToEnd.route_one_trace_partial`, `Otel.EndToEnd.route_linked`, `Otel.EndToEnd.route_debug_violated`, `Otel.EndToEnd.Baggages.route_baggage_partial`, `Otel.EndToEnd.Baggages.route_size_partial`, `Otel.EndToEnd.Baggages.route_limit_violated`, `Otel.Prop.Bag.decode_encode`, `Otel.Prop.Bag.display_read_partial`, `Otel.Prop.Bag.display_injective_partial`, `Otel.Prop.Bag.display_metadata_violated`, `Otel.Prop.Bag.encode_plain_iff`, `Otel.EndToEnd.AsyncPipe.async_spans_arrive_once`, `Otel.EndToEnd.AsyncPipe.async_flushed_spans_arrive`, `Otel.EndToEnd.AsyncPipe.async_logs_arrive_once`, `Otel.EndToEnd.AsyncPipe.async_flushed_logs_arrive`, `Otel.EndToEnd.AsyncPipe.async_spans_in_protobuf`, `Otel.EndToEnd.overflow_delta`, `Otel.EndToEnd.overflow_nothing_lost`, `Otel.EndToEnd.overflow_cumulative`, `Otel.EndToEnd.updown_total`, `Otel.EndToEnd.histogram_count_total`, `Otel.EndToEnd.overflow_example`, `Otel.EndToEnd.overflow_histogram_example`, `Otel.EndToEnd.overflow_cumulative_example`, `Otel.Metrics.Conc.delta_limited`, `Otel.Metrics.Conc.cumulative_limited`, `Otel.Metrics.Conc.delta_all`, `Otel.Baggage.baggage_limits`, `Otel.Sdk.Bsp.at_most_one_unlabelled_partial`, `Otel.Logs.Blp.labelled_after_flush`, `Otel.Logs.Blp.flush_batch_labelled`, `Otel.EndToEnd.Readers.each_reader_alone`, `Otel.EndToEnd.Readers.every_reader_takes_all`, `Otel.EndToEnd.Readers.provider_asks_all`, `Otel.EndToEnd.Readers.provider_ok_all`, `Otel.EndToEnd.Readers.provider_flush_cumulative_partial`, `Otel.EndToEnd.Readers.provider_flush_delta_partial`, `Otel.EndToEnd.Fan.provider_hands_on`, `Otel.EndToEnd.Fan.provider_flush_arrives_partial`, `Otel.EndToEnd.Fan.example_processors`, `Otel.Resource.Provider.tracer_resource_violated`, `Otel.Sdk.JaegerTask.clones_follow_last_answer`, `Otel.Sdk.JaegerTask.requests_spaced`, `Otel.Sdk.JaegerTask.polling_stops_violated`, `Otel.Sdk.JaegerTask.polling_stops_partial`, `Otel.Sdk.JaegerEndpoint.endpoint_service`, `Otel.Sdk.JaegerEndpoint.endpoint_empty`, `Otel.Sdk.JaegerEndpoint.service_only_partial`, `Otel.Sdk.JaegerEndpoint.service_in_endpoint_violated`, `Otel.EndToEnd.Together.route_together_partial`, `Otel.EndToEnd.Together.receiver_linked`, `Otel.EndToEnd.Together.stale_baggage_violated`, `Otel.EndToEnd.Filters.wanted_event_delivered`, `Otel.EndToEnd.Filters.unwanted_event_held_back_partial`, `Otel.EndToEnd.Filters.batch_filter_ignored_violated`, `Otel.EndToEnd.Filters.refused_event_delivered_violated`, `Otel.Async.abandoned_delivers_partial`, `Otel.Async.abandoned_tick`, `Otel.Sdk.BatchTiming.log_in_time`, `Otel.Sdk.BatchTiming.span_in_time_partial`, `Otel.Sdk.BatchTiming.span_in_one_round`, `Otel.Sdk.BatchTiming.timer_not_early`, `Otel.Sdk.BatchTiming.never_stuck`, `Otel.JsonText.text_read_back`, `Otel.JsonText.text_injective`, `Otel.Zipkin.zipkin_body_describes`, `Otel.JsonText.traces_text_conform_partial`, `Otel.JsonText.logs_text_conform_partial`, `Otel.JsonText.metrics_text_conform_partial`, `Otel.JsonText.traces_text_read_back_partial`, `Otel.JsonText.logs_text_read_back_partial`, `Otel.JsonText.metrics_text_read_back_partial`, `Otel.Baggage.insert_effect`, `Otel.Baggage.insert_accepted_iff_fits_partial`, `Otel.Baggage.accepted_only_if_fits`, `Otel.Baggage.rejected_after_remove_violated`, `Otel.Logs.LogBatch.iter_yields`, `Otel.Otlp.single_span_schema_violated`, `Otel.Sdk.JaegerAnswer.answer_understood_partial`, `Otel.Sdk.JaegerAnswer.rate_limit_understood_partial`, `Otel.Sdk.JaegerAnswer.unreadable_keeps`, `Otel.Sdk.JaegerAnswer.rate_limit_refused_violated`, `Otel.Sdk.JaegerAnswer.left_out_refused_violated`, `Otel.EndToEnd.spans_arrive_in_json_partial`, `Otel.EndToEnd.flushed_spans_arrive_in_json_partial`, `Otel.EndToEnd.logs_arrive_in_json_partial`, `Otel.EndToEnd.flushed_logs_arrive_in_json_partial`, `Otel.EndToEnd.sdk_metrics_text_partial`, `Otel.EndToEnd.nan_batch_lost_violated`, `Otel.Otlp.Grpc.grpc_build`, `Otel.Otlp.Grpc.grpc_metadata_partial`, `Otel.Otlp.Grpc.grpc_env_sent`, `Otel.Otlp.Grpc.code_metadata_overridden_violated`, `Otel.EndToEnd.Scrape.observable_scrape_partial`, `Otel.EndToEnd.Scrape.observable_last_partial`, `Otel.EndToEnd.Scrape.observable_never_falls_partial`, `Otel.EndToEnd.Scrape.stale_series_violated`, `Otel.Sdk.Facade.boxed_same_partial`, `Otel.Sdk.Facade.ref_same_partial`, `Otel.Sdk.Facade.remote_inert`, `Otel.Sdk.Facade.global_same_partial`, `Otel.Sdk.Facade.sdk_global_same`, `Otel.Sdk.Facade.sdk_ref_same`, `Otel.Sdk.Facade.noop_global`, `Otel.Sdk.Facade.own_end_violated`, `Otel.Sdk.Facade.ref_link_violated`, `Otel.Sdk.Facade.sdk_global_model`, `Otel.Prom.Builder.prom_scraped`, `Otel.Prom.Builder.prom_shown_partial`, `Otel.Prom.Builder.prom_build_iff`, `Otel.Prom.Builder.second_exporter_violated`, `Otel.Prom.Builder.default_registry_violated`, `Otel.Sdk.Configured.configured_spans`, `Otel.Sdk.Configured.env_choice`, `Otel.Sdk.Configured.inRatio_iff`, `Otel.Sdk.Configured.limited`, `Otel.Sdk.ConfiguredBatch.configured_span_batches`, `Otel.Sdk.ConfiguredBatch.configured_log_batches`, `Otel.Sdk.ConfiguredBatch.configured_async_spans`, `Otel.Sdk.ConfiguredBatch.configured_async_logs`, `Otel.Sdk.ConfiguredBatch.zero_size_violated`, `Otel.Temporality.temporality_told`, `Otel.Temporality.gauge_resets`, `Otel.Prop.Bag.baggage_roundtrip_partial`, `Otel.Prop.Bag.percent_value_violated`, `Otel.Prop.Bag.value_cut_at_equals`, `Otel.Prop.Bag.empty_baggage_not_injected`, `Otel.Prop.Bag.baggage_extract_effect`, `Otel.Prop.Bag.baggage_member`, `Otel.Prop.Bag.baggage_member_without_equals`, `Otel.Metrics.MeterApi.asked_is_created`, `Otel.Metrics.MeterApi.invalid_asked_for_nothing`, `Otel.Metrics.MeterApi.callbacks_registered`, `Otel.EndToEnd.Enrich.enriched_arrive_once`, `Otel.EndToEnd.Enrich.enriched_accounted_partial`, `Otel.EndToEnd.Enrich.added_attribute_arrives`, `Otel.EndToEnd.Enrich.edits_never_panic`, `Otel.EndToEnd.Created.u64_counter_arrives_partial`, `Otel.EndToEnd.Created.i64_up_down_counter_arrives_partial`, `Otel.EndToEnd.Created.f64_sum_arrives_partial`, `Otel.EndToEnd.Created.gauge_arrives_partial`, `Otel.EndToEnd.Created.u64_histogram_arrives_partial`, `Otel.EndToEnd.Created.f64_histogram_arrives_partial`, `Otel.EndToEnd.Created.created_example`, `Otel.EndToEnd.CreatedObservable.observable_sum_arrives_partial`, `Otel.EndToEnd.CreatedObservable.observable_gauge_arrives_partial`, `Otel.EndToEnd.CreatedObservable.created_observable_example`, `Otel.EndToEnd.Viewed.u64_sum_viewed_partial`, `Otel.EndToEnd.Viewed.i64_sum_viewed_partial`, `Otel.EndToEnd.Viewed.gauge_viewed_partial`, `Otel.EndToEnd.Viewed.u64_histogram_viewed_partial`, `Otel.EndToEnd.Viewed.f64_expo_viewed_partial`, `Otel.EndToEnd.Viewed.viewed_example`, `Otel.EndToEnd.Viewed.viewed_arrives_partial`, `Otel.EndToEnd.Viewed.viewed_flushed_partial`, `Otel.EndToEnd.Viewed.viewed_nothing_lost`, `Otel.EndToEnd.Viewed.several_views_partial`, `Otel.EndToEnd.Viewed.dropped_nothing`, `Otel.EndToEnd.Viewed.exSeveral`, `Otel.EndToEnd.CreatedFlush.declared_flushed_partial`, `Otel.EndToEnd.CreatedFlush.declared_nothing_lost`, `Otel.EndToEnd.CreatedFlush.every_synchronous`, `Otel.EndToEnd.CreatedFlush.declared_flushed_example`, `Otel.EndToEnd.CreatedReaders.declared_provider_flushed_partial`, `Otel.EndToEnd.CreatedReaders.declared_provider_nothing_lost`, `Otel.EndToEnd.CreatedReaders.exDeclared`, `Otel.EndToEnd.CreatedReaders.exFedBoth`, `Otel.EndToEnd.CreatedReaders.declared_provider_example`, `Otel.EndToEnd.ViewedReaders.viewed_provider_flushed_partial`, `Otel.EndToEnd.ViewedReaders.exTwoCases`, `Otel.EndToEnd.ViewedReaders.viewed_provider_example`, `Otel.EndToEnd.ViewedReaders.several_views_provider_partial`, `Otel.Prop.B3.b3_roundtrip_partial`, `Otel.Prop.B3.b3_roundtrip_flags`, `Otel.Prop.B3.debug_sampled_flag`, `Otel.Prop.B3.b3_extract_iff`, `Otel.Prop.B3.b3_extract_effect`, `Otel.Prop.B3.b3_inject_invalid`, `Otel.Prop.Jaeger.jaeger_roundtrip_partial`, `Otel.Prop.Jaeger.jaeger_debug_violated`, `Otel.Prop.Jaeger.jaeger_header_violated`, `Otel.Prop.Jaeger.jaeger_extract_iff`, `Otel.Prop.Jaeger.jaeger_names`, `Otel.Prop.B3.b3_extract_valid`, `Otel.Prop.Jaeger.jaeger_valid_violated`, `Otel.Prop.B3.b3_parent_ignored`, `Otel.Prop.w3c_announces`, `Otel.Prop.baggage_announces`, `Otel.Prop.b3_announces_partial`, `Otel.Prop.jaeger_announces_partial`, `Otel.Prop.b3_single_announce_violated`, `Otel.Prop.jaeger_announce_violated`, `Otel.Prop.composite_announces`, `Otel.Sdk.ratio_threshold`, `Otel.Sdk.ratio_two_valued`, `Otel.Sdk.ratio_ge_one`, `Otel.Sdk.ratio_le_zero`, `Otel.Sdk.ratio_monotone`, `Otel.Sdk.ratio_count`, `Otel.Sdk.ratio_id_only`, `Otel.Sdk.parent_based_child`, `Otel.Sdk.one_decision_per_trace`, `Otel.Sdk.parent_based_root`, `Otel.Sdk.status_exact`, `Otel.Sdk.status_partial`, `Otel.Sdk.Bsp.late_call_not_accepted`, `Otel.Sdk.Bsp.one_shutdown_wins`, `Otel.Sdk.Prov.shutdown_once`, `Otel.Sdk.Prov.one_effective_shutdown`, `Otel.Sdk.Prov.dropped_all_shut`, `Otel.Logs.growable_is_list`, `Otel.Logs.record_keeps_attributes`, `Otel.Logs.Blp.blp_conservation`, `Otel.Logs.Blp.blp_resting`, `Otel.Logs.Blp.flush_exports_but_inflight`, `Otel.Logs.Blp.flush_exports_all_partial`, `Otel.Logs.Blp.inflight_counts`, `Otel.Logs.Blp.worker_stuck_violated`, `Otel.Metrics.counter_exact`, `Otel.Metrics.collection_report`, `Otel.Metrics.aggregates_by_set`, `Otel.Metrics.points_bounded`, `Otel.Metrics.total_preserved`, `Otel.Metrics.early_sets_exact`, `Otel.Metrics.late_sets_overflow`, `Otel.Metrics.Conc.calls_apply_once`, `Otel.Metrics.Conc.delta_exactly_once`, `Otel.Metrics.Conc.store_content`, `Otel.Metrics.Conc.delta_total`, `Otel.Metrics.Conc.cumulative_between`, `Otel.Metrics.Conc.skipped_not_returned`, `Otel.Metrics.Conc.store_progress`, `Otel.Metrics.u64_sum`, `Otel.Metrics.i64_sum`, `Otel.Metrics.f64_sum_start`, `Otel.Metrics.histogram_exact`, `Otel.Metrics.histogram_correct`, `Otel.Metrics.bucket_index`, `Otel.Metrics.validate_boundaries`, `Otel.Metrics.infinite_min_violated`, `Otel.Metrics.nan_counted_violated`, `Otel.Metrics.Expo.expo_histogram_exact`, `Otel.Metrics.Expo.expo_histogram_small_partial`, `Otel.Metrics.Expo.expo_summary`, `Otel.Metrics.Expo.expo_scale_antitone`, `Otel.Metrics.Expo.frexpBits_correct`, `Otel.Metrics.Expo.max_size_one_violated`, `Otel.Metrics.Expo.max_size_two_violated`, `Otel.Metrics.Expo.max_size_zero_violated`, `Otel.Metrics.Expo.span_overflow_violated`, `Otel.Metrics.gauge_last`, `Otel.Metrics.Conc.spurious_point_violated`, `Otel.Metrics.Conc.no_spurious_point_partial`, `Otel.Metrics.observable_delta_partial`, `Otel.Metrics.reordered_attributes_violated`, `Otel.Metrics.produce_exact`, `Otel.Metrics.produce_independent`, `Otel.Metrics.produce_nonempty`, `Otel.Metrics.unit_valid_iff`, `Otel.Metrics.config_valid_iff`, `Otel.Metrics.Inst.invalid_instrument_ignored`, `Otel.Metrics.Inst.one_aggregator_per_identity`, `Otel.Metrics.Inst.instrument_feeds_its_streams`, `Otel.Metrics.Inst.same_identity_shared`, `Otel.Metrics.Inst.every_stream_collected`, `Otel.Metrics.Inst.new_aggregator`, `Otel.Metrics.Inst.collected_forever`, `Otel.Metrics.Inst.refused_only_incompatible`, `Otel.Metrics.Inst.accepted_compatible`, `Otel.Metrics.Inst.measured_once_partial`, `Otel.Metrics.Inst.no_views_one_aggregator`, `Otel.Metrics.Inst.create_feeds_every_reader`, `Otel.Metrics.Inst.case_views_count_twice_violated`, `Otel.Metrics.Inst.later_boundaries_ignored_violated`, `Otel.Metrics.Inst.view_discards_boundaries_violated`, `Otel.Metrics.Periodic.ok_delivered`, `Otel.Metrics.Periodic.ok_delivered_delta_partial`, `Otel.Metrics.Periodic.delta_once`, `Otel.Metrics.Periodic.shutdown_ok`, `Otel.Metrics.Periodic.caller_answered_partial`, `Otel.Metrics.Periodic.worker_moves_partial`, `Otel.Metrics.Periodic.callback_flush_deadlocks_violated`, `Otel.Resource.merge_assoc_violated`, `Otel.Resource.wf_build`, `Otel.Resource.env_get`, `Otel.Resource.env_leniency_violated`, `Otel.Resource.sdk_service_name`, `Otel.Resource.service_name_partial`, `Otel.Resource.service_name_violated`, `Otel.Resource.telemetry_reported`, `Otel.Resource.programmatic_wins`, `Otel.Resource.detector_schema_violated`, `Otel.Sdk.Config.bsp_batch_le_queue`, `Otel.Sdk.Config.blp_batch_le_queue`, `Otel.Sdk.Config.bsp_precedence`, `Otel.Sdk.Config.bsp_batch_partial`, `Otel.Sdk.Config.bsp_batch_set`, `Otel.Sdk.Config.bsp_batch_violated`, `Otel.Sdk.Config.blp_precedence`, `Otel.Otlp.spans_one_group_partial`, `Otel.Otlp.logs_grouped_partial`, `Otel.Otlp.metrics_request`, `Otel.Otlp.span_schema_url_lost_violated`, `Otel.Otlp.log_scopes_merged_violated`, `Otel.Otlp.value_injective_iff`, `Otel.Otlp.remote_violated`, `Otel.Otlp.log_roundtrip_partial`, `Otel.Otlp.metric_data_partial`, `Otel.Otlp.one_slash`, `Otel.Otlp.http_endpoint_env`, `Otel.Otlp.http_endpoint_code`, `Otel.Otlp.grpc_endpoint`, `Otel.Otlp.exporter_timeout`, `Otel.Otlp.compression`, `Otel.Otlp.empty_endpoint_violated`, `Otel.Otlp.empty_variable_violated`, `Otel.Otlp.empty_compression_violated`, `Otel.Otlp.url_decode_encode`, `Otel.Otlp.url_decode_raw`, `Otel.Otlp.header_string_roundtrip_partial`, `Otel.Otlp.header_string_raw`, `Otel.Otlp.header_pairs_proper`, `Otel.Otlp.http_header_value`, `Otel.Otlp.env_headers_sent`, `Otel.Otlp.empty_value_violated`, `Otel.Otlp.sign_violated`, `Otel.Otlp.untrimmed_violated`, `Otel.Otlp.code_header_overridden_violated`, `Otel.Otlp.code_value_decoded_violated`, `Otel.Otlp.with_headers_value`, `Otel.Sdk.RateLimit.rate_bound`, `Otel.Sdk.RateLimit.window_bound_partial`, `Otel.Sdk.RateLimit.burst_violated`, `Otel.Sdk.RateLimit.starvation_violated`, `Otel.Sdk.RateLimit.recovery_partial`, `Otel.Sdk.RateLimit.rewind_unlimited`, `Otel.Sdk.JaegerRemote.rate_limit_in_force`, `Otel.Sdk.JaegerRemote.invalid_strategy_violated`, `Otel.Sdk.JaegerRemote.per_operation`, `Otel.Sdk.JaegerRemote.strategy_decides`, `Otel.Common.nan_points_violated`, `Otel.Common.nan_free_points`, `Otel.Common.float_equal`, `Otel.Prom.sanitize_violated`, `Otel.Prom.exported_name_legal_partial`, `Otel.Prom.namespace_violated`, `Otel.Prom.label_violated`, `Otel.Prom.unit_suffix_iff`, `Otel.Prom.unknown_unit`, `Otel.Prom.prefix_lost_violated`, `Otel.Zipkin.ids_exact`, `Otel.Zipkin.tags_exact`, `Otel.Zipkin.tags_nodup`, `Otel.Zipkin.error_tag`, `Otel.Zipkin.duration_exact`, `Otel.Zipkin.timestamp_exact`, `Otel.Zipkin.annotations_exact`, `Otel.Zipkin.kind_partial`, `Otel.Zipkin.batch_once`, `Otel.Zipkin.endpoint_precedence`, `Otel.Zipkin.root_parent_violated`, `Otel.Zipkin.kind_violated`, `Otel.Zipkin.status_code_violated`, `Otel.Zipkin.lost_fields_violated`, `Otel.Zipkin.annotation_times`, `Otel.Ctx.Reentrancy.no_panic_iff`, `Otel.Ctx.Reentrancy.reads_nest_partial`, `Otel.Sdk.recorded_ids_valid_violated`, `Otel.Sdk.on_start_pairs_violated`, `Otel.Sdk.Bsp.counter_at_rest`, `Otel.Sdk.Bsp.counter_counts_queue_partial`, `Otel.Logs.Blp.flush_reports_last_round`, `Otel.Logs.Simple.simple_log_exactly_once`, `Otel.Logs.Simple.exports_accounted`, `Otel.Metrics.reported_attributes`, `Otel.Metrics.duplicate_keys_reported_violated`, `Otel.Metrics.Inst.validate_expo`, `Otel.Metrics.Inst.validate_explicit`, `Otel.Metrics.Inst.scope_attributes_ignored_violated`, `Otel.Sdk.Config.reader_interval`, `Otel.Sdk.Config.zero_interval_violated`, `Otel.Sdk.Config.sampler_from_env`, `Otel.Sdk.Config.limits_from_env`, `Otel.Sdk.Config.prov_precedence`, `Otel.Sdk.Config.prov_sampler`, `Otel.Sdk.Config.prov_inner_limits`, `Otel.Prom.one_type_and_help`, `Otel.Prom.metric_exported`, `Otel.Prom.scope_labels_present`, `Otel.Prom.collect_families`, `Otel.Prom.duplicate_label_violated`, `Otel.Prom.name_clash_violated`, `Otel.Prom.duplicate_series_violated`, `Otel.Prom.resource_labels_violated`, `Otel.Prom.scope_attributes_violated`, `Otel.Prom.exported_as`, `Otel.Prom.selected_labels`, `Otel.Prom.target_info_written`, `Otel.Prom.scope_info_written`, `Otel.Metrics.filtered_report`, `Otel.Metrics.only_allowed_keys`, `Otel.Metrics.filtered_total`, `Otel.Metrics.several_readers_partial`, `Otel.Metrics.foreign_set_reported_violated`, `Otel.Metrics.stale_set_reported_violated`, `Otel.Metrics.foreign_observation_counted_violated`, `Otel.Async.async_order`, `Otel.Async.async_held_bound`, `Otel.Async.async_batch_size`, `Otel.Async.async_no_overlap`, `Otel.Async.async_drops_counted`, `Otel.Async.async_answer`, `Otel.Async.async_returns_once`, `Otel.Async.async_shutdown_last`, `Otel.Async.async_exporter_shutdown`, `Otel.Async.async_call_returns`, `Otel.Async.async_not_stuck`, `Otel.Metrics.Inst.aggregated_as_asked`, `Otel.Metrics.Inst.aggregated_sum_partial`, `Otel.AsyncReader.reader_delta_once`, `Otel.AsyncReader.reader_cumulative`, `Otel.AsyncReader.reader_ok_partial`, `Otel.AsyncReader.reader_returns_once`, `Otel.AsyncReader.reader_all_answered`, `Otel.AsyncReader.reader_not_stuck`, `Otel.AsyncReader.reader_calls_return`, `Otel.AsyncReader.reader_shutdown_last`, `Otel.AsyncReader.reader_already`, `Otel.Appender.event_carried`, `Otel.Appender.event_unwanted`, `Otel.Appender.message_number_violated`, `Otel.Appender.error_name_lost_violated`, `Otel.Appender.log_target_lost_violated`, `Otel.Appender.log_carried`, `Otel.Appender.log_unwanted`, `Otel.Appender.kv_says`, `Otel.Appender.serde_meaning`, `Otel.Appender.serde_dropped_iff`, `Otel.Appender.serialize_none_iff`, `Otel.Appender.serialize_absent`, `Otel.Appender.serde_position_violated`, `Otel.Appender.serde_keys_collide_violated`, `Otel.Appender.serde_variant_lost_violated`, `Otel.Otlp.Json.traces_conform_partial`, `Otel.Otlp.Json.logs_conform_partial`, `Otel.Otlp.Json.metrics_conform_partial`, `Otel.Otlp.Json.sdk_spans_conform_partial`, `Otel.Otlp.Json.sdk_logs_conform_partial`, `Otel.Otlp.Json.traces_conform_violated`, `Otel.Otlp.Json.exemplar_conform_violated`, `Otel.Otlp.Json.sdk_metrics_conform_partial`, `Otel.Otlp.Json.traces_read_back_partial`, `Otel.Otlp.Json.logs_read_back_partial`, `Otel.Otlp.Json.metrics_read_back_partial`, `Otel.Otlp.Json.traces_agree_partial`, `Otel.Otlp.Json.logs_agree_partial`, `Otel.Otlp.Json.unset_read_back_violated`, `Otel.Otlp.Json.nan_read_back_violated`, `Otel.Otlp.Json.gauge_nan_violated`, `Otel.Otlp.Json.histogram_bound_violated`, `Otel.Otlp.Json.deep_read_back_violated`, `Otel.Otlp.Json.numeric_time_violated`, `Otel.Otlp.Json.canonical_int_violated`, `Otel.Otlp.Json.empty_array_read_violated`, `Otel.Prop.Http.http_get_setAll`, `Otel.Prop.Http.http_as_map`, `Otel.Prop.Http.w3c_byName`, `Otel.Prop.Http.baggage_byName`, `Otel.Prop.Http.b3_byName`, `Otel.Prop.Http.w3c_http_roundtrip_partial`, `Otel.Prop.Http.baggage_http_roundtrip_partial`, `Otel.Prop.Http.b3_http_roundtrip_partial`, `Otel.Prop.Http.http_tracestate_violated`, `Otel.Prop.Http.http_baggage_violated`, `Otel.Otlp.Exporter.export_result_partial`, `Otel.Otlp.Exporter.export_once`, `Otel.Otlp.Exporter.http_headers`, `Otel.Otlp.Exporter.metrics_status_violated`, `Otel.Otlp.Exporter.partial_success_violated`, `Otel.Otlp.Exporter.shutdown_stops_partial`, `Otel.Otlp.Exporter.span_shutdown_violated`, `Otel.Otlp.Exporter.log_grpc_shutdown_violated`, `Otel.Otlp.Exporter.metric_shutdown_error_violated`, `Otel.Sdk.Shared.shared_recording`, `Otel.Sdk.Shared.shared_once`, `Otel.Sdk.Shared.shared_ended`, `Otel.Sdk.Shared.shared_at_most_once`, `Otel.Sdk.Shared.in_span_partial`, `Otel.Glob.tracer_no_deadlock`, `Otel.Glob.meter_no_deadlock_partial`, `Otel.EndToEnd.chain_one_trace`, `Otel.EndToEnd.chain_linked`, `Otel.EndToEnd.chain_broken_violated`, `Otel.EndToEnd.spans_arrive_once`, `Otel.EndToEnd.flushed_spans_arrive_partial`, `Otel.EndToEnd.logs_arrive_once`, `Otel.EndToEnd.flushed_logs_arrive_partial`, `Otel.EndToEnd.flushed_spans_violated`, `Otel.EndToEnd.spans_arrive_in_protobuf`, `Otel.EndToEnd.flushed_spans_arrive_in_protobuf_partial`, `Otel.EndToEnd.logs_arrive_in_protobuf_partial`, `Otel.EndToEnd.flushed_logs_arrive_in_protobuf_partial`, `Otel.EndToEnd.counter_arrives_partial`, `Otel.EndToEnd.counter_set_arrives_partial`, `Otel.EndToEnd.counter_never_more`, `Otel.EndToEnd.counter_arrives_example`, `Otel.EndToEnd.counter_large_violated`, `Otel.EndToEnd.counter_failed_violated`, `Otel.EndToEnd.counter_arrives_in_protobuf_partial`, `Otel.EndToEnd.counter_never_more_in_protobuf`, `Otel.Memory.batch_spans_shown_partial`, `Otel.Memory.batch_logs_shown`, `Otel.Memory.logs_gone_violated`, `Otel.Memory.simple_spans_shown`, `Otel.Stdout.export_prints`, `Otel.Stdout.resource_once`, `Otel.Stdout.winner_stays`, `Otel.Stdout.resource_each_time`, `Otel.Stdout.after_shutdown`, `Otel.Stdout.only_exports_print`, `Otel.Stdout.buckets_printed`, `Otel.Stdout.span_fields_printed`, `Otel.Stdout.metric_fields_printed`, `Otel.Stdout.points_headed`, `Otel.Locks.calls_return_partial`, `Otel.Otlp.Proto.traces_decode_partial`, `Otel.Otlp.Proto.logs_decode_partial`, `Otel.Otlp.Proto.metrics_decode_partial`, `Otel.Otlp.Proto.sdk_spans_decode`, `Otel.Otlp.Proto.sdk_logs_decode_partial`, `Otel.Otlp.Proto.span_skips`, `Otel.Otlp.Proto.log_skips`, `Otel.Otlp.Proto.request_skips`, `Otel.Otlp.Proto.deep_body_unreadable`, `Otel.Otlp.Proto.deep_value_violated`, `Otel.Otlp.Proto.any_follows`, `Otel.Otlp.Proto.kv_follows`, `Otel.Otlp.Proto.scope_follows`, `Otel.Otlp.Proto.res_follows`, `Otel.Otlp.Proto.event_follows`, `Otel.Otlp.Proto.link_follows`, `Otel.Otlp.Proto.status_follows`, `Otel.Otlp.Proto.span_follows`, `Otel.Otlp.Proto.log_follows`, `Otel.Otlp.Proto.exemplar_follows`, `Otel.Otlp.Proto.numPoint_follows`, `Otel.Otlp.Proto.histPoint_follows`, `Otel.Otlp.Proto.buckets_follow`, `Otel.Otlp.Proto.expoPoint_follows`, `Otel.Otlp.Proto.gauge_follows`, `Otel.Otlp.Proto.sum_follows`, `Otel.Otlp.Proto.histogram_follows`, `Otel.Otlp.Proto.expo_follows`, `Otel.Otlp.Proto.metric_follows`, `Otel.Otlp.Proto.scopeItems_follow`, `Otel.Otlp.Proto.resourceItems_follow`, `Otel.Otlp.Proto.request_follows`, `Otel.Otlp.Proto.sdk_metrics_decode_partial`, `Otel.EndToEnd.traced_spans_arrive_once`, `Otel.EndToEnd.traced_spans_accounted_partial`, `Otel.EndToEnd.traced_spans_sampled_partial`, `Otel.EndToEnd.unsampled_trace_never_arrives`, `Otel.EndToEnd.traced_spans_in_protobuf`, `Otel.EndToEnd.traced_spans_all_in_protobuf_partial`, `Otel.EndToEnd.traced_example`, `Otel.EndToEnd.act_gives`, `Otel.EndToEnd.logged_arrive_once`, `Otel.EndToEnd.logged_accounted_partial`, `Otel.EndToEnd.logged_in_protobuf`, `Otel.EndToEnd.logged_all_in_protobuf_partial`, `Otel.EndToEnd.logged_example`, `Otel.EndToEnd.instrument_delta_partial`, `Otel.EndToEnd.instrument_cumulative_partial`, `Otel.EndToEnd.histogram_reads`, `Otel.EndToEnd.expo_reads`, `Otel.EndToEnd.counter_cumulative_increases`, `Otel.EndToEnd.instrument_cumulative_example`, `Otel.EndToEnd.instrument_delta_example`, `Otel.Metrics.Conc.delta_partition`, `Otel.Metrics.Conc.cumulative_within`, `Otel.Metrics.Conc.cumulative_grows`, `Otel.Metrics.Conc.cumulative_no_attributes`
