{"id": "C01", "title": "The current context is the most recently attached one that is still alive", "statement": "On one thread, after any sequence of Context::attach calls and ContextGuard drops, in any order (including out-of-order drops), Context::current() is the context whose guard was attached last among the guards not yet dropped, or the initial default context if none is alive.", "quantifier": "every finite history of attach / guard-drop operations on one thread, of any length, in which no attach finds the newest live guard in place 65534, where each attach takes the place after the newest live guard (beyond that see C02)", "why_tests_cant": "guards may be dropped in any permutation and interleaved with new attaches; position re-use after out-of-order drops makes the number of histories unbounded", "anchors": ["opentelemetry/src/context.rs: Context::attach, ContextGuard::drop, ContextStack::push, ContextStack::pop_id, Context::current"]}
{"id": "C02", "title": "Overflowing the context stack never corrupts it", "statement": "When the stack of attached contexts is full, attach has no effect on the current context, the guard it returns has no effect when dropped, and the contexts attached before stay correct: dropping them later restores the right context.", "quantifier": "every history of attach / drop operations, including those that exceed the 65535 position limit", "why_tests_cant": "needs more than 65 thousand live guards combined with arbitrary drop orders", "anchors": ["opentelemetry/src/context.rs: ContextStack::push, ContextStack::MAX_POS, ContextGuard::drop"]}
{"id": "C03", "title": "Context derivation is immutable and touches only what it says", "statement": "with_value(v) yields a context in which get of v's type returns v, get of every other type, the active span and the suppression flag are those of the original; with_span changes only the span; with_telemetry_suppressed changes only the flag. The original context is unaffected, for any chain of derivations.", "quantifier": "every finite chain of derivation operations and every key type", "why_tests_cant": "chains of derivations and the set of value types are unbounded", "anchors": ["opentelemetry/src/context.rs: Context::with_value, Context::get, Context::with_telemetry_suppressed, Context::current_with_synchronized_span"]}
{"id": "C04", "title": "A future polled with a context sees it during every poll and leaks it into none", "statement": "However polls of several futures wrapped by FutureExt::with_context are interleaved on a thread, the code inside each poll sees its own context as current, and after each poll the thread's current context is what it was before. A future may also attach contexts inside a poll: it then sees the newest one it has not dropped; if it drops all their guards before the poll ends, in any order, the thread's current context is what it was before, otherwise the newest one it keeps stays current after the poll.", "quantifier": "every interleaving (including nesting) of polls of any number of wrapped futures, everything these futures attach and drop inside the polls", "why_tests_cant": "executors may schedule polls in any order and nest them; a test fixes one schedule", "anchors": ["opentelemetry/src/context/future_ext.rs: WithContext::poll", "opentelemetry/src/context.rs: Context::attach"]}
{"id": "C05", "title": "Trace and span ids survive their textual and binary encodings", "statement": "from_hex(to_string(id)) = id and from_bytes(to_bytes(id)) = id for every id; the text has exactly 32 (16) lowercase hex digits, so distinct ids have distinct texts.", "quantifier": "every 128-bit trace id and every 64-bit span id", "why_tests_cant": "2^128 values; leading-zero, boundary and endianness errors hit only some", "anchors": ["opentelemetry/src/trace_context.rs: TraceId, SpanId (from_hex, from_bytes, to_bytes, Display)"]}
{"id": "C06", "title": "W3C trace context survives inject then extract", "statement": "Injecting a context with a valid span context into an empty carrier and extracting from it gives a remote span context with the same trace id, span id, sampled flag and trace state entries.", "quantifier": "every valid span context (all ids, all 256 flag values, every trace state that can be built through the public API)", "why_tests_cant": "unbounded trace states and 2^192 ids", "anchors": ["opentelemetry-sdk/src/propagation/trace_context.rs: TraceContextPropagator::inject_context, extract_span_context", "opentelemetry/src/trace/span_context.rs: TraceState"]}
{"id": "C07", "title": "W3C extraction is all-or-nothing and only yields well-formed contexts", "statement": "For every carrier content extraction terminates without panic; either it leaves the given context unchanged, or it sets a remote span context with non-zero ids and no flag other than sampled. It never accepts version 0xff, a version-0 header with a fifth field, uppercase ids, missing fields, or zero ids.", "quantifier": "every pair of header strings (arbitrary Unicode), every prior context", "why_tests_cant": "headers come from the network: the input space is all strings", "anchors": ["opentelemetry-sdk/src/propagation/trace_context.rs: extract_span_context, extract_with_context"]}
{"id": "C08", "title": "W3C extraction accepts only the grammar of the W3C recommendation", "statement": "A traceparent value accepted by extract matches the W3C grammar: 2HEXDIGLC - 32HEXDIGLC - 16HEXDIGLC - 2HEXDIGLC.", "quantifier": "every header string", "why_tests_cant": "all strings", "anchors": ["opentelemetry-sdk/src/propagation/trace_context.rs: extract_span_context", "opentelemetry/src/trace_context.rs: TraceId::from_hex, SpanId::from_hex"]}
{"id": "C09", "title": "TraceState behaves as an ordered map with most-recent-first insertion", "statement": "insert(k,v) succeeds exactly when k and v are valid; then get(k)=v, k is the first entry, other keys keep value and relative order. delete(k) makes get(k) return nothing and keeps the other entries. The receiver is unchanged.", "quantifier": "every trace state reachable by any sequence of from_key_value, from_str, insert, delete; every key and value", "why_tests_cant": "histories of operations over unbounded string keys", "anchors": ["opentelemetry/src/trace/span_context.rs: TraceState::insert, delete, get, from_key_value, FromStr"]}
{"id": "C10", "title": "Every entry of every TraceState is valid, and header/parse are inverse", "statement": "Any trace state built through the API has only entries with valid keys and values (length limits, allowed characters), and parsing its header gives back the same entries.", "quantifier": "every trace state reachable by any API history", "why_tests_cant": "unbounded histories and strings", "anchors": ["opentelemetry/src/trace/span_context.rs: TraceState::valid_key, valid_value, header, FromStr"]}
{"id": "C11", "title": "Baggage never exceeds its limits", "statement": "After any sequence of inserts and removes a Baggage has at most 64 entries, at most 8192 bytes of keys, values and metadata, and every key is a valid non-empty ASCII token.", "quantifier": "every history of insert, insert_with_metadata, remove and FromIterator construction", "why_tests_cant": "byte accounting over replacement and removal histories is unbounded", "anchors": ["opentelemetry/src/baggage.rs: Baggage::insert_with_metadata, remove, is_key_valid, key_value_metadata_bytes_size"]}
{"id": "C12", "title": "Baggage behaves as a map with capacity", "statement": "An insert of a valid key that fits the limits is visible through get and returns the previous value, other keys are unaffected; remove deletes exactly its key; an insert is rejected only if the resulting content would exceed a limit or the key is invalid.", "quantifier": "every history of insert / remove operations", "why_tests_cant": "depends on the whole history through the byte counter", "anchors": ["opentelemetry/src/baggage.rs: Baggage::insert_with_metadata, remove, get, get_with_metadata"]}
{"id": "C13", "title": "Baggage survives inject then extract", "statement": "Injecting a context with baggage and extracting from the carrier gives the same keys, values (and metadata).", "quantifier": "every baggage whose content is within the limits", "why_tests_cant": "arbitrary Unicode values interact with percent-encoding, separators and trimming", "anchors": ["opentelemetry-sdk/src/propagation/baggage.rs: BaggagePropagator::inject_context, extract_with_context"]}
{"id": "C14", "title": "Clearing baggage removes it", "statement": "ctx.with_cleared_baggage().baggage() is empty; ctx.with_baggage(b).baggage() is b.", "quantifier": "every context and every baggage", "why_tests_cant": "value types are looked up dynamically by type id", "anchors": ["opentelemetry/src/baggage.rs: BaggageExt::with_cleared_baggage, with_baggage, baggage"]}
{"id": "C15", "title": "B3 context survives inject then extract for each encoding", "statement": "For every valid span context and each configured B3 encoding, injecting then extracting with the same propagator gives the same trace id, span id and sampling state (accept, deny, defer, debug).", "quantifier": "every valid span context, every flags byte, all four encodings", "why_tests_cant": "2^192 ids times encodings and flag combinations", "anchors": ["opentelemetry-zipkin/src/propagator/mod.rs: Propagator::inject_context, extract_single_header, extract_multi_header"]}
{"id": "C16", "title": "Jaeger context survives inject then extract", "statement": "For every valid span context, injecting then extracting with the Jaeger propagator gives the same trace id, span id, sampled flag and debug state, for any custom header name.", "quantifier": "every valid span context", "why_tests_cant": "2^192 ids", "anchors": ["opentelemetry-jaeger-propagator/src/propagator.rs: Propagator::inject_context, extract_span_context"]}
{"id": "C17", "title": "Extracted contexts are valid", "statement": "B3 and Jaeger extraction, for any carrier content, either leave the context unchanged or set a remote span context with non-zero ids.", "quantifier": "every carrier content", "why_tests_cant": "all header strings", "anchors": ["opentelemetry-zipkin/src/propagator/mod.rs: extract_with_context", "opentelemetry-jaeger-propagator/src/propagator.rs: extract_with_context"]}
{"id": "C18", "title": "A propagator writes only the headers it announces", "statement": "Every header written by inject is listed by fields() of the same propagator, for each propagator and for composites; a composite writes exactly what its members write in order, later members winning, and extracts by folding members in order.", "quantifier": "every context, every propagator configuration, every nesting of composite propagators", "why_tests_cant": "contexts and compositions are unbounded", "anchors": ["opentelemetry/src/propagation/composite.rs: TextMapCompositePropagator", "opentelemetry-zipkin/src/propagator/mod.rs: fields", "opentelemetry-jaeger-propagator/src/propagator.rs: fields", "opentelemetry-sdk/src/propagation/trace_context.rs: fields"]}
{"id": "C19", "title": "Ratio sampling is a deterministic, monotone threshold on the trace id", "statement": "TraceIdRatioBased(p) decides from the trace id alone; ratio >= 1 samples everything, ratio <= 0 nothing; if it samples an id at ratio p it samples it at every larger ratio; the number of sampled 63-bit id suffixes is exactly floor(p*2^63).", "quantifier": "every trace id and every pair of ratios", "why_tests_cant": "2^128 ids times all ratios", "anchors": ["opentelemetry-sdk/src/trace/sampler.rs: sample_based_on_probability, Sampler::should_sample"]}
{"id": "C20", "title": "Parent-based sampling gives one decision per trace", "statement": "With a ParentBased sampler, all spans of a trace tree started locally under one root carry the same sampled flag as the root, and a span with a remote parent carries the parent's sampled flag.", "quantifier": "every tree of spans of any depth and width, every delegate sampler", "why_tests_cant": "needs induction over the tree", "anchors": ["opentelemetry-sdk/src/trace/sampler.rs: Sampler::should_sample", "opentelemetry-sdk/src/trace/tracer.rs: SdkTracer::build_with_context"]}
{"id": "C21", "title": "Spans are linked correctly into traces", "statement": "A span started under an active parent has the parent's trace id and records the parent's span id as parent; a span without parent has no parent id and the generator's (or builder's) trace id; its span id comes from the generator (or builder). Hence all spans of a local tree share the root's trace id.", "quantifier": "every builder, context, sampler and id generator; trees of any shape", "why_tests_cant": "induction over tree and all builder combinations", "anchors": ["opentelemetry-sdk/src/trace/tracer.rs: SdkTracer::build_with_context, build_recording_span"]}
{"id": "C22", "title": "Span limits keep the first items and count the rest", "statement": "For any history of span operations the exported span has at most the configured number of attributes, events, links (and attributes per event/link); it keeps exactly the earliest ones in order, and kept + dropped equals the number recorded.", "quantifier": "every builder content, every limit configuration and every history of set_attribute, add_event, add_link", "why_tests_cant": "unbounded histories", "anchors": ["opentelemetry-sdk/src/trace/tracer.rs: build_recording_span", "opentelemetry-sdk/src/trace/span.rs: set_attribute, add_event_with_timestamp, add_link"]}
{"id": "C23", "title": "A span is delivered exactly once, and is frozen at its end", "statement": "For every history of calls on a recording span that ends in drop, each span processor receives on_end exactly once, with the data as of the first end call; operations after end change nothing; the end time is that of the first end. A non-recording span delivers nothing.", "quantifier": "every history of operations, end calls and the final drop; any number of processors; shutdown at any point", "why_tests_cant": "unbounded histories", "anchors": ["opentelemetry-sdk/src/trace/span.rs: ensure_ended_and_exported, end_with_timestamp, Drop, with_data"]}
{"id": "C24", "title": "Span status: Ok is final, Error beats Unset, last call wins otherwise", "statement": "After any sequence of set_status calls the recorded status is Ok if some call set Ok, otherwise the last Error set, otherwise Unset.", "quantifier": "every sequence of set_status calls", "why_tests_cant": "unbounded sequences, arbitrary descriptions", "anchors": ["opentelemetry-sdk/src/trace/span.rs: set_status", "opentelemetry/src/trace/span.rs: Status"]}
{"id": "C25", "title": "Only sampled spans are exported", "statement": "A span whose context is not sampled never reaches an exporter, whichever processor is used.", "quantifier": "every span and sampler decision", "why_tests_cant": "custom samplers may return RecordOnly", "anchors": ["opentelemetry-sdk/src/trace/span_processor.rs: SimpleSpanProcessor::on_end, BatchSpanProcessor::on_end"]}
{"id": "C26", "title": "The batch span processor neither loses nor duplicates nor reorders accepted spans", "statement": "At every moment of every schedule, the spans accepted by on_end are exactly: those exported, followed by those still queued, in acceptance order; the rest are counted as dropped. Every exported batch is non-empty and has at most max_export_batch_size spans, the queue never exceeds max_queue_size.", "quantifier": "every interleaving of any number of producers, the worker, timer expiry, force_flush and shutdown callers", "why_tests_cant": "interleavings are unbounded", "anchors": ["opentelemetry-sdk/src/trace/span_processor.rs: BatchSpanProcessor::on_end, get_spans_and_export, worker loop"]}
{"id": "C27", "title": "force_flush and shutdown of the batch span processor export everything accepted before", "statement": "When force_flush (or shutdown) returns Ok, every span accepted before the call has been handed to the exporter.", "quantifier": "every schedule", "why_tests_cant": "depends on the queue content relative to the batch size at the moment of the call", "anchors": ["opentelemetry-sdk/src/trace/span_processor.rs: BatchSpanProcessor::force_flush, shutdown, get_spans_and_export"]}
{"id": "C28", "title": "After shutdown the batch span processor accepts and exports nothing, and shutdown is idempotent", "statement": "Once shutdown has been called on_end accepts nothing more; after shutdown has completed no export happens; the first shutdown caller gets the result and every later one gets AlreadyShutdown.", "quantifier": "every schedule of calls", "why_tests_cant": "races between callers", "anchors": ["opentelemetry-sdk/src/trace/span_processor.rs: BatchSpanProcessor::shutdown, on_end"]}
{"id": "C29", "title": "Tracer provider shutdown runs once and silences tracing", "statement": "Over any history the processors receive shutdown at most once in total; later shutdown calls return AlreadyShutdown; after it no processor receives on_end, new tracers and new spans record nothing.", "quantifier": "every history of shutdown / start / end calls by any number of handles", "why_tests_cant": "unbounded histories", "anchors": ["opentelemetry-sdk/src/trace/provider.rs: SdkTracerProvider::shutdown, tracer_with_scope, Drop", "opentelemetry-sdk/src/trace/tracer.rs: build_with_context"]}
{"id": "C30", "title": "Suppressed telemetry produces nothing", "statement": "While the current context has telemetry suppressed, starting a span gives a non-recording span that no processor sees, and emitting a log record reaches no processor; contexts derived from a suppressed one stay suppressed.", "quantifier": "every context, record, builder", "why_tests_cant": "all combinations", "anchors": ["opentelemetry-sdk/src/trace/tracer.rs: build_with_context", "opentelemetry-sdk/src/logs/logger.rs: emit, event_enabled", "opentelemetry/src/context.rs: is_telemetry_suppressed"]}
{"id": "C31", "title": "The log attribute array behaves as a list", "statement": "Attributes added to a log record are all kept and iterate in the order added, with duplicates, whatever their number relative to the inline capacity; index access agrees with iteration.", "quantifier": "every sequence of pushes, every inline capacity", "why_tests_cant": "crossing the inline capacity at any point", "anchors": ["opentelemetry-sdk/src/growable_array.rs: GrowableArray"]}
{"id": "C32", "title": "A log record reaches each processor once, in order, with trace correlation", "statement": "emit hands the record to every processor exactly once in registration order, each seeing the changes made by the earlier ones; an explicitly set trace context is kept, otherwise the active span's ids and flags are attached, and the observed timestamp is always set.", "quantifier": "every record, context and list of processors", "why_tests_cant": "any number of mutating processors", "anchors": ["opentelemetry-sdk/src/logs/logger.rs: SdkLogger::emit"]}
{"id": "C33", "title": "The batch log processor neither loses nor duplicates nor reorders accepted records", "statement": "At every moment of every schedule the records accepted by emit are exactly those exported followed by those queued, in acceptance order, and the others are counted as dropped; every exported batch is non-empty and at most max_export_batch_size.", "quantifier": "every interleaving of producers and worker", "why_tests_cant": "unbounded interleavings", "anchors": ["opentelemetry-sdk/src/logs/batch_log_processor.rs: emit, get_logs_and_export, worker loop"]}
{"id": "C34", "title": "force_flush and shutdown of the batch log processor export everything emitted before", "statement": "Every record whose emit returned (accepted) before force_flush / shutdown was called has been handed to the exporter when it returns, and the call does return.", "quantifier": "every schedule, any number of concurrent producers", "why_tests_cant": "needs particular interleavings of try_send and the counter update", "anchors": ["opentelemetry-sdk/src/logs/batch_log_processor.rs: force_flush, shutdown, get_logs_and_export"]}
{"id": "C35", "title": "Logger provider shutdown runs once and silences logging", "statement": "Processors receive shutdown at most once; later calls return AlreadyShutdown; loggers obtained afterwards emit nothing.", "quantifier": "every history", "why_tests_cant": "unbounded histories", "anchors": ["opentelemetry-sdk/src/logs/logger_provider.rs: shutdown, logger_with_scope, Drop"]}
{"id": "C36", "title": "A counter reports per attribute set exactly the sum of what was recorded", "statement": "Below the cardinality limit, the collected value for an attribute set is the sum of all measurements recorded with that set, irrespective of the order in which attributes were given; sets never measured are not reported.", "quantifier": "every sequence of measurements with any attribute lists", "why_tests_cant": "unbounded histories and attribute permutations", "anchors": ["opentelemetry-sdk/src/metrics/internal/mod.rs: ValueMap::measure, collect_readonly, collect_and_reset, sort_and_dedup", "opentelemetry-sdk/src/metrics/internal/sum.rs"]}
{"id": "C37", "title": "The cardinality limit bounds the output and loses no value", "statement": "However many distinct attribute sets are measured, at most limit distinct non-empty sets plus one overflow point plus one no-attribute point are reported; measurements of sets beyond the limit all go to the overflow point, so the grand total is preserved; sets admitted earlier keep their exact values.", "quantifier": "every sequence of measurements, every limit", "why_tests_cant": "unbounded histories", "anchors": ["opentelemetry-sdk/src/metrics/internal/mod.rs: ValueMap::measure, is_under_cardinality_limit"]}
{"id": "C38", "title": "Nothing is lost or counted twice between measurements and collections", "statement": "For every interleaving of concurrent measurements and collections, the delta values collected plus what is still in the aggregator add up to everything recorded; a cumulative reader sees the running total, and the sum of all deltas equals the cumulative value.", "quantifier": "every interleaving of any number of recording threads and a collector, at the granularity of lock sections and atomics", "why_tests_cant": "interleavings are unbounded", "anchors": ["opentelemetry-sdk/src/metrics/internal/mod.rs: ValueMap::measure, collect_and_reset", "opentelemetry-sdk/src/metrics/internal/sum.rs: Sum::delta, Sum::cumulative"]}
{"id": "C39", "title": "Concurrent additions to one data point are never lost", "statement": "For any number of threads adding to the same float data point and a collector resetting it, in any interleaving of their loads and compare-exchanges, the final value plus all values taken out by resets is the sum of completed additions.", "quantifier": "every interleaving of atomic steps", "why_tests_cant": "unbounded interleavings of CAS loops", "anchors": ["opentelemetry-sdk/src/metrics/internal/mod.rs: F64AtomicTracker::add, get_and_reset_value"]}
{"id": "C40", "title": "Explicit-bucket histograms count every value once, in the right bucket", "statement": "count equals the number of measurements and the sum of the bucket counts; bucket i counts exactly the values in (bound[i-1], bound[i]]; sum, min and max are those of the measurements.", "quantifier": "every list of measurements and every strictly increasing boundary list", "why_tests_cant": "all values times all boundary lists", "anchors": ["opentelemetry-sdk/src/metrics/internal/histogram.rs: Buckets, Histogram::call"]}
{"id": "C41", "title": "Exponential histograms stay within their size and keep every count", "statement": "After any measurements each side has at most max_size buckets, the scale never increases and stays in [-10,20], and zero_count + positive + negative counts equal the count of measurements; each recorded value is in the bucket whose boundaries contain it at the reported scale.", "quantifier": "every sequence of finite measurements, every max_size and initial scale", "why_tests_cant": "rescaling histories are unbounded", "anchors": ["opentelemetry-sdk/src/metrics/internal/exponential_histogram.rs: ExpoHistogramDataPoint::record, get_bin, scale_change, ExpoBuckets::record, downscale"]}
{"id": "C42", "title": "Gauges report the last value recorded", "statement": "For each attribute set the collected gauge value is the last measurement recorded for the set; a delta collection reports only sets measured since the previous collection.", "quantifier": "every history of measurements and collections", "why_tests_cant": "unbounded histories", "anchors": ["opentelemetry-sdk/src/metrics/internal/last_value.rs", "opentelemetry-sdk/src/metrics/internal/mod.rs: ValueMap"]}
{"id": "C43", "title": "Observable counters report correct deltas", "statement": "With delta temporality, the value reported for an attribute set is the difference between the value observed now and the value observed at the previous collection (0 if none).", "quantifier": "every history of observations and collections", "why_tests_cant": "unbounded histories and attribute orders", "anchors": ["opentelemetry-sdk/src/metrics/internal/precomputed_sum.rs: PrecomputedSum::delta"]}
{"id": "C44", "title": "Collection intervals tile time", "statement": "Delta collections have consecutive intervals: each start time equals the previous end time; cumulative collections keep the start time of creation.", "quantifier": "every sequence of collections", "why_tests_cant": "unbounded sequences", "anchors": ["opentelemetry-sdk/src/metrics/internal/aggregate.rs: AggregateTimeInitiator"]}
{"id": "C45", "title": "Collected output does not depend on the reused buffer", "statement": "Collecting into a ResourceMetrics that already holds data of an earlier collection gives the same scopes, metrics and points as collecting into an empty one.", "quantifier": "every earlier buffer content and every set of registered instruments", "why_tests_cant": "buffer contents are arbitrary", "anchors": ["opentelemetry-sdk/src/metrics/pipeline.rs: Pipeline::produce", "opentelemetry-sdk/src/metrics/internal/sum.rs (dest reuse)"]}
{"id": "C46", "title": "Instrument names and units are accepted exactly per the specification", "statement": "A name is accepted iff it is non-empty, at most 255 bytes, starts with an ASCII letter and otherwise has only letters, digits, '_', '.', '-', '/'; a unit iff it is ASCII and at most 63 characters. Instruments with invalid names do nothing.", "quantifier": "every string", "why_tests_cant": "all strings", "anchors": ["opentelemetry-sdk/src/metrics/meter.rs: validate_instrument_name, validate_instrument_unit"]}
{"id": "C47", "title": "Instruments are identified case-insensitively and once", "statement": "Two instruments that resolve to the same stream (same scope, name up to ASCII case, description, unit, kind, number type) share one aggregation; a view that matches replaces the default stream; each instrument yields one stream per matching view and exactly one when none matches.", "quantifier": "every sequence of instrument creations and every list of views", "why_tests_cant": "unbounded sequences", "anchors": ["opentelemetry-sdk/src/metrics/pipeline.rs: Inserter::instrument, cached_aggregator", "opentelemetry-sdk/src/metrics/instrument.rs: InstrumentId::normalize", "opentelemetry-sdk/src/metrics/view.rs: new_view"]}
{"id": "C48", "title": "The periodic reader answers every caller and never exports after shutting the exporter down", "statement": "In every schedule the exporter is shut down at most once and nothing is exported after; a flush answered Ok exported everything recorded before it; every flush / shutdown request is answered or its caller gets an error, never waits forever.", "quantifier": "every interleaving of ticks, flush and shutdown requests", "why_tests_cant": "unbounded schedules", "anchors": ["opentelemetry-sdk/src/metrics/periodic_reader.rs: PeriodicReader worker loop, force_flush, shutdown"]}
{"id": "C49", "title": "Meter provider and manual reader shutdown is final", "statement": "Only the first shutdown reaches the readers, later ones get AlreadyShutdown, instruments created later are no-ops, and collect after shutdown returns an error.", "quantifier": "every history", "why_tests_cant": "unbounded histories", "anchors": ["opentelemetry-sdk/src/metrics/meter_provider.rs", "opentelemetry-sdk/src/metrics/manual_reader.rs"]}
{"id": "C50", "title": "Resource merging is right-biased union", "statement": "merge keeps every attribute of both sides, the argument's value winning on conflicts; it is associative and has the empty resource as neutral element; the schema url is kept when one side has none or both agree, otherwise dropped.", "quantifier": "all pairs and triples of resources", "why_tests_cant": "unbounded attribute sets", "anchors": ["opentelemetry-sdk/src/resource/mod.rs: Resource::merge, from_schema_url, new"]}
{"id": "C51", "title": "Resource detection follows the documented precedence", "statement": "service.name is OTEL_SERVICE_NAME if set, else the one from OTEL_RESOURCE_ATTRIBUTES, else unknown_service; programmatic attributes override detected ones; every well-formed key=value pair of OTEL_RESOURCE_ATTRIBUTES becomes an attribute, the last occurrence winning.", "quantifier": "every environment and builder call sequence", "why_tests_cant": "all environment strings", "anchors": ["opentelemetry-sdk/src/resource/env.rs", "opentelemetry-sdk/src/resource/mod.rs: Resource::builder, ResourceBuilder"]}
{"id": "C52", "title": "Batch configuration is always consistent", "statement": "Whatever the environment and the builder calls, the batch size used is at most the queue size; unparsable environment values are ignored; programmatic values win over the environment.", "quantifier": "every environment and builder call sequence", "why_tests_cant": "all strings and call orders", "anchors": ["opentelemetry-sdk/src/trace/span_processor.rs: BatchConfigBuilder", "opentelemetry-sdk/src/logs/batch_log_processor.rs: BatchConfigBuilder"]}
{"id": "C53", "title": "OTLP export contains every span and log record exactly once", "statement": "Grouping a batch by scope yields each item exactly once, items of one scope stay in order and in one group, and the group carries that scope's identity (name, version, attributes, schema url).", "quantifier": "every batch and every hash map iteration order", "why_tests_cant": "unbounded batches", "anchors": ["opentelemetry-proto/src/transform/trace.rs: group_spans_by_resource_and_scope", "opentelemetry-proto/src/transform/logs.rs: group_logs_by_resource_and_scope"]}
{"id": "C54", "title": "OTLP conversion preserves values", "statement": "Attribute values, ids, flags, status, kind, timestamps and metric numbers are represented faithfully in the protobuf messages: distinct inputs have distinct encodings.", "quantifier": "every value", "why_tests_cant": "recursive values, 64-bit ranges", "anchors": ["opentelemetry-proto/src/transform/common.rs", "opentelemetry-proto/src/transform/trace.rs", "opentelemetry-proto/src/transform/metrics.rs", "opentelemetry-proto/src/transform/logs.rs"]}
{"id": "C55", "title": "OTLP configuration precedence", "statement": "Endpoint, timeout and compression come from code, else the signal-specific variable, else the general one, else the default; the HTTP signal path is appended to the general endpoint with exactly one slash and never to a signal-specific one.", "quantifier": "every environment and builder configuration", "why_tests_cant": "all strings", "anchors": ["opentelemetry-otlp/src/exporter/http/mod.rs: resolve_http_endpoint, build_endpoint_uri", "opentelemetry-otlp/src/exporter/mod.rs: resolve_timeout", "opentelemetry-otlp/src/exporter/tonic/mod.rs: resolve_endpoint, resolve_compression"]}
{"id": "C56", "title": "OTLP header strings are decoded correctly", "statement": "For every list of key/value pairs, percent-encoding the values and joining them with commas yields a header string from which the parser recovers exactly the pairs.", "quantifier": "every list of headers", "why_tests_cant": "all strings", "anchors": ["opentelemetry-otlp/src/exporter/mod.rs: parse_header_string, url_decode, parse_header_key_value_string"]}
{"id": "C57", "title": "The rate-limiting sampler never exceeds its rate and recovers", "statement": "Over any period with a non-decreasing clock the number of traces sampled is at most bucket size + rate * elapsed seconds; and as long as requests keep coming, the sampler keeps sampling at about its rate.", "quantifier": "every sequence of request times", "why_tests_cant": "timing sequences are unbounded", "anchors": ["opentelemetry-sdk/src/trace/sampler/jaeger_remote/rate_limit.rs: LeakyBucket::check_availability"]}
{"id": "C58", "title": "An invalid remote sampling strategy keeps the previous one", "statement": "When the remote endpoint returns no usable strategy, the sampler continues with the previous strategy; a valid response replaces it.", "quantifier": "every sequence of responses", "why_tests_cant": "unbounded sequences", "anchors": ["opentelemetry-sdk/src/trace/sampler/jaeger_remote/sampling_strategy.rs: Inner::update, init_strategy"]}
{"id": "C59", "title": "Scope and attribute equality agree with hashing", "statement": "Instrumentation scopes that differ only in the order of their (distinct-key) attributes are equal and hash equally; equality is an equivalence; equal attributes have equal hashes.", "quantifier": "every pair of scopes / attributes", "why_tests_cant": "all permutations and values", "anchors": ["opentelemetry/src/common.rs: InstrumentationScope PartialEq/Hash, KeyValue PartialEq/Eq/Hash"]}
{"id": "C60", "title": "Prometheus names are legal", "statement": "sanitize_name yields a string matching [a-zA-Z_:][a-zA-Z0-9_:]* for every non-empty input and leaves legal names unchanged; sanitized label characters are legal.", "quantifier": "every string", "why_tests_cant": "all Unicode strings", "anchors": ["opentelemetry-prometheus/src/utils.rs: sanitize_name, sanitize_prom_kv"]}
{"id": "C61", "title": "Zipkin export keeps identity and tags", "statement": "The exported span carries the same ids as hex text, its tags are the last value given for each attribute key plus the scope and status tags, 'error' only from an error status, and the duration is never negative.", "quantifier": "every span", "why_tests_cant": "unbounded attribute lists", "anchors": ["opentelemetry-zipkin/src/exporter/model/mod.rs: into_zipkin_span, map_from_kvs"]}
{"id": "C62", "title": "The current context can be used from every callback", "statement": "Code that the library calls back - span processors, samplers, and whatever runs when a context is destroyed - may read the current context and attach another one without a panic.", "quantifier": "every nesting of reads, attaches, guard drops and callbacks", "why_tests_cant": "unbounded nesting", "anchors": ["opentelemetry/src/context.rs: Context::map_current, ContextGuard::drop, ContextStack::pop_id", "opentelemetry/src/trace/tracer.rs: Tracer::start, Tracer::build"]}
{"id": "C63", "title": "Recorded spans have valid identifiers", "statement": "Every span that is recorded has a non-zero trace id and a non-zero span id, provided the id generator never yields zero.", "quantifier": "every parent context, builder and sampler", "why_tests_cant": "all combinations of contexts and suppression", "anchors": ["opentelemetry-sdk/src/trace/tracer.rs: build_with_context"]}
{"id": "C64", "title": "Start and end notifications pair up", "statement": "Each processor is told the start of a span at most once, and it is told the start of exactly those spans whose end it will be told.", "quantifier": "every span, sampler decision and set of processors", "why_tests_cant": "all samplers and histories", "anchors": ["opentelemetry-sdk/src/trace/tracer.rs: build_with_context", "opentelemetry-sdk/src/trace/span.rs: ensure_ended_and_exported"]}
{"id": "C65", "title": "The batch span processor asks for an export exactly when a batch is full", "statement": "The counter that triggers exports by size equals the number of queued spans whenever nothing is in progress, and updating it never overflows or panics.", "quantifier": "every schedule of producers and worker", "why_tests_cant": "races between channel and counter", "anchors": ["opentelemetry-sdk/src/trace/span_processor.rs: BatchSpanProcessor::on_end, get_spans_and_export"]}
{"id": "C66", "title": "Ok from force_flush or shutdown of the batch log processor means its exports succeeded", "statement": "When force_flush or shutdown of the batch log processor returns Ok, every export made for that call was accepted by the exporter; when it reports an export failure, an export did fail.", "quantifier": "every schedule and every sequence of exporter answers", "why_tests_cant": "needs several batches per flush with mixed results", "anchors": ["opentelemetry-sdk/src/logs/batch_log_processor.rs: force_flush, shutdown, get_logs_and_export"]}
{"id": "C67", "title": "Logging done by an exporter is not fed back into it", "statement": "When an exporter emits log records through the same logger while it exports, exactly the original record is exported and the call returns.", "quantifier": "every exporter behaviour, any number of records emitted while exporting", "why_tests_cant": "unbounded recursion", "anchors": ["opentelemetry-sdk/src/logs/simple_log_processor.rs: emit", "opentelemetry-sdk/src/logs/concurrent_log_processor.rs: emit", "opentelemetry-sdk/src/logs/logger.rs: emit"]}
{"id": "C68", "title": "The simple log processor exports each record once and nothing after shutdown", "statement": "Every record given to the simple log processor is exported exactly once, alone, unless the processor was shut down, and the exporter receives nothing after its own shutdown.", "quantifier": "every interleaving of emits and shutdowns", "why_tests_cant": "interleavings of the flag check and the export", "anchors": ["opentelemetry-sdk/src/logs/simple_log_processor.rs: emit, shutdown"]}
{"id": "C69", "title": "Reported attributes are the attributes measured, in canonical form", "statement": "Every data point of a collection carries attributes with which some measurement since the last reset was made, or their sorted form without duplicate keys, or the overflow attribute; and no data point carries two values for one key.", "quantifier": "every sequence of measurements, with attributes in any order and with repeated keys, and every collection", "why_tests_cant": "the attribute lists and their permutations are unbounded", "anchors": ["opentelemetry-sdk/src/metrics/internal/mod.rs: ValueMap::measure, AttributeSet, STREAM_OVERFLOW_ATTRIBUTES"]}
{"id": "C70", "title": "A view selects exactly the instruments its criteria describe", "statement": "A view made from criteria and a mask selects an instrument exactly if every field set in the criteria has the same value in the instrument (the name up to wildcards), and gives it a stream with the mask's fields where set and the instrument's elsewhere; a view without criteria, with an invalid aggregation, or that would give many instruments one name selects nothing.", "quantifier": "every criteria, mask and instrument", "why_tests_cant": "all combinations of set and unset fields", "anchors": ["opentelemetry-sdk/src/metrics/view.rs: new_view", "opentelemetry-sdk/src/metrics/instrument.rs: Instrument::matches*, is_empty", "opentelemetry-sdk/src/metrics/aggregation.rs: Aggregation::validate"]}
{"id": "C71", "title": "The periodic reader keeps its cadence", "statement": "Without flushes, collections begin one interval apart (or back to back if an export takes longer); a flush never postpones the next periodic collection beyond one interval after the last periodic export unless the flush itself lasts longer; no sequence of durations makes the worker's time arithmetic panic; the interval is the one set by the program, else by the environment, else 60 seconds.", "quantifier": "every sequence of waits, flushes and export durations; every environment and builder call sequence", "why_tests_cant": "unbounded sequences of real durations, and timing is not reproducible in a test", "anchors": ["opentelemetry-sdk/src/metrics/periodic_reader.rs: PeriodicReader::new worker loop, PeriodicReaderBuilder"]}
{"id": "C72", "title": "Sampler and span limits follow the environment and the builder", "statement": "The six standard sampler names select what they say, an unusable ratio means 1, anything else means the default sampler; each span limit is the last value set by the program, else the number in its environment variable, else 128.", "quantifier": "every environment and builder call sequence", "why_tests_cant": "all strings and call orders", "anchors": ["opentelemetry-sdk/src/trace/config.rs: Config::default", "opentelemetry-sdk/src/trace/provider.rs: TracerProviderBuilder"]}
{"id": "C73", "title": "A Prometheus scrape is complete and consistent", "statement": "In all scrapes of an exporter a metric name has one type and one help text. Every data point of an accepted metric is written once with its number; its labels hold every attribute value, one label for each sanitized key, and the scope's name and version. Histogram buckets are cumulative and never decrease.", "quantifier": "every sequence of scrapes, instruments, attribute sets, resources and exporter settings", "why_tests_cant": "collisions between sanitized names and keys over unbounded histories", "anchors": ["opentelemetry-prometheus/src/lib.rs: Collector::collect, get_attrs, validate_metrics, add_histogram_metric"]}
{"id": "C74", "title": "A view's allowed attribute keys decide the data points and lose no measurement", "statement": "With a view that allows only some attribute keys, each data point carries only allowed keys (but for the overflow point), measurements that agree on the allowed keys share one data point and the points' values add up to all measurements, as without the view.", "quantifier": "every set of allowed keys and every sequence of measurements and collections", "why_tests_cant": "all attribute sets, orders and limits", "anchors": ["opentelemetry-sdk/src/metrics/internal/aggregate.rs: AttributeSetFilter", "opentelemetry-sdk/src/metrics/pipeline.rs: Inserter::cached_aggregator"]}
{"id": "C75", "title": "A reader of an observable instrument reports the observations of its own collections", "statement": "With several readers attached, what a reader reports for an observable instrument depends only on the observations its own collections made: each observed set once, with the last value observed.", "quantifier": "every interleaving of collections by any number of readers", "why_tests_cant": "all interleavings of readers and observations", "anchors": ["opentelemetry-sdk/src/metrics/pipeline.rs: Pipeline::produce", "opentelemetry-sdk/src/metrics/internal/precomputed_sum.rs: PrecomputedSum"]}
{"id": "C76", "title": "Batch processors on an async runtime deliver what they accept, in order and in bounded batches", "statement": "The processor on an async runtime passes to the exporter exactly the items it accepted, each once and in the order accepted, until it is shut down; a batch is never larger than the configured size and exports never overlap; at most the queue plus one batch is held; every item that is refused is counted as dropped; a timer tick exports what is held.", "quantifier": "every interleaving of emitting threads, ticks, flushes, shutdown and export completions", "why_tests_cant": "all schedules of the worker task against the callers", "anchors": ["opentelemetry-sdk/src/trace/span_processor_with_async_runtime.rs: BatchSpanProcessor", "opentelemetry-sdk/src/logs/log_processor_with_async_runtime.rs: BatchLogProcessor"]}
{"id": "C77", "title": "force_flush and shutdown of the async batch processors answer for what was emitted before", "statement": "A force_flush or shutdown call that was queued returns exactly once; when it returns Ok, everything accepted before it was called has been handed to the exporter and no export failed; after shutdown nothing more is exported and the exporter has been shut down once.", "quantifier": "every interleaving of emitting threads, ticks, flushes, shutdown and export completions", "why_tests_cant": "all schedules of the worker task against the callers", "anchors": ["opentelemetry-sdk/src/trace/span_processor_with_async_runtime.rs: BatchSpanProcessor::force_flush, shutdown", "opentelemetry-sdk/src/logs/log_processor_with_async_runtime.rs: BatchLogProcessor::force_flush, shutdown"]}
{"id": "C78", "title": "Each instrument is aggregated as its kind and its stream ask", "statement": "Every stream that is collected was asked for by an instrument: it carries the name, description, unit, allowed keys and cardinality limit (or 2000) of the instrument or of the view, the temporality the reader prefers for the kind, and the aggregation asked for or else the one the specification gives the kind: monotonic sums for counters, non-monotonic sums for up-down counters, reported totals for observable ones, the last value for gauges, the default buckets for histograms; no sum is kept in a histogram of values that may be negative.", "quantifier": "every sequence of instrument creations, every list of views", "why_tests_cant": "all combinations of kinds, views, aggregations and creation orders", "anchors": ["opentelemetry-sdk/src/metrics/pipeline.rs: Inserter::cached_aggregator, aggregate_fn, default_aggregation_selector, is_aggregator_compatible"]}
{"id": "C79", "title": "The periodic reader on an async runtime hands over every measurement once and answers its callers", "statement": "With delta temporality each measurement is in at most one export and none is skipped; with cumulative temporality every export starts at the first measurement. When force_flush or shutdown returns Ok, what was recorded before the call was exported successfully. Every call returns, once. The exporter is shut down once, after its last export, and later calls get AlreadyShutdown.", "quantifier": "every interleaving of measurements, ticks, flushes, shutdowns, export outcomes, registration and the end of the task", "why_tests_cant": "all schedules of the task against the callers", "anchors": ["opentelemetry-sdk/src/metrics/periodic_reader_with_async_runtime.rs: PeriodicReader, PeriodicReaderWorker"]}
{"id": "C80", "title": "A tracing event becomes one log record that says what the event said", "statement": "An event that the processors want, outside a suppressed context, reaches every processor exactly once as a record with the event's target, name and severity, its message as the body and every other field as an attribute, in order; an integer is kept as an integer if it fits i64 and as its decimal text otherwise; the source location and the ids of the tracing span are added when those features are on. An event nobody wants, or in a suppressed context, reaches no processor.", "quantifier": "every event, field list, feature combination, processor list and context", "why_tests_cant": "all field lists, types and values", "anchors": ["opentelemetry-appender-tracing/src/layer.rs: OpenTelemetryTracingBridge::on_event, EventVisitor, severity_of_level"]}
{"id": "C81", "title": "A record of the log crate becomes one log record that says what it said", "statement": "A record that the processors want, outside a suppressed context, reaches every processor exactly once with its target, severity and message, and with every key-value that has a value as an attribute, in order and duplicates included; enabled says false only if the record would reach nobody.", "quantifier": "every record, key-value list, feature combination, processor list and context", "why_tests_cant": "all records and values", "anchors": ["opentelemetry-appender-log/src/lib.rs: OpenTelemetryLogBridge, log_attributes, any_value (without serde)"]}
{"id": "C82", "title": "A structured value logged through serde keeps its structure", "statement": "Converting a serialisable value to an attribute value keeps what stands at every path through lists, maps, structs, tuples and variants: no number or text is changed, nothing present is lost and nothing is added; integers that do not fit i64 are their decimal text, unit and None are left out, and among entries with equal keys the last one counts. A value becomes no attribute exactly if it is absent or something inside it fails to serialise.", "quantifier": "every value of serde's data model, nested to any depth", "why_tests_cant": "values nest without bound", "anchors": ["opentelemetry-appender-log/src/lib.rs: any_value (with-serde), ValueSerializer"]}
{"id": "C83", "title": "OTLP as JSON is what the OTLP specification says", "statement": "For every batch of spans, log records or metrics, the JSON document an exporter sends with the http/json protocol is one that a receiver conforming to the OTLP JSON encoding reads as exactly this request: every span, record and data point once, with every field, id, time, attribute and nested value.", "quantifier": "all requests, with all values of all fields and attribute values nested to any depth", "why_tests_cant": "tests compare one document with a fixed text; the fields, the nesting and the doubles range over infinite sets", "anchors": ["opentelemetry-proto/src/proto.rs serializers", "opentelemetry-proto/src/proto/tonic/opentelemetry.proto.trace.v1.rs", "opentelemetry-proto/src/proto/tonic/opentelemetry.proto.logs.v1.rs", "opentelemetry-proto/src/proto/tonic/opentelemetry.proto.metrics.v1.rs", "opentelemetry-proto/src/proto/tonic/opentelemetry.proto.common.v1.rs", "opentelemetry-otlp/src/exporter/http/mod.rs build_trace_export_body"]}
{"id": "C84", "title": "OTLP documents in JSON are read back as written, and standard documents as the standard says", "statement": "Reading with the crate the JSON that it wrote for a request gives this request again. Reading a document of any other sender that conforms to the OTLP JSON encoding gives the request the document stands for.", "quantifier": "all requests, and all conforming documents", "why_tests_cant": "tests read a few documents; forms of numbers, missing fields and nesting are endless", "anchors": ["opentelemetry-proto/src/proto.rs deserializers", "opentelemetry-proto/src/proto/tonic/opentelemetry.proto.trace.v1.rs", "opentelemetry-proto/src/proto/tonic/opentelemetry.proto.logs.v1.rs", "opentelemetry-proto/src/proto/tonic/opentelemetry.proto.metrics.v1.rs", "opentelemetry-proto/src/proto/tonic/opentelemetry.proto.common.v1.rs"]}
{"id": "C85", "title": "What a propagator writes into HTTP headers, the receiver reads from them", "statement": "When a propagator injects into the headers of an HTTP request, whatever headers the request has already, extraction from these headers at the receiver gives what extraction from a plain string map would give: the same span context with its trace state, the same baggage, the same B3 context. Header names are compared without case, and an injected header replaces all earlier values of its name.", "quantifier": "all contexts, all earlier headers including repeated and binary ones, all propagators that look headers up by name", "why_tests_cant": "tests set and read one header; contexts, baggage and earlier headers are unbounded", "anchors": ["opentelemetry-http/src/lib.rs HeaderInjector", "opentelemetry-http/src/lib.rs HeaderExtractor", "opentelemetry-sdk/src/propagation/trace_context.rs", "opentelemetry-sdk/src/propagation/baggage.rs", "opentelemetry-zipkin/src/propagator/mod.rs"]}
{"id": "C86", "title": "The result of an OTLP export tells whether the collector took the batch", "statement": "An export through the OTLP exporter of any signal, over HTTP or gRPC, returns success exactly if one request with the whole batch and the current resource was sent and the collector answered that it took it. No batch is sent twice, and every request over HTTP has the configured headers and the content type of its body.", "quantifier": "all histories of calls of an exporter, all batches, all answers of the collector, all HTTP clients", "why_tests_cant": "a test plays a few answers to one call; histories, status codes and clients multiply", "anchors": ["opentelemetry-otlp/src/span.rs SpanExporter", "opentelemetry-otlp/src/logs.rs LogExporter", "opentelemetry-otlp/src/metric.rs MetricExporter", "opentelemetry-otlp/src/exporter/http/trace.rs", "opentelemetry-otlp/src/exporter/http/logs.rs", "opentelemetry-otlp/src/exporter/http/metrics.rs", "opentelemetry-otlp/src/exporter/tonic/trace.rs", "opentelemetry-otlp/src/exporter/tonic/logs.rs", "opentelemetry-otlp/src/exporter/tonic/metrics.rs", "opentelemetry-http/src/lib.rs HttpClient"]}
{"id": "C87", "title": "An OTLP exporter that was shut down sends nothing", "statement": "After shutdown of an OTLP exporter, every export returns the error that the exporter is shut down, and sends nothing.", "quantifier": "all histories of calls around the shutdown, all signals and transports", "why_tests_cant": "a test calls export once after shutdown for one signal", "anchors": ["opentelemetry-otlp/src/span.rs SpanExporter", "opentelemetry-otlp/src/logs.rs LogExporter", "opentelemetry-otlp/src/metric.rs MetricExporter", "opentelemetry-otlp/src/exporter/http/trace.rs", "opentelemetry-otlp/src/exporter/http/logs.rs", "opentelemetry-otlp/src/exporter/http/metrics.rs", "opentelemetry-otlp/src/exporter/tonic/trace.rs", "opentelemetry-otlp/src/exporter/tonic/logs.rs", "opentelemetry-otlp/src/exporter/tonic/metrics.rs", "opentelemetry-http/src/lib.rs HttpClient"]}
{"id": "C88", "title": "A span in a context is reported once, with what all threads recorded on it", "statement": "A span that was put into a context can be used by every thread that has a copy of the context. It is ended by the first end call of any thread, or when the last copy is dropped, and then every processor receives it exactly once, with the edits all threads made before and no later ones. in_span ends its span before it returns or unwinds.", "quantifier": "all executions of any number of threads, all interleavings of their calls and of drops of contexts", "why_tests_cant": "a test sees one schedule of a few threads", "anchors": ["opentelemetry/src/trace/context.rs SpanRef", "opentelemetry/src/trace/context.rs SynchronizedSpan", "opentelemetry/src/trace/context.rs TraceContextExt", "opentelemetry/src/trace/tracer.rs Tracer::in_span", "opentelemetry/src/global/trace.rs BoxedSpan", "opentelemetry-sdk/src/trace/span.rs Span"]}
{"id": "C89", "title": "The globals give what was set last, and using them never blocks for ever", "statement": "global::tracer_provider, meter_provider and get_text_map_propagator give what the last set call of any thread installed, or the no-op default if there was none, and no call of the global API waits for ever, whatever the installed providers do when they are dropped or used.", "quantifier": "all sequences of global calls of any number of threads, all interleavings, all providers", "why_tests_cant": "a test calls the setters in one order and its providers do not use the globals themselves", "anchors": ["opentelemetry/src/global/trace.rs set_tracer_provider", "opentelemetry/src/global/trace.rs tracer_provider", "opentelemetry/src/global/metrics.rs set_meter_provider", "opentelemetry/src/global/metrics.rs meter_provider", "opentelemetry/src/global/propagation.rs set_text_map_propagator", "opentelemetry/src/global/propagation.rs get_text_map_propagator"]}
{"id": "C90", "title": "A request keeps its trace through every service it passes", "statement": "A request starts in a valid span context. It passes through any number of services. Each extracts the W3C headers, starts any number of nested spans with or without an SDK, and injects the innermost. The last receiver gets a valid remote span context with the trace id, the sampling decision and the trace state of the origin, and the first span of each service has the span that sent the request as its parent.", "quantifier": "all valid origins, all chains of services of any length, all nestings of spans, all parent-based samplers, all other headers", "why_tests_cant": "a test makes one or two hops with a chosen configuration", "anchors": ["opentelemetry-sdk/src/propagation/trace_context.rs TraceContextPropagator", "opentelemetry-sdk/src/trace/tracer.rs SdkTracer", "opentelemetry-sdk/src/trace/sampler.rs Sampler::ParentBased", "opentelemetry/src/trace/noop.rs NoopTracer"]}
{"id": "C91", "title": "What a batch processor accepts arrives at the collector exactly once and unchanged", "statement": "With a batch processor and an OTLP exporter, for every schedule and every behaviour of the network: each span or log record the processor accepted arrives in at most one request, and reads there as it was recorded; nothing else arrives. If all exports succeed, then after force_flush or shutdown has returned a result, everything accepted before the call has arrived.", "quantifier": "all schedules of threads and worker, all answers of the network, all spans and records the messages can hold, all wire formats that can be decoded", "why_tests_cant": "a test observes one schedule against one server", "anchors": ["opentelemetry-sdk/src/trace/span_processor.rs BatchSpanProcessor", "opentelemetry-sdk/src/logs/batch_log_processor.rs BatchLogProcessor", "opentelemetry-otlp/src/span.rs SpanExporter", "opentelemetry-otlp/src/logs.rs LogExporter", "opentelemetry-proto/src/transform/trace.rs group_spans_by_resource_and_scope", "opentelemetry-proto/src/transform/logs.rs group_logs_by_resource_and_scope"]}
{"id": "C92", "title": "What is added to a counter arrives at the collector, once", "statement": "With a u64 counter of delta temporality, a reader and the OTLP metric exporter, for every schedule of recording threads and collections: if every export succeeded, the values the collector received for the counter, together with what was recorded and not yet collected, add up to exactly what was recorded, in total and for each attribute set within the cardinality limit. Whatever the network does, the collector never receives more than was recorded.", "quantifier": "all schedules of any number of threads with the collections, all values and attribute sets, all other instruments and scopes collected along with the counter, all answers of the network", "why_tests_cant": "a test observes one schedule, few values and one server", "anchors": ["opentelemetry-sdk/src/metrics/internal/mod.rs ValueMap", "opentelemetry-sdk/src/metrics/internal/sum.rs Sum", "opentelemetry-sdk/src/metrics/pipeline.rs Pipeline::produce", "opentelemetry-sdk/src/metrics/periodic_reader.rs PeriodicReaderInner::collect_and_export", "opentelemetry-proto/src/transform/metrics.rs", "opentelemetry-otlp/src/metric.rs MetricExporter"]}
{"id": "C93", "title": "In-memory exporters show exactly what was exported", "statement": "The in-memory span, log and metric exporters return, in order, every span, record or collection exported since the last reset (or since the shutdown that clears them, if so configured), and nothing else; metrics they copy have every field of the original. Behind a processor, what an in-memory exporter shows is what the processor let through, in order, and nothing is shown twice.", "quantifier": "every sequence of exports, resets, changes of resource and shutdowns; every metric; every history of a processor in front of the exporter", "why_tests_cant": "Tests use these exporters to look at the SDK, so a defect in them hides defects elsewhere; a test compares a few batches, the claim is for every history.", "anchors": ["opentelemetry-sdk/src/trace/in_memory_exporter.rs:InMemorySpanExporter", "opentelemetry-sdk/src/logs/in_memory_exporter.rs:InMemoryLogExporter", "opentelemetry-sdk/src/metrics/in_memory_exporter.rs:InMemoryMetricExporter"]}
{"id": "C94", "title": "The stdout exporters print every export completely, in order, with the resource once", "statement": "An export to standard output that returns Ok has printed its head line, the resource (first export only for spans and log records, every export for metrics) and every span, record or data point of its batch with all its fields, in order; exports one after the other give one block each. After shutdown nothing is printed and exports report that the exporter is shut down. Exports at the same time each print all their lines.", "quantifier": "every batch, every interleaving of exports and shutdown, any number of exports", "why_tests_cant": "The order of lines depends on how exports interleave; a test sees one order.", "anchors": ["opentelemetry-stdout/src/trace/exporter.rs:SpanExporter::export", "opentelemetry-stdout/src/logs/exporter.rs:LogExporter::export", "opentelemetry-stdout/src/metrics/exporter.rs:MetricExporter::export"]}
{"id": "C95", "title": "Calls of the API return: no deadlock between threads, callbacks and exporters", "statement": "Creating instruments, measuring, collecting, flushing, using and ending spans and emitting log records always return, on any number of threads at once, also while user code runs inside the SDK (callbacks of observable instruments, exporters of simple processors, processors, the text of a recorded error, the subscriber that receives the SDK's own diagnostics), as long as that user code itself only makes calls that are fit for the place it runs at.", "quantifier": "any number of threads, any sequence of calls on each, any nesting of user code, every schedule", "why_tests_cant": "A deadlock appears only under a schedule and a nesting of callbacks and exporters that a test does not happen to produce; the claim is for all of them.", "anchors": ["opentelemetry-sdk/src/metrics/pipeline.rs:Pipeline::produce", "opentelemetry-sdk/src/metrics/pipeline.rs:Inserter::cached_aggregator", "opentelemetry-sdk/src/metrics/periodic_reader.rs:PeriodicReader", "opentelemetry-sdk/src/metrics/internal/mod.rs:ValueMap", "opentelemetry-sdk/src/trace/span_processor.rs:SimpleSpanProcessor", "opentelemetry-sdk/src/logs/simple_log_processor.rs:SimpleLogProcessor", "opentelemetry/src/trace/context.rs:SpanRef"]}
{"id": "C96", "title": "OTLP in protobuf is what the specification says and is read back as written", "statement": "The bytes the OTLP exporters send in protobuf follow the published message definitions: each field is under its number and with its wire type, fields at their default value are left out, and nothing else is there. A receiver that reads them by the rules of protobuf gets exactly the spans, log records and metrics that were written, skips fields it does not know, and requests that are put one after the other are read as one.", "quantifier": "every request of traces, logs and metrics, of any size and nesting, with every value of every field", "why_tests_cant": "Messages nest without bound, numbers have 64 bits and texts are arbitrary; a test compares the bytes of a few messages.", "anchors": ["opentelemetry-proto/src/proto/tonic/opentelemetry.proto.trace.v1.rs:Span", "opentelemetry-proto/src/proto/tonic/opentelemetry.proto.logs.v1.rs:LogRecord", "opentelemetry-proto/src/proto/tonic/opentelemetry.proto.metrics.v1.rs:Metric", "opentelemetry-proto/src/proto/tonic/opentelemetry.proto.common.v1.rs:AnyValue", "opentelemetry-otlp/src/exporter/http/mod.rs:build_trace_export_body"]}
{"id": "C97", "title": "From the tracing API to the collector", "statement": "Spans that an application starts, changes and ends with the tracing API, from any threads, through handles that are cloned, shared through contexts and dropped, arrive at the collector at most once each, with the content they had when they ended; those of traces that were not sampled never arrive; and after a flush each span that ended and was sampled has arrived unless it was refused because the queue was full, ignored after shutdown, or ended since. This holds also of the bytes: a receiver that reads protobuf gets these spans.", "quantifier": "every program of the tracing API on any threads, every schedule of the threads and the worker, every sampler and limit, every behaviour of the network", "why_tests_cant": "The number of interleavings of threads, worker, handles and network outcomes is unbounded; tests run one schedule with one exporter.", "anchors": ["opentelemetry-sdk/src/trace/span.rs:Span::ensure_ended_and_exported", "opentelemetry/src/trace/context.rs:SpanRef", "opentelemetry-sdk/src/trace/span_processor.rs:BatchSpanProcessor", "opentelemetry-sdk/src/trace/tracer.rs:SdkTracer::build_with_context", "opentelemetry-otlp/src/span.rs:SpanExporter"]}
{"id": "C98", "title": "From the logging API, tracing events and the log crate to the collector", "statement": "A record emitted with the logging API, an event of the tracing crate or a record of the log crate arrives at the collector at most once, with everything it said: target, severity, body, attributes in order, the trace it belongs to and the time it was observed, under the resource of the provider; nothing arrives that was not logged, and nothing that was logged in a suppressed context or that no processor wants. Logging never panics. After a flush every record has arrived unless it was refused because the queue was full, ignored after shutdown, or logged since. This holds also of the bytes: a receiver that reads protobuf sees these records.", "quantifier": "every mix of emitted records, tracing events and log records on any threads, every schedule of the threads and the worker, every behaviour of the network", "why_tests_cant": "The number of interleavings of threads, worker and network outcomes is unbounded, and so are the fields and values of events; tests run one schedule with one exporter.", "anchors": ["opentelemetry-sdk/src/logs/batch_log_processor.rs:BatchLogProcessor", "opentelemetry-sdk/src/logs/logger.rs:SdkLogger::emit", "opentelemetry-appender-tracing/src/layer.rs:OpenTelemetryTracingBridge::on_event", "opentelemetry-appender-log/src/lib.rs:OpenTelemetryLogBridge::log", "opentelemetry-otlp/src/logs.rs:LogExporter"]}
{"id": "C99", "title": "From any synchronous instrument to the collector, both temporalities", "statement": "A counter, up-down counter, gauge, histogram or exponential histogram recorded from any number of threads while a reader collects and exports: each metric the collector receives is the instrument's (resource, scope, name, description, unit, kind, temporality, start and end time) and has exactly one point for each attribute set, which tells the aggregation of values recorded for that set: the sum, the last value, or count, buckets, sum, minimum and maximum. With delta temporality the periods follow each other without gaps, what the collector is told for a set is part of what was recorded for it, in order and nothing twice, and all of it if every export succeeds, except what is still in the store. With cumulative temporality every point tells all values of its set up to a moment of its collection, at least all recorded before the collection began, so a lost export is made up for by the next one; the values of a counter never decrease.", "quantifier": "every instrument kind, every schedule of recording threads and collections, every sequence of exports and network outcomes, every other instrument collected along", "why_tests_cant": "Interleavings of recording threads, the collector's flag, locks and loop, and lost exports are unbounded; tests use one thread, one collection and an exporter that succeeds.", "anchors": ["opentelemetry-sdk/src/metrics/internal/mod.rs:ValueMap", "opentelemetry-sdk/src/metrics/internal/sum.rs:Sum", "opentelemetry-sdk/src/metrics/internal/last_value.rs:LastValue", "opentelemetry-sdk/src/metrics/internal/histogram.rs:Histogram", "opentelemetry-sdk/src/metrics/internal/exponential_histogram.rs:ExpoHistogram", "opentelemetry-sdk/src/metrics/pipeline.rs:SdkProducer::produce", "opentelemetry-proto/src/transform/metrics.rs", "opentelemetry-otlp/src/metric.rs:MetricExporter"]}
{"id": "C100", "title": "The trace of nested calls has the shape of the program", "statement": "When a thread runs nested blocks (in_span, mark_span_as_active, spans that are never made active, attached values, telemetry-suppressed blocks, remote parents), with panics that are caught at any level or unwind everything, then each block starts its span in the context of the block around it, calls on the active span reach the span of the innermost block, and leaving a block by return or panic ends its span exactly once. So every processor receives one span per executed block, children before their parent, linked by parent id and in one trace, each with exactly the edits made while it was active; nothing is recorded in suppressed blocks, every sampled span is delivered, the context stack is restored and no started span is held any longer. This holds up to the 65534 nested contexts the stack has room for.", "quantifier": "every program of nested blocks of any size (nesting up to the context stack's limit), every panic and every place where it is caught, every sampler, id generator, clock and number of processors that only watch on_start", "why_tests_cant": "The context stack, the counts of holders, the tracer and unwinding interact at every nesting and at every panic point; tests run one or two levels without panics.", "anchors": ["opentelemetry/src/trace/tracer.rs:Tracer::in_span", "opentelemetry/src/trace/context.rs:mark_span_as_active", "opentelemetry/src/trace/context.rs:get_active_span", "opentelemetry/src/context.rs:ContextStack", "opentelemetry-sdk/src/trace/tracer.rs:build_with_context", "opentelemetry-sdk/src/trace/span.rs:ensure_ended_and_exported"]}
{"id": "C101", "title": "From an instrument to a Prometheus scrape", "statement": "While any number of threads record on a synchronous instrument and Prometheus scrapes at any moments, each scrape before the shutdown shows exactly one series per attribute set, with the instrument's type, name, help text and labels, whose value is the aggregation of the values recorded for the set up to a moment during the scrape: all that was recorded before the scrape began, nothing that was never recorded, and at least what earlier scrapes showed. So the series of a counter never falls, a gauge shows the last value, an up-down counter the sum, and a histogram the number of values, their sum and for each boundary the number of values up to it. No scrape shows two series with the same labels. After the shutdown a scrape shows nothing.", "quantifier": "every number of threads, measurements, attribute sets up to the limit and scrapes, every interleaving, every order in which the store is read, every other instrument and scope with other exported names, every configuration of the exporter", "why_tests_cant": "A scrape runs in the middle of concurrent measurements and uses what earlier scrapes left behind; tests scrape once, after everything was recorded.", "anchors": ["opentelemetry-prometheus/src/lib.rs:Collector::collect", "opentelemetry-prometheus/src/lib.rs:add_sum_metric", "opentelemetry-prometheus/src/lib.rs:add_histogram_metric", "opentelemetry-prometheus/src/lib.rs:add_gauge_metric", "opentelemetry-sdk/src/metrics/manual_reader.rs:collect", "opentelemetry-sdk/src/metrics/internal/mod.rs:ValueMap::measure"]}
{"id": "C102", "title": "The text of an attribute value tells the value", "statement": "The text of an attribute value is the same whichever way it is obtained; it is true or false for truth values, the usual decimal numeral for integers, the string itself for strings and a bracketed list for arrays. Two values of the same type with the same text are the same value (all NaNs taken as one), so that labels and tags made from texts do not mix up different values.", "quantifier": "every pair of attribute values, arrays of any length, strings of any characters", "why_tests_cant": "It is a statement about all pairs of values; tests compare a few texts.", "anchors": ["opentelemetry/src/common.rs:Value", "opentelemetry/src/common.rs:Array", "opentelemetry/src/common.rs:display_array_str", "opentelemetry/src/common.rs:StringValue"]}
{"id": "C103", "title": "Observable instruments from the callbacks to the collector", "statement": "A reader that collects runs the callbacks of observable instruments and exports what they observed. The collector receives, for each collection whose export succeeds, exactly one point for each set of attributes observed. For gauges and cumulative sums it is the value that the callbacks observed last; for sums with delta temporality it is that value minus the one of the previous collection, so that for a counter observed in every collection the received numbers add up to its current value. Intervals of delta points follow each other without gaps. Observations made by callbacks that other readers run at the same time do not break this.", "quantifier": "every program of callbacks, every interleaving of the reader, its callbacks, and the callbacks other readers run on other threads, every sequence of collections and every behaviour of the network and the collector", "why_tests_cant": "It is about all interleavings of callbacks and collections over any number of collections and about every network failure; tests run one reader for a few collections.", "anchors": ["opentelemetry-sdk/src/metrics/pipeline.rs:Pipeline::produce", "opentelemetry-sdk/src/metrics/internal/precomputed_sum.rs:PrecomputedSum", "opentelemetry-sdk/src/metrics/internal/last_value.rs:LastValue", "opentelemetry-sdk/src/metrics/internal/mod.rs:ValueMap", "opentelemetry-otlp/src/metric.rs:MetricsExporter"]}
{"id": "C104", "title": "A successful flush delivers the measurements made before it", "statement": "When force_flush or shutdown of a meter provider with a periodic reader and an OTLP exporter returns Ok, every measurement whose recording call had returned before the flush was called is at the collector: with cumulative temporality the collector has one metric of the instrument in which the point of each attribute set includes all of them, with delta temporality the metrics it has received include all of them. Other threads may record, flush and shut down at the same time.", "quantifier": "every interleaving of recording threads, callers of force_flush and shutdown, the timer and the worker with its collection step by step, every history of earlier collections and every behaviour of the network and the collector", "why_tests_cant": "Whether a measurement that returned just before the call can be missed depends on the interleaving of the flag, the lock and the collector, and of the messages to the worker; tests flush when nothing else runs.", "anchors": ["opentelemetry-sdk/src/metrics/periodic_reader.rs:PeriodicReader::force_flush", "opentelemetry-sdk/src/metrics/periodic_reader.rs:PeriodicReader::shutdown", "opentelemetry-sdk/src/metrics/periodic_reader.rs:PeriodicReaderInner::collect_and_export", "opentelemetry-sdk/src/metrics/internal/mod.rs:ValueMap", "opentelemetry-otlp/src/metric.rs:MetricsExporter"]}
{"id": "C105", "title": "A request keeps its trace whatever formats its services use", "statement": "A request that starts in a service whose current span has a valid span context, and then passes through any number of services, is in the same trace everywhere, with the same sampling decision, and each service's first span has the sender's span as its parent. This holds for every choice of format for each request, W3C trace context, B3 in any encoding or Jaeger with any header name, over string maps and HTTP headers, for services with and without an SDK and any nesting of spans in them. The trace state arrives if and only if all requests were in the W3C format.", "quantifier": "every route of requests and nested spans of any length, every assignment of formats and carriers to the requests, every valid span context, SDK configuration with a parent-based sampler, and every content of the other headers", "why_tests_cant": "Formats differ in what they can carry, so what is left after several requests depends on their order; tests check one propagator at a time with one request.", "anchors": ["opentelemetry-sdk/src/propagation/trace_context.rs:TraceContextPropagator", "opentelemetry-zipkin/src/propagator/mod.rs:Propagator", "opentelemetry-jaeger-propagator/src/propagator.rs:Propagator", "opentelemetry-http/src/lib.rs:HeaderInjector", "opentelemetry-http/src/lib.rs:HeaderExtractor", "opentelemetry-sdk/src/trace/tracer.rs:SdkTracer::build_with_context"]}
{"id": "C106", "title": "Baggage follows a request through all services", "statement": "When a request passes through any number of services, each of which extracts the baggage, may set and remove entries, and injects it into the next request, every service finds for each key the value and metadata that the last service to change that key gave it, or nothing if it was removed, exactly as if all services had shared one map; this holds over string maps and HTTP headers and for every iteration order of the maps.", "quantifier": "every sequence of insertions, removals and requests of any length, every content of the entries, every iteration order of the hash maps, every other content of the carriers", "why_tests_cant": "What a service sees is the result of all earlier encodings, decodings and changes; tests check single requests with a few entries.", "anchors": ["opentelemetry-sdk/src/propagation/baggage.rs:BaggagePropagator", "opentelemetry/src/baggage.rs:Baggage", "opentelemetry-http/src/lib.rs:HeaderInjector", "opentelemetry-http/src/lib.rs:HeaderExtractor"]}
{"id": "C107", "title": "The text of a baggage can be read back", "statement": "The text that formatting a baggage gives is a value for the baggage header: a receiver extracts the same baggage from it. Hence baggages with different entries have different texts.", "quantifier": "every baggage an application can build, every value in it, every iteration order of the hash map", "why_tests_cant": "The encoder must escape every byte that the parser treats specially, for all texts; tests format a few.", "anchors": ["opentelemetry/src/baggage.rs:encode", "opentelemetry/src/baggage.rs:Display for Baggage", "opentelemetry-sdk/src/propagation/baggage.rs:BaggagePropagator::extract_with_context"]}
{"id": "C108", "title": "What a batch processor for an async runtime accepts arrives at the collector exactly once and unchanged", "statement": "With a batch processor that runs as a task of an async runtime and an OTLP exporter, for every schedule, every behaviour of the network, every timeout of an export and every moment at which the runtime drops the task: each span or log record the processor accepted arrives in at most one request, and reads there as it was recorded; nothing else arrives. If all exports succeed, then after force_flush or shutdown has returned a result of the task, everything accepted before the call has arrived, however many batches were waiting.", "quantifier": "all schedules of threads and task, all answers of the network, all timeouts before and after the request has left, all spans and records the messages can hold, all wire formats that can be decoded", "why_tests_cant": "An export can be cut off at any point by a timeout or with the task, and the result of a flush must cover all batches before it; tests see a few schedules with exporters that always answer.", "anchors": ["opentelemetry-sdk/src/trace/span_processor_with_async_runtime.rs:BatchSpanProcessor", "opentelemetry-sdk/src/logs/log_processor_with_async_runtime.rs:BatchLogProcessor", "opentelemetry-otlp/src/exporter/http/mod.rs:OtlpHttpClient", "opentelemetry-otlp/src/exporter/tonic/trace.rs:TonicTracesClient"]}
{"id": "C109", "title": "Beyond the cardinality limit nothing is lost on the way to the collector", "statement": "With any synchronous instrument, a reader and the OTLP metric exporter, for every schedule of threads and collections and any number of attribute sets: a metric that the collector receives has at most two points more than the cardinality limit; the sets measured first, up to the limit, have a point each that tells exactly their values; one overflow point tells the values of all the others; and every measurement of the period is told by exactly one point. With delta temporality, if all exports succeed, all points received and the store together have each measurement exactly once, so that sums and counts add up. With cumulative temporality a metric tells everything recorded before its collection began and nothing recorded after it ended.", "quantifier": "all schedules of threads and collections, all measurements with any number of attribute sets, any limit, all answers of the network, both temporalities, every aggregation", "why_tests_cant": "The sharing out of measurements depends on the order in which threads create sets while a collection may be running; tests fill a store to the limit from one thread.", "anchors": ["opentelemetry-sdk/src/metrics/internal/mod.rs:ValueMap", "opentelemetry-sdk/src/metrics/internal/aggregate.rs:AggregateBuilder", "opentelemetry-sdk/src/metrics/periodic_reader.rs:PeriodicReaderInner", "opentelemetry-otlp/src/metric.rs:MetricExporter"]}
{"id": "C110", "title": "Every exported batch carries the resource of the provider", "statement": "Once a provider with a batch processor has been built, every batch of spans or log records that the processor exports is exported with the provider's resource: every batch after the worker has read the resource, the batches exported by any flush or shutdown called after the provider was built, and everything after such a call has been answered. With the processors that have their own thread, only exports that were in progress while the provider was being built can lack it.", "quantifier": "all schedules of application threads and the worker, all configurations, any number of spans, records, flushes and shutdowns", "why_tests_cant": "The resource travels by message while spans travel by another channel; whether a batch overtakes it depends on the moment the worker's timer expires, which a test that builds a provider and flushes never hits.", "anchors": ["opentelemetry-sdk/src/trace/span_processor.rs:BatchSpanProcessor", "opentelemetry-sdk/src/logs/batch_log_processor.rs:BatchLogProcessor", "opentelemetry-sdk/src/trace/provider.rs:TracerProviderBuilder::build", "opentelemetry-sdk/src/logs/logger_provider.rs:LoggerProviderBuilder::build"]}
{"id": "C111", "title": "Every reader gets every measurement, and the provider's flush reaches every reader", "statement": "A meter provider with several readers hands every measurement to each of them once, with the attributes that reader's view keeps, however the readers collect, export, fail or are flushed meanwhile; each reader behaves as if it were the only one. force_flush and shutdown of the provider ask every reader, also after one that fails, and each only after all measurements whose calls had returned when the provider was called; they return Ok exactly if every reader answers Ok. After such an Ok the collector behind every reader has, for every set of attributes, at least what had been recorded before the call.", "quantifier": "any number of readers with any views, temporalities, stores, exporters and networks; all schedules of recording threads, flushing threads and the readers' workers", "why_tests_cant": "A measurement passes from reader to reader while each of them collects at its own pace, and a flush asks one after the other; the interleavings of several workers with recording threads are beyond what tests can enumerate.", "anchors": ["opentelemetry-sdk/src/metrics/instrument.rs:ResolvedMeasures", "opentelemetry-sdk/src/metrics/pipeline.rs:Pipelines::force_flush", "opentelemetry-sdk/src/metrics/pipeline.rs:Pipelines::shutdown", "opentelemetry-sdk/src/metrics/meter_provider.rs:SdkMeterProvider"]}
{"id": "C112", "title": "Every processor gets every span and record, and the provider's flush reaches every processor", "statement": "A tracer (logger) provider with several processors, simple, batching or asynchronous in any mix, hands every finished span (emitted record) to each of them once, however they export, fail or are flushed meanwhile; each behaves as if it were the only one, and at its collector every item it took arrives at most once and readable. force_flush and shutdown of the provider ask every processor, also after one that fails, each only after all items whose calls had returned when the provider was called; they return Ok exactly if every processor answers Ok, and then everything the processors had taken of those items has arrived at each collector.", "quantifier": "any number and mix of processors, with any exporters and networks; all schedules of ending or emitting threads, flushing threads and workers", "why_tests_cant": "An item passes from processor to processor while each works at its own pace, and a flush asks one after the other; the interleavings of several workers with application threads are beyond what tests can enumerate.", "anchors": ["opentelemetry-sdk/src/trace/span.rs:Span::ensure_ended_and_exported", "opentelemetry-sdk/src/trace/provider.rs:SdkTracerProvider::force_flush", "opentelemetry-sdk/src/trace/provider.rs:TracerProviderInner::shutdown", "opentelemetry-sdk/src/trace/span_processor.rs:SimpleSpanProcessor", "opentelemetry-sdk/src/trace/span_processor.rs:BatchSpanProcessor", "opentelemetry-sdk/src/logs/logger.rs:SdkLogger::emit", "opentelemetry-sdk/src/logs/logger_provider.rs:SdkLoggerProvider::force_flush", "opentelemetry-sdk/src/logs/logger_provider.rs:LoggerProviderInner::shutdown", "opentelemetry-sdk/src/logs/simple_log_processor.rs:SimpleLogProcessor", "opentelemetry-sdk/src/logs/batch_log_processor.rs:BatchLogProcessor"]}
{"id": "C113", "title": "A provider has the resource its builder was given", "statement": "The resource of a tracer, logger or meter provider is the default one (Resource::builder) if with_resource was not called, otherwise the merge of all given resources, in which for every key the last resource with that key wins. This does not depend on other providers built before in the same process.", "quantifier": "any sequence of with_resource calls with any resources; any sequence of providers built in one process", "why_tests_cant": "The tracer provider's builder keeps the first resource of the process in a static and shares it with later providers; which resources are told apart depends on equality of all attribute values.", "anchors": ["opentelemetry-sdk/src/trace/provider.rs:TracerProviderBuilder::with_resource", "opentelemetry-sdk/src/trace/provider.rs:TracerProviderBuilder::build", "opentelemetry-sdk/src/trace/provider.rs:PROVIDER_RESOURCE", "opentelemetry-sdk/src/logs/logger_provider.rs:LoggerProviderBuilder::with_resource", "opentelemetry-sdk/src/metrics/meter_provider.rs:MeterProviderBuilder::with_resource"]}
{"id": "C114", "title": "The remote sampler asks the right address, at its interval, and stops when it is dropped", "statement": "A remote sampler built for an endpoint and a service name sends its requests to that endpoint with exactly that service name as a server reads it, for every name; a service name in the endpoint is ignored. The first request is sent one interval after building and later ones at least one interval apart. All clones of the sampler, on whatever threads, decide by the strategy of the last answer before the decision, and by the default sampler before the first answer. When the last clone is dropped, no more requests are sent.", "quantifier": "every endpoint and service name; every interleaving of clones, drops, decisions, answers (failures included) and timer ticks", "why_tests_cant": "Schedules of threads and the task are unbounded, and so are the characters of names; what a task does after everything is dropped is not visible in a unit test.", "anchors": ["opentelemetry-sdk/src/trace/sampler/jaeger_remote/sampler.rs:JaegerRemoteSamplerBuilder::get_endpoint", "opentelemetry-sdk/src/trace/sampler/jaeger_remote/sampler.rs:JaegerRemoteSampler::run_update_task", "opentelemetry-sdk/src/trace/sampler/jaeger_remote/sampling_strategy.rs:Inner::drop"]}
{"id": "C115", "title": "Trace and baggage travel together without disturbing each other", "statement": "A request that starts in a service with a valid span and no baggage, and passes through any number of services that start spans, change the baggage and send both onwards with a composite of the trace context and the baggage propagator, is at every service in the trace it started in, with the same sampling decision and trace state; for every baggage key each service finds what the last change by any earlier service says; the first span of each service has the sender's span as parent. The order of the members of the composite makes no difference.", "quantifier": "every route, number of services, spans and changes; either order of the members at each sender and receiver; string maps and HTTP; any headers already in the request", "why_tests_cant": "Routes are unbounded and mix two propagators, two carriers and arbitrary texts; interference would show only in some combination of headers, orders and histories.", "anchors": ["opentelemetry/src/propagation/composite.rs:TextMapCompositePropagator", "opentelemetry-sdk/src/propagation/trace_context.rs:TraceContextPropagator", "opentelemetry-sdk/src/propagation/baggage.rs:BaggagePropagator", "opentelemetry/src/context.rs:Context"]}
{"id": "C116", "title": "Exporters get the log events they want and no others, each once", "statement": "With the enabled check compiled in, an event that at least one exporter of the provider wants, outside a suppressed context, is handed to every processor exactly once and in order of registration; an event that no exporter wants is handed to none. With the concurrent processor each emit is one export of one record that begins and ends on the caller's thread inside the call, in call order, however other threads interleave; after shutdown has returned nothing is exported any more.", "quantifier": "every list of processors and exporters' filters, every event and context; every number of threads and every interleaving of emits, flushes and shutdowns", "why_tests_cant": "Filters are arbitrary functions of severity, target and name, and combine over any list of processors; exports of the concurrent processor overlap in as many ways as there are schedules.", "anchors": ["opentelemetry-sdk/src/logs/logger.rs:SdkLogger::event_enabled", "opentelemetry-sdk/src/logs/concurrent_log_processor.rs:SimpleConcurrentLogProcessor", "opentelemetry-sdk/src/logs/simple_log_processor.rs:SimpleLogProcessor::event_enabled", "opentelemetry-sdk/src/logs/log_processor.rs:LogProcessor::event_enabled", "opentelemetry-sdk/src/logs/export.rs:LogExporter::event_enabled", "opentelemetry-appender-tracing/src/layer.rs:on_event"]}
{"id": "C117", "title": "An async batch processor that is let go still delivers and cleans up", "statement": "When a batch processor on an async runtime is dropped without a shutdown, or its provider is dropped, everything it had accepted is still handed to the exporter, in order, after a bounded number of steps of its task, the exporter is shut down and the task ends.", "quantifier": "every history before the drop, every schedule of the task after it, every outcome of the exports", "why_tests_cant": "What the task holds when its owner goes away depends on the whole history; that a task never ends cannot be observed by a test that ends.", "anchors": ["opentelemetry-sdk/src/trace/span_processor_with_async_runtime.rs:BatchSpanProcessor::new, run", "opentelemetry-sdk/src/logs/log_processor_with_async_runtime.rs:BatchLogProcessor::new", "opentelemetry-sdk/src/runtime.rs:to_interval_stream"]}
{"id": "C118", "title": "An item waits in a batch processor no longer than the scheduled delay and the exports under way", "statement": "A span or log record accepted by a batch processor is handed to the exporter within the scheduled delay plus the time the exports of a wake-up take, counted from when it was accepted; the timer never fires before the scheduled delay has passed since the last export began. On an async runtime, ticks come at the configured interval, the first one an interval after the start.", "quantifier": "every sequence and timing of emits, flushes and exports; every delay, batch size, queue size and duration of exports; every delay of the task's polling", "why_tests_cant": "The waiting time depends on how arrivals, exports and the clock interleave over an unbounded run; tests check a few timings with sleeps.", "anchors": ["opentelemetry-sdk/src/trace/span_processor.rs:BatchSpanProcessor::new, get_spans_and_export, export_batch_sync", "opentelemetry-sdk/src/logs/batch_log_processor.rs:BatchLogProcessor::new, get_logs_and_export", "opentelemetry-sdk/src/runtime.rs:to_interval_stream"]}
{"id": "C119", "title": "JSON text is read as the document that was meant", "statement": "The text an exporter sends as JSON is a JSON text whatever characters are in names, attributes, messages and events: a reader that follows RFC 8259 accepts it and gets the document that was written, with every string character by character, every number and every member in its order, whether it is written without or with indentation. Two documents with the same text are the same. The body of a Zipkin request is an array with one object per span of the batch, in order, with the members of Zipkin's API: ids in hexadecimal digits, microseconds since the epoch, the address of the service, one annotation per event, and tags with different keys whose values are the ones of the span. The body of an OTLP/JSON request is read by a conforming receiver as the request.", "quantifier": "every document, every batch of spans, every string, every order in which hash maps give the tags, both layouts", "why_tests_cant": "Strings range over all Unicode text and documents over all depths; a test shows a few payloads, and one that escapes wrongly only for one control character passes it.", "anchors": ["opentelemetry-zipkin/src/exporter/uploader.rs JsonV2Client::upload", "opentelemetry-zipkin/src/exporter/model/span.rs Span", "opentelemetry-zipkin/src/exporter/model/annotation.rs Annotation", "opentelemetry-zipkin/src/exporter/model/endpoint.rs Endpoint", "opentelemetry-otlp/src/exporter/http/mod.rs OtlpHttpClient::build_trace_export_body"]}
{"id": "C120", "title": "One item alone, and in a batch", "statement": "Besides requests for batches the library makes a request of one span or of one log record, and the messages of zPages from a span. The request of one item holds that item, with the ids, times, attributes, events, links and status it has, under its scope with the name, version, attributes and schema url of the scope, and under the resource; for a log record with a target the scope is the target. Requests made one by one hold together the same items as the request of the batch. A batch of log records, in either of its forms, gives whoever goes through it each record once and in order, and then nothing. What zPages get of a latency sample, a running span or a failed span tells the ids, the parent, the times, attributes, events and links of the span, and the status exactly if it is an error.", "quantifier": "every span, every log record, every scope, every resource, every batch and every number of calls of the iterator", "why_tests_cant": "Spans and records range over all attributes, events and links; a test converts a few and never compares the ways with each other.", "anchors": ["opentelemetry-proto/src/transform/trace.rs ResourceSpans::new", "opentelemetry-proto/src/transform/logs.rs From for ResourceLogs", "opentelemetry-proto/src/transform/tracez.rs From<SpanData>", "opentelemetry-sdk/src/logs/export.rs LogBatch::iter"]}
{"id": "C121", "title": "The remote sampler understands the server's answers", "statement": "An answer of the sampling server that follows Jaeger's sampling.proto in its JSON form, with any order of the entries, unknown entries and white space, is understood, and the sampler follows it from then on: the probability, the limit of traces per second, or the probability of each operation (the last one given for a name) with the default for others. A response that cannot be read, has another status than 200 or never comes changes nothing.", "quantifier": "every response: every status, every body, every document, every strategy so far", "why_tests_cant": "Texts range over all forms JSON has for a document; the one test reads one probabilistic answer. It cannot show that no answer with a rate limit is ever accepted.", "anchors": ["opentelemetry-sdk/src/trace/sampler/jaeger_remote/sampler.rs request_new_strategy", "opentelemetry-sdk/src/trace/sampler/jaeger_remote/remote.rs SamplingStrategyResponse", "opentelemetry-sdk/src/trace/sampler/jaeger_remote/remote.rs SamplingStrategyType"]}
{"id": "C122", "title": "Spans, log records and metrics sent as OTLP/JSON arrive", "statement": "When the HTTP exporter is set to JSON, each span or log record the batch processor accepted arrives at most once in the texts the collector gets, reads as it was recorded, and nothing else arrives; after a flush or shutdown that returned a result, with every export answered with success, all that had been accepted have arrived. The text of a collection of metrics is a document that a conforming receiver reads as these metrics.", "quantifier": "every schedule of calls and of the worker, every history of answers of the network, all spans, log records and resources, all ways to write doubles as JSON numbers", "why_tests_cant": "The schedules, the values and their nesting are unbounded; a test sends a few items and does not look at what one attribute does to the other items of a batch.", "anchors": ["opentelemetry-otlp/src/exporter/http/mod.rs build_trace_export_body", "opentelemetry-otlp/src/exporter/http/mod.rs build_logs_export_body", "opentelemetry-otlp/src/exporter/http/mod.rs build_metrics_export_body", "opentelemetry-proto/src/proto.rs serializers", "opentelemetry-sdk/src/trace/span_processor.rs BatchSpanProcessor"]}
{"id": "C123", "title": "What a gRPC exporter is built with and what each request carries", "statement": "Building an OTLP exporter over gRPC never panics. It fails exactly when the chosen compression is unknown or not compiled in, or, unless the code gives a channel, when the endpoint is not a URI or does not take the TLS settings. A channel given in code is used as it is; else the channel leads to the endpoint with the last TLS settings and the timeout, each of which comes from code, else the signal's variable, else the general one, else the default. In the metadata of every request a header has the values the code gives it in the last call that names it, else all legal values of the header variable, in order; with no other value the user agent is the exporter's name and version. The last interceptor given is called exactly once per export with this metadata and decides what is sent; when it refuses, nothing is sent.", "quantifier": "every history of builder calls, every environment, every interceptor with any memory of earlier requests, any number of exports, all three signals", "why_tests_cant": "unbounded call histories, texts and interceptors", "anchors": ["opentelemetry-otlp/src/exporter/tonic/mod.rs: TonicExporterBuilder::default, build_channel, merge_metadata_with_headers_from_env, parse_headers_from_env, WithTonicConfig", "opentelemetry-otlp/src/exporter/tonic/{trace,logs,metrics}.rs: export", "opentelemetry-otlp/src/exporter/mod.rs: default_headers"]}
{"id": "C124", "title": "What a Prometheus scrape shows of an observable instrument", "statement": "For an observable instrument whose callbacks are run by this reader only, every scrape before the shutdown shows exactly one series for each attribute set its callbacks observed in this or an earlier collection, with the type, name and help text of the instrument; for counters, up-down counters and gauges the number is the value observed last for that set. A scrape after the shutdown shows nothing. If callbacks never observe less than before for a set, whoever runs them, no series ever falls. A scrape should show only what is observed now (violated: sets no longer observed stay).", "quantifier": "every schedule of callbacks, stores, collections, scrapes and shutdown, every set of other instruments with other names, every number of scrapes", "why_tests_cant": "all interleavings and unbounded numbers of scrapes", "anchors": ["opentelemetry-prometheus/src/lib.rs: Collector::collect", "opentelemetry-sdk/src/metrics/pipeline.rs: Pipeline::produce", "opentelemetry-sdk/src/metrics/internal/{precomputed_sum,last_value,mod}.rs", "opentelemetry-sdk/src/metrics/manual_reader.rs"]}
{"id": "C125", "title": "The boxed API does what the implementation does", "statement": "For every implementation of a span that keeps the trait's bodies for add_event, record_error, set_attributes and end: every history of calls on the boxed span, ended by its drop, gives the same answers and leaves the span and all it changes as the same calls on the span itself would. The same holds through a context that holds the span, for the calls one can make there, if its mutex is not poisoned. A provider made the global one gives, however a tracer is got from the global functions and however the span is made, spans with the answers and effects of the provider's own. Before a provider is set, such a span has the span context of its parent, records nothing and never changes. A context that came from elsewhere says its span context and ignores all calls.", "quantifier": "all implementations of spans, tracers and providers, scopes, names, builders, parent contexts, histories of calls", "why_tests_cant": "Tests call a few methods on a boxed span; a method handed to the wrong one, a dropped argument or a bypassed override shows only for some implementation and history.", "anchors": ["opentelemetry/src/global/trace.rs: BoxedSpan, BoxedTracer, GlobalTracerProvider, ObjectSafeSpan", "opentelemetry/src/trace/span.rs: Span", "opentelemetry/src/trace/context.rs: SpanRef, SynchronizedSpan", "opentelemetry/src/trace/tracer.rs: Tracer", "opentelemetry/src/trace/noop.rs"]}
{"id": "C126", "title": "A Prometheus exporter has the settings its builder calls ask for and shows in the registry it was given", "statement": "Whatever calls are made on the exporter's builder, in whatever order, each setting is what those calls ask for: what is switched off stays off, and the last namespace, registry and resource selection count. If build succeeds with a registry of the program, then from that moment every scrape of that registry shows the exporter exactly once with those settings, and no other registry shows it. Without a registry, the default registry of the prometheus library is used, as the documentation says. Several exporters can share a registry.", "quantifier": "every list of builder calls; every program that makes registries, registers collectors of its own and builds exporters, before and after; every metric, resource and scope for what the settings do to the scraped text", "why_tests_cant": "Tests build one exporter with a registry and one or two settings. That no setting disturbs another, that an exporter never disappears from its registry and that an exporter without registry never shows anywhere are statements about all lists of calls and all later behaviour.", "anchors": ["opentelemetry-prometheus/src/config.rs: ExporterBuilder::{without_units, without_counter_suffixes, without_target_info, without_scope_info, with_namespace, with_registry, with_resource_selector, build}", "opentelemetry-prometheus/src/lib.rs: exporter, Collector::desc, get_name, metric_type_and_name"]}
{"id": "C127", "title": "Environment and builder calls decide which spans are exported and how much they hold", "statement": "Whatever the environment holds and whatever is called on the builder of a tracer provider: a span that the program starts is sampled exactly if the last sampler given in code, or else OTEL_TRACES_SAMPLER and its argument, says so for its parent and trace id. A sampled span reaches every processor exactly once when it ends, and holds the first attributes, events and links recorded up to the limits set last in code, or else by the environment variables for limits, or else 128; what is left out is counted. A span that is not sampled reaches no processor.", "quantifier": "every environment; every list of builder calls; every number parser for floats that gives floats; every span builder, context, scope and state of the provider; every history of calls on the span before and after its end", "why_tests_cant": "Tests set one variable or one limit and look at the configuration or one span. That code goes before environment for each setting, and that what is configured is what exported spans obey, is a statement about all environments, calls and uses of a span.", "anchors": ["opentelemetry-sdk/src/trace/config.rs: Config::default", "opentelemetry-sdk/src/trace/provider.rs: TracerProviderBuilder::{with_sampler, with_max_events_per_span, with_max_attributes_per_span, with_max_links_per_span, with_max_attributes_per_event, with_max_attributes_per_link, with_span_limits, build}", "opentelemetry-sdk/src/trace/sampler.rs: Sampler::should_sample", "opentelemetry-sdk/src/trace/tracer.rs: SdkTracer::build_with_context", "opentelemetry-sdk/src/trace/span.rs"]}
{"id": "C128", "title": "The sizes configured by environment or code bound the batches exported and the queue", "statement": "Whatever the environment holds and whatever sizes are set on the configuration of a batch processor, as long as they are positive: at every moment of every schedule the queue holds at most the queue size and every batch the exporter gets is not empty and at most as large as the batch size, where a size is the one set last in code, or else the one the environment variable gives, or else 2048 and 512. No batch is larger than the queue size either. This holds for spans and for logs, with a thread of their own and with an async runtime.", "quantifier": "every environment; every list of calls on the configuration's builder; every reachable state of the processor, so every interleaving of ending spans or emitting records with flushes, shutdown, ticks and the worker", "why_tests_cant": "Tests set a size, look at the built configuration, and look at one export with few items. That the precedence of code over environment is what each batch of each schedule obeys is a statement about all environments and schedules.", "anchors": ["opentelemetry-sdk/src/trace/span_processor.rs: BatchConfigBuilder, BatchSpanProcessor::{new, get_spans_and_export, on_end}", "opentelemetry-sdk/src/logs/batch_log_processor.rs: BatchConfigBuilder, BatchLogProcessor::{new, emit}", "opentelemetry-sdk/src/trace/span_processor_with_async_runtime.rs: BatchSpanProcessorInternal::process_message", "opentelemetry-sdk/src/logs/log_processor_with_async_runtime.rs: BatchLogProcessor::new"]}
{"id": "C129", "title": "The temporality asked for is the one the collector is told, kind by kind and reader by reader", "statement": "Whatever temporalities are given, in any order and together with any other calls, to the builders of the OTLP, stdout and in-memory metric exporters or of the manual reader, and whatever instruments are created through any views: each metric a reader reports is told as delta exactly if the last temporality given to that reader asks for delta for the kind of the instrument that fed it, and as cumulative otherwise. Delta asks for delta for all kinds but the up-down counters, low memory for counters and histograms only, nothing given for none; a Prometheus exporter is always cumulative. An observable gauge always reports only what was observed since the last collection.", "quantifier": "every list of builder calls for each of any number of readers of a provider; every list of views and of created instruments; every aggregator and all points it has to report", "why_tests_cant": "Tests build one exporter with one temporality and look at one kind of instrument. The claim is about all orders of calls, all kinds, all views and several readers that want different temporalities at once.", "anchors": ["opentelemetry-otlp/src/metric.rs: MetricExporterBuilder::{with_temporality, with_http, with_tonic, build}, MetricExporter::temporality", "opentelemetry-stdout/src/metrics/exporter.rs: MetricExporterBuilder", "opentelemetry-sdk/src/metrics/in_memory_exporter.rs: InMemoryMetricExporterBuilder", "opentelemetry-sdk/src/metrics/manual_reader.rs: ManualReaderBuilder, ManualReader::temporality", "opentelemetry-sdk/src/metrics/periodic_reader.rs: PeriodicReader::temporality", "opentelemetry-sdk/src/metrics/instrument.rs: InstrumentKind::temporality_preference", "opentelemetry-sdk/src/metrics/pipeline.rs: Inserter::cached_aggregator, aggregate_fn", "opentelemetry-prometheus/src/lib.rs: PrometheusExporter::temporality"]}
{"id": "C130", "title": "What is asked for on an instrument's builder is what each reader gets, callbacks included", "statement": "For every method of the meter and every list of calls on the builder it returns, whatever instruments were created before on however many readers: if the name, the last unit and, for a histogram, the last boundaries are valid, each measurement of the instrument goes for every reader to exactly one aggregator. It is the reader's only one with that scope, that kind and number type (those the method's name says), the last description, the last unit, and that name up to the case of letters. If the reader had no such aggregator it has one more, with the name as written, the last limit or 2000, and sums, last values or a histogram with the last boundaries or those of the specification, as the kind wants; otherwise nothing changes. An invalid declaration changes nothing and its measurements go nowhere. The callbacks each reader runs are those given to builders of valid observable instruments, each as often as given, in the order given, observing into the aggregators of their own instrument.", "quantifier": "every list of instrument declarations: sixteen methods, every scope, every name, every list of builder calls; every number of readers with any temporality preferences; no views", "why_tests_cant": "Tests create a few instruments through a few of the sixteen methods. The claim is about all methods, all orders and repetitions of builder calls and all earlier instruments, including ones that share an identity.", "anchors": ["opentelemetry/src/metrics/meter.rs: Meter::{u64_counter, .., u64_histogram}", "opentelemetry/src/metrics/instruments/mod.rs: HistogramBuilder, InstrumentBuilder, AsyncInstrumentBuilder, build_instrument!, build_async_instrument!", "opentelemetry-sdk/src/metrics/meter.rs: SdkMeter::create_*, InstrumentProvider for SdkMeter, InstrumentResolver::{lookup, measures}", "opentelemetry-sdk/src/metrics/pipeline.rs: Pipelines::register_callback, Pipeline::add_callback, Inserter::instrument"]}
{"id": "C131", "title": "What log processors change on a record is what the collector gets", "statement": "For every provider with a batch log processor among any other processors, for any threads that log by the API, by tracing events or by the log crate, every schedule and whatever the network does: each record the collector gets stands for a call that was to be logged, no call is there twice, and the record reads as the call said, as changed by the processors before the batch processor and by none after it. Each of those sees the record as the one before it left it; each field has the last value set, and attributes are added at the end. An attribute that a processor before the batch processor adds to every record is on every record the collector gets. After a flush with successful exports every call is accounted for. No setter called by a processor panics.", "quantifier": "every list of processors before and after the batch processor, stateful ones included; every history of logging calls on any threads; every schedule of the batch processor and its exporter; every behaviour of the network", "why_tests_cant": "Tests chain two processors and look at one record in memory. The claim is about any number of processors with any state, records of any size and concurrent logging through to the decoded request.", "anchors": ["opentelemetry-sdk/src/logs/log_processor.rs: LogProcessor::emit", "opentelemetry-sdk/src/logs/logger.rs: SdkLogger::emit", "opentelemetry-sdk/src/logs/record.rs: SdkLogRecord, LogRecord for SdkLogRecord", "opentelemetry-sdk/src/logs/batch_log_processor.rs: BatchLogProcessor::emit", "opentelemetry-sdk/src/logs/logger_provider.rs: LoggerProviderBuilder::with_log_processor", "opentelemetry-otlp/src/logs.rs: LogExporter"]}
{"id": "C132", "title": "From the calls that set up readers and create an instrument to what the collector is told", "statement": "For every list of readers, each set up with any temporalities in any order, every list of instruments created before, and every valid declaration of a new counter, up-down counter, gauge or histogram: its measurements go, for each reader, to exactly one aggregation. For every schedule of threads and collections, whatever the network does and with any wire format that can be read back, each metric the collector receives for it has the meter's scope, the name as written, the last description and the last unit given. It is a monotonic sum for counters, a sum that is not for up-down counters, a gauge or a histogram, as the method called says. Its points tell the sum, the last value, or count, sum, minimum, maximum and the buckets of the last boundaries given or of the specification's. It tells them period by period exactly if the last temporality given to that reader asks for delta for this kind of instrument, else since the start.", "quantifier": "every list of readers and of calls that set them up; every list of builder calls; every instrument created before; every schedule of recording threads and collections; every behaviour of the network", "why_tests_cant": "Tests of builders look at the instrument, tests of aggregations make the aggregation themselves, tests of exporters make their own data. That the parts fit together for every combination of calls and every schedule is not tested.", "anchors": ["opentelemetry/src/metrics/instruments/mod.rs: InstrumentBuilder, HistogramBuilder", "opentelemetry-sdk/src/metrics/meter.rs: SdkMeter", "opentelemetry-sdk/src/metrics/pipeline.rs: Inserter::cached_aggregator, aggregate_fn", "opentelemetry-sdk/src/metrics/internal/aggregate.rs: AggregateBuilder", "opentelemetry-sdk/src/metrics/internal/mod.rs: ValueMap", "opentelemetry-proto/src/transform/metrics.rs"]}
{"id": "C133", "title": "From the calls that set up readers and create an observable instrument with callbacks to what the collector is told", "statement": "For every list of readers, each set up with any temporalities in any order, every list of instruments created before, and every valid declaration of a new observable instrument: each reader runs the callbacks given to the builder, each as often as given and in order, after those it had before, and what they observe goes to exactly one aggregation of that reader. For every schedule, whatever the network does and with any wire format that can be read back, each metric the collector receives for it has the meter's scope, the name as written, the last description and unit given, and the form the method's name says. For a gauge its points tell what was observed last in that collection, whatever temporality is asked for. For a counter they tell the change since the collection before exactly if the last temporality given to the reader asks for delta for observable counters, else the value. An up-down counter always tells the value.", "quantifier": "every list of readers and of calls that set them up; every list of builder calls with any callbacks; every instrument created before; every schedule of collections; every behaviour of the network", "why_tests_cant": "Tests create one instrument with one callback and collect once or twice. That builder, registration, aggregation, temporality and export fit together for all combinations of calls and every schedule is not tested.", "anchors": ["opentelemetry/src/metrics/instruments/mod.rs: AsyncInstrumentBuilder", "opentelemetry-sdk/src/metrics/meter.rs: SdkMeter", "opentelemetry-sdk/src/metrics/pipeline.rs: Pipelines::register_callback, Pipeline::produce", "opentelemetry-sdk/src/metrics/internal/aggregate.rs: AggregateBuilder", "opentelemetry-sdk/src/metrics/internal/precomputed_sum.rs: PrecomputedSum", "opentelemetry-sdk/src/metrics/internal/last_value.rs: LastValue"]}
{"id": "C134", "title": "From a view and the instrument it selects to what the collector is told", "statement": "For every view made from criteria and a mask, and every synchronous instrument that it selects, new to the reader: the instrument's measurements go to exactly one aggregation of the reader for each such view that does not drop the instrument, and to no other. For every schedule, whatever the network does and with any wire format that can be read back, each metric the collector receives for it has the meter's scope, and name, description and unit of the view where it gives them and of the instrument where it does not. It has the form the view asks for: a sum, a last value, a histogram with the view's boundaries or an exponential histogram with the view's size and scale. Two measurements are in one point exactly if the attributes whose keys the view allows are the same; a point tells the values of all of them: of a period exactly if the last temporality given to the reader asks for delta for the instrument's own kind, else since the start.", "quantifier": "every list of views, each with any criteria and mask, with wildcards or without, and selecting the instrument or not; every instrument created before; every list of calls that set up the reader; every schedule of threads and collections; every behaviour of the network", "why_tests_cant": "Tests of views check the stream that a view returns, or one collection of one instrument through an in-memory exporter. That criteria, mask, attribute filter, limit, aggregation and temporality fit together up to the received message is not tested.", "anchors": ["opentelemetry-sdk/src/metrics/view.rs: new_view", "opentelemetry-sdk/src/metrics/pipeline.rs: Inserter::instrument, Inserter::cached_aggregator, aggregate_fn", "opentelemetry-sdk/src/metrics/internal/aggregate.rs: AttributeSetFilter::apply, AggregateBuilder", "opentelemetry-sdk/src/metrics/instrument.rs: ResolvedMeasures"]}
{"id": "C135", "title": "After a flush the collector has what was measured with an instrument as declared, and past its limit nothing is lost", "statement": "For every list of readers, each set up with any temporalities, every list of instruments created before and every valid declaration of a new synchronous instrument, and for every schedule of threads, callers and the reader's worker: once a periodic reader's force_flush or shutdown has returned Ok, the collector has, under the scope, name, description and unit asked for and in the form of the method's name, all that was measured before the call. If the last temporality given does not ask for delta, it has one metric with a point for each attribute set measured before, that tells all values of the set measured before the call and perhaps later ones. If it asks for delta and no export has failed, the metrics received tell them together. And for any number of attribute sets: a metric has at most two points more than the limit asked for, and the points together tell each value exactly once.", "quantifier": "every list of readers and of calls that set them up; every list of builder calls; every schedule of measuring threads, flushing threads and the worker; every behaviour of the network; any number of attribute sets", "why_tests_cant": "Tests flush a counter once with one thread and compare one number, or exceed the default limit with one instrument. That declaration, limit, temporality, flush and overflow fit together for every schedule is not tested.", "anchors": ["opentelemetry-sdk/src/metrics/periodic_reader.rs: PeriodicReader::force_flush, PeriodicReader::shutdown", "opentelemetry/src/metrics/instruments/mod.rs: InstrumentBuilder", "opentelemetry-sdk/src/metrics/meter.rs: SdkMeter", "opentelemetry-sdk/src/metrics/internal/mod.rs: ValueMap", "opentelemetry-sdk/src/metrics/internal/aggregate.rs: AggregateBuilder"]}
{"id": "C136", "title": "After a flush of the meter provider every reader's collector has what was measured with an instrument as declared", "statement": "For every list of periodic readers, each set up with any temporalities, every list of instruments created before and every valid declaration of a new synchronous instrument, and for every schedule of measuring threads, of threads that flush or shut down the provider or a reader, and of the readers' workers: every reader records each measurement exactly once; force_flush and shutdown of the provider ask every reader even if some fail, and return Ok only if all have answered Ok; after an Ok, the collector of every reader has, under the scope, name, description and unit asked for and in the form of the method's name, all that had been measured before the call: as totals since the start, or as periods, by what that reader was set up for. A reader that has answered Ok has done so whatever the others do. The same for an instrument that some of the provider's views select, for each of these views, in the form, name and limit and by the attributes that the view wants. Past the limit asked for, when no call is underway, each delta reader's collector and store together have every value exactly once, and each metric of a cumulative reader tells no value twice.", "quantifier": "every list of readers and of calls that set them up; every list of builder calls; every schedule of measuring threads, flushing threads and all workers; every behaviour of each reader's network; any number of attribute sets for the last part", "why_tests_cant": "Tests use one reader, or two readers and one thread, and compare one number. That each of several readers with different temporalities gets all, for every interleaving of measurements that are between readers with a provider flush that is between readers, is not tested.", "anchors": ["opentelemetry-sdk/src/metrics/meter_provider.rs: SdkMeterProvider::force_flush, SdkMeterProvider::shutdown", "opentelemetry-sdk/src/metrics/pipeline.rs: Pipelines::force_flush, Pipelines::shutdown, Resolver::measures", "opentelemetry-sdk/src/metrics/instrument.rs: ResolvedMeasures::measure", "opentelemetry-sdk/src/metrics/periodic_reader.rs: PeriodicReader", "opentelemetry-sdk/src/metrics/meter.rs: SdkMeter"]}
