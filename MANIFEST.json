{
 "claims": [
  {
   "property": "C01",
   "status": "proved",
   "theorems": [
    "Otel.Ctx.current_is_newest_live",
    "Otel.Ctx.current_while_room",
    "Otel.Ctx.rebinding_refused_violated"
   ],
   "note": "every history of attaches and guard drops within the capacity: current_while_room for histories of any length, current_is_newest_live for at most 65534 attaches. rebinding_refused_violated: places below a live guard are not reused, so the capacity can be exhausted with one context attached."
  },
  {
   "property": "C02",
   "status": "proved",
   "theorems": [
    "Otel.Ctx.current_with_overflow",
    "Otel.Ctx.current_with_overflow'",
    "Otel.Ctx.refused_attach_noop",
    "Otel.Ctx.refused_only_when_full",
    "Otel.Ctx.stack_fills"
   ],
   "note": ""
  },
  {
   "property": "C03",
   "status": "proved",
   "theorems": [
    "Otel.Ctx.derive_chain"
   ],
   "note": ""
  },
  {
   "property": "C04",
   "status": "proved",
   "theorems": [
    "Otel.Ctx.poll_restores",
    "Otel.Ctx.poll_sees_own_context",
    "Otel.Ctx.poll_with_guards",
    "Otel.Ctx.poll_restores_tidy",
    "Otel.Ctx.guard_across_await_violated"
   ],
   "note": "Finding: a guard kept across an await leaks its context to whatever runs next on the thread."
  },
  {
   "property": "C05",
   "status": "proved",
   "theorems": [
    "Otel.traceId_text_roundtrip",
    "Otel.spanId_text_roundtrip",
    "Otel.id_text_shape",
    "Otel.id_text_injective",
    "Otel.traceId_bytes_roundtrip",
    "Otel.spanId_bytes_roundtrip",
    "Otel.flags_with_sampled"
   ],
   "note": ""
  },
  {
   "property": "C06",
   "status": "proved",
   "theorems": [
    "Otel.Prop.W3C.w3c_roundtrip"
   ],
   "note": ""
  },
  {
   "property": "C07",
   "status": "proved",
   "theorems": [
    "Otel.Prop.W3C.extract_iff",
    "Otel.Prop.W3C.extract_all_or_nothing",
    "Otel.Prop.W3C.extract_refuses"
   ],
   "note": ""
  },
  {
   "property": "C08",
   "status": "partial",
   "theorems": [
    "Otel.Prop.W3C.grammar_partial",
    "Otel.Prop.W3C.grammar_violated",
    "Otel.Prop.W3C.level2_flags_refused"
   ],
   "note": "the parser accepts texts outside the W3C grammar ('+' signs, short hex, trailing '-'); negation proved with a witness"
  },
  {
   "property": "C09",
   "status": "partial",
   "theorems": [
    "Otel.TraceState.insert_spec",
    "Otel.TraceState.delete_partial",
    "Otel.TraceState.delete_violated",
    "Otel.TraceState.history_partial"
   ],
   "note": "delete leaves a second entry when a tracestate has duplicate keys; negation proved with a witness"
  },
  {
   "property": "C10",
   "status": "partial",
   "theorems": [
    "Otel.TraceState.built_valid",
    "Otel.TraceState.header_roundtrip",
    "Otel.TraceState.accepted_key_w3c_partial",
    "Otel.TraceState.empty_key_violated",
    "Otel.TraceState.w3c_key_refused_violated"
   ],
   "note": "accepts the empty key and refuses some W3C keys; negations proved with witnesses"
  },
  {
   "property": "C100",
   "status": "proved",
   "theorems": [
    "Otel.Sdk.Scoped.exec_eval",
    "Otel.Sdk.Scoped.nested_calls_traced",
    "Otel.Sdk.Scoped.one_trace_inside",
    "Otel.Sdk.Scoped.sampled_delivered",
    "Otel.Sdk.Scoped.full_stack_violated"
   ],
   "note": "exec_eval: the thread with its context stack and counted holders does what a specification without stack and holders says, also with explicit ends and shutdown. nested_calls_traced: what processors receive. full_stack_violated: beyond the limit of the stack the block runs in the outer context and its span is already ended."
  },
  {
   "property": "C101",
   "status": "partial",
   "theorems": [
    "Otel.EndToEnd.Scrape.scrape_shows_partial",
    "Otel.EndToEnd.Scrape.series_distinct_partial",
    "Otel.EndToEnd.Scrape.series_grows_partial",
    "Otel.EndToEnd.Scrape.counter_never_falls_partial",
    "Otel.EndToEnd.Scrape.series_types",
    "Otel.EndToEnd.Scrape.u64_shown",
    "Otel.EndToEnd.Scrape.i64_shown",
    "Otel.EndToEnd.Scrape.gauge_shown",
    "Otel.EndToEnd.Scrape.histogram_shown",
    "Otel.EndToEnd.Scrape.scraped_example",
    "Otel.EndToEnd.Scrape.series_of_repeated_key_violated",
    "Otel.EndToEnd.Scrape.series_distinct_violated",
    "Otel.EndToEnd.Scrape.apart_of_type"
   ],
   "note": "Partial: false for a measurement that repeats a key (series_of_repeated_key_violated: which series it gives is up to the order of a hash map) and for sets whose values have the same text (series_distinct_violated: 1 and \"1\" give two series with the same labels); the other theorems assume distinct keys and texts where they need them, and at most as many sets as the limit. Sums of doubles are shown as the collection has them (C39)."
  },
  {
   "property": "C102",
   "status": "partial",
   "theorems": [
    "Otel.Common.value_texts",
    "Otel.Common.text_tells_values_partial",
    "Otel.Common.string_array_violated",
    "Otel.Common.text_types_violated"
   ],
   "note": "Partial: false for arrays of strings with quotation marks, which are not escaped (string_array_violated); text_tells_values_partial excludes these. text_types_violated shows why the type is needed. The digits of doubles are not modelled: FloatText states what is used of the standard library."
  },
  {
   "property": "C103",
   "status": "partial",
   "theorems": [
    "Otel.EndToEnd.observable_changes_partial",
    "Otel.EndToEnd.observable_values_partial",
    "Otel.EndToEnd.changes_add_up",
    "Otel.EndToEnd.u64_tells",
    "Otel.EndToEnd.i64_tells",
    "Otel.EndToEnd.f64_tells",
    "Otel.EndToEnd.assign_reads",
    "Otel.EndToEnd.watched_measured",
    "Otel.EndToEnd.skipped_set_violated",
    "Otel.EndToEnd.restarted_counter_violated",
    "Otel.EndToEnd.observable_changes_example",
    "Otel.EndToEnd.observable_values_example",
    "Otel.Metrics.Obs.delta_tells_callbacks",
    "Otel.Metrics.Obs.cumulative_tells_callbacks",
    "Otel.Metrics.Obs.callbacks_run_to_end"
   ],
   "note": "Partial: false for a set that the callbacks skip in one collection, whose whole value is counted again (skipped_set_violated), and for a counter whose value decreases, whose change wraps around and arrives as 0 (restarted_counter_violated). The theorems are for at most as many attribute sets as the limit and for values that are not empty arrays; the delta theorem also for attributes sorted by key. What the callbacks observe is taken as given by the program; a callback that itself collects is not modelled."
  },
  {
   "property": "C104",
   "status": "partial",
   "theorems": [
    "Otel.EndToEnd.Flush.flushed_cumulative_partial",
    "Otel.EndToEnd.Flush.flushed_delta_partial",
    "Otel.EndToEnd.Flush.flushed_counter_partial",
    "Otel.EndToEnd.Flush.flushed_delta_violated",
    "Otel.EndToEnd.Flush.flushed_cumulative_example",
    "Otel.EndToEnd.Flush.flushed_delta_example"
   ],
   "note": "Partial: false with delta temporality after an export that failed, whose values are gone while the next flush returns Ok (flushed_delta_violated), so the delta theorem is for runs without a failed export. For exporters that look at the answer (the HTTP metrics exporter does not, C86), at most as many attribute sets as the limit and attribute values that are not empty arrays. Callbacks that flush from the worker are in C48."
  },
  {
   "property": "C105",
   "status": "partial",
   "theorems": [
    "Otel.EndToEnd.route_one_trace_partial",
    "Otel.EndToEnd.route_linked",
    "Otel.EndToEnd.route_debug_violated"
   ],
   "note": "Partial: false for debug contexts of B3, whose sampling decision is lost in the single header (route_debug_violated). For contexts without the debug and deferred flags of B3; requests must not have headers of another trace in them, nor headers that start with Jaeger's prefix for baggage; trace states are printable over HTTP (C85); no service is shut down or suppresses telemetry (C90)."
  },
  {
   "property": "C106",
   "status": "partial",
   "theorems": [
    "Otel.EndToEnd.Baggages.route_baggage_partial",
    "Otel.EndToEnd.Baggages.route_size_partial",
    "Otel.EndToEnd.Baggages.route_limit_violated"
   ],
   "note": "Partial: false at the limits of the size, where removed entries count until the next request (route_limit_violated, the cause is that of C12). For routes whose insertions together are within the limits, portable entries (C13) and, over HTTP, printable metadata (C85)."
  },
  {
   "property": "C107",
   "status": "partial",
   "theorems": [
    "Otel.Prop.Bag.decode_encode",
    "Otel.Prop.Bag.display_read_partial",
    "Otel.Prop.Bag.display_injective_partial",
    "Otel.Prop.Bag.display_metadata_violated",
    "Otel.Prop.Bag.encode_plain_iff"
   ],
   "note": "Partial: false for metadata with a comma (display_metadata_violated), which are written as they are. For keys and metadata without percent escapes and texts without white space around them; values may have any characters."
  },
  {
   "property": "C108",
   "status": "proved",
   "theorems": [
    "Otel.EndToEnd.AsyncPipe.async_spans_arrive_once",
    "Otel.EndToEnd.AsyncPipe.async_flushed_spans_arrive",
    "Otel.EndToEnd.AsyncPipe.async_logs_arrive_once",
    "Otel.EndToEnd.AsyncPipe.async_flushed_logs_arrive",
    "Otel.EndToEnd.AsyncPipe.async_spans_in_protobuf"
   ],
   "note": "For the spans and records the messages can hold (C54); the processors are those of C76 and C77, the exporters those of C86, the requests those of C53."
  },
  {
   "property": "C109",
   "status": "proved",
   "theorems": [
    "Otel.EndToEnd.overflow_delta",
    "Otel.EndToEnd.overflow_nothing_lost",
    "Otel.EndToEnd.overflow_cumulative",
    "Otel.EndToEnd.updown_total",
    "Otel.EndToEnd.histogram_count_total",
    "Otel.EndToEnd.overflow_example",
    "Otel.EndToEnd.overflow_histogram_example",
    "Otel.EndToEnd.overflow_cumulative_example",
    "Otel.Metrics.Conc.pointValues_own",
    "Otel.Metrics.Conc.pointValues_overflow",
    "Otel.Metrics.Conc.delta_limited",
    "Otel.Metrics.Conc.cumulative_limited",
    "Otel.Metrics.Conc.delta_all"
   ],
   "note": "For attribute values that are not empty arrays (C52). A cumulative collection may read its points at different moments, so that it tells at least what was there at its beginning and at most what was there at its end."
  },
  {
   "property": "C11",
   "status": "proved",
   "theorems": [
    "Otel.Baggage.baggage_limits"
   ],
   "note": ""
  },
  {
   "property": "C110",
   "status": "partial",
   "theorems": [
    "Otel.Sdk.Bsp.labels_length",
    "Otel.Sdk.Bsp.labelled_once_handled",
    "Otel.Sdk.Bsp.labelled_after_flush",
    "Otel.Sdk.Bsp.flush_batch_labelled",
    "Otel.Sdk.Bsp.at_most_one_unlabelled_partial",
    "Otel.Sdk.Bsp.span_batch_unlabelled_violated",
    "Otel.Logs.Blp.labels_length",
    "Otel.Logs.Blp.labelled_once_handled",
    "Otel.Logs.Blp.labelled_after_flush",
    "Otel.Logs.Blp.flush_batch_labelled",
    "Otel.Logs.Blp.all_labelled_partial",
    "Otel.Logs.Blp.labelled_after_round",
    "Otel.Logs.Blp.log_batch_unlabelled_violated",
    "Otel.Async.async_resource"
   ],
   "note": "The full statement is false of the processors with a thread: if the worker's timer has just expired when the provider is built, a span or record that follows at once is exported without the resource. It holds of the processors on an async runtime, which use one channel."
  },
  {
   "property": "C111",
   "status": "partial",
   "theorems": [
    "Otel.EndToEnd.Readers.each_reader_alone",
    "Otel.EndToEnd.Readers.every_reader_takes_all",
    "Otel.EndToEnd.Readers.provider_asks_all",
    "Otel.EndToEnd.Readers.provider_ok_all",
    "Otel.EndToEnd.Readers.provider_flush_cumulative_partial",
    "Otel.EndToEnd.Readers.provider_flush_delta_partial"
   ],
   "note": "What the collector has after an Ok is subject to the limits of C104: within the cardinality limit, no empty arrays, and for delta temporality no failed export before (flushed_delta_violated there). The instrument has one stream per reader."
  },
  {
   "property": "C112",
   "status": "partial",
   "theorems": [
    "Otel.EndToEnd.Fan.each_alone",
    "Otel.EndToEnd.Fan.every_part_given",
    "Otel.EndToEnd.Fan.provider_asks_all",
    "Otel.EndToEnd.Fan.provider_ok_all",
    "Otel.EndToEnd.Fan.provider_hands_on",
    "Otel.EndToEnd.Fan.provider_flush_arrives_partial",
    "Otel.EndToEnd.Fan.example_processors",
    "Otel.EndToEnd.Fan.Simple.simple_after_shutdown"
   ],
   "note": "What has arrived after an Ok is subject to the limits of C27 and C34 (Kind.Fits): every export of the processor succeeded, no more than one batch of spans was waiting, no emit was between its two steps. Without them it is false (flushed_spans_violated)."
  },
  {
   "property": "C113",
   "status": "partial",
   "theorems": [
    "Otel.Resource.Provider.provider_resource",
    "Otel.Resource.Provider.provider_resource_url",
    "Otel.Resource.Provider.tracer_resource_partial",
    "Otel.Resource.Provider.tracer_resource_equal",
    "Otel.Resource.Provider.tracer_resource_violated"
   ],
   "note": "Proved in full for logger and meter providers. For tracer providers it is false of zeroes: 0.0 and -0.0 are equal, so that a provider given -0.0 has 0.0 if an earlier provider of the process had it (tracer_resource_violated); otherwise proved."
  },
  {
   "property": "C114",
   "status": "partial",
   "theorems": [
    "Otel.Sdk.JaegerTask.clones_follow_last_answer",
    "Otel.Sdk.JaegerTask.requests_spaced",
    "Otel.Sdk.JaegerTask.polling_stops_violated",
    "Otel.Sdk.JaegerTask.polling_stops_partial",
    "Otel.Sdk.JaegerEndpoint.endpoint_service",
    "Otel.Sdk.JaegerEndpoint.endpoint_empty",
    "Otel.Sdk.JaegerEndpoint.service_only_partial",
    "Otel.Sdk.JaegerEndpoint.service_in_endpoint_violated"
   ],
   "note": "False in two parts: the update task holds a reference to the value whose drop would tell it to stop, so it is never told and goes on asking after the last clone is gone (polling_stops_violated); a service name in the endpoint is not ignored but comes first (service_in_endpoint_violated). The rest is proved; an answer without a usable strategy is C58's finding."
  },
  {
   "property": "C115",
   "status": "partial",
   "theorems": [
    "Otel.EndToEnd.Together.route_together_partial",
    "Otel.EndToEnd.Together.receiver_linked",
    "Otel.EndToEnd.Together.stale_baggage_violated"
   ],
   "note": "False when a service without baggage sends into headers that have some: the baggage propagator then sets nothing and the old header stays (stale_baggage_violated). Also excluded: entries that are not portable (C13), the limits (C106), and trace states or metadata that are not printable, over HTTP (C85)."
  },
  {
   "property": "C116",
   "status": "partial",
   "theorems": [
    "Otel.EndToEnd.Filters.wanted_event_delivered",
    "Otel.EndToEnd.Filters.unwanted_event_held_back_partial",
    "Otel.EndToEnd.Filters.batch_filter_ignored_violated",
    "Otel.EndToEnd.Filters.refused_event_delivered_violated",
    "Otel.Logs.Conc.exporter_sees_calls",
    "Otel.Logs.Conc.returned_is_exported",
    "Otel.Logs.Conc.exported_was_emitted",
    "Otel.Logs.Conc.exports_overlap",
    "Otel.Logs.Conc.concurrent_emit_after_shutdown_violated"
   ],
   "note": "False in three ways: the batch processors never ask their exporter (batch_filter_ignored_violated); an exporter that refuses an event gets it when another wants it (refused_event_delivered_violated); the concurrent processor goes on exporting after shutdown (concurrent_emit_after_shutdown_violated)."
  },
  {
   "property": "C117",
   "status": "partial",
   "theorems": [
    "Otel.Async.abandoned_delivers_partial",
    "Otel.Async.abandoned_tick",
    "Otel.Async.abandoned_never_stops_violated",
    "Otel.Async.drop_with_full_queue_violated"
   ],
   "note": "Delivery holds as long as the runtime keeps the task. Clean-up is false: without a shutdown message the task ticks for ever and the exporter is never shut down (abandoned_never_stops_violated); dropping the provider does not help when the channel is full (drop_with_full_queue_violated)."
  },
  {
   "property": "C118",
   "status": "partial",
   "theorems": [
    "Otel.Sdk.BatchTiming.log_in_time",
    "Otel.Sdk.BatchTiming.span_in_time_partial",
    "Otel.Sdk.BatchTiming.span_in_one_round",
    "Otel.Sdk.BatchTiming.timer_not_early",
    "Otel.Sdk.BatchTiming.never_stuck",
    "Otel.Sdk.BatchTiming.span_waits_longer_violated",
    "Otel.Async.Ticker.ticks_regular_partial",
    "Otel.Async.Ticker.first_tick_two_intervals_violated",
    "Otel.Sdk.BatchTiming.idle_waits_whole_delay"
   ],
   "note": "Holds for log records (delay plus twice the export time of a wake-up). For spans only as many rounds later as there are full batches ahead, because a wake-up exports one batch (span_waits_longer_violated). On async runtimes the first tick comes after two intervals (first_tick_two_intervals_violated). Time is a natural number, threads that can run do so at once."
  },
  {
   "property": "C119",
   "status": "partial",
   "theorems": [
    "Otel.JsonText.text_read_back",
    "Otel.JsonText.text_injective",
    "Otel.Zipkin.zipkin_body_describes",
    "Otel.JsonText.traces_text_conform_partial",
    "Otel.JsonText.logs_text_conform_partial",
    "Otel.JsonText.metrics_text_conform_partial",
    "Otel.JsonText.traces_text_read_back_partial",
    "Otel.JsonText.logs_text_read_back_partial",
    "Otel.JsonText.metrics_text_read_back_partial"
   ],
   "note": "The printer is modelled from the documented behaviour of serde_json, whose source is not in the repository; the reader is written from RFC 8259. The text of a double is a parameter: it is a number with a fraction or an exponent (bitsText_ok meets this). Partial because OTLP/JSON has the exceptions of C83 and C84, such as doubles that are not finite. That a root span has a parentId of zeros is a finding of C61."
  },
  {
   "property": "C12",
   "status": "partial",
   "theorems": [
    "Otel.Baggage.insert_effect",
    "Otel.Baggage.remove_effect",
    "Otel.Baggage.insert_accepted_iff_fits_partial",
    "Otel.Baggage.accepted_only_if_fits",
    "Otel.Baggage.rejected_after_remove_violated"
   ],
   "note": "after a remove an insert that fits can be rejected: remove does not give its bytes back; negation proved with a witness"
  },
  {
   "property": "C120",
   "status": "partial",
   "theorems": [
    "Otel.Otlp.single_span_partial",
    "Otel.Otlp.single_spans_batch",
    "Otel.Otlp.single_log",
    "Otel.Otlp.latency_partial",
    "Otel.Otlp.running_partial",
    "Otel.Otlp.error_partial",
    "Otel.Logs.LogBatch.iter_yields",
    "Otel.Otlp.single_span_schema_violated",
    "Otel.Otlp.single_log_scope_violated"
   ],
   "note": "Partial because of the limits of C54 (empty arrays, remote contexts, times past 64 bits). Findings: a batch of one item is not the request of that item: the batch gives the schema url of the resource for the scope, and drops the version and the attributes of the scope of a log record, which the request of one record keeps."
  },
  {
   "property": "C121",
   "status": "partial",
   "theorems": [
    "Otel.Sdk.JaegerAnswer.answer_understood_partial",
    "Otel.Sdk.JaegerAnswer.rate_limit_understood_partial",
    "Otel.Sdk.JaegerAnswer.unreadable_keeps",
    "Otel.Sdk.JaegerAnswer.rate_limit_refused_violated",
    "Otel.Sdk.JaegerAnswer.left_out_refused_violated"
   ],
   "note": "Findings: the type of a rate limiting answer is read as RATELIMITING, but sampling.proto calls it RATE_LIMITING, so that no such answer is accepted; entries with a default value, which the JSON form of protobuf leaves out, make an answer unreadable: strategyType, and the bounds of strategies per operation."
  },
  {
   "property": "C122",
   "status": "partial",
   "theorems": [
    "Otel.EndToEnd.spans_arrive_in_json_partial",
    "Otel.EndToEnd.flushed_spans_arrive_in_json_partial",
    "Otel.EndToEnd.logs_arrive_in_json_partial",
    "Otel.EndToEnd.flushed_logs_arrive_in_json_partial",
    "Otel.EndToEnd.sdk_metrics_text_partial",
    "Otel.EndToEnd.nan_batch_lost_violated"
   ],
   "note": "Finding: one attribute that is not a number makes the text of its batch unreadable, so that all spans of the batch are lost although every export succeeded. Log values more than 29 deep and more than one batch waiting at a flush (C91) are missing."
  },
  {
   "property": "C123",
   "status": "partial",
   "theorems": [
    "Otel.Otlp.Grpc.grpc_build",
    "Otel.Otlp.Grpc.grpc_metadata_partial",
    "Otel.Otlp.Grpc.grpc_env_sent",
    "Otel.Otlp.Grpc.code_metadata_overridden_violated"
   ],
   "note": "proved, except that a header of the environment replaces the one the code gives (witness); which texts are URIs and which TLS settings an address takes are parameters, what tonic does to a request when sending it is left out"
  },
  {
   "property": "C124",
   "status": "partial",
   "theorems": [
    "Otel.EndToEnd.Scrape.observable_scrape_partial",
    "Otel.EndToEnd.Scrape.observable_last_partial",
    "Otel.EndToEnd.Scrape.observable_never_falls_partial",
    "Otel.EndToEnd.Scrape.stale_series_violated"
   ],
   "note": "proved for at most as many attribute sets as the limit and instruments whose exported name no other metric uses; sets no longer observed keep their series (witness)"
  },
  {
   "property": "C125",
   "status": "partial",
   "theorems": [
    "Otel.Sdk.Facade.boxed_same_partial",
    "Otel.Sdk.Facade.ref_same_partial",
    "Otel.Sdk.Facade.remote_inert",
    "Otel.Sdk.Facade.global_same_partial",
    "Otel.Sdk.Facade.sdk_global_same",
    "Otel.Sdk.Facade.sdk_ref_same",
    "Otel.Sdk.Facade.noop_global",
    "Otel.Sdk.Facade.own_end_violated",
    "Otel.Sdk.Facade.ref_link_violated",
    "Otel.Sdk.Facade.sdk_global_model"
   ],
   "note": "An implementation with its own end, add_event, record_error or set_attributes is bypassed by boxed spans and contexts (own_end_violated); links cannot be added through a context (ref_link_violated). For the SDK's spans the property holds in full."
  },
  {
   "property": "C126",
   "status": "partial",
   "theorems": [
    "Otel.Prom.Builder.prom_settings",
    "Otel.Prom.Builder.prom_scraped",
    "Otel.Prom.Builder.prom_shown_partial",
    "Otel.Prom.Builder.prom_build_iff",
    "Otel.Prom.Builder.second_exporter_violated",
    "Otel.Prom.Builder.default_registry_violated"
   ],
   "note": "Settings for all calls, and the effect of each on the scraped names and labels. An exporter that was built with a registry is shown by it for ever, once, with its settings, and nowhere else; a build succeeds exactly if the registry has no exporter yet and no collector whose numbers sum to zero. Two parts are false of the code: a second exporter for the same registry is always refused, because exporters' collectors describe nothing and so all have the same number; and without a registry the exporter goes to a new registry nobody has a handle of, so no scrape ever shows it. How the registry numbers and keeps collectors is assumed from the prometheus crate, whose source is not in the repository; removing collectors is not modelled."
  },
  {
   "property": "C127",
   "status": "proved",
   "theorems": [
    "Otel.Sdk.Configured.configured_spans",
    "Otel.Sdk.Configured.env_choice",
    "Otel.Sdk.Configured.inRatio_iff",
    "Otel.Sdk.Configured.limited"
   ],
   "note": "configured_spans composes the configuration (C52, C72), the samplers (C18, C19) and the span's life (C20-C23). The processors do not change or end the span in on_start; no sampling result is given with the builder; custom samplers and the remote sampler are other properties. Rounding and parsing of floats are parameters."
  },
  {
   "property": "C128",
   "status": "partial",
   "theorems": [
    "Otel.Sdk.ConfiguredBatch.configured_span_batches",
    "Otel.Sdk.ConfiguredBatch.configured_log_batches",
    "Otel.Sdk.ConfiguredBatch.configured_async_spans",
    "Otel.Sdk.ConfiguredBatch.configured_async_logs",
    "Otel.Sdk.ConfiguredBatch.zero_size_violated"
   ],
   "note": "Composes the configuration (C52) with the processors (C26, C33, C76). Proved for positive sizes; a batch size of zero from the environment is accepted and bounds nothing (zero_size_violated)."
  },
  {
   "property": "C129",
   "status": "proved",
   "theorems": [
    "Otel.Temporality.temporality_told",
    "Otel.Temporality.gauge_resets",
    "Otel.Temporality.otlp_build_iff"
   ],
   "note": "Composes the builders with the pipelines of C47 and C70 and the conversion of C54. That what is reported as delta or cumulative is so is C99 and C103. Errors of building the client are C123."
  },
  {
   "property": "C13",
   "status": "partial",
   "theorems": [
    "Otel.Prop.Bag.baggage_roundtrip_partial",
    "Otel.Prop.Bag.percent_value_violated",
    "Otel.Prop.Bag.value_cut_at_equals",
    "Otel.Prop.Bag.empty_baggage_not_injected",
    "Otel.Prop.Bag.baggage_extract_effect",
    "Otel.Prop.Bag.baggage_member",
    "Otel.Prop.Bag.baggage_member_without_equals"
   ],
   "note": "'%' is not escaped on injection; negation proved with a witness"
  },
  {
   "property": "C130",
   "status": "proved",
   "theorems": [
    "Otel.Metrics.MeterApi.asked_is_created",
    "Otel.Metrics.MeterApi.invalid_asked_for_nothing",
    "Otel.Metrics.MeterApi.callbacks_registered"
   ],
   "note": "No views: those are C47, C70 and C129. What the aggregators do with measurements is C36 to C43, what a collection does with callbacks C75 and C103. Finding the aggregator twice with other boundaries or another limit is C47's later_boundaries_ignored_violated."
  },
  {
   "property": "C131",
   "status": "partial",
   "theorems": [
    "Otel.EndToEnd.Enrich.enriched_arrive_once",
    "Otel.EndToEnd.Enrich.enriched_accounted_partial",
    "Otel.EndToEnd.Enrich.added_attribute_arrives",
    "Otel.EndToEnd.Enrich.edits_never_panic"
   ],
   "note": "Generalizes C98 to a batch processor at any place. Partial for the reason given there: the accounting after a flush needs that no emit was between its two steps when the worker began the flush (C34). Processors change records by the setters of LogRecord; overwriting a record with a clone of another one is not modelled."
  },
  {
   "property": "C132",
   "status": "partial",
   "theorems": [
    "Otel.EndToEnd.Created.u64_counter_arrives_partial",
    "Otel.EndToEnd.Created.i64_up_down_counter_arrives_partial",
    "Otel.EndToEnd.Created.f64_sum_arrives_partial",
    "Otel.EndToEnd.Created.gauge_arrives_partial",
    "Otel.EndToEnd.Created.u64_histogram_arrives_partial",
    "Otel.EndToEnd.Created.f64_histogram_arrives_partial",
    "Otel.EndToEnd.Created.created_example"
   ],
   "note": "Composes C129, C130 and C99, and is partial for the reasons of C99: at most as many attribute sets as the limit asked for (C109 tells the rest), unsigned sums and gauges below 2^63, finite histogram values, no attribute values that are empty arrays. A second declaration of the same instrument is C130. Views are C47 and C70, observable instruments C103. The protobuf format of C96 can be read back (protoMetricCfg_ok)."
  },
  {
   "property": "C133",
   "status": "partial",
   "theorems": [
    "Otel.EndToEnd.CreatedObservable.observable_sum_arrives_partial",
    "Otel.EndToEnd.CreatedObservable.observable_gauge_arrives_partial",
    "Otel.EndToEnd.CreatedObservable.created_observable_example"
   ],
   "note": "Composes C129, C130 and C103, and is partial for the reasons of C103: at most as many attribute sets as the limit asked for, changes only for sets observed in every collection and attributes sorted by key, values if no other reader runs the callbacks at the same time, no attribute values that are empty arrays, `u64` numbers below 2^63. Views are C47 and C70."
  },
  {
   "property": "C134",
   "status": "partial",
   "theorems": [
    "Otel.EndToEnd.Viewed.u64_sum_viewed_partial",
    "Otel.EndToEnd.Viewed.i64_sum_viewed_partial",
    "Otel.EndToEnd.Viewed.gauge_viewed_partial",
    "Otel.EndToEnd.Viewed.u64_histogram_viewed_partial",
    "Otel.EndToEnd.Viewed.f64_expo_viewed_partial",
    "Otel.EndToEnd.Viewed.viewed_example",
    "Otel.EndToEnd.Viewed.viewed_arrives_partial",
    "Otel.EndToEnd.Viewed.viewed_flushed_partial",
    "Otel.EndToEnd.Viewed.viewed_nothing_lost",
    "Otel.EndToEnd.Viewed.several_views_partial",
    "Otel.EndToEnd.Viewed.dropped_nothing",
    "Otel.EndToEnd.Viewed.exSeveral"
   ],
   "note": "Composes C70, C47, C129 and C99. All forms and number types, exponential histograms of integers for values below 2^53; a flush as in C104, and past the limit nothing is lost as in C109. Any number of views may select the instrument and some may drop it, if what they ask for differs by more than the case of the name. Missing: views that ask for the same metric (C47), and the exclusions of C99 and C104: attribute values that are empty arrays, `u64` sums from 2^63. The exponential histogram needs a correct logarithm, as in C41."
  },
  {
   "property": "C135",
   "status": "partial",
   "theorems": [
    "Otel.EndToEnd.CreatedFlush.declared_flushed_partial",
    "Otel.EndToEnd.CreatedFlush.declared_nothing_lost",
    "Otel.EndToEnd.CreatedFlush.every_synchronous",
    "Otel.EndToEnd.CreatedFlush.declared_flushed_example"
   ],
   "note": "Composes C132 with C104 and C109. The part about the limit is proved in full. The flush is partial for the reasons of C104: at most as many attribute sets as the limit, no attribute values that are empty arrays, exporters that look at the answer, and with delta no failed export before (C104's witness). Observable instruments are C133, views C134."
  },
  {
   "property": "C136",
   "status": "partial",
   "theorems": [
    "Otel.EndToEnd.CreatedReaders.declared_provider_flushed_partial",
    "Otel.EndToEnd.CreatedReaders.declared_provider_nothing_lost",
    "Otel.EndToEnd.CreatedReaders.exDeclared",
    "Otel.EndToEnd.CreatedReaders.exFedBoth",
    "Otel.EndToEnd.CreatedReaders.declared_provider_example",
    "Otel.EndToEnd.ViewedReaders.viewed_provider_flushed_partial",
    "Otel.EndToEnd.ViewedReaders.exTwoCases",
    "Otel.EndToEnd.ViewedReaders.viewed_provider_example",
    "Otel.EndToEnd.ViewedReaders.several_views_provider_partial"
   ],
   "note": "Composes C135 with C111. The part about the limit, and that every reader records each measurement once and is asked, are proved in full. What the collectors have after a flush is partial for the reasons of C104: at most as many attribute sets as the limit, no attribute values that are empty arrays, exporters that look at the answer, and with delta no failed export before (C104's witness). Readers other than the periodic one with its own thread are C79 and C101."
  },
  {
   "property": "C14",
   "status": "partial",
   "theorems": [
    "Otel.Ctx.with_baggage_partial",
    "Otel.Ctx.cleared_baggage_unchanged",
    "Otel.Ctx.cleared_baggage_violated"
   ],
   "note": "with_cleared_baggage does not clear: negation proved with a witness"
  },
  {
   "property": "C15",
   "status": "partial",
   "theorems": [
    "Otel.Prop.B3.b3_roundtrip_partial",
    "Otel.Prop.B3.b3_roundtrip_flags",
    "Otel.Prop.B3.b3_single_violated",
    "Otel.Prop.B3.debug_sampled_flag",
    "Otel.Prop.B3.b3_extract_iff",
    "Otel.Prop.B3.b3_extract_effect",
    "Otel.Prop.B3.b3_inject_invalid"
   ],
   "note": "flags that say both debug and deferred lose debug through the single header; negation proved with a witness"
  },
  {
   "property": "C16",
   "status": "partial",
   "theorems": [
    "Otel.Prop.Jaeger.jaeger_roundtrip_partial",
    "Otel.Prop.Jaeger.jaeger_debug_violated",
    "Otel.Prop.Jaeger.jaeger_header_violated",
    "Otel.Prop.Jaeger.jaeger_extract_iff",
    "Otel.Prop.Jaeger.jaeger_extract_effect",
    "Otel.Prop.Jaeger.jaeger_names"
   ],
   "note": "a debug context that is not sampled, and header names that start with the baggage prefix, do not survive; witnesses proved"
  },
  {
   "property": "C17",
   "status": "partial",
   "theorems": [
    "Otel.Prop.B3.b3_extract_valid",
    "Otel.Prop.B3.b3_extract_iff",
    "Otel.Prop.Jaeger.jaeger_extract_partial",
    "Otel.Prop.Jaeger.jaeger_extract_iff",
    "Otel.Prop.Jaeger.jaeger_valid_violated",
    "Otel.Prop.B3.b3_parent_ignored"
   ],
   "note": "proved for B3; Jaeger accepts all-zero ids (witness)"
  },
  {
   "property": "C18",
   "status": "partial",
   "theorems": [
    "Otel.Prop.w3c_announces",
    "Otel.Prop.baggage_announces",
    "Otel.Prop.b3_announces_partial",
    "Otel.Prop.jaeger_announces_partial",
    "Otel.Prop.b3_single_announce_violated",
    "Otel.Prop.jaeger_announce_violated",
    "Otel.Prop.composite_announces",
    "Otel.Prop.composite_inject_extract",
    "Otel.Prop.composite_nested",
    "Otel.Prop.get_setAll"
   ],
   "note": "B3 single header and Jaeger with untrimmed names write headers they do not announce (witnesses)"
  },
  {
   "property": "C19",
   "status": "proved",
   "theorems": [
    "Otel.Sdk.ratio_threshold",
    "Otel.Sdk.ratio_two_valued",
    "Otel.Sdk.ratio_ge_one",
    "Otel.Sdk.ratio_le_zero",
    "Otel.Sdk.ratio_monotone",
    "Otel.Sdk.ratio_count",
    "Otel.Sdk.ratio_id_only"
   ],
   "note": "for every rounding mode that is exact on representable values"
  },
  {
   "property": "C20",
   "status": "proved",
   "theorems": [
    "Otel.Sdk.parent_based_child",
    "Otel.Sdk.one_decision_per_trace",
    "Otel.Sdk.parent_based_root",
    "Otel.Sdk.span_follows_decision",
    "Otel.Sdk.builder_decision_final"
   ],
   "note": ""
  },
  {
   "property": "C21",
   "status": "proved",
   "theorems": [
    "Otel.Sdk.child_linked",
    "Otel.Sdk.root_linked",
    "Otel.Sdk.tree_one_trace"
   ],
   "note": ""
  },
  {
   "property": "C22",
   "status": "proved",
   "theorems": [
    "Otel.Sdk.span_limits",
    "Otel.Sdk.kept_plus_dropped",
    "Otel.Sdk.with_links_valid",
    "Otel.Sdk.span_life"
   ],
   "note": ""
  },
  {
   "property": "C23",
   "status": "proved",
   "theorems": [
    "Otel.Sdk.ended_once",
    "Otel.Sdk.ended_once_now",
    "Otel.Sdk.dropped_once",
    "Otel.Sdk.shutdown_first",
    "Otel.Sdk.nonrecording_never_delivered",
    "Otel.Sdk.history_cases",
    "Otel.Sdk.not_recording_after_end",
    "Otel.Sdk.span_life",
    "Otel.Sdk.span_life_dropped"
   ],
   "note": ""
  },
  {
   "property": "C24",
   "status": "partial",
   "theorems": [
    "Otel.Sdk.status_of_edits",
    "Otel.Sdk.status_ok_final",
    "Otel.Sdk.status_exact",
    "Otel.Sdk.status_partial",
    "Otel.Sdk.status_last_error_violated"
   ],
   "note": "the last error description does not always win: the derived order compares descriptions; negation proved with a witness"
  },
  {
   "property": "C25",
   "status": "partial",
   "theorems": [
    "Otel.Sdk.simple_exports_sampled_partial",
    "Otel.Sdk.batch_exports_unsampled_violated",
    "Otel.Sdk.batch_exports_any"
   ],
   "note": "proved for the simple processor; the batch processor exports unsampled spans (witness)"
  },
  {
   "property": "C26",
   "status": "partial",
   "theorems": [
    "Otel.Sdk.Bsp.bsp_conservation",
    "Otel.Sdk.Bsp.bsp_every_span_accounted",
    "Otel.Sdk.Bsp.zero_batch_violated"
   ],
   "note": "proved for every schedule when max_export_batch_size > 0; with size 0, which the configuration admits, batches are unbounded (witness)"
  },
  {
   "property": "C27",
   "status": "partial",
   "theorems": [
    "Otel.Sdk.Bsp.flush_exports_one_batch",
    "Otel.Sdk.Bsp.flush_exports_all_partial",
    "Otel.Sdk.Bsp.flush_violated",
    "Otel.Sdk.Bsp.shutdown_loses_violated"
   ],
   "note": "flush and shutdown export one batch only: proved when the backlog fits one batch, negations proved with witnesses"
  },
  {
   "property": "C28",
   "status": "partial",
   "theorems": [
    "Otel.Sdk.Bsp.nothing_after_shutdown",
    "Otel.Sdk.Bsp.late_call_not_accepted",
    "Otel.Sdk.Bsp.one_shutdown_wins",
    "Otel.Sdk.Bsp.second_shutdown",
    "Otel.Sdk.Bsp.exporter_shutdown_violated",
    "Otel.Sdk.Bsp.late_flush_refused"
   ],
   "note": "all stated parts proved; in addition the exporter's own shutdown is never called (proved for every schedule)"
  },
  {
   "property": "C29",
   "status": "partial",
   "theorems": [
    "Otel.Sdk.no_span_after_shutdown",
    "Otel.Sdk.Prov.shutdown_once",
    "Otel.Sdk.Prov.one_effective_shutdown",
    "Otel.Sdk.Prov.dropped_all_shut",
    "Otel.Sdk.Prov.obtained_after_shutdown",
    "Otel.Sdk.Prov.later_shutdown",
    "Otel.Sdk.Prov.late_end_not_delivered",
    "Otel.Sdk.Prov.end_after_shutdown_violated",
    "Otel.Sdk.Prov.results_honest"
   ],
   "note": "proved for every schedule, except that a span whose end is concurrent with shutdown can reach a processor after it was shut down (witness)"
  },
  {
   "property": "C30",
   "status": "proved",
   "theorems": [
    "Otel.Sdk.suppressed_span",
    "Otel.Sdk.suppressed_derived",
    "Otel.Logs.suppressed_emit"
   ],
   "note": "spans and logs"
  },
  {
   "property": "C31",
   "status": "proved",
   "theorems": [
    "Otel.Logs.growable_is_list",
    "Otel.Logs.record_keeps_attributes"
   ],
   "note": "for every capacity and every sequence of calls"
  },
  {
   "property": "C32",
   "status": "proved",
   "theorems": [
    "Otel.Logs.emit_reaches_each_once",
    "Otel.Logs.watch_faithful",
    "Otel.Logs.record_fields",
    "Otel.Logs.event_enabled_iff"
   ],
   "note": "for arbitrary processors"
  },
  {
   "property": "C33",
   "status": "proved",
   "theorems": [
    "Otel.Logs.Blp.blp_conservation",
    "Otel.Logs.Blp.blp_resting"
   ],
   "note": "for every schedule; the bound on the batch size holds when max_export_batch_size > 0"
  },
  {
   "property": "C34",
   "status": "partial",
   "theorems": [
    "Otel.Logs.Blp.flush_exports_but_inflight",
    "Otel.Logs.Blp.flush_exports_all_partial",
    "Otel.Logs.Blp.inflight_counts",
    "Otel.Logs.Blp.nothing_after_exporter_shutdown",
    "Otel.Logs.Blp.shutdown_completes",
    "Otel.Logs.Blp.flush_misses_violated",
    "Otel.Logs.Blp.worker_stuck_violated",
    "Otel.Logs.Blp.counter_overflows_violated"
   ],
   "note": "proved up to the number of emits in flight when the worker starts; a flush can miss a record whose emit had returned, and the worker can loop forever (witnesses)"
  },
  {
   "property": "C35",
   "status": "partial",
   "theorems": [
    "Otel.Sdk.Prov.shutdown_once",
    "Otel.Sdk.Prov.one_effective_shutdown",
    "Otel.Sdk.Prov.dropped_all_shut",
    "Otel.Sdk.Prov.obtained_after_shutdown",
    "Otel.Sdk.Prov.later_shutdown",
    "Otel.Sdk.Prov.emit_after_shutdown_violated",
    "Otel.Sdk.Prov.results_honest"
   ],
   "note": "proved; a logger obtained earlier still reaches the processors after shutdown (witness)"
  },
  {
   "property": "C36",
   "status": "proved",
   "theorems": [
    "Otel.Metrics.counter_exact",
    "Otel.Metrics.collection_report",
    "Otel.Metrics.aggregates_by_set",
    "Otel.Metrics.increment"
   ],
   "note": "sequential calls; concurrency is C38"
  },
  {
   "property": "C37",
   "status": "proved",
   "theorems": [
    "Otel.Metrics.points_bounded",
    "Otel.Metrics.total_preserved",
    "Otel.Metrics.early_sets_exact",
    "Otel.Metrics.late_sets_overflow"
   ],
   "note": "for every limit and every sequence of measurements"
  },
  {
   "property": "C38",
   "status": "proved",
   "theorems": [
    "Otel.Metrics.Conc.calls_apply_once",
    "Otel.Metrics.Conc.delta_exactly_once",
    "Otel.Metrics.Conc.store_content",
    "Otel.Metrics.Conc.delta_total",
    "Otel.Metrics.Conc.cumulative_between",
    "Otel.Metrics.Conc.skipped_not_returned",
    "Otel.Metrics.Conc.store_progress"
   ],
   "note": "every schedule of lock sections and atomics, sequentially consistent"
  },
  {
   "property": "C39",
   "status": "proved",
   "theorems": [
    "Otel.Metrics.AtomicFloat.additions_never_lost",
    "Otel.Metrics.AtomicFloat.add_completes",
    "Otel.Metrics.u64_sum",
    "Otel.Metrics.i64_sum",
    "Otel.Metrics.f64_sum_start",
    "Otel.Metrics.AtomicFloat.add_call_completes"
   ],
   "note": "every interleaving of loads, compare-exchanges and resets; addition is any operation"
  },
  {
   "property": "C40",
   "status": "partial",
   "theorems": [
    "Otel.Metrics.histogram_exact",
    "Otel.Metrics.histogram_correct",
    "Otel.Metrics.bucket_index",
    "Otel.Metrics.bucket_index_lt",
    "Otel.Metrics.validate_boundaries",
    "Otel.Metrics.infinite_min_violated",
    "Otel.Metrics.nan_counted_violated"
   ],
   "note": "proved for every sequence of finite measurements; min is wrong for +inf and NaN is counted in the first bucket (witnesses)"
  },
  {
   "property": "C41",
   "status": "partial",
   "theorems": [
    "Otel.Metrics.Expo.expo_histogram_exact",
    "Otel.Metrics.Expo.expo_histogram_small_partial",
    "Otel.Metrics.Expo.expo_summary",
    "Otel.Metrics.Expo.expo_scale_antitone",
    "Otel.Metrics.Expo.frexpBits_correct",
    "Otel.Metrics.Expo.max_size_one_violated",
    "Otel.Metrics.Expo.max_size_two_violated",
    "Otel.Metrics.Expo.max_size_zero_violated",
    "Otel.Metrics.Expo.span_overflow_violated",
    "Otel.Metrics.Expo.frexpBits_special"
   ],
   "note": "proved for max_size >= 3, every sequence of doubles, assuming the logarithm picks the right bucket; sizes 0 to 2 lose counts and scale 20 with subnormals panics (witnesses)"
  },
  {
   "property": "C42",
   "status": "partial",
   "theorems": [
    "Otel.Metrics.gauge_last",
    "Otel.Metrics.Conc.spurious_point_violated",
    "Otel.Metrics.Conc.no_spurious_point_partial"
   ],
   "note": "proved for sequential calls; a collection between a measurement and its flag makes the next delta collection report 0 for a gauge that was not measured (witness)"
  },
  {
   "property": "C43",
   "status": "partial",
   "theorems": [
    "Otel.Metrics.observable_delta_partial",
    "Otel.Metrics.reordered_attributes_violated"
   ],
   "note": "proved when each attribute set is always observed in one order; otherwise the difference is taken from zero (witness)"
  },
  {
   "property": "C44",
   "status": "proved",
   "theorems": [
    "Otel.Metrics.delta_tiles",
    "Otel.Metrics.cumulative_starts"
   ],
   "note": "for every sequence of collection times"
  },
  {
   "property": "C45",
   "status": "proved",
   "theorems": [
    "Otel.Metrics.produce_exact",
    "Otel.Metrics.produce_independent",
    "Otel.Metrics.produce_nonempty"
   ],
   "note": "for every previous content of the buffer"
  },
  {
   "property": "C46",
   "status": "proved",
   "theorems": [
    "Otel.Metrics.name_valid_iff",
    "Otel.Metrics.unit_valid_iff",
    "Otel.Metrics.config_valid_iff",
    "Otel.Metrics.Inst.invalid_instrument_ignored"
   ],
   "note": "for every string; the default build, with name validation on"
  },
  {
   "property": "C47",
   "status": "partial",
   "theorems": [
    "Otel.Metrics.Inst.one_aggregator_per_identity",
    "Otel.Metrics.Inst.instrument_feeds_its_streams",
    "Otel.Metrics.Inst.same_identity_shared",
    "Otel.Metrics.Inst.every_stream_collected",
    "Otel.Metrics.Inst.new_aggregator",
    "Otel.Metrics.Inst.collected_forever",
    "Otel.Metrics.Inst.refused_only_incompatible",
    "Otel.Metrics.Inst.accepted_compatible",
    "Otel.Metrics.Inst.measured_once_partial",
    "Otel.Metrics.Inst.no_views_one_aggregator",
    "Otel.Metrics.Inst.create_feeds_every_reader",
    "Otel.Metrics.Inst.case_views_count_twice_violated",
    "Otel.Metrics.Inst.later_boundaries_ignored_violated",
    "Otel.Metrics.Inst.view_discards_boundaries_violated"
   ],
   "note": "sharing and collection proved for every history and all views; a measurement is counted twice when two views give names that differ in case only, and a second instrument's boundaries are ignored (witnesses)"
  },
  {
   "property": "C48",
   "status": "partial",
   "theorems": [
    "Otel.Metrics.Periodic.exporter_shutdown_last",
    "Otel.Metrics.Periodic.ok_delivered",
    "Otel.Metrics.Periodic.ok_delivered_delta_partial",
    "Otel.Metrics.Periodic.ok_not_delivered_violated",
    "Otel.Metrics.Periodic.delta_once",
    "Otel.Metrics.Periodic.shutdown_ok",
    "Otel.Metrics.Periodic.caller_answered_partial",
    "Otel.Metrics.Periodic.worker_moves_partial",
    "Otel.Metrics.Periodic.callback_flush_deadlocks_violated",
    "Otel.Metrics.Periodic.late_call_fails",
    "Otel.Metrics.Periodic.no_false_alarm"
   ],
   "note": "proved for every schedule; with a delta exporter Ok does not cover what an earlier failed export lost, and a callback that calls force_flush stops the reader for ever (witnesses)"
  },
  {
   "property": "C49",
   "status": "partial",
   "theorems": [
    "Otel.Sdk.Prov.shutdown_once",
    "Otel.Sdk.Prov.one_effective_shutdown",
    "Otel.Sdk.Prov.dropped_all_shut",
    "Otel.Sdk.Prov.obtained_after_shutdown",
    "Otel.Sdk.Prov.later_shutdown",
    "Otel.Sdk.Prov.results_honest",
    "Otel.Sdk.Prov.late_meter_flush",
    "Otel.Metrics.Manual.collect_after_shutdown_partial",
    "Otel.Metrics.Manual.collect_after_shutdown_violated",
    "Otel.Metrics.Manual.first_registration_wins",
    "Otel.Metrics.Manual.collect_iff",
    "Otel.Metrics.Manual.meters_per_scope",
    "Otel.Metrics.Manual.noop_iff_shutdown",
    "Otel.Metrics.Manual.meters_after_shutdown",
    "Otel.Metrics.Manual.collect_after_history"
   ],
   "note": "proved, but a manual reader that is registered again after shutdown collects again (witness)"
  },
  {
   "property": "C50",
   "status": "partial",
   "theorems": [
    "Otel.Resource.merge_get",
    "Otel.Resource.merge_any_order",
    "Otel.Resource.merge_schema",
    "Otel.Resource.merge_empty",
    "Otel.Resource.merge_assoc_partial",
    "Otel.Resource.merge_assoc_violated",
    "Otel.Resource.new_get",
    "Otel.Resource.wf_build"
   ],
   "note": "proved for the attributes; the schema url is not associative when two resources disagree (witness)"
  },
  {
   "property": "C51",
   "status": "partial",
   "theorems": [
    "Otel.Resource.env_get",
    "Otel.Resource.env_leniency_violated",
    "Otel.Resource.sdk_service_name",
    "Otel.Resource.service_name_partial",
    "Otel.Resource.service_name_violated",
    "Otel.Resource.telemetry_reported",
    "Otel.Resource.programmatic_wins",
    "Otel.Resource.with_schema_url",
    "Otel.Resource.with_detectors",
    "Otel.Resource.detector_schema_violated"
   ],
   "note": "proved for each detector; with both variables set Resource::builder takes service.name of OTEL_RESOURCE_ATTRIBUTES (witness)"
  },
  {
   "property": "C52",
   "status": "partial",
   "theorems": [
    "Otel.Sdk.Config.bsp_batch_le_queue",
    "Otel.Sdk.Config.blp_batch_le_queue",
    "Otel.Sdk.Config.bsp_precedence",
    "Otel.Sdk.Config.bsp_batch_partial",
    "Otel.Sdk.Config.bsp_batch_set",
    "Otel.Sdk.Config.bsp_batch_violated",
    "Otel.Sdk.Config.blp_precedence"
   ],
   "note": "proved; the span processor cuts the default batch size to a queue size of the environment that the program overrides (witness)"
  },
  {
   "property": "C53",
   "status": "partial",
   "theorems": [
    "Otel.Otlp.spans_once",
    "Otel.Otlp.spans_grouped",
    "Otel.Otlp.spans_one_group_partial",
    "Otel.Otlp.spans_resource",
    "Otel.Otlp.logs_once",
    "Otel.Otlp.logs_grouped_partial",
    "Otel.Otlp.metrics_request",
    "Otel.Otlp.span_schema_url_violated",
    "Otel.Otlp.span_schema_url_lost_violated",
    "Otel.Otlp.log_scope_violated",
    "Otel.Otlp.log_scopes_merged_violated"
   ],
   "note": "every item exactly once and in order; groups of spans carry name, version and attributes but the resource's schema url, groups of logs only name or target, so that scopes of one name are merged (witnesses)"
  },
  {
   "property": "C54",
   "status": "partial",
   "theorems": [
    "Otel.Otlp.value_roundtrip_partial",
    "Otel.Otlp.value_injective_iff",
    "Otel.Otlp.empty_array_violated",
    "Otel.Otlp.log_value_roundtrip",
    "Otel.Otlp.time_exact_partial",
    "Otel.Otlp.time_monotone",
    "Otel.Otlp.time_violated",
    "Otel.Otlp.span_roundtrip_partial",
    "Otel.Otlp.span_injective_partial",
    "Otel.Otlp.remote_violated",
    "Otel.Otlp.severity_roundtrip",
    "Otel.Otlp.log_roundtrip_partial",
    "Otel.Otlp.log_converts",
    "Otel.Otlp.log_time_violated",
    "Otel.Otlp.number_exact_partial",
    "Otel.Otlp.number_violated",
    "Otel.Otlp.metric_data_partial",
    "Otel.Otlp.histogram_sum_violated"
   ],
   "note": "round trip through an independent receiver for spans, logs and metrics; empty arrays of different types, times before 1970, is_remote and u64 values above i64::MAX are lost (witnesses)"
  },
  {
   "property": "C55",
   "status": "partial",
   "theorems": [
    "Otel.Otlp.one_slash",
    "Otel.Otlp.http_endpoint_env",
    "Otel.Otlp.http_endpoint_code",
    "Otel.Otlp.grpc_endpoint",
    "Otel.Otlp.exporter_timeout",
    "Otel.Otlp.compression",
    "Otel.Otlp.empty_endpoint_violated",
    "Otel.Otlp.empty_variable_violated",
    "Otel.Otlp.empty_compression_violated"
   ],
   "note": "precedence proved for every environment and builder history; an empty endpoint, documented as the default, is used as it is, and empty variables count as set (witnesses); parsing of a URI is a parameter"
  },
  {
   "property": "C56",
   "status": "partial",
   "theorems": [
    "Otel.Otlp.url_decode_encode",
    "Otel.Otlp.url_decode_raw",
    "Otel.Otlp.header_string_roundtrip_partial",
    "Otel.Otlp.header_string_raw",
    "Otel.Otlp.header_pairs_proper",
    "Otel.Otlp.http_header_value",
    "Otel.Otlp.env_headers_sent",
    "Otel.Otlp.empty_value_violated",
    "Otel.Otlp.sign_violated",
    "Otel.Otlp.untrimmed_violated",
    "Otel.Otlp.code_header_overridden_violated",
    "Otel.Otlp.code_value_decoded_violated",
    "Otel.Otlp.with_headers_value"
   ],
   "note": "proved for values that are not empty; empty values are dropped (witness)"
  },
  {
   "property": "C57",
   "status": "partial",
   "theorems": [
    "Otel.Sdk.RateLimit.rate_bound",
    "Otel.Sdk.RateLimit.window_bound_partial",
    "Otel.Sdk.RateLimit.burst_violated",
    "Otel.Sdk.RateLimit.starvation_violated",
    "Otel.Sdk.RateLimit.recovery_partial",
    "Otel.Sdk.RateLimit.rewind_unlimited",
    "Otel.Sdk.JaegerRemote.rate_limit_in_force"
   ],
   "note": "bound proved from creation and with twice the bucket size for any period; bursts of twice the size and starvation under frequent requests are witnessed"
  },
  {
   "property": "C58",
   "status": "partial",
   "theorems": [
    "Otel.Sdk.JaegerRemote.valid_replaces",
    "Otel.Sdk.JaegerRemote.last_answer_partial",
    "Otel.Sdk.JaegerRemote.invalid_strategy_violated",
    "Otel.Sdk.JaegerRemote.per_operation",
    "Otel.Sdk.JaegerRemote.strategy_decides",
    "Otel.Sdk.JaegerRemote.rate_limit_in_force"
   ],
   "note": "usable answers proved to replace the strategy; an unusable answer drops it (witness)"
  },
  {
   "property": "C59",
   "status": "partial",
   "theorems": [
    "Otel.Common.kv_equivalence",
    "Otel.Common.kv_refl_violated",
    "Otel.Common.kv_hash_partial",
    "Otel.Common.kv_hash_violated",
    "Otel.Common.scope_order",
    "Otel.Common.scope_equivalence",
    "Otel.Common.scope_eq_partial",
    "Otel.Common.nan_points_violated",
    "Otel.Common.nan_free_points",
    "Otel.Common.float_equal"
   ],
   "note": "proved; attributes holding NaN do not equal themselves and 0.0 and -0.0 are equal with different hashes (witnesses)"
  },
  {
   "property": "C60",
   "status": "partial",
   "theorems": [
    "Otel.Prom.sanitize_legal_partial",
    "Otel.Prom.sanitize_id",
    "Otel.Prom.sanitize_shape",
    "Otel.Prom.sanitize_violated",
    "Otel.Prom.exported_name_legal_partial",
    "Otel.Prom.namespace_violated",
    "Otel.Prom.label_chars",
    "Otel.Prom.label_legal_partial",
    "Otel.Prom.label_violated",
    "Otel.Prom.namespace_underscore",
    "Otel.Prom.unit_suffix_iff",
    "Otel.Prom.unknown_unit",
    "Otel.Prom.prefix_lost_violated"
   ],
   "note": "proved for ASCII; non-ASCII letters are kept, namespaces are not sanitized, label names keep ':' and a leading digit (witnesses)"
  },
  {
   "property": "C61",
   "status": "partial",
   "theorems": [
    "Otel.Zipkin.ids_exact",
    "Otel.Zipkin.tags_exact",
    "Otel.Zipkin.tags_nodup",
    "Otel.Zipkin.error_tag",
    "Otel.Zipkin.duration_exact",
    "Otel.Zipkin.timestamp_exact",
    "Otel.Zipkin.annotations_exact",
    "Otel.Zipkin.kind_partial",
    "Otel.Zipkin.batch_once",
    "Otel.Zipkin.endpoint_precedence",
    "Otel.Zipkin.root_parent_violated",
    "Otel.Zipkin.kind_violated",
    "Otel.Zipkin.status_code_violated",
    "Otel.Zipkin.lost_fields_violated",
    "Otel.Zipkin.annotation_times",
    "Otel.Zipkin.zipkin_body_describes"
   ],
   "note": "proved; a root span carries a parent id of zeros, a span.kind attribute removes the kind, links, event attributes and the resource are not exported (witnesses)"
  },
  {
   "property": "C62",
   "status": "partial",
   "theorems": [
    "Otel.Ctx.Reentrancy.no_panic_iff",
    "Otel.Ctx.Reentrancy.reads_nest_partial",
    "Otel.Ctx.Reentrancy.never_panics_violated"
   ],
   "note": "exact condition proved; witnesses of panics"
  },
  {
   "property": "C63",
   "status": "partial",
   "theorems": [
    "Otel.Sdk.recorded_ids_valid_partial",
    "Otel.Sdk.recorded_ids_valid_violated"
   ],
   "note": "a child of a span started under suppression is recorded with an all-zero trace id (witness)"
  },
  {
   "property": "C64",
   "status": "partial",
   "theorems": [
    "Otel.Sdk.on_start_once",
    "Otel.Sdk.on_start_pairs_violated",
    "Otel.Sdk.recorded_pairs_partial",
    "Otel.Sdk.end_before_start_violated"
   ],
   "note": "on_start is also called for spans that are not recorded (witness)"
  },
  {
   "property": "C65",
   "status": "partial",
   "theorems": [
    "Otel.Sdk.Bsp.counter_at_rest",
    "Otel.Sdk.Bsp.counter_counts_queue_partial",
    "Otel.Sdk.Bsp.counter_leak_violated",
    "Otel.Sdk.Bsp.counter_overflow_violated",
    "Otel.Sdk.Bsp.flag_means_request",
    "Otel.Sdk.Bsp.flag_down_at_rest",
    "Otel.Sdk.Bsp.full_batch_asks",
    "Otel.Logs.Blp.flag_means_request",
    "Otel.Logs.Blp.flag_down_at_rest",
    "Otel.Logs.Blp.full_batch_asks"
   ],
   "note": "exact value of the counter proved; dropped spans leak into it and it can overflow (witnesses)"
  },
  {
   "property": "C66",
   "status": "partial",
   "theorems": [
    "Otel.Logs.Blp.flush_failure_real_partial",
    "Otel.Logs.Blp.flush_masks_failure_violated",
    "Otel.Logs.Blp.shutdown_masks_failure_violated",
    "Otel.Logs.Blp.flush_reports_last_round"
   ],
   "note": "reported failures are real; Ok can hide a failure (witnesses)"
  },
  {
   "property": "C67",
   "status": "partial",
   "theorems": [
    "Otel.Logs.simple_log_no_feedback_partial",
    "Otel.Logs.concurrent_log_feedback_violated"
   ],
   "note": "proved for the simple log processor; the concurrent one recurses without end (proved)"
  },
  {
   "property": "C68",
   "status": "partial",
   "theorems": [
    "Otel.Logs.Simple.simple_log_exactly_once",
    "Otel.Logs.Simple.exports_accounted",
    "Otel.Logs.Simple.late_emit_exports_nothing",
    "Otel.Logs.Simple.export_after_shutdown_violated"
   ],
   "note": "exactly once proved; an export can follow the exporter's shutdown (witness)"
  },
  {
   "property": "C69",
   "status": "partial",
   "theorems": [
    "Otel.Metrics.reported_attributes",
    "Otel.Metrics.duplicate_keys_reported_violated"
   ],
   "note": "the form of the attributes is proved; two values for one key can be reported (witness)"
  },
  {
   "property": "C70",
   "status": "partial",
   "theorems": [
    "Otel.Metrics.Inst.view_exact",
    "Otel.Metrics.Inst.view_wildcard",
    "Otel.Metrics.Inst.view_inert",
    "Otel.Metrics.Inst.validate_expo",
    "Otel.Metrics.Inst.validate_explicit",
    "Otel.Metrics.Inst.scope_attributes_ignored_violated",
    "Otel.Metrics.Inst.view_nan_boundaries_violated"
   ],
   "note": "proved; scope attributes of the criteria are ignored, and NaN boundaries are accepted (witnesses); glob matching is a parameter"
  },
  {
   "property": "C71",
   "status": "partial",
   "theorems": [
    "Otel.Sdk.Config.reader_interval",
    "Otel.Sdk.Config.zero_interval_violated",
    "Otel.Metrics.Timing.no_underflow",
    "Otel.Metrics.Timing.next_collection_soon",
    "Otel.Metrics.Timing.cadence",
    "Otel.Metrics.Timing.flush_keeps_deadline",
    "Otel.Metrics.Timing.flushes_keep_deadline",
    "Otel.Metrics.Timing.late_flushes_postpone_violated"
   ],
   "note": "proved; the environment can set an interval of zero although the documentation excludes it (witness)"
  },
  {
   "property": "C72",
   "status": "proved",
   "theorems": [
    "Otel.Sdk.Config.sampler_from_env",
    "Otel.Sdk.Config.limits_from_env",
    "Otel.Sdk.Config.prov_precedence",
    "Otel.Sdk.Config.prov_sampler",
    "Otel.Sdk.Config.prov_inner_limits"
   ],
   "note": "parsing a float is a parameter"
  },
  {
   "property": "C73",
   "status": "partial",
   "theorems": [
    "Otel.Prom.one_type_and_help",
    "Otel.Prom.metric_exported",
    "Otel.Prom.labels_complete",
    "Otel.Prom.buckets_cumulative",
    "Otel.Prom.buckets_monotone",
    "Otel.Prom.scope_labels_present",
    "Otel.Prom.collect_families",
    "Otel.Prom.duplicate_label_violated",
    "Otel.Prom.name_clash_violated",
    "Otel.Prom.duplicate_series_violated",
    "Otel.Prom.resource_labels_violated",
    "Otel.Prom.scope_attributes_violated",
    "Otel.Prom.exported_as",
    "Otel.Prom.selected_labels",
    "Otel.Prom.target_info_written",
    "Otel.Prom.scope_info_written"
   ],
   "note": "proved; names that collide after sanitizing drop or duplicate series, labels can be duplicated, scope attributes are lost (witnesses)"
  },
  {
   "property": "C74",
   "status": "proved",
   "theorems": [
    "Otel.Metrics.filtered_report",
    "Otel.Metrics.only_allowed_keys",
    "Otel.Metrics.filtered_total"
   ],
   "note": "for every aggregation and every history; the sum over points for sums"
  },
  {
   "property": "C75",
   "status": "partial",
   "theorems": [
    "Otel.Metrics.several_readers_partial",
    "Otel.Metrics.foreign_set_reported_violated",
    "Otel.Metrics.stale_set_reported_violated",
    "Otel.Metrics.foreign_observation_counted_violated"
   ],
   "note": "a delta reader's report is determined by the observations made since its own last collection by any reader; the observations of other readers' collections are part of it (witnesses)"
  },
  {
   "property": "C76",
   "status": "partial",
   "theorems": [
    "Otel.Async.async_order",
    "Otel.Async.async_held_bound",
    "Otel.Async.async_batch_size",
    "Otel.Async.async_no_overlap",
    "Otel.Async.async_drops_counted",
    "Otel.Async.async_accepts_iff",
    "Otel.Async.async_tick_exports",
    "Otel.Async.async_resource",
    "Otel.Async.async_batch_zero_violated",
    "Otel.Async.async_lost_uncounted_violated",
    "Otel.Async.first_tick_late_violated"
   ],
   "note": "proved for a batch size above zero; an item queued behind a shutdown is lost without being counted, a batch size of zero is no limit, and the first tick comes after two intervals (witnesses)"
  },
  {
   "property": "C77",
   "status": "partial",
   "theorems": [
    "Otel.Async.async_answer",
    "Otel.Async.async_returns_once",
    "Otel.Async.async_shutdown_last",
    "Otel.Async.async_exporter_shutdown",
    "Otel.Async.async_call_returns",
    "Otel.Async.async_not_stuck",
    "Otel.Async.async_failure_masked_violated",
    "Otel.Async.span_exporter_running_violated",
    "Otel.Async.async_shutdown_refused_violated"
   ],
   "note": "proved; an earlier failed export is masked, span shutdown answers before the exporter is shut down, and shutdown is refused when the channel is full (witnesses)"
  },
  {
   "property": "C78",
   "status": "partial",
   "theorems": [
    "Otel.Metrics.Inst.aggregated_as_asked",
    "Otel.Metrics.Inst.default_accepted",
    "Otel.Metrics.Inst.gauge_sum_violated",
    "Otel.Metrics.Inst.aggregated_sum_partial",
    "Otel.Metrics.Inst.compatible_iff",
    "Otel.Metrics.Inst.temporality_table"
   ],
   "note": "proved, except that a gauge aggregated as a histogram keeps a sum (witness)"
  },
  {
   "property": "C79",
   "status": "partial",
   "theorems": [
    "Otel.AsyncReader.reader_delta_once",
    "Otel.AsyncReader.reader_cumulative",
    "Otel.AsyncReader.reader_ok_partial",
    "Otel.AsyncReader.reader_returns_once",
    "Otel.AsyncReader.reader_all_answered",
    "Otel.AsyncReader.reader_not_stuck",
    "Otel.AsyncReader.reader_calls_return",
    "Otel.AsyncReader.reader_shutdown_last",
    "Otel.AsyncReader.reader_already",
    "Otel.AsyncReader.reader_after_shutdown",
    "Otel.AsyncReader.reader_failure_masked_violated",
    "Otel.AsyncReader.reader_exporter_failure_hidden_violated",
    "Otel.AsyncReader.reader_second_shutdown_violated",
    "Otel.AsyncReader.reader_unregistered_blocks_violated"
   ],
   "note": "proved; with delta temporality an earlier failed export is masked, a failed exporter shutdown is hidden, a concurrent second shutdown gets a failure, and calls on a reader that is not registered wait forever (witnesses)"
  },
  {
   "property": "C80",
   "status": "partial",
   "theorems": [
    "Otel.Appender.event_carried",
    "Otel.Appender.event_unwanted",
    "Otel.Appender.message_number_violated",
    "Otel.Appender.error_name_lost_violated",
    "Otel.Appender.log_target_lost_violated"
   ],
   "note": "proved; a message that is not text is no body, the names of error fields are lost, and with the metadata attributes the target of events from the log crate is lost (witnesses)"
  },
  {
   "property": "C81",
   "status": "proved",
   "theorems": [
    "Otel.Appender.log_carried",
    "Otel.Appender.log_unwanted",
    "Otel.Appender.kv_says"
   ],
   "note": "proved for both conversions of values"
  },
  {
   "property": "C82",
   "status": "partial",
   "theorems": [
    "Otel.Appender.serde_meaning",
    "Otel.Appender.serde_dropped_iff",
    "Otel.Appender.serialize_none_iff",
    "Otel.Appender.serialize_absent",
    "Otel.Appender.serde_position_violated",
    "Otel.Appender.serde_keys_collide_violated",
    "Otel.Appender.serde_variant_lost_violated"
   ],
   "note": "proved for maps whose keys are text; other keys can collide, positions shift after an absent element, and a variant holding an absent value loses its name (witnesses)"
  },
  {
   "property": "C83",
   "status": "partial",
   "theorems": [
    "Otel.Otlp.Json.traces_conform_partial",
    "Otel.Otlp.Json.logs_conform_partial",
    "Otel.Otlp.Json.metrics_conform_partial",
    "Otel.Otlp.Json.sdk_spans_conform_partial",
    "Otel.Otlp.Json.sdk_logs_conform_partial",
    "Otel.Otlp.Json.traces_conform_violated",
    "Otel.Otlp.Json.exemplar_conform_violated",
    "Otel.Otlp.Json.sdk_metrics_conform_partial",
    "Otel.JsonText.traces_text_conform_partial",
    "Otel.JsonText.logs_text_conform_partial",
    "Otel.JsonText.metrics_text_conform_partial"
   ],
   "note": "Proved for all requests with finite doubles, and without exemplar values. Violated otherwise: non-finite doubles are written as null, exemplar values are written under a key of their own. What the SDK converts spans, log records and metrics to is among these requests (sdk_spans_conform_partial, sdk_logs_conform_partial, sdk_metrics_conform_partial)."
  },
  {
   "property": "C84",
   "status": "partial",
   "theorems": [
    "Otel.Otlp.Json.traces_read_back_partial",
    "Otel.Otlp.Json.logs_read_back_partial",
    "Otel.Otlp.Json.metrics_read_back_partial",
    "Otel.Otlp.Json.traces_agree_partial",
    "Otel.Otlp.Json.logs_agree_partial",
    "Otel.Otlp.Json.unset_read_back_violated",
    "Otel.Otlp.Json.nan_read_back_violated",
    "Otel.Otlp.Json.gauge_nan_violated",
    "Otel.Otlp.Json.histogram_bound_violated",
    "Otel.Otlp.Json.deep_read_back_violated",
    "Otel.Otlp.Json.numeric_time_violated",
    "Otel.Otlp.Json.canonical_int_violated",
    "Otel.Otlp.Json.empty_array_read_violated",
    "Otel.JsonText.traces_text_read_back_partial",
    "Otel.JsonText.logs_text_read_back_partial",
    "Otel.JsonText.metrics_text_read_back_partial"
   ],
   "note": "Round trip proved for all requests without unset values, with finite doubles and bounded nesting; standard trace and log documents are read as the standard says or refused. Violated otherwise, with witnesses; metrics documents of the standard are read wrongly without an error."
  },
  {
   "property": "C85",
   "status": "partial",
   "theorems": [
    "Otel.Prop.Http.http_get_setAll",
    "Otel.Prop.Http.http_as_map",
    "Otel.Prop.Http.w3c_byName",
    "Otel.Prop.Http.baggage_byName",
    "Otel.Prop.Http.b3_byName",
    "Otel.Prop.Http.w3c_http_roundtrip_partial",
    "Otel.Prop.Http.baggage_http_roundtrip_partial",
    "Otel.Prop.Http.b3_http_roundtrip_partial",
    "Otel.Prop.Http.http_tracestate_violated",
    "Otel.Prop.Http.http_baggage_violated"
   ],
   "note": "Proved for all values of printable ASCII. Violated for others: the API takes trace states and baggage metadata that are no header values, and they are dropped, leaving an older trace state in place."
  },
  {
   "property": "C86",
   "status": "partial",
   "theorems": [
    "Otel.Otlp.Exporter.export_result_partial",
    "Otel.Otlp.Exporter.export_once",
    "Otel.Otlp.Exporter.http_headers",
    "Otel.Otlp.Exporter.metrics_status_violated",
    "Otel.Otlp.Exporter.partial_success_violated"
   ],
   "note": "Proved except for metrics over a HTTP client that reports failing answers as answers, where failures are taken for success. An answer of partial success counts as success for all exporters: violated."
  },
  {
   "property": "C87",
   "status": "partial",
   "theorems": [
    "Otel.Otlp.Exporter.shutdown_stops_partial",
    "Otel.Otlp.Exporter.span_shutdown_violated",
    "Otel.Otlp.Exporter.log_grpc_shutdown_violated",
    "Otel.Otlp.Exporter.metric_shutdown_error_violated"
   ],
   "note": "Proved for metrics and for logs over HTTP. The span exporter and the log exporter over gRPC ignore shutdown: violated."
  },
  {
   "property": "C88",
   "status": "partial",
   "theorems": [
    "Otel.Sdk.Shared.shared_recording",
    "Otel.Sdk.Shared.shared_once",
    "Otel.Sdk.Shared.shared_ended",
    "Otel.Sdk.Shared.shared_at_most_once",
    "Otel.Sdk.Shared.in_span_partial",
    "Otel.Sdk.Shared.in_span_violated",
    "Otel.Sdk.Shared.poison_violated"
   ],
   "note": "The sharing is proved for all interleavings; after a panic inside a call later edits and ends are lost, which is part of the model and shown as a violation. in_span is proved if no copy of the context survives the closure; if one does, it returns with the span running: violated."
  },
  {
   "property": "C89",
   "status": "partial",
   "theorems": [
    "Otel.Glob.global_last_set",
    "Otel.Glob.tracer_no_deadlock",
    "Otel.Glob.meter_no_deadlock_partial",
    "Otel.Glob.meter_violated",
    "Otel.Glob.propagator_violated",
    "Otel.Glob.drop_violated"
   ],
   "note": "Last set and progress of the tracer global are proved in full. The meter global makes progress if the drop of the replaced provider does not use it; otherwise it deadlocks (violated), as does setting the propagator inside the closure that reads it."
  },
  {
   "property": "C90",
   "status": "partial",
   "theorems": [
    "Otel.EndToEnd.chain_one_trace",
    "Otel.EndToEnd.chain_linked",
    "Otel.EndToEnd.chain_broken_violated"
   ],
   "note": "Proved for services without an SDK, or with one that is running with a parent-based sampler and makes non-zero span ids. A service whose SDK was shut down, or which suppresses telemetry, breaks the trace: violated."
  },
  {
   "property": "C91",
   "status": "partial",
   "theorems": [
    "Otel.EndToEnd.spans_arrive_once",
    "Otel.EndToEnd.flushed_spans_arrive_partial",
    "Otel.EndToEnd.logs_arrive_once",
    "Otel.EndToEnd.flushed_logs_arrive_partial",
    "Otel.EndToEnd.flushed_spans_violated",
    "Otel.EndToEnd.spans_arrive_in_protobuf",
    "Otel.EndToEnd.flushed_spans_arrive_in_protobuf_partial",
    "Otel.EndToEnd.logs_arrive_in_protobuf_partial",
    "Otel.EndToEnd.flushed_logs_arrive_in_protobuf_partial"
   ],
   "note": "At most once, unchanged and nothing else: proved in full for values the messages can hold (C54). Completeness after a flush is proved for spans if at most one batch was waiting, otherwise violated; for records if no emit was between its two steps (see C34)."
  },
  {
   "property": "C92",
   "status": "partial",
   "theorems": [
    "Otel.EndToEnd.counter_arrives_partial",
    "Otel.EndToEnd.counter_set_arrives_partial",
    "Otel.EndToEnd.counter_never_more",
    "Otel.EndToEnd.counter_arrives_example",
    "Otel.EndToEnd.counter_large_violated",
    "Otel.EndToEnd.counter_failed_violated",
    "Otel.EndToEnd.counter_arrives_in_protobuf_partial",
    "Otel.EndToEnd.counter_never_more_in_protobuf"
   ],
   "note": "Proved while the total is below 2^63 and the HTTP client tells failing statuses from success; above, the values arrive as 0 (violated). A failed export of a delta collection is lost (violated). Delta u64 counters only."
  },
  {
   "property": "C93",
   "status": "partial",
   "theorems": [
    "Otel.Memory.spans_since_clear",
    "Otel.Memory.logs_since_clear_partial",
    "Otel.Memory.clone_exact",
    "Otel.Memory.metrics_since_reset",
    "Otel.Memory.metrics_temporality",
    "Otel.Memory.export_after_shutdown_violated",
    "Otel.Memory.resource_violated",
    "Otel.Memory.batch_spans_shown_partial",
    "Otel.Memory.batch_logs_shown",
    "Otel.Memory.logs_gone_violated",
    "Otel.Memory.simple_spans_shown"
   ],
   "note": "Proved for every history; the spans exporter goes on storing after shutdown, the log exporter's flag and clearing are two steps, and logs are shown with the resource of the time of asking."
  },
  {
   "property": "C94",
   "status": "partial",
   "theorems": [
    "Otel.Stdout.export_prints",
    "Otel.Stdout.resource_once",
    "Otel.Stdout.winner_stays",
    "Otel.Stdout.resource_each_time",
    "Otel.Stdout.after_shutdown",
    "Otel.Stdout.only_exports_print",
    "Otel.Stdout.export_alone",
    "Otel.Stdout.sequential_text",
    "Otel.Stdout.spans_printed",
    "Otel.Stdout.logs_printed",
    "Otel.Stdout.metrics_printed",
    "Otel.Stdout.points_printed",
    "Otel.Stdout.buckets_printed",
    "Otel.Stdout.mixed_lines_violated",
    "Otel.Stdout.resource_late_violated",
    "Otel.Stdout.expo_silent_violated",
    "Otel.Stdout.span_silent_violated",
    "Otel.Stdout.span_fields_printed",
    "Otel.Stdout.event_fields_printed",
    "Otel.Stdout.metric_fields_printed",
    "Otel.Stdout.spans_text",
    "Otel.Stdout.logs_text",
    "Otel.Stdout.metrics_text",
    "Otel.Stdout.events_text",
    "Otel.Stdout.links_text",
    "Otel.Stdout.numbers_printed",
    "Otel.Stdout.log_scope_printed",
    "Otel.Stdout.hist_lines_printed",
    "Otel.Stdout.points_headed"
   ],
   "note": "Every line of every export is proved to be printed; the lines of exports at the same time mix so that the text is ambiguous, the resource may come late, and exponential histograms, trace state and dropped counts are not printed."
  },
  {
   "property": "C95",
   "status": "partial",
   "theorems": [
    "Otel.Locks.calls_return_partial",
    "Otel.Locks.create_in_callback_violated",
    "Otel.Locks.flush_in_callback_violated",
    "Otel.Locks.flush_in_exporter_violated",
    "Otel.Locks.span_in_exporter_violated",
    "Otel.Locks.span_under_lock_violated",
    "Otel.Locks.two_spans_violated",
    "Otel.Locks.exporters_cross_violated",
    "Otel.Locks.instrument_in_span_exporter_violated",
    "Otel.Locks.meter_in_diagnostic_violated"
   ],
   "note": "Proved for all programs whose user code keeps to stated rules (which calls are fit for which place). For each rule there is a program that breaks it and never returns; the rules are not documented by the crate."
  },
  {
   "property": "C96",
   "status": "partial",
   "theorems": [
    "Otel.Otlp.Proto.traces_decode_partial",
    "Otel.Otlp.Proto.logs_decode_partial",
    "Otel.Otlp.Proto.metrics_decode_partial",
    "Otel.Otlp.Proto.sdk_spans_decode",
    "Otel.Otlp.Proto.sdk_logs_decode_partial",
    "Otel.Otlp.Proto.encode_append",
    "Otel.Otlp.Proto.span_skips",
    "Otel.Otlp.Proto.log_skips",
    "Otel.Otlp.Proto.request_skips",
    "Otel.Otlp.Proto.deep_body_unreadable",
    "Otel.Otlp.Proto.deep_value_violated",
    "Otel.Otlp.Proto.negative_zero_violated",
    "Otel.Otlp.Proto.any_follows",
    "Otel.Otlp.Proto.kv_follows",
    "Otel.Otlp.Proto.scope_follows",
    "Otel.Otlp.Proto.res_follows",
    "Otel.Otlp.Proto.event_follows",
    "Otel.Otlp.Proto.link_follows",
    "Otel.Otlp.Proto.status_follows",
    "Otel.Otlp.Proto.span_follows",
    "Otel.Otlp.Proto.log_follows",
    "Otel.Otlp.Proto.exemplar_follows",
    "Otel.Otlp.Proto.numPoint_follows",
    "Otel.Otlp.Proto.histPoint_follows",
    "Otel.Otlp.Proto.buckets_follow",
    "Otel.Otlp.Proto.expoPoint_follows",
    "Otel.Otlp.Proto.gauge_follows",
    "Otel.Otlp.Proto.sum_follows",
    "Otel.Otlp.Proto.histogram_follows",
    "Otel.Otlp.Proto.expo_follows",
    "Otel.Otlp.Proto.metric_follows",
    "Otel.Otlp.Proto.scopeItems_follow",
    "Otel.Otlp.Proto.resourceItems_follow",
    "Otel.Otlp.Proto.request_follows",
    "Otel.Otlp.Proto.sdk_metrics_decode_partial"
   ],
   "note": "Proved for all requests shorter than 2^64 bytes whose values nest within prost's limit of 100 messages (spans of the SDK always do; log bodies do up to 31 levels) and whose exponential histograms have no zero threshold of -0.0. Outside of this it is false, with witnesses: a deeper body makes the whole request unreadable, and -0.0 is left out as if it were 0.0."
  },
  {
   "property": "C97",
   "status": "partial",
   "theorems": [
    "Otel.EndToEnd.traced_spans_arrive_once",
    "Otel.EndToEnd.traced_spans_accounted_partial",
    "Otel.EndToEnd.traced_spans_sampled_partial",
    "Otel.EndToEnd.unsampled_trace_never_arrives",
    "Otel.EndToEnd.traced_spans_in_protobuf",
    "Otel.EndToEnd.traced_spans_all_in_protobuf_partial",
    "Otel.EndToEnd.traced_example"
   ],
   "note": "Partial because the accounting after a flush needs the cases in which C26 and C91 hold (a flush drains one batch only in the code, see the notes there), and that only sampled spans arrive needs samplers that never answer RecordOnly (C25: the batch processor exports record-only spans)."
  },
  {
   "property": "C98",
   "status": "partial",
   "theorems": [
    "Otel.EndToEnd.act_gives",
    "Otel.EndToEnd.logged_arrive_once",
    "Otel.EndToEnd.logged_accounted_partial",
    "Otel.EndToEnd.logged_in_protobuf",
    "Otel.EndToEnd.logged_all_in_protobuf_partial",
    "Otel.EndToEnd.logged_example"
   ],
   "note": "The batch processor is the first of the provider, so that it gets the record as the logger prepared it; other processors follow. Partial because the accounting after a flush needs that no emit was between its two steps when the worker began the flush (C33), and because a receiver reads an empty event name as none and a time outside of 1970 to 2554 wrongly (C54)."
  },
  {
   "property": "C99",
   "status": "partial",
   "theorems": [
    "Otel.EndToEnd.instrument_delta_partial",
    "Otel.EndToEnd.instrument_cumulative_partial",
    "Otel.EndToEnd.u64_reads",
    "Otel.EndToEnd.i64_reads",
    "Otel.EndToEnd.f64_reads",
    "Otel.EndToEnd.gauge_reads",
    "Otel.EndToEnd.histogram_reads",
    "Otel.EndToEnd.expo_reads",
    "Otel.EndToEnd.counter_cumulative_increases",
    "Otel.EndToEnd.instrument_cumulative_example",
    "Otel.EndToEnd.instrument_delta_example",
    "Otel.Metrics.Conc.delta_partition",
    "Otel.Metrics.Conc.cumulative_within",
    "Otel.Metrics.Conc.cumulative_grows",
    "Otel.Metrics.Conc.cumulative_no_attributes",
    "Otel.EndToEnd.instrument_kinds",
    "Otel.EndToEnd.u64Sum_ok",
    "Otel.EndToEnd.i64Sum_ok",
    "Otel.EndToEnd.f64Sum_ok",
    "Otel.EndToEnd.gaugeOf_ok",
    "Otel.EndToEnd.histogramOf_ok"
   ],
   "note": "Partial: for at most as many attribute sets as the cardinality limit (beyond it C38 tells what goes to the overflow set), for unsigned sums and gauges below 2^63 (C54 violation), for histogram values that are not NaN or infinite (C40), for exponential histograms with three buckets or more and an exact logarithm (C41), for attribute values that are not empty arrays (C52)."
  }
 ]
}