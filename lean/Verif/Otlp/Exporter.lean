import Verif.Http.Headers
import Verif.Otlp.Config
/-!
# The OTLP exporters: requests, results, shutdown (`opentelemetry-otlp/src/{span,logs,metric}.rs`, `src/exporter/{http,tonic}`), C86, C87

An exporter is the public `SpanExporter`, `LogExporter` or `MetricExporter` of the crate with one of its transports. Calls of one exporter do not overlap, as
the SDK promises. The bytes of a request are those of its message under the protocol; `encode` makes them and may fail. Mutexes are never poisoned, since
nothing panics while they are held. Times and retries (there are none) are left out.
-/

namespace Otel.Otlp.Exporter
open Rust Otel.Prop.Http

/-- How an exporter reaches the collector. `SupportedTransportClient`: span.rs:115-121. A HTTP client given by the user may or may not turn an answer with a
failing status into an error; those of the crate do. -/
inductive Transport where
  | http (checksStatus : Bool)
  | grpc
deriving DecidableEq

/-- The collector's answer: the status (HTTP status, or gRPC code), and how many spans, records or points of the request it refused
(`partial_success`, proto/tonic/opentelemetry.proto.collector.trace.v1.rs). -/
structure Reply where
  status : Nat
  rejected : Nat

/-- What happens outside during one `export`: whether the interceptor of the gRPC client lets the request pass, and the answer, if one arrives in time. -/
structure World where
  passes : Bool := true
  reply : Option Reply

/-- `StatusCode::is_success` of the `http` crate: 200 to 299. -/
def isSuccess (status : Nat) : Bool := 200 ≤ status && status < 300

/-- `OTelSdkResult`, without texts and the timeout error that no exporter here returns. opentelemetry-sdk/src/error.rs:15-45 -/
inductive Outcome where
  | ok
  | alreadyShutdown
  | internalFailure
deriving DecidableEq

/-- A request on the wire. -/
structure Request (Y : Type) where
  headers : HeaderMap
  body : Y

/-- What is fixed when an exporter is built. `message`: the grouping of the batch with the resource, the conversion for metrics (C53, C54, C55). -/
structure Cfg (R B M Y : Type) where
  signal : Signal
  transport : Transport
  headers : HeaderMap
  contentType : List UInt8
  message : R → B → M
  encode : M → Option Y

/-- `OtlpHttpClient`, `TonicTracesClient`, `TonicLogsClient`, `TonicMetricsClient`: whether the inner client is there, and the resource.
http/mod.rs:258-267, tonic/trace.rs:18-23, tonic/logs.rs:15-20, tonic/metrics.rs:16-18 -/
structure St (R : Type) where
  alive : Bool
  resource : R

variable {R B M Y : Type}

/-- `content-type` -/
def contentTypeName : Str := "content-type".toList

/-- The headers of the request: the content type, then the headers of the exporter, each inserted. http/trace.rs:30-42, http/logs.rs:20-29, http/metrics.rs:25-34 -/
def requestHeaders (contentType : List UInt8) (configured : HeaderMap) : HeaderMap :=
  configured.foldl (fun m e => Prop.Http.insert m e.1 e.2) (Prop.Http.insert [] contentTypeName contentType)

/-- `HttpClient::send_bytes`: an answer, or an error when there is none, or when the client checks the status and it is failing.
opentelemetry-http/src/lib.rs:84-98, 100-115, 171-192, 227-235 -/
def sendBytes (checks : Bool) (reply : Option Reply) : Option Reply :=
  match reply with
  | none => none
  | some r => if checks && !isSuccess r.status then none else some r

/-- `export` over HTTP: result and request. The status is looked at for spans and logs, not for metrics. http/trace.rs:12-62, http/logs.rs:8-47, http/metrics.rs:12-43 -/
def httpExport (c : Cfg R B M Y) (checks : Bool) (s : St R) (b : B) (w : World) : Outcome × List (Request Y) :=
  if !s.alive then (.alreadyShutdown, []) else
  match c.encode (c.message s.resource b) with
  | none => (.internalFailure, [])
  | some body =>
    let req : Request Y := ⟨requestHeaders c.contentType c.headers, body⟩
    match sendBytes checks w.reply with
    | none => (.internalFailure, [req])
    | some r => match c.signal with
      | .metrics => (.ok, [req])
      | _ => if !isSuccess r.status then (.internalFailure, [req]) else (.ok, [req])

/-- `export` over gRPC. After shutdown the metrics client returns another error. The metadata the interceptor adds are the headers; `encode` failing has the
stub return a status. tonic/trace.rs:62-90, tonic/logs.rs:59-85, tonic/metrics.rs:55-90 -/
def grpcExport (c : Cfg R B M Y) (s : St R) (b : B) (w : World) : Outcome × List (Request Y) :=
  if !s.alive then (match c.signal with | .metrics => .internalFailure | _ => .alreadyShutdown, []) else
  if !w.passes then (.internalFailure, []) else
  match c.encode (c.message s.resource b) with
  | none => (.internalFailure, [])
  | some body =>
    match w.reply with
    | none => (.internalFailure, [⟨c.headers, body⟩])
    | some r => if r.status = 0 then (.ok, [⟨c.headers, body⟩]) else (.internalFailure, [⟨c.headers, body⟩])

/-- `export` of the public exporters. span.rs:145-152, logs.rs:142-149, metric.rs:152-159 -/
def doExport (c : Cfg R B M Y) (s : St R) (b : B) (w : World) : Outcome × List (Request Y) :=
  match c.transport with
  | .http checks => httpExport c checks s b w
  | .grpc => grpcExport c s b w

/-- `shutdown` of the public exporters. The span exporter does not define it: it is the empty one of the trait (span.rs:144-162,
opentelemetry-sdk/src/trace/export.rs:46-48). logs.rs:160-167 with http/logs.rs:49-59 and tonic/logs.rs:87-96; metric.rs:166-177 with http/metrics.rs:45-52
and tonic/metrics.rs:92-99 -/
def shutdown (c : Cfg R B M Y) (s : St R) : Outcome × St R :=
  match c.signal, c.transport with
  | .traces, _ => (.ok, s)
  | .logs, .grpc => (.ok, s)
  | .logs, .http _ => if s.alive then (.ok, { s with alive := false }) else (.alreadyShutdown, s)
  | .metrics, _ => (.ok, { s with alive := false })

/-- `set_resource`; the metric exporter has none, a metrics batch carries its resource. span.rs:154-161, logs.rs:151-158 -/
def setResource (c : Cfg R B M Y) (s : St R) (r : R) : St R :=
  match c.signal with
  | .metrics => s
  | _ => { s with resource := r }

/-- A call by the SDK. -/
inductive Op (R B : Type) where
  | setResource (r : R)
  | export (b : B) (w : World)
  | shutdown

/-- What a call did: its result and the requests it sent. -/
structure Done (Y : Type) where
  outcome : Outcome
  sent : List (Request Y)

def step (c : Cfg R B M Y) (s : St R) : Op R B → Done Y × St R
  | .setResource r => (⟨.ok, []⟩, setResource c s r)
  | .export b w => (⟨(doExport c s b w).1, (doExport c s b w).2⟩, s)
  | .shutdown => (⟨(shutdown c s).1, []⟩, (shutdown c s).2)

/-- A history of calls of an exporter. -/
def runFrom (c : Cfg R B M Y) (s : St R) : List (Op R B) → List (Done Y)
  | [] => []
  | op :: ops => (step c s op).1 :: runFrom c (step c s op).2 ops

/-- From a built exporter, with the empty resource. http/mod.rs:278-285, tonic/trace.rs:51-57 -/
def run (c : Cfg R B M Y) (empty : R) (ops : List (Op R B)) : List (Done Y) := runFrom c ⟨true, empty⟩ ops

/-! ## Specification -/

/-- The collector answered with success. -/
def Answered (t : Transport) (w : World) : Prop :=
  ∃ r, w.reply = some r ∧ match t with
    | .http _ => 200 ≤ r.status ∧ r.status ≤ 299
    | .grpc => r.status = 0

/-- The collector took everything. -/
def TookAll (t : Transport) (w : World) : Prop := Answered t w ∧ ∀ r, w.reply = some r → r.rejected = 0

/-- The resource given last. -/
def lastResource (empty : R) : List (Op R B) → R
  | [] => empty
  | .setResource r :: ops => lastResource r ops
  | _ :: ops => lastResource empty ops

/-- Exporters whose `export` tells a failing status from success: all but the metric exporter over a client of the user that does not. -/
def TellsStatus (c : Cfg R B M Y) : Prop := ¬ (c.signal = .metrics ∧ c.transport = .http false)

/-- Exporters that stop on shutdown: those for metrics, and for logs over HTTP. -/
def StopsOnShutdown (c : Cfg R B M Y) : Prop := c.signal = .metrics ∨ (c.signal = .logs ∧ ∃ b, c.transport = .http b)

/-! ## C86 -/

/-- One call of `export` in a state: what its result means. -/
theorem doExport_ok (c : Cfg R B M Y) (hc : TellsStatus c) (s : St R) (b : B) (w : World) :
    (doExport c s b w).1 = .ok ↔ Answered c.transport w ∧ ∃ q, (doExport c s b w).2 = [q] ∧ c.encode (c.message s.resource b) = some q.body := by
  obtain ⟨sig, tr, hs, ct, msg, enc⟩ := c
  obtain ⟨alive, res⟩ := s
  obtain ⟨passes, reply⟩ := w
  cases tr with
  | http checks =>
    cases alive with
    | false => simp [doExport, httpExport]
    | true =>
      cases he : enc (msg res b) with
      | none => simp [doExport, httpExport, he]
      | some body =>
        cases reply with
        | none => simp [doExport, httpExport, he, sendBytes, Answered]
        | some r =>
          have hs : isSuccess r.status = true ↔ 200 ≤ r.status ∧ r.status ≤ 299 := by simp [isSuccess]; omega
          cases hst : isSuccess r.status with
          | true =>
            have := hs.1 hst
            cases sig <;> simp [doExport, httpExport, he, sendBytes, Answered, hst, this]
          | false =>
            have h2 : ¬(200 ≤ r.status ∧ r.status ≤ 299) := fun h => by rw [hs.2 h] at hst; cases hst
            cases checks with
            | true => cases sig <;> simp [doExport, httpExport, he, sendBytes, Answered, hst, h2]
            | false => cases sig with
              | metrics => exact absurd ⟨rfl, rfl⟩ hc
              | _ => simp [doExport, httpExport, he, sendBytes, Answered, hst]; omega
  | grpc =>
    cases alive with
    | false => cases sig <;> simp [doExport, grpcExport]
    | true =>
      cases passes with
      | false => simp [doExport, grpcExport]
      | true =>
        cases he : enc (msg res b) with
        | none => simp [doExport, grpcExport, he]
        | some body =>
          cases reply with
          | none => simp [doExport, grpcExport, he, Answered]
          | some r =>
            by_cases hr : r.status = 0 <;> simp [doExport, grpcExport, he, Answered, hr]

/-- A call of `export` sends nothing, or one request, which is the batch with the exporter's resource; it never sends more. -/
theorem doExport_sent (c : Cfg R B M Y) (s : St R) (b : B) (w : World) :
    (doExport c s b w).2 = [] ∨ ∃ q, (doExport c s b w).2 = [q] ∧ c.encode (c.message s.resource b) = some q.body ∧ s.alive = true := by
  obtain ⟨sig, tr, hs, ct, msg, enc⟩ := c
  obtain ⟨alive, res⟩ := s
  obtain ⟨passes, reply⟩ := w
  cases tr with
  | http checks =>
    cases alive with
    | false => simp [doExport, httpExport]
    | true =>
      cases he : enc (msg res b) with
      | none => simp [doExport, httpExport, he]
      | some body =>
        cases hr : sendBytes checks reply with
        | none => simp [doExport, httpExport, he, hr]
        | some r => cases sig <;> by_cases h : isSuccess r.status <;> simp [doExport, httpExport, he, hr, h]
  | grpc =>
    cases alive with
    | false => simp [doExport, grpcExport]
    | true =>
      cases passes with
      | false => simp [doExport, grpcExport]
      | true =>
        cases he : enc (msg res b) with
        | none => simp [doExport, grpcExport, he]
        | some body =>
          cases reply with
          | none => simp [doExport, grpcExport, he]
          | some r => by_cases h : r.status = 0 <;> simp [doExport, grpcExport, he, h]

/-- The state of an exporter after some calls. -/
def stateAfter (c : Cfg R B M Y) (s : St R) : List (Op R B) → St R
  | [] => s
  | op :: ops => stateAfter c (step c s op).2 ops

theorem runFrom_get (c : Cfg R B M Y) (s : St R) (pre : List (Op R B)) (op : Op R B) (post : List (Op R B)) :
    (runFrom c s (pre ++ op :: post))[pre.length]? = some (step c (stateAfter c s pre) op).1 := by
  induction pre generalizing s with
  | nil => rfl
  | cons p pre ih => exact ih _

theorem shutdown_resource (c : Cfg R B M Y) (s : St R) : (shutdown c s).2.resource = s.resource := by
  unfold shutdown
  cases c.signal <;> cases c.transport <;> simp <;> split <;> rfl

theorem stateAfter_resource (c : Cfg R B M Y) (hm : c.signal ≠ .metrics) (s : St R) (ops : List (Op R B)) :
    (stateAfter c s ops).resource = lastResource s.resource ops := by
  induction ops generalizing s with
  | nil => rfl
  | cons op ops ih =>
    rw [stateAfter, ih]
    cases op with
    | setResource r =>
      have : (step c s (.setResource r)).2.resource = r := by
        show (match c.signal with | .metrics => s | _ => { s with resource := r }).resource = r
        split
        · rename_i hc; exact absurd hc hm
        · rfl
      rw [this]; rfl
    | «export» b w => rfl
    | shutdown => exact congrArg (lastResource · ops) (shutdown_resource c s)

/-- C86. In every history of calls of an exporter, an `export` returns success exactly if it sent one request, whose body is the batch with the resource
given last, and the collector answered it with success. Not proved for the metric exporter over a client of the user that reports a failing status as an
answer: there it is false. Success does not mean that the collector took all: see `partial_success_violated`. -/
theorem export_result_partial (c : Cfg R B M Y) (hc : TellsStatus c) (empty : R) (pre post : List (Op R B)) (b : B) (w : World) :
    ∃ d, (run c empty (pre ++ .export b w :: post))[pre.length]? = some d ∧
      (d.outcome = .ok ↔ Answered c.transport w ∧ ∃ q, d.sent = [q] ∧ c.encode (c.message (stateAfter c ⟨true, empty⟩ pre).resource b) = some q.body) ∧
      (c.signal ≠ .metrics → (stateAfter c ⟨true, empty⟩ pre).resource = lastResource empty pre) :=
  ⟨_, runFrom_get c _ pre _ post, doExport_ok c hc _ b w, fun hm => stateAfter_resource c hm _ pre⟩

/-- C86. In every history, each `export` sends at most one request, made of its own batch; other calls send nothing. Nothing is sent twice. -/
theorem export_once (c : Cfg R B M Y) (empty : R) (pre post : List (Op R B)) (op : Op R B) :
    ∃ d, (run c empty (pre ++ op :: post))[pre.length]? = some d ∧
      (d.sent = [] ∨ ∃ b w q, op = .export b w ∧ d.sent = [q] ∧ c.encode (c.message (stateAfter c ⟨true, empty⟩ pre).resource b) = some q.body) := by
  refine ⟨_, runFrom_get c _ pre _ post, ?_⟩
  cases op with
  | setResource r => exact .inl rfl
  | shutdown => exact .inl rfl
  | «export» b w =>
    rcases doExport_sent c (stateAfter c ⟨true, empty⟩ pre) b w with h | ⟨q, h, he, _⟩
    · exact .inl h
    · exact .inr ⟨b, w, q, rfl, h, he⟩

theorem first_insert (m : HeaderMap) (k n : Str) (v : List UInt8) : first n (Prop.Http.insert m k v) = if k = n then some v else first n m := by
  unfold Prop.Http.insert
  rw [first]
  split
  · rfl
  · rename_i h; exact first_filter (fun e => h e.symm) m

theorem first_fold (conf m : HeaderMap) (hn : (conf.map Prod.fst).Nodup) (n : Str) :
    first n (conf.foldl (fun m e => Prop.Http.insert m e.1 e.2) m) = (first n conf).or (first n m) := by
  induction conf generalizing m with
  | nil => rfl
  | cons e conf ih =>
    rw [List.map_cons, List.nodup_cons] at hn
    rw [List.foldl_cons, ih _ hn.2, first_insert, first.eq_def n (e :: conf)]
    dsimp only
    by_cases h : e.1 = n
    · subst h
      have : first e.1 conf = none := by
        have hnot := hn.1
        clear ih hn
        induction conf with
        | nil => rfl
        | cons e' conf ih =>
          rw [List.map_cons, List.mem_cons, not_or] at hnot
          rw [first, if_neg (fun h => hnot.1 h.symm), ih hnot.2]
      rw [if_pos rfl, if_pos rfl, this]; rfl
    · rw [if_neg h, if_neg h]

/-- C86. Every request over HTTP has each configured header with its value, the content type of the protocol unless another one is configured, and no other
header. The configured headers are a map: no name occurs twice. -/
theorem http_headers (c : Cfg R B M Y) (checks : Bool) (ht : c.transport = .http checks) (hn : (c.headers.map Prod.fst).Nodup) (s : St R) (b : B) (w : World)
    (q : Request Y) (hq : q ∈ (doExport c s b w).2) (n : Str) :
    first n q.headers = (first n c.headers).or (if contentTypeName = n then some c.contentType else none) := by
  have : q.headers = requestHeaders c.contentType c.headers := by
    obtain ⟨sig, tr, hs, ct, msg, enc⟩ := c
    obtain ⟨alive, res⟩ := s
    subst ht
    cases alive with
    | false => simp [doExport, httpExport] at hq
    | true =>
      cases he : enc (msg res b) with
      | none => simp [doExport, httpExport, he] at hq
      | some body =>
        cases hr : sendBytes checks w.reply with
        | none => simp [doExport, httpExport, he, hr] at hq; rw [hq]
        | some r => cases sig <;> by_cases h : isSuccess r.status <;> simp [doExport, httpExport, he, hr, h] at hq <;> rw [hq]
  rw [this, requestHeaders, first_fold _ _ hn, first_insert]
  rfl

/-! ## C87 -/

theorem step_dead (c : Cfg R B M Y) (s : St R) (h : s.alive = false) (op : Op R B) : (step c s op).2.alive = false := by
  cases op with
  | setResource r => simp only [step, setResource]; cases c.signal <;> exact h
  | «export» b w => exact h
  | shutdown => simp only [step, shutdown]; cases c.signal <;> cases c.transport <;> simp [h]

theorem stateAfter_dead (c : Cfg R B M Y) (s : St R) (h : s.alive = false) (ops : List (Op R B)) : (stateAfter c s ops).alive = false := by
  induction ops generalizing s with
  | nil => exact h
  | cons op ops ih => exact ih _ (step_dead c s h op)

theorem stateAfter_append (c : Cfg R B M Y) (s : St R) (a b : List (Op R B)) : stateAfter c s (a ++ b) = stateAfter c (stateAfter c s a) b := by
  induction a generalizing s with
  | nil => rfl
  | cons op a ih => exact ih _

theorem doExport_dead (c : Cfg R B M Y) (s : St R) (h : s.alive = false) (b : B) (w : World) :
    (doExport c s b w).2 = [] ∧ (doExport c s b w).1 = (if c.signal = .metrics ∧ c.transport = .grpc then .internalFailure else .alreadyShutdown) := by
  unfold doExport
  cases ht : c.transport with
  | http k => simp [httpExport, h]
  | grpc => cases hs : c.signal <;> simp [grpcExport, h, hs]

/-- C87. After `shutdown`, whatever calls come between, an exporter that stops sends nothing and returns an error. Not proved for the span exporter and for
the log exporter over gRPC, where it is false. -/
theorem shutdown_stops_partial (c : Cfg R B M Y) (hc : StopsOnShutdown c) (empty : R) (pre mid post : List (Op R B)) (b : B) (w : World) :
    ∃ d, (run c empty ((pre ++ .shutdown :: mid) ++ .export b w :: post))[(pre ++ .shutdown :: mid).length]? = some d ∧ d.sent = [] ∧
      d.outcome = (if c.signal = .metrics ∧ c.transport = .grpc then .internalFailure else .alreadyShutdown) := by
  refine ⟨_, runFrom_get c _ _ _ post, ?_⟩
  have hd : (stateAfter c ⟨true, empty⟩ (pre ++ .shutdown :: mid)).alive = false := by
    rw [stateAfter_append, stateAfter]
    refine stateAfter_dead c _ ?_ mid
    generalize stateAfter c ⟨true, empty⟩ pre = s
    simp only [step, shutdown]
    rcases hc with hc | ⟨hc, b, ht⟩
    · rw [hc]
    · rw [hc, ht]
      cases hs : s.alive <;> simp [hs]
  exact doExport_dead c _ hd b w

/-! ## Cases, and what goes wrong -/

/-- An exporter of this signal and transport: a message is the resource and the batch, and always encoded. -/
def plainCfg (sig : Signal) (t : Transport) : Cfg Nat Nat (Nat × Nat) (Nat × Nat) := ⟨sig, t, [("a".toList, [1])], [2], Prod.mk, some⟩

/-- The hypotheses are met: spans over a client that does not check, metrics over one that does. -/
example : TellsStatus (plainCfg .traces (.http false)) ∧ TellsStatus (plainCfg .metrics (.http true)) ∧ StopsOnShutdown (plainCfg .metrics .grpc) ∧
    StopsOnShutdown (plainCfg .logs (.http true)) ∧ Answered (.http true) ⟨true, some ⟨202, 0⟩⟩ ∧ Answered .grpc ⟨true, some ⟨0, 0⟩⟩ :=
  ⟨fun h => by simp [plainCfg] at h, fun h => by simp [plainCfg] at h, .inl rfl, .inr ⟨rfl, true, rfl⟩, ⟨_, rfl, by decide, by decide⟩, ⟨_, rfl, rfl⟩⟩

/-- Results are those of the answers: success, a failing status, no answer, after shutdown. -/
example : (run (plainCfg .logs (.http false)) 0 [.setResource 7, .export 1 ⟨true, some ⟨200, 0⟩⟩, .export 2 ⟨true, some ⟨503, 0⟩⟩, .export 3 ⟨true, none⟩, .shutdown,
    .export 4 ⟨true, some ⟨200, 0⟩⟩, .shutdown]).map (fun d => (d.outcome, d.sent.map (·.body))) =
    [(.ok, []), (.ok, [(7, 1)]), (.internalFailure, [(7, 2)]), (.internalFailure, [(7, 3)]), (.ok, []), (.alreadyShutdown, []), (.alreadyShutdown, [])] := by decide

/-- C86, against the property: the metric exporter, with a HTTP client given by the user that reports the answer as it is (as the trait `HttpClient` says
it should), returns success for the answer 500. Spans and logs are handled right. -/
theorem metrics_status_violated : ∃ (w : World), ¬ Answered (.http false) w ∧ ∃ d, run (plainCfg .metrics (.http false)) 0 [.export 1 w] = [d] ∧ d.outcome = .ok :=
  ⟨⟨true, some ⟨500, 0⟩⟩, by rintro ⟨r, h, h1, h2⟩; cases h; simp at h2, _, rfl, rfl⟩

/-- C86, against the property: an answer that says that the collector refused all spans of the request is success for every exporter: `partial_success` is
never read, the loss is not reported at all. -/
theorem partial_success_violated (sig : Signal) (t : Transport) : ∃ (w : World), ¬ TookAll t w ∧ ∃ d, run (plainCfg sig t) 0 [.export 1 w] = [d] ∧ d.outcome = .ok := by
  cases t with
  | http k => exact ⟨⟨true, some ⟨200, 9⟩⟩, fun h => absurd (h.2 _ rfl) (by decide), _, rfl, by cases sig <;> cases k <;> rfl⟩
  | grpc => exact ⟨⟨true, some ⟨0, 9⟩⟩, fun h => absurd (h.2 _ rfl) (by decide), _, rfl, by cases sig <;> rfl⟩

/-- C87, against the property: the span exporter ignores `shutdown`, over both transports, which the trait says must make `export` fail. It goes on
sending, and a second `shutdown` succeeds too. -/
theorem span_shutdown_violated (t : Transport) : ∃ (w : World) (d1 d2 d3 : Done (Nat × Nat)),
    run (plainCfg .traces t) 0 [.shutdown, .export 1 w, .shutdown] = [d1, d2, d3] ∧ d2.outcome = .ok ∧ d2.sent.map (·.body) = [(0, 1)] ∧ d3.outcome = .ok := by
  cases t with
  | http k => exact ⟨⟨true, some ⟨200, 0⟩⟩, _, _, _, rfl, by cases k <;> rfl, by cases k <;> rfl, rfl⟩
  | grpc => exact ⟨⟨true, some ⟨0, 0⟩⟩, _, _, _, rfl, rfl, rfl, rfl⟩

/-- C87, against the property: the log exporter over gRPC goes on sending after `shutdown`. -/
theorem log_grpc_shutdown_violated : ∃ (w : World) (d1 d2 : Done (Nat × Nat)),
    run (plainCfg .logs .grpc) 0 [.shutdown, .export 1 w] = [d1, d2] ∧ d2.outcome = .ok ∧ d2.sent.map (·.body) = [(0, 1)] :=
  ⟨⟨true, some ⟨0, 0⟩⟩, _, _, rfl, rfl, rfl⟩

/-- C87, against the property: the metric exporter over gRPC says after `shutdown` that it failed, not that it is shut down, and a second `shutdown`
of a metric exporter is a success where that of the log exporter over HTTP is `AlreadyShutdown`. -/
theorem metric_shutdown_error_violated : ∃ (w : World) (d1 d2 d3 : Done (Nat × Nat)),
    run (plainCfg .metrics .grpc) 0 [.shutdown, .export 1 w, .shutdown] = [d1, d2, d3] ∧ d2.outcome ≠ .alreadyShutdown ∧ d3.outcome ≠ .alreadyShutdown :=
  ⟨⟨true, some ⟨0, 0⟩⟩, _, _, _, rfl, by decide, by decide⟩

end Otel.Otlp.Exporter
