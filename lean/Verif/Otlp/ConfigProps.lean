import Verif.Otlp.Config
/-! # C55: endpoint, timeout and compression of the OTLP exporters; C56: their headers -/

namespace Otel.Otlp
open Rust Sdk.Config

/-! ## Specification -/

/-- The name of a signal in the variables. -/
def Signal.name : Signal → String
  | .traces => "TRACES"
  | .metrics => "METRICS"
  | .logs => "LOGS"

/-- The variable of a signal: `OTEL_EXPORTER_OTLP_<SIGNAL>_<WHAT>`. -/
def signalVar (sig : Signal) (what : String) : Str := ("OTEL_EXPORTER_OTLP_" ++ sig.name ++ "_" ++ what).toList

/-- The general variable: `OTEL_EXPORTER_OTLP_<WHAT>`. -/
def generalVar (what : String) : Str := ("OTEL_EXPORTER_OTLP_" ++ what).toList

/-- The path of a signal. -/
def pathName : Signal → Str
  | .traces => "v1/traces".toList
  | .metrics => "v1/metrics".toList
  | .logs => "v1/logs".toList

/-- The base and the path with exactly one slash between them, if the base ends with at most one. -/
def joinPath (base path : Str) : Str := (if base.getLast? = some '/' then base.dropLast else base) ++ '/' :: path

/-- What the last call that says something about the endpoint says: `with_export_config` says it is not set if the configuration has none. -/
def codeEndpoint (calls : List BuilderCall) : Option Str :=
  match calls.reverse.find? (fun c => match c with | .timeout _ => false | _ => true) with
  | some (.endpoint e) => some e
  | some (.config c) => c.endpoint
  | _ => none

/-- What the last call that says something about the timeout says. -/
def codeTimeout (calls : List BuilderCall) : Option Nat :=
  match calls.reverse.find? (fun c => match c with | .endpoint _ => false | _ => true) with
  | some (.timeout d) => some d
  | some (.config c) => c.timeout
  | _ => none

/-- The first of the candidates that is usable, in order of precedence; `dflt` if none is. -/
inductive FirstOf {α : Type} : List (α → Prop) → (α → Prop) → α → Prop where
  | here {P : α → Prop} {rest dflt a} : P a → FirstOf (P :: rest) dflt a
  | later {P : α → Prop} {rest dflt a} : (∀ b, ¬ P b) → FirstOf rest dflt a → FirstOf (P :: rest) dflt a
  | default {dflt : α → Prop} {a} : dflt a → FirstOf [] dflt a

/-! ## Lemmas -/

theorem vars_endpoint (sig : Signal) : (vars sig).endpoint.toList = signalVar sig "ENDPOINT" := by cases sig <;> decide
theorem vars_timeout (sig : Signal) : (vars sig).timeout.toList = signalVar sig "TIMEOUT" := by cases sig <;> decide
theorem vars_compression (sig : Signal) : (vars sig).compression.toList = signalVar sig "COMPRESSION" := by cases sig <;> decide
theorem vars_headers (sig : Signal) : (vars sig).headers.toList = signalVar sig "HEADERS" := by cases sig <;> decide
theorem general_endpoint : generalVars.endpoint.toList = generalVar "ENDPOINT" := by decide
theorem general_timeout : generalVars.timeout.toList = generalVar "TIMEOUT" := by decide
theorem general_compression : generalVars.compression.toList = generalVar "COMPRESSION" := by decide
theorem general_headers : generalVars.headers.toList = generalVar "HEADERS" := by decide

theorem signalPath_eq (sig : Signal) : signalPath sig = '/' :: pathName sig := by cases sig <;> decide

theorem configured_snoc (calls : List BuilderCall) (c : BuilderCall) : configured (calls ++ [c]) = (configured calls).call c := by
  simp [configured]

theorem configured_endpoint (calls : List BuilderCall) : (configured calls).endpoint = codeEndpoint calls := by
  have key : ∀ l : List BuilderCall, (configured l.reverse).endpoint = codeEndpoint l.reverse := by
    intro l
    induction l with
    | nil => rfl
    | cons c l ih =>
      rw [List.reverse_cons, configured_snoc, codeEndpoint, List.reverse_append]
      simp only [List.reverse_cons, List.reverse_nil, List.nil_append, List.cons_append]
      cases c with
      | endpoint e => rfl
      | config c => rfl
      | timeout d => rw [List.find?_cons_of_neg (by simp)]; exact ih
  have := key calls.reverse
  rwa [List.reverse_reverse] at this

theorem configured_timeout (calls : List BuilderCall) : (configured calls).timeout = codeTimeout calls := by
  have key : ∀ l : List BuilderCall, (configured l.reverse).timeout = codeTimeout l.reverse := by
    intro l
    induction l with
    | nil => rfl
    | cons c l ih =>
      rw [List.reverse_cons, configured_snoc, codeTimeout, List.reverse_append]
      simp only [List.reverse_cons, List.reverse_nil, List.nil_append, List.cons_append]
      cases c with
      | timeout d => rfl
      | config c => rfl
      | endpoint e => rw [List.find?_cons_of_neg (by simp)]; exact ih
  have := key calls.reverse
  rwa [List.reverse_reverse] at this

theorem endpointText_eq (base path : Str) : endpointText base ('/' :: path) = joinPath base path := by
  unfold endpointText joinPath
  by_cases h : base.getLast? = some '/'
  · have hb : base = base.dropLast ++ ['/'] := by
      cases base with
      | nil => cases h
      | cons a l =>
        have h2 := List.dropLast_concat_getLast (l := a :: l) (by simp)
        rw [List.getLast?_eq_some_getLast (by simp)] at h
        rw [Option.some.inj h] at h2
        exact h2.symm
    simp only [h, List.head?_cons, and_self, if_true, List.tail_cons]
    conv => lhs; rw [hb]
    simp
  · simp [h]

/-! ## C55: the endpoint -/

/-- **C55 (path).** The path is joined to the base with one slash, whether or not the base ends with one. -/
theorem one_slash (sig : Signal) (base : Str) (h : base.getLast? ≠ some '/') :
    endpointText base (signalPath sig) = base ++ '/' :: pathName sig ∧ endpointText (base ++ ['/']) (signalPath sig) = base ++ '/' :: pathName sig := by
  rw [signalPath_eq, endpointText_eq, endpointText_eq, joinPath, joinPath, if_neg h, if_pos (by simp)]
  simp

example : ("http://collector:4318".toList).getLast? ≠ some '/' := by decide

/-- **C55 (HTTP endpoint).** Without an endpoint in code, the endpoint is the URI in the signal's variable as it is, else the URI made of the general
variable and the signal's path, else the one made of the default and the path. -/
theorem http_endpoint_env {U : Type} {parse : Str → Option U} {env : Env} {sig : Signal} {calls : List BuilderCall} (hc : codeEndpoint calls = none)
    (u : U) : httpEndpoint parse env sig calls = .ok u ↔
      FirstOf [fun u => ∃ s, env (signalVar sig "ENDPOINT") = some s ∧ parse s = some u,
               fun u => ∃ s, env (generalVar "ENDPOINT") = some s ∧ parse (joinPath s (pathName sig)) = some u]
              (fun u => parse ("http://localhost:4318/".toList ++ pathName sig) = some u) u := by
  have hd : endpointText httpDefault (signalPath sig) = "http://localhost:4318/".toList ++ pathName sig := by cases sig <;> decide
  rw [httpEndpoint, configured_endpoint, hc, resolveHttpEndpoint]
  simp only [vars_endpoint, general_endpoint, buildEndpointUri, hd]
  have hpu : ∀ s : Str, (parseUri parse s).toOption = parse s := by
    intro s; unfold parseUri; cases parse s <;> rfl
  cases hs : (env (signalVar sig "ENDPOINT")).bind parse with
  | some v =>
    obtain ⟨s, h1, h2⟩ := Option.bind_eq_some_iff.1 hs
    simp only [Except.ok.injEq]
    constructor
    · rintro rfl; exact .here ⟨s, h1, h2⟩
    · intro h
      cases h with
      | here h => obtain ⟨s', h1', h2'⟩ := h; rw [h1] at h1'; cases h1'; rw [h2] at h2'; exact Option.some.inj h2'
      | later h _ => exact absurd ⟨s, h1, h2⟩ (h v)
  | none =>
    have hno : ∀ b, ¬ ∃ s, env (signalVar sig "ENDPOINT") = some s ∧ parse s = some b := by
      rintro b ⟨s, h1, h2⟩
      rw [h1, Option.bind_some, h2] at hs; cases hs
    simp only [signalPath_eq, endpointText_eq, hpu]
    cases hg : (env (generalVar "ENDPOINT")).bind (fun s => parse (joinPath s (pathName sig))) with
    | some v =>
      obtain ⟨s, h1, h2⟩ := Option.bind_eq_some_iff.1 hg
      simp only [Except.ok.injEq]
      constructor
      · rintro rfl; exact .later hno (.here ⟨s, h1, h2⟩)
      · intro h
        cases h with
        | here h => exact absurd h (hno u)
        | later _ h =>
          cases h with
          | here h => obtain ⟨s', h1', h2'⟩ := h; rw [h1] at h1'; cases h1'; rw [h2] at h2'; exact Option.some.inj h2'
          | later h _ => exact absurd ⟨s, h1, h2⟩ (h v)
    | none =>
      have hno2 : ∀ b, ¬ ∃ s, env (generalVar "ENDPOINT") = some s ∧ parse (joinPath s (pathName sig)) = some b := by
        rintro b ⟨s, h1, h2⟩
        rw [h1, Option.bind_some, h2] at hg; cases hg
      simp only
      have hp : ∀ s : Str, parseUri parse s = .ok u ↔ parse s = some u := by
        intro s; unfold parseUri; cases parse s <;> simp
      rw [hp]
      constructor
      · intro h; exact .later hno (.later hno2 (.default h))
      · intro h
        cases h with
        | here h => exact absurd h (hno u)
        | later _ h =>
          cases h with
          | here h => exact absurd h (hno2 u)
          | later _ h => cases h with | default h => exact h

/-- **C55 (HTTP endpoint).** An endpoint given in code is used as it is, whatever the environment; if it is not a URI, building fails. -/
theorem http_endpoint_code {U : Type} {parse : Str → Option U} {env : Env} {sig : Signal} {calls : List BuilderCall} {e : Str}
    (hc : codeEndpoint calls = some e) :
    (∀ u, httpEndpoint parse env sig calls = .ok u ↔ parse e = some u) ∧ (parse e = none → httpEndpoint parse env sig calls = .error e) := by
  rw [httpEndpoint, configured_endpoint, hc, resolveHttpEndpoint]
  simp only [parseUri]
  cases parse e <;> simp

example : codeEndpoint [.endpoint "http://a".toList, .config {}, .endpoint "http://b".toList, .timeout 5] = some "http://b".toList := rfl

/-- **C55, violated.** `with_endpoint("")` is documented to use the default address: over HTTP building fails, the empty text being no URI; over gRPC the
empty address is used. -/
theorem empty_endpoint_violated {U : Type} {parse : Str → Option U} (hp : parse [] = none) (env : Env) (sig : Signal) :
    httpEndpoint parse env sig [.endpoint []] = .error [] ∧ grpcEndpoint env sig [.endpoint []] = [] := by
  constructor
  · exact (http_endpoint_code (by rfl)).2 hp
  · rfl

/-- **C55, violated.** An empty general variable counts as set: the endpoint is the path alone, although an empty variable is to be treated as unset. -/
theorem empty_variable_violated {U : Type} {parse : Str → Option U} {u : U} (hp : parse "/v1/traces".toList = some u) :
    httpEndpoint parse (fun name => if name = generalVar "ENDPOINT" then some [] else none) .traces [] = .ok u ∧
    grpcEndpoint (fun name => if name = generalVar "ENDPOINT" then some [] else none) .traces [] = [] := by
  constructor
  · rw [http_endpoint_env (by rfl)]
    refine .later ?_ (.here ⟨[], by simp, hp⟩)
    rintro b ⟨s, h, _⟩
    rw [if_neg (by decide)] at h; cases h
  · decide

/-- **C55 (gRPC endpoint).** The endpoint is the one of the code, else the text of the signal's variable, else that of the general one, else the default;
no path is added. -/
theorem grpc_endpoint (env : Env) (sig : Signal) (calls : List BuilderCall) :
    FirstOf [fun e => codeEndpoint calls = some e, fun e => env (signalVar sig "ENDPOINT") = some e, fun e => env (generalVar "ENDPOINT") = some e]
      (fun e => e = "http://localhost:4317".toList) (grpcEndpoint env sig calls) := by
  rw [grpcEndpoint, configured_endpoint, resolveGrpcEndpoint.eq_def, vars_endpoint, general_endpoint]
  cases h : codeEndpoint calls with
  | some e => exact .here rfl
  | none =>
    refine .later (by simp) ?_
    cases h2 : env (signalVar sig "ENDPOINT") with
    | some e => exact .here rfl
    | none =>
      refine .later (by simp) ?_
      cases h3 : env (generalVar "ENDPOINT") with
      | some e => exact .here rfl
      | none => exact .later (by simp) (.default (by decide))

/-! ## C55: the timeout -/

/-- The variable holds a decimal numeral of a number of milliseconds that fits 64 bits. -/
def MillisIn (env : Env) (var : Str) (ns : Nat) : Prop := ∃ s n, env var = some s ∧ DecNum s n ∧ n < 2 ^ 64 ∧ ns = n * 1000000

theorem millis_iff {env : Env} {name : String} {n : Nat} (h : envNum env 64 name = some n) : MillisIn env name.toList (fromMillis n) := by
  obtain ⟨s, h1, h2, h3⟩ := (envNum_iff ..).1 h
  exact ⟨s, n, h1, h2, h3, rfl⟩

theorem no_millis {env : Env} {name : String} (h : envNum env 64 name = none) (d : Nat) : ¬ MillisIn env name.toList d := by
  rintro ⟨s, n, h1, h2, h3, _⟩
  rw [(envNum_iff ..).2 ⟨s, h1, h2, h3⟩] at h; cases h

/-- **C55 (timeout).** The timeout is the one of the code, else the number of milliseconds of the signal's variable, else of the general one, else ten
seconds; a variable that does not hold a number is passed over. -/
theorem exporter_timeout (env : Env) (sig : Signal) (calls : List BuilderCall) :
    FirstOf [fun d => codeTimeout calls = some d, MillisIn env (signalVar sig "TIMEOUT"), MillisIn env (generalVar "TIMEOUT")]
      (fun d => d = 10 * 1000000000) (exporterTimeout env sig calls) := by
  rw [exporterTimeout, configured_timeout, resolveTimeout.eq_def, ← vars_timeout, ← general_timeout]
  cases h : codeTimeout calls with
  | some e => exact .here rfl
  | none =>
    refine .later (by simp) ?_
    cases h2 : envNum env 64 (vars sig).timeout with
    | some n => exact .here (millis_iff h2)
    | none =>
      refine .later (no_millis h2) ?_
      cases h3 : envNum env 64 generalVars.timeout with
      | some n => exact .here (millis_iff h3)
      | none => exact .later (no_millis h3) (.default rfl)

/-! ## C55: compression -/

/-- What a name of a compression algorithm gives. -/
inductive Algorithm (has : Compression → Bool) (s : Str) : Except CompressionError (Option Compression) → Prop where
  | gzip : s = "gzip".toList → has .gzip = true → Algorithm has s (.ok (some .gzip))
  | zstd : s = "zstd".toList → has .zstd = true → Algorithm has s (.ok (some .zstd))
  | missing (c : Compression) : s = (match c with | .gzip => "gzip".toList | .zstd => "zstd".toList) → has c = false →
      Algorithm has s (.error (.featureRequired c))
  | unknown : s ≠ "gzip".toList → s ≠ "zstd".toList → Algorithm has s (.error (.unsupported s))

theorem encodingFrom_spec (has : Compression → Bool) (s : Str) : Algorithm has s (encodingFrom has s) := by
  have hb : ∀ c, compressionOf s = .ok c → encodingFrom has s = if has c then .ok (some c) else .error (.featureRequired c) := by
    intro c hc
    rw [encodingFrom, hc]
    show (do let e ← encodingOf has c; return some e) = _
    unfold encodingOf
    cases has c <;> rfl
  by_cases h1 : s = gzipName
  · rw [hb .gzip (by rw [compressionOf, if_pos h1])]
    cases h : has .gzip with
    | true => exact .gzip h1 h
    | false => exact .missing .gzip h1 h
  · by_cases h2 : s = zstdName
    · rw [hb .zstd (by rw [compressionOf, if_neg h1, if_pos h2])]
      cases h : has .zstd with
      | true => exact .zstd h2 h
      | false => exact .missing .zstd h2 h
    · have : encodingFrom has s = .error (.unsupported s) := by rw [encodingFrom, compressionOf, if_neg h1, if_neg h2]; rfl
      rw [this]; exact .unknown h1 h2

/-- **C55 (compression).** The algorithm is the one of the code, else the one the signal's variable names, else the one the general variable names, else
there is none. A name that is unknown, or an algorithm that is not compiled in, makes building fail. -/
theorem compression (has : Compression → Bool) (env : Env) (sig : Signal) (code : Option Compression) :
    FirstOf [fun r => ∃ c, code = some c ∧ r = (if has c then .ok (some c) else .error (.featureRequired c)),
             fun r => ∃ s, env (signalVar sig "COMPRESSION") = some s ∧ Algorithm has s r,
             fun r => ∃ s, env (generalVar "COMPRESSION") = some s ∧ Algorithm has s r]
      (fun r => r = .ok none) (resolveCompression has env (vars sig).compression code) := by
  rw [resolveCompression.eq_def, vars_compression, general_compression]
  cases code with
  | some c =>
    refine .here ⟨c, rfl, ?_⟩
    cases h : has c <;> simp only [encodingOf, h] <;> rfl
  | none =>
    refine .later (by simp) ?_
    cases h2 : env (signalVar sig "COMPRESSION") with
    | some s => exact .here ⟨s, rfl, encodingFrom_spec has s⟩
    | none =>
      refine .later (by simp) ?_
      cases h3 : env (generalVar "COMPRESSION") with
      | some s => exact .here ⟨s, rfl, encodingFrom_spec has s⟩
      | none => exact .later (by simp) (.default rfl)

/-- **C55, violated.** An empty compression variable, to be treated as unset, makes building fail. -/
theorem empty_compression_violated (has : Compression → Bool) :
    resolveCompression has (fun name => if name = signalVar .traces "COMPRESSION" then some [] else none) (vars .traces).compression none =
      .error (.unsupported []) := by
  rfl

/-! ## C56: the headers sent -/

/-- **C56 (headers sent).** The value of a header is the last one the environment gives it, in the signal's variable or, if that is not set, the general
one; else the one the code gives. -/
theorem http_header_value (name : Str → Option Str) (value : Str → Bool) (env : Env) (sig : Signal) (code : List (Str × Str)) (k : Str) :
    Assoc.get (httpHeaders name value env sig code) k =
      (Assoc.last ((((env (signalVar sig "HEADERS")).or (env (generalVar "HEADERS"))).elim [] parseHeaderString).filterMap (headerOf name value)) k).or
        (Assoc.last (code.filterMap (headerOf name value)) k) := by
  have hin : headersInput env sig = (env (signalVar sig "HEADERS")).or (env (generalVar "HEADERS")) := by
    rw [headersInput, vars_headers, general_headers]
    cases env (signalVar sig "HEADERS") <;> rfl
  have hget : ∀ l : List (Str × Str), (Assoc.last l k).or (Assoc.get ([] : List (Str × Str)) k) = Assoc.last l k := by
    intro l; simp [Assoc.get]
  rw [httpHeaders, hin]
  cases (env (signalVar sig "HEADERS")).or (env (generalVar "HEADERS")) with
  | none => simp only [Option.elim_none, List.filterMap_nil]; rw [Assoc.get_insertAll, hget]; rfl
  | some s => simp only [Option.elim_some]; rw [Assoc.get_insertAll, Assoc.get_insertAll, hget]

/-- The value that the last of some calls gives a header, decoded if it can be. -/
def lastGiven (calls : List (List (Str × Str))) (k : Str) : Option Str :=
  (Assoc.last calls.flatten k).map fun v => (urlDecode v).getD v

/-- **C56 (headers sent).** Calls of `with_headers` add up: a header has the value of the last call that names it, URL-decoded where it can be decoded, and headers
that only an earlier call names stay. -/
theorem with_headers_value (calls : List (List (Str × Str))) (k : Str) : Assoc.get (calls.foldl withHeaders []) k = lastGiven calls k := by
  have hm : ∀ (g : List (Str × Str)), Assoc.last (g.map fun kv => (kv.1, (urlDecode kv.2).getD kv.2)) k = (Assoc.last g k).map fun v => (urlDecode v).getD v := by
    intro g
    rw [Assoc.last, Assoc.last, ← List.map_reverse]
    generalize g.reverse = r
    induction r with
    | nil => rfl
    | cons p r ih =>
      rw [List.map_cons, Assoc.get_cons, Assoc.get_cons]
      split
      · rfl
      · exact ih
  have ha : ∀ a b : List (Str × Str), Assoc.last (a ++ b) k = (Assoc.last b k).or (Assoc.last a k) := by
    intro a b
    rw [Assoc.last, List.reverse_append, Assoc.get_append]
    rfl
  have : ∀ (calls : List (List (Str × Str))) (h : List (Str × Str)), Assoc.get (calls.foldl withHeaders h) k = (lastGiven calls k).or (Assoc.get h k) := by
    intro calls
    induction calls with
    | nil => intro h; rfl
    | cons g calls ih =>
      intro h
      rw [List.foldl_cons, ih, withHeaders, Assoc.get_insertAll, hm, lastGiven, lastGiven, List.flatten_cons, ha]
      cases Assoc.last calls.flatten k <;> cases Assoc.last g k <;> rfl
  rw [this calls []]
  cases lastGiven calls k <;> rfl

/-- **C56 (headers sent).** Pairs written to a header variable are sent: with proper keys, each a header name of its own, and values that are not empty and
are legal, every pair is among the headers, whatever the code sets. -/
theorem env_headers_sent {name : Str → Option Str} {value : Str → Bool} {env : Env} {sig : Signal} {code : List (Str × Str)} {set : UInt8 → Bool}
    (hset : Escapes set) {kvs : List (Str × Str)} (h : ∀ kv ∈ kvs, HeaderKey kv.1 ∧ kv.2 ≠ [] ∧ name kv.1 = some kv.1 ∧ value kv.2 = true)
    (hnd : (kvs.map Prod.fst).Nodup)
    (henv : env (signalVar sig "HEADERS") = some (headerString set kvs)) {kv : Str × Str} (hkv : kv ∈ kvs) :
    Assoc.get (httpHeaders name value env sig code) kv.1 = some kv.2 := by
  rw [http_header_value, henv]
  simp only [Option.some_or, Option.elim_some]
  rw [header_string_roundtrip_partial hset fun kv hkv => ⟨(h kv hkv).1, (h kv hkv).2.1⟩]
  have : kvs.filterMap (headerOf name value) = kvs := by
    have : ∀ l : List (Str × Str), (∀ kv ∈ l, headerOf name value kv = some kv) → l.filterMap (headerOf name value) = l := by
      intro l
      induction l with
      | nil => intro _; rfl
      | cons a l ih =>
        intro hl
        rw [List.filterMap_cons, hl a (List.mem_cons_self ..)]
        simp only
        rw [ih fun x hx => hl x (List.mem_cons_of_mem _ hx)]
    apply this
    intro kv hkv
    obtain ⟨_, _, h3, h4⟩ := h kv hkv
    simp only [headerOf, h3, h4, if_true]
  rw [this, Assoc.last_of_nodup hnd, Assoc.get_of_mem hnd hkv, Option.some_or]

/-- A key of letters that may stand in a header string. -/
def keyA : Str := "a".toList
def keyB : Str := "b".toList

example : ∀ kv ∈ [(keyA, "1".toList), (keyB, "x y".toList)], HeaderKey kv.1 ∧ kv.2 ≠ [] ∧ (some : Str → Option Str) kv.1 = some kv.1 ∧
    (fun _ => true : Str → Bool) kv.2 = true := by
  intro kv h
  simp only [List.mem_cons, List.not_mem_nil, or_false] at h
  rcases h with rfl | rfl <;>
    exact ⟨⟨by decide, by decide, by decide, by constructor <;> (intro c hc; simp [keyA, keyB] at hc; subst hc; decide)⟩, by decide, rfl, rfl⟩

/-- Two calls: the second changes one header of the first and leaves the other. -/
example : Assoc.get ([[(keyA, "1".toList), (keyB, "x%20y".toList)], [(keyA, "2".toList)]].foldl withHeaders []) keyA = some "2".toList ∧
    Assoc.get ([[(keyA, "1".toList), (keyB, "x%20y".toList)], [(keyA, "2".toList)]].foldl withHeaders []) keyB = some "x y".toList := by
  decide +kernel

/-- **C56, violated.** A header the code sets is replaced by one of the environment, against the precedence of every other setting. -/
theorem code_header_overridden_violated :
    Assoc.get (httpHeaders some (fun _ => true) (fun n => if n = generalVar "HEADERS" then some "a=env".toList else none) .traces
      (withHeaders [] [(keyA, "code".toList)])) keyA = some "env".toList := by decide +kernel

/-- **C56, violated.** A value set in code is percent-decoded, so that `%41` cannot be sent as it is. -/
theorem code_value_decoded_violated : Assoc.get (withHeaders [] [(keyA, "%41".toList)]) keyA = some "A".toList := by decide +kernel

end Otel.Otlp
