import Verif.Otlp.ConfigProps
import Verif.Http.Headers
/-!
# Building gRPC exporters and the metadata of their requests (`opentelemetry-otlp/src/exporter/tonic/mod.rs`), C123

The channel and TLS settings are opaque. `http::HeaderMap`, which `MetadataMap` wraps, is a dependency, modelled as the names, in lower case, each with its
values in order. ASCII and binary metadata go the same way and are not told apart. What tonic adds to a request, or takes away when it sends it, is left out.
-/

namespace Otel.Otlp.Grpc
open Rust Sdk.Config

/-- The bytes of a header value. -/
abbrev Value := List UInt8

/-- `MetadataMap`, `HeaderMap`: names with their values. -/
abbrev Meta := List (Str × List Value)

/-- All values under a name. `HeaderMap::get_all` -/
def values (m : Meta) (k : Str) : List Value := (Assoc.get m k).getD []

/-- `HeaderMap::insert`: the value replaces all there are. -/
def put (m : Meta) (k : Str) (v : Value) : Meta := Assoc.insert m k [v]

/-- `HeaderMap::append`: the value comes after those there are. -/
def add (m : Meta) (k : Str) (v : Value) : Meta := Assoc.insert m k (values m k ++ [v])

/-- `HeaderMap::extend` with another map: the first value of a name is inserted, the others appended. -/
def extend (m m' : Meta) : Meta :=
  m'.foldl (fun m e => match e.2 with
    | [] => m
    | v :: vs => vs.foldl (fun m v => add m e.1 v) (put m e.1 v)) m

/-- `collect::<HeaderMap>()` of pairs: each is appended. -/
def collect (kvs : List (Str × Value)) : Meta := kvs.foldl (fun m kv => add m kv.1 kv.2) []

/-- An interceptor of the user: what it makes of a request, or that it refuses it, given the requests it was called with before. -/
abbrev Hook := List Meta → Meta → Option Meta

/-- Calls on the builder of a gRPC exporter. exporter/tonic/mod.rs:376-403, exporter/mod.rs:228-250 -/
inductive Call (C T : Type) where
  | config (c : BuilderCall)
  | metadata (m : Meta)
  | compression (c : Compression)
  | channel (c : C)
  | interceptor (h : Hook)
  | tls (t : T)

/-- `TonicExporterBuilder`, `TonicConfig`. exporter/tonic/mod.rs:34-45, 103-107 -/
structure Builder (C T : Type) where
  config : ExportConfig := {}
  md : Option Meta
  compression : Option Compression := none
  channel : Option C := none
  hook : Option Hook := none
  tls : Option T := none

/-- `default_headers`. exporter/mod.rs:184-191 -/
def defaultHeaders : List (Str × Str) := [("User-Agent".toList, "OTel OTLP Exporter Rust/0.29.0".toList)]

/-- `HeaderMap::try_from(&HashMap<String, String>)`: fails at a name or value that is not legal. -/
def tryFrom (r : Prop.Http.Rules) (kvs : List (Str × Str)) : Option Meta :=
  (kvs.mapM fun (kv : Str × Str) => match Prop.Http.headerName kv.1, Prop.Http.headerValue r kv.2 with
    | some k, some v => some (k, v)
    | _, _ => none).map collect

section
variable {C T : Type}

/-- `TonicExporterBuilder::default`; `none` is the panic of `expect`. exporter/tonic/mod.rs:124-146, span.rs:48-52, logs.rs:46-51, metric.rs:46-53 -/
def fresh (r : Prop.Http.Rules) : Option (Builder C T) := (tryFrom r defaultHeaders).map fun m => { md := some m }

/-- `WithTonicConfig`, `WithExportConfig`. exporter/tonic/mod.rs:405-443 -/
def Builder.call (b : Builder C T) : Call C T → Builder C T
  | .config c => { b with config := b.config.call c }
  | .metadata m => { b with md := some (extend (b.md.getD []) m) }
  | .compression c => { b with compression := some c }
  | .channel c => { b with channel := some c }
  | .interceptor h => { b with hook := some h }
  | .tls t => { b with tls := some t }

/-- The pairs of the header variable whose name and value are legal. `parse_headers_from_env`, exporter/tonic/mod.rs:329-350 -/
def headersFromEnv (r : Prop.Http.Rules) (env : Env) (sig : Signal) : Meta :=
  match headersInput env sig with
  | some input => collect ((parseHeaderString input).filterMap fun kv => match Prop.Http.headerName kv.1 with
      | some k => match Prop.Http.headerValue r kv.2 with
        | some v => some (k, v)
        | none => none
      | none => none)
  | none => []

/-- `merge_metadata_with_headers_from_env`. exporter/tonic/mod.rs:315-327 -/
def mergeMetadata (md fromEnv : Meta) : Meta := if fromEnv = [] then md else extend md fromEnv

/-- The channel of an exporter: the one given, or one to an address, connected when it is first used. -/
inductive Chan (C T : Type) where
  | given (c : C)
  | connectLazy (endpoint : Str) (tls : Option T) (timeout : Nat)

/-- What `build_channel` returns: `TonicTracesClient`, `TonicLogsClient`, `TonicMetricsClient` keep it. exporter/tonic/mod.rs:156, trace.rs:39-61 -/
structure Exporter (C T : Type) where
  chan : Chan C T
  md : Meta
  hook : Option Hook
  compression : Option Compression

/-- `ExporterBuildError`, the cases that occur here. exporter/mod.rs:102-137 -/
inductive BuildError where
  | compression (e : CompressionError)
  | invalidUri (endpoint : Str)
  | internalFailure
deriving DecidableEq

/-- `build_channel`; `uri` tells which texts `Channel::from_shared` accepts, `secure` which TLS settings an address takes.
exporter/tonic/mod.rs:150-218, 254-312 -/
def build (has : Compression → Bool) (r : Prop.Http.Rules) (uri : Str → Bool) (secure : Str → T → Bool) (env : Env) (sig : Signal) (b : Builder C T) :
    Except BuildError (Exporter C T) :=
  match resolveCompression has env (vars sig).compression b.compression with
  | .error e => .error (.compression e)
  | .ok comp =>
    let md := mergeMetadata (b.md.getD []) (headersFromEnv r env sig)
    match b.channel with
    | some c => .ok ⟨.given c, md, b.hook, comp⟩
    | none =>
      let endpoint := resolveGrpcEndpoint env (vars sig).endpoint b.config.endpoint
      if uri endpoint then
        let timeout := resolveTimeout env (vars sig).timeout b.config.timeout
        match b.tls with
        | some t => if secure endpoint t then .ok ⟨.connectLazy endpoint (some t) timeout, md, b.hook, comp⟩ else .error .internalFailure
        | none => .ok ⟨.connectLazy endpoint none timeout, md, b.hook, comp⟩
      else .error (.invalidUri endpoint)

/-- `add_metadata`: every entry is appended to the request. exporter/tonic/mod.rs:165-178 -/
def addMetadata (md req : Meta) : Meta := md.foldl (fun req e => e.2.foldl (fun req v => add req e.1 v) req) req

/-- The interceptor of the exporter: the user's is called after the metadata is there. exporter/tonic/mod.rs:180-185 -/
def Exporter.intercept (g : Exporter C T) (seen : List Meta) : Option Meta :=
  match g.hook with
  | some h => h seen (addMetadata g.md [])
  | none => some (addMetadata g.md [])

/-- The exports of an exporter, in order: the metadata of each request, `none` where the interceptor refused and nothing was sent. `seen` are the requests the
interceptor was called with. Each `export` calls the interceptor once with a new request. trace.rs:66-90, logs.rs:60-85, metrics.rs:56-90 -/
def Exporter.exports (g : Exporter C T) : Nat → List Meta → List (Option Meta)
  | 0, _ => []
  | n + 1, seen => g.intercept seen :: g.exports n (seen ++ [addMetadata g.md []])

end

/-! ## Specification -/

section Spec
variable {C T : Type}

/-- A header map has no name twice and no name without a value. -/
def Proper (m : Meta) : Prop := (m.map Prod.fst).Nodup ∧ ∀ e ∈ m, e.2 ≠ []

/-- The pairs of the text of a header variable that are legal headers, names in lower case. -/
def legalPairs (r : Prop.Http.Rules) (s : Str) : List (Str × Value) :=
  (parseHeaderString s).filterMap fun kv => (Prop.Http.headerName kv.1).bind fun k => (Prop.Http.headerValue r kv.2).map fun v => (k, v)

/-- The values the environment gives a header: those in the signal's variable or, if that is not set, the general one. -/
def envValues (r : Prop.Http.Rules) (env : Env) (sig : Signal) (k : Str) : List Value :=
  (((((env (signalVar sig "HEADERS")).or (env (generalVar "HEADERS"))).elim [] (legalPairs r))).filter fun kv => kv.1 = k).map Prod.snd

/-- What an exporter sends that nothing else is said about: it names itself. -/
def selfNamed (k : Str) : List Value := if k = "user-agent".toList then [utf8 "OTel OTLP Exporter Rust/0.29.0".toList] else []

/-- The values that the last of the calls of `with_metadata` that name a header gives it; before any, the exporter names itself. -/
def codeValues (calls : List (Call C T)) (k : Str) : List Value :=
  (((calls.filterMap fun c => match c with | .metadata m => some (values m k) | _ => none).filter (· ≠ [])).getLast?).getD (selfNamed k)

/-- What the last of the calls that say something says. -/
def lastOf {α : Type} (f : Call C T → Option α) (calls : List (Call C T)) : Option α := (calls.filterMap f).getLast?

def channelIn : Call C T → Option C | .channel c => some c | _ => none
def tlsIn : Call C T → Option T | .tls t => some t | _ => none
def hookIn : Call C T → Option Hook | .interceptor h => some h | _ => none
def compressionIn : Call C T → Option Compression | .compression c => some c | _ => none
def configIn : Call C T → Option BuilderCall | .config c => some c | _ => none

/-- The endpoint: of the code, else of the signal's variable, else of the general one, else the default. -/
def EndpointIs (env : Env) (sig : Signal) (calls : List (Call C T)) (e : Str) : Prop :=
  FirstOf [fun e => codeEndpoint (calls.filterMap configIn) = some e, fun e => env (signalVar sig "ENDPOINT") = some e,
    fun e => env (generalVar "ENDPOINT") = some e] (fun e => e = "http://localhost:4317".toList) e

/-- The timeout: of the code, else of the signal's variable, else of the general one, else ten seconds. -/
def TimeoutIs (env : Env) (sig : Signal) (calls : List (Call C T)) (d : Nat) : Prop :=
  FirstOf [fun d => codeTimeout (calls.filterMap configIn) = some d, MillisIn env (signalVar sig "TIMEOUT"), MillisIn env (generalVar "TIMEOUT")]
    (fun d => d = 10 * 1000000000) d

/-- The compression: of the code, else what the signal's variable names, else what the general one names, else none. -/
def CompressionIs (has : Compression → Bool) (env : Env) (sig : Signal) (calls : List (Call C T)) (c : Except CompressionError (Option Compression)) : Prop :=
  FirstOf [fun r => ∃ c, lastOf compressionIn calls = some c ∧ r = (if has c then .ok (some c) else .error (.featureRequired c)),
           fun r => ∃ s, env (signalVar sig "COMPRESSION") = some s ∧ Algorithm has s r,
           fun r => ∃ s, env (generalVar "COMPRESSION") = some s ∧ Algorithm has s r]
    (fun r => r = .ok none) c

end Spec

/-! ## Lemmas -/

theorem values_insert (m : Meta) (k k' : Str) (vs : List Value) : values (Assoc.insert m k vs) k' = if k' = k then vs else values m k' := by
  rw [values, Assoc.get_insert]
  split <;> rfl

theorem values_add (m : Meta) (k k' : Str) (v : Value) : values (add m k v) k' = values m k' ++ if k' = k then [v] else [] := by
  rw [add, values_insert]
  split
  · rename_i h; rw [h]
  · rw [List.append_nil]

theorem values_put (m : Meta) (k k' : Str) (v : Value) : values (put m k v) k' = if k' = k then [v] else values m k' := values_insert ..

theorem values_adds (vs : List Value) (m : Meta) (k k' : Str) :
    values (vs.foldl (fun m v => add m k v) m) k' = values m k' ++ if k' = k then vs else [] := by
  induction vs generalizing m with
  | nil => simp
  | cons v vs ih =>
    rw [List.foldl_cons, ih, values_add]
    split <;> simp

theorem values_cons (e : Str × List Value) (m : Meta) (k : Str) : values (e :: m) k = if k = e.1 then e.2 else values m k := by
  rw [values, Assoc.get_cons]
  split <;> rfl

theorem values_absent {m : Meta} {k : Str} (h : k ∉ m.map Prod.fst) : values m k = [] := by
  rw [values]
  cases hg : Assoc.get m k with
  | none => rfl
  | some v => exact absurd (Assoc.get_isSome.1 (by rw [hg]; rfl)) h

theorem values_extend (m' m : Meta) (h : Proper m') (k : Str) : values (extend m m') k = if values m' k = [] then values m k else values m' k := by
  induction m' generalizing m with
  | nil => simp [extend, values, Assoc.get]
  | cons e m' ih =>
    obtain ⟨k', vs⟩ := e
    have hp : Proper m' := ⟨(List.nodup_cons.1 h.1).2, fun e he => h.2 e (List.mem_cons_of_mem _ he)⟩
    cases vs with
    | nil => exact absurd rfl (h.2 (k', []) (List.mem_cons_self ..))
    | cons v vs =>
      have : extend m ((k', v :: vs) :: m') = extend (vs.foldl (fun m v => add m k' v) (put m k' v)) m' := rfl
      rw [this, ih _ hp, values_adds, values_put, values_cons]
      by_cases hk : k = k'
      · subst hk
        rw [values_absent (List.nodup_cons.1 h.1).1]
        simp
      · simp [hk]

theorem values_collect' (kvs : List (Str × Value)) (m : Meta) (k : Str) :
    values (kvs.foldl (fun m kv => add m kv.1 kv.2) m) k = values m k ++ (kvs.filter fun kv => kv.1 = k).map Prod.snd := by
  induction kvs generalizing m with
  | nil => simp
  | cons kv kvs ih =>
    rw [List.foldl_cons, ih, values_add, List.filter_cons]
    by_cases h : kv.1 = k
    · simp [h]
    · simp [h, Ne.symm h]

theorem values_collect (kvs : List (Str × Value)) (k : Str) : values (collect kvs) k = (kvs.filter fun kv => kv.1 = k).map Prod.snd := by
  rw [collect, values_collect']
  simp [values, Assoc.get]

theorem proper_insert {m : Meta} (h : Proper m) (k : Str) {vs : List Value} (hv : vs ≠ []) : Proper (Assoc.insert m k vs) := by
  refine ⟨Assoc.nodup_insert h.1 k vs, fun e he => ?_⟩
  rw [Assoc.insert] at he
  rcases List.mem_cons.1 he with rfl | he
  · exact hv
  · exact h.2 e (List.mem_filter.1 he).1

theorem proper_add {m : Meta} (h : Proper m) (k : Str) (v : Value) : Proper (add m k v) := proper_insert h k (by simp)

theorem proper_collect (kvs : List (Str × Value)) : Proper (collect kvs) := by
  have : ∀ (kvs : List (Str × Value)) (m : Meta), Proper m → Proper (kvs.foldl (fun m kv => add m kv.1 kv.2) m) := by
    intro kvs
    induction kvs with
    | nil => exact fun m h => h
    | cons kv kvs ih => exact fun m h => ih _ (proper_add h ..)
  exact this kvs [] ⟨by simp, by simp⟩

theorem proper_adds {m : Meta} (h : Proper m) (k : Str) (vs : List Value) : Proper (vs.foldl (fun m v => add m k v) m) := by
  induction vs generalizing m with
  | nil => exact h
  | cons v vs ih => exact ih (proper_add h ..)

theorem proper_extend {m : Meta} (h : Proper m) (m' : Meta) : Proper (extend m m') := by
  induction m' generalizing m with
  | nil => exact h
  | cons e m' ih =>
    obtain ⟨k, vs⟩ := e
    cases vs with
    | nil => exact ih h
    | cons v vs => exact ih (proper_adds (proper_insert h k (by simp)) k vs)

theorem values_addMetadata (md req : Meta) (h : Proper md) (k : Str) : values (addMetadata md req) k = values req k ++ values md k := by
  induction md generalizing req with
  | nil => simp [addMetadata, values, Assoc.get]
  | cons e md ih =>
    have hp : Proper md := ⟨(List.nodup_cons.1 h.1).2, fun x hx => h.2 x (List.mem_cons_of_mem _ hx)⟩
    have : addMetadata (e :: md) req = addMetadata md (e.2.foldl (fun req v => add req e.1 v) req) := rfl
    rw [this, ih _ hp, values_adds, values_cons]
    by_cases hk : k = e.1
    · subst hk
      rw [values_absent (List.nodup_cons.1 h.1).1]
      simp
    · simp [hk]

section
variable {C T : Type}

/-- The default headers are legal: making a builder does not panic. -/
theorem fresh_some (r : Prop.Http.Rules) :
    (fresh r : Option (Builder C T)) = some { md := some [("user-agent".toList, [utf8 "OTel OTLP Exporter Rust/0.29.0".toList])] } := by
  have : tryFrom r defaultHeaders = some [("user-agent".toList, [utf8 "OTel OTLP Exporter Rust/0.29.0".toList])] := by
    obtain ⟨b⟩ := r
    cases b <;> decide +kernel
  rw [fresh, this]
  rfl

/-- The builder after the calls. -/
def built (r : Prop.Http.Rules) (calls : List (Call C T)) : Option (Builder C T) := (fresh r).map fun b => calls.foldl Builder.call b

theorem lastOf_snoc {α : Type} (f : Call C T → Option α) (calls : List (Call C T)) (c : Call C T) : lastOf f (calls ++ [c]) = (f c).or (lastOf f calls) := by
  rw [lastOf, List.filterMap_append]
  cases h : f c with
  | none => simp [h, lastOf]
  | some a => simp [h]

theorem codeValues_snoc (calls : List (Call C T)) (c : Call C T) (k : Str) :
    codeValues (calls ++ [c]) k = match c with
      | .metadata m => if values m k = [] then codeValues calls k else values m k
      | _ => codeValues calls k := by
  unfold codeValues
  generalize selfNamed k = d
  rw [List.filterMap_append, List.filter_append]
  cases c with
  | metadata m =>
    by_cases h : values m k = []
    · simp [h]
    · simp [h]
  | _ => simp

theorem built_fields (r : Prop.Http.Rules) (calls : List (Call C T)) (hm : ∀ m, Call.metadata m ∈ calls → Proper m) :
    ∃ b : Builder C T, built r calls = some b ∧ b.config = configured (calls.filterMap configIn) ∧ b.compression = lastOf compressionIn calls ∧
      b.channel = lastOf channelIn calls ∧ b.hook = lastOf hookIn calls ∧ b.tls = lastOf tlsIn calls ∧
      ∃ md, b.md = some md ∧ Proper md ∧ ∀ k, values md k = codeValues calls k := by
  refine ⟨calls.foldl Builder.call { md := some [("user-agent".toList, [utf8 "OTel OTLP Exporter Rust/0.29.0".toList])] }, ?_, ?_⟩
  · rw [built, fresh_some]; rfl
  · revert hm
    refine List.reverseRecOn calls (fun _ => ?_) (fun calls c ih hm => ?_)
    · refine ⟨rfl, rfl, rfl, rfl, rfl, _, rfl, ⟨by simp, by intro e he; rw [List.mem_singleton.1 he]; simp⟩, fun k => ?_⟩
      rw [values_cons]; rfl
    · obtain ⟨h1, h2, h3, h4, h5, md, h6, h7, h8⟩ := ih fun m h => hm m (List.mem_append_left _ h)
      have hc : ∀ l : List BuilderCall, configured (l ++ []) = configured l := fun l => by rw [List.append_nil]
      simp only [List.foldl_append, List.foldl_cons, List.foldl_nil, List.filterMap_append, lastOf_snoc, codeValues_snoc]
      cases c with
      | config c =>
        refine ⟨?_, h2, h3, h4, h5, md, h6, h7, h8⟩
        show (List.foldl Builder.call _ calls).config.call c = _
        rw [h1]
        exact (configured_snoc _ c).symm
      | metadata m =>
        refine ⟨h1.trans (hc _).symm, h2, h3, h4, h5, extend md m, ?_, proper_extend h7 m, fun k => ?_⟩
        · show some (extend (Option.getD (List.foldl Builder.call _ calls).md []) m) = _
          rw [h6]; rfl
        · rw [values_extend m md (hm m (by simp)), h8]
      | compression c => exact ⟨h1.trans (hc _).symm, rfl, h3, h4, h5, md, h6, h7, h8⟩
      | channel c => exact ⟨h1.trans (hc _).symm, h2, rfl, h4, h5, md, h6, h7, h8⟩
      | interceptor h => exact ⟨h1.trans (hc _).symm, h2, h3, rfl, h5, md, h6, h7, h8⟩
      | tls t => exact ⟨h1.trans (hc _).symm, h2, h3, h4, rfl, md, h6, h7, h8⟩

theorem values_fromEnv (r : Prop.Http.Rules) (env : Env) (sig : Signal) (k : Str) : values (headersFromEnv r env sig) k = envValues r env sig k := by
  have hin : headersInput env sig = (env (signalVar sig "HEADERS")).or (env (generalVar "HEADERS")) := by
    rw [headersInput, vars_headers, general_headers]
    cases env (signalVar sig "HEADERS") <;> rfl
  rw [headersFromEnv, envValues, hin]
  cases (env (signalVar sig "HEADERS")).or (env (generalVar "HEADERS")) with
  | none => rfl
  | some s =>
    simp only [Option.elim_some]
    rw [values_collect]
    congr 2
    rw [legalPairs]
    congr 1
    funext kv
    cases Prop.Http.headerName kv.1 with
    | none => rfl
    | some k => cases Prop.Http.headerValue r kv.2 <;> rfl

theorem proper_fromEnv (r : Prop.Http.Rules) (env : Env) (sig : Signal) : Proper (headersFromEnv r env sig) := by
  rw [headersFromEnv]
  cases headersInput env sig with
  | none => exact ⟨by simp, by simp⟩
  | some s => exact proper_collect _

seal headersFromEnv

theorem values_merge {md : Meta} (r : Prop.Http.Rules) (env : Env) (sig : Signal) (k : Str) :
    values (mergeMetadata md (headersFromEnv r env sig)) k = if envValues r env sig k = [] then values md k else envValues r env sig k := by
  rw [mergeMetadata]
  split
  · rename_i h
    rw [← values_fromEnv, h]; rfl
  · rw [values_extend _ _ (proper_fromEnv ..), values_fromEnv]

theorem proper_merge {md : Meta} (h : Proper md) (r : Prop.Http.Rules) (env : Env) (sig : Signal) : Proper (mergeMetadata md (headersFromEnv r env sig)) := by
  rw [mergeMetadata]
  split
  · exact h
  · with_reducible exact proper_extend h _

theorem exports_eq (g : Exporter C T) (n : Nat) (seen : List Meta) :
    g.exports n seen = (List.range n).map fun i => g.intercept (seen ++ List.replicate i (addMetadata g.md [])) := by
  induction n generalizing seen with
  | zero => rfl
  | succ n ih =>
    rw [Exporter.exports, ih, List.range_succ_eq_map, List.map_cons, List.map_map]
    congr 1
    · simp
    · refine List.map_congr_left fun i _ => ?_
      simp [List.replicate_succ]

/-! ## C123 -/

/-- The outcome of building a gRPC exporter with some calls: `none` is a panic. -/
def make (has : Compression → Bool) (r : Prop.Http.Rules) (uri : Str → Bool) (secure : Str → T → Bool) (env : Env) (sig : Signal) (calls : List (Call C T)) :
    Option (Except BuildError (Exporter C T)) := (built r calls).map (build has r uri secure env sig)

/-- What must hold for building to give `res`. -/
def Builds (has : Compression → Bool) (uri : Str → Bool) (secure : Str → T → Bool) (env : Env) (sig : Signal) (calls : List (Call C T)) :
    Except BuildError (Chan C T × Option Compression) → Prop
  | .error (.compression e) => CompressionIs has env sig calls (.error e)
  | .error (.invalidUri e) => (∃ c, CompressionIs has env sig calls (.ok c)) ∧ lastOf channelIn calls = none ∧ EndpointIs env sig calls e ∧ uri e = false
  | .error .internalFailure => (∃ c, CompressionIs has env sig calls (.ok c)) ∧ lastOf channelIn calls = none ∧
      ∃ e t, EndpointIs env sig calls e ∧ uri e = true ∧ lastOf tlsIn calls = some t ∧ secure e t = false
  | .ok (ch, c) => CompressionIs has env sig calls (.ok c) ∧
      ((∃ x, lastOf channelIn calls = some x ∧ ch = .given x) ∨
       (lastOf channelIn calls = none ∧ ∃ e d, EndpointIs env sig calls e ∧ uri e = true ∧ (∀ t, lastOf tlsIn calls = some t → secure e t = true) ∧
          TimeoutIs env sig calls d ∧ ch = .connectLazy e (lastOf tlsIn calls) d))

/-- **C123 (building).** Building a gRPC exporter never panics. It fails exactly when the compression cannot be had or, unless the code gives a channel, when
the endpoint is not a URI or does not take the TLS settings; a channel the code gives is used as it is, else the channel leads to the endpoint, with the
last TLS settings and the timeout. -/
theorem grpc_build (has : Compression → Bool) (r : Prop.Http.Rules) (uri : Str → Bool) (secure : Str → T → Bool) (env : Env) (sig : Signal)
    (calls : List (Call C T)) (hm : ∀ m, Call.metadata m ∈ calls → Proper m) :
    ∃ res, make has r uri secure env sig calls = some res ∧ Builds has uri secure env sig calls (res.map fun g => (g.chan, g.compression)) := by
  obtain ⟨b, hb, h1, h2, h3, h4, h5, md, h6, h7, h8⟩ := built_fields r calls hm
  refine ⟨build has r uri secure env sig b, by rw [make, hb]; rfl, ?_⟩
  have hcomp := compression has env sig b.compression
  have hend := grpc_endpoint env sig (calls.filterMap configIn)
  have htime := exporter_timeout env sig (calls.filterMap configIn)
  rw [grpcEndpoint, ← h1] at hend
  rw [exporterTimeout, ← h1] at htime
  rw [h2] at hcomp
  rw [build, h2]
  cases hc : resolveCompression has env (vars sig).compression (lastOf compressionIn calls) with
  | error e => rw [hc] at hcomp; exact hcomp
  | ok comp =>
    rw [hc] at hcomp
    simp only
    cases hch : b.channel with
    | some c => exact ⟨hcomp, .inl ⟨c, h3 ▸ hch, rfl⟩⟩
    | none =>
      simp only
      cases hu : uri (resolveGrpcEndpoint env (vars sig).endpoint b.config.endpoint) with
      | false => exact ⟨⟨comp, hcomp⟩, h3 ▸ hch, hend, hu⟩
      | true =>
        simp only [if_true]
        cases ht : b.tls with
        | none =>
          refine ⟨hcomp, .inr ⟨h3 ▸ hch, _, _, hend, hu, ?_, htime, ?_⟩⟩
          · intro t h; rw [← h5, ht] at h; cases h
          · rw [← h5, ht]
        | some t =>
          simp only
          cases hs : secure (resolveGrpcEndpoint env (vars sig).endpoint b.config.endpoint) t with
          | false => exact ⟨⟨comp, hcomp⟩, h3 ▸ hch, _, t, hend, hu, h5 ▸ ht, hs⟩
          | true =>
            refine ⟨hcomp, .inr ⟨h3 ▸ hch, _, _, hend, hu, ?_, htime, ?_⟩⟩
            · intro t' h; rw [← h5, ht] at h; cases h; exact hs
            · rw [← h5, ht]

/-- **C123 (metadata), partial: the environment comes first.** The metadata of the requests of a gRPC exporter: a header has the values the environment gives it, all of them and in order; else those
of the last `with_metadata` that names it; and the exporter names itself as the user agent if nothing else does. The last interceptor given sees
this metadata, once for every export, and decides what is sent. -/
theorem grpc_metadata_partial (has : Compression → Bool) (r : Prop.Http.Rules) (uri : Str → Bool) (secure : Str → T → Bool) (env : Env) (sig : Signal)
    (calls : List (Call C T)) (hm : ∀ m, Call.metadata m ∈ calls → Proper m) {g : Exporter C T} (hg : make has r uri secure env sig calls = some (.ok g)) :
    ∃ base : Meta, (∀ k, values base k = if envValues r env sig k = [] then codeValues calls k else envValues r env sig k) ∧
      ∀ n, g.exports n [] = (List.range n).map fun i => match lastOf hookIn calls with
        | some h => h (List.replicate i base) base
        | none => some base := by
  obtain ⟨b, hb, h1, h2, h3, h4, h5, md, h6, h7, h8⟩ := built_fields r calls hm
  rw [make, hb] at hg
  have hg := Option.some.inj hg
  have hgm : g.md = mergeMetadata md (headersFromEnv r env sig) ∧ g.hook = b.hook := by
    rw [build, h6] at hg
    simp only [Option.getD_some] at hg
    split at hg
    · cases hg
    · split at hg
      · cases hg; exact ⟨rfl, rfl⟩
      · split at hg
        · split at hg
          · split at hg
            · cases hg; exact ⟨rfl, rfl⟩
            · cases hg
          · cases hg; exact ⟨rfl, rfl⟩
        · cases hg
  refine ⟨addMetadata g.md [], fun k => ?_, fun n => ?_⟩
  · rw [hgm.1, values_addMetadata _ _ (proper_merge h7 ..), values_merge, h8]
    simp [values, Assoc.get]
  · rw [exports_eq]
    refine List.map_congr_left fun i _ => ?_
    rw [Exporter.intercept, hgm.2, h4, List.nil_append]

/-- **C123 (metadata).** Pairs written to the header variable of the signal are sent, whatever the code sets: with proper keys that are header names in lower case,
and values that are not empty and legal, each key has exactly its values, in order, also when it is there more than once. -/
theorem grpc_env_sent {r : Prop.Http.Rules} {env : Env} {sig : Signal} {set : UInt8 → Bool} (hset : Escapes set) {kvs : List (Str × Str)}
    (h : ∀ kv ∈ kvs, HeaderKey kv.1 ∧ kv.2 ≠ [] ∧ Prop.Http.headerName kv.1 = some kv.1 ∧ Prop.Http.headerValue r kv.2 = some (utf8 kv.2))
    (henv : env (signalVar sig "HEADERS") = some (headerString set kvs)) (k : Str) :
    envValues r env sig k = (kvs.filter fun kv => kv.1 = k).map fun kv => utf8 kv.2 := by
  rw [envValues, henv, Option.some_or, Option.elim_some, legalPairs, header_string_roundtrip_partial hset fun kv hkv => ⟨(h kv hkv).1, (h kv hkv).2.1⟩]
  clear henv
  induction kvs with
  | nil => rfl
  | cons kv kvs ih =>
    have hk := h kv (List.mem_cons_self ..)
    rw [List.filterMap_cons, hk.2.2.1, Option.bind_some, hk.2.2.2, Option.map_some]
    simp only
    rw [List.filter_cons, List.filter_cons]
    by_cases hkk : kv.1 = k
    · simp only [hkk, decide_true, if_true, List.map_cons]
      rw [ih fun x hx => h x (List.mem_cons_of_mem _ hx)]
    · simp only [hkk, decide_false, Bool.false_eq_true, if_false]
      exact ih fun x hx => h x (List.mem_cons_of_mem _ hx)

/-! ### Examples -/

/-- `api-key` -/
def exKey : Str := "api-key".toList

/-- An environment with two values of a header. -/
def exEnv : Env := fun n => if n = generalVar "HEADERS" then some "api-key=one,Api-Key=two".toList else none

/-- Calls: metadata of the code for `api-key` and `x`, then again for `x`. -/
def exCalls : List (Call Unit Unit) :=
  [.metadata [(exKey, [[1]]), ("x".toList, [[1], [2]])], .config (.endpoint "http://a:1".toList), .metadata [("x".toList, [[3]])]]

/-- What they build. -/
def exBuilt : Exporter Unit Unit :=
  ⟨.connectLazy "http://a:1".toList none 10000000000,
   mergeMetadata (extend (extend [("user-agent".toList, [utf8 "OTel OTLP Exporter Rust/0.29.0".toList])] [(exKey, [[1]]), ("x".toList, [[1], [2]])])
     [("x".toList, [[3]])]) (headersFromEnv ⟨false⟩ exEnv .traces), none, none⟩

theorem exBuilt_made : make (fun _ => true) ⟨false⟩ (fun _ => true) (fun _ _ => true) exEnv .traces exCalls = some (.ok exBuilt) := by
  rw [make, built, fresh_some]
  have h1 : resolveCompression (fun _ => true) exEnv (vars .traces).compression none = .ok none := by decide +kernel
  have h2 : resolveTimeout exEnv (vars .traces).timeout none = 10000000000 := by decide +kernel
  have h3 : resolveGrpcEndpoint exEnv (vars .traces).endpoint (some "http://a:1".toList) = "http://a:1".toList := by decide +kernel
  simp only [Option.map_some, exCalls, List.foldl_cons, List.foldl_nil, Builder.call, ExportConfig.call, build, h1, h2, h3, if_true, Option.getD_some, exBuilt]

/-- The hypotheses are met: the calls give proper maps and an exporter is built. -/
example : (∀ m, Call.metadata m ∈ exCalls → Proper m) ∧
    ∃ g, make (fun _ => true) ⟨false⟩ (fun _ => true) (fun _ _ => true) exEnv .traces exCalls = some (.ok g) ∧
      values g.md exKey = [utf8 "one".toList, utf8 "two".toList] ∧ values g.md "x".toList = [[3]] := by
  refine ⟨fun m h => ?_, exBuilt, exBuilt_made, by decide +kernel, by decide +kernel⟩
  simp only [exCalls, List.mem_cons, List.not_mem_nil, or_false, Call.metadata.injEq, reduceCtorEq, false_or] at h
  rcases h with rfl | rfl <;> exact ⟨by decide, by decide⟩

example : envValues ⟨false⟩ exEnv .traces exKey = [utf8 "one".toList, utf8 "two".toList] ∧ envValues ⟨false⟩ exEnv .traces "x".toList = [] ∧
    codeValues exCalls exKey = [[1]] ∧ codeValues exCalls "x".toList = [[3]] ∧
    codeValues exCalls "user-agent".toList = [utf8 "OTel OTLP Exporter Rust/0.29.0".toList] := by
  refine ⟨?_, ?_, ?_, ?_, ?_⟩ <;> decide +kernel

/-- **C123, violated.** Metadata the code sets for a header is replaced by that of the environment, against the precedence of every other setting; and of a
header that a variable has twice, the gRPC exporter sends both values where the HTTP exporter sends the last. -/
theorem code_metadata_overridden_violated : ∃ (g : Exporter Unit Unit),
    make (fun _ => true) ⟨false⟩ (fun _ => true) (fun _ _ => true) exEnv .traces exCalls = some (.ok g) ∧
    codeValues exCalls exKey = [[1]] ∧ values (addMetadata g.md []) exKey = [utf8 "one".toList, utf8 "two".toList] ∧
    Assoc.get (httpHeaders Prop.Http.headerName (fun v => (Prop.Http.headerValue ⟨false⟩ v).isSome) exEnv .traces []) exKey = some "two".toList := by
  refine ⟨exBuilt, exBuilt_made, ?_, ?_, ?_⟩ <;> decide +kernel

unseal headersFromEnv

/-- A channel given in code takes the place of the endpoint and the timeout the code also gives, as documented: the endpoint is not even looked at. -/
example : ∃ (g : Exporter Unit Unit),
    make (fun _ => true) ⟨false⟩ (fun _ => false) (fun _ _ => true) (fun _ => none) .logs
      [.channel (), .config (.endpoint "not a uri".toList), .config (.timeout 5)] = some (.ok g) ∧ g.chan = .given () := by
  refine ⟨⟨.given (), [("user-agent".toList, [utf8 "OTel OTLP Exporter Rust/0.29.0".toList])], none, none⟩, ?_, rfl⟩
  rw [make, built, fresh_some]
  rfl

end

end Otel.Otlp.Grpc
