import Verif.Sdk.Config
import Verif.Rust.NumSpec
/-! # C52, C71, C72: configuration -/

namespace Otel.Sdk.Config
open Rust

/-! ## Specification -/

/-- The environment gives the number `n` for `name`: the variable holds a decimal numeral of a value that fits. -/
def EnvGives (env : Env) (bits : Nat) (name : String) (n : Nat) : Prop :=
  ∃ s, env name.toList = some s ∧ DecNum s n ∧ n < 2 ^ bits

/-- The value configured without code: what the environment gives, the default if it gives nothing usable. -/
def FromEnv (env : Env) (bits : Nat) (name : String) (dflt v : Nat) : Prop :=
  EnvGives env bits name v ∨ ((∀ n, ¬ EnvGives env bits name n) ∧ v = dflt)

/-- The value configured: by the last call that sets it, else by the environment, else the default. -/
def Configured (env : Env) (bits : Nat) (name : String) (dflt : Nat) (calls : List (Option Nat)) (v : Nat) : Prop :=
  match calls.reverse.find? Option.isSome with
  | some (some n) => v = n
  | _ => FromEnv env bits name dflt v

/-- The argument of a call of `with_max_queue_size`. -/
def Call.queue? : Call → Option Nat
  | .queue n => some n
  | _ => none
def Call.batch? : Call → Option Nat
  | .batch n => some n
  | _ => none
def Call.delay? : Call → Option Nat
  | .delay n => some n
  | _ => none
def Call.timeout? : Call → Option Nat
  | .timeout n => some n
  | _ => none
def Call.concurrent? : Call → Option Nat
  | .concurrent n => some n
  | _ => none

/-! ## Lemmas -/

theorem envNum_iff (env : Env) (bits : Nat) (name : String) (n : Nat) : envNum env bits name = some n ↔ EnvGives env bits name n := by
  simp only [envNum, EnvGives, Option.bind_eq_some_iff, parseDec_iff]

theorem orElse_fromEnv (env : Env) (bits : Nat) (name : String) (dflt : Nat) :
    FromEnv env bits name dflt (orElse (envNum env bits name) dflt) := by
  cases h : envNum env bits name with
  | some n => exact .inl ((envNum_iff ..).1 h)
  | none =>
    refine .inr ⟨fun n hn => ?_, rfl⟩
    rw [(envNum_iff ..).2 hn] at h; cases h

theorem fromEnv_unique {env : Env} {bits : Nat} {name : String} {dflt v w : Nat} (h1 : FromEnv env bits name dflt v)
    (h2 : FromEnv env bits name dflt w) : v = w := by
  rcases h1 with h1 | ⟨h1, rfl⟩ <;> rcases h2 with h2 | ⟨h2, rfl⟩
  · have := ((envNum_iff ..).2 h1).symm.trans ((envNum_iff ..).2 h2); injection this
  · exact absurd h1 (h2 v)
  · exact absurd h2 (h1 w)
  · rfl

/-- A field that calls overwrite: the last one wins. -/
theorem fold_field {B C : Type} (call : B → C → B) (get : B → Nat) (arg : C → Option Nat)
    (hc : ∀ b c, get (call b c) = (arg c).getD (get b)) (b : B) (calls : List C) :
    get (calls.foldl call b) = match (calls.map arg).reverse.find? Option.isSome with
      | some (some n) => n
      | _ => get b := by
  have key : ∀ calls : List C, get (calls.reverse.foldl call b) = match (calls.map arg).find? Option.isSome with
      | some (some n) => n
      | _ => get b := by
    intro calls
    induction calls with
    | nil => rfl
    | cons c cs ih =>
      simp only [List.reverse_cons, List.foldl_append, List.foldl_cons, List.foldl_nil, List.map_cons]
      rw [hc, ih]
      cases h : arg c with
      | none => rw [List.find?_cons_of_neg (by simp)]; rfl
      | some n => rw [List.find?_cons_of_pos (by simp)]; rfl
  have := key calls.reverse
  rw [List.reverse_reverse, List.map_reverse] at this
  exact this

theorem configured_of_fold {B C : Type} {call : B → C → B} {get : B → Nat} {arg : C → Option Nat} {env : Env} {bits : Nat} {name : String}
    {dflt : Nat} {b : B} (hc : ∀ b c, get (call b c) = (arg c).getD (get b)) (hb : FromEnv env bits name dflt (get b)) (calls : List C) :
    Configured env bits name dflt (calls.map arg) (get (calls.foldl call b)) := by
  have h := fold_field call get arg hc b calls
  simp only [Configured]
  split
  · rename_i n hf; rw [hf] at h; exact h
  · rename_i hf
    have : get (calls.foldl call b) = get b := by
      rw [h]
      split
      · rename_i n hn; exact absurd hn (hf n)
      · rfl
    rw [this]; exact hb

/-! ## Batch processors -/

/-- **C52 (consistent)** Whatever the environment and the builder calls, the batch size used by the batch span processor is at most the queue
size. -/
theorem bsp_batch_le_queue (env : Env) (calls : List Call) : (bspConfig env calls).maxExportBatchSize ≤ (bspConfig env calls).maxQueueSize :=
  Nat.min_le_right _ _

/-- **C52 (consistent, logs)** The same for the batch log processor. -/
theorem blp_batch_le_queue (env : Env) (calls : List Call) : (blpConfig env calls).maxExportBatchSize ≤ (blpConfig env calls).maxQueueSize :=
  Nat.min_le_right _ _

theorem bsp_init_queue (env : Env) : (Bsp.defaults.initFromEnv env).maxQueueSize = orElse (envNum env 64 "OTEL_BSP_MAX_QUEUE_SIZE") 2048 := by
  simp only [Bsp.initFromEnv]; split <;> rfl
theorem bsp_init_delay (env : Env) : (Bsp.defaults.initFromEnv env).scheduledDelay = orElse (envNum env 64 "OTEL_BSP_SCHEDULE_DELAY") 5000 := by
  simp only [Bsp.initFromEnv]; split <;> rfl
theorem bsp_init_timeout (env : Env) : (Bsp.defaults.initFromEnv env).maxExportTimeout = orElse (envNum env 64 "OTEL_BSP_EXPORT_TIMEOUT") 30000 := by
  simp only [Bsp.initFromEnv]; split <;> rfl
theorem bsp_init_concurrent (env : Env) :
    (Bsp.defaults.initFromEnv env).maxConcurrentExports = orElse (envNum env 64 "OTEL_BSP_MAX_CONCURRENT_EXPORTS") 1 := by
  simp only [Bsp.initFromEnv]; split <;> rfl
theorem bsp_init_batch (env : Env) : (Bsp.defaults.initFromEnv env).maxExportBatchSize =
    min (orElse (envNum env 64 "OTEL_BSP_MAX_EXPORT_BATCH_SIZE") 512) (orElse (envNum env 64 "OTEL_BSP_MAX_QUEUE_SIZE") 2048) := by
  simp only [Bsp.initFromEnv]
  split
  · rename_i h; exact (Nat.min_eq_right (Nat.le_of_lt h)).symm
  · rename_i h; exact (Nat.min_eq_left (Nat.not_lt.1 h)).symm

/-- **C52 (precedence)** Queue size, delay, timeout and concurrency of the batch span processor: the last builder call wins, else the
environment variable if it holds a number that fits, else the default. -/
theorem bsp_precedence (env : Env) (calls : List Call) :
    Configured env 64 "OTEL_BSP_MAX_QUEUE_SIZE" 2048 (calls.map Call.queue?) (bspConfig env calls).maxQueueSize ∧
    Configured env 64 "OTEL_BSP_SCHEDULE_DELAY" 5000 (calls.map Call.delay?) (bspConfig env calls).scheduledDelay ∧
    Configured env 64 "OTEL_BSP_EXPORT_TIMEOUT" 30000 (calls.map Call.timeout?) (bspConfig env calls).maxExportTimeout ∧
    Configured env 64 "OTEL_BSP_MAX_CONCURRENT_EXPORTS" 1 (calls.map Call.concurrent?) (bspConfig env calls).maxConcurrentExports := by
  refine ⟨?_, ?_, ?_, ?_⟩
  · exact configured_of_fold (get := Bsp.maxQueueSize) (by intro b c; cases c <;> rfl)
      (by rw [bsp_init_queue]; exact orElse_fromEnv ..) calls
  · exact configured_of_fold (get := Bsp.scheduledDelay) (by intro b c; cases c <;> rfl)
      (by rw [bsp_init_delay]; exact orElse_fromEnv ..) calls
  · exact configured_of_fold (get := Bsp.maxExportTimeout) (by intro b c; cases c <;> rfl)
      (by rw [bsp_init_timeout]; exact orElse_fromEnv ..) calls
  · exact configured_of_fold (get := Bsp.maxConcurrentExports) (by intro b c; cases c <;> rfl)
      (by rw [bsp_init_concurrent]; exact orElse_fromEnv ..) calls

/-- **C52 (batch size, partial)** If the queue size of the environment is not below the batch size of the environment, the batch size is
what was configured for it, cut to the queue size. Without the hypothesis this fails, see `bsp_batch_violated`. -/
theorem bsp_batch_partial (env : Env) (calls : List Call)
    (hq : ∀ b q, FromEnv env 64 "OTEL_BSP_MAX_EXPORT_BATCH_SIZE" 512 b → FromEnv env 64 "OTEL_BSP_MAX_QUEUE_SIZE" 2048 q → b ≤ q) :
    ∃ b, Configured env 64 "OTEL_BSP_MAX_EXPORT_BATCH_SIZE" 512 (calls.map Call.batch?) b ∧
      (bspConfig env calls).maxExportBatchSize = min b (bspConfig env calls).maxQueueSize := by
  refine ⟨_, configured_of_fold (call := Bsp.call) (get := Bsp.maxExportBatchSize) (b := Bsp.defaults.initFromEnv env)
    (by intro b c; cases c <;> rfl) ?_ calls, rfl⟩
  have h1 := orElse_fromEnv env 64 "OTEL_BSP_MAX_EXPORT_BATCH_SIZE" 512
  rw [bsp_init_batch, Nat.min_eq_left (hq _ _ h1 (orElse_fromEnv ..))]
  exact h1

/-- **C52 (batch size set in code)** A batch size set by the program is used, cut to the queue size, whatever the environment. -/
theorem bsp_batch_set (env : Env) (calls : List Call) (n : Nat) (h : (calls.map Call.batch?).reverse.find? Option.isSome = some (some n)) :
    (bspConfig env calls).maxExportBatchSize = min n (bspConfig env calls).maxQueueSize := by
  have := fold_field Bsp.call Bsp.maxExportBatchSize Call.batch? (by intro b c; cases c <;> rfl) (Bsp.defaults.initFromEnv env) calls
  rw [h] at this
  show min _ _ = _
  rw [this]; rfl

/-- **C52 (batch size, violated)** The environment sets a queue size of 100, the program overrides it with 4096 and nobody sets a batch size:
the processor uses batches of 100 and not of 512. -/
theorem bsp_batch_violated :
    ∃ (env : Env) (calls : List Call), Configured env 64 "OTEL_BSP_MAX_EXPORT_BATCH_SIZE" 512 (calls.map Call.batch?) 512 ∧
      (bspConfig env calls).maxQueueSize = 4096 ∧ (bspConfig env calls).maxExportBatchSize = 100 := by
  let env : Env := fun s => if s = "OTEL_BSP_MAX_QUEUE_SIZE".toList then some "100".toList else none
  refine ⟨env, [.queue 4096], ?_, rfl, by decide +kernel⟩
  show FromEnv env 64 "OTEL_BSP_MAX_EXPORT_BATCH_SIZE" 512 512
  refine .inr ⟨?_, rfl⟩
  rintro n ⟨s, hs, _⟩
  have : env "OTEL_BSP_MAX_EXPORT_BATCH_SIZE".toList = none := by decide +kernel
  rw [this] at hs; cases hs

/-- **C52 (logs)** Every setting of the batch log processor: the last builder call wins, else the environment variable if it holds a number that
fits, else the default; the batch size is cut to the queue size. -/
theorem blp_precedence (env : Env) (calls : List Call) :
    Configured env 64 "OTEL_BLRP_MAX_QUEUE_SIZE" 2048 (calls.map Call.queue?) (blpConfig env calls).maxQueueSize ∧
    Configured env 64 "OTEL_BLRP_SCHEDULE_DELAY" 1000 (calls.map Call.delay?) (blpConfig env calls).scheduledDelay ∧
    Configured env 64 "OTEL_BLRP_EXPORT_TIMEOUT" 30000 (calls.map Call.timeout?) (blpConfig env calls).maxExportTimeout ∧
    ∃ b, Configured env 64 "OTEL_BLRP_MAX_EXPORT_BATCH_SIZE" 512 (calls.map Call.batch?) b ∧
      (blpConfig env calls).maxExportBatchSize = min b (blpConfig env calls).maxQueueSize := by
  refine ⟨?_, ?_, ?_, _, configured_of_fold (call := Blp.call) (get := Blp.maxExportBatchSize) (b := Blp.defaults.initFromEnv env)
    (by intro b c; cases c <;> rfl) (orElse_fromEnv ..) calls, rfl⟩
  · exact configured_of_fold (get := Blp.maxQueueSize) (by intro b c; cases c <;> rfl) (orElse_fromEnv ..) calls
  · exact configured_of_fold (get := Blp.scheduledDelay) (by intro b c; cases c <;> rfl) (orElse_fromEnv ..) calls
  · exact configured_of_fold (get := Blp.maxExportTimeout) (by intro b c; cases c <;> rfl) (orElse_fromEnv ..) calls

/-- Values that are used and values that are ignored. -/
example : blpConfig (fun s => if s = "OTEL_BLRP_MAX_QUEUE_SIZE".toList then some "300".toList else
      if s = "OTEL_BLRP_SCHEDULE_DELAY".toList then some "5s".toList else none) [.batch 400, .delay 7, .batch 1000] =
    ⟨300, 7, 300, 30000⟩ := by decide +kernel

/-! ## Periodic reader -/

/-- **C71 (interval)** The interval of a periodic reader: the last non-zero one set by the program, else the environment's, else 60 seconds. -/
theorem reader_interval (env : Env) (args : List Nat) :
    Configured env 64 "OTEL_METRIC_EXPORT_INTERVAL" 60000 (args.map fun a => if a ≠ 0 then some a else none) (readerConfig env args) :=
  configured_of_fold (get := fun n => n) (by intro b c; simp only [withInterval]; split <;> rfl) (orElse_fromEnv ..) args

/-- **C71 (interval, violated)** The documentation says a zero interval is replaced by 60 seconds; `OTEL_METRIC_EXPORT_INTERVAL=0` gives an
interval of zero: the reader exports without pause. -/
theorem zero_interval_violated : ∃ env : Env, readerConfig env [] = 0 ∧ readerConfig env [0] = 0 :=
  ⟨fun s => if s = "OTEL_METRIC_EXPORT_INTERVAL".toList then some "0".toList else none, by decide +kernel, by decide +kernel⟩

/-! ## Tracer provider -/

/-- The sampler names of the specification and what each selects. -/
def samplerTable (r : F64) : List (String × Choice) :=
  [("always_on", ⟨false, .alwaysOn⟩), ("always_off", ⟨false, .alwaysOff⟩), ("traceidratio", ⟨false, .ratio r⟩),
   ("parentbased_always_on", ⟨true, .alwaysOn⟩), ("parentbased_always_off", ⟨true, .alwaysOff⟩),
   ("parentbased_traceidratio", ⟨true, .ratio r⟩)]

/-- **C72 (sampler)** The sampler selected by the environment: the six names of the specification select what they say, with the ratio of
`OTEL_TRACES_SAMPLER_ARG` or 1 if that is not a number, and anything else — no variable, an unknown name, other case, spaces — selects
the default, parent based always on. -/
theorem sampler_from_env (parseF64 : Str → Option F64) (env : Env) :
    ∃ r : F64, (r = .fin 1 ∧ (env "OTEL_TRACES_SAMPLER_ARG".toList).bind parseF64 = none ∨
        (env "OTEL_TRACES_SAMPLER_ARG".toList).bind parseF64 = some r) ∧
      ((∃ p ∈ samplerTable r, env "OTEL_TRACES_SAMPLER".toList = some p.1.toList ∧ samplerFromEnv parseF64 env = p.2) ∨
       ((∀ p ∈ samplerTable r, env "OTEL_TRACES_SAMPLER".toList ≠ some p.1.toList) ∧ samplerFromEnv parseF64 env = ⟨true, .alwaysOn⟩)) := by
  refine ⟨ratioArg parseF64 (env "OTEL_TRACES_SAMPLER_ARG".toList), ?_, ?_⟩
  · simp only [ratioArg]
    split
    · rename_i r h; exact .inr h
    · rename_i h; exact .inl ⟨rfl, h⟩
  · simp only [samplerFromEnv]
    generalize ratioArg parseF64 (env "OTEL_TRACES_SAMPLER_ARG".toList) = r
    cases he : env "OTEL_TRACES_SAMPLER".toList with
    | none => exact .inr ⟨by simp, rfl⟩
    | some s =>
      simp only
      by_cases h1 : s = "always_on".toList
      · rw [if_pos h1]; exact .inl ⟨_, List.mem_cons_self, by rw [h1], rfl⟩
      rw [if_neg h1]
      by_cases h2 : s = "always_off".toList
      · rw [if_pos h2]; exact .inl ⟨("always_off", ⟨false, .alwaysOff⟩), by simp [samplerTable], by rw [h2], rfl⟩
      rw [if_neg h2]
      by_cases h3 : s = "traceidratio".toList
      · rw [if_pos h3]; exact .inl ⟨("traceidratio", ⟨false, .ratio r⟩), by simp [samplerTable], by rw [h3], rfl⟩
      rw [if_neg h3]
      by_cases h4 : s = "parentbased_always_on".toList
      · rw [if_pos h4]; exact .inl ⟨("parentbased_always_on", ⟨true, .alwaysOn⟩), by simp [samplerTable], by rw [h4], rfl⟩
      rw [if_neg h4]
      by_cases h5 : s = "parentbased_always_off".toList
      · rw [if_pos h5]; exact .inl ⟨("parentbased_always_off", ⟨true, .alwaysOff⟩), by simp [samplerTable], by rw [h5], rfl⟩
      rw [if_neg h5]
      by_cases h6 : s = "parentbased_traceidratio".toList
      · rw [if_pos h6]; exact .inl ⟨("parentbased_traceidratio", ⟨true, .ratio r⟩), by simp [samplerTable], by rw [h6], rfl⟩
      rw [if_neg h6]
      refine .inr ⟨?_, by simp only [ite_self]⟩
      intro p hp
      simp only [samplerTable, List.mem_cons, List.not_mem_nil, or_false] at hp
      intro h
      injection h with h
      rcases hp with rfl | rfl | rfl | rfl | rfl | rfl
      · exact h1 h
      · exact h2 h
      · exact h3 h
      · exact h4 h
      · exact h5 h
      · exact h6 h

/-- **C72 (limits)** The limits on attributes, events and links taken from the environment: the number if the variable holds one below 2^32, else
128; the limits per event and per link are always 128. -/
theorem limits_from_env (env : Env) :
    FromEnv env 32 "OTEL_SPAN_ATTRIBUTE_COUNT_LIMIT" 128 (limitsFromEnv env).maxAttributes ∧
    FromEnv env 32 "OTEL_SPAN_EVENT_COUNT_LIMIT" 128 (limitsFromEnv env).maxEvents ∧
    FromEnv env 32 "OTEL_SPAN_LINK_COUNT_LIMIT" 128 (limitsFromEnv env).maxLinks ∧
    (limitsFromEnv env).maxAttributesPerEvent = 128 ∧ (limitsFromEnv env).maxAttributesPerLink = 128 :=
  ⟨orElse_fromEnv .., orElse_fromEnv .., orElse_fromEnv .., rfl, rfl⟩

/-- The attribute limit a call sets. -/
def ProvCall.attributes? : ProvCall → Option Nat
  | .attributes n => some n
  | .limits l => some l.maxAttributes
  | _ => none
def ProvCall.events? : ProvCall → Option Nat
  | .events n => some n
  | .limits l => some l.maxEvents
  | _ => none
def ProvCall.links? : ProvCall → Option Nat
  | .links n => some n
  | .limits l => some l.maxLinks
  | _ => none
def ProvCall.sampler? : ProvCall → Option Choice
  | .sampler c => some c
  | _ => none

/-- **C72 (precedence)** For the limits and for the sampler the last builder call wins over the environment. -/
theorem prov_precedence (parseF64 : Str → Option F64) (env : Env) (calls : List ProvCall) :
    Configured env 32 "OTEL_SPAN_ATTRIBUTE_COUNT_LIMIT" 128 (calls.map ProvCall.attributes?) (provConfig parseF64 env calls).limits.maxAttributes ∧
    Configured env 32 "OTEL_SPAN_EVENT_COUNT_LIMIT" 128 (calls.map ProvCall.events?) (provConfig parseF64 env calls).limits.maxEvents ∧
    Configured env 32 "OTEL_SPAN_LINK_COUNT_LIMIT" 128 (calls.map ProvCall.links?) (provConfig parseF64 env calls).limits.maxLinks := by
  have h := limits_from_env env
  refine ⟨?_, ?_, ?_⟩
  · exact configured_of_fold (get := fun p : Prov => p.limits.maxAttributes) (by intro b c; cases c <;> rfl) h.1 calls
  · exact configured_of_fold (get := fun p : Prov => p.limits.maxEvents) (by intro b c; cases c <;> rfl) h.2.1 calls
  · exact configured_of_fold (get := fun p : Prov => p.limits.maxLinks) (by intro b c; cases c <;> rfl) h.2.2.1 calls

theorem prov_sampler (parseF64 : Str → Option F64) (env : Env) (calls : List ProvCall) :
    (∀ pre c post, calls = pre ++ .sampler c :: post → (∀ x ∈ post, x.sampler? = none) → (provConfig parseF64 env calls).sampler = c) ∧
    ((∀ x ∈ calls, x.sampler? = none) → (provConfig parseF64 env calls).sampler = samplerFromEnv parseF64 env) := by
  have key : ∀ (post : List ProvCall) (p : Prov), (∀ x ∈ post, x.sampler? = none) → (post.foldl Prov.call p).sampler = p.sampler := by
    intro post
    induction post with
    | nil => intro p _; rfl
    | cons x xs ih =>
      intro p h
      rw [List.foldl_cons, ih _ (fun y hy => h y (List.mem_cons_of_mem _ hy))]
      have := h x List.mem_cons_self
      cases x <;> first | rfl | cases this
  refine ⟨?_, fun h => key calls _ h⟩
  rintro pre c post rfl h
  simp only [provConfig, List.foldl_append, List.foldl_cons]
  rw [key post _ h]; rfl

/-- The limit of attributes per event that a call sets. -/
def ProvCall.perEvent? : ProvCall → Option Nat
  | .attributesPerEvent n => some n
  | .limits l => some l.maxAttributesPerEvent
  | _ => none

/-- The limit of attributes per link that a call sets. -/
def ProvCall.perLink? : ProvCall → Option Nat
  | .attributesPerLink n => some n
  | .limits l => some l.maxAttributesPerLink
  | _ => none

theorem last_call {V : Type} (get : Prov → V) (sets : ProvCall → Option V) (hs : ∀ p c, get (p.call c) = (sets c).getD (get p)) (p : Prov) (calls : List ProvCall) :
    (∀ pre c post n, calls = pre ++ c :: post → sets c = some n → (∀ x ∈ post, sets x = none) → get (calls.foldl Prov.call p) = n) ∧
    ((∀ x ∈ calls, sets x = none) → get (calls.foldl Prov.call p) = get p) := by
  have key : ∀ (post : List ProvCall) (p : Prov), (∀ x ∈ post, sets x = none) → get (post.foldl Prov.call p) = get p := by
    intro post
    induction post with
    | nil => intro p _; rfl
    | cons x xs ih =>
      intro p h
      rw [List.foldl_cons, ih _ (fun y hy => h y (List.mem_cons_of_mem _ hy)), hs, h x List.mem_cons_self]
      rfl
  refine ⟨?_, key calls p⟩
  rintro pre c post n rfl hc h
  rw [List.foldl_append, List.foldl_cons, key post _ h, hs, hc]
  rfl

/-- **C72 (limits of events and links)** The last call that sets the limit of attributes per event, or per link, wins; `with_span_limits` sets both; without such a call
it is 128. -/
theorem prov_inner_limits (parseF64 : Str → Option F64) (env : Env) (calls : List ProvCall) :
    (∀ pre c post n, calls = pre ++ c :: post → c.perEvent? = some n → (∀ x ∈ post, x.perEvent? = none) →
      (provConfig parseF64 env calls).limits.maxAttributesPerEvent = n) ∧
    ((∀ x ∈ calls, x.perEvent? = none) → (provConfig parseF64 env calls).limits.maxAttributesPerEvent = 128) ∧
    (∀ pre c post n, calls = pre ++ c :: post → c.perLink? = some n → (∀ x ∈ post, x.perLink? = none) →
      (provConfig parseF64 env calls).limits.maxAttributesPerLink = n) ∧
    ((∀ x ∈ calls, x.perLink? = none) → (provConfig parseF64 env calls).limits.maxAttributesPerLink = 128) := by
  obtain ⟨h1, h2⟩ := last_call (fun p => p.limits.maxAttributesPerEvent) ProvCall.perEvent? (by intro p c; cases c <;> rfl)
    ⟨samplerFromEnv parseF64 env, limitsFromEnv env⟩ calls
  obtain ⟨h3, h4⟩ := last_call (fun p => p.limits.maxAttributesPerLink) ProvCall.perLink? (by intro p c; cases c <;> rfl)
    ⟨samplerFromEnv parseF64 env, limitsFromEnv env⟩ calls
  exact ⟨h1, h2, h3, h4⟩

example : (provConfig (fun _ => none) (fun _ => none) [.attributesPerLink 7, .limits ⟨1, 2, 3, 4, 5⟩, .events 9]).limits.maxAttributesPerLink = 5 := rfl

end Otel.Sdk.Config
