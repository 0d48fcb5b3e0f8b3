import Verif.Sdk.ConfigProps
import Verif.Sdk.BspProps
import Verif.Logs.BlpProps
import Verif.Async.BatchResults
/-!
# From environment variables and builder calls to the batches exported, C128

The configuration of the batch processors (`Verif.Sdk.Config`) is given to their models: spans and logs, with a thread of their own or an async runtime.
-/

namespace Otel.Sdk.ConfiguredBatch
open Rust Config

/-- The sizes the batch span processor works with. trace/span_processor.rs:300-326 -/
def spanCfg (vars : Config.Env) (calls : List Call) : Bsp.Cfg := ⟨(bspConfig vars calls).maxExportBatchSize, (bspConfig vars calls).maxQueueSize⟩

/-- The sizes the batch log processor works with. logs/batch_log_processor.rs:335-345 -/
def logCfg (vars : Config.Env) (calls : List Call) : Bsp.Cfg := ⟨(blpConfig vars calls).maxExportBatchSize, (blpConfig vars calls).maxQueueSize⟩

/-- Spans with an async runtime. trace/span_processor_with_async_runtime.rs:237, 345-382 -/
def asyncSpanCfg (vars : Config.Env) (calls : List Call) : Async.Cfg :=
  ⟨.span, (bspConfig vars calls).maxQueueSize, (bspConfig vars calls).maxExportBatchSize⟩
/-- Logs with an async runtime. logs/log_processor_with_async_runtime.rs:120-214 -/
def asyncLogCfg (vars : Config.Env) (calls : List Call) : Async.Cfg :=
  ⟨.log, (blpConfig vars calls).maxQueueSize, (blpConfig vars calls).maxExportBatchSize⟩

/-! ## Specification -/

/-- All sizes that environment and code give are positive. -/
def Positive (vars : Config.Env) (queueVar batchVar : String) (calls : List Call) : Prop :=
  (∀ n, EnvGives vars 64 queueVar n → 0 < n) ∧ (∀ n, EnvGives vars 64 batchVar n → 0 < n) ∧ ∀ n, Call.queue n ∈ calls ∨ Call.batch n ∈ calls → 0 < n

/-- Batches are not empty and have at most the size configured for batches, and at most that for the queue. -/
def Within (b q : Nat) {X : Type} (exported : List (List X)) : Prop := ∀ l ∈ exported, l ≠ [] ∧ l.length ≤ b ∧ l.length ≤ q

/-! ## Proofs -/

theorem fromEnv_pos {vars : Config.Env} {name : String} {d v : Nat} (hd : 0 < d) (hp : ∀ n, EnvGives vars 64 name n → 0 < n) (h : FromEnv vars 64 name d v) : 0 < v := by
  rcases h with h | ⟨_, rfl⟩
  · exact hp _ h
  · exact hd

theorem bsp_sizes (vars : Config.Env) (calls : List Call) (hp : Positive vars "OTEL_BSP_MAX_QUEUE_SIZE" "OTEL_BSP_MAX_EXPORT_BATCH_SIZE" calls) :
    0 < (bspConfig vars calls).maxQueueSize ∧ 0 < (bspConfig vars calls).maxExportBatchSize := by
  obtain ⟨hq, hb, hc⟩ := hp
  have h0 : 0 < (Bsp.defaults.initFromEnv vars).maxQueueSize := by
    rw [bsp_init_queue]; exact fromEnv_pos (by decide) hq (orElse_fromEnv ..)
  have h1 : 0 < (Bsp.defaults.initFromEnv vars).maxExportBatchSize := by
    rw [bsp_init_batch, Nat.lt_min]
    exact ⟨fromEnv_pos (by decide) hb (orElse_fromEnv ..), fromEnv_pos (by decide) hq (orElse_fromEnv ..)⟩
  have key : ∀ (calls : List Call) (b : Bsp), (∀ n, Call.queue n ∈ calls ∨ Call.batch n ∈ calls → 0 < n) → 0 < b.maxQueueSize → 0 < b.maxExportBatchSize →
      0 < (calls.foldl Bsp.call b).maxQueueSize ∧ 0 < (calls.foldl Bsp.call b).maxExportBatchSize := by
    intro calls
    induction calls with
    | nil => intro b _ h0 h1; exact ⟨h0, h1⟩
    | cons c calls ih =>
      intro b hc h0 h1
      refine ih _ (fun n h => hc n (h.imp (List.mem_cons_of_mem _) (List.mem_cons_of_mem _))) ?_ ?_
      · cases c <;> first | exact h0 | exact hc _ (.inl List.mem_cons_self)
      · cases c <;> first | exact h1 | exact hc _ (.inr List.mem_cons_self)
  have := key calls _ hc h0 h1
  exact ⟨this.1, Nat.lt_min.2 ⟨this.2, this.1⟩⟩

theorem blp_sizes (vars : Config.Env) (calls : List Call) (hp : Positive vars "OTEL_BLRP_MAX_QUEUE_SIZE" "OTEL_BLRP_MAX_EXPORT_BATCH_SIZE" calls) :
    0 < (blpConfig vars calls).maxQueueSize ∧ 0 < (blpConfig vars calls).maxExportBatchSize := by
  obtain ⟨hq, hb, hc⟩ := hp
  have h0 : 0 < (Blp.defaults.initFromEnv vars).maxQueueSize := fromEnv_pos (d := 2048) (by decide) hq (orElse_fromEnv ..)
  have h1 : 0 < (Blp.defaults.initFromEnv vars).maxExportBatchSize := fromEnv_pos (d := 512) (by decide) hb (orElse_fromEnv ..)
  have key : ∀ (calls : List Call) (b : Blp), (∀ n, Call.queue n ∈ calls ∨ Call.batch n ∈ calls → 0 < n) → 0 < b.maxQueueSize → 0 < b.maxExportBatchSize →
      0 < (calls.foldl Blp.call b).maxQueueSize ∧ 0 < (calls.foldl Blp.call b).maxExportBatchSize := by
    intro calls
    induction calls with
    | nil => intro b _ h0 h1; exact ⟨h0, h1⟩
    | cons c calls ih =>
      intro b hc h0 h1
      refine ih _ (fun n h => hc n (h.imp (List.mem_cons_of_mem _) (List.mem_cons_of_mem _))) ?_ ?_
      · cases c <;> first | exact h0 | exact hc _ (.inl List.mem_cons_self)
      · cases c <;> first | exact h1 | exact hc _ (.inr List.mem_cons_self)
  have := key calls _ hc h0 h1
  exact ⟨this.1, Nat.lt_min.2 ⟨this.2, this.1⟩⟩

/-- The batch size of the span processor is never above the one configured. -/
theorem bsp_batch_le (vars : Config.Env) (calls : List Call) :
    ∃ b, Configured vars 64 "OTEL_BSP_MAX_EXPORT_BATCH_SIZE" 512 (calls.map Call.batch?) b ∧ (bspConfig vars calls).maxExportBatchSize ≤ b := by
  have h := fold_field Bsp.call Bsp.maxExportBatchSize Call.batch? (by intro b c; cases c <;> rfl) (Bsp.defaults.initFromEnv vars) calls
  have hle : (bspConfig vars calls).maxExportBatchSize ≤ (calls.foldl Bsp.call (Bsp.defaults.initFromEnv vars)).maxExportBatchSize := Nat.min_le_left _ _
  cases hf : (calls.map Call.batch?).reverse.find? Option.isSome with
  | none =>
    rw [hf] at h
    refine ⟨orElse (envNum vars 64 "OTEL_BSP_MAX_EXPORT_BATCH_SIZE") 512, ?_, ?_⟩
    · rw [Configured, hf]; exact orElse_fromEnv ..
    · refine hle.trans ?_
      rw [h, bsp_init_batch]
      exact Nat.min_le_left _ _
  | some o =>
    cases o with
    | none => have := List.find?_some hf; cases this
    | some n =>
      rw [hf] at h
      refine ⟨n, by rw [Configured, hf], ?_⟩
      rw [h] at hle; exact hle

/-- **C128, spans.** For every environment and all calls with positive sizes, in every schedule: the queue never holds more than configured, and every batch the
exporter gets is not empty and at most as large as configured by the last call, or else by the environment, or else 512; the accepted spans are those exported,
held and queued, in order, and those refused are counted. -/
theorem configured_span_batches {X : Type} (vars : Config.Env) (calls : List Call) (hp : Positive vars "OTEL_BSP_MAX_QUEUE_SIZE" "OTEL_BSP_MAX_EXPORT_BATCH_SIZE" calls)
    (s : Bsp.State X) (h : Bsp.Reachable (spanCfg vars calls) s) :
    ∃ b q, Configured vars 64 "OTEL_BSP_MAX_EXPORT_BATCH_SIZE" 512 (calls.map Call.batch?) b ∧ Configured vars 64 "OTEL_BSP_MAX_QUEUE_SIZE" 2048 (calls.map Call.queue?) q ∧
      Within b q s.exported ∧ s.queue.length ≤ q ∧ s.accepted = s.exported.flatten ++ s.worker.buffer ++ s.queue ∧ s.droppedSpanCount = s.refused.length := by
  obtain ⟨h1, h2, h3, h4⟩ := Bsp.bsp_conservation (spanCfg vars calls) (bsp_sizes vars calls hp).2 s h
  obtain ⟨b, hb, hle⟩ := bsp_batch_le vars calls
  exact ⟨b, _, hb, (bsp_precedence vars calls).1, fun l hl => ⟨(h4 l hl).1, (h4 l hl).2.trans hle, (h4 l hl).2.trans (bsp_batch_le_queue vars calls)⟩, h3, h1, h2⟩

/-- **C128, logs.** -/
theorem configured_log_batches {X : Type} (vars : Config.Env) (calls : List Call) (hp : Positive vars "OTEL_BLRP_MAX_QUEUE_SIZE" "OTEL_BLRP_MAX_EXPORT_BATCH_SIZE" calls)
    (s : Logs.Blp.State X) (h : Logs.Blp.Reachable (logCfg vars calls) s) :
    ∃ b q, Configured vars 64 "OTEL_BLRP_MAX_EXPORT_BATCH_SIZE" 512 (calls.map Call.batch?) b ∧ Configured vars 64 "OTEL_BLRP_MAX_QUEUE_SIZE" 2048 (calls.map Call.queue?) q ∧
      Within b q s.exported ∧ s.queue.length ≤ q ∧ s.accepted = s.exported.flatten ++ s.worker.buffer ++ s.queue ∧ s.droppedLogsCount = s.refused.length := by
  obtain ⟨h1, h2, h3, h4⟩ := Logs.Blp.blp_conservation (logCfg vars calls) s h
  obtain ⟨p1, -, -, b, hb, hle⟩ := blp_precedence vars calls
  have hpos : 0 < (logCfg vars calls).maxBatch := (blp_sizes vars calls hp).2
  refine ⟨b, _, hb, p1, fun l hl => ⟨(h2 l hl).1, ?_, ?_⟩, h3, h1, h4⟩
  · exact ((h2 l hl).2 hpos).trans (hle.le.trans (Nat.min_le_left _ _))
  · exact ((h2 l hl).2 hpos).trans (hle.le.trans (Nat.min_le_right _ _))

/-- **C128, spans with an async runtime.** -/
theorem configured_async_spans {X R : Type} (vars : Config.Env) (calls : List Call) (hp : Positive vars "OTEL_BSP_MAX_QUEUE_SIZE" "OTEL_BSP_MAX_EXPORT_BATCH_SIZE" calls)
    (sampled : X → Bool) (r : R) (s : Async.State X R) (h : Async.Reachable (asyncSpanCfg vars calls) sampled r s) :
    ∃ b q, Configured vars 64 "OTEL_BSP_MAX_EXPORT_BATCH_SIZE" 512 (calls.map Call.batch?) b ∧ Configured vars 64 "OTEL_BSP_MAX_QUEUE_SIZE" 2048 (calls.map Call.queue?) q ∧
      Within b q (s.exported.map Prod.fst) ∧ s.queue.length ≤ q ∧ s.buf.length < b := by
  obtain ⟨hq, hb⟩ := bsp_sizes vars calls hp
  obtain ⟨b, hcb, hle⟩ := bsp_batch_le vars calls
  obtain ⟨k1, k2⟩ := Async.async_held_bound (cfg := asyncSpanCfg vars calls) hq hb h
  refine ⟨b, _, hcb, (bsp_precedence vars calls).1, fun l hl => ?_, k1, ?_⟩
  · obtain ⟨e, he, rfl⟩ := List.mem_map.1 hl
    obtain ⟨j1, j2⟩ := Async.async_batch_size (cfg := asyncSpanCfg vars calls) hb h e he
    exact ⟨j1, j2.trans hle, j2.trans (bsp_batch_le_queue vars calls)⟩
  · have : s.buf.length ≤ (bspConfig vars calls).maxExportBatchSize - 1 := k2
    omega

/-- **C128, logs with an async runtime.** -/
theorem configured_async_logs {X R : Type} (vars : Config.Env) (calls : List Call) (hp : Positive vars "OTEL_BLRP_MAX_QUEUE_SIZE" "OTEL_BLRP_MAX_EXPORT_BATCH_SIZE" calls)
    (sampled : X → Bool) (r : R) (s : Async.State X R) (h : Async.Reachable (asyncLogCfg vars calls) sampled r s) :
    ∃ b q, Configured vars 64 "OTEL_BLRP_MAX_EXPORT_BATCH_SIZE" 512 (calls.map Call.batch?) b ∧ Configured vars 64 "OTEL_BLRP_MAX_QUEUE_SIZE" 2048 (calls.map Call.queue?) q ∧
      Within b q (s.exported.map Prod.fst) ∧ s.queue.length ≤ q ∧ s.buf.length < b := by
  obtain ⟨hq, hb⟩ := blp_sizes vars calls hp
  obtain ⟨p1, -, -, b, hcb, hle⟩ := blp_precedence vars calls
  obtain ⟨k1, k2⟩ := Async.async_held_bound (cfg := asyncLogCfg vars calls) hq hb h
  have hlb : (blpConfig vars calls).maxExportBatchSize ≤ b := hle ▸ Nat.min_le_left _ _
  refine ⟨b, _, hcb, p1, fun l hl => ?_, k1, ?_⟩
  · obtain ⟨e, he, rfl⟩ := List.mem_map.1 hl
    obtain ⟨j1, j2⟩ := Async.async_batch_size (cfg := asyncLogCfg vars calls) hb h e he
    exact ⟨j1, j2.trans hlb, j2.trans (blp_batch_le_queue vars calls)⟩
  · have : s.buf.length ≤ (blpConfig vars calls).maxExportBatchSize - 1 := k2
    omega

/-- **C128 fails for the size zero.** A batch size of zero in the environment is taken as it is, and then no batch is limited by it: there is a run in which the
exporter gets a batch of two. -/
theorem zero_size_violated : ∃ (vars : Config.Env) (s : Bsp.State Nat), Bsp.Reachable (spanCfg vars []) s ∧
    Configured vars 64 "OTEL_BSP_MAX_EXPORT_BATCH_SIZE" 512 [] 0 ∧ s.exported = [[1, 2]] := by
  obtain ⟨s, hs, he⟩ := Bsp.zero_batch_violated
  refine ⟨fun n => if n = "OTEL_BSP_MAX_EXPORT_BATCH_SIZE".toList then some "0".toList else
    if n = "OTEL_BSP_MAX_QUEUE_SIZE".toList then some "10".toList else none, s, ?_, ?_, he⟩
  · have : spanCfg (fun n => if n = "OTEL_BSP_MAX_EXPORT_BATCH_SIZE".toList then some "0".toList else
        if n = "OTEL_BSP_MAX_QUEUE_SIZE".toList then some "10".toList else none) [] = ⟨0, 10⟩ := by
      have h : bspConfig (fun n => if n = "OTEL_BSP_MAX_EXPORT_BATCH_SIZE".toList then some "0".toList else
        if n = "OTEL_BSP_MAX_QUEUE_SIZE".toList then some "10".toList else none) [] = ⟨10, 5000, 0, 30000, 1⟩ := by decide +kernel
      rw [spanCfg, h]
    rw [this]; exact hs
  · have h : orElse (envNum (fun n => if n = "OTEL_BSP_MAX_EXPORT_BATCH_SIZE".toList then some "0".toList else
        if n = "OTEL_BSP_MAX_QUEUE_SIZE".toList then some "10".toList else none) 64 "OTEL_BSP_MAX_EXPORT_BATCH_SIZE") 512 = 0 := by decide +kernel
    have := orElse_fromEnv (fun n => if n = "OTEL_BSP_MAX_EXPORT_BATCH_SIZE".toList then some "0".toList else
        if n = "OTEL_BSP_MAX_QUEUE_SIZE".toList then some "10".toList else none) 64 "OTEL_BSP_MAX_EXPORT_BATCH_SIZE" 512
    rw [h] at this
    exact this

/-! ## Examples -/

/-- The hypotheses are met: a queue of four in code with batches of 512 from nowhere gives batches of at most four. -/
example : Positive (fun _ => none) "OTEL_BSP_MAX_QUEUE_SIZE" "OTEL_BSP_MAX_EXPORT_BATCH_SIZE" [.queue 4, .delay 7] ∧ spanCfg (fun _ => none) [.queue 4, .delay 7] = ⟨4, 4⟩ := by
  have hcfg : bspConfig (fun _ => none) [.queue 4, .delay 7] = ⟨4, 7, 4, 30000, 1⟩ := by decide +kernel
  refine ⟨⟨fun n h => ?_, fun n h => ?_, fun n h => ?_⟩, by rw [spanCfg, hcfg]⟩
  · obtain ⟨s, h, _⟩ := h; cases h
  · obtain ⟨s, h, _⟩ := h; cases h
  · simp at h; omega

end Otel.Sdk.ConfiguredBatch
