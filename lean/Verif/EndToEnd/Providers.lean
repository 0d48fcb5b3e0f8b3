import Verif.EndToEnd.SimpleAsync
/-!
# From a provider with several processors to their collectors (C112)

Each processor has its own OTLP exporter and its own collector.
-/

set_option linter.unusedSectionVars false

namespace Otel.EndToEnd.Fan
open Rust Otel.Otlp
open Common (Val Scope)

/-! ## Specification -/

/-- An exporter and its collector, for items `X` of which the `good` ones can be carried, and a collector that finds `A`s. -/
structure Out (X R A : Type) (res : R) (good : X → Prop) (Reads : X → A → Prop) where
  O : Type
  M : Type
  Y : Type
  c : O → Exporter.Cfg R (List X) M Y
  /-- the exporter's resource before it is given one -/
  empty : R
  /-- what the collector finds in the requests -/
  arrivals : List (Exporter.Request Y) → List A
  signal : ∀ o, (c o).signal ≠ .metrics
  /-- one `A` per item, that reads as the item -/
  reads : ∀ bs qs, List.Forall₂ (fun b q => ∃ o, (c o).encode ((c o).message res b) = some q.body) bs qs → (∀ x ∈ bs.flatten, good x) →
    ∃ l', l'.Perm bs.flatten ∧ List.Forall₂ Reads l' (arrivals qs)

/-- The processors of the SDK: `BatchSpanProcessor`, `BatchLogProcessor`, those on an async runtime, and `SimpleSpanProcessor` (`checks` false, `keep` is `is_sampled`) or
`SimpleLogProcessor` (`checks` true, everything is kept). -/
inductive Kind (X : Type) where
  | batchSpan (cfg : Sdk.Bsp.Cfg)
  | batchLog (cfg : Sdk.Bsp.Cfg)
  | async (cfg : Async.Cfg) (sampled : X → Bool)
  | simple (checks : Bool) (keep : X → Bool)

variable {X R A : Type} {res : R} {good : X → Prop} {Reads : X → A → Prop}

/-- The processor with its exporter. -/
def Kind.part (out : Out X R A res good Reads) : Kind X → Part X
  | .batchSpan cfg => spanPart cfg out.c res
  | .batchLog cfg => logPart cfg out.c res
  | .async cfg sampled => asyncPart cfg sampled out.c out.empty res
  | .simple checks keep => simplePart checks keep out.c res

/-- What its collector has found. -/
def Kind.found (out : Out X R A res good Reads) : (k : Kind X) → (k.part out).S → List A
  | .batchSpan _, q => out.arrivals (requests q.2.2)
  | .batchLog _, q => out.arrivals (requests q.2.2)
  | .async _ _, q => out.arrivals q.2.2
  | .simple _ _, q => out.arrivals (requests q.2.2)

/-- The items it has taken, in order. -/
def Kind.taken (out : Out X R A res good Reads) : (k : Kind X) → (k.part out).S → List X
  | .batchSpan _, q => Sdk.Bsp.State.accepted q.1
  | .batchLog _, q => Logs.Blp.State.accepted q.1
  | .async _ _, q => Async.State.accepted q.1
  | .simple _ _, q => Simple.State.taken q.1

/-- The items it has not taken: its queue was full, it was shut down, or they are not sampled. -/
def Kind.left (out : Out X R A res good Reads) : (k : Kind X) → (k.part out).S → List X
  | .batchSpan _, q => Sdk.Bsp.State.refused q.1 ++ Sdk.Bsp.State.ignored q.1
  | .batchLog _, q => Logs.Blp.State.refused q.1 ++ Logs.Blp.State.ignored q.1
  | .async _ _, q => Async.State.refused q.1 ++ Async.State.unsampled q.1
  | .simple _ _, q => Simple.State.ignored q.1

/-- Every export of the processor has succeeded, and what its `force_flush` or `shutdown` needs besides: of the batch span processor, that no more than one batch was waiting (C27);
of the batch log processor, that no `emit` was between its two steps when the worker began (C34). -/
def Kind.Fits (out : Out X R A res good Reads) : (k : Kind X) → (k.part out).S → Nat → Prop
  | .batchSpan cfg, q, tok => AllOk q.2.2 ∧ (Sdk.Bsp.State.atCall q.1 tok).1 ≤ (Sdk.Bsp.State.atCall q.1 tok).2 + cfg.maxBatch
  | .batchLog cfg, q, tok => AllOk q.2.2 ∧ cfg.maxQueue < 2 ^ 64 ∧ ∀ r n, (tok, r, n) ∈ Logs.Blp.State.returned q.1 → n = 0
  | .async _ _, q, _ => AsyncPipe.Succeeded q.1
  | .simple _ _, q, _ => AllOk q.2.2

/-! ## Lemmas -/

theorem Kind.lawful (out : Out X R A res good Reads) (k : Kind X) : (k.part out).Lawful := by
  cases k with
  | batchSpan cfg => exact spanPart_lawful cfg out.c res
  | batchLog cfg => exact logPart_lawful cfg out.c res
  | async cfg sampled => exact asyncPart_lawful cfg sampled out.c out.empty res
  | simple checks keep => exact simplePart_lawful checks keep out.c res

/-- Taken or not: that is all it is given. -/
theorem Kind.given (out : Out X R A res good Reads) (k : Kind X) (q : (k.part out).S) : (k.part out).given q = k.taken out q ++ k.left out q := by
  cases k with
  | batchSpan cfg => exact List.append_assoc _ _ _
  | batchLog cfg => exact List.append_assoc _ _ _
  | async cfg sampled => exact List.append_assoc _ _ _
  | simple checks keep => rfl

theorem Out.tells (out : Out X R A res good Reads) (o : out.O) : Exporter.TellsStatus (out.c o) := fun h => out.signal o h.1

theorem pipe_arrives (out : Out X R A res good Reads) {p : Proc X} {s : p.S} {e : Exporter.St R} {log : List (Sending out.Y)} (h : Pipe p out.c res s e log) {taken : List X}
    (ht : (p.exported s).flatten <+: taken) (hg : ∀ x ∈ taken, good x) :
    ∃ l l', l.Sublist taken ∧ l'.Perm l ∧ List.Forall₂ Reads l' (out.arrivals (requests log)) ∧ (AllOk log → l = (p.exported s).flatten) := by
  obtain ⟨_, bs, h1, h2, h3⟩ := pipe_requests h
  have hsub : List.Sublist bs.flatten taken := (flatten_sublist h1).trans ht.sublist
  obtain ⟨l', g1, g2⟩ := out.reads bs _ h2 fun x hx => hg x (hsub.subset hx)
  exact ⟨bs.flatten, l', hsub, g1, g2, fun ha => by rw [h3 out.tells ha]⟩

theorem simple_exported {checks : Bool} {keep : X → Bool} (s : (Simple.proc checks keep).S) : ((Simple.proc checks keep).exported s).flatten = Simple.State.taken s := by
  simp only [Simple.proc]
  induction (Simple.State.taken s) with
  | nil => rfl
  | cons x l ih => simpa using ih

theorem span_exported {cfg : Sdk.Bsp.Cfg} {s : Sdk.Bsp.State X} (h : Sdk.Bsp.Reachable cfg s) : s.exported.flatten <+: s.accepted := by
  rw [(Sdk.Bsp.inv_reachable h).conserved, List.append_assoc]
  exact List.prefix_append _ _

theorem log_exported {cfg : Sdk.Bsp.Cfg} {s : Logs.Blp.State X} (h : Logs.Blp.Reachable cfg s) : s.exported.flatten <+: s.accepted := by
  rw [(Logs.Blp.inv_reachable h).conserved, List.append_assoc]
  exact List.prefix_append _ _

/-- One processor: what it has taken arrives at most once, and nothing else. -/
theorem Kind.once (out : Out X R A res good Reads) (k : Kind X) (q : (k.part out).S) (h : (k.part out).Run q) (hg : ∀ x ∈ k.taken out q, good x) :
    ∃ l l', l.Sublist (k.taken out q) ∧ l'.Perm l ∧ List.Forall₂ Reads l' (k.found out q) := by
  cases k with
  | batchSpan cfg =>
    obtain ⟨l, l', h1, h2, h3, _⟩ := pipe_arrives out (p := spanProc cfg X) h (span_exported (pipe_span_reachable h)) hg
    exact ⟨l, l', h1, h2, h3⟩
  | batchLog cfg =>
    obtain ⟨l, l', h1, h2, h3, _⟩ := pipe_arrives out (p := logProc cfg X) h (log_exported (pipe_log_reachable h)) hg
    exact ⟨l, l', h1, h2, h3⟩
  | async cfg sampled =>
    obtain ⟨bs, h1, h2, _⟩ := AsyncPipe.left_once out.signal h
    obtain ⟨l', g1, g2⟩ := out.reads bs _ h1 fun x hx => hg x (h2.subset hx)
    exact ⟨bs.flatten, l', h2, g1, g2⟩
  | simple checks keep =>
    obtain ⟨l, l', h1, h2, h3, _⟩ := pipe_arrives out (p := Simple.proc checks keep) h (by rw [simple_exported]; exact List.prefix_refl _) hg
    exact ⟨l, l', h1, h2, h3⟩

/-- One processor: after an `Ok`. -/
theorem Kind.flushed (out : Out X R A res good Reads) (k : Kind X) (q : (k.part out).S) (h : (k.part out).Run q) (hg : ∀ x ∈ k.taken out q, good x) {tok : Nat} {start : List X}
    (hs : (k.part out).said q tok true) (hf : k.Fits out q tok) (hc : start.Subperm ((k.part out).covers q tok)) :
    ∃ l l', l <+: k.taken out q ∧ start.Subperm (l ++ k.left out q) ∧ l'.Perm l ∧ List.Forall₂ Reads l' (k.found out q) := by
  have join : ∀ {a l b : List X}, a <+: l → start.Subperm (a ++ b) → start.Subperm (l ++ b) := fun h1 h2 =>
    h2.trans (List.Sublist.append h1.sublist (List.Sublist.refl _)).subperm
  cases k with
  | batchSpan cfg =>
    obtain ⟨ret, hr, he⟩ := hs
    have he := he.1 rfl
    subst he
    have hreach : Sdk.Bsp.Reachable cfg q.1 := pipe_span_reachable h
    obtain ⟨l, l', _, h2, h3, h4⟩ := pipe_arrives out (p := spanProc cfg X) h (span_exported hreach) hg
    have h4 := h4 hf.1
    have hp := Sdk.Bsp.flush_exports_all_partial cfg q.1 hreach tok .ok hr hf.2
    have hc : start.Subperm (_ ++ _ ++ _) := hc
    rw [List.append_assoc] at hc
    exact ⟨l, l', by rw [h4]; exact span_exported hreach, by rw [h4]; exact join hp hc, h2, h3⟩
  | batchLog cfg =>
    obtain ⟨ret, n, hr, he⟩ := hs
    have he := he.1 rfl
    subst he
    have hreach : Logs.Blp.Reachable cfg q.1 := pipe_log_reachable h
    obtain ⟨l, l', _, h2, h3, h4⟩ := pipe_arrives out (p := logProc cfg X) h (log_exported hreach) hg
    have h4 := h4 hf.1
    have hn : n = 0 := hf.2.2 _ _ hr
    subst hn
    have hp := Logs.Blp.flush_exports_all_partial cfg hf.2.1 q.1 hreach tok .ok hr
    have hc : start.Subperm (_ ++ _ ++ _) := hc
    rw [List.append_assoc] at hc
    exact ⟨l, l', by rw [h4]; exact log_exported hreach, by rw [h4]; exact join hp hc, h2, h3⟩
  | async cfg sampled =>
    obtain ⟨a, ha, ht, he⟩ := hs
    have he := he.1 rfl
    obtain ⟨bs, h1, h2, h3⟩ := AsyncPipe.left_once out.signal h
    obtain ⟨k1, k2⟩ := h3 out.tells hf
    obtain ⟨l', g1, g2⟩ := out.reads bs _ h1 fun x hx => hg x (h2.subset hx)
    have hp := k2 a ha _ he
    rw [ht] at hp
    have hc : start.Subperm (_ ++ _ ++ _) := hc
    rw [List.append_assoc] at hc
    exact ⟨bs.flatten, l', k1, join hp hc, g1, g2⟩
  | simple checks keep =>
    obtain ⟨l, l', _, h2, h3, h4⟩ := pipe_arrives out (p := Simple.proc checks keep) h (by rw [simple_exported]; exact List.prefix_refl _) hg
    have h4 := (h4 hf).trans (simple_exported _)
    have hc : start.Subperm (_ ++ _) := hc
    exact ⟨l, l', by rw [h4]; exact List.prefix_refl _, by rw [h4]; exact join (List.take_prefix _ _) hc, h2, h3⟩

/-! ## Theorems -/

variable {I : Type} [DecidableEq I] {gate : Bool} {order : List I} {kind : I → Kind X} {out : I → Out X R A res good Reads} {g : Sys fun i => (kind i).part (out i)}

/-- **C112** Whatever the schedule and whatever the networks do: each processor takes or leaves every item whose call has returned, once, and no item that was not handed to the
provider; what it takes arrives at its collector at most once and reads as what was handed to the provider, and nothing else arrives. -/
theorem provider_hands_on (hn : order.Nodup) (h : Reach (fun i => (kind i).part (out i)) gate order g) (hg : ∀ x ∈ g.begun, good x) {i : I} (hi : i ∈ order) :
    g.finished.Subperm ((kind i).taken (out i) (g.side i) ++ (kind i).left (out i) (g.side i)) ∧
    ((kind i).taken (out i) (g.side i) ++ (kind i).left (out i) (g.side i)).Subperm g.begun ∧
    ∃ l l', l.Sublist ((kind i).taken (out i) (g.side i)) ∧ l'.Perm l ∧ List.Forall₂ Reads l' ((kind i).found (out i) (g.side i)) := by
  have hl : ∀ i, ((kind i).part (out i)).Lawful := fun i => Kind.lawful (out i) (kind i)
  obtain ⟨h1, h2, _, _⟩ := every_part_given hl hn h hi
  rw [Kind.given] at h1 h2
  refine ⟨h1, h2, Kind.once (out i) (kind i) (g.side i) (each_alone hl h i) fun x hx => hg x (h2.subset (List.mem_append_left _ hx))⟩

/-- **C112** (partial) When `force_flush` or `shutdown` of the provider has returned `Ok`, then at the collector of each processor that `Fits` everything has arrived, exactly once
and readable, that the processor had taken of the items whose calls had returned before. Without `Fits` it is false: `flushed_spans_violated`. -/
theorem provider_flush_arrives_partial (hn : order.Nodup) (h : Reach (fun i => (kind i).part (out i)) gate order g) (hg : ∀ x ∈ g.begun, good x) {r : Outcome I X}
    (hr : r ∈ g.results) (hok : r.ok = true) {i : I} (hi : i ∈ order) (hf : ∀ tok, (i, tok, true) ∈ r.answers → (kind i).Fits (out i) (g.side i) tok) :
    ∃ l l', l <+: (kind i).taken (out i) (g.side i) ∧ r.start.Subperm (l ++ (kind i).left (out i) (g.side i)) ∧ l'.Perm l ∧
      List.Forall₂ Reads l' ((kind i).found (out i) (g.side i)) := by
  have hl : ∀ i, ((kind i).part (out i)).Lawful := fun i => Kind.lawful (out i) (kind i)
  obtain ⟨tok, hm⟩ := provider_ok_all hl hn h hr hok i hi
  obtain ⟨_, _, _, h4⟩ := provider_asks_all hl hn h hr
  obtain ⟨h5, h6⟩ := h4 i tok true hm
  obtain ⟨_, h2, _, _⟩ := every_part_given hl hn h hi
  rw [Kind.given] at h2
  exact Kind.flushed (out i) (kind i) (g.side i) (each_alone hl h i) (fun x hx => hg x (h2.subset (List.mem_append_left _ hx))) h5 (hf tok hm) h6

/-! ## Spans and log records -/

section Outs
variable {K : Type} {Y : Type}

/-- Spans over OTLP, as in C91. -/
def spanOut {hit : Scope K → Scope K → Bool} {res : Res K} {decode : Y → Option (PRequest K (PSpan K))}
    {c : Order (Scope K × List (SdkSpan K)) → Exporter.Cfg (Res K) (List (SdkSpan K)) (PRequest K (PSpan K)) Y} (hc : SpanCfg hit res decode c) (empty : Res K) :
    Out (SdkSpan K) (Res K) (Arrival K (PSpan K)) res Plain (ReadsAsSpan res) where
  O := _
  M := _
  Y := Y
  c := c
  empty := empty
  arrivals := arrived decode
  signal := fun o => by rw [hc.signal o]; intro h; cases h
  reads := fun _ _ h hp => spans_read hc h hp

/-- Log records over OTLP, as in C91. -/
def logOut [DecidableEq K] {res : Res K} {ok : SdkLog K × Scope K → Prop} {decode : Y → Option (PRequest K (PLog K))}
    {c : Order (String × List (SdkLog K × Scope K)) → Exporter.Cfg (Res K) (List (SdkLog K × Scope K)) (Option (PRequest K (PLog K))) Y} (hc : LogCfg res ok decode c)
    (empty : Res K) : Out (SdkLog K × Scope K) (Res K) (Arrival K (PLog K)) res (fun x => Dated x.1 ∧ ok x) (ReadsAsLog res) where
  O := _
  M := _
  Y := Y
  c := c
  empty := empty
  arrivals := arrived decode
  signal := fun o => by rw [hc.signal o]; intro h; cases h
  reads := fun _ _ h hp => logs_read hc h hp

end Outs

/-! ## Witnesses -/

/-- A processor whose steps can be computed. -/
structure Runner (p : Part X) where
  Act : Type
  enter : Nat → X → p.S → Option p.S
  thread : Nat → p.S → Option p.S
  free : p.S → Nat → Bool
  own : Act → p.S → Option p.S
  ask : Nat → Bool → p.S → Option (Nat × p.S)
  said : p.S → Nat → Option Bool
  enter_ok : ∀ {t x s s'}, enter t x s = some s' → p.enter t x s s'
  thread_ok : ∀ {t s s'}, thread t s = some s' → p.thread t s s'
  free_ok : ∀ {s t}, free s t = true → p.free s t
  own_ok : ∀ {a s s'}, own a s = some s' → p.own s s'
  ask_ok : ∀ {u f s tok s'}, ask u f s = some (tok, s') → p.ask u f tok s s'
  said_ok : ∀ {s tok r}, said s tok = some r → p.said s tok r

/-- Find a call. -/
def cut {α : Type} (t : Nat) : List (Nat × α) → Option (List (Nat × α) × α × List (Nat × α))
  | [] => none
  | e :: l => if e.1 = t then some ([], e.2, l) else (cut t l).map fun x => (e :: x.1, x.2.1, x.2.2)

theorem cut_spec {α : Type} {t : Nat} {l l1 l2 : List (Nat × α)} {f : α} (h : cut t l = some (l1, f, l2)) : l = l1 ++ (t, f) :: l2 := by
  induction l generalizing l1 with
  | nil => cases h
  | cons e l ih =>
    simp only [cut] at h
    split at h
    · rename_i he
      simp only [Option.some.injEq, Prod.mk.injEq] at h
      obtain ⟨rfl, rfl, rfl⟩ := h
      rw [← he]; rfl
    · obtain ⟨x, hx, he⟩ := Option.map_eq_some_iff.1 h
      simp only [Prod.mk.injEq] at he
      obtain ⟨rfl, rfl, rfl⟩ := he
      rw [List.cons_append, ← ih hx]

/-- What the scheduler may choose: a call, the next step of a thread with an item, a step of a processor, a call of `force_flush` (`shutdown`), its next step. -/
inductive Ev (I X : Type) (p : I → Part X) (run : (i : I) → Runner (p i)) where
  | call (t : Nat) (x : X)
  | thread (t : Nat)
  | own (i : I) (a : (run i).Act)
  | flush (u : Nat) (isFlush : Bool)
  | asks (u : Nat)

variable {p : I → Part X} {run : (i : I) → Runner (p i)}

/-- One step. -/
def exec (gate : Bool) (order : List I) (g : Sys p) : Ev I X p run → Option (Sys p)
  | .call t x =>
    if t ∉ g.frames.map Prod.fst ∧ (gate = true → g.isShutdown = false) then some { g with frames := (t, ⟨x, order, none⟩) :: g.frames, begun := g.begun ++ [x] } else none
  | .thread t => match cut t g.frames with
    | none => none
    | some (l1, f, l2) => match f.inside with
      | some i => match (run i).thread t (g.side i) with
        | some s' => some (g.with i s')
        | none => if (run i).free (g.side i) t then some { g with frames := l1 ++ (t, { f with inside := none }) :: l2 } else none
      | none => match f.rest with
        | [] => some { g with frames := l1 ++ l2, finished := g.finished ++ [f.x] }
        | i :: rest => match (run i).enter t f.x (g.side i) with
          | some s' => some { g.with i s' with frames := l1 ++ (t, { f with rest := rest, inside := some i }) :: l2 }
          | none => none
  | .own i a => ((run i).own a (g.side i)).map (g.with i)
  | .flush u isFlush =>
    if u ∉ g.asking.map Prod.fst ∧ (isFlush = false → g.isShutdown = false) then
      some { g with asking := (u, ⟨isFlush, order, none, true, g.finished, []⟩) :: g.asking, isShutdown := g.isShutdown || !isFlush }
    else none
  | .asks u => match cut u g.asking with
    | none => none
    | some (l1, f, l2) => match f.waiting with
      | some (i, tok) => match (run i).said (g.side i) tok with
        | some r => some { g with asking := l1 ++ (u, { f with waiting := none, ok := f.ok && r, answers := f.answers ++ [(i, tok, r)] }) :: l2 }
        | none => none
      | none => match f.rest with
        | [] => some { g with asking := l1 ++ l2, results := g.results ++ [⟨f.start, true, f.answers, f.ok⟩] }
        | i :: rest => match (run i).ask u f.isFlush (g.side i) with
          | some (tok, s') => some { g.with i s' with asking := l1 ++ (u, { f with rest := rest, waiting := some (i, tok) }) :: l2 }
          | none => none

theorem reach_exec {gate : Bool} {order : List I} {g g' : Sys p} (h : Reach p gate order g) {e : Ev I X p run} (he : exec gate order g e = some g') : Reach p gate order g' := by
  cases e with
  | call t x =>
    simp only [exec] at he
    split at he
    · rename_i hc
      injection he with he; subst he
      exact .call t x h hc.1 hc.2
    · cases he
  | thread t =>
    simp only [exec] at he
    split at he
    · cases he
    · rename_i l1 f l2 hc
      have hf := cut_spec hc
      split at he
      · rename_i i hi
        split at he
        · rename_i s' hs
          injection he with he; subst he
          exact .inner t f i s' h (by rw [hf]; simp) hi ((run i).thread_ok hs)
        · split at he
          · rename_i hfr
            injection he with he; subst he
            exact .leave t f i l1 l2 h hf hi ((run i).free_ok hfr)
          · cases he
      · rename_i hi
        split at he
        · rename_i hr
          injection he with he; subst he
          exact .ret t f l1 l2 h hf hi hr
        · rename_i i rest hr
          split at he
          · rename_i s' hs
            injection he with he; subst he
            exact .enter t f i rest l1 l2 s' h hf hi hr ((run i).enter_ok hs)
          · cases he
  | own i a =>
    obtain ⟨s', hs, he⟩ := Option.map_eq_some_iff.1 he
    subst he
    exact .own i s' h ((run i).own_ok hs)
  | flush u f =>
    simp only [exec] at he
    split at he
    · rename_i hc
      injection he with he; subst he
      exact .flush u f h hc.1 hc.2
    · cases he
  | asks u =>
    simp only [exec] at he
    split at he
    · cases he
    · rename_i l1 f l2 hc
      have hf := cut_spec hc
      split at he
      · rename_i i tok hw
        split at he
        · rename_i r hs
          injection he with he; subst he
          exact .hear u f i tok r l1 l2 h hf hw ((run i).said_ok hs)
        · cases he
      · rename_i hw
        split at he
        · rename_i hr
          injection he with he; subst he
          exact .result u f l1 l2 h hf hw hr
        · rename_i i rest hr
          split at he
          · rename_i tok s' hs
            injection he with he; subst he
            exact .ask u f i rest l1 l2 tok s' h hf hw hr ((run i).ask_ok hs)
          · cases he

/-- Many steps. -/
def execAll (gate : Bool) (order : List I) (g : Sys p) : List (Ev I X p run) → Option (Sys p)
  | [] => some g
  | e :: es => match exec gate order g e with
    | some g' => execAll gate order g' es
    | none => none

theorem reach_execAll {gate : Bool} {order : List I} (es : List (Ev I X p run)) {g g' : Sys p} (h : Reach p gate order g) (he : execAll gate order g es = some g') :
    Reach p gate order g' := by
  induction es generalizing g with
  | nil => injection he with he; exact he ▸ h
  | cons e es ih =>
    simp only [execAll] at he
    split at he
    · rename_i g1 h1
      exact ih (reach_exec h h1) he
    · cases he

/-- The batch span processor, when every batch meets the same world. -/
def goSpan {O M Y : Type} (cfg : Sdk.Bsp.Cfg) (c : O → Exporter.Cfg R (List X) M Y) (w : Exporter.World) (o : O) (a : Sdk.Bsp.Action X) (q : Full (spanProc cfg X) R Y) :
    Option (Full (spanProc cfg X) R Y) :=
  match Sdk.Bsp.step cfg q.1 a with
  | none => none
  | some s' =>
    if s'.exported.length = (Sdk.Bsp.State.exported q.1).length then some (s', q.2.1, q.2.2)
    else match s'.exported.getLast? with
      | none => none
      | some b => match a with
        | .work k =>
          if k = decide ((Exporter.doExport (c o) q.2.1 b w).1 = .ok) then
            some (s', q.2.1, q.2.2 ++ [⟨w, (Exporter.doExport (c o) q.2.1 b w).1, (Exporter.doExport (c o) q.2.1 b w).2⟩])
          else none
        | _ => none

theorem goSpan_ok {O M Y : Type} {cfg : Sdk.Bsp.Cfg} {c : O → Exporter.Cfg R (List X) M Y} {w : Exporter.World} {o : O} {a : Sdk.Bsp.Action X}
    {q q' : Full (spanProc cfg X) R Y} (h : goSpan cfg c w o a q = some q') {P : Sdk.Bsp.State X → Sdk.Bsp.Action X → Prop} (hp : P q.1 a) : Goes c (By cfg P) q q' := by
  obtain ⟨s, e, log⟩ := q
  simp only [goSpan] at h
  split at h
  · cases h
  · rename_i s' hs
    obtain ⟨h1, h2⟩ := bsp_step_exporter hs
    split at h
    · rename_i hl
      injection h with h; subst h
      have h2 : s'.exported = s.exported := by
        rcases h2 with h2 | ⟨_, b, _, h2⟩
        · exact h2
        · rw [h2] at hl; simp at hl
      refine .quiet (match a with | .work k => k | _ => true) ⟨a, hp, hs, ?_⟩ h2 h1
      intro b hb; subst hb; rfl
    · rename_i hl
      obtain ⟨k, b, rfl, h3⟩ : ∃ k b, a = .work k ∧ s'.exported = s.exported ++ [b] := by
        rcases h2 with h2 | h2
        · rw [h2] at hl; exact absurd rfl hl
        · exact h2
      have hl2 : s'.exported.getLast? = some b := by rw [h3]; simp
      split at h
      · cases h
      · rename_i b' hb
        rw [hl2] at hb
        injection hb with hb; subst hb
        simp only at h
        split at h
        · rename_i hk
          injection h with h; subst h
          exact .export b w o ⟨.work k, hp, hs, fun b' hb' => by injection hb' with hb'; rw [← hb', hk]⟩ h3
        · cases h

/-- It can be computed. -/
def spanRunner {O M Y : Type} (cfg : Sdk.Bsp.Cfg) (c : O → Exporter.Cfg R (List X) M Y) (res : R) (w : Exporter.World) (o : O) : Runner (spanPart cfg c res) where
  Act := Sdk.Bsp.Action X
  enter t x q := goSpan cfg c w o (.call t (.onEnd x)) q
  thread t q := if inEnd (Sdk.Bsp.State.threads q.1 t) then goSpan cfg c w o (.thread t) q else none
  free q t := match Sdk.Bsp.State.threads q.1 t with
    | .idle => true
    | _ => false
  own a q := match a with
    | .call _ _ => none
    | .thread t => if inEnd (Sdk.Bsp.State.threads q.1 t) then none else goSpan cfg c w o (.thread t) q
    | a => goSpan cfg c w o a q
  ask u f q := (goSpan cfg c w o (.call u (if f then .forceFlush else .shutdown)) q).map fun q' => (Sdk.Bsp.State.nextTok q.1, q')
  said q tok := ((Sdk.Bsp.State.returned q.1).find? fun e => e.1 == tok).map fun e => decide (e.2 = .result .ok)
  enter_ok := fun h => goSpan_ok h rfl
  thread_ok := by
    intro t s s' h
    by_cases hi : inEnd (Sdk.Bsp.State.threads s.1 t)
    · simp only [hi] at h; exact goSpan_ok (w := w) (o := o) h ⟨rfl, hi⟩
    · simp only [hi] at h; cases h
  free_ok := by
    intro s t h
    split at h
    · assumption
    · cases h
  own_ok := by
    intro a s s' h
    cases a with
    | call t c => cases h
    | thread t =>
      by_cases hi : inEnd (Sdk.Bsp.State.threads s.1 t)
      · simp only [hi] at h; cases h
      · simp only [hi] at h; exact goSpan_ok (w := w) (o := o) h (P := isOwn) (by simpa [isOwn] using hi)
    | timeout t => exact goSpan_ok h (P := isOwn) trivial
    | take => exact goSpan_ok h (P := isOwn) trivial
    | timer => exact goSpan_ok h (P := isOwn) trivial
    | work k => exact goSpan_ok h (P := isOwn) trivial
    | setResource r => exact goSpan_ok h (P := isOwn) trivial
  ask_ok := by
    intro u f s tok s' h
    obtain ⟨q, hq, he⟩ := Option.map_eq_some_iff.1 h
    simp only [Prod.mk.injEq] at he
    obtain ⟨rfl, rfl⟩ := he
    exact goSpan_ok hq ⟨rfl, rfl⟩
  said_ok := by
    intro s tok r h
    obtain ⟨e, he, hr⟩ := Option.map_eq_some_iff.1 h
    have h1 := List.mem_of_find?_eq_some he
    have h2 := List.find?_some he
    simp only [beq_iff_eq] at h2
    exact ⟨e.2, by rw [← h2]; exact h1, by rw [← hr]; simp⟩

/-- The simple processor, likewise. -/
def goSimple {O M Y : Type} (checks : Bool) (keep : X → Bool) (c : O → Exporter.Cfg R (List X) M Y) (w : Exporter.World) (o : O) (t : Nat) (q : Full (Simple.proc checks keep) R Y) :
    Option (Full (Simple.proc checks keep) R Y) :=
  match Simple.State.threads q.1 t, Simple.step checks keep q.1 (.thread t) with
  | .at1 x, some s' => some (s', q.2.1, q.2.2 ++ [⟨w, (Exporter.doExport (c o) q.2.1 [x] w).1, (Exporter.doExport (c o) q.2.1 [x] w).2⟩])
  | .at0 _, some s' => some (s', q.2.1, q.2.2)
  | _, _ => none

/-- It can be computed; that it is shut down is not needed here. -/
def simpleRunner {O M Y : Type} (checks : Bool) (keep : X → Bool) (c : O → Exporter.Cfg R (List X) M Y) (res : R) (w : Exporter.World) (o : O) : Runner (simplePart checks keep c res) where
  Act := Empty
  enter t x q := (Simple.step checks keep q.1 (.call t x)).map fun s' => (s', q.2.1, q.2.2)
  thread := goSimple checks keep c w o
  free q t := match Simple.State.threads q.1 t with
    | .idle => true
    | _ => false
  own a _ := nomatch a
  ask _ f q := if f then (Simple.step checks keep q.1 .forceFlush).map fun s' => (Simple.State.nextTok q.1, s', q.2.1, q.2.2) else none
  said q tok := ((Simple.State.returned q.1).find? fun e => e.1 == tok).map Prod.snd
  enter_ok := by
    intro t x q q' h
    obtain ⟨s, e, log⟩ := q
    obtain ⟨s', hs, he⟩ := Option.map_eq_some_iff.1 h
    subst he
    refine .quiet true hs ?_ ?_
    all_goals
      simp only [Simple.step] at hs
      split at hs
      · injection hs with hs; subst hs; rfl
      · cases hs
  thread_ok := by
    intro t q q' h
    obtain ⟨s, e, log⟩ := q
    simp only [goSimple] at h
    split at h
    · rename_i x s' hx hs
      injection h with h; subst h
      refine .export [x] w o hs ?_
      simp only [Simple.step] at hs
      rw [hx] at hs
      injection hs with hs; subst hs
      simp [Simple.proc]
    · rename_i x s' hx hs
      injection h with h; subst h
      refine .quiet true hs ?_ ?_
      all_goals
        simp only [Simple.step] at hs
        rw [hx] at hs
        simp only at hs
        split at hs <;> (injection hs with hs; subst hs; rfl)
    · cases h
  free_ok := by
    intro s t h
    split at h
    · assumption
    · cases h
  own_ok := by intro a; exact a.elim
  ask_ok := by
    intro u f q tok q' h
    obtain ⟨s, e, log⟩ := q
    split at h
    · rename_i hf
      obtain ⟨s', hs, he⟩ := Option.map_eq_some_iff.1 h
      simp only [Prod.mk.injEq] at he
      obtain ⟨rfl, rfl⟩ := he
      subst hf
      refine .quiet true ⟨rfl, hs⟩ ?_ ?_
      all_goals
        injection hs with hs; subst hs; rfl
    · cases h
  said_ok := by
    intro s tok r h
    obtain ⟨e, he, hr⟩ := Option.map_eq_some_iff.1 h
    have h1 := List.mem_of_find?_eq_some he
    have h2 := List.find?_some he
    simp only [beq_iff_eq] at h2
    show (tok, r) ∈ Simple.State.returned s.1
    rw [← h2, ← hr]
    exact h1

/-- A provider with a batch processor (batches of two) and a simple one. -/
def exKind : Bool → Kind (SdkSpan Nat)
  | false => .batchSpan ⟨2, 10⟩
  | true => .simple false fun _ => true

/-- Their exporter. -/
def exOut (_ : Bool) : Out (SdkSpan Nat) (Res Nat) (Arrival Nat (PSpan Nat)) ⟨[], none⟩ Plain (ReadsAsSpan ⟨[], none⟩) := spanOut exCfg_ok ⟨[], none⟩

/-- They can be computed; all requests succeed. -/
def exRun : (i : Bool) → Runner ((exKind i).part (exOut i))
  | false => spanRunner (X := SdkSpan Nat) ⟨2, 10⟩ exSpanCfg ⟨[], none⟩ ⟨true, some ⟨200, 0⟩⟩ ⟨id, fun _ => .refl _⟩
  | true => simpleRunner (X := SdkSpan Nat) false (fun _ => true) exSpanCfg ⟨[], none⟩ ⟨true, some ⟨200, 0⟩⟩ ⟨id, fun _ => .refl _⟩

/-- A step of the batch processor. -/
def exOwn (a : Sdk.Bsp.Action (SdkSpan Nat)) : Ev Bool (SdkSpan Nat) (fun i => (exKind i).part (exOut i)) exRun := .own false a

/-- A span ends; another is handed to the batch processor only; the provider is flushed. -/
def exEvents : List (Ev Bool (SdkSpan Nat) (fun i => (exKind i).part (exOut i)) exRun) :=
  [.call 0 exampleSpan] ++ List.replicate 10 (.thread 0) ++ [.flush 2 true, .asks 2] ++ [exOwn (.thread 2), exOwn (.thread 2), exOwn .take, exOwn (.work true), exOwn (.work true),
    exOwn (.work true), exOwn (.work true), exOwn (.work true), exOwn (.thread 2)] ++ [.asks 2, .asks 2, .asks 2, .asks 2]

/-- The end of it. -/
def exEnd : Option (Sys fun i => (exKind i).part (exOut i)) := execAll true [false, true] (.init _) exEvents

theorem exEnd_some : exEnd.isSome = true := by decide +kernel

/-- The hypotheses of C112 are met: a span is handed to a batch processor and to a simple one, the provider's `force_flush` returns `Ok`, and it has arrived at both collectors. -/
theorem example_processors : ∃ g : Sys fun i => (exKind i).part (exOut i), Reach (fun i => (exKind i).part (exOut i)) true [false, true] g ∧ (∀ x ∈ g.begun, Plain x) ∧
    ∃ r ∈ g.results, r.ok = true ∧ r.start = [exampleSpan] ∧ (∀ i tok, (i, tok, true) ∈ r.answers → (exKind i).Fits (exOut i) (g.side i) tok) ∧
      ∀ i, ((exKind i).found (exOut i) (g.side i)).length = 1 := by
  have hr : Reach (fun i => (exKind i).part (exOut i)) true [false, true] (exEnd.get exEnd_some) := reach_execAll exEvents .init (Option.some_get exEnd_some).symm
  refine ⟨_, hr, ?_, ⟨[exampleSpan], true, [(false, 0, true), (true, 0, true)], true⟩, ?_, rfl, rfl, ?_, ?_⟩
  · have : (exEnd.get exEnd_some).begun = [exampleSpan] := rfl
    rw [this]
    intro x hx
    rw [List.mem_singleton.1 hx]
    exact exampleSpan_plain
  · have : (exEnd.get exEnd_some).results = [⟨[exampleSpan], true, [(false, 0, true), (true, 0, true)], true⟩] := rfl
    rw [this]
    exact List.mem_singleton_self _
  · intro i tok hm
    simp only [List.mem_cons, Prod.mk.injEq, List.not_mem_nil, or_false, and_true] at hm
    rcases hm with ⟨rfl, rfl⟩ | ⟨rfl, rfl⟩
    · refine ⟨?_, ?_⟩
      · have : ((exEnd.get exEnd_some).side false).2.2.map Sending.outcome = [.ok] := rfl
        intro e he
        have := this ▸ List.mem_map_of_mem (f := Sending.outcome) he
        simpa using this
      · decide +kernel
    · have : ((exEnd.get exEnd_some).side true).2.2.map Sending.outcome = [.ok] := rfl
      intro e he
      have := this ▸ List.mem_map_of_mem (f := Sending.outcome) he
      simpa using this
  · intro i
    cases i <;> rfl

end Otel.EndToEnd.Fan
