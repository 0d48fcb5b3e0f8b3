import Verif.Sdk.SpanProps
/-!
# Spans in contexts, shared between threads (`opentelemetry/src/trace/context.rs`, `src/trace/tracer.rs`), C88

A span put into a context is shared by all copies of this context, on any thread: an `Arc` of a mutex around the boxed span (`SynchronizedSpan`). Threads call
it through `SpanRef`, one at a time; it is dropped, and so ended, with its last holder. An execution is the list of what the threads do, in the order in which
they get the mutex or change the count. `BoxedSpan` hands every call to the span it boxes (global/trace.rs:114-151, 174-236). User code that runs inside the
mutex (iterators given to `set_attributes`, processors) is pure here, or panics; if it used the same span it would wait for itself.
-/

namespace Otel.Sdk.Shared
open Rust Otel.Sdk

variable {A I W B : Type} {U : Nat → Type}

/-- `SynchronizedSpan` in its `Arc`: the span, the number of holders, whether the mutex is poisoned. context.rs:21-27 -/
structure Cell (A I : Type) where
  span : Span A I
  holders : Nat
  poisoned : Bool

/-- All shared spans of a provider, and what its processors received: span, processor, data. -/
structure Sys (A I W : Type) where
  cells : List (Cell A I)
  isShutdown : Bool
  world : W
  log : List (Nat × Nat × Exported A I)

/-- What a thread does. -/
inductive Act (A I W : Type) where
  /-- `Context::with_span`, `current_with_span`: the span gets the next number. -/
  | wrap (s : Span A I)
  /-- A context with this span is cloned, attached, or made the base of another with `with_value`, `with_baggage`. -/
  | clone (i : Nat)
  /-- A context with this span is dropped. -/
  | drop (i : Nat)
  /-- A call through `SpanRef`. -/
  | call (i : Nat) (o : SpanOp A)
  /-- `set_attributes` with an iterator that panics after some attributes, or another call whose conversion panics. -/
  | panicIn (i : Nat) (es : List (Edit A))
  /-- The provider is shut down. -/
  | shutdown
  /-- Anything else. -/
  | world (w : W)

/-- The provider state a span sees. -/
def Sys.provider (y : Sys A I W) : PState A I W := ⟨y.isShutdown, ⟨[], []⟩, y.world⟩

/-- After span `i` did something: its cell, the world, and the new deliveries. -/
def Sys.settle (y : Sys A I W) (i : Nat) (c : Cell A I) (x : Span A I × PState A I W) : Sys A I W :=
  { y with cells := y.cells.set i { c with span := x.1 }, world := x.2.world, log := y.log ++ x.2.obs.ends.map fun e => (i, e) }

/-- One step. `with_inner_mut` does nothing when the mutex is poisoned: context.rs:53-68. `end` reads the clock before: context.rs:189-196. Dropping the last
holder drops the span, poisoned or not: span.rs:242-247 of the SDK. -/
def step (env : Env A I B U W) (y : Sys A I W) : Act A I W → Sys A I W
  | .wrap s => { y with cells := y.cells ++ [⟨s, 1, false⟩] }
  | .clone i => match y.cells[i]? with
    | some c => { y with cells := y.cells.set i { c with holders := c.holders + 1 } }
    | none => y
  | .drop i => match y.cells[i]? with
    | some c =>
      if c.holders = 1 then y.settle i { c with holders := 0 } (ensureEnded env none c.span y.provider)
      else { y with cells := y.cells.set i { c with holders := c.holders - 1 } }
    | none => y
  | .call i o => match y.cells[i]? with
    | some c =>
      if c.poisoned then (match o with | .endNow => { y with world := (env.now y.world).2 } | _ => y)
      else y.settle i c (o.run env (c.span, y.provider))
    | none => y
  | .panicIn i es => match y.cells[i]? with
    | some c =>
      if c.poisoned then y
      else { y with cells := y.cells.set i { c with span := es.foldl Span.edit c.span, poisoned := true } }
    | none => y
  | .shutdown => { y with isShutdown := true }
  | .world w => { y with world := w }

/-- An execution. -/
def run (env : Env A I B U W) (y : Sys A I W) (h : List (Act A I W)) : Sys A I W := h.foldl (step env) y

/-! ## Specification -/

/-- How many holders a span has after some actions. -/
def holdersAfter (i : Nat) : Nat → List (Act A I W) → Nat
  | n, [] => n
  | n, .clone j :: h => holdersAfter i (if j = i then n + 1 else n) h
  | n, .drop j :: h => holdersAfter i (if j = i then n - 1 else n) h
  | n, _ :: h => holdersAfter i n h

/-- A call on the span panicked. -/
def Panicked (i : Nat) (h : List (Act A I W)) : Prop := ∃ es, Act.panicIn i es ∈ h

/-- The edits of all threads on the span, in order, up to a panic. -/
def editsOn (i : Nat) : List (Act A I W) → List (Edit A)
  | [] => []
  | .call j (.edit e) :: h => if j = i then e :: editsOn i h else editsOn i h
  | .panicIn j es :: h => if j = i then es else editsOn i h
  | _ :: h => editsOn i h

/-- An action that ends the span: an `end` on any thread, or the drop of the last holder. -/
def Ends (i n : Nat) (pre : List (Act A I W)) : Act A I W → Prop
  | .drop j => j = i ∧ holdersAfter i n pre = 1
  | .call j (.endAt _) => j = i ∧ ¬ Panicked i pre
  | .call j .endNow => j = i ∧ ¬ Panicked i pre
  | _ => False

/-- Nothing in the execution ends the span. -/
def NotEnded (i n : Nat) (h : List (Act A I W)) : Prop := ∀ pre a post, h = pre ++ a :: post → ¬ Ends i n pre a

/-- What the processors received of a span. -/
def received (i : Nat) (y : Sys A I W) : List (Nat × Exported A I) := (y.log.filter fun e => e.1 = i).map Prod.snd

/-- The end time: that of the call, or the time of the drop, unless the builder gave one. -/
def endTimeOf (env : Env A I B U W) (w : W) (d : SpanData A) : Act A I W → Time
  | .call _ (.endAt t) => t
  | .call _ .endNow => (env.now w).1
  | _ => if d.endTime = d.startTime then (env.now w).1 else d.endTime

/-! ## Lemmas -/

theorem received_settle (i j : Nat) (y : Sys A I W) (c : Cell A I) (x : Span A I × PState A I W) :
    received i (y.settle j c x) = received i y ++ if j = i then x.2.obs.ends else [] := by
  unfold received Sys.settle
  rw [List.filter_append, List.map_append]
  congr 1
  by_cases h : j = i
  · subst h
    simp [List.filter_map, Function.comp_def]
  · simp [List.filter_map, Function.comp_def, h]

theorem get_settle_ne {i j : Nat} (h : j ≠ i) (y : Sys A I W) (c : Cell A I) (x : Span A I × PState A I W) : (y.settle j c x).cells[i]? = y.cells[i]? := by
  unfold Sys.settle
  exact List.getElem?_set_ne h

theorem get_settle {i : Nat} {y : Sys A I W} {c' : Cell A I} (h : y.cells[i]? = some c') (c : Cell A I) (x : Span A I × PState A I W) :
    (y.settle i c x).cells[i]? = some { c with span := x.1 } := by
  have hl : i < y.cells.length := (List.getElem?_eq_some_iff.1 h).1
  unfold Sys.settle
  exact List.getElem?_set_self hl

theorem get_set {i : Nat} {l : List (Cell A I)} {c' : Cell A I} (h : l[i]? = some c') (c : Cell A I) : (l.set i c)[i]? = some c :=
  List.getElem?_set_self (List.getElem?_eq_some_iff.1 h).1

/-- An action on another span. -/
def Other (i : Nat) : Act A I W → Prop
  | .clone j => j ≠ i
  | .drop j => j ≠ i
  | .call j _ => j ≠ i
  | .panicIn j _ => j ≠ i
  | _ => True

theorem step_other (env : Env A I B U W) (y : Sys A I W) (i : Nat) (c : Cell A I) (h : y.cells[i]? = some c) (a : Act A I W) (ha : Other i a) :
    (step env y a).cells[i]? = some c ∧ received i (step env y a) = received i y := by
  cases a with
  | wrap s =>
    refine ⟨?_, rfl⟩
    exact (List.getElem?_append_left (List.getElem?_eq_some_iff.1 h).1).trans h
  | clone j =>
    simp only [step]
    cases hj : y.cells[j]? with
    | none => exact ⟨h, rfl⟩
    | some cj => exact ⟨(List.getElem?_set_ne ha).trans h, rfl⟩
  | drop j =>
    simp only [step]
    cases hj : y.cells[j]? with
    | none => exact ⟨h, rfl⟩
    | some cj =>
      dsimp only
      split
      · exact ⟨(get_settle_ne ha _ _ _).trans h, by rw [received_settle, if_neg ha, List.append_nil]⟩
      · exact ⟨(List.getElem?_set_ne ha).trans h, rfl⟩
  | call j o =>
    simp only [step]
    cases hj : y.cells[j]? with
    | none => exact ⟨h, rfl⟩
    | some cj =>
      dsimp only
      split
      · cases o <;> exact ⟨h, rfl⟩
      · exact ⟨(get_settle_ne ha _ _ _).trans h, by rw [received_settle, if_neg ha, List.append_nil]⟩
  | panicIn j es =>
    simp only [step]
    cases hj : y.cells[j]? with
    | none => exact ⟨h, rfl⟩
    | some cj =>
      dsimp only
      split
      · exact ⟨h, rfl⟩
      · exact ⟨(List.getElem?_set_ne ha).trans h, rfl⟩
  | shutdown => exact ⟨h, rfl⟩
  | world w => exact ⟨h, rfl⟩

theorem foldl_edit (es : List (Edit A)) (s : Span A I) (d : SpanData A) (h : s.data = some d) :
    es.foldl Span.edit s = { s with data := some (es.foldl (fun d e => e.apply s.limits d) d) } := by
  induction es generalizing s d with
  | nil => rw [List.foldl_nil, List.foldl_nil, ← h]
  | cons e es ih =>
    rw [List.foldl_cons, ih (s.edit e) (e.apply s.limits d) (by simp [Span.edit, h])]
    rfl

theorem foldl_edit_dead (es : List (Edit A)) (s : Span A I) (h : s.data = none) : (es.foldl Span.edit s).data = none := by
  induction es generalizing s with
  | nil => exact h
  | cons e es ih => exact ih _ (by simp [Span.edit, h])

theorem run_append (env : Env A I B U W) (y : Sys A I W) (a b : List (Act A I W)) : run env y (a ++ b) = run env (run env y a) b := List.foldl_append

theorem holdersAfter_append (i n : Nat) (a b : List (Act A I W)) : holdersAfter i n (a ++ b) = holdersAfter i (holdersAfter i n a) b := by
  induction a generalizing n with
  | nil => rfl
  | cons x a ih => cases x <;> exact ih _

/-- A dead span stays dead, and its processors receive nothing more of it. -/
theorem step_dead (env : Env A I B U W) (y : Sys A I W) (i : Nat) (c : Cell A I) (h : y.cells[i]? = some c) (hd : c.span.data = none) (a : Act A I W) :
    (∃ c', (step env y a).cells[i]? = some c' ∧ c'.span.data = none) ∧ received i (step env y a) = received i y := by
  by_cases ho : Other i a
  · have := step_other env y i c h a ho
    exact ⟨⟨c, this.1, hd⟩, this.2⟩
  · cases a with
    | clone j =>
      obtain rfl : j = i := Classical.not_not.1 ho
      simp only [step, h]
      exact ⟨⟨_, get_set h _, hd⟩, rfl⟩
    | drop j =>
      obtain rfl : j = i := Classical.not_not.1 ho
      simp only [step, h]
      split
      · have he : ensureEnded env none c.span y.provider = (c.span, y.provider) := by rw [ensureEnded, hd]
        rw [he]
        exact ⟨⟨_, get_settle h _ _, hd⟩, by rw [received_settle, if_pos rfl]; exact List.append_nil _⟩
      · exact ⟨⟨_, get_set h _, hd⟩, rfl⟩
    | call j o =>
      obtain rfl : j = i := Classical.not_not.1 ho
      simp only [step, h]
      split
      · cases o <;> exact ⟨⟨c, h, hd⟩, rfl⟩
      · have he : (o.run env (c.span, y.provider)).1.data = none ∧ (o.run env (c.span, y.provider)).2.obs.ends = [] := by
          cases o with
          | edit e => exact ⟨by simp [SpanOp.run, Span.edit, hd], rfl⟩
          | endAt t => simp only [SpanOp.run, ensureEnded, hd]; exact ⟨trivial, rfl⟩
          | endNow => simp only [SpanOp.run, ensureEnded, hd]; exact ⟨trivial, rfl⟩
        exact ⟨⟨_, get_settle h _ _, he.1⟩, by rw [received_settle, if_pos rfl, he.2, List.append_nil]⟩
    | panicIn j es =>
      obtain rfl : j = i := Classical.not_not.1 ho
      simp only [step, h]
      split
      · exact ⟨⟨c, h, hd⟩, rfl⟩
      · exact ⟨⟨_, get_set h _, foldl_edit_dead es _ hd⟩, rfl⟩
    | _ => exact absurd trivial ho

theorem run_dead (env : Env A I B U W) (h : List (Act A I W)) (y : Sys A I W) (i : Nat) (c : Cell A I) (hc : y.cells[i]? = some c) (hd : c.span.data = none) :
    (∃ c', (run env y h).cells[i]? = some c' ∧ c'.span.data = none) ∧ received i (run env y h) = received i y := by
  induction h generalizing y c with
  | nil => exact ⟨⟨c, hc, hd⟩, rfl⟩
  | cons a h ih =>
    obtain ⟨⟨c', hc', hd'⟩, e⟩ := step_dead env y i c hc hd a
    have := ih (step env y a) c' hc' hd'
    exact ⟨this.1, this.2.trans e⟩

theorem notEnded_cons {i n : Nat} {a : Act A I W} {h : List (Act A I W)} (hn : NotEnded i n (a :: h)) (n' : Nat) (hn' : holdersAfter i n [a] = n')
    (hp : ¬ Panicked i [a]) : ¬ Ends i n [] a ∧ NotEnded i n' h := by
  refine ⟨hn [] a h rfl, fun pre b post e he => hn (a :: pre) b post (by rw [e]; rfl) ?_⟩
  have hh : holdersAfter i n (a :: pre) = holdersAfter i n' pre := by rw [← hn']; exact holdersAfter_append i n [a] pre
  have hpp : ¬ Panicked i pre → ¬ Panicked i (a :: pre) := fun h ⟨es, hm⟩ => by
    rcases List.mem_cons.1 hm with rfl | hm
    · exact hp ⟨es, List.mem_cons_self ..⟩
    · exact h ⟨es, hm⟩
  cases b with
  | drop j => exact ⟨he.1, hh.trans he.2⟩
  | call j o => cases o with
    | edit e => exact he
    | endAt t => exact ⟨he.1, hpp he.2⟩
    | endNow => exact ⟨he.1, hpp he.2⟩
  | _ => exact he

/-- No holder is dropped last. -/
def NotDropped (i n : Nat) (h : List (Act A I W)) : Prop := ∀ pre post, h = pre ++ .drop i :: post → holdersAfter i n pre ≠ 1

theorem notDropped_cons {i n : Nat} {a : Act A I W} {h : List (Act A I W)} (hn : NotDropped i n (a :: h)) : NotDropped i (holdersAfter i n [a]) h := fun pre post e =>
  by rw [← holdersAfter_append]; exact hn (a :: pre) post (by rw [e]; rfl)

theorem holdersAfter_other {i n : Nat} {a : Act A I W} (h : Other i a) : holdersAfter i n [a] = n := by
  cases a with
  | clone j => exact if_neg h
  | drop j => exact if_neg h
  | _ => rfl

theorem run_poisoned (env : Env A I B U W) (i : Nat) (h : List (Act A I W)) (y : Sys A I W) (c : Cell A I) (hc : y.cells[i]? = some c) (hp : c.poisoned = true)
    (hn : NotDropped i c.holders h) :
    (run env y h).cells[i]? = some { c with holders := holdersAfter i c.holders h } ∧ received i (run env y h) = received i y := by
  induction h generalizing y c with
  | nil => exact ⟨hc, rfl⟩
  | cons a h ih =>
    have key : ∃ n', holdersAfter i c.holders [a] = n' ∧ (step env y a).cells[i]? = some { c with holders := n' } ∧ received i (step env y a) = received i y := by
      by_cases ho : Other i a
      · have := step_other env y i c hc a ho
        exact ⟨_, rfl, by rw [holdersAfter_other ho]; exact this.1, this.2⟩
      · refine ⟨_, rfl, ?_⟩
        cases a with
        | clone j =>
          obtain rfl : j = i := Classical.not_not.1 ho
          simp only [step, hc, holdersAfter, if_true]
          exact ⟨get_set hc _, rfl⟩
        | drop j =>
          obtain rfl : j = i := Classical.not_not.1 ho
          have : c.holders ≠ 1 := hn [] h rfl
          simp only [step, hc, holdersAfter, if_true, if_neg this]
          exact ⟨get_set hc _, rfl⟩
        | call j o =>
          obtain rfl : j = i := Classical.not_not.1 ho
          simp only [step, hc, if_pos hp, holdersAfter]
          cases o <;> exact ⟨hc, rfl⟩
        | panicIn j es =>
          obtain rfl : j = i := Classical.not_not.1 ho
          simp only [step, hc, if_pos hp, holdersAfter]
          exact ⟨trivial, trivial⟩
        | _ => exact absurd trivial ho
    obtain ⟨n', hn', h1, h2⟩ := key
    have := ih (step env y a) { c with holders := n' } h1 hp (by have := notDropped_cons hn; rw [hn'] at this; exact this)
    refine ⟨?_, this.2.trans h2⟩
    rw [show run env y (a :: h) = run env (step env y a) h from rfl, this.1]
    have e := holdersAfter_append i c.holders [a] h
    rw [hn'] at e
    rw [show a :: h = [a] ++ h from rfl, e]

theorem editsOn_other {i : Nat} {a : Act A I W} (h : Other i a) (l : List (Act A I W)) : editsOn i (a :: l) = editsOn i l := by
  cases a with
  | call j o => cases o with
    | edit e => exact if_neg h
    | _ => rfl
  | panicIn j es => exact if_neg h
  | _ => rfl

theorem panicked_other {i : Nat} {a : Act A I W} (h : Other i a) : ¬ Panicked i [a] := by
  rintro ⟨es, hm⟩
  rw [List.mem_singleton] at hm
  subst hm
  exact h rfl

theorem panicked_cons {i : Nat} {a : Act A I W} {l : List (Act A I W)} (h : ¬ Panicked i [a]) : Panicked i (a :: l) ↔ Panicked i l := by
  constructor
  · rintro ⟨es, hm⟩
    rcases List.mem_cons.1 hm with rfl | hm
    · exact absurd ⟨es, List.mem_cons_self ..⟩ h
    · exact ⟨es, hm⟩
  · rintro ⟨es, hm⟩
    exact ⟨es, List.mem_cons_of_mem _ hm⟩

/-- The state of a span as long as nothing ends it. -/
theorem run_alive (env : Env A I B U W) (i : Nat) (h : List (Act A I W)) (y : Sys A I W) (c : Cell A I) (d : SpanData A) (hc : y.cells[i]? = some c)
    (hp : c.poisoned = false) (hd : c.span.data = some d) (hn : NotEnded i c.holders h) :
    ∃ p, (p = true ↔ Panicked i h) ∧
      (run env y h).cells[i]? = some ⟨{ c.span with data := some ((editsOn i h).foldl (fun d e => e.apply c.span.limits d) d) }, holdersAfter i c.holders h, p⟩ ∧
      received i (run env y h) = received i y := by
  induction h generalizing y c d with
  | nil =>
    refine ⟨false, ⟨fun h => by simp at h, fun ⟨_, h⟩ => by simp at h⟩, ?_, rfl⟩
    rw [show run env y [] = y from rfl, hc]
    obtain ⟨⟨sc, dd, scope, lim⟩, n, p⟩ := c
    subst hd hp
    rfl
  | cons a h ih =>
    have go : ∀ (c' : Cell A I) (d' : SpanData A), ¬ Panicked i [a] → c'.poisoned = false → c'.span.data = some d' → c'.span.limits = c.span.limits →
        c'.span.spanContext = c.span.spanContext → c'.span.scope = c.span.scope → holdersAfter i c.holders [a] = c'.holders →
        (editsOn i (a :: h)).foldl (fun d e => e.apply c.span.limits d) d = (editsOn i h).foldl (fun d e => e.apply c.span.limits d) d' →
        (step env y a).cells[i]? = some c' → received i (step env y a) = received i y → ∃ p, (p = true ↔ Panicked i (a :: h)) ∧
      (run env y (a :: h)).cells[i]? = some ⟨{ c.span with data := some ((editsOn i (a :: h)).foldl (fun d e => e.apply c.span.limits d) d) }, holdersAfter i c.holders (a :: h), p⟩ ∧
      received i (run env y (a :: h)) = received i y := by
      intro c' d' hpa hp' hd' hl hsc hscope hh he hc' hr
      obtain ⟨p, h1, h2, h3⟩ := ih (step env y a) c' d' hc' hp' hd' (notEnded_cons hn _ hh hpa).2
      refine ⟨p, h1.trans (panicked_cons hpa).symm, ?_, h3.trans hr⟩
      rw [show run env y (a :: h) = run env (step env y a) h from rfl, h2]
      have e := holdersAfter_append i c.holders [a] h
      rw [hh] at e
      rw [show holdersAfter i c.holders (a :: h) = _ from e, he, hl]
      obtain ⟨⟨sc, dd, scope, lim⟩, n, p'⟩ := c
      obtain ⟨⟨sc', dd', scope', lim'⟩, n', p''⟩ := c'
      simp only at hl hsc hscope
      subst hl hsc hscope
      rfl
    by_cases ho : Other i a
    · have := step_other env y i c hc a ho
      exact go c d (panicked_other ho) hp hd rfl rfl rfl (holdersAfter_other ho) (by rw [editsOn_other ho]) this.1 this.2
    · cases a with
      | clone j =>
        obtain rfl : j = i := Classical.not_not.1 ho
        refine go { c with holders := c.holders + 1 } d (fun ⟨_, h⟩ => by simp at h) hp hd rfl rfl rfl (by simp [holdersAfter]) rfl ?_ ?_
        · simp only [step, hc]; exact get_set hc _
        · simp only [step, hc]; rfl
      | drop j =>
        obtain rfl : j = i := Classical.not_not.1 ho
        have hne : c.holders ≠ 1 := fun e => hn [] _ h rfl ⟨rfl, e⟩
        refine go { c with holders := c.holders - 1 } d (fun ⟨_, h⟩ => by simp at h) hp hd rfl rfl rfl (by simp [holdersAfter]) rfl ?_ ?_
        · simp only [step, hc, if_neg hne]; exact get_set hc _
        · simp only [step, hc, if_neg hne]; rfl
      | call j o =>
        obtain rfl : j = i := Classical.not_not.1 ho
        have hnp : ¬ Panicked j ([] : List (Act A I W)) := fun ⟨_, h⟩ => by cases h
        cases o with
        | endAt t => exact absurd ⟨rfl, hnp⟩ (hn [] _ h rfl)
        | endNow => exact absurd ⟨rfl, hnp⟩ (hn [] _ h rfl)
        | edit e =>
          refine go { c with span := c.span.edit e } (e.apply c.span.limits d) (fun ⟨_, h⟩ => by simp at h) hp (by simp [Span.edit, hd]) rfl rfl rfl rfl ?_ ?_ ?_
          · simp [editsOn]
          · simp only [step, hc, if_neg (show ¬ c.poisoned = true by simp [hp]), SpanOp.run]; exact get_settle hc c (c.span.edit e, y.provider)
          · simp only [step, hc, if_neg (show ¬ c.poisoned = true by simp [hp]), SpanOp.run]
            rw [received_settle, if_pos rfl]
            exact List.append_nil _
      | panicIn j es =>
        obtain rfl : j = i := Classical.not_not.1 ho
        have hstep : step env y (.panicIn j es) = { y with cells := y.cells.set j { c with span := es.foldl Span.edit c.span, poisoned := true } } := by
          simp [step, hc, hp]
        have hnd : NotDropped j c.holders h := fun pre post e he => hn (.panicIn j es :: pre) (.drop j) post (by rw [e]; rfl) ⟨rfl, he⟩
        have hcell : (step env y (.panicIn j es)).cells[j]? = some { c with span := es.foldl Span.edit c.span, poisoned := true } := by
          rw [hstep]; exact get_set hc _
        have := run_poisoned env j h (step env y (.panicIn j es)) _ hcell rfl hnd
        refine ⟨true, ⟨fun _ => ⟨es, List.mem_cons_self ..⟩, fun _ => rfl⟩, ?_, ?_⟩
        · rw [show run env y (.panicIn j es :: h) = run env (step env y (.panicIn j es)) h from rfl, this.1, foldl_edit es c.span d hd]
          simp only [editsOn, if_true]
          rfl
        · exact this.2.trans (by rw [hstep]; rfl)
      | _ => exact absurd trivial ho

theorem ensureEnded_some (env : Env A I B U W) (t : Option Time) (s : Span A I) (st : PState A I W) (d : SpanData A) (hd : s.data = some d) :
    (ensureEnded env t s st).1.data = none ∧
    (ensureEnded env t s st).2.obs.ends = st.obs.ends ++ (if st.isShutdown then [] else
      (List.range env.processors.length).map fun k => (k, ⟨s.spanContext, { d with endTime := match t with | some t => t | none => if d.endTime = d.startTime then (env.now st.world).1 else d.endTime }, s.scope⟩)) := by
  unfold ensureEnded
  rw [hd]
  dsimp only
  cases hs : st.isShutdown with
  | true => simp
  | false =>
    cases t with
    | some t => simp [deliver_ends, oncePerProcessor]
    | none =>
      by_cases he : d.endTime = d.startTime
      · simp [he, deliver_ends, oncePerProcessor]
      · simp [he, deliver_ends, oncePerProcessor]

end Otel.Sdk.Shared
