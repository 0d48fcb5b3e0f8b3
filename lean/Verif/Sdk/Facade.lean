import Verif.Sdk.Tracer
/-!
# The boxed API: `global::tracer`, `BoxedTracer`, `BoxedSpan`, `SpanRef` (`opentelemetry/src/global/trace.rs`, `src/trace/{span,tracer,tracer_provider,context}.rs`), C125

Code that does not name its SDK uses spans through three layers: the `Span` trait with methods that have a body of their own, `BoxedSpan` around any span, and
`SpanRef`, a boxed span in a context. An implementation of `Span` is a table of its methods over a state `σ`, which is the span with all it can change. `now`
is the clock, and `kv` makes the attribute of a text. Texts are `Str`; conversions into them (`Into<Cow>`) are done. User code does not panic.
-/

namespace Otel.Sdk.Facade
open Rust Otel.Sdk

/-- What a type must say to be a `Span`, and its drop. opentelemetry/src/trace/span.rs:87-179 -/
structure Methods (σ A : Type) where
  addEventAt : Str → Time → List A → σ → σ
  context : σ → SpanContext
  recording : σ → Bool
  setAttribute : A → σ → σ
  setStatus : Status → σ → σ
  updateName : Str → σ → σ
  addLink : SpanContext → List A → σ → σ
  endAt : Time → σ → σ
  drop : σ → σ

/-- An implementation of `Span`: also the methods the trait has a body for. opentelemetry/src/trace/span.rs:21-180 -/
structure Impl (σ A : Type) extends Methods σ A where
  addEvent : Str → List A → σ → σ
  recordError : Str → σ → σ
  setAttributes : List A → σ → σ
  finish : σ → σ

/-- Clock and attributes. -/
structure Base (σ A : Type) where
  now : σ → Time × σ
  kv : Str → Str → A

variable {σ A : Type}

/-- `Span::add_event` as the trait has it. opentelemetry/src/trace/span.rs:59-64 -/
def defAddEvent (base : Base σ A) (m : Methods σ A) (name : Str) (attrs : List A) (s : σ) : σ :=
  m.addEventAt name (base.now s).1 attrs (base.now s).2

/-- `Span::record_error` as the trait has it. opentelemetry/src/trace/span.rs:72-77 -/
def defRecordError (base : Base σ A) (m : Methods σ A) (addEvent : Str → List A → σ → σ) (message : Str) (s : σ) : σ :=
  if m.recording s then addEvent "exception".toList [base.kv "exception.message".toList message] s else s

/-- `Span::set_attributes` as the trait has it. opentelemetry/src/trace/span.rs:136-142 -/
def defSetAttributes (m : Methods σ A) (attrs : List A) (s : σ) : σ :=
  if m.recording s then attrs.foldl (fun s a => m.setAttribute a s) s else s

/-- `Span::end` as the trait has it. opentelemetry/src/trace/span.rs:174-176 -/
def defFinish (base : Base σ A) (m : Methods σ A) (s : σ) : σ := m.endAt (base.now s).1 (base.now s).2

/-- An implementation that keeps the bodies of the trait. -/
def withDefaults (base : Base σ A) (m : Methods σ A) : Impl σ A where
  toMethods := m
  addEvent := defAddEvent base m
  recordError := defRecordError base m (defAddEvent base m)
  setAttributes := defSetAttributes m
  finish := defFinish base m

/-- `Box<dyn ObjectSafeSpan>`: a state with its methods. global/trace.rs:19-112, 157 -/
structure Obj (σ A : Type) where
  methods : Methods σ A
  state : σ

/-- `impl<T: trace::Span> ObjectSafeSpan for T`. global/trace.rs:114-151 -/
def objectSafe (i : Impl σ A) : Methods σ A where
  addEventAt name t attrs s := i.addEventAt name t attrs s
  context s := i.context s
  recording s := i.recording s
  setAttribute a s := i.setAttribute a s
  setStatus st s := i.setStatus st s
  updateName n s := i.updateName n s
  addLink sc attrs s := i.addLink sc attrs s
  endAt t s := i.endAt t s
  drop s := i.drop s

/-- `BoxedSpan::new`. global/trace.rs:159-166 -/
def box (i : Impl σ A) (s : σ) : Obj σ A := ⟨objectSafe i, s⟩

/-- `impl trace::Span for BoxedSpan`: what it must say. Dropping the box drops what is in it. global/trace.rs:174-236 -/
def boxedMethods : Methods (Obj σ A) A where
  addEventAt name t attrs o := { o with state := o.methods.addEventAt name t attrs o.state }
  context o := o.methods.context o.state
  recording o := o.methods.recording o.state
  setAttribute a o := { o with state := o.methods.setAttribute a o.state }
  setStatus st o := { o with state := o.methods.setStatus st o.state }
  updateName n o := { o with state := o.methods.updateName n o.state }
  addLink sc attrs o := { o with state := o.methods.addLink sc attrs o.state }
  endAt t o := { o with state := o.methods.endAt t o.state }
  drop o := { o with state := o.methods.drop o.state }

/-- The clock and the attributes for a boxed span. -/
def Base.boxed (base : Base σ A) : Base (Obj σ A) A where
  now o := ((base.now o.state).1, { o with state := (base.now o.state).2 })
  kv := base.kv

/-- `BoxedSpan` says nothing of the methods the trait has a body for. global/trace.rs:174-236 -/
def boxed (base : Base σ A) : Impl (Obj σ A) A := withDefaults base.boxed boxedMethods

/-- A call of a method of `Span`. -/
inductive Call (A : Type) where
  | addEvent (name : Str) (attrs : List A)
  | recordError (message : Str)
  | addEventAt (name : Str) (t : Time) (attrs : List A)
  | setAttribute (a : A)
  | setAttributes (attrs : List A)
  | setStatus (st : Status)
  | updateName (n : Str)
  | addLink (sc : SpanContext) (attrs : List A)
  | finish
  | endAt (t : Time)
  | context
  | isRecording

/-- What a call returns. -/
inductive Answer where
  | unit
  | context (sc : SpanContext)
  | recording (b : Bool)
deriving DecidableEq

/-- One call on a span with this implementation. -/
def Impl.call (i : Impl σ A) : Call A → σ → Answer × σ
  | .addEvent n as, s => (.unit, i.addEvent n as s)
  | .recordError e, s => (.unit, i.recordError e s)
  | .addEventAt n t as, s => (.unit, i.addEventAt n t as s)
  | .setAttribute a, s => (.unit, i.setAttribute a s)
  | .setAttributes as, s => (.unit, i.setAttributes as s)
  | .setStatus st, s => (.unit, i.setStatus st s)
  | .updateName n, s => (.unit, i.updateName n s)
  | .addLink sc as, s => (.unit, i.addLink sc as s)
  | .finish, s => (.unit, i.finish s)
  | .endAt t, s => (.unit, i.endAt t s)
  | .context, s => (.context (i.context s), s)
  | .isRecording, s => (.recording (i.recording s), s)

/-- A history of calls: the answers, oldest first, and the state. -/
def Impl.calls (i : Impl σ A) : List (Call A) → σ → List Answer × σ
  | [], s => ([], s)
  | c :: cs, s => ((i.call c s).1 :: (i.calls cs (i.call c s).2).1, (i.calls cs (i.call c s).2).2)

/-- A span is used, then dropped: the answers and what is left. -/
def Impl.life (i : Impl σ A) (cs : List (Call A)) (s : σ) : List Answer × σ := ((i.calls cs s).1, i.drop (i.calls cs s).2)

/-- `SynchronizedSpan`: its context, the boxed span if it has one, whether the mutex is poisoned. opentelemetry/src/trace/context.rs:21-27 -/
structure Sync (σ A : Type) where
  context : SpanContext
  inner : Option (Obj σ A)
  poisoned : Bool := false

/-- `From<T: Span> for SynchronizedSpan`. opentelemetry/src/trace/context.rs:44-51 -/
def Sync.ofSpan (i : Impl σ A) (s : σ) : Sync σ A := ⟨i.context s, some (box i s), false⟩

/-- `From<SpanContext> for SynchronizedSpan`. opentelemetry/src/trace/context.rs:35-42 -/
def Sync.ofRemote (sc : SpanContext) : Sync σ A := ⟨sc, none, false⟩

/-- `with_inner_mut`. opentelemetry/src/trace/context.rs:53-68 -/
def Sync.withInner (y : Sync σ A) (f : Obj σ A → Obj σ A) : Sync σ A :=
  match y.inner with
  | some o => if y.poisoned then y else { y with inner := some (f o) }
  | none => y

/-- A call through `SpanRef`; it has no `add_link`. `end` reads the clock before it takes the lock, which is the same here. opentelemetry/src/trace/context.rs:79-196 -/
def Sync.call (base : Base σ A) (y : Sync σ A) : Call A → Answer × Sync σ A
  | .addEvent n as => (.unit, y.withInner ((boxed base).addEvent n as))
  | .recordError e => (.unit, y.withInner ((boxed base).recordError e))
  | .addEventAt n t as => (.unit, y.withInner ((boxed base).addEventAt n t as))
  | .context => (.context y.context, y)
  | .isRecording => (.recording (match y.inner with
      | some o => if y.poisoned then false else (boxed base).recording o
      | none => false), y)
  | .setAttribute a => (.unit, y.withInner ((boxed base).setAttribute a))
  | .setAttributes as => (.unit, y.withInner ((boxed base).setAttributes as))
  | .setStatus st => (.unit, y.withInner ((boxed base).setStatus st))
  | .updateName n => (.unit, y.withInner ((boxed base).updateName n))
  | .finish => (.unit, y.withInner fun o => (boxed base).endAt (base.boxed.now o).1 (base.boxed.now o).2)
  | .endAt t => (.unit, y.withInner ((boxed base).endAt t))
  | .addLink _ _ => (.unit, y)

/-- A history of calls through a context. -/
def Sync.calls (base : Base σ A) : List (Call A) → Sync σ A → List Answer × Sync σ A
  | [], y => ([], y)
  | c :: cs, y => ((y.call base c).1 :: (Sync.calls base cs (y.call base c).2).1, (Sync.calls base cs (y.call base c).2).2)

section tracers
variable {B W S : Type} {U : Nat → Type}

/-- A `Tracer`: its spans' implementation and how it makes a span; `W` is what it finds. The other methods have a body in the trait, which the code of all
tracers here keeps. opentelemetry/src/trace/tracer.rs:121-220 -/
structure Tracer (σ A B : Type) (U : Nat → Type) (W : Type) where
  span : Impl σ A
  build : SpanBuilder A → Cx B U → W → σ

/-- How application code makes a span. -/
inductive Make (A B : Type) (U : Nat → Type) where
  | start (name : Str)
  | startWithContext (name : Str) (cx : Cx B U)
  | build (b : SpanBuilder A)
  | buildWithContext (b : SpanBuilder A) (cx : Cx B U)

/-- `SpanBuilder::from_name`. opentelemetry/src/trace/tracer.rs:283-288 -/
def fromName (name : Str) : SpanBuilder A := { name := name }

/-- The ways of the trait; `current` is the current context. opentelemetry/src/trace/tracer.rs:134-175, 374-381 -/
def Tracer.make (t : Tracer σ A B U W) (current : Cx B U) : Make A B U → W → σ
  | .start n => t.build (fromName n) current
  | .startWithContext n cx => t.build (fromName n) cx
  | .build b => t.build b current
  | .buildWithContext b cx => t.build b cx

/-- `BoxedTracer` with `build_with_context_boxed`. global/trace.rs:258-267, 283-297 -/
def Tracer.boxed (base : Base σ A) (t : Tracer σ A B U W) : Tracer (Obj σ A) A B U W where
  span := Facade.boxed base
  build b cx w := box t.span (t.build b cx w)

/-- A `TracerProvider`. opentelemetry/src/trace/tracer_provider.rs:10-58 -/
structure Prov (S σ A B : Type) (U : Nat → Type) (W : Type) where
  withScope : S → Tracer σ A B U W
  tracer : Str → Tracer σ A B U W

/-- `TracerProvider::tracer` as the trait has it; `named` is `InstrumentationScope::builder(name).build()`. opentelemetry/src/trace/tracer_provider.rs:31-34 -/
def Prov.defTracer (named : Str → S) (withScope : S → Tracer σ A B U W) (name : Str) : Tracer σ A B U W := withScope (named name)

/-- `GlobalTracerProvider` with `boxed_tracer`. global/trace.rs:310-320, 338-359 -/
def Prov.global (base : Base σ A) (named : Str → S) (p : Prov S σ A B U W) : Prov S (Obj σ A) A B U W where
  withScope sc := (p.withScope sc).boxed base
  tracer := Prov.defTracer named fun sc => (p.withScope sc).boxed base

/-- How a tracer is got. `global::tracer`, `global::tracer_with_scope`: global/trace.rs:389-391, 416-418 -/
inductive Get (S : Type) where
  | tracer (name : Str)
  | withScope (sc : S)

def Prov.get (p : Prov S σ A B U W) : Get S → Tracer σ A B U W
  | .tracer n => p.tracer n
  | .withScope sc => p.withScope sc

end tracers

/-! ## Specification -/

/-- The implementation keeps what the trait says of the methods it has a body for. -/
structure Keeps (base : Base σ A) (i : Impl σ A) : Prop where
  addEvent : ∀ n as s, i.addEvent n as s = i.addEventAt n (base.now s).1 as (base.now s).2
  recordError : ∀ e s, i.recordError e s =
    if i.recording s then i.addEvent "exception".toList [base.kv "exception.message".toList e] s else s
  setAttributes : ∀ as s, i.setAttributes as s = if i.recording s then as.foldl (fun s a => i.setAttribute a s) s else s
  finish : ∀ s, i.finish s = i.endAt (base.now s).1 (base.now s).2

/-- No call changes the context of a span. -/
def Steady (i : Impl σ A) : Prop := ∀ c s, i.context (i.call c s).2 = i.context s

/-- The call is not `add_link`. -/
def OfRef : Call A → Prop
  | .addLink _ _ => False
  | _ => True

section
variable {B S : Type} {U : Nat → Type}

/-- The parent context of a new span. -/
def Make.parent (current : Cx B U) : Make A B U → Cx B U
  | .start _ => current
  | .startWithContext _ cx => cx
  | .build _ => current
  | .buildWithContext _ cx => cx

/-- What is asked for: a span with just a name, or what the builder says. -/
def Make.wanted : Make A B U → SpanBuilder A
  | .start n => { name := n }
  | .startWithContext n _ => { name := n }
  | .build b => b
  | .buildWithContext b _ => b

/-- The scope of the tracer asked for. -/
def Get.scope (named : Str → S) : Get S → S
  | .tracer n => named n
  | .withScope sc => sc

end

/-! ## Proofs -/

theorem foldl_box (m : Methods σ A) (as : List A) (s : σ) :
    as.foldl (fun o a => boxedMethods.setAttribute a o) (⟨m, s⟩ : Obj σ A) = ⟨m, as.foldl (fun s a => m.setAttribute a s) s⟩ := by
  induction as generalizing s with
  | nil => rfl
  | cons a as ih => exact ih (m.setAttribute a s)

/-- A call on a boxed span is the call on the span, with the trait's bodies. -/
theorem boxed_call (base : Base σ A) (i : Impl σ A) (c : Call A) (s : σ) :
    (boxed base).call c (box i s) = (((withDefaults base i.toMethods).call c s).1, box i ((withDefaults base i.toMethods).call c s).2) := by
  cases c with
  | recordError e =>
    show (Answer.unit, if i.recording s then _ else _) = (Answer.unit, box i (if i.recording s then _ else _))
    split <;> rfl
  | setAttributes as =>
    show (Answer.unit, if i.recording s then _ else _) = (Answer.unit, box i (if i.recording s then _ else _))
    split
    · exact congrArg (Prod.mk Answer.unit) (foldl_box (objectSafe i) as s)
    · rfl
  | _ => rfl

/-- The same for a history: this is what a boxed span does for any implementation. -/
theorem boxed_calls (base : Base σ A) (i : Impl σ A) (cs : List (Call A)) (s : σ) :
    (boxed base).calls cs (box i s) = (((withDefaults base i.toMethods).calls cs s).1, box i ((withDefaults base i.toMethods).calls cs s).2) := by
  induction cs generalizing s with
  | nil => rfl
  | cons c cs ih => simp only [Impl.calls, boxed_call, ih]

theorem keeps_call {base : Base σ A} {i : Impl σ A} (h : Keeps base i) (c : Call A) (s : σ) : (withDefaults base i.toMethods).call c s = i.call c s := by
  cases c with
  | addEvent n as => exact congrArg (Prod.mk Answer.unit) (h.addEvent n as s).symm
  | recordError e =>
    refine congrArg (Prod.mk Answer.unit) (Eq.trans ?_ (h.recordError e s).symm)
    show (if i.recording s then _ else _) = _
    split
    · exact (h.addEvent _ _ s).symm
    · rfl
  | setAttributes as => exact congrArg (Prod.mk Answer.unit) (h.setAttributes as s).symm
  | finish => exact congrArg (Prod.mk Answer.unit) (h.finish s).symm
  | _ => rfl

theorem keeps_calls {base : Base σ A} {i : Impl σ A} (h : Keeps base i) (cs : List (Call A)) (s : σ) :
    (withDefaults base i.toMethods).calls cs s = i.calls cs s := by
  induction cs generalizing s with
  | nil => rfl
  | cons c cs ih => simp only [Impl.calls, keeps_call h, ih]

/-- **C125, boxed spans.** For every implementation of `Span` that keeps the trait's bodies, and every history of calls after which the span is dropped: on the
boxed span each call answers as on the span itself, and leaves the span, and all that it changes, as it would. -/
theorem boxed_same_partial (base : Base σ A) (i : Impl σ A) (h : Keeps base i) (cs : List (Call A)) (s : σ) :
    ((boxed base).life cs (box i s)).1 = (i.life cs s).1 ∧ ((boxed base).life cs (box i s)).2.state = (i.life cs s).2 := by
  simp only [Impl.life, boxed_calls, keeps_calls h, true_and]
  rfl

/-- A span in a context, unpoisoned, and the span itself: a call does the same to both. -/
theorem ref_call (base : Base σ A) (i : Impl σ A) (h : Keeps base i) (hst : Steady i) (c : Call A) (hc : OfRef c) (s : σ) :
    (Sync.ofSpan i s).call base c = ((i.call c s).1, Sync.ofSpan i (i.call c s).2) := by
  have hb := boxed_call base i c s
  rw [keeps_call h] at hb
  have hs := hst c s
  have key : ∀ f : Obj σ A → Obj σ A, f (box i s) = box i (i.call c s).2 → (Sync.ofSpan i s).withInner f = Sync.ofSpan i (i.call c s).2 := by
    intro f hf
    simp only [Sync.withInner, Sync.ofSpan, Bool.false_eq_true, if_false, hf, hs]
  cases c with
  | addLink _ _ => exact hc.elim
  | context => rfl
  | isRecording => rfl
  | finish => exact congrArg (Prod.mk Answer.unit) (key _ (Prod.mk.inj hb).2)
  | addEvent _ _ => exact congrArg (Prod.mk Answer.unit) (key _ (Prod.mk.inj hb).2)
  | recordError _ => exact congrArg (Prod.mk Answer.unit) (key _ (Prod.mk.inj hb).2)
  | addEventAt _ _ _ => exact congrArg (Prod.mk Answer.unit) (key _ (Prod.mk.inj hb).2)
  | setAttribute _ => exact congrArg (Prod.mk Answer.unit) (key _ (Prod.mk.inj hb).2)
  | setAttributes _ => exact congrArg (Prod.mk Answer.unit) (key _ (Prod.mk.inj hb).2)
  | setStatus _ => exact congrArg (Prod.mk Answer.unit) (key _ (Prod.mk.inj hb).2)
  | updateName _ => exact congrArg (Prod.mk Answer.unit) (key _ (Prod.mk.inj hb).2)
  | endAt _ => exact congrArg (Prod.mk Answer.unit) (key _ (Prod.mk.inj hb).2)

/-- **C125, spans in contexts.** The same through a context that holds the span, for the calls one can make there, if the mutex is not poisoned and calls do
not change the context of a span. -/
theorem ref_same_partial (base : Base σ A) (i : Impl σ A) (h : Keeps base i) (hst : Steady i) (cs : List (Call A)) (hc : ∀ c ∈ cs, OfRef c) (s : σ) :
    (Sync.calls base cs (Sync.ofSpan i s)).1 = (i.calls cs s).1 ∧
    ∃ o, (Sync.calls base cs (Sync.ofSpan i s)).2.inner = some o ∧ o.state = (i.calls cs s).2 := by
  induction cs generalizing s with
  | nil => exact ⟨rfl, _, rfl, rfl⟩
  | cons c cs ih =>
    obtain ⟨h1, o, h2, h3⟩ := ih (fun c hm => hc c (List.mem_cons_of_mem _ hm)) (i.call c s).2
    simp only [Sync.calls, Impl.calls, ref_call base i h hst c (hc c (List.mem_cons_self ..))]
    exact ⟨by rw [h1], o, h2, h3⟩

/-- **C125, remote contexts.** Of a context that came from elsewhere, all calls have no effect: it says its span context, and that it does not record. -/
theorem remote_inert (base : Base σ A) (sc : SpanContext) (cs : List (Call A)) :
    (Sync.calls base cs (Sync.ofRemote sc)).2 = Sync.ofRemote sc ∧
    (Sync.calls base cs (Sync.ofRemote sc)).1 = cs.map fun | .context => .context sc | .isRecording => .recording false | _ => .unit := by
  induction cs with
  | nil => exact ⟨rfl, rfl⟩
  | cons c cs ih =>
    have hc : (Sync.ofRemote sc : Sync σ A).call base c =
        (match c with | .context => .context sc | .isRecording => .recording false | _ => .unit, Sync.ofRemote sc) := by cases c <;> rfl
    simp only [Sync.calls, hc, ih, List.map_cons, and_self]

section
variable {B W S : Type} {U : Nat → Type}

/-- **C125, the global provider.** Take any provider whose spans keep the trait's bodies, and make it the global one. However a tracer is got from the global
functions and however a span is made with it, for every history of calls on this span until it is dropped: the answers and the effects are those of the span
the provider's tracer for this scope builds for this builder and parent. -/
theorem global_same_partial (base : Base σ A) (named : Str → S) (p : Prov S σ A B U W) (g : Get S) (hk : Keeps base (p.withScope (g.scope named)).span)
    (current : Cx B U) (m : Make A B U) (w : W) (cs : List (Call A)) :
    let own := p.withScope (g.scope named)
    let direct := own.span.life cs (own.build m.wanted (m.parent current) w)
    let global := ((p.global base named).get g).span.life cs (((p.global base named).get g).make current m w)
    global.1 = direct.1 ∧ global.2.state = direct.2 := by
  intro own direct global
  have hg : ((p.global base named).get g) = own.boxed base := by cases g <;> rfl
  have hm : (own.boxed base).make current m w = box own.span (own.build m.wanted (m.parent current) w) := by cases m <;> rfl
  show (((p.global base named).get g).span.life cs (((p.global base named).get g).make current m w)).1 = _ ∧
    (((p.global base named).get g).span.life cs (((p.global base named).get g).make current m w)).2.state = _
  rw [hg, hm]
  exact boxed_same_partial base _ hk cs _

end

/-! ## The SDK's span -/

section sdk
variable {I W B S : Type} {U : Nat → Type}

/-- The SDK's clock. -/
def sdkBase (env : Env A I B U W) (kv : Str → Str → A) : Base (Span A I × PState A I W) A where
  now x := ((env.now x.2.world).1, (x.1, { x.2 with world := (env.now x.2.world).2 }))
  kv := kv

/-- `impl opentelemetry::trace::Span for Span` of the SDK, and its drop. opentelemetry-sdk/src/trace/span.rs:86-197, 242-247 -/
def sdkMethods (env : Env A I B U W) : Methods (Span A I × PState A I W) A where
  addEventAt n t as x := SpanOp.run env (.edit (.addEvent n t as)) x
  context x := x.1.spanContext
  recording x := x.1.isRecording
  setAttribute a x := SpanOp.run env (.edit (.setAttribute a)) x
  setStatus st x := SpanOp.run env (.edit (.setStatus st)) x
  updateName n x := SpanOp.run env (.edit (.updateName n)) x
  addLink sc as x := SpanOp.run env (.edit (.addLink sc as)) x
  endAt t x := SpanOp.run env (.endAt t) x
  drop x := (x.1, dropSpan env x)

/-- It says nothing of the methods the trait has a body for. opentelemetry-sdk/src/trace/span.rs:86-197 -/
def sdkSpan (env : Env A I B U W) (kv : Str → Str → A) : Impl (Span A I × PState A I W) A := withDefaults (sdkBase env kv) (sdkMethods env)

/-- The SDK's tracer. opentelemetry-sdk/src/trace/tracer.rs:169-290 -/
def sdkTracer (env : Env A I B U W) (cfg : Config A (Link A) B U W) (kv : Str → Str → A) (scope : I) :
    Tracer (Span A I × PState A I W) A B U (PState A I W) where
  span := sdkSpan env kv
  build b cx st := buildWithContext env cfg scope b cx st

/-- The SDK's provider while it is not shut down. opentelemetry-sdk/src/trace/provider.rs:267-287 -/
def sdkProv (env : Env A I B U W) (cfg : Config A (Link A) B U W) (kv : Str → Str → A) (named : Str → I) :
    Prov I (Span A I × PState A I W) A B U (PState A I W) where
  withScope := sdkTracer env cfg kv
  tracer name := sdkTracer env cfg kv (named name)

theorem sdk_keeps (env : Env A I B U W) (kv : Str → Str → A) : Keeps (sdkBase env kv) (sdkSpan env kv) :=
  ⟨fun _ _ _ => rfl, fun _ _ => rfl, fun _ _ => rfl, fun _ => rfl⟩

theorem ensureEnded_context (env : Env A I B U W) (t : Option Time) (s : Span A I) (st : PState A I W) :
    (ensureEnded env t s st).1.spanContext = s.spanContext := by
  simp only [ensureEnded]
  split
  · rfl
  · split
    · rfl
    · split
      · rfl
      · split <;> rfl

theorem run_context (env : Env A I B U W) (o : SpanOp A) (x : Span A I × PState A I W) : (o.run env x).1.spanContext = x.1.spanContext := by
  cases o with
  | edit e => rfl
  | endAt t => exact ensureEnded_context env _ _ _
  | endNow => exact ensureEnded_context env _ _ _

theorem sdk_steady (env : Env A I B U W) (kv : Str → Str → A) : Steady (sdkSpan env kv) := by
  intro c s
  cases c with
  | setAttributes as =>
    show (defSetAttributes (sdkMethods env) as s).1.spanContext = _
    simp only [defSetAttributes]
    split
    · clear * -
      induction as generalizing s with
      | nil => rfl
      | cons a as ih => exact (ih _).trans rfl
    · rfl
  | recordError e =>
    show (defRecordError _ _ _ _ _ : Span A I × PState A I W).1.spanContext = _
    simp only [defRecordError]
    split
    · rfl
    · rfl
  | finish => exact run_context env (.endAt _) _
  | endAt t => exact run_context env (.endAt t) _
  | _ => rfl

/-- `end` of the trait is `end` of the SDK model. -/
theorem sdk_finish (env : Env A I B U W) (kv : Str → Str → A) (x : Span A I × PState A I W) : (sdkSpan env kv).finish x = SpanOp.run env .endNow x := rfl

/-- The call of the API for a call of the SDK model (C22, C23, C24). -/
def ofOp : SpanOp A → Call A
  | .edit (.addEvent n t as) => .addEventAt n t as
  | .edit (.setAttribute a) => .setAttribute a
  | .edit (.setStatus st) => .setStatus st
  | .edit (.updateName n) => .updateName n
  | .edit (.addLink sc as) => .addLink sc as
  | .endAt t => .endAt t
  | .endNow => .finish

/-- **C125 for the SDK.** Spans of the SDK made through the global functions: for every history of calls, the answers to all calls, the span, the clock
readings and what the processors receive are those of the span that the SDK's tracer builds. -/
theorem sdk_global_same (env : Env A I B U W) (cfg : Config A (Link A) B U W) (kv : Str → Str → A) (named : Str → I) (g : Get I) (current : Cx B U)
    (m : Make A B U) (st : PState A I W) (cs : List (Call A)) :
    let direct := (sdkSpan env kv).life cs (buildWithContext env cfg (g.scope named) m.wanted (m.parent current) st)
    let global := (((sdkProv env cfg kv named).global (sdkBase env kv) named).get g).span.life cs
      ((((sdkProv env cfg kv named).global (sdkBase env kv) named).get g).make current m st)
    global.1 = direct.1 ∧ global.2.state = direct.2 :=
  global_same_partial (sdkBase env kv) named (sdkProv env cfg kv named) g (sdk_keeps env kv) current m st cs

/-- ... and for the calls of the SDK model, what the processors received, the clock and the provider are at the end as this model says: all theorems on spans
of the SDK (C22, C23, C24) hold for spans used through the global functions. -/
theorem sdk_global_model (env : Env A I B U W) (cfg : Config A (Link A) B U W) (kv : Str → Str → A) (named : Str → I) (g : Get I) (current : Cx B U)
    (m : Make A B U) (st : PState A I W) (ops : List (SpanOp A)) :
    ((((sdkProv env cfg kv named).global (sdkBase env kv) named).get g).span.life (ops.map ofOp)
      ((((sdkProv env cfg kv named).global (sdkBase env kv) named).get g).make current m st)).2.state.2 =
    dropSpan env (ops.foldl (fun x o => o.run env x) (buildWithContext env cfg (g.scope named) m.wanted (m.parent current) st)) := by
  have h := (sdk_global_same env cfg kv named g current m st (ops.map ofOp)).2
  rw [h]
  have : ∀ (ops : List (SpanOp A)) x, ((sdkSpan env kv).calls (ops.map ofOp) x).2 = ops.foldl (fun x o => o.run env x) x := by
    intro ops
    induction ops with
    | nil => intro x; rfl
    | cons o ops ih =>
      intro x
      have ho : ((sdkSpan env kv).call (ofOp o) x).2 = o.run env x := by
        cases o with
        | edit e => cases e <;> rfl
        | endAt t => rfl
        | endNow => rfl
      simp only [List.map_cons, Impl.calls, List.foldl_cons, ho, ih]
  show dropSpan env ((sdkSpan env kv).calls (ops.map ofOp) _).2 = _
  rw [this]

/-- **C125 for the SDK, in contexts.** -/
theorem sdk_ref_same (env : Env A I B U W) (kv : Str → Str → A) (cs : List (Call A)) (hc : ∀ c ∈ cs, OfRef c) (x : Span A I × PState A I W) :
    (Sync.calls (sdkBase env kv) cs (Sync.ofSpan (sdkSpan env kv) x)).1 = ((sdkSpan env kv).calls cs x).1 ∧
    ∃ o, (Sync.calls (sdkBase env kv) cs (Sync.ofSpan (sdkSpan env kv) x)).2.inner = some o ∧ o.state = ((sdkSpan env kv).calls cs x).2 :=
  ref_same_partial _ _ (sdk_keeps env kv) (sdk_steady env kv) cs hc x

end sdk

/-! ## Before a provider is set -/

section noop
variable {B S : Type} {U : Nat → Type}

/-- `NoopSpan`: a span context. It has an `add_event` of its own, which does not read the clock. opentelemetry/src/trace/noop.rs:36-105 -/
def noopSpan (base : Base SpanContext A) : Impl SpanContext A :=
  { withDefaults base
      { addEventAt := fun _ _ _ s => s, context := fun s => s, recording := fun _ => false, setAttribute := fun _ s => s, setStatus := fun _ s => s,
        updateName := fun _ s => s, addLink := fun _ _ s => s, endAt := fun _ s => s, drop := fun s => s } with
    addEvent := fun _ _ s => s }

/-- `NoopTracerProvider` and `NoopTracer`. opentelemetry/src/trace/noop.rs:26-33, 120-132 -/
def noopProv (base : Base SpanContext A) (named : Str → S) : Prov S SpanContext A B U Unit where
  withScope _ := ⟨noopSpan base, fun _ cx _ => spanContextOf cx⟩
  tracer := Prov.defTracer named fun _ => ⟨noopSpan base, fun _ cx _ => spanContextOf cx⟩

/-- **C125, no provider set.** A span made with the global functions before a provider is set has the span context of its parent, for all histories of calls;
it does not record, and nothing changes it. The clock of the span is pure. -/
theorem noop_global (base : Base SpanContext A) (hb : ∀ s, (base.now s).2 = s) (named : Str → S) (g : Get S) (current : Cx B U) (m : Make A B U)
    (cs : List (Call A)) :
    let t := ((noopProv base named).global base named).get g
    (t.span.life cs (t.make current m ())).1 =
      cs.map (fun | .context => .context (spanContextOf (m.parent current)) | .isRecording => .recording false | _ => .unit) ∧
    (t.span.life cs (t.make current m ())).2.state = spanContextOf (m.parent current) := by
  intro t
  have hk : Keeps base (noopSpan base) :=
    ⟨fun _ _ s => (hb s).symm, fun _ _ => rfl, fun _ _ => rfl, fun _ => rfl⟩
  have h := global_same_partial base named (noopProv base named : Prov S SpanContext A B U Unit) g hk current m () cs
  have hcall : ∀ c s, (noopSpan base).call c s =
      ((match c with | .context => .context s | .isRecording => .recording false | _ => .unit : Answer), s) := by
    intro c s
    cases c with
    | finish => exact congrArg (Prod.mk Answer.unit) (hb s)
    | _ => rfl
  have hcalls : ∀ (cs : List (Call A)) s, (noopSpan base).calls cs s =
      (cs.map (fun | .context => .context s | .isRecording => .recording false | _ => .unit), s) := by
    intro cs s
    induction cs with
    | nil => rfl
    | cons c cs ih => simp only [Impl.calls, hcall, ih, List.map_cons]
  refine ⟨h.1.trans ?_, h.2.trans ?_⟩
  · show ((noopSpan base).life cs (spanContextOf (m.parent current))).1 = _
    simp only [Impl.life, hcalls]
  · show ((noopSpan base).life cs (spanContextOf (m.parent current))).2 = _
    simp only [Impl.life, hcalls]; rfl

end noop

/-! ## What is missing -/

/-- A clock that stands at 7, and attributes that are their values. -/
def exBase : Base (List Str) Str := ⟨fun s => (7, s), fun _ v => v⟩

/-- An implementation with its own `end`, which the trait allows: it writes down what it is called for. -/
def exOwn : Impl (List Str) Str :=
  { withDefaults exBase
      { addEventAt := fun n _ _ s => s ++ [n], context := fun _ => SpanContext.none, recording := fun _ => true, setAttribute := fun a s => s ++ [a],
        setStatus := fun _ s => s, updateName := fun n s => s ++ [n], addLink := fun _ _ s => s, endAt := fun _ s => s ++ ["end_with_timestamp".toList],
        drop := fun s => s ++ ["drop".toList] } with
    finish := fun s => s ++ ["end".toList] }

/-- **C125 fails for an implementation with its own `end`.** Neither a boxed span nor a context calls it: they call `end_with_timestamp`. The same holds for
`add_event`, `record_error` and `set_attributes`. -/
theorem own_end_violated :
    (exOwn.life [.finish] []).2 = ["end".toList, "drop".toList] ∧
    ((boxed exBase).life [.finish] (box exOwn [])).2.state = ["end_with_timestamp".toList, "drop".toList] ∧
    ((Sync.calls exBase [.finish] (Sync.ofSpan exOwn [])).2.inner.map Obj.state) = some ["end_with_timestamp".toList] := by
  refine ⟨?_, ?_, ?_⟩ <;> decide +kernel

/-- Links cannot be added through a context: the call does not exist (here, it does nothing). -/
theorem ref_link_violated : ∃ (i : Impl Nat Str) (base : Base Nat Str), Keeps base i ∧ Steady i ∧
    ((i.calls [.addLink SpanContext.none []] 0).2 = 1) ∧ (Sync.calls base [.addLink SpanContext.none []] (Sync.ofSpan i 0)).2.inner.map Obj.state = some 0 := by
  refine ⟨withDefaults ⟨fun s => (0, s), fun _ v => v⟩ ⟨fun _ _ _ s => s, fun _ => SpanContext.none, fun _ => true, fun _ s => s, fun _ s => s, fun _ s => s,
    fun _ _ s => s + 1, fun _ s => s, fun s => s⟩, ⟨fun s => (0, s), fun _ v => v⟩, ⟨fun _ _ _ => rfl, fun _ _ => rfl, fun _ _ => rfl, fun _ => rfl⟩,
    fun _ _ => rfl, rfl, rfl⟩

/-- The hypotheses are met by an implementation that writes down all calls; boxed, an error, two attributes and the end arrive in order. -/
def exLog : Impl (List Str) Str := { exOwn with finish := defFinish exBase exOwn.toMethods }

theorem exLog_keeps : Keeps exBase exLog := ⟨fun _ _ _ => rfl, fun _ _ => rfl, fun _ _ => rfl, fun _ => rfl⟩

example : Keeps exBase exLog ∧ Steady exLog ∧
    ((boxed exBase).life [.recordError "bad".toList, .setAttributes ["a".toList, "b".toList], .isRecording, .finish] (box exLog [])).1 =
      [.unit, .unit, .recording true, .unit] ∧
    ((boxed exBase).life [.recordError "bad".toList, .setAttributes ["a".toList, "b".toList], .isRecording, .finish] (box exLog [])).2.state =
      ["exception".toList, "a".toList, "b".toList, "end_with_timestamp".toList, "drop".toList] := by
  refine ⟨exLog_keeps, fun _ _ => rfl, ?_, ?_⟩ <;> decide +kernel

end Otel.Sdk.Facade
