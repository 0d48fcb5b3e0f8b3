import Verif.Json.TextProps
import Verif.Sdk.JaegerTask
/-!
# The answer of the sampling server as text (`trace/sampler/jaeger_remote/{remote,sampler}.rs`), C121

`answerOf` is `request_new_strategy` from the response on: the status is looked at, and the body is read with `serde_json::from_slice` as a
`SamplingStrategyResponse`. The structures derive `Deserialize`; what serde makes of that is modelled by its documented behaviour: entries in any order, unknown
entries skipped, an entry given twice refused, a missing entry refused unless it is an `Option`, a structure also read from an array of its fields, and an enum
also read from an object with one entry. The body is text (a body that is no UTF-8 is refused as well); `-0`, which serde_json takes as a double, is an integer here.
-/

namespace Otel.Sdk.JaegerAnswer
open Rust Otel.Otlp.Json Otel.JsonText Otel.Sdk.JaegerRemote Otel.Sdk.RateLimit

/-- How numbers become `f64`: the double with these bits, and the double next to an integer. -/
structure Numbers where
  ofBits : BitVec 64 → F64
  ofInt : Int → F64

/-- The entry of an object: `none` if it is there twice, `some none` if it is not there. (serde: `duplicate field`) -/
def field (fs : Obj) (name : String) : Option (Option Json) :=
  match fs.filter fun p => p.1 == name with
  | [] => some none
  | [p] => some (some p.2)
  | _ :: _ :: _ => none

/-- The fields of a structure. (serde's derived `visit_map` and `visit_seq`) -/
def fields (names : List String) : Json → Option (List (Option Json))
  | .obj fs => names.mapM (field fs)
  | .arr xs => if xs.length = names.length then some (xs.map some) else none
  | _ => none

/-- An `Option` field: missing and `null` are `None`. -/
def optional {α : Type} (dec : Json → Option α) : Option Json → Option (Option α)
  | none => some none
  | some .null => some none
  | some j => (dec j).map some

/-- `f64` -/
def decF64 (N : Numbers) : Json → Option F64
  | .int i => some (N.ofInt i)
  | .float b => some (N.ofBits b)
  | _ => none

/-- `i32` -/
def decI32 : Json → Option Int
  | .int i => if -2 ^ 31 ≤ i ∧ i < 2 ^ 31 then some i else none
  | _ => none

/-- `String` -/
def decString : Json → Option Str
  | .str s => some s
  | _ => none

/-- `ProbabilisticSamplingStrategy`. remote.rs:3-8 -/
def decProbabilistic (N : Numbers) (j : Json) : Option F64 :=
  match fields ["samplingRate"] j with
  | some [r] => r.bind (decF64 N)
  | _ => none

/-- `RateLimitingSamplingStrategy`. remote.rs:10-17 -/
def decRateLimiting (j : Json) : Option Int :=
  match fields ["maxTracesPerSecond"] j with
  | some [r] => r.bind decI32
  | _ => none

/-- `OperationSamplingStrategy`. remote.rs:19-26 -/
def decOperation (N : Numbers) (j : Json) : Option (Str × F64) :=
  match fields ["operation", "probabilisticSampling"] j with
  | some [o, p] => do some (← o.bind decString, ← p.bind (decProbabilistic N))
  | _ => none

/-- `Vec<OperationSamplingStrategy>` -/
def decOperations (N : Numbers) : Json → Option (List (Str × F64))
  | .arr xs => xs.mapM (decOperation N)
  | _ => none

/-- `PerOperationSamplingStrategies`; the two bounds are read and not used. remote.rs:28-52 -/
def decPerOperation (N : Numbers) (j : Json) : Option PerOp :=
  match fields ["defaultSamplingProbability", "defaultLowerBoundTracesPerSecond", "perOperationStrategies", "defaultUpperBoundTracesPerSecond"] j with
  | some [d, l, o, u] => do
    let d ← d.bind (decF64 N)
    let _ ← l.bind (decF64 N)
    let o ← o.bind (decOperations N)
    let _ ← u.bind (decF64 N)
    some ⟨d, o⟩
  | _ => none

/-- The names of `SamplingStrategyType`: the names of the variants in upper case. remote.rs:80-86 -/
def variantNames : List Str := ["PROBABILISTIC".toList, "RATELIMITING".toList]

/-- `SamplingStrategyType`; its value is not used. remote.rs:80-86 -/
def decType : Json → Option Unit
  | .str s => if s ∈ variantNames then some () else none
  | .obj [(k, .null)] => if k.toList ∈ variantNames then some () else none
  | _ => none

/-- `SamplingStrategyResponse`. remote.rs:54-70 -/
def decResponse (N : Numbers) (j : Json) : Option Response :=
  match fields ["strategyType", "probabilisticSampling", "rateLimitingSampling", "operationSampling"] j with
  | some [t, p, r, o] => do
    let _ ← t.bind decType
    let p ← optional (decProbabilistic N) p
    let r ← optional decRateLimiting r
    let o ← optional (decPerOperation N) o
    some ⟨o, r, p⟩
  | _ => none

/-- What becomes of the response to the request: `none` is an error. A response is a status and a body. sampler.rs:237-252 -/
def answerOf (N : Numbers) (rf : Str → BitVec 64) : Option (Nat × Str) → Option Response
  | none => none
  | some (status, body) =>
    if status ≠ 200 then none else
    match parse rf body with
    | some j => decResponse N j
    | none => none

/-! ## Specification: answers after Jaeger's `sampling.proto`, in the JSON form of protobuf with all entries written -/

/-- The object has the entry, once. -/
def Has (fs : Obj) (k : String) (j : Json) : Prop := ∃ a b, fs = a ++ (k, j) :: b ∧ ∀ p ∈ a ++ b, p.1 ≠ k

/-- The entry is not there, or `null`. -/
def Lacks (fs : Obj) (k : String) : Prop := (∀ p ∈ fs, p.1 ≠ k) ∨ Has fs k .null

/-- The number. -/
def IsNumber (N : Numbers) (j : Json) (f : F64) : Prop := (∃ i, j = .int i ∧ f = N.ofInt i) ∨ ∃ b, j = .float b ∧ f = N.ofBits b

/-- What a server asks for. -/
inductive Answer where
  | probabilistic (rate : F64)
  | rateLimiting (perSecond : Int)
  | perOperation (dflt : F64) (ops : List (Str × F64))

/-- The name of the strategy in `sampling.proto`. -/
def protoName : Answer → Str
  | .probabilistic _ => "PROBABILISTIC".toList
  | .rateLimiting _ => "RATE_LIMITING".toList
  | .perOperation _ _ => "PROBABILISTIC".toList

/-- `probabilisticSampling` with a rate. -/
def HasRate (N : Numbers) (fs : Obj) (r : F64) : Prop := ∃ ps x, Has fs "probabilisticSampling" (.obj ps) ∧ Has ps "samplingRate" x ∧ IsNumber N x r

/-- The strategy of one operation. -/
def WrittenOp (N : Numbers) (j : Json) (op : Str × F64) : Prop := ∃ fs, j = .obj fs ∧ Has fs "operation" (.str op.1) ∧ HasRate N fs op.2

/-- The entries of the object for what the server asks. With strategies per operation a rate may be given too. -/
def WrittenFields (N : Numbers) (fs : Obj) : Answer → Prop
  | .probabilistic r => HasRate N fs r ∧ Lacks fs "rateLimitingSampling" ∧ Lacks fs "operationSampling"
  | .rateLimiting n => Lacks fs "probabilisticSampling" ∧ (∃ ps, Has fs "rateLimitingSampling" (.obj ps) ∧ Has ps "maxTracesPerSecond" (.int n)) ∧
      Lacks fs "operationSampling" ∧ -2 ^ 31 ≤ n ∧ n < 2 ^ 31
  | .perOperation d ops => (Lacks fs "probabilisticSampling" ∨ ∃ r, HasRate N fs r) ∧ Lacks fs "rateLimitingSampling" ∧
      ∃ ps x l lf u uf xs, Has fs "operationSampling" (.obj ps) ∧ Has ps "defaultSamplingProbability" x ∧ IsNumber N x d ∧
        Has ps "defaultLowerBoundTracesPerSecond" l ∧ IsNumber N l lf ∧ Has ps "defaultUpperBoundTracesPerSecond" u ∧ IsNumber N u uf ∧
        Has ps "perOperationStrategies" (.arr xs) ∧ List.Forall₂ (WrittenOp N) xs ops

/-- The document says the answer. -/
def Written (N : Numbers) (j : Json) (a : Answer) : Prop := ∃ fs, j = .obj fs ∧ Has fs "strategyType" (.str (protoName a)) ∧ WrittenFields N fs a

/-- The strategy after the answer. -/
def Follows (size : Rat) (now : Nat) : Answer → Strategy → Prop
  | .probabilistic r, s => s = .probabilistic r
  | .rateLimiting n, s => s = .rateLimiting (Bucket.new size n now)
  | .perOperation d ops, s => ∃ m, s = .perOperation d m ∧ ∀ name, Assoc.get m name = Assoc.last ops name

/-! ## Lemmas -/

theorem field_has {fs : Obj} {k : String} {j : Json} (h : Has fs k j) : field fs k = some (some j) := by
  obtain ⟨a, b, rfl, h⟩ := h
  have ha : a.filter (fun p => p.1 == k) = [] := List.filter_eq_nil_iff.2 fun p hp => by
    simpa using h p (List.mem_append_left _ hp)
  have hb : b.filter (fun p => p.1 == k) = [] := List.filter_eq_nil_iff.2 fun p hp => by
    simpa using h p (List.mem_append_right _ hp)
  unfold field
  rw [List.filter_append, List.filter_cons, ha, hb]
  simp

theorem field_lacks {fs : Obj} {k : String} (h : ∀ p ∈ fs, p.1 ≠ k) : field fs k = some none := by
  have ha : fs.filter (fun p => p.1 == k) = [] := List.filter_eq_nil_iff.2 fun p hp => by simpa using h p hp
  unfold field
  rw [ha]

theorem optional_lacks {α : Type} (dec : Json → Option α) {fs : Obj} {k : String} (h : Lacks fs k) : ∃ o, field fs k = some o ∧ optional dec o = some none := by
  rcases h with h | h
  · exact ⟨_, field_lacks h, rfl⟩
  · exact ⟨_, field_has h, rfl⟩

theorem decF64_number {N : Numbers} {j : Json} {f : F64} (h : IsNumber N j f) : decF64 N j = some f := by
  rcases h with ⟨_, rfl, rfl⟩ | ⟨_, rfl, rfl⟩ <;> rfl

theorem decProbabilistic_has {N : Numbers} {ps : Obj} {x : Json} {r : F64} (h : Has ps "samplingRate" x) (hx : IsNumber N x r) :
    decProbabilistic N (.obj ps) = some r := by
  simp [decProbabilistic, fields, field_has h, decF64_number hx]

theorem decOperation_written {N : Numbers} {j : Json} {op : Str × F64} (h : WrittenOp N j op) : decOperation N j = some op := by
  obtain ⟨fs, rfl, h1, ps, x, h2, h3, h4⟩ := h
  simp [decOperation, fields, field_has h1, field_has h2, decString, decProbabilistic_has h3 h4]

theorem decOperations_written {N : Numbers} {xs : List Json} {ops : List (Str × F64)} (h : List.Forall₂ (WrittenOp N) xs ops) :
    decOperations N (.arr xs) = some ops := by
  unfold decOperations
  induction h with
  | nil => rfl
  | cons h _ ih => simp only [List.mapM_cons, decOperation_written h, ih]; rfl

theorem fields_head {fs : Obj} {n : String} {o : Option Json} (h : field fs n = some o) (names : List String) :
    fields (n :: names) (.obj fs) = (names.mapM (field fs)).map (o :: ·) := by
  simp only [fields, List.mapM_cons, h]
  cases names.mapM (field fs) <;> rfl

theorem fields4 {fs : Obj} {n1 n2 n3 n4 : String} {o1 o2 o3 o4 : Option Json} (h1 : field fs n1 = some o1) (h2 : field fs n2 = some o2)
    (h3 : field fs n3 = some o3) (h4 : field fs n4 = some o4) : fields [n1, n2, n3, n4] (.obj fs) = some [o1, o2, o3, o4] := by
  unfold fields
  simp only [List.mapM_cons, List.mapM_nil, h1, h2, h3, h4]
  rfl

theorem fields4_inv {fs : Obj} {n1 n2 n3 n4 : String} {l : List (Option Json)} (h : fields [n1, n2, n3, n4] (.obj fs) = some l) :
    ∃ o1 o2 o3 o4, field fs n1 = some o1 ∧ field fs n2 = some o2 ∧ field fs n3 = some o3 ∧ field fs n4 = some o4 ∧ l = [o1, o2, o3, o4] := by
  simp only [fields, List.mapM_cons, List.mapM_nil] at h
  cases h1 : field fs n1 with
  | none => rw [h1] at h; cases h
  | some o1 =>
    cases h2 : field fs n2 with
    | none => rw [h1, h2] at h; cases h
    | some o2 =>
      cases h3 : field fs n3 with
      | none => rw [h1, h2, h3] at h; cases h
      | some o3 =>
        cases h4 : field fs n4 with
        | none => rw [h1, h2, h3, h4] at h; cases h
        | some o4 =>
          rw [h1, h2, h3, h4] at h
          exact ⟨o1, o2, o3, o4, rfl, rfl, rfl, rfl, (Option.some.inj h).symm⟩

/-- What is read when the entries are there. -/
theorem decResponse_of {N : Numbers} {fs : Obj} {t : Json} {o1 o2 o3 : Option Json} {p : Option F64} {r : Option Int} {o : Option PerOp}
    (ht : Has fs "strategyType" t) (h1 : field fs "probabilisticSampling" = some o1) (h2 : field fs "rateLimitingSampling" = some o2)
    (h3 : field fs "operationSampling" = some o3) (dt : decType t = some ()) (d1 : optional (decProbabilistic N) o1 = some p)
    (d2 : optional decRateLimiting o2 = some r) (d3 : optional (decPerOperation N) o3 = some o) : decResponse N (.obj fs) = some ⟨o, r, p⟩ := by
  unfold decResponse
  rw [fields4 (field_has ht) h1 h2 h3]
  show ((decType t).bind fun _ => (optional (decProbabilistic N) o1).bind fun p => (optional decRateLimiting o2).bind fun r =>
    (optional (decPerOperation N) o3).bind fun o => some (⟨o, r, p⟩ : Response)) = _
  rw [dt, d1, d2, d3]
  rfl

/-- Without a type that is known nothing is read. -/
theorem decResponse_type {N : Numbers} {fs : Obj} {t : Option Json} (h : field fs "strategyType" = some t) (ht : t.bind decType = none) :
    decResponse N (.obj fs) = none := by
  unfold decResponse
  rw [fields_head h]
  cases List.mapM (field fs) ["probabilisticSampling", "rateLimitingSampling", "operationSampling"] with
  | none => rfl
  | some l =>
    rcases l with _ | ⟨a, _ | ⟨b, _ | ⟨c, _ | ⟨d, l⟩⟩⟩⟩
    · rfl
    · rfl
    · rfl
    · show ((t.bind decType).bind fun _ => _) = none
      rw [ht]
      rfl
    · rfl

theorem decPerOperation_of {N : Numbers} {ps : Obj} {x l u : Json} {xs : List Json} {d lf uf : F64} {ops : List (Str × F64)}
    (h4 : Has ps "defaultSamplingProbability" x) (h5 : IsNumber N x d)
    (h6 : Has ps "defaultLowerBoundTracesPerSecond" l) (h7 : IsNumber N l lf) (h8 : Has ps "defaultUpperBoundTracesPerSecond" u) (h9 : IsNumber N u uf)
    (h10 : Has ps "perOperationStrategies" (.arr xs)) (h11 : List.Forall₂ (WrittenOp N) xs ops) : decPerOperation N (.obj ps) = some ⟨d, ops⟩ := by
  unfold decPerOperation
  rw [fields4 (field_has h4) (field_has h6) (field_has h10) (field_has h8)]
  show ((decF64 N x).bind fun d => (decF64 N l).bind fun _ => (decOperations N (.arr xs)).bind fun o => (decF64 N u).bind fun _ => some (⟨d, o⟩ : PerOp)) = _
  rw [decF64_number h5, decF64_number h7, decF64_number h9, decOperations_written h11]
  rfl

/-! ## C121 -/

/-- C121. An answer that asks for a probability or for probabilities per operation is understood, whatever the order of its entries, unknown entries and white
space: the sampler follows it from then on. Missing: answers that ask for a rate limit, `rate_limit_refused_violated`. -/
theorem answer_understood_partial (N : Numbers) (rf : Str → BitVec 64) {body : Str} {j : Json} {a : Answer} (hp : parse rf body = some j) (hw : Written N j a)
    (hr : ∀ n, a ≠ .rateLimiting n) (size : Rat) (now : Nat) (old : Option Strategy) :
    ∃ s, fetched size now old (answerOf N rf (some (200, body))) = some s ∧ Follows size now a s := by
  obtain ⟨fs, rfl, ht, hf⟩ := hw
  have hans : answerOf N rf (some (200, body)) = decResponse N (.obj fs) := by simp [answerOf, hp]
  rw [hans]
  cases a with
  | probabilistic r =>
    obtain ⟨⟨ps, x, h1, h2, h3⟩, h4, h5⟩ := hf
    obtain ⟨o4, e4, d4⟩ := optional_lacks decRateLimiting h4
    obtain ⟨o5, e5, d5⟩ := optional_lacks (decPerOperation N) h5
    have hd : decResponse N (.obj fs) = some ⟨none, none, some r⟩ :=
      decResponse_of ht (field_has h1) e4 e5 (show decType (.str "PROBABILISTIC".toList) = some () by decide) (by rw [optional, decProbabilistic_has h2 h3]; rfl; nofun) d4 d5
    rw [hd]
    refine ⟨.probabilistic r, ?_, rfl⟩
    cases old with
    | none => rfl
    | some s => cases s <;> rfl
  | rateLimiting n => exact absurd rfl (hr n)
  | perOperation d ops =>
    obtain ⟨h1, h2, ps, x, l, lf, u, uf, xs, h3, h4, h5, h6, h7, h8, h9, h10, h11⟩ := hf
    obtain ⟨o2, e2, d2⟩ := optional_lacks decRateLimiting h2
    have hp1 : ∃ o p, field fs "probabilisticSampling" = some o ∧ optional (decProbabilistic N) o = some p := by
      rcases h1 with h1 | ⟨r, qs, y, g1, g2, g3⟩
      · obtain ⟨o, e, d⟩ := optional_lacks (decProbabilistic N) h1
        exact ⟨o, none, e, d⟩
      · exact ⟨_, some r, field_has g1, by simp [optional, decProbabilistic_has g2 g3]⟩
    obtain ⟨o1, p, e1, d1⟩ := hp1
    have hd : decResponse N (.obj fs) = some ⟨some ⟨d, ops⟩, none, p⟩ :=
      decResponse_of ht e1 e2 (field_has h3) (show decType (.str "PROBABILISTIC".toList) = some () by decide) d1 d2 (by rw [optional, decPerOperation_of h4 h5 h6 h7 h8 h9 h10 h11]; rfl; nofun)
    rw [hd]
    refine ⟨initPerOp ⟨d, ops⟩, ?_, _, rfl, fun name => ?_⟩
    · cases old with
      | none => rfl
      | some s => cases s <;> rfl
    · rw [Assoc.get_insertAll]
      cases Assoc.last ops name <;> rfl

/-- C121, violated. An answer that asks for a rate limit is never understood: the name that `sampling.proto` has for this strategy is refused, and the sampler
goes on as before. -/
theorem rate_limit_refused_violated (N : Numbers) (rf : Str → BitVec 64) {body : Str} {j : Json} {n : Int} (hp : parse rf body = some j)
    (hw : Written N j (.rateLimiting n)) (size : Rat) (now : Nat) (old : Option Strategy) :
    answerOf N rf (some (200, body)) = none ∧ fetched size now old (answerOf N rf (some (200, body))) = old := by
  obtain ⟨fs, rfl, ht, hf⟩ := hw
  have hans : answerOf N rf (some (200, body)) = none := by
    have h1 : answerOf N rf (some (200, body)) = decResponse N (.obj fs) := by simp [answerOf, hp]
    rw [h1]
    exact decResponse_type (field_has ht) (show decType (.str "RATE_LIMITING".toList) = none by decide)
  exact ⟨hans, by rw [hans]; rfl⟩

/-- C121. It is understood with the name the library itself has for the strategy, which is not the one of `sampling.proto`. -/
theorem rate_limit_understood_partial (N : Numbers) (rf : Str → BitVec 64) {body : Str} {fs : Obj} {n : Int} (hp : parse rf body = some (.obj fs))
    (ht : Has fs "strategyType" (.str "RATELIMITING".toList)) (hf : WrittenFields N fs (.rateLimiting n)) (size : Rat) (now : Nat) :
    ∃ s, fetched size now none (answerOf N rf (some (200, body))) = some s ∧ Follows size now (.rateLimiting n) s := by
  have hans : answerOf N rf (some (200, body)) = decResponse N (.obj fs) := by simp [answerOf, hp]
  rw [hans]
  obtain ⟨h1, ⟨ps, h2, h3⟩, h4, hlo, hhi⟩ := hf
  obtain ⟨o1, e1, d1⟩ := optional_lacks (decProbabilistic N) h1
  obtain ⟨o4, e4, d4⟩ := optional_lacks (decPerOperation N) h4
  have hr : decRateLimiting (.obj ps) = some n := by
    unfold decRateLimiting
    rw [fields_head (field_has h3)]
    show decI32 (.int n) = some n
    rw [decI32, if_pos ⟨hlo, hhi⟩]
  have hd : decResponse N (.obj fs) = some ⟨none, some n, none⟩ :=
    decResponse_of ht e1 (field_has h2) e4 (by decide) d1 (by rw [optional, hr]; rfl; nofun) d4
  rw [hd]
  exact ⟨_, rfl, rfl⟩

/-- C121, violated. Entries with a default value may be left out in the JSON form of protobuf, but an answer without the type, or with strategies per operation but
without one of the bounds, is refused. -/
theorem left_out_refused_violated (N : Numbers) (rf : Str → BitVec 64) {body : Str} {fs : Obj} (hp : parse rf body = some (.obj fs))
    (h : (∀ p ∈ fs, p.1 ≠ "strategyType") ∨ ∃ ps, Has fs "operationSampling" (.obj ps) ∧
      ((∀ p ∈ ps, p.1 ≠ "defaultUpperBoundTracesPerSecond") ∨ ∀ p ∈ ps, p.1 ≠ "defaultLowerBoundTracesPerSecond")) :
    answerOf N rf (some (200, body)) = none := by
  have hans : answerOf N rf (some (200, body)) = decResponse N (.obj fs) := by simp [answerOf, hp]
  rw [hans]
  rcases h with h | ⟨ps, h1, h2⟩
  · exact decResponse_type (field_lacks h) rfl
  · have hpo : decPerOperation N (.obj ps) = none := by
      unfold decPerOperation
      cases hfs : fields ["defaultSamplingProbability", "defaultLowerBoundTracesPerSecond", "perOperationStrategies", "defaultUpperBoundTracesPerSecond"] (.obj ps) with
      | none => rfl
      | some l =>
        obtain ⟨o1, o2, o3, o4, f1, f2, f3, f4, rfl⟩ := fields4_inv hfs
        show ((o1.bind (decF64 N)).bind fun d => (o2.bind (decF64 N)).bind fun _ => (o3.bind (decOperations N)).bind fun o =>
          (o4.bind (decF64 N)).bind fun _ => some (⟨d, o⟩ : PerOp)) = none
        rcases h2 with h2 | h2
        · rw [field_lacks h2] at f4
          cases f4
          simp
        · rw [field_lacks h2] at f2
          cases f2
          simp
    unfold decResponse
    cases hfs : fields ["strategyType", "probabilisticSampling", "rateLimitingSampling", "operationSampling"] (.obj fs) with
    | none => rfl
    | some l =>
      obtain ⟨o1, o2, o3, o4, f1, f2, f3, f4, rfl⟩ := fields4_inv hfs
      rw [field_has h1] at f4
      cases f4
      show ((o1.bind decType).bind fun _ => (optional (decProbabilistic N) o2).bind fun p => (optional decRateLimiting o3).bind fun r =>
        ((decPerOperation N (.obj ps)).map some).bind fun o => some (⟨o, r, p⟩ : Response)) = none
      rw [hpo]
      simp

/-- C121. A response that cannot be read, or with another status than 200, or none at all, changes nothing. -/
theorem unreadable_keeps (N : Numbers) (rf : Str → BitVec 64) (resp : Option (Nat × Str))
    (h : ∀ status body, resp = some (status, body) → status ≠ 200 ∨ parse rf body = none) (size : Rat) (now : Nat) (old : Option Strategy) :
    fetched size now old (answerOf N rf resp) = old := by
  have : answerOf N rf resp = none := by
    cases resp with
    | none => rfl
    | some p =>
      obtain ⟨status, body⟩ := p
      rcases h status body rfl with h | h
      · simp [answerOf, h]
      · simp [answerOf, h]
  rw [this]; rfl

/-- Numbers for the examples: whole ones. -/
def wholeNumbers : Numbers := ⟨fun _ => .fin 0, fun i => .fin i⟩

/-- A document that asks for everything to be sampled, with an unknown entry in between. -/
def allDoc : Json := .obj [("probabilisticSampling", .obj [("samplingRate", .int 1)]), ("note", .arr [.null]), ("strategyType", .str "PROBABILISTIC".toList)]

/-- A document after `sampling.proto` that asks for two traces per second. -/
def twoDoc : Json := .obj [("strategyType", .str "RATE_LIMITING".toList), ("rateLimitingSampling", .obj [("maxTracesPerSecond", .int 2)])]

theorem doc_parse (rf : Str → BitVec 64) (j : Json) (h : floats j = []) : parse rf (write pretty (fun _ => []) 0 j) = some j := by
  rw [text_read_back (.inr rfl) _ rf _ (by rw [h]; simp), reparse_exact _ (by rw [h]; simp)]

/-- The hypotheses of `answer_understood_partial` and of `rate_limit_refused_violated` are met by texts with these documents. -/
example (rf : Str → BitVec 64) : (∃ body, parse rf body = some allDoc) ∧ Written wholeNumbers allDoc (.probabilistic (.fin 1)) ∧
    (∃ body, parse rf body = some twoDoc) ∧ Written wholeNumbers twoDoc (.rateLimiting 2) := by
  refine ⟨⟨_, doc_parse rf _ (by simp [allDoc, floats, floatsList, floatsObj])⟩, ⟨_, rfl, ⟨[("probabilisticSampling", .obj [("samplingRate", .int 1)]), ("note", .arr [.null])], [], rfl, by decide⟩, ⟨_, _, ⟨[], _, rfl, by decide⟩, ⟨[], [], rfl, by simp⟩,
    .inl ⟨1, rfl, rfl⟩⟩, .inl (by simp), .inl (by simp)⟩, ⟨_, doc_parse rf _ (by simp [twoDoc, floats, floatsList, floatsObj])⟩, ⟨_, rfl, ⟨[], _, rfl, by decide⟩,
    .inl (by simp), ⟨_, ⟨[_], [], rfl, by decide⟩, ⟨[], [], rfl, by simp⟩⟩, .inl (by simp), by decide, by decide⟩⟩

/-- What is read of a text, for the examples. -/
def readExample {α : Type} (f : Response → α) (t : String) : Option α := (answerOf wholeNumbers (fun _ => 0) (some (200, t.toList))).map f

/-- Texts and what is read of them: the answer of the test in sampler.rs, one after `sampling.proto` that is refused, the other spelling, the forms for arrays and for
enums, and an entry given twice. -/
example : ["{ \"strategyType\": \"PROBABILISTIC\",\n \"probabilisticSampling\": { \"samplingRate\": 1 } }",
      "{\"strategyType\":\"RATE_LIMITING\",\"rateLimitingSampling\":{\"maxTracesPerSecond\":2}}",
      "{\"strategyType\":\"RATELIMITING\",\"rateLimitingSampling\":{\"maxTracesPerSecond\":2}}",
      "[{\"PROBABILISTIC\":null},[1],null,null]",
      "{\"strategyType\":\"PROBABILISTIC\",\"strategyType\":\"PROBABILISTIC\"}"].map (readExample fun r => (r.probabilistic, r.rateLimiting)) =
    [some (some (.fin 1), none), none, some (none, some 2), some (some (.fin 1), none), none] := by decide +kernel

/-- Strategies per operation, with the upper bound and without it. -/
example : ["{\"strategyType\":\"PROBABILISTIC\",\"operationSampling\":{\"defaultSamplingProbability\":0,\"defaultLowerBoundTracesPerSecond\":0,\"perOperationStrategies\":[{\"operation\":\"a\",\"probabilisticSampling\":{\"samplingRate\":1}}],\"defaultUpperBoundTracesPerSecond\":0}}",
      "{\"strategyType\":\"PROBABILISTIC\",\"operationSampling\":{\"defaultSamplingProbability\":0,\"defaultLowerBoundTracesPerSecond\":0,\"perOperationStrategies\":[]}}"].map
      (readExample fun r => r.operation.map fun o => o.ops) = [some (some [("a".toList, .fin 1)]), none] := by decide +kernel

end Otel.Sdk.JaegerAnswer
