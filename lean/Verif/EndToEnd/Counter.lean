import Verif.Metrics.ConcurrentProps
import Verif.Metrics.Produce
import Verif.Otlp.MetricsProps
import Verif.EndToEnd.Delivery
/-!
# From a counter to the collector (C92)

A counter of `u64` with delta temporality, recorded by any number of threads, collected by a reader, exported by the OTLP metric exporter. The parts are the models of
C38 (opentelemetry-sdk/src/metrics/internal/mod.rs, sum.rs), C45 (opentelemetry-sdk/src/metrics/pipeline.rs), C54 (opentelemetry-proto/src/transform/metrics.rs) and
C86 (opentelemetry-otlp/src/exporter); this file puts them together. Any other instruments may be collected along with the counter. The values of attributes are of
a type whose equality is that of the code (no floats).
-/

set_option linter.unusedSectionVars false

namespace Otel.EndToEnd
open Otel.Otlp Otel.Metrics
open Common (Val Scope)

variable {K V Y : Type}

/-- A data point of any kind. -/
inductive Pt (K : Type) where
  | num (p : NumPoint K)
  | hist (p : HistPoint K)
  | expo (p : ExpoPoint K)

def Pt.num? : Pt K → Option (NumPoint K)
  | .num p => some p
  | _ => none

def Pt.hist? : Pt K → Option (HistPoint K)
  | .hist p => some p
  | _ => none

/-- The aggregation sets the zero threshold to `0.0`. opentelemetry-sdk/src/metrics/internal/exponential_histogram.rs:442, 502 -/
def Pt.expo? : Pt K → Option (ExpoPoint K)
  | .expo p => some { p with zeroThreshold := 0 }
  | _ => none

/-- The data of a metric as the exporter sees them: the types of C45 and of C54 for `MetricData`. opentelemetry-sdk/src/metrics/data/mod.rs:76-280 -/
def toMData : MetricData (Pt K) → MData K
  | .gauge ps s t => .gauge (ps.filterMap Pt.num?) (s.map Int.ofNat) t
  | .sum ps s t temp m => .sum (ps.filterMap Pt.num?) s t temp m
  | .histogram ps s t temp => .histogram (ps.filterMap Pt.hist?) s t temp
  | .exponentialHistogram ps s t temp => .expo (ps.filterMap Pt.expo?) s t temp

/-- `Resource` -/
structure ResVal (K : Type) where
  attrs : List (K × Val)
  schemaUrl : Option String

/-- What a reader hands to its exporter. -/
abbrev Batch (K : Type) := ResourceMetrics (ResVal K) (Scope K) String (Pt K)

/-- The message of a collection. opentelemetry-proto/src/transform/metrics.rs:113-162 -/
def metricsMessage (cast : Cast) (rm : Batch K) : PRequest K (PMetric K) :=
  metricsRequest cast rm.resource.attrs rm.resource.schemaUrl
    (rm.scopeMetrics.map fun s => ⟨s.scope, s.metrics.map fun m => ⟨m.name, m.description, m.unit, toMData m.data.data⟩⟩)

/-- The counter: its scope, name, description and unit. -/
structure CounterId (K : Type) where
  scope : Scope K
  name : String
  description : String
  unit : String

/-- The counter with what its aggregation reports. opentelemetry-sdk/src/metrics/internal/sum.rs:70-117 -/
def counterInst (val : V → Val) (ci : CounterId K) (start now : Nat) (pts : List (Attrs K V × BitVec 64)) : InstSync String (Pt K) :=
  ⟨ci.name, ci.description, ci.unit, ⟨.u64, .sum true, .delta, start, now, pts.map fun p => .num ⟨p.1.map fun kv => (kv.1, val kv.2), .u64 p.2, []⟩⟩⟩

/-- What else there is in a collection: other scopes, other instruments, the times, and what the buffer held before. -/
structure Around (K : Type) where
  before : List (Scope K × List (InstSync String (Pt K)))
  left : List (InstSync String (Pt K))
  start : Nat
  now : Nat
  right : List (InstSync String (Pt K))
  after : List (Scope K × List (InstSync String (Pt K)))
  buffer : Batch K

/-- The name of the counter is not the name of another instrument. -/
def Around.Distinct (o : Around K) (ci : CounterId K) : Prop :=
  (∀ s ∈ o.before ++ o.after, ∀ i ∈ s.2, i.name ≠ ci.name) ∧ ∀ i ∈ o.left ++ o.right, i.name ≠ ci.name

/-- The collection. -/
def collected (val : V → Val) (dflt : Scope K) (res : ResVal K) (ci : CounterId K) (o : Around K) (pts : List (Attrs K V × BitVec 64)) : Batch K :=
  produce dflt res (o.before ++ (ci.scope, o.left ++ counterInst val ci o.start o.now pts :: o.right) :: o.after) o.buffer

variable [LinearOrder K] [DecidableEq V]

/-- The store of the counter. -/
abbrev Store (K V : Type) := Conc.State K V (BitVec 64) (BitVec 64)

/-- Threads, store, reader and exporter together. A reader exports a collection unless it is empty
(opentelemetry-sdk/src/metrics/periodic_reader.rs:381-425). -/
inductive Counted (cc : Conc.Cfg K V (BitVec 64) (BitVec 64)) (val : V → Val) (dflt : Scope K) (res : ResVal K) (ci : CounterId K)
    (c : Exporter.Cfg Unit (Batch K) (PRequest K (PMetric K)) Y) : Store K V → Exporter.St Unit → List (Sending Y) → Prop
  | init : Counted cc val dflt res ci c (.init cc) ⟨true, ()⟩ []
  /-- a step of a thread, or of the reader before the collection is complete -/
  | work {s s' e log} (a : Conc.Action K V (BitVec 64)) : Counted cc val dflt res ci c s e log → Conc.step cc s a = some s' → s'.done = s.done →
      Counted cc val dflt res ci c s' e log
  /-- the collection is complete, and there is nothing in it -/
  | nothing {s s' e log} (a : Conc.Action K V (BitVec 64)) (r : Conc.Collection K V (BitVec 64) (BitVec 64)) (o : Around K) :
      Counted cc val dflt res ci c s e log → Conc.step cc s a = some s' → s'.done = s.done ++ [r] → o.Distinct ci →
      (collected val dflt res ci o r.points).scopeMetrics = [] → Counted cc val dflt res ci c s' e log
  /-- the collection is complete and is exported -/
  | export {s s' e log} (a : Conc.Action K V (BitVec 64)) (r : Conc.Collection K V (BitVec 64) (BitVec 64)) (o : Around K) (w : Exporter.World) :
      Counted cc val dflt res ci c s e log → Conc.step cc s a = some s' → s'.done = s.done ++ [r] → o.Distinct ci →
      (collected val dflt res ci o r.points).scopeMetrics ≠ [] →
      Counted cc val dflt res ci c s' e (log ++ [⟨w, (Exporter.doExport c e (collected val dflt res ci o r.points) w).1, (Exporter.doExport c e (collected val dflt res ci o r.points) w).2⟩])
  /-- the exporter is shut down -/
  | shut {s e log} : Counted cc val dflt res ci c s e log → Counted cc val dflt res ci c s (Exporter.shutdown c e).2 log

/-! ## Specification -/

/-- The points of sums in a request whose metric has a name. -/
def pointsNamed (name : String) (q : PRequest K (PMetric K)) : List (PNumPoint K) :=
  ((q.groups.flatMap (·.items)).filter fun m => m.name = name).flatMap fun m => match m.data with
    | .sum ps _ _ => ps
    | _ => []

/-- The points of the counter that the collector has received. -/
def counterPoints (decode : Y → Option (PRequest K (PMetric K))) (name : String) (qs : List (Exporter.Request Y)) : List (PNumPoint K) :=
  qs.flatMap fun q => match decode q.body with
    | some r => pointsNamed name r
    | none => []

/-- The integer in a point. -/
def intOf (p : PNumPoint K) : Int := match p.value.value with
  | .int i => i
  | .double _ => 0

/-- Everything recorded so far. -/
def recorded (s : Store K V) : Nat := (s.applied.map fun e => e.2.1.toNat).sum

/-- What is in the store: recorded and not yet collected. See `Conc.store_content`. -/
def inStore (s : Store K V) : Nat := (s.hist.map fun e => e.1.toNat).sum + (s.noHist.map fun e => e.2.toNat).sum

/-- The exporter's configuration: OTLP metrics, the message of C54, any wire format from which the message of a collection can be read. -/
structure MetricCfg (cast : Cast) (decode : Y → Option (PRequest K (PMetric K))) (c : Exporter.Cfg Unit (Batch K) (PRequest K (PMetric K)) Y) : Prop where
  signal : c.signal = .metrics
  message : c.message = fun _ => metricsMessage cast
  wire : ∀ b y, c.encode (metricsMessage cast b) = some y → decode y = some (metricsMessage cast b)

/-! ## Lemmas: the report over the natural numbers -/

omit [LinearOrder K] in
theorem foldl_toNat (l : List (BitVec 64)) (b : BitVec 64) (h : b.toNat + (l.map BitVec.toNat).sum < 2 ^ 64) :
    (l.foldl (· + ·) b).toNat = b.toNat + (l.map BitVec.toNat).sum := by
  induction l generalizing b with
  | nil => simp
  | cons x l ih =>
    simp only [List.map_cons, List.sum_cons] at h
    have e : (b + x).toNat = b.toNat + x.toNat := by rw [BitVec.toNat_add]; exact Nat.mod_eq_of_lt (by omega)
    rw [List.foldl_cons, ih _ (by rw [e]; omega), e]
    simp only [List.map_cons, List.sum_cons]; omega

/-- The measurements as numbers. -/
def natHist (h : Hist K V (BitVec 64)) : Hist K V Nat := h.map fun e => (e.1.toNat, e.2)

theorem setsOf_natHist (c : Attrs K V → Attrs K V) (h : Hist K V (BitVec 64)) : setsOf c (natHist h) = setsOf c h := by
  induction h with
  | nil => rfl
  | cons e h ih => simp only [natHist, List.map_cons, setsOf] at ih ⊢; rw [ih]

theorem route_natHist (c : Attrs K V → Attrs K V) (limit : Nat) (ov : Attrs K V) (h : Hist K V (BitVec 64)) (a : Attrs K V) :
    route c limit ov (natHist h) a = route c limit ov h a := by
  rw [route, route, admitted, admitted, setsOf_natHist]

theorem valuesOf_natHist (c : Attrs K V → Attrs K V) (limit : Nat) (ov : Attrs K V) (h : Hist K V (BitVec 64)) (s : Attrs K V) :
    valuesOf c limit ov (natHist h) s = (valuesOf c limit ov h s).map BitVec.toNat := by
  simp only [valuesOf, route_natHist]
  simp only [natHist, List.filter_map, List.map_map]
  rfl

theorem sum_sublist {a b : List Nat} (h : List.Sublist a b) : a.sum ≤ b.sum := by
  induction h with
  | slnil => exact Nat.le_refl _
  | cons x _ ih => rw [List.sum_cons]; omega
  | cons_cons x _ ih => rw [List.sum_cons, List.sum_cons]; omega

theorem values_sum_le (c : Attrs K V → Attrs K V) (limit : Nat) (ov : Attrs K V) (h : Hist K V (BitVec 64)) (s : Attrs K V) :
    ((valuesOf c limit ov h s).map BitVec.toNat).sum ≤ (h.map fun e => e.1.toNat).sum := by
  have : h.map (fun e => e.1.toNat) = (h.map Prod.fst).map BitVec.toNat := by rw [List.map_map]; rfl
  rw [this]
  exact sum_sublist ((List.filter_sublist.map _).map _)

/-- A report of wrapping sums is one of sums, if nothing wraps. -/
theorem report_toNat {c : Attrs K V → Attrs K V} {limit : Nat} {ov : Attrs K V} {h : Hist K V (BitVec 64)} {pts : List (Attrs K V × BitVec 64)}
    (hr : Report c (increment (BitVec 64)) limit ov h pts) (hs : (h.map fun e => e.1.toNat).sum < 2 ^ 64) :
    Report c (increment Nat) limit ov (natHist h) (pts.map fun p => (p.1, p.2.toNat)) := by
  refine ⟨by rw [List.map_map]; exact hr.distinct, fun p hp => ?_, fun e he => ?_⟩
  · obtain ⟨q, hq, rfl⟩ := List.mem_map.1 hp
    obtain ⟨h1, h2⟩ := hr.values q hq
    have hle := values_sum_le c limit ov h (c q.1)
    have hf := foldl_toNat (valuesOf c limit ov h (c q.1)) 0 (by simp only [BitVec.toNat_zero, BitVec.ofNat_eq_ofNat]; simpa using by omega)
    refine ⟨by rw [valuesOf_natHist]; simpa using h1, ?_⟩
    rw [valuesOf_natHist]
    show q.2.toNat = List.foldl (· + ·) 0 _
    rw [h2, ← List.sum_eq_foldl]
    refine (hf.trans ?_)
    simp
  · obtain ⟨e', he', rfl⟩ := List.mem_map.1 he
    obtain ⟨p, hp, hpe⟩ := hr.complete e' he'
    exact ⟨_, List.mem_map_of_mem hp, by rw [route_natHist]; exact hpe⟩

/-! ## Lemmas: the store -/

theorem counted_reachable {cc : Conc.Cfg K V (BitVec 64) (BitVec 64)} {val : V → Val} {dflt : Scope K} {res : ResVal K} {ci : CounterId K}
    {c : Exporter.Cfg Unit (Batch K) (PRequest K (PMetric K)) Y} {s : Store K V} {e : Exporter.St Unit} {log : List (Sending Y)}
    (h : Counted cc val dflt res ci c s e log) : Conc.Reachable cc s := by
  induction h with
  | init => exact .init
  | work a _ hs _ ih => exact .step ih a hs
  | nothing a r o _ hs _ _ _ ih => exact .step ih a hs
  | «export» a r o w _ hs _ _ _ ih => exact .step ih a hs
  | shut _ ih => exact ih

/-- The sum of the points of a collection. -/
def collectionTotal (r : Conc.Collection K V (BitVec 64) (BitVec 64)) : Nat := (r.points.map fun p => p.2.toNat).sum

/-- What the points of the collections add up to, and that each fits into 63 bits. -/
theorem collections_total {cc : Conc.Cfg K V (BitVec 64) (BitVec 64)} (hagg : cc.agg = increment (BitVec 64)) (hd : cc.delta = true) {s : Store K V}
    (h : Conc.Reachable cc s) (hidle : s.coll = .idle) (hbound : recorded s < 2 ^ 63) :
    (s.done.map collectionTotal).sum + inStore s = recorded s ∧ ∀ r ∈ s.done, ∀ p ∈ r.points, p.2.toNat < 2 ^ 63 := by
  obtain ⟨h1, h2, h3⟩ := Conc.delta_exactly_once hd h hidle
  have hrec : recorded s = ((s.done.flatMap (·.period)).map fun e => e.1.toNat).sum + (s.hist.map fun e => e.1.toNat).sum
      + (((s.done.flatMap fun r => r.noVals.getD []).map fun e => e.2.toNat).sum + (s.noHist.map fun e => e.2.toNat).sum) := by
    have hs := Conc.sum_split (s.applied.map fun e => (e.1, e.2.1.toNat, e.2.2))
    rw [List.map_map, List.filter_map, List.filter_map, List.map_map, List.map_map] at hs
    have k1 := congrArg (fun l => (l.map fun e => e.1.toNat).sum) h1
    have k2 := congrArg (fun l => (l.map fun e => e.2.toNat).sum) h2
    simp only [List.map_map, List.map_append, List.sum_append] at k1 k2
    rw [← k1, ← k2]
    exact hs
  have key : ∀ ds : List (Conc.Collection K V (BitVec 64) (BitVec 64)),
      (∀ r ∈ ds, ∃ pts, r.points = (match r.noVals with
            | none => []
            | some vs => [([], (vs.map Prod.snd).foldl cc.agg.update cc.agg.create)]) ++ pts
          ∧ Report (sortAndDedup cc.srt) cc.agg cc.limit [cc.overflow] r.period pts) →
      ((ds.flatMap (·.period)).map fun e => e.1.toNat).sum + ((ds.flatMap fun r => r.noVals.getD []).map fun e => e.2.toNat).sum < 2 ^ 63 →
      (ds.map collectionTotal).sum = ((ds.flatMap (·.period)).map fun e => e.1.toNat).sum + ((ds.flatMap fun r => r.noVals.getD []).map fun e => e.2.toNat).sum
        ∧ ∀ r ∈ ds, ∀ p ∈ r.points, p.2.toNat < 2 ^ 63 := by
    intro ds
    induction ds with
    | nil => intro _ _; simp
    | cons r rs ih =>
      intro h3 hb
      simp only [List.flatMap_cons, List.map_append, List.sum_append] at hb
      obtain ⟨i1, i2⟩ := ih (fun q hq => h3 q (List.mem_cons_of_mem _ hq)) (by omega)
      obtain ⟨pts, e1, e2⟩ := h3 r List.mem_cons_self
      rw [hagg] at e1 e2
      have hnat := report_toNat e2 (by omega)
      have htot := Conc.report_total cc.srt cc.limit cc.overflow _ _ hnat
      rw [natHist, List.map_map, List.map_map] at htot
      have hno : ∀ vs : List (Nat × BitVec 64), r.noVals = some vs → ((vs.map Prod.snd).foldl (increment (BitVec 64)).update (increment (BitVec 64)).create).toNat
          = (vs.map fun e => e.2.toNat).sum := by
        intro vs hvs
        rw [hvs] at hb
        simp only [Option.getD_some] at hb
        have hm : ((vs.map Prod.snd).map BitVec.toNat).sum = (vs.map fun e => e.2.toNat).sum := by rw [List.map_map]; rfl
        have := foldl_toNat (vs.map Prod.snd) 0 (by rw [hm]; simp; omega)
        rw [hm] at this
        refine Eq.trans this ?_
        simp
      have hr : collectionTotal r = (r.period.map fun e => e.1.toNat).sum + ((r.noVals.getD []).map fun e => e.2.toNat).sum := by
        rw [collectionTotal, e1, List.map_append, List.sum_append, Nat.add_comm]
        congr 1
        cases hv : r.noVals with
        | none => simp
        | some vs => simp only [List.map_cons, List.map_nil, List.sum_cons, List.sum_nil, Option.getD_some, hno vs hv]; rfl
      refine ⟨?_, fun q hq p hp => ?_⟩
      · simp only [List.flatMap_cons, List.map_append, List.sum_append, List.map_cons, List.sum_cons]
        rw [i1, hr]; omega
      · rcases List.mem_cons.1 hq with rfl | hq
        · have hle : p.2.toNat ≤ collectionTotal q := List.le_sum_of_mem (List.mem_map.2 ⟨p, hp, rfl⟩)
          omega
        · exact i2 q hq p hp
  rw [hrec] at hbound ⊢
  obtain ⟨g1, g2⟩ := key s.done (fun r hr => by
    obtain ⟨pts, e1, e2⟩ := h3 r hr
    exact ⟨pts, by rw [e1]; cases r.noVals <;> rfl, e2⟩) (by omega)
  refine ⟨?_, g2⟩
  rw [g1, inStore]; omega

/-! ## Lemmas: a request -/

/-- The points of the counter in the message of a collection are those of the collection. -/
theorem message_points (val : V → Val) (dflt : Scope K) (res : ResVal K) (ci : CounterId K) (o : Around K) (ho : o.Distinct ci) (cast : Cast)
    (pts : List (Attrs K V × BitVec 64)) :
    pointsNamed ci.name (metricsMessage cast (collected val dflt res ci o pts))
      = pts.map fun p => sumPointOf o.start o.now ⟨p.1.map fun kv => (kv.1, val kv.2), .u64 p.2, []⟩ := by
  -- the metrics of an instrument whose name is another
  have hout : ∀ is : List (InstSync String (Pt K)), (∀ i ∈ is, i.name ≠ ci.name) → ∀ m ∈ is.filterMap Metrics.metricOf, m.name ≠ ci.name := by
    intro is his m hm
    obtain ⟨i, hi, him⟩ := List.mem_filterMap.1 hm
    unfold Metrics.metricOf at him
    split at him
    · cases him
    · injection him with him; subst him; exact his i hi
  -- the items of the groups of some scopes
  let conv : List (InstSync String (Pt K)) → List (PMetric K) := fun is =>
    (is.filterMap Metrics.metricOf).map fun m => Otlp.metricOf cast ⟨m.name, m.description, m.unit, toMData m.data.data⟩
  have hitems : ∀ ss : List (Scope K × List (InstSync String (Pt K))),
      ((metricsMessage cast ⟨res, ss.filterMap Metrics.scopeOf⟩).groups.flatMap (·.items)) = ss.flatMap fun s => conv s.2 := by
    intro ss
    induction ss with
    | nil => rfl
    | cons x ss ih =>
      simp only [metricsMessage, metricsRequest] at ih ⊢
      rw [List.filterMap_cons]
      by_cases hx : x.2.filterMap Metrics.metricOf = []
      · have e1 : Metrics.scopeOf x = none := by simp [Metrics.scopeOf, hx]
        rw [e1]
        simp only [List.flatMap_cons]
        rw [ih]
        simp [conv, hx]
      · have e1 : Metrics.scopeOf x = some ⟨x.1, x.2.filterMap Metrics.metricOf⟩ := by simp [Metrics.scopeOf, hx]
        rw [e1]
        simp only [List.map_cons, List.flatMap_cons]
        rw [ih]
        congr 1
        simp only [scopeMetricsOf, List.map_map]
        rfl
  have hnone : ∀ is : List (InstSync String (Pt K)), (∀ i ∈ is, i.name ≠ ci.name) → (conv is).filter (fun m => m.name = ci.name) = [] := by
    intro is his
    rw [List.filter_eq_nil_iff]
    intro m hm
    obtain ⟨m', hm', rfl⟩ := List.mem_map.1 hm
    have := hout is his m' hm'
    simp [Otlp.metricOf, this]
  have hnones : ∀ ss : List (Scope K × List (InstSync String (Pt K))), (∀ s ∈ ss, ∀ i ∈ s.2, i.name ≠ ci.name) →
      (ss.flatMap fun s => conv s.2).filter (fun m => m.name = ci.name) = [] := by
    intro ss hss
    induction ss with
    | nil => rfl
    | cons x ss ih =>
      rw [List.flatMap_cons, List.filter_append, hnone _ (hss x (by simp)), ih fun s hs => hss s (by simp [hs])]; rfl
  have hconv : ∀ a b : List (InstSync String (Pt K)), conv (a ++ b) = conv a ++ conv b := by intro a b; simp [conv]
  obtain ⟨ho1, ho2⟩ := ho
  rw [pointsNamed, collected, produce_exact, hitems, List.flatMap_append, List.flatMap_cons, List.filter_append, List.filter_append,
    hnones o.before fun s hs => ho1 s (by simp [hs]), hnones o.after fun s hs => ho1 s (by simp [hs]), List.nil_append, List.append_nil]
  have e2 : o.left ++ counterInst val ci o.start o.now pts :: o.right = o.left ++ ([counterInst val ci o.start o.now pts] ++ o.right) := rfl
  rw [e2, hconv, hconv, List.filter_append, List.filter_append, hnone o.left fun i hi => ho2 i (by simp [hi]), hnone o.right fun i hi => ho2 i (by simp [hi]),
    List.nil_append, List.append_nil]
  by_cases hp : pts = []
  · subst hp; rfl
  · have e3 : Metrics.metricOf (counterInst val ci o.start o.now pts) = some ⟨ci.name, ci.description, ci.unit, .u64,
        .sum (pts.map fun p => .num ⟨p.1.map fun kv => (kv.1, val kv.2), .u64 p.2, []⟩) o.start o.now .delta true⟩ := by
      simp [Metrics.metricOf, counterInst, hp]
    simp only [conv, List.filterMap_cons, e3, List.filterMap_nil, List.map_cons, List.map_nil, toMData, Otlp.metricOf, dataOf]
    simp [List.filterMap_map, Function.comp_def, Pt.num?]

/-- The points that a collection becomes. -/
def sentPoints (val : V → Val) (x : Conc.Collection K V (BitVec 64) (BitVec 64) × Around K) : List (PNumPoint K) :=
  x.1.points.map fun p => sumPointOf x.2.start x.2.now ⟨p.1.map fun kv => (kv.1, val kv.2), .u64 p.2, []⟩

/-- The collector receives the points of some collections, in order; of all of them, if every export succeeded. -/
theorem counted_points {cc : Conc.Cfg K V (BitVec 64) (BitVec 64)} {val : V → Val} {dflt : Scope K} {res : ResVal K} {ci : CounterId K} {cast : Cast}
    {decode : Y → Option (PRequest K (PMetric K))} {c : Exporter.Cfg Unit (Batch K) (PRequest K (PMetric K)) Y} (hc : MetricCfg cast decode c) {s : Store K V}
    {e : Exporter.St Unit} {log : List (Sending Y)} (h : Counted cc val dflt res ci c s e log) :
    ∃ bs : List (Conc.Collection K V (BitVec 64) (BitVec 64) × Around K), List.Sublist (bs.map Prod.fst) s.done ∧
      counterPoints decode ci.name (requests log) = bs.flatMap (sentPoints val) ∧ (Exporter.TellsStatus c → AllOk log → bs.map Prod.fst = s.done) := by
  induction h with
  | init => exact ⟨[], by simp [Conc.State.init], rfl, fun _ _ => rfl⟩
  | work a _ _ he ih => rw [he]; exact ih
  | shut _ ih => exact ih
  | nothing a r o _ _ he ho hn ih =>
    obtain ⟨bs, h1, h2, h3⟩ := ih
    have hempty : r.points = [] := by
      have := message_points val dflt res ci o ho cast r.points
      rw [pointsNamed, metricsMessage, metricsRequest, hn] at this
      simpa using this.symm
    refine ⟨bs ++ [(r, o)], ?_, ?_, fun ht ha => ?_⟩
    · rw [he, List.map_append]; exact h1.append (List.Sublist.refl _)
    · rw [h2, List.flatMap_append]; simp [sentPoints, hempty]
    · rw [he, List.map_append, h3 ht ha]; rfl
  | @«export» s s' e log a r o w _ _ he ho _ ih =>
    obtain ⟨bs, h1, h2, h3⟩ := ih
    generalize hb : collected val dflt res ci o r.points = b
    have hr : requests (log ++ [(⟨w, (Exporter.doExport c e b w).1, (Exporter.doExport c e b w).2⟩ : Sending Y)]) = requests log ++ (Exporter.doExport c e b w).2 := by
      rw [requests, List.flatMap_append]
      simp [requests]
    have hall : AllOk (log ++ [(⟨w, (Exporter.doExport c e b w).1, (Exporter.doExport c e b w).2⟩ : Sending Y)]) →
        AllOk log ∧ (Exporter.doExport c e b w).1 = .ok := fun ha =>
      ⟨fun x hx => ha x (by simp [hx]), ha ⟨w, _, (Exporter.doExport c e b w).2⟩ (by simp)⟩
    rcases Exporter.doExport_sent c e b w with hs | ⟨q, hs, henc, _⟩
    · refine ⟨bs, ?_, ?_, fun ht ha => ?_⟩
      · rw [he]; exact h1.trans (List.sublist_append_left _ _)
      · rw [hr, hs, List.append_nil]; exact h2
      · obtain ⟨_, q, hq, _⟩ := (Exporter.doExport_ok c ht e b w).1 (hall ha).2
        rw [hs] at hq
        cases hq
    · rw [hc.message] at henc
      refine ⟨bs ++ [(r, o)], ?_, ?_, fun ht ha => ?_⟩
      · rw [he, List.map_append]; exact h1.append (List.Sublist.refl _)
      · have hq : counterPoints decode ci.name [q] = sentPoints val (r, o) := by
          simp only [counterPoints, List.flatMap_cons, List.flatMap_nil, List.append_nil, hc.wire _ _ henc]
          rw [← hb]
          exact message_points val dflt res ci o ho cast r.points
        rw [hr, hs, counterPoints, List.flatMap_append, List.flatMap_append]
        congr 1
        rw [← counterPoints, hq]; simp
      · rw [he, List.map_append, h3 ht (hall ha).1]; rfl

/-- A number below 2^63 arrives as it is. -/
theorem intOf_sent {x : Int} {y : Int} {kvs : List (K × Val)} {w : BitVec 64} (h : w.toNat < 2 ^ 63) : intOf (sumPointOf x y ⟨kvs, .u64 w, []⟩) = (w.toNat : Int) := by
  have := number_exact_partial (n := .u64 w) h
  simp only [intOf, sumPointOf, this, Num.value]

theorem sent_total (val : V → Val) (bs : List (Conc.Collection K V (BitVec 64) (BitVec 64) × Around K)) (h : ∀ x ∈ bs, ∀ p ∈ x.1.points, p.2.toNat < 2 ^ 63) :
    ((bs.flatMap (sentPoints val)).map intOf).sum = (((bs.map Prod.fst).map collectionTotal).sum : Nat) := by
  induction bs with
  | nil => rfl
  | cons x bs ih =>
    rw [List.flatMap_cons, List.map_append, List.sum_append, ih fun y hy => h y (by simp [hy]), List.map_cons, List.map_cons, List.sum_cons, Nat.cast_add]
    congr 1
    have hx := h x (by simp)
    rw [sentPoints, collectionTotal, List.map_map]
    generalize x.1.points = ps at hx
    induction ps with
    | nil => rfl
    | cons p ps ih2 =>
      rw [List.map_cons, List.map_cons, List.sum_cons, List.sum_cons, Nat.cast_add, ih2 fun q hq => hx q (by simp [hq])]
      congr 1
      exact intOf_sent (hx p (by simp))

/-! ## C92 -/

/-- C92: for every schedule of threads and collections, when no collection is running and every export succeeded, what the collector has received for the counter and
what is still in the store add up to everything recorded; provided that is less than 2^63, and that the exporter tells success from failure. -/
theorem counter_arrives_partial {cc : Conc.Cfg K V (BitVec 64) (BitVec 64)} (hagg : cc.agg = increment (BitVec 64)) (hd : cc.delta = true) {val : V → Val}
    {dflt : Scope K} {res : ResVal K} {ci : CounterId K} {cast : Cast} {decode : Y → Option (PRequest K (PMetric K))}
    {c : Exporter.Cfg Unit (Batch K) (PRequest K (PMetric K)) Y} (hc : MetricCfg cast decode c) (ht : Exporter.TellsStatus c) {s : Store K V} {e : Exporter.St Unit}
    {log : List (Sending Y)} (h : Counted cc val dflt res ci c s e log) (hidle : s.coll = .idle) (hok : AllOk log) (hbound : recorded s < 2 ^ 63) :
    ((counterPoints decode ci.name (requests log)).map intOf).sum + inStore s = recorded s := by
  obtain ⟨bs, _, h2, h3⟩ := counted_points hc h
  obtain ⟨g1, g2⟩ := collections_total hagg hd (counted_reachable h) hidle hbound
  have hbs := h3 ht hok
  rw [h2, sent_total val bs fun x hx => g2 x.1 (by rw [← hbs]; exact List.mem_map_of_mem hx), hbs]
  omega

/-- C92: whatever the network does, the collector never receives more than was recorded, and no point is negative. -/
theorem counter_never_more {cc : Conc.Cfg K V (BitVec 64) (BitVec 64)} (hagg : cc.agg = increment (BitVec 64)) (hd : cc.delta = true) {val : V → Val}
    {dflt : Scope K} {res : ResVal K} {ci : CounterId K} {cast : Cast} {decode : Y → Option (PRequest K (PMetric K))}
    {c : Exporter.Cfg Unit (Batch K) (PRequest K (PMetric K)) Y} (hc : MetricCfg cast decode c) {s : Store K V} {e : Exporter.St Unit}
    {log : List (Sending Y)} (h : Counted cc val dflt res ci c s e log) (hidle : s.coll = .idle) (hbound : recorded s < 2 ^ 63) :
    ((counterPoints decode ci.name (requests log)).map intOf).sum ≤ recorded s ∧ ∀ q ∈ counterPoints decode ci.name (requests log), 0 ≤ intOf q := by
  obtain ⟨bs, h1, h2, _⟩ := counted_points hc h
  obtain ⟨g1, g2⟩ := collections_total hagg hd (counted_reachable h) hidle hbound
  have hsmall : ∀ x ∈ bs, ∀ p ∈ x.1.points, p.2.toNat < 2 ^ 63 := fun x hx => g2 x.1 (h1.subset (List.mem_map_of_mem hx))
  rw [h2]
  constructor
  · rw [sent_total val bs hsmall]
    have := sum_sublist (h1.map collectionTotal)
    omega
  · intro q hq
    obtain ⟨x, hx, hq⟩ := List.mem_flatMap.1 hq
    obtain ⟨p, hp, rfl⟩ := List.mem_map.1 hq
    rw [intOf_sent (hsmall x hx p hp)]
    omega

/-! ## Each attribute set -/

theorem filter_one {α β : Type} [DecidableEq β] {f : α → β} {l : List α} (h : (l.map f).Nodup) {p : α} (hp : p ∈ l) : (l.filter fun x => f x = f p) = [p] := by
  induction l with
  | nil => cases hp
  | cons x l ih =>
    rw [List.map_cons, List.nodup_cons] at h
    rcases List.mem_cons.1 hp with rfl | hp
    · rw [List.filter_cons_of_pos (by simp)]
      congr 1
      rw [List.filter_eq_nil_iff]
      intro y hy hyp
      exact h.1 (List.mem_map.2 ⟨y, hy, by simpa using hyp⟩)
    · have : f x ≠ f p := fun he => h.1 (List.mem_map.2 ⟨p, hp, he.symm⟩)
      rw [List.filter_cons_of_neg (by simpa using this), ih h.2 hp]

/-- The points of a set in a report within the limit. -/
theorem report_set {srt : Sorter K V} {limit : Nat} {o : K × V} {h : Hist K V Nat} {pts : List (Attrs K V × Nat)}
    (hr : Report (sortAndDedup srt) (increment Nat) limit [o] h pts) (hlim : (setsOf (sortAndDedup srt) h).length ≤ limit) (k : Attrs K V) :
    ((pts.filter fun p => sortAndDedup srt p.1 = k).map Prod.snd).sum = ((h.filter fun e => sortAndDedup srt e.2 = k).map Prod.fst).sum := by
  have hv : valuesOf (sortAndDedup srt) limit [o] h k = (h.filter fun e => sortAndDedup srt e.2 = k).map Prod.fst := by
    rw [valuesOf]
    congr 1
    apply List.filter_congr
    intro e he
    rw [route_within srt limit o h hlim e he]
  rw [← hv]
  by_cases hk : ∃ p ∈ pts, sortAndDedup srt p.1 = k
  · obtain ⟨p, hp, rfl⟩ := hk
    rw [filter_one hr.distinct hp, List.map_cons, List.map_nil, List.sum_cons, List.sum_nil, Nat.add_zero, (hr.values p hp).2, List.sum_eq_foldl]
    rfl
  · have e1 : (pts.filter fun p => sortAndDedup srt p.1 = k) = [] := by
      rw [List.filter_eq_nil_iff]
      intro p hp hpk
      exact hk ⟨p, hp, by simpa using hpk⟩
    have e2 : valuesOf (sortAndDedup srt) limit [o] h k = [] := by
      rw [valuesOf, List.map_eq_nil_iff, List.filter_eq_nil_iff]
      intro e he hek
      obtain ⟨p, hp, hpe⟩ := hr.complete e he
      exact hk ⟨p, hp, hpe.trans (by simpa using hek)⟩
    rw [e1, e2]; rfl

/-- What was recorded for an attribute set (in any order of the attributes). -/
def recordedFor (srt : Sorter K V) (a : Attrs K V) (s : Store K V) : Nat :=
  ((s.applied.filter fun e => sortAndDedup srt e.2.2 = sortAndDedup srt a).map fun e => e.2.1.toNat).sum

/-- What is in the store for an attribute set. -/
def inStoreFor (srt : Sorter K V) (a : Attrs K V) (s : Store K V) : Nat :=
  ((s.hist.filter fun e => sortAndDedup srt e.2 = sortAndDedup srt a).map fun e => e.1.toNat).sum +
    if a = [] then (s.noHist.map fun e => e.2.toNat).sum else 0

open Classical in
/-- The points the collector received for an attribute set: it reads attributes that are the set, in some order. -/
noncomputable def pointsFor (srt : Sorter K V) (val : V → Val) (a : Attrs K V) (qs : List (PNumPoint K)) : List (PNumPoint K) :=
  qs.filter fun q => ∃ a' : Attrs K V, readAttrs q.attributes = some (a'.map fun kv => (kv.1, val kv.2)) ∧ sortAndDedup srt a' = sortAndDedup srt a

/-- The sum of the points of a set in a collection. -/
def collectionFor (srt : Sorter K V) (a : Attrs K V) (r : Conc.Collection K V (BitVec 64) (BitVec 64)) : Nat :=
  ((r.points.filter fun p => sortAndDedup srt p.1 = sortAndDedup srt a).map fun p => p.2.toNat).sum

theorem natHist_filter (c : Attrs K V → Prop) [DecidablePred c] (h : Hist K V (BitVec 64)) :
    (((natHist h).filter fun e => c e.2).map Prod.fst).sum = ((h.filter fun e => c e.2).map fun e => e.1.toNat).sum := by
  rw [natHist, List.filter_map, List.map_map]; rfl

theorem collections_for {cc : Conc.Cfg K V (BitVec 64) (BitVec 64)} (hagg : cc.agg = increment (BitVec 64)) (hd : cc.delta = true) {s : Store K V}
    (h : Conc.Reachable cc s) (hidle : s.coll = .idle) (hbound : recorded s < 2 ^ 63) {L : List (Attrs K V)} (hL : L.length ≤ cc.limit)
    (hsets : ∀ e ∈ s.applied, e.2.2 ≠ [] → sortAndDedup cc.srt e.2.2 ∈ L) (a : Attrs K V) :
    (s.done.map (collectionFor cc.srt a)).sum + inStoreFor cc.srt a s = recordedFor cc.srt a s := by
  obtain ⟨h1, h2, h3⟩ := Conc.delta_exactly_once hd h hidle
  have hnil : sortAndDedup cc.srt a = [] ↔ a = [] := canon_eq_nil cc.srt a
  let P : Attrs K V → Bool := fun b => sortAndDedup cc.srt b = sortAndDedup cc.srt a
  have hP0 : P [] = decide (a = []) := by
    simp only [P, canon_nil, eq_comm (a := ([] : Attrs K V)), hnil]
  -- everything that was recorded with attributes is within the limit and does not wrap
  have hrec : recorded s = ((s.done.flatMap (·.period)).map fun e => e.1.toNat).sum + (s.hist.map fun e => e.1.toNat).sum
      + (((s.done.flatMap fun r => r.noVals.getD []).map fun e => e.2.toNat).sum + (s.noHist.map fun e => e.2.toNat).sum) := by
    have hs := Conc.sum_split (s.applied.map fun e => (e.1, e.2.1.toNat, e.2.2))
    rw [List.map_map, List.filter_map, List.filter_map, List.map_map, List.map_map] at hs
    have k1 := congrArg (fun l => (l.map fun e => e.1.toNat).sum) h1
    have k2 := congrArg (fun l => (l.map fun e => e.2.toNat).sum) h2
    simp only [List.map_map, List.map_append, List.sum_append] at k1 k2
    rw [← k1, ← k2]
    exact hs
  have hfor : recordedFor cc.srt a s = (((s.done.flatMap (·.period)).filter fun e => P e.2).map fun e => e.1.toNat).sum
      + ((s.hist.filter fun e => P e.2).map fun e => e.1.toNat).sum
      + if a = [] then ((s.done.flatMap fun r => r.noVals.getD []).map fun e => e.2.toNat).sum + (s.noHist.map fun e => e.2.toNat).sum else 0 := by
    have hs := Conc.sum_split ((s.applied.filter fun e => P e.2.2).map fun e => (e.1, e.2.1.toNat, e.2.2))
    rw [List.map_map, List.filter_map, List.filter_map, List.map_map, List.map_map] at hs
    have k1 := congrArg (fun l => ((l.filter fun e => P e.2).map fun e => e.1.toNat).sum) h1
    simp only [List.filter_map, List.map_map, List.filter_append, List.map_append, List.sum_append] at k1
    have k2 := congrArg (fun l => (l.map fun e => e.2.toNat).sum) h2
    simp only [List.map_map, List.map_append, List.sum_append] at k2
    rw [← k1, ← k2]
    refine Eq.trans hs ?_
    congr 1
    · rw [List.filter_filter, List.filter_filter]
      congr 2
      apply List.filter_congr
      intro e _
      simp only [Function.comp, Bool.and_comm]
    · rw [List.filter_filter]
      by_cases ha : a = []
      · rw [if_pos ha]
        congr 1
        have : (s.applied.filter fun e => (decide (((fun e : Nat × BitVec 64 × Attrs K V => (e.1, e.2.1.toNat, e.2.2)) e).2.2 = [])) && P e.2.2)
            = s.applied.filter fun e => e.2.2 = [] := by
          apply List.filter_congr
          intro e _
          by_cases he : e.2.2 = []
          · simp only [he, hP0, ha]; rfl
          · simp [he]
        exact congrArg (List.map _) this
      · rw [if_neg ha]
        have : (s.applied.filter fun e => (decide (((fun e : Nat × BitVec 64 × Attrs K V => (e.1, e.2.1.toNat, e.2.2)) e).2.2 = [])) && P e.2.2) = [] := by
          rw [List.filter_eq_nil_iff]
          intro e _ he
          simp only [Bool.and_eq_true, decide_eq_true_eq] at he
          rw [he.1, hP0] at he
          simp [ha] at he
        exact congrArg (fun l => (List.map _ l).sum) this
  have hper : ∀ r ∈ s.done, ∀ e ∈ r.period, e.2 ≠ [] → sortAndDedup cc.srt e.2 ∈ L := by
    intro r hr e he hne
    have : e ∈ (s.applied.filter (fun e => e.2.2 ≠ [])).map (fun e => e.2) := by
      rw [h1]; exact List.mem_append_left _ (List.mem_flatMap.2 ⟨r, hr, he⟩)
    obtain ⟨x, hx, rfl⟩ := List.mem_map.1 this
    exact hsets x (List.mem_filter.1 hx).1 hne
  have hlim : ∀ r ∈ s.done, (setsOf (sortAndDedup cc.srt) r.period).length ≤ cc.limit := by
    intro r hr
    refine Nat.le_trans (List.subperm_of_subset (setsOf_nodup _ _) fun k hk => ?_).length_le hL
    obtain ⟨e, he, hne, rfl⟩ := (mem_setsOf _ _ _).1 hk
    exact hper r hr e he hne
  have key : ∀ ds : List (Conc.Collection K V (BitVec 64) (BitVec 64)), (∀ r ∈ ds, r ∈ s.done) →
      ((ds.flatMap (·.period)).map fun e => e.1.toNat).sum + ((ds.flatMap fun r => r.noVals.getD []).map fun e => e.2.toNat).sum < 2 ^ 63 →
      (ds.map (collectionFor cc.srt a)).sum = (((ds.flatMap (·.period)).filter fun e => P e.2).map fun e => e.1.toNat).sum
        + if a = [] then ((ds.flatMap fun r => r.noVals.getD []).map fun e => e.2.toNat).sum else 0 := by
    intro ds
    induction ds with
    | nil => intro _ _; simp
    | cons r rs ih =>
      intro hmem hb
      simp only [List.flatMap_cons, List.map_append, List.sum_append] at hb
      have i1 := ih (fun q hq => hmem q (List.mem_cons_of_mem _ hq)) (by omega)
      obtain ⟨pts, e1, e2⟩ := h3 r (hmem r List.mem_cons_self)
      rw [hagg] at e1 e2
      have hnat := report_toNat e2 (by omega)
      have htot := report_set hnat (by rw [setsOf_natHist]; exact hlim r (hmem r List.mem_cons_self)) (sortAndDedup cc.srt a)
      rw [natHist_filter (fun b => sortAndDedup cc.srt b = sortAndDedup cc.srt a), List.filter_map, List.map_map] at htot
      have hno : ∀ vs : List (Nat × BitVec 64), r.noVals = some vs → ((vs.map Prod.snd).foldl (increment (BitVec 64)).update (increment (BitVec 64)).create).toNat
          = (vs.map fun e => e.2.toNat).sum := by
        intro vs hvs
        rw [hvs] at hb
        simp only [Option.getD_some] at hb
        have hm : ((vs.map Prod.snd).map BitVec.toNat).sum = (vs.map fun e => e.2.toNat).sum := by rw [List.map_map]; rfl
        have := foldl_toNat (vs.map Prod.snd) 0 (by rw [hm]; simp; omega)
        rw [hm] at this
        refine Eq.trans this ?_
        simp
      have hr : collectionFor cc.srt a r = ((r.period.filter fun e => P e.2).map fun e => e.1.toNat).sum
          + if a = [] then ((r.noVals.getD []).map fun e => e.2.toNat).sum else 0 := by
        rw [collectionFor, e1, List.filter_append, List.map_append, List.sum_append, Nat.add_comm]
        congr 1
        cases hv : r.noVals with
        | none => simp
        | some vs =>
          simp only [Option.getD_some]
          by_cases ha : a = []
          · rw [if_pos ha, List.filter_cons_of_pos (by rw [ha]; simp)]
            simp only [List.filter_nil, List.map_cons, List.map_nil, List.sum_cons, List.sum_nil, hno vs hv]; rfl
          · rw [if_neg ha, List.filter_cons_of_neg (by rw [canon_nil, decide_eq_true_eq]; exact fun h => ha (hnil.1 h.symm))]
            rfl
      simp only [List.flatMap_cons, List.filter_append, List.map_append, List.sum_append, List.map_cons, List.sum_cons]
      rw [i1, hr]
      split <;> omega
  rw [hfor, key s.done (fun _ h => h) (by rw [hrec] at hbound; omega), inStoreFor]
  simp only [P]
  split <;> omega

theorem sent_for (srt : Sorter K V) (val : V → Val) (hinj : Function.Injective val) (hplain : ∀ v, NotEmptyArray (val v)) (a : Attrs K V)
    (bs : List (Conc.Collection K V (BitVec 64) (BitVec 64) × Around K)) (h : ∀ x ∈ bs, ∀ p ∈ x.1.points, p.2.toNat < 2 ^ 63) :
    ((pointsFor srt val a (bs.flatMap (sentPoints val))).map intOf).sum = (((bs.map Prod.fst).map (collectionFor srt a)).sum : Nat) := by
  have hpair : Function.Injective fun kv : K × V => (kv.1, val kv.2) := fun p q hpq => Prod.ext (Prod.mk.inj hpq).1 (hinj (Prod.mk.inj hpq).2)
  have hf : ∀ x y : Attrs K V, (x.map fun kv => (kv.1, val kv.2)) = (y.map fun kv => (kv.1, val kv.2)) → x = y := fun x y hxy => List.map_injective_iff.2 hpair hxy
  induction bs with
  | nil => rfl
  | cons x bs ih =>
    rw [List.flatMap_cons, pointsFor, List.filter_append, List.map_append, List.sum_append, ← pointsFor, ← pointsFor, ih fun y hy => h y (by simp [hy]), List.map_cons,
      List.map_cons, List.sum_cons, Nat.cast_add]
    congr 1
    have hx := h x (by simp)
    rw [sentPoints, collectionFor]
    generalize x.1.points = ps at hx
    induction ps with
    | nil => rfl
    | cons p ps ih2 =>
      have ih2 := ih2 fun q hq => hx q (by simp [hq])
      have hread : readAttrs (sumPointOf x.2.start x.2.now ⟨p.1.map fun kv => (kv.1, val kv.2), .u64 p.2, []⟩).attributes
          = some (p.1.map fun kv => (kv.1, val kv.2)) := readAttrs_attributes fun kv hkv => by
        obtain ⟨kv', _, rfl⟩ := List.mem_map.1 hkv
        exact hplain _
      by_cases hp : sortAndDedup srt p.1 = sortAndDedup srt a
      · rw [List.map_cons, pointsFor, List.filter_cons_of_pos (by simpa using ⟨p.1, hread, hp⟩), ← pointsFor, List.map_cons, List.sum_cons, ih2,
          List.filter_cons_of_pos (by simpa using hp), List.map_cons, List.sum_cons, Nat.cast_add, intOf_sent (hx p (by simp))]
      · rw [List.map_cons, pointsFor, List.filter_cons_of_neg, ← pointsFor, ih2, List.filter_cons_of_neg (by simpa using hp)]
        simp only [decide_eq_true_eq, not_exists, not_and]
        intro a' ha' hc
        rw [hread] at ha'
        rw [← hf _ _ (Option.some.inj ha')] at hc
        exact hp hc

/-- C92: the same for each attribute set, in whatever order its attributes are given, as long as there are not more sets than the limit. -/
theorem counter_set_arrives_partial {cc : Conc.Cfg K V (BitVec 64) (BitVec 64)} (hagg : cc.agg = increment (BitVec 64)) (hd : cc.delta = true) {val : V → Val}
    (hinj : Function.Injective val) (hplain : ∀ v, NotEmptyArray (val v))
    {dflt : Scope K} {res : ResVal K} {ci : CounterId K} {cast : Cast} {decode : Y → Option (PRequest K (PMetric K))}
    {c : Exporter.Cfg Unit (Batch K) (PRequest K (PMetric K)) Y} (hc : MetricCfg cast decode c) (ht : Exporter.TellsStatus c) {s : Store K V} {e : Exporter.St Unit}
    {log : List (Sending Y)} (h : Counted cc val dflt res ci c s e log) (hidle : s.coll = .idle) (hok : AllOk log) (hbound : recorded s < 2 ^ 63)
    {L : List (Attrs K V)} (hL : L.length ≤ cc.limit) (hsets : ∀ e ∈ s.applied, e.2.2 ≠ [] → sortAndDedup cc.srt e.2.2 ∈ L) (a : Attrs K V) :
    ((pointsFor cc.srt val a (counterPoints decode ci.name (requests log))).map intOf).sum + inStoreFor cc.srt a s = recordedFor cc.srt a s := by
  obtain ⟨bs, _, h2, h3⟩ := counted_points hc h
  obtain ⟨_, g2⟩ := collections_total hagg hd (counted_reachable h) hidle hbound
  have g1 := collections_for hagg hd (counted_reachable h) hidle hbound hL hsets a
  have hbs := h3 ht hok
  rw [h2, sent_for cc.srt val hinj hplain a bs fun x hx => g2 x.1 (by rw [← hbs]; exact List.mem_map_of_mem hx), hbs]
  omega

/-! ## Witnesses -/

theorem conc_step_done {A X : Type} {cc : Conc.Cfg K V A X} {s s' : Conc.State K V A X} {a : Conc.Action K V X} (h : Conc.step cc s a = some s') :
    s'.done = s.done ∨ ∃ r, s'.done = s.done ++ [r] := by
  cases a with
  | call t x b =>
    simp only [Conc.step] at h
    split at h
    · injection h with h; subst h; exact .inl rfl
    · cases h
  | thread t =>
    simp only [Conc.step, Conc.threadStep] at h
    repeat' split at h
    all_goals first | (cases h; done) | (injection h with h; subst h; exact .inl rfl)
  | collect =>
    simp only [Conc.step] at h
    split at h
    · injection h with h; subst h; exact .inl rfl
    · cases h
  | collector it =>
    simp only [Conc.step, Conc.collectorStep] at h
    repeat' split at h
    all_goals first | (cases h; done) | (injection h with h; subst h; exact .inl rfl) | (injection h with h; subst h; exact .inr ⟨_, rfl⟩)

theorem conc_run_done {A X : Type} {cc : Conc.Cfg K V A X} (as : List (Conc.Action K V X)) {s s' : Conc.State K V A X} (h : Conc.runAll cc s as = some s') :
    s.done ⊆ s'.done := by
  induction as generalizing s with
  | nil => simp only [Conc.runAll, Option.some.injEq] at h; subst h; exact fun _ hx => hx
  | cons a as ih =>
    simp only [Conc.runAll] at h
    split at h
    · rename_i s1 hs1
      refine fun x hx => ih h ?_
      rcases conc_step_done hs1 with hd | ⟨r, hd⟩
      · rw [hd]; exact hx
      · rw [hd]; exact List.mem_append_left _ hx
    · cases h

/-- A schedule of threads and reader is one of the whole, under one behaviour of the network. -/
theorem counted_of_run {cc : Conc.Cfg K V (BitVec 64) (BitVec 64)} {val : V → Val} {dflt : Scope K} {res : ResVal K} {ci : CounterId K}
    {c : Exporter.Cfg Unit (Batch K) (PRequest K (PMetric K)) Y} (w : Exporter.World) (o : Around K) (ho : o.Distinct ci)
    (as : List (Conc.Action K V (BitVec 64))) {s s' : Store K V} {log : List (Sending Y)} (h : Counted cc val dflt res ci c s ⟨true, ()⟩ log)
    (hr : Conc.runAll cc s as = some s') :
    ∃ log', Counted cc val dflt res ci c s' ⟨true, ()⟩ log' ∧
      ∀ x ∈ log', x ∈ log ∨ ∃ r ∈ s'.done, x = ⟨w, (Exporter.doExport c ⟨true, ()⟩ (collected val dflt res ci o r.points) w).1,
        (Exporter.doExport c ⟨true, ()⟩ (collected val dflt res ci o r.points) w).2⟩ := by
  induction as generalizing s log with
  | nil => simp only [Conc.runAll, Option.some.injEq] at hr; subst hr; exact ⟨log, h, fun x hx => .inl hx⟩
  | cons a as ih =>
    simp only [Conc.runAll] at hr
    split at hr
    · rename_i s1 hs1
      rcases conc_step_done hs1 with hd | ⟨r, hd⟩
      · exact ih (.work a h hs1 hd) hr
      · by_cases he : (collected val dflt res ci o r.points).scopeMetrics = []
        · exact ih (.nothing a r o h hs1 hd ho he) hr
        · obtain ⟨log', g1, g2⟩ := ih (.export a r o w h hs1 hd ho he) hr
          refine ⟨log', g1, fun x hx => ?_⟩
          rcases g2 x hx with hx | hx
          · rw [List.mem_append, List.mem_singleton] at hx
            rcases hx with hx | rfl
            · exact .inl hx
            · exact .inr ⟨r, conc_run_done as hr (by rw [hd]; simp), rfl⟩
          · exact .inr hx
    · cases hr

def exCounter : CounterId Nat := ⟨⟨"lib", none, none, []⟩, "requests", "", ""⟩

/-- Another instrument and another scope around the counter. -/
def exAround : Around Nat :=
  ⟨[(⟨"other", none, none, []⟩, [⟨"x", "", "", ⟨.u64, .sum true, .delta, 1, 2, [.num ⟨[], .u64 9, []⟩]⟩⟩])], [⟨"y", "", "", ⟨.f64, .lastValue, .delta, 1, 2, []⟩⟩], 1, 2, [], [],
    ⟨⟨[], none⟩, []⟩⟩

theorem exAround_distinct : exAround.Distinct exCounter := by
  refine ⟨?_, ?_⟩
  · intro s hs i hi
    simp only [exAround, List.append_nil, List.mem_singleton] at hs
    subst hs
    simp only [List.mem_singleton] at hi
    subst hi
    decide
  · intro i hi
    simp only [exAround, List.append_nil, List.mem_singleton] at hi
    subst hi
    decide

def exMetricCfg : Exporter.Cfg Unit (Batch Nat) (PRequest Nat (PMetric Nat)) (PRequest Nat (PMetric Nat)) :=
  ⟨.metrics, .grpc, [], [1], fun _ => metricsMessage ⟨id, id⟩, some⟩

theorem exMetricCfg_ok : MetricCfg ⟨id, id⟩ some exMetricCfg := ⟨rfl, rfl, fun _ _ h => h.symm⟩

def exStore : Conc.Cfg Nat Bool (BitVec 64) (BitVec 64) := ⟨stableSorter, increment (BitVec 64), 2000, (0, true), true⟩

/-- Two threads record `x` and `y`; the second is in the middle of its call while the reader begins to collect. -/
def exCount (x y : BitVec 64) : List (Conc.Action Nat Bool (BitVec 64)) :=
  [.call 0 x [(1, true)], .thread 0, .thread 0, .call 1 y [], .thread 1, .collect, .collector [], .thread 1, .collector [([(1, true)], 0)], .collector [], .collector []]

/-- The hypotheses of `counter_arrives_partial` and `counter_set_arrives_partial` are met: 5 arrives, 7 is in the store. -/
theorem counter_arrives_example : ∃ (s : Store Nat Bool) (log : List (Sending (PRequest Nat (PMetric Nat)))),
    Counted exStore Val.bool ⟨"", none, none, []⟩ ⟨[], none⟩ exCounter exMetricCfg s ⟨true, ()⟩ log ∧ s.coll = .idle ∧ AllOk log ∧ recorded s = 12 ∧ inStore s = 7 := by
  have h : (Conc.runAll exStore (.init exStore) (exCount 5 7)).map (fun s => (s.applied, s.hist, s.noHist, s.done.map (·.points)))
      = some ([(0, 5, [(1, true)]), (1, 7, [])], [], [(1, 7)], [[([(1, true)], 5)]]) := by rfl
  have h' : (Conc.runAll exStore (.init exStore) (exCount 5 7)).map (fun s => match s.coll with | .idle => true | _ => false) = some true := by rfl
  obtain ⟨s, hs, he⟩ := Option.map_eq_some_iff.1 h
  obtain ⟨s2, hs2, he2⟩ := Option.map_eq_some_iff.1 h'
  rw [hs] at hs2
  cases hs2
  simp only [Prod.mk.injEq] at he
  obtain ⟨log, hp, hl⟩ := counted_of_run (val := Val.bool) (dflt := ⟨"", none, none, []⟩) (res := ⟨[], none⟩) (ci := exCounter) (c := exMetricCfg) ⟨true, some ⟨0, 0⟩⟩ exAround exAround_distinct
    (exCount 5 7) .init hs
  refine ⟨s, log, hp, ?_, fun x hx => ?_, by rw [recorded, he.1]; rfl, by rw [inStore, he.2.1, he.2.2.1]; rfl⟩
  · split at he2
    · assumption
    · cases he2
  · rcases hl x hx with hx | ⟨_, _, rfl⟩
    · cases hx
    · rfl

/-- C92 violated for large totals: 2^63 was recorded, every export succeeded, nothing is in the store, and what the collector received adds up to 0. -/
theorem counter_large_violated : ∃ (s : Store Nat Bool) (log : List (Sending (PRequest Nat (PMetric Nat)))),
    Counted exStore Val.bool ⟨"", none, none, []⟩ ⟨[], none⟩ exCounter exMetricCfg s ⟨true, ()⟩ log ∧ AllOk log ∧ recorded s = 2 ^ 63 ∧ inStore s = 0
      ∧ ((counterPoints some exCounter.name (requests log)).map intOf).sum = 0 := by
  have h : (Conc.runAll exStore (.init exStore) (exCount (BitVec.ofNat 64 (2 ^ 63)) 0)).map (fun s => (s.applied, s.hist, s.noHist, s.done.map (·.points)))
      = some ([(0, BitVec.ofNat 64 (2 ^ 63), [(1, true)]), (1, 0, [])], [], [(1, 0)], [[([(1, true)], BitVec.ofNat 64 (2 ^ 63))]]) := by rfl
  obtain ⟨s, hs, he⟩ := Option.map_eq_some_iff.1 h
  simp only [Prod.mk.injEq] at he
  obtain ⟨log, hp, hl⟩ := counted_of_run (val := Val.bool) (dflt := ⟨"", none, none, []⟩) (res := ⟨[], none⟩) (ci := exCounter) (c := exMetricCfg) ⟨true, some ⟨0, 0⟩⟩ exAround exAround_distinct
    _ .init hs
  refine ⟨s, log, hp, fun x hx => ?_, by rw [recorded, he.1]; rfl, by rw [inStore, he.2.1, he.2.2.1]; rfl, ?_⟩
  · rcases hl x hx with hx | ⟨_, _, rfl⟩
    · cases hx
    · rfl
  · obtain ⟨bs, g1, g2, _⟩ := counted_points exMetricCfg_ok hp
    rw [g2]
    apply List.sum_eq_zero
    intro n hn
    obtain ⟨q, hq, rfl⟩ := List.mem_map.1 hn
    obtain ⟨x, hx, hq⟩ := List.mem_flatMap.1 hq
    obtain ⟨p, hp, rfl⟩ := List.mem_map.1 hq
    have hmem : x.1.points ∈ s.done.map (·.points) := List.mem_map_of_mem (g1.subset (List.mem_map_of_mem hx))
    rw [he.2.2.2, List.mem_singleton] at hmem
    rw [hmem, List.mem_singleton] at hp
    subst hp
    rfl

/-- C92 violated when an export fails: 5 was recorded, nothing is in the store, and nothing was or will be sent of it. -/
theorem counter_failed_violated : ∃ (s : Store Nat Bool) (log : List (Sending (PRequest Nat (PMetric Nat)))),
    Counted exStore Val.bool ⟨"", none, none, []⟩ ⟨[], none⟩ exCounter exMetricCfg s ⟨true, ()⟩ log ∧ recorded s = 5 ∧ inStore s = 0 ∧ requests log = [] := by
  have h : (Conc.runAll exStore (.init exStore) (exCount 5 0)).map (fun s => (s.applied, s.hist, s.noHist)) = some ([(0, 5, [(1, true)]), (1, 0, [])], [], [(1, 0)]) := by rfl
  obtain ⟨s, hs, he⟩ := Option.map_eq_some_iff.1 h
  simp only [Prod.mk.injEq] at he
  obtain ⟨log, hp, hl⟩ := counted_of_run (val := Val.bool) (dflt := ⟨"", none, none, []⟩) (res := ⟨[], none⟩) (ci := exCounter) (c := exMetricCfg) ⟨false, none⟩ exAround exAround_distinct
    _ .init hs
  refine ⟨s, log, hp, by rw [recorded, he.1]; rfl, by rw [inStore, he.2.1, he.2.2]; rfl, ?_⟩
  rw [requests, List.flatMap_eq_nil_iff]
  intro x hx
  rcases hl x hx with hx | ⟨_, _, rfl⟩
  · cases hx
  · rfl

end Otel.EndToEnd
