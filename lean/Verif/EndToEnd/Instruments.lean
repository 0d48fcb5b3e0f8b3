import Verif.Metrics.ConcurrentSets
import Verif.Metrics.Precomputed
import Verif.Metrics.AggregationProps
import Verif.EndToEnd.Counter
/-!
# From any synchronous instrument to the collector (C99)

The composition of C92 for every aggregation and both temporalities: threads that record, the store of C38, a reader that collects (C45), the times of C44, the messages of
C54, the exporter of C86. An instrument is described by a style: the aggregation, and how its result becomes a data point. Then the instances: sums of `u64`, `i64` and
`f64`, gauges, and histograms. Sources as in `Counter.lean`; opentelemetry-sdk/src/metrics/internal/{sum,last_value,histogram,aggregate}.rs.
-/

set_option linter.unusedSectionVars false

namespace Otel.EndToEnd
open Otel.Otlp Otel.Metrics
open Common (Val Scope)

variable {K V A X Y : Type}

/-- How an instrument is reported: its number type, its aggregation and its data points. -/
structure Style (K A : Type) where
  num : NumKind
  kind : AggKind
  point : List (K × Val) → A → Pt K

/-- The temporality reported. -/
def tempOf (delta : Bool) : Temporality := if delta then .delta else .cumulative

/-- The attributes of a point. -/
def kvsOf (val : V → Val) (a : Attrs K V) : List (K × Val) := a.map fun kv => (kv.1, val kv.2)

/-- The instrument with what its aggregation reports. sum.rs:70-170, last_value.rs:66-159, histogram.rs:111-252 -/
def styledInst (st : Style K A) (delta : Bool) (val : V → Val) (ci : CounterId K) (start now : Nat) (pts : List (Attrs K V × A)) : InstSync String (Pt K) :=
  ⟨ci.name, ci.description, ci.unit, ⟨st.num, st.kind, tempOf delta, start, now, pts.map fun p => st.point (kvsOf val p.1) p.2⟩⟩

/-- The collection. -/
def gathered (st : Style K A) (delta : Bool) (val : V → Val) (dflt : Scope K) (res : ResVal K) (ci : CounterId K) (o : Around K) (pts : List (Attrs K V × A)) : Batch K :=
  produce dflt res (o.before ++ (ci.scope, o.left ++ styledInst st delta val ci o.start o.now pts :: o.right) :: o.after) o.buffer

/-- The times of C44. -/
def timesOf (delta : Bool) : Nat → Nat → (Nat × Nat) × Nat := if delta then timeDelta else timeCumulative

variable [LinearOrder K] [DecidableEq V]

/-- Threads, store, reader and exporter together; `t` is the start time that the aggregation keeps. A reader exports a collection unless it is empty
(opentelemetry-sdk/src/metrics/periodic_reader.rs:381-425). -/
inductive Measured (cc : Conc.Cfg K V A X) (st : Style K A) (val : V → Val) (dflt : Scope K) (res : ResVal K) (ci : CounterId K)
    (c : Exporter.Cfg Unit (Batch K) (PRequest K (PMetric K)) Y) (t0 : Nat) : Conc.State K V A X → Nat → Exporter.St Unit → List (Sending Y) → Prop
  | init : Measured cc st val dflt res ci c t0 (.init cc) t0 ⟨true, ()⟩ []
  /-- a step of a thread, or of the reader before the collection is complete -/
  | work {s s' t e log} (a : Conc.Action K V X) : Measured cc st val dflt res ci c t0 s t e log → Conc.step cc s a = some s' → s'.done = s.done →
      Measured cc st val dflt res ci c t0 s' t e log
  /-- the collection is complete, and there is nothing in it -/
  | nothing {s s' t e log} (a : Conc.Action K V X) (r : Conc.Collection K V A X) (o : Around K) :
      Measured cc st val dflt res ci c t0 s t e log → Conc.step cc s a = some s' → s'.done = s.done ++ [r] → o.Distinct ci → (timesOf cc.delta t o.now).1.1 = o.start →
      (gathered st cc.delta val dflt res ci o r.points).scopeMetrics = [] → Measured cc st val dflt res ci c t0 s' (timesOf cc.delta t o.now).2 e log
  /-- the collection is complete and is exported -/
  | export {s s' t e log} (a : Conc.Action K V X) (r : Conc.Collection K V A X) (o : Around K) (w : Exporter.World) :
      Measured cc st val dflt res ci c t0 s t e log → Conc.step cc s a = some s' → s'.done = s.done ++ [r] → o.Distinct ci → (timesOf cc.delta t o.now).1.1 = o.start →
      (gathered st cc.delta val dflt res ci o r.points).scopeMetrics ≠ [] →
      Measured cc st val dflt res ci c t0 s' (timesOf cc.delta t o.now).2 e (log ++ [⟨w, (Exporter.doExport c e (gathered st cc.delta val dflt res ci o r.points) w).1,
        (Exporter.doExport c e (gathered st cc.delta val dflt res ci o r.points) w).2⟩])
  /-- the exporter is shut down -/
  | shut {s t e log} : Measured cc st val dflt res ci c t0 s t e log → Measured cc st val dflt res ci c t0 s t (Exporter.shutdown c e).2 log

/-! ## Specification: what the collector reads -/

/-- A received point of any kind. -/
inductive WPt (K : Type) where
  | num (p : PNumPoint K)
  | hist (p : PHistPoint K)
  | expo (p : PExpoPoint K)

def WPt.attributes : WPt K → List (PKv K)
  | .num p => p.attributes
  | .hist p => p.attributes
  | .expo p => p.attributes

def WPt.start : WPt K → BitVec 64
  | .num p => p.startTimeUnixNano
  | .hist p => p.startTimeUnixNano
  | .expo p => p.startTimeUnixNano

def WPt.time : WPt K → BitVec 64
  | .num p => p.timeUnixNano
  | .hist p => p.timeUnixNano
  | .expo p => p.timeUnixNano

/-- The points of a metric. -/
def wpoints : PData K → List (WPt K)
  | .gauge ps => ps.map .num
  | .sum ps _ _ => ps.map .num
  | .histogram ps _ => ps.map .hist
  | .expo ps _ => ps.map .expo

/-- A received metric with what it came with. -/
structure Heard (K : Type) where
  resource : List (PKv K)
  schemaUrl : String
  scope : PScope K
  scopeSchemaUrl : String
  metric : PMetric K

/-- The metrics with a name in a request. -/
def heardIn (name : String) (q : PRequest K (PMetric K)) : List (Heard K) :=
  q.groups.flatMap fun g => (g.items.filter fun m => m.name = name).map fun m => ⟨q.resource, q.schemaUrl, g.scope, g.schemaUrl, m⟩

/-- The metrics with a name that the collector has received, in order. -/
def heard (decode : Y → Option (PRequest K (PMetric K))) (name : String) (qs : List (Exporter.Request Y)) : List (Heard K) :=
  qs.flatMap fun q => match decode q.body with
    | some r => heardIn name r
    | none => []

/-- The form of the message is that of the aggregation, with the temporality number of the protocol (1 is delta, 2 is cumulative). -/
def SaysKind (kind : AggKind) (delta : Bool) : PData K → Prop
  | .gauge _ => match kind with | .lastValue => True | _ => False
  | .sum _ n m => match kind with | .sum m' => m = m' ∧ n = (if delta then 1 else 2) | _ => False
  | .histogram _ n => match kind with | .histogram => n = (if delta then 1 else 2) | _ => False
  | .expo _ n => match kind with | .expoHistogram => n = (if delta then 1 else 2) | _ => False

/-- A collector reads these attributes. -/
def ReadsSet (val : V → Val) (kvs : List (PKv K)) (a : Attrs K V) : Prop := readAttrs kvs = some (kvsOf val a)

/-- The received points, one for each set: a point tells (`reads`) the values that `ok` allows for its set, and there is one for each set that `must` have one. -/
structure CarriesPoints (srt : Sorter K V) (val : V → Val) (reads : WPt K → List X → Prop) (ok : Attrs K V → List X → Prop) (must : Attrs K V → Prop) (qs : List (WPt K)) : Prop where
  distinct : qs.Pairwise fun p q => ∀ a b, ReadsSet val p.attributes a → ReadsSet val q.attributes b → sortAndDedup srt a ≠ sortAndDedup srt b
  values : ∀ q ∈ qs, ∃ a xs, ReadsSet val q.attributes a ∧ ok a xs ∧ reads q xs
  complete : ∀ a, must a → ∃ q ∈ qs, ∃ b, ReadsSet val q.attributes b ∧ sortAndDedup srt b = sortAndDedup srt a

/-- The received metric is the instrument, of this resource, with the times of the collection. -/
structure Names (kind : AggKind) (delta : Bool) (res : ResVal K) (ci : CounterId K) (start now : Nat) (m : Heard K) : Prop where
  resource : PlainAttrs res.attrs → SameKvs res.attrs m.resource
  schemaUrl : m.schemaUrl = res.schemaUrl.getD ""
  scope : m.scope.name = ci.scope.name ∧ m.scope.version = ci.scope.version.getD "" ∧ m.scopeSchemaUrl = ci.scope.schemaUrl.getD ""
  scopeAttributes : PlainAttrs ci.scope.attrs → SameKvs ci.scope.attrs m.scope.attributes
  name : m.metric.name = ci.name ∧ m.metric.description = ci.description ∧ m.metric.unit = ci.unit
  kind : SaysKind kind delta m.metric.data
  start : start < 2 ^ 64 → ∀ q ∈ wpoints m.metric.data, q.start.toNat = start
  time : now < 2 ^ 64 → ∀ q ∈ wpoints m.metric.data, q.time.toNat = now

/-! ## Lemmas: a request -/

/-- The point as it is sent. -/
def wireOf (cast : Cast) (kind : AggKind) (start now : Nat) : Pt K → WPt K
  | .num p => .num (match kind with | .lastValue => gaugePointOf (some (start : Int)) now p | _ => sumPointOf start now p)
  | .hist p => .hist (histPointOf cast start now p)
  | .expo p => .expo (expoPointOf cast start now { p with zeroThreshold := 0 })

/-- The points fit the aggregation. -/
def Style.Fit (st : Style K A) : Prop := ∀ kvs x, match st.kind, st.point kvs x with
  | .lastValue, .num _ => True
  | .sum _, .num _ => True
  | .histogram, .hist _ => True
  | .expoHistogram, .expo _ => True
  | _, _ => False

/-- The data of the metric. -/
def styledData (st : Style K A) (delta : Bool) (start now : Nat) (ps : List (Pt K)) : MetricData (Pt K) := match st.kind with
  | .lastValue => .gauge ps (some start) now
  | .sum m => .sum ps start now (tempOf delta) m
  | .histogram => .histogram ps start now (tempOf delta)
  | .expoHistogram => .exponentialHistogram ps start now (tempOf delta)

/-- What the collector hears of a collection. -/
def saidOf (cast : Cast) (st : Style K A) (delta : Bool) (val : V → Val) (res : ResVal K) (ci : CounterId K) (o : Around K) (pts : List (Attrs K V × A)) : Heard K :=
  ⟨attributes res.attrs, res.schemaUrl.getD "", scopeOf ci.scope none, ci.scope.schemaUrl.getD "",
    ⟨ci.name, ci.description, ci.unit, dataOf cast (toMData (styledData st delta o.start o.now (pts.map fun p => st.point (kvsOf val p.1) p.2)))⟩⟩

theorem message_heard (st : Style K A) (delta : Bool) (val : V → Val) (dflt : Scope K) (res : ResVal K) (ci : CounterId K) (o : Around K) (ho : o.Distinct ci) (cast : Cast)
    (pts : List (Attrs K V × A)) :
    heardIn ci.name (metricsMessage cast (gathered st delta val dflt res ci o pts)) = if pts = [] then [] else [saidOf cast st delta val res ci o pts] := by
  have hout : ∀ is : List (InstSync String (Pt K)), (∀ i ∈ is, i.name ≠ ci.name) → ∀ m ∈ is.filterMap Metrics.metricOf, m.name ≠ ci.name := by
    intro is his m hm
    obtain ⟨i, hi, him⟩ := List.mem_filterMap.1 hm
    unfold Metrics.metricOf at him
    split at him
    · cases him
    · injection him with him; subst him; exact his i hi
  let conv : List (InstSync String (Pt K)) → List (PMetric K) := fun is =>
    (is.filterMap Metrics.metricOf).map fun m => Otlp.metricOf cast ⟨m.name, m.description, m.unit, toMData m.data.data⟩
  let hears : Scope K × List (InstSync String (Pt K)) → List (Heard K) := fun s =>
    ((conv s.2).filter fun m => m.name = ci.name).map fun m => ⟨attributes res.attrs, res.schemaUrl.getD "", scopeOf s.1 none, s.1.schemaUrl.getD "", m⟩
  have hitems : ∀ ss : List (Scope K × List (InstSync String (Pt K))),
      heardIn ci.name (metricsMessage cast ⟨res, ss.filterMap Metrics.scopeOf⟩) = ss.flatMap hears := by
    intro ss
    induction ss with
    | nil => rfl
    | cons x ss ih =>
      simp only [metricsMessage, metricsRequest, heardIn] at ih ⊢
      rw [List.filterMap_cons]
      by_cases hx : x.2.filterMap Metrics.metricOf = []
      · have e1 : Metrics.scopeOf x = none := by simp [Metrics.scopeOf, hx]
        rw [e1]
        simp only [List.flatMap_cons]
        rw [ih]
        simp [hears, conv, hx]
      · have e1 : Metrics.scopeOf x = some ⟨x.1, x.2.filterMap Metrics.metricOf⟩ := by simp [Metrics.scopeOf, hx]
        rw [e1]
        simp only [List.map_cons, List.flatMap_cons]
        rw [ih]
        congr 1
        simp only [scopeMetricsOf, List.map_map]
        rfl
  have hnone : ∀ is : List (InstSync String (Pt K)), (∀ i ∈ is, i.name ≠ ci.name) → (conv is).filter (fun m => m.name = ci.name) = [] := by
    intro is his
    rw [List.filter_eq_nil_iff]
    intro m hm
    obtain ⟨m', hm', rfl⟩ := List.mem_map.1 hm
    have := hout is his m' hm'
    simp [Otlp.metricOf, this]
  have hnones : ∀ ss : List (Scope K × List (InstSync String (Pt K))), (∀ s ∈ ss, ∀ i ∈ s.2, i.name ≠ ci.name) → ss.flatMap hears = [] := by
    intro ss hss
    rw [List.flatMap_eq_nil_iff]
    intro x hx
    simp only [hears]
    rw [hnone _ (hss x hx)]; rfl
  have hconv : ∀ a b : List (InstSync String (Pt K)), conv (a ++ b) = conv a ++ conv b := by intro a b; simp [conv]
  obtain ⟨ho1, ho2⟩ := ho
  rw [gathered, produce_exact, hitems, List.flatMap_append, List.flatMap_cons, hnones o.before fun s hs => ho1 s (by simp [hs]),
    hnones o.after fun s hs => ho1 s (by simp [hs]), List.nil_append, List.append_nil]
  have e2 : o.left ++ styledInst st delta val ci o.start o.now pts :: o.right = o.left ++ ([styledInst st delta val ci o.start o.now pts] ++ o.right) := rfl
  simp only [hears]
  rw [e2, hconv, hconv, List.filter_append, List.filter_append, hnone o.left fun i hi => ho2 i (by simp [hi]), hnone o.right fun i hi => ho2 i (by simp [hi]),
    List.nil_append, List.append_nil]
  by_cases hp : pts = []
  · subst hp; rfl
  · have e3 : Metrics.metricOf (styledInst st delta val ci o.start o.now pts) = some ⟨ci.name, ci.description, ci.unit, st.num,
        styledData st delta o.start o.now (pts.map fun p => st.point (kvsOf val p.1) p.2)⟩ := by
      simp only [Metrics.metricOf, styledInst, styledData, List.map_eq_nil_iff, hp, if_false]
      cases st.kind <;> rfl
    rw [if_neg hp]
    simp only [conv, List.filterMap_cons, e3, List.filterMap_nil, List.map_cons, List.map_nil, Otlp.metricOf]
    rw [List.filter_cons_of_pos (by simp)]
    rfl

/-- The points of the metric are those of the collection. -/
theorem said_points (cast : Cast) (st : Style K A) (hfit : st.Fit) (delta : Bool) (val : V → Val) (res : ResVal K) (ci : CounterId K) (o : Around K)
    (pts : List (Attrs K V × A)) :
    wpoints (saidOf cast st delta val res ci o pts).metric.data = pts.map fun p => wireOf cast st.kind o.start o.now (st.point (kvsOf val p.1) p.2) := by
  simp only [saidOf, styledData]
  obtain ⟨num, kind, point⟩ := st
  simp only [Style.Fit] at hfit
  cases kind with
  | lastValue =>
    simp only [toMData, dataOf, wpoints, List.filterMap_map, List.map_map]
    induction pts with
    | nil => rfl
    | cons p pts ih =>
      have hp := hfit (kvsOf val p.1) p.2
      rw [List.filterMap_cons, List.map_cons, ← ih]
      simp only [Function.comp]
      cases hq : point (kvsOf val p.1) p.2 with
      | num q => rfl
      | hist q => rw [hq] at hp; exact hp.elim
      | expo q => rw [hq] at hp; exact hp.elim
  | sum m =>
    simp only [toMData, dataOf, wpoints, List.filterMap_map, List.map_map]
    induction pts with
    | nil => rfl
    | cons p pts ih =>
      have hp := hfit (kvsOf val p.1) p.2
      rw [List.filterMap_cons, List.map_cons, ← ih]
      simp only [Function.comp]
      cases hq : point (kvsOf val p.1) p.2 with
      | num q => rfl
      | hist q => rw [hq] at hp; exact hp.elim
      | expo q => rw [hq] at hp; exact hp.elim
  | histogram =>
    simp only [toMData, dataOf, wpoints, List.filterMap_map, List.map_map]
    induction pts with
    | nil => rfl
    | cons p pts ih =>
      have hp := hfit (kvsOf val p.1) p.2
      rw [List.filterMap_cons, List.map_cons, ← ih]
      simp only [Function.comp]
      cases hq : point (kvsOf val p.1) p.2 with
      | hist q => rfl
      | num q => rw [hq] at hp; exact hp.elim
      | expo q => rw [hq] at hp; exact hp.elim
  | expoHistogram =>
    simp only [toMData, dataOf, wpoints, List.filterMap_map, List.map_map]
    induction pts with
    | nil => rfl
    | cons p pts ih =>
      have hp := hfit (kvsOf val p.1) p.2
      rw [List.filterMap_cons, List.map_cons, ← ih]
      simp only [Function.comp]
      cases hq : point (kvsOf val p.1) p.2 with
      | expo q => rfl
      | num q => rw [hq] at hp; exact hp.elim
      | hist q => rw [hq] at hp; exact hp.elim

theorem wire_start {cast : Cast} {kind : AggKind} {start now : Nat} (h : start < 2 ^ 64) (p : Pt K) : (wireOf cast kind start now p).start.toNat = start := by
  have e : (toNanos (start : Int)).toNat = start := by
    have := time_exact_partial (t := (start : Int)) (by omega) (by omega)
    omega
  cases p with
  | num p => cases kind <;> exact e
  | hist p => exact e
  | expo p => exact e

theorem wire_time {cast : Cast} {kind : AggKind} {start now : Nat} (h : now < 2 ^ 64) (p : Pt K) : (wireOf cast kind start now p).time.toNat = now := by
  have e : (toNanos (now : Int)).toNat = now := by
    have := time_exact_partial (t := (now : Int)) (by omega) (by omega)
    omega
  cases p with
  | num p => cases kind <;> exact e
  | hist p => exact e
  | expo p => exact e

theorem said_names (cast : Cast) (st : Style K A) (hfit : st.Fit) (delta : Bool) (val : V → Val) (res : ResVal K) (ci : CounterId K) (o : Around K)
    (pts : List (Attrs K V × A)) : Names st.kind delta res ci o.start o.now (saidOf cast st delta val res ci o pts) where
  resource h := readAttrs_attributes h
  schemaUrl := rfl
  scope := ⟨rfl, rfl, rfl⟩
  scopeAttributes h := readAttrs_attributes h
  name := ⟨rfl, rfl, rfl⟩
  kind := by
    simp only [saidOf, styledData]
    cases hk : st.kind <;> cases delta <;> simp [toMData, dataOf, SaysKind, tempOf, temporalityNumber]
  start h := by
    intro q hq
    rw [said_points cast st hfit] at hq
    obtain ⟨p, _, rfl⟩ := List.mem_map.1 hq
    exact wire_start h _
  time h := by
    intro q hq
    rw [said_points cast st hfit] at hq
    obtain ⟨p, _, rfl⟩ := List.mem_map.1 hq
    exact wire_time h _

/-! ## Lemmas: all collections -/

theorem intervals_concat (f : Nat → Nat → (Nat × Nat) × Nat) (t0 n : Nat) (nows : List Nat) :
    intervals f t0 (nows ++ [n]) = intervals f t0 nows ++ [(f (nows.foldl (fun t n => (f t n).2) t0) n).1] := by
  induction nows generalizing t0 with
  | nil => rfl
  | cons m nows ih => simp only [List.cons_append, intervals, ih, List.foldl_cons]

theorem timesOf_now (delta : Bool) (t n : Nat) : (timesOf delta t n).1.2 = n := by cases delta <;> rfl

/-- The collections made, with what surrounded them: their times are those of C44; what the collector hears is said of some of those that are not empty, in order; of all
of them, if every export succeeded. -/
theorem measured_heard {cc : Conc.Cfg K V A X} {st : Style K A} {val : V → Val} {dflt : Scope K} {res : ResVal K} {ci : CounterId K} {cast : Cast}
    {decode : Y → Option (PRequest K (PMetric K))} {c : Exporter.Cfg Unit (Batch K) (PRequest K (PMetric K)) Y} (hc : MetricCfg cast decode c) {t0 t : Nat}
    {s : Conc.State K V A X} {e : Exporter.St Unit} {log : List (Sending Y)} (h : Measured cc st val dflt res ci c t0 s t e log) :
    ∃ all bs : List (Conc.Collection K V A X × Around K), all.map Prod.fst = s.done ∧
      (all.map fun x => (x.2.start, x.2.now)) = intervals (timesOf cc.delta) t0 (all.map (·.2.now)) ∧
      t = (all.map (·.2.now)).foldl (fun t n => (timesOf cc.delta t n).2) t0 ∧
      List.Sublist bs (all.filter fun x => !x.1.points.isEmpty) ∧
      heard decode ci.name (requests log) = bs.map (fun x => saidOf cast st cc.delta val res ci x.2 x.1.points) ∧
      (Exporter.TellsStatus c → AllOk log → bs = all.filter fun x => !x.1.points.isEmpty) := by
  induction h with
  | init => exact ⟨[], [], rfl, rfl, rfl, List.Sublist.refl _, rfl, fun _ _ => rfl⟩
  | work a _ _ he ih => rw [he]; exact ih
  | shut _ ih => exact ih
  | nothing a r o _ _ he ho ht hn ih =>
    obtain ⟨all, bs, h1, h2, h3, h4, h5, h6⟩ := ih
    have hempty : r.points = [] := by
      by_contra hp
      have := message_heard st cc.delta val dflt res ci o ho cast r.points
      rw [if_neg hp, metricsMessage, metricsRequest, hn] at this
      simp [heardIn] at this
    have hf : (all ++ [(r, o)]).filter (fun x => !x.1.points.isEmpty) = all.filter fun x => !x.1.points.isEmpty := by
      rw [List.filter_append]; simp [hempty]
    refine ⟨all ++ [(r, o)], bs, by rw [he, List.map_append, h1]; rfl, ?_, ?_, by rw [hf]; exact h4, h5, by rw [hf]; exact h6⟩
    · rw [List.map_append, List.map_append, List.map_singleton, List.map_singleton, intervals_concat, ← h3, h2]
      congr 2
      exact Prod.ext ht.symm (timesOf_now ..).symm
    · rw [List.map_append, List.foldl_append, ← h3]; rfl
  | @«export» s s' t e log a r o w _ _ he ho ht hn ih =>
    obtain ⟨all, bs, h1, h2, h3, h4, h5, h6⟩ := ih
    have k2 : ((all ++ [(r, o)]).map fun x => (x.2.start, x.2.now)) = intervals (timesOf cc.delta) t0 ((all ++ [(r, o)]).map (·.2.now)) := by
      rw [List.map_append, List.map_append, List.map_singleton, List.map_singleton, intervals_concat, ← h3, h2]
      congr 2
      exact Prod.ext ht.symm (timesOf_now ..).symm
    have k3 : (timesOf cc.delta t o.now).2 = ((all ++ [(r, o)]).map (·.2.now)).foldl (fun t n => (timesOf cc.delta t n).2) t0 := by
      rw [List.map_append, List.foldl_append, ← h3]; rfl
    have hf : (all ++ [(r, o)]).filter (fun x => !x.1.points.isEmpty) = (all.filter fun x => !x.1.points.isEmpty) ++ if r.points = [] then [] else [(r, o)] := by
      rw [List.filter_append]
      by_cases hp : r.points = []
      · simp [hp]
      · simp [hp]
    generalize hb : gathered st cc.delta val dflt res ci o r.points = b
    have hr : requests (log ++ [(⟨w, (Exporter.doExport c e b w).1, (Exporter.doExport c e b w).2⟩ : Sending Y)]) = requests log ++ (Exporter.doExport c e b w).2 := by
      rw [requests, List.flatMap_append]
      simp [requests]
    have hall : AllOk (log ++ [(⟨w, (Exporter.doExport c e b w).1, (Exporter.doExport c e b w).2⟩ : Sending Y)]) →
        AllOk log ∧ (Exporter.doExport c e b w).1 = .ok := fun ha =>
      ⟨fun x hx => ha x (by simp [hx]), ha ⟨w, _, (Exporter.doExport c e b w).2⟩ (by simp)⟩
    rcases Exporter.doExport_sent c e b w with hs | ⟨q, hs, henc, _⟩
    · refine ⟨all ++ [(r, o)], bs, by rw [he, List.map_append, h1]; rfl, k2, k3, ?_, ?_, fun ht ha => ?_⟩
      · rw [hf]; exact h4.trans (List.sublist_append_left _ _)
      · rw [hr, hs, List.append_nil]; exact h5
      · obtain ⟨_, q, hq, _⟩ := (Exporter.doExport_ok c ht e b w).1 (hall ha).2
        rw [hs] at hq
        cases hq
    · rw [hc.message] at henc
      refine ⟨all ++ [(r, o)], bs ++ (if r.points = [] then [] else [(r, o)]), by rw [he, List.map_append, h1]; rfl, k2, k3, ?_, ?_, fun ht ha => ?_⟩
      · rw [hf]; exact h4.append (List.Sublist.refl _)
      · have hq : heard decode ci.name [q] = if r.points = [] then [] else [saidOf cast st cc.delta val res ci o r.points] := by
          simp only [heard, List.flatMap_cons, List.flatMap_nil, List.append_nil, hc.wire _ _ henc]
          rw [← hb]
          exact message_heard st cc.delta val dflt res ci o ho cast r.points
        rw [hr, hs, heard, List.flatMap_append, List.map_append]
        congr 1
        rw [← heard, hq]
        by_cases hp : r.points = []
        · simp [hp]
        · simp [hp]
      · rw [hf, h6 ht (hall ha).1]

theorem measured_reachable {cc : Conc.Cfg K V A X} {st : Style K A} {val : V → Val} {dflt : Scope K} {res : ResVal K} {ci : CounterId K}
    {c : Exporter.Cfg Unit (Batch K) (PRequest K (PMetric K)) Y} {t0 t : Nat} {s : Conc.State K V A X} {e : Exporter.St Unit} {log : List (Sending Y)}
    (h : Measured cc st val dflt res ci c t0 s t e log) : Conc.Reachable cc s := by
  induction h with
  | init => exact .init
  | work a _ hs _ ih => exact .step ih a hs
  | nothing a r o _ hs _ _ _ _ ih => exact .step ih a hs
  | «export» a r o w _ hs _ _ _ _ ih => exact .step ih a hs
  | shut _ ih => exact ih

/-- The points on the wire tell what the points of the store aggregate. -/
theorem carries_of {srt : Sorter K V} {agg : Aggregator A X} {val : V → Val} (hinj : Function.Injective val) (hplain : ∀ v, NotEmptyArray (val v))
    {reads : WPt K → List X → Prop} {ok : Attrs K V → List X → Prop} {must : Attrs K V → Prop} {pts : List (Attrs K V × A)} {f : List (K × Val) → A → WPt K}
    (hattr : ∀ kvs x, (f kvs x).attributes = attributes kvs) (hreads : ∀ kvs a xs, ok a xs → reads (f kvs (xs.foldl agg.update agg.create)) xs)
    (h : Conc.PointsOf srt agg ok must pts) : CarriesPoints srt val reads ok must (pts.map fun p => f (kvsOf val p.1) p.2) := by
  have hread : ∀ p : Attrs K V × A, ReadsSet val (f (kvsOf val p.1) p.2).attributes p.1 := fun p => by
    rw [hattr]
    exact readAttrs_attributes fun kv hkv => by
      obtain ⟨kv', _, rfl⟩ := List.mem_map.1 hkv
      exact hplain _
  have hone : ∀ (kvs : List (PKv K)) (a b : Attrs K V), ReadsSet val kvs a → ReadsSet val kvs b → a = b := by
    intro kvs a b ha hb
    have hpair : Function.Injective fun kv : K × V => (kv.1, val kv.2) := fun p q hpq => Prod.ext (Prod.mk.inj hpq).1 (hinj (Prod.mk.inj hpq).2)
    rw [ReadsSet, hb] at ha
    exact (List.map_injective_iff.2 hpair (Option.some.inj ha)).symm
  refine ⟨?_, fun q hq => ?_, fun a ha => ?_⟩
  · have hd := h.distinct
    rw [List.Nodup, List.pairwise_map] at hd
    rw [List.pairwise_map]
    refine hd.imp fun {p q} hpq a b ha hb => ?_
    rw [hone _ _ _ ha (hread p), hone _ _ _ hb (hread q)]
    exact hpq
  · obtain ⟨p, hp, rfl⟩ := List.mem_map.1 hq
    obtain ⟨xs, h1, h2⟩ := h.values p hp
    refine ⟨p.1, xs, hread p, h1, ?_⟩
    rw [h2]
    exact hreads _ _ _ h1
  · obtain ⟨p, hp, hpa⟩ := h.complete a ha
    exact ⟨_, List.mem_map_of_mem hp, p.1, hread p, hpa⟩

theorem CarriesPoints.readsOne {val : V → Val} (hinj : Function.Injective val) {kvs : List (PKv K)} {a b : Attrs K V} (ha : ReadsSet val kvs a) (hb : ReadsSet val kvs b) : a = b := by
  have hpair : Function.Injective fun kv : K × V => (kv.1, val kv.2) := fun p q hpq => Prod.ext (Prod.mk.inj hpq).1 (hinj (Prod.mk.inj hpq).2)
  rw [ReadsSet, hb] at ha
  exact (List.map_injective_iff.2 hpair (Option.some.inj ha)).symm

/-- The data points have the attributes they are made with. -/
def Style.Keeps (st : Style K A) : Prop := ∀ cast start now kvs x, (wireOf cast st.kind start now (st.point kvs x)).attributes = attributes kvs

theorem forall₂_map_self {α β : Type} {R : α → β → Prop} {f : α → β} {l : List α} (h : ∀ a ∈ l, R a (f a)) : List.Forall₂ R l (l.map f) := by
  induction l with
  | nil => exact .nil
  | cons a l ih => exact .cons (h a (by simp)) (ih fun b hb => h b (by simp [hb]))

/-! ## C99 -/

/-- C99: for every schedule of threads and collections of an instrument with delta temporality and whatever the network does: the times of the collections follow each
other without gaps; the collector receives a metric for some of them, in order; each is the instrument's, and has exactly one point for each attribute set measured in
its period, that tells the values of that period; what it is told for a set is part of what was recorded for it, in order, nothing twice. If every export succeeded it is
told everything but what is still in the store. For at most as many attribute sets as the limit, and attribute values that are not empty arrays (C52). -/
theorem instrument_delta_partial {cc : Conc.Cfg K V A X} (hd : cc.delta = true) {st : Style K A} (hfit : st.Fit) (hkeep : st.Keeps) {val : V → Val} (hinj : Function.Injective val)
    (hplain : ∀ v, NotEmptyArray (val v)) {dflt : Scope K} {res : ResVal K} {ci : CounterId K} {cast : Cast} {decode : Y → Option (PRequest K (PMetric K))}
    {c : Exporter.Cfg Unit (Batch K) (PRequest K (PMetric K)) Y} (hc : MetricCfg cast decode c) {reads : WPt K → List X → Prop}
    (hreads : ∀ start now kvs xs, reads (wireOf cast st.kind start now (st.point kvs (xs.foldl cc.agg.update cc.agg.create))) xs) {t0 t : Nat}
    {s : Conc.State K V A X} {e : Exporter.St Unit} {log : List (Sending Y)} (h : Measured cc st val dflt res ci c t0 s t e log) {L : List (Attrs K V)}
    (hL : L.length ≤ cc.limit) (hsets : ∀ e ∈ s.applied, e.2.2 ≠ [] → sortAndDedup cc.srt e.2.2 ∈ L) :
    ∃ all bs : List (Conc.Collection K V A X × Around K), all.map Prod.fst = s.done ∧
      (all.map fun x => (x.2.start, x.2.now)) = intervals timeDelta t0 (all.map (·.2.now)) ∧ List.Sublist bs all ∧
      List.Forall₂ (fun x m => Names st.kind true res ci x.2.start x.2.now m ∧
        CarriesPoints cc.srt val reads (Conc.deltaOk cc.srt x.1) (Conc.deltaMust cc.srt x.1) (wpoints m.metric.data)) bs (heard decode ci.name (requests log)) ∧
      (∀ a, List.Sublist (bs.flatMap fun x => Conc.setValues cc.srt x.1.period (x.1.noVals.getD []) a) (Conc.recordedOf cc.srt s a)) ∧
      (Exporter.TellsStatus c → AllOk log → ∀ a, Conc.recordedOf cc.srt s a = (bs.flatMap fun x => Conc.setValues cc.srt x.1.period (x.1.noVals.getD []) a) ++
        Conc.setValues cc.srt (s.cur.period ++ s.hist) (s.cur.noVals.getD [] ++ s.noHist) a) := by
  obtain ⟨all, bs, h1, h2, h3, h4, h5, h6⟩ := measured_heard hc h
  have hr := measured_reachable h
  have hdone := Conc.delta_sets hd hr hL hsets
  have hmem : ∀ x ∈ all, x.1 ∈ s.done := fun x hx => by rw [← h1]; exact List.mem_map_of_mem hx
  have hsub : List.Sublist bs all := h4.trans List.filter_sublist
  have hpart : ∀ a, Conc.recordedOf cc.srt s a = (all.flatMap fun x => Conc.setValues cc.srt x.1.period (x.1.noVals.getD []) a) ++
      Conc.setValues cc.srt (s.cur.period ++ s.hist) (s.cur.noVals.getD [] ++ s.noHist) a := fun a => by
    rw [Conc.delta_partition hd hr, ← h1, List.flatMap_map]
  have hflat : ∀ {l l' : List (Conc.Collection K V A X × Around K)} (f : Conc.Collection K V A X × Around K → List X), List.Sublist l l' →
      List.Sublist (l.flatMap f) (l'.flatMap f) := by
    intro l l' f hl
    induction hl with
    | slnil => exact .slnil
    | cons x _ ih => rw [List.flatMap_cons]; exact ih.trans (List.sublist_append_right _ _)
    | cons_cons x _ ih => rw [List.flatMap_cons, List.flatMap_cons]; exact (List.Sublist.refl _).append ih
  have htimes : timesOf cc.delta = timeDelta := by rw [hd]; rfl
  refine ⟨all, bs, h1, by rw [h2, htimes], hsub, ?_, fun a => ?_, fun ht ha a => ?_⟩
  · rw [h5]
    refine forall₂_map_self fun x hx => ⟨by rw [hd]; exact said_names cast st hfit true val res ci x.2 x.1.points, ?_⟩
    rw [said_points cast st hfit]
    exact carries_of hinj hplain (f := fun kvs x' => wireOf cast st.kind x.2.start x.2.now (st.point kvs x')) (hkeep _ _ _) (fun kvs _ xs _ => hreads _ _ kvs xs)
      (hdone x.1 (hmem x (hsub.subset hx)))
  · rw [hpart]
    exact (hflat _ hsub).trans (List.sublist_append_left _ _)
  · rw [hpart]
    congr 1
    rw [h6 ht ha]
    have hnone : ∀ x ∈ all, x.1.points = [] → Conc.setValues cc.srt x.1.period (x.1.noVals.getD []) a = [] := fun x hx hp => by
      by_contra hne
      obtain ⟨p, hp', _⟩ := (hdone x.1 (hmem x hx)).complete a hne
      rw [hp] at hp'
      cases hp'
    clear h1 h2 h3 h4 h6 hmem hsub hpart
    induction all with
    | nil => rfl
    | cons x all ih =>
      have ih' := ih fun y hy => hnone y (by simp [hy])
      by_cases hp : x.1.points = []
      · rw [List.flatMap_cons, hnone x (by simp) hp, ih', List.filter_cons_of_neg (by simp [hp])]; rfl
      · rw [List.flatMap_cons, ih', List.filter_cons_of_pos (by simp [hp]), List.flatMap_cons]

/-- C99: the same with cumulative temporality: all collections start at the same time; a point tells all values recorded for its set up to a moment of its collection;
whatever was recorded before the collection began is in it, so that a lost export is made up for by the next; later metrics tell everything that earlier ones told. -/
theorem instrument_cumulative_partial {cc : Conc.Cfg K V A X} (hd : cc.delta = false) {st : Style K A} (hfit : st.Fit) (hkeep : st.Keeps) {val : V → Val}
    (hinj : Function.Injective val) (hplain : ∀ v, NotEmptyArray (val v)) {dflt : Scope K} {res : ResVal K} {ci : CounterId K} {cast : Cast}
    {decode : Y → Option (PRequest K (PMetric K))} {c : Exporter.Cfg Unit (Batch K) (PRequest K (PMetric K)) Y} (hc : MetricCfg cast decode c)
    {reads : WPt K → List X → Prop} (hreads : ∀ start now kvs xs, reads (wireOf cast st.kind start now (st.point kvs (xs.foldl cc.agg.update cc.agg.create))) xs) {t0 t : Nat}
    {s : Conc.State K V A X} {e : Exporter.St Unit} {log : List (Sending Y)} (h : Measured cc st val dflt res ci c t0 s t e log) {L : List (Attrs K V)}
    (hL : L.length ≤ cc.limit) (hsets : ∀ e ∈ s.applied, e.2.2 ≠ [] → sortAndDedup cc.srt e.2.2 ∈ L) :
    ∃ all bs : List (Conc.Collection K V A X × Around K), all.map Prod.fst = s.done ∧
      (all.map fun x => (x.2.start, x.2.now)) = intervals timeCumulative t0 (all.map (·.2.now)) ∧ List.Sublist bs all ∧
      (Exporter.TellsStatus c → AllOk log → bs = all.filter fun x => !x.1.points.isEmpty) ∧
      List.Forall₂ (fun x m => Names st.kind false res ci t0 x.2.now m ∧
        CarriesPoints cc.srt val reads (Conc.cumOk cc.srt x.1) (Conc.cumMust cc.srt x.1) (wpoints m.metric.data)) bs (heard decode ci.name (requests log)) ∧
      (∀ x ∈ bs, ∀ a xs, Conc.cumOk cc.srt x.1 a xs → Conc.setValues cc.srt x.1.startHist x.1.startNo a <+: xs ∧ xs <+: Conc.recordedOf cc.srt s a) ∧
      bs.Pairwise fun x y => ∀ a xs ys, Conc.cumOk cc.srt x.1 a xs → Conc.cumOk cc.srt y.1 a ys → xs <+: ys := by
  obtain ⟨all, bs, h1, h2, _, h4, h5, h6⟩ := measured_heard hc h
  have hr := measured_reachable h
  have hdone := Conc.cumulative_sets hd hr hL hsets
  have hmem : ∀ x ∈ all, x.1 ∈ s.done := fun x hx => by rw [← h1]; exact List.mem_map_of_mem hx
  have hsub : List.Sublist bs all := h4.trans List.filter_sublist
  have htimes : timesOf cc.delta = timeCumulative := by rw [hd]; rfl
  have hstart : ∀ x ∈ all, x.2.start = t0 := by
    rw [htimes] at h2
    have key : ∀ (nows : List Nat) (l : List (Conc.Collection K V A X × Around K)), (l.map fun x => (x.2.start, x.2.now)) = intervals timeCumulative t0 nows → ∀ x ∈ l, x.2.start = t0 := by
      intro nows
      induction nows with
      | nil => intro l hl x hx; rw [List.map_eq_nil_iff.1 hl] at hx; cases hx
      | cons n nows ih =>
        intro l hl x hx
        cases l with
        | nil => cases hx
        | cons y l =>
          rw [List.map_cons] at hl
          obtain ⟨e1, e2⟩ := List.cons.inj hl
          rcases List.mem_cons.1 hx with rfl | hx
          · exact (Prod.mk.inj e1).1
          · exact ih l e2 x hx
    exact key _ _ h2
  refine ⟨all, bs, h1, by rw [h2, htimes], hsub, h6, ?_, fun x hx a xs hok => Conc.cumulative_within hd hr (hmem x (hsub.subset hx)) hok, ?_⟩
  · rw [h5]
    refine forall₂_map_self fun x hx => ⟨?_, ?_⟩
    · have := said_names cast st hfit false val res ci x.2 x.1.points
      rw [hstart x (hsub.subset hx)] at this
      rw [hd]; exact this
    · rw [said_points cast st hfit]
      exact carries_of hinj hplain (f := fun kvs x' => wireOf cast st.kind x.2.start x.2.now (st.point kvs x')) (hkeep _ _ _) (fun kvs _ xs _ => hreads _ _ kvs xs)
        (hdone x.1 (hmem x (hsub.subset hx)))
  · have hg := Conc.cumulative_grows hd hr
    rw [← h1, List.pairwise_map] at hg
    exact hg.sublist hsub

/-! ## The instruments -/

/-- The integer of a received point. -/
def TellsInt (q : WPt K) (i : Int) : Prop := ∃ p, q = .num p ∧ p.value.value = .int i

/-- The double of a received point. -/
def TellsDouble (q : WPt K) (w : BitVec 64) : Prop := ∃ p, q = .num p ∧ p.value.value = .double w

/-- A `u64` counter. sum.rs:70-170 -/
def u64Sum (mono : Bool) : Style K (BitVec 64) := ⟨.u64, .sum mono, fun kvs x => .num ⟨kvs, .u64 x, []⟩⟩

/-- An `i64` up-down counter. sum.rs:70-170 -/
def i64Sum (mono : Bool) : Style K (BitVec 64) := ⟨.i64, .sum mono, fun kvs x => .num ⟨kvs, .i64 x, []⟩⟩

/-- An `f64` counter, in words. sum.rs:70-170 -/
def f64Sum (mono : Bool) : Style K (BitVec 64) := ⟨.f64, .sum mono, fun kvs x => .num ⟨kvs, .f64 x, []⟩⟩

/-- A gauge. last_value.rs:66-159 -/
def gaugeOf {N : Type} (k : NumKind) (toNum : N → Num) : Style K N := ⟨k, .lastValue, fun kvs x => .num ⟨kvs, toNum x, []⟩⟩

/-- An explicit bucket histogram: the point of C40 with counts as `u64` and floats as words. histogram.rs:111-252 -/
def histogramOf {N : Type} (k : NumKind) (toNum : N → Num) (word : Rust.F64 → BitVec 64) (num : NumOps N) (bounds : List Rust.F64) (mm rs : Bool) : Style K (Buckets N) :=
  ⟨k, .histogram, fun kvs b =>
    let d := histogramPoint num bounds mm rs b
    .hist ⟨kvs, BitVec.ofNat 64 d.count, d.bounds.map word, d.bucketCounts.map (BitVec.ofNat 64), d.min.map toNum, d.max.map toNum, toNum d.sum, []⟩⟩

theorem u64Sum_ok (mono : Bool) : (u64Sum (K := K) mono).Fit ∧ (u64Sum (K := K) mono).Keeps := ⟨fun _ _ => trivial, fun _ _ _ _ _ => rfl⟩
theorem i64Sum_ok (mono : Bool) : (i64Sum (K := K) mono).Fit ∧ (i64Sum (K := K) mono).Keeps := ⟨fun _ _ => trivial, fun _ _ _ _ _ => rfl⟩
theorem f64Sum_ok (mono : Bool) : (f64Sum (K := K) mono).Fit ∧ (f64Sum (K := K) mono).Keeps := ⟨fun _ _ => trivial, fun _ _ _ _ _ => rfl⟩
theorem gaugeOf_ok {N : Type} (k : NumKind) (toNum : N → Num) : (gaugeOf (K := K) k toNum).Fit ∧ (gaugeOf (K := K) k toNum).Keeps := ⟨fun _ _ => trivial, fun _ _ _ _ _ => rfl⟩
theorem histogramOf_ok {N : Type} (k : NumKind) (toNum : N → Num) (word : Rust.F64 → BitVec 64) (num : NumOps N) (bounds : List Rust.F64) (mm rs : Bool) :
    (histogramOf (K := K) k toNum word num bounds mm rs).Fit ∧ (histogramOf (K := K) k toNum word num bounds mm rs).Keeps := ⟨fun _ _ => trivial, fun _ _ _ _ _ => rfl⟩

/-- C99: the kind that the received metric has: a sum, monotonic for counters only, a gauge, a histogram. -/
theorem instrument_kinds (mono : Bool) : (u64Sum (K := K) mono).kind = .sum mono ∧ (i64Sum (K := K) mono).kind = .sum mono ∧ (f64Sum (K := K) mono).kind = .sum mono ∧
    (∀ (N : Type) (k : NumKind) (toNum : N → Num), (gaugeOf (K := K) k toNum).kind = .lastValue) ∧
    ∀ (N : Type) (k : NumKind) (toNum : N → Num) (word : Rust.F64 → BitVec 64) (num : NumOps N) (bounds : List Rust.F64) (mm rs : Bool),
      (histogramOf (K := K) k toNum word num bounds mm rs).kind = .histogram :=
  ⟨rfl, rfl, rfl, fun _ _ _ => rfl, fun _ _ _ _ _ _ _ _ => rfl⟩

/-- C99, counters: the point is the sum of the values, if that is less than 2^63 (C54). -/
theorem u64_reads (cast : Cast) (mono : Bool) (start now : Nat) (kvs : List (K × Val)) (xs : List (BitVec 64)) :
    (xs.map BitVec.toNat).sum < 2 ^ 63 → TellsInt (wireOf cast (u64Sum (K := K) mono).kind start now ((u64Sum mono).point kvs
      (xs.foldl (increment (BitVec 64)).update (increment (BitVec 64)).create))) (xs.map BitVec.toNat).sum := by
  intro hb
  have hf := foldl_toNat xs 0 (by simp; omega)
  refine ⟨_, rfl, ?_⟩
  have e : ((xs.foldl (increment (BitVec 64)).update (increment (BitVec 64)).create).toNat) = (xs.map BitVec.toNat).sum := by
    refine Eq.trans hf ?_; simp
  have := number_exact_partial (n := .u64 (xs.foldl (increment (BitVec 64)).update (increment (BitVec 64)).create)) (by rw [Num.Fits, e]; exact hb)
  refine Eq.trans this ?_
  rw [Num.value, e]

theorem foldl_toInt (l : List (BitVec 64)) (b : BitVec 64) : (l.foldl (· + ·) b).toInt = (b.toInt + (l.map BitVec.toInt).sum).bmod (2 ^ 64) := by
  induction l generalizing b with
  | nil => rw [List.foldl_nil, List.map_nil, List.sum_nil, Int.add_zero]; exact (BitVec.toInt_bmod_cancel b).symm
  | cons x l ih =>
    rw [List.foldl_cons, ih, BitVec.toInt_add, List.map_cons, List.sum_cons, Int.bmod_add_bmod, Int.add_assoc]

/-- C99, up-down counters: the point is the sum, if that is an `i64`; sums on the way may wrap. -/
theorem i64_reads (cast : Cast) (mono : Bool) (start now : Nat) (kvs : List (K × Val)) (xs : List (BitVec 64)) :
    -2 ^ 63 ≤ (xs.map BitVec.toInt).sum → (xs.map BitVec.toInt).sum < 2 ^ 63 → TellsInt (wireOf cast (i64Sum (K := K) mono).kind start now ((i64Sum mono).point kvs
      (xs.foldl (increment (BitVec 64)).update (increment (BitVec 64)).create))) (xs.map BitVec.toInt).sum := by
  intro h1 h2
  refine ⟨_, rfl, ?_⟩
  have hf := foldl_toInt xs 0
  rw [show (0 : BitVec 64).toInt = 0 from rfl, Int.zero_add, Int.bmod_eq_of_le (by omega) (by omega)] at hf
  exact congrArg NumVal.int hf

/-- C99, counters of doubles: the point is the sum, added in the order of the measurements. -/
theorem f64_reads (cast : Cast) (mono : Bool) (zero : BitVec 64) (add : BitVec 64 → BitVec 64 → BitVec 64) (start now : Nat) (kvs : List (K × Val)) (xs : List (BitVec 64)) :
    TellsDouble (wireOf cast (f64Sum (K := K) mono).kind start now ((f64Sum mono).point kvs (xs.foldl (Aggregator.mk zero add).update (Aggregator.mk zero add).create))) (xs.foldl add zero) :=
  ⟨_, rfl, rfl⟩

/-- C99, gauges: the point is the last value. -/
theorem gauge_reads {N : Type} (cast : Cast) (k : NumKind) (toNum : N → Num) (zero : N) (start now : Nat) (kvs : List (K × Val)) (xs : List N) :
    ∀ x, xs.getLast? = some x → (toNum x).Fits → ∃ p, wireOf cast (gaugeOf (K := K) k toNum).kind start now ((gaugeOf k toNum).point kvs
      (xs.foldl (assign N zero).update (assign N zero).create)) = .num p ∧ p.value.value = (toNum x).value := by
  intro x hx hfits
  refine ⟨_, rfl, ?_⟩
  rw [assign_foldl, hx]
  exact number_exact_partial hfits

open Classical in
/-- What a received histogram point tells about values. -/
structure TellsHistogram {N : Type} (cast : Cast) (toNum : N → Num) (word : Rust.F64 → BitVec 64) (num : NumOps N) (bounds : List Rust.F64) (mm rs : Bool)
    (q : WPt K) (ys : List N) : Prop where
  point : ∃ p, q = .hist p ∧
    p.count.toNat = ys.length ∧ p.explicitBounds = bounds.map word ∧ p.bucketCounts.length = bounds.length + 1 ∧
    (∀ i ≤ bounds.length, ∃ n, p.bucketCounts[i]? = some n ∧ n.toNat = (ys.filter fun y => decide (InBucket bounds i (num.toF y))).length) ∧
    p.sum = some (intoF64 cast (toNum (if rs then ys.foldl num.add num.zero else num.zero))) ∧
    (mm = true → ∃ m ∈ ys, (∀ y ∈ ys, num.lt y m = false) ∧ p.min = some (intoF64 cast (toNum m))) ∧
    (mm = true → ∃ m ∈ ys, (∀ y ∈ ys, num.lt m y = false) ∧ p.max = some (intoF64 cast (toNum m))) ∧
    (mm = false → p.min = none ∧ p.max = none)

/-- C99, histograms: count, buckets, sum, minimum and maximum of the values. See `histogram_correct` for the conditions. -/
theorem histogram_reads {N : Type} (cast : Cast) (k : NumKind) (toNum : N → Num) (word : Rust.F64 → BitVec 64) (num : NumOps N) (P : PartitionPoint) (bounds : List Rust.F64)
    (hb : Increasing bounds) (mm rs : Bool) (Q : N → Prop) (hQ : TotalOn num Q) (htop : Q num.top) (hbot : Q num.bot) (start now : Nat) (kvs : List (K × Val))
    (xs : List (N × Nat)) : ∀ ys : List N, xs = ys.map (histogramInput num P bounds) → ys ≠ [] → ys.length < 2 ^ 64 →
      (∀ y ∈ ys, Q y ∧ num.toF y ≠ .nan ∧ num.lt num.top y = false ∧ num.lt y num.bot = false) →
      TellsHistogram cast toNum word num bounds mm rs (wireOf cast (histogramOf (K := K) k toNum word num bounds mm rs).kind start now
        ((histogramOf k toNum word num bounds mm rs).point kvs (xs.foldl (bucketsAgg num (bounds.length + 1)).update (bucketsAgg num (bounds.length + 1)).create))) ys := by
  rintro ys rfl hne hlen hy
  have hh := histogram_correct num P bounds hb mm rs ys hne (fun y h => (hy y h).2.1) Q hQ (fun y h => (hy y h).1) htop hbot (fun y h => (hy y h).2.2.1) fun y h => (hy y h).2.2.2
  generalize hg : histogramPoint num bounds mm rs ((ys.map (histogramInput num P bounds)).foldl (bucketsAgg num (bounds.length + 1)).update
    (bucketsAgg num (bounds.length + 1)).create) = d at hh
  refine ⟨⟨_, rfl, ?_⟩⟩
  show _ ∧ _
  simp only [histPointOf, hg]
  have hmm : mm = true → d.min.isSome ∧ d.max.isSome := fun hm => by rw [← hg]; simp [histogramPoint, hm]
  refine ⟨?_, by rw [hh.limits], by rw [List.length_map]; exact hh.buckets, fun i hi => ?_, by rw [hh.sum], fun hm => ?_, fun hm => ?_, fun hm => ?_⟩
  · rw [hh.count, BitVec.toNat_ofNat, Nat.mod_eq_of_lt hlen]
  · refine ⟨_, by rw [List.getElem?_map, hh.bucket i hi]; rfl, ?_⟩
    rw [BitVec.toNat_ofNat]
    exact Nat.mod_eq_of_lt (Nat.lt_of_le_of_lt (List.length_filter_le _ _) hlen)
  · obtain ⟨m, hm'⟩ := Option.isSome_iff_exists.1 (hmm hm).1
    obtain ⟨_, g1, g2⟩ := (hh.min m).1 hm'
    exact ⟨m, g1, g2, by rw [hm']; rfl⟩
  · obtain ⟨m, hm'⟩ := Option.isSome_iff_exists.1 (hmm hm).2
    obtain ⟨_, g1, g2⟩ := (hh.max m).1 hm'
    exact ⟨m, g1, g2, by rw [hm']; rfl⟩
  · rw [← hg]; simp [histogramPoint, hm]

/-- C99: the values of a cumulative counter that a collector receives for a set never decrease. -/
theorem counter_cumulative_increases {cc : Conc.Cfg K V (BitVec 64) (BitVec 64)} (hagg : cc.agg = increment (BitVec 64)) (hd : cc.delta = false) (mono : Bool) {val : V → Val}
    (hinj : Function.Injective val) (hplain : ∀ v, NotEmptyArray (val v)) {dflt : Scope K} {res : ResVal K} {ci : CounterId K} {cast : Cast}
    {decode : Y → Option (PRequest K (PMetric K))} {c : Exporter.Cfg Unit (Batch K) (PRequest K (PMetric K)) Y} (hc : MetricCfg cast decode c) {t0 t : Nat}
    {s : Store K V} {e : Exporter.St Unit} {log : List (Sending Y)} (h : Measured cc (u64Sum mono) val dflt res ci c t0 s t e log) {L : List (Attrs K V)}
    (hL : L.length ≤ cc.limit) (hsets : ∀ e ∈ s.applied, e.2.2 ≠ [] → sortAndDedup cc.srt e.2.2 ∈ L) (hbound : recorded s < 2 ^ 63) :
    (heard decode ci.name (requests log)).Pairwise fun m m' => ∀ p ∈ wpoints m.metric.data, ∀ p' ∈ wpoints m'.metric.data, ∀ a b,
      ReadsSet val p.attributes a → ReadsSet val p'.attributes b → sortAndDedup cc.srt a = sortAndDedup cc.srt b →
      ∃ i j, TellsInt p i ∧ TellsInt p' j ∧ 0 ≤ i ∧ i ≤ j := by
  obtain ⟨all, bs, h1, ht, hsub, hok, hm, hw, hg⟩ := instrument_cumulative_partial hd (u64Sum_ok mono).1 (u64Sum_ok mono).2 hinj hplain hc
    (reads := fun q xs => (xs.map BitVec.toNat).sum < 2 ^ 63 → TellsInt q (xs.map BitVec.toNat).sum) (fun start now kvs xs => by rw [hagg]; exact u64_reads cast mono start now kvs xs)
    h hL hsets
  have hsmall : ∀ x ∈ bs, ∀ a xs, Conc.cumOk cc.srt x.1 a xs → (xs.map BitVec.toNat).sum < 2 ^ 63 := fun x hx a xs hok => by
    have k1 := sum_sublist ((hw x hx a xs hok).2.sublist.map BitVec.toNat)
    have k2 : ((Conc.recordedOf cc.srt s a).map BitVec.toNat).sum ≤ recorded s := by
      rw [Conc.recordedOf, List.map_map]
      exact sum_sublist (List.filter_sublist.map _)
    omega
  have hsame : ∀ (r : Conc.Collection K V (BitVec 64) (BitVec 64)) (a b : Attrs K V) xs, sortAndDedup cc.srt a = sortAndDedup cc.srt b → Conc.cumOk cc.srt r a xs → Conc.cumOk cc.srt r b xs := by
    rintro r a b xs hab ⟨h', no, g1, g2, g3, g4, g5⟩
    have hnil : a = [] ↔ b = [] := by rw [← canon_eq_nil cc.srt a, ← canon_eq_nil cc.srt b, hab]
    refine ⟨h', no, g1, g2, fun hb => g3 (hnil.2 hb), ?_, fun hb => g5 fun ha => hb (hnil.1 ha)⟩
    rw [g4, Conc.setValues, Conc.setValues, hab]
    simp only [hnil]
  generalize heard decode ci.name (requests log) = ms at hm
  clear h hsub h1 hok ht
  induction hm with
  | nil => exact List.Pairwise.nil
  | @cons x m bs ms hxm hrest ih =>
    rw [List.pairwise_cons] at hg ⊢
    refine ⟨fun m' hm' p hp p' hp' a b ha hb hab => ?_, ih (fun y hy => hw y (by simp [hy])) hg.2 fun y hy => hsmall y (by simp [hy])⟩
    obtain ⟨y, hy, hym⟩ : ∃ y ∈ bs, CarriesPoints cc.srt val (fun q xs => (xs.map BitVec.toNat).sum < 2 ^ 63 → TellsInt q (xs.map BitVec.toNat).sum) (Conc.cumOk cc.srt y.1)
        (Conc.cumMust cc.srt y.1) (wpoints m'.metric.data) := by
      clear ih hg hw hsmall
      induction hrest with
      | nil => cases hm'
      | @cons y m2 bs ms hy _ ih2 =>
        rcases List.mem_cons.1 hm' with rfl | hm'
        · exact ⟨y, by simp, hy.2⟩
        · obtain ⟨z, hz, hz'⟩ := ih2 hm'
          exact ⟨z, by simp [hz], hz'⟩
    obtain ⟨a1, xs, k1, k2, k3⟩ := hxm.2.values p hp
    obtain ⟨b1, ys, l1, l2, l3⟩ := hym.values p' hp'
    obtain rfl := CarriesPoints.readsOne hinj k1 ha
    obtain rfl := CarriesPoints.readsOne hinj l1 hb
    have hpre := hg.1 y hy b1 xs ys (hsame _ _ _ _ hab k2) l2
    refine ⟨_, _, k3 (hsmall x (by simp) _ _ k2), l3 (hsmall y (by simp [hy]) _ _ l2), by positivity, ?_⟩
    exact_mod_cast sum_sublist (hpre.sublist.map BitVec.toNat)

/-! ## The hypotheses are met -/

/-- A schedule, with the same surroundings and answers each time. -/
theorem measured_of_run {cc : Conc.Cfg K V A X} {st : Style K A} {val : V → Val} {dflt : Scope K} {res : ResVal K} {ci : CounterId K}
    {c : Exporter.Cfg Unit (Batch K) (PRequest K (PMetric K)) Y} (w : Exporter.World) (o : Around K) (ho : o.Distinct ci) {t0 : Nat} (as : List (Conc.Action K V X))
    {s s' : Conc.State K V A X} {t : Nat} {log : List (Sending Y)} (h : Measured cc st val dflt res ci c t0 s t ⟨true, ()⟩ log) (hr : Conc.runAll cc s as = some s') :
    ∃ t' log', Measured cc st val dflt res ci c t0 s' t' ⟨true, ()⟩ log' ∧
      ∀ x ∈ log', x ∈ log ∨ ∃ b, x = ⟨w, (Exporter.doExport c ⟨true, ()⟩ b w).1, (Exporter.doExport c ⟨true, ()⟩ b w).2⟩ := by
  induction as generalizing s t log with
  | nil => simp only [Conc.runAll, Option.some.injEq] at hr; subst hr; exact ⟨t, log, h, fun x hx => .inl hx⟩
  | cons a as ih =>
    simp only [Conc.runAll] at hr
    split at hr
    · rename_i s1 hs1
      rcases conc_step_done hs1 with hd | ⟨r, hd⟩
      · exact ih (.work a h hs1 hd) hr
      · let o' : Around K := { o with start := (timesOf cc.delta t o.now).1.1 }
        by_cases he : (gathered st cc.delta val dflt res ci o' r.points).scopeMetrics = []
        · exact ih (.nothing a r o' h hs1 hd ho rfl he) hr
        · obtain ⟨t', log', g1, g2⟩ := ih (.export a r o' w h hs1 hd ho rfl he) hr
          refine ⟨t', log', g1, fun x hx => ?_⟩
          rcases g2 x hx with hx | hx
          · rw [List.mem_append, List.mem_singleton] at hx
            rcases hx with hx | rfl
            · exact .inl hx
            · exact .inr ⟨_, rfl⟩
          · exact .inr hx
    · cases hr

/-- A cumulative store. -/
def exStoreCum : Conc.Cfg Nat Bool (BitVec 64) (BitVec 64) := ⟨stableSorter, increment (BitVec 64), 2000, (0, true), false⟩

/-- A collection with one set in the store, and one of the set with another measurement. -/
def exTwice (x y z : BitVec 64) : List (Conc.Action Nat Bool (BitVec 64)) :=
  [.call 0 x [(1, true)], .thread 0, .thread 0, .call 1 y [], .thread 1, .collect, .collector [], .thread 1, .collector [([(1, true)], 0)], .collector [], .collector [],
   .call 0 z [(1, true)], .thread 0, .thread 0, .collect, .collector [], .collector [], .collector [([(1, true)], 0)], .collector [], .collector []]

/-- The hypotheses of `instrument_cumulative_partial` and `counter_cumulative_increases` are met by a run with two collections, whose points are 5 and 11 for one set; the second
has 7 for the measurement without attributes. -/
theorem instrument_cumulative_example : ∃ (s : Store Nat Bool) (t : Nat) (log : List (Sending (PRequest Nat (PMetric Nat)))),
    Measured exStoreCum (u64Sum true) Val.bool ⟨"", none, none, []⟩ ⟨[], none⟩ exCounter exMetricCfg 1 s t ⟨true, ()⟩ log ∧ AllOk log ∧
      s.done.map (·.points) = [[([(1, true)], 5)], [([], 7), ([(1, true)], 11)]] ∧ recorded s = 18 ∧
      ∀ e ∈ s.applied, e.2.2 ≠ [] → sortAndDedup exStoreCum.srt e.2.2 ∈ [sortAndDedup exStoreCum.srt [(1, true)]] := by
  have h : (Conc.runAll exStoreCum (.init exStoreCum) (exTwice 5 7 6)).map (fun s => (s.applied, s.done.map (·.points)))
      = some ([(0, 5, [(1, true)]), (1, 7, []), (0, 6, [(1, true)])], [[([(1, true)], 5)], [([], 7), ([(1, true)], 11)]]) := by rfl
  obtain ⟨s, hs, he⟩ := Option.map_eq_some_iff.1 h
  simp only [Prod.mk.injEq] at he
  obtain ⟨t, log, hp, hl⟩ := measured_of_run (st := u64Sum true) (val := Val.bool) (dflt := ⟨"", none, none, []⟩) (res := ⟨[], none⟩) (ci := exCounter) (c := exMetricCfg) (t0 := 1)
    ⟨true, some ⟨0, 0⟩⟩ exAround exAround_distinct _ .init hs
  refine ⟨s, t, log, hp, fun x hx => ?_, he.2, by rw [recorded, he.1]; rfl, ?_⟩
  · rcases hl x hx with hx | ⟨_, rfl⟩
    · cases hx
    · rfl
  · rw [he.1]
    intro e hem hne
    simp only [List.mem_cons, List.not_mem_nil, or_false] at hem ⊢
    rcases hem with rfl | rfl | rfl
    · rfl
    · exact absurd rfl hne
    · rfl

/-- The hypotheses of `instrument_delta_partial` are met by the same schedule: the second point for the set is 6. -/
theorem instrument_delta_example : ∃ (s : Store Nat Bool) (t : Nat) (log : List (Sending (PRequest Nat (PMetric Nat)))),
    Measured exStore (u64Sum true) Val.bool ⟨"", none, none, []⟩ ⟨[], none⟩ exCounter exMetricCfg 1 s t ⟨true, ()⟩ log ∧ AllOk log ∧
      s.done.map (·.points) = [[([(1, true)], 5)], [([], 7), ([(1, true)], 6)]] := by
  have h : (Conc.runAll exStore (.init exStore) [.call 0 5 [(1, true)], .thread 0, .thread 0, .call 1 7 [], .thread 1, .collect, .collector [], .thread 1,
      .collector [([(1, true)], 0)], .collector [], .collector [], .call 0 6 [(1, true)], .thread 0, .thread 0, .collect, .collector [], .collector [],
      .collector [([(1, true)], 1)], .collector [], .collector []]).map (fun s => s.done.map (·.points))
      = some [[([(1, true)], 5)], [([], 7), ([(1, true)], 6)]] := by rfl
  obtain ⟨s, hs, he⟩ := Option.map_eq_some_iff.1 h
  obtain ⟨t, log, hp, hl⟩ := measured_of_run (st := u64Sum true) (val := Val.bool) (dflt := ⟨"", none, none, []⟩) (res := ⟨[], none⟩) (ci := exCounter) (c := exMetricCfg) (t0 := 1)
    ⟨true, some ⟨0, 0⟩⟩ exAround exAround_distinct _ .init hs
  refine ⟨s, t, log, hp, fun x hx => ?_, he⟩
  rcases hl x hx with hx | ⟨_, rfl⟩
  · cases hx
  · rfl

/-- Beside `histogram_reads`: three values in two buckets. -/
example (r : Rust.F64.Rounding) (P : PartitionPoint) (hrnd : ∀ n : Nat, n ≤ 3 → r.rnd n = .fin n) (cast : Cast) (kvs : List (Nat × Val)) :
    TellsHistogram cast Num.u64 (fun _ => 0) (u64Ops r) [.fin 2] true true (wireOf cast .histogram 1 2
      ((histogramOf (K := Nat) .u64 Num.u64 (fun _ => 0) (u64Ops r) [.fin 2] true true).point kvs
        (([1, 2, 3].map (histogramInput (u64Ops r) P [.fin 2])).foldl (bucketsAgg (u64Ops r) 2).update (bucketsAgg (u64Ops r) 2).create))) [1, 2, 3] := by
  refine histogram_reads cast .u64 Num.u64 _ (u64Ops r) P [.fin 2] ⟨by simp, by simp⟩ true true (fun _ => True) (u64_total r) trivial trivial 1 2 kvs _ _ rfl (by simp) (by simp) ?_
  intro y hy
  refine ⟨trivial, ?_, (u64_bounds r y).1, (u64_bounds r y).2⟩
  have : (u64Ops r).toF y = .fin (y.toNat : Rat) := by
    have h3 : y.toNat ≤ 3 := by
      simp only [List.mem_cons, List.not_mem_nil, or_false] at hy
      rcases hy with rfl | rfl | rfl <;> decide
    exact_mod_cast hrnd y.toNat h3
  rw [this]; simp

/-- Beside `i64_reads`: a sum that wraps on the way. -/
example : (([BitVec.ofInt 64 (2 ^ 63 - 1), 5, -10] : List (BitVec 64)).map BitVec.toInt).sum = 2 ^ 63 - 6 := by decide

end Otel.EndToEnd
