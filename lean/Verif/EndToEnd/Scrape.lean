import Verif.EndToEnd.Instruments
import Verif.Prometheus.Props
import Verif.Common.Text
/-!
# From any synchronous instrument to a Prometheus scrape (C101)

Threads that record, the store of C38 with cumulative temporality, the reader of the Prometheus exporter, the collection of C45 and the conversion of C60 and C73 together.
A scrape collects under the exporter's lock and converts what it got, with the names known from earlier scrapes. Sources: opentelemetry-prometheus/src/lib.rs,
opentelemetry-sdk/src/metrics/manual_reader.rs, and those of `Instruments.lean`.
-/

set_option linter.unusedSectionVars false

namespace Otel.EndToEnd.Scrape
open Otel.Otlp Otel.Metrics Otel.EndToEnd
open Common (Val Scope)
open Rust (Str Assoc.get)

variable {K V A X : Type}

/-! ## Model -/

/-- The texts of keys and values (`Key::as_str`, `Value`'s `Display`). -/
structure Texts (K : Type) where
  key : K → Str
  val : Val → Str

/-- The attributes as texts. opentelemetry-prometheus/src/lib.rs:399-407 -/
def labelsOf (x : Texts K) (kvs : List (K × Val)) : List (Str × Str) := kvs.map fun kv => (x.key kv.1, x.val kv.2)

/-- A number point: attributes and `value.as_f64()`. lib.rs:521-546, 556-574, 628-650 -/
def promNum (x : Texts K) (cast : Cast) (p : NumPoint K) : List (Str × Str) × BitVec 64 := (labelsOf x p.attributes, intoF64 cast p.value)

/-- A histogram point. lib.rs:472-505 -/
def promHist (x : Texts K) (cast : Cast) (p : HistPoint K) : List (Str × Str) × BitVec 64 × Nat × List (BitVec 64) × List Nat :=
  (labelsOf x p.attributes, intoF64 cast p.sum, p.count.toNat, p.bounds, p.bucketCounts.map BitVec.toNat)

/-- The data of a metric as the exporter finds them by its downcasts: exponential histograms are none of them. lib.rs:206-227, 368-386 -/
def promData (x : Texts K) (cast : Cast) : MetricData (Pt K) → Prom.Data (BitVec 64)
  | .gauge ps _ _ => .gauge ((ps.filterMap Pt.num?).map (promNum x cast))
  | .sum ps _ _ _ m => .sum m ((ps.filterMap Pt.num?).map (promNum x cast))
  | .histogram ps _ _ _ => .histogram ((ps.filterMap Pt.hist?).map (promHist x cast))
  | .exponentialHistogram _ _ _ _ => .other

/-- A metric of a collection. -/
def promMetric (x : Texts K) (cast : Cast) (m : Metric String (Pt K)) : Prom.Metric (BitVec 64) :=
  ⟨m.name.toList, m.unit.toList, m.description.toList, promData x cast m.data.data⟩

/-- A scope of a collection. -/
def promScope (x : Texts K) (cast : Cast) (s : Metrics.ScopeMetrics (Scope K) String (Pt K)) : Prom.ScopeMetrics (BitVec 64) :=
  ⟨s.scope.name.toList, s.scope.version.map String.toList, labelsOf x s.scope.attrs, s.metrics.map (promMetric x cast)⟩

/-- The double `1.0`. -/
def oneWord : BitVec 64 := 0x3FF0000000000000#64

/-- A scrape of a collection: the families and the names known afterwards. lib.rs:285-393 -/
def scrapeOf (x : Texts K) (cast : Cast) (cfg : Prom.Cfg) (known : Prom.Known) (rm : Batch K) : List (Prom.Family (BitVec 64)) × Prom.Known :=
  Prom.collect cfg oneWord (labelsOf x rm.resource.attrs) known (rm.scopeMetrics.map (promScope x cast))

/-- The name of the exported metric is not that of another instrument of the collection. -/
def OtherNames (x : Texts K) (cast : Cast) (cfg : Prom.Cfg) (n : Str) (o : Around K) : Prop :=
  ∀ i ∈ (o.before ++ o.after).flatMap Prod.snd ++ (o.left ++ o.right), ∀ m, Metrics.metricOf i = some m → (Prom.typeAndName cfg (promMetric x cast m)).map Prod.snd ≠ some n

variable [LinearOrder K] [DecidableEq V]

/-- Threads, store, reader and scrapes together. `alive`: the reader is not shut down, and its provider exists (manual_reader.rs:86-106); `log` has the answers of all scrapes. -/
inductive Scraped (cc : Conc.Cfg K V A X) (st : Style K A) (val : V → Val) (x : Texts K) (cast : Cast) (cfg : Prom.Cfg) (dflt : Scope K) (res : ResVal K) (ci : CounterId K) (n : Str) :
    Conc.State K V A X → Bool → Prom.Known → List (List (Prom.Family (BitVec 64))) → Prop
  | init : Scraped cc st val x cast cfg dflt res ci n (.init cc) true [] []
  /-- a step of a thread, or of the reader before the collection is complete -/
  | work {s s' alive known log} (a : Conc.Action K V X) : Scraped cc st val x cast cfg dflt res ci n s alive known log → Conc.step cc s a = some s' → s'.done = s.done →
      Scraped cc st val x cast cfg dflt res ci n s' alive known log
  /-- the collection of a scrape is complete -/
  | scrape {s s' known log} (a : Conc.Action K V X) (r : Conc.Collection K V A X) (o : Around K) :
      Scraped cc st val x cast cfg dflt res ci n s true known log → Conc.step cc s a = some s' → s'.done = s.done ++ [r] → OtherNames x cast cfg n o →
      Scraped cc st val x cast cfg dflt res ci n s' true (scrapeOf x cast cfg known (gathered st cc.delta val dflt res ci o r.points)).2
        (log ++ [(scrapeOf x cast cfg known (gathered st cc.delta val dflt res ci o r.points)).1])
  /-- a collection that is not for a scrape: `PrometheusExporter::collect`. lib.rs:163-165 -/
  | other {s s' alive known log} (a : Conc.Action K V X) (r : Conc.Collection K V A X) :
      Scraped cc st val x cast cfg dflt res ci n s alive known log → Conc.step cc s a = some s' → s'.done = s.done ++ [r] →
      Scraped cc st val x cast cfg dflt res ci n s' alive known log
  /-- the reader is shut down -/
  | shut {s alive known log} : Scraped cc st val x cast cfg dflt res ci n s alive known log → Scraped cc st val x cast cfg dflt res ci n s false known log
  /-- a scrape after that: the collection fails. lib.rs:301-307 -/
  | failed {s known log} : Scraped cc st val x cast cfg dflt res ci n s false known log → Scraped cc st val x cast cfg dflt res ci n s false known (log ++ [[]])

/-! ## Specification -/

/-- The data of a metric without points. -/
def emptyData : AggKind → Prom.Data (BitVec 64)
  | .lastValue => .gauge []
  | .sum m => .sum m []
  | .histogram => .histogram []
  | .expoHistogram => .other

/-- What an instrument is exported as: type and name (C60, C73). -/
def exportedAs (cfg : Prom.Cfg) (kind : AggKind) (ci : CounterId K) : Option (Prom.MType × Str) :=
  Prom.typeAndName cfg ⟨ci.name.toList, ci.unit.toList, ci.description.toList, emptyData kind⟩

/-- The number shown for a point. -/
def shown (cast : Cast) : Pt K → Prom.Num (BitVec 64)
  | .num p => .value (intoF64 cast p.value)
  | .hist p => .hist (intoF64 cast p.sum) p.count.toNat (Prom.buckets p.bounds (p.bucketCounts.map BitVec.toNat))
  | .expo p => .value (intoF64 cast p.sum)

/-- The labels of a series of the instrument: the attributes (C73), then scope and resource. -/
def seriesLabels (x : Texts K) (cfg : Prom.Cfg) (val : V → Val) (res : ResVal K) (ci : CounterId K) (a : Attrs K V) : List Prom.Label :=
  Prom.getAttrs cfg (labelsOf x (kvsOf val a))
    (if cfg.disableScopeInfo then [] else
      ("otel_scope_name".toList, ci.scope.name.toList) ::
        (match ci.scope.version.map String.toList with | some v => [("otel_scope_version".toList, v)] | none => []) ++ Prom.select cfg (labelsOf x res.attrs))

/-- The families of a scrape with the name. -/
def named (n : Str) (fs : List (Prom.Family (BitVec 64))) : List (Prom.Family (BitVec 64)) := fs.filter fun f => f.name = n

/-- One series for each attribute set, that shows the aggregation of values that `ok` allows for it; there is one for each set that `must` have one. -/
def Shows (cc : Conc.Cfg K V A X) (st : Style K A) (val : V → Val) (x : Texts K) (cast : Cast) (cfg : Prom.Cfg) (res : ResVal K) (ci : CounterId K) (ty : Prom.MType) (n : Str)
    (ok : Attrs K V → List X → Prop) (must : Attrs K V → Prop) (fs : List (Prom.Family (BitVec 64))) : Prop :=
  ∃ pts, Conc.PointsOf cc.srt cc.agg ok must pts ∧
    named n fs = pts.map fun p => ⟨n, ci.description.toList, ty, seriesLabels x cfg val res ci p.1, shown cast (st.point (kvsOf val p.1) p.2)⟩

/-! ## Lemmas: one scrape -/

theorem exportMetric_other (cfg : Prom.Cfg) (extra : List Prom.Label) (known : Prom.Known) (m : Prom.Metric (BitVec 64)) (n : Str)
    (h : (Prom.typeAndName cfg m).map Prod.snd ≠ some n) :
    named n (Prom.exportMetric cfg extra known m).1 = [] ∧ Assoc.get (Prom.exportMetric cfg extra known m).2 n = Assoc.get known n := by
  unfold Prom.exportMetric
  split
  · exact ⟨rfl, rfl⟩
  · rename_i ty name ht
    have hne : name ≠ n := fun hc => h (by rw [ht, ← hc]; rfl)
    have hget : Assoc.get (Prom.validate known name m.description ty).2 n = Assoc.get known n := by
      unfold Prom.validate
      split
      · split
        · rfl
        · split <;> rfl
      · exact (Rust.Assoc.get_insert _ _ _ _).trans (if_neg (Ne.symm hne))
    split
    · rename_i known' hv
      rw [hv] at hget
      exact ⟨rfl, hget⟩
    · rename_i help known' hv
      rw [hv] at hget
      refine ⟨?_, hget⟩
      unfold named
      rw [List.filter_eq_nil_iff]
      intro f hf
      obtain ⟨p, _, rfl⟩ := List.mem_map.1 hf
      simpa using hne

theorem exportMetrics_other (cfg : Prom.Cfg) (extra : List Prom.Label) (n : Str) (ms : List (Prom.Metric (BitVec 64)))
    (h : ∀ m ∈ ms, (Prom.typeAndName cfg m).map Prod.snd ≠ some n) (known : Prom.Known) :
    named n (Prom.exportMetrics cfg extra known ms).1 = [] ∧ Assoc.get (Prom.exportMetrics cfg extra known ms).2 n = Assoc.get known n := by
  induction ms generalizing known with
  | nil => exact ⟨rfl, rfl⟩
  | cons m ms ih =>
    obtain ⟨h1, h2⟩ := exportMetric_other cfg extra known m n (h m (by simp))
    obtain ⟨h3, h4⟩ := ih (fun m' hm => h m' (by simp [hm])) (Prom.exportMetric cfg extra known m).2
    refine ⟨?_, h4.trans h2⟩
    show named n ((Prom.exportMetric cfg extra known m).1 ++ (Prom.exportMetrics cfg extra (Prom.exportMetric cfg extra known m).2 ms).1) = []
    unfold named at *
    rw [List.filter_append, h1, h3]; rfl

theorem exportMetrics_append (cfg : Prom.Cfg) (extra : List Prom.Label) (ms ms' : List (Prom.Metric (BitVec 64))) (known : Prom.Known) :
    (Prom.exportMetrics cfg extra known (ms ++ ms')).1 = (Prom.exportMetrics cfg extra known ms).1 ++ (Prom.exportMetrics cfg extra (Prom.exportMetrics cfg extra known ms).2 ms').1 ∧
      (Prom.exportMetrics cfg extra known (ms ++ ms')).2 = (Prom.exportMetrics cfg extra (Prom.exportMetrics cfg extra known ms).2 ms').2 := by
  induction ms generalizing known with
  | nil => exact ⟨rfl, rfl⟩
  | cons m ms ih =>
    obtain ⟨h1, h2⟩ := ih (Prom.exportMetric cfg extra known m).2
    refine ⟨?_, h2⟩
    show (Prom.exportMetric cfg extra known m).1 ++ (Prom.exportMetrics cfg extra (Prom.exportMetric cfg extra known m).2 (ms ++ ms')).1 = _
    rw [h1, ← List.append_assoc]; rfl

theorem exportScopes_append (cfg : Prom.Cfg) (one : BitVec 64) (rl : List Prom.Label) (ss ss' : List (Prom.ScopeMetrics (BitVec 64))) (known : Prom.Known) :
    (Prom.exportScopes cfg one rl known (ss ++ ss')).1 = (Prom.exportScopes cfg one rl known ss).1 ++ (Prom.exportScopes cfg one rl (Prom.exportScopes cfg one rl known ss).2 ss').1 ∧
      (Prom.exportScopes cfg one rl known (ss ++ ss')).2 = (Prom.exportScopes cfg one rl (Prom.exportScopes cfg one rl known ss).2 ss').2 := by
  induction ss generalizing known with
  | nil => exact ⟨rfl, rfl⟩
  | cons s ss ih =>
    obtain ⟨h1, h2⟩ := ih (Prom.exportMetrics cfg (Prom.scopeLabels cfg rl s) known s.metrics).2
    refine ⟨?_, h2⟩
    show Prom.scopeInfo cfg one s ++ _ ++ (Prom.exportScopes cfg one rl (Prom.exportMetrics cfg (Prom.scopeLabels cfg rl s) known s.metrics).2 (ss ++ ss')).1 = _
    rw [h1, ← List.append_assoc]; rfl

/-- The names of the information metrics. -/
def NotInfo (n : Str) : Prop := n ≠ "target_info".toList ∧ n ≠ "otel_scope_info".toList

theorem scopeInfo_named (cfg : Prom.Cfg) (one : BitVec 64) (s : Prom.ScopeMetrics (BitVec 64)) {n : Str} (hn : NotInfo n) : named n (Prom.scopeInfo cfg one s) = [] := by
  unfold Prom.scopeInfo named
  split
  · rw [List.filter_eq_nil_iff]
    intro f hf
    rw [List.mem_singleton.1 hf]
    exact fun h => hn.2 (of_decide_eq_true h).symm
  · rfl

theorem targetInfo_named (cfg : Prom.Cfg) (one : BitVec 64) (rs : List (Str × Str)) {n : Str} (hn : NotInfo n) : named n (Prom.targetInfo cfg one rs) = [] := by
  unfold Prom.targetInfo named
  split
  · rw [List.filter_eq_nil_iff]
    intro f hf
    rw [List.mem_singleton.1 hf]
    exact fun h => hn.1 (of_decide_eq_true h).symm
  · rfl

theorem named_append (n : Str) (a b : List (Prom.Family (BitVec 64))) : named n (a ++ b) = named n a ++ named n b := List.filter_append ..

theorem exportScopes_other (cfg : Prom.Cfg) (one : BitVec 64) (rl : List Prom.Label) {n : Str} (hn : NotInfo n) (ss : List (Prom.ScopeMetrics (BitVec 64)))
    (h : ∀ s ∈ ss, ∀ m ∈ s.metrics, (Prom.typeAndName cfg m).map Prod.snd ≠ some n) (known : Prom.Known) :
    named n (Prom.exportScopes cfg one rl known ss).1 = [] ∧ Assoc.get (Prom.exportScopes cfg one rl known ss).2 n = Assoc.get known n := by
  induction ss generalizing known with
  | nil => exact ⟨rfl, rfl⟩
  | cons s ss ih =>
    obtain ⟨h1, h2⟩ := exportMetrics_other cfg (Prom.scopeLabels cfg rl s) n s.metrics (h s (by simp)) known
    obtain ⟨h3, h4⟩ := ih (fun s' hs => h s' (by simp [hs])) (Prom.exportMetrics cfg (Prom.scopeLabels cfg rl s) known s.metrics).2
    refine ⟨?_, h4.trans h2⟩
    show named n (Prom.scopeInfo cfg one s ++ (Prom.exportMetrics cfg (Prom.scopeLabels cfg rl s) known s.metrics).1 ++ _) = []
    rw [named_append, named_append, scopeInfo_named cfg one s hn, h1, h3]; rfl

/-- What is known about the name: nothing, or the instrument's type and description. -/
def KnownAs (known : Prom.Known) (n : Str) (ty : Prom.MType) (help : Str) : Prop := Assoc.get known n = none ∨ Assoc.get known n = some (ty, help)

theorem exportMetric_own (cfg : Prom.Cfg) (extra : List Prom.Label) (known : Prom.Known) (m : Prom.Metric (BitVec 64)) {ty : Prom.MType} {n : Str}
    (ht : Prom.typeAndName cfg m = some (ty, n)) (hk : KnownAs known n ty m.description) :
    named n (Prom.exportMetric cfg extra known m).1 = ((Prom.points m.data).map fun p => ⟨n, m.description, ty, Prom.getAttrs cfg p.attrs extra, p.num⟩) ∧
      KnownAs (Prom.exportMetric cfg extra known m).2 n ty m.description := by
  have e : (Prom.exportMetric cfg extra known m).1 = ((Prom.points m.data).map fun p => ⟨n, m.description, ty, Prom.getAttrs cfg p.attrs extra, p.num⟩) := by
    obtain ⟨h1, h2, _⟩ := Prom.metric_exported cfg extra known m ht
    rcases hk with hk | hk
    · exact h1 hk
    · exact h2 _ hk
  refine ⟨?_, ?_⟩
  · rw [e]
    unfold named
    rw [List.filter_eq_self]
    intro f hf
    obtain ⟨p, _, rfl⟩ := List.mem_map.1 hf
    simp
  · simp only [Prom.exportMetric, ht, Prom.validate]
    rcases hk with hk | hk
    · simp only [hk]
      exact .inr ((Rust.Assoc.get_insert _ _ _ _).trans (if_pos rfl))
    · simp only [hk, ne_eq, not_true, if_false]
      exact .inr hk

/-- The exported type and name do not depend on the points. -/
theorem typeAndName_styled (cfg : Prom.Cfg) (x : Texts K) (cast : Cast) (st : Style K A) (delta : Bool) (ci : CounterId K) (start now : Nat) (ps : List (Pt K)) :
    Prom.typeAndName cfg (promMetric x cast ⟨ci.name, ci.description, ci.unit, st.num, styledData st delta start now ps⟩) = exportedAs cfg st.kind ci := by
  unfold exportedAs promMetric styledData
  cases st.kind with
  | sum m => cases m <;> rfl
  | _ => rfl

/-- The points of the instrument, as numbers. -/
theorem points_styled (x : Texts K) (cast : Cast) (st : Style K A) (hfit : st.Fit) (hkind : ¬ st.kind = .expoHistogram) (delta : Bool) (start now : Nat)
    (hattrs : ∀ kvs y, (match st.point kvs y with | .num p => p.attributes | .hist p => p.attributes | .expo p => p.attributes) = kvs)
    (val : V → Val) (pts : List (Attrs K V × A)) :
    Prom.points (promData x cast (styledData st delta start now (pts.map fun p => st.point (kvsOf val p.1) p.2))) =
      pts.map fun p => ⟨labelsOf x (kvsOf val p.1), shown cast (st.point (kvsOf val p.1) p.2)⟩ := by
  obtain ⟨num, kind, point⟩ := st
  simp only [Style.Fit] at hfit
  simp only at hkind hattrs
  cases kind with
  | expoHistogram => exact absurd rfl hkind
  | lastValue =>
    simp only [styledData, promData, Prom.points, List.map_map, List.filterMap_map]
    induction pts with
    | nil => rfl
    | cons p pts ih =>
      have hp := hfit (kvsOf val p.1) p.2
      have ha := hattrs (kvsOf val p.1) p.2
      rw [List.filterMap_cons, List.map_cons, ← ih]
      simp only [Function.comp]
      cases hq : point (kvsOf val p.1) p.2 with
      | num q => rw [hq] at ha; show (⟨labelsOf x q.attributes, _⟩ : Prom.Point (BitVec 64)) :: _ = _; rw [show q.attributes = _ from ha]; rfl
      | hist q => rw [hq] at hp; exact hp.elim
      | expo q => rw [hq] at hp; exact hp.elim
  | sum m =>
    simp only [styledData, promData, Prom.points, List.map_map, List.filterMap_map]
    induction pts with
    | nil => rfl
    | cons p pts ih =>
      have hp := hfit (kvsOf val p.1) p.2
      have ha := hattrs (kvsOf val p.1) p.2
      rw [List.filterMap_cons, List.map_cons, ← ih]
      simp only [Function.comp]
      cases hq : point (kvsOf val p.1) p.2 with
      | num q => rw [hq] at ha; show (⟨labelsOf x q.attributes, _⟩ : Prom.Point (BitVec 64)) :: _ = _; rw [show q.attributes = _ from ha]; rfl
      | hist q => rw [hq] at hp; exact hp.elim
      | expo q => rw [hq] at hp; exact hp.elim
  | histogram =>
    simp only [styledData, promData, Prom.points, List.map_map, List.filterMap_map]
    induction pts with
    | nil => rfl
    | cons p pts ih =>
      have hp := hfit (kvsOf val p.1) p.2
      have ha := hattrs (kvsOf val p.1) p.2
      rw [List.filterMap_cons, List.map_cons, ← ih]
      simp only [Function.comp]
      cases hq : point (kvsOf val p.1) p.2 with
      | hist q => rw [hq] at ha; show (⟨labelsOf x q.attributes, _⟩ : Prom.Point (BitVec 64)) :: _ = _; rw [show q.attributes = _ from ha]; rfl
      | num q => rw [hq] at hp; exact hp.elim
      | expo q => rw [hq] at hp; exact hp.elim

/-- The data points have the attributes they are made with. -/
def KeepsAttrs (st : Style K A) : Prop := ∀ kvs y, (match st.point kvs y with | .num p => p.attributes | .hist p => p.attributes | .expo p => p.attributes) = kvs

/-- One scrape: the families with the name are the points of the instrument. -/
theorem scrape_named (x : Texts K) (cast : Cast) (cfg : Prom.Cfg) (st : Style K A) (hfit : st.Fit) (hattrs : KeepsAttrs st) (delta : Bool) (val : V → Val) (dflt : Scope K) (res : ResVal K)
    (ci : CounterId K) {ty : Prom.MType} {n : Str} (hid : exportedAs cfg st.kind ci = some (ty, n)) (hn : NotInfo n) (o : Around K) (ho : OtherNames x cast cfg n o)
    (pts : List (Attrs K V × A)) {known : Prom.Known} (hk : KnownAs known n ty ci.description.toList) :
    named n (scrapeOf x cast cfg known (gathered st delta val dflt res ci o pts)).1 =
        (pts.map fun p => ⟨n, ci.description.toList, ty, seriesLabels x cfg val res ci p.1, shown cast (st.point (kvsOf val p.1) p.2)⟩) ∧
      KnownAs (scrapeOf x cast cfg known (gathered st delta val dflt res ci o pts)).2 n ty ci.description.toList := by
  have hkind : ¬ st.kind = .expoHistogram := by intro hc; rw [hc] at hid; cases hid
  have hother : ∀ is : List (InstSync String (Pt K)), (∀ i ∈ is, ∀ m, Metrics.metricOf i = some m → (Prom.typeAndName cfg (promMetric x cast m)).map Prod.snd ≠ some n) →
      ∀ m ∈ (is.filterMap Metrics.metricOf).map (promMetric x cast), (Prom.typeAndName cfg m).map Prod.snd ≠ some n := by
    intro is his m hm
    obtain ⟨m', hm', rfl⟩ := List.mem_map.1 hm
    obtain ⟨i, hi, him⟩ := List.mem_filterMap.1 hm'
    exact his i hi m' him
  have hscopes : ∀ ss : List (Scope K × List (InstSync String (Pt K))), (∀ i ∈ ss.flatMap Prod.snd, ∀ m, Metrics.metricOf i = some m →
      (Prom.typeAndName cfg (promMetric x cast m)).map Prod.snd ≠ some n) →
      ∀ s ∈ (ss.filterMap Metrics.scopeOf).map (promScope x cast), ∀ m ∈ s.metrics, (Prom.typeAndName cfg m).map Prod.snd ≠ some n := by
    intro ss hss s hs m hm
    obtain ⟨s', hs', rfl⟩ := List.mem_map.1 hs
    obtain ⟨s0, hs0, hs1⟩ := List.mem_filterMap.1 hs'
    unfold Metrics.scopeOf at hs1
    split at hs1
    · cases hs1
    · injection hs1 with hs1; subst hs1
      exact hother s0.2 (fun i hi => hss i (List.mem_flatMap.2 ⟨s0, hs0, hi⟩)) m hm
  have ho1 := hscopes o.before fun i hi => ho i (by simp only [List.mem_append, List.flatMap_append]; exact .inl (.inl hi))
  have ho2 := hscopes o.after fun i hi => ho i (by simp only [List.mem_append, List.flatMap_append]; exact .inl (.inr hi))
  have ho3 := hother o.left fun i hi => ho i (by simp only [List.mem_append]; exact .inr (.inl hi))
  have ho4 := hother o.right fun i hi => ho i (by simp only [List.mem_append]; exact .inr (.inr hi))
  let rl := Prom.select cfg (labelsOf x res.attrs)
  -- the scope of the instrument
  have hmid : ∀ known : Prom.Known, KnownAs known n ty ci.description.toList →
      named n (Prom.exportScopes cfg oneWord rl known ([(ci.scope, o.left ++ styledInst st delta val ci o.start o.now pts :: o.right)].filterMap Metrics.scopeOf |>.map (promScope x cast))).1 =
        (pts.map fun p => ⟨n, ci.description.toList, ty, seriesLabels x cfg val res ci p.1, shown cast (st.point (kvsOf val p.1) p.2)⟩) ∧
      KnownAs (Prom.exportScopes cfg oneWord rl known ([(ci.scope, o.left ++ styledInst st delta val ci o.start o.now pts :: o.right)].filterMap Metrics.scopeOf |>.map (promScope x cast))).2
        n ty ci.description.toList := by
    intro known hk
    by_cases hp : pts = []
    · -- no metric of the instrument
      have e : Metrics.metricOf (styledInst st delta val ci o.start o.now pts) = none := by subst hp; rfl
      have hall := hscopes [(ci.scope, o.left ++ styledInst st delta val ci o.start o.now pts :: o.right)] fun i hi m hm => by
        simp only [List.flatMap_cons, List.flatMap_nil, List.append_nil, List.mem_append, List.mem_cons] at hi
        rcases hi with hi | rfl | hi
        · exact ho i (by simp only [List.mem_append]; exact .inr (.inl hi)) m hm
        · rw [e] at hm; cases hm
        · exact ho i (by simp only [List.mem_append]; exact .inr (.inr hi)) m hm
      obtain ⟨g1, g2⟩ := exportScopes_other cfg oneWord rl hn _ hall known
      refine ⟨by rw [g1, hp]; rfl, ?_⟩
      unfold KnownAs at hk ⊢
      rw [g2]; exact hk
    · have e : Metrics.metricOf (styledInst st delta val ci o.start o.now pts) = some ⟨ci.name, ci.description, ci.unit, st.num,
          styledData st delta o.start o.now (pts.map fun p => st.point (kvsOf val p.1) p.2)⟩ := by
        simp only [Metrics.metricOf, styledInst, styledData, List.map_eq_nil_iff, hp, if_false]
        cases st.kind <;> rfl
      generalize hm : (⟨ci.name, ci.description, ci.unit, st.num, styledData st delta o.start o.now (pts.map fun p => st.point (kvsOf val p.1) p.2)⟩ :
        Metrics.Metric String (Pt K)) = own at e
      have hms : (o.left ++ styledInst st delta val ci o.start o.now pts :: o.right).filterMap Metrics.metricOf =
          o.left.filterMap Metrics.metricOf ++ own :: o.right.filterMap Metrics.metricOf := by
        rw [List.filterMap_append, List.filterMap_cons, e]
      have hsc : [(ci.scope, o.left ++ styledInst st delta val ci o.start o.now pts :: o.right)].filterMap Metrics.scopeOf =
          [⟨ci.scope, o.left.filterMap Metrics.metricOf ++ own :: o.right.filterMap Metrics.metricOf⟩] := by
        simp only [List.filterMap_cons, List.filterMap_nil, Metrics.scopeOf, hms]
        simp
      rw [hsc]
      have htn : Prom.typeAndName cfg (promMetric x cast own) = some (ty, n) := by rw [← hm, typeAndName_styled, hid]
      have hdesc : (promMetric x cast own).description = ci.description.toList := by rw [← hm]; rfl
      have hpts : Prom.points (promMetric x cast own).data = pts.map fun p => ⟨labelsOf x (kvsOf val p.1), shown cast (st.point (kvsOf val p.1) p.2)⟩ := by
        rw [← hm]; exact points_styled x cast st hfit hkind delta o.start o.now hattrs val pts
      let sm : Prom.ScopeMetrics (BitVec 64) := promScope x cast ⟨ci.scope, o.left.filterMap Metrics.metricOf ++ own :: o.right.filterMap Metrics.metricOf⟩
      have hmets : sm.metrics = (o.left.filterMap Metrics.metricOf).map (promMetric x cast) ++ (promMetric x cast own :: (o.right.filterMap Metrics.metricOf).map (promMetric x cast)) := by
        show List.map _ _ = _
        rw [List.map_append, List.map_cons]
      let ex := Prom.scopeLabels cfg rl sm
      obtain ⟨a1, a2⟩ := exportMetrics_other cfg ex n _ ho3 known
      have hk1 : KnownAs (Prom.exportMetrics cfg ex known ((o.left.filterMap Metrics.metricOf).map (promMetric x cast))).2 n ty (promMetric x cast own).description := by
        unfold KnownAs at hk ⊢
        rw [a2, hdesc]; exact hk
      obtain ⟨b1, b2⟩ := exportMetric_own cfg ex _ (promMetric x cast own) htn hk1
      obtain ⟨c1, c2⟩ := exportMetrics_other cfg ex n _ ho4 (Prom.exportMetric cfg ex (Prom.exportMetrics cfg ex known ((o.left.filterMap Metrics.metricOf).map (promMetric x cast))).2
        (promMetric x cast own)).2
      obtain ⟨d1, d2⟩ := exportMetrics_append cfg ex ((o.left.filterMap Metrics.metricOf).map (promMetric x cast))
        (promMetric x cast own :: (o.right.filterMap Metrics.metricOf).map (promMetric x cast)) known
      have hlabels : ∀ a : Attrs K V, Prom.getAttrs cfg (labelsOf x (kvsOf val a)) ex = seriesLabels x cfg val res ci a := fun a => rfl
      show named n (Prom.scopeInfo cfg oneWord sm ++ (Prom.exportMetrics cfg ex known sm.metrics).1 ++ []) = _ ∧ KnownAs (Prom.exportMetrics cfg ex known sm.metrics).2 n ty _
      rw [hmets, List.append_nil, named_append, scopeInfo_named cfg oneWord sm hn, d1, d2, named_append, a1]
      refine ⟨?_, ?_⟩
      · show named n ((Prom.exportMetric cfg ex _ (promMetric x cast own)).1 ++ (Prom.exportMetrics cfg ex (Prom.exportMetric cfg ex _ (promMetric x cast own)).2 _).1) = _
        rw [named_append, b1, c1, hpts, hdesc, List.map_map, List.append_nil]
        rfl
      · have : Assoc.get (Prom.exportMetrics cfg ex (Prom.exportMetrics cfg ex known ((o.left.filterMap Metrics.metricOf).map (promMetric x cast))).2
            (promMetric x cast own :: (o.right.filterMap Metrics.metricOf).map (promMetric x cast))).2 n = _ := c2
        unfold KnownAs at b2 ⊢
        rw [this, ← hdesc]; exact b2
  -- the whole
  have hg : gathered st delta val dflt res ci o pts = ⟨res, o.before.filterMap Metrics.scopeOf ++
      ([(ci.scope, o.left ++ styledInst st delta val ci o.start o.now pts :: o.right)].filterMap Metrics.scopeOf ++ o.after.filterMap Metrics.scopeOf)⟩ := by
    rw [gathered, produce_exact, ← List.filterMap_append, ← List.filterMap_append]; rfl
  rw [hg]
  unfold scrapeOf Prom.collect
  simp only [List.map_append]
  obtain ⟨e1, e2⟩ := exportScopes_other cfg oneWord rl hn _ ho1 known
  have hk' : KnownAs (Prom.exportScopes cfg oneWord rl known ((o.before.filterMap Metrics.scopeOf).map (promScope x cast))).2 n ty ci.description.toList := by
    unfold KnownAs at hk ⊢; rw [e2]; exact hk
  obtain ⟨f1, f2⟩ := hmid _ hk'
  obtain ⟨g1, g2⟩ := exportScopes_append cfg oneWord rl ((o.before.filterMap Metrics.scopeOf).map (promScope x cast))
    (([(ci.scope, o.left ++ styledInst st delta val ci o.start o.now pts :: o.right)].filterMap Metrics.scopeOf).map (promScope x cast) ++ (o.after.filterMap Metrics.scopeOf).map (promScope x cast)) known
  obtain ⟨h1, h2⟩ := exportScopes_append cfg oneWord rl (([(ci.scope, o.left ++ styledInst st delta val ci o.start o.now pts :: o.right)].filterMap Metrics.scopeOf).map (promScope x cast))
    ((o.after.filterMap Metrics.scopeOf).map (promScope x cast)) (Prom.exportScopes cfg oneWord rl known ((o.before.filterMap Metrics.scopeOf).map (promScope x cast))).2
  obtain ⟨i1, i2⟩ := exportScopes_other cfg oneWord rl hn _ ho2 (Prom.exportScopes cfg oneWord rl (Prom.exportScopes cfg oneWord rl known ((o.before.filterMap Metrics.scopeOf).map (promScope x cast))).2
    (([(ci.scope, o.left ++ styledInst st delta val ci o.start o.now pts :: o.right)].filterMap Metrics.scopeOf).map (promScope x cast))).2
  refine ⟨?_, ?_⟩
  · rw [g1, h1, named_append, named_append, named_append, targetInfo_named cfg oneWord _ hn, e1, f1, i1, List.append_nil]; rfl
  · unfold KnownAs at f2 ⊢
    rw [g2, h2, i2]; exact f2

/-! ## Lemmas: the attributes of points -/

/-- The lists of attributes that points can have: none, the overflow set, and those given in a measurement, as given or sorted without repetitions. -/
def Given (cc : Conc.Cfg K V A X) (applied : List (Nat × X × Attrs K V)) (k : Attrs K V) : Prop :=
  k = [] ∨ k = [cc.overflow] ∨ ∃ e ∈ applied, k = e.2.2 ∨ k = sortAndDedup cc.srt e.2.2

structure KeysInv (cc : Conc.Cfg K V A X) (s : Conc.State K V A X) : Prop where
  map : ∀ e ∈ s.map.trackers, Given cc s.applied e.1
  dest : ∀ p ∈ s.dest, Given cc s.applied p.1
  walk : ∀ rest seen, s.coll = .walk rest seen → ∀ e ∈ rest, Given cc s.applied e.1
  done : ∀ r ∈ s.done, ∀ p ∈ r.points, Given cc s.applied p.1

theorem Given.more {cc : Conc.Cfg K V A X} {ap : List (Nat × X × Attrs K V)} {k : Attrs K V} (h : Given cc ap k) (e : List (Nat × X × Attrs K V)) : Given cc (ap ++ e) k := by
  rcases h with h | h | ⟨e', he, h⟩
  · exact .inl h
  · exact .inr (.inl h)
  · exact .inr (.inr ⟨e', List.mem_append_left _ he, h⟩)

theorem insertTracker_keys (l : List (Attrs K V × Nat)) (a : Attrs K V) (p : Nat) : ∀ e ∈ insertTracker l a p, e.1 = a ∨ ∃ e' ∈ l, e'.1 = e.1 := by
  intro e he
  unfold insertTracker at he
  split at he
  · obtain ⟨e', he', rfl⟩ := List.mem_map.1 he
    split
    · exact .inl rfl
    · exact .inr ⟨e', he', rfl⟩
  · rcases List.mem_append.1 he with he | he
    · exact .inr ⟨e, he, rfl⟩
    · rw [List.mem_singleton.1 he]; exact .inl rfl

theorem measureWrite_keys (srt : Sorter K V) (agg : Aggregator A X) (limit : Nat) (ov : Attrs K V) (m : ValueMap K V A) (x : X) (a : Attrs K V) :
    ∀ e ∈ (m.measureWrite srt agg limit ov x a).trackers, e.1 = ov ∨ e.1 = a ∨ e.1 = sortAndDedup srt a ∨ ∃ e' ∈ m.trackers, e'.1 = e.1 := by
  intro e he
  unfold ValueMap.measureWrite at he
  split at he
  · exact .inr (.inr (.inr ⟨e, he, rfl⟩))
  · split at he
    · exact .inr (.inr (.inr ⟨e, he, rfl⟩))
    · split at he
      · rcases insertTracker_keys _ _ _ e he with h | ⟨e', he', h⟩
        · exact .inr (.inr (.inl h))
        · rcases insertTracker_keys _ _ _ e' he' with h' | ⟨e'', he'', h'⟩
          · exact .inr (.inl (h.symm.trans h'))
          · exact .inr (.inr (.inr ⟨e'', he'', h'.trans h⟩))
      · split at he
        · exact .inr (.inr (.inr ⟨e, he, rfl⟩))
        · rcases insertTracker_keys _ _ _ e he with h | h
          · exact .inl h
          · exact .inr (.inr (.inr h))

theorem keys_reachable {cc : Conc.Cfg K V A X} {s : Conc.State K V A X} (h : Conc.Reachable cc s) : KeysInv cc s := by
  induction h with
  | init =>
    refine ⟨?_, ?_, ?_, ?_⟩
    · intro e he; cases he
    · intro e he; cases he
    · intro _ _ h; cases h
    · intro e he; cases he
  | @step s s' _ a hs ih =>
    obtain ⟨h1, h2, h3, h4⟩ := ih
    have hmore : ∀ (l : List (Nat × X × Attrs K V)), (∀ e ∈ s.map.trackers, Given cc (s.applied ++ l) e.1) ∧ (∀ p ∈ s.dest, Given cc (s.applied ++ l) p.1) ∧
        (∀ rest seen, s.coll = .walk rest seen → ∀ e ∈ rest, Given cc (s.applied ++ l) e.1) ∧ ∀ r ∈ s.done, ∀ p ∈ r.points, Given cc (s.applied ++ l) p.1 := fun l =>
      ⟨fun e he => (h1 e he).more l, fun p hp => (h2 p hp).more l, fun rest seen hc e he => (h3 rest seen hc e he).more l, fun r hr p hp => (h4 r hr p hp).more l⟩
    cases a with
    | call t x b =>
      simp only [Conc.step] at hs
      split at hs
      · injection hs with hs; subst hs; exact ⟨h1, h2, h3, h4⟩
      · cases hs
    | thread t =>
      simp only [Conc.step, Conc.threadStep] at hs
      split at hs
      · cases hs
      · injection hs with hs; subst hs
        obtain ⟨g1, g2, g3, g4⟩ := hmore [(t, _, [])]
        exact ⟨g1, g2, g3, g4⟩
      · injection hs with hs; subst hs; exact ⟨h1, h2, h3, h4⟩
      · split at hs
        · injection hs with hs; subst hs; exact ⟨h1, h2, h3, h4⟩
        · injection hs with hs; subst hs; exact ⟨h1, h2, h3, h4⟩
      · rename_i x a p _
        injection hs with hs; subst hs
        obtain ⟨g1, g2, g3, g4⟩ := hmore [(t, x, a)]
        exact ⟨g1, g2, g3, g4⟩
      · rename_i x a _
        split at hs
        · injection hs with hs; subst hs
          obtain ⟨g1, g2, g3, g4⟩ := hmore [(t, x, a)]
          refine ⟨fun e he => ?_, g2, g3, g4⟩
          rcases measureWrite_keys _ _ _ _ _ _ _ e he with h | h | h | ⟨e', he', h⟩
          · exact .inr (.inl h)
          · exact .inr (.inr ⟨(t, x, a), by simp, .inl h⟩)
          · exact .inr (.inr ⟨(t, x, a), by simp, .inr h⟩)
          · rw [← h]; exact g1 e' he'
        · cases hs
    | collect =>
      simp only [Conc.step] at hs
      split at hs
      · injection hs with hs; subst hs; exact ⟨h1, h2, fun _ _ hc => (by cases hc), h4⟩
      · cases hs
    | collector it =>
      simp only [Conc.step, Conc.collectorStep] at hs
      split at hs
      · cases hs
      · split at hs
        · injection hs with hs; subst hs; exact ⟨h1, h2, fun _ _ hc => (by cases hc), h4⟩
        · injection hs with hs; subst hs; exact ⟨h1, h2, fun _ _ hc => (by cases hc), h4⟩
      · injection hs with hs; subst hs
        refine ⟨h1, fun p hp => ?_, fun _ _ hc => (by cases hc), h4⟩
        rcases List.mem_append.1 hp with hp | hp
        · exact h2 p hp
        · rw [List.mem_singleton.1 hp]; exact .inl rfl
      · split at hs
        · rename_i hperm
          have hit : ∀ e ∈ it, Given cc s.applied e.1 := fun e he => h1 e ((List.isPerm_iff.1 hperm).subset he)
          split at hs
          · split at hs
            · injection hs with hs; subst hs
              exact ⟨fun e he => (by cases he), h2, fun rest seen hc e he => (by injection hc with hc _; subst hc; exact hit e he), h4⟩
            · cases hs
          · injection hs with hs; subst hs
            exact ⟨h1, h2, fun rest seen hc e he => (by injection hc with hc _; subst hc; exact hit e he), h4⟩
        · cases hs
      · injection hs with hs; subst hs
        refine ⟨h1, fun _ hp => (by cases hp), fun _ _ hc => (by cases hc), fun r hr p hp => ?_⟩
        rcases List.mem_append.1 hr with hr | hr
        · exact h4 r hr p hp
        · rw [List.mem_singleton.1 hr] at hp; exact h2 p hp
      · rename_i e rest seen hcoll
        have hw := h3 _ _ hcoll
        split at hs
        · injection hs with hs; subst hs
          exact ⟨h1, h2, fun rest' seen' hc e' he' => (by injection hc with hc _; subst hc; exact hw e' (by simp [he'])), h4⟩
        · injection hs with hs; subst hs
          refine ⟨h1, fun p hp => ?_, fun rest' seen' hc e' he' => (by injection hc with hc _; subst hc; exact hw e' (by simp [he'])), h4⟩
          rcases List.mem_append.1 hp with hp | hp
          · exact h2 p hp
          · rw [List.mem_singleton.1 hp]; exact hw e (by simp)

/-! ## Lemmas: labels -/

/-- Labels of lists whose keys differ, also when sanitized: the keys and values. -/
theorem labels_of_distinct (cfg : Prom.Cfg) (kvs : List (Str × Str)) (h : (kvs.map fun p => Prom.sanitizeKv p.1).Nodup) (k v : Str) :
    (k, v) ∈ Prom.getAttrs cfg kvs [] ↔ ∃ p ∈ kvs, Prom.sanitizeKv p.1 = k ∧ p.2 = v := by
  have hmem := (Prom.labels_complete cfg kvs).2.2
  have hone : ∀ p ∈ kvs, Prom.valuesOf kvs (Prom.sanitizeKv p.1) = [p.2] := by
    intro p hp
    unfold Prom.valuesOf
    clear hmem
    induction kvs with
    | nil => cases hp
    | cons q kvs ih =>
      rw [List.map_cons, List.nodup_cons] at h
      rcases List.mem_cons.1 hp with rfl | hp
      · rw [List.filter_cons_of_pos (by simp), List.map_cons, List.filter_eq_nil_iff.2, List.map_nil]
        intro q hq hc
        exact h.1 (List.mem_map.2 ⟨q, hq, of_decide_eq_true hc⟩)
      · rw [List.filter_cons_of_neg]
        · exact ih h.2 hp
        · intro hc
          exact h.1 (List.mem_map.2 ⟨p, hp, (of_decide_eq_true hc).symm⟩)
  have hsort : ∀ y : Str, cfg.sortVals [y] = [y] := fun y => List.perm_singleton.1 (cfg.sortVals_perm [y])
  rw [hmem]
  constructor
  · rintro ⟨hne, rfl⟩
    obtain ⟨w, hw⟩ := List.exists_mem_of_ne_nil _ hne
    obtain ⟨p, hp, rfl⟩ := List.mem_map.1 hw
    have hp' := List.mem_filter.1 hp
    have hk : Prom.sanitizeKv p.1 = k := of_decide_eq_true hp'.2
    refine ⟨p, hp'.1, hk, ?_⟩
    rw [← hk, hone p hp'.1, hsort]; rfl
  · rintro ⟨p, hp, rfl, rfl⟩
    rw [hone p hp, hsort]
    exact ⟨by simp, rfl⟩

/-- Keys and values are told apart by the labels: sanitized keys differ, and so do the texts of values. -/
def Apart (x : Texts K) (val : V → Val) : Prop := (Function.Injective fun k => Prom.sanitizeKv (x.key k)) ∧ Function.Injective fun v => x.val (val v)

/-- Equal labels mean equal sets. -/
theorem labels_apart (x : Texts K) (cfg : Prom.Cfg) (val : V → Val) (res : ResVal K) (ci : CounterId K) (hx : Apart x val) (srt : Sorter K V) {a b : Attrs K V}
    (ha : (a.map Prod.fst).Nodup) (hb : (b.map Prod.fst).Nodup) (h : seriesLabels x cfg val res ci a = seriesLabels x cfg val res ci b) : sortAndDedup srt a = sortAndDedup srt b := by
  have hnd : ∀ c : Attrs K V, (c.map Prod.fst).Nodup → ((labelsOf x (kvsOf val c)).map fun p => Prom.sanitizeKv p.1).Nodup := by
    intro c hc
    have : ((labelsOf x (kvsOf val c)).map fun p => Prom.sanitizeKv p.1) = (c.map Prod.fst).map fun k => Prom.sanitizeKv (x.key k) := by
      simp [labelsOf, kvsOf, List.map_map, Function.comp_def]
    rw [this]
    exact hc.map hx.1
  have hget : Prom.getAttrs cfg (labelsOf x (kvsOf val a)) [] = Prom.getAttrs cfg (labelsOf x (kvsOf val b)) [] := by
    unfold seriesLabels Prom.getAttrs at h
    unfold Prom.getAttrs
    rw [List.append_nil, List.append_nil]
    exact List.append_cancel_right h
  have hmem : ∀ c : Attrs K V, (c.map Prod.fst).Nodup → ∀ kv : K × V, kv ∈ c ↔ (Prom.sanitizeKv (x.key kv.1), x.val (val kv.2)) ∈ Prom.getAttrs cfg (labelsOf x (kvsOf val c)) [] := by
    intro c hc kv
    rw [labels_of_distinct cfg _ (hnd c hc)]
    constructor
    · intro hkv
      exact ⟨(x.key kv.1, x.val (val kv.2)), List.mem_map.2 ⟨(kv.1, val kv.2), List.mem_map.2 ⟨kv, hkv, rfl⟩, rfl⟩, rfl, rfl⟩
    · rintro ⟨p, hp, h1, h2⟩
      obtain ⟨q, hq, rfl⟩ := List.mem_map.1 hp
      obtain ⟨kv', hkv', rfl⟩ := List.mem_map.1 hq
      have e1 : kv'.1 = kv.1 := hx.1 h1
      have e2 : kv'.2 = kv.2 := hx.2 h2
      rw [show kv = kv' from Prod.ext e1.symm e2.symm]; exact hkv'
  rw [canon_eq_iff_perm srt a b ha hb, List.perm_ext_iff_of_nodup (List.Nodup.of_map _ ha) (List.Nodup.of_map _ hb)]
  intro kv
  rw [hmem a ha, hmem b hb, hget]

/-- Attributes whose values are all of one type are told apart by their texts (C102), if the keys are. -/
theorem apart_of_type (f : Common.FloatText) (key : K → Str) (hk : Function.Injective fun k => Prom.sanitizeKv (key k)) (val : V → Val) (ht : ∀ a b, Common.SameType (val a) (val b))
    (hq : ∀ a, Common.NoQuotes (val a)) (hv : ∀ a b, Common.SameValue (val a) (val b) → a = b) : Apart ⟨key, Common.Val.text f⟩ val :=
  ⟨hk, fun a b h => hv a b (Common.text_tells_values_partial f (ht a b) (hq a) (hq b) h)⟩

/-- Strings. -/
example (f : Common.FloatText) (key : K → Str) (hk : Function.Injective fun k => Prom.sanitizeKv (key k)) : Apart ⟨key, Common.Val.text f⟩ Val.str :=
  apart_of_type f key hk Val.str (fun _ _ => trivial) (fun _ => trivial) fun _ _ h => Common.Val.str.inj h

/-! ## C101 -/

theorem scraped_reachable {cc : Conc.Cfg K V A X} {st : Style K A} {val : V → Val} {x : Texts K} {cast : Cast} {cfg : Prom.Cfg} {dflt : Scope K} {res : ResVal K} {ci : CounterId K} {n : Str}
    {s : Conc.State K V A X} {alive : Bool} {known : Prom.Known} {log : List (List (Prom.Family (BitVec 64)))} (h : Scraped cc st val x cast cfg dflt res ci n s alive known log) :
    Conc.Reachable cc s := by
  induction h with
  | init => exact .init
  | work a _ hs _ ih => exact .step ih a hs
  | scrape a r o _ hs _ _ ih => exact .step ih a hs
  | other a r _ hs _ ih => exact .step ih a hs
  | shut _ ih => exact ih
  | failed _ ih => exact ih

/-- The answers of the scrapes: of a collection each, in order, or empty after a shutdown. -/
theorem scraped_log {cc : Conc.Cfg K V A X} {st : Style K A} (hfit : st.Fit) (hattrs : KeepsAttrs st) {val : V → Val} {x : Texts K} {cast : Cast} {cfg : Prom.Cfg} {dflt : Scope K} {res : ResVal K}
    {ci : CounterId K} {ty : Prom.MType} {n : Str} (hid : exportedAs cfg st.kind ci = some (ty, n)) (hn : NotInfo n)
    {s : Conc.State K V A X} {alive : Bool} {known : Prom.Known} {log : List (List (Prom.Family (BitVec 64)))} (h : Scraped cc st val x cast cfg dflt res ci n s alive known log) :
    KnownAs known n ty ci.description.toList ∧ ∃ bs : List (Option (Conc.Collection K V A X)), List.Sublist (bs.filterMap fun b => b) s.done ∧ (alive = true → ∀ b ∈ bs, b ≠ none) ∧
      List.Forall₂ (fun b fs => match b with
        | none => fs = []
        | some r => named n fs = r.points.map fun p => ⟨n, ci.description.toList, ty, seriesLabels x cfg val res ci p.1, shown cast (st.point (kvsOf val p.1) p.2)⟩) bs log := by
  induction h with
  | init => exact ⟨.inl rfl, [], List.Sublist.refl _, fun _ _ hb => (by cases hb), .nil⟩
  | work a _ _ he ih => rw [he]; exact ih
  | shut _ ih => obtain ⟨h1, bs, h2, _, h4⟩ := ih; exact ⟨h1, bs, h2, fun hc => (by cases hc), h4⟩
  | scrape a r o _ hs he ho ih =>
    obtain ⟨h1, bs, h2, h3, h4⟩ := ih
    obtain ⟨g1, g2⟩ := scrape_named x cast cfg st hfit hattrs cc.delta val dflt res ci hid hn o ho r.points h1
    refine ⟨g2, bs ++ [some r], ?_, fun _ b hb => ?_, List.rel_append h4 (.cons g1 .nil)⟩
    · rw [he, List.filterMap_append]
      exact h2.append (List.Sublist.refl _)
    · rcases List.mem_append.1 hb with hb | hb
      · exact h3 rfl b hb
      · rw [List.mem_singleton.1 hb]; simp
  | other a r _ hs he ih =>
    obtain ⟨h1, bs, h2, h3, h4⟩ := ih
    exact ⟨h1, bs, by rw [he]; exact h2.trans (List.sublist_append_left _ _), h3, h4⟩
  | failed _ ih =>
    obtain ⟨h1, bs, h2, _, h4⟩ := ih
    refine ⟨h1, bs ++ [none], ?_, fun hc => (by cases hc), List.rel_append h4 (.cons rfl .nil)⟩
    rw [List.filterMap_append, List.filterMap_cons, List.filterMap_nil, List.append_nil]; exact h2

/-- **C101.** For every schedule of threads, collections and scrapes of a cumulative instrument whose exported name is its own: a scrape before the shutdown of the reader shows
exactly one series for each attribute set, with the type, name and help text of the instrument and the aggregation of all values recorded for the set up to a moment of the
scrape: everything recorded before the scrape began, nothing that was not recorded, and everything that earlier scrapes showed; there is a series for each set measured before
the scrape began. A scrape after the shutdown shows nothing. For at most as many attribute sets as the limit. -/
theorem scrape_shows_partial {cc : Conc.Cfg K V A X} (hd : cc.delta = false) {st : Style K A} (hfit : st.Fit) (hattrs : KeepsAttrs st) {val : V → Val} {x : Texts K} {cast : Cast}
    {cfg : Prom.Cfg} {dflt : Scope K} {res : ResVal K} {ci : CounterId K} {ty : Prom.MType} {n : Str} (hid : exportedAs cfg st.kind ci = some (ty, n)) (hn : NotInfo n)
    {s : Conc.State K V A X} {alive : Bool} {known : Prom.Known} {log : List (List (Prom.Family (BitVec 64)))} (h : Scraped cc st val x cast cfg dflt res ci n s alive known log)
    {L : List (Attrs K V)} (hL : L.length ≤ cc.limit) (hsets : ∀ e ∈ s.applied, e.2.2 ≠ [] → sortAndDedup cc.srt e.2.2 ∈ L) :
    ∃ bs : List (Option (Conc.Collection K V A X)), List.Sublist (bs.filterMap fun b => b) s.done ∧ (alive = true → ∀ b ∈ bs, b ≠ none) ∧
      List.Forall₂ (fun b fs => match b with
        | none => fs = []
        | some r => Shows cc st val x cast cfg res ci ty n (Conc.cumOk cc.srt r) (Conc.cumMust cc.srt r) fs) bs log ∧
      (∀ r, some r ∈ bs → ∀ a xs, Conc.cumOk cc.srt r a xs → Conc.setValues cc.srt r.startHist r.startNo a <+: xs ∧ xs <+: Conc.recordedOf cc.srt s a) ∧
      (bs.filterMap fun b => b).Pairwise fun r q => ∀ a xs ys, Conc.cumOk cc.srt r a xs → Conc.cumOk cc.srt q a ys → xs <+: ys := by
  obtain ⟨_, bs, h1, h2, h3⟩ := scraped_log hfit hattrs hid hn h
  have hr := scraped_reachable h
  have hmem : ∀ r, some r ∈ bs → r ∈ s.done := fun r hb => h1.subset (List.mem_filterMap.2 ⟨some r, hb, rfl⟩)
  refine ⟨bs, h1, h2, ?_, fun r hb a xs hok => Conc.cumulative_within hd hr (hmem r hb) hok, (Conc.cumulative_grows hd hr).sublist h1⟩
  have hdone := Conc.cumulative_sets hd hr hL hsets
  clear h1 h2 h
  induction h3 with
  | nil => exact .nil
  | @cons b fs bs log hb hrest ih =>
    refine .cons ?_ (ih fun r hb => hmem r (by simp [hb]))
    cases b with
    | none => exact hb
    | some r => exact ⟨r.points, hdone r (hmem r (by simp)), hb⟩

theorem given_keys {cc : Conc.Cfg K V A X} {ap : List (Nat × X × Attrs K V)} (hkeys : ∀ e ∈ ap, (e.2.2.map Prod.fst).Nodup) {k : Attrs K V} (h : Given cc ap k) : (k.map Prod.fst).Nodup := by
  rcases h with rfl | rfl | ⟨e, he, rfl | rfl⟩
  · exact List.nodup_nil
  · simp
  · exact hkeys e he
  · rw [List.Nodup, List.pairwise_map]
    exact (canon_strict cc.srt e.2.2).imp fun hab => ne_of_lt hab

/-- **C101.** No scrape shows the same series twice, if every measurement has distinct keys and the texts of keys and values tell them apart. -/
theorem series_distinct_partial {cc : Conc.Cfg K V A X} (hd : cc.delta = false) {st : Style K A} (hfit : st.Fit) (hattrs : KeepsAttrs st) {val : V → Val} {x : Texts K} (hx : Apart x val)
    {cast : Cast} {cfg : Prom.Cfg} {dflt : Scope K} {res : ResVal K} {ci : CounterId K} {ty : Prom.MType} {n : Str} (hid : exportedAs cfg st.kind ci = some (ty, n)) (hn : NotInfo n)
    {s : Conc.State K V A X} {alive : Bool} {known : Prom.Known} {log : List (List (Prom.Family (BitVec 64)))} (h : Scraped cc st val x cast cfg dflt res ci n s alive known log)
    {L : List (Attrs K V)} (hL : L.length ≤ cc.limit) (hsets : ∀ e ∈ s.applied, e.2.2 ≠ [] → sortAndDedup cc.srt e.2.2 ∈ L)
    (hkeys : ∀ e ∈ s.applied, (e.2.2.map Prod.fst).Nodup) : ∀ fs ∈ log, ((named n fs).map fun f => f.labels).Nodup := by
  obtain ⟨_, bs, h1, h2, h3⟩ := scraped_log hfit hattrs hid hn h
  have hr := scraped_reachable h
  have hmem : ∀ r, some r ∈ bs → r ∈ s.done := fun r hb => h1.subset (List.mem_filterMap.2 ⟨some r, hb, rfl⟩)
  have hdone := Conc.cumulative_sets hd hr hL hsets
  have hgiven := (keys_reachable hr).done
  clear h1 h2 h
  induction h3 with
  | nil => intro fs hfs; cases hfs
  | @cons b fs bs log hb hrest ih =>
    intro fs' hfs'
    rcases List.mem_cons.1 hfs' with rfl | hfs'
    · cases b with
      | none => rw [show fs' = [] from hb]; exact List.nodup_nil
      | some r =>
        have hrd := hmem r (by simp)
        have hdis := (hdone r hrd).distinct
        rw [show named n fs' = _ from hb, List.map_map]
        rw [List.Nodup, List.pairwise_map] at hdis ⊢
        refine hdis.imp_of_mem fun {p q} hp hq hpq hc => hpq ?_
        exact labels_apart x cfg val res ci hx cc.srt (given_keys hkeys (hgiven r hrd p hp)) (given_keys hkeys (hgiven r hrd q hq)) hc
    · exact ih (fun r hb => hmem r (by simp [hb])) fs' hfs'

theorem cumOk_same {cc : Conc.Cfg K V A X} {r : Conc.Collection K V A X} {a b : Attrs K V} {xs : List X} (hab : sortAndDedup cc.srt a = sortAndDedup cc.srt b)
    (h : Conc.cumOk cc.srt r a xs) : Conc.cumOk cc.srt r b xs := by
  obtain ⟨h', no, g1, g2, g3, g4, g5⟩ := h
  have hnil : a = [] ↔ b = [] := by rw [← canon_eq_nil cc.srt a, ← canon_eq_nil cc.srt b, hab]
  refine ⟨h', no, g1, g2, fun hb => g3 (hnil.2 hb), ?_, fun hb => g5 fun ha => hb (hnil.1 ha)⟩
  rw [g4, Conc.setValues, Conc.setValues, hab]
  simp only [hnil]

/-- **C101.** Two scrapes and a series that is in both: the later number is the aggregation of what the earlier number aggregates and of what was recorded since. -/
theorem series_grows_partial {cc : Conc.Cfg K V A X} (hd : cc.delta = false) {st : Style K A} (hfit : st.Fit) (hattrs : KeepsAttrs st) {val : V → Val} {x : Texts K} (hx : Apart x val)
    {cast : Cast} {cfg : Prom.Cfg} {dflt : Scope K} {res : ResVal K} {ci : CounterId K} {ty : Prom.MType} {n : Str} (hid : exportedAs cfg st.kind ci = some (ty, n)) (hn : NotInfo n)
    {s : Conc.State K V A X} {alive : Bool} {known : Prom.Known} {log : List (List (Prom.Family (BitVec 64)))} (h : Scraped cc st val x cast cfg dflt res ci n s alive known log)
    {L : List (Attrs K V)} (hL : L.length ≤ cc.limit) (hsets : ∀ e ∈ s.applied, e.2.2 ≠ [] → sortAndDedup cc.srt e.2.2 ∈ L)
    (hkeys : ∀ e ∈ s.applied, (e.2.2.map Prod.fst).Nodup) :
    log.Pairwise fun fs fs' => ∀ f ∈ named n fs, ∀ f' ∈ named n fs', f.labels = f'.labels → ∃ a b xs ys, f.labels = seriesLabels x cfg val res ci a ∧
      f.num = shown cast (st.point (kvsOf val a) (xs.foldl cc.agg.update cc.agg.create)) ∧
      f'.num = shown cast (st.point (kvsOf val b) (ys.foldl cc.agg.update cc.agg.create)) ∧ xs <+: ys ∧ ys <+: Conc.recordedOf cc.srt s a := by
  obtain ⟨_, bs, h1, h2, h3⟩ := scraped_log hfit hattrs hid hn h
  have hr := scraped_reachable h
  have hmem : ∀ r, some r ∈ bs → r ∈ s.done := fun r hb => h1.subset (List.mem_filterMap.2 ⟨some r, hb, rfl⟩)
  have hdone := Conc.cumulative_sets hd hr hL hsets
  have hgiven := (keys_reachable hr).done
  have hgrow := (Conc.cumulative_grows hd hr).sublist h1
  have hwith := fun r hrd => @Conc.cumulative_within K V _ _ A X cc hd s hr r hrd
  clear h1 h2 h
  induction h3 with
  | nil => exact .nil
  | @cons b fs bs log hb hrest ih =>
    have ih' := ih (fun r hb => hmem r (by simp [hb])) (by
      cases b with
      | none => exact hgrow
      | some r => exact (List.pairwise_cons.1 hgrow).2)
    refine List.pairwise_cons.2 ⟨fun fs' hfs' f hf f' hf' hl => ?_, ih'⟩
    obtain ⟨b', hb', hfs⟩ : ∃ b' ∈ bs, (match b' with
        | none => fs' = []
        | some r => named n fs' = r.points.map fun p => ⟨n, ci.description.toList, ty, seriesLabels x cfg val res ci p.1, shown cast (st.point (kvsOf val p.1) p.2)⟩) := by
      clear ih ih' hgrow hmem
      induction hrest with
      | nil => cases hfs'
      | @cons b2 fs2 bs log hb2 _ ih2 =>
        rcases List.mem_cons.1 hfs' with rfl | hfs'
        · exact ⟨b2, by simp, hb2⟩
        · obtain ⟨b3, hb3, h3⟩ := ih2 hfs'
          exact ⟨b3, by simp [hb3], h3⟩
    cases b with
    | none => rw [show fs = [] from hb] at hf; cases hf
    | some r =>
      cases b' with
      | none => rw [show fs' = [] from hfs] at hf'; cases hf'
      | some q =>
        rw [show named n fs = _ from hb] at hf
        rw [show named n fs' = _ from hfs] at hf'
        obtain ⟨p, hp, rfl⟩ := List.mem_map.1 hf
        obtain ⟨p', hp', rfl⟩ := List.mem_map.1 hf'
        have hrd := hmem r (by simp)
        have hqd := hmem q (by simp [hb'])
        obtain ⟨xs, k1, k2⟩ := (hdone r hrd).values p hp
        obtain ⟨ys, l1, l2⟩ := (hdone q hqd).values p' hp'
        have hsame := labels_apart x cfg val res ci hx cc.srt (given_keys hkeys (hgiven r hrd p hp)) (given_keys hkeys (hgiven q hqd p' hp')) hl
        have hpre := (List.pairwise_cons.1 hgrow).1 q (List.mem_filterMap.2 ⟨some q, hb', rfl⟩) p'.1 xs ys (cumOk_same hsame k1) l1
        refine ⟨p.1, p'.1, xs, ys, rfl, by rw [← k2], by rw [← l2], hpre, ?_⟩
        exact (hwith q hqd (cumOk_same hsame.symm l1)).2

/-! ## The instruments -/

theorem sum_keeps (mono : Bool) : KeepsAttrs (u64Sum (K := K) mono) ∧ KeepsAttrs (i64Sum (K := K) mono) ∧ KeepsAttrs (f64Sum (K := K) mono) :=
  ⟨fun _ _ => rfl, fun _ _ => rfl, fun _ _ => rfl⟩

theorem gauge_keeps {N : Type} (k : NumKind) (toNum : N → Num) : KeepsAttrs (gaugeOf (K := K) k toNum) := fun _ _ => rfl

theorem histogram_keeps {N : Type} (k : NumKind) (toNum : N → Num) (word : Rust.F64 → BitVec 64) (num : NumOps N) (bounds : List Rust.F64) (mm rs : Bool) :
    KeepsAttrs (histogramOf (K := K) k toNum word num bounds mm rs) := fun _ _ => rfl

/-- **C101, counters:** the number is the sum of the values as a double, if it is less than 2^64. -/
theorem u64_shown (cast : Cast) (mono : Bool) (kvs : List (K × Val)) (xs : List (BitVec 64)) (hb : (xs.map BitVec.toNat).sum < 2 ^ 64) :
    ∃ u : BitVec 64, shown cast ((u64Sum mono).point kvs (xs.foldl (increment (BitVec 64)).update (increment (BitVec 64)).create)) = .value (cast.ofU64 u) ∧
      u.toNat = (xs.map BitVec.toNat).sum := by
  refine ⟨_, rfl, ?_⟩
  have hf := foldl_toNat xs 0 (by simp; omega)
  refine Eq.trans hf ?_; simp

/-- **C101, up-down counters:** the number is the sum as a double, if it is an `i64`. -/
theorem i64_shown (cast : Cast) (mono : Bool) (kvs : List (K × Val)) (xs : List (BitVec 64)) (h1 : -2 ^ 63 ≤ (xs.map BitVec.toInt).sum) (h2 : (xs.map BitVec.toInt).sum < 2 ^ 63) :
    ∃ u : BitVec 64, shown cast ((i64Sum mono).point kvs (xs.foldl (increment (BitVec 64)).update (increment (BitVec 64)).create)) = .value (cast.ofI64 u) ∧
      u.toInt = (xs.map BitVec.toInt).sum := by
  refine ⟨_, rfl, ?_⟩
  have hf := foldl_toInt xs 0
  rw [show (0 : BitVec 64).toInt = 0 from rfl, Int.zero_add, Int.bmod_eq_of_le (by omega) (by omega)] at hf
  exact hf

/-- **C101, gauges:** the number is the last value, as a double. -/
theorem gauge_shown {N : Type} (cast : Cast) (k : NumKind) (toNum : N → Num) (zero : N) (kvs : List (K × Val)) (xs : List N) (y : N) (hy : xs.getLast? = some y) :
    shown cast ((gaugeOf k toNum).point kvs (xs.foldl (assign N zero).update (assign N zero).create)) = .value (intoF64 cast (toNum y)) := by
  rw [assign_foldl, hy]; rfl

/-- Sums of the first buckets: the values up to a boundary. -/
theorem upto_boundary {N : Type} (num : NumOps N) (P : PartitionPoint) (bounds : List Rust.F64) (hb : Increasing bounds) (y : N) (hy : num.toF y ≠ .nan) (i : Nat) (b : Rust.F64)
    (hi : bounds[i]? = some b) : (histogramInput num P bounds y).2 ≤ i ↔ Rust.F64.le (num.toF y) b = true := by
  have hin := (bucket_index num P bounds hb y hy (histogramInput num P bounds y).2).2 rfl
  obtain ⟨hlen, hlow, hup⟩ := hin
  obtain ⟨hil, hib⟩ := List.getElem?_eq_some_iff.1 hi
  have hbn : b ≠ .nan := hb.1 b (hib ▸ List.getElem_mem hil)
  generalize (histogramInput num P bounds y).2 = j at hlen hlow hup ⊢
  rw [Rust.F64.le_iff_not_lt hy hbn]
  constructor
  · intro hji
    have hjl : j < bounds.length := by omega
    have h1 := hup bounds[j] (List.getElem?_eq_getElem hjl)
    rw [Rust.F64.le_iff_not_lt hy (hb.1 _ (List.getElem_mem hjl))] at h1
    rcases Nat.lt_or_eq_of_le hji with hlt | rfl
    · have h2 := List.pairwise_iff_getElem.1 hb.2 j i hjl hil hlt
      rw [hib] at h2
      cases hc : Rust.F64.lt b (num.toF y) with
      | false => rfl
      | true => rw [Rust.F64.lt_trans h2 hc] at h1; cases h1
    · rw [← hib]; exact h1
  · intro hnl
    by_contra hji
    have hj1 : j - 1 < bounds.length := by omega
    have h1 := hlow bounds[j - 1] (by omega) (List.getElem?_eq_getElem hj1)
    rcases Nat.lt_or_eq_of_le (show i ≤ j - 1 by omega) with hlt | heq
    · have h2 := List.pairwise_iff_getElem.1 hb.2 i (j - 1) hil hj1 hlt
      rw [hib] at h2
      rw [Rust.F64.lt_trans h2 h1] at hnl; cases hnl
    · subst heq
      rw [hib] at h1
      rw [h1] at hnl; cases hnl

/-- **C101, histograms:** the series has the number of values, their sum, and for each boundary the number of values up to it: Prometheus's `le`. -/
theorem histogram_shown {N : Type} (cast : Cast) (k : NumKind) (toNum : N → Num) (word : Rust.F64 → BitVec 64) (num : NumOps N) (P : PartitionPoint) (bounds : List Rust.F64)
    (hb : Increasing bounds) (mm rs : Bool) (kvs : List (K × Val)) (ys : List N) (hlen : ys.length < 2 ^ 64) (hy : ∀ y ∈ ys, num.toF y ≠ .nan) :
    ∃ (sum : BitVec 64) (bks : List (BitVec 64 × Nat)), shown cast ((histogramOf k toNum word num bounds mm rs).point kvs
        ((ys.map (histogramInput num P bounds)).foldl (bucketsAgg num (bounds.length + 1)).update (bucketsAgg num (bounds.length + 1)).create)) = .hist sum ys.length bks ∧
      sum = intoF64 cast (toNum (if rs then ys.foldl num.add num.zero else num.zero)) ∧ bks.map Prod.fst = bounds.map word ∧
      ∀ (i : Nat) b, bounds[i]? = some b → (bks.map Prod.snd)[i]? = some (ys.filter fun y => Rust.F64.le (num.toF y) b).length := by
  obtain ⟨c1, c2, c3, c4⟩ := buckets_counts num (bounds.length + 1) (ys.map (histogramInput num P bounds))
  generalize hB : (ys.map (histogramInput num P bounds)).foldl (Buckets.update num) (Buckets.new num (bounds.length + 1)) = B at c1 c2 c3 c4
  have hagg : (ys.map (histogramInput num P bounds)).foldl (bucketsAgg num (bounds.length + 1)).update (bucketsAgg num (bounds.length + 1)).create = B := hB
  rw [hagg]
  have hfst : (ys.map (histogramInput num P bounds)).map Prod.fst = ys := by
    rw [List.map_map]; conv_rhs => rw [← List.map_id ys]
    rfl
  rw [List.length_map] at c2
  rw [hfst] at c3
  have hcounts : ((B.counts.map (BitVec.ofNat 64)).map BitVec.toNat) = B.counts := by
    rw [List.map_map]
    conv_rhs => rw [← List.map_id B.counts]
    refine List.map_congr_left fun c hc => ?_
    obtain ⟨j, hj, rfl⟩ := List.mem_iff_getElem.1 hc
    have := c4 j (by omega)
    rw [List.getElem?_eq_getElem hj] at this
    have hle : B.counts[j] ≤ ys.length := by
      rw [Option.some.inj this]
      exact (List.length_filter_le _ _).trans (by rw [List.length_map])
    show (BitVec.ofNat 64 B.counts[j]).toNat = B.counts[j]
    rw [BitVec.toNat_ofNat, Nat.mod_eq_of_lt (by omega)]
  refine ⟨_, Prom.buckets (bounds.map word) B.counts, ?_, rfl, ?_, ?_⟩
  · show Prom.Num.hist _ (BitVec.ofNat 64 B.count).toNat (Prom.buckets (bounds.map word) ((B.counts.map (BitVec.ofNat 64)).map BitVec.toNat)) = _
    rw [hcounts, BitVec.toNat_ofNat, c2, Nat.mod_eq_of_lt hlen]
    show Prom.Num.hist (intoF64 cast (toNum (if rs then B.total else num.zero))) _ _ = _
    rw [c3]
  · exact (Prom.buckets_cumulative (bounds.map word) B.counts (by rw [c1, List.length_map])).1
  · intro i b hi
    obtain ⟨hil, _⟩ := List.getElem?_eq_some_iff.1 hi
    rw [(Prom.buckets_cumulative (bounds.map word) B.counts (by rw [c1, List.length_map])).2 i (by rw [List.length_map]; exact hil)]
    congr 1
    have htake : B.counts.take (i + 1) = (List.range (i + 1)).map fun j => (((ys.filter fun y => Rust.F64.le (num.toF y) b).map fun y => (histogramInput num P bounds y).2).filter fun z => z = j).length := by
      refine List.ext_getElem? fun j => ?_
      by_cases hj : j < i + 1
      · rw [List.getElem?_take_of_lt hj, List.getElem?_map, List.getElem?_range hj, c4 j (by omega), Option.map_some, List.filter_map, List.length_map, List.filter_map, List.length_map,
          List.filter_filter]
        congr 2
        refine List.filter_congr fun y hyy => ?_
        have := upto_boundary num P bounds hb y (hy y hyy) i b hi
        simp only [Function.comp]
        by_cases hz : (histogramInput num P bounds y).2 = j
        · have hle := this.1 (by omega)
          simp [hz, hle]
        · simp [hz]
      · rw [List.getElem?_eq_none (by rw [List.length_take]; omega), List.getElem?_eq_none (by rw [List.length_map, List.length_range]; omega)]
    rw [htake, count_sum (i + 1)]
    · rw [List.length_map]
    · intro z hz
      obtain ⟨y, hyy, rfl⟩ := List.mem_map.1 hz
      obtain ⟨hm, hle⟩ := List.mem_filter.1 hyy
      have := (upto_boundary num P bounds hb y (hy y hm) i b hi).2 hle
      omega

/-- **C101.** A series of a counter never falls from one scrape to a later one: the totals of which the numbers are the doubles do not. -/
theorem counter_never_falls_partial {cc : Conc.Cfg K V (BitVec 64) (BitVec 64)} (hagg : cc.agg = increment (BitVec 64)) (hd : cc.delta = false) (mono : Bool) {val : V → Val}
    {x : Texts K} (hx : Apart x val) {cast : Cast} {cfg : Prom.Cfg} {dflt : Scope K} {res : ResVal K} {ci : CounterId K} {ty : Prom.MType} {n : Str}
    (hid : exportedAs cfg (.sum mono) ci = some (ty, n)) (hn : NotInfo n) {s : Store K V} {alive : Bool} {known : Prom.Known} {log : List (List (Prom.Family (BitVec 64)))}
    (h : Scraped cc (u64Sum mono) val x cast cfg dflt res ci n s alive known log) {L : List (Attrs K V)} (hL : L.length ≤ cc.limit)
    (hsets : ∀ e ∈ s.applied, e.2.2 ≠ [] → sortAndDedup cc.srt e.2.2 ∈ L) (hkeys : ∀ e ∈ s.applied, (e.2.2.map Prod.fst).Nodup) (hbound : recorded s < 2 ^ 64) :
    log.Pairwise fun fs fs' => ∀ f ∈ named n fs, ∀ f' ∈ named n fs', f.labels = f'.labels →
      ∃ u v : BitVec 64, f.num = .value (cast.ofU64 u) ∧ f'.num = .value (cast.ofU64 v) ∧ u.toNat ≤ v.toNat ∧ v.toNat ≤ recorded s := by
  have hg := series_grows_partial hd (u64Sum_ok mono).1 (sum_keeps mono).1 hx hid hn h hL hsets hkeys
  refine hg.imp fun {fs fs'} hp f hf f' hf' hl => ?_
  obtain ⟨a, b, xs, ys, _, h2, h3, h4, h5⟩ := hp f hf f' hf' hl
  rw [hagg] at h2 h3
  have k1 := sum_sublist (h4.sublist.map BitVec.toNat)
  have k2 := sum_sublist (h5.sublist.map BitVec.toNat)
  have k3 : ((Conc.recordedOf cc.srt s a).map BitVec.toNat).sum ≤ recorded s := by
    rw [Conc.recordedOf, List.map_map]
    exact sum_sublist (List.filter_sublist.map _)
  obtain ⟨u, u1, u2⟩ := u64_shown cast mono (kvsOf val a) xs (by omega)
  obtain ⟨v, v1, v2⟩ := u64_shown cast mono (kvsOf val b) ys (by omega)
  exact ⟨u, v, by rw [h2, u1], by rw [h3, v1], by omega, by omega⟩

/-- **C101.** The types of the series: a counter for monotonic sums, a gauge for other sums and for gauges, a histogram for histograms. -/
theorem series_types (cfg : Prom.Cfg) (ci : CounterId K) :
    ((exportedAs cfg (u64Sum (K := K) true).kind ci).map Prod.fst = some .counter ∧ (exportedAs cfg (f64Sum (K := K) true).kind ci).map Prod.fst = some .counter) ∧
    ((exportedAs cfg (i64Sum (K := K) false).kind ci).map Prod.fst = some .gauge ∧ (exportedAs cfg (f64Sum (K := K) false).kind ci).map Prod.fst = some .gauge) ∧
    (∀ (N : Type) (k : NumKind) (toNum : N → Num), (exportedAs cfg (gaugeOf (K := K) k toNum).kind ci).map Prod.fst = some .gauge) ∧
    ∀ (N : Type) (k : NumKind) (toNum : N → Num) (word : Rust.F64 → BitVec 64) (num : NumOps N) (bounds : List Rust.F64) (mm rs : Bool),
      (exportedAs cfg (histogramOf (K := K) k toNum word num bounds mm rs).kind ci).map Prod.fst = some .histogram :=
  ⟨⟨rfl, rfl⟩, ⟨rfl, rfl⟩, fun _ _ _ => rfl, fun _ _ _ _ _ _ _ _ => rfl⟩

/-! ## The hypotheses are met -/

/-- A schedule in which each collection is for a scrape, with the same other instruments each time. -/
theorem scraped_of_run {cc : Conc.Cfg K V A X} {st : Style K A} (hfit : st.Fit) (hattrs : KeepsAttrs st) {val : V → Val} {x : Texts K} {cast : Cast} {cfg : Prom.Cfg} {dflt : Scope K}
    {res : ResVal K} {ci : CounterId K} {ty : Prom.MType} {n : Str} (hid : exportedAs cfg st.kind ci = some (ty, n)) (hn : NotInfo n) (o : Around K) (ho : OtherNames x cast cfg n o)
    (as : List (Conc.Action K V X)) {s s' : Conc.State K V A X} {known : Prom.Known} {log : List (List (Prom.Family (BitVec 64)))}
    (h : Scraped cc st val x cast cfg dflt res ci n s true known log) (hr : Conc.runAll cc s as = some s')
    (hlog : log.map (named n) = s.done.map fun r => r.points.map fun p => ⟨n, ci.description.toList, ty, seriesLabels x cfg val res ci p.1, shown cast (st.point (kvsOf val p.1) p.2)⟩) :
    ∃ known' log', Scraped cc st val x cast cfg dflt res ci n s' true known' log' ∧
      log'.map (named n) = s'.done.map fun r => r.points.map fun p => ⟨n, ci.description.toList, ty, seriesLabels x cfg val res ci p.1, shown cast (st.point (kvsOf val p.1) p.2)⟩ := by
  induction as generalizing s known log with
  | nil => simp only [Conc.runAll, Option.some.injEq] at hr; subst hr; exact ⟨known, log, h, hlog⟩
  | cons a as ih =>
    simp only [Conc.runAll] at hr
    split at hr
    · rename_i s1 hs1
      rcases conc_step_done hs1 with hd | ⟨r, hd⟩
      · exact ih (.work a h hs1 hd) hr (by rw [hd]; exact hlog)
      · refine ih (.scrape a r o h hs1 hd ho) hr ?_
        rw [hd, List.map_append, List.map_append, hlog]
        congr 1
        rw [List.map_singleton, List.map_singleton]
        exact congrArg (fun l => [l]) (scrape_named x cast cfg st hfit hattrs cc.delta val dflt res ci hid hn o ho r.points (scraped_log hfit hattrs hid hn h).1).1
    · cases hr

/-- Keys as `k…`, booleans, integers and strings as Rust prints them. -/
def exTexts : Texts Nat := ⟨fun k => List.replicate (k + 1) 'k', fun
  | .bool true => "true".toList
  | .bool false => "false".toList
  | .int i => (toString i.toInt).toList
  | .str s => s.toList
  | _ => []⟩

theorem exTexts_apart : Apart exTexts Val.bool := by
  refine ⟨fun a b h => ?_, fun a b h => ?_⟩
  · have := congrArg List.length h
    simp only [exTexts, Prom.sanitizeKv, List.length_map, List.length_replicate] at this
    omega
  · cases a <;> cases b <;> first | rfl | cases h

def exName : Str := "requests_total".toList

theorem exName_id : exportedAs (Prom.exampleCfg none) (u64Sum (K := Nat) true).kind exCounter = some (.counter, exName) := by decide +kernel

theorem exName_notInfo : NotInfo exName := by refine ⟨?_, ?_⟩ <;> decide +kernel

theorem exAround_names (cast : Cast) : OtherNames exTexts cast (Prom.exampleCfg none) exName exAround := by
  intro i hi m hm
  simp only [exAround, List.append_nil, List.flatMap_cons, List.flatMap_nil, List.mem_append, List.mem_singleton] at hi
  rcases hi with rfl | rfl
  · cases hm
    have : (Prom.typeAndName (Prom.exampleCfg none) (⟨"x".toList, [], [], .sum true []⟩ : Prom.Metric (BitVec 64))).map Prod.snd ≠ some exName := by decide +kernel
    exact this
  · cases hm

/-- The hypotheses of the theorems above are met by a run with two scrapes of a counter: 5 for a set, then 11, and 7 for the measurement without attributes. -/
theorem scraped_example (cast : Cast) : ∃ (s : Store Nat Bool) (known : Prom.Known) (log : List (List (Prom.Family (BitVec 64)))),
    Scraped exStoreCum (u64Sum true) Val.bool exTexts cast (Prom.exampleCfg none) ⟨"", none, none, []⟩ ⟨[], none⟩ exCounter exName s true known log ∧
      (log.map (named exName)).map (fun l => l.map fun f => (f.labels.take 1, f.num)) =
        [[([("kk".toList, "true".toList)], .value (cast.ofU64 5))],
         [([("otel_scope_name".toList, "lib".toList)], .value (cast.ofU64 7)), ([("kk".toList, "true".toList)], .value (cast.ofU64 11))]] ∧
      recorded s = 18 ∧ (∀ e ∈ s.applied, (e.2.2.map Prod.fst).Nodup) ∧
      ∀ e ∈ s.applied, e.2.2 ≠ [] → sortAndDedup exStoreCum.srt e.2.2 ∈ [sortAndDedup exStoreCum.srt [(1, true)]] := by
  have h : (Conc.runAll exStoreCum (.init exStoreCum) (exTwice 5 7 6)).map (fun s => (s.applied, s.done.map (·.points)))
      = some ([(0, 5, [(1, true)]), (1, 7, []), (0, 6, [(1, true)])], [[([(1, true)], 5)], [([], 7), ([(1, true)], 11)]]) := by rfl
  obtain ⟨s, hs, he⟩ := Option.map_eq_some_iff.1 h
  simp only [Prod.mk.injEq] at he
  obtain ⟨known, log, hp, hl⟩ := scraped_of_run (st := u64Sum true) (u64Sum_ok true).1 (sum_keeps true).1 (val := Val.bool) (x := exTexts) (cast := cast)
    (dflt := ⟨"", none, none, []⟩) (res := ⟨[], none⟩) exName_id exName_notInfo exAround (exAround_names cast) (exTwice 5 7 6) .init hs rfl
  refine ⟨s, known, log, hp, ?_, by rw [recorded, he.1]; rfl, ?_, ?_⟩
  · rw [hl]
    have : (s.done.map fun r => r.points.map fun p => (⟨exName, exCounter.description.toList, .counter, seriesLabels exTexts (Prom.exampleCfg none) Val.bool ⟨[], none⟩ exCounter p.1,
        shown cast ((u64Sum true).point (kvsOf Val.bool p.1) p.2)⟩ : Prom.Family (BitVec 64))) = (s.done.map (·.points)).map fun ps => ps.map fun p =>
          ⟨exName, exCounter.description.toList, .counter, seriesLabels exTexts (Prom.exampleCfg none) Val.bool ⟨[], none⟩ exCounter p.1, shown cast ((u64Sum true).point (kvsOf Val.bool p.1) p.2)⟩ := by
      rw [List.map_map]; rfl
    rw [this, he.2]
    rfl
  · rw [he.1]; decide
  · rw [he.1]
    intro e hem hne
    simp only [List.mem_cons, List.not_mem_nil, or_false] at hem ⊢
    rcases hem with rfl | rfl | rfl
    · rfl
    · exact absurd rfl hne
    · rfl

/-- One measurement with a key twice, and a scrape. -/
def exDup (it : List (Attrs Nat Bool × Nat)) : List (Conc.Action Nat Bool (BitVec 64)) :=
  [.call 0 5 [(1, true), (1, false)], .thread 0, .thread 0, .collect, .collector [], .collector it, .collector [], .collector [], .collector []]

/-- **C101 (finding).** The same single measurement gives different series, and which one is up to the order in which the hash map is read: if a key is given twice, the store has
the list as it was given and the list without the repetition (C38), and the collection reports the first it meets. One gives a label with both values joined, the other one a
label with the first value only. The order of a `HashMap` differs from process to process. -/
theorem series_of_repeated_key_violated (cast : Cast) : ∃ (s s' : Store Nat Bool) (known known' : Prom.Known) (log log' : List (List (Prom.Family (BitVec 64)))),
    Scraped exStoreCum (u64Sum true) Val.bool exTexts cast (Prom.exampleCfg none) ⟨"", none, none, []⟩ ⟨[], none⟩ exCounter exName s true known log ∧
    Scraped exStoreCum (u64Sum true) Val.bool exTexts cast (Prom.exampleCfg none) ⟨"", none, none, []⟩ ⟨[], none⟩ exCounter exName s' true known' log' ∧
    s.applied = [(0, 5, [(1, true), (1, false)])] ∧ s'.applied = s.applied ∧
    (log.map (named exName)).map (fun l => l.map fun f => (f.labels.take 1, f.num)) = [[([("kk".toList, "true;false".toList)], .value (cast.ofU64 5))]] ∧
    (log'.map (named exName)).map (fun l => l.map fun f => (f.labels.take 1, f.num)) = [[([("kk".toList, "true".toList)], .value (cast.ofU64 5))]] := by
  have hrun : ∀ it pts, (Conc.runAll exStoreCum (.init exStoreCum) (exDup it)).map (fun s => (s.applied, s.done.map (·.points))) = some ([(0, 5, [(1, true), (1, false)])], [pts]) →
      ∃ s known log, Scraped exStoreCum (u64Sum true) Val.bool exTexts cast (Prom.exampleCfg none) ⟨"", none, none, []⟩ ⟨[], none⟩ exCounter exName s true known log ∧
        s.applied = [(0, 5, [(1, true), (1, false)])] ∧ log.map (named exName) = [pts.map fun p =>
          ⟨exName, exCounter.description.toList, .counter, seriesLabels exTexts (Prom.exampleCfg none) Val.bool ⟨[], none⟩ exCounter p.1, shown cast ((u64Sum true).point (kvsOf Val.bool p.1) p.2)⟩] := by
    intro it pts h
    obtain ⟨s, hs, he⟩ := Option.map_eq_some_iff.1 h
    simp only [Prod.mk.injEq] at he
    obtain ⟨known, log, hp, hl⟩ := scraped_of_run (st := u64Sum true) (u64Sum_ok true).1 (sum_keeps true).1 (val := Val.bool) (x := exTexts) (cast := cast)
      (dflt := ⟨"", none, none, []⟩) (res := ⟨[], none⟩) exName_id exName_notInfo exAround (exAround_names cast) _ .init hs rfl
    refine ⟨s, known, log, hp, he.1, ?_⟩
    rw [hl]
    obtain ⟨r, hr, hpts⟩ := List.map_eq_singleton_iff.1 he.2
    rw [hr, List.map_singleton, hpts]
  obtain ⟨s, known, log, h1, h2, h3⟩ := hrun [([(1, true), (1, false)], 0), ([(1, true)], 0)] [([(1, true), (1, false)], 5)] (by rfl)
  obtain ⟨s', known', log', g1, g2, g3⟩ := hrun [([(1, true)], 0), ([(1, true), (1, false)], 0)] [([(1, true)], 5)] (by rfl)
  refine ⟨s, s', known, known', log, log', h1, g1, h2, by rw [h2, g2], by rw [h3]; rfl, by rw [g3]; rfl⟩

/-- An integer and a string. -/
def exOne (b : Bool) : Val := if b then .int 1 else .str "1"

/-- Two measurements and a scrape. -/
def exTwoSets : List (Conc.Action Nat Bool (BitVec 64)) :=
  [.call 0 5 [(1, true)], .thread 0, .thread 0, .call 1 7 [(1, false)], .thread 1, .thread 1, .collect, .collector [], .collector [([(1, true)], 0), ([(1, false)], 1)], .collector [],
   .collector [], .collector []]

/-- **C101 (finding).** The values of labels are the texts of the attributes, so sets that differ in a type only give two series with the same labels in one scrape. -/
theorem series_distinct_violated (cast : Cast) : ∃ (s : Store Nat Bool) (known : Prom.Known) (log : List (List (Prom.Family (BitVec 64)))),
    Scraped exStoreCum (u64Sum true) exOne exTexts cast (Prom.exampleCfg none) ⟨"", none, none, []⟩ ⟨[], none⟩ exCounter exName s true known log ∧
    s.applied = [(0, 5, [(1, true)]), (1, 7, [(1, false)])] ∧
    (log.map (named exName)).map (fun l => l.map fun f => (f.labels.take 1, f.num)) =
      [[([("kk".toList, "1".toList)], .value (cast.ofU64 5)), ([("kk".toList, "1".toList)], .value (cast.ofU64 7))]] := by
  have h : (Conc.runAll exStoreCum (.init exStoreCum) exTwoSets).map (fun s => (s.applied, s.done.map (·.points)))
      = some ([(0, 5, [(1, true)]), (1, 7, [(1, false)])], [[([(1, true)], 5), ([(1, false)], 7)]]) := by rfl
  obtain ⟨s, hs, he⟩ := Option.map_eq_some_iff.1 h
  simp only [Prod.mk.injEq] at he
  obtain ⟨known, log, hp, hl⟩ := scraped_of_run (st := u64Sum true) (u64Sum_ok true).1 (sum_keeps true).1 (val := exOne) (x := exTexts) (cast := cast)
    (dflt := ⟨"", none, none, []⟩) (res := ⟨[], none⟩) exName_id exName_notInfo exAround (exAround_names cast) _ .init hs rfl
  refine ⟨s, known, log, hp, he.1, ?_⟩
  rw [hl]
  obtain ⟨r, hr, hpts⟩ := List.map_eq_singleton_iff.1 he.2
  rw [hr, List.map_singleton, hpts]
  have hlab : ∀ b : Bool, (seriesLabels exTexts (Prom.exampleCfg none) exOne ⟨[], none⟩ exCounter [(1, b)]).take 1 = [("kk".toList, "1".toList)] := by decide +kernel
  simp only [List.map_cons, List.map_nil, hlab]
  rfl

/-- Beside `i64_shown`. -/
example (cast : Cast) (kvs : List (Nat × Val)) : ∃ u : BitVec 64, shown cast ((i64Sum false).point kvs (([5, -7] : List (BitVec 64)).foldl (increment (BitVec 64)).update (increment (BitVec 64)).create)) =
    .value (cast.ofI64 u) ∧ u.toInt = -2 := i64_shown cast false kvs [5, -7] (by decide) (by decide)

/-- Beside `gauge_shown`. -/
example (cast : Cast) (kvs : List (Nat × Val)) : shown cast ((gaugeOf .u64 Num.u64).point kvs (([5, 3] : List (BitVec 64)).foldl (assign (BitVec 64) 0).update (assign (BitVec 64) 0).create)) =
    .value (cast.ofU64 3) := gauge_shown cast .u64 Num.u64 0 kvs [5, 3] 3 rfl

/-- Beside `histogram_shown`: two of three values are up to the boundary. -/
example (r : Rust.F64.Rounding) (P : PartitionPoint) (hrnd : ∀ n : Nat, n ≤ 3 → r.rnd n = .fin n) (cast : Cast) (kvs : List (Nat × Val)) :
    ∃ (sum : BitVec 64) (bks : List (BitVec 64 × Nat)), shown cast ((histogramOf (K := Nat) .u64 Num.u64 (fun _ => 0) (u64Ops r) [.fin 2] true true).point kvs
        (([1, 2, 3].map (histogramInput (u64Ops r) P [.fin 2])).foldl (bucketsAgg (u64Ops r) 2).update (bucketsAgg (u64Ops r) 2).create)) = .hist sum 3 bks ∧
      (bks.map Prod.snd)[0]? = some 2 := by
  have hF : ∀ y : BitVec 64, y ∈ ([1, 2, 3] : List (BitVec 64)) → (u64Ops r).toF y = .fin (y.toNat : Rat) := by
    intro y hy
    have h3 : y.toNat ≤ 3 := by
      simp only [List.mem_cons, List.not_mem_nil, or_false] at hy
      rcases hy with rfl | rfl | rfl <;> decide
    exact_mod_cast hrnd y.toNat h3
  obtain ⟨sum, bks, h1, _, _, h4⟩ := histogram_shown cast .u64 Num.u64 (fun _ => 0) (u64Ops r) P [.fin 2] ⟨by simp, by simp⟩ true true kvs [1, 2, 3] (by simp) (fun y hy => by rw [hF y hy]; simp)
  refine ⟨sum, bks, h1, ?_⟩
  rw [h4 0 (.fin 2) rfl]
  have e1 := hF 1 (by simp)
  have e2 := hF 2 (by simp)
  have e3 := hF 3 (by simp)
  rw [List.filter_cons, List.filter_cons, List.filter_cons, List.filter_nil, e1, e2, e3]
  decide +kernel

end Otel.EndToEnd.Scrape
