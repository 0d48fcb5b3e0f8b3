import Verif.Rust.Str
import Verif.Rust.Assoc
import Verif.Metrics.Names
/-!
# The Prometheus exporter (`opentelemetry-prometheus/src`), C60 and C73

`char::is_alphanumeric` is a parameter `alnum` that agrees with the ASCII definition on ASCII. Attribute values are the text their `Display`
gives; numbers are of a type `N` (after `as_f64`).
-/

namespace Otel.Prom
open Rust Metrics

/-- `char::is_alphanumeric`: Unicode letters and digits. -/
structure Alnum where
  is : Char → Bool
  ascii : ∀ c, isAscii c = true → is c = isAsciiAlphanumeric c

/-- `NON_APPLICABLE_ON_PER_UNIT`. utils.rs:3 -/
def nonApplicable : List Str := ["1", "d", "h", "min", "s", "ms", "us", "ns"].map String.toList

/-- `get_prom_units`. utils.rs:43-84 -/
def promUnits : List (Str × Str) :=
  [("d", "days"), ("h", "hours"), ("min", "minutes"), ("s", "seconds"), ("ms", "milliseconds"), ("us", "microseconds"), ("ns", "nanoseconds"),
   ("By", "bytes"), ("KiBy", "kibibytes"), ("MiBy", "mebibytes"), ("GiBy", "gibibytes"), ("TiBy", "tibibytes"), ("KBy", "kilobytes"),
   ("MBy", "megabytes"), ("GBy", "gigabytes"), ("TBy", "terabytes"), ("B", "bytes"), ("KB", "kilobytes"), ("MB", "megabytes"),
   ("GB", "gigabytes"), ("TB", "terabytes"), ("m", "meters"), ("V", "volts"), ("A", "amperes"), ("J", "joules"), ("W", "watts"), ("g", "grams"),
   ("Cel", "celsius"), ("Hz", "hertz"), ("1", "ratio"), ("%", "percent")].map fun p => (p.1.toList, p.2.toList)

/-- `get_prom_per_unit`. utils.rs:87-98 -/
def promPerUnits : List (Str × Str) :=
  [("s", "second"), ("m", "minute"), ("h", "hour"), ("d", "day"), ("w", "week"), ("mo", "month"), ("y", "year")].map fun p => (p.1.toList, p.2.toList)

/-- `get_unit_suffixes`. utils.rs:5-41 -/
def unitSuffix (unit : Str) : Option Str :=
  if unit.isEmpty then none
  else match Assoc.get promUnits unit with
    | some u => some u
    | none =>
      match breakAt '/' unit with
      | none => none
      | some (first, rest) =>
        match nonApplicable.contains first, Assoc.get promUnits first, Assoc.get promPerUnits (rest.drop 1) with
        | true, _, some s => some ("per_".toList ++ s)
        | false, none, some s => some ("per_".toList ++ s)
        | false, some f, some s => some (f ++ "_per_".toList ++ s)
        | _, _, none => none

/-- The characters kept by the replacing part of `sanitize_name`. utils.rs:120-126 -/
def keep (c : Char) : Bool := isAsciiAlphanumeric c || c == '_' || c == ':'

/-- The characters that do not stop the scan of `sanitize_name`. utils.rs:112 -/
def pass (A : Alnum) (c : Char) : Bool := A.is c || c == '_' || c == ':'

/-- Replacement of the text from the first invalid character on. utils.rs:117-127 -/
def fix (s : Str) : Str := s.map fun c => if keep c then c else '_'

/-- `sanitize_name`: the scan stops at a leading ASCII digit, which gets a prefix, or at the first invalid character. utils.rs:100-134 -/
def sanitizeName (A : Alnum) (s : Str) : Str :=
  match s with
  | [] => []
  | c :: _ => if isAsciiDigit c then '_' :: fix s else s.takeWhile (pass A) ++ fix (s.dropWhile (pass A))

/-- `sanitize_prom_kv`. utils.rs:136-146 -/
def sanitizeKv (s : Str) : Str := s.map fun c => if isAsciiAlphanumeric c || c == ':' then c else '_'

/-- `MetricType`. -/
inductive MType where
  | counter | gauge | histogram
deriving DecidableEq

/-- A data point's number(s): for a histogram sum, count and buckets (upper bound, count). -/
inductive Num (N : Type) where
  | value (n : N)
  | hist (sum : N) (count : Nat) (buckets : List (N × Nat))

/-- `LabelPair`. -/
abbrev Label := Str × Str

/-- `MetricFamily` with its one metric: every data point is pushed as a family of its own. lib.rs:499-504 -/
structure Family (N : Type) where
  name : Str
  help : Str
  type : MType
  labels : List Label
  num : Num N

/-- A data point: attributes and number. -/
structure Point (N : Type) where
  attrs : List (Str × Str)
  num : Num N

/-- `data::Metric::data`; `other` is an exponential histogram, which is not exported. -/
inductive Data (N : Type) where
  | histogram (dps : List (List (Str × Str) × N × Nat × List N × List Nat))
  | sum (monotonic : Bool) (dps : List (List (Str × Str) × N))
  | gauge (dps : List (List (Str × Str) × N))
  | other

/-- `data::Metric`. -/
structure Metric (N : Type) where
  name : Str
  unit : Str
  description : Str
  data : Data N

/-- `ScopeMetrics`; `attrs` of the scope. -/
structure ScopeMetrics (N : Type) where
  scopeName : Str
  scopeVersion : Option Str
  scopeAttrs : List (Str × Str)
  metrics : List (Metric N)

/-- `ResourceSelector`. resource_selector.rs:17-25 -/
inductive Selector where
  | all
  | none
  | keys (ks : List Str)

/-- The exporter's settings. config.rs:10-19; the order of hash maps and the sorts are parameters. -/
structure Cfg where
  alnum : Alnum
  disableTargetInfo : Bool
  withoutUnits : Bool
  withoutCounterSuffixes : Bool
  disableScopeInfo : Bool
  ns : Option Str
  selector : Selector
  /-- `sort_unstable` of the values of one label -/
  sortVals : List Str → List Str
  sortVals_perm : ∀ l, (sortVals l).Perm l
  /-- the order in which the `BTreeMap` gives its keys -/
  sortKeys : List (Str × List Str) → List (Str × List Str)
  sortKeys_perm : ∀ l, (sortKeys l).Perm l

/-- `ExporterBuilder::with_namespace`. config.rs:83-94 -/
def withNamespace (ns : Str) : Str := if ns.getLast? = some '_' then ns else ns ++ ['_']

/-- One step of grouping: `keys_map.entry(key).and_modify(push).or_insert(vec![..])`. lib.rs:401-407 -/
def groupAdd (m : List (Str × List Str)) (p : Str × Str) : List (Str × List Str) :=
  Assoc.insert m (sanitizeKv p.1) ((Assoc.get m (sanitizeKv p.1)).getD [] ++ [p.2])

/-- Grouping of the values by sanitized key. lib.rs:400-407 -/
def group (kvs : List (Str × Str)) : List (Str × List Str) := kvs.foldl groupAdd []

/-- `get_attrs`. lib.rs:399-425 -/
def getAttrs (cfg : Cfg) (kvs : List (Str × Str)) (extra : List Label) : List Label :=
  (cfg.sortKeys (group kvs)).map (fun p => (p.1, join [';'] (cfg.sortVals p.2))) ++ extra

/-- `ResourceSelector::select`. resource_selector.rs:34-42 -/
def select (cfg : Cfg) (resource : List (Str × Str)) : List Label :=
  match cfg.selector with
  | .all => getAttrs cfg resource []
  | .none => []
  | .keys ks => getAttrs cfg (resource.filter fun p => ks.contains p.1) []

/-- `Collector::get_name`. lib.rs:264-277 -/
def getName (cfg : Cfg) (m : Metric N) : Str :=
  let name := sanitizeName cfg.alnum m.name
  let suffix := if cfg.withoutUnits then none else unitSuffix m.unit
  match cfg.ns, suffix with
  | some ns, some sfx => ns ++ name ++ ['_'] ++ sfx
  | some ns, none => ns ++ name
  | none, some sfx => name ++ ['_'] ++ sfx
  | none, none => name

/-- `Collector::metric_type_and_name`. lib.rs:230-262 -/
def typeAndName (cfg : Cfg) (m : Metric N) : Option (MType × Str) :=
  match m.data with
  | .histogram _ => some (.histogram, getName cfg m)
  | .gauge _ => some (.gauge, getName cfg m)
  | .sum true _ => some (.counter, if cfg.withoutCounterSuffixes then getName cfg m else getName cfg m ++ "_total".toList)
  | .sum false _ => some (.gauge, getName cfg m)
  | .other => none

/-- The names known so far, with type and help text. -/
abbrev Known := List (Str × MType × Str)

/-- `validate_metrics`: `none` if the metric is dropped, else the help text to use. lib.rs:427-460, 366 -/
def validate (known : Known) (name desc : Str) (ty : MType) : Option Str × Known :=
  match Assoc.get known name with
  | some (ty', help) => if ty' ≠ ty then (none, known) else if help ≠ desc then (some help, known) else (some desc, known)
  | none => (some desc, Assoc.insert known name (ty, desc))

/-- Cumulative buckets. A data point has one count more than bounds; the last one is not written. lib.rs:477-489 -/
def buckets (bounds : List N) (counts : List Nat) : List (N × Nat) :=
  ((bounds.zip counts).foldl (fun (acc : List (N × Nat) × Nat) p => (acc.1 ++ [(p.1, acc.2 + p.2)], acc.2 + p.2)) ([], 0)).1

/-- The data points of a metric, as numbers to write. lib.rs:472-505, 521-546, 556-574 -/
def points (d : Data N) : List (Point N) :=
  match d with
  | .histogram dps => dps.map fun (a, s, c, bs, cs) => ⟨a, .hist s c (buckets bs cs)⟩
  | .sum _ dps => dps.map fun (a, v) => ⟨a, .value v⟩
  | .gauge dps => dps.map fun (a, v) => ⟨a, .value v⟩
  | .other => []

/-- The families written for one metric. lib.rs:354-389 -/
def exportMetric (cfg : Cfg) (extra : List Label) (known : Known) (m : Metric N) : List (Family N) × Known :=
  match typeAndName cfg m with
  | none => ([], known)
  | some (ty, name) =>
    match validate known name m.description ty with
    | (none, known') => ([], known')
    | (some help, known') => ((points m.data).map fun p => ⟨name, help, ty, getAttrs cfg p.attrs extra, p.num⟩, known')

/-- All metrics of a scope. -/
def exportMetrics (cfg : Cfg) (extra : List Label) : Known → List (Metric N) → List (Family N) × Known
  | known, [] => ([], known)
  | known, m :: ms =>
    let (fs, known') := exportMetric cfg extra known m
    let (fs', known'') := exportMetrics cfg extra known' ms
    (fs ++ fs', known'')

/-- Labels naming a scope. lib.rs:331-342 and 604-614 -/
def scopeNameLabels (s : ScopeMetrics N) : List Label :=
  ("otel_scope_name".toList, s.scopeName) :: (match s.scopeVersion with | some v => [("otel_scope_version".toList, v)] | none => [])

/-- Labels added to every data point of a scope. lib.rs:322-352 -/
def scopeLabels (cfg : Cfg) (resourceLabels : List Label) (s : ScopeMetrics N) : List Label :=
  if cfg.disableScopeInfo then [] else scopeNameLabels s ++ resourceLabels

/-- `create_scope_info_metric`, pushed for a scope with attributes. lib.rs:323-329, 600-626 (cached per scope; the result depends on the scope only) -/
def scopeInfo (cfg : Cfg) (one : N) (s : ScopeMetrics N) : List (Family N) :=
  if !cfg.disableScopeInfo && !s.scopeAttrs.isEmpty then
    [⟨"otel_scope_info".toList, "Instrumentation Scope metadata".toList, .gauge, scopeNameLabels s, .value one⟩]
  else []

/-- All scopes. lib.rs:321-390 -/
def exportScopes (cfg : Cfg) (one : N) (resourceLabels : List Label) : Known → List (ScopeMetrics N) → List (Family N) × Known
  | known, [] => ([], known)
  | known, s :: ss =>
    let (fs, known') := exportMetrics cfg (scopeLabels cfg resourceLabels s) known s.metrics
    let (fs', known'') := exportScopes cfg one resourceLabels known' ss
    (scopeInfo cfg one s ++ fs ++ fs', known'')

/-- `create_info_metric` for the resource. lib.rs:308-315, 577-598 -/
def targetInfo (cfg : Cfg) (one : N) (resource : List (Str × Str)) : List (Family N) :=
  if !cfg.disableTargetInfo && !resource.isEmpty then
    [⟨"target_info".toList, "Target metadata".toList, .gauge, getAttrs cfg resource [], .value one⟩]
  else []

/-- A successful `Collector::collect` of a provider with the given (constant) resource. lib.rs:285-393 -/
def collect (cfg : Cfg) (one : N) (resource : List (Str × Str)) (known : Known) (scopes : List (ScopeMetrics N)) : List (Family N) × Known :=
  let (fs, known') := exportScopes cfg one (select cfg resource) known scopes
  (targetInfo cfg one resource ++ fs, known')

end Otel.Prom
