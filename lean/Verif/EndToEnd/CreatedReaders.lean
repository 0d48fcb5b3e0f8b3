import Verif.EndToEnd.CreatedFlush
import Verif.EndToEnd.Readers
/-!
# An instrument as declared, with several readers, when the provider is flushed (C136)

The declared instrument (C132, C135) with C111: a meter provider with any number of periodic readers, each set up with its own temporalities, and the provider's `force_flush` and
`shutdown`. opentelemetry-sdk/src/metrics/{meter_provider,pipeline,instrument}.rs.

`Reach` is about periodic readers: the statement is for programs that set up these. Simplifications: those of `Created.lean`, `Flush.lean` and `Readers.lean`.
-/

namespace Otel.EndToEnd.CreatedReaders
open Otel.Otlp Otel.Metrics Otel.Metrics.Inst Otel.Metrics.MeterApi Otel.Temporality Otel.EndToEnd.Created Otel.EndToEnd.CreatedFlush Otel.EndToEnd.Readers
open Rust (Str F64)
open Common (Val)
open Periodic (Ret)

variable {V Cb : Type} [DecidableEq V]

/-- What a reader set up by the program is made of: what is made for the instrument, the program's resource, and no view. meter_provider.rs:168-263 -/
def wayOf {A X Y : Type} (cc : Conc.Cfg Str V A X) (st : Style Str A) (val : V → Val) (dflt : Common.Scope Str) (res : ResVal Str) (ci : CounterId Str)
    (c : Exporter.Cfg Unit (Batch Str) (PRequest Str (PMetric Str)) Y) (t0 : Nat) : Way Str V A X Y := ⟨cc, st, val, dflt, res, ci, c, t0, id⟩

/-! ## Specification -/

/-- What the collector of one reader has of measurements `old`: if the reader wants what is since the start, a metric of the instrument with a point for each set of them, which
tells at least those values; if it wants periods and no export has failed, metrics that together tell at least them. `log` is what it was sent; `recorded` is what the reader has recorded, by set. -/
def Has {A Y : Type} (g : Given V) (val : V → Val) (d : Decl Cb) (args : List Temporality) (m : Meaning) (cast : Cast) (res : ResVal Str) (t0 : Nat)
    (decode : Y → Option (PRequest Str (PMetric Str))) (recorded : Attrs Str V → List m.X) (log : List (Sending Y)) (old : List (Nat × m.X × Attrs Str V)) : Prop :=
  (¬ WantsDelta args m.kind → old ≠ [] →
    ∃ x ∈ heard decode (asked d).name (requests log), (∃ now, Names m.form false res (asked d) t0 now x) ∧
      ∀ a, Conc.valuesIn g.srt old a ≠ [] → ∃ q ∈ wpoints x.metric.data, ∃ b xs, ReadsSet val q.attributes b ∧
        sortAndDedup g.srt b = sortAndDedup g.srt a ∧ m.tells cast q xs ∧ (Conc.valuesIn g.srt old a).Subperm xs ∧ xs <+: recorded a) ∧
  (WantsDelta args m.kind → AllOk log → ∃ bs : List (Conc.Collection Str V A m.X × Around Str),
    List.Forall₂ (fun x y => Names m.form true res (asked d) x.2.start x.2.now y ∧
      CarriesPoints g.srt val (m.tells cast) (Conc.deltaOk g.srt x.1) (Conc.deltaMust g.srt x.1) (wpoints y.metric.data)) bs (heard decode (asked d).name (requests log)) ∧
    ∀ a, (Conc.valuesIn g.srt old a).Subperm (bs.flatMap fun x => Conc.setValues g.srt x.1.period (x.1.noVals.getD []) a))

/-- Each reader has one aggregation for the declared instrument. For every schedule of threads that measure, of callers of the provider and of the readers, and of the readers'
workers, whatever the networks do: every reader records each measurement once; a `force_flush` or `shutdown` of the provider that asks the readers asks all of them; it is `Ok`
only if all have answered `Ok`; and then the collector of every reader has what had been measured before the call, each in the way the reader was set up for. The same for each
reader that has answered `Ok`, whatever the others have. For at most as many sets as the limit asked for. -/
def AllReadersFlushed (g : Given V) (val : V → Val) (d : Decl Cb) (made : Prov Cb × List (Nat × Nat)) (setups : List Setup) (m : Meaning) : Prop :=
  ∃ (A : Fin setups.length → Type) (cc : (i : Fin setups.length) → Conc.Cfg Str V (A i) m.X) (st : (i : Fin setups.length) → Style Str (A i)),
    (∀ i : Fin setups.length, fed g made.1 made.2 i = [⟨A i, m.X, cc i, st i, asked d⟩]) ∧
    ∀ (Y : Fin setups.length → Type) (dflt : Common.Scope Str) (res : ResVal Str) (cast : Cast) (decode : (i : Fin setups.length) → Y i → Option (PRequest Str (PMetric Str)))
      (c : (i : Fin setups.length) → Exporter.Cfg Unit (Batch Str) (PRequest Str (PMetric Str)) (Y i)) (t0 : Fin setups.length → Nat),
      (∀ i, MetricCfg cast (decode i) (c i)) → (∀ i, Exporter.TellsStatus (c i)) →
      ∀ w : Sys (Fin setups.length) Str V m.X A Y, Reach (fun i => wayOf (cc i) (st i) val dflt res (asked d) (c i) (t0 i)) (List.finRange setups.length) w →
        (∀ i, w.finished.Subperm (w.side i).s.returned ∧ (w.side i).s.returned.Subperm w.begun ∧ (w.frames = [] → (w.side i).s.returned.Perm w.begun)) ∧
        ∀ r ∈ w.results, r.start <+: w.finished ∧ (r.asked = true → ∀ i, ∃ tok a, (i, tok, a) ∈ r.answers) ∧
          (r.ok = true → ∀ i, ∃ tok, (i, tok, Ret.ok) ∈ r.answers) ∧
          ∀ L : List (Attrs Str V), L.length ≤ (d.last Call.limit?).getD 2000 →
            (∀ e ∈ w.begun, e.2.2 ≠ [] → sortAndDedup g.srt e.2.2 ∈ L) →
            ∀ i tok, (i, tok, Ret.ok) ∈ r.answers →
              Has (A := A i) g val d setups[i].args m cast res (t0 i) (decode i) (fun a => Conc.recordedOf g.srt (w.side i).s a) (w.side i).log r.start

/-- Past the limit, when no call of the instrument is underway: with each reader that wants periods, all points its collector has together tell each value measured at most
once, and if no export has failed, all but those that the reader holds for its next export. With each other reader, each metric's points together tell each value recorded
before its collection began and none twice. For any number of attribute sets. -/
def AllReadersLoseNothing (g : Given V) (val : V → Val) (d : Decl Cb) (made : Prov Cb × List (Nat × Nat)) (setups : List Setup) (m : Meaning) : Prop :=
  ∃ (A : Fin setups.length → Type) (cc : (i : Fin setups.length) → Conc.Cfg Str V (A i) m.X) (st : (i : Fin setups.length) → Style Str (A i)),
    (∀ i : Fin setups.length, fed g made.1 made.2 i = [⟨A i, m.X, cc i, st i, asked d⟩]) ∧
    ∀ (Y : Fin setups.length → Type) (dflt : Common.Scope Str) (res : ResVal Str) (cast : Cast) (decode : (i : Fin setups.length) → Y i → Option (PRequest Str (PMetric Str)))
      (c : (i : Fin setups.length) → Exporter.Cfg Unit (Batch Str) (PRequest Str (PMetric Str)) (Y i)) (t0 : Fin setups.length → Nat),
      (∀ i, MetricCfg cast (decode i) (c i)) →
      ∀ w : Sys (Fin setups.length) Str V m.X A Y, Reach (fun i => wayOf (cc i) (st i) val dflt res (asked d) (c i) (t0 i)) (List.finRange setups.length) w → w.frames = [] →
      ∀ i : Fin setups.length,
        (WantsDelta setups[i].args m.kind → ∃ xs, Shares (m.tells cast) (heardPoints (decode i) (asked d).name (requests (w.side i).log)) xs ∧
          xs.Subperm (w.begun.map fun e => e.2.1) ∧
          (Exporter.TellsStatus (c i) → AllOk (w.side i).log → (xs ++ Conc.pendingValues (w.side i).s).Perm (w.begun.map fun e => e.2.1))) ∧
        (¬ WantsDelta setups[i].args m.kind → ∃ bs : List (Conc.Collection Str V (A i) m.X), List.Sublist bs (w.side i).s.done ∧
          (∀ x ∈ bs, (Conc.endValues x).Subperm (w.begun.map fun e => e.2.1)) ∧ List.Forall₂ (fun x y => ∃ xs, Shares (m.tells cast) (wpoints y.metric.data) xs ∧ (Conc.startValues x).Subperm xs ∧ xs.Subperm (Conc.endValues x)) bs
            (heard (decode i) (asked d).name (requests (w.side i).log)))

/-! ## Proofs -/

omit [DecidableEq V] in
theorem entry_id {A X Y : Type} (cc : Conc.Cfg Str V A X) (st : Style Str A) (val : V → Val) (dflt : Common.Scope Str) (res : ResVal Str) (ci : CounterId Str)
    (c : Exporter.Cfg Unit (Batch Str) (PRequest Str (PMetric Str)) Y) (t0 : Nat) (l : List (Nat × X × Attrs Str V)) :
    l.map (wayOf cc st val dflt res ci c t0).entry = l := by
  have : (wayOf cc st val dflt res ci c t0).entry = id := by funext x; rfl
  rw [this, List.map_id]

section Underway
variable {I K X : Type} [LinearOrder K] [DecidableEq I] {B Z : I → Type} {W : Type} [DecidableEq W]

/-- A thread is inside a store only on behalf of a call underway. -/
theorem busy_reach {d : (i : I) → Way K W (B i) X (Z i)} {order : List I} {w : Sys I K W X B Z} (h : Reach d order w) (i : I) (t : Nat) (hp : (w.side i).s.pc t ≠ .idle) :
    ∃ f, (t, f) ∈ w.frames ∧ f.inside = some i := by
  induction h generalizing i t with
  | init => exact absurd rfl hp
  | call t' x a _ _ ih =>
    obtain ⟨f, hf, hi⟩ := ih i t hp
    exact ⟨f, List.mem_cons_of_mem _ hf, hi⟩
  | @enter w t' f j rest l1 l2 s' _ hfr hin hrest hs ih =>
    by_cases hji : i = j
    · subst hji
      by_cases htt : t = t'
      · subst htt
        exact ⟨{ f with rest := rest, inside := some i }, by simp, rfl⟩
      · have : (w.side i).s.pc t ≠ .idle := by
          rw [← (call_frame hs).2.2 t htt]
          simpa [Sys.with, took] using hp
        obtain ⟨f', hf', hi'⟩ := ih i t this
        rw [hfr] at hf'
        refine ⟨f', ?_, hi'⟩
        simp only [List.mem_append, List.mem_cons, Prod.mk.injEq] at hf' ⊢
        rcases hf' with h | ⟨h, -⟩ | h
        · exact .inl h
        · exact absurd h htt
        · exact .inr (.inr h)
    · have : (w.side i).s.pc t ≠ .idle := by simpa [Sys.with, hji] using hp
      obtain ⟨f', hf', hi'⟩ := ih i t this
      rw [hfr] at hf'
      refine ⟨f', ?_, hi'⟩
      simp only [List.mem_append, List.mem_cons, Prod.mk.injEq] at hf' ⊢
      rcases hf' with h | ⟨-, rfl⟩ | h
      · exact .inl h
      · rw [hin] at hi'; cases hi'
      · exact .inr (.inr h)
  | @inner w t' f j s' _ hfr hin hs hbusy ih =>
    by_cases hji : i = j
    · subst hji
      by_cases htt : t = t'
      · subst htt
        exact ⟨f, hfr, hin⟩
      · have : (w.side i).s.pc t ≠ .idle := by
          rw [← (thread_frame hs).1 t htt]
          simpa [Sys.with, took] using hp
        exact ih i t this
    · exact ih i t (by simpa [Sys.with, hji] using hp)
  | @leave w t' f j l1 l2 s' _ hfr hin hs hidle ih =>
    have hold : (w.side i).s.pc t ≠ .idle ∧ ¬ (i = j ∧ t = t') := by
      by_cases hji : i = j
      · subst hji
        by_cases htt : t = t'
        · subst htt
          exact absurd hidle (by simpa [Sys.with, took] using hp)
        · exact ⟨by rw [← (thread_frame hs).1 t htt]; simpa [Sys.with, took] using hp, fun h => htt h.2⟩
      · exact ⟨by simpa [Sys.with, hji] using hp, fun h => hji h.1⟩
    obtain ⟨f', hf', hi'⟩ := ih i t hold.1
    rw [hfr] at hf'
    refine ⟨f', ?_, hi'⟩
    simp only [List.mem_append, List.mem_cons, Prod.mk.injEq] at hf' ⊢
    rcases hf' with h | ⟨ht, rfl⟩ | h
    · exact .inl h
    · rw [hin] at hi'; injection hi' with hi'
      exact absurd ⟨hi'.symm, ht⟩ hold.2
    · exact .inr (.inr h)
  | @ret w t' f l1 l2 _ hfr hin hrest ih =>
    obtain ⟨f', hf', hi'⟩ := ih i t hp
    rw [hfr] at hf'
    refine ⟨f', ?_, hi'⟩
    simp only [List.mem_append, List.mem_cons, Prod.mk.injEq] at hf' ⊢
    rcases hf' with h | ⟨-, rfl⟩ | h
    · exact .inl h
    · rw [hin] at hi'; cases hi'
    · exact .inr h
  | @own w j q _ hm ih =>
    by_cases hji : i = j
    · subst hji
      have hp' : q.s.pc t ≠ .idle := by simpa [Sys.with] using hp
      rw [(moves_pc hm).2] at hp'
      exact ih i t hp'
    · exact ih i t (by simpa [Sys.with, hji] using hp)
  | flush u b _ _ _ ih => exact ih i t hp
  | late _ _ ih => exact ih i t hp
  | @ask w u f j rest l1 l2 p' _ _ _ _ _ ih =>
    by_cases hji : i = j
    · subst hji
      exact ih i t (by simpa [Sys.with] using hp)
    · exact ih i t (by simpa [Sys.with, hji] using hp)
  | hear u f j tok r l1 l2 _ _ _ _ ih => exact ih i t hp
  | result u f l1 l2 _ _ _ _ ih => exact ih i t hp

/-- When no call is underway, what is recorded is what has returned. -/
theorem quiet_applied {A : Type} [DecidableEq X] {cc : Conc.Cfg K W A X} {s : Conc.State K W A X} (h : Conc.Reachable cc s) (hq : ∀ t, s.pc t = .idle) : s.applied.Perm s.returned := by
  rw [List.perm_iff_count]
  intro e
  have := Conc.calls_apply_once h e.1 (hq e.1)
  have hc : ∀ l : List (Nat × X × Attrs K W), l.count e = (l.filter fun x => x.1 = e.1).count e := fun l => (List.count_filter (by simp)).symm
  rw [hc, this, ← hc]

/-- What is recorded with attributes was measured, and has the attributes that the reader's view keeps. -/
theorem applied_begun {d : (i : I) → Way K W (B i) X (Z i)} {order : List I} (hn : order.Nodup) {w : Sys I K W X B Z} (h : Reach d order w) {i : I} (hi : i ∈ order)
    (e : Nat × X × Attrs K W) (he : e ∈ (w.side i).s.applied) (hne : e.2.2 ≠ []) : ∃ b ∈ w.begun, (d i).keep b.2.2 = e.2.2 := by
  have hc := (Conc.cut_reachable (measured_reachable (Flush.measured_of_runs (each_reader_alone h i)))).attrs
  have hm : e.2 ∈ Conc.attrsPart (w.side i).s.applied := List.mem_map.2 ⟨e, List.mem_filter.2 ⟨he, by simpa using hne⟩, rfl⟩
  rw [← hc] at hm
  obtain ⟨e', he', h2⟩ := List.mem_map.1 hm
  obtain ⟨b, hb, hbe⟩ := List.mem_map.1 ((every_reader_takes_all hn h hi).2.1.subset (List.mem_filter.1 he').1)
  refine ⟨b, hb, ?_⟩
  rw [← h2, ← hbe]
  rfl

end Underway

/-- **C136.** -/
theorem declared_provider_flushed_partial {setups : List Setup} {readers : List Reader} {before : List (Decl Cb)} {d : Decl Cb} (hb : setups.mapM Setup.build = some readers)
    (hv : d.Valid) (hnew : ∀ b ∈ before, b.Valid → ¬ SameDecl b d) (g : Given V) {val : V → Val} (hinj : Function.Injective val) (hplain : ∀ v, NotEmptyArray (val v))
    (m : Meaning) (hm : meaning g d = some m) : AllReadersFlushed g val d (made readers before d) setups m := by
  have hs : ∀ i : Fin setups.length, Serves g (fed g (made readers before d).1 (made readers before d).2 i) ((d.last Call.limit?).getD 2000) (asked d) setups[i].args m :=
    fun i => serves (i := i.1) ⟨hb, List.getElem?_eq_getElem i.2, hv, hnew⟩ g m hm
  choose A cc st hfed hsrt hkind hlim hdel hfit hkeep hreads using hs
  refine ⟨A, cc, st, hfed, ?_⟩
  intro Y dflt res cast decode c t0 hc ht w hr
  have hn : (List.finRange setups.length).Nodup := List.nodup_finRange _
  constructor
  · intro i
    obtain ⟨h1, h2, h3, h4⟩ := every_reader_takes_all hn hr (List.mem_finRange i)
    rw [entry_id] at h1 h2
    refine ⟨h1, h2, fun hf => ?_⟩
    have h5 := h4 hf
    rw [entry_id] at h5
    exact h5.2.trans h5.1
  · intro r hres
    have hall := provider_asks_all hn hr hres
    refine ⟨hall.1, fun ha i => hall.2.1 ha i (List.mem_finRange i), fun hok i => provider_ok_all hn hr hres hok i (List.mem_finRange i), ?_⟩
    intro L hL hsets i tok hok
    have hLi : L.length ≤ (cc i).limit := by rw [hlim i]; exact hL
    have hsi : ∀ e ∈ (w.side i).s.applied, e.2.2 ≠ [] → sortAndDedup (cc i).srt e.2.2 ∈ L := by
      intro e he hne
      obtain ⟨b, hb, hbe⟩ := applied_begun hn hr (List.mem_finRange i) e he hne
      have hbe : b.2.2 = e.2.2 := hbe
      rw [hsrt i, ← hbe]
      exact hsets b hb (hbe ▸ hne)
    constructor
    · intro hw hne
      have hd : (cc i).delta = false := by
        cases h : (cc i).delta with
        | false => rfl
        | true => exact absurd ((hdel i).1 h) hw
      have := provider_flush_cumulative_partial hn hr hres hok hne hd (hfit i) (hkeep i) hinj hplain (hc i) (ht i) (hreads i cast) hLi hsi
      rw [entry_id] at this
      rw [← hsrt i, ← hkind i]
      exact this
    · intro hw hlog
      have := provider_flush_delta_partial hn hr hres hok ((hdel i).2 hw) (hfit i) (hkeep i) hinj hplain (hc i) (ht i) (hreads i cast) hLi hsi hlog
      rw [entry_id] at this
      rw [← hsrt i, ← hkind i]
      exact this

/-- **C136, past the limit.** -/
theorem declared_provider_nothing_lost {setups : List Setup} {readers : List Reader} {before : List (Decl Cb)} {d : Decl Cb} (hb : setups.mapM Setup.build = some readers)
    (hv : d.Valid) (hnew : ∀ b ∈ before, b.Valid → ¬ SameDecl b d) (g : Given V) {val : V → Val} (hinj : Function.Injective val) (hplain : ∀ v, NotEmptyArray (val v))
    (m : Meaning) (hm : meaning g d = some m) : AllReadersLoseNothing g val d (made readers before d) setups m := by
  have hs : ∀ i : Fin setups.length, Serves g (fed g (made readers before d).1 (made readers before d).2 i) ((d.last Call.limit?).getD 2000) (asked d) setups[i].args m :=
    fun i => serves (i := i.1) ⟨hb, List.getElem?_eq_getElem i.2, hv, hnew⟩ g m hm
  choose A cc st hfed hsrt hkind hlim hdel hfit hkeep hreads using hs
  refine ⟨A, cc, st, hfed, ?_⟩
  intro Y dflt res cast decode c t0 hc w hr hquiet i
  have hrun := Flush.measured_of_runs (each_reader_alone hr i)
  have hall : (Conc.allValues (w.side i).s).Perm (w.begun.map fun e => e.2.1) := by
    classical
    have h1 := quiet_applied (measured_reachable hrun) fun t => by
      by_contra hp
      obtain ⟨f, hf, -⟩ := busy_reach hr i t hp
      rw [hquiet] at hf
      cases hf
    have h2 := (every_reader_takes_all (List.nodup_finRange _) hr (List.mem_finRange i)).2.2.2 hquiet
    rw [entry_id] at h2
    exact (h1.trans (h2.2.trans h2.1)).map _
  constructor
  · intro hw
    obtain ⟨xs, k1, k2, k3⟩ := overflow_nothing_lost ((hdel i).2 hw) (hfit i) (hkeep i) hinj hplain (hc i) (hreads i cast) hrun
    exact ⟨xs, k1, k2.trans hall.subperm, fun ht hok => (k3 ht hok).trans hall⟩
  · intro hw
    have hd : (cc i).delta = false := by
      cases h : (cc i).delta with
      | false => rfl
      | true => exact absurd ((hdel i).1 h) hw
    obtain ⟨all, bs, h1, h2, -, hb, hend, -⟩ := overflow_cumulative hd (hfit i) (hkeep i) hinj hplain (hc i) (hreads i cast) hrun
    refine ⟨bs.map Prod.fst, h1 ▸ h2.map _, ?_, ?_⟩
    · intro x hx
      obtain ⟨y, hy, rfl⟩ := List.mem_map.1 hx
      exact (hend y hy).1.trans hall.subperm
    · rw [List.forall₂_map_left_iff]
      exact hb.imp fun x y hxy => hxy.2.2.2

/-! ## A case: two periodic readers, the first with delta; a histogram, and then a counter with a limit; one measurement, and a flush of the provider -/

def exBoth : List Setup := [.periodic (.stdout [.cumulative, .delta]), .periodic (.stdout [])]
def exBuilt : List Reader := (exBoth.mapM Setup.build).getD []

/-- The hypotheses of `declared_provider_flushed_partial` are met. -/
theorem exDeclared : exBoth.mapM Setup.build = some exBuilt ∧ exDecl.Valid ∧ (∀ b ∈ [exHistogram], b.Valid → ¬ SameDecl b exDecl) ∧
    ∀ r, (meaning (exGiven r) exDecl).isSome = true := by
  refine ⟨rfl, (valid_iff _).2 (by decide +kernel), ?_, fun r => (every_synchronous _ _).2 rfl⟩
  intro b hb _ hsame
  rw [List.mem_singleton.1 hb] at hsame
  exact absurd hsame.1 (by decide)

/-- The stores of the two readers. -/
def exStores (i : Fin 2) : Conc.Cfg Str Bool (BitVec 64) (BitVec 64) := { exHits with delta := i = 0 }

/-- They are what the counter's measurements go to: the first by periods and the second since the start. -/
theorem exFedBoth (r : F64.Rounding) (i : Fin 2) : fed (exGiven r) (made exBuilt [exHistogram] exDecl).1 (made exBuilt [exHistogram] exDecl).2 i =
    [⟨_, _, exStores i, u64Sum true, asked exDecl⟩] := by
  have h1 : ((((made exBuilt [exHistogram] exDecl).1.pipes[i.1]?).map Inst.Pipe.syncs).getD []).filter (fun y => (i.1, y.agg) ∈ (made exBuilt [exHistogram] exDecl).2) =
      [⟨MeterApi.exScope, .counter, .u64, "hits".toList, [], "1".toList, 1, .sum true, if i = 0 then .delta else .cumulative, none, 7⟩] := by
    revert i; decide +kernel
  unfold fed
  rw [h1]
  match i with
  | 0 => rfl
  | 1 => rfl

def exWays (cast : Cast) (i : Fin 2) : Way Str Bool (BitVec 64) (BitVec 64) (PRequest Str (PMetric Str)) :=
  wayOf (exStores i) (u64Sum true) Val.bool ⟨"", none, none, []⟩ ⟨[], none⟩ (asked exDecl) ⟨.metrics, .http true, [], [], fun _ => metricsMessage cast, some⟩ 1

/-- The worker of a reader serves the call of the provider. -/
def exTurn (i : Fin 2) : List (Act (Fin 2) Str Bool (BitVec 64)) :=
  [.asks 2, .own i (.caller (.thread 2)), .own i (.caller .take), .own i .begin] ++ (List.replicate 4 (.own i (.walk [([("k".toList, true)], 0)] exAnswer))) ++
    [.own i .answer, .own i (.caller (.thread 2)), .asks 2]

/-- A run: 5 is measured, then the provider is flushed; the answer is `Ok`, both collectors have been sent a request. -/
theorem declared_provider_example (cast : Cast) : ∃ w, Reach (exWays cast) (List.finRange 2) w ∧ (∃ r ∈ w.results, r.ok = true ∧ r.start = [(0, 5, [("k".toList, true)])]) ∧
    ∀ i, AllOk (w.side i).log ∧ (w.side i).log.length = 1 := by
  have h : (gexecAll (exWays cast) (List.finRange 2) ⟨[], [], 1, 2, [], [], ⟨⟨[], none⟩, []⟩⟩ ⟨fun i => (exWays cast i).init, [], [], [], [], false, []⟩
      ([.call 0 5 [("k".toList, true)], .thread 0, .thread 0, .thread 0, .thread 0, .thread 0, .thread 0, .thread 0, .flush 2 true] ++ exTurn 0 ++ exTurn 1 ++ [.asks 2])).map
      (fun w => (w.results.map fun r => (r.start, r.ok), (w.side 0).log.map (·.outcome), (w.side 1).log.map (·.outcome))) =
      some ([([(0, 5, [("k".toList, true)])], true)], [.ok], [.ok]) := by rfl
  obtain ⟨w, hw, he⟩ := Option.map_eq_some_iff.1 h
  simp only [Prod.mk.injEq] at he
  refine ⟨w, reach_execAll (fun i => ⟨by intro s hs; simp at hs, by intro j hj; simp at hj⟩) _ .init hw, ?_, fun i => ?_⟩
  · obtain ⟨r, hr, hv⟩ := List.map_eq_singleton_iff.1 he.1
    simp only [Prod.mk.injEq] at hv
    exact ⟨r, by rw [hr]; simp, hv.2, hv.1⟩
  · have hi : (w.side i).log.map (·.outcome) = [.ok] := by
      match i with
      | 0 => exact he.2.1
      | 1 => exact he.2.2
    obtain ⟨x, hx, ho⟩ := List.map_eq_singleton_iff.1 hi
    refine ⟨fun y hy => ?_, by rw [hx]; rfl⟩
    rw [hx, List.mem_singleton] at hy
    rw [hy, ho]

end Otel.EndToEnd.CreatedReaders
