import Verif.EndToEnd.ViewedAll
/-!
# Several views that select the same instrument (C134)

Every view that selects an instrument gives it a metric of its own, unless the view drops it, and the measurements go to each of them, as if that
view were the only one.
-/

namespace Otel.EndToEnd.Viewed
open Otel.Otlp Otel.Metrics Otel.Metrics.Inst Otel.Temporality Otel.EndToEnd.Created Otel.EndToEnd.CreatedFlush
open Rust (Str F64)
open Common (Val)

variable {V : Type} [DecidableEq V]

/-! ## Specification -/

/-- A view made from criteria and a mask, that selects the instrument. -/
structure Picks (glob : Str → Option (Str → Bool)) (i : Instrument) (c : Instrument × Stream) (v : View) : Prop where
  made : newView glob c.1 c.2 = some v
  valid : ∀ a, c.2.aggregation = some a → a.validate = true
  name : NameMatches glob c.1 c.2 i.name
  selects : Selects c.1 i

/-- The views in order, each with its criteria and mask if it selects the instrument. -/
def Chosen (glob : Str → Option (Str → Bool)) (i : Instrument) : List (Option (Instrument × Stream)) → List View → Prop :=
  List.Forall₂ fun o v => match o with
    | none => v i = none
    | some c => Picks glob i c v

/-- What a reader tells an instrument's metric from others by, as a view wants the instrument. -/
def identityAs (r : Request) (kind : Kind) (mask : Stream) :=
  Inst.identity r.inst.scope kind r.number (if mask.name = [] then r.inst.name else mask.name)
    (if mask.description = [] then r.inst.description else mask.description) (if mask.unit = [] then r.inst.unit else mask.unit)

/-- A reader set up somehow, its pipeline after the requests `rs`, and a request for an instrument that at least one view selects; the metrics that the views ask for, or
drop, differ from each other and from those of the earlier requests by more than the case of the name. -/
structure Several (s : Setup) (rd : Reader) (glob : Str → Option (Str → Bool)) (cs : List (Option (Instrument × Stream))) (views : List View) (rs : List Request)
    (r : Request) (kind : Kind) : Prop where
  built : s.build = some rd
  ofKind : r.inst.kind = some kind
  chosen : Chosen glob r.inst cs views
  any : ∃ c, some c ∈ cs
  new : ∀ c, some c ∈ cs → ∀ o ∈ rs, ∀ k, o.inst.kind = some k → ∀ st ∈ streamsOf views o.inst o.boundaries o.limit, streamIdentity o k st ≠ identityAs r kind c.2
  differ : ((cs.filterMap id).map fun c => identityAs r kind c.2).Nodup

/-- The views that select the instrument and do not drop it. -/
def keeping (cs : List (Option (Instrument × Stream))) : List (Instrument × Stream) := (cs.filterMap id).filter fun c => c.2.aggregation ≠ some .drop

/-- What each view asks for that does not drop the instrument: a form that the kind of instrument can have. -/
def Asks (kind : Kind) (forms : Instrument × Stream → Form) (cs : List (Option (Instrument × Stream))) : Prop :=
  ∀ c ∈ keeping cs, asksFor kind c.2.aggregation = some (forms c) ∧ ∀ bs mm, c.2.aggregation = some (.explicitBucketHistogram bs mm) → Increasing bs

/-! ## Proofs -/

/-- The stream of a view. -/
def asStream (mask : Stream) (i : Instrument) : Stream :=
  ⟨orElse mask.name i.name, orElse mask.description i.description, orElse mask.unit i.unit, mask.aggregation, mask.allowedKeys, mask.cardinalityLimit⟩

/-- The aggregation that a stream leads to, with any number. -/
def streamSync (temp : Kind → Temporality) (number : NumKind) (scope : Scope) (kind : Kind) (st : Stream) (n : Nat) (b : Built) : Sync :=
  ⟨scope, kind, number, st.name, st.description, st.unit, n, b, temp kind, st.allowedKeys, st.cardinalityLimit.getD 2000⟩

theorem viewLoop_news (temp : Kind → Temporality) (number : NumKind) (inst : Instrument) (kind : Kind) (vs : List View) :
    ∀ (p : Inst.Pipe) (seen : List Id) (ms : List Nat) (m : Bool),
    (∀ st ∈ vs.filterMap (fun v => v inst), compatible kind (resolved kind st) = true ∧
      lookup (key inst.scope kind number st) p.cache = none ∧ instId kind st number ∉ seen) →
    ((vs.filterMap fun v => v inst).map (key inst.scope kind number)).Nodup →
    ∃ (p' : Inst.Pipe) (ys : List Sync), viewLoop temp number inst kind vs p seen ms m false = (p', ms ++ ys.map (·.agg), m || !(vs.filterMap fun v => v inst).isEmpty, false) ∧
      p'.syncs = p.syncs ++ ys ∧ (∀ y ∈ ys, p.next ≤ y.agg) ∧
      List.Forall₂ (fun st y => ∃ n b, aggregateFn kind (resolved kind st) = some (some b) ∧ y = streamSync temp number inst.scope kind st n b)
        ((vs.filterMap fun v => v inst).filter fun st => resolved kind st ≠ .drop) ys := by
  induction vs with
  | nil => intro p seen ms m _ _; exact ⟨p, [], by simp [viewLoop], by simp, by simp, by simp⟩
  | cons v vs ih =>
    intro p seen ms m hall hnd
    cases hv : v inst with
    | none =>
      simp only [List.filterMap_cons, hv] at hall hnd ⊢
      unfold viewLoop
      rw [hv]
      exact ih p seen ms m hall hnd
    | some st =>
      simp only [List.filterMap_cons, hv] at hall hnd ⊢
      obtain ⟨hc, hl, hs⟩ := hall st (by simp)
      rw [List.map_cons, List.nodup_cons] at hnd
      have hdiff : ∀ st' ∈ vs.filterMap (fun v => v inst), key inst.scope kind number st ≠ key inst.scope kind number st' :=
        fun st' h' e => hnd.1 (by rw [e]; exact List.mem_map_of_mem h')
      have hfresh : ∀ (x : Option (Option Nat)), ∀ st' ∈ vs.filterMap (fun v => v inst),
          lookup (key inst.scope kind number st') (p.cache ++ [(key inst.scope kind number st, x)]) = none := by
        intro x st' h'
        rw [lookup_append, (hall st' (by simp [h'])).2.1]
        simp [lookup, hdiff st' h']
      by_cases hd : resolved kind st = .drop
      · have hca : cachedAggregator temp number p inst.scope kind st = ({ p with cache := p.cache ++ [(key inst.scope kind number st, some none)] }, some none) := by
          unfold cachedAggregator
          dsimp only
          rw [if_neg (by rw [hc]; simp), show (inst.scope, (instId kind st number).normalize) = key inst.scope kind number st from rfl, hl, hd]
          cases kind <;> rfl
        obtain ⟨p', ys, h1, h2, h3, h4⟩ := ih { p with cache := p.cache ++ [(key inst.scope kind number st, some none)] } seen ms true
          (fun st' h' => ⟨(hall st' (by simp [h'])).1, hfresh _ st' h', (hall st' (by simp [h'])).2.2⟩) hnd.2
        refine ⟨p', ys, ?_, h2, h3, ?_⟩
        · unfold viewLoop
          rw [hv]
          dsimp only
          rw [if_neg hs, hca]
          dsimp only
          rw [h1]
          simp
        · rw [List.filter_cons_of_neg (by simp [hd])]
          exact h4
      · obtain ⟨b, hb⟩ : ∃ b, aggregateFn kind (resolved kind st) = some (some b) := by
          cases hb : aggregateFn kind (resolved kind st) with
          | none => exact absurd hb (aggregateFn_ok kind _ hc)
          | some o =>
            cases o with
            | none => exact absurd (aggregateFn_drop _ _ hb) hd
            | some b => exact ⟨b, rfl⟩
        have hca : cachedAggregator temp number p inst.scope kind st =
            (⟨p.cache ++ [(key inst.scope kind number st, some (some p.next))], p.syncs ++ [streamSync temp number inst.scope kind st p.next b], p.next + 1⟩,
              some (some p.next)) := by
          unfold cachedAggregator
          dsimp only
          rw [if_neg (by rw [hc]; simp), show (inst.scope, (instId kind st number).normalize) = key inst.scope kind number st from rfl, hl, hb]
          rfl
        obtain ⟨p', ys, h1, h2, h3, h4⟩ := ih ⟨p.cache ++ [(key inst.scope kind number st, some (some p.next))], p.syncs ++ [streamSync temp number inst.scope kind st p.next b],
          p.next + 1⟩ (seen ++ [instId kind st number]) (ms ++ [p.next]) true (by
            intro st' h'
            refine ⟨(hall st' (by simp [h'])).1, hfresh _ st' h', ?_⟩
            simp only [List.mem_append, List.mem_singleton, not_or]
            refine ⟨(hall st' (by simp [h'])).2.2, fun e => hdiff st' h' ?_⟩
            unfold key
            rw [e]) hnd.2
        refine ⟨p', streamSync temp number inst.scope kind st p.next b :: ys, ?_, ?_, ?_, ?_⟩
        · unfold viewLoop
          rw [hv]
          dsimp only
          rw [if_neg hs, hca]
          dsimp only
          rw [h1]
          simp [streamSync]
        · rw [h2]; simp
        · intro y hy
          rcases List.mem_cons.1 hy with rfl | hy
          · exact Nat.le_refl _
          · exact Nat.le_of_succ_le (h3 y hy)
        · rw [List.filter_cons_of_pos (by simp [hd])]
          exact .cons ⟨p.next, b, hb, rfl⟩ h4

theorem cached_keys (temp : Kind → Temporality) (number : NumKind) (p : Inst.Pipe) (scope : Scope) (kind : Kind) (st : Stream) (k : Scope × Id)
    (h : lookup k (cachedAggregator temp number p scope kind st).1.cache ≠ none) : lookup k p.cache ≠ none ∨ k = key scope kind number st := by
  by_cases hk : k = key scope kind number st
  · exact .inr hk
  left
  intro hn
  refine h ?_
  unfold cachedAggregator
  dsimp only
  have hne : ¬ (scope, (instId kind st number).normalize) = k := fun e => hk e.symm
  split
  · exact hn
  · split
    · exact hn
    · split <;> simp [lookup_append, hn, lookup, hne]

theorem viewLoop_keys (temp : Kind → Temporality) (number : NumKind) (inst : Instrument) (kind : Kind) (k : Scope × Id) (vs : List View) :
    ∀ (p : Inst.Pipe) (seen : List Id) (ms : List Nat) (m e : Bool), lookup k (viewLoop temp number inst kind vs p seen ms m e).1.cache ≠ none →
      lookup k p.cache ≠ none ∨ ∃ st ∈ vs.filterMap (fun v => v inst), k = key inst.scope kind number st := by
  induction vs with
  | nil => intro p _ _ _ _ h; exact .inl h
  | cons v vs ih =>
    intro p seen ms m e h
    unfold viewLoop at h
    cases hv : v inst with
    | none =>
      rw [hv] at h
      simp only [List.filterMap_cons, hv]
      exact ih _ _ _ _ _ h
    | some st =>
      rw [hv] at h
      simp only [List.filterMap_cons, hv]
      have step : ∀ (seen : List Id) (ms : List Nat) (m e : Bool),
          lookup k (viewLoop temp number inst kind vs (cachedAggregator temp number p inst.scope kind st).1 seen ms m e).1.cache ≠ none →
          lookup k p.cache ≠ none ∨ ∃ st' ∈ st :: vs.filterMap (fun v => v inst), k = key inst.scope kind number st' := by
        intro seen ms m e h
        rcases ih _ _ _ _ _ h with h | ⟨st', h', hk⟩
        · rcases cached_keys _ _ _ _ _ _ _ h with h | h
          · exact .inl h
          · exact .inr ⟨st, by simp, h⟩
        · exact .inr ⟨st', by simp [h'], hk⟩
      dsimp only at h
      split at h
      · rcases ih _ _ _ _ _ h with h | ⟨st', h', hk⟩
        · exact .inl h
        · exact .inr ⟨st', by simp [h'], hk⟩
      · rcases hc : cachedAggregator temp number p inst.scope kind st with ⟨p', o⟩
        rw [hc] at h step
        rcases o with _ | _ | a <;> exact step _ _ _ _ h

theorem matched_iff (temp : Kind → Temporality) (number : NumKind) (inst : Instrument) (kind : Kind) (vs : List View) :
    ∀ (p : Inst.Pipe) (seen : List Id) (ms : List Nat) (m e : Bool),
      (viewLoop temp number inst kind vs p seen ms m e).2.2.1 = (m || !(vs.filterMap fun v => v inst).isEmpty) := by
  induction vs with
  | nil => intros; simp [viewLoop]
  | cons v vs ih =>
    intro p seen ms m e
    unfold viewLoop
    cases hv : v inst with
    | none => simp only [List.filterMap_cons, hv]; exact ih ..
    | some st =>
      simp only [List.filterMap_cons, hv]
      split
      · rw [ih]; simp
      · split <;> rw [ih] <;> simp

theorem instrument_keys (views : List View) (temp : Kind → Temporality) {q : Inst.Pipe} (o : Request) (k : Scope × Id)
    (h : lookup k (instrument views temp o.number q o.inst o.boundaries o.limit).1.cache ≠ none) :
    lookup k q.cache ≠ none ∨ ∃ kind, o.inst.kind = some kind ∧ ∃ st ∈ streamsOf views o.inst o.boundaries o.limit, k = key o.inst.scope kind o.number st := by
  unfold instrument at h
  cases hk : o.inst.kind with
  | none => rw [hk] at h; exact .inl h
  | some kind =>
    rw [hk] at h
    dsimp only at h
    have hl := viewLoop_keys temp o.number o.inst kind k views q [] [] false false
    have hm := matched_iff temp o.number o.inst kind views q [] [] false false
    rcases hw : viewLoop temp o.number o.inst kind views q [] [] false false with ⟨p', ms, m, e⟩
    rw [hw] at h hl hm
    have hsome : ∀ st ∈ views.filterMap (fun v => v o.inst), st ∈ streamsOf views o.inst o.boundaries o.limit := by
      intro st hs
      unfold streamsOf
      split
      · rename_i he; rw [he] at hs; cases hs
      · exact hs
    cases m with
    | true =>
      rcases hl h with h | ⟨st, hs, hk'⟩
      · exact .inl h
      · exact .inr ⟨kind, rfl, st, hsome st hs, hk'⟩
    | false =>
      have h' : lookup k (cachedAggregator temp o.number p' o.inst.scope kind (defaultStream o.inst o.boundaries o.limit)).1.cache ≠ none := by
        dsimp only at h
        split at h <;> rename_i hc <;> rw [hc] <;> exact h
      rcases cached_keys _ _ _ _ _ _ _ h' with h | h
      · rcases hl h with h | ⟨st, hs, hk'⟩
        · exact .inl h
        · exact .inr ⟨kind, rfl, st, hsome st hs, hk'⟩
      · refine .inr ⟨kind, rfl, _, ?_, h⟩
        have he : views.filterMap (fun v => v o.inst) = [] := by simpa using hm
        unfold streamsOf
        rw [he]
        exact List.mem_singleton.2 rfl

theorem requests_keys (views : List View) (temp : Kind → Temporality) (rs : List Request) (k : Scope × Id) : ∀ p : Inst.Pipe, lookup k (runRequests views temp p rs).cache ≠ none →
    lookup k p.cache ≠ none ∨ ∃ o ∈ rs, ∃ kind, o.inst.kind = some kind ∧ ∃ st ∈ streamsOf views o.inst o.boundaries o.limit, k = key o.inst.scope kind o.number st := by
  induction rs with
  | nil => intro p h; exact .inl h
  | cons o rs ih =>
    intro p h
    rcases ih _ h with h | ⟨o', ho, h⟩
    · rcases instrument_keys views temp o k h with h | h
      · exact .inl h
      · exact .inr ⟨o, by simp, h⟩
    · exact .inr ⟨o', by simp [ho], h⟩

/-- Where the measurements go because of one stream. -/
def streamFed (g : Given V) (temp : Kind → Temporality) (number : NumKind) (scope : Scope) (kind : Kind) (st : Stream) : List (Works V × Option (List Str)) :=
  match aggregateFn kind (resolved kind st) with
  | some (some b) => [streamSync temp number scope kind st 0 b].filterMap fun y => (works g y).map fun w => (w, y.allowedKeys)
  | _ => []

omit [DecidableEq V] in
theorem works_agg (g : Given V) (temp : Kind → Temporality) (number : NumKind) (scope : Scope) (kind : Kind) (st : Stream) (n : Nat) (b : Built) :
    works g (streamSync temp number scope kind st n b) = works g (streamSync temp number scope kind st 0 b) := by
  cases b <;> cases number <;> rfl

omit [DecidableEq V] in
theorem fedBy_news (g : Given V) (views : List View) (temp : Kind → Temporality) (q : Inst.Pipe) (hq : Inv q) (r : Request) (kind : Kind) (hk : r.inst.kind = some kind)
    (hall : ∀ st ∈ views.filterMap (fun v => v r.inst), compatible kind (resolved kind st) = true ∧
      lookup (key r.inst.scope kind r.number st) q.cache = none)
    (hne : views.filterMap (fun v => v r.inst) ≠ []) (hnd : ((views.filterMap fun v => v r.inst).map (key r.inst.scope kind r.number)).Nodup) :
    fedBy g views temp q r = ((views.filterMap fun v => v r.inst).filter fun st => resolved kind st ≠ .drop).flatMap (streamFed g temp r.number r.inst.scope kind) ∧
      (((views.filterMap fun v => v r.inst).filter fun st => resolved kind st ≠ .drop) = [] →
        (instrument views temp r.number q r.inst r.boundaries r.limit).1.syncs = q.syncs) := by
  obtain ⟨p', ys, h1, h2, h3, h4⟩ := viewLoop_news temp r.number r.inst kind views q [] [] false
    (fun st h => ⟨(hall st h).1, (hall st h).2, by simp⟩) hnd
  have hi : instrument views temp r.number q r.inst r.boundaries r.limit = (p', some (ys.map (·.agg))) := by
    unfold instrument
    rw [hk]
    dsimp only
    rw [h1, show (!(views.filterMap fun v => v r.inst).isEmpty) = true by simpa using hne]
    rfl
  refine ⟨?_, fun he => ?_⟩
  rotate_left
  · rw [he, List.forall₂_nil_left_iff] at h4
    rw [hi, h2, h4, List.append_nil]
  unfold fedBy
  dsimp only
  rw [hi]
  dsimp only
  rw [h2, List.filter_append, List.filter_eq_nil_iff.2, List.nil_append, List.filter_eq_self.2]
  · clear h1 h2 h3 hi hall hne hnd
    generalize ((views.filterMap fun v => v r.inst).filter fun st => resolved kind st ≠ .drop) = sts at h4 ⊢
    induction h4 with
    | nil => rfl
    | cons h _ ih =>
      obtain ⟨n, b, hb, rfl⟩ := h
      rw [List.flatMap_cons, ← ih, List.filterMap_cons, works_agg]
      unfold streamFed
      rw [hb]
      dsimp only
      rw [List.filterMap_cons]
      cases works g (streamSync temp r.number r.inst.scope kind _ 0 b) <;> rfl
  · intro y hy
    simpa using ⟨y, hy, rfl⟩
  · intro z hz hzi
    have : z.agg ∈ List.range q.next := by rw [← hq.aggs]; exact List.mem_map_of_mem hz
    simp only [Option.getD_some, List.mem_map, decide_eq_true_eq] at hzi
    obtain ⟨y, hy, hyz⟩ := hzi
    have h5 := h3 y hy
    rw [hyz] at h5
    simp only [List.mem_range] at this
    omega

variable {s : Setup} {rd : Reader} {glob : Str → Option (Str → Bool)} {cs : List (Option (Instrument × Stream))} {views : List View} {rs : List Request} {r : Request} {kind : Kind}

/-- Each view alone. -/
theorem Picks.alone {c : Instrument × Stream} {v : View} {i : Instrument} (h : Picks glob i c v) : Views glob c.1 c.2 [v] i :=
  ⟨h.valid, h.name, h.selects, [], v, [], rfl, h.made, by simp⟩

theorem Picks.stream {c : Instrument × Stream} {v : View} {i : Instrument} (h : Picks glob i c v) : v i = some (asStream c.2 i) := by
  have := h.alone.streams none none
  unfold streamsOf at this
  cases hv : v i with
  | none =>
    rcases h.name with ⟨hp, hsel, hn⟩ | ⟨hw, hmn, m, hm, hn⟩
    · obtain ⟨v', hv', hx⟩ := view_exact glob c.1 c.2 hsel hp h.valid
      have : v' = v := by rw [h.made] at hv'; injection hv' with e; exact e.symm
      subst this
      rw [(hx i _).2 ⟨⟨hn, h.selects⟩, rfl⟩] at hv
      cases hv
    · obtain ⟨v', hv', hx⟩ := view_wildcard glob c.1 c.2 m hw hm hmn h.valid
      have : v' = v := by rw [h.made] at hv'; injection hv' with e; exact e.symm
      subst this
      rw [(hx i _).2 ⟨⟨hn, h.selects⟩, rfl⟩] at hv
      cases hv
  | some st =>
    simp only [List.filterMap_cons, hv, List.filterMap_nil] at this
    injection this with this
    rw [this]
    rfl

theorem chosen_streams {i : Instrument} (h : Chosen glob i cs views) : views.filterMap (fun v => v i) = (cs.filterMap id).map fun c => asStream c.2 i := by
  unfold Chosen at h
  induction h with
  | nil => rfl
  | @cons o v _ _ ho _ ih =>
    cases o with
    | none => simp only [List.filterMap_cons, show v i = none from ho, id]; exact ih
    | some c => simp only [List.filterMap_cons, (show Picks glob i c v from ho).stream, id, List.map_cons, ih]

/-- Each view that is chosen, with its view. -/
theorem chosen_picks {i : Instrument} (h : Chosen glob i cs views) : ∀ c, some c ∈ cs → ∃ v ∈ views, Picks glob i c v := by
  unfold Chosen at h
  induction h with
  | nil => intro c hc; cases hc
  | @cons o v _ _ ho _ ih =>
    intro c hc
    rcases List.mem_cons.1 hc with rfl | hc
    · exact ⟨v, by simp, ho⟩
    · obtain ⟨w, hw, hp⟩ := ih c hc
      exact ⟨w, by simp [hw], hp⟩

theorem Picks.aggregation {c : Instrument × Stream} {v : View} {i : Instrument} (h : Picks glob i c v) (j : Instrument) (st : Stream) (hs : v j = some st) :
    st.aggregation = c.2.aggregation := by
  rcases h.name with ⟨hp, hsel, hn⟩ | ⟨hw, hmn, m, hm, hn⟩
  · obtain ⟨v', hv', hx⟩ := view_exact glob c.1 c.2 hsel hp h.valid
    have : v' = v := by rw [h.made] at hv'; injection hv' with e; exact e.symm
    subst this
    rw [((hx j st).1 hs).2]
  · obtain ⟨v', hv', hx⟩ := view_wildcard glob c.1 c.2 m hw hm hmn h.valid
    have : v' = v := by rw [h.made] at hv'; injection hv' with e; exact e.symm
    subst this
    rw [((hx j st).1 hs).2]

theorem Several.alone (h : Several s rd glob cs views rs r kind) {c : Instrument × Stream} {v : View} (hd : c.2.aggregation ≠ some .drop) (hp : Picks glob r.inst c v) :
    Case s rd glob c.1 c.2 [v] .init r kind :=
  ⟨h.built, ⟨[], rfl⟩, fun w hw i st hws => by rw [List.mem_singleton] at hw; subst hw; rw [hp.aggregation i st hws]; exact hd, h.ofKind, hp.alone, fun y hy => by cases hy⟩

omit [DecidableEq V] in
/-- With several views, the measurements go where each of the views alone would have them go. -/
theorem several_fed (h : Several s rd glob cs views rs r kind) {forms : Instrument × Stream → Form} (hf : Asks kind forms cs) (g : Given V) :
    ∃ feds : List (List (Works V × Option (List Str))), fedBy g views rd.temporality (runRequests views rd.temporality .init rs) r = feds.flatten ∧
      List.Forall₂ (fun c fed => c ∈ keeping cs ∧ ∃ v, newView glob c.1 c.2 = some v ∧ Case s rd glob c.1 c.2 [v] .init r kind ∧ fed = fedBy g [v] rd.temporality .init r) (keeping cs) feds ∧
      (keeping cs = [] → (instrument views rd.temporality r.number (runRequests views rd.temporality .init rs) r.inst r.boundaries r.limit).1.syncs =
        (runRequests views rd.temporality .init rs).syncs) := by
  have hst := chosen_streams h.chosen
  have hkey : ∀ c : Instrument × Stream, Inst.identity r.inst.scope kind r.number (asStream c.2 r.inst).name (asStream c.2 r.inst).description (asStream c.2 r.inst).unit =
      identityAs r kind c.2 := by
    intro c
    simp only [asStream, identityAs, orElse_eq]
  have hmem : ∀ c, c ∈ cs.filterMap id ↔ some c ∈ cs := by intro c; simp
  have hkeep : ∀ c, c ∈ keeping cs ↔ some c ∈ cs ∧ c.2.aggregation ≠ some .drop := by intro c; simp [keeping]
  have hres : ∀ c : Instrument × Stream, resolved kind (asStream c.2 r.inst) = wants c.2 kind := fun _ => rfl
  have hall : ∀ c, some c ∈ cs → compatible kind (wants c.2 kind) = true ∧ (wants c.2 kind = .drop ↔ c.2.aggregation = some .drop) := by
    intro c hc
    by_cases hd : c.2.aggregation = some .drop
    · have hw : wants c.2 kind = .drop := by unfold wants; rw [hd]; rfl
      rw [hw]
      exact ⟨by cases kind <;> rfl, by simp [hd]⟩
    · have hw := asks_built c.2 kind _ (hf c ((hkeep c).2 ⟨hc, hd⟩)).1
      refine ⟨hw.1, ⟨fun he => ?_, fun he => absurd he hd⟩⟩
      have h2 := hw.2
      rw [he] at h2
      cases kind <;> cases h2
  have hfil : ((views.filterMap fun v => v r.inst).filter fun st => resolved kind st ≠ .drop) = (keeping cs).map fun c => asStream c.2 r.inst := by
    rw [hst, List.filter_map]
    congr 1
    unfold keeping
    refine List.filter_congr fun c hc => ?_
    have := (hall c ((hmem c).1 hc)).2
    simp only [Function.comp, hres, ne_eq, decide_eq_decide]
    rw [this]
  obtain ⟨hfed, hsame⟩ := fedBy_news g views rd.temporality (runRequests views rd.temporality .init rs) (Reach.inv ⟨rs, rfl⟩) r kind h.ofKind (by
      intro st hs
      rw [hst] at hs
      obtain ⟨c, hc, rfl⟩ := List.mem_map.1 hs
      rw [hmem] at hc
      refine ⟨(hall c hc).1, ?_⟩
      by_contra hl
      rcases requests_keys views rd.temporality rs _ _ hl with h0 | ⟨o, ho, k, hk, st, hs, he⟩
      · exact h0 rfl
      · exact h.new c hc o ho k hk st hs (((key_eq_iff ..).1 he).symm.trans (hkey c))) (by
      rw [hst]
      obtain ⟨c, hc⟩ := h.any
      intro he
      rw [List.map_eq_nil_iff] at he
      have := (hmem c).2 hc
      rw [he] at this
      cases this) (by
      rw [hst, List.map_map]
      have hd := h.differ
      rw [List.nodup_iff_pairwise_ne, List.pairwise_map] at hd ⊢
      refine hd.imp fun {a b} hab e => hab ?_
      rw [← hkey, ← hkey]
      exact (key_eq_iff ..).1 e)
  rw [hfil, List.flatMap_map] at hfed
  refine ⟨(keeping cs).map fun c => streamFed g rd.temporality r.number r.inst.scope kind (asStream c.2 r.inst), by rw [hfed, List.flatMap_def], ?_, fun he => hsame (by rw [hfil, he]; rfl)⟩
  rw [List.forall₂_map_right_iff, List.forall₂_same]
  intro c hck
  obtain ⟨hc, hd⟩ := (hkeep c).1 hck
  obtain ⟨v, hv, hp⟩ := chosen_picks h.chosen c hc
  refine ⟨hck, v, hp.made, h.alone hd hp, ?_⟩
  have h1 : [v].filterMap (fun v => v r.inst) = [asStream c.2 r.inst] := by simp [hp.stream]
  rw [(fedBy_news g [v] rd.temporality .init Inv.init r kind h.ofKind ?_ ?_ ?_).1, h1]
  · rw [List.filter_cons_of_pos (by rw [hres, decide_eq_true_eq]; exact fun e => hd ((hall c hc).2.1 e))]
    simp
  · rw [h1]
    intro st hs
    rw [List.mem_singleton] at hs
    subst hs
    exact ⟨(hall c hc).1, rfl⟩
  · rw [h1]; simp
  · rw [h1]; simp

/-- **C134, several views.** For each view that selects the instrument and does not drop it there is one aggregation, and no other: the collector gets the instrument as that view wants it, while
running, after a flush, and past the view's limit. -/
theorem several_views_partial (h : Several s rd glob cs views rs r kind) {forms : Instrument × Stream → Form} (hf : Asks kind forms cs) (g : Given V) {val : V → Val}
    (hinj : Function.Injective val) (hplain : ∀ v, NotEmptyArray (val v)) :
    ∃ feds : List (List (Works V × Option (List Str))), fedBy g views rd.temporality (runRequests views rd.temporality .init rs) r = feds.flatten ∧
      List.Forall₂ (fun c fed => let m := formMeaning g kind (forms c) r.number
        fed.length = 1 ∧ ArrivesAs g val c.2 fed r.inst s.args kind m.form m.X m.tells ∧ FlushArrivesAs g val c.2 fed r.inst s.args m ∧ NothingLostAs val c.2 fed r.inst s.args m)
        (keeping cs) feds := by
  obtain ⟨feds, h1, h2, -⟩ := several_fed h hf g
  refine ⟨feds, h1, h2.imp fun {c fed} hc => ?_⟩
  obtain ⟨hm, v, -, hcase, rfl⟩ := hc
  have ha := viewed_arrives_partial hcase g hinj hplain (forms c) (hf c hm).1 (hf c hm).2
  refine ⟨?_, ha, viewed_flushed_partial hcase g hinj hplain (forms c) (hf c hm).1 (hf c hm).2, viewed_nothing_lost hcase g hinj hplain (forms c) (hf c hm).1 (hf c hm).2⟩
  obtain ⟨A, cc, st, ci, keys, he, -⟩ := ha
  rw [he]
  rfl

omit [DecidableEq V] in
/-- **C134, views that drop.** If every view that selects the instrument drops it, the measurements go nowhere and nothing is added to what the reader collects. -/
theorem dropped_nothing (h : Several s rd glob cs views rs r kind) (hd : keeping cs = []) (g : Given V) :
    fedBy g views rd.temporality (runRequests views rd.temporality .init rs) r = [] ∧
      (instrument views rd.temporality r.number (runRequests views rd.temporality .init rs) r.inst r.boundaries r.limit).1.syncs =
        (runRequests views rd.temporality .init rs).syncs := by
  obtain ⟨feds, h1, h2, h3⟩ := several_fed h (forms := fun _ => .last) (fun c hc => by rw [hd] at hc; cases hc) g
  rw [hd, List.forall₂_nil_left_iff] at h2
  rw [h1, h2]
  exact ⟨rfl, h3 hd⟩

/-! ## Example -/

/-- A second view of the same counter, as a histogram of its increments. -/
def exSpread : Stream := ⟨"spread".toList, [], [], some (.explicitBucketHistogram [] true), none, none⟩
def exNothing : Stream := ⟨"nothing".toList, [], [], some .drop, none, none⟩
def exChoices : List (Option (Instrument × Stream)) := [some (exCriteria, exMask), none, some (exCriteria, exNothing), some (exCriteria, exSpread)]
def exFour : List View := [(newView exGlob exCriteria exMask).getD fun _ => none, fun _ => none, (newView exGlob exCriteria exNothing).getD fun _ => none,
  (newView exGlob exCriteria exSpread).getD fun _ => none]
/-- Another instrument, asked for before. -/
def exOther : Request := ⟨.u64, ⟨"misses".toList, [], some .counter, [], MeterApi.exScope⟩, none, none⟩
def exForms (c : Instrument × Stream) : Form := if c.2.aggregation.isNone then .sum true else .buckets [] true true

theorem exPicks (mask : Stream) (hv : ∀ a, mask.aggregation = some a → a.validate = true) :
    Picks exGlob exRequest.inst (exCriteria, mask) ((newView exGlob exCriteria mask).getD fun _ => none) ∧
      ∀ i st, ((newView exGlob exCriteria mask).getD fun _ => none) i = some st → st.aggregation = mask.aggregation := by
  obtain ⟨v, h, hx⟩ := view_exact exGlob exCriteria mask (by rw [← Inst.isEmpty_iff]; decide +kernel) (by rw [← wild_iff]; decide +kernel) hv
  rw [h]
  refine ⟨⟨h, hv, Or.inl ⟨?_, ?_, ?_⟩, ?_⟩, fun i st hs => ?_⟩
  · rw [← wild_iff]; dsimp only; decide +kernel
  · rw [← Inst.isEmpty_iff]; dsimp only; decide +kernel
  · have : SetAndEqual exCriteria.name exRequest.inst.name := by rw [← set_iff]; decide +kernel
    exact this
  · rw [← selects_iff]; dsimp only; decide +kernel
  · rw [((hx i st).1 hs).2]

theorem exDiffers {a b : Stream} (h : a.name.map asciiLower ≠ b.name.map asciiLower) (ha : a.name ≠ []) (hb : b.name ≠ []) :
    identityAs exRequest .counter a ≠ identityAs exRequest .counter b := by
  intro e
  have := congrArg (fun x => x.2.2.2.1) e
  simp only [identityAs, Inst.identity, ha, hb, if_false] at this
  exact h this

/-- Three of four views select the counter and one of these drops it; another instrument was asked for before. The hypotheses of `several_views_partial` hold. -/
theorem exSeveral : Several exSetup exReader exGlob exChoices exFour [exOther] exRequest .counter ∧ Asks .counter exForms exChoices ∧
    keeping exChoices = [(exCriteria, exMask), (exCriteria, exSpread)] := by
  have h1 := exPicks exMask (by intro a h; cases h)
  have h2 := exPicks exSpread (by intro a h; cases h; decide +kernel)
  have h3 := exPicks exNothing (by intro a h; cases h; decide +kernel)
  have hk : keeping exChoices = [(exCriteria, exMask), (exCriteria, exSpread)] := rfl
  have d1 : identityAs exRequest .counter exMask ≠ identityAs exRequest .counter exNothing := exDiffers (by decide +kernel) (by decide +kernel) (by decide +kernel)
  have d2 : identityAs exRequest .counter exMask ≠ identityAs exRequest .counter exSpread := exDiffers (by decide +kernel) (by decide +kernel) (by decide +kernel)
  have d3 : identityAs exRequest .counter exNothing ≠ identityAs exRequest .counter exSpread := exDiffers (by decide +kernel) (by decide +kernel) (by decide +kernel)
  refine ⟨⟨rfl, rfl, .cons h1.1 (.cons rfl (.cons h3.1 (.cons h2.1 .nil))), ⟨_, List.mem_cons_self⟩, ?_, ?_⟩, ?_, hk⟩
  · intro c hc o ho k hkk st hs e
    rw [List.mem_singleton] at ho
    subst ho
    have hs' : streamsOf exFour exOther.inst exOther.boundaries exOther.limit = [defaultStream exOther.inst none none] := by decide +kernel
    rw [hs', List.mem_singleton] at hs
    subst hs
    have := congrArg (fun x => x.2.2.2.1) e
    revert this
    simp only [exChoices, List.mem_cons, List.not_mem_nil, or_false, Option.some.injEq, reduceCtorEq, false_or] at hc
    rcases hc with rfl | rfl | rfl <;> dsimp only [streamIdentity, identityAs, Inst.identity] <;> decide +kernel
  · simp only [exChoices, List.filterMap_cons, id, List.filterMap_nil, List.map_cons, List.map_nil, List.nodup_cons, List.mem_cons, List.not_mem_nil, or_false, not_or]
    exact ⟨⟨d1, d2⟩, d3, not_false, List.nodup_nil⟩
  · intro c hc
    rw [hk] at hc
    simp only [List.mem_cons, List.not_mem_nil, or_false] at hc
    rcases hc with rfl | rfl
    · exact ⟨rfl, by intro bs mm h; cases h⟩
    · refine ⟨rfl, ?_⟩
      intro bs mm h
      cases h
      exact ⟨fun b h => absurd h List.not_mem_nil, List.Pairwise.nil⟩

/-- The two aggregations behind the counter: a sum that is limited to 3 sets of attributes, and a histogram. -/
theorem exSeveral_made : ((instrument exFour exReader.temporality exRequest.number .init exRequest.inst exRequest.boundaries exRequest.limit).1.syncs.map
      fun y => (y.name, y.built, y.allowedKeys, y.limit)) =
    [("clicks".toList, .sum true, some ["k".toList], 3), ("spread".toList, .explicitBucketHistogram [] true true, none, 2000)] := by decide +kernel

/-- The hypotheses of `dropped_nothing` hold for a view that drops the counter, while another instrument is collected. -/
theorem exDropped : Several exSetup exReader exGlob [some (exCriteria, exNothing)] [(newView exGlob exCriteria exNothing).getD fun _ => none] [exOther] exRequest .counter ∧
    keeping [some (exCriteria, exNothing)] = [] ∧
    (runRequests [(newView exGlob exCriteria exNothing).getD fun _ => none] exReader.temporality .init [exOther]).syncs.map (·.name) = ["misses".toList] := by
  have h3 := exPicks exNothing (by intro a h; cases h; decide +kernel)
  refine ⟨⟨rfl, rfl, .cons h3.1 .nil, ⟨_, List.mem_cons_self⟩, ?_, by simp⟩, rfl, by decide +kernel⟩
  intro c hc o ho k hkk st hs e
  rw [List.mem_singleton] at ho
  subst ho
  have hs' : streamsOf [(newView exGlob exCriteria exNothing).getD fun _ => none] exOther.inst exOther.boundaries exOther.limit = [defaultStream exOther.inst none none] := by
    decide +kernel
  rw [hs', List.mem_singleton] at hs
  subst hs
  rw [List.mem_singleton, Option.some.injEq] at hc
  rw [hc] at e
  have hne : (streamIdentity exOther .counter (defaultStream exOther.inst none none)).2.2.2.1 ≠ (identityAs exRequest .counter exNothing).2.2.2.1 := by decide +kernel
  exact hne (congrArg (fun x => x.2.2.2.1) e)

end Otel.EndToEnd.Viewed
