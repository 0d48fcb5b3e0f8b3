import Verif.Otlp.Props
/-! # Property theorems: OTLP grouping by scope (C53) -/

namespace Otel.Otlp
open Common (Val Arr Scope scopeEq scopeHash NanFree ZeroFree)
open Metrics (Sorter)
open Rust

variable {K : Type}

/-! ## Lemmas on grouping -/

section
variable {G V : Type} {hit : G → G → Bool} {key : V → G}

theorem groupBy_snoc (vs : List V) (v : V) : groupBy hit key (vs ++ [v]) = pushInto hit (key v) v (groupBy hit key vs) := by
  simp [groupBy]

theorem pushInto_perm (k : G) (v : V) (m : List (G × List V)) : ((pushInto hit k v m).flatMap Prod.snd).Perm (m.flatMap Prod.snd ++ [v]) := by
  induction m with
  | nil => simp [pushInto]
  | cons g gs ih =>
    simp only [pushInto]
    split
    · simp only [List.flatMap_cons, List.append_assoc]
      exact List.Perm.append_left _ List.perm_append_comm
    · simp only [List.flatMap_cons, List.append_assoc]
      exact List.Perm.append_left _ ih

/-- A property of groups that holds of a new group and is kept by adding to a found group holds of all groups. -/
theorem pushInto_all {P : G × List V → Prop} {k : G} {v : V} {m : List (G × List V)} (hm : ∀ g ∈ m, P g) (hnew : P (k, [v]))
    (hadd : ∀ g ∈ m, hit g.1 k = true → P (g.1, g.2 ++ [v])) : ∀ g ∈ pushInto hit k v m, P g := by
  induction m with
  | nil => intro g hg; simp [pushInto] at hg; subst hg; exact hnew
  | cons g0 gs ih =>
    intro g hg
    simp only [pushInto] at hg
    split at hg
    · rename_i h
      rcases List.mem_cons.1 hg with rfl | hg
      · exact hadd g0 (List.mem_cons_self ..) h
      · exact hm g (List.mem_cons_of_mem _ hg)
    · rcases List.mem_cons.1 hg with rfl | hg
      · exact hm _ (List.mem_cons_self ..)
      · exact ih (fun x hx => hm x (List.mem_cons_of_mem _ hx)) (fun x hx => hadd x (List.mem_cons_of_mem _ hx)) g hg

theorem groupBy_perm (vs : List V) : ((groupBy hit key vs).flatMap Prod.snd).Perm vs := by
  induction vs using List.reverseRecOn with
  | nil => simp [groupBy]
  | append_singleton vs v ih =>
    rw [groupBy_snoc]
    exact (pushInto_perm _ _ _).trans (List.Perm.append_right _ ih)

/-- The groups keep the order of the items, start with the item whose key they have, and hold only items found under that key. -/
theorem groupBy_group (vs : List V) : ∀ g ∈ groupBy hit key vs, List.Sublist g.2 vs ∧
    ∃ x xs, g.2 = x :: xs ∧ g.1 = key x ∧ ∀ y ∈ xs, hit (key x) (key y) = true := by
  induction vs using List.reverseRecOn with
  | nil => intro g hg; simp [groupBy] at hg
  | append_singleton vs v ih =>
    rw [groupBy_snoc]
    apply pushInto_all
    · intro g hg
      obtain ⟨h1, h2⟩ := ih g hg
      exact ⟨h1.trans (List.sublist_append_left _ _), h2⟩
    · exact ⟨List.sublist_append_right _ _, v, [], rfl, rfl, by simp⟩
    · intro g hg hh
      obtain ⟨h1, x, xs, h2, h3, h4⟩ := ih g hg
      refine ⟨h1.append (List.Sublist.refl _), x, xs ++ [v], by simp [h2], h3, ?_⟩
      intro y hy
      rcases List.mem_append.1 hy with hy | hy
      · exact h4 y hy
      · simp at hy; subst hy; exact h3 ▸ hh

/-- Where the keys are compared by an equivalence on the keys that occur, every group holds all the items of its key, and the keys of two groups
differ. -/
theorem groupBy_complete (vs : List V) (refl : ∀ v ∈ vs, hit (key v) (key v) = true)
    (symm : ∀ v ∈ vs, ∀ w ∈ vs, hit (key v) (key w) = true → hit (key w) (key v) = true)
    (trans : ∀ u ∈ vs, ∀ v ∈ vs, ∀ w ∈ vs, hit (key u) (key v) = true → hit (key v) (key w) = true → hit (key u) (key w) = true) :
    (∀ g ∈ groupBy hit key vs, g.2 = vs.filter fun v => hit g.1 (key v)) ∧
    (groupBy hit key vs).Pairwise (fun g g' => hit g.1 g'.1 = false) ∧
    (∀ g ∈ groupBy hit key vs, ∃ v ∈ vs, g.1 = key v) ∧
    (∀ v ∈ vs, ∃ g ∈ groupBy hit key vs, hit g.1 (key v) = true) := by
  induction vs using List.reverseRecOn with
  | nil => simp [groupBy]
  | append_singleton vs v ih =>
    have hin : ∀ {x}, x ∈ vs → x ∈ vs ++ [v] := fun h => List.mem_append_left _ h
    have hv : v ∈ vs ++ [v] := by simp
    obtain ⟨h1, h2, h3, h4⟩ := ih (fun a ha => refl a (hin ha)) (fun a ha b hb => symm a (hin ha) b (hin hb))
      (fun a ha b hb c hc => trans a (hin ha) b (hin hb) c (hin hc))
    rw [groupBy_snoc]
    generalize hm : groupBy hit key vs = m at h1 h2 h3 h4
    by_cases hex : ∃ g ∈ m, hit g.1 (key v) = true
    · -- the key is there
      have key1 : ∀ m' : List (G × List V), (∀ g ∈ m', g ∈ m) → m'.Pairwise (fun g g' => hit g.1 g'.1 = false) →
          (∃ g ∈ m', hit g.1 (key v) = true) →
          (pushInto hit (key v) v m').map Prod.fst = m'.map Prod.fst ∧
          ∀ g ∈ pushInto hit (key v) v m', g.2 = (vs ++ [v]).filter fun w => hit g.1 (key w) := by
        intro m'
        induction m' with
        | nil => intro _ _ h; obtain ⟨g, hg, _⟩ := h; cases hg
        | cons g0 gs ih2 =>
          intro hsub hpw hex2
          obtain ⟨hp1, hp2⟩ := List.pairwise_cons.1 hpw
          simp only [pushInto]
          by_cases hh : hit g0.1 (key v) = true
          · rw [if_pos hh]
            refine ⟨rfl, ?_⟩
            intro g hg
            rcases List.mem_cons.1 hg with rfl | hg
            · simp [List.filter_append, ← h1 g0 (hsub _ (List.mem_cons_self ..)), hh]
            · have hne : hit g.1 (key v) = false := by
                by_contra hc
                rw [Bool.not_eq_false] at hc
                obtain ⟨a, ha, hae⟩ := h3 g0 (hsub _ (List.mem_cons_self ..))
                obtain ⟨b, hb, hbe⟩ := h3 g (hsub _ (List.mem_cons_of_mem _ hg))
                have hpn := hp1 g hg
                rw [hae, hbe] at hpn
                have hc' := symm b (hin hb) v hv (hbe ▸ hc)
                have := trans a (hin ha) v hv b (hin hb) (hae ▸ hh) hc'
                rw [this] at hpn; cases hpn
              simp [List.filter_append, ← h1 g (hsub _ (List.mem_cons_of_mem _ hg)), hne]
          · rw [if_neg hh]
            have hex3 : ∃ g ∈ gs, hit g.1 (key v) = true := by
              obtain ⟨g, hg, hgh⟩ := hex2
              rcases List.mem_cons.1 hg with rfl | hg
              · exact absurd hgh hh
              · exact ⟨g, hg, hgh⟩
            obtain ⟨k1, k2⟩ := ih2 (fun g hg => hsub g (List.mem_cons_of_mem _ hg)) hp2 hex3
            refine ⟨by simp [k1], ?_⟩
            intro g hg
            rcases List.mem_cons.1 hg with rfl | hg
            · rw [Bool.not_eq_true] at hh
              simp [List.filter_append, ← h1 _ (hsub _ (List.mem_cons_self ..)), hh]
            · exact k2 g hg
      obtain ⟨k1, k2⟩ := key1 m (fun _ h => h) h2 hex
      have hkeys : ∀ k, (∃ g ∈ pushInto hit (key v) v m, g.1 = k) ↔ ∃ g ∈ m, g.1 = k := by
        intro k
        have : k ∈ (pushInto hit (key v) v m).map Prod.fst ↔ k ∈ m.map Prod.fst := by rw [k1]
        simpa using this
      refine ⟨k2, ?_, ?_, ?_⟩
      · have h2' : (m.map Prod.fst).Pairwise (fun a b => hit a b = false) := List.pairwise_map.2 h2
        rw [← k1] at h2'
        exact List.pairwise_map.1 h2'
      · intro g hg
        obtain ⟨g', hg', he⟩ := (hkeys g.1).1 ⟨g, hg, rfl⟩
        obtain ⟨w, hw, hwe⟩ := h3 g' hg'
        exact ⟨w, hin hw, he ▸ hwe⟩
      · intro w hw
        have : ∃ g ∈ m, hit g.1 (key w) = true := by
          rcases List.mem_append.1 hw with hw | hw
          · exact h4 w hw
          · simp at hw; subst hw; exact hex
        obtain ⟨g, hg, hgh⟩ := this
        obtain ⟨g', hg', he⟩ := (hkeys g.1).2 ⟨g, hg, rfl⟩
        exact ⟨g', hg', he ▸ hgh⟩
    · -- a new key
      have hno : ∀ g ∈ m, hit g.1 (key v) = false := by
        intro g hg
        rw [← Bool.not_eq_true]
        exact fun h => hex ⟨g, hg, h⟩
      have hpush : ∀ m' : List (G × List V), (∀ g ∈ m', hit g.1 (key v) = false) → pushInto hit (key v) v m' = m' ++ [(key v, [v])] := by
        intro m'
        induction m' with
        | nil => intro _; rfl
        | cons g gs ih2 =>
          intro h
          simp [pushInto, h g (List.mem_cons_self ..), ih2 fun x hx => h x (List.mem_cons_of_mem _ hx)]
      rw [hpush m hno]
      have hrev : ∀ w ∈ vs, hit (key v) (key w) = false := by
        intro w hw
        rw [← Bool.not_eq_true]
        intro hc
        obtain ⟨g, hg, hgh⟩ := h4 w hw
        obtain ⟨a, ha, hae⟩ := h3 g hg
        have hc' := symm v hv w (hin hw) hc
        have := trans a (hin ha) w (hin hw) v hv (hae ▸ hgh) hc'
        have h0 := hno g hg
        rw [hae, this] at h0; cases h0
      refine ⟨?_, ?_, ?_, ?_⟩
      · intro g hg
        rcases List.mem_append.1 hg with hg | hg
        · simp [List.filter_append, ← h1 g hg, hno g hg]
        · simp at hg; subst hg
          have : vs.filter (fun w => hit (key v) (key w)) = [] := by
            rw [List.filter_eq_nil_iff]; intro w hw; simp [hrev w hw]
          simp [List.filter_append, this, refl v hv]
      · rw [List.pairwise_append]
        refine ⟨h2, by simp, ?_⟩
        intro a ha b hb
        simp at hb; subst hb
        exact hno a ha
      · intro g hg
        rcases List.mem_append.1 hg with hg | hg
        · obtain ⟨w, hw, he⟩ := h3 g hg; exact ⟨w, hin hw, he⟩
        · simp at hg; subst hg; exact ⟨v, hv, rfl⟩
      · intro w hw
        rcases List.mem_append.1 hw with hw | hw
        · obtain ⟨g, hg, hh⟩ := h4 w hw; exact ⟨g, List.mem_append_left _ hg, hh⟩
        · simp at hw; subst hw; exact ⟨(key w, [w]), by simp, refl w hv⟩

end

/-! ## Spans -/

/-- How a `HashMap` finds a scope: only under an equal scope, and surely under one that is equal and hashes equally. (Scopes that are equal but hash
differently, with `0.0` against `-0.0`, may or may not find each other.) -/
structure MapKeys [LinearOrder K] (srt : Sorter K Val) (hit : Scope K → Scope K → Bool) : Prop where
  sound : ∀ a b, hit a b = true → scopeEq srt a b = true
  complete : ∀ a b, scopeEq srt a b = true → scopeHash srt a = scopeHash srt b → hit a b = true

/-- **C53 (spans).** For every batch and every iteration order of the map, the request contains the spans of the batch, each exactly once. -/
theorem spans_once (hit : Scope K → Scope K → Bool) (ord : Order (Scope K × List (SdkSpan K))) (res : Res K) (batch : List (SdkSpan K)) :
    ((groupSpans hit ord res batch).groups.flatMap (·.items)).Perm (batch.map spanOf) := by
  simp only [groupSpans, List.flatMap_map]
  have h := (ord.perm (groupBy hit (·.scope) batch)).flatMap_right (fun g => g.2.map spanOf)
  refine h.trans ?_
  have h2 := (groupBy_perm (hit := hit) (key := fun x : SdkSpan K => x.scope) batch).map spanOf
  rwa [List.map_flatMap] at h2

/-- **C53 (spans).** The spans of a group are spans of the batch in their order; all of them have a scope equal to that of the first one, whose name,
version and attributes the group carries. -/
theorem spans_grouped [LinearOrder K] (srt : Sorter K Val) {hit : Scope K → Scope K → Bool} (hk : MapKeys srt hit)
    (ord : Order (Scope K × List (SdkSpan K))) (res : Res K) (batch : List (SdkSpan K)) :
    ∀ g ∈ (groupSpans hit ord res batch).groups, ∃ x xs, List.Sublist (x :: xs) batch ∧ g.items = (x :: xs).map spanOf ∧
      g.scope = ⟨x.scope.name, x.scope.version.getD "", attributes x.scope.attrs⟩ ∧
      ∀ y ∈ xs, scopeEq srt x.scope y.scope = true := by
  intro g hg
  simp only [groupSpans, List.mem_map] at hg
  obtain ⟨g0, hg0, rfl⟩ := hg
  obtain ⟨h1, x, xs, h2, h3, h4⟩ := groupBy_group (hit := hit) (key := fun x : SdkSpan K => x.scope) batch g0 ((ord.perm _).mem_iff.1 hg0)
  exact ⟨x, xs, h2 ▸ h1, by simp [h2], by simp [scopeOf, h3], fun y hy => hk.sound _ _ (h4 y hy)⟩

/-- **C53 (spans).** If no scope attribute is NaN or a zero float, there is one group per scope: it holds all the spans of the batch with an equal
scope, and the groups are in correspondence with the different scopes. -/
theorem spans_one_group_partial [LinearOrder K] (srt : Sorter K Val) {hit : Scope K → Scope K → Bool} (hk : MapKeys srt hit)
    (ord : Order (Scope K × List (SdkSpan K))) (res : Res K) (batch : List (SdkSpan K))
    (hn : ∀ x ∈ batch, ∀ p ∈ x.scope.attrs, NanFree p.2 ∧ ZeroFree p.2) :
    ∃ scopes : List (Scope K), (groupSpans hit ord res batch).groups.length = scopes.length ∧
      scopes.Pairwise (fun a b => scopeEq srt a b = false) ∧
      (∀ x ∈ batch, ∃ s ∈ scopes, scopeEq srt s x.scope = true) ∧
      ((groupSpans hit ord res batch).groups = scopes.map fun s =>
        ⟨⟨s.name, s.version.getD "", attributes s.attrs⟩, res.schemaUrl.getD "", (batch.filter fun x => scopeEq srt s x.scope).map spanOf⟩) := by
  obtain ⟨hsymm, htrans, hrefl⟩ := Common.scope_equivalence srt
  have heq : ∀ x ∈ batch, ∀ y ∈ batch, (hit x.scope y.scope = true ↔ scopeEq srt x.scope y.scope = true) := by
    intro x hx y _
    refine ⟨hk.sound _ _, fun h => hk.complete _ _ h ?_⟩
    exact ((Common.scope_eq_partial srt h).2.2.2.2 fun p hp => (hn x hx p hp).2).2
  obtain ⟨h1, h2, h3, h4⟩ := groupBy_complete (hit := hit) (key := fun x : SdkSpan K => x.scope) batch
    (fun v hv => (heq v hv v hv).2 ((hrefl _).2 fun p hp => (hn v hv p hp).1))
    (fun v hv w hw h => (heq w hw v hv).2 (hsymm _ _ ((heq v hv w hw).1 h)))
    (fun u hu v hv w hw h h' => (heq u hu w hw).2 (htrans _ _ _ ((heq u hu v hv).1 h) ((heq v hv w hw).1 h')))
  generalize hm : groupBy hit (fun x : SdkSpan K => x.scope) batch = m at h1 h2 h3 h4
  have hmem : ∀ g, g ∈ ord.run m ↔ g ∈ m := fun g => (ord.perm m).mem_iff
  -- equality of the keys of two groups
  have hkk : ∀ g ∈ m, ∀ g' ∈ m, (hit g.1 g'.1 = true ↔ scopeEq srt g.1 g'.1 = true) := by
    intro g hg g' hg'
    obtain ⟨a, ha, hae⟩ := h3 g hg
    obtain ⟨b, hb, hbe⟩ := h3 g' hg'
    rw [hae, hbe]
    exact heq a ha b hb
  have hpw : m.Pairwise fun g g' => scopeEq srt g.1 g'.1 = false := by
    refine h2.imp_of_mem ?_
    intro g g' hg hg' h
    rw [← Bool.not_eq_true, ← hkk g hg g' hg', h]
    simp
  have hpw' : (ord.run m).Pairwise fun g g' => scopeEq srt g.1 g'.1 = false := by
    refine ((ord.perm m).pairwise_iff ?_).2 hpw
    intro a b h
    rw [← Bool.not_eq_true] at h ⊢
    exact fun hc => h (hsymm _ _ hc)
  refine ⟨(ord.run m).map Prod.fst, by simp [groupSpans, hm], List.pairwise_map.2 hpw', ?_, ?_⟩
  · intro x hx
    obtain ⟨g, hg, hh⟩ := h4 x hx
    exact ⟨g.1, List.mem_map.2 ⟨g, (hmem g).2 hg, rfl⟩, hk.sound _ _ hh⟩
  · simp only [groupSpans, hm, List.map_map]
    apply List.map_congr_left
    intro g hg
    have hg' := (hmem g).1 hg
    obtain ⟨a, ha, hae⟩ := h3 g hg'
    simp only [Function.comp, scopeOf]
    congr 2
    rw [h1 g hg']
    apply List.filter_congr
    intro x hx
    have := heq a ha x hx
    rw [← hae] at this
    exact Bool.eq_iff_iff.2 this

/-- **C53 (request).** The request carries the resource's attributes and schema url. -/
theorem spans_resource (hit : Scope K → Scope K → Bool) (ord : Order (Scope K × List (SdkSpan K))) (res : Res K) (batch : List (SdkSpan K)) :
    (groupSpans hit ord res batch).resource = res.attributes ∧ (groupSpans hit ord res batch).schemaUrl = res.schemaUrl.getD "" := ⟨rfl, rfl⟩

/-- The hash map that finds a scope under any equal one. -/
example : MapKeys Common.mergeSorter (scopeEq Common.mergeSorter) := ⟨fun _ _ h => h, fun _ _ h _ => h⟩

/-- **C53, violated.** The schema url of a scope is not exported: every group carries the schema url of the resource. Two spans of scopes that differ
only in their schema url are in two groups that look the same. -/
theorem span_schema_url_violated (hit : Scope K → Scope K → Bool) (ord : Order (Scope K × List (SdkSpan K))) (res : Res K)
    (batch : List (SdkSpan K)) (g : PGroup K (PSpan K)) (h : g ∈ (groupSpans hit ord res batch).groups) : g.schemaUrl = res.schemaUrl.getD "" := by
  simp only [groupSpans, List.mem_map] at h
  obtain ⟨_, _, rfl⟩ := h
  rfl

/-- **C53 (violated)** Two scopes that differ in their schema url have the same encoding. -/
theorem span_schema_url_lost_violated : ∃ a b : Scope Nat, a.schemaUrl ≠ b.schemaUrl ∧ scopeOf a none = scopeOf b none :=
  ⟨⟨"lib", none, some "https://a", []⟩, ⟨"lib", none, some "https://b", []⟩, by simp, rfl⟩

/-! ## Log records -/

/-- **C53 (log records).** For every batch of records with an observed time and every iteration order of the map, the request is built and contains
the records of the batch, each exactly once. -/
theorem logs_once (ord : Order (String × List (SdkLog K × Scope K))) (res : Res K) (batch : List (SdkLog K × Scope K))
    (h : ∀ x ∈ batch, x.1.observedTimestamp.isSome) :
    ∃ req, groupLogs ord res batch = some req ∧ ((req.groups.flatMap (·.items)).map some).Perm (batch.map fun x => logOf x.1) ∧
      req.resource = res.attributes ∧ req.schemaUrl = res.schemaUrl.getD "" := by
  have hperm := ord.perm (groupBy (fun a b => decide (a = b)) logKey batch)
  have hgrp := groupBy_group (hit := fun a b => decide (a = b)) (key := logKey) batch
  have hall := groupBy_perm (hit := fun a b => decide (a = b)) (key := logKey) batch
  have hrec : ∀ l : List (SdkLog K × Scope K), (∀ x ∈ l, x.1.observedTimestamp.isSome) →
      ∃ ps, l.mapM (fun x => logOf x.1) = some ps ∧ ps.map some = l.map fun x => logOf x.1 := by
    intro l
    induction l with
    | nil => intro _; exact ⟨[], rfl, rfl⟩
    | cons x l ih =>
      intro hx
      obtain ⟨ps, h1, h2⟩ := ih fun y hy => hx y (List.mem_cons_of_mem _ hy)
      obtain ⟨o, ho⟩ := Option.isSome_iff_exists.1 (hx x (List.mem_cons_self ..))
      have : ∃ p, logOf x.1 = some p := by simp [logOf, ho]
      obtain ⟨p, hp⟩ := this
      refine ⟨p :: ps, by rw [List.mapM_cons, hp, h1]; rfl, by simp [h2, hp]⟩
  have hgroups : ∀ m : List (String × List (SdkLog K × Scope K)), (∀ g ∈ m, g.2 ≠ [] ∧ ∀ x ∈ g.2, x.1.observedTimestamp.isSome) →
      ∃ gs, m.mapM (logGroup res) = some gs ∧ (gs.flatMap (·.items)).map some = (m.flatMap Prod.snd).map fun x => logOf x.1 := by
    intro m
    induction m with
    | nil => intro _; exact ⟨[], rfl, rfl⟩
    | cons g m ih =>
      intro hx
      obtain ⟨gs, h1, h2⟩ := ih fun y hy => hx y (List.mem_cons_of_mem _ hy)
      obtain ⟨hne, hobs⟩ := hx g (List.mem_cons_self ..)
      obtain ⟨ps, h3, h4⟩ := hrec g.2 hobs
      obtain ⟨f, hf⟩ : ∃ f, g.2.head? = some f := by
        cases hg : g.2 with
        | nil => exact absurd hg hne
        | cons a l => exact ⟨a, rfl⟩
      have hg : logGroup res g = some ⟨scopeOf f.2 (some g.1), res.schemaUrl.getD "", ps⟩ := by
        simp [logGroup, hf, h3]
      refine ⟨_ :: gs, by rw [List.mapM_cons, hg, h1]; rfl, ?_⟩
      simp only [List.flatMap_cons, List.map_append, h2, h4]
  obtain ⟨gs, h1, h2⟩ := hgroups _ (by
    intro g hg
    obtain ⟨hs, x, xs, he, _⟩ := hgrp g (hperm.mem_iff.1 hg)
    exact ⟨by simp [he], fun y hy => h y (hs.subset hy)⟩)
  refine ⟨⟨res.attributes, gs, res.schemaUrl.getD ""⟩, by simp [groupLogs, h1], ?_, rfl, rfl⟩
  show ((gs.flatMap (·.items)).map some).Perm _
  rw [h2]
  exact ((hperm.flatMap_right _).trans hall).map _

theorem mapM_some {α β : Type} {f : α → Option β} {l : List α} {bs : List β} (h : l.mapM f = some bs) : bs.map some = l.map f := by
  induction l generalizing bs with
  | nil => cases h; rfl
  | cons a l ih =>
    rw [List.mapM_cons] at h
    simp only [Option.bind_eq_bind, Option.bind_eq_some_iff] at h
    obtain ⟨b, hb, cs, hcs, he⟩ := h
    cases he
    simp [hb, ih hcs]

theorem names_of {res : Res K} (hg : ∀ g0 g, logGroup res g0 = some g → g.scope.name = g0.1 ∧ g.items.map some = g0.2.map fun x => logOf x.1)
    {gs : List (PGroup K (PLog K))} {m : List (String × List (SdkLog K × Scope K))} (h : gs.map some = m.map (logGroup res)) :
    gs.map (·.scope.name) = m.map Prod.fst := by
  induction m generalizing gs with
  | nil => cases gs with
    | nil => rfl
    | cons => cases h
  | cons g0 m ih =>
    cases gs with
    | nil => cases h
    | cons g gs =>
      simp only [List.map_cons, List.cons.injEq] at h
      simp [ih h.2, (hg g0 g h.1.symm).1]

/-- **C53 (log records, partial).** The groups are named after the targets (or, without target, the scope names) of the records, one group per name, and
each holds all the records of that name in their order. Missing: the rest of the scope, see `log_scope_violated`. -/
theorem logs_grouped_partial (ord : Order (String × List (SdkLog K × Scope K))) (res : Res K) (batch : List (SdkLog K × Scope K))
    {req : PRequest K (PLog K)} (h : groupLogs ord res batch = some req) :
    (req.groups.map (·.scope.name)).Nodup ∧
    (∀ n, n ∈ req.groups.map (·.scope.name) ↔ ∃ x ∈ batch, logKey x = n) ∧
    (∀ g ∈ req.groups, g.items.map some = (batch.filter fun x => logKey x = g.scope.name).map fun x => logOf x.1) := by
  obtain ⟨h1, h2, h3, h4⟩ := groupBy_complete (hit := fun a b : String => decide (a = b)) (key := logKey (K := K)) batch
    (fun _ _ => by simp) (fun _ _ _ _ h => by simp at *; exact h.symm) (fun _ _ _ _ _ _ h h' => by simp at *; exact h.trans h')
  have hperm := ord.perm (groupBy (fun a b => decide (a = b)) (logKey (K := K)) batch)
  simp only [groupLogs, Option.map_eq_some_iff] at h
  obtain ⟨gs, hgs, rfl⟩ := h
  generalize groupBy (fun a b => decide (a = b)) (logKey (K := K)) batch = m at h1 h2 h3 h4 hperm hgs
  have hgs' := mapM_some hgs
  have hg : ∀ g0 g, logGroup res g0 = some g → g.scope.name = g0.1 ∧ g.items.map some = g0.2.map fun x => logOf x.1 := by
    intro g0 g hg
    simp only [logGroup, Option.bind_eq_bind, Option.bind_eq_some_iff] at hg
    obtain ⟨f, _, ps, hps, he⟩ := hg
    cases he
    exact ⟨rfl, mapM_some hps⟩
  have hnames : gs.map (·.scope.name) = (ord.run m).map Prod.fst := names_of hg hgs'
  show (gs.map (·.scope.name)).Nodup ∧ (∀ n, n ∈ gs.map (·.scope.name) ↔ _) ∧ _
  rw [hnames]
  refine ⟨?_, ?_, ?_⟩
  · have hn : (m.map Prod.fst).Nodup := List.pairwise_map.2 (h2.imp fun h => by simpa using h)
    exact (hperm.map _).nodup_iff.2 hn
  · intro n
    rw [(hperm.map Prod.fst).mem_iff]
    constructor
    · intro hn
      obtain ⟨g, hgm, rfl⟩ := List.mem_map.1 hn
      obtain ⟨v, hv, he⟩ := h3 g hgm
      exact ⟨v, hv, he.symm⟩
    · rintro ⟨x, hx, rfl⟩
      obtain ⟨g, hgm, he⟩ := h4 x hx
      exact List.mem_map.2 ⟨g, hgm, by simpa using he⟩
  · intro g hgm
    have : some g ∈ (ord.run m).map (logGroup res) := hgs' ▸ List.mem_map_of_mem hgm
    obtain ⟨g0, hg0, he⟩ := List.mem_map.1 this
    obtain ⟨he1, he2⟩ := hg g0 g he
    rw [he2, h1 g0 (hperm.mem_iff.1 hg0), he1]
    simp [eq_comm]

/-- The example record. -/
def exampleLog (target : Option Str) : SdkLog Nat := { (Logs.Record.new : SdkLog Nat) with target := target, observedTimestamp := some 5 }

example : ∀ x ∈ [(exampleLog none, (⟨"lib", none, none, []⟩ : Scope Nat)), (exampleLog (some "t".toList), ⟨"lib", none, none, []⟩)],
    x.1.observedTimestamp.isSome := by simp [exampleLog]

/-- **C53, violated.** Of a log record's scope only a name is exported: with or without target, no group carries a version or attributes, and every
group carries the schema url of the resource. -/
theorem log_scope_violated (ord : Order (String × List (SdkLog K × Scope K))) (res : Res K) (batch : List (SdkLog K × Scope K))
    {req : PRequest K (PLog K)} (h : groupLogs ord res batch = some req) :
    ∀ g ∈ req.groups, g.scope.version = "" ∧ g.scope.attributes = [] ∧ g.schemaUrl = res.schemaUrl.getD "" := by
  simp only [groupLogs, Option.map_eq_some_iff] at h
  obtain ⟨gs, hgs, rfl⟩ := h
  intro g hg
  have : some g ∈ _ := mapM_some hgs ▸ List.mem_map_of_mem hg
  obtain ⟨g0, _, he⟩ := List.mem_map.1 this
  simp only [logGroup, Option.bind_eq_bind, Option.bind_eq_some_iff] at he
  obtain ⟨f, _, ps, _, he⟩ := he
  cases he
  exact ⟨rfl, rfl, rfl⟩

/-- **C53, violated.** Records of two different scopes with the same name end up in one group, and a record whose target is the name of another scope
joins the records of that scope. -/
theorem log_scopes_merged_violated :
    ∃ (a b c : SdkLog Nat × Scope Nat), scopeEq Common.mergeSorter a.2 b.2 = false ∧ a.2.name ≠ c.2.name ∧
      ∀ ord res, ∃ g, groupLogs ord res [a, b, c] = some ⟨res.attributes, [g], res.schemaUrl.getD ""⟩ ∧ g.items.length = 3 := by
  refine ⟨(exampleLog none, ⟨"lib", some "1", none, []⟩), (exampleLog none, ⟨"lib", some "2", none, []⟩),
    (exampleLog (some "lib".toList), ⟨"other", none, none, []⟩), by simp [scopeEq], by decide, ?_⟩
  intro ord res
  have hk : ∀ l : List (SdkLog Nat × Scope Nat), ord.run [("lib", l)] = [("lib", l)] := fun l => List.perm_singleton.1 (ord.perm _)
  have hg : groupBy (fun a b => decide (a = b)) logKey [(exampleLog none, (⟨"lib", some "1", none, []⟩ : Scope Nat)),
      (exampleLog none, ⟨"lib", some "2", none, []⟩), (exampleLog (some "lib".toList), ⟨"other", none, none, []⟩)] =
      [("lib", [(exampleLog none, ⟨"lib", some "1", none, []⟩), (exampleLog none, ⟨"lib", some "2", none, []⟩),
        (exampleLog (some "lib".toList), ⟨"other", none, none, []⟩)])] := by
    simp [groupBy, pushInto, logKey, exampleLog]
  rw [groupLogs, hg, hk]
  exact ⟨_, rfl, rfl⟩

end Otel.Otlp
