import Verif.Context.StackLemmas
/-! # Property theorems: the current context (C01, C02) -/

namespace Otel.Ctx

variable {α : Type}

/-- **C01.** For every history of attaches and guard drops (in any order) with fewer than 65535 attaches, the current
context is the newest attachment still alive, or the base context. -/
theorem current_is_newest_live (base : α) (ops : List (Op α)) (h : Spec.attaches ops < 65535) :
    ((Sys.init base).run ops).current = (Spec.run (fun _ => true) ops).current base := by
  obtain ⟨g, hg⟩ := inv_run base ops (fun _ => true) (by
    intro pre cx post hpre
    refine iff_of_true rfl ?_
    -- by induction every earlier attach is accepted, so the stack is short
    have key : ∀ p q, pre = p ++ q → ∃ g, Inv base ((Sys.init base).run p) (Spec.run (fun _ => true) p) g := by
      intro p
      induction p using List.reverseRecOn with
      | nil => intro q _; exact ⟨[], inv_init base⟩
      | append_singleton p o ih =>
        intro q hq
        obtain ⟨g, hg⟩ := ih (o :: q) (by simp [hq])
        rw [Sys.run_append, Spec.run_snoc]
        cases o with
        | drop k => exact inv_drop hg _ k
        | attach c =>
          refine inv_attach hg _ c (iff_of_true rfl ?_)
          have h1 := hg.le_count
          rw [Spec.count_eq] at h1
          have h2 := hg.stack_length
          have h3 : Spec.attaches p + 2 ≤ Spec.attaches ops := by
            rw [hpre, hq]; simp [Spec.attaches]; omega
          have hroom : ((Sys.init base).run p).st.stack.length + 1 < maxPos := by
            unfold maxPos; omega
          simp only [Stack.push, hroom, if_true]
          unfold maxPos at *; omega
    obtain ⟨g, hg⟩ := key pre [] (by simp)
    have h1 := hg.le_count
    rw [Spec.count_eq] at h1
    have h2 := hg.stack_length
    have h3 : Spec.attaches pre + 1 ≤ Spec.attaches ops := by
      rw [hpre]; simp [Spec.attaches]
    have hroom : ((Sys.init base).run pre).st.stack.length + 1 < maxPos := by
      unfold maxPos; omega
    simp only [Stack.push, hroom, if_true]
    unfold maxPos at *; omega)
  exact current_eq hg

/-- Non-vacuity of C01: an out-of-order history whose answer is neither the last attach nor the base. -/
example : Spec.attaches [Op.attach 1, .attach 2, .attach 3, .drop 1, .drop 2, .attach 4, .drop 3] < 65535 ∧
    ((Sys.init 0).run [Op.attach 1, .attach 2, .attach 3, .drop 1, .drop 2, .attach 4, .drop 3]).current = 1 := by
  decide

/-- The places are the positions in the guards. -/
structure PlacesInv (s : Sys α) (sp : Spec.State α) (pl : Spec.Places) : Prop where
  same : pl.live.map Prod.fst = sp.live.map Prod.fst
  count : pl.count = sp.count
  guard : ∀ e ∈ pl.live, s.guards[e.1]? = some (some e.2)

theorem places_height {base : α} {s : Sys α} {sp : Spec.State α} {g : Slots α} {pl : Spec.Places} (h : Inv base s sp g) (hp : PlacesInv s sp pl) : pl.height = s.st.stack.length := by
  have hl := h.stack_length
  have hs := h.slots
  have hsame := hp.same
  have hgd := hp.guard
  rw [h.live] at hsame
  unfold Spec.Places.height
  rcases List.eq_nil_or_concat g with rfl | ⟨g', o, rfl⟩
  · simp only [List.filterMap_nil, List.map_nil, List.map_eq_nil_iff] at hsame
    rw [hsame, hl]; rfl
  · rw [List.concat_eq_append] at *
    rw [slotCtx_append, ← List.cons_append] at hs
    have h2 := (List.append_inj' hs (by simp [slotCtx])).2
    cases o with
    | none => simp [slotCtx] at h2
    | some e =>
      rw [List.filterMap_append, List.map_append] at hsame
      rcases List.eq_nil_or_concat pl.live with hnil | ⟨l', x, hx⟩
      · rw [hnil] at hsame; simp at hsame
      · rw [List.concat_eq_append] at hx
        rw [hx, List.map_append] at hsame
        have h3 := (List.append_inj' hsame (by simp)).2
        simp only [List.map_cons, List.map_nil, List.filterMap_cons, id, List.filterMap_nil, List.cons.injEq, and_true] at h3
        have h4 := h.slot g'.length e.1 e.2 (by simp)
        have h5 := hgd x (by rw [hx]; simp)
        rw [h3, h4] at h5
        rw [hx, List.getLast?_append_of_ne_nil _ (by simp)]
        simp only [List.getLast?_singleton]
        rw [hl]
        simp only [Option.some.injEq] at h5
        simp [← h5]

theorem places_run (base : α) (ops : List (Op α))
    (h : ∀ pre cx post, ops = pre ++ .attach cx :: post → (Spec.places pre).height < 65534) :
    (∃ g, Inv base ((Sys.init base).run ops) (Spec.run (fun _ => true) ops) g) ∧ PlacesInv ((Sys.init base).run ops) (Spec.run (fun _ => true) ops) (Spec.places ops) := by
  induction ops using List.reverseRecOn with
  | nil => exact ⟨⟨[], inv_init base⟩, ⟨rfl, rfl, by simp [Spec.places]⟩⟩
  | append_singleton p o ih =>
    obtain ⟨⟨g, hg⟩, hp⟩ := ih fun pre cx post hpre => h pre cx (post ++ [o]) (by rw [hpre]; simp)
    rw [Sys.run_append, Spec.run_snoc]
    have hpl : Spec.places (p ++ [o]) = (Spec.places p).step o := by simp [Spec.places]
    rw [hpl]
    cases o with
    | drop k =>
      refine ⟨inv_drop hg _ k, ?_⟩
      have hgd : ∀ e ∈ ((Spec.places p).step (.drop k : Op α)).live, (((Sys.init base).run p).run [.drop k]).guards[e.1]? = some (some e.2) := by
        intro e he
        obtain ⟨h1, h2⟩ := List.mem_filter.1 he
        have h3 := hp.guard e h1
        have hne : k ≠ e.1 := fun hc => by simp [hc] at h2
        simp only [Sys.run, List.foldl_cons, List.foldl_nil, Sys.step] at *
        split
        · rw [List.getElem?_set_ne hne]; exact h3
        · exact h3
      refine ⟨?_, hp.count, hgd⟩
      show ((Spec.places p).live.filter _).map _ = (((Spec.run (fun _ => true) p).live).filter _).map _
      have key : ∀ {β γ : Type} (l : List (Nat × β)) (l' : List (Nat × γ)), l.map Prod.fst = l'.map Prod.fst →
          (l.filter fun e => e.1 != k).map Prod.fst = (l'.filter fun e => e.1 != k).map Prod.fst := by
        intro β γ l l' hll
        have e1 : ∀ {δ : Type} (m : List (Nat × δ)), (m.filter fun e => e.1 != k).map Prod.fst = (m.map Prod.fst).filter fun n => n != k := fun m => by
          rw [List.filter_map]; rfl
        rw [e1, e1, hll]
      exact key _ _ hp.same
    | attach c =>
      have hh := places_height hg hp
      have hlt := h p c [] rfl
      have hroom : ((Sys.init base).run p).st.stack.length + 1 < maxPos := by unfold maxPos; omega
      have hpush : ((Sys.init base).run p).st.push c = (⟨c, ((Sys.init base).run p).st.stack ++ [some ((Sys.init base).run p).st.cur]⟩, ((Sys.init base).run p).st.stack.length + 1) := by
        have hmod : (((Sys.init base).run p).st.stack.length + 1) % 65536 = ((Sys.init base).run p).st.stack.length + 1 := by unfold maxPos at hroom; omega
        simp [Stack.push, hroom, hmod]
      refine ⟨inv_attach hg _ c (iff_of_true rfl (by rw [hpush]; show _ ≠ maxPos; unfold maxPos at *; omega)), ?_⟩
      refine ⟨?_, ?_, ?_⟩
      · show ((Spec.places p).live ++ [_]).map _ = ((Spec.run (fun _ => true) p).live ++ [_]).map _
        rw [List.map_append, List.map_append, hp.same]
        simp [hp.count]
      · show (Spec.places p).count + 1 = (Spec.run (fun _ => true) p).count + 1
        rw [hp.count]
      · intro e he
        simp only [Sys.run, List.foldl_cons, List.foldl_nil, Sys.step] at *
        rw [hpush]
        rcases List.mem_append.1 he with he | he
        · have h3 := hp.guard e he
          rw [List.getElem?_append_left (List.getElem?_eq_some_iff.1 h3).1]; exact h3
        · rw [List.mem_singleton.1 he]
          simp only
          have hc : (Spec.places p).count = (List.foldl Sys.step (Sys.init base) p).guards.length := by rw [hp.count, hg.count]
          rw [hc, List.getElem?_append_right (Nat.le_refl _), Nat.sub_self]
          simp only [List.getElem?_cons_zero, Option.some.injEq]
          rw [hh]

/-- **C01, without a bound on the length of the history.** Each attach takes the place after the newest live attachment. As long as no attach finds the newest live attachment
in place 65534, the current context is the newest attachment still alive, or the base context. -/
theorem current_while_room (base : α) (ops : List (Op α)) (h : ∀ pre cx post, ops = pre ++ .attach cx :: post → (Spec.places pre).height < 65534) :
    ((Sys.init base).run ops).current = (Spec.run (fun _ => true) ops).current base := by
  obtain ⟨⟨g, hg⟩, _⟩ := places_run base ops h
  exact current_eq hg

/-- Nested use: `n` times a context that is attached and dropped. -/
def nestedUse : Nat → List (Op Nat)
  | 0 => []
  | n + 1 => nestedUse n ++ [.attach 7, .drop n]

theorem nestedUse_places (n : Nat) : Spec.places (nestedUse n) = ⟨[], n⟩ := by
  induction n with
  | zero => rfl
  | succ n ih =>
    have : Spec.places (nestedUse (n + 1)) = ((Spec.places (nestedUse n)).step (.attach 7 : Op Nat)).step (.drop n : Op Nat) := by simp [nestedUse, Spec.places]
    rw [this, ih]; simp [Spec.Places.step]

/-- Any number of attachments one after the other. -/
example (n : Nat) : ∀ pre cx post, nestedUse n = pre ++ .attach cx :: post → (Spec.places pre).height < 65534 := by
  induction n with
  | zero => intro pre cx post h; cases pre <;> cases h
  | succ n ih =>
    intro pre cx post h
    rw [nestedUse] at h
    rcases List.append_eq_append_iff.1 h with ⟨m, hm1, hm2⟩ | ⟨m, hm1, hm2⟩
    · match m, hm2 with
      | [], _ => rw [hm1, List.append_nil, nestedUse_places]; simp [Spec.Places.height]
      | [.attach a], hm2 => simp at hm2
      | .attach a :: .drop b :: m, hm2 => simp at hm2
      | .drop b :: m, hm2 => simp at hm2
      | .attach a :: .attach b :: m, hm2 => simp at hm2
    · cases m with
      | nil => rw [List.append_nil] at hm1; rw [← hm1, nestedUse_places]; simp [Spec.Places.height]
      | cons o m =>
        obtain ⟨h1, h2⟩ := List.cons.inj hm2
        exact ih pre cx m (by rw [hm1, h1])

/-- A guard that is replaced: `guard = cx.attach()`, where the new context is attached before the old guard is dropped. -/
def rebinding : Nat → List (Op Nat)
  | 0 => [.attach 0]
  | n + 1 => rebinding n ++ [.attach (n + 1), .drop n]

theorem rebinding_places (n : Nat) : Spec.places (rebinding n) = ⟨[(n, n + 1)], n + 1⟩ := by
  induction n with
  | zero => rfl
  | succ n ih =>
    have : Spec.places (rebinding (n + 1)) = ((Spec.places (rebinding n)).step (.attach (n + 1) : Op Nat)).step (.drop n : Op Nat) := by simp [rebinding, Spec.places]
    rw [this, ih]
    simp [Spec.Places.step, Spec.Places.height]

theorem rebinding_room (n : Nat) (hn : n ≤ 65533) : ∀ pre cx post, rebinding n = pre ++ .attach cx :: post → (Spec.places pre).height < 65534 := by
  induction n with
  | zero =>
    intro pre cx post h
    cases pre with
    | nil => simp [Spec.places, Spec.Places.height]
    | cons o pre => simp [rebinding] at h
  | succ n ih =>
    intro pre cx post h
    rw [rebinding] at h
    have hat : (Spec.places (rebinding n)).height < 65534 := by rw [rebinding_places]; simp [Spec.Places.height]; omega
    rcases List.append_eq_append_iff.1 h with ⟨m, hm1, hm2⟩ | ⟨m, hm1, hm2⟩
    · match m, hm2 with
      | [], _ => rw [hm1, List.append_nil]; exact hat
      | [.attach a], hm2 => simp at hm2
      | .attach a :: .drop b :: m, hm2 => simp at hm2
      | .drop b :: m, hm2 => simp at hm2
      | .attach a :: .attach b :: m, hm2 => simp at hm2
    · cases m with
      | nil => rw [List.append_nil] at hm1; rw [← hm1]; exact hat
      | cons o m =>
        obtain ⟨h1, h2⟩ := List.cons.inj hm2
        exact ih (by omega) pre cx m (by rw [hm1, h1])

theorem rebinding_full (N : Nat) (hN : N = 65533) : (Spec.run (fun _ => true) (rebinding N)).live = [(N, N)] ∧
    (((Sys.init 0).run (rebinding N)).st.push 9).2 = 65535 ∧
    ((Sys.init 0).run (rebinding N ++ [.attach 9])).current = N ∧ (Spec.run (fun _ => true) (rebinding N ++ [.attach 9])).current 0 = 9 := by
  have hlive : ∀ n, Spec.run (fun _ => true) (rebinding n) = ⟨[(n, n)], n + 1⟩ := by
    intro n
    induction n with
    | zero => rfl
    | succ n ih =>
      have : Spec.run (fun _ => true) (rebinding (n + 1)) =
          Spec.step (fun _ => true) (Spec.step (fun _ => true) (Spec.run (fun _ => true) (rebinding n)) (.attach (n + 1))) (.drop n) := by simp [rebinding, Spec.run]
      rw [this, ih]
      simp [Spec.step]
  obtain ⟨⟨g, hg⟩, hp⟩ := places_run 0 (rebinding N) (rebinding_room N (by omega))
  have hlen : ((Sys.init 0).run (rebinding N)).st.stack.length = 65534 := by
    rw [← places_height hg hp, rebinding_places]; simp [Spec.Places.height, hN]
  have hcur : ((Sys.init 0).run (rebinding N)).st.cur = N := by
    have := current_eq hg
    rw [hlive] at this; exact this
  have hpush : ((Sys.init 0).run (rebinding N)).st.push 9 = (((Sys.init 0).run (rebinding N)).st, maxPos) := by
    have hroom : ¬ ((Sys.init 0).run (rebinding N)).st.stack.length + 1 < maxPos := by rw [hlen]; decide
    simp only [Stack.push, hroom, if_false]
  refine ⟨by rw [hlive], by rw [hpush]; rfl, ?_, ?_⟩
  · rw [Sys.run_append]
    show (((Sys.init 0).run (rebinding N)).st.push 9).1.cur = N
    rw [hpush]; exact hcur
  · rw [Spec.run_snoc, hlive]; rfl

/-- **C01 (finding).** Dropped guards below a live one keep their places, so an attach can be refused although a single context is attached: a guard that is replaced 65533 times
by `guard = cx.attach()` fills the stack. The next such attach has no effect: the current context stays the old one, not the newest one. -/
theorem rebinding_refused_violated : (Spec.run (fun _ => true) (rebinding 65533)).live = [(65533, 65533)] ∧
    (((Sys.init 0).run (rebinding 65533)).st.push 9).2 = 65535 ∧
    ((Sys.init 0).run (rebinding 65533 ++ [.attach 9])).current = 65533 ∧ (Spec.run (fun _ => true) (rebinding 65533 ++ [.attach 9])).current 0 = 9 :=
  rebinding_full 65533 rfl

/-- **C02 (a).** For every history whatsoever, including those that overflow the stack: let `accepted k` say whether the
`k`-th attach got a position in the stack. Then the current context is the newest accepted attachment still alive:
refused attaches and the drops of their guards have no effect, now or later. -/
theorem current_with_overflow (base : α) (ops : List (Op α)) (accepted : Nat → Bool)
    (hacc : ∀ pre cx post, ops = pre ++ .attach cx :: post →
      (accepted (Spec.attaches pre) = true ↔ (((Sys.init base).run pre).st.push cx).2 ≠ 65535)) :
    ((Sys.init base).run ops).current = (Spec.run accepted ops).current base := by
  obtain ⟨g, hg⟩ := inv_run base ops accepted hacc
  exact current_eq hg

/-- **C02 (a'), unconditional form.** -/
theorem current_with_overflow' (base : α) (ops : List (Op α)) :
    ((Sys.init base).run ops).current = (Spec.run (acceptedOf base ops) ops).current base :=
  current_with_overflow base ops _ (acceptedOf_spec base ops)

/-- **C02 (b).** A refused attach changes nothing, and dropping its guard changes nothing. -/
theorem refused_attach_noop (s : Stack α) (cx : α) (h : (s.push cx).2 = 65535) (hs : s.stack.length < 65535) :
    (s.push cx).1 = s ∧ ∀ t : Stack α, t.dropGuard (s.push cx).2 = t := by
  by_cases hroom : s.stack.length + 1 < maxPos
  · exfalso
    simp only [Stack.push, hroom, if_true] at h
    unfold maxPos at hroom; omega
  · refine ⟨by simp [Stack.push, hroom], fun t => ?_⟩
    rw [h]; simp [Stack.dropGuard, maxPos]

/-- **C02 (c).** An attach is refused only when the stack holds 65534 entries; in every reachable state the number of
entries is at most 65534, and at most the number of attaches so far. -/
theorem refused_only_when_full (base : α) (ops : List (Op α)) (cx : α) :
    ((((Sys.init base).run ops).st.push cx).2 = 65535 ↔ ((Sys.init base).run ops).st.stack.length = 65534) ∧
    ((Sys.init base).run ops).st.stack.length ≤ 65534 ∧
    ((Sys.init base).run ops).st.stack.length ≤ Spec.attaches ops := by
  obtain ⟨g, hg⟩ := inv_run base ops (acceptedOf base ops) (acceptedOf_spec base ops)
  have h1 := hg.stack_length
  have h2 := hg.small
  have h3 := hg.le_count
  rw [Spec.count_eq] at h3
  unfold maxPos at h2
  refine ⟨?_, by omega, by omega⟩
  by_cases hroom : ((Sys.init base).run ops).st.stack.length + 1 < maxPos
  · simp only [Stack.push, hroom, if_true]
    unfold maxPos at hroom; omega
  · simp only [Stack.push, hroom, if_false]
    unfold maxPos at *; simp; omega

/-- Non-vacuity of C02: the stack really fills up. -/
theorem stack_fills (n : Nat) (hn : n ≤ 65534) :
    ((Sys.init 0).run (List.replicate n (Op.attach 1))).st.stack.length = n := by
  induction n with
  | zero => simp [Sys.run, Sys.init, Stack.init]
  | succ n ih =>
    have := ih (by omega)
    rw [List.replicate_succ', Sys.run_append]
    have hroom : ((Sys.init 0).run (List.replicate n (Op.attach 1))).st.stack.length + 1 < maxPos := by
      unfold maxPos; omega
    simp [Sys.run, Sys.step, Stack.push] at *
    rw [if_pos hroom]; simp [this]

example : ((((Sys.init 0).run (List.replicate 65534 (Op.attach 1))).st.push 7).2 = 65535) := by
  rw [(refused_only_when_full 0 _ 7).1]; exact stack_fills 65534 (by omega)

end Otel.Ctx
