import Verif.Context.StackSpec
import Mathlib.Data.List.Induction
import Mathlib.Data.List.Infix
/-! Lemmas for the context stack refinement. -/

namespace Otel.Ctx

variable {α : Type}

theorem shrink_append_none (l : List (Option α)) : shrink (l ++ [none]) = shrink l := by
  simp [shrink]

theorem shrink_append_some (l : List (Option α)) (c : α) : shrink (l ++ [some c]) = l ++ [some c] := by
  simp [shrink]

/-- Ghost slots: slot `i` (0-based) belongs to the guard with position `i+1`. -/
abbrev Slots (α : Type) := List (Option (Nat × α))

def slotCtx (g : Slots α) : List (Option α) := g.map (fun o => o.map Prod.snd)

theorem slotCtx_append (g h : Slots α) : slotCtx (g ++ h) = slotCtx g ++ slotCtx h := by
  simp [slotCtx]

/-- Strip trailing holes. -/
def strip (g : Slots α) : Slots α := (g.reverse.dropWhile (fun o => o.isNone)).reverse

theorem strip_append_none (g : Slots α) : strip (g ++ [none]) = strip g := by simp [strip]
theorem strip_append_some (g : Slots α) (e) : strip (g ++ [some e]) = g ++ [some e] := by simp [strip]

theorem strip_prefix (g : Slots α) : ∃ n, g = strip g ++ List.replicate n none := by
  induction g using List.reverseRecOn with
  | nil => exact ⟨0, by simp [strip]⟩
  | append_singleton g o ih =>
    cases o with
    | none =>
      obtain ⟨n, hn⟩ := ih
      refine ⟨n+1, ?_⟩
      rw [strip_append_none, List.replicate_succ', ← List.append_assoc, ← hn]
    | some e => exact ⟨0, by rw [strip_append_some]; simp⟩

theorem strip_last (g : Slots α) : strip g = [] ∨ ∃ g' e, strip g = g' ++ [some e] := by
  induction g using List.reverseRecOn with
  | nil => left; simp [strip]
  | append_singleton g o ih =>
    cases o with
    | none => rw [strip_append_none]; exact ih
    | some e => right; exact ⟨g, e, strip_append_some g e⟩

theorem shrink_base (base : α) (g : Slots α) :
    shrink (some base :: slotCtx g) = some base :: slotCtx (strip g) := by
  induction g using List.reverseRecOn with
  | nil => simp [slotCtx, strip, shrink]
  | append_singleton g o ih =>
    cases o with
    | none =>
      rw [slotCtx_append, strip_append_none, ← ih]
      show shrink ((some base :: slotCtx g) ++ [none]) = _
      rw [shrink_append_none]
    | some e =>
      rw [slotCtx_append, strip_append_some, slotCtx_append]
      exact shrink_append_some (some base :: slotCtx g) e.2

/-- The simulation relation between the code, the specification and the ghost slots. -/
structure Inv (base : α) (s : Sys α) (sp : Spec.State α) (g : Slots α) : Prop where
  slots : some base :: slotCtx g = s.st.stack ++ [some s.st.cur]
  small : g.length < maxPos
  le_count : g.length ≤ sp.count
  live : sp.live = g.filterMap id
  count : sp.count = s.guards.length
  guard : ∀ k p, s.guards[k]? = some (some p) →
    p = maxPos ∨ (1 ≤ p ∧ ∃ c, g[p-1]? = some (some (k, c)))
  slot : ∀ i k c, g[i]? = some (some (k, c)) → s.guards[k]? = some (some (i+1))

theorem Inv.stack_length {base : α} {s : Sys α} {sp g} (h : Inv base s sp g) :
    s.st.stack.length = g.length := by
  have := congrArg List.length h.slots
  simp [slotCtx] at this
  omega

theorem inv_init (base : α) : Inv base (Sys.init base) Spec.init ([] : Slots α) where
  slots := by simp [slotCtx, Sys.init, Stack.init]
  small := by simp [maxPos]
  le_count := by simp
  live := by simp [Spec.init]
  count := by simp [Spec.init, Sys.init]
  guard := by simp [Sys.init]
  slot := by simp

theorem current_eq {base : α} {s : Sys α} {sp g} (h : Inv base s sp g) :
    s.current = sp.current base := by
  have hs := h.slots
  unfold Sys.current Spec.State.current
  rw [h.live]
  rcases List.eq_nil_or_concat g with rfl | ⟨g', o, rfl⟩
  · simp only [slotCtx, List.map_nil] at hs
    have : s.st.stack = [] := by
      have := congrArg List.length hs
      simp at this; simpa using this
    rw [this] at hs
    simp at hs
    simp [hs]
  · rw [List.concat_eq_append] at *
    rw [slotCtx_append, ← List.cons_append] at hs
    have h2 := (List.append_inj' hs (by simp [slotCtx])).2
    cases o with
    | none => simp [slotCtx] at h2
    | some e =>
      simp [slotCtx] at h2
      simp [List.filterMap_append, h2]

theorem inv_attach {base : α} {s : Sys α} {sp : Spec.State α} {g : Slots α} (h : Inv base s sp g)
    (acc : Nat → Bool) (cx : α) (hacc : acc sp.count = true ↔ (s.st.push cx).2 ≠ maxPos) :
    ∃ g', Inv base (s.step (.attach cx)) (Spec.step acc sp (.attach cx)) g' := by
  have hl := h.stack_length
  by_cases hroom : s.st.stack.length + 1 < maxPos
  · have hmod : (s.st.stack.length + 1) % 65536 = s.st.stack.length + 1 := by
      unfold maxPos at hroom; omega
    have hp : s.st.push cx = ({ cur := cx, stack := s.st.stack ++ [some s.st.cur] }, s.st.stack.length + 1) := by
      simp [Stack.push, hroom, hmod]
    have hb : acc sp.count = true := by
      rw [hacc, hp]; simp; unfold maxPos at hroom ⊢; omega
    refine ⟨g ++ [some (sp.count, cx)], ?_⟩
    constructor
    · simp [Sys.step, hp, ← h.slots, slotCtx]
    · simp; omega
    · simp [Spec.step]; exact h.le_count
    · simp [Spec.step, hb, h.live, List.filterMap_append]
    · simp [Sys.step, hp, Spec.step, h.count]
    · intro k p hk
      simp only [Sys.step, hp] at hk
      rw [List.getElem?_append] at hk
      split at hk
      · rcases h.guard k p hk with h1 | ⟨h1, c, hc⟩
        · exact Or.inl h1
        · right; refine ⟨h1, c, ?_⟩
          rw [List.getElem?_append_left]; exact hc
          have := (List.getElem?_eq_some_iff.mp hc).1; exact this
      · rename_i hk2
        right
        have hkk : k = s.guards.length := by
          have := (List.getElem?_eq_some_iff.mp hk).1
          simp at this; omega
        subst hkk
        simp at hk
        subst hk
        refine ⟨by omega, cx, ?_⟩
        simp [hl, h.count]
    · intro i k c hi
      simp only [Sys.step, hp]
      rw [List.getElem?_append] at hi
      split at hi
      · have := h.slot i k c hi
        rw [List.getElem?_append_left]; exact this
        exact (List.getElem?_eq_some_iff.mp this).1
      · rename_i hi2
        have hii : i = g.length := by
          have := (List.getElem?_eq_some_iff.mp hi).1
          simp at this; omega
        subst hii
        simp at hi
        obtain ⟨rfl, rfl⟩ := hi
        rw [h.count]; simp [hl]
  · have hp : s.st.push cx = (s.st, maxPos) := by simp [Stack.push, hroom]
    have hb : acc sp.count = false := by
      rw [hp] at hacc; simp at hacc; simpa using hacc
    refine ⟨g, ?_⟩
    constructor
    · simp [Sys.step, hp, h.slots]
    · exact h.small
    · simp [Spec.step]; have := h.le_count; omega
    · simp [Spec.step, hb, h.live]
    · simp [Sys.step, hp, Spec.step, h.count]
    · intro k p hk
      simp only [Sys.step, hp] at hk
      rw [List.getElem?_append] at hk
      split at hk
      · exact h.guard k p hk
      · left
        have hkk : k - s.guards.length = 0 := by
          have := (List.getElem?_eq_some_iff.mp hk).1
          simp at this; omega
        rw [hkk] at hk
        simp at hk; exact hk.symm
    · intro i k c hi
      have := h.slot i k c hi
      simp only [Sys.step, hp]
      rw [List.getElem?_append_left]; exact this
      exact (List.getElem?_eq_some_iff.mp this).1

theorem filterMap_replicate_none (n : Nat) :
    (List.replicate n (none : Option (Nat × α))).filterMap id = [] := by
  induction n with
  | zero => rfl
  | succ n ih => rw [List.replicate_succ, List.filterMap_cons_none rfl, ih]

/-- All entries whose serial is not `k` survive. -/
theorem filter_ne_of_forall (l : List (Nat × α)) (k : Nat) (h : ∀ e ∈ l, e.1 ≠ k) :
    l.filter (fun e => e.1 != k) = l := by
  rw [List.filter_eq_self]
  intro e he; simpa using h e he

theorem inv_drop {base : α} {s : Sys α} {sp : Spec.State α} {g : Slots α} (h : Inv base s sp g)
    (acc : Nat → Bool) (k : Nat) :
    ∃ g', Inv base (s.step (.drop k)) (Spec.step acc sp (.drop k)) g' := by
  have hl := h.stack_length
  have huniq : ∀ (i j : Nat) (c c' : α), g[i]? = some (some (k, c)) → g[j]? = some (some (k, c')) → i = j := by
    intro i j c c' hi hj
    have h1 := h.slot i k c hi
    have h2 := h.slot j k c' hj
    rw [h1] at h2; simpa using h2
  -- a dropped or missing guard: nothing alive carries serial k
  have hnone : (∀ (i : Nat) (c : α), g[i]? ≠ some (some (k, c))) → sp.live.filter (fun e => e.1 != k) = sp.live := by
    intro hn
    apply filter_ne_of_forall
    intro e he hek
    rw [h.live, List.mem_filterMap] at he
    obtain ⟨o, ho, hoe⟩ := he
    simp at hoe; subst hoe
    obtain ⟨i, hi⟩ := List.mem_iff_getElem?.mp ho
    refine hn i e.2 ?_
    rw [hi]; cases e; simp_all
  rcases hg : s.guards[k]? with _ | (_ | p)
  · refine ⟨g, ?_⟩
    have hstep : s.step (.drop k) = s := by simp [Sys.step, hg]
    rw [hstep]
    have := hnone (by intro i c hi; have := h.slot i k c hi; simp_all)
    exact { slots := h.slots, small := h.small, le_count := h.le_count, live := by show sp.live.filter _ = _; rw [this, h.live],
            count := h.count, guard := h.guard, slot := h.slot }
  · refine ⟨g, ?_⟩
    have hstep : s.step (.drop k) = s := by simp [Sys.step, hg]
    rw [hstep]
    have := hnone (by intro i c hi; have := h.slot i k c hi; simp_all)
    exact { slots := h.slots, small := h.small, le_count := h.le_count, live := by show sp.live.filter _ = _; rw [this, h.live],
            count := h.count, guard := h.guard, slot := h.slot }
  · have hstep : s.step (.drop k) = { st := s.st.dropGuard p, guards := s.guards.set k none } := by
      simp [Sys.step, hg]
    rw [hstep]
    have hklt : k < s.guards.length := (List.getElem?_eq_some_iff.mp hg).1
    rcases h.guard k p hg with hpm | ⟨hp1, c, hpc⟩
    · -- guard of a rejected attach
      subst hpm
      have hn : ∀ (i : Nat) (c : α), g[i]? ≠ some (some (k, c)) := by
        intro i c hi
        have h1 := h.slot i k c hi
        rw [hg] at h1; simp at h1
        have := (List.getElem?_eq_some_iff.mp hi).1
        have := h.small
        omega
      have hd : s.st.dropGuard maxPos = s.st := by simp [Stack.dropGuard]
      rw [hd]
      refine ⟨g, ?_⟩
      exact { slots := h.slots, small := h.small, le_count := h.le_count, live := by show sp.live.filter _ = _; rw [hnone hn, h.live],
              count := by simp [Spec.step, h.count],
              guard := by
                intro k' p' hk'
                simp only [List.getElem?_set] at hk'
                split at hk'
                · simp at hk'
                · exact h.guard k' p' hk'
              slot := by
                intro i k' c hi
                have hne : k ≠ k' := by rintro rfl; exact hn i c hi
                simp only [List.getElem?_set, hne, if_false]
                exact h.slot i k' c hi }
    · have hplen : p - 1 < g.length := (List.getElem?_eq_some_iff.mp hpc).1
      have hsmall := h.small
      have hmod : s.st.stack.length % 65536 = g.length := by
        rw [hl]; unfold maxPos at hsmall; omega
      have hpne : ¬ (p = 0 ∨ p = maxPos) := by omega
      have hguard : p > 0 ∧ p < maxPos := by omega
      by_cases htop : p = g.length
      · -- dropping the newest attachment
        obtain ⟨g0, rfl⟩ : ∃ g0, g = g0 ++ [some (k, c)] := by
          rcases List.eq_nil_or_concat g with rfl | ⟨g', o, rfl⟩
          · simp at hplen
          · refine ⟨g', ?_⟩
            simp only [List.concat_eq_append] at *
            have : p - 1 = g'.length := by simp at htop; omega
            rw [this] at hpc
            simp at hpc
            rw [hpc]
        have hs := h.slots
        rw [slotCtx_append, ← List.cons_append] at hs
        have hs2 := List.append_inj' hs (by simp [slotCtx])
        have hnk : ∀ e ∈ g0.filterMap id, e.1 ≠ k := by
          intro e he hek
          rw [List.mem_filterMap] at he
          obtain ⟨o, ho, hoe⟩ := he
          simp at hoe; subst hoe
          obtain ⟨i, hi⟩ := List.mem_iff_getElem?.mp ho
          have hilt := (List.getElem?_eq_some_iff.mp hi).1
          have := huniq i (p-1) e.2 c (by rw [List.getElem?_append_left hilt, hi]; cases e; simp_all) hpc
          simp at htop; omega
        have hlive : sp.live.filter (fun e => e.1 != k) = (strip g0).filterMap id := by
          rw [h.live, List.filterMap_append, List.filter_append, filter_ne_of_forall _ _ hnk]
          obtain ⟨n, hn⟩ := strip_prefix g0
          conv_lhs => rw [hn]
          rw [List.filterMap_append, filterMap_replicate_none]
          simp
        have hpre : ∀ (i : Nat) (e : Nat × α), (strip g0)[i]? = some (some e) → g0[i]? = some (some e) := by
          intro i e hi
          obtain ⟨n, hn⟩ := strip_prefix g0
          rw [hn, List.getElem?_append_left (List.getElem?_eq_some_iff.mp hi).1]; exact hi
        have hpost : ∀ (i : Nat) (e : Nat × α), g0[i]? = some (some e) → (strip g0)[i]? = some (some e) := by
          intro i e hi
          obtain ⟨n, hn⟩ := strip_prefix g0
          rw [hn, List.getElem?_append] at hi
          split at hi
          · exact hi
          · rw [List.getElem?_replicate] at hi
            split at hi <;> simp at hi
        have hslen : (strip g0).length ≤ g0.length := by
          obtain ⟨n, hn⟩ := strip_prefix g0
          have := congrArg List.length hn
          simp at this; omega
        have hshrink : shrink s.st.stack = some base :: slotCtx (strip g0) := by
          rw [← hs2.1, shrink_base]
        have hpop : some base :: slotCtx (strip g0) =
            (s.st.dropGuard p).stack ++ [some (s.st.dropGuard p).cur] := by
          rw [Stack.dropGuard, if_pos hguard, Stack.popId, if_neg hpne]
          dsimp only
          rw [hmod, if_pos htop, hshrink]
          rcases strip_last g0 with hsl | ⟨g', e, hsl⟩
          · simp [hsl, slotCtx]
          · rw [hsl, slotCtx_append, ← List.cons_append]
            have hx : slotCtx [some e] = [some e.2] := rfl
            rw [hx, List.getLast?_concat, List.dropLast_concat]
        refine ⟨strip g0, ?_⟩
        refine { slots := hpop, small := ?_, le_count := ?_, live := by simpa [Spec.step] using hlive,
                 count := by simp [Spec.step, h.count], guard := ?_, slot := ?_ }
        · simp at hsmall; omega
        · have := h.le_count; simp at this; simp [Spec.step]; omega
        · intro k' p' hk'
          simp only [List.getElem?_set] at hk'
          split at hk'
          · simp at hk'
          · rename_i hne
            rcases h.guard k' p' hk' with h1 | ⟨h1, c', hc'⟩
            · exact Or.inl h1
            · right
              refine ⟨h1, c', hpost _ _ ?_⟩
              rw [List.getElem?_append] at hc'
              split at hc'
              · exact hc'
              · have : p' - 1 - g0.length = 0 := by
                  have := (List.getElem?_eq_some_iff.mp hc').1; simp at this; omega
                rw [this] at hc'; simp at hc'; omega
        · intro i k' c' hi
          have hi0 := hpre i (k', c') hi
          have hilt := (List.getElem?_eq_some_iff.mp hi0).1
          have hi1 : (g0 ++ [some (k, c)])[i]? = some (some (k', c')) := by
            rw [List.getElem?_append_left hilt]; exact hi0
          have hne : k ≠ k' := by
            rintro rfl
            have := huniq i (p-1) c' c hi1 hpc
            simp at htop; omega
          simp only [List.getElem?_set, hne, if_false]
          exact h.slot i k' c' hi1
      · -- out of order drop
        have hplt : p < g.length := by omega
        have hstp : s.st.dropGuard p = { s.st with stack := s.st.stack.set p none } := by
          rw [Stack.dropGuard, if_pos hguard, Stack.popId, if_neg hpne]
          dsimp only
          rw [hmod, if_neg htop, if_neg (by omega)]
        have hsc : slotCtx (g.set (p-1) none) = (slotCtx g).set (p-1) none := by
          simp [slotCtx, List.map_set]
        have hlive : sp.live.filter (fun e => e.1 != k) = (g.set (p-1) none).filterMap id := by
          obtain ⟨a, b, rfl, ha⟩ : ∃ a b, g = a ++ some (k, c) :: b ∧ a.length = p - 1 := by
            refine ⟨g.take (p-1), g.drop p, ?_, by simp; omega⟩
            have h1 := List.getElem?_eq_some_iff.mp hpc
            have h2 : g.drop (p-1) = g[p-1] :: g.drop (p-1+1) := List.drop_eq_getElem_cons hplen
            rw [h1.2, show p - 1 + 1 = p by omega] at h2
            rw [← h2, List.take_append_drop]
          rw [h.live, ← ha, List.set_append_right _ _ (by omega)]
          simp only [Nat.sub_self, List.set_cons_zero, List.filterMap_append, List.filter_append]
          have hna : ∀ e ∈ a.filterMap id, e.1 ≠ k := by
            intro e he hek
            rw [List.mem_filterMap] at he
            obtain ⟨o, ho, hoe⟩ := he
            simp at hoe; subst hoe
            obtain ⟨i, hi⟩ := List.mem_iff_getElem?.mp ho
            have hilt := (List.getElem?_eq_some_iff.mp hi).1
            have := huniq i (p-1) e.2 c (by rw [List.getElem?_append_left hilt, hi]; cases e; simp_all) hpc
            omega
          have hnb : ∀ e ∈ b.filterMap id, e.1 ≠ k := by
            intro e he hek
            rw [List.mem_filterMap] at he
            obtain ⟨o, ho, hoe⟩ := he
            simp at hoe; subst hoe
            obtain ⟨i, hi⟩ := List.mem_iff_getElem?.mp ho
            have := huniq (a.length + (i+1)) (p-1) e.2 c (by
              rw [List.getElem?_append_right (by omega)]
              simp [hi]; cases e; simp_all) hpc
            omega
          rw [filter_ne_of_forall _ _ hna]
          rw [List.filterMap_cons_some (by rfl : id (some (k, c)) = some (k, c)), List.filterMap_cons_none (by rfl),
            List.filter_cons_of_neg (by simp), filter_ne_of_forall _ _ hnb]
        refine ⟨g.set (p-1) none, ?_⟩
        rw [hstp]
        refine { slots := ?_, small := by simpa using hsmall, le_count := by simpa [Spec.step] using h.le_count,
                 live := by simpa [Spec.step] using hlive,
                 count := by simp [Spec.step, h.count], guard := ?_, slot := ?_ }
        · rw [hsc]
          have h1 : some base :: (slotCtx g).set (p-1) none = (some base :: slotCtx g).set p none := by
            obtain ⟨q, rfl⟩ : ∃ q, p = q + 1 := ⟨p - 1, by omega⟩
            simp
          rw [h1, h.slots, List.set_append_left _ _ (by omega)]
        · intro k' p' hk'
          simp only [List.getElem?_set] at hk'
          split at hk'
          · simp at hk'
          · rename_i hne
            rcases h.guard k' p' hk' with h1 | ⟨h1, c', hc'⟩
            · exact Or.inl h1
            · right
              refine ⟨h1, c', ?_⟩
              rw [List.getElem?_set_ne]; exact hc'
              intro heq
              rw [← heq, hpc] at hc'; simp at hc'; omega
        · intro i k' c' hi
          have hine : p - 1 ≠ i := by
            rintro rfl
            rw [List.getElem?_set_self hplen] at hi; simp at hi
          rw [List.getElem?_set_ne hine] at hi
          have hne : k ≠ k' := by
            rintro rfl
            exact hine (huniq i (p-1) c' c hi hpc).symm
          simp only [List.getElem?_set, hne, if_false]
          exact h.slot i k' c' hi

theorem Sys.run_append (s : Sys α) (a b : List (Op α)) : s.run (a ++ b) = (s.run a).run b := by
  simp [Sys.run]

theorem Spec.run_snoc (acc : Nat → Bool) (a : List (Op α)) (o : Op α) :
    Spec.run acc (a ++ [o]) = Spec.step acc (Spec.run acc a) o := by
  simp [Spec.run]

theorem Spec.count_eq (acc : Nat → Bool) (ops : List (Op α)) :
    (Spec.run acc ops).count = Spec.attaches ops := by
  induction ops using List.reverseRecOn with
  | nil => simp [Spec.run, Spec.init, Spec.attaches]
  | append_singleton ops o ih =>
    rw [Spec.run_snoc]
    cases o with
    | attach cx => simp [Spec.step, ih, Spec.attaches]
    | drop k => simp [Spec.step, ih, Spec.attaches]

/-- The simulation, lifted to every history. -/
theorem inv_run (base : α) (ops : List (Op α)) (acc : Nat → Bool)
    (hacc : ∀ pre cx post, ops = pre ++ .attach cx :: post →
      (acc (Spec.attaches pre) = true ↔ (((Sys.init base).run pre).st.push cx).2 ≠ maxPos)) :
    ∃ g, Inv base ((Sys.init base).run ops) (Spec.run acc ops) g := by
  induction ops using List.reverseRecOn with
  | nil => exact ⟨[], inv_init base⟩
  | append_singleton ops o ih =>
    obtain ⟨g, hg⟩ := ih (by
      intro pre cx post h
      exact hacc pre cx (post ++ [o]) (by rw [h]; simp))
    rw [Sys.run_append, Spec.run_snoc]
    cases o with
    | attach cx =>
      have := hacc ops cx [] (by simp)
      rw [← Spec.count_eq acc] at this
      exact inv_attach hg acc cx this
    | drop k => exact inv_drop hg acc k

/-- Whether the `k`-th attach of a history was accepted, read off the run: such a function always exists, so the
hypothesis of `current_with_overflow` can be met for every history. -/
def acceptedOf (base : α) (ops : List (Op α)) (k : Nat) : Bool :=
  (ops.inits.any fun p =>
    match p.getLast? with
    | some (.attach cx) =>
      Spec.attaches p.dropLast == k && (((Sys.init base).run p.dropLast).st.push cx).2 != 65535
    | _ => false)

theorem attaches_append (a b : List (Op α)) : Spec.attaches (a ++ b) = Spec.attaches a + Spec.attaches b := by
  simp [Spec.attaches]

theorem acceptedOf_spec (base : α) (ops : List (Op α)) (pre : List (Op α)) (cx : α) (post : List (Op α))
    (hpre : ops = pre ++ .attach cx :: post) :
    acceptedOf base ops (Spec.attaches pre) = true ↔ (((Sys.init base).run pre).st.push cx).2 ≠ 65535 := by
  constructor
  · intro h
    rw [acceptedOf, List.any_eq_true] at h
    obtain ⟨p, hp, hm⟩ := h
    rw [List.mem_inits] at hp
    obtain ⟨q, hq⟩ := hp
    rcases List.eq_nil_or_concat p with rfl | ⟨p0, o, rfl⟩
    · simp at hm
    · rw [List.concat_eq_append] at *
      cases o with
      | drop k => simp at hm
      | attach c =>
        simp only [List.getLast?_concat, List.dropLast_concat, Bool.and_eq_true, beq_iff_eq, bne_iff_ne] at hm
        -- p0 and pre are prefixes followed by an attach with the same number of attaches: they coincide
        have hpp : p0 ++ (Op.attach c :: q) = pre ++ Op.attach cx :: post := by
          rw [← hpre, ← hq]; simp
        have : p0 = pre ∧ c = cx := by
          rcases List.append_eq_append_iff.mp hpp with ⟨as, h1, h2⟩ | ⟨bs, h1, h2⟩
          · cases as with
            | nil => simp at h1 h2; exact ⟨h1.symm, h2.1⟩
            | cons a as =>
              simp at h2
              have hc := hm.1
              rw [h1, attaches_append, ← h2.1] at hc
              simp [Spec.attaches] at hc
          · cases bs with
            | nil => simp at h1 h2; exact ⟨h1, h2.1.symm⟩
            | cons a as =>
              simp at h2
              have hc := hm.1
              rw [h1, attaches_append, ← h2.1] at hc
              simp [Spec.attaches] at hc
        obtain ⟨rfl, rfl⟩ := this
        exact hm.2
  · intro h
    rw [acceptedOf, List.any_eq_true]
    refine ⟨pre ++ [.attach cx], ?_, ?_⟩
    · rw [List.mem_inits]; exact ⟨post, by rw [hpre]; simp⟩
    · simp only [List.getLast?_concat, List.dropLast_concat, Bool.and_eq_true, beq_iff_eq, bne_iff_ne, true_and]
      exact h

end Otel.Ctx
