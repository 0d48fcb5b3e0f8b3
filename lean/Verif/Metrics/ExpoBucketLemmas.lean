import Mathlib.Algebra.BigOperators.Group.Finset.Basic
import Mathlib.Algebra.BigOperators.Intervals
import Verif.Metrics.ExpoLemmas
/-! Lemmas about the bucket arrays of exponential histograms: what `record`, `downscale` and `scale_change` do to them. -/

namespace Otel.Metrics.Expo

/-- The array `b` counts the indices `l`. -/
structure Rep (b : Buckets) (l : List Int) : Prop where
  nil : b.counts = [] ↔ l = []
  first : l ≠ [] → b.startBin ∈ l
  last : l ≠ [] → b.startBin + b.counts.length - 1 ∈ l
  range : ∀ x ∈ l, b.startBin ≤ x ∧ x ≤ b.startBin + b.counts.length - 1
  count : ∀ i, b.at i = l.count i

theorem Rep.empty : Rep .empty [] := by
  constructor <;> simp [Buckets.empty, Buckets.at]

theorem Rep.length_pos {b : Buckets} {l : List Int} (h : Rep b l) (hl : l ≠ []) : 0 < b.counts.length := by
  rcases Nat.eq_zero_or_pos b.counts.length with h0 | h0
  · exact absurd (h.nil.1 (List.length_eq_zero_iff.1 h0)) hl
  · exact h0

theorem sub32_ok {chk : Bool} {a b : Int} (h : 0 ≤ a - b) (h' : a - b < 2 ^ 31) : sub32 chk a b = some (a - b) := by
  unfold sub32; rw [if_pos ⟨by omega, h'⟩]

/-- The range an array covers after `bin` is recorded. -/
def newLow (b : Buckets) (bin : Int) : Int := min b.startBin bin
def newHigh (b : Buckets) (bin : Int) : Int := max (b.startBin + b.counts.length - 1) bin

theorem record_rep (chk : Bool) (b : Buckets) (l : List Int) (bin : Int) (h : Rep b l)
    (hfit : l ≠ [] → newHigh b bin - newLow b bin < 2 ^ 31) :
    ∃ b', b.record chk bin = some b' ∧ Rep b' (bin :: l) ∧
      ((l = [] ∧ b'.counts.length = 1) ∨ (l ≠ [] ∧ (b'.counts.length : Int) = newHigh b bin - newLow b bin + 1)) := by
  by_cases hl : l = []
  · subst hl
    refine ⟨⟨bin, [1]⟩, by unfold Buckets.record; rw [if_pos (h.nil.2 rfl)], ?_, Or.inl ⟨rfl, rfl⟩⟩
    constructor
    · simp
    · simp
    · simp
    · simp
    · intro i
      simp only [Buckets.at, List.count_cons, List.count_nil]
      by_cases hi : bin = i
      · subst hi; simp
      · rw [if_neg (show ¬ (bin == i) = true by simpa using hi)]
        by_cases hle : bin ≤ i
        · rw [if_pos hle]
          have : (i - bin).toNat ≠ 0 := by omega
          obtain ⟨k, hk⟩ := Nat.exists_eq_succ_of_ne_zero this
          rw [hk]; rfl
        · rw [if_neg hle]
  · have hc : b.counts ≠ [] := fun e => hl (h.nil.1 e)
    have hpos := h.length_pos hl
    have hfit := hfit hl
    unfold newLow newHigh at *
    unfold Buckets.record
    rw [if_neg hc]
    dsimp only
    by_cases hin : b.startBin ≤ bin ∧ bin ≤ b.startBin + b.counts.length - 1
    · rw [if_pos hin]
      refine ⟨_, rfl, ?_, Or.inr ⟨hl, ?_⟩⟩
      · constructor
        · simp [hc]
        · intro _; exact List.mem_cons_of_mem _ (h.first hl)
        · intro _; simp only [List.length_modify]; exact List.mem_cons_of_mem _ (h.last hl)
        · intro x hx
          simp only [List.length_modify]
          rcases List.mem_cons.1 hx with rfl | hx
          · exact hin
          · exact h.range x hx
        · intro i
          rw [List.count_cons, ← h.count i]
          simp only [Buckets.at]
          by_cases hle : b.startBin ≤ i
          · rw [if_pos hle, if_pos hle]
            simp only [List.getD_eq_getElem?_getD, List.getElem?_modify]
            by_cases hi : bin = i
            · subst hi
              have : (bin - b.startBin).toNat < b.counts.length := by omega
              simp [this]
            · have hne : ¬ (bin - b.startBin).toNat = (i - b.startBin).toNat := by omega
              rw [if_neg (show ¬ (bin == i) = true by simpa using hi)]
              simp [hne]
          · rw [if_neg hle, if_neg hle, if_neg (by simp; omega)]
      · simp only [List.length_modify]; omega
    · rw [if_neg hin]
      by_cases hlt : bin < b.startBin
      · rw [if_pos hlt, sub32_ok (by omega) (by omega)]
        dsimp only
        rw [if_neg (by omega)]
        refine ⟨_, rfl, ?_, Or.inr ⟨hl, ?_⟩⟩
        · have hk : 0 < (b.startBin - bin).toNat := by omega
          constructor
          · simp [hc]
          · intro _; exact List.mem_cons_self
          · intro _
            simp only [List.length_set, List.length_append, List.length_replicate]
            refine List.mem_cons_of_mem _ ?_
            have := h.last hl
            have he : bin + (((b.startBin - bin).toNat + b.counts.length : Nat) : Int) - 1 = b.startBin + b.counts.length - 1 := by
              push_cast; omega
            rw [he]; exact this
          · intro x hx
            simp only [List.length_set, List.length_append, List.length_replicate]
            push_cast
            rcases List.mem_cons.1 hx with rfl | hx
            · omega
            · have := h.range x hx; omega
          · intro i
            rw [List.count_cons, ← h.count i]
            simp only [Buckets.at]
            by_cases hi : bin = i
            · subst hi
              have : (bin - bin).toNat = 0 := by omega
              rw [if_pos le_rfl, this, if_neg (by omega)]
              simp only [List.getD_eq_getElem?_getD]
              rw [List.getElem?_set_self (by simp; omega)]
              simp
            · rw [if_neg (show ¬ (bin == i) = true by simpa using hi)]
              by_cases hle : bin ≤ i
              · rw [if_pos hle]
                simp only [List.getD_eq_getElem?_getD]
                rw [List.getElem?_set_ne (by omega)]
                by_cases hle2 : b.startBin ≤ i
                · rw [if_pos hle2, List.getElem?_append_right (by simp; omega)]
                  simp only [List.length_replicate]
                  rw [show (i - bin).toNat - (b.startBin - bin).toNat = (i - b.startBin).toNat by omega]; simp
                · rw [if_neg hle2, List.getElem?_append_left (by simp; omega), List.getElem?_replicate]
                  split <;> rfl
              · rw [if_neg hle, if_neg (by omega)]
        · simp only [List.length_set, List.length_append, List.length_replicate]
          push_cast; omega
      · rw [if_neg hlt, sub32_ok (by omega) (by omega)]
        dsimp only
        rw [if_neg (by omega)]
        refine ⟨_, rfl, ?_, Or.inr ⟨hl, ?_⟩⟩
        · constructor
          · simp [hc]
          · intro _; exact List.mem_cons_of_mem _ (h.first hl)
          · intro _
            simp only [List.length_set, List.length_append, List.length_replicate]
            have he : b.startBin + ((b.counts.length + ((bin - b.startBin).toNat - b.counts.length + 1) : Nat) : Int) - 1 = bin := by
              push_cast; omega
            rw [he]; exact List.mem_cons_self
          · intro x hx
            simp only [List.length_set, List.length_append, List.length_replicate]
            push_cast
            rcases List.mem_cons.1 hx with rfl | hx
            · omega
            · have := h.range x hx; omega
          · intro i
            rw [List.count_cons, ← h.count i]
            simp only [Buckets.at]
            by_cases hle : b.startBin ≤ i
            · rw [if_pos hle, if_pos hle]
              simp only [List.getD_eq_getElem?_getD]
              by_cases hi : bin = i
              · subst hi
                rw [List.getElem?_set_self (by simp; omega)]
                rw [List.getElem?_eq_none (by omega)]
                simp
              · rw [if_neg (show ¬ (bin == i) = true by simpa using hi)]
                rw [List.getElem?_set_ne (by omega)]
                by_cases hin2 : (i - b.startBin).toNat < b.counts.length
                · rw [List.getElem?_append_left hin2]; simp
                · rw [List.getElem?_append_right (by omega), List.getElem?_replicate,
                    List.getElem?_eq_none (l := b.counts) (by omega)]
                  split <;> rfl
            · rw [if_neg hle, if_neg hle, if_neg (by simp; omega)]
        · simp only [List.length_set, List.length_append, List.length_replicate]
          push_cast; omega

open Finset in
theorem downscaleStep_inv (steps offset : Nat) (hoff : offset < steps) (c0 : List Nat) (n : Nat) (hn : n + 1 ≤ c0.length) :
    ((List.range' 1 n).foldl (downscaleStep steps offset) c0).length = c0.length ∧
    (∀ j, n < j → ((List.range' 1 n).foldl (downscaleStep steps offset) c0).getD j 0 = c0.getD j 0) ∧
    (∀ k, k ≤ (n + offset) / steps → ((List.range' 1 n).foldl (downscaleStep steps offset) c0).getD k 0 =
      ∑ j ∈ range (n + 1), if (j + offset) / steps = k then c0.getD j 0 else 0) := by
  have hs : 0 < steps := by omega
  induction n with
  | zero =>
    refine ⟨rfl, fun _ _ => rfl, fun k hk => ?_⟩
    have h0 : (0 + offset) / steps = 0 := Nat.div_eq_of_lt (by omega)
    have : k = 0 := by omega
    subst this
    simp only [zero_add, sum_range_one]
    rw [if_pos (Nat.div_eq_of_lt hoff)]; rfl
  | succ n ih =>
    obtain ⟨hlen, hrest, hsum⟩ := ih (by omega)
    rw [List.range'_concat, List.foldl_append]
    simp only [List.foldl_cons, List.foldl_nil, one_mul]
    generalize (List.range' 1 n).foldl (downscaleStep steps offset) c0 = cs at *
    have hidx : 1 + n + offset = (n + offset) + 1 := by omega
    have hdiv : (1 + n + offset) / steps ≤ n + 1 := by
      rw [Nat.div_le_iff_le_mul_add_pred hs]
      have : n + 1 ≤ steps * (n + 1) := Nat.le_mul_of_pos_left _ hs
      omega
    have hsd := Nat.succ_div (a := n + offset) (b := steps)
    have hmono : ∀ j, j ≤ n → (j + offset) / steps ≤ (n + offset) / steps := fun j hj => Nat.div_le_div_right (by omega)
    have hn1 : cs.getD (1 + n) 0 = c0.getD (n + 1) 0 := by rw [Nat.add_comm 1 n]; exact hrest _ (by omega)
    have heq : n + 1 + offset = (n + offset) + 1 := by omega
    unfold downscaleStep
    dsimp only
    rw [hn1, hidx] at *
    split
    · rename_i hm
      rw [if_pos (Nat.dvd_of_mod_eq_zero hm)] at hsd
      refine ⟨by simp [hlen], ?_, ?_⟩
      · intro j hj
        rw [← hrest j (by omega)]
        simp only [List.getD_eq_getElem?_getD]
        rw [List.getElem?_set_ne (by omega)]
      · intro k hk
        rw [sum_range_succ, heq]
        rw [heq] at hk
        simp only [List.getD_eq_getElem?_getD] at hsum ⊢
        by_cases hkK : (n + offset + 1) / steps = k
        · rw [if_pos hkK, hkK, List.getElem?_set_self (by omega)]
          have : ∑ j ∈ range (n + 1), (if (j + offset) / steps = k then c0[j]?.getD 0 else 0) = 0 := by
            apply sum_eq_zero
            intro j hj
            have := hmono j (by have := mem_range.1 hj; omega)
            rw [if_neg (by omega)]
          rw [this]; simp
        · rw [if_neg hkK, List.getElem?_set_ne hkK, hsum k (by omega)]; simp
    · rename_i hm
      rw [if_neg (fun hd => hm (Nat.mod_eq_zero_of_dvd hd))] at hsd
      refine ⟨by simp [hlen], ?_, ?_⟩
      · intro j hj
        rw [← hrest j (by omega)]
        simp only [List.getD_eq_getElem?_getD]
        rw [List.getElem?_set_ne (by omega)]
      · intro k hk
        rw [sum_range_succ, heq]
        rw [heq] at hk
        rw [← hsum k (by omega)]
        simp only [List.getD_eq_getElem?_getD] at hsum ⊢
        by_cases hkK : (n + offset + 1) / steps = k
        · rw [if_pos hkK, hkK, List.getElem?_set_self (by omega)]; simp
        · rw [if_neg hkK, List.getElem?_set_ne hkK]; simp

open Finset in
theorem count_map_eq (f : Int → Int) (k start : Int) (len : Nat) (l : List Int)
    (h : ∀ x ∈ l, start ≤ x ∧ x ≤ start + len - 1) :
    (l.map f).count k = ∑ j ∈ range len, if f (start + j) = k then l.count (start + j) else 0 := by
  induction l with
  | nil => simp
  | cons x l ih =>
    have hx := h x List.mem_cons_self
    rw [List.map_cons, List.count_cons, ih (fun y hy => h y (List.mem_cons_of_mem _ hy))]
    have hsplit : ∀ j : Nat, (if f (start + j) = k then (x :: l).count (start + j) else 0) =
        (if f (start + j) = k then l.count (start + j) else 0) + (if j = (x - start).toNat then (if f x = k then 1 else 0) else 0) := by
      intro j
      rw [List.count_cons]
      by_cases hj : j = (x - start).toNat
      · have : start + (j : Int) = x := by omega
        rw [this, if_pos hj]
        by_cases hf : f x = k <;> simp [hf]
      · have : ¬ (x == start + (j : Int)) = true := by simp; omega
        rw [if_neg this, if_neg hj]; simp
    rw [sum_congr rfl (fun j _ => hsplit j), sum_add_distrib, sum_ite_eq']
    rw [if_pos (mem_range.2 (by omega))]
    simp

theorem offset_eq (a : Int) (d : Nat) :
    ((Int.tmod a ((2 ^ d : Nat) : Int) + ((2 ^ d : Nat) : Int)).tmod ((2 ^ d : Nat) : Int)) = a % ((2 ^ d : Nat) : Int) := by
  have hp : (0 : Int) < ((2 ^ d : Nat) : Int) := by positivity
  generalize ((2 ^ d : Nat) : Int) = s at *
  have h1 : -s < a.tmod s := by have := Int.lt_tmod_of_pos a hp; exact this
  rw [Int.tmod_eq_emod_of_nonneg (by omega), Int.add_emod_right]
  rw [Int.tmod_eq_emod]
  split
  · simp
  · simp [Int.natAbs_of_nonneg hp.le]

theorem shift_add (a : Int) (d j : Nat) :
    (a + j) >>> d = a >>> d + (((j + (a % ((2 ^ d : Nat) : Int)).toNat) / 2 ^ d : Nat) : Int) := by
  rw [shiftRight_eq, shiftRight_eq]
  have hp : (0 : Int) < ((2 ^ d : Nat) : Int) := by positivity
  have hc : (2 : Int) ^ d = ((2 ^ d : Nat) : Int) := by push_cast; rfl
  rw [hc]
  push_cast
  rw [hc]
  generalize ((2 ^ d : Nat) : Int) = s at *
  have hm : 0 ≤ a % s := Int.emod_nonneg _ (by omega)
  rw [Int.toNat_of_nonneg hm]
  have he : a + j = (j + a % s) + s * (a / s) := by have := Int.emod_add_mul_ediv a s; linarith
  rw [he, Int.add_mul_ediv_left _ _ (by omega)]; ring

theorem downscale_rep (b : Buckets) (l : List Int) (d : Nat) (h : Rep b l) :
    Rep (b.downscale d) (l.map fun x : Int => x >>> d) ∧
    (l ≠ [] → ((b.downscale d).startBin = b.startBin >>> d ∧
      (b.downscale d).startBin + (b.downscale d).counts.length - 1 = (b.startBin + b.counts.length - 1) >>> d)) := by
  have hmono : ∀ x y : Int, x ≤ y → x >>> d ≤ y >>> d := by
    intro x y hxy
    rw [shiftRight_eq, shiftRight_eq]
    exact Int.ediv_le_ediv (by positivity) hxy
  by_cases hl : l = []
  · subst hl
    have hc : b.counts = [] := h.nil.2 rfl
    refine ⟨?_, fun h => absurd rfl h⟩
    unfold Buckets.downscale
    rw [if_pos (Or.inl (by rw [hc]; simp))]
    constructor <;> simp [Buckets.at, hc]
  · have hpos := h.length_pos hl
    have hcounts : ∀ j : Nat, l.count (b.startBin + j) = b.counts.getD j 0 := by
      intro j
      rw [← h.count]
      unfold Buckets.at
      rw [if_pos (by omega)]
      congr 1; omega
    -- enough: the new bounds and the new counts
    have key : (b.downscale d).startBin = b.startBin >>> d →
        (b.downscale d).startBin + (b.downscale d).counts.length - 1 = (b.startBin + b.counts.length - 1) >>> d →
        (∀ i, (b.downscale d).at i = ∑ j ∈ Finset.range b.counts.length, if (b.startBin + j) >>> d = i then b.counts.getD j 0 else 0) →
        Rep (b.downscale d) (l.map fun x : Int => x >>> d) ∧
        (l ≠ [] → ((b.downscale d).startBin = b.startBin >>> d ∧
          (b.downscale d).startBin + (b.downscale d).counts.length - 1 = (b.startBin + b.counts.length - 1) >>> d)) := by
      intro h1 h2 h3
      refine ⟨?_, fun _ => ⟨h1, h2⟩⟩
      have hle := hmono b.startBin (b.startBin + b.counts.length - 1) (by omega)
      constructor
      · constructor
        · intro hn
          rw [hn, List.length_nil, h1] at h2
          push_cast at h2; omega
        · intro hn; exact absurd (List.map_eq_nil_iff.1 hn) hl
      · intro _; rw [h1]; exact List.mem_map_of_mem (h.first hl)
      · intro _; rw [h2]; exact List.mem_map_of_mem (h.last hl)
      · intro x hx
        obtain ⟨y, hy, rfl⟩ := List.mem_map.1 hx
        rw [h2, h1]
        exact ⟨hmono _ _ (h.range y hy).1, hmono _ _ (h.range y hy).2⟩
      · intro i
        rw [h3, count_map_eq (fun x : Int => x >>> d) i b.startBin b.counts.length l h.range]
        apply Finset.sum_congr rfl
        intro j _
        rw [hcounts]
    by_cases hA : b.counts.length ≤ 1 ∨ d < 1
    · have hdn : b.downscale d = { b with startBin := b.startBin >>> d } := by
        unfold Buckets.downscale; rw [if_pos hA]
      rcases hA with h1 | h0
      · have hlen : b.counts.length = 1 := by omega
        obtain ⟨c, hc⟩ := List.length_eq_one_iff.1 hlen
        refine key (by rw [hdn]) (by rw [hdn, hlen]; push_cast; simp) ?_
        intro i
        rw [hdn]
        simp only [Buckets.at, hc, List.length_singleton, Finset.sum_range_one]
        push_cast
        rw [add_zero]
        by_cases hi : b.startBin >>> d = i
        · subst hi; simp
        · rw [if_neg hi]
          by_cases hle : b.startBin >>> d ≤ i
          · rw [if_pos hle]
            obtain ⟨k, hk⟩ := Nat.exists_eq_succ_of_ne_zero (show (i - b.startBin >>> d).toNat ≠ 0 by omega)
            rw [hk]; rfl
          · rw [if_neg hle]
      · have hd0 : d = 0 := by omega
        subst hd0
        have hz : ∀ x : Int, x >>> 0 = x := fun x => by rw [shiftRight_eq]; simp
        have hdn' : b.downscale 0 = b := by rw [hdn]; cases b; simp [hz]
        have hm : (l.map fun x : Int => x >>> 0) = l := by
          conv_rhs => rw [← List.map_id l]
          exact List.map_congr_left (fun x _ => hz x)
        rw [hdn', hm]
        exact ⟨h, fun _ => ⟨(hz _).symm, (hz _).symm⟩⟩
    · push Not at hA
      have hoffset := offset_eq b.startBin d
      have hmod : 0 ≤ b.startBin % ((2 ^ d : Nat) : Int) := Int.emod_nonneg _ (by positivity)
      have hmlt : b.startBin % ((2 ^ d : Nat) : Int) < ((2 ^ d : Nat) : Int) := Int.emod_lt_of_pos _ (by positivity)
      have hshift := shift_add b.startBin d
      set off := (b.startBin % ((2 ^ d : Nat) : Int)).toNat with hoffdef
      have hofflt : off < 2 ^ d := by omega
      have hdn : b.downscale d = ⟨b.startBin >>> d,
          ((List.range' 1 (b.counts.length - 1)).foldl (downscaleStep (2 ^ d) off) b.counts).take ((b.counts.length - 1 + off) / 2 ^ d + 1)⟩ := by
        unfold Buckets.downscale
        rw [if_neg (by omega)]
        dsimp only
        rw [hoffset]
      obtain ⟨hlen, -, hsum⟩ := downscaleStep_inv (2 ^ d) off hofflt b.counts (b.counts.length - 1) (by omega)
      have hlast : (b.counts.length - 1 + off) / 2 ^ d ≤ b.counts.length - 1 := by
        rw [Nat.div_le_iff_le_mul_add_pred (by positivity)]
        have : b.counts.length - 1 ≤ 2 ^ d * (b.counts.length - 1) := Nat.le_mul_of_pos_left _ (by positivity)
        omega
      refine key (by rw [hdn]) ?_ ?_
      · rw [hdn]
        simp only [List.length_take, hlen]
        rw [min_eq_left (by omega)]
        have := hshift (b.counts.length - 1)
        rw [show b.startBin + ((b.counts.length - 1 : Nat) : Int) = b.startBin + b.counts.length - 1 by omega] at this
        rw [this]
        push_cast; omega
      · intro i
        rw [hdn]
        simp only [Buckets.at]
        by_cases hle : b.startBin >>> d ≤ i
        · rw [if_pos hle]
          have hcond : ∀ j : Nat, ((b.startBin + j) >>> d = i) ↔ ((j + off) / 2 ^ d = (i - b.startBin >>> d).toNat) := by
            intro j; rw [hshift j]; omega
          rw [Finset.sum_congr rfl (fun j _ => if_congr (hcond j) rfl rfl)]
          by_cases hk : (i - b.startBin >>> d).toNat ≤ (b.counts.length - 1 + off) / 2 ^ d
          · have := hsum _ hk
            rw [show b.counts.length - 1 + 1 = b.counts.length by omega] at this
            rw [← this]
            simp only [List.getD_eq_getElem?_getD, List.getElem?_take]
            rw [if_pos (by omega)]
          · simp only [List.getD_eq_getElem?_getD, List.getElem?_take]
            rw [if_neg (by omega)]
            symm
            apply Finset.sum_eq_zero
            intro j hj
            have : (j + off) / 2 ^ d ≤ (b.counts.length - 1 + off) / 2 ^ d :=
              Nat.div_le_div_right (by have := Finset.mem_range.1 hj; omega)
            rw [if_neg (by omega)]
        · rw [if_neg hle]
          symm
          apply Finset.sum_eq_zero
          intro j _
          rw [if_neg]
          intro he
          exact hle (he ▸ hmono _ _ (by omega))

theorem rep_sum (b : Buckets) (l : List Int) (h : Rep b l) : b.counts.sum = l.length := by
  have h1 := count_map_eq (fun _ => 0) 0 b.startBin b.counts.length l h.range
  have h2 : ∀ j : Nat, l.count (b.startBin + j) = b.counts.getD j 0 := by
    intro j
    rw [← h.count]; unfold Buckets.at; rw [if_pos (by omega)]; congr 1; omega
  simp only [if_true, h2] at h1
  have h3 : (l.map fun _ : Int => (0 : Int)).count 0 = l.length := by
    rw [List.map_const', List.count_replicate_self]
  rw [← h3, h1, Finset.sum_range]
  rw [← List.sum_ofFn]
  congr 1
  apply List.ext_getElem
  · simp
  · intro i h1 h2; simp at h2 ⊢

/-- Shifting both ends right until they are less than `maxSize` apart. -/
theorem scaleLoop_spec (chk : Bool) (maxSize : Int) (fuel : Nat) (low high : Int) (count : Nat)
    (hf : fuel + count = 31) (hle : low ≤ high) (hfit : high - low < 2 ^ 31) :
    ∃ c, scaleLoop chk maxSize fuel low high count = some (count + c) ∧
      (count + c ≤ 30 → (high >>> c) - (low >>> c) < maxSize) ∧ count + c ≤ 31 ∧
      (∀ c' < c, maxSize ≤ (high >>> c') - (low >>> c')) := by
  induction fuel generalizing low high count with
  | zero => exact ⟨0, rfl, by omega, by omega, by omega⟩
  | succ fuel ih =>
    unfold scaleLoop
    rw [sub32_ok (by omega) hfit]
    dsimp only
    have hz : ∀ x : Int, x >>> 0 = x := fun x => by rw [shiftRight_eq]; simp
    have hss : ∀ (x : Int) (c : Nat), (x >>> 1) >>> c = x >>> (c + 1) := by
      intro x c
      rw [Nat.add_comm c 1, Int.shiftRight_add]
    by_cases hd : high - low ≥ maxSize
    · rw [if_pos hd]
      by_cases hc : ((count + 1 : Nat) : Int) > maxScaleLimit - minScaleLimit
      · rw [if_pos hc]
        unfold maxScaleLimit minScaleLimit at hc
        refine ⟨1, rfl, by omega, by omega, ?_⟩
        intro c' hc'
        have : c' = 0 := by omega
        subst this
        rw [hz, hz]; exact hd
      · rw [if_neg hc]
        have h1 : low >>> 1 ≤ high >>> 1 := by rw [shiftRight_eq, shiftRight_eq]; omega
        have h2 : high >>> 1 - low >>> 1 < 2 ^ 31 := by rw [shiftRight_eq, shiftRight_eq]; omega
        obtain ⟨c, hc1, hc2, hc3, hc4⟩ := ih (low >>> 1) (high >>> 1) (count + 1) (by omega) h1 h2
        refine ⟨c + 1, by rw [hc1]; congr 1; omega, ?_, by omega, ?_⟩
        · intro hle'
          have := hc2 (by omega)
          rwa [hss, hss] at this
        · intro c' hc'
          cases c' with
          | zero => rw [hz, hz]; exact hd
          | succ c' =>
            have := hc4 c' (by omega)
            rwa [hss, hss] at this
    · rw [if_neg hd]
      exact ⟨0, rfl, fun _ => by rw [hz, hz]; omega, by omega, by omega⟩

end Otel.Metrics.Expo
