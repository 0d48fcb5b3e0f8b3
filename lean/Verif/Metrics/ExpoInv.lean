import Verif.Metrics.ExpoBucketLemmas
/-! The invariant of an exponential histogram. -/

namespace Otel.Metrics.Expo

/-- The magnitudes for which no index difference leaves `i32`. -/
def Fits (maxScale : Int) (q : Rat) : Prop := InDoubleRange q ∧ (maxScale ≤ 19 ∨ IsNormal q)

theorem Fits.pos {m : Int} {q : Rat} (h : Fits m q) : 0 < q := lt_of_lt_of_le (by positivity) h.1.1

theorem shift_mono {a b : Int} (h : a ≤ b) (d : Nat) : a >>> d ≤ b >>> d := by
  rw [shiftRight_eq, shiftRight_eq]; exact Int.ediv_le_ediv (by positivity) h

theorem shift_zero (x : Int) : x >>> 0 = x := by rw [shiftRight_eq]; simp

theorem shift_diff {a b : Int} (h : a ≤ b) (d : Nat) : b >>> d - a >>> d ≤ b - a := by
  induction d with
  | zero => rw [shift_zero, shift_zero]
  | succ d ih =>
    rw [Int.shiftRight_add, Int.shiftRight_add, shiftRight_eq (a >>> d), shiftRight_eq (b >>> d)]
    have := shift_mono h d
    omega

theorem span (m : Int) (hm : m ≤ 20) (s : Int) (hs : s ≤ m) (p q : Rat) (hp : Fits m p) (hq : Fits m q) :
    ideal s p - ideal s q < 2 ^ 31 := by
  by_cases hle : ideal s p ≤ ideal s q
  · omega
  have hcmp : ideal 20 q ≤ ideal 20 p := by
    by_contra hlt
    apply hle
    rw [ideal_of_20 s (by omega), ideal_of_20 s (by omega)]
    exact shift_mono (by omega) _
  rw [ideal_of_20 s (by omega) p, ideal_of_20 s (by omega) q]
  rcases le_or_gt m 19 with h19 | h19
  · have h1 := ideal20_range (-1074) p hp.1.1 hp.1.2
    have h2 := ideal20_range (-1074) q hq.1.1 hq.1.2
    have hk : (20 - s).toNat = 1 + (19 - s).toNat := by omega
    rw [hk, Int.shiftRight_add, Int.shiftRight_add]
    have := shift_diff (shift_mono hcmp 1) (19 - s).toNat
    rw [shiftRight_eq _ 1, shiftRight_eq _ 1] at *
    omega
  · have hp' := hp.2.resolve_left (by omega)
    have hq' := hq.2.resolve_left (by omega)
    have h1 := ideal20_range (-1022) p hp' hp.1.2
    have h2 := ideal20_range (-1022) q hq' hq.1.2
    have := shift_diff hcmp (20 - s).toNat
    omega

theorem ideal_bottom (m : Int) (q : Rat) (h : Fits m q) : -2 ≤ ideal (-10) q ∧ ideal (-10) q ≤ 0 := by
  rw [ideal_of_20 (-10) (by omega), shiftRight_eq, show (20 - -10 : Int).toNat = 30 from rfl]
  have := ideal20_range (-1074) q h.1.1 h.1.2
  norm_num at this ⊢
  omega

theorem downscale_zero (b : Buckets) : b.downscale 0 = b := by
  unfold Buckets.downscale; rw [if_pos (Or.inr (by omega)), shift_zero]

theorem scaleChange_spec (chk : Bool) (maxSize : Int) (b : Buckets) (l : List Int) (bin : Int) (h : Rep b l) (hl : l ≠ [])
    (hlen : (b.counts.length : Int) ≤ maxSize) (hfit : newHigh b bin - newLow b bin < 2 ^ 31) :
    ∃ c, scaleChange chk maxSize bin b.startBin b.counts.length = some c ∧ c ≤ 31 ∧
      (c ≤ 30 → newHigh b bin >>> c - newLow b bin >>> c < maxSize) ∧
      (∀ c' < c, maxSize ≤ newHigh b bin >>> c' - newLow b bin >>> c') := by
  have hpos := h.length_pos hl
  unfold scaleChange newHigh newLow at *
  rw [if_neg (by omega)]
  by_cases hge : b.startBin ≥ bin
  · rw [if_pos hge]
    rw [min_eq_right hge, max_eq_left (by omega)] at *
    obtain ⟨c, h1, h2, h3, h4⟩ := scaleLoop_spec chk maxSize 31 bin (b.startBin + b.counts.length - 1) 0 rfl (by omega) hfit
    rw [Nat.zero_add] at *
    exact ⟨c, h1, h3, h2, h4⟩
  · rw [if_neg hge]
    rw [min_eq_left (by omega)] at *
    by_cases hin : bin ≤ b.startBin + b.counts.length - 1
    · rw [max_eq_left hin] at *
      refine ⟨0, ?_, by omega, fun _ => by rw [shift_zero, shift_zero]; omega, by omega⟩
      unfold scaleLoop
      rw [sub32_ok (by omega) (by omega)]
      dsimp only
      rw [if_neg (by omega)]
    · rw [max_eq_right (by omega)] at *
      obtain ⟨c, h1, h2, h3, h4⟩ := scaleLoop_spec chk maxSize 31 b.startBin bin 0 rfl (by omega) hfit
      rw [Nat.zero_add] at *
      exact ⟨c, h1, h3, h2, h4⟩

theorem map_shift (s : Int) (c : Nat) (S : List Rat) :
    (S.map (ideal s)).map (fun x : Int => x >>> c) = S.map (ideal (s - c)) := by
  rw [List.map_map]; exact List.map_congr_left fun q _ => (ideal_sub s c q).symm

/-- The other side of the histogram when the scale is lowered. -/
theorem side_rescale (maxSize s : Int) (b : Buckets) (S : List Rat) (c : Nat) (h : Rep b (S.map (ideal s)))
    (hlen : (b.counts.length : Int) ≤ maxSize) :
    Rep (b.downscale c) (S.map (ideal (s - c))) ∧ ((b.downscale c).counts.length : Int) ≤ maxSize := by
  obtain ⟨h1, h2⟩ := downscale_rep b _ c h
  rw [map_shift] at h1
  refine ⟨h1, ?_⟩
  by_cases hS : S.map (ideal s) = []
  · have : (b.downscale c).counts = [] := h1.nil.2 (by rw [List.map_eq_nil_iff] at hS ⊢; exact hS)
    rw [this]
    have : b.counts = [] := h.nil.2 hS
    rw [this] at hlen; exact hlen
  · obtain ⟨h3, h4⟩ := h2 hS
    have hpos := h.length_pos hS
    have := shift_diff (show b.startBin ≤ b.startBin + b.counts.length - 1 by omega) c
    omega

theorem max_shift (a b : Int) (c : Nat) : max a b >>> c = max (a >>> c) (b >>> c) := by
  rcases le_total a b with h | h
  · rw [max_eq_right h, max_eq_right (shift_mono h c)]
  · rw [max_eq_left h, max_eq_left (shift_mono h c)]

theorem min_shift (a b : Int) (c : Nat) : min a b >>> c = min (a >>> c) (b >>> c) := by
  rcases le_total a b with h | h
  · rw [min_eq_left h, min_eq_left (shift_mono h c)]
  · rw [min_eq_right h, min_eq_right (shift_mono h c)]

/-- The side a value goes to. -/
theorem side_step (chk : Bool) (maxSize m s : Int) (b : Buckets) (S : List Rat) (q : Rat) (hm : m ≤ 20) (hs : s ≤ m) (hs' : -10 ≤ s)
    (hmax : 1 ≤ maxSize) (h : Rep b (S.map (ideal s))) (hlen : (b.counts.length : Int) ≤ maxSize)
    (hS : ∀ p ∈ S, Fits m p) (hq : Fits m q) :
    ∃ c, scaleChange chk maxSize (ideal s q) b.startBin b.counts.length = some c ∧
      (s - c < -10 → 0 < c ∧ maxSize ≤ 2) ∧
      (-10 ≤ s - c → ∃ b', (b.downscale c).record chk (ideal (s - c) q) = some b' ∧ Rep b' ((q :: S).map (ideal (s - c))) ∧
        (b'.counts.length : Int) ≤ maxSize) ∧
      (0 < c → ∃ x ∈ q :: S, ∃ y ∈ q :: S, maxSize ≤ ideal (s - c + 1) x - ideal (s - c + 1) y) := by
  by_cases hne : S.map (ideal s) = []
  · have hc : b.counts = [] := h.nil.2 hne
    refine ⟨0, by unfold scaleChange; rw [hc]; rfl, by intro h; push_cast at h; omega, ?_, by omega⟩
    intro _
    have hSn : S = [] := List.map_eq_nil_iff.1 hne
    subst hSn
    rw [downscale_zero]
    push_cast
    rw [sub_zero]
    obtain ⟨b', h1, h2, h3⟩ := record_rep chk b _ (ideal s q) h (fun hl => absurd hne hl)
    rcases h3 with ⟨_, h3⟩ | ⟨h3, _⟩
    · exact ⟨b', h1, h2, by omega⟩
    · exact absurd hne h3
  · obtain ⟨p1, hp1, he1⟩ := List.mem_map.1 (h.first hne)
    obtain ⟨p2, hp2, he2⟩ := List.mem_map.1 (h.last hne)
    have hpos := h.length_pos hne
    have hhigh : ∃ x, Fits m x ∧ x ∈ q :: S ∧ newHigh b (ideal s q) = ideal s x := by
      unfold newHigh
      rcases le_total (b.startBin + b.counts.length - 1) (ideal s q) with hc | hc
      · exact ⟨q, hq, List.mem_cons_self, max_eq_right hc⟩
      · exact ⟨p2, hS _ hp2, List.mem_cons_of_mem _ hp2, by rw [max_eq_left hc, he2]⟩
    have hlow : ∃ x, Fits m x ∧ x ∈ q :: S ∧ newLow b (ideal s q) = ideal s x := by
      unfold newLow
      rcases le_total b.startBin (ideal s q) with hc | hc
      · exact ⟨p1, hS _ hp1, List.mem_cons_of_mem _ hp1, by rw [min_eq_left hc, he1]⟩
      · exact ⟨q, hq, List.mem_cons_self, min_eq_right hc⟩
    obtain ⟨x, hx, hxm, hxe⟩ := hhigh
    obtain ⟨y, hy, hym, hye⟩ := hlow
    have hfit : newHigh b (ideal s q) - newLow b (ideal s q) < 2 ^ 31 := by
      rw [hxe, hye]; exact span m hm s hs x y hx hy
    obtain ⟨c, h1, h2, h3, h4⟩ := scaleChange_spec chk maxSize b _ (ideal s q) h hne hlen hfit
    refine ⟨c, h1, ?_, ?_, ?_⟩
    · intro hlt
      have := h4 (s + 10).toNat (by omega)
      rw [hxe, hye, ← ideal_sub, ← ideal_sub] at this
      rw [show s - ((s + 10).toNat : Int) = -10 by omega] at this
      have hx' := ideal_bottom m x hx
      have hy' := ideal_bottom m y hy
      omega
    · intro hge
      obtain ⟨hR, hlen'⟩ := side_rescale maxSize s b S c h hlen
      obtain ⟨hst, hend⟩ := (downscale_rep b _ c h).2 hne
      have hne' : S.map (ideal (s - c)) ≠ [] := by
        intro hn; apply hne; rw [List.map_eq_nil_iff] at hn ⊢; exact hn
      have hH : newHigh (b.downscale c) (ideal (s - c) q) = newHigh b (ideal s q) >>> c := by
        unfold newHigh; rw [hend, ideal_sub, max_shift]
      have hL : newLow (b.downscale c) (ideal (s - c) q) = newLow b (ideal s q) >>> c := by
        unfold newLow; rw [hst, ideal_sub, min_shift]
      have hle : newLow b (ideal s q) ≤ newHigh b (ideal s q) := by
        unfold newLow newHigh; omega
      have hd := shift_diff hle c
      obtain ⟨b', r1, r2, r3⟩ := record_rep chk (b.downscale c) _ (ideal (s - c) q) hR (fun _ => by rw [hH, hL]; omega)
      refine ⟨b', r1, r2, ?_⟩
      rcases r3 with ⟨r3, _⟩ | ⟨_, r3⟩
      · exact absurd r3 hne'
      · rw [r3, hH, hL]
        have := h3 (by omega)
        omega
    · intro hc
      refine ⟨x, hxm, y, hym, ?_⟩
      have := h4 (c - 1) (by omega)
      rw [hxe, hye, ← ideal_sub, ← ideal_sub] at this
      rw [show s - ((c - 1 : Nat) : Int) = s - c + 1 by omega] at this
      exact this

variable {N : Type}

/-- The magnitudes of the positive (negative) values of a list. -/
def mags (fl : N → Rat) (neg : Bool) (vs : List N) : List Rat :=
  (vs.filter fun v => if neg then decide (fl v < 0) else decide (0 < fl v)).map fun v => |fl v|

/-- What holds of a data point after the values `kept` were put in it. -/
structure Inv (fl : N → Rat) (maxSize m : Int) (p : Point N) (kept : List N) : Prop where
  size : p.maxSize = maxSize
  scaleLe : p.scale ≤ m
  scaleGe : -10 ≤ p.scale
  pos : Rep p.pos ((mags fl false kept).map (ideal p.scale))
  neg : Rep p.neg ((mags fl true kept).map (ideal p.scale))
  posLen : (p.pos.counts.length : Int) ≤ maxSize
  negLen : (p.neg.counts.length : Int) ≤ maxSize
  zero : p.zeroCount = (kept.filter fun v => decide (fl v = 0)).length
  needed : p.scale = m ∨ ∃ neg, ∃ x ∈ mags fl neg kept, ∃ y ∈ mags fl neg kept, maxSize ≤ ideal (p.scale + 1) x - ideal (p.scale + 1) y

/-- Every nonzero value is in range. -/
def AllFit (fl : N → Rat) (m : Int) (vs : List N) : Prop := ∀ v ∈ vs, fl v ≠ 0 → Fits m |fl v|

theorem mags_fit {fl : N → Rat} {m : Int} {vs : List N} (h : AllFit fl m vs) (neg : Bool) : ∀ q ∈ mags fl neg vs, Fits m q := by
  intro q hq
  obtain ⟨v, hv, rfl⟩ := List.mem_map.1 hq
  obtain ⟨hv1, hv2⟩ := List.mem_filter.1 hv
  refine h v hv1 ?_
  cases neg
  · simp at hv2; exact hv2.ne'
  · simp at hv2; exact hv2.ne

theorem mags_mono (fl : N → Rat) (neg : Bool) (v : N) (vs : List N) {q : Rat} (h : q ∈ mags fl neg vs) : q ∈ mags fl neg (v :: vs) := by
  obtain ⟨w, hw, rfl⟩ := List.mem_map.1 h
  obtain ⟨h1, h2⟩ := List.mem_filter.1 hw
  exact List.mem_map.2 ⟨w, List.mem_filter.2 ⟨List.mem_cons_of_mem _ h1, h2⟩, rfl⟩

theorem record_inv (num : NumOps N) (fl : N → Rat) (ln : Ln) (chk : Bool) (maxSize m : Int)
    (hln : ExactLn ln) (hm : m ≤ 20) (hmax : 1 ≤ maxSize)
    (p : Point N) (kept : List N) (v : N) (hneg : num.lt v num.zero = true ↔ fl v < 0) (h : Inv fl maxSize m p kept) (hk : AllFit fl m kept) (hv : fl v ≠ 0 → Fits m |fl v|) :
    ∃ p', p.record num fl ln chk v = some p' ∧ p'.count = p.count + 1 ∧ p'.scale ≤ p.scale ∧
      (Inv fl maxSize m p' (v :: kept) ∨ (maxSize ≤ 2 ∧ Inv fl maxSize m p' kept)) := by
  unfold Point.record
  dsimp only
  have ht : (p.tally num v).scale = p.scale ∧ (p.tally num v).pos = p.pos ∧ (p.tally num v).neg = p.neg ∧
    (p.tally num v).maxSize = p.maxSize ∧ (p.tally num v).zeroCount = p.zeroCount ∧ (p.tally num v).count = p.count + 1 :=
    ⟨rfl, rfl, rfl, rfl, rfl, rfl⟩
  obtain ⟨t1, t2, t3, t4, t5, t6⟩ := ht
  generalize p.tally num v = p1 at *
  by_cases h0 : |fl v| = 0
  · rw [if_pos h0]
    have hz : fl v = 0 := abs_eq_zero.1 h0
    refine ⟨_, rfl, t6, by rw [t1], Or.inl ?_⟩
    have hm1 : mags fl false (v :: kept) = mags fl false kept := by simp [mags, hz]
    have hm2 : mags fl true (v :: kept) = mags fl true kept := by simp [mags, hz]
    constructor
    · exact t4.trans h.size
    · rw [t1]; exact h.scaleLe
    · rw [t1]; exact h.scaleGe
    · rw [hm1, t1, t2]; exact h.pos
    · rw [hm2, t1, t3]; exact h.neg
    · rw [t2]; exact h.posLen
    · rw [t3]; exact h.negLen
    · simp [hz, t5, h.zero]
    · rw [t1]
      refine h.needed.imp_right fun ⟨n, hn⟩ => ⟨n, ?_⟩
      cases n
      · rw [hm1]; exact hn
      · rw [hm2]; exact hn
  · rw [if_neg h0]
    have hnz : fl v ≠ 0 := fun e => h0 (by rw [e]; simp)
    have hF := hv hnz
    rw [t1, t4, h.size, getBin_eq ln hln _ (by have := h.scaleLe; omega) _ hF.pos]
    have hscale := h.scaleLe
    have hscale' := h.scaleGe
    by_cases hlt : fl v < 0
    · rw [hneg.2 hlt]
      simp only [if_true]
      rw [t3]
      have hmn : mags fl true (v :: kept) = |fl v| :: mags fl true kept := by simp [mags, hlt]
      have hmp : mags fl false (v :: kept) = mags fl false kept := by simp [mags, not_lt.2 hlt.le]
      obtain ⟨c, hc1, hc2, hc3, hc4⟩ := side_step chk maxSize m p.scale p.neg (mags fl true kept) |fl v| hm hscale hscale' hmax h.neg h.negLen
        (mags_fit hk true) hF
      rw [hc1]
      dsimp only
      by_cases hlow : p.scale - c < minScaleLimit
      · obtain ⟨hcp, h2⟩ := hc2 hlow
        rw [if_pos hcp, if_pos hlow]
        refine ⟨_, rfl, t6, by rw [t1], Or.inr ⟨h2, ?_⟩⟩
        constructor
        · exact t4.trans h.size
        · rw [t1]; exact h.scaleLe
        · rw [t1]; exact h.scaleGe
        · rw [t1, t2]; exact h.pos
        · rw [t1, t3]; exact h.neg
        · rw [t2]; exact h.posLen
        · rw [t3]; exact h.negLen
        · rw [t5, h.zero]
        · rw [t1]; exact h.needed
      · have hge : -10 ≤ p.scale - c := by unfold minScaleLimit at hlow; omega
        obtain ⟨b', r1, r2, r3⟩ := hc3 hge
        obtain ⟨o1, o2⟩ := side_rescale maxSize p.scale p.pos (mags fl false kept) c h.pos h.posLen
        have hfin : ∀ p' : Point N, p'.maxSize = maxSize → p'.scale = p.scale - c → p'.neg = b' → p'.pos = p.pos.downscale c →
            p'.zeroCount = p.zeroCount → Inv fl maxSize m p' (v :: kept) := by
          intro p' e1 e2 e3 e4 e5
          constructor
          · exact e1
          · rw [e2]; omega
          · rw [e2]; exact hge
          · rw [hmp, e2, e4]; exact o1
          · rw [hmn, e2, e3]; exact r2
          · rw [e4]; exact o2
          · rw [e3]; exact r3
          · simp [hnz, e5, h.zero]
          · rcases Nat.eq_zero_or_pos c with hc0 | hc0
            · subst hc0
              push_cast at e2
              rw [e2, sub_zero]
              exact h.needed.imp_right fun ⟨n, x, hx, y, hy, hxy⟩ => ⟨n, x, mags_mono _ _ _ _ hx, y, mags_mono _ _ _ _ hy, hxy⟩
            · obtain ⟨x, hx, y, hy, hxy⟩ := hc4 hc0
              rw [e2]
              right
              first
              | exact ⟨true, x, by rw [hmn]; exact hx, y, by rw [hmn]; exact hy, hxy⟩
              | exact ⟨false, x, by rw [hmp]; exact hx, y, by rw [hmp]; exact hy, hxy⟩
        by_cases hcp : c > 0
        · rw [if_pos hcp, if_neg hlow]
          unfold Point.put Point.rescale
          simp only [if_true]
          rw [t1, t3, getBin_eq ln hln _ (by omega) _ hF.pos, r1]
          exact ⟨_, rfl, t6, by simp, Or.inl (hfin _ (t4.trans h.size) rfl rfl (by rw [t2]) t5)⟩
        · have hc0 : c = 0 := by omega
          subst hc0
          rw [if_neg hcp]
          unfold Point.put
          simp only [if_true]
          rw [downscale_zero] at r1
          push_cast at r1
          rw [sub_zero] at r1
          rw [t3, r1]
          exact ⟨_, rfl, t6, by simp [t1], Or.inl (hfin _ (t4.trans h.size) (by simp [t1]) rfl (by simp [t2, downscale_zero]) t5)⟩
    · have hf : num.lt v num.zero = false := by
        cases hb : num.lt v num.zero with
        | false => rfl
        | true => exact absurd (hneg.1 hb) hlt
      have hgt : 0 < fl v := lt_of_le_of_ne (not_lt.1 hlt) (Ne.symm hnz)
      rw [hf]
      simp only [Bool.false_eq_true, if_false]
      rw [t2]
      have hmn : mags fl true (v :: kept) = mags fl true kept := by simp [mags, hlt]
      have hmp : mags fl false (v :: kept) = |fl v| :: mags fl false kept := by simp [mags, hgt]
      obtain ⟨c, hc1, hc2, hc3, hc4⟩ := side_step chk maxSize m p.scale p.pos (mags fl false kept) |fl v| hm hscale hscale' hmax h.pos h.posLen
        (mags_fit hk false) hF
      rw [hc1]
      dsimp only
      by_cases hlow : p.scale - c < minScaleLimit
      · obtain ⟨hcp, h2⟩ := hc2 hlow
        rw [if_pos hcp, if_pos hlow]
        refine ⟨_, rfl, t6, by rw [t1], Or.inr ⟨h2, ?_⟩⟩
        constructor
        · exact t4.trans h.size
        · rw [t1]; exact h.scaleLe
        · rw [t1]; exact h.scaleGe
        · rw [t1, t2]; exact h.pos
        · rw [t1, t3]; exact h.neg
        · rw [t2]; exact h.posLen
        · rw [t3]; exact h.negLen
        · rw [t5, h.zero]
        · rw [t1]; exact h.needed
      · have hge : -10 ≤ p.scale - c := by unfold minScaleLimit at hlow; omega
        obtain ⟨b', r1, r2, r3⟩ := hc3 hge
        obtain ⟨o1, o2⟩ := side_rescale maxSize p.scale p.neg (mags fl true kept) c h.neg h.negLen
        have hfin : ∀ p' : Point N, p'.maxSize = maxSize → p'.scale = p.scale - c → p'.pos = b' → p'.neg = p.neg.downscale c →
            p'.zeroCount = p.zeroCount → Inv fl maxSize m p' (v :: kept) := by
          intro p' e1 e2 e3 e4 e5
          constructor
          · exact e1
          · rw [e2]; omega
          · rw [e2]; exact hge
          · rw [hmp, e2, e3]; exact r2
          · rw [hmn, e2, e4]; exact o1
          · rw [e3]; exact r3
          · rw [e4]; exact o2
          · simp [hnz, e5, h.zero]
          · rcases Nat.eq_zero_or_pos c with hc0 | hc0
            · subst hc0
              push_cast at e2
              rw [e2, sub_zero]
              exact h.needed.imp_right fun ⟨n, x, hx, y, hy, hxy⟩ => ⟨n, x, mags_mono _ _ _ _ hx, y, mags_mono _ _ _ _ hy, hxy⟩
            · obtain ⟨x, hx, y, hy, hxy⟩ := hc4 hc0
              rw [e2]
              right
              first
              | exact ⟨true, x, by rw [hmn]; exact hx, y, by rw [hmn]; exact hy, hxy⟩
              | exact ⟨false, x, by rw [hmp]; exact hx, y, by rw [hmp]; exact hy, hxy⟩
        by_cases hcp : c > 0
        · rw [if_pos hcp, if_neg hlow]
          unfold Point.put Point.rescale
          simp only [Bool.false_eq_true, if_false]
          rw [t1, t2, getBin_eq ln hln _ (by omega) _ hF.pos, r1]
          exact ⟨_, rfl, t6, by simp, Or.inl (hfin _ (t4.trans h.size) rfl rfl (by rw [t3]) t5)⟩
        · have hc0 : c = 0 := by omega
          subst hc0
          rw [if_neg hcp]
          unfold Point.put
          simp only [Bool.false_eq_true, if_false]
          rw [downscale_zero] at r1
          push_cast at r1
          rw [sub_zero] at r1
          rw [t2, r1]
          exact ⟨_, rfl, t6, by simp [t1], Or.inl (hfin _ (t4.trans h.size) (by simp [t1]) rfl (by simp [t3, downscale_zero]) t5)⟩

end Otel.Metrics.Expo
