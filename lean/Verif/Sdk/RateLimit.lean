import Verif.Rust.F64
import Mathlib.Tactic.FieldSimp
import Mathlib.Tactic.Ring
/-!
# The rate limiter of the remote sampler (`trace/sampler/jaeger_remote/rate_limit.rs`), C57

Times are nanoseconds. The three floats of the bucket are finite, so they are rational numbers; every result of an operation goes through an
unspecified rounding that is exact on doubles. `max_traces_per_second` is an `i32` (remote.rs:17).
-/

namespace Otel.Sdk.RateLimit
open Rust

/-- Rounding of finite results. -/
structure Rnd where
  rnd : Rat → Rat
  exact : ∀ q, F64.Representable q → rnd q = q

/-- `LeakyBucket`. rate_limit.rs:5-10 -/
structure Bucket where
  rate : Int
  avail : Rat
  size : Rat
  last : Nat

/-- `LeakyBucket::new` at time `t`. rate_limit.rs:14-21 -/
def Bucket.new (size : Rat) (rate : Int) (t : Nat) : Bucket := ⟨rate, size, size, t⟩

/-- `LeakyBucket::update`. rate_limit.rs:23-25 -/
def Bucket.update (b : Bucket) (rate : Int) : Bucket := { b with rate := rate }

/-- `Duration::as_secs` of a time difference in nanoseconds. -/
def secs (ns : Nat) : Nat := ns / 1000000000

/-- `LeakyBucket::check_availability` at time `t`. rate_limit.rs:31-66 -/
def Bucket.check (R : Rnd) (b : Bucket) (t : Nat) : Bool × Bucket :=
  if 1 ≤ b.avail then (true, { b with avail := R.rnd (b.avail - 1) })
  else if b.last ≤ t then
    let a := min (R.rnd (R.rnd ((secs (t - b.last) : Rat) * b.rate) + b.avail)) b.size
    if 1 ≤ a then (true, { b with avail := R.rnd (a - 1), last := t })
    else (false, { b with avail := a, last := t })
  else (true, b)

/-- What happens to a bucket: a request at a time, or a new rate from the server. -/
inductive Op where
  | ask (t : Nat)
  | setRate (rate : Int)

/-- Runs operations and counts the requests that were sampled. -/
def Bucket.run (R : Rnd) (b : Bucket) : List Op → Nat × Bucket
  | [] => (0, b)
  | .ask t :: ops =>
    let (ok, b') := b.check R t
    let (n, b'') := b'.run R ops
    ((if ok then 1 else 0) + n, b'')
  | .setRate r :: ops => (b.update r).run R ops

/-! ## Specification -/

/-- All requests happen from `t0` to `t1`, the clock never going back. -/
def Within (t0 t1 : Nat) : List Op → Prop
  | [] => t0 ≤ t1
  | .ask t :: ops => t0 ≤ t ∧ Within t t1 ops
  | .setRate _ :: ops => Within t0 t1 ops

/-- Every rate the server gives is between 0 and `r`. -/
def RatesUpTo (r : Int) (ops : List Op) : Prop := ∀ x, Op.setRate x ∈ ops → 0 ≤ x ∧ x ≤ r

/-- Sizes for which the arithmetic of the limiter is exact: the bucket size is a multiple of 1/1024 up to 2^41 (any reasonable setting; the
default is 100), and rate times uptime stays below 2^41 (70 years at 1000 traces per second). -/
structure Sane (size : Rat) (r : Int) (t0 t1 : Nat) : Prop where
  grain : ∃ m : Int, size = m / 1024
  pos : 0 ≤ size
  le : size ≤ 2 ^ 41
  rate : 0 ≤ r
  time : r * (t1 - t0 : Nat) ≤ 2 ^ 41 * 1000000000

/-! ## Lemmas -/

theorem representable_grain {q : Rat} (h : ∃ m : Int, q = m / 1024) (h0 : 0 ≤ q) (h1 : q ≤ 2 ^ 42) : F64.Representable q := by
  obtain ⟨m, rfl⟩ := h
  refine ⟨m, -10, ?_, by norm_num, by norm_num, ?_⟩
  · have hm0 : (0 : Rat) ≤ m := by
      have := mul_nonneg h0 (by norm_num : (0 : Rat) ≤ 1024)
      rwa [div_mul_cancel₀ _ (by norm_num)] at this
    have hm1 : (m : Rat) ≤ 2 ^ 42 * 1024 := by
      rwa [div_le_iff₀ (by norm_num)] at h1
    have a : 0 ≤ m := by exact_mod_cast hm0
    have b : m ≤ 2 ^ 52 := by
      have : (m : Rat) ≤ ((2 ^ 52 : Int) : Rat) := by push_cast; linarith
      exact_mod_cast this
    rw [abs_of_nonneg a]
    omega
  · norm_num [zpow_neg]; ring

/-- The bucket's numbers are fine-grained and in range. -/
structure Ok (b : Bucket) (size : Rat) (r : Int) : Prop where
  size_eq : b.size = size
  grain : ∃ m : Int, b.avail = m / 1024
  nonneg : 0 ≤ b.avail
  le : b.avail ≤ size
  rate0 : 0 ≤ b.rate
  rate1 : b.rate ≤ r

theorem secs_le (n : Nat) : (secs n : Rat) ≤ (n : Rat) / 1000000000 := by
  rw [le_div_iff₀ (by norm_num)]
  have : secs n * 1000000000 ≤ n := Nat.div_mul_le_self _ _
  exact_mod_cast this

theorem refill_exact {R : Rnd} {b : Bucket} {size : Rat} {r : Int} {t0 t1 t : Nat} (hs : Sane size r t0 t1) (ho : Ok b size r)
    (h0 : t0 ≤ b.last) (ht : b.last ≤ t) (h1 : t ≤ t1) :
    R.rnd (R.rnd ((secs (t - b.last) : Rat) * b.rate) + b.avail) = (secs (t - b.last) : Rat) * b.rate + b.avail ∧
    (∃ m : Int, (secs (t - b.last) : Rat) * b.rate + b.avail = m / 1024) ∧
    0 ≤ (secs (t - b.last) : Rat) * b.rate ∧
    (secs (t - b.last) : Rat) * b.rate ≤ r * ((t - b.last : Nat) : Rat) / 1000000000 := by
  have hr0 : (0 : Rat) ≤ b.rate := by exact_mod_cast ho.rate0
  have hr1 : (b.rate : Rat) ≤ r := by exact_mod_cast ho.rate1
  have hsec : (0 : Rat) ≤ (secs (t - b.last) : Rat) := Nat.cast_nonneg _
  have hx0 : 0 ≤ (secs (t - b.last) : Rat) * b.rate := mul_nonneg hsec hr0
  have hx1 : (secs (t - b.last) : Rat) * b.rate ≤ r * ((t - b.last : Nat) : Rat) / 1000000000 := by
    calc (secs (t - b.last) : Rat) * b.rate ≤ ((t - b.last : Nat) : Rat) / 1000000000 * r :=
          mul_le_mul (secs_le _) hr1 hr0 (by positivity)
      _ = r * ((t - b.last : Nat) : Rat) / 1000000000 := by ring
  have hx2 : (secs (t - b.last) : Rat) * b.rate ≤ 2 ^ 41 := by
    have hle : ((t - b.last : Nat) : Rat) ≤ ((t1 - t0 : Nat) : Rat) := by
      have : t - b.last ≤ t1 - t0 := by omega
      exact_mod_cast this
    have hr : (0 : Rat) ≤ r := by exact_mod_cast hs.rate
    have hm : (r : Rat) * ((t1 - t0 : Nat) : Rat) ≤ 2 ^ 41 * 1000000000 := by exact_mod_cast hs.time
    have : (r : Rat) * ((t - b.last : Nat) : Rat) ≤ 2 ^ 41 * 1000000000 := (mul_le_mul_of_nonneg_left hle hr).trans hm
    refine hx1.trans ?_
    rw [div_le_iff₀ (by norm_num)]; exact this
  have e1 : R.rnd ((secs (t - b.last) : Rat) * b.rate) = (secs (t - b.last) : Rat) * b.rate := by
    apply R.exact
    refine representable_grain ⟨secs (t - b.last) * b.rate * 1024, ?_⟩ hx0 (hx2.trans (by norm_num))
    push_cast; ring
  obtain ⟨m, hm⟩ := ho.grain
  have hg : ∃ m : Int, (secs (t - b.last) : Rat) * b.rate + b.avail = m / 1024 := by
    refine ⟨secs (t - b.last) * b.rate * 1024 + m, ?_⟩
    rw [hm]; push_cast; ring
  refine ⟨?_, hg, hx0, hx1⟩
  rw [e1]
  apply R.exact
  refine representable_grain hg (add_nonneg hx0 ho.nonneg) ?_
  have := ho.le.trans hs.le
  linarith

theorem take_exact {R : Rnd} {q : Rat} (hg : ∃ m : Int, q = m / 1024) (h1 : 1 ≤ q) (h2 : q ≤ 2 ^ 42) :
    R.rnd (q - 1) = q - 1 ∧ ∃ m : Int, q - 1 = m / 1024 := by
  have hg' : ∃ m : Int, q - 1 = m / 1024 := by
    obtain ⟨m, rfl⟩ := hg
    exact ⟨m - 1024, by push_cast; ring⟩
  exact ⟨R.exact _ (representable_grain hg' (by linarith) (by linarith)), hg'⟩

/-- One request, with exact arithmetic. `c` is 1 if it is sampled. -/
theorem check_cases {R : Rnd} {b : Bucket} {size : Rat} {r : Int} {t0 t1 t : Nat} (hs : Sane size r t0 t1) (ho : Ok b size r)
    (h0 : t0 ≤ b.last) (ht : b.last ≤ t) (h1 : t ≤ t1) :
    Ok (b.check R t).2 size r ∧
    (((b.check R t).1 = true ∧ (b.check R t).2.last = b.last ∧ (b.check R t).2.avail = b.avail - 1) ∨
     ((b.check R t).2.last = t ∧ b.avail < 1 ∧
      (b.check R t).2.avail + (if (b.check R t).1 then 1 else 0) = min ((secs (t - b.last) : Rat) * b.rate + b.avail) size ∧
      ((b.check R t).1 = true ↔ 1 ≤ min ((secs (t - b.last) : Rat) * b.rate + b.avail) size))) := by
  by_cases ha : 1 ≤ b.avail
  · have hq := take_exact (R := R) ho.grain ha ((ho.le.trans hs.le).trans (by norm_num))
    have hc : b.check R t = (true, { b with avail := b.avail - 1 }) := by
      rw [Bucket.check, if_pos ha, hq.1]
    rw [hc]
    exact ⟨⟨ho.size_eq, hq.2, by show 0 ≤ b.avail - 1; linarith, by show b.avail - 1 ≤ size; linarith [ho.le], ho.rate0, ho.rate1⟩,
      .inl ⟨rfl, rfl, rfl⟩⟩
  · obtain ⟨e, hg, hx0, hx1⟩ := refill_exact (R := R) hs ho h0 ht h1
    have hmg : ∃ m : Int, min ((secs (t - b.last) : Rat) * b.rate + b.avail) size = m / 1024 := by
      rcases min_choice ((secs (t - b.last) : Rat) * b.rate + b.avail) size with h | h <;> rw [h]
      · exact hg
      · exact hs.grain
    have hm0 : 0 ≤ min ((secs (t - b.last) : Rat) * b.rate + b.avail) size := le_min (add_nonneg hx0 ho.nonneg) hs.pos
    by_cases hm : 1 ≤ min ((secs (t - b.last) : Rat) * b.rate + b.avail) size
    · have hq := take_exact (R := R) hmg hm ((min_le_right _ _).trans (hs.le.trans (by norm_num)))
      have hc : b.check R t = (true, { b with avail := min ((secs (t - b.last) : Rat) * b.rate + b.avail) size - 1, last := t }) := by
        simp only [Bucket.check, if_neg ha, if_pos ht, e, ho.size_eq, if_pos hm, hq.1]
      rw [hc]
      refine ⟨⟨ho.size_eq, hq.2, ?_, ?_, ho.rate0, ho.rate1⟩, .inr ⟨rfl, not_le.1 ha, ?_, ?_⟩⟩
      · show 0 ≤ min _ _ - 1; linarith
      · show min _ _ - 1 ≤ size; linarith [min_le_right ((secs (t - b.last) : Rat) * b.rate + b.avail) size]
      · simp
      · simp only [true_iff]; exact hm
    · have hc : b.check R t = (false, { b with avail := min ((secs (t - b.last) : Rat) * b.rate + b.avail) size, last := t }) := by
        simp only [Bucket.check, if_neg ha, if_pos ht, e, ho.size_eq, if_neg hm]
      rw [hc]
      refine ⟨⟨ho.size_eq, hmg, hm0, min_le_right _ _, ho.rate0, ho.rate1⟩, .inr ⟨rfl, not_le.1 ha, ?_, ?_⟩⟩
      · simp
      · simp only [Bool.false_eq_true, false_iff]; exact hm

theorem Within.le {t0 t1 : Nat} {ops : List Op} (h : Within t0 t1 ops) : t0 ≤ t1 := by
  induction ops generalizing t0 with
  | nil => exact h
  | cons o ops ih =>
    cases o with
    | ask t => exact h.1.trans (ih h.2)
    | setRate r => exact ih h

theorem run_bound {R : Rnd} {size : Rat} {r : Int} {T0 t0 t1 : Nat} (hs : Sane size r T0 t1) (ops : List Op) (b : Bucket) (ho : Ok b size r)
    (hT : T0 ≤ b.last) (hl : b.last ≤ t0) (hw : Within t0 t1 ops) (hr : RatesUpTo r ops) :
    Ok (b.run R ops).2 size r ∧ b.last ≤ (b.run R ops).2.last ∧ (b.run R ops).2.last ≤ t1 ∧
    ((b.run R ops).1 : Rat) + (b.run R ops).2.avail ≤ b.avail + r * (((b.run R ops).2.last - b.last : Nat) : Rat) / 1000000000 := by
  induction ops generalizing b t0 with
  | nil =>
    refine ⟨ho, le_refl _, hl.trans hw, ?_⟩
    simp [Bucket.run]
  | cons o ops ih =>
    cases o with
    | setRate x =>
      have hx := hr x List.mem_cons_self
      exact ih (b.update x) ⟨ho.size_eq, ho.grain, ho.nonneg, ho.le, hx.1, hx.2⟩ hT hl hw (fun y hy => hr y (List.mem_cons_of_mem _ hy))
    | ask t =>
      obtain ⟨ht, hw⟩ := hw
      have htl := hl.trans ht
      obtain ⟨hok, hc⟩ := check_cases (R := R) hs ho hT htl hw.le
      have hT' : T0 ≤ (b.check R t).2.last := by rcases hc with h | h <;> omega
      have hl' : (b.check R t).2.last ≤ t := by rcases hc with h | h <;> omega
      have hbl : b.last ≤ (b.check R t).2.last := by rcases hc with h | h <;> omega
      obtain ⟨g1, g2, g3, g4⟩ := ih (b.check R t).2 hok hT' hl' hw (fun y hy => hr y (List.mem_cons_of_mem _ hy))
      refine ⟨g1, hbl.trans g2, g3, ?_⟩
      show ((((if (b.check R t).1 then 1 else 0) + ((b.check R t).2.run R ops).1 : Nat)) : Rat) + ((b.check R t).2.run R ops).2.avail ≤ _
      have hrr : (0 : Rat) ≤ r := by exact_mod_cast hs.rate
      rcases hc with ⟨c1, c2, c3⟩ | ⟨c2, c3, c4, _⟩
      · rw [c1, if_pos rfl]
        rw [c2, c3] at g4
        push_cast
        have hrun : (b.run R (Op.ask t :: ops)).2.last = ((b.check R t).2.run R ops).2.last := rfl
        rw [hrun]
        linarith
      · have hx := (refill_exact (R := R) hs ho hT htl hw.le).2.2.2
        have hrun : (b.run R (Op.ask t :: ops)).2.last = ((b.check R t).2.run R ops).2.last := rfl
        rw [hrun]
        rw [c2] at g2 g4
        have hsplit : ((((b.check R t).2.run R ops).2.last - b.last : Nat) : Rat) =
            ((((b.check R t).2.run R ops).2.last - t : Nat) : Rat) + ((t - b.last : Nat) : Rat) := by
          have : ((b.check R t).2.run R ops).2.last - b.last = ((b.check R t).2.run R ops).2.last - t + (t - b.last) := by omega
          rw [this]; push_cast; ring
        have hmin : (b.check R t).2.avail + (if (b.check R t).1 then (1 : Rat) else 0) ≤ (secs (t - b.last) : Rat) * b.rate + b.avail := by
          rw [c4]; exact min_le_left _ _
        rw [hsplit]
        push_cast
        have e : (r : Rat) * (((((b.check R t).2.run R ops).2.last - t : Nat) : Rat) + ((t - b.last : Nat) : Rat)) / 1000000000 =
            (r : Rat) * ((((b.check R t).2.run R ops).2.last - t : Nat) : Rat) / 1000000000 + (r : Rat) * ((t - b.last : Nat) : Rat) / 1000000000 := by ring
        rw [e]
        linarith

theorem ok_new {size : Rat} {r rate : Int} {t0 t1 : Nat} (hs : Sane size r t0 t1) (h0 : 0 ≤ rate) (h1 : rate ≤ r) :
    Ok (Bucket.new size rate t0) size r := ⟨rfl, hs.grain, hs.pos, le_refl _, h0, h1⟩

/-! ## Theorems -/

/-- C57. From the creation of the limiter at `t0`, whatever the request times and the rates (up to `r` per second) the server gives, at most
`size + r * seconds elapsed` requests are sampled. -/
theorem rate_bound {R : Rnd} {size : Rat} {r rate : Int} {t0 t1 : Nat} (hs : Sane size r t0 t1) (h0 : 0 ≤ rate) (h1 : rate ≤ r)
    {ops : List Op} (hw : Within t0 t1 ops) (hr : RatesUpTo r ops) :
    (((Bucket.new size rate t0).run R ops).1 : Rat) ≤ size + r * ((t1 - t0 : Nat) : Rat) / 1000000000 := by
  obtain ⟨g1, g2, g3, g4⟩ := run_bound (R := R) hs ops _ (ok_new hs h0 h1) (le_refl _) (le_refl _) hw hr
  have hn := g1.nonneg
  have hrr : (0 : Rat) ≤ r := by exact_mod_cast hs.rate
  have hle : ((((Bucket.new size rate t0).run R ops).2.last - t0 : Nat) : Rat) ≤ ((t1 - t0 : Nat) : Rat) := by
    have : ((Bucket.new size rate t0).run R ops).2.last - t0 ≤ t1 - t0 := by omega
    exact_mod_cast this
  have := mul_le_mul_of_nonneg_left hle hrr
  have h2 : (r : Rat) * ((((Bucket.new size rate t0).run R ops).2.last - t0 : Nat) : Rat) / 1000000000 ≤ r * ((t1 - t0 : Nat) : Rat) / 1000000000 := by
    rw [div_le_div_iff_of_pos_right (by norm_num)]; exact this
  have g4' : (((Bucket.new size rate t0).run R ops).1 : Rat) + ((Bucket.new size rate t0).run R ops).2.avail ≤
    size + r * ((((Bucket.new size rate t0).run R ops).2.last - t0 : Nat) : Rat) / 1000000000 := g4
  linarith

example : Sane 100 10 0 3600000000000 := ⟨⟨102400, by norm_num⟩, by norm_num, by norm_num, by norm_num, by norm_num⟩

/-- C57 (part). Over any later period `t1 … t2` at most `2 * size + r * seconds elapsed` requests are sampled. Missing: the factor 1 of the
bucket size, which fails (`burst_violated`). -/
theorem window_bound_partial {R : Rnd} {size : Rat} {r rate : Int} {t0 t1 t2 : Nat} (hs : Sane size r t0 t2) (h0 : 0 ≤ rate) (h1 : rate ≤ r)
    {before ops : List Op} (hb : Within t0 t1 before) (hrb : RatesUpTo r before) (hw : Within t1 t2 ops) (hr : RatesUpTo r ops) :
    ((((Bucket.new size rate t0).run R before).2.run R ops).1 : Rat) ≤ 2 * size + r * ((t2 - t1 : Nat) : Rat) / 1000000000 := by
  have hrr : (0 : Rat) ≤ r := by exact_mod_cast hs.rate
  have h12 := hw.le
  have h01 := hb.le
  have hsb : Sane size r t0 t1 := by
    refine ⟨hs.grain, hs.pos, hs.le, hs.rate, ?_⟩
    have : ((t1 - t0 : Nat) : Int) ≤ ((t2 - t0 : Nat) : Int) := by omega
    exact (mul_le_mul_of_nonneg_left this hs.rate).trans hs.time
  obtain ⟨g1, g2, g3, _⟩ := run_bound (R := R) hsb before _ (ok_new hsb h0 h1) (le_refl _) (le_refl _) hb hrb
  have hT : t0 ≤ ((Bucket.new size rate t0).run R before).2.last := g2
  generalize ((Bucket.new size rate t0).run R before).2 = b at g1 g3 hT ⊢
  clear hb hrb g2
  -- up to the first refill at most `avail` are sampled
  suffices H : ∀ (ops : List Op) (b : Bucket) (t : Nat), Ok b size r → t0 ≤ b.last → b.last ≤ t → t1 ≤ t → Within t t2 ops → RatesUpTo r ops →
      (b.run R ops).1 ≤ b.avail + size + r * ((t2 - t1 : Nat) : Rat) / 1000000000 by
    have := H ops b t1 g1 hT g3 (le_refl _) hw hr
    have := g1.le
    linarith
  clear g1 hT g3 hw hr
  intro ops
  induction ops with
  | nil =>
    intro b t ho _ _ _ _ _
    have h1 := ho.nonneg
    have h2 := hs.pos
    have h3 : (0 : Rat) ≤ r * ((t2 - t1 : Nat) : Rat) / 1000000000 := by positivity
    show ((0 : Nat) : Rat) ≤ _
    push_cast; linarith
  | cons o ops ih =>
    intro b t ho hT hl htt hw hr
    cases o with
    | setRate x =>
      have hx := hr x List.mem_cons_self
      exact ih (b.update x) t ⟨ho.size_eq, ho.grain, ho.nonneg, ho.le, hx.1, hx.2⟩ hT hl htt hw (fun y hy => hr y (List.mem_cons_of_mem _ hy))
    | ask u =>
      obtain ⟨ht, hw⟩ := hw
      have htl := hl.trans ht
      obtain ⟨hok, hc⟩ := check_cases (R := R) hs ho hT htl hw.le
      have hrest : RatesUpTo r ops := fun y hy => hr y (List.mem_cons_of_mem _ hy)
      show ((((if (b.check R u).1 then 1 else 0) + ((b.check R u).2.run R ops).1 : Nat)) : Rat) ≤ _
      rcases hc with ⟨c1, c2, c3⟩ | ⟨c2, c3, c4, _⟩
      · have := ih (b.check R u).2 u hok (by omega) (by omega) (htt.trans ht) hw hrest
        rw [c1, if_pos rfl]
        rw [c3] at this
        push_cast
        linarith
      · obtain ⟨k1, k2, k3, k4⟩ := run_bound (R := R) hs ops (b.check R u).2 hok (by omega) (le_of_eq c2) hw hrest
        have hm : (b.check R u).2.avail + (if (b.check R u).1 then (1 : Rat) else 0) ≤ size := by rw [c4]; exact min_le_right _ _
        have hle : ((((b.check R u).2.run R ops).2.last - (b.check R u).2.last : Nat) : Rat) ≤ ((t2 - t1 : Nat) : Rat) := by
          have : ((b.check R u).2.run R ops).2.last - (b.check R u).2.last ≤ t2 - t1 := by omega
          exact_mod_cast this
        have hmul := mul_le_mul_of_nonneg_left hle hrr
        have h2 : (r : Rat) * ((((b.check R u).2.run R ops).2.last - (b.check R u).2.last : Nat) : Rat) / 1000000000 ≤
            r * ((t2 - t1 : Nat) : Rat) / 1000000000 := by
          rw [div_le_div_iff_of_pos_right (by norm_num)]; exact hmul
        have := k1.nonneg
        have := ho.nonneg
        push_cast
        linarith

theorem rnd_fin (R : Rnd) (m : Nat) (h : m ≤ 2 ^ 42) : R.rnd (m : Rat) = m := by
  apply R.exact
  refine representable_grain ⟨m * 1024, by push_cast; ring⟩ (Nat.cast_nonneg _) ?_
  exact_mod_cast h

/-- A full bucket serves `n` requests at once. -/
theorem run_drain (R : Rnd) (n m : Nat) (t : Nat) (rate : Int) (size : Rat) (last : Nat) (h : n + m ≤ 2 ^ 42) :
    (Bucket.mk rate ((n + m : Nat) : Rat) size last).run R (List.replicate n (.ask t)) = (n, ⟨rate, (m : Nat), size, last⟩) := by
  induction n with
  | zero => simp [Bucket.run]
  | succ n ih =>
    have hc : (Bucket.mk rate ((n + 1 + m : Nat) : Rat) size last).check R t = (true, ⟨rate, ((n + m : Nat) : Rat), size, last⟩) := by
      have h1 : (1 : Rat) ≤ ((n + 1 + m : Nat) : Rat) := by
        have : 1 ≤ n + 1 + m := by omega
        exact_mod_cast this
      have h2 : ((n + 1 + m : Nat) : Rat) - 1 = ((n + m : Nat) : Rat) := by push_cast; ring
      simp only [Bucket.check, if_pos h1, h2, rnd_fin R _ (show n + m ≤ 2 ^ 42 by omega)]
    rw [List.replicate_succ]
    simp only [Bucket.run, hc, ih (by omega), if_true]
    rw [Nat.add_comm]

/-- C57 (finding). Bursts of twice the bucket size: after an hour without requests a limiter of size 100 at 1 trace per second samples 200
requests made at one moment, as the elapsed time is credited only when the bucket has run empty. -/
theorem burst_violated (R : Rnd) :
    ((Bucket.new 100 1 0).run R (List.replicate 200 (.ask 3600000000000))).1 = 200 := by
  have e : List.replicate 200 (Op.ask 3600000000000) =
      List.replicate 100 (.ask 3600000000000) ++ (.ask 3600000000000 :: List.replicate 99 (.ask 3600000000000)) := by
    show List.replicate (100 + (99 + 1)) _ = _
    rw [List.replicate_add]; rfl
  have happ : ∀ (a c : List Op) (b : Bucket), b.run R (a ++ c) = ((b.run R a).1 + ((b.run R a).2.run R c).1, ((b.run R a).2.run R c).2) := by
    intro a c
    induction a with
    | nil => intro b; simp [Bucket.run]
    | cons o a ih =>
      intro b
      cases o with
      | ask t => simp only [List.cons_append, Bucket.run, ih, Nat.add_assoc]
      | setRate x => simp only [List.cons_append, Bucket.run, ih]
  have h1 := run_drain R 100 0 3600000000000 1 100 0 (by norm_num)
  have hb : Bucket.new 100 1 0 = ⟨1, ((100 + 0 : Nat) : Rat), 100, 0⟩ := by simp [Bucket.new]
  rw [e, happ, hb, h1]
  have hc : (Bucket.mk 1 ((0 : Nat) : Rat) 100 0).check R 3600000000000 = (true, ⟨1, ((99 + 0 : Nat) : Rat), 100, 3600000000000⟩) := by
    have e1 : R.rnd ((secs (3600000000000 - 0) : Rat) * (1 : Int)) = ((3600 : Nat) : Rat) := by
      have : (secs (3600000000000 - 0) : Rat) * ((1 : Int) : Rat) = ((3600 : Nat) : Rat) := by norm_num [secs]
      rw [this]; exact rnd_fin R 3600 (by norm_num)
    have e2 : R.rnd (((3600 : Nat) : Rat) + ((0 : Nat) : Rat)) = ((3600 : Nat) : Rat) := by
      have : ((3600 : Nat) : Rat) + ((0 : Nat) : Rat) = ((3600 : Nat) : Rat) := by norm_num
      rw [this]; exact rnd_fin R 3600 (by norm_num)
    have e3 : min ((3600 : Nat) : Rat) 100 = 100 := by norm_num
    have e4 : R.rnd ((100 : Rat) - 1) = ((99 + 0 : Nat) : Rat) := by
      have : (100 : Rat) - 1 = ((99 : Nat) : Rat) := by norm_num
      rw [this]; exact rnd_fin R 99 (by norm_num)
    simp only [Bucket.check, e1, e2, e3, e4]
    norm_num
  simp only [Bucket.run, hc, if_true, run_drain R 99 0 3600000000000 1 100 3600000000000 (by norm_num)]

/-- `n` requests, one every `d` nanoseconds after `t`. -/
def every (d t : Nat) : Nat → List Op
  | 0 => []
  | n + 1 => .ask (t + d) :: every d (t + d) n

/-- C57 (finding). Starvation: once the bucket is empty, requests that come more often than once per second are never sampled again, at any
rate the server allows and however long it goes on, because every refused request resets the clock and only whole seconds are credited. -/
theorem starvation_violated (R : Rnd) (rate : Int) (size : Rat) (hsz : 0 ≤ size) (t d : Nat) (hd : d < 1000000000) (n : Nat) :
    ((Bucket.mk rate 0 size t).run R (every d t n)).1 = 0 ∧ ((Bucket.mk rate 0 size t).run R (every d t n)).2.last = t + n * d := by
  induction n generalizing t with
  | zero => simp [every, Bucket.run]
  | succ n ih =>
    have hc : (Bucket.mk rate 0 size t).check R (t + d) = (false, ⟨rate, 0, size, t + d⟩) := by
      have e0 : secs (t + d - t) = 0 := by rw [Nat.add_sub_cancel_left]; exact Nat.div_eq_of_lt hd
      have e1 : R.rnd 0 = 0 := by simpa using rnd_fin R 0 (by norm_num)
      have e2 : min (0 : Rat) size = 0 := min_eq_left hsz
      simp only [Bucket.check, e0, Nat.cast_zero, zero_mul, add_zero, e1, e2]
      norm_num
    simp only [every, Bucket.run, hc]
    obtain ⟨h1, h2⟩ := ih (t + d)
    refine ⟨by simp [h1], ?_⟩
    rw [h2, Nat.succ_mul]; omega

example : every 500000000 0 3 = [.ask 500000000, .ask 1000000000, .ask 1500000000] := rfl

/-- C57 (part). Recovery: a request that comes at least `k` whole seconds after the last refused or refilling one is sampled, if `k` times
the rate makes a whole trace. Missing: recovery under frequent requests (`starvation_violated`). -/
theorem recovery_partial {R : Rnd} {size : Rat} {r rate : Int} {t0 t1 t : Nat} (hs : Sane size r t0 t1) (h1s : 1 ≤ size) (h0 : 0 ≤ rate) (h1 : rate ≤ r)
    {ops : List Op} (hw : Within t0 t ops) (hr : RatesUpTo r ops) {k : Nat} {u : Nat} (hu : t ≤ u) (hu1 : u ≤ t1)
    (hk : ((Bucket.new size rate t0).run R ops).2.last + k * 1000000000 ≤ u)
    (hkr : 1 ≤ k * ((Bucket.new size rate t0).run R ops).2.rate) :
    (((Bucket.new size rate t0).run R ops).2.check R u).1 = true := by
  have h0t := hw.le
  have hsb : Sane size r t0 t := by
    refine ⟨hs.grain, hs.pos, hs.le, hs.rate, ?_⟩
    have : ((t - t0 : Nat) : Int) ≤ ((t1 - t0 : Nat) : Int) := by omega
    exact (mul_le_mul_of_nonneg_left this hs.rate).trans hs.time
  obtain ⟨g1, g2, g3, _⟩ := run_bound (R := R) hsb ops _ (ok_new hsb h0 h1) (le_refl _) (le_refl _) hw hr
  generalize ((Bucket.new size rate t0).run R ops).2 = b at *
  obtain ⟨_, hc⟩ := check_cases (R := R) hs g1 g2 (g3.trans hu) hu1
  rcases hc with ⟨c1, _⟩ | ⟨_, _, _, c⟩
  · exact c1
  · rw [c]
    refine le_min ?_ h1s
    have hsec : k ≤ secs (u - b.last) := by
      rw [secs, Nat.le_div_iff_mul_le (by norm_num)]; omega
    have h2 : (k : Int) * b.rate ≤ secs (u - b.last) * b.rate := mul_le_mul_of_nonneg_right (by exact_mod_cast hsec) g1.rate0
    have h3 : (1 : Rat) ≤ (secs (u - b.last) : Rat) * b.rate := by exact_mod_cast hkr.trans h2
    have := g1.nonneg
    linarith

/-- C57 (outside the quantifier). When the clock reads earlier than the last refill, an empty limiter samples every request and does not count
it: there is no bound at all until the clock has caught up. -/
theorem rewind_unlimited (R : Rnd) (rate : Int) (size avail : Rat) (last t : Nat) (ha : avail < 1) (ht : t < last) (n : Nat) :
    (Bucket.mk rate avail size last).run R (List.replicate n (.ask t)) = (n, ⟨rate, avail, size, last⟩) := by
  induction n with
  | zero => rfl
  | succ n ih =>
    have hc : (Bucket.mk rate avail size last).check R t = (true, ⟨rate, avail, size, last⟩) := by
      simp only [Bucket.check, if_neg (not_le.2 ha), if_neg (not_le.2 ht)]
    rw [List.replicate_succ]
    simp only [Bucket.run, hc, ih, if_true]
    rw [Nat.add_comm]

end Otel.Sdk.RateLimit
