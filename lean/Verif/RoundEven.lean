import Verif.RoundingBinary
import Verif.Scaling
import Verif.RealArith
import Mathlib.Algebra.Group.Prod
import Mathlib.Algebra.Group.TypeTags.Basic
import Mathlib.Algebra.Group.Int.Units
/-
Binary floating-point arithmetic with a (p+1)-bit significand, rounding to nearest with ties to even (the default of IEEE 754), and unbounded exponents.
Multiplication by ±2^k is exact in it (class `Scaling`), and it satisfies the standard model of rounding (class `RoundedSqrt`).
-/
namespace Blast

/-- x ≥ 0 rounded to the nearest integer, ties to the even one -/
noncomputable def rne (x : ℝ) : ℤ :=
  if Int.fract x < 1 / 2 then ⌊x⌋ else if 1 / 2 < Int.fract x then ⌊x⌋ + 1 else if ⌊x⌋ % 2 = 0 then ⌊x⌋ else ⌊x⌋ + 1

theorem rne_err (x : ℝ) : |(rne x : ℝ) - x| ≤ 1 / 2 := by
  have h1 := Int.floor_add_fract x
  have h2 := Int.fract_nonneg x
  have h3 := (Int.fract_lt_one x).le
  unfold rne
  rw [abs_le]
  split
  · constructor <;> linarith
  · split
    · push_cast; constructor <;> linarith
    · split
      · constructor <;> linarith
      · push_cast; constructor <;> linarith

/-- a magnitude x ≥ 0 rounded to a (p+1)-bit significand -/
noncomputable def rndMag (p : Nat) (x : ℝ) : ℝ := (rne (x / (2 : ℝ) ^ (Int.log 2 x - p)) : ℝ) * (2 : ℝ) ^ (Int.log 2 x - p)

/-- rounding to nearest, ties to even, with a (p+1)-bit significand: sign and magnitude -/
noncomputable def rndE (p : Nat) (x : ℝ) : ℝ := if x < 0 then -rndMag p (-x) else rndMag p x

theorem rndMag_err (p : Nat) {x : ℝ} (hx : 0 ≤ x) : |rndMag p x - x| ≤ (1 / 2 : ℝ) ^ (p + 1) * x := by
  rcases hx.eq_or_lt with rfl | hpos
  · simp [rndMag, rne]
  · have hlog : (2 : ℝ) ^ Int.log 2 x ≤ x := by
      have := Int.zpow_log_le_self (b := 2) (r := x) (by norm_num) hpos
      exact_mod_cast this
    unfold rndMag
    set e := Int.log 2 x - (p : Int) with he
    have hE : (0 : ℝ) < (2 : ℝ) ^ e := zpow_pos (by norm_num) e
    have h1 := rne_err (x / (2 : ℝ) ^ e)
    have h2 : (rne (x / (2 : ℝ) ^ e) : ℝ) * 2 ^ e - x = ((rne (x / (2 : ℝ) ^ e) : ℝ) - x / (2 : ℝ) ^ e) * 2 ^ e := by
      field_simp
    rw [h2, abs_mul, abs_of_pos hE]
    have h3 : (2 : ℝ) ^ e = (2 : ℝ) ^ Int.log 2 x * (1 / 2) ^ p := by
      rw [he, zpow_sub₀ (by norm_num), zpow_natCast]
      field_simp
      rw [← mul_pow]; norm_num
    calc |(rne (x / (2 : ℝ) ^ e) : ℝ) - x / (2 : ℝ) ^ e| * 2 ^ e ≤ 1 / 2 * 2 ^ e := by gcongr
      _ = 1 / 2 * ((2 : ℝ) ^ Int.log 2 x * (1 / 2) ^ p) := by rw [h3]
      _ ≤ 1 / 2 * (x * (1 / 2) ^ p) := by gcongr
      _ = (1 / 2 : ℝ) ^ (p + 1) * x := by ring

theorem rndE_err (p : Nat) (x : ℝ) : |rndE p x - x| ≤ (1 / 2 : ℝ) ^ (p + 1) * |x| := by
  unfold rndE
  split
  · rename_i h
    have := rndMag_err p (x := -x) (by linarith)
    rw [abs_of_neg h, show -rndMag p (-x) - x = -(rndMag p (-x) - -x) by ring, abs_neg]
    exact this
  · rename_i h
    rw [abs_of_nonneg (not_lt.1 h)]
    exact rndMag_err p (not_lt.1 h)

theorem rndE_zero (p : Nat) : rndE p 0 = 0 := by
  have := rndE_err p 0
  rw [abs_zero, mul_zero, sub_zero] at this
  exact abs_eq_zero.1 (le_antisymm this (abs_nonneg _))

theorem rndE_neg (p : Nat) (x : ℝ) : rndE p (-x) = -rndE p x := by
  rcases lt_trichotomy x 0 with h | rfl | h
  · unfold rndE
    rw [if_neg (by linarith), if_pos h, neg_neg]
  · rw [neg_zero, rndE_zero, neg_zero]
  · unfold rndE
    rw [if_pos (by linarith), if_neg (by linarith), neg_neg]

theorem log_two_zpow_mul (k : ℤ) {x : ℝ} (hx : 0 < x) : Int.log 2 ((2 : ℝ) ^ k * x) = k + Int.log 2 x := by
  have hk : (0 : ℝ) < (2 : ℝ) ^ k := zpow_pos (by norm_num) k
  have h1 : (2 : ℝ) ^ Int.log 2 x ≤ x := by
    have := Int.zpow_log_le_self (b := 2) (r := x) (by norm_num) hx
    exact_mod_cast this
  have h2 : x < (2 : ℝ) ^ (Int.log 2 x + 1) := by
    have := Int.lt_zpow_succ_log_self (b := 2) (by norm_num) x
    exact_mod_cast this
  have h3 : 0 < (2 : ℝ) ^ k * x := mul_pos hk hx
  apply le_antisymm
  · have : Int.log 2 ((2 : ℝ) ^ k * x) < k + Int.log 2 x + 1 := by
      rw [← Int.lt_zpow_iff_log_lt (by norm_num) h3]
      rw [show ((2 : ℕ) : ℝ) = 2 by norm_num, add_assoc, zpow_add₀ (by norm_num)]
      gcongr
    omega
  · rw [← Int.zpow_le_iff_le_log (by norm_num) h3, show ((2 : ℕ) : ℝ) = 2 by norm_num, zpow_add₀ (by norm_num)]
    gcongr

theorem rndMag_zpow (p : Nat) (k : ℤ) {x : ℝ} (hx : 0 ≤ x) : rndMag p ((2 : ℝ) ^ k * x) = (2 : ℝ) ^ k * rndMag p x := by
  rcases hx.eq_or_lt with rfl | hpos
  · simp [rndMag, rne]
  · unfold rndMag
    rw [log_two_zpow_mul k hpos, add_sub_assoc, zpow_add₀ (by norm_num : (2 : ℝ) ≠ 0), mul_div_mul_left _ _ (zpow_ne_zero k (by norm_num))]
    ring

theorem rndE_zpow (p : Nat) (k : ℤ) (x : ℝ) : rndE p ((2 : ℝ) ^ k * x) = (2 : ℝ) ^ k * rndE p x := by
  have hk : (0 : ℝ) < (2 : ℝ) ^ k := zpow_pos (by norm_num) k
  unfold rndE
  by_cases h : x < 0
  · rw [if_pos h, if_pos (mul_neg_of_pos_of_neg hk h), show -((2 : ℝ) ^ k * x) = (2 : ℝ) ^ k * -x by ring, rndMag_zpow p k (by linarith)]
    ring
  · rw [if_neg h, if_neg (not_lt.2 (mul_nonneg hk.le (not_lt.1 h))), rndMag_zpow p k (not_lt.1 h)]

/-- scalars computed with `p+1` bit significands, ties to even -/
def Fe (_p : Nat) : Type := ℝ

/-- the field structure of the real numbers -/
noncomputable instance (p : Nat) : Field (Fe p) := inferInstanceAs (Field ℝ)
/-- the order of the real numbers -/
noncomputable instance (p : Nat) : LinearOrder (Fe p) := inferInstanceAs (LinearOrder ℝ)
/-- field and order are compatible -/
instance (p : Nat) : IsStrictOrderedRing (Fe p) := inferInstanceAs (IsStrictOrderedRing ℝ)

/-- the rounded operations of this arithmetic -/
noncomputable instance (p : Nat) : Arith (Fe p) where
  zero := (0 : ℝ)
  one := (1 : ℝ)
  add := fun a b => rndE p ((show ℝ from a) + (show ℝ from b))
  sub := fun a b => rndE p ((show ℝ from a) - (show ℝ from b))
  mul := fun a b => rndE p ((show ℝ from a) * (show ℝ from b))
  div := fun a b => rndE p ((show ℝ from a) / (show ℝ from b))
  neg := fun a => -(show ℝ from a)
  sqrt := fun a => rndE p (Real.sqrt a)
  fma := fun a b c => rndE p ((show ℝ from a) * (show ℝ from b) + (show ℝ from c))
  fnma := fun a b c => rndE p ((show ℝ from c) - (show ℝ from a) * (show ℝ from b))
  abs := fun a => |(show ℝ from a)|
  gt := fun a b => open Classical in decide ((show ℝ from b) < (show ℝ from a))
  eq := fun a b => open Classical in decide ((show ℝ from a) = (show ℝ from b))

/-- unit roundoff -/
noncomputable def feU (p : Nat) : Fe p := ((1 / 2 : ℝ) ^ (p + 1) : ℝ)

/-- every operation satisfies the rounding bound -/
instance (p : Nat) : RoundedSqrt (feU p) where
  u_nonneg := by show (0 : ℝ) ≤ (1 / 2 : ℝ) ^ (p + 1); positivity
  u_lt_one := by show (1 / 2 : ℝ) ^ (p + 1) < 1; exact pow_lt_one₀ (by norm_num) (by norm_num) (by omega)
  zero_eq := rfl
  one_eq := rfl
  neg_eq := fun _ => rfl
  add_err := fun a b => rndE_err p ((show ℝ from a) + (show ℝ from b))
  sub_err := fun a b => rndE_err p ((show ℝ from a) - (show ℝ from b))
  mul_err := fun a b => rndE_err p ((show ℝ from a) * (show ℝ from b))
  div_err := fun a b _ => rndE_err p ((show ℝ from a) / (show ℝ from b))
  fma_err := fun a b c => rndE_err p ((show ℝ from a) * (show ℝ from b) + (show ℝ from c))
  fnma_err := fun a b c => rndE_err p ((show ℝ from c) - (show ℝ from a) * (show ℝ from b))
  abs_eq := fun _ => rfl
  gt_iff := fun a b => by show decide _ = true ↔ _; rw [decide_eq_true_iff]; exact Iff.rfl
  eq_iff := fun a b => by show decide _ = true ↔ _; rw [decide_eq_true_iff]; exact Iff.rfl
  sqrt_err := fun a ha => ⟨Real.sqrt a, Real.sqrt_nonneg _, Real.mul_self_sqrt ha, by
    have h := rndE_err p (Real.sqrt a)
    have e : |Real.sqrt (show ℝ from a)| = Real.sqrt (show ℝ from a) := abs_of_nonneg (Real.sqrt_nonneg (show ℝ from a))
    exact le_trans h (le_of_eq (congrArg (fun t => (1 / 2 : ℝ) ^ (p + 1) * t) e))⟩

/-- the exact factors: a sign and a power of two -/
abbrev PowTwo : Type := ℤˣ × Multiplicative ℤ

/-- the factor as a real number -/
noncomputable def PowTwo.val (g : PowTwo) : ℝ := ((g.1 : ℤ) : ℝ) * (2 : ℝ) ^ (Multiplicative.toAdd g.2)

theorem PowTwo.val_mul (g h : PowTwo) : (g * h).val = g.val * h.val := by
  unfold PowTwo.val
  rw [Prod.fst_mul, Prod.snd_mul, toAdd_mul, zpow_add₀ (by norm_num : (2 : ℝ) ≠ 0)]
  push_cast
  ring

theorem PowTwo.val_one : (1 : PowTwo).val = 1 := by
  unfold PowTwo.val
  rw [Prod.fst_one, Prod.snd_one, toAdd_one, zpow_zero]
  norm_num

theorem PowTwo.val_ne (g : PowTwo) : g.val ≠ 0 := by
  intro h
  have := PowTwo.val_mul g g⁻¹
  rw [mul_inv_cancel, PowTwo.val_one, h, zero_mul] at this
  exact one_ne_zero this

theorem PowTwo.val_div (g h : PowTwo) : (g / h).val = g.val / h.val := by
  rw [eq_div_iff (PowTwo.val_ne h), ← PowTwo.val_mul, div_mul_cancel]

theorem rndE_val (p : Nat) (g : PowTwo) (x : ℝ) : rndE p (g.val * x) = g.val * rndE p x := by
  unfold PowTwo.val
  rcases Int.units_eq_one_or g.1 with h | h
  · rw [h]
    push_cast
    rw [one_mul]
    exact rndE_zpow p _ x
  · rw [h]
    push_cast
    rw [show ∀ y z : ℝ, -1 * y * z = -(y * z) from fun y z => by ring, show ∀ y z : ℝ, -1 * y * z = -(y * z) from fun y z => by ring, rndE_neg, rndE_zpow]

/-- operations commute with scaling by powers of two -/
noncomputable instance (p : Nat) : ScalingSqrt PowTwo (Fe p) where
  act := fun g x => (g.val * (show ℝ from x) : ℝ)
  one_act := fun x => by show (1 : PowTwo).val * (show ℝ from x) = x; rw [PowTwo.val_one, one_mul]
  zero := fun g => by show g.val * (0 : ℝ) = 0; rw [mul_zero]
  add := fun g a b => by
    show rndE p (g.val * (show ℝ from a) + g.val * (show ℝ from b)) = g.val * rndE p (_ + _)
    rw [← rndE_val, mul_add]
  sub := fun g a b => by
    show rndE p (g.val * (show ℝ from a) - g.val * (show ℝ from b)) = g.val * rndE p (_ - _)
    rw [← rndE_val, mul_sub]
  mul := fun g h a b => by
    show rndE p (g.val * (show ℝ from a) * (h.val * (show ℝ from b))) = (g * h).val * rndE p (_ * _)
    rw [← rndE_val, PowTwo.val_mul, mul_mul_mul_comm]
  div := fun g h a b => by
    show rndE p (g.val * (show ℝ from a) / (h.val * (show ℝ from b))) = (g / h).val * rndE p (_ / _)
    rw [← rndE_val, PowTwo.val_div, mul_div_mul_comm]
  fma := fun g h a b c => by
    show rndE p (g.val * (show ℝ from a) * (h.val * (show ℝ from b)) + (g * h).val * (show ℝ from c)) = (g * h).val * rndE p (_ * _ + _)
    rw [← rndE_val, PowTwo.val_mul, mul_mul_mul_comm, mul_add]
  fnma := fun g h a b c => by
    show rndE p ((g * h).val * (show ℝ from c) - g.val * (show ℝ from a) * (h.val * (show ℝ from b))) = (g * h).val * rndE p (_ - _ * _)
    rw [← rndE_val, PowTwo.val_mul, mul_mul_mul_comm, mul_sub]
  gt_abs := fun g a b => by
    show decide (|g.val * (show ℝ from b)| < |g.val * (show ℝ from a)|) = decide (|(show ℝ from b)| < |(show ℝ from a)|)
    rw [abs_mul, abs_mul]
    exact decide_eq_decide.2 (mul_lt_mul_iff_right₀ (abs_pos.2 (PowTwo.val_ne g)))
  eq_zero := fun g a => by
    show decide (g.val * (show ℝ from a) = 0) = decide ((show ℝ from a) = 0)
    exact decide_eq_decide.2 (by rw [mul_eq_zero, or_iff_right (PowTwo.val_ne g)])
  Pos := fun g => 0 < g.val
  sqrt := fun g a hg => by
    show rndE p (Real.sqrt ((g * g).val * (show ℝ from a))) = g.val * rndE p (Real.sqrt a)
    rw [← rndE_val, PowTwo.val_mul, Real.sqrt_mul (mul_self_nonneg _), Real.sqrt_mul_self hg.le]

/-- exact real arithmetic: all non-zero factors -/
noncomputable instance : ScalingSqrt ℝˣ ℝ where
  act := fun g x => (g : ℝ) * x
  one_act := fun x => by rw [Units.val_one, one_mul]
  zero := fun g => mul_zero _
  add := fun g a b => (mul_add _ _ _).symm
  sub := fun g a b => (mul_sub _ _ _).symm
  mul := fun g h a b => by rw [Units.val_mul]; exact mul_mul_mul_comm _ _ _ _
  div := fun g h a b => by
    rw [Units.val_div_eq_div_val]
    exact (mul_div_mul_comm _ _ _ _)
  fma := fun g h a b c => by
    show (g : ℝ) * a * ((h : ℝ) * b) + ((g * h : ℝˣ) : ℝ) * c = ((g * h : ℝˣ) : ℝ) * (a * b + c)
    rw [Units.val_mul, mul_mul_mul_comm, mul_add]
  fnma := fun g h a b c => by
    show ((g * h : ℝˣ) : ℝ) * c - (g : ℝ) * a * ((h : ℝ) * b) = ((g * h : ℝˣ) : ℝ) * (c - a * b)
    rw [Units.val_mul, mul_mul_mul_comm, mul_sub]
  gt_abs := fun g a b => by
    show decide (|(g : ℝ) * b| < |(g : ℝ) * a|) = decide (|b| < |a|)
    rw [abs_mul, abs_mul]
    exact decide_eq_decide.2 (mul_lt_mul_iff_right₀ (abs_pos.2 g.ne_zero))
  eq_zero := fun g a => by
    show decide ((g : ℝ) * a = 0) = decide (a = 0)
    exact decide_eq_decide.2 (by rw [mul_eq_zero, or_iff_right g.ne_zero])
  Pos := fun g => 0 < (g : ℝ)
  sqrt := fun g a hg => by
    show Real.sqrt (((g * g : ℝˣ) : ℝ) * a) = (g : ℝ) * Real.sqrt a
    rw [Units.val_mul, Real.sqrt_mul (mul_self_nonneg _), Real.sqrt_mul_self hg.le]

end Blast
