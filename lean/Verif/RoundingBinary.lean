import Verif.Rounding
import Mathlib.Data.Int.Log
import Mathlib.Data.Real.Sqrt
import Mathlib.Algebra.Order.Round
import Mathlib.Tactic.NormNum
/-
Binary floating-point arithmetic with a (p+1)-bit significand, rounding to nearest, and unbounded exponents: an instance of the standard model of
`Rounding.lean` (p = 52 and u = 2⁻⁵³ for `double`).
-/
namespace Blast

/-- scalars computed with `p+1` bit significands -/
def Fl (_p : Nat) : Type := ℝ

/-- the field structure of the real numbers -/
noncomputable instance (p : Nat) : Field (Fl p) := inferInstanceAs (Field ℝ)
/-- the order of the real numbers -/
noncomputable instance (p : Nat) : LinearOrder (Fl p) := inferInstanceAs (LinearOrder ℝ)
/-- field and order are compatible -/
instance (p : Nat) : IsStrictOrderedRing (Fl p) := inferInstanceAs (IsStrictOrderedRing ℝ)

/-- rounding to nearest with a `p+1` bit significand -/
noncomputable def rnd (p : Nat) (x : ℝ) : ℝ := (round (x / (2 : ℝ) ^ (Int.log 2 |x| - p)) : ℝ) * (2 : ℝ) ^ (Int.log 2 |x| - p)

theorem rnd_err (p : Nat) (x : ℝ) : |rnd p x - x| ≤ (1 / 2 : ℝ) ^ (p + 1) * |x| := by
  by_cases hx : x = 0
  · subst hx; simp [rnd]
  · have hpos : 0 < |x| := abs_pos.2 hx
    have hlog : (2 : ℝ) ^ Int.log 2 |x| ≤ |x| := by
      have := Int.zpow_log_le_self (b := 2) (r := |x|) (by norm_num) hpos
      exact_mod_cast this
    unfold rnd
    set e := Int.log 2 |x| - (p : Int) with he
    have hE : (0 : ℝ) < (2 : ℝ) ^ e := zpow_pos (by norm_num) e
    have h1 : |x / (2 : ℝ) ^ e - (round (x / (2 : ℝ) ^ e) : ℝ)| ≤ 1 / 2 := abs_sub_round _
    have h2 : (round (x / (2 : ℝ) ^ e) : ℝ) * 2 ^ e - x = -((x / (2 : ℝ) ^ e - (round (x / (2 : ℝ) ^ e) : ℝ)) * 2 ^ e) := by
      field_simp; ring
    rw [h2, abs_neg, abs_mul, abs_of_pos hE]
    have h3 : (2 : ℝ) ^ e = (2 : ℝ) ^ Int.log 2 |x| * (1 / 2) ^ p := by
      rw [he, zpow_sub₀ (by norm_num), zpow_natCast]
      field_simp
      rw [← mul_pow]; norm_num
    calc |x / (2 : ℝ) ^ e - (round (x / (2 : ℝ) ^ e) : ℝ)| * 2 ^ e ≤ 1 / 2 * 2 ^ e := by gcongr
      _ = 1 / 2 * ((2 : ℝ) ^ Int.log 2 |x| * (1 / 2) ^ p) := by rw [h3]
      _ ≤ 1 / 2 * (|x| * (1 / 2) ^ p) := by gcongr
      _ = (1 / 2 : ℝ) ^ (p + 1) * |x| := by ring

/-- the rounded operations of this arithmetic -/
noncomputable instance (p : Nat) : Arith (Fl p) where
  zero := (0 : ℝ)
  one := (1 : ℝ)
  add := fun a b => rnd p ((show ℝ from a) + (show ℝ from b))
  sub := fun a b => rnd p ((show ℝ from a) - (show ℝ from b))
  mul := fun a b => rnd p ((show ℝ from a) * (show ℝ from b))
  div := fun a b => rnd p ((show ℝ from a) / (show ℝ from b))
  neg := fun a => -(show ℝ from a)
  sqrt := fun a => rnd p (Real.sqrt a)
  fma := fun a b c => rnd p ((show ℝ from a) * (show ℝ from b) + (show ℝ from c))
  fnma := fun a b c => rnd p ((show ℝ from c) - (show ℝ from a) * (show ℝ from b))
  abs := fun a => |(show ℝ from a)|
  gt := fun a b => open Classical in decide ((show ℝ from b) < (show ℝ from a))
  eq := fun a b => open Classical in decide ((show ℝ from a) = (show ℝ from b))

/-- unit roundoff -/
noncomputable def flU (p : Nat) : Fl p := ((1 / 2 : ℝ) ^ (p + 1) : ℝ)

/-- every operation satisfies the rounding bound -/
instance (p : Nat) : RoundedSqrt (flU p) where
  u_nonneg := by show (0 : ℝ) ≤ (1 / 2 : ℝ) ^ (p + 1); positivity
  u_lt_one := by show (1 / 2 : ℝ) ^ (p + 1) < 1; exact pow_lt_one₀ (by norm_num) (by norm_num) (by omega)
  zero_eq := rfl
  one_eq := rfl
  neg_eq := fun _ => rfl
  add_err := fun a b => rnd_err p ((show ℝ from a) + (show ℝ from b))
  sub_err := fun a b => rnd_err p ((show ℝ from a) - (show ℝ from b))
  mul_err := fun a b => rnd_err p ((show ℝ from a) * (show ℝ from b))
  div_err := fun a b _ => rnd_err p ((show ℝ from a) / (show ℝ from b))
  fma_err := fun a b c => rnd_err p ((show ℝ from a) * (show ℝ from b) + (show ℝ from c))
  fnma_err := fun a b c => rnd_err p ((show ℝ from c) - (show ℝ from a) * (show ℝ from b))
  abs_eq := fun _ => rfl
  gt_iff := fun a b => by show decide _ = true ↔ _; rw [decide_eq_true_iff]; exact Iff.rfl
  eq_iff := fun a b => by show decide _ = true ↔ _; rw [decide_eq_true_iff]; exact Iff.rfl
  sqrt_err := fun a ha => ⟨Real.sqrt a, Real.sqrt_nonneg _, Real.mul_self_sqrt ha, by
    have h := rnd_err p (Real.sqrt a)
    have e : |Real.sqrt (show ℝ from a)| = Real.sqrt (show ℝ from a) := abs_of_nonneg (Real.sqrt_nonneg (show ℝ from a))
    exact le_trans h (le_of_eq (congrArg (fun t => (1 / 2 : ℝ) ^ (p + 1) * t) e))⟩

/-- The model is not exact: with 1-bit significands 3 rounds to 4. -/
example : rnd 0 3 = 4 := by
  have h : Int.log 2 |(3 : ℝ)| = 1 := by
    rw [abs_of_nonneg (by norm_num), show (3 : ℝ) = ((3 : Nat) : ℝ) by norm_num, Int.log_natCast]
    have : Nat.log 2 3 = 1 := by decide +kernel
    rw [this]; rfl
  unfold rnd
  rw [h]
  have : round ((3 : ℝ) / 2 ^ ((1 : Int) - (0 : Nat))) = 2 := by
    rw [round_eq]
    norm_num
  rw [this]; norm_num

end Blast
