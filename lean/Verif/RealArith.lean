import Verif.LinAlg
import Mathlib.Data.Real.Sqrt
/-
The real numbers as scalars: the instance that shows the exact-arithmetic classes, including exact square
roots, are inhabited.
-/
namespace Blast

/-- the Arith structure -/
noncomputable instance : Arith ℝ where
  zero := 0
  one := 1
  add := (· + ·)
  sub := (· - ·)
  mul := (· * ·)
  div := (· / ·)
  neg := fun a => -a
  sqrt := Real.sqrt
  fma := fun a b c => a * b + c
  fnma := fun a b c => c - a * b
  abs := fun a => |a|
  gt := fun a b => open Classical in decide (b < a)
  eq := fun a b => open Classical in decide (a = b)

/-- the ExactSqrt structure -/
instance : ExactSqrt ℝ where
  zero_eq := rfl
  one_eq := rfl
  add_eq := fun _ _ => rfl
  sub_eq := fun _ _ => rfl
  mul_eq := fun _ _ => rfl
  neg_eq := fun _ => rfl
  fma_eq := fun _ _ _ => rfl
  fnma_eq := fun _ _ _ => rfl
  eq_iff := fun _ _ => by show decide _ = true ↔ _; rw [decide_eq_true_iff]
  div_eq := fun _ _ _ => rfl
  abs_eq := fun _ => rfl
  gt_iff := fun _ _ => by show decide _ = true ↔ _; rw [decide_eq_true_iff]
  sqrt_pos := fun _ h => Real.sqrt_pos.2 h
  sqrt_sq := fun _ h => Real.mul_self_sqrt (le_of_lt h)

end Blast
