import Verif.RegLemmas
import Mathlib.Algebra.BigOperators.Group.Finset.Basic
import Mathlib.Algebra.BigOperators.Ring.Finset
import Mathlib.Algebra.Order.Field.Basic
import Mathlib.Tactic.Ring
import Mathlib.Tactic.Linarith
import Mathlib.Data.Rat.Defs
import Mathlib.Algebra.Order.Field.Rat
/-
Exact arithmetic: the interpretation of the library's scalar operations as the operations of a
commutative ring, field, ordered field.  Theorems that talk about mathematical results ("equals
alpha*A*B + beta*C") assume one of these; theorems about memory, control flow and bitwise
reproducibility assume only `[Arith V]`.
-/
namespace Blast
open Finset

/-- the ring operations are exact -/
class ExactRing (V : Type) [CommRing V] [Arith V] : Prop where
  zero_eq : (Arith.zero : V) = 0
  one_eq : (Arith.one : V) = 1
  add_eq : ∀ a b : V, Arith.add a b = a + b
  sub_eq : ∀ a b : V, Arith.sub a b = a - b
  mul_eq : ∀ a b : V, Arith.mul a b = a * b
  neg_eq : ∀ a : V, Arith.neg a = -a
  fma_eq : ∀ a b c : V, Arith.fma a b c = a * b + c
  fnma_eq : ∀ a b c : V, Arith.fnma a b c = c - a * b
  eq_iff : ∀ a b : V, Arith.eq a b = true ↔ a = b

/-- division is exact too (the field convention `x / 0 = 0` is never relied on: theorems using
division assume or prove that the divisor is not zero) -/
class ExactField (V : Type) [Field V] [Arith V] : Prop extends ExactRing V where
  div_eq : ∀ a b : V, b ≠ 0 → Arith.div a b = a / b

/-- comparisons and absolute value are those of a linearly ordered field -/
class ExactOrd (V : Type) [Field V] [LinearOrder V] [IsStrictOrderedRing V] [Arith V] : Prop
    extends ExactField V where
  abs_eq : ∀ a : V, Arith.abs a = |a|
  gt_iff : ∀ a b : V, Arith.gt a b = true ↔ b < a

/-- The rationals as scalars. `sqrt` is not meaningful here (the identity); no theorem about rationals
uses it. -/
instance : Arith Rat where
  zero := 0
  one := 1
  add := (· + ·)
  sub := (· - ·)
  mul := (· * ·)
  div := (· / ·)
  neg := fun a => -a
  sqrt := id
  fma := fun a b c => a * b + c
  fnma := fun a b c => c - a * b
  abs := fun a => |a|
  gt := fun a b => decide (b < a)
  eq := fun a b => decide (a = b)

/-- the ExactOrd structure -/
instance : ExactOrd Rat where
  zero_eq := rfl
  one_eq := rfl
  add_eq := fun _ _ => rfl
  sub_eq := fun _ _ => rfl
  mul_eq := fun _ _ => rfl
  neg_eq := fun _ => rfl
  fma_eq := fun _ _ _ => rfl
  fnma_eq := fun _ _ _ => rfl
  eq_iff := fun _ _ => decide_eq_true_iff
  div_eq := fun _ _ _ => rfl
  abs_eq := fun _ => rfl
  gt_iff := fun _ _ => decide_eq_true_iff

variable {V : Type}

theorem fmaSum_eq [CommRing V] [Arith V] [ExactRing V] (a b : Nat → V) (c : V) (K : Nat) :
    fmaSum a b c K = c + ∑ k ∈ range K, a k * b k := by
  induction K with
  | zero => simp [fmaSum]
  | succ K ih =>
    rw [sum_range_succ]
    show Arith.fma (a K) (b K) (fmaSum a b c K) = _
    rw [ExactRing.fma_eq, ih]; ring

end Blast
