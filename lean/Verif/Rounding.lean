import Verif.Lawful
import Mathlib.Algebra.Order.Ring.Abs
import Mathlib.Algebra.Order.BigOperators.Group.Finset
import Mathlib.Algebra.Order.BigOperators.Ring.Finset
import Mathlib.Tactic.Positivity
import Mathlib.Tactic.GCongr
import Mathlib.Tactic.FieldSimp
/-
Rounded arithmetic: the standard model of floating-point arithmetic, fl(a op b) = (a op b)(1 + δ), |δ| ≤ u, with unit roundoff `u`
(u = 2⁻⁵³ for `double`, 2⁻²⁴ for `float`), and a calculus of forward errors.

IEEE 754 arithmetic satisfies the model as long as no operation overflows, underflows or is invalid. `RoundingBinary.lean` has an instance: rounding of
every result to nearest with a p-bit significand.
-/
namespace Blast
open Finset

/-- the operations of the library are correctly rounded up to a relative error `u` -/
class Rounded {V : Type} [Field V] [LinearOrder V] [IsStrictOrderedRing V] [Arith V] (u : V) : Prop where
  u_nonneg : 0 ≤ u
  u_lt_one : u < 1
  zero_eq : (Arith.zero : V) = 0
  one_eq : (Arith.one : V) = 1
  neg_eq : ∀ a : V, Arith.neg a = -a
  add_err : ∀ a b : V, |Arith.add a b - (a + b)| ≤ u * |a + b|
  sub_err : ∀ a b : V, |Arith.sub a b - (a - b)| ≤ u * |a - b|
  mul_err : ∀ a b : V, |Arith.mul a b - a * b| ≤ u * |a * b|
  div_err : ∀ a b : V, b ≠ 0 → |Arith.div a b - a / b| ≤ u * |a / b|
  fma_err : ∀ a b c : V, |Arith.fma a b c - (a * b + c)| ≤ u * |a * b + c|
  fnma_err : ∀ a b c : V, |Arith.fnma a b c - (c - a * b)| ≤ u * |c - a * b|
  abs_eq : ∀ a : V, Arith.abs a = |a|
  gt_iff : ∀ a b : V, Arith.gt a b = true ↔ b < a
  eq_iff : ∀ a b : V, Arith.eq a b = true ↔ a = b

/-- square roots are rounded as well; the field has the square roots -/
class RoundedSqrt {V : Type} [Field V] [LinearOrder V] [IsStrictOrderedRing V] [Arith V] (u : V) : Prop extends Rounded u where
  sqrt_err : ∀ a : V, 0 ≤ a → ∃ s, 0 ≤ s ∧ s * s = a ∧ |Arith.sqrt a - s| ≤ u * s

variable {V : Type} [Field V] [LinearOrder V] [IsStrictOrderedRing V]

/-- exact arithmetic is rounded arithmetic without error -/
instance [Arith V] [ExactOrd V] : Rounded (0 : V) where
  u_nonneg := le_refl _
  u_lt_one := zero_lt_one
  zero_eq := ExactRing.zero_eq
  one_eq := ExactRing.one_eq
  neg_eq := ExactRing.neg_eq
  add_err := fun a b => by rw [ExactRing.add_eq]; simp
  sub_err := fun a b => by rw [ExactRing.sub_eq]; simp
  mul_err := fun a b => by rw [ExactRing.mul_eq]; simp
  div_err := fun a b h => by rw [ExactField.div_eq a b h]; simp
  fma_err := fun a b c => by rw [ExactRing.fma_eq]; simp
  fnma_err := fun a b c => by rw [ExactRing.fnma_eq]; simp
  abs_eq := ExactOrd.abs_eq
  gt_iff := ExactOrd.gt_iff
  eq_iff := ExactRing.eq_iff

/-- the error bound (1+u)^n - 1 in the usual form n u / (1 - n u) -/
theorem pow_sub_one_le_gamma {u : V} (hu : 0 ≤ u) (n : Nat) (h : (n : V) * u < 1) :
    (1 + u) ^ n - 1 ≤ (n : V) * u / (1 - (n : V) * u) := by
  have h1 : (0 : V) < 1 - n * u := by linarith
  rw [le_div_iff₀ h1]
  have key : ∀ k : Nat, (1 + u) ^ k * (1 - k * u) ≤ 1 := by
    intro k
    induction k with
    | zero => simp
    | succ k ih =>
      have hp : 0 ≤ (1 + u) ^ k := by positivity
      have : (1 + u) * (1 - ((k + 1 : Nat) : V) * u) ≤ 1 - (k : V) * u := by
        push_cast
        have : 0 ≤ ((k : V) + 1) * u * u := by positivity
        nlinarith
      calc (1 + u) ^ (k + 1) * (1 - ((k + 1 : Nat) : V) * u) = (1 + u) ^ k * ((1 + u) * (1 - ((k + 1 : Nat) : V) * u)) := by ring
        _ ≤ (1 + u) ^ k * (1 - (k : V) * u) := mul_le_mul_of_nonneg_left this hp
        _ ≤ 1 := ih
  have := key n
  linarith

/-! ### Error calculus -/

/-- `x` approximates `y` with `n` roundings, relative to the magnitude `B` -/
structure Near (u : V) (n : Nat) (B x y : V) : Prop where
  mag : |y| ≤ B
  err : |x - y| ≤ ((1 + u) ^ n - 1) * B

namespace Near
variable {u : V} {n n' : Nat} {B B' x x' y y' : V}

theorem one_le_pow (hu : 0 ≤ u) (n : Nat) : 1 ≤ (1 + u) ^ n := one_le_pow₀ (by linarith)

theorem B_nonneg (h : Near u n B x y) : 0 ≤ B := le_trans (abs_nonneg y) h.mag

theorem refl (u y : V) : Near u 0 |y| y y := ⟨le_refl _, by simp⟩

theorem exact (h : |y| ≤ B) : Near u 0 B y y := ⟨h, by simp⟩

theorem abs_le (h : Near u n B x y) : |x| ≤ (1 + u) ^ n * B := by
  have h1 : |x| ≤ |x - y| + |y| := by
    have := abs_add_le (x - y) y
    simpa using this
  have := h.err
  have := h.mag
  nlinarith

theorem mono (hu : 0 ≤ u) (h : Near u n B x y) (hn : n ≤ n') : Near u n' B x y :=
  ⟨h.mag, le_trans h.err (mul_le_mul_of_nonneg_right (by
    have : (1 + u) ^ n ≤ (1 + u) ^ n' := pow_le_pow_right₀ (by linarith) hn
    linarith) h.B_nonneg)⟩

theorem mono_mag (hu : 0 ≤ u) (h : Near u n B x y) (hB : B ≤ B') : Near u n B' x y :=
  ⟨le_trans h.mag hB, le_trans h.err (mul_le_mul_of_nonneg_left hB (by have := one_le_pow hu n; linarith))⟩

/-- one more rounding -/
theorem round (hu : 0 ≤ u) (h : Near u n B x y) {z : V} (hz : |z - x| ≤ u * |x|) : Near u (n + 1) B z y := by
  refine ⟨h.mag, ?_⟩
  have h1 : |z - y| ≤ |z - x| + |x - y| := abs_sub_le z x y
  have h2 := mul_le_mul_of_nonneg_left h.abs_le hu
  have h3 := h.err
  have : ((1 + u) ^ (n + 1) - 1) * B = u * ((1 + u) ^ n * B) + ((1 + u) ^ n - 1) * B := by ring
  linarith

theorem add (hu : 0 ≤ u) (h : Near u n B x y) (h' : Near u n B' x' y') : Near u n (B + B') (x + x') (y + y') := by
  refine ⟨le_trans (abs_add_le y y') (add_le_add h.mag h'.mag), ?_⟩
  have h1 : x + x' - (y + y') = (x - y) + (x' - y') := by ring
  rw [h1]
  refine le_trans (abs_add_le _ _) ?_
  have := h.err
  have := h'.err
  rw [mul_add]; linarith

theorem neg (h : Near u n B x y) : Near u n B (-x) (-y) := by
  refine ⟨by rw [abs_neg]; exact h.mag, ?_⟩
  rw [show -x - -y = -(x - y) by ring, abs_neg]; exact h.err

theorem sub (hu : 0 ≤ u) (h : Near u n B x y) (h' : Near u n B' x' y') : Near u n (B + B') (x - x') (y - y') := by
  rw [sub_eq_add_neg, sub_eq_add_neg]; exact h.add hu h'.neg

theorem mul (hu : 0 ≤ u) (h : Near u n B x y) (h' : Near u n' B' x' y') : Near u (n + n') (B * B') (x * x') (y * y') := by
  have hB := h.B_nonneg
  have hB' := h'.B_nonneg
  refine ⟨by rw [abs_mul]; exact mul_le_mul h.mag h'.mag (abs_nonneg _) hB, ?_⟩
  have h1 : x * x' - y * y' = (x - y) * x' + y * (x' - y') := by ring
  rw [h1]
  refine le_trans (abs_add_le _ _) ?_
  rw [abs_mul, abs_mul]
  have e1 : |x - y| * |x'| ≤ ((1 + u) ^ n - 1) * B * ((1 + u) ^ n' * B') :=
    mul_le_mul h.err h'.abs_le (abs_nonneg _) (mul_nonneg (by have := one_le_pow hu n; linarith) hB)
  have e2 : |y| * |x' - y'| ≤ B * (((1 + u) ^ n' - 1) * B') := mul_le_mul h.mag h'.err (abs_nonneg _) hB
  have : ((1 + u) ^ (n + n') - 1) * (B * B') =
      ((1 + u) ^ n - 1) * B * ((1 + u) ^ n' * B') + B * (((1 + u) ^ n' - 1) * B') := by
    rw [pow_add]; ring
  linarith

end Near

variable [Arith V] {u : V} [hR : Rounded u]

theorem near_zero (n : Nat) : Near u n 0 (Arith.zero : V) 0 := by
  rw [hR.zero_eq]; exact (Near.exact (by rw [abs_zero])).mono hR.u_nonneg (Nat.zero_le n)

omit [Arith V] hR in
/-- the error bound, with the exact value and the magnitude in another form and the number of roundings enlarged -/
theorem Near.bound {n n' : Nat} {B B' x y y' : V} (h : Near u n B x y) (hu : 0 ≤ u) (hn : n ≤ n') (hy : y = y') (hB : B = B') :
    |x - y'| ≤ ((1 + u) ^ n' - 1) * B' := by
  subst hy hB; exact (h.mono hu hn).err

theorem near_mul {n n' : Nat} {B B' x x' y y' : V} (h : Near u n B x y) (h' : Near u n' B' x' y') :
    Near u (n + n' + 1) (B * B') (Arith.mul x x') (y * y') :=
  (h.mul hR.u_nonneg h').round hR.u_nonneg (hR.mul_err x x')

theorem near_fma {n n' k : Nat} {B B' C x x' y y' z w : V} (h : Near u n B x y) (h' : Near u n' B' x' y') (hz : Near u k C z w) (hk : n + n' ≤ k) :
    Near u (k + 1) (B * B' + C) (Arith.fma x x' z) (y * y' + w) :=
  (((h.mul hR.u_nonneg h').mono hR.u_nonneg hk).add hR.u_nonneg hz).round hR.u_nonneg (hR.fma_err x x' z)

theorem near_fnma {n n' k : Nat} {B B' C x x' y y' z w : V} (h : Near u n B x y) (h' : Near u n' B' x' y') (hz : Near u k C z w) (hk : n + n' ≤ k) :
    Near u (k + 1) (C + B * B') (Arith.fnma x x' z) (w - y * y') :=
  (hz.sub hR.u_nonneg ((h.mul hR.u_nonneg h').mono hR.u_nonneg hk)).round hR.u_nonneg (hR.fnma_err x x' z)

/-- accumulation of products by fma -/
theorem near_fmaSum {n k : Nat} {a b x y A B : Nat → V} {c z C : V} (K : Nat) (ha : ∀ t, t < K → Near u n (A t) (a t) (x t))
    (hb : ∀ t, t < K → Near u 0 (B t) (b t) (y t)) (hc : Near u k C c z) (hk : n ≤ k) :
    Near u (k + K) (C + ∑ t ∈ range K, A t * B t) (fmaSum a b c K) (z + ∑ t ∈ range K, x t * y t) := by
  induction K with
  | zero => simpa [fmaSum] using hc
  | succ K ih =>
    have h1 := ih (fun t ht => ha t (by omega)) (fun t ht => hb t (by omega))
    have h2 := near_fma (ha K (by omega)) (hb K (by omega)) h1 (by omega)
    rw [sum_range_succ, sum_range_succ]
    have e1 : A K * B K + (C + ∑ t ∈ range K, A t * B t) = C + (∑ t ∈ range K, A t * B t + A K * B K) := by ring
    have e2 : x K * y K + (z + ∑ t ∈ range K, x t * y t) = z + (∑ t ∈ range K, x t * y t + x K * y K) := by ring
    rw [e1, e2] at h2
    exact h2

end Blast
