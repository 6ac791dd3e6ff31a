import Verif.Rounding
import Verif.Reference
import Verif.Ger
import Verif.Potrf
import Mathlib.Algebra.Order.Ring.Pow
/-
Backward error analysis in rounded arithmetic: chains of subtractions, divisions and square roots.

The errors are expressed relative to computed quantities, so the unit is `v = u / (1 - u)`, i.e. `1 + v = 1 / (1 - u)`.
-/
set_option linter.unusedSectionVars false
namespace Blast
open Finset
variable {V : Type} [Field V] [LinearOrder V] [IsStrictOrderedRing V]

/-- the relative error of one operation with respect to its computed result -/
def bu (u : V) : V := u / (1 - u)

/-- (1/(1-u))^n - 1 in the usual form n u / (1 - n u) -/
theorem inv_pow_sub_one_le_gamma {u : V} (hu : 0 ≤ u) (hu1 : u < 1) (n : Nat) (h : (n : V) * u < 1) :
    (1 / (1 - u)) ^ n - 1 ≤ (n : V) * u / (1 - (n : V) * u) := by
  have h1 : (0 : V) < 1 - n * u := by linarith
  have h2 : (0 : V) < 1 - u := by linarith
  have key : ∀ k : Nat, 1 - (k : V) * u ≤ (1 - u) ^ k := by
    intro k
    have := one_add_mul_le_pow (a := -u) (by linarith) k
    have e : 1 + (k : V) * -u = 1 - (k : V) * u := by ring
    rw [e] at this
    rwa [← sub_eq_add_neg] at this
  have h3 := key n
  rw [one_div, inv_pow, show ((n : V) * u) / (1 - (n : V) * u) = (1 - (n : V) * u)⁻¹ - 1 by field_simp; ring]
  have := inv_anti₀ h1 h3
  linarith

section
variable {u : V}

theorem bu_nonneg (hu : 0 ≤ u) (hu1 : u < 1) : 0 ≤ bu u := div_nonneg hu (by linarith)

theorem one_add_bu (hu1 : u < 1) : 1 + bu u = 1 / (1 - u) := by
  have : (1 : V) - u ≠ 0 := by have : (0 : V) < 1 - u := by linarith
                               exact ne_of_gt this
  unfold bu; field_simp; ring

theorem le_bu (hu : 0 ≤ u) (hu1 : u < 1) : u ≤ bu u := by
  unfold bu
  rw [le_div_iff₀ (by linarith)]
  nlinarith

/-- a rounding error relative to the exact result is one relative to the computed result -/
theorem back_err (hu1 : u < 1) {x z : V} (h : |z - x| ≤ u * |x|) : |x - z| ≤ bu u * |z| := by
  have h0 : (0 : V) < 1 - u := by linarith
  have h1 : |x| ≤ |x - z| + |z| := by
    have := abs_add_le (x - z) z
    simpa using this
  rw [abs_sub_comm] at h
  unfold bu
  rw [div_mul_eq_mul_div, le_div_iff₀ h0]
  by_cases hu : 0 ≤ u
  · nlinarith [mul_le_mul_of_nonneg_left h1 hu, abs_nonneg (x - z)]
  · have : u * |x| ≤ 0 := mul_nonpos_of_nonpos_of_nonneg (by linarith) (abs_nonneg x)
    have h2 : |x - z| ≤ 0 := le_trans h this
    have h3 : x = z := by
      have := abs_nonneg (x - z)
      have : |x - z| = 0 := le_antisymm h2 this
      exact sub_eq_zero.1 (abs_eq_zero.1 this)
    subst h3
    have h4 : |x| * u ≥ 0 := by
      have := h
      simp at this
      nlinarith
    simp
    nlinarith
end

/-! ### Relative perturbations -/

/-- `x` and `y` differ by a factor built of `n` roundings, relative to each of the two -/
structure Rel (v : V) (n : Nat) (x y : V) : Prop where
  right : |x - y| ≤ ((1 + v) ^ n - 1) * |y|
  left : |x - y| ≤ ((1 + v) ^ n - 1) * |x|

namespace Rel
variable {v : V} {n n' k : Nat} {x y z x' y' c : V}

theorem refl (v x : V) : Rel v 0 x x := ⟨by simp, by simp⟩

theorem symm (h : Rel v n x y) : Rel v n y x := ⟨by rw [abs_sub_comm]; exact h.left, by rw [abs_sub_comm]; exact h.right⟩

theorem mono (hv : 0 ≤ v) (h : Rel v n x y) (hn : n ≤ n') : Rel v n' x y := by
  have : (1 + v) ^ n ≤ (1 + v) ^ n' := pow_le_pow_right₀ (by linarith) hn
  exact ⟨le_trans h.right (mul_le_mul_of_nonneg_right (by linarith) (abs_nonneg _)),
    le_trans h.left (mul_le_mul_of_nonneg_right (by linarith) (abs_nonneg _))⟩

theorem near (h : Rel v n x y) : Near v n |y| x y := ⟨le_refl _, h.right⟩

/-- composition of one-sided bounds -/
theorem trans_right (hv : 0 ≤ v) (h : |x - y| ≤ ((1 + v) ^ n - 1) * |y|) (h' : |y - z| ≤ ((1 + v) ^ n' - 1) * |z|) :
    |x - z| ≤ ((1 + v) ^ (n + n') - 1) * |z| := by
  have h1 : |x - z| ≤ |x - y| + |y - z| := abs_sub_le x y z
  have h2 : |y| ≤ (1 + v) ^ n' * |z| := by
    have : |y| ≤ |y - z| + |z| := by
      have := abs_add_le (y - z) z
      simpa using this
    nlinarith
  have h3 := mul_le_mul_of_nonneg_left h2 (show 0 ≤ (1 + v) ^ n - 1 by have := Near.one_le_pow hv n; linarith)
  have : ((1 + v) ^ (n + n') - 1) * |z| = ((1 + v) ^ n - 1) * ((1 + v) ^ n' * |z|) + ((1 + v) ^ n' - 1) * |z| := by
    rw [pow_add]; ring
  linarith

theorem trans (hv : 0 ≤ v) (h : Rel v n x y) (h' : Rel v n' y z) : Rel v (n + n') x z := by
  refine ⟨trans_right hv h.right h'.right, ?_⟩
  rw [abs_sub_comm, Nat.add_comm n n']
  exact trans_right hv h'.symm.right h.symm.right

theorem mul (hv : 0 ≤ v) (h : Rel v n x y) (h' : Rel v n' x' y') : Rel v (n + n') (x * x') (y * y') := by
  refine ⟨?_, ?_⟩
  · have := (h.near.mul hv h'.near).err; rwa [abs_mul]
  · have := (h.symm.near.mul hv h'.symm.near).err; rwa [abs_mul, abs_sub_comm]

theorem neg (h : Rel v n x y) : Rel v n (-x) (-y) := by
  have e : -x - -y = -(x - y) := by ring
  exact ⟨by rw [e, abs_neg, abs_neg]; exact h.right, by rw [e, abs_neg, abs_neg]; exact h.left⟩

theorem cancel (hc : c ≠ 0) (h : Rel v n (x * c) (y * c)) : Rel v n x y := by
  have h0 : 0 < |c| := abs_pos.2 hc
  have e : x * c - y * c = (x - y) * c := by ring
  refine ⟨?_, ?_⟩
  · have := h.right
    rw [e, abs_mul, abs_mul, ← mul_assoc] at this
    exact le_of_mul_le_mul_right this h0
  · have := h.left
    rw [e, abs_mul, abs_mul, ← mul_assoc] at this
    exact le_of_mul_le_mul_right this h0

end Rel

/-- the result of one operation -/
theorem rel_of_err {u : V} (hu : 0 ≤ u) (hu1 : u < 1) {x z : V} (h : |z - x| ≤ u * |x|) : Rel (bu u) 1 z x := by
  have e : (1 + bu u) ^ 1 - 1 = bu u := by ring
  refine ⟨?_, ?_⟩
  · rw [e]; exact le_trans h (mul_le_mul_of_nonneg_right (le_bu hu hu1) (abs_nonneg _))
  · rw [e, abs_sub_comm]; exact back_err hu1 h

namespace Near
variable {v : V} {n n' a b : Nat} {B B' P P' x y z c s : V}

/-- replace the approximating number by one that is close to it -/
theorem rel (hv : 0 ≤ v) (h : Near v n B x y) (hz : Rel v n' z x) : Near v (n + n') B z y := by
  refine ⟨h.mag, ?_⟩
  have h1 : |z - y| ≤ |z - x| + |x - y| := abs_sub_le z x y
  have h2 := mul_le_mul_of_nonneg_left h.abs_le (show 0 ≤ (1 + v) ^ n' - 1 by have := one_le_pow hv n'; linarith)
  have h3 := h.err
  have h4 := hz.right
  have : ((1 + v) ^ (n + n') - 1) * B = ((1 + v) ^ n' - 1) * ((1 + v) ^ n * B) + ((1 + v) ^ n - 1) * B := by rw [pow_add]; ring
  linarith

/-- replace the number `s` of which `c` is an approximation by an expression that it approximates -/
theorem subst (hv : 0 ≤ v) (h : Near v a (|s| + P) c (s + P')) (hs : Near v b B s y) (hP : |P'| ≤ P) :
    Near v (a + b) (B + P) c (y + P') := by
  refine ⟨le_trans (abs_add_le _ _) (add_le_add hs.mag hP), ?_⟩
  have e : c - (y + P') = (c - (s + P')) + (s - y) := by ring
  have h1 : |c - (y + P')| ≤ |c - (s + P')| + |s - y| := by rw [e]; exact abs_add_le _ _
  have hP0 : 0 ≤ P := le_trans (abs_nonneg _) hP
  have hg : 0 ≤ (1 + v) ^ a - 1 := by have := one_le_pow hv a; linarith
  have hb := one_le_pow hv b
  have h2 : |s| + P ≤ (1 + v) ^ b * (B + P) := by
    have := hs.abs_le
    nlinarith
  have h3 := le_trans h.err (mul_le_mul_of_nonneg_left h2 hg)
  have h4 := hs.err
  have h5 : ((1 + v) ^ b - 1) * B ≤ ((1 + v) ^ b - 1) * (B + P) := mul_le_mul_of_nonneg_left (by linarith) (by linarith)
  have : ((1 + v) ^ (a + b) - 1) * (B + P) = ((1 + v) ^ a - 1) * ((1 + v) ^ b * (B + P)) + ((1 + v) ^ b - 1) * (B + P) := by
    rw [pow_add]; ring
  linarith

end Near

/-- one step `s' = s̃ - p̃` of a chain of subtractions, where `s̃`, `p̃` are close to `s`, `p` -/
theorem near_step {v : V} (hv : 0 ≤ v) {r q n : Nat} {s s' st p pt : V} (h1 : Rel v 1 s' (st - pt)) (h2 : Rel v r st s) (h3 : Rel v q pt p)
    (hn1 : 1 + r ≤ n) (hn2 : q + r ≤ n) : Near v n (|s'| + |p|) s (s' + p) := by
  obtain ⟨k, rfl⟩ : ∃ k, n = k + r := ⟨n - r, by omega⟩
  have a1 := h1.symm.near.mono hv (show 1 ≤ k by omega)
  have a2 := h3.near.mono hv (show q ≤ k by omega)
  have a3 := a1.add hv a2
  rw [sub_add_cancel] at a3
  exact a3.rel hv h2.symm

/-- a chain of subtractions: `s 0` is close to the last element plus everything that was subtracted -/
theorem near_chain {v : V} (hv : 0 ≤ v) {w : Nat} {s p : Nat → V} (n : Nat) (h : ∀ k, k < n → Near v w (|s (k + 1)| + |p k|) (s k) (s (k + 1) + p k)) :
    Near v (n * w) (|s n| + ∑ k ∈ range n, |p k|) (s 0) (s n + ∑ k ∈ range n, p k) := by
  induction n with
  | zero => simpa using Near.refl v (s 0)
  | succ n ih =>
    have h1 := ih (fun k hk => h k (by omega))
    have h2 := h1.subst hv (h n (by omega)) (abs_sum_le_sum_abs _ _)
    rw [sum_range_succ, sum_range_succ, Nat.succ_mul]
    rw [show |s (n + 1)| + (∑ k ∈ range n, |p k| + |p n|) = |s (n + 1)| + |p n| + ∑ k ∈ range n, |p k| by ring,
      show s (n + 1) + (∑ k ∈ range n, p k + p n) = s (n + 1) + p n + ∑ k ∈ range n, p k by ring]
    exact h2

/-! ### The chains of the code -/

variable [Arith V] {u : V} [hR : Rounded u]

theorem rel_mul (a b : V) : Rel (bu u) 1 (Arith.mul a b) (a * b) := rel_of_err hR.u_nonneg hR.u_lt_one (hR.mul_err a b)
theorem rel_sub (a b : V) : Rel (bu u) 1 (Arith.sub a b) (a - b) := rel_of_err hR.u_nonneg hR.u_lt_one (hR.sub_err a b)
theorem rel_fma (a b c : V) : Rel (bu u) 1 (Arith.fma a b c) (a * b + c) := rel_of_err hR.u_nonneg hR.u_lt_one (hR.fma_err a b c)
theorem rel_fnma (a b c : V) : Rel (bu u) 1 (Arith.fnma a b c) (c - a * b) := rel_of_err hR.u_nonneg hR.u_lt_one (hR.fnma_err a b c)
theorem rel_div {a b : V} (hb : b ≠ 0) : Rel (bu u) 1 (Arith.div a b) (a / b) := rel_of_err hR.u_nonneg hR.u_lt_one (hR.div_err a b hb)

/-- the quotient times the divisor is close to the dividend -/
theorem rel_div_mul {a b : V} (hb : b ≠ 0) : Rel (bu u) 1 (Arith.div a b * b) a := by
  have := (rel_div (u := u) (a := a) hb).mul (bu_nonneg hR.u_nonneg hR.u_lt_one) (Rel.refl (bu u) b)
  rwa [div_mul_cancel₀ a hb] at this

theorem buN : 0 ≤ bu u := bu_nonneg hR.u_nonneg hR.u_lt_one

/-- scalar code `v -= f(k)`, with a rounded product -/
theorem near_subFold {f p : Nat → V} (hf : ∀ k, Rel (bu u) 1 (f k) (p k)) (c : V) (lo n : Nat) :
    Near (bu u) n (|subFold f c lo n| + ∑ k ∈ range n, |p (lo + k)|) c (subFold f c lo n + ∑ k ∈ range n, p (lo + k)) := by
  have := near_chain (v := bu u) buN (w := 1) (s := fun k => subFold f c lo k) (p := fun k => p (lo + k)) n (fun k _ => by
    exact near_step buN (rel_sub _ _) (Rel.refl _ _) (hf (lo + k)) (le_refl _) (le_refl _))
  rw [Nat.mul_one] at this
  exact this

/-- accumulation of products by fnma -/
theorem near_fnmaSum (a b : Nat → V) (c : V) (n : Nat) :
    Near (bu u) n (|fnmaSum a b c n| + ∑ k ∈ range n, |a k * b k|) c (fnmaSum a b c n + ∑ k ∈ range n, a k * b k) := by
  have := near_chain (v := bu u) buN (w := 1) (s := fun k => fnmaSum a b c k) (p := fun k => a k * b k) n (fun k _ => by
    exact near_step buN (rel_fnma _ _ _) (Rel.refl _ _) (Rel.refl _ _) (le_refl _) (by omega))
  rw [Nat.mul_one] at this
  exact this

/-- accumulation by fma of products whose first factor is multiplied by -1 -/
theorem near_fmaNegSum (a b : Nat → V) (c : V) (n : Nat) :
    Near (bu u) n (|fmaSum (fun k => Arith.mul (Arith.neg Arith.one) (a k)) b c n| + ∑ k ∈ range n, |a k * b k|) c
      (fmaSum (fun k => Arith.mul (Arith.neg Arith.one) (a k)) b c n + ∑ k ∈ range n, a k * b k) := by
  have := near_chain (v := bu u) buN (w := 1) (s := fun k => fmaSum (fun k => Arith.mul (Arith.neg Arith.one) (a k)) b c k) (p := fun k => a k * b k) n (fun k _ => by
    have h1 : Rel (bu u) 1 (Arith.mul (Arith.neg Arith.one) (a k)) (-a k) := by
      have := rel_mul (u := u) (Arith.neg Arith.one) (a k)
      rwa [show (Arith.neg Arith.one : V) * a k = -a k by rw [hR.neg_eq, hR.one_eq, neg_one_mul]] at this
    have h2 := (h1.mul buN (Rel.refl (bu u) (b k))).neg
    rw [neg_mul, neg_neg] at h2
    refine near_step buN (st := fmaSum (fun k => Arith.mul (Arith.neg Arith.one) (a k)) b c k)
      (pt := -(Arith.mul (Arith.neg Arith.one) (a k) * b k)) ?_ (Rel.refl _ _) h2 (le_refl _) (le_refl _)
    have h3 := rel_fma (u := u) (Arith.mul (Arith.neg Arith.one) (a k)) (b k) (fmaSum (fun k => Arith.mul (Arith.neg Arith.one) (a k)) b c k)
    rw [show ∀ x y : V, x - -y = y + x from fun x y => by ring]
    exact h3)
  rw [Nat.mul_one] at this
  exact this

end Blast
