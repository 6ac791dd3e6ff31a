import Verif.RoundEven
import Verif.Ieee
import Verif.Determined
import Mathlib.Algebra.BigOperators.Intervals
import Mathlib.Algebra.Order.BigOperators.Ring.Finset
import Mathlib.Tactic.Linarith
import Mathlib.Tactic.Ring
import Mathlib.Tactic.Positivity
/-
Arithmetic that is exact on integers up to a bound: every operation whose operands and exact result are integers of modulus at most `bound` gives that result.
For binary floating-point numbers with p+1 bits the bound is 2^(p+1). The fused operations are required to be exact only if the product is within the bound as
well, so that unfused multiply-add is covered too. Used by Props/Integers (C82).
-/
namespace Blast
open Prog Reg Finset

/-- `num n` is the representation of the integer n -/
class ExactInts (V : Type) [Arith V] where
  bound : ℤ
  one_le : 1 ≤ bound
  num : ℤ → V
  zero : num 0 = Arith.zero
  one : num 1 = Arith.one
  neg : ∀ x : ℤ, |x| ≤ bound → Arith.neg (num x) = num (-x)
  add : ∀ x y : ℤ, |x| ≤ bound → |y| ≤ bound → |x + y| ≤ bound → Arith.add (num x) (num y) = num (x + y)
  sub : ∀ x y : ℤ, |x| ≤ bound → |y| ≤ bound → |x - y| ≤ bound → Arith.sub (num x) (num y) = num (x - y)
  mul : ∀ x y : ℤ, |x| ≤ bound → |y| ≤ bound → |x * y| ≤ bound → Arith.mul (num x) (num y) = num (x * y)
  div : ∀ x y : ℤ, |x| ≤ bound → |y| ≤ bound → |x * y| ≤ bound → y ≠ 0 → Arith.div (num (x * y)) (num y) = num x
  fma : ∀ x y z : ℤ, |x| ≤ bound → |y| ≤ bound → |z| ≤ bound → |x * y| ≤ bound → |x * y + z| ≤ bound → Arith.fma (num x) (num y) (num z) = num (x * y + z)
  fnma : ∀ x y z : ℤ, |x| ≤ bound → |y| ≤ bound → |z| ≤ bound → |x * y| ≤ bound → |z - x * y| ≤ bound → Arith.fnma (num x) (num y) (num z) = num (z - x * y)
  sqrt : ∀ x : ℤ, 0 ≤ x → x * x ≤ bound → Arith.sqrt (num (x * x)) = num x

/-! ### Floating-point numbers -/

theorem rne_int (n : ℤ) : rne (n : ℝ) = n := by
  unfold rne
  rw [Int.fract_intCast, if_pos (by norm_num), Int.floor_intCast]

/-- integers with at most p+1 bits are not rounded -/
theorem rndE_int {p : Nat} {n : ℤ} (h : |n| ≤ 2 ^ (p + 1)) : rndE p (n : ℝ) = n := by
  have key : ∀ k : ℤ, 0 ≤ k → k ≤ 2 ^ (p + 1) → rndE p (k : ℝ) = k := by
    intro k hk hk2
    rcases hk2.eq_or_lt with rfl | hlt
    · have h1 : rndE p (1 : ℝ) = 1 := by
        unfold rndE rndMag
        rw [if_neg (by norm_num), Int.log_one_right, one_div, ← zpow_neg, show -((0 : ℤ) - p) = (p : ℤ) by ring, zpow_natCast, show ((2 : ℝ) ^ p) = (((2 : ℤ) ^ p : ℤ) : ℝ) by push_cast; rfl, rne_int]
        push_cast
        rw [show (0 : ℤ) - p = -(p : ℤ) by ring, zpow_neg, zpow_natCast]
        exact mul_inv_cancel₀ (by positivity)
      have h2 := rndE_zpow p (p + 1 : ℕ) 1
      rw [h1, mul_one] at h2
      push_cast
      rw [zpow_natCast] at h2
      exact h2
    · rcases hk.eq_or_lt with rfl | hpos
      · rw [Int.cast_zero]; exact rndE_zero p
      · have hpos' : (0 : ℝ) < (k : ℝ) := by exact_mod_cast hpos
        have hlog : Int.log 2 (k : ℝ) < (p : ℤ) + 1 := by
          rw [← Int.lt_zpow_iff_log_lt (by norm_num) hpos']
          have : (k : ℝ) < ((2 ^ (p + 1) : ℤ) : ℝ) := by exact_mod_cast hlt
          push_cast at this
          rw [show ((p : ℤ) + 1) = ((p + 1 : ℕ) : ℤ) by push_cast; rfl, zpow_natCast]
          exact_mod_cast this
        obtain ⟨d, hd⟩ : ∃ d : ℕ, (p : ℤ) - Int.log 2 (k : ℝ) = d := ⟨((p : ℤ) - Int.log 2 (k : ℝ)).toNat, by omega⟩
        unfold rndE rndMag
        rw [if_neg (by linarith), show Int.log 2 (k : ℝ) - (p : ℤ) = -(d : ℤ) by omega, zpow_neg, zpow_natCast, div_inv_eq_mul,
          show (k : ℝ) * 2 ^ d = ((k * 2 ^ d : ℤ) : ℝ) by push_cast; rfl, rne_int]
        push_cast
        exact mul_inv_cancel_right₀ (by positivity) _
  rcases le_total 0 n with hn | hn
  · exact key n hn (by rwa [abs_of_nonneg hn] at h)
  · have := key (-n) (by omega) (by rwa [abs_of_nonpos hn] at h)
    rw [Int.cast_neg, rndE_neg] at this
    exact neg_injective this

/-- operations on small integers are exact -/
noncomputable instance instExactIntsFe (p : Nat) : ExactInts (Fe p) where
  bound := 2 ^ (p + 1)
  one_le := one_le_pow₀ (by norm_num)
  num := fun n => ((n : ℝ) : ℝ)
  zero := Int.cast_zero
  one := Int.cast_one
  neg := fun x _ => by show -(x : ℝ) = ((-x : ℤ) : ℝ); push_cast; rfl
  add := fun x y _ _ h => by show rndE p ((x : ℝ) + (y : ℝ)) = ((x + y : ℤ) : ℝ); rw [← rndE_int h]; push_cast; rfl
  sub := fun x y _ _ h => by show rndE p ((x : ℝ) - (y : ℝ)) = ((x - y : ℤ) : ℝ); rw [← rndE_int h]; push_cast; rfl
  mul := fun x y _ _ h => by show rndE p ((x : ℝ) * (y : ℝ)) = ((x * y : ℤ) : ℝ); rw [← rndE_int h]; push_cast; rfl
  div := fun x y hx _ _ hy => by
    show rndE p (((x * y : ℤ) : ℝ) / (y : ℝ)) = (x : ℝ)
    rw [Int.cast_mul, mul_div_cancel_right₀ _ (by exact_mod_cast hy)]
    exact rndE_int hx
  fma := fun x y z _ _ _ _ h => by show rndE p ((x : ℝ) * (y : ℝ) + (z : ℝ)) = ((x * y + z : ℤ) : ℝ); rw [← rndE_int h]; push_cast; rfl
  fnma := fun x y z _ _ _ _ h => by show rndE p ((z : ℝ) - (x : ℝ) * (y : ℝ)) = ((z - x * y : ℤ) : ℝ); rw [← rndE_int h]; push_cast; rfl
  sqrt := fun x hx h => by
    show rndE p (Real.sqrt ((x * x : ℤ) : ℝ)) = (x : ℝ)
    rw [Int.cast_mul, Real.sqrt_mul_self (by exact_mod_cast hx)]
    refine rndE_int (le_trans ?_ h)
    rw [abs_of_nonneg hx]
    rcases hx.eq_or_lt with rfl | h0
    · norm_num
    · nlinarith

/-- with infinities and not-a-number: the results are finite -/
noncomputable instance instExactIntsIeee (p : Nat) : ExactInts (Ieee (Fe p)) where
  bound := 2 ^ (p + 1)
  one_le := one_le_pow₀ (by norm_num)
  num := fun n => .fin (ExactInts.num n : Fe p)
  zero := congrArg Ieee.fin (instExactIntsFe p).zero
  one := congrArg Ieee.fin (instExactIntsFe p).one
  neg := fun x h => congrArg Ieee.fin ((instExactIntsFe p).neg x h)
  add := fun x y h1 h2 h => congrArg Ieee.fin ((instExactIntsFe p).add x y h1 h2 h)
  sub := fun x y h1 h2 h => congrArg Ieee.fin ((instExactIntsFe p).sub x y h1 h2 h)
  mul := fun x y h1 h2 h => congrArg Ieee.fin ((instExactIntsFe p).mul x y h1 h2 h)
  div := fun x y h1 h2 h3 h => by
    have hy : (ExactInts.num y : Fe p) ≠ 0 := by
      show ((y : ℝ) : ℝ) ≠ 0
      exact_mod_cast h
    show (if (ExactInts.num y : Fe p) = 0 then _ else Ieee.fin (Arith.div (ExactInts.num (x * y) : Fe p) (ExactInts.num y))) = _
    rw [if_neg hy]
    exact congrArg Ieee.fin ((instExactIntsFe p).div x y h1 h2 h3 h)
  fma := fun x y z h1 h2 h3 h4 h => congrArg Ieee.fin ((instExactIntsFe p).fma x y z h1 h2 h3 h4 h)
  fnma := fun x y z h1 h2 h3 h4 h => congrArg Ieee.fin ((instExactIntsFe p).fnma x y z h1 h2 h3 h4 h)
  sqrt := fun x h1 h => by
    have hx : ¬ (ExactInts.num (x * x) : Fe p) < 0 := by
      show ¬ (((x * x : ℤ) : ℝ) : ℝ) < 0
      rw [not_lt, Int.cast_mul]
      exact mul_self_nonneg _
    show (if (ExactInts.num (x * x) : Fe p) < 0 then _ else Ieee.fin (Arith.sqrt (ExactInts.num (x * x) : Fe p))) = _
    rw [if_neg hx]
    exact congrArg Ieee.fin ((instExactIntsFe p).sqrt x h1 h)

/-! ### The accumulations -/
variable {V : Type} [Arith V] [E : ExactInts V]

theorem abs_sum_mul_le (a b : Nat → ℤ) (s : Finset Nat) : |∑ k ∈ s, a k * b k| ≤ ∑ k ∈ s, |a k| * |b k| :=
  le_trans (Finset.abs_sum_le_sum_abs _ _) (le_of_eq (Finset.sum_congr rfl (fun _ _ => abs_mul _ _)))

theorem fmaSum_num {a b : Nat → ℤ} {c : ℤ} (K : Nat) (ha : ∀ k, k < K → |a k| ≤ E.bound) (hb : ∀ k, k < K → |b k| ≤ E.bound)
    (h : |c| + ∑ k ∈ range K, |a k| * |b k| ≤ E.bound) :
    fmaSum (fun k => E.num (a k)) (fun k => E.num (b k)) (E.num c) K = E.num (c + ∑ k ∈ range K, a k * b k) := by
  induction K with
  | zero => unfold fmaSum; rw [Finset.sum_range_zero, add_zero]
  | succ K ih =>
    rw [Finset.sum_range_succ, ← add_assoc] at h
    have hK : 0 ≤ |a K| * |b K| := by positivity
    have hS : 0 ≤ ∑ k ∈ range K, |a k| * |b k| := Finset.sum_nonneg (fun _ _ => by positivity)
    have hs := abs_sum_mul_le a b (range K)
    have hc := abs_add_le c (∑ k ∈ range K, a k * b k)
    have hm : |a K * b K| = |a K| * |b K| := abs_mul _ _
    have hc0 := abs_nonneg c
    unfold fmaSum
    rw [ih (fun k hk => ha k (by omega)) (fun k hk => hb k (by omega)) (by linarith),
      E.fma _ _ _ (ha K (by omega)) (hb K (by omega)) (by linarith) (by linarith)
        (le_trans (abs_add_le _ _) (by linarith)), Finset.sum_range_succ]
    congr 1
    ring

theorem fmaSum_num_zero {a b : Nat → ℤ} (K : Nat) (ha : ∀ k, k < K → |a k| ≤ E.bound) (hb : ∀ k, k < K → |b k| ≤ E.bound)
    (h : ∑ k ∈ range K, |a k| * |b k| ≤ E.bound) :
    fmaSum (fun k => E.num (a k)) (fun k => E.num (b k)) Arith.zero K = E.num (∑ k ∈ range K, a k * b k) := by
  rw [← E.zero, fmaSum_num K ha hb (by rw [abs_zero, zero_add]; exact h), zero_add]

/-- a subtraction that undoes a sum: the remaining terms stay within the bound -/
theorem subFold_num {t : Nat → ℤ} {c r : ℤ} {lo : Nat} (n : Nat) {f : Nat → V} (hf : ∀ k, lo ≤ k → k < lo + n → f k = E.num (t k)) 
    (ht : ∀ k, lo ≤ k → k < lo + n → |t k| ≤ E.bound)
    (hc : c = r + ∑ k ∈ range n, t (lo + k)) (h : |r| + ∑ k ∈ range n, |t (lo + k)| ≤ E.bound) :
    subFold f (E.num c) lo n = E.num r := by
  induction n generalizing r with
  | zero => unfold subFold; rw [hc, Finset.sum_range_zero, add_zero]
  | succ n ih =>
    rw [Finset.sum_range_succ] at hc h
    have h0 := abs_nonneg r
    have hS : 0 ≤ ∑ k ∈ range n, |t (lo + k)| := Finset.sum_nonneg (fun _ _ => by positivity)
    have hr := abs_add_le r (t (lo + n))
    have hp := abs_nonneg (t (lo + n))
    unfold subFold
    rw [ih (r := r + t (lo + n)) (fun k h1 h2 => hf k h1 (by omega)) (fun k h1 h2 => ht k h1 (by omega)) (by rw [hc]; ring) (by linarith),
      hf (lo + n) (by omega) (by omega), E.sub _ _ (by linarith) (ht _ (by omega) (by omega)) (by rw [add_sub_cancel_right]; linarith), add_sub_cancel_right]

theorem fnmaSum_num {a b : Nat → ℤ} {c r : ℤ} (n : Nat) (ha : ∀ k, k < n → |a k| ≤ E.bound) (hb : ∀ k, k < n → |b k| ≤ E.bound)
    (hc : c = r + ∑ k ∈ range n, a k * b k) (h : |r| + ∑ k ∈ range n, |a k| * |b k| ≤ E.bound) :
    fnmaSum (fun k => E.num (a k)) (fun k => E.num (b k)) (E.num c) n = E.num r := by
  induction n generalizing r with
  | zero => unfold fnmaSum; rw [hc, Finset.sum_range_zero, add_zero]
  | succ n ih =>
    rw [Finset.sum_range_succ] at hc h
    have h0 := abs_nonneg r
    have hm : |a n * b n| = |a n| * |b n| := abs_mul _ _
    have hS : 0 ≤ ∑ k ∈ range n, |a k| * |b k| := Finset.sum_nonneg (fun _ _ => by positivity)
    have hr := abs_add_le r (a n * b n)
    have hp : 0 ≤ |a n| * |b n| := by positivity
    unfold fnmaSum
    rw [ih (r := r + a n * b n) (fun k hk => ha k (by omega)) (fun k hk => hb k (by omega)) (by rw [hc]; ring) (by linarith),
      E.fnma _ _ _ (ha n (by omega)) (hb n (by omega)) (by linarith) (by linarith) (by rw [add_sub_cancel_right]; linarith), add_sub_cancel_right]

/-- the fused multiply-adds with the negated row of potrf, which undo a sum -/
theorem fmaNeg_num {a b : Nat → ℤ} {c r : ℤ} (n : Nat) (ha : ∀ k, k < n → |a k| ≤ E.bound) (hb : ∀ k, k < n → |b k| ≤ E.bound)
    (hc : c = r + ∑ k ∈ range n, a k * b k) (h : |r| + ∑ k ∈ range n, |a k| * |b k| ≤ E.bound) :
    fmaSum (fun k => Arith.mul (Arith.neg Arith.one) (E.num (a k))) (fun k => E.num (b k)) (E.num c) n = E.num r := by
  have h1 : ∀ x : ℤ, |x| ≤ E.bound → Arith.mul (Arith.neg Arith.one) (E.num x) = E.num (-x) := fun x hx => by
    rw [← E.one, E.neg 1 (by rw [abs_one]; exact E.one_le), E.mul _ _ (by rw [abs_neg, abs_one]; exact E.one_le) hx (by rw [abs_mul, abs_neg, abs_one, one_mul]; exact hx)]
    congr 1; ring
  induction n generalizing r with
  | zero => unfold fmaSum; rw [hc, Finset.sum_range_zero, add_zero]
  | succ n ih =>
    rw [Finset.sum_range_succ] at hc h
    have h0 := abs_nonneg r
    have hm : |a n * b n| = |a n| * |b n| := abs_mul _ _
    have hS : 0 ≤ ∑ k ∈ range n, |a k| * |b k| := Finset.sum_nonneg (fun _ _ => by positivity)
    have hr := abs_add_le r (a n * b n)
    have hp : 0 ≤ |a n| * |b n| := by positivity
    unfold fmaSum
    rw [ih (r := r + a n * b n) (fun k hk => ha k (by omega)) (fun k hk => hb k (by omega)) (by rw [hc]; ring) (by linarith),
      h1 _ (ha n (by omega)),
      E.fma _ _ _ (by rw [abs_neg]; exact ha n (by omega)) (hb n (by omega)) (by linarith) (by rw [neg_mul, abs_neg]; linarith)
        (by rw [show -a n * b n + (r + a n * b n) = r by ring]; linarith)]
    congr 1; ring

/-! ### The values of the algorithms -/

theorem mul_one_num {x : ℤ} (hx : |x| ≤ E.bound) : Arith.mul Arith.one (E.num x) = E.num x := by
  rw [← E.one, E.mul 1 x (by rw [abs_one]; exact E.one_le) hx (by rwa [one_mul]), one_mul]

theorem sum_window {f : Nat → ℤ} {lo M : Nat} (h : lo ≤ M) (hz : ∀ k, k < lo → f k = 0) : ∑ t ∈ range (M - lo), f (lo + t) = ∑ k ∈ range M, f k := by
  obtain ⟨d, rfl⟩ := Nat.exists_eq_add_of_le h
  rw [Nat.add_sub_cancel_left, Finset.sum_range_add, Finset.sum_eq_zero (fun k hk => hz k (Finset.mem_range.1 hk)), zero_add]

/-- trmm with A on the left: A is upper triangular -/
theorem LeftVal_num {SS M N : Nat} {alpha : ℤ} {a b : Nat → Nat → ℤ} {r c : Nat} {v : V} (hal : |alpha| ≤ E.bound) (hr : r < M)
    (ha : ∀ k, k < M → |a r k| ≤ E.bound) (hb : ∀ k, k < M → |b k c| ≤ E.bound)
    (hz : ∀ k, k < r → a r k = 0) (haa : ∀ k, k < M → |alpha| * |a r k| ≤ E.bound)
    (hsum : ∑ k ∈ range M, |alpha * a r k| * |b k c| ≤ E.bound)
    (h : LeftVal SS M N (E.num alpha) (fun i k => E.num (a i k)) (fun k j => E.num (b k j)) r c v) :
    v = E.num (∑ k ∈ range M, alpha * a r k * b k c) := by
  obtain ⟨p, i, ht, h1, h2, rfl⟩ := h
  have hm : ∀ k, k < M → Arith.mul (E.num alpha) (E.num (a r k)) = E.num (alpha * a r k) := fun k hk => E.mul _ _ hal (ha k hk) (by rw [abs_mul]; exact haa k hk)
  have hz' : ∀ k, k < r → alpha * a r k * b k c = 0 := fun k hk => by rw [hz k hk, mul_zero, zero_mul]
  have hz2 : ∀ k, k < r → |alpha * a r k| * |b k c| = 0 := fun k hk => by rw [hz k hk, mul_zero, abs_zero, zero_mul]
  have haa' : ∀ k, k < M → |alpha * a r k| ≤ E.bound := fun k hk => by rw [abs_mul]; exact haa k hk
  split
  · rename_i hc
    unfold trmmLFullEntry
    generalize hlo : (r - i) / SS * SS = lo
    have hlo1 : lo ≤ r - i := by rw [← hlo]; exact Nat.div_mul_le_self _ _
    have e1 := sum_window (lo := i + lo) (M := M) (f := fun k => alpha * a r k * b k c) (by omega) (fun k hk => hz' k (by omega))
    have e2 := sum_window (lo := i + lo) (M := M) (f := fun k => |alpha * a r k| * |b k c|) (by omega) (fun k hk => hz2 k (by omega))
    rw [show M - (i + lo) = (p * SS - lo) + (M - i - p * SS) by omega, Finset.sum_range_add] at e1 e2
    have i1 : ∀ t, i + (lo + t) = i + lo + t := fun t => (Nat.add_assoc _ _ _).symm
    have i2 : ∀ t, i + lo + (p * SS - lo + t) = i + p * SS + t := fun t => by omega
    simp only [i2] at e1 e2
    simp only [i1]
    rw [← e2] at hsum
    have n1 : 0 ≤ ∑ t ∈ range (p * SS - lo), |alpha * a r (i + lo + t)| * |b (i + lo + t) c| := Finset.sum_nonneg (fun _ _ => by positivity)
    have n2 : 0 ≤ ∑ t ∈ range (M - i - p * SS), |alpha * a r (i + p * SS + t)| * |b (i + p * SS + t) c| := Finset.sum_nonneg (fun _ _ => by positivity)
    rw [fmaSum_congr' (a' := fun t => E.num (alpha * a r (i + lo + t))) (b' := fun t => E.num (b (i + lo + t) c)) (p * SS - lo) (fun t ht' => ?_) (fun _ _ => rfl),
      fmaSum_num_zero _ (fun t ht' => haa' _ (by omega)) (fun t ht' => hb _ (by omega)) (by linarith),
      fmaSum_congr' (a' := fun t => E.num (alpha * a r (i + p * SS + t))) (b' := fun t => E.num (b (i + p * SS + t) c)) _ (fun t ht' => hm _ (by omega)) (fun _ _ => rfl),
      fmaSum_num _ (fun t ht' => haa' _ (by omega)) (fun t ht' => hb _ (by omega)) (le_trans (add_le_add (abs_sum_mul_le _ _ _) le_rfl) hsum), e1]
    beta_reduce
    split
    · exact hm _ (by omega)
    · rw [← hm _ (by omega), hz (i + lo + t) (by omega), E.zero]
  · unfold trmmLPartEntry
    have e1 := sum_window (lo := i) (M := M) (f := fun k => alpha * a r k * b k c) (by omega) (fun k hk => hz' k (by omega))
    have e2 := sum_window (lo := i) (M := M) (f := fun k => |alpha * a r k| * |b k c|) (by omega) (fun k hk => hz2 k (by omega))
    rw [fmaSum_congr' (a' := fun t => E.num (alpha * a r (i + t))) (b' := fun t => E.num (b (i + t) c)) _ (fun t ht' => hm _ (by omega)) (fun _ _ => rfl),
      fmaSum_num_zero _ (fun t ht' => haa' _ (by omega)) (fun t ht' => hb _ (by omega)) (le_trans (le_of_eq e2) hsum), e1]

/-- a row of a triangular matrix: the diagonal and the other entries of the triangle -/
theorem sum_row {uplo : UpLo} {M i : Nat} (hi : i < M) {f : Nat → ℤ} (hl : uplo = .lower → ∀ k, i < k → f k = 0) (hu : uplo = .upper → ∀ k, k < i → f k = 0) :
    ∑ k ∈ range M, f k = f i + ∑ t ∈ range (solveHi uplo M i - solveLo uplo i), f (solveLo uplo i + t) := by
  cases uplo with
  | lower =>
    show _ = f i + ∑ t ∈ range (i - 0), f (0 + t)
    obtain ⟨d, rfl⟩ := Nat.exists_eq_add_of_le (show i + 1 ≤ M from hi)
    rw [Finset.sum_range_add, Finset.sum_eq_zero (s := range d) (fun t _ => hl rfl _ (by omega)), Finset.sum_range_succ, Nat.sub_zero, add_zero, add_comm]
    simp only [Nat.zero_add]
  | upper =>
    show _ = f i + ∑ t ∈ range (M - (i + 1)), f (i + 1 + t)
    obtain ⟨d, rfl⟩ := Nat.exists_eq_add_of_le (show i + 1 ≤ M from hi)
    rw [Finset.sum_range_add, Finset.sum_range_succ, Finset.sum_eq_zero (s := range i) (fun t ht => hu rfl _ (Finset.mem_range.1 ht)), Nat.add_sub_cancel_left, zero_add]

/-- trsm: the exact integer solution satisfies the recurrence of the code -/
theorem TrsmRec_num {uplo : UpLo} {unit : Bool} {M : Nat} {a : Nat → Nat → ℤ} {b x : Nat → ℤ} (hd : unit = false → ∀ i, i < M → a i i ≠ 0)
    (ha : ∀ i k, i < M → k < M → TriRef uplo unit i k → |a i k| ≤ E.bound) (hx : ∀ k, k < M → |x k| ≤ E.bound)
    (hb : ∀ i, i < M → b i = ∑ k ∈ range M, tri uplo unit a i k * x k)
    (hs : ∀ i, i < M → ∑ k ∈ range M, |tri uplo unit a i k| * |x k| ≤ E.bound) :
    TrsmRec uplo unit M (fun i k => E.num (a i k)) (fun i => E.num (b i)) (fun k => E.num (x k)) := by
  intro i hi
  have h0 : ∀ k, (uplo = .lower → i < k → tri uplo unit a i k = 0) ∧ (uplo = .upper → k < i → tri uplo unit a i k = 0) := fun k =>
    ⟨fun e h => by subst e; exact tri_lower_zero h, fun e h => by subst e; exact tri_upper_zero h⟩
  have hin : ∀ k, solveLo uplo i ≤ k → k < solveLo uplo i + (solveHi uplo M i - solveLo uplo i) → k < M ∧ TriRef uplo unit i k ∧ tri uplo unit a i k = a i k := by
    intro k h1 h2
    cases uplo with
    | lower =>
      have : k < i := by simp only [solveLo, solveHi] at h1 h2; omega
      exact ⟨by omega, .inr (.inl ⟨rfl, this⟩), tri_lower this⟩
    | upper =>
      have : i < k ∧ k < M := by simp only [solveLo, solveHi] at h1 h2; omega
      exact ⟨this.2, .inr (.inr ⟨rfl, this.1⟩), tri_upper this.1⟩
  have e1 := sum_row (uplo := uplo) hi (f := fun k => tri uplo unit a i k * x k) (fun e k hk => by rw [(h0 k).1 e hk, zero_mul]) (fun e k hk => by rw [(h0 k).2 e hk, zero_mul])
  have e2 := sum_row (uplo := uplo) hi (f := fun k => |tri uplo unit a i k| * |x k|) (fun e k hk => by rw [(h0 k).1 e hk, abs_zero, zero_mul]) (fun e k hk => by rw [(h0 k).2 e hk, abs_zero, zero_mul])
  beta_reduce at e1 e2
  have hb' := (hb i hi).trans e1
  have hs' := hs i hi
  rw [e2] at hs'
  have g1 : ∀ t, t ∈ range (solveHi uplo M i - solveLo uplo i) → tri uplo unit a i (solveLo uplo i + t) * x (solveLo uplo i + t) = a i (solveLo uplo i + t) * x (solveLo uplo i + t) := fun t ht => by
    rw [(hin _ (by omega) (by have := Finset.mem_range.1 ht; omega)).2.2]
  have g2 : ∀ t, t ∈ range (solveHi uplo M i - solveLo uplo i) → |tri uplo unit a i (solveLo uplo i + t)| * |x (solveLo uplo i + t)| = |a i (solveLo uplo i + t) * x (solveLo uplo i + t)| := fun t ht => by
    rw [(hin _ (by omega) (by have := Finset.mem_range.1 ht; omega)).2.2, abs_mul]
  rw [Finset.sum_congr rfl g1] at hb'
  rw [Finset.sum_congr rfl g2, ← abs_mul] at hs'
  have hterm : ∀ k, solveLo uplo i ≤ k → k < solveLo uplo i + (solveHi uplo M i - solveLo uplo i) → |a i k * x k| ≤ E.bound := fun k h1 h2 => by
    refine le_trans ?_ (le_trans (le_add_of_nonneg_left (abs_nonneg (tri uplo unit a i i * x i))) hs')
    have := Finset.single_le_sum (f := fun t => |a i (solveLo uplo i + t) * x (solveLo uplo i + t)|) (s := range (solveHi uplo M i - solveLo uplo i)) (fun _ _ => abs_nonneg _)
      (Finset.mem_range.2 (show k - solveLo uplo i < _ by omega))
    beta_reduce at this
    rwa [show solveLo uplo i + (k - solveLo uplo i) = k by omega] at this
  dsimp only
  rw [subFold_num (t := fun k => a i k * x k) (r := tri uplo unit a i i * x i) _
    (fun k h1 h2 => E.mul _ _ (ha i k hi (hin k h1 h2).1 (hin k h1 h2).2.1) (hx k (hin k h1 h2).1) (hterm k h1 h2)) hterm hb' hs']
  have hdg : |tri uplo unit a i i * x i| ≤ E.bound := le_trans (le_add_of_nonneg_right (Finset.sum_nonneg (fun _ _ => abs_nonneg _))) hs'
  rw [tri_diag] at hdg ⊢
  cases unit with
  | true => rw [if_pos rfl, if_pos rfl, one_mul]
  | false =>
    rw [if_neg (by decide)] at hdg
    rw [if_neg (by decide), if_neg (by decide), mul_comm]
    exact (E.div _ _ (hx i hi) (ha i i hi hi (.inl ⟨rfl, rfl⟩)) (by rwa [mul_comm]) (hd rfl i hi)).symm

/-! ### potrf -/

/-- what is left after the subtractions of column c is the product with the pivot -/
theorem potS_num {KN : Nat} (hKN : 0 < KN) {l : Nat → Nat → ℤ} {r c : Nat} {x : ℤ} (hr : ∀ q, q < c → |l r q| ≤ E.bound) (hc : ∀ q, q < c → |l c q| ≤ E.bound)
    (hx : x = ∑ q ∈ range (c + 1), l r q * l c q) (hs : ∑ q ∈ range (c + 1), |l r q| * |l c q| ≤ E.bound) :
    potS KN (fun i j => E.num (l i j)) (E.num x) r c = E.num (l r c * l c c) := by
  have hcd : c / KN * KN + c % KN = c := Nat.div_add_mod' c KN
  have hml : c % KN < KN := Nat.mod_lt _ hKN
  unfold potS
  generalize c / KN * KN = d at *
  generalize c % KN = t at *
  subst hcd
  rw [Finset.sum_range_succ, Finset.sum_range_add] at hx hs
  have n1 : 0 ≤ ∑ q ∈ range d, |l r q| * |l (d + t) q| := Finset.sum_nonneg (fun _ _ => by positivity)
  have hn : ∑ q ∈ range t, |l (d + t) (d + q)| * |l r (d + q)| = ∑ q ∈ range t, |l r (d + q)| * |l (d + t) (d + q)| := Finset.sum_congr rfl (fun _ _ => mul_comm _ _)
  have hn' : ∑ q ∈ range t, l (d + t) (d + q) * l r (d + q) = ∑ q ∈ range t, l r (d + q) * l (d + t) (d + q) := Finset.sum_congr rfl (fun _ _ => mul_comm _ _)
  have hab := abs_sum_mul_le (fun q => l r (d + q)) (fun q => l (d + t) (d + q)) (range t)
  have h1 := abs_add_le (l r (d + t) * l (d + t) (d + t)) (∑ q ∈ range t, l r (d + q) * l (d + t) (d + q))
  rw [abs_mul] at h1
  rw [fmaNeg_num (r := l r (d + t) * l (d + t) (d + t) + ∑ q ∈ range t, l r (d + q) * l (d + t) (d + q)) d (fun k hk => hr k (by omega)) (fun k hk => hc k (by omega))
    (by rw [hx]; ring) (by linarith)]
  exact fnmaSum_num t (fun k hk => hc _ (by omega)) (fun k hk => hr _ (by omega)) (by rw [hn']) (by rw [hn, abs_mul]; linarith)

/-- an integer factor with positive diagonal satisfies the recurrence of the code -/
theorem PotRec_num {T KN M N : Nat} (hKN : 0 < KN) {l a : Nat → Nat → ℤ} {r c : Nat} (hcr : c ≤ r) (hr : r < M) (hc : c < N) 
    (hp : ∀ q, q < N → 0 < l q q) (hf : ∀ i j, j ≤ i → i < M → j < N → a i j = ∑ q ∈ range (j + 1), l i q * l j q)
    (hs : ∀ i j, j ≤ i → i < M → j < N → ∑ q ∈ range (j + 1), |l i q| * |l j q| ≤ E.bound) :
    PotRec T KN M (fun i j => E.num (l i j)) (fun i j => E.num (a i j)) r c := by
  have hb : ∀ i q, q ≤ i → i < M → q < N → |l i q| * |l q q| ≤ E.bound := fun i q hq hi hqN =>
    le_trans (Finset.single_le_sum (f := fun k => |l i k| * |l q k|) (fun _ _ => by positivity) (Finset.mem_range.2 (Nat.lt_succ_self q))) (hs i q hq hi hqN)
  have hle : ∀ i q, q ≤ i → i < M → q < N → |l i q| ≤ E.bound := fun i q hq hi hqN => by
    refine le_trans (le_mul_of_one_le_right (abs_nonneg _) ?_) (hb i q hq hi hqN)
    rw [abs_of_pos (hp q hqN)]
    exact hp q hqN
  unfold PotRec
  dsimp only
  rw [potS_num hKN (fun q hq => hle r q (by omega) hr (by omega)) (fun q hq => hle c q (by omega) (by omega) (by omega)) (hf r c hcr hr hc) (hs r c hcr hr hc),
    potS_num hKN (fun q hq => hle c q (by omega) (by omega) (by omega)) (fun q hq => hle c q (by omega) (by omega) (by omega)) (hf c c (Nat.le_refl _) (by omega) hc) (hs c c (Nat.le_refl _) (by omega) hc),
    E.sqrt _ (hp c hc).le (by have := hb c c (Nat.le_refl _) (by omega) hc; rwa [abs_of_pos (hp c hc)] at this), ite_self]
  exact (E.div _ _ (hle r c hcr hr hc) (hle c c (Nat.le_refl _) (by omega) hc) (by rw [abs_mul]; exact hb r c hcr hr hc) (hp c hc).ne').symm

end Blast
