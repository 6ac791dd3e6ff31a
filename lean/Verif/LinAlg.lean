import Verif.RegTri
import Verif.Lawful
import Mathlib.Algebra.BigOperators.Intervals
import Mathlib.Tactic.FieldSimp
/-
Exact-arithmetic linear algebra used by the Cholesky properties: positive definiteness and the
Cholesky recurrence.  Matrices are functions `Nat → Nat → V`.
-/
namespace Blast
open Finset

/-- square roots are exact: `sqrt a` is the positive root of a positive `a` -/
class ExactSqrt (V : Type) [Field V] [LinearOrder V] [IsStrictOrderedRing V] [Arith V] : Prop
    extends ExactOrd V where
  sqrt_pos : ∀ a : V, 0 < a → 0 < (Arith.sqrt a : V)
  sqrt_sq : ∀ a : V, 0 < a → (Arith.sqrt a : V) * Arith.sqrt a = a

variable {V : Type}

/-- the `n × n` matrix given by the lower triangle of `a` is symmetric positive definite:
`x^T S x > 0` for every nonzero `x`, where `S(i,j) = a(max i j, min i j)` -/
def LowerPosDef [Field V] [LinearOrder V] (n : Nat) (a : Nat → Nat → V) : Prop :=
  ∀ x : Nat → V, (∃ i, i < n ∧ x i ≠ 0) →
    0 < ∑ i ∈ range n, ∑ j ∈ range n, x i * a (max i j) (min i j) * x j

theorem fnmaSum_eq [CommRing V] [Arith V] [ExactRing V] (a b : Nat → V) (c : V) (K : Nat) :
    fnmaSum a b c K = c - ∑ k ∈ range K, a k * b k := by
  induction K with
  | zero => simp [fnmaSum]
  | succ K ih =>
    rw [sum_range_succ]
    show Arith.fnma (a K) (b K) (fnmaSum a b c K) = _
    rw [ExactRing.fnma_eq, ih]; ring

variable [Field V]

/-- lower triangle of `l` -/
def low (l : Nat → Nat → V) (i j : Nat) : V := if j ≤ i then l i j else 0

/-- a transposed lower triangular system with nonzero diagonal is solvable -/
theorem exists_low_transpose_solution (l : Nat → Nat → V) (k : Nat) (h : ∀ j, j < k → l j j ≠ 0) (b : Nat → V) :
    ∃ y : Nat → V, ∀ j, j < k → ∑ i ∈ range k, y i * low l i j = b j := by
  induction k generalizing b with
  | zero => exact ⟨fun _ => 0, fun j hj => by omega⟩
  | succ k ih =>
    obtain ⟨y, hy⟩ := ih (fun j hj => h j (by omega)) (fun j => b j - b k / l k k * l k j)
    refine ⟨fun i => if i = k then b k / l k k else y i, fun j hj => ?_⟩
    rw [sum_range_succ]
    have e : ∑ i ∈ range k, (if i = k then b k / l k k else y i) * low l i j =
        ∑ i ∈ range k, y i * low l i j := by
      refine sum_congr rfl (fun i hi => ?_)
      rw [if_neg (by have := mem_range.1 hi; omega)]
    rw [e]
    simp only [if_true]
    by_cases hjk : j = k
    · subst hjk
      have : ∑ i ∈ range j, y i * low l i j = 0 := by
        refine sum_eq_zero (fun i hi => ?_)
        have := mem_range.1 hi
        unfold low; rw [if_neg (by omega), mul_zero]
      rw [this]
      unfold low; rw [if_pos (le_refl _), zero_add, div_mul_cancel₀ _ (h j hj)]
    · rw [hy j (by omega)]
      unfold low; rw [if_pos (by omega)]; ring

section
variable [LinearOrder V] [IsStrictOrderedRing V]

/-- the next pivot of the Cholesky factorization of a positive definite matrix is positive -/
theorem cholesky_pivot_pos {n k : Nat} (hk : k < n) {a l : Nat → Nat → V} (hpd : LowerPosDef n a)
    (hd : ∀ j, j < k → l j j ≠ 0)
    (hl : ∀ i j, j < k → j ≤ i → i ≤ k → ∑ q ∈ range (j + 1), l i q * l j q = a i j) :
    0 < a k k - ∑ q ∈ range k, l k q * l k q := by
  obtain ⟨y, hy⟩ := exists_low_transpose_solution l k hd (fun j => l k j)
  let x : Nat → V := fun i => if i < k then - y i else if i = k then 1 else 0
  have hpos := hpd x ⟨k, hk, by simp [x]⟩
  -- restrict the sums to range (k+1)
  have hrestrict : ∀ f : Nat → V, (∀ i, k < i → f i = 0) →
      ∑ i ∈ range n, f i = ∑ i ∈ range (k + 1), f i := by
    intro f hf
    symm
    apply sum_subset
    · intro i hi; rw [mem_range] at *; omega
    · intro i _ hi; rw [mem_range] at hi; exact hf i (by omega)
  have hx0 : ∀ i, k < i → x i = 0 := by
    intro i hi; simp only [x]; rw [if_neg (by omega), if_neg (by omega)]
  rw [hrestrict _ (fun i hi => sum_eq_zero (fun j _ => by rw [hx0 i hi]; ring))] at hpos
  rw [sum_congr rfl (fun i _ => hrestrict _ (fun j hj => by rw [hx0 j hj]; ring))] at hpos
  -- the matrix in terms of low l
  have hlow : ∀ i j, i ≤ k → j ≤ k → ∑ q ∈ range k, low l i q * low l j q =
      (if i = k ∧ j = k then ∑ q ∈ range k, l k q * l k q else a (max i j) (min i j)) := by
    have key : ∀ i j, j < k → j ≤ i → i ≤ k → ∑ q ∈ range k, low l i q * low l j q = a i j := by
      intro i j hj hji hik
      rw [← hl i j hj hji hik]
      symm
      have e : ∑ q ∈ range (j + 1), l i q * l j q = ∑ q ∈ range (j + 1), low l i q * low l j q := by
        refine sum_congr rfl (fun q hq => ?_)
        have := mem_range.1 hq
        unfold low; rw [if_pos (by omega), if_pos (by omega)]
      rw [e]
      apply sum_subset
      · intro q hq; rw [mem_range] at *; omega
      · intro q _ hq; rw [mem_range] at hq
        unfold low; rw [if_neg (show ¬ q ≤ j by omega), mul_zero]
    intro i j hi hj
    split
    · rename_i hh
      obtain ⟨rfl, rfl⟩ := hh
      refine sum_congr rfl (fun q hq => ?_)
      have := mem_range.1 hq
      unfold low; rw [if_pos (by omega)]
    · rename_i hh
      rcases Nat.lt_or_ge j i with h1 | h1
      · rw [max_eq_left (by omega), min_eq_right (by omega)]
        exact key i j (by omega) (by omega) hi
      · rw [max_eq_right (by omega), min_eq_left (by omega), ← key j i (by omega) (by omega) hj]
        exact sum_congr rfl (fun q _ => mul_comm _ _)
  -- columns of low l are orthogonal to x
  have hcol : ∀ q, q < k → ∑ i ∈ range (k + 1), x i * low l i q = 0 := by
    intro q hq
    rw [sum_range_succ]
    have e : ∑ i ∈ range k, x i * low l i q = - ∑ i ∈ range k, y i * low l i q := by
      rw [← sum_neg_distrib]
      refine sum_congr rfl (fun i hi => ?_)
      have := mem_range.1 hi
      simp only [x]; rw [if_pos this]; ring
    rw [e, hy q hq]
    simp only [x]
    rw [if_neg (by omega), if_pos trivial]
    unfold low; rw [if_pos (by omega)]; ring
  have hzero : ∑ i ∈ range (k + 1), ∑ j ∈ range (k + 1),
      x i * (∑ q ∈ range k, low l i q * low l j q) * x j = 0 := by
    have e : ∀ i ∈ range (k + 1), ∑ j ∈ range (k + 1), x i * (∑ q ∈ range k, low l i q * low l j q) * x j =
        0 := by
      intro i _
      have : ∀ j ∈ range (k + 1), x i * (∑ q ∈ range k, low l i q * low l j q) * x j =
          ∑ q ∈ range k, x i * low l i q * (x j * low l j q) := by
        intro j _
        rw [mul_sum, sum_mul]
        exact sum_congr rfl (fun q _ => by ring)
      rw [sum_congr rfl this, sum_comm]
      refine sum_eq_zero (fun q hq => ?_)
      rw [← mul_sum, hcol q (mem_range.1 hq), mul_zero]
    exact sum_eq_zero e
  have hdiff : ∑ i ∈ range (k + 1), ∑ j ∈ range (k + 1), x i * a (max i j) (min i j) * x j =
      a k k - ∑ q ∈ range k, l k q * l k q := by
    rw [← sub_zero (∑ i ∈ range (k + 1), ∑ j ∈ range (k + 1), x i * a (max i j) (min i j) * x j), ← hzero,
      ← sum_sub_distrib]
    have e : ∀ i ∈ range (k + 1), (∑ j ∈ range (k + 1), x i * a (max i j) (min i j) * x j) -
        (∑ j ∈ range (k + 1), x i * (∑ q ∈ range k, low l i q * low l j q) * x j) =
        if i = k then a k k - ∑ q ∈ range k, l k q * l k q else 0 := by
      intro i hi
      rw [mem_range] at hi
      rw [← sum_sub_distrib]
      have : ∀ j ∈ range (k + 1), x i * a (max i j) (min i j) * x j -
          x i * (∑ q ∈ range k, low l i q * low l j q) * x j =
          if j = k then (if i = k then a k k - ∑ q ∈ range k, l k q * l k q else 0) else 0 := by
        intro j hj
        rw [mem_range] at hj
        rw [hlow i j (by omega) (by omega)]
        by_cases hik : i = k
        · by_cases hjk : j = k
          · subst hik; subst hjk
            simp [x]
          · rw [if_neg (fun h => hjk h.2), if_neg hjk]; ring
        · rw [if_neg (fun h => hik h.1), if_neg hik]
          simp
      rw [sum_congr rfl this, sum_ite_eq' (range (k + 1)) k]
      simp
    rw [sum_congr rfl e, sum_ite_eq' (range (k + 1)) k]
    simp
  rw [hdiff] at hpos
  exact hpos

/-- A matrix `l` obeying the Cholesky recurrence of a positive definite `a` is its Cholesky factor: the diagonal
is positive and `l l^T = a` on the lower triangle, also for the `M - n` additional rows. -/
theorem cholesky_exact [Arith V] [ExactSqrt V] {n M : Nat} (hnM : n ≤ M) {a l : Nat → Nat → V} (hpd : LowerPosDef n a)
    (hrec : ∀ i k, k ≤ i → i < M → k < n → l i k = Arith.div
        (fnmaSum (fun j => l k j) (fun j => l i j) (a i k) k)
        (Arith.sqrt (fnmaSum (fun j => l k j) (fun j => l k j) (a k k) k))) :
    (∀ k, k < n → 0 < l k k) ∧
      (∀ i k, k ≤ i → i < M → k < n → ∑ q ∈ range (k + 1), l i q * l k q = a i k) := by
  have main : ∀ k, k ≤ n → (∀ j, j < k → 0 < l j j) ∧
      (∀ i j, j < k → j ≤ i → i < M → ∑ q ∈ range (j + 1), l i q * l j q = a i j) := by
    intro k
    induction k with
    | zero => exact fun _ => ⟨fun j hj => by omega, fun i j hj => by omega⟩
    | succ k ih =>
      intro hk
      obtain ⟨h1, h2⟩ := ih (by omega)
      have hp := cholesky_pivot_pos (k := k) (by omega) hpd (fun j hj => ne_of_gt (h1 j hj))
        (fun i j hj hji hik => h2 i j hj hji (by omega))
      have hs := ExactSqrt.sqrt_pos _ hp
      have hss := ExactSqrt.sqrt_sq _ hp
      have hval : ∀ i, k ≤ i → i < M → l i k * Arith.sqrt (a k k - ∑ q ∈ range k, l k q * l k q) =
          a i k - ∑ q ∈ range k, l k q * l i q := by
        intro i hi hiM
        rw [hrec i k hi hiM (by omega), fnmaSum_eq, fnmaSum_eq, ExactField.div_eq _ _ (ne_of_gt hs),
          div_mul_cancel₀ _ (ne_of_gt hs)]
      have hdiag : l k k = Arith.sqrt (a k k - ∑ q ∈ range k, l k q * l k q) := by
        have := hval k (le_refl _) (by omega)
        have h3 := mul_right_cancel₀ (ne_of_gt hs) (this.trans hss.symm)
        exact h3
      refine ⟨fun j hj => ?_, fun i j hj hji hiM => ?_⟩
      · by_cases hjk : j = k
        · subst hjk; rw [hdiag]; exact hs
        · exact h1 j (by omega)
      · by_cases hjk : j = k
        · subst hjk
          rw [sum_range_succ]
          have h4 := hval i hji hiM
          rw [← hdiag] at h4
          rw [h4, sum_congr rfl (fun q _ => mul_comm (l j q) (l i q))]
          ring
        · exact h2 i j (by omega) hji hiM
  obtain ⟨h1, h2⟩ := main n (le_refl _)
  exact ⟨h1, fun i k hki hiM hkn => h2 i k hkn hki hiM⟩

/-- `cholesky_exact` for a recurrence that divides by the square root of the pivot or, below the diagonal, by the
diagonal element already computed. -/
theorem cholesky_exact_or [Arith V] [ExactSqrt V] {n M : Nat} (hnM : n ≤ M) {a l : Nat → Nat → V}
    (hpd : LowerPosDef n a)
    (hrec : ∀ i k, k ≤ i → i < M → k < n → ∃ d, (d = Arith.sqrt (a k k - ∑ q ∈ range k, l k q * l k q) ∨
        (k < i ∧ d = l k k)) ∧ l i k = Arith.div (a i k - ∑ q ∈ range k, l k q * l i q) d) :
    (∀ k, k < n → 0 < l k k) ∧
      (∀ i k, k ≤ i → i < M → k < n → ∑ q ∈ range (k + 1), l i q * l k q = a i k) := by
  have main : ∀ k, k ≤ n → (∀ j, j < k → 0 < l j j) ∧
      (∀ i j, j < k → j ≤ i → i < M → ∑ q ∈ range (j + 1), l i q * l j q = a i j) := by
    intro k
    induction k with
    | zero => exact fun _ => ⟨fun j hj => by omega, fun i j hj => by omega⟩
    | succ k ih =>
      intro hk
      obtain ⟨h1, h2⟩ := ih (by omega)
      have hp := cholesky_pivot_pos (k := k) (by omega) hpd (fun j hj => ne_of_gt (h1 j hj))
        (fun i j hj hji hik => h2 i j hj hji (by omega))
      have hs := ExactSqrt.sqrt_pos _ hp
      have hss := ExactSqrt.sqrt_sq _ hp
      have hdiag : l k k = Arith.sqrt (a k k - ∑ q ∈ range k, l k q * l k q) := by
        obtain ⟨d, hd, e⟩ := hrec k k (le_refl _) (by omega) (by omega)
        rcases hd with rfl | ⟨hd, _⟩
        · rw [ExactField.div_eq _ _ (ne_of_gt hs), eq_div_iff (ne_of_gt hs)] at e
          exact mul_right_cancel₀ (ne_of_gt hs) (e.trans hss.symm)
        · omega
      have hpos : 0 < l k k := by rw [hdiag]; exact hs
      have hval : ∀ i, k ≤ i → i < M → l i k * l k k = a i k - ∑ q ∈ range k, l k q * l i q := by
        intro i hi hiM
        obtain ⟨d, hd, e⟩ := hrec i k hi hiM (by omega)
        have hd' : d = l k k := by
          rcases hd with rfl | ⟨_, rfl⟩
          · exact hdiag.symm
          · rfl
        subst hd'
        rw [ExactField.div_eq _ _ (ne_of_gt hpos), eq_div_iff (ne_of_gt hpos)] at e
        exact e
      refine ⟨fun j hj => ?_, fun i j hj hji hiM => ?_⟩
      · by_cases hjk : j = k
        · subst hjk; exact hpos
        · exact h1 j (by omega)
      · by_cases hjk : j = k
        · subst hjk
          rw [sum_range_succ, hval i hji hiM, sum_congr rfl (fun q _ => mul_comm (l j q) (l i q))]
          ring
        · exact h2 i j (by omega) hji hiM
  obtain ⟨h1, h2⟩ := main n (le_refl _)
  exact ⟨h1, fun i k hki hiM hkn => h2 i k hkn hki hiM⟩

end
end Blast
