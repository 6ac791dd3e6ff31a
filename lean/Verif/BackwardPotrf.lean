import Verif.Backward
import Verif.LinAlg
import Mathlib.Algebra.Order.Chebyshev
/-
Backward error analysis of the Cholesky factorization in rounded arithmetic.
-/
set_option linter.unusedSectionVars false
namespace Blast
open Finset
variable {V : Type} [Field V] [LinearOrder V] [IsStrictOrderedRing V]

section
variable [Arith V] {u : V} [hR : RoundedSqrt u]

/-- the inner product of rows `r` and `c` is subtracted from `acc` -/
theorem near_potS (KN : Nat) (l : Nat → Nat → V) (acc : V) (r c : Nat) :
    Near (bu u) c (|potS KN l acc r c| + ∑ q ∈ range c, |l r q * l c q|) acc (potS KN l acc r c + ∑ q ∈ range c, l r q * l c q) := by
  have e : c = c / KN * KN + c % KN := by have := Nat.div_add_mod c KN; rw [Nat.mul_comm] at this; omega
  unfold potS
  have n1 := near_fmaNegSum (u := u) (fun q => l r q) (fun q => l c q) acc (c / KN * KN)
  have n2 := near_fnmaSum (u := u) (fun t => l c (c / KN * KN + t)) (fun t => l r (c / KN * KN + t))
    (fmaSum (fun q => Arith.mul (Arith.neg Arith.one) (l r q)) (fun q => l c q) acc (c / KN * KN)) (c % KN)
  have n3 := n1.subst buN n2 (abs_sum_le_sum_abs _ _)
  rw [← e] at n3
  have key : ∀ f : Nat → V, ∑ q ∈ range c, f q = ∑ q ∈ range (c / KN * KN), f q + ∑ t ∈ range (c % KN), f (c / KN * KN + t) := by
    intro f
    rw [← sum_range_add f, ← e]
  have hc : ∀ q, l c q * l r q = l r q * l c q := fun q => mul_comm _ _
  simp only [hc] at n3
  rw [key (fun q => |l r q * l c q|), key (fun q => l r q * l c q)]
  have e1 : ∀ x y z : V, x + (y + z) = x + z + y := fun x y z => by ring
  rw [e1, e1 (fnmaSum _ _ _ _)]
  exact n3

/-- the computed square root of a positive number is positive -/
theorem sqrt_pos' {s : V} (hs : 0 < s) : 0 < Arith.sqrt s ∧ Rel (bu u) 2 (Arith.sqrt s * Arith.sqrt s) s := by
  obtain ⟨t, h0, h1, h2⟩ := hR.sqrt_err s (le_of_lt hs)
  have ht : 0 < t := by
    rcases lt_or_eq_of_le h0 with h | h
    · exact h
    · rw [← h, mul_zero] at h1; exact absurd h1 (ne_of_lt hs)
  have h3 : |Arith.sqrt s - t| ≤ u * |t| := by rwa [abs_of_pos ht]
  have hrel := rel_of_err hR.u_nonneg hR.u_lt_one h3
  refine ⟨?_, ?_⟩
  · have := (abs_le.1 h2).1
    nlinarith [hR.u_lt_one]
  · have := hrel.mul buN hrel
    rwa [h1] at this

include hR in
theorem div_pos' {a b : V} (ha : 0 < a) (hb : 0 < b) : 0 < Arith.div a b := by
  have h := hR.div_err a b (ne_of_gt hb)
  have hq : 0 < a / b := div_pos ha hb
  rw [abs_of_pos hq] at h
  have := (abs_le.1 h).1
  nlinarith [hR.u_lt_one]

/-- one element of the factor -/
theorem pot_entry {KN : Nat} {l : Nat → Nat → V} {ar ac : V} {r c : Nat} (hS : 0 < potS KN l ac c c)
    (hcc : l c c = Arith.div (potS KN l ac c c) (Arith.sqrt (potS KN l ac c c)))
    (hrc : l r c = Arith.div (potS KN l ar r c) (Arith.sqrt (potS KN l ac c c)) ∨ l r c = Arith.div (potS KN l ar r c) (l c c)) :
    0 < l c c ∧ Near (bu u) (c + 4) (∑ q ∈ range (c + 1), |l r q * l c q|) ar (∑ q ∈ range (c + 1), l r q * l c q) := by
  obtain ⟨hσ, hσ2⟩ := sqrt_pos' (u := u) hS
  have hpos : 0 < l c c := by rw [hcc]; exact div_pos' (u := u) hS hσ
  have r1 : Rel (bu u) 1 (l c c * Arith.sqrt (potS KN l ac c c)) (potS KN l ac c c) := by
    rw [hcc]; exact rel_div_mul (ne_of_gt hσ)
  have r3 : Rel (bu u) 3 (l c c) (Arith.sqrt (potS KN l ac c c)) := (r1.trans buN hσ2.symm).cancel (ne_of_gt hσ)
  have r4 : Rel (bu u) 4 (potS KN l ar r c) (l r c * l c c) := by
    rcases hrc with h | h
    · have h1 : Rel (bu u) 1 (l r c * Arith.sqrt (potS KN l ac c c)) (potS KN l ar r c) := by
        rw [h]; exact rel_div_mul (ne_of_gt hσ)
      have h2 := (Rel.refl (bu u) (l r c)).mul buN r3.symm
      exact h1.symm.trans buN h2
    · have h1 : Rel (bu u) 1 (l r c * l c c) (potS KN l ar r c) := by
        rw [h]; exact rel_div_mul (ne_of_gt hpos)
      exact h1.symm.mono buN (by omega)
  refine ⟨hpos, ?_⟩
  have n1 := (near_potS (u := u) KN l ar r c).subst buN r4.near (abs_sum_le_sum_abs _ _)
  rw [sum_range_succ, sum_range_succ, add_comm _ |l r c * l c c|, add_comm _ (l r c * l c c)]
  exact n1

end

/-! ### Positive pivots -/

/-- The next computed pivot is positive if the matrix is positive definite with a margin that covers the rounding errors. -/
theorem rounded_pivot_pos {n k : Nat} (hk : k < n) {a l : Nat → Nat → V} {g s : V} (hg0 : 0 ≤ g) (hg1 : g < 1)
    (hng : (n : V) * g * (1 + g) ≤ (1 - g) * (1 - g))
    (hpd : ∀ x : Nat → V, (∃ i, i < n ∧ x i ≠ 0) →
      (n : V) * g / (1 - g) * (∑ i ∈ range n, a i i * (x i * x i)) < ∑ i ∈ range n, ∑ j ∈ range n, x i * a (max i j) (min i j) * x j)
    (hd : ∀ j, j < k → l j j ≠ 0)
    (hl : ∀ i j, j < k → j ≤ i → i ≤ k → |a i j - ∑ q ∈ range (j + 1), l i q * l j q| ≤ g * ∑ q ∈ range (j + 1), |l i q * l j q|)
    (hs : |a k k - (s + ∑ q ∈ range k, l k q * l k q)| ≤ g * (|s| + ∑ q ∈ range k, |l k q * l k q|)) : 0 < s := by
  by_contra hsn
  have hs0 : s ≤ 0 := not_lt.1 hsn
  obtain ⟨y, hy⟩ := exists_low_transpose_solution l k hd (fun j => l k j)
  let x : Nat → V := fun i => if i < k then - y i else if i = k then 1 else 0
  have hpos := hpd x ⟨k, hk, by simp [x]⟩
  have hrestrict : ∀ f : Nat → V, (∀ i, k < i → f i = 0) → ∑ i ∈ range n, f i = ∑ i ∈ range (k + 1), f i := by
    intro f hf
    symm
    apply sum_subset
    · intro i hi; rw [mem_range] at *; omega
    · intro i _ hi; rw [mem_range] at hi; exact hf i (by omega)
  have hx0 : ∀ i, k < i → x i = 0 := by
    intro i hi; simp only [x]; rw [if_neg (by omega), if_neg (by omega)]
  have hxk : x k = 1 := by simp [x]
  rw [hrestrict _ (fun i hi => sum_eq_zero (fun j _ => by rw [hx0 i hi]; ring)),
    sum_congr rfl (fun i _ => hrestrict _ (fun j hj => by rw [hx0 j hj]; ring)),
    hrestrict _ (fun i hi => by rw [hx0 i hi]; ring)] at hpos
  -- the products of the rows of low l
  let R : Nat → Nat → V := fun i j => ∑ q ∈ range k, low l i q * low l j q
  let P : Nat → Nat → V := fun i j => ∑ q ∈ range k, |low l i q| * |low l j q|
  have hkk : R k k = ∑ q ∈ range k, l k q * l k q ∧ P k k = ∑ q ∈ range k, |l k q * l k q| := by
    refine ⟨sum_congr rfl (fun q hq => ?_), sum_congr rfl (fun q hq => ?_)⟩ <;>
    · have := mem_range.1 hq
      unfold low; rw [if_pos (by omega)]
      try rw [abs_mul]
  have key : ∀ i j, j < k → j ≤ i → i ≤ k → |a i j - R i j| ≤ g * P i j := by
    intro i j hj hji hik
    have h0 := hl i j hj hji hik
    have ext : ∀ f : V → V → V, (∀ v, f v 0 = 0) → ∑ q ∈ range (j + 1), f (l i q) (l j q) = ∑ q ∈ range k, f (low l i q) (low l j q) := by
      intro f hf
      rw [show ∑ q ∈ range (j + 1), f (l i q) (l j q) = ∑ q ∈ range (j + 1), f (low l i q) (low l j q) from
        sum_congr rfl (fun q hq => by
          have := mem_range.1 hq
          unfold low; rw [if_pos (by omega), if_pos (by omega)])]
      apply sum_subset
      · intro q hq; rw [mem_range] at *; omega
      · intro q _ hq; rw [mem_range] at hq
        have : low l j q = 0 := by unfold low; rw [if_neg (by omega)]
        rw [this, hf]
    rw [ext (fun p q => p * q) (fun v => mul_zero v), ext (fun p q => |p * q|) (fun v => by rw [mul_zero, abs_zero])] at h0
    simp only [abs_mul] at h0
    exact h0
  have hE : ∀ i j, i ≤ k → j ≤ k → |a (max i j) (min i j) - R i j - (if i = k ∧ j = k then s else 0)| ≤
      g * P i j + (if i = k ∧ j = k then g * |s| else 0) := by
    intro i j hi hj
    by_cases hh : i = k ∧ j = k
    · obtain ⟨rfl, rfl⟩ := hh
      simp only [and_self, if_true, max_self, min_self]
      rw [hkk.1, hkk.2]
      have e : a j j - ∑ q ∈ range j, l j q * l j q - s = a j j - (s + ∑ q ∈ range j, l j q * l j q) := by ring
      rw [e]; linarith
    · rw [if_neg hh, if_neg hh, sub_zero, add_zero]
      rcases Nat.lt_or_ge j i with h1 | h1
      · rw [max_eq_left (by omega), min_eq_right (by omega)]
        exact key i j (by omega) (by omega) hi
      · rw [max_eq_right (by omega), min_eq_left (by omega)]
        have hR : R i j = R j i := sum_congr rfl (fun q _ => mul_comm _ _)
        have hP : P i j = P j i := sum_congr rfl (fun q _ => mul_comm _ _)
        rw [hR, hP]
        exact key j i (by omega) (by omega) hj
  have hcol : ∀ q, q < k → ∑ i ∈ range (k + 1), x i * low l i q = 0 := by
    intro q hq
    rw [sum_range_succ]
    have e : ∑ i ∈ range k, x i * low l i q = - ∑ i ∈ range k, y i * low l i q := by
      rw [← sum_neg_distrib]
      refine sum_congr rfl (fun i hi => ?_)
      have := mem_range.1 hi
      simp only [x]; rw [if_pos this]; ring
    rw [e, hy q hq]
    simp only [x]
    rw [if_neg (by omega), if_pos trivial]
    unfold low; rw [if_pos (by omega)]; ring
  have hzero : ∑ i ∈ range (k + 1), ∑ j ∈ range (k + 1), x i * R i j * x j = 0 := by
    refine sum_eq_zero (fun i _ => ?_)
    have : ∀ j ∈ range (k + 1), x i * R i j * x j = ∑ q ∈ range k, x i * low l i q * (x j * low l j q) := by
      intro j _
      simp only [R]
      rw [mul_sum, sum_mul]
      exact sum_congr rfl (fun q _ => by ring)
    rw [sum_congr rfl this, sum_comm]
    refine sum_eq_zero (fun q hq => ?_)
    rw [← mul_sum, hcol q (mem_range.1 hq), mul_zero]
  -- the quadratic form is small
  have hpick : ∀ w : V, ∑ i ∈ range (k + 1), ∑ j ∈ range (k + 1), (if i = k ∧ j = k then w else 0) = w := by
    intro w
    rw [sum_range_succ, sum_eq_zero (fun i hi => sum_eq_zero (fun j _ => by
      have := mem_range.1 hi
      rw [if_neg (by omega)])), sum_range_succ, sum_eq_zero (fun j hj => by
      have := mem_range.1 hj
      rw [if_neg (by omega)])]
    simp
  have hform : ∑ i ∈ range (k + 1), ∑ j ∈ range (k + 1), x i * a (max i j) (min i j) * x j ≤
      s + g * |s| + g * ∑ i ∈ range (k + 1), ∑ j ∈ range (k + 1), |x i| * |x j| * P i j := by
    have e : ∑ i ∈ range (k + 1), ∑ j ∈ range (k + 1), x i * a (max i j) (min i j) * x j =
        ∑ i ∈ range (k + 1), ∑ j ∈ range (k + 1),
          (x i * (a (max i j) (min i j) - R i j - (if i = k ∧ j = k then s else 0)) * x j + (if i = k ∧ j = k then s else 0)) := by
      have e0 : ∑ i ∈ range (k + 1), ∑ j ∈ range (k + 1), x i * a (max i j) (min i j) * x j =
          ∑ i ∈ range (k + 1), ∑ j ∈ range (k + 1), x i * a (max i j) (min i j) * x j - ∑ i ∈ range (k + 1), ∑ j ∈ range (k + 1), x i * R i j * x j := by
        rw [hzero, sub_zero]
      rw [e0, ← sum_sub_distrib]
      refine sum_congr rfl (fun i hi => ?_)
      rw [← sum_sub_distrib]
      refine sum_congr rfl (fun j hj => ?_)
      by_cases hh : i = k ∧ j = k
      · obtain ⟨rfl, rfl⟩ := hh
        simp only [and_self, if_true, hxk]; ring
      · simp only [if_neg hh]; ring
    rw [e]
    have hb : ∀ i ∈ range (k + 1), ∀ j ∈ range (k + 1),
        x i * (a (max i j) (min i j) - R i j - (if i = k ∧ j = k then s else 0)) * x j + (if i = k ∧ j = k then s else 0) ≤
          g * (|x i| * |x j| * P i j) + (if i = k ∧ j = k then s + g * |s| else 0) := by
      intro i hi j hj
      rw [mem_range] at hi hj
      have h1 := hE i j (by omega) (by omega)
      have h2 : x i * (a (max i j) (min i j) - R i j - (if i = k ∧ j = k then s else 0)) * x j ≤
          |x i| * |x j| * (g * P i j + (if i = k ∧ j = k then g * |s| else 0)) := by
        refine le_trans (le_abs_self _) ?_
        rw [abs_mul, abs_mul]
        have := mul_le_mul_of_nonneg_left h1 (mul_nonneg (abs_nonneg (x i)) (abs_nonneg (x j)))
        linarith
      by_cases hh : i = k ∧ j = k
      · obtain ⟨rfl, rfl⟩ := hh
        simp only [and_self, if_true, hxk, abs_one, one_mul] at h2 ⊢
        linarith
      · simp only [if_neg hh] at h2 ⊢
        linarith
    refine le_trans (sum_le_sum (fun i hi => sum_le_sum (fun j hj => hb i hi j hj))) (le_of_eq ?_)
    simp only [sum_add_distrib, hpick, mul_sum]
    ring
  -- Cauchy-Schwarz
  have hcs : ∑ i ∈ range (k + 1), ∑ j ∈ range (k + 1), |x i| * |x j| * P i j ≤ (n : V) * ∑ i ∈ range (k + 1), (x i * x i) * P i i := by
    have e1 : ∑ i ∈ range (k + 1), ∑ j ∈ range (k + 1), |x i| * |x j| * P i j =
        ∑ q ∈ range k, (∑ i ∈ range (k + 1), |x i| * |low l i q|) ^ 2 := by
      have : ∀ i ∈ range (k + 1), ∑ j ∈ range (k + 1), |x i| * |x j| * P i j =
          ∑ q ∈ range k, (|x i| * |low l i q|) * ∑ j ∈ range (k + 1), |x j| * |low l j q| := by
        intro i _
        have h0 : ∑ q ∈ range k, (|x i| * |low l i q|) * ∑ j ∈ range (k + 1), |x j| * |low l j q| =
            ∑ j ∈ range (k + 1), ∑ q ∈ range k, (|x i| * |low l i q|) * (|x j| * |low l j q|) := by
          simp only [mul_sum]; exact sum_comm
        rw [h0]
        refine sum_congr rfl (fun j _ => ?_)
        simp only [P]; rw [mul_sum]
        exact sum_congr rfl (fun q _ => by ring)
      rw [sum_congr rfl this, sum_comm]
      exact sum_congr rfl (fun q _ => by rw [← sum_mul, sq])
    have e2 : ∑ i ∈ range (k + 1), (x i * x i) * P i i = ∑ q ∈ range k, ∑ i ∈ range (k + 1), (|x i| * |low l i q|) ^ 2 := by
      rw [sum_comm]
      refine sum_congr rfl (fun i _ => ?_)
      simp only [P]; rw [mul_sum]
      refine sum_congr rfl (fun q _ => ?_)
      rw [mul_pow, sq_abs, sq_abs, abs_mul_abs_self]; ring
    rw [e1, e2, mul_sum]
    refine sum_le_sum (fun q _ => ?_)
    have h1 := sq_sum_le_card_mul_sum_sq (s := range (k + 1)) (f := fun i => |x i| * |low l i q|)
    rw [card_range] at h1
    refine le_trans h1 (mul_le_mul_of_nonneg_right ?_ (sum_nonneg (fun i _ => sq_nonneg _)))
    exact_mod_cast hk
  -- row norms are bounded by the diagonal
  have hdiagR : ∀ i, R i i = P i i := fun i => sum_congr rfl (fun q _ => (abs_mul_abs_self _).symm)
  have hnorm : (1 - g) * ∑ i ∈ range (k + 1), (x i * x i) * P i i ≤ ∑ i ∈ range (k + 1), a i i * (x i * x i) + (1 + g) * |s| := by
    rw [sum_range_succ, sum_range_succ, hxk]
    have h1 : (1 - g) * ∑ i ∈ range k, (x i * x i) * P i i ≤ ∑ i ∈ range k, a i i * (x i * x i) := by
      rw [mul_sum]
      refine sum_le_sum (fun i hi => ?_)
      rw [mem_range] at hi
      have h2 := key i i hi (le_refl _) (by omega)
      rw [hdiagR i] at h2
      have h3 := (abs_le.1 h2).1
      have h4 : (1 - g) * P i i ≤ a i i := by linarith
      have := mul_le_mul_of_nonneg_left h4 (mul_self_nonneg (x i))
      linarith
    have h2 : (1 - g) * P k k ≤ a k k + (1 + g) * |s| := by
      rw [← hkk.1, ← hkk.2, hdiagR k] at hs
      have h3 := (abs_le.1 hs).1
      have h4 : -|s| ≤ s := neg_abs_le s
      have h5 : |s| = -s := abs_of_nonpos hs0
      nlinarith
    simp only [one_mul, mul_one]
    rw [mul_add]; linarith
  have h1g : (0 : V) < 1 - g := by linarith
  have habs : |s| = -s := abs_of_nonpos hs0
  have hD : ∑ i ∈ range (k + 1), (x i * x i) * P i i ≤ (∑ i ∈ range (k + 1), a i i * (x i * x i) + (1 + g) * |s|) / (1 - g) := by
    rw [le_div_iff₀ h1g]; linarith
  have hngn : 0 ≤ g * (n : V) := mul_nonneg hg0 (Nat.cast_nonneg n)
  have hfin : ∑ i ∈ range (k + 1), ∑ j ∈ range (k + 1), x i * a (max i j) (min i j) * x j ≤
      s + g * |s| + g * (n : V) * ((∑ i ∈ range (k + 1), a i i * (x i * x i) + (1 + g) * |s|) / (1 - g)) := by
    refine le_trans hform ?_
    have h3 := mul_le_mul_of_nonneg_left hcs hg0
    have h4 := mul_le_mul_of_nonneg_left hD hngn
    linarith
  have hlt := lt_of_lt_of_le hpos hfin
  have e : g * (n : V) * ((∑ i ∈ range (k + 1), a i i * (x i * x i) + (1 + g) * |s|) / (1 - g)) =
      (n : V) * g / (1 - g) * (∑ i ∈ range (k + 1), a i i * (x i * x i)) + (n : V) * g * (1 + g) / (1 - g) * |s| := by
    field_simp
  rw [e] at hlt
  have h5 : (n : V) * g * (1 + g) / (1 - g) ≤ 1 - g := by
    rw [div_le_iff₀ h1g]; exact hng
  have h6 := mul_le_mul_of_nonneg_right h5 (abs_nonneg s)
  nlinarith

end Blast
