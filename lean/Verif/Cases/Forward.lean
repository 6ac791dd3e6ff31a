import Verif.Props.Forward
import Verif.Cases.BinaryCholesky
/-
Cases of Props/Forward, in binary64.
-/
namespace Blast
open Finset Bin

/-- the inverse of the 3 × 3 matrix with 5 at (2, 0), (0, 1), (1, 2) and 1 elsewhere -/
noncomputable def bsysInv (i k : Nat) : ℝ := if i = 0 ∧ k = 2 ∨ i = 1 ∧ k = 0 ∨ i = 2 ∧ k = 1 then 3 / 14 else -(1 / 28)
theorem bsys_inv : IsLeftInverse 3 bsysInv (fun i j => (bsysVal i j).real) := by
  intro i j hi hj
  simp only [bsys_real, sum_range_succ, sum_range_zero, bsysInv]
  interval_cases i <;> interval_cases j <;> norm_num
theorem bsys_inv_norm (i : Nat) (hi : i < 3) : ∑ k ∈ range 3, |bsysInv i k| ≤ 2 / 7 := by
  simp only [sum_range_succ, sum_range_zero, bsysInv]
  interval_cases i <;> norm_num [abs_of_pos, abs_of_neg]

theorem bsys_theta : (((1 / (1 - binary64.u)) ^ 3) ^ 2 + (1 / (1 - binary64.u)) ^ 3 - 2) * ((3 : ℕ) * ((2 * (1 + binary64.u) ^ 2) ^ 3 * (5 + 2 * binary64.eta))) +
    (1 / (1 - binary64.u)) ^ 3 * (3 * (3 : ℕ) + (2 * (1 + binary64.u) ^ 2) ^ 3 * (5 + 2 * binary64.eta)) * binary64.eta ≤ 1 := by
  obtain ⟨g1, g2⟩ := bsys_G
  obtain ⟨w1, w2⟩ := bsys_W
  have he := binLu_eta
  have he0 := binary64.eta_pos
  generalize (1 / (1 - binary64.u)) ^ 3 = G at *
  generalize (2 * (1 + binary64.u) ^ 2) ^ 3 * (5 + 2 * binary64.eta) = W at *
  have k0 : G ^ 2 + G - 2 ≤ 4 * (4 / 10000) := by nlinarith
  have k1 : (G ^ 2 + G - 2) * ((3 : ℕ) * W) ≤ 4 * (4 / 10000) * (3 * 50) := mul_le_mul k0 (by push_cast; linarith) (by positivity) (by norm_num)
  have k2 : G * (3 * (3 : ℕ) + W) * binary64.eta ≤ 2 * 59 * (1 / 10000) :=
    mul_le_mul (mul_le_mul (by linarith) (by push_cast; linarith) (by positivity) (by norm_num)) he he0.le (by norm_num)
  exact le_trans (add_le_add k1 k2) (by norm_num)

/-- the 3 × 3 system: no exception, and a solution near the exact one -/
example := C94_lu_solve C86_wide.1 (SS := 4) (by decide) (A := bsysA) (B := bsysB) rfl rfl rfl bsysA_live bsys_apart rfl rfl bsysA_has bsysB_has id
    (fun i j _ _ => bsys_num i j) (fun i j _ _ => bsys_fin i j) (μ := 5) (β := 1) (δ := 1 / 4) (by norm_num) (fun i j _ _ => bsys_le i j) zero_le_one (fun _ _ _ _ => bsys_one)
    (by norm_num) rfl rfl (lt_big50 bsys_W.2) (w := bsysInv) (ω := 2 / 7) bsys_inv bsys_inv_norm
    (lt_of_le_of_lt (mul_le_mul_of_nonneg_left (mul_le_mul_of_nonneg_left bsys_dist (Nat.cast_nonneg 3)) (by norm_num)) (show (2 / 7 : ℝ) * ((3 : ℕ) * (1 / 2)) < 1 by norm_num)) rfl rfl
    (lt_big_of (lt_of_le_of_lt bsys_Y.2 (by norm_num))) rfl rfl
    (lt_big_of (bsys_X bsys_Y bsys_W).2) (lt_big_of (by have := bsys_X bsys_Y bsys_W; exact lt_of_le_of_lt (mul_le_of_le_one_left this.1 (by norm_num)) this.2))
    rfl rfl (lt_of_le_of_lt (mul_le_mul_of_nonneg_right bsys_theta (show (0 : ℝ) ≤ 2 / 7 * (3 : ℕ) by norm_num)) (show (1 : ℝ) * (2 / 7 * (3 : ℕ)) < 1 by norm_num)) rfl

/-- the inverse of the unit lower triangle of ones below the diagonal -/
noncomputable def triInv (i k : Nat) : ℝ := if i = k then 1 else if i = k + 1 then -1 else 0
noncomputable def triOnes (i k : Nat) : ℝ := if k ≤ i then 1 else 0
theorem tri_inv (n : Nat) : IsLeftInverse n triInv triOnes := by
  intro i j hi hj
  have e : ∀ k ∈ range n, triInv i k * triOnes k j = (if k = i then triOnes k j else 0) - (if k + 1 = i then triOnes k j else 0) := fun k _ => by
    unfold triInv
    by_cases h1 : k = i
    · subst h1; rw [if_pos rfl, if_pos rfl, if_neg (by omega)]; ring
    · rw [if_neg (fun h => h1 h.symm), if_neg h1]
      by_cases h2 : k + 1 = i
      · rw [if_pos h2.symm, if_pos h2]; ring
      · rw [if_neg (fun h => h2 h.symm), if_neg h2]; ring
  rw [sum_congr rfl e, sum_sub_distrib, sum_ite_eq' (range n) i, if_pos (mem_range.2 hi)]
  cases i with
  | zero =>
    rw [sum_eq_zero (fun k _ => if_neg (by omega)), sub_zero]
    unfold triOnes
    exact if_congr (by omega) rfl rfl
  | succ i =>
    have e2 : ∀ k ∈ range n, (if k + 1 = i + 1 then triOnes k j else 0) = if k = i then triOnes k j else 0 := fun k _ => if_congr (by omega) rfl rfl
    rw [sum_congr rfl e2, sum_ite_eq' (range n) i, if_pos (mem_range.2 (by omega))]
    unfold triOnes
    by_cases h1 : j ≤ i
    · rw [if_pos (by omega), if_pos h1, if_neg (by omega), sub_self]
    · by_cases h2 : j = i + 1
      · rw [if_pos (by omega), if_neg h1, if_pos h2.symm, sub_zero]
      · rw [if_neg (by omega), if_neg h1, if_neg (fun h => h2 h.symm), sub_zero]

/-- the upper right part of the matrix in memory is not used -/
theorem bsys_tri (i k : Nat) (hk : k < 3) (hi : i < 3) : tri .lower true (fun _ _ => (1 : ℝ)) i k = triOnes i k := by
  interval_cases i <;> interval_cases k <;> simp [tri, triOnes]

example := C94_trsm (F := binary64) (SS := 4) (m := memOf 1000 (fun _ => .fin false 1)) (A := bsysA) (B := bsysB) (X := ⟨.statDense, .columnMajor, 3, 2, 128⟩) .lower true
    ⟨by decide, memOf_live lit lit lit, memOf_live lit lit lit, memOf_live lit lit lit, apart_of lit, Or.inr (apart_of lit)⟩ lit
    (a := fun _ _ => .fin false 1) (b := fun _ _ => .fin false 1) (Contains.tri (memOf_contains (c := bsysA) lit lit lit) _ _) (memOf_contains (c := bsysB) lit lit lit) (w := triInv) rfl
    (fun i j hi hj => by
      refine Eq.trans (sum_congr rfl (fun k hk => ?_)) (tri_inv 3 i j hi hj)
      have e : (fun _ _ : Nat => (Bin.fin false 1 : Bin binary64).real) = fun _ _ => (1 : ℝ) := by simp [Bin.real]
      rw [e, bsys_tri k j hj (mem_range.1 hk)]) rfl (fun _ => rfl)

/-- the inverse of the 8 × 8 matrix with 5 on the diagonal and 1 elsewhere -/
noncomputable def spdInv (i k : Nat) : ℝ := if i = k then 11 / 48 else -(1 / 48)
theorem spd_inv : IsLeftInverse 8 spdInv (fun i k => (spdVal (max i k) (min i k)).real) := by
  intro i j hi hj
  have e : ∀ k ∈ range 8, spdInv i k * (spdVal (max k j) (min k j)).real = (if k = i then (if k = j then (5 : ℝ) else 1) / 4 else 0) + (-(1 / 48) * if k = j then 5 else 1) := fun k _ => by
    rw [spd_real]
    unfold spdInv
    rw [show (if max k j = min k j then (5 : ℝ) else 1) = if k = j then 5 else 1 from if_congr (by omega) rfl rfl]
    by_cases h1 : k = i
    · subst h1; rw [if_pos rfl, if_pos rfl]; ring
    · rw [if_neg (fun h => h1 h.symm), if_neg h1]; ring
  have e2 : ∀ k ∈ range 8, (-(1 / 48) * if k = j then (5 : ℝ) else 1) = (if k = j then -(1 / 12) else 0) + -(1 / 48) := fun k _ => by
    by_cases h1 : k = j
    · rw [if_pos h1, if_pos h1]; norm_num
    · rw [if_neg h1, if_neg h1]; norm_num
  rw [sum_congr rfl e, sum_add_distrib, sum_congr rfl e2, sum_add_distrib, sum_ite_eq' (range 8) i, if_pos (mem_range.2 hi), sum_ite_eq' (range 8) j, if_pos (mem_range.2 hj),
    sum_const, card_range]
  by_cases h1 : i = j
  · rw [if_pos h1, if_pos h1]; norm_num
  · rw [if_neg h1, if_neg h1]; norm_num
theorem spd_inv_norm (i : Nat) (hi : i < 8) : ∑ k ∈ range 8, |spdInv i k| ≤ 3 / 8 := by
  have e : ∀ k ∈ range 8, |spdInv i k| = (if k = i then 10 / 48 else 0) + 1 / 48 := fun k _ => by
    unfold spdInv
    by_cases h1 : k = i
    · rw [if_pos h1.symm, if_pos h1, abs_of_pos (by norm_num)]; norm_num
    · rw [if_neg (fun h => h1 h.symm), if_neg h1, abs_neg, abs_of_pos (by norm_num)]; norm_num
  rw [sum_congr rfl e, sum_add_distrib, sum_ite_eq' (range 8) i, if_pos (mem_range.2 hi), sum_const, card_range]
  norm_num

theorem spd_theta : (((1 / (1 - binary64.u)) ^ 8) ^ 2 + (1 / (1 - binary64.u)) ^ (8 + 4) - 2) * (5 + spdE) + (1 / (1 - binary64.u)) ^ (8 + 4) * (2 * (8 : ℕ) + 3) * binary64.eta ≤ 1 / 4 := by
  have hu := binLu_u
  have hu0 := binary64.u_pos
  have he := binLu_eta
  have he0 := binary64.eta_pos
  have hE := spd_E
  have h1 : 1 / (1 - binary64.u) ≤ 1 / (1 - 1 / 10000) := one_div_le_one_div_of_le (by norm_num) (by linarith)
  have h1' : 1 ≤ 1 / (1 - binary64.u) := by rw [← one_add_bu binary64.u_lt_one]; have := Bin.bu_pos (F := binary64); linarith
  generalize 1 / (1 - binary64.u) = g at *
  have g0 : 0 ≤ g := by linarith
  have k1 : (g ^ 8) ^ 2 ≤ 1 + 2 / 1000 := by rw [← pow_mul]; exact le_trans (pow_le_pow_left₀ g0 h1 _) (by norm_num)
  have k2 : g ^ (8 + 4) ≤ 1 + 2 / 1000 := le_trans (pow_le_pow_left₀ g0 h1 _) (by norm_num)
  have k3 : ((g ^ 8) ^ 2 + g ^ (8 + 4) - 2) * (5 + spdE) ≤ 4 / 1000 * 6 := mul_le_mul (by linarith) (by linarith) (by linarith) (by norm_num)
  have k4 : g ^ (8 + 4) * (2 * (8 : ℕ) + 3) * binary64.eta ≤ 2 * 19 * (1 / 10000) :=
    mul_le_mul (mul_le_mul (le_trans k2 (by norm_num)) (by push_cast; norm_num) (by positivity) (by norm_num)) he he0.le (by norm_num)
  exact le_trans (add_le_add k3 k4) (by norm_num)

/-- the 8 × 8 symmetric system with three right-hand sides -/
example := C94_cholesky_solve C86_wide.1 spd_args lit spd_fits rfl rfl (B := spdB) (apart_of lit) spdA_has spdB_has spd_num spd_safe
    (α := 3) (β := 1) (by norm_num) (by have := spd_E; linarith) zero_le_one (fun _ _ _ _ => bsys_one) (C := spdC) rfl (Y := spdY) rfl
    (lt_big60 (lt_of_le_of_lt spd_Y.2 (by norm_num))) (by rw [one_mul]; exact lt_big60 (lt_of_le_of_lt spd_Y.2 (by norm_num))) (X := spdX) rfl
    (lt_big60 (lt_of_le_of_lt spd_X.2 (by norm_num))) (by rw [one_mul]; exact lt_big60 (lt_of_le_of_lt spd_X.2 (by norm_num))) rfl rfl
    (w := spdInv) (ω := 3 / 8) spd_inv spd_inv_norm rfl rfl (lt_of_le_of_lt (mul_le_mul_of_nonneg_right spd_theta (show (0 : ℝ) ≤ 3 / 8 * (8 : ℕ) by norm_num)) (show (1 / 4 : ℝ) * (3 / 8 * (8 : ℕ)) < 1 by norm_num)) rfl

end Blast
