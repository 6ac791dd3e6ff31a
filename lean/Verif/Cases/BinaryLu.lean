import Verif.Cases.BinarySolve
import Verif.Cases.Lu
import Verif.Props.BinaryLu
/-
Concrete cases of the theorems in Props/BinaryLu, in binary64.
-/
set_option linter.unusedSectionVars false
namespace Blast
open Finset

/-- the 5 × 3 matrix with 5 at (3, 0), (1, 1), (4, 2) and 1 elsewhere -/
noncomputable def binLuVal (i j : Nat) : Bin binary64 := if i = 3 ∧ j = 0 ∨ i = 1 ∧ j = 1 ∨ i = 4 ∧ j = 2 then .fin false 5 else .fin false 1
noncomputable def binLuCm : Mem (Bin binary64) := memOf 1000 (fun x => if x = 3 ∨ x = 9 ∨ x = 20 then .fin false 5 else .fin false 1)
noncomputable def binLuRm : Mem (Bin binary64) := memOf 1000 (fun x => if x = 12 ∨ x = 5 ∨ x = 18 then .fin false 5 else .fin false 1)

theorem one_rep : binary64.Representable 1 := ⟨⟨1, 0, by norm_num [binary64], by decide, by decide, by norm_num⟩, fun h => absurd rfl h⟩
theorem five_rep : binary64.Representable 5 := ⟨⟨5, 0, by norm_num [binary64], by decide, by decide, by norm_num⟩, fun h => absurd rfl h⟩

theorem binLu_num (i j : Nat) : (binLuVal i j).IsNum := by
  unfold binLuVal
  split
  · exact fun _ => by rw [show (Bin.fin false 5 : Bin binary64).real = 5 by simp [Bin.real]]; exact five_rep
  · exact fun _ => by rw [show (Bin.fin false 1 : Bin binary64).real = 1 by simp [Bin.real]]; exact one_rep
theorem binLu_fin (i j : Nat) : (binLuVal i j).Finite := by unfold binLuVal; split <;> exact trivial
theorem binLu_real (i j : Nat) : (binLuVal i j).real = if i = 3 ∧ j = 0 ∨ i = 1 ∧ j = 1 ∨ i = 4 ∧ j = 2 then 5 else 1 := by
  unfold binLuVal; split <;> simp [Bin.real]
theorem binLu_le (i j : Nat) : |(binLuVal i j).real| ≤ 5 := by rw [binLu_real]; split <;> norm_num

theorem binLuCm_has : Contains 4 binLuCm luCm binLuVal := by
  have h : ∀ i < 5, ∀ j < 3, (luCm.addr 4 i j = 3 ∨ luCm.addr 4 i j = 9 ∨ luCm.addr 4 i j = 20) ↔ (i = 3 ∧ j = 0 ∨ i = 1 ∧ j = 1 ∨ i = 4 ∧ j = 2) := by decide
  intro i j hi hj
  rw [show binLuVal i j = if luCm.addr 4 i j = 3 ∨ luCm.addr 4 i j = 9 ∨ luCm.addr 4 i j = 20 then .fin false 5 else .fin false 1 from if_congr (h i hi j hj).symm rfl rfl]
  exact memOf_contains (c := luCm) lit lit lit i j hi hj
theorem binLuRm_has : Contains 4 binLuRm luRm binLuVal := by
  have h : ∀ i < 5, ∀ j < 3, (luRm.addr 4 i j = 12 ∨ luRm.addr 4 i j = 5 ∨ luRm.addr 4 i j = 18) ↔ (i = 3 ∧ j = 0 ∨ i = 1 ∧ j = 1 ∨ i = 4 ∧ j = 2) := by decide
  intro i j hi hj
  rw [show binLuVal i j = if luRm.addr 4 i j = 12 ∨ luRm.addr 4 i j = 5 ∨ luRm.addr 4 i j = 18 then .fin false 5 else .fin false 1 from if_congr (h i hi j hj).symm rfl rfl]
  exact memOf_contains (c := luRm) lit lit lit i j hi hj
theorem binLuCm_live : Live 4 binLuCm luCm := memOf_live lit lit lit
theorem binLu_pre : GetrfPre 4 1 5 3 (luCm.mptr 4) binLuCm := LuPre.of_live (A := luCm) (by decide) rfl rfl binLuCm_live

theorem binLu_u : binary64.u ≤ 1 / 10000 := by
  have : binary64.u ≤ (1 / 2 : ℝ) ^ 14 := by
    unfold Format.u
    exact pow_le_pow_of_le_one (by norm_num) (by norm_num) (by decide)
  exact le_trans this (by norm_num)
theorem binLu_eta : binary64.eta ≤ 1 / 10000 := by
  have : binary64.eta ≤ (2 : ℝ) ^ (-14 : ℤ) := by
    unfold Format.eta
    rw [if_pos (show binary64.under = .gradual from rfl)]
    exact Format.two_zpow_le (by decide)
  exact le_trans this (by norm_num)

/-- the growth factor of three steps -/
theorem binLu_growth : (2 * (1 + binary64.u) ^ 2) ^ min 5 3 * (5 + 2 * binary64.eta) ≤ 50 := by
  have hu := binLu_u
  have hu0 := binary64.u_pos
  have he := binLu_eta
  have h1 : (1 + binary64.u) ^ 2 ≤ (1 + 1 / 10000) ^ 2 := pow_le_pow_left₀ (by linarith) (by linarith) 2
  have h2 : (2 * (1 + binary64.u) ^ 2) ^ 3 ≤ (2 * (1 + 1 / 10000) ^ 2) ^ 3 := pow_le_pow_left₀ (by positivity) (by linarith) 3
  have h3 := mul_le_mul h2 (show 5 + 2 * binary64.eta ≤ 5 + 2 * (1 / 10000) by linarith) (by have := binary64.eta_pos; linarith) (by positivity)
  exact le_trans h3 (by norm_num)
theorem binLu_growth' : (2 * (1 + binary64.u)) ^ min 5 3 * (5 + 2 * binary64.eta) ≤ 50 := by
  have hu0 := binary64.u_pos
  have he := binary64.eta_pos
  refine le_trans (mul_le_mul_of_nonneg_right (pow_le_pow_left₀ (by linarith) ?_ _) (by linarith)) binLu_growth
  nlinarith

theorem binLu_dist {G : ℝ} (h0 : 0 ≤ G) (hG : G ≤ 50) :
    ((1 / (1 - binary64.u)) ^ min 5 3 - 1) * (min (5 : Nat) 3 * G) + (1 / (1 - binary64.u)) ^ min 5 3 * (3 * min (5 : Nat) 3 + G) * binary64.eta ≤ 1 / 2 := by
  have hu := binLu_u
  have hu0 := binary64.u_pos
  have he := binLu_eta
  have he0 := binary64.eta_pos
  have h1 : 1 / (1 - binary64.u) ≤ 1 / (1 - 1 / 10000) := one_div_le_one_div_of_le (by norm_num) (by linarith)
  have h1' : 0 ≤ 1 / (1 - binary64.u) := by rw [← one_add_bu binary64.u_lt_one]; have := Bin.bu_pos (F := binary64); linarith
  have h2 : (1 / (1 - binary64.u)) ^ min 5 3 ≤ (1 / (1 - 1 / 10000 : ℝ)) ^ 3 := pow_le_pow_left₀ h1' h1 3
  have h2n : (1 / (1 - 1 / 10000 : ℝ)) ^ 3 ≤ 1 + 4 / 10000 := by norm_num
  have h2' : (0 : ℝ) ≤ (1 / (1 - binary64.u)) ^ min 5 3 := pow_nonneg h1' _
  set X := (1 / (1 - binary64.u)) ^ min 5 3
  have e : ((min (5 : Nat) 3 : Nat) : ℝ) = 3 := by norm_num
  rw [e]
  have hx : X - 1 ≤ 4 / 10000 := by linarith
  have k1 : (X - 1) * (3 * G) ≤ 4 / 10000 * (3 * 50) := by
    have a1 : (X - 1) * (3 * G) ≤ 4 / 10000 * (3 * G) := mul_le_mul_of_nonneg_right hx (by linarith)
    linarith
  have k2 : X * (3 * 3 + G) * binary64.eta ≤ 2 * 59 * (1 / 10000) :=
    mul_le_mul (mul_le_mul (by linarith) (by linarith) (by linarith) (by norm_num)) he he0.le (by norm_num)
  linarith

theorem RobustIndep.mono {δ δ' : ℝ} (h : δ ≤ δ') {m n : Nat} {a : Nat → Nat → ℝ} (hr : RobustIndep δ' m n a) : RobustIndep δ m n a :=
  fun a' ha => hr a' (fun i j hi hj => le_trans (ha i j hi hj) h)

/-- the rows 3, 1, 4 of all matrices nearby are diagonally dominant -/
theorem binLu_robust : RobustIndep (1 / 2 : ℝ) 5 3 (fun i j => (binLuVal i j).real) := by
  intro a' ha x hx
  have r : ∀ i, i < 5 → a' i 0 * x 0 + a' i 1 * x 1 + a' i 2 * x 2 = 0 := fun i hi => by
    have := hx i hi
    simpa [sum_range_succ] using this
  have hd : ∀ i j, i < 5 → j < 3 → (i = 3 ∧ j = 0 ∨ i = 1 ∧ j = 1 ∨ i = 4 ∧ j = 2) → 9 / 2 ≤ |a' i j| := fun i j hi hj hc => by
    have := ha i j hi hj
    beta_reduce at this
    rw [binLu_real, if_pos hc] at this
    have h1 := (abs_le.1 this).1
    exact le_trans (by linarith) (le_abs_self _)
  have ho : ∀ i j, i < 5 → j < 3 → ¬ (i = 3 ∧ j = 0 ∨ i = 1 ∧ j = 1 ∨ i = 4 ∧ j = 2) → |a' i j| ≤ 3 / 2 := fun i j hi hj hc => by
    have := ha i j hi hj
    beta_reduce at this
    rw [binLu_real, if_neg hc] at this
    have h1 := abs_le.1 this
    exact abs_le.2 ⟨by linarith, by linarith⟩
  have dom : ∀ d p q y0 y1 y2 : ℝ, 9 / 2 ≤ |d| → |p| ≤ 3 / 2 → |q| ≤ 3 / 2 → d * y0 + p * y1 + q * y2 = 0 → 9 / 2 * |y0| ≤ 3 / 2 * |y1| + 3 / 2 * |y2| := by
    intro d p q y0 y1 y2 h1 h2 h3 h4
    have h5 : |d| * |y0| = |p * y1 + q * y2| := by rw [← abs_mul, show d * y0 = -(p * y1 + q * y2) by linarith, abs_neg]
    have h6 := abs_add_le (p * y1) (q * y2)
    rw [abs_mul, abs_mul] at h6
    have h7 := mul_le_mul_of_nonneg_right h1 (abs_nonneg y0)
    have h8 := mul_le_mul_of_nonneg_right h2 (abs_nonneg y1)
    have h9 := mul_le_mul_of_nonneg_right h3 (abs_nonneg y2)
    linarith
  have d0 := dom _ _ _ (x 0) (x 1) (x 2) (hd 3 0 (by decide) (by decide) (by decide)) (ho 3 1 (by decide) (by decide) (by decide)) (ho 3 2 (by decide) (by decide) (by decide)) (r 3 (by decide))
  have d1 := dom _ _ _ (x 1) (x 0) (x 2) (hd 1 1 (by decide) (by decide) (by decide)) (ho 1 0 (by decide) (by decide) (by decide)) (ho 1 2 (by decide) (by decide) (by decide))
    (by have := r 1 (by decide); linarith)
  have d2 := dom _ _ _ (x 2) (x 0) (x 1) (hd 4 2 (by decide) (by decide) (by decide)) (ho 4 0 (by decide) (by decide) (by decide)) (ho 4 1 (by decide) (by decide) (by decide))
    (by have := r 4 (by decide); linarith)
  have n0 := abs_nonneg (x 0)
  have n1 := abs_nonneg (x 1)
  have n2 := abs_nonneg (x 2)
  intro j hj
  have hj : j < 3 := hj
  rcases j with _ | _ | _ | j
  · exact abs_eq_zero.1 (by linarith)
  · exact abs_eq_zero.1 (by linarith)
  · exact abs_eq_zero.1 (by linarith)
  · omega

theorem lt_big50 {x : ℝ} (h : x ≤ 50) : x < binary64.big := lt_of_le_of_lt h (lt_of_lt_of_le (by norm_num) bin_big)

/-- getrf factorizes the matrix, in binary64: no overflow, accurate up to rounding and underflow -/
example : ∃ p m' b, getrfPtr 4 1 5 3 (luCm.mptr 4) id binLuCm = .ok p m' ∧ Contains 4 m' luCm b ∧ (∀ i j, i < 5 → j < 3 → (b i j).Finite) ∧
    IsBinLU binary64 1 1 5 3 binLuVal b p ∧ (∀ k, k < min 5 3 → k ≤ p k ∧ p k < 5) ∧ OnlyElemsChange 4 binLuCm m' luCm :=
  C87_getrf_matrix C86_wide.1 (by decide) (A := luCm) rfl rfl binLuCm_live binLuCm_has id (fun i j _ _ => binLu_num i j) (fun i j _ _ => binLu_fin i j) (by norm_num)
    (fun i j _ _ => binLu_le i j) (lt_big50 binLu_growth)
    (binLu_robust.mono (binLu_dist (mul_nonneg (pow_nonneg (by have := binary64.u_pos; positivity) _) (by have := binary64.eta_pos; linarith)) binLu_growth))

/-- getf2: it returns, the factors are finite -/
example : ∃ p m' b, getf2Ptr 4 1 5 3 (luCm.mptr 4) id binLuCm = .ok p m' ∧ Holds 4 m' (luCm.mptr 4) 5 3 b ∧ (∀ i j, i < 5 → j < 3 → (b i j).Finite) := by
  have h := C87_getf2_safe C86_wide.1 binLu_pre.toLuPre binLuCm_has.holds (fun i j _ _ => binLu_num i j) id (fun i j _ _ => binLu_fin i j) (by norm_num)
    (fun i j _ _ => binLu_le i j) (lt_big50 binLu_growth')
  obtain ⟨p, m', e⟩ := h.full (binLu_robust.mono (binLu_dist (mul_nonneg (pow_nonneg (by have := binary64.u_pos; positivity) _) (by have := binary64.eta_pos; linarith)) binLu_growth'))
  obtain ⟨b, h1, h2, -⟩ := h.finite p m' e
  exact ⟨p, m', b, e, h1, h2⟩
example := C87_getf2 C86_wide.1 binLu_pre.toLuPre binLuCm_has.holds (fun i j _ _ => binLu_num i j) id
example := C87_getrf C86_wide.1 binLu_pre binLuCm_has.holds (fun i j _ _ => binLu_num i j) id
example := C87_getrf_safe C86_wide.1 binLu_pre binLuCm_has.holds (fun i j _ _ => binLu_num i j) id (fun i j _ _ => binLu_fin i j) (by norm_num)
    (fun i j _ _ => binLu_le i j) (lt_big50 binLu_growth)

/-- row-major getf2 -/
example : ∃ p m' b, getf2Row 4 Arith.div (luRm.mat 4) id binLuRm = .ok p m' ∧ Holds 4 m' (luRm.mat 4).p 5 3 b ∧ (∀ i j, i < 5 → j < 3 → (b i j).Finite) := by
  have h := C87_getf2_row_major_safe C86_wide.1 (SS := 4) (by decide) (A := luRm.mat 4) rfl (Container.inj (by decide) luRm) binLuRm_has.holds (fun i j _ _ => binLu_num i j) id
    (fun i j _ _ => binLu_fin i j) (by norm_num) (fun i j _ _ => binLu_le i j) (lt_big50 binLu_growth')
  obtain ⟨p, m', e⟩ := h.full (binLu_robust.mono (binLu_dist (mul_nonneg (pow_nonneg (by have := binary64.u_pos; positivity) _) (by have := binary64.eta_pos; linarith)) binLu_growth'))
  obtain ⟨b, h1, h2, -⟩ := h.finite p m' e
  exact ⟨p, m', b, e, h1, h2⟩
example := C87_getf2_row_major C86_wide.1 (SS := 4) (by decide) (A := luRm.mat 4) rfl (Container.inj (by decide) luRm) binLuRm_has.holds (fun i j _ _ => binLu_num i j) id
example := C87_getf2_row_major_reciprocal C86_wide.1 (by decide) (by decide) (SS := 4) (by decide) (A := luRm.mat 4) rfl (Container.inj (by decide) luRm) binLuRm_has.holds
  (fun i j _ _ => binLu_num i j) id
example := C87_getrf_row_major C86_wide.1 (by decide) (by decide) (SS := 4) (Or.inl ⟨rfl, rfl⟩) (A := luRm.mat 4) (Container.inj (by decide) luRm) binLuRm_has.holds
  (fun i j _ _ => binLu_num i j) id
example := C87_getrf_row_major C86_wide.1 (by decide) (by decide) (SS := 4) (Or.inr ⟨rfl, rfl⟩) (A := luRm.mat 4) (Container.inj (by decide) luRm) binLuRm_has.holds
  (fun i j _ _ => binLu_num i j) id

end Blast
