import Verif.Cases.BinaryLu
import Verif.Props.BinarySystem
/-
Concrete cases of the theorems in Props/BinarySystem, in binary64.
-/
set_option linter.unusedSectionVars false
namespace Blast
open Finset

def bsysA : Container := ⟨.dynDense, .columnMajor, 3, 3, 0⟩
def bsysB : Container := ⟨.dynDense, .columnMajor, 3, 2, 64⟩
/-- the 3 × 3 matrix with 5 at (2, 0), (0, 1), (1, 2) and 1 elsewhere -/
noncomputable def bsysVal (i j : Nat) : Bin binary64 := if i = 2 ∧ j = 0 ∨ i = 0 ∧ j = 1 ∨ i = 1 ∧ j = 2 then .fin false 5 else .fin false 1
noncomputable def bsysMem : Mem (Bin binary64) := memOf 1000 (fun x => if x = 2 ∨ x = 4 ∨ x = 9 then .fin false 5 else .fin false 1)

theorem bsys_num (i j : Nat) : (bsysVal i j).IsNum := by
  unfold bsysVal
  split
  · exact fun _ => by rw [show (Bin.fin false 5 : Bin binary64).real = 5 by simp [Bin.real]]; exact five_rep
  · exact fun _ => by rw [show (Bin.fin false 1 : Bin binary64).real = 1 by simp [Bin.real]]; exact one_rep
theorem bsys_fin (i j : Nat) : (bsysVal i j).Finite := by unfold bsysVal; split <;> exact trivial
theorem bsys_real (i j : Nat) : (bsysVal i j).real = if i = 2 ∧ j = 0 ∨ i = 0 ∧ j = 1 ∨ i = 1 ∧ j = 2 then 5 else 1 := by
  unfold bsysVal; split <;> simp [Bin.real]
theorem bsys_le (i j : Nat) : |(bsysVal i j).real| ≤ 5 := by rw [bsys_real]; split <;> norm_num

theorem bsysA_has : Contains 4 bsysMem bsysA bsysVal := by
  have h : ∀ i < 3, ∀ j < 3, (bsysA.addr 4 i j = 2 ∨ bsysA.addr 4 i j = 4 ∨ bsysA.addr 4 i j = 9) ↔ (i = 2 ∧ j = 0 ∨ i = 0 ∧ j = 1 ∨ i = 1 ∧ j = 2) := by decide
  intro i j hi hj
  rw [show bsysVal i j = if bsysA.addr 4 i j = 2 ∨ bsysA.addr 4 i j = 4 ∨ bsysA.addr 4 i j = 9 then .fin false 5 else .fin false 1 from if_congr (h i hi j hj).symm rfl rfl]
  exact memOf_contains (c := bsysA) lit lit lit i j hi hj
theorem bsysB_has : Contains 4 bsysMem bsysB (fun _ _ => .fin false 1) := by
  have h : ∀ i < 3, ∀ j < 2, ¬ (bsysB.addr 4 i j = 2 ∨ bsysB.addr 4 i j = 4 ∨ bsysB.addr 4 i j = 9) := by decide
  intro i j hi hj
  have := memOf_contains (c := bsysB) (SS := 4) (n := 1000) (f := fun x => if x = 2 ∨ x = 4 ∨ x = 9 then (.fin false 5 : Bin binary64) else .fin false 1) lit lit lit i j hi hj
  beta_reduce at this
  rwa [if_neg (h i hi j hj)] at this
theorem bsysA_live : Live 4 bsysMem bsysA := memOf_live lit lit lit
theorem bsys_pre : GetrfPre 4 1 3 3 (bsysA.mptr 4) bsysMem := LuPre.of_live (A := bsysA) (by decide) rfl rfl bsysA_live
theorem bsys_apart : Apart 4 bsysA bsysB := apart_of lit

theorem bsys_one : (Bin.fin false 1 : Bin binary64).Finite ∧ |(Bin.fin false 1 : Bin binary64).real| ≤ 1 := ⟨trivial, by simp [Bin.real]⟩

theorem big_ge (n : Nat) (hn : n ≤ 1024) : (2 : ℝ) ^ n ≤ binary64.big := by
  unfold Format.big
  rw [← zpow_natCast]
  exact Format.two_zpow_le (by show (n : ℤ) ≤ 1023 + 1; omega)

/-- all matrices nearby are nonsingular -/
theorem bsys_robust : RobustIndep (1 / 2 : ℝ) 3 3 (fun i j => (bsysVal i j).real) := by
  intro a' ha x hx
  have r : ∀ i, i < 3 → a' i 0 * x 0 + a' i 1 * x 1 + a' i 2 * x 2 = 0 := fun i hi => by
    have := hx i hi
    simpa [sum_range_succ] using this
  have hd : ∀ i j, i < 3 → j < 3 → (i = 2 ∧ j = 0 ∨ i = 0 ∧ j = 1 ∨ i = 1 ∧ j = 2) → 9 / 2 ≤ |a' i j| := fun i j hi hj hc => by
    have := ha i j hi hj
    beta_reduce at this
    rw [bsys_real, if_pos hc] at this
    have h1 := (abs_le.1 this).1
    exact le_trans (by linarith) (le_abs_self _)
  have ho : ∀ i j, i < 3 → j < 3 → ¬ (i = 2 ∧ j = 0 ∨ i = 0 ∧ j = 1 ∨ i = 1 ∧ j = 2) → |a' i j| ≤ 3 / 2 := fun i j hi hj hc => by
    have := ha i j hi hj
    beta_reduce at this
    rw [bsys_real, if_neg hc] at this
    have h1 := abs_le.1 this
    exact abs_le.2 ⟨by linarith, by linarith⟩
  have dom : ∀ d p q y0 y1 y2 : ℝ, 9 / 2 ≤ |d| → |p| ≤ 3 / 2 → |q| ≤ 3 / 2 → d * y0 + p * y1 + q * y2 = 0 → 9 / 2 * |y0| ≤ 3 / 2 * |y1| + 3 / 2 * |y2| := by
    intro d p q y0 y1 y2 h1 h2 h3 h4
    have h5 : |d| * |y0| = |p * y1 + q * y2| := by rw [← abs_mul, show d * y0 = -(p * y1 + q * y2) by linarith, abs_neg]
    have h6 := abs_add_le (p * y1) (q * y2)
    rw [abs_mul, abs_mul] at h6
    have h7 := mul_le_mul_of_nonneg_right h1 (abs_nonneg y0)
    have h8 := mul_le_mul_of_nonneg_right h2 (abs_nonneg y1)
    have h9 := mul_le_mul_of_nonneg_right h3 (abs_nonneg y2)
    linarith
  have d0 := dom _ _ _ (x 0) (x 1) (x 2) (hd 2 0 (by decide) (by decide) (by decide)) (ho 2 1 (by decide) (by decide) (by decide)) (ho 2 2 (by decide) (by decide) (by decide)) (r 2 (by decide))
  have d1 := dom _ _ _ (x 1) (x 0) (x 2) (hd 0 1 (by decide) (by decide) (by decide)) (ho 0 0 (by decide) (by decide) (by decide)) (ho 0 2 (by decide) (by decide) (by decide))
    (by have := r 0 (by decide); linarith)
  have d2 := dom _ _ _ (x 2) (x 0) (x 1) (hd 1 2 (by decide) (by decide) (by decide)) (ho 1 0 (by decide) (by decide) (by decide)) (ho 1 1 (by decide) (by decide) (by decide))
    (by have := r 1 (by decide); linarith)
  have n0 := abs_nonneg (x 0)
  have n1 := abs_nonneg (x 1)
  have n2 := abs_nonneg (x 2)
  intro j hj
  have hj : j < 3 := hj
  rcases j with _ | _ | _ | j
  · exact abs_eq_zero.1 (by linarith)
  · exact abs_eq_zero.1 (by linarith)
  · exact abs_eq_zero.1 (by linarith)
  · omega

theorem bsys_G : 1 ≤ (1 / (1 - binary64.u)) ^ 3 ∧ (1 / (1 - binary64.u)) ^ 3 ≤ 1 + 4 / 10000 := by
  have hu := binLu_u
  have hu0 := binary64.u_pos
  have h1 : 1 / (1 - binary64.u) ≤ 1 / (1 - 1 / 10000) := one_div_le_one_div_of_le (by norm_num) (by linarith)
  have h1' : 1 ≤ 1 / (1 - binary64.u) := by rw [← one_add_bu binary64.u_lt_one]; have := Bin.bu_pos (F := binary64); linarith
  exact ⟨one_le_pow₀ h1', le_trans (pow_le_pow_left₀ (by linarith) h1 3) (by norm_num)⟩

theorem bsys_W : 0 ≤ (2 * (1 + binary64.u) ^ 2) ^ 3 * (5 + 2 * binary64.eta) ∧ (2 * (1 + binary64.u) ^ 2) ^ 3 * (5 + 2 * binary64.eta) ≤ 50 := by
  have hu := binary64.u_pos
  have he := binary64.eta_pos
  exact ⟨by positivity, binLu_growth⟩

theorem bsys_dist : ((1 / (1 - binary64.u)) ^ 3 - 1) * ((3 : ℕ) * ((2 * (1 + binary64.u) ^ 2) ^ 3 * (5 + 2 * binary64.eta))) +
    (1 / (1 - binary64.u)) ^ 3 * (3 * (3 : ℕ) + (2 * (1 + binary64.u) ^ 2) ^ 3 * (5 + 2 * binary64.eta)) * binary64.eta + 1 / 4 ≤ 1 / 2 := by
  obtain ⟨g1, g2⟩ := bsys_G
  obtain ⟨w1, w2⟩ := bsys_W
  have he := binLu_eta
  have he0 := binary64.eta_pos
  generalize (1 / (1 - binary64.u)) ^ 3 = G at *
  generalize (2 * (1 + binary64.u) ^ 2) ^ 3 * (5 + 2 * binary64.eta) = W at *
  have k1 : (G - 1) * ((3 : ℕ) * W) ≤ 4 / 10000 * (3 * 50) := mul_le_mul (by linarith) (by push_cast; linarith) (by positivity) (by norm_num)
  have k2 : G * (3 * (3 : ℕ) + W) * binary64.eta ≤ 2 * 59 * (1 / 10000) :=
    mul_le_mul (mul_le_mul (by linarith) (by push_cast; linarith) (by positivity) (by norm_num)) he he0.le (by norm_num)
  linarith

theorem bsys_c1 : 0 < (1 + binary64.u) ^ (2 * 3 + 1) ∧ (1 + binary64.u) ^ (2 * 3 + 1) ≤ 2 := by
  have hu := binLu_u
  have hu0 := binary64.u_pos
  exact ⟨by positivity, le_trans (pow_le_pow_left₀ (by linarith) (show 1 + binary64.u ≤ 1 + 1 / 10000 by linarith) _) (by norm_num)⟩

theorem bsys_Y : 0 ≤ (1 + binary64.u) ^ (2 * 3 + 1) * (1 + (2 * (3 : ℕ) + 1) * binary64.eta) * (1 + (1 + binary64.u) ^ (2 * 3 + 1)) ^ 3 ∧
    (1 + binary64.u) ^ (2 * 3 + 1) * (1 + (2 * (3 : ℕ) + 1) * binary64.eta) * (1 + (1 + binary64.u) ^ (2 * 3 + 1)) ^ 3 ≤ 108 := by
  obtain ⟨k1, k2⟩ := bsys_c1
  have he := binLu_eta
  have he0 := binary64.eta_pos
  generalize (1 + binary64.u) ^ (2 * 3 + 1) = c at *
  refine ⟨by positivity, ?_⟩
  have h1 : (1 + c) ^ 3 ≤ 3 ^ 3 := pow_le_pow_left₀ (by linarith) (by linarith) 3
  have h2 : c * (1 + (2 * (3 : ℕ) + 1) * binary64.eta) ≤ 2 * 2 := mul_le_mul k2 (by push_cast; linarith) (by positivity) (by norm_num)
  exact le_trans (mul_le_mul h2 h1 (by positivity) (by norm_num)) (by norm_num)

theorem bsys_X {Y W : ℝ} (hY : 0 ≤ Y ∧ Y ≤ 108) (hW : 0 ≤ W ∧ W ≤ 50) :
    0 ≤ (1 + binary64.u) ^ (2 * 3 + 1) / (1 / 4) * (Y + (2 * (3 : ℕ) + 1 / 4) * binary64.eta) * (1 + (1 + binary64.u) ^ (2 * 3 + 1) / (1 / 4) * W) ^ 3 ∧
    (1 + binary64.u) ^ (2 * 3 + 1) / (1 / 4) * (Y + (2 * (3 : ℕ) + 1 / 4) * binary64.eta) * (1 + (1 + binary64.u) ^ (2 * 3 + 1) / (1 / 4) * W) ^ 3 < 2 ^ 40 := by
  obtain ⟨k1, k2⟩ := bsys_c1
  obtain ⟨y1, y2⟩ := hY
  obtain ⟨w1, w2⟩ := hW
  have he := binLu_eta
  have he0 := binary64.eta_pos
  have hc : (1 + binary64.u) ^ (2 * 3 + 1) / (1 / 4) ≤ 8 := by rw [div_le_iff₀ (by norm_num)]; exact le_trans k2 (by norm_num)
  have hc0 : 0 < (1 + binary64.u) ^ (2 * 3 + 1) / (1 / 4) := by positivity
  generalize (1 + binary64.u) ^ (2 * 3 + 1) / (1 / 4) = c at *
  refine ⟨by positivity, ?_⟩
  have h0 : c * W ≤ 8 * 50 := mul_le_mul hc w2 w1 (by norm_num)
  have h1 : (1 + c * W) ^ 3 ≤ 401 ^ 3 := pow_le_pow_left₀ (by positivity) (by linarith) 3
  have h2 : c * (Y + (2 * (3 : ℕ) + 1 / 4) * binary64.eta) ≤ 8 * 109 := mul_le_mul hc (by push_cast; linarith) (by positivity) (by norm_num)
  exact lt_of_le_of_lt (mul_le_mul h2 h1 (by positivity) (by norm_num)) (by norm_num)

theorem lt_big_of {x : ℝ} (h : x < 2 ^ 40) : x < binary64.big := lt_of_lt_of_le h (big_ge 40 (by norm_num))

/-- the system is solved in binary64: no overflow, no exception, small residual -/
example : ∃ m' x, luSolve 4 1 3 2 (bsysA.mptr 4) (bsysB.mptr 4) id bsysMem = .ok () m' ∧ Contains 4 m' bsysB x ∧ ∀ i j, i < 3 → j < 2 → (x i j).Finite := by
  obtain ⟨m', x, h1, h2, h3, -⟩ := C88_lu_solve_matrices C86_wide.1 (SS := 4) (by decide) (A := bsysA) (B := bsysB) rfl rfl rfl bsysA_live bsys_apart rfl rfl bsysA_has bsysB_has id
    (fun i j _ _ => bsys_num i j) (fun i j _ _ => bsys_fin i j) (μ := 5) (β := 1) (δ := 1 / 4) (by norm_num) (fun i j _ _ => bsys_le i j) zero_le_one (fun _ _ _ _ => bsys_one)
    (by norm_num) rfl rfl (lt_big50 bsys_W.2) (bsys_robust.mono bsys_dist) rfl rfl (lt_big_of (lt_of_le_of_lt bsys_Y.2 (by norm_num))) rfl rfl
    (lt_big_of (bsys_X bsys_Y bsys_W).2) (lt_big_of (by have := bsys_X bsys_Y bsys_W; exact lt_of_le_of_lt (mul_le_of_le_one_left this.1 (by norm_num)) this.2))
  exact ⟨m', x, h1, h2, fun i j hi hj => (h3 i j hi hj).1⟩

example := C88_lu_solve C86_wide.1 bsys_pre (B := bsysB.mptr 4) (r := 2) rfl (bsysB.inj (by decide)) (bsys_apart.disj (by decide)) bsysA_has.holds bsysB_has.holds
  (fun i j _ _ => bsys_num i j) id
example := C88_lu_solve_safe C86_wide.1 bsys_pre (B := bsysB.mptr 4) (r := 2) rfl (bsysB.inj (by decide)) (bsys_apart.disj (by decide)) bsysA_has.holds bsysB_has.holds
  (fun i j _ _ => bsys_num i j) id (fun i j _ _ => bsys_fin i j) (μ := 5) (by norm_num) (fun i j _ _ => bsys_le i j) rfl rfl (lt_big50 bsys_W.2)
  (bsys_robust.mono (le_trans (by norm_num) bsys_dist))
example := C88_lu_solve_total C86_wide.1 bsys_pre (B := bsysB.mptr 4) (r := 2) rfl (bsysB.inj (by decide)) (bsys_apart.disj (by decide)) bsysA_has.holds bsysB_has.holds
    (fun i j _ _ => bsys_num i j) id (fun i j _ _ => bsys_fin i j) (μ := 5) (β := 1) (δ := 1 / 4) (by norm_num) (fun i j _ _ => bsys_le i j) zero_le_one (fun _ _ _ _ => bsys_one)
    (by norm_num) rfl rfl (lt_big50 bsys_W.2) (bsys_robust.mono bsys_dist) rfl rfl (lt_big_of (lt_of_le_of_lt bsys_Y.2 (by norm_num))) rfl rfl
    (lt_big_of (bsys_X bsys_Y bsys_W).2) (lt_big_of (by have := bsys_X bsys_Y bsys_W; exact lt_of_le_of_lt (mul_le_of_le_one_left this.1 (by norm_num)) this.2))

theorem bsys_T : (1 + binary64.u) ^ (2 * 3 + 1) / 1 * (1 + (2 * (3 : ℕ) + 1) * binary64.eta) * (1 + (1 + binary64.u) ^ (2 * 3 + 1) / 1 * 5) ^ 3 < 2 ^ 40 := by
  obtain ⟨k1, k2⟩ := bsys_c1
  have he := binLu_eta
  have he0 := binary64.eta_pos
  rw [div_one]
  generalize (1 + binary64.u) ^ (2 * 3 + 1) = c at *
  have h1 : (1 + c * 5) ^ 3 ≤ 11 ^ 3 := pow_le_pow_left₀ (by linarith) (by linarith) 3
  have h2 : c * (1 + (2 * (3 : ℕ) + 1) * binary64.eta) ≤ 2 * 2 := mul_le_mul k2 (by push_cast; linarith) (by positivity) (by norm_num)
  exact lt_of_le_of_lt (mul_le_mul h2 h1 (by positivity) (by norm_num)) (by norm_num)

/-- trsm with the unit lower triangle of ones: no overflow -/
example : ∃ m' x, trsmCall 4 .lower true bsysA bsysB ⟨.statDense, .columnMajor, 3, 2, 128⟩ bsysMem = .ok () m' ∧
    Contains 4 m' ⟨.statDense, .columnMajor, 3, 2, 128⟩ x ∧ ∀ i j, i < 3 → j < 2 → (x i j).Finite := by
  obtain ⟨m', x, h1, h2, -, h3⟩ := C86_trsm_safe (SS := 4) (m := bsysMem) (A := bsysA) (B := bsysB) (X := ⟨.statDense, .columnMajor, 3, 2, 128⟩) .lower true
    ⟨by decide, memOf_live lit lit lit, memOf_live lit lit lit, memOf_live lit lit lit, apart_of lit, Or.inr (apart_of lit)⟩ lit (bsysA_has.tri _ _) bsysB_has
    (α := 5) (β := 1) (δ := 1) (by norm_num) zero_le_one one_pos (fun _ => rfl) (fun i k _ _ _ _ => ⟨bsys_fin i k, bsys_le i k⟩) (fun h => by cases h)
    (fun _ _ _ _ => bsys_one) rfl rfl (lt_big_of bsys_T) (lt_big_of (by rw [one_mul]; exact bsys_T))
  exact ⟨m', x, h1, h2, fun i j hi hj => (h3 i j hi hj).1⟩

end Blast
