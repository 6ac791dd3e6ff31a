import Verif.Cases.BinarySystem
import Verif.Props.BinaryCholesky
/-
Concrete cases of the theorems in Props/BinaryCholesky, in binary64: the 8 × 8 matrix with 5 on the diagonal and 1 elsewhere.
-/
set_option linter.unusedSectionVars false
namespace Blast
open Finset

def spdA : Container := ⟨.dynDense, .columnMajor, 8, 8, 0⟩
def spdL : Container := ⟨.statDense, .columnMajor, 8, 8, 64⟩
def spdB : Container := ⟨.dynDense, .columnMajor, 8, 3, 256⟩
def spdPan : Container := ⟨.dynPanel, .columnMajor, 8, 8, 0⟩
def spdPanL : Container := ⟨.dynPanel, .columnMajor, 8, 8, 400⟩
noncomputable def spdVal (i j : Nat) : Bin binary64 := if i = j then .fin false 5 else .fin false 1
noncomputable def spdMem : Mem (Bin binary64) := memOf 1000 (fun x => if x < 64 ∧ x % 9 = 0 then .fin false 5 else .fin false 1)
noncomputable def spdPanMem : Mem (Bin binary64) := memOf 1000 (fun x => if x < 16 ∧ x % 5 = 0 ∨ 48 ≤ x ∧ x < 64 ∧ (x - 48) % 5 = 0 then .fin false 5 else .fin false 1)

theorem spd_num (i j : Nat) : (spdVal i j).IsNum := by
  unfold spdVal
  split
  · exact fun _ => by rw [show (Bin.fin false 5 : Bin binary64).real = 5 by simp [Bin.real]]; exact five_rep
  · exact fun _ => by rw [show (Bin.fin false 1 : Bin binary64).real = 1 by simp [Bin.real]]; exact one_rep
theorem spd_real (i j : Nat) : (spdVal i j).real = if i = j then 5 else 1 := by
  unfold spdVal; split <;> simp [Bin.real]

theorem spdA_has : ContainsLower 4 spdMem spdA spdVal := by
  have h : ∀ i < 8, ∀ j < 8, (spdA.addr 4 i j < 64 ∧ spdA.addr 4 i j % 9 = 0) ↔ i = j := by decide
  intro i j _ hi hj
  rw [show spdVal i j = if spdA.addr 4 i j < 64 ∧ spdA.addr 4 i j % 9 = 0 then .fin false 5 else .fin false 1 from if_congr (h i hi j hj).symm rfl rfl]
  exact memOf_contains (c := spdA) lit lit lit i j hi hj
theorem spdPan_has : ContainsLower 4 spdPanMem spdPan spdVal := by
  have h : ∀ i < 8, ∀ j < 8, (spdPan.addr 4 i j < 16 ∧ spdPan.addr 4 i j % 5 = 0 ∨ 48 ≤ spdPan.addr 4 i j ∧ spdPan.addr 4 i j < 64 ∧ (spdPan.addr 4 i j - 48) % 5 = 0) ↔ i = j := by decide
  intro i j _ hi hj
  rw [show spdVal i j = if spdPan.addr 4 i j < 16 ∧ spdPan.addr 4 i j % 5 = 0 ∨ 48 ≤ spdPan.addr 4 i j ∧ spdPan.addr 4 i j < 64 ∧ (spdPan.addr 4 i j - 48) % 5 = 0
    then .fin false 5 else .fin false 1 from if_congr (h i hi j hj).symm rfl rfl]
  exact memOf_contains (c := spdPan) lit lit lit i j hi hj
theorem spdB_has : Contains 4 spdMem spdB (fun _ _ => .fin false 1) := by
  have h : ∀ i < 8, ∀ j < 3, ¬ (spdB.addr 4 i j < 64 ∧ spdB.addr 4 i j % 9 = 0) := by decide
  intro i j hi hj
  have := memOf_contains (c := spdB) (SS := 4) (n := 1000) (f := fun x => if x < 64 ∧ x % 9 = 0 then (.fin false 5 : Bin binary64) else .fin false 1) lit lit lit i j hi hj
  beta_reduce at this
  rwa [if_neg (h i hi j hj)] at this
theorem spd_args : PotrfArgs 4 spdMem spdA spdL := ⟨by decide, rfl, rfl, memOf_live lit lit lit, memOf_live lit lit lit, Or.inr (apart_of lit)⟩
theorem spd_fits : PotrfFits 4 1 4 spdA spdL := potrfFits_square (by decide) (Or.inl rfl)
theorem spdPan_args : PotrfArgs 4 spdPanMem spdPan spdPanL := ⟨by decide, rfl, rfl, memOf_live lit lit lit, memOf_live lit lit lit, Or.inr (apart_of lit)⟩
theorem spdPan_fits : PotrfFits 4 1 4 spdPan spdPanL := potrfFits_square (by decide) (Or.inl rfl)

/-- the smallest eigenvalue is 4 -/
theorem spd_eig (n : Nat) : LowerEigGe 4 n (fun i j => (spdVal i j).real) := by
  intro x
  have e : ∀ i ∈ range n, ∑ j ∈ range n, x i * (spdVal (max i j) (min i j)).real * x j = 4 * (x i * x i) + x i * ∑ j ∈ range n, x j := by
    intro i hi
    have h1 : ∀ j ∈ range n, x i * (spdVal (max i j) (min i j)).real * x j = (if j = i then 4 * (x i * x j) else 0) + x i * x j := by
      intro j _
      rw [spd_real]
      by_cases h : j = i
      · subst h; rw [if_pos (by omega), if_pos rfl]; ring
      · rw [if_neg (by omega), if_neg h]; ring
    rw [sum_congr rfl h1, sum_add_distrib, sum_ite_eq' (range n) i, if_pos hi, mul_sum]
  beta_reduce
  rw [sum_congr rfl e, sum_add_distrib, ← mul_sum, ← sum_mul]
  have := mul_self_nonneg (∑ j ∈ range n, x j)
  linarith

theorem spd_w (n : Nat) : 1 ≤ (1 / (1 - binary64.u)) ^ n := by
  refine one_le_pow₀ ?_
  rw [← one_add_bu binary64.u_lt_one]
  have := Bin.bu_pos (F := binary64)
  linarith
theorem spd_w12 : (1 / (1 - binary64.u)) ^ (8 + 4) ≤ 1 + 13 / 10000 := by
  have hu := binLu_u
  have hu0 := binary64.u_pos
  have h1 : 1 / (1 - binary64.u) ≤ 1 / (1 - 1 / 10000) := one_div_le_one_div_of_le (by norm_num) (by linarith)
  exact le_trans (pow_le_pow_left₀ (le_trans zero_le_one (by simpa using spd_w 1)) h1 _) (by norm_num)
theorem spd_w4 : (1 / (1 - binary64.u)) ^ 4 ≤ 1 + 13 / 10000 :=
  le_trans (pow_le_pow_right₀ (by simpa using spd_w 1) (by norm_num)) spd_w12

noncomputable def spdσ : ℝ := (1 + binary64.u) ^ 8 * (2 * 5 + (8 : Nat) * binary64.eta)
noncomputable def spdLam : ℝ := (1 / (1 - binary64.u)) ^ 4 * (1 + spdσ)
noncomputable def spdQ : ℝ := 5 + (1 / (1 - binary64.u)) ^ 4 * spdσ + spdLam * binary64.eta
noncomputable def spdE : ℝ := ((1 / (1 - binary64.u)) ^ (8 + 4) - 1) * spdQ + (1 / (1 - binary64.u)) ^ (8 + 4) * (2 * (8 : Nat) + spdLam) * binary64.eta

theorem spd_σ : 0 ≤ spdσ ∧ spdσ ≤ 11 := by
  have hu := binLu_u
  have hu0 := binary64.u_pos
  have he := binLu_eta
  have he0 := binary64.eta_pos
  have h : (1 + binary64.u) ^ 8 ≤ 1 + 1 / 1000 := le_trans (pow_le_pow_left₀ (by linarith) (show 1 + binary64.u ≤ 1 + 1 / 10000 by linarith) _) (by norm_num)
  unfold spdσ
  refine ⟨by positivity, le_trans (mul_le_mul h (show 2 * 5 + ((8 : Nat) : ℝ) * binary64.eta ≤ 10 + 1 / 1000 by push_cast; linarith) (by positivity) (by norm_num)) (by norm_num)⟩
theorem spd_lam : 0 ≤ spdLam ∧ spdLam ≤ 13 := by
  have h := spd_w4
  have h' := spd_w 4
  have h2 := spd_σ
  unfold spdLam
  exact ⟨mul_nonneg (by linarith) (by linarith), le_trans (mul_le_mul h (show 1 + spdσ ≤ 12 by linarith) (by linarith) (by norm_num)) (by norm_num)⟩
theorem spd_Q : 0 ≤ spdQ ∧ spdQ ≤ 17 := by
  have h := spd_w4
  have h' := spd_w 4
  have h2 := spd_σ
  have h3 := spd_lam
  have he := binLu_eta
  have he0 := binary64.eta_pos
  have k1 : (1 / (1 - binary64.u)) ^ 4 * spdσ ≤ (1 + 13 / 10000) * 11 := mul_le_mul h h2.2 h2.1 (by norm_num)
  have k1' : 0 ≤ (1 / (1 - binary64.u)) ^ 4 * spdσ := mul_nonneg (by linarith) h2.1
  have k2 : spdLam * binary64.eta ≤ 13 * (1 / 10000) := mul_le_mul h3.2 he he0.le (by norm_num)
  have k2' : 0 ≤ spdLam * binary64.eta := mul_nonneg h3.1 he0.le
  unfold spdQ
  constructor
  · linarith
  · linarith
theorem spd_E : 0 ≤ spdE ∧ spdE ≤ 1 / 10 := by
  have h := spd_w12
  have h' := spd_w (8 + 4)
  have h2 := spd_Q
  have h3 := spd_lam
  have he := binLu_eta
  have he0 := binary64.eta_pos
  have k1 : ((1 / (1 - binary64.u)) ^ (8 + 4) - 1) * spdQ ≤ 13 / 10000 * 17 := mul_le_mul (by linarith) h2.2 h2.1 (by norm_num)
  have k1' : 0 ≤ ((1 / (1 - binary64.u)) ^ (8 + 4) - 1) * spdQ := mul_nonneg (by linarith) h2.1
  have k2 : (1 / (1 - binary64.u)) ^ (8 + 4) * (2 * ((8 : Nat) : ℝ) + spdLam) ≤ (1 + 13 / 10000) * 29 := mul_le_mul h (by push_cast; linarith) (by push_cast; linarith) (by norm_num)
  have k2' : 0 ≤ (1 / (1 - binary64.u)) ^ (8 + 4) * (2 * ((8 : Nat) : ℝ) + spdLam) := mul_nonneg (by linarith) (by push_cast; linarith)
  have k3 : (1 / (1 - binary64.u)) ^ (8 + 4) * (2 * ((8 : Nat) : ℝ) + spdLam) * binary64.eta ≤ (1 + 13 / 10000) * 29 * (1 / 10000) := mul_le_mul k2 he he0.le (by norm_num)
  have k3' := mul_nonneg k2' he0.le
  unfold spdE
  constructor
  · linarith
  · exact le_trans (add_le_add k1 k3) (by norm_num)

/-- the hypotheses hold, with smallest eigenvalue 4 and pivots at least 1 -/
theorem spd_safe : CholeskySafe binary64 8 spdVal 5 4 1 spdσ spdLam spdQ spdE where
  fin i j _ _ := by unfold spdVal; split <;> exact trivial
  le i j _ _ := by rw [spd_real]; split <;> norm_num
  eig := spd_eig 8
  σ_eq := rfl
  lam_eq := rfl
  Q_eq := rfl
  E_eq := rfl
  δ_pos := one_pos
  δ_le := by
    have h := spd_w4
    have h' := spd_w 4
    have h2 := spd_E
    rw [mul_one]
    have : (1 / (1 - binary64.u)) ^ 4 * (1 / (1 - binary64.u)) ^ 4 ≤ (1 + 13 / 10000) * (1 + 13 / 10000) := mul_le_mul h h (by linarith) (by norm_num)
    have h3 : (1 + 13 / 10000 : ℝ) * (1 + 13 / 10000) ≤ 2 := by norm_num
    push_cast
    linarith
  big1 := lt_big50 (by have := spd_σ; linarith)
  big2 := lt_big50 (by
    have h2 := spd_σ
    have hu := binLu_u
    have hu0 := binary64.u_pos
    have he := binLu_eta
    rw [div_one]
    have : (1 + binary64.u) * spdσ ≤ 2 * 11 := mul_le_mul (by linarith) h2.2 h2.1 (by norm_num)
    linarith)

/-- potrf on the 8 × 8 matrix: finite factor with positive diagonal -/
example : ∃ m' l, potrfDenseCall 4 1 spdA spdL spdMem = .ok () m' ∧ ContainsLower 4 m' spdL l ∧ (∀ i j, j ≤ i → i < 8 → (l i j).Finite ∧ 1 ≤ (l i i).real) := by
  obtain ⟨m', l, h1, h2, h3, -⟩ := C86_potrf_dense_safe C86_wide.1 spd_args lit spd_fits rfl spdA_has (fun i j _ _ => spd_num i j) spd_safe
  exact ⟨m', l, h1, h2, fun i j hji hi => ⟨((h3 i hi).2.2 j hji).1, (h3 i hi).1⟩⟩

example : ∃ m' l, potrfPanelCall 4 4 spdPan spdPanL spdPanMem = .ok () m' ∧ ContainsLower 4 m' spdPanL l ∧ (∀ i j, j ≤ i → i < 8 → (l i j).Finite ∧ 1 ≤ (l i i).real) := by
  obtain ⟨m', l, h1, h2, h3⟩ := C86_potrf_panel_safe C86_wide.1 spdPan_args lit spdPan_fits rfl spdPan_has (fun i j _ _ => spd_num i j) spd_safe
  exact ⟨m', l, h1, h2, fun i j hji hi => ⟨((h3 i hi).2.2 j hji).1, (h3 i hi).1⟩⟩

noncomputable def spdC : ℝ := (1 + binary64.u) ^ (2 * 8 + 1) / 1
noncomputable def spdY : ℝ := spdC * (1 + (2 * (8 : Nat) + 1) * binary64.eta) * (1 + spdC * 3) ^ 8
noncomputable def spdX : ℝ := spdC * (spdY + (2 * (8 : Nat) + 1) * binary64.eta) * (1 + spdC * 3) ^ 8

theorem spd_C : 0 < spdC ∧ spdC ≤ 2 := by
  have hu := binLu_u
  have hu0 := binary64.u_pos
  unfold spdC
  rw [div_one]
  exact ⟨by positivity, le_trans (pow_le_pow_left₀ (by linarith) (show 1 + binary64.u ≤ 1 + 1 / 10000 by linarith) _) (by norm_num)⟩
theorem spd_step {y Y : ℝ} (hy : 0 ≤ y) (hY : y ≤ Y) : 0 ≤ spdC * (y + (2 * (8 : Nat) + 1) * binary64.eta) * (1 + spdC * 3) ^ 8 ∧
    spdC * (y + (2 * (8 : Nat) + 1) * binary64.eta) * (1 + spdC * 3) ^ 8 ≤ 2 * (Y + 1) * 7 ^ 8 := by
  obtain ⟨c1, c2⟩ := spd_C
  have he := binLu_eta
  have he0 := binary64.eta_pos
  refine ⟨by positivity, mul_le_mul (mul_le_mul c2 ?_ (by positivity) (by norm_num)) (pow_le_pow_left₀ (by positivity) (by linarith) 8) (by positivity) (by linarith)⟩
  push_cast
  linarith
theorem spd_Y : 0 ≤ spdY ∧ spdY ≤ 2 * (1 + 1) * 7 ^ 8 := spd_step zero_le_one le_rfl
theorem spd_X : 0 ≤ spdX ∧ spdX ≤ 2 * (2 * (1 + 1) * 7 ^ 8 + 1) * 7 ^ 8 := spd_step spd_Y.1 spd_Y.2
theorem lt_big60 {x : ℝ} (h : x < 2 ^ 60) : x < binary64.big := lt_of_lt_of_le h (big_ge 60 (by norm_num))

/-- the 8 × 8 system with three right-hand sides is solved: no overflow, finite solution -/
example : ∃ m' x, choleskySolve 4 1 spdA spdL spdB spdMem = .ok () m' ∧ Contains 4 m' spdB x ∧ (∀ i j, i < 8 → j < 3 → (x i j).Finite) := by
  obtain ⟨m', x, h1, h2, h3, -⟩ := C88_cholesky_total C86_wide.1 spd_args lit spd_fits rfl rfl (B := spdB) (apart_of lit) spdA_has spdB_has spd_num spd_safe
    (α := 3) (β := 1) (by norm_num) (by have := spd_E; linarith) zero_le_one (fun _ _ _ _ => bsys_one) (C := spdC) rfl (Y := spdY) rfl
    (lt_big60 (lt_of_le_of_lt spd_Y.2 (by norm_num))) (by rw [one_mul]; exact lt_big60 (lt_of_le_of_lt spd_Y.2 (by norm_num))) (X := spdX) rfl
    (lt_big60 (lt_of_le_of_lt spd_X.2 (by norm_num))) (by rw [one_mul]; exact lt_big60 (lt_of_le_of_lt spd_X.2 (by norm_num))) rfl rfl
  exact ⟨m', x, h1, h2, fun i j hi hj => (h3 i j hi hj).1⟩

example := C88_cholesky_solve C86_wide.1 spd_args lit spd_fits rfl rfl (B := spdB) (apart_of lit) spdA_has spdB_has spd_num

end Blast
