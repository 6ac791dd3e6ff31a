import Verif.Cases.NanProp
import Verif.Cases.Selection
import Verif.Props.Binary
/-
Concrete cases of the theorems in Props/Binary, in binary64: the cells hold 0, ±1, ±2 (and -0), so all results are finite; and a case that overflows.
-/
namespace Blast
open Finset

/-- 0, 1, 2, -0, -1, -2 in turn -/
noncomputable def binVal (x : Int) : Bin binary64 := .fin (decide (x % 2 = 1)) ((x.toNat % 3 : Nat) : NNReal)

noncomputable def binMem : Mem (Bin binary64) := memOf 2000 binVal

theorem binVal_fin (x : Int) : (binVal x).Finite := trivial

theorem binVal_le (x : Int) : |(binVal x).real| ≤ 2 := by
  have h : (((x.toNat % 3 : Nat) : NNReal) : ℝ) ≤ 2 := by
    have : x.toNat % 3 ≤ 2 := by omega
    rw [NNReal.coe_natCast]
    exact_mod_cast this
  have h0 : (0 : ℝ) ≤ (((x.toNat % 3 : Nat) : NNReal) : ℝ) := NNReal.coe_nonneg _
  show |if decide (x % 2 = 1) = true then -(((x.toNat % 3 : Nat) : NNReal) : ℝ) else (((x.toNat % 3 : Nat) : NNReal) : ℝ)| ≤ 2
  split
  · rw [abs_neg, abs_of_nonneg h0]; exact h
  · rw [abs_of_nonneg h0]; exact h

theorem bin_u : binary64.u ≤ 1 := by
  unfold Format.u
  exact pow_le_one₀ (by norm_num) (by norm_num)

theorem bin_eta : binary64.eta ≤ 1 := by
  have h := Format.two_zpow_le (a := binary64.emin - binary64.p - 1) (b := 0) (by decide)
  rw [zpow_zero] at h
  exact h

theorem bin_big : (2 : ℝ) ^ (20 : ℕ) ≤ binary64.big := by
  have h := Format.two_zpow_le (a := 20) (b := binary64.emax + 1) (by decide)
  have : (2 : ℝ) ^ (20 : ℤ) = 2 ^ (20 : ℕ) := by norm_num
  rw [← this]
  exact h

theorem bin_pow (n : ℕ) : (1 + binary64.u) ^ n ≤ 2 ^ n :=
  pow_le_pow_left₀ (by have := binary64.u_pos; linarith) (by have := bin_u; linarith) n

theorem bin_bound {n : ℕ} {X c : ℝ} (hc : 0 ≤ c) (hX : X ≤ c) (h : 2 ^ n * c < 2 ^ (20 : ℕ)) : (1 + binary64.u) ^ n * X < binary64.big := by
  refine lt_of_lt_of_le (lt_of_le_of_lt ?_ h) bin_big
  have h1 := bin_pow n
  have h2 : 0 ≤ (1 + binary64.u) ^ n := pow_nonneg (by have := binary64.u_pos; linarith) n
  nlinarith

theorem sum_le_of {s : Finset ℕ} {g : ℕ → ℝ} {c : ℝ} {n : ℕ} (hn : s.card ≤ n) (hc : 0 ≤ c) (h : ∀ k, g k ≤ c) : ∑ k ∈ s, g k ≤ n * c := by
  refine le_trans (Finset.sum_le_card_nsmul s g c fun k _ => h k) ?_
  rw [nsmul_eq_mul]
  have : (s.card : ℝ) ≤ n := by exact_mod_cast hn
  nlinarith

theorem binVal_mul (x y : Int) : |(binVal x).real| * |(binVal y).real| ≤ 4 := by
  have h1 := binVal_le x
  have h2 := binVal_le y
  have h3 := abs_nonneg (binVal x).real
  have h4 := abs_nonneg (binVal y).real
  nlinarith

/-- the rounding of 1/3 is a number of the format, and 2 is 2 -/
example := (C85_rounding (F := binary64) (nz := false) (x := 2)).2 ⟨⟨2, 0, by norm_num [binary64], by decide, by decide, by norm_num⟩, fun h => absurd rfl h⟩
example := (C85_rounding (F := binary32) (nz := false) (x := 1 / 3)).1 (Bin.mk_finite (by
  have h := Format.two_zpow_le (a := 1) (b := binary32.emax + 1) (by decide)
  have h1 : binary32.u ≤ 1 := pow_le_one₀ (by norm_num) (by norm_num)
  have h2 := Format.two_zpow_le (a := binary32.emin - binary32.p - 1) (b := -2) (by decide)
  rw [zpow_one] at h
  have h3 : binary32.big = (2 : ℝ) ^ (binary32.emax + 1) := rfl
  have h4 : binary32.eta = (2 : ℝ) ^ (binary32.emin - binary32.p - 1) := rfl
  rw [h3, h4]
  norm_num at h2 ⊢
  linarith))

/-- every element of the product is finite and accurate -/
example : ∃ m' d, gemmCall 4 (binVal 1) ⟨.dynDense, .columnMajor, 5, 7, 0⟩ ⟨.dynDense, .columnMajor, 7, 6, 64⟩ (binVal 2) ⟨.statDense, .columnMajor, 5, 6, 128⟩
    ⟨.statDense, .columnMajor, 5, 6, 192⟩ binMem = .ok () m' ∧ Contains 4 m' ⟨.statDense, .columnMajor, 5, 6, 192⟩ d ∧ ∀ i < 5, ∀ j < 6, (d i j).Finite := by
  obtain ⟨m', d, h1, h2, h3⟩ := C85_gemm_finite (m := binMem) (binVal 1) (binVal 2) nan_gemm lit (memOf_contains lit lit lit) (memOf_contains lit lit lit) (memOf_contains lit lit lit)
  refine ⟨m', d, h1, h2, fun i hi j hj => h3 i j hi hj trivial trivial trivial (fun _ _ => ⟨trivial, trivial⟩) ?_ ?_⟩
  · have hs := sum_le_of (s := range 7) (n := 7) (c := 4) (by simp) (by norm_num) (fun k => binVal_mul ((⟨.dynDense, .columnMajor, 5, 7, 0⟩ : Container).addr 4 i k)
      ((⟨.dynDense, .columnMajor, 7, 6, 64⟩ : Container).addr 4 k j))
    have he := bin_eta
    refine bin_bound (n := 7) (c := 35) (by norm_num) ?_ (by norm_num)
    push_cast at hs ⊢
    linarith
  · have hs := sum_le_of (s := range 7) (n := 7) (c := 4) (by simp) (by norm_num) (fun k => binVal_mul ((⟨.dynDense, .columnMajor, 5, 7, 0⟩ : Container).addr 4 i k)
      ((⟨.dynDense, .columnMajor, 7, 6, 64⟩ : Container).addr 4 k j))
    have he := bin_eta
    have he0 := binary64.eta_pos
    have ha := binVal_le 1
    have ha0 := abs_nonneg (binVal 1).real
    have hb := binVal_mul 2 ((⟨.statDense, .columnMajor, 5, 6, 128⟩ : Container).addr 4 i j)
    have hs0 : 0 ≤ ∑ k ∈ range 7, |(binVal ((⟨.dynDense, .columnMajor, 5, 7, 0⟩ : Container).addr 4 i k)).real| * |(binVal ((⟨.dynDense, .columnMajor, 7, 6, 64⟩ : Container).addr 4 k j)).real| :=
      sum_nonneg fun _ _ => by positivity
    refine bin_bound (n := 9) (c := 76) (by norm_num) ?_ (by norm_num)
    push_cast at hs ⊢
    have q1 := mul_le_mul ha hs hs0 (by norm_num)
    have q2 : (7 * |(binVal 1).real| + 2) * binary64.eta ≤ 16 * 1 := mul_le_mul (by linarith) he he0.le (by norm_num)
    have q3 : |(binVal 1).real| * ∑ k ∈ range 7, |(binVal ((⟨.dynDense, .columnMajor, 5, 7, 0⟩ : Container).addr 4 i k)).real| * |(binVal ((⟨.dynDense, .columnMajor, 7, 6, 64⟩ : Container).addr 4 k j)).real| +
      |(binVal 2).real| * |(binVal ((⟨.statDense, .columnMajor, 5, 6, 128⟩ : Container).addr 4 i j)).real| + (7 * |(binVal 1).real| + 2) * binary64.eta ≤ 2 * (7 * 4) + 4 + 16 * 1 := by linarith
    exact le_trans q3 (by norm_num)
example := C85_gemm (m := binMem) (binVal 1) (binVal 2) nan_gemm lit (memOf_contains lit lit lit) (memOf_contains lit lit lit) (memOf_contains lit lit lit)

example := C85_ger (m := binMem) (binVal 1) nan_ger lit (memOf_vcontains lit lit) (memOf_vcontains lit lit) (memOf_contains lit lit lit)
example : ∃ m' b, gerCall 4 1 (binVal 1) ⟨true, 5, 0⟩ ⟨false, 7, 64⟩ ⟨.dynDense, .columnMajor, 5, 7, 128⟩ ⟨.statDense, .columnMajor, 5, 7, 192⟩ binMem = .ok () m' ∧
    Contains 4 m' ⟨.statDense, .columnMajor, 5, 7, 192⟩ b ∧ ∀ i < 5, ∀ j < 7, (b i j).Finite := by
  obtain ⟨m', d, h1, h2, h3⟩ := C85_ger_finite (m := binMem) (binVal 1) nan_ger lit (memOf_vcontains lit lit) (memOf_vcontains lit lit) (memOf_contains lit lit lit)
  refine ⟨m', d, h1, h2, fun i hi j hj => h3 i j hi hj trivial trivial trivial trivial ?_ ?_⟩
  all_goals
    have he := bin_eta
    have he0 := binary64.eta_pos
    have hu := bin_u
    have hu0 := binary64.u_pos
    have hb := bin_big
  · have q1 := binVal_mul 1 ((⟨true, 5, 0⟩ : VObj).data + i)
    have q2 := mul_le_mul (show 1 + binary64.u ≤ 2 by linarith) q1 (by positivity) (by norm_num)
    refine lt_of_le_of_lt (add_le_add q2 he) (lt_of_lt_of_le (by norm_num) hb)
  · have q1 := binVal_mul 1 ((⟨true, 5, 0⟩ : VObj).data + i)
    have q2 := mul_le_mul q1 (binVal_le ((⟨false, 7, 64⟩ : VObj).data + j)) (by positivity) (by norm_num)
    have q3 := binVal_le ((⟨.dynDense, .columnMajor, 5, 7, 128⟩ : Container).addr 4 i j)
    have q4 := mul_le_mul (bin_pow 2) (add_le_add q3 q2) (by positivity) (by norm_num)
    have q5 := binVal_le ((⟨false, 7, 64⟩ : VObj).data + j)
    have q6 : ((1 + binary64.u) * (|(binVal ((⟨false, 7, 64⟩ : VObj).data + j)).real| + 1) + 1) * binary64.eta ≤ (2 * (2 + 1) + 1) * 1 :=
      mul_le_mul (add_le_add (mul_le_mul (by linarith) (by linarith) (by positivity) (by norm_num)) le_rfl) he he0.le (by norm_num)
    refine lt_of_le_of_lt (add_le_add q4 q6) (lt_of_lt_of_le (by norm_num) hb)

example := C85_syrk (m := binMem) (binVal 1) (binVal 2) nan_syrk lit (memOf_contains lit lit lit) (fun i j _ => memOf_contains (c := ⟨.statDense, .columnMajor, 5, 5, 128⟩) lit lit lit i j)

/-- one factor (1 + u) times a product, as in `C85_syrk_finite` -/
theorem bin_one (x y : Int) : (1 + binary64.u) * (|(binVal x).real| * |(binVal y).real|) + binary64.eta < binary64.big := by
  have hu := bin_u
  have q2 := mul_le_mul (show 1 + binary64.u ≤ 2 by linarith) (binVal_mul x y) (by positivity) (by norm_num)
  exact lt_of_le_of_lt (add_le_add q2 bin_eta) (lt_of_lt_of_le (by norm_num) bin_big)

theorem bin_sum {s : Finset ℕ} {n : ℕ} (hn : s.card ≤ n) (f g : ℕ → Int) : |(binVal 1).real| * ∑ k ∈ s, |(binVal (f k)).real| * |(binVal (g k)).real| ≤ 2 * (n * 4) :=
  mul_le_mul (binVal_le 1) (sum_le_of hn (by norm_num) fun k => binVal_mul _ _) (sum_nonneg fun _ _ => by positivity) (by norm_num)

example : ∃ m' d, syrkCall 4 1 (binVal 1) ⟨.dynDense, .columnMajor, 5, 7, 0⟩ (binVal 2) ⟨.statDense, .columnMajor, 5, 5, 128⟩ ⟨.statDense, .columnMajor, 5, 5, 192⟩ binMem = .ok () m' ∧
    ContainsLower 4 m' ⟨.statDense, .columnMajor, 5, 5, 192⟩ d ∧ ∀ i < 5, ∀ j ≤ i, (d i j).Finite := by
  obtain ⟨m', d, h1, h2, h3⟩ := C85_syrk_finite (m := binMem) (binVal 1) (binVal 2) nan_syrk lit (memOf_contains lit lit lit)
    (fun i j _ => memOf_contains (c := ⟨.statDense, .columnMajor, 5, 5, 128⟩) lit lit lit i j)
  refine ⟨m', d, h1, h2, fun i hi j hj => h3 i j hj hi (Nat.lt_of_le_of_lt hj hi) trivial trivial (fun _ _ => ⟨trivial, trivial, trivial⟩) (fun k _ => bin_one _ _) ?_⟩
  have q1 := bin_sum (s := range 7) (n := 7) (by simp) (fun k => (⟨.dynDense, .columnMajor, 5, 7, 0⟩ : Container).addr 4 i k) (fun k => (⟨.dynDense, .columnMajor, 5, 7, 0⟩ : Container).addr 4 j k)
  have q2 := sum_le_of (s := range 7) (n := 7) (by simp) (by norm_num) (fun k => binVal_le ((⟨.dynDense, .columnMajor, 5, 7, 0⟩ : Container).addr 4 j k))
  have q3 := binVal_mul 2 ((⟨.statDense, .columnMajor, 5, 5, 128⟩ : Container).addr 4 i j)
  have q4 : (((7 : ℕ) : ℝ) + 1 + ∑ k ∈ range 7, |(binVal ((⟨.dynDense, .columnMajor, 5, 7, 0⟩ : Container).addr 4 j k)).real|) * binary64.eta ≤ (((7 : ℕ) : ℝ) + 1 + ((7 : ℕ) : ℝ) * 2) * 1 :=
    mul_le_mul (add_le_add le_rfl q2) bin_eta binary64.eta_pos.le (by norm_num)
  exact bin_bound (n := 8) (by norm_num) (add_le_add (add_le_add q3 q1) q4) (by norm_num)

example := C85_trmm_right (m := binMem) (binVal 1) nan_trmmR lit (fun i j _ hi hj => memOf_contains (c := ⟨.dynDense, .columnMajor, 7, 7, 0⟩) lit lit lit i j hi hj)
  (memOf_contains lit lit lit)

example : ∃ m' d, trmmRightCall 4 1 (binVal 1) ⟨.dynDense, .columnMajor, 5, 7, 64⟩ ⟨.dynDense, .columnMajor, 7, 7, 0⟩ .lower false ⟨.statDense, .columnMajor, 5, 7, 128⟩ binMem = .ok () m' ∧
    Contains 4 m' ⟨.statDense, .columnMajor, 5, 7, 128⟩ d ∧ ∀ i < 5, ∀ j < 7, (d i j).Finite := by
  obtain ⟨m', d, h1, h2, h3⟩ := C85_trmm_right_finite (m := binMem) (binVal 1) nan_trmmR lit (fun i j _ hi hj => memOf_contains (c := ⟨.dynDense, .columnMajor, 7, 7, 0⟩) lit lit lit i j hi hj)
    (memOf_contains lit lit lit)
  refine ⟨m', d, h1, h2, fun i hi j hj => h3 i j hi hj trivial (fun _ _ _ => ⟨trivial, trivial⟩) (fun k _ _ => bin_one _ _) ?_⟩
  have q1 := bin_sum (s := Ico j 7) (n := 7) (by simp) (fun k => (⟨.dynDense, .columnMajor, 5, 7, 64⟩ : Container).addr 4 i k) (fun k => (⟨.dynDense, .columnMajor, 7, 7, 0⟩ : Container).addr 4 k j)
  have q2 := sum_le_of (s := Ico j 7) (n := 7) (by simp) (by norm_num) (fun k => binVal_le ((⟨.dynDense, .columnMajor, 7, 7, 0⟩ : Container).addr 4 k j))
  have q4 : (((7 : ℕ) : ℝ) + ∑ k ∈ Ico j 7, |(binVal ((⟨.dynDense, .columnMajor, 7, 7, 0⟩ : Container).addr 4 k j)).real|) * binary64.eta ≤ (((7 : ℕ) : ℝ) + ((7 : ℕ) : ℝ) * 2) * 1 :=
    mul_le_mul (add_le_add le_rfl q2) bin_eta binary64.eta_pos.le (by norm_num)
  exact bin_bound (n := 8) (by norm_num) (add_le_add q1 q4) (by norm_num)

/-- block 0: an upper triangular matrix (zeros below the diagonal) -/
noncomputable def binUp (q i j : Nat) : Bin binary64 := if q = 0 ∧ j < i then .fin false 0 else binVal (64 * q + i + 8 * j)

theorem binUp_fin (q i j : Nat) : (binUp q i j).Finite := by unfold binUp; split <;> trivial
theorem binUp_le (q i j : Nat) : |(binUp q i j).real| ≤ 2 := by
  unfold binUp
  split
  · simp [Bin.real]
  · exact binVal_le _
theorem binUp_zero {i k : Nat} (h : k < i) : (binUp 0 i k).Finite ∧ (binUp 0 i k).real = 0 := by
  unfold binUp
  rw [if_pos ⟨rfl, h⟩]
  exact ⟨trivial, by simp [Bin.real]⟩

theorem binUp_mul (q i j q' i' j' : Nat) : |(binUp q i j).real| * |(binUp q' i' j').real| ≤ 4 := by
  have h1 := binUp_le q i j
  have h2 := binUp_le q' i' j'
  have h3 := abs_nonneg (binUp q i j).real
  have h4 := abs_nonneg (binUp q' i' j').real
  nlinarith

theorem bin_trmmL : TrmmLArgs 4 (selMem binUp) ⟨.dynDense, .columnMajor, 5, 5, (64 * 0 : Nat)⟩ ⟨.dynDense, .columnMajor, 5, 7, (64 * 1 : Nat)⟩ ⟨.statDense, .columnMajor, 5, 7, 128⟩ :=
  ⟨by decide, rfl, rfl, memOf_live lit lit lit, memOf_live lit lit lit, memOf_live lit lit lit, apart_of lit, Or.inr (apart_of lit), fun h => by cases h⟩

example := C85_trmm_left (m := selMem binUp) (binVal 1) bin_trmmL lit (sel_dyn binUp 0 lit lit lit lit) (sel_dyn binUp 1 lit lit lit lit) (fun i k h _ => (binUp_zero h).2)

example : ∃ m' d, trmmLeftCall 4 1 (binVal 1) ⟨.dynDense, .columnMajor, 5, 5, (64 * 0 : Nat)⟩ .upper false ⟨.dynDense, .columnMajor, 5, 7, (64 * 1 : Nat)⟩ ⟨.statDense, .columnMajor, 5, 7, 128⟩
    (selMem binUp) = .ok () m' ∧ Contains 4 m' ⟨.statDense, .columnMajor, 5, 7, 128⟩ d ∧ ∀ i < 5, ∀ j < 7, (d i j).Finite := by
  obtain ⟨m', d, h1, h2, h3⟩ := C85_trmm_left_finite (m := selMem binUp) (binVal 1) bin_trmmL lit (sel_dyn binUp 0 lit lit lit lit) (sel_dyn binUp 1 lit lit lit lit) (fun i k h _ => binUp_zero h)
  refine ⟨m', d, h1, h2, fun i hi j hj => h3 i j hi hj trivial (fun _ _ _ => binUp_fin _ _ _) (fun _ _ => binUp_fin _ _ _) (fun k _ _ => ?_) ?_⟩
  · have hu := bin_u
    have q1 := mul_le_mul (binVal_le 1) (binUp_le 0 i k) (abs_nonneg _) (by norm_num)
    have q2 := mul_le_mul (show 1 + binary64.u ≤ 2 by linarith) q1 (by positivity) (by norm_num)
    exact lt_of_le_of_lt (add_le_add q2 bin_eta) (lt_of_lt_of_le (by norm_num) bin_big)
  · have q1 : |(binVal 1).real| * ∑ k ∈ Ico i 5, |(binUp 0 i k).real| * |(binUp 1 k j).real| ≤ 2 * (((5 : ℕ) : ℝ) * 4) :=
      mul_le_mul (binVal_le 1) (sum_le_of (n := 5) (by simp) (by norm_num) fun k => binUp_mul _ _ _ _ _ _) (sum_nonneg fun _ _ => by positivity) (by norm_num)
    have q2 := sum_le_of (s := range 5) (n := 5) (by simp) (by norm_num) (fun k => binUp_le 1 k j)
    have q4 : (((5 : ℕ) : ℝ) + ∑ k ∈ range 5, |(binUp 1 k j).real|) * binary64.eta ≤ (((5 : ℕ) : ℝ) + ((5 : ℕ) : ℝ) * 2) * 1 :=
      mul_le_mul (add_le_add le_rfl q2) bin_eta binary64.eta_pos.le (by norm_num)
    exact bin_bound (n := 6) (by norm_num) (add_le_add q1 q4) (by norm_num)

/-- block 0: 2^1023; block 1: 8; block 2: 0 -/
noncomputable def binBig (q _ _ : Nat) : Bin binary64 := if q = 0 then .fin false ⟨(2 : ℝ) ^ binary64.emax, zpow_nonneg (by norm_num) _⟩ else if q = 1 then .fin false 8 else .fin false 0

theorem binBig_at (q : Nat) (hq : q < 3) : Contains 4 (selMem binBig) ⟨.dynDense, .columnMajor, 1, 1, (64 * q : Nat)⟩ (binBig q) := by
  intro i j hi hj
  obtain rfl : i = 0 := Nat.lt_one_iff.1 hi
  obtain rfl : j = 0 := Nat.lt_one_iff.1 hj
  have e : (⟨.dynDense, .columnMajor, 1, 1, (64 * q : Nat)⟩ : Container).addr 4 0 0 = ((64 * q : Nat) : Int) := by
    have : (⟨.dynDense, .columnMajor, 1, 1, (64 * q : Nat)⟩ : Container).elementIndex 4 0 0 = 0 := by
      show 0 + 0 * _ = 0
      rw [Nat.zero_mul]
    unfold Container.addr
    rw [this]
    exact Int.add_zero _
  rw [e]
  unfold selMem
  rw [memOf_at (by omega) (by omega)]
  rw [show (((64 * q : Nat) : Int) / 64).toNat = q by omega]
  rfl

example : ∃ m' : Mem (Bin binary64), gemmCall 4 (.fin false (1 / 8)) ⟨.dynDense, .columnMajor, 1, 1, (64 * 0 : Nat)⟩ ⟨.dynDense, .columnMajor, 1, 1, (64 * 1 : Nat)⟩ (.fin false 0)
    ⟨.dynDense, .columnMajor, 1, 1, (64 * 2 : Nat)⟩ ⟨.dynDense, .columnMajor, 1, 1, 192⟩ (selMem binBig) = .ok () m' ∧ m' 192 = some (.inf false) :=
  (C85_gemm_overflow_refuted (SS := 4) (m := selMem binBig) (A := ⟨.dynDense, .columnMajor, 1, 1, (64 * 0 : Nat)⟩) (B := ⟨.dynDense, .columnMajor, 1, 1, (64 * 1 : Nat)⟩)
    (C := ⟨.dynDense, .columnMajor, 1, 1, (64 * 2 : Nat)⟩) (D := ⟨.dynDense, .columnMajor, 1, 1, 192⟩)
    ⟨by decide, rfl, rfl, rfl, memOf_live lit lit lit, memOf_live lit lit lit, memOf_live lit lit lit, memOf_live lit lit lit, apart_of lit, apart_of lit, Or.inr (apart_of lit)⟩ lit
    lit (x := ⟨(2 : ℝ) ^ binary64.emax, zpow_nonneg (by norm_num) _⟩) rfl
    (binBig_at 0 lit) (binBig_at 1 lit) (binBig_at 2 lit)).2

end Blast
