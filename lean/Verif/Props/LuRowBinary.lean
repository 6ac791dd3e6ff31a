import Mathlib.Tactic.LinearCombination
import Verif.BinaryLu
import Verif.Props.BackwardLu
/-
C23, continued: in IEEE arithmetic row-major getrf, which does no pivoting, is not a stable algorithm: on a perfectly
regular matrix with elements between 0 and 1 it returns finite factors that have nothing to do with the matrix.
-/
set_option linter.unusedSectionVars false
namespace Blast
open Finset Bin

/-- the matrix [[2^-60, 1], [1, 1]] of binary64 numbers -/
noncomputable def tinyPivot (i j : Nat) : Bin binary64 := if i = 0 ∧ j = 0 then .fin false ((1 / 2) ^ 60) else .fin false 1

private theorem real_one : (Bin.fin false 1 : Bin binary64).real = 1 := by simp [Bin.real]
private theorem real_tiny : (Bin.fin false ((1 / 2) ^ 60) : Bin binary64).real = (1 / 2) ^ 60 := by simp [Bin.real]

private theorem rep_pow60 : binary64.Representable ((2 : ℝ) ^ 60) :=
  ⟨⟨1, 60, by norm_num [binary64], by decide, by decide, by norm_num⟩, fun h => absurd rfl h⟩

/-- 1 - 2^60 is rounded to -2^60 -/
private theorem rep_near {r : ℝ} (hr : binary64.Representable r) (h : |r - (1 - (2 : ℝ) ^ 60)| ≤ 1) : r = -2 ^ 60 := by
  obtain ⟨⟨n, e, h1, -, -, rfl⟩, -⟩ := hr
  have hn : |(n : ℝ)| < (2 : ℝ) ^ 53 := by
    have : |n| < 2 ^ 53 := h1
    exact_mod_cast this
  obtain ⟨k1, k2⟩ := abs_le.1 h
  rcases le_or_gt 7 e with he | he
  · obtain ⟨t, rfl⟩ : ∃ t : ℕ, e = 7 + (t : ℤ) := ⟨(e - 7).toNat, by omega⟩
    have e1 : (n : ℝ) * (2 : ℝ) ^ (7 + (t : ℤ)) = ((n * 2 ^ t * 128 : ℤ) : ℝ) := by
      rw [zpow_add₀ (by norm_num), zpow_natCast]; push_cast; norm_num; ring
    rw [e1] at k1 k2 ⊢
    generalize n * 2 ^ t = q at *
    have g1 : -(2 : ℤ) ^ 60 ≤ q * 128 := by
      have : (-(2 : ℝ) ^ 60) ≤ ((q * 128 : ℤ) : ℝ) := by linarith
      exact_mod_cast this
    have g2 : q * 128 ≤ 2 - (2 : ℤ) ^ 60 := by
      have : ((q * 128 : ℤ) : ℝ) ≤ 2 - (2 : ℝ) ^ 60 := by linarith
      exact_mod_cast this
    have : q * 128 = -2 ^ 60 := by omega
    rw [this]; push_cast; ring
  · exfalso
    have h0 : (0 : ℝ) < (2 : ℝ) ^ e := zpow_pos (by norm_num) _
    have h2 : (2 : ℝ) ^ e ≤ (2 : ℝ) ^ (6 : ℤ) := zpow_le_zpow_right₀ (by norm_num) (by omega)
    have h3 : |(n : ℝ) * (2 : ℝ) ^ e| ≤ (2 : ℝ) ^ 53 * (2 : ℝ) ^ (6 : ℤ) := by
      rw [abs_mul, abs_of_pos h0]
      exact mul_le_mul hn.le h2 h0.le (by positivity)
    have h4 := (abs_le.1 h3).1
    norm_num at h4 k2
    linarith

private theorem tiny_mult : (Arith.div (tinyPivot 1 0) (tinyPivot 0 0) : Bin binary64).Finite ∧
    (Arith.div (tinyPivot 1 0) (tinyPivot 0 0) : Bin binary64).real = 2 ^ 60 := by
  have h : (Arith.div (tinyPivot 1 0) (tinyPivot 0 0) : Bin binary64) = mk binary64 false (1 / (1 / 2) ^ 60) := by
    show Bin.div (tinyPivot 1 0) (tinyPivot 0 0) = _
    rw [show tinyPivot 1 0 = .fin false 1 from rfl, show tinyPivot 0 0 = .fin false ((1 / 2) ^ 60) from rfl]
    show (if ((1 / 2) ^ 60 : NNReal) = 0 then _ else mk binary64 (false != false) ((Bin.fin false 1 : Bin binary64).real /
      (Bin.fin false ((1 / 2) ^ 60) : Bin binary64).real)) = _
    rw [if_neg (pow_ne_zero _ (by norm_num)), real_one, real_tiny]
    rfl
  rw [h, show (1 : ℝ) / (1 / 2) ^ 60 = 2 ^ 60 by norm_num]
  exact mk_exact rep_pow60

private theorem tiny_prod {l : Bin binary64} (hl : l.Finite) (hr : l.real = 2 ^ 60) : (Arith.mul l (tinyPivot 0 1) : Bin binary64).Finite ∧
    (Arith.mul l (tinyPivot 0 1) : Bin binary64).real = 2 ^ 60 := by
  rcases l with ⟨s, x⟩ | s | _
  · show (mk binary64 (s != false) ((Bin.fin s x : Bin binary64).real * (Bin.fin false 1 : Bin binary64).real)).Finite ∧
      (mk binary64 (s != false) ((Bin.fin s x : Bin binary64).real * (Bin.fin false 1 : Bin binary64).real)).real = 2 ^ 60
    rw [hr, real_one, mul_one]
    exact mk_exact rep_pow60
  · exact hl.elim
  · exact hl.elim

private theorem tiny_sub {z : Bin binary64} (hz : z.Finite) (hr : z.real = 2 ^ 60) : (Arith.sub (tinyPivot 1 1) z : Bin binary64).Finite ∧
    (Arith.sub (tinyPivot 1 1) z : Bin binary64).real = -2 ^ 60 := by
  rcases z with ⟨s, x⟩ | s | _
  · have h : ∃ b, (Arith.sub (tinyPivot 1 1) (.fin s x) : Bin binary64) = mk binary64 b (1 - 2 ^ 60) := by
      refine ⟨false && !s, ?_⟩
      show Bin.add (.fin false 1) (Bin.neg (.fin s x)) = _
      show mk binary64 (false && !s) ((Bin.fin false 1 : Bin binary64).real + (Bin.neg (Bin.fin s x) : Bin binary64).real) = _
      rw [real_neg, hr, real_one, ← sub_eq_add_neg]
    obtain ⟨b, h⟩ := h
    rw [h]
    have hf : (mk binary64 b (1 - 2 ^ 60)).Finite := by
      refine mk_finite ?_
      have hu : binary64.u ≤ 1 := by
        unfold Format.u
        exact pow_le_one₀ (by norm_num) (by norm_num)
      have he : binary64.eta ≤ 1 := by
        unfold Format.eta
        rw [if_pos (show binary64.under = .gradual from rfl)]
        exact le_trans (Format.two_zpow_le (show _ ≤ (0 : ℤ) by decide)) (by norm_num)
      have hb : (2 : ℝ) ^ (70 : ℤ) ≤ binary64.big := by
        unfold Format.big
        exact Format.two_zpow_le (by decide)
      have hu0 := binary64.u_pos
      refine lt_of_lt_of_le ?_ hb
      have : |(1 : ℝ) - 2 ^ 60| ≤ 2 ^ 60 := by norm_num
      have h1 := mul_le_mul (show 1 + binary64.u ≤ 2 by linarith) this (abs_nonneg _) (by norm_num)
      norm_num at h1 ⊢
      linarith
    refine ⟨hf, rep_near (mk_representable hf) (le_trans (mk_nearest rfl hf (Format.Representable.neg rep_pow60)) ?_)⟩
    norm_num
  · exact hz.elim
  · exact hz.elim

private theorem tiny_robust : RobustIndep (1 / 8 : ℝ) 2 2 (fun i j => (tinyPivot i j).real) := by
  intro a' h x hx
  have h00 := abs_le.1 (h 0 0 (by omega) (by omega))
  have h01 := abs_le.1 (h 0 1 (by omega) (by omega))
  have h10 := abs_le.1 (h 1 0 (by omega) (by omega))
  have h11 := abs_le.1 (h 1 1 (by omega) (by omega))
  beta_reduce at h00 h01 h10 h11
  have e0 := hx 0 (by omega)
  have e1 := hx 1 (by omega)
  have ht : ((1 / 2 : ℝ)) ^ 60 ≤ 1 / 8 := by norm_num
  have ht0 : (0 : ℝ) ≤ (1 / 2 : ℝ) ^ 60 := by positivity
  rw [show (tinyPivot 0 0).real = (1 / 2) ^ 60 from real_tiny] at h00
  rw [show (tinyPivot 0 1).real = 1 from real_one] at h01
  rw [show (tinyPivot 1 0).real = 1 from real_one] at h10
  rw [show (tinyPivot 1 1).real = 1 from real_one] at h11
  rw [show min 2 2 = 2 from rfl] at *
  simp only [sum_range_succ, range_zero, sum_empty, zero_add] at e0 e1
  generalize a' 0 0 = p at *
  generalize a' 0 1 = q at *
  generalize a' 1 0 = r at *
  generalize a' 1 1 = s at *
  have hd : p * s - q * r ≠ 0 := by
    have h1 : p * s ≤ 1 / 4 * (9 / 8) := by
      rcases le_or_gt p 0 with hp | hp
      · exact le_trans (mul_nonpos_of_nonpos_of_nonneg hp (by linarith)) (by norm_num)
      · exact mul_le_mul (by linarith) (by linarith) (by linarith) (by norm_num)
    have h2 : 7 / 8 * (7 / 8) ≤ q * r := mul_le_mul (by linarith) (by linarith) (by norm_num) (by linarith)
    intro hc
    norm_num at h1 h2
    linarith
  have f0 : (p * s - q * r) * x 0 = 0 := by linear_combination s * e0 - q * e1
  have f1 : (p * s - q * r) * x 1 = 0 := by linear_combination p * e1 - r * e0
  intro j hj
  obtain rfl | rfl : j = 0 ∨ j = 1 := by omega
  · exact (mul_eq_zero.1 f0).resolve_left hd
  · exact (mul_eq_zero.1 f1).resolve_left hd

/-- **C23** (row-major getrf is not stable). The matrix A = [[2^-60, 1], [1, 1]] has elements between 0 and 1, and every real
matrix whose elements differ from those of A by at most 1/8 is invertible. Row-major getrf, in binary64 arithmetic, returns
normally with finite factors, whose exact product has a 0 in the place where A has a 1. -/
theorem C23_getrf_row_major_unstable_refuted {SS : Nat} {p : MPtr} {m0 : Mem (Bin binary64)} (hinj : Inj SS p 2 2)
    (h : Holds SS m0 p 2 2 tinyPivot) (ip : Nat → Nat) :
    (∀ i j, (tinyPivot i j).Finite ∧ 0 ≤ (tinyPivot i j).real ∧ (tinyPivot i j).real ≤ 1) ∧
    RobustIndep (1 / 8 : ℝ) 2 2 (fun i j => (tinyPivot i j).real) ∧
    ∃ q m' b, getrfRow SS Arith.div ⟨p, 2, 2⟩ ip m0 = .ok q m' ∧ Holds SS m' p 2 2 b ∧ (∀ i j, i < 2 → j < 2 → (b i j).Finite) ∧
      ∑ k ∈ range 2, tri .lower true (fun i j => (b i j).real) 1 k * tri .upper false (fun i j => (b i j).real) k 1 = 0 ∧
      (tinyPivot 1 1).real = 1 := by
  refine ⟨fun i j => ?_, tiny_robust, ?_⟩
  · unfold tinyPivot
    split
    · rw [real_tiny]; exact ⟨trivial, by positivity, pow_le_one₀ (by norm_num) (by norm_num)⟩
    · rw [real_one]; exact ⟨trivial, zero_le_one, le_refl _⟩
  · obtain ⟨q, m', h1, h2, rfl⟩ := runs_getrfRow (Arith.div : Bin binary64 → Bin binary64 → Bin binary64) (A := ⟨p, 2, 2⟩) hinj h ip
    have e00 : elimRun Arith.div tinyPivot 2 0 0 = tinyPivot 0 0 := rfl
    have e01 : elimRun Arith.div tinyPivot 2 0 1 = tinyPivot 0 1 := rfl
    have e10 : elimRun Arith.div tinyPivot 2 1 0 = Arith.div (tinyPivot 1 0) (tinyPivot 0 0) := rfl
    have e11 : elimRun Arith.div tinyPivot 2 1 1 =
      Arith.sub (tinyPivot 1 1) (Arith.mul (Arith.div (tinyPivot 1 0) (tinyPivot 0 0)) (tinyPivot 0 1)) := rfl
    obtain ⟨f1, r1⟩ := tiny_mult
    obtain ⟨f2, r2⟩ := tiny_prod f1 r1
    obtain ⟨f3, r3⟩ := tiny_sub f2 r2
    refine ⟨_, m', _, h1, h2.holds, fun i j hi hj => ?_, ?_, real_one⟩
    · show (elimRun Arith.div tinyPivot 2 i j).Finite
      obtain rfl | rfl : i = 0 ∨ i = 1 := by omega
      · obtain rfl | rfl : j = 0 ∨ j = 1 := by omega
        · rw [e00]; exact trivial
        · rw [e01]; exact trivial
      · obtain rfl | rfl : j = 0 ∨ j = 1 := by omega
        · rw [e10]; exact f1
        · rw [e11]; exact f3
    · show ∑ k ∈ range 2, tri .lower true (fun i j => (elimRun Arith.div tinyPivot 2 i j).real) 1 k *
        tri .upper false (fun i j => (elimRun Arith.div tinyPivot 2 i j).real) k 1 = 0
      simp only [sum_range_succ, range_zero, sum_empty, zero_add, tri_eq_lower, tri_eq_upper]
      rw [e01, e10, e11, r1, r3, show (tinyPivot 0 1).real = 1 from real_one]
      norm_num
end Blast
