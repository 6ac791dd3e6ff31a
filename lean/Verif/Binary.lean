import Verif.RoundEven
import Verif.RegLemmas
import Mathlib.Data.NNReal.Basic
import Mathlib.Data.Real.Sqrt
/-
The binary formats of IEEE 754 (double: binary64, float: binary32) with everything that happens at the ends of the range: gradual underflow (subnormal numbers), overflow
to infinity, signed zeros, infinities, NaN. Rounding is to nearest, ties to even. Models no code of the repository but the arithmetic of the element types double and float
of `Simd.hpp` (and of the scalar code), as IEEE 754-2019 and the processor manuals define it. NaN payloads and exception flags are left out.

Programs built with `-ffast-math` usually run with flush-to-zero (Simd.hpp does not set it; the start-up code that GCC and Clang link does, and
cmake/InitialCache.cmake:3 asks for `-ffast-math`): results too small for a normal number become zero. `Format.under` says which; everything below holds for
all three ways. (With denormals-are-zero, operands that are subnormal count as zero; results never are, so this concerns the caller's numbers only.)

A magnitude is an arbitrary real number ≥ 0: the formats' numbers are among them, and every operation returns a number of the format (`mk_representable`).
-/
namespace Blast
open Finset

/-- what becomes of results too small for a normal number: subnormal numbers; zero, if the result rounded as if there was no smallest exponent is too small
(x86, MXCSR.FTZ); zero, if the exact result is too small (Arm, FPCR.FZ) -/
inductive Underflow
  | gradual
  | flushAfter
  | flushBefore
deriving DecidableEq

/-- a binary format: p digits after the leading one, exponents of normal numbers between emin and emax -/
structure Format where
  p : Nat
  emin : ℤ
  emax : ℤ
  range : emin ≤ emax
  under : Underflow := .gradual

/-- the format of `double` (IEEE 754 binary64) -/
def binary64 : Format := ⟨52, -1022, 1023, by decide, .gradual⟩
/-- the format of `float` (IEEE 754 binary32) -/
def binary32 : Format := ⟨23, -126, 127, by decide, .gradual⟩
/-- `double` and `float` on x86 with flush-to-zero -/
def binary64Ftz : Format := ⟨52, -1022, 1023, by decide, .flushAfter⟩
def binary32Ftz : Format := ⟨23, -126, 127, by decide, .flushAfter⟩
/-- `double` and `float` on Arm with flush-to-zero -/
def binary64Fz : Format := ⟨52, -1022, 1023, by decide, .flushBefore⟩
def binary32Fz : Format := ⟨23, -126, 127, by decide, .flushBefore⟩

namespace Format
variable (F : Format)

/-- relative error of rounding in the normal range -/
noncomputable def u : ℝ := (1 / 2 : ℝ) ^ (F.p + 1)
/-- absolute error of rounding below the normal range: half of the smallest positive number; the smallest normal number if small results become zero -/
noncomputable def eta : ℝ := if F.under = .gradual then (2 : ℝ) ^ (F.emin - F.p - 1) else (2 : ℝ) ^ F.emin
/-- the first power of two that is too large -/
noncomputable def big : ℝ := (2 : ℝ) ^ (F.emax + 1)

/-- distance of the numbers of the format around y ≥ 0 (without upper end of the range) -/
noncomputable def ulp (y : ℝ) : ℝ := (2 : ℝ) ^ (max (Int.log 2 y) F.emin - F.p)

/-- y ≥ 0 rounded to nearest, ties to even, with gradual underflow, without upper end of the range -/
noncomputable def roundG (y : ℝ) : ℝ := (rne (y / F.ulp y) : ℝ) * F.ulp y

/-- y ≥ 0 becomes zero -/
def tiny (y : ℝ) : Prop :=
  match F.under with
  | .gradual => False
  | .flushAfter => rndMag F.p y < (2 : ℝ) ^ F.emin
  | .flushBefore => y < (2 : ℝ) ^ F.emin

open Classical in
/-- y ≥ 0 rounded, without upper end of the range -/
noncomputable def round (y : ℝ) : ℝ := if F.tiny y then 0 else F.roundG y

/-- n 2^e with at most p+1 digits, not beyond the exponent range -/
def RepresentableG (x : ℝ) : Prop := ∃ n e : ℤ, |n| < 2 ^ (F.p + 1) ∧ F.emin ≤ e + F.p ∧ e + F.p ≤ F.emax ∧ x = n * (2 : ℝ) ^ e

/-- the finite numbers of the format; no subnormal numbers if small results become zero -/
def Representable (x : ℝ) : Prop := F.RepresentableG x ∧ (F.under ≠ .gradual → x = 0 ∨ (2 : ℝ) ^ F.emin ≤ |x|)

theorem ulp_pos (y : ℝ) : 0 < F.ulp y := zpow_pos (by norm_num) _
theorem u_pos : 0 < F.u := by unfold u; positivity
theorem eta_pos : 0 < F.eta := by unfold eta; split <;> exact zpow_pos (by norm_num) _

theorem rne_nonneg {x : ℝ} (h : 0 ≤ x) : 0 ≤ rne x := by
  have := abs_le.1 (rne_err x)
  have h1 : (-1 : ℝ) < (rne x : ℝ) := by linarith [this.1]
  have h2 : (-1 : ℤ) < rne x := by exact_mod_cast h1
  omega

theorem roundG_nonneg {y : ℝ} (h : 0 ≤ y) : 0 ≤ F.roundG y := by
  unfold roundG
  have h1 := F.ulp_pos y
  have h2 : 0 ≤ rne (y / F.ulp y) := rne_nonneg (div_nonneg h h1.le)
  have h3 : (0 : ℝ) ≤ (rne (y / F.ulp y) : ℝ) := by exact_mod_cast h2
  positivity

theorem roundG_ulp (y : ℝ) : |F.roundG y - y| ≤ 1 / 2 * F.ulp y := by
  have hE := F.ulp_pos y
  have h1 := rne_err (y / F.ulp y)
  unfold roundG
  have h2 : (rne (y / F.ulp y) : ℝ) * F.ulp y - y = ((rne (y / F.ulp y) : ℝ) - y / F.ulp y) * F.ulp y := by
    field_simp
  rw [h2, abs_mul, abs_of_pos hE]
  gcongr

theorem roundG_zero : F.roundG 0 = 0 := by simp [roundG, rne]

theorem roundG_err {y : ℝ} (hy : 0 ≤ y) : |F.roundG y - y| ≤ F.u * y + (2 : ℝ) ^ (F.emin - F.p - 1) := by
  rcases hy.eq_or_lt with rfl | hpos
  · rw [roundG_zero]; simp; exact (zpow_pos (by norm_num) _).le
  · have h := F.roundG_ulp y
    have hlog : (2 : ℝ) ^ Int.log 2 y ≤ y := by
      have := Int.zpow_log_le_self (b := 2) (r := y) (by norm_num) hpos
      exact_mod_cast this
    have hu := F.u_pos
    have he : (0 : ℝ) < (2 : ℝ) ^ (F.emin - F.p - 1) := zpow_pos (by norm_num) _
    have key : ∀ e : ℤ, 1 / 2 * (2 : ℝ) ^ (e - F.p) = F.u * (2 : ℝ) ^ e := fun e => by
      unfold u
      rw [zpow_sub₀ (by norm_num), zpow_natCast, pow_succ, one_div, inv_pow]
      field_simp
    rcases le_total (Int.log 2 y) F.emin with hl | hl
    · have e : 1 / 2 * F.ulp y = (2 : ℝ) ^ (F.emin - F.p - 1) := by
        unfold ulp
        rw [max_eq_right hl, zpow_sub₀ (by norm_num) (F.emin - F.p) 1, zpow_one]; ring
      rw [e] at h
      have : 0 ≤ F.u * y := by positivity
      linarith
    · have e : 1 / 2 * F.ulp y = F.u * (2 : ℝ) ^ Int.log 2 y := by
        unfold ulp
        rw [max_eq_left hl, key]
      rw [e] at h
      have : F.u * (2 : ℝ) ^ Int.log 2 y ≤ F.u * y := by gcongr
      linarith

/-- `rne` gives a nearest integer -/
theorem rne_near (x : ℝ) (k : ℤ) : |(rne x : ℝ) - x| ≤ |(k : ℝ) - x| := by
  have h1 := Int.floor_add_fract x
  have h2 := Int.fract_nonneg x
  have h3 := Int.fract_lt_one x
  have hk : k ≤ ⌊x⌋ ∨ ⌊x⌋ + 1 ≤ k := by omega
  have lo : k ≤ ⌊x⌋ → Int.fract x ≤ |(k : ℝ) - x| := fun h => by
    have : (k : ℝ) ≤ (⌊x⌋ : ℝ) := by exact_mod_cast h
    rw [abs_sub_comm]
    exact le_trans (by linarith) (le_abs_self _)
  have hi : ⌊x⌋ + 1 ≤ k → 1 - Int.fract x ≤ |(k : ℝ) - x| := fun h => by
    have : (⌊x⌋ : ℝ) + 1 ≤ (k : ℝ) := by exact_mod_cast h
    exact le_trans (by linarith) (le_abs_self _)
  have ef : |(⌊x⌋ : ℝ) - x| = Int.fract x := by rw [show (⌊x⌋ : ℝ) - x = -Int.fract x by linarith, abs_neg, abs_of_nonneg h2]
  have ec : |((⌊x⌋ + 1 : ℤ) : ℝ) - x| = 1 - Int.fract x := by
    push_cast
    rw [show (⌊x⌋ : ℝ) + 1 - x = 1 - Int.fract x by linarith, abs_of_nonneg (by linarith)]
  unfold rne
  split
  · rw [ef]
    rcases hk with h | h
    · exact lo h
    · have := hi h; linarith
  · split
    · rw [ec]
      rcases hk with h | h
      · have := lo h; linarith
      · exact hi h
    · have : Int.fract x = 1 / 2 := by linarith
      split
      · rw [ef]
        rcases hk with h | h
        · exact lo h
        · have := hi h; linarith
      · rw [ec]
        rcases hk with h | h
        · have := lo h; linarith
        · exact hi h

theorem roundG_near (y : ℝ) (k : ℤ) : |F.roundG y - y| ≤ |(k : ℝ) * F.ulp y - y| := by
  have hE := F.ulp_pos y
  have e : ∀ k : ℤ, |(k : ℝ) * F.ulp y - y| = |(k : ℝ) - y / F.ulp y| * F.ulp y := fun k => by
    rw [← abs_of_pos hE, ← abs_mul, abs_of_pos hE]
    congr 1
    field_simp
  unfold roundG
  rw [e, e]
  exact mul_le_mul_of_nonneg_right (rne_near _ k) hE.le

theorem two_zpow_le {a b : ℤ} (h : a ≤ b) : (2 : ℝ) ^ a ≤ (2 : ℝ) ^ b := zpow_le_zpow_right₀ (by norm_num) h
theorem two_zpow_lt {a b : ℤ} : (2 : ℝ) ^ a < (2 : ℝ) ^ b ↔ a < b := zpow_lt_zpow_iff_right₀ (by norm_num)

/-- no number of the format is closer to y than `roundG y` -/
theorem roundG_nearest {y : ℝ} (hy : 0 ≤ y) {z : ℝ} (hz : F.RepresentableG z) : |F.roundG y - y| ≤ |z - y| := by
  rcases hy.eq_or_lt with rfl | hpos
  · rw [F.roundG_zero, sub_zero, abs_zero]; exact abs_nonneg _
  obtain ⟨n, e, h1, h2, h3, rfl⟩ := hz
  rcases le_or_gt (max (Int.log 2 y) F.emin - F.p) e with h | h
  · have : (n : ℝ) * (2 : ℝ) ^ e = ((n * 2 ^ (e - (max (Int.log 2 y) F.emin - F.p)).toNat : ℤ) : ℝ) * F.ulp y := by
      unfold ulp
      push_cast
      rw [mul_assoc, ← zpow_natCast, ← zpow_add₀ (by norm_num)]
      congr 2
      omega
    rw [this]
    exact F.roundG_near y _
  · have hE : max (Int.log 2 y) F.emin = Int.log 2 y := by
      rcases le_total (Int.log 2 y) F.emin with hl | hl
      · rw [max_eq_right hl] at h; omega
      · exact max_eq_left hl
    have hlog : (2 : ℝ) ^ Int.log 2 y ≤ y := by
      have := Int.zpow_log_le_self (b := 2) (r := y) (by norm_num) hpos
      exact_mod_cast this
    have hz : (n : ℝ) * (2 : ℝ) ^ e ≤ (2 : ℝ) ^ Int.log 2 y := by
      have hn : (n : ℝ) ≤ (2 : ℝ) ^ (F.p + 1) := by
        have : n ≤ 2 ^ (F.p + 1) := le_trans (le_abs_self n) h1.le
        exact_mod_cast this
      calc (n : ℝ) * (2 : ℝ) ^ e ≤ (2 : ℝ) ^ (F.p + 1) * (2 : ℝ) ^ e := mul_le_mul_of_nonneg_right hn (zpow_nonneg (by norm_num) _)
        _ = (2 : ℝ) ^ (e + F.p + 1) := by rw [← zpow_natCast, ← zpow_add₀ (by norm_num)]; congr 1; push_cast; ring
        _ ≤ _ := two_zpow_le (by rw [hE] at h; omega)
    have h4 := F.roundG_near y ((2 : ℤ) ^ F.p)
    have e4 : (((2 : ℤ) ^ F.p : ℤ) : ℝ) * F.ulp y = (2 : ℝ) ^ Int.log 2 y := by
      unfold ulp
      rw [hE]
      push_cast
      rw [← zpow_natCast, ← zpow_add₀ (by norm_num)]
      congr 1
      ring
    rw [e4, abs_sub_comm ((2 : ℝ) ^ Int.log 2 y), abs_of_nonneg (by linarith : 0 ≤ y - (2 : ℝ) ^ Int.log 2 y)] at h4
    rw [abs_sub_comm ((n : ℝ) * (2 : ℝ) ^ e), abs_of_nonneg (by linarith : 0 ≤ y - (n : ℝ) * (2 : ℝ) ^ e)]
    linarith

/-- the rounded number is one of the format unless it is too large -/
theorem roundG_representable {y : ℝ} (hy : 0 ≤ y) (h : F.roundG y < F.big) : F.RepresentableG (F.roundG y) := by
  rcases hy.eq_or_lt with rfl | hpos
  · rw [F.roundG_zero]
    exact ⟨0, F.emin - F.p, by rw [abs_zero]; positivity, by omega, by have := F.range; omega, by simp⟩
  set E := max (Int.log 2 y) F.emin with hE
  have hu : F.ulp y = (2 : ℝ) ^ (E - F.p) := by unfold ulp; rw [← hE]
  have hup := F.ulp_pos y
  have hN0 : 0 ≤ rne (y / F.ulp y) := rne_nonneg (div_nonneg hy hup.le)
  have e1 : (2 : ℝ) ^ (F.p + 1) * F.ulp y = (2 : ℝ) ^ (E + 1) := by
    rw [hu, ← zpow_natCast, ← zpow_add₀ (by norm_num)]; congr 1; push_cast; ring
  have e0 : (2 : ℝ) ^ F.p * F.ulp y = (2 : ℝ) ^ E := by
    rw [hu, ← zpow_natCast, ← zpow_add₀ (by norm_num)]; congr 1; ring
  have hlt : y < (2 : ℝ) ^ (Int.log 2 y + 1) := by
    have := Int.lt_zpow_succ_log_self (b := 2) (by norm_num) y
    exact_mod_cast this
  have hlog : (2 : ℝ) ^ Int.log 2 y ≤ y := by
    have := Int.zpow_log_le_self (b := 2) (r := y) (by norm_num) hpos
    exact_mod_cast this
  have hyE : y / F.ulp y < (2 : ℝ) ^ (F.p + 1) := by
    rw [div_lt_iff₀ hup, e1]
    exact lt_of_lt_of_le hlt (two_zpow_le (by omega))
  have hNle : rne (y / F.ulp y) ≤ 2 ^ (F.p + 1) := by
    have h1 := (abs_le.1 (rne_err (y / F.ulp y))).2
    have h2 : (rne (y / F.ulp y) : ℝ) < (2 : ℝ) ^ (F.p + 1) + 1 := by linarith
    have h3 : rne (y / F.ulp y) < 2 ^ (F.p + 1) + 1 := by exact_mod_cast h2
    omega
  have hround : F.roundG y = (rne (y / F.ulp y) : ℝ) * F.ulp y := rfl
  rcases hNle.eq_or_lt with hN | hN
  · have hv : F.roundG y = (2 : ℝ) ^ (E + 1) := by rw [hround, hN, ← e1]; push_cast; ring
    have hE1 : E + 1 < F.emax + 1 := by
      have : (2 : ℝ) ^ (E + 1) < (2 : ℝ) ^ (F.emax + 1) := by rw [← hv]; exact h
      exact two_zpow_lt.1 this
    refine ⟨2 ^ F.p, E + 1 - F.p, ?_, by omega, by omega, ?_⟩
    · rw [abs_of_nonneg (by positivity), pow_succ]
      have : (0 : ℤ) < 2 ^ F.p := by positivity
      omega
    · rw [hv]
      push_cast
      rw [← zpow_natCast, ← zpow_add₀ (by norm_num)]
      congr 1
      ring
  · refine ⟨rne (y / F.ulp y), E - F.p, by rw [abs_of_nonneg hN0]; exact hN, by omega, ?_, by rw [← hu]; exact hround⟩
    rcases le_total (Int.log 2 y) F.emin with hl | hl
    · have : E = F.emin := max_eq_right hl
      have := F.range
      omega
    · have hEl : E = Int.log 2 y := max_eq_left hl
      have h1 : (2 : ℝ) ^ F.p ≤ y / F.ulp y := by rw [le_div_iff₀ hup, e0, hEl]; exact hlog
      have h2 : (2 : ℝ) ^ F.p - 1 < (rne (y / F.ulp y) : ℝ) := by have := (abs_le.1 (rne_err (y / F.ulp y))).1; linarith
      have h3 : (2 : ℤ) ^ F.p - 1 < rne (y / F.ulp y) := by exact_mod_cast h2
      have h4 : (2 : ℝ) ^ F.p ≤ (rne (y / F.ulp y) : ℝ) := by
        have : (2 : ℤ) ^ F.p ≤ rne (y / F.ulp y) := by omega
        exact_mod_cast this
      have h5 : (2 : ℝ) ^ E < (2 : ℝ) ^ (F.emax + 1) := by
        refine lt_of_le_of_lt ?_ h
        rw [hround, ← e0]
        exact mul_le_mul_of_nonneg_right h4 hup.le
      have := two_zpow_lt.1 h5
      omega


/-! ### Small results -/

/-- normal results are rounded as if there was no smallest exponent, and stay normal -/
theorem roundG_normal {y : ℝ} (hy : (2 : ℝ) ^ F.emin ≤ y) : F.roundG y = rndMag F.p y ∧ (2 : ℝ) ^ F.emin ≤ F.roundG y := by
  have hpos : 0 < y := lt_of_lt_of_le (zpow_pos (by norm_num) _) hy
  have hlog : (2 : ℝ) ^ Int.log 2 y ≤ y := by
    have := Int.zpow_log_le_self (b := 2) (r := y) (by norm_num) hpos
    exact_mod_cast this
  have hlt : y < (2 : ℝ) ^ (Int.log 2 y + 1) := by
    have := Int.lt_zpow_succ_log_self (b := 2) (by norm_num) y
    exact_mod_cast this
  have hl : F.emin ≤ Int.log 2 y := by
    have := two_zpow_lt.1 (lt_of_le_of_lt hy hlt)
    omega
  have hu : F.ulp y = (2 : ℝ) ^ (Int.log 2 y - F.p) := by unfold ulp; rw [max_eq_left hl]
  have hup := F.ulp_pos y
  have e0 : (2 : ℝ) ^ F.p * F.ulp y = (2 : ℝ) ^ Int.log 2 y := by
    rw [hu, ← zpow_natCast, ← zpow_add₀ (by norm_num)]; congr 1; ring
  refine ⟨by unfold roundG rndMag; rw [hu], ?_⟩
  have h1 : (2 : ℝ) ^ F.p ≤ y / F.ulp y := by rw [le_div_iff₀ hup, e0]; exact hlog
  have h2 : (2 : ℝ) ^ F.p - 1 < (rne (y / F.ulp y) : ℝ) := by have := (abs_le.1 (rne_err (y / F.ulp y))).1; linarith
  have h3 : (2 : ℤ) ^ F.p - 1 < rne (y / F.ulp y) := by exact_mod_cast h2
  have h4 : (2 : ℝ) ^ F.p ≤ (rne (y / F.ulp y) : ℝ) := by
    have : (2 : ℤ) ^ F.p ≤ rne (y / F.ulp y) := by omega
    exact_mod_cast this
  unfold roundG
  calc (2 : ℝ) ^ F.emin ≤ (2 : ℝ) ^ Int.log 2 y := two_zpow_le hl
    _ = (2 : ℝ) ^ F.p * F.ulp y := e0.symm
    _ ≤ _ := mul_le_mul_of_nonneg_right h4 hup.le

theorem tiny_lt {y : ℝ} (h : F.tiny y) : F.under ≠ .gradual ∧ y < (2 : ℝ) ^ F.emin := by
  unfold tiny at h
  rcases hu : F.under with _ | _ | _ <;> rw [hu] at h
  · exact h.elim
  · refine ⟨by simp, ?_⟩
    by_contra hc
    have := F.roundG_normal (not_lt.1 hc)
    rw [this.1] at this
    simp only at h
    linarith [this.2]
  · exact ⟨by simp, h⟩

/-- what does not become zero is rounded to a normal number, if small results become zero -/
theorem normal_of_not_tiny {y : ℝ} (hy : 0 ≤ y) (hu : F.under ≠ .gradual) (h : ¬ F.tiny y) : (2 : ℝ) ^ F.emin ≤ F.roundG y := by
  rcases le_or_gt ((2 : ℝ) ^ F.emin) y with hn | hn
  · exact (F.roundG_normal hn).2
  unfold tiny at h
  rcases hm : F.under with _ | _ | _ <;> rw [hm] at h
  · exact absurd hm hu
  · simp only [not_lt] at h
    rcases hy.eq_or_lt with rfl | hpos
    · have : rndMag F.p 0 = 0 := by simp [rndMag, rne]
      rw [this] at h
      exact absurd h (not_le.2 (zpow_pos (by norm_num) _))
    have hlog : (2 : ℝ) ^ Int.log 2 y ≤ y := by
      have := Int.zpow_log_le_self (b := 2) (r := y) (by norm_num) hpos
      exact_mod_cast this
    have hl : Int.log 2 y < F.emin := two_zpow_lt.1 (lt_of_le_of_lt hlog hn)
    -- rounded up to the smallest normal number by less than a quarter of the distance of the subnormal numbers
    have hE : (0 : ℝ) < (2 : ℝ) ^ (Int.log 2 y - F.p) := zpow_pos (by norm_num) _
    have h1 : rndMag F.p y - y ≤ 1 / 2 * (2 : ℝ) ^ (Int.log 2 y - F.p) := by
      have := (abs_le.1 (rne_err (y / (2 : ℝ) ^ (Int.log 2 y - F.p)))).2
      unfold rndMag
      have e : (rne (y / (2 : ℝ) ^ (Int.log 2 y - F.p)) : ℝ) * (2 : ℝ) ^ (Int.log 2 y - F.p) - y =
          ((rne (y / (2 : ℝ) ^ (Int.log 2 y - F.p)) : ℝ) - y / (2 : ℝ) ^ (Int.log 2 y - F.p)) * (2 : ℝ) ^ (Int.log 2 y - F.p) := by field_simp
      rw [e]
      exact mul_le_mul_of_nonneg_right this hE.le
    have hu : F.ulp y = (2 : ℝ) ^ (F.emin - F.p) := by unfold ulp; rw [max_eq_right hl.le]
    have hup := F.ulp_pos y
    have h2 : (2 : ℝ) ^ (Int.log 2 y - F.p) ≤ 1 / 2 * F.ulp y := by
      rw [hu, show (1 / 2 : ℝ) = (2 : ℝ) ^ (-1 : ℤ) by norm_num, ← zpow_add₀ (by norm_num)]
      exact two_zpow_le (by omega)
    have e0 : (2 : ℝ) ^ F.p * F.ulp y = (2 : ℝ) ^ F.emin := by
      rw [hu, ← zpow_natCast, ← zpow_add₀ (by norm_num)]; congr 1; ring
    have h3 : (2 : ℝ) ^ F.p - 1 / 4 ≤ y / F.ulp y := by
      rw [le_div_iff₀ hup, sub_mul, e0]
      linarith
    have h4 : (2 : ℝ) ^ F.p - 1 < (rne (y / F.ulp y) : ℝ) := by have := (abs_le.1 (rne_err (y / F.ulp y))).1; linarith
    have h5 : (2 : ℤ) ^ F.p - 1 < rne (y / F.ulp y) := by exact_mod_cast h4
    have h6 : (2 : ℝ) ^ F.p ≤ (rne (y / F.ulp y) : ℝ) := by
      have : (2 : ℤ) ^ F.p ≤ rne (y / F.ulp y) := by omega
      exact_mod_cast this
    rw [← e0]
    exact mul_le_mul_of_nonneg_right h6 hup.le
  · exact absurd hn h

theorem round_tiny {y : ℝ} (h : F.tiny y) : F.round y = 0 := if_pos h
theorem round_of_not_tiny {y : ℝ} (h : ¬ F.tiny y) : F.round y = F.roundG y := if_neg h
theorem round_gradual (h : F.under = .gradual) (y : ℝ) : F.round y = F.roundG y := F.round_of_not_tiny fun hc => (F.tiny_lt hc).1 h
theorem round_normal {y : ℝ} (hy : (2 : ℝ) ^ F.emin ≤ y) : F.round y = F.roundG y := F.round_of_not_tiny fun hc => absurd (F.tiny_lt hc).2 (not_lt.2 hy)

theorem round_nonneg {y : ℝ} (h : 0 ≤ y) : 0 ≤ F.round y := by
  unfold round
  split
  · exact le_rfl
  · exact F.roundG_nonneg h

theorem round_zero : F.round 0 = 0 := by
  unfold round
  rw [roundG_zero, ite_self]

theorem eta_ge : (2 : ℝ) ^ (F.emin - F.p - 1) ≤ F.eta := by
  unfold eta
  split
  · exact le_rfl
  · exact two_zpow_le (by omega)

theorem round_err {y : ℝ} (hy : 0 ≤ y) : |F.round y - y| ≤ F.u * y + F.eta := by
  by_cases ht : F.tiny y
  · obtain ⟨h1, h2⟩ := F.tiny_lt ht
    rw [F.round_tiny ht, zero_sub, abs_neg, abs_of_nonneg hy]
    unfold eta
    rw [if_neg h1]
    have := mul_nonneg F.u_pos.le hy
    linarith
  · rw [F.round_of_not_tiny ht]
    exact le_trans (F.roundG_err hy) (by linarith [F.eta_ge])

/-- no number of the format is closer to y than `round y`, with gradual underflow -/
theorem round_nearest (hu : F.under = .gradual) {y : ℝ} (hy : 0 ≤ y) {z : ℝ} (hz : F.Representable z) : |F.round y - y| ≤ |z - y| := by
  rw [F.round_gradual hu]
  exact F.roundG_nearest hy hz.1

/-- rounding does not jump over a number of the format -/
theorem round_le {y z : ℝ} (hy : 0 ≤ y) (hz : F.Representable z) (h : y ≤ z) : F.round y ≤ z := by
  unfold round
  split
  · linarith
  · have := F.roundG_nearest hy hz.1
    rw [abs_of_nonneg (by linarith : 0 ≤ z - y)] at this
    linarith [(abs_le.1 this).2]

theorem round_exact {y : ℝ} (hy : 0 ≤ y) (h : F.Representable y) : F.round y = y := by
  by_cases ht : F.tiny y
  · obtain ⟨h1, h2⟩ := F.tiny_lt ht
    rcases h.2 h1 with h3 | h3
    · rw [h3]; exact F.round_zero
    · rw [abs_of_nonneg hy] at h3; linarith
  · rw [F.round_of_not_tiny ht]
    have := F.roundG_nearest hy h.1
    rw [sub_self, abs_zero] at this
    exact sub_eq_zero.1 (abs_eq_zero.1 (le_antisymm this (abs_nonneg _)))

theorem representableG_zero : F.RepresentableG 0 :=
  ⟨0, F.emin - F.p, by rw [abs_zero]; positivity, by omega, by have := F.range; omega, by simp⟩

/-- the rounded number is one of the format unless it is too large -/
theorem round_representable {y : ℝ} (hy : 0 ≤ y) (h : F.round y < F.big) : F.Representable (F.round y) := by
  by_cases ht : F.tiny y
  · rw [F.round_tiny ht]
    exact ⟨F.representableG_zero, fun _ => Or.inl rfl⟩
  · rw [F.round_of_not_tiny ht] at h ⊢
    refine ⟨F.roundG_representable hy h, fun hu => Or.inr ?_⟩
    rw [abs_of_nonneg (F.roundG_nonneg hy)]
    exact F.normal_of_not_tiny hy hu ht

end Format

/-- a value of the format: sign and magnitude of a finite number, infinity with sign, not a number -/
inductive Bin (F : Format) : Type
  | fin (neg : Bool) (mag : NNReal)
  | inf (neg : Bool)
  | nan

namespace Bin
variable {F : Format}

/-- neither infinite nor NaN -/
def Finite : Bin F → Prop
  | fin _ _ => True
  | _ => False

/-- the number represented (0 for infinities and NaN) -/
noncomputable def real : Bin F → ℝ
  | fin s x => if s then -(x : ℝ) else x
  | _ => 0

/-- the real number x rounded to the format; `nz` is the sign of the result if x is exactly 0 (IEEE 754-2019, 4.3.1, 6.3, 7.4, 7.5) -/
noncomputable def mk (F : Format) (nz : Bool) (x : ℝ) : Bin F :=
  if F.big ≤ F.round |x| then inf (decide (x < 0)) else fin (if x = 0 then nz else decide (x < 0)) ⟨F.round |x|, F.round_nonneg (abs_nonneg x)⟩

/-- - a -/
def neg : Bin F → Bin F
  | fin s x => fin (!s) x
  | inf s => inf (!s)
  | nan => nan

/-- a + b: rounded; opposite infinities give NaN -/
noncomputable def add : Bin F → Bin F → Bin F
  | fin s x, fin t y => mk F (s && t) (real (fin s x : Bin F) + real (fin t y : Bin F))
  | fin _ _, inf t => inf t
  | inf s, fin _ _ => inf s
  | inf s, inf t => if s = t then inf s else nan
  | nan, _ => nan
  | _, nan => nan

/-- a - b -/
noncomputable def sub (a b : Bin F) : Bin F := add a (neg b)

/-- a * b: rounded; 0 times infinity gives NaN -/
noncomputable def mul : Bin F → Bin F → Bin F
  | fin s x, fin t y => mk F (s != t) (real (fin s x : Bin F) * real (fin t y : Bin F))
  | fin s x, inf t => if x = 0 then nan else inf (s != t)
  | inf s, fin t y => if y = 0 then nan else inf (s != t)
  | inf s, inf t => inf (s != t)
  | nan, _ => nan
  | _, nan => nan

/-- a / b: rounded; 0/0 and inf/inf give NaN, a non-zero number divided by zero gives infinity -/
noncomputable def div : Bin F → Bin F → Bin F
  | fin s x, fin t y => if y = 0 then (if x = 0 then nan else inf (s != t)) else mk F (s != t) (real (fin s x : Bin F) / real (fin t y : Bin F))
  | fin s _, inf t => fin (s != t) 0
  | inf s, fin t _ => inf (s != t)
  | inf _, inf _ => nan
  | nan, _ => nan
  | _, nan => nan

/-- the square root of -0 is -0 -/
noncomputable def sqrt : Bin F → Bin F
  | fin s x => if x = 0 then fin s 0 else if s then nan else mk F false (Real.sqrt x)
  | inf false => inf false
  | inf true => nan
  | nan => nan

/-- a b + c with one rounding; an infinite product and an infinite c of opposite sign give NaN -/
noncomputable def fma : Bin F → Bin F → Bin F → Bin F
  | fin s x, fin t y, fin r z => mk F ((s != t) && r) (real (fin s x : Bin F) * real (fin t y : Bin F) + real (fin r z : Bin F))
  | fin _ _, fin _ _, inf r => inf r
  | fin _ _, fin _ _, nan => nan
  | a, b, c => add (mul a b) c

/-- c - a b with one rounding -/
noncomputable def fnma (a b c : Bin F) : Bin F := fma (neg a) b c

/-- |a| -/
def abs : Bin F → Bin F
  | fin _ x => fin false x
  | inf _ => inf false
  | nan => nan

/-- a > b; false if one of them is not a number; the zeros are equal -/
noncomputable def gt : Bin F → Bin F → Bool
  | fin s x, fin t y => decide (real (fin t y : Bin F) < real (fin s x : Bin F))
  | fin _ _, inf t => t
  | inf s, fin _ _ => !s
  | inf s, inf t => !s && t
  | nan, _ => false
  | _, nan => false

/-- a == b; false if one of them is not a number; the zeros are equal -/
noncomputable def eq : Bin F → Bin F → Bool
  | fin s x, fin t y => decide (real (fin s x : Bin F) = real (fin t y : Bin F))
  | inf s, inf t => s == t
  | _, _ => false

/-- the Arith structure -/
noncomputable instance : Arith (Bin F) where
  zero := fin false 0
  one := fin false 1
  add := add
  sub := sub
  mul := mul
  div := div
  neg := neg
  sqrt := sqrt
  fma := fma
  fnma := fnma
  abs := abs
  gt := gt
  eq := eq

/-! ### Properties of the operations -/

theorem real_mk {nz : Bool} {x : ℝ} (h : (mk F nz x).Finite) : (mk F nz x).real = if x < 0 then -F.round |x| else F.round |x| := by
  unfold mk at h ⊢
  split
  · rename_i hb
    rw [if_pos hb] at h
    exact h.elim
  · by_cases h0 : x = 0
    · subst h0
      have e0 : F.round 0 = 0 := F.round_zero
      cases nz <;> simp [real, e0] <;> rfl
    · by_cases hl : x < 0 <;> simp [real, h0, hl] <;> rfl

/-- a finite result differs from the exact one by at most a relative error u and half of the smallest positive number -/
theorem mk_err {nz : Bool} {x : ℝ} (h : (mk F nz x).Finite) : |(mk F nz x).real - x| ≤ F.u * |x| + F.eta := by
  rw [real_mk h]
  have := F.round_err (abs_nonneg x)
  split
  · rename_i hl
    rw [abs_of_neg hl] at this ⊢
    rw [show -F.round (-x) - x = -(F.round (-x) - -x) by ring, abs_neg]
    exact this
  · rename_i hl
    rw [abs_of_nonneg (not_lt.1 hl)] at this ⊢
    exact this

/-- no overflow below the end of the range -/
theorem mk_finite {nz : Bool} {x : ℝ} (h : (1 + F.u) * |x| + F.eta < F.big) : (mk F nz x).Finite := by
  unfold mk
  have := (abs_le.1 (F.round_err (abs_nonneg x))).2
  rw [if_neg (by linarith)]
  exact trivial

theorem Format.Representable.neg {x : ℝ} (h : F.Representable x) : F.Representable (-x) := by
  obtain ⟨⟨n, e, h1, h2, h3, rfl⟩, h4⟩ := h
  exact ⟨⟨-n, e, by rw [abs_neg]; exact h1, h2, h3, by push_cast; ring⟩, fun hu => by rw [abs_neg, neg_eq_zero]; exact h4 hu⟩

theorem Format.Representable.lt_big {x : ℝ} (h : F.Representable x) : |x| < F.big := by
  obtain ⟨⟨n, e, h1, h2, h3, rfl⟩, -⟩ := h
  have hn : |(n : ℝ)| < (2 : ℝ) ^ (F.p + 1) := by exact_mod_cast h1
  have h0 : (0 : ℝ) < (2 : ℝ) ^ e := zpow_pos (by norm_num) _
  rw [abs_mul, abs_of_pos h0]
  calc |(n : ℝ)| * (2 : ℝ) ^ e < (2 : ℝ) ^ (F.p + 1) * (2 : ℝ) ^ e := by gcongr
    _ = (2 : ℝ) ^ (e + F.p + 1) := by rw [← zpow_natCast, ← zpow_add₀ (by norm_num)]; congr 1; push_cast; ring
    _ ≤ _ := Format.two_zpow_le (by omega)

/-- every finite result is a number of the format -/
theorem mk_representable {nz : Bool} {x : ℝ} (h : (mk F nz x).Finite) : F.Representable (mk F nz x).real := by
  rw [real_mk h]
  have hb : F.round |x| < F.big := by
    by_contra hb
    unfold mk at h
    rw [if_pos (not_lt.1 hb)] at h
    exact h
  have := F.round_representable (abs_nonneg x) hb
  split
  · exact Format.Representable.neg this
  · exact this

/-- a finite result is a nearest number of the format, with gradual underflow -/
theorem mk_nearest (hu : F.under = .gradual) {nz : Bool} {x : ℝ} (h : (mk F nz x).Finite) {z : ℝ} (hz : F.Representable z) : |(mk F nz x).real - x| ≤ |z - x| := by
  rw [real_mk h]
  split
  · rename_i hl
    rw [abs_of_neg hl, show -F.round (-x) - x = -(F.round (-x) - -x) by ring, abs_neg, show z - x = -(-z - -x) by ring, abs_neg]
    exact F.round_nearest hu (by linarith) (Format.Representable.neg hz)
  · rename_i hl
    rw [abs_of_nonneg (not_lt.1 hl)]
    exact F.round_nearest hu (not_lt.1 hl) hz

/-- a number of the format is the result of its own rounding -/
theorem mk_exact {nz : Bool} {x : ℝ} (h : F.Representable x) : (mk F nz x).Finite ∧ (mk F nz x).real = x := by
  have ha : F.Representable |x| := by
    rcases abs_choice x with e | e
    · rw [e]; exact h
    · rw [e]; exact Format.Representable.neg h
  have e : F.round |x| = |x| := F.round_exact (abs_nonneg x) ha
  have hf : (mk F nz x).Finite := by
    unfold mk
    rw [if_neg (by rw [e]; exact not_le.2 (Format.Representable.lt_big h))]
    exact trivial
  refine ⟨hf, ?_⟩
  rw [real_mk hf, e]
  split
  · rename_i hl; rw [abs_of_neg hl, neg_neg]
  · rename_i hl; exact abs_of_nonneg (not_lt.1 hl)

theorem real_neg (a : Bin F) : (neg a).real = -a.real := by
  rcases a with ⟨_ | _, x⟩ | _ | _ <;> simp [neg, real]

theorem finite_neg (a : Bin F) : (neg a).Finite ↔ a.Finite := by
  rcases a with ⟨_, x⟩ | _ | _ <;> simp [neg, Finite]

theorem add_inv {a b : Bin F} (h : (add a b).Finite) : a.Finite ∧ b.Finite ∧ |(add a b).real - (a.real + b.real)| ≤ F.u * |a.real + b.real| + F.eta := by
  rcases a with ⟨s, x⟩ | s | _ <;> rcases b with ⟨t, y⟩ | t | _
  · exact ⟨trivial, trivial, mk_err h⟩
  · exact h.elim
  · exact h.elim
  · exact h.elim
  · simp only [add] at h
    split at h <;> exact h.elim
  · exact h.elim
  · exact h.elim
  · exact h.elim
  · exact h.elim

theorem sub_inv {a b : Bin F} (h : (sub a b).Finite) : a.Finite ∧ b.Finite ∧ |(sub a b).real - (a.real - b.real)| ≤ F.u * |a.real - b.real| + F.eta := by
  obtain ⟨h1, h2, h3⟩ := add_inv h
  rw [real_neg, ← sub_eq_add_neg] at h3
  exact ⟨h1, (finite_neg b).1 h2, h3⟩

theorem mul_inv {a b : Bin F} (h : (mul a b).Finite) : a.Finite ∧ b.Finite ∧ |(mul a b).real - a.real * b.real| ≤ F.u * |a.real * b.real| + F.eta := by
  rcases a with ⟨s, x⟩ | s | _ <;> rcases b with ⟨t, y⟩ | t | _
  · exact ⟨trivial, trivial, mk_err h⟩
  · simp only [mul] at h
    split at h <;> exact h.elim
  · exact h.elim
  · simp only [mul] at h
    split at h <;> exact h.elim
  · exact h.elim
  · exact h.elim
  · exact h.elim
  · exact h.elim
  · exact h.elim

theorem mul_finite {a b : Bin F} (ha : a.Finite) (hb : b.Finite) (h : (1 + F.u) * |a.real * b.real| + F.eta < F.big) : (mul a b).Finite := by
  rcases a with ⟨s, x⟩ | s | _
  · rcases b with ⟨t, y⟩ | t | _
    · exact mk_finite h
    · exact hb.elim
    · exact hb.elim
  · exact ha.elim
  · exact ha.elim

theorem real_eq_zero (s : Bool) (x : NNReal) : (fin s x : Bin F).real = 0 ↔ x = 0 := by cases s <;> simp [real]

/-- a quotient of finite numbers -/
theorem div_inv {a b : Bin F} (hb : b.Finite) (h : (div a b).Finite) :
    a.Finite ∧ b.real ≠ 0 ∧ |(div a b).real - a.real / b.real| ≤ F.u * |a.real / b.real| + F.eta := by
  rcases b with ⟨t, y⟩ | t | _
  · rcases a with ⟨s, x⟩ | s | _
    · simp only [div] at h ⊢
      by_cases hy : y = 0
      · rw [if_pos hy] at h
        split at h <;> exact h.elim
      · rw [if_neg hy] at h ⊢
        exact ⟨trivial, fun e => hy ((real_eq_zero t y).1 e), mk_err h⟩
    · exact h.elim
    · exact h.elim
  · exact hb.elim
  · exact hb.elim

theorem sqrt_inv {a : Bin F} (h : (sqrt a).Finite) : a.Finite ∧ 0 ≤ a.real ∧ |(sqrt a).real - Real.sqrt a.real| ≤ F.u * Real.sqrt a.real + F.eta := by
  rcases a with ⟨s, x⟩ | _ | _
  · simp only [sqrt] at h ⊢
    by_cases hx : x = 0
    · rw [if_pos hx]
      subst hx
      have := F.eta_pos
      cases s <;> simp [real, Finite, this.le]
    · rw [if_neg hx] at h ⊢
      cases s
      · simp only [Bool.false_eq_true, if_false] at h ⊢
        have := mk_err h
        rw [abs_of_nonneg (Real.sqrt_nonneg _)] at this
        exact ⟨trivial, by simp [real], by simpa [real] using this⟩
      · exact h.elim
  · rename_i s; cases s <;> exact h.elim
  · exact h.elim

theorem fma_inv {a b c : Bin F} (h : (fma a b c).Finite) :
    a.Finite ∧ b.Finite ∧ c.Finite ∧ |(fma a b c).real - (a.real * b.real + c.real)| ≤ F.u * |a.real * b.real + c.real| + F.eta := by
  rcases a with ⟨s, x⟩ | s | _
  · rcases b with ⟨t, y⟩ | t | _
    · rcases c with ⟨r, z⟩ | r | _
      · exact ⟨trivial, trivial, trivial, mk_err h⟩
      · exact h.elim
      · exact h.elim
    · exact ((mul_inv (add_inv h).1).2.1).elim
    · rcases c with _ | _ | _ <;> exact h.elim
  · exact ((mul_inv (add_inv h).1).1).elim
  · rcases b with _ | _ | _ <;> rcases c with _ | _ | _ <;> exact h.elim

theorem fma_finite {a b c : Bin F} (ha : a.Finite) (hb : b.Finite) (hc : c.Finite) (h : (1 + F.u) * |a.real * b.real + c.real| + F.eta < F.big) :
    (fma a b c).Finite := by
  rcases a with ⟨s, x⟩ | s | _
  · rcases b with ⟨t, y⟩ | t | _
    · rcases c with ⟨r, z⟩ | r | _
      · exact mk_finite h
      · exact hc.elim
      · exact hc.elim
    · exact hb.elim
    · exact hb.elim
  · exact ha.elim
  · exact ha.elim

theorem fnma_inv {a b c : Bin F} (h : (fnma a b c).Finite) :
    a.Finite ∧ b.Finite ∧ c.Finite ∧ |(fnma a b c).real - (c.real - a.real * b.real)| ≤ F.u * |c.real - a.real * b.real| + F.eta := by
  obtain ⟨h1, h2, h3, h4⟩ := fma_inv h
  rw [real_neg] at h4
  refine ⟨(finite_neg a).1 h1, h2, h3, ?_⟩
  rw [show c.real - a.real * b.real = -a.real * b.real + c.real by ring]
  exact h4

end Bin
end Blast
