import Verif.BinaryLuFinite
import Verif.Props.BinarySolve
/-
Substitution in a binary format, forwards: no overflow and a bound of the solution.
-/
set_option linter.unusedSectionVars false
namespace Blast
open Finset Reg
variable {F : Format}
namespace Bin

theorem mul_fwd {a b : Bin F} (ha : a.Finite) (hb : b.Finite) {B : ℝ} (h : |a.real * b.real| ≤ B) (hB : (1 + F.u) * B + F.eta < F.big) :
    (mul a b).Finite ∧ |(mul a b).real| ≤ (1 + F.u) * B + F.eta := by
  have hu := F.u_pos
  have hf : (mul a b).Finite := mul_finite ha hb (lt_of_le_of_lt (add_le_add (mul_le_mul_of_nonneg_left h (by linarith)) le_rfl) hB)
  exact ⟨hf, le_of_err hu.le (mul_inv hf).2.2 h⟩

theorem div_fwd {x y : Bin F} (hx : x.Finite) (hy : y.Finite) {B δ : ℝ} (hδ : 0 < δ) (hyd : δ ≤ |y.real|) (h : |x.real| ≤ B)
    (hB : (1 + F.u) * (B / δ) + F.eta < F.big) : (div x y).Finite ∧ |(div x y).real| ≤ (1 + F.u) * (B / δ) + F.eta := by
  have hu := F.u_pos
  have hq : |x.real / y.real| ≤ B / δ := by
    rw [abs_div]
    exact div_le_div₀ (le_trans (abs_nonneg _) h) h hδ hyd
  have hf : (div x y).Finite := by
    rcases x with ⟨s, x⟩ | _ | _
    · rcases y with ⟨t, y⟩ | _ | _
      · have hne : y ≠ 0 := fun e => by
          rw [(real_eq_zero t y).2 e, abs_zero] at hyd
          linarith
        simp only [div]
        rw [if_neg hne]
        refine mk_finite (lt_of_le_of_lt (add_le_add (mul_le_mul_of_nonneg_left hq (by linarith)) le_rfl) hB)
      · exact hy.elim
      · exact hy.elim
    · exact hx.elim
    · exact hx.elim
  exact ⟨hf, le_of_err hu.le (div_inv hy hf).2.2 hq⟩

/-- the sum of one row -/
theorem subFold_grow {a x : Nat → Bin F} {b : Bin F} {α β : ℝ} {X : Nat → ℝ} {lo n : Nat} (hα : 0 ≤ α) (hb : b.Finite ∧ |b.real| ≤ β)
    (ha : ∀ q, q < n → (a (lo + q)).Finite ∧ |(a (lo + q)).real| ≤ α) (hx : ∀ q, q < n → (x (lo + q)).Finite ∧ |(x (lo + q)).real| ≤ X q)
    {M : ℝ} (hM : M < F.big) (hle : (1 + F.u) ^ (2 * n) * (β + ∑ q ∈ range n, (α * X q + 2 * F.eta)) ≤ M) (t : Nat) (ht : t ≤ n) :
    (subFold (fun q => Arith.mul (a q) (x q)) b lo t).Finite ∧
      |(subFold (fun q => Arith.mul (a q) (x q)) b lo t).real| ≤ (1 + F.u) ^ (2 * t) * (β + ∑ q ∈ range t, (α * X q + 2 * F.eta)) := by
  have hu := F.u_pos
  have he := F.eta_pos
  have hX : ∀ q, q < n → 0 ≤ X q := fun q hq => le_trans (abs_nonneg _) (hx q hq).2
  have hβ : 0 ≤ β := le_trans (abs_nonneg _) hb.2
  have hQ : ∀ t, t ≤ n → 0 ≤ ∑ q ∈ range t, (α * X q + 2 * F.eta) := fun t ht =>
    sum_nonneg fun q hq => by
      have := mul_nonneg hα (hX q (by have := mem_range.1 hq; omega))
      linarith
  induction t with
  | zero =>
    rw [Nat.mul_zero, pow_zero, one_mul, sum_range_zero, add_zero]
    exact hb
  | succ t ih =>
    obtain ⟨i1, i2⟩ := ih (by omega)
    obtain ⟨a1, a2⟩ := ha t (by omega)
    obtain ⟨x1, x2⟩ := hx t (by omega)
    have hXt := hX t (by omega)
    have hbnd : (1 + F.u) ^ (2 * (t + 1)) * (β + ∑ q ∈ range (t + 1), (α * X q + 2 * F.eta)) ≤ M := by
      refine le_trans (mul_le_mul ?_ ?_ (by have := hQ (t + 1) ht; linarith) (by positivity)) hle
      · exact pow_le_pow_right₀ (by linarith) (by omega)
      · refine add_le_add le_rfl (sum_le_sum_of_subset_of_nonneg ?_ ?_)
        · intro q hq; rw [mem_range] at *; omega
        · intro q hq _
          have := mul_nonneg hα (hX q (mem_range.1 hq))
          linarith
    have hQt := hQ t (by omega)
    rw [sum_range_succ, show 2 * (t + 1) = 2 * t + 2 by ring, pow_add] at hbnd ⊢
    have hg1 : 1 ≤ (1 + F.u) ^ (2 * t) := one_le_pow₀ (by linarith)
    set g := (1 + F.u) ^ (2 * t)
    set Q := ∑ q ∈ range t, (α * X q + 2 * F.eta)
    have hp0 : 0 ≤ α * X t := mul_nonneg hα hXt
    set P := α * X t
    -- the bounds of the product and of the difference
    have k1 : (1 + F.u) * (g * (β + Q) + ((1 + F.u) * P + F.eta)) + F.eta ≤ g * (1 + F.u) ^ 2 * (β + (Q + (P + 2 * F.eta))) := by
      have q1 : (1 + F.u) * (g * (β + Q)) ≤ g * (1 + F.u) ^ 2 * (β + Q) := by
        have : (1 + F.u) * 1 ≤ (1 + F.u) * (1 + F.u) := mul_le_mul_of_nonneg_left (by linarith) (by linarith)
        have := mul_le_mul_of_nonneg_left this (show 0 ≤ g * (β + Q) from mul_nonneg (by linarith) (by linarith))
        nlinarith
      have q2 : (1 + F.u) ^ 2 * P ≤ g * (1 + F.u) ^ 2 * P := by
        have := mul_le_mul_of_nonneg_right hg1 (show 0 ≤ (1 + F.u) ^ 2 * P by positivity)
        linarith
      have q3 : (1 + F.u) * F.eta + F.eta ≤ g * (1 + F.u) ^ 2 * (2 * F.eta) := by
        have h1 : 1 + F.u ≤ (1 + F.u) ^ 2 := by nlinarith
        have h2 : (1 + F.u) ^ 2 ≤ g * (1 + F.u) ^ 2 := by
          have := mul_le_mul_of_nonneg_right hg1 (show 0 ≤ (1 + F.u) ^ 2 by positivity)
          linarith
        have h3 : (1 + F.u) * F.eta ≤ g * (1 + F.u) ^ 2 * F.eta := mul_le_mul_of_nonneg_right (by linarith) he.le
        have h4 : 1 * F.eta ≤ g * (1 + F.u) ^ 2 * F.eta := mul_le_mul_of_nonneg_right (by linarith) he.le
        linarith
      nlinarith
    have k0 : 0 ≤ g * (β + Q) := mul_nonneg (by linarith) (by linarith)
    have hprod : |(a (lo + t)).real * (x (lo + t)).real| ≤ P := by
      rw [abs_mul]
      exact mul_le_mul a2 x2 (abs_nonneg _) hα
    obtain ⟨m1, m2⟩ := mul_fwd a1 x1 hprod (by
      have : (1 + F.u) * P + F.eta ≤ (1 + F.u) * (g * (β + Q) + ((1 + F.u) * P + F.eta)) := by
        have h1 : 1 * ((1 + F.u) * P + F.eta) ≤ (1 + F.u) * ((1 + F.u) * P + F.eta) := mul_le_mul_of_nonneg_right (by linarith) (by positivity)
        have h2 : 0 ≤ (1 + F.u) * (g * (β + Q)) := mul_nonneg (by linarith) k0
        linarith
      linarith)
    have hd := abs_sub (subFold (fun q => Arith.mul (a q) (x q)) b lo t).real (mul (a (lo + t)) (x (lo + t))).real
    obtain ⟨s1, s2⟩ := sub_fwd i1 m1 (B := g * (β + Q) + ((1 + F.u) * P + F.eta)) (by linarith) (by linarith)
    exact ⟨s1, le_trans s2 k1⟩

/-- substitution does not overflow, if the growth is bounded -/
theorem trsmRec_fwd {uplo : UpLo} {unit : Bool} {n : Nat} {a : Nat → Nat → Bin F} {b x : Nat → Bin F} (h : TrsmRec uplo unit n a b x) {α β δ C W : ℝ}
    (hα : 0 ≤ α) (hδ : 0 < δ) (hun : unit = true → δ = 1)
    (ha : ∀ i k, i < n → k < n → k ≠ i → TriRef uplo unit i k → (a i k).Finite ∧ |(a i k).real| ≤ α)
    (hd : unit = false → ∀ i, i < n → (a i i).Finite ∧ δ ≤ |(a i i).real|) (hb : ∀ i, i < n → (b i).Finite ∧ |(b i).real| ≤ β) (hβ : 0 ≤ β)
    (hC : C = (1 + F.u) ^ (2 * n + 1) / δ) (hWe : W = C * (β + (2 * n + δ) * F.eta) * (1 + C * α) ^ n)
    (h1 : W < F.big) (h2 : δ * W < F.big) : ∀ i, i < n → (x i).Finite ∧ |(x i).real| ≤ W := by
  have hu := F.u_pos
  have he := F.eta_pos
  have hC0 : 0 < C := by rw [hC]; positivity
  have hCd : C * δ = (1 + F.u) ^ (2 * n + 1) := by rw [hC]; field_simp
  set β' := β + (2 * n + δ) * F.eta with hβ'
  have hβ0 : 0 ≤ β' := by positivity
  have hr1 : 1 ≤ 1 + C * α := by have := mul_nonneg hC0.le hα; linarith
  set ρ := 1 + C * α with hρ
  have geo : ∀ d, ∑ q ∈ range d, α * (C * β' * ρ ^ q) = β' * ρ ^ d - β' := by
    intro d
    induction d with
    | zero => simp
    | succ d ih => rw [sum_range_succ, ih, pow_succ]; nth_rewrite 3 [hρ]; ring
  have hWd : ∀ d, d ≤ n → C * β' * ρ ^ d ≤ W := fun d hdn => by
    rw [hWe]
    exact mul_le_mul_of_nonneg_left (pow_le_pow_right₀ hr1 hdn) (by positivity)
  have hZd : ∀ d, d ≤ n → (1 + F.u) ^ (2 * n + 1) * (β' * ρ ^ d) ≤ δ * W := fun d hdn => by
    have := mul_le_mul_of_nonneg_left (hWd d hdn) hδ.le
    rw [← hCd]
    linarith
  -- one row of depth d
  have row : ∀ i lo d (X : Nat → ℝ), i < n → d < n → solveLo uplo i = lo → solveHi uplo n i - solveLo uplo i = d →
      (∀ q, q < d → (x (lo + q)).Finite ∧ |(x (lo + q)).real| ≤ X q) → ∑ q ∈ range d, α * X q = β' * ρ ^ d - β' →
      (x i).Finite ∧ |(x i).real| ≤ C * β' * ρ ^ d := by
    intro i lo d X hi hdn hlo hcnt hX hsum
    have hx := h i hi
    rw [hlo] at hcnt
    dsimp only at hx
    rw [hlo, hcnt] at hx
    have href : ∀ q, q < d → lo + q < n ∧ lo + q ≠ i ∧ TriRef uplo unit i (lo + q) := by
      intro q hq
      cases uplo with
      | lower =>
        simp only [solveHi, solveLo] at hlo hcnt
        exact ⟨by omega, by omega, Or.inr (Or.inl ⟨rfl, by omega⟩)⟩
      | upper =>
        simp only [solveHi, solveLo] at hlo hcnt
        exact ⟨by omega, by omega, Or.inr (Or.inr ⟨rfl, by omega⟩)⟩
    have hdn' : (d : ℝ) ≤ n := by exact_mod_cast hdn.le
    have hQ : β + ∑ q ∈ range d, (α * X q + 2 * F.eta) ≤ β' * ρ ^ d - δ * F.eta := by
      rw [sum_add_distrib, hsum, sum_const, card_range, nsmul_eq_mul]
      have : (d : ℝ) * (2 * F.eta) ≤ n * (2 * F.eta) := mul_le_mul_of_nonneg_right hdn' (by linarith)
      rw [hβ'] at *
      nlinarith
    have hS0 : (1 + F.u) ^ (2 * d) * (β + ∑ q ∈ range d, (α * X q + 2 * F.eta)) ≤ (1 + F.u) ^ (2 * n) * (β' * ρ ^ d - δ * F.eta) := by
      refine mul_le_mul (pow_le_pow_right₀ (by linarith) (by omega)) hQ (add_nonneg hβ (sum_nonneg fun q hq => ?_)) (by positivity)
      have := mul_nonneg hα (le_trans (abs_nonneg _) (hX q (mem_range.1 hq)).2)
      linarith
    have hg : (1 + F.u) ^ (2 * n) ≤ (1 + F.u) ^ (2 * n + 1) := pow_le_pow_right₀ (by linarith) (by omega)
    have hP : 0 ≤ β' * ρ ^ d := by positivity
    have hM : (1 + F.u) ^ (2 * n) * (β' * ρ ^ d - δ * F.eta) < F.big := by
      refine lt_of_le_of_lt ?_ h2
      refine le_trans ?_ (hZd d hdn.le)
      have e1 : 0 ≤ δ * F.eta := by positivity
      refine le_trans (mul_le_mul_of_nonneg_left (show β' * ρ ^ d - δ * F.eta ≤ β' * ρ ^ d by linarith) (by positivity)) ?_
      exact mul_le_mul_of_nonneg_right hg hP
    obtain ⟨f1, f2⟩ := subFold_grow (a := a i) (x := x) (lo := lo) (n := d) hα (hb i hi)
      (fun q hq => ha i (lo + q) hi (href q hq).1 (href q hq).2.1 (href q hq).2.2) hX hM hS0 d le_rfl
    have f3 := le_trans f2 hS0
    cases unit with
    | true =>
      rw [if_pos rfl] at hx
      rw [hx]
      have hd1 := hun rfl
      refine ⟨f1, le_trans f3 ?_⟩
      rw [hd1, mul_one] at hCd
      rw [hCd, hd1, mul_assoc]
      have e1 : (0 : ℝ) ≤ 1 * F.eta := by linarith
      refine le_trans (mul_le_mul_of_nonneg_left (show β' * ρ ^ d - 1 * F.eta ≤ β' * ρ ^ d by linarith) (by positivity)) ?_
      exact mul_le_mul_of_nonneg_right hg hP
    | false =>
      rw [if_neg (by simp)] at hx
      rw [hx]
      obtain ⟨d1, d2⟩ := hd rfl i hi
      have hfin : (1 + F.u) * ((1 + F.u) ^ (2 * n) * (β' * ρ ^ d - δ * F.eta) / δ) + F.eta ≤ C * β' * ρ ^ d := by
        have e1 : (1 + F.u) * ((1 + F.u) ^ (2 * n) * (β' * ρ ^ d - δ * F.eta) / δ) = C * β' * ρ ^ d - (1 + F.u) ^ (2 * n + 1) * F.eta := by
          rw [hC, pow_succ]
          field_simp
        have e2 : 1 * F.eta ≤ (1 + F.u) ^ (2 * n + 1) * F.eta := mul_le_mul_of_nonneg_right (one_le_pow₀ (by linarith)) he.le
        linarith
      obtain ⟨k1, k2⟩ := div_fwd f1 d1 hδ d2 f3 (lt_of_le_of_lt hfin (lt_of_le_of_lt (hWd d hdn.le) h1))
      exact ⟨k1, le_trans k2 hfin⟩
  cases uplo with
  | lower =>
    have all : ∀ i, i < n → (x i).Finite ∧ |(x i).real| ≤ C * β' * ρ ^ i := by
      intro i
      induction i using Nat.strong_induction_on with
      | _ i ih =>
        intro hi
        exact row i 0 i (fun q => C * β' * ρ ^ q) hi hi rfl rfl (fun q hq => by rw [Nat.zero_add]; exact ih q hq (by omega)) (geo i)
    exact fun i hi => ⟨(all i hi).1, le_trans (all i hi).2 (hWd i hi.le)⟩
  | upper =>
    have all : ∀ d i, i < n → n - 1 - i = d → (x i).Finite ∧ |(x i).real| ≤ C * β' * ρ ^ d := by
      intro d
      induction d using Nat.strong_induction_on with
      | _ d ih =>
        intro i hi hd
        refine row i (i + 1) d (fun q => C * β' * ρ ^ (d - 1 - q)) hi (by omega) rfl (by simp only [solveHi, solveLo]; omega)
          (fun q hq => ih (d - 1 - q) (by omega) (i + 1 + q) (by omega) (by omega)) ?_
        rw [← geo d]
        exact sum_range_reflect (fun q => α * (C * β' * ρ ^ q)) d
    exact fun i hi => ⟨(all _ i hi rfl).1, le_trans (all _ i hi rfl).2 (hWd _ (by omega))⟩

end Bin
end Blast
