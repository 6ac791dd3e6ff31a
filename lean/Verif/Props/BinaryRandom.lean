import Verif.Props.BinaryCholesky
import Verif.Props.PanelRandom
import Verif.Determined
import Verif.Props.History
/-
**C91**: makePositiveDefinite in IEEE 754 arithmetic.  With numbers drawn from [-1, 1] the matrix is finite, close to R R^T + N I, and
robustly positive definite, so that potrf of it succeeds with finite factors.
-/
namespace Blast
open Prog Finset Bin
variable {F : Format}

theorem eta_le_u (hW : F.Wide) : F.eta ≤ F.u * F.u / 2 := by
  have h1 : F.eta ≤ (2 : ℝ) ^ F.emin := by
    unfold Format.eta
    split
    · exact Format.two_zpow_le (by omega)
    · exact le_rfl
  have h2 : F.u * F.u / 2 = (2 : ℝ) ^ (-(2 * F.p + 3 : ℤ)) := by
    have : F.u = (2 : ℝ) ^ (-(F.p + 1 : ℤ)) := by
      unfold Format.u
      rw [zpow_neg, one_div, inv_pow]
      norm_cast
    rw [this, ← zpow_add₀ (by norm_num), show (2 : ℝ) ^ (-(F.p + 1 : ℤ) + -(F.p + 1 : ℤ)) / 2 = (2 : ℝ) ^ (-(F.p + 1 : ℤ) + -(F.p + 1 : ℤ) - 1) by
      rw [zpow_sub₀ (by norm_num) _ 1, zpow_one]]
    congr 1
    ring
  rw [h2]
  exact le_trans h1 (Format.two_zpow_le (by have := hW.1; omega))

/-- powers of 1/(1-u) are linear as long as the exponent is small against 1/u -/
theorem pow_inv_le {v : ℝ} {k : Nat} (hv : 0 ≤ v) (h : k * v ≤ 1 / 2) (h1 : v ≤ 1 / 2) : (1 / (1 - v)) ^ k ≤ 1 + 2 * (k * v) := by
  have hb : 1 - k * v ≤ (1 - v) ^ k := by
    have := one_add_mul_le_pow (a := -v) (by linarith) k
    have e : 1 + (k : ℝ) * -v = 1 - k * v := by ring
    rw [e, ← sub_eq_add_neg] at this
    exact this
  rw [one_div, inv_pow]
  have hp : 0 < 1 - k * v := by linarith
  have hkv : 0 ≤ k * v := by positivity
  calc ((1 - v) ^ k)⁻¹ ≤ (1 - k * v)⁻¹ := inv_anti₀ hp hb
    _ ≤ 1 + 2 * (k * v) := by
      rw [inv_le_iff_one_le_mul₀ hp]
      nlinarith

theorem pow_one_le {v : ℝ} {k : Nat} (hv : 0 ≤ v) (h : k * v ≤ 1 / 2) (h1 : v ≤ 1 / 2) : (1 + v) ^ k ≤ 1 + 2 * (k * v) := by
  refine le_trans (pow_le_pow_left₀ (by linarith) ?_ k) (pow_inv_le hv h h1)
  rw [le_div_iff₀ (by linarith)]
  nlinarith

/-- the inner products of a reference gemm on numbers of modulus at most 1 -/
theorem addFold_fwd (hW : F.Wide) {x y : Nat → Bin F} {n : Nat} (hn : 128 * ((n : ℝ) + 4) ^ 2 * F.u ≤ 1) (hbig : 16 * ((n : ℝ) + 1) ≤ F.big)
    (hx : ∀ k, k < n → (x k).Finite ∧ |(x k).real| ≤ 1) (hy : ∀ k, k < n → (y k).Finite ∧ |(y k).real| ≤ 1) (k : Nat) (hk : k ≤ n) :
    (addFold (fun q => Arith.mul (x q) (y q)) (Arith.zero : Bin F) 0 k).Finite ∧
      |(addFold (fun q => Arith.mul (x q) (y q)) (Arith.zero : Bin F) 0 k).real - ∑ q ∈ range k, (x q).real * (y q).real| ≤ 4 * F.u * (k : ℝ) * (n + 1) := by
  have hu := F.u_pos
  have he := F.eta_pos
  have heu := eta_le_u hW
  have hn0 : (0 : ℝ) ≤ n := Nat.cast_nonneg n
  have hnu : ((n : ℝ) + 4) * F.u ≤ 1 / 512 := by nlinarith
  have hu2 : F.u ≤ 1 / 2048 := by nlinarith
  have hnn : ((n : ℝ) + 1) * (n + 1) * F.u ≤ 1 / 128 := by nlinarith
  induction k with
  | zero => exact ⟨trivial, by simp [addFold]; rfl⟩
  | succ k ih =>
    obtain ⟨f1, e1⟩ := ih (by omega)
    have hk1 : (k : ℝ) + 1 ≤ n := by exact_mod_cast hk
    have hk0 : (0 : ℝ) ≤ k := Nat.cast_nonneg k
    obtain ⟨hxf, hx1⟩ := hx k (by omega)
    obtain ⟨hyf, hy1⟩ := hy k (by omega)
    have hp : |(x k).real * (y k).real| ≤ 1 := by
      rw [abs_mul]
      exact mul_le_one₀ hx1 (abs_nonneg _) hy1
    have hS : |∑ q ∈ range k, (x q).real * (y q).real| ≤ k := by
      refine le_trans (abs_sum_le_sum_abs _ _) (le_trans (sum_le_card_nsmul _ _ 1 fun q hq => ?_) (by simp))
      have hq := mem_range.1 hq
      rw [abs_mul]
      exact mul_le_one₀ (hx q (by omega)).2 (abs_nonneg _) (hy q (by omega)).2
    have hmf : (mul (x k) (y k)).Finite := mul_finite hxf hyf (by nlinarith)
    have hm := (mul_inv hmf).2.2
    have hm' : |(mul (x k) (y k)).real - (x k).real * (y k).real| ≤ 2 * F.u := by nlinarith
    set s := addFold (fun q => Arith.mul (x q) (y q)) (Arith.zero : Bin F) 0 k with hs
    set S := ∑ q ∈ range k, (x q).real * (y q).real with hSd
    have hex : |(s.real + (mul (x k) (y k)).real) - (S + (x k).real * (y k).real)| ≤ 4 * F.u * k * (n + 1) + 2 * F.u := by
      have := abs_add_le (s.real - S) ((mul (x k) (y k)).real - (x k).real * (y k).real)
      have e : s.real - S + ((mul (x k) (y k)).real - (x k).real * (y k).real) = (s.real + (mul (x k) (y k)).real) - (S + (x k).real * (y k).real) := by ring
      rw [e] at this
      linarith
    have hSp : |S + (x k).real * (y k).real| ≤ k + 1 := le_trans (abs_add_le _ _) (by linarith)
    have hsm : 4 * F.u * k * (n + 1) + 2 * F.u ≤ 1 := by nlinarith
    have hsum : |s.real + (mul (x k) (y k)).real| ≤ n + 1 := by
      have := abs_add_le ((s.real + (mul (x k) (y k)).real) - (S + (x k).real * (y k).real)) (S + (x k).real * (y k).real)
      rw [sub_add_cancel] at this
      linarith
    have hfin : (add s (mul (x k) (y k))).Finite := add_finite f1 hmf (by nlinarith)
    have hadd := (add_inv hfin).2.2
    have e0 : addFold (fun q => Arith.mul (x q) (y q)) (Arith.zero : Bin F) 0 (k + 1) = add s (mul (x k) (y k)) := by
      change add s (mul (x (0 + k)) (y (0 + k))) = _
      rw [Nat.zero_add]
    rw [e0, sum_range_succ]
    refine ⟨hfin, ?_⟩
    have h3 := abs_sub_le (add s (mul (x k) (y k))).real (s.real + (mul (x k) (y k)).real) (S + (x k).real * (y k).real)
    have h4 : F.u * |s.real + (mul (x k) (y k)).real| ≤ F.u * (n + 1) := mul_le_mul_of_nonneg_left hsum hu.le
    push_cast
    nlinarith

/-- the matrix that makePositiveDefinite approximates: R R^T + n I -/
def gramShift (n : Nat) (r : Nat → Nat → ℝ) (i j : Nat) : ℝ := (∑ k ∈ range n, r i k * r j k) + if i = j then (n : ℝ) else 0

theorem gramShift_comm (n : Nat) (r : Nat → Nat → ℝ) (i j : Nat) : gramShift n r i j = gramShift n r j i := by
  unfold gramShift
  congr 1
  · exact sum_congr rfl fun k _ => mul_comm _ _
  · by_cases h : i = j
    · rw [if_pos h, if_pos h.symm]
    · rw [if_neg h, if_neg fun e => h e.symm]

theorem gram_abs {n : Nat} {r : Nat → Nat → ℝ} {i j : Nat} (hi : ∀ k, k < n → |r i k| ≤ 1) (hj : ∀ k, k < n → |r j k| ≤ 1) :
    |∑ k ∈ range n, r i k * r j k| ≤ n := by
  refine le_trans (abs_sum_le_sum_abs _ _) (le_trans (sum_le_card_nsmul _ _ 1 fun q hq => ?_) (by simp))
  rw [abs_mul]
  exact mul_le_one₀ (hi q (mem_range.1 hq)) (abs_nonneg _) (hj q (mem_range.1 hq))

/-- one more rounded operation -/
theorem round_step {r x' x e X u h : ℝ} (hu : 0 ≤ u) (h1 : |r - x'| ≤ u * |x'| + h) (h2 : |x' - x| ≤ e) (hX : |x| + e ≤ X) : |r - x| ≤ e + (u * X + h) := by
  have h3 := abs_sub_le r x' x
  have h4 : |x'| ≤ X := by
    have := abs_add_le (x' - x) x
    rw [sub_add_cancel] at this
    linarith
  have := mul_le_mul_of_nonneg_left h4 hu
  linarith

theorem lt_big_step {x' x e X : ℝ} (h2 : |x' - x| ≤ e) (hX : |x| + e ≤ X) (hX2 : (1 + F.u) * X + F.eta < F.big) : (1 + F.u) * |x'| + F.eta < F.big := by
  have hu := F.u_pos
  have h4 : |x'| ≤ X := by
    have := abs_add_le (x' - x) x
    rw [sub_add_cancel] at this
    linarith
  have := mul_le_mul_of_nonneg_left h4 (by linarith : 0 ≤ 1 + F.u)
  linarith

/-- the elements of the dense makePositiveDefinite -/
theorem makePosDet_fwd (hW : F.Wide) {n : Nat} (hn : 128 * ((n : ℝ) + 4) ^ 2 * F.u ≤ 1) (hbig : 16 * ((n : ℝ) + 1) ≤ F.big) {R : Nat → Nat → Bin F}
    (hR : ∀ i k, i < n → k < n → (R i k).Finite ∧ |(R i k).real| ≤ 1) {tn : Bin F} (ht : tn.Finite) (htn : tn.real = n) {i j : Nat} (hi : i < n) (hj : j < n) :
    (makePosDet n R tn i j).Finite ∧ |(makePosDet n R tn i j).real - gramShift n (fun i k => (R i k).real) i j| ≤ 4 * ((n : ℝ) + 4) ^ 2 * F.u := by
  have hu := F.u_pos
  have he := F.eta_pos
  have heu := eta_le_u hW
  have hn0 : (0 : ℝ) ≤ n := Nat.cast_nonneg n
  have h16 : (16 : ℝ) ≤ ((n : ℝ) + 4) ^ 2 := by nlinarith
  have hu2 : F.u ≤ 1 / 2048 := by
    have := mul_le_mul_of_nonneg_right h16 hu.le
    linarith
  have heu' : F.eta ≤ F.u := by nlinarith
  have hn1 : (1 : ℝ) ≤ n := by exact_mod_cast (show 1 ≤ n by omega)
  have hsq : ((n : ℝ) + 4) ^ 2 * F.u ≤ 1 / 128 := by linarith
  have key1 : 4 * F.u * (n : ℝ) * (n + 1) + (F.u * (2 * n + 1) + F.eta) + (F.u * (2 * n + 1) + F.eta) + (F.u * (2 * n + 1) + F.eta) ≤
      4 * ((n : ℝ) + 4) ^ 2 * F.u := by nlinarith
  have key2 : 4 * ((n : ℝ) + 4) ^ 2 * F.u ≤ 1 / 32 := by linarith
  have hst : 0 < F.u * (2 * n + 1) + F.eta := by positivity
  have hX2 : (1 + F.u) * (2 * (n : ℝ) + 1) + F.eta < F.big := by nlinarith
  obtain ⟨f1, e1⟩ := addFold_fwd hW hn hbig (x := fun k => R i k) (y := fun k => R j k) (fun k hk => hR i k hi hk) (fun k hk => hR j k hj hk) n le_rfl
  have hG := gram_abs (r := fun i k => (R i k).real) (i := i) (j := j) (fun k hk => (hR i k hi hk).2) (fun k hk => (hR j k hj hk).2)
  set s := addFold (fun q => Arith.mul (R i q) (R j q)) (Arith.zero : Bin F) 0 n with hs
  set S := ∑ k ∈ range n, (R i k).real * (R j k).real with hS
  have one_real : (Arith.one : Bin F).real = 1 := by change (Bin.fin false 1 : Bin F).real = 1; simp [real]
  have zero_real : (Arith.zero : Bin F).real = 0 := by change (Bin.fin false 0 : Bin F).real = 0; simp [real]
  -- alpha * s
  have a2 : |(Arith.one : Bin F).real * s.real - S| ≤ 4 * F.u * (n : ℝ) * (n + 1) := by rw [one_real, one_mul]; exact e1
  have f2 : (mul (Arith.one : Bin F) s).Finite := mul_finite trivial f1 (lt_big_step a2 (X := 2 * n + 1) (by linarith) hX2)
  have e2 := round_step hu.le (mul_inv f2).2.2 a2 (X := 2 * n + 1) (by linarith)
  -- beta * c = 0
  have f0 : (mul (Arith.zero : Bin F) Arith.zero).Finite := mul_finite trivial trivial (by rw [zero_real]; simp; nlinarith)
  have r0 : (mul (Arith.zero : Bin F) Arith.zero).real = 0 := by
    change (mk F (false != false) ((Bin.fin false 0 : Bin F).real * (Bin.fin false 0 : Bin F).real)).real = 0
    have : (Bin.fin false 0 : Bin F).real = 0 := by simp [real]
    rw [this, mul_zero]
    exact (mk_exact (F := F) representable_zero).2
  have a3 : |(mul (Arith.one : Bin F) s).real + (mul (Arith.zero : Bin F) Arith.zero).real - S| ≤ 4 * F.u * (n : ℝ) * (n + 1) + (F.u * (2 * n + 1) + F.eta) := by
    rw [r0, add_zero]; exact e2
  have f3 : (add (mul (Arith.one : Bin F) s) (mul (Arith.zero : Bin F) Arith.zero)).Finite :=
    add_finite f2 f0 (lt_big_step a3 (X := 2 * n + 1) (by linarith) hX2)
  have e3 := round_step hu.le (add_inv f3).2.2 a3 (X := 2 * n + 1) (by linarith)
  unfold makePosDet gramShift
  by_cases hij : i = j
  · rw [if_pos hij]
    simp only [if_pos hij]
    have a4 : |(add (mul (Arith.one : Bin F) s) (mul (Arith.zero : Bin F) Arith.zero)).real + tn.real - (S + n)| ≤
        4 * F.u * (n : ℝ) * (n + 1) + (F.u * (2 * n + 1) + F.eta) + (F.u * (2 * n + 1) + F.eta) := by
      rw [htn, add_sub_add_right_eq_sub]
      exact e3
    have hSn : |S + n| ≤ 2 * n := by
      refine le_trans (abs_add_le _ _) ?_
      rw [abs_of_nonneg hn0]
      linarith
    have f4 : (add (add (mul (Arith.one : Bin F) s) (mul (Arith.zero : Bin F) Arith.zero)) tn).Finite :=
      add_finite f3 ht (lt_big_step a4 (X := 2 * n + 1) (by linarith) hX2)
    have e4 := round_step hu.le (add_inv f4).2.2 a4 (X := 2 * n + 1) (by linarith)
    exact ⟨f4, le_trans e4 key1⟩
  · rw [if_neg hij]
    simp only [if_neg hij, add_zero]
    exact ⟨f3, le_trans e3 (by linarith)⟩

theorem gram_form (n : Nat) (r : Nat → Nat → ℝ) (x : Nat → ℝ) :
    (n : ℝ) * ∑ i ∈ range n, x i * x i ≤ ∑ i ∈ range n, ∑ j ∈ range n, x i * gramShift n r i j * x j := by
  have e : ∀ i ∈ range n, ∑ j ∈ range n, x i * gramShift n r i j * x j = (∑ k ∈ range n, ∑ j ∈ range n, (x i * r i k) * (x j * r j k)) + (n : ℝ) * (x i * x i) := by
    intro i hi
    have : ∀ j ∈ range n, x i * gramShift n r i j * x j = (∑ k ∈ range n, (x i * r i k) * (x j * r j k)) + if i = j then (n : ℝ) * (x i * x i) else 0 := by
      intro j _
      unfold gramShift
      rw [mul_add, add_mul, mul_sum, sum_mul]
      congr 1
      · exact sum_congr rfl fun k _ => by ring
      · split
        · rename_i h; subst h; ring
        · ring
    rw [sum_congr rfl this, sum_add_distrib, sum_ite_eq, if_pos hi, sum_comm]
  rw [sum_congr rfl e, sum_add_distrib, ← mul_sum, sum_comm]
  have : 0 ≤ ∑ k ∈ range n, ∑ i ∈ range n, ∑ j ∈ range n, (x i * r i k) * (x j * r j k) := by
    refine sum_nonneg fun k _ => ?_
    rw [← sum_mul_sum]
    exact mul_self_nonneg _
  linarith

/-- a matrix close to R R^T + n I has no small eigenvalue -/
theorem gram_eig {n : Nat} {r a : Nat → Nat → ℝ} {e : ℝ} (ha : ∀ i j, j ≤ i → i < n → |a i j - gramShift n r i j| ≤ e) (he : 0 ≤ e) :
    LowerEigGe ((n : ℝ) - n * e) n a := by
  intro x
  have h1 := gram_form n r x
  have h2 : ∀ i ∈ range n, ∀ j ∈ range n, x i * gramShift n r i j * x j - e * (|x i| * |x j|) ≤ x i * a (max i j) (min i j) * x j := by
    intro i hi j hj
    have hi := mem_range.1 hi
    have hj := mem_range.1 hj
    have hg : gramShift n r i j = gramShift n r (max i j) (min i j) := by
      rcases Nat.le_total i j with h | h
      · rw [Nat.max_eq_right h, Nat.min_eq_left h]; exact gramShift_comm _ _ _ _
      · rw [Nat.max_eq_left h, Nat.min_eq_right h]
    have hd := ha (max i j) (min i j) (by omega) (by omega)
    rw [← hg] at hd
    have e1 : x i * a (max i j) (min i j) * x j - x i * gramShift n r i j * x j = (a (max i j) (min i j) - gramShift n r i j) * (x i * x j) := by ring
    have h3 : |(a (max i j) (min i j) - gramShift n r i j) * (x i * x j)| ≤ e * (|x i| * |x j|) := by
      rw [abs_mul, abs_mul]
      exact mul_le_mul_of_nonneg_right hd (by positivity)
    have := (abs_le.1 h3).1
    linarith
  have h3 := sum_le_sum fun i hi => sum_le_sum fun j hj => h2 i hi j hj
  have h4 : ∑ i ∈ range n, ∑ j ∈ range n, (x i * gramShift n r i j * x j - e * (|x i| * |x j|)) =
      ∑ i ∈ range n, ∑ j ∈ range n, x i * gramShift n r i j * x j - e * ((∑ i ∈ range n, |x i|) * ∑ j ∈ range n, |x j|) := by
    rw [sum_mul_sum, mul_sum, ← sum_sub_distrib]
    refine sum_congr rfl fun i _ => ?_
    rw [mul_sum, ← sum_sub_distrib]
  have h5 : (∑ i ∈ range n, |x i|) * ∑ j ∈ range n, |x j| ≤ n * ∑ i ∈ range n, x i * x i := by
    have := sq_sum_le_card_mul_sum_sq (s := range n) (f := fun i => |x i|)
    rw [card_range, sq] at this
    refine le_trans this (le_of_eq ?_)
    congr 1
    exact sum_congr rfl fun i _ => by rw [sq_abs, sq]
  rw [h4] at h3
  have h6 := mul_le_mul_of_nonneg_left h5 he
  have h7 : ((n : ℝ) - n * e) * ∑ i ∈ range n, x i * x i = n * (∑ i ∈ range n, x i * x i) - e * (n * ∑ i ∈ range n, x i * x i) := by ring
  rw [h7]
  linarith

set_option maxHeartbeats 1000000 in
/-- the hypotheses of the Cholesky theorems hold for every matrix close to R R^T + n I -/
theorem choleskySafe_gram (hW : F.Wide) {n : Nat} (h0 : 0 < n) (hn : 128 * ((n : ℝ) + 4) ^ 2 * F.u ≤ 1) (hbig : 16 * ((n : ℝ) + 1) ≤ F.big)
    {r : Nat → Nat → ℝ} (hr : ∀ i k, i < n → k < n → |r i k| ≤ 1) {a : Nat → Nat → Bin F} (hf : ∀ i j, j ≤ i → i < n → (a i j).Finite)
    (ha : ∀ i j, j ≤ i → i < n → |(a i j).real - gramShift n r i j| ≤ 4 * ((n : ℝ) + 4) ^ 2 * F.u) :
    ∃ ε σ lam Q E : ℝ, CholeskySafe F n a (2 * n + 1) ε (3 / 4 * Real.sqrt n) σ lam Q E ∧ E ≤ 20 * (n : ℝ) * (n + 4) * F.u := by
  have hu := F.u_pos
  have he := F.eta_pos
  have heu := eta_le_u hW
  have hn1 : (1 : ℝ) ≤ n := by exact_mod_cast h0
  have hw : ((n : ℝ) + 4) * F.u ≤ 1 / 640 := by nlinarith
  have h25 : (25 : ℝ) ≤ ((n : ℝ) + 4) ^ 2 := by nlinarith
  have hu2 : F.u ≤ 1 / 3200 := by
    have := mul_le_mul_of_nonneg_right h25 hu.le
    linarith
  have hnu : (n : ℝ) * F.u ≤ 1 / 640 := by nlinarith
  have he2 : F.eta ≤ F.u / 6400 := by nlinarith
  have g1 : (1 + F.u) ^ n ≤ 1 + 1 / 320 := le_trans (pow_one_le hu.le (by linarith) (by linarith)) (by linarith)
  have g1' : 1 ≤ (1 + F.u) ^ n := one_le_pow₀ (by linarith)
  have hc : (1 : ℝ) ≤ 1 / (1 - F.u) := by
    rw [le_div_iff₀ (by linarith)]
    linarith
  have g4 : (1 / (1 - F.u)) ^ 4 ≤ 1 + 1 / 320 := by
    refine le_trans (pow_inv_le (k := 4) hu.le (by push_cast; linarith) (by linarith)) ?_
    push_cast
    linarith
  have g4' : 1 ≤ (1 / (1 - F.u)) ^ 4 := one_le_pow₀ hc
  have gn : (1 / (1 - F.u)) ^ (n + 4) ≤ 1 + 2 * (((n : ℝ) + 4) * F.u) := by
    have := pow_inv_le (k := n + 4) (v := F.u) hu.le (by push_cast; linarith) (by linarith)
    push_cast at this
    exact this
  have gn' : 1 ≤ (1 / (1 - F.u)) ^ (n + 4) := one_le_pow₀ hc
  obtain ⟨g, hg⟩ : ∃ g, g = (1 + F.u) ^ n := ⟨_, rfl⟩
  obtain ⟨G, hG⟩ : ∃ G, G = (1 / (1 - F.u)) ^ 4 := ⟨_, rfl⟩
  obtain ⟨H, hH⟩ : ∃ H, H = (1 / (1 - F.u)) ^ (n + 4) := ⟨_, rfl⟩
  rw [← hg] at g1 g1'
  rw [← hG] at g4 g4'
  rw [← hH] at gn gn'
  obtain ⟨σ, hσ⟩ : ∃ σ, σ = g * (2 * (2 * (n : ℝ) + 1) + n * F.eta) := ⟨_, rfl⟩
  obtain ⟨lam, hlam⟩ : ∃ lam, lam = G * (1 + σ) := ⟨_, rfl⟩
  obtain ⟨Q, hQ⟩ : ∃ Q, Q = (2 * (n : ℝ) + 1) + G * σ + lam * F.eta := ⟨_, rfl⟩
  obtain ⟨E, hE⟩ : ∃ E, E = (H - 1) * Q + H * (2 * n + lam) * F.eta := ⟨_, rfl⟩
  have hne : (n : ℝ) * F.eta ≤ 1 / 640 := by nlinarith
  have s1 : σ ≤ 62 / 10 * n := by
    rw [hσ]
    have : g * (2 * (2 * (n : ℝ) + 1) + n * F.eta) ≤ (1 + 1 / 320) * (4 * n + 2 + 1 / 640) := by
      refine mul_le_mul g1 (by linarith) (by positivity) (by norm_num)
    linarith
  have s0 : 0 ≤ σ := by rw [hσ]; positivity
  have l1 : lam ≤ 75 / 10 * n := by
    rw [hlam]
    have : G * (1 + σ) ≤ (1 + 1 / 320) * (1 + 62 / 10 * n) := mul_le_mul g4 (by linarith) (by linarith) (by norm_num)
    linarith
  have l0 : 0 ≤ lam := by rw [hlam]; positivity
  have q1 : Q ≤ 94 / 10 * n := by
    rw [hQ]
    have a1 : G * σ ≤ (1 + 1 / 320) * (62 / 10 * n) := mul_le_mul g4 s1 s0 (by norm_num)
    have a2 : lam * F.eta ≤ 75 / 10 * n * F.eta := mul_le_mul_of_nonneg_right l1 he.le
    nlinarith
  have q0 : 0 ≤ Q := by rw [hQ]; positivity
  have E1 : E ≤ 20 * (n : ℝ) * (n + 4) * F.u := by
    rw [hE]
    have a1 : (H - 1) * Q ≤ (2 * (((n : ℝ) + 4) * F.u)) * (94 / 10 * n) := mul_le_mul (by linarith) q1 q0 (by positivity)
    have a2 : H * (2 * n + lam) ≤ 2 * (95 / 10 * n) := mul_le_mul (by linarith) (by linarith) (by positivity) (by norm_num)
    have a3 : H * (2 * n + lam) * F.eta ≤ 2 * (95 / 10 * n) * (F.u / 6400) := mul_le_mul a2 he2 he.le (by positivity)
    nlinarith
  have E2 : ((n : ℝ) + 1) * E ≤ 16 / 100 * n := by
    have a1 : ((n : ℝ) + 1) * E ≤ (n + 1) * (20 * (n : ℝ) * (n + 4) * F.u) := mul_le_mul_of_nonneg_left E1 (by linarith)
    have a2 : ((n : ℝ) + 1) * (n + 4) * F.u ≤ ((n : ℝ) + 4) ^ 2 * F.u := mul_le_mul_of_nonneg_right (by nlinarith) hu.le
    have a3 : ((n : ℝ) + 1) * (n + 4) * F.u ≤ 1 / 128 := by linarith
    have a4 := mul_le_mul_of_nonneg_left a3 (by linarith : (0 : ℝ) ≤ 20 * n)
    nlinarith
  have hsq : Real.sqrt n * Real.sqrt n = n := Real.mul_self_sqrt (by linarith)
  have hs1 : 1 ≤ Real.sqrt n := by
    rw [Real.one_le_sqrt]
    exact hn1
  have err : 4 * ((n : ℝ) + 4) ^ 2 * F.u ≤ 1 / 32 := by linarith
  refine ⟨(n : ℝ) - n * (1 / 32), σ, lam, Q, E, ⟨hf, fun i j hji hi => ?_, gram_eig (r := r) (fun i j hji hi => le_trans (ha i j hji hi) err) (by norm_num),
    by rw [hσ, hg], by rw [hlam, hG], by rw [hQ, hG], by rw [hE, hH], by positivity, ?_, by linarith, ?_⟩, E1⟩
  · have h1 := le_trans (ha i j hji hi) err
    have h2 : |gramShift n r i j| ≤ 2 * n := by
      unfold gramShift
      refine le_trans (abs_add_le _ _) ?_
      have := gram_abs (n := n) (r := r) (i := i) (j := j) (fun k hk => hr i k hi hk) (fun k hk => hr j k (by omega) hk)
      have h3 : |(if i = j then (n : ℝ) else 0)| ≤ n := by
        split
        · rw [abs_of_nonneg (by linarith)]
        · rw [abs_zero]; linarith
      linarith
    have h4 := abs_add_le ((a i j).real - gramShift n r i j) (gramShift n r i j)
    rw [sub_add_cancel] at h4
    linarith
  · rw [← hG]
    have e1 : G * (3 / 4 * Real.sqrt n) * (G * (3 / 4 * Real.sqrt n)) = G * G * (9 / 16 * n) := by
      have : G * (3 / 4 * Real.sqrt n) * (G * (3 / 4 * Real.sqrt n)) = G * G * (9 / 16 * (Real.sqrt n * Real.sqrt n)) := by ring
      rw [this, hsq]
    rw [e1]
    have a1 : G * G ≤ (1 + 1 / 320) * (1 + 1 / 320) := mul_le_mul g4 g4 (by linarith) (by norm_num)
    have a2 := mul_le_mul_of_nonneg_right a1 (by linarith : (0 : ℝ) ≤ 9 / 16 * n)
    nlinarith
  · have a1 : σ / (3 / 4 * Real.sqrt n) ≤ 62 / 10 * n / (3 / 4) := by
      refine div_le_div₀ (by linarith) s1 (by norm_num) (by linarith)
    have a2 := mul_le_mul_of_nonneg_left a1 (by linarith : 0 ≤ 1 + F.u)
    nlinarith

section
variable {V : Type} [Arith V]

/-- the elements of the panel version, in any arithmetic -/
def makePosPanelDet (n : Nat) (R : Nat → Nat → V) (tn : V) (i j : Nat) : V :=
  Arith.fma Arith.one (if i = j then tn else Arith.zero) (Arith.mul (fmaSum (fun k => R i k) (fun k => R j k) Arith.zero n) Arith.one)

theorem det_makePositiveDefinitePanel {SS : Nat} (hSS : 0 < SS) {m : Mem V} {c : Container}
    (hso : c.so = .columnMajor) (hl : Live SS m c) (hsq : c.rows = c.cols) {t : Int} (ht : t % (SS : Int) = 0)
    (hfree : ∀ x, ({ c with data := t } : Container).Storage SS x → m x = none) (R : Nat → Nat → V) (tn : V) :
    ∃ m', makePositiveDefinitePanel SS t R tn c m = .ok () m' ∧ Contains SS m' c (makePosPanelDet c.rows R tn) ∧ OnlyElemsChange SS m m' c := by
  let tmp : Container := { c with data := t }
  have hdis : ∀ x, tmp.Storage SS x → ¬ c.Storage SS x := by
    intro x hx hx'
    have := hl.alloc x hx'
    rw [hfree x hx] at this; cases this
  have hst : ∀ (d : Container) z, IsElem SS d z → d.Storage SS z := by
    rintro d z ⟨i, j, hi, hj, rfl⟩; exact d.addr_storage hSS hi hj
  -- matrix = 0
  obtain ⟨m1, e1, v1, n1⟩ := C54_randomize hSS hl (fun _ _ => Arith.zero)
  -- diagonal
  obtain ⟨m2, e2, v2, n2⟩ := setDiag_runs hSS hsq v1 tn
  -- temporary
  obtain ⟨m3, e3, l3, v3, _, n3⟩ := C54_generate (m := m2) hSS (c := tmp) ht R
  have hfr : ∀ x, ¬ tmp.Storage SS x → ¬ IsElem SS c x → m3 x = m x := fun x h1 h2 => by rw [n3 x h1, n2 x h2, n1 x h2]
  have lc : Live SS m3 c := ⟨hl.align, fun x hx => by
    have h1 : ¬ tmp.Storage SS x := fun h => hdis x h hx
    rw [n3 x h1]
    by_cases he : IsElem SS c x
    · obtain ⟨i, j, hi, hj, rfl⟩ := he; rw [v2 i j hi hj]; rfl
    · rw [n2 x he, n1 x he]; exact hl.alloc x hx⟩
  have vc : Contains SS m3 c (fun i j => if i = j then tn else Arith.zero) := fun i j hi hj => by
    rw [n3 _ (fun h => hdis _ h (c.addr_storage hSS hi hj))]; exact v2 i j hi hj
  -- product
  have adT : ∀ i j : Int, ((MExpr.obj tmp).trans.mptr SS).addr SS i j = (tmp.mptr SS).addr SS j i := fun i j => by
    rw [trans_obj_mptr hSS, MPtr.trans_addr hSS]
  have so : ∀ d : Container, (d.mptr SS).so = d.so := fun d => by rw [Container.mptr_eq]; rfl
  have hap : Apart SS tmp c := hdis
  have pre : GemmPre SS c.rows c.rows c.rows (tmp.mptr SS) ((MExpr.obj tmp).trans.mptr SS) (c.mptr SS) (c.mptr SS) m3 := by
    refine ⟨hSS, tmp.mptr_wf hSS ht, (by rw [trans_obj_mptr hSS]; exact (tmp.mptr_wf hSS ht).trans hSS), c.mptr_wf hSS hl.align, c.mptr_wf hSS hl.align,
      (by rw [so]; exact hso), (by rw [so]; exact hso), (by rw [so]; exact hso), ?_, ?_, ?_, ?_, ?_, ?_, ?_, ?_⟩
    · have := l3.readablePad hSS (show tmp.so = _ from hso)
      have e : tmp.cols = c.rows := hsq.symm
      rw [e] at this; exact this
    · intro i j hi hj
      rw [adT]
      exact l3.readable hSS j i hj (show i < c.cols by omega)
    · have := lc.readablePad hSS hso; rwa [← hsq] at this
    · have := lc.readable hSS; rwa [← hsq] at this
    · have := c.inj hSS; rwa [← hsq] at this
    · intro i j i' j' hi hj hi' hj'
      exact hap.disj hSS i j i' j' hi (show j < c.cols by omega) hi' (by omega)
    · intro i j i' j' hi hj hi' hj'
      rw [adT]
      exact hap.disj hSS j i i' j' hj (show i < c.cols by omega) hi' (by omega)
    · intro i j i' j' hi hj hi' hj' he
      exact c.inj hSS i j i' j' hi (by omega) hi' (by omega) he
  obtain ⟨m4, e4, v4, n4⟩ := gemmPtr_correct (alpha := (Arith.one : V)) (beta := Arith.one) pre
  have n4' : ∀ x, ¬ IsElem SS c x → m4 x = m3 x := fun x hx => n4 x (fun hc => hx (by
    obtain ⟨i, j, hi, hj, rfl⟩ := hc
    exact ⟨i, j, hi, by omega, by rw [Container.addr_eq_mptr]⟩))
  refine ⟨fun x => if t ≤ x ∧ x < t + tmp.capacity SS then none else m4 x, ?_, fun i j hi hj => ?_, fun x hx => ?_⟩
  · unfold makePositiveDefinitePanel
    rw [if_neg (by omega)]
    have e4' : gemmMat SS Arith.one (tmp.mat SS) ((MExpr.obj tmp).trans.mat SS) Arith.one (c.mat SS) (c.mat SS) m3 = .ok () m4 := by
      unfold gemmMat
      have r1 : (tmp.mat SS).rows = c.rows := rfl
      have r2 : (tmp.mat SS).cols = c.rows := hsq.symm
      have r3 : ((MExpr.obj tmp).trans.mat SS).rows = c.rows := hsq.symm
      have r4 : ((MExpr.obj tmp).trans.mat SS).cols = c.rows := rfl
      have r5 : (c.mat SS).rows = c.rows := rfl
      have r6 : (c.mat SS).cols = c.rows := hsq.symm
      rw [r1, r2, r3, r4, r5, r6, if_neg (by simp), if_neg (by simp), if_neg (by simp)]
      exact e4
    have e3' : (tmp.construct SS >>= fun _ => randomizePanel SS tmp R) m2 = .ok () m3 := e3
    show (c.assignScalar SS Arith.zero >>= fun _ => forN c.rows (fun i => c.set SS i i tn) >>= fun _ => tmp.construct SS >>= fun _ =>
      randomizePanel SS tmp R >>= fun _ => gemmMat SS Arith.one (tmp.mat SS) ((MExpr.obj tmp).trans.mat SS) Arith.one (c.mat SS) (c.mat SS) >>= fun _ =>
      freeStorage SS tmp) m = _
    rw [bind_ok (show c.assignScalar SS Arith.zero m = .ok () m1 from e1), bind_ok e2, ← bind_assoc', bind_ok e3', bind_ok e4']
    rfl
  · have : ¬ tmp.Storage SS (c.addr SS i j) := fun h => hdis _ h (c.addr_storage hSS hi hj)
    show (if t ≤ c.addr SS i j ∧ c.addr SS i j < t + tmp.capacity SS then none else m4 (c.addr SS i j)) = _
    rw [if_neg (show ¬ (t ≤ c.addr SS i j ∧ c.addr SS i j < t + tmp.capacity SS) from this), Container.addr_eq_mptr, v4 i j hi (by omega)]
    have hA : ∀ k, k < c.rows → val m3 ((tmp.mptr SS).addr SS i k) = R i k := fun k hk => by
      unfold val
      rw [← Container.addr_eq_mptr, v3 i k hi (show k < c.cols by omega)]
      rfl
    have hB : ∀ k, k < c.rows → val m3 (((MExpr.obj tmp).trans.mptr SS).addr SS k j) = R j k := fun k hk => by
      unfold val
      rw [adT, ← Container.addr_eq_mptr, v3 j k (show j < c.rows by omega) (show k < c.cols by omega)]
      rfl
    have hC : val m3 ((c.mptr SS).addr SS i j) = if i = j then tn else Arith.zero := by
      unfold val
      rw [← Container.addr_eq_mptr, vc i j hi hj]
      rfl
    rw [hC]
    unfold gemmEntry makePosPanelDet
    rw [fmaSum_congr rfl c.rows hA hB]
  · show (if t ≤ x ∧ x < t + tmp.capacity SS then none else m4 x) = _
    by_cases h1 : tmp.Storage SS x
    · rw [hfree x h1]; exact if_pos h1
    · rw [if_neg (show ¬ (t ≤ x ∧ x < t + tmp.capacity SS) from h1), n4' x hx, hfr x h1 hx]


end

/-- the elements of the panel makePositiveDefinite -/
theorem makePosPanelDet_fwd (hW : F.Wide) {n : Nat} (hn : 128 * ((n : ℝ) + 4) ^ 2 * F.u ≤ 1) (hbig : 16 * ((n : ℝ) + 1) ≤ F.big) {R : Nat → Nat → Bin F}
    (hR : ∀ i k, i < n → k < n → (R i k).Finite ∧ |(R i k).real| ≤ 1) {tn : Bin F} (ht : tn.Finite) (htn : tn.real = n) {i j : Nat} (hi : i < n) (hj : j < n) :
    (makePosPanelDet n R tn i j).Finite ∧ |(makePosPanelDet n R tn i j).real - gramShift n (fun i k => (R i k).real) i j| ≤ 4 * ((n : ℝ) + 4) ^ 2 * F.u := by
  have hu := F.u_pos
  have he := F.eta_pos
  have heu := eta_le_u hW
  have hn1 : (1 : ℝ) ≤ n := by exact_mod_cast (show 1 ≤ n by omega)
  have h25 : (25 : ℝ) ≤ ((n : ℝ) + 4) ^ 2 := by nlinarith
  have hu2 : F.u ≤ 1 / 3200 := by
    have := mul_le_mul_of_nonneg_right h25 hu.le
    linarith
  have hnu : (n : ℝ) * F.u ≤ 1 / 640 := by nlinarith
  have heu' : F.eta ≤ F.u / 6400 := by nlinarith
  have g1 : (1 + F.u) ^ n ≤ 1 + 2 * (n * F.u) := pow_one_le hu.le (by linarith) (by linarith)
  have hG := gram_abs (r := fun i k => (R i k).real) (i := i) (j := j) (fun k hk => (hR i k hi hk).2) (fun k hk => (hR j k hj hk).2)
  have hP : ∑ k ∈ range n, |(R i k).real| * |(R j k).real| ≤ n :=
    le_trans (sum_le_card_nsmul _ _ 1 fun q hq => mul_le_one₀ (hR i q hi (mem_range.1 hq)).2 (abs_nonneg _) (hR j q hj (mem_range.1 hq)).2) (by simp)
  have hP0 : 0 ≤ ∑ k ∈ range n, |(R i k).real| * |(R j k).real| := sum_nonneg fun _ _ => by positivity
  have zero_real : (Arith.zero : Bin F).real = 0 := by change (Bin.fin false 0 : Bin F).real = 0; simp [real]
  have one_real : (Arith.one : Bin F).real = 1 := by change (Bin.fin false 1 : Bin F).real = 1; simp [real]
  have f1 : (fmaSum (fun k => R i k) (fun k => R j k) (Arith.zero : Bin F) n).Finite := by
    refine fmaSum_finite n trivial (fun k hk => ⟨(hR i k hi hk).1, (hR j k hj hk).1⟩) ?_
    rw [zero_real, abs_zero, zero_add]
    have : (1 + F.u) ^ n * (∑ k ∈ range n, |(R i k).real| * |(R j k).real| + n * F.eta) ≤ (1 + 2 * (n * F.u)) * (n + n * F.eta) :=
      mul_le_mul g1 (by linarith) (by positivity) (by positivity)
    nlinarith
  have e1 := (fmaSum_inv n f1).2.2
  rw [zero_real, abs_zero, zero_add, zero_add] at e1
  set s := fmaSum (fun k => R i k) (fun k => R j k) (Arith.zero : Bin F) n with hs
  set S := ∑ k ∈ range n, (R i k).real * (R j k).real with hS
  have e1' : |s.real - S| ≤ 3 * F.u * (n : ℝ) * (n + 1) := by
    refine le_trans e1 ?_
    have a1 : ((1 + F.u) ^ n - 1) * ∑ k ∈ range n, |(R i k).real| * |(R j k).real| ≤ 2 * (n * F.u) * n := mul_le_mul (by linarith) hP hP0 (by positivity)
    have a2 : n * (1 + F.u) ^ n * F.eta ≤ n * 2 * (F.u / 6400) :=
      mul_le_mul (mul_le_mul_of_nonneg_left (le_trans g1 (by linarith)) (by linarith)) heu' he.le (by positivity)
    have a3 : 0 ≤ n * F.u := by positivity
    have a4 : 0 ≤ n * n * F.u := by positivity
    linarith
  have key1 : 3 * F.u * (n : ℝ) * (n + 1) + (F.u * (2 * n + 1) + F.eta) + (F.u * (2 * n + 1) + F.eta) ≤ 4 * ((n : ℝ) + 4) ^ 2 * F.u := by nlinarith
  have key2 : 4 * ((n : ℝ) + 4) ^ 2 * F.u ≤ 1 / 32 := by linarith
  have hst : 0 < F.u * (2 * n + 1) + F.eta := by positivity
  have hX2 : (1 + F.u) * (2 * (n : ℝ) + 1) + F.eta < F.big := by nlinarith
  have a2 : |s.real * (Arith.one : Bin F).real - S| ≤ 3 * F.u * (n : ℝ) * (n + 1) := by rw [one_real, mul_one]; exact e1'
  have f2 : (mul s (Arith.one : Bin F)).Finite := mul_finite f1 trivial (lt_big_step a2 (X := 2 * n + 1) (by linarith) hX2)
  have e2 := round_step hu.le (mul_inv f2).2.2 a2 (X := 2 * n + 1) (by linarith)
  have hc : (if i = j then tn else (Arith.zero : Bin F)).Finite ∧ (if i = j then tn else (Arith.zero : Bin F)).real = if i = j then (n : ℝ) else 0 := by
    split
    · exact ⟨ht, htn⟩
    · exact ⟨trivial, zero_real⟩
  have hSn : |S + if i = j then (n : ℝ) else 0| ≤ 2 * n := by
    refine le_trans (abs_add_le _ _) ?_
    have h3 : |(if i = j then (n : ℝ) else 0)| ≤ n := by
      split
      · rw [abs_of_nonneg (by linarith)]
      · rw [abs_zero]; linarith
    linarith
  have a3 : |(Arith.one : Bin F).real * (if i = j then tn else (Arith.zero : Bin F)).real + (mul s (Arith.one : Bin F)).real - (S + if i = j then (n : ℝ) else 0)| ≤
      3 * F.u * (n : ℝ) * (n + 1) + (F.u * (2 * n + 1) + F.eta) := by
    rw [one_real, one_mul, hc.2, add_comm, add_sub_add_right_eq_sub]
    exact e2
  have f3 : (fma (Arith.one : Bin F) (if i = j then tn else (Arith.zero : Bin F)) (mul s (Arith.one : Bin F))).Finite :=
    fma_finite trivial hc.1 f2 (lt_big_step a3 (X := 2 * n + 1) (by linarith) hX2)
  have e3 := round_step hu.le (fma_inv f3).2.2.2 a3 (X := 2 * n + 1) (by linarith)
  exact ⟨f3, le_trans e3 key1⟩

/-! ### The theorems -/

/-- sizes for which the rounding errors of the generator and of the factorization stay small: 128 (n+4)² u ≤ 1 (up to n = 8388604 for double, n = 358 for float),
and the numbers that occur are not near the overflow threshold -/
def SmallFor (F : Format) (n : Nat) : Prop := 128 * ((n : ℝ) + 4) ^ 2 * F.u ≤ 1 ∧ 16 * ((n : ℝ) + 1) ≤ F.big

/-- numbers drawn by `std::uniform_real_distribution`: between -1 and 1 (in fact in [0, 1)) -/
def Drawn (n : Nat) (R : Nat → Nat → Bin F) : Prop := ∀ i k, i < n → k < n → (R i k).Finite ∧ |(R i k).real| ≤ 1

/-- `a` is R R^T + n I up to the error 4 (n+4)² u in every element -/
def NearGram (n : Nat) (R a : Nat → Nat → Bin F) : Prop :=
  ∀ i j, i < n → j < n → (a i j).Finite ∧
    |(a i j).real - ((∑ k ∈ range n, (R i k).real * (R j k).real) + if i = j then (n : ℝ) else 0)| ≤ 4 * ((n : ℝ) + 4) ^ 2 * F.u

/-- `l` is a finite lower triangular matrix with diagonal elements at least 3/4 √n, and l l^T = a up to the error 20 n (n+4) u in every element of the lower triangle -/
def GoodFactor (n : Nat) (l a : Nat → Nat → Bin F) : Prop :=
  ∀ i, i < n → 3 / 4 * Real.sqrt n ≤ (l i i).real ∧
    ∀ j, j ≤ i → (l i j).Finite ∧ |(a i j).real - ∑ q ∈ range (j + 1), (l i q).real * (l j q).real| ≤ 20 * (n : ℝ) * (n + 4) * F.u

/-- **C91** (generator, dense). In IEEE 754 arithmetic `makePositiveDefinite` of a square dense matrix returns, whatever numbers are drawn from [-1, 1]; all elements are finite and
within 4 (n+4)² u of R R^T + n I; nothing but the matrix changes, and the temporary storage is released. -/
theorem C91_makePositiveDefinite (hW : F.Wide) {SS : Nat} (hSS : 0 < SS) {m : Mem (Bin F)} {A : Container} (hd : A.isPanel = false) (hl : Live SS m A)
    (hsq : A.rows = A.cols) (hn : SmallFor F A.rows) {t : Int} (ht : t % (SS : Int) = 0)
    (hfree : ∀ z, (⟨.dynDense, .columnMajor, A.cols, A.cols, t⟩ : Container).Storage SS z → m z = none)
    {R : Nat → Nat → Bin F} (hR : Drawn A.rows R) {tn : Bin F} (htn : tn.Finite ∧ tn.real = A.rows) :
    ∃ m' a, makePositiveDefinite SS t R tn (.obj A) m = .ok () m' ∧ Contains SS m' A a ∧ NearGram A.rows R a ∧ (∀ i j, (a i j).IsNum) ∧
      (∀ z, ¬ A.Storage SS z → m' z = m z) := by
  obtain ⟨m', e, e1, e2⟩ := det_makePositiveDefinite (e := .obj A) hSS hd (show (MExpr.obj A).Fits from trivial) hl hsq ht hfree R tn
  refine ⟨m', _, e, fun i j hi hj => elems_iff.1 e1 i j hi hj, fun i j hi hj => ?_, fun i j => ?_, e2⟩
  · change (makePosDet A.cols R tn i j).Finite ∧ |(makePosDet A.cols R tn i j).real - _| ≤ _
    rw [← hsq]
    exact makePosDet_fwd hW hn.1 hn.2 hR htn.1 htn.2 hi hj
  · unfold makePosDet
    dsimp only
    split
    · exact isNum_add _ _
    · exact isNum_add _ _

/-- **C91** (generator, panel). The same for panel matrices; there only the elements of the matrix change. -/
theorem C91_makePositiveDefinite_panel (hW : F.Wide) {SS : Nat} (hSS : 0 < SS) {m : Mem (Bin F)} {A : Container} (hso : A.so = .columnMajor) (hl : Live SS m A)
    (hsq : A.rows = A.cols) (hn : SmallFor F A.rows) {t : Int} (ht : t % (SS : Int) = 0)
    (hfree : ∀ z, ({ A with data := t } : Container).Storage SS z → m z = none)
    {R : Nat → Nat → Bin F} (hR : Drawn A.rows R) {tn : Bin F} (htn : tn.Finite ∧ tn.real = A.rows) :
    ∃ m' a, makePositiveDefinitePanel SS t R tn A m = .ok () m' ∧ Contains SS m' A a ∧ NearGram A.rows R a ∧ (∀ i j, (a i j).IsNum) ∧ OnlyElemsChange SS m m' A := by
  obtain ⟨m', e, e1, e2⟩ := det_makePositiveDefinitePanel hSS hso hl hsq ht hfree R tn
  exact ⟨m', _, e, e1, fun i j hi hj => makePosPanelDet_fwd hW hn.1 hn.2 hR htn.1 htn.2 hi hj, fun i j => isNum_fma _ _ _, e2⟩

theorem goodFactor_of {n : Nat} {l a : Nat → Nat → Bin F} {μ E : ℝ} (h : IsFiniteCholesky F n l a μ (3 / 4 * Real.sqrt n) E) (hE : E ≤ 20 * (n : ℝ) * (n + 4) * F.u) :
    GoodFactor n l a := fun i hi => by
  obtain ⟨h1, -, h3⟩ := h i hi
  exact ⟨h1, fun j hj => ⟨(h3 j hj).1, le_trans (h3 j hj).2 hE⟩⟩

/-- **C91** (potrf accepts what makePositiveDefinite makes, dense). `makePositiveDefinite(A); potrf(A, L);` returns, whatever numbers are drawn from [-1, 1], for every size that the
dense potrf kernel supports: A is finite and close to R R^T + n I, L is finite, has a positive diagonal bounded away from 0, and L L^T = A up to rounding errors. -/
theorem C91_potrf_dense (hW : F.Wide) {SS TR : Nat} {m : Mem (Bin F)} {A L : Container} (hd : A.isPanel = false) (h : PotrfArgs SS m A L) (hs : PotrfSizes A L)
    (hf : PotrfFits SS TR 4 A L) (hsq : A.rows = A.cols) (h0 : 0 < A.rows) (hn : SmallFor F A.rows) {t : Int} (ht : t % (SS : Int) = 0)
    (hfree : ∀ z, (⟨.dynDense, .columnMajor, A.cols, A.cols, t⟩ : Container).Storage SS z → m z = none)
    {R : Nat → Nat → Bin F} (hR : Drawn A.rows R) {tn : Bin F} (htn : tn.Finite ∧ tn.real = A.rows) :
    ∃ m1 m2 a l, makePositiveDefinite SS t R tn (.obj A) m = .ok () m1 ∧ Contains SS m1 A a ∧ potrfDenseCall SS TR A L m1 = .ok () m2 ∧ ContainsLower SS m2 L l ∧
      NearGram A.rows R a ∧ GoodFactor A.rows l a ∧ (∀ z, ¬ A.Storage SS z → ¬ L.Storage SS z → m2 z = m z) := by
  obtain ⟨m1, a, e1, v1, g1, n1, f1⟩ := C91_makePositiveDefinite hW h.ss hd h.lA hsq hn ht hfree hR htn
  have hlA : Live SS m1 A := by
    refine ⟨h.lA.align, fun z hz => ?_⟩
    have := makePositiveDefinite_dom SS t R tn (.obj A) _ _ _ e1 z (fun hz' => by
      have := h.lA.alloc z hz
      rw [hfree z hz'] at this; cases this)
    rw [this]
    exact h.lA.alloc z hz
  have hlL : Live SS m1 L := by
    rcases h.d with e | e
    · rw [← e]; exact hlA
    · exact ⟨h.lL.align, fun z hz => by rw [f1 z (fun hz' => e z hz' hz)]; exact h.lL.alloc z hz⟩
  obtain ⟨ε, σ, lam, Q, E, hc, hE⟩ := choleskySafe_gram (a := a) hW h0 hn.1 hn.2 (r := fun i k => (R i k).real) (fun i k hi hk => (hR i k hi hk).2)
    (fun i j hji hi => (g1 i j hi (by omega)).1) (fun i j hji hi => (g1 i j hi (by omega)).2)
  obtain ⟨m2, l, e2, l1, l2, f2⟩ := C86_potrf_dense_safe hW (m := m1) ⟨h.ss, h.sA, h.sL, hlA, hlL, h.d⟩ hs hf hsq.symm (fun i j _ hi hj => v1 i j hi hj)
    (fun i j _ _ => n1 i j) hc
  exact ⟨m1, m2, a, l, e1, v1, e2, l1, g1, goodFactor_of l2 hE, fun z hz hz' => by rw [f2 z hz', f1 z hz]⟩

/-- **C91** (potrf accepts what makePositiveDefinite makes, panel): the scenario of test/blast/math/panel/PotrfTest.cpp, for every size that the panel kernel supports. -/
theorem C91_potrf_panel (hW : F.Wide) {SS KN : Nat} {m : Mem (Bin F)} {A L : Container} (h : PotrfArgs SS m A L) (hs : PotrfSizes A L)
    (hf : PotrfFits SS 1 KN A L) (hsq : A.rows = A.cols) (h0 : 0 < A.rows) (hn : SmallFor F A.rows) {t : Int} (ht : t % (SS : Int) = 0)
    (hfree : ∀ z, ({ A with data := t } : Container).Storage SS z → m z = none)
    {R : Nat → Nat → Bin F} (hR : Drawn A.rows R) {tn : Bin F} (htn : tn.Finite ∧ tn.real = A.rows) :
    ∃ m1 m2 a l, makePositiveDefinitePanel SS t R tn A m = .ok () m1 ∧ Contains SS m1 A a ∧ potrfPanelCall SS KN A L m1 = .ok () m2 ∧ ContainsLower SS m2 L l ∧
      NearGram A.rows R a ∧ GoodFactor A.rows l a := by
  obtain ⟨m1, a, e1, v1, g1, n1, f1⟩ := C91_makePositiveDefinite_panel hW h.ss h.sA h.lA hsq hn ht hfree hR htn
  have hlive : ∀ c : Container, Live SS m c → Live SS m1 c := fun c hc => ⟨hc.align, fun x hx => by
    by_cases he : IsElem SS A x
    · obtain ⟨i, j, hi, hj, rfl⟩ := he; rw [v1 i j hi hj]; rfl
    · rw [f1 x he]; exact hc.alloc x hx⟩
  obtain ⟨ε, σ, lam, Q, E, hc, hE⟩ := choleskySafe_gram (a := a) hW h0 hn.1 hn.2 (r := fun i k => (R i k).real) (fun i k hi hk => (hR i k hi hk).2)
    (fun i j hji hi => (g1 i j hi (by omega)).1) (fun i j hji hi => (g1 i j hi (by omega)).2)
  obtain ⟨m2, l, e2, l1, l2⟩ := C86_potrf_panel_safe hW (m := m1) ⟨h.ss, h.sA, h.sL, hlive A h.lA, hlive L h.lL, h.d⟩ hs hf hsq.symm (fun i j _ hi hj => v1 i j hi hj)
    (fun i j _ _ => n1 i j) hc
  exact ⟨m1, m2, a, l, e1, v1, e2, l1, g1, goodFactor_of l2 hE⟩

/-- **C91** (sizes). For double the theorems cover all sizes up to 8388604, for float up to 358. -/
theorem C91_sizes {n : Nat} : (n ≤ 8388604 → SmallFor binary64 n) ∧ (n ≤ 358 → SmallFor binary32 n) := by
  constructor
  · intro h
    have hn : (n : ℝ) + 4 ≤ 8388608 := by
      have : (n : ℝ) ≤ 8388604 := by exact_mod_cast h
      linarith
    have h0 : (0 : ℝ) ≤ n := Nat.cast_nonneg n
    constructor
    · have : ((n : ℝ) + 4) ^ 2 ≤ 8388608 ^ 2 := pow_le_pow_left₀ (by linarith) hn 2
      have hu : binary64.u = 1 / 2 ^ 53 := by
        unfold Format.u binary64
        norm_num
      rw [hu]
      linarith
    · have hb : (2 : ℝ) ^ (40 : ℤ) ≤ binary64.big := zpow_le_zpow_right₀ (by norm_num) (by decide)
      have : (2 : ℝ) ^ (40 : ℤ) = 1099511627776 := by norm_num
      linarith
  · intro h
    have hn : (n : ℝ) + 4 ≤ 362 := by
      have : (n : ℝ) ≤ 358 := by exact_mod_cast h
      linarith
    have h0 : (0 : ℝ) ≤ n := Nat.cast_nonneg n
    constructor
    · have : ((n : ℝ) + 4) ^ 2 ≤ 362 ^ 2 := pow_le_pow_left₀ (by linarith) hn 2
      have hu : binary32.u = 1 / 2 ^ 24 := by
        unfold Format.u binary32
        norm_num
      rw [hu]
      linarith
    · have hb : (2 : ℝ) ^ (40 : ℤ) ≤ binary32.big := zpow_le_zpow_right₀ (by norm_num) (by decide)
      have : (2 : ℝ) ^ (40 : ℤ) = 1099511627776 := by norm_num
      linarith

end Blast
