import Verif.Props.BinaryCholesky
/-
C94: the computed solution is close to the exact solution (forward error in IEEE arithmetic).
-/
namespace Blast
open Finset Bin
variable {F : Format}

/-- `w` is the inverse (from the left) of the `n × n` matrix `a` -/
def IsLeftInverse (n : Nat) (w a : Nat → Nat → ℝ) : Prop :=
  ∀ i j, i < n → j < n → ∑ k ∈ range n, w i k * a k j = if i = j then 1 else 0

/-- `y` is the exact solution of `a y = b` -/
def SolvesReal (n : Nat) (a : Nat → Nat → ℝ) (y b : Nat → ℝ) : Prop := ∀ i, i < n → ∑ k ∈ range n, a i k * y k = b i

/-- a vector is found back from the image of the matrix -/
theorem IsLeftInverse.apply {n : Nat} {w a : Nat → Nat → ℝ} (h : IsLeftInverse n w a) (v : Nat → ℝ) {i : Nat} (hi : i < n) :
    ∑ k ∈ range n, w i k * ∑ j ∈ range n, a k j * v j = v i := by
  have e1 : ∀ k ∈ range n, w i k * ∑ j ∈ range n, a k j * v j = ∑ j ∈ range n, w i k * a k j * v j := fun k _ => by
    rw [mul_sum]; exact sum_congr rfl (fun j _ => by ring)
  rw [sum_congr rfl e1, sum_comm]
  have e2 : ∀ j ∈ range n, ∑ k ∈ range n, w i k * a k j * v j = if j = i then v j else 0 := fun j hj => by
    rw [← sum_mul, h i j hi (mem_range.1 hj)]
    by_cases hij : i = j
    · rw [if_pos hij, if_pos hij.symm, one_mul]
    · rw [if_neg hij, if_neg (fun h => hij h.symm), zero_mul]
  rw [sum_congr rfl e2, sum_ite_eq' (range n) i, if_pos (mem_range.2 hi)]

/-- from the residual to the error, element by element -/
theorem forward_error {n : Nat} {w a : Nat → Nat → ℝ} (h : IsLeftInverse n w a) {x y b ρ : Nat → ℝ} (hy : SolvesReal n a y b)
    (hx : ∀ i, i < n → |b i - ∑ k ∈ range n, a i k * x k| ≤ ρ i) {i : Nat} (hi : i < n) : |x i - y i| ≤ ∑ k ∈ range n, |w i k| * ρ k := by
  have e : y i - x i = ∑ k ∈ range n, w i k * (b k - ∑ j ∈ range n, a k j * x j) := by
    rw [← h.apply y hi, ← h.apply x hi, ← sum_sub_distrib]
    refine sum_congr rfl (fun k hk => ?_)
    rw [hy k (mem_range.1 hk)]; ring
  rw [abs_sub_comm, e]
  refine le_trans (abs_sum_le_sum_abs _ _) (sum_le_sum (fun k hk => ?_))
  rw [abs_mul]
  exact mul_le_mul_of_nonneg_left (hx k (mem_range.1 hk)) (abs_nonneg _)

/-- from a residual relative to the computed solution to an error relative to the exact one -/
theorem forward_relative {n : Nat} {w a g : Nat → Nat → ℝ} (h : IsLeftInverse n w a) {x y b τ : Nat → ℝ} (hy : SolvesReal n a y b) {γ κ T Y : ℝ} (hγ : 0 ≤ γ)
    (hg : ∀ i k, 0 ≤ g i k) (hx : ∀ i, i < n → |b i - ∑ k ∈ range n, a i k * x k| ≤ γ * (∑ k ∈ range n, g i k * |x k|) + τ i)
    (hκ : ∀ i, i < n → ∑ k ∈ range n, |w i k| * ∑ q ∈ range n, g k q ≤ κ) (hT : ∀ i, i < n → ∑ k ∈ range n, |w i k| * τ k ≤ T)
    (hY : ∀ i, i < n → |y i| ≤ Y) (h1 : γ * κ < 1) {i : Nat} (hi : i < n) : |x i - y i| ≤ (γ * κ * Y + T) / (1 - γ * κ) := by
  obtain ⟨s, hs, hmax⟩ := exists_max_image (range n) (fun i => |x i - y i|) ⟨i, mem_range.2 hi⟩
  have hs' := mem_range.1 hs
  set D := |x s - y s| with hD
  have hxk : ∀ q, q ∈ range n → |x q| ≤ Y + D := fun q hq => by
    have h2 := hmax q hq
    have h3 := hY q (mem_range.1 hq)
    have h4 : |x q| ≤ |x q - y q| + |y q| := by simpa using abs_add_le (x q - y q) (y q)
    have h5 : |x q - y q| ≤ D := h2
    linarith
  have h0 : 0 ≤ Y + D := le_trans (abs_nonneg _) (hxk s hs)
  have hb : D ≤ γ * κ * (Y + D) + T := by
    refine le_trans (forward_error h hy hx hs') ?_
    have e1 : ∀ k ∈ range n, |w s k| * (γ * (∑ q ∈ range n, g k q * |x q|) + τ k) ≤ γ * (Y + D) * (|w s k| * ∑ q ∈ range n, g k q) + |w s k| * τ k := fun k _ => by
      have e2 : ∑ q ∈ range n, g k q * |x q| ≤ (∑ q ∈ range n, g k q) * (Y + D) := by
        rw [sum_mul]; exact sum_le_sum (fun q hq => mul_le_mul_of_nonneg_left (hxk q hq) (hg k q))
      have e3 := mul_le_mul_of_nonneg_left (mul_le_mul_of_nonneg_left e2 hγ) (abs_nonneg (w s k))
      nlinarith [e3]
    refine le_trans (sum_le_sum e1) ?_
    rw [sum_add_distrib, ← mul_sum]
    have e4 := mul_le_mul_of_nonneg_left (hκ s hs') (mul_nonneg hγ h0)
    have e5 := hT s hs'
    nlinarith [e4, e5]
  have h2 : |x i - y i| ≤ D := hmax i (mem_range.2 hi)
  rw [le_div_iff₀ (by linarith)]
  have h3 : |x i - y i| * (1 - γ * κ) ≤ D * (1 - γ * κ) := mul_le_mul_of_nonneg_right h2 (by linarith)
  nlinarith [h3, hb]

/-- a well conditioned matrix is far from the singular ones -/
theorem robust_of_inverse {n : Nat} {w a : Nat → Nat → ℝ} (h : IsLeftInverse n w a) {ω δ : ℝ} (hω : ∀ i, i < n → ∑ k ∈ range n, |w i k| ≤ ω)
    (h1 : ω * (n * δ) < 1) : RobustIndep δ n n a := by
  intro a' ha' v hv
  rw [Nat.min_self] at hv ⊢
  intro j hj
  obtain ⟨s, hs, hmax⟩ := exists_max_image (range n) (fun i => |v i|) ⟨j, mem_range.2 hj⟩
  have hs' := mem_range.1 hs
  have hb : |v s| ≤ ω * (n * δ) * |v s| := by
    have e1 : v s = ∑ k ∈ range n, w s k * ∑ q ∈ range n, (a k q - a' k q) * v q := by
      rw [← h.apply v hs']
      refine sum_congr rfl (fun k hk => ?_)
      have e2 : ∑ q ∈ range n, (a k q - a' k q) * v q = ∑ q ∈ range n, a k q * v q - ∑ q ∈ range n, a' k q * v q := by
        rw [← sum_sub_distrib]; exact sum_congr rfl (fun q _ => by ring)
      rw [e2, hv k (mem_range.1 hk), sub_zero]
    have e3 : ∀ k ∈ range n, |w s k * ∑ q ∈ range n, (a k q - a' k q) * v q| ≤ |w s k| * (n * δ * |v s|) := fun k hk => by
      rw [abs_mul]
      refine mul_le_mul_of_nonneg_left (le_trans (abs_sum_le_sum_abs _ _) ?_) (abs_nonneg _)
      have e4 : ∀ q ∈ range n, |(a k q - a' k q) * v q| ≤ δ * |v s| := fun q hq => by
        rw [abs_mul, abs_sub_comm]
        have h2 := ha' k q (mem_range.1 hk) (mem_range.1 hq)
        exact mul_le_mul h2 (hmax q hq) (abs_nonneg _) (le_trans (abs_nonneg _) h2)
      refine le_trans (sum_le_sum e4) ?_
      rw [sum_const, card_range, nsmul_eq_mul]
      linarith
    have e5 : |v s| ≤ ∑ k ∈ range n, |w s k| * (n * δ * |v s|) := by
      conv_lhs => rw [e1]
      exact le_trans (abs_sum_le_sum_abs _ _) (sum_le_sum e3)
    have hδ : 0 ≤ δ := le_trans (abs_nonneg _) (ha' s s hs' hs')
    rw [← sum_mul] at e5
    have e6 := mul_le_mul_of_nonneg_right (hω s hs') (show 0 ≤ (n : ℝ) * δ * |v s| by positivity)
    linarith
  have h0 : |v s| ≤ 0 := by
    by_contra hc
    have := mul_lt_mul_of_pos_right h1 (not_le.1 hc)
    linarith
  have hj' : |v j| ≤ |v s| := hmax j (mem_range.2 hj)
  exact abs_nonpos_iff.1 (le_trans hj' h0)

/-- **C94** (triangular systems). If the computed solution is finite, it differs from the exact solution `y` of the triangular system, element by element, at most by `|A⁻¹|` applied to the
backward error; with the condition number `κ` of the triangle (the largest row sum of `|A⁻¹||A|`) the error relative to the largest element of `y` is about `n u κ`. -/
theorem C94_trsm {SS : Nat} {m : Mem (Bin F)} {A B X : Container} (uplo : Reg.UpLo) (unit : Bool) (h : TrsmArgs SS m A B X)
    (hs : (A.rows = B.rows ∧ A.cols = B.rows) ∧ X.rows = B.rows ∧ X.cols = B.cols) {a b : Nat → Nat → Bin F}
    (ha : ContainsTri SS m A uplo unit a) (hb : Contains SS m B b) {w t : Nat → Nat → ℝ} (ht : t = tri uplo unit (fun i k => (a i k).real)) (hw : IsLeftInverse B.rows w t)
    {γ : ℝ} (hγ : γ = (1 / (1 - F.u)) ^ B.rows - 1) {τ : Nat → ℝ} (hτ : ∀ i, τ i = (1 + γ) * (3 * B.rows + |t i i|) * F.eta) :
    ∃ m' x, trsmCall SS uplo unit A B X m = .ok () m' ∧ Contains SS m' X x ∧
      ∀ j, j < B.cols → (∀ i, i < B.rows → (x i j).Finite) → (unit = false → ∀ i, i < B.rows → (a i i).Finite) →
        ∀ y, SolvesReal B.rows t y (fun i => (b i j).real) → ∀ i, i < B.rows →
          |(x i j).real - y i| ≤ ∑ k ∈ range B.rows, |w i k| * (γ * (∑ q ∈ range B.rows, |t k q| * |(x q j).real|) + τ k) ∧
          ∀ κ T Y, (∀ i, i < B.rows → ∑ k ∈ range B.rows, |w i k| * ∑ q ∈ range B.rows, |t k q| ≤ κ) → (∀ i, i < B.rows → ∑ k ∈ range B.rows, |w i k| * τ k ≤ T) →
            (∀ i, i < B.rows → |y i| ≤ Y) → γ * κ < 1 → |(x i j).real - y i| ≤ (γ * κ * Y + T) / (1 - γ * κ) := by
  obtain ⟨m', x, e1, e2, e3⟩ := C86_trsm uplo unit h hs ha hb
  refine ⟨m', x, e1, e2, fun j hj hf hd y hy i hi => ?_⟩
  obtain ⟨-, s2, s3⟩ := hs
  have hu := F.u_pos
  have hu1 := F.u_lt_one
  have hres : ∀ i, i < B.rows → |(b i j).real - ∑ k ∈ range B.rows, t i k * (x k j).real| ≤ γ * (∑ q ∈ range B.rows, |t i q| * |(x q j).real|) + τ i := fun i hi => by
    have e4 := (e3 i j (by omega) (by omega) (hf i hi) (fun hu => hd hu i hi)).2.2.2
    rw [s2, ← ht] at e4
    rw [hτ, hγ]
    refine le_trans e4 (le_of_eq ?_)
    ring
  have hγ0 : 0 ≤ γ := by
    rw [hγ, sub_nonneg]
    exact one_le_pow₀ (by rw [le_div_iff₀ (by linarith)]; linarith)
  exact ⟨forward_error hw hy hres hi, fun κ T Y hκ hT hY h1 => forward_relative hw hy hγ0 (fun _ _ => abs_nonneg _) hres hκ hT hY h1 hi⟩

/-- **C94** (LU). If the matrix is well conditioned - `ω` bounds the row sums of its inverse, and `ω` times the size of the backward error is below one - and the numbers are of moderate size,
then getrf does not throw, the computed solution is finite, and it differs from the exact solution relatively by at most about `θ`. -/
theorem C94_lu_solve (hW : F.Wide) {SS : Nat} (hSS : 0 < SS) {m0 : Mem (Bin F)} {A B : Container}
    (dA : A.isPanel = false) (dB : B.isPanel = false) (sA : A.so = .columnMajor) (lA : Live SS m0 A)
    (hap : Apart SS A B) (hsq : A.cols = A.rows) (hr : B.rows = A.rows)
    {a b : Nat → Nat → Bin F} (ha : Contains SS m0 A a) (hb : Contains SS m0 B b) (ip : Nat → Nat)
    (hn : ∀ i j, i < A.rows → j < A.rows → (a i j).IsNum) (hf : ∀ i j, i < A.rows → j < A.rows → (a i j).Finite) {μ β δ : ℝ} (h0 : 0 ≤ μ)
    (hμ : ∀ i j, i < A.rows → j < A.rows → |(a i j).real| ≤ μ) (hβ0 : 0 ≤ β)
    (hβ : ∀ i j, i < A.rows → j < B.cols → (b i j).Finite ∧ |(b i j).real| ≤ β) (hδ : 0 < δ)
    {G W c1 c2 Y X : ℝ} (hGe : G = (1 / (1 - F.u)) ^ A.rows) (hWe : W = (2 * (1 + F.u) ^ 2) ^ A.rows * (μ + 2 * F.eta)) (hbig : W < F.big)
    {w : Nat → Nat → ℝ} {ω : ℝ} (hw : IsLeftInverse A.rows w (fun i j => (a i j).real)) (hω : ∀ i, i < A.rows → ∑ k ∈ range A.rows, |w i k| ≤ ω)
    (hcond : ω * (A.rows * ((G - 1) * (A.rows * W) + G * (3 * A.rows + W) * F.eta + δ)) < 1)
    (hc1 : c1 = (1 + F.u) ^ (2 * A.rows + 1)) (hY : Y = c1 * (β + (2 * A.rows + 1) * F.eta) * (1 + c1) ^ A.rows) (hYb : Y < F.big)
    (hc2 : c2 = (1 + F.u) ^ (2 * A.rows + 1) / δ) (hX : X = c2 * (Y + (2 * A.rows + δ) * F.eta) * (1 + c2 * W) ^ A.rows) (hXb : X < F.big)
    (hXb' : δ * X < F.big) {γ θ T : ℝ} (hγ : γ = (G ^ 2 + G - 2) * (A.rows * W) + G * (3 * A.rows + W) * F.eta) (hθ : θ = γ * (ω * A.rows)) (hθ1 : θ < 1)
    (hT : T = ω * (G * ((3 * A.rows + 1) + A.rows * ((3 * A.rows + W) * G)) * F.eta)) :
    ∃ m' x, luSolve SS 1 A.rows B.cols (A.mptr SS) (B.mptr SS) ip m0 = .ok () m' ∧ Contains SS m' B x ∧
      (∀ j, j < B.cols → ∀ y, SolvesReal A.rows (fun i k => (a i k).real) y (fun i => (b i j).real) → ∀ M, (∀ i, i < A.rows → |y i| ≤ M) →
        ∀ i, i < A.rows → (x i j).Finite ∧ |(x i j).real - y i| ≤ (θ * M + T) / (1 - θ)) ∧
      (∀ z, ¬ IsElem SS A z → ¬ IsElem SS B z → m' z = m0 z) := by
  obtain ⟨m', x, e1, e2, e3, e4⟩ := C88_lu_solve_matrices hW hSS dA dB sA lA hap hsq hr ha hb ip hn hf h0 hμ hβ0 hβ hδ hGe hWe hbig (robust_of_inverse hw hω hcond)
    hc1 hY hYb hc2 hX hXb hXb'
  refine ⟨m', x, e1, e2, fun j hj y hy M hM i hi => ⟨(e3 i j hi hj).1, ?_⟩, e4⟩
  have hu := F.u_pos
  have hu1 := F.u_lt_one
  have he := F.eta_pos
  have hG1 : 1 ≤ G := by
    rw [hGe]
    exact one_le_pow₀ (by rw [le_div_iff₀ (by linarith)]; linarith)
  have hW0 : 0 ≤ W := by rw [hWe]; positivity
  have hγ0 : 0 ≤ γ := by
    rw [hγ]
    have h1 : 0 ≤ G ^ 2 + G - 2 := by nlinarith
    have h2 : 0 ≤ G * (3 * A.rows + W) * F.eta := by positivity
    have h3 : 0 ≤ (A.rows : ℝ) * W := by positivity
    have := mul_nonneg h1 h3
    linarith
  have hτ0 : 0 ≤ G * ((3 * A.rows + 1) + A.rows * ((3 * A.rows + W) * G)) * F.eta := by positivity
  have hres : ∀ i, i < A.rows → |(b i j).real - ∑ k ∈ range A.rows, (a i k).real * (x k j).real| ≤
      γ * (∑ k ∈ range A.rows, 1 * |(x k j).real|) + G * ((3 * A.rows + 1) + A.rows * ((3 * A.rows + W) * G)) * F.eta := fun i hi => by
    refine le_trans (e3 i j hi hj).2.2 (le_of_eq ?_)
    rw [hγ, ← mul_sum, sum_add_distrib, sum_const, card_range, nsmul_eq_mul, ← mul_sum]
    ring
  have hκ : ∀ i, i < A.rows → ∑ k ∈ range A.rows, |w i k| * ∑ q ∈ range A.rows, (1 : ℝ) ≤ ω * A.rows := fun i hi => by
    rw [sum_const, card_range, nsmul_eq_mul, mul_one, ← sum_mul]
    exact mul_le_mul_of_nonneg_right (hω i hi) (Nat.cast_nonneg _)
  have hT' : ∀ i, i < A.rows → ∑ k ∈ range A.rows, |w i k| * (G * ((3 * A.rows + 1) + A.rows * ((3 * A.rows + W) * G)) * F.eta) ≤ T := fun i hi => by
    rw [← sum_mul, hT]
    exact mul_le_mul_of_nonneg_right (hω i hi) hτ0
  rw [hθ]
  rw [hθ] at hθ1
  exact forward_relative hw hy hγ0 (fun _ _ => zero_le_one) hres hκ hT' hM hθ1 hi

/-- **C94** (Cholesky). The same for a symmetric positive definite matrix given by its lower triangle and the Cholesky factorization. -/
theorem C94_cholesky_solve (hW : F.Wide) {SS TR : Nat} {m0 : Mem (Bin F)} {A L B : Container} (h : PotrfArgs SS m0 A L) (hs : PotrfSizes A L)
    (hf : PotrfFits SS TR 4 A L) (hsq : A.cols = A.rows) (hr : B.rows = A.rows) (hap : Apart SS L B)
    {a b : Nat → Nat → Bin F} (ha : ContainsLower SS m0 A a) (hb : Contains SS m0 B b) (hn : ∀ i j, (a i j).IsNum)
    {μ ε δ σ lam Q E α β C Y X G H : ℝ} (hc : CholeskySafe F A.rows a μ ε δ σ lam Q E) (hα : 0 ≤ α) (hαE : μ + E ≤ α * α) (hβ : 0 ≤ β)
    (hbf : ∀ i j, i < A.rows → j < B.cols → (b i j).Finite ∧ |(b i j).real| ≤ β) (hC : C = (1 + F.u) ^ (2 * A.rows + 1) / δ)
    (hY : Y = C * (β + (2 * A.rows + δ) * F.eta) * (1 + C * α) ^ A.rows) (hY1 : Y < F.big) (hY2 : δ * Y < F.big)
    (hX : X = C * (Y + (2 * A.rows + δ) * F.eta) * (1 + C * α) ^ A.rows) (hX1 : X < F.big) (hX2 : δ * X < F.big)
    (hG : G = (1 / (1 - F.u)) ^ A.rows) (hH : H = (1 / (1 - F.u)) ^ (A.rows + 4))
    {w : Nat → Nat → ℝ} {ω : ℝ} (hw : IsLeftInverse A.rows w (fun i k => (a (max i k) (min i k)).real)) (hω : ∀ i, i < A.rows → ∑ k ∈ range A.rows, |w i k| ≤ ω)
    {γ θ T : ℝ} (hγ : γ = (G ^ 2 + H - 2) * (μ + E) + H * (2 * A.rows + α) * F.eta) (hθ : θ = γ * (ω * A.rows)) (hθ1 : θ < 1)
    (hT : T = ω * ((G * (3 * A.rows + α) + G ^ 2 * (A.rows * (α * (3 * A.rows + α)))) * F.eta)) :
    ∃ m' x, choleskySolve SS TR A L B m0 = .ok () m' ∧ Contains SS m' B x ∧
      (∀ j, j < B.cols → ∀ y, SolvesReal A.rows (fun i k => (a (max i k) (min i k)).real) y (fun i => (b i j).real) → ∀ M, (∀ i, i < A.rows → |y i| ≤ M) →
        ∀ i, i < A.rows → (x i j).Finite ∧ |(x i j).real - y i| ≤ (θ * M + T) / (1 - θ)) ∧
      (∀ z, ¬ L.Storage SS z → ¬ IsElem SS B z → m' z = m0 z) := by
  obtain ⟨m', x, e1, e2, e3, e4⟩ := C88_cholesky_total hW h hs hf hsq hr hap ha hb hn hc hα hαE hβ hbf hC hY hY1 hY2 hX hX1 hX2 hG hH
  refine ⟨m', x, e1, e2, fun j hj y hy M hM i hi => ⟨(e3 i j hi hj).1, ?_⟩, e4⟩
  have hu := F.u_pos
  have hu1 := F.u_lt_one
  have he := F.eta_pos
  have hb1 : 1 ≤ 1 / (1 - F.u) := by rw [le_div_iff₀ (by linarith)]; linarith
  have hG1 : 1 ≤ G := by rw [hG]; exact one_le_pow₀ hb1
  have hH1 : 1 ≤ H := by rw [hH]; exact one_le_pow₀ hb1
  have hμE : 0 ≤ μ + E := by
    have hμ0 : 0 ≤ μ := le_trans (abs_nonneg _) (hc.le i i le_rfl hi)
    have hσ : 0 ≤ σ := by rw [hc.σ_eq]; positivity
    have hb0 : 0 ≤ 1 / (1 - F.u) := by linarith
    have hl : 0 ≤ lam := by rw [hc.lam_eq]; positivity
    have hQ : 0 ≤ Q := by rw [hc.Q_eq]; positivity
    have hE : 0 ≤ E := by
      rw [hc.E_eq]
      have h1 : 0 ≤ ((1 / (1 - F.u)) ^ (A.rows + 4) - 1) * Q := mul_nonneg (sub_nonneg.2 (one_le_pow₀ hb1)) hQ
      have h2 : 0 ≤ (1 / (1 - F.u)) ^ (A.rows + 4) * (2 * A.rows + lam) * F.eta := by positivity
      linarith
    linarith
  have hγ0 : 0 ≤ γ := by
    rw [hγ]
    have h1 : 0 ≤ G ^ 2 + H - 2 := by nlinarith
    have h2 : 0 ≤ H * (2 * A.rows + α) * F.eta := by positivity
    have := mul_nonneg h1 hμE
    linarith
  have hτ0 : 0 ≤ (G * (3 * A.rows + α) + G ^ 2 * (A.rows * (α * (3 * A.rows + α)))) * F.eta := by positivity
  have hres : ∀ i, i < A.rows → |(b i j).real - ∑ k ∈ range A.rows, (a (max i k) (min i k)).real * (x k j).real| ≤
      γ * (∑ k ∈ range A.rows, 1 * |(x k j).real|) + (G * (3 * A.rows + α) + G ^ 2 * (A.rows * (α * (3 * A.rows + α)))) * F.eta := fun i hi => by
    refine le_trans (e3 i j hi hj).2.2 (le_of_eq ?_)
    rw [hγ, ← mul_sum]
    ring
  have hκ : ∀ i, i < A.rows → ∑ k ∈ range A.rows, |w i k| * ∑ q ∈ range A.rows, (1 : ℝ) ≤ ω * A.rows := fun i hi => by
    rw [sum_const, card_range, nsmul_eq_mul, mul_one, ← sum_mul]
    exact mul_le_mul_of_nonneg_right (hω i hi) (Nat.cast_nonneg _)
  have hT' : ∀ i, i < A.rows → ∑ k ∈ range A.rows, |w i k| * ((G * (3 * A.rows + α) + G ^ 2 * (A.rows * (α * (3 * A.rows + α)))) * F.eta) ≤ T := fun i hi => by
    rw [← sum_mul, hT]
    exact mul_le_mul_of_nonneg_right (hω i hi) hτ0
  rw [hθ]
  rw [hθ] at hθ1
  exact forward_relative hw hy hγ0 (fun _ _ => zero_le_one) hres hκ hT' hM hθ1 hi

end Blast
