import Verif.BinaryPotrf
import Verif.Props.BinarySystem
/-
C86, C88: the Cholesky factorization and the solution of positive definite systems in IEEE arithmetic do not overflow if the matrix has moderate elements and its smallest
eigenvalue exceeds the rounding errors.
-/
set_option linter.unusedSectionVars false
namespace Blast
open Finset Prog Reg
variable {F : Format}

/-- The elements of the lower triangle `a` are numbers of the format with absolute value at most μ. The smallest eigenvalue of the symmetric matrix with lower triangle `a` is at
least ε; it exceeds (n + 1) E, the bound of the rounding errors of the factorization, by (δ / (1 - u)⁴)²; and the intermediate results stay below the overflow threshold. -/
structure CholeskySafe (F : Format) (n : Nat) (a : Nat → Nat → Bin F) (μ ε δ σ lam Q E : ℝ) : Prop where
  fin : ∀ i j, j ≤ i → i < n → (a i j).Finite
  le : ∀ i j, j ≤ i → i < n → |(a i j).real| ≤ μ
  eig : LowerEigGe ε n (fun i j => (a i j).real)
  σ_eq : σ = (1 + F.u) ^ n * (2 * μ + n * F.eta)
  lam_eq : lam = (1 / (1 - F.u)) ^ 4 * (1 + σ)
  Q_eq : Q = μ + (1 / (1 - F.u)) ^ 4 * σ + lam * F.eta
  E_eq : E = ((1 / (1 - F.u)) ^ (n + 4) - 1) * Q + (1 / (1 - F.u)) ^ (n + 4) * (2 * n + lam) * F.eta
  δ_pos : 0 < δ
  δ_le : ((1 / (1 - F.u)) ^ 4 * δ) * ((1 / (1 - F.u)) ^ 4 * δ) ≤ ε - (n + 1) * E
  big1 : σ < F.big
  big2 : (1 + F.u) * (σ / δ) + F.eta < F.big

/-- a finite Cholesky factor: all elements finite, diagonal at least δ, rows of norm at most √(μ + E), and L Lᵀ = A up to E -/
def IsFiniteCholesky (F : Format) (n : Nat) (l a : Nat → Nat → Bin F) (μ δ E : ℝ) : Prop :=
  ∀ i, i < n → δ ≤ (l i i).real ∧ ∑ q ∈ range (i + 1), (l i q).real * (l i q).real ≤ μ + E ∧
    ∀ j, j ≤ i → (l i j).Finite ∧ |(a i j).real - ∑ q ∈ range (j + 1), (l i q).real * (l j q).real| ≤ E

theorem potrf_bin_safe (hW : F.Wide) {SS TR KN : Nat} {m m' : Mem (Bin F)} {A L : Container} {W : Nat → Nat → Prop} {f : Bin F → Bin F}
    (hf1 : ∀ x, x.IsNum → (f x).IsNum ∧ (x.Finite → (f x).Finite ∧ (f x).real = x.real))
    (h : PotrfArgs SS m A L) (hs : PotrfSizes A L) (hf : PotrfFits SS TR KN A L) (hsq : A.cols = A.rows)
    {a : Nat → Nat → Bin F} (ha : ContainsLower SS m A a) (hn : ∀ i j, j ≤ i → i < A.rows → (a i j).IsNum)
    {μ ε δ σ lam Q E : ℝ} (hc : CholeskySafe F A.rows a μ ε δ σ lam Q E)
    (hp : PotrfSpec SS TR KN A.rows A.cols (roundUp A.rows SS) W (A.mptr SS) (L.mptr SS) f m m') :
    ∃ l, ContainsLower SS m' L l ∧ IsFiniteCholesky F A.rows l a μ δ E := by
  obtain ⟨_, h2, h3⟩ := hp
  obtain ⟨e1, e2, e3⟩ := hs
  refine ⟨fun r c => val m' ((L.mptr SS).addr SS r c), fun i j hji hi hj => ?_, ?_⟩
  · have := h2 _ (h.lL.alloc _ (L.addr_storage h.ss hi hj))
    rw [Option.isSome_iff_exists] at this
    obtain ⟨v, hv⟩ := this
    unfold val
    beta_reduce
    rw [← Container.addr_eq_mptr, hv]; rfl
  · have hreal : ∀ i j, j ≤ i → i < A.rows → (f (a i j)).Finite ∧ (f (a i j)).real = (a i j).real := fun i j hji hi => (hf1 _ (hn i j hji hi)).2 (hc.fin i j hji hi)
    have key := Bin.potRec_fwd hW (T := TR * SS) (KN := KN) (n := A.rows) hf.kn hf.knT (l := fun r c => val m' ((L.mptr SS).addr SS r c)) (a := fun i j => f (a i j))
      (fun i j hji hi => (hf1 _ (hn i j hji hi)).1) (μ := μ) (ε := ε) (δ := δ)
      (fun i j hji hi => by
        obtain ⟨r1, r2⟩ := hreal i j hji hi
        exact ⟨r1, by rw [r2]; exact hc.le i j hji hi⟩)
      (fun r c hcr hr => by
        have := h3 r c hcr hr (by omega)
        refine this.congr (fun _ _ => rfl) (fun _ _ => rfl) ?_ ?_
        · unfold val; rw [← Container.addr_eq_mptr, ha r c hcr hr (by omega)]; rfl
        · unfold val; rw [← Container.addr_eq_mptr, ha c c (Nat.le_refl _) (by omega) (by omega)]; rfl)
      (by
        intro x
        refine le_trans (hc.eig x) (le_of_eq (sum_congr rfl fun i hi => sum_congr rfl fun j hj => ?_))
        rw [mem_range] at hi hj
        beta_reduce
        rw [(hreal (max i j) (min i j) (by omega) (by omega)).2])
      rfl hc.σ_eq hc.lam_eq hc.Q_eq hc.E_eq hc.δ_pos hc.δ_le hc.big1 hc.big2 A.rows le_rfl
    intro i hi
    have kk := key i hi i le_rfl hi
    refine ⟨kk.2.1, ?_, fun j hji => ?_⟩
    · have h4 := (abs_le.1 kk.2.2).1
      beta_reduce at h4
      rw [(hreal i i le_rfl hi).2] at h4
      have h5 := le_trans (le_abs_self _) (hc.le i i le_rfl hi)
      linarith
    · obtain ⟨k1, -, k3⟩ := key j (by omega) i hji hi
      beta_reduce at k3
      rw [(hreal i j hji hi).2] at k3
      exact ⟨k1, k3⟩

/-- **C86** (potrf, dense, no overflow). If the elements of a square matrix are moderate and its smallest eigenvalue exceeds the rounding errors, potrf computes a finite
factor with diagonal at least δ whose product is the matrix up to E. L may be A. -/
theorem C86_potrf_dense_safe (hW : F.Wide) {SS TR : Nat} {m : Mem (Bin F)} {A L : Container} (h : PotrfArgs SS m A L) (hs : PotrfSizes A L)
    (hf : PotrfFits SS TR 4 A L) (hsq : A.cols = A.rows) {a : Nat → Nat → Bin F} (ha : ContainsLower SS m A a) (hn : ∀ i j, j ≤ i → i < A.rows → (a i j).IsNum)
    {μ ε δ σ lam Q E : ℝ} (hc : CholeskySafe F A.rows a μ ε δ σ lam Q E) :
    ∃ m' l, potrfDenseCall SS TR A L m = .ok () m' ∧ ContainsLower SS m' L l ∧ IsFiniteCholesky F A.rows l a μ δ E ∧ (∀ z, ¬ L.Storage SS z → m' z = m z) := by
  obtain ⟨m', e1, e2⟩ := potrfDenseCall_spec h hs hf
  obtain ⟨m1', e1', fr, -⟩ := C16_potrf_dense_frame h hs hf
  rw [e1] at e1'
  injection e1' with _ e1'
  subst e1'
  obtain ⟨l, l1, l2⟩ := potrf_bin_safe hW (fun x hx => ⟨Bin.isNum_mul _ _, fun hx' => Bin.mul_one' hx hx'⟩) h hs hf hsq ha hn hc e2
  exact ⟨m', l, e1, l1, l2, fr⟩

/-- **C86** (potrf, panel matrices, no overflow). -/
theorem C86_potrf_panel_safe (hW : F.Wide) {SS KN : Nat} {m : Mem (Bin F)} {A L : Container} (h : PotrfArgs SS m A L) (hs : PotrfSizes A L)
    (hf : PotrfFits SS 1 KN A L) (hsq : A.cols = A.rows) {a : Nat → Nat → Bin F} (ha : ContainsLower SS m A a) (hn : ∀ i j, j ≤ i → i < A.rows → (a i j).IsNum)
    {μ ε δ σ lam Q E : ℝ} (hc : CholeskySafe F A.rows a μ ε δ σ lam Q E) :
    ∃ m' l, potrfPanelCall SS KN A L m = .ok () m' ∧ ContainsLower SS m' L l ∧ IsFiniteCholesky F A.rows l a μ δ E := by
  obtain ⟨m', e1, e2⟩ := potrfPanelCall_spec h hs hf
  obtain ⟨l, l1, l2⟩ := potrf_bin_safe hW (fun x hx => ⟨hx, fun hx' => ⟨hx', rfl⟩⟩) h hs hf hsq ha hn hc e2
  exact ⟨m', l, e1, l1, l2⟩

/-- **C88** (Cholesky, no overflow). If in addition the right-hand sides are moderate, potrf followed by the two substitutions computes a finite, explicitly bounded X with
`S X = B` up to an explicit residual, S being the symmetric matrix whose lower triangle is in A; nothing but L and B changes. -/
theorem C88_cholesky_total (hW : F.Wide) {SS TR : Nat} {m0 : Mem (Bin F)} {A L B : Container} (h : PotrfArgs SS m0 A L) (hs : PotrfSizes A L)
    (hf : PotrfFits SS TR 4 A L) (hsq : A.cols = A.rows) (hr : B.rows = A.rows) (hap : Apart SS L B)
    {a b : Nat → Nat → Bin F} (ha : ContainsLower SS m0 A a) (hb : Contains SS m0 B b) (hn : ∀ i j, (a i j).IsNum)
    {μ ε δ σ lam Q E α β C Y X G H : ℝ} (hc : CholeskySafe F A.rows a μ ε δ σ lam Q E) (hα : 0 ≤ α) (hαE : μ + E ≤ α * α) (hβ : 0 ≤ β)
    (hbf : ∀ i j, i < A.rows → j < B.cols → (b i j).Finite ∧ |(b i j).real| ≤ β) (hC : C = (1 + F.u) ^ (2 * A.rows + 1) / δ)
    (hY : Y = C * (β + (2 * A.rows + δ) * F.eta) * (1 + C * α) ^ A.rows) (hY1 : Y < F.big) (hY2 : δ * Y < F.big)
    (hX : X = C * (Y + (2 * A.rows + δ) * F.eta) * (1 + C * α) ^ A.rows) (hX1 : X < F.big) (hX2 : δ * X < F.big)
    (hG : G = (1 / (1 - F.u)) ^ A.rows) (hH : H = (1 / (1 - F.u)) ^ (A.rows + 4)) :
    ∃ m' x, choleskySolve SS TR A L B m0 = .ok () m' ∧ Contains SS m' B x ∧
      (∀ i j, i < A.rows → j < B.cols → (x i j).Finite ∧ |(x i j).real| ≤ X ∧
        |(b i j).real - ∑ k ∈ range A.rows, (a (max i k) (min i k)).real * (x k j).real| ≤
          (G ^ 2 + H - 2) * (μ + E) * (∑ k ∈ range A.rows, |(x k j).real|) +
            (G * (3 * A.rows + α) + G ^ 2 * (A.rows * (α * (3 * A.rows + α))) + H * ((2 * A.rows + α) * ∑ k ∈ range A.rows, |(x k j).real|)) * F.eta) ∧
      (∀ z, ¬ L.Storage SS z → ¬ IsElem SS B z → m' z = m0 z) := by
  obtain ⟨m1, l, e1, l1, l2, -⟩ := C86_potrf_dense_safe hW h hs hf hsq ha (fun i j _ _ => hn i j) hc
  obtain ⟨m', q1, q2, q3, q4⟩ := choleskySolve_det h hs hf hsq hr hap hb e1 l1
  obtain ⟨m'', l', x, p1, p2, p3, -, p5, -⟩ := C88_cholesky_solve hW h hs hf hsq hr hap ha hb hn
  rw [q1] at p1
  injection p1 with _ p1
  subst p1
  obtain ⟨s1, s2, s3⟩ := hs
  have el : ∀ i j, j ≤ i → i < A.rows → l' i j = l i j := fun i j hji hi =>
    Option.some.inj ((p2 i j hji (by omega) (by omega)).symm.trans (q2 i j hji (by omega) (by omega)))
  have ex : ∀ i j, i < A.rows → j < B.cols → x i j = trsmSol .upper false A.rows (fun i j => l j i) (fun i => trsmSol .lower false A.rows l (fun i => b i j) i) i :=
    fun i j hi hj => Option.some.inj ((p3 i j (by omega) hj).symm.trans (q3 i j (by omega) hj))
  have hu := F.u_pos
  have he := F.eta_pos
  have hlf : ∀ i j, j ≤ i → i < A.rows → (l i j).Finite := fun i j hji hi => ((l2 i hi).2.2 j hji).1
  have hrow : ∀ i, i < A.rows → ∀ j, j ≤ i → |(l i j).real| ≤ α := by
    intro i hi j hji
    have h1 := (l2 i hi).2.1
    have h2 := single_le_sum (f := fun q => (l i q).real * (l i q).real) (fun q _ => mul_self_nonneg _) (mem_range.2 (show j < i + 1 by omega))
    beta_reduce at h2
    exact abs_le_of_sq_le_sq (by rw [sq, sq]; linarith) hα
  have hy : ∀ j, j < B.cols → ∀ i, i < A.rows → (trsmSol .lower false A.rows l (fun i => b i j) i).Finite ∧ |(trsmSol .lower false A.rows l (fun i => b i j) i).real| ≤ Y := by
    intro j hj
    refine Bin.trsmRec_fwd (trsmSol_rec .lower false A.rows l (fun i => b i j)) hα hc.δ_pos (fun h => by cases h) (fun i k hi hk hne href => ?_)
      (fun _ i hi => ⟨hlf i i le_rfl hi, le_trans (l2 i hi).1 (le_abs_self _)⟩) (fun i hi => hbf i j hi hj) hβ hC hY hY1 hY2
    have hki : k ≤ i := by unfold TriRef at href; simp at href; omega
    exact ⟨hlf i k hki hi, hrow i hi k hki⟩
  have hC0 : 0 < C := by rw [hC]; have := hc.δ_pos; positivity
  have hY0 : 0 ≤ Y := by rw [hY]; have := hc.δ_pos; positivity
  have hx : ∀ j, j < B.cols → ∀ i, i < A.rows → (x i j).Finite ∧ |(x i j).real| ≤ X := by
    intro j hj i hi
    rw [ex i j hi hj]
    refine Bin.trsmRec_fwd (trsmSol_rec .upper false A.rows (fun i j => l j i) (fun i => trsmSol .lower false A.rows l (fun i => b i j) i)) hα hc.δ_pos (fun h => by cases h)
      (fun i k hi hk hne href => ?_) (fun _ i hi => ⟨hlf i i le_rfl hi, le_trans (l2 i hi).1 (le_abs_self _)⟩) (hy j hj) hY0 hC hX hX1 hX2 i hi
    have hki : i ≤ k := by unfold TriRef at href; simp at href; omega
    exact ⟨hlf k i hki hk, hrow k hk i hki⟩
  refine ⟨m', x, q1, p3, fun i j hi hj => ⟨(hx j hj i hi).1, (hx j hj i hi).2, ?_⟩, q4⟩
  obtain ⟨-, r⟩ := p5 (fun i j hji hi => by rw [el i j hji hi]; exact hlf i j hji hi) j hj (fun i hi => (hx j hj i hi).1)
  refine le_trans (r i hi) ?_
  have hn0 : (0 : ℝ) ≤ A.rows := Nat.cast_nonneg _
  have hv := Bin.bu_pos (F := F)
  have hw1 : 1 ≤ 1 / (1 - F.u) := by rw [← one_add_bu F.u_lt_one]; linarith
  have hG1 : 1 ≤ G := by rw [hG]; exact one_le_pow₀ hw1
  have hH1 : 1 ≤ H := by rw [hH]; exact one_le_pow₀ hw1
  have eG2 : (1 / (1 - F.u)) ^ (2 * A.rows) = G ^ 2 := by rw [hG, ← pow_mul, mul_comm]
  rw [eG2, ← hG, ← hH]
  have hG2 : 1 ≤ G ^ 2 := one_le_pow₀ hG1
  set t : Nat → Nat → ℝ := fun i q => tri .lower false (fun i j => (l' i j).real) i q with ht
  have htle : ∀ i, i < A.rows → ∀ q, q ≤ i → t i q = (l i q).real := by
    intro i hi q hq
    simp only [ht]
    rcases Nat.lt_or_eq_of_le hq with h1 | h1
    · rw [tri_lower h1, el i q hq hi]
    · subst h1
      rw [tri_diag]
      simp only [Bool.false_eq_true, if_false]
      rw [el q q le_rfl hi]
  have ht0 : ∀ i q, i < q → t i q = 0 := fun i q h1 => tri_lower_zero h1
  have htα : ∀ i, i < A.rows → ∀ q, |t i q| ≤ α := by
    intro i hi q
    rcases Nat.lt_or_ge i q with h1 | h1
    · rw [ht0 i q h1, abs_zero]; exact hα
    · rw [htle i hi q h1]; exact hrow i hi q h1
  have htn : ∀ i, i < A.rows → ∑ q ∈ range A.rows, t i q * t i q ≤ μ + E := by
    intro i hi
    have e : ∑ q ∈ range A.rows, t i q * t i q = ∑ q ∈ range (i + 1), (l i q).real * (l i q).real := by
      symm
      rw [show ∑ q ∈ range (i + 1), (l i q).real * (l i q).real = ∑ q ∈ range (i + 1), t i q * t i q from
        sum_congr rfl fun q hq => by rw [htle i hi q (by have := mem_range.1 hq; omega)]]
      refine sum_subset ?_ ?_
      · intro q hq; rw [mem_range] at *; omega
      · intro q _ hq; rw [mem_range] at hq; rw [ht0 i q (by omega), mul_zero]
    rw [e]
    exact (l2 i hi).2.1
  have b1 : ∑ q ∈ range A.rows, ∑ k ∈ range A.rows, |t i q| * |t k q| * |(x k j).real| ≤ (μ + E) * ∑ k ∈ range A.rows, |(x k j).real| := by
    rw [sum_comm, mul_sum]
    refine sum_le_sum fun k hk => ?_
    rw [← sum_mul]
    refine mul_le_mul_of_nonneg_right ?_ (abs_nonneg _)
    have := Bin.sum_abs_mul_le (htn i hi) (htn k (mem_range.1 hk))
    refine le_trans (le_of_eq (sum_congr rfl fun q _ => (abs_mul _ _).symm)) this
  have hd : ∀ q, q < A.rows → |(l' q q).real| ≤ α := fun q hq => by rw [el q q le_rfl hq]; exact hrow q hq q le_rfl
  have b2 : ∑ q ∈ range A.rows, |t i q| * (3 * A.rows + |(l' q q).real|) ≤ A.rows * (α * (3 * A.rows + α)) := by
    refine le_trans (sum_le_sum (g := fun _ => α * (3 * A.rows + α)) fun q hq => ?_) (by rw [sum_const, card_range, nsmul_eq_mul])
    have := hd q (mem_range.1 hq)
    exact mul_le_mul (htα i hi q) (by linarith) (by positivity) hα
  have b3 : ∑ k ∈ range A.rows, (2 * A.rows + |(l' (min i k) (min i k)).real|) * |(x k j).real| ≤ (2 * A.rows + α) * ∑ k ∈ range A.rows, |(x k j).real| := by
    rw [mul_sum]
    refine sum_le_sum fun k hk => mul_le_mul_of_nonneg_right ?_ (abs_nonneg _)
    have := hd (min i k) (by have := mem_range.1 hk; omega)
    linarith
  have b4 := hd i hi
  refine add_le_add ?_ (mul_le_mul_of_nonneg_right ?_ he.le)
  · have := mul_le_mul_of_nonneg_left b1 (show 0 ≤ G ^ 2 + H - 2 by linarith)
    linarith
  · have c1 := mul_le_mul_of_nonneg_left b4 (show 0 ≤ G by linarith)
    have c2 := mul_le_mul_of_nonneg_left b2 (show 0 ≤ G ^ 2 by linarith)
    have c3 := mul_le_mul_of_nonneg_left b3 (show 0 ≤ H by linarith)
    linarith

end Blast
