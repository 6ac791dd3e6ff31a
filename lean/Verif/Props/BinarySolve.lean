import Verif.BinarySolve
import Verif.Props.BackwardSolve
import Verif.Props.BackwardPotrf
import Verif.Props.Reproducible
/- Concrete cases meeting the hypotheses of these theorems: Verif/Cases/BinarySolve.lean. -/
/-
Property C86: triangular solves and the Cholesky factorization in the binary formats of IEEE 754, with underflow, overflow, infinities and NaN.
-/
namespace Blast
open Finset Reg
variable {F : Format}

/-- one row of substitution -/
theorem Bin.trsmRec_inv {uplo : UpLo} {unit : Bool} {m : Nat} {a : Nat → Nat → Bin F} {b x : Nat → Bin F} (h : TrsmRec uplo unit m a b x) {i : Nat} (hi : i < m)
    (hf : (x i).Finite) (hd : unit = false → (a i i).Finite) :
    (b i).Finite ∧ (unit = false → (a i i).real ≠ 0) ∧ (∀ k, k < m → k ≠ i → TriRef uplo unit i k → (a i k).Finite ∧ (x k).Finite) ∧
    |(b i).real - ∑ k ∈ range m, tri uplo unit (fun i k => (a i k).real) i k * (x k).real| ≤
      ((1 / (1 - F.u)) ^ m - 1) * ∑ k ∈ range m, |tri uplo unit (fun i k => (a i k).real) i k| * |(x k).real| +
        (1 / (1 - F.u)) ^ m * (3 * m + |tri uplo unit (fun i k => (a i k).real) i i|) * F.eta := by
  have hx := h i hi
  have hv := Bin.bu_pos (F := F)
  have he := F.eta_pos
  have hcnt : solveHi uplo m i - solveLo uplo i + 1 ≤ m := by
    cases uplo with
    | lower => simp only [solveHi, solveLo]; omega
    | upper => simp only [solveHi, solveLo]; omega
  set n := solveHi uplo m i - solveLo uplo i with hn
  set lo := solveLo uplo i with hlo
  dsimp only at hx
  set S := subFold (fun k => Arith.mul (a i k) (x k)) (b i) lo n with hS
  set d := tri uplo unit (fun i k => (a i k).real) i i with hdd
  -- the division
  have hdiv : S.Finite ∧ (unit = false → (a i i).real ≠ 0) ∧ |S.real - (x i).real * d| ≤ bu F.u * |(x i).real * d| + (1 + bu F.u) * (|d| * F.eta) := by
    cases unit with
    | true =>
      rw [if_pos rfl] at hx
      have e : d = 1 := by rw [hdd, tri_diag]; rfl
      rw [← hx, e]
      refine ⟨hf, ⟨(fun h => by cases h), ?_⟩⟩
      rw [mul_one, sub_self, abs_zero]
      positivity
    | false =>
      rw [if_neg (by simp)] at hx
      have e : d = (a i i).real := by rw [hdd, tri_diag]; rfl
      rw [e, hx]
      rw [hx] at hf
      obtain ⟨h1, h2, h3⟩ := Bin.div_back (hd rfl) hf
      exact ⟨h1, fun _ => h2, h3⟩
  obtain ⟨f1, f2, f3⟩ := hdiv
  obtain ⟨g1, g2, g3⟩ := Bin.subFold_inv lo n f1
  rw [← hS] at g3
  refine ⟨g1, f2, fun k hk hki hr => ?_, ?_⟩
  · have hrange : lo ≤ k ∧ k < lo + n := by
      rcases hr with ⟨h1, -⟩ | ⟨h1, h2⟩ | ⟨h1, h2⟩
      · exact absurd h1.symm hki
      · subst h1; rw [hn, hlo]; simp only [solveHi, solveLo]; omega
      · subst h1; rw [hn, hlo]; simp only [solveHi, solveLo]; omega
    have := g2 (k - lo) (by omega)
    rwa [show lo + (k - lo) = k by omega] at this
  · have hdec : ∀ g : Nat → ℝ, (∀ k, tri uplo unit (fun i k => (a i k).real) i k = 0 → g k = 0) → ∑ k ∈ range m, g k = g i + ∑ k ∈ range n, g (lo + k) := by
      intro g hg
      rw [hn, hlo]
      cases uplo with
      | lower =>
        rw [sum_lower _ hi (fun k hk => hg k (tri_lower_zero hk)), add_comm]
        simp [solveHi, solveLo]
      | upper =>
        rw [sum_upper _ hi (fun k hk => hg k (tri_upper_zero hk))]
        simp [solveHi, solveLo]
    have htri : ∀ k, k < n → tri uplo unit (fun i k => (a i k).real) i (lo + k) = (a i (lo + k)).real := by
      intro k hk
      rw [hn, hlo] at hk
      rw [hlo]
      cases uplo with
      | lower =>
        simp only [solveHi, solveLo] at hk ⊢
        exact tri_lower (by omega)
      | upper =>
        simp only [solveHi, solveLo] at hk ⊢
        exact tri_upper (by omega)
    rw [hdec (fun k => tri uplo unit (fun i k => (a i k).real) i k * (x k).real) (fun k hk => by rw [hk, zero_mul]),
      hdec (fun k => |tri uplo unit (fun i k => (a i k).real) i k| * |(x k).real|) (fun k hk => by rw [hk, abs_zero, zero_mul])]
    have s1 : ∑ k ∈ range n, tri uplo unit (fun i k => (a i k).real) i (lo + k) * (x (lo + k)).real = ∑ k ∈ range n, (a i (lo + k)).real * (x (lo + k)).real :=
      sum_congr rfl fun k hk => by rw [htri k (mem_range.1 hk)]
    have s2 : ∑ k ∈ range n, |tri uplo unit (fun i k => (a i k).real) i (lo + k)| * |(x (lo + k)).real| = ∑ k ∈ range n, |(a i (lo + k)).real * (x (lo + k)).real| :=
      sum_congr rfl fun k hk => by rw [htri k (mem_range.1 hk), abs_mul]
    rw [s1, s2]
    rw [← hdd, mul_comm d, mul_comm |d|, ← abs_mul]
    have hg1 : 1 ≤ (1 + bu F.u) ^ n := one_le_pow₀ (by linarith)
    have hQ : 0 ≤ ∑ k ∈ range n, |(a i (lo + k)).real * (x (lo + k)).real| := sum_nonneg fun _ _ => abs_nonneg _
    have r := etaSubst (by linarith) hQ g3 f3 le_rfl hv (abs_nonneg _)
    refine le_trans r ?_
    rw [← one_add_bu F.u_lt_one]
    have p1 : (1 + bu F.u) ^ (n + 1) ≤ (1 + bu F.u) ^ m := pow_le_pow_right₀ (by linarith) hcnt
    have p2 : (1 + bu F.u) ^ n ≤ (1 + bu F.u) ^ m := pow_le_pow_right₀ (by linarith) (by omega)
    have q1 : (1 + ((1 + bu F.u) ^ n - 1)) * (1 + bu F.u) = (1 + bu F.u) ^ (n + 1) := by ring
    rw [q1]
    have hX : 0 ≤ |(x i).real * d| + ∑ k ∈ range n, |(a i (lo + k)).real * (x (lo + k)).real| := add_nonneg (abs_nonneg _) hQ
    have c1 := mul_le_mul_of_nonneg_right (show (1 + bu F.u) ^ (n + 1) - 1 ≤ (1 + bu F.u) ^ m - 1 by linarith) hX
    have hnm : (n : ℝ) ≤ m := by exact_mod_cast (by omega : n ≤ m)
    have hn0 : (0 : ℝ) ≤ n := Nat.cast_nonneg n
    have c2 : (n : ℝ) * (1 + bu F.u) ^ n * (3 * F.eta) ≤ m * (1 + bu F.u) ^ m * (3 * F.eta) :=
      mul_le_mul_of_nonneg_right (mul_le_mul hnm p2 (by linarith) (by linarith)) (by linarith)
    have c3 : (1 + ((1 + bu F.u) ^ n - 1)) * ((1 + bu F.u) * (|d| * F.eta)) ≤ (1 + bu F.u) ^ m * (|d| * F.eta) := by
      rw [← mul_assoc, q1]
      exact mul_le_mul_of_nonneg_right p1 (by positivity)
    refine le_trans (add_le_add (add_le_add c1 c2) c3) (le_of_eq ?_)
    ring

/-- **C86** (trsm). Every finite element of the computed X whose diagonal element of A is finite: the right-hand side and all elements of A and X that belong to it are finite,
the diagonal element is not zero, and its equation of `tri(A) X = B` holds up to the rounding errors and underflow. -/
theorem C86_trsm {SS : Nat} {m : Mem (Bin F)} {A B X : Container} (uplo : UpLo) (unit : Bool) (h : TrsmArgs SS m A B X)
    (hs : (A.rows = B.rows ∧ A.cols = B.rows) ∧ X.rows = B.rows ∧ X.cols = B.cols) {a b : Nat → Nat → Bin F}
    (ha : ContainsTri SS m A uplo unit a) (hb : Contains SS m B b) :
    ∃ m' x, trsmCall SS uplo unit A B X m = .ok () m' ∧ Contains SS m' X x ∧ ∀ i j, i < X.rows → j < X.cols → (x i j).Finite → (unit = false → (a i i).Finite) →
      (b i j).Finite ∧ (unit = false → (a i i).real ≠ 0) ∧ (∀ k, k < X.rows → k ≠ i → TriRef uplo unit i k → (a i k).Finite ∧ (x k j).Finite) ∧
      |(b i j).real - ∑ k ∈ range X.rows, tri uplo unit (fun i k => (a i k).real) i k * (x k j).real| ≤
        ((1 / (1 - F.u)) ^ X.rows - 1) * ∑ k ∈ range X.rows, |tri uplo unit (fun i k => (a i k).real) i k| * |(x k j).real| +
          (1 / (1 - F.u)) ^ X.rows * (3 * X.rows + |tri uplo unit (fun i k => (a i k).real) i i|) * F.eta := by
  obtain ⟨m', e, e1, -⟩ := det_trsm uplo unit h hs ha hb
  obtain ⟨-, h3, h4⟩ := hs
  refine ⟨m', _, e, e1, fun i j hi hj hf hd => ?_⟩
  rw [h3] at hi ⊢
  exact Bin.trsmRec_inv (trsmSol_rec uplo unit B.rows a (fun i => b i j)) hi hf hd

/-- L is a Cholesky factor of the lower triangle of a wherever it is finite, up to rounding and underflow. An element l(i,j) is considered if it and the diagonal element
l(j,j) of its column are neither infinite nor NaN; then so is everything they were computed from. -/
def IsBinCholesky (F : Format) (M N : Nat) (l a : Nat → Nat → Bin F) : Prop :=
  ∀ i j, j ≤ i → i < M → j < N → (l i j).Finite → (l j j).Finite →
    0 < (l j j).real ∧ (a i j).Finite ∧ (∀ q, q < j → (l i q).Finite ∧ (l j q).Finite) ∧
    |(a i j).real - ∑ q ∈ range (j + 1), (l i q).real * (l j q).real| ≤
      ((1 / (1 - F.u)) ^ (j + 4) - 1) * ∑ q ∈ range (j + 1), |(l i q).real| * |(l j q).real| + (1 / (1 - F.u)) ^ (j + 4) * (2 * j + |(l j j).real|) * F.eta

theorem Bin.potRec_inv (hW : F.Wide) {T KN M N : Nat} (hKN : 0 < KN) (hT : KN ≤ T) (hNM : N ≤ M) {l a fa : Nat → Nat → Bin F}
    (hnum : ∀ i j, j ≤ i → i < M → j < N → (fa i j).IsNum) (hfa : ∀ i j, j ≤ i → i < M → j < N → (fa i j).Finite → (a i j).Finite ∧ (fa i j).real = (a i j).real)
    (h : ∀ r c : Nat, c ≤ r → r < M → c < N → PotRec T KN M l fa r c) : IsBinCholesky F M N l a := by
  intro i j hji hi hj hfi hfj
  have hcc : l j j = Arith.div (potS KN l (fa j j) j j) (Arith.sqrt (potS KN l (fa j j) j j)) := by
    have := h j j (le_refl _) (by omega) (by omega)
    unfold PotRec at this
    rwa [if_pos (potHeight_diag hKN hT)] at this
  have hrc : l i j = Arith.div (potS KN l (fa i j) i j) (Arith.sqrt (potS KN l (fa j j) j j)) ∨ l i j = Arith.div (potS KN l (fa i j) i j) (l j j) := by
    have := h i j hji hi hj
    unfold PotRec at this
    split_ifs at this
    · exact Or.inl this
    · exact Or.inr this
  have hl : ∀ q, q < j → (l i q).IsNum := fun q hq => by
    rw [show l i q = _ from h i q (by omega) hi (by omega)]
    exact Bin.isNum_div _ _
  obtain ⟨r1, r2, r3, r4⟩ := Bin.pot_entry' hW (hnum j j (le_refl _) (by omega) hj) hl hcc hfj hrc hfi
  obtain ⟨f1, f2⟩ := hfa i j hji hi hj r2
  rw [f2, one_add_bu F.u_lt_one] at r4
  exact ⟨r1, f1, r3, r4⟩

theorem potrf_bin (hW : F.Wide) {SS TR KN : Nat} {m m' : Mem (Bin F)} {A L : Container} {W : Nat → Nat → Prop} {f : Bin F → Bin F}
    (hf1 : ∀ x, x.IsNum → (f x).IsNum ∧ ((f x).Finite → x.Finite ∧ (f x).real = x.real))
    (h : PotrfArgs SS m A L) (hs : PotrfSizes A L) (hf : PotrfFits SS TR KN A L)
    {a : Nat → Nat → Bin F} (ha : ContainsLower SS m A a) (hn : ∀ i j, (a i j).IsNum)
    (hp : PotrfSpec SS TR KN A.rows A.cols (roundUp A.rows SS) W (A.mptr SS) (L.mptr SS) f m m') :
    ∃ l, ContainsLower SS m' L l ∧ IsBinCholesky F A.rows A.cols l a := by
  obtain ⟨_, h2, h3⟩ := hp
  obtain ⟨e1, e2, e3⟩ := hs
  refine ⟨fun r c => val m' ((L.mptr SS).addr SS r c), fun i j hji hi hj => ?_, ?_⟩
  · have := h2 _ (h.lL.alloc _ (L.addr_storage h.ss hi hj))
    rw [Option.isSome_iff_exists] at this
    obtain ⟨v, hv⟩ := this
    unfold val
    beta_reduce
    rw [← Container.addr_eq_mptr, hv]; rfl
  · refine Bin.potRec_inv hW hf.kn hf.knT e1 (fa := fun i j => f (a i j)) (fun i j _ _ _ => (hf1 _ (hn i j)).1) (fun i j _ _ _ => (hf1 _ (hn i j)).2) (fun r c hcr hr hc => ?_)
    have := h3 r c hcr hr hc
    refine this.congr (fun _ _ => rfl) (fun _ _ => rfl) ?_ ?_
    · unfold val; rw [← Container.addr_eq_mptr, ha r c hcr hr hc]; rfl
    · unfold val; rw [← Container.addr_eq_mptr, ha c c (Nat.le_refl _) (by omega) hc]; rfl

/-- **C86** (potrf, dense). Whatever the elements of A (numbers of the format, infinities, NaN): where L and the diagonal of its column are finite, L Lᵀ = A up to
rounding errors and underflow, and the diagonal is positive. L may be A. -/
theorem C86_potrf_dense (hW : F.Wide) {SS TR : Nat} {m : Mem (Bin F)} {A L : Container} (h : PotrfArgs SS m A L) (hs : PotrfSizes A L)
    (hf : PotrfFits SS TR 4 A L) {a : Nat → Nat → Bin F} (ha : ContainsLower SS m A a) (hn : ∀ i j, (a i j).IsNum) :
    ∃ m', potrfDenseCall SS TR A L m = .ok () m' ∧ ∃ l, ContainsLower SS m' L l ∧ IsBinCholesky F A.rows A.cols l a := by
  obtain ⟨m', e1, e2⟩ := potrfDenseCall_spec h hs hf
  refine ⟨m', e1, potrf_bin hW (fun x hx => ⟨Bin.isNum_mul _ _, fun hx' => ?_⟩) h hs hf ha hn e2⟩
  have := (Bin.mul_inv hx').2.1
  exact ⟨this, (Bin.mul_one' hx this).2⟩

/-- **C86** (potrf, panel matrices). -/
theorem C86_potrf_panel (hW : F.Wide) {SS KN : Nat} {m : Mem (Bin F)} {A L : Container} (h : PotrfArgs SS m A L) (hs : PotrfSizes A L)
    (hf : PotrfFits SS 1 KN A L) {a : Nat → Nat → Bin F} (ha : ContainsLower SS m A a) (hn : ∀ i j, (a i j).IsNum) :
    ∃ m', potrfPanelCall SS KN A L m = .ok () m' ∧ ∃ l, ContainsLower SS m' L l ∧ IsBinCholesky F A.rows A.cols l a := by
  obtain ⟨m', e1, e2⟩ := potrfPanelCall_spec h hs hf
  exact ⟨m', e1, potrf_bin hW (fun x hx => ⟨hx, fun hx' => ⟨hx', rfl⟩⟩) h hs hf ha hn e2⟩

/-- both element types of the library have a wide enough range -/
theorem C86_wide : binary64.Wide ∧ binary32.Wide := ⟨⟨by decide, by decide⟩, ⟨by decide, by decide⟩⟩

end Blast
