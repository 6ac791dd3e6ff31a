import Verif.Integers
import Verif.Props.NanProp
import Verif.Props.Potrf
/-
C82: integer matrices. In floating-point arithmetic the operations are exact on integer matrices as long as the sums of the moduli of the products stay
within the integers that the format represents without gaps (2^53 for double, 2^24 for float).
-/
namespace Blast
open Prog Reg Finset
variable {V : Type} [Arith V] [E : ExactInts V]

/-- the elements of the container are the integers `a i j`, none beyond the bound -/
def IsIntMat (SS : Nat) (m : Mem V) (A : Container) (a : Nat → Nat → ℤ) : Prop :=
  Contains SS m A (fun i j => E.num (a i j)) ∧ ∀ i j, i < A.rows → j < A.cols → |a i j| ≤ E.bound

/-- as `IsIntMat`, on and below the diagonal -/
def IsIntLower (SS : Nat) (m : Mem V) (A : Container) (a : Nat → Nat → ℤ) : Prop :=
  ContainsLower SS m A (fun i j => E.num (a i j)) ∧ ∀ i j, j ≤ i → i < A.rows → j < A.cols → |a i j| ≤ E.bound

/-- the elements of the vector are the integers `a i`, none beyond the bound -/
def IsIntVec (m : Mem V) (x : VObj) (a : Nat → ℤ) : Prop :=
  VContains m x (fun i => E.num (a i)) ∧ ∀ i, i < x.n → |a i| ≤ E.bound

/-- **C82** (gemm). On integer matrices `D = alpha A B + beta C` is exact. -/
theorem C82_gemm {SS : Nat} {m : Mem V} {A B C D : Container} {alpha beta : ℤ} (h : GemmArgs SS m A B C D) (hs : GemmSizes A B C D)
    {a b c : Nat → Nat → ℤ} (ha : IsIntMat SS m A a) (hb : IsIntMat SS m B b) (hc : IsIntMat SS m C c) (hal : |alpha| ≤ E.bound) (hbe : |beta| ≤ E.bound)
    (h1 : ∀ i j, i < D.rows → j < D.cols → ∑ k ∈ range A.cols, |a i k| * |b k j| ≤ E.bound)
    (h2 : ∀ i j, i < D.rows → j < D.cols → |alpha| * ∑ k ∈ range A.cols, |a i k| * |b k j| + |beta| * |c i j| ≤ E.bound) :
    ∃ m', gemmCall SS (E.num alpha) A B (E.num beta) C D m = .ok () m' ∧
      Contains SS m' D (fun i j => E.num (alpha * ∑ k ∈ range A.cols, a i k * b k j + beta * c i j)) := by
  obtain ⟨m', e, e1⟩ := C04_gemm_bitwise (E.num alpha) (E.num beta) h hs ha.1 hb.1 hc.1
  refine ⟨m', e, fun i j hi hj => ?_⟩
  rw [e1 i j hi hj]
  beta_reduce
  obtain ⟨s1, ⟨s2, s3⟩, s4, s5⟩ := hs
  have q1 := h1 i j hi hj
  have q2 := h2 i j hi hj
  have p1 := abs_sum_mul_le (fun k => a i k) (fun k => b k j) (range A.cols)
  beta_reduce at p1
  have p2 : |alpha| * |∑ k ∈ range A.cols, a i k * b k j| ≤ |alpha| * ∑ k ∈ range A.cols, |a i k| * |b k j| := mul_le_mul_of_nonneg_left p1 (abs_nonneg _)
  have p3 : 0 ≤ |beta| * |c i j| := by positivity
  have p4 := abs_nonneg (∑ k ∈ range A.cols, a i k * b k j)
  have p5 : 0 ≤ |alpha| * |∑ k ∈ range A.cols, a i k * b k j| := by positivity
  rw [fmaSum_num_zero _ (fun k hk => ha.2 i k (by omega) hk) (fun k hk => hb.2 k j (by omega) (by omega)) q1,
    E.mul _ _ (by linarith) hal (by rw [mul_comm, abs_mul]; linarith),
    E.fma _ _ _ hbe (hc.2 i j (by omega) (by omega)) (by rw [mul_comm, abs_mul]; linarith) (by rw [abs_mul]; linarith)
      (le_trans (abs_add_le _ _) (by rw [abs_mul, abs_mul, mul_comm |_| |alpha|]; linarith))]
  congr 2; ring

/-- **C82** (the bound is sharp). In the binary format with p+1 bits, the sum of 2^(p+1) and 1 is not exact. -/
theorem C82_gemm_bound_sharp {p SS : Nat} (hp : 0 < p) {m : Mem (Fe p)} {A B C D : Container} (h : GemmArgs SS m A B C D) (hs : GemmSizes A B C D)
    (hD : D.rows = 1 ∧ D.cols = 1 ∧ A.cols = 1) (ha : IsIntMat SS m A (fun _ _ => 1)) (hb : IsIntMat SS m B (fun _ _ => 1)) (hc : IsIntMat SS m C (fun _ _ => 2 ^ (p + 1))) :
    ∃ m', gemmCall SS (ExactInts.num 1) A B (ExactInts.num 1) C D m = .ok () m' ∧ m' (D.addr SS 0 0) = some (ExactInts.num (2 ^ (p + 1))) ∧
      m' (D.addr SS 0 0) ≠ some (ExactInts.num (1 * ∑ k ∈ range A.cols, 1 * 1 + 1 * 2 ^ (p + 1))) := by
  obtain ⟨m', e, e1⟩ := C04_gemm_bitwise (ExactInts.num 1) (ExactInts.num 1) h hs ha.1 hb.1 hc.1
  have hv : m' (D.addr SS 0 0) = some (ExactInts.num (2 ^ (p + 1))) := by
    have hbd : (1 : ℤ) ≤ 2 ^ (p + 1) := one_le_pow₀ (by norm_num)
    have hbd' : (1 : ℤ) ≤ ExactInts.bound (Fe p) := hbd
    rw [e1 0 0 (by omega) (by omega), hD.2.2]
    beta_reduce
    rw [fmaSum_num_zero (a := fun _ => 1) (b := fun _ => 1) _ (fun k _ => by rw [abs_one]; exact hbd') (fun k _ => by rw [abs_one]; exact hbd')
        (by rw [Finset.sum_range_one, abs_one]; exact hbd'), Finset.sum_range_one,
      ExactInts.mul _ _ (by rw [mul_one, abs_one]; exact hbd') (by rw [abs_one]; exact hbd') (by rw [mul_one, mul_one, abs_one]; exact hbd')]
    congr 1
    show rndE p ((((1 : ℤ) : ℝ)) * ((2 ^ (p + 1) : ℤ) : ℝ) + ((1 * 1 * 1 : ℤ) : ℝ)) = (((2 ^ (p + 1) : ℤ) : ℝ))
    have hx : (((1 : ℤ) : ℝ)) * ((2 ^ (p + 1) : ℤ) : ℝ) + ((1 * 1 * 1 : ℤ) : ℝ) = (2 : ℝ) ^ (p + 1) + 1 := by push_cast; ring
    have h2p : (1 : ℝ) ≤ 2 ^ p := one_le_pow₀ (by norm_num)
    have hlog : Int.log 2 ((2 : ℝ) ^ (p + 1) + 1) = p + 1 := by
      have hpos : (0 : ℝ) < (2 : ℝ) ^ (p + 1) + 1 := by positivity
      apply le_antisymm
      · have : Int.log 2 ((2 : ℝ) ^ (p + 1) + 1) < (p : ℤ) + 1 + 1 := by
          rw [← Int.lt_zpow_iff_log_lt (by norm_num) hpos, show ((p : ℤ) + 1 + 1) = ((p + 2 : ℕ) : ℤ) by push_cast; ring, zpow_natCast]
          push_cast
          have w1 : (2 : ℝ) ^ (p + 2) = 4 * 2 ^ p := by ring
          have w2 : (2 : ℝ) ^ (p + 1) = 2 * 2 ^ p := by ring
          rw [w1, w2]
          linarith
        omega
      · rw [← Int.zpow_le_iff_le_log (by norm_num) hpos, show ((p : ℤ) + 1) = ((p + 1 : ℕ) : ℤ) by push_cast; ring, zpow_natCast]
        push_cast
        linarith
    rw [hx]
    unfold rndE rndMag
    rw [if_neg (not_lt.2 (by positivity)), hlog, show (p : ℤ) + 1 - p = 1 by ring, zpow_one]
    have hdiv : ((2 : ℝ) ^ (p + 1) + 1) / 2 = (2 : ℤ) ^ p + 1 / 2 := by push_cast; rw [pow_succ]; ring
    have hfl : ⌊((2 : ℝ) ^ (p + 1) + 1) / 2⌋ = (2 : ℤ) ^ p := by
      rw [Int.floor_eq_iff, hdiv]
      push_cast
      constructor <;> linarith
    have hfr : Int.fract (((2 : ℝ) ^ (p + 1) + 1) / 2) = 1 / 2 := by
      have := Int.self_sub_floor (((2 : ℝ) ^ (p + 1) + 1) / 2)
      rw [← this, hfl, hdiv]
      push_cast
      ring
    have hev : (2 : ℤ) ^ p % 2 = 0 := by
      obtain ⟨q, rfl⟩ := Nat.exists_eq_succ_of_ne_zero hp.ne'
      rw [pow_succ]; omega
    unfold rne
    rw [hfr, if_neg (lt_irrefl _), if_neg (lt_irrefl _), hfl, if_pos hev]
    push_cast
    rw [pow_succ]
  refine ⟨m', e, hv, ?_⟩
  rw [hv, hD.2.2]
  intro hh
  have := Option.some.inj hh
  have h' : ((2 ^ (p + 1) : ℤ) : ℝ) = ((1 * ∑ k ∈ range 1, 1 * 1 + 1 * 2 ^ (p + 1) : ℤ) : ℝ) := this
  have h'' := Int.cast_injective h'
  rw [Finset.sum_range_one] at h''
  omega

/-- **C82** (ger). On integer data `B = A + alpha x yᵀ` is exact. -/
theorem C82_ger {SS : Nat} {m : Mem V} {x y : VObj} {A B : Container} {alpha : ℤ} (h : GerArgs SS m x y A B) (hs : GerSizes x y A B)
    {xv yv : Nat → ℤ} {a : Nat → Nat → ℤ} (hx : IsIntVec m x xv) (hy : IsIntVec m y yv) (ha : IsIntMat SS m A a) (hal : |alpha| ≤ E.bound)
    (h1 : ∀ i, i < B.rows → |alpha| * |xv i| ≤ E.bound) (h2 : ∀ i j, i < B.rows → j < B.cols → |alpha| * |xv i| * |yv j| + |a i j| ≤ E.bound) :
    ∃ m', gerCall SS 1 (E.num alpha) x y A B m = .ok () m' ∧ Contains SS m' B (fun i j => E.num (a i j + alpha * xv i * yv j)) := by
  obtain ⟨m', e, e1⟩ := det_ger (E.num alpha) h hs hx.1 hy.1 ha.1
  refine ⟨m', e, fun i j hi hj => ?_⟩
  rw [e1 i j hi hj]
  beta_reduce
  obtain ⟨⟨s1, s2⟩, s3, s4⟩ := hs
  have q1 := h1 i hi
  have q2 := h2 i j hi hj
  have p1 := abs_nonneg (a i j)
  have p2 : 0 ≤ |alpha| * |xv i| * |yv j| := by positivity
  rw [mul_one_num (ha.2 i j (by omega) (by omega)), E.mul _ _ hal (hx.2 i (by omega)) (by rw [abs_mul]; exact q1),
    E.fma _ _ _ (by rw [abs_mul]; exact q1) (hy.2 j (by omega)) (ha.2 i j (by omega) (by omega)) (by rw [abs_mul, abs_mul]; linarith)
      (le_trans (abs_add_le _ _) (by rw [abs_mul, abs_mul]; exact q2)), add_comm]

/-- **C82** (syrk). On integer matrices the lower triangle of `D = alpha A Aᵀ + beta C` is exact. -/
theorem C82_syrk {SS : Nat} {m : Mem V} {A C D : Container} {alpha beta : ℤ} (h : SyrkArgs SS m A C D) (hs : SyrkSizes A C D)
    {a c : Nat → Nat → ℤ} (ha : IsIntMat SS m A a) (hc : IsIntLower SS m C c) (hal : |alpha| ≤ E.bound) (hbe : |beta| ≤ E.bound)
    (h1 : ∀ i k, i < D.rows → k < A.cols → |alpha| * |a i k| ≤ E.bound)
    (h2 : ∀ i j, j ≤ i → i < D.rows → j < D.cols → |alpha| * ∑ k ∈ range A.cols, |a i k| * |a j k| + |beta| * |c i j| ≤ E.bound) :
    ∃ m', syrkCall SS 1 (E.num alpha) A (E.num beta) C D m = .ok () m' ∧
      ContainsLower SS m' D (fun i j => E.num (alpha * ∑ k ∈ range A.cols, a i k * a j k + beta * c i j)) := by
  obtain ⟨m', e, e1, -⟩ := det_syrk (E.num alpha) (E.num beta) h hs (d := fun i j => val m (D.addr SS i j)) ha.1 hc.1
    (h.lD.contains h.ss)
  refine ⟨m', e, fun i j hji hi hj => ?_⟩
  rw [e1 i j hi hj]
  obtain ⟨⟨s1, s2⟩, s3, s4⟩ := hs
  have q2 := h2 i j hji hi hj
  have p2 : 0 ≤ |beta| * |c i j| := by positivity
  have p3 : 0 ≤ |alpha| * ∑ k ∈ range A.cols, |a i k| * |a j k| := mul_nonneg (abs_nonneg _) (Finset.sum_nonneg (fun _ _ => by positivity))
  have hsum : ∑ k ∈ range A.cols, |alpha * a i k| * |a j k| = |alpha| * ∑ k ∈ range A.cols, |a i k| * |a j k| := by
    rw [Finset.mul_sum]
    exact Finset.sum_congr rfl (fun k _ => by rw [abs_mul, mul_assoc])
  unfold syrkDet
  beta_reduce
  rw [if_pos hji, E.mul _ _ hbe (hc.2 i j hji (by omega) (by omega)) (by rw [abs_mul]; linarith),
    fmaSum_congr' (a' := fun k => E.num (alpha * a i k)) (b' := fun k => E.num (a j k)) _ (fun k hk => E.mul _ _ hal (ha.2 i k (by omega) hk) (by rw [abs_mul]; exact h1 i k hi hk)) (fun _ _ => rfl),
    fmaSum_num _ (fun k hk => by rw [abs_mul]; exact h1 i k hi hk) (fun k hk => ha.2 j k (by omega) hk) (by rw [abs_mul, hsum]; linarith), add_comm, Finset.mul_sum]
  simp only [mul_assoc]

/-- **C82** (trmm, triangular matrix on the right). On integer matrices `C = alpha B A`, A lower triangular, is exact. -/
theorem C82_trmm_right {SS : Nat} {m : Mem V} {A B C : Container} {alpha : ℤ} (h : TrmmRArgs SS m B A C) (hs : TrmmRSizes B A C)
    {a b : Nat → Nat → ℤ} (ha : IsIntLower SS m A a) (hb : IsIntMat SS m B b) (hal : |alpha| ≤ E.bound)
    (h1 : ∀ i k, i < C.rows → k < B.cols → |alpha| * |b i k| ≤ E.bound)
    (h2 : ∀ i j, i < C.rows → j < C.cols → |alpha| * ∑ k ∈ range B.cols, |b i k| * |tri .lower false a k j| ≤ E.bound) :
    ∃ m', trmmRightCall SS 1 (E.num alpha) B A .lower false C m = .ok () m' ∧
      Contains SS m' C (fun i j => E.num (alpha * ∑ k ∈ range B.cols, b i k * tri .lower false a k j)) := by
  obtain ⟨m', e, e1, -⟩ := det_trmmRight (E.num alpha) h hs ha.1 hb.1
  refine ⟨m', e, fun i j hi hj => ?_⟩
  rw [e1 i j hi hj]
  obtain ⟨⟨s1, s2⟩, s3, s4⟩ := hs
  have ht : ∀ t, tri .lower false a (j + t) j = a (j + t) j := fun t => by
    rcases Nat.eq_zero_or_pos t with rfl | h0
    · rw [Nat.add_zero, tri_diag]; rfl
    · exact tri_lower (by omega)
  have hz : ∀ k, k < j → tri .lower false a k j = 0 := fun k hk => tri_lower_zero hk
  have w1 := sum_window (lo := j) (M := B.cols) (f := fun k => alpha * b i k * tri .lower false a k j) (by omega) (fun k hk => by rw [hz k hk, mul_zero])
  have w2 := sum_window (lo := j) (M := B.cols) (f := fun k => |alpha * b i k| * |tri .lower false a k j|) (by omega) (fun k hk => by rw [hz k hk, abs_zero, mul_zero])
  simp only [ht] at w1 w2
  have q2 := h2 i j hi hj
  have hsum : ∑ k ∈ range B.cols, |alpha * b i k| * |tri .lower false a k j| = |alpha| * ∑ k ∈ range B.cols, |b i k| * |tri .lower false a k j| := by
    rw [Finset.mul_sum]
    exact Finset.sum_congr rfl (fun k _ => by rw [abs_mul, mul_assoc])
  have hsum' : ∑ k ∈ range B.cols, alpha * b i k * tri .lower false a k j = alpha * ∑ k ∈ range B.cols, b i k * tri .lower false a k j := by
    rw [Finset.mul_sum]
    exact Finset.sum_congr rfl (fun k _ => mul_assoc _ _ _)
  unfold trmmRDet
  beta_reduce
  rw [fmaSum_congr' (a' := fun t => E.num (alpha * b i (j + t))) (b' := fun t => E.num (a (j + t) j)) _
      (fun t ht' => E.mul _ _ hal (hb.2 i (j + t) (by omega) (by omega)) (by rw [abs_mul]; exact h1 i (j + t) hi (by omega))) (fun _ _ => rfl),
    fmaSum_num_zero _ (fun t ht' => by rw [abs_mul]; exact h1 i (j + t) hi (by omega)) (fun t ht' => ha.2 (j + t) j (by omega) (by omega) (by omega)) (by rw [w2, hsum]; exact q2),
    w1, hsum']

/-- **C82** (trmm, triangular matrix on the left). On integer matrices `C = alpha A B`, A upper triangular with zeros below the diagonal, is exact. -/
theorem C82_trmm_left {SS : Nat} {m : Mem V} {A B C : Container} {alpha : ℤ} (h : TrmmLArgs SS m A B C) (hs : TrmmLSizes A B C)
    {a b : Nat → Nat → ℤ} (ha : IsIntMat SS m A a) (hb : IsIntMat SS m B b) (hz : ∀ i k, k < i → a i k = 0) (hal : |alpha| ≤ E.bound)
    (h1 : ∀ i k, i < C.rows → k < B.rows → |alpha| * |a i k| ≤ E.bound)
    (h2 : ∀ i j, i < C.rows → j < C.cols → |alpha| * ∑ k ∈ range B.rows, |a i k| * |b k j| ≤ E.bound) :
    ∃ m', trmmLeftCall SS 1 (E.num alpha) A .upper false B C m = .ok () m' ∧
      Contains SS m' C (fun i j => E.num (alpha * ∑ k ∈ range B.rows, a i k * b k j)) := by
  obtain ⟨m', e, e1, -, v⟩ := det_trmmLeft_val (E.num alpha) h hs ha.1 hb.1
  refine ⟨m', e, fun i j hi hj => ?_⟩
  rw [e1 i j hi hj]
  obtain ⟨⟨s1, s2⟩, s3, s4⟩ := hs
  have hsum : ∑ k ∈ range B.rows, |alpha * a i k| * |b k j| = |alpha| * ∑ k ∈ range B.rows, |a i k| * |b k j| := by
    rw [Finset.mul_sum]
    exact Finset.sum_congr rfl (fun k _ => by rw [abs_mul, mul_assoc])
  have hsum' : ∑ k ∈ range B.rows, alpha * a i k * b k j = alpha * ∑ k ∈ range B.rows, a i k * b k j := by
    rw [Finset.mul_sum]
    exact Finset.sum_congr rfl (fun k _ => mul_assoc _ _ _)
  rw [LeftVal_num hal (by omega) (fun k hk => ha.2 i k (by omega) (by omega)) (fun k hk => hb.2 k j hk (by omega)) (fun k hk => hz i k hk) (fun k hk => h1 i k hi hk)
    (by rw [hsum]; exact h2 i j hi hj) (v i j (by omega) (by omega)), hsum']

/-- **C82** (trsm). If the triangular system with integer coefficients has an integer solution within the bound, trsm returns exactly this solution. -/
theorem C82_trsm {SS : Nat} {m : Mem V} {A B X : Container} (uplo : UpLo) (unit : Bool) (h : TrsmArgs SS m A B X)
    (hs : (A.rows = B.rows ∧ A.cols = B.rows) ∧ X.rows = B.rows ∧ X.cols = B.cols) {a b x : Nat → Nat → ℤ}
    (ha : ContainsTri SS m A uplo unit (fun i j => E.num (a i j))) (hab : ∀ i k, i < B.rows → k < B.rows → TriRef uplo unit i k → |a i k| ≤ E.bound)
    (hb : IsIntMat SS m B b) (hd : unit = false → ∀ i, i < B.rows → a i i ≠ 0)
    (hx : ∀ i j, i < B.rows → j < B.cols → b i j = ∑ k ∈ range B.rows, tri uplo unit a i k * x k j)
    (h1 : ∀ i j, i < B.rows → j < B.cols → |x i j| ≤ E.bound)
    (h2 : ∀ i j, i < B.rows → j < B.cols → ∑ k ∈ range B.rows, |tri uplo unit a i k| * |x k j| ≤ E.bound) :
    ∃ m', trsmCall SS uplo unit A B X m = .ok () m' ∧ Contains SS m' X (fun i j => E.num (x i j)) := by
  obtain ⟨m', e, e1, -⟩ := det_trsm uplo unit h hs ha hb.1
  refine ⟨m', e, fun i j hi hj => ?_⟩
  rw [e1 i j hi hj]
  obtain ⟨-, s3, s4⟩ := hs
  refine congrArg some ((trsmSol_rec uplo unit B.rows _ _).unique (TrsmRec_num (x := fun k => x k j) hd hab (fun k hk => h1 k j hk (by omega))
    (fun i hi => hx i j hi (by omega)) (fun i hi => h2 i j hi (by omega))) (fun _ _ _ _ _ => rfl) (fun _ _ => rfl) i (by omega))

/-- **C82** (potrf, dense). If the matrix is `L Lᵀ` with an integer lower triangular L (positive diagonal) within the bound, potrf returns exactly this factor. -/
theorem C82_potrf_dense {SS : Nat} {m : Mem V} {A L : Container} (h : PotrfArgs SS m A L) (hs : PotrfSizes A L) (hf : PotrfFits SS 1 4 A L)
    {a l : Nat → Nat → ℤ} (ha : ContainsLower SS m A (fun i j => E.num (a i j))) (hp : ∀ q, q < A.cols → 0 < l q q)
    (hfac : ∀ i j, j ≤ i → i < A.rows → j < A.cols → a i j = ∑ q ∈ range (j + 1), l i q * l j q)
    (hb : ∀ i j, j ≤ i → i < A.rows → j < A.cols → ∑ q ∈ range (j + 1), |l i q| * |l j q| ≤ E.bound) :
    ∃ m', potrfDenseCall SS 1 A L m = .ok () m' ∧ ContainsLower SS m' L (fun i j => E.num (l i j)) := by
  obtain ⟨m', e, e1, -, v⟩ := det_potrfDense_all h hs hf (old := fun i j => val m (L.addr SS i j)) ha (fun i j _ hi hj => h.lL.contains h.ss i j hi hj)
  obtain ⟨s1, s2, s3⟩ := hs
  refine ⟨m', e, fun i j hji hi hj => ?_⟩
  rw [e1 i j hi hj]
  unfold potDenseDet
  rw [if_pos hji]
  have hab : ∀ i j, j ≤ i → i < A.rows → j < A.cols → |a i j| ≤ E.bound := fun i j h1 h2 h3 => by
    rw [hfac i j h1 h2 h3]
    exact le_trans (abs_sum_mul_le (fun q => l i q) (fun q => l j q) _) (hb i j h1 h2 h3)
  refine congrArg some (PotRec.unique hf.kn (by have := hf.knT; omega) s1 (fun r c h1 h2 h3 => ?_) v.1
    (fun r c h1 h2 h3 => PotRec_num hf.kn h1 h2 h3 hp hfac hb) j i hji (by omega) (by omega))
  exact mul_one_num (hab r c h1 h2 h3)

/-- **C82** (potrf, panel). -/
theorem C82_potrf_panel {SS KN : Nat} {m : Mem V} {A L : Container} (h : PotrfArgs SS m A L) (hs : PotrfSizes A L) (hf : PotrfFits SS 1 KN A L)
    {a l : Nat → Nat → ℤ} (ha : ContainsLower SS m A (fun i j => E.num (a i j))) (hp : ∀ q, q < A.cols → 0 < l q q)
    (hfac : ∀ i j, j ≤ i → i < A.rows → j < A.cols → a i j = ∑ q ∈ range (j + 1), l i q * l j q)
    (hb : ∀ i j, j ≤ i → i < A.rows → j < A.cols → ∑ q ∈ range (j + 1), |l i q| * |l j q| ≤ E.bound) :
    ∃ m', potrfPanelCall SS KN A L m = .ok () m' ∧ ContainsLower SS m' L (fun i j => E.num (l i j)) := by
  have hfA := h.lA.contains h.ss
  obtain ⟨m', e, e1, -, v⟩ := det_potrfPanel_all h hs hf (old := fun i j => val m (L.addr SS i j)) hfA (fun i j _ hi hj => h.lL.contains h.ss i j hi hj)
  obtain ⟨s1, s2, s3⟩ := hs
  refine ⟨m', e, fun i j hji hi hj => ?_⟩
  rw [e1 i j hi hj]
  unfold potPanelDet
  rw [if_pos (le_trans (Nat.div_mul_le_self _ _) hji)]
  refine congrArg some (PotRec.unique hf.kn (by have := hf.knT; omega) s1 (fun r c h1 h2 h3 => ?_) v.1
    (fun r c h1 h2 h3 => PotRec_num hf.kn h1 h2 h3 hp hfac hb) j i hji (by omega) (by omega))
  have := hfA r c h2 h3
  rw [ha r c h1 h2 h3] at this
  exact (Option.some.inj this).symm

end Blast
