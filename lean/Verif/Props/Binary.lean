import Verif.BinarySum
import Verif.Props.NanProp
import Verif.Props.Integers
/-
C85: the products in the element types double and float as they are, with gradual underflow, overflow, signed zeros, infinities and NaN.

`F` is the format (`binary64`, `binary32`), `F.u` half the distance from 1 to the next number (2⁻⁵³, 2⁻²⁴), `F.eta` half of the smallest positive number, `F.big` the first
power of two that is too large. A finite result is accurate, whatever the arguments were, and implies that all arguments used were finite; the `_finite` theorems say when
the result is finite.
-/
namespace Blast
open Prog Reg Finset
variable {F : Format}

/-- **C85** (rounding). A finite result of an operation is the number of the format nearest to the exact result; it is exact if the exact result is in the format. -/
theorem C85_rounding {nz : Bool} {x : ℝ} :
    ((Bin.mk F nz x).Finite → F.Representable (Bin.mk F nz x).real ∧
      (F.under = .gradual → ∀ z, F.Representable z → |(Bin.mk F nz x).real - x| ≤ |z - x|)) ∧
    (F.Representable x → (Bin.mk F nz x).Finite ∧ (Bin.mk F nz x).real = x) :=
  ⟨fun h => ⟨Bin.mk_representable h, fun hu _ hz => Bin.mk_nearest hu h hz⟩, Bin.mk_exact⟩

/-- **C85** (gemm). A finite element of `D = alpha A B + beta C` is accurate, and all numbers that belong to it are finite. -/
theorem C85_gemm {SS : Nat} {m : Mem (Bin F)} {A B C D : Container} (alpha beta : Bin F) (h : GemmArgs SS m A B C D) (hs : GemmSizes A B C D)
    {a b c : Nat → Nat → Bin F} (ha : Contains SS m A a) (hb : Contains SS m B b) (hc : Contains SS m C c) :
    ∃ m' d, gemmCall SS alpha A B beta C D m = .ok () m' ∧ Contains SS m' D d ∧ ∀ i j, i < D.rows → j < D.cols → (d i j).Finite →
      alpha.Finite ∧ beta.Finite ∧ (c i j).Finite ∧ (∀ k, k < A.cols → (a i k).Finite ∧ (b k j).Finite) ∧
      |(d i j).real - (alpha.real * ∑ k ∈ range A.cols, (a i k).real * (b k j).real + beta.real * (c i j).real)| ≤
        ((1 + F.u) ^ (A.cols + 2) - 1) * (|alpha.real| * ∑ k ∈ range A.cols, |(a i k).real| * |(b k j).real| + |beta.real| * |(c i j).real|) +
          (1 + F.u) ^ (A.cols + 2) * (A.cols * |alpha.real| + 2) * F.eta := by
  obtain ⟨m', e, e1⟩ := C04_gemm_bitwise alpha beta h hs ha hb hc
  refine ⟨m', _, e, e1, fun i j _ _ hf => ?_⟩
  obtain ⟨f1, f2, f3, f4⟩ := Bin.fma_inv hf
  obtain ⟨g1, g2, g3⟩ := Bin.mul_inv f3
  obtain ⟨-, k2, k3⟩ := Bin.fmaSum_inv _ g1
  refine ⟨g2, f1, f2, k2, ?_⟩
  have hu := F.u_pos
  have he := F.eta_pos
  have hz : (Arith.zero : Bin F).real = 0 := by simp [Arith.zero, Bin.real]
  rw [hz, abs_zero, zero_add, zero_add] at k3
  beta_reduce at f4 g3 k3 ⊢
  set K := A.cols with hK
  set S := ∑ k ∈ range K, (a i k).real * (b k j).real with hS
  set T := ∑ k ∈ range K, |(a i k).real| * |(b k j).real| with hT
  have hST : |S| ≤ T := Bin.abs_sum_le (fun k => a i k) (fun k => b k j) K
  have hT0 : 0 ≤ T := le_trans (abs_nonneg _) hST
  have hw := Bin.one_le_g (F := F) K
  set s := fmaSum (fun k => a i k) (fun k => b k j) Arith.zero K
  -- the product with alpha
  have s1 := Bin.err_step (x := S * alpha.real) (x' := s.real * alpha.real) (X := T * |alpha.real|)
    (e := (((1 + F.u) ^ K - 1) * T + K * (1 + F.u) ^ K * F.eta) * |alpha.real|) hu.le
    (by rw [← sub_mul, abs_mul]; exact mul_le_mul_of_nonneg_right k3 (abs_nonneg _)) (by rw [abs_mul]; exact mul_le_mul_of_nonneg_right hST (abs_nonneg _)) g3
  -- the sum with beta c
  have s2 := Bin.err_step (e := (1 + F.u) * ((((1 + F.u) ^ K - 1) * T + K * (1 + F.u) ^ K * F.eta) * |alpha.real|) + F.u * (T * |alpha.real|) + F.eta) (x := beta.real * (c i j).real + S * alpha.real) (X := |beta.real| * |(c i j).real| + T * |alpha.real|)
    (x' := beta.real * (c i j).real + (Arith.mul s alpha).real) hu.le (by rw [add_sub_add_left_eq_sub]; exact s1)
    (le_trans (abs_add_le _ _) (by rw [abs_mul, abs_mul]; exact add_le_add le_rfl (mul_le_mul_of_nonneg_right hST (abs_nonneg _)))) f4
  rw [show alpha.real * S + beta.real * (c i j).real = beta.real * (c i j).real + S * alpha.real by ring]
  refine le_trans s2 ?_
  have hG : 0 ≤ |beta.real| * |(c i j).real| := by positivity
  have hA := abs_nonneg alpha.real
  set G := |beta.real| * |(c i j).real|
  set al := |alpha.real|
  set w := (1 + F.u) ^ K with hw'
  have q : (1 + F.u) ^ (K + 2) = (1 + F.u) * ((1 + F.u) * w) := by rw [hw']; ring
  have hw1 : 1 ≤ (1 + F.u) * w := by nlinarith
  have hw2 : 1 + F.u ≤ (1 + F.u) * ((1 + F.u) * w) := by nlinarith
  have b1 : F.u * G ≤ ((1 + F.u) * ((1 + F.u) * w) - 1) * G := mul_le_mul_of_nonneg_right (by linarith) hG
  have b2 : (1 + F.u) * F.eta ≤ (1 + F.u) * ((1 + F.u) * w) * F.eta := mul_le_mul_of_nonneg_right hw2 he.le
  have b3 : F.eta ≤ (1 + F.u) * ((1 + F.u) * w) * F.eta := le_mul_of_one_le_left he.le (by linarith)
  rw [q]
  calc (1 + F.u) * ((1 + F.u) * (((w - 1) * T + K * w * F.eta) * al) + F.u * (T * al) + F.eta) + F.u * (G + T * al) + F.eta
      = ((1 + F.u) * ((1 + F.u) * w) - 1) * (al * T) + F.u * G + (1 + F.u) * ((1 + F.u) * w) * (K * al) * F.eta + (1 + F.u) * F.eta + F.eta := by ring
    _ ≤ ((1 + F.u) * ((1 + F.u) * w) - 1) * (al * T) + ((1 + F.u) * ((1 + F.u) * w) - 1) * G + (1 + F.u) * ((1 + F.u) * w) * (K * al) * F.eta +
        (1 + F.u) * ((1 + F.u) * w) * F.eta + (1 + F.u) * ((1 + F.u) * w) * F.eta := by linarith
    _ = _ := by ring

/-- **C85** (gemm). No overflow for finite arguments that are not too large. -/
theorem C85_gemm_finite {SS : Nat} {m : Mem (Bin F)} {A B C D : Container} (alpha beta : Bin F) (h : GemmArgs SS m A B C D) (hs : GemmSizes A B C D)
    {a b c : Nat → Nat → Bin F} (ha : Contains SS m A a) (hb : Contains SS m B b) (hc : Contains SS m C c) :
    ∃ m' d, gemmCall SS alpha A B beta C D m = .ok () m' ∧ Contains SS m' D d ∧ ∀ i j, i < D.rows → j < D.cols →
      alpha.Finite → beta.Finite → (c i j).Finite → (∀ k, k < A.cols → (a i k).Finite ∧ (b k j).Finite) →
      (1 + F.u) ^ A.cols * (∑ k ∈ range A.cols, |(a i k).real| * |(b k j).real| + A.cols * F.eta) < F.big →
      (1 + F.u) ^ (A.cols + 2) * (|alpha.real| * ∑ k ∈ range A.cols, |(a i k).real| * |(b k j).real| + |beta.real| * |(c i j).real| + (A.cols * |alpha.real| + 2) * F.eta)
        < F.big → (d i j).Finite := by
  obtain ⟨m', e, e1⟩ := C04_gemm_bitwise alpha beta h hs ha hb hc
  refine ⟨m', _, e, e1, fun i j _ _ hal hbe hcf hab h1 h2 => ?_⟩
  have hu := F.u_pos
  have he := F.eta_pos
  have hz : (Arith.zero : Bin F).real = 0 := by simp [Arith.zero, Bin.real]
  have hs1 : (fmaSum (fun k => a i k) (fun k => b k j) Arith.zero A.cols).Finite :=
    Bin.fmaSum_finite A.cols trivial hab (by rw [hz, abs_zero, zero_add]; exact h1)
  obtain ⟨-, -, k3⟩ := Bin.fmaSum_inv _ hs1
  rw [hz, abs_zero, zero_add, zero_add] at k3
  beta_reduce at k3 ⊢
  set K := A.cols with hK
  set S := ∑ k ∈ range K, (a i k).real * (b k j).real with hS
  set T := ∑ k ∈ range K, |(a i k).real| * |(b k j).real| with hT
  have hST : |S| ≤ T := Bin.abs_sum_le (fun k => a i k) (fun k => b k j) K
  have hT0 : 0 ≤ T := le_trans (abs_nonneg _) hST
  have hw := Bin.one_le_g (F := F) K
  set s := fmaSum (fun k => a i k) (fun k => b k j) Arith.zero K
  set w := (1 + F.u) ^ K with hw'
  set G := |beta.real| * |(c i j).real| with hG'
  have hG : 0 ≤ G := by positivity
  have hA := abs_nonneg alpha.real
  set al := |alpha.real| with hal'
  have hsb : |s.real| ≤ w * (T + K * F.eta) := by
    have := abs_add_le (s.real - S) S
    rw [sub_add_cancel] at this
    refine le_trans this (le_trans (add_le_add k3 hST) (le_of_eq ?_))
    ring
  have q : (1 + F.u) ^ (K + 2) = (1 + F.u) * ((1 + F.u) * w) := by rw [hw']; ring
  rw [q] at h2
  have hw1 : 1 ≤ (1 + F.u) * w := by nlinarith
  have hKn : (0 : ℝ) ≤ K := Nat.cast_nonneg K
  have hpos : 0 ≤ al * T + G + (K * al + 2) * F.eta := by positivity
  have hsal : |s.real * alpha.real| ≤ w * (T + K * F.eta) * al := by rw [abs_mul]; exact mul_le_mul_of_nonneg_right hsb hA
  have m1 : (1 + F.u) * |s.real * alpha.real| + F.eta ≤ (1 + F.u) * w * (al * T + K * al * F.eta) + (1 + F.u) * w * F.eta := by
    have : (1 + F.u) * |s.real * alpha.real| ≤ (1 + F.u) * (w * (T + K * F.eta) * al) := mul_le_mul_of_nonneg_left hsal (by linarith)
    have b3 : F.eta ≤ (1 + F.u) * w * F.eta := le_mul_of_one_le_left he.le hw1
    linarith
  have hsm : (Arith.mul s alpha).Finite := by
    refine Bin.mul_finite hs1 hal (lt_of_le_of_lt m1 (lt_of_le_of_lt ?_ h2))
    have e1 : (1 + F.u) * w * (al * T + K * al * F.eta) + (1 + F.u) * w * F.eta ≤ (1 + F.u) * w * (al * T + G + (K * al + 2) * F.eta) := by
      rw [← mul_add]
      refine mul_le_mul_of_nonneg_left ?_ (by linarith)
      nlinarith
    refine le_trans e1 ?_
    have hY : 0 ≤ (1 + F.u) * w * (al * T + G + (K * al + 2) * F.eta) := mul_nonneg (by linarith) hpos
    calc (1 + F.u) * w * (al * T + G + (K * al + 2) * F.eta) ≤ (1 + F.u) * ((1 + F.u) * w * (al * T + G + (K * al + 2) * F.eta)) := le_mul_of_one_le_left hY (by linarith)
      _ = _ := by ring
  refine Bin.fma_finite hbe hcf hsm (lt_of_le_of_lt ?_ h2)
  have m2 := (Bin.mul_inv hsm).2.2
  have m3 : |(Arith.mul s alpha).real| ≤ (1 + F.u) * |s.real * alpha.real| + F.eta := by
    have := abs_add_le ((Bin.mul s alpha).real - s.real * alpha.real) (s.real * alpha.real)
    rw [sub_add_cancel] at this
    show |(Bin.mul s alpha).real| ≤ _
    linarith
  have m4 : |beta.real * (c i j).real + (Arith.mul s alpha).real| ≤ (1 + F.u) * w * (G + al * T + K * al * F.eta + F.eta) := by
    refine le_trans (abs_add_le _ _) ?_
    rw [abs_mul]
    have : G ≤ (1 + F.u) * w * G := le_mul_of_one_le_left hG hw1
    linarith
  have b3 : F.eta ≤ (1 + F.u) * ((1 + F.u) * w * F.eta) := by
    have h5 : F.eta ≤ (1 + F.u) * w * F.eta := le_mul_of_one_le_left he.le hw1
    nlinarith
  have m5 : (1 + F.u) * |beta.real * (c i j).real + (Arith.mul s alpha).real| ≤ (1 + F.u) * ((1 + F.u) * w * (G + al * T + K * al * F.eta + F.eta)) :=
    mul_le_mul_of_nonneg_left m4 (by linarith)
  calc _ ≤ (1 + F.u) * ((1 + F.u) * w * (G + al * T + K * al * F.eta + F.eta)) + (1 + F.u) * ((1 + F.u) * w * F.eta) := add_le_add m5 b3
    _ = (1 + F.u) * ((1 + F.u) * w) * (al * T + G + (K * al + 2) * F.eta) := by ring

theorem Bin.real_zero : (Arith.zero : Bin F).real = 0 := by simp [Arith.zero, Bin.real]
theorem Bin.real_one : (Arith.one : Bin F).real = 1 := by simp [Arith.one, Bin.real]

/-- **C85** (ger). A finite element of `B = A + alpha x yᵀ` is accurate, and all numbers that belong to it are finite. -/
theorem C85_ger {SS : Nat} {m : Mem (Bin F)} {x y : VObj} {A B : Container} (alpha : Bin F) (h : GerArgs SS m x y A B) (hs : GerSizes x y A B)
    {xv yv : Nat → Bin F} {a : Nat → Nat → Bin F} (hx : VContains m x xv) (hy : VContains m y yv) (ha : Contains SS m A a) :
    ∃ m' b, gerCall SS 1 alpha x y A B m = .ok () m' ∧ Contains SS m' B b ∧ ∀ i j, i < B.rows → j < B.cols → (b i j).Finite →
      alpha.Finite ∧ (xv i).Finite ∧ (yv j).Finite ∧ (a i j).Finite ∧
      |(b i j).real - ((a i j).real + alpha.real * (xv i).real * (yv j).real)| ≤
        ((1 + F.u) ^ 2 - 1) * (|(a i j).real| + |alpha.real| * |(xv i).real| * |(yv j).real|) + ((1 + F.u) * (|(yv j).real| + 1) + 1) * F.eta := by
  obtain ⟨m', e, e1⟩ := det_ger alpha h hs hx hy ha
  refine ⟨m', _, e, e1, fun i j _ _ hf => ?_⟩
  obtain ⟨f1, f2, f3, f4⟩ := Bin.fma_inv hf
  obtain ⟨g1, g2, g3⟩ := Bin.mul_inv f1
  obtain ⟨-, k2, k3⟩ := Bin.mul_inv f3
  refine ⟨g1, g2, f2, k2, ?_⟩
  have hu := F.u_pos
  have he := F.eta_pos
  rw [Bin.real_one, one_mul] at k3
  change |(Arith.mul alpha (xv i)).real - _| ≤ _ at g3
  change |(Arith.mul (Arith.one : Bin F) (a i j)).real - _| ≤ _ at k3
  beta_reduce
  have s1 := Bin.err_step (x := alpha.real * (xv i).real * (yv j).real + (a i j).real) (X := |alpha.real| * |(xv i).real| * |(yv j).real| + |(a i j).real|)
    (e := (F.u * |alpha.real * (xv i).real| + F.eta) * |(yv j).real| + (F.u * |(a i j).real| + F.eta)) hu.le
    (by
      refine le_trans ?_ (add_le_add (mul_le_mul_of_nonneg_right g3 (abs_nonneg (yv j).real)) k3)
      rw [← abs_mul]
      refine le_trans (le_of_eq ?_) (abs_add_le _ _)
      congr 1
      ring)
    (le_trans (abs_add_le _ _) (by rw [abs_mul, abs_mul])) f4
  rw [add_comm (a i j).real]
  refine le_trans s1 (le_of_eq ?_)
  rw [abs_mul]
  ring

/-- **C85** (ger). No overflow for finite arguments that are not too large. -/
theorem C85_ger_finite {SS : Nat} {m : Mem (Bin F)} {x y : VObj} {A B : Container} (alpha : Bin F) (h : GerArgs SS m x y A B) (hs : GerSizes x y A B)
    {xv yv : Nat → Bin F} {a : Nat → Nat → Bin F} (hx : VContains m x xv) (hy : VContains m y yv) (ha : Contains SS m A a) :
    ∃ m' b, gerCall SS 1 alpha x y A B m = .ok () m' ∧ Contains SS m' B b ∧ ∀ i j, i < B.rows → j < B.cols →
      alpha.Finite → (xv i).Finite → (yv j).Finite → (a i j).Finite →
      (1 + F.u) * (|alpha.real| * |(xv i).real|) + F.eta < F.big →
      (1 + F.u) ^ 2 * (|(a i j).real| + |alpha.real| * |(xv i).real| * |(yv j).real|) + ((1 + F.u) * (|(yv j).real| + 1) + 1) * F.eta < F.big → (b i j).Finite := by
  obtain ⟨m', e, e1⟩ := det_ger alpha h hs hx hy ha
  refine ⟨m', _, e, e1, fun i j _ _ hal hxf hyf haf h1 h2 => ?_⟩
  have hu := F.u_pos
  have he := F.eta_pos
  beta_reduce
  have p1 : (Bin.mul alpha (xv i)).Finite := Bin.mul_finite hal hxf (by rw [abs_mul]; exact h1)
  have p1' := (Bin.mul_inv p1).2.2
  have n1 : 0 ≤ |alpha.real| * |(xv i).real| * |(yv j).real| := by positivity
  have n2 := abs_nonneg (a i j).real
  have n3 := abs_nonneg (yv j).real
  have p2 : (Bin.mul (Arith.one : Bin F) (a i j)).Finite := Bin.mul_finite trivial haf (by
    rw [Bin.real_one, one_mul]
    refine lt_of_le_of_lt ?_ h2
    have : (1 + F.u) * |(a i j).real| ≤ (1 + F.u) ^ 2 * (|(a i j).real| + |alpha.real| * |(xv i).real| * |(yv j).real|) := by
      rw [pow_two, mul_assoc]
      refine mul_le_mul_of_nonneg_left ?_ (by linarith)
      nlinarith
    have : F.eta ≤ ((1 + F.u) * (|(yv j).real| + 1) + 1) * F.eta := le_mul_of_one_le_left he.le (by nlinarith)
    linarith)
  have p2' := (Bin.mul_inv p2).2.2
  rw [Bin.real_one, one_mul] at p2'
  refine Bin.fma_finite p1 hyf p2 (lt_of_le_of_lt ?_ h2)
  have q1 : |(Bin.mul alpha (xv i)).real| ≤ (1 + F.u) * (|alpha.real| * |(xv i).real|) + F.eta := by
    have := abs_add_le ((Bin.mul alpha (xv i)).real - alpha.real * (xv i).real) (alpha.real * (xv i).real)
    rw [sub_add_cancel] at this
    rw [abs_mul] at this p1'
    linarith
  have q2 : |(Bin.mul (Arith.one : Bin F) (a i j)).real| ≤ (1 + F.u) * |(a i j).real| + F.eta := by
    have := abs_add_le ((Bin.mul (Arith.one : Bin F) (a i j)).real - (a i j).real) (a i j).real
    rw [sub_add_cancel] at this
    linarith
  have q3 : |(Bin.mul alpha (xv i)).real * (yv j).real + (Bin.mul (Arith.one : Bin F) (a i j)).real| ≤
      ((1 + F.u) * (|alpha.real| * |(xv i).real|) + F.eta) * |(yv j).real| + ((1 + F.u) * |(a i j).real| + F.eta) := by
    refine le_trans (abs_add_le _ _) ?_
    rw [abs_mul]
    exact add_le_add (mul_le_mul_of_nonneg_right q1 n3) q2
  have q4 := mul_le_mul_of_nonneg_left q3 (show 0 ≤ 1 + F.u by linarith)
  refine le_trans (add_le_add q4 le_rfl) (le_of_eq ?_)
  ring

/-- **C85** (syrk). A finite element of the lower triangle of `D = alpha A Aᵀ + beta C` is accurate, and all numbers that belong to it are finite (alpha is not used if A
has no columns). -/
theorem C85_syrk {SS : Nat} {m : Mem (Bin F)} {A C D : Container} (alpha beta : Bin F) (h : SyrkArgs SS m A C D) (hs : SyrkSizes A C D)
    {a c : Nat → Nat → Bin F} (ha : Contains SS m A a) (hc : ContainsLower SS m C c) :
    ∃ m' d, syrkCall SS 1 alpha A beta C D m = .ok () m' ∧ ContainsLower SS m' D d ∧ ∀ i j, j ≤ i → i < D.rows → j < D.cols → (d i j).Finite →
      beta.Finite ∧ (c i j).Finite ∧ (∀ k, k < A.cols → alpha.Finite ∧ (a i k).Finite ∧ (a j k).Finite) ∧
      |(d i j).real - (beta.real * (c i j).real + alpha.real * ∑ k ∈ range A.cols, (a i k).real * (a j k).real)| ≤
        ((1 + F.u) ^ (A.cols + 1) - 1) * (|beta.real| * |(c i j).real| + |alpha.real| * ∑ k ∈ range A.cols, |(a i k).real| * |(a j k).real|) +
          (1 + F.u) ^ A.cols * (A.cols + 1 + ∑ k ∈ range A.cols, |(a j k).real|) * F.eta := by
  obtain ⟨m', e, e1, -⟩ := det_syrk alpha beta h hs (d := fun i j => val m (D.addr SS i j)) ha hc (h.lD.contains h.ss)
  refine ⟨m', _, e, fun i j hji hi hj => e1 i j hi hj, fun i j hji hi hj hf => ?_⟩
  unfold syrkDet at hf ⊢
  rw [if_pos hji] at hf ⊢
  have hz := (Bin.fmaSum_inv _ hf).1
  obtain ⟨z1, z2, z3⟩ := Bin.mul_inv hz
  obtain ⟨-, s2, s3⟩ := Bin.scaledSum_inv (z := Bin.mul beta (c i j)) A.cols (zeta := beta.real * (c i j).real) (Z := |beta.real| * |(c i j).real|) (cz := 1)
    (by rw [one_mul, ← abs_mul]; exact z3) (by rw [abs_mul]) hf
  exact ⟨z1, z2, s2, s3⟩

/-- **C85** (syrk). No overflow for finite arguments that are not too large. -/
theorem C85_syrk_finite {SS : Nat} {m : Mem (Bin F)} {A C D : Container} (alpha beta : Bin F) (h : SyrkArgs SS m A C D) (hs : SyrkSizes A C D)
    {a c : Nat → Nat → Bin F} (ha : Contains SS m A a) (hc : ContainsLower SS m C c) :
    ∃ m' d, syrkCall SS 1 alpha A beta C D m = .ok () m' ∧ ContainsLower SS m' D d ∧ ∀ i j, j ≤ i → i < D.rows → j < D.cols →
      beta.Finite → (c i j).Finite → (∀ k, k < A.cols → alpha.Finite ∧ (a i k).Finite ∧ (a j k).Finite) →
      (∀ k, k < A.cols → (1 + F.u) * (|alpha.real| * |(a i k).real|) + F.eta < F.big) →
      (1 + F.u) ^ (A.cols + 1) * (|beta.real| * |(c i j).real| + |alpha.real| * ∑ k ∈ range A.cols, |(a i k).real| * |(a j k).real| +
        (A.cols + 1 + ∑ k ∈ range A.cols, |(a j k).real|) * F.eta) < F.big → (d i j).Finite := by
  obtain ⟨m', e, e1, -⟩ := det_syrk alpha beta h hs (d := fun i j => val m (D.addr SS i j)) ha hc (h.lD.contains h.ss)
  refine ⟨m', _, e, fun i j hji hi hj => e1 i j hi hj, fun i j hji hi hj hbe hcf hf h1 h2 => ?_⟩
  have hu := F.u_pos
  have he := F.eta_pos
  unfold syrkDet
  rw [if_pos hji]
  have hT : 0 ≤ |alpha.real| * ∑ k ∈ range A.cols, |(a i k).real| * |(a j k).real| := mul_nonneg (abs_nonneg _) (sum_nonneg fun _ _ => by positivity)
  have hY : 0 ≤ ∑ k ∈ range A.cols, |(a j k).real| := sum_nonneg fun _ _ => abs_nonneg _
  have hzf : (Bin.mul beta (c i j)).Finite := by
    refine Bin.mul_finite hbe hcf (lt_of_le_of_lt ?_ h2)
    rw [abs_mul, pow_succ', mul_assoc]
    set Z := |beta.real| * |(c i j).real| with hZ
    have hZ0 : 0 ≤ Z := by positivity
    have hw := Bin.one_le_g (F := F) A.cols
    set T := |alpha.real| * ∑ k ∈ range A.cols, |(a i k).real| * |(a j k).real|
    set Y := ∑ k ∈ range A.cols, |(a j k).real|
    have hK : (0 : ℝ) ≤ A.cols := Nat.cast_nonneg _
    have t1 : Z + F.eta ≤ Z + T + (A.cols + 1 + Y) * F.eta := by nlinarith
    have t2 : 0 ≤ Z + F.eta := by linarith
    have t3 : Z + F.eta ≤ (1 + F.u) ^ A.cols * (Z + T + (A.cols + 1 + Y) * F.eta) := le_trans t1 (le_mul_of_one_le_left (by linarith) hw)
    have t4 := mul_le_mul_of_nonneg_left t3 (show 0 ≤ 1 + F.u by linarith)
    nlinarith
  refine Bin.scaledSum_finite (z := Bin.mul beta (c i j)) A.cols (Z := |beta.real| * |(c i j).real|) (cz := 1) hzf ?_ hf h1 h2 zero_le_one
  have z3 := (Bin.mul_inv hzf).2.2
  have := abs_add_le ((Bin.mul beta (c i j)).real - beta.real * (c i j).real) (beta.real * (c i j).real)
  rw [sub_add_cancel] at this
  rw [abs_mul] at this z3
  linarith

/-- **C85** (trmm, triangular matrix on the right). A finite element of `C = alpha B A`, A lower triangular, is accurate, and all numbers that belong to it are finite. -/
theorem C85_trmm_right {SS : Nat} {m : Mem (Bin F)} {A B C : Container} (alpha : Bin F) (h : TrmmRArgs SS m B A C) (hs : TrmmRSizes B A C)
    {a b : Nat → Nat → Bin F} (ha : ContainsLower SS m A a) (hb : Contains SS m B b) :
    ∃ m' c, trmmRightCall SS 1 alpha B A .lower false C m = .ok () m' ∧ Contains SS m' C c ∧ ∀ i j, i < C.rows → j < C.cols → (c i j).Finite →
      alpha.Finite ∧ (∀ k, j ≤ k → k < B.cols → (b i k).Finite ∧ (a k j).Finite) ∧
      |(c i j).real - alpha.real * ∑ k ∈ Ico j B.cols, (b i k).real * (a k j).real| ≤
        ((1 + F.u) ^ (B.cols + 1) - 1) * (|alpha.real| * ∑ k ∈ Ico j B.cols, |(b i k).real| * |(a k j).real|) +
          (1 + F.u) ^ B.cols * (B.cols + ∑ k ∈ Ico j B.cols, |(a k j).real|) * F.eta := by
  obtain ⟨m', e, e1, -⟩ := det_trmmRight alpha h hs ha hb
  refine ⟨m', _, e, e1, fun i j hi hj hf => ?_⟩
  obtain ⟨⟨s1, s2⟩, s3, s4⟩ := hs
  unfold trmmRDet at hf ⊢
  obtain ⟨-, f2, f3⟩ := Bin.scaledSum_inv (B.cols - j) (zeta := 0) (Z := 0) (cz := 0) (by rw [Bin.real_zero]; simp) (by simp) hf
  refine ⟨(f2 0 (by omega)).1, fun k hk1 hk2 => ?_, ?_⟩
  · have := f2 (k - j) (by omega)
    rw [show j + (k - j) = k by omega] at this
    exact this.2
  · simp only [sum_Ico_eq_sum_range]
    rw [zero_add, zero_add, add_zero] at f3
    have hu := F.u_pos
    have he := F.eta_pos
    refine le_trans f3 (add_le_add ?_ ?_)
    · refine mul_le_mul_of_nonneg_right (sub_le_sub_right (pow_le_pow_right₀ (by linarith) (by omega)) _) (mul_nonneg (abs_nonneg _) (sum_nonneg fun _ _ => by positivity))
    · have hY : 0 ≤ ∑ k ∈ range (B.cols - j), |(a (j + k) j).real| := sum_nonneg fun _ _ => abs_nonneg _
      have hc : ((B.cols - j : Nat) : ℝ) ≤ B.cols := by exact_mod_cast Nat.sub_le _ _
      refine mul_le_mul_of_nonneg_right (mul_le_mul (pow_le_pow_right₀ (by linarith) (by omega)) (by linarith) (by positivity) (by positivity)) he.le

/-- **C85** (trmm, triangular matrix on the right). No overflow for finite arguments that are not too large. -/
theorem C85_trmm_right_finite {SS : Nat} {m : Mem (Bin F)} {A B C : Container} (alpha : Bin F) (h : TrmmRArgs SS m B A C) (hs : TrmmRSizes B A C)
    {a b : Nat → Nat → Bin F} (ha : ContainsLower SS m A a) (hb : Contains SS m B b) :
    ∃ m' c, trmmRightCall SS 1 alpha B A .lower false C m = .ok () m' ∧ Contains SS m' C c ∧ ∀ i j, i < C.rows → j < C.cols →
      alpha.Finite → (∀ k, j ≤ k → k < B.cols → (b i k).Finite ∧ (a k j).Finite) →
      (∀ k, j ≤ k → k < B.cols → (1 + F.u) * (|alpha.real| * |(b i k).real|) + F.eta < F.big) →
      (1 + F.u) ^ (B.cols + 1) * (|alpha.real| * ∑ k ∈ Ico j B.cols, |(b i k).real| * |(a k j).real| + (B.cols + ∑ k ∈ Ico j B.cols, |(a k j).real|) * F.eta) < F.big →
      (c i j).Finite := by
  obtain ⟨m', e, e1, -⟩ := det_trmmRight alpha h hs ha hb
  refine ⟨m', _, e, e1, fun i j hi hj hal hf h1 h2 => ?_⟩
  obtain ⟨⟨s1, s2⟩, s3, s4⟩ := hs
  have hu := F.u_pos
  have he := F.eta_pos
  unfold trmmRDet
  refine Bin.scaledSum_finite (B.cols - j) (Z := 0) (cz := 0) trivial (by rw [Bin.real_zero]; simp) (fun k hk => ⟨hal, hf (j + k) (by omega) (by omega)⟩)
    (fun k hk => h1 (j + k) (by omega) (by omega)) (lt_of_le_of_lt ?_ h2) le_rfl
  simp only [sum_Ico_eq_sum_range]
  rw [zero_add, add_zero]
  have hY : 0 ≤ ∑ k ∈ range (B.cols - j), |(a (j + k) j).real| := sum_nonneg fun _ _ => abs_nonneg _
  have hT : 0 ≤ |alpha.real| * ∑ k ∈ range (B.cols - j), |(b i (j + k)).real| * |(a (j + k) j).real| := mul_nonneg (abs_nonneg _) (sum_nonneg fun _ _ => by positivity)
  have hc : ((B.cols - j : Nat) : ℝ) ≤ B.cols := by exact_mod_cast Nat.sub_le _ _
  refine mul_le_mul (pow_le_pow_right₀ (by linarith) (by omega)) ?_ (by positivity) (by positivity)
  have := mul_le_mul_of_nonneg_right (show ((B.cols - j : Nat) : ℝ) + ∑ k ∈ range (B.cols - j), |(a (j + k) j).real| ≤ B.cols + ∑ k ∈ range (B.cols - j), |(a (j + k) j).real|
    by linarith) he.le
  linarith

/-- **C85** (trmm, triangular matrix on the left). A finite element of `C = alpha A B`, A upper triangular with (positive or negative) zeros below the diagonal, is accurate,
and all numbers that belong to it are finite. -/
theorem C85_trmm_left {SS : Nat} {m : Mem (Bin F)} {A B C : Container} (alpha : Bin F) (h : TrmmLArgs SS m A B C) (hs : TrmmLSizes A B C)
    {a b : Nat → Nat → Bin F} (ha : Contains SS m A a) (hb : Contains SS m B b) (hz : ∀ i k, k < i → i < A.rows → (a i k).real = 0) :
    ∃ m' c, trmmLeftCall SS 1 alpha A .upper false B C m = .ok () m' ∧ Contains SS m' C c ∧ ∀ i j, i < C.rows → j < C.cols → (c i j).Finite →
      alpha.Finite ∧ (∀ k, i ≤ k → k < B.rows → (a i k).Finite ∧ (b k j).Finite) ∧
      |(c i j).real - alpha.real * ∑ k ∈ Ico i B.rows, (a i k).real * (b k j).real| ≤
        ((1 + F.u) ^ (B.rows + 1) - 1) * (|alpha.real| * ∑ k ∈ Ico i B.rows, |(a i k).real| * |(b k j).real|) +
          (1 + F.u) ^ B.rows * (B.rows + ∑ k ∈ range B.rows, |(b k j).real|) * F.eta := by
  obtain ⟨m', e, e1, -, v⟩ := det_trmmLeft_val alpha h hs ha hb
  refine ⟨m', _, e, e1, fun i j hi hj hf => ?_⟩
  obtain ⟨⟨s1, s2⟩, s3, s4⟩ := hs
  obtain ⟨lo, aa, hlo, haa, ev⟩ := (v i j (by omega) (by omega)).window (by omega)
  rw [ev] at hf ⊢
  have hu := F.u_pos
  have he := F.eta_pos
  obtain ⟨-, f2, f3⟩ := Bin.scaledSum_inv (B.rows - lo) (zeta := 0) (Z := 0) (cz := 0) (by rw [Bin.real_zero]; simp) (by simp) hf
  have hreal : ∀ k, lo ≤ k → k < B.rows → (aa k).real = (a i k).real := fun k h1 h2 => by
    rcases haa k h1 h2 with h | ⟨h3, h⟩
    · rw [h]
    · rw [h, Bin.real_zero, hz i k h3 (by omega)]
  have hsum : ∀ (f : ℝ → ℝ → ℝ), (∀ y, f 0 y = 0) →
      ∑ t ∈ range (B.rows - lo), f (aa (lo + t)).real (b (lo + t) j).real = ∑ k ∈ Ico i B.rows, f (a i k).real (b k j).real := fun f hf0 => by
    rw [← sum_Ico_eq_sum_range (fun k => f (aa k).real (b k j).real), ← sum_Ico_consecutive _ hlo (show i ≤ B.rows by omega)]
    rw [sum_eq_zero (s := Ico lo i) (fun k hk => ?_), zero_add]
    · refine sum_congr rfl fun k hk => ?_
      have := mem_Ico.1 hk
      rw [hreal k (by omega) (by omega)]
    · have := mem_Ico.1 hk
      rw [hreal k (by omega) (by omega), hz i k (by omega) (by omega), hf0]
  refine ⟨(f2 0 (by omega)).1, fun k hk1 hk2 => ?_, ?_⟩
  · have := f2 (k - lo) (by omega)
    rw [show lo + (k - lo) = k by omega] at this
    rcases haa k (by omega) hk2 with h | ⟨h3, h⟩
    · rw [h] at this; exact this.2
    · omega
  · have e2 := hsum (fun x y => x * y) (fun y => zero_mul y)
    have e3 := hsum (fun x y => |x| * |y|) (fun y => by rw [abs_zero, zero_mul])
    rw [e2, e3, zero_add, zero_add, add_zero] at f3
    refine le_trans f3 (add_le_add ?_ ?_)
    · refine mul_le_mul_of_nonneg_right (sub_le_sub_right (pow_le_pow_right₀ (by linarith) (by omega)) _) (mul_nonneg (abs_nonneg _) (sum_nonneg fun _ _ => by positivity))
    · have hY : ∑ t ∈ range (B.rows - lo), |(b (lo + t) j).real| ≤ ∑ k ∈ range B.rows, |(b k j).real| := by
        rw [← sum_Ico_eq_sum_range (fun k => |(b k j).real|), range_eq_Ico]
        exact sum_le_sum_of_subset_of_nonneg (Ico_subset_Ico_left (Nat.zero_le _)) (fun _ _ _ => abs_nonneg _)
      have hY0 : 0 ≤ ∑ t ∈ range (B.rows - lo), |(b (lo + t) j).real| := sum_nonneg fun _ _ => abs_nonneg _
      have hc : ((B.rows - lo : Nat) : ℝ) ≤ B.rows := by exact_mod_cast Nat.sub_le _ _
      refine mul_le_mul_of_nonneg_right (mul_le_mul (pow_le_pow_right₀ (by linarith) (by omega)) (by linarith) (by positivity) (by positivity)) he.le

/-- **C85** (trmm, triangular matrix on the left). No overflow for finite arguments that are not too large; also the elements of B above row i must be finite (they are
multiplied with zeros). -/
theorem C85_trmm_left_finite {SS : Nat} {m : Mem (Bin F)} {A B C : Container} (alpha : Bin F) (h : TrmmLArgs SS m A B C) (hs : TrmmLSizes A B C)
    {a b : Nat → Nat → Bin F} (ha : Contains SS m A a) (hb : Contains SS m B b) (hz : ∀ i k, k < i → i < A.rows → (a i k).Finite ∧ (a i k).real = 0) :
    ∃ m' c, trmmLeftCall SS 1 alpha A .upper false B C m = .ok () m' ∧ Contains SS m' C c ∧ ∀ i j, i < C.rows → j < C.cols →
      alpha.Finite → (∀ k, i ≤ k → k < B.rows → (a i k).Finite) → (∀ k, k < B.rows → (b k j).Finite) →
      (∀ k, i ≤ k → k < B.rows → (1 + F.u) * (|alpha.real| * |(a i k).real|) + F.eta < F.big) →
      (1 + F.u) ^ (B.rows + 1) * (|alpha.real| * ∑ k ∈ Ico i B.rows, |(a i k).real| * |(b k j).real| + (B.rows + ∑ k ∈ range B.rows, |(b k j).real|) * F.eta) < F.big →
      (c i j).Finite := by
  obtain ⟨m', e, e1, -, v⟩ := det_trmmLeft_val alpha h hs ha hb
  refine ⟨m', _, e, e1, fun i j hi hj hal haf hbf h1 h2 => ?_⟩
  obtain ⟨⟨s1, s2⟩, s3, s4⟩ := hs
  obtain ⟨lo, aa, hlo, haa, ev⟩ := (v i j (by omega) (by omega)).window (by omega)
  rw [ev]
  have hu := F.u_pos
  have he := F.eta_pos
  have hreal : ∀ k, lo ≤ k → k < B.rows → (aa k).Finite ∧ (aa k).real = (a i k).real := fun k h1 h2 => by
    rcases haa k h1 h2 with h | ⟨h3, h⟩
    · rw [h]
      refine ⟨?_, rfl⟩
      rcases Nat.lt_or_ge k i with h4 | h4
      · exact (hz i k h4 (by omega)).1
      · exact haf k h4 h2
    · rw [h, Bin.real_zero, (hz i k h3 (by omega)).2]
      exact ⟨trivial, rfl⟩
  have hsum : ∀ (f : ℝ → ℝ → ℝ), (∀ y, f 0 y = 0) →
      ∑ t ∈ range (B.rows - lo), f (aa (lo + t)).real (b (lo + t) j).real = ∑ k ∈ Ico i B.rows, f (a i k).real (b k j).real := fun f hf0 => by
    rw [← sum_Ico_eq_sum_range (fun k => f (aa k).real (b k j).real), ← sum_Ico_consecutive _ hlo (show i ≤ B.rows by omega)]
    rw [sum_eq_zero (s := Ico lo i) (fun k hk => ?_), zero_add]
    · refine sum_congr rfl fun k hk => ?_
      have := mem_Ico.1 hk
      rw [(hreal k (by omega) (by omega)).2]
    · have := mem_Ico.1 hk
      rw [(hreal k (by omega) (by omega)).2, (hz i k (by omega) (by omega)).2, hf0]
  have e3 := hsum (fun x y => |x| * |y|) (fun y => by rw [abs_zero, zero_mul])
  have hT : 0 ≤ |alpha.real| * ∑ k ∈ Ico i B.rows, |(a i k).real| * |(b k j).real| := mul_nonneg (abs_nonneg _) (sum_nonneg fun _ _ => by positivity)
  have hY1 : ∑ t ∈ range (B.rows - lo), |(b (lo + t) j).real| ≤ ∑ k ∈ range B.rows, |(b k j).real| := by
    rw [← sum_Ico_eq_sum_range (fun k => |(b k j).real|), range_eq_Ico]
    exact sum_le_sum_of_subset_of_nonneg (Ico_subset_Ico_left (Nat.zero_le _)) (fun _ _ _ => abs_nonneg _)
  have hY0 : 0 ≤ ∑ t ∈ range (B.rows - lo), |(b (lo + t) j).real| := sum_nonneg fun _ _ => abs_nonneg _
  have hc : ((B.rows - lo : Nat) : ℝ) ≤ B.rows := by exact_mod_cast Nat.sub_le _ _
  have hmono := mul_le_mul_of_nonneg_right (show ((B.rows - lo : Nat) : ℝ) + ∑ t ∈ range (B.rows - lo), |(b (lo + t) j).real| ≤ B.rows + ∑ k ∈ range B.rows, |(b k j).real|
    by linarith) he.le
  have hK0 : (0 : ℝ) ≤ ((B.rows - lo : Nat) : ℝ) := Nat.cast_nonneg _
  refine Bin.scaledSum_finite (B.rows - lo) (Z := 0) (cz := 0) trivial (by rw [Bin.real_zero]; simp) (fun k hk => ⟨hal, (hreal (lo + k) (by omega) (by omega)).1, hbf _ (by omega)⟩)
    (fun k hk => ?_) (lt_of_le_of_lt ?_ h2) le_rfl
  · rw [(hreal (lo + k) (by omega) (by omega)).2]
    rcases Nat.lt_or_ge (lo + k) i with h4 | h4
    · rw [(hz i _ h4 (by omega)).2, abs_zero, mul_zero, mul_zero, zero_add]
      refine lt_of_le_of_lt ?_ h2
      have hM : (1 : ℝ) ≤ B.rows := by exact_mod_cast (show 1 ≤ B.rows by omega)
      have hg := Bin.one_le_g (F := F) (B.rows + 1)
      have : F.eta ≤ |alpha.real| * ∑ k ∈ Ico i B.rows, |(a i k).real| * |(b k j).real| + (B.rows + ∑ k ∈ range B.rows, |(b k j).real|) * F.eta := by nlinarith
      nlinarith
    · exact h1 _ h4 (by omega)
  · rw [e3, zero_add, add_zero]
    refine mul_le_mul (pow_le_pow_right₀ (by linarith) (by omega)) (by linarith) (by positivity) (by positivity)

/-- **C85** (refuted: gemm overflows although the result is a number of the format). gemm multiplies with alpha after the summation: for the 1-by-1 matrices A = 2^emax,
B = 8 and alpha = 1/8, beta = 0, the product alpha A B = A is in the format, but gemm returns infinity. -/
theorem C85_gemm_overflow_refuted {SS : Nat} {m : Mem (Bin F)} {A B C D : Container} (h : GemmArgs SS m A B C D) (hs : GemmSizes A B C D)
    (hD : D.rows = 1 ∧ D.cols = 1 ∧ A.cols = 1) {x : NNReal} (hx : (x : ℝ) = (2 : ℝ) ^ F.emax) (ha : Contains SS m A (fun _ _ => .fin false x))
    (hb : Contains SS m B (fun _ _ => .fin false 8)) (hc : Contains SS m C (fun _ _ => .fin false 0)) :
    F.Representable ((1 / 8 : ℝ) * ((2 : ℝ) ^ F.emax * 8)) ∧
    ∃ m', gemmCall SS (.fin false (1 / 8)) A B (.fin false 0) C D m = .ok () m' ∧ m' (D.addr SS 0 0) = some (.inf false) := by
  refine ⟨⟨⟨2 ^ F.p, F.emax - F.p, ?_, by have := F.range; omega, by omega, ?_⟩, fun _ => Or.inr ?_⟩, ?_⟩
  · rw [abs_of_nonneg (by positivity), pow_succ]
    have : (0 : ℤ) < 2 ^ F.p := by positivity
    omega
  · push_cast
    rw [← zpow_natCast, ← zpow_add₀ (by norm_num), show (F.p : ℤ) + (F.emax - F.p) = F.emax by ring]
    ring
  · rw [show (1 / 8 : ℝ) * ((2 : ℝ) ^ F.emax * 8) = (2 : ℝ) ^ F.emax by ring, abs_of_pos (zpow_pos (by norm_num) _)]
    exact Format.two_zpow_le F.range
  · obtain ⟨m', e, e1⟩ := C04_gemm_bitwise (.fin false (1 / 8)) (.fin false 0) h hs ha hb hc
    refine ⟨m', e, ?_⟩
    rw [e1 0 0 (by omega) (by omega), hD.2.2]
    have hbig : F.big ≤ F.round |(x : ℝ) * 8 + 0| := by
      have h5 : (0 : ℝ) < (2 : ℝ) ^ F.emax := zpow_pos (by norm_num) _
      have h0 : (0 : ℝ) ≤ (2 : ℝ) ^ F.emax * 8 := by linarith
      rw [hx, add_zero, abs_of_nonneg h0]
      have h1 := (abs_le.1 (F.round_err (y := (2 : ℝ) ^ F.emax * 8) h0)).1
      have h2 : F.u ≤ 1 / 2 := by
        unfold Format.u
        rw [pow_succ]
        have : (1 / 2 : ℝ) ^ F.p ≤ 1 := pow_le_one₀ (by norm_num) (by norm_num)
        linarith
      have h3 : F.eta ≤ (2 : ℝ) ^ F.emax := by
        have := F.range
        unfold Format.eta
        split <;> exact Format.two_zpow_le (by omega)
      have h4 : F.big = (2 : ℝ) ^ F.emax * 2 := by unfold Format.big; rw [zpow_add₀ (by norm_num), zpow_one]
      rw [h4]
      nlinarith
    have hs1 : fmaSum (fun _ => (.fin false x : Bin F)) (fun _ => .fin false 8) Arith.zero 1 = .inf false := by
      show Bin.fma (.fin false x) (.fin false 8) (.fin false 0) = _
      have hr : (Bin.fin false x : Bin F).real * (Bin.fin false 8 : Bin F).real + (Bin.fin false 0 : Bin F).real = (x : ℝ) * 8 + 0 := by simp [Bin.real]
      have h6 : ¬ ((x : ℝ) * 8 + 0 < 0) := by
        have := x.2
        rw [NNReal.val_eq_coe] at this
        linarith
      unfold Bin.fma Bin.mk
      dsimp only
      rw [if_pos (by rw [hr]; exact hbig), hr, decide_eq_false h6]
    rw [hs1]
    have h8 : (1 / 8 : NNReal) ≠ 0 := by norm_num
    show some (Bin.fma (.fin false 0) (.fin false 0) (Bin.mul (.inf false) (.fin false (1 / 8)))) = _
    simp only [Bin.mul]
    rw [if_neg h8]
    rfl

end Blast
