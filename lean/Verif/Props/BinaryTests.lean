import Verif.BinaryPos
import Verif.Props.Testing
import Verif.Props.ReferenceAccuracy
import Verif.Props.NanProp
import Verif.Props.ReferenceTrmm
/- Concrete cases meeting the hypotheses of these theorems: Verif/Cases/BinaryTests.lean, and the examples in this file. -/
/-
C92: the random comparisons of the library's own test suite, in IEEE arithmetic.

The programs are those of /repo/test/blast/math/dense/GemmTest.cpp:34-53, GerTest.cpp:30-46, SyrkTest.cpp:27-65, TrmmTest.cpp:15-63, PotrfTest.cpp:27-44 and
/repo/test/blast/math/panel/GemmTest.cpp:30-60 for one size and arbitrary drawn numbers.
-/
namespace Blast
open Prog Finset Bin
variable {F : Format}

/-- a number that `randomize` can draw: `std::uniform_real_distribution` with default parameters (Randomize.hpp:26-32) draws from [0, 1) -/
def Unit01 (x : Bin F) : Prop := x.Finite ∧ 0 ≤ x.real ∧ x.real ≤ 1

/-- tolerances that allow for k roundings in each of two computations -/
structure TolFor (F : Format) (k : Nat) (atol rtol : Bin F) : Prop where
  k3 : 3 ≤ k
  fa : atol.Finite
  fr : rtol.Finite
  a0 : 4 * F.u ≤ atol.real
  a1 : atol.real ≤ 1
  r0 : 8 * k * F.u ≤ rtol.real
  r1 : rtol.real ≤ 1
  big : 32 * ((k : ℝ) + 1) ≤ F.big

theorem TolFor.facts {k : Nat} {atol rtol : Bin F} (h : TolFor F k atol rtol) : F.u ≤ 1 / 24 ∧ k * F.u ≤ rtol.real / 8 ∧ (1 + F.u) ^ k ≤ 1 + 2 * (k * F.u) ∧ (1 + F.u) ^ k ≤ 2 := by
  have hu := F.u_pos
  have hk : (3 : ℝ) ≤ k := by exact_mod_cast h.k3
  have h1 : k * F.u ≤ rtol.real / 8 := by have := h.r0; linarith
  have h2 := h.r1
  have h3 : F.u ≤ 1 / 24 := by nlinarith
  have h4 := pow_one_le (k := k) hu.le (by linarith) (by linarith)
  exact ⟨h3, h1, h4, by linarith⟩

set_option maxHeartbeats 1000000 in
theorem close_of_pos (hW : F.Wide) {k : Nat} {atol rtol d e : Bin F} {x : ℝ} (h : TolFor F k atol rtol) (hd : Pos k (2 * k) d x) (he : Pos k (2 * k) e x) (hx : x ≤ k) :
    matDiffer atol rtol d e = false := by
  obtain ⟨hu24, hku, hw, hw2⟩ := h.facts
  have hu := F.u_pos
  have het := F.eta_pos
  have heu := eta_le_u hW
  have hr1 := h.r1
  have hr0 : 0 ≤ rtol.real := le_trans (by positivity) h.r0
  have ha0 := h.a0
  have hk3 : (3 : ℝ) ≤ k := by exact_mod_cast h.k3
  have hx0 := hd.nonneg
  have hku0 : 0 < k * F.u := by positivity
  have hkeq : (k : ℝ) * F.eta ≤ F.u / 16 := by
    calc (k : ℝ) * F.eta ≤ k * (F.u * F.u / 2) := mul_le_mul_of_nonneg_left heu (by linarith)
      _ = (k * F.u) * F.u / 2 := by ring
      _ ≤ (1 / 8) * F.u / 2 := by
        have : (k : ℝ) * F.u * F.u ≤ 1 / 8 * F.u := mul_le_mul_of_nonneg_right (by linarith) hu.le
        linarith
      _ = _ := by ring
  have hE : 2 * (k : ℝ) * (1 + F.u) ^ k * F.eta ≤ F.u / 6 := by
    have : (1 + F.u) ^ k ≤ 5 / 4 := by linarith
    calc 2 * (k : ℝ) * (1 + F.u) ^ k * F.eta = 2 * (1 + F.u) ^ k * (k * F.eta) := by ring
      _ ≤ 2 * (5 / 4) * (F.u / 16) := mul_le_mul (by linarith) hkeq (by positivity) (by norm_num)
      _ ≤ _ := by linarith
  have hg : ((1 + F.u) ^ k - 1) * x ≤ rtol.real / 4 * x := mul_le_mul_of_nonneg_right (by linarith) hx0
  have hed := hd.err
  have hee := he.err
  have hrx : rtol.real / 4 * x ≤ x / 4 := by nlinarith
  have d1 : |d.real| ≤ 5 / 4 * x + F.u / 6 := by
    have := abs_add_le (d.real - x) x
    rw [sub_add_cancel, abs_of_nonneg hx0] at this
    linarith
  have e1 : |e.real| ≤ 5 / 4 * x + F.u / 6 := by
    have := abs_add_le (e.real - x) x
    rw [sub_add_cancel, abs_of_nonneg hx0] at this
    linarith
  have e2 : 3 / 4 * x - F.u / 6 ≤ |e.real| := by
    have := abs_add_le (x - e.real) e.real
    rw [sub_add_cancel, abs_of_nonneg hx0, abs_sub_comm] at this
    linarith
  have hde : |d.real - e.real| ≤ rtol.real / 2 * x + F.u / 3 := by
    have := abs_sub_le d.real x e.real
    rw [abs_sub_comm x] at this
    linarith
  have hbig := h.big
  refine farApart_false hW hd.fin he.fin h.fa h.fr (by linarith) h.a1 hr0 hr1 (by linarith) (by linarith) ?_
  have hrx0 : 0 ≤ rtol.real * x := mul_nonneg hr0 hx0
  have heta : F.eta ≤ F.u / 48 := by nlinarith
  have l1 : (1 + F.u) * |d.real - e.real| + F.eta ≤ 25 / 24 * (rtol.real / 2 * x + F.u / 3) + F.u / 48 := by
    have : (1 + F.u) * |d.real - e.real| ≤ 25 / 24 * (rtol.real / 2 * x + F.u / 3) := mul_le_mul (by linarith) hde (abs_nonneg _) (by norm_num)
    linarith
  refine le_trans l1 ?_
  have p0 : rtol.real * (3 / 4 * x - F.u / 6) ≤ rtol.real * |e.real| := mul_le_mul_of_nonneg_left e2 hr0
  have p0' : 3 / 4 * (rtol.real * x) - F.u / 6 ≤ rtol.real * |e.real| := by nlinarith
  have p1 : 23 / 24 * (3 / 4 * (rtol.real * x)) - F.u / 6 ≤ (1 - F.u) * (rtol.real * |e.real|) := by
    have hnn : 0 ≤ rtol.real * |e.real| := mul_nonneg hr0 (abs_nonneg _)
    have : 23 / 24 * (rtol.real * |e.real|) ≤ (1 - F.u) * (rtol.real * |e.real|) := mul_le_mul_of_nonneg_right (by linarith) hnn
    linarith
  have p2 : 4 * F.u + (23 / 24 * (3 / 4 * (rtol.real * x)) - F.u / 6 - F.u / 48) ≤ atol.real + ((1 - F.u) * (rtol.real * |e.real|) - F.eta) := by linarith
  have p3 : 23 / 24 * (4 * F.u + (23 / 24 * (3 / 4 * (rtol.real * x)) - F.u / 6 - F.u / 48)) ≤
      (1 - F.u) * (atol.real + ((1 - F.u) * (rtol.real * |e.real|) - F.eta)) := mul_le_mul (by linarith) p2 (by linarith) (by linarith)
  linarith

/-- a comparison succeeds if no pair of elements differs -/
theorem approx_success {V : Type} [Arith V] {SS : Nat} {lhs rhs : Container} {m : Mem V} {f g : Nat → Nat → V} {atol rtol : V} (hf : Contains SS m lhs f) (hg : Contains SS m rhs g)
    (hs : rhs.rows = lhs.rows ∧ rhs.cols = lhs.cols) (h : ∀ i j, i < lhs.rows → j < lhs.cols → matDiffer atol rtol (f i j) (g i j) = false) :
    approxEqualMat SS lhs rhs atol rtol m = .ok .success m := by
  obtain ⟨v, hv, hq⟩ := (scanMat_reads (matDiffer atol rtol) hf hg).2 hs
  have : v = .success := by
    cases v with
    | success => rfl
    | sizeMismatch => exact hq.elim
    | mismatch i j =>
      have := hq.2.2.1
      beta_reduce at this
      rw [h i j hq.1 hq.2.1] at this
      cases this
  rw [← this]
  exact hv

/-- the value gemm computes for one element -/
theorem pos_gemm (hW : F.Wide) {K k : Nat} {atol rtol : Bin F} (h : TolFor F k atol rtol) (hk : K + 3 ≤ k) {alpha beta c : Bin F} {a b : Nat → Bin F} (hal : Unit01 alpha) (hbe : Unit01 beta)
    (hc : Unit01 c) (ha : ∀ t, t < K → Unit01 (a t)) (hb : ∀ t, t < K → Unit01 (b t)) :
    Pos k (2 * k) (Arith.fma beta c (Arith.mul (fmaSum a b Arith.zero K) alpha)) (alpha.real * ∑ t ∈ range K, (a t).real * (b t).real + beta.real * c.real) ∧
    Pos k (2 * k) (Arith.add (Arith.mul alpha (addFold (fun t => Arith.mul (a t) (b t)) Arith.zero 0 K)) (Arith.mul beta c))
      (alpha.real * ∑ t ∈ range K, (a t).real * (b t).real + beta.real * c.real) := by
  obtain ⟨-, -, -, hw2⟩ := h.facts
  have hbig := h.big
  have hkK : (K : ℝ) + 3 ≤ k := by exact_mod_cast hk
  have hK0 : (0 : ℝ) ≤ K := Nat.cast_nonneg K
  have hw : ∀ n, n ≤ k → (1 + F.u) ^ n ≤ 2 := fun n hn => le_trans (g_mono hn) hw2
  have hS : 0 ≤ ∑ t ∈ range K, (a t).real * (b t).real ∧ ∑ t ∈ range K, (a t).real * (b t).real ≤ K := sum01 fun t ht =>
    ⟨mul_nonneg (ha t ht).2.1 (hb t ht).2.1, mul_le_one₀ (ha t ht).2.2 (hb t ht).2.1 (hb t ht).2.2⟩
  have hSa : (∑ t ∈ range K, (a t).real * (b t).real) * alpha.real ≤ K := le_trans (mul_le_of_le_one_right hS.1 hal.2.2) hS.2
  have hSa0 : 0 ≤ (∑ t ∈ range K, (a t).real * (b t).real) * alpha.real := mul_nonneg hS.1 hal.2.1
  have hbc : beta.real * c.real ≤ 1 := mul_le_one₀ hbe.2.2 hc.2.1 hc.2.2
  have hbc0 : 0 ≤ beta.real * c.real := mul_nonneg hbe.2.1 hc.2.1
  constructor
  · have s1 := Pos.fmaSum (j := 0) (ca := 0) (cz := 0) (x := fun t => (a t).real) hW (K := K) (n := K) (Pos.zero (F := F)) le_rfl
      (fun t ht => ⟨Pos.exact (ha t ht).1 (ha t ht).2.1, (ha t ht).2.2⟩) (fun t ht => hb t ht) (hw _ (by omega)) le_rfl (by linarith)
    rw [zero_add, zero_add, zero_add] at s1
    have s2 := (Pos.mul hW s1 hal.1 hal.2.1 hal.2.2 (hw _ (by omega)) (by linarith)).1
    have s3 := Pos.fma hW ((Pos.exact hbe.1 hbe.2.1).mono (Nat.zero_le (K + 1)) le_rfl) hc.1 hc.2.1 hc.2.2 s2 (hw _ (by omega)) (by linarith)
    rw [zero_add (∑ t ∈ range K, (a t).real * (b t).real)] at s3
    have s4 := s3.mono (show K + 1 + 1 ≤ k by omega) (show (0 : ℝ) + (↑K * 1 + 1) + 1 ≤ 2 * k by linarith)
    rwa [show alpha.real * ∑ t ∈ range K, (a t).real * (b t).real + beta.real * c.real = beta.real * c.real + (∑ t ∈ range K, (a t).real * (b t).real) * alpha.real by ring]
  · have s1 := Pos.addFold (f := fun t => Arith.mul (a t) (b t)) (x := fun t => (a t).real * (b t).real) (lo := 0) hW (K := K) (n := K) le_rfl
      (fun t ht => by
        rw [Nat.zero_add]
        have hp : (a t).real * (b t).real ≤ 1 := mul_le_one₀ (ha t ht).2.2 (hb t ht).2.1 (hb t ht).2.2
        have q := (Pos.mul hW (Pos.exact (ha t ht).1 (ha t ht).2.1) (hb t ht).1 (hb t ht).2.1 (hb t ht).2.2 (hw 0 (by omega)) (by linarith)).1
        exact ⟨q.mono le_rfl (by norm_num), hp⟩) (hw _ (by omega)) (by linarith)
    have s2 := (Pos.mul hW s1 hal.1 hal.2.1 hal.2.2 (hw _ (by omega)) (by linarith)).2
    have s3 := (Pos.mul hW (Pos.exact hbe.1 hbe.2.1) hc.1 hc.2.1 hc.2.2 (hw 0 (by omega)) (by linarith)).1
    have s4 := Pos.add hW s2 (s3.mono (show 0 + 1 ≤ 1 + K + 1 by omega) le_rfl) (hw _ (by omega)) (by linarith)
    have s5 := s4.mono (show 1 + K + 1 + 1 ≤ k by omega) (show (2 * ↑K + 1 + (0 + 1) + 1 : ℝ) ≤ 2 * k by linarith)
    rwa [show alpha.real * ∑ t ∈ range K, (a t).real * (b t).real + beta.real * c.real = (∑ t ∈ range K, (a t).real * (b t).real) * alpha.real + beta.real * c.real by ring]

/-- **C92** (gemm). With elements and factors drawn from [0, 1] the comparison of gemm with the reference implementation succeeds, whatever was drawn: the
test does not fail for numerical reasons. -/
theorem C92_gemm (hW : F.Wide) {SS : Nat} {m : Mem (Bin F)} {A B C D E : Container} {alpha beta atol rtol : Bin F}
    (hD : GemmArgs SS m A B C D) (sD : GemmSizes A B C D) (hE : GemmArgs SS m A B C E) (sE : GemmSizes A B C E) (hC : Apart SS C D)
    (hED : Apart SS D E) {a b c : Nat → Nat → Bin F} (ha : Contains SS m A a) (hb : Contains SS m B b) (hc : Contains SS m C c)
    (hal : Unit01 alpha) (hbe : Unit01 beta) (ra : ∀ i k, i < A.rows → k < A.cols → Unit01 (a i k)) (rb : ∀ k j, k < B.rows → j < B.cols → Unit01 (b k j))
    (rc : ∀ i j, i < C.rows → j < C.cols → Unit01 (c i j)) (ht : TolFor F (A.cols + 3) atol rtol) :
    ∃ m', gemmTest SS alpha A B beta C D E atol rtol m = .ok .success m' := by
  obtain ⟨m1, e1, e2⟩ := C04_gemm_bitwise alpha beta hD sD ha hb hc
  obtain ⟨m1', e1', e4⟩ := C02_gemm_frame alpha beta hD sD
  rw [e1] at e1'
  injection e1' with _ e1'
  subst e1'
  have hE1 : GemmArgs SS m1 A B C E := ⟨hE.ss, hE.sA, hE.sC, hE.sD, live_after e4 e2 hE.lA, live_after e4 e2 hE.lB, live_after e4 e2 hE.lC,
    live_after e4 e2 hE.lD, hE.dA, hE.dB, hE.dC⟩
  obtain ⟨m2, f1, f2, f3⟩ := refGemmMat_bitwise alpha beta hE1 sE (contains_after hE.ss e4 hD.dA ha) (contains_after hE.ss e4 hD.dB hb)
    (contains_after hE.ss e4 hC hc)
  have hd2 := contains_after hE.ss f3 hED e2
  refine ⟨m2, ?_⟩
  unfold gemmTest
  rw [bind_ok e1, bind_ok f1]
  obtain ⟨s1, ⟨s2, s3⟩, s4, s5⟩ := sD
  refine approx_success hd2 f2 ⟨by rw [sE.2.2.1, s4], by rw [sE.2.2.2, s5]⟩ (fun i j hi hj => ?_)
  obtain ⟨p1, p2⟩ := pos_gemm hW (K := A.cols) (alpha := alpha) (beta := beta) (c := c i j) (a := fun k => a i k) (b := fun k => b k j) ht le_rfl hal hbe (rc i j (by omega) (by omega))
    (fun t ht => ra i t (by omega) ht) (fun t ht => rb t j (by omega) (by omega))
  refine close_of_pos hW ht p1 p2 ?_
  have hS : 0 ≤ ∑ t ∈ range A.cols, (a i t).real * (b t j).real ∧ ∑ t ∈ range A.cols, (a i t).real * (b t j).real ≤ A.cols := sum01 fun t ht => by
    have h1 := ra i t (by omega) ht
    have h2 := rb t j (by omega) (by omega)
    exact ⟨mul_nonneg h1.2.1 h2.2.1, mul_le_one₀ h1.2.2 h2.2.1 h2.2.2⟩
  have h1 := mul_le_of_le_one_left hS.1 hal.2.2
  have h2 := rc i j (by omega) (by omega)
  have h3 : beta.real * (c i j).real ≤ 1 := mul_le_one₀ hbe.2.2 h2.2.1 h2.2.2
  push_cast
  linarith

/-- `e` is a computed value of the nonnegative number `x` with the relative error of `k` roundings (and as many underflows) -/
def ComputedFrom (k : Nat) (e : Bin F) (x : ℝ) : Prop := e.Finite ∧ |e.real - x| ≤ ((1 + F.u) ^ k - 1) * x + 2 * k * (1 + F.u) ^ k * F.eta

/-- **C92** (gemm, any other computation). The same if the other values E are computed in any other way with relative errors of k roundings (for instance with factors of type double and
elements of type float, as in panel/GemmTest.cpp:51). -/
theorem C92_gemm_any (hW : F.Wide) {SS k : Nat} {m : Mem (Bin F)} {A B C D E : Container} {alpha beta atol rtol : Bin F}
    (hD : GemmArgs SS m A B C D) (sD : GemmSizes A B C D) (hE : E.rows = D.rows ∧ E.cols = D.cols) (hED : Apart SS E D)
    {a b c e : Nat → Nat → Bin F} (ha : Contains SS m A a) (hb : Contains SS m B b) (hc : Contains SS m C c) (he : Contains SS m E e)
    (hal : Unit01 alpha) (hbe : Unit01 beta) (ra : ∀ i k, i < A.rows → k < A.cols → Unit01 (a i k)) (rb : ∀ k j, k < B.rows → j < B.cols → Unit01 (b k j))
    (rc : ∀ i j, i < C.rows → j < C.cols → Unit01 (c i j))
    (re : ∀ i j, i < A.rows → j < B.cols → ComputedFrom k (e i j) (alpha.real * (∑ t ∈ range A.cols, (a i t).real * (b t j).real) + beta.real * (c i j).real))
    (hk : A.cols + 3 ≤ k) (ht : TolFor F k atol rtol) :
    ∃ m', (do gemmCall SS alpha A B beta C D; approxEqualMat SS D E atol rtol) m = .ok .success m' := by
  obtain ⟨m1, e1, e2⟩ := C04_gemm_bitwise alpha beta hD sD ha hb hc
  obtain ⟨m1', e1', e4⟩ := C02_gemm_frame alpha beta hD sD
  rw [e1] at e1'
  injection e1' with _ e1'
  subst e1'
  refine ⟨m1, ?_⟩
  rw [bind_ok e1]
  obtain ⟨s1, ⟨s2, s3⟩, s4, s5⟩ := sD
  refine approx_success e2 (contains_after hD.ss e4 hED he) hE (fun i j hi hj => ?_)
  obtain ⟨p1, -⟩ := pos_gemm hW (K := A.cols) (alpha := alpha) (beta := beta) (c := c i j) (a := fun k => a i k) (b := fun k => b k j) ht hk hal hbe (rc i j (by omega) (by omega))
    (fun t ht => ra i t (by omega) ht) (fun t ht => rb t j (by omega) (by omega))
  have hre := re i j (by omega) (by omega)
  refine close_of_pos hW ht p1 ⟨hre.1, p1.nonneg, p1.cpos, hre.2⟩ ?_
  have hS : 0 ≤ ∑ t ∈ range A.cols, (a i t).real * (b t j).real ∧ ∑ t ∈ range A.cols, (a i t).real * (b t j).real ≤ A.cols := sum01 fun t ht => by
    have h1 := ra i t (by omega) ht
    have h2 := rb t j (by omega) (by omega)
    exact ⟨mul_nonneg h1.2.1 h2.2.1, mul_le_one₀ h1.2.2 h2.2.1 h2.2.2⟩
  have h1 := mul_le_of_le_one_left hS.1 hal.2.2
  have h2 := rc i j (by omega) (by omega)
  have h3 : beta.real * (c i j).real ≤ 1 := mul_le_one₀ hbe.2.2 h2.2.1 h2.2.2
  have h4 : (A.cols : ℝ) + 3 ≤ k := by exact_mod_cast hk
  linarith

/-! ### trmm -/

/-- the values computed by the matrix version of `reference::trmm`, right multiplication by a lower triangular matrix, operation by operation -/
theorem refTrmmRMat_bitwise {V : Type} [Arith V] {SS : Nat} {m : Mem V} {A B C : Container} (alpha : V) (h : TrmmRArgs SS m B A C) (hs : TrmmRSizes B A C)
    {a b : Nat → Nat → V} (ha : ContainsLower SS m A a) (hb : Contains SS m B b) :
    ∃ m', refTrmmRMat SS alpha (B.mat SS) (A.mat SS) .lower false (C.mat SS) m = .ok () m' ∧
      Contains SS m' C (fun i j => Arith.mul alpha (addFold (fun k => Arith.mul (b i k) (a k j)) Arith.zero j (B.cols - j))) ∧ OnlyElemsChange SS m m' C := by
  have hp := h.pre hs
  obtain ⟨⟨e1, e2⟩, e3, e4⟩ := id hs
  have hlA : ∀ k j, j ≤ k → k < B.cols → m ((A.mptr SS).addr SS (k : Nat) (j : Nat)) = some (a k j) := fun k j hj hk => by
    rw [← Container.addr_eq_mptr]; exact ha k j hj (by omega) (by omega)
  have hlB : ∀ i j, i < B.rows → j < B.cols → m ((B.mptr SS).addr SS (i : Nat) (j : Nat)) = some (b i j) := fun i j hi hj => hb.holds i j hi hj
  obtain ⟨m', f1, f2, f3⟩ := runs_prod (no := B.rows) (ni := B.cols) false
    (addrC := fun o i => (C.mptr SS).addr SS (o : Nat) (i : Nat)) (addrB := fun o i => (B.mptr SS).addr SS (o : Nat) (i : Nat))
    (addrA := fun i k => (A.mptr SS).addr SS (k : Nat) (i : Nat)) (fun p q => Arith.mul q p) alpha false (fun i => i) (fun _ => B.cols)
    (fun i k hi h1 h2 => ⟨h2, by simp [innerLt]; omega⟩) (m := m)
    (fun o i o' i' h1 h2 h3 h4 he => hp.iC _ _ _ _ h1 h2 h3 h4 he) (fun o i ho hi => hp.rC o i ho hi)
    (fun o i ho hi => by rw [hlB o i ho hi]; rfl) (fun o i o' i' h1 h2 h3 h4 he => hp.dB _ _ _ _ h1 h2 h3 h4 he)
    (fun i k hi h1 h2 _ => ⟨by rw [hlA k i h1 h2]; rfl, fun o' i' h3 h4 he => hp.dA k i h1 h2 ⟨o', i', h3, h4, he⟩⟩)
  refine ⟨m', ?_, fun i j hi hj => ?_, fun x hx => f2 x (fun o i ho hi he => hx ((cells_iff (SS := SS) C x).1 ?_))⟩
  · rw [(C30_trmm_size_check (SS := SS) (A.mat SS) (B.mat SS) (C.mat SS) .lower false alpha m).2, if_pos ⟨e1, e2, e3, e4⟩]
    show refTrmmR SS B.rows B.cols alpha (B.mptr SS) (A.mptr SS) .lower false (C.mptr SS) m = _
    unfold refTrmmR
    rw [derefAt_eq hp.ss hp.wA, derefAt_eq hp.ss hp.wB, assignAt_eq hp.ss hp.wC]
    exact f1
  · rw [Container.addr_eq_mptr, f3 i j (by omega) (by omega)]
    refine congrArg some (congrArg (Arith.mul alpha) (addFold_congr _ (fun t h1 h2 => ?_)))
    simp only [Bool.false_and, Bool.false_eq_true, if_false]
    rw [val_some (hlA t j (by omega) (by omega)), val_some (hlB i t (by omega) (by omega))]
  · exact ⟨o, i, by omega, by omega, he⟩

/-- the values computed by the matrix version of `reference::trmm`, left multiplication by an upper triangular matrix, operation by operation -/
theorem refTrmmLMat_bitwise {V : Type} [Arith V] {SS : Nat} {m : Mem V} {A B C : Container} (alpha : V) (h : TrmmLArgs SS m A B C) (hs : TrmmLSizes A B C)
    {a b : Nat → Nat → V} (ha : Contains SS m A a) (hb : Contains SS m B b) :
    ∃ m', refTrmmLMat SS alpha (A.mat SS) .upper false (B.mat SS) (C.mat SS) m = .ok () m' ∧
      Contains SS m' C (fun i j => Arith.mul alpha (addFold (fun k => Arith.mul (a i k) (b k j)) Arith.zero i (B.rows - i))) ∧ OnlyElemsChange SS m m' C := by
  have hp := h.pre hs
  obtain ⟨⟨e1, e2⟩, e3, e4⟩ := id hs
  have hlA : ∀ i k, i < B.rows → k < B.rows → m ((A.mptr SS).addr SS (i : Nat) (k : Nat)) = some (a i k) := fun i k hi hk => ha.holds i k (by omega) (by omega)
  have hlB : ∀ i j, i < B.rows → j < B.cols → m ((B.mptr SS).addr SS (i : Nat) (j : Nat)) = some (b i j) := fun i j hi hj => hb.holds i j hi hj
  obtain ⟨m', f1, f2, f3⟩ := runs_prod (no := B.cols) (ni := B.rows) false
    (addrC := fun o i => (C.mptr SS).addr SS (i : Nat) (o : Nat)) (addrB := fun o i => (B.mptr SS).addr SS (i : Nat) (o : Nat))
    (addrA := fun i k => (A.mptr SS).addr SS (i : Nat) (k : Nat)) Arith.mul alpha false (fun i => i) (fun _ => B.rows)
    (fun i k hi h1 h2 => ⟨h2, by simp [innerLt]; omega⟩) (m := m)
    (fun o i o' i' h1 h2 h3 h4 he => (hp.iC _ _ _ _ h2 h1 h4 h3 he).symm) (fun o i ho hi => hp.rC i o hi ho)
    (fun o i ho hi => by rw [hlB i o hi ho]; rfl) (fun o i o' i' h1 h2 h3 h4 he => (hp.dB _ _ _ _ h2 h1 h4 h3 he).symm)
    (fun i k hi h1 h2 _ => ⟨by rw [hlA i k hi h2]; rfl, fun o' i' h3 h4 he => hp.dA i k hi h2 (Or.inl h1) ⟨i', o', h4, h3, he⟩⟩)
  refine ⟨m', ?_, fun i j hi hj => ?_, fun x hx => f2 x (fun o i ho hi he => hx ((cells_iff (SS := SS) C x).1 ?_))⟩
  · rw [(C30_trmm_size_check (SS := SS) (A.mat SS) (B.mat SS) (C.mat SS) .upper false alpha m).1, if_pos ⟨e1, e2, e3, e4⟩]
    show refTrmmL SS B.rows B.cols alpha (A.mptr SS) .upper false (B.mptr SS) (C.mptr SS) m = _
    unfold refTrmmL
    rw [derefAt_eq hp.ss hp.wA, derefAt_eq hp.ss hp.wB, assignAt_eq hp.ss hp.wC]
    exact f1
  · rw [Container.addr_eq_mptr, f3 j i (by omega) (by omega)]
    refine congrArg some (congrArg (Arith.mul alpha) (addFold_congr _ (fun t h1 h2 => ?_)))
    simp only [Bool.false_and, Bool.false_eq_true, if_false]
    rw [val_some (hlA i t (by omega) (by omega)), val_some (hlB t j (by omega) (by omega))]
  · exact ⟨i, o, by omega, by omega, he⟩

/-- the two ways to compute `alpha` times a dot product -/
theorem pos_trmm (hW : F.Wide) {K k : Nat} {atol rtol : Bin F} (h : TolFor F k atol rtol) (hk : K + 2 ≤ k) {alpha : Bin F} {a b : Nat → Bin F} (hal : Unit01 alpha)
    (ha : ∀ t, t < K → Unit01 (a t)) (hb : ∀ t, t < K → Unit01 (b t)) :
    Pos k (2 * k) (fmaSum (fun t => Arith.mul alpha (a t)) b Arith.zero K) (alpha.real * ∑ t ∈ range K, (a t).real * (b t).real) ∧
    (∀ (f : Nat → Bin F) (lo : Nat), (∀ t, t < K → f (lo + t) = Arith.mul (a t) (b t) ∨ f (lo + t) = Arith.mul (b t) (a t)) →
      Pos k (2 * k) (Arith.mul alpha (addFold f Arith.zero lo K)) (alpha.real * ∑ t ∈ range K, (a t).real * (b t).real)) ∧
    alpha.real * ∑ t ∈ range K, (a t).real * (b t).real ≤ k := by
  obtain ⟨-, -, -, hw2⟩ := h.facts
  have hbig := h.big
  have hkK : (K : ℝ) + 2 ≤ k := by exact_mod_cast hk
  have hK0 : (0 : ℝ) ≤ K := Nat.cast_nonneg K
  have hw : ∀ n, n ≤ k → (1 + F.u) ^ n ≤ 2 := fun n hn => le_trans (g_mono hn) hw2
  have hS : 0 ≤ ∑ t ∈ range K, (a t).real * (b t).real ∧ ∑ t ∈ range K, (a t).real * (b t).real ≤ K := sum01 fun t ht =>
    ⟨mul_nonneg (ha t ht).2.1 (hb t ht).2.1, mul_le_one₀ (ha t ht).2.2 (hb t ht).2.1 (hb t ht).2.2⟩
  have hSa : (∑ t ∈ range K, (a t).real * (b t).real) * alpha.real ≤ K := le_trans (mul_le_of_le_one_right hS.1 hal.2.2) hS.2
  have hSa0 : 0 ≤ (∑ t ∈ range K, (a t).real * (b t).real) * alpha.real := mul_nonneg hS.1 hal.2.1
  refine ⟨?_, fun f lo hf => ?_, by rw [mul_comm]; linarith⟩
  · have s1 := Pos.fmaSum (j := 1) (ca := 1) (cz := 0) (a := fun t => Arith.mul alpha (a t)) (b := b) (x := fun t => (a t).real * alpha.real) hW (K := K) (n := K)
      ((Pos.zero (F := F)).mono (Nat.zero_le 1) le_rfl) le_rfl
      (fun t ht => ⟨((Pos.mul hW (Pos.exact (ha t ht).1 (ha t ht).2.1) hal.1 hal.2.1 hal.2.2 (hw 0 (by omega)) (by
          have := mul_le_one₀ (ha t ht).2.2 hal.2.1 hal.2.2
          linarith)).2).mono le_rfl (by norm_num), mul_le_one₀ (ha t ht).2.2 hal.2.1 hal.2.2⟩) (fun t ht => hb t ht) (hw _ (by omega)) (by norm_num) (by linarith)
    have s4 := s1.mono (show 1 + K ≤ k by omega) (show (0 : ℝ) + K * (1 + 1) ≤ 2 * k by linarith)
    have e : (0 : ℝ) + ∑ t ∈ range K, (a t).real * alpha.real * (b t).real = alpha.real * ∑ t ∈ range K, (a t).real * (b t).real := by
      rw [zero_add, mul_sum]
      exact sum_congr rfl fun t _ => by ring
    rwa [e] at s4
  · have s1 := Pos.addFold (f := f) (x := fun t => (a t).real * (b t).real) (lo := lo) hW (K := K) (n := K) le_rfl
      (fun t ht => by
        have hp : (a t).real * (b t).real ≤ 1 := mul_le_one₀ (ha t ht).2.2 (hb t ht).2.1 (hb t ht).2.2
        have q := (Pos.mul hW (Pos.exact (ha t ht).1 (ha t ht).2.1) (hb t ht).1 (hb t ht).2.1 (hb t ht).2.2 (hw 0 (by omega)) (by linarith))
        rcases hf t ht with e | e
        · rw [e]; exact ⟨q.1.mono le_rfl (by norm_num), hp⟩
        · rw [e]; exact ⟨q.2.mono le_rfl (by norm_num), hp⟩) (hw _ (by omega)) (by linarith)
    have s2 := (Pos.mul hW s1 hal.1 hal.2.1 hal.2.2 (hw _ (by omega)) (by linarith)).2
    have s5 := s2.mono (show 1 + K + 1 ≤ k by omega) (show (2 * ↑K + 1 : ℝ) ≤ 2 * k by linarith)
    rwa [mul_comm (alpha.real)]

/-- the test of the right multiplication: TrmmTest.cpp:40-62 -/
def trmmRightTest {V : Type} [Arith V] (SS : Nat) (alpha : V) (B A C E : Container) (atol rtol : V) : Prog V Verdict := do
  trmmRightCall SS 1 alpha B A .lower false C
  refTrmmRMat SS alpha (B.mat SS) (A.mat SS) .lower false (E.mat SS)
  approxEqualMat SS C E atol rtol

/-- the test of the left multiplication: TrmmTest.cpp:15-37. The test includes algorithm/Trmm.hpp (`included = true`), so its reference function is the optimized one, see C93. -/
def trmmLeftTest {V : Type} [Arith V] (included : Bool) (SS : Nat) (alpha : V) (A B C E : Container) (atol rtol : V) : Prog V Verdict := do
  trmmLeftCall SS 1 alpha A .upper false B C
  refTrmmLMatTU included SS 1 alpha (A.mat SS) .upper false (B.mat SS) (E.mat SS)
  approxEqualMat SS C E atol rtol

/-- **C92** (trmm, right). -/
theorem C92_trmm_right (hW : F.Wide) {SS : Nat} {m : Mem (Bin F)} {A B C E : Container} {alpha atol rtol : Bin F}
    (hC : TrmmRArgs SS m B A C) (sC : TrmmRSizes B A C) (hE : TrmmRArgs SS m B A E) (sE : TrmmRSizes B A E) (hB : Apart SS B C) (hEC : Apart SS C E)
    {a b : Nat → Nat → Bin F} (ha : Contains SS m A a) (hb : Contains SS m B b)
    (hal : Unit01 alpha) (ra : ∀ i k, i < A.rows → k < A.cols → Unit01 (a i k)) (rb : ∀ k j, k < B.rows → j < B.cols → Unit01 (b k j))
    (ht : TolFor F (B.cols + 2) atol rtol) :
    ∃ m', trmmRightTest SS alpha B A C E atol rtol m = .ok .success m' := by
  obtain ⟨m1, e1, e2, e4⟩ := det_trmmRight alpha hC sC (fun i j _ hi hj => ha i j hi hj) hb
  have ha1 := contains_after hE.ss e4 hC.dA ha
  have hb1 := contains_after hE.ss e4 hB hb
  have hE1 : TrmmRArgs SS m1 B A E := ⟨hE.ss, hE.sB, hE.sC, live_after e4 e2 hE.lA, live_after e4 e2 hE.lB, live_after e4 e2 hE.lC, hE.dA, hE.dB⟩
  obtain ⟨m2, f1, f2, f3⟩ := refTrmmRMat_bitwise alpha hE1 sE (fun i j _ hi hj => ha1 i j hi hj) hb1
  have hd2 := contains_after hE.ss f3 hEC e2
  refine ⟨m2, ?_⟩
  unfold trmmRightTest
  rw [bind_ok e1, bind_ok f1]
  obtain ⟨⟨s1, s2⟩, s3, s4⟩ := sC
  refine approx_success hd2 f2 ⟨by rw [sE.2.1, s3], by rw [sE.2.2, s4]⟩ (fun i j hi hj => ?_)
  obtain ⟨p1, p2, p3⟩ := pos_trmm hW (K := B.cols - j) (alpha := alpha) (a := fun t => b i (j + t)) (b := fun t => a (j + t) j) ht (by omega) hal
    (fun t ht => rb i (j + t) (by omega) (by omega)) (fun t ht => ra (j + t) j (by omega) (by omega))
  exact close_of_pos hW ht p1 (p2 (fun k => Arith.mul (b i k) (a k j)) j (fun t _ => Or.inl rfl)) p3

/-- **C92** (trmm, left). The comparison succeeds: as compiled (`included = true`) for every A, since it compares trmm with itself; with the reference algorithm if the elements of A
below the diagonal are zero (the test draws them at random, see `C92_trmm_left_refuted`). -/
theorem C92_trmm_left (hW : F.Wide) {included : Bool} {SS : Nat} {m : Mem (Bin F)} {A B C E : Container} {alpha atol rtol : Bin F}
    (hC : TrmmLArgs SS m A B C) (sC : TrmmLSizes A B C) (hE : TrmmLArgs SS m A B E) (sE : TrmmLSizes A B E) (hB : Apart SS B C) (hEC : Apart SS C E)
    {a b : Nat → Nat → Bin F} (ha : Contains SS m A a) (hb : Contains SS m B b)
    (hal : Unit01 alpha) (ra : ∀ i k, i < A.rows → k < A.cols → Unit01 (a i k)) (rb : ∀ k j, k < B.rows → j < B.cols → Unit01 (b k j))
    (htri : included = false → ∀ i k, k < i → i < A.rows → (a i k).real = 0) (ht : TolFor F (B.rows + 2) atol rtol) :
    ∃ m', trmmLeftTest included SS alpha A B C E atol rtol m = .ok .success m' := by
  obtain ⟨m1, e1, e2, e4, e5⟩ := det_trmmLeft_val alpha hC sC ha hb
  have ha1 := contains_after hE.ss e4 hC.dA ha
  have hb1 := contains_after hE.ss e4 hB hb
  have hE1 : TrmmLArgs SS m1 A B E := ⟨hE.ss, hE.sA, hE.sC, live_after e4 e2 hE.lA, live_after e4 e2 hE.lB, live_after e4 e2 hE.lC, hE.dA, hE.dB, hE.pan⟩
  have h0 : (Arith.zero : Bin F).real = 0 := by simp [Arith.zero, Bin.real]
  cases hinc : included with
  | true =>
    obtain ⟨m2, f1, f2, f3, -⟩ := det_trmmLeft_val alpha hE1 sE ha1 hb1
    have hd2 := contains_after hE.ss f3 hEC e2
    refine ⟨m2, ?_⟩
    unfold trmmLeftTest
    rw [bind_ok e1, C93_optimized alpha A .upper false B E hE.sA hE.sC, bind_ok f1]
    obtain ⟨⟨s1, s2⟩, s3, s4⟩ := sC
    refine approx_success hd2 f2 ⟨by rw [sE.2.1, s3], by rw [sE.2.2, s4]⟩ (fun i j hi hj => ?_)
    obtain ⟨lo, aa, h1, h2, h3⟩ := (e5 i j (by omega) (by omega)).window (by omega)
    obtain ⟨p1, -, p3⟩ := pos_trmm hW (K := B.rows - lo) (alpha := alpha) (a := fun t => aa (lo + t)) (b := fun t => b (lo + t) j) ht (by omega) hal
      (fun t ht => by
        rcases h2 (lo + t) (by omega) (by omega) with e | ⟨e1, e2⟩
        · rw [e]; exact ra i (lo + t) (by omega) (by omega)
        · rw [e2]; exact ⟨trivial, by rw [h0], by rw [h0]; norm_num⟩) (fun t ht => rb (lo + t) j (by omega) (by omega))
    rw [← h3] at p1
    exact close_of_pos hW ht p1 p1 p3
  | false =>
  have htri := htri hinc
  obtain ⟨m2, f1, f2, f3⟩ := refTrmmLMat_bitwise alpha hE1 sE ha1 hb1
  have hd2 := contains_after hE.ss f3 hEC e2
  refine ⟨m2, ?_⟩
  unfold trmmLeftTest
  have ef : refTrmmLMatTU false SS 1 alpha (A.mat SS) .upper false (B.mat SS) (E.mat SS) = refTrmmLMat SS alpha (A.mat SS) .upper false (B.mat SS) (E.mat SS) := by
    unfold refTrmmLMatTU refTrmmLMat
    rw [if_neg (show ¬ (false = true ∧ (A.mat SS).p.so = .columnMajor ∧ (E.mat SS).p.so = .columnMajor) from fun h => by cases h.1)]
  rw [bind_ok e1, ef, bind_ok f1]
  obtain ⟨⟨s1, s2⟩, s3, s4⟩ := sC
  refine approx_success hd2 f2 ⟨by rw [sE.2.1, s3], by rw [sE.2.2, s4]⟩ (fun i j hi hj => ?_)
  obtain ⟨lo, aa, h1, h2, h3⟩ := (e5 i j (by omega) (by omega)).window (by omega)
  have haa : ∀ k, lo ≤ k → k < B.rows → Unit01 (aa k) ∧ (k < i → (aa k).real = 0) ∧ (i ≤ k → aa k = a i k) := fun k hk1 hk2 => by
    rcases h2 k hk1 hk2 with e | ⟨e1, e2⟩
    · rw [e]; exact ⟨ra i k (by omega) (by omega), fun hk => htri i k hk (by omega), fun _ => rfl⟩
    · rw [e2]
      exact ⟨⟨trivial, by rw [h0], by rw [h0]; norm_num⟩, fun _ => h0, fun hk => by omega⟩
  obtain ⟨p1, -, -⟩ := pos_trmm hW (K := B.rows - lo) (alpha := alpha) (a := fun t => aa (lo + t)) (b := fun t => b (lo + t) j) ht (by omega) hal
    (fun t ht => (haa (lo + t) (by omega) (by omega)).1) (fun t ht => rb (lo + t) j (by omega) (by omega))
  obtain ⟨-, p2, p3⟩ := pos_trmm hW (K := B.rows - i) (alpha := alpha) (a := fun t => a i (i + t)) (b := fun t => b (i + t) j) ht (by omega) hal
    (fun t ht => ra i (i + t) (by omega) (by omega)) (fun t ht => rb (i + t) j (by omega) (by omega))
  have es : ∑ t ∈ range (B.rows - lo), (aa (lo + t)).real * (b (lo + t) j).real = ∑ t ∈ range (B.rows - i), (a i (i + t)).real * (b (i + t) j).real := by
    rw [show B.rows - lo = (i - lo) + (B.rows - i) by omega, sum_range_add]
    rw [sum_eq_zero (s := range (i - lo)) (fun t ht => by
      rw [mem_range] at ht
      rw [(haa (lo + t) (by omega) (by omega)).2.1 (by omega), zero_mul]), zero_add]
    refine sum_congr rfl (fun t ht => ?_)
    rw [mem_range] at ht
    rw [show lo + (i - lo + t) = i + t by omega, (haa (i + t) (by omega) (by omega)).2.2 (by omega)]
  rw [es] at p1
  rw [← h3] at p1
  exact close_of_pos hW ht p1 (p2 (fun k => Arith.mul (a i k) (b k j)) i (fun t _ => Or.inl rfl)) p3

/-- the memory of C93 (matrices of ones), with the result of the reference function in E -/
abbrev trmmTuE : Container := ⟨.dynDense, .columnMajor, 2, 2, 24⟩

/-- the verdict of a comparison -/
def verdictOf {V : Type} (r : Res V Verdict) : Option Verdict :=
  match r with
  | .ok v _ => some v
  | _ => none

/-- **C92** (refutation). The left test cannot detect that trmm uses the elements of A below the diagonal: on 2 × 2 matrices of ones it succeeds as compiled, although element
(1, 0) of the result is 2 instead of 1; with the reference algorithm it would fail. -/
theorem C92_trmm_left_refuted :
    verdictOf (trmmLeftTest true 4 (1 : Rat) trmmTuA trmmTuB trmmTuC trmmTuE (1 / 10 ^ 10) (1 / 10 ^ 10) trmmTuMem) = some .success ∧
    verdictOf (trmmLeftTest false 4 (1 : Rat) trmmTuA trmmTuB trmmTuC trmmTuE (1 / 10 ^ 10) (1 / 10 ^ 10) trmmTuMem) = some (.mismatch 1 0) := by
  constructor <;> decide +kernel

/-! ### ger and syrk: the reference values are computed by Blaze expressions, which are not part of this library -/

/-- **C92** (ger): GerTest.cpp:30-46. `B = A + alpha x y` agrees with every other computation E of these values. -/
theorem C92_ger (hW : F.Wide) {SS k : Nat} {m : Mem (Bin F)} {x y : VObj} {A B E : Container} {alpha atol rtol : Bin F}
    (h : GerArgs SS m x y A B) (hs : GerSizes x y A B) (hE : E.rows = B.rows ∧ E.cols = B.cols) (hEB : Apart SS E B)
    {xv yv : Nat → Bin F} {a e : Nat → Nat → Bin F} (hx : VContains m x xv) (hy : VContains m y yv) (ha : Contains SS m A a) (he : Contains SS m E e)
    (hal : Unit01 alpha) (rx : ∀ i, i < x.n → Unit01 (xv i)) (ry : ∀ i, i < y.n → Unit01 (yv i)) (ra : ∀ i j, i < A.rows → j < A.cols → Unit01 (a i j))
    (re : ∀ i j, i < A.rows → j < A.cols → ComputedFrom k (e i j) ((a i j).real + alpha.real * (xv i).real * (yv j).real)) (ht : TolFor F k atol rtol) :
    ∃ m', (do gerCall SS 1 alpha x y A B; approxEqualMat SS B E atol rtol) m = .ok .success m' := by
  obtain ⟨m1, e1, e2⟩ := det_ger alpha h hs hx hy ha
  obtain ⟨m1', e1', -, e4'⟩ := gerPtr_correct (alpha := alpha) (h.pre hs)
  rw [← gerCall_sizes (TR := 1) hs, e1] at e1'
  injection e1' with _ e1'
  subst e1'
  refine ⟨m1, ?_⟩
  rw [bind_ok e1]
  obtain ⟨⟨s1, s2⟩, s3, s4⟩ := hs
  have e4 : OnlyElemsChange SS m m1 B := fun z hz => e4' z (fun hc => hz ((cells_iff B z).1 (by rw [s3, s4]; exact hc)))
  refine approx_success e2 (contains_after h.ss e4 hEB he) hE (fun i j hi hj => ?_)
  have hre := re i j (by omega) (by omega)
  have h1 := ra i j (by omega) (by omega)
  have h2 := rx i (by omega)
  have h3 := ry j (by omega)
  obtain ⟨hu24, -, -, hw2⟩ := ht.facts
  have hbig := ht.big
  have hk3 := ht.k3
  have hk3' : (3 : ℝ) ≤ k := by exact_mod_cast hk3
  have hw : ∀ n, n ≤ k → (1 + F.u) ^ n ≤ 2 := fun n hn => le_trans (g_mono hn) hw2
  have b1 : (xv i).real * alpha.real ≤ 1 := mul_le_one₀ h2.2.2 hal.2.1 hal.2.2
  have b1' := mul_nonneg h2.2.1 hal.2.1
  have b2 : (xv i).real * alpha.real * (yv j).real ≤ 1 := mul_le_one₀ b1 h3.2.1 h3.2.2
  have b2' := mul_nonneg b1' h3.2.1
  have h11 : (Arith.one : Bin F).real = 1 := by simp [Arith.one, Bin.real]
  have q1 := (Pos.mul hW (Pos.exact h2.1 h2.2.1) hal.1 hal.2.1 hal.2.2 (hw 0 (by omega)) (by linarith)).2
  have q2 := (Pos.mul (b := (Arith.one : Bin F)) hW (Pos.exact h1.1 h1.2.1) trivial (by rw [h11]; norm_num) (by rw [h11]) (hw 0 (by omega)) (by rw [h11]; linarith [h1.2.2])).2
  rw [h11, mul_one] at q2
  have q3 := Pos.fma hW q1 h3.1 h3.2.1 h3.2.2 q2 (hw _ (by omega)) (by linarith [h1.2.2])
  have ee : (xv i).real * alpha.real * (yv j).real + (a i j).real = (a i j).real + alpha.real * (xv i).real * (yv j).real := by ring
  rw [ee] at q3
  have q4 := q3.mono (show 0 + 1 + 1 ≤ k by omega) (show (0 : ℝ) + 1 + (0 + 1) + 1 ≤ 2 * k by linarith)
  refine close_of_pos hW ht q4 ⟨hre.1, q4.nonneg, q4.cpos, hre.2⟩ ?_
  rw [← ee]
  linarith [h1.2.2]

/-- **C92** (syrk): SyrkTest.cpp:27-65. The lower triangle of `D = alpha A Aᵀ + beta C` agrees with every other computation E of these values; above the diagonal
D keeps the zeros it was filled with. -/
theorem C92_syrk (hW : F.Wide) {SS k : Nat} {m : Mem (Bin F)} {A C D E : Container} {alpha beta atol rtol : Bin F}
    (h : SyrkArgs SS m A C D) (hs : SyrkSizes A C D) (hE : E.rows = D.rows ∧ E.cols = D.cols) (hED : Apart SS E D)
    {a c d e : Nat → Nat → Bin F} (ha : Contains SS m A a) (hc : ContainsLower SS m C c) (hd : Contains SS m D d) (he : Contains SS m E e)
    (hal : Unit01 alpha) (hbe : Unit01 beta) (ra : ∀ i j, i < A.rows → j < A.cols → Unit01 (a i j)) (rc : ∀ i j, j ≤ i → i < C.rows → Unit01 (c i j))
    (rd : ∀ i j, i < j → j < A.rows → (d i j).Finite ∧ (d i j).real = 0 ∧ (e i j).Finite ∧ (e i j).real = 0)
    (re : ∀ i j, j ≤ i → i < A.rows → ComputedFrom k (e i j) (alpha.real * (∑ t ∈ range A.cols, (a i t).real * (a j t).real) + beta.real * (c i j).real))
    (hk : A.cols + 2 ≤ k) (ht : TolFor F k atol rtol) :
    ∃ m', (do syrkCall SS 1 alpha A beta C D; approxEqualMat SS D E atol rtol) m = .ok .success m' := by
  obtain ⟨m1, e1, e2, e4⟩ := det_syrk alpha beta h hs ha hc hd
  refine ⟨m1, ?_⟩
  rw [bind_ok e1]
  obtain ⟨⟨s1, s2⟩, s3, s4⟩ := hs
  have e5 : OnlyElemsChange SS m m1 D := fun z hz => e4 z (fun ⟨i, j, hi, hj, _, hx⟩ => hz ⟨i, j, hi, hj, hx⟩)
  refine approx_success e2 (contains_after h.ss e5 hED he) hE (fun i j hi hj => ?_)
  obtain ⟨hu24, -, -, hw2⟩ := ht.facts
  have hbig := ht.big
  have hk3 := ht.k3
  have hk3' : (3 : ℝ) ≤ k := by exact_mod_cast hk3
  have hw : ∀ n, n ≤ k → (1 + F.u) ^ n ≤ 2 := fun n hn => le_trans (g_mono hn) hw2
  unfold syrkDet
  by_cases hji : j ≤ i
  · rw [if_pos hji]
    have hre := re i j hji (by omega)
    have h1 := rc i j hji (by omega)
    have hkK : (A.cols : ℝ) + 2 ≤ k := by exact_mod_cast hk
    have hK0 : (0 : ℝ) ≤ A.cols := Nat.cast_nonneg _
    have hS : 0 ≤ ∑ t ∈ range A.cols, (a i t).real * (a j t).real ∧ ∑ t ∈ range A.cols, (a i t).real * (a j t).real ≤ A.cols := sum01 fun t ht => by
      have h1 := ra i t (by omega) ht
      have h2 := ra j t (by omega) ht
      exact ⟨mul_nonneg h1.2.1 h2.2.1, mul_le_one₀ h1.2.2 h2.2.1 h2.2.2⟩
    have hSa : alpha.real * (∑ t ∈ range A.cols, (a i t).real * (a j t).real) ≤ A.cols := le_trans (mul_le_of_le_one_left hS.1 hal.2.2) hS.2
    have b1 : (c i j).real * beta.real ≤ 1 := mul_le_one₀ h1.2.2 hbe.2.1 hbe.2.2
    have b1' := mul_nonneg h1.2.1 hbe.2.1
    have q1 := (Pos.mul hW (Pos.exact h1.1 h1.2.1) hbe.1 hbe.2.1 hbe.2.2 (hw 0 (by omega)) (by linarith)).2
    have s1 := Pos.fmaSum (j := 0 + 1) (ca := 1) (cz := 0 + 1) (a := fun t => Arith.mul alpha (a i t)) (b := fun t => a j t) (x := fun t => (a i t).real * alpha.real) hW (K := A.cols) (n := A.cols)
      q1 le_rfl
      (fun t ht => by
        have h2 := ra i t (by omega) ht
        have b3 := mul_le_one₀ h2.2.2 hal.2.1 hal.2.2
        exact ⟨((Pos.mul hW (Pos.exact h2.1 h2.2.1) hal.1 hal.2.1 hal.2.2 (hw 0 (by omega)) (by linarith)).2).mono le_rfl (by norm_num), b3⟩)
      (fun t ht => ra j t (by omega) ht) (hw _ (by omega)) (by norm_num) (by linarith)
    have ee : (c i j).real * beta.real + ∑ t ∈ range A.cols, (a i t).real * alpha.real * (a j t).real =
        alpha.real * (∑ t ∈ range A.cols, (a i t).real * (a j t).real) + beta.real * (c i j).real := by
      rw [mul_sum, add_comm, mul_comm (beta.real)]
      congr 1
      exact sum_congr rfl fun t _ => by ring
    rw [ee] at s1
    have q4 := s1.mono (show 0 + 1 + A.cols ≤ k by omega) (show (0 : ℝ) + 1 + A.cols * (1 + 1) ≤ 2 * k by linarith)
    refine close_of_pos hW ht q4 ⟨hre.1, q4.nonneg, q4.cpos, hre.2⟩ ?_
    linarith [mul_comm (beta.real) (c i j).real]
  · rw [if_neg hji]
    obtain ⟨r1, r2, r3, r4⟩ := rd i j (by omega) (by omega)
    have p1 := (Pos.exact r1 (by rw [r2])).mono (Nat.zero_le k) (show (0 : ℝ) ≤ 2 * k by linarith)
    have p2 := (Pos.exact r3 (by rw [r4])).mono (Nat.zero_le k) (show (0 : ℝ) ≤ 2 * k by linarith)
    rw [r2] at p1
    rw [r4] at p2
    exact close_of_pos hW ht p1 p2 (by linarith)

/-! ### potrf -/

/-- `p` is a computed value of the dot product of two rows of `l` with the error of `k` roundings per term (and as many underflows) -/
def ComputedDot (n k : Nat) (l : Nat → Nat → Bin F) (i j : Nat) (p : Bin F) : Prop :=
  p.Finite ∧ |p.real - ∑ q ∈ range n, (l i q).real * (l j q).real| ≤ ((1 + F.u) ^ k - 1) * (∑ q ∈ range n, |(l i q).real| * |(l j q).real|) + 2 * k * (1 + F.u) ^ k * F.eta

/-- tolerances that allow for the rounding errors of makePositiveDefinite, potrf and a product with k roundings, size n -/
structure TolPotrf (F : Format) (n k : Nat) (atol rtol : Bin F) : Prop where
  k3 : 3 ≤ k
  fa : atol.Finite
  fr : rtol.Finite
  a0 : (20 * (n : ℝ) * (n + 4) + 8 * ((n : ℝ) + 4) ^ 2 + 4 * k * (n + 1)) * F.u ≤ atol.real
  a1 : atol.real ≤ 1
  r0 : 0 ≤ rtol.real
  r1 : rtol.real ≤ 1
  big : 16 * ((n : ℝ) + 2) ≤ F.big

/-- the rows of a good factor: zero above the diagonal, length as of the rows of a Gram matrix -/
theorem factor_rows {n : Nat} {l a R : Nat → Nat → Bin F} (hn : SmallFor F n) (hR : Drawn n R) (hg : NearGram n R a) (hl : GoodFactor n l a)
    (hz : ∀ i j, i < j → j < n → (l i j).real = 0) {i j : Nat} (hi : i < n) (hj : j < n) :
    (∑ q ∈ range n, |(l i q).real| * |(l j q).real|) ≤ 2 * n + 1 / 4 ∧
    |(∑ q ∈ range n, (l i q).real * (l j q).real) - (a i j).real| ≤ (20 * (n : ℝ) * (n + 4) + 8 * ((n : ℝ) + 4) ^ 2) * F.u ∧
    |(a i j).real| ≤ 2 * n + 1 / 4 := by
  have hu := F.u_pos
  have hn0 : (0 : ℝ) ≤ n := Nat.cast_nonneg n
  have hs := hn.1
  have hq : ∀ i j, j ≤ i → i < n → ∑ q ∈ range n, (l i q).real * (l j q).real = ∑ q ∈ range (j + 1), (l i q).real * (l j q).real := fun i j hji hi => by
    rw [show n = (j + 1) + (n - (j + 1)) by omega, sum_range_add, sum_eq_zero (s := range (n - (j + 1))), add_zero]
    intro t ht
    rw [mem_range] at ht
    rw [hz j (j + 1 + t) (by omega) (by omega), mul_zero]
  have d1 : 20 * (n : ℝ) * (n + 4) * F.u ≤ 5 / 32 := by
    have : 20 * (n : ℝ) * (n + 4) ≤ 20 * ((n : ℝ) + 4) ^ 2 := by nlinarith
    have := mul_le_mul_of_nonneg_right this hu.le
    linarith
  have d2 : 4 * ((n : ℝ) + 4) ^ 2 * F.u ≤ 1 / 32 := by linarith
  have hgr : ∀ i j, i < n → j < n → |∑ k ∈ range n, (R i k).real * (R j k).real| ≤ n := fun i j hi hj => by
    refine le_trans (abs_sum_le_sum_abs _ _) (sum01 (f := fun k => |(R i k).real * (R j k).real|) (fun t ht => ⟨abs_nonneg _, ?_⟩)).2
    rw [abs_mul]
    exact mul_le_one₀ (hR i t hi ht).2 (abs_nonneg _) (hR j t hj ht).2
  have hga : ∀ i j, i < n → j < n → |(a i j).real| ≤ 2 * n + 1 / 32 := fun i j hi hj => by
    have h1 := (hg i j hi hj).2
    have h2 := hgr i j hi hj
    have h3 : |if i = j then (n : ℝ) else 0| ≤ n := by split <;> simp
    have h4 := abs_add_le ((a i j).real - ((∑ k ∈ range n, (R i k).real * (R j k).real) + if i = j then (n : ℝ) else 0)) ((∑ k ∈ range n, (R i k).real * (R j k).real) + if i = j then (n : ℝ) else 0)
    have h5 := abs_add_le (∑ k ∈ range n, (R i k).real * (R j k).real) (if i = j then (n : ℝ) else 0)
    rw [sub_add_cancel] at h4
    linarith
  have hdiag : ∀ i, i < n → ∑ q ∈ range n, (l i q).real * (l i q).real ≤ 2 * n + 1 / 4 := fun i hi => by
    rw [hq i i le_rfl hi]
    have h1 := ((hl i hi).2 i le_rfl).2
    have h2 := hga i i hi hi
    have h3 := abs_le.1 h1
    have h4 := abs_le.1 h2
    linarith
  have hlow : ∀ i j, j ≤ i → i < n → |(∑ q ∈ range n, (l i q).real * (l j q).real) - (a i j).real| ≤ 20 * (n : ℝ) * (n + 4) * F.u := fun i j hji hi => by
    rw [hq i j hji hi, abs_sub_comm]
    exact ((hl i hi).2 j hji).2
  refine ⟨?_, ?_, ?_⟩
  · have : ∑ q ∈ range n, |(l i q).real| * |(l j q).real| ≤ ∑ q ∈ range n, ((l i q).real * (l i q).real + (l j q).real * (l j q).real) * (1 / 2) := sum_le_sum fun q _ => by
      have h1 := abs_mul_abs_self (l i q).real
      have h2 := abs_mul_abs_self (l j q).real
      nlinarith [sq_nonneg (|(l i q).real| - |(l j q).real|)]
    rw [← sum_mul, sum_add_distrib] at this
    linarith [hdiag i hi, hdiag j hj]
  · rw [add_mul]
    rcases Nat.le_total j i with hji | hij
    · have := hlow i j hji hi
      have : 0 ≤ 8 * ((n : ℝ) + 4) ^ 2 * F.u := by positivity
      linarith
    · have h1 := hlow j i hij hj
      have e : ∑ q ∈ range n, (l i q).real * (l j q).real = ∑ q ∈ range n, (l j q).real * (l i q).real := sum_congr rfl fun q _ => mul_comm _ _
      rw [← e] at h1
      have h2 := (hg i j hi hj).2
      have h3 := (hg j i hj hi).2
      have e2 : (∑ k ∈ range n, (R j k).real * (R i k).real) + (if j = i then (n : ℝ) else 0) = (∑ k ∈ range n, (R i k).real * (R j k).real) + (if i = j then (n : ℝ) else 0) := by
        congr 1
        · exact sum_congr rfl fun q _ => mul_comm _ _
        · by_cases h : i = j
          · rw [if_pos h, if_pos h.symm]
          · rw [if_neg h, if_neg (fun h' => h h'.symm)]
      rw [e2] at h3
      have h2 := abs_le.1 h2
      have h3 := abs_le.1 h3
      have h1 := abs_le.1 h1
      rw [abs_le]
      constructor <;> linarith
  · linarith [hga i j hi hj]

theorem close_potrf (hW : F.Wide) {n k : Nat} {l a R : Nat → Nat → Bin F} {atol rtol : Bin F} (ht : TolPotrf F n k atol rtol) (hn : SmallFor F n) (hR : Drawn n R)
    (hg : NearGram n R a) (hl : GoodFactor n l a) (hz : ∀ i j, i < j → j < n → (l i j).real = 0) {i j : Nat} (hi : i < n) (hj : j < n) {p : Bin F}
    (hp : ComputedDot n k l i j p) : matDiffer atol rtol p (a i j) = false := by
  obtain ⟨h1, h2, h3⟩ := factor_rows hn hR hg hl hz hi hj
  obtain ⟨p1, p2⟩ := hp
  have hu := F.u_pos
  have he := F.eta_pos
  have heu := eta_le_u hW
  have hk3 : (3 : ℝ) ≤ k := by exact_mod_cast ht.k3
  have hn1 : (1 : ℝ) ≤ n := by exact_mod_cast (show 1 ≤ n by omega)
  have ha0 := ht.a0
  have ha1 := ht.a1
  have hr0 := ht.r0
  have hnn : 0 ≤ (20 * (n : ℝ) * (n + 4) + 8 * ((n : ℝ) + 4) ^ 2) * F.u := by positivity
  have hku : 8 * (k * F.u) ≤ 1 := by
    have : 8 * (k : ℝ) ≤ 4 * k * (n + 1) := by nlinarith
    have := mul_le_mul_of_nonneg_right this hu.le
    rw [add_mul] at ha0
    linarith
  have hu24 : F.u ≤ 1 / 24 := by nlinarith
  have hw := pow_one_le (k := k) hu.le (by linarith) (by linarith)
  have hkeq : (k : ℝ) * F.eta ≤ F.u / 16 := by
    calc (k : ℝ) * F.eta ≤ k * (F.u * F.u / 2) := mul_le_mul_of_nonneg_left heu (by linarith)
      _ = (k * F.u) * F.u / 2 := by ring
      _ ≤ (1 / 8) * F.u / 2 := by
        have : (k : ℝ) * F.u * F.u ≤ 1 / 8 * F.u := mul_le_mul_of_nonneg_right (by linarith) hu.le
        linarith
      _ = _ := by ring
  have hE : 2 * (k : ℝ) * (1 + F.u) ^ k * F.eta ≤ F.u / 6 := by
    have : (1 + F.u) ^ k ≤ 5 / 4 := by linarith
    calc 2 * (k : ℝ) * (1 + F.u) ^ k * F.eta = 2 * (1 + F.u) ^ k * (k * F.eta) := by ring
      _ ≤ 2 * (5 / 4) * (F.u / 16) := mul_le_mul (by linarith) hkeq (by positivity) (by norm_num)
      _ ≤ _ := by linarith
  have hS : ((1 + F.u) ^ k - 1) * (∑ q ∈ range n, |(l i q).real| * |(l j q).real|) ≤ 2 * (k * F.u) * (2 * n + 1 / 4) :=
    mul_le_mul (by linarith) h1 (sum_nonneg fun q _ => mul_nonneg (abs_nonneg _) (abs_nonneg _)) (by positivity)
  have hpa : |p.real - (a i j).real| ≤ atol.real - 10 * F.u := by
    have t := abs_sub_le p.real (∑ q ∈ range n, (l i q).real * (l j q).real) (a i j).real
    have t2 : 2 * (k * F.u) * (2 * n + 1 / 4) + 10 * F.u + F.u / 6 ≤ 4 * k * (n + 1) * F.u := by
      have : 2 * (k * (2 * n + 1 / 4)) + 10 + 1 / 6 ≤ 4 * (k : ℝ) * (n + 1) := by linarith
      have := mul_le_mul_of_nonneg_right this hu.le
      linarith
    rw [add_mul] at ha0
    linarith
  have hpm : |p.real| ≤ 2 * n + 5 / 4 := by
    have := abs_add_le (p.real - (a i j).real) (a i j).real
    rw [sub_add_cancel] at this
    linarith
  have hbig := ht.big
  refine farApart_false hW p1 (hg i j hi hj).1 ht.fa ht.fr (by have := abs_nonneg (p.real - (a i j).real); linarith) ht.a1 hr0 ht.r1 (by linarith) (by linarith) ?_
  have hre : 0 ≤ (1 - F.u) * (rtol.real * |(a i j).real|) := mul_nonneg (by linarith) (mul_nonneg hr0 (abs_nonneg _))
  have heta : F.eta ≤ F.u / 48 := by nlinarith
  have q1 : (1 - F.u) * (atol.real - F.eta) ≤ (1 - F.u) * (atol.real + ((1 - F.u) * (rtol.real * |(a i j).real|) - F.eta)) := mul_le_mul_of_nonneg_left (by linarith) (by linarith)
  have q2 : (1 + F.u) * |p.real - (a i j).real| ≤ (1 + F.u) * (atol.real - 10 * F.u) := mul_le_mul_of_nonneg_left hpa (by linarith)
  have q3 : F.u * atol.real ≤ F.u := mul_le_of_le_one_right hu.le ha1
  nlinarith

/-- **C92** (potrf, dense): PotrfTest.cpp:27-44. The test fills A with makePositiveDefinite, factorizes it into a matrix L of zeros, and compares `L * trans(L)` with A: the
comparison succeeds for every matrix drawn, however the product P is computed. -/
theorem C92_potrf_dense (hW : F.Wide) {SS TR k : Nat} {m : Mem (Bin F)} {A L : Container} {atol rtol : Bin F} (hd : A.isPanel = false) (h : PotrfArgs SS m A L) (hs : PotrfSizes A L)
    (hAL : Apart SS A L) (hf : PotrfFits SS TR 4 A L) (hsq : A.rows = A.cols) (h0 : 0 < A.rows) (hn : SmallFor F A.rows) {t : Int} (ht : t % (SS : Int) = 0)
    (hfree : ∀ z, (⟨.dynDense, .columnMajor, A.cols, A.cols, t⟩ : Container).Storage SS z → m z = none)
    {R : Nat → Nat → Bin F} (hR : Drawn A.rows R) {tn : Bin F} (htn : tn.Finite ∧ tn.real = A.rows)
    (hz : ∀ i j, i < L.rows → j < L.cols → m (L.addr SS i j) = some Arith.zero) (htol : TolPotrf F A.rows k atol rtol) :
    ∃ m1 m2 a l, makePositiveDefinite SS t R tn (.obj A) m = .ok () m1 ∧ potrfDenseCall SS TR A L m1 = .ok () m2 ∧ Contains SS m2 A a ∧ Contains SS m2 L l ∧
      NearGram A.rows R a ∧ ∀ m3 P p, Contains SS m3 A a → Contains SS m3 P p → P.rows = A.rows → P.cols = A.cols →
        (∀ i j, i < A.rows → j < A.rows → ComputedDot A.rows k l i j (p i j)) → approxEqualMat SS P A atol rtol m3 = .ok .success m3 := by
  obtain ⟨m1, a, e1, v1, g1, n1, f1⟩ := C91_makePositiveDefinite hW h.ss hd h.lA hsq hn ht hfree hR htn
  obtain ⟨m1', m2, a', l, e1', v1', e2, l1, g1', gf, f2⟩ := C91_potrf_dense hW hd h hs hf hsq h0 hn ht hfree hR htn
  rw [e1] at e1'
  injection e1' with _ e1'
  subst e1'
  have hlA : Live SS m1 A := by
    refine ⟨h.lA.align, fun z hz => ?_⟩
    have := makePositiveDefinite_dom SS t R tn (.obj A) _ _ _ e1 z (fun hz' => by
      have := h.lA.alloc z hz
      rw [hfree z hz'] at this; cases this)
    rw [this]
    exact h.lA.alloc z hz
  have hlL : Live SS m1 L := ⟨h.lL.align, fun z hz => by rw [f1 z (fun hz' => hAL z hz' hz)]; exact h.lL.alloc z hz⟩
  obtain ⟨m2', e2', f3, f4⟩ := C16_potrf_dense_frame (m := m1) (TR := TR) ⟨h.ss, h.sA, h.sL, hlA, hlL, h.d⟩ hs hf
  rw [e2] at e2'
  injection e2' with _ e2'
  subst e2'
  obtain ⟨s1, s2, s3⟩ := id hs
  have hsA : ∀ i j, i < A.rows → j < A.cols → A.Storage SS (A.addr SS i j) := fun i j hi hj => elem_storage h.ss ⟨i, j, hi, hj, rfl⟩
  have hsL : ∀ i j, i < L.rows → j < L.cols → L.Storage SS (L.addr SS i j) := fun i j hi hj => elem_storage h.ss ⟨i, j, hi, hj, rfl⟩
  have hup : ∀ i j, i < j → i < L.rows → j < L.cols → m2 (L.addr SS i j) = some Arith.zero := fun i j hij hi hj => by
    rw [f4 i j hij hi hj, f1 _ (fun hc => hAL _ hc (hsL i j hi hj))]
    exact hz i j hi hj
  let l' : Nat → Nat → Bin F := fun i j => if j ≤ i then l i j else Arith.zero
  have h00 : (Arith.zero : Bin F).real = 0 := by simp [Arith.zero, Bin.real]
  have hgf : GoodFactor A.rows l' a' := fun i hi => by
    have hii : l' i i = l i i := if_pos le_rfl
    refine ⟨by rw [hii]; exact (gf i hi).1, fun j hj => ?_⟩
    have hij : l' i j = l i j := if_pos hj
    rw [hij]
    refine ⟨((gf i hi).2 j hj).1, ?_⟩
    have e : ∑ q ∈ range (j + 1), (l' i q).real * (l' j q).real = ∑ q ∈ range (j + 1), (l i q).real * (l j q).real := sum_congr rfl fun q hq => by
      rw [mem_range] at hq
      rw [show l' i q = l i q from if_pos (by omega), show l' j q = l j q from if_pos (by omega)]
    rw [e]
    exact ((gf i hi).2 j hj).2
  refine ⟨m1, m2, a', l', e1, e2, fun i j hi hj => ?_, fun i j hi hj => ?_, g1', fun m3 P p c1 c2 r1 r2 hp => ?_⟩
  · rw [f3 _ (hAL _ (hsA i j hi hj))]
    exact v1' i j hi hj
  · by_cases hji : j ≤ i
    · rw [show l' i j = l i j from if_pos hji]; exact l1 i j hji hi hj
    · rw [show l' i j = Arith.zero from if_neg hji]; exact hup i j (by omega) hi hj
  · refine approx_success c2 c1 ⟨r1.symm, r2.symm⟩ (fun i j hi hj => ?_)
    exact close_potrf hW htol hn hR g1' hgf (fun i j hij _ => by rw [show l' i j = Arith.zero from if_neg (by omega)]; exact h00) (by omega) (by omega) (hp i j (by omega) (by omega))

/-! ### Sizes -/

theorem u_binary64 : binary64.u = 1 / 2 ^ 53 := by
  unfold Format.u binary64
  norm_num

theorem u_binary32 : binary32.u = 1 / 2 ^ 24 := by
  unfold Format.u binary32
  norm_num

/-- **C92** (sizes). For double, with tolerances of 1e-11 (or 1e-10), the theorems cover inner dimensions up to 10000, and potrf up to size 50, the largest of the test; for float, with
tolerances 1e-5 and 1e-4, inner dimensions up to 200. -/
theorem C92_sizes {k : Nat} (hk : 3 ≤ k) :
    (∀ atol rtol : Bin binary64, atol.Finite → rtol.Finite → (999 / 1000 * (1 / 10 ^ 11) ≤ atol.real ∧ atol.real ≤ 1) → (999 / 1000 * (1 / 10 ^ 11) ≤ rtol.real ∧ rtol.real ≤ 1) →
      (k ≤ 10003 → TolFor binary64 k atol rtol) ∧ ∀ n, n ≤ 50 → k ≤ n + 2 → TolPotrf binary64 n k atol rtol) ∧
    (∀ atol rtol : Bin binary32, atol.Finite → rtol.Finite → (999 / 1000 * (1 / 10 ^ 5) ≤ atol.real ∧ atol.real ≤ 1) → (999 / 1000 * (1 / 10 ^ 4) ≤ rtol.real ∧ rtol.real ≤ 1) →
      k ≤ 203 → TolFor binary32 k atol rtol) := by
  have hb64 : (2 : ℝ) ^ (40 : ℤ) ≤ binary64.big := zpow_le_zpow_right₀ (by norm_num) (by decide)
  have hb32 : (2 : ℝ) ^ (40 : ℤ) ≤ binary32.big := zpow_le_zpow_right₀ (by norm_num) (by decide)
  have h40 : (2 : ℝ) ^ (40 : ℤ) = 1099511627776 := by norm_num
  rw [h40] at hb64 hb32
  have hk0 : (3 : ℝ) ≤ k := by exact_mod_cast hk
  refine ⟨fun atol rtol fa fr ha hr => ⟨fun hk1 => ?_, fun n hn hkn => ?_⟩, fun atol rtol fa fr ha hr hk1 => ?_⟩
  · have hk2 : (k : ℝ) ≤ 10003 := by exact_mod_cast hk1
    refine ⟨hk, fa, fr, ?_, ha.2, ?_, hr.2, by linarith⟩
    · rw [u_binary64]; norm_num at ha ⊢; linarith
    · rw [u_binary64]; norm_num at hr ⊢; linarith
  · have hn1 : (n : ℝ) ≤ 50 := by exact_mod_cast hn
    have hn0 : (0 : ℝ) ≤ n := Nat.cast_nonneg n
    have hk2 : (k : ℝ) ≤ n + 2 := by exact_mod_cast hkn
    refine ⟨hk, fa, fr, ?_, ha.2, le_trans (by norm_num) hr.1, hr.2, by linarith⟩
    have : 20 * (n : ℝ) * (n + 4) + 8 * ((n : ℝ) + 4) ^ 2 + 4 * k * (n + 1) ≤ 87936 := by nlinarith
    have h2 := mul_le_mul_of_nonneg_right this binary64.u_pos.le
    rw [u_binary64] at h2 ⊢
    refine le_trans h2 (le_trans ?_ ha.1)
    norm_num
  · have hk2 : (k : ℝ) ≤ 203 := by exact_mod_cast hk1
    refine ⟨hk, fa, fr, ?_, ha.2, ?_, hr.2, by linarith⟩
    · rw [u_binary32]; norm_num at ha ⊢; linarith
    · rw [u_binary32]; norm_num at hr ⊢; linarith
end Blast
