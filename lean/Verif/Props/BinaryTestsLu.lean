import Verif.Props.BinaryTests
import Verif.Props.BinaryLu
/- Concrete cases meeting the hypotheses of these theorems: Verif/Cases/BinaryTestsLu.lean. -/
/-
C92, continued: the LU tests. The programs are those of /repo/test/blast/math/dense/Getf2Test.cpp:53-79 (both storage orders) and GetrfTest.cpp:57-83 (column-major)
for one size and arbitrary drawn numbers: keep a copy of A, factorize A in place, interchange the rows of the copy, and compare it with the product of the factors.
-/
namespace Blast
open Prog Finset Bin
variable {F : Format}

/-- `p` is element (i, j) of `L * U` (`luRestore`, Getf2Test.cpp:29-50; L and U are the two triangles of `b`), computed by any algorithm with at most k roundings on the way
from a product of elements to the result -/
def ComputedLU (K k : Nat) (b : Nat → Nat → Bin F) (i j : Nat) (p : Bin F) : Prop :=
  p.Finite ∧ |p.real - ∑ q ∈ range K, tri .lower true (fun i j => (b i j).real) i q * tri .upper false (fun i j => (b i j).real) q j| ≤
    ((1 + F.u) ^ k - 1) * (∑ q ∈ range K, |tri .lower true (fun i j => (b i j).real) i q| * |tri .upper false (fun i j => (b i j).real) q j|) + 2 * k * (1 + F.u) ^ k * F.eta

/-- tolerances that allow for the rounding errors of the factorization and of the product, K = min(rows, columns) -/
structure TolLu (F : Format) (K k : Nat) (atol rtol : Bin F) : Prop where
  k3 : 3 ≤ k
  fa : atol.Finite
  fr : rtol.Finite
  a0 : (4 * (K : ℝ) * 2 ^ (K + 1) * (K + k) + 10) * F.u ≤ atol.real
  a1 : atol.real ≤ 1
  r0 : 0 ≤ rtol.real
  r1 : rtol.real ≤ 1
  big : 16 ≤ F.big

theorem TolLu.facts {K k : Nat} {atol rtol : Bin F} (h : TolLu F K k atol rtol) (hK : 0 < K) :
    F.u ≤ 1 / 48 ∧ ((K : ℝ) + k) * F.u ≤ 1 / 16 ∧ (2 : ℝ) ^ (K + 1) * F.u ≤ 1 / 16 := by
  have hu := F.u_pos
  have hk : (3 : ℝ) ≤ k := by exact_mod_cast h.k3
  have hK1 : (1 : ℝ) ≤ K := by exact_mod_cast hK
  have hG : (4 : ℝ) ≤ 2 ^ (K + 1) := by
    calc (4 : ℝ) = 2 ^ 2 := by norm_num
      _ ≤ 2 ^ (K + 1) := pow_le_pow_right₀ (by norm_num) (by omega)
  have h1 : (4 * (K : ℝ) * 2 ^ (K + 1) * (K + k) + 10) * F.u ≤ 1 := le_trans h.a0 h.a1
  have h2 : 4 * (K : ℝ) * 2 ^ (K + 1) * (K + k) * F.u ≤ 1 := by rw [add_mul] at h1; linarith
  have a1 : 16 * ((K : ℝ) + k) ≤ 4 * K * 2 ^ (K + 1) * (K + k) := by
    refine mul_le_mul_of_nonneg_right ?_ (by linarith)
    nlinarith
  have a2 : 16 * (2 : ℝ) ^ (K + 1) ≤ 4 * K * 2 ^ (K + 1) * (K + k) := by
    have : (4 : ℝ) * 2 ^ (K + 1) ≤ 4 * K * 2 ^ (K + 1) := by nlinarith
    nlinarith
  have b1 := mul_le_mul_of_nonneg_right a1 hu.le
  have b2 := mul_le_mul_of_nonneg_right a2 hu.le
  refine ⟨?_, by linarith, by linarith⟩
  nlinarith

/-- growth of the elements of U -/
theorem growth_le (hW : F.Wide) {K : Nat} (hu : F.u ≤ 1 / 48) (hK : (K : ℝ) * F.u ≤ 1 / 16) {ρ : ℝ} (h0 : 0 ≤ ρ) (hρ : ρ ≤ 2 * (1 + F.u) ^ 2) :
    ρ ^ K * (1 + 2 * F.eta) ≤ 2 ^ (K + 1) := by
  have hu0 := F.u_pos
  have heu := eta_le_u hW
  have he := F.eta_pos
  have h1 : ρ ^ K ≤ 2 ^ K * (1 + F.u) ^ (2 * K) := by
    calc ρ ^ K ≤ (2 * (1 + F.u) ^ 2) ^ K := pow_le_pow_left₀ h0 hρ K
      _ = _ := by rw [mul_pow, ← pow_mul]
  have h2 := pow_one_le (v := F.u) (k := 2 * K) hu0.le (by push_cast; linarith) (by linarith)
  push_cast at h2
  have h3 : (1 + F.u) ^ (2 * K) ≤ 5 / 4 := by linarith
  have h4 : F.eta ≤ 1 / 48 := by nlinarith
  have h5 : (0 : ℝ) < 2 ^ K := by positivity
  calc ρ ^ K * (1 + 2 * F.eta) ≤ (2 ^ K * (5 / 4)) * (1 + 1 / 24) := by
        refine mul_le_mul (le_trans h1 (mul_le_mul_of_nonneg_left h3 h5.le)) (by linarith) (by linarith) (by positivity)
    _ ≤ 2 ^ (K + 1) := by rw [pow_succ]; nlinarith

set_option maxHeartbeats 1000000 in
/-- one element of the comparison -/
theorem close_lu (hW : F.Wide) {K k : Nat} {atol rtol a p : Bin F} {s S d : ℝ} (ht : TolLu F K k atol rtol) (hK : 0 < K) (fa : a.Finite) (ha : |a.real| ≤ 1) (fp : p.Finite)
    (hS0 : 0 ≤ S) (hS : S ≤ K * 2 ^ (K + 1)) (hd0 : 0 ≤ d) (hd : d ≤ 2 ^ (K + 1))
    (h1 : |a.real - s| ≤ ((1 / (1 - F.u)) ^ K - 1) * S + (1 / (1 - F.u)) ^ K * (3 * K + d) * F.eta)
    (h2 : |p.real - s| ≤ ((1 + F.u) ^ k - 1) * S + 2 * k * (1 + F.u) ^ k * F.eta) : matDiffer atol rtol a p = false := by
  obtain ⟨hu48, hKk, hG⟩ := ht.facts hK
  have hu := F.u_pos
  have he := F.eta_pos
  have heu := eta_le_u hW
  have hk3 : (3 : ℝ) ≤ k := by exact_mod_cast ht.k3
  have hK1 : (1 : ℝ) ≤ K := by exact_mod_cast hK
  have ha0 := ht.a0
  have ha1 := ht.a1
  have hr0 := ht.r0
  have hG0 : (0 : ℝ) < 2 ^ (K + 1) := by positivity
  rw [add_mul] at hKk
  have hKu : 0 < K * F.u := by positivity
  have hku : 0 < k * F.u := by positivity
  have w1 := pow_inv_le (v := F.u) (k := K) hu.le (by linarith) (by linarith)
  have w2 := pow_one_le (v := F.u) (k := k) hu.le (by linarith) (by linarith)
  have w1' : (1 / (1 - F.u)) ^ K ≤ 2 := by linarith
  have w2' : (1 + F.u) ^ k ≤ 2 := by linarith
  have w10 : 1 ≤ (1 / (1 - F.u)) ^ K := one_le_pow₀ (by rw [le_div_iff₀ (by linarith)]; linarith)
  have w20 : 1 ≤ (1 + F.u) ^ k := one_le_pow₀ (by linarith)
  have e1 : ((1 / (1 - F.u)) ^ K - 1) * S ≤ 2 * (K * F.u) * (K * 2 ^ (K + 1)) := mul_le_mul (by linarith) hS hS0 (by positivity)
  have e2 : ((1 + F.u) ^ k - 1) * S ≤ 2 * (k * F.u) * (K * 2 ^ (K + 1)) := mul_le_mul (by linarith) hS hS0 (by positivity)
  have e3 : (1 / (1 - F.u)) ^ K * (3 * K + d) * F.eta ≤ 2 * (3 * K + 2 ^ (K + 1)) * F.eta :=
    mul_le_mul_of_nonneg_right (mul_le_mul w1' (by linarith) (by positivity) (by norm_num)) he.le
  have e4 : 2 * k * (1 + F.u) ^ k * F.eta ≤ 4 * k * F.eta := mul_le_mul_of_nonneg_right (by nlinarith) he.le
  have t1 : 2 * (3 * K + 2 ^ (K + 1)) * F.eta + 4 * k * F.eta ≤ F.u := by
    have q1 : (K : ℝ) * F.eta ≤ F.u / 32 := by
      calc (K : ℝ) * F.eta ≤ K * (F.u * F.u / 2) := mul_le_mul_of_nonneg_left heu (by linarith)
        _ = (K * F.u) * F.u / 2 := by ring
        _ ≤ (1 / 16) * F.u / 2 := by have := mul_le_mul_of_nonneg_right (show (K : ℝ) * F.u ≤ 1 / 16 by linarith) hu.le; linarith
        _ = _ := by ring
    have q2 : (k : ℝ) * F.eta ≤ F.u / 32 := by
      calc (k : ℝ) * F.eta ≤ k * (F.u * F.u / 2) := mul_le_mul_of_nonneg_left heu (by linarith)
        _ = (k * F.u) * F.u / 2 := by ring
        _ ≤ (1 / 16) * F.u / 2 := by have := mul_le_mul_of_nonneg_right (show (k : ℝ) * F.u ≤ 1 / 16 by linarith) hu.le; linarith
        _ = _ := by ring
    have q3 : (2 : ℝ) ^ (K + 1) * F.eta ≤ F.u / 32 := by
      calc (2 : ℝ) ^ (K + 1) * F.eta ≤ 2 ^ (K + 1) * (F.u * F.u / 2) := mul_le_mul_of_nonneg_left heu hG0.le
        _ = (2 ^ (K + 1) * F.u) * F.u / 2 := by ring
        _ ≤ (1 / 16) * F.u / 2 := by have := mul_le_mul_of_nonneg_right hG hu.le; linarith
        _ = _ := by ring
    linarith
  have hpa : |a.real - p.real| ≤ atol.real - 9 * F.u := by
    have t := abs_sub_le a.real s p.real
    rw [abs_sub_comm s] at t
    have t2 : 2 * (K * F.u) * (K * 2 ^ (K + 1)) + 2 * (k * F.u) * (K * 2 ^ (K + 1)) ≤ 4 * K * 2 ^ (K + 1) * (K + k) * F.u := by
      have : 0 ≤ K * 2 ^ (K + 1) * (K + k) * F.u := by positivity
      linarith
    rw [add_mul] at ha0
    linarith
  have hpm : |p.real| ≤ 2 := by
    have := abs_add_le (p.real - a.real) a.real
    rw [sub_add_cancel, abs_sub_comm] at this
    linarith
  have hbig := ht.big
  refine farApart_false hW fa fp ht.fa ht.fr (by have := abs_nonneg (a.real - p.real); linarith) ht.a1 hr0 ht.r1 (by linarith) (by linarith) ?_
  have hre : 0 ≤ (1 - F.u) * (rtol.real * |p.real|) := mul_nonneg (by linarith) (mul_nonneg hr0 (abs_nonneg _))
  have heta : F.eta ≤ F.u / 48 := by nlinarith
  have q1 : (1 - F.u) * (atol.real - F.eta) ≤ (1 - F.u) * (atol.real + ((1 - F.u) * (rtol.real * |p.real|) - F.eta)) := mul_le_mul_of_nonneg_left (by linarith) (by linarith)
  have q2 : (1 + F.u) * |a.real - p.real| ≤ (1 + F.u) * (atol.real - 9 * F.u) := mul_le_mul_of_nonneg_left hpa (by linarith)
  have q3 : F.u * atol.real ≤ F.u := mul_le_of_le_one_right hu.le ha1
  nlinarith

/-- the rows of an interchanged matrix are rows of the matrix -/
theorem rowSwaps_mem {V : Type} {P : Nat → V → Prop} {M : Nat} {a : Nat → Nat → V} {p : Nat → Nat} {k0 : Nat} (h : ∀ i j, i < M → P j (a i j)) :
    ∀ t, k0 + t ≤ M → (∀ q, q < k0 + t → p q < M) → ∀ i j, i < M → P j (rowSwaps p k0 t a i j) := by
  intro t
  induction t with
  | zero => intro _ _ i j hi; exact h i j hi
  | succ t ih =>
    intro ht hp i j hi
    refine ih (by omega) (fun q hq => hp q (by omega)) _ j ?_
    unfold swapIdx
    have := hp (k0 + t) (by omega)
    split
    · exact this
    · split
      · omega
      · exact hi

theorem rowSwaps_real {a : Nat → Nat → Bin F} {p : Nat → Nat} {k0 : Nat} : ∀ t i j,
    (rowSwaps p k0 t a i j).real = rowSwaps p k0 t (fun i j => (a i j).real) i j := by
  intro t
  induction t with
  | zero => intro i j; rfl
  | succ t ih => intro i j; exact ih _ j

/-- **C92** (what the LU tests check). `r` is the outcome of a factorization of the matrix A in place; O is the copy of A. Either the factorization rejects the matrix, or it returns
pivots `p`, interchanging the rows of the copy succeeds, and its comparison with the product P of the factors, however computed, succeeds. -/
def LuTestPasses (F : Format) (SS k : Nat) (A O : Container) (a : Nat → Nat → Bin F) (atol rtol : Bin F) (r : Res (Bin F) (Nat → Nat)) : Prop :=
  (∃ m1, r = .throw .invalidArgument m1) ∨
  ∃ p m1 m2 b, r = .ok p m1 ∧ laswp SS O.cols (O.mptr SS) 0 (min A.rows A.cols) p m1 = .ok () m2 ∧ Contains SS m2 A b ∧
    Contains SS m2 O (rowSwaps p 0 (min A.rows A.cols) a) ∧
    ∀ m3 P pv, Contains SS m3 O (rowSwaps p 0 (min A.rows A.cols) a) → Contains SS m3 P pv → P.rows = A.rows → P.cols = A.cols →
      (∀ i j, i < A.rows → j < A.cols → ComputedLU (min A.rows A.cols) k b i j (pv i j)) → approxEqualMat SS O P atol rtol m3 = .ok .success m3

theorem luTest_of (hW : F.Wide) {SS k : Nat} (hSS : 0 < SS) {m0 : Mem (Bin F)} {A O : Container} (hO : O.isPanel = false) (hsz : O.rows = A.rows ∧ O.cols = A.cols)
    (hAO : Apart SS A O) {a : Nat → Nat → Bin F} (ho : Contains SS m0 O a) {ip : Nat → Nat} {atol rtol : Bin F} (ht : TolLu F (min A.rows A.cols) k atol rtol)
    (ra : ∀ i j, i < A.rows → j < A.cols → (a i j).Finite ∧ |(a i j).real| ≤ 1) {r : Res (Bin F) (Nat → Nat)}
    (h1 : BinLuOutcome F 1 1 SS A.rows A.cols (A.mptr SS) a ip r m0) {ρ : ℝ} (hρ0 : 0 ≤ ρ) (hρ : ρ ≤ 2 * (1 + F.u) ^ 2)
    (h2 : BinLuSafe F ρ 1 SS A.rows A.cols (A.mptr SS) a r) : LuTestPasses F SS k A O a atol rtol r := by
  rcases h1.either with ⟨p, m1, e1, f1⟩ | ⟨m1, e1, -⟩
  swap
  · exact Or.inl ⟨m1, e1⟩
  refine Or.inr ?_
  obtain ⟨b, hb, lu, pr, -⟩ := h1.ret p m1 e1
  obtain ⟨b', hb', fb, bL, bU⟩ := h2.finite p m1 e1
  have hbb : ∀ i j, i < A.rows → j < A.cols → b' i j = b i j := fun i j hi hj => by
    have e : m1 ((A.mptr SS).addr SS i j) = some (b i j) := hb i j hi hj
    have e' : m1 ((A.mptr SS).addr SS i j) = some (b' i j) := hb' i j hi hj
    rw [e] at e'
    injection e' with e'
    exact e'.symm
  obtain ⟨-, -, -, herr⟩ := lu (fun i j hi hj => hbb i j hi hj ▸ fb i j hi hj)
  have ho1 : Contains SS m1 O a := fun i j hi hj => by
    rw [f1 _ (fun hc => ?_)]
    · exact ho i j hi hj
    · obtain ⟨i', j', hi', hj', e⟩ := hc
      refine hAO _ (A.addr_storage hSS hi' hj') ?_
      rw [Container.addr_eq_mptr, ← e]
      exact O.addr_storage hSS hi hj
  have hKr : min A.rows A.cols ≤ A.rows := Nat.min_le_left _ _
  obtain ⟨m2, e2, v2, f2⟩ := C24_laswp (k0 := 0) (k1 := min A.rows A.cols) (M := O.rows) (N := O.cols) (A := O.mptr SS) (ipiv := p) hSS (by rw [Container.mptr_eq]; exact hO) ho1.holds (O.inj hSS) (Nat.zero_le _)
    (by omega) (fun q _ hq => by have := (pr q hq).2; omega)
  rw [Nat.sub_zero] at v2
  refine ⟨p, m1, m2, b, e1, e2, fun i j hi hj => ?_, fun i j hi hj => ?_, fun m3 P pv c1 c2 r1 r2 hp => ?_⟩
  · rw [f2 _ (fun hc => ?_), Container.addr_eq_mptr]
    · exact hb i j hi hj
    · obtain ⟨i', j', hi', hj', e⟩ := hc
      refine hAO _ (A.addr_storage hSS hi hj) ?_
      rw [e, ← Container.addr_eq_mptr]
      exact O.addr_storage hSS hi' hj'
  · rw [Container.addr_eq_mptr]; exact v2 i j hi hj
  · refine approx_success c1 c2 ⟨by omega, by omega⟩ (fun i j hi hj => ?_)
    have hi' : i < A.rows := by omega
    have hj' : j < A.cols := by omega
    have hK : 0 < min A.rows A.cols := by omega
    have hfin := rowSwaps_mem (P := fun j v => j < A.cols → v.Finite ∧ |v.real| ≤ 1) (M := A.rows) (p := p) (k0 := 0) (a := a) (fun i j hi hj => ra i j hi hj)
      (min A.rows A.cols) (by omega) (fun q hq => (pr q (by omega)).2) i j hi' hj'
    obtain ⟨fp, hpe⟩ := hp i j hi' hj'
    have hu48 := (ht.facts hK).1
    have hKu : ((min A.rows A.cols : Nat) : ℝ) * F.u ≤ 1 / 16 := by
      have := (ht.facts hK).2.1
      have hk : 0 ≤ (k : ℝ) * F.u := mul_nonneg (Nat.cast_nonneg k) F.u_pos.le
      rw [add_mul] at this
      linarith
    have hg := growth_le hW (K := min A.rows A.cols) hu48 hKu hρ0 hρ
    have hU : ∀ q j, q < min A.rows A.cols → j < A.cols → |tri .upper false (fun i j => (b i j).real) q j| ≤ 2 ^ (min A.rows A.cols + 1) := fun q j hq hj => by
      by_cases hqj : q ≤ j
      · have e : tri .upper false (fun i j => (b i j).real) q j = (b q j).real := by
          simp only [tri]
          by_cases hqj' : q = j
          · simp [hqj']
          · simp [hqj', show q < j by omega]
        rw [e, ← hbb q j (by omega) hj]
        exact le_trans (bU q j (by omega) hj hqj) hg
      · have e : tri .upper false (fun i j => (b i j).real) q j = 0 := by
          simp [tri, show ¬ q = j by omega, show ¬ q < j by omega]
        rw [e, abs_zero]; positivity
    have hL : ∀ q, q < min A.rows A.cols → |tri .lower true (fun i j => (b i j).real) i q| ≤ 1 := fun q hq => by
      by_cases hqi : i = q
      · simp [tri, hqi]
      · by_cases hlt : q < i
        · have e : tri .lower true (fun i j => (b i j).real) i q = (b i q).real := by simp [tri, hqi, hlt]
          rw [e, ← hbb i q hi' (by omega)]
          exact bL i q hq hlt hi'
        · simp [tri, hqi, hlt]
    have hS : ∑ q ∈ range (min A.rows A.cols), |tri .lower true (fun i j => (b i j).real) i q| * |tri .upper false (fun i j => (b i j).real) q j| ≤
        (min A.rows A.cols : Nat) * 2 ^ (min A.rows A.cols + 1) := by
      refine le_trans (sum_le_card_nsmul _ _ (2 ^ (min A.rows A.cols + 1)) (fun q hq => ?_)) (by rw [card_range, nsmul_eq_mul])
      rw [mem_range] at hq
      calc _ ≤ 1 * (2 : ℝ) ^ (min A.rows A.cols + 1) := mul_le_mul (hL q hq) (hU q j hq hj') (abs_nonneg _) (by norm_num)
        _ = _ := one_mul _
    have hd : (if j < min A.rows A.cols then |(b j j).real| else 0) ≤ 2 ^ (min A.rows A.cols + 1) := by
      by_cases hjK : j < min A.rows A.cols
      · rw [if_pos hjK, ← hbb j j (by omega) hj']
        exact le_trans (bU j j (by omega) hj' le_rfl) hg
      · rw [if_neg hjK]; positivity
    have hd0 : 0 ≤ (if j < min A.rows A.cols then |(b j j).real| else 0) := by split <;> positivity
    have he := herr i j hi' hj'
    rw [Nat.one_mul, ← rowSwaps_real] at he
    refine close_lu hW ht hK hfin.1 hfin.2 fp (sum_nonneg fun q _ => mul_nonneg (abs_nonneg _) (abs_nonneg _)) hS hd0 hd ?_ hpe
    exact_mod_cast he

theorem big_growth (hW : F.Wide) {K k : Nat} {atol rtol : Bin F} (ht : TolLu F K k atol rtol) (hB : (2 : ℝ) ^ (K + 1) < F.big) {ρ : ℝ} (hρ0 : 0 ≤ ρ) (hρ : ρ ≤ 2 * (1 + F.u) ^ 2) :
    ρ ^ K * (1 + 2 * F.eta) < F.big := by
  rcases Nat.eq_zero_or_pos K with rfl | hK
  · have := ht.big
    have he := eta_le_u hW
    have hu := F.u_le_half
    have hu0 := F.u_pos
    rw [pow_zero, one_mul]
    nlinarith
  · have hf := ht.facts hK
    have hk : 0 ≤ (k : ℝ) * F.u := mul_nonneg (Nat.cast_nonneg k) F.u_pos.le
    have h2 := hf.2.1
    rw [add_mul] at h2
    exact lt_of_le_of_lt (growth_le hW hf.1 (by linarith) hρ0 hρ) hB

/-- **C92** (getf2, column-major): Getf2Test.cpp:53-79 with `SO = columnMajor`. `randomize` draws from [0, 1); the theorem allows [-1, 1]. -/
theorem C92_getf2 (hW : F.Wide) {SS k : Nat} (hSS : 0 < SS) {m0 : Mem (Bin F)} {A O : Container} (hd : A.isPanel = false) (hs : A.so = .columnMajor) (hl : Live SS m0 A)
    (hO : O.isPanel = false) (hsz : O.rows = A.rows ∧ O.cols = A.cols) (hAO : Apart SS A O) {a : Nat → Nat → Bin F} (h : Contains SS m0 A a) (ho : Contains SS m0 O a)
    (ip : Nat → Nat) (hn : ∀ i j, i < A.rows → j < A.cols → (a i j).IsNum) (ra : ∀ i j, i < A.rows → j < A.cols → (a i j).Finite ∧ |(a i j).real| ≤ 1)
    {atol rtol : Bin F} (ht : TolLu F (min A.rows A.cols) k atol rtol) (hB : (2 : ℝ) ^ (min A.rows A.cols + 1) < F.big) :
    LuTestPasses F SS k A O a atol rtol (getf2Ptr SS 1 A.rows A.cols (A.mptr SS) ip m0) := by
  have hu := F.u_pos
  have hρ : 2 * (1 + F.u) ≤ 2 * (1 + F.u) ^ 2 := by nlinarith
  refine luTest_of hW hSS hO hsz hAO ho ht ra (C87_getf2 hW (LuPre.of_live hSS hd hs hl).toLuPre h.holds hn ip) (by positivity) hρ ?_
  exact C87_getf2_safe hW (LuPre.of_live hSS hd hs hl).toLuPre h.holds hn ip (fun i j hi hj => (ra i j hi hj).1) zero_le_one (fun i j hi hj => (ra i j hi hj).2)
    (big_growth hW ht hB (by positivity) hρ)

/-- **C92** (getf2, row-major): Getf2Test.cpp:53-79 with `SO = rowMajor`. -/
theorem C92_getf2_row_major (hW : F.Wide) {SS k : Nat} (hSS : 0 < SS) {m0 : Mem (Bin F)} {A O : Container} (hd : A.isPanel = false)
    (hO : O.isPanel = false) (hsz : O.rows = A.rows ∧ O.cols = A.cols) (hAO : Apart SS A O) {a : Nat → Nat → Bin F} (h : Contains SS m0 A a) (ho : Contains SS m0 O a)
    (ip : Nat → Nat) (hn : ∀ i j, i < A.rows → j < A.cols → (a i j).IsNum) (ra : ∀ i j, i < A.rows → j < A.cols → (a i j).Finite ∧ |(a i j).real| ≤ 1)
    {atol rtol : Bin F} (ht : TolLu F (min A.rows A.cols) k atol rtol) (hB : (2 : ℝ) ^ (min A.rows A.cols + 1) < F.big) :
    LuTestPasses F SS k A O a atol rtol (getf2Row SS Arith.div (A.mat SS) ip m0) := by
  have hu := F.u_pos
  have hρ : 2 * (1 + F.u) ≤ 2 * (1 + F.u) ^ 2 := by nlinarith
  have hp : (A.mat SS).p.panel = false := by show (A.mptr SS).panel = false; rw [Container.mptr_eq]; exact hd
  refine luTest_of hW hSS hO hsz hAO ho ht ra (C87_getf2_row_major hW hSS (A := A.mat SS) hp (A.inj hSS) h.holds hn ip) (by positivity) hρ ?_
  exact C87_getf2_row_major_safe hW hSS (A := A.mat SS) hp (A.inj hSS) h.holds hn ip (fun i j hi hj => (ra i j hi hj).1) zero_le_one (fun i j hi hj => (ra i j hi hj).2)
    (big_growth hW ht hB (by positivity) hρ)

/-- **C92** (getrf, column-major): GetrfTest.cpp:57-83 with `SO = columnMajor`. -/
theorem C92_getrf (hW : F.Wide) {SS k : Nat} (hSS : 0 < SS) {m0 : Mem (Bin F)} {A O : Container} (hd : A.isPanel = false) (hs : A.so = .columnMajor) (hl : Live SS m0 A)
    (hO : O.isPanel = false) (hsz : O.rows = A.rows ∧ O.cols = A.cols) (hAO : Apart SS A O) {a : Nat → Nat → Bin F} (h : Contains SS m0 A a) (ho : Contains SS m0 O a)
    (ip : Nat → Nat) (hn : ∀ i j, i < A.rows → j < A.cols → (a i j).IsNum) (ra : ∀ i j, i < A.rows → j < A.cols → (a i j).Finite ∧ |(a i j).real| ≤ 1)
    {atol rtol : Bin F} (ht : TolLu F (min A.rows A.cols) k atol rtol) (hB : (2 : ℝ) ^ (min A.rows A.cols + 1) < F.big) :
    LuTestPasses F SS k A O a atol rtol (getrfPtr SS 1 A.rows A.cols (A.mptr SS) ip m0) := by
  refine luTest_of hW hSS hO hsz hAO ho ht ra (C87_getrf hW (LuPre.of_live hSS hd hs hl) h.holds hn ip) (by have := F.u_pos; positivity) le_rfl ?_
  exact C87_getrf_safe hW (LuPre.of_live hSS hd hs hl) h.holds hn ip (fun i j hi hj => (ra i j hi hj).1) zero_le_one (fun i j hi hj => (ra i j hi hj).2)
    (big_growth hW ht hB (by have := F.u_pos; positivity) le_rfl)

/-- **C92** (sizes of the LU tests). In double precision with the tolerances 1e-11 of the tests, the theorems cover sizes up to 5 - the largest of the tests - and products
computed with up to 7 roundings (the product of a 5 × 5 matrix takes 5 products and 5 additions, at most 6 roundings from a product to the sum). -/
theorem C92_lu_sizes (atol rtol : Bin binary64) (fa : atol.Finite) (fr : rtol.Finite) (ha : 999 / 1000 * (1 / 10 ^ 11) ≤ atol.real ∧ atol.real ≤ 1) (hr : 0 ≤ rtol.real ∧ rtol.real ≤ 1)
    {K k : Nat} (hK : K ≤ 5) (hk : 3 ≤ k) (hk7 : k ≤ 7) : TolLu binary64 K k atol rtol ∧ (2 : ℝ) ^ (K + 1) < binary64.big := by
  have hbig : (2 : ℝ) ^ (40 : ℤ) ≤ binary64.big := zpow_le_zpow_right₀ (by norm_num) (by decide)
  rw [show (2 : ℝ) ^ (40 : ℤ) = 1099511627776 by norm_num] at hbig
  have h64 : (2 : ℝ) ^ (K + 1) ≤ 64 := le_trans (pow_le_pow_right₀ (by norm_num) (show K + 1 ≤ 6 by omega)) (by norm_num)
  refine ⟨⟨hk, fa, fr, ?_, ha.2, hr.1, hr.2, by linarith⟩, by linarith⟩
  refine le_trans ?_ ha.1
  rw [u_binary64]
  have h1 : (K : ℝ) ≤ 5 := by exact_mod_cast hK
  have h2 : (k : ℝ) ≤ 7 := by exact_mod_cast hk7
  have h3 : 4 * (K : ℝ) * 2 ^ (K + 1) * (K + k) ≤ 4 * 5 * 64 * (5 + 7) := by gcongr
  calc (4 * (K : ℝ) * 2 ^ (K + 1) * (K + k) + 10) * (1 / 2 ^ 53) ≤ (4 * 5 * 64 * (5 + 7) + 10) * (1 / 2 ^ 53) := by gcongr
    _ ≤ _ := by norm_num

end Blast
