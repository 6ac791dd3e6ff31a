import Verif.Props.BackwardLu
import Verif.Props.BackwardPotrf
import Verif.Props.Solve
/- Concrete cases meeting the hypotheses of these theorems: Verif/Cases/Accuracy.lean, and the examples in this file. -/
/-
Property C60: solving systems of linear equations in rounded arithmetic.
-/
set_option linter.unusedSectionVars false
namespace Blast
open Finset Prog
variable {V : Type} [Field V] [LinearOrder V] [IsStrictOrderedRing V]

/-- residual of a system solved by two triangular systems with approximate factors -/
theorem residual_compose {n : Nat} {A L U : Nat → Nat → V} {x y b : Nat → V} {g1 g2 : V} (hg1 : 0 ≤ g1) {i : Nat} 
    (h1 : |b i - ∑ q ∈ range n, L i q * y q| ≤ g1 * ∑ q ∈ range n, |L i q| * |y q|)
    (h2 : ∀ q, q < n → |y q - ∑ k ∈ range n, U q k * x k| ≤ g1 * ∑ k ∈ range n, |U q k| * |x k|)
    (h3 : ∀ k, k < n → |A i k - ∑ q ∈ range n, L i q * U q k| ≤ g2 * ∑ q ∈ range n, |L i q| * |U q k|) :
    |b i - ∑ k ∈ range n, A i k * x k| ≤
      (g1 * (1 + g1) + g1 + g2) * ∑ q ∈ range n, ∑ k ∈ range n, |L i q| * |U q k| * |x k| := by
  have e : b i - ∑ k ∈ range n, A i k * x k = (b i - ∑ q ∈ range n, L i q * y q) +
      (∑ q ∈ range n, L i q * (y q - ∑ k ∈ range n, U q k * x k) -
        ∑ k ∈ range n, (A i k - ∑ q ∈ range n, L i q * U q k) * x k) := by
    simp only [mul_sub, sub_mul, sum_sub_distrib, mul_sum, sum_mul]
    rw [sum_comm (f := fun k q => L i q * U q k * x k)]
    simp only [mul_assoc]
    ring
  have hy : ∀ q, q < n → |y q| ≤ (1 + g1) * ∑ k ∈ range n, |U q k| * |x k| := by
    intro q hq
    have t1 : |y q| ≤ |y q - ∑ k ∈ range n, U q k * x k| + |∑ k ∈ range n, U q k * x k| := by
      have := abs_add_le (y q - ∑ k ∈ range n, U q k * x k) (∑ k ∈ range n, U q k * x k)
      rwa [sub_add_cancel] at this
    have t2 : |∑ k ∈ range n, U q k * x k| ≤ ∑ k ∈ range n, |U q k| * |x k| := by
      refine le_trans (abs_sum_le_sum_abs _ _) (le_of_eq (sum_congr rfl (fun k _ => abs_mul _ _)))
    have := h2 q hq
    linarith
  have b1 : ∑ q ∈ range n, |L i q| * |y q| ≤ (1 + g1) * ∑ q ∈ range n, ∑ k ∈ range n, |L i q| * |U q k| * |x k| := by
    rw [mul_sum]
    refine sum_le_sum (fun q hq => ?_)
    refine le_trans (mul_le_mul_of_nonneg_left (hy q (mem_range.1 hq)) (abs_nonneg _)) (le_of_eq ?_)
    rw [mul_left_comm, mul_sum]
    simp only [mul_assoc]
  have b2 : |∑ q ∈ range n, L i q * (y q - ∑ k ∈ range n, U q k * x k)| ≤ g1 * ∑ q ∈ range n, ∑ k ∈ range n, |L i q| * |U q k| * |x k| := by
    refine le_trans (abs_sum_le_sum_abs _ _) ?_
    rw [mul_sum]
    refine sum_le_sum (fun q hq => ?_)
    rw [abs_mul]
    refine le_trans (mul_le_mul_of_nonneg_left (h2 q (mem_range.1 hq)) (abs_nonneg _)) (le_of_eq ?_)
    rw [mul_left_comm, mul_sum]
    simp only [mul_assoc]
  have b3 : |∑ k ∈ range n, (A i k - ∑ q ∈ range n, L i q * U q k) * x k| ≤ g2 * ∑ q ∈ range n, ∑ k ∈ range n, |L i q| * |U q k| * |x k| := by
    refine le_trans (abs_sum_le_sum_abs _ _) ?_
    rw [sum_comm, mul_sum]
    refine sum_le_sum (fun k hk => ?_)
    rw [abs_mul]
    refine le_trans (mul_le_mul_of_nonneg_right (h3 k (mem_range.1 hk)) (abs_nonneg _)) (le_of_eq ?_)
    rw [mul_assoc, sum_mul]
  have b1' := mul_le_mul_of_nonneg_left b1 hg1
  rw [e]
  refine le_trans (abs_add_le _ _) ?_
  have t3 := abs_sub (∑ q ∈ range n, L i q * (y q - ∑ k ∈ range n, U q k * x k))
    (∑ k ∈ range n, (A i k - ∑ q ∈ range n, L i q * U q k) * x k)
  have e2 : (g1 * (1 + g1) + g1 + g2) * ∑ q ∈ range n, ∑ k ∈ range n, |L i q| * |U q k| * |x k| =
    g1 * ((1 + g1) * ∑ q ∈ range n, ∑ k ∈ range n, |L i q| * |U q k| * |x k|) +
    g1 * (∑ q ∈ range n, ∑ k ∈ range n, |L i q| * |U q k| * |x k|) + g2 * ∑ q ∈ range n, ∑ k ∈ range n, |L i q| * |U q k| * |x k| := by ring
  rw [e2]
  linarith

section
variable [Arith V] {u : V} [hR : Rounded u]

/-- **C60** (LU). In rounded arithmetic, the sequence getrf, laswp, trsm, trsm either throws invalid_argument, leaving everything but A
as it was, or it returns a matrix X in B with `|P*B - P*A*X| ≤ 2 ((1/(1-u))^(2n) - 1) |L| |U| |X|`, L and U being the factors left in A
and P the interchanges, whatever A and B are; apart from A and B nothing changes. -/
theorem C60_lu_solve_backward_error {SS TR n r : Nat} {A B : MPtr} {m0 : Mem V} (hp : GetrfPre SS TR n n A m0) (hd : B.panel = false)
    (hinj : Inj SS B n r) (hdis : Disj SS A n n B n r)
    {a b : Nat → Nat → V} (ha : Holds SS m0 A n n a) (hb : Holds SS m0 B n r b) (ip : Nat → Nat) :
    (∃ m', luSolve SS TR n r A B ip m0 = .throw .invalidArgument m' ∧ (∀ z, ¬ Cells SS A n n z → m' z = m0 z)) ∨
    (∃ m' c p x, luSolve SS TR n r A B ip m0 = .ok () m' ∧ Holds SS m' A n n c ∧ Holds SS m' B n r x ∧
      IsLUUpTo ((1 / (1 - u)) ^ (2 * n) - 1) n n a c p ∧ (∀ q, q < n → q ≤ p q ∧ p q < n) ∧
      (∀ i k, k < i → i < n → |c i k| ≤ 1 + u) ∧
      (∀ μ, (∀ i j, i < n → j < n → |a i j| ≤ μ) → ∀ i j, i ≤ j → j < n → |c i j| ≤ (2 * (1 + u) ^ (TR * SS + 3)) ^ n * μ) ∧
      (∀ i j, i < n → j < r → |rowSwaps p 0 n b i j - ∑ k ∈ range n, rowSwaps p 0 n a i k * x k j| ≤
        2 * ((1 / (1 - u)) ^ (2 * n) - 1) *
          ∑ q ∈ range n, ∑ k ∈ range n, |tri .lower true c i q| * |tri .upper false c q k| * |x k j|) ∧
      (∀ z, ¬ Cells SS A n n z → ¬ Cells SS B n r z → m' z = m0 z)) := by
  have hSS := hp.ss
  have ho := C59_getrf_backward_error (u := u) hp ha ip
  rcases ho.either with ⟨p, m1, e1, c7⟩ | ⟨m1, e1, c7⟩
  swap
  · exact Or.inl ⟨m1, by unfold luSolve; exact bind_throw e1, c7⟩
  obtain ⟨c, c1, c2, c3, -, c5, c6, c8⟩ := ho.ret p m1 e1
  rw [Nat.min_self] at c2 c3 c5 c6 c8
  have notA : ∀ i j : Nat, i < n → j < r → ¬ Cells SS A n n (B.addr SS i j) := by
    rintro i j hi hj ⟨i', j', hi', hj', he⟩
    exact hdis i' j' i j hi' hj' hi hj he.symm
  have notB : ∀ i j : Nat, i < n → j < n → ¬ Cells SS B n r (A.addr SS i j) := by
    rintro i j hi hj ⟨i', j', hi', hj', he⟩
    exact hdis i j i' j' hi hj hi' hj' he
  have hb1 : Holds SS m1 B n r b := fun i j hi hj => by rw [c7 _ (notA i j hi hj)]; exact hb i j hi hj
  obtain ⟨m2, e2, f2, g2⟩ := C24_laswp hSS hd hb1 hinj (Nat.zero_le n) (Nat.le_refl n) (ipiv := p)
    (fun q _ hq => (c3 q hq).2)
  have ha2 : Holds SS m2 A n n c := fun i j hi hj => by rw [g2 _ (notB i j hi hj)]; exact c1 i j hi hj
  have self : SameOrDisj SS B B n r := fun i j i' j' h1 h2 h3 h4 he => hinj i j i' j' h1 h2 h3 h4 he
  obtain ⟨m3, y, e3, f3, s3, g3⟩ := C57_trsm_residual (u := u) (SS := SS) (m := n) (n := r) (A := A) (X := B) (B := B) .lower true
    (mem := m2) (a := c) (fun i k hi hk _ => ⟨ha2 i k hi hk, notB i k hi hk⟩) (fun h => by cases h)
    (fun i j hi hj => by rw [f2 i j hi hj]; rfl) hinj f2 self
  have ha3 : Holds SS m3 A n n c := fun i j hi hj => by rw [g3 _ (notB i j hi hj)]; exact ha2 i j hi hj
  obtain ⟨m4, x, e4, f4, s4, g4⟩ := C57_trsm_residual (u := u) (SS := SS) (m := n) (n := r) (A := A) (X := B) (B := B) .upper false
    (mem := m3) (a := c) (fun i k hi hk _ => ⟨ha3 i k hi hk, notB i k hi hk⟩) (fun _ i hi => c6 i hi)
    (fun i j hi hj => by rw [f3 i j hi hj]; rfl) hinj f3 self
  refine Or.inr ⟨m4, c, p, x, ?_, fun i j hi hj => by rw [g4 _ (notB i j hi hj)]; exact ha3 i j hi hj, f4, c2, c3,
    fun i k hk hi => c5 i k (by omega) hk hi, fun μ hμ i j hij hj => c8 μ hμ i j (by omega) hj hij, ?_, fun z h1 h2 => ?_⟩
  · unfold luSolve
    rw [bind_ok e1, bind_ok e2, bind_ok e3]
    exact e4
  · intro i j hi hj
    have hg : (0 : V) ≤ (1 / (1 - u)) ^ n - 1 := by
      have := Near.one_le_pow (u := bu u) buN n
      rw [pow_bu'] at this
      linarith
    have h1 := s3 i j hi hj
    rw [Nat.sub_zero] at h1
    have := residual_compose (A := rowSwaps p 0 n a) (x := fun k => x k j) (y := fun q => y q j)
      (b := fun i => rowSwaps p 0 n b i j) hg (i := i) h1 (fun q hq => s4 q j hq hj) (fun k hk => by
        have := c2 i k hi hk
        rwa [Nat.min_self] at this)
    refine le_trans this (le_of_eq ?_)
    congr 1
    rw [show 2 * n = n + n by omega, pow_add]
    ring
  · rw [g4 z h2, g3 z h2, g2 z h2, c7 z h1]

/-- **C60** (LU, a priori). If |A| ≤ μ and no singular matrix lies within `g n (1+u) ρ^n μ` of A, g = (1/(1-u))^(2n) - 1,
ρ = 2(1+u)^(blocksize+3), then the sequence returns X with `|B - A*X| ≤ 2 g n (1+u) ρ^n μ * (sum of |X| over the column)`. -/
theorem C60_lu_solve_accuracy {SS TR n r : Nat} {A B : MPtr} {m0 : Mem V} (hp : GetrfPre SS TR n n A m0) (hd : B.panel = false)
    (hinj : Inj SS B n r) (hdis : Disj SS A n n B n r)
    {a b : Nat → Nat → V} (ha : Holds SS m0 A n n a) (hb : Holds SS m0 B n r b) (ip : Nat → Nat) {g μ : V}
    (hg : g = (1 / (1 - u)) ^ (2 * n) - 1) (hμ : ∀ i j, i < n → j < n → |a i j| ≤ μ)
    (hrob : RobustIndep (g * (n * (1 + u) * (2 * (1 + u) ^ (TR * SS + 3)) ^ n * μ)) n n a) :
    ∃ m' x, luSolve SS TR n r A B ip m0 = .ok () m' ∧ Holds SS m' B n r x ∧
      (∀ i j, i < n → j < r → |b i j - ∑ k ∈ range n, a i k * x k j| ≤
        2 * g * (n * (1 + u) * (2 * (1 + u) ^ (TR * SS + 3)) ^ n * μ) * ∑ k ∈ range n, |x k j|) ∧
      (∀ z, ¬ Cells SS A n n z → ¬ Cells SS B n r z → m' z = m0 z) := by
  have hu := hR.u_nonneg
  have hg0 : 0 ≤ g := by
    have := Near.one_le_pow (u := bu u) buN (2 * n)
    rw [pow_bu'] at this
    rw [hg]; linarith
  rcases C60_lu_solve_backward_error (u := u) hp hd hinj hdis ha hb ip with ⟨m', e1, -⟩ | ⟨m', c, p, x, e1, -, e3, -, e5, e6, e7, e8, e9⟩
  · exfalso
    obtain ⟨p, m1, e2⟩ := (C59_getrf_backward_error (u := u) hp ha ip).full μ hμ (by rw [Nat.min_self, ← hg]; exact hrob)
    unfold luSolve at e1
    rw [bind_ok e2] at e1
    -- the remaining operations do not throw
    have ho := C59_getrf_backward_error (u := u) hp ha ip
    obtain ⟨c, c1, c2, c3, -, -, c6, -⟩ := ho.ret p m1 e2
    have c7 : ∀ y, ¬ Cells SS A n n y → m1 y = m0 y := by
      rcases ho.either with ⟨p', m1', f1, f2⟩ | ⟨m1', f1, f2⟩
      · rw [e2] at f1; injection f1 with g1 g2; subst g2; exact f2
      · rw [e2] at f1; simp at f1
    rw [Nat.min_self] at c3 c6
    have notA : ∀ i j : Nat, i < n → j < r → ¬ Cells SS A n n (B.addr SS i j) := by
      rintro i j hi hj ⟨i', j', hi', hj', he⟩
      exact hdis i' j' i j hi' hj' hi hj he.symm
    have notB : ∀ i j : Nat, i < n → j < n → ¬ Cells SS B n r (A.addr SS i j) := by
      rintro i j hi hj ⟨i', j', hi', hj', he⟩
      exact hdis i j i' j' hi hj hi' hj' he
    have hb1 : Holds SS m1 B n r b := fun i j hi hj => by rw [c7 _ (notA i j hi hj)]; exact hb i j hi hj
    obtain ⟨m2, d2, f2, g2⟩ := C24_laswp hp.ss hd hb1 hinj (Nat.zero_le n) (Nat.le_refl n) (ipiv := p)
      (fun q _ hq => (c3 q hq).2)
    have ha2 : Holds SS m2 A n n c := fun i j hi hj => by rw [g2 _ (notB i j hi hj)]; exact c1 i j hi hj
    obtain ⟨m3, y, d3, f3, -, g3⟩ := C57_trsm_residual (u := u) (SS := SS) (m := n) (n := r) (A := A) (X := B) (B := B) .lower true
      (mem := m2) (a := c) (fun i k hi hk _ => ⟨ha2 i k hi hk, notB i k hi hk⟩) (fun h => by cases h)
      (fun i j hi hj => by rw [f2 i j hi hj]; rfl) hinj f2 hinj
    have ha3 : Holds SS m3 A n n c := fun i j hi hj => by rw [g3 _ (notB i j hi hj)]; exact ha2 i j hi hj
    obtain ⟨m4, x, d4, -⟩ := C57_trsm_residual (u := u) (SS := SS) (m := n) (n := r) (A := A) (X := B) (B := B) .upper false
      (mem := m3) (a := c) (fun i k hi hk _ => ⟨ha3 i k hi hk, notB i k hi hk⟩) (fun _ i hi => c6 i hi)
      (fun i j hi hj => by rw [f3 i j hi hj]; rfl) hinj f3 hinj
    rw [bind_ok d2, bind_ok d3, d4] at e1
    simp at e1
  · refine ⟨m', x, e1, e3, fun i j hi hj => ?_, e9⟩
    obtain ⟨i', h1, h2⟩ := rowPerm_surj (p := p) (k0 := 0) (t := n) (m := n) (fun q _ hq => (e5 q (by omega)).2) (by omega) hi
    have := e8 i' j h1 hj
    simp only [rowSwaps_eq, h2] at this
    refine le_trans this ?_
    rw [← hg, mul_assoc (2 * g)]
    refine mul_le_mul_of_nonneg_left ?_ (by linarith)
    have hn1 : 0 < n := by omega
    have hμ0 : 0 ≤ μ := le_trans (abs_nonneg _) (hμ 0 0 hn1 hn1)
    have hG : 0 ≤ (2 * (1 + u) ^ (TR * SS + 3)) ^ n * μ := mul_nonneg (pow_nonneg (by linarith [one_le_two_pow (u := u) (TR * SS + 3)]) _) hμ0
    generalize hGe : (2 * (1 + u) ^ (TR * SS + 3)) ^ n * μ = G at hG
    have step : ∀ q ∈ range n, ∑ k ∈ range n, |tri .lower true c i' q| * |tri .upper false c q k| * |x k j| ≤
        (1 + u) * G * ∑ k ∈ range n, |x k j| := by
      intro q hq
      have hq := mem_range.1 hq
      rw [mul_sum]
      refine sum_le_sum (fun k hk => mul_le_mul_of_nonneg_right (mul_le_mul ?_ ?_ (abs_nonneg _) (by linarith)) (abs_nonneg _))
      · rw [tri_eq_lower]
        by_cases t1 : i' = q
        · rw [if_pos t1, abs_one]; linarith
        · rw [if_neg t1]
          by_cases t2 : q < i'
          · rw [if_pos t2]; exact e6 i' q t2 h1
          · rw [if_neg t2, abs_zero]; linarith
      · rw [tri_eq_upper]
        by_cases t1 : q ≤ k
        · rw [if_pos t1, ← hGe]; exact e7 μ hμ q k t1 (mem_range.1 hk)
        · rw [if_neg t1, abs_zero]; exact hG
    refine le_trans (sum_le_sum step) (le_of_eq ?_)
    rw [sum_const, card_range, nsmul_eq_mul, ← hGe]
    ring

end

section
variable [Arith V] {u : V} [hR : RoundedSqrt u]

/-- **C60** (Cholesky). If the lower triangle of A is that of a symmetric matrix S, positive definite by the margin of C58, the sequence
potrf, trsm, trsm returns X with `|B - S*X| ≤ ((1/(1-u))^(2n) + (1/(1-u))^(n+4) - 2) |L| |L|ᵀ |X|` and with
`|B - S*X|_i ≤ (…) * sum over k of (S_ii + S_kk) / (2 (1 - g)) * |X_k|`; L may be A, only lower triangles are used. -/
theorem C60_cholesky_solve_accuracy {SS TR : Nat}
    {m0 : Mem V} {A L B : Container} (h : PotrfArgs SS m0 A L) (hs : PotrfSizes A L) (hf : PotrfFits SS TR 4 A L)
    (hsq : A.cols = A.rows) (hr : B.rows = A.rows) (hap : Apart SS L B)
    {a b : Nat → Nat → V} (ha : ContainsLower SS m0 A a) (hb : Contains SS m0 B b) {g : V}
    (hg : g = (1 / (1 - u)) ^ (A.rows + 4) - 1) (hg1 : g < 1) (hng : (A.rows : V) * g * (1 + g) ≤ (1 - g) * (1 - g))
    (hpd : LowerPosDefBy ((A.rows : V) * g / (1 - g)) A.rows a) :
    ∃ m' l x, choleskySolve SS TR A L B m0 = .ok () m' ∧ ContainsLower SS m' L l ∧ Contains SS m' B x ∧
      (∀ i j, i < A.rows → j < B.cols → |b i j - ∑ k ∈ range A.rows, a (max i k) (min i k) * x k j| ≤
        ((1 / (1 - u)) ^ (2 * A.rows) - 1 + g) *
          ∑ q ∈ range A.rows, ∑ k ∈ range A.rows, |tri .lower false l i q| * |tri .lower false l k q| * |x k j|) ∧
      (∀ i j, i < A.rows → j < B.cols → |b i j - ∑ k ∈ range A.rows, a (max i k) (min i k) * x k j| ≤
        ((1 / (1 - u)) ^ (2 * A.rows) - 1 + g) *
          ∑ k ∈ range A.rows, (a i i + a k k) / (2 * (1 - g)) * |x k j|) ∧
      (∀ z, ¬ L.Storage SS z → ¬ IsElem SS B z → m' z = m0 z) := by
  have hSS := h.ss
  obtain ⟨m1, e1, l, l1, l2, l3⟩ := C58_potrf_dense_accuracy (u := u) h hs hf ha (by rw [hsq]; exact hg) hg1 (by rw [hsq]; exact hng)
    (by rw [hsq]; exact hpd)
  obtain ⟨m1', e1', fr, -⟩ := C16_potrf_dense_frame h hs hf
  rw [e1] at e1'
  injection e1' with _ e1'
  subst e1'
  obtain ⟨s1, s2, s3⟩ := hs
  have dis := hap.disj hSS
  rw [s2, s3, hsq, hr] at dis
  have hinj := B.inj hSS
  rw [hr] at hinj
  have hg0 : 0 ≤ g := by
    have := Near.one_le_pow (u := bu u) buN (A.rows + 4)
    rw [pow_bu'] at this
    rw [hg]; linarith
  have notB : ∀ i j : Nat, i < A.rows → j < A.rows → ¬ Cells SS (B.mptr SS) A.rows B.cols ((L.mptr SS).addr SS i j) := by
    rintro i j hi hj ⟨i', j', hi', hj', he⟩
    exact dis i j i' j' hi hj hi' hj' he
  have lat : ∀ i j : Nat, j ≤ i → i < A.rows → m1 ((L.mptr SS).addr SS i j) = some (l i j) := by
    intro i j hj hi
    rw [← Container.addr_eq_mptr]
    exact l1 i j hj (by omega) (by omega)
  have hb1 : Holds SS m1 (B.mptr SS) A.rows B.cols b := by
    intro i j hi hj
    rw [← Container.addr_eq_mptr, fr _ (fun hc => hap _ hc (B.addr_storage hSS (by omega) hj))]
    exact hb i j (by omega) hj
  have nz : ∀ i, i < A.rows → l i i ≠ 0 := fun i hi => ne_of_gt (l2 i (by omega))
  obtain ⟨m3, y, e3, f3, t3, g3⟩ := C57_trsm_residual (u := u) (SS := SS) (m := A.rows) (n := B.cols) (A := L.mptr SS) (X := B.mptr SS)
    (B := B.mptr SS) .lower false (mem := m1) (a := l)
    (fun i k hi hk hr => ⟨lat i k (by unfold TriRef at hr; simp at hr; omega) hi, notB i k hi hk⟩)
    (fun _ => nz) (fun i j hi hj => by rw [hb1 i j hi hj]; rfl) hinj hb1 hinj
  obtain ⟨m4, x, e4, f4, t4, g4⟩ := C57_trsm_residual (u := u) (SS := SS) (m := A.rows) (n := B.cols) (A := (L.mptr SS).trans SS)
    (X := B.mptr SS) (B := B.mptr SS) .upper false (mem := m3) (a := fun i j => l j i)
    (fun i k hi hk hr => by
      have hik : i ≤ k := by unfold TriRef at hr; simp at hr; omega
      rw [MPtr.trans_addr hSS]
      exact ⟨by rw [g3 _ (notB k i hk hi)]; exact lat k i hik hk, notB k i hk hi⟩)
    (fun _ => nz) (fun i j hi hj => by rw [f3 i j hi hj]; rfl) hinj f3 hinj
  have sw : ∀ i q, tri .upper false (fun i j => l j i) q i = tri .lower false l i q := by
    intro i q
    unfold tri
    by_cases hq : i = q
    · subst hq; simp
    · rw [if_neg hq, if_neg (Ne.symm hq)]
  have hl : ∀ i q, q ≤ i → tri .lower false l i q = l i q := by
    intro i q hq
    rcases Nat.lt_or_eq_of_le hq with h1 | h1
    · exact tri_lower h1
    · rw [h1, tri_diag]; rfl
  have hl0 : ∀ k q, k < q → tri .lower false l k q = 0 := by
    intro k q hq
    rw [← sw, tri_upper_zero hq]
  -- sums over the stored triangle
  have hsum : ∀ (f : V → V → V), (∀ z, f z 0 = 0) → ∀ i k, k ≤ i → i < A.rows →
      ∑ q ∈ range A.rows, f (tri .lower false l i q) (tri .lower false l k q) = ∑ q ∈ range (k + 1), f (l i q) (l k q) := by
    intro f hf0 i k hki hi
    symm
    refine Eq.trans (sum_congr rfl (fun q hq => ?_)) (sum_subset ?_ ?_)
    · have := mem_range.1 hq
      rw [hl i q (by omega), hl k q (by omega)]
    · intro q hq; rw [mem_range] at *; omega
    · intro q _ hq
      rw [mem_range] at hq
      rw [hl0 k q (by omega), hf0]
  have key : ∀ i k, i < A.rows → k < A.rows → |a (max i k) (min i k) - ∑ q ∈ range A.rows, tri .lower false l i q * tri .lower false l k q| ≤
      g * ∑ q ∈ range A.rows, |tri .lower false l i q| * |tri .lower false l k q| := by
    intro i k hi hk
    have low : ∀ i k, k ≤ i → i < A.rows → |a i k - ∑ q ∈ range A.rows, tri .lower false l i q * tri .lower false l k q| ≤
        g * ∑ q ∈ range A.rows, |tri .lower false l i q| * |tri .lower false l k q| := by
      intro i k hki hi
      rw [hsum (fun x y => x * y) (fun z => mul_zero z) i k hki hi,
        hsum (fun x y => |x| * |y|) (fun z => by rw [abs_zero, mul_zero]) i k hki hi]
      exact l3 i k hki hi (by omega)
    rcases Nat.le_total k i with h1 | h1
    · rw [max_eq_left h1, min_eq_right h1]; exact low i k h1 hi
    · rw [max_eq_right h1, min_eq_left h1]
      have := low k i h1 hk
      simp only [mul_comm (tri .lower false l k _), mul_comm |tri .lower false l k _|] at this
      exact this
  have res : ∀ i j, i < A.rows → j < B.cols → |b i j - ∑ k ∈ range A.rows, a (max i k) (min i k) * x k j| ≤
        ((1 / (1 - u)) ^ (2 * A.rows) - 1 + g) *
          ∑ q ∈ range A.rows, ∑ k ∈ range A.rows, |tri .lower false l i q| * |tri .lower false l k q| * |x k j| := by
    intro i j hi hj
    have hg' : (0 : V) ≤ (1 / (1 - u)) ^ A.rows - 1 := by
      have := Near.one_le_pow (u := bu u) buN A.rows
      rw [pow_bu'] at this
      linarith
    have := residual_compose (A := fun i k => a (max i k) (min i k)) (x := fun k => x k j) (y := fun q => y q j) (g2 := g)
      (U := fun q k => tri .lower false l k q)
      (b := fun i => b i j) hg' (i := i) (t3 i j hi hj) (fun q hq => by
        have := t4 q j hq hj
        simpa only [sw] using this) (fun k hk => key i k hi hk)
    refine le_trans this (le_of_eq ?_)
    congr 1
    rw [show 2 * A.rows = A.rows + A.rows by omega, pow_add]
    ring
  refine ⟨m4, l, x, ?_, ?_, ?_, res, ?_, fun z h1 h2 => ?_⟩
  · unfold choleskySolve
    rw [bind_ok e1, bind_ok e3]
    exact e4
  · intro i j hji hi hj
    rw [Container.addr_eq_mptr, g4 _ (notB i j (by omega) (by omega)), g3 _ (notB i j (by omega) (by omega)), ← Container.addr_eq_mptr]
    exact l1 i j hji hi hj
  · intro i j hi hj
    rw [Container.addr_eq_mptr]
    exact f4 i j (by omega) hj
  · intro i j hi hj
    refine le_trans (res i j hi hj) (mul_le_mul_of_nonneg_left ?_ ?_)
    · have diag : ∀ i, i < A.rows → ∑ q ∈ range A.rows, tri .lower false l i q * tri .lower false l i q ≤ a i i / (1 - g) := by
        intro i hi
        have h1 := key i i hi hi
        rw [max_self, min_self] at h1
        have e : ∑ q ∈ range A.rows, |tri .lower false l i q| * |tri .lower false l i q| =
            ∑ q ∈ range A.rows, tri .lower false l i q * tri .lower false l i q :=
          sum_congr rfl (fun q _ => abs_mul_abs_self _)
        rw [e] at h1
        rw [le_div_iff₀ (by linarith)]
        have := (abs_le.1 h1).1
        linarith
      rw [sum_comm]
      refine sum_le_sum (fun k hk => ?_)
      rw [← sum_mul]
      refine mul_le_mul_of_nonneg_right ?_ (abs_nonneg _)
      have d1 := diag i hi
      have d2 := diag k (mem_range.1 hk)
      have e : (a i i + a k k) / (2 * (1 - g)) = (a i i / (1 - g) + a k k / (1 - g)) / 2 := by
        have : (1 - g) ≠ 0 := by intro hz; linarith
        field_simp
      rw [e, le_div_iff₀ (by norm_num), sum_mul]
      refine le_trans ?_ (add_le_add d1 d2)
      rw [← sum_add_distrib]
      refine sum_le_sum (fun q _ => ?_)
      have := mul_self_nonneg (|tri .lower false l i q| - |tri .lower false l k q|)
      have e1 := abs_mul_abs_self (tri .lower false l i q)
      have e2 := abs_mul_abs_self (tri .lower false l k q)
      nlinarith
    · have := Near.one_le_pow (u := bu u) buN (2 * A.rows)
      rw [pow_bu'] at this
      linarith
  · have hz : ¬ Cells SS (B.mptr SS) A.rows B.cols z := fun hc => h2 ((cells_iff B z).1 (by rw [hr]; exact hc))
    rw [g4 z hz, g3 z hz, fr z h1]

end

/-! ### Concrete systems in double precision -/

/-- memory of the LU example: [[0,1],[1,0]] at 0 (spacing 4), right hand sides from 8 -/
noncomputable def luSysMem : Mem (Fl 52) := fun z =>
  if 0 ≤ z ∧ z < 8 then some (if z = 1 ∨ z = 4 then 1 else 0) else if z < 100 then some (flOf z) else none

example : ∃ m' x, luSolve 4 1 2 3 ((⟨.dynDense, .columnMajor, 2, 2, 0⟩ : Container).mptr 4)
      ((⟨.dynDense, .columnMajor, 2, 3, 8⟩ : Container).mptr 4) id luSysMem = .ok () m' ∧
    Holds 4 m' ((⟨.dynDense, .columnMajor, 2, 3, 8⟩ : Container).mptr 4) 2 3 x ∧
    (∀ i j : Nat, i < 2 → j < 3 → |flOf (8 + (i : Int) + 4 * (j : Int)) - ∑ k ∈ range 2, (if i = k then 0 else 1) * x k j| ≤
        2 * ((1 / (1 - flU 52)) ^ (2 * 2) - 1) * (((2 : Nat) : Fl 52) * (1 + flU 52) * (2 * (1 + flU 52) ^ (1 * 4 + 3)) ^ 2 * 1) *
          ∑ k ∈ range 2, |x k j|) := by
  have hu : flU 52 ≤ (1 / 10000 : Fl 52) := by
    show ((1 / 2 : ℝ) ^ (52 + 1) : ℝ) ≤ 1 / 10000
    norm_num
  have h0 : (0 : Fl 52) ≤ flU 52 := by
    show (0 : ℝ) ≤ ((1 / 2 : ℝ) ^ (52 + 1) : ℝ)
    positivity
  have al : ∀ z : Int, z < 100 → (luSysMem z).isSome = true := by
    intro z h2; unfold luSysMem; split_ifs <;> rfl
  have hl : Live 4 luSysMem ⟨.dynDense, .columnMajor, 2, 2, 0⟩ :=
    ⟨by decide, fun z hz => al z (lt_of_lt_of_le hz.2 (by decide))⟩
  have adr : ∀ i < 2, ∀ j < 2, (⟨.dynDense, .columnMajor, 2, 2, 0⟩ : Container).addr 4 i j = ((i + 4 * j : Nat) : Int) := by
    decide +kernel
  have adrB : ∀ i < 2, ∀ j < 3, (⟨.dynDense, .columnMajor, 2, 3, 8⟩ : Container).addr 4 i j = ((8 + i + 4 * j : Nat) : Int) := by
    decide +kernel
  have hap : Apart 4 ⟨.dynDense, .columnMajor, 2, 2, 0⟩ ⟨.dynDense, .columnMajor, 2, 3, 8⟩ := demo_apart (by decide)
  obtain ⟨m', x, e1, e2, e3, -⟩ := C60_lu_solve_accuracy (u := flU 52) (SS := 4) (TR := 1) (n := 2) (r := 3)
    (A := (⟨.dynDense, .columnMajor, 2, 2, 0⟩ : Container).mptr 4) (B := (⟨.dynDense, .columnMajor, 2, 3, 8⟩ : Container).mptr 4)
    (m0 := luSysMem) (a := fun i j => if i = j then 0 else 1) (b := fun i j => flOf (8 + i + 4 * j)) (μ := 1)
    (LuPre.of_live (A := ⟨.dynDense, .columnMajor, 2, 2, 0⟩) (by decide) rfl rfl hl) rfl
    (Container.inj (by decide) ⟨.dynDense, .columnMajor, 2, 3, 8⟩) (hap.disj (by decide))
    (by
      intro i j hi hj
      rw [← Container.addr_eq_mptr, adr i hi j hj]
      unfold luSysMem
      rw [if_pos (by omega)]
      congr 1
      beta_reduce
      by_cases hij : i = j
      · rw [if_pos hij, if_neg (by omega)]
      · rw [if_neg hij, if_pos (by omega)])
    (by
      intro i j hi hj
      rw [← Container.addr_eq_mptr, adrB i hi j hj]
      unfold luSysMem
      rw [if_neg (by omega), if_pos (by omega)]
      push_cast; rfl) id rfl
    (by
      intro i j _ _
      beta_reduce
      by_cases hij : i = j
      · rw [if_pos hij, abs_zero]; exact zero_le_one
      · rw [if_neg hij, abs_one])
    (by
      intro a' ha
      refine robust_swap a' (fun i j hi hj => le_trans (ha i j hi hj) ?_)
      show ((1 / (1 - flU 52)) ^ (2 * 2) - 1) * (((2 : Nat) : Fl 52) * (1 + flU 52) * (2 * (1 + flU 52) ^ (4 + 3)) ^ 2 * 1) ≤ (1 / 4 : Fl 52)
      generalize flU 52 = w at hu h0
      have h1 : ((4 : Nat) : Fl 52) * w < 1 := by push_cast; linarith
      have h2 := inv_pow_sub_one_le_gamma h0 (by linarith) 4 h1
      have h3 : ((4 : Nat) : Fl 52) * w / (1 - (4 : Nat) * w) ≤ 1 / 1000 := by
        push_cast at h1 ⊢
        rw [div_le_iff₀ (by linarith)]; linarith
      have h4 : (1 + w) ^ 15 ≤ (2 : Fl 52) := by
        have : (1 + w) ^ 15 ≤ (1 + 1 / 10000 : Fl 52) ^ 15 := pow_le_pow_left₀ (by linarith) (by linarith) 15
        refine le_trans this ?_
        norm_num
      have e : ((2 : Nat) : Fl 52) * (1 + w) * (2 * (1 + w) ^ (4 + 3)) ^ 2 * 1 = 8 * (1 + w) ^ 15 := by push_cast; ring
      rw [e]
      have h5 : (0 : Fl 52) ≤ (1 + w) ^ 15 := pow_nonneg (by linarith) 15
      have h6 : (1 / (1 - w)) ^ (2 * 2) - 1 ≤ (1 / 1000 : Fl 52) := le_trans h2 h3
      calc ((1 / (1 - w)) ^ (2 * 2) - 1) * (8 * (1 + w) ^ 15) ≤ 1 / 1000 * (8 * 2) := by
            refine mul_le_mul h6 (by linarith) (by linarith) (by norm_num)
        _ ≤ 1 / 4 := by norm_num)
  exact ⟨m', x, e1, e2, e3⟩

/-- memory of the Cholesky example: the 4×4 identity at 0 (spacing 4), right hand sides from 16 -/
noncomputable def cholSysMem : Mem (Fl 52) := fun z =>
  if 0 ≤ z ∧ z < 16 then some (if z % 5 = 0 then 1 else 0) else if z < 100 then some (flOf z) else none

example : ∃ m' l x, choleskySolve 4 1 ⟨.dynDense, .columnMajor, 4, 4, 0⟩ ⟨.dynDense, .columnMajor, 4, 4, 0⟩
      ⟨.dynDense, .columnMajor, 4, 2, 16⟩ cholSysMem = .ok () m' ∧
    ContainsLower 4 m' ⟨.dynDense, .columnMajor, 4, 4, 0⟩ l ∧ Contains 4 m' ⟨.dynDense, .columnMajor, 4, 2, 16⟩ x ∧
    (∀ i j : Nat, i < 4 → j < 2 → |flOf (16 + (i : Int) + 4 * (j : Int)) - ∑ k ∈ range 4, (if max i k = min i k then 1 else 0) * x k j| ≤
        ((1 / (1 - flU 52)) ^ (2 * 4) - 1 + ((1 / (1 - flU 52)) ^ (4 + 4) - 1)) *
          ∑ q ∈ range 4, ∑ k ∈ range 4, |tri .lower false l i q| * |tri .lower false l k q| * |x k j|) := by
  have h1 : ((1 / (1 - flU 52)) ^ (4 + 4) - 1 : Fl 52) ≤ 1 / 100 := by
    have hu : flU 52 ≤ (1 / 10000 : Fl 52) := by
      show ((1 / 2 : ℝ) ^ (52 + 1) : ℝ) ≤ 1 / 10000
      norm_num
    have h0 : (0 : Fl 52) ≤ flU 52 := by
      show (0 : ℝ) ≤ ((1 / 2 : ℝ) ^ (52 + 1) : ℝ)
      positivity
    generalize flU 52 = w at hu h0
    have h1 : ((8 : Nat) : Fl 52) * w < 1 := by push_cast; linarith
    refine le_trans (inv_pow_sub_one_le_gamma h0 (by linarith) 8 h1) ?_
    push_cast at h1 ⊢
    rw [div_le_iff₀ (by linarith)]
    linarith
  have h0 : (0 : Fl 52) ≤ (1 / (1 - flU 52)) ^ (4 + 4) - 1 := by
    have := Near.one_le_pow (u := bu (flU 52)) buN (4 + 4)
    rw [pow_bu'] at this
    linarith
  have al : ∀ z : Int, z < 100 → (cholSysMem z).isSome = true := by
    intro z h2; unfold cholSysMem; split_ifs <;> rfl
  have hl : Live 4 cholSysMem ⟨.dynDense, .columnMajor, 4, 4, 0⟩ :=
    ⟨by decide, fun z hz => al z (lt_of_lt_of_le hz.2 (by decide))⟩
  have adr : ∀ i < 4, ∀ j < 4, (⟨.dynDense, .columnMajor, 4, 4, 0⟩ : Container).addr 4 i j = ((i + 4 * j : Nat) : Int) := by
    decide +kernel
  have adrB : ∀ i < 4, ∀ j < 2, (⟨.dynDense, .columnMajor, 4, 2, 16⟩ : Container).addr 4 i j = ((16 + i + 4 * j : Nat) : Int) := by
    decide +kernel
  obtain ⟨m', l, x, e1, e2, e3, e4, -⟩ := C60_cholesky_solve_accuracy (u := flU 52) (SS := 4) (TR := 1) (m0 := cholSysMem)
    (A := ⟨.dynDense, .columnMajor, 4, 4, 0⟩) (L := ⟨.dynDense, .columnMajor, 4, 4, 0⟩) (B := ⟨.dynDense, .columnMajor, 4, 2, 16⟩)
    ⟨by decide, rfl, rfl, hl, hl, Or.inl rfl⟩ (by decide) (potrfFits_square (by decide) (Or.inl (by decide))) rfl rfl
    (demo_apart (by decide)) (a := fun i j => if i = j then 1 else 0) (b := fun i j => flOf (16 + i + 4 * j))
    (by
      intro i j hji hi hj
      have hi : i < 4 := hi
      have hj : j < 4 := hj
      rw [adr i hi j hj]
      unfold cholSysMem
      rw [if_pos (by omega)]
      congr 1
      beta_reduce
      by_cases h : i = j
      · rw [if_pos (by omega), if_pos h]
      · rw [if_neg (by omega), if_neg h])
    (by
      intro i j hi hj
      have hi : i < 4 := hi
      have hj : j < 2 := hj
      rw [adrB i hi j hj]
      unfold cholSysMem
      rw [if_neg (by omega), if_pos (by omega)]
      push_cast; rfl) rfl
    (by show (1 / (1 - flU 52)) ^ (4 + 4) - 1 < (1 : Fl 52); linarith)
    (by
      show ((4 : Nat) : Fl 52) * ((1 / (1 - flU 52)) ^ (4 + 4) - 1) * (1 + ((1 / (1 - flU 52)) ^ (4 + 4) - 1)) ≤
        (1 - ((1 / (1 - flU 52)) ^ (4 + 4) - 1)) * (1 - ((1 / (1 - flU 52)) ^ (4 + 4) - 1))
      push_cast
      generalize ((1 / (1 - flU 52)) ^ (4 + 4) - 1 : Fl 52) = g at h1 h0
      nlinarith)
    (by
      refine identity_posdef_by ?_
      show ((4 : Nat) : Fl 52) * ((1 / (1 - flU 52)) ^ (4 + 4) - 1) / (1 - ((1 / (1 - flU 52)) ^ (4 + 4) - 1)) < 1
      push_cast
      generalize ((1 / (1 - flU 52)) ^ (4 + 4) - 1 : Fl 52) = g at h1 h0
      rw [div_lt_one (by linarith)]; linarith)
  exact ⟨m', l, x, e1, e2, e3, e4⟩

end Blast
