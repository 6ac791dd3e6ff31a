import Verif.Props.Lu
import Verif.Props.TrsmDense
import Verif.Props.Potrf
/- Concrete cases meeting the hypotheses of these theorems: Verif/Cases/Storage.lean, and the examples in this file. -/
/-
Property C50: solving systems of linear equations with getrf, laswp, trsm (LU) and with potrf, trsm (Cholesky).
-/
set_option linter.unusedSectionVars false
namespace Blast
open Finset Prog
variable {V : Type}

/-- every row of the matrix occurs among the permuted rows -/
theorem rowPerm_surj {p : Nat → Nat} {k0 t m : Nat} (hp : ∀ q, k0 ≤ q → q < k0 + t → p q < m) (hm : k0 + t ≤ m) {i : Nat}
    (hi : i < m) : ∃ i', i' < m ∧ rowPerm p k0 t i' = i := by
  induction t with
  | zero => exact ⟨i, hi, rfl⟩
  | succ t ih =>
    obtain ⟨j, h1, h2⟩ := ih (fun q a b => hp q a (by omega)) (by omega)
    refine ⟨swapIdx (k0 + t) (p (k0 + t)) j, ?_, ?_⟩
    · exact (swapIdx_bounds (k := 0) ⟨by omega, by omega⟩ ⟨by omega, hp _ (by omega) (by omega)⟩ ⟨by omega, h1⟩).2
    · show rowPerm p k0 t (swapIdx _ _ (swapIdx _ _ j)) = i
      rw [swapIdx_invol, h2]

theorem bind_throw [Arith V] {α β : Type} {p : Prog V α} {f : α → Prog V β} {m m' : Mem V} {e : Exn} (h : p m = .throw e m') :
    (p >>= f) m = .throw e m' := by
  show bind' p f m = _
  unfold bind'; rw [h]

/-- A user's program: factorize A, apply the row interchanges to B, forward and backward substitution:
`getrf(A, ipiv); laswp(B, 0, n, ipiv); trsm<Lower, Unit>(A, B, B); trsm<Upper, NonUnit>(A, B, B);` with an n×n matrix A and
a matrix B of `r` columns. (Not a function of the library; it composes Getrf.hpp 30-75, Laswp.hpp 37-43, Trsm.hpp 24-82.) -/
def luSolve [Arith V] (SS TR n r : Nat) (A B : MPtr) (ip : Nat → Nat) : Prog V Unit := do
  let p ← getrfPtr SS TR n n A ip
  laswp SS r B 0 n p
  trsmPtr SS n r .lower true A B B
  trsmPtr SS n r .upper false A B B

section
variable [Field V] [LinearOrder V] [IsStrictOrderedRing V] [Arith V] [ExactOrd V]

/-- **C50**. For every invertible matrix A and every matrix B, stored in arbitrary dense layouts, the sequence getrf, laswp, trsm,
trsm returns and leaves in B the solution X of `A*X = B`; apart from A and B nothing changes. -/
theorem C50_lu_solve {SS TR n r : Nat} {A B : MPtr} {m0 : Mem V} (hp : GetrfPre SS TR n n A m0) (hd : B.panel = false)
    (hinj : Inj SS B n r) (hdis : Disj SS A n n B n r)
    {a b : Nat → Nat → V} (ha : Holds SS m0 A n n a) (hb : Holds SS m0 B n r b) (ip : Nat → Nat)
    (hdet : (Matrix.of (fun i j : Fin n => a i j)).det ≠ 0) :
    ∃ m' x, luSolve SS TR n r A B ip m0 = .ok () m' ∧ Holds SS m' B n r x ∧
      (∀ i j, i < n → j < r → ∑ k ∈ range n, a i k * x k j = b i j) ∧
      (∀ z, ¬ Cells SS A n n z → ¬ Cells SS B n r z → m' z = m0 z) := by
  have hSS := hp.ss
  have ho := getrf_outcome hp ha ip
  rw [← colsIndep_iff_det] at hdet
  obtain ⟨p, m1, e1⟩ := ho.full (by rw [Nat.min_self]; exact hdet)
  obtain ⟨c, c1, c2, c3, -, -, c6, c7⟩ := ho.ret p m1 e1
  rw [Nat.min_self] at c3 c6
  have notA : ∀ i j : Nat, i < n → j < r → ¬ Cells SS A n n (B.addr SS i j) := by
    rintro i j hi hj ⟨i', j', hi', hj', he⟩
    exact hdis i' j' i j hi' hj' hi hj he.symm
  have notB : ∀ i j : Nat, i < n → j < n → ¬ Cells SS B n r (A.addr SS i j) := by
    rintro i j hi hj ⟨i', j', hi', hj', he⟩
    exact hdis i j i' j' hi hj hi' hj' he
  have hb1 : Holds SS m1 B n r b := fun i j hi hj => by rw [c7 _ (notA i j hi hj)]; exact hb i j hi hj
  obtain ⟨m2, e2, f2, g2⟩ := C24_laswp hSS hd hb1 hinj (Nat.zero_le n) (Nat.le_refl n) (ipiv := p)
    (fun q _ hq => (c3 q hq).2)
  have ha2 : Holds SS m2 A n n c := fun i j hi hj => by rw [g2 _ (notB i j hi hj)]; exact c1 i j hi hj
  have self : SameOrDisj SS B B n r := fun i j i' j' h1 h2 h3 h4 he => hinj i j i' j' h1 h2 h3 h4 he
  obtain ⟨m3, y, e3, f3, s3, g3⟩ := C27_trsm_solves (SS := SS) (m := n) (n := r) (A := A) (X := B) (B := B) .lower true
    (mem := m2) (a := c) (fun i k hi hk _ => ⟨ha2 i k hi hk, notB i k hi hk⟩) (fun h => by cases h)
    (fun i j hi hj => by rw [f2 i j hi hj]; rfl) hinj f2 self
  have ha3 : Holds SS m3 A n n c := fun i j hi hj => by rw [g3 _ (notB i j hi hj)]; exact ha2 i j hi hj
  obtain ⟨m4, x, e4, f4, s4, g4⟩ := C27_trsm_solves (SS := SS) (m := n) (n := r) (A := A) (X := B) (B := B) .upper false
    (mem := m3) (a := c) (fun i k hi hk _ => ⟨ha3 i k hi hk, notB i k hi hk⟩) (fun _ i hi => c6 i hi)
    (fun i j hi hj => by rw [f3 i j hi hj]; rfl) hinj f3 self
  refine ⟨m4, x, ?_, f4, ?_, fun z h1 h2 => ?_⟩
  · unfold luSolve
    rw [bind_ok e1, bind_ok e2, bind_ok e3]
    exact e4
  · intro i j hi hj
    have perm : ∀ i', i' < n → ∑ k ∈ range n, a (rowPerm p 0 n i') k * x k j = b (rowPerm p 0 n i') j := by
      intro i' hi'
      have h1 := s3 i' j hi' hj
      rw [Nat.sub_zero, rowSwaps_eq] at h1
      rw [← h1]
      have h2 : ∀ k, k < n → a (rowPerm p 0 n i') k =
          ∑ q ∈ range n, tri .lower true c i' q * tri .upper false c q k := by
        intro k hk
        have := c2 i' k hi' hk
        rw [Nat.min_self, rowSwaps_eq] at this
        exact this.symm
      rw [sum_congr rfl (fun k hk => by rw [h2 k (mem_range.1 hk), sum_mul]), sum_comm]
      refine sum_congr rfl (fun q hq => ?_)
      rw [← s4 q j (mem_range.1 hq) hj, mul_sum]
      exact sum_congr rfl (fun k _ => by ring)
    obtain ⟨i', h1, h2⟩ := rowPerm_surj (p := p) (k0 := 0) (t := n) (m := n) (fun q _ hq => (c3 q (by omega)).2) (by omega) hi
    have := perm i' h1
    rwa [h2] at this
  · rw [g4 z h2, g3 z h2, g2 z h2, c7 z h1]

/-- **C50** (singular matrices): if A is singular, the sequence throws std::invalid_argument and B is what it was. -/
theorem C50_lu_solve_singular {SS TR n r : Nat} {A B : MPtr} {m0 : Mem V} (hp : GetrfPre SS TR n n A m0)
    {a : Nat → Nat → V} (ha : Holds SS m0 A n n a) (ip : Nat → Nat)
    (hdet : (Matrix.of (fun i j : Fin n => a i j)).det = 0) :
    ∃ m', luSolve SS TR n r A B ip m0 = .throw .invalidArgument m' ∧ (∀ z, ¬ Cells SS A n n z → m' z = m0 z) := by
  have ho := getrf_outcome hp ha ip
  obtain ⟨m1, e1, e2⟩ := ho.sing (by rw [Nat.min_self, colsIndep_iff_det]; simpa using hdet)
  refine ⟨m1, ?_, e2⟩
  unfold luSolve
  exact bind_throw e1

/-- **C50** for blast matrices (DynamicMatrix/StaticMatrix, A column-major, B of either storage order, tile size = SIMD width). -/
theorem C50_lu_solve_matrices {SS : Nat} (hSS : 0 < SS) {m0 : Mem V} {A B : Container}
    (dA : A.isPanel = false) (dB : B.isPanel = false) (sA : A.so = .columnMajor) (lA : Live SS m0 A)
    (hap : Apart SS A B) (hsq : A.cols = A.rows) (hr : B.rows = A.rows)
    {a b : Nat → Nat → V} (ha : Contains SS m0 A a) (hb : Contains SS m0 B b) (ip : Nat → Nat)
    (hdet : (Matrix.of (fun i j : Fin A.rows => a i j)).det ≠ 0) :
    ∃ m' x, luSolve SS 1 A.rows B.cols (A.mptr SS) (B.mptr SS) ip m0 = .ok () m' ∧ Contains SS m' B x ∧
      (∀ i j, i < A.rows → j < B.cols → ∑ k ∈ range A.rows, a i k * x k j = b i j) ∧
      (∀ z, ¬ IsElem SS A z → ¬ IsElem SS B z → m' z = m0 z) := by
  have hp := LuPre.of_live hSS dA sA lA
  rw [hsq] at hp
  obtain ⟨m', x, h1, h2, h3, h4⟩ := C50_lu_solve (r := B.cols) (B := B.mptr SS) hp
    (by rw [Container.mptr_eq]; exact dB) (by have := B.inj hSS; rwa [hr] at this)
    (by have := hap.disj hSS; rwa [hr, hsq] at this)
    (by have := ha.holds; rwa [hsq] at this) (by have := hb.holds; rwa [hr] at this) ip hdet
  refine ⟨m', x, h1, ?_, h3, fun z hz1 hz2 => h4 z (fun hc => hz1 ((cells_iff A z).1 (by rw [hsq]; exact hc)))
    (fun hc => hz2 ((cells_iff B z).1 (by rw [hr]; exact hc)))⟩
  intro i j hi hj
  rw [Container.addr_eq_mptr]
  exact h2 i j (by omega) hj
end

/-- A user's program: solve with the Cholesky factorization:
`potrf(A, L); trsm<Lower, NonUnit>(L, B, B); trsm<Upper, NonUnit>(trans(L), B, B);`
(composes dense/Potrf.hpp 97-131, Trsm.hpp 24-82; `trans` of the pointer: DynamicMatrixPointer.hpp / StaticMatrixPointer.hpp). -/
def choleskySolve [Arith V] (SS TR : Nat) (A L B : Container) : Prog V Unit := do
  potrfDenseCall SS TR A L
  trsmPtr SS A.rows B.cols .lower false (L.mptr SS) (B.mptr SS) (B.mptr SS)
  trsmPtr SS A.rows B.cols .upper false ((L.mptr SS).trans SS) (B.mptr SS) (B.mptr SS)

/-- **C50** (Cholesky). If the lower triangle of A is that of a symmetric positive definite matrix S, then potrf followed by the
two substitutions returns and leaves in B the solution X of `S*X = B`. L may be A; only lower triangles are ever used. -/
theorem C50_cholesky_solve [Field V] [LinearOrder V] [IsStrictOrderedRing V] [Arith V] [ExactSqrt V] {SS TR : Nat}
    {m0 : Mem V} {A L B : Container} (h : PotrfArgs SS m0 A L) (hs : PotrfSizes A L) (hf : PotrfFits SS TR 4 A L)
    (hsq : A.cols = A.rows) (hr : B.rows = A.rows) (hap : Apart SS L B)
    {a b : Nat → Nat → V} (ha : ContainsLower SS m0 A a) (hb : Contains SS m0 B b) (hpd : LowerPosDef A.rows a) :
    ∃ m' x, choleskySolve SS TR A L B m0 = .ok () m' ∧ Contains SS m' B x ∧
      (∀ i j, i < A.rows → j < B.cols → ∑ k ∈ range A.rows, a (max i k) (min i k) * x k j = b i j) ∧
      (∀ z, ¬ L.Storage SS z → ¬ IsElem SS B z → m' z = m0 z) := by
  have hSS := h.ss
  obtain ⟨m1, e1, l, l1, l2, l3⟩ := C15_potrf_dense_cholesky h hs hf ha (by rw [hsq]; exact hpd)
  obtain ⟨m1', e1', fr, -⟩ := C16_potrf_dense_frame h hs hf
  rw [e1] at e1'
  injection e1' with _ e1'
  subst e1'
  obtain ⟨s1, s2, s3⟩ := hs
  have dis := hap.disj hSS
  rw [s2, s3, hsq, hr] at dis
  have hinj := B.inj hSS
  rw [hr] at hinj
  have notB : ∀ i j : Nat, i < A.rows → j < A.rows → ¬ Cells SS (B.mptr SS) A.rows B.cols ((L.mptr SS).addr SS i j) := by
    rintro i j hi hj ⟨i', j', hi', hj', he⟩
    exact dis i j i' j' hi hj hi' hj' he
  have lat : ∀ i j : Nat, j ≤ i → i < A.rows → m1 ((L.mptr SS).addr SS i j) = some (l i j) := by
    intro i j hj hi
    rw [← Container.addr_eq_mptr]
    exact l1 i j hj (by omega) (by omega)
  have hb1 : Holds SS m1 (B.mptr SS) A.rows B.cols b := by
    intro i j hi hj
    rw [← Container.addr_eq_mptr, fr _ (fun hc => hap _ hc (B.addr_storage hSS (by omega) hj))]
    exact hb i j (by omega) hj
  have self : SameOrDisj SS (B.mptr SS) (B.mptr SS) A.rows B.cols := fun i j i' j' h1 h2 h3 h4 he =>
    hinj i j i' j' h1 h2 h3 h4 he
  have nz : ∀ i, i < A.rows → l i i ≠ 0 := fun i hi => ne_of_gt (l2 i (by omega))
  obtain ⟨m3, y, e3, f3, t3, g3⟩ := C27_trsm_solves (SS := SS) (m := A.rows) (n := B.cols) (A := L.mptr SS) (X := B.mptr SS)
    (B := B.mptr SS) .lower false (mem := m1) (a := l)
    (fun i k hi hk hr => ⟨lat i k (by unfold TriRef at hr; simp at hr; omega) hi, notB i k hi hk⟩)
    (fun _ => nz) (fun i j hi hj => by rw [hb1 i j hi hj]; rfl) hinj hb1 self
  obtain ⟨m4, x, e4, f4, t4, g4⟩ := C27_trsm_solves (SS := SS) (m := A.rows) (n := B.cols) (A := (L.mptr SS).trans SS)
    (X := B.mptr SS) (B := B.mptr SS) .upper false (mem := m3) (a := fun i j => l j i)
    (fun i k hi hk hr => by
      have hik : i ≤ k := by unfold TriRef at hr; simp at hr; omega
      rw [MPtr.trans_addr hSS]
      exact ⟨by rw [g3 _ (notB k i hk hi)]; exact lat k i hik hk, notB k i hk hi⟩)
    (fun _ => nz) (fun i j hi hj => by rw [f3 i j hi hj]; rfl) hinj f3 self
  refine ⟨m4, x, ?_, ?_, ?_, fun z h1 h2 => ?_⟩
  · unfold choleskySolve
    rw [bind_ok e1, bind_ok e3]
    exact e4
  · intro i j hi hj
    rw [Container.addr_eq_mptr]
    exact f4 i j (by omega) hj
  · -- S = L Lᵀ
    have key : ∀ i k, i < A.rows → k < A.rows → a (max i k) (min i k) =
        ∑ q ∈ range A.rows, tri .lower false l i q * tri .upper false (fun i j => l j i) q k := by
      have low : ∀ i k, k ≤ i → i < A.rows →
          ∑ q ∈ range A.rows, tri .lower false l i q * tri .upper false (fun i j => l j i) q k = a i k := by
        intro i k hki hi
        rw [sum_lower _ (show k < A.rows by omega) (fun q hq => by rw [tri_upper_zero hq, mul_zero]), ← l3 i k hki hi (by omega),
          sum_range_succ]
        have hl : ∀ q, q ≤ k → tri .lower false l i q = l i q := by
          intro q hq
          rcases Nat.lt_or_eq_of_le (show q ≤ i by omega) with h1 | h1
          · exact tri_lower h1
          · rw [h1, tri_diag]; rfl
        rw [hl k (le_refl _), tri_diag]
        congr 1
        refine sum_congr rfl (fun q hq => ?_)
        have := mem_range.1 hq
        rw [hl q (by omega), tri_upper this]
      intro i k hi hk
      rcases Nat.le_total k i with h1 | h1
      · rw [max_eq_left h1, min_eq_right h1, low i k h1 hi]
      · rw [max_eq_right h1, min_eq_left h1, ← low k i h1 hk]
        refine sum_congr rfl (fun q _ => ?_)
        have sw : ∀ i q, tri .lower false l i q = tri .upper false (fun i j => l j i) q i := by
          intro i q
          unfold tri
          by_cases hq : i = q
          · subst hq; simp
          · rw [if_neg hq, if_neg (Ne.symm hq)]
        rw [sw k q, ← sw i q, mul_comm]
    intro i j hi hj
    rw [← t3 i j hi hj, sum_congr rfl (fun k hk => by rw [key i k hi (mem_range.1 hk), sum_mul]), sum_comm]
    refine sum_congr rfl (fun q hq => ?_)
    rw [← t4 q j (mem_range.1 hq) hj, mul_sum]
    exact sum_congr rfl (fun k _ => by ring)
  · have hz : ¬ Cells SS (B.mptr SS) A.rows B.cols z := fun hc => h2 ((cells_iff B z).1 (by rw [hr]; exact hc))
    rw [g4 z hz, g3 z hz, fr z h1]

/-! ### Examples -/

/-- C50: a 2×2 system with the matrix ((200,204),(201,205)) and three right hand sides, stored row-major -/
example : ∃ m' x, luSolve 4 1 2 3 ((⟨.dynDense, .columnMajor, 2, 2, 200⟩ : Container).mptr 4)
      ((⟨.statDense, .rowMajor, 2, 3, 300⟩ : Container).mptr 4) (fun _ => 0) demoMem = .ok () m' ∧
    Contains 4 m' ⟨.statDense, .rowMajor, 2, 3, 300⟩ x ∧
    (∀ i j, i < 2 → j < 3 → ∑ k ∈ range 2, (((200 + i + 4 * k : Nat) : Rat)) * x k j = ((300 + 4 * i + j : Nat) : Rat)) := by
  have cont : ∀ (c : Container) (f : Nat → Nat → Nat), (∀ i j, i < c.rows → j < c.cols → c.addr 4 i j = (f i j : Int)) →
      (∀ i j, i < c.rows → j < c.cols → f i j < 1000) → Contains 4 demoMem c (fun i j => (f i j : Rat)) := by
    intro c f h1 h2 i j hi hj
    rw [h1 i j hi hj]
    have := h2 i j hi hj
    unfold demoMem
    rw [if_pos (by omega)]
    simp
  obtain ⟨m', x, h1, h2, h3, -⟩ := C50_lu_solve_matrices (V := Rat) (SS := 4) (by decide) (m0 := demoMem)
    (A := ⟨.dynDense, .columnMajor, 2, 2, 200⟩) (B := ⟨.statDense, .rowMajor, 2, 3, 300⟩) rfl rfl rfl
    (demo_live (by decide) (by decide) (by decide)) (demo_apart (by decide)) rfl rfl
    (cont _ (fun i j => 200 + i + 4 * j)
      (by have : ∀ i < 2, ∀ j < 2, (⟨.dynDense, .columnMajor, 2, 2, 200⟩ : Container).addr 4 i j = ((200 + i + 4 * j : Nat) : Int) := by
            decide +kernel
          exact fun i j hi hj => this i hi j hj)
      (by intro i j hi hj; simp at hi hj; omega))
    (cont _ (fun i j => 300 + 4 * i + j)
      (by have : ∀ i < 2, ∀ j < 3, (⟨.statDense, .rowMajor, 2, 3, 300⟩ : Container).addr 4 i j = ((300 + 4 * i + j : Nat) : Int) := by
            decide +kernel
          exact fun i j hi hj => this i hi j hj)
      (by intro i j hi hj; simp at hi hj; omega)) (fun _ => 0)
    (by
      rw [Matrix.det_fin_two]
      simp [Matrix.of_apply]
      norm_num)
  exact ⟨m', x, h1, h2, h3⟩

/-- ones plus the identity -/
theorem onesPlusOne_posdef (n : Nat) : LowerPosDef (V := ℝ) n (fun i j => if i = j then 2 else 1) := by
  intro x ⟨i0, hi0, hx⟩
  have e : ∀ i ∈ range n, ∑ j ∈ range n, x i * (if max i j = min i j then (2 : ℝ) else 1) * x j =
      x i * x i + x i * ∑ j ∈ range n, x j := by
    intro i hi
    have : ∀ j ∈ range n, x i * (if max i j = min i j then (2 : ℝ) else 1) * x j =
        (if i = j then x i * x i else 0) + x i * x j := by
      intro j _
      by_cases h : i = j
      · subst h; simp; ring
      · rw [if_neg (by omega), if_neg h]; ring
    rw [sum_congr rfl this, sum_add_distrib, sum_ite_eq, if_pos hi, mul_sum]
  rw [sum_congr rfl e, sum_add_distrib, ← sum_mul]
  have h1 : 0 < ∑ i ∈ range n, x i * x i :=
    sum_pos' (fun i _ => mul_self_nonneg _) ⟨i0, mem_range.2 hi0, mul_self_pos.2 hx⟩
  have h2 := mul_self_nonneg (∑ i ∈ range n, x i)
  linarith

/-- memory of the Cholesky example: a 4×4 matrix of ones plus identity at 0, right hand sides at 16 -/
noncomputable def cholMem : Mem ℝ := fun z => if 0 ≤ z ∧ z < 16 then some (if z % 5 = 0 then 2 else 1) else if z < 100 then some z else none

/-- C50: a 4×4 positive definite system, factorized in place, two right hand sides -/
example : ∃ m' x, choleskySolve 4 1 ⟨.dynDense, .columnMajor, 4, 4, 0⟩ ⟨.dynDense, .columnMajor, 4, 4, 0⟩
      ⟨.dynDense, .columnMajor, 4, 2, 16⟩ cholMem = .ok () m' ∧ Contains 4 m' ⟨.dynDense, .columnMajor, 4, 2, 16⟩ x ∧
    (∀ i j, i < 4 → j < 2 → ∑ k ∈ range 4, (if max i k = min i k then (2 : ℝ) else 1) * x k j = ((16 + i + 4 * j : Nat) : ℝ)) := by
  have al : ∀ z : Int, z < 100 → (cholMem z).isSome = true := by
    intro z h2; unfold cholMem; split_ifs <;> rfl
  have hl : Live 4 cholMem ⟨.dynDense, .columnMajor, 4, 4, 0⟩ :=
    ⟨by decide, fun z hz => al z (lt_of_lt_of_le hz.2 (by decide))⟩
  have adr : ∀ i < 4, ∀ j < 4, (⟨.dynDense, .columnMajor, 4, 4, 0⟩ : Container).addr 4 i j = ((i + 4 * j : Nat) : Int) := by
    decide +kernel
  have adrB : ∀ i < 4, ∀ j < 2, (⟨.dynDense, .columnMajor, 4, 2, 16⟩ : Container).addr 4 i j = ((16 + i + 4 * j : Nat) : Int) := by
    decide +kernel
  obtain ⟨m', x, h1, h2, h3, -⟩ := C50_cholesky_solve (V := ℝ) (SS := 4) (TR := 1) (m0 := cholMem)
    (A := ⟨.dynDense, .columnMajor, 4, 4, 0⟩) (L := ⟨.dynDense, .columnMajor, 4, 4, 0⟩) (B := ⟨.dynDense, .columnMajor, 4, 2, 16⟩)
    ⟨by decide, rfl, rfl, hl, hl, Or.inl rfl⟩ (by decide) (potrfFits_square (by decide) (Or.inl (by decide))) rfl rfl
    (demo_apart (by decide)) (a := fun i j => if i = j then 2 else 1) (b := fun i j => ((16 + i + 4 * j : Nat) : ℝ))
    (by
      intro i j hji hi hj
      have hi : i < 4 := hi
      have hj : j < 4 := hj
      rw [adr i hi j hj]
      unfold cholMem
      rw [if_pos (by omega)]
      by_cases h : i = j
      · rw [if_pos (by omega)]; beta_reduce; rw [if_pos h]
      · rw [if_neg (by omega)]; beta_reduce; rw [if_neg h])
    (by
      intro i j hi hj
      have hi : i < 4 := hi
      have hj : j < 2 := hj
      rw [adrB i hi j hj]
      unfold cholMem
      rw [if_neg (by omega), if_pos (by omega)]
      simp) (onesPlusOne_posdef 4)
  exact ⟨m', x, h1, h2, h3⟩

end Blast
