import Verif.MatForm
/-
**C79**, **C80**, **C81**: what the routines compute, stated with Mathlib's matrices: product, transpose, inverse,
determinant, permutation of rows, positive definiteness (exact arithmetic).
-/
set_option linter.unusedSectionVars false
namespace Blast
open Finset Prog Reg
variable {V : Type}

/-! ### C79: products -/

section
variable [CommRing V] [Arith V] [ExactRing V]

/-- **C79** (gemm): `D := alpha A B + beta C`. -/
theorem C79_gemm {SS M N K : Nat} {m : Mem V} {A B C D : Container} (alpha beta : V) (h : GemmArgs SS m A B C D)
    {a : Matrix (Fin M) (Fin K) V} {b : Matrix (Fin K) (Fin N) V} {c : Matrix (Fin M) (Fin N) V}
    (ha : IsMat SS m A a) (hb : IsMat SS m B b) (hc : IsMat SS m C c) (hr : D.rows = M) (hn : D.cols = N) :
    ∃ m', gemmCall SS alpha A B beta C D m = .ok () m' ∧ IsMat SS m' D (alpha • (a * b) + beta • c) ∧
      OnlyElemsChange SS m m' D := by
  have hs : GemmSizes A B C D := by
    refine ⟨by rw [hb.rows, ha.cols], ⟨by rw [hc.rows, ha.rows], by rw [hc.cols, hb.cols]⟩, by rw [hr, ha.rows], by rw [hn, hb.cols]⟩
  obtain ⟨m', e, h'⟩ := C01_gemm_value alpha beta h hs ha.contains hb.contains hc.contains
  obtain ⟨m2, e2, h2⟩ := C02_gemm_frame alpha beta h hs
  rw [e] at e2
  obtain rfl : m' = m2 := by injection e2
  refine ⟨m', e, IsMat.of hr hn h' (fun i j => ?_), h2⟩
  rw [ha.cols, sum_ext, ext_fin]
  simp [Matrix.add_apply, Matrix.smul_apply, smul_eq_mul]

/-- **C79** (ger): `B := A + alpha x yᵀ`. -/
theorem C79_ger {SS M N : Nat} {m : Mem V} {x y : VObj} {A B : Container} (alpha : V) (h : GerArgs SS m x y A B)
    {xv : Fin M → V} {yv : Fin N → V} {a : Matrix (Fin M) (Fin N) V} (hx : IsVec m x xv) (hy : IsVec m y yv)
    (ha : IsMat SS m A a) (hr : B.rows = M) (hn : B.cols = N) :
    ∃ m', gerCall SS 1 alpha x y A B m = .ok () m' ∧ IsMat SS m' B (a + alpha • Matrix.vecMulVec xv yv) ∧
      OnlyElemsChange SS m m' B := by
  have hs : GerSizes x y A B :=
    ⟨⟨by rw [ha.rows, hx.size], by rw [ha.cols, hy.size]⟩, by rw [hr, hx.size], by rw [hn, hy.size]⟩
  obtain ⟨m', e, h', h2⟩ := C09_ger_value alpha h hs hx.contains hy.contains ha.contains
  refine ⟨m', e, IsMat.of hr hn h' (fun i j => ?_), h2⟩
  simp [Matrix.add_apply, Matrix.smul_apply, Matrix.vecMulVec_apply, mul_assoc]

/-- **C79** (syrk): the lower triangle of D becomes that of `alpha A Aᵀ + beta C`, of which only the lower triangle is
read; nothing else changes. -/
theorem C79_syrk {SS n K : Nat} {m : Mem V} {A C D : Container} (alpha beta : V) (h : SyrkArgs SS m A C D)
    {a : Matrix (Fin n) (Fin K) V} {c : Matrix (Fin n) (Fin n) V} (ha : IsMat SS m A a) (hc : IsMatLower SS m C c)
    (hr : D.rows = n) (hn : D.cols = n) :
    ∃ m', syrkCall SS 1 alpha A beta C D m = .ok () m' ∧ IsMatLower SS m' D (alpha • (a * a.transpose) + beta • c) ∧
      (∀ x, ¬ IsLowerElem SS D x → m' x = m x) := by
  have hs : SyrkSizes A C D :=
    ⟨⟨by rw [hc.rows, ha.rows], by rw [hc.cols, ha.rows]⟩, by rw [hr, ha.rows], by rw [hn, ha.rows]⟩
  obtain ⟨m', e, h', h2⟩ := C10_syrk_value (c := ext c) alpha beta h hs ha.contains (fun i j hi hj => by
    rw [hc.rows] at hi
    rw [ext_of_lt c hi (by omega)]; exact hc.entry ⟨i, hi⟩ ⟨j, by omega⟩ hj)
  refine ⟨m', e, ⟨hr, hn, fun i j hij => ?_⟩, h2⟩
  rw [h' i j (by rw [hr]; exact i.2) hij, ha.cols, ext_fin]
  have : ∑ k ∈ range K, ext a i k * ext a j k = (a * a.transpose) i j := by
    rw [Finset.sum_range, Matrix.mul_apply]
    exact Finset.sum_congr rfl (fun k _ => by rw [ext_fin, ext_fin, Matrix.transpose_apply])
  rw [this]
  simp [Matrix.add_apply, Matrix.smul_apply, smul_eq_mul, add_comm]

/-- **C79** (trmm, triangular matrix on the left): `C := alpha A B` for an upper triangular A. -/
theorem C79_trmm_left {SS n r : Nat} {m : Mem V} {A B C : Container} (alpha : V) (h : TrmmLArgs SS m A B C)
    {a : Matrix (Fin n) (Fin n) V} {b : Matrix (Fin n) (Fin r) V} (ha : IsMat SS m A a) (hz : a.IsUpperTriangular)
    (hb : IsMat SS m B b) (hr : C.rows = n) (hn : C.cols = r) :
    ∃ m', trmmLeftCall SS 1 alpha A .upper false B C m = .ok () m' ∧ IsMat SS m' C (alpha • (a * b)) ∧
      OnlyElemsChange SS m m' C := by
  have hs : TrmmLSizes A B C :=
    ⟨⟨by rw [ha.rows, hb.rows], by rw [ha.cols, hb.rows]⟩, by rw [hr, hb.rows], by rw [hn, hb.cols]⟩
  obtain ⟨m', e, h', h2⟩ := C11_trmm_left_value alpha h hs ha.contains (fun i k hk => by
    unfold ext
    split
    · exact hz hk
    · rfl) hb.contains
  refine ⟨m', e, IsMat.of hr hn h' (fun i j => ?_), h2⟩
  rw [hb.rows, sum_ext]
  simp [Matrix.smul_apply, smul_eq_mul]

/-- **C79** (trmm, triangular matrix on the right): `C := alpha B lower(A)`; the elements of A above the diagonal do not
matter. -/
theorem C79_trmm_right {SS n r : Nat} {m : Mem V} {B A C : Container} (alpha : V) (h : TrmmRArgs SS m B A C)
    {a : Matrix (Fin n) (Fin n) V} {b : Matrix (Fin r) (Fin n) V} (ha : IsMatLower SS m A a)
    (hb : IsMat SS m B b) (hr : C.rows = r) (hn : C.cols = n) :
    ∃ m', trmmRightCall SS 1 alpha B A .lower false C m = .ok () m' ∧ IsMat SS m' C (alpha • (b * lowerPart a)) ∧
      OnlyElemsChange SS m m' C := by
  have hs : TrmmRSizes B A C :=
    ⟨⟨by rw [ha.rows, hb.cols], by rw [ha.cols, hb.cols]⟩, by rw [hr, hb.rows], by rw [hn, hb.cols]⟩
  obtain ⟨m', e, h', h2⟩ := C13_trmm_right_value (a := ext a) alpha h hs (fun k j hj hk => by
    rw [ha.rows] at hk
    rw [ext_of_lt a hk (by omega)]; exact ha.entry ⟨k, hk⟩ ⟨j, by omega⟩ hj) hb.contains
  refine ⟨m', e, IsMat.of hr hn h' (fun i j => ?_), h2⟩
  rw [hb.cols]
  have : ∑ k ∈ range n, ext b i k * tri .lower false (ext a) k j = (b * lowerPart a) i j := by
    rw [Finset.sum_range, Matrix.mul_apply]
    exact Finset.sum_congr rfl (fun k _ => by rw [ext_fin, tri_ext, triPart_lower])
  rw [this]
  simp [Matrix.smul_apply, smul_eq_mul]

/-- **C79** (any bracketing): two gemm calls that compute `(A B) C` and two that compute `A (B C)` leave the same matrix.
The intermediate and final results are stored in matrix objects of any kind. -/
theorem C79_gemm_assoc {SS M N K L : Nat} {m : Mem V} {A B C X Y D E : Container} {a : Matrix (Fin M) (Fin N) V}
    {b : Matrix (Fin N) (Fin K) V} {c : Matrix (Fin K) (Fin L) V}
    (ha : IsMat SS m A a) (hb : IsMat SS m B b) (hc : IsMat SS m C c)
    (h1 : GemmArgs SS m A B X X) (h2 : GemmArgs SS m X C D D) (h3 : GemmArgs SS m B C Y Y) (h4 : GemmArgs SS m A Y E E)
    (hcx : Apart SS C X) (hay : Apart SS A Y)
    (sX : X.rows = M ∧ X.cols = K) (sD : D.rows = M ∧ D.cols = L) (sY : Y.rows = N ∧ Y.cols = L)
    (sE : E.rows = M ∧ E.cols = L) :
    ∃ m' m'' : Mem V, (gemmCall SS 1 A B 0 X X >>= fun _ => gemmCall SS 1 X C 0 D D) m = .ok () m' ∧
      (gemmCall SS 1 B C 0 Y Y >>= fun _ => gemmCall SS 1 A Y 0 E E) m = .ok () m'' ∧
      IsMat SS m' D (a * b * c) ∧ IsMat SS m'' E (a * b * c) := by
  obtain ⟨x0, hx0⟩ := h1.lC.mat h1.ss sX.1 sX.2
  obtain ⟨m1, e1, v1, f1⟩ := C79_gemm 1 0 h1 ha hb hx0 sX.1 sX.2
  have k1 := v1.keeps_alloc f1
  obtain ⟨d0, hd0⟩ := (h2.lD.keep k1).mat h2.ss sD.1 sD.2
  obtain ⟨m2, e2, v2, f2⟩ := C79_gemm 1 0 (h2.keep k1) v1 (hc.keep h1.ss hcx f1) hd0 sD.1 sD.2
  obtain ⟨y0, hy0⟩ := h3.lC.mat h3.ss sY.1 sY.2
  obtain ⟨m3, e3, v3, f3⟩ := C79_gemm 1 0 h3 hb hc hy0 sY.1 sY.2
  have k3 := v3.keeps_alloc f3
  obtain ⟨z0, hz0⟩ := (h4.lD.keep k3).mat h4.ss sE.1 sE.2
  obtain ⟨m4, e4, v4, f4⟩ := C79_gemm 1 0 (h4.keep k3) (ha.keep h3.ss hay f3) v3 hz0 sE.1 sE.2
  refine ⟨m2, m4, ?_, ?_, ?_, ?_⟩
  · rw [Prog.bind_ok e1]; exact e2
  · rw [Prog.bind_ok e3]; exact e4
  · simpa using v2
  · simpa [Matrix.mul_assoc] using v4
end

/-! ### C80: factorizations -/

section
variable [Field V] [LinearOrder V] [IsStrictOrderedRing V] [Arith V]

/-- `l` is the Cholesky factor of `a`, in Mathlib's terms: lower triangular, positive diagonal, `l lᵀ = a`. -/
structure IsCholeskyFactor {n : Nat} (a l : Matrix (Fin n) (Fin n) V) : Prop where
  lower : l.IsLowerTriangular
  pos : ∀ i, 0 < l i i
  eq : l * l.transpose = a

omit [Arith V] in
theorem IsCholeskyFactor.unique {n : Nat} {a l l' : Matrix (Fin n) (Fin n) V} (h : IsCholeskyFactor a l)
    (h' : IsCholeskyFactor a l') : l = l' := by
  have hs : a.transpose = a := by rw [← h.eq, Matrix.transpose_mul, Matrix.transpose_transpose]
  have c := (isCholesky_iff h.lower hs).2 ⟨h.pos, h.eq⟩
  have c' := (isCholesky_iff h'.lower hs).2 ⟨h'.pos, h'.eq⟩
  ext i j
  by_cases hij : j ≤ i
  · have := c.unique (le_refl n) c' j j.2 i hij i.2
    rwa [ext_fin, ext_fin] at this
  · rw [h.lower (not_le.1 hij), h'.lower (not_le.1 hij)]

omit [Arith V] in
theorem IsCholeskyFactor.det {n : Nat} {a l : Matrix (Fin n) (Fin n) V} (h : IsCholeskyFactor a l) :
    a.det = (∏ i, l i i) ^ 2 := by
  rw [← h.eq, Matrix.det_mul, Matrix.det_transpose, Matrix.det_of_isLowerTriangular l h.lower, sq]

omit [Arith V] in
theorem choleskyFactor_of [StarRing V] [TrivialStar V] {n SS : Nat} {m' : Mem V} {A L : Container}
    {a : Matrix (Fin n) (Fin n) V} (hA : A.rows = n ∧ A.cols = n)
    (hpd : a.PosDef) (hr : L.rows = n) (hc : L.cols = n) {f : Nat → Nat → V} (hf : ContainsLower SS m' L f)
    (hch : IsCholesky A.rows A.cols f (ext a)) :
    ∃ l, IsMatLower SS m' L l ∧ IsCholeskyFactor a l := by
  rw [hA.1, hA.2] at hch
  have hs : a.transpose = a := by
    have := hpd.1
    ext i j
    have t := congrFun (congrFun this i) j
    rwa [Matrix.conjTranspose_apply, star_trivial] at t
  let l : Matrix (Fin n) (Fin n) V := Matrix.of fun i j => if j ≤ i then f i j else 0
  have hl : l.IsLowerTriangular := fun i j hij => by
    have hij : i < j := hij
    show (if j ≤ i then f i j else 0) = 0
    rw [if_neg (not_le.2 hij)]
  have e : ∀ i j : Nat, j ≤ i → i < n → ext l i j = f i j := fun i j hij hi => by
    rw [ext_of_lt l hi (by omega)]
    exact if_pos hij
  refine ⟨l, ⟨hr, hc, fun i j hij => ?_⟩, hl, ?_, ?_⟩
  · rw [hf i j hij (by rw [hr]; exact i.2) (by rw [hc]; exact j.2)]
    show some _ = some (if j ≤ i then f i j else 0)
    rw [if_pos hij]
  all_goals
    have c : IsCholesky n n (ext l) (ext a) := by
      refine ⟨fun k hk => by rw [e k k (le_refl k) hk]; exact hch.1 k hk, fun i j hij hi hj => ?_⟩
      rw [← hch.2 i j hij hi hj]
      refine Finset.sum_congr rfl (fun q hq => ?_)
      have hq := Finset.mem_range.1 hq
      rw [e i q (by omega) hi, e j q (by omega) hj]
  · exact ((isCholesky_iff hl hs).1 c).1
  · exact ((isCholesky_iff hl hs).1 c).2

/-- **C80** (potrf, dense version). If the lower triangle of A holds that of a positive definite matrix, `potrf` leaves
its Cholesky factor - there is exactly one - in the lower triangle of L, and the square of the product of its diagonal is
the determinant. -/
theorem C80_potrf_dense [StarRing V] [TrivialStar V] [ExactSqrt V] {SS TR n : Nat} {m : Mem V} {A L : Container}
    (h : PotrfArgs SS m A L) (hf : PotrfFits SS TR 4 A L) {a : Matrix (Fin n) (Fin n) V} (ha : IsMatLower SS m A a)
    (hpd : a.PosDef) (hr : L.rows = n) (hc : L.cols = n) :
    ∃ m' l, potrfDenseCall SS TR A L m = .ok () m' ∧ IsMatLower SS m' L l ∧ IsCholeskyFactor a l ∧
      (∀ l', IsCholeskyFactor a l' → l' = l) ∧ a.det = (∏ i, l i i) ^ 2 := by
  have hs : PotrfSizes A L := ⟨by rw [ha.rows, ha.cols], by rw [hr, ha.rows], by rw [hc, ha.cols]⟩
  obtain ⟨m', e, f, h1, h2⟩ := C15_potrf_dense_cholesky (a := ext a) h hs hf (fun i j hij hi hj => by
    rw [ha.rows] at hi; rw [ha.cols] at hj
    rw [ext_of_lt a hi hj]; exact ha.entry ⟨i, hi⟩ ⟨j, hj⟩ hij) (by rw [ha.cols]; exact lowerPosDef_of_posDef hpd)
  obtain ⟨l, g1, g2⟩ := choleskyFactor_of ⟨ha.rows, ha.cols⟩ hpd hr hc h1 h2
  exact ⟨m', l, e, g1, g2, fun l' h' => h'.unique g2, g2.det⟩

/-- **C80** (potrf, panel version). -/
theorem C80_potrf_panel [StarRing V] [TrivialStar V] [ExactSqrt V] {SS KN n : Nat} {m : Mem V} {A L : Container}
    (h : PotrfArgs SS m A L) (hf : PotrfFits SS 1 KN A L) {a : Matrix (Fin n) (Fin n) V} (ha : IsMatLower SS m A a)
    (hpd : a.PosDef) (hr : L.rows = n) (hc : L.cols = n) :
    ∃ m' l, potrfPanelCall SS KN A L m = .ok () m' ∧ IsMatLower SS m' L l ∧ IsCholeskyFactor a l ∧
      (∀ l', IsCholeskyFactor a l' → l' = l) ∧ a.det = (∏ i, l i i) ^ 2 := by
  have hs : PotrfSizes A L := ⟨by rw [ha.rows, ha.cols], by rw [hr, ha.rows], by rw [hc, ha.cols]⟩
  obtain ⟨m', e, f, h1, h2⟩ := C15_potrf_panel_cholesky (a := ext a) h hs hf (fun i j hij hi hj => by
    rw [ha.rows] at hi; rw [ha.cols] at hj
    rw [ext_of_lt a hi hj]; exact ha.entry ⟨i, hi⟩ ⟨j, hj⟩ hij) (by rw [ha.cols]; exact lowerPosDef_of_posDef hpd)
  obtain ⟨l, g1, g2⟩ := choleskyFactor_of ⟨ha.rows, ha.cols⟩ hpd hr hc h1 h2
  exact ⟨m', l, e, g1, g2, fun l' h' => h'.unique g2, g2.det⟩

/-- What LU factorization of the `m × n` matrix `a` in the storage `A` leaves, in Mathlib's terms: the pivot indices `p`
describe row interchanges, after which the rows of `a` are the product of the factors stored in A; no multiplier exceeds 1
in absolute value, no diagonal element of U is zero, nothing else changed. -/
structure LuMatrices (SS : Nat) (m0 m' : Mem V) (A : MPtr) {m n : Nat} (a : Matrix (Fin m) (Fin n) V) (p : Nat → Nat)
    (b : Matrix (Fin m) (Fin n) V) (piv : Fin (min m n) → Fin m) : Prop where
  stored : IsPtrMat SS m' A b
  pivots : ∀ q : Fin (min m n), p q = piv q ∧ q.1 ≤ (piv q).1
  eq : a.submatrix (interchanges (Nat.min_le_left m n) piv) id = luLower b * luUpper b
  mult : ∀ i k, |luLower b i k| ≤ 1
  diag : ∀ k : Fin (min m n), luUpper b k (k.castLE (Nat.min_le_right m n)) ≠ 0
  frame : ∀ z, ¬ Cells SS A m n z → m' z = m0 z

theorem LuOutcome.matrices [ExactOrd V] {SS m n : Nat} {A : MPtr} {m0 : Mem V} {a : Matrix (Fin m) (Fin n) V}
    {ip p : Nat → Nat} {r : Res V (Nat → Nat)} (h : LuOutcome SS m n A (ext a) ip r m0) {m' : Mem V} (hr : r = .ok p m') :
    ∃ b piv, LuMatrices SS m0 m' A a p b piv ∧ IsLU m n (ext a) (ext b) p := by
  obtain ⟨f, h1, h2, h3, -, h5, h6, h7⟩ := h.ret p m' hr
  let b : Matrix (Fin m) (Fin n) V := Matrix.of fun i j => f i j
  have e : ∀ i j, i < m → j < n → ext b i j = f i j := fun i j hi hj => ext_of_lt b hi hj
  have hlu : IsLU m n (ext a) (ext b) p := fun i j hi hj => by
    rw [← h2 i j hi hj]
    refine Finset.sum_congr rfl (fun k hk => ?_)
    have hk := Finset.mem_range.1 hk
    have hk1 : k < m := by omega
    have hk2 : k < n := by omega
    unfold tri
    rw [e i k hi hk2, e k j hk1 hj]
  let piv : Fin (min m n) → Fin m := fun q => ⟨p q, (h3 q q.2).2⟩
  refine ⟨b, piv, ⟨fun i j => h1 i j i.2 j.2, fun q => ⟨rfl, (h3 q q.2).1⟩, lu_matrix (fun q => rfl) hlu, fun i k => ?_,
    fun k => ?_, h7⟩, hlu⟩
  · unfold luLower
    simp only [Matrix.of_apply]
    split
    · rename_i hki; exact h5 i k k.2 hki i.2
    · split <;> simp
  · unfold luUpper
    simp only [Matrix.of_apply, Fin.val_castLE]
    rw [if_pos (le_refl _)]
    exact h6 k k.2

/-- **C80** (getrf, `m × n`). If getrf returns, then with the row interchanges it recorded `P A = L U`. -/
theorem C80_getrf [ExactOrd V] {SS TR m n : Nat} {A : MPtr} {m0 m' : Mem V} (hp : GetrfPre SS TR m n A m0)
    {a : Matrix (Fin m) (Fin n) V} (ha : IsPtrMat SS m0 A a) {ip p : Nat → Nat}
    (hr : getrfPtr SS TR m n A ip m0 = .ok p m') : ∃ b piv, LuMatrices SS m0 m' A a p b piv := by
  obtain ⟨b, piv, h, -⟩ := (getrf_outcome hp ha.holds ip).matrices hr
  exact ⟨b, piv, h⟩

/-- **C80** (getf2, column-major). -/
theorem C80_getf2 [ExactOrd V] {SS TR m n : Nat} {A : MPtr} {m0 m' : Mem V} (hp : LuPre SS TR m n A m0)
    {a : Matrix (Fin m) (Fin n) V} (ha : IsPtrMat SS m0 A a) {ip p : Nat → Nat}
    (hr : getf2Ptr SS TR m n A ip m0 = .ok p m') : ∃ b piv, LuMatrices SS m0 m' A a p b piv := by
  obtain ⟨b, piv, h, -⟩ := (getf2_outcome hp ha.holds ip).matrices hr
  exact ⟨b, piv, h⟩

/-- **C80** (getf2, row-major). -/
theorem C80_getf2_row_major [ExactOrd V] {SS : Nat} (hSS : 0 < SS) {dv : V → V → V} (hdv : ∀ x y, y ≠ 0 → dv x y = x / y)
    {A : Mat} (hd : A.p.panel = false) {m0 m' : Mem V} (hinj : Inj SS A.p A.rows A.cols)
    {a : Matrix (Fin A.rows) (Fin A.cols) V} (ha : IsPtrMat SS m0 A.p a) {ip p : Nat → Nat}
    (hr : getf2Row SS dv A ip m0 = .ok p m') : ∃ b piv, LuMatrices SS m0 m' A.p a p b piv := by
  obtain ⟨b, piv, h, -⟩ := (getf2Row_outcome hSS hdv hd hinj ha.holds ip).matrices hr
  exact ⟨b, piv, h⟩

/-- **C80** (determinant). For a square matrix getrf returns iff the determinant is not zero, and throws
std::invalid_argument otherwise; when it returns, the determinant is the product of the diagonal left in A times -1 to the
number of `k` with `ipiv[k] ≠ k`. -/
theorem C80_getrf_det [ExactOrd V] {SS TR n : Nat} {A : MPtr} {m0 : Mem V} (hp : GetrfPre SS TR n n A m0)
    {a : Matrix (Fin n) (Fin n) V} (ha : IsPtrMat SS m0 A a) (ip : Nat → Nat) :
    (a.det ≠ 0 → ∃ (p : Nat → Nat) (m' : Mem V) (b : Matrix (Fin n) (Fin n) V), getrfPtr SS TR n n A ip m0 = .ok p m' ∧ IsPtrMat SS m' A b ∧
      a.det = (-1) ^ ((range n).filter fun k => p k ≠ k).card * ∏ i, b i i) ∧
    (a.det = 0 → ∃ m', getrfPtr SS TR n n A ip m0 = .throw .invalidArgument m') := by
  have hd : (Matrix.of fun i j : Fin n => ext a i j) = a := by ext i j; rw [Matrix.of_apply, ext_fin]
  have hc : ColsIndep n (min n n) (ext a) ↔ a.det ≠ 0 := by rw [Nat.min_self, colsIndep_iff_det, hd]
  have ho := getrf_outcome hp ha.holds ip
  refine ⟨fun h => ?_, fun h => ?_⟩
  · obtain ⟨p, m', e⟩ := ho.full (hc.2 h)
    obtain ⟨b, piv, h1, h2⟩ := ho.matrices e
    refine ⟨p, m', b, e, h1.stored, ?_⟩
    let piv' : Fin n → Fin n := fun q => piv ⟨q, by rw [Nat.min_self]; exact q.2⟩
    have hp' : ∀ q : Fin n, p q = piv' q := fun q => (h1.pivots ⟨q, by rw [Nat.min_self]; exact q.2⟩).1
    rw [lu_det hp' h2]
    congr 2
    rw [← Finset.card_map Fin.valEmbedding]
    congr 1
    ext k
    simp only [Finset.mem_map, Finset.mem_filter, Finset.mem_univ, true_and, Fin.valEmbedding_apply, Finset.mem_range]
    constructor
    · rintro ⟨q, h, rfl⟩
      exact ⟨q.2, fun e => h (Fin.ext ((hp' q).symm.trans e))⟩
    · rintro ⟨hk, h⟩
      exact ⟨⟨k, hk⟩, fun e => h ((hp' ⟨k, hk⟩).trans (congrArg Fin.val e)), rfl⟩
  · obtain ⟨m', e, -⟩ := ho.sing (fun h' => hc.1 h' h)
    exact ⟨m', e⟩

end

/-! ### C81: solving systems -/

section
variable [Field V]

theorem triPart_det {n : Nat} (uplo : UpLo) (unit : Bool) (a : Matrix (Fin n) (Fin n) V)
    (hnz : unit = false → ∀ i, a i i ≠ 0) : (triPart uplo unit a).det ≠ 0 := by
  have hd : ∀ i, triPart uplo unit a i i ≠ 0 := fun i => by
    unfold triPart
    simp only [Matrix.of_apply, if_true]
    cases unit with
    | true => simp
    | false => simpa using hnz rfl i
  have hp : (triPart uplo unit a).det = ∏ i, triPart uplo unit a i i := by
    cases uplo with
    | lower =>
      refine Matrix.det_of_isLowerTriangular _ (fun i j hij => ?_)
      have hij : i < j := hij
      unfold triPart
      simp only [Matrix.of_apply]
      rw [if_neg hij.ne, if_neg (not_lt.2 hij.le)]
    | upper =>
      refine Matrix.det_of_isUpperTriangular (fun i j hij => ?_)
      have hij : j < i := hij
      unfold triPart
      simp only [Matrix.of_apply]
      rw [if_neg hij.ne', if_neg (not_lt.2 hij.le)]
  rw [hp]
  exact Finset.prod_ne_zero_iff.2 (fun i _ => hd i)

theorem eq_inv_mul {n r : Nat} {t : Matrix (Fin n) (Fin n) V} (ht : t.det ≠ 0) {x b : Matrix (Fin n) (Fin r) V}
    (h : t * x = b) : x = t⁻¹ * b := by
  rw [← h, ← Matrix.mul_assoc, Matrix.nonsing_inv_mul _ (isUnit_iff_ne_zero.2 ht), Matrix.one_mul]

variable [Arith V]

/-- **C81** (trsm): `X := tri(A)⁻¹ B`, where `tri(A)` is the upper or lower triangle of A, with its own or a unit diagonal;
only that triangle is read. X may be B. -/
theorem C81_trsm [ExactField V] {SS n r : Nat} {A X B : MPtr} (uplo : UpLo) (unit : Bool) {mem : Mem V}
    {a : Matrix (Fin n) (Fin n) V} {b : Matrix (Fin n) (Fin r) V}
    (hA : ∀ i k : Fin n, TriRef uplo unit i k → mem (A.addr SS (i : Nat) (k : Nat)) = some (a i k) ∧
      ¬ Cells SS X n r (A.addr SS (i : Nat) (k : Nat)))
    (hnz : unit = false → ∀ i, a i i ≠ 0) (hX : Readable SS mem X n r) (hinj : Inj SS X n r) (hB : IsPtrMat SS mem B b)
    (hBX : SameOrDisj SS B X n r) :
    ∃ mem', trsmPtr SS n r uplo unit A B X mem = .ok () mem' ∧ IsPtrMat SS mem' X ((triPart uplo unit a)⁻¹ * b) ∧
      (∀ y, ¬ Cells SS X n r y → mem' y = mem y) := by
  obtain ⟨mem', x, e, h1, h2, h3⟩ := C27_trsm_solves (a := ext a) uplo unit (fun i k hi hk hr => by
    rw [ext_of_lt a hi hk]; exact hA ⟨i, hi⟩ ⟨k, hk⟩ hr) (fun hu i hi => by rw [ext_of_lt a hi hi]; exact hnz hu _)
    hX hinj hB.holds hBX
  refine ⟨mem', e, IsPtrMat.of h1 (fun i j => ?_), h3⟩
  have hx : triPart uplo unit a * Matrix.of (fun (i : Fin n) (j : Fin r) => x i j) = b := by
    ext i j
    have := h2 i j i.2 j.2
    rw [ext_fin, Finset.sum_range] at this
    rw [Matrix.mul_apply, ← this]
    exact Finset.sum_congr rfl (fun k _ => by rw [tri_ext]; rfl)
  rw [← eq_inv_mul (triPart_det uplo unit a hnz) hx]
  rfl

/-- **C81** (trsv): `x := tri(A)⁻¹ b`. -/
theorem C81_trsv [ExactField V] {SS n : Nat} {A : MPtr} {b x : VPtr} (uplo : UpLo) {mem : Mem V}
    {a : Matrix (Fin n) (Fin n) V} {bv : Fin n → V}
    (hA : ∀ i k : Fin n, TriRef uplo false i k → mem (A.addr SS (i : Nat) (k : Nat)) = some (a i k) ∧
      ∀ i' : Fin n, A.addr SS (i : Nat) (k : Nat) ≠ x.addr SS (i' : Nat))
    (hnz : ∀ i, a i i ≠ 0) (hX : ∀ i : Fin n, (mem (x.addr SS (i : Nat))).isSome = true)
    (hinj : ∀ i i' : Fin n, x.addr SS (i : Nat) = x.addr SS (i' : Nat) → i = i')
    (hB : ∀ i : Fin n, mem (b.addr SS (i : Nat)) = some (bv i))
    (hBX : ∀ i i' : Fin n, b.addr SS (i : Nat) = x.addr SS (i' : Nat) → i = i') :
    ∃ mem', trsvPtr SS n uplo A b x mem = .ok () mem' ∧
      (∀ i : Fin n, mem' (x.addr SS (i : Nat)) = some ((triPart uplo false a)⁻¹.mulVec bv i)) ∧
      (∀ y, (∀ i : Fin n, y ≠ x.addr SS (i : Nat)) → mem' y = mem y) := by
  obtain ⟨mem', xv, e, h1, h2, h3⟩ := C28_trsv_solves (a := ext a) (bv := vext bv) uplo (fun i k hi hk hr => by
      rw [ext_of_lt a hi hk]
      exact ⟨(hA ⟨i, hi⟩ ⟨k, hk⟩ hr).1, fun i' hi' => (hA ⟨i, hi⟩ ⟨k, hk⟩ hr).2 ⟨i', hi'⟩⟩)
    (fun i hi => by rw [ext_of_lt a hi hi]; exact hnz _) (fun i hi => hX ⟨i, hi⟩)
    (fun i i' hi hi' h => congrArg Fin.val (hinj ⟨i, hi⟩ ⟨i', hi'⟩ h))
    (fun i hi => by rw [hB ⟨i, hi⟩]; unfold vext; rw [dif_pos hi])
    (fun i i' hi hi' h => congrArg Fin.val (hBX ⟨i, hi⟩ ⟨i', hi'⟩ h))
  refine ⟨mem', e, fun i => ?_, fun y hy => h3 y (fun i hi => hy ⟨i, hi⟩)⟩
  have hx : (triPart uplo false a).mulVec (fun i : Fin n => xv i) = bv := by
    ext i
    have := h2 i i.2
    rw [vext_fin, Finset.sum_range] at this
    rw [Matrix.mulVec, dotProduct, ← this]
    exact Finset.sum_congr rfl (fun k _ => by rw [tri_ext])
  rw [h1 i i.2]
  rw [← hx, Matrix.mulVec_mulVec, Matrix.nonsing_inv_mul _ (isUnit_iff_ne_zero.2 (triPart_det uplo false a (fun _ => hnz))),
    Matrix.one_mulVec]

end

section
variable [Field V] [LinearOrder V] [IsStrictOrderedRing V] [Arith V]

/-- **C81** (LU solve): factoring A with getrf, applying the interchanges to B with laswp and two trsm calls leave
`A⁻¹ B` in B, whenever `det A ≠ 0`. -/
theorem C81_lu_solve [ExactOrd V] {SS TR n r : Nat} {A B : MPtr} {m0 : Mem V} (hp : GetrfPre SS TR n n A m0)
    (hd : B.panel = false) (hinj : Inj SS B n r) (hdis : Disj SS A n n B n r) {a : Matrix (Fin n) (Fin n) V}
    {b : Matrix (Fin n) (Fin r) V} (ha : IsPtrMat SS m0 A a) (hb : IsPtrMat SS m0 B b) (ip : Nat → Nat)
    (hdet : a.det ≠ 0) :
    ∃ m', luSolve SS TR n r A B ip m0 = .ok () m' ∧ IsPtrMat SS m' B (a⁻¹ * b) ∧
      (∀ z, ¬ Cells SS A n n z → ¬ Cells SS B n r z → m' z = m0 z) := by
  have hd' : (Matrix.of fun i j : Fin n => ext a i j) = a := by ext i j; rw [Matrix.of_apply, ext_fin]
  obtain ⟨m', x, e, h1, h2, h3⟩ := C50_lu_solve hp hd hinj hdis ha.holds hb.holds ip (by rw [hd']; exact hdet)
  refine ⟨m', e, IsPtrMat.of h1 (fun i j => ?_), h3⟩
  have hx : a * Matrix.of (fun (i : Fin n) (j : Fin r) => x i j) = b := by
    ext i j
    have := h2 i j i.2 j.2
    rw [ext_fin, Finset.sum_range] at this
    rw [Matrix.mul_apply, ← this]
    exact Finset.sum_congr rfl (fun k _ => by rw [ext_fin]; rfl)
  rw [← eq_inv_mul hdet hx]
  rfl

/-- **C81** (inverse): with the identity matrix in B the same calls leave `A⁻¹` in B. -/
theorem C81_lu_inverse [ExactOrd V] {SS TR n : Nat} {A B : MPtr} {m0 : Mem V} (hp : GetrfPre SS TR n n A m0)
    (hd : B.panel = false) (hinj : Inj SS B n n) (hdis : Disj SS A n n B n n) {a : Matrix (Fin n) (Fin n) V}
    (ha : IsPtrMat SS m0 A a) (hb : IsPtrMat SS m0 B (1 : Matrix (Fin n) (Fin n) V)) (ip : Nat → Nat)
    (hdet : a.det ≠ 0) : ∃ m', luSolve SS TR n n A B ip m0 = .ok () m' ∧ IsPtrMat SS m' B a⁻¹ := by
  obtain ⟨m', e, h, -⟩ := C81_lu_solve hp hd hinj hdis ha hb ip hdet
  rw [Matrix.mul_one] at h
  exact ⟨m', e, h⟩

/-- **C81** (Cholesky solve): potrf and two trsm calls leave `A⁻¹ B` in B, whenever A is positive definite. -/
theorem C81_cholesky_solve [StarRing V] [TrivialStar V] [ExactSqrt V] {SS TR n r : Nat} {m0 : Mem V} {A L B : Container}
    (h : PotrfArgs SS m0 A L) (hf : PotrfFits SS TR 4 A L) (hap : Apart SS L B) {a : Matrix (Fin n) (Fin n) V}
    {b : Matrix (Fin n) (Fin r) V} (ha : IsMatLower SS m0 A a) (hb : IsMat SS m0 B b) (hpd : a.PosDef)
    (hr : L.rows = n) (hc : L.cols = n) :
    ∃ m', choleskySolve SS TR A L B m0 = .ok () m' ∧ IsMat SS m' B (a⁻¹ * b) ∧
      (∀ z, ¬ L.Storage SS z → ¬ IsElem SS B z → m' z = m0 z) := by
  have hs : PotrfSizes A L := ⟨by rw [ha.rows, ha.cols], by rw [hr, ha.rows], by rw [hc, ha.cols]⟩
  obtain ⟨m', x, e, h1, h2, h3⟩ := C50_cholesky_solve (a := ext a) h hs hf (by rw [ha.rows, ha.cols])
    (by rw [hb.rows, ha.rows]) hap (fun i j hij hi hj => by
      rw [ha.rows] at hi; rw [ha.cols] at hj
      rw [ext_of_lt a hi hj]; exact ha.entry ⟨i, hi⟩ ⟨j, hj⟩ hij) hb.contains
    (by rw [ha.rows]; exact lowerPosDef_of_posDef hpd)
  refine ⟨m', e, IsMat.of hb.rows hb.cols h1 (fun i j => ?_), h3⟩
  have hsym : ∀ i j, a i j = a j i := fun i j => by
    have := congrFun (congrFun hpd.1 j) i
    rw [Matrix.conjTranspose_apply, star_trivial] at this
    exact this
  have hdet : a.det ≠ 0 := by
    obtain ⟨_, l, -, -, hl, -, hd⟩ := C80_potrf_dense h hf ha hpd hr hc
    rw [hd]
    exact pow_ne_zero 2 (Finset.prod_ne_zero_iff.2 (fun i _ => (hl.pos i).ne'))
  have hx : a * Matrix.of (fun (i : Fin n) (j : Fin r) => x i j) = b := by
    ext i j
    have := h2 i j (by rw [ha.rows]; exact i.2) (by rw [hb.cols]; exact j.2)
    rw [ext_fin, ha.rows, Finset.sum_range] at this
    rw [Matrix.mul_apply, ← this]
    refine Finset.sum_congr rfl (fun k _ => ?_)
    show a i k * x k j = _
    congr 1
    rcases le_total i k with e | e
    · rw [max_eq_right (by exact e), min_eq_left (by exact e), ext_fin, hsym]
    · rw [max_eq_left (by exact e), min_eq_right (by exact e), ext_fin]
  rw [← eq_inv_mul hdet hx]
  rfl

/-- **C81** (trsm undoes trmm): multiplying B by an upper triangular A with trmm and solving with trsm leaves B again. -/
theorem C81_trsm_undoes_trmm [ExactOrd V] {SS n r : Nat} {m : Mem V} {A B C X : Container}
    (h : TrmmLArgs SS m A B C) (lX : Live SS m X) (hXA : Apart SS A X) (hXC : C = X ∨ Apart SS C X)
    {a : Matrix (Fin n) (Fin n) V} {b : Matrix (Fin n) (Fin r) V} (ha : IsMat SS m A a) (hz : a.IsUpperTriangular)
    (hnz : ∀ i, a i i ≠ 0) (hb : IsMat SS m B b) (sC : C.rows = n ∧ C.cols = r) (sX : X.rows = n ∧ X.cols = r) :
    ∃ m', (trmmLeftCall SS 1 1 A .upper false B C >>= fun _ =>
        trsmPtr SS n r .upper false (A.mptr SS) (C.mptr SS) (X.mptr SS)) m = .ok () m' ∧ IsMat SS m' X b := by
  obtain ⟨m1, e1, v1, f1⟩ := C79_trmm_left 1 h ha hz hb sC.1 sC.2
  have lX' := lX.keep (v1.keeps_alloc f1)
  have hA' := ha.keep h.ss h.dA f1
  have hcell : ∀ i k : Fin n, ¬ Cells SS (X.mptr SS) n r ((A.mptr SS).addr SS (i : Nat) (k : Nat)) := fun i k hc => by
    obtain ⟨i', j', hi, hj, e⟩ := hc
    rw [← Container.addr_eq_mptr, ← Container.addr_eq_mptr] at e
    exact hXA _ (A.addr_storage h.ss (by rw [ha.rows]; exact i.2) (by rw [ha.cols]; exact k.2))
      (by rw [e]; exact X.addr_storage h.ss (by rw [sX.1]; exact hi) (by rw [sX.2]; exact hj))
  obtain ⟨m2, e2, v2, -⟩ := C81_trsm (a := a) (b := (1 : V) • (a * b)) .upper false (mem := m1)
    (fun i k _ => ⟨hA'.ptr i k, hcell i k⟩)
    (fun _ => hnz) (by have := lX'.readable h.ss; rwa [sX.1, sX.2] at this)
    (by have := X.inj h.ss; rwa [sX.1, sX.2] at this) v1.ptr (by
      rcases hXC with rfl | hap
      · have := C.inj h.ss; rwa [sX.1, sX.2] at this
      · intro i j i' j' hi hj hi' hj' e
        exact absurd e (hap.disj h.ss i j i' j' (by omega) (by omega) (by omega) (by omega)))
  refine ⟨m2, by rw [Prog.bind_ok e1]; exact e2, ?_⟩
  have ht : triPart .upper false a = a := by
    rw [triPart_upper]
    ext i j
    unfold upperPart
    simp only [Matrix.of_apply]
    split
    · rfl
    · rename_i hij; exact (hz (not_le.1 hij)).symm
  have hdet := triPart_det .upper false a (fun _ => hnz)
  rw [ht] at hdet v2
  rw [one_smul, ← eq_inv_mul hdet rfl] at v2
  exact v2.mat sX.1 sX.2

end

end Blast
