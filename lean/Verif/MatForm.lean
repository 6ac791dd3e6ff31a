import Verif.Props.Solve
import Verif.Props.Gemm
import Verif.Props.Ger
import Verif.Props.Syrk
import Verif.Props.Trmm
import Mathlib.LinearAlgebra.Matrix.PosDef
import Mathlib.LinearAlgebra.Matrix.Block
import Mathlib.LinearAlgebra.Matrix.NonsingularInverse
import Mathlib.GroupTheory.Perm.Sign
/-
Vocabulary for the properties stated with Mathlib's matrices (`Matrix (Fin r) (Fin c) V` with its own product,
transpose, inverse, determinant and positive definiteness). Nothing in `IsMat`, `IsPtrMat`, `IsVec`, `SameLower`,
`lowerPart`, `upperPart`, `unitLowerPart`, `luLower`, `luUpper`, `interchanges` refers to the library.
-/
set_option linter.unusedSectionVars false
namespace Blast
open Finset Prog Reg
variable {V : Type}

/-- In memory `m` the matrix object `A` is an `r × c` matrix with the entries of `M`. -/
structure IsMat (SS : Nat) (m : Mem V) (A : Container) {r c : Nat} (M : Matrix (Fin r) (Fin c) V) : Prop where
  rows : A.rows = r
  cols : A.cols = c
  entry : ∀ (i : Fin r) (j : Fin c), m (A.addr SS i j) = some (M i j)

/-- In memory `m` the elements from pointer `A` on are the entries of `M`. -/
def IsPtrMat (SS : Nat) (m : Mem V) (A : MPtr) {r c : Nat} (M : Matrix (Fin r) (Fin c) V) : Prop :=
  ∀ (i : Fin r) (j : Fin c), m (A.addr SS (i : Nat) (j : Nat)) = some (M i j)

/-- In memory `m` the vector object `x` has the entries of `v`. -/
structure IsVec (m : Mem V) (x : VObj) {n : Nat} (v : Fin n → V) : Prop where
  size : x.n = n
  entry : ∀ i : Fin n, m (x.data + (i : Nat)) = some (v i)

/-- In memory `m` the lower triangle (with diagonal) of the matrix object `A` is that of the square matrix `M`; nothing
is said about the elements above the diagonal. -/
structure IsMatLower (SS : Nat) (m : Mem V) (A : Container) {n : Nat} (M : Matrix (Fin n) (Fin n) V) : Prop where
  rows : A.rows = n
  cols : A.cols = n
  entry : ∀ i j : Fin n, j ≤ i → m (A.addr SS i j) = some (M i j)

/-- the lower triangle with diagonal -/
def lowerPart [Zero V] {n : Nat} (M : Matrix (Fin n) (Fin n) V) : Matrix (Fin n) (Fin n) V :=
  Matrix.of fun i j => if j ≤ i then M i j else 0

/-- the upper triangle with diagonal -/
def upperPart [Zero V] {n : Nat} (M : Matrix (Fin n) (Fin n) V) : Matrix (Fin n) (Fin n) V :=
  Matrix.of fun i j => if i ≤ j then M i j else 0

/-- the triangular matrix that `trsm`/`trsv` take from a square array: its lower or upper part, with the diagonal of the
array or (`unit`) with ones on the diagonal -/
def triPart [Zero V] [One V] {n : Nat} (uplo : UpLo) (unit : Bool) (M : Matrix (Fin n) (Fin n) V) :
    Matrix (Fin n) (Fin n) V :=
  Matrix.of fun i j => if i = j then (if unit then 1 else M i j) else
    match uplo with
    | .lower => if j < i then M i j else 0
    | .upper => if i < j then M i j else 0

/-- The factor L that LU factorization of an `m × n` matrix leaves below the diagonal of `B` (its diagonal of ones is
not stored). -/
def luLower [Zero V] [One V] {m n : Nat} (B : Matrix (Fin m) (Fin n) V) : Matrix (Fin m) (Fin (min m n)) V :=
  Matrix.of fun i k => if k.1 < i.1 then B i (k.castLE (Nat.min_le_right m n)) else if i.1 = k.1 then 1 else 0

/-- The factor U that LU factorization leaves on and above the diagonal of `B`. -/
def luUpper [Zero V] {m n : Nat} (B : Matrix (Fin m) (Fin n) V) : Matrix (Fin (min m n)) (Fin n) V :=
  Matrix.of fun k j => if k.1 ≤ j.1 then B (k.castLE (Nat.min_le_left m n)) j else 0

/-- Where the rows go when row 0 is exchanged with row `piv 0`, then row 1 with row `piv 1`, and so on: row `i` of the
result is row `interchanges piv i` of the original. -/
def interchanges {m k : Nat} (h : k ≤ m) (piv : Fin k → Fin m) : Equiv.Perm (Fin m) :=
  (List.ofFn fun q : Fin k => Equiv.swap (q.castLE h) (piv q)).prod

/-! ### Relation to the functions on ℕ used elsewhere -/

/-- entries of a matrix as a function of natural numbers -/
def ext [Zero V] {r c : Nat} (M : Matrix (Fin r) (Fin c) V) (i j : Nat) : V :=
  if h : i < r ∧ j < c then M ⟨i, h.1⟩ ⟨j, h.2⟩ else 0

/-- entries of a vector as a function of natural numbers -/
def vext [Zero V] {n : Nat} (v : Fin n → V) (i : Nat) : V := if h : i < n then v ⟨i, h⟩ else 0

@[simp] theorem ext_fin [Zero V] {r c : Nat} (M : Matrix (Fin r) (Fin c) V) (i : Fin r) (j : Fin c) :
    ext M i j = M i j := by unfold ext; rw [dif_pos ⟨i.2, j.2⟩]

theorem ext_of_lt [Zero V] {r c : Nat} (M : Matrix (Fin r) (Fin c) V) {i j : Nat} (hi : i < r) (hj : j < c) :
    ext M i j = M ⟨i, hi⟩ ⟨j, hj⟩ := by unfold ext; rw [dif_pos ⟨hi, hj⟩]

@[simp] theorem vext_fin [Zero V] {n : Nat} (v : Fin n → V) (i : Fin n) : vext v i = v i := by
  unfold vext; rw [dif_pos i.2]

theorem IsMat.contains [Zero V] {SS : Nat} {m : Mem V} {A : Container} {r c : Nat} {M : Matrix (Fin r) (Fin c) V}
    (h : IsMat SS m A M) : Contains SS m A (ext M) := by
  intro i j hi hj
  rw [h.rows] at hi; rw [h.cols] at hj
  rw [ext_of_lt M hi hj]; exact h.entry ⟨i, hi⟩ ⟨j, hj⟩

theorem IsMat.of {SS : Nat} {m : Mem V} {A : Container} {r c : Nat} {M : Matrix (Fin r) (Fin c) V} (hr : A.rows = r)
    (hc : A.cols = c) {f : Nat → Nat → V} (h : Contains SS m A f) (he : ∀ (i : Fin r) (j : Fin c), f i j = M i j) :
    IsMat SS m A M :=
  ⟨hr, hc, fun i j => by rw [h i j (by rw [hr]; exact i.2) (by rw [hc]; exact j.2), he]⟩

theorem IsPtrMat.holds [Zero V] {SS : Nat} {m : Mem V} {A : MPtr} {r c : Nat} {M : Matrix (Fin r) (Fin c) V}
    (h : IsPtrMat SS m A M) : Holds SS m A r c (ext M) := by
  intro i j hi hj
  rw [ext_of_lt M hi hj]; exact h ⟨i, hi⟩ ⟨j, hj⟩

theorem IsPtrMat.of {SS : Nat} {m : Mem V} {A : MPtr} {r c : Nat} {M : Matrix (Fin r) (Fin c) V}
    {f : Nat → Nat → V} (h : Holds SS m A r c f) (he : ∀ (i : Fin r) (j : Fin c), f i j = M i j) :
    IsPtrMat SS m A M := fun i j => by rw [h i j i.2 j.2, he]

theorem IsMat.ptr {SS : Nat} {m : Mem V} {A : Container} {r c : Nat} {M : Matrix (Fin r) (Fin c) V}
    (h : IsMat SS m A M) : IsPtrMat SS m (A.mptr SS) M := fun i j => by
  rw [← Container.addr_eq_mptr]; exact h.entry i j

theorem IsPtrMat.mat {SS : Nat} {m : Mem V} {A : Container} {r c : Nat} {M : Matrix (Fin r) (Fin c) V}
    (hr : A.rows = r) (hc : A.cols = c) (h : IsPtrMat SS m (A.mptr SS) M) : IsMat SS m A M :=
  ⟨hr, hc, fun i j => by rw [Container.addr_eq_mptr]; exact h i j⟩

theorem IsVec.contains [Zero V] {m : Mem V} {x : VObj} {n : Nat} {v : Fin n → V} (h : IsVec m x v) :
    VContains m x (vext v) := by
  intro i hi
  rw [h.size] at hi
  unfold vext; rw [dif_pos hi]; exact h.entry ⟨i, hi⟩

theorem sum_ext [CommRing V] {r n c : Nat} (a : Matrix (Fin r) (Fin n) V) (b : Matrix (Fin n) (Fin c) V) (i : Fin r) (j : Fin c) :
    ∑ k ∈ range n, ext a i k * ext b k j = (a * b) i j := by
  rw [Finset.sum_range, Matrix.mul_apply]
  exact Finset.sum_congr rfl (fun k _ => by rw [ext_fin, ext_fin])

theorem tri_ext [Zero V] [One V] {n : Nat} (uplo : UpLo) (unit : Bool) (M : Matrix (Fin n) (Fin n) V) (i j : Fin n) :
    tri uplo unit (ext M) i j = triPart uplo unit M i j := by
  unfold tri triPart
  simp only [Matrix.of_apply, ext_fin, Fin.ext_iff, Fin.lt_def]
  cases uplo <;> rfl

theorem triPart_lower [Zero V] [One V] {n : Nat} (M : Matrix (Fin n) (Fin n) V) : triPart .lower false M = lowerPart M := by
  ext i j
  unfold triPart lowerPart
  simp only [Matrix.of_apply]
  split
  · rename_i h; subst h; simp
  · rename_i h; exact if_congr ⟨le_of_lt, fun h' => lt_of_le_of_ne h' (fun e => h e.symm)⟩ rfl rfl

theorem triPart_upper [Zero V] [One V] {n : Nat} (M : Matrix (Fin n) (Fin n) V) : triPart .upper false M = upperPart M := by
  ext i j
  unfold triPart upperPart
  simp only [Matrix.of_apply]
  split
  · rename_i h; subst h; simp
  · rename_i h; exact if_congr ⟨le_of_lt, fun h' => lt_of_le_of_ne h' h⟩ rfl rfl

/-- the row permutation that the pivot indices describe -/
theorem interchanges_eq {m k : Nat} (h : k ≤ m) (piv : Fin k → Fin m) {p : Nat → Nat} (hp : ∀ q : Fin k, p q = piv q)
    (i : Fin m) : ((interchanges h piv i : Fin m) : Nat) = rowPerm p 0 k i := by
  induction k generalizing i with
  | zero => simp [interchanges, rowPerm]
  | succ k ih =>
    have e : interchanges h piv = interchanges (by omega) (fun q : Fin k => piv q.castSucc) *
        Equiv.swap (⟨k, by omega⟩ : Fin m) (piv (Fin.last k)) := by
      unfold interchanges
      rw [List.ofFn_succ_last, List.prod_append]
      simp only [List.prod_cons, List.prod_nil, mul_one]
      rfl
    rw [e]
    show ((interchanges _ _ (Equiv.swap _ _ i) : Fin m) : Nat) = _
    rw [ih (by omega) (fun q : Fin k => piv q.castSucc) (fun q => hp q.castSucc)]
    show _ = rowPerm p 0 k (swapIdx (0 + k) (p (0 + k)) i)
    congr 1
    have hk : p (0 + k) = (piv (Fin.last k) : Nat) := by rw [Nat.zero_add]; exact hp (Fin.last k)
    rw [hk, Nat.zero_add]
    unfold swapIdx
    rw [Equiv.swap_apply_def]
    simp only [Fin.ext_iff]
    split
    · rfl
    · split <;> rfl

theorem sign_interchanges {m k : Nat} (h : k ≤ m) (piv : Fin k → Fin m) :
    (Equiv.Perm.sign (interchanges h piv) : ℤˣ) = (-1) ^ (Finset.univ.filter fun q : Fin k => piv q ≠ q.castLE h).card := by
  unfold interchanges
  rw [map_list_prod, List.map_ofFn, List.prod_ofFn]
  rw [← Finset.prod_const, Finset.prod_filter]
  refine Finset.prod_congr rfl (fun q _ => ?_)
  show Equiv.Perm.sign (Equiv.swap (q.castLE h) (piv q)) = _
  rw [Equiv.Perm.sign_swap']
  by_cases e : piv q = q.castLE h
  · rw [if_pos e.symm, if_neg (by simpa using e)]
  · rw [if_neg (fun e' => e e'.symm), if_pos e]

/-! ### Keeping other objects -/

theorem IsMat.keeps_alloc {SS : Nat} {m m' : Mem V} {X : Container} {r c : Nat} {M : Matrix (Fin r) (Fin c) V}
    (h : IsMat SS m' X M) (hf : OnlyElemsChange SS m m' X) (x : Int) (hx : (m x).isSome = true) : (m' x).isSome = true := by
  by_cases e : IsElem SS X x
  · obtain ⟨i, j, hi, hj, rfl⟩ := e
    rw [h.entry ⟨i, by rw [← h.rows]; exact hi⟩ ⟨j, by rw [← h.cols]; exact hj⟩]; rfl
  · rw [hf x e]; exact hx

theorem Live.keep {SS : Nat} {m m' : Mem V} {A : Container} (hl : Live SS m A)
    (h : ∀ x, (m x).isSome = true → (m' x).isSome = true) : Live SS m' A := ⟨hl.align, fun x hx => h x (hl.alloc x hx)⟩

theorem GemmArgs.keep {SS : Nat} {m m' : Mem V} {A B C D : Container} (h : GemmArgs SS m A B C D)
    (hk : ∀ x, (m x).isSome = true → (m' x).isSome = true) : GemmArgs SS m' A B C D :=
  { ss := h.ss, sA := h.sA, sC := h.sC, sD := h.sD, lA := h.lA.keep hk, lB := h.lB.keep hk, lC := h.lC.keep hk,
    lD := h.lD.keep hk, dA := h.dA, dB := h.dB, dC := h.dC }

theorem IsMat.keep {SS : Nat} (hSS : 0 < SS) {m m' : Mem V} {A X : Container} {r c : Nat} {M : Matrix (Fin r) (Fin c) V}
    (h : IsMat SS m A M) (hap : Apart SS A X) (hf : OnlyElemsChange SS m m' X) : IsMat SS m' A M :=
  ⟨h.rows, h.cols, fun i j => by
    rw [hf _ (fun ⟨i', j', hi, hj, e⟩ => hap _ (A.addr_storage hSS (by rw [h.rows]; exact i.2) (by rw [h.cols]; exact j.2))
      (by rw [e]; exact X.addr_storage hSS hi hj))]
    exact h.entry i j⟩

theorem Live.mat [Arith V] {SS : Nat} (hSS : 0 < SS) {m : Mem V} {A : Container} (h : Live SS m A) {r c : Nat} (hr : A.rows = r)
    (hc : A.cols = c) : ∃ M : Matrix (Fin r) (Fin c) V, IsMat SS m A M :=
  ⟨_, IsMat.of (M := Matrix.of fun (i : Fin r) (j : Fin c) => Blast.val m (A.addr SS i j)) hr hc (h.contains hSS) (fun _ _ => rfl)⟩

/-! ### Cholesky factors -/

theorem IsCholesky.unique [Field V] [LinearOrder V] [IsStrictOrderedRing V] {M N : Nat} {l l' a : Nat → Nat → V} (hMN : N ≤ M)
    (h : IsCholesky M N l a) (h' : IsCholesky M N l' a) : ∀ j, j < N → ∀ i, j ≤ i → i < M → l i j = l' i j := by
  intro j
  induction j using Nat.strong_induction_on with
  | _ j ih =>
    intro hj i hij hi
    have e : ∀ i, j ≤ i → i < M → ∑ q ∈ range j, l i q * l j q = ∑ q ∈ range j, l' i q * l' j q := fun i hij hi =>
      Finset.sum_congr rfl (fun q hq => by
        have hq := Finset.mem_range.1 hq
        rw [ih q hq (by omega) i (by omega) hi, ih q hq (by omega) j (by omega) (by omega)])
    have k : ∀ i, j ≤ i → i < M → l i j * l j j = l' i j * l' j j := fun i hij hi => by
      have h1 := h.2 i j hij hi hj
      have h2 := h'.2 i j hij hi hj
      rw [Finset.sum_range_succ] at h1 h2
      rw [e i hij hi] at h1
      exact add_left_cancel (h1.trans h2.symm)
    have d : l j j = l' j j := by
      have := k j (le_refl j) (by omega)
      exact (mul_self_inj_of_nonneg (h.1 j hj).le (h'.1 j hj).le).1 this
    have := k i hij hi
    rw [d] at this
    exact mul_right_cancel₀ (h'.1 j hj).ne' this

theorem lowerPosDef_of_posDef [Field V] [LinearOrder V] [IsStrictOrderedRing V] [StarRing V] [TrivialStar V] {n : Nat}
    {a : Matrix (Fin n) (Fin n) V} (h : a.PosDef) : LowerPosDef n (ext a) := by
  intro x ⟨i, hi, hx⟩
  obtain ⟨h1, h2⟩ := Matrix.posDef_iff_dotProduct_mulVec.1 h
  have hs : ∀ i j, a i j = a j i := fun i j => by
    have := congrFun (congrFun h1 j) i
    rw [Matrix.conjTranspose_apply, star_trivial] at this
    exact this
  have hpos := h2 (x := fun i : Fin n => x i) (fun e => hx (congrFun e ⟨i, hi⟩))
  have : star (fun i : Fin n => x i) ⬝ᵥ (a.mulVec fun i : Fin n => x i) =
      ∑ i ∈ range n, ∑ j ∈ range n, x i * ext a (max i j) (min i j) * x j := by
    rw [Finset.sum_range]
    refine Finset.sum_congr rfl (fun i _ => ?_)
    rw [Finset.sum_range]
    simp only [Matrix.mulVec, dotProduct, Pi.star_apply, star_trivial]
    rw [Finset.mul_sum]
    refine Finset.sum_congr rfl (fun j _ => ?_)
    rw [← mul_assoc]
    congr 2
    rcases le_total i j with e | e
    · rw [max_eq_right (by exact e), min_eq_left (by exact e), ext_fin, hs]
    · rw [max_eq_left (by exact e), min_eq_right (by exact e), ext_fin]
  rwa [this] at hpos

theorem isCholesky_iff [Field V] [LinearOrder V] {n : Nat} {l a : Matrix (Fin n) (Fin n) V} (hl : l.IsLowerTriangular)
    (hs : a.transpose = a) : IsCholesky n n (ext l) (ext a) ↔ (∀ i, 0 < l i i) ∧ l * l.transpose = a := by
  have e : ∀ i j : Fin n, j ≤ i → ∑ q ∈ range (j.1 + 1), ext l i q * ext l j q = (l * l.transpose) i j := fun i j hij => by
    have : (l * l.transpose) i j = ∑ q ∈ range n, ext l i q * ext l j q := by
      rw [Finset.sum_range, Matrix.mul_apply]
      exact Finset.sum_congr rfl (fun q _ => by rw [ext_fin, ext_fin, Matrix.transpose_apply])
    rw [this]
    refine Finset.sum_subset (fun q hq => ?_) (fun q hq hq' => ?_)
    · simp only [Finset.mem_range] at *; omega
    · simp only [Finset.mem_range] at *
      rw [ext_of_lt l j.2 hq, hl (show j < ⟨q, hq⟩ by simp only [Fin.lt_def]; omega), mul_zero]
  constructor
  · rintro ⟨h1, h2⟩
    refine ⟨fun i => by have := h1 i i.2; rwa [ext_fin] at this, ?_⟩
    have lo : ∀ i j : Fin n, j ≤ i → (l * l.transpose) i j = a i j := fun i j hij => by
      rw [← e i j hij, h2 i j hij i.2 j.2, ext_fin]
    ext i j
    rcases le_total j i with hij | hij
    · exact lo i j hij
    · have hsym : (l * l.transpose).transpose = l * l.transpose := by
        rw [Matrix.transpose_mul, Matrix.transpose_transpose]
      calc (l * l.transpose) i j = (l * l.transpose).transpose i j := by rw [hsym]
        _ = a j i := lo j i hij
        _ = a.transpose i j := rfl
        _ = a i j := by rw [hs]
  · rintro ⟨h1, h2⟩
    refine ⟨fun k hk => by rw [ext_of_lt l hk hk]; exact h1 _, fun i j hij hi hj => ?_⟩
    rw [ext_of_lt a hi hj, ← h2]
    exact e ⟨i, hi⟩ ⟨j, hj⟩ hij

/-! ### LU factors -/

theorem lu_matrix [Field V] {m n : Nat} {a b : Matrix (Fin m) (Fin n) V} {p : Nat → Nat} {piv : Fin (min m n) → Fin m}
    (hp : ∀ q : Fin (min m n), p q = piv q) (h : IsLU m n (ext a) (ext b) p) :
    a.submatrix (interchanges (Nat.min_le_left m n) piv) id = luLower b * luUpper b := by
  ext i j
  have e := h i j i.2 j.2
  rw [rowSwaps_eq, ← interchanges_eq (Nat.min_le_left m n) piv hp i, ext_fin] at e
  rw [Matrix.submatrix_apply, id, ← e, Finset.sum_range, Matrix.mul_apply]
  refine Finset.sum_congr rfl (fun k _ => ?_)
  have hk : k.1 < m := Nat.lt_of_lt_of_le k.2 (Nat.min_le_left m n)
  have hk' : k.1 < n := Nat.lt_of_lt_of_le k.2 (Nat.min_le_right m n)
  congr 1
  · unfold tri luLower
    simp only [Matrix.of_apply]
    by_cases h1 : k.1 < i.1
    · rw [if_neg (by omega), if_pos h1, if_pos h1, ext_of_lt b i.2 hk']; rfl
    · rw [if_neg h1, if_neg h1]; simp
  · unfold tri luUpper
    simp only [Matrix.of_apply]
    by_cases h1 : k.1 ≤ j.1
    · rw [if_pos h1]
      by_cases h2 : k.1 = j.1
      · rw [if_pos h2, if_neg (by simp), ext_of_lt b hk j.2]; rfl
      · rw [if_neg h2, if_pos (by omega), ext_of_lt b hk j.2]; rfl
    · rw [if_neg h1, if_neg (by omega), if_neg (by omega)]

/-- determinant from the factors -/
theorem lu_det [Field V] {n : Nat} {a b : Matrix (Fin n) (Fin n) V} {p : Nat → Nat} {piv : Fin n → Fin n}
    (hp : ∀ q : Fin n, p q = piv q) (h : IsLU n n (ext a) (ext b) p) :
    a.det = (-1) ^ (Finset.univ.filter fun q : Fin n => piv q ≠ q).card * ∏ i, b i i := by
  have e : a.submatrix (interchanges (le_refl n) piv) id = triPart .lower true b * upperPart b := by
    ext i j
    have e := h i j i.2 j.2
    rw [Nat.min_self, rowSwaps_eq, ← interchanges_eq (le_refl n) piv hp i, ext_fin] at e
    rw [Matrix.submatrix_apply, id, ← e, Finset.sum_range, Matrix.mul_apply]
    exact Finset.sum_congr rfl (fun k _ => by rw [tri_ext, tri_ext, triPart_upper])
  have h1 : (triPart .lower true b).det = 1 := by
    rw [Matrix.det_of_isLowerTriangular _ (fun i j hij => by
      unfold triPart
      have hij : i < j := hij
      simp only [Matrix.of_apply]
      rw [if_neg hij.ne, if_neg (by exact not_lt.2 hij.le)])]
    exact Finset.prod_eq_one (fun i _ => by unfold triPart; simp)
  have h2 : (upperPart b).det = ∏ i, b i i := by
    rw [Matrix.det_of_isUpperTriangular (fun i j hij => by
      have hij : j < i := hij
      unfold upperPart
      simp only [Matrix.of_apply]
      rw [if_neg (not_le.2 hij)])]
    exact Finset.prod_congr rfl (fun i _ => by unfold upperPart; simp)
  have h3 := Matrix.det_permute (interchanges (le_refl n) piv) a
  rw [e, Matrix.det_mul, h1, h2, one_mul, sign_interchanges] at h3
  have h4 : ∀ c : Nat, ((-1 : V)) ^ c * (-1) ^ c = 1 := fun c => by rw [← mul_pow]; simp
  rw [h3]
  push_cast
  rw [← mul_assoc]
  have : (Finset.univ.filter fun q : Fin n => piv q ≠ q.castLE (le_refl n)) = Finset.univ.filter fun q : Fin n => piv q ≠ q := rfl
  rw [this, h4, one_mul]

end Blast
