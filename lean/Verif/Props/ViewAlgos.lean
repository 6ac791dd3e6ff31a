import Verif.Props.Ger
import Verif.Props.Views
import Verif.Props.Solve
import Verif.Props.Trmm
import Verif.Props.Syrk
import Verif.Eval
/- Concrete cases meeting the hypotheses of these theorems: Verif/Cases/Views.lean, and the examples in this file. -/
/-
Property C51: the other algorithms on submatrices of dense matrices (blast::Submatrix for trmm; for syrkLower, getf2, getrf, potrf
and trsm, which take blaze::DenseMatrix, a blaze::Submatrix, whose data(), spacing() and alignment flag are the same).
-/
set_option linter.unusedSectionVars false
namespace Blast
open Finset Prog
variable {V : Type}

/-- no element of the view `a` is an element of the view `b` -/
def ViewsDisjoint (SS : Nat) (a b : MExpr) : Prop :=
  ∀ i j i' j', i < a.rows → j < a.cols → i' < b.rows → j' < b.cols → a.addr SS i j ≠ b.addr SS i' j'

/-- the views `a` and `b` are the same block or do not overlap: an element of both has the same indices in both -/
def ViewsSameOrDisjoint (SS : Nat) (a b : MExpr) : Prop :=
  ∀ i j i' j', i < a.rows → j < a.cols → i' < b.rows → j' < b.cols → a.addr SS i j = b.addr SS i' j' → i = i' ∧ j = j'

/-- `x` is the cell of an element of the view -/
def IsViewElem (SS : Nat) (e : MExpr) (x : Int) : Prop := ∃ i j, i < e.rows ∧ j < e.cols ∧ x = e.addr SS i j

section
variable {SS : Nat} {m : Mem V} {e : MExpr}

theorem ViewOK.addr (hSS : 0 < SS) (h : ViewOK SS m e) (i j : Nat) : (e.mptr SS).addr SS i j = e.addr SS i j :=
  e.mptr_addr_dense hSS h.dense i j

theorem MExpr.mptr_so (hSS : 0 < SS) (e : MExpr) : (e.mptr SS).so = e.so := by rw [MExpr.mptr_fields hSS]

theorem MExpr.mptr_dense (hSS : 0 < SS) (e : MExpr) : (e.mptr SS).panel = e.isPanel := by rw [MExpr.mptr_fields hSS]

theorem ViewOK.holds [Arith V] (hSS : 0 < SS) (h : ViewOK SS m e) {m' : Mem V} {a : Nat → Nat → V} :
    Holds SS m' (e.mptr SS) e.rows e.cols a ↔ Elems SS m' e a := by
  rw [elems_iff]
  constructor
  · intro hh i j hi hj
    rw [← h.addr hSS]; exact hh i j hi hj
  · intro hh i j hi hj
    rw [h.addr hSS]; exact hh i j hi hj

theorem ViewOK.inj (hSS : 0 < SS) (h : ViewOK SS m e) : Inj SS (e.mptr SS) e.rows e.cols := by
  intro i j i' j' hi hj hi' hj' he
  rw [h.addr hSS, h.addr hSS] at he
  exact e.addr_inj hSS h.fits hi hj hi' hj' he

theorem ViewOK.cells (hSS : 0 < SS) (h : ViewOK SS m e) (x : Int) :
    Cells SS (e.mptr SS) e.rows e.cols x ↔ IsViewElem SS e x := by
  constructor
  · rintro ⟨i, j, hi, hj, rfl⟩; exact ⟨i, j, hi, hj, h.addr hSS i j⟩
  · rintro ⟨i, j, hi, hj, rfl⟩; exact ⟨i, j, hi, hj, (h.addr hSS i j).symm⟩

theorem ViewOK.disj (hSS : 0 < SS) {a b : MExpr} (ha : ViewOK SS m a) (hb : ViewOK SS m b) (h : ViewsDisjoint SS a b) :
    Disj SS (a.mptr SS) a.rows a.cols (b.mptr SS) b.rows b.cols := by
  intro i j i' j' hi hj hi' hj'
  rw [ha.addr hSS, hb.addr hSS]
  exact h i j i' j' hi hj hi' hj'

end

theorem MExpr.matAl_eq {SS : Nat} {e : MExpr} (h : e.aligned = true) : e.matAl SS = e.mat SS := by
  unfold MExpr.matAl MExpr.mat MExpr.mptr; rw [h]

/-! ### syrk -/

/-- What a caller of `syrkLower(alpha, A, beta, C, D)` with (aligned) submatrices has to ensure. -/
structure ViewSyrkArgs (SS : Nat) (m : Mem V) (A C D : MExpr) : Prop where
  ss : 0 < SS
  vA : ViewOK SS m A
  vC : ViewOK SS m C
  vD : ViewOK SS m D
  sA : A.so = .columnMajor
  sC : C.so = .columnMajor
  sD : D.so = .columnMajor
  alA : A.aligned = true
  alC : C.aligned = true
  alD : D.aligned = true
  pA : PadInBounds SS A
  pC : PadInBounds SS C
  dA : ViewsDisjoint SS A D
  dC : ViewsSameOrDisjoint SS C D

/-- **C51** (syrk). On aligned submatrices syrkLower computes the lower triangle of `beta*C + alpha*A*Aᵀ` in D and changes no other cell of
memory: neither elements of the enclosing matrix nor elements of D above the diagonal. (Tile size = SIMD width.) -/
theorem C51_syrk_views [CommRing V] [Arith V] [ExactRing V] {SS : Nat} {m : Mem V} {A C D : MExpr} (alpha beta : V)
    (h : ViewSyrkArgs SS m A C D) (h1 : C.rows = A.rows) (h2 : C.cols = A.rows) (h3 : D.rows = A.rows) (h4 : D.cols = A.rows)
    {a c : Nat → Nat → V} (ha : Elems SS m A a) (hc : Elems SS m C c) :
    ∃ m', syrkMat SS 1 alpha (A.matAl SS) beta (C.matAl SS) (D.matAl SS) m = .ok () m' ∧
      (∀ i j, i < D.rows → j ≤ i → m' (D.addr SS i j) = some (beta * c i j + alpha * ∑ k ∈ range A.cols, a i k * a j k)) ∧
      (∀ x, (∀ i j, i < D.rows → j ≤ i → x ≠ D.addr SS i j) → m' x = m x) := by
  have hSS := h.ss
  have pre : SyrkPre SS 1 A.rows A.cols (A.mptr SS) (C.mptr SS) (D.mptr SS) m := by
    refine ⟨hSS, by omega, h.vA.wf hSS, h.vC.wf hSS, h.vD.wf hSS, by rw [A.mptr_so hSS, h.sA], by rw [C.mptr_so hSS, h.sC],
      by rw [D.mptr_so hSS, h.sD], ?_, ?_, ?_, ?_, ?_, ?_⟩
    · rw [Nat.one_mul]; exact h.vA.readablePad hSS h.sA h.pA
    · rw [Nat.one_mul]
      have := h.vC.readablePad hSS h.sC h.pC; rwa [h1, h2] at this
    · intro i j hi hj
      exact h.vD.readable hSS i j (by omega) (by omega)
    · have := h.vD.inj hSS; rwa [h3, h4] at this
    · have := h.vA.disj hSS h.vD h.dA; rwa [h3, h4] at this
    · intro i j i' j' hi hj hi' hj' he
      rw [h.vC.addr hSS, h.vD.addr hSS] at he
      exact h.dC i j i' j' (by omega) (by omega) (by omega) (by omega) he
  obtain ⟨m', e1, e2, e3⟩ := C10_syrk_pointer_value alpha beta pre ((h.vA.holds hSS).2 ha) (c := c)
    (fun i j hi hj => by rw [h.vC.addr hSS]; exact elems_iff.1 hc i j (by omega) (by omega))
  refine ⟨m', ?_, fun i j hi hj => ?_, fun x hx => e3 x (fun i j hi hj => ?_)⟩
  · rw [← e1, MExpr.matAl_eq h.alA, MExpr.matAl_eq h.alC, MExpr.matAl_eq h.alD]
    unfold syrkMat MExpr.mat
    simp [h1, h2, h3, h4]
  · rw [← h.vD.addr hSS]; exact e2 i j (by omega) hj
  · rw [h.vD.addr hSS]; exact hx i j (by omega) hj

/-! ### ger -/

/-- What a caller of `ger(alpha, x, y, A, B)` with a submatrix `A` and a matrix or submatrix `B` has to ensure. Since submatrices are not
declared padded, nothing is demanded of the memory behind the elements of A. -/
structure ViewGerArgs (SS : Nat) (m : Mem V) (x y : VObj) (A B : MExpr) : Prop where
  ss : 0 < SS
  view : ∃ e af i j r c, A = MExpr.submatrix af e i j r c
  vA : ViewOK SS m A
  vB : ViewOK SS m B
  sA : A.so = .columnMajor
  sB : B.so = .columnMajor
  lx : VLive SS m x
  ly : VLive SS m y
  dx : ∀ i, i < x.n → ¬ IsViewElem SS B (x.data + i)
  dy : ∀ j, j < y.n → ¬ IsViewElem SS B (y.data + j)
  dA : ViewsSameOrDisjoint SS A B

/-- **C51** (ger). On submatrices ger leaves `A + alpha*x*yᵀ` in B, reads no cell outside the elements of A (so that the block may end anywhere in its
matrix) and changes no other cell of memory. -/
theorem C51_ger_views [CommRing V] [Arith V] [ExactRing V] {SS : Nat} {m : Mem V} {x y : VObj} {A B : MExpr} (alpha : V)
    (h : ViewGerArgs SS m x y A B) (h1 : A.rows = x.n) (h2 : A.cols = y.n) (h3 : B.rows = x.n) (h4 : B.cols = y.n)
    {xv yv : Nat → V} {a : Nat → Nat → V} (hx : VContains m x xv) (hy : VContains m y yv) (ha : Elems SS m A a) :
    ∃ m', gerMat SS 1 alpha x.arg y.arg (A.mat SS) (B.mat SS) m = .ok () m' ∧
      Elems SS m' B (fun i j => a i j + alpha * xv i * yv j) ∧ (∀ z, ¬ IsViewElem SS B z → m' z = m z) := by
  have hSS := h.ss
  have hpad : (A.mptr SS).padded = false := by
    rw [MExpr.mptr_fields hSS]
    obtain ⟨e, af, i, j, r, c, rfl⟩ := h.view
    cases e <;> rfl
  have pre : GerPre SS 1 x.n y.n x.ptr y.ptr (A.mptr SS) (B.mptr SS) m := by
    refine ⟨hSS, by omega, VObj.colOK h.lx.align, y.rowOK, h.vA.wf hSS, h.vB.wf hSS, by rw [A.mptr_so hSS, h.sA], by rw [B.mptr_so hSS, h.sB],
      ?_, ?_, ?_, ?_, ?_, ?_, ?_, ?_⟩
    · intro i hi
      rw [VObj.ptr_addr]
      rw [Nat.one_mul] at hi
      exact h.lx.alloc _ (VObj.storage_elem hSS hi)
    · intro j hj
      rw [VObj.ptr_addr]
      exact h.ly.alloc _ (VObj.storage_elem hSS (by have := self_le_roundUp (n := y.n) hSS; omega))
    · rw [hpad, Bool.and_false, if_neg (by decide)]
      have := h.vA.readable hSS; rwa [h1, h2] at this
    · have := h.vB.readable hSS; rwa [h3, h4] at this
    · have := h.vB.inj hSS; rwa [h3, h4] at this
    · intro i hi hc
      rw [← h3, ← h4, h.vB.cells hSS, VObj.ptr_addr] at hc
      exact h.dx i hi hc
    · intro i hi hc
      rw [← h3, ← h4, h.vB.cells hSS, VObj.ptr_addr] at hc
      exact h.dy i hi hc
    · intro i j i' j' hi hj hi' hj' he
      rw [h.vA.addr hSS, h.vB.addr hSS] at he
      exact h.dA i j i' j' (by omega) (by omega) (by omega) (by omega) he
  obtain ⟨m', e1, e2, e3⟩ := C09_ger_pointer_value alpha pre (xv := xv) (yv := yv) (a := a)
    (fun i hi => by rw [VObj.ptr_addr]; exact hx i hi) (fun j hj => by rw [VObj.ptr_addr]; exact hy j hj)
    (by have := (h.vA.holds hSS).2 ha; rwa [h1, h2] at this)
  refine ⟨m', ?_, (h.vB.holds hSS).1 (by rw [h3, h4]; exact e2), fun z hz => e3 z (fun hc => hz ?_)⟩
  · rw [← e1]
    unfold gerMat MExpr.mat VObj.arg
    simp [h1, h2, h3, h4]
  · rw [← h3, ← h4, h.vB.cells hSS] at hc; exact hc

/-- the last rows of a row block: a block of 3 rows at the end of a 5×2 matrix, SIMD width 4 -/
def gerViewDemo : MExpr := .submatrix false (.obj ⟨.dynDense, .columnMajor, 5, 2, 0⟩) 2 0 3 2

theorem viewGer_demo : ViewGerArgs 4 demoMem ⟨true, 3, 200⟩ ⟨true, 2, 300⟩ gerViewDemo gerViewDemo := by
  have hok : ViewOK 4 demoMem gerViewDemo :=
    ⟨rfl, by simp [gerViewDemo, MExpr.submatrix, MExpr.Fits, MExpr.rows, MExpr.cols, MExpr.size], demo_live (by decide) (by decide) (by decide),
      fun h => absurd h (by decide)⟩
  have key : ∀ i < 3, ∀ j < 2, gerViewDemo.addr 4 i j < 20 := by decide +kernel
  have nel : ∀ z : Int, 20 ≤ z → ¬ IsViewElem 4 gerViewDemo z := by
    rintro z hz ⟨i, j, hi, hj, rfl⟩
    have := key i hi j hj
    omega
  refine ⟨by decide, ⟨_, _, _, _, _, _, rfl⟩, hok, hok, rfl, rfl, ⟨by decide, ?_⟩, ⟨by decide, ?_⟩,
    fun i _ => nel _ (by show (20 : Int) ≤ 200 + (i : Nat); omega), fun j _ => nel _ (by show (20 : Int) ≤ 300 + (j : Nat); omega), ?_⟩
  · intro z hz
    unfold VObj.Storage VObj.capacity at hz
    have hr : nextMultiple 3 4 = 4 := by decide
    simp only [hr] at hz
    unfold demoMem; rw [if_pos ⟨by omega, by omega⟩]; rfl
  · intro z hz
    unfold VObj.Storage VObj.capacity at hz
    have hr : nextMultiple 2 4 = 4 := by decide
    simp only [hr] at hz
    unfold demoMem; rw [if_pos ⟨by omega, by omega⟩]; rfl
  · intro i j i' j' hi hj hi' hj' he
    exact gerViewDemo.addr_inj (by decide) hok.fits hi hj hi' hj' he

/-! ### trmm -/

/-- What a caller of `trmm(alpha, B, A, UpLo::Lower, false, C)` with submatrices has to ensure. -/
structure ViewTrmmRArgs (SS : Nat) (m : Mem V) (B A C : MExpr) : Prop where
  ss : 0 < SS
  vA : ViewOK SS m A
  vB : ViewOK SS m B
  vC : ViewOK SS m C
  sB : B.so = .columnMajor
  sC : C.so = .columnMajor
  pB : PadInBounds SS B
  dA : ViewsDisjoint SS A C
  dB : ViewsSameOrDisjoint SS B C

/-- **C51** (trmm, right). On submatrices `trmm(alpha, B, A, Lower, false, C)` leaves `alpha*B*lower(A)` in C and changes no other cell. -/
theorem C51_trmm_right_views [CommRing V] [Arith V] [ExactRing V] {SS : Nat} {m : Mem V} {B A C : MExpr} (alpha : V)
    (h : ViewTrmmRArgs SS m B A C) (h1 : A.rows = B.cols) (h2 : A.cols = B.cols) (h3 : C.rows = B.rows) (h4 : C.cols = B.cols)
    {a b : Nat → Nat → V} (ha : Elems SS m A a) (hb : Elems SS m B b) :
    ∃ m', trmmRightMat SS 1 alpha (B.mat SS) (A.mat SS) .lower false (C.mat SS) m = .ok () m' ∧
      Elems SS m' C (fun i j => alpha * ∑ k ∈ range B.cols, b i k * tri .lower false a k j) ∧
      (∀ x, ¬ IsViewElem SS C x → m' x = m x) := by
  have hSS := h.ss
  have dis := h.vA.disj hSS h.vC h.dA
  rw [h1, h2, h3, h4] at dis
  have notC : ∀ k j : Nat, k < B.cols → j < B.cols → ¬ Cells SS (C.mptr SS) B.rows B.cols ((A.mptr SS).addr SS k j) := by
    rintro k j hk hj ⟨i', j', hi', hj', he⟩
    exact dis k j i' j' hk hj hi' hj' he
  have pre : TrmmRPre SS 1 B.rows B.cols (B.mptr SS) (A.mptr SS) (C.mptr SS) m := by
    refine ⟨hSS, by omega, h.vA.wf hSS, h.vB.wf hSS, h.vC.wf hSS, by rw [B.mptr_so hSS, h.sB], by rw [C.mptr_so hSS, h.sC],
      fun _ _ => rfl, ?_, ?_, ?_, ?_, ?_, ?_⟩
    · intro k j hj hk
      exact h.vA.readable hSS k j (by omega) (by omega)
    · rw [Nat.one_mul]; exact h.vB.readablePad hSS h.sB h.pB
    · have := h.vC.readable hSS; rwa [h3, h4] at this
    · have := h.vC.inj hSS; rwa [h3, h4] at this
    · intro k j hj hk
      exact notC k j (by omega) (by omega)
    · intro i j i' j' hi hj hi' hj' he
      rw [h.vB.addr hSS, h.vC.addr hSS] at he
      exact h.dB i j i' j' (by omega) (by omega) (by omega) (by omega) he
  obtain ⟨m', e1, e2, e3⟩ := C13_trmm_right_pointer_value alpha pre (a := a) (b := b)
    (fun k j hk hj _ => ⟨(h.vA.holds hSS).2 ha k j (by omega) (by omega), notC k j hk hj⟩) ((h.vB.holds hSS).2 hb)
  refine ⟨m', ?_, (h.vC.holds hSS).1 (fun i j hi hj => e2 i j (by omega) (by omega)), fun x hx => e3 x ?_⟩
  · rw [← e1]
    unfold trmmRightMat MExpr.mat
    simp [h1, h2, h3, h4]
  · rw [← h3, ← h4, h.vC.cells hSS]; exact hx

/-- What a caller of `trmm(alpha, A, UpLo::Upper, false, B, C)` with submatrices has to ensure. -/
structure ViewTrmmLArgs (SS : Nat) (m : Mem V) (A B C : MExpr) : Prop where
  ss : 0 < SS
  vA : ViewOK SS m A
  vB : ViewOK SS m B
  vC : ViewOK SS m C
  sA : A.so = .columnMajor
  sC : C.so = .columnMajor
  pA : PadInBounds SS A
  dA : ViewsDisjoint SS A C
  dB : ViewsSameOrDisjoint SS B C

theorem ViewTrmmLArgs.pre [Arith V] {SS : Nat} {m : Mem V} {A B C : MExpr} (h : ViewTrmmLArgs SS m A B C) (h1 : A.rows = B.rows) (h2 : A.cols = B.rows)
    (h3 : C.rows = B.rows) (h4 : C.cols = B.cols) : TrmmLPre SS 1 B.rows B.cols (A.mptr SS) (B.mptr SS) (C.mptr SS) m := by
  have hSS := h.ss
  have dis := h.vA.disj hSS h.vC h.dA
  rw [h1, h2, h3, h4] at dis
  refine ⟨hSS, by omega, h.vA.wf hSS, h.vB.wf hSS, h.vC.wf hSS, by rw [A.mptr_so hSS, h.sA], by rw [C.mptr_so hSS, h.sC],
    ?_, ?_, h.vB.readable hSS, ?_, ?_, ?_, ?_⟩
  · intro hp; rw [B.mptr_dense hSS, h.vB.dense] at hp; cases hp
  · intro i k hi hk _
    rw [Nat.one_mul] at hi
    have := h.vA.readablePad hSS h.sA h.pA
    rw [h1, h2] at this
    exact this i k hi hk
  · have := h.vC.readable hSS; rwa [h3, h4] at this
  · have := h.vC.inj hSS; rwa [h3, h4] at this
  · rintro i k hi hk _ ⟨i', j', hi', hj', he⟩
    exact dis i k i' j' hi hk hi' hj' he
  · intro i j i' j' hi hj hi' hj' he
    rw [h.vB.addr hSS, h.vC.addr hSS] at he
    exact h.dB i j i' j' (by omega) (by omega) (by omega) (by omega) he

/-- trmm with an upper triangular matrix on the left returns and changes only elements of C, whatever is below the diagonal of A -/
theorem trmm_left_views_frame [Arith V] {SS : Nat} {m : Mem V} {A B C : MExpr} (alpha : V)
    (h : ViewTrmmLArgs SS m A B C) (h1 : A.rows = B.rows) (h2 : A.cols = B.rows) (h3 : C.rows = B.rows) (h4 : C.cols = B.cols) :
    ∃ m', trmmLeftMat SS 1 alpha (A.mat SS) .upper false (B.mat SS) (C.mat SS) m = .ok () m' ∧ (∀ x, ¬ IsViewElem SS C x → m' x = m x) := by
  obtain ⟨m', e1, _, e3⟩ := trmmLeftPtr_runs (alpha := alpha) (Q := fun _ _ _ => True) (h.pre h1 h2 h3 h4)
    ⟨fun _ _ _ _ _ _ _ _ _ _ => trivial, fun _ _ _ _ _ _ _ _ => trivial⟩
  refine ⟨m', ?_, fun x hx => e3 x ?_⟩
  · rw [← e1]
    unfold trmmLeftMat MExpr.mat
    simp [h1, h2, h3, h4]
  · rw [← h3, ← h4, h.vC.cells h.ss]; exact hx

/-- **C51** (trmm, left). On submatrices `trmm(alpha, A, Upper, false, B, C)` leaves `alpha*A*B` in C and changes no other cell,
provided A is stored with zeros below the diagonal (cf. C11). -/
theorem C51_trmm_left_views [CommRing V] [Arith V] [ExactRing V] {SS : Nat} {m : Mem V} {A B C : MExpr} (alpha : V)
    (h : ViewTrmmLArgs SS m A B C) (h1 : A.rows = B.rows) (h2 : A.cols = B.rows) (h3 : C.rows = B.rows) (h4 : C.cols = B.cols)
    {a b : Nat → Nat → V} (ha : Elems SS m A a) (hz : ∀ i k, k < i → a i k = 0) (hb : Elems SS m B b) :
    ∃ m', trmmLeftMat SS 1 alpha (A.mat SS) .upper false (B.mat SS) (C.mat SS) m = .ok () m' ∧
      Elems SS m' C (fun i j => alpha * ∑ k ∈ range B.rows, a i k * b k j) ∧
      (∀ x, ¬ IsViewElem SS C x → m' x = m x) := by
  have hSS := h.ss
  have pre := h.pre h1 h2 h3 h4
  have hA := (h.vA.holds hSS).2 ha
  rw [h1, h2] at hA
  obtain ⟨m', e1, e2, e3⟩ := C11_trmm_left_pointer_value alpha pre hA hz ((h.vB.holds hSS).2 hb)
  refine ⟨m', ?_, (h.vC.holds hSS).1 (fun i j hi hj => e2 i j (by omega) (by omega)), fun x hx => e3 x ?_⟩
  · rw [← e1]
    unfold trmmLeftMat MExpr.mat
    simp [h1, h2, h3, h4]
  · rw [← h3, ← h4, h.vC.cells hSS]; exact hx

/-! ### getf2, getrf -/

theorem ViewOK.luPre [Arith V] {SS : Nat} {m : Mem V} {e : MExpr} (hSS : 0 < SS) (h : ViewOK SS m e) (hs : e.so = .columnMajor) :
    LuPre SS 1 e.rows e.cols (e.mptr SS) m := by
  refine ⟨hSS, by omega, by rw [e.mptr_dense hSS, h.dense], by rw [e.mptr_so hSS, hs], h.inj hSS, ?_⟩
  intro k i h1 h2 h3
  rw [Nat.one_mul] at h3
  have hi : k + 1 + i < e.rows + SS - 1 + 1 := by
    have : roundUp (e.rows - k - 1) SS < e.rows - k - 1 + SS := by
      unfold roundUp
      have := Nat.div_mul_le_self (e.rows - k - 1 + SS - 1) SS
      omega
    omega
  have ad : ∀ r c : Nat, (e.mptr SS).addr SS r c = e.data SS + r + (e.spacing SS : Int) * c := by
    intro r c
    rw [MExpr.mptr_fields hSS]
    unfold MPtr.addr
    simp [h.dense, hs]
  have hlow := (e.addr_storage hSS h.fits (show 0 < e.rows by omega) (show 0 < e.cols by omega)).1
  rw [← h.addr hSS, ad] at hlow
  have hhi := (e.addr_storage hSS h.fits (show e.rows - 1 < e.rows by omega) (show e.cols - 1 < e.cols by omega)).2
  rw [← h.addr hSS, ad] at hhi
  refine h.live.alloc _ ?_
  rw [ad]
  have hsp : SS ≤ e.spacing SS := by
    rw [MExpr.spacing_base]
    have := e.base.spacing_mod (SS := SS) hSS
    have h0 : 0 < e.base.spacing SS := by
      by_contra h0
      have h0 : e.base.spacing SS = 0 := by omega
      have := h.inj hSS 0 0 0 1 (by omega) (by omega) (by omega) (by omega) (by
        rw [ad, ad, MExpr.spacing_base, h0]; simp)
      omega
    exact Nat.le_of_dvd h0 (Nat.dvd_of_mod_eq_zero this)
  have hk : (e.spacing SS : Int) * k + e.spacing SS ≤ (e.spacing SS : Int) * ((e.cols - 1 : Nat) : Int) := by
    have : (e.spacing SS : Int) * k + e.spacing SS = (e.spacing SS : Int) * ((k + 1 : Nat) : Int) := by push_cast; ring
    rw [this]
    exact Int.mul_le_mul_of_nonneg_left (by omega) (by omega)
  have hk0 : 0 ≤ (e.spacing SS : Int) * k := Int.mul_nonneg (by omega) (by omega)
  unfold Container.Storage
  constructor
  · push_cast; push_cast at hlow; omega
  · push_cast; omega

theorem ViewOK.getrfPre [Arith V] {SS : Nat} {m : Mem V} {e : MExpr} (hSS : 0 < SS) (h : ViewOK SS m e) (hs : e.so = .columnMajor)
    (hp : PadInBounds SS e) : GetrfPre SS 1 e.rows e.cols (e.mptr SS) m :=
  ⟨h.luPre hSS hs, h.wf hSS, h.readablePad hSS hs hp⟩

section
variable [Field V] [LinearOrder V] [IsStrictOrderedRing V] [Arith V] [ExactOrd V]

/-- **C51** (getf2). On a column-major submatrix - at any position, aligned or not - getf2 returns exactly if the leading columns are
linearly independent, then the block holds the factors and no cell outside the block has changed; otherwise it throws
std::invalid_argument, again without touching anything outside the block. -/
theorem C51_getf2_views {SS : Nat} (hSS : 0 < SS) {m : Mem V} {e : MExpr} (h : ViewOK SS m e) (hs : e.so = .columnMajor)
    {a : Nat → Nat → V} (ha : Elems SS m e a) (ip : Nat → Nat) :
    (ColsIndep e.rows (min e.rows e.cols) a ∧ ∃ p m' b, getf2Ptr SS 1 e.rows e.cols (e.mptr SS) ip m = .ok p m' ∧
      Elems SS m' e b ∧ IsLU e.rows e.cols a b p ∧ (∀ x, ¬ IsViewElem SS e x → m' x = m x)) ∨
    (¬ ColsIndep e.rows (min e.rows e.cols) a ∧ ∃ m', getf2Ptr SS 1 e.rows e.cols (e.mptr SS) ip m = .throw .invalidArgument m' ∧
      (∀ x, ¬ IsViewElem SS e x → m' x = m x)) := by
  have ho := getf2_outcome (h.luPre hSS hs) ((h.holds hSS).2 ha) ip
  by_cases hc : ColsIndep e.rows (min e.rows e.cols) a
  · obtain ⟨p, m', e1⟩ := ho.full hc
    obtain ⟨b, b1, b2, -, -, -, -, b3⟩ := ho.ret p m' e1
    exact Or.inl ⟨hc, p, m', b, e1, (h.holds hSS).1 b1, b2, fun x hx => b3 x (fun hh => hx ((h.cells hSS x).1 hh))⟩
  · obtain ⟨m', e1, e2⟩ := ho.sing hc
    exact Or.inr ⟨hc, m', e1, fun x hx => e2 x (fun hh => hx ((h.cells hSS x).1 hh))⟩

/-- **C51** (getrf). The same for the blocked algorithm. -/
theorem C51_getrf_views {SS : Nat} (hSS : 0 < SS) {m : Mem V} {e : MExpr} (h : ViewOK SS m e) (hs : e.so = .columnMajor)
    (hp : PadInBounds SS e) {a : Nat → Nat → V} (ha : Elems SS m e a) (ip : Nat → Nat) :
    (ColsIndep e.rows (min e.rows e.cols) a ∧ ∃ p m' b, getrfPtr SS 1 e.rows e.cols (e.mptr SS) ip m = .ok p m' ∧
      Elems SS m' e b ∧ IsLU e.rows e.cols a b p ∧ (∀ x, ¬ IsViewElem SS e x → m' x = m x)) ∨
    (¬ ColsIndep e.rows (min e.rows e.cols) a ∧ ∃ m', getrfPtr SS 1 e.rows e.cols (e.mptr SS) ip m = .throw .invalidArgument m' ∧
      (∀ x, ¬ IsViewElem SS e x → m' x = m x)) := by
  have ho := getrf_outcome (h.getrfPre hSS hs hp) ((h.holds hSS).2 ha) ip
  by_cases hc : ColsIndep e.rows (min e.rows e.cols) a
  · obtain ⟨p, m', e1⟩ := ho.full hc
    obtain ⟨b, b1, b2, -, -, -, -, b3⟩ := ho.ret p m' e1
    exact Or.inl ⟨hc, p, m', b, e1, (h.holds hSS).1 b1, b2, fun x hx => b3 x (fun hh => hx ((h.cells hSS x).1 hh))⟩
  · obtain ⟨m', e1, e2⟩ := ho.sing hc
    exact Or.inr ⟨hc, m', e1, fun x hx => e2 x (fun hh => hx ((h.cells hSS x).1 hh))⟩

/-- **C51** (trsm). On submatrices trsm leaves in X the solution of `tri(A)*X = B` and changes no other cell. -/
theorem C51_trsm_views {SS : Nat} (hSS : 0 < SS) {m : Mem V} {A B X : MExpr} (uplo : Reg.UpLo) (unit : Bool)
    (vA : ViewOK SS m A) (vB : ViewOK SS m B) (vX : ViewOK SS m X) (dA : ViewsDisjoint SS A X)
    (dB : ViewsSameOrDisjoint SS B X) (h1 : A.rows = B.rows) (h2 : A.cols = B.rows) (h3 : X.rows = B.rows) (h4 : X.cols = B.cols)
    {a b : Nat → Nat → V} (ha : Elems SS m A a) (hb : Elems SS m B b) (hnz : unit = false → ∀ i, i < A.rows → a i i ≠ 0) :
    ∃ m' x, trsmMat SS uplo unit (A.mat SS) (B.mat SS) (X.mat SS) m = .ok () m' ∧ Elems SS m' X x ∧
      (∀ i j, i < X.rows → j < X.cols → ∑ k ∈ range A.cols, tri uplo unit a i k * x k j = b i j) ∧
      (∀ z, ¬ IsViewElem SS X z → m' z = m z) := by
  have dis := vA.disj hSS vX dA
  rw [h1, h2, h3, h4] at dis
  have hA := (vA.holds hSS).2 ha
  rw [h1, h2] at hA
  obtain ⟨m', x, e1, e2, e3, e4⟩ := C27_trsm_solves (SS := SS) (m := B.rows) (n := B.cols) (A := A.mptr SS) (X := X.mptr SS)
    (B := B.mptr SS) uplo unit (mem := m) (a := a) (b := b)
    (fun i k hi hk _ => ⟨hA i k hi hk, by rintro ⟨i', j', hi', hj', he⟩; exact dis i k i' j' hi hk hi' hj' he⟩)
    (by rw [h1] at hnz; exact hnz) (by have := vX.readable hSS; rwa [h3, h4] at this)
    (by have := vX.inj hSS; rwa [h3, h4] at this) ((vB.holds hSS).2 hb)
    (by
      intro i j i' j' hi hj hi' hj' he
      rw [vB.addr hSS, vX.addr hSS] at he
      exact dB i j i' j' (by omega) (by omega) (by omega) (by omega) he)
  refine ⟨m', x, ?_, (vX.holds hSS).1 (fun i j hi hj => e2 i j (by omega) (by omega)), fun i j hi hj => ?_, fun z hz => e4 z ?_⟩
  · rw [C27_trsm_size_check, if_pos (show _ from ⟨⟨h1, h2⟩, h3, h4⟩)]
    exact e1
  · rw [h2]; exact e3 i j (by omega) (by omega)
  · rw [← h3, ← h4, vX.cells hSS]; exact hz
end

/-! ### potrf -/

/-- What a caller of `potrf(A, L)` with submatrices has to ensure: aligned column-major submatrices; L is A or does not overlap it; -/
structure ViewPotrfArgs (SS TR : Nat) (m : Mem V) (A L : MExpr) : Prop where
  ss : 0 < SS
  tr : 0 < TR
  vA : ViewOK SS m A
  vL : ViewOK SS m L
  sA : A.so = .columnMajor
  sL : L.so = .columnMajor
  alA : A.aligned = true
  alL : L.aligned = true
  d : ViewsSameOrDisjoint SS A L
  /-- the columns are complete strips, starting at aligned rows -/
  cols : A.cols % 4 = 0
  al : ∀ k, k % 4 = 0 → k < A.cols → k % SS = 0
  tile : 4 ≤ TR * SS
  /-- the rows below each strip are complete tiles: see `C51_potrf_view_overwrites_refuted` -/
  rows : ∀ k, k % 4 = 0 → k < A.cols → (A.rows - k) % (TR * SS) = 0

/-- potrf on submatrices returns and changes only the lower triangle of L; if A is positive definite, it is the Cholesky factor. -/
theorem potrf_views_runs [Field V] [LinearOrder V] [IsStrictOrderedRing V] [Arith V] [ExactSqrt V] {SS TR : Nat} {m : Mem V}
    {A L : MExpr} (h : ViewPotrfArgs SS TR m A L) (h1 : A.cols ≤ A.rows) (h2 : L.rows = A.rows) (h3 : L.cols = A.cols)
    {a : Nat → Nat → V} (ha : Elems SS m A a) :
    ∃ m' l, potrfDenseMat SS TR (A.matAl SS) (L.matAl SS) m = .ok () m' ∧
      (∀ i j, j ≤ i → i < L.rows → j < L.cols → m' (L.addr SS i j) = some (l i j)) ∧ (LowerPosDef A.cols a → IsCholesky A.rows A.cols l a) ∧
      (∀ x, (∀ i j, j ≤ i → i < L.rows → j < L.cols → x ≠ L.addr SS i j) → m' x = m x) := by
  have hSS := h.ss
  have rA := h.vA.readable hSS
  have rL := h.vL.readable hSS
  rw [h2, h3] at rL
  have hru : roundUp A.cols 4 = A.cols := roundUp_of_mod (by decide) h.cols
  have pre : PotrfPre SS TR 4 A.rows A.cols A.rows (fun r c => c ≤ r) (A.mptr SS) (L.mptr SS) m := by
    refine ⟨hSS, h.tr, by decide, h.tile, h1, le_refl _, h.vA.wf hSS, h.vL.wf hSS, by rw [A.mptr_so hSS, h.sA],
      by rw [L.mptr_so hSS, h.sL], fun _ _ h => h, fun r c h => by omega, fun r c q h hq => by omega, h.al, ?_, ?_, ?_, ?_, ?_⟩
    · intro k x hk hkN hx
      obtain ⟨q, hq⟩ := Nat.dvd_of_mod_eq_zero (h.rows k hk hkN)
      have hT : 0 < TR * SS := Nat.mul_pos h.tr hSS
      have : x < q := by
        by_contra hc
        have := Nat.mul_le_mul_left (TR * SS) (show q ≤ x by omega)
        rw [Nat.mul_comm x] at hx
        omega
      have := Nat.mul_le_mul_left (TR * SS) (show x + 1 ≤ q by omega)
      rw [Nat.mul_comm (x + 1)]
      omega
    · intro r c _ hr hc
      exact rA r c hr (by omega)
    · intro r c _ hr hc
      exact rL r c hr (by omega)
    · intro r c r' c' _ hr hc _ hr' hc' he
      exact h.vL.inj hSS r c r' c' (by omega) (by omega) (by omega) (by omega) he
    · intro r c r' c' _ hr hc _ hr' hc' he
      rw [h.vA.addr hSS, h.vL.addr hSS] at he
      exact h.d r c r' c' (by omega) (by omega) (by omega) (by omega) he
  obtain ⟨m', e1, e2, e3, e4⟩ := potrfDensePtr_correct pre
  refine ⟨m', fun r c => val m' ((L.mptr SS).addr SS r c), ?_, ?_, ?_, ?_⟩
  · rw [MExpr.matAl_eq h.alA, MExpr.matAl_eq h.alL, ← e1]
    unfold potrfDenseMat MExpr.mat
    simp only
    rw [if_neg (by omega), if_neg (by omega), if_neg (by omega)]
  · intro i j hji hi hj
    have := e3 _ (rL i j (by omega) (by omega))
    rw [Option.isSome_iff_exists] at this
    obtain ⟨v, hv⟩ := this
    unfold val
    beta_reduce
    rw [← h.vL.addr hSS, hv]; rfl
  · intro hpd
    refine PotRec.cholesky (by decide) h.tile h1 hpd (fun r c hcr hr hc => ?_)
    have hA := (h.vA.holds hSS).2 ha
    refine (e4 r c hcr hr hc).congr (fun _ _ => rfl) (fun _ _ => rfl) ?_ ?_
    · rw [ExactRing.mul_eq, ExactRing.one_eq, one_mul, hA.val hr hc]
    · rw [ExactRing.mul_eq, ExactRing.one_eq, one_mul, hA.val (show c < A.rows by omega) hc]
  · intro x hx
    refine e2 x (fun r c hcr hc hr => ?_)
    have : potRows 4 A.rows A.cols A.rows c ≤ A.rows := potRows_le (le_refl _) c
    rw [h.vL.addr hSS]
    exact hx r c hcr (by omega) (by omega)

/-- **C51** (potrf). If the sizes of the submatrices are suitable multiples of the tile size, potrf leaves the Cholesky factor in the
lower triangle of L, and changes no other cell: neither elements of L above the diagonal nor other elements of the enclosing matrix. -/
theorem C51_potrf_views [Field V] [LinearOrder V] [IsStrictOrderedRing V] [Arith V] [ExactSqrt V] {SS TR : Nat} {m : Mem V}
    {A L : MExpr} (h : ViewPotrfArgs SS TR m A L) (h1 : A.cols ≤ A.rows) (h2 : L.rows = A.rows) (h3 : L.cols = A.cols)
    {a : Nat → Nat → V} (ha : Elems SS m A a) (hpd : LowerPosDef A.cols a) :
    ∃ m' l, potrfDenseMat SS TR (A.matAl SS) (L.matAl SS) m = .ok () m' ∧
      (∀ i j, j ≤ i → i < L.rows → j < L.cols → m' (L.addr SS i j) = some (l i j)) ∧ IsCholesky A.rows A.cols l a ∧
      (∀ x, (∀ i j, j ≤ i → i < L.rows → j < L.cols → x ≠ L.addr SS i j) → m' x = m x) := by
  obtain ⟨m', l, e1, e2, e3, e4⟩ := potrf_views_runs h h1 h2 h3 ha
  exact ⟨m', l, e1, e2, e3 hpd, e4⟩

/-- memory of the counterexample: two 8×4 column-major matrices; the first one (A) is at 0: twos on the diagonal, 3 below row 4,
0 elsewhere; the second one (L) is at 32 and contains 7s -/
def potrfViewMem : Mem Rat := fun z =>
  if 0 ≤ z ∧ z < 32 then some (if z % 8 = z / 8 then 2 else if z % 8 < 5 then 0 else 3) else if 32 ≤ z ∧ z < 64 then some 7 else none

/-- **C51** (potrf, the general claim fails). potrf stores complete tiles: applied to the top 5 rows of an 8×4 matrix it overwrites the
row below them. -/
theorem C51_potrf_view_overwrites_refuted :
    ∃ m', potrfDenseMat 4 1 ((MExpr.sub (.obj ⟨.dynDense, .columnMajor, 8, 4, 0⟩) true 0 0 5 4).matAl 4)
        ((MExpr.sub (.obj ⟨.dynDense, .columnMajor, 8, 4, 32⟩) true 0 0 5 4).matAl 4) potrfViewMem = .ok () m' ∧
      potrfViewMem ((⟨.dynDense, .columnMajor, 8, 4, 32⟩ : Container).addr 4 5 0) = some 7 ∧
      m' ((⟨.dynDense, .columnMajor, 8, 4, 32⟩ : Container).addr 4 5 0) = some (3 / 2) := by
  obtain ⟨m', h1, h2⟩ := ok_of_okCell
    (r := potrfDenseMat 4 1 ((MExpr.sub (.obj ⟨.dynDense, .columnMajor, 8, 4, 0⟩) true 0 0 5 4).matAl 4)
        ((MExpr.sub (.obj ⟨.dynDense, .columnMajor, 8, 4, 32⟩) true 0 0 5 4).matAl 4) potrfViewMem)
    (x := (⟨.dynDense, .columnMajor, 8, 4, 32⟩ : Container).addr 4 5 0) (v := some (3/2)) (by decide +kernel)
  exact ⟨m', h1, by decide +kernel, h2⟩

/-- **C51** (syrk, unaligned submatrices fail). syrkLower uses aligned loads even if the argument is declared unaligned: undefined
behaviour for the 4×4 submatrix at row 1. -/
theorem C51_syrk_unaligned_view_refuted :
    syrkMat 4 1 (1 : Rat) ((MExpr.sub (.obj ⟨.dynDense, .columnMajor, 8, 2, 0⟩) false 1 0 4 2).matAl 4) 0
      ((MExpr.obj ⟨.dynDense, .columnMajor, 4, 4, 100⟩).matAl 4) ((MExpr.obj ⟨.dynDense, .columnMajor, 4, 4, 200⟩).matAl 4) demoMem = .ub := by
  refine ub_of_isUb ?_
  decide +kernel

/-! ### Examples: blocks of the 10×9 matrix `viewObj` -/

theorem viewOK_of {m : Mem V} (hl : Live 4 m viewObj) {af : Bool} {i j r n : Nat} (hr : i + r ≤ 10) (hn : j + n ≤ 9) (hal : af = true → i % 4 = 0) :
    ViewOK 4 m (.sub (.obj viewObj) af i j r n) := by
  refine ⟨rfl, ⟨trivial, hr, hn⟩, hl, fun h => ?_⟩
  have h : af = true := h
  have h0 := hal h
  show viewObj.addr 4 i j % ((4 : Nat) : Int) = 0
  rw [MExpr.dense_addr _ rfl]
  show ((0 : Int) + i + ((12 : Nat) : Int) * j) % ((4 : Nat) : Int) = 0
  omega

theorem viewOK_demo {af : Bool} {i j r n : Nat} (hr : i + r ≤ 10) (hn : j + n ≤ 9) (hal : af = true → i % 4 = 0) :
    ViewOK 4 demoMem (.sub (.obj viewObj) af i j r n) := viewOK_of viewObj_live hr hn hal

theorem viewElems_demo (af : Bool) {i j r n : Nat} (hr : i + r ≤ 10) (hn : j + n ≤ 9) :
    Elems 4 demoMem (.sub (.obj viewObj) af i j r n) (fun k l => Blast.val demoMem (viewObj.addr 4 (i + k) (j + l))) :=
  C39_submatrix_elements af viewObj_elems hr hn

theorem sameView_demo {af : Bool} {i j r n : Nat} (hr : i + r ≤ 10) (hn : j + n ≤ 9) :
    ViewsSameOrDisjoint 4 (.sub (.obj viewObj) af i j r n) (.sub (.obj viewObj) af i j r n) := by
  intro a b a' b' h1 h2 h3 h4 he
  exact MExpr.addr_inj (SS := 4) (by decide) (.sub (.obj viewObj) af i j r n) ⟨trivial, hr, hn⟩ h1 h2 h3 h4 he

/-- C51: syrk on blocks of one matrix; rows 4-8 -/
theorem viewSyrk_demo : ViewSyrkArgs 4 demoMem (.sub (.obj viewObj) true 4 0 5 3) (.sub (.obj viewObj) true 4 4 5 5)
    (.sub (.obj viewObj) true 4 4 5 5) where
  ss := by decide
  vA := viewOK_demo (by decide) (by decide) (by decide)
  vC := viewOK_demo (by decide) (by decide) (by decide)
  vD := viewOK_demo (by decide) (by decide) (by decide)
  sA := rfl
  sC := rfl
  sD := rfl
  alA := rfl
  alC := rfl
  alD := rfl
  pA := C49_padInBounds_of_aligned_row (by decide) viewObj rfl rfl true (by decide) (by decide) (by decide)
  pC := C49_padInBounds_of_aligned_row (by decide) viewObj rfl rfl true (by decide) (by decide) (by decide)
  dA := by
    have : ∀ i < 5, ∀ j < 3, ∀ i' < 5, ∀ j' < 5, (MExpr.sub (.obj viewObj) true 4 0 5 3).addr 4 i j ≠
      (MExpr.sub (.obj viewObj) true 4 4 5 5).addr 4 i' j' := by decide +kernel
    exact fun i j i' j' h1 h2 h3 h4 => this i h1 j h2 i' h3 j' h4
  dC := sameView_demo (by decide) (by decide)

/-- C51: trmm from the left and from the right on unaligned blocks of one matrix -/
theorem viewTrmmL_of {m : Mem V} (hl : Live 4 m viewObj) : ViewTrmmLArgs 4 m (.sub (.obj viewObj) true 4 0 3 3) (.sub (.obj viewObj) false 1 4 3 5)
    (.sub (.obj viewObj) false 1 4 3 5) where
  ss := by decide
  vA := viewOK_of hl (by decide) (by decide) (by decide)
  vB := viewOK_of hl (by decide) (by decide) (by decide)
  vC := viewOK_of hl (by decide) (by decide) (by decide)
  sA := rfl
  sC := rfl
  pA := C49_padInBounds_of_aligned_row (by decide) viewObj rfl rfl true (by decide) (by decide) (by decide)
  dA := by
    have : ∀ i < 3, ∀ j < 3, ∀ i' < 3, ∀ j' < 5, (MExpr.sub (.obj viewObj) true 4 0 3 3).addr 4 i j ≠
      (MExpr.sub (.obj viewObj) false 1 4 3 5).addr 4 i' j' := by decide +kernel
    exact fun i j i' j' h1 h2 h3 h4 => this i h1 j h2 i' h3 j' h4
  dB := sameView_demo (by decide) (by decide)

theorem viewTrmmR_demo : ViewTrmmRArgs 4 demoMem (.sub (.obj viewObj) true 4 0 5 3) (.sub (.obj viewObj) false 1 4 3 3)
    (.sub (.obj viewObj) true 4 0 5 3) where
  ss := by decide
  vA := viewOK_demo (by decide) (by decide) (by decide)
  vB := viewOK_demo (by decide) (by decide) (by decide)
  vC := viewOK_demo (by decide) (by decide) (by decide)
  sB := rfl
  sC := rfl
  pB := C49_padInBounds_of_aligned_row (by decide) viewObj rfl rfl true (by decide) (by decide) (by decide)
  dA := by
    have : ∀ i < 3, ∀ j < 3, ∀ i' < 5, ∀ j' < 3, (MExpr.sub (.obj viewObj) false 1 4 3 3).addr 4 i j ≠
      (MExpr.sub (.obj viewObj) true 4 0 5 3).addr 4 i' j' := by decide +kernel
    exact fun i j i' j' h1 h2 h3 h4 => this i h1 j h2 i' h3 j' h4
  dB := sameView_demo (by decide) (by decide)

/-- C51: LU factorization of the unaligned block of rows 1-5 and columns 3-8 -/
example : ViewOK 4 demoMem (.sub (.obj viewObj) false 1 3 5 6) ∧ ∃ a, Elems 4 demoMem (.sub (.obj viewObj) false 1 3 5 6) a :=
  ⟨viewOK_demo (by decide) (by decide) (by decide), _, viewElems_demo false (by decide) (by decide)⟩

/-- C51: potrf of an 8×4 block in place -/
theorem viewPotrf_of {m : Mem V} (hl : Live 4 m viewObj) : ViewPotrfArgs 4 1 m (.sub (.obj viewObj) true 0 3 8 4) (.sub (.obj viewObj) true 0 3 8 4) where
  ss := by decide
  tr := by decide
  vA := viewOK_of hl (by decide) (by decide) (by decide)
  vL := viewOK_of hl (by decide) (by decide) (by decide)
  sA := rfl
  sL := rfl
  alA := rfl
  alL := rfl
  d := sameView_demo (by decide) (by decide)
  cols := by decide
  al := fun k h _ => h
  tile := by decide
  rows := by
    intro k h1 h2
    have h2 : k < 4 := h2
    have : k = 0 := by omega
    subst this; rfl

end Blast
