import Verif.ReferenceTrmm
import Verif.Props.Reference
import Verif.Props.Trmm
import Verif.Determined
/- Concrete cases meeting the hypotheses of these theorems: Verif/Cases/ReferenceTrmm.lean, and the examples in this file. -/
/-
C93: what `reference::trmm` computes for matrices (left multiplication) depends on the headers that are included.
-/
namespace Blast
open Finset Prog
open Reg (UpLo)
variable {V : Type}

/-- **C93** (algorithm/Trmm.hpp not included, or A or C row-major). The call runs the reference algorithm and leaves `alpha * tri(A) * B` in C, for both triangles and both kinds
of diagonal; only the selected triangle of A is read; C may be B. -/
theorem C93_reference [CommRing V] [Arith V] [ExactRing V] {included : Bool} {SS TR : Nat} {A B C : Container} (uplo : UpLo) (diag : Bool) (alpha : V)
    (hinc : included = false ∨ A.so = .rowMajor ∨ C.so = .rowMajor) (hSS : 0 < SS) (hs : TrmmLSizes A B C) {m : Mem V} {a b : Nat → Nat → V}
    (lA : Live SS m A) (lB : Live SS m B) (lC : Live SS m C) (hA : ∀ i k, i < B.rows → k < B.rows → TriRef uplo diag i k → m (A.addr SS i k) = some (a i k))
    (hb : Contains SS m B b) (hAC : Apart SS A C) (hBC : B = C ∨ Apart SS B C) :
    ∃ m', refTrmmLMatTU included SS TR alpha (A.mat SS) uplo diag (B.mat SS) (C.mat SS) m = .ok () m' ∧
      Contains SS m' C (fun i j => alpha * ∑ k ∈ range B.rows, tri uplo diag a i k * b k j) ∧ OnlyElemsChange SS m m' C := by
  obtain ⟨⟨e1, e2⟩, e3, e4⟩ := hs
  have so : ∀ c : Container, (c.mptr SS).so = c.so := fun c => by rw [Container.mptr_eq]; rfl
  have rC := lC.readable hSS
  have iC := Container.inj (SS := SS) hSS C
  rw [e3, e4] at rC iC
  have hst : ∀ (c : Container) i j, i < c.rows → j < c.cols → c.Storage SS ((c.mptr SS).addr SS (i : Nat) (j : Nat)) := fun c i j hi hj => by
    rw [← Container.addr_eq_mptr]; exact c.addr_storage hSS hi hj
  have hB : SameOrDisj SS (B.mptr SS) (C.mptr SS) B.rows B.cols := by
    intro i j i' j' h1 h2 h3 h4 he
    rcases hBC with h | h
    · rw [h] at he
      exact iC _ _ _ _ h1 h2 h3 h4 he
    · exact absurd (he ▸ hst C i' j' (by omega) (by omega)) (h _ (hst B i j h1 h2))
  obtain ⟨m', f1, f2, f3⟩ := C30_trmm_left hSS (A.mptr_wf hSS lA.align) (B.mptr_wf hSS lB.align) (C.mptr_wf hSS lC.align) uplo diag alpha (mem := m) (a := a) (b := b)
    (m := B.rows) (n := B.cols) (fun i k hi hk hr => ⟨by rw [← Container.addr_eq_mptr]; exact hA i k hi hk hr, fun ⟨i', j', h1, h2, he⟩ =>
      hAC _ (hst A i k (by omega) (by omega)) (he ▸ hst C i' j' (by omega) (by omega))⟩) rC iC hb.holds hB
  refine ⟨m', ?_, fun i j hi hj => ?_, fun z hz => f3 z (fun hc => hz ((cells_iff C z).1 (by rw [e3, e4]; exact hc)))⟩
  · unfold refTrmmLMatTU
    rw [if_neg (by simp only [Container.mat]; omega), if_neg]
    · exact f1
    · rintro ⟨h1, h2, h3⟩
      have h2' : A.so = .columnMajor := (so A).symm.trans h2
      have h3' : C.so = .columnMajor := (so C).symm.trans h3
      rcases hinc with h | h | h
      · rw [h1] at h; cases h
      · rw [h2'] at h; cases h
      · rw [h3'] at h; cases h
  · rw [Container.addr_eq_mptr]; exact f2 i j (by omega) (by omega)

/-- **C93** (algorithm/Trmm.hpp included, A and C column-major). The "reference" function is the optimized one: the two calls have the same outcome in every memory. -/
theorem C93_optimized [Arith V] {SS TR : Nat} (alpha : V) (A : Container) (uplo : UpLo) (diag : Bool) (B C : Container) (hA : A.so = .columnMajor) (hC : C.so = .columnMajor) :
    refTrmmLMatTU true SS TR alpha (A.mat SS) uplo diag (B.mat SS) (C.mat SS) = trmmLeftCall SS TR alpha A uplo diag B C := by
  have so : ∀ c : Container, (c.mptr SS).so = c.so := fun c => by rw [Container.mptr_eq]; rfl
  unfold refTrmmLMatTU trmmLeftCall trmmLeftMat
  have h : true = true ∧ (A.mat SS).p.so = .columnMajor ∧ (C.mat SS).p.so = .columnMajor := ⟨rfl, (so A).trans hA, (so C).trans hC⟩
  rw [if_pos h]
  by_cases h1 : (A.mat SS).rows ≠ (B.mat SS).rows ∨ (A.mat SS).cols ≠ (B.mat SS).rows
  · rw [if_pos h1, if_pos (by tauto)]
  · rw [if_neg h1]
    by_cases h2 : (C.mat SS).rows ≠ (B.mat SS).rows ∨ (C.mat SS).cols ≠ (B.mat SS).cols
    · rw [if_pos h2, if_pos (by tauto)]
    · rw [if_neg h2, if_neg (by tauto)]

/-- **C93** (consequence). Then the lower triangle and the unit diagonal, which the documentation of the reference function promises, are rejected. -/
theorem C93_optimized_rejects [Arith V] {SS TR : Nat} {m : Mem V} {A B C : Container} (alpha : V) (uplo : UpLo) (diag : Bool) (hA : A.so = .columnMajor) (hC : C.so = .columnMajor)
    (hs : TrmmLSizes A B C) (h : diag = true ∨ uplo = .lower) :
    refTrmmLMatTU true SS TR alpha (A.mat SS) uplo diag (B.mat SS) (C.mat SS) m = .throw .logicError m := by
  rw [C93_optimized alpha A uplo diag B C hA hC]
  exact (C14_trmm_left_rejects alpha uplo diag).2 hs h

/-- **C93** (the two agree on triangular matrices). In exact arithmetic, if the elements of A below the diagonal are zero, the result does not depend on the headers. -/
theorem C93_agree [CommRing V] [Arith V] [ExactRing V] {SS : Nat} {m : Mem V} {A B C : Container} (alpha : V)
    (h : TrmmLArgs SS m A B C) (hs : TrmmLSizes A B C) {a b : Nat → Nat → V}
    (ha : Contains SS m A a) (hz : ∀ i k, k < i → a i k = 0) (hb : Contains SS m B b) (included : Bool) :
    ∃ m', refTrmmLMatTU included SS 1 alpha (A.mat SS) .upper false (B.mat SS) (C.mat SS) m = .ok () m' ∧
      Contains SS m' C (fun i j => alpha * ∑ k ∈ range B.rows, a i k * b k j) ∧ OnlyElemsChange SS m m' C := by
  cases included with
  | true =>
    rw [C93_optimized alpha A .upper false B C h.sA h.sC]
    exact C11_trmm_left_value alpha h hs ha hz hb
  | false =>
    obtain ⟨m', f1, f2, f3⟩ := C93_reference (included := false) (TR := 1) .upper false alpha (Or.inl rfl) h.ss hs h.lA h.lB h.lC
      (fun i k hi hk _ => ha i k (by have := hs.1.1; omega) (by have := hs.1.2; omega)) hb h.dA h.dB
    refine ⟨m', f1, fun i j hi hj => ?_, f3⟩
    rw [f2 i j hi hj]
    refine congrArg (fun x => some (alpha * x)) (sum_congr rfl (fun k _ => ?_))
    rcases Nat.lt_trichotomy i k with hlt | rfl | hgt
    · rw [tri_upper hlt]
    · rw [tri_diag]; rfl
    · rw [tri_upper_zero hgt, hz i k hgt]

/-! ### The result depends on the headers -/

/-- 2 × 2 matrices of ones: A at 0, B at 8, C at 16, E at 24 -/
def trmmTuMem : Mem Rat := fun x => if 0 ≤ x ∧ x < 32 then some 1 else none

abbrev trmmTuA : Container := ⟨.dynDense, .columnMajor, 2, 2, 0⟩
abbrev trmmTuB : Container := ⟨.dynDense, .rowMajor, 2, 2, 8⟩
abbrev trmmTuC : Container := ⟨.dynDense, .columnMajor, 2, 2, 16⟩

/-- **C93** (refutation). "The strictly lower triangular part of A is not referenced" (reference/Trmm.hpp:150-153) and "reference implementation" hold only if algorithm/Trmm.hpp is not
included: for 2 × 2 matrices of ones the element (1, 0) of the result is 1 without and 2 with the header. -/
theorem C93_headers_refuted :
    TrmmLSizes trmmTuA trmmTuB trmmTuC ∧ Contains 4 trmmTuMem trmmTuA (fun _ _ => 1) ∧ Contains 4 trmmTuMem trmmTuB (fun _ _ => 1) ∧
    (∃ m', refTrmmLMatTU false 4 1 (1 : Rat) (trmmTuA.mat 4) .upper false (trmmTuB.mat 4) (trmmTuC.mat 4) trmmTuMem = .ok () m' ∧ m' (trmmTuC.addr 4 1 0) = some 1) ∧
    (∃ m', refTrmmLMatTU true 4 1 (1 : Rat) (trmmTuA.mat 4) .upper false (trmmTuB.mat 4) (trmmTuC.mat 4) trmmTuMem = .ok () m' ∧ m' (trmmTuC.addr 4 1 0) = some 2) := by
  refine ⟨by decide, fun i j hi hj => ?_, fun i j hi hj => ?_, ?_, ?_⟩
  · have : ∀ i < 2, ∀ j < 2, trmmTuMem (trmmTuA.addr 4 i j) = some 1 := by decide +kernel
    exact this i hi j hj
  · have : ∀ i < 2, ∀ j < 2, trmmTuMem (trmmTuB.addr 4 i j) = some 1 := by decide +kernel
    exact this i hi j hj
  · refine ok_of_okCell ?_
    decide +kernel
  · refine ok_of_okCell ?_
    decide +kernel
end Blast
