import Verif.Props.MatrixForm
import Verif.Cases.Gemm
import Verif.Cases.Ger
import Verif.Cases.Trmm
import Verif.Cases.Lu
import Verif.Cases.Potrf
import Verif.Cases.Reference
import Mathlib.Data.Real.StarOrdered
/-
Concrete cases of the theorems in Props/MatrixForm.
-/
namespace Blast
open Finset Reg

/-- the matrix object holds the matrix of its entries -/
theorem isMat_of {V : Type} {SS : Nat} {m : Mem V} {A : Container} {f : Nat → Nat → V} (h : Contains SS m A f) :
    IsMat SS m A (Matrix.of fun (i : Fin A.rows) (j : Fin A.cols) => f i j) := IsMat.of rfl rfl h (fun _ _ => rfl)

theorem isVec_of {V : Type} {m : Mem V} {x : VObj} {f : Nat → V} (h : VContains m x f) : IsVec m x (fun i : Fin x.n => f i) :=
  ⟨rfl, fun i => h i i.2⟩

/-! ### C79 -/

/-- `2 A B + 3 C` for a 5 × 3 dense, a 3 × 7 row-major panel and a 5 × 7 panel matrix -/
example := C79_gemm (V := Rat) (M := 5) (N := 7) (K := 3) 2 3 demo_args (isMat_of (demo_contains lit lit)) (isMat_of (demo_contains lit lit))
  (isMat_of (demo_contains lit lit)) rfl rfl

example := C79_ger (V := Rat) (M := 5) (N := 7) 2 ger_case (isVec_of (memOf_vcontains lit lit)) (isVec_of (memOf_vcontains lit lit))
  (isMat_of (memOf_contains lit lit lit)) rfl rfl

example := C79_syrk (V := Rat) (n := 6) (K := 3) 2 3 syrk_case (isMat_of (memOf_contains lit lit lit))
  (c := Matrix.of fun i j : Fin 6 => (((⟨.statDense, .columnMajor, 6, 6, 600⟩ : Container).addr 4 i j : Int) : Rat))
  ⟨rfl, rfl, fun i j _ => (memOf_contains (SS := 4) (c := ⟨.statDense, .columnMajor, 6, 6, 600⟩) (f := fun x => (x : Rat)) (n := 1000) lit lit lit) i j i.2 j.2⟩ rfl rfl

/-- the upper triangular matrix of sevens -/
def sevens : Matrix (Fin 5) (Fin 5) Rat := Matrix.of fun i j => if i.1 ≤ j.1 then 7 else 0

theorem sevens_upper : sevens.IsUpperTriangular := fun i j hij => by
  have hij : j < i := hij
  exact if_neg (not_le.2 hij)

theorem sevens_diag (i : Fin 5) : sevens i i ≠ 0 := by
  show (if i.1 ≤ i.1 then (7 : Rat) else 0) ≠ 0
  rw [if_pos le_rfl]; decide

theorem sevens_stored : IsMat 4 triMem ⟨.dynDense, .columnMajor, 5, 5, 0⟩ sevens := isMat_of trmmL_a

example := C79_trmm_left (2 : Rat) trmmL_case sevens_stored sevens_upper (isMat_of (memOf_contains lit lit lit)) rfl rfl

example := C79_trmm_right (V := Rat) (n := 7) (r := 5) 2 trmmR_case
  (a := Matrix.of fun i j : Fin 7 => (((⟨.statPanel, .rowMajor, 7, 7, 0⟩ : Container).addr 4 i j : Int) : Rat))
  ⟨rfl, rfl, fun i j _ => trmmR_a i j i.2 j.2⟩ (isMat_of (memOf_contains lit lit lit)) rfl rfl

/-- (A B) C and A (B C) for matrices of different kinds: 3 × 5, 5 × 6, 6 × 2 -/
example : ∃ (a : Matrix (Fin 3) (Fin 5) Rat) (b : Matrix (Fin 5) (Fin 6) Rat) (c : Matrix (Fin 6) (Fin 2) Rat) (m' m'' : Mem Rat),
    IsMat 4 m' ⟨.dynDense, .columnMajor, 3, 2, 600⟩ (a * b * c) ∧ IsMat 4 m'' ⟨.statPanel, .columnMajor, 3, 2, 800⟩ (a * b * c) := by
  obtain ⟨m', m'', -, -, h1, h2⟩ := C79_gemm_assoc (V := Rat) (SS := 4) (M := 3) (N := 5) (K := 6) (L := 2) (m := demoMem)
    (A := ⟨.dynDense, .columnMajor, 3, 5, 0⟩) (B := ⟨.statPanel, .columnMajor, 5, 6, 100⟩) (C := ⟨.dynDense, .rowMajor, 6, 2, 200⟩)
    (X := ⟨.statDense, .columnMajor, 3, 6, 300⟩) (Y := ⟨.dynPanel, .columnMajor, 5, 2, 400⟩)
    (D := ⟨.dynDense, .columnMajor, 3, 2, 600⟩) (E := ⟨.statPanel, .columnMajor, 3, 2, 800⟩)
    (isMat_of (memOf_contains lit lit lit)) (isMat_of (memOf_contains lit lit lit)) (isMat_of (memOf_contains lit lit lit))
    ⟨by decide, rfl, rfl, rfl, memOf_live lit lit lit, memOf_live lit lit lit, memOf_live lit lit lit, memOf_live lit lit lit,
      apart_of lit, apart_of lit, Or.inl rfl⟩
    ⟨by decide, rfl, rfl, rfl, memOf_live lit lit lit, memOf_live lit lit lit, memOf_live lit lit lit, memOf_live lit lit lit,
      apart_of lit, apart_of lit, Or.inl rfl⟩
    ⟨by decide, rfl, rfl, rfl, memOf_live lit lit lit, memOf_live lit lit lit, memOf_live lit lit lit, memOf_live lit lit lit,
      apart_of lit, apart_of lit, Or.inl rfl⟩
    ⟨by decide, rfl, rfl, rfl, memOf_live lit lit lit, memOf_live lit lit lit, memOf_live lit lit lit, memOf_live lit lit lit,
      apart_of lit, apart_of lit, Or.inl rfl⟩
    (apart_of lit) (apart_of lit) ⟨rfl, rfl⟩ ⟨rfl, rfl⟩ ⟨rfl, rfl⟩ ⟨rfl, rfl⟩
  exact ⟨_, _, _, m', m'', h1, h2⟩

/-! ### C80 -/

/-- the matrix of ones plus the identity is positive definite -/
noncomputable def onesPlus (n : Nat) : Matrix (Fin n) (Fin n) ℝ := 1 + Matrix.vecMulVec (fun _ => 1) (star fun _ => 1)

theorem onesPlus_posDef (n : Nat) : (onesPlus n).PosDef := Matrix.PosDef.one.add_posSemidef (Matrix.posSemidef_vecMulVec_self_star _)

theorem onesPlus_apply (n : Nat) (i j : Fin n) : onesPlus n i j = if i = j then 2 else 1 := by
  unfold onesPlus
  rw [Matrix.add_apply, Matrix.one_apply, Matrix.vecMulVec_apply]
  split <;> simp; norm_num

/-- an 8 × 8 matrix of ones plus identity at 0, the factor at 100 -/
noncomputable def onesMem : Mem ℝ := memOf 1000 (fun x => if x < 64 ∧ x % 8 = x / 8 then 2 else 1)

theorem onesMem_args : PotrfArgs 4 onesMem cholA cholL := ⟨by decide, rfl, rfl, memOf_live lit lit lit, memOf_live lit lit lit, Or.inr (apart_of lit)⟩

theorem onesMem_lower : IsMatLower 4 onesMem cholA (onesPlus 8) := by
  refine ⟨rfl, rfl, fun i j hij => ?_⟩
  have hadr : ∀ i < 8, ∀ j < 8, cholA.addr 4 i j = ((i + 8 * j : Nat) : Int) := by decide +kernel
  rw [hadr i i.2 j j.2, onesPlus_apply]
  have hi := i.2
  have hj := j.2
  have hij : j.1 ≤ i.1 := hij
  unfold onesMem
  rw [memOf_at (by omega) (by omega)]
  by_cases e : i = j
  · subst e
    rw [if_pos rfl, if_pos (by omega)]
  · have e' : i.1 ≠ j.1 := fun h => e (Fin.ext h)
    rw [if_neg e, if_neg (by omega)]

example : ∃ m' l, potrfDenseCall 4 1 cholA cholL onesMem = .ok () m' ∧ IsMatLower 4 m' cholL l ∧ IsCholeskyFactor (onesPlus 8) l := by
  obtain ⟨m', l, h1, h2, h3, -⟩ := C80_potrf_dense onesMem_args chol_fits' onesMem_lower (onesPlus_posDef 8) rfl rfl
  exact ⟨m', l, h1, h2, h3⟩

/-- a 6 × 6 panel matrix of ones plus identity -/
noncomputable def onesPanMem : Mem ℝ := memOf 1000 (fun x => if x ∈ [0, 5, 10, 15, 40, 45] then 2 else 1)

theorem onesPan_lower : IsMatLower 4 onesPanMem panA (onesPlus 6) := by
  have hadr : ∀ i < 6, ∀ j < 6, 0 ≤ panA.addr 4 i j ∧ panA.addr 4 i j < 1000 ∧ (panA.addr 4 i j ∈ [0, 5, 10, 15, 40, 45] ↔ i = j) := by
    decide +kernel
  refine ⟨rfl, rfl, fun i j _ => ?_⟩
  obtain ⟨h1, h2, h3⟩ := hadr i i.2 j j.2
  rw [onesPlus_apply]
  unfold onesPanMem
  rw [memOf_at h1 h2]
  congr 1
  exact if_congr (h3.trans Fin.ext_iff.symm) rfl rfl

theorem onesPan_args : PotrfArgs 4 onesPanMem panA panL :=
  ⟨by decide, rfl, rfl, memOf_live lit lit lit, memOf_live lit lit lit, Or.inr (apart_of lit)⟩

example : ∃ m' l, potrfPanelCall 4 4 panA panL onesPanMem = .ok () m' ∧ IsMatLower 4 m' panL l ∧ IsCholeskyFactor (onesPlus 6) l := by
  obtain ⟨m', l, h1, h2, h3, -⟩ := C80_potrf_panel onesPan_args pan_fits onesPan_lower (onesPlus_posDef 6) rfl rfl
  exact ⟨m', l, h1, h2, h3⟩

/-- LU of the 5 × 3 matrix -/
theorem luCm_mat : IsPtrMat 4 luCmMem (luCm.mptr 4) (Matrix.of fun (i : Fin 5) (j : Fin 3) => luVal i j) :=
  IsPtrMat.of luCm_has.holds (fun _ _ => rfl)

example : ∃ p m' b piv, getrfPtr 4 1 5 3 (luCm.mptr 4) id luCmMem = .ok p m' ∧
    LuMatrices 4 luCmMem m' (luCm.mptr 4) (Matrix.of fun (i : Fin 5) (j : Fin 3) => luVal i j) p b piv := by
  obtain ⟨p, m', h⟩ := luCm_getrf_returns
  obtain ⟨b, piv, h1⟩ := C80_getrf luCm_pre luCm_mat h
  exact ⟨p, m', b, piv, h, h1⟩

example : ∃ p m' b piv, getf2Ptr 4 1 5 3 (luCm.mptr 4) id luCmMem = .ok p m' ∧
    LuMatrices 4 luCmMem m' (luCm.mptr 4) (Matrix.of fun (i : Fin 5) (j : Fin 3) => luVal i j) p b piv := by
  obtain ⟨p, m', h⟩ := luCm_returns
  obtain ⟨b, piv, h1⟩ := C80_getf2 luCm_pre.toLuPre luCm_mat h
  exact ⟨p, m', b, piv, h, h1⟩

example : ∃ p m' b piv, getf2Row 4 (· / ·) (luRm.mat 4) id luRmMem = .ok p m' ∧
    LuMatrices 4 luRmMem m' (luRm.mptr 4) (Matrix.of fun (i : Fin 5) (j : Fin 3) => luVal i j) p b piv := by
  obtain ⟨p, m', h⟩ := luRm_returns
  obtain ⟨b, piv, h1⟩ := C80_getf2_row_major (SS := 4) (by decide) (fun _ _ _ => rfl) (A := luRm.mat 4) rfl (Container.inj (by decide) luRm)
    (a := Matrix.of fun (i : Fin 5) (j : Fin 3) => luVal i j) (IsPtrMat.of luRm_has.holds (fun _ _ => rfl)) h
  exact ⟨p, m', b, piv, h, h1⟩

/-- the 2 × 2 matrix 200, 204; 201, 205 with determinant 200*205 - 204*201 = -4 -/
def detA : Container := ⟨.dynDense, .columnMajor, 2, 2, 200⟩
def detB : Container := ⟨.statDense, .rowMajor, 2, 3, 300⟩
def detM : Matrix (Fin 2) (Fin 2) Rat := !![200, 204; 201, 205]

theorem det_pre : GetrfPre 4 1 2 2 (detA.mptr 4) demoMem := LuPre.of_live (A := detA) (by decide) rfl rfl (memOf_live lit lit lit)

theorem det_mat : IsPtrMat 4 demoMem (detA.mptr 4) detM := by
  have : ∀ i j : Fin 2, demoMem ((detA.mptr 4).addr 4 (i : Nat) (j : Nat)) = some (detM i j) := by decide +kernel
  exact this

theorem detM_det : detM.det = -4 := by
  unfold detM; rw [Matrix.det_fin_two_of]; norm_num

/-- getrf exchanges the rows: the determinant is minus the product of the diagonal of U -/
example : ∃ (p : Nat → Nat) (m' : Mem Rat) (b : Matrix (Fin 2) (Fin 2) Rat), getrfPtr 4 1 2 2 (detA.mptr 4) id demoMem = .ok p m' ∧ IsPtrMat 4 m' (detA.mptr 4) b ∧
    (-4 : Rat) = (-1) ^ ((range 2).filter fun k => p k ≠ k).card * ∏ i, b i i := by
  have := (C80_getrf_det det_pre det_mat id).1 (by rw [detM_det]; decide)
  rwa [detM_det] at this

theorem ones_det : (Matrix.of fun _ _ : Fin 2 => (1 : Rat)).det = 0 := by rw [Matrix.det_fin_two]; simp

theorem detM_ne : detM.det ≠ 0 := by rw [detM_det]; decide

/-- a singular matrix (a row of ones twice) -/
example : ∃ m', getrfPtr 4 1 2 2 (detA.mptr 4) id (memOf 1000 fun _ => (1 : Rat)) = .throw .invalidArgument m' :=
  (C80_getrf_det (LuPre.of_live (A := detA) (by decide) rfl rfl (memOf_live lit lit lit))
    (a := Matrix.of fun _ _ : Fin 2 => (1 : Rat))
    (IsMat.ptr (A := detA) (isMat_of (A := detA) (memOf_contains lit lit lit))) id).2 ones_det

/-! ### C81 -/

theorem detB_mat : IsPtrMat 4 demoMem (detB.mptr 4) (Matrix.of fun (i : Fin 2) (j : Fin 3) => ((detB.addr 4 i j : Int) : Rat)) :=
  IsMat.ptr (isMat_of (A := detB) (memOf_contains lit lit lit))

example := C81_lu_solve det_pre rfl (Container.inj (by decide) detB) ((apart_of (c := detA) (d := detB) lit).disj (by decide))
  det_mat detB_mat id detM_ne

/-- the inverse of the matrix -/
def eyeMem : Mem Rat := memOf 1000 (fun x => if x < 300 then (x : Rat) else if x = 300 ∨ x = 305 then 1 else 0)
def eyeB : Container := ⟨.statDense, .rowMajor, 2, 2, 300⟩

example : ∃ m', luSolve 4 1 2 2 (detA.mptr 4) (eyeB.mptr 4) id eyeMem = .ok () m' ∧ IsPtrMat 4 m' (eyeB.mptr 4) detM⁻¹ := by
  have ha : ∀ i j : Fin 2, eyeMem ((detA.mptr 4).addr 4 (i : Nat) (j : Nat)) = some (detM i j) := by decide +kernel
  have hb : ∀ i j : Fin 2, eyeMem ((eyeB.mptr 4).addr 4 (i : Nat) (j : Nat)) = some ((1 : Matrix (Fin 2) (Fin 2) Rat) i j) := by decide +kernel
  exact C81_lu_inverse (LuPre.of_live (A := detA) (by decide) rfl rfl (memOf_live lit lit lit)) rfl (Container.inj (by decide) eyeB)
    ((apart_of (c := detA) (d := eyeB) lit).disj (by decide)) ha hb id detM_ne

/-- an 8 × 8 system with 3 right hand sides (a row-major panel matrix) -/
example := C81_cholesky_solve (n := 8) (r := 3) onesMem_args chol_fits' (B := ⟨.statPanel, .rowMajor, 8, 3, 200⟩) (apart_of lit) onesMem_lower
  (isMat_of (memOf_contains lit lit lit)) (onesPlus_posDef 8) rfl rfl

example := C81_trsm_undoes_trmm trmmL_case (X := ⟨.dynPanel, .columnMajor, 5, 7, 700⟩) (memOf_live lit lit lit) (apart_of lit) (Or.inr (apart_of lit))
  sevens_stored sevens_upper sevens_diag (isMat_of (memOf_contains lit lit lit)) ⟨rfl, rfl⟩ ⟨rfl, rfl⟩

example := C81_trsm (n := 5) (r := 7) .upper false (A := (⟨.dynDense, .columnMajor, 5, 5, 0⟩ : Container).mptr 4) (X := (⟨.statPanel, .rowMajor, 5, 7, 300⟩ : Container).mptr 4)
  (B := (⟨.statPanel, .rowMajor, 5, 7, 300⟩ : Container).mptr 4) (a := sevens)
  (fun i k _ => ⟨sevens_stored.ptr i k, (triArg_of (by decide) .upper false trmmL_a (apart_of (d := ⟨.statPanel, .rowMajor, 5, 7, 300⟩) lit) lit lit lit lit i k i.2 k.2 (by assumption)).2⟩)
  (fun _ => sevens_diag) (trmmL_case.lB.readable (by decide)) (Container.inj (by decide) _)
  (IsMat.ptr (isMat_of (A := ⟨.statPanel, .rowMajor, 5, 7, 300⟩) (memOf_contains lit lit lit)))
  (fun i j i' j' a b c d e => Container.inj (SS := 4) (by decide) ⟨.statPanel, .rowMajor, 5, 7, 300⟩ i j i' j' a b c d e)

/-- one right hand side with stride 2, the solution with stride 3 -/
example := C81_trsv (n := 5) .upper (SS := 4) (A := (⟨.dynDense, .columnMajor, 5, 5, 0⟩ : Container).mptr 4) (b := .vec false false 300 2)
  (x := .vec false false 700 3) (mem := triMem) (a := sevens) (bv := fun _ => 1)
  (fun i k _ => ⟨sevens_stored.ptr i k, by
    have : ∀ i k i' : Fin 5, ((⟨.dynDense, .columnMajor, 5, 5, 0⟩ : Container).mptr 4).addr 4 (i : Nat) (k : Nat) ≠ (VPtr.vec false false 700 3).addr 4 (i' : Nat) := by decide +kernel
    exact this i k⟩)
  sevens_diag (by decide +kernel) (by decide +kernel) (by decide +kernel) (by decide +kernel)

end Blast
