import Verif.Cases.Potrf
import Verif.Cases.Ger
import Verif.Props.Accuracy
import Verif.Props.BackwardSolve
import Verif.Props.BackwardPotrf
import Verif.Props.BackwardLu
import Verif.Props.BackwardSystem
import Verif.Props.Contraction
/-
Concrete cases of the theorems in Props/Accuracy, BackwardSolve, BackwardPotrf, BackwardLu and BackwardSystem: double precision (`Fl 52` with unit
roundoff `flU 52`), SIMD width 4; cell x holds the number x (in `flMem`) or x + 1 (in `fl1Mem`).
-/
namespace Blast
open Finset

theorem flMem_eq : flMem = memOf 1000 flOf := rfl
theorem fl_contains {c : Container} (h2 : 0 ≤ c.data) (h3 : c.data + c.capacity 4 ≤ 1000) : Contains 4 flMem c (fun i j => flOf (c.addr 4 i j)) :=
  memOf_contains (by decide) h2 h3

/-! ### C56 -/

theorem fl_gemm : GemmArgs 4 flMem demoA demoB demoC demoD :=
  ⟨by decide, rfl, rfl, rfl, memOf_live lit lit lit, memOf_live lit lit lit, memOf_live lit lit lit, memOf_live lit lit lit, apart_of lit, apart_of lit,
    Or.inr (apart_of lit)⟩

example := C56_gemm_accuracy (u := flU 52) (flOf 2) (flOf 3) fl_gemm lit (fl_contains lit lit) (fl_contains lit lit) (fl_contains lit lit)

example := C56_ger_accuracy (u := flU 52) (SS := 4) (m := flMem) (x := ⟨true, 5, 0⟩) (y := ⟨false, 7, 20⟩) (A := ⟨.dynPanel, .columnMajor, 5, 7, 200⟩)
  (B := ⟨.statDense, .columnMajor, 5, 7, 600⟩) (flOf 2)
  ⟨by decide, rfl, rfl, memOf_vlive lit lit lit, memOf_vlive lit lit lit, memOf_live lit lit lit, memOf_live lit lit lit, vapart_of lit, vapart_of lit,
    Or.inr (apart_of lit)⟩ lit (memOf_vcontains lit lit) (memOf_vcontains lit lit) (fl_contains lit lit)

example := C56_syrk_accuracy (u := flU 52) (SS := 4) (m := flMem) (A := ⟨.dynDense, .columnMajor, 6, 3, 200⟩) (C := ⟨.statDense, .columnMajor, 6, 6, 600⟩)
  (D := ⟨.statDense, .columnMajor, 6, 6, 600⟩) (flOf 2) (flOf 3)
  ⟨by decide, rfl, rfl, rfl, memOf_live lit lit lit, memOf_live lit lit lit, memOf_live lit lit lit, apart_of lit, Or.inl rfl⟩ lit (fl_contains lit lit)
  (fun i j hi hj => fl_contains lit lit i j hi (lt_of_le_of_lt hj hi))

example := C56_trmm_right_accuracy (u := flU 52) (SS := 4) (m := flMem) (B := ⟨.dynDense, .columnMajor, 5, 7, 200⟩) (A := ⟨.statPanel, .rowMajor, 7, 7, 0⟩)
  (C := ⟨.statDense, .columnMajor, 5, 7, 600⟩) (flOf 2)
  ⟨by decide, rfl, rfl, memOf_live lit lit lit, memOf_live lit lit lit, memOf_live lit lit lit, apart_of lit, Or.inr (apart_of lit)⟩ lit
  (fun k j hj hk => fl_contains lit lit k j hk (lt_of_le_of_lt hj hk)) (fl_contains lit lit)

/-- cells 0-39: an upper triangular 5 × 5 matrix with spacing 8, the others: x -/
noncomputable def flTri : Mem (Fl 52) := memOf 1000 (fun x => if x < 40 then (if x % 8 ≤ x / 8 then flOf 7 else 0) else flOf x)

theorem flTri_a : Contains 4 flTri ⟨.dynDense, .columnMajor, 5, 5, 0⟩ (fun i j => if i ≤ j then flOf 7 else 0) :=
  memOf_contains' lit lit lit (fun i hi j hj => by
    have e : ∀ i < 5, ∀ j < 5, (⟨.dynDense, .columnMajor, 5, 5, 0⟩ : Container).addr 4 i j = (i : Int) + 8 * j := by decide +kernel
    have hi : i < 5 := hi
    have hj : j < 5 := hj
    rw [e i hi j hj]
    beta_reduce
    rw [if_pos (by omega)]
    by_cases h : i ≤ j
    · rw [if_pos h, if_pos (by omega)]
    · rw [if_neg h, if_neg (by omega)])

example := C56_trmm_left_accuracy (u := flU 52) (SS := 4) (m := flTri) (A := ⟨.dynDense, .columnMajor, 5, 5, 0⟩) (B := ⟨.statPanel, .rowMajor, 5, 7, 300⟩)
  (C := ⟨.statDense, .columnMajor, 5, 7, 600⟩) (flOf 2)
  ⟨by decide, rfl, rfl, memOf_live lit lit lit, memOf_live lit lit lit, memOf_live lit lit lit, apart_of lit, Or.inr (apart_of lit), fun _ h => by cases h⟩ lit
  flTri_a (fun i k h => if_neg (by omega)) (memOf_contains lit lit lit)

/-! ### C57: an 8 × 8 triangular matrix (cell x holds x + 1, so nothing is zero), 8 × 7 right hand sides in a panel matrix -/

noncomputable def fl1Mem : Mem (Fl 52) := memOf 1000 (fun x => flOf (x + 1))

theorem flOf_ne_zero {z : Int} (h : z ≠ 0) : flOf z ≠ 0 := by
  show ((z : ℝ)) ≠ 0
  exact_mod_cast h

theorem fl1_diag {c : Container} (h : 0 ≤ c.data) {i : Nat} (hi : i < c.rows) (hi' : i < c.cols) : flOf (c.addr 4 i i + 1) ≠ 0 := by
  have := c.addr_storage (SS := 4) (by decide) hi hi'
  unfold Container.Storage at this
  exact flOf_ne_zero (by omega)

def solA : Container := ⟨.dynDense, .columnMajor, 8, 8, 0⟩
def solB : Container := ⟨.statPanel, .rowMajor, 8, 7, 300⟩
theorem solA_apart : Apart 4 solA solB := apart_of lit
theorem solB_live : Live 4 fl1Mem solB := memOf_live lit lit lit
theorem solB_self {r s : Nat} (hr : r ≤ 8) (hs : s ≤ 7) : SameOrDisj 4 (solB.mptr 4) (solB.mptr 4) r s := fun i j i' j' a b c d e =>
  Container.inj (SS := 4) (by decide) solB i j i' j' (show i < 8 by omega) (show j < 7 by omega) (show i' < 8 by omega) (show j' < 7 by omega) e

example := C57_trsm_residual (u := flU 52) (SS := 4) (m := 8) (n := 7) .lower false (mem := fl1Mem)
  (triArg_of (by decide) .lower false (memOf_contains (c := solA) lit lit lit) solA_apart lit lit lit lit)
  (fun _ i hi => fl1_diag (c := solA) lit hi hi) (solB_live.readable (by decide)) (solB_self lit lit) (memOf_contains (c := solB) lit lit lit).holds (solB_self lit lit)

example := C57_reference_trsm_left_residual (u := flU 52) (SS := 4) (m := 8) (n := 7) .upper false (flOf 5) (mem := fl1Mem)
  (triArg_of (by decide) .upper false (memOf_contains (c := solA) lit lit lit) solA_apart lit lit lit lit)
  (fun _ i hi => fl1_diag (c := solA) lit hi hi) (solB_live.readable (by decide)) (solB_self lit lit) (memOf_contains (c := solB) lit lit lit).holds (solB_self lit lit)

/-- multiplication from the right by the inverse of the leading 7 × 7 block -/
example := C57_reference_trsm_right_residual (u := flU 52) (SS := 4) (m := 8) (n := 7) .lower false (flOf 5) (mem := fl1Mem)
  (triArg_of (by decide) .lower false (memOf_contains (c := solA) lit lit lit) solA_apart lit lit lit lit)
  (fun _ i hi => fl1_diag (c := solA) lit (show i < 8 by omega) (show i < 8 by omega)) (solB_live.readable (by decide)) (solB_self lit lit)
  (memOf_contains (c := solB) lit lit lit).holds (solB_self lit lit)

/-- one right hand side with stride 2 at 300, solution with stride 3 at 700 -/
example := C57_trsv_residual (u := flU 52) (SS := 4) (n := 8) (A := solA.mptr 4) (b := .vec false false 300 2) (x := .vec false false 700 3) .upper (mem := fl1Mem)
  (a := fun i j => flOf (solA.addr 4 i j + 1)) (bv := fun i => flOf (300 + i * 2 + 1))
  (fun i k hi hk _ => ⟨(memOf_contains (c := solA) lit lit lit).holds i k hi hk, by
    have : ∀ i < 8, ∀ k < 8, (solA.mptr 4).addr 4 (i : Nat) (k : Nat) < 100 := by decide +kernel
    intro i' hi' e
    have h1 := this i hi k hk
    have e : (solA.mptr 4).addr 4 (i : Nat) (k : Nat) = 700 + i' * 3 := e
    omega⟩)
  (fun i hi => fl1_diag (c := solA) lit hi hi)
  (fun i hi => by
    show (fl1Mem (700 + (i : Int) * 3)).isSome = true
    unfold fl1Mem; rw [memOf_at (by omega) (by omega)]; rfl)
  (fun i i' _ _ e => by
    have e : (700 : Int) + i * 3 = 700 + i' * 3 := e
    omega)
  (fun i hi => memOf_at (show (0 : Int) ≤ 300 + i * 2 by omega) (show (300 : Int) + i * 2 < 1000 by omega))
  (fun i i' _ _ e => by
    have e : (300 : Int) + i * 2 = 700 + i' * 3 := e
    omega)

example := C57_trsm_contracted (p := 52) (SS := 4) (m := 8) (n := 7) .lower false (mem := fl1Mem)
  (triArg_of (by decide) .lower false (memOf_contains (c := solA) lit lit lit) solA_apart lit lit lit lit)
  (fun _ i hi => fl1_diag (c := solA) lit hi hi) (solB_live.readable (by decide)) (solB_self lit lit) (memOf_contains (c := solB) lit lit lit).holds (solB_self lit lit)

/-- fused operations: one right hand side with stride 2 at 300, solution with stride 3 at 700 -/
example := C57_trsv_contracted (p := 52) (SS := 4) (n := 8) (A := solA.mptr 4) (b := .vec false false 300 2) (x := .vec false false 700 3) .upper (mem := fl1Mem)
  (a := fun i j => flOf (solA.addr 4 i j + 1)) (bv := fun i => flOf (300 + i * 2 + 1))
  (fun i k hi hk _ => ⟨(memOf_contains (c := solA) lit lit lit).holds i k hi hk, by
    have : ∀ i < 8, ∀ k < 8, (solA.mptr 4).addr 4 (i : Nat) (k : Nat) < 100 := by decide +kernel
    intro i' hi' e
    have h1 := this i hi k hk
    have e : (solA.mptr 4).addr 4 (i : Nat) (k : Nat) = 700 + i' * 3 := e
    omega⟩)
  (fun i hi => fl1_diag (c := solA) lit hi hi)
  (fun i hi => by
    show (fl1Mem (700 + (i : Int) * 3)).isSome = true
    unfold fl1Mem; rw [memOf_at (by omega) (by omega)]; rfl)
  (fun i i' _ _ e => by
    have e : (700 : Int) + i * 3 = 700 + i' * 3 := e
    omega)
  (fun i hi => memOf_at (show (0 : Int) ≤ 300 + i * 2 by omega) (show (300 : Int) + i * 2 < 1000 by omega))
  (fun i i' _ _ e => by
    have e : (300 : Int) + i * 2 = 700 + i' * 3 := e
    omega)

/-! ### C58: the 4 × 4 identity -/

/-- the identity, 4 × 4, dense at 0 (with the rest of the memory allocated) -/
noncomputable def idDense {W : Type} (one zero : W) : Mem W := memOf 100 (fun z => if z % 5 = 0 then one else zero)

theorem idDense_contains {W : Type} (one zero : W) : ContainsLower 4 (idDense one zero) ⟨.dynDense, .columnMajor, 4, 4, 0⟩
    (fun i j => if i = j then one else zero) := fun i j hji hi hj => by
  have e : ∀ i < 4, ∀ j < 4, (⟨.dynDense, .columnMajor, 4, 4, 0⟩ : Container).addr 4 i j = (i : Int) + 4 * j := by decide +kernel
  have hi : i < 4 := hi
  have hj : j < 4 := hj
  unfold idDense
  rw [e i hi j hj, memOf_at (by omega) (by omega)]
  congr 1
  beta_reduce
  by_cases h : i = j
  · rw [if_pos h, if_pos (by omega)]
  · rw [if_neg h, if_neg (by omega)]

theorem idDense_args {W : Type} (one zero : W) : PotrfArgs 4 (idDense one zero) ⟨.dynDense, .columnMajor, 4, 4, 0⟩ ⟨.dynDense, .columnMajor, 4, 4, 0⟩ :=
  ⟨by decide, rfl, rfl, memOf_live lit lit lit, memOf_live lit lit lit, Or.inl rfl⟩

theorem g4_double : (0 : Fl 52) ≤ (1 / (1 - flU 52)) ^ (4 + 4) - 1 ∧ ((1 / (1 - flU 52)) ^ (4 + 4) - 1 : Fl 52) ≤ 1 / 100 := by
  constructor
  · have := Near.one_le_pow (u := bu (flU 52)) buN (4 + 4)
    rw [pow_bu] at this
    linarith
  · have hu : flU 52 ≤ (1 / 10000 : Fl 52) := by
      show ((1 / 2 : ℝ) ^ (52 + 1) : ℝ) ≤ 1 / 10000
      norm_num
    have h0 : (0 : Fl 52) ≤ flU 52 := by
      show (0 : ℝ) ≤ ((1 / 2 : ℝ) ^ (52 + 1) : ℝ)
      positivity
    generalize flU 52 = w at hu h0
    have h1 : ((8 : Nat) : Fl 52) * w < 1 := by push_cast; linarith
    refine le_trans (inv_pow_sub_one_le_gamma h0 (by linarith) 8 h1) ?_
    push_cast at h1 ⊢
    rw [div_le_iff₀ (by linarith)]
    linarith

example : ∃ m', potrfDenseCall 4 1 ⟨.dynDense, .columnMajor, 4, 4, 0⟩ ⟨.dynDense, .columnMajor, 4, 4, 0⟩ (idDense (1 : Fl 52) 0) = .ok () m' ∧
    ∃ l, ContainsLower 4 m' ⟨.dynDense, .columnMajor, 4, 4, 0⟩ l ∧
      IsCholeskyUpTo ((1 / (1 - flU 52)) ^ (4 + 4) - 1 : Fl 52) 4 4 l (fun i j => if i = j then 1 else 0) := by
  obtain ⟨h0, h1⟩ := g4_double
  refine C58_potrf_dense_accuracy (u := flU 52) (idDense_args _ _) lit (potrfFits_square (by decide) (Or.inl rfl)) (idDense_contains _ _) rfl ?_ ?_
    (identity_posdef_by ?_)
  all_goals
    show _
    push_cast
    generalize ((1 / (1 - flU 52)) ^ (4 + 4) - 1 : Fl 52) = g at h1 h0
  · linarith
  · nlinarith
  · rw [div_lt_one (by linarith)]; linarith

example : ∃ m', potrfDenseCall 4 1 ⟨.dynDense, .columnMajor, 4, 4, 0⟩ ⟨.dynDense, .columnMajor, 4, 4, 0⟩ (idDense (num (1 : Fl 52)) (num 0)) = .ok () m' ∧
    ∀ l : Nat → Nat → Fl 52, ContainsLower 4 m' ⟨.dynDense, .columnMajor, 4, 4, 0⟩ (fun i j => num (l i j)) →
      IsCholeskyUpTo ((1 / (1 - flU 52)) ^ (4 + 4) - 1 : Fl 52) 4 4 l (fun i j => if i = j then 1 else 0) :=
  C58_potrf_dense_nan_or_accurate (u := flU 52) (idDense_args _ _) lit (potrfFits_square (by decide) (Or.inl rfl)) (fun i j hji hi hj => by
    rw [idDense_contains _ _ i j hji hi hj]
    by_cases h : i = j
    · beta_reduce; rw [if_pos h, if_pos h]
    · beta_reduce; rw [if_neg h, if_neg h])

/-! ### C59, C60: LU of the 5 × 7 matrix of `flMem`, and of an 8 × 8 matrix with 7 right hand sides -/

def luA : Container := ⟨.dynDense, .columnMajor, 5, 7, 200⟩
theorem luA_live : Live 4 flMem luA := memOf_live lit lit lit
theorem luA_pre : GetrfPre 4 1 5 7 (luA.mptr 4) flMem := LuPre.of_live (A := luA) (by decide) rfl rfl luA_live

example := C59_getf2_backward_error (u := flU 52) luA_pre.toLuPre (fl_contains (c := luA) lit lit).holds id
example := C59_getrf_backward_error (u := flU 52) luA_pre (fl_contains (c := luA) lit lit).holds id
/-- row-major 5 × 7, with the multipliers computed by division or by multiplication with the reciprocal -/
example := C59_getf2_row_major_backward_error (u := flU 52) (SS := 4) (by decide) (Or.inl rfl)
  (A := ⟨(⟨.dynDense, .rowMajor, 5, 7, 200⟩ : Container).mptr 4, 5, 7⟩) rfl (m0 := flMem) (Container.inj (by decide) ⟨.dynDense, .rowMajor, 5, 7, 200⟩)
  (fl_contains (c := ⟨.dynDense, .rowMajor, 5, 7, 200⟩) lit lit).holds id
example := C59_getf2_row_major_backward_error (u := flU 52) (SS := 4) (by decide) (Or.inr rfl)
  (A := ⟨(⟨.dynDense, .rowMajor, 5, 7, 200⟩ : Container).mptr 4, 5, 7⟩) rfl (m0 := flMem) (Container.inj (by decide) ⟨.dynDense, .rowMajor, 5, 7, 200⟩)
  (fl_contains (c := ⟨.dynDense, .rowMajor, 5, 7, 200⟩) lit lit).holds id
example := C59_getrf_row_major_backward_error (u := flU 52) (SS := 4) (Or.inl rfl)
  (A := ⟨(⟨.dynDense, .rowMajor, 5, 7, 200⟩ : Container).mptr 4, 5, 7⟩) (m0 := flMem) (Container.inj (by decide) ⟨.dynDense, .rowMajor, 5, 7, 200⟩)
  (fl_contains (c := ⟨.dynDense, .rowMajor, 5, 7, 200⟩) lit lit).holds id

theorem sys_apart : Apart 4 ⟨.dynDense, .columnMajor, 8, 8, 0⟩ ⟨.dynDense, .columnMajor, 8, 7, 100⟩ := apart_of lit
example := C60_lu_solve_backward_error (u := flU 52) (SS := 4) (TR := 1) (n := 8) (r := 7) (m0 := flMem)
  (LuPre.of_live (A := ⟨.dynDense, .columnMajor, 8, 8, 0⟩) (by decide) rfl rfl (memOf_live lit lit lit)) rfl
  (Container.inj (by decide) ⟨.dynDense, .columnMajor, 8, 7, 100⟩) (sys_apart.disj (by decide))
  (fl_contains (c := ⟨.dynDense, .columnMajor, 8, 8, 0⟩) lit lit).holds (fl_contains (c := ⟨.dynDense, .columnMajor, 8, 7, 100⟩) lit lit).holds id

end Blast
