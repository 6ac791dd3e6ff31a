import Verif.Cases.Trmm
import Verif.Props.Storage
import Verif.Props.Simd
import Verif.Props.SizeArith
import Verif.Props.StaticVec
import Verif.Props.Solve
import Verif.Props.Lifecycle
/- Concrete cases for the theorems of `Storage.lean`, `Simd.lean`, `SizeArith.lean`, `StaticVec.lean`, `Solve.lean` and `Lifecycle.lean` in `Verif/Props`. -/
set_option linter.unusedSectionVars false
namespace Blast
open Finset

/-! ### storage: the last column group of a 6 × 3 panel matrix, the last group of a row of a 3 × 6 row-major matrix -/

example := C44_nextMultiple_least 13 (f := 4) (by decide)
example := C44_columns_padded (SS := 4) (by decide) ⟨.dynPanel, .columnMajor, 6, 3, 16⟩ rfl (by decide) (g := 1) (j := 2) (by decide) (by decide)
example := C44_rows_padded (SS := 4) (by decide) ⟨.statDense, .rowMajor, 3, 6, 16⟩ rfl (by decide) (g := 1) (i := 2) (by decide) (by decide)
example := C31_storage_injective_in_bounds (SS := 4) (by decide) ⟨.statPanel, .rowMajor, 3, 6, 16⟩
example := C32_matrix_is_map (V := Rat) (SS := 4) (by decide) ⟨.statPanel, .rowMajor, 3, 6, 16⟩ (fun _ => none)
    [.write 2 5 7, .read 2 5, .write 2 5 8, .read 0 1, .read 2 5] (by
      intro o ho
      fin_cases ho <;> exact ⟨by decide, by decide⟩)

example := C33_reset_dense (SS := 4) (by decide) ⟨.statDense, .rowMajor, 3, 6, 16⟩ (Or.inr rfl) demoMem (memOf_live lit lit lit)
example := C33_reset_panel (SS := 4) (by decide) ⟨.dynPanel, .columnMajor, 6, 3, 16⟩ rfl demoMem (memOf_live lit lit lit) (by decide) (by decide)
/-- a 3 × 6 column-major panel matrix: reset writes behind the storage -/
example := C33_reset_panel_out_of_bounds (SS := 4) (by decide) ⟨.dynPanel, .columnMajor, 3, 6, 0⟩ rfl
  (memOf ((⟨.dynPanel, .columnMajor, 3, 6, 0⟩ : Container).capacity 4) (fun x => (x : Rat))) (memOf_live lit lit lit) (by decide) (by decide +kernel)
/-- a 20 × 2 one: reset does not reach element (19, 1) -/
def rsPan : Container := ⟨.dynPanel, .columnMajor, 20, 2, 0⟩
theorem rsPan_reset : ∃ m', rsPan.reset 4 demoMem = .ok () m' := by
  obtain ⟨m', h, _⟩ : ∃ m', rsPan.reset 4 demoMem = .ok () m' ∧ m' 0 = some 0 := by
    refine ok_of_okCell ?_; decide +kernel
  exact ⟨m', h⟩
example : ∃ m', rsPan.reset 4 demoMem = .ok () m' ∧ m' (rsPan.addr 4 19 1) = some 39 := by
  obtain ⟨m', h⟩ := rsPan_reset
  exact ⟨m', h, (C33_reset_panel_incomplete rsPan rfl demoMem m' h (i := 19) (j := 1) (by decide)).trans (by decide +kernel)⟩
example := C33_reset_panel_iff (V := Rat) (SS := 4) (by decide) rsPan rfl (by decide) (by decide) (by decide) ⟨1, by decide⟩

def ilC : Container := ⟨.dynPanel, .columnMajor, 2, 3, 16⟩
example : ∃ m', ilC.initList 4 [[1, 2], [3, 4, 5]] demoMem = .ok () m' ∧ m' (ilC.addr 4 0 2) = some 0 ∧ m' (ilC.addr 4 1 2) = some 5 := by
  obtain ⟨m', h1, h2, _⟩ := (C34_initializer_list (SS := 4) (by decide) ilC [[1, 2], [3, 4, 5]] demoMem (memOf_live lit lit lit)).2 ⟨rfl, by decide⟩
  exact ⟨m', h1, h2 0 2 (by decide) (by decide), h2 1 2 (by decide) (by decide)⟩
example := (C34_initializer_list (SS := 4) (by decide) ilC [[(1 : Rat), 2], [3, 4, 5, 6]] demoMem (memOf_live lit lit lit)).1 (Or.inr ⟨[3, 4, 5, 6], by simp, by decide⟩)

example := C35_ptr_of_matrix (SS := 4) ⟨.dynPanel, .columnMajor, 6, 3, 16⟩ false (by decide) 5 2
example := C35_dense_pointer_laws (SS := 4) (by decide) ((⟨.dynDense, .columnMajor, 6, 3, 16⟩ : Container).mptr 4) rfl 1 2 (-1) 3
example := C35_panel_pointer_laws (SS := 4) (by decide) ((⟨.dynPanel, .columnMajor, 6, 3, 16⟩ : Container).mptr 4) rfl (by decide) (by decide) 4 1 3 1 (fun _ => by decide)
example := C35_panel_pointer_laws (SS := 4) (by decide) (((⟨.dynPanel, .rowMajor, 6, 3, 16⟩ : Container).mptr 4).unal 4) rfl (by decide) (by decide) 3 1 2 1 (fun h => by cases h)

def cpA : Container := ⟨.dynPanel, .columnMajor, 5, 7, 400⟩
def cpB : Container := ⟨.statDense, .rowMajor, 5, 7, 0⟩
example := (C42_assign (SS := 4) (by decide) cpA cpB demoMem (memOf_live lit lit lit) (memOf_live lit lit lit) (Or.inr (apart_of lit)) (memOf_contains lit lit lit)).2 ⟨rfl, rfl⟩
example := (C42_assign (SS := 4) (by decide) cpA ilC demoMem (memOf_live lit lit lit) (memOf_live lit lit lit) (Or.inr (apart_of lit)) (memOf_contains lit lit lit)).1 (Or.inl (by decide))
example := (C42_equality (SS := 4) cpA cpB demoMem (memOf_contains lit lit lit) (memOf_contains lit lit lit)).2 ⟨rfl, rfl⟩
example := (C42_equality (SS := 4) cpA ilC demoMem (memOf_contains lit lit lit) (memOf_contains lit lit lit)).1 (Or.inl (by decide))
/-- different contents: the comparison gives false -/
example : eqMat 4 cpA cpB demoMem = .ok false demoMem := by
  obtain ⟨r, h1, h2⟩ := C42_equality_exact (SS := 4) cpA cpB demoMem (memOf_contains lit lit lit) (memOf_contains lit lit lit) ⟨rfl, rfl⟩
  have : r = false := by
    cases r
    · rfl
    · have := h2.1 rfl 0 0 (by decide) (by decide)
      exact absurd this (by decide +kernel)
  rw [h1, this]

/-! ### SIMD -/

def mask101 : Nat → Bool := fun l => l ≠ 1
/-- cell 1 is not allocated and not accessed -/
def gapMem : Mem Rat := fun x => if x = 0 ∨ 2 ≤ x ∧ x < 100 then some x else none
theorem gap_ok : ∀ l, l < 4 → mask101 l = true → (gapMem (0 + l)).isSome = true := by decide +kernel
example := (C47_masked_load 4 mask101 0 gapMem).1.2 gap_ok
example := (C47_masked_store 4 mask101 0 (fun l => (l : Rat)) gapMem).1.2 gap_ok
example : ∃ m' v, storeVecMask 4 mask101 0 (fun l => (7 + l : Rat)) gapMem = .ok () m' ∧ loadVecMask 4 mask101 0 m' = .ok v m' ∧ v 2 = 9 := by
  obtain ⟨m', h⟩ := (C47_masked_store 4 mask101 0 (fun l => (7 + l : Rat)) gapMem).1.2 gap_ok
  obtain ⟨v, h1, h2⟩ := C47_store_load 4 mask101 0 _ gapMem m' h
  exact ⟨m', v, h, h1, (h2 2 (by decide) (by decide)).trans (by decide +kernel)⟩
example : ∃ v', gatherLoop 4 mask101 (fun l => (0 : Int) + l) gapMem = .ok v' gapMem := by
  obtain ⟨v, h⟩ := (C47_masked_load 4 mask101 0 gapMem).1.2 gap_ok
  obtain ⟨v', h', _⟩ := (C47_neon_refines 4 mask101 0 (fun _ => 0) gapMem).1 v h
  exact ⟨v', h'⟩
/-- every third cell, mask in lane 1 -/
example := C48_vector_load 4 false false 5 3 mask101 gapMem (fun h => by cases h) (by decide +kernel)
example := C48_vector_load 4 true true 4 1 (fun _ => true) gapMem (fun _ _ _ => by decide) (by decide +kernel)
example := C48_vector_store_mask 4 false false 5 3 mask101 (fun l => (l : Rat)) gapMem (by decide) (by decide +kernel)
example := C48_vector_store 4 false true 5 3 (fun l => (l : Rat)) gapMem (by decide) (fun h => by cases h) (by decide +kernel)
example := C48_vector_store 4 true true 4 1 (fun l => (l : Rat)) gapMem (by decide) (fun _ _ _ => by decide) (by decide +kernel)
example := C48_row_column (V := Rat) (SS := 4) (by decide) ((⟨.dynPanel, .columnMajor, 9, 3, 16⟩ : Container).mptr 4) (by decide) 4 3 (fun _ => by decide)
example := C48_minor_direction_load_terminates (SS := 4) ((⟨.dynDense, .columnMajor, 9, 3, 16⟩ : Container).mptr 4) rfl gapMem

def imX : Nat → Rat := fun l => if l = 1 then 9 else l
theorem im_case : IsImax 8 imX (fun l => 10 * l) (imaxAvxFloat imX (fun l => 10 * l)) := (C26_imax (V := Rat) ExactOrd.gt_iff imX (fun l => 10 * l)).1
example : (imaxAvxFloat imX (fun l => 10 * l)).1 5 = 9 ∧ (imaxAvxFloat imX (fun l => 10 * l)).2 5 = 10 :=
  C26_imax_unique im_case (p := 1) (by decide) (by
    have : ∀ q < 8, q ≠ 1 → imX q < imX 1 := by decide +kernel
    exact this) 5 (by decide)
example := C26_imax (V := Rat) ExactOrd.gt_iff imX (fun l => 10 * l)

/-! ### size arithmetic: the object of 2³² × 2³² doubles for which no memory was allocated -/

example := C64_wrap_unsound ⟨false, .columnMajor, 0x100000000, 0x100000000, 0x100000000, 0⟩ 4 (by decide) (by decide) rfl

/-! ### vectors -/

def svA : VObj := ⟨true, 5, 0⟩
def svB : VObj := ⟨true, 5, 16⟩
example := C53_fill (SS := 4) svA demoMem (memOf_vlive lit lit lit) 3
example := C53_initializer_list (SS := 4) (by decide) svA demoMem (memOf_vlive lit lit lit) [1, 2, 3]
example := C53_history (V := Rat) (SS := 4) (by decide) (fun x => if x = 0 then svA else svB) (fun x => x < 2)
  (fun x y hx hy hne z h1 h2 => by
    have e1 : svA.capacity 4 = 8 := by decide
    have e2 : svB.capacity 4 = 8 := by decide
    have d1 : svA.data = 0 := rfl
    have d2 : svB.data = 16 := rfl
    unfold VObj.Storage at h1 h2
    beta_reduce at h1 h2
    split at h1 <;> split at h2 <;> omega)
  [.fill 0 3, .set 1 4 7, .get 0 4, .assign 0 1, .get 0 4, .reset 1] demoMem (fun x k => if x = 0 then k else 16 + k)
  (fun x hx k hk => by
    have e1 : svA.capacity 4 = 8 := by decide
    have e2 : svB.capacity 4 = 8 := by decide
    beta_reduce at hk ⊢
    split <;> rename_i h
    · rw [if_pos h] at hk
      have : ∀ k : Nat, k < 8 → demoMem (svA.data + k) = some (k : Rat) := by decide +kernel
      exact this k (by omega)
    · rw [if_neg h] at hk
      have : ∀ k : Nat, k < 8 → demoMem (svB.data + k) = some (16 + k : Rat) := by decide +kernel
      exact this k (by omega))
  (by
    intro op ho
    fin_cases ho <;> refine ⟨?_, ?_⟩ <;> simp [VOp.uses, VOp.Valid, svA, svB])

/-! ### solving systems: [[0, 1], [2, 0]] x = b and a singular matrix -/

def slA : Container := ⟨.dynDense, .columnMajor, 2, 2, 0⟩
def slB : Container := ⟨.statDense, .rowMajor, 2, 3, 100⟩
def slVal (i j : Nat) : Rat := if i = 0 ∧ j = 1 then 1 else if i = 1 ∧ j = 0 then 2 else 0
def slMem : Mem Rat := memOf 1000 (fun x => if x = 4 then 1 else if x = 1 then 2 else if x < 100 then 0 else x)
theorem slA_has : Contains 4 slMem slA slVal := memOf_contains' lit lit lit (by decide +kernel)
theorem slA_pre : GetrfPre 4 1 2 2 (slA.mptr 4) slMem := LuPre.of_live (A := slA) (by decide) rfl rfl (memOf_live lit lit lit)
theorem slA_det : (Matrix.of (fun i j : Fin 2 => slVal i j)).det ≠ 0 := by
  rw [Matrix.det_fin_two]; decide +kernel
example := C50_lu_solve slA_pre (B := slB.mptr 4) rfl (Container.inj (by decide) slB) ((apart_of (c := slA) (d := slB) lit).disj (by decide)) slA_has.holds
  (memOf_contains (c := slB) lit lit lit).holds id slA_det
def slZ : Container := ⟨.dynDense, .columnMajor, 2, 2, 16⟩
example := C50_lu_solve_singular (r := 3) (LuPre.of_live (A := slZ) (SS := 4) (m0 := slMem) (by decide) rfl rfl (memOf_live lit lit lit)) (B := slB.mptr 4)
  (memOf_contains' (c := slZ) (a := fun _ _ => 0) lit lit lit (by decide +kernel)).holds id (Matrix.det_zero_of_row_eq (i := (⟨0, by decide⟩ : Fin 2)) (j := ⟨1, by decide⟩) (fun h => by cases h) rfl)

/-! ### histories -/

example := C52_history (by decide) demoHistory demoHistory_admissible
example := C52_no_leak (by decide) demoHistory demoHistory_admissible (by
  intro x
  rcases x with _ | _ | _ | x <;> rfl)
example := C52_padding_zero (by decide) demoHistory demoHistory_admissible (by simp [demoHistory])
example := C52_mismatched_delete_refuted (V := Rat) (SS := 4) 0 ⟨.dynPanel, .columnMajor, 3, 3, 0⟩ rfl
end Blast
