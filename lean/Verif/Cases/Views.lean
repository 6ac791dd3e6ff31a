import Verif.Cases.Potrf
import Verif.Props.ViewAlgos
/- Concrete cases for the theorems of `Verif/Props/Views.lean` and `Verif/Props/ViewAlgos.lean`: blocks of the 10 × 9 matrix `viewObj`
(cell x holds x), of row-major panel matrices, and of matrices with special contents. -/
set_option linter.unusedSectionVars false
namespace Blast
open Finset

/-! ### C39: a 4 × 5 block inside an 8 × 7 block of a row-major panel matrix -/

def vwPan : Container := ⟨.dynPanel, .rowMajor, 9, 10, 16⟩
theorem vwPan_live : Live 4 demoMem vwPan := memOf_live lit lit lit
theorem vwPan_has : Contains 4 demoMem vwPan (fun i j => ((vwPan.addr 4 i j : Int) : Rat)) := memOf_contains lit lit lit
theorem vwPan_elems : Elems 4 demoMem (.obj vwPan) (fun i j => ((vwPan.addr 4 i j : Int) : Rat)) := by
  intro i j hi hj
  exact Prog.reads_read (vwPan_has i j hi hj)

def vwSub : MExpr := .sub (.sub (.obj vwPan) false 1 2 8 7) false 3 1 4 5
theorem vwSub_fits : vwSub.Fits := ⟨⟨trivial, by decide, by decide⟩, by decide, by decide⟩
example := C39_view_in_bounds (SS := 4) (by decide) vwSub_fits vwPan_live
example := C39_submatrix_set (SS := 4) (by decide) vwPan_live false (i := 1) (j := 2) (r := 8) (n := 7) (k := 7) (l := 6) (by decide) (by decide) (by decide) (by decide) 5
example := C39_submatrix_reset (SS := 4) (by decide) vwPan_live false (i := 1) (j := 2) (r := 8) (n := 7) (by decide) (by decide)
example := C39_submatrix_elements false vwPan_elems (i := 1) (j := 2) (r := 8) (n := 7) (by decide) (by decide)
example := C39_view_assign_mismatch (SS := 4) (m := demoMem) (a := vwSub) (b := .obj vwPan) (Or.inl (by decide))
example := C39_row_elements vwPan_elems (i := 8) (by decide)
example := C39_row_part_elements vwPan_elems (i := 8) (j := 3) (n := 7) (by decide) (by decide)
example := C39_subvector_elements (C39_row_part_elements vwPan_elems (i := 8) (j := 3) (n := 7) (by decide) (by decide)).2 (j := 2) (n := 4) (by decide)
example := C39_row_pointer (SS := 4) (RowView.part (.obj ⟨.dynPanel, .columnMajor, 9, 10, 16⟩) 5 3 7) (fun _ => rfl) true true 1 4
example := C39_row_reset (SS := 4) (by decide) vwPan_live (i := 8) (j := 3) (n := 7) (by decide) (by decide)
/-- an aligned view of a panel matrix -/
example := C39_view_pointer (SS := 4) (by decide) (.sub (.obj vwPan) false 3 4 5 6) (fun _ => ⟨by decide, by decide⟩) 4 5

/-! ### C45 -/

example := C45_trans_elements vwPan_elems
example := C45_trans_trans vwSub (fun e' h => by cases h)
example := C45_trans_trans_elements vwPan_elems
example := C45_trans_pointer (SS := 4) (by decide) (.sub (.obj vwPan) false 3 4 5 6) (fun _ => ⟨by decide, by decide⟩) 4 5
example := C45_trans_at vwPan_elems 9 8
/-- outside -/
example : transAt 4 (.obj vwPan) 10 0 demoMem = .throw .outOfRange demoMem := (C45_trans_at vwPan_elems 10 0).trans (if_neg (by decide))

/-! ### C40: the block of rows 3-7 and columns 4-9 (columns are the major direction) -/

def vwPs : PanelSub := ⟨vwPan, 3, 4, 5, 6⟩
example : panelSubmatrix 4 vwPan 3 4 5 6 demoMem = .ok vwPs demoMem :=
  (C40_panel_submatrix (by decide) (by decide)).trans ((if_neg (by decide)).trans (if_pos (by decide)))
example : panelSubmatrix 4 vwPan 3 5 5 5 demoMem = .throw .logicError demoMem :=
  (C40_panel_submatrix (by decide) (by decide)).trans ((if_neg (by decide)).trans (if_neg (by decide)))
example := C40_at (SS := 4) (s := vwPs) ⟨by decide, by decide, by decide, by decide⟩ vwPan_has 4 5
example : vwPs.submatrix 4 1 4 2 2 demoMem = .ok ⟨vwPan, 4, 8, 2, 2⟩ demoMem :=
  (C40_panel_submatrix_nested (by decide) (by decide)).trans ((if_neg (by decide)).trans (if_pos (by decide)))
example := C40_offset_column_major (SS := 4) (s := ⟨⟨.dynPanel, .columnMajor, 10, 9, 16⟩, 4, 3, 6, 5⟩) rfl rfl
example := C40_offset_row_major_refuted (SS := 4) (s := ⟨vwPan, 4, 4, 5, 6⟩) rfl rfl rfl

/-! ### C49 -/

example := C49_gemm_views_mismatch (SS := 4) (m := demoMem) (A := .sub (.obj viewObj) true 4 0 6 2) (B := .sub (.obj viewObj) true 4 0 6 2)
  (C := .sub (.obj viewObj) true 4 0 6 2) (D := .sub (.obj viewObj) true 4 0 6 2) (1 : Rat) 1 (by decide)
example := C49_padInBounds_of_full_rows (SS := 4) (by decide) viewObj rfl rfl false (i := 1) (j := 2) (r := 8) (n := 7) (by decide) (by decide) (by decide)

/-! ### C51 -/

example := C51_syrk_views (2 : Rat) 3 viewSyrk_demo rfl rfl rfl rfl (viewElems_demo true (by decide) (by decide)) (viewElems_demo true (by decide) (by decide))
example := C51_trmm_right_views (2 : Rat) viewTrmmR_demo rfl rfl rfl rfl (viewElems_demo false (by decide) (by decide)) (viewElems_demo true (by decide) (by decide))
example := C51_getf2_views (SS := 4) (by decide) (viewOK_demo (af := false) (i := 1) (j := 3) (r := 5) (n := 6) (by decide) (by decide) (by decide)) rfl
  (viewElems_demo false (by decide) (by decide)) id
example := C51_getrf_views (SS := 4) (by decide) (viewOK_demo (af := true) (i := 4) (j := 3) (r := 5) (n := 6) (by decide) (by decide) (by decide)) rfl
  (C49_padInBounds_of_aligned_row (by decide) viewObj rfl rfl true (by decide) (by decide) (by decide)) (viewElems_demo true (by decide) (by decide)) id
/-- triangular solve with three blocks of one matrix; the diagonal element (1, 3) of the triangular block holds 37 -/
example := C51_trsm_views (SS := 4) (by decide) (A := .sub (.obj viewObj) false 1 3 3 3) (B := .sub (.obj viewObj) false 5 1 3 2) (X := .sub (.obj viewObj) false 5 1 3 2)
  .lower false (viewOK_demo (by decide) (by decide) (by decide)) (viewOK_demo (by decide) (by decide) (by decide)) (viewOK_demo (by decide) (by decide) (by decide))
  (by
    have : ∀ i < 3, ∀ j < 3, ∀ i' < 3, ∀ j' < 2, (MExpr.sub (.obj viewObj) false 1 3 3 3).addr 4 i j ≠
      (MExpr.sub (.obj viewObj) false 5 1 3 2).addr 4 i' j' := by decide +kernel
    exact fun i j i' j' h1 h2 h3 h4 => this i h1 j h2 i' h3 j' h4)
  (sameView_demo (by decide) (by decide)) rfl rfl rfl rfl (viewElems_demo false (by decide) (by decide)) (viewElems_demo false (by decide) (by decide))
  (fun _ i hi => by
    have : ∀ i < 3, Blast.val demoMem (viewObj.addr 4 (1 + i) (3 + i)) ≠ 0 := by decide +kernel
    exact this i hi)

theorem viewGer_live : Live 4 demoMem (⟨.dynDense, .columnMajor, 5, 2, 0⟩ : Container) := memOf_live lit lit lit
theorem viewGer_elems : Elems 4 demoMem gerViewDemo (fun i j => Blast.val demoMem ((⟨.dynDense, .columnMajor, 5, 2, 0⟩ : Container).addr 4 (2 + i) (0 + j))) := by
  have : ∀ i < 3, ∀ j < 2, demoMem (gerViewDemo.addr 4 i j) = some (Blast.val demoMem ((⟨.dynDense, .columnMajor, 5, 2, 0⟩ : Container).addr 4 (2 + i) (0 + j))) := by decide +kernel
  intro i j hi hj
  exact Prog.reads_read (this i hi j hj)
example := C51_ger_views (2 : Rat) viewGer_demo rfl rfl rfl rfl (memOf_vcontains lit lit) (memOf_vcontains lit lit) viewGer_elems

/-- zero below the diagonal of the block of rows 4-6 and columns 0-2 -/
def viewTri : Mem Rat := memOf 1000 (fun x => if x < 36 ∧ x / 12 < x % 12 - 4 then 0 else x)
theorem viewTri_live : Live 4 viewTri viewObj := memOf_live lit lit lit
theorem viewTri_elems (af : Bool) (i j r n : Nat) (hr : i + r ≤ 10) (hn : j + n ≤ 9) :
    Elems 4 viewTri (.sub (.obj viewObj) af i j r n) (fun k l => Blast.val viewTri (viewObj.addr 4 (i + k) (j + l))) := by
  have : ∀ p < 10, ∀ q < 9, viewTri (viewObj.addr 4 p q) = some (Blast.val viewTri (viewObj.addr 4 p q)) := by decide +kernel
  intro k l hk hl
  have hk : k < r := hk
  have hl : l < n := hl
  exact Prog.reads_read (this (i + k) (by omega) (j + l) (by omega))
example := C51_trmm_left_views (2 : Rat) (viewTrmmL_of viewTri_live) rfl rfl rfl rfl
  (a := fun i k => if i < 3 ∧ k < 3 then Blast.val viewTri (viewObj.addr 4 (4 + i) (0 + k)) else 0)
  (fun i k hi hk => by
    have hi : i < 3 := hi
    have hk : k < 3 := hk
    beta_reduce
    rw [if_pos ⟨hi, hk⟩]
    exact viewTri_elems true 4 0 3 3 (by decide) (by decide) i k hi hk)
  (fun i k h => by
    have : ∀ i < 3, ∀ k < 3, k < i → Blast.val viewTri (viewObj.addr 4 (4 + i) (0 + k)) = 0 := by decide +kernel
    by_cases hh : i < 3 ∧ k < 3
    · rw [if_pos hh]; exact this i hh.1 k hh.2 h
    · rw [if_neg hh]) (viewTri_elems false 1 4 3 5 (by decide) (by decide))

/-- 2 on the diagonal of the block of rows 0-7 and columns 3-6 -/
noncomputable def viewChol : Mem ℝ := memOf 1000 (fun x => if x % 12 + 3 = x / 12 then 2 else 0)
theorem viewChol_elems : Elems 4 viewChol (.sub (.obj viewObj) true 0 3 8 4) (fun i j => if i = j then 2 else 0) := by
  intro k l hk hl
  have hk : k < 8 := hk
  have hl : l < 4 := hl
  have e : ∀ i < 8, ∀ j < 4, (MExpr.sub (.obj viewObj) true 0 3 8 4).addr 4 i j = (i : Int) + 12 * (j + 3) := by decide +kernel
  refine Prog.reads_read (x := (MExpr.sub (.obj viewObj) true 0 3 8 4).addr 4 k l) ?_
  rw [e k hk l hl]
  unfold viewChol
  rw [memOf_at (by omega) (by omega)]
  dsimp only
  congr 1
  by_cases h : k = l
  · rw [if_pos h, if_pos (by omega)]
  · rw [if_neg h, if_neg (by omega)]
example := C51_potrf_views (viewPotrf_of (m := viewChol) (memOf_live lit lit lit)) (by decide) rfl rfl viewChol_elems (two_posdef 4)
end Blast
