import Verif.Props.Checked
import Verif.Cases.Gemm
import Verif.Cases.Ger
import Verif.Cases.Trmm
import Verif.Cases.Potrf
import Verif.Cases.Lu
/-
Cases of Props/Checked.
-/
namespace Blast

example := C90_gemm (2 : Rat) 3 demo_args
example := C90_gemm_pointers (2 : Rat) 3 (demo_args.pre lit)
example := C90_ger (TR := 1) (2 : Rat) ger_case
example := C90_syrk (TR := 1) (2 : Rat) 3 syrk_case
example := C90_trmm_left (TR := 1) (2 : Rat) .upper false trmmL_case (fun _ => rfl)
example := C90_trmm_right (TR := 1) (2 : Rat) .lower false trmmR_case (fun _ => rfl)
example := C90_potrf_dense (TR := 1) chol_args (Or.inl (by decide))
example := C90_potrf_panel (KN := 4) pan_args (Or.inl (by decide))
example := C90_getf2 (V := Rat) (SS := 4) (TR := 1) (M := 5) (N := 3) (A := luCm.mptr 4) rfl id
example := C90_getrf luCm_pre id
example := C90_iamax_swap_laswp (V := Rat) (SS := 4) (x := swX) (y := swY) (n := 3) (k0 := 0) (k1 := 3) (A := luCm.mptr 4) (ipiv := id)
  ⟨Or.inr (by decide), fun _ => by decide⟩ ⟨Or.inr (by decide), fun h => by first | cases h | decide⟩

/-- the checked gemm computes the product -/
example := (show Checked.gemmMat 4 (2 : Rat) _ _ 3 _ _ = _ from C90_gemm (2 : Rat) 3 demo_args) ▸
  C01_gemm_value (2 : Rat) 3 demo_args lit (demo_contains lit lit) (demo_contains lit lit) (demo_contains lit lit)

/-- a matrix whose pointer is declared aligned but is not -/
def chkBad : Mat := ⟨{ panel := false, so := .columnMajor, aligned := true, padded := true, ptr := 2, spacing := 8 }, 5, 5⟩
example := C90_gemm_misaligned (SS := 4) (A := chkA.mat 4) (B := chkA.mat 4) (C := chkA.mat 4) (D := ⟨chkBad.p, 4, 4⟩) (2 : Rat) 3 rfl ⟨rfl, rfl⟩
  ⟨rfl, rfl⟩ ⟨⟨chkBad.p, 4, 4⟩, by simp, rfl, by decide⟩

/-- the transpose of rows 1-2, columns 2-5 of a 4×6 matrix -/
def chkE : MExpr := .tr (.sub (.obj chkM) false 1 2 2 4)
theorem chkE_fits : chkE.Fits := ⟨trivial, by decide, by decide⟩
theorem chkE_sized : chkE.Sized := ⟨by decide, by decide⟩
example := C90_view_valid (V := Rat) (SS := 4) chkE_fits chkE_sized
example := C90_view_assign (V := Rat) (SS := 4) (a := .sub (.obj chkM) false 0 0 4 2) ⟨trivial, by decide, by decide⟩ chkE_fits ⟨by decide, by decide⟩ chkE_sized
example := C90_submatrix_valid (V := Rat) (af := false) (e := .sub (.obj chkM) false 1 2 2 4) (i := 1) (j := 1) (m := 1) (n := 3) ⟨trivial, by decide, by decide⟩
  ⟨by decide, by decide⟩
example := C90_submatrix_detected (V := Rat) (af := false) (c := chkM) (i := 1) (j := 1) (m := 4) (n := 3) (by decide) (by decide) (by decide)
example := C90_submatrix_index_detected (V := Rat) (SS := 4) (e := .obj chkM) (af := false) (i0 := 1) (j0 := 2) (m := 2) (n := 3) (i := 0) (j := 3) (by decide)
example := C90_row_valid (V := Rat) (SS := 4) (r := ⟨.obj chkM, 1, 2, 3⟩) ⟨trivial, by decide, by decide⟩ ⟨by decide, by decide⟩ (by decide)
example := C90_row_index_detected (V := Rat) (SS := 4) (r := ⟨.obj chkM, 1, 2, 3⟩) (j := 4) (by decide) (by decide)

theorem chkBad_mis : chkBad.p.Misaligned 4 := ⟨rfl, by decide⟩
/-- a vector of 5 elements all at the same address -/
def chkVec : VArg := ⟨.vec false false 100 0, 5⟩
example := C90_ger_misaligned (SS := 4) (TR := 1) (x := chkVec) (y := chkVec) (A := chkBad) (B := chkBad) (2 : Rat) ⟨rfl, rfl⟩ ⟨rfl, rfl⟩
  (Or.inl ⟨chkVec, by simp, Or.inl ⟨rfl, rfl⟩⟩)
example := C90_ger_misaligned (SS := 4) (TR := 1) (x := ⟨.vec false false 100 1, 5⟩) (y := ⟨.vec false false 200 1, 5⟩) (A := chkBad) (B := chkBad) (2 : Rat)
  ⟨rfl, rfl⟩ ⟨rfl, rfl⟩ (Or.inr ⟨chkBad, by simp, chkBad_mis⟩)
example := C90_trmm_misaligned (SS := 4) (TR := 1) (A := ⟨(chkA.mat 4).p, 5, 5⟩) (B := chkBad) (C := ⟨(chkC.mat 4).p, 5, 5⟩) (2 : Rat) .upper false ⟨rfl, rfl⟩
  ⟨chkBad, by simp, chkBad_mis⟩
example := C90_vectors_detected (V := Rat) (SS := 4) (x := chkVec) (y := chkVec) (by decide)
example := (C90_vectors_detected (V := Rat) (SS := 4) (x := chkVec) (y := chkVec) (by decide)).1 (Or.inl ⟨rfl, rfl⟩)
example := C90_syrk_misaligned (SS := 4) (TR := 1) (A := ⟨(chkA.mat 4).p, 5, 5⟩) (C := ⟨(chkC.mat 4).p, 5, 5⟩) (D := chkBad) (2 : Rat) 3 (by decide)
  ⟨chkBad, by simp, chkBad_mis⟩
example := C90_potrf_misaligned (V := Rat) (SS := 4) (TR := 1) (KN := 4) (A := ⟨(chkA.mat 4).p, 5, 5⟩) (L := chkBad) (by decide) (Or.inr chkBad_mis)
example := C90_row_detected (V := Rat) (e := .obj chkM) (i := 1) (j := 2) (n := 5) (Or.inr (Or.inr (by decide)))
example := (C90_row_detected (V := Rat) (e := .obj chkM) (i := 4) (j := 2) (n := 4) (Or.inl (by decide))).2 (by decide)
example := (C90_dynreg (V := Rat) (SS := 4) (RM := 2) (N := 4) (mm := 9) (nn := 3) (i := 7) (j := 3) (R := .construct 8 3)).1.2 (Or.inl (by decide))
example := (C90_dynreg (V := Rat) (SS := 4) (RM := 2) (N := 4) (mm := 9) (nn := 3) (i := 7) (j := 3) (R := .construct 8 3)).2.2 (Or.inr (by decide))

end Blast
