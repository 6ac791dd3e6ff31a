import Verif.Cases.Ger
import Verif.Cases.Trmm
import Verif.Cases.Potrf
import Verif.Props.Frame
/- Concrete cases for the theorems of `Verif/Props/Frame.lean`. -/
set_option linter.unusedSectionVars false
namespace Blast

example := C67_ger_uses_only (2 : Rat) ger_case
example := C67_syrk_uses_only (2 : Rat) 3 syrk_case
example := C67_trmm_left_uses_only (2 : Rat) trmmL_case lit
example := C67_trmm_right_uses_only (2 : Rat) trmmR_case lit
example := C67_potrf_panel_uses_only pan_args lit pan_fits
example := C67_potrf_dense_uses_only chol_args lit chol_fits'
example := C67_getf2_uses_only (SS := 4) (by decide) (m := demoMem) (A := ⟨.statDense, .columnMajor, 5, 7, 0⟩) rfl rfl (memOf_live lit lit lit) id
example := C67_getf2_row_major_uses_only (SS := 4) (by decide) (· / ·) (m := demoMem) (A := ⟨.statDense, .rowMajor, 5, 7, 0⟩) rfl (memOf_live lit lit lit) id
example := C67_getrf_uses_only (SS := 4) (by decide) (m := demoMem) (A := ⟨.dynDense, .columnMajor, 9, 6, 0⟩) rfl rfl (memOf_live lit lit lit) id
example := C67_laswp_uses_only (SS := 4) (k0 := 1) (k1 := 4) (by decide) (m := demoMem) (A := ⟨.dynDense, .rowMajor, 9, 6, 0⟩) rfl (memOf_live lit lit lit) (by decide) (by decide)
  (ipiv := fun q => 8 - q) (fun q _ _ => by show 8 - q < 9; omega)
example := C67_trsm_uses_only (SS := 4) (m := demoMem) (A := ⟨.statPanel, .rowMajor, 5, 5, 0⟩) (B := ⟨.dynDense, .rowMajor, 5, 3, 200⟩) (X := ⟨.dynPanel, .columnMajor, 5, 3, 400⟩) .upper false
  ⟨by decide, memOf_live lit lit lit, memOf_live lit lit lit, memOf_live lit lit lit, apart_of lit, Or.inr (apart_of lit)⟩

/-- a call that returns: the elements of a 3 × 3 matrix are set; it returns the same whatever else is allocated -/
example : ∃ m' : Mem Rat, (∀ z, (m' z).isSome = (demoMem z).isSome) ∧
    ∀ f : Mem Rat, (⟨.statDense, .columnMajor, 3, 3, 0⟩ : Container).assignScalar 4 2 (fun z => (demoMem z).or (f z)) = .ok () (fun z => (m' z).or (f z)) := by
  have h := (C67_calls_framed (V := Rat) 4 1 4 0 0 0 2 3 ⟨unpaddedPtr 0 4, 3, 3⟩ ⟨unpaddedPtr 0 4, 3, 3⟩ ⟨unpaddedPtr 0 4, 3, 3⟩ ⟨unpaddedPtr 0 4, 3, 3⟩ ⟨.vec true true 0 1, 3⟩ ⟨.vec true true 0 1, 3⟩
    .lower false id (· / ·) ⟨.statDense, .columnMajor, 3, 3, 0⟩ ⟨.statDense, .columnMajor, 3, 3, 0⟩ 2).2.2.2.2.2.2.2.2.2.2.2.2.2.2.2.2.2.2.2.2.2.2.2.1
  exact ⟨_, C67_framed_returns h (m := demoMem) rfl⟩

/-- a call that throws -/
example := C67_framed_throws (x := .invalidArgument) (m := demoMem) (m' := demoMem)
  (C67_calls_framed (V := Rat) 4 1 4 0 0 0 2 3 ⟨unpaddedPtr 0 4, 3, 3⟩ ⟨unpaddedPtr 0 4, 2, 3⟩ ⟨unpaddedPtr 0 4, 3, 3⟩ ⟨unpaddedPtr 0 4, 3, 3⟩ ⟨.vec true true 0 1, 3⟩ ⟨.vec true true 0 1, 3⟩
    .lower false id (· / ·) ⟨.statDense, .columnMajor, 3, 3, 0⟩ ⟨.statDense, .columnMajor, 3, 3, 0⟩ 2).1 rfl
end Blast
