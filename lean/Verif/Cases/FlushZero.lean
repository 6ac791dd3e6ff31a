import Verif.Cases.Binary
import Verif.Cases.BinaryLu
import Verif.Props.FlushZero

/-! Concrete cases for the theorems of `Verif.Props.FlushZero`. -/

namespace Blast
open Reg

example : dazArith C98_formats.1.1 = plainArith C98_formats.1.1 := C98_daz _ (by decide)
example : dazArith C98_formats.1.2.2.2 = plainArith C98_formats.1.2.2.2 := C98_daz _ (by decide)

/-- half of the smallest normal number becomes zero -/
example : (Bin.mk binary64Ftz false ((2 : ℝ) ^ (-1023 : ℤ))).Finite ∧ (Bin.mk binary64Ftz false ((2 : ℝ) ^ (-1023 : ℤ))).real = 0 := by
  refine mk_flushed (by decide) ?_
  rw [abs_of_pos (zpow_pos (by norm_num) _), show binary64Ftz.emin = -1022 from rfl, show (-1023 : ℤ) = -1022 - 1 by norm_num, zpow_sub₀ (by norm_num), zpow_one]
example := C98_rounding (F := binary64Ftz) (nz := false) (by decide) (mk_flushed (F := binary64Ftz) (nz := false) (x := 0) (by decide) (by rw [abs_zero]; exact div_nonneg (zpow_nonneg (by norm_num) _) (by norm_num))).1
example := C98_rounding (F := binary32Fz) (nz := false) (by decide) (Bin.mk_exact (F := binary32Fz) (nz := false) (Bin.representable_one C98_formats.1.2.2.2)).1

noncomputable def flushBinMem (F : Format) : Mem (Bin F) := memOf 1000 (fun x => if x % 3 = 0 then .fin false 1 else .fin true 1)
example := C98_gemm (F := binary64Ftz) (SS := 4) (m := flushBinMem _) (by decide) (.fin false 1) (.fin true 1)
  (A := ⟨.dynDense, .columnMajor, 5, 7, 0⟩) (B := ⟨.dynDense, .columnMajor, 7, 6, 64⟩) (C := ⟨.dynDense, .columnMajor, 5, 6, 128⟩) (D := ⟨.statDense, .columnMajor, 5, 6, 192⟩)
  ⟨by decide, rfl, rfl, rfl, memOf_live lit lit lit, memOf_live lit lit lit, memOf_live lit lit lit, memOf_live lit lit lit, apart_of lit, apart_of lit, Or.inr (apart_of lit)⟩ lit
  (memOf_contains lit lit lit) (memOf_contains lit lit lit) (memOf_contains lit lit lit)

/-- the matrix [[m, m], [m, 3/2 m]] in memory -/
def flushCm : Container := ⟨.dynDense, .columnMajor, 2, 2, 0⟩
noncomputable def flushMem (F : Format) : Mem (Bin F) := memOf 1000 (fun x => .fin false (if x = 5 then 3 / 2 * 2 ^ F.emin else 2 ^ F.emin))
theorem flushMem_has (F : Format) : Contains 4 (flushMem F) flushCm (flushVal F) := by
  have h : ∀ i < 2, ∀ j < 2, flushCm.addr 4 i j = 5 ↔ (i = 1 ∧ j = 1) := by decide
  intro i j hi hj
  rw [show flushVal F i j = .fin false (if flushCm.addr 4 i j = 5 then 3 / 2 * 2 ^ F.emin else 2 ^ F.emin) from
    congrArg (Bin.fin false) (if_congr (h i hi j hj).symm rfl rfl)]
  exact memOf_contains (c := flushCm) lit lit lit i j hi hj
theorem flushMem_pre (F : Format) : LuPre 4 1 2 2 (flushCm.mptr 4) (flushMem F) :=
  (LuPre.of_live (A := flushCm) (by decide) rfl rfl (memOf_live lit lit lit) : GetrfPre 4 1 2 2 (flushCm.mptr 4) (flushMem F)).toLuPre

/-- thrown in double with flush-to-zero, factorized with gradual underflow -/
example : ∃ m', getf2Ptr 4 1 2 2 (flushCm.mptr 4) id (flushMem binary64Ftz) = .throw .invalidArgument m' :=
  (C98_getf2_singular_refuted C98_formats.1.1 (by decide) (flushMem_pre _) (flushMem_has _).holds id).2.1 (by decide)
example : ∃ m', getf2Ptr 4 1 2 2 (flushCm.mptr 4) id (flushMem binary32Fz) = .throw .invalidArgument m' :=
  (C98_getf2_singular_refuted C98_formats.1.2.2.2 (by decide) (flushMem_pre _) (flushMem_has _).holds id).2.1 (by decide)
example : ∃ p m', getf2Ptr 4 1 2 2 (flushCm.mptr 4) id (flushMem binary64) = .ok p m' :=
  (C98_getf2_singular_refuted ⟨by decide, by decide⟩ (by decide) (flushMem_pre _) (flushMem_has _).holds id).2.2 rfl

/-- the column (2^1023, 2^1023) -/
def hugeRm : Container := ⟨.dynDense, .rowMajor, 2, 1, 0⟩
noncomputable def hugeMem (F : Format) : Mem (Bin F) := memOf 1000 (fun _ => .fin false (2 ^ F.emax))
example := C98_reciprocal_refuted (F := binary64Ftz) (SS := 4) (by decide) (by decide) (by decide) (A := hugeRm.mat 4) ⟨rfl, rfl⟩ rfl (m0 := hugeMem _)
  (Container.inj (by decide) hugeRm) (memOf_contains (c := hugeRm) lit lit lit).holds id
example := C98_reciprocal_refuted (F := binary32Fz) (SS := 8) (by decide) (by decide) (by decide) (A := hugeRm.mat 8) ⟨rfl, rfl⟩ rfl (m0 := hugeMem _)
  (Container.inj (by decide) hugeRm) (memOf_contains (c := hugeRm) lit lit lit).holds id

end Blast
