import Verif.Cases.BinaryLu
import Verif.Props.LuRowBinary
/-
A concrete case of C23_getrf_row_major_unstable_refuted.
-/
namespace Blast

/-- a row-major 2 × 2 matrix -/
def tinyRm : Container := ⟨.dynDense, .rowMajor, 2, 2, 0⟩
noncomputable def tinyMem : Mem (Bin binary64) := memOf 1000 (fun x => if x = 0 then .fin false ((1 / 2) ^ 60) else .fin false 1)

theorem tiny_has : Contains 4 tinyMem tinyRm tinyPivot := by
  have h : ∀ i < 2, ∀ j < 2, (tinyRm.addr 4 i j = 0) ↔ (i = 0 ∧ j = 0) := by decide
  intro i j hi hj
  rw [show tinyPivot i j = if tinyRm.addr 4 i j = 0 then .fin false ((1 / 2) ^ 60) else .fin false 1 from if_congr (h i hi j hj).symm rfl rfl]
  exact memOf_contains (c := tinyRm) lit lit lit i j hi hj

example := C23_getrf_row_major_unstable_refuted (p := tinyRm.mptr 4) (tinyRm.inj (by decide)) tiny_has.holds id
end Blast
