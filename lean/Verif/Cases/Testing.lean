import Verif.Cases.Demo
import Verif.Props.Testing
import Verif.RoundingBinary
/- Concrete cases for the theorems of `Verif/Props/Testing.lean`: exact numbers with NaN and infinities (unit roundoff 0). -/
set_option linter.unusedSectionVars false
namespace Blast

def tsA : Container := ⟨.dynDense, .columnMajor, 3, 2, 0⟩
def tsB : Container := ⟨.statPanel, .rowMajor, 3, 2, 100⟩
/-- cells below 100: the numbers; cells from 100 on: infinity -/
def tsMem : Mem (Ieee Rat) := memOf 1000 (fun x => if x < 100 then .fin x else .inf true)
theorem tsA_has : Contains 4 tsMem tsA (fun i j => .fin ((4 * j + i : Nat) : Rat)) := by
  have : ∀ i < 3, ∀ j < 2, tsA.addr 4 i j = ((4 * j + i : Nat) : Int) := by decide +kernel
  intro i j hi hj
  have hi : i < 3 := hi
  have hj : j < 2 := hj
  unfold tsMem
  rw [this i hi j hj, memOf_at (by omega) (by omega)]
  dsimp only
  rw [if_pos (by omega)]
  norm_cast
theorem tsB_has : Contains 4 tsMem tsB (fun _ _ => .inf true) := by
  have : ∀ i < 3, ∀ j < 2, 100 ≤ tsB.addr 4 i j ∧ tsB.addr 4 i j < 1000 := by decide +kernel
  intro i j hi hj
  unfold tsMem
  rw [memOf_at (by have := this i hi j hj; omega) (by have := this i hi j hj; omega)]
  dsimp only
  rw [if_neg (by have := this i hi j hj; omega)]

example := C62_approxEqual_matrix (u := (0 : Rat)) (atol := 1 / 1000) (rtol := 1 / 10) (by norm_num) (by norm_num) tsA_has tsB_has
example := C62_approxEqual_vector (u := (0 : Rat)) 3 3 (fun j => .fin (j : Rat)) (fun j => .fin (j + 1 / 2)) (atol := 1 / 1000) (rtol := 1 / 10) (by norm_num) (by norm_num)
example := C62_approxEqual_tolerances (u := (0 : Rat)) 3 3 3 (fun j => .fin (j : Rat)) (fun j => .fin (j + 1 / 2)) (fun j => .fin (j : Rat))
example := C62_exactEqual_matrix (u := (0 : Rat)) tsA_has tsB_has
example := C62_exactEqual_vector (u := (0 : Rat)) 3 3 (fun j => (.fin (j : Rat) : Ieee Rat)) (fun _ => .nan)
/-- the 3 × 2 matrix of the numbers 0, 1, … is reported as approximately equal to the matrix of infinities -/
example : approxEqualMat 4 tsA tsB (.fin (1 / 1000)) (.fin (1 / 10)) tsMem = .ok .success tsMem :=
  C62_infinity_refuted (u := (0 : Rat)) (by norm_num) (by norm_num) tsA_has tsB_has ⟨rfl, rfl⟩ (fun i j _ _ => ⟨_, rfl⟩) (fun i j _ _ => ⟨_, rfl⟩)
example := C62_nan_refuted 3 (fun _ => (.nan : Ieee Rat)) (fun j => .fin j) (fun _ => .fin 0) (.fin 0) (.fin 0) (fun _ => rfl)
example := C62_approxEqual_scalar (u := (0 : Rat)) (atol := 1 / 1000) (rtol := 1 / 10) (by norm_num) (by norm_num) 3 (7 / 2)
end Blast
