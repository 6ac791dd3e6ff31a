import Verif.Cases.Trmm
import Verif.Props.TrmmUsed

/-! Concrete cases for the theorems of `Verif.Props.TrmmUsed`: the elements of A below its diagonal that the left triangular product uses. -/

namespace Blast
open Reg (UpLo)

/-- the elements used, for an 8 × 8 upper triangular argument with nonzero elements below its diagonal -/
example := C12_trmm_left_elements_used (2 : Rat) trmmL8_case lit (memOf_contains lit lit lit) (memOf_contains lit lit lit)

/-- 9 × 9, SIMD width 2: sevens on and above the diagonal, zeros in the band of width 6 below it, fives further down -/
def bandVal (i j : Nat) : Rat := if i ≤ j then 7 else if i < j + 6 then 0 else 5
def bandMem : Mem Rat := memOf 1000 (fun x => if x < 90 then bandVal (x % 10).toNat (x / 10).toNat else 1)

theorem band_case : TrmmLArgs 2 bandMem ⟨.dynDense, .columnMajor, 9, 9, 0⟩ ⟨.statPanel, .rowMajor, 9, 5, 300⟩ ⟨.statDense, .columnMajor, 9, 5, 600⟩ :=
  ⟨by decide, rfl, rfl, memOf_live lit lit lit, memOf_live lit lit lit, memOf_live lit lit lit, apart_of lit, Or.inr (apart_of lit), fun _ h => by cases h⟩

theorem band_a : Contains 2 bandMem ⟨.dynDense, .columnMajor, 9, 9, 0⟩ bandVal := memOf_contains' lit lit lit (by decide +kernel)

/-- the element (8, 0) is 5, not zero: it lies below the band, and the product is still that of the upper triangle -/
example : bandVal 8 0 = 5 := by decide +kernel
example := C12_trmm_left_band (2 : Rat) band_case lit band_a
  (fun i k h1 h2 _ => by unfold bandVal; rw [if_neg (by omega), if_pos (by omega)]) (memOf_contains lit lit lit)

end Blast
