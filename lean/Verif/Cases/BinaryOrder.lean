import Verif.Props.BinaryOrder
import Verif.Cases.Lu
/-
Cases of Props/BinaryOrder.
-/
namespace Blast

/-- 1, -infinity, NaN, 2, +infinity -/
noncomputable def ordVal : Nat → Bin binary64
  | 0 => .fin false 1
  | 1 => .inf true
  | 2 => .nan
  | 3 => .fin false 2
  | _ => .inf false

/-- the elements at the addresses 8, 11, 14, ... (element spacing 3) -/
noncomputable def ordMem (f : Nat → Bin binary64) : Mem (Bin binary64) := fun x => some (f ((x - 8) / 3).toNat)

/-- a vector of five elements with element spacing 3 -/
def ordX : VArg := ⟨.vec false false 8 3, 5⟩

theorem ord_holds (f : Nat → Bin binary64) : VHolds 4 (ordMem f) ordX.p ordX.n f := by
  intro i hi
  show some (f ((VPtr.addr 4 ordX.p (i : Int) - 8) / 3).toNat) = some (f i)
  rw [show (VPtr.addr 4 ordX.p (i : Int) - 8) / 3 = (i : Int) by simp [ordX, VPtr.addr]]
  rfl

example := C25_iamax_ieee (SS := 4) (x := ordX) vec_plain (ord_holds ordVal) (by decide) (by intro h; cases h)
example := C25_iamax_nan_first (SS := 4) (x := ordX) vec_plain (ord_holds (fun i => ordVal (i + 2))) (by decide) rfl

/-- the index found in the example is 1 -/
example : iamaxVec 4 ordX (ordMem ordVal) = .ok 1 (ordMem ordVal) := by
  obtain ⟨i, h1, h2, a, ha, h3, h4⟩ := C25_iamax_ieee (SS := 4) (x := ordX) vec_plain (ord_holds ordVal) (by decide) (by intro h; cases h)
  have hb := h3 1 (by decide) ⊥ rfl
  have h2 : i < 5 := h2
  obtain rfl | rfl | rfl | rfl | rfl : i = 0 ∨ i = 1 ∨ i = 2 ∨ i = 3 ∨ i = 4 := by omega
  · obtain rfl : ((1 : ℝ) : EReal) = a := by simpa [ordVal, Bin.ext] using ha
    simp at hb
    rcases hb with hb | hb
    · exact absurd hb (EReal.coe_ne_top 1)
    · exact absurd hb (EReal.coe_ne_bot 1)
  · exact h1
  · cases ha
  · obtain rfl : ((2 : ℝ) : EReal) = a := by simpa [ordVal, Bin.ext] using ha
    simp at hb
  · have hc := h4 1 (by omega) ⊥ rfl
    cases ha
    simp at hc

/-- the comparisons of the example -/
example : Arith.gt (ordVal 3) (ordVal 1) = true ∧ Arith.gt (ordVal 2) (ordVal 1) = false ∧ Arith.eq (ordVal 1) (ordVal 4) = false :=
  ⟨rfl, rfl, rfl⟩

end Blast
