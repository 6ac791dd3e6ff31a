import Verif.Cases.Demo
import Verif.Props.DynReg
import Verif.Props.Complexity
/- Concrete cases for the theorems of `Verif/Props/DynReg.lean` and `Verif/Props/Complexity.lean`. -/
namespace Blast
open DynReg

/-! ### C55: a 13 × 3 matrix; the register tile of 2 vectors (8 rows) at (4, 0), of which 6 × 3 are used -/

def drA : Container := ⟨.dynDense, .columnMajor, 13, 3, 16⟩
def drB : Container := ⟨.dynDense, .columnMajor, 13, 3, 400⟩
theorem drA_ptr : TilePtr 4 (drA.mptr 4) 4 := ⟨by decide, Container.mptr_wf (by decide) _ (by decide), rfl, fun _ => rfl⟩
theorem drB_ptr : TilePtr 4 (drB.mptr 4) 4 := ⟨by decide, Container.mptr_wf (by decide) _ (by decide), rfl, fun _ => rfl⟩
theorem drA_el : ∀ a b : Nat, a < 2 * 4 → b < 3 → demoMem ((drA.mptr 4).addr 4 (4 + a : Nat) (0 + b : Nat)) = some ((((drA.mptr 4).addr 4 (4 + a : Nat) (0 + b : Nat)) : Int) : Rat) := by
  have : ∀ a < 8, ∀ b < 3, demoMem ((drA.mptr 4).addr 4 (4 + a : Nat) (0 + b : Nat)) = some ((((drA.mptr 4).addr 4 (4 + a : Nat) (0 + b : Nat)) : Int) : Rat) := by decide +kernel
  exact fun a b ha hb => this a ha b hb
theorem drB_inj : Inj 4 (drB.mptr 4) (4 + 6) (0 + 3) := by
  have := Container.inj (SS := 4) (by decide) drB
  intro i j i' j' hi hj hi' hj'
  exact this i j i' j' (by show i < 13; omega) hj (by show i' < 13; omega) hj'
theorem drB_alloc : BlockAlloc 4 demoMem (drB.mptr 4) 4 0 6 3 := by
  have : ∀ a < 6, ∀ b < 3, (demoMem ((drB.mptr 4).addr 4 (4 + a : Nat) (0 + b : Nat))).isSome = true := by decide +kernel
  exact fun a b ha hb => this a ha b hb

example := C55_load (construct 6 3 : DynReg Rat) (RM := 2) (N := 4) drA_ptr (by decide) drA_el
example := C55_store (construct 6 3 : DynReg Rat) (RM := 2) (N := 4) drB_ptr (by decide) (by decide) drB_inj drB_alloc
example := C55_storeLower (construct 6 3 : DynReg Rat) (RM := 2) (N := 4) (mem := demoMem) drB_ptr (by decide) (by decide) drB_inj (by
  have : ∀ a < 6, ∀ b < 3, (demoMem ((drB.mptr 4).addr 4 (4 + a : Nat) (0 + b : Nat))).isSome = true := by decide +kernel
  exact fun a b ha hb _ => this a ha b hb)
/-- the column of `drA` at (4, 0), 8 rows, times the row of `drB` at (8, 0) -/
example := C55_ger (construct 6 3 : DynReg Rat) (RM := 2) (N := 4) (I := 4) (J := 0) (fun x => x) drA_ptr (Container.mptr_wf (by decide) drB (by decide))
  (at_off (SS := 4) (p := drB.mptr 4) (by decide) (Container.mptr_wf (by decide) drB (by decide)) 8 0 (fun _ => by decide)) (by decide)
  (X := fun a => (((drA.mptr 4).addr 4 (4 + a : Nat) (0 : Nat) : Int) : Rat)) (Y := fun b => (((drB.mptr 4).addr 4 8 (0 + (b : Nat)) : Int) : Rat)) (mem := demoMem)
  (by have : ∀ a < 8, demoMem ((drA.mptr 4).addr 4 (4 + a : Nat) (0 : Nat)) = some (((drA.mptr 4).addr 4 (4 + a : Nat) (0 : Nat) : Int) : Rat) := by decide +kernel
      exact fun a ha => this a ha)
  (by have : ∀ b < 3, demoMem ((drB.mptr 4).addr 4 8 (0 + (b : Nat))) = some (((drB.mptr 4).addr 4 8 (0 + (b : Nat)) : Int) : Rat) := by decide +kernel
      exact fun b hb => this b hb)
example := C55_equality (SS := 4) (fun _ _ => 0 : Reg Rat) 6 3 drA demoMem (memOf_contains (c := drA) (by decide) lit lit)
example := C55_load_store (V := Rat) (RM := 2) (N := 4) (mm := 6) (nn := 3) drA_ptr drB_ptr (by decide) (by decide) drB_inj drB_alloc drA_el

/-! ### C61 -/

example := C61_trsm 1000 300 (by
  have h : trsmUpdates 1000 300 = 44850000 := by
    unfold trsmUpdates; simp only [Finset.sum_const, Finset.card_range, smul_eq_mul, mul_one]
    rw [← Finset.sum_mul, Finset.sum_range_id]; decide
  rw [show (1000 : UInt64).toNat = 1000 from rfl, show (300 : UInt64).toNat = 300 from rfl, h]; decide)
example := C61_getrf_square 20 (by decide +kernel)
example := C61_setCounters (fun _ => none) 10 20 3 1
end Blast
