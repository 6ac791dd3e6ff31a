import Verif.Cases.Demo
import Verif.Props.Syrk
/-
Concrete cases of the theorems in Props/Ger and Props/Syrk (SIMD width 4, cell x holds the number x).
-/
namespace Blast
open Finset

theorem ger_case : GerArgs 4 demoMem ⟨true, 5, 0⟩ ⟨false, 7, 20⟩ ⟨.dynPanel, .columnMajor, 5, 7, 200⟩ ⟨.statDense, .columnMajor, 5, 7, 600⟩ :=
  ⟨by decide, rfl, rfl, memOf_vlive lit lit lit, memOf_vlive lit lit lit, memOf_live lit lit lit, memOf_live lit lit lit, vapart_of lit, vapart_of lit,
    Or.inr (apart_of lit)⟩

/-- a 5 × 7 panel matrix plus 2 x yᵀ, stored in a dense matrix -/
example : ∃ m', gerCall 4 1 (2 : Rat) ⟨true, 5, 0⟩ ⟨false, 7, 20⟩ ⟨.dynPanel, .columnMajor, 5, 7, 200⟩ ⟨.statDense, .columnMajor, 5, 7, 600⟩ demoMem = .ok () m' ∧
    Contains 4 m' ⟨.statDense, .columnMajor, 5, 7, 600⟩ (fun i j =>
      (((⟨.dynPanel, .columnMajor, 5, 7, 200⟩ : Container).addr 4 i j : Int) : Rat) + 2 * ((0 + (i : Int) : Int) : Rat) * ((20 + (j : Int) : Int) : Rat)) ∧
    OnlyElemsChange 4 demoMem m' ⟨.statDense, .columnMajor, 5, 7, 600⟩ :=
  C09_ger_value (2 : Rat) ger_case lit (memOf_vcontains lit lit) (memOf_vcontains lit lit) (memOf_contains lit lit lit)

example := C09_ger_pointer_value (2 : Rat) (ger_case.pre lit) (VContains.holds (memOf_vcontains lit lit)) (VContains.holds (memOf_vcontains lit lit))
  (memOf_contains (SS := 4) (c := ⟨.dynPanel, .columnMajor, 5, 7, 200⟩) lit lit lit).holds
example := C09_ger_bitwise (2 : Rat) (ger_case.pre lit) (VContains.holds (memOf_vcontains lit lit)) (VContains.holds (memOf_vcontains lit lit))
  (memOf_contains (SS := 4) (c := ⟨.dynPanel, .columnMajor, 5, 7, 200⟩) lit lit lit).holds

/-- consistent and inconsistent sizes -/
example := (C09_ger_size_check (2 : Rat) ger_case).2 lit
example : gerCall 4 1 (2 : Rat) ⟨true, 5, 0⟩ ⟨false, 6, 20⟩ ⟨.dynPanel, .columnMajor, 5, 7, 200⟩ ⟨.statDense, .columnMajor, 5, 7, 600⟩ demoMem =
    .throw .invalidArgument demoMem :=
  (C09_ger_size_check (2 : Rat) (x := ⟨true, 5, 0⟩) (y := ⟨false, 6, 20⟩) (A := ⟨.dynPanel, .columnMajor, 5, 7, 200⟩) (B := ⟨.statDense, .columnMajor, 5, 7, 600⟩)
    ⟨by decide, rfl, rfl, memOf_vlive lit lit lit, memOf_vlive lit lit lit, memOf_live lit lit lit, memOf_live lit lit lit, vapart_of lit, vapart_of lit,
      Or.inr (apart_of lit)⟩).1 lit

/-- row-major: x of length 2 and y of length 3 with stride 2, in place in a 2 × 3 row-major matrix with spacing 4 -/
example : ∃ m', gerRowMat 4 (2 : Rat) ⟨.vec false false 0 2, 2⟩ ⟨.vec false false 20 2, 3⟩ ⟨⟨false, .rowMajor, false, false, 40, 4⟩, 2, 3⟩
      ⟨⟨false, .rowMajor, false, false, 40, 4⟩, 2, 3⟩ demoMem = .ok () m' ∧
    Holds 4 m' ⟨false, .rowMajor, false, false, 40, 4⟩ 2 3 (fun i j => ((40 + 4 * (i : Int) + j : Int) : Rat) + 2 * ((0 + i * 2 : Int) : Rat) * ((20 + j * 2 : Int) : Rat)) := by
  have hj : Inj 4 ⟨false, .rowMajor, false, false, 40, 4⟩ 2 3 := fun i j i' j' hi hj hi' hj' e => by
    have e : 40 + 4 * (i : Int) + j = 40 + 4 * (i' : Int) + j' := e
    omega
  obtain ⟨m', h1, h2, _⟩ := (C09_ger_row_major (SS := 4) (mem := demoMem) (2 : Rat) (x := ⟨.vec false false 0 2, 2⟩) (y := ⟨.vec false false 20 2, 3⟩)
    (A := ⟨⟨false, .rowMajor, false, false, 40, 4⟩, 2, 3⟩) (B := ⟨⟨false, .rowMajor, false, false, 40, 4⟩, 2, 3⟩)
    (xv := fun i => ((0 + i * 2 : Int) : Rat)) (yv := fun j => ((20 + j * 2 : Int) : Rat)) (a := fun i j => ((40 + 4 * (i : Int) + j : Int) : Rat))
    (fun i hi => memOf_at (show (0 : Int) ≤ 0 + i * 2 by omega) (show (0 : Int) + i * 2 < 1000 by dsimp only at hi; omega))
    (fun i hi => memOf_at (show (0 : Int) ≤ 20 + i * 2 by omega) (show (20 : Int) + i * 2 < 1000 by dsimp only at hi; omega))
    (fun i j hi hj => memOf_at (show (0 : Int) ≤ 40 + 4 * (i : Int) + j by omega) (show 40 + 4 * (i : Int) + j < 1000 by dsimp only at hi hj; omega))
    (fun i j hi hj => by
      show (memOf 1000 _ (40 + 4 * (i : Int) + j)).isSome = true
      dsimp only at hi hj
      rw [memOf_at (by omega) (by omega)]; rfl)
    hj (fun i j i' j' hi hj' hi' hj'' e => hj i j i' j' hi hj' hi' hj'' e)
    (fun i hi => by
      rintro ⟨r, s, _, _, e⟩
      have e : (0 : Int) + i * 2 = 40 + 4 * (r : Int) + s := e
      dsimp only at hi; omega)
    (fun i hi => by
      rintro ⟨r, s, _, _, e⟩
      have e : (20 : Int) + i * 2 = 40 + 4 * (r : Int) + s := e
      dsimp only at hi; omega)).2 ⟨rfl, rfl⟩
  exact ⟨m', h1, h2⟩

/-! ### syrk -/

theorem syrk_case : SyrkArgs 4 demoMem ⟨.dynDense, .columnMajor, 6, 3, 200⟩ ⟨.statDense, .columnMajor, 6, 6, 600⟩ ⟨.statDense, .columnMajor, 6, 6, 600⟩ :=
  ⟨by decide, rfl, rfl, rfl, memOf_live lit lit lit, memOf_live lit lit lit, memOf_live lit lit lit, apart_of lit, Or.inl rfl⟩

theorem contains_lower {SS : Nat} {m : Mem Rat} {c : Container} {a : Nat → Nat → Rat} (h : Contains SS m c a) (hc : c.cols = c.rows) :
    ∀ i j, i < c.rows → j ≤ i → m (c.addr SS i j) = some (a i j) := fun i j hi hj => h i j hi (by omega)

example := C10_syrk_value (2 : Rat) 3 syrk_case lit (memOf_contains lit lit lit) (contains_lower (memOf_contains lit lit lit) rfl)
example := C10_syrk_pointer_value (2 : Rat) 3 (syrk_case.pre lit) (memOf_contains lit lit lit).holds (fun i j hi hj => by
  rw [← Container.addr_eq_mptr]; exact contains_lower (memOf_contains lit lit lit) rfl i j hi hj)
example := C10_syrk_bitwise (2 : Rat) 3 (syrk_case.pre lit) (memOf_contains lit lit lit).holds (fun i j hi hj => by
  rw [← Container.addr_eq_mptr]; exact contains_lower (memOf_contains lit lit lit) rfl i j hi hj)
example := (C10_syrk_size_check (2 : Rat) 3 syrk_case).2 lit
example : syrkCall 4 1 (2 : Rat) ⟨.dynDense, .columnMajor, 5, 3, 200⟩ 3 ⟨.statDense, .columnMajor, 6, 6, 600⟩ ⟨.statDense, .columnMajor, 6, 6, 600⟩ demoMem =
    .throw .invalidArgument demoMem :=
  (C10_syrk_size_check (2 : Rat) 3 (A := ⟨.dynDense, .columnMajor, 5, 3, 200⟩) (C := ⟨.statDense, .columnMajor, 6, 6, 600⟩)
    (D := ⟨.statDense, .columnMajor, 6, 6, 600⟩)
    ⟨by decide, rfl, rfl, rfl, memOf_live lit lit lit, memOf_live lit lit lit, memOf_live lit lit lit, apart_of lit, Or.inl rfl⟩).1 lit

end Blast
