import Verif.Cases.Reproducible
import Verif.Props.Parametric
/-
Concrete cases of the theorems in Props/Parametric: the calls of Cases/Reproducible, with equality of rational numbers as the relation. Cases/FlushAgree has a
case with another relation.
-/
namespace Blast

/-- equality is a relation that the operations respect -/
theorem rel_eq : OpRel (fun x y : Rat => x = y) where
  zero := rfl
  one := rfl
  add h1 h2 := by rw [h1, h2]
  sub h1 h2 := by rw [h1, h2]
  mul h1 h2 := by rw [h1, h2]
  div h1 h2 := by rw [h1, h2]
  neg h1 := by rw [h1]
  sqrt h1 := by rw [h1]
  fma h1 h2 h3 := by rw [h1, h2, h3]
  fnma h1 h2 h3 := by rw [h1, h2, h3]

theorem cmp_eq : CmpRel (fun x y : Rat => x = y) where
  abs h1 := by rw [h1]
  gt h1 h2 := by rw [h1, h2]
  eq h1 h2 := by rw [h1, h2]

/-- 5 × 7 times 7 × 6: SIMD width 4 and 8, in place and not -/
example := C99_gemm rel_eq (SS := 4) (SS' := 8) (m := gridMem) (n := gridMem) (rfl : (2 : Rat) = 2) (rfl : (3 : Rat) = 3)
  (A := ⟨.dynDense, .columnMajor, 5, 7, 0⟩) (B := ⟨.dynDense, .columnMajor, 7, 6, 64⟩) (C := ⟨.statDense, .columnMajor, 5, 6, 128⟩)
  (D := ⟨.statDense, .columnMajor, 5, 6, 192⟩)
  (A' := ⟨.statDense, .columnMajor, 5, 7, 256⟩) (B' := ⟨.statDense, .columnMajor, 7, 6, 320⟩) (C' := ⟨.dynDense, .columnMajor, 5, 6, 384⟩)
  (D' := ⟨.dynDense, .columnMajor, 5, 6, 384⟩)
  ⟨by decide, rfl, rfl, rfl, memOf_live lit lit lit, memOf_live lit lit lit, memOf_live lit lit lit, memOf_live lit lit lit, apart_of lit, apart_of lit, Or.inr (apart_of lit)⟩ lit
  ⟨by decide, rfl, rfl, rfl, memOf_live lit lit lit, memOf_live lit lit lit, memOf_live lit lit lit, memOf_live lit lit lit, apart_of lit, apart_of lit, Or.inl rfl⟩ lit
  ⟨rfl, rfl⟩ (grid_dyn lit lit lit lit lit lit lit) (grid_dyn lit lit lit lit lit lit lit) (grid_stat lit lit lit lit lit lit lit)
  (grid_stat lit lit lit lit lit lit lit) (grid_stat lit lit lit lit lit lit lit) (grid_dyn lit lit lit lit lit lit lit) (fun _ _ _ _ => rfl) (fun _ _ _ _ => rfl) (fun _ _ _ _ => rfl)

example := C99_ger rel_eq (SS := 4) (SS' := 8) (m := gridMem) (n := gridMem) (rfl : (2 : Rat) = 2)
  (x := ⟨true, 5, 0⟩) (y := ⟨false, 7, 64⟩) (A := ⟨.dynDense, .columnMajor, 5, 7, 128⟩) (B := ⟨.statDense, .columnMajor, 5, 7, 192⟩)
  (x' := ⟨false, 5, 256⟩) (y' := ⟨true, 7, 320⟩) (A' := ⟨.statDense, .columnMajor, 5, 7, 384⟩) (B' := ⟨.statDense, .columnMajor, 5, 7, 384⟩)
  ⟨by decide, rfl, rfl, memOf_vlive lit lit lit, memOf_vlive lit lit lit, memOf_live lit lit lit, memOf_live lit lit lit, vapart_of lit, vapart_of lit, Or.inr (apart_of lit)⟩ lit
  ⟨by decide, rfl, rfl, memOf_vlive lit lit lit, memOf_vlive lit lit lit, memOf_live lit lit lit, memOf_live lit lit lit, vapart_of lit, vapart_of lit, Or.inl rfl⟩ lit
  (grid_vec lit lit lit lit) (grid_vec lit lit lit lit) (grid_dyn lit lit lit lit lit lit lit)
  (grid_vec lit lit lit lit) (grid_vec lit lit lit lit) (grid_stat lit lit lit lit lit lit lit) (fun _ _ => rfl) (fun _ _ => rfl) (fun _ _ _ _ => rfl)

example := C99_syrk rel_eq (SS := 4) (SS' := 4) (m := gridMem) (n := gridMem) (rfl : (2 : Rat) = 2) (rfl : (3 : Rat) = 3)
  (A := ⟨.dynDense, .columnMajor, 5, 7, 0⟩) (C := ⟨.statDense, .columnMajor, 5, 5, 128⟩) (D := ⟨.statDense, .columnMajor, 5, 5, 192⟩)
  (A' := ⟨.statDense, .columnMajor, 5, 7, 256⟩) (C' := ⟨.dynDense, .columnMajor, 5, 5, 384⟩) (D' := ⟨.dynDense, .columnMajor, 5, 5, 384⟩)
  ⟨by decide, rfl, rfl, rfl, memOf_live lit lit lit, memOf_live lit lit lit, memOf_live lit lit lit, apart_of lit, Or.inr (apart_of lit)⟩ lit
  ⟨by decide, rfl, rfl, rfl, memOf_live lit lit lit, memOf_live lit lit lit, memOf_live lit lit lit, apart_of lit, Or.inl rfl⟩ lit
  ⟨rfl, rfl⟩ (grid_dyn lit lit lit lit lit lit lit) (fun i j _ => grid_stat lit lit lit lit lit lit lit i j) (grid_stat lit lit lit lit lit lit lit)
  (grid_stat lit lit lit lit lit lit lit) (fun i j _ => grid_dyn lit lit lit lit lit lit lit i j) (grid_dyn lit lit lit lit lit lit lit) (fun _ _ _ _ => rfl) (fun _ _ _ _ _ => rfl)

example := C99_trmm_left rel_eq (SS := 4) (m := gridMem) (n := gridMem) (rfl : (2 : Rat) = 2)
  (A := ⟨.dynDense, .columnMajor, 5, 5, 0⟩) (B := ⟨.dynDense, .columnMajor, 5, 7, 64⟩) (C := ⟨.statDense, .columnMajor, 5, 7, 128⟩)
  (A' := ⟨.statDense, .columnMajor, 5, 5, 256⟩) (B' := ⟨.dynDense, .columnMajor, 5, 7, 384⟩) (C' := ⟨.dynDense, .columnMajor, 5, 7, 384⟩)
  ⟨by decide, rfl, rfl, memOf_live lit lit lit, memOf_live lit lit lit, memOf_live lit lit lit, apart_of lit, Or.inr (apart_of lit), fun h => by cases h⟩ lit
  ⟨by decide, rfl, rfl, memOf_live lit lit lit, memOf_live lit lit lit, memOf_live lit lit lit, apart_of lit, Or.inl rfl, fun h => by cases h⟩ lit
  ⟨rfl, rfl⟩ (grid_dyn lit lit lit lit lit lit lit) (grid_dyn lit lit lit lit lit lit lit) (grid_stat lit lit lit lit lit lit lit) (grid_dyn lit lit lit lit lit lit lit) (fun _ _ _ _ => rfl) (fun _ _ _ _ => rfl)

example := C99_trmm_right rel_eq (SS := 4) (SS' := 8) (m := gridMem) (n := gridMem) (rfl : (2 : Rat) = 2)
  (A := ⟨.dynDense, .columnMajor, 7, 7, 0⟩) (B := ⟨.dynDense, .columnMajor, 5, 7, 64⟩) (C := ⟨.statDense, .columnMajor, 5, 7, 128⟩)
  (A' := ⟨.statDense, .columnMajor, 7, 7, 256⟩) (B' := ⟨.dynDense, .columnMajor, 5, 7, 384⟩) (C' := ⟨.dynDense, .columnMajor, 5, 7, 384⟩)
  ⟨by decide, rfl, rfl, memOf_live lit lit lit, memOf_live lit lit lit, memOf_live lit lit lit, apart_of lit, Or.inr (apart_of lit)⟩ lit
  ⟨by decide, rfl, rfl, memOf_live lit lit lit, memOf_live lit lit lit, memOf_live lit lit lit, apart_of lit, Or.inl rfl⟩ lit
  ⟨rfl, rfl⟩ (fun i j _ hi hj => grid_dyn lit lit lit lit lit lit lit i j hi hj) (grid_dyn lit lit lit lit lit lit lit)
  (fun i j _ hi hj => grid_stat lit lit lit lit lit lit lit i j hi hj) (grid_dyn lit lit lit lit lit lit lit) (fun _ _ _ _ _ => rfl) (fun _ _ _ _ => rfl)

example := C99_trsm rel_eq (SS := 4) (SS' := 8) (m := gridMem) (n := gridMem) .lower true
  (A := ⟨.dynDense, .columnMajor, 5, 5, 0⟩) (B := ⟨.dynDense, .columnMajor, 5, 7, 64⟩) (X := ⟨.statDense, .columnMajor, 5, 7, 128⟩)
  (A' := ⟨.statDense, .columnMajor, 5, 5, 256⟩) (B' := ⟨.dynDense, .columnMajor, 5, 7, 384⟩) (X' := ⟨.dynDense, .columnMajor, 5, 7, 384⟩)
  ⟨by decide, memOf_live lit lit lit, memOf_live lit lit lit, memOf_live lit lit lit, apart_of lit, Or.inr (apart_of lit)⟩ lit
  ⟨by decide, memOf_live lit lit lit, memOf_live lit lit lit, memOf_live lit lit lit, apart_of lit, Or.inl rfl⟩ lit
  ⟨rfl, rfl⟩ ((grid_dyn lit lit lit lit lit lit lit).tri _ _) (grid_dyn lit lit lit lit lit lit lit)
  ((grid_stat lit lit lit lit lit lit lit).tri _ _) (grid_dyn lit lit lit lit lit lit lit) (fun _ _ _ _ _ => rfl) (fun _ _ _ _ => rfl)

example := C99_potrf_dense rel_eq (SS := 4) (m := gridMem) (n := gridMem)
  (A := ⟨.dynDense, .columnMajor, 8, 8, 0⟩) (L := ⟨.dynDense, .columnMajor, 8, 8, 64⟩)
  (A' := ⟨.statDense, .columnMajor, 8, 8, 256⟩) (L' := ⟨.statDense, .columnMajor, 8, 8, 256⟩)
  ⟨by decide, rfl, rfl, memOf_live lit lit lit, memOf_live lit lit lit, Or.inr (apart_of lit)⟩ lit (potrfFits_square (by decide) (Or.inl rfl))
  ⟨by decide, rfl, rfl, memOf_live lit lit lit, memOf_live lit lit lit, Or.inl rfl⟩ lit (potrfFits_square (by decide) (Or.inl rfl))
  ⟨rfl, rfl⟩ (fun i j _ => grid_dyn lit lit lit lit lit lit lit i j) (grid_dyn lit lit lit lit lit lit lit)
  (fun i j _ => grid_stat lit lit lit lit lit lit lit i j) (grid_stat lit lit lit lit lit lit lit) (fun _ _ _ _ _ => rfl)

/-- 8 × 8 panel matrices: all cells hold 3 -/
example := C99_potrf_panel rel_eq (SS := 4) (KN := 4) (m := memOf 1000 (fun _ => (3 : Rat))) (n := memOf 2000 (fun _ => (3 : Rat)))
  (A := ⟨.dynPanel, .columnMajor, 8, 8, 0⟩) (L := ⟨.dynPanel, .columnMajor, 8, 8, 512⟩)
  (A' := ⟨.statPanel, .columnMajor, 8, 8, 1256⟩) (L' := ⟨.statPanel, .columnMajor, 8, 8, 1256⟩)
  ⟨by decide, rfl, rfl, memOf_live lit lit lit, memOf_live lit lit lit, Or.inr (apart_of lit)⟩ lit (potrfFits_square (by decide) (Or.inl rfl))
  ⟨by decide, rfl, rfl, memOf_live lit lit lit, memOf_live lit lit lit, Or.inl rfl⟩ lit (potrfFits_square (by decide) (Or.inl rfl))
  ⟨rfl, rfl⟩ (memOf_contains lit lit lit) (memOf_contains lit lit lit) (memOf_contains lit lit lit) (memOf_contains lit lit lit) (fun _ _ _ _ => rfl)

example := C99_getf2 rel_eq cmp_eq (SS := 4) (SS' := 8) (by decide) (by decide) (m := gridMem) (n := gridMem) (A := ⟨.dynDense, .columnMajor, 5, 7, 0⟩)
  (A' := ⟨.statDense, .columnMajor, 5, 7, 640⟩) rfl rfl (memOf_live lit lit lit) rfl rfl (memOf_live lit lit lit) ⟨rfl, rfl⟩
  (grid_dyn lit lit lit lit lit lit lit) (grid_stat lit lit lit lit lit lit lit) (fun _ _ _ _ => rfl) id

example := C99_getrf rel_eq cmp_eq (SS := 4) (by decide) (m := gridMem) (n := gridMem) (A := ⟨.dynDense, .columnMajor, 5, 7, 0⟩)
  (A' := ⟨.statDense, .columnMajor, 5, 7, 640⟩) rfl rfl (memOf_live lit lit lit) rfl rfl (memOf_live lit lit lit) ⟨rfl, rfl⟩
  (grid_dyn lit lit lit lit lit lit lit) (grid_stat lit lit lit lit lit lit lit) (fun _ _ _ _ => rfl) id

/-- a row-major matrix, and the same matrix stored column by column and passed to the row-major code -/
example := C99_getf2_row_major rel_eq cmp_eq (SS := 4) (SS' := 4) (by decide) (by decide) (· / ·) (· / ·) (fun h1 h2 => by rw [h1, h2]) (A := luRm) (A' := luCm) rfl rfl ⟨rfl, rfl⟩ luRm_has luCm_has (fun _ _ _ _ => rfl) id

example := C99_getrf_row_major rel_eq (SS := 4) (SS' := 4) (by decide) (by decide) (· / ·) (· / ·) (fun h1 h2 => by rw [h1, h2]) (A := luRm) (A' := luCm) ⟨rfl, rfl⟩ luRm_has luCm_has (fun _ _ _ _ => rfl) id

end Blast
