import Verif.Cases.Reproducible
import Verif.Props.NanProp
/-
Concrete cases of the theorems in Props/NanProp: IEEE arithmetic with infinities, and arithmetic with numbers and NaN; one cell of the memory is NaN.
-/
namespace Blast

/-- cell x holds x, cell p is NaN -/
def ieeeMem (p : Int) : Mem (Ieee Rat) := memOf 2000 (fun x => if x = p then .nan else .fin x)

/-- NaN, in the arithmetic of numbers and NaN -/
def nanVal : Nan Rat := (none : Option Rat)

def nanMem (p : Int) : Mem (Nan Rat) := memOf 2000 (fun x => if x = p then nanVal else num (x : Rat))

/-- 5 × 7 times 7 × 6; the NaN is A(0,1), whatever alpha and beta -/
theorem nan_gemm {V : Type} {f : Int → V} : GemmArgs 4 (memOf 2000 f) ⟨.dynDense, .columnMajor, 5, 7, 0⟩ ⟨.dynDense, .columnMajor, 7, 6, 64⟩
    ⟨.statDense, .columnMajor, 5, 6, 128⟩ ⟨.statDense, .columnMajor, 5, 6, 192⟩ :=
  ⟨by decide, rfl, rfl, rfl, memOf_live lit lit lit, memOf_live lit lit lit, memOf_live lit lit lit, memOf_live lit lit lit, apart_of lit, apart_of lit, Or.inr (apart_of lit)⟩

example : ∃ m' d, gemmCall 4 (.fin 0) ⟨.dynDense, .columnMajor, 5, 7, 0⟩ ⟨.dynDense, .columnMajor, 7, 6, 64⟩ (.fin 0) ⟨.statDense, .columnMajor, 5, 6, 128⟩
    ⟨.statDense, .columnMajor, 5, 6, 192⟩ (ieeeMem 8) = .ok () m' ∧ Contains 4 m' ⟨.statDense, .columnMajor, 5, 6, 192⟩ d ∧ d 0 5 = .nan := by
  obtain ⟨m', d, h1, h2, h3⟩ := C76_gemm (m := ieeeMem 8) (.fin 0) (.fin 0) nan_gemm lit (memOf_contains lit lit lit) (memOf_contains lit lit lit) (memOf_contains lit lit lit)
  exact ⟨m', d, h1, h2, h3 0 5 (by decide) (by decide) (Or.inr (Or.inr (Or.inr ⟨1, by decide, Or.inl (if_pos rfl)⟩)))⟩

/-- the same with C(0,5) = NaN and beta = 0, alpha = 0: unlike in BLAS, C is read -/
example : ∃ m' d, gemmCall 4 (.fin 0) ⟨.dynDense, .columnMajor, 5, 7, 0⟩ ⟨.dynDense, .columnMajor, 7, 6, 64⟩ (.fin 0) ⟨.statDense, .columnMajor, 5, 6, 128⟩
    ⟨.statDense, .columnMajor, 5, 6, 192⟩ (ieeeMem 168) = .ok () m' ∧ Contains 4 m' ⟨.statDense, .columnMajor, 5, 6, 192⟩ d ∧ d 0 5 = .nan := by
  obtain ⟨m', d, h1, h2, h3⟩ := C76_gemm (m := ieeeMem 168) (.fin 0) (.fin 0) nan_gemm lit (memOf_contains lit lit lit) (memOf_contains lit lit lit) (memOf_contains lit lit lit)
  exact ⟨m', d, h1, h2, h3 0 5 (by decide) (by decide) (Or.inr (Or.inr (Or.inl (if_pos rfl))))⟩

/-- a NaN in the padding of A (cell 5 + 8) has no effect -/
example : ∃ m' d, gemmCall 4 (num 2) ⟨.dynDense, .columnMajor, 5, 7, 0⟩ ⟨.dynDense, .columnMajor, 7, 6, 64⟩ (num 3) ⟨.statDense, .columnMajor, 5, 6, 128⟩
    ⟨.statDense, .columnMajor, 5, 6, 192⟩ (nanMem 13) = .ok () m' ∧ Contains 4 m' ⟨.statDense, .columnMajor, 5, 6, 192⟩ d ∧
    ∀ i < 5, ∀ j < 6, ¬ IsNan (d i j) := by
  obtain ⟨m', d, h1, h2, h3⟩ := C76_gemm_only (m := nanMem 13) (num 2) (num 3) nan_gemm lit (memOf_contains lit lit lit) (memOf_contains lit lit lit) (memOf_contains lit lit lit)
  refine ⟨m', d, h1, h2, fun i hi j hj hn => ?_⟩
  have key : ∀ x : Int, x ≠ 13 → ¬ IsNan (if x = 13 then nanVal else num (x : Rat)) := fun x hx h => by rw [if_neg hx] at h; cases h
  have ka : ∀ i < 5, ∀ j < 7, (⟨.dynDense, .columnMajor, 5, 7, 0⟩ : Container).addr 4 i j ≠ 13 := by decide +kernel
  have kb : ∀ i < 7, ∀ j < 6, (⟨.dynDense, .columnMajor, 7, 6, 64⟩ : Container).addr 4 i j ≠ 13 := by decide +kernel
  have kc : ∀ i < 5, ∀ j < 6, (⟨.statDense, .columnMajor, 5, 6, 128⟩ : Container).addr 4 i j ≠ 13 := by decide +kernel
  rcases (h3 i j hi hj).1 hn with h | h | h | ⟨k, hk, h | h⟩
  · cases h
  · cases h
  · exact key _ (kc i hi j hj) h
  · exact key _ (ka i hi k hk) h
  · exact key _ (kb k hk j hj) h

theorem nan_ger {V : Type} {f : Int → V} : GerArgs 4 (memOf 2000 f) ⟨true, 5, 0⟩ ⟨false, 7, 64⟩ ⟨.dynDense, .columnMajor, 5, 7, 128⟩ ⟨.statDense, .columnMajor, 5, 7, 192⟩ :=
  ⟨by decide, rfl, rfl, memOf_vlive lit lit lit, memOf_vlive lit lit lit, memOf_live lit lit lit, memOf_live lit lit lit, vapart_of lit, vapart_of lit, Or.inr (apart_of lit)⟩

example := C76_ger (m := ieeeMem 3) (.fin 2) nan_ger lit (memOf_vcontains lit lit) (memOf_vcontains lit lit) (memOf_contains lit lit lit)
example := C76_ger_only (m := nanMem 3) (num 2) nan_ger lit (memOf_vcontains lit lit) (memOf_vcontains lit lit) (memOf_contains lit lit lit)

theorem nan_syrk {V : Type} {f : Int → V} : SyrkArgs 4 (memOf 2000 f) ⟨.dynDense, .columnMajor, 5, 7, 0⟩ ⟨.statDense, .columnMajor, 5, 5, 128⟩ ⟨.statDense, .columnMajor, 5, 5, 192⟩ :=
  ⟨by decide, rfl, rfl, rfl, memOf_live lit lit lit, memOf_live lit lit lit, memOf_live lit lit lit, apart_of lit, Or.inr (apart_of lit)⟩

example := C76_syrk (m := ieeeMem 3) (.fin 2) (.fin 3) nan_syrk lit (memOf_contains lit lit lit) (fun i j _ => memOf_contains (c := ⟨.statDense, .columnMajor, 5, 5, 128⟩) lit lit lit i j)
  (memOf_contains lit lit lit)
example := C76_syrk_only (m := nanMem 3) (num 2) (num 3) nan_syrk lit (memOf_contains lit lit lit) (fun i j _ => memOf_contains (c := ⟨.statDense, .columnMajor, 5, 5, 128⟩) lit lit lit i j)
  (memOf_contains lit lit lit)

theorem nan_trmmL {V : Type} {f : Int → V} : TrmmLArgs 4 (memOf 2000 f) ⟨.dynDense, .columnMajor, 5, 5, 0⟩ ⟨.dynDense, .columnMajor, 5, 7, 64⟩ ⟨.statDense, .columnMajor, 5, 7, 128⟩ :=
  ⟨by decide, rfl, rfl, memOf_live lit lit lit, memOf_live lit lit lit, memOf_live lit lit lit, apart_of lit, Or.inr (apart_of lit), fun h => by cases h⟩

example := C76_trmm_left (m := ieeeMem 64) (.fin 2) nan_trmmL lit (memOf_contains lit lit lit) (memOf_contains lit lit lit)

/-- B(0,0) = NaN: C(1,0) = NaN -/
example : ∃ m' d, trmmLeftCall 4 1 (.fin 2) ⟨.dynDense, .columnMajor, 5, 5, 0⟩ .upper false ⟨.dynDense, .columnMajor, 5, 7, 64⟩ ⟨.statDense, .columnMajor, 5, 7, 128⟩
    (ieeeMem 64) = .ok () m' ∧ Contains 4 m' ⟨.statDense, .columnMajor, 5, 7, 128⟩ d ∧ d 1 0 = .nan := by
  obtain ⟨m', d, h1, h2, h3⟩ := C76_trmm_left_above_refuted (by decide) (m := ieeeMem 64) (.fin 2) nan_trmmL lit (memOf_contains lit lit lit) (memOf_contains lit lit lit) lit
  exact ⟨m', d, h1, h2, h3 0 (by decide) (if_pos rfl)⟩

theorem nan_trmmR {V : Type} {f : Int → V} : TrmmRArgs 4 (memOf 2000 f) ⟨.dynDense, .columnMajor, 5, 7, 64⟩ ⟨.dynDense, .columnMajor, 7, 7, 0⟩ ⟨.statDense, .columnMajor, 5, 7, 128⟩ :=
  ⟨by decide, rfl, rfl, memOf_live lit lit lit, memOf_live lit lit lit, memOf_live lit lit lit, apart_of lit, Or.inr (apart_of lit)⟩

example := C76_trmm_right (m := ieeeMem 64) (.fin 2) nan_trmmR lit (fun i j _ hi hj => memOf_contains (c := ⟨.dynDense, .columnMajor, 7, 7, 0⟩) lit lit lit i j hi hj)
  (memOf_contains lit lit lit)
example := C76_trmm_right_only (m := nanMem 64) (num 2) nan_trmmR lit (fun i j _ hi hj => memOf_contains (c := ⟨.dynDense, .columnMajor, 7, 7, 0⟩) lit lit lit i j hi hj)
  (memOf_contains lit lit lit)

/-- the right-hand side b(1,0) = NaN: x(4,0) = NaN -/
example : ∃ m' x, trsmCall 4 .lower true ⟨.dynDense, .columnMajor, 5, 5, 0⟩ ⟨.dynDense, .columnMajor, 5, 7, 64⟩ ⟨.statDense, .columnMajor, 5, 7, 128⟩ (ieeeMem 65) = .ok () m' ∧
    Contains 4 m' ⟨.statDense, .columnMajor, 5, 7, 128⟩ x ∧ x 4 0 = .nan := by
  obtain ⟨m', d, h1, h2, h3⟩ := C76_trsm (SS := 4) (m := ieeeMem 65) .lower true (A := ⟨.dynDense, .columnMajor, 5, 5, 0⟩) (B := ⟨.dynDense, .columnMajor, 5, 7, 64⟩)
    (X := ⟨.statDense, .columnMajor, 5, 7, 128⟩)
    ⟨by decide, memOf_live lit lit lit, memOf_live lit lit lit, memOf_live lit lit lit, apart_of lit, Or.inr (apart_of lit)⟩ lit
    ((memOf_contains lit lit lit).tri _ _) (memOf_contains lit lit lit)
  exact ⟨m', d, h1, h2, h3 1 0 (by decide) (by decide) (Or.inl (if_pos rfl)) 4 (by decide) (Or.inr (show 1 < 4 by decide))⟩

/-- A(3,2) = NaN -/
example : ∃ m' l, potrfDenseCall 4 1 ⟨.dynDense, .columnMajor, 8, 8, 0⟩ ⟨.dynDense, .columnMajor, 8, 8, 64⟩ (ieeeMem 19) = .ok () m' ∧
    Contains 4 m' ⟨.dynDense, .columnMajor, 8, 8, 64⟩ l ∧ l 7 7 = .nan := by
  obtain ⟨m', d, h1, h2, h3⟩ := C76_potrf_dense (SS := 4) (m := ieeeMem 19) (A := ⟨.dynDense, .columnMajor, 8, 8, 0⟩) (L := ⟨.dynDense, .columnMajor, 8, 8, 64⟩)
    ⟨by decide, rfl, rfl, memOf_live lit lit lit, memOf_live lit lit lit, Or.inr (apart_of lit)⟩ lit (potrfFits_square (by decide) (Or.inl rfl))
    (fun i j _ => memOf_contains (c := ⟨.dynDense, .columnMajor, 8, 8, 0⟩) lit lit lit i j) (memOf_contains lit lit lit)
  refine ⟨m', d, h1, h2, ?_⟩
  refine Classical.byContradiction (fun hn => ?_)
  exact C76_potrf_check h3 hn 3 2 (by decide) (by decide) (if_pos (by decide +kernel))

example := C76_potrf_panel (SS := 4) (KN := 4) (m := ieeeMem 19) (A := ⟨.dynPanel, .columnMajor, 8, 8, 0⟩) (L := ⟨.dynPanel, .columnMajor, 8, 8, 512⟩)
  ⟨by decide, rfl, rfl, memOf_live lit lit lit, memOf_live lit lit lit, Or.inr (apart_of lit)⟩ lit (potrfFits_square (by decide) (Or.inl rfl))
  (memOf_contains lit lit lit) (memOf_contains lit lit lit)

/-- A(0,1) = NaN in a 5 × 7 matrix -/
theorem nan_has (r c : Nat) (hr : 0 < r) (hc : 1 < c) (so : SO) (p : Int) (hp : (⟨.dynDense, so, r, c, 0⟩ : Container).addr 4 0 1 = p) :
    HasNan r c (fun i j => (if (⟨.dynDense, so, r, c, 0⟩ : Container).addr 4 i j = p then .nan else .fin (((⟨.dynDense, so, r, c, 0⟩ : Container).addr 4 i j : Int) : Rat) : Ieee Rat)) :=
  ⟨0, 1, hr, hc, if_pos hp⟩

example := C76_getf2 (SS := 4) (by decide) (m := ieeeMem 8) (A := ⟨.dynDense, .columnMajor, 5, 7, 0⟩) rfl rfl (memOf_live lit lit lit) (memOf_contains lit lit lit) id
  (nan_has 5 7 lit lit _ 8 rfl)
/-- square: two block steps and the rest -/
example := C76_getrf (SS := 4) (by decide) (m := ieeeMem 12) (A := ⟨.dynDense, .columnMajor, 9, 9, 0⟩) rfl rfl (memOf_live lit lit lit) (memOf_contains lit lit lit) id
  (nan_has 9 9 lit lit _ 12 rfl)
example := C76_getf2_row_major (SS := 4) (by decide) (m := ieeeMem 1) Arith.div NanArith.div (A := ⟨.dynDense, .rowMajor, 5, 7, 0⟩) rfl (memOf_contains lit lit lit) id
  (nan_has 5 7 lit lit _ 1 rfl)
example := C76_getrf_row_major (SS := 4) (by decide) (m := ieeeMem 1) Arith.div NanArith.div (A := ⟨.dynDense, .rowMajor, 5, 5, 0⟩) (memOf_contains lit lit lit) id
  (nan_has 5 5 lit lit _ 1 rfl)

end Blast
