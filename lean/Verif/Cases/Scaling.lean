import Verif.Cases.Selection
import Verif.Props.Scaling
import Verif.RoundEven
/-
Concrete cases of the theorems in Props/Scaling: `double` arithmetic (53-bit significands, ties to even), factors ±2^k; memory as in Cases/Selection.
-/
namespace Blast

/-- the values: a(i, j) = 1 + i + 10 j + 100 q -/
noncomputable def feVal (q i j : Nat) : Fe 52 := ((1 + i + 10 * j + 100 * q : Nat) : ℝ)

/-- the factor (-1)^k 2^k -/
def fac (k : Nat) : PowTwo := (if k % 2 = 0 then 1 else -1, Multiplicative.ofAdd (k : ℤ))
/-- the factor 2^k -/
def pfac (k : Nat) : PowTwo := (1, Multiplicative.ofAdd (k : ℤ))

theorem pfac_pos (k : Nat) : ScalingSqrt.Pos (V := Fe 52) (pfac k) := by
  show 0 < (pfac k).val
  unfold pfac PowTwo.val
  push_cast
  rw [one_mul]
  exact zpow_pos (by norm_num) _

/-- the factors are not all 1: 1 + i + 10 j becomes 4 (1 + i + 10 j) in row 2 -/
example : scl (fac 2) (feVal 0 2 1) = (52 : ℝ) := by
  show (fac 2).val * ((1 + 2 + 10 * 1 + 100 * 0 : Nat) : ℝ) = 52
  unfold fac PowTwo.val
  rw [if_pos (by decide)]
  push_cast
  rw [show Multiplicative.toAdd (Multiplicative.ofAdd (2 : ℤ)) = 2 from rfl]
  norm_num

/-- 7 × 6 times 6 × 8: rows, inner index and columns scaled, alpha halved in sign and size, other class and SIMD width -/
example := C78_gemm (SS := 4) (SS' := 8) (m := selMem feVal) (n := selMem (fun q i j => if q = 0 then scl (fac i * fac (2 * j)) (feVal 0 i j)
    else if q = 1 then scl (fac (j + 1) / fac (2 * i)) (feVal 1 i j) else scl (fac 3 * fac i * fac (j + 1)) (feVal 2 i j))) (2 : Fe 52) 3
  (A := ⟨.dynDense, .columnMajor, 7, 6, (64 * 0 : Nat)⟩) (B := ⟨.dynDense, .columnMajor, 6, 8, (64 * 1 : Nat)⟩) (C := ⟨.statDense, .columnMajor, 7, 8, (64 * 2 : Nat)⟩)
  (D := ⟨.statDense, .columnMajor, 7, 8, 192⟩)
  (A' := ⟨.statDense, .columnMajor, 7, 6, (64 * 0 : Nat)⟩) (B' := ⟨.statDense, .columnMajor, 6, 8, (64 * 1 : Nat)⟩) (C' := ⟨.dynDense, .columnMajor, 7, 8, (64 * 2 : Nat)⟩)
  (D' := ⟨.dynDense, .columnMajor, 7, 8, (64 * 2 : Nat)⟩)
  ⟨by decide, rfl, rfl, rfl, memOf_live lit lit lit, memOf_live lit lit lit, memOf_live lit lit lit, memOf_live lit lit lit, apart_of lit, apart_of lit, Or.inr (apart_of lit)⟩ lit
  ⟨by decide, rfl, rfl, rfl, memOf_live lit lit lit, memOf_live lit lit lit, memOf_live lit lit lit, memOf_live lit lit lit, apart_of lit, apart_of lit, Or.inl rfl⟩ lit
  ⟨rfl, rfl⟩ ⟨rfl, rfl⟩ (sel_dyn feVal 0 lit lit lit lit) (sel_dyn feVal 1 lit lit lit lit) (sel_stat feVal 2 lit lit lit lit)
  (fac 3) fac (fun k => fac (2 * k)) (fun j => fac (j + 1))
  (sel_stat _ 0 lit lit lit lit) (sel_stat _ 1 lit lit lit lit) (sel_dyn _ 2 lit lit lit lit)

example := C78_ger (SS := 4) (SS' := 8) (m := selMem feVal) (n := selMem (fun q i j => if q = 0 then scl (fac i) (feVal 0 i j)
    else if q = 1 then scl (fac (2 * i)) (feVal 1 i j) else scl (fac 3 * fac i * fac (2 * j)) (feVal 2 i j))) (2 : Fe 52)
  (x := ⟨true, 7, (64 * 0 : Nat)⟩) (y := ⟨false, 8, (64 * 1 : Nat)⟩) (A := ⟨.dynDense, .columnMajor, 7, 8, (64 * 2 : Nat)⟩) (B := ⟨.statDense, .columnMajor, 7, 8, 192⟩)
  (x' := ⟨false, 7, (64 * 0 : Nat)⟩) (y' := ⟨true, 8, (64 * 1 : Nat)⟩) (A' := ⟨.statDense, .columnMajor, 7, 8, (64 * 2 : Nat)⟩) (B' := ⟨.statDense, .columnMajor, 7, 8, (64 * 2 : Nat)⟩)
  ⟨by decide, rfl, rfl, memOf_vlive lit lit lit, memOf_vlive lit lit lit, memOf_live lit lit lit, memOf_live lit lit lit, vapart_of lit, vapart_of lit, Or.inr (apart_of lit)⟩ lit
  ⟨by decide, rfl, rfl, memOf_vlive lit lit lit, memOf_vlive lit lit lit, memOf_live lit lit lit, memOf_live lit lit lit, vapart_of lit, vapart_of lit, Or.inl rfl⟩ lit
  (sel_vec feVal 0 lit lit) (sel_vec feVal 1 lit lit) (sel_dyn feVal 2 lit lit lit lit) (fac 3) fac (fun k => fac (2 * k))
  (sel_vec _ 0 lit lit) (sel_vec _ 1 lit lit) (sel_stat _ 2 lit lit lit lit)

example := C78_syrk (SS := 4) (SS' := 8) (m := selMem feVal) (n := selMem (fun q i j => if q = 0 then scl (fac i) (feVal 0 i j) else scl (fac 3 * fac i * fac j) (feVal 1 i j)))
  (2 : Fe 52) 3
  (A := ⟨.dynDense, .columnMajor, 6, 7, (64 * 0 : Nat)⟩) (C := ⟨.statDense, .columnMajor, 6, 6, (64 * 1 : Nat)⟩) (D := ⟨.statDense, .columnMajor, 6, 6, (64 * 2 : Nat)⟩)
  (A' := ⟨.statDense, .columnMajor, 6, 7, (64 * 0 : Nat)⟩) (C' := ⟨.dynDense, .columnMajor, 6, 6, (64 * 1 : Nat)⟩) (D' := ⟨.dynDense, .columnMajor, 6, 6, (64 * 1 : Nat)⟩)
  ⟨by decide, rfl, rfl, rfl, memOf_live lit lit lit, memOf_live lit lit lit, memOf_live lit lit lit, apart_of lit, Or.inr (apart_of lit)⟩ lit
  ⟨by decide, rfl, rfl, rfl, memOf_live lit lit lit, memOf_live lit lit lit, memOf_live lit lit lit, apart_of lit, Or.inl rfl⟩ lit
  ⟨rfl, rfl⟩ (sel_dyn feVal 0 lit lit lit lit) (fun i j _ => sel_stat feVal 1 lit lit lit lit i j) (sel_stat feVal 2 lit lit lit lit)
  (fac 3) fac (sel_stat _ 0 lit lit lit lit) (fun i j _ => sel_dyn _ 1 lit lit lit lit i j) (sel_dyn _ 1 lit lit lit lit)

example := C78_trmm_right (SS := 4) (SS' := 8) (m := selMem feVal) (n := selMem (fun q i j => if q = 0 then scl (fac (j + 1) / fac (2 * i)) (feVal 0 i j)
    else scl (fac i * fac (2 * j)) (feVal 1 i j))) (2 : Fe 52)
  (A := ⟨.dynDense, .columnMajor, 6, 6, (64 * 0 : Nat)⟩) (B := ⟨.dynDense, .columnMajor, 7, 6, (64 * 1 : Nat)⟩) (C := ⟨.statDense, .columnMajor, 7, 6, (64 * 2 : Nat)⟩)
  (A' := ⟨.statDense, .columnMajor, 6, 6, (64 * 0 : Nat)⟩) (B' := ⟨.dynDense, .columnMajor, 7, 6, (64 * 1 : Nat)⟩) (C' := ⟨.dynDense, .columnMajor, 7, 6, (64 * 1 : Nat)⟩)
  ⟨by decide, rfl, rfl, memOf_live lit lit lit, memOf_live lit lit lit, memOf_live lit lit lit, apart_of lit, Or.inr (apart_of lit)⟩ lit
  ⟨by decide, rfl, rfl, memOf_live lit lit lit, memOf_live lit lit lit, memOf_live lit lit lit, apart_of lit, Or.inl rfl⟩ lit
  ⟨rfl, rfl⟩ (fun i j _ hi hj => sel_dyn feVal 0 lit lit lit lit i j hi hj) (sel_dyn feVal 1 lit lit lit lit)
  (fac 3) fac (fun k => fac (2 * k)) (fun j => fac (j + 1)) (fun i j _ hi hj => sel_stat _ 0 lit lit lit lit i j hi hj) (sel_dyn _ 1 lit lit lit lit)

example := C78_trmm_left (SS := 4) (m := selMem feVal) (n := selMem (fun q i j => if q = 0 then scl (fac i * fac (2 * j)) (feVal 0 i j)
    else scl (fac (j + 1) / fac (2 * i)) (feVal 1 i j))) (2 : Fe 52)
  (A := ⟨.dynDense, .columnMajor, 5, 5, (64 * 0 : Nat)⟩) (B := ⟨.dynDense, .columnMajor, 5, 7, (64 * 1 : Nat)⟩) (C := ⟨.statDense, .columnMajor, 5, 7, (64 * 2 : Nat)⟩)
  (A' := ⟨.statDense, .columnMajor, 5, 5, (64 * 0 : Nat)⟩) (B' := ⟨.dynDense, .columnMajor, 5, 7, (64 * 1 : Nat)⟩) (C' := ⟨.dynDense, .columnMajor, 5, 7, (64 * 1 : Nat)⟩)
  ⟨by decide, rfl, rfl, memOf_live lit lit lit, memOf_live lit lit lit, memOf_live lit lit lit, apart_of lit, Or.inr (apart_of lit), fun h => by cases h⟩ lit
  ⟨by decide, rfl, rfl, memOf_live lit lit lit, memOf_live lit lit lit, memOf_live lit lit lit, apart_of lit, Or.inl rfl, fun h => by cases h⟩ lit
  ⟨rfl, rfl⟩ (sel_dyn feVal 0 lit lit lit lit) (sel_dyn feVal 1 lit lit lit lit)
  (fac 3) fac (fun k => fac (2 * k)) (fun j => fac (j + 1)) (sel_stat _ 0 lit lit lit lit) (sel_dyn _ 1 lit lit lit lit)

example := C78_trsm (SS := 4) (SS' := 8) (m := selMem feVal) (n := selMem (fun q i j => if q = 0 then scl (fac i * fac (2 * j)) (feVal 0 i j)
    else scl (fac i * fac (j + 1)) (feVal 1 i j))) .upper false
  (A := ⟨.dynDense, .columnMajor, 5, 5, (64 * 0 : Nat)⟩) (B := ⟨.dynDense, .columnMajor, 5, 8, (64 * 1 : Nat)⟩) (X := ⟨.statDense, .columnMajor, 5, 8, (64 * 2 : Nat)⟩)
  (A' := ⟨.statDense, .columnMajor, 5, 5, (64 * 0 : Nat)⟩) (B' := ⟨.dynDense, .columnMajor, 5, 8, (64 * 1 : Nat)⟩) (X' := ⟨.dynDense, .columnMajor, 5, 8, (64 * 1 : Nat)⟩)
  ⟨by decide, memOf_live lit lit lit, memOf_live lit lit lit, memOf_live lit lit lit, apart_of lit, Or.inr (apart_of lit)⟩ lit
  ⟨by decide, memOf_live lit lit lit, memOf_live lit lit lit, memOf_live lit lit lit, apart_of lit, Or.inl rfl⟩ lit
  ⟨rfl, rfl⟩ ((sel_dyn feVal 0 lit lit lit lit).tri _ _) (sel_dyn feVal 1 lit lit lit lit) fac (fun k => fac (2 * k)) (fun j => fac (j + 1)) (fun h => by cases h)
  ((sel_stat _ 0 lit lit lit lit).tri _ _) (sel_dyn _ 1 lit lit lit lit)

example := C78_potrf_dense (SS := 4) (m := selMem feVal) (n := selMem (fun q i j => if q = 0 then scl (pfac i * pfac j) (feVal 0 i j) else feVal q i j))
  (A := ⟨.dynDense, .columnMajor, 8, 8, (64 * 0 : Nat)⟩) (L := ⟨.dynDense, .columnMajor, 8, 8, (64 * 1 : Nat)⟩)
  (A' := ⟨.statDense, .columnMajor, 8, 8, (64 * 0 : Nat)⟩) (L' := ⟨.statDense, .columnMajor, 8, 8, (64 * 2 : Nat)⟩)
  ⟨by decide, rfl, rfl, memOf_live lit lit lit, memOf_live lit lit lit, Or.inr (apart_of lit)⟩ lit (potrfFits_square (by decide) (Or.inl rfl))
  ⟨by decide, rfl, rfl, memOf_live lit lit lit, memOf_live lit lit lit, Or.inr (apart_of lit)⟩ lit (potrfFits_square (by decide) (Or.inl rfl))
  ⟨rfl, rfl⟩ (fun i j _ => sel_dyn feVal 0 lit lit lit lit i j) (sel_dyn feVal 1 lit lit lit lit) pfac (fun i _ => pfac_pos i)
  (fun i j _ => sel_stat _ 0 lit lit lit lit i j) (sel_stat _ 2 lit lit lit lit)

/-- 8 × 8 panel matrices: all cells hold 3, then 12 = 2 · 2 · 3 -/
example := C78_potrf_panel (SS := 4) (KN := 4) (m := memOf 1000 (fun _ => (3 : Fe 52))) (n := memOf 2000 (fun _ => scl (pfac 1 * pfac 1) (3 : Fe 52)))
  (A := ⟨.dynPanel, .columnMajor, 8, 8, 0⟩) (L := ⟨.dynPanel, .columnMajor, 8, 8, 512⟩)
  (A' := ⟨.statPanel, .columnMajor, 8, 8, 1256⟩) (L' := ⟨.statPanel, .columnMajor, 8, 8, 1256⟩)
  ⟨by decide, rfl, rfl, memOf_live lit lit lit, memOf_live lit lit lit, Or.inr (apart_of lit)⟩ lit (potrfFits_square (by decide) (Or.inl rfl))
  ⟨by decide, rfl, rfl, memOf_live lit lit lit, memOf_live lit lit lit, Or.inl rfl⟩ lit (potrfFits_square (by decide) (Or.inl rfl))
  ⟨rfl, rfl⟩ (memOf_contains lit lit lit) (memOf_contains lit lit lit) (fun _ => pfac 1) (fun _ _ => pfac_pos 1) (memOf_contains lit lit lit) (memOf_contains lit lit lit)

example := C78_getf2 (SS := 4) (SS' := 8) (by decide) (by decide) (m := selMem feVal) (n := selMem (fun q i j => scl (fac j) (feVal q i j)))
  (A := ⟨.dynDense, .columnMajor, 6, 8, (64 * 1 : Nat)⟩) (A' := ⟨.statDense, .columnMajor, 6, 8, (64 * 1 : Nat)⟩) rfl rfl (memOf_live lit lit lit) rfl rfl (memOf_live lit lit lit)
  ⟨rfl, rfl⟩ (sel_dyn feVal 1 lit lit lit lit) fac (sel_stat _ 1 lit lit lit lit) id
example := C78_getrf (SS := 4) (by decide) (m := selMem feVal) (n := selMem (fun q i j => scl (fac j) (feVal q i j)))
  (A := ⟨.dynDense, .columnMajor, 7, 8, (64 * 1 : Nat)⟩) (A' := ⟨.statDense, .columnMajor, 7, 8, (64 * 1 : Nat)⟩) rfl rfl (memOf_live lit lit lit) rfl rfl (memOf_live lit lit lit)
  ⟨rfl, rfl⟩ (sel_dyn feVal 1 lit lit lit lit) fac (sel_stat _ 1 lit lit lit lit) id
example := C78_getf2_row_major (SS := 4) (SS' := 8) (by decide) (by decide) (dv := Arith.div) (fun g h x d => Scaling.div g h x d)
  (m := selMem feVal) (n := selMem (fun q i j => scl (fac j) (feVal q i j)))
  (A := ⟨.dynDense, .columnMajor, 6, 8, (64 * 1 : Nat)⟩) (A' := ⟨.statDense, .columnMajor, 6, 8, (64 * 1 : Nat)⟩) rfl rfl
  ⟨rfl, rfl⟩ (sel_dyn feVal 1 lit lit lit lit) fac (sel_stat _ 1 lit lit lit lit) id
/-- with multiplication by the reciprocal -/
example := C78_getrf_row_major (SS := 4) (SS' := 8) (by decide) (by decide) (dv := fun x d => Arith.mul x (Arith.div Arith.one d)) (fun g h x d => scl_recip g h x d)
  (m := selMem feVal) (n := selMem (fun q i j => scl (fac i * fac (2 * j)) (feVal q i j)))
  (A := ⟨.dynDense, .columnMajor, 6, 8, (64 * 1 : Nat)⟩) (A' := ⟨.statDense, .columnMajor, 6, 8, (64 * 1 : Nat)⟩)
  ⟨rfl, rfl⟩ (sel_dyn feVal 1 lit lit lit lit) fac (fun j => fac (2 * j)) (sel_stat _ 1 lit lit lit lit) id

end Blast
