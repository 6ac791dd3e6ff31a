import Verif.Cases.Demo
import Verif.Props.Register
import Verif.Props.MakePosDef
import Verif.Props.PanelAssign
import Verif.Props.PanelRandom
import Verif.Props.Tile
/- Concrete cases for the theorems of `Register.lean`, `Tile.lean`, `MakePosDef.lean`, `PanelAssign.lean` and `PanelRandom.lean` in `Verif/Props`. -/
set_option linter.unusedSectionVars false
namespace Blast
open Finset

/-! ### C36, C37: tiles of two SIMD vectors (8 rows) × 4 columns at (1, 2) of the 12 × 8 matrix `tileDemo`, and a second such matrix at 400 -/

def tileDemo2 : MPtr := { panel := false, so := .columnMajor, aligned := false, padded := true, ptr := 400, spacing := 12 }
theorem tile_ptr : TilePtr 4 tileDemo 1 := ⟨by decide, by decide, rfl, by decide⟩
theorem tile_ptr2 : TilePtr 4 tileDemo2 3 := ⟨by decide, by decide, rfl, by decide⟩
theorem tile_inj {r c : Nat} (hr : r ≤ 12) : Inj 4 tileDemo r c := by
  intro i j i' j' _ _ _ _ he
  rw [MPtr.addr_dense_col rfl rfl, MPtr.addr_dense_col rfl rfl] at he
  simp only [tileDemo] at he
  omega
theorem tile_inj2 {r c : Nat} (hr : r ≤ 12) : Inj 4 tileDemo2 r c := by
  intro i j i' j' _ _ _ _ he
  rw [MPtr.addr_dense_col rfl rfl, MPtr.addr_dense_col rfl rfl] at he
  simp only [tileDemo2] at he
  omega
theorem tile_el : ∀ a b : Nat, a < 8 → b < 4 → demoMem (tileDemo.addr 4 (1 + a : Nat) (2 + b : Nat)) = some ((25 + a + 12 * b : Nat) : Rat) := by
  have : ∀ a < 8, ∀ b < 4, demoMem (tileDemo.addr 4 (1 + a : Nat) (2 + b : Nat)) = some ((25 + a + 12 * b : Nat) : Rat) := by decide +kernel
  exact fun a b ha hb => this a ha b hb
theorem tile_alloc {r c : Nat} (hr : r ≤ 8) (hc : c ≤ 4) : BlockAlloc 4 demoMem tileDemo 1 2 r c := fun a b ha hb => by
  rw [tile_el a b (by omega) (by omega)]; rfl
theorem tile_alloc2 : BlockAlloc 4 demoMem tileDemo2 3 0 7 3 := by
  have : ∀ a < 7, ∀ b < 3, (demoMem (tileDemo2.addr 4 (3 + a : Nat) (0 + b : Nat))).isSome = true := by decide +kernel
  exact fun a b ha hb => this a ha b hb

def someReg : Reg Rat := fun i j l => i + 10 * j + 100 * l

example := C36_store_partial_exact (RM := 2) (N := 4) (mm := 7) (nn := 3) someReg tile_ptr (by decide) (by decide) (tile_inj (by decide)) (tile_alloc lit lit)
example := C36_store_full_exact (RM := 2) (N := 4) someReg tile_ptr (tile_inj (by decide)) (tile_alloc (r := 2 * 4) (c := 4) lit lit)
example := C36_load_partial_exact (RM := 2) (N := 4) (mm := 7) (nn := 3) someReg 3 tile_ptr (by decide) (by decide) (Or.inl rfl) (fun a b ha hb => tile_el a b (by omega) (by omega))
example := C36_load_partial_padded (RM := 2) (N := 4) (mm := 7) (nn := 3) someReg 3 tile_ptr (by decide) (by decide) (tile_alloc lit lit) (fun a b ha hb => tile_el a b (by omega) (by omega))
example := C36_load_store_copies (RM := 2) (N := 4) (mm := 7) (nn := 3) someReg tile_ptr tile_ptr2 (by decide) (by decide) (Or.inl rfl) (tile_inj2 (by decide)) tile_alloc2
  (fun a b ha hb => tile_el a b (by omega) (by omega))
example := C37_storeLower_exact (RM := 2) (N := 4) someReg tile_ptr (tile_inj (by decide)) (fun a b ha hb _ => tile_alloc (r := 2 * 4) (c := 4) lit lit a b ha hb)
example := C37_storeLower_rect_exact (RM := 2) (N := 4) (mm := 7) (nn := 3) someReg tile_ptr (by decide) (by decide) (tile_inj (by decide)) (fun a b ha hb _ => tile_alloc (r := 7) (c := 3) lit lit a b ha hb)

/-- 13 × 7 in tiles of 4-row vectors, both traversals -/
example := C08_tile_partition (SS := 4) (by decide) true 13 7
example := C08_tile_partition (SS := 4) (by decide) false 13 7

/-! ### C38 -/

example := C38_register_trsm (SS := 4) (RM := 2) (N := 3) (by decide) (A := tileDemo2) (m := demoMem) someReg (a := fun k j : Nat => ((400 + k + 12 * j : Nat) : Rat))
  (by have : ∀ j : Nat, j < 3 → ∀ k : Nat, k < 3 → demoMem (tileDemo2.addr 4 k j) = some ((400 + k + 12 * j : Nat) : Rat) := by decide +kernel
      exact fun k j hk hj => this j hj k (by omega))
  (by have : ∀ j : Nat, j < 3 → ((400 + j + 12 * j : Nat) : Rat) ≠ 0 := by decide +kernel
      exact this)

example (m : Mem Rat) := C38_trsm_other_sides_do_nothing 4 2 3 .left .lower (by decide) someReg tileDemo2 m
example (m : Mem Rat) := C38_trsm_other_sides_do_nothing 4 2 3 .right .lower (by decide) someReg tileDemo2 m

theorem reg_posdef : LowerPosDef (V := ℝ) 3 (fun i j => Reg.el 4 (fun i j l => if i * 4 + l = j then 1 else 0) i j) := by
  intro x hx
  have e : ∀ i ∈ range 3, ∑ j ∈ range 3, x i *
      (Reg.el 4 (fun i j l => if i * 4 + l = j then (1 : ℝ) else 0) (max i j) (min i j)) * x j = x i * x i := by
    intro i hi
    have e2 : ∀ j ∈ range 3, x i *
      (Reg.el 4 (fun i j l => if i * 4 + l = j then (1 : ℝ) else 0) (max i j) (min i j)) * x j =
        if j = i then x i * x i else 0 := by
      intro j _
      unfold Reg.el
      dsimp only
      by_cases hij : j = i
      · subst hij
        rw [if_pos rfl, if_pos (by rw [max_self, min_self]; omega)]; ring
      · rw [if_neg hij, if_neg (by
          have : max i j / 4 * 4 + max i j % 4 = max i j := by omega
          rw [this]; omega)]; ring
    rw [sum_congr rfl e2, sum_ite_eq' (range 3) i, if_pos hi]
  rw [sum_congr rfl e]
  obtain ⟨i, hi, hne⟩ := hx
  refine sum_pos' (fun j _ => mul_self_nonneg _) ⟨i, mem_range.2 hi, ?_⟩
  exact lt_of_le_of_ne (mul_self_nonneg _) (Ne.symm (mul_self_ne_zero.2 hne))
example (m : Mem ℝ) := C38_register_potrf (V := ℝ) (SS := 4) (RM := 2) (N := 3) (by decide) (by decide) m (fun i j l => if i * 4 + l = j then 1 else 0) reg_posdef

/-! ### C41: round trip of a 5 × 7 panel matrix through a dense one -/

def rtD : Container := ⟨.dynDense, .columnMajor, 5, 7, 600⟩
theorem rt_apart {c : Container} (h : c.data + c.capacity 4 ≤ 600) : DenseApart 4 (rtD.mptr 4) 5 7 c := fun i j hi hj hs => by
  have h1 := rtD.addr_storage (SS := 4) (by decide) hi hj
  rw [Container.addr_eq_mptr] at h1
  have h2 : rtD.data = 600 := rfl
  unfold Container.Storage at h1 hs
  omega
example := C41_round_trip (SS := 4) (by decide) (m := demoMem) (c := ⟨.dynPanel, .columnMajor, 5, 7, 0⟩) (c' := ⟨.statPanel, .rowMajor, 5, 7, 300⟩) (p := rtD.mptr 4) rfl (memOf_live lit lit lit)
  (memOf_contains lit lit lit) rfl (memOf_live lit lit lit) rfl rfl
  ⟨rfl, by decide, fun i j hi hj => by
    rw [demoMem_eq, (memOf_contains (c := rtD) lit lit lit).holds i j hi hj]; rfl, fun _ => by decide⟩ (rt_apart lit) (rt_apart lit)

/-! ### C43: a 3 × 3 block of a 5 × 7 row-major matrix -/

def mpE : MExpr := .sub (.obj ⟨.dynDense, .rowMajor, 5, 7, 0⟩) false 1 1 3 3
example (R : Nat → Nat → Rat) := C43_randomize (SS := 4) (by decide) (m := demoMem) (e := mpE) ⟨trivial, by decide, by decide⟩ (memOf_live lit lit lit) R
example (R : Nat → Nat → Rat) := C43_makePositiveDefinite_value (SS := 4) (by decide) (m := demoMem) (e := mpE) rfl ⟨trivial, by decide, by decide⟩ (memOf_live lit lit lit) rfl (t := 1000) (by decide)
  (fun x hx => by
    have h1 : (1000 : Int) ≤ x := hx.1
    unfold demoMem
    rw [if_neg (by omega)]) R (etN := 3) (by norm_num [MExpr.cols, MExpr.size, mpE])
example := C43_result_factorizable (V := Rat) (n := 1) (a := fun _ _ => 2) (fun _ _ => rfl) (fun x hx => by
  obtain ⟨i, hi, hx⟩ := hx
  obtain rfl : i = 0 := by omega
  simp only [sum_range_one]
  have := mul_self_pos.2 hx
  nlinarith)
example (R : Nat → Nat → Rat) := C43_not_square (SS := 4) (m := demoMem) (e := .obj ⟨.dynDense, .rowMajor, 5, 7, 0⟩) (by decide) 1000 R 7

/-! ### C54 -/

example (R : Nat → Nat → Rat) := C54_randomize (SS := 4) (by decide) (m := demoMem) (c := ⟨.dynPanel, .columnMajor, 5, 7, 0⟩) (memOf_live lit lit lit) R
example (R : Nat → Nat → Rat) := C54_generate (SS := 4) (by decide) (m := demoMem) (c := ⟨.dynPanel, .columnMajor, 5, 7, 2000⟩) (by decide) R
example (R : Nat → Nat → Rat) := C54_makeHermitian (SS := 4) (by decide) (m := demoMem) (c := ⟨.statPanel, .columnMajor, 5, 5, 0⟩) (memOf_live lit lit lit) rfl id R
example (R : Nat → Nat → Rat) := C54_makeSymmetric (SS := 4) (by decide) (m := demoMem) (c := ⟨.statPanel, .rowMajor, 5, 5, 0⟩) (memOf_live lit lit lit) rfl R
example (R : Nat → Nat → Rat) := C54_not_square (SS := 4) (m := demoMem) (c := ⟨.statPanel, .rowMajor, 5, 6, 0⟩) (by decide) id R 1000 5
theorem t1000_free {c : Container} (h : c.data = 1000) : ∀ x, c.Storage 4 x → demoMem x = none :=
  fun x hx => if_neg (fun hc => by have := hx.1; omega)
example (R : Nat → Nat → Rat) := C54_makePositiveDefinite_value (SS := 4) (by decide) (m := demoMem) (c := ⟨.statPanel, .columnMajor, 5, 5, 0⟩) rfl (memOf_live lit lit lit) rfl (t := 1000) (by decide)
  (t1000_free rfl) R (tn := 5) rfl
example (R : Nat → Nat → ℝ) := C54_makePositiveDefinite_potrf (V := ℝ) (SS := 4) (KN := 4) (m := memOf 1000 (fun _ => 1)) (A := ⟨.dynPanel, .columnMajor, 6, 6, 0⟩) (L := ⟨.dynPanel, .columnMajor, 6, 6, 400⟩)
  ⟨by decide, rfl, rfl, memOf_live lit lit lit, memOf_live lit lit lit, Or.inr (apart_of lit)⟩ lit (potrfFits_square (by decide) (Or.inr ⟨rfl, rfl⟩)) (apart_of lit) rfl (t := 1000) (by decide)
  (fun x hx => if_neg (fun hc => by have : (1000 : Int) ≤ x := hx.1; omega)) R (tn := ((6 : Nat) : ℝ)) rfl
end Blast
