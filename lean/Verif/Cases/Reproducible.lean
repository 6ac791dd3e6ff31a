import Verif.Cases.Potrf
import Verif.Cases.Lu
import Verif.Cases.Trmm
import Verif.Cases.Ger
import Verif.Props.Reproducible
/-
Concrete cases of the theorems in Props/Reproducible: the same call made with objects of different classes at different addresses.
-/
namespace Blast

/-- Cell x holds x mod 64. A column-major dense matrix with five to eight rows whose storage begins at a multiple of 64 has the elements i + 8 j. -/
def gridMem : Mem Rat := memOf 2000 (fun x => (x % 64 : Int))

def gridVal (i j : Nat) : Rat := ((i + 8 * j : Nat) : Int)

theorem grid_dyn {SS r c : Nat} {p : Int} (hS : 0 < SS) (h1 : (⟨.dynDense, .columnMajor, r, c, p⟩ : Container).spacing SS = 8) (hr : r ≤ 8) (hc : c ≤ 8)
    (hp : p % 64 = 0) (h2 : 0 ≤ p) (h3 : p + (⟨.dynDense, .columnMajor, r, c, p⟩ : Container).capacity SS ≤ 2000) :
    Contains SS gridMem ⟨.dynDense, .columnMajor, r, c, p⟩ gridVal := memOf_contains' hS h2 h3 (fun i hi j hj => by
  have e : (⟨.dynDense, .columnMajor, r, c, p⟩ : Container).addr SS i j = p + (i + 8 * j) := by
    have e : (⟨.dynDense, .columnMajor, r, c, p⟩ : Container).elementIndex SS i j = i + 8 * j := by
      show i + j * (⟨.dynDense, .columnMajor, r, c, p⟩ : Container).spacing SS = _
      rw [h1, Nat.mul_comm]
    unfold Container.addr
    rw [e]
    push_cast
    rfl
  rw [e]
  unfold gridVal
  have hi : i < r := hi
  have hj : j < c := hj
  exact congrArg _ (show (p + ((i : Int) + 8 * j)) % 64 = ((i + 8 * j : Nat) : Int) by omega))

theorem grid_stat {SS r c : Nat} {p : Int} (hS : 0 < SS) (h1 : (⟨.statDense, .columnMajor, r, c, p⟩ : Container).spacing SS = 8) (hr : r ≤ 8) (hc : c ≤ 8)
    (hp : p % 64 = 0) (h2 : 0 ≤ p) (h3 : p + (⟨.statDense, .columnMajor, r, c, p⟩ : Container).capacity SS ≤ 2000) :
    Contains SS gridMem ⟨.statDense, .columnMajor, r, c, p⟩ gridVal := memOf_contains' hS h2 h3 (fun i hi j hj => by
  have e : (⟨.statDense, .columnMajor, r, c, p⟩ : Container).addr SS i j = p + (i + 8 * j) := by
    have e : (⟨.statDense, .columnMajor, r, c, p⟩ : Container).elementIndex SS i j = i + 8 * j := by
      show i + j * (⟨.statDense, .columnMajor, r, c, p⟩ : Container).spacing SS = _
      rw [h1, Nat.mul_comm]
    unfold Container.addr
    rw [e]
    push_cast
    rfl
  rw [e]
  unfold gridVal
  have hi : i < r := hi
  have hj : j < c := hj
  exact congrArg _ (show (p + ((i : Int) + 8 * j)) % 64 = ((i + 8 * j : Nat) : Int) by omega))

/-- 5 × 7 times 7 × 6: SIMD width 4 and 8, in place and not -/
example := C74_gemm (SS := 4) (SS' := 8) (m := gridMem) (n := gridMem) (2 : Rat) 3
  (A := ⟨.dynDense, .columnMajor, 5, 7, 0⟩) (B := ⟨.dynDense, .columnMajor, 7, 6, 64⟩) (C := ⟨.statDense, .columnMajor, 5, 6, 128⟩)
  (D := ⟨.statDense, .columnMajor, 5, 6, 192⟩)
  (A' := ⟨.statDense, .columnMajor, 5, 7, 256⟩) (B' := ⟨.statDense, .columnMajor, 7, 6, 320⟩) (C' := ⟨.dynDense, .columnMajor, 5, 6, 384⟩)
  (D' := ⟨.dynDense, .columnMajor, 5, 6, 384⟩)
  ⟨by decide, rfl, rfl, rfl, memOf_live lit lit lit, memOf_live lit lit lit, memOf_live lit lit lit, memOf_live lit lit lit, apart_of lit, apart_of lit, Or.inr (apart_of lit)⟩ lit
  ⟨by decide, rfl, rfl, rfl, memOf_live lit lit lit, memOf_live lit lit lit, memOf_live lit lit lit, memOf_live lit lit lit, apart_of lit, apart_of lit, Or.inl rfl⟩ lit
  ⟨rfl, rfl⟩ (grid_dyn lit lit lit lit lit lit lit) (grid_dyn lit lit lit lit lit lit lit) (grid_stat lit lit lit lit lit lit lit)
  (grid_stat lit lit lit lit lit lit lit) (grid_stat lit lit lit lit lit lit lit) (grid_dyn lit lit lit lit lit lit lit)

/-- the vectors 0, …, 4 and 0, …, 6 at different addresses -/
theorem grid_vec {s : Bool} {n : Nat} {p : Int} (hn : n ≤ 64) (hp : p % 64 = 0) (h2 : 0 ≤ p) (h3 : p + n ≤ 2000) :
    VContains gridMem ⟨s, n, p⟩ (fun i => gridVal i 0) := fun i hi => by
  have hi : i < n := hi
  show memOf 2000 _ (p + i) = _
  rw [memOf_at (by omega) (by omega)]
  exact congrArg (fun z : Int => some (z : Rat)) (show (p + (i : Int)) % 64 = ((i + 8 * 0 : Nat) : Int) by omega)

example := C74_ger (SS := 4) (SS' := 8) (m := gridMem) (n := gridMem) (2 : Rat)
  (x := ⟨true, 5, 0⟩) (y := ⟨false, 7, 64⟩) (A := ⟨.dynDense, .columnMajor, 5, 7, 128⟩) (B := ⟨.statDense, .columnMajor, 5, 7, 192⟩)
  (x' := ⟨false, 5, 256⟩) (y' := ⟨true, 7, 320⟩) (A' := ⟨.statDense, .columnMajor, 5, 7, 384⟩) (B' := ⟨.statDense, .columnMajor, 5, 7, 384⟩)
  ⟨by decide, rfl, rfl, memOf_vlive lit lit lit, memOf_vlive lit lit lit, memOf_live lit lit lit, memOf_live lit lit lit, vapart_of lit, vapart_of lit, Or.inr (apart_of lit)⟩ lit
  ⟨by decide, rfl, rfl, memOf_vlive lit lit lit, memOf_vlive lit lit lit, memOf_live lit lit lit, memOf_live lit lit lit, vapart_of lit, vapart_of lit, Or.inl rfl⟩ lit
  (grid_vec lit lit lit lit) (grid_vec lit lit lit lit) (grid_dyn lit lit lit lit lit lit lit)
  (grid_vec lit lit lit lit) (grid_vec lit lit lit lit) (grid_stat lit lit lit lit lit lit lit)

example := C74_syrk (SS := 4) (SS' := 4) (m := gridMem) (n := gridMem) (2 : Rat) 3
  (A := ⟨.dynDense, .columnMajor, 5, 7, 0⟩) (C := ⟨.statDense, .columnMajor, 5, 5, 128⟩) (D := ⟨.statDense, .columnMajor, 5, 5, 192⟩)
  (A' := ⟨.statDense, .columnMajor, 5, 7, 256⟩) (C' := ⟨.dynDense, .columnMajor, 5, 5, 384⟩) (D' := ⟨.dynDense, .columnMajor, 5, 5, 384⟩)
  ⟨by decide, rfl, rfl, rfl, memOf_live lit lit lit, memOf_live lit lit lit, memOf_live lit lit lit, apart_of lit, Or.inr (apart_of lit)⟩ lit
  ⟨by decide, rfl, rfl, rfl, memOf_live lit lit lit, memOf_live lit lit lit, memOf_live lit lit lit, apart_of lit, Or.inl rfl⟩ lit
  ⟨rfl, rfl⟩ (grid_dyn lit lit lit lit lit lit lit) (fun i j _ => grid_stat lit lit lit lit lit lit lit i j) (grid_stat lit lit lit lit lit lit lit)
  (grid_stat lit lit lit lit lit lit lit) (fun i j _ => grid_dyn lit lit lit lit lit lit lit i j) (grid_dyn lit lit lit lit lit lit lit)

example := C74_trmm_left (SS := 4) (m := gridMem) (n := gridMem) (2 : Rat)
  (A := ⟨.dynDense, .columnMajor, 5, 5, 0⟩) (B := ⟨.dynDense, .columnMajor, 5, 7, 64⟩) (C := ⟨.statDense, .columnMajor, 5, 7, 128⟩)
  (A' := ⟨.statDense, .columnMajor, 5, 5, 256⟩) (B' := ⟨.dynDense, .columnMajor, 5, 7, 384⟩) (C' := ⟨.dynDense, .columnMajor, 5, 7, 384⟩)
  ⟨by decide, rfl, rfl, memOf_live lit lit lit, memOf_live lit lit lit, memOf_live lit lit lit, apart_of lit, Or.inr (apart_of lit), fun h => by cases h⟩ lit
  ⟨by decide, rfl, rfl, memOf_live lit lit lit, memOf_live lit lit lit, memOf_live lit lit lit, apart_of lit, Or.inl rfl, fun h => by cases h⟩ lit
  ⟨rfl, rfl⟩ (grid_dyn lit lit lit lit lit lit lit) (grid_dyn lit lit lit lit lit lit lit) (grid_stat lit lit lit lit lit lit lit) (grid_dyn lit lit lit lit lit lit lit)

example := C74_trmm_right (SS := 4) (SS' := 8) (m := gridMem) (n := gridMem) (2 : Rat)
  (A := ⟨.dynDense, .columnMajor, 7, 7, 0⟩) (B := ⟨.dynDense, .columnMajor, 5, 7, 64⟩) (C := ⟨.statDense, .columnMajor, 5, 7, 128⟩)
  (A' := ⟨.statDense, .columnMajor, 7, 7, 256⟩) (B' := ⟨.dynDense, .columnMajor, 5, 7, 384⟩) (C' := ⟨.dynDense, .columnMajor, 5, 7, 384⟩)
  ⟨by decide, rfl, rfl, memOf_live lit lit lit, memOf_live lit lit lit, memOf_live lit lit lit, apart_of lit, Or.inr (apart_of lit)⟩ lit
  ⟨by decide, rfl, rfl, memOf_live lit lit lit, memOf_live lit lit lit, memOf_live lit lit lit, apart_of lit, Or.inl rfl⟩ lit
  ⟨rfl, rfl⟩ (fun i j _ hi hj => grid_dyn lit lit lit lit lit lit lit i j hi hj) (grid_dyn lit lit lit lit lit lit lit)
  (fun i j _ hi hj => grid_stat lit lit lit lit lit lit lit i j hi hj) (grid_dyn lit lit lit lit lit lit lit)

example := C74_trsm (SS := 4) (SS' := 8) (m := gridMem) (n := gridMem) .lower true
  (A := ⟨.dynDense, .columnMajor, 5, 5, 0⟩) (B := ⟨.dynDense, .columnMajor, 5, 7, 64⟩) (X := ⟨.statDense, .columnMajor, 5, 7, 128⟩)
  (A' := ⟨.statDense, .columnMajor, 5, 5, 256⟩) (B' := ⟨.dynDense, .columnMajor, 5, 7, 384⟩) (X' := ⟨.dynDense, .columnMajor, 5, 7, 384⟩)
  ⟨by decide, memOf_live lit lit lit, memOf_live lit lit lit, memOf_live lit lit lit, apart_of lit, Or.inr (apart_of lit)⟩ lit
  ⟨by decide, memOf_live lit lit lit, memOf_live lit lit lit, memOf_live lit lit lit, apart_of lit, Or.inl rfl⟩ lit
  ⟨rfl, rfl⟩ ((grid_dyn lit lit lit lit lit lit lit).tri _ _) (grid_dyn lit lit lit lit lit lit lit)
  ((grid_stat lit lit lit lit lit lit lit).tri _ _) (grid_dyn lit lit lit lit lit lit lit)

example := C74_potrf_dense (SS := 4) (m := gridMem) (n := gridMem)
  (A := ⟨.dynDense, .columnMajor, 8, 8, 0⟩) (L := ⟨.dynDense, .columnMajor, 8, 8, 64⟩)
  (A' := ⟨.statDense, .columnMajor, 8, 8, 256⟩) (L' := ⟨.statDense, .columnMajor, 8, 8, 256⟩)
  ⟨by decide, rfl, rfl, memOf_live lit lit lit, memOf_live lit lit lit, Or.inr (apart_of lit)⟩ lit (potrfFits_square (by decide) (Or.inl rfl))
  ⟨by decide, rfl, rfl, memOf_live lit lit lit, memOf_live lit lit lit, Or.inl rfl⟩ lit (potrfFits_square (by decide) (Or.inl rfl))
  ⟨rfl, rfl⟩ (fun i j _ => grid_dyn lit lit lit lit lit lit lit i j) (grid_dyn lit lit lit lit lit lit lit)
  (fun i j _ => grid_stat lit lit lit lit lit lit lit i j) (grid_stat lit lit lit lit lit lit lit)

/-- 8 × 8 panel matrices: all cells hold 3 -/
example := C74_potrf_panel (SS := 4) (KN := 4) (m := memOf 1000 (fun _ => (3 : Rat))) (n := memOf 2000 (fun _ => (3 : Rat)))
  (A := ⟨.dynPanel, .columnMajor, 8, 8, 0⟩) (L := ⟨.dynPanel, .columnMajor, 8, 8, 512⟩)
  (A' := ⟨.statPanel, .columnMajor, 8, 8, 1256⟩) (L' := ⟨.statPanel, .columnMajor, 8, 8, 1256⟩)
  ⟨by decide, rfl, rfl, memOf_live lit lit lit, memOf_live lit lit lit, Or.inr (apart_of lit)⟩ lit (potrfFits_square (by decide) (Or.inl rfl))
  ⟨by decide, rfl, rfl, memOf_live lit lit lit, memOf_live lit lit lit, Or.inl rfl⟩ lit (potrfFits_square (by decide) (Or.inl rfl))
  ⟨rfl, rfl⟩ (memOf_contains lit lit lit) (memOf_contains lit lit lit) (memOf_contains lit lit lit) (memOf_contains lit lit lit)

example := C74_getf2 (SS := 4) (SS' := 8) (by decide) (by decide) (m := gridMem) (n := gridMem) (A := ⟨.dynDense, .columnMajor, 5, 7, 0⟩)
  (A' := ⟨.statDense, .columnMajor, 5, 7, 640⟩) rfl rfl (memOf_live lit lit lit) rfl rfl (memOf_live lit lit lit) ⟨rfl, rfl⟩
  (grid_dyn lit lit lit lit lit lit lit) (grid_stat lit lit lit lit lit lit lit) id
example := C74_getrf (SS := 4) (by decide) (m := gridMem) (n := gridMem) (A := ⟨.dynDense, .columnMajor, 5, 7, 0⟩)
  (A' := ⟨.statDense, .columnMajor, 5, 7, 640⟩) rfl rfl (memOf_live lit lit lit) rfl rfl (memOf_live lit lit lit) ⟨rfl, rfl⟩
  (grid_dyn lit lit lit lit lit lit lit) (grid_stat lit lit lit lit lit lit lit) id
/-- a row-major matrix, and the same matrix stored column by column and passed to the row-major code -/
example := C74_getf2_row_major (SS := 4) (SS' := 4) (by decide) (by decide) (· / ·) (A := luRm) (A' := luCm) rfl rfl ⟨rfl, rfl⟩ luRm_has luCm_has id
example := C74_getrf_row_major (SS := 4) (SS' := 4) (by decide) (by decide) (· / ·) (A := luRm) (A' := luCm) ⟨rfl, rfl⟩ luRm_has luCm_has id

example := C74_makePositiveDefinite (V := Rat) (SS := 4) (SS' := 8) (by decide) (by decide) (m := gridMem) (n := gridMem) (A := ⟨.dynDense, .columnMajor, 5, 5, 0⟩)
  (A' := ⟨.statDense, .rowMajor, 5, 5, 640⟩) rfl (memOf_live lit lit lit) rfl (memOf_live lit lit lit) ⟨rfl, rfl⟩ rfl (t := 4000) (t' := -640) rfl
  (fun z hz => if_neg (fun h => by have := hz.1; dsimp only at this; omega)) rfl
  (fun z hz => if_neg (fun h => by
    have := hz.2
    rw [show Container.capacity 8 ⟨.dynDense, .columnMajor, (⟨.statDense, .rowMajor, 5, 5, 640⟩ : Container).cols,
      (⟨.statDense, .rowMajor, 5, 5, 640⟩ : Container).cols, -640⟩ = 40 from by decide] at this
    dsimp only at this; omega)) (fun i j => (i + j : Nat)) 5

/-- the two runs of `placedProgram` -/
example := C75_safe (V := Rat) (SS := 4) (KN := 4) (by decide) (· / ·) (fun _ => id) (placedProgram_ok (p := 0) (q := 64) (t := 128) _ _ rfl rfl rfl lit lit lit)
/-- a program that destroys its objects -/
example := C75_no_leak (V := Rat) (SS := 4) (KN := 4) (by decide) (· / ·) (fun _ => id)
  (l := [.op (.create 0 ⟨.dynDense, .columnMajor, 4, 4, 8⟩), .op (.destroy 0)])
  ⟨⟨rfl, rfl, fun _ _ => rfl, fun _ => rfl⟩, fun _ => ⟨⟨_, rfl⟩, fun _ => trivial⟩⟩
  (fun x => by match x with | 0 => rfl | _ + 1 => rfl)

end Blast
