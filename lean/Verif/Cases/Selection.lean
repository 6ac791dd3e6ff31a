import Verif.Cases.Reproducible
import Verif.Props.Selection
/-
Concrete cases of the theorems in Props/Selection. The memory `selMem f` is divided into blocks of 64 cells; a column-major matrix with five to eight
rows in block q has the elements `f q i j`.
-/
namespace Blast

def selMem {V : Type} (f : Nat → Nat → Nat → V) : Mem V := memOf 2000 (fun x => f (x / 64).toNat (x % 64 % 8).toNat (x % 64 / 8).toNat)

theorem sel_stat {V : Type} {SS r c : Nat} (f : Nat → Nat → Nat → V) (q : Nat) (h1 : (⟨.statDense, .columnMajor, r, c, (64 * q : Nat)⟩ : Container).spacing SS = 8) (hr : r ≤ 8) (hc : c ≤ 8) (hq : q < 31) :
    Contains SS (selMem f) ⟨.statDense, .columnMajor, r, c, (64 * q : Nat)⟩ (f q) := by
  intro i j hi hj
  have hi : i < r := hi
  have hj : j < c := hj
  have e : (⟨.statDense, .columnMajor, r, c, (64 * q : Nat)⟩ : Container).addr SS i j = ((64 * q + (i + 8 * j) : Nat) : Int) := by
    have e : (⟨.statDense, .columnMajor, r, c, (64 * q : Nat)⟩ : Container).elementIndex SS i j = i + 8 * j := by
      show i + j * (⟨.statDense, .columnMajor, r, c, (64 * q : Nat)⟩ : Container).spacing SS = _
      rw [h1, Nat.mul_comm]
    unfold Container.addr
    rw [e]
    push_cast
    rfl
  rw [e]
  unfold selMem
  rw [memOf_at (by omega) (by omega)]
  rw [show (((64 * q + (i + 8 * j) : Nat) : Int) / 64).toNat = q by omega, show (((64 * q + (i + 8 * j) : Nat) : Int) % 64 % 8).toNat = i by omega,
    show (((64 * q + (i + 8 * j) : Nat) : Int) % 64 / 8).toNat = j by omega]

theorem sel_dyn {V : Type} {SS r c : Nat} (f : Nat → Nat → Nat → V) (q : Nat) (h1 : (⟨.dynDense, .columnMajor, r, c, (64 * q : Nat)⟩ : Container).spacing SS = 8) (hr : r ≤ 8) (hc : c ≤ 8) (hq : q < 31) :
    Contains SS (selMem f) ⟨.dynDense, .columnMajor, r, c, (64 * q : Nat)⟩ (f q) := by
  intro i j hi hj
  have hi : i < r := hi
  have hj : j < c := hj
  have e : (⟨.dynDense, .columnMajor, r, c, (64 * q : Nat)⟩ : Container).addr SS i j = ((64 * q + (i + 8 * j) : Nat) : Int) := by
    have e : (⟨.dynDense, .columnMajor, r, c, (64 * q : Nat)⟩ : Container).elementIndex SS i j = i + 8 * j := by
      show i + j * (⟨.dynDense, .columnMajor, r, c, (64 * q : Nat)⟩ : Container).spacing SS = _
      rw [h1, Nat.mul_comm]
    unfold Container.addr
    rw [e]
    push_cast
    rfl
  rw [e]
  unfold selMem
  rw [memOf_at (by omega) (by omega)]
  rw [show (((64 * q + (i + 8 * j) : Nat) : Int) / 64).toNat = q by omega, show (((64 * q + (i + 8 * j) : Nat) : Int) % 64 % 8).toNat = i by omega,
    show (((64 * q + (i + 8 * j) : Nat) : Int) % 64 / 8).toNat = j by omega]

theorem sel_vec {V : Type} {s : Bool} {n : Nat} (f : Nat → Nat → Nat → V) (q : Nat) (hn : n ≤ 8) (hq : q < 31) :
    VContains (selMem f) ⟨s, n, (64 * q : Nat)⟩ (fun i => f q i 0) := fun i hi => by
  have hi : i < n := hi
  show memOf 2000 _ (((64 * q : Nat) : Int) + i) = _
  rw [memOf_at (by omega) (by omega)]
  rw [show ((((64 * q : Nat) : Int) + i) / 64).toNat = q by omega, show ((((64 * q : Nat) : Int) + i) % 64 % 8).toNat = i by omega,
    show ((((64 * q : Nat) : Int) + i) % 64 / 8).toNat = 0 by omega]

/-- the values: a(i, j) = 1 + i + 10 j + 100 q -/
def selVal (q i j : Nat) : Rat := ((1 + i + 10 * j + 100 * q : Nat) : Int)

/-- rows in reverse order -/
def rev7 (i : Nat) : Nat := 6 - i
/-- every second column -/
def evenCol (j : Nat) : Nat := 2 * j

theorem into_rev7 {n : Nat} : Into rev7 n 7 := fun i _ => by unfold rev7; omega
theorem into_even {n : Nat} (h : n ≤ 4 := by decide) : Into evenCol n 8 := fun i hi => by unfold evenCol; omega

/-- blocks: 0: rows selected; 1: columns selected; 2: both -/
def selBlocks (q i j : Nat) : Rat := if q = 0 then selVal 0 (rev7 i) j else if q = 1 then selVal 1 i (evenCol j) else selVal 2 (rev7 i) (evenCol j)

/-- 7 × 6 times 6 × 8; then rows 6, 5, …, 2 and columns 0, 2, 4, 6 only, in another class, on another SIMD width, in place -/
example := C77_gemm (SS := 4) (SS' := 8) (m := selMem selVal) (n := selMem selBlocks) (2 : Rat) 3 (ρ := rev7) (γ := evenCol)
  (A := ⟨.dynDense, .columnMajor, 7, 6, (64 * 0 : Nat)⟩) (B := ⟨.dynDense, .columnMajor, 6, 8, (64 * 1 : Nat)⟩) (C := ⟨.statDense, .columnMajor, 7, 8, (64 * 2 : Nat)⟩)
  (D := ⟨.statDense, .columnMajor, 7, 8, 192⟩)
  (A' := ⟨.statDense, .columnMajor, 5, 6, (64 * 0 : Nat)⟩) (B' := ⟨.statDense, .columnMajor, 6, 4, (64 * 1 : Nat)⟩) (C' := ⟨.dynDense, .columnMajor, 5, 4, (64 * 2 : Nat)⟩)
  (D' := ⟨.dynDense, .columnMajor, 5, 4, (64 * 2 : Nat)⟩)
  ⟨by decide, rfl, rfl, rfl, memOf_live lit lit lit, memOf_live lit lit lit, memOf_live lit lit lit, memOf_live lit lit lit, apart_of lit, apart_of lit, Or.inr (apart_of lit)⟩ lit
  ⟨by decide, rfl, rfl, rfl, memOf_live lit lit lit, memOf_live lit lit lit, memOf_live lit lit lit, memOf_live lit lit lit, apart_of lit, apart_of lit, Or.inl rfl⟩ lit
  rfl into_rev7 into_even (sel_dyn selVal 0 lit lit lit lit) (sel_dyn selVal 1 lit lit lit lit) (sel_stat selVal 2 lit lit lit lit)
  (sel_stat selBlocks 0 lit lit lit lit) (sel_stat selBlocks 1 lit lit lit lit) (sel_dyn selBlocks 2 lit lit lit lit)

/-- rank-one update of a 7 × 8 matrix and of its rows 6, …, 2 and columns 0, 2, 4 -/
example := C77_ger (SS := 4) (SS' := 8) (m := selMem selVal) (n := selMem (fun q i j => if q = 0 then selVal 0 (rev7 i) j else if q = 1 then selVal 1 (evenCol i) j
    else selVal 2 (rev7 i) (evenCol j))) (2 : Rat) (ρ := rev7) (γ := evenCol)
  (x := ⟨true, 7, (64 * 0 : Nat)⟩) (y := ⟨false, 8, (64 * 1 : Nat)⟩) (A := ⟨.dynDense, .columnMajor, 7, 8, (64 * 2 : Nat)⟩) (B := ⟨.statDense, .columnMajor, 7, 8, 192⟩)
  (x' := ⟨false, 5, (64 * 0 : Nat)⟩) (y' := ⟨true, 3, (64 * 1 : Nat)⟩) (A' := ⟨.statDense, .columnMajor, 5, 3, (64 * 2 : Nat)⟩) (B' := ⟨.statDense, .columnMajor, 5, 3, (64 * 2 : Nat)⟩)
  ⟨by decide, rfl, rfl, memOf_vlive lit lit lit, memOf_vlive lit lit lit, memOf_live lit lit lit, memOf_live lit lit lit, vapart_of lit, vapart_of lit, Or.inr (apart_of lit)⟩ lit
  ⟨by decide, rfl, rfl, memOf_vlive lit lit lit, memOf_vlive lit lit lit, memOf_live lit lit lit, memOf_live lit lit lit, vapart_of lit, vapart_of lit, Or.inl rfl⟩ lit
  into_rev7 into_even (sel_vec selVal 0 lit lit) (sel_vec selVal 1 lit lit) (sel_dyn selVal 2 lit lit lit lit)
  (sel_vec _ 0 lit lit) (sel_vec _ 1 lit lit) (sel_stat _ 2 lit lit lit lit)

/-- rows 1, …, 5 of 6 -/
example := C77_syrk (SS := 4) (SS' := 8) (m := selMem selVal) (n := selMem (fun q i j => if q = 0 then selVal 0 (i + 1) j else selVal 1 (i + 1) (j + 1))) (2 : Rat) 3
  (ρ := fun i => i + 1)
  (A := ⟨.dynDense, .columnMajor, 6, 7, (64 * 0 : Nat)⟩) (C := ⟨.statDense, .columnMajor, 6, 6, (64 * 1 : Nat)⟩) (D := ⟨.statDense, .columnMajor, 6, 6, (64 * 2 : Nat)⟩)
  (A' := ⟨.statDense, .columnMajor, 5, 7, (64 * 0 : Nat)⟩) (C' := ⟨.dynDense, .columnMajor, 5, 5, (64 * 1 : Nat)⟩) (D' := ⟨.dynDense, .columnMajor, 5, 5, (64 * 1 : Nat)⟩)
  ⟨by decide, rfl, rfl, rfl, memOf_live lit lit lit, memOf_live lit lit lit, memOf_live lit lit lit, apart_of lit, Or.inr (apart_of lit)⟩ lit
  ⟨by decide, rfl, rfl, rfl, memOf_live lit lit lit, memOf_live lit lit lit, memOf_live lit lit lit, apart_of lit, Or.inl rfl⟩ lit
  rfl (fun i hi => by show i + 1 < 6; have hi : i < 5 := hi; omega) (fun i j h _ => by show j + 1 ≤ i + 1; omega)
  (sel_dyn selVal 0 lit lit lit lit) (fun i j _ => sel_stat selVal 1 lit lit lit lit i j) (sel_stat selVal 2 lit lit lit lit)
  (sel_stat _ 0 lit lit lit lit) (fun i j _ => sel_dyn _ 1 lit lit lit lit i j) (sel_dyn _ 1 lit lit lit lit)

/-- 7 × 6 times 6 × 6, and its rows 6, …, 2 -/
example := C77_trmm_right (SS := 4) (SS' := 8) (m := selMem selVal) (n := selMem (fun q i j => if q = 1 then selVal 1 (rev7 i) j else selVal q i j)) (2 : Rat) (ρ := rev7)
  (A := ⟨.dynDense, .columnMajor, 6, 6, (64 * 0 : Nat)⟩) (B := ⟨.dynDense, .columnMajor, 7, 6, (64 * 1 : Nat)⟩) (C := ⟨.statDense, .columnMajor, 7, 6, (64 * 2 : Nat)⟩)
  (A' := ⟨.statDense, .columnMajor, 6, 6, (64 * 0 : Nat)⟩) (B' := ⟨.dynDense, .columnMajor, 5, 6, (64 * 1 : Nat)⟩) (C' := ⟨.dynDense, .columnMajor, 5, 6, (64 * 1 : Nat)⟩)
  ⟨by decide, rfl, rfl, memOf_live lit lit lit, memOf_live lit lit lit, memOf_live lit lit lit, apart_of lit, Or.inr (apart_of lit)⟩ lit
  ⟨by decide, rfl, rfl, memOf_live lit lit lit, memOf_live lit lit lit, memOf_live lit lit lit, apart_of lit, Or.inl rfl⟩ lit
  rfl into_rev7 (fun i j _ hi hj => sel_dyn selVal 0 lit lit lit lit i j hi hj) (sel_dyn selVal 1 lit lit lit lit)
  (fun i j _ hi hj => sel_stat _ 0 lit lit lit lit i j hi hj) (sel_dyn _ 1 lit lit lit lit)

/-- of eight right-hand sides, the first four in the order 3, 2, 1, 0 -/
example := C77_trmm_left (SS := 4) (m := selMem selVal) (n := selMem (fun q i j => if q = 1 then selVal 1 i (3 - j) else selVal q i j)) (2 : Rat) (γ := fun j => 3 - j)
  (A := ⟨.dynDense, .columnMajor, 5, 5, (64 * 0 : Nat)⟩) (B := ⟨.dynDense, .columnMajor, 5, 8, (64 * 1 : Nat)⟩) (C := ⟨.statDense, .columnMajor, 5, 8, (64 * 2 : Nat)⟩)
  (A' := ⟨.statDense, .columnMajor, 5, 5, (64 * 0 : Nat)⟩) (B' := ⟨.dynDense, .columnMajor, 5, 4, (64 * 1 : Nat)⟩) (C' := ⟨.dynDense, .columnMajor, 5, 4, (64 * 1 : Nat)⟩)
  ⟨by decide, rfl, rfl, memOf_live lit lit lit, memOf_live lit lit lit, memOf_live lit lit lit, apart_of lit, Or.inr (apart_of lit), fun h => by cases h⟩ lit
  ⟨by decide, rfl, rfl, memOf_live lit lit lit, memOf_live lit lit lit, memOf_live lit lit lit, apart_of lit, Or.inl rfl, fun h => by cases h⟩ lit
  rfl (fun i _ => by dsimp only; omega) (fun j hj => by dsimp only at hj ⊢; omega) (sel_dyn selVal 0 lit lit lit lit) (sel_dyn selVal 1 lit lit lit lit)
  (sel_stat _ 0 lit lit lit lit) (sel_dyn _ 1 lit lit lit lit)

/-- of eight right-hand sides, 0, 2, 4 -/
example := C77_trsm (SS := 4) (SS' := 8) (m := selMem selVal) (n := selMem (fun q i j => if q = 1 then selVal 1 i (evenCol j) else selVal q i j)) .upper false (γ := evenCol)
  (A := ⟨.dynDense, .columnMajor, 5, 5, (64 * 0 : Nat)⟩) (B := ⟨.dynDense, .columnMajor, 5, 8, (64 * 1 : Nat)⟩) (X := ⟨.statDense, .columnMajor, 5, 8, (64 * 2 : Nat)⟩)
  (A' := ⟨.statDense, .columnMajor, 5, 5, (64 * 0 : Nat)⟩) (B' := ⟨.dynDense, .columnMajor, 5, 3, (64 * 1 : Nat)⟩) (X' := ⟨.dynDense, .columnMajor, 5, 3, (64 * 1 : Nat)⟩)
  ⟨by decide, memOf_live lit lit lit, memOf_live lit lit lit, memOf_live lit lit lit, apart_of lit, Or.inr (apart_of lit)⟩ lit
  ⟨by decide, memOf_live lit lit lit, memOf_live lit lit lit, memOf_live lit lit lit, apart_of lit, Or.inl rfl⟩ lit
  rfl into_even ((sel_dyn selVal 0 lit lit lit lit).tri _ _) (sel_dyn selVal 1 lit lit lit lit)
  ((sel_stat _ 0 lit lit lit lit).tri _ _) (sel_dyn _ 1 lit lit lit lit)

/-- a system with seven unknowns and its first five equations -/
example := C77_trsm_leading (SS := 4) (SS' := 8) (m := selMem selVal) (n := selMem (fun q i j => if q = 1 then selVal 1 i (evenCol j) else selVal q i j)) false (γ := evenCol)
  (A := ⟨.dynDense, .columnMajor, 7, 7, (64 * 0 : Nat)⟩) (B := ⟨.dynDense, .columnMajor, 7, 8, (64 * 1 : Nat)⟩) (X := ⟨.statDense, .columnMajor, 7, 8, (64 * 2 : Nat)⟩)
  (A' := ⟨.statDense, .columnMajor, 5, 5, (64 * 0 : Nat)⟩) (B' := ⟨.dynDense, .columnMajor, 5, 3, (64 * 1 : Nat)⟩) (X' := ⟨.dynDense, .columnMajor, 5, 3, (64 * 1 : Nat)⟩)
  ⟨by decide, memOf_live lit lit lit, memOf_live lit lit lit, memOf_live lit lit lit, apart_of lit, Or.inr (apart_of lit)⟩ lit
  ⟨by decide, memOf_live lit lit lit, memOf_live lit lit lit, memOf_live lit lit lit, apart_of lit, Or.inl rfl⟩ lit
  lit into_even ((sel_dyn selVal 0 lit lit lit lit).tri _ _) (sel_dyn selVal 1 lit lit lit lit)
  ((sel_stat _ 0 lit lit lit lit).tri _ _) (sel_dyn _ 1 lit lit lit lit)

/-- the first four columns of an 8 × 8 matrix -/
example := C77_potrf_dense_leading (SS := 4) (m := selMem selVal) (n := selMem selVal)
  (A := ⟨.dynDense, .columnMajor, 8, 8, (64 * 0 : Nat)⟩) (L := ⟨.dynDense, .columnMajor, 8, 8, (64 * 1 : Nat)⟩)
  (A' := ⟨.statDense, .columnMajor, 8, 4, (64 * 0 : Nat)⟩) (L' := ⟨.statDense, .columnMajor, 8, 4, (64 * 2 : Nat)⟩)
  ⟨by decide, rfl, rfl, memOf_live lit lit lit, memOf_live lit lit lit, Or.inr (apart_of lit)⟩ lit (potrfFits_square (by decide) (Or.inl rfl))
  ⟨by decide, rfl, rfl, memOf_live lit lit lit, memOf_live lit lit lit, Or.inr (apart_of lit)⟩ lit (potrfFits_square (by decide) (Or.inl rfl))
  lit lit (fun i j _ => sel_dyn selVal 0 lit lit lit lit i j) (sel_dyn selVal 1 lit lit lit lit)
  (fun i j _ => sel_stat selVal 0 lit lit lit lit i j) (sel_stat selVal 2 lit lit lit lit)

/-- 8 × 8 panel matrices, and the leading 4 × 4 part: all cells hold 3 -/
example := C77_potrf_panel_leading (SS := 4) (KN := 4) (m := memOf 1000 (fun _ => (3 : Rat))) (n := memOf 2000 (fun _ => (3 : Rat)))
  (A := ⟨.dynPanel, .columnMajor, 8, 8, 0⟩) (L := ⟨.dynPanel, .columnMajor, 8, 8, 512⟩)
  (A' := ⟨.statPanel, .columnMajor, 4, 4, 1256⟩) (L' := ⟨.statPanel, .columnMajor, 4, 4, 1256⟩)
  ⟨by decide, rfl, rfl, memOf_live lit lit lit, memOf_live lit lit lit, Or.inr (apart_of lit)⟩ lit (potrfFits_square (by decide) (Or.inl rfl))
  ⟨by decide, rfl, rfl, memOf_live lit lit lit, memOf_live lit lit lit, Or.inl rfl⟩ lit (potrfFits_square (by decide) (Or.inl rfl))
  lit lit (memOf_contains lit lit lit) (memOf_contains lit lit lit) (memOf_contains lit lit lit) (memOf_contains lit lit lit)

/-- five equations; three right-hand sides, of which the last comes first, the first is repeated -/
def lastFirst (j : Nat) : Nat := if j = 5 then 7 else if j = 6 then 5 else if j = 7 then 5 else j

theorem lastFirst_after : AfterSquare 5 8 8 lastFirst := ⟨by decide, by decide, by decide, fun j h1 h2 => by
  have : ∀ j, j < 8 → 5 ≤ j → 5 ≤ lastFirst j ∧ lastFirst j < 8 := by decide
  exact this j h2 h1⟩

example := C77_getf2 (SS := 4) (SS' := 8) (by decide) (by decide) (m := selMem selVal) (n := selMem (fun q i j => selVal q i (lastFirst j)))
  (A := ⟨.dynDense, .columnMajor, 5, 8, (64 * 1 : Nat)⟩) (A' := ⟨.statDense, .columnMajor, 5, 8, (64 * 1 : Nat)⟩) rfl rfl (memOf_live lit lit lit) rfl rfl (memOf_live lit lit lit)
  rfl lastFirst_after (sel_dyn selVal 1 lit lit lit lit) (sel_stat _ 1 lit lit lit lit) id
example := C77_getrf (SS := 4) (by decide) (m := selMem selVal) (n := selMem (fun q i j => selVal q i (lastFirst j)))
  (A := ⟨.dynDense, .columnMajor, 5, 8, (64 * 1 : Nat)⟩) (A' := ⟨.statDense, .columnMajor, 5, 8, (64 * 1 : Nat)⟩) rfl rfl (memOf_live lit lit lit) rfl rfl (memOf_live lit lit lit)
  rfl lastFirst_after (sel_dyn selVal 1 lit lit lit lit) (sel_stat _ 1 lit lit lit lit) id
example := C77_getf2_row_major (SS := 4) (SS' := 8) (by decide) (by decide) (· / ·) (m := selMem selVal) (n := selMem (fun q i j => selVal q i (lastFirst j)))
  (A := ⟨.dynDense, .columnMajor, 5, 8, (64 * 1 : Nat)⟩) (A' := ⟨.statDense, .columnMajor, 5, 8, (64 * 1 : Nat)⟩) rfl rfl
  rfl lastFirst_after (sel_dyn selVal 1 lit lit lit lit) (sel_stat _ 1 lit lit lit lit) id
example := C77_getrf_row_major (SS := 4) (SS' := 8) (by decide) (by decide) (· / ·) (m := selMem selVal) (n := selMem (fun q i j => selVal q i (lastFirst j)))
  (A := ⟨.dynDense, .columnMajor, 5, 8, (64 * 1 : Nat)⟩) (A' := ⟨.statDense, .columnMajor, 5, 8, (64 * 1 : Nat)⟩)
  rfl lastFirst_after (sel_dyn selVal 1 lit lit lit lit) (sel_stat _ 1 lit lit lit lit) id

end Blast
