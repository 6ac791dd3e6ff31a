import Verif.Cases.Selection
import Verif.Cases.MatrixForm
import Verif.Props.Integers
/-
Concrete cases of the theorems in Props/Integers: `double` arithmetic (53-bit significands, ties to even, infinities and not-a-number); memory as in Cases/Selection.
-/
namespace Blast
open Finset Reg

/-- the format of `double` -/
abbrev Dbl : Type := Ieee (Fe 52)

/-- the integers: a(i, j) = ±(1 + i + 10 j + 100 q) -/
def intVal (q i j : Nat) : ℤ := if (i + j) % 2 = 0 then (1 + i + 10 * j + 100 * q : Nat) else -(1 + i + 10 * j + 100 * q : Nat)

noncomputable def intMem (f : Nat → Nat → Nat → ℤ) : Mem Dbl := selMem (fun q i j => (ExactInts.num (f q i j) : Dbl))

theorem intVal_le : ∀ q < 3, ∀ i < 8, ∀ j < 8, |intVal q i j| ≤ (2 : ℤ) ^ (52 + 1) := by decide +kernel

theorem int_dyn {r c : Nat} (f : Nat → Nat → Nat → ℤ) (q : Nat) (h1 : (⟨.dynDense, .columnMajor, r, c, (64 * q : Nat)⟩ : Container).spacing 4 = 8) (hr : r ≤ 8) (hc : c ≤ 8) (hq : q < 31)
    (hle : ∀ i < r, ∀ j < c, |f q i j| ≤ (2 : ℤ) ^ (52 + 1)) : IsIntMat 4 (intMem f) ⟨.dynDense, .columnMajor, r, c, (64 * q : Nat)⟩ (f q) :=
  ⟨sel_dyn _ q h1 hr hc hq, fun i j hi hj => hle i hi j hj⟩

/-- 7 × 6 times 6 × 8 -/
example : ∃ m' : Mem Dbl, gemmCall 4 (ExactInts.num 2) ⟨.dynDense, .columnMajor, 7, 6, (64 * 0 : Nat)⟩ ⟨.dynDense, .columnMajor, 6, 8, (64 * 1 : Nat)⟩ (ExactInts.num (-3))
      ⟨.dynDense, .columnMajor, 7, 8, (64 * 2 : Nat)⟩ ⟨.statDense, .columnMajor, 7, 8, 192⟩ (intMem intVal) = .ok () m' ∧
    Contains 4 m' ⟨.statDense, .columnMajor, 7, 8, 192⟩ (fun i j => (ExactInts.num (2 * ∑ k ∈ range 6, intVal 0 i k * intVal 1 k j + -3 * intVal 2 i j) : Dbl)) :=
  C82_gemm (SS := 4) (m := intMem intVal) (alpha := 2) (beta := -3)
    (A := ⟨.dynDense, .columnMajor, 7, 6, (64 * 0 : Nat)⟩) (B := ⟨.dynDense, .columnMajor, 6, 8, (64 * 1 : Nat)⟩) (C := ⟨.dynDense, .columnMajor, 7, 8, (64 * 2 : Nat)⟩)
    (D := ⟨.statDense, .columnMajor, 7, 8, 192⟩)
    ⟨by decide, rfl, rfl, rfl, memOf_live lit lit lit, memOf_live lit lit lit, memOf_live lit lit lit, memOf_live lit lit lit, apart_of lit, apart_of lit, Or.inr (apart_of lit)⟩ lit
    (int_dyn intVal 0 lit lit lit lit lit) (int_dyn intVal 1 lit lit lit lit lit) (int_dyn intVal 2 lit lit lit lit lit)
    (show |(2 : ℤ)| ≤ 2 ^ (52 + 1) by decide) (show |(-3 : ℤ)| ≤ 2 ^ (52 + 1) by decide)
    (by have : ∀ i < 7, ∀ j < 8, ∑ k ∈ range 6, |intVal 0 i k| * |intVal 1 k j| ≤ (2 : ℤ) ^ (52 + 1) := by decide +kernel
        exact fun i j hi hj => this i hi j hj)
    (by have : ∀ i < 7, ∀ j < 8, |(2 : ℤ)| * ∑ k ∈ range 6, |intVal 0 i k| * |intVal 1 k j| + |(-3 : ℤ)| * |intVal 2 i j| ≤ (2 : ℤ) ^ (52 + 1) := by decide +kernel
        exact fun i j hi hj => this i hi j hj)

/-- 1 × 1 matrices: 2^53 + 1 · 1 is not computed exactly -/
example := C82_gemm_bound_sharp (p := 52) (SS := 4) (by decide) (m := selMem (fun q _ _ => (ExactInts.num (if q = 2 then 2 ^ (52 + 1) else 1) : Fe 52)))
  (A := ⟨.dynDense, .columnMajor, 1, 1, 0⟩) (B := ⟨.dynDense, .columnMajor, 1, 1, 64⟩) (C := ⟨.dynDense, .columnMajor, 1, 1, 128⟩) (D := ⟨.statDense, .columnMajor, 1, 1, 192⟩)
  ⟨by decide, rfl, rfl, rfl, memOf_live lit lit lit, memOf_live lit lit lit, memOf_live lit lit lit, memOf_live lit lit lit, apart_of lit, apart_of lit, Or.inr (apart_of lit)⟩ lit
  ⟨rfl, rfl, rfl⟩
  ⟨memOf_contains' lit lit lit (fun i hi j hj => by obtain rfl : i = 0 := Nat.lt_one_iff.1 hi; obtain rfl : j = 0 := Nat.lt_one_iff.1 hj; rfl), fun i j _ _ => show |(1 : ℤ)| ≤ 2 ^ (52 + 1) by decide⟩
  ⟨memOf_contains' lit lit lit (fun i hi j hj => by obtain rfl : i = 0 := Nat.lt_one_iff.1 hi; obtain rfl : j = 0 := Nat.lt_one_iff.1 hj; rfl), fun i j _ _ => show |(1 : ℤ)| ≤ 2 ^ (52 + 1) by decide⟩
  ⟨memOf_contains' lit lit lit (fun i hi j hj => by obtain rfl : i = 0 := Nat.lt_one_iff.1 hi; obtain rfl : j = 0 := Nat.lt_one_iff.1 hj; rfl), fun i j _ _ => show |(2 ^ (52 + 1) : ℤ)| ≤ 2 ^ (52 + 1) by decide⟩

example := C82_ger (SS := 4) (m := intMem intVal) (alpha := -2)
  (x := ⟨true, 7, (64 * 0 : Nat)⟩) (y := ⟨false, 8, (64 * 1 : Nat)⟩) (A := ⟨.dynDense, .columnMajor, 7, 8, (64 * 2 : Nat)⟩) (B := ⟨.statDense, .columnMajor, 7, 8, 192⟩)
  ⟨by decide, rfl, rfl, memOf_vlive lit lit lit, memOf_vlive lit lit lit, memOf_live lit lit lit, memOf_live lit lit lit, vapart_of lit, vapart_of lit, Or.inr (apart_of lit)⟩ lit
  ⟨sel_vec _ 0 lit lit, fun i hi => intVal_le 0 lit i (Nat.lt_of_lt_of_le hi lit) 0 lit⟩ ⟨sel_vec _ 1 lit lit, fun i hi => intVal_le 1 lit i (Nat.lt_of_lt_of_le hi lit) 0 lit⟩
  (int_dyn intVal 2 lit lit lit lit lit) (show |(-2 : ℤ)| ≤ 2 ^ (52 + 1) by decide)
  (by have : ∀ i < 7, |(-2 : ℤ)| * |intVal 0 i 0| ≤ (2 : ℤ) ^ (52 + 1) := by decide +kernel
      exact fun i hi => this i hi)
  (by have : ∀ i < 7, ∀ j < 8, |(-2 : ℤ)| * |intVal 0 i 0| * |intVal 1 j 0| + |intVal 2 i j| ≤ (2 : ℤ) ^ (52 + 1) := by decide +kernel
      exact fun i j hi hj => this i hi j hj)

example := C82_syrk (SS := 4) (m := intMem intVal) (alpha := -2) (beta := 3)
  (A := ⟨.dynDense, .columnMajor, 6, 7, (64 * 0 : Nat)⟩) (C := ⟨.dynDense, .columnMajor, 6, 6, (64 * 1 : Nat)⟩) (D := ⟨.statDense, .columnMajor, 6, 6, (64 * 2 : Nat)⟩)
  ⟨by decide, rfl, rfl, rfl, memOf_live lit lit lit, memOf_live lit lit lit, memOf_live lit lit lit, apart_of lit, Or.inr (apart_of lit)⟩ lit
  (int_dyn intVal 0 lit lit lit lit lit) ⟨fun i j _ hi hj => (int_dyn intVal 1 lit lit lit lit lit).1 i j hi hj, fun i j _ hi hj => (int_dyn (r := 6) (c := 6) intVal 1 lit lit lit lit lit).2 i j hi hj⟩
  (show |(-2 : ℤ)| ≤ 2 ^ (52 + 1) by decide) (show |(3 : ℤ)| ≤ 2 ^ (52 + 1) by decide)
  (by have : ∀ i < 6, ∀ j < 7, |(-2 : ℤ)| * |intVal 0 i j| ≤ (2 : ℤ) ^ (52 + 1) := by decide +kernel
      exact fun i j hi hj => this i hi j hj)
  (by have : ∀ i < 6, ∀ j < 6, |(-2 : ℤ)| * ∑ k ∈ range 7, |intVal 0 i k| * |intVal 0 j k| + |(3 : ℤ)| * |intVal 1 i j| ≤ (2 : ℤ) ^ (52 + 1) := by decide +kernel
      exact fun i j _ hi hj => this i hi j hj)

example := C82_trmm_right (SS := 4) (m := intMem intVal) (alpha := -2)
  (A := ⟨.dynDense, .columnMajor, 6, 6, (64 * 0 : Nat)⟩) (B := ⟨.dynDense, .columnMajor, 7, 6, (64 * 1 : Nat)⟩) (C := ⟨.statDense, .columnMajor, 7, 6, (64 * 2 : Nat)⟩)
  ⟨by decide, rfl, rfl, memOf_live lit lit lit, memOf_live lit lit lit, memOf_live lit lit lit, apart_of lit, Or.inr (apart_of lit)⟩ lit
  ⟨fun i j _ hi hj => (int_dyn intVal 0 lit lit lit lit lit).1 i j hi hj, fun i j _ hi hj => (int_dyn (r := 6) (c := 6) intVal 0 lit lit lit lit lit).2 i j hi hj⟩
  (int_dyn intVal 1 lit lit lit lit lit) (show |(-2 : ℤ)| ≤ 2 ^ (52 + 1) by decide)
  (by have : ∀ i < 7, ∀ j < 6, |(-2 : ℤ)| * |intVal 1 i j| ≤ (2 : ℤ) ^ (52 + 1) := by decide +kernel
      exact fun i j hi hj => this i hi j hj)
  (by have : ∀ i < 7, ∀ j < 6, |(-2 : ℤ)| * ∑ k ∈ range 6, |intVal 1 i k| * |tri .lower false (intVal 0) k j| ≤ (2 : ℤ) ^ (52 + 1) := by decide +kernel
      exact fun i j hi hj => this i hi j hj)

/-- an upper triangular matrix in block 0 -/
def intUp (q i j : Nat) : ℤ := if q = 0 ∧ j < i then 0 else intVal q i j

example := C82_trmm_left (SS := 4) (m := intMem intUp) (alpha := -2)
  (A := ⟨.dynDense, .columnMajor, 5, 5, (64 * 0 : Nat)⟩) (B := ⟨.dynDense, .columnMajor, 5, 7, (64 * 1 : Nat)⟩) (C := ⟨.statDense, .columnMajor, 5, 7, (64 * 2 : Nat)⟩)
  ⟨by decide, rfl, rfl, memOf_live lit lit lit, memOf_live lit lit lit, memOf_live lit lit lit, apart_of lit, Or.inr (apart_of lit), fun h => by cases h⟩ lit
  (int_dyn intUp 0 lit lit lit lit lit) (int_dyn intUp 1 lit lit lit lit lit) (fun i k hk => if_pos ⟨rfl, hk⟩) (show |(-2 : ℤ)| ≤ 2 ^ (52 + 1) by decide)
  (by have : ∀ i < 5, ∀ j < 5, |(-2 : ℤ)| * |intUp 0 i j| ≤ (2 : ℤ) ^ (52 + 1) := by decide +kernel
      exact fun i j hi hj => this i hi j hj)
  (by have : ∀ i < 5, ∀ j < 7, |(-2 : ℤ)| * ∑ k ∈ range 5, |intUp 0 i k| * |intUp 1 k j| ≤ (2 : ℤ) ^ (52 + 1) := by decide +kernel
      exact fun i j hi hj => this i hi j hj)

/-- the upper triangular system with the solution x(i, j) = intVal 1 i j -/
def intSys (q i j : Nat) : ℤ := if q = 1 then ∑ k ∈ range 5, tri .upper false (intVal 0) i k * intVal 1 k j else intVal q i j

example : ∃ m' : Mem Dbl, trsmCall 4 .upper false ⟨.dynDense, .columnMajor, 5, 5, (64 * 0 : Nat)⟩ ⟨.dynDense, .columnMajor, 5, 7, (64 * 1 : Nat)⟩
      ⟨.statDense, .columnMajor, 5, 7, (64 * 2 : Nat)⟩ (intMem intSys) = .ok () m' ∧
    Contains 4 m' ⟨.statDense, .columnMajor, 5, 7, (64 * 2 : Nat)⟩ (fun i j => (ExactInts.num (intVal 1 i j) : Dbl)) :=
  C82_trsm (SS := 4) (m := intMem intSys) .upper false (a := intVal 0) (b := intSys 1)
    (A := ⟨.dynDense, .columnMajor, 5, 5, (64 * 0 : Nat)⟩) (B := ⟨.dynDense, .columnMajor, 5, 7, (64 * 1 : Nat)⟩) (X := ⟨.statDense, .columnMajor, 5, 7, (64 * 2 : Nat)⟩)
    ⟨by decide, memOf_live lit lit lit, memOf_live lit lit lit, memOf_live lit lit lit, apart_of lit, Or.inr (apart_of lit)⟩ lit
    ((int_dyn intSys 0 lit lit lit lit lit).1.tri _ _) (fun i k hi hk _ => intVal_le 0 lit i (Nat.lt_of_lt_of_le hi lit) k (Nat.lt_of_lt_of_le hk lit))
    (int_dyn intSys 1 lit lit lit lit lit)
    (by have : ∀ i < 5, intVal 0 i i ≠ 0 := by decide +kernel
        exact fun _ i hi => this i hi)
    (fun i j _ _ => rfl)
    (fun i j hi hj => intVal_le 1 lit i (Nat.lt_of_lt_of_le hi lit) j (Nat.lt_of_lt_of_le hj lit))
    (by have : ∀ i < 5, ∀ j < 7, ∑ k ∈ range 5, |tri .upper false (intVal 0) i k| * |intVal 1 k j| ≤ (2 : ℤ) ^ (52 + 1) := by decide +kernel
        exact fun i j hi hj => this i hi j hj)

/-- a lower triangular factor and the matrix it is the factor of -/
def intL (i j : Nat) : ℤ := if (i + j) % 2 = 0 then (1 + i + 2 * j : Nat) else -(1 + i + 2 * j : Nat)
def intA (i j : Nat) : ℤ := ∑ q ∈ range (j + 1), intL i q * intL j q

theorem intL_pos : ∀ q < 8, 0 < intL q q := by decide +kernel
theorem intL_le : ∀ i < 8, ∀ j < 8, ∑ q ∈ range (j + 1), |intL i q| * |intL j q| ≤ (2 : ℤ) ^ (52 + 1) := by decide +kernel

example : ∃ m' : Mem Dbl, potrfDenseCall 4 1 ⟨.dynDense, .columnMajor, 8, 8, (64 * 0 : Nat)⟩ ⟨.dynDense, .columnMajor, 8, 8, (64 * 1 : Nat)⟩ (intMem (fun _ => intA)) = .ok () m' ∧
    ContainsLower 4 m' ⟨.dynDense, .columnMajor, 8, 8, (64 * 1 : Nat)⟩ (fun i j => (ExactInts.num (intL i j) : Dbl)) :=
  C82_potrf_dense (SS := 4) (m := intMem (fun _ => intA)) (a := intA) (l := intL)
    (A := ⟨.dynDense, .columnMajor, 8, 8, (64 * 0 : Nat)⟩) (L := ⟨.dynDense, .columnMajor, 8, 8, (64 * 1 : Nat)⟩)
    ⟨by decide, rfl, rfl, memOf_live lit lit lit, memOf_live lit lit lit, Or.inr (apart_of lit)⟩ lit (potrfFits_square (by decide) (Or.inl rfl))
    (fun i j _ hi hj => sel_dyn (fun _ i j => (ExactInts.num (intA i j) : Dbl)) 0 lit lit lit lit i j hi hj) (fun q hq => intL_pos q hq) (fun _ _ _ _ _ => rfl)
    (fun i j _ hi hj => intL_le i hi j hj)

/-- the same matrix in a panel matrix with 6 rows -/
noncomputable def intPanMem : Mem Dbl := memOf 1000 (fun x => ExactInts.num (intA ((x / 24).toNat * 4 + (x % 4).toNat) (x % 24 / 4).toNat))

theorem intPan_has : Contains 4 intPanMem panA (fun i j => (ExactInts.num (intA i j) : Dbl)) := by
  have hadr : ∀ i < 6, ∀ j < 6, (panA.addr 4 i j / 24).toNat * 4 + (panA.addr 4 i j % 4).toNat = i ∧ (panA.addr 4 i j % 24 / 4).toNat = j := by decide +kernel
  refine memOf_contains' lit lit lit (fun i hi j hj => ?_)
  rw [(hadr i hi j hj).1, (hadr i hi j hj).2]

example : ∃ m' : Mem Dbl, potrfPanelCall 4 4 panA panL intPanMem = .ok () m' ∧ ContainsLower 4 m' panL (fun i j => (ExactInts.num (intL i j) : Dbl)) :=
  C82_potrf_panel (SS := 4) (KN := 4) (a := intA) (l := intL)
    ⟨by decide, rfl, rfl, memOf_live lit lit lit, memOf_live lit lit lit, Or.inr (apart_of lit)⟩ lit pan_fits
    (fun i j _ hi hj => intPan_has i j hi hj) (fun q hq => intL_pos q (Nat.lt_of_lt_of_le hq lit)) (fun _ _ _ _ _ => rfl)
    (fun i j _ hi hj => intL_le i (Nat.lt_of_lt_of_le hi lit) j (Nat.lt_of_lt_of_le hj lit))

end Blast
