import Verif.Cases.Demo
import Verif.Props.Trmm
import Verif.Props.TrsmDense
/-
Concrete cases of the theorems in Props/Trmm and Props/TrsmDense (SIMD width 4).
-/
namespace Blast
open Finset
variable {V : Type}

/-- contents that is known entry by entry -/
theorem memOf_contains' {SS : Nat} (hSS : 0 < SS) {n : Int} {f : Int → V} {c : Container} {a : Nat → Nat → V} (h2 : 0 ≤ c.data)
    (h3 : c.data + c.capacity SS ≤ n) (h : ∀ i < c.rows, ∀ j < c.cols, f (c.addr SS i j) = a i j) : Contains SS (memOf n f) c a := fun i j hi hj => by
  rw [memOf_contains hSS h2 h3 i j hi hj]; exact congrArg some (h i hi j hj)

theorem triArg_of {SS : Nat} (hSS : 0 < SS) {m : Mem V} {c d : Container} {a : Nat → Nat → V} {n r s : Nat} (uplo : Reg.UpLo) (diag : Bool)
    (h : Contains SS m c a) (ha : Apart SS c d) (hn : n ≤ c.rows) (hn' : n ≤ c.cols) (hr : r ≤ d.rows) (hs : s ≤ d.cols) :
    TriArg SS m (c.mptr SS) n uplo diag a (d.mptr SS) r s := fun i k hi hk _ => by
  refine ⟨h.holds i k (by omega) (by omega), ?_⟩
  rintro ⟨i', j', hi', hj', e⟩
  rw [← Container.addr_eq_mptr, ← Container.addr_eq_mptr] at e
  exact ha _ (c.addr_storage hSS (i := i) (j := k) (by omega) (by omega)) (e ▸ d.addr_storage hSS (i := i') (j := j') (by omega) (by omega))

/-! ### right multiplication: a 5 × 7 dense matrix times a 7 × 7 row-major panel matrix; cell x holds x -/

theorem trmmR_case : TrmmRArgs 4 demoMem ⟨.dynDense, .columnMajor, 5, 7, 200⟩ ⟨.statPanel, .rowMajor, 7, 7, 0⟩ ⟨.statDense, .columnMajor, 5, 7, 600⟩ :=
  ⟨by decide, rfl, rfl, memOf_live lit lit lit, memOf_live lit lit lit, memOf_live lit lit lit, apart_of lit, Or.inr (apart_of lit)⟩

theorem trmmR_a : Contains 4 demoMem ⟨.statPanel, .rowMajor, 7, 7, 0⟩ (fun i j => (((⟨.statPanel, .rowMajor, 7, 7, 0⟩ : Container).addr 4 i j : Int) : Rat)) :=
  memOf_contains lit lit lit

example := C13_trmm_right_value (2 : Rat) trmmR_case lit (fun k j hj hk => trmmR_a k j hk (lt_of_le_of_lt hj hk)) (memOf_contains lit lit lit)
example := C13_trmm_right_pointer_value (2 : Rat) (trmmR_case.pre lit) (triArg_of (by decide) .lower false trmmR_a trmmR_case.dA lit lit lit lit)
  (memOf_contains lit lit lit).holds
example := C13_trmm_right_bitwise (2 : Rat) (trmmR_case.pre lit)

/-- what it rejects: inconsistent sizes; an upper triangular A -/
example := (C14_trmm_right_rejects (SS := 4) (TR := 1) (m := demoMem) (B := ⟨.dynDense, .columnMajor, 5, 7, 200⟩) (A := ⟨.statPanel, .rowMajor, 7, 7, 0⟩)
  (C := ⟨.statDense, .columnMajor, 5, 6, 600⟩) (2 : Rat) .lower false).1 lit
example := (C14_trmm_right_rejects (SS := 4) (TR := 1) (m := demoMem) (B := ⟨.dynDense, .columnMajor, 5, 7, 200⟩) (A := ⟨.statPanel, .rowMajor, 7, 7, 0⟩)
  (C := ⟨.statDense, .columnMajor, 5, 7, 600⟩) (2 : Rat) .upper false).2 lit rfl

/-- with a unit diagonal: an 8 × 4 product terminates the program, a 3 × 7 product ignores the flag -/
example := C14_trmm_right_unit_diagonal_terminates (SS := 4) (TR := 1) (m := demoMem) (B := ⟨.dynDense, .columnMajor, 8, 4, 200⟩)
  (A := ⟨.statPanel, .rowMajor, 4, 4, 0⟩) (C := ⟨.statDense, .columnMajor, 8, 4, 600⟩) (2 : Rat) lit lit lit
example := C14_trmm_right_unit_diagonal_ignored (B := ⟨.dynDense, .columnMajor, 3, 7, 200⟩) (A := ⟨.statPanel, .rowMajor, 7, 7, 0⟩)
  (C := ⟨.statDense, .columnMajor, 3, 7, 600⟩) (SS := 4) (m := demoMem) (2 : Rat)
  ⟨by decide, rfl, rfl, memOf_live lit lit lit, memOf_live lit lit lit, memOf_live lit lit lit, apart_of lit, Or.inr (apart_of lit)⟩ lit (Or.inl lit) trmmR_a
  (memOf_contains lit lit lit)

/-! ### left multiplication: an upper triangular 5 × 5 dense matrix (7 on and above the diagonal, 0 below) times a 5 × 7 row-major panel matrix -/

/-- cells 0-39: the triangular matrix (spacing 8), the others: ones -/
def triMem : Mem Rat := memOf 1000 (fun x => if x < 40 then (if x % 8 ≤ x / 8 then 7 else 0) else 1)

theorem trmmL_case : TrmmLArgs 4 triMem ⟨.dynDense, .columnMajor, 5, 5, 0⟩ ⟨.statPanel, .rowMajor, 5, 7, 300⟩ ⟨.statDense, .columnMajor, 5, 7, 600⟩ :=
  ⟨by decide, rfl, rfl, memOf_live lit lit lit, memOf_live lit lit lit, memOf_live lit lit lit, apart_of lit, Or.inr (apart_of lit), fun _ h => by cases h⟩

theorem trmmL_a : Contains 4 triMem ⟨.dynDense, .columnMajor, 5, 5, 0⟩ (fun i j => if i ≤ j then 7 else 0) :=
  memOf_contains' lit lit lit (by decide +kernel)

theorem trmmL_zero : ∀ i k : Nat, k < i → (if i ≤ k then (7 : Rat) else 0) = 0 := fun i k h => if_neg (by omega)

example := C11_trmm_left_value (2 : Rat) trmmL_case lit trmmL_a trmmL_zero (memOf_contains lit lit lit)
example := C11_trmm_left_pointer_value (2 : Rat) (trmmL_case.pre lit) trmmL_a.holds trmmL_zero (memOf_contains lit lit lit).holds
example := C11_trmm_left_frame (2 : Rat) trmmL_case lit

/-- 8 × 8 times 8 × 4 in place: the part of A below the diagonal (here not zero) is ignored -/
theorem trmmL8_case : TrmmLArgs 4 demoMem ⟨.dynDense, .columnMajor, 8, 8, 0⟩ ⟨.statDense, .columnMajor, 8, 4, 600⟩ ⟨.statDense, .columnMajor, 8, 4, 600⟩ :=
  ⟨by decide, rfl, rfl, memOf_live lit lit lit, memOf_live lit lit lit, memOf_live lit lit lit, apart_of lit, Or.inl rfl, fun h => by cases h⟩

example := C12_trmm_left_ignores_lower (2 : Rat) trmmL8_case lit lit lit (memOf_contains lit lit lit) (memOf_contains lit lit lit)
example := C12_trmm_left_ignores_lower_pointer (2 : Rat) (trmmL8_case.pre lit) lit lit
  (triArg_of (by decide) .upper false (memOf_contains lit lit lit) trmmL8_case.dA lit lit lit lit) (memOf_contains lit lit lit).holds

example := (C14_trmm_left_rejects (SS := 4) (TR := 1) (m := demoMem) (A := ⟨.dynDense, .columnMajor, 8, 7, 0⟩) (B := ⟨.statDense, .columnMajor, 8, 4, 600⟩)
  (C := ⟨.statDense, .columnMajor, 8, 4, 600⟩) (2 : Rat) .upper false).1 lit
example := (C14_trmm_left_rejects (SS := 4) (TR := 1) (m := demoMem) (A := ⟨.dynDense, .columnMajor, 8, 8, 0⟩) (B := ⟨.statDense, .columnMajor, 8, 4, 600⟩)
  (C := ⟨.statDense, .columnMajor, 8, 4, 600⟩) (2 : Rat) .upper true).2 lit (Or.inl rfl)
example := (C14_trmm_left_rejects (SS := 4) (TR := 1) (m := demoMem) (A := ⟨.dynDense, .columnMajor, 8, 8, 0⟩) (B := ⟨.statDense, .columnMajor, 8, 4, 600⟩)
  (C := ⟨.statDense, .columnMajor, 8, 4, 600⟩) (2 : Rat) .lower false).2 lit (Or.inr rfl)

/-! ### triangular systems -/

/-- the upper triangular 5 × 5 system with 7 on and above the diagonal, right hand sides of ones (5 × 7), solved in place in a panel matrix -/
example : ∃ m' x, trsmPtr 4 5 7 .upper false ((⟨.dynDense, .columnMajor, 5, 5, 0⟩ : Container).mptr 4) ((⟨.statPanel, .rowMajor, 5, 7, 300⟩ : Container).mptr 4)
      ((⟨.statPanel, .rowMajor, 5, 7, 300⟩ : Container).mptr 4) triMem = .ok () m' ∧
    Holds 4 m' ((⟨.statPanel, .rowMajor, 5, 7, 300⟩ : Container).mptr 4) 5 7 x ∧
    (∀ i j, i < 5 → j < 7 → ∑ k ∈ range 5, tri .upper false (fun i j => if i ≤ j then (7 : Rat) else 0) i k * x k j = 1) := by
  have hb : Contains 4 triMem ⟨.statPanel, .rowMajor, 5, 7, 300⟩ (fun _ _ => 1) := memOf_contains' lit lit lit (by decide +kernel)
  obtain ⟨m', x, h1, h2, h3, _⟩ := C27_trsm_solves (SS := 4) (m := 5) (n := 7) .upper false
    (triArg_of (by decide) .upper false trmmL_a (apart_of (d := ⟨.statPanel, .rowMajor, 5, 7, 300⟩) lit) lit lit lit lit) (fun _ i _ => by show (if i ≤ i then (7 : Rat) else 0) ≠ 0; rw [if_pos le_rfl]; decide)
    (trmmL_case.lB.readable (by decide)) (Container.inj (by decide) _) hb.holds
    (fun i j i' j' a b c d e => Container.inj (SS := 4) (by decide) ⟨.statPanel, .rowMajor, 5, 7, 300⟩ i j i' j' a b c d e)
  exact ⟨m', x, h1, h2, h3⟩

/-- uniqueness, for the same matrix -/
example (x y : Nat → Rat) := C27_trsm_unique (m := 5) .upper false (a := fun i j => if i ≤ j then (7 : Rat) else 0) (fun _ i _ => by rw [if_pos le_rfl]; decide)
  (x := x) (y := y)

/-- the same system with one right hand side, a vector with stride 2 at 300, the solution at 700 with stride 3 -/
example := C28_trsv_solves (SS := 4) (n := 5) (A := (⟨.dynDense, .columnMajor, 5, 5, 0⟩ : Container).mptr 4) (b := .vec false false 300 2)
  (x := .vec false false 700 3) .upper (mem := triMem) (a := fun i j => if i ≤ j then 7 else 0) (bv := fun _ => 1)
  (fun i k hi hk _ => ⟨trmmL_a.holds i k hi hk, by
    have : ∀ i < 5, ∀ k < 5, ∀ i' < 5, ((⟨.dynDense, .columnMajor, 5, 5, 0⟩ : Container).mptr 4).addr 4 (i : Nat) (k : Nat) ≠
      (VPtr.vec false false 700 3).addr 4 (i' : Nat) := by decide +kernel
    exact fun i' hi' => this i hi k hk i' hi'⟩)
  (fun i _ => by rw [if_pos le_rfl]; decide)
  (by
    have : ∀ i < 5, (triMem ((VPtr.vec false false 700 3).addr 4 (i : Nat))).isSome = true := by decide +kernel
    exact fun i hi => this i hi)
  (by
    have : ∀ i < 5, ∀ i' < 5, (VPtr.vec false false 700 3).addr 4 (i : Nat) = (VPtr.vec false false 700 3).addr 4 (i' : Nat) → i = i' := by decide +kernel
    exact fun i i' hi hi' => this i hi i' hi')
  (by
    have : ∀ i < 5, triMem ((VPtr.vec false false 300 2).addr 4 (i : Nat)) = some 1 := by decide +kernel
    exact fun i hi => this i hi)
  (by
    have : ∀ i < 5, ∀ i' < 5, (VPtr.vec false false 300 2).addr 4 (i : Nat) = (VPtr.vec false false 700 3).addr 4 (i' : Nat) → i = i' := by decide +kernel
    exact fun i i' hi hi' => this i hi i' hi')

end Blast
