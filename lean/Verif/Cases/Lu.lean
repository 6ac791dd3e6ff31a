import Verif.Cases.Trmm
import Verif.Props.Lu
import Verif.Props.LuSafe
/- Concrete cases for the theorems of `Verif/Props/Lu.lean` and `Verif/Props/LuSafe.lean`. -/
set_option linter.unusedSectionVars false
namespace Blast
open Finset

/-- the 5 × 3 matrix with 5 on the "diagonal" (3, 0), (1, 1), (4, 2) and 1 elsewhere in a dense column-major or row-major object at 0 -/
def luVal (i j : Nat) : Rat := if i = 3 ∧ j = 0 ∨ i = 1 ∧ j = 1 ∨ i = 4 ∧ j = 2 then 5 else 1
def luCm : Container := ⟨.dynDense, .columnMajor, 5, 3, 0⟩
def luRm : Container := ⟨.dynDense, .rowMajor, 5, 3, 0⟩
def luCmMem : Mem Rat := memOf 1000 (fun x => if x = 3 ∨ x = 9 ∨ x = 20 then 5 else 1)
def luRmMem : Mem Rat := memOf 1000 (fun x => if x = 12 ∨ x = 5 ∨ x = 18 then 5 else 1)

theorem luCm_live : Live 4 luCmMem luCm := memOf_live lit lit lit
theorem luRm_live : Live 4 luRmMem luRm := memOf_live lit lit lit
theorem luCm_has : Contains 4 luCmMem luCm luVal := memOf_contains' lit lit lit (by decide +kernel)
theorem luRm_has : Contains 4 luRmMem luRm luVal := memOf_contains' lit lit lit (by decide +kernel)
theorem luCm_pre : GetrfPre 4 1 5 3 (luCm.mptr 4) luCmMem := LuPre.of_live (A := luCm) (by decide) rfl rfl luCm_live

theorem lu_indep : ColsIndep 5 (min 5 3) luVal := by
  intro x hx j hj
  have h0 := hx 0 (by decide)
  have h1 := hx 1 (by decide)
  have h3 := hx 3 (by decide)
  have h4 := hx 4 (by decide)
  simp [luVal, sum_range_succ] at h0 h1 h3 h4
  have hj : j < 3 := hj
  rcases j with _ | _ | _ | j
  · linarith
  · linarith
  · linarith
  · omega

/-! ### the factorizations return for this matrix; the theorems about the returned factors apply -/

theorem luCm_returns : ∃ p m', getf2Ptr 4 1 5 3 (luCm.mptr 4) id luCmMem = .ok p m' := by
  rcases C21_getf2_singular luCm_pre.toLuPre luCm_has.holds id with h | h
  · exact h.2
  · exact absurd lu_indep h.1

theorem luCm_getrf_returns : ∃ p m', getrfPtr 4 1 5 3 (luCm.mptr 4) id luCmMem = .ok p m' := by
  rcases C21_getrf_singular luCm_pre luCm_has.holds id with h | h
  · exact h.2
  · exact absurd lu_indep h.1

theorem luRm_returns : ∃ p m', getf2Row 4 (· / ·) (luRm.mat 4) id luRmMem = .ok p m' := by
  rcases C21_getf2_row_major_singular (SS := 4) (by decide) (dv := (· / ·)) (fun _ _ _ => rfl) (A := luRm.mat 4) rfl (Container.inj (by decide) luRm) luRm_has.holds id with h | h
  · exact h.2
  · exact absurd lu_indep h.1

example : ∃ p m' b, getf2Ptr 4 1 5 3 (luCm.mptr 4) id luCmMem = .ok p m' ∧ IsLU 5 3 luVal b p := by
  obtain ⟨p, m', h⟩ := luCm_returns
  obtain ⟨b, h1, h2, _⟩ := C19_getf2_factorizes luCm_pre.toLuPre luCm_has.holds id h
  exact ⟨p, m', b, h, h2⟩
example : ∃ p m' b, getf2Row 4 (· / ·) (luRm.mat 4) id luRmMem = .ok p m' ∧ IsLU 5 3 luVal b p := by
  obtain ⟨p, m', h⟩ := luRm_returns
  obtain ⟨b, h1, h2, _⟩ := C19_getf2_row_major_factorizes (SS := 4) (by decide) (fun _ _ _ => rfl) (A := luRm.mat 4) rfl (Container.inj (by decide) luRm) luRm_has.holds id h
  exact ⟨p, m', b, h, h2⟩
example : ∃ p m' b, getf2Ptr 4 1 5 3 (luCm.mptr 4) id luCmMem = .ok p m' ∧ Contains 4 m' luCm b ∧ IsLU 5 3 luVal b p ∧ OnlyElemsChange 4 luCmMem m' luCm := by
  obtain ⟨p, m', h⟩ := luCm_returns
  obtain ⟨b, h1⟩ := C19_getf2_padded (by decide) rfl rfl luCm_live luCm_has id h
  exact ⟨p, m', b, h, h1⟩
example : ∃ p m', getf2Ptr 4 1 5 3 (luCm.mptr 4) id luCmMem = .ok p m' ∧ (∀ k, k < min 5 3 → k ≤ p k ∧ p k < 5) := by
  obtain ⟨p, m', h⟩ := luCm_returns
  exact ⟨p, m', h, (C20_getf2_pivot_bounds luCm_pre.toLuPre luCm_has.holds id h).1⟩
example : ∃ p m', getf2Row 4 (· / ·) (luRm.mat 4) id luRmMem = .ok p m' ∧ (∀ k, k < min 5 3 → k ≤ p k ∧ p k < 5) := by
  obtain ⟨p, m', h⟩ := luRm_returns
  exact ⟨p, m', h, (C20_getf2_row_major_pivot_bounds (SS := 4) (by decide) (fun _ _ _ => rfl) (A := luRm.mat 4) rfl (Container.inj (by decide) luRm) luRm_has.holds id h).1⟩
example : ∃ p m', getrfPtr 4 1 5 3 (luCm.mptr 4) id luCmMem = .ok p m' ∧ (∀ k, k < min 5 3 → k ≤ p k ∧ p k < 5) := by
  obtain ⟨p, m', h⟩ := luCm_getrf_returns
  exact ⟨p, m', h, (C20_getrf_pivot_bounds luCm_pre luCm_has.holds id h).1⟩
example : ∃ p m' b, getrfPtr 4 1 5 3 (luCm.mptr 4) id luCmMem = .ok p m' ∧ IsLU 5 3 luVal b p := by
  obtain ⟨p, m', h⟩ := luCm_getrf_returns
  obtain ⟨b, h1, h2, _⟩ := C22_getrf_factorizes luCm_pre luCm_has.holds id h
  exact ⟨p, m', b, h, h2⟩
example := C22_getrf_equals_getf2 luCm_pre luCm_pre.toLuPre luCm_has.holds luCm_has.holds id
example := C22_getrf_padded (by decide) rfl rfl luCm_live luCm_has id

/-- a singular 4 × 4 matrix (all ones): both factorizations throw -/
def luOnes : Container := ⟨.statDense, .columnMajor, 4, 4, 100⟩
theorem luOnes_pre : GetrfPre 4 1 4 4 (luOnes.mptr 4) luCmMem := LuPre.of_live (A := luOnes) (by decide) rfl rfl (memOf_live lit lit lit)
theorem luOnes_has : Contains 4 luCmMem luOnes (fun _ _ => 1) := memOf_contains' lit lit lit (by decide +kernel)
example : ∃ m', getf2Ptr 4 1 4 4 (luOnes.mptr 4) id luCmMem = .throw .invalidArgument m' := by
  rcases C21_getf2_singular luOnes_pre.toLuPre luOnes_has.holds id with h | ⟨_, m', h, _⟩
  · have := h.1 (fun j => if j = 0 then 1 else if j = 1 then -1 else 0) (fun i _ => by simp [sum_range_succ]) 0 (by decide)
    simp at this
  · exact ⟨m', h⟩
example : ¬ ∃ p m', getf2Ptr 4 1 4 4 (luOnes.mptr 4) id luCmMem = .ok p m' := by
  rw [C21_getf2_returns_iff_invertible luOnes_pre.toLuPre luOnes_has.holds id, not_not]
  exact Matrix.det_zero_of_row_eq (i := 0) (j := 1) (by decide) rfl

/-! ### row-major getrf -/

example := C23_getrf_row_major_no_pivoting (SS := 4) (dv := (· / ·)) (fun _ _ _ => rfl) (A := luRm.mat 4) (Container.inj (by decide) luRm) luRm_has.holds id
def luSwapMem : Mem Rat := memOf 1000 (fun x => if x = 1 ∨ x = 4 then 1 else 0)
example := C23_getrf_row_major_fails (SS := 4) (· / ·) (p := (⟨.dynDense, .rowMajor, 2, 2, 0⟩ : Container).mptr 4) (m0 := luSwapMem)
  (Container.inj (by decide) ⟨.dynDense, .rowMajor, 2, 2, 0⟩)
  (memOf_contains' (c := ⟨.dynDense, .rowMajor, 2, 2, 0⟩) (a := fun i j => if i = j then 0 else 1) lit lit lit (by decide +kernel)).holds id

/-! ### swap, laswp, iamax -/

/-- a vector of 5 elements and every eighth cell (a row of a column-major matrix with spacing 8) -/
def swX : VArg := ⟨.vec true true 0 1, 5⟩
def swY : VArg := ⟨.vec false false 100 8, 5⟩
theorem sw_holds {v : VArg} (h : ∀ i < v.n, luCmMem (v.p.addr 4 i) = some (luCmMem (v.p.addr 4 i)).get!) : VHolds 4 luCmMem v.p v.n (fun i => (luCmMem (v.p.addr 4 i)).get!) :=
  fun i hi => h i hi
theorem vec_plain {st al : Bool} {p s : Int} : (VPtr.vec st al p s).Plain 4 := fun i => by simp [VPtr.unal, VPtr.off, VPtr.addr]
example := C24_swap (SS := 4) (x := swX) (y := swY) (m := luCmMem) vec_plain vec_plain (sw_holds (by decide +kernel)) (sw_holds (by decide +kernel))
  (fun i j _ _ h => by simp [swX, VPtr.addr] at h; omega) (fun i j _ _ h => by simp [swY, VPtr.addr] at h; omega) (fun i j hi hj h => by
    simp [swX, swY, VPtr.addr] at hi hj h; omega)
example := C24_swap_twice (SS := 4) (x := swX) (y := swY) (m := luCmMem) vec_plain vec_plain (sw_holds (by decide +kernel)) (sw_holds (by decide +kernel)) rfl
  (fun i j _ _ h => by simp [swX, VPtr.addr] at h; omega) (fun i j _ _ h => by simp [swY, VPtr.addr] at h; omega) (fun i j hi hj h => by
    simp [swX, swY, VPtr.addr] at hi hj h; omega)
example := C24_laswp (SS := 4) (k0 := 1) (k1 := 4) (by decide) (A := luCm.mptr 4) rfl luCm_has.holds (Container.inj (by decide) luCm) (by decide) (by decide) (ipiv := fun q => 4 - q)
  (fun q _ _ => by show 4 - q < 5; omega)
/-- only ipiv[1], ipiv[2], ipiv[3] are used -/
example := C24_laswp_ipiv_range (V := Rat) (SS := 4) (N := 3) (k0 := 1) (k1 := 4) (A := luCm.mptr 4) (ipiv := fun q => 4 - q) (ipiv' := fun q => if q = 0 then 100 else 4 - q)
  (fun q h _ => by rw [if_neg (by omega)])
example := C24_row_swaps_undone (fun q => 4 - q) 1 3 luVal

example := C25_iamax (SS := 4) (x := swX) (m := luCmMem) vec_plain (sw_holds (by decide +kernel)) (by decide)
example := C25_iamax (SS := 4) (x := swY) (m := luCmMem) vec_plain (sw_holds (by decide +kernel)) (by decide)
example := C25_iamax_empty (V := Rat) (SS := 4) (x := ⟨.vec true true 0 1, 0⟩) rfl luCmMem
example := C25_iamax_scan (SS := 4) (n := 5) (x := swX.p) (m := luCmMem) vec_plain (sw_holds (v := swX) (by decide +kernel)) (by decide)

/-! ### C68 -/

example := C68_getf2_safe (by decide) rfl rfl luCm_live id
example := C68_getf2_row_major_safe (SS := 4) (by decide) (· / ·) (A := luRm) rfl luRm_live id
example := C68_getrf_safe (by decide) rfl rfl luCm_live id
example := C68_getrf_row_major_safe (SS := 4) (by decide) (· / ·) luRm_live id
example := C68_solve_safe (SS := 4) (m0 := luCmMem) (A := ⟨.dynDense, .columnMajor, 5, 5, 0⟩) (B := ⟨.statDense, .rowMajor, 5, 3, 200⟩) (by decide) rfl rfl (memOf_live lit lit lit) rfl
  (memOf_live lit lit lit) (apart_of lit) rfl rfl id
example := C68_getf2_nan_returns (V := Rat) (SS := 4) (m0 := memOf 100 (fun _ => .nan)) (A := ⟨.dynDense, .columnMajor, 5, 3, 0⟩) (by decide) rfl rfl (memOf_live lit lit lit)
  (memOf_contains lit lit lit) id
end Blast
