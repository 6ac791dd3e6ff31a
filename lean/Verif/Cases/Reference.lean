import Verif.Cases.Trmm
import Verif.Cases.Accuracy
import Verif.Props.Reference
import Verif.Props.ReferenceAccuracy
import Verif.Props.Frame
/- Concrete cases for the theorems of `Verif/Props/Reference.lean` and `Verif/Props/ReferenceAccuracy.lean`. -/
set_option linter.unusedSectionVars false
namespace Blast
open Finset
variable {V : Type}

theorem memOf_readable {SS : Nat} (hSS : 0 < SS) {n : Int} {f : Int → V} {c : Container} (h2 : 0 ≤ c.data) (h3 : c.data + c.capacity SS ≤ n) :
    Readable SS (memOf n f) (c.mptr SS) c.rows c.cols := fun i j hi hj => by
  rw [(memOf_contains hSS h2 h3).holds i j hi hj]; rfl

theorem sameOrDisj_of {SS : Nat} (hSS : 0 < SS) {c d : Container} (h : c.data + c.capacity SS ≤ d.data) (hr : c.rows = d.rows) (hc : c.cols = d.cols) :
    SameOrDisj SS (c.mptr SS) (d.mptr SS) d.rows d.cols := fun i j i' j' hi hj hi' hj' e =>
  absurd e ((apart_of h).disj hSS i j i' j' (by omega) (by omega) hi' hj')

theorem sameOrDisj_self {SS : Nat} (hSS : 0 < SS) (c : Container) : SameOrDisj SS (c.mptr SS) (c.mptr SS) c.rows c.cols := Container.inj hSS c

/-! ### exact arithmetic: A is a 5 × 5 row-major panel matrix, B a 5 × 3 row-major dense matrix, X a 5 × 3 panel matrix; cell x holds x -/

def rfA : Container := ⟨.statPanel, .rowMajor, 5, 5, 8⟩
def rfA3 : Container := ⟨.statPanel, .rowMajor, 3, 3, 8⟩
def rfB : Container := ⟨.dynDense, .rowMajor, 5, 3, 200⟩
def rfX : Container := ⟨.dynPanel, .columnMajor, 5, 3, 400⟩

theorem rfA_has : Contains 4 demoMem rfA (fun i j => ((rfA.addr 4 i j : Int) : Rat)) := memOf_contains lit lit lit
theorem rfA3_has : Contains 4 demoMem rfA3 (fun i j => ((rfA3.addr 4 i j : Int) : Rat)) := memOf_contains lit lit lit
theorem rfB_has : Contains 4 demoMem rfB (fun i j => ((rfB.addr 4 i j : Int) : Rat)) := memOf_contains lit lit lit
theorem rfX_has : Contains 4 demoMem rfX (fun i j => ((rfX.addr 4 i j : Int) : Rat)) := memOf_contains lit lit lit
theorem rfX_readable : Readable 4 demoMem (rfX.mptr 4) 5 3 := memOf_readable (c := rfX) lit lit lit
theorem rf_tri (uplo : Reg.UpLo) (diag : Bool) : TriArg 4 demoMem (rfA.mptr 4) 5 uplo diag (fun i j => ((rfA.addr 4 i j : Int) : Rat)) (rfX.mptr 4) 5 3 :=
  triArg_of (d := rfX) (by decide) uplo diag rfA_has (apart_of lit) lit lit lit lit
theorem rf_tri3 (uplo : Reg.UpLo) (diag : Bool) : TriArg 4 demoMem (rfA3.mptr 4) 3 uplo diag (fun i j => ((rfA3.addr 4 i j : Int) : Rat)) (rfX.mptr 4) 5 3 :=
  triArg_of (d := rfX) (by decide) uplo diag rfA3_has (apart_of lit) lit lit lit lit
theorem rf_diag : ∀ i < 5, ((rfA.addr 4 i i : Int) : Rat) ≠ 0 := by decide +kernel
theorem rf_diag3 : ∀ i < 3, ((rfA3.addr 4 i i : Int) : Rat) ≠ 0 := by decide +kernel
theorem rf_inj : Inj 4 (rfX.mptr 4) 5 3 := Container.inj (by decide) rfX
theorem rf_BX : SameOrDisj 4 (rfB.mptr 4) (rfX.mptr 4) 5 3 := sameOrDisj_of (c := rfB) (d := rfX) (by decide) lit rfl rfl

example := C29_trsm_left .lower false (2 : Rat) (rf_tri _ _) (fun _ => rf_diag) rfX_readable rf_inj rfB_has.holds rf_BX
example := C29_trsm_left .upper true (2 : Rat) (rf_tri _ _) (fun h => by cases h) rfX_readable rf_inj rfB_has.holds rf_BX
/-- in place -/
example := C29_trsm_left .upper false (2 : Rat) (rf_tri _ _) (fun _ => rf_diag) rfX_readable rf_inj rfX_has.holds (sameOrDisj_self (by decide) rfX)
example := C29_trsm_right .lower false (2 : Rat) (rf_tri3 _ _) (fun _ => rf_diag3) rfX_readable rf_inj rfB_has.holds rf_BX
example := C29_trsm_right .upper true (2 : Rat) (rf_tri3 _ _) (fun h => by cases h) rfX_readable rf_inj rfX_has.holds (sameOrDisj_self (by decide) rfX)
example := C30_trmm_left (by decide) (by decide) (by decide) (by decide) .lower false (2 : Rat) (rf_tri _ _) rfX_readable rf_inj rfB_has.holds rf_BX
example := C30_trmm_left (by decide) (by decide) (by decide) (by decide) .upper true (2 : Rat) (rf_tri _ _) rfX_readable rf_inj rfX_has.holds (sameOrDisj_self (by decide) rfX)
example := C30_trmm_right (by decide) (by decide) (by decide) (by decide) .upper false (2 : Rat) (rf_tri3 _ _) rfX_readable rf_inj rfB_has.holds rf_BX
example := C30_trmm_right (by decide) (by decide) (by decide) (by decide) .lower true (2 : Rat) (rf_tri3 _ _) rfX_readable rf_inj rfX_has.holds (sameOrDisj_self (by decide) rfX)

/-- rfX := 2 rfA rfB + 3 rfX -/
example := C46_reference_gemm (SS := 4) (by decide) (A := rfA.mptr 4) (B := rfB.mptr 4) (C := rfX.mptr 4) (D := rfX.mptr 4) (by decide) (by decide) (by decide) (by decide) (2 : Rat) 3
  rfA_has.holds rfB_has.holds rfX_has.holds rfX_readable rf_inj ((apart_of (c := rfA) (d := rfX) lit).disj (by decide)) ((apart_of (c := rfB) (d := rfX) lit).disj (by decide))
  (sameOrDisj_self (by decide) rfX)

/-- rfX := rfB + 2 x yᵀ with vectors at 100 and 120 -/
theorem rf_vec {n : Nat} {p : Int} (hn : n ≤ 5) (h0 : 0 ≤ p) (hp : p ≤ 120) :
    VHolds 4 demoMem (.vec true true p 1) n (fun i => ((p + (i : Int) * 1 : Int) : Rat)) ∧ ∀ i : Nat, i < n → ¬ Cells 4 (rfX.mptr 4) 5 3 ((VPtr.vec true true p 1).addr 4 i) := by
  refine ⟨fun i hi => memOf_at (f := fun x => (x : Rat)) (by simp [VPtr.addr]; omega) (by simp [VPtr.addr]; omega), fun i hi hc => ?_⟩
  replace hc := (cells_iff (SS := 4) rfX _).1 hc
  have h1 : (rfX.data : Int) ≤ _ := (IsElem.storage (SS := 4) (by decide) hc).1
  have h2 : rfX.data = 400 := rfl
  simp [VPtr.addr] at h1
  omega
example := C46_reference_ger (SS := 4) (by decide) (A := rfB.mptr 4) (B := rfX.mptr 4) (x := .vec true true 100 1) (y := .vec true true 120 1) (m := 5) (n := 3) (by decide) (by decide) (2 : Rat) trivial trivial (rf_vec (n := 5) (p := 100) lit lit lit).1
  (rf_vec (n := 3) (p := 120) lit lit lit).1 rfB_has.holds rfX_readable rf_inj rf_BX (rf_vec (n := 5) (p := 100) lit lit lit).2 (rf_vec (n := 3) (p := 120) lit lit lit).2
example := C46_reference_axpy (SS := 4) (by decide) (A := rfB.mptr 4) (B := rfX.mptr 4) (C := rfX.mptr 4) (by decide) (by decide) (by decide) (2 : Rat) rfB_has.holds rfX_has.holds rfX_readable rf_inj
  rf_BX (sameOrDisj_self (by decide) rfX)
example := C07_gemm_agrees_with_reference (2 : Rat) 3 demo_args lit

/-! ### double precision -/

theorem flA_has : Contains 4 flMem rfA (fun i j => flOf (rfA.addr 4 i j)) := fl_contains lit lit
theorem flA3_has : Contains 4 flMem rfA3 (fun i j => flOf (rfA3.addr 4 i j)) := fl_contains lit lit
theorem flB_has : Contains 4 flMem rfB (fun i j => flOf (rfB.addr 4 i j)) := fl_contains lit lit
theorem flX_has : Contains 4 flMem rfX (fun i j => flOf (rfX.addr 4 i j)) := fl_contains lit lit
theorem flX_readable : Readable 4 flMem (rfX.mptr 4) 5 3 := memOf_readable (c := rfX) lit lit lit
theorem fl_vec {n : Nat} {p : Int} (hn : n ≤ 5) (h0 : 0 ≤ p) (hp : p ≤ 120) : VHolds 4 flMem (.vec true true p 1) n (fun i => flOf (p + (i : Int) * 1)) :=
  fun i hi => memOf_at (f := flOf) (by simp [VPtr.addr]; omega) (by simp [VPtr.addr]; omega)

example := C63_reference_gemm_accuracy (u := flU 52) (SS := 4) (by decide) (A := rfA.mptr 4) (B := rfB.mptr 4) (C := rfX.mptr 4) (D := rfX.mptr 4) (by decide) (by decide) (by decide) (by decide)
  (flOf 2) (flOf 3) flA_has.holds flB_has.holds flX_has.holds flX_readable rf_inj ((apart_of (c := rfA) (d := rfX) lit).disj (by decide))
  ((apart_of (c := rfB) (d := rfX) lit).disj (by decide)) (sameOrDisj_self (by decide) rfX)
example := C63_reference_ger_accuracy (u := flU 52) (SS := 4) (by decide) (A := rfB.mptr 4) (B := rfX.mptr 4) (x := .vec true true 100 1) (y := .vec true true 120 1) (m := 5) (n := 3) (by decide) (by decide) (flOf 2) trivial trivial
  (fl_vec (n := 5) (p := 100) lit lit lit) (fl_vec (n := 3) (p := 120) lit lit lit) flB_has.holds flX_readable rf_inj rf_BX (rf_vec (n := 5) (p := 100) lit lit lit).2
  (rf_vec (n := 3) (p := 120) lit lit lit).2
example := C63_reference_axpy_accuracy (u := flU 52) (SS := 4) (by decide) (A := rfB.mptr 4) (B := rfX.mptr 4) (C := rfX.mptr 4) (by decide) (by decide) (by decide) (flOf 2) flB_has.holds
  flX_has.holds flX_readable rf_inj rf_BX (sameOrDisj_self (by decide) rfX)
example := C63_reference_trmm_left_accuracy (u := flU 52) (SS := 4) (by decide) (by decide) (by decide) (by decide) .lower false (flOf 2)
  (triArg_of (d := rfX) (by decide) _ _ flA_has (apart_of lit) lit lit lit lit) flX_readable rf_inj flB_has.holds rf_BX
example := C63_reference_trmm_right_accuracy (u := flU 52) (SS := 4) (by decide) (by decide) (by decide) (by decide) .upper true (flOf 2)
  (triArg_of (d := rfX) (by decide) _ _ flA3_has (apart_of lit) lit lit lit lit) flX_readable rf_inj flB_has.holds rf_BX

/-! ### gemm against the reference, with the tolerances of the tests -/

noncomputable def halfMem : Mem (Fl 52) := memOf 1000 (fun _ => (show Fl 52 from (1 / 2 : ℝ)))
theorem half_args {D : Container} (h1 : D.data % 4 = 0) (hso : D.so = .columnMajor) (h2 : 600 ≤ D.data) (h3 : D.data + D.capacity 4 ≤ 1000) : GemmArgs 4 halfMem demoA demoB demoC D :=
  ⟨by decide, rfl, rfl, hso, memOf_live lit lit lit, memOf_live lit lit lit, memOf_live lit lit lit, memOf_live h1 (by omega) h3,
    apart_of (le_trans (by decide : _ ≤ (600 : Int)) h2), apart_of (le_trans (by decide : _ ≤ (600 : Int)) h2), Or.inr (apart_of (le_trans (by decide : _ ≤ (600 : Int)) h2))⟩
theorem half_has {c : Container} (h2 : 0 ≤ c.data) (h3 : c.data + c.capacity 4 ≤ 1000) : Contains 4 halfMem c (fun _ _ => (show Fl 52 from (1 / 2 : ℝ))) :=
  memOf_contains (by decide) h2 h3
theorem half_le : |(show Fl 52 from (1 / 2 : ℝ))| ≤ 1 := by
  have : |(1 / 2 : ℝ)| ≤ 1 := by rw [abs_of_pos (by norm_num)]; norm_num
  exact this

example := C63_gemm_agrees_with_reference (u := flU 52) (show Fl 52 from (1 / 2 : ℝ)) (show Fl 52 from (1 / 2 : ℝ)) (1 / 10 ^ 11) (1 / 10 ^ 11) (half_args (D := demoD) lit rfl lit lit) lit
  (half_args (D := demoE) lit rfl lit lit) lit (apart_of lit) (apart_of lit) (half_has lit lit) (half_has lit lit) (half_has lit lit) (by positivity) (by positivity)
example := C63_gemm_test_detects_errors (u := flU 52) (show Fl 52 from (1 / 2 : ℝ)) (show Fl 52 from (1 / 2 : ℝ)) (1 / 10 ^ 11) (1 / 10 ^ 11) (D := demoD)
  (half_args (D := demoE) lit rfl lit lit) lit (apart_of lit) (half_has lit lit) (half_has lit lit) (half_has lit lit) (half_has lit lit) ⟨rfl, rfl⟩ (by positivity) (by positivity)
example : ∃ m', gemmTest 4 (show Fl 52 from (1 / 2 : ℝ)) demoA demoB (show Fl 52 from (1 / 2 : ℝ)) demoC demoD demoE (1 / 10 ^ 11) (1 / 10 ^ 11) halfMem = .ok .success m' :=
  C63_gemm_test_passes_double (u := flU 52) _ _ _ _ (half_args (D := demoD) lit rfl lit lit) lit
    (half_args (D := demoE) lit rfl lit lit) lit (apart_of lit) (apart_of lit) (half_has lit lit) (half_has lit lit) (half_has lit lit)
    (by have h : ((1 / 2 : ℝ) ^ (52 + 1) : ℝ) ≤ 1 / 2 ^ 53 := by norm_num
        exact h) le_rfl (by positivity) (by
      have h : (1 / 10 ^ 11 : ℝ) ≤ 1 / 10 ^ 3 := by norm_num
      exact h) (by decide) half_le half_le (fun _ _ => half_le) (fun _ _ => half_le) (fun _ _ => half_le)
end Blast
