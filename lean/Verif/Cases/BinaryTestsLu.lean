import Verif.Cases.BinaryTests
import Verif.Cases.BinaryLu
import Verif.Cases.Selection
import Verif.Props.BinaryTestsLu
/-
Cases of Props/BinaryTestsLu: a 5 × 4 matrix with elements 1 and 1/2 at address 0, its copy at address 64; a row-major one with elements equal to 1.
-/
namespace Blast
open Bin

noncomputable def luDrawn (i j : Nat) : Bin binary64 := if (i * j + i) % 2 = 0 then .fin false 1 else .fin false (1 / 2)
theorem luDrawn_num (i j : Nat) : (luDrawn i j).IsNum ∧ (luDrawn i j).Finite ∧ |(luDrawn i j).real| ≤ 1 := by
  unfold luDrawn
  split
  · exact ⟨fun _ => by rw [show (Bin.fin false 1 : Bin binary64).real = 1 by simp [Bin.real]]; exact one_rep, trivial, by simp [Bin.real]⟩
  · refine ⟨fun _ => ?_, trivial, ?_⟩
    · rw [show (Bin.fin false (1 / 2) : Bin binary64).real = 1 / 2 by simp [Bin.real]]
      exact ⟨⟨1, -1, by norm_num [binary64], by decide, by decide, by norm_num⟩, fun h => absurd rfl h⟩
    · rw [show (Bin.fin false (1 / 2) : Bin binary64).real = 1 / 2 by simp [Bin.real]]
      norm_num [abs_of_pos]

abbrev luTA : Container := ⟨.dynDense, .columnMajor, 5, 4, (64 * 0 : Nat)⟩
abbrev luTO : Container := ⟨.dynDense, .columnMajor, 5, 4, (64 * 1 : Nat)⟩

theorem lu_tol {K k : Nat} (hK : K ≤ 5) (hk : 3 ≤ k) (hk7 : k ≤ 7) : TolLu binary64 K k tol11 tol11 ∧ (2 : ℝ) ^ (K + 1) < binary64.big :=
  C92_lu_sizes tol11 tol11 tol11_val.1 tol11_val.1 tol11_val.2 ⟨le_trans (by norm_num) tol11_val.2.1, tol11_val.2.2⟩ hK hk hk7

example (ip : Nat → Nat) := C92_getf2 (F := binary64) (SS := 4) (k := 6) (m0 := selMem (fun _ => luDrawn)) (A := luTA) (O := luTO) (a := luDrawn) (atol := tol11) (rtol := tol11) C86_wide.1 (by decide) rfl rfl (memOf_live lit lit lit) rfl ⟨rfl, rfl⟩ (apart_of lit)
  (sel_dyn _ 0 lit lit lit lit) (sel_dyn _ 1 lit lit lit lit) ip (fun i j _ _ => (luDrawn_num i j).1) (fun i j _ _ => (luDrawn_num i j).2) (lu_tol (by decide) (by decide) (by decide)).1
  (lu_tol (k := 6) (by decide) (by decide) (by decide)).2
example (ip : Nat → Nat) := C92_getrf (F := binary64) (SS := 4) (k := 6) (m0 := selMem (fun _ => luDrawn)) (A := luTA) (O := luTO) (a := luDrawn) (atol := tol11) (rtol := tol11) C86_wide.1 (by decide) rfl rfl (memOf_live lit lit lit) rfl ⟨rfl, rfl⟩ (apart_of lit)
  (sel_dyn _ 0 lit lit lit lit) (sel_dyn _ 1 lit lit lit lit) ip (fun i j _ _ => (luDrawn_num i j).1) (fun i j _ _ => (luDrawn_num i j).2) (lu_tol (by decide) (by decide) (by decide)).1
  (lu_tol (k := 6) (by decide) (by decide) (by decide)).2

/-- row-major, 4 × 5, address 0 and 64; the elements depend on the column only -/
abbrev luTAr : Container := ⟨.dynDense, .rowMajor, 4, 5, 0⟩
abbrev luTOr : Container := ⟨.dynDense, .rowMajor, 4, 5, 64⟩
noncomputable def luRmDraws : Mem (Bin binary64) := memOf 1000 (fun x => luDrawn (x % 8).toNat 0)
theorem luRmDraws_has : Contains 4 luRmDraws luTAr (fun _ j => luDrawn j 0) ∧ Contains 4 luRmDraws luTOr (fun _ j => luDrawn j 0) := by
  have h1 : ∀ i < 4, ∀ j < 5, (luTAr.addr 4 i j % 8).toNat = j := by decide +kernel
  have h2 : ∀ i < 4, ∀ j < 5, (luTOr.addr 4 i j % 8).toNat = j := by decide +kernel
  constructor
  · intro i j hi hj
    rw [show luRmDraws (luTAr.addr 4 i j) = some (luDrawn (luTAr.addr 4 i j % 8).toNat 0) from memOf_contains (c := luTAr) lit lit lit i j hi hj, h1 i hi j hj]
  · intro i j hi hj
    rw [show luRmDraws (luTOr.addr 4 i j) = some (luDrawn (luTOr.addr 4 i j % 8).toNat 0) from memOf_contains (c := luTOr) lit lit lit i j hi hj, h2 i hi j hj]

example (ip : Nat → Nat) := C92_getf2_row_major (F := binary64) (SS := 4) (k := 6) (m0 := luRmDraws) (A := luTAr) (O := luTOr) (a := fun _ j => luDrawn j 0) (atol := tol11) (rtol := tol11)
  C86_wide.1 (by decide) rfl rfl ⟨rfl, rfl⟩ (apart_of lit) luRmDraws_has.1 luRmDraws_has.2 ip (fun _ j _ _ => (luDrawn_num j 0).1) (fun _ j _ _ => (luDrawn_num j 0).2)
  (lu_tol (by decide) (by decide) (by decide)).1 (lu_tol (k := 6) (by decide) (by decide) (by decide)).2

end Blast
