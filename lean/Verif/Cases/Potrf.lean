import Verif.Cases.Trmm
import Verif.Props.Potrf
/-
Concrete cases of the theorems in Props/Potrf: real numbers, SIMD width 4; the matrix with 2 on the diagonal and 0 elsewhere, 8 × 8 dense and 8 × 8 panel,
factorized in place and into another matrix.
-/
namespace Blast
open Finset

/-- 2 on the diagonal -/
theorem two_posdef (n : Nat) : LowerPosDef n (fun i j => if i = j then (2 : ℝ) else 0) := by
  rintro x ⟨i, hi, hx⟩
  have e : ∑ i ∈ range n, ∑ j ∈ range n, x i * (if max i j = min i j then (2 : ℝ) else 0) * x j = ∑ i ∈ range n, 2 * (x i * x i) := by
    refine sum_congr rfl (fun i hi => ?_)
    rw [sum_eq_single i]
    · rw [if_pos (by omega)]; ring
    · intro j _ hj
      rw [if_neg (by omega)]; ring
    · intro h; exact absurd hi h
  rw [e]
  exact sum_pos' (fun i _ => by nlinarith [mul_self_nonneg (x i)]) ⟨i, mem_range.2 hi, by nlinarith [mul_self_pos.2 hx]⟩

/-- cells 0-63: the matrix, column-major with spacing 8 (zero above the diagonal) -/
noncomputable def cholDemo : Mem ℝ := memOf 1000 (fun x => if x < 64 ∧ x % 8 = x / 8 then 2 else 0)

def cholA : Container := ⟨.dynDense, .columnMajor, 8, 8, 0⟩
def cholL : Container := ⟨.statDense, .columnMajor, 8, 8, 64⟩

theorem chol_args : PotrfArgs 4 cholDemo cholA cholL := ⟨by decide, rfl, rfl, memOf_live lit lit lit, memOf_live lit lit lit, Or.inr (apart_of lit)⟩
theorem chol_inplace : PotrfArgs 4 cholDemo cholA cholA := ⟨by decide, rfl, rfl, memOf_live lit lit lit, memOf_live lit lit lit, Or.inl rfl⟩

theorem chol_values : ContainsLower 4 cholDemo cholA (fun i j => if i = j then 2 else 0) := by
  intro i j _ hi hj
  have e : ∀ i < 8, ∀ j < 8, cholA.addr 4 i j = (i : Int) + 8 * j := by decide +kernel
  have hi : i < 8 := hi
  have hj : j < 8 := hj
  unfold cholDemo
  rw [e i hi j hj, memOf_at (by omega) (by omega)]
  congr 1
  dsimp only
  by_cases h : i = j
  · rw [if_pos h, if_pos (by omega)]
  · rw [if_neg h, if_neg (by omega)]

theorem chol_fits {c : Container} (hc : c.cols % 4 = 0) : PotrfFits 4 1 4 c c := potrfFits_square (by decide) (Or.inl hc)
theorem chol_fits' : PotrfFits 4 1 4 cholA cholL := potrfFits_square (by decide) (Or.inl rfl)

/-- the factor of the 8 × 8 matrix -/
example : ∃ m', potrfDenseCall 4 1 cholA cholL cholDemo = .ok () m' ∧
    ∃ l, ContainsLower 4 m' cholL l ∧ IsCholesky 8 8 l (fun i j => if i = j then (2 : ℝ) else 0) :=
  C15_potrf_dense_cholesky chol_args lit chol_fits' chol_values (two_posdef 8)

example := C16_potrf_dense_frame chol_args lit chol_fits'
example := C16_potrf_dense_depends_on_lower chol_args lit chol_fits' chol_inplace lit (chol_fits lit) rfl rfl chol_values chol_values
example := C18_potrf_dense_in_bounds chol_args lit chol_fits'
/-- sizes: a 3 × 5 matrix is rejected -/
example : potrfDenseCall 4 1 ⟨.dynDense, .columnMajor, 3, 5, 0⟩ ⟨.dynDense, .columnMajor, 3, 5, 64⟩ cholDemo = .throw .invalidArgument cholDemo :=
  C15_potrf_dense_size_check.resolve_right lit
example : potrfPanelCall 4 4 ⟨.dynPanel, .columnMajor, 3, 5, 0⟩ ⟨.dynPanel, .columnMajor, 3, 5, 64⟩ cholDemo = .throw .invalidArgument cholDemo :=
  C15_potrf_panel_size_check.resolve_right lit

/-! ### panel matrices: 6 × 6 DynamicPanelMatrix (with a remainder strip), and 8 × 8 StaticPanelMatrix; values: cell x holds x -/

def panA : Container := ⟨.dynPanel, .columnMajor, 6, 6, 0⟩
def panL : Container := ⟨.dynPanel, .columnMajor, 6, 6, 400⟩

theorem pan_args : PotrfArgs 4 demoMem panA panL := ⟨by decide, rfl, rfl, memOf_live lit lit lit, memOf_live lit lit lit, Or.inr (apart_of lit)⟩
theorem pan_inplace : PotrfArgs 4 demoMem panA panA := ⟨by decide, rfl, rfl, memOf_live lit lit lit, memOf_live lit lit lit, Or.inl rfl⟩
theorem pan_fits : PotrfFits 4 1 4 panA panL := potrfFits_square (by decide) (Or.inr ⟨rfl, rfl⟩)
theorem pan_fits' : PotrfFits 4 1 4 panA panA := potrfFits_square (by decide) (Or.inr ⟨rfl, rfl⟩)
theorem pan_values : ContainsLower 4 demoMem panA (fun i j => ((panA.addr 4 i j : Int) : Rat)) := fun i j _ hi hj => memOf_contains lit lit lit i j hi hj

example := C17_potrf_panel_frame pan_args lit pan_fits
example := C17_potrf_panel_depends_on_lower pan_args lit pan_fits pan_inplace lit pan_fits' rfl rfl pan_values pan_values
example := C18_potrf_panel_in_bounds pan_args lit pan_fits

end Blast
