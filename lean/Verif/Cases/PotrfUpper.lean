import Verif.Props.PotrfUpper
import Verif.Cases.Potrf
/-
Cases of Props/PotrfUpper: the 8 × 8 panel matrix with 3 on the diagonal and 1 elsewhere.
-/
namespace Blast
open Finset

def pupA : Container := ⟨.dynPanel, .columnMajor, 8, 8, 0⟩
def pupL : Container := ⟨.dynPanel, .columnMajor, 8, 8, 400⟩
noncomputable def pupVal (i j : Nat) : ℝ := if i = j then 3 else 1
noncomputable def pupMem : Mem ℝ := memOf 1000 (fun x => if x < 400 then (if x < 16 ∧ x % 5 = 0 ∨ 48 ≤ x ∧ x < 64 ∧ (x - 48) % 5 = 0 then 3 else 1) else 0)

theorem pupA_has : Contains 4 pupMem pupA pupVal := by
  have h : ∀ i < 8, ∀ j < 8, pupA.addr 4 i j < 400 ∧
      ((pupA.addr 4 i j < 16 ∧ pupA.addr 4 i j % 5 = 0 ∨ 48 ≤ pupA.addr 4 i j ∧ pupA.addr 4 i j < 64 ∧ (pupA.addr 4 i j - 48) % 5 = 0) ↔ i = j) := by decide
  intro i j hi hj
  have e := memOf_contains (c := pupA) (SS := 4) (n := 1000)
    (f := fun x => if x < 400 then (if x < 16 ∧ x % 5 = 0 ∨ 48 ≤ x ∧ x < 64 ∧ (x - 48) % 5 = 0 then (3 : ℝ) else 1) else 0) lit lit lit i j hi hj
  beta_reduce at e
  rw [if_pos (h i hi j hj).1] at e
  exact e.trans (congrArg some (if_congr (h i hi j hj).2 rfl rfl))
theorem pupL_zero (i j : Nat) (hi : i < 8) (hj : j < 8) : pupMem (pupL.addr 4 i j) = some 0 := by
  have h : ∀ i < 8, ∀ j < 8, ¬ pupL.addr 4 i j < 400 := by decide
  have e := memOf_contains (c := pupL) (SS := 4) (n := 1000)
    (f := fun x => if x < 400 then (if x < 16 ∧ x % 5 = 0 ∨ 48 ≤ x ∧ x < 64 ∧ (x - 48) % 5 = 0 then (3 : ℝ) else 1) else 0) lit lit lit i j hi hj
  beta_reduce at e
  rwa [if_neg (h i hi j hj)] at e
theorem pup_args : PotrfArgs 4 pupMem pupA pupL := ⟨by decide, rfl, rfl, memOf_live lit lit lit, memOf_live lit lit lit, Or.inr (apart_of lit)⟩
theorem pup_fits : PotrfFits 4 1 4 pupA pupL := potrfFits_square (by decide) (Or.inl rfl)
theorem pup_sym (i j : Nat) : pupVal i j = pupVal j i := if_congr eq_comm rfl rfl
theorem pup_posdef (n : Nat) : LowerPosDef n pupVal := by
  rintro x ⟨i, hi, hx⟩
  have e : ∑ i ∈ range n, ∑ j ∈ range n, x i * pupVal (max i j) (min i j) * x j = (∑ i ∈ range n, 2 * (x i * x i)) + (∑ i ∈ range n, x i) * (∑ i ∈ range n, x i) := by
    rw [sum_mul, ← sum_add_distrib]
    refine sum_congr rfl (fun i hi => ?_)
    have h1 : ∀ j ∈ range n, x i * pupVal (max i j) (min i j) * x j = (if j = i then 2 * (x i * x j) else 0) + x i * x j := by
      intro j _
      unfold pupVal
      by_cases h : j = i
      · subst h; rw [if_pos (by omega), if_pos rfl]; ring
      · rw [if_neg (by omega), if_neg h]; ring
    rw [sum_congr rfl h1, sum_add_distrib, sum_ite_eq' (range n) i, if_pos hi, mul_sum]
  rw [e]
  have h1 : 0 < ∑ i ∈ range n, 2 * (x i * x i) :=
    sum_pos' (fun i _ => by nlinarith [mul_self_nonneg (x i)]) ⟨i, mem_range.2 hi, by nlinarith [mul_self_pos.2 hx]⟩
  nlinarith [mul_self_nonneg (∑ i ∈ range n, x i)]

example := C17_potrf_panel_upper_zero pup_args lit pup_fits pupA_has (pup_posdef 8) (fun i j _ _ _ => pup_sym i j) (old := fun _ _ => 0)
  (fun i j _ hi hj => pupL_zero i j hi hj)
example := C17_potrf_panel_lower_triangular pup_args lit pup_fits pupA_has (pup_posdef 8) (fun i j _ _ => pup_sym i j) (fun i j _ hi hj => pupL_zero i j hi hj)

end Blast
