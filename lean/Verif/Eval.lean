import Verif.Lawful
/-
Evaluating a model program on a concrete memory (used only for counterexamples and non-vacuity checks).
-/
namespace Blast

/-- content of cell `x` after a successful run -/
def okCell (r : Res Rat Unit) (x : Int) : Option (Option Rat) :=
  match r with
  | .ok _ m => some (m x)
  | _ => none

theorem ok_of_okCell {r : Res Rat Unit} {x : Int} {v : Option Rat} (h : okCell r x = some v) :
    ∃ m', r = .ok () m' ∧ m' x = v := by
  unfold okCell at h
  cases r with
  | ok a m => exact ⟨m, rfl, by simpa using h⟩
  | _ => cases h

/-- the run has undefined behaviour -/
def isUb (r : Res Rat Unit) : Bool :=
  match r with
  | .ub => true
  | _ => false

theorem ub_of_isUb {r : Res Rat Unit} (h : isUb r = true) : r = .ub := by
  unfold isUb at h
  cases r <;> first | rfl | cases h

end Blast
