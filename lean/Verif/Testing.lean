import Verif.Container
/-
Comparison functions of the test suite and the tolerances used there.

Models /repo/include/test/Testing.hpp. The text of the messages is not modelled, except for the index in "First mismatch at index …".
-/
set_option linter.unusedSectionVars false
namespace Blast
open Prog
variable {V : Type} [Arith V]

/-- `AssertionResult`: `AssertionSuccess()`, `AssertionFailure() << "… size mismatch"`, `AssertionFailure() << "First mismatch at index (i, j)"` -/
inductive Verdict where
  | success
  | sizeMismatch
  | mismatch (i j : Nat)
  deriving DecidableEq, Repr

/-- `std::isnan(x)`; a value is not a number iff it differs from itself -/
def isNan (x : V) : Bool := !Arith.eq x x

/-- `abs(a - b) > abs_tol + rel_tol * abs(b)`: Testing.hpp:72, 75 (matrices), 97 (vectors), 151 (scalars) -/
def farApart (atol rtol a b : V) : Bool :=
  Arith.gt (Arith.abs (Arith.sub a b)) (Arith.add atol (Arith.mul rtol (Arith.abs b)))

/-- the condition of the `if` in the matrix version: Testing.hpp:74-75 -/
def matDiffer (atol rtol a b : V) : Bool := (isNan a != isNan b) || farApart atol rtol a b

/-- the two loops over all elements with `return AssertionFailure()` at the first pair for which `bad` holds: Testing.hpp:61-82, 164-176 -/
def scanMat (SS : Nat) (bad : V → V → Bool) (lhs rhs : Container) : Prog V Verdict :=
  if rhs.rows ≠ lhs.rows ∨ rhs.cols ≠ lhs.cols then pure .sizeMismatch
  else foldN lhs.rows (fun i r => foldN lhs.cols (fun j r =>
    match r with
    | .success => do
      let a ← lhs.get SS i j
      let b ← rhs.get SS i j
      pure (if bad a b then .mismatch i j else .success)
    | r => pure r) r) Verdict.success

/-- `approxEqual(lhs, rhs, abs_tol, rel_tol)` for matrices: Testing.hpp:58-83. `lhs(i, j)` is the element access of the containers. -/
def approxEqualMat (SS : Nat) (lhs rhs : Container) (atol rtol : V) : Prog V Verdict := scanMat SS (matDiffer atol rtol) lhs rhs

/-- `exactEqual(lhs, rhs)` for matrices: Testing.hpp:161-177 -/
def exactEqualMat (SS : Nat) (lhs rhs : Container) : Prog V Verdict := scanMat SS (fun a b => !Arith.eq a b) lhs rhs

/-- loop over the elements of a vector with a return at the first `j` for which `bad j` holds -/
def scanVec (bad : Nat → Bool) (n : Nat) : Verdict :=
  match (List.range n).find? bad with
  | some j => .mismatch j 0
  | none => .success

/-- `approxEqual(lhs, rhs, abs_tol, rel_tol)` for vectors: Testing.hpp:87-104. A (Blaze) vector is its size and its elements. -/
def approxEqualVec (n n' : Nat) (x y : Nat → V) (atol rtol : V) : Verdict :=
  if n' ≠ n then .sizeMismatch else scanVec (fun j => farApart atol rtol (x j) (y j)) n

/-- `approxEqual(lhs, rhs, abs_tol)` with a list or a vector of tolerances, one for each element: Testing.hpp:108-124, 128-142 -/
def approxEqualTol (n n' k : Nat) (x y tol : Nat → V) : Verdict :=
  if n ≠ k ∨ n' ≠ k then .sizeMismatch else scanVec (fun j => Arith.gt (Arith.abs (Arith.sub (x j) (y j))) (tol j)) k

/-- `approxEqual(actual, expected, abs_tol, rel_tol)` for numbers: Testing.hpp:147-157 -/
def approxEqualScalar (actual expected atol rtol : V) : Bool := !farApart atol rtol actual expected

/-- `exactEqual(lhs, rhs)` for vectors: Testing.hpp:181-195 -/
def exactEqualVec (n n' : Nat) (x y : Nat → V) : Verdict :=
  if n' ≠ n then .sizeMismatch else scanVec (fun j => !Arith.eq (x j) (y j)) n

end Blast
