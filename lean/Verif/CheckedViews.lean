import Verif.Checked
import Verif.Views
import Verif.DynReg
/-
The views with BLAST_USER_ASSERT switched on: constructing a view and accessing an element through it.
The owning matrices assert nothing about indices (dense/DynamicMatrix.hpp, dense/StaticMatrix.hpp, DynamicPanelMatrix,
StaticPanelMatrix), neither do the transpose expressions (PMatTransExpr.hpp:87-88 has BLAZE_INTERNAL_ASSERTs, which are
switched on by a different macro).
-/
set_option linter.unusedSectionVars false
namespace Blast
open Prog
variable {V : Type} [Arith V]

namespace Checked

/-- the constructor of `Submatrix`: views/Submatrix.hpp:48-60; the sums are of `size_t`. `data_ {&matrix_(i_, j_)}` (l.56) asserts
nothing because the viewed matrix is not itself a `Submatrix` (l.258-282). -/
def subMake (e : MExpr) (af : Bool) (i j m n : Nat) : Prog V MExpr := do
  assert (decide (wadd i m ≤ e.rows))
  assert (decide (wadd j n ≤ e.cols))
  pure (.sub e af i j m n)

/-- `submatrix<AF>(m, i, j, m, n)`: views/Submatrix.hpp:234-282; a submatrix of a submatrix is a submatrix of its operand, and it
is the operand the assertions look at -/
def submatrix (af : Bool) (e : MExpr) (i j m n : Nat) : Prog V MExpr :=
  match e with
  | .sub e' _ i' j' _ _ => subMake e' af (wadd i' i) (wadd j' j) m n
  | e => subMake e af i j m n

/-- the assertions of `m(i, j)` and the address of the element: views/Submatrix.hpp:127-142, expressions/MatTransExpr.hpp:42-47 -/
def addr (SS : Nat) : MExpr → Nat → Nat → Prog V Int
  | .obj c, i, j => pure (c.addr SS i j)
  | .sub e _ i0 j0 m n, i, j => do
    assert (decide (i < m))
    assert (decide (j < n))
    addr SS e (wadd i0 i) (wadd j0 j)
  | .tr e, i, j => addr SS e j i

/-- read `m(i, j)`: views/Submatrix.hpp:136-142 -/
def get (SS : Nat) (e : MExpr) (i j : Nat) : Prog V V := do
  let x ← addr SS e i j
  read x

/-- `m(i, j) = v`: views/Submatrix.hpp:127-133 -/
def set (SS : Nat) (e : MExpr) (i j : Nat) (v : V) : Prog V Unit := do
  let x ← addr SS e i j
  write x v

/-- the constructor of `Row`: views/Row.hpp:57-67 -/
def rowMake (m : MExpr) (i j n : Nat) : Prog V RowView := do
  assert (decide (i < m.rows))
  assert (decide (j < m.cols))
  assert (decide (wadd j n ≤ m.cols))
  pure ⟨m, i, j, n⟩

/-- `row(m, i)`: views/Row.hpp:238-242 -/
def row (m : MExpr) (i : Nat) : Prog V RowView := rowMake m i 0 m.cols

/-- `row(m, i, j, n)`: views/Row.hpp:257-261 -/
def rowPart (m : MExpr) (i j n : Nat) : Prog V RowView := rowMake m i j n

/-- `subvector(row, j, n)`: views/Row.hpp:133-149 -/
def subvector (r : RowView) (j n : Nat) : Prog V RowView := rowMake r.m r.i (wadd r.j j) n

/-- the assertion of `row[j]` and the address of the element: views/Row.hpp:92-105 -/
def rowAddr (SS : Nat) (r : RowView) (j : Nat) : Prog V Int := do
  assert (decide (wadd r.j j < r.m.cols))
  addr SS r.m r.i (wadd r.j j)

/-- read `row[j]`: views/Row.hpp:100-105 -/
def rowGet (SS : Nat) (r : RowView) (j : Nat) : Prog V V := do
  let x ← rowAddr SS r j
  read x

/-- `row[j] = v`: views/Row.hpp:92-97 -/
def rowSet (SS : Nat) (r : RowView) (j : Nat) (v : V) : Prog V Unit := do
  let x ← rowAddr SS r j
  write x v

/-- `reset(Submatrix&)`: views/Submatrix.hpp:290-296 -/
def resetView (SS : Nat) (e : MExpr) : Prog V Unit :=
  forN e.rows (fun i => forN e.cols (fun j => set SS e i j Arith.zero))

/-- `assign(a, b)`: Matrix.hpp:71-85, Submatrix.hpp:77-82 -/
def assign (SS : Nat) (a b : MExpr) : Prog V Unit :=
  if a.rows ≠ b.rows ∨ a.cols ≠ b.cols then throw .invalidArgument
  else forN a.rows (fun i => forN a.cols (fun j => do
    let v ← get SS b i j
    set SS a i j v))

/-- `reset(Row&)`: views/Row.hpp:269-274 -/
def rowReset (SS : Nat) (r : RowView) : Prog V Unit := forN r.n (fun j => rowSet SS r j Arith.zero)

/-- read `s(i, j)` of a PanelSubmatrix: views/submatrix/Panel.hpp:185-200 -/
def panelGet (SS : Nat) (s : PanelSub) (i j : Nat) : Prog V V := do
  assert (decide (i < s.nrows))
  assert (decide (j < s.ncols))
  read (s.addr SS i j)

/-- read `r[j]` of a PanelMatrixRow of row `i` of `c`: views/row/Panel.hpp:130-141 -/
def panelRowGet (SS : Nat) (c : Container) (i j : Nat) : Prog V V := do
  assert (decide (j < c.cols))
  read (c.addr SS i j)

/-- constructor of a `DynamicRegisterMatrix<T, RM*SS, N>`: register_matrix/DynamicRegisterMatrix.hpp:50-58 -/
def dynMake (SS RM N m n : Nat) : Prog V (DynReg V) := do
  assert (decide (m ≤ RM * SS ∧ n ≤ N))
  pure (DynReg.construct m n)

/-- `operator()(i, j)` of a `DynamicRegisterMatrix`: register_matrix/DynamicRegisterMatrix.hpp:276-288 -/
def dynGet (SS : Nat) (R : DynReg V) (i j : Nat) : Prog V V := do
  assert (decide (i < R.m ∧ j < R.n))
  pure (R.el SS i j)

end Checked
end Blast
