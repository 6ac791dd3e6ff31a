import Verif.Views
import Verif.Reference
/-
Random matrices: /repo/include/blast/math/algorithm/Randomize.hpp and /repo/include/blast/math/algorithm/MakePositiveDefinite.hpp.
-/
set_option linter.unusedSectionVars false
namespace Blast
open Prog
variable {V : Type} [Arith V]

/-- `randomize(m)`: algorithm/Randomize.hpp:51-57 (matrix), 59-64 (view), 26-32 (scalar). The number drawn for element `(i,j)` is `rnd i j`; the
random engine is not modelled: all theorems quantify over `rnd`. -/
def randomizeMat (SS : Nat) (e : MExpr) (rnd : Nat → Nat → V) : Prog V Unit :=
  noexcept (forN e.rows (fun i => forN e.cols (fun j => e.set SS i j (rnd i j))))

/-- destructor of DynamicMatrix: dense/DynamicMatrix.hpp:56-59. The storage is deallocated. (That memory obtained from an aligned
`new` is released with the plain `delete[]` is not modelled.) -/
def freeStorage (SS : Nat) (c : Container) : Prog V Unit := fun m =>
  .ok () (fun x => if c.data ≤ x ∧ x < c.data + c.capacity SS then none else m x)

/-- `makePositiveDefinite(matrix)`: algorithm/MakePositiveDefinite.hpp:24-41 (matrices), 52-57 (views). `t` is the address of the
temporary DynamicMatrix's storage chosen by the allocator (a failing allocation: `makePositiveDefiniteMay` in AllocFailure), `rnd` the numbers drawn, `etN` is `ET(N)`. -/
def makePositiveDefinite (SS : Nat) (t : Int) (rnd : Nat → Nat → V) (etN : V) (e : MExpr) : Prog V Unit :=
  if e.rows ≠ e.cols then throw .invalidArgument
  else do
    let tmp : Container := ⟨.dynDense, .columnMajor, e.cols, e.cols, t⟩
    tmp.construct SS
    randomizeMat SS (.obj tmp) rnd
    e.reset SS
    refGemmMat SS Arith.one ((MExpr.obj tmp).mat SS) ((MExpr.obj tmp).trans.mat SS) Arith.zero (e.mat SS) (e.mat SS)
    forN e.cols (fun i => do
      let v ← e.get SS i i
      e.set SS i i (Arith.add v etN))
    freeStorage SS tmp
end Blast
