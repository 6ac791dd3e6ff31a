import Verif.MakePosDef
import Verif.Gemm
/-
Random panel matrices: the Blaze extensions in /repo/include/blast/math/DynamicPanelMatrix.hpp and
/repo/include/blast/math/StaticPanelMatrix.hpp (namespace blaze).
-/
set_option linter.unusedSectionVars false
namespace Blast
open Prog
variable {V : Type} [Arith V]

/-- `Rand<DynamicPanelMatrix>::randomize(matrix)`: DynamicPanelMatrix.hpp:113-128 and, with bounds, 141-158; StaticPanelMatrix.hpp:119-131,
147-159. The number drawn for element `(i,j)` is `rnd i j`; the bounds `min`, `max` only restrict `rnd`. -/
def randomizePanel (SS : Nat) (c : Container) (rnd : Nat → Nat → V) : Prog V Unit :=
  forN c.rows (fun i => forN c.cols (fun j => c.set SS i j (rnd i j)))

/-- `Rand<DynamicPanelMatrix>::generate(m, n)`: DynamicPanelMatrix.hpp:70-78, 93-102 (with bounds); StaticPanelMatrix.hpp:74-81, 97-105. The returned object is
constructed in place (the move constructor would terminate the program; the standard allows, but does not demand, that it is left out). -/
def generatePanel (SS : Nat) (c : Container) (rnd : Nat → Nat → V) : Prog V Unit := do
  c.construct SS
  randomizePanel SS c rnd

/-- `makeHermitian(matrix)`: DynamicPanelMatrix.hpp:249-276, 288-317 (with bounds); StaticPanelMatrix.hpp:245-270, 281-305 (M == N is a static assertion there). `cj` is `conj`
(the identity for real types). `rnd i i` stands for the number `rand<BT>()` drawn for the diagonal. -/
def makeHermitian (SS : Nat) (c : Container) (cj : V → V) (rnd : Nat → Nat → V) : Prog V Unit :=
  if c.rows ≠ c.cols then throw .invalidArgument
  else forN c.rows (fun i => do
    forN i (fun j => do
      c.set SS i j (rnd i j)
      let v ← c.get SS i j
      c.set SS j i (cj v))
    c.set SS i i (rnd i i))

/-- `makeSymmetric(matrix)`: DynamicPanelMatrix.hpp:178-201, 213-237 (with bounds); StaticPanelMatrix.hpp:178-200, 211-234 -/
def makeSymmetric (SS : Nat) (c : Container) (rnd : Nat → Nat → V) : Prog V Unit :=
  if c.rows ≠ c.cols then throw .invalidArgument
  else forN c.rows (fun i => do
    forN i (fun j => do
      c.set SS i j (rnd i j)
      let v ← c.get SS i j
      c.set SS j i v)
    c.set SS i i (rnd i i))

/-- `makePositiveDefinite(matrix)`: DynamicPanelMatrix.hpp:328-360, StaticPanelMatrix.hpp:318-350. The temporary `A` has the class of `matrix`; `t` is the address of its storage,
`rnd` are its elements, `tn` is `Type(n)`. `gemm(A, trans(A), matrix, matrix)` is the four-argument function of algorithm/Gemm.hpp:113-118. -/
def makePositiveDefinitePanel (SS : Nat) (t : Int) (rnd : Nat → Nat → V) (tn : V) (c : Container) : Prog V Unit :=
  if c.rows ≠ c.cols then throw .invalidArgument
  else do
    let tmp : Container := { c with data := t }
    c.assignScalar SS Arith.zero
    forN c.rows (fun i => c.set SS i i tn)
    tmp.construct SS
    randomizePanel SS tmp rnd
    gemmMat SS Arith.one (tmp.mat SS) ((MExpr.obj tmp).trans.mat SS) Arith.one (c.mat SS) (c.mat SS)
    freeStorage SS tmp
end Blast
