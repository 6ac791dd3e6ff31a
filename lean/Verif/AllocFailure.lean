import Verif.History
import Verif.PanelRandom
/-
Allocation failure: client programs in which `operator new[]` may throw `std::bad_alloc` at any call.

The only allocations of the library are the last member initializers of the constructors of DynamicMatrix (dense/DynamicMatrix.hpp:39) and DynamicPanelMatrix
(panel/DynamicPanelMatrix.hpp:65), used by the client and for the temporaries of makePositiveDefinite (algorithm/MakePositiveDefinite.hpp:33,
DynamicPanelMatrix.hpp:345). So every step of a client program makes at most one allocation; `fail` says whether it fails.
-/
set_option linter.unusedSectionVars false
namespace Blast
open Prog Reg
variable {V : Type} [Arith V]

/-- A constructor whose allocation may fail: the `new` expression is the initializer of the last member (dense/DynamicMatrix.hpp:33-41,
panel/DynamicPanelMatrix.hpp:57-67), so when it throws nothing has been obtained. The static classes do not allocate
(dense/StaticMatrix.hpp:35-40, panel/StaticPanelMatrix.hpp:60-65). -/
def constructMay (SS : Nat) (fail : Bool) (c : Container) : Prog V Unit :=
  if fail && c.isDyn then throw .badAlloc else c.construct SS

/-- `makePositiveDefinite(matrix)`: algorithm/MakePositiveDefinite.hpp:24-41, when the allocation of `tmp` (line 33) may fail. Otherwise as `makePositiveDefinite`. -/
def makePositiveDefiniteMay (SS : Nat) (fail : Bool) (t : Int) (rnd : Nat → Nat → V) (etN : V) (e : MExpr) : Prog V Unit :=
  if e.rows ≠ e.cols then throw .invalidArgument
  else do
    let tmp : Container := ⟨.dynDense, .columnMajor, e.cols, e.cols, t⟩
    constructMay SS fail tmp
    randomizeMat SS (.obj tmp) rnd
    e.reset SS
    refGemmMat SS Arith.one ((MExpr.obj tmp).mat SS) ((MExpr.obj tmp).trans.mat SS) Arith.zero (e.mat SS) (e.mat SS)
    forN e.cols (fun i => do
      let v ← e.get SS i i
      e.set SS i i (Arith.add v etN))
    freeStorage SS tmp

/-- `makePositiveDefinite(matrix)` of panel matrices: DynamicPanelMatrix.hpp:328-360, StaticPanelMatrix.hpp:318-350, when the allocation of `A` (line 345) may fail.
Otherwise as `makePositiveDefinitePanel`. -/
def makePositiveDefinitePanelMay (SS : Nat) (fail : Bool) (t : Int) (rnd : Nat → Nat → V) (tn : V) (c : Container) : Prog V Unit :=
  if c.rows ≠ c.cols then throw .invalidArgument
  else do
    let tmp : Container := { c with data := t }
    c.assignScalar SS Arith.zero
    forN c.rows (fun i => c.set SS i i tn)
    constructMay SS fail tmp
    randomizePanel SS tmp rnd
    gemmMat SS Arith.one (tmp.mat SS) ((MExpr.obj tmp).trans.mat SS) Arith.one (c.mat SS) (c.mat SS)
    freeStorage SS tmp

/-- One step of a client program: a step of `History`, or `makePositiveDefinite(x)` of a panel matrix (DynamicPanelMatrix.hpp:328-360; `t`: address of the storage of the
temporary, `tn`: `Type(n)`). -/
inductive MStep (V : Type) where
  | plain (st : HStep V)
  | posDefPanel (x : Nat) (t : Int) (rnd : Nat → Nat → V) (tn : V)

namespace HWorld

/-- One step; `fail`: the allocation made during the step, if any, fails. A `new` expression whose constructor throws makes no object (and no storage is obtained). -/
def stepMay (SS KN : Nat) (dv : V → V → V) (h : HWorld V) (fail : Bool) : MStep V → Outcome V × HWorld V
  | .plain (.op (.create x c)) =>
    if fail && c.isDyn then (.exn .badAlloc, h) else h.step SS KN dv (.op (.create x c))
  | .plain (.call (.makePositiveDefinite x t rnd etN)) =>
    match h.w.obj x with
    | some c => h.exec (makePositiveDefiniteMay SS fail t rnd etN (.obj c))
    | none => (.ub, h)
  | .plain st => h.step SS KN dv st
  | .posDefPanel x t rnd tn =>
    match h.w.obj x with
    | some c => h.exec (makePositiveDefinitePanelMay SS fail t rnd tn c)
    | none => (.ub, h)

/-- a whole client program, with what happens to the allocation of each step -/
def runMay (SS KN : Nat) (dv : V → V → V) (h : HWorld V) : List (MStep V × Bool) → List (Outcome V) × HWorld V
  | [] => ([], h)
  | s :: l =>
    let r := h.stepMay SS KN dv s.2 s.1
    if r.1.final then ([r.1], r.2) else
      let r' := runMay SS KN dv r.2 l
      (r.1 :: r'.1, r'.2)

end HWorld
end Blast
