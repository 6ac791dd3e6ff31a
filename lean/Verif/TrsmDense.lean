import Verif.Reference
import Verif.Ger
/-
Dense triangular solves.

Models /repo/include/blast/math/dense/Trsm.hpp and dense/Trsv.hpp. Element access `(*A)(i,j)` of dense matrices and of
their submatrix views is modelled by `MPtr.get`/`MPtr.set`.
-/
set_option linter.unusedSectionVars false
namespace Blast
open Prog Reg
variable {V : Type} [Arith V]

/-- the loops of `trsm<UPLO, UNIT>(A, B, X)`: dense/Trsm.hpp:39-65 -/
def trsmPtr (SS M N : Nat) (uplo : UpLo) (unit : Bool) (A B X : MPtr) : Prog V Unit :=
  forN N (fun j =>
    match uplo with
    | .lower => forN M (fun i => do
        let b ← B.get SS i j
        let acc ← foldFrom 0 i (fun k acc => do
          let a ← A.get SS i k
          let x ← X.get SS k j
          pure (Arith.sub acc (Arith.mul a x))) b
        if unit then X.set SS i j acc else do
          let d ← A.get SS i i
          X.set SS i j (Arith.div acc d))
    | .upper => forDown M (fun i => do
        let b ← B.get SS i j
        let acc ← foldFrom (i + 1) M (fun k acc => do
          let a ← A.get SS i k
          let x ← X.get SS k j
          pure (Arith.sub acc (Arith.mul a x))) b
        if unit then X.set SS i j acc else do
          let d ← A.get SS i i
          X.set SS i j (Arith.div acc d)))

/-- `trsm<UPLO, UNIT>(A, B, X)`: dense/Trsm.hpp:17-66 -/
def trsmMat (SS : Nat) (uplo : UpLo) (unit : Bool) (A B X : Mat) : Prog V Unit :=
  if A.rows ≠ B.rows ∨ A.cols ≠ B.rows then throw .invalidArgument
  else if X.rows ≠ B.rows ∨ X.cols ≠ B.cols then throw .invalidArgument
  else trsmPtr SS B.rows B.cols uplo unit A.p B.p X.p

/-- the loop of `trsvLeftLower(A, b, x)` / `trsvLeftUpper(A, b, x)`: dense/Trsv.hpp:30-38, 60-68 -/
def trsvPtr (SS N : Nat) (uplo : UpLo) (A : MPtr) (b x : VPtr) : Prog V Unit :=
  match uplo with
  | .lower => forN N (fun i => do
      let bi ← b.get SS i
      let acc ← foldFrom 0 i (fun j acc => do
        let a ← A.get SS i j
        let xj ← x.get SS j
        pure (Arith.sub acc (Arith.mul a xj))) bi
      let d ← A.get SS i i
      x.set SS i (Arith.div acc d))
  | .upper => forDown N (fun i => do
      let bi ← b.get SS i
      let acc ← foldFrom (i + 1) N (fun j acc => do
        let a ← A.get SS i j
        let xj ← x.get SS j
        pure (Arith.sub acc (Arith.mul a xj))) bi
      let d ← A.get SS i i
      x.set SS i (Arith.div acc d))

/-- `trsvLeftLower(A, b, x)`: dense/Trsv.hpp:15-39; `trsvLeftUpper`: l.45-69. `resize(x, N)` (an operation of the
external Blaze library) is modelled only for an `x` that already has size N, where it does nothing. -/
def trsvMat (SS : Nat) (uplo : UpLo) (A : Mat) (b x : VArg) : Prog V Unit :=
  if A.rows ≠ b.n ∨ A.cols ≠ b.n then throw .invalidArgument
  else trsvPtr SS b.n uplo A.p b.p x.p

end Blast
