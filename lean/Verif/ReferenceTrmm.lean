import Verif.Reference
import Verif.Trmm
/-
Which function the matrix version of `reference::trmm` (left multiplication) calls.

reference/Trmm.hpp:175 calls the unqualified name `trmm(m, n, alpha, ptr(A), uplo, diag, ptr(B), ptr(C))`. The pointer classes are members of namespace `blast`, so at the point of
instantiation argument dependent lookup adds `blast::trmm` to the candidates if algorithm/Trmm.hpp has been included. Both candidates have the same function parameters; the constraints
of the one in namespace `blast` (algorithm/Trmm.hpp:90-92) are those of the one in `blast::reference` (reference/Trmm.hpp:43) and, in addition, column-major A and C.
If A and C are column-major it is therefore more constrained and is selected. (The other matrix versions of the reference functions qualify the name:
reference/Trmm.hpp:219, Trsm.hpp:173, 215, Axpy.hpp:73, 100, Gemm.hpp:90.)
-/
namespace Blast
open Reg (UpLo)
variable {V : Type} [Arith V]

/-- `reference::trmm(alpha, A, uplo, diag, B, C)`, left, matrices: reference/Trmm.hpp:164-176, in a translation unit that includes algorithm/Trmm.hpp (`included = true`)
or not. `TR * SS` is the tile size of the optimized function. -/
def refTrmmLMatTU (included : Bool) (SS TR : Nat) (alpha : V) (A : Mat) (uplo : UpLo) (diag : Bool) (B C : Mat) : Prog V Unit :=
  if A.rows ≠ B.rows ∨ A.cols ≠ B.rows ∨ C.rows ≠ B.rows ∨ C.cols ≠ B.cols then Prog.throw .invalidArgument else
  if included = true ∧ A.p.so = .columnMajor ∧ C.p.so = .columnMajor then trmmLeftPtr SS TR B.rows B.cols alpha A.p uplo diag B.p C.p
  else refTrmmL SS B.rows B.cols alpha A.p uplo diag B.p C.p

end Blast
