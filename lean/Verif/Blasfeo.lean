import Verif.Container
/-
Wrappers of the BLASFEO library.

Models /repo/include/blasfeo/BlazeInterop.hpp, Memory.hpp, DynamicMatrix.hpp, Matrix.hpp and the parts of blasfeo_api/Mat.hpp, Alloc.hpp used by them. The C functions
called by the wrappers are not part of the repository; they are modelled by their documented effect (`blasfeoPack`, …, `malloc_align`, `free_align`). The
other wrappers in blasfeo_api (gemm_nn, syrk_ln, potrf, trmm_rlnn, vecse, …) pass their arguments on to one C function: see BlasfeoApi.lean. Not modelled because it
does not compile when instantiated: `unpack` of vectors (template argument `V` cannot be deduced), `CustomMatrix()` (passes `this` for a reference).
-/
set_option linter.unusedSectionVars false
namespace Blast
open Prog
variable {V : Type} [Arith V]
namespace Blasfeo

/-- `blasfeo_dmat`, `blasfeo_smat`: the number of rows and columns and the address of `BLASFEO_DMATEL(&m, i, j)` (blasfeo_api/Mat.hpp:78-103); the layout is up to the
C library. -/
structure BMat where
  rows : Nat
  cols : Nat
  addr : Nat → Nat → Int

/-- a `blaze::DenseMatrix` as its storage order, size, `data()` and `spacing()` -/
structure DMat where
  so : SO
  rows : Nat
  cols : Nat
  data : Int
  spacing : Nat

/-- address of element (i, j) of a `blaze::DenseMatrix` -/
def DMat.addr (A : DMat) (i j : Nat) : Int :=
  match A.so with
  | .columnMajor => A.data + i + A.spacing * j
  | .rowMajor => A.data + A.spacing * i + j

/-- contract of `blasfeo_pack_dmat`/`smat` (`pack_mat`: blasfeo_api/Mat.hpp:106-117): the m-by-n column-major array at `A` with leading dimension `lda` is copied to the
block of sB at (bi, bj) -/
def packMat (m n : Nat) (A : Int) (lda : Nat) (sB : BMat) (bi bj : Nat) : Prog V Unit :=
  forN n fun j => forN m fun i => do
    let v ← read (A + i + lda * j)
    write (sB.addr (bi + i) (bj + j)) v

/-- contract of `blasfeo_pack_tran_dmat`/`smat` (`pack_tran_mat`: blasfeo_api/Mat.hpp:120-131): the transpose is copied to the n-by-m block of sB -/
def packTranMat (m n : Nat) (A : Int) (lda : Nat) (sB : BMat) (bi bj : Nat) : Prog V Unit :=
  forN n fun j => forN m fun i => do
    let v ← read (A + i + lda * j)
    write (sB.addr (bi + j) (bj + i)) v

/-- contract of `blasfeo_unpack_dmat`/`smat` (`unpack_mat`: blasfeo_api/Mat.hpp:134-145) -/
def unpackMat (m n : Nat) (sA : BMat) (ai aj : Nat) (B : Int) (ldb : Nat) : Prog V Unit :=
  forN n fun j => forN m fun i => do
    let v ← read (sA.addr (ai + i) (aj + j))
    write (B + i + ldb * j) v

/-- contract of `blasfeo_unpack_tran_dmat`/`smat` (`unpack_tran_mat`: blasfeo_api/Mat.hpp:148-159): the m-by-n block of sA is copied to the n-by-m column-major
array at `B` -/
def unpackTranMat (m n : Nat) (sA : BMat) (ai aj : Nat) (B : Int) (ldb : Nat) : Prog V Unit :=
  forN n fun j => forN m fun i => do
    let v ← read (sA.addr (ai + i) (aj + j))
    write (B + j + ldb * i) v

/-- `pack(A, sB, bi, bj)` for matrices: BlazeInterop.hpp:42-51 -/
def pack (A : DMat) (sB : BMat) (bi bj : Nat) : Prog V Unit :=
  match A.so with
  | .columnMajor => packMat A.rows A.cols A.data A.spacing sB bi bj
  | .rowMajor => packTranMat A.cols A.rows A.data A.spacing sB bi bj

/-- `pack(a, sB, bi, bj)` for vectors of size `n` stored at `data`: BlazeInterop.hpp:68-77; `column` is the transpose flag -/
def packVec (column : Bool) (n : Nat) (data : Int) (sB : BMat) (bi bj : Nat) : Prog V Unit :=
  if column then packMat n 1 data n sB bi bj else packTranMat n 1 data n sB bi bj

/-- `unpack(m, n, sA, ai, aj, B)`: BlazeInterop.hpp:89-100. `resize(B, m, n)` is modelled for a B that has this size already (no effect). -/
def unpack (m n : Nat) (sA : BMat) (ai aj : Nat) (B : DMat) : Prog V Unit :=
  match B.so with
  | .columnMajor => unpackMat m n sA ai aj B.data B.spacing
  | .rowMajor => unpackTranMat m n sA ai aj B.data B.spacing

/-- `unpack_tran(m, n, sA, ai, aj, B)`: BlazeInterop.hpp:103-114 (`resize(B, n, m)` without effect) -/
def unpackTran (m n : Nat) (sA : BMat) (ai aj : Nat) (B : DMat) : Prog V Unit :=
  match B.so with
  | .columnMajor => unpackTranMat m n sA ai aj B.data B.spacing
  | .rowMajor => unpackMat m n sA ai aj B.data B.spacing

/-- `DynamicMatrix::operator=(DenseMatrix<MT, columnMajor> const&)`: DynamicMatrix.hpp:76-86, with `resize`: l.66-70 -/
def assignDense (sB : BMat) (A : DMat) : Prog V Unit :=
  if A.rows ≠ sB.rows ∨ A.cols ≠ sB.cols then throw .invalidArgument
  else packMat A.rows A.cols A.data A.spacing sB 0 0

end Blasfeo
end Blast
