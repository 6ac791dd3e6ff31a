import Verif.Potrf
import Verif.Trmm
import Verif.Getrf
/-
The checked build: the same functions with BLAST_USER_ASSERT switched on (util/Assert.hpp: it is BLAZE_USER_ASSERT, which
prints a message and calls abort() when its condition is false and BLAZE_USER_ASSERTION is set, as in
test/blast/CMakeLists.txt:54).  An assertion that fails is the outcome `terminate`.

Every definition of namespace `Checked` is the function of the same name of the release build, written once more with
the assertions that the pointer classes, iamax and potrf execute: a pointer declared aligned asserts in its constructor and
after every move that it is on a SIMD boundary; the moves of panel pointers across panels assert it for every pointer;
DynamicVectorPointer asserts a positive spacing.  Functions that form no pointers and assert nothing (RegisterMatrix::potrf,
RegisterMatrix::trsm for Right/Upper, tile) are used as they are.
-/
set_option linter.unusedSectionVars false
namespace Blast
open Prog
variable {V : Type} [Arith V]

namespace Checked

/-- `BLAST_USER_ASSERT(b, ...)` with assertions switched on: util/Assert.hpp:17 -/
def assert (b : Bool) : Prog V Unit := if b then pure () else fun _ => .terminate

/-- the condition asserted by every matrix pointer: `!AF || isSimdAligned(ptr_)`: dense/DynamicMatrixPointer.hpp:46,
dense/StaticMatrixPointer.hpp:47, panel/DynamicPanelMatrixPointer.hpp:48, panel/StaticPanelMatrixPointer.hpp:44 -/
def alignedOk (SS : Nat) (p : MPtr) : Bool := !p.aligned || p.ptr % (SS : Int) == 0

/-- constructing a pointer: dense/DynamicMatrixPointer.hpp:42-47, dense/StaticMatrixPointer.hpp:44-48,
panel/DynamicPanelMatrixPointer.hpp:44-49, panel/StaticPanelMatrixPointer.hpp:40-45 -/
def make (SS : Nat) (p : MPtr) : Prog V MPtr := do
  assert (alignedOk SS p)
  pure p

/-- `p(i, j)`: dense/DynamicMatrixPointer.hpp:110-113, panel/DynamicPanelMatrixPointer.hpp:126-129 -/
def off (SS : Nat) (p : MPtr) (i j : Int) : Prog V MPtr := make SS (p.off SS i j)

/-- `~p`: dense/DynamicMatrixPointer.hpp:155-158, panel/DynamicPanelMatrixPointer.hpp:171-174 -/
def unal (SS : Nat) (p : MPtr) : Prog V MPtr := make SS (p.unal SS)

/-- `p.trans()`: dense/DynamicMatrixPointer.hpp:161-164, panel/DynamicPanelMatrixPointer.hpp:177-180 -/
def trans (SS : Nat) (p : MPtr) : Prog V MPtr := make SS (p.trans SS)

/-- `hmove`: dense/DynamicMatrixPointer.hpp:167-175, panel/DynamicPanelMatrixPointer.hpp:183-195. A row-major panel pointer
asserts that it is aligned before the move, whatever its type says. -/
def hmove (SS : Nat) (p : MPtr) (inc : Int) : Prog V MPtr := do
  assert (!(p.panel && p.so == .rowMajor) || p.ptr % (SS : Int) == 0)
  make SS (p.hmove SS inc)

/-- `vmove`: dense/DynamicMatrixPointer.hpp:178-186, panel/DynamicPanelMatrixPointer.hpp:198-210. A column-major panel pointer
asserts that it is aligned before the move, whatever its type says. -/
def vmove (SS : Nat) (p : MPtr) (inc : Int) : Prog V MPtr := do
  assert (!(p.panel && p.so == .columnMajor) || p.ptr % (SS : Int) == 0)
  make SS (p.vmove SS inc)

/-- constructing a vector pointer: dense/DynamicVectorPointer.hpp:39-45, dense/StaticVectorPointer.hpp:36-40;
RowColumnVectorPointer.hpp:38-52 asserts nothing beyond its matrix pointer -/
def vmake (SS : Nat) (x : VPtr) : Prog V VPtr :=
  match x with
  | .rowcol p _ => do
    let _ ← make SS p
    pure x
  | .vec st al p s => do
    assert (st || decide (0 < s))
    assert (!al || p % (SS : Int) == 0)
    pure x

/-- `x(i)`: RowColumnVectorPointer.hpp:103-106, dense/DynamicVectorPointer.hpp:111-114, dense/StaticVectorPointer.hpp:122-125 -/
def voff (SS : Nat) (x : VPtr) (i : Int) : Prog V VPtr := vmake SS (x.off SS i)

/-- `~x`: RowColumnVectorPointer.hpp:136-139, dense/DynamicVectorPointer.hpp:155-158, dense/StaticVectorPointer.hpp:166-169 -/
def vunal (SS : Nat) (x : VPtr) : Prog V VPtr := vmake SS (x.unal SS)

/-! ### Register matrices -/

/-- `axpy(beta, a)`: register_matrix/RegisterMatrix.hpp:113-124 -/
def axpy (SS RM N : Nat) (r : Reg V) (beta : V) (a : MPtr) : Prog V (Reg V) :=
  Reg.forCols N (fun _ => true) (fun j => Reg.forRows RM (fun _ => true) j (fun i v => do
    let p ← off SS a (SS * i) j
    let x ← p.load SS
    pure (fun l => Arith.fma beta (x l) (v l)))) r

/-- `axpy(beta, a, m, n)`: register_matrix/RegisterMatrix.hpp:128-139 -/
def axpyP (SS RM N : Nat) (r : Reg V) (beta : V) (a : MPtr) (m n : Nat) : Prog V (Reg V) :=
  Reg.forCols N (fun j => j < n) (fun j => Reg.forRows RM (fun i => SS * i < m) j (fun i v => do
    let p ← off SS a (SS * i) j
    let x ← p.load SS
    pure (fun l => Arith.fma beta (x l) (v l)))) r

/-- `load(p)`: register_matrix/RegisterMatrix.hpp:432-439 -/
def load (SS RM N : Nat) (r : Reg V) (p : MPtr) : Prog V (Reg V) :=
  Reg.forCols N (fun _ => true) (fun j => Reg.forRows RM (fun _ => true) j (fun i _ => do
    let q ← off SS p (SS * i) j
    q.load SS)) r

/-- `load(beta, p)`: register_matrix/RegisterMatrix.hpp:445-452 -/
def loadB (SS RM N : Nat) (r : Reg V) (beta : V) (p : MPtr) : Prog V (Reg V) :=
  Reg.forCols N (fun _ => true) (fun j => Reg.forRows RM (fun _ => true) j (fun i _ => do
    let q ← off SS p (SS * i) j
    let x ← q.load SS
    pure (fun l => Arith.mul beta (x l)))) r

/-- `load(beta, p, m, n)`: register_matrix/RegisterMatrix.hpp:458-481 -/
def loadBP (SS RM N : Nat) (r : Reg V) (beta : V) (p : MPtr) (m n : Nat) : Prog V (Reg V) :=
  Reg.forCols N (fun j => j < n) (fun j r =>
    if p.aligned && p.padded then
      Reg.forRows RM (fun i => SS * i < m) j (fun i _ => do
        let q ← off SS p (SS * i) j
        let x ← q.load SS
        pure (fun l => Arith.mul beta (x l))) r
    else do
      let r ← Reg.forRows RM (fun i => SS * i + SS ≤ m) j (fun i _ => do
        let q ← off SS p (SS * i) j
        let x ← q.load SS
        pure (fun l => Arith.mul beta (x l))) r
      if m % SS ≠ 0 then do
        let q ← off SS p ((m - m % SS : Nat) : Int) j
        if m / SS < RM then do
          let x ← q.loadMask SS (fun l => l < m % SS)
          pure (r.upd (m / SS) j (fun l => Arith.mul beta (x l)))
        else ub
      else pure r) r

/-- `store(p)`: register_matrix/RegisterMatrix.hpp:486-493 -/
def store (SS RM N : Nat) (r : Reg V) (p : MPtr) : Prog V Unit :=
  forN N (fun j => forN RM (fun i => do
    let q ← off SS p (SS * i) j
    q.store SS (r i j)))

/-- `store(p, m, n)`: register_matrix/RegisterMatrix.hpp:499-515 -/
def storeP (SS RM N : Nat) (r : Reg V) (p : MPtr) (m n : Nat) : Prog V Unit := do
  forN N (fun j => onlyIf (j < n) (forN RM (fun i => onlyIf (SS * (i + 1) ≤ m) (do
    let q ← off SS p (SS * i) j
    q.store SS (r i j)))))
  if m % SS ≠ 0 then
    forN (min n N) (fun j => do
      let q ← off SS p ((SS * (m / SS) : Nat) : Int) j
      if m / SS < RM then q.storeMask SS (r (m / SS) j) (fun l => l < m % SS)
      else ub)
  else pure ()

/-- `storeLower(p)`: register_matrix/RegisterMatrix.hpp:521-538 -/
def storeLower (SS RM N : Nat) (r : Reg V) (p : MPtr) : Prog V Unit :=
  forN N (fun j => do
    onlyIf (j % SS ≠ 0 ∧ j / SS < RM) (do
      let q ← off SS p (SS * (j / SS) : Nat) j
      q.storeMask SS (r (j / SS) j) (fun l => j % SS ≤ l))
    forFrom (if j % SS ≠ 0 ∧ j / SS < RM then j / SS + 1 else j / SS) RM (fun ri => do
      let q ← off SS p (SS * ri) j
      q.store SS (r ri j)))

/-- `storeLower(p, m, n)`: register_matrix/RegisterMatrix.hpp:544-560 -/
def storeLowerP (SS RM N : Nat) (r : Reg V) (p : MPtr) (m n : Nat) : Prog V Unit :=
  forN N (fun j => onlyIf (j < n) (forFrom (j / SS) RM (fun ri => do
    let skip : Int := (j : Int) - ri * SS
    let rem : Int := (m : Int) - ri * SS
    let q ← off SS p (SS * ri) j
    q.storeMask SS (r ri j)
      (fun l => (l : Int) < rem && (if 0 < skip then decide (skip ≤ l) else true)))))

/-- the loads at the start of the four `ger`: register_matrix/RegisterMatrix.hpp:614-618, 641-645, 666-670, 691-695 -/
def loadCol (SS RM : Nat) (a : VPtr) (f : V → V) : Prog V (Nat → Vec V) :=
  foldN RM (fun i ax => do
    let q ← voff SS a ((i * SS : Nat) : Int)
    let x ← q.load SS
    pure (fun i' => if i' = i then (fun l => f (x l)) else ax i')) (fun _ _ => Arith.zero)

/-- `ger(alpha, a, b)`, `ger(a, b)`: register_matrix/RegisterMatrix.hpp:610-629, 637-656; `b[j]` forms no pointer object -/
def gerF (SS RM N : Nat) (r : Reg V) (f : V → V) (a b : VPtr) : Prog V (Reg V) := do
  let ax ← loadCol SS RM a f
  Reg.forCols N (fun _ => true) (fun j r => do
    let bx ← b.get SS j
    Reg.forRows RM (fun _ => true) j (fun i v => pure (fun l => Arith.fma (ax i l) bx (v l))) r) r

/-- `ger(alpha, a, b, m, n)`, `ger(a, b, m, n)`: register_matrix/RegisterMatrix.hpp:664-681, 689-706 -/
def gerFP (SS RM N : Nat) (r : Reg V) (f : V → V) (a b : VPtr) (_m n : Nat) : Prog V (Reg V) := do
  let ax ← loadCol SS RM a f
  Reg.forCols N (fun j => j < n) (fun j r => do
    let bx ← b.get SS j
    Reg.forRows RM (fun _ => true) j (fun i v => pure (fun l => Arith.fma (ax i l) bx (v l))) r) r

/-- `trmm(alpha, a, uplo, diag, b)`: register_matrix/RegisterMatrix.hpp:745-789 -/
def trmmL (SS RM N : Nat) (r : Reg V) (alpha : V) (a : MPtr) (uplo : Reg.UpLo) (diag : Bool) (b : MPtr) :
    Prog V (Reg V) := noexcept <|
  if diag then throw .logicError else
  match uplo with
  | .lower => throw .logicError
  | .upper => do
    let bu ← unal SS b
    let s ← foldN (RM * SS) (fun k (s : Reg V × MPtr × MPtr) => do
      let (r, a, bu) := s
      let ax ← foldN ((k + 1) / SS) (fun i ax => do
        let q ← off SS a ((i * SS : Nat) : Int) 0
        let x ← q.load SS
        pure (fun i' => if i' = i then (fun l => Arith.mul alpha (x l)) else ax i')) (fun _ _ => Arith.zero)
      let ax ← ((if (k + 1) % SS ≠ 0 then do
          let q ← off SS a (((k + 1) / SS * SS : Nat) : Int) 0
          let x ← q.loadMask SS (fun l => l < (k + 1) % SS)
          pure (fun i' => if i' = (k + 1) / SS then (fun l => Arith.mul alpha (x l)) else ax i')
        else pure ax) : Prog V (Nat → Vec V))
      let r ← Reg.forCols N (fun _ => true) (fun j r => do
        let bx ← bu.get SS 0 j
        let r ← Reg.forRows ((k + 1) / SS) (fun _ => true) j
          (fun i v => pure (fun l => Arith.fma (ax i l) bx (v l))) r
        if (k + 1) % SS ≠ 0 then
          pure (r.upd ((k + 1) / SS) j
            (fun l => Arith.fma (ax ((k + 1) / SS) l) bx (r ((k + 1) / SS) j l)))
        else pure r) r
      let a ← hmove SS a 1
      let bu ← vmove SS bu 1
      pure (r, a, bu)) (r, a, bu)
    pure s.1

/-- body of the loop of the right multiplications: register_matrix/RegisterMatrix.hpp:808-828, 856-876 -/
def trmmRStep (SS RM : Nat) (alpha : V) (k : Nat) (s : Reg V × MPtr × MPtr) :
    Prog V (Reg V × MPtr × MPtr) := do
  let (r, b, au) := s
  let bx ← foldN RM (fun i ax => do
    let q ← off SS b ((i * SS : Nat) : Int) 0
    let x ← q.load SS
    pure (fun i' => if i' = i then (fun l => Arith.mul alpha (x l)) else ax i')) (fun _ _ => Arith.zero)
  let r ← Reg.forCols (k + 1) (fun _ => true) (fun j r => do
    let ax ← au.get SS 0 j
    Reg.forRows RM (fun _ => true) j (fun i v => pure (fun l => Arith.fma (bx i l) ax (v l))) r) r
  let b ← hmove SS b 1
  let au ← vmove SS au 1
  pure (r, b, au)

/-- `trmm(alpha, b, a, uplo, diag)`: register_matrix/RegisterMatrix.hpp:795-838 -/
def trmmR (SS RM N : Nat) (r : Reg V) (alpha : V) (b a : MPtr) (uplo : Reg.UpLo) (diag : Bool) :
    Prog V (Reg V) := noexcept <|
  if diag then throw .logicError else
  match uplo with
  | .upper => throw .logicError
  | .lower => do
    let au ← unal SS a
    let s ← foldN N (trmmRStep SS RM alpha) (r, b, au)
    pure s.1

/-- `trmm(alpha, b, a, uplo, diag, m, n)`: register_matrix/RegisterMatrix.hpp:844-880 -/
def trmmRP (SS RM N : Nat) (r : Reg V) (alpha : V) (b a : MPtr) (_uplo : Reg.UpLo) (_diag : Bool)
    (_m n : Nat) : Prog V (Reg V) := noexcept <| do
  let au ← unal SS a
  let s ← foldN N (fun k s => if k < n then trmmRStep SS RM alpha k s else pure s) (r, b, au)
  pure s.1

/-! ### gemm -/

/-- `gemm(r, K, alpha, a, b)`: register_matrix/Gemm.hpp:31-36 -/
def gemmAcc (SS RM N : Nat) (r : Reg V) (K : Nat) (alpha : V) (a b : MPtr) : Prog V (Reg V) :=
  foldN K (fun k r => do
    let ak ← off SS a 0 k
    let bu ← unal SS b
    let bk ← off SS bu k 0
    gerF SS RM N r (Arith.mul alpha) (column ak) (row bk)) r

/-- `gemm(r, K, alpha, a, b, md, nd)`: register_matrix/Gemm.hpp:47-52 -/
def gemmAccP (SS RM N : Nat) (r : Reg V) (K : Nat) (alpha : V) (a b : MPtr) (md nd : Nat) : Prog V (Reg V) :=
  foldN K (fun k r => do
    let ak ← off SS a 0 k
    let bu ← unal SS b
    let bk ← off SS bu k 0
    gerFP SS RM N r (Arith.mul alpha) (column ak) (row bk) md nd) r

/-- `gemm(ker, K, alpha, a, b, beta, c, d)`: register_matrix/Gemm.hpp:71-92 -/
def gemmFull (SS RM N K : Nat) (alpha : V) (a b : MPtr) (beta : V) (c d : MPtr) : Prog V Unit :=
  noexcept do
    let aAligned := a.aligned && a.padded && a.so == .columnMajor
    let bAligned := b.aligned && b.padded && b.so == .rowMajor
    let r ← foldN K (fun k (r : Reg V) => do
      let au ← ((if aAligned then pure a else unal SS a) : Prog V MPtr)
      let ak ← off SS au 0 k
      let bu ← ((if bAligned then pure b else unal SS b) : Prog V MPtr)
      let bk ← off SS bu k 0
      gerF SS RM N r id (column ak) (row bk)) Reg.reset
    let r := r.scale alpha
    let r ← axpy SS RM N r beta c
    store SS RM N r d

/-- `gemm(ker, K, alpha, a, b, beta, c, d, md, nd)`: register_matrix/Gemm.hpp:112-124 -/
def gemmPart (SS RM N K : Nat) (alpha : V) (a b : MPtr) (beta : V) (c d : MPtr) (md nd : Nat) : Prog V Unit :=
  noexcept do
    let r ← foldN K (fun k (r : Reg V) => do
      let ak ← off SS a 0 k
      let bu ← unal SS b
      let bk ← off SS bu k 0
      gerFP SS RM N r id (column ak) (row bk) md nd) Reg.reset
    let r := r.scale alpha
    let r ← axpyP SS RM N r beta c md nd
    storeP SS RM N r d md nd

/-- `gemm(M, N, K, alpha, A, B, beta, C, D)`: algorithm/Gemm.hpp:42-62 -/
def gemmPtr (SS M N K : Nat) (alpha : V) (A B : MPtr) (beta : V) (C D : MPtr) : Prog V Unit :=
  tile SS (D.cachePreferredTraversal == .columnMajor) M N
    (fun RM i j => do
      let a ← off SS A i 0
      let bu ← unal SS B
      let b ← off SS bu 0 j
      let c ← off SS C i j
      let d ← off SS D i j
      gemmFull SS RM tileStep K alpha a b beta c d)
    (fun RM i j m n => do
      let a ← off SS A i 0
      let bu ← unal SS B
      let b ← off SS bu 0 j
      let c ← off SS C i j
      let d ← off SS D i j
      gemmPart SS RM tileStep K alpha a b beta c d m n)

/-- `gemm(alpha, A, B, beta, C, D)`: algorithm/Gemm.hpp:81-97; `ptr(A)` constructs a pointer -/
def gemmMat (SS : Nat) (alpha : V) (A B : Mat) (beta : V) (C D : Mat) : Prog V Unit :=
  if B.rows ≠ A.cols then throw .invalidArgument else
  if C.rows ≠ A.rows ∨ C.cols ≠ B.cols then throw .invalidArgument else
  if D.rows ≠ A.rows ∨ D.cols ≠ B.cols then throw .invalidArgument else do
  let a ← make SS A.p
  let b ← make SS B.p
  let c ← make SS C.p
  let d ← make SS D.p
  gemmPtr SS A.rows B.cols A.cols alpha a b beta c d

/-! ### ger -/

/-- full tile: dense/Ger.hpp:62-65, 69-72, 77-80 -/
def gerTileFull (SS TR RM : Nat) (alpha : V) (x y : VPtr) (A B : MPtr) (i j : Nat) : Prog V Unit := do
  let a ← off SS A i j
  let r ← loadB SS RM (TR * SS) Reg.reset Arith.one a
  let xi ← voff SS x i
  let yj ← voff SS y j
  let r ← gerF SS RM (TR * SS) r (Arith.mul alpha) xi yj
  let b ← off SS B i j
  store SS RM (TR * SS) r b

/-- partial tile: dense/Ger.hpp:87-90, 106-109, 114-117, 122-125, 131-134 -/
def gerTilePart (SS TR RM : Nat) (alpha : V) (x y : VPtr) (A B : MPtr) (i j mm nn : Nat) : Prog V Unit := do
  let a ← off SS A i j
  let r ← loadBP SS RM (TR * SS) Reg.reset Arith.one a mm nn
  let xi ← voff SS x i
  let yj ← voff SS y j
  let r ← gerFP SS RM (TR * SS) r (Arith.mul alpha) xi yj mm nn
  let b ← off SS B i j
  storeP SS RM (TR * SS) r b mm nn

/-- `ger(M, N, alpha, x, y, A, B)`, column-major: dense/Ger.hpp:40-135 -/
def gerPtr (SS TR M N : Nat) (alpha : V) (x y : VPtr) (A B : MPtr) : Prog V Unit :=
  colTiles (TR * SS) N
    (fun j => rowTiles (TR * SS) M 0
      (fun rm i => gerTileFull SS TR (rm * TR) alpha x y A B i j)
      (fun i => gerTilePart SS TR TR alpha x y A B i j (M - i) (TR * SS)))
    (fun j => rowTiles (TR * SS) M 0
      (fun rm i => gerTilePart SS TR (rm * TR) alpha x y A B i j (rm * (TR * SS)) (N - j))
      (fun i => gerTilePart SS TR TR alpha x y A B i j (M - i) (N - j)))

/-- `ger(alpha, x, y, A, B)` on column-major matrices: dense/Ger.hpp:160-185 -/
def gerMat (SS TR : Nat) (alpha : V) (x y : VArg) (A B : Mat) : Prog V Unit :=
  if A.rows ≠ x.n then throw .invalidArgument
  else if A.cols ≠ y.n then throw .invalidArgument
  else if B.rows ≠ x.n then throw .invalidArgument
  else if B.cols ≠ y.n then throw .invalidArgument
  else do
    let xp ← vmake SS x.p
    let yp ← vmake SS y.p
    let a ← make SS A.p
    let b ← make SS B.p
    gerPtr SS TR x.n y.n alpha xp yp a b

/-! ### syrk -/

/-- full tile: dense/Syrk.hpp:45-51, 56-62, 67-73 -/
def syrkTileFull (SS TR RM K : Nat) (alpha : V) (A : MPtr) (beta : V) (C D : MPtr) (i j : Nat) : Prog V Unit := do
  let c ← off SS C i j
  let r ← loadB SS RM (TR * SS) Reg.reset beta c
  let ai ← off SS A i 0
  let aj ← off SS A j 0
  let at' ← trans SS aj
  let r ← gemmAcc SS RM (TR * SS) r K alpha ai at'
  let d ← off SS D i j
  if i = j then storeLower SS RM (TR * SS) r d
  else store SS RM (TR * SS) r d

/-- partial tile: dense/Syrk.hpp:81-87, 101-108, 113-119, 124-130, 136-142 -/
def syrkTilePart (SS TR RM K : Nat) (alpha : V) (A : MPtr) (beta : V) (C D : MPtr) (i j ml mm nn : Nat) :
    Prog V Unit := do
  let c ← off SS C i j
  let r ← loadBP SS RM (TR * SS) Reg.reset beta c ml nn
  let ai ← off SS A i 0
  let aj ← off SS A j 0
  let at' ← trans SS aj
  let r ← gemmAccP SS RM (TR * SS) r K alpha ai at' mm nn
  let d ← off SS D i j
  if i = j then storeLowerP SS RM (TR * SS) r d mm nn
  else storeP SS RM (TR * SS) r d mm nn

/-- `syrkLower` after the size checks: dense/Syrk.hpp:36-144 -/
def syrkPtr (SS TR M K : Nat) (alpha : V) (A : MPtr) (beta : V) (C D : MPtr) : Prog V Unit :=
  colTiles (TR * SS) M
    (fun j => rowTiles (TR * SS) M j
      (fun rm i => syrkTileFull SS TR (rm * TR) K alpha A beta C D i j)
      (fun i => syrkTilePart SS TR TR K alpha A beta C D i j (M - i) (M - i) (TR * SS)))
    (fun j => rowTiles (TR * SS) M j
      (fun rm i => syrkTilePart SS TR (rm * TR) K alpha A beta C D i j (rm * TR * SS) (rm * TR * SS) (M - j))
      (fun i => syrkTilePart SS TR TR K alpha A beta C D i j (TR * SS) (M - i) (M - j)))

/-- `syrkLower(alpha, A, beta, C, D)`: dense/Syrk.hpp:15-145 -/
def syrkMat (SS TR : Nat) (alpha : V) (A : Mat) (beta : V) (C D : Mat) : Prog V Unit :=
  if C.rows ≠ A.rows ∨ C.cols ≠ A.rows then throw .invalidArgument
  else if D.rows ≠ A.rows ∨ D.cols ≠ A.rows then throw .invalidArgument
  else syrkPtr SS TR A.rows A.cols alpha A.p beta C.p D.p

/-! ### trmm -/

/-- `trmmLeftUpper_backend<KM, KN>(M, N, alpha, a, b, c)`: algorithm/Trmm.hpp:22-72 -/
def trmmLeftBackend (SS RM T M N : Nat) (alpha : V) (a b c : MPtr) : Prog V Unit :=
  if RM * SS ≤ M then
    colTiles T N (fun j => do
        let bj ← off SS b 0 j
        let r ← trmmL SS RM T Reg.reset alpha a .upper false bj
        let ak ← off SS a 0 (RM * SS : Nat)
        let bk ← off SS b (RM * SS : Nat) j
        let r ← gemmAcc SS RM T r (M - RM * SS) alpha ak bk
        let cj ← off SS c 0 j
        store SS RM T r cj)
      (fun j => do
        let bj ← off SS b 0 j
        let r ← gemmAccP SS RM T Reg.reset M alpha a bj (RM * SS) (N - j)
        let cj ← off SS c 0 j
        storeP SS RM T r cj (RM * SS) (N - j))
  else
    colTiles T N (fun j => do
        let bj ← off SS b 0 j
        let r ← gemmAccP SS RM T Reg.reset M alpha a bj M T
        let cj ← off SS c 0 j
        storeP SS RM T r cj M T)
      (fun j => do
        let bj ← off SS b 0 j
        let r ← gemmAccP SS RM T Reg.reset M alpha a bj M (N - j)
        let cj ← off SS c 0 j
        storeP SS RM T r cj M (N - j))

/-- `trmm(M, N, alpha, A, uplo, diagonal_unit, B, C)` (left): algorithm/Trmm.hpp:93-126 -/
def trmmLeftPtr (SS TR M N : Nat) (alpha : V) (A : MPtr) (uplo : Reg.UpLo) (diag : Bool) (B C : MPtr) : Prog V Unit :=
  if diag then throw .logicError else
  match uplo with
  | .lower => throw .logicError
  | .upper => do
    let body := fun (rm i : Nat) => do
      let a ← off SS A i i
      let b ← off SS B i 0
      let c ← off SS C i 0
      trmmLeftBackend SS (rm * TR) (TR * SS) (M - i) N alpha a b c
    let i ← loop (M + 1) (fun i => i + 2 * (TR * SS) < M && i + 4 * (TR * SS) != M) (3 * (TR * SS)) (body 3) 0
    let i ← loop (M + 1) (fun i => i + 1 * (TR * SS) < M) (2 * (TR * SS)) (body 2) i
    let _ ← loop (M + 1) (fun i => i + 0 * (TR * SS) < M) (1 * (TR * SS)) (body 1) i
    pure ()

/-- full tile of the right multiplication: algorithm/Trmm.hpp:168-171, 175-178, 183-186 -/
def trmmRTileFull (SS TR RM N : Nat) (alpha : V) (B A : MPtr) (diag : Bool) (C : MPtr) (i j : Nat) : Prog V Unit := do
  let b ← off SS B i j
  let a ← off SS A j j
  let r ← trmmR SS RM (TR * SS) Reg.reset alpha b a .lower diag
  let bk ← off SS B i (j + TR * SS : Nat)
  let ak ← off SS A (j + TR * SS : Nat) j
  let r ← gemmAcc SS RM (TR * SS) r (N - j - TR * SS) alpha bk ak
  let c ← off SS C i j
  store SS RM (TR * SS) r c

/-- bottom tile: algorithm/Trmm.hpp:193-196 -/
def trmmRTileBottom (SS TR M N : Nat) (alpha : V) (B A : MPtr) (diag : Bool) (C : MPtr) (i j : Nat) : Prog V Unit := do
  let b ← off SS B i j
  let a ← off SS A j j
  let r ← trmmRP SS TR (TR * SS) Reg.reset alpha b a .lower diag (M - i) (TR * SS)
  let bk ← off SS B i (j + TR * SS : Nat)
  let ak ← off SS A (j + TR * SS : Nat) j
  let r ← gemmAccP SS TR (TR * SS) r (N - j - TR * SS) alpha bk ak (M - i) (TR * SS)
  let c ← off SS C i j
  storeP SS TR (TR * SS) r c (M - i) (TR * SS)

/-- tile of the last, incomplete column strip: algorithm/Trmm.hpp:210-212, 216-218, 223-225, 231-233 -/
def trmmRTileRight (SS TR RM N : Nat) (alpha : V) (B A : MPtr) (diag : Bool) (C : MPtr) (i j mm : Nat) :
    Prog V Unit := do
  let b ← off SS B i j
  let a ← off SS A j j
  let r ← trmmRP SS RM (TR * SS) Reg.reset alpha b a .lower diag mm (N - j)
  let c ← off SS C i j
  storeP SS RM (TR * SS) r c mm (N - j)

/-- `trmm(M, N, alpha, B, A, uplo, diagonal_unit, C)` (right): algorithm/Trmm.hpp:146-242 -/
def trmmRightPtr (SS TR M N : Nat) (alpha : V) (B A : MPtr) (uplo : Reg.UpLo) (diag : Bool) (C : MPtr) : Prog V Unit :=
  match uplo with
  | .upper => throw .logicError
  | .lower => colTiles (TR * SS) N
    (fun j => rowTiles (TR * SS) M 0
      (fun rm i => trmmRTileFull SS TR (rm * TR) N alpha B A diag C i j)
      (fun i => trmmRTileBottom SS TR M N alpha B A diag C i j))
    (fun j => rowTiles (TR * SS) M 0
      (fun rm i => trmmRTileRight SS TR (rm * TR) N alpha B A diag C i j (rm * (TR * SS)))
      (fun i => trmmRTileRight SS TR TR N alpha B A diag C i j (M - i)))

/-- `trmm(alpha, A, uplo, diag, B, C)`: algorithm/Trmm.hpp:260-277 -/
def trmmLeftMat (SS TR : Nat) (alpha : V) (A : Mat) (uplo : Reg.UpLo) (diag : Bool) (B C : Mat) : Prog V Unit :=
  if A.rows ≠ B.rows ∨ A.cols ≠ B.rows then throw .invalidArgument
  else if C.rows ≠ B.rows ∨ C.cols ≠ B.cols then throw .invalidArgument
  else do
    let a ← make SS A.p
    let b ← make SS B.p
    let c ← make SS C.p
    trmmLeftPtr SS TR B.rows B.cols alpha a uplo diag b c

/-- `trmm(alpha, B, A, uplo, diag, C)`: algorithm/Trmm.hpp:295-310 -/
def trmmRightMat (SS TR : Nat) (alpha : V) (B A : Mat) (uplo : Reg.UpLo) (diag : Bool) (C : Mat) : Prog V Unit :=
  if A.rows ≠ B.cols ∨ A.cols ≠ B.cols then throw .invalidArgument
  else if C.rows ≠ B.rows ∨ C.cols ≠ B.cols then throw .invalidArgument
  else do
    let b ← make SS B.p
    let a ← make SS A.p
    let c ← make SS C.p
    trmmRightPtr SS TR B.rows B.cols alpha b a uplo diag c

/-! ### potrf -/

/-- `potrf_backend` for dense matrices: dense/Potrf.hpp:20-63, with the assertions of l.30-31 -/
def potrfBackendDense (SS RM KN M N : Nat) (A L : MPtr) (k i : Nat) : Prog V Unit := do
  assert (decide (i < M))
  assert (decide (k < N))
  let a ← off SS A i k
  let r ← loadB SS RM KN Reg.reset Arith.one a
  let a ← off SS L i 0
  let b ← off SS L k 0
  let r ← foldN k (fun l (r : Reg V) => do
    let al ← off SS a 0 l
    let bt ← trans SS b
    let bl ← off SS bt l 0
    gerF SS RM KN r (Arith.mul (Arith.neg Arith.one)) (column al) (row bl)) r
  if i = k then do
    let r ← r.potrf SS RM KN
    let d ← off SS L i k
    if k + KN ≤ N then storeLower SS RM KN r d
    else storeLowerP SS RM KN r d (min (M - i) (RM * SS)) (N - k)
  else do
    let lk ← off SS L k k
    let lt ← trans SS lk
    let r ← r.trsm SS RM KN .right .upper lt
    let d ← off SS L i k
    if k + KN ≤ N then store SS RM KN r d
    else storeP SS RM KN r d (min (M - i) (RM * SS)) (N - k)

/-- `potrf_backend` for panel matrices: panel/Potrf.hpp:23-56, with the assertions of l.33-34 -/
def potrfBackendPanel (SS RM KN M N : Nat) (A L : MPtr) (k i : Nat) : Prog V Unit := do
  assert (decide (i < M))
  assert (decide (k < N))
  let a ← off SS A i k
  let r ← load SS RM KN Reg.reset a
  let a ← off SS L i 0
  let b ← off SS L k 0
  let r ← foldN k (fun l (r : Reg V) => do
    let al ← off SS a 0 l
    let bl ← off SS b 0 l
    let bt ← trans SS bl
    gerF SS RM KN r (Arith.mul (Arith.neg Arith.one)) (column al) (row bt)) r
  let r ← ((if i = k then r.potrf SS RM KN else do
    let lk ← off SS L k k
    let lt ← trans SS lk
    r.trsm SS RM KN .right .upper lt) : Prog V (Reg V))
  let d ← off SS L i k
  if k + KN ≤ N then store SS RM KN r d
  else storeP SS RM KN r d (min (M - i) (RM * SS)) (N - k)

/-- `potrf(A, L)` for dense matrices after the size checks: dense/Potrf.hpp:87-105 -/
def potrfDensePtr (SS TR KN M N : Nat) (A L : MPtr) : Prog V Unit :=
  potrfLoops (TR * SS) KN M N (fun rm k i => potrfBackendDense SS (rm * TR) KN M N A L k i)

/-- `potrf(A, L)` for panel matrices after the size checks: panel/Potrf.hpp:87-105 -/
def potrfPanelPtr (SS KN M N : Nat) (A L : MPtr) : Prog V Unit :=
  potrfLoops (1 * SS) KN M N (fun rm k i => potrfBackendPanel SS (rm * 1) KN M N A L k i)

/-- `potrf(A, L)`, dense: dense/Potrf.hpp:66-106 -/
def potrfDenseMat (SS TR : Nat) (A L : Mat) : Prog V Unit :=
  if A.cols > A.rows then throw .invalidArgument
  else if L.rows ≠ A.rows then throw .invalidArgument
  else if L.cols ≠ A.cols then throw .invalidArgument
  else potrfDensePtr SS TR 4 A.rows A.cols A.p L.p

/-- `potrf(A, L)`, panel: panel/Potrf.hpp:59-106 -/
def potrfPanelMat (SS KN : Nat) (A L : Mat) : Prog V Unit :=
  if A.cols > A.rows then throw .invalidArgument
  else if L.rows ≠ A.rows then throw .invalidArgument
  else if L.cols ≠ A.cols then throw .invalidArgument
  else potrfPanelPtr SS KN A.rows A.cols A.p L.p

/-! ### LU -/

/-- `*(~x)(i)`: dense/Iamax.hpp:87, dense/Swap.hpp:43 -/
def vderef (SS : Nat) (x : VPtr) (i : Nat) : Prog V V := do
  let u ← vunal SS x
  let q ← voff SS u i
  q.get SS 0

/-- `*(~x)(i) = v`: dense/Swap.hpp:43 -/
def vassign (SS : Nat) (x : VPtr) (i : Nat) (v : V) : Prog V Unit := do
  let u ← vunal SS x
  let q ← voff SS u i
  q.set SS 0 v

/-- `iamax(n, x)`: dense/Iamax.hpp:66-95, with the assertion of l.70 -/
def iamaxPtr (SS n : Nat) (x : VPtr) : Prog V Nat := do
  assert (decide (0 < n))
  let v0 ← x.get SS 0
  let r ← foldFrom 1 n (fun i s => do
    let v ← vderef SS x i
    pure (if Arith.gt (Arith.abs v) s.1 then (Arith.abs v, i) else s)) (Arith.abs v0, 0)
  pure r.2

/-- `iamax(x)`: dense/Iamax.hpp:170-178 -/
def iamaxVec (SS : Nat) (x : VArg) : Prog V Nat :=
  if x.n = 0 then throw .invalidArgument else do
  let p ← vmake SS x.p
  iamaxPtr SS x.n p

/-- `swap(n, x, y)`: dense/Swap.hpp:35-44 -/
def swapPtr (SS n : Nat) (x y : VPtr) : Prog V Unit :=
  forN n (fun i => do
    let t ← vderef SS x i
    let u ← vderef SS y i
    vassign SS x i u
    vassign SS y i t)

/-- `swap(x, y)`: dense/Swap.hpp:57-70 -/
def swapVec (SS : Nat) (x y : VArg) : Prog V Unit :=
  if y.n ≠ x.n then throw .invalidArgument
  else if x.n > 0 then do
    let p ← vmake SS x.p
    let q ← vmake SS y.p
    swapPtr SS x.n p q
  else pure ()

/-- `laswp(A, k0, k1, ipiv)`: dense/Laswp.hpp:37-43 -/
def laswp (SS n : Nat) (A : MPtr) (k0 k1 : Nat) (ipiv : Nat → Nat) : Prog V Unit :=
  forFrom k0 k1 (fun k => onlyIf (k != ipiv k) (do
    let u ← unal SS A
    let p ← off SS u k 0
    let q ← off SS u (ipiv k : Nat) 0
    swapVec SS ⟨row p, n⟩ ⟨row q, n⟩))

/-- `*(~p)(i, j)`: dense/Getf2.hpp:68, 72 -/
def derefAt (SS : Nat) (p : MPtr) (i j : Nat) : Prog V V := do
  let u ← unal SS p
  let q ← off SS u i j
  Prog.read q.ptr

/-- `*(~p)(i, j) = v`: dense/Getf2.hpp:72 -/
def assignAt (SS : Nat) (p : MPtr) (i j : Nat) (v : V) : Prog V Unit := do
  let u ← unal SS p
  let q ← off SS u i j
  Prog.write q.ptr v

/-- one iteration of column-major getf2: dense/Getf2.hpp:60-76 -/
def getf2Step (SS TR m n : Nat) (A : MPtr) (k : Nat) (ipiv : Nat → Nat) : Prog V (Nat → Nat) := do
  let u ← unal SS A
  let kk ← off SS u k k
  let r ← iamaxPtr SS (m - k) (column kk)
  let ip := r + k
  onlyIf (ip != k) (do
    let p ← off SS u k 0
    let q ← off SS u (ip : Nat) 0
    swapPtr SS n (row p) (row q))
  let d ← derefAt SS A k k
  if Arith.eq d Arith.zero then throw .invalidArgument else do
  forFrom (k + 1) m (fun i => do
    let x ← derefAt SS A i k
    let d ← derefAt SS A k k
    assignAt SS A i k (Arith.div x d))
  onlyIf (decide (k + 1 < m) && decide (k + 1 < n)) (do
    let x ← off SS u (k + 1 : Nat) k
    let y ← off SS u k (k + 1 : Nat)
    let a ← off SS u (k + 1 : Nat) (k + 1 : Nat)
    let b ← off SS u (k + 1 : Nat) (k + 1 : Nat)
    gerPtr SS TR (m - k - 1) (n - k - 1) (Arith.neg Arith.one) (column x) (row y) a b)
  pure (setAt ipiv k ip)

/-- `getf2(m, n, A, ipiv)`, column-major: dense/Getf2.hpp:52-77 -/
def getf2Ptr (SS TR m n : Nat) (A : MPtr) (ipiv : Nat → Nat) : Prog V (Nat → Nat) :=
  foldN (min m n) (getf2Step SS TR m n A) ipiv

/-- one block of column-major getrf: dense/Getrf.hpp:66-101. `trsm` is a scalar loop over elements. -/
def getrfStep (SS TR M N : Nat) (A : MPtr) (k : Nat) (ipiv : Nat → Nat) : Prog V (Nat → Nat) := do
  let u ← unal SS A
  let kk ← off SS u k k
  let p ← getf2Ptr SS TR (M - k) (TR * SS) kk (fun i => ipiv (k + i))
  let ipiv := addRange (mergeAt ipiv k p) k (k + TR * SS)
  laswp SS k A k (k + TR * SS) ipiv
  laswp SS (N - k - TR * SS) (A.off SS 0 (k + TR * SS : Nat)) k (k + TR * SS) ipiv
  trsmMat SS .lower true ⟨A.off SS k k, TR * SS, TR * SS⟩ ⟨A.off SS k (k + TR * SS : Nat), TR * SS, N - k - TR * SS⟩
    ⟨A.off SS k (k + TR * SS : Nat), TR * SS, N - k - TR * SS⟩
  let p1 ← off SS A (k + TR * SS : Nat) k
  let p2 ← off SS A k (k + TR * SS : Nat)
  let p3 ← off SS A (k + TR * SS : Nat) (k + TR * SS : Nat)
  let p4 ← off SS A (k + TR * SS : Nat) (k + TR * SS : Nat)
  gemmPtr SS (M - k - TR * SS) (N - k - TR * SS) (TR * SS) (Arith.neg Arith.one) p1 p2 Arith.one p3 p4
  pure ipiv

/-- `getrf(A, ipiv)`, column-major: dense/Getrf.hpp:52-119 -/
def getrfPtr (SS TR M N : Nat) (A : MPtr) (ipiv : Nat → Nat) : Prog V (Nat → Nat) := do
  let A ← make SS A
  let r ← loopS (M + 1) (fun k => decide (k + TR * SS < M) && decide (k + TR * SS < N)) (TR * SS)
    (getrfStep SS TR M N A) 0 ipiv
  let k := r.1
  let ipiv ← (if k < M ∧ k < N then do
      let kk ← off SS A k k
      let p ← getf2Ptr SS TR (M - k) (N - k) kk (fun i => r.2 (k + i))
      pure (mergeAt r.2 k p)
    else pure r.2)
  let ipiv := addRange ipiv k (min M N)
  laswp SS k A k (min M N) ipiv
  pure ipiv

end Checked
end Blast
