import Verif.History
import Verif.Views
/-
Client programs that call the algorithms on submatrices and transposes of their matrix objects, possibly several views of one object in one call.
-/
set_option linter.unusedSectionVars false
namespace Blast
open Prog Reg
variable {V : Type} [Arith V]

/-- A matrix operand as the client writes it: a variable, `submatrix<AF>(e, i, j, m, n)` (views/Submatrix.hpp:234-282) or `trans(e)`
(expressions/MatTransExpr.hpp:139-159). More permissive than the C++ types: a submatrix of a transpose does not compile, and a transpose as the
output operand of a call does not either (`MatTransExpr::operator()` returns by value, MatTransExpr.hpp:42-47). -/
inductive VExpr where
  | var (x : Nat)
  | sub (e : VExpr) (af : Bool) (i j m n : Nat)
  | tr (e : VExpr)
  deriving DecidableEq, Repr

namespace VExpr

/-- the variable the operand refers to -/
def base : VExpr → Nat
  | var x => x
  | sub e _ _ _ _ _ => e.base
  | tr e => e.base

/-- the view object that the expression constructs when the variables are the objects `obj`: views/Submatrix.hpp:234-282,
expressions/MatTransExpr.hpp:139-159 -/
def eval (obj : Nat → Option Container) : VExpr → Option MExpr
  | var x => (obj x).map .obj
  | sub e af i j m n => (e.eval obj).map (fun E => E.submatrix af i j m n)
  | tr e => (e.eval obj).map MExpr.trans

end VExpr

/-- A call of an algorithm on views. `piv`, `junk` as in `Call`. -/
inductive BCall (V : Type) where
  /-- `assign(a, b)` (Matrix.hpp:71-85), `submatrix(…) = b` (views/Submatrix.hpp:77-82) -/
  | assign (a b : VExpr)
  /-- `reset(submatrix<AF>(e, i, j, m, n))`: views/Submatrix.hpp:290-296 -/
  | reset (e : VExpr) (af : Bool) (i j m n : Nat)
  /-- `a(i, j) = v`: views/Submatrix.hpp:127-134 -/
  | set (a : VExpr) (i j : Nat) (v : V)
  /-- reading `a(i, j)`: views/Submatrix.hpp:136-142, expressions/MatTransExpr.hpp:42-47 -/
  | get (a : VExpr) (i j : Nat)
  /-- `randomize(a)`: algorithm/Randomize.hpp:51-64 -/
  | randomize (a : VExpr) (rnd : Nat → Nat → V)
  /-- `gemm(alpha, A, B, beta, C, D)`: algorithm/Gemm.hpp -/
  | gemm (alpha : V) (a b : VExpr) (beta : V) (c d : VExpr)
  /-- `trmm(alpha, A, UpLo::Upper, false, B, C)`: algorithm/Trmm.hpp:260-277 -/
  | trmmLeft (alpha : V) (a b c : VExpr)
  /-- `trmm(alpha, B, A, UpLo::Lower, false, C)`: algorithm/Trmm.hpp:295-310 -/
  | trmmRight (alpha : V) (b a c : VExpr)
  /-- `syrkLower(alpha, A, beta, C, D)`: dense/Syrk.hpp:15-145 -/
  | syrk (alpha : V) (a : VExpr) (beta : V) (c d : VExpr)
  /-- `trsm<UPLO, UNIT>(A, B, X)`: dense/Trsm.hpp:17-66 -/
  | trsm (uplo : UpLo) (unit : Bool) (a b x : VExpr)
  /-- `potrf(A, L)`: dense/Potrf.hpp:66-106 and panel/Potrf.hpp:59-106 -/
  | potrf (a l : VExpr)
  /-- `getf2(A, ipiv)`: dense/Getf2.hpp:103-107, 133-164 -/
  | getf2 (a : VExpr) (piv : Nat) (junk : Nat → Nat)
  /-- `getrf(A, ipiv)`: dense/Getrf.hpp:52-119, 141-162 -/
  | getrf (a : VExpr) (piv : Nat) (junk : Nat → Nat)
  /-- `laswp(A, k0, k1, ipiv)`: dense/Laswp.hpp:40-46 -/
  | laswp (a : VExpr) (k0 k1 piv : Nat)

/-- one step of a client program with views: a step of Lifecycle, or a call -/
inductive BStep (V : Type) where
  /-- a step on whole objects -/
  | whole (st : HStep V)
  /-- a call on views -/
  | blk (c : BCall V)

namespace HWorld

/-- One call on views, on a target whose tile size equals the SIMD width `SS`; `KN`, `dv` as in `HWorld.call`. A variable that does not exist:
undefined behaviour. -/
def bcall (SS KN : Nat) (dv : V → V → V) (h : HWorld V) : BCall V → Outcome V × HWorld V
  | .assign a b =>
    match a.eval h.w.obj, b.eval h.w.obj with
    | some A, some B => h.exec (A.assign SS B)
    | _, _ => (.ub, h)
  | .reset e af i j m n =>
    match (VExpr.sub e af i j m n).eval h.w.obj with
    | some E => h.exec (E.reset SS)
    | none => (.ub, h)
  | .set a i j v =>
    match a.eval h.w.obj with
    | some A => h.exec (A.set SS i j v)
    | none => (.ub, h)
  | .get a i j =>
    match a.eval h.w.obj with
    | some A =>
      let r := h.w.exec (A.get SS i j) (fun v => .value v)
      (r.1, ⟨r.2, h.piv⟩)
    | none => (.ub, h)
  | .randomize a rnd =>
    match a.eval h.w.obj with
    | some A => h.exec (randomizeMat SS A rnd)
    | none => (.ub, h)
  | .gemm alpha a b beta c d =>
    match a.eval h.w.obj, b.eval h.w.obj, c.eval h.w.obj, d.eval h.w.obj with
    | some A, some B, some C, some D => h.exec (gemmMat SS alpha (A.mat SS) (B.mat SS) beta (C.mat SS) (D.mat SS))
    | _, _, _, _ => (.ub, h)
  | .trmmLeft alpha a b c =>
    match a.eval h.w.obj, b.eval h.w.obj, c.eval h.w.obj with
    | some A, some B, some C => h.exec (trmmLeftMat SS 1 alpha (A.mat SS) .upper false (B.mat SS) (C.mat SS))
    | _, _, _ => (.ub, h)
  | .trmmRight alpha b a c =>
    match a.eval h.w.obj, b.eval h.w.obj, c.eval h.w.obj with
    | some A, some B, some C => h.exec (trmmRightMat SS 1 alpha (B.mat SS) (A.mat SS) .lower false (C.mat SS))
    | _, _, _ => (.ub, h)
  | .syrk alpha a beta c d =>
    match a.eval h.w.obj, c.eval h.w.obj, d.eval h.w.obj with
    | some A, some C, some D => h.exec (syrkMat SS 1 alpha (A.matAl SS) beta (C.matAl SS) (D.matAl SS))
    | _, _, _ => (.ub, h)
  | .trsm uplo unit a b x =>
    match a.eval h.w.obj, b.eval h.w.obj, x.eval h.w.obj with
    | some A, some B, some X => h.exec (trsmMat SS uplo unit (A.mat SS) (B.mat SS) (X.mat SS))
    | _, _, _ => (.ub, h)
  | .potrf a l =>
    match a.eval h.w.obj, l.eval h.w.obj with
    | some A, some L =>
      if A.isPanel then h.exec (potrfPanelMat SS KN (A.mat SS) (L.mat SS)) else h.exec (potrfDenseMat SS 1 (A.matAl SS) (L.matAl SS))
    | _, _ => (.ub, h)
  | .getf2 a P junk =>
    match a.eval h.w.obj with
    | some A =>
      match A.so with
      | .columnMajor => h.execPiv (getf2Ptr SS 1 A.rows A.cols (A.mptr SS) (h.piv P)) P junk
      | .rowMajor => h.execPiv (getf2Row SS dv (A.mat SS) (h.piv P)) P junk
    | none => (.ub, h)
  | .getrf a P junk =>
    match a.eval h.w.obj with
    | some A =>
      match A.so with
      | .columnMajor => h.execPiv (getrfPtr SS 1 A.rows A.cols (A.mptr SS) (h.piv P)) P junk
      | .rowMajor => h.execPiv (getrfRow SS dv (A.mat SS) (h.piv P)) P junk
    | none => (.ub, h)
  | .laswp a k0 k1 P =>
    match a.eval h.w.obj with
    | some A => h.exec (Blast.laswp SS A.cols (A.mptr SS) k0 k1 (h.piv P))
    | none => (.ub, h)

/-- one step -/
def bstep (SS KN : Nat) (dv : V → V → V) (h : HWorld V) : BStep V → Outcome V × HWorld V
  | .whole st => h.step SS KN dv st
  | .blk c => h.bcall SS KN dv c

/-- a whole client program -/
def brun (SS KN : Nat) (dv : V → V → V) (h : HWorld V) : List (BStep V) → List (Outcome V) × HWorld V
  | [] => ([], h)
  | s :: l =>
    let r := h.bstep SS KN dv s
    if r.1.final then ([r.1], r.2) else
      let r' := brun SS KN dv r.2 l
      (r.1 :: r'.1, r'.2)

end HWorld
end Blast
