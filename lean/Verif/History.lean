import Verif.Lifecycle
import Verif.Trmm
import Verif.Syrk
import Verif.TrsmDense
import Verif.Potrf
import Verif.Lu
/-
Client programs that, besides the operations of `Lifecycle`, call the algorithms of the library on their matrix objects: randomize, makePositiveDefinite,
trmm, syrk, trsm, potrf, getf2, getrf, laswp. The programs called are those of the other modules.
-/
set_option linter.unusedSectionVars false
namespace Blast
open Prog Reg
variable {V : Type} [Arith V]

/-- A call of an algorithm; arguments are variable numbers. `piv` are the numbers of the client's pivot arrays. `junk` is what a factorization that
throws leaves in the pivot array (nothing is assumed of it: the partial updates of the array are not modelled). -/
inductive Call (V : Type) where
  /-- `randomize(x)`: algorithm/Randomize.hpp:51-57; `rnd i j` is the number drawn for element (i,j) -/
  | randomize (x : Nat) (rnd : Nat → Nat → V)
  /-- `makePositiveDefinite(x)`: algorithm/MakePositiveDefinite.hpp:24-41; `t`: address of its temporary, `etN`: `ET(N)` -/
  | makePositiveDefinite (x : Nat) (t : Int) (rnd : Nat → Nat → V) (etN : V)
  /-- `trmm(alpha, A, UpLo::Upper, false, B, C)`: algorithm/Trmm.hpp:260-277 -/
  | trmmLeft (alpha : V) (a b c : Nat)
  /-- `trmm(alpha, B, A, UpLo::Lower, false, C)`: algorithm/Trmm.hpp:295-310 -/
  | trmmRight (alpha : V) (b a c : Nat)
  /-- `syrkLower(alpha, A, beta, C, D)`: dense/Syrk.hpp:15-145 -/
  | syrk (alpha : V) (a : Nat) (beta : V) (c d : Nat)
  /-- `trsm<UPLO, UNIT>(A, B, X)`: dense/Trsm.hpp:17-66 -/
  | trsm (uplo : UpLo) (unit : Bool) (a b x : Nat)
  /-- `potrf(A, L)`: dense/Potrf.hpp:66-106 and panel/Potrf.hpp:59-106, chosen by the class of A -/
  | potrf (a l : Nat)
  /-- `getf2(A, ipiv)`: dense/Getf2.hpp:103-107, 133-164, chosen by the storage order of A -/
  | getf2 (a piv : Nat) (junk : Nat → Nat)
  /-- `getrf(A, ipiv)`: dense/Getrf.hpp:52-119, 141-162, chosen by the storage order of A -/
  | getrf (a piv : Nat) (junk : Nat → Nat)
  /-- `laswp(x, k0, k1, ipiv)`: dense/Laswp.hpp:40-46 -/
  | laswp (x k0 k1 piv : Nat)

/-- one step of a client program: an operation on objects, or a call -/
inductive HStep (V : Type) where
  | op (o : Op V)
  | call (c : Call V)

/-- the world and the client's pivot arrays -/
structure HWorld (V : Type) where
  w : World V
  piv : Nat → Nat → Nat

namespace HWorld

/-- replace pivot array `P` -/
def setPiv (f : Nat → Nat → Nat) (P : Nat) (p : Nat → Nat) : Nat → Nat → Nat := fun Q => if Q = P then p else f Q

/-- a factorization: the pivot array is written by the call -/
def execPiv (h : HWorld V) (p : Prog V (Nat → Nat)) (P : Nat) (junk : Nat → Nat) : Outcome V × HWorld V :=
  match p h.w.mem with
  | .ok q m => (.done, ⟨{ h.w with mem := m }, setPiv h.piv P q⟩)
  | .throw e m => (.exn e, ⟨{ h.w with mem := m }, setPiv h.piv P junk⟩)
  | .terminate => (.terminated, h)
  | .ub => (.ub, h)
  | .diverge => (.ub, h)

/-- run a call; exceptions leave the memory as it is at the throw -/
def exec {α : Type} (h : HWorld V) (p : Prog V α) : Outcome V × HWorld V :=
  let r := h.w.exec p (fun _ => .done)
  (r.1, ⟨r.2, h.piv⟩)

/-- One call, on a target whose tile size equals the SIMD width `SS`. `KN`: columns of a tile of panel potrf (`TileSize`, panel/Potrf.hpp), `dv`: division
in row-major getf2/getrf. A variable that does not exist: undefined behaviour. -/
def call (SS KN : Nat) (dv : V → V → V) (h : HWorld V) : Call V → Outcome V × HWorld V
  | .randomize x rnd =>
    match h.w.obj x with
    | some c => h.exec (randomizeMat SS (.obj c) rnd)
    | none => (.ub, h)
  | .makePositiveDefinite x t rnd etN =>
    match h.w.obj x with
    | some c => h.exec (Blast.makePositiveDefinite SS t rnd etN (.obj c))
    | none => (.ub, h)
  | .trmmLeft alpha a b c =>
    match h.w.obj a, h.w.obj b, h.w.obj c with
    | some A, some B, some C => h.exec (trmmLeftMat SS 1 alpha (A.mat SS) .upper false (B.mat SS) (C.mat SS))
    | _, _, _ => (.ub, h)
  | .trmmRight alpha b a c =>
    match h.w.obj a, h.w.obj b, h.w.obj c with
    | some A, some B, some C => h.exec (trmmRightMat SS 1 alpha (B.mat SS) (A.mat SS) .lower false (C.mat SS))
    | _, _, _ => (.ub, h)
  | .syrk alpha a beta c d =>
    match h.w.obj a, h.w.obj c, h.w.obj d with
    | some A, some C, some D => h.exec (syrkMat SS 1 alpha (A.mat SS) beta (C.mat SS) (D.mat SS))
    | _, _, _ => (.ub, h)
  | .trsm uplo unit a b x =>
    match h.w.obj a, h.w.obj b, h.w.obj x with
    | some A, some B, some X => h.exec (trsmMat SS uplo unit (A.mat SS) (B.mat SS) (X.mat SS))
    | _, _, _ => (.ub, h)
  | .potrf a l =>
    match h.w.obj a, h.w.obj l with
    | some A, some L =>
      if A.isPanel then h.exec (potrfPanelMat SS KN (A.mat SS) (L.mat SS)) else h.exec (potrfDenseMat SS 1 (A.mat SS) (L.mat SS))
    | _, _ => (.ub, h)
  | .getf2 a P junk =>
    match h.w.obj a with
    | some A =>
      match A.so with
      | .columnMajor => h.execPiv (getf2Ptr SS 1 A.rows A.cols (A.mptr SS) (h.piv P)) P junk
      | .rowMajor => h.execPiv (getf2Row SS dv (A.mat SS) (h.piv P)) P junk
    | none => (.ub, h)
  | .getrf a P junk =>
    match h.w.obj a with
    | some A =>
      match A.so with
      | .columnMajor => h.execPiv (getrfPtr SS 1 A.rows A.cols (A.mptr SS) (h.piv P)) P junk
      | .rowMajor => h.execPiv (getrfRow SS dv (A.mat SS) (h.piv P)) P junk
    | none => (.ub, h)
  | .laswp x k0 k1 P =>
    match h.w.obj x with
    | some X => h.exec (Blast.laswp SS X.cols (X.mptr SS) k0 k1 (h.piv P))
    | none => (.ub, h)

/-- one step -/
def step (SS KN : Nat) (dv : V → V → V) (h : HWorld V) : HStep V → Outcome V × HWorld V
  | .op o =>
    let r := h.w.step false SS o
    (r.1, ⟨r.2, h.piv⟩)
  | .call c => h.call SS KN dv c

/-- a whole client program -/
def run (SS KN : Nat) (dv : V → V → V) (h : HWorld V) : List (HStep V) → List (Outcome V) × HWorld V
  | [] => ([], h)
  | s :: l =>
    let r := h.step SS KN dv s
    if r.1.final then ([r.1], r.2) else
      let r' := run SS KN dv r.2 l
      (r.1 :: r'.1, r'.2)

/-- the start of the program; the pivot arrays contain anything -/
def start (piv : Nat → Nat → Nat) : HWorld V := ⟨World.empty, piv⟩

end HWorld
end Blast
