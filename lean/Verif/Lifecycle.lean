import Verif.Props.Gemm
import Verif.MakePosDef
/-
Life cycle of matrix objects: construction, copy, move, assignment, element access, gemm, destruction, and the heap.

Models the constructors, destructors and assignment operators of
/repo/include/blast/math/dense/{Dynamic,Static}Matrix.hpp and /repo/include/blast/math/panel/{Dynamic,Static}PanelMatrix.hpp.
-/
set_option linter.unusedSectionVars false
namespace Blast
open Prog
variable {V : Type} [Arith V]

/-- A block obtained from an allocation function: number of elements, and whether the form of `operator new[]` with a
`std::align_val_t` argument was used. -/
structure HeapBlock where
  count : Nat
  aligned : Bool
  deriving DecidableEq, Repr

/-- What exists at one moment of the execution: memory, the blocks obtained from `operator new[]` and not yet released,
and the matrix objects (variables are numbered). -/
structure World (V : Type) where
  mem : Mem V
  heap : Int → Option HeapBlock
  obj : Nat → Option Container

/-- classes whose storage comes from `operator new[]` -/
def Container.isDyn (c : Container) : Bool :=
  match c.kind with
  | .dynDense => true
  | .dynPanel => true
  | _ => false

/-- One step of a client program. The address `data` of a new object is chosen by the environment. -/
inductive Op (V : Type) where
  /-- `DynamicMatrix x(m, n)`, `StaticMatrix<T,M,N,SO> x`, … : dense/DynamicMatrix.hpp:33-41, dense/StaticMatrix.hpp:35-40,
  panel/DynamicPanelMatrix.hpp:57-67, panel/StaticPanelMatrix.hpp:60-65 -/
  | create (x : Nat) (c : Container)
  /-- `StaticMatrix x(v)`: dense/StaticMatrix.hpp:43-46 -/
  | createFill (x : Nat) (c : Container) (v : V)
  /-- `StaticMatrix x {{…}, …}`: dense/StaticMatrix.hpp:66-87, panel/StaticPanelMatrix.hpp:68-89 -/
  | createList (x : Nat) (c : Container) (l : List (List V))
  /-- `auto x(y)` -/
  | copyCreate (x y : Nat) (data : Int)
  /-- `auto x(std::move(y))` -/
  | moveCreate (x y : Nat) (data : Int)
  /-- `x = y` for objects of the same class -/
  | copyAssign (x y : Nat)
  /-- `x = std::move(y)` for objects of the same class -/
  | moveAssign (x y : Nat)
  /-- `assign(x, y)`: Matrix.hpp:71-85 -/
  | assign (x y : Nat)
  /-- `x = v`: dense/DynamicMatrix.hpp:62-69 etc. -/
  | fill (x : Nat) (v : V)
  /-- `x(i, j) = v` -/
  | set (x i j : Nat) (v : V)
  /-- read `x(i, j)` -/
  | get (x i j : Nat)
  /-- `x == y`: Matrix.hpp:53-68 -/
  | equal (x y : Nat)
  /-- `x.reset()` -/
  | reset (x : Nat)
  /-- `gemm(alpha, a, b, beta, c, d)` -/
  | gemm (alpha : V) (a b : Nat) (beta : V) (c d : Nat)
  /-- end of life of `x` -/
  | destroy (x : Nat)

/-- What the client program sees of one step. -/
inductive Outcome (V : Type) where
  | done
  | value (v : V)
  | flag (b : Bool)
  | exn (e : Exn)
  | terminated
  | ub

/-- after these the program does not continue -/
def Outcome.final : Outcome V → Bool
  | .terminated => true
  | .ub => true
  | _ => false

/-- f with the value at x replaced by v -/
def upd {α : Type} (f : Nat → Option α) (x : Nat) (v : Option α) : Nat → Option α := fun y => if y = x then v else f y

namespace World

/-- a program that works on existing objects -/
def exec {α : Type} (w : World V) (p : Prog V α) (k : α → Outcome V) : Outcome V × World V :=
  match p w.mem with
  | .ok a m => (k a, { w with mem := m })
  | .throw e m => (.exn e, { w with mem := m })
  | .terminate => (.terminated, w)
  | .ub => (.ub, w)
  | .diverge => (.ub, w)

/-- A new object `x`; `p` is the body of its constructor, run after the storage has been obtained. If it throws, the object does
not come into existence and its storage is given back. -/
def construct (SS : Nat) (w : World V) (x : Nat) (c : Container) (p : Prog V Unit) : Outcome V × World V :=
  match (c.construct SS >>= fun _ => p) w.mem with
  | .ok _ m => (.done,
      { mem := m
        heap := if c.isDyn then fun a => if a = c.data then some ⟨c.capacity SS, true⟩ else w.heap a else w.heap
        obj := upd w.obj x (some c) })
  | .throw e m => (.exn e, { w with mem := fun z => if c.data ≤ z ∧ z < c.data + c.capacity SS then none else m z })
  | .terminate => (.terminated, w)
  | .ub => (.ub, w)
  | .diverge => (.ub, w)

/-- `delete[] p` with the plain deallocation function (dense/DynamicMatrix.hpp:58, panel/DynamicPanelMatrix.hpp:84).
`strict`: releasing a block obtained from the aligned form of `operator new[]` with the plain form is undefined behaviour
([new.delete.array]). Without `strict` the two forms are interchangeable, as they are with glibc. -/
def delete (strict : Bool) (w : World V) (p : Int) : Outcome V × World V :=
  match w.heap p with
  | none => (.ub, w)
  | some b =>
    if strict && b.aligned then (.ub, w)
    else (.done, { w with
      mem := fun z => if p ≤ z ∧ z < p + b.count then none else w.mem z
      heap := fun a => if a = p then none else w.heap a })

/-- the implicit copy constructor/assignment of the static classes: the member array is copied -/
def copyCells (src dst : Int) (n : Nat) : Prog V Unit :=
  forN n (fun k => do
    let v ← read (src + k)
    write (dst + k) v)

/-- one step of the client program -/
def step (strict : Bool) (SS : Nat) (w : World V) : Op V → Outcome V × World V
  | .create x c => w.construct SS x c (pure ())
  | .createFill x c v => w.construct SS x c (fillN c.data (c.capacity SS) v)
  | .createList x c l => w.construct SS x c (c.initList SS l)
  | .copyCreate x y data =>
    match w.obj y with
    | none => (.ub, w)
    | some d =>
      -- dense/DynamicMatrix.hpp:44-47, panel/DynamicPanelMatrix.hpp:70-73: throws before anything is allocated
      if d.isDyn then (.exn .logicError, w)
      else w.construct SS x { d with data := data } (copyCells d.data data (d.capacity SS))
  | .moveCreate x y data =>
    match w.obj y with
    | none => (.ub, w)
    | some d =>
      -- dense/DynamicMatrix.hpp:50-53, panel/DynamicPanelMatrix.hpp:76-79: throws in a noexcept constructor
      if d.isDyn then (.terminated, w)
      else w.construct SS x { d with data := data } (copyCells d.data data (d.capacity SS))
  | .copyAssign x y =>
    match w.obj x, w.obj y with
    | some c, some d =>
      -- dense/DynamicMatrix.hpp:72-76, panel/DynamicPanelMatrix.hpp:98-102
      if c.isDyn then (.exn .logicError, w)
      else w.exec (copyCells d.data c.data (c.capacity SS)) (fun _ => .done)
    | _, _ => (.ub, w)
  | .moveAssign x y =>
    match w.obj x, w.obj y with
    | some c, some d =>
      -- dense/DynamicMatrix.hpp:79-83, panel/DynamicPanelMatrix.hpp:105-109
      if c.isDyn then (.terminated, w)
      else w.exec (copyCells d.data c.data (c.capacity SS)) (fun _ => .done)
    | _, _ => (.ub, w)
  | .assign x y =>
    match w.obj x, w.obj y with
    | some c, some d => w.exec (assignMat SS c d) (fun _ => .done)
    | _, _ => (.ub, w)
  | .fill x v =>
    match w.obj x with
    | some c => w.exec (c.assignScalar SS v) (fun _ => .done)
    | none => (.ub, w)
  | .set x i j v =>
    match w.obj x with
    | some c => w.exec (c.set SS i j v) (fun _ => .done)
    | none => (.ub, w)
  | .get x i j =>
    match w.obj x with
    | some c => w.exec (c.get SS i j) (fun v => .value v)
    | none => (.ub, w)
  | .equal x y =>
    match w.obj x, w.obj y with
    | some c, some d => w.exec (eqMat SS c d) (fun b => .flag b)
    | _, _ => (.ub, w)
  | .reset x =>
    match w.obj x with
    | some c => w.exec (c.reset SS) (fun _ => .done)
    | none => (.ub, w)
  | .gemm alpha a b beta c d =>
    match w.obj a, w.obj b, w.obj c, w.obj d with
    | some A, some B, some C, some D =>
      w.exec (gemmMat SS alpha (A.mat SS) (B.mat SS) beta (C.mat SS) (D.mat SS)) (fun _ => .done)
    | _, _, _, _ => (.ub, w)
  | .destroy x =>
    match w.obj x with
    | none => (.ub, w)
    | some c =>
      -- destructors: dense/DynamicMatrix.hpp:56-59, panel/DynamicPanelMatrix.hpp:82-85; static classes: implicit
      if c.isDyn then
        let r := w.delete strict c.data
        (r.1, if r.1.final then r.2 else { r.2 with obj := upd w.obj x none })
      else (.done, { w with
        mem := fun z => if c.data ≤ z ∧ z < c.data + c.capacity SS then none else w.mem z
        obj := upd w.obj x none })

/-- a whole client program; it ends early when a step terminates it -/
def run (strict : Bool) (SS : Nat) (w : World V) : List (Op V) → List (Outcome V) × World V
  | [] => ([], w)
  | op :: ops =>
    let r := w.step strict SS op
    if r.1.final then ([r.1], r.2) else
      let r' := run strict SS r.2 ops
      (r.1 :: r'.1, r'.2)

/-- the start of the program -/
def empty : World V := ⟨fun _ => none, fun _ => none, fun _ => none⟩

end World
end Blast
