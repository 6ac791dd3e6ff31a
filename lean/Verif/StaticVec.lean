import Verif.VecObj
import Verif.Container
/-
Operations of StaticVector objects.

Models /repo/include/blast/math/dense/StaticVector.hpp.
-/
set_option linter.unusedSectionVars false
namespace Blast
open Prog
variable {V : Type} [Arith V]

namespace VObj

/-- `StaticVector()`: StaticVector.hpp:34-39. The member array is storage with arbitrary content before. -/
def ctorDefault (SS : Nat) (v : VObj) : Prog V Unit := fillN v.data (v.capacity SS) Arith.zero

/-- `StaticVector(T const&)`: StaticVector.hpp:42-45 -/
def ctorFill (SS : Nat) (v : VObj) (x : V) : Prog V Unit := fillN v.data (v.capacity SS) x

/-- `StaticVector(std::initializer_list<T>)`: StaticVector.hpp:59-62. `copy_n` copies min(list.size(), N) elements and returns the position
after the last one; `fill` writes 0 from there to `std::end(v_)`, the end of the whole array. -/
def ctorList (SS : Nat) (v : VObj) (l : List V) : Prog V Unit := do
  forN (min l.length v.n) (fun k => write (v.data + k) (l.getD k Arith.zero))
  fillN (v.data + (min l.length v.n : Nat)) (v.capacity SS - min l.length v.n) Arith.zero

/-- `operator=(T)`: StaticVector.hpp:65-70 -/
def assignScalar (SS : Nat) (v : VObj) (x : V) : Prog V Unit := fillN v.data (v.capacity SS) x

/-- `operator[](i)` read: StaticVector.hpp:73-77 -/
def get (v : VObj) (i : Nat) : Prog V V := read (v.data + i)

/-- `operator[](i)` assigned to: StaticVector.hpp:80-84 -/
def set (v : VObj) (i : Nat) (x : V) : Prog V Unit := write (v.data + i) x

/-- `reset()`: StaticVector.hpp:108-111, and the free function 148-152 -/
def reset (SS : Nat) (v : VObj) : Prog V Unit := fillN v.data (v.capacity SS) Arith.zero

/-- the implicit copy assignment of two vectors of the same type: the member array is copied -/
def copyAssign (SS : Nat) (v u : VObj) : Prog V Unit :=
  forN (v.capacity SS) (fun k => do
    let x ← read (u.data + k)
    write (v.data + k) x)

end VObj

/-- one operation of a client on one of its vectors -/
inductive VOp (V : Type) where
  | fill (x : Nat) (v : V)
  | reset (x : Nat)
  | set (x i : Nat) (v : V)
  | get (x i : Nat)
  | assign (x y : Nat)

/-- an operation on the vectors `vs`, with the value it returns -/
def VOp.run (SS : Nat) (vs : Nat → VObj) : VOp V → Prog V (Option V)
  | .fill x v => do (vs x).assignScalar SS v; pure none
  | .reset x => do (vs x).reset SS; pure none
  | .set x i v => do (vs x).set i v; pure none
  | .get x i => do let v ← (vs x).get i; pure (some v)
  | .assign x y => do (vs x).copyAssign SS (vs y); pure none

/-- a sequence of operations, with the values they return -/
def VOp.runAll (SS : Nat) (vs : Nat → VObj) : List (VOp V) → Prog V (List (Option V))
  | [] => pure []
  | op :: ops => do
    let r ← op.run SS vs
    let rs ← VOp.runAll SS vs ops
    pure (r :: rs)

end Blast
