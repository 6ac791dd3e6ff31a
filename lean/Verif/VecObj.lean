import Verif.Spec
import Verif.Ger
/-
Vector objects.

Models the storage of /repo/include/blast/math/dense/StaticVector.hpp (and of padded, aligned, contiguous dynamic
vectors): `n` elements at distance 1 from an aligned address, the storage rounded up to a multiple of the SIMD width.
-/
set_option linter.unusedSectionVars false
namespace Blast
open Prog
variable {V : Type}

/-- A vector object: whether its pointer type is StaticVectorPointer, its size, the address of its first element. -/
structure VObj where
  isStatic : Bool
  n : Nat
  data : Int
  deriving DecidableEq, Repr

namespace VObj

/-- `capacity_`: StaticVector.hpp:115 -/
def capacity (SS : Nat) (v : VObj) : Nat := nextMultiple v.n SS

/-- `ptr(v)`: Vector.hpp:23-44, StaticVectorPointer.hpp:237-265, DynamicVectorPointer.hpp:216-244 with
`IsAligned = IsPadded = true`, `Spacing = 1` (StaticVector.hpp:158-175) -/
def ptr (v : VObj) : VPtr := .vec v.isStatic true v.data 1

/-- what the algorithms see of a vector object -/
def arg (v : VObj) : VArg := ⟨v.ptr, v.n⟩

/-- the cells of the storage of the vector, including padding -/
def Storage (SS : Nat) (v : VObj) (x : Int) : Prop := v.data ≤ x ∧ x < v.data + v.capacity SS

theorem ptr_addr (SS : Nat) (v : VObj) (i : Int) : v.ptr.addr SS i = v.data + i := by
  show v.data + i * 1 = _
  rw [Int.mul_one]

theorem colOK {SS : Nat} {v : VObj} (h : v.data % (SS : Int) = 0) : v.ptr.ColOK SS := fun _ _ _ => h

theorem rowOK {SS : Nat} (v : VObj) : v.ptr.RowOK SS := trivial

end VObj

/-- the vector object exists in memory `m`: aligned and allocated including padding -/
structure VLive (SS : Nat) (m : Mem V) (v : VObj) : Prop where
  align : v.data % (SS : Int) = 0
  alloc : ∀ x, v.Storage SS x → (m x).isSome = true

/-- In memory `m` the elements of `v` are `a 0, a 1, …` -/
def VContains (m : Mem V) (v : VObj) (a : Nat → V) : Prop :=
  ∀ i : Nat, i < v.n → m (v.data + i) = some (a i)

theorem VContains.holds {SS : Nat} {m : Mem V} {v : VObj} {a : Nat → V} (h : VContains m v a) :
    VHolds SS m v.ptr v.n a := by
  intro i hi
  rw [VObj.ptr_addr]; exact h i hi

theorem VObj.storage_elem {SS : Nat} (hSS : 0 < SS) {v : VObj} {i : Nat} (hi : i < roundUp v.n SS) :
    v.Storage SS (v.data + i) := by
  unfold VObj.Storage VObj.capacity
  rw [nextMultiple_eq_roundUp _ hSS]
  omega

end Blast
