/-
Ownership of memory by `blasfeo::detail::AlignedStorage` (/repo/include/blasfeo/Memory.hpp) and `blasfeo::DynamicMatrix`
(/repo/include/blasfeo/DynamicMatrix.hpp).

Objects and blocks of memory are numbered. The C functions behind `malloc_align`, `free_align`, `allocate_mat`, `free_mat`
(blasfeo_api/Alloc.hpp) are not part of the repository and modelled by their effect on the set of allocated blocks; which block is handed out is part of the history, so
that blocks may be reused. `free` of a null pointer has no effect, `free` of a block that is not allocated is undefined behaviour. `blasfeo_allocate_dmat` is assumed to
return a block (it ends the program when out of memory).
-/
namespace Blast
namespace Blasfeo

/-- objects alive with the pointer they hold (`some none` is an object holding a null pointer), and the allocated blocks -/
structure OwnSt where
  ptr : Nat → Option (Option Nat)
  live : Nat → Bool

/-- no objects, nothing allocated -/
def OwnSt.empty : OwnSt := ⟨fun _ => none, fun _ => false⟩

/-- object x now holds the pointer p -/
def OwnSt.setPtr (s : OwnSt) (o : Nat) (p : Option (Option Nat)) : OwnSt := { s with ptr := fun x => if x = o then p else s.ptr x }
/-- block b now allocated or not -/
def OwnSt.setLive (s : OwnSt) (b : Nat) (v : Bool) : OwnSt := { s with live := fun x => if x = b then v else s.live x }

/-- `malloc_align`: blasfeo_api/Alloc.hpp:16-22, `r` is the pointer returned -/
def OwnSt.malloc (s : OwnSt) (r : Option Nat) : OwnSt :=
  match r with
  | none => s
  | some b => s.setLive b true

/-- `free_align`: blasfeo_api/Alloc.hpp:25-28; none: undefined behaviour -/
def OwnSt.free (s : OwnSt) (p : Option Nat) : Option OwnSt :=
  match p with
  | none => some s
  | some b => if s.live b then some (s.setLive b false) else none

/-- members of AlignedStorage: Memory.hpp:22-82 -/
inductive StorageOp
  | default (o : Nat)                   -- l.22-24
  | sized (o : Nat) (r : Option Nat)    -- l.27-30, `malloc_align` returning r
  | moveCtor (o src : Nat)              -- l.38-42
  | moveAssign (o src : Nat)            -- l.50-55
  | swap (o src : Nat)                  -- l.59-62
  | destroy (o : Nat)                   -- l.79-82

/-- effect of an operation; none: undefined behaviour (also when an object is used that is not alive) -/
def StorageOp.step (s : OwnSt) : StorageOp → Option OwnSt
  | .default o => some (s.setPtr o (some none))
  | .sized o r => some ((s.malloc r).setPtr o (some r))
  | .moveCtor o src =>
    match s.ptr src with
    | none => none
    | some p => some ((s.setPtr o (some p)).setPtr src (some none))
  | .moveAssign o src | .swap o src =>
    match s.ptr o, s.ptr src with
    | some p, some q => some ((s.setPtr o (some q)).setPtr src (some p))
    | _, _ => none
  | .destroy o =>
    match s.ptr o with
    | none => none
    | some p => (s.free p).map fun s' => s'.setPtr o none

/-- what a C++ program may do: construct objects that are not alive, use objects that are, and the allocator hands out free blocks only -/
def StorageOp.Allowed (s : OwnSt) : StorageOp → Prop
  | .default o => s.ptr o = none
  | .sized o r => s.ptr o = none ∧ ∀ b, r = some b → s.live b = false
  | .moveCtor o src => s.ptr o = none ∧ s.ptr src ≠ none
  | .moveAssign o src | .swap o src => s.ptr o ≠ none ∧ s.ptr src ≠ none
  | .destroy o => s.ptr o ≠ none

/-- special members of blasfeo::DynamicMatrix: DynamicMatrix.hpp:33-60. The copy constructor and copy assignment are the implicit ones (none is declared; since there is
a destructor, a `std::move` copies as well). -/
inductive MatrixOp
  | construct (o b : Nat)               -- l.33-54, `allocate_mat` returning block b
  | copyCtor (o src : Nat)
  | copyAssign (o src : Nat)
  | assignBlaze (o : Nat)               -- l.76-86
  | destroy (o : Nat)                   -- l.57-60

/-- effect of an operation on matrices; none: undefined behaviour -/
def MatrixOp.step (s : OwnSt) : MatrixOp → Option OwnSt
  | .construct o b => some ((s.malloc (some b)).setPtr o (some (some b)))
  | .copyCtor o src | .copyAssign o src =>
    match s.ptr src with
    | none => none
    | some p => some (s.setPtr o (some p))
  | .assignBlaze o => if s.ptr o = none then none else some s
  | .destroy o =>
    match s.ptr o with
    | none => none
    | some p => (s.free p).map fun s' => s'.setPtr o none

/-- what a C++ program may do with matrices; see StorageOp.Allowed -/
def MatrixOp.Allowed (s : OwnSt) : MatrixOp → Prop
  | .construct o b => s.ptr o = none ∧ s.live b = false
  | .copyCtor o src => s.ptr o = none ∧ s.ptr src ≠ none
  | .copyAssign o src => s.ptr o ≠ none ∧ s.ptr src ≠ none
  | .assignBlaze o => s.ptr o ≠ none
  | .destroy o => s.ptr o ≠ none

/-- the operations one after the other; none: undefined behaviour -/
def runOps {Op : Type} (step : OwnSt → Op → Option OwnSt) : OwnSt → List Op → Option OwnSt
  | s, [] => some s
  | s, op :: ops => (step s op).bind fun s' => runOps step s' ops

/-- every operation is allowed in the state in which it is executed -/
def ValidOps {Op : Type} (step : OwnSt → Op → Option OwnSt) (Allowed : OwnSt → Op → Prop) : OwnSt → List Op → Prop
  | _, [] => True
  | s, op :: ops => Allowed s op ∧ ∀ s', step s op = some s' → ValidOps step Allowed s' ops

end Blasfeo
end Blast
