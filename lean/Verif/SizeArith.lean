import Verif.ContainerLemmas
/-
Size computations of the dynamic matrix classes in `std::size_t`.

Models the constructors and `elementIndex` of /repo/include/blast/math/dense/DynamicMatrix.hpp and /repo/include/blast/math/panel/DynamicPanelMatrix.hpp, and
/repo/include/blast/util/NextMultiple.hpp, once more, with `std::size_t` as a 64-bit integer that wraps around. (Container.lean models them
with unbounded integers; C64 says when the two agree.)
-/
namespace Blast

/-- `nextMultiple(value, factor)`: util/NextMultiple.hpp:19-22 -/
def nextMultipleW (value factor : UInt64) : UInt64 := value + (factor - value % factor) % factor

/-- the members `m_`, `n_`, `spacing_` and the number of elements of the array `v_` points to; `panel` distinguishes DynamicPanelMatrix from DynamicMatrix -/
structure DynObj where
  panel : Bool
  so : SO
  m : UInt64
  n : UInt64
  spacing : UInt64
  count : UInt64
  deriving DecidableEq, Repr

/-- `new(std::align_val_t) T[count] {}`: throws (std::bad_array_new_length or std::bad_alloc: `none`) if `count * sizeof(T)` bytes exceed `limit`.
Memory that is available up to the limit is assumed to be obtained. -/
def newArray (esz limit : Nat) (count : UInt64) : Option UInt64 := if count.toNat * esz ≤ limit then some count else none

/-- `DynamicMatrix(m, n)`: dense/DynamicMatrix.hpp:33-41 (`panel = false`), `DynamicPanelMatrix(m, n)`: panel/DynamicPanelMatrix.hpp:57-67 (`panel = true`) -/
def constructW (esz limit : Nat) (SS : UInt64) (panel : Bool) (so : SO) (m n : UInt64) : Option DynObj :=
  let major := match so with | .columnMajor => m | .rowMajor => n
  let minor := match so with | .columnMajor => n | .rowMajor => m
  let spacing := if panel then SS * minor else nextMultipleW major SS
  let count := if panel then spacing * nextMultipleW major SS else spacing * minor
  (newArray esz limit count).map (fun count => ⟨panel, so, m, n, spacing, count⟩)

/-- `elementIndex(i, j)`: dense/DynamicMatrix.hpp:147-150, panel/DynamicPanelMatrix.hpp:184-189 -/
def DynObj.elementIndexW (SS : UInt64) (o : DynObj) (i j : UInt64) : UInt64 :=
  if o.panel then
    match o.so with
    | .columnMajor => i / SS * o.spacing + i % SS + j * SS
    | .rowMajor => j / SS * o.spacing + j % SS + i * SS
  else
    match o.so with
    | .columnMajor => i + j * o.spacing
    | .rowMajor => i * o.spacing + j

end Blast
