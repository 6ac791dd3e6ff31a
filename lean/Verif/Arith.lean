/-
Scalar arithmetic of the model.

Models the element types `float`/`double` and the xsimd scalar/lane operations used by
/repo/include/blast/math/simd/SimdVec.hpp:228-390 (`fmadd`, `fnmadd`, `*`, `/=`, `abs`, `>`).
The operations are uninterpreted functions of their operands: no algebraic law is assumed here,
so everything proved with only `[Arith V]` also holds for IEEE arithmetic.
-/
namespace Blast

/-- Operations on matrix elements. `fma a b c` is `a*b+c` (SimdVec.hpp:322-326),
`fnma a b c` is `-a*b+c` (SimdVec.hpp:329-333), `gt a b` is `a > b`, `eq` is `==`. -/
class Arith (V : Type) where
  zero : V
  one : V
  add : V → V → V
  sub : V → V → V
  mul : V → V → V
  div : V → V → V
  neg : V → V
  sqrt : V → V
  fma : V → V → V → V
  fnma : V → V → V → V
  abs : V → V
  gt : V → V → Bool
  eq : V → V → Bool

end Blast
