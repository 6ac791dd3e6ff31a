import Verif.Rounding
/-
Arithmetic with infinities and not-a-number, on top of the (rounded) arithmetic of finite numbers.

Simplifications with respect to IEEE 754: the finite operations never overflow (they are those of `V`), and zeros have no sign (`x/0` has the sign of `x`).
-/
set_option linter.unusedSectionVars false
namespace Blast

/-- a floating-point value -/
inductive Ieee (V : Type) where
  | fin (x : V)
  | inf (negative : Bool)
  | nan

namespace Ieee
variable {V : Type} [Field V] [LinearOrder V] [IsStrictOrderedRing V] [Arith V]

/-- a + b, the rounded sum for numbers, IEEE rules for the special values -/
def add : Ieee V → Ieee V → Ieee V
  | fin x, fin y => fin (Arith.add x y)
  | fin _, inf s => inf s
  | inf s, fin _ => inf s
  | inf s, inf t => if s = t then inf s else nan
  | nan, _ => nan
  | _, nan => nan

/-- - a -/
def neg : Ieee V → Ieee V
  | fin x => fin (Arith.neg x)
  | inf s => inf (!s)
  | nan => nan

/-- a - b -/
def sub : Ieee V → Ieee V → Ieee V
  | fin x, fin y => fin (Arith.sub x y)
  | a, b => add a (neg b)

/-- a * b -/
def mul : Ieee V → Ieee V → Ieee V
  | fin x, fin y => fin (Arith.mul x y)
  | fin x, inf s => if x = 0 then nan else inf (decide (x < 0) != s)
  | inf s, fin x => if x = 0 then nan else inf (decide (x < 0) != s)
  | inf s, inf t => inf (s != t)
  | nan, _ => nan
  | _, nan => nan

/-- a / b -/
def div : Ieee V → Ieee V → Ieee V
  | fin x, fin y => if y = 0 then (if x = 0 then nan else inf (decide (x < 0))) else fin (Arith.div x y)
  | fin _, inf _ => fin 0
  | inf s, fin y => inf (decide (y < 0) != s)
  | inf _, inf _ => nan
  | nan, _ => nan
  | _, nan => nan

/-- square root; NaN for negative numbers -/
def sqrt : Ieee V → Ieee V
  | fin x => if x < 0 then nan else fin (Arith.sqrt x)
  | inf false => inf false
  | inf true => nan
  | nan => nan

/-- a b + c -/
def fma : Ieee V → Ieee V → Ieee V → Ieee V
  | fin x, fin y, fin z => fin (Arith.fma x y z)
  | a, b, c => add (mul a b) c

/-- c - a b -/
def fnma : Ieee V → Ieee V → Ieee V → Ieee V
  | fin x, fin y, fin z => fin (Arith.fnma x y z)
  | a, b, c => add (neg (mul a b)) c

/-- |a| -/
def abs : Ieee V → Ieee V
  | fin x => fin (Arith.abs x)
  | inf _ => inf false
  | nan => nan

/-- `a > b`; false if one of them is not a number -/
def gt : Ieee V → Ieee V → Bool
  | fin x, fin y => Arith.gt x y
  | fin _, inf s => s
  | inf s, fin _ => !s
  | inf s, inf t => !s && t
  | nan, _ => false
  | _, nan => false

/-- `a == b`; false if one of them is not a number -/
def eq : Ieee V → Ieee V → Bool
  | fin x, fin y => Arith.eq x y
  | inf s, inf t => s == t
  | _, _ => false

/-- the Arith structure -/
instance : Arith (Ieee V) where
  zero := fin Arith.zero
  one := fin Arith.one
  add := add
  sub := sub
  mul := mul
  div := div
  neg := neg
  sqrt := sqrt
  fma := fma
  fnma := fnma
  abs := abs
  gt := gt
  eq := eq

end Ieee
end Blast
