import Verif.RegLemmas
import Verif.Container
/-
Register matrices of dynamic size, and comparison of register matrices with matrices in memory.

Models /repo/include/blast/math/register_matrix/DynamicRegisterMatrix.hpp (l.33-438, 569-593) and the comparison operators of
/repo/include/blast/math/register_matrix/RegisterMatrix.hpp:883-902.

`axpy`, `load(beta, p)` and `gemm` of DynamicRegisterMatrix.hpp (l.139-147, 307-314, 596-622) call `p.load(i, j)`, which no matrix pointer has: they do
not compile when used, and are not modelled. `potrf`, `trsmRightUpper`, `trmmLeftUpper`, `trmmRightLower` are declared but their definitions are
commented out.
-/
set_option linter.unusedSectionVars false
namespace Blast
open Prog
variable {V : Type} [Arith V]

/-- `DynamicRegisterMatrix<T, RM*SS, N>`: DynamicRegisterMatrix.hpp:262-263. The register file `v_` and the constant members `m_`, `n_`. -/
structure DynReg (V : Type) where
  v : Reg V
  m : Nat
  n : Nat

namespace DynReg

/-- the constructor: DynamicRegisterMatrix.hpp:50-58, with `reset()`: l.118-124. The user assertion `m <= M && n <= N` is not checked in release builds. -/
def construct (m n : Nat) : DynReg V := ⟨Reg.reset, m, n⟩

/-- `reset()`: DynamicRegisterMatrix.hpp:118-124 -/
def reset (R : DynReg V) : DynReg V := { R with v := Reg.reset }

/-- `operator()(i, j)`: DynamicRegisterMatrix.hpp:111-115, 276-280 -/
def el (SS : Nat) (R : DynReg V) (i j : Nat) : V := R.v.el SS i j

/-- `operator*=`: DynamicRegisterMatrix.hpp:127-135 -/
def scale (R : DynReg V) (alpha : V) : DynReg V := { R with v := R.v.scale alpha }

/-- `load(p)`: DynamicRegisterMatrix.hpp:292-302. Columns are checked against `n_`; all `RM` SIMD rows are loaded. -/
def load (SS RM N : Nat) (R : DynReg V) (p : MPtr) : Prog V (DynReg V) := do
  let v ← Reg.forCols N (fun j => j < R.n) (fun j => Reg.forRows RM (fun _ => true) j (fun i _ =>
    (p.off SS (SS * i) j).load SS)) R.v
  pure { R with v := v }

/-- `store(p)`: DynamicRegisterMatrix.hpp:318-337. `v_[m_ / SS]` is out of bounds when `m_ / SS ≥ RM`. -/
def store (SS RM N : Nat) (R : DynReg V) (p : MPtr) : Prog V Unit := do
  forN N (fun j => onlyIf (j < R.n) (forN RM (fun i => onlyIf (SS * (i + 1) ≤ R.m)
    ((p.off SS (SS * i) j).store SS (R.v i j)))))
  if R.m % SS ≠ 0 then
    forN R.n (fun j =>
      if R.m / SS < RM then
        (p.off SS ((SS * (R.m / SS) : Nat) : Int) j).storeMask SS (R.v (R.m / SS) j) (fun l => l < R.m % SS)
      else ub)
  else pure ()

/-- `storeLower(p)`: DynamicRegisterMatrix.hpp:340-359. `skip` and `rem` are signed. -/
def storeLower (SS RM N : Nat) (R : DynReg V) (p : MPtr) : Prog V Unit :=
  forN N (fun j => onlyIf (j < R.n) (forFrom (j / SS) RM (fun ri =>
    let skip : Int := (j : Int) - ri * SS
    let rem : Int := (R.m : Int) - ri * SS
    (p.off SS (SS * ri) j).storeMask SS (R.v ri j)
      (fun l => (l : Int) < rem && (if 0 < skip then decide (skip ≤ l) else true)))))

/-- `ger(alpha, a, b)` (`f v = alpha * v`): DynamicRegisterMatrix.hpp:396-416, and `ger(a, b)` (`f v = v`): l.419-438. `a` and `b` are pointers to
matrices, of which the first column and the first row are used. The rows are not checked against `m_`. -/
def ger (SS RM N : Nat) (R : DynReg V) (f : V → V) (a b : MPtr) : Prog V (DynReg V) := do
  let ax ← foldN RM (fun i (ax : Nat → Vec V) => do
    let x ← (a.off SS ((SS : Int) * (i : Int)) ((0 : Nat) : Int)).load SS
    pure (fun i' => if i' = i then (fun l => f (x l)) else ax i')) (fun _ _ => Arith.zero)
  let v ← Reg.forCols N (fun j => j < R.n) (fun j r => do
    let bx ← b.get SS 0 j
    Reg.forRows RM (fun _ => true) j (fun i v => pure (fun l => Arith.fma (ax i l) bx (v l))) r) R.v
  pure { R with v := v }

end DynReg

/-- `rm == m` for a register matrix of `mm` rows and `nn` columns and a matrix `c` in memory: DynamicRegisterMatrix.hpp:555-567 (and the version with
exchanged arguments, l.570-574), RegisterMatrix.hpp:883-902. Other than the comparison of two matrices in memory it does not throw. -/
def eqReg (SS : Nat) (r : Reg V) (mm nn : Nat) (c : Container) : Prog V Bool :=
  if c.rows ≠ mm ∨ c.cols ≠ nn then pure false
  else foldN mm (fun i r' => foldN nn (fun j r' =>
    if r' then do
      let y ← c.get SS i j
      pure (Arith.eq (r.el SS i j) y)
    else pure false) r') true

end Blast
