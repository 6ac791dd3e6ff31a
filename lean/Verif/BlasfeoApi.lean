import Verif.Potrf
import Verif.Mem
/-
The functions of blasfeo_api that pass their arguments on to one function of the BLASFEO library.

Models /repo/include/blasfeo/blasfeo_api/{Gemm,Trmm,Syrk,SyrkPotrf,Potrf,Vec}.hpp and create_mat, rows, columns, memsize_mat of blasfeo_api/Mat.hpp, as used by
/repo/include/blasfeo/CustomMatrix.hpp. The library itself is not part of the repository: `Lib` has one program for each of its functions that is called, without any
assumption. The overloads for double and float have the same text up to the type and are modelled once, for an arbitrary element type. What the functions pass on is
`size_t` converted to `int`.
-/
namespace Blast
namespace BlasfeoApi
open Prog
variable {V : Type}

/-- implicit conversion of a `size_t` argument to an `int` parameter (32 bits, two's complement: [conv.integral]) -/
def toInt (n : Nat) : Int := Int.bmod n (2 ^ 32)

/-- implicit conversion of an `int` to `size_t` (64 bits) -/
def toSize (n : Int) : Nat := (n % 2 ^ 64).toNat

/-- `blasfeo_dmat`, `blasfeo_smat`: the members m, n and the address of the element (i, j) -/
structure CMat where
  m : Int
  n : Int
  addr : Int → Int → Int

/-- `blasfeo_dvec`, `blasfeo_svec` -/
structure CVec where
  m : Int
  addr : Int → Int

/-- the functions of the library that are called; V: double or float, parameters in the order of the C declarations -/
structure Lib (V : Type) where
  gemm_nn : (m n k : Int) → V → CMat → Int → Int → CMat → Int → Int → V → CMat → Int → Int → CMat → Int → Int → Prog V Unit
  gemm_nt : (m n k : Int) → V → CMat → Int → Int → CMat → Int → Int → V → CMat → Int → Int → CMat → Int → Int → Prog V Unit
  gemm_tn : (m n k : Int) → V → CMat → Int → Int → CMat → Int → Int → V → CMat → Int → Int → CMat → Int → Int → Prog V Unit
  trmm_rlnn : (m n : Int) → V → CMat → Int → Int → CMat → Int → Int → CMat → Int → Int → Prog V Unit
  trmm_rutn : (m n : Int) → V → CMat → Int → Int → CMat → Int → Int → CMat → Int → Int → Prog V Unit
  syrk_ln : (m k : Int) → V → CMat → Int → Int → CMat → Int → Int → V → CMat → Int → Int → CMat → Int → Int → Prog V Unit
  syrk_potrf_ln : (m k : Int) → CMat → Int → Int → CMat → Int → Int → CMat → Int → Int → CMat → Int → Int → Prog V Unit
  potrf_l : (m : Int) → CMat → Int → Int → CMat → Int → Int → Prog V Unit
  pack_vec : (m : Int) → (x : Int) → CVec → Int → Prog V Unit
  unpack_vec : (m : Int) → CVec → Int → (y : Int) → Prog V Unit
  vecse : (m : Int) → V → CVec → Int → Prog V Unit
  vecsc : (m : Int) → V → CVec → Int → Prog V Unit

variable (L : Lib V)

/-- `gemm_nn`: Gemm.hpp:56-71, 75-90 -/
def gemm_nn (m n k : Nat) (alpha : V) (sA : CMat) (ai aj : Nat) (sB : CMat) (bi bj : Nat) (beta : V) (sC : CMat) (ci cj : Nat) (sD : CMat) (di dj : Nat) : Prog V Unit :=
  L.gemm_nn (toInt m) (toInt n) (toInt k) alpha sA (toInt ai) (toInt aj) sB (toInt bi) (toInt bj) beta sC (toInt ci) (toInt cj) sD (toInt di) (toInt dj)

/-- `gemm_nt`: Gemm.hpp:94-109, 113-128 -/
def gemm_nt (m n k : Nat) (alpha : V) (sA : CMat) (ai aj : Nat) (sB : CMat) (bi bj : Nat) (beta : V) (sC : CMat) (ci cj : Nat) (sD : CMat) (di dj : Nat) : Prog V Unit :=
  L.gemm_nt (toInt m) (toInt n) (toInt k) alpha sA (toInt ai) (toInt aj) sB (toInt bi) (toInt bj) beta sC (toInt ci) (toInt cj) sD (toInt di) (toInt dj)

/-- `gemm_tn`: Gemm.hpp:18-33, 37-52 -/
def gemm_tn (m n k : Nat) (alpha : V) (sA : CMat) (ai aj : Nat) (sB : CMat) (bi bj : Nat) (beta : V) (sC : CMat) (ci cj : Nat) (sD : CMat) (di dj : Nat) : Prog V Unit :=
  L.gemm_tn (toInt m) (toInt n) (toInt k) alpha sA (toInt ai) (toInt aj) sB (toInt bi) (toInt bj) beta sC (toInt ci) (toInt cj) sD (toInt di) (toInt dj)

/-- `trmm_rlnn`: Trmm.hpp:20-26, 32-38 -/
def trmm_rlnn (m n : Nat) (alpha : V) (sA : CMat) (ai aj : Nat) (sB : CMat) (bi bj : Nat) (sD : CMat) (di dj : Nat) : Prog V Unit :=
  L.trmm_rlnn (toInt m) (toInt n) alpha sA (toInt ai) (toInt aj) sB (toInt bi) (toInt bj) sD (toInt di) (toInt dj)

/-- `trmm_rutn`: Trmm.hpp:42-48, 52-58 -/
def trmm_rutn (m n : Nat) (alpha : V) (sA : CMat) (ai aj : Nat) (sB : CMat) (bi bj : Nat) (sD : CMat) (di dj : Nat) : Prog V Unit :=
  L.trmm_rutn (toInt m) (toInt n) alpha sA (toInt ai) (toInt aj) sB (toInt bi) (toInt bj) sD (toInt di) (toInt dj)

/-- `syrk_ln`: Syrk.hpp:16-27, 31-42. Both overloads take alpha and beta as double; `cv` is the conversion to the element type (the identity for double). -/
def syrk_ln {W : Type} (cv : W → V) (m k : Nat) (alpha : W) (sA : CMat) (ai aj : Nat) (sB : CMat) (bi bj : Nat) (beta : W) (sC : CMat) (ci cj : Nat) (sD : CMat) (di dj : Nat) :
    Prog V Unit :=
  L.syrk_ln (toInt m) (toInt k) (cv alpha) sA (toInt ai) (toInt aj) sB (toInt bi) (toInt bj) (cv beta) sC (toInt ci) (toInt cj) sD (toInt di) (toInt dj)

/-- `syrk_potrf`: SyrkPotrf.hpp:14-25, 29-40 -/
def syrk_potrf (m k : Nat) (sA : CMat) (ai aj : Nat) (sB : CMat) (bi bj : Nat) (sC : CMat) (ci cj : Nat) (sD : CMat) (di dj : Nat) : Prog V Unit :=
  L.syrk_potrf_ln (toInt m) (toInt k) sA (toInt ai) (toInt aj) sB (toInt bi) (toInt bj) sC (toInt ci) (toInt cj) sD (toInt di) (toInt dj)

/-- `potrf`: Potrf.hpp:14-21, 25-32 -/
def potrf (m : Nat) (sC : CMat) (ci cj : Nat) (sD : CMat) (di dj : Nat) : Prog V Unit :=
  L.potrf_l (toInt m) sC (toInt ci) (toInt cj) sD (toInt di) (toInt dj)

/-- `pack_vec`: Vec.hpp:16-19, 23-26 -/
def pack_vec (m : Nat) (x : Int) (sy : CVec) (yi : Nat) : Prog V Unit := L.pack_vec (toInt m) x sy (toInt yi)

/-- `unpack_vec`: Vec.hpp:30-33, 37-40 -/
def unpack_vec (m : Nat) (sx : CVec) (xi : Nat) (y : Int) : Prog V Unit := L.unpack_vec (toInt m) sx (toInt xi) y

/-- `vecse`: Vec.hpp:44-47, 51-54 -/
def vecse (m : Nat) (alpha : V) (sx : CVec) (xi : Nat) : Prog V Unit := L.vecse (toInt m) alpha sx (toInt xi)

/-- `vecsc`: Vec.hpp:58-61, 64-67 -/
def vecsc (m : Nat) (alpha : V) (sx : CVec) (xi : Nat) : Prog V Unit := L.vecsc (toInt m) alpha sx (toInt xi)

/-- `rows`, `columns`: Mat.hpp:16-40 -/
def rows (A : CMat) : Nat := toSize A.m
/-- number of columns of a matrix of the library; see rows -/
def columns (A : CMat) : Nat := toSize A.n

/-- `create_mat(m, n, sA, memory)`: Mat.hpp:65-75 (also the constructor and `reset` of CustomMatrix, CustomMatrix.hpp:31-42). `blasfeo_create_dmat` stores its two `int`
parameters; `lay m n memory` is the layout it chooses. -/
def create_mat (lay : Int → Int → Int → Int → Int → Int) (m n : Nat) (memory : Int) : CMat := ⟨toInt m, toInt n, lay (toInt m) (toInt n) memory⟩

/-- `memsize_mat<double>` and `memsize_mat<float>`: Mat.hpp:50-61; both call `blasfeo_memsize_dmat`, a parameter here -/
def memsize_mat (memsizeD : Int → Int → Nat) (m n : Nat) : Nat := memsizeD (toInt m) (toInt n)

end BlasfeoApi
end Blast
