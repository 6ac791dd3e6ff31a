import Mathlib.Data.Multiset.Basic
import Verif.Contraction
import Verif.Props.Reference
/-
The scalar loops of the library as the recommended compiler flags allow them to be evaluated.

cmake/InitialCache.cmake:2-3, which README.md:58 recommends, builds with `-march=native -mfma -O3 -ffast-math`. A compiler may then evaluate a sum of products in any order, group it in any way
(for instance with the partial sums of a vectorized loop, which start from zero), contract a product and an addition to one fused operation, move signs, and replace a division by
a multiplication with the reciprocal. The modules modelling the scalar loops (`TrsmDense`, `Reference`) perform the operations as written; here the sums are evaluated by an
arbitrary tree of operations. Explicit vector operations (SimdVec) are taken to be executed as written.
-/
set_option linter.unusedSectionVars false
namespace Blast
open Prog Reg
variable {V : Type}

/-- a way to evaluate a sum -/
inductive SumTree (V : Type) where
  | num (v : V)
  | prod (a b : V)
  | neg (s : SumTree V)
  | add (s t : SumTree V)
  | sub (s t : SumTree V)
  | fma (a b : V) (s : SumTree V)
  | fnma (a b : V) (s : SumTree V)

namespace SumTree

/-- the number computed -/
def run [Arith V] : SumTree V → V
  | num v => v
  | prod a b => Arith.mul a b
  | neg s => Arith.neg s.run
  | add s t => Arith.add s.run t.run
  | sub s t => Arith.sub s.run t.run
  | fma a b s => Arith.fma a b s.run
  | fnma a b s => Arith.fnma a b s.run

/-- the largest number of rounded operations on a way from a term to the result -/
def height : SumTree V → Nat
  | num _ => 0
  | prod _ _ => 1
  | neg s => s.height
  | add s t => max s.height t.height + 1
  | sub s t => max s.height t.height + 1
  | fma _ _ s => s.height + 1
  | fnma _ _ s => s.height + 1

/-- the terms that are added up, with their signs -/
def terms [Ring V] : SumTree V → Multiset V
  | num v => {v}
  | prod a b => {a * b}
  | neg s => s.terms.map (fun x => -x)
  | add s t => s.terms + t.terms
  | sub s t => s.terms + t.terms.map (fun x => -x)
  | fma a b s => (a * b) ::ₘ s.terms
  | fnma a b s => (-(a * b)) ::ₘ s.terms

end SumTree

/-- `s` evaluates the sum of the terms `T` (and possibly of some zeros) with at most `h` roundings in a row -/
def Regroups [Ring V] (h : Nat) (T : Multiset V) (s : SumTree V) : Prop := s.height ≤ h ∧ ∃ z : Nat, s.terms = T + Multiset.replicate z 0

/-- `dv` divides, or multiplies with the reciprocal -/
def DivOrRecip [Arith V] (dv : V → V → V) : Prop := ∀ x d, dv x d = Arith.div x d ∨ dv x d = Arith.mul x (Arith.div Arith.one d)

/-- `f` with the value at `k` replaced -/
def put (f : Nat → V) (k : Nat) (v : V) : Nat → V := fun q => if q = k then v else f q

/-- one element of a substitution: the operands are read, then the sum is evaluated as `ord` says. The read loop stands for the loads of the loops of dense/Trsm.hpp:39-65 and
dense/Trsv.hpp:30-38, 60-68 in any order; reads have no side effects. -/
def solveOrdBody [Arith V] (addrX addrB : Nat → Nat → Int) (addrA : Nat → Nat → Int) (ord : Nat → Nat → V → (Nat → V) → (Nat → V) → SumTree V) (dv : V → V → V) (diag : Bool)
    (lo hi : Nat → Nat) (o i : Nat) : Prog V Unit := do
  let b ← Prog.read (addrB o i)
  let ax ← foldFrom (lo i) (hi i) (fun k (ax : (Nat → V) × (Nat → V)) => do
    let a ← Prog.read (addrA i k)
    let x ← Prog.read (addrX o k)
    pure (put ax.1 k a, put ax.2 k x)) (fun _ => Arith.zero, fun _ => Arith.zero)
  if diag then Prog.write (addrX o i) (ord o i b ax.1 ax.2).run else do
    let d ← Prog.read (addrA i i)
    Prog.write (addrX o i) (dv (ord o i b ax.1 ax.2).run d)

/-- dense/Trsm.hpp:39-65 with the sums evaluated as `ord` says (for each column `j` and row `i`) and divisions as `dv` says -/
def trsmOrdPtr [Arith V] (SS M N : Nat) (uplo : UpLo) (unit : Bool) (ord : Nat → Nat → V → (Nat → V) → (Nat → V) → SumTree V) (dv : V → V → V) (A B X : MPtr) : Prog V Unit :=
  forN N (fun j => innerLoop (solveDown uplo) M (solveOrdBody (fun o i => X.addr SS (i : Nat) (o : Nat)) (fun o i => B.addr SS (i : Nat) (o : Nat))
    (fun i k => A.addr SS (i : Nat) (k : Nat)) ord dv unit (solveLo uplo) (solveHi uplo M) j))

/-- dense/Trsv.hpp:30-38, 60-68 with the sums evaluated as `ord` says and divisions as `dv` says -/
def trsvOrdPtr [Arith V] (SS N : Nat) (uplo : UpLo) (ord : Nat → V → (Nat → V) → (Nat → V) → SumTree V) (dv : V → V → V) (A : MPtr) (b x : VPtr) : Prog V Unit :=
  forN 1 (fun j => innerLoop (solveDown uplo) N (solveOrdBody (fun _ i => x.addr SS (i : Nat)) (fun _ i => b.addr SS (i : Nat))
    (fun i k => A.addr SS (i : Nat) (k : Nat)) (fun _ => ord) dv false (solveLo uplo) (solveHi uplo N) j))

/-- reference/Gemm.hpp:42-57 with the sum evaluated as `ord` says, and `alpha * v + beta * c` evaluated by `fin`: two products and an addition, or one of them contracted -/
def refGemmOrd [Arith V] (SS M N K : Nat) (ord : Nat → Nat → (Nat → V) → (Nat → V) → SumTree V) (fin : V → V → V → V → V) (alpha : V) (A B : MPtr) (beta : V) (C D : MPtr) :
    Prog V Unit :=
  forN M (fun i => forN N (fun j => do
    let ab ← foldN K (fun k (ab : (Nat → V) × (Nat → V)) => do
      let a ← derefAt SS A i k
      let b ← derefAt SS B k j
      pure (put ab.1 k a, put ab.2 k b)) (fun _ => Arith.zero, fun _ => Arith.zero)
    let c ← derefAt SS C i j
    assignAt SS D i j (fin alpha (ord i j ab.1 ab.2).run beta c)))

/-- `alpha * v + beta * c` as written or contracted in one of two ways -/
def AxpbyForm [Arith V] (fin : V → V → V → V → V) : Prop := ∀ alpha v beta c,
  fin alpha v beta c = Arith.add (Arith.mul alpha v) (Arith.mul beta c) ∨ fin alpha v beta c = Arith.fma alpha v (Arith.mul beta c) ∨
    fin alpha v beta c = Arith.fma beta c (Arith.mul alpha v)

/-- the terms of one element of a substitution: the right-hand side and the products to be subtracted, `lo ≤ k < hi` -/
def solveTerms [Ring V] (lo hi : Nat) (b : V) (a x : Nat → V) : Multiset V := b ::ₘ (Finset.Ico lo hi).val.map (fun k => -(a k * x k))

/-- the terms of one element of a product -/
def prodTerms [Ring V] (K : Nat) (a b : Nat → V) : Multiset V := (Finset.range K).val.map (fun k => a k * b k)

/-! ### The order of the source -/

/-- left to right, each product rounded -/
def plainOrder (lo : Nat) (b : V) (a x : Nat → V) : Nat → SumTree V
  | 0 => .num b
  | n + 1 => .sub (plainOrder lo b a x n) (.prod (a (lo + n)) (x (lo + n)))

/-- left to right, contracted -/
def fusedOrder (lo : Nat) (b : V) (a x : Nat → V) : Nat → SumTree V
  | 0 => .num b
  | n + 1 => .fnma (a (lo + n)) (x (lo + n)) (fusedOrder lo b a x n)

/-- left to right, each product rounded, for a product of matrices -/
def plainSum [Arith V] (a b : Nat → V) : Nat → SumTree V
  | 0 => .num Arith.zero
  | n + 1 => .add (plainSum a b n) (.prod (a n) (b n))

/-! ### The order of a vectorized loop -/

/-- the partial sum of lane `l` of `L`: the products with `k % L = l`, from left to right, contracted, starting from zero -/
def laneSum [Arith V] (L : Nat) (a b : Nat → V) (l : Nat) : Nat → SumTree V
  | 0 => .num Arith.zero
  | n + 1 => if n % L = l then .fma (a n) (b n) (laneSum L a b l n) else laneSum L a b l n

/-- the partial sums of the first `c` lanes added up -/
def lanesTotal [Arith V] (L : Nat) (a b : Nat → V) (n : Nat) : Nat → SumTree V
  | 0 => .num Arith.zero
  | c + 1 => .add (lanesTotal L a b n c) (laneSum L a b c n)

/-- one element of a substitution as a vectorized loop with `L` lanes computes it -/
def laneOrder [Arith V] (L lo : Nat) (b : V) (a x : Nat → V) (n : Nat) : SumTree V := .sub (.num b) (lanesTotal L (fun k => a (lo + k)) (fun k => x (lo + k)) n L)

end Blast
