import Verif.RoundingBinary
import Verif.TrsmDense
/-
Contraction of floating-point expressions.

A C++ compiler may evaluate `acc - a * x` in one fused operation (GCC does so by default on targets with FMA), which the model of the scalar loops of
dense/Trsm.hpp and dense/Trsv.hpp does not do. This module has these loops with fused operations, and shows that they are the unfused loops run in the
arithmetic `FlC p`, in which a product that is added or subtracted is not rounded separately. The theorems about rounded arithmetic apply to it.
-/
namespace Blast
open Prog Reg

/-- the loops of dense/Trsm.hpp:39-65 with `acc -= a * x` contracted -/
def trsmFusedPtr {V : Type} [Arith V] (SS M N : Nat) (uplo : UpLo) (unit : Bool) (A B X : MPtr) : Prog V Unit :=
  forN N (fun j =>
    match uplo with
    | .lower => forN M (fun i => do
        let b ← B.get SS i j
        let acc ← foldFrom 0 i (fun k acc => do
          let a ← A.get SS i k
          let x ← X.get SS k j
          pure (Arith.fnma a x acc)) b
        if unit then X.set SS i j acc else do
          let d ← A.get SS i i
          X.set SS i j (Arith.div acc d))
    | .upper => forDown M (fun i => do
        let b ← B.get SS i j
        let acc ← foldFrom (i + 1) M (fun k acc => do
          let a ← A.get SS i k
          let x ← X.get SS k j
          pure (Arith.fnma a x acc)) b
        if unit then X.set SS i j acc else do
          let d ← A.get SS i i
          X.set SS i j (Arith.div acc d)))

/-- the loops of dense/Trsv.hpp:30-38, 60-68 with `acc -= a * x` contracted -/
def trsvFusedPtr {V : Type} [Arith V] (SS N : Nat) (uplo : UpLo) (A : MPtr) (b x : VPtr) : Prog V Unit :=
  match uplo with
  | .lower => forN N (fun i => do
      let bi ← b.get SS i
      let acc ← foldFrom 0 i (fun j acc => do
        let a ← A.get SS i j
        let xj ← x.get SS j
        pure (Arith.fnma a xj acc)) bi
      let d ← A.get SS i i
      x.set SS i (Arith.div acc d))
  | .upper => forDown N (fun i => do
      let bi ← b.get SS i
      let acc ← foldFrom (i + 1) N (fun j acc => do
        let a ← A.get SS i j
        let xj ← x.get SS j
        pure (Arith.fnma a xj acc)) bi
      let d ← A.get SS i i
      x.set SS i (Arith.div acc d))

/-- scalars computed with `p+1` bit significands, products not rounded -/
def FlC (_p : Nat) : Type := ℝ

/-- the field structure of the real numbers -/
noncomputable instance (p : Nat) : Field (FlC p) := inferInstanceAs (Field ℝ)
/-- the order of the real numbers -/
noncomputable instance (p : Nat) : LinearOrder (FlC p) := inferInstanceAs (LinearOrder ℝ)
/-- field and order are compatible -/
instance (p : Nat) : IsStrictOrderedRing (FlC p) := inferInstanceAs (IsStrictOrderedRing ℝ)

/-- the rounded operations of this arithmetic -/
noncomputable instance (p : Nat) : Arith (FlC p) where
  zero := (0 : ℝ)
  one := (1 : ℝ)
  add := fun a b => rnd p ((show ℝ from a) + (show ℝ from b))
  sub := fun a b => rnd p ((show ℝ from a) - (show ℝ from b))
  mul := fun a b => (show ℝ from a) * (show ℝ from b)
  div := fun a b => rnd p ((show ℝ from a) / (show ℝ from b))
  neg := fun a => -(show ℝ from a)
  sqrt := fun a => rnd p (Real.sqrt a)
  fma := fun a b c => rnd p ((show ℝ from a) * (show ℝ from b) + (show ℝ from c))
  fnma := fun a b c => rnd p ((show ℝ from c) - (show ℝ from a) * (show ℝ from b))
  abs := fun a => |(show ℝ from a)|
  gt := fun a b => open Classical in decide ((show ℝ from b) < (show ℝ from a))
  eq := fun a b => open Classical in decide ((show ℝ from a) = (show ℝ from b))

/-- unit roundoff -/
noncomputable def flcU (p : Nat) : FlC p := ((1 / 2 : ℝ) ^ (p + 1) : ℝ)

/-- every operation satisfies the rounding bound -/
instance (p : Nat) : RoundedSqrt (flcU p) where
  u_nonneg := by show (0 : ℝ) ≤ (1 / 2 : ℝ) ^ (p + 1); positivity
  u_lt_one := by show (1 / 2 : ℝ) ^ (p + 1) < 1; exact pow_lt_one₀ (by norm_num) (by norm_num) (by omega)
  zero_eq := rfl
  one_eq := rfl
  neg_eq := fun _ => rfl
  add_err := fun a b => rnd_err p ((show ℝ from a) + (show ℝ from b))
  sub_err := fun a b => rnd_err p ((show ℝ from a) - (show ℝ from b))
  mul_err := fun a b => by
    show |(show ℝ from a) * (show ℝ from b) - (show ℝ from a) * (show ℝ from b)| ≤ (1 / 2 : ℝ) ^ (p + 1) * |(show ℝ from a) * (show ℝ from b)|
    rw [sub_self, abs_zero]; positivity
  div_err := fun a b _ => rnd_err p ((show ℝ from a) / (show ℝ from b))
  fma_err := fun a b c => rnd_err p ((show ℝ from a) * (show ℝ from b) + (show ℝ from c))
  fnma_err := fun a b c => rnd_err p ((show ℝ from c) - (show ℝ from a) * (show ℝ from b))
  abs_eq := fun _ => rfl
  gt_iff := fun a b => by show decide _ = true ↔ _; rw [decide_eq_true_iff]; exact Iff.rfl
  eq_iff := fun a b => by show decide _ = true ↔ _; rw [decide_eq_true_iff]; exact Iff.rfl
  sqrt_err := fun a ha => ⟨Real.sqrt a, Real.sqrt_nonneg _, Real.mul_self_sqrt ha, by
    have h := rnd_err p (Real.sqrt a)
    have e : |Real.sqrt (show ℝ from a)| = Real.sqrt (show ℝ from a) := abs_of_nonneg (Real.sqrt_nonneg (show ℝ from a))
    exact le_trans h (le_of_eq (congrArg (fun t => (1 / 2 : ℝ) ^ (p + 1) * t) e))⟩

/-- the contracted loops are the plain loops in the arithmetic without rounding of products -/
theorem trsmFused_eq (p SS M N : Nat) (uplo : UpLo) (unit : Bool) (A B X : MPtr) :
    trsmFusedPtr (V := Fl p) SS M N uplo unit A B X = trsmPtr (V := FlC p) SS M N uplo unit A B X := rfl

theorem trsvFused_eq (p SS N : Nat) (uplo : UpLo) (A : MPtr) (b x : VPtr) :
    trsvFusedPtr (V := Fl p) SS N uplo A b x = trsvPtr (V := FlC p) SS N uplo A b x := by
  cases uplo <;> rfl

end Blast
