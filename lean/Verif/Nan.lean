import Verif.Rounding
import Verif.Potrf
/-
Arithmetic with a not-a-number value: an element is a number or `none`, operations on `none` give `none`, and so do the division by zero and the
square root of a negative number. (Infinities of IEEE 754 are not distinguished from NaN.)
-/
set_option linter.unusedSectionVars false
namespace Blast

/-- a number, or not a number -/
def Nan (V : Type) : Type := Option V

/-- a number -/
def num {V : Type} (x : V) : Nan V := (some x : Option V)

variable {V : Type} [Field V] [LinearOrder V] [IsStrictOrderedRing V] [Arith V]

/-- apply an operation to numbers -/
def Nan.lift2 (f : V → V → V) (a b : Nan V) : Nan V :=
  match (show Option V from a), (show Option V from b) with
  | some x, some y => num (f x y)
  | _, _ => (none : Option V)

/-- an operation with three operands, NaN if one of them is -/
def Nan.lift3 (f : V → V → V → V) (a b c : Nan V) : Nan V :=
  match (show Option V from a), (show Option V from b), (show Option V from c) with
  | some x, some y, some z => num (f x y z)
  | _, _, _ => (none : Option V)

/-- arithmetic with NaN on top of the arithmetic of `V` -/
instance : Arith (Nan V) where
  zero := num Arith.zero
  one := num Arith.one
  add := Nan.lift2 Arith.add
  sub := Nan.lift2 Arith.sub
  mul := Nan.lift2 Arith.mul
  fma := Nan.lift3 Arith.fma
  fnma := Nan.lift3 Arith.fnma
  neg := fun a => match (show Option V from a) with
    | some x => num (Arith.neg x)
    | none => (none : Option V)
  abs := fun a => match (show Option V from a) with
    | some x => num (Arith.abs x)
    | none => (none : Option V)
  div := fun a b => match (show Option V from a), (show Option V from b) with
    | some x, some y => if y = 0 then (none : Option V) else num (Arith.div x y)
    | _, _ => (none : Option V)
  sqrt := fun a => match (show Option V from a) with
    | some x => if x < 0 then (none : Option V) else num (Arith.sqrt x)
    | none => (none : Option V)
  gt := fun a b => match (show Option V from a), (show Option V from b) with
    | some x, some y => Arith.gt x y
    | _, _ => false
  eq := fun a b => match (show Option V from a), (show Option V from b) with
    | some x, some y => Arith.eq x y
    | _, _ => false

theorem num_inj {x y : V} (h : num x = num y) : x = y := Option.some.inj h

theorem nan_div_inv {s z : V} {d : Nan V} (h : num z = Arith.div (num s) d) : ∃ y, d = num y ∧ y ≠ 0 ∧ z = Arith.div s y := by
  cases d with
  | none => cases h
  | some y =>
    change (some z : Option V) = if y = 0 then none else some (Arith.div s y) at h
    by_cases hy : y = 0
    · rw [if_pos hy] at h; cases h
    · rw [if_neg hy] at h; exact ⟨y, rfl, hy, Option.some.inj h⟩

theorem nan_sqrt_inv {s y : V} (h : Arith.sqrt (num s) = num y) : 0 ≤ s ∧ y = Arith.sqrt s := by
  change (if s < 0 then (none : Option V) else some (Arith.sqrt s)) = some y at h
  by_cases hs : s < 0
  · rw [if_pos hs] at h; cases h
  · rw [if_neg hs] at h; exact ⟨not_lt.1 hs, (Option.some.inj h).symm⟩

theorem nan_fmaSum {a b : Nat → Nan V} {a' b' : Nat → V} {c : V} (n : Nat) (ha : ∀ k, k < n → a k = num (a' k)) (hb : ∀ k, k < n → b k = num (b' k)) :
    fmaSum a b (num c) n = num (fmaSum a' b' c n) := by
  induction n with
  | zero => rfl
  | succ n ih =>
    show Arith.fma (a n) (b n) (fmaSum a b (num c) n) = _
    rw [ih (fun k hk => ha k (by omega)) (fun k hk => hb k (by omega)), ha n (by omega), hb n (by omega)]
    rfl

theorem nan_fnmaSum {a b : Nat → Nan V} {a' b' : Nat → V} {c : V} (n : Nat) (ha : ∀ k, k < n → a k = num (a' k)) (hb : ∀ k, k < n → b k = num (b' k)) :
    fnmaSum a b (num c) n = num (fnmaSum a' b' c n) := by
  induction n with
  | zero => rfl
  | succ n ih =>
    show Arith.fnma (a n) (b n) (fnmaSum a b (num c) n) = _
    rw [ih (fun k hk => ha k (by omega)) (fun k hk => hb k (by omega)), ha n (by omega), hb n (by omega)]
    rfl

theorem nan_potS {KN : Nat} {l : Nat → Nat → Nan V} {l' : Nat → Nat → V} {acc : V} {r c : Nat} (hr : ∀ q, q < c → l r q = num (l' r q))
    (hc : ∀ q, q < c → l c q = num (l' c q)) : potS KN l (num acc) r c = num (potS KN l' acc r c) := by
  have e : c = c / KN * KN + c % KN := by have := Nat.div_add_mod c KN; rw [Nat.mul_comm] at this; omega
  unfold potS
  rw [nan_fmaSum (a' := fun q => Arith.mul (Arith.neg Arith.one) (l' r q)) (b' := fun q => l' c q) _ (fun q hq => by
      rw [hr q (by omega)]; rfl) (fun q hq => hc q (by omega)),
    nan_fnmaSum (a' := fun t => l' c (c / KN * KN + t)) (b' := fun t => l' r (c / KN * KN + t)) _ (fun q hq => hc _ (by omega)) (fun q hq => hr _ (by omega))]

end Blast
