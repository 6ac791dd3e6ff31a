import Verif.Simd
import Mathlib.Logic.Function.Basic
/-
Programs as sequences of accesses to single memory cells, and their concurrent execution under a scheduler.

`Prog` describes a call as a whole. Here the same programs are executed access by access: `Exec p t` says that the tree `t` has the accesses of `p`, in the
order in which the constructs of `p` make them. Threads that run such trees are interleaved arbitrarily, one access at a time. (Sequential
consistency; C++ guarantees it for programs without data races, and the absence of data races is one of the properties proved of the model.)
-/
set_option linter.unusedSectionVars false
namespace Blast
open Prog
variable {V : Type}

/-- how a program ends other than by returning -/
inductive Fail where
  | ub
  | throw (e : Exn)
  | terminate
  | diverge
  deriving DecidableEq

/-- A program as a sequence of accesses to single cells; what follows a read depends on the value read. -/
inductive Tree (V α : Type) where
  | ret (a : α)
  | fail (f : Fail)
  | read (x : Int) (k : V → Tree V α)
  | write (x : Int) (v : V) (t : Tree V α)

namespace Tree
variable {α β : Type}

/-- sequential composition -/
def bind : Tree V α → (α → Tree V β) → Tree V β
  | ret a, f => f a
  | fail e, _ => fail e
  | read x k, f => read x (fun v => (k v).bind f)
  | write x v t, f => write x v (t.bind f)

/-- the body of a `noexcept` function -/
def noexcept : Tree V α → Tree V α
  | ret a => ret a
  | fail (.throw _) => fail .terminate
  | fail f => fail f
  | read x k => read x (fun v => (k v).noexcept)
  | write x v t => write x v t.noexcept

/-- reads of the lanes `0..n-1` of a SIMD load, one after the other; masked lanes are not read and are 0 -/
def gather [Arith V] (mask : Nat → Bool) (addr : Nat → Int) : Nat → Tree V (Vec V)
  | 0 => ret (fun _ => Arith.zero)
  | n + 1 => (gather mask addr n).bind (fun v =>
      if mask n then read (addr n) (fun x => ret (fun l => if l = n then x else v l)) else ret v)

/-- writes of the lanes `0..n-1` of a SIMD store; masked lanes are not written -/
def scatter (mask : Nat → Bool) (base : Int) (v : Vec V) : Nat → Tree V Unit
  | 0 => ret ()
  | n + 1 => (scatter mask base v n).bind (fun _ => if mask n then write (base + n) (v n) (ret ()) else ret ())

/-- run to the end without interruption -/
def denote : Tree V α → Mem V → Res V α
  | ret a, m => .ok a m
  | fail .ub, _ => .ub
  | fail (.throw e), m => .throw e m
  | fail .terminate, _ => .terminate
  | fail .diverge, _ => .diverge
  | read x k, m =>
    match m x with
    | some v => (k v).denote m
    | none => .ub
  | write x v t, m =>
    match m x with
    | some _ => t.denote (fun y => if y = x then some v else m y)
    | none => .ub

/-- number of accesses made when run to the end without interruption -/
def steps : Tree V α → Mem V → Nat
  | ret _, _ => 0
  | fail _, _ => 0
  | read x k, m =>
    match m x with
    | some v => (k v).steps m + 1
    | none => 1
  | write x v t, m =>
    match m x with
    | some _ => t.steps (fun y => if y = x then some v else m y) + 1
    | none => 1

/-- all writes, whatever is read, are to cells of `W`; results satisfy `Q` -/
def All (W : Int → Prop) (Q : α → Prop) : Tree V α → Prop
  | ret a => Q a
  | fail _ => True
  | read _ k => ∀ v, (k v).All W Q
  | write x _ t => W x ∧ t.All W Q

/-- `a` is a possible result, for some values read -/
def May (a : α) : Tree V α → Prop
  | ret b => b = a
  | fail _ => False
  | read _ k => ∃ v, (k v).May a
  | write _ _ t => t.May a

/-- the call is over -/
def done : Tree V α → Bool
  | ret _ => true
  | fail _ => true
  | _ => false

/-- one access. Accessing an unallocated cell is undefined behaviour. -/
def step : Tree V α → Mem V → Tree V α × Mem V
  | ret a, m => (ret a, m)
  | fail f, m => (fail f, m)
  | read x k, m =>
    match m x with
    | some v => (k v, m)
    | none => (fail .ub, m)
  | write x v t, m =>
    match m x with
    | some _ => (t, fun y => if y = x then some v else m y)
    | none => (fail .ub, m)

/-- the access made by the next step: cell, and whether it is a write -/
def access : Tree V α → Option (Int × Bool)
  | read x _ => some (x, false)
  | write x _ _ => some (x, true)
  | _ => none

end Tree

/-- `Exec p t`: `t` makes the accesses of `p` in the order of the constructs of `p`. -/
inductive Exec [Arith V] : {α : Type} → Prog V α → Tree V α → Prop where
  | pure {α : Type} (a : α) : Exec (pure a) (.ret a)
  | throw {α : Type} (e : Exn) : Exec (Prog.throw e : Prog V α) (.fail (.throw e))
  | ub {α : Type} : Exec (Prog.ub : Prog V α) (.fail .ub)
  | diverge {α : Type} : Exec (fun _ => .diverge : Prog V α) (.fail .diverge)
  | read (x : Int) : Exec (Prog.read x) (.read x .ret)
  | write (x : Int) (v : V) : Exec (Prog.write x v) (.write x v (.ret ()))
  | gather (SS : Nat) (mask : Nat → Bool) (addr : Nat → Int) : Exec (Blast.gather SS mask addr) (.gather mask addr SS)
  | storeVecMask (SS : Nat) (mask : Nat → Bool) (base : Int) (v : Vec V) : Exec (Blast.storeVecMask SS mask base v) (.scatter mask base v SS)
  | bind {α β : Type} {p : Prog V α} {f : α → Prog V β} {t : Tree V α} {g : α → Tree V β} :
      Exec p t → (∀ a, t.May a → Exec (f a) (g a)) → Exec (p >>= f) (t.bind g)
  | noexcept {α : Type} {p : Prog V α} {t : Tree V α} : Exec p t → Exec (Prog.noexcept p) t.noexcept

/-! ### Concurrent execution -/

section pool
variable {ι : Type} [DecidableEq ι] {α : ι → Type}

/-- threads and the memory they share -/
structure Pool (V : Type) {ι : Type} (α : ι → Type) where
  thread : (i : ι) → Tree V (α i)
  mem : Mem V

/-- thread `i` makes its next access (nothing happens if it has ended) -/
def Pool.step (P : Pool V α) (i : ι) : Pool V α :=
  let r := (P.thread i).step P.mem
  ⟨Function.update P.thread i r.1, r.2⟩

/-- the threads make their accesses in the order given by the schedule -/
def Pool.run (P : Pool V α) : List ι → Pool V α
  | [] => P
  | i :: s => (P.step i).run s

/-- the accesses made: thread, cell, whether it is a write -/
def Pool.trace (P : Pool V α) : List ι → List (ι × Int × Bool)
  | [] => []
  | i :: s =>
    match (P.thread i).access with
    | some a => (i, a) :: (P.step i).trace s
    | none => (P.step i).trace s

end pool
end Blast
