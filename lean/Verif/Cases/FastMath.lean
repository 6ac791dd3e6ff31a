import Verif.Props.FastMath
import Verif.Cases.Accuracy
import Verif.Cases.Reference
/-
Concrete cases of the theorems in Props/FastMath: double precision, `trsm` with an 8 × 8 matrix and 7 right-hand sides vectorized over 4 lanes and dividing by multiplication with the
reciprocal; `trsv` contracted; `reference::gemm` with partial sums.
-/
namespace Blast
open Reg (UpLo)

theorem recip_ok {V : Type} [Arith V] : DivOrRecip (fun x d : V => Arith.mul x (Arith.div Arith.one d)) := fun _ _ => Or.inr rfl
theorem div_ok {V : Type} [Arith V] : DivOrRecip (Arith.div : V → V → V) := fun _ _ => Or.inl rfl

example := C95_trsm_vectorized (u := flU 52) (SS := 4) (m := 8) (n := 7) .lower false 4 (by decide) recip_ok (mem := fl1Mem)
  (triArg_of (by decide) .lower false (memOf_contains (c := solA) lit lit lit) solA_apart lit lit lit lit)
  (fun _ i hi => fl1_diag (c := solA) lit hi hi) (solB_live.readable (by decide)) (solB_self lit lit) (memOf_contains (c := solB) lit lit lit).holds (solB_self lit lit)

/-- the sum for even rows from left to right, for odd rows in four lanes -/
example := C95_trsm (u := flU 52) (SS := 4) (m := 8) (n := 7) .upper false (h := 9) (dv := Arith.div)
  (ord := fun _ i b a x => if i % 2 = 0 then plainOrder (i + 1) b a x (8 - (i + 1)) else laneOrder 4 (i + 1) b a x (8 - (i + 1)))
  (fun j i _ hi b a x => by
    have e : (i + 1) + (8 - (i + 1)) = 8 := by omega
    show Regroups 9 (solveTerms (i + 1) 8 b a x) _
    split
    · have := plainOrder_regroups (i + 1) (8 - (i + 1)) b a x
      rw [e] at this
      exact ⟨le_trans this.1 (by omega), this.2⟩
    · have := laneOrder_regroups rfl 4 (i + 1) (8 - (i + 1)) (by decide) b a x
      rw [e] at this
      exact ⟨le_trans this.1 (by omega), this.2⟩) div_ok (mem := fl1Mem)
  (triArg_of (by decide) .upper false (memOf_contains (c := solA) lit lit lit) solA_apart lit lit lit lit)
  (fun _ i hi => fl1_diag (c := solA) lit hi hi) (solB_live.readable (by decide)) (solB_self lit lit) (memOf_contains (c := solB) lit lit lit).holds (solB_self lit lit)

example := C95_trsv (u := flU 52) (SS := 4) (n := 8) (A := solA.mptr 4) (b := .vec false false 300 2) (x := .vec false false 700 3) .upper (h := 8)
  (ord := fun i b a x => fusedOrder (i + 1) b a x (8 - (i + 1))) (fun i hi b a x => by
    have e : (i + 1) + (8 - (i + 1)) = 8 := by omega
    have := fusedOrder_regroups (i + 1) (8 - (i + 1)) b a x
    rw [e] at this
    exact ⟨le_trans this.1 (by omega), this.2⟩) div_ok (mem := fl1Mem)
  (a := fun i j => flOf (solA.addr 4 i j + 1)) (bv := fun i => flOf (300 + i * 2 + 1))
  (fun i k hi hk _ => ⟨(memOf_contains (c := solA) lit lit lit).holds i k hi hk, by
    have : ∀ i < 8, ∀ k < 8, (solA.mptr 4).addr 4 (i : Nat) (k : Nat) < 100 := by decide +kernel
    intro i' hi' e
    have h1 := this i hi k hk
    have e : (solA.mptr 4).addr 4 (i : Nat) (k : Nat) = 700 + i' * 3 := e
    omega⟩)
  (fun i hi => fl1_diag (c := solA) lit hi hi)
  (fun i hi => by
    show (fl1Mem (700 + (i : Int) * 3)).isSome = true
    unfold fl1Mem; rw [memOf_at (by omega) (by omega)]; rfl)
  (fun i i' _ _ e => by
    have e : (700 : Int) + i * 3 = 700 + i' * 3 := e
    omega)
  (fun i hi => memOf_at (show (0 : Int) ≤ 300 + i * 2 by omega) (show (300 : Int) + i * 2 < 1000 by omega))
  (fun i i' _ _ e => by
    have e : (300 : Int) + i * 2 = 700 + i' * 3 := e
    omega)

/-- `alpha * v + beta * c` with the second product contracted -/
example := C95_reference_gemm (u := flU 52) (SS := 4) (by decide) (A := rfA.mptr 4) (B := rfB.mptr 4) (C := rfX.mptr 4) (D := rfX.mptr 4) (h := 7)
  (ord := fun _ _ a b => lanesTotal 4 a b 5 4) (fin := fun alpha v beta c => Arith.fma beta c (Arith.mul alpha v))
  (fun i j _ _ a b => ⟨le_trans (lanes_regroups rfl 4 5 (by decide) a b).1 (by decide), (lanes_regroups rfl 4 5 (by decide) a b).2⟩) (fun _ _ _ _ => Or.inr (Or.inr rfl))
  (by decide) (by decide) (by decide) (by decide)
  (flOf 2) (flOf 3) flA_has.holds flB_has.holds flX_has.holds flX_readable rf_inj ((apart_of (c := rfA) (d := rfX) lit).disj (by decide))
  ((apart_of (c := rfB) (d := rfX) lit).disj (by decide)) (sameOrDisj_self (by decide) rfX)

/-! ### the refutation: 1, 2^54, -2^54 at 0, 4, 8 (a 1 × 3 matrix), ones up to 199, zero elsewhere -/

noncomputable def cancelOf (z : Int) : Fe 52 :=
  if z = 4 then ExactInts.num (2 ^ 54) else if z = 8 then ExactInts.num (-2 ^ 54) else if z < 200 then ExactInts.num 1 else ExactInts.num 0
noncomputable def cancelMem : Mem (Fe 52) := memOf 1000 cancelOf
def canA : Container := ⟨.dynDense, .columnMajor, 1, 3, 0⟩
def canB : Container := ⟨.statPanel, .columnMajor, 3, 1, 100⟩
def canC : Container := ⟨.dynDense, .rowMajor, 1, 1, 300⟩
theorem can_has {c : Container} (h2 : 0 ≤ c.data) (h3 : c.data + c.capacity 4 ≤ 1000) : Contains 4 cancelMem c (fun i j => cancelOf (c.addr 4 i j)) :=
  memOf_contains (by decide) h2 h3

example := C95_order_matters_refuted (p := 52) (SS := 4) (by decide) (A := canA.mptr 4) (B := canB.mptr 4) (C := canC.mptr 4) (D := canC.mptr 4)
  (by decide) (by decide) (by decide) (by decide) (mem := cancelMem) (can_has (c := canA) lit lit).holds (can_has (c := canB) lit lit).holds (can_has (c := canC) lit lit).holds
  ⟨by rw [show canA.addr 4 0 0 = 0 by decide]; unfold cancelOf; norm_num, by rw [show canA.addr 4 0 1 = 4 by decide]; rfl,
    by rw [show canA.addr 4 0 2 = 8 by decide]; unfold cancelOf; rw [if_neg (by decide), if_pos rfl]⟩
  (fun k hk => by
    have h : ∀ k < 3, 100 ≤ canB.addr 4 k 0 ∧ canB.addr 4 k 0 < 200 := by decide +kernel
    obtain ⟨h1, h2⟩ := h k hk
    beta_reduce
    unfold cancelOf
    rw [if_neg (by omega), if_neg (by omega), if_pos h2])
  (by rw [show canC.addr 4 0 0 = 300 by decide]; unfold cancelOf; norm_num)
  (memOf_readable (c := canC) lit lit lit) (sameOrDisj_self (by decide) canC) ((apart_of (c := canA) (d := canC) lit).disj (by decide))
  ((apart_of (c := canB) (d := canC) lit).disj (by decide)) (sameOrDisj_self (by decide) canC)
end Blast
