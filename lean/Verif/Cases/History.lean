import Verif.Props.History
/- Concrete cases for the theorems of `Verif/Props/History.lean`. -/
namespace Blast
open Finset

example (piv : Nat → Nat → Nat) := C69_history (V := ℝ) (SS := 4) (KN := 4) (dv := (· / ·)) (by decide) (fun _ _ _ => rfl) piv demoProgram (demoProgram_admissible piv _)

/-- the storage of every object of a program that destroys them all is given back -/
example (piv : Nat → Nat → Nat) := C69_no_leak (V := ℝ) (SS := 4) (KN := 4) (dv := (· / ·)) (by decide) (fun _ _ _ => rfl) piv
  [.op (.create 0 demoX), .op (.create 1 demoY), .op (.destroy 0), .op (.destroy 1)] (by
    refine ⟨⟨rfl, by decide, fun z _ => rfl, fun _ => rfl⟩, fun _ => ⟨⟨rfl, by decide, fun z hz => ?_, fun h => by cases h⟩, fun _ =>
      ⟨⟨demoX, rfl⟩, fun hn => ⟨⟨demoY, ?_⟩, fun _ => trivial⟩⟩⟩⟩
    · have c0 : demoX.capacity 4 = 16 := by decide
      have h1 : (64 : Int) ≤ z := hz.1
      exact if_neg (fun hc => by have := hc.2; rw [c0] at this; simp [demoX] at this; omega)
    · exact (congrFun (destroy_obj (c := demoX) rfl hn) 1).trans rfl) (by
    intro x
    rcases x with _ | _ | x <;> rfl)

/-! ### the solve program: A = [[0, 1], [2, 0]], B = [[5], [8]]; the solution is [[4], [5]] -/

def solveA : AObj ℚ := ⟨.dynDense, .columnMajor, 2, 2, fun i j => if i = 0 ∧ j = 1 then 1 else if i = 1 ∧ j = 0 then 2 else 0, none⟩
def solveB : AObj ℚ := ⟨.statDense, .rowMajor, 2, 1, fun i _ => if i = 0 then 5 else 8, none⟩
def solveLu : Nat → Nat → ℚ := fun i j => if i = 0 ∧ j = 0 then 2 else if i = 1 ∧ j = 1 then 1 else 0
def solveStart : HState ℚ := ⟨fun x => if x = 0 then some solveA else if x = 1 then some solveB else none, fun _ _ => 0⟩
def solve1 : HState ℚ := (solveStart.put 0 { solveA with val := solveLu }).putPiv 7 (fun k => if k < 2 then 1 else 0)
def solve2 : HState ℚ := solve1.put 1 { solveB with val := rowSwaps (fun k => if k < 2 then 1 else 0) 0 2 solveB.val }
def solve3 : HState ℚ := solve2.put 1 { solveB with val := fun i _ => if i = 0 then 8 else 5 }
def solve4 : HState ℚ := solve3.put 1 { solveB with val := fun i _ => if i = 0 then 4 else 5 }

theorem solve_indep : ColsIndep 2 2 solveA.val := by
  intro x hx j hj
  have h0 := hx 0 (by decide)
  have h1 := hx 1 (by decide)
  simp [solveA, sum_range_succ] at h0 h1
  rcases j with _ | _ | j
  · exact h1
  · exact h0
  · omega

theorem solve_hist : SpecHist 4 solveStart [.call (.getrf 0 7 id), .call (.laswp 1 0 2 7), .call (.trsm .lower true 0 1 1), .call (.trsm .upper false 0 1 1)]
    [.done, .done, .done, .done] solve4 := by
  refine .cons (s' := solve1) ?_ rfl (.cons (s' := solve2) ?_ rfl (.cons (s' := solve3) ?_ rfl (.cons (s' := solve4) ?_ rfl (.nil _))))
  · refine ⟨solveA, rfl, fun _ => ⟨solveA, rfl, fun _ => ⟨rfl, solveLu, fun k => if k < 2 then 1 else 0, rfl, ?_, ?_, ?_, ?_, ?_⟩, fun h => absurd solve_indep h⟩,
      fun h => by cases h⟩
    · have : ∀ i < 2, ∀ j < 2, ∑ k ∈ range 2, tri .lower true solveLu i k * tri .upper false solveLu k j = rowSwaps (fun k => if k < 2 then 1 else 0) 0 2 solveA.val i j := by
        decide +kernel
      exact fun i j hi hj => this i hi j hj
    · have : ∀ k < 2, k ≤ (if k < 2 then 1 else 0) ∧ (if k < 2 then 1 else 0) < 2 := by decide
      exact this
    · intro k hk
      exact if_neg (Nat.not_lt.2 hk)
    · have : ∀ i < 2, ∀ k < 2, k < i → |solveLu i k| ≤ 1 := by decide +kernel
      exact fun i k h1 h2 h3 => this i h3 k h1 h2
    · have : ∀ k < 2, solveLu k k ≠ 0 := by decide +kernel
      exact this
  · exact ⟨solveB, rfl, rfl, rfl⟩
  · refine ⟨{ solveA with val := solveLu }, { solveB with val := rowSwaps (fun k => if k < 2 then 1 else 0) 0 2 solveB.val },
      { solveB with val := rowSwaps (fun k => if k < 2 then 1 else 0) 0 2 solveB.val }, rfl, rfl, rfl, fun _ => ⟨rfl, _, rfl, fun _ => ?_⟩, fun h => absurd (by decide) h⟩
    have : ∀ i < 2, ∀ j < 1, ∑ k ∈ range 2, tri .lower true solveLu i k * (if k = 0 then 8 else 5) = rowSwaps (fun k => if k < 2 then 1 else 0) 0 2 solveB.val i j := by
      decide +kernel
    exact fun i j hi hj => this i hi j hj
  · refine ⟨{ solveA with val := solveLu }, { solveB with val := fun i _ => if i = 0 then 8 else 5 },
      { solveB with val := fun i _ => if i = 0 then 8 else 5 }, rfl, rfl, rfl, fun _ => ⟨rfl, _, rfl, fun _ => ?_⟩, fun h => absurd (by decide) h⟩
    have : ∀ i < 2, ∀ j < 1, ∑ k ∈ range 2, tri .upper false solveLu i k * (if k = 0 then 4 else 5) = (if i = 0 then (8 : ℚ) else 5) := by
      decide +kernel
    exact fun i j hi hj => this i hi j hj

example := C69_solve_program (A := solveA) (B := solveB) (by decide) rfl rfl rfl rfl rfl solve_indep solve_hist

/-! ### the Cholesky program: 3 × 3 with the identity as random matrix: 4 I = (2 I) (2 I)ᵀ -/

def cholX : AObj ℚ := ⟨.dynDense, .columnMajor, 3, 3, fun _ _ => 0, none⟩
def cholRnd : Nat → Nat → ℚ := fun i j => if i = j then 1 else 0
def cholStart : HState ℚ := ⟨fun x => if x = 0 then some cholX else none, fun _ _ => 0⟩
def chol1 : HState ℚ := cholStart.put 0 { cholX with val := fun i j => (∑ k ∈ range 3, cholRnd i k * cholRnd j k) + if i = j then ((3 : Nat) : ℚ) else 0, pad := none }
def chol2 : HState ℚ := chol1.put 0 { cholX with val := fun i j => if i = j then 2 else if i < j then (∑ k ∈ range 3, cholRnd i k * cholRnd j k) + if i = j then ((3 : Nat) : ℚ) else 0 else 0, pad := none }

theorem chol_hist : SpecHist 4 cholStart [.call (.makePositiveDefinite 0 100 cholRnd 3), .call (.potrf 0 0)] [.done, .done] chol2 := by
  refine .cons (s' := chol1) ?_ rfl (.cons (s' := chol2) ?_ rfl (.nil _))
  · exact ⟨cholX, rfl, fun _ => ⟨rfl, rfl⟩, fun h => absurd rfl h⟩
  · refine ⟨_, _, rfl, rfl, fun _ => ⟨rfl, _, rfl, fun _ => ?_, fun i j hi hj h => ?_⟩, fun h => absurd (by decide) h⟩
    · have h1 : ∀ k < 3, (0 : ℚ) < (fun i j => if i = j then 2 else if i < j then (∑ k ∈ range 3, cholRnd i k * cholRnd j k) + if i = j then ((3 : Nat) : ℚ) else 0 else 0) k k := by decide +kernel
      have h2 : ∀ i < 3, ∀ j < 3, j ≤ i → ∑ q ∈ range (j + 1), (fun i j => if i = j then 2 else if i < j then (∑ k ∈ range 3, cholRnd i k * cholRnd j k) + if i = j then ((3 : Nat) : ℚ) else 0 else 0) i q *
          (fun i j => if i = j then 2 else if i < j then (∑ k ∈ range 3, cholRnd i k * cholRnd j k) + if i = j then ((3 : Nat) : ℚ) else 0 else 0) j q =
          (∑ k ∈ range 3, cholRnd i k * cholRnd j k) + if i = j then ((3 : Nat) : ℚ) else 0 := by decide +kernel
      exact ⟨h1, fun i j a b c => h2 i b j c a⟩
    · have h' : i < j := h
      beta_reduce
      rw [if_neg (by omega), if_pos h']

example := C69_cholesky_program (V := ℚ) (X := cholX) rfl rfl chol_hist
end Blast
