import Verif.TrsmDense
import Verif.Props.Reference
/- Concrete cases meeting the hypotheses of these theorems: Verif/Cases/Trmm.lean, and the examples in this file. -/
/-
Properties C27, C28: dense trsm and trsv.
-/
set_option linter.unusedSectionVars false
namespace Blast
open Finset Prog Reg
variable {V : Type}

/-- **C27**. For every size, triangle, unit or non-unit diagonal and layout, `trsm<UPLO,UNIT>(A,B,X)` leaves in X a
solution of `tri(A) * X = B`; X may be B; only the selected triangle of A is read (the other one need not be
allocated); nothing but X is written. A must be non-singular. -/
theorem C27_trsm_solves [Field V] [Arith V] [ExactField V] {SS m n : Nat} {A X B : MPtr} (uplo : UpLo)
    (unit : Bool) {mem : Mem V} {a b : Nat → Nat → V}
    (hA : TriArg SS mem A m uplo unit a X m n) (hnz : unit = false → ∀ i, i < m → a i i ≠ 0)
    (hX : Readable SS mem X m n) (hinj : Inj SS X m n) (hB : Holds SS mem B m n b)
    (hBX : SameOrDisj SS B X m n) :
    ∃ mem' x, trsmPtr SS m n uplo unit A B X mem = .ok () mem' ∧ Holds SS mem' X m n x ∧
      (∀ i j, i < m → j < n → ∑ k ∈ range m, tri uplo unit a i k * x k j = b i j) ∧
      (∀ y, ¬ Cells SS X m n y → mem' y = mem y) := by
  obtain ⟨mem', e1, e2, e3, e4⟩ := solve_exact (no := n) (ni := m) uplo
    (addrX := fun o i => X.addr SS (i : Nat) (o : Nat)) (addrB := fun o i => B.addr SS (i : Nat) (o : Nat))
    (addrA := fun i k => A.addr SS (i : Nat) (k : Nat)) Arith.mul ExactRing.mul_eq (1 : V) id
    (fun p => (one_mul p).symm) unit (m := mem) (a := a) (b := fun o i => b i o)
    (by intro o i o' i' h1 h2 h3 h4 he; have := hinj _ _ _ _ h2 h1 h4 h3 he; exact ⟨this.2, this.1⟩)
    (by intro o i ho hi; exact hX i o hi ho) (fun o i ho hi => hB i o hi ho)
    (by intro o i o' i' h1 h2 h3 h4 he; have := hBX _ _ _ _ h2 h1 h4 h3 he; exact ⟨this.2, this.1⟩)
    (by
      intro i k hi hk hr
      have := hA i k hi hk hr
      exact ⟨this.1, fun o' i' h1 h2 he => this.2 ⟨i', o', h2, h1, he⟩⟩) hnz
  refine ⟨mem', fun i j => val mem' (X.addr SS i j), ?_, fun i j hi hj => e3 j i hj hi, fun i j hi hj => ?_,
    fun y hy => e2 y (fun o i ho hi he => hy ⟨i, o, hi, ho, he⟩)⟩
  · cases uplo <;> exact e1
  · have := e4 j i hj hi
    rwa [one_mul] at this

/-- **C27** (uniqueness): the equation of `C27_trsm_solves` determines X, so the result is the solution. -/
theorem C27_trsm_unique [Field V] {m : Nat} (uplo : UpLo) (unit : Bool) {a : Nat → Nat → V}
    (hnz : unit = false → ∀ i, i < m → a i i ≠ 0) {x y : Nat → V}
    (h : ∀ i, i < m → ∑ k ∈ range m, tri uplo unit a i k * x k = ∑ k ∈ range m, tri uplo unit a i k * y k) :
    ∀ i, i < m → x i = y i := by
  have hd : ∀ i, i < m → tri uplo unit a i i ≠ 0 := by
    intro i hi
    rw [tri_diag]
    cases hu : unit
    · simpa using hnz hu i hi
    · simp
  cases uplo with
  | lower =>
    intro i
    induction i using Nat.strong_induction_on with
    | _ i ih =>
      intro hi
      have e := h i hi
      rw [sum_lower _ hi (fun k hk => by rw [tri_lower_zero hk, zero_mul]),
        sum_lower _ hi (fun k hk => by rw [tri_lower_zero hk, zero_mul]),
        sum_congr rfl (fun k hk => by rw [ih k (mem_range.1 hk) (by have := mem_range.1 hk; omega)])] at e
      exact mul_left_cancel₀ (hd i hi) (add_left_cancel e)
  | upper =>
    have key : ∀ t i, i < m → m - i ≤ t → x i = y i := by
      intro t
      induction t with
      | zero => intro i hi ht; omega
      | succ t ih =>
        intro i hi ht
        have e := h i hi
        rw [sum_upper _ hi (fun k hk => by rw [tri_upper_zero hk, zero_mul]),
          sum_upper _ hi (fun k hk => by rw [tri_upper_zero hk, zero_mul]),
          sum_congr (s₁ := range (m - (i + 1))) rfl (fun k hk => by
            rw [ih (i + 1 + k) (by have := mem_range.1 hk; omega) (by omega)])] at e
        exact mul_left_cancel₀ (hd i hi) (add_right_cancel e)
    exact fun i hi => key (m - i) i hi (Nat.le_refl _)

/-- **C27** (sizes): inconsistent sizes - and only those - are reported by std::invalid_argument, before anything is
written. -/
theorem C27_trsm_size_check [Arith V] {SS : Nat} (A B X : Mat) (uplo : UpLo) (unit : Bool) (m : Mem V) :
    trsmMat SS uplo unit A B X m =
      if (A.rows = B.rows ∧ A.cols = B.rows) ∧ X.rows = B.rows ∧ X.cols = B.cols then
        trsmPtr SS B.rows B.cols uplo unit A.p B.p X.p m else .throw .invalidArgument m := by
  unfold trsmMat
  by_cases h1 : A.rows ≠ B.rows ∨ A.cols ≠ B.rows
  · rw [if_pos h1, if_neg (show ¬ ((A.rows = B.rows ∧ A.cols = B.rows) ∧ X.rows = B.rows ∧ X.cols = B.cols) by omega)]
    rfl
  · rw [if_neg h1]
    by_cases h2 : X.rows ≠ B.rows ∨ X.cols ≠ B.cols
    · rw [if_pos h2, if_neg (show ¬ ((A.rows = B.rows ∧ A.cols = B.rows) ∧ X.rows = B.rows ∧ X.cols = B.cols) by omega)]
      rfl
    · rw [if_neg h2, if_pos (show (A.rows = B.rows ∧ A.cols = B.rows) ∧ X.rows = B.rows ∧ X.cols = B.cols by omega)]

/-- **C28**. `trsvLeftLower` / `trsvLeftUpper` leave in x a solution of `tri(A) * x = b`, for all sizes, layouts and
vector strides; x may be b; only the selected triangle of A is read; nothing but x is written. A must be non-singular,
x must have the size of b. -/
theorem C28_trsv_solves [Field V] [Arith V] [ExactField V] {SS n : Nat} {A : MPtr} {b x : VPtr} (uplo : UpLo)
    {mem : Mem V} {a : Nat → Nat → V} {bv : Nat → V}
    (hA : ∀ i k, i < n → k < n → TriRef uplo false i k →
      mem (A.addr SS i k) = some (a i k) ∧ ∀ i' : Nat, i' < n → A.addr SS i k ≠ x.addr SS i')
    (hnz : ∀ i, i < n → a i i ≠ 0)
    (hX : ∀ i : Nat, i < n → (mem (x.addr SS i)).isSome = true)
    (hinj : ∀ i i' : Nat, i < n → i' < n → x.addr SS i = x.addr SS i' → i = i')
    (hB : VHolds SS mem b n bv)
    (hBX : ∀ i i' : Nat, i < n → i' < n → b.addr SS i = x.addr SS i' → i = i') :
    ∃ mem' xv, trsvPtr SS n uplo A b x mem = .ok () mem' ∧ VHolds SS mem' x n xv ∧
      (∀ i, i < n → ∑ k ∈ range n, tri uplo false a i k * xv k = bv i) ∧
      (∀ y, (∀ i : Nat, i < n → y ≠ x.addr SS i) → mem' y = mem y) := by
  obtain ⟨mem', e1, e2, e3, e4⟩ := solve_exact (no := 1) (ni := n) uplo
    (addrX := fun _ i => x.addr SS (i : Nat)) (addrB := fun _ i => b.addr SS (i : Nat))
    (addrA := fun i k => A.addr SS (i : Nat) (k : Nat)) Arith.mul ExactRing.mul_eq (1 : V) id
    (fun p => (one_mul p).symm) false (m := mem) (a := a) (b := fun _ i => bv i)
    (by intro o i o' i' h1 h2 h3 h4 he; exact ⟨by omega, hinj _ _ h2 h4 he⟩)
    (by intro o i ho hi; exact hX i hi) (fun o i ho hi => hB i hi)
    (by intro o i o' i' h1 h2 h3 h4 he; exact ⟨by omega, hBX _ _ h2 h4 he⟩)
    (by
      intro i k hi hk hr
      have := hA i k hi hk hr
      exact ⟨this.1, fun o' i' h1 h2 => this.2 i' h2⟩) (fun _ => hnz)
  refine ⟨mem', fun i => val mem' (x.addr SS i), ?_, fun i hi => e3 0 i (by omega) hi, fun i hi => ?_,
    fun y hy => e2 y (fun o i ho hi => hy i hi)⟩
  · cases uplo <;> exact e1
  · have := e4 0 i (by omega) hi
    rwa [one_mul] at this

/-- **C28** (sizes): a matrix that is not square with the size of b is reported by std::invalid_argument. -/
theorem C28_trsv_size_check [Arith V] {SS : Nat} (A : Mat) (b x : VArg) (uplo : UpLo) (m : Mem V) :
    trsvMat SS uplo A b x m =
      if A.rows = b.n ∧ A.cols = b.n then trsvPtr SS b.n uplo A.p b.p x.p m else .throw .invalidArgument m := by
  unfold trsvMat
  by_cases h1 : A.rows = b.n ∧ A.cols = b.n
  · rw [if_pos h1, if_neg (by omega)]
  · rw [if_neg h1, if_pos (by omega)]; rfl

/-- hypotheses of C28 on a concrete instance: 3×3 lower triangular system, x stored with stride 2, in place -/
example : ∃ (a : Nat → Nat → Rat) (bv : Nat → Rat), (∀ i k, i < 3 → k < 3 → TriRef .lower false i k →
      refDemoMem (refDemoA.addr 4 i k) = some (a i k) ∧
        ∀ i' : Nat, i' < 3 → refDemoA.addr 4 i k ≠ (VPtr.vec false false 20 2).addr 4 i') ∧
    (∀ i, i < 3 → a i i ≠ 0) ∧ VHolds 4 refDemoMem (VPtr.vec false false 20 2) 3 bv := by
  refine ⟨fun i k => ((i + 3 * k : Nat) : Rat) + 1, fun i => ((2 * i : Nat) : Rat) + 21, ?_, ?_, ?_⟩
  · intro i k hi hk hr
    constructor
    · rcases hr with ⟨rfl, _⟩ | ⟨_, hr⟩ | ⟨h, _⟩
      · obtain rfl | rfl | rfl : i = 0 ∨ i = 1 ∨ i = 2 := by omega
        all_goals rfl
      · obtain ⟨rfl, rfl⟩ | ⟨rfl, rfl⟩ | ⟨rfl, rfl⟩ : (i = 1 ∧ k = 0) ∨ (i = 2 ∧ k = 0) ∨ (i = 2 ∧ k = 1) := by omega
        all_goals rfl
      · cases h
    · intro i' hi' h3
      simp [MPtr.addr, refDemoA, VPtr.addr] at h3
      omega
  · intro i _
    positivity
  · intro i hi
    show refDemoMem (20 + (i : Int) * 2) = _
    unfold refDemoMem
    rw [if_pos (by omega)]
    push_cast
    congr 1
    ring

end Blast
