import Verif.Backward
import Verif.RoundingBinary
import Verif.Props.TrsmDense
/- Concrete cases meeting the hypotheses of these theorems: Verif/Cases/Accuracy.lean, and the examples in this file. -/
/-
Property C57: backward error of the triangular solves in rounded arithmetic.
-/
set_option linter.unusedSectionVars false
namespace Blast
open Finset Prog Reg
variable {V : Type} [Field V] [LinearOrder V] [IsStrictOrderedRing V] [Arith V] {u : V} [hR : Rounded u]

theorem solve_rounded {no ni : Nat} (uplo : UpLo)
    {addrX addrB addrA : Nat → Nat → Int} (f : V → V → V) (hf : ∀ p q, Rel (bu u) 1 (f p q) (p * q)) (alpha : V)
    (ini : V → V) {r : Nat} (hini : ∀ p, Rel (bu u) r (ini p) (alpha * p))
    (diag : Bool) {m : Mem V} {a b : Nat → Nat → V}
    (hinj : ∀ o i o' i', o < no → i < ni → o' < no → i' < ni → addrX o i = addrX o' i' → o = o' ∧ i = i')
    (hX : ∀ o i, o < no → i < ni → (m (addrX o i)).isSome = true)
    (hB : ∀ o i, o < no → i < ni → m (addrB o i) = some (b o i))
    (hBX : ∀ o i o' i', o < no → i < ni → o' < no → i' < ni → addrB o i = addrX o' i' → o = o' ∧ i = i')
    (hA : ∀ i k, i < ni → k < ni → TriRef uplo diag i k → m (addrA i k) = some (a i k) ∧
      ∀ o' i', o' < no → i' < ni → addrA i k ≠ addrX o' i')
    (hnz : diag = false → ∀ i, i < ni → a i i ≠ 0) :
    ∃ m', forN no (fun o => innerLoop (solveDown uplo) ni
        (solveBody addrX addrB addrA f ini diag (solveLo uplo) (solveHi uplo ni) o)) m = .ok () m' ∧
      (∀ x, (∀ o i, o < no → i < ni → x ≠ addrX o i) → m' x = m x) ∧
      (∀ o i, o < no → i < ni → m' (addrX o i) = some (val m' (addrX o i))) ∧
      (∀ o i, o < no → i < ni →
        |alpha * b o i - ∑ k ∈ range ni, tri uplo diag a i k * val m' (addrX o k)| ≤
          ((1 / (1 - u)) ^ (ni + r) - 1) * ∑ k ∈ range ni, |tri uplo diag a i k| * |val m' (addrX o k)|) := by
  have href : ∀ i k, i < ni → (solveLo uplo i ≤ k ∧ k < solveHi uplo ni i ∨ (diag = false ∧ k = i)) →
      k < ni ∧ TriRef uplo diag i k := by
    intro i k hi hk
    cases uplo with
    | lower =>
      rcases hk with ⟨_, hk⟩ | ⟨h1, h2⟩
      · change k < i at hk; exact ⟨by omega, Or.inr (Or.inl ⟨rfl, hk⟩)⟩
      · exact ⟨by omega, Or.inl ⟨h2.symm, h1⟩⟩
    | upper =>
      rcases hk with ⟨h3, hk⟩ | ⟨h1, h2⟩
      · change i + 1 ≤ k at h3; change k < ni at hk; exact ⟨hk, Or.inr (Or.inr ⟨rfl, by omega⟩)⟩
      · exact ⟨by omega, Or.inl ⟨h2.symm, h1⟩⟩
  obtain ⟨m', e1, e2, e3⟩ := runs_solve (no := no) (ni := ni) (solveDown uplo) (addrX := addrX) (addrB := addrB)
    (addrA := addrA) f ini diag (solveLo uplo) (solveHi uplo ni)
    (by
      intro i k hi h1 h2
      cases uplo with
      | lower => change k < i at h2; exact ⟨by omega, by simpa [innerLt, solveDown] using h2⟩
      | upper =>
        change k < ni at h2; change i + 1 ≤ k at h1
        exact ⟨h2, by simp [innerLt, solveDown]; omega⟩) (m := m) hinj hX
    (by intro o i ho hi; rw [hB o i ho hi]; rfl) hBX
    (by
      intro i k hi hk
      obtain ⟨h1, h2⟩ := href i k hi hk
      exact ⟨by rw [(hA i k hi h1 h2).1]; rfl, (hA i k hi h1 h2).2⟩)
  refine ⟨m', e1, e2, fun o i ho hi => ?_, fun o i ho hi => ?_⟩
  · have := e3 o i ho hi
    rw [val_some this]; exact this
  · have h := val_some (e3 o i ho hi)
    rw [val_some (hB o i ho hi)] at h
    have hcg : subFold (fun k => f (val m (addrA i k)) (val m' (addrX o k))) (ini (b o i)) (solveLo uplo i) (solveHi uplo ni i - solveLo uplo i) =
        subFold (fun k => f (tri uplo diag a i k) (val m' (addrX o k))) (ini (b o i)) (solveLo uplo i) (solveHi uplo ni i - solveLo uplo i) := by
      refine subFold_congr _ (fun k hk1 hk2 => ?_)
      obtain ⟨h1, h2⟩ := href i k hi (Or.inl ⟨by omega, by omega⟩)
      rw [val_some (hA i _ hi h1 h2).1]
      congr 1
      cases uplo with
      | lower => exact (tri_lower (by change k < 0 + (i - 0) at hk2; omega)).symm
      | upper => exact (tri_upper (by change i + 1 ≤ k at hk1; omega)).symm
    simp only [hcg] at h
    have hdec : ∀ g : Nat → V, (∀ k, tri uplo diag a i k = 0 → g k = 0) → ∑ k ∈ range ni, g k =
        g i + ∑ k ∈ range (solveHi uplo ni i - solveLo uplo i), g (solveLo uplo i + k) := by
      intro g hg
      cases uplo with
      | lower =>
        rw [sum_lower _ hi (fun k hk => hg k (tri_lower_zero hk)), add_comm]
        simp [solveHi, solveLo]
      | upper =>
        rw [sum_upper _ hi (fun k hk => hg k (tri_upper_zero hk))]
        simp [solveHi, solveLo]
    have hcnt : solveHi uplo ni i - solveLo uplo i + 1 ≤ ni := by
      cases uplo with
      | lower => simp only [solveHi, solveLo]; omega
      | upper => simp only [solveHi, solveLo]; omega
    have n1 := near_subFold (u := u) (f := fun k => f (tri uplo diag a i k) (val m' (addrX o k)))
      (p := fun k => tri uplo diag a i k * val m' (addrX o k)) (fun k => hf _ _) (ini (b o i)) (solveLo uplo i) (solveHi uplo ni i - solveLo uplo i)
    generalize hS : subFold (fun k => f (tri uplo diag a i k) (val m' (addrX o k))) (ini (b o i)) (solveLo uplo i)
      (solveHi uplo ni i - solveLo uplo i) = S at h n1
    have n2 : Rel (bu u) 1 S (tri uplo diag a i i * val m' (addrX o i)) := by
      rw [h, tri_diag]
      cases hd : diag
      · simp only [Bool.false_eq_true, if_false]
        have hne := hnz hd i hi
        rw [val_some (hA i i hi hi (Or.inl ⟨rfl, hd⟩)).1]
        have := (rel_div_mul (u := u) (a := S) hne).symm
        rwa [mul_comm] at this
      · simp only [if_true]
        rw [one_mul]; exact (Rel.refl _ _).mono buN (Nat.zero_le 1)
    have n3 := (n1.subst buN n2.near (abs_sum_le_sum_abs _ _)).rel buN (hini (b o i)).symm
    have n4 := n3.mono buN (show solveHi uplo ni i - solveLo uplo i + 1 + r ≤ ni + r by omega)
    have := n4.bound buN (le_refl _) (y' := ∑ k ∈ range ni, tri uplo diag a i k * val m' (addrX o k))
      (B' := ∑ k ∈ range ni, |tri uplo diag a i k| * |val m' (addrX o k)|)
      (hdec (fun k => tri uplo diag a i k * val m' (addrX o k)) (fun k hk => by rw [hk, zero_mul])).symm
      (by
        rw [hdec (fun k => |tri uplo diag a i k| * |val m' (addrX o k)|) (fun k hk => by rw [hk, abs_zero, zero_mul])]
        simp only [abs_mul])
    rwa [one_add_bu hR.u_lt_one] at this

/-- **C57** (trsm). In rounded arithmetic the computed X satisfies `tri(A)*X = B` up to a residual of at most
`((1/(1-u))^m - 1) * |tri(A)| |X|`, element by element, where m is the order of A (`(1/(1-u))^m - 1 ≤ m u/(1 - m u)`, see
`inv_pow_sub_one_le_gamma`): row by row, X solves a system whose matrix differs from tri(A) by a relative perturbation of this size.
X may be B. -/
theorem C57_trsm_residual {SS m n : Nat} {A X B : MPtr} (uplo : UpLo)
    (unit : Bool) {mem : Mem V} {a b : Nat → Nat → V}
    (hA : TriArg SS mem A m uplo unit a X m n) (hnz : unit = false → ∀ i, i < m → a i i ≠ 0)
    (hX : Readable SS mem X m n) (hinj : Inj SS X m n) (hB : Holds SS mem B m n b)
    (hBX : SameOrDisj SS B X m n) :
    ∃ mem' x, trsmPtr SS m n uplo unit A B X mem = .ok () mem' ∧ Holds SS mem' X m n x ∧
      (∀ i j, i < m → j < n → |b i j - ∑ k ∈ range m, tri uplo unit a i k * x k j| ≤
        ((1 / (1 - u)) ^ m - 1) * ∑ k ∈ range m, |tri uplo unit a i k| * |x k j|) ∧
      (∀ y, ¬ Cells SS X m n y → mem' y = mem y) := by
  obtain ⟨mem', e1, e2, e3, e4⟩ := solve_rounded (u := u) (no := n) (ni := m) uplo
    (addrX := fun o i => X.addr SS (i : Nat) (o : Nat)) (addrB := fun o i => B.addr SS (i : Nat) (o : Nat))
    (addrA := fun i k => A.addr SS (i : Nat) (k : Nat)) Arith.mul rel_mul (1 : V) id (r := 0)
    (fun p => by rw [one_mul]; exact Rel.refl _ _) unit (m := mem) (a := a) (b := fun o i => b i o)
    (by intro o i o' i' h1 h2 h3 h4 he; have := hinj _ _ _ _ h2 h1 h4 h3 he; exact ⟨this.2, this.1⟩)
    (by intro o i ho hi; exact hX i o hi ho) (fun o i ho hi => hB i o hi ho)
    (by intro o i o' i' h1 h2 h3 h4 he; have := hBX _ _ _ _ h2 h1 h4 h3 he; exact ⟨this.2, this.1⟩)
    (by
      intro i k hi hk hr
      have := hA i k hi hk hr
      exact ⟨this.1, fun o' i' h1 h2 he => this.2 ⟨i', o', h2, h1, he⟩⟩) hnz
  refine ⟨mem', fun i j => val mem' (X.addr SS i j), ?_, fun i j hi hj => e3 j i hj hi, fun i j hi hj => ?_,
    fun y hy => e2 y (fun o i ho hi he => hy ⟨i, o, hi, ho, he⟩)⟩
  · cases uplo <;> exact e1
  · have := e4 j i hj hi
    rwa [one_mul] at this

/-- **C57** (trsv). -/
theorem C57_trsv_residual {SS n : Nat} {A : MPtr} {b x : VPtr} (uplo : UpLo)
    {mem : Mem V} {a : Nat → Nat → V} {bv : Nat → V}
    (hA : ∀ i k, i < n → k < n → TriRef uplo false i k →
      mem (A.addr SS i k) = some (a i k) ∧ ∀ i' : Nat, i' < n → A.addr SS i k ≠ x.addr SS i')
    (hnz : ∀ i, i < n → a i i ≠ 0)
    (hX : ∀ i : Nat, i < n → (mem (x.addr SS i)).isSome = true)
    (hinj : ∀ i i' : Nat, i < n → i' < n → x.addr SS i = x.addr SS i' → i = i')
    (hB : VHolds SS mem b n bv)
    (hBX : ∀ i i' : Nat, i < n → i' < n → b.addr SS i = x.addr SS i' → i = i') :
    ∃ mem' xv, trsvPtr SS n uplo A b x mem = .ok () mem' ∧ VHolds SS mem' x n xv ∧
      (∀ i, i < n → |bv i - ∑ k ∈ range n, tri uplo false a i k * xv k| ≤
        ((1 / (1 - u)) ^ n - 1) * ∑ k ∈ range n, |tri uplo false a i k| * |xv k|) ∧
      (∀ y, (∀ i : Nat, i < n → y ≠ x.addr SS i) → mem' y = mem y) := by
  obtain ⟨mem', e1, e2, e3, e4⟩ := solve_rounded (u := u) (no := 1) (ni := n) uplo
    (addrX := fun _ i => x.addr SS (i : Nat)) (addrB := fun _ i => b.addr SS (i : Nat))
    (addrA := fun i k => A.addr SS (i : Nat) (k : Nat)) Arith.mul rel_mul (1 : V) id (r := 0)
    (fun p => by rw [one_mul]; exact Rel.refl _ _) false (m := mem) (a := a) (b := fun _ i => bv i)
    (by intro o i o' i' h1 h2 h3 h4 he; exact ⟨by omega, hinj _ _ h2 h4 he⟩)
    (by intro o i ho hi; exact hX i hi) (fun o i ho hi => hB i hi)
    (by intro o i o' i' h1 h2 h3 h4 he; exact ⟨by omega, hBX _ _ h2 h4 he⟩)
    (by
      intro i k hi hk hr
      have := hA i k hi hk hr
      exact ⟨this.1, fun o' i' h1 h2 => this.2 i' h2⟩) (fun _ => hnz)
  refine ⟨mem', fun i => val mem' (x.addr SS i), ?_, fun i hi => e3 0 i (by omega) hi, fun i hi => ?_,
    fun y hy => e2 y (fun o i ho hi => hy i hi)⟩
  · cases uplo <;> exact e1
  · have := e4 0 i (by omega) hi
    rwa [one_mul] at this

/-- **C57** (reference trsm, left). -/
theorem C57_reference_trsm_left_residual {SS m n : Nat} {A X B : MPtr} (uplo : UpLo)
    (diag : Bool) (alpha : V) {mem : Mem V} {a b : Nat → Nat → V}
    (hA : TriArg SS mem A m uplo diag a X m n) (hnz : diag = false → ∀ i, i < m → a i i ≠ 0)
    (hX : Readable SS mem X m n) (hinj : Inj SS X m n) (hB : Holds SS mem B m n b)
    (hBX : SameOrDisj SS B X m n) :
    ∃ mem' x, refTrsmL SS m n A uplo diag X alpha B mem = .ok () mem' ∧ Holds SS mem' X m n x ∧
      (∀ i j, i < m → j < n → |alpha * b i j - ∑ k ∈ range m, tri uplo diag a i k * x k j| ≤
        ((1 / (1 - u)) ^ (m + 1) - 1) * ∑ k ∈ range m, |tri uplo diag a i k| * |x k j|) ∧
      (∀ y, ¬ Cells SS X m n y → mem' y = mem y) := by
  obtain ⟨mem', e1, e2, e3, e4⟩ := solve_rounded (u := u) (no := n) (ni := m) uplo
    (addrX := fun o i => X.addr SS (i : Nat) (o : Nat)) (addrB := fun o i => B.addr SS (i : Nat) (o : Nat))
    (addrA := fun i k => A.addr SS (i : Nat) (k : Nat)) Arith.mul rel_mul alpha (Arith.mul alpha) (rel_mul alpha) diag (m := mem) (a := a)
    (b := fun o i => b i o)
    (by intro o i o' i' h1 h2 h3 h4 he; have := hinj _ _ _ _ h2 h1 h4 h3 he; exact ⟨this.2, this.1⟩)
    (by intro o i ho hi; exact hX i o hi ho) (fun o i ho hi => hB i o hi ho)
    (by intro o i o' i' h1 h2 h3 h4 he; have := hBX _ _ _ _ h2 h1 h4 h3 he; exact ⟨this.2, this.1⟩)
    (by
      intro i k hi hk hr
      have := hA i k hi hk hr
      exact ⟨this.1, fun o' i' h1 h2 he => this.2 ⟨i', o', h2, h1, he⟩⟩) hnz
  refine ⟨mem', fun i j => val mem' (X.addr SS i j), ?_, fun i j hi hj => e3 j i hj hi, fun i j hi hj => e4 j i hj hi,
    fun y hy => e2 y (fun o i ho hi he => hy ⟨i, o, hi, ho, he⟩)⟩
  cases uplo <;> exact e1

/-- **C57** (reference trsm, right). -/
theorem C57_reference_trsm_right_residual {SS m n : Nat} {A X B : MPtr} (uplo : UpLo)
    (diag : Bool) (alpha : V) {mem : Mem V} {a b : Nat → Nat → V}
    (hA : TriArg SS mem A n uplo diag a X m n) (hnz : diag = false → ∀ i, i < n → a i i ≠ 0)
    (hX : Readable SS mem X m n) (hinj : Inj SS X m n) (hB : Holds SS mem B m n b)
    (hBX : SameOrDisj SS B X m n) :
    ∃ mem' x, refTrsmR SS m n X A uplo diag alpha B mem = .ok () mem' ∧ Holds SS mem' X m n x ∧
      (∀ i j, i < m → j < n → |alpha * b i j - ∑ k ∈ range n, x i k * tri uplo diag a k j| ≤
        ((1 / (1 - u)) ^ (n + 1) - 1) * ∑ k ∈ range n, |x i k| * |tri uplo diag a k j|) ∧
      (∀ y, ¬ Cells SS X m n y → mem' y = mem y) := by
  obtain ⟨mem', e1, e2, e3, e4⟩ := solve_rounded (u := u) (no := m) (ni := n) (flipUpLo uplo)
    (addrX := fun o i => X.addr SS (o : Nat) (i : Nat)) (addrB := fun o i => B.addr SS (o : Nat) (i : Nat))
    (addrA := fun i k => A.addr SS (k : Nat) (i : Nat)) (fun p q => Arith.mul q p)
    (fun p q => by rw [mul_comm p q]; exact rel_mul q p) alpha (Arith.mul alpha) (rel_mul alpha) diag (m := mem)
    (a := fun x y => a y x) (b := b)
    (by intro o i o' i' h1 h2 h3 h4 he; exact hinj _ _ _ _ h1 h2 h3 h4 he)
    (by intro o i ho hi; exact hX o i ho hi) (fun o i ho hi => hB o i ho hi)
    (by intro o i o' i' h1 h2 h3 h4 he; exact hBX _ _ _ _ h1 h2 h3 h4 he)
    (by
      intro i k hi hk hr
      have := hA k i hk hi hr.flip
      exact ⟨this.1, fun o' i' h1 h2 he => this.2 ⟨o', i', h1, h2, he⟩⟩) hnz
  refine ⟨mem', fun i j => val mem' (X.addr SS i j), ?_, fun i j hi hj => e3 i j hi hj, fun i j hi hj => ?_,
    fun y hy => e2 y (fun o i ho hi he => hy ⟨o, i, ho, hi, he⟩)⟩
  · cases uplo <;> exact e1
  · have := e4 i j hi hj
    have s1 : ∀ k ∈ range n, tri (flipUpLo uplo) diag (fun x y => a y x) j k * val mem' (X.addr SS i k) =
        val mem' (X.addr SS i k) * tri uplo diag a k j := fun k _ => by rw [tri_flip, mul_comm]
    have s2 : ∀ k ∈ range n, |tri (flipUpLo uplo) diag (fun x y => a y x) j k| * |val mem' (X.addr SS i k)| =
        |val mem' (X.addr SS i k)| * |tri uplo diag a k j| := fun k _ => by rw [tri_flip, mul_comm]
    rw [sum_congr rfl s1, sum_congr rfl s2] at this
    exact this

/-! ### The hypotheses are satisfiable -/

/-- an integer as a floating-point number -/
noncomputable def flOf (z : Int) : Fl 52 := (show ℝ from (z : ℝ))

/-- the memory of the example of C29, with elements in binary floating-point arithmetic -/
noncomputable def refDemoFl : Mem (Fl 52) := fun x =>
  if x = 0 ∨ x = 1 ∨ x = 2 ∨ x = 4 ∨ x = 5 ∨ x = 8 ∨ (20 ≤ x ∧ x < 26) then some (flOf (x + 1)) else none

example : TriArg 4 refDemoFl refDemoA 3 .lower false (fun i k => flOf ((i + 3 * k : Int) + 1)) refDemoX 3 2 ∧
    Readable 4 refDemoFl refDemoX 3 2 ∧ Inj 4 refDemoX 3 2 ∧ SameOrDisj 4 refDemoX refDemoX 3 2 ∧
    Holds 4 refDemoFl refDemoX 3 2 (fun i j => flOf ((20 + i + 3 * j : Int) + 1)) ∧
    (∀ i : Nat, i < 3 → flOf ((i + 3 * i : Int) + 1) ≠ 0) := by
  have hinj : Inj 4 refDemoX 3 2 := by
    intro i j i' j' h1 h2 h3 h4 h
    simp [MPtr.addr, refDemoX] at h
    omega
  have eA : ∀ i k : Nat, refDemoA.addr 4 i k = (i + 3 * k : Int) := by intro i k; simp [MPtr.addr, refDemoA]
  have eX : ∀ i k : Nat, refDemoX.addr 4 i k = (20 + i + 3 * k : Int) := by intro i k; simp [MPtr.addr, refDemoX]
  refine ⟨?_, ?_, hinj, hinj, ?_, ?_⟩
  · intro i k hi hk hr
    constructor
    · rw [eA]
      unfold refDemoFl
      have hki : k ≤ i := by
        rcases hr with ⟨rfl, _⟩ | ⟨_, hr⟩ | ⟨h, _⟩
        · exact le_refl _
        · exact le_of_lt hr
        · cases h
      rw [if_pos (by omega)]
    · rintro ⟨i', j', h1, h2, h3⟩
      simp [MPtr.addr, refDemoA, refDemoX] at h3
      omega
  · intro i j hi hj
    rw [eX]
    unfold refDemoFl
    rw [if_pos (by omega)]; rfl
  · intro i j hi hj
    rw [eX]
    unfold refDemoFl
    rw [if_pos (by omega)]
  · intro i hi
    show (((i + 3 * i : Int) + 1 : Int) : ℝ) ≠ 0
    push_cast
    positivity

end Blast
