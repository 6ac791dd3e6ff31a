import Verif.Reference
import Verif.Props.Gemm
import Mathlib.Algebra.BigOperators.Intervals
import Mathlib.Tactic.FieldSimp
/- Concrete cases meeting the hypotheses of these theorems: Verif/Cases/Reference.lean, and the examples in this file. -/
/-
Properties C07, C29, C30, C46: reference routines.
-/
set_option linter.unusedSectionVars false
namespace Blast
open Finset Prog
open Reg (UpLo)
variable {V : Type}

theorem addFold_eq [CommRing V] [Arith V] [ExactRing V] (f : Nat → V) (c : V) (lo n : Nat) :
    addFold f c lo n = c + ∑ k ∈ range n, f (lo + k) := by
  induction n with
  | zero => simp [addFold]
  | succ n ih => rw [sum_range_succ, addFold, ExactRing.add_eq, ih]; ring

theorem subFold_eq [CommRing V] [Arith V] [ExactRing V] (f : Nat → V) (c : V) (lo n : Nat) :
    subFold f c lo n = c - ∑ k ∈ range n, f (lo + k) := by
  induction n with
  | zero => simp [subFold]
  | succ n ih => rw [sum_range_succ, subFold, ExactRing.sub_eq, ih]; ring

/-! ### Specification of triangles -/

/-- the triangular matrix a triangular argument stands for: `uplo` triangle of `a`, unit diagonal if `diag` -/
def tri [Zero V] [One V] (uplo : UpLo) (diag : Bool) (a : Nat → Nat → V) (i k : Nat) : V :=
  if i = k then (if diag then 1 else a i k) else
  match uplo with
  | .lower => if k < i then a i k else 0
  | .upper => if i < k then a i k else 0

/-- the entries of a triangular argument that may be referenced -/
def TriRef (uplo : UpLo) (diag : Bool) (i k : Nat) : Prop :=
  (i = k ∧ diag = false) ∨ (uplo = .lower ∧ k < i) ∨ (uplo = .upper ∧ i < k)

/-- What the triangular argument must satisfy: its referenced entries have the values `a` and are not
elements of the output. Nothing at all is assumed about the other triangle (it need not even be allocated). -/
def TriArg (SS : Nat) (m : Mem V) (A : MPtr) (n : Nat) (uplo : UpLo) (diag : Bool) (a : Nat → Nat → V)
    (X : MPtr) (r c : Nat) : Prop :=
  ∀ i k, i < n → k < n → TriRef uplo diag i k →
    m (A.addr SS i k) = some (a i k) ∧ ¬ Cells SS X r c (A.addr SS i k)

theorem sum_split [AddCommMonoid V] (g : Nat → V) {i m : Nat} (h : i < m) :
    ∑ k ∈ range m, g k = (∑ k ∈ range i, g k) + g i + ∑ k ∈ range (m - (i + 1)), g (i + 1 + k) := by
  obtain ⟨r, rfl⟩ : ∃ r, m = i + 1 + r := ⟨m - (i + 1), by omega⟩
  rw [sum_range_add, sum_range_succ]
  simp

theorem sum_lower [AddCommMonoid V] (g : Nat → V) {i m : Nat} (h : i < m) (hz : ∀ k, i < k → g k = 0) :
    ∑ k ∈ range m, g k = (∑ k ∈ range i, g k) + g i := by
  rw [sum_split g h, sum_eq_zero (s := range (m - (i + 1))) (fun k _ => hz _ (by omega)), add_zero]

theorem sum_upper [AddCommMonoid V] (g : Nat → V) {i m : Nat} (h : i < m) (hz : ∀ k, k < i → g k = 0) :
    ∑ k ∈ range m, g k = g i + ∑ k ∈ range (m - (i + 1)), g (i + 1 + k) := by
  rw [sum_split g h, sum_eq_zero (s := range i) (fun k hk => hz k (mem_range.1 hk)), zero_add]

theorem val_some [Arith V] {m : Mem V} {x : Int} {v : V} (h : m x = some v) : val m x = v := by
  unfold val; rw [h]; rfl

theorem tri_lower [Zero V] [One V] {diag : Bool} {a : Nat → Nat → V} {i k : Nat} (h : k < i) :
    tri .lower diag a i k = a i k := by
  unfold tri; rw [if_neg (by omega)]; simp [h]
theorem tri_upper [Zero V] [One V] {diag : Bool} {a : Nat → Nat → V} {i k : Nat} (h : i < k) :
    tri .upper diag a i k = a i k := by
  unfold tri; rw [if_neg (by omega)]; simp [h]
theorem tri_lower_zero [Zero V] [One V] {diag : Bool} {a : Nat → Nat → V} {i k : Nat} (h : i < k) :
    tri .lower diag a i k = 0 := by
  unfold tri; rw [if_neg (by omega)]; simp [show ¬ k < i by omega]
theorem tri_upper_zero [Zero V] [One V] {diag : Bool} {a : Nat → Nat → V} {i k : Nat} (h : k < i) :
    tri .upper diag a i k = 0 := by
  unfold tri; rw [if_neg (by omega)]; simp [show ¬ i < k by omega]
theorem tri_diag [Zero V] [One V] {uplo : UpLo} {diag : Bool} {a : Nat → Nat → V} {i : Nat} :
    tri uplo diag a i i = if diag then 1 else a i i := by
  unfold tri; rw [if_pos rfl]

/-- loop direction and index ranges for a triangle of the coefficient matrix -/
def solveDown : UpLo → Bool
  | .lower => false
  | .upper => true
def solveLo (uplo : UpLo) (i : Nat) : Nat := match uplo with | .lower => 0 | .upper => i + 1
def solveHi (uplo : UpLo) (n i : Nat) : Nat := match uplo with | .lower => i | .upper => n

theorem solve_exact [Field V] [Arith V] [ExactField V] {no ni : Nat} (uplo : UpLo)
    {addrX addrB addrA : Nat → Nat → Int} (f : V → V → V) (hf : ∀ p q, f p q = p * q) (alpha : V)
    (ini : V → V) (hini : ∀ p, ini p = alpha * p)
    (diag : Bool) {m : Mem V} {a b : Nat → Nat → V}
    (hinj : ∀ o i o' i', o < no → i < ni → o' < no → i' < ni → addrX o i = addrX o' i' → o = o' ∧ i = i')
    (hX : ∀ o i, o < no → i < ni → (m (addrX o i)).isSome = true)
    (hB : ∀ o i, o < no → i < ni → m (addrB o i) = some (b o i))
    (hBX : ∀ o i o' i', o < no → i < ni → o' < no → i' < ni → addrB o i = addrX o' i' → o = o' ∧ i = i')
    (hA : ∀ i k, i < ni → k < ni → TriRef uplo diag i k → m (addrA i k) = some (a i k) ∧
      ∀ o' i', o' < no → i' < ni → addrA i k ≠ addrX o' i')
    (hnz : diag = false → ∀ i, i < ni → a i i ≠ 0) :
    ∃ m', forN no (fun o => innerLoop (solveDown uplo) ni
        (solveBody addrX addrB addrA f ini diag (solveLo uplo) (solveHi uplo ni) o)) m = .ok () m' ∧
      (∀ x, (∀ o i, o < no → i < ni → x ≠ addrX o i) → m' x = m x) ∧
      (∀ o i, o < no → i < ni → m' (addrX o i) = some (val m' (addrX o i))) ∧
      (∀ o i, o < no → i < ni →
        ∑ k ∈ range ni, tri uplo diag a i k * val m' (addrX o k) = alpha * b o i) := by
  have href : ∀ i k, i < ni → (solveLo uplo i ≤ k ∧ k < solveHi uplo ni i ∨ (diag = false ∧ k = i)) →
      k < ni ∧ TriRef uplo diag i k := by
    intro i k hi hk
    cases uplo with
    | lower =>
      rcases hk with ⟨_, hk⟩ | ⟨h1, h2⟩
      · change k < i at hk; exact ⟨by omega, Or.inr (Or.inl ⟨rfl, hk⟩)⟩
      · exact ⟨by omega, Or.inl ⟨h2.symm, h1⟩⟩
    | upper =>
      rcases hk with ⟨h3, hk⟩ | ⟨h1, h2⟩
      · change i + 1 ≤ k at h3; change k < ni at hk; exact ⟨hk, Or.inr (Or.inr ⟨rfl, by omega⟩)⟩
      · exact ⟨by omega, Or.inl ⟨h2.symm, h1⟩⟩
  obtain ⟨m', e1, e2, e3⟩ := runs_solve (no := no) (ni := ni) (solveDown uplo) (addrX := addrX) (addrB := addrB)
    (addrA := addrA) f ini diag (solveLo uplo) (solveHi uplo ni)
    (by
      intro i k hi h1 h2
      cases uplo with
      | lower => change k < i at h2; exact ⟨by omega, by simpa [innerLt, solveDown] using h2⟩
      | upper =>
        change k < ni at h2; change i + 1 ≤ k at h1
        exact ⟨h2, by simp [innerLt, solveDown]; omega⟩) (m := m) hinj hX
    (by intro o i ho hi; rw [hB o i ho hi]; rfl) hBX
    (by
      intro i k hi hk
      obtain ⟨h1, h2⟩ := href i k hi hk
      exact ⟨by rw [(hA i k hi h1 h2).1]; rfl, (hA i k hi h1 h2).2⟩)
  refine ⟨m', e1, e2, fun o i ho hi => ?_, fun o i ho hi => ?_⟩
  · have := e3 o i ho hi
    rw [val_some this]; exact this
  · have h := val_some (e3 o i ho hi)
    simp only [subFold_eq, hini, hf, val_some (hB o i ho hi)] at h
    have hsum : ∑ k ∈ range (solveHi uplo ni i - solveLo uplo i),
        val m (addrA i (solveLo uplo i + k)) * val m' (addrX o (solveLo uplo i + k)) =
        ∑ k ∈ range (solveHi uplo ni i - solveLo uplo i),
        tri uplo diag a i (solveLo uplo i + k) * val m' (addrX o (solveLo uplo i + k)) := by
      refine sum_congr rfl (fun k hk => ?_)
      rw [mem_range] at hk
      obtain ⟨h1, h2⟩ := href i (solveLo uplo i + k) hi (Or.inl ⟨by omega, by omega⟩)
      rw [val_some (hA i _ hi h1 h2).1]
      congr 1
      cases uplo with
      | lower => exact (tri_lower (by change k < i - 0 at hk; change 0 + k < i; omega)).symm
      | upper => exact (tri_upper (by change i < i + 1 + k; omega)).symm
    rw [hsum] at h
    have hdec : ∑ k ∈ range ni, tri uplo diag a i k * val m' (addrX o k) =
        (∑ k ∈ range (solveHi uplo ni i - solveLo uplo i),
        tri uplo diag a i (solveLo uplo i + k) * val m' (addrX o (solveLo uplo i + k))) +
        tri uplo diag a i i * val m' (addrX o i) := by
      cases uplo with
      | lower =>
        rw [sum_lower _ hi (fun k hk => by rw [tri_lower_zero hk, zero_mul])]
        simp [solveHi, solveLo]
      | upper =>
        rw [sum_upper _ hi (fun k hk => by rw [tri_upper_zero hk, zero_mul]), add_comm]
        simp [solveHi, solveLo]
    rw [hdec, tri_diag]
    generalize (∑ k ∈ range (solveHi uplo ni i - solveLo uplo i),
        tri uplo diag a i (solveLo uplo i + k) * val m' (addrX o (solveLo uplo i + k))) = S at h
    cases hd : diag
    · rw [hd] at h hnz hA
      simp only [Bool.false_eq_true, if_false] at h ⊢
      have hne := hnz rfl i hi
      rw [val_some (hA i i hi hi (Or.inl ⟨rfl, rfl⟩)).1, ExactField.div_eq _ _ hne] at h
      rw [h, mul_div_cancel₀ _ hne]; ring
    · rw [hd] at h
      simp only [if_true] at h ⊢
      rw [h]; ring

/-- **C29**, left. For every size, triangle, unit or non-unit diagonal and layout, `reference::trsm` leaves in X a
solution of `tri(A) * X = alpha * B`; X may be B; only the selected triangle of A is read (the other one need not be
allocated); nothing but X is written. A must be non-singular. -/
theorem C29_trsm_left [Field V] [Arith V] [ExactField V] {SS m n : Nat} {A X B : MPtr} (uplo : UpLo)
    (diag : Bool) (alpha : V) {mem : Mem V} {a b : Nat → Nat → V}
    (hA : TriArg SS mem A m uplo diag a X m n) (hnz : diag = false → ∀ i, i < m → a i i ≠ 0)
    (hX : Readable SS mem X m n) (hinj : Inj SS X m n) (hB : Holds SS mem B m n b)
    (hBX : SameOrDisj SS B X m n) :
    ∃ mem' x, refTrsmL SS m n A uplo diag X alpha B mem = .ok () mem' ∧ Holds SS mem' X m n x ∧
      (∀ i j, i < m → j < n → ∑ k ∈ range m, tri uplo diag a i k * x k j = alpha * b i j) ∧
      (∀ y, ¬ Cells SS X m n y → mem' y = mem y) := by
  obtain ⟨mem', e1, e2, e3, e4⟩ := solve_exact (no := n) (ni := m) uplo
    (addrX := fun o i => X.addr SS (i : Nat) (o : Nat)) (addrB := fun o i => B.addr SS (i : Nat) (o : Nat))
    (addrA := fun i k => A.addr SS (i : Nat) (k : Nat)) Arith.mul ExactRing.mul_eq alpha (Arith.mul alpha)
    (ExactRing.mul_eq alpha) diag (m := mem) (a := a) (b := fun o i => b i o)
    (by intro o i o' i' h1 h2 h3 h4 he; have := hinj _ _ _ _ h2 h1 h4 h3 he; exact ⟨this.2, this.1⟩)
    (by intro o i ho hi; exact hX i o hi ho) (fun o i ho hi => hB i o hi ho)
    (by intro o i o' i' h1 h2 h3 h4 he; have := hBX _ _ _ _ h2 h1 h4 h3 he; exact ⟨this.2, this.1⟩)
    (by
      intro i k hi hk hr
      have := hA i k hi hk hr
      exact ⟨this.1, fun o' i' h1 h2 he => this.2 ⟨i', o', h2, h1, he⟩⟩) hnz
  refine ⟨mem', fun i j => val mem' (X.addr SS i j), ?_, fun i j hi hj => e3 j i hj hi, fun i j hi hj => e4 j i hj hi,
    fun y hy => e2 y (fun o i ho hi he => hy ⟨i, o, hi, ho, he⟩)⟩
  cases uplo <;> exact e1

/-- swap the triangles -/
def flipUpLo : UpLo → UpLo
  | .lower => .upper
  | .upper => .lower

theorem tri_flip [Zero V] [One V] (uplo : UpLo) (diag : Bool) (a : Nat → Nat → V) (k j : Nat) :
    tri (flipUpLo uplo) diag (fun x y => a y x) j k = tri uplo diag a k j := by
  unfold tri
  by_cases h : j = k
  · subst h; simp
  · rw [if_neg h, if_neg (Ne.symm h)]; cases uplo <;> rfl

theorem TriRef.flip {uplo : UpLo} {diag : Bool} {j k : Nat} (h : TriRef (flipUpLo uplo) diag j k) :
    TriRef uplo diag k j := by
  rcases h with ⟨h1, h2⟩ | ⟨h1, h2⟩ | ⟨h1, h2⟩
  · exact Or.inl ⟨h1.symm, h2⟩
  · cases uplo
    · simp [flipUpLo] at h1
    · exact Or.inr (Or.inr ⟨rfl, h2⟩)
  · cases uplo
    · exact Or.inr (Or.inl ⟨rfl, h2⟩)
    · simp [flipUpLo] at h1

/-- **C29**, right: `X * tri(A) = alpha * B`. -/
theorem C29_trsm_right [Field V] [Arith V] [ExactField V] {SS m n : Nat} {A X B : MPtr} (uplo : UpLo)
    (diag : Bool) (alpha : V) {mem : Mem V} {a b : Nat → Nat → V}
    (hA : TriArg SS mem A n uplo diag a X m n) (hnz : diag = false → ∀ i, i < n → a i i ≠ 0)
    (hX : Readable SS mem X m n) (hinj : Inj SS X m n) (hB : Holds SS mem B m n b)
    (hBX : SameOrDisj SS B X m n) :
    ∃ mem' x, refTrsmR SS m n X A uplo diag alpha B mem = .ok () mem' ∧ Holds SS mem' X m n x ∧
      (∀ i j, i < m → j < n → ∑ k ∈ range n, x i k * tri uplo diag a k j = alpha * b i j) ∧
      (∀ y, ¬ Cells SS X m n y → mem' y = mem y) := by
  obtain ⟨mem', e1, e2, e3, e4⟩ := solve_exact (no := m) (ni := n) (flipUpLo uplo)
    (addrX := fun o i => X.addr SS (o : Nat) (i : Nat)) (addrB := fun o i => B.addr SS (o : Nat) (i : Nat))
    (addrA := fun i k => A.addr SS (k : Nat) (i : Nat)) (fun p q => Arith.mul q p)
    (fun p q => by rw [ExactRing.mul_eq, mul_comm]) alpha (Arith.mul alpha) (ExactRing.mul_eq alpha) diag (m := mem)
    (a := fun x y => a y x) (b := b)
    (by intro o i o' i' h1 h2 h3 h4 he; exact hinj _ _ _ _ h1 h2 h3 h4 he)
    (by intro o i ho hi; exact hX o i ho hi) (fun o i ho hi => hB o i ho hi)
    (by intro o i o' i' h1 h2 h3 h4 he; exact hBX _ _ _ _ h1 h2 h3 h4 he)
    (by
      intro i k hi hk hr
      have := hA k i hk hi hr.flip
      exact ⟨this.1, fun o' i' h1 h2 he => this.2 ⟨o', i', h1, h2, he⟩⟩) hnz
  refine ⟨mem', fun i j => val mem' (X.addr SS i j), ?_, fun i j hi hj => e3 i j hi hj, fun i j hi hj => ?_,
    fun y hy => e2 y (fun o i ho hi he => hy ⟨o, i, ho, hi, he⟩)⟩
  · cases uplo <;> exact e1
  · rw [← e4 i j hi hj]
    refine sum_congr rfl (fun k _ => ?_)
    rw [tri_flip, mul_comm]

/-! ### C30 -/

def prodDown : UpLo → Bool
  | .lower => true
  | .upper => false
def prodLo (uplo : UpLo) (i : Nat) : Nat := match uplo with | .lower => 0 | .upper => i
def prodHi (uplo : UpLo) (n i : Nat) : Nat := match uplo with | .lower => i + 1 | .upper => n

theorem prod_exact [CommRing V] [Arith V] [ExactRing V] {no ni : Nat} (uplo : UpLo)
    {addrC addrB addrA : Nat → Nat → Int} (f : V → V → V) (hf : ∀ p q, f p q = p * q) (alpha : V)
    (diag : Bool) {m : Mem V} {a b : Nat → Nat → V}
    (hinj : ∀ o i o' i', o < no → i < ni → o' < no → i' < ni → addrC o i = addrC o' i' → o = o' ∧ i = i')
    (hC : ∀ o i, o < no → i < ni → (m (addrC o i)).isSome = true)
    (hB : ∀ o i, o < no → i < ni → m (addrB o i) = some (b o i))
    (hBC : ∀ o i o' i', o < no → i < ni → o' < no → i' < ni → addrB o i = addrC o' i' → o = o' ∧ i = i')
    (hA : ∀ i k, i < ni → k < ni → TriRef uplo diag i k → m (addrA i k) = some (a i k) ∧
      ∀ o' i', o' < no → i' < ni → addrA i k ≠ addrC o' i') :
    ∃ m', forN no (fun o => innerLoop (prodDown uplo) ni
        (prodBody addrC addrB addrA f alpha diag (prodLo uplo) (prodHi uplo ni) o)) m = .ok () m' ∧
      (∀ x, (∀ o i, o < no → i < ni → x ≠ addrC o i) → m' x = m x) ∧
      (∀ o i, o < no → i < ni →
        m' (addrC o i) = some (alpha * ∑ k ∈ range ni, tri uplo diag a i k * b o k)) := by
  have href : ∀ i k, i < ni → prodLo uplo i ≤ k → k < prodHi uplo ni i → k < ni ∧
      (k ≠ i → TriRef uplo diag i k) := by
    intro i k hi h1 h2
    cases uplo with
    | lower => change k < i + 1 at h2; exact ⟨by omega, fun h => Or.inr (Or.inl ⟨rfl, by omega⟩)⟩
    | upper =>
      change i ≤ k at h1; change k < ni at h2; exact ⟨by omega, fun h => Or.inr (Or.inr ⟨rfl, by omega⟩)⟩
  obtain ⟨m', e1, e2, e3⟩ := runs_prod (no := no) (ni := ni) (prodDown uplo) (addrC := addrC) (addrB := addrB)
    (addrA := addrA) f alpha diag (prodLo uplo) (prodHi uplo ni)
    (by
      intro i k hi h1 h2
      refine ⟨(href i k hi h1 h2).1, ?_⟩
      cases uplo with
      | lower => change k < i + 1 at h2; simp [innerLt, prodDown]; omega
      | upper => change i ≤ k at h1; simp [innerLt, prodDown]; omega) (m := m) hinj hC
    (by intro o i ho hi; rw [hB o i ho hi]; rfl) hBC
    (by
      intro i k hi h1 h2 hk
      have hr : TriRef uplo diag i k := by
        by_cases he : k = i
        · refine Or.inl ⟨he.symm, ?_⟩
          cases hd : diag
          · rfl
          · exact absurd ⟨hd, he⟩ hk
        · exact (href i k hi h1 h2).2 he
      have := hA i k hi (href i k hi h1 h2).1 hr
      exact ⟨by rw [this.1]; rfl, this.2⟩)
  refine ⟨m', e1, e2, fun o i ho hi => ?_⟩
  rw [e3 o i ho hi, ExactRing.mul_eq, addFold_eq, ExactRing.zero_eq, zero_add]
  congr 2
  have hterm : ∀ k, prodLo uplo i ≤ k → k < prodHi uplo ni i →
      (if (diag && k == i) = true then val m (addrB o k) else f (val m (addrA i k)) (val m (addrB o k))) =
      tri uplo diag a i k * b o k := by
    intro k h1 h2
    obtain ⟨hk, hr⟩ := href i k hi h1 h2
    rw [val_some (hB o k ho hk)]
    by_cases he : k = i
    · subst he
      rw [tri_diag]
      cases hd : diag
      · rw [if_neg (by simp), if_neg (by simp), hf, val_some (hA k k hk hk (Or.inl ⟨rfl, hd⟩)).1]
      · rw [if_pos (by simp), if_pos rfl, one_mul]
    · rw [if_neg (by simp [he]), hf, val_some (hA i k hi hk (hr he)).1]
      congr 1
      cases uplo with
      | lower => exact (tri_lower (by change k < i + 1 at h2; omega)).symm
      | upper => exact (tri_upper (by change i ≤ k at h1; omega)).symm
  rw [sum_congr rfl (g := fun k => tri uplo diag a i (prodLo uplo i + k) * b o (prodLo uplo i + k))
    (fun k hk => hterm _ (by omega) (by rw [mem_range] at hk; omega))]
  cases uplo with
  | lower =>
    rw [sum_lower _ hi (fun k hk => by rw [tri_lower_zero hk, zero_mul]), ← sum_range_succ]
    simp [prodHi, prodLo]
  | upper =>
    rw [sum_upper _ hi (fun k hk => by rw [tri_upper_zero hk, zero_mul])]
    simp only [prodHi, prodLo]
    rw [show ni - i = (ni - (i + 1)) + 1 by omega, sum_range_succ', Nat.add_zero, add_comm]
    congr 1
    refine sum_congr rfl (fun k _ => ?_)
    rw [show i + (k + 1) = i + 1 + k by omega]

theorem derefAt_eq [Arith V] {SS : Nat} (hSS : 0 < SS) {p : MPtr} (hw : p.WF SS) :
    (derefAt SS p : Nat → Nat → Prog V V) = fun (i j : Nat) => Prog.read (p.addr SS i j) := by
  funext i j; unfold derefAt MPtr.off; rw [MPtr.unal_addr hSS hw]

theorem assignAt_eq [Arith V] {SS : Nat} (hSS : 0 < SS) {p : MPtr} (hw : p.WF SS) :
    (assignAt SS p : Nat → Nat → V → Prog V Unit) = fun (i j : Nat) => Prog.write (p.addr SS i j) := by
  funext i j; unfold assignAt MPtr.off; rw [MPtr.unal_addr hSS hw]

/-- **C30**, left. For every size, triangle, unit or non-unit diagonal and layout `reference::trmm` leaves
`alpha * tri(A) * B` in C; C may be B; only the selected triangle of A is read; nothing but C is written. -/
theorem C30_trmm_left [CommRing V] [Arith V] [ExactRing V] {SS m n : Nat} (hSS : 0 < SS) {A B C : MPtr}
    (wA : A.WF SS) (wB : B.WF SS) (wC : C.WF SS) (uplo : UpLo)
    (diag : Bool) (alpha : V) {mem : Mem V} {a b : Nat → Nat → V}
    (hA : TriArg SS mem A m uplo diag a C m n)
    (hC : Readable SS mem C m n) (hinj : Inj SS C m n) (hB : Holds SS mem B m n b)
    (hBC : SameOrDisj SS B C m n) :
    ∃ mem', refTrmmL SS m n alpha A uplo diag B C mem = .ok () mem' ∧
      Holds SS mem' C m n (fun i j => alpha * ∑ k ∈ range m, tri uplo diag a i k * b k j) ∧
      (∀ y, ¬ Cells SS C m n y → mem' y = mem y) := by
  obtain ⟨mem', e1, e2, e3⟩ := prod_exact (no := n) (ni := m) uplo
    (addrC := fun o i => C.addr SS (i : Nat) (o : Nat)) (addrB := fun o i => B.addr SS (i : Nat) (o : Nat))
    (addrA := fun i k => A.addr SS (i : Nat) (k : Nat)) Arith.mul ExactRing.mul_eq alpha diag (m := mem)
    (a := a) (b := fun o i => b i o)
    (by intro o i o' i' h1 h2 h3 h4 he; have := hinj _ _ _ _ h2 h1 h4 h3 he; exact ⟨this.2, this.1⟩)
    (by intro o i ho hi; exact hC i o hi ho) (fun o i ho hi => hB i o hi ho)
    (by intro o i o' i' h1 h2 h3 h4 he; have := hBC _ _ _ _ h2 h1 h4 h3 he; exact ⟨this.2, this.1⟩)
    (by
      intro i k hi hk hr
      have := hA i k hi hk hr
      exact ⟨this.1, fun o' i' h1 h2 he => this.2 ⟨i', o', h2, h1, he⟩⟩)
  refine ⟨mem', ?_, fun i j hi hj => e3 j i hj hi, fun y hy => e2 y (fun o i ho hi he => hy ⟨i, o, hi, ho, he⟩)⟩
  unfold refTrmmL
  rw [derefAt_eq hSS wA, derefAt_eq hSS wB, assignAt_eq hSS wC]
  cases uplo <;> exact e1

/-- **C30**, right: `alpha * B * tri(A)`. -/
theorem C30_trmm_right [CommRing V] [Arith V] [ExactRing V] {SS m n : Nat} (hSS : 0 < SS) {A B C : MPtr}
    (wA : A.WF SS) (wB : B.WF SS) (wC : C.WF SS) (uplo : UpLo)
    (diag : Bool) (alpha : V) {mem : Mem V} {a b : Nat → Nat → V}
    (hA : TriArg SS mem A n uplo diag a C m n)
    (hC : Readable SS mem C m n) (hinj : Inj SS C m n) (hB : Holds SS mem B m n b)
    (hBC : SameOrDisj SS B C m n) :
    ∃ mem', refTrmmR SS m n alpha B A uplo diag C mem = .ok () mem' ∧
      Holds SS mem' C m n (fun i j => alpha * ∑ k ∈ range n, b i k * tri uplo diag a k j) ∧
      (∀ y, ¬ Cells SS C m n y → mem' y = mem y) := by
  obtain ⟨mem', e1, e2, e3⟩ := prod_exact (no := m) (ni := n) (flipUpLo uplo)
    (addrC := fun o i => C.addr SS (o : Nat) (i : Nat)) (addrB := fun o i => B.addr SS (o : Nat) (i : Nat))
    (addrA := fun i k => A.addr SS (k : Nat) (i : Nat)) (fun p q => Arith.mul q p)
    (fun p q => by rw [ExactRing.mul_eq, mul_comm]) alpha diag (m := mem)
    (a := fun x y => a y x) (b := b)
    (by intro o i o' i' h1 h2 h3 h4 he; exact hinj _ _ _ _ h1 h2 h3 h4 he)
    (by intro o i ho hi; exact hC o i ho hi) (fun o i ho hi => hB o i ho hi)
    (by intro o i o' i' h1 h2 h3 h4 he; exact hBC _ _ _ _ h1 h2 h3 h4 he)
    (by
      intro i k hi hk hr
      have := hA k i hk hi hr.flip
      exact ⟨this.1, fun o' i' h1 h2 he => this.2 ⟨o', i', h1, h2, he⟩⟩)
  refine ⟨mem', ?_, fun i j hi hj => ?_, fun y hy => e2 y (fun o i ho hi he => hy ⟨o, i, ho, hi, he⟩)⟩
  · unfold refTrmmR
    rw [derefAt_eq hSS wA, derefAt_eq hSS wB, assignAt_eq hSS wC]
    cases uplo <;> exact e1
  · rw [e3 i j hi hj]
    congr 2
    refine sum_congr rfl (fun k _ => ?_)
    rw [tri_flip, mul_comm]

/-- **C29**/**C30**, matrix arguments: inconsistent sizes - and only those - are reported by
std::invalid_argument, before anything is written; otherwise the call is the pointer version on the matrices. -/
theorem C29_trsm_size_check [Arith V] {SS : Nat} (A X B : Mat) (uplo : UpLo) (diag : Bool) (alpha : V) (m : Mem V) :
    (refTrsmLMat SS A uplo diag X alpha B m =
      if A.rows = B.rows ∧ A.cols = B.rows ∧ X.rows = B.rows ∧ X.cols = B.cols then
        refTrsmL SS B.rows B.cols A.p uplo diag X.p alpha B.p m else .throw .invalidArgument m) ∧
    (refTrsmRMat SS X A uplo diag alpha B m =
      if A.rows = B.cols ∧ A.cols = B.cols ∧ X.rows = B.rows ∧ X.cols = B.cols then
        refTrsmR SS B.rows B.cols X.p A.p uplo diag alpha B.p m else .throw .invalidArgument m) := by
  constructor
  · unfold refTrsmLMat
    by_cases h : A.rows = B.rows ∧ A.cols = B.rows ∧ X.rows = B.rows ∧ X.cols = B.cols
    · rw [if_pos h, if_neg (by omega)]
    · rw [if_neg h, if_pos (by omega)]; rfl
  · unfold refTrsmRMat
    by_cases h : A.rows = B.cols ∧ A.cols = B.cols ∧ X.rows = B.rows ∧ X.cols = B.cols
    · rw [if_pos h, if_neg (by omega)]
    · rw [if_neg h, if_pos (by omega)]; rfl

theorem C30_trmm_size_check [Arith V] {SS : Nat} (A B C : Mat) (uplo : UpLo) (diag : Bool) (alpha : V) (m : Mem V) :
    (refTrmmLMat SS alpha A uplo diag B C m =
      if A.rows = B.rows ∧ A.cols = B.rows ∧ C.rows = B.rows ∧ C.cols = B.cols then
        refTrmmL SS B.rows B.cols alpha A.p uplo diag B.p C.p m else .throw .invalidArgument m) ∧
    (refTrmmRMat SS alpha B A uplo diag C m =
      if A.rows = B.cols ∧ A.cols = B.cols ∧ C.rows = B.rows ∧ C.cols = B.cols then
        refTrmmR SS B.rows B.cols alpha B.p A.p uplo diag C.p m else .throw .invalidArgument m) := by
  constructor
  · unfold refTrmmLMat
    by_cases h : A.rows = B.rows ∧ A.cols = B.rows ∧ C.rows = B.rows ∧ C.cols = B.cols
    · rw [if_pos h, if_neg (by omega)]
    · rw [if_neg h, if_pos (by omega)]; rfl
  · unfold refTrmmRMat
    by_cases h : A.rows = B.cols ∧ A.cols = B.cols ∧ C.rows = B.rows ∧ C.cols = B.cols
    · rw [if_pos h, if_neg (by omega)]
    · rw [if_neg h, if_pos (by omega)]; rfl

/-! ### C46, C07 -/

/-- geometry of a vector pointer: rows/columns of well-formed matrix pointers, any strided vector -/
def VPtr.WF (SS : Nat) : VPtr → Prop
  | .rowcol p _ => p.WF SS
  | .vec _ _ _ _ => True

/-- elementwise routines: every element is written once with a value computed from cells that are not changed before -/
theorem runs_elementwise [Arith V] {SS M N : Nat} {D : MPtr} {mem : Mem V} (hD : Readable SS mem D M N)
    (hinj : Inj SS D M N) (body : Nat → Nat → Prog V Unit) (F : Nat → Nat → V)
    (h : ∀ i j, i < M → j < N → ∀ m1 : Mem V,
      (∀ x, (∀ i' j', i' < M → j' < N → ¬ (i' = i ∧ j' = j) → x ≠ D.addr SS (i' : Nat) (j' : Nat)) → m1 x = mem x) →
      (m1 (D.addr SS i j)).isSome = true →
      body i j m1 = .ok () (updMem m1 (D.addr SS i j) (F i j))) :
    ∃ mem', forN M (fun i => forN N (body i)) mem = .ok () mem' ∧ Holds SS mem' D M N F ∧
      (∀ y, ¬ Cells SS D M N y → mem' y = mem y) := by
  obtain ⟨m', e1, e2, e3⟩ := runs_once2 M N false (fun i j => D.addr SS (i : Nat) (j : Nat))
    (by intro o i o' i' h1 h2 h3 h4 he; exact hinj _ _ _ _ h1 h2 h3 h4 he) (fun i j _ => F i j) body mem
    (by
      intro i j hi hj m1 h1 h2
      refine h i j hi hj m1 (fun x hx => h1 x ?_) ?_
      · rintro ⟨o', i', h3, h4, h5, h6⟩
        refine hx o' i' h3 h4 ?_ h6
        rintro ⟨rfl, rfl⟩
        simp [innerLt] at h5
      · by_cases hb : Before2 M N false (fun i j => D.addr SS (i : Nat) (j : Nat)) i j (D.addr SS i j)
        · exact h2 _ hb
        · rw [h1 _ hb]; exact hD i j hi hj)
  exact ⟨m', e1, fun i j hi hj => e3 i j hi hj, fun y hy => e2 y (fun i j hi hj he => hy ⟨i, j, hi, hj, he⟩)⟩

theorem unal_addr_start {SS : Nat} (hSS : 0 < SS) {p : MPtr} (hw : p.panel = true → p.ptr % (SS : Int) = 0) (i j : Int) :
    (p.unal SS).addr SS i j = p.addr SS i j := by
  rw [MPtr.unal_ptr hSS]
  obtain ⟨pn, so, al, pd, pt, sp⟩ := p
  cases pn
  · cases so <;> simp [MPtr.addr]
  · have : pt % (SS : Int) = 0 := hw rfl
    cases so <;> cases al <;> simp [MPtr.addr, this]

theorem derefAt_start [Arith V] {SS : Nat} (hSS : 0 < SS) {p : MPtr} (hw : p.panel = true → p.ptr % (SS : Int) = 0) :
    (derefAt SS p : Nat → Nat → Prog V V) = fun (i j : Nat) => Prog.read (p.addr SS i j) := by
  funext i j; unfold derefAt MPtr.off; rw [unal_addr_start hSS hw]

theorem assignAt_start [Arith V] {SS : Nat} (hSS : 0 < SS) {p : MPtr} (hw : p.panel = true → p.ptr % (SS : Int) = 0) :
    (assignAt SS p : Nat → Nat → V → Prog V Unit) = fun (i j : Nat) => Prog.write (p.addr SS i j) := by
  funext i j; unfold assignAt MPtr.off; rw [unal_addr_start hSS hw]

/-- **C46**, gemm, for matrices in any dense layout (aligned or not) and panel matrices that start at a panel boundary. -/
theorem C46_reference_gemm [CommRing V] [Arith V] [ExactRing V] {SS M N K : Nat} (hSS : 0 < SS) {A B C D : MPtr}
    (wA : A.panel = true → A.ptr % (SS : Int) = 0) (wB : B.panel = true → B.ptr % (SS : Int) = 0)
    (wC : C.panel = true → C.ptr % (SS : Int) = 0) (wD : D.panel = true → D.ptr % (SS : Int) = 0) (alpha beta : V) {mem : Mem V}
    {a b c : Nat → Nat → V} (hA : Holds SS mem A M K a) (hB : Holds SS mem B K N b) (hC : Holds SS mem C M N c)
    (hD : Readable SS mem D M N) (hinj : Inj SS D M N) (dA : Disj SS A M K D M N) (dB : Disj SS B K N D M N)
    (dC : SameOrDisj SS C D M N) :
    ∃ mem', refGemm SS M N K alpha A B beta C D mem = .ok () mem' ∧
      Holds SS mem' D M N (fun i j => alpha * (∑ k ∈ range K, a i k * b k j) + beta * c i j) ∧
      (∀ y, ¬ Cells SS D M N y → mem' y = mem y) := by
  unfold refGemm
  rw [derefAt_start hSS wA, derefAt_start hSS wB, derefAt_start hSS wC, assignAt_start hSS wD]
  refine runs_elementwise hD hinj _ _ (fun i j hi hj m1 h1 h2 => ?_)
  have hf : ∀ k v, 0 ≤ k → k < K → Reads (do
      let a ← Prog.read (A.addr SS (i : Nat) (k : Nat))
      let b ← Prog.read (B.addr SS (k : Nat) (j : Nat))
      pure (Arith.add v (Arith.mul a b))) m1 (Arith.add v (a i k * b k j)) := by
    intro k v _ hk
    have ea : m1 (A.addr SS i k) = some (a i k) := by
      rw [h1 _ (fun i' j' h3 h4 _ => dA _ _ _ _ hi hk h3 h4)]; exact hA i k hi hk
    have eb : m1 (B.addr SS k j) = some (b k j) := by
      rw [h1 _ (fun i' j' h3 h4 _ => dB _ _ _ _ hk hj h3 h4)]; exact hB k j hk hj
    refine Reads.bind (reads_read ea) (Reads.bind (reads_read eb) ?_)
    rw [ExactRing.mul_eq]; exact reads_pure
  have := reads_addFold (lo := 0) (hi := K) (c := (Arith.zero : V)) hf
  simp only [foldFrom, Nat.sub_zero, Nat.zero_add] at this
  rw [bind_ok this]
  have ec : m1 (C.addr SS i j) = some (c i j) := by
    rw [h1 _ (fun i' j' h3 h4 h5 h6 => h5 (by obtain ⟨e1, e2⟩ := dC _ _ _ _ hi hj h3 h4 h6; exact ⟨e1.symm, e2.symm⟩))]
    exact hC i j hi hj
  rw [bind_ok (reads_read ec)]
  refine (write_eq _ h2).trans ?_
  rw [addFold_eq, ExactRing.zero_eq, ExactRing.mul_eq, ExactRing.mul_eq, ExactRing.add_eq]
  simp only [Nat.zero_add, zero_add]

theorem VPtr.unal_off_addr {SS : Nat} (hSS : 0 < SS) {x : VPtr} (hw : x.WF SS) (i : Int) :
    ((x.unal SS).off SS i).addr SS 0 = x.addr SS i := by
  cases x with
  | rowcol p tf =>
    cases tf
    · show ((p.unal SS).off SS 0 i).addr SS 0 0 = p.addr SS 0 i
      rw [MPtr.addr_zero hSS]; exact MPtr.unal_addr hSS hw 0 i
    · show ((p.unal SS).off SS i 0).addr SS 0 0 = p.addr SS i 0
      rw [MPtr.addr_zero hSS]; exact MPtr.unal_addr hSS hw i 0
  | vec st al p s =>
    show p + i * s + 0 * s = p + i * s
    rw [Int.zero_mul, Int.add_zero]

/-- **C46**, ger: `b = a + alpha * x * y^T`; `b` may be `a`. -/
theorem C46_reference_ger [CommRing V] [Arith V] [ExactRing V] {SS m n : Nat} (hSS : 0 < SS) {x y : VPtr} {A B : MPtr}
    (wA : A.WF SS) (wB : B.WF SS) (alpha : V) {mem : Mem V} {a : Nat → Nat → V} {xv yv : Nat → V}
    (wx : x.WF SS) (wy : y.WF SS) (hx : VHolds SS mem x m xv) (hy : VHolds SS mem y n yv)
    (hA : Holds SS mem A m n a) (hB : Readable SS mem B m n) (hinj : Inj SS B m n)
    (dA : SameOrDisj SS A B m n)
    (dx : ∀ i : Nat, i < m → ¬ Cells SS B m n (x.addr SS i))
    (dy : ∀ i : Nat, i < n → ¬ Cells SS B m n (y.addr SS i)) :
    ∃ mem', refGer SS m n alpha x y A B mem = .ok () mem' ∧
      Holds SS mem' B m n (fun i j => a i j + alpha * xv i * yv j) ∧
      (∀ z, ¬ Cells SS B m n z → mem' z = mem z) := by
  unfold refGer
  rw [derefAt_eq hSS wA, assignAt_eq hSS wB]
  refine runs_elementwise hB hinj _ _ (fun i j hi hj m1 h1 h2 => ?_)
  have ea : m1 (A.addr SS i j) = some (a i j) := by
    rw [h1 _ (fun i' j' h3 h4 h5 h6 => h5 (by obtain ⟨e1, e2⟩ := dA _ _ _ _ hi hj h3 h4 h6; exact ⟨e1.symm, e2.symm⟩))]
    exact hA i j hi hj
  have ex := hx i hi
  rw [← h1 _ (fun i' j' h3 h4 _ h6 => dx i hi ⟨i', j', h3, h4, h6⟩)] at ex
  have ey := hy j hj
  rw [← h1 _ (fun i' j' h3 h4 _ h6 => dy j hj ⟨i', j', h3, h4, h6⟩)] at ey
  rw [bind_ok (reads_read ea)]
  unfold VPtr.get
  rw [VPtr.unal_off_addr hSS wx, VPtr.unal_off_addr hSS wy, bind_ok (reads_read ex), bind_ok (reads_read ey)]
  refine (write_eq _ h2).trans ?_
  rw [ExactRing.mul_eq, ExactRing.mul_eq, ExactRing.add_eq]

/-- **C46**, axpy: `C = alpha * A + B`; C may be A or B. -/
theorem C46_reference_axpy [CommRing V] [Arith V] [ExactRing V] {SS M N : Nat} (hSS : 0 < SS) {A B C : MPtr}
    (wA : A.WF SS) (wB : B.WF SS) (wC : C.WF SS) (alpha : V) {mem : Mem V}
    {a b : Nat → Nat → V} (hA : Holds SS mem A M N a) (hB : Holds SS mem B M N b)
    (hC : Readable SS mem C M N) (hinj : Inj SS C M N) (dA : SameOrDisj SS A C M N) (dB : SameOrDisj SS B C M N) :
    ∃ mem', refAxpy SS M N alpha A B C mem = .ok () mem' ∧
      Holds SS mem' C M N (fun i j => alpha * a i j + b i j) ∧
      (∀ y, ¬ Cells SS C M N y → mem' y = mem y) := by
  unfold refAxpy
  rw [derefAt_eq hSS wA, derefAt_eq hSS wB, assignAt_eq hSS wC]
  refine runs_elementwise hC hinj _ _ (fun i j hi hj m1 h1 h2 => ?_)
  have ea : m1 (A.addr SS i j) = some (a i j) := by
    rw [h1 _ (fun i' j' h3 h4 h5 h6 => h5 (by obtain ⟨e1, e2⟩ := dA _ _ _ _ hi hj h3 h4 h6; exact ⟨e1.symm, e2.symm⟩))]
    exact hA i j hi hj
  have eb : m1 (B.addr SS i j) = some (b i j) := by
    rw [h1 _ (fun i' j' h3 h4 h5 h6 => h5 (by obtain ⟨e1, e2⟩ := dB _ _ _ _ hi hj h3 h4 h6; exact ⟨e1.symm, e2.symm⟩))]
    exact hB i j hi hj
  rw [bind_ok (reads_read ea), bind_ok (reads_read eb)]
  refine (write_eq _ h2).trans ?_
  rw [ExactRing.mul_eq, ExactRing.add_eq]

/-- **C46**, size checks of the matrix versions. -/
theorem C46_reference_size_check [Arith V] {SS : Nat} (A B C D : Mat) (alpha beta : V) (m : Mem V) :
    (refGemmMat SS alpha A B beta C D m =
      if B.rows = A.cols ∧ (C.rows = A.rows ∧ C.cols = B.cols) ∧ (D.rows = A.rows ∧ D.cols = B.cols) then
        refGemm SS A.rows B.cols A.cols alpha A.p B.p beta C.p D.p m else .throw .invalidArgument m) ∧
    (refAxpyMat SS alpha A B C m =
      if A.rows = C.rows ∧ A.cols = C.cols ∧ B.rows = C.rows ∧ B.cols = C.cols then
        refAxpy SS C.rows C.cols alpha A.p B.p C.p m else .throw .invalidArgument m) := by
  constructor
  · unfold refGemmMat
    by_cases h1 : B.rows = A.cols
    · by_cases h2 : C.rows = A.rows ∧ C.cols = B.cols
      · by_cases h3 : D.rows = A.rows ∧ D.cols = B.cols
        · rw [if_neg (by omega), if_neg (by omega), if_neg (by omega), if_pos ⟨h1, h2, h3⟩]
        · rw [if_neg (by omega), if_neg (by omega), if_pos (by omega), if_neg (fun h => h3 h.2.2)]; rfl
      · rw [if_neg (by omega), if_pos (by omega), if_neg (fun h => h2 h.2.1)]; rfl
    · rw [if_pos h1, if_neg (fun h => h1 h.1)]; rfl
  · unfold refAxpyMat
    by_cases h : A.rows = C.rows ∧ A.cols = C.cols ∧ B.rows = C.rows ∧ B.cols = C.cols
    · rw [if_pos h, if_neg (by omega)]
    · rw [if_neg h, if_pos (by omega)]; rfl

/-- **C07**. On the same matrices the optimized gemm and `reference::gemm` both succeed and produce, in exact
arithmetic, exactly the same memory. -/
theorem C07_gemm_agrees_with_reference [CommRing V] [Arith V] [ExactRing V] {SS : Nat} {m : Mem V}
    {A B C D : Container} (alpha beta : V) (h : GemmArgs SS m A B C D) (hs : GemmSizes A B C D) :
    ∃ m', gemmCall SS alpha A B beta C D m = .ok () m' ∧
      refGemmMat SS alpha (A.mat SS) (B.mat SS) beta (C.mat SS) (D.mat SS) m = .ok () m' := by
  have hp := h.pre hs
  have ca := h.lA.contains h.ss
  have cb := h.lB.contains h.ss
  have cc := h.lC.contains h.ss
  obtain ⟨m1, e1, e2⟩ := C01_gemm_value alpha beta h hs ca cb cc
  obtain ⟨m1', e1', e2'⟩ := C02_gemm_frame alpha beta h hs
  rw [e1] at e1'
  injection e1' with _ e1'
  subst e1'
  obtain ⟨h1, ⟨h2, h3⟩, h4, h5⟩ := hs
  obtain ⟨m2, f1, f2, f3⟩ := C46_reference_gemm h.ss (fun h => (hp.wA (Or.inr h)).1) (fun h => (hp.wB (Or.inr h)).1)
    (fun h => (hp.wC (Or.inr h)).1) (fun h => (hp.wD (Or.inr h)).1) alpha beta ca.holds
    (by have := cb.holds; rw [h1] at this; exact this) (by have := cc.holds; rw [h2, h3] at this; exact this)
    hp.rD hp.iD hp.dA hp.dB hp.dC
  refine ⟨m1, e1, ?_⟩
  rw [(C46_reference_size_check (SS := SS) (A.mat SS) (B.mat SS) (C.mat SS) (D.mat SS) alpha beta m).1,
    if_pos ⟨h1, ⟨h2, h3⟩, h4, h5⟩]
  refine Eq.trans f1 ?_
  congr 1
  funext x
  by_cases hx : IsElem SS D x
  · obtain ⟨i, j, hi, hj, rfl⟩ := hx
    rw [e2 i j hi hj, Container.addr_eq_mptr, f2 i j (by omega) (by omega)]
  · rw [e2' x hx]
    apply f3
    intro hc
    have := (cells_iff (SS := SS) D x).1 (by rw [h4, h5]; exact hc)
    exact hx this

/-! ### The hypotheses are satisfiable -/

/-- 3 × 3 dense column-major matrix A at address 0 with spacing 3, B = X at address 20; the strictly upper part of A is
not allocated -/
def refDemoMem : Mem Rat := fun x =>
  if x = 0 ∨ x = 1 ∨ x = 2 ∨ x = 4 ∨ x = 5 ∨ x = 8 ∨ (20 ≤ x ∧ x < 26) then some (x + 1) else none
def refDemoA : MPtr := ⟨false, .columnMajor, false, false, 0, 3⟩
def refDemoX : MPtr := ⟨false, .columnMajor, false, false, 20, 3⟩

example : TriArg 4 refDemoMem refDemoA 3 .lower false (fun i k => ((i + 3 * k : Nat) : Rat) + 1) refDemoX 3 2 ∧
    Readable 4 refDemoMem refDemoX 3 2 ∧ Inj 4 refDemoX 3 2 ∧ SameOrDisj 4 refDemoX refDemoX 3 2 ∧
    Holds 4 refDemoMem refDemoX 3 2 (fun i j => ((i + 3 * j : Nat) : Rat) + 21) ∧ refDemoA.WF 4 ∧ refDemoX.WF 4 := by
  have hinj : Inj 4 refDemoX 3 2 := by
    intro i j i' j' h1 h2 h3 h4 h
    simp [MPtr.addr, refDemoX] at h
    omega
  refine ⟨?_, ?_, hinj, hinj, ?_, by decide, by decide⟩
  · intro i k hi hk hr
    constructor
    · rcases hr with ⟨rfl, _⟩ | ⟨_, hr⟩ | ⟨h, _⟩
      · obtain rfl | rfl | rfl : i = 0 ∨ i = 1 ∨ i = 2 := by omega
        all_goals rfl
      · obtain ⟨rfl, rfl⟩ | ⟨rfl, rfl⟩ | ⟨rfl, rfl⟩ : (i = 1 ∧ k = 0) ∨ (i = 2 ∧ k = 0) ∨ (i = 2 ∧ k = 1) := by omega
        all_goals rfl
      · cases h
    · rintro ⟨i', j', h1, h2, h3⟩
      simp [MPtr.addr, refDemoA, refDemoX] at h3
      omega
  · intro i j hi hj
    simp only [MPtr.addr, refDemoX, refDemoMem]
    simp only [Bool.false_eq_true, if_false]
    rw [if_pos (by omega)]; rfl
  · intro i j hi hj
    simp only [MPtr.addr, refDemoX, refDemoMem]
    simp only [Bool.false_eq_true, if_false]
    rw [if_pos (by omega)]
    push_cast
    congr 1
    ring

end Blast
