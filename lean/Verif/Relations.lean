import Verif.Determined
/-
What the substitution loops compute in an arbitrary scalar arithmetic: trsv (dense/Trsv.hpp), the reference trsm (reference/Trsm.hpp) and trsm (dense/Trsm.hpp) all
compute the solution `trsmSol` of the same recurrence. Used for C89.
-/
set_option linter.unusedSectionVars false
namespace Blast
open Prog Reg
variable {V : Type} [Arith V]

theorem solve_det {no ni : Nat} (uplo : UpLo) (unit : Bool) {addrX addrB addrA : Nat → Nat → Int} (f : V → V → V) (hf : ∀ p q, f p q = Arith.mul p q)
    (ini : V → V) {m : Mem V} {a : Nat → Nat → V} {b : Nat → Nat → V}
    (hinj : ∀ o i o' i', o < no → i < ni → o' < no → i' < ni → addrX o i = addrX o' i' → o = o' ∧ i = i')
    (hX : ∀ o i, o < no → i < ni → (m (addrX o i)).isSome = true)
    (hB : ∀ o i, o < no → i < ni → m (addrB o i) = some (b o i))
    (hBX : ∀ o i o' i', o < no → i < ni → o' < no → i' < ni → addrB o i = addrX o' i' → o = o' ∧ i = i')
    (hA : ∀ i k, i < ni → k < ni → TriRef uplo unit i k → m (addrA i k) = some (a i k) ∧ ∀ o' i', o' < no → i' < ni → addrA i k ≠ addrX o' i') :
    ∃ m', forN no (fun o => innerLoop (solveDown uplo) ni (solveBody addrX addrB addrA f ini unit (solveLo uplo) (solveHi uplo ni) o)) m = .ok () m' ∧
      (∀ x, (∀ o i, o < no → i < ni → x ≠ addrX o i) → m' x = m x) ∧
      (∀ o i, o < no → i < ni → m' (addrX o i) = some (trsmSol uplo unit ni a (fun i => ini (b o i)) i)) := by
  have href : ∀ i k, i < ni → (solveLo uplo i ≤ k ∧ k < solveHi uplo ni i ∨ (unit = false ∧ k = i)) → k < ni ∧ TriRef uplo unit i k := by
    intro i k hi hk
    rcases hk with ⟨h1, h2⟩ | ⟨h1, h2⟩
    · cases uplo with
      | lower => change k < i at h2; exact ⟨by omega, Or.inr (Or.inl ⟨rfl, h2⟩)⟩
      | upper => exact ⟨h2, Or.inr (Or.inr ⟨rfl, h1⟩)⟩
    · exact ⟨by omega, Or.inl ⟨h2.symm, h1⟩⟩
  obtain ⟨mem', e1, e2, e3⟩ := runs_solve (no := no) (ni := ni) (solveDown uplo) f ini unit (solveLo uplo) (solveHi uplo ni)
    (by
      intro i k hi h1 h2
      cases uplo with
      | lower => change k < i at h2; exact ⟨by omega, by simpa [innerLt, solveDown] using h2⟩
      | upper =>
        change k < ni at h2; change i + 1 ≤ k at h1
        exact ⟨h2, by simp [innerLt, solveDown]; omega⟩) (m := m) hinj hX (fun o i ho hi => by rw [hB o i ho hi]; rfl) hBX
    (by
      intro i k hi hk
      obtain ⟨h0, h1⟩ := href i k hi hk
      obtain ⟨h2, h3⟩ := hA i k hi h0 h1
      exact ⟨by rw [h2]; rfl, h3⟩)
  refine ⟨mem', e1, e2, fun o i ho hi => ?_⟩
  have hrec : TrsmRec uplo unit ni a (fun i => ini (b o i)) (fun i => val mem' (addrX o i)) := by
    intro i hi
    refine Eq.trans (val_some (e3 o i ho hi)) ?_
    have hs : subFold (fun k => f (val m (addrA i k)) (val mem' (addrX o k))) (ini (val m (addrB o i))) (solveLo uplo i)
        (solveHi uplo ni i - solveLo uplo i) =
        subFold (fun k => Arith.mul (a i k) (val mem' (addrX o k))) (ini (b o i)) (solveLo uplo i) (solveHi uplo ni i - solveLo uplo i) := by
      rw [val_some (hB o i ho hi)]
      refine subFold_congr _ (fun k h1 h2 => ?_)
      obtain ⟨h3, h4⟩ := href i k hi (Or.inl ⟨h1, by omega⟩)
      rw [val_some (hA i k hi h3 h4).1, hf]
    beta_reduce
    rw [hs]
    cases unit with
    | true => rfl
    | false =>
      obtain ⟨h3, h4⟩ := href i i hi (Or.inr ⟨rfl, rfl⟩)
      simp only [Bool.false_eq_true, if_false]
      rw [val_some (hA i i hi h3 h4).1]
  rw [← hrec.eq_sol hi]
  beta_reduce
  rw [val_some (e3 o i ho hi)]
  exact e3 o i ho hi

/-- The arguments of `trsvLeftLower`/`trsvLeftUpper(A, b, x)` are in order: the selected triangle of the n × n matrix A holds `a`, b holds `bv`; x is storage for n elements,
b and x do not overlap except that b may be x; x does not overlap the triangle of A. -/
structure TrsvReady (SS n : Nat) (uplo : UpLo) (m : Mem V) (A : MPtr) (b x : VPtr) (a : Nat → Nat → V) (bv : Nat → V) : Prop where
  matrix : ∀ i k, i < n → k < n → TriRef uplo false i k → m (A.addr SS i k) = some (a i k) ∧ ∀ i' : Nat, i' < n → A.addr SS i k ≠ x.addr SS i'
  live : ∀ i : Nat, i < n → (m (x.addr SS i)).isSome = true
  inj : ∀ i i' : Nat, i < n → i' < n → x.addr SS i = x.addr SS i' → i = i'
  rhs : VHolds SS m b n bv
  apart : ∀ i i' : Nat, i < n → i' < n → b.addr SS i = x.addr SS i' → i = i'

theorem det_trsv {SS n : Nat} {A : MPtr} {b x : VPtr} {uplo : UpLo} {m : Mem V} {a : Nat → Nat → V} {bv : Nat → V} (h : TrsvReady SS n uplo m A b x a bv) :
    ∃ m', trsvPtr SS n uplo A b x m = .ok () m' ∧ VHolds SS m' x n (trsmSol uplo false n a bv) ∧ (∀ y, (∀ i : Nat, i < n → y ≠ x.addr SS i) → m' y = m y) := by
  obtain ⟨m', e1, e2, e3⟩ := solve_det (no := 1) (ni := n) uplo false (addrX := fun _ i => x.addr SS (i : Nat)) (addrB := fun _ i => b.addr SS (i : Nat))
    (addrA := fun i k => A.addr SS (i : Nat) (k : Nat)) Arith.mul (fun _ _ => rfl) id (m := m) (a := a) (b := fun _ i => bv i)
    (by intro o i o' i' h1 h2 h3 h4 he; exact ⟨by omega, h.inj _ _ h2 h4 he⟩) (by intro o i ho hi; exact h.live i hi) (fun o i ho hi => h.rhs i hi)
    (by intro o i o' i' h1 h2 h3 h4 he; exact ⟨by omega, h.apart _ _ h2 h4 he⟩)
    (by intro i k hi hk hr; exact ⟨(h.matrix i k hi hk hr).1, fun o' i' h1 h2 => (h.matrix i k hi hk hr).2 i' h2⟩)
  refine ⟨m', ?_, fun i hi => e3 0 i (by omega) hi, fun y hy => e2 y (fun o i ho hi => hy i hi)⟩
  cases uplo <;> exact e1

theorem det_refTrsmL {SS m n : Nat} {A X B : MPtr} (uplo : UpLo) (diag : Bool) (alpha : V) {mem : Mem V} {a b : Nat → Nat → V}
    (hA : TriArg SS mem A m uplo diag a X m n) (hX : Readable SS mem X m n) (hinj : Inj SS X m n) (hB : Holds SS mem B m n b) (hBX : SameOrDisj SS B X m n) :
    ∃ mem', refTrsmL SS m n A uplo diag X alpha B mem = .ok () mem' ∧
      Holds SS mem' X m n (fun i j => trsmSol uplo diag m a (fun i => Arith.mul alpha (b i j)) i) ∧ (∀ y, ¬ Cells SS X m n y → mem' y = mem y) := by
  obtain ⟨m', e1, e2, e3⟩ := solve_det (no := n) (ni := m) uplo diag (addrX := fun o i => X.addr SS (i : Nat) (o : Nat)) (addrB := fun o i => B.addr SS (i : Nat) (o : Nat))
    (addrA := fun i k => A.addr SS (i : Nat) (k : Nat)) Arith.mul (fun _ _ => rfl) (Arith.mul alpha) (m := mem) (a := a) (b := fun o i => b i o)
    (by intro o i o' i' h1 h2 h3 h4 he; have := hinj _ _ _ _ h2 h1 h4 h3 he; exact ⟨this.2, this.1⟩)
    (by intro o i ho hi; exact hX i o hi ho) (fun o i ho hi => hB i o hi ho)
    (by intro o i o' i' h1 h2 h3 h4 he; have := hBX _ _ _ _ h2 h1 h4 h3 he; exact ⟨this.2, this.1⟩)
    (by intro i k hi hk hr; exact ⟨(hA i k hi hk hr).1, fun o' i' h1 h2 he => (hA i k hi hk hr).2 ⟨i', o', h2, h1, he⟩⟩)
  refine ⟨m', ?_, fun i j hi hj => e3 j i hj hi, fun y hy => e2 y (fun o i ho hi he => hy ⟨i, o, hi, ho, he⟩)⟩
  cases uplo <;> exact e1

theorem det_refTrsmR {SS m n : Nat} {A X B : MPtr} (hcomm : ∀ p q : V, Arith.mul p q = Arith.mul q p) (uplo : UpLo) (diag : Bool) (alpha : V) {mem : Mem V}
    {a b : Nat → Nat → V} (hA : TriArg SS mem A n uplo diag a X m n) (hX : Readable SS mem X m n) (hinj : Inj SS X m n) (hB : Holds SS mem B m n b)
    (hBX : SameOrDisj SS B X m n) :
    ∃ mem', refTrsmR SS m n X A uplo diag alpha B mem = .ok () mem' ∧
      Holds SS mem' X m n (fun i j => trsmSol (flipUpLo uplo) diag n (fun x y => a y x) (fun j => Arith.mul alpha (b i j)) j) ∧
      (∀ y, ¬ Cells SS X m n y → mem' y = mem y) := by
  obtain ⟨m', e1, e2, e3⟩ := solve_det (no := m) (ni := n) (flipUpLo uplo) diag (addrX := fun o i => X.addr SS (o : Nat) (i : Nat))
    (addrB := fun o i => B.addr SS (o : Nat) (i : Nat)) (addrA := fun i k => A.addr SS (k : Nat) (i : Nat)) (fun p q => Arith.mul q p) (fun p q => hcomm q p)
    (Arith.mul alpha) (m := mem) (a := fun x y => a y x) (b := b)
    (by intro o i o' i' h1 h2 h3 h4 he; exact hinj _ _ _ _ h1 h2 h3 h4 he) (by intro o i ho hi; exact hX o i ho hi) (fun o i ho hi => hB o i ho hi)
    (by intro o i o' i' h1 h2 h3 h4 he; exact hBX _ _ _ _ h1 h2 h3 h4 he)
    (by
      intro i k hi hk hr
      have := hA k i hk hi hr.flip
      exact ⟨this.1, fun o' i' h1 h2 he => this.2 ⟨o', i', h1, h2, he⟩⟩)
  refine ⟨m', ?_, fun i j hi hj => e3 i j hi hj, fun y hy => e2 y (fun o i ho hi he => hy ⟨o, i, ho, hi, he⟩)⟩
  cases uplo <;> exact e1

end Blast
