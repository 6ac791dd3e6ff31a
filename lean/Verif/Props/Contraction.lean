import Verif.Contraction
import Verif.Props.BackwardSolve
/- Concrete cases meeting the hypotheses of these theorems: Verif/Cases/Accuracy.lean. -/
/-
Property C57, second part: the triangular solves are as accurate when the compiler contracts `acc -= a * x` to a fused operation.
-/
namespace Blast
open Finset Prog Reg

/-- **C57** (trsm, contracted). The bound of `C57_trsm_residual` holds for the loops of trsm with fused multiply-subtracts, in binary floating-point
arithmetic with (p+1)-bit significands. -/
theorem C57_trsm_contracted {p SS m n : Nat} {A X B : MPtr} (uplo : UpLo) (unit : Bool) {mem : Mem (Fl p)} {a b : Nat → Nat → Fl p}
    (hA : TriArg SS mem A m uplo unit a X m n) (hnz : unit = false → ∀ i, i < m → a i i ≠ 0)
    (hX : Readable SS mem X m n) (hinj : Inj SS X m n) (hB : Holds SS mem B m n b)
    (hBX : SameOrDisj SS B X m n) :
    ∃ mem' x, trsmFusedPtr SS m n uplo unit A B X mem = .ok () mem' ∧ Holds SS mem' X m n x ∧
      (∀ i j, i < m → j < n → |b i j - ∑ k ∈ range m, tri uplo unit a i k * x k j| ≤
        ((1 / (1 - flU p)) ^ m - 1) * ∑ k ∈ range m, |tri uplo unit a i k| * |x k j|) ∧
      (∀ y, ¬ Cells SS X m n y → mem' y = mem y) := by
  exact C57_trsm_residual (V := FlC p) (u := flcU p) (SS := SS) (m := m) (n := n) (A := A) (X := X) (B := B) uplo unit (mem := mem) (a := a) (b := b)
    hA hnz hX hinj hB hBX

/-- **C57** (trsv, contracted). -/
theorem C57_trsv_contracted {p SS n : Nat} {A : MPtr} {b x : VPtr} (uplo : UpLo)
    {mem : Mem (Fl p)} {a : Nat → Nat → Fl p} {bv : Nat → Fl p}
    (hA : ∀ i k, i < n → k < n → TriRef uplo false i k →
      mem (A.addr SS i k) = some (a i k) ∧ ∀ i' : Nat, i' < n → A.addr SS i k ≠ x.addr SS i')
    (hnz : ∀ i, i < n → a i i ≠ 0)
    (hX : ∀ i : Nat, i < n → (mem (x.addr SS i)).isSome = true)
    (hinj : ∀ i i' : Nat, i < n → i' < n → x.addr SS i = x.addr SS i' → i = i')
    (hB : VHolds SS mem b n bv)
    (hBX : ∀ i i' : Nat, i < n → i' < n → b.addr SS i = x.addr SS i' → i = i') :
    ∃ mem' xv, trsvFusedPtr SS n uplo A b x mem = .ok () mem' ∧ VHolds SS mem' x n xv ∧
      (∀ i, i < n → |bv i - ∑ k ∈ range n, tri uplo false a i k * xv k| ≤
        ((1 / (1 - flU p)) ^ n - 1) * ∑ k ∈ range n, |tri uplo false a i k| * |xv k|) ∧
      (∀ y, (∀ i : Nat, i < n → y ≠ x.addr SS i) → mem' y = mem y) := by
  rw [trsvFused_eq]
  exact C57_trsv_residual (V := FlC p) (u := flcU p) uplo (mem := mem) (a := a) (bv := bv) hA hnz hX hinj hB hBX

end Blast
