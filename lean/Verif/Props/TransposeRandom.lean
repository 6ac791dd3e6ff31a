import Verif.Props.Transpose
import Verif.Props.BinaryRandom
/-
C83, continued: the symmetric generators. The debug builds check `isHermitian( matrix )` after makePositiveDefinite
(include/blast/math/StaticPanelMatrix.hpp:348) with exact comparison of the elements; the check succeeds because the factors of a product may be
exchanged, although both halves are computed separately and rounded.
-/
namespace Blast
open Prog Reg
variable {V : Type}

instance (F : Format) : CommFactors (Bin F) where
  mul_comm := Bin.mul_comm'
  fma_comm := fun a b c => by
    have hx : ∀ s t : Bool, (s != t) = (t != s) := by decide
    show Bin.fma a b c = Bin.fma b a c
    rcases a with ⟨s, x⟩ | s | _ <;> rcases b with ⟨t, y⟩ | t | _ <;> rcases c with ⟨r, z⟩ | r | _ <;>
      simp only [Bin.fma, Bin.mul, mul_comm, hx]

theorem addFold_congr' [Arith V] {f g : Nat → V} {c : V} {lo : Nat} (h : ∀ k, f k = g k) (n : Nat) : addFold f c lo n = addFold g c lo n := by
  rw [show f = g from funext h]

/-- C83: makePositiveDefinite leaves an exactly symmetric matrix in a dense object, whatever numbers it draws (even infinite ones or NaN) -/
theorem C83_makePositiveDefinite_symmetric [Arith V] [CommFactors V] {SS : Nat} (hSS : 0 < SS) {m : Mem V} {A : Container} (hd : A.isPanel = false)
    (hl : Live SS m A) (hsq : A.rows = A.cols) {t : Int} (ht : t % (SS : Int) = 0)
    (hfree : ∀ z, (⟨.dynDense, .columnMajor, A.cols, A.cols, t⟩ : Container).Storage SS z → m z = none) (R : Nat → Nat → V) (etN : V) :
    ∃ m', makePositiveDefinite SS t R etN (.obj A) m = .ok () m' ∧
      ∀ i j, i < A.rows → j < A.rows → (m' (A.addr SS i j)).isSome ∧ m' (A.addr SS i j) = m' (A.addr SS j i) := by
  obtain ⟨m', e, e1, -⟩ := det_makePositiveDefinite (e := .obj A) hSS hd (show (MExpr.obj A).Fits from trivial) hl hsq ht hfree R etN
  refine ⟨m', e, fun i j hi hj => ?_⟩
  have e1' : ∀ i j, i < A.rows → j < A.cols → m' (A.addr SS i j) = some (makePosDet A.cols R etN i j) := fun i j hi hj => elems_iff.1 e1 i j hi hj
  rw [e1' i j hi (by omega), e1' j i hj (by omega)]
  refine ⟨rfl, ?_⟩
  unfold makePosDet
  by_cases hij : i = j
  · subst hij; rfl
  · dsimp only
    rw [if_neg hij, if_neg (Ne.symm hij), addFold_congr' (fun k => CommFactors.mul_comm (R i k) (R j k))]

/-- C83: the same for the version for panel matrices -/
theorem C83_makePositiveDefinite_panel_symmetric [Arith V] [CommFactors V] {SS : Nat} (hSS : 0 < SS) {m : Mem V} {A : Container} (hso : A.so = .columnMajor)
    (hl : Live SS m A) (hsq : A.rows = A.cols) {t : Int} (ht : t % (SS : Int) = 0)
    (hfree : ∀ z, ({ A with data := t } : Container).Storage SS z → m z = none) (R : Nat → Nat → V) (tn : V) :
    ∃ m', makePositiveDefinitePanel SS t R tn A m = .ok () m' ∧
      ∀ i j, i < A.rows → j < A.rows → (m' (A.addr SS i j)).isSome ∧ m' (A.addr SS i j) = m' (A.addr SS j i) := by
  obtain ⟨m', e, e1, -⟩ := det_makePositiveDefinitePanel hSS hso hl hsq ht hfree R tn
  refine ⟨m', e, fun i j hi hj => ?_⟩
  rw [e1 i j hi (by omega), e1 j i hj (by omega)]
  refine ⟨rfl, ?_⟩
  unfold makePosPanelDet
  rw [fmaSum_comm]
  by_cases hij : i = j
  · subst hij; rfl
  · rw [if_neg hij, if_neg (Ne.symm hij)]

/-- C83: the symmetric product by the reference implementation is symmetric as well, bit for bit -/
theorem C83_reference_gemm_symmetric [Arith V] [CommFactors V] {SS n K : Nat} (hSS : 0 < SS) {A B C D : MPtr}
    (wA : A.panel = true → A.ptr % (SS : Int) = 0) (wB : B.panel = true → B.ptr % (SS : Int) = 0)
    (wC : C.panel = true → C.ptr % (SS : Int) = 0) (wD : D.panel = true → D.ptr % (SS : Int) = 0) (alpha beta : V) {mem : Mem V}
    {a c : Nat → Nat → V} (hA : Holds SS mem A n K a) (hB : Holds SS mem B K n (fun i j => a j i)) (hC : Holds SS mem C n n c)
    (hsym : ∀ i j, i < n → j < n → c i j = c j i)
    (hD : Readable SS mem D n n) (hinj : Inj SS D n n) (dA : Disj SS A n K D n n) (dB : Disj SS B K n D n n)
    (dC : SameOrDisj SS C D n n) :
    ∃ mem', refGemm SS n n K alpha A B beta C D mem = .ok () mem' ∧
      ∀ i j, i < n → j < n → (mem' (D.addr SS i j)).isSome ∧ mem' (D.addr SS i j) = mem' (D.addr SS j i) := by
  obtain ⟨m', e, e1, -⟩ := refGemm_bitwise hSS wA wB wC wD alpha beta hA hB hC hD hinj dA dB dC
  refine ⟨m', e, fun i j hi hj => ?_⟩
  rw [e1 i j hi hj, e1 j i hj hi]
  refine ⟨rfl, ?_⟩
  beta_reduce
  rw [addFold_congr' (fun k => CommFactors.mul_comm (a i k) (a j k)), hsym i j hi hj]

end Blast
