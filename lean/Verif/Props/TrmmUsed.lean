import Verif.Determined
import Verif.Props.Trmm
/- Concrete cases meeting the hypotheses of these theorems: Verif/Cases/TrmmUsed.lean. -/
/-
C12, continued: exactly which elements of A below the diagonal the left multiplication uses, for every size.
-/
set_option linter.unusedSectionVars false
namespace Blast
open Prog Reg Finset
variable {V : Type}

theorem leftSched_inv {T M : Nat} : ∀ n, (leftSched T M n).1 ≤ 3 ∧ (leftSched T M n).2 % T = 0 := by
  intro n
  induction n with
  | zero => exact ⟨Nat.le_refl 3, Nat.zero_mod T⟩
  | succ n ih =>
    obtain ⟨h1, h2⟩ := ih
    show (leftNext T M _).1 ≤ 3 ∧ (leftNext T M _).2 % T = 0
    unfold leftNext
    split
    · exact ⟨h1, by rw [Nat.add_mul_mod_self_right]; exact h2⟩
    · exact ⟨by omega, h2⟩

/-- rows `i .. i+h-1` are processed together: they contain row `r`, there are at most three SIMD widths of them, and they begin at a multiple of the SIMD width -/
def RowGroup (SS r i h : Nat) : Prop := i ≤ r ∧ r < i + h ∧ h ≤ 3 * SS ∧ i % SS = 0 ∧ h % SS = 0

/-- **C12** (which elements are used). In exact arithmetic, for every size: each row r belongs to a group of rows i, …, i+h-1 with at most three SIMD widths, and element (r, c) of the result is the
product with the upper triangle of A if the group fits into the matrix and column c belongs to a complete strip of columns; otherwise the elements of A below the diagonal from column i on take
part as if A were a full matrix. Elements of A to the left of column i are never used. -/
theorem C12_trmm_left_elements_used [CommRing V] [Arith V] [ExactRing V] {SS : Nat} {m : Mem V} {A B C : Container} (alpha : V)
    (h : TrmmLArgs SS m A B C) (hs : TrmmLSizes A B C) {a b : Nat → Nat → V} (ha : Contains SS m A a) (hb : Contains SS m B b) :
    ∃ m', trmmLeftCall SS 1 alpha A .upper false B C m = .ok () m' ∧ OnlyElemsChange SS m m' C ∧
      ∀ r, r < B.rows → ∃ i h, RowGroup SS r i h ∧ ∀ c, c < B.cols → m' (C.addr SS r c) =
        some (alpha * ∑ k ∈ range B.rows, (if r ≤ k ∨ i ≤ k ∧ ¬ (i + h ≤ B.rows ∧ c < B.cols / SS * SS) then a r k else 0) * b k c) := by
  obtain ⟨m', e1, e2, e3, e4⟩ := det_trmmLeft_val alpha h hs ha hb
  obtain ⟨⟨s1, s2⟩, s3, s4⟩ := id hs
  refine ⟨m', e1, e3, fun r hr => ?_⟩
  by_cases hN : 0 < B.cols
  swap
  · refine ⟨r / SS * SS, SS, ⟨Nat.div_mul_le_self r SS, ?_, by omega, Nat.mul_mod_left _ _, Nat.mod_self _⟩, fun c hc => by omega⟩
    exact Nat.lt_div_mul_add h.ss
  obtain ⟨p, i, ht, h1, h2, -⟩ := e4 r 0 hr hN
  obtain ⟨n, hn⟩ := ht.1
  have hinv := leftSched_inv (T := SS) (M := B.rows) n
  rw [hn] at hinv
  refine ⟨i, p * SS, ⟨h1, h2, Nat.mul_le_mul_right SS hinv.1, hinv.2, Nat.mul_mod_left _ _⟩, fun c hc => ?_⟩
  rw [e2 r c (by omega) (by omega)]
  obtain ⟨p', i', ht', h1', h2', hv⟩ := e4 r c hr hc
  obtain ⟨rfl, rfl⟩ := ht.unique ht' h1 h2 h1' h2'
  rw [hv]
  by_cases hf : i + p * SS ≤ B.rows ∧ c < B.cols / SS * SS
  · rw [if_pos hf]
    rw [trmmLFullEntry_eq alpha (a r) (fun k => b k c) (i := i) (r := r - i) (KM := p * SS) (M := B.rows) (by omega) hf.1
      (t := fun k => if r ≤ k ∨ i ≤ k ∧ ¬ (i + p * SS ≤ B.rows ∧ c < B.cols / SS * SS) then a r k else 0)
      (fun k hk _ => if_pos (Or.inl (by omega))) (fun k hk => if_neg (by rintro (hc | hc); · omega
                                                                         · exact hc.2 hf))]
  · rw [if_neg hf]
    unfold trmmLPartEntry
    have hi : i ≤ B.rows := by omega
    rw [fmaSum_eq, ExactRing.zero_eq, zero_add, mul_sum,
      sum_from (fun k => alpha * ((if r ≤ k ∨ i ≤ k ∧ ¬ (i + p * SS ≤ B.rows ∧ c < B.cols / SS * SS) then a r k else 0) * b k c)) hi
        (fun k hk => by rw [if_neg (by omega)]; ring)]
    refine congrArg some (sum_congr rfl (fun k hk => ?_))
    rw [if_pos (Or.inr ⟨by omega, hf⟩), ExactRing.mul_eq]
    ring

/-- **C12** (a band of zeros suffices). It suffices that A has zeros in the band of width 3 SIMD widths below the diagonal; elements further below may have any value. -/
theorem C12_trmm_left_band [CommRing V] [Arith V] [ExactRing V] {SS : Nat} {m : Mem V} {A B C : Container} (alpha : V)
    (h : TrmmLArgs SS m A B C) (hs : TrmmLSizes A B C) {a b : Nat → Nat → V} (ha : Contains SS m A a) (hz : ∀ i k, k < i → i < k + 3 * SS → i < A.rows → a i k = 0)
    (hb : Contains SS m B b) :
    ∃ m', trmmLeftCall SS 1 alpha A .upper false B C m = .ok () m' ∧
      Contains SS m' C (fun i j => alpha * ∑ k ∈ range B.rows, tri .upper false a i k * b k j) ∧ OnlyElemsChange SS m m' C := by
  obtain ⟨m', e1, e2, e3⟩ := C12_trmm_left_elements_used alpha h hs ha hb
  obtain ⟨⟨s1, s2⟩, s3, s4⟩ := id hs
  refine ⟨m', e1, fun r c hr hc => ?_, e2⟩
  obtain ⟨i, g, ⟨g1, g2, g3, -, -⟩, hv⟩ := e3 r (by omega)
  rw [hv c (by omega)]
  refine congrArg (fun x => some (alpha * x)) (sum_congr rfl (fun k hk => ?_))
  rcases Nat.lt_trichotomy r k with hlt | rfl | hgt
  · rw [tri_upper hlt, if_pos (Or.inl (by omega))]
  · rw [tri_diag, if_pos (Or.inl le_rfl)]; rfl
  · rw [tri_upper_zero hgt]
    by_cases hik : i ≤ k
    · rw [hz r k hgt (by omega) (by omega), ite_self]
    · rw [if_neg (by omega)]

end Blast
