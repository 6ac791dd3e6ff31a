import Verif.Props.Potrf
import Verif.Determined
import Verif.Eval
/-
What panel potrf leaves above the diagonal (C17), in exact arithmetic.
-/
namespace Blast
open Finset
variable {V : Type}

/-- **C17** (values above the diagonal). In exact arithmetic, if A is positive definite and the elements above the diagonal inside the KN × KN blocks on the diagonal mirror those below it,
then panel potrf stores zeros above the diagonal inside these blocks; the elements of L above the blocks keep their values. -/
theorem C17_potrf_panel_upper_zero [Field V] [LinearOrder V] [IsStrictOrderedRing V] [Arith V] [ExactSqrt V] {SS KN : Nat} {m : Mem V} {A L : Container}
    (h : PotrfArgs SS m A L) (hs : PotrfSizes A L) (hf : PotrfFits SS 1 KN A L) {a old : Nat → Nat → V} (ha : Contains SS m A a) (hpd : LowerPosDef A.cols a)
    (hsym : ∀ i j, i < j → j < A.cols → j / KN * KN ≤ i → a i j = a j i)
    (hl : ∀ i j, i < j / KN * KN → i < L.rows → j < L.cols → m (L.addr SS i j) = some (old i j)) :
    ∃ m' l, potrfPanelCall SS KN A L m = .ok () m' ∧ Contains SS m' L l ∧ IsCholesky A.rows A.cols l a ∧
      ∀ i j, i < j → j < A.cols → l i j = if j / KN * KN ≤ i then 0 else old i j := by
  obtain ⟨m', e1, e2, -, e3, e4⟩ := det_potrfPanel_all h hs hf ha hl
  obtain ⟨s1, s2, s3⟩ := hs
  set l := potSol SS KN A.rows A.cols true a with hl'
  have hc : IsCholesky A.rows A.cols l a := by
    refine PotRec.cholesky (T := SS) hf.kn ?_ s1 hpd (fun r c hcr hr hc => e3 r c hcr hr hc)
    have := hf.knT; omega
  have hz : ∀ r c : Nat, c / KN * KN ≤ r → r < c → c < A.cols → l r c = 0 := by
    intro r c
    induction c using Nat.strong_induction_on with
    | _ c ih =>
      intro hr hrc hcN
      have e := e4 rfl r c hr hrc hcN
      unfold PotUp at e
      have h0 : potS KN l (a r c) r c = 0 := by
        rw [potS_eq, hsym r c hrc hcN hr, ← hc.2 c r (by omega) (by omega) (by omega)]
        have e5 : ∑ q ∈ range (r + 1), l c q * l r q = ∑ q ∈ range c, l c q * l r q := by
          refine sum_subset (range_subset_range.2 (by omega)) (fun q hq hq' => ?_)
          rw [mem_range] at hq
          rw [mem_range] at hq'
          rw [ih q hq (Nat.le_trans (Nat.mul_le_mul_right _ (Nat.div_le_div_right (by omega))) hr) (by omega) (by omega), mul_zero]
        rw [e5, sub_self]
      have hp : 0 < potS KN l (a c c) c c := by
        rw [potS_eq, ← hc.2 c c le_rfl (by omega) hcN, sum_range_succ, add_sub_cancel_left]
        exact mul_pos (hc.1 c hcN) (hc.1 c hcN)
      rw [e, h0, ExactField.div_eq _ _ (ExactSqrt.sqrt_pos _ hp).ne', zero_div, ExactRing.zero_eq, ite_self]
  refine ⟨m', potPanelDet SS KN A.rows A.cols a old, e1, e2, ?_, fun i j hij hj => ?_⟩
  · have hle : ∀ i j : Nat, j ≤ i → potPanelDet SS KN A.rows A.cols a old i j = l i j := fun i j hji => if_pos (Nat.le_trans (Nat.div_mul_le_self j KN) hji)
    refine ⟨fun k hk => by rw [hle k k le_rfl]; exact hc.1 k hk, fun i j hji hi hj => ?_⟩
    rw [← hc.2 i j hji hi hj]
    refine sum_congr rfl (fun q hq => ?_)
    rw [mem_range] at hq
    rw [hle i q (by omega), hle j q (by omega)]
  · unfold potPanelDet
    refine if_ctx_congr Iff.rfl (fun hb => ?_) (fun _ => rfl)
    rw [← hl']
    exact hz i j hb hij hj

/-- **C17** (a lower triangular factor). If L is zero above the blocks on the diagonal before the call (as a new DynamicPanelMatrix is) and A is symmetric positive definite, then the whole of
L is lower triangular after it and the product of the whole matrices is `L Lᵀ = A`: what PanelPotrfTest checks. -/
theorem C17_potrf_panel_lower_triangular [Field V] [LinearOrder V] [IsStrictOrderedRing V] [Arith V] [ExactSqrt V] {SS KN : Nat} {m : Mem V} {A L : Container}
    (h : PotrfArgs SS m A L) (hs : PotrfSizes A L) (hf : PotrfFits SS 1 KN A L) {a : Nat → Nat → V} (ha : Contains SS m A a) (hpd : LowerPosDef A.cols a)
    (hsym : ∀ i j, i < j → j < A.cols → a i j = a j i)
    (hl : ∀ i j, i < j / KN * KN → i < L.rows → j < L.cols → m (L.addr SS i j) = some 0) :
    ∃ m' l, potrfPanelCall SS KN A L m = .ok () m' ∧ Contains SS m' L l ∧ (∀ i j, i < j → j < L.cols → l i j = 0) ∧ (∀ k, k < L.cols → 0 < l k k) ∧
      ∀ i j, i < A.rows → j < A.cols → ∑ q ∈ range A.cols, l i q * l j q = a i j := by
  obtain ⟨m', l, e1, e2, e3, e4⟩ := C17_potrf_panel_upper_zero h hs hf ha hpd (fun i j hij hj _ => hsym i j hij hj) (old := fun _ _ => 0) hl
  obtain ⟨s1, s2, s3⟩ := hs
  have hz : ∀ i j, i < j → j < A.cols → l i j = 0 := fun i j hij hj => by rw [e4 i j hij hj, ite_self]
  refine ⟨m', l, e1, e2, fun i j hij hj => hz i j hij (by omega), fun k hk => e3.1 k (by omega), fun i j hi hj => ?_⟩
  have key : ∀ i j, j ≤ i → i < A.rows → j < A.cols → ∑ q ∈ range A.cols, l i q * l j q = a i j := by
    intro i j hji hi hj
    rw [← e3.2 i j hji hi hj]
    symm
    refine sum_subset (range_subset_range.2 (by omega)) (fun q hq hq' => ?_)
    rw [mem_range] at hq
    rw [mem_range] at hq'
    rw [hz j q (by omega) hq, mul_zero]
  by_cases hji : j ≤ i
  · exact key i j hji hi hj
  · rw [hsym i j (by omega) hj, ← key j i (by omega) (by omega) (by omega)]
    exact sum_congr rfl (fun q _ => mul_comm _ _)

/-- A: the 2 × 2 identity, but with 5 above the diagonal (cell 2) -/
def potrfAsymMem : Mem Rat := fun z =>
  if z = 2 then some 5 else if z = 0 ∨ z = 3 then some 1 else if 0 ≤ z ∧ z < 32 then some 0 else none

/-- **C17** (refuted without symmetry). The lower triangle alone does not give zeros: with 5 above the diagonal of an A whose lower triangle is that of the identity, panel potrf stores
the 5 above the diagonal of L. -/
theorem C17_potrf_panel_upper_refuted :
    ContainsLower 2 potrfAsymMem potrfWitA (fun i j => if i = j then 1 else 0) ∧ potrfAsymMem (potrfWitL.addr 2 0 1) = some 0 ∧
    ∃ m', potrfPanelCall 2 2 potrfWitA potrfWitL potrfAsymMem = .ok () m' ∧ m' (potrfWitL.addr 2 0 1) = some 5 := by
  refine ⟨?_, by decide +kernel, ok_of_okCell (by decide +kernel)⟩
  have h : ∀ i < 2, ∀ j < 2, j ≤ i → potrfAsymMem (potrfWitA.addr 2 i j) = some (if i = j then 1 else 0) := by decide +kernel
  exact fun i j hji hi hj => h i hi j hj hji

end Blast
