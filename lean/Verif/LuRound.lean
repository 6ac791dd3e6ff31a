import Verif.Backward
import Verif.LuRow
import Verif.LuMath
import Verif.Getrf
import Verif.Props.BackwardSolve
/-
LU factorization in rounded arithmetic: what the elimination steps compute, and the column-major blocked algorithm.
-/
set_option linter.unusedSectionVars false
namespace Blast
open Finset Prog
variable {V : Type} [Field V] [LinearOrder V] [IsStrictOrderedRing V]

theorem Near.eqs {v : V} {w : Nat} {B B' x y y' : V} (h : Near v w B x y) (h1 : B' = B) (h2 : y' = y) : Near v w B' x y' := by
  rw [h1, h2]; exact h

/-- `b` is factorized up to rounding errors as far as step `k`: unit lower triangular times upper triangular plus what is left to eliminate -/
structure LUNear (v : V) (w m n k : Nat) (b a : Nat → Nat → V) : Prop where
  near : ∀ i j, i < m → j < n →
    Near v w (∑ q ∈ range k, |tri .lower true a i q * tri .upper false a q j| + (if k ≤ i ∧ k ≤ j then |a i j| else 0)) (b i j)
      (∑ q ∈ range k, tri .lower true a i q * tri .upper false a q j + (if k ≤ i ∧ k ≤ j then a i j else 0))
  nz : ∀ q, q < k → a q q ≠ 0

theorem LUNear.zero (v : V) (m n : Nat) (a : Nat → Nat → V) : LUNear v 0 m n 0 a a :=
  ⟨fun i j _ _ => by simpa using Near.refl v (a i j), fun q hq => by omega⟩

theorem LUNear.mono {v : V} (hv : 0 ≤ v) {w w' m n k : Nat} {b a : Nat → Nat → V} (h : LUNear v w m n k b a) (hw : w ≤ w') :
    LUNear v w' m n k b a := ⟨fun i j hi hj => (h.near i j hi hj).mono hv hw, h.nz⟩

theorem LUNear.congr {v : V} {w m n k : Nat} {b b' a a' : Nat → Nat → V} (h : LUNear v w m n k b a) (hk : k ≤ m) (hkn : k ≤ n)
    (hb : ∀ i j, i < m → j < n → b' i j = b i j) (ha : ∀ i j, i < m → j < n → a' i j = a i j) : LUNear v w m n k b' a' := by
  refine ⟨fun i j hi hj => ?_, fun q hq => by rw [ha q q (by omega) (by omega)]; exact h.nz q hq⟩
  have e : ∀ q ∈ range k, tri .lower true a' i q * tri .upper false a' q j = tri .lower true a i q * tri .upper false a q j := by
    intro q hq
    have := mem_range.1 hq
    rw [tri_eq_lower, tri_eq_lower, tri_eq_upper, tri_eq_upper, ha i q hi (by omega), ha q j (by omega) hj]
  have e' : ∀ q ∈ range k, |tri .lower true a' i q * tri .upper false a' q j| = |tri .lower true a i q * tri .upper false a q j| :=
    fun q hq => by rw [e q hq]
  rw [sum_congr rfl e, sum_congr rfl e', hb i j hi hj, ha i j hi hj]
  exact h.near i j hi hj

/-- rows from `k` on may be permuted -/
theorem LUNear.perm {v : V} {w m n k : Nat} {b a : Nat → Nat → V} (h : LUNear v w m n k b a) {σ : Nat → Nat}
    (h1 : ∀ i, i < k → σ i = i) (h2 : ∀ i, k ≤ i → i < m → k ≤ σ i ∧ σ i < m) (hkm : k ≤ m) :
    LUNear v w m n k (fun i j => b (σ i) j) (fun i j => a (σ i) j) := by
  refine ⟨fun i j hi hj => ?_, fun q hq => by beta_reduce; rw [h1 q hq]; exact h.nz q hq⟩
  have hσ : σ i < m := by
    by_cases hik : i < k
    · rw [h1 i hik]; exact hi
    · exact (h2 i (by omega) hi).2
  have e : ∀ q ∈ range k, tri .lower true (fun i j => a (σ i) j) i q * tri .upper false (fun i j => a (σ i) j) q j =
      tri .lower true a (σ i) q * tri .upper false a q j := by
    intro q hq
    have hq := mem_range.1 hq
    rw [tri_eq_lower, tri_eq_lower, tri_eq_upper, tri_eq_upper, h1 q hq]
    by_cases hik : i < k
    · rw [h1 i hik]
    · have := h2 i (by omega) hi
      rw [if_neg (show ¬ i = q by omega), if_neg (show ¬ σ i = q by omega), if_pos (show q < i by omega), if_pos (show q < σ i by omega)]
  have e' : ∀ q ∈ range k, |tri .lower true (fun i j => a (σ i) j) i q * tri .upper false (fun i j => a (σ i) j) q j| =
      |tri .lower true a (σ i) q * tri .upper false a q j| := fun q hq => by rw [e q hq]
  rw [sum_congr rfl e, sum_congr rfl e']
  have hc : (k ≤ i ∧ k ≤ j) ↔ (k ≤ σ i ∧ k ≤ j) := by
    by_cases hik : i < k
    · rw [h1 i hik]
    · have := h2 i (by omega) hi
      constructor
      · exact fun hh => ⟨this.1, hh.2⟩
      · exact fun hh => ⟨by omega, hh.2⟩
  simp only [hc]
  exact h.near (σ i) j hσ hj

/-- factorization of the trailing block -/
theorem LUNear.block {v : V} (hv : 0 ≤ v) {w w' m n k t : Nat} {b a s : Nat → Nat → V} (h : LUNear v w m n k b a)
    (hs : LUNear v w' (m - k) (n - k) t (fun i j => a (k + i) (k + j)) s) :
    LUNear v (w' + w) m n (k + t) b (fun i j => if i < k ∨ j < k then a i j else s (i - k) (j - k)) := by
  refine ⟨fun i j hi hj => ?_, fun q hq => ?_⟩
  · -- split the sum at k
    have hL : ∀ q, q < k → tri .lower true (fun i j => if i < k ∨ j < k then a i j else s (i - k) (j - k)) i q = tri .lower true a i q := by
      intro q hq
      rw [tri_eq_lower, tri_eq_lower, if_pos (Or.inr hq)]
    have hU : ∀ q, q < k → tri .upper false (fun i j => if i < k ∨ j < k then a i j else s (i - k) (j - k)) q j = tri .upper false a q j := by
      intro q hq
      rw [tri_eq_upper, tri_eq_upper, if_pos (Or.inl hq)]
    have hsum : ∀ f : V → V, ∑ q ∈ range (k + t), f (tri .lower true (fun i j => if i < k ∨ j < k then a i j else s (i - k) (j - k)) i q *
        tri .upper false (fun i j => if i < k ∨ j < k then a i j else s (i - k) (j - k)) q j) =
        ∑ q ∈ range k, f (tri .lower true a i q * tri .upper false a q j) +
        ∑ q ∈ range t, f (tri .lower true (fun i j => if i < k ∨ j < k then a i j else s (i - k) (j - k)) i (k + q) *
        tri .upper false (fun i j => if i < k ∨ j < k then a i j else s (i - k) (j - k)) (k + q) j) := by
      intro f
      rw [sum_range_add]
      congr 1
      exact sum_congr rfl (fun q hq => by rw [hL q (mem_range.1 hq), hU q (mem_range.1 hq)])
    have hs1 := hsum (fun x => x)
    have hs2 := hsum (fun x => |x|)
    beta_reduce at hs1 hs2
    rw [hs1, hs2]
    by_cases hc : k ≤ i ∧ k ≤ j
    · have n1 := h.near i j hi hj
      rw [if_pos hc, if_pos hc, add_comm _ |a i j|, add_comm _ (a i j)] at n1
      have n2 := hs.near (i - k) (j - k) (by omega) (by omega)
      beta_reduce at n2
      rw [show k + (i - k) = i by omega, show k + (j - k) = j by omega] at n2
      have n3 := n1.subst hv n2 (abs_sum_le_sum_abs _ _)
      rw [Nat.add_comm w w'] at n3
      have e1 : ∀ q ∈ range t, tri .lower true (fun i j => if i < k ∨ j < k then a i j else s (i - k) (j - k)) i (k + q) *
          tri .upper false (fun i j => if i < k ∨ j < k then a i j else s (i - k) (j - k)) (k + q) j =
          tri .lower true s (i - k) q * tri .upper false s q (j - k) := by
        intro q hq
        rw [tri_eq_lower, tri_eq_lower, tri_eq_upper, tri_eq_upper]
        rw [if_neg (show ¬ (i < k ∨ k + q < k) by omega), if_neg (show ¬ (k + q < k ∨ j < k) by omega), show k + q - k = q by omega]
        congr 1
        · by_cases h1 : i = k + q
          · rw [if_pos h1, if_pos (by omega)]
          · rw [if_neg h1, if_neg (show ¬ i - k = q by omega)]
            by_cases h2 : k + q < i
            · rw [if_pos h2, if_pos (by omega)]
            · rw [if_neg h2, if_neg (by omega)]
        · by_cases h1 : k + q ≤ j
          · rw [if_pos h1, if_pos (by omega)]
          · rw [if_neg h1, if_neg (by omega)]
      have e2 : ∀ q ∈ range t, |tri .lower true (fun i j => if i < k ∨ j < k then a i j else s (i - k) (j - k)) i (k + q) *
          tri .upper false (fun i j => if i < k ∨ j < k then a i j else s (i - k) (j - k)) (k + q) j| =
          |tri .lower true s (i - k) q * tri .upper false s q (j - k)| := fun q hq => by rw [e1 q hq]
      rw [sum_congr rfl e1, sum_congr rfl e2]
      have e3 : ∀ x : V, (if k + t ≤ i ∧ k + t ≤ j then x else 0) = (if t ≤ i - k ∧ t ≤ j - k then x else 0) := by
        intro x
        by_cases h1 : k + t ≤ i ∧ k + t ≤ j
        · rw [if_pos h1, if_pos (by omega)]
        · rw [if_neg h1, if_neg (by omega)]
      rw [e3, e3, if_neg (show ¬ (i < k ∨ j < k) by omega)]
      exact n3.eqs (by ring) (by ring)
    · have n1 := h.near i j hi hj
      rw [if_neg hc, if_neg hc] at n1
      have e1 : ∀ q ∈ range t, tri .lower true (fun i j => if i < k ∨ j < k then a i j else s (i - k) (j - k)) i (k + q) *
          tri .upper false (fun i j => if i < k ∨ j < k then a i j else s (i - k) (j - k)) (k + q) j = 0 := by
        intro q hq
        rw [tri_eq_lower, tri_eq_upper]
        by_cases hik : i < k
        · rw [if_neg (show ¬ i = k + q by omega), if_neg (show ¬ k + q < i by omega), zero_mul]
        · rw [if_neg (show ¬ k + q ≤ j by omega), mul_zero]
      rw [sum_eq_zero e1, sum_eq_zero (s := range t) (fun q hq => by rw [e1 q hq, abs_zero]), if_neg (show ¬ (k + t ≤ i ∧ k + t ≤ j) by omega), if_neg (show ¬ (k + t ≤ i ∧ k + t ≤ j) by omega)]
      simp only [add_zero] at n1 ⊢
      exact n1.mono hv (by omega)
  · beta_reduce
    by_cases hqk : q < k
    · rw [if_pos (Or.inl hqk)]; exact h.nz q hqk
    · rw [if_neg (by omega)]; exact hs.nz (q - k) (by omega)

/-- the operations of an elimination step in rounded arithmetic; `c` bounds the quotients of numbers of which the divisor is the larger,
`ρ` the growth of the elements in one step -/
structure NearOps (v c ρ : V) (w : Nat) (dv : V → V → V) (upd : V → V → V → V) : Prop where
  dv_near : ∀ x y, y ≠ 0 → Rel v w (dv x y * y) x
  dv_le : ∀ x y, y ≠ 0 → |x| ≤ |y| → |dv x y| ≤ c
  upd_near : ∀ l u a, Near v w (|upd l u a| + |l * u|) a (upd l u a + l * u)
  upd_le : ∀ l u a B, |l| ≤ c → |u| ≤ B → |a| ≤ B → |upd l u a| ≤ ρ * B

theorem LUNear.elim {v c ρ : V} (hv : 0 ≤ v) {w w0 m n k : Nat} {dv : V → V → V} {upd : V → V → V → V} (ho : NearOps v c ρ w dv upd)
    {b a : Nat → Nat → V} (h : LUNear v w0 m n k b a) (hz : a k k ≠ 0) : LUNear v (w + w0) m n (k + 1) b (Blast.elim dv upd k a) := by
  have e1 : ∀ i j, ¬ k < i → Blast.elim dv upd k a i j = a i j := fun i j hi => by unfold Blast.elim; rw [if_neg hi]
  have e3 : ∀ i, k < i → Blast.elim dv upd k a i k = dv (a i k) (a k k) := fun i hi => by
    unfold Blast.elim; rw [if_pos hi, if_pos rfl]
  have e4 : ∀ i j, k < i → k < j → Blast.elim dv upd k a i j = upd (dv (a i k) (a k k)) (a k j) (a i j) := fun i j hi hj => by
    unfold Blast.elim; rw [if_pos hi, if_neg (by omega), if_pos hj]
  have hb := h.block hv (t := 1) (w' := w) (s := fun i j => Blast.elim dv upd k a (k + i) (k + j)) (by
    refine ⟨fun i j hi hj => ?_, fun q hq => ?_⟩
    · beta_reduce
      rw [sum_range_one, sum_range_one, tri_eq_lower, tri_eq_upper, if_pos (Nat.zero_le j)]
      by_cases hi0 : i = 0
      · subst hi0
        rw [if_pos rfl, if_neg (show ¬ (1 ≤ 0 ∧ 1 ≤ j) by omega), if_neg (show ¬ (1 ≤ 0 ∧ 1 ≤ j) by omega), one_mul]
        simp only [add_zero]
        rw [e1 _ _ (show ¬ k < k by omega)]
        exact (Near.refl v _).mono hv (Nat.zero_le w)
      · rw [if_neg hi0, if_pos (show 0 < i by omega), e1 _ _ (show ¬ k < k + 0 by omega), Nat.add_zero, e3 _ (show k < k + i by omega)]
        by_cases hj0 : j = 0
        · subst hj0
          rw [if_neg (show ¬ (1 ≤ i ∧ 1 ≤ 0) by omega), if_neg (show ¬ (1 ≤ i ∧ 1 ≤ 0) by omega)]
          simp only [add_zero]
          exact (ho.dv_near _ _ hz).symm.near
        · rw [if_pos (show 1 ≤ i ∧ 1 ≤ j by omega), if_pos (show 1 ≤ i ∧ 1 ≤ j by omega), e4 _ _ (show k < k + i by omega) (show k < k + j by omega),
            add_comm |_ * _|, add_comm (_ * _)]
          exact ho.upd_near _ _ _
    · rw [show q = 0 by omega]
      beta_reduce
      unfold Blast.elim
      rw [Nat.add_zero, if_neg (by omega)]; exact hz)
  refine ⟨?_, ?_⟩
  · have e : (fun i j => if i < k ∨ j < k then a i j else Blast.elim dv upd k a (k + (i - k)) (k + (j - k))) = Blast.elim dv upd k a := by
      funext i j
      by_cases hc : i < k ∨ j < k
      · rw [if_pos hc]
        unfold Blast.elim
        by_cases h1 : k < i
        · rw [if_pos h1, if_neg (by omega), if_neg (by omega)]
        · rw [if_neg h1]
      · rw [if_neg hc, show k + (i - k) = i by omega, show k + (j - k) = j by omega]
    beta_reduce at hb
    rw [e] at hb
    exact hb.near
  · intro q hq
    unfold Blast.elim
    rw [if_neg (by omega)]
    by_cases hqk : q = k
    · subst hqk; exact hz
    · exact h.nz q (by omega)

section
variable [Arith V] {u : V} [hR : Rounded u]

include hR in
theorem iamaxF_max' (x : Nat → V) (t : Nat) :
    (iamaxF x t).1 = |x (iamaxF x t).2| ∧ (∀ j, j ≤ t → |x j| ≤ |x (iamaxF x t).2|) := by
  induction t with
  | zero =>
    refine ⟨hR.abs_eq _, fun j hj => ?_⟩
    rw [show j = 0 by omega]; exact le_refl _
  | succ t ih =>
    obtain ⟨h1, h2⟩ := ih
    unfold iamaxF
    by_cases hg : Arith.gt (Arith.abs (x (t + 1))) (iamaxF x t).1 = true
    · rw [if_pos hg]
      have hg' := (hR.gt_iff _ _).1 hg
      rw [h1, hR.abs_eq] at hg'
      refine ⟨hR.abs_eq _, fun j hj => ?_⟩
      by_cases hj2 : j = t + 1
      · subst hj2; exact le_refl _
      · exact le_trans (h2 j (by omega)) (le_of_lt hg')
    · rw [if_neg hg]
      have hg' : ¬ (iamaxF x t).1 < Arith.abs (x (t + 1)) := fun h => hg ((hR.gt_iff _ _).2 h)
      rw [h1, hR.abs_eq] at hg'
      refine ⟨h1, fun j hj => ?_⟩
      by_cases hj2 : j = t + 1
      · subst hj2; exact le_of_not_gt hg'
      · exact h2 j (by omega)

include hR in
theorem pivot_max' {m k : Nat} (a : Nat → Nat → V) {i : Nat} (h1 : k ≤ i) (h2 : i < m) : |a i k| ≤ |a (pivotRow m a k) k| := by
  have := (iamaxF_max' (u := u) (fun i => a (k + i) k) (m - k - 1)).2 (i - k) (by omega)
  rw [show k + (i - k) = i by omega] at this
  unfold pivotRow
  rw [Nat.add_comm _ k]
  exact this

/-- Everything known about the state after `K` steps. -/
theorem luRun_near {c ρ : V} {w : Nat} {dv : V → V → V} {upd : V → V → V → V} (ho : NearOps (bu u) c ρ w dv upd) (hρ : 1 ≤ ρ) {m n : Nat}
    {a0 : Nat → Nat → V} {ip : Nat → Nat} (K : Nat) (hK : K ≤ m)
    {a : Nat → Nat → V} {p : Nat → Nat} (h : luRun dv upd m a0 ip K = some (a, p)) :
    LUNear (bu u) (w * K) m n K (rowSwaps p 0 K a0) a ∧ (∀ q, q < K → q ≤ p q ∧ p q < m) ∧ (∀ q, K ≤ q → p q = ip q) ∧
      (∀ i q, q < K → q < i → i < m → |a i q| ≤ c) ∧
      (∀ B, (∀ i j, i < m → j < n → |a0 i j| ≤ B) → ∀ i j, i < m → j < n → (i ≤ j ∨ K ≤ j) → |a i j| ≤ ρ ^ K * B) := by
  induction K generalizing a p with
  | zero =>
    simp only [luRun, Option.some.injEq, Prod.mk.injEq] at h
    obtain ⟨rfl, rfl⟩ := h
    exact ⟨LUNear.zero _ m n a0, fun q hq => by omega, fun q _ => rfl, fun i q hq => by omega,
      fun B hB i j hi hj _ => by rw [pow_zero, one_mul]; exact hB i j hi hj⟩
  | succ K ih =>
    unfold luRun at h
    cases hr : luRun dv upd m a0 ip K with
    | none => rw [hr] at h; simp at h
    | some r =>
      obtain ⟨a1, p1⟩ := r
      rw [hr] at h
      obtain ⟨i1, i2, i3, i4, i5⟩ := ih (by omega) hr
      obtain ⟨b1, b2⟩ := pivotRow_lt a1 (show K < m by omega)
      simp only [Option.bind_some] at h
      unfold luStep at h
      simp only at h
      by_cases hz : Arith.eq (swapRows K (pivotRow m a1 K) a1 K K) Arith.zero = true
      · rw [if_pos hz] at h; simp at h
      · rw [if_neg hz] at h
        simp only [Option.some.injEq, Prod.mk.injEq] at h
        obtain ⟨rfl, rfl⟩ := h
        have hnz : swapRows K (pivotRow m a1 K) a1 K K ≠ 0 := fun e =>
          hz ((hR.eq_iff _ _).2 (by rw [hR.zero_eq]; exact e))
        have hpiv : swapRows K (pivotRow m a1 K) a1 K K = a1 (pivotRow m a1 K) K := by
          rw [swapRows_eq]; unfold swapIdx; rw [if_pos rfl]
        have hmul : ∀ i, K < i → i < m → |dv (swapRows K (pivotRow m a1 K) a1 i K) (swapRows K (pivotRow m a1 K) a1 K K)| ≤ c := by
          intro i hqi him
          refine ho.dv_le _ _ hnz ?_
          rw [hpiv, swapRows_eq]
          have hbd := swapIdx_bounds (p := K) (q := pivotRow m a1 K) (k := K) (m := m) (i := i)
            ⟨by omega, by omega⟩ ⟨b1, b2⟩ ⟨by omega, him⟩
          exact pivot_max' (u := u) a1 hbd.1 hbd.2
        refine ⟨?_, ?_, ?_, ?_, ?_⟩
        · have := (i1.perm (σ := swapIdx K (pivotRow m a1 K)) (fun i hi => swapIdx_lt (Nat.le_refl K) b1 hi)
            (fun i h1 h2 => swapIdx_bounds ⟨Nat.le_refl K, by omega⟩ ⟨b1, b2⟩ ⟨h1, h2⟩) (by omega)).elim buN ho hnz
          have hb : rowSwaps (setAt p1 K (pivotRow m a1 K)) 0 (K + 1) a0 =
              swapRows K (pivotRow m a1 K) (rowSwaps p1 0 K a0) := by
            funext i j
            show rowSwaps (setAt p1 K (pivotRow m a1 K)) 0 K a0 (swapIdx (0 + K) (setAt p1 K (pivotRow m a1 K) (0 + K)) i) j = _
            rw [Nat.zero_add, rowSwaps_congr (p' := p1) (fun q _ hq => by unfold setAt; rw [if_neg (by omega)]), swapRows_eq]
            unfold setAt; rw [if_pos rfl]
          rw [hb, show w * (K + 1) = w + w * K by rw [Nat.mul_succ, Nat.add_comm]]; exact this
        · intro q hq
          unfold setAt
          by_cases hqk : q = K
          · rw [if_pos hqk]; subst hqk; exact ⟨b1, b2⟩
          · rw [if_neg hqk]; exact i2 q (by omega)
        · intro q hq
          unfold setAt
          rw [if_neg (by omega)]; exact i3 q (by omega)
        · intro i q hq hqi him
          by_cases hqk : q = K
          · subst hqk
            unfold Blast.elim
            rw [if_pos hqi, if_pos rfl]
            exact hmul i hqi him
          · have : Blast.elim dv upd K (swapRows K (pivotRow m a1 K) a1) i q = swapRows K (pivotRow m a1 K) a1 i q := by
              unfold Blast.elim
              rw [if_neg hqk, if_neg (show ¬ K < q by omega), ite_self]
            rw [this, swapRows_eq]
            by_cases hiK : i < K
            · rw [swapIdx_lt (Nat.le_refl K) b1 hiK]; exact i4 i q (by omega) hqi him
            · have hbd := swapIdx_bounds (p := K) (q := pivotRow m a1 K) (k := K) (m := m) (i := i)
                ⟨by omega, by omega⟩ ⟨b1, b2⟩ ⟨by omega, him⟩
              exact i4 _ q (by omega) (by omega) hbd.2
        · intro B hB i j hi hj hij
          have hB0 : 0 ≤ ρ ^ K * B := by
            have := hB i j hi hj
            exact mul_nonneg (pow_nonneg (by linarith) K) (le_trans (abs_nonneg _) this)
          have hsw : ∀ i, i < m → (i ≤ j ∨ K ≤ j) → |swapRows K (pivotRow m a1 K) a1 i j| ≤ ρ ^ K * B := by
            intro i hi hij
            rw [swapRows_eq]
            by_cases hiK : i < K
            · rw [swapIdx_lt (Nat.le_refl K) b1 hiK]; exact i5 B hB i j hi hj hij
            · have hbd := swapIdx_bounds (p := K) (q := pivotRow m a1 K) (k := K) (m := m) (i := i)
                ⟨by omega, by omega⟩ ⟨b1, b2⟩ ⟨by omega, hi⟩
              exact i5 B hB _ j hbd.2 hj (Or.inr (by omega))
          have hle : ρ ^ K * B ≤ ρ ^ (K + 1) * B := by
            rw [pow_succ, mul_right_comm]
            exact le_mul_of_one_le_right hB0 hρ
          unfold Blast.elim
          by_cases hKi : K < i
          · rw [if_pos hKi, if_neg (show ¬ j = K by omega), if_pos (show K < j by omega)]
            have := ho.upd_le _ _ _ _ (hmul i hKi hi) (hsw K (by omega) (Or.inl (by omega))) (hsw i hi (Or.inr (by omega)))
            rwa [pow_succ, mul_comm (ρ ^ K), mul_assoc]
          · rw [if_neg hKi]
            exact le_trans (hsw i hi (by omega)) hle

include hR in
theorem div_le' {x y : V} (hy : y ≠ 0) (h : |x| ≤ |y|) : |Arith.div x y| ≤ 1 + u := by
  have h1 := hR.div_err x y hy
  have h2 : |x / y| ≤ 1 := by rw [abs_div]; exact div_le_one_of_le₀ h (abs_nonneg _)
  have h3 : |Arith.div x y| ≤ |Arith.div x y - x / y| + |x / y| := by
    have := abs_add_le (Arith.div x y - x / y) (x / y)
    simpa using this
  have := mul_le_mul_of_nonneg_left h2 hR.u_nonneg
  linarith

include hR in
/-- a rounded result is not much larger than the exact one -/
theorem rnd_le {x z B : V} (h : |z - x| ≤ u * |x|) (hx : |x| ≤ B) : |z| ≤ (1 + u) * B := by
  have h3 : |z| ≤ |z - x| + |x| := by
    have := abs_add_le (z - x) x
    simpa using this
  have := mul_le_mul_of_nonneg_left hx hR.u_nonneg
  linarith

include hR in
theorem mul_le' {a b A B : V} (ha : |a| ≤ A) (hb : |b| ≤ B) : |Arith.mul a b| ≤ (1 + u) * (A * B) := by
  refine rnd_le (u := u) (hR.mul_err a b) ?_
  rw [abs_mul]
  exact mul_le_mul ha hb (abs_nonneg _) (le_trans (abs_nonneg _) ha)

include hR in
theorem one_abs : |(Arith.one : V)| ≤ 1 ∧ |(Arith.neg Arith.one : V)| ≤ 1 := by
  rw [hR.neg_eq, hR.one_eq, abs_neg, abs_one]; exact ⟨le_refl _, le_refl _⟩

/-- column-major getf2 -/
theorem nearOps_col {ρ : V} (hρ : 2 * (1 + u) ^ 3 ≤ ρ) : NearOps (bu u) (1 + u) ρ 2 (Arith.div : V → V → V) updCol := by
  have hu := hR.u_nonneg
  refine ⟨fun x y hy => (rel_div_mul hy).mono buN (by omega), fun x y hy h => div_le' hy h, fun l p a => ?_, fun l p a B hl hp ha => ?_⟩
  swap
  · have hB : 0 ≤ B := le_trans (abs_nonneg _) ha
    unfold updCol gerEntry
    have h1 := mul_le' (u := u) (one_abs (u := u)).2 hl
    have h2 := mul_le' (u := u) (one_abs (u := u)).1 ha
    have h3 := rnd_le (u := u) (hR.fma_err (Arith.mul (Arith.neg Arith.one) l) p (Arith.mul Arith.one a))
      (B := (1 + u) * (1 * (1 + u)) * B + (1 + u) * (1 * B)) (by
        refine le_trans (abs_add_le _ _) (add_le_add ?_ h2)
        rw [abs_mul]
        exact mul_le_mul h1 hp (abs_nonneg _) (le_trans (abs_nonneg _) h1))
    refine le_trans h3 ?_
    have h4 := mul_le_mul_of_nonneg_right hρ hB
    have h5 : (1 + u) * ((1 + u) * (1 * (1 + u)) * B + (1 + u) * (1 * B)) ≤ 2 * (1 + u) ^ 3 * B := by
      have h6 : (1 + u) ^ 2 * B ≤ (1 + u) ^ 3 * B := mul_le_mul_of_nonneg_right (pow_le_pow_right₀ (by linarith) (by omega)) hB
      have e : (1 + u) * ((1 + u) * (1 * (1 + u)) * B + (1 + u) * (1 * B)) = (1 + u) ^ 3 * B + (1 + u) ^ 2 * B := by ring
      linarith
    linarith
  unfold updCol gerEntry
  have h1 : Rel (bu u) 1 (Arith.mul (Arith.neg Arith.one) l) (-l) := by
    have := rel_mul (u := u) (Arith.neg Arith.one) l
    rwa [show (Arith.neg Arith.one : V) * l = -l by rw [hR.neg_eq, hR.one_eq, neg_one_mul]] at this
  have h2 := (h1.mul buN (Rel.refl (bu u) p)).neg
  rw [neg_mul, neg_neg] at h2
  have h3 : Rel (bu u) 1 (Arith.mul Arith.one a) a := by
    have := rel_mul (u := u) Arith.one a
    rwa [show (Arith.one : V) * a = a by rw [hR.one_eq, one_mul]] at this
  refine near_step buN (st := Arith.mul Arith.one a) (pt := -(Arith.mul (Arith.neg Arith.one) l * p)) ?_ h3 h2 (by omega) (by omega)
  have h4 := rel_fma (u := u) (Arith.mul (Arith.neg Arith.one) l) p (Arith.mul Arith.one a)
  rw [show ∀ x y : V, x - -y = y + x from fun x y => by ring]
  exact h4

include hR in
theorem pow_bu' (n : Nat) : (1 + bu u) ^ n = (1 / (1 - u)) ^ n := by rw [one_add_bu hR.u_lt_one]

/-- the update of the trailing block by gemm, read backwards -/
theorem near_gemmNeg (x y : Nat → V) (c : V) (K : Nat) :
    Near (bu u) (K + 1) (|gemmEntry (Arith.neg Arith.one) Arith.one x y c K| + ∑ q ∈ range K, |x q * y q|) c
      (gemmEntry (Arith.neg Arith.one) Arith.one x y c K + ∑ q ∈ range K, x q * y q) := by
  unfold gemmEntry
  have n1 : Near u K (∑ q ∈ range K, |x q| * |y q|) (fmaSum x y Arith.zero K) (∑ q ∈ range K, x q * y q) := by
    have := near_fmaSum (u := u) (n := 0) (k := 0) K (fun t _ => Near.refl u (x t)) (fun t _ => Near.refl u (y t)) (near_zero 0) (le_refl _)
    simpa only [zero_add] using this
  have n1' : Near (bu u) K (∑ q ∈ range K, |x q * y q|) (fmaSum x y Arith.zero K) (∑ q ∈ range K, x q * y q) := by
    refine ⟨abs_sum_le_sum_abs _ _, ?_⟩
    simp only [abs_mul]
    refine le_trans n1.err (mul_le_mul_of_nonneg_right ?_ n1.B_nonneg)
    have h1 := le_bu hR.u_nonneg hR.u_lt_one
    have h0 := hR.u_nonneg
    have : (1 + u) ^ K ≤ (1 + bu u) ^ K := pow_le_pow_left₀ (by linarith) (by linarith) K
    linarith
  generalize fmaSum x y Arith.zero K = S at n1'
  have h1 : Rel (bu u) 1 (-Arith.mul S (Arith.neg Arith.one)) S := by
    have := (rel_mul (u := u) S (Arith.neg Arith.one)).neg
    rwa [show -(S * (Arith.neg Arith.one : V)) = S by rw [hR.neg_eq, hR.one_eq]; ring] at this
  have n2 := n1'.rel buN h1
  have h2 : Rel (bu u) 1 (Arith.fma Arith.one c (Arith.mul S (Arith.neg Arith.one))) (c + Arith.mul S (Arith.neg Arith.one)) := by
    have := rel_fma (u := u) Arith.one c (Arith.mul S (Arith.neg Arith.one))
    rwa [show (Arith.one : V) * c = c by rw [hR.one_eq, one_mul]] at this
  have n3 := (h2.symm.near.mono buN (show 1 ≤ K + 1 by omega)).add buN n2
  rwa [add_neg_cancel_right] at n3

omit [Arith V] hR in
theorem geom_le {z ρ : V} (hz : 1 ≤ z) (hρ : 2 * z ≤ ρ) (K : Nat) (hK : 0 < K) : z * (1 + ∑ q ∈ range K, ρ ^ q) ≤ ρ ^ K := by
  induction K with
  | zero => omega
  | succ K ih =>
    by_cases hK0 : K = 0
    · subst hK0; simp; linarith
    · have h1 := ih (by omega)
      have h2 : 0 ≤ ρ ^ K := pow_nonneg (by linarith) K
      rw [sum_range_succ, pow_succ]
      nlinarith

include hR in
theorem gemmNeg_le {x y : Nat → V} {c B ρ : V} {K : Nat} (hK : 0 < K) (hρ : 2 * (1 + u) ^ (K + 3) ≤ ρ) (hc : |c| ≤ B)
    (hx : ∀ q, q < K → |x q| ≤ 1 + u) (hy : ∀ q, q < K → |y q| ≤ ρ ^ q * B) :
    |gemmEntry (Arith.neg Arith.one) Arith.one x y c K| ≤ ρ ^ K * B := by
  have hu := hR.u_nonneg
  have hB : 0 ≤ B := le_trans (abs_nonneg _) hc
  unfold gemmEntry
  have n1 : Near u K (∑ q ∈ range K, |x q| * |y q|) (fmaSum x y Arith.zero K) (∑ q ∈ range K, x q * y q) := by
    have := near_fmaSum (u := u) (n := 0) (k := 0) K (fun t _ => Near.refl u (x t)) (fun t _ => Near.refl u (y t)) (near_zero 0) (le_refl _)
    simpa only [zero_add] using this
  have h1 : ∑ q ∈ range K, |x q| * |y q| ≤ (1 + u) * ∑ q ∈ range K, ρ ^ q * B := by
    rw [mul_sum]
    refine sum_le_sum (fun q hq => ?_)
    have hq := mem_range.1 hq
    exact mul_le_mul (hx q hq) (hy q hq) (abs_nonneg _) (by linarith)
  have h2 : |fmaSum x y Arith.zero K| ≤ (1 + u) ^ K * ((1 + u) * ∑ q ∈ range K, ρ ^ q * B) :=
    le_trans n1.abs_le (mul_le_mul_of_nonneg_left h1 (pow_nonneg (by linarith) K))
  have h3 := mul_le' (u := u) h2 (one_abs (u := u)).2
  have h4 := rnd_le (u := u) (hR.fma_err Arith.one c (Arith.mul (fmaSum x y Arith.zero K) (Arith.neg Arith.one)))
    (B := B + (1 + u) * ((1 + u) ^ K * ((1 + u) * ∑ q ∈ range K, ρ ^ q * B) * 1)) (by
      refine le_trans (abs_add_le _ _) (add_le_add ?_ h3)
      rw [hR.one_eq, one_mul]; exact hc)
  refine le_trans h4 ?_
  have h5 := geom_le (z := (1 + u) ^ (K + 3)) (one_le_pow₀ (by linarith)) hρ K hK
  have h6 := mul_le_mul_of_nonneg_right h5 hB
  have h7 : (1 + u) * B ≤ (1 + u) ^ (K + 3) * B := by
    refine mul_le_mul_of_nonneg_right ?_ hB
    calc 1 + u = (1 + u) ^ 1 := (pow_one _).symm
      _ ≤ (1 + u) ^ (K + 3) := pow_le_pow_right₀ (by linarith) (by omega)
  rw [← sum_mul]
  have e : (1 + u) * (B + (1 + u) * ((1 + u) ^ K * ((1 + u) * ((∑ q ∈ range K, ρ ^ q) * B)) * 1)) =
      (1 + u) * B + (1 + u) ^ (K + 3) * (∑ q ∈ range K, ρ ^ q) * B := by ring
  rw [e]
  nlinarith

include hR in
/-- growth in the triangular solve -/
theorem subFold_le {l x : Nat → V} {b B ρ : V} (hρ : 2 * (1 + u) ^ 3 ≤ ρ) (hb : |b| ≤ B) (i : Nat) (hl : ∀ q, q < i → |l q| ≤ 1 + u)
    (hx : ∀ q, q < i → |x q| ≤ ρ ^ q * B) : |subFold (fun q => Arith.mul (l q) (x q)) b 0 i| ≤ ρ ^ i * B := by
  have hu := hR.u_nonneg
  induction i with
  | zero => rw [pow_zero, one_mul]; exact hb
  | succ i ih =>
    have h1 := ih (fun q hq => hl q (by omega)) (fun q hq => hx q (by omega))
    have h2 := mul_le' (u := u) (hl i (by omega)) (hx i (by omega))
    have hB : 0 ≤ ρ ^ i * B := le_trans (abs_nonneg _) (hx i (by omega))
    show |Arith.sub (subFold (fun q => Arith.mul (l q) (x q)) b 0 i) (Arith.mul (l (0 + i)) (x (0 + i)))| ≤ _
    rw [Nat.zero_add]
    have h3 := rnd_le (u := u) (hR.sub_err (subFold (fun q => Arith.mul (l q) (x q)) b 0 i) (Arith.mul (l i) (x i)))
      (B := ρ ^ i * B + (1 + u) * ((1 + u) * (ρ ^ i * B))) (le_trans (abs_sub _ _) (add_le_add h1 h2))
    refine le_trans h3 ?_
    have h4 := mul_le_mul_of_nonneg_right hρ hB
    have h5 : (1 + u) * (ρ ^ i * B) ≤ (1 + u) ^ 3 * (ρ ^ i * B) := by
      refine mul_le_mul_of_nonneg_right ?_ hB
      calc 1 + u = (1 + u) ^ 1 := (pow_one _).symm
        _ ≤ (1 + u) ^ 3 := pow_le_pow_right₀ (by linarith) (by omega)
    have e : (1 + u) * (ρ ^ i * B + (1 + u) * ((1 + u) * (ρ ^ i * B))) = (1 + u) * (ρ ^ i * B) + (1 + u) ^ 3 * (ρ ^ i * B) := by ring
    have e2 : ρ ^ (i + 1) * B = ρ * (ρ ^ i * B) := by ring
    rw [e, e2]
    linarith

/-- one block of the right-looking algorithm: panel factorization, triangular solve, update -/
theorem LUNear.blockStep {t m n : Nat} (ht : 0 < t) (htm : t ≤ m) (htn : t ≤ n) {α s x : Nat → Nat → V} (h : LUNear (bu u) (2 * t) m n t α s)
    (hx : ∀ i j, i < t → j < n - t → |α i (t + j) - ∑ q ∈ range t, tri .lower true s i q * x q j| ≤
        ((1 / (1 - u)) ^ t - 1) * ∑ q ∈ range t, |tri .lower true s i q| * |x q j|) :
    LUNear (bu u) (2 * t) m n t α (fun i j => if j < t then s i j else if i < t then x i (j - t) else
      gemmEntry (Arith.neg Arith.one) Arith.one (fun q => s i q) (fun q => x q (j - t)) (α i j) t) := by
  generalize hs' : (fun i j => if j < t then s i j else if i < t then x i (j - t) else
      gemmEntry (Arith.neg Arith.one) Arith.one (fun q => s i q) (fun q => x q (j - t)) (α i j) t) = s'
  have e1 : ∀ i j, j < t → s' i j = s i j := fun i j hj => by rw [← hs']; beta_reduce; rw [if_pos hj]
  have e2 : ∀ i j, ¬ j < t → i < t → s' i j = x i (j - t) := fun i j hj hi => by rw [← hs']; beta_reduce; rw [if_neg hj, if_pos hi]
  have hL : ∀ i q, q < t → tri .lower true s' i q = tri .lower true s i q := fun i q hq => by
    rw [tri_eq_lower, tri_eq_lower, e1 i q hq]
  refine ⟨fun i j hi hj => ?_, fun q hq => by rw [e1 q q hq]; exact h.nz q hq⟩
  by_cases hjt : j < t
  · have := h.near i j hi hj
    have hc : ¬ (t ≤ i ∧ t ≤ j) := by omega
    rw [if_neg hc, if_neg hc] at this ⊢
    have es : ∀ q ∈ range t, tri .lower true s' i q * tri .upper false s' q j = tri .lower true s i q * tri .upper false s q j :=
      fun q hq => by rw [hL i q (mem_range.1 hq), tri_eq_upper, tri_eq_upper, e1 q j hjt]
    refine this.eqs ?_ ?_
    · rw [sum_congr rfl (fun q hq => by rw [es q hq])]
    · rw [sum_congr rfl es]
  · have es : ∀ q ∈ range t, tri .lower true s' i q * tri .upper false s' q j = tri .lower true s i q * x q (j - t) := fun q hq => by
      have hq := mem_range.1 hq
      rw [hL i q hq, tri_eq_upper, if_pos (by omega), e2 q j hjt hq]
    rw [sum_congr rfl es, sum_congr (s₁ := range t) rfl (fun q hq => by rw [es q hq])]
    by_cases hit : i < t
    · have hc : ¬ (t ≤ i ∧ t ≤ j) := by omega
      rw [if_neg hc, if_neg hc, add_zero, add_zero]
      have := hx i (j - t) hit (by omega)
      rw [show t + (j - t) = j by omega, ← pow_bu'] at this
      refine Near.mono (n := t) buN ⟨abs_sum_le_sum_abs _ _, ?_⟩ (by omega)
      simpa only [abs_mul] using this
    · have hc : t ≤ i ∧ t ≤ j := by omega
      rw [if_pos hc, if_pos hc]
      have n1 := (near_gemmNeg (u := u) (fun q => s i q) (fun q => x q (j - t)) (α i j) t).mono buN (show t + 1 ≤ 2 * t by omega)
      have el : ∀ q ∈ range t, tri .lower true s i q * x q (j - t) = s i q * x q (j - t) := fun q hq => by
        have hq := mem_range.1 hq
        rw [tri_eq_lower, if_neg (by omega), if_pos (by omega)]
      have e3 : s' i j = gemmEntry (Arith.neg Arith.one) Arith.one (fun q => s i q) (fun q => x q (j - t)) (α i j) t := by
        rw [← hs']; beta_reduce; rw [if_neg hjt, if_neg hit]
      rw [e3, sum_congr rfl el, sum_congr (s₁ := range t) rfl (fun q hq => by rw [el q hq])]
      exact n1.eqs (add_comm _ _) (add_comm _ _)

end

section
variable [Arith V] {u : V} [hR : Rounded u]

include hR in
/-- growth of the elements in one block of the right-looking algorithm -/
theorem blockStep_le {t m n : Nat} (ht : 0 < t) {α s x : Nat → Nat → V} {ρ B : V} (hρ : 2 * (1 + u) ^ (t + 3) ≤ ρ)
    (hα : ∀ i j, i < m → j < n → |α i j| ≤ B) (htm : t ≤ m)
    (hm : ∀ i q, q < t → q < i → i < m → |s i q| ≤ 1 + u)
    (hs : ∀ i j, i < m → j < n → (i ≤ j ∨ t ≤ j) → |s i j| ≤ ρ ^ t * B)
    (hx : ∀ i j, i < t → j < n - t → x i j = subFold (fun q => Arith.mul (s i q) (x q j)) (α i (t + j)) 0 i) :
    ∀ i j, i < m → j < n → (i ≤ j ∨ t ≤ j) →
      |(fun i j => if j < t then s i j else if i < t then x i (j - t) else
        gemmEntry (Arith.neg Arith.one) Arith.one (fun q => s i q) (fun q => x q (j - t)) (α i j) t) i j| ≤ ρ ^ t * B := by
  intro i j hi hj hij
  have hu := hR.u_nonneg
  have hρ3 : 2 * (1 + u) ^ 3 ≤ ρ := by
    have : (1 + u) ^ 3 ≤ (1 + u) ^ (t + 3) := pow_le_pow_right₀ (by linarith) (by omega)
    linarith
  have hρ1 : 1 ≤ ρ := by
    have : (1 : V) ≤ (1 + u) ^ 3 := one_le_pow₀ (by linarith)
    linarith
  have hB : 0 ≤ B := le_trans (abs_nonneg _) (hα i j hi hj)
  have hxb : ∀ k j, k < t → j < n - t → |x k j| ≤ ρ ^ k * B := by
    intro k
    induction k using Nat.strong_induction_on with
    | _ k ih =>
      intro j hk hj
      rw [hx k j hk hj]
      exact subFold_le (u := u) hρ3 (hα k _ (by omega) (by omega)) k (fun q hq => hm k q (by omega) hq (by omega)) (fun q hq => ih q hq j (by omega) hj)
  beta_reduce
  by_cases hjt : j < t
  · rw [if_pos hjt]; exact hs i j hi hj hij
  · rw [if_neg hjt]
    by_cases hit : i < t
    · rw [if_pos hit]
      refine le_trans (hxb i (j - t) hit (by omega)) (mul_le_mul_of_nonneg_right (pow_le_pow_right₀ hρ1 (by omega)) hB)
    · rw [if_neg hit]
      exact gemmNeg_le (u := u) ht hρ (hα i j hi hj) (fun q hq => hm i q hq (by omega) hi) (fun q hq => hxb q (j - t) hq (by omega))

/-- the elements computed by trsm with a unit lower triangular matrix -/
theorem trsm_lower_unit_values {SS m n : Nat} {A X B : MPtr} {mem mem' : Mem V} {a b x : Nat → Nat → V}
    (hA : TriArg SS mem A m .lower true a X m n)
    (hX : Readable SS mem X m n) (hinj : Inj SS X m n) (hB : Holds SS mem B m n b)
    (hBX : SameOrDisj SS B X m n) (hrun : trsmPtr SS m n .lower true A B X mem = .ok () mem') (hx : Holds SS mem' X m n x) :
    ∀ i j, i < m → j < n → x i j = subFold (fun q => Arith.mul (a i q) (x q j)) (b i j) 0 i := by
  obtain ⟨m', e1, e2, e3⟩ := runs_solve (no := n) (ni := m) (solveDown .lower)
    (addrX := fun o i => X.addr SS (i : Nat) (o : Nat)) (addrB := fun o i => B.addr SS (i : Nat) (o : Nat))
    (addrA := fun i k => A.addr SS (i : Nat) (k : Nat)) Arith.mul id true (solveLo .lower) (solveHi .lower m)
    (by
      intro i k hi h1 h2
      change k < i at h2; exact ⟨by omega, by simpa [innerLt, solveDown] using h2⟩) (m := mem)
    (by intro o i o' i' h1 h2 h3 h4 he; have := hinj _ _ _ _ h2 h1 h4 h3 he; exact ⟨this.2, this.1⟩)
    (by intro o i ho hi; exact hX i o hi ho)
    (by intro o i ho hi; rw [hB i o hi ho]; rfl)
    (by intro o i o' i' h1 h2 h3 h4 he; have := hBX _ _ _ _ h2 h1 h4 h3 he; exact ⟨this.2, this.1⟩)
    (by
      intro i k hi hk
      have hki : k < i := by
        rcases hk with ⟨_, hk⟩ | ⟨h1, _⟩
        · exact hk
        · cases h1
      have := hA i k hi (by omega) (Or.inr (Or.inl ⟨rfl, hki⟩))
      exact ⟨by rw [this.1]; rfl, fun o' i' h1 h2 he => this.2 ⟨i', o', h2, h1, he⟩⟩)
  have hm : mem' = m' := by
    have e1' : trsmPtr SS m n .lower true A B X mem = .ok () m' := e1
    rw [hrun] at e1'
    injection e1'
  subst hm
  intro i j hi hj
  have h := e3 j i hj hi
  beta_reduce at h
  rw [hx i j hi hj] at h
  have h' := Option.some.inj h
  rw [h']
  simp only [if_true, id]
  rw [hB.val hi hj]
  show subFold _ _ 0 (i - 0) = _
  rw [Nat.sub_zero]
  refine subFold_congr _ (fun k _ hk2 => ?_)
  rw [hx.val (by omega) hj, val_some (hA i k hi (by omega) (Or.inr (Or.inl ⟨rfl, by omega⟩))).1]

end

theorem rowPerm_add (P : Nat → Nat) (k t i : Nat) : rowPerm P 0 (k + t) i = rowPerm P 0 k (rowPerm P k t i) := by
  induction t generalizing i with
  | zero => rfl
  | succ t ih =>
    show rowPerm P 0 (k + t) (swapIdx (0 + (k + t)) (P (0 + (k + t))) i) = _
    rw [Nat.zero_add, ih]; rfl

section
variable [Arith V] {u : V} [hR : Rounded u]

/-- state of the blocked algorithm after `k` columns -/
structure LuState (u c ρ μ : V) (M N k : Nat) (a0 : Nat → Nat → V) (ip : Nat → Nat) (a : Nat → Nat → V) (P : Nat → Nat) : Prop where
  near : LUNear (bu u) (2 * k) M N k (rowSwaps P 0 k a0) a
  piv : ∀ q, q < k → q ≤ P q ∧ P q < M
  rest : ∀ q, k ≤ q → P q = ip q
  mult : ∀ i q, q < k → q < i → i < M → |a i q| ≤ c
  grow : ∀ i j, i < M → j < N → (i ≤ j ∨ k ≤ j) → |a i j| ≤ ρ ^ k * μ

/-- extension of the state by a factorization of the trailing block -/
theorem LuState.extend {c ρ μ : V} (hρ : 1 ≤ ρ) {M N k t : Nat} {a0 a : Nat → Nat → V} {ip P : Nat → Nat} (h : LuState u c ρ μ M N k a0 ip a P) (hk : k + t ≤ M) (hkn : k + t ≤ N)
    {p : Nat → Nat} {s : Nat → Nat → V}
    (hs : LUNear (bu u) (2 * t) (M - k) (N - k) t (rowSwaps p 0 t (fun i j => a (k + i) (k + j))) s)
    (hpb : ∀ q, q < t → q ≤ p q ∧ p q < M - k) (hpr : ∀ q, t ≤ q → p q = P (k + q))
    (hm : ∀ i q, q < t → q < i → i < M - k → |s i q| ≤ c)
    (hg : ∀ B, (∀ i j, i < M - k → j < N - k → |a (k + i) (k + j)| ≤ B) →
      ∀ i j, i < M - k → j < N - k → (i ≤ j ∨ t ≤ j) → |s i j| ≤ ρ ^ t * B) :
    LuState u c ρ μ M N (k + t) a0 ip (fun i j => if i < k then a i j else if j < k then a (k + rowPerm p 0 t (i - k)) j else s (i - k) (j - k))
      (addRange (mergeAt P k p) k (k + t)) := by
  generalize hP' : addRange (mergeAt P k p) k (k + t) = P'
  have hP'q : ∀ q, q < t → P' (k + q) = p q + k := by
    intro q hq
    rw [← hP']; unfold addRange mergeAt
    rw [if_pos (by omega), if_neg (by omega), show k + q - k = q by omega]
  have hP'l : ∀ q, q < k → P' q = P q := by
    intro q hq
    rw [← hP']; unfold addRange mergeAt
    rw [if_neg (by omega), if_pos hq]
  have hperm : ∀ i, rowPerm P' k t (k + i) = k + rowPerm p 0 t i := fun i => rowPerm_shift hP'q
  have hpermlt : ∀ i, i < k → rowPerm P' k t i = i := fun i hi => rowPerm_lt (fun q h1 h2 => by
    have := hP'q (q - k) (by omega)
    rw [show k + (q - k) = q by omega] at this
    omega) hi
  have hpermb : ∀ i, i < M - k → rowPerm p 0 t i < M - k := fun i hi =>
    (rowPerm_bounds (fun q _ hq => ⟨by omega, (hpb q (by omega)).2⟩) (by omega) ⟨by omega, hi⟩).2
  have hσ : ∀ i, k ≤ i → i < M → k ≤ rowPerm P' k t i ∧ rowPerm P' k t i < M := by
    intro i h1 h2
    obtain ⟨i', rfl⟩ : ∃ i', i = k + i' := ⟨i - k, by omega⟩
    rw [hperm]
    have := hpermb i' (by omega)
    omega
  have h1 := h.near.perm (σ := rowPerm P' k t) hpermlt hσ (by omega)
  have e0 : (fun i j => a (rowPerm P' k t (k + i)) (k + j)) = rowSwaps p 0 t (fun i j => a (k + i) (k + j)) := by
    funext i j; rw [rowSwaps_eq, hperm]
  have h2 := h1.block buN (t := t) (w' := 2 * t) (s := s) (by beta_reduce; rw [e0]; exact hs)
  refine ⟨?_, ?_, ?_, ?_, ?_⟩
  · rw [show 2 * (k + t) = 2 * t + 2 * k by omega]
    refine h2.congr hk hkn (fun i j hi hj => ?_) (fun i j hi hj => ?_)
    · rw [rowSwaps_eq, rowPerm_add, rowSwaps_eq, rowPerm_congr (p' := P) (fun q _ hq => hP'l q (by omega))]
    · by_cases hik : i < k
      · rw [if_pos hik, if_pos (Or.inl hik), hpermlt i hik]
      · rw [if_neg hik]
        by_cases hjk : j < k
        · rw [if_pos hjk, if_pos (Or.inr hjk), ← hperm, show k + (i - k) = i by omega]
        · rw [if_neg hjk, if_neg (by omega)]
  · intro q hq
    by_cases hqk : q < k
    · rw [hP'l q hqk]; exact h.piv q hqk
    · have := hP'q (q - k) (by omega)
      rw [show k + (q - k) = q by omega] at this
      have := hpb (q - k) (by omega)
      omega
  · intro q hq
    rw [← hP']; unfold addRange mergeAt
    rw [if_neg (by omega), if_neg (by omega), hpr (q - k) (by omega), show k + (q - k) = q by omega]
    exact h.rest q (by omega)
  · intro i q hq hqi hi
    beta_reduce
    by_cases hik : i < k
    · rw [if_pos hik]; exact h.mult i q (by omega) hqi hi
    · rw [if_neg hik]
      by_cases hqk : q < k
      · rw [if_pos hqk]
        have := hpermb (i - k) (by omega)
        exact h.mult _ q hqk (by omega) (by omega)
      · rw [if_neg hqk]
        exact hm _ _ (by omega) (by omega) (by omega)
  · intro i j hi hj hij
    beta_reduce
    have hmono : ∀ y, |y| ≤ ρ ^ k * μ → |y| ≤ ρ ^ (k + t) * μ := by
      intro y hy
      have h0 : 0 ≤ ρ ^ k * μ := le_trans (abs_nonneg _) hy
      rw [pow_add, mul_right_comm]
      exact le_trans hy (le_mul_of_one_le_right h0 (one_le_pow₀ hρ))
    by_cases hik : i < k
    · rw [if_pos hik]; exact hmono _ (h.grow i j hi hj (by omega))
    · rw [if_neg hik, if_neg (show ¬ j < k by omega)]
      have := hg (ρ ^ k * μ) (fun i j hi hj => h.grow _ _ (by omega) (by omega) (Or.inr (by omega))) (i - k) (j - k) (by omega) (by omega) (by omega)
      rwa [pow_add, mul_comm (ρ ^ k), mul_assoc]

include hR in
theorem luStep_none' {dv : V → V → V} {upd : V → V → V → V} {m k : Nat} {a : Nat → Nat → V} {p : Nat → Nat}
    (h : luStep dv upd m k a p = none) : ∀ i, k ≤ i → i < m → a i k = 0 := by
  intro i h1 h2
  unfold luStep at h
  simp only at h
  by_cases hz : Arith.eq (swapRows k (pivotRow m a k) a k k) Arith.zero = true
  · have hz' := (hR.eq_iff _ _).1 hz
    rw [hR.zero_eq, swapRows_eq] at hz'
    unfold swapIdx at hz'
    rw [if_pos rfl] at hz'
    have := pivot_max' (u := u) a h1 h2
    rw [hz', abs_zero] at this
    exact abs_eq_zero.1 (le_antisymm this (abs_nonneg _))
  · rw [if_neg hz] at h; simp at h

/-- nothing was done yet -/
theorem LuState.init (u c ρ : V) {μ : V} {M N : Nat} {a0 : Nat → Nat → V} (hμ : ∀ i j, i < M → j < N → |a0 i j| ≤ μ) (ip : Nat → Nat) :
    LuState u c ρ μ M N 0 a0 ip a0 ip :=
  ⟨LUNear.zero _ M N a0, fun q hq => by omega, fun q _ => rfl, fun i q hq => by omega,
    fun i j hi hj _ => by rw [pow_zero, one_mul]; exact hμ i j hi hj⟩

/-- a state in which no pivot can be found -/
def LuStuck (u c ρ μ : V) (M N : Nat) (a0 : Nat → Nat → V) (ip : Nat → Nat) : Prop :=
  ∃ K a P, K < min M N ∧ LuState u c ρ μ M N K a0 ip a P ∧ ∀ i, K ≤ i → i < M → a i K = 0

/-- the state when the unblocked algorithm fails in the trailing block -/
theorem LuState.stuck {c ρ μ : V} (hρ : 1 ≤ ρ) {dv : V → V → V} {upd : V → V → V → V} (ho : NearOps (bu u) c ρ 2 dv upd) {M N k K : Nat}
    {a0 a : Nat → Nat → V} {ip P : Nat → Nat} (h : LuState u c ρ μ M N k a0 ip a P) (hK : k + K < min M N)
    {s : Nat → Nat → V} {p : Nat → Nat}
    (h1 : luRun dv upd (M - k) (fun i j => a (k + i) (k + j)) (fun i => P (k + i)) K = some (s, p))
    (h2 : luStep dv upd (M - k) K s p = none) : LuStuck u c ρ μ M N a0 ip := by
  obtain ⟨e1, e2, e3, e4, e5⟩ := luRun_near (u := u) (n := N - k) ho hρ K (by omega) h1
  have hz := luStep_none' (u := u) h2
  refine ⟨k + K, _, _, hK, h.extend hρ (by omega) (by omega) e1 e2 e3 e4 e5, fun i hi hi2 => ?_⟩
  beta_reduce
  rw [if_neg (show ¬ i < k by omega), if_neg (show ¬ k + K < k by omega), show k + K - k = K by omega]
  exact hz _ (by omega) (by omega)

end

end Blast
