import Verif.Lu
import Verif.Props.TrsmDense
/-
Mathematics of LU factorization with partial pivoting: what the sequence of elimination steps `luRun` computes.
-/
set_option linter.unusedSectionVars false
namespace Blast
open Finset Prog
variable {V : Type}

/-! ### Row interchanges -/

/-- index of the row that ends up in row `i` when rows `p` and `q` are exchanged -/
def swapIdx (p q i : Nat) : Nat := if i = p then q else if i = q then p else i

/-- The matrix `a` after the row interchanges `k ↔ ipiv[k]` for `k = k0, …, k0+t-1`, in this order. -/
def rowSwaps (ipiv : Nat → Nat) (k0 : Nat) : Nat → (Nat → Nat → V) → (Nat → Nat → V)
  | 0, a => a
  | t + 1, a => fun i j => rowSwaps ipiv k0 t a (swapIdx (k0 + t) (ipiv (k0 + t)) i) j

/-- index of the row of `a` that is row `i` of `rowSwaps ipiv k0 t a` -/
def rowPerm (ipiv : Nat → Nat) (k0 : Nat) : Nat → Nat → Nat
  | 0, i => i
  | t + 1, i => rowPerm ipiv k0 t (swapIdx (k0 + t) (ipiv (k0 + t)) i)

theorem rowSwaps_eq (ipiv : Nat → Nat) (k0 t : Nat) (a : Nat → Nat → V) (i j : Nat) :
    rowSwaps ipiv k0 t a i j = a (rowPerm ipiv k0 t i) j := by
  induction t generalizing i with
  | zero => rfl
  | succ t ih => exact ih _

theorem rowSwaps_congr {p p' : Nat → Nat} {k0 t : Nat} (h : ∀ q, k0 ≤ q → q < k0 + t → p q = p' q) (a : Nat → Nat → V) :
    rowSwaps p k0 t a = rowSwaps p' k0 t a := by
  induction t with
  | zero => rfl
  | succ t ih =>
    funext i j
    show rowSwaps p k0 t a _ j = rowSwaps p' k0 t a _ j
    rw [ih (fun q h1 h2 => h q h1 (by omega)), h (k0 + t) (by omega) (by omega)]

theorem rowPerm_congr {p p' : Nat → Nat} {k0 t : Nat} (h : ∀ q, k0 ≤ q → q < k0 + t → p q = p' q) (i : Nat) :
    rowPerm p k0 t i = rowPerm p' k0 t i := by
  induction t generalizing i with
  | zero => rfl
  | succ t ih =>
    show rowPerm p k0 t _ = rowPerm p' k0 t _
    rw [ih (fun q h1 h2 => h q h1 (by omega)), h (k0 + t) (by omega) (by omega)]

theorem swapIdx_bounds {p q k m i : Nat} (hp : k ≤ p ∧ p < m) (hq : k ≤ q ∧ q < m) (hi : k ≤ i ∧ i < m) :
    k ≤ swapIdx p q i ∧ swapIdx p q i < m := by
  unfold swapIdx; split
  · exact hq
  · split
    · exact hp
    · exact hi

theorem swapIdx_lt {p q k i : Nat} (hp : k ≤ p) (hq : k ≤ q) (hi : i < k) : swapIdx p q i = i := by
  unfold swapIdx; rw [if_neg (by omega), if_neg (by omega)]

theorem swapIdx_invol (p q i : Nat) : swapIdx p q (swapIdx p q i) = i := by
  unfold swapIdx
  by_cases h1 : i = p
  · subst h1
    by_cases h2 : q = i
    · simp [h2]
    · simp [h2]
  · by_cases h2 : i = q
    · subst h2; simp [h1]
    · simp [h1, h2]

theorem rowPerm_bounds {p : Nat → Nat} {k0 t m i : Nat} (hp : ∀ q, k0 ≤ q → q < k0 + t → k0 ≤ p q ∧ p q < m)
    (hm : k0 + t ≤ m) (hi : k0 ≤ i ∧ i < m) : k0 ≤ rowPerm p k0 t i ∧ rowPerm p k0 t i < m := by
  induction t generalizing i with
  | zero => exact hi
  | succ t ih =>
    refine ih (fun q h1 h2 => hp q h1 (by omega)) (by omega) ?_
    exact swapIdx_bounds ⟨by omega, by omega⟩ (hp _ (by omega) (by omega)) hi

theorem rowPerm_lt {p : Nat → Nat} {k0 t i : Nat} (hp : ∀ q, k0 ≤ q → q < k0 + t → k0 ≤ p q) (hi : i < k0) :
    rowPerm p k0 t i = i := by
  induction t with
  | zero => rfl
  | succ t ih =>
    show rowPerm p k0 t (swapIdx _ _ i) = i
    rw [swapIdx_lt (k := k0) (by omega) (hp _ (by omega) (by omega)) hi]
    exact ih (fun q h1 h2 => hp q h1 (by omega))

/-- interchanges of a trailing block, seen in the whole matrix -/
theorem rowPerm_shift {P p : Nat → Nat} {k t i : Nat} (h : ∀ q, q < t → P (k + q) = p q + k) :
    rowPerm P k t (k + i) = k + rowPerm p 0 t i := by
  induction t generalizing i with
  | zero => rfl
  | succ t ih =>
    show rowPerm P k t (swapIdx (k + t) (P (k + t)) (k + i)) = k + rowPerm p 0 t (swapIdx (0 + t) (p (0 + t)) i)
    rw [← ih (fun q hq => h q (by omega)), h t (by omega)]
    congr 1
    unfold swapIdx
    rw [Nat.zero_add]
    by_cases h1 : i = t
    · subst h1; simp; omega
    · rw [if_neg (by omega), if_neg h1]
      by_cases h2 : i = p t
      · rw [if_pos (by omega), if_pos h2]
      · rw [if_neg (by omega), if_neg h2]

theorem swapRows_eq (p q : Nat) (a : Nat → Nat → V) (i j : Nat) : swapRows p q a i j = a (swapIdx p q i) j := rfl

/-! ### The trailing block evolves by itself -/

section
variable [Arith V]

/-- the whole matrix when the trailing block (rows and columns from `k`) of `a` has become `s` by `t` steps with
pivots `p` -/
def embed (k t : Nat) (a s : Nat → Nat → V) (p : Nat → Nat) : Nat → Nat → V := fun i j =>
  if i < k then a i j else if j < k then a (k + rowPerm p 0 t (i - k)) j else s (i - k) (j - k)

theorem luRun_shift {dv : V → V → V} {upd : V → V → V → V} {m k : Nat} {a0 a : Nat → Nat → V} {ip P : Nat → Nat}
    (h : luRun dv upd m a0 ip k = some (a, P)) (t : Nat) :
    luRun dv upd m a0 ip (k + t) =
      (luRun dv upd (m - k) (fun i j => a (k + i) (k + j)) (fun i => P (k + i)) t).map
        (fun r => (embed k t a r.1 r.2, addRange (mergeAt P k r.2) k (k + t))) := by
  induction t with
  | zero =>
    rw [Nat.add_zero, h]
    simp only [luRun, Option.map_some, Option.some.injEq, Prod.mk.injEq]
    constructor
    · funext i j
      unfold embed
      by_cases h1 : i < k
      · rw [if_pos h1]
      · rw [if_neg h1]
        by_cases h2 : j < k
        · rw [if_pos h2]; show a i j = a (k + (i - k)) j; rw [show k + (i - k) = i by omega]
        · rw [if_neg h2]; beta_reduce; rw [show k + (i - k) = i by omega, show k + (j - k) = j by omega]
    · funext i
      unfold addRange mergeAt
      rw [if_neg (by omega)]
      by_cases h1 : i < k
      · rw [if_pos h1]
      · rw [if_neg h1]; beta_reduce; rw [show k + (i - k) = i by omega]
  | succ t ih =>
    rw [← Nat.add_assoc]
    show (luRun dv upd m a0 ip (k + t)).bind _ = ((luRun dv upd (m - k) _ _ t).bind _).map _
    rw [ih]
    cases hr : luRun dv upd (m - k) (fun i j => a (k + i) (k + j)) (fun i => P (k + i)) t with
    | none => rfl
    | some r =>
      obtain ⟨s, p⟩ := r
      simp only [Option.map_some, Option.bind_some]
      have hpv : pivotRow m (embed k t a s p) (k + t) = k + pivotRow (m - k) s t := by
        unfold pivotRow
        have : (fun i => embed k t a s p (k + t + i) (k + t)) = (fun i => s (t + i) t) := by
          funext i
          unfold embed
          rw [if_neg (by omega), if_neg (by omega), show k + t + i - k = t + i by omega, show k + t - k = t by omega]
        rw [this, show m - (k + t) - 1 = m - k - t - 1 by omega]
        omega
      unfold luStep
      simp only [hpv]
      have hsw : swapRows (k + t) (k + pivotRow (m - k) s t) (embed k t a s p) (k + t) (k + t) =
          swapRows t (pivotRow (m - k) s t) s t t := by
        rw [swapRows_eq, swapRows_eq]
        unfold swapIdx embed
        rw [if_pos rfl, if_pos rfl, if_neg (by omega), if_neg (by omega),
          show k + pivotRow (m - k) s t - k = pivotRow (m - k) s t by omega, show k + t - k = t by omega]
      rw [hsw]
      by_cases hz : Arith.eq (swapRows t (pivotRow (m - k) s t) s t t) Arith.zero = true
      · rw [if_pos hz, if_pos hz]; rfl
      · rw [if_neg hz, if_neg hz]
        simp only [Option.map_some, Option.some.injEq, Prod.mk.injEq]
        generalize hq : pivotRow (m - k) s t = q
        have hswap : ∀ i j : Nat, swapRows (k + t) (k + q) (embed k t a s p) i j =
            if i < k then a i j else if j < k then a (k + rowPerm p 0 t (swapIdx t q (i - k))) j
              else swapRows t q s (i - k) (j - k) := by
          intro i j
          rw [swapRows_eq, swapRows_eq]
          have hx : ¬ i < k → swapIdx (k + t) (k + q) i = k + swapIdx t q (i - k) := by
            intro hi
            unfold swapIdx
            split_ifs <;> omega
          by_cases h1 : i < k
          · rw [if_pos h1, swapIdx_lt (k := k) (by omega) (by omega) h1]
            unfold embed; rw [if_pos h1]
          · rw [if_neg h1, hx h1]
            unfold embed
            rw [if_neg (by omega), show k + swapIdx t q (i - k) - k = swapIdx t q (i - k) by omega]
        constructor
        · funext i j
          unfold elim
          simp only [hswap]
          rw [if_neg (show ¬ k + t < k by omega), if_neg (show ¬ k + t < k by omega)]
          unfold embed
          by_cases h1 : i < k
          · rw [if_neg (by omega)]
            rw [if_pos h1, if_pos h1]
          · rw [if_neg h1, if_neg h1, if_neg h1]
            have hperm : rowPerm (setAt p t q) 0 (t + 1) (i - k) = rowPerm p 0 t (swapIdx t q (i - k)) := by
              show rowPerm (setAt p t q) 0 t (swapIdx (0 + t) (setAt p t q (0 + t)) (i - k)) = _
              rw [Nat.zero_add, show setAt p t q t = q by unfold setAt; rw [if_pos rfl]]
              exact rowPerm_congr (fun q' _ h2 => by unfold setAt; rw [if_neg (by omega)]) _
            rw [hperm]
            by_cases h2 : j < k
            · rw [if_neg (show ¬ j = k + t by omega), if_neg (show ¬ k + t < j by omega), if_pos h2, if_pos h2]
              simp
            · rw [if_neg h2, if_neg h2, if_neg h2, if_neg (show ¬ k + t < k by omega), if_neg (show ¬ k + t < k by omega),
                show k + t - k = t by omega]
              beta_reduce
              by_cases e1 : k + t < i
              · rw [if_pos e1, if_pos (show t < i - k by omega)]
                by_cases e2 : j = k + t
                · rw [if_pos e2, if_pos (show j - k = t by omega)]
                · rw [if_neg e2, if_neg (show ¬ j - k = t by omega)]
                  by_cases e3 : k + t < j
                  · rw [if_pos e3, if_pos (show t < j - k by omega)]
                  · rw [if_neg e3, if_neg (show ¬ t < j - k by omega)]
              · rw [if_neg e1, if_neg (show ¬ t < i - k by omega)]
        · funext i
          unfold setAt addRange mergeAt
          beta_reduce
          split_ifs <;> omega

end

/-! ### Exact arithmetic -/

/-- `b` is factorized as far as step `k`: unit lower triangular times upper triangular plus what is left to eliminate -/
structure LUInv [Field V] (m k : Nat) (b a : Nat → Nat → V) : Prop where
  eq : ∀ i j, i < m → b i j =
    ∑ q ∈ range k, tri .lower true a i q * tri .upper false a q j + (if k ≤ i ∧ k ≤ j then a i j else 0)
  nz : ∀ q, q < k → a q q ≠ 0

/-- operations of an elimination step in exact arithmetic -/
structure ExactOps [Field V] (dv : V → V → V) (upd : V → V → V → V) : Prop where
  dv_eq : ∀ x y, y ≠ 0 → dv x y = x / y
  upd_eq : ∀ l u a, upd l u a = a - l * u

theorem LUInv.zero [Field V] (m : Nat) (a : Nat → Nat → V) : LUInv m 0 a a :=
  ⟨fun i j _ => by simp, fun q hq => by omega⟩

theorem tri_eq_lower [Zero V] [One V] (a : Nat → Nat → V) (i q : Nat) :
    tri .lower true a i q = if i = q then 1 else if q < i then a i q else 0 := by
  unfold tri; simp

theorem tri_eq_upper [Zero V] [One V] (a : Nat → Nat → V) (q j : Nat) :
    tri .upper false a q j = if q ≤ j then a q j else 0 := by
  rcases lt_trichotomy q j with h | h | h
  · rw [tri_upper h, if_pos (by omega)]
  · subst h; rw [tri_diag]; simp
  · rw [tri_upper_zero h, if_neg (by omega)]

theorem LUInv.swap [Field V] {m k p : Nat} {b a : Nat → Nat → V} (h : LUInv m k b a) (hk : k < m)
    (hp : k ≤ p ∧ p < m) : LUInv m k (swapRows k p b) (swapRows k p a) := by
  constructor
  · intro i j hi
    rw [swapRows_eq]
    by_cases hik : i < k
    · rw [swapIdx_lt (Nat.le_refl k) hp.1 hik, h.eq i j hi]
      congr 1
      · refine sum_congr rfl (fun q hq => ?_)
        have hq := mem_range.1 hq
        rw [tri_eq_lower, tri_eq_lower, tri_eq_upper, tri_eq_upper, swapRows_eq, swapRows_eq,
          swapIdx_lt (Nat.le_refl k) hp.1 hik, swapIdx_lt (Nat.le_refl k) hp.1 hq]
      · rw [if_neg (by omega), if_neg (by omega)]
    · have hb := swapIdx_bounds (i := i) ⟨Nat.le_refl k, hk⟩ hp ⟨by omega, hi⟩
      rw [h.eq _ j hb.2]
      congr 1
      · refine sum_congr rfl (fun q hq => ?_)
        have hq := mem_range.1 hq
        rw [tri_eq_lower, tri_eq_lower, tri_eq_upper, tri_eq_upper, swapRows_eq, swapRows_eq,
          swapIdx_lt (Nat.le_refl k) hp.1 hq, if_neg (show ¬ swapIdx k p i = q by omega), if_neg (show ¬ i = q by omega),
          if_pos (show q < swapIdx k p i by omega), if_pos (show q < i by omega)]
      · by_cases hj : k ≤ j
        · rw [if_pos ⟨hb.1, hj⟩, if_pos ⟨by omega, hj⟩, swapRows_eq]
        · rw [if_neg (by omega), if_neg (by omega)]
  · intro q hq
    rw [swapRows_eq, swapIdx_lt (Nat.le_refl k) hp.1 hq]
    exact h.nz q hq

theorem LUInv.elim [Field V] {dv : V → V → V} {upd : V → V → V → V} (ho : ExactOps dv upd) {m k : Nat}
    {b a : Nat → Nat → V} (h : LUInv m k b a) (hz : a k k ≠ 0) : LUInv m (k + 1) b (Blast.elim dv upd k a) := by
  have e1 : ∀ i j, ¬ k < i → Blast.elim dv upd k a i j = a i j := fun i j hi => by unfold Blast.elim; rw [if_neg hi]
  have e2 : ∀ i j, j < k → Blast.elim dv upd k a i j = a i j := fun i j hj => by
    unfold Blast.elim
    rw [if_neg (show ¬ j = k by omega), if_neg (show ¬ k < j by omega), ite_self]
  have e3 : ∀ i, k < i → Blast.elim dv upd k a i k = a i k / a k k := fun i hi => by
    unfold Blast.elim; rw [if_pos hi, if_pos rfl, ho.dv_eq _ _ hz]
  have e4 : ∀ i j, k < i → k < j → Blast.elim dv upd k a i j = a i j - a i k / a k k * a k j := fun i j hi hj => by
    unfold Blast.elim; rw [if_pos hi, if_neg (by omega), if_pos hj, ho.upd_eq, ho.dv_eq _ _ hz]
  constructor
  · intro i j hi
    rw [h.eq i j hi, sum_range_succ]
    have hs : ∑ q ∈ range k, tri .lower true (Blast.elim dv upd k a) i q * tri .upper false (Blast.elim dv upd k a) q j =
        ∑ q ∈ range k, tri .lower true a i q * tri .upper false a q j := by
      refine sum_congr rfl (fun q hq => ?_)
      have hq := mem_range.1 hq
      rw [tri_eq_lower, tri_eq_lower, tri_eq_upper, tri_eq_upper, e2 i q hq, e1 q j (by omega)]
    rw [hs, add_assoc]
    congr 1
    rw [tri_eq_lower, tri_eq_upper, e1 k j (by omega)]
    rcases lt_trichotomy i k with hik | rfl | hik
    · rw [if_neg (show ¬ (k ≤ i ∧ k ≤ j) by omega), if_neg (show ¬ i = k by omega), if_neg (show ¬ k < i by omega),
        if_neg (show ¬ (k + 1 ≤ i ∧ k + 1 ≤ j) by omega)]; simp
    · rw [if_pos rfl, if_neg (show ¬ (i + 1 ≤ i ∧ i + 1 ≤ j) by omega)]
      simp
    · rw [if_neg (show ¬ i = k by omega), if_pos hik, e3 i hik]
      rcases lt_trichotomy k j with hj | hj | hj
      · rw [if_pos (show k ≤ i ∧ k ≤ j by omega), if_pos (show k ≤ j by omega),
          if_pos (show k + 1 ≤ i ∧ k + 1 ≤ j by omega), e4 i j hik hj]
        ring
      · subst hj
        rw [if_pos (show k ≤ i ∧ k ≤ k by omega), if_pos (Nat.le_refl k), if_neg (show ¬ (k + 1 ≤ i ∧ k + 1 ≤ k) by omega),
          div_mul_cancel₀ _ hz, add_zero]
      · rw [if_neg (show ¬ (k ≤ i ∧ k ≤ j) by omega), if_neg (show ¬ k ≤ j by omega),
          if_neg (show ¬ (k + 1 ≤ i ∧ k + 1 ≤ j) by omega)]
        simp
  · intro q hq
    rw [e1 q q (by omega)]
    by_cases hqk : q = k
    · subst hqk; exact hz
    · exact h.nz q (by omega)

theorem iamaxF_max [Field V] [LinearOrder V] [IsStrictOrderedRing V] [Arith V] [ExactOrd V] (x : Nat → V) (t : Nat) :
    (iamaxF x t).1 = |x (iamaxF x t).2| ∧ (∀ j, j ≤ t → |x j| ≤ |x (iamaxF x t).2|) ∧
      (∀ j, j < (iamaxF x t).2 → |x j| < |x (iamaxF x t).2|) := by
  induction t with
  | zero =>
    refine ⟨ExactOrd.abs_eq _, fun j hj => ?_, fun j hj => ?_⟩
    · rw [show j = 0 by omega]; exact le_refl _
    · exact absurd hj (by show ¬ j < 0; omega)
  | succ t ih =>
    obtain ⟨h1, h2, h3⟩ := ih
    unfold iamaxF
    by_cases hg : Arith.gt (Arith.abs (x (t + 1))) (iamaxF x t).1 = true
    · rw [if_pos hg]
      have hg' := (ExactOrd.gt_iff _ _).1 hg
      rw [h1, ExactOrd.abs_eq] at hg'
      refine ⟨ExactOrd.abs_eq _, fun j hj => ?_, fun j hj => ?_⟩
      · by_cases hj2 : j = t + 1
        · subst hj2; exact le_refl _
        · exact le_trans (h2 j (by omega)) (le_of_lt hg')
      · exact lt_of_le_of_lt (h2 j (by have : j < t + 1 := hj; omega)) hg'
    · rw [if_neg hg]
      have hg' : ¬ (iamaxF x t).1 < Arith.abs (x (t + 1)) := fun h => hg ((ExactOrd.gt_iff _ _).2 h)
      rw [h1, ExactOrd.abs_eq] at hg'
      refine ⟨h1, fun j hj => ?_, h3⟩
      by_cases hj2 : j = t + 1
      · subst hj2; exact le_of_not_gt hg'
      · exact h2 j (by omega)

theorem pivot_max [Field V] [LinearOrder V] [IsStrictOrderedRing V] [Arith V] [ExactOrd V] {m k : Nat}
    (a : Nat → Nat → V) {i : Nat} (h1 : k ≤ i) (h2 : i < m) : |a i k| ≤ |a (pivotRow m a k) k| := by
  have := (iamaxF_max (fun i => a (k + i) k) (m - k - 1)).2.1 (i - k) (by omega)
  rw [show k + (i - k) = i by omega] at this
  unfold pivotRow
  rw [Nat.add_comm _ k]
  exact this

/-- Everything known about the state after `K` steps. -/
theorem luRun_spec [Field V] [LinearOrder V] [IsStrictOrderedRing V] [Arith V] [ExactOrd V] {dv : V → V → V}
    {upd : V → V → V → V} (ho : ExactOps dv upd) {m : Nat} {a0 : Nat → Nat → V} {ip : Nat → Nat} (K : Nat) (hK : K ≤ m)
    {a : Nat → Nat → V} {p : Nat → Nat} (h : luRun dv upd m a0 ip K = some (a, p)) :
    LUInv m K (rowSwaps p 0 K a0) a ∧ (∀ q, q < K → q ≤ p q ∧ p q < m) ∧ (∀ q, K ≤ q → p q = ip q) ∧
      (∀ i q, q < K → q < i → i < m → |a i q| ≤ 1) := by
  induction K generalizing a p with
  | zero =>
    simp only [luRun, Option.some.injEq, Prod.mk.injEq] at h
    obtain ⟨rfl, rfl⟩ := h
    exact ⟨LUInv.zero m a0, fun q hq => by omega, fun q _ => rfl, fun i q hq => by omega⟩
  | succ K ih =>
    unfold luRun at h
    cases hr : luRun dv upd m a0 ip K with
    | none => rw [hr] at h; simp at h
    | some r =>
      obtain ⟨a1, p1⟩ := r
      rw [hr] at h
      obtain ⟨i1, i2, i3, i4⟩ := ih (by omega) hr
      obtain ⟨b1, b2⟩ := pivotRow_lt a1 (show K < m by omega)
      simp only [Option.bind_some] at h
      unfold luStep at h
      simp only at h
      by_cases hz : Arith.eq (swapRows K (pivotRow m a1 K) a1 K K) Arith.zero = true
      · rw [if_pos hz] at h; simp at h
      · rw [if_neg hz] at h
        simp only [Option.some.injEq, Prod.mk.injEq] at h
        obtain ⟨rfl, rfl⟩ := h
        have hnz : swapRows K (pivotRow m a1 K) a1 K K ≠ 0 := fun e =>
          hz ((ExactRing.eq_iff _ _).2 (by rw [ExactRing.zero_eq]; exact e))
        have hpiv : swapRows K (pivotRow m a1 K) a1 K K = a1 (pivotRow m a1 K) K := by
          rw [swapRows_eq]; unfold swapIdx; rw [if_pos rfl]
        refine ⟨?_, ?_, ?_, ?_⟩
        · have := (i1.swap (p := pivotRow m a1 K) (by omega) ⟨b1, b2⟩).elim ho hnz
          have hb : rowSwaps (setAt p1 K (pivotRow m a1 K)) 0 (K + 1) a0 =
              swapRows K (pivotRow m a1 K) (rowSwaps p1 0 K a0) := by
            funext i j
            show rowSwaps (setAt p1 K (pivotRow m a1 K)) 0 K a0 (swapIdx (0 + K) (setAt p1 K (pivotRow m a1 K) (0 + K)) i) j = _
            rw [Nat.zero_add, rowSwaps_congr (p' := p1) (fun q _ hq => by unfold setAt; rw [if_neg (by omega)]), swapRows_eq]
            unfold setAt; rw [if_pos rfl]
          rw [hb]; exact this
        · intro q hq
          unfold setAt
          by_cases hqk : q = K
          · rw [if_pos hqk]; subst hqk; exact ⟨b1, b2⟩
          · rw [if_neg hqk]; exact i2 q (by omega)
        · intro q hq
          unfold setAt
          rw [if_neg (by omega)]; exact i3 q (by omega)
        · intro i q hq hqi him
          by_cases hqk : q = K
          · subst hqk
            unfold Blast.elim
            rw [if_pos hqi, if_pos rfl, ho.dv_eq _ _ hnz, abs_div]
            apply div_le_one_of_le₀ _ (abs_nonneg _)
            rw [hpiv, swapRows_eq]
            have hbd := swapIdx_bounds (p := q) (q := pivotRow m a1 q) (k := q) (m := m) (i := i)
              ⟨by omega, by omega⟩ ⟨b1, b2⟩ ⟨by omega, him⟩
            exact pivot_max a1 hbd.1 hbd.2
          · have : Blast.elim dv upd K (swapRows K (pivotRow m a1 K) a1) i q = swapRows K (pivotRow m a1 K) a1 i q := by
              unfold Blast.elim
              rw [if_neg hqk, if_neg (show ¬ K < q by omega), ite_self]
            rw [this, swapRows_eq]
            by_cases hiK : i < K
            · rw [swapIdx_lt (Nat.le_refl K) b1 hiK]; exact i4 i q (by omega) hqi him
            · have hbd := swapIdx_bounds (p := K) (q := pivotRow m a1 K) (k := K) (m := m) (i := i)
                ⟨by omega, by omega⟩ ⟨b1, b2⟩ ⟨by omega, him⟩
              exact i4 _ q (by omega) (by omega) hbd.2

/-- a zero pivot: the whole rest of the column is zero -/
theorem luStep_none [Field V] [LinearOrder V] [IsStrictOrderedRing V] [Arith V] [ExactOrd V] {dv : V → V → V}
    {upd : V → V → V → V} {m k : Nat} {a : Nat → Nat → V} {p : Nat → Nat} (h : luStep dv upd m k a p = none) :
    ∀ i, k ≤ i → i < m → a i k = 0 := by
  intro i h1 h2
  unfold luStep at h
  simp only at h
  by_cases hz : Arith.eq (swapRows k (pivotRow m a k) a k k) Arith.zero = true
  · have hz' := (ExactRing.eq_iff _ _).1 hz
    rw [ExactRing.zero_eq, swapRows_eq] at hz'
    unfold swapIdx at hz'
    rw [if_pos rfl] at hz'
    have := pivot_max a h1 h2
    rw [hz', abs_zero] at this
    exact abs_eq_zero.1 (le_antisymm this (abs_nonneg _))
  · rw [if_neg hz] at h; simp at h

/-! ### Singularity -/

/-- the first `r` columns (of length `m`) of `a` are linearly independent -/
def ColsIndep [Field V] (m r : Nat) (a : Nat → Nat → V) : Prop :=
  ∀ x : Nat → V, (∀ i, i < m → ∑ j ∈ range r, a i j * x j = 0) → ∀ j, j < r → x j = 0

theorem ColsIndep.le [Field V] {m r s : Nat} {a : Nat → Nat → V} (h : ColsIndep m r a) (hs : s ≤ r) : ColsIndep m s a := by
  intro x hx j hj
  have := h (fun j => if j < s then x j else 0) (fun i hi => ?_) j (by omega)
  · beta_reduce at this; rwa [if_pos hj] at this
  · refine Eq.trans (Eq.symm ?_) (hx i hi)
    have e : ∑ j ∈ range s, a i j * x j = ∑ j ∈ range s, a i j * (if j < s then x j else 0) :=
      sum_congr rfl (fun q hq => by rw [if_pos (mem_range.1 hq)])
    refine e.trans (sum_subset ?_ ?_)
    · intro q hq; rw [mem_range] at *; omega
    · intro q _ hq
      rw [mem_range] at hq
      simp only [if_neg hq, mul_zero]

theorem ColsIndep.of_perm [Field V] {m r : Nat} {a b : Nat → Nat → V} {σ : Nat → Nat} (hσ : ∀ i, i < m → σ i < m)
    (hb : ∀ i j, i < m → b i j = a (σ i) j) (h : ColsIndep m r b) : ColsIndep m r a := by
  intro x hx
  refine h x (fun i hi => ?_)
  rw [← hx (σ i) (hσ i hi)]
  exact sum_congr rfl (fun j _ => by rw [hb i j hi])

theorem colsIndep_swap [Field V] {m r p q : Nat} {a : Nat → Nat → V} (hp : p < m) (hq : q < m) :
    ColsIndep m r (fun i j => a (swapIdx p q i) j) ↔ ColsIndep m r a := by
  have hs : ∀ i, i < m → swapIdx p q i < m := fun i hi =>
    (swapIdx_bounds (k := 0) ⟨by omega, hp⟩ ⟨by omega, hq⟩ ⟨by omega, hi⟩).2
  constructor
  · exact ColsIndep.of_perm hs (fun i j hi => rfl)
  · refine ColsIndep.of_perm hs (fun i j hi => ?_)
    rw [swapIdx_invol]

theorem colsIndep_rowSwaps [Field V] {m r : Nat} {p : Nat → Nat} {K : Nat} (hK : K ≤ m) (hp : ∀ q, q < K → p q < m)
    (a : Nat → Nat → V) : ColsIndep m r (rowSwaps p 0 K a) ↔ ColsIndep m r a := by
  induction K with
  | zero => exact Iff.rfl
  | succ K ih =>
    rw [← ih (by omega) (fun q hq => hp q (by omega))]
    exact colsIndep_swap (by omega) (hp _ (by omega))

theorem sum_lu [Field V] (L : Nat → V) (f : Nat → Nat → V) (k r : Nat) (x : Nat → V) :
    ∑ j ∈ range r, (∑ q ∈ range k, L q * f q j) * x j = ∑ q ∈ range k, L q * ∑ j ∈ range r, f q j * x j := by
  simp only [sum_mul, mul_sum]
  rw [sum_comm]
  exact sum_congr rfl (fun q _ => sum_congr rfl (fun j _ => by ring))

/-- a completed factorization: the columns are independent -/
theorem LUInv.indep [Field V] {m K : Nat} (hK : K ≤ m) {b a : Nat → Nat → V} (h : LUInv m K b a) : ColsIndep m K b := by
  intro x hx
  have h1 : ∀ i, i < K → ∑ q ∈ range K, tri .lower true a i q * ∑ j ∈ range K, tri .upper false a q j * x j =
      ∑ q ∈ range K, tri .lower true a i q * (fun _ => (0 : V)) q := by
    intro i hi
    simp only [mul_zero, sum_const_zero]
    rw [← hx i (by omega), ← sum_lu]
    refine sum_congr rfl (fun j hj => ?_)
    have := mem_range.1 hj
    rw [h.eq i j (by omega), if_neg (by omega), add_zero]
  have h2 := C27_trsm_unique .lower true (a := a) (by simp) (m := K)
    (x := fun q => ∑ j ∈ range K, tri .upper false a q j * x j) (y := fun _ => 0) h1
  have h3 := C27_trsm_unique .upper false (a := a) (fun _ i hi => h.nz i hi) (m := K) (x := x) (y := fun _ => 0)
    (fun i hi => by rw [h2 i hi]; simp)
  exact h3

/-- an upper triangular system with nonzero diagonal is solvable -/
theorem exists_upper_solution [Field V] (a : Nat → Nat → V) (k : Nat) (h : ∀ j, j < k → a j j ≠ 0) (b : Nat → V) :
    ∃ y : Nat → V, ∀ q, q < k → ∑ j ∈ range k, tri .upper false a q j * y j = b q := by
  induction k generalizing b with
  | zero => exact ⟨fun _ => 0, fun j hj => by omega⟩
  | succ k ih =>
    obtain ⟨y, hy⟩ := ih (fun j hj => h j (by omega)) (fun q => b q - a q k * (b k / a k k))
    refine ⟨fun i => if i = k then b k / a k k else y i, fun q hq => ?_⟩
    rw [sum_range_succ]
    beta_reduce
    rw [if_pos rfl]
    have e : ∑ j ∈ range k, tri .upper false a q j * (if j = k then b k / a k k else y j) =
        ∑ j ∈ range k, tri .upper false a q j * y j :=
      sum_congr rfl (fun i hi => by rw [if_neg (by have := mem_range.1 hi; omega)])
    rw [e]
    by_cases hqk : q = k
    · subst hqk
      have e0 : ∑ j ∈ range q, tri .upper false a q j * y j = 0 :=
        sum_eq_zero (fun j hj => by rw [tri_upper_zero (mem_range.1 hj), zero_mul])
      rw [e0, tri_eq_upper, if_pos (Nat.le_refl q), zero_add, mul_div_cancel₀ _ (h q (by omega))]
    · rw [hy q (by omega), tri_eq_upper, if_pos (by omega)]
      ring

/-- a zero column in the rest: the columns are dependent -/
theorem LUInv.dep [Field V] {m k : Nat} {b a : Nat → Nat → V} (h : LUInv m k b a)
    (hz : ∀ i, k ≤ i → i < m → a i k = 0) : ¬ ColsIndep m (k + 1) b := by
  intro hind
  obtain ⟨y, hy⟩ := exists_upper_solution a k h.nz (fun q => - a q k)
  have := hind (fun j => if j = k then 1 else y j) (fun i hi => ?_) k (by omega)
  · beta_reduce at this; rw [if_pos rfl] at this; exact one_ne_zero this
  · have e : ∀ j, j < k + 1 → b i j = ∑ q ∈ range k, tri .lower true a i q * tri .upper false a q j := by
      intro j hj
      rw [h.eq i j hi]
      by_cases hc : k ≤ i ∧ k ≤ j
      · rw [if_pos hc, show j = k by omega, hz i hc.1 hi, add_zero]
      · rw [if_neg hc, add_zero]
    rw [sum_congr rfl (fun j hj => by rw [e j (mem_range.1 hj)]), sum_lu]
    refine sum_eq_zero (fun q hq => ?_)
    have hq := mem_range.1 hq
    rw [sum_range_succ]
    beta_reduce
    rw [if_pos rfl]
    have e0 : ∑ j ∈ range k, tri .upper false a q j * (if j = k then 1 else y j) = - a q k := by
      rw [← hy q hq]
      exact sum_congr rfl (fun j hj => by rw [if_neg (by have := mem_range.1 hj; omega)])
    rw [e0, tri_eq_upper, if_pos (by omega)]
    ring

end Blast
