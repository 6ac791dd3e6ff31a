import Verif.GetrfRound
import Verif.RoundingBinary
import Verif.Props.Lu
/- Concrete cases meeting the hypotheses of these theorems: Verif/Cases/Accuracy.lean, and the examples in this file. -/
/-
Property C59: LU factorization in rounded arithmetic.
-/
set_option linter.unusedSectionVars false
namespace Blast
open Finset Prog
variable {V : Type} [Field V] [LinearOrder V] [IsStrictOrderedRing V]

/-! ### Specification -/

/-- `b` holds factors L and U with `|P * A - L * U| ≤ g * |L| * |U|`, element by element; P: the interchanges recorded in `p` -/
def IsLUUpTo (g : V) (m n : Nat) (a b : Nat → Nat → V) (p : Nat → Nat) : Prop :=
  ∀ i j, i < m → j < n →
    |rowSwaps p 0 (min m n) a i j - ∑ k ∈ range (min m n), tri .lower true b i k * tri .upper false b k j| ≤
      g * ∑ k ∈ range (min m n), |tri .lower true b i k| * |tri .upper false b k j|

/-- all matrices within `δ` of `a` (element by element) have linearly independent leading columns -/
def RobustIndep (δ : V) (m n : Nat) (a : Nat → Nat → V) : Prop :=
  ∀ a' : Nat → Nat → V, (∀ i j, i < m → j < n → |a' i j - a i j| ≤ δ) → ColsIndep m (min m n) a'

/-- What a factorization routine does in rounded arithmetic. `g`: size of the backward error, `c`: bound of the multipliers,
`ρ`: growth of the elements in one step. -/
structure LuOutcomeUpTo (g c ρ : V) (SS m n : Nat) (A : MPtr) (a : Nat → Nat → V) (ip : Nat → Nat)
    (r : Res V (Nat → Nat)) (m0 : Mem V) : Prop where
  /-- it returns or throws invalid_argument; in both cases nothing else changes -/
  either : (∃ p m', r = .ok p m' ∧ (∀ y, ¬ Cells SS A m n y → m' y = m0 y)) ∨
    (∃ m', r = .throw .invalidArgument m' ∧ (∀ y, ¬ Cells SS A m n y → m' y = m0 y))
  /-- on return: factorization up to rounding errors, pivot bounds, bounded multipliers, nonzero pivots -/
  ret : ∀ p m', r = .ok p m' → ∃ b, Holds SS m' A m n b ∧ IsLUUpTo g m n a b p ∧
    (∀ k, k < min m n → k ≤ p k ∧ p k < m) ∧ (∀ k, min m n ≤ k → p k = ip k) ∧
    (∀ i k, k < min m n → k < i → i < m → |b i k| ≤ c) ∧ (∀ k, k < min m n → b k k ≠ 0) ∧
    (∀ μ, (∀ i j, i < m → j < n → |a i j| ≤ μ) → ∀ i j, i < m → j < n → i ≤ j → |b i j| ≤ ρ ^ min m n * μ)
  /-- it returns for all matrices which are not close to a singular one -/
  full : ∀ μ, (∀ i j, i < m → j < n → |a i j| ≤ μ) → RobustIndep (g * (min m n * c * ρ ^ min m n * μ)) m n a → ∃ p m', r = .ok p m'

/-! ### Proofs -/

/-- the inverse of `rowPerm p 0 t` -/
def rowPermInv (p : Nat → Nat) : Nat → Nat → Nat
  | 0, i => i
  | t + 1, i => swapIdx t (p t) (rowPermInv p t i)

theorem rowPermInv_left (p : Nat → Nat) (t i : Nat) : rowPermInv p t (rowPerm p 0 t i) = i := by
  induction t generalizing i with
  | zero => rfl
  | succ t ih =>
    show swapIdx t (p t) (rowPermInv p t (rowPerm p 0 t (swapIdx (0 + t) (p (0 + t)) i))) = i
    rw [Nat.zero_add, ih, swapIdx_invol]

theorem rowPermInv_right (p : Nat → Nat) (t i : Nat) : rowPerm p 0 t (rowPermInv p t i) = i := by
  induction t generalizing i with
  | zero => rfl
  | succ t ih =>
    show rowPerm p 0 t (swapIdx (0 + t) (p (0 + t)) (swapIdx t (p t) (rowPermInv p t i))) = i
    rw [Nat.zero_add, swapIdx_invol, ih]

theorem rowPermInv_lt {p : Nat → Nat} {t m i : Nat} (hp : ∀ q, q < t → p q < m) (hm : t ≤ m) (hi : i < m) : rowPermInv p t i < m := by
  induction t with
  | zero => exact hi
  | succ t ih =>
    exact (swapIdx_bounds (k := 0) ⟨by omega, by omega⟩ ⟨by omega, hp t (by omega)⟩
      ⟨by omega, ih (fun q hq => hp q (by omega)) (by omega)⟩).2

section
variable [Arith V] {u : V} [hR : Rounded u]

/-- where no pivot can be found, there is a singular matrix nearby -/
theorem LuStuck.singular {c ρ μ : V} (hc : 1 ≤ c) (hρ : 1 ≤ ρ) (hμ : 0 ≤ μ) {M N : Nat} {a0 : Nat → Nat → V} {ip : Nat → Nat}
    (h : LuStuck u c ρ μ M N a0 ip) :
    ¬ RobustIndep (((1 / (1 - u)) ^ (2 * min M N) - 1) * (min M N * c * ρ ^ min M N * μ)) M N a0 := by
  obtain ⟨K, a, P, hK, hst, hz⟩ := h
  generalize hb' : (fun i j => ∑ q ∈ range K, tri .lower true a i q * tri .upper false a q j + (if K ≤ i ∧ K ≤ j then a i j else 0)) = b'
  have hinv : LUInv M K b' a := ⟨fun i j _ => by rw [← hb'], hst.near.nz⟩
  have hdep := hinv.dep hz
  intro hrob
  have hind := hrob (fun i j => b' (rowPermInv P K i) j) (fun i j hi hj => ?_)
  · apply hdep
    have h1 := (colsIndep_rowSwaps (p := P) (K := K) (by omega) (fun q hq => (hst.piv q hq).2) _).2 (hind.le (show K + 1 ≤ min M N by omega))
    have e : rowSwaps P 0 K (fun i j => b' (rowPermInv P K i) j) = b' := by
      funext i j; rw [rowSwaps_eq, rowPermInv_left]
    rwa [e] at h1
  · have hi' := rowPermInv_lt (p := P) (t := K) (fun q hq => (hst.piv q hq).2) (by omega) hi
    have n1 := hst.near.near _ j hi' hj
    rw [rowSwaps_eq, rowPermInv_right] at n1
    generalize rowPermInv P K i = i' at hi' n1 ⊢
    have e : b' i' j = ∑ q ∈ range K, tri .lower true a i' q * tri .upper false a q j + (if K ≤ i' ∧ K ≤ j then a i' j else 0) := by rw [← hb']
    beta_reduce
    rw [e, abs_sub_comm]
    refine le_trans n1.err ?_
    have hw : (1 + bu u) ^ (2 * K) - 1 ≤ (1 / (1 - u)) ^ (2 * min M N) - 1 := by
      rw [← pow_bu']
      have := pow_le_pow_right₀ (show 1 ≤ 1 + bu u by have := buN (u := u); linarith) (show 2 * K ≤ 2 * min M N by omega)
      linarith
    have hw0 : 0 ≤ (1 + bu u) ^ (2 * K) - 1 := by
      have := one_le_pow₀ (show 1 ≤ 1 + bu u by have := buN (u := u); linarith) (n := 2 * K)
      linarith
    have hG : 0 ≤ ρ ^ K * μ := mul_nonneg (pow_nonneg (by linarith) K) hμ
    refine mul_le_mul hw ?_ n1.B_nonneg (le_trans hw0 hw)
    have hsum : ∑ q ∈ range K, |tri .lower true a i' q * tri .upper false a q j| ≤ ∑ q ∈ range K, c * (ρ ^ K * μ) := by
      refine sum_le_sum (fun q hq => ?_)
      have hq := mem_range.1 hq
      rw [abs_mul, tri_eq_lower, tri_eq_upper]
      refine mul_le_mul ?_ ?_ (abs_nonneg _) (by linarith)
      · by_cases h1 : i' = q
        · rw [if_pos h1, abs_one]; exact hc
        · rw [if_neg h1]
          by_cases h2 : q < i'
          · rw [if_pos h2]; exact hst.mult i' q hq h2 hi'
          · rw [if_neg h2, abs_zero]; linarith
      · by_cases h1 : q ≤ j
        · rw [if_pos h1]; exact hst.grow q j (by omega) hj (Or.inl h1)
        · rw [if_neg h1, abs_zero]; exact hG
    rw [sum_const, card_range, nsmul_eq_mul] at hsum
    have htr : (if K ≤ i' ∧ K ≤ j then |a i' j| else 0) ≤ c * (ρ ^ K * μ) := by
      by_cases h1 : K ≤ i' ∧ K ≤ j
      · rw [if_pos h1]
        exact le_trans (hst.grow i' j hi' hj (Or.inr h1.2)) (le_mul_of_one_le_left hG hc)
      · rw [if_neg h1]; exact mul_nonneg (by linarith) hG
    have h1 : (K : V) + 1 ≤ (min M N : Nat) := by
      have : K + 1 ≤ min M N := by omega
      exact_mod_cast this
    have h2 : ρ ^ K * μ ≤ ρ ^ min M N * μ := mul_le_mul_of_nonneg_right (pow_le_pow_right₀ hρ (by omega)) hμ
    have h3 : ((K : V) + 1) * (c * (ρ ^ K * μ)) ≤ (min M N : Nat) * (c * (ρ ^ min M N * μ)) :=
      mul_le_mul h1 (mul_le_mul_of_nonneg_left h2 (by linarith)) (mul_nonneg (by linarith) hG) (Nat.cast_nonneg _)
    have e2 : ((min M N : Nat) : V) * c * ρ ^ min M N * μ = ((min M N : Nat) : V) * (c * (ρ ^ min M N * μ)) := by ring
    rw [e2]
    linarith

/-- what the algorithms do is such an outcome -/
theorem luOutcomeUpTo_of {c ρ : V} (hc : 1 ≤ c) (hρ : 1 ≤ ρ) {SS m n : Nat} {A : MPtr}
    {a : Nat → Nat → V} {ip : Nat → Nat} {m0 : Mem V} {p : Prog V (Nat → Nat)}
    (h : ∀ μ, (∀ i j, i < m → j < n → |a i j| ≤ μ) →
      RunsE p m0 (fun P mem' => ∃ b, LuState u c ρ μ m n (min m n) a ip b P ∧ MatIn SS m n A m0 mem' b)
      (fun e mem' => e = .invalidArgument ∧ LuStuck u c ρ μ m n a ip ∧ ∀ y, ¬ Cells SS A m n y → mem' y = m0 y)) :
    LuOutcomeUpTo ((1 / (1 - u)) ^ (2 * min m n) - 1) c ρ SS m n A a ip (p m0) m0 := by
  have hbd : ∃ μ, ∀ i j, i < m → j < n → |a i j| ≤ μ := by
    refine ⟨∑ i ∈ range m, ∑ j ∈ range n, |a i j|, fun i j hi hj => ?_⟩
    refine le_trans ?_ (single_le_sum (f := fun i => ∑ j ∈ range n, |a i j|) (fun i _ => sum_nonneg (fun j _ => abs_nonneg _)) (mem_range.2 hi))
    exact single_le_sum (f := fun j => |a i j|) (fun j _ => abs_nonneg _) (mem_range.2 hj)
  refine ⟨?_, ?_, ?_⟩
  · obtain ⟨μ, hμ⟩ := hbd
    rcases h μ hμ with ⟨P, mem', h1, b, h2, h3⟩ | ⟨e, mem', h1, rfl, h2, h3⟩
    · exact Or.inl ⟨P, mem', h1, h3.frame⟩
    · exact Or.inr ⟨mem', h1, h3⟩
  · intro P mem' hr
    have key : ∀ μ, (∀ i j, i < m → j < n → |a i j| ≤ μ) → ∃ b, LuState u c ρ μ m n (min m n) a ip b P ∧ MatIn SS m n A m0 mem' b := by
      intro μ hμ
      rcases h μ hμ with ⟨P', mem'', h1, b, h2, h3⟩ | ⟨e, mem'', h1, rfl, h2, h3⟩
      · rw [hr] at h1
        injection h1 with e1 e2
        subst e1 e2
        exact ⟨b, h2, h3⟩
      · rw [hr] at h1; simp at h1
    obtain ⟨μ, hμ⟩ := hbd
    obtain ⟨b, h1, h2⟩ := key μ hμ
    refine ⟨b, h2.holds, fun i j hi hj => ?_, h1.piv, h1.rest, h1.mult, h1.near.nz, fun μ' hμ' i j hi hj hij => ?_⟩
    · have := (h1.near.near i j hi hj).err
      rw [if_neg (show ¬ (min m n ≤ i ∧ min m n ≤ j) by omega), if_neg (show ¬ (min m n ≤ i ∧ min m n ≤ j) by omega), pow_bu'] at this
      simpa only [add_zero, abs_mul] using this
    · obtain ⟨b', f1, f2⟩ := key μ' hμ'
      have e : b i j = b' i j := by
        have := h2.holds i j hi hj
        rw [f2.holds i j hi hj] at this
        exact (Option.some.inj this).symm
      rw [e]; exact f1.grow i j hi hj (Or.inl hij)
  · intro μ hμ hrob
    rcases h μ hμ with ⟨P, mem', h1, b, h2, h3⟩ | ⟨e, mem', h1, rfl, h2, h3⟩
    · exact ⟨P, mem', h1⟩
    · by_cases h0 : 0 ≤ μ
      · exact absurd hrob (h2.singular hc hρ h0)
      · exfalso
        obtain ⟨K, a', P, hK, -⟩ := h2
        exact h0 (le_trans (abs_nonneg _) (hμ 0 0 (by omega) (by omega)))

/-- the unblocked algorithm, from the specification by `luRun` -/
theorem luOutcomeUpTo_getf2 {c ρ : V} (hc : 1 ≤ c) (hρ : 1 ≤ ρ) {dv : V → V → V} {upd : V → V → V → V} (ho : NearOps (bu u) c ρ 2 dv upd)
    {SS m n : Nat} {A : MPtr} {a : Nat → Nat → V} {ip : Nat → Nat} {m0 : Mem V} {p : Prog V (Nat → Nat)}
    (h : RunsE p m0 (fun p mem' => ∃ a', luRun dv upd m a ip (min m n) = some (a', p) ∧ MatIn SS m n A m0 mem' a')
      (fun e mem' => e = .invalidArgument ∧
        (∃ k a' p, k < min m n ∧ luRun dv upd m a ip k = some (a', p) ∧ luStep dv upd m k a' p = none) ∧
        ∀ y, ¬ Cells SS A m n y → mem' y = m0 y)) :
    LuOutcomeUpTo ((1 / (1 - u)) ^ (2 * min m n) - 1) c ρ SS m n A a ip (p m0) m0 := by
  refine luOutcomeUpTo_of hc hρ (fun μ hμ => h.mono ?_ ?_)
  · rintro P mem' ⟨b, h1, h2⟩
    obtain ⟨e1, e2, e3, e4, e5⟩ := luRun_near (u := u) (n := n) ho hρ (min m n) (by omega) h1
    exact ⟨b, ⟨e1, e2, e3, e4, fun i j hi hj hij => e5 μ hμ i j hi hj hij⟩, h2⟩
  · rintro e mem' ⟨h1, ⟨k, a', P, hk, h2, h3⟩, h4⟩
    obtain ⟨e1, e2, e3, e4, e5⟩ := luRun_near (u := u) (n := n) ho hρ k (by omega) h2
    exact ⟨h1, ⟨k, a', P, hk, ⟨e1, e2, e3, e4, fun i j hi hj hij => e5 μ hμ i j hi hj hij⟩, luStep_none' (u := u) h3⟩, h4⟩

theorem rel_add (a b : V) : Rel (bu u) 1 (Arith.add a b) (a + b) := rel_of_err hR.u_nonneg hR.u_lt_one (hR.add_err a b)

/-- row-major getf2 (the update is an addition, a scaled multiplication and no fused operation) -/
theorem nearOps_row {ρ : V} (hρ : 2 * (1 + u) ^ 5 ≤ ρ) {dv : V → V → V}
    (hdv : dv = Arith.div ∨ dv = fun x y => Arith.mul x (Arith.div Arith.one y)) : NearOps (bu u) ((1 + u) ^ 2) ρ 2 dv updRow := by
  have hu := hR.u_nonneg
  refine ⟨fun x y hy => ?_, fun x y hy h => ?_, fun l p a => ?_, fun l p a B hl hp ha => ?_⟩
  · rcases hdv with rfl | rfl
    · exact (rel_div_mul hy).mono buN (by omega)
    · have h1 := (rel_mul (u := u) x (Arith.div Arith.one y)).mul buN (Rel.refl (bu u) y)
      have h2 := (Rel.refl (bu u) x).mul buN (rel_div_mul (u := u) (a := (Arith.one : V)) hy)
      rw [hR.one_eq, mul_one, ← mul_assoc] at h2
      rw [hR.one_eq] at h1 ⊢
      exact (h1.trans buN h2).mono buN (by omega)
  · rcases hdv with rfl | rfl
    · refine le_trans (div_le' (u := u) hy h) ?_
      nlinarith
    · have hy0 : 0 < |y| := abs_pos.2 hy
      have h1 := rnd_le (u := u) (hR.div_err Arith.one y hy) (B := 1 / |y|) (by rw [hR.one_eq, abs_div, abs_one])
      have h2 := mul_le' (u := u) h h1
      refine le_trans h2 ?_
      have e : (1 + u) * (|y| * ((1 + u) * (1 / |y|))) = (1 + u) ^ 2 := by
        field_simp
      rw [e]
  · unfold updRow
    have h1 : Rel (bu u) 1 (Arith.mul (Arith.neg Arith.one) l) (-l) := by
      have := rel_mul (u := u) (Arith.neg Arith.one) l
      rwa [show (Arith.neg Arith.one : V) * l = -l by rw [hR.neg_eq, hR.one_eq, neg_one_mul]] at this
    have h2 := (rel_mul (u := u) (Arith.mul (Arith.neg Arith.one) l) p).trans buN (h1.mul buN (Rel.refl (bu u) p))
    have h3 := h2.neg
    rw [neg_mul, neg_neg] at h3
    refine near_step buN (st := a) (pt := -(Arith.mul (Arith.mul (Arith.neg Arith.one) l) p)) ?_ (Rel.refl (bu u) a) h3 (by omega) (by omega)
    have h4 := rel_add (u := u) a (Arith.mul (Arith.mul (Arith.neg Arith.one) l) p)
    rw [sub_neg_eq_add]
    exact h4
  · have hB : 0 ≤ B := le_trans (abs_nonneg _) ha
    unfold updRow
    have h1 := mul_le' (u := u) (one_abs (u := u)).2 hl
    have h2 := mul_le' (u := u) h1 hp
    have h3 := rnd_le (u := u) (hR.add_err a (Arith.mul (Arith.mul (Arith.neg Arith.one) l) p)) (le_trans (abs_add_le _ _) (add_le_add ha h2))
    refine le_trans h3 ?_
    have h4 := mul_le_mul_of_nonneg_right hρ hB
    have h5 : (1 + u) * B ≤ (1 + u) ^ 5 * B := by
      refine mul_le_mul_of_nonneg_right ?_ hB
      calc 1 + u = (1 + u) ^ 1 := (pow_one _).symm
        _ ≤ (1 + u) ^ 5 := pow_le_pow_right₀ (by linarith) (by omega)
    have e : (1 + u) * (B + (1 + u) * ((1 + u) * (1 * (1 + u) ^ 2) * B)) = (1 + u) * B + (1 + u) ^ 5 * B := by ring
    rw [e]; linarith

include hR in
theorem one_le_two_pow (k : Nat) : (1 : V) ≤ 2 * (1 + u) ^ k := by
  have hu := hR.u_nonneg
  have := one_le_pow₀ (show 1 ≤ 1 + u by linarith) (n := k)
  linarith

/-! ### C59 -/

/-- **C59** (getf2, column-major). In any rounded arithmetic with unit roundoff u < 1: getf2 returns or throws
invalid_argument, in both cases only the elements of A and ipiv[0..min(m,n)-1] change; on return
`|P * A - L * U| ≤ g |L| |U|` with g = (1/(1-u))^(2 min(m,n)) - 1, pivot indices are in range, multipliers are at most 1+u,
pivots are not zero, elements of U are at most (2(1+u)^3)^min(m,n) times the largest element of A; it does return unless there is
a singular matrix within g * n (1+u) (2(1+u)^3)^n times the largest element of A. -/
theorem C59_getf2_backward_error {SS TR m n : Nat} {A : MPtr} {m0 : Mem V} (hp : LuPre SS TR m n A m0) {a : Nat → Nat → V}
    (h : Holds SS m0 A m n a) (ip : Nat → Nat) :
    LuOutcomeUpTo ((1 / (1 - u)) ^ (2 * min m n) - 1) (1 + u) (2 * (1 + u) ^ 3) SS m n A a ip (getf2Ptr SS TR m n A ip m0) m0 :=
  luOutcomeUpTo_getf2 (by have := hR.u_nonneg; linarith) (one_le_two_pow 3) (nearOps_col (le_refl _)) (runs_getf2Ptr hp h ip)

/-- **C59** (getf2, row-major), whether Blaze divides the column by the pivot or multiplies it with the reciprocal. -/
theorem C59_getf2_row_major_backward_error {SS : Nat} (hSS : 0 < SS) {dv : V → V → V}
    (hdv : dv = Arith.div ∨ dv = fun x y => Arith.mul x (Arith.div Arith.one y)) {A : Mat}
    (hd : A.p.panel = false) {m0 : Mem V} (hinj : Inj SS A.p A.rows A.cols) {a : Nat → Nat → V}
    (h : Holds SS m0 A.p A.rows A.cols a) (ip : Nat → Nat) :
    LuOutcomeUpTo ((1 / (1 - u)) ^ (2 * min A.rows A.cols) - 1) ((1 + u) ^ 2) (2 * (1 + u) ^ 5) SS A.rows A.cols A.p a ip
      (getf2Row SS dv A ip m0) m0 :=
  luOutcomeUpTo_getf2 (one_le_pow₀ (by have := hR.u_nonneg; linarith)) (one_le_two_pow 5) (nearOps_row (le_refl _) hdv)
    (runs_getf2Row hSS dv hd hinj h ip)

/-- **C59** (getrf, column-major): the blocked algorithm - panel factorization, interchanges, trsm, gemm - has the same backward
error bound as the unblocked one, for every block size. -/
theorem C59_getrf_backward_error {SS TR m n : Nat} {A : MPtr} {m0 : Mem V} (hp : GetrfPre SS TR m n A m0)
    {a : Nat → Nat → V} (h : Holds SS m0 A m n a) (ip : Nat → Nat) :
    LuOutcomeUpTo ((1 / (1 - u)) ^ (2 * min m n) - 1) (1 + u) (2 * (1 + u) ^ (TR * SS + 3)) SS m n A a ip
      (getrfPtr SS TR m n A ip m0) m0 :=
  luOutcomeUpTo_of (by have := hR.u_nonneg; linarith) (one_le_two_pow _) (fun _ hμ => runs_getrfPtr_near hp (le_refl _) hμ ip h)

/-- row-major getrf -/
theorem nearOps_sub {dv : V → V → V}
    (hdv : dv = Arith.div ∨ dv = fun x y => Arith.mul x (Arith.div Arith.one y)) : NearOps (bu u) ((1 + u) ^ 2) (2 * (1 + u) ^ 5) 2 dv updSub := by
  have hu := hR.u_nonneg
  have hr := nearOps_row (u := u) (le_refl _) hdv
  refine ⟨hr.dv_near, hr.dv_le, fun l p a => ?_, fun l p a B hl hp ha => ?_⟩
  · unfold updSub
    exact near_step buN (rel_sub a (Arith.mul l p)) (Rel.refl (bu u) a) (rel_mul l p) (by omega) (by omega)
  · have hB : 0 ≤ B := le_trans (abs_nonneg _) ha
    unfold updSub
    have h2 := mul_le' (u := u) hl hp
    have h3 := rnd_le (u := u) (hR.sub_err a (Arith.mul l p)) (le_trans (abs_sub _ _) (add_le_add ha h2))
    refine le_trans h3 ?_
    have h5 : ∀ k, k ≤ 5 → (1 + u) ^ k * B ≤ (1 + u) ^ 5 * B := fun k hk =>
      mul_le_mul_of_nonneg_right (pow_le_pow_right₀ (by linarith) hk) hB
    have h6 := h5 1 (by omega)
    have h7 := h5 4 (by omega)
    have e : (1 + u) * (B + (1 + u) * ((1 + u) ^ 2 * B)) = (1 + u) ^ 1 * B + (1 + u) ^ 4 * B := by ring
    rw [e]; linarith

omit [Field V] [LinearOrder V] [IsStrictOrderedRing V] hR in
theorem elimRun_row {dv : V → V → V} {a : Nat → Nat → V} {i : Nat} (t : Nat) (j : Nat) : elimRun dv a (i + t) i j = elimRun dv a i i j := by
  induction t with
  | zero => rfl
  | succ t ih =>
    show elim dv updSub (i + t) (elimRun dv a (i + t)) i j = _
    unfold elim
    rw [if_neg (by omega), ih]

/-- **C59** (getrf, row-major). It always returns and makes no interchanges. If no diagonal element of the result is zero, then
`|A - L * U| ≤ g |L| |U|`; the multipliers are not bounded, so neither is the growth of the elements. -/
theorem C59_getrf_row_major_backward_error {SS : Nat} {dv : V → V → V}
    (hdv : dv = Arith.div ∨ dv = fun x y => Arith.mul x (Arith.div Arith.one y)) {A : Mat} {m0 : Mem V}
    (hinj : Inj SS A.p A.rows A.cols) {a : Nat → Nat → V} (h : Holds SS m0 A.p A.rows A.cols a) (ip : Nat → Nat) :
    ∃ p m' b, getrfRow SS dv A ip m0 = .ok p m' ∧ (∀ k, k < min A.rows A.cols → p k = k) ∧
      (∀ k, min A.rows A.cols ≤ k → p k = ip k) ∧ Holds SS m' A.p A.rows A.cols b ∧
      (∀ y, ¬ Cells SS A.p A.rows A.cols y → m' y = m0 y) ∧
      ((∀ k, k < min A.rows A.cols → b k k ≠ 0) → ∀ i j, i < A.rows → j < A.cols →
        |a i j - ∑ k ∈ range (min A.rows A.cols), tri .lower true b i k * tri .upper false b k j| ≤
          ((1 / (1 - u)) ^ (2 * min A.rows A.cols) - 1) *
            ∑ k ∈ range (min A.rows A.cols), |tri .lower true b i k| * |tri .upper false b k j|) := by
  obtain ⟨p, m', h1, h2, rfl⟩ := runs_getrfRow dv hinj h ip
  refine ⟨_, m', _, h1, fun k hk => if_pos hk, fun k hk => if_neg (by omega), h2.holds, h2.frame, ?_⟩
  intro hnz i j hi hj
  have key : ∀ K, K ≤ min A.rows A.cols → LUNear (bu u) (2 * K) A.rows A.cols K a (elimRun dv a K) := by
    intro K
    induction K with
    | zero => intro _; exact LUNear.zero _ _ _ a
    | succ K ih =>
      intro hK
      rw [show 2 * (K + 1) = 2 + 2 * K by omega]
      refine (ih (by omega)).elim buN (nearOps_sub hdv) ?_
      have e := elimRun_row (dv := dv) (a := a) (i := K) (min A.rows A.cols - K) K
      rw [show K + (min A.rows A.cols - K) = min A.rows A.cols by omega] at e
      rw [← e]; exact hnz K (by omega)
  have := ((key _ (le_refl _)).near i j hi hj).err
  rw [if_neg (show ¬ (min A.rows A.cols ≤ i ∧ min A.rows A.cols ≤ j) by omega),
    if_neg (show ¬ (min A.rows A.cols ≤ i ∧ min A.rows A.cols ≤ j) by omega), pow_bu'] at this
  simpa only [add_zero, abs_mul] using this

/-! ### Matrices with padded storage -/

/-- **C59** for matrices with the padded layout of DynamicMatrix/StaticMatrix (block size = tile size = SIMD width). -/
theorem C59_getrf_padded {SS : Nat} (hSS : 0 < SS) {m0 : Mem V} {A : Container} (hd : A.isPanel = false)
    (hs : A.so = .columnMajor) (hl : Live SS m0 A) {a : Nat → Nat → V} (h : Contains SS m0 A a) (ip : Nat → Nat) {μ : V}
    (hμ : ∀ i j, i < A.rows → j < A.cols → |a i j| ≤ μ)
    (hrob : RobustIndep (((1 / (1 - u)) ^ (2 * min A.rows A.cols) - 1) *
      (min A.rows A.cols * (1 + u) * (2 * (1 + u) ^ (SS + 3)) ^ min A.rows A.cols * μ)) A.rows A.cols a) :
    ∃ p m' b, getrfPtr SS 1 A.rows A.cols (A.mptr SS) ip m0 = .ok p m' ∧ Contains SS m' A b ∧
      IsLUUpTo ((1 / (1 - u)) ^ (2 * min A.rows A.cols) - 1) A.rows A.cols a b p ∧ OnlyElemsChange SS m0 m' A := by
  have ho := C59_getrf_backward_error (u := u) (LuPre.of_live hSS hd hs hl) h.holds ip
  rw [Nat.one_mul] at ho
  obtain ⟨p, m', h1⟩ := ho.full μ hμ (by exact_mod_cast hrob)
  obtain ⟨b, e1, e2, -⟩ := ho.ret p m' h1
  refine ⟨p, m', b, h1, fun i j hi hj => ?_, e2, fun y hy => ?_⟩
  · rw [Container.addr_eq_mptr]; exact e1 i j hi hj
  · rcases ho.either with ⟨p', m'', f1, f2⟩ | ⟨m'', f1, f2⟩
    · rw [h1] at f1
      injection f1 with g1 g2
      subst g2
      exact f2 y (fun hc => hy ((cells_iff A y).1 hc))
    · rw [h1] at f1; simp at f1

end

/-! ### A concrete case: [[0,1],[1,0]] in double precision (needs an interchange) -/

/-- all matrices within 1/4 of [[0,1],[1,0]] are invertible -/
theorem robust_swap : RobustIndep (1 / 4 : Fl 52) 2 2 (fun i j => if i = j then 0 else 1) := by
  intro a' h
  have h00 := abs_le.1 (h 0 0 (by omega) (by omega))
  have h01 := abs_le.1 (h 0 1 (by omega) (by omega))
  have h10 := abs_le.1 (h 1 0 (by omega) (by omega))
  have h11 := abs_le.1 (h 1 1 (by omega) (by omega))
  simp only [if_pos, if_neg, zero_ne_one, one_ne_zero, if_false] at h00 h01 h10 h11
  intro x hx j hj
  have e0 := hx 0 (by omega)
  have e1 := hx 1 (by omega)
  rw [show min 2 2 = 2 from rfl, sum_range_succ, sum_range_one] at e0 e1
  generalize a' 0 0 = p at *
  generalize a' 0 1 = q at *
  generalize a' 1 0 = r at *
  generalize a' 1 1 = s at *
  have hq : (3 / 4 : Fl 52) ≤ q := by linarith [h01.1]
  have hr : (3 / 4 : Fl 52) ≤ r := by linarith [h10.1]
  have hqr : (9 / 16 : Fl 52) ≤ q * r := by nlinarith
  have hps : p * s ≤ (1 / 16 : Fl 52) := by
    have h1 : |p * s| ≤ 1 / 4 * (1 / 4) := by
      rw [abs_mul]
      refine mul_le_mul (abs_le.2 ⟨by linarith [h00.1], by linarith [h00.2]⟩) (abs_le.2 ⟨by linarith [h11.1], by linarith [h11.2]⟩) (abs_nonneg _) (by norm_num)
    have := (abs_le.1 h1).2
    linarith
  have hd : q * r - p * s ≠ 0 := by
    intro hz
    have : (1 / 2 : Fl 52) ≤ 0 := by rw [← hz]; linarith
    norm_num at this
  have f0 : (q * r - p * s) * x 0 = 0 := by
    have e : (q * r - p * s) * x 0 = q * (r * x 0 + s * x 1) - s * (p * x 0 + q * x 1) := by ring
    rw [e, e0, e1, mul_zero, mul_zero, sub_zero]
  have f1 : (q * r - p * s) * x 1 = 0 := by
    have e : (q * r - p * s) * x 1 = r * (p * x 0 + q * x 1) - p * (r * x 0 + s * x 1) := by ring
    rw [e, e0, e1, mul_zero, mul_zero, sub_zero]
  obtain rfl | rfl : j = 0 ∨ j = 1 := by omega
  · exact (mul_eq_zero.1 f0).resolve_left hd
  · exact (mul_eq_zero.1 f1).resolve_left hd

/-- memory of a 2×2 DynamicMatrix<double> holding [[0,1],[1,0]] -/
noncomputable def swapMem (c : Container) : Mem (Fl 52) := fun z =>
  open Classical in
  if c.Storage 4 z then some (if z = c.addr 4 0 1 ∨ z = c.addr 4 1 0 then 1 else 0) else none

example : ∃ p m' b, getrfPtr 4 1 2 2 ((⟨.dynDense, .columnMajor, 2, 2, 0⟩ : Container).mptr 4) id
      (swapMem ⟨.dynDense, .columnMajor, 2, 2, 0⟩) = .ok p m' ∧ Contains 4 m' ⟨.dynDense, .columnMajor, 2, 2, 0⟩ b ∧
    IsLUUpTo ((1 / (1 - flU 52)) ^ (2 * min 2 2) - 1 : Fl 52) 2 2 (fun i j => if i = j then 0 else 1) b p ∧
    OnlyElemsChange 4 (swapMem ⟨.dynDense, .columnMajor, 2, 2, 0⟩) m' ⟨.dynDense, .columnMajor, 2, 2, 0⟩ := by
  have hu : flU 52 ≤ (1 / 10000 : Fl 52) := by
    show ((1 / 2 : ℝ) ^ (52 + 1) : ℝ) ≤ 1 / 10000
    norm_num
  have h0 : (0 : Fl 52) ≤ flU 52 := by
    show (0 : ℝ) ≤ ((1 / 2 : ℝ) ^ (52 + 1) : ℝ)
    positivity
  refine C59_getrf_padded (u := flU 52) (A := ⟨.dynDense, .columnMajor, 2, 2, 0⟩) (by decide) rfl rfl
    ⟨rfl, fun z hz => by unfold swapMem; rw [if_pos hz]; rfl⟩ ?_ id (μ := 1) ?_ ?_
  · intro i j hi hj
    unfold swapMem
    rw [if_pos (Container.addr_storage (by decide) _ hi hj)]
    have hinj := Container.inj (SS := 4) (by decide) ⟨.dynDense, .columnMajor, 2, 2, 0⟩
    have h01 := hinj i j 0 1 hi hj (by decide) (by decide)
    have h10 := hinj i j 1 0 hi hj (by decide) (by decide)
    rw [← Container.addr_eq_mptr, ← Container.addr_eq_mptr] at h01 h10
    congr 1
    beta_reduce
    by_cases hij : i = j
    · rw [if_pos hij, if_neg]
      rintro (hc | hc)
      · have := h01 hc; omega
      · have := h10 hc; omega
    · rw [if_neg hij, if_pos]
      have hi' : i < 2 := hi
      have hj' : j < 2 := hj
      obtain ⟨rfl, rfl⟩ | ⟨rfl, rfl⟩ : (i = 0 ∧ j = 1) ∨ (i = 1 ∧ j = 0) := by omega
      · exact Or.inl rfl
      · exact Or.inr rfl
  · intro i j _ _
    beta_reduce
    by_cases hij : i = j
    · rw [if_pos hij, abs_zero]; exact zero_le_one
    · rw [if_neg hij, abs_one]
  · intro a' ha
    refine robust_swap a' (fun i j hi hj => le_trans (ha i j hi hj) ?_)
    show ((1 / (1 - flU 52)) ^ (2 * min 2 2) - 1) * (((min 2 2 : Nat) : Fl 52) * (1 + flU 52) * (2 * (1 + flU 52) ^ (4 + 3)) ^ min 2 2 * 1) ≤ (1 / 4 : Fl 52)
    generalize flU 52 = w at hu h0
    rw [show min 2 2 = 2 from rfl]
    have h1 : ((4 : Nat) : Fl 52) * w < 1 := by push_cast; linarith
    have h2 := inv_pow_sub_one_le_gamma h0 (by linarith) 4 h1
    have h3 : ((4 : Nat) : Fl 52) * w / (1 - (4 : Nat) * w) ≤ 1 / 1000 := by
      push_cast at h1 ⊢
      rw [div_le_iff₀ (by linarith)]; linarith
    have h4 : (1 + w) ^ 15 ≤ (2 : Fl 52) := by
      have : (1 + w) ^ 15 ≤ (1 + 1 / 10000 : Fl 52) ^ 15 := pow_le_pow_left₀ (by linarith) (by linarith) 15
      refine le_trans this ?_
      norm_num
    have e : ((2 : Nat) : Fl 52) * (1 + w) * (2 * (1 + w) ^ (4 + 3)) ^ 2 * 1 = 8 * (1 + w) ^ 15 := by push_cast; ring
    rw [e]
    have h5 : (0 : Fl 52) ≤ (1 + w) ^ 15 := pow_nonneg (by linarith) 15
    have h6 : (1 / (1 - w)) ^ (2 * 2) - 1 ≤ (1 / 1000 : Fl 52) := le_trans h2 h3
    calc ((1 / (1 - w)) ^ (2 * 2) - 1) * (8 * (1 + w) ^ 15) ≤ 1 / 1000 * (8 * 2) := by
          refine mul_le_mul h6 (by linarith) (by linarith) (by norm_num)
      _ ≤ 1 / 4 := by norm_num

end Blast
