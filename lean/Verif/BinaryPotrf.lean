import Verif.BinaryTrsm
/-
The Cholesky factorization in a binary format, forwards: no overflow, and pivots bounded away from zero.
-/
set_option linter.unusedSectionVars false
namespace Blast
open Finset Reg

/-- the smallest eigenvalue of the symmetric matrix with lower triangle `a` is at least ε: `ε |x|² ≤ xᵀ S x` -/
def LowerEigGe (ε : ℝ) (n : Nat) (a : Nat → Nat → ℝ) : Prop :=
  ∀ x : Nat → ℝ, ε * ∑ i ∈ range n, x i * x i ≤ ∑ i ∈ range n, ∑ j ∈ range n, x i * a (max i j) (min i j) * x j

/-- After k columns of an approximate Cholesky factorization with absolute errors at most E, every later diagonal element of the Schur complement is at least ε - nE. -/
theorem schur_ge {n k i : Nat} (hk : k ≤ i) (hi : i < n) {a l : Nat → Nat → ℝ} {ε E : ℝ} (hE : 0 ≤ E) (hε : n * E ≤ ε) (hpd : LowerEigGe ε n a)
    (hd : ∀ j, j < k → l j j ≠ 0) (hl : ∀ i j, j < k → j ≤ i → i < n → |a i j - ∑ q ∈ range (j + 1), l i q * l j q| ≤ E) :
    ε - n * E ≤ a i i - ∑ q ∈ range k, l i q * l i q := by
  obtain ⟨y, hy⟩ := exists_low_transpose_solution l k hd (fun j => l i j)
  let x : Nat → ℝ := fun p => (if p < k then - y p else 0) + if p = i then 1 else 0
  let R : Nat → Nat → ℝ := fun p q => ∑ t ∈ range k, low l p t * low l q t
  let s : ℝ := a i i - ∑ q ∈ range k, l i q * l i q
  have hsum : ∀ f : Nat → ℝ, ∑ p ∈ range n, x p * f p = - ∑ p ∈ range k, y p * f p + f i := by
    intro f
    simp only [x, add_mul, sum_add_distrib, ite_mul, zero_mul, one_mul]
    rw [sum_ite_eq' (range n) i, if_pos (mem_range.2 hi)]
    congr 1
    rw [← sum_filter, ← sum_neg_distrib]
    refine sum_congr ?_ (fun p _ => by ring)
    ext p
    simp only [mem_filter, mem_range]
    omega
  have hRi : R i i = ∑ q ∈ range k, l i q * l i q := sum_congr rfl fun q hq => by
    have := mem_range.1 hq
    unfold low; rw [if_pos (by omega)]
  have key : ∀ p q, q < k → q ≤ p → p < n → |a p q - R p q| ≤ E := by
    intro p q hq hqp hp
    have h0 := hl p q hq hqp hp
    have e : ∑ t ∈ range (q + 1), l p t * l q t = R p q := by
      rw [show ∑ t ∈ range (q + 1), l p t * l q t = ∑ t ∈ range (q + 1), low l p t * low l q t from
        sum_congr rfl fun t ht => by
          have := mem_range.1 ht
          unfold low; rw [if_pos (by omega), if_pos (by omega)]]
      refine sum_subset ?_ ?_
      · intro t ht; rw [mem_range] at *; omega
      · intro t _ ht; rw [mem_range] at ht
        have : low l q t = 0 := by unfold low; rw [if_neg (by omega)]
        rw [this, mul_zero]
    rwa [e] at h0
  have hx0 : ∀ p, k ≤ p → p ≠ i → x p = 0 := by
    intro p h1 h2
    simp only [x]; rw [if_neg (by omega), if_neg h2, add_zero]
  have hxi : x i = 1 := by simp only [x]; rw [if_neg (by omega)]; simp
  have hcol : ∀ q, q < k → ∑ p ∈ range n, x p * low l p q = 0 := by
    intro q hq
    rw [hsum (fun p => low l p q), hy q hq]
    unfold low; rw [if_pos (by omega)]; ring
  have hzero : ∑ p ∈ range n, ∑ q ∈ range n, x p * R p q * x q = 0 := by
    refine sum_eq_zero (fun p _ => ?_)
    have : ∀ q ∈ range n, x p * R p q * x q = ∑ t ∈ range k, x p * low l p t * (x q * low l q t) := by
      intro q _
      simp only [R]
      rw [mul_sum, sum_mul]
      exact sum_congr rfl (fun q _ => by ring)
    rw [sum_congr rfl this, sum_comm]
    refine sum_eq_zero (fun t ht => ?_)
    rw [← mul_sum, hcol t (mem_range.1 ht), mul_zero]
  have hterm : ∀ p, p < n → ∀ q, q < n → x p * a (max p q) (min p q) * x q ≤
      x p * R p q * x q + (|x p| * |x q| * E + if q = i then (if p = i then s else 0) else 0) := by
    intro p hp q hq
    have hs0 : 0 ≤ |x p| * |x q| * E := by positivity
    by_cases h1 : p = i ∧ q = i
    · obtain ⟨rfl, rfl⟩ := h1
      rw [if_pos rfl, if_pos rfl, max_self, min_self, hxi, hRi]
      have : 0 ≤ |(1 : ℝ)| * |(1 : ℝ)| * E := by positivity
      simp only [s]
      linarith
    · have hz : (if q = i then (if p = i then s else 0) else 0) = 0 := by
        by_cases h2 : q = i
        · rw [if_pos h2, if_neg fun h3 => h1 ⟨h3, h2⟩]
        · rw [if_neg h2]
      rw [hz, add_zero]
      have hab : x p ≠ 0 → x q ≠ 0 → |a (max p q) (min p q) - R p q| ≤ E := by
        intro hxp hxq
        have hp' : p < k ∨ p = i := by
          by_contra hc
          push Not at hc
          exact hxp (hx0 p hc.1 hc.2)
        have hq' : q < k ∨ q = i := by
          by_contra hc
          push Not at hc
          exact hxq (hx0 q hc.1 hc.2)
        rcases Nat.lt_or_ge q p with h2 | h2
        · rw [max_eq_left (by omega), min_eq_right (by omega)]
          exact key p q (by omega) (by omega) hp
        · rw [max_eq_right (by omega), min_eq_left (by omega)]
          have hR : R p q = R q p := sum_congr rfl (fun t _ => mul_comm _ _)
          rw [hR]
          exact key q p (by omega) (by omega) hq
      by_cases hxp : x p = 0
      · rw [hxp]; simp
      by_cases hxq : x q = 0
      · rw [hxq]; simp
      have h3 := hab hxp hxq
      have h4 : x p * (a (max p q) (min p q) - R p q) * x q ≤ |x p| * |x q| * E := by
        refine le_trans (le_abs_self _) ?_
        rw [abs_mul, abs_mul]
        have := mul_le_mul_of_nonneg_left h3 (mul_nonneg (abs_nonneg (x p)) (abs_nonneg (x q)))
        linarith
      linarith
  have h1 := hpd x
  have h2 : ∑ p ∈ range n, ∑ q ∈ range n, x p * a (max p q) (min p q) * x q ≤ (∑ p ∈ range n, |x p|) ^ 2 * E + s := by
    refine le_trans (sum_le_sum fun p hp => sum_le_sum fun q hq => hterm p (mem_range.1 hp) q (mem_range.1 hq)) ?_
    simp only [sum_add_distrib]
    rw [hzero, zero_add]
    refine add_le_add (le_of_eq ?_) (le_of_eq ?_)
    · rw [sq, sum_mul_sum, sum_mul]
      exact sum_congr rfl fun p _ => by rw [sum_mul]
    · have : ∀ p ∈ range n, ∑ q ∈ range n, (if q = i then (if p = i then s else 0) else 0) = if p = i then s else 0 := by
        intro p _
        rw [sum_ite_eq' (range n) i, if_pos (mem_range.2 hi)]
      rw [sum_congr rfl this, sum_ite_eq' (range n) i, if_pos (mem_range.2 hi)]
  have h3 := sq_sum_le_card_mul_sum_sq (s := range n) (f := fun p => |x p|)
  rw [card_range] at h3
  have h4 : ∑ p ∈ range n, |x p| ^ 2 = ∑ p ∈ range n, x p * x p := sum_congr rfl fun p _ => by rw [sq_abs, sq]
  rw [h4] at h3
  have h5 : (1 : ℝ) ≤ ∑ p ∈ range n, x p * x p := by
    have := single_le_sum (f := fun p => x p * x p) (fun p _ => mul_self_nonneg (x p)) (mem_range.2 hi)
    rw [hxi] at this
    linarith
  have h6 := mul_le_mul_of_nonneg_right h3 hE
  have h7 : ε - n * E ≤ (ε - n * E) * ∑ p ∈ range n, x p * x p := le_mul_of_one_le_right (by linarith) h5
  change _ ≤ s
  nlinarith

namespace Bin
variable {F : Format}

theorem fnma_fwd {a b c : Bin F} (ha : a.Finite) (hb : b.Finite) (hc : c.Finite) {B : ℝ} (h : |c.real - a.real * b.real| ≤ B) (hB : (1 + F.u) * B + F.eta < F.big) :
    (fnma a b c).Finite ∧ |(fnma a b c).real| ≤ (1 + F.u) * B + F.eta := by
  have hn : (neg a).Finite := by
    rcases a with ⟨s, x⟩ | _ | _
    · trivial
    · exact ha.elim
    · exact ha.elim
  exact fma_fwd hn hb hc (by rw [real_neg]; convert h using 2; ring) hB

/-- growth of a chain of fused multiply-adds -/
theorem chain_step {u η b s p z : ℝ} (hu : 0 ≤ u) (hη : 0 ≤ η) {t : Nat} {P : ℝ} (hP : 0 ≤ P) (hb : b = (1 + u) ^ t * (s + P + t * η)) (hs : 0 ≤ s) (hp : 0 ≤ p)
    (hz : z = (1 + u) ^ (t + 1) * (s + (P + p) + ((t + 1 : Nat) : ℝ) * η)) : (1 + u) * (b + p) + η ≤ z := by
  have g1 : 1 ≤ (1 + u) ^ t := one_le_pow₀ (by linarith)
  have g2 : 1 ≤ (1 + u) ^ (t + 1) := one_le_pow₀ (by linarith)
  have h1 := mul_le_mul_of_nonneg_right g1 (mul_nonneg (by linarith : 0 ≤ 1 + u) hp)
  have h2 := mul_le_mul_of_nonneg_right g2 hη
  rw [hb, hz]
  push_cast
  have e : (1 + u) ^ (t + 1) = (1 + u) ^ t * (1 + u) := pow_succ _ _
  rw [e] at h2 ⊢
  nlinarith

/-- the products of two rows subtracted from acc, forwards -/
theorem potS_fwd {KN : Nat} {l : Nat → Nat → Bin F} {acc : Bin F} {r c : Nat} (hn : ∀ q, q < c → IsNum (l r q)) (ha : acc.Finite)
    (hf : ∀ q, q < c → (l r q).Finite ∧ (l c q).Finite) {B : ℝ}
    (hB : B = (1 + F.u) ^ c * (|acc.real| + ∑ q ∈ range c, |(l r q).real * (l c q).real| + c * F.eta)) (hbig : B < F.big) :
    (potS KN l acc r c).Finite ∧ |(potS KN l acc r c).real| ≤ B := by
  have e : c = c / KN * KN + c % KN := by have := Nat.div_add_mod c KN; rw [Nat.mul_comm] at this; omega
  have hu := F.u_pos
  have he := F.eta_pos
  unfold potS
  set K := c / KN * KN
  set R := c % KN
  have bd : ∀ t, t ≤ c → (1 + F.u) ^ t * (|acc.real| + ∑ q ∈ range t, |(l r q).real * (l c q).real| + t * F.eta) ≤ B := by
    intro t ht
    rw [hB]
    have h1 : ∑ q ∈ range t, |(l r q).real * (l c q).real| ≤ ∑ q ∈ range c, |(l r q).real * (l c q).real| :=
      sum_le_sum_of_subset_of_nonneg (fun q hq => by rw [mem_range] at *; omega) (fun _ _ _ => abs_nonneg _)
    have h2 : (t : ℝ) * F.eta ≤ c * F.eta := mul_le_mul_of_nonneg_right (by exact_mod_cast ht) he.le
    have h0 : 0 ≤ ∑ q ∈ range t, |(l r q).real * (l c q).real| := sum_nonneg fun _ _ => abs_nonneg _
    refine mul_le_mul (pow_le_pow_right₀ (by linarith) ht) (by linarith) (by positivity) (by positivity)
  have s1 : ∀ t, t ≤ K → (fmaSum (fun q => Arith.mul (Arith.neg Arith.one) (l r q)) (fun q => l c q) acc t).Finite ∧
      |(fmaSum (fun q => Arith.mul (Arith.neg Arith.one) (l r q)) (fun q => l c q) acc t).real| ≤
        (1 + F.u) ^ t * (|acc.real| + ∑ q ∈ range t, |(l r q).real * (l c q).real| + t * F.eta) := by
    intro t ht
    induction t with
    | zero => exact ⟨ha, by simp [fmaSum]⟩
    | succ t ih =>
      obtain ⟨i1, i2⟩ := ih (by omega)
      obtain ⟨f1, f2⟩ := hf t (by omega)
      obtain ⟨n1, n2⟩ := mul_negOne (hn t (by omega)) f1
      have st := chain_step (t := t) hu.le he.le (sum_nonneg fun q (_ : q ∈ range t) => abs_nonneg ((l r q).real * (l c q).real)) rfl (abs_nonneg acc.real) (abs_nonneg ((l r t).real * (l c t).real)) rfl
      rw [← sum_range_succ (fun q => |(l r q).real * (l c q).real|)] at st
      have hb := lt_of_le_of_lt (le_trans st (bd (t + 1) (by omega))) hbig
      obtain ⟨r1, r2⟩ := fma_fwd n1 f2 i1 (by
        rw [n2]
        refine le_trans (abs_add_le _ _) ?_
        rw [neg_mul, abs_neg, add_comm]
        exact add_le_add i2 le_rfl) hb
      exact ⟨r1, le_trans r2 st⟩
  have s2 : ∀ t, t ≤ R → (fnmaSum (fun t => l c (K + t)) (fun t => l r (K + t)) (fmaSum (fun q => Arith.mul (Arith.neg Arith.one) (l r q)) (fun q => l c q) acc K) t).Finite ∧
      |(fnmaSum (fun t => l c (K + t)) (fun t => l r (K + t)) (fmaSum (fun q => Arith.mul (Arith.neg Arith.one) (l r q)) (fun q => l c q) acc K) t).real| ≤
        (1 + F.u) ^ (K + t) * (|acc.real| + ∑ q ∈ range (K + t), |(l r q).real * (l c q).real| + (K + t : Nat) * F.eta) := by
    intro t ht
    induction t with
    | zero => exact s1 K le_rfl
    | succ t ih =>
      obtain ⟨i1, i2⟩ := ih (by omega)
      obtain ⟨f1, f2⟩ := hf (K + t) (by omega)
      have st := chain_step (t := K + t) hu.le he.le (sum_nonneg fun q (_ : q ∈ range (K + t)) => abs_nonneg ((l r q).real * (l c q).real)) rfl (abs_nonneg acc.real) (abs_nonneg ((l r (K + t)).real * (l c (K + t)).real)) rfl
      rw [← sum_range_succ (fun q => |(l r q).real * (l c q).real|)] at st
      have hb := lt_of_le_of_lt (le_trans st (bd (K + t + 1) (by omega))) hbig
      obtain ⟨r1, r2⟩ := fnma_fwd f2 f1 i1 (by
        rw [sub_eq_add_neg]
        refine le_trans (abs_add_le _ _) ?_
        rw [abs_neg, mul_comm (l c (K + t)).real]
        exact add_le_add i2 le_rfl) hb
      exact ⟨r1, le_trans r2 st⟩
  obtain ⟨t1, t2⟩ := s2 R le_rfl
  rw [← e] at t2
  exact ⟨t1, by rw [hB]; exact t2⟩

/-- square root and division of a pivot that is large enough -/
theorem pivot_fwd (hW : F.Wide) {S : Bin F} (hS : IsNum S) (hf : S.Finite) {ρ : ℝ} (hρ : 0 < ρ) (h : ρ * ρ ≤ S.real) :
    (sqrt S).Finite ∧ (1 - F.u) * ρ ≤ (sqrt S).real ∧ |(sqrt S).real - Real.sqrt S.real| ≤ F.u * Real.sqrt S.real := by
  rcases S with ⟨s, x⟩ | _ | _
  · have hpos : 0 < (fin s x : Bin F).real := lt_of_lt_of_le (mul_pos hρ hρ) h
    have hx : x ≠ 0 := fun e => by rw [(real_eq_zero s x).2 e] at hpos; exact lt_irrefl _ hpos
    cases s with
    | true =>
      have : (fin true x : Bin F).real ≤ 0 := by simp [real]
      linarith
    | false =>
      have hx0 : 0 < (x : ℝ) := by
        have : 0 < x := pos_iff_ne_zero.2 hx
        exact_mod_cast this
      have hr : (fin false x : Bin F).real = x := by simp [real]
      have hrep : F.Representable (x : ℝ) := by have := hS hf; rwa [hr] at this
      rw [hr] at h ⊢
      have e1 : sqrt (fin false x : Bin F) = mk F false (Real.sqrt x) := by simp [sqrt, hx]
      have hs0 : 0 < Real.sqrt (x : ℝ) := Real.sqrt_pos.2 hx0
      have hu := F.u_pos
      have hu2 := F.u_le_half
      have hlow : (2 : ℝ) ^ (F.emin + 1) ≤ Real.sqrt (x : ℝ) := by
        refine Real.le_sqrt_of_sq_le ?_
        have h1 := hrep.le hx0
        refine le_trans ?_ h1
        rw [pow_two, ← zpow_add₀ (by norm_num)]
        exact Format.two_zpow_le (by have := hW.1; omega)
      have hp2 : (0 : ℝ) < (2 : ℝ) ^ F.emin := zpow_pos (by norm_num) _
      have e2 : (2 : ℝ) ^ (F.emin + 1) = 2 ^ F.emin * 2 := by rw [zpow_add₀ (by norm_num), zpow_one]
      rw [e2] at hlow
      have hbig4 := big_ge_four hW
      have hxb : (x : ℝ) < F.big := lt_of_le_of_lt (le_abs_self _) (Format.Representable.lt_big hrep)
      have heta := eta_le_half hW
      have hfin : (mk F false (Real.sqrt (x : ℝ))).Finite := by
        refine mk_finite ?_
        rw [abs_of_pos hs0]
        have h5 : Real.sqrt (x : ℝ) ≤ F.big / 2 := by
          refine Real.sqrt_le_iff.2 ⟨by linarith, ?_⟩
          nlinarith
        nlinarith
      have h3 : |(mk F false (Real.sqrt (x : ℝ))).real - Real.sqrt x| ≤ F.u * |Real.sqrt (x : ℝ)| := mk_rel (by rw [abs_of_pos hs0]; linarith) hfin
      rw [e1]
      rw [abs_of_pos hs0] at h3
      refine ⟨hfin, ?_, h3⟩
      have h6 : ρ ≤ Real.sqrt (x : ℝ) := Real.le_sqrt_of_sq_le (by rw [sq]; exact h)
      have h7 := (abs_le.1 h3).1
      have h8 := mul_le_mul_of_nonneg_left h6 (show 0 ≤ 1 - F.u by linarith)
      linarith
  · exact hf.elim
  · exact hf.elim

/-- the elements of a column of the factor: |l(i,k) l(k,k)| ≤ w⁴ σ + λ η -/
theorem div_mul_le {S d z : Bin F} (hS : S.Finite) (hd : d.Finite) {σ δ w lk : ℝ} (hw1 : 1 + F.u ≤ w) (hδ : 0 < δ) (hdδ : δ ≤ d.real) (hSσ : |S.real| ≤ σ)
    (hbig : (1 + F.u) * (σ / δ) + F.eta < F.big) (hz : z = div S d) (hlk0 : 0 ≤ lk) (hlk : lk ≤ w ^ 3 * d.real) :
    z.Finite ∧ |z.real| * lk ≤ w ^ 4 * σ + lk * F.eta := by
  have hu := F.u_pos
  have he := F.eta_pos
  have hd0 : 0 < d.real := lt_of_lt_of_le hδ hdδ
  have hσ : 0 ≤ σ := le_trans (abs_nonneg _) hSσ
  have h1 : (1 + F.u) * (σ / d.real) + F.eta < F.big := by
    have : σ / d.real ≤ σ / δ := div_le_div_of_nonneg_left hσ hδ hdδ
    have := mul_le_mul_of_nonneg_left this (show 0 ≤ 1 + F.u by linarith)
    linarith
  obtain ⟨f1, f2⟩ := div_fwd hS hd hd0 (le_abs_self _) hSσ h1
  rw [← hz] at f1 f2
  refine ⟨f1, ?_⟩
  have h2 := mul_le_mul_of_nonneg_right f2 hlk0
  have h3 : (1 + F.u) * (σ / d.real) * lk ≤ w ^ 4 * σ := by
    have h4 : σ / d.real * lk ≤ w ^ 3 * σ := by
      rw [div_mul_eq_mul_div, div_le_iff₀ hd0]
      have := mul_le_mul_of_nonneg_left hlk hσ
      linarith
    have h5 : 0 ≤ σ / d.real * lk := by positivity
    calc (1 + F.u) * (σ / d.real) * lk = (1 + F.u) * (σ / d.real * lk) := by ring
      _ ≤ w * (w ^ 3 * σ) := mul_le_mul hw1 h4 h5 (by linarith)
      _ = w ^ 4 * σ := by ring
  rw [add_mul] at h2
  linarith

theorem sum_abs_mul_le {n : Nat} {x y : Nat → ℝ} {μ : ℝ} (hx : ∑ q ∈ range n, x q * x q ≤ μ) (hy : ∑ q ∈ range n, y q * y q ≤ μ) : ∑ q ∈ range n, |x q * y q| ≤ μ := by
  have h : ∑ q ∈ range n, |x q * y q| ≤ ∑ q ∈ range n, (1 / 2 * (x q * x q) + 1 / 2 * (y q * y q)) := by
    refine sum_le_sum fun q _ => ?_
    rw [abs_mul]
    have h1 := mul_self_nonneg (|x q| - |y q|)
    have h2 := abs_mul_abs_self (x q)
    have h3 := abs_mul_abs_self (y q)
    nlinarith
  rw [sum_add_distrib, ← mul_sum, ← mul_sum] at h
  linarith

set_option maxHeartbeats 1000000 in
/-- The Cholesky recurrence does not overflow if the matrix has moderate elements and its smallest eigenvalue exceeds the rounding errors. -/
theorem potRec_fwd (hW : F.Wide) {T KN n : Nat} (hKN : 0 < KN) (hT : KN ≤ T) {l a : Nat → Nat → Bin F}
    (hnum : ∀ i j, j ≤ i → i < n → (a i j).IsNum) {μ ε σ lam w Q E δ : ℝ} (hfin : ∀ i j, j ≤ i → i < n → (a i j).Finite ∧ |(a i j).real| ≤ μ)
    (h : ∀ r c : Nat, c ≤ r → r < n → PotRec T KN n l a r c) (hpd : LowerEigGe ε n (fun i j => (a i j).real))
    (hw : w = 1 / (1 - F.u)) (hσ : σ = (1 + F.u) ^ n * (2 * μ + n * F.eta)) (hlam : lam = w ^ 4 * (1 + σ)) (hQ : Q = μ + w ^ 4 * σ + lam * F.eta)
    (hE : E = (w ^ (n + 4) - 1) * Q + w ^ (n + 4) * (2 * n + lam) * F.eta) (hδ : 0 < δ) (hδε : (w ^ 4 * δ) * (w ^ 4 * δ) ≤ ε - (n + 1) * E)
    (hb1 : σ < F.big) (hb2 : (1 + F.u) * (σ / δ) + F.eta < F.big) :
    ∀ k, k ≤ n → ∀ j, j < k → ∀ i, j ≤ i → i < n → (l i j).Finite ∧ δ ≤ (l j j).real ∧
      |(a i j).real - ∑ q ∈ range (j + 1), (l i q).real * (l j q).real| ≤ E := by
  intro k hk
  induction k with
  | zero => intro j hj; omega
  | succ k ih =>
    have ih := ih (by omega)
    have hu := F.u_pos
    have hu1 := F.u_lt_one
    have he := F.eta_pos
    have hv := bu_pos (F := F)
    have hwb : w = 1 + bu F.u := by rw [hw, one_add_bu hu1]
    have hw1 : 1 + F.u ≤ w := by rw [hwb]; have := le_bu hu.le hu1; linarith
    have hwu : (1 - F.u) * w = 1 := by rw [hw]; field_simp [show 1 - F.u ≠ 0 by linarith]
    have hw0 : 1 ≤ w := by linarith
    have hμ : 0 ≤ μ := le_trans (abs_nonneg _) (hfin k k le_rfl (by omega)).2
    have hn0 : (0 : ℝ) ≤ n := Nat.cast_nonneg n
    have hσ0 : 0 ≤ σ := by rw [hσ]; positivity
    have g4 : 1 ≤ w ^ 4 := one_le_pow₀ hw0
    have gn : 1 ≤ w ^ (n + 4) := one_le_pow₀ hw0
    have hlam0 : 0 ≤ lam := by rw [hlam]; positivity
    have hQ0 : 0 ≤ Q := by rw [hQ]; positivity
    have hE0 : 0 ≤ E := by
      rw [hE]
      have : 0 ≤ (w ^ (n + 4) - 1) * Q := mul_nonneg (by linarith) hQ0
      positivity
    have hεE : (n : ℝ) * E ≤ ε := by nlinarith [mul_self_nonneg (w ^ 4 * δ)]
    have hrow : ∀ i, k ≤ i → i < n → ε - n * E ≤ (a i i).real - ∑ q ∈ range k, (l i q).real * (l i q).real := fun i hi hin =>
      schur_ge (a := fun i j => (a i j).real) (l := fun i j => (l i j).real) hi hin hE0 hεE hpd
        (fun j hj => ne_of_gt (lt_of_lt_of_le hδ (ih j hj j le_rfl (by omega)).2.1)) (fun i j hj hji hi => (ih j hj i hji hi).2.2)
    have hnorm : ∀ i, k ≤ i → i < n → ∑ q ∈ range k, (l i q).real * (l i q).real ≤ μ := fun i hi hin => by
      have h1 := hrow i hi hin
      have h2 := le_trans (le_abs_self _) (hfin i i le_rfl hin).2
      linarith
    have hlnum : ∀ i, k ≤ i → i < n → ∀ q, q < k → (l i q).IsNum := fun i hi hin q hq => by
      rw [show l i q = _ from h i q (by omega) hin]
      exact isNum_div _ _
    have hprod : ∀ i, k ≤ i → i < n → ∑ q ∈ range k, |(l i q).real * (l k q).real| ≤ μ := fun i hi hin =>
      sum_abs_mul_le (hnorm i hi hin) (hnorm k le_rfl (by omega))
    have hS : ∀ i, k ≤ i → i < n → (potS KN l (a i k) i k).Finite ∧ |(potS KN l (a i k) i k).real| ≤ σ := by
      intro i hi hin
      have hB : (1 + F.u) ^ k * (|(a i k).real| + ∑ q ∈ range k, |(l i q).real * (l k q).real| + k * F.eta) ≤ σ := by
        rw [hσ]
        have h1 := hprod i hi hin
        have h2 := (hfin i k hi hin).2
        have h3 : (k : ℝ) * F.eta ≤ n * F.eta := mul_le_mul_of_nonneg_right (by exact_mod_cast (by omega : k ≤ n)) he.le
        have h0 : 0 ≤ ∑ q ∈ range k, |(l i q).real * (l k q).real| := sum_nonneg fun _ _ => abs_nonneg _
        exact mul_le_mul (pow_le_pow_right₀ (by linarith) (by omega)) (by linarith) (by positivity) (by positivity)
      obtain ⟨s1, s2⟩ := potS_fwd (KN := KN) (hlnum i hi hin) (hfin i k hi hin).1 (fun q hq => ⟨(ih q hq i (by omega) hin).1, (ih q hq k (by omega) (by omega)).1⟩) rfl (lt_of_le_of_lt hB hb1)
      exact ⟨s1, le_trans s2 hB⟩
    have gk : 1 ≤ w ^ k := one_le_pow₀ hw0
    have gkn : w ^ k ≤ w ^ (n + 4) := pow_le_pow_right₀ hw0 (by omega)
    have gkn4 : w ^ (k + 4) ≤ w ^ (n + 4) := pow_le_pow_right₀ hw0 (by omega)
    have hkn : (k : ℝ) ≤ n := by exact_mod_cast (by omega : k ≤ n)
    have hk0 : (0 : ℝ) ≤ k := Nat.cast_nonneg k
    -- the pivot
    obtain ⟨sk1, sk2⟩ := hS k le_rfl (by omega)
    have hpiv : (w ^ 4 * δ) * (w ^ 4 * δ) ≤ (potS KN l (a k k) k k).real := by
      obtain ⟨-, -, p3⟩ := potS_inv (hlnum k le_rfl (by omega)) sk1
      rw [← hwb] at p3
      have h1 := hrow k le_rfl (by omega)
      have h2 := (abs_le.1 p3).2
      have h3 : (w ^ k - 1) * (|(potS KN l (a k k) k k).real| + ∑ q ∈ range k, |(l k q).real * (l k q).real|) ≤ (w ^ (n + 4) - 1) * Q := by
        have h4 := hprod k le_rfl (by omega)
        have h5 := mul_le_mul_of_nonneg_right g4 hσ0
        have h0 : 0 ≤ ∑ q ∈ range k, |(l k q).real * (l k q).real| := sum_nonneg fun _ _ => abs_nonneg _
        have h6 : 0 ≤ lam * F.eta := by positivity
        refine mul_le_mul (by linarith) (by rw [hQ]; linarith) (by positivity) (by linarith)
      have h4 : (k : ℝ) * w ^ k * (2 * F.eta) ≤ w ^ (n + 4) * (2 * n + lam) * F.eta := by
        have h5 : (k : ℝ) * w ^ k ≤ n * w ^ (n + 4) := mul_le_mul hkn gkn (by linarith) hn0
        have h6 := mul_le_mul_of_nonneg_right h5 (show 0 ≤ 2 * F.eta by linarith)
        have h7 : 0 ≤ w ^ (n + 4) * lam * F.eta := by positivity
        nlinarith
      have h5 : (w ^ k - 1) * (|(potS KN l (a k k) k k).real| + ∑ q ∈ range k, |(l k q).real * (l k q).real|) + (k : ℝ) * w ^ k * (2 * F.eta) ≤ E := by
        rw [hE]; linarith
      linarith
    have hw4δ : 0 < w ^ 4 * δ := by positivity
    obtain ⟨t1, t2, t3⟩ := pivot_fwd hW (isNum_potS (hnum k k le_rfl (by omega))) sk1 hw4δ hpiv
    have hcc : l k k = Arith.div (potS KN l (a k k) k k) (Arith.sqrt (potS KN l (a k k) k k)) := by
      have := h k k le_rfl (by omega)
      unfold PotRec at this
      rwa [if_pos (potHeight_diag hKN hT)] at this
    have hcc' : l k k = div (potS KN l (a k k) k k) (sqrt (potS KN l (a k k) k k)) := hcc
    set S := potS KN l (a k k) k k with hSdef
    set t := sqrt S with ht
    have t2' : w ^ 3 * δ ≤ t.real := by
      refine le_trans (le_of_eq ?_) t2
      calc w ^ 3 * δ = ((1 - F.u) * w) * (w ^ 3 * δ) := by rw [hwu, one_mul]
        _ = _ := by ring
    have g3 : 1 ≤ w ^ 3 := one_le_pow₀ hw0
    have ht0 : δ ≤ t.real := le_trans (le_mul_of_one_le_left hδ.le g3) t2'
    obtain ⟨c1, -⟩ := div_fwd sk1 t1 hδ (le_trans ht0 (le_abs_self _)) sk2 hb2
    obtain ⟨p1, p2, p3, p4⟩ := pivot_inv hW (isNum_potS (hnum k k le_rfl (by omega))) c1
    rw [← hSdef, ← ht, ← hcc'] at p3 p4
    rw [← hcc'] at c1
    have hlt : t.real ≤ w ^ 3 * (l k k).real := by
      have h1 := p4.left
      rw [← hwb, abs_of_pos p3] at h1
      have := (abs_le.1 h1).1
      linarith
    have hlt' : (l k k).real ≤ w ^ 3 * t.real := by
      have h1 := p4.symm.left
      rw [← hwb, abs_of_pos p2] at h1
      have := (abs_le.1 h1).1
      linarith
    have hδl : δ ≤ (l k k).real := by
      have h1 : w ^ 3 * δ ≤ w ^ 3 * (l k k).real := le_trans t2' hlt
      exact le_of_mul_le_mul_left h1 (by linarith)
    have hlkl : (l k k).real ≤ lam := by
      have hS0 : 0 ≤ S.real := le_trans (mul_self_nonneg _) hpiv
      have h1 : Real.sqrt S.real ≤ 1 + σ := by
        refine Real.sqrt_le_iff.2 ⟨by linarith, ?_⟩
        have h5 := le_trans (le_abs_self _) sk2
        have h6 := mul_self_nonneg σ
        have h7 : (1 + σ) ^ 2 = 1 + 2 * σ + σ * σ := by ring
        linarith
      have h2 := (abs_le.1 t3).2
      have h3 : t.real ≤ w * (1 + σ) := by
        have h4 : t.real ≤ (1 + F.u) * Real.sqrt S.real := by linarith
        refine le_trans h4 (mul_le_mul hw1 h1 (Real.sqrt_nonneg _) (by linarith))
      have h4 := mul_le_mul_of_nonneg_left h3 (show 0 ≤ w ^ 3 by positivity)
      rw [hlam]
      calc (l k k).real ≤ w ^ 3 * t.real := hlt'
        _ ≤ w ^ 3 * (w * (1 + σ)) := h4
        _ = _ := by ring
    intro j hj i hji hi
    rcases Nat.lt_or_ge j k with hjk | hjk
    · exact ih j hjk i hji hi
    · obtain rfl : j = k := by omega
      obtain ⟨si1, si2⟩ := hS i hji hi
      have hrc : l i j = div (potS KN l (a i j) i j) t ∨ l i j = div (potS KN l (a i j) i j) (l j j) := by
        have := h i j hji hi
        unfold PotRec at this
        split_ifs at this
        · exact Or.inl this
        · exact Or.inr this
      have hfl : (l i j).Finite ∧ |(l i j).real| * (l j j).real ≤ w ^ 4 * σ + (l j j).real * F.eta := by
        rcases hrc with hh | hh
        · exact div_mul_le si1 t1 hw1 hδ ht0 si2 hb2 hh p3.le hlt'
        · exact div_mul_le si1 c1 hw1 hδ hδl si2 hb2 hh p3.le (le_mul_of_one_le_left p3.le g3)
      obtain ⟨f1, f2⟩ := hfl
      refine ⟨f1, hδl, ?_⟩
      obtain ⟨-, -, -, r4⟩ := pot_entry' hW (hnum j j le_rfl (by omega)) (hlnum i hji hi) hcc c1 hrc f1
      rw [← hwb, abs_of_pos p3] at r4
      refine le_trans r4 ?_
      rw [hE]
      have h0 : 0 ≤ ∑ q ∈ range (j + 1), |(l i q).real| * |(l j q).real| := sum_nonneg fun _ _ => by positivity
      have h1 : ∑ q ∈ range (j + 1), |(l i q).real| * |(l j q).real| ≤ Q := by
        rw [sum_range_succ, abs_of_pos p3, hQ]
        have h2 := hprod i hji hi
        have h3 : ∑ q ∈ range j, |(l i q).real| * |(l j q).real| = ∑ q ∈ range j, |(l i q).real * (l j q).real| := sum_congr rfl fun q _ => (abs_mul _ _).symm
        rw [h3]
        have h4 := mul_le_mul_of_nonneg_right hlkl he.le
        linarith
      have gj : 1 ≤ w ^ (j + 4) := one_le_pow₀ hw0
      refine add_le_add (mul_le_mul (by linarith) h1 h0 (by linarith)) (mul_le_mul_of_nonneg_right ?_ he.le)
      exact mul_le_mul gkn4 (by linarith) (by linarith) (by linarith)

end Bin
end Blast
