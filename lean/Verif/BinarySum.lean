import Verif.Binary
import Verif.Determined
import Mathlib.Tactic.Linarith
/-
Rounding errors, underflow and overflow of the accumulations of the code in a binary format of IEEE 754.
-/
namespace Blast
namespace Bin
open Finset
variable {F : Format}

/-- one more operation on a number known with error e -/
theorem err_step {u h x x' r e X : ℝ} (hu : 0 ≤ u) (h1 : |x' - x| ≤ e) (hX : |x| ≤ X) (h2 : |r - x'| ≤ u * |x'| + h) : |r - x| ≤ (1 + u) * e + u * X + h := by
  have h3 : |x'| ≤ X + e := by
    have := abs_add_le (x' - x) x
    rw [sub_add_cancel] at this
    linarith
  have h4 : |r - x| ≤ |r - x'| + |x' - x| := abs_sub_le _ _ _
  have h5 : u * |x'| ≤ u * (X + e) := mul_le_mul_of_nonneg_left h3 hu
  linarith

theorem one_le_g (n : Nat) : 1 ≤ (1 + F.u) ^ n := one_le_pow₀ (by have := F.u_pos; linarith)

theorem abs_sum_le (a b : Nat → Bin F) (K : Nat) : |∑ k ∈ range K, (a k).real * (b k).real| ≤ ∑ k ∈ range K, |(a k).real| * |(b k).real| :=
  le_trans (abs_sum_le_sum_abs _ _) (le_of_eq (sum_congr rfl fun _ _ => abs_mul _ _))

/-- a finite accumulation: everything that went into it was finite, and the error is bounded -/
theorem fmaSum_inv {a b : Nat → Bin F} {z : Bin F} (K : Nat) (h : (fmaSum a b z K).Finite) :
    z.Finite ∧ (∀ k, k < K → (a k).Finite ∧ (b k).Finite) ∧
    |(fmaSum a b z K).real - (z.real + ∑ k ∈ range K, (a k).real * (b k).real)| ≤
      ((1 + F.u) ^ K - 1) * (|z.real| + ∑ k ∈ range K, |(a k).real| * |(b k).real|) + K * (1 + F.u) ^ K * F.eta := by
  induction K with
  | zero => exact ⟨h, fun k hk => absurd hk (Nat.not_lt_zero k), by simp [fmaSum]⟩
  | succ K ih =>
    obtain ⟨h1, h2, h3, h4⟩ := fma_inv (h : (fma (a K) (b K) (fmaSum a b z K)).Finite)
    obtain ⟨i1, i2, i3⟩ := ih h3
    refine ⟨i1, fun k hk => ?_, ?_⟩
    · rcases Nat.lt_or_eq_of_le (Nat.lt_succ_iff.1 hk) with h | rfl
      · exact i2 k h
      · exact ⟨h1, h2⟩
    · set S := z.real + ∑ k ∈ range K, (a k).real * (b k).real with hS
      set T := |z.real| + ∑ k ∈ range K, |(a k).real| * |(b k).real| with hT
      have e1 : z.real + ∑ k ∈ range (K + 1), (a k).real * (b k).real = (a K).real * (b K).real + S := by rw [sum_range_succ, hS]; ring
      have e2 : |z.real| + ∑ k ∈ range (K + 1), |(a k).real| * |(b k).real| = T + |(a K).real| * |(b K).real| := by rw [sum_range_succ, hT]; ring
      have hu := F.u_pos
      have he := F.eta_pos
      have hTn : 0 ≤ T := by rw [hT]; exact add_nonneg (abs_nonneg _) (sum_nonneg fun _ _ => by positivity)
      have hp : 0 ≤ |(a K).real| * |(b K).real| := by positivity
      have hX : |(a K).real * (b K).real + S| ≤ T + |(a K).real| * |(b K).real| := by
        refine le_trans (abs_add_le _ _) ?_
        rw [abs_mul]
        have : |S| ≤ T := le_trans (abs_add_le _ _) (add_le_add le_rfl (abs_sum_le a b K))
        linarith
      rw [e1, e2]
      have hst := err_step (e := ((1 + F.u) ^ K - 1) * T + K * (1 + F.u) ^ K * F.eta) (x := (a K).real * (b K).real + S) (x' := (a K).real * (b K).real + (fmaSum a b z K).real) hu.le
        (by rw [show (a K).real * (b K).real + (fmaSum a b z K).real - ((a K).real * (b K).real + S) = (fmaSum a b z K).real - S by ring]; exact i3) hX h4
      refine le_trans hst ?_
      have g1 := one_le_g (F := F) K
      have g2 : 1 ≤ (1 + F.u) ^ (K + 1) := one_le_g (K + 1)
      have c1 : ((1 + F.u) ^ (K + 1) - (1 + F.u)) * T ≤ ((1 + F.u) ^ (K + 1) - (1 + F.u)) * (T + |(a K).real| * |(b K).real|) := by
        refine mul_le_mul_of_nonneg_left (by linarith) ?_
        rw [pow_succ]
        nlinarith
      push_cast
      have c2 : F.eta ≤ (1 + F.u) ^ (K + 1) * F.eta := le_mul_of_one_le_left he.le g2
      have q1 : (1 + F.u) ^ (K + 1) = (1 + F.u) * (1 + F.u) ^ K := by ring
      calc (1 + F.u) * (((1 + F.u) ^ K - 1) * T + K * (1 + F.u) ^ K * F.eta) + F.u * (T + |(a K).real| * |(b K).real|) + F.eta
          = ((1 + F.u) ^ (K + 1) - (1 + F.u)) * T + F.u * (T + |(a K).real| * |(b K).real|) + K * (1 + F.u) ^ (K + 1) * F.eta + F.eta := by rw [q1]; ring
        _ ≤ ((1 + F.u) ^ (K + 1) - (1 + F.u)) * (T + |(a K).real| * |(b K).real|) + F.u * (T + |(a K).real| * |(b K).real|) + K * (1 + F.u) ^ (K + 1) * F.eta +
            (1 + F.u) ^ (K + 1) * F.eta := by linarith
        _ = ((1 + F.u) ^ (K + 1) - 1) * (T + |(a K).real| * |(b K).real|) + (K + 1) * (1 + F.u) ^ (K + 1) * F.eta := by ring

/-- no overflow in an accumulation of finite numbers with small enough moduli -/
theorem fmaSum_finite {a b : Nat → Bin F} {z : Bin F} (K : Nat) (hz : z.Finite) (hab : ∀ k, k < K → (a k).Finite ∧ (b k).Finite)
    (h : (1 + F.u) ^ K * (|z.real| + ∑ k ∈ range K, |(a k).real| * |(b k).real| + K * F.eta) < F.big) : (fmaSum a b z K).Finite := by
  induction K with
  | zero => exact hz
  | succ K ih =>
    have hu := F.u_pos
    have he := F.eta_pos
    set T := |z.real| + ∑ k ∈ range K, |(a k).real| * |(b k).real| with hT
    have hTn : 0 ≤ T := by rw [hT]; exact add_nonneg (abs_nonneg _) (sum_nonneg fun _ _ => by positivity)
    have hp : 0 ≤ |(a K).real| * |(b K).real| := by positivity
    have g1 := one_le_g (F := F) K
    have hK : (0 : ℝ) ≤ K := Nat.cast_nonneg K
    rw [sum_range_succ] at h
    push_cast at h
    have q1 : (1 + F.u) ^ (K + 1) = (1 + F.u) * (1 + F.u) ^ K := by ring
    set P := |(a K).real| * |(b K).real| with hP
    have hg : 0 ≤ (1 + F.u) ^ K * (T + P + (K + 1) * F.eta) := by positivity
    have h' : (1 + F.u) * ((1 + F.u) ^ K * (T + P + (K + 1) * F.eta)) < F.big := by
      rw [← mul_assoc, ← q1, hT, hP]
      refine lt_of_le_of_lt (le_of_eq ?_) h
      ring
    have hKe : 0 ≤ (K : ℝ) * F.eta := by positivity
    have hs := ih (fun k hk => hab k (by omega)) (by
      refine lt_of_le_of_lt ?_ h'
      have : (1 + F.u) ^ K * (T + K * F.eta) ≤ (1 + F.u) ^ K * (T + P + (K + 1) * F.eta) := by
        refine mul_le_mul_of_nonneg_left ?_ (by linarith)
        linarith
      nlinarith)
    obtain ⟨i1, i2, i3⟩ := fmaSum_inv K hs
    rw [← hT] at i3
    have hS : |z.real + ∑ k ∈ range K, (a k).real * (b k).real| ≤ T := le_trans (abs_add_le _ _) (add_le_add le_rfl (abs_sum_le a b K))
    have hb1 : |(fmaSum a b z K).real| ≤ (1 + F.u) ^ K * T + K * (1 + F.u) ^ K * F.eta := by
      have := abs_add_le ((fmaSum a b z K).real - (z.real + ∑ k ∈ range K, (a k).real * (b k).real)) (z.real + ∑ k ∈ range K, (a k).real * (b k).real)
      rw [sub_add_cancel] at this
      linarith
    refine fma_finite (hab K (by omega)).1 (hab K (by omega)).2 hs (lt_of_le_of_lt ?_ h')
    have hb2 : |(a K).real * (b K).real + (fmaSum a b z K).real| ≤ P + ((1 + F.u) ^ K * T + K * (1 + F.u) ^ K * F.eta) := by
      refine le_trans (abs_add_le _ _) ?_
      rw [abs_mul]
      linarith
    have hb3 : P ≤ (1 + F.u) ^ K * P := le_mul_of_one_le_left hp g1
    have hb4 : F.eta ≤ (1 + F.u) * ((1 + F.u) ^ K * F.eta) := by
      rw [← mul_assoc, ← q1]; exact le_mul_of_one_le_left he.le (one_le_g _)
    calc (1 + F.u) * |(a K).real * (b K).real + (fmaSum a b z K).real| + F.eta
        ≤ (1 + F.u) * ((1 + F.u) ^ K * P + ((1 + F.u) ^ K * T + K * (1 + F.u) ^ K * F.eta)) + (1 + F.u) * ((1 + F.u) ^ K * F.eta) := by
          refine add_le_add (mul_le_mul_of_nonneg_left (by linarith) (by linarith)) hb4
      _ = (1 + F.u) * ((1 + F.u) ^ K * (T + P + (K + 1) * F.eta)) := by ring

/-- accumulation with scaled factors `alpha x(k)`, starting from a number known up to `u Z + cz eta` -/
theorem scaledSum_inv {alpha z : Bin F} {x y : Nat → Bin F} (K : Nat) {zeta Z cz : ℝ} (hz1 : |z.real - zeta| ≤ F.u * Z + cz * F.eta) (hz2 : |zeta| ≤ Z)
    (h : (fmaSum (fun k => mul alpha (x k)) y z K).Finite) :
    z.Finite ∧ (∀ k, k < K → alpha.Finite ∧ (x k).Finite ∧ (y k).Finite) ∧
    |(fmaSum (fun k => mul alpha (x k)) y z K).real - (zeta + alpha.real * ∑ k ∈ range K, (x k).real * (y k).real)| ≤
      ((1 + F.u) ^ (K + 1) - 1) * (Z + |alpha.real| * ∑ k ∈ range K, |(x k).real| * |(y k).real|) +
        (1 + F.u) ^ K * (K + cz + ∑ k ∈ range K, |(y k).real|) * F.eta := by
  obtain ⟨h1, h2, h3⟩ := fmaSum_inv K h
  have hm : ∀ k, k < K → alpha.Finite ∧ (x k).Finite ∧ |(mul alpha (x k)).real - alpha.real * (x k).real| ≤ F.u * |alpha.real * (x k).real| + F.eta := fun k hk => mul_inv (h2 k hk).1
  refine ⟨h1, fun k hk => ⟨(hm k hk).1, (hm k hk).2.1, (h2 k hk).2⟩, ?_⟩
  have hu := F.u_pos
  have he := F.eta_pos
  have hsum : |∑ k ∈ range K, (mul alpha (x k)).real * (y k).real - alpha.real * ∑ k ∈ range K, (x k).real * (y k).real| ≤
      F.u * (|alpha.real| * ∑ k ∈ range K, |(x k).real| * |(y k).real|) + (∑ k ∈ range K, |(y k).real|) * F.eta := by
    rw [mul_sum, ← sum_sub_distrib, mul_sum, mul_sum, sum_mul, ← sum_add_distrib]
    refine le_trans (abs_sum_le_sum_abs _ _) (sum_le_sum fun k hk => ?_)
    have := (hm k (mem_range.1 hk)).2.2
    rw [← mul_assoc, ← sub_mul, abs_mul]
    refine le_trans (mul_le_mul_of_nonneg_right this (abs_nonneg _)) (le_of_eq ?_)
    rw [abs_mul]; ring
  have hsum2 : ∑ k ∈ range K, |(mul alpha (x k)).real| * |(y k).real| ≤
      (1 + F.u) * (|alpha.real| * ∑ k ∈ range K, |(x k).real| * |(y k).real|) + (∑ k ∈ range K, |(y k).real|) * F.eta := by
    rw [mul_sum, mul_sum, sum_mul, ← sum_add_distrib]
    refine sum_le_sum fun k hk => ?_
    have h4 := (hm k (mem_range.1 hk)).2.2
    have h5 := abs_add_le ((mul alpha (x k)).real - alpha.real * (x k).real) (alpha.real * (x k).real)
    rw [sub_add_cancel] at h5
    have h6 : |(mul alpha (x k)).real| ≤ (1 + F.u) * (|alpha.real| * |(x k).real|) + F.eta := by rw [abs_mul] at h4 h5; linarith
    refine le_trans (mul_le_mul_of_nonneg_right h6 (abs_nonneg _)) (le_of_eq ?_)
    ring
  have hz3 : |z.real| ≤ (1 + F.u) * Z + cz * F.eta := by
    have := abs_add_le (z.real - zeta) zeta
    rw [sub_add_cancel] at this
    linarith
  set T := |alpha.real| * ∑ k ∈ range K, |(x k).real| * |(y k).real| with hT
  set Y := ∑ k ∈ range K, |(y k).real| with hY
  set R := (fmaSum (fun k => mul alpha (x k)) y z K).real with hR
  set S := ∑ k ∈ range K, (mul alpha (x k)).real * (y k).real with hS
  set S2 := ∑ k ∈ range K, |(mul alpha (x k)).real| * |(y k).real| with hS2
  set W := alpha.real * ∑ k ∈ range K, (x k).real * (y k).real with hW
  have g1 := one_le_g (F := F) K
  have t1 : |R - (zeta + W)| ≤ |R - (z.real + S)| + (|z.real - zeta| + |S - W|) := by
    have := abs_add_le (R - (z.real + S)) ((z.real - zeta) + (S - W))
    have h7 := abs_add_le (z.real - zeta) (S - W)
    rw [show R - (z.real + S) + (z.real - zeta + (S - W)) = R - (zeta + W) by ring] at this
    linarith
  have t2 : ((1 + F.u) ^ K - 1) * (|z.real| + S2) ≤ ((1 + F.u) ^ K - 1) * ((1 + F.u) * (Z + T) + (cz + Y) * F.eta) :=
    mul_le_mul_of_nonneg_left (by linarith) (by linarith)
  have q1 : (1 + F.u) ^ (K + 1) = (1 + F.u) ^ K * (1 + F.u) := pow_succ _ _
  calc |R - (zeta + W)| ≤ ((1 + F.u) ^ K - 1) * ((1 + F.u) * (Z + T) + (cz + Y) * F.eta) + K * (1 + F.u) ^ K * F.eta + (F.u * Z + cz * F.eta + (F.u * T + Y * F.eta)) := by linarith
    _ = ((1 + F.u) ^ (K + 1) - 1) * (Z + T) + (1 + F.u) ^ K * (K + cz + Y) * F.eta := by rw [q1]; ring

/-- no overflow in the accumulation with scaled factors -/
theorem scaledSum_finite {alpha z : Bin F} {x y : Nat → Bin F} (K : Nat) {Z cz : ℝ} (hz : z.Finite) (hz1 : |z.real| ≤ (1 + F.u) * Z + cz * F.eta)
    (hx : ∀ k, k < K → alpha.Finite ∧ (x k).Finite ∧ (y k).Finite) (hax : ∀ k, k < K → (1 + F.u) * (|alpha.real| * |(x k).real|) + F.eta < F.big)
    (h : (1 + F.u) ^ (K + 1) * (Z + |alpha.real| * ∑ k ∈ range K, |(x k).real| * |(y k).real| + (K + cz + ∑ k ∈ range K, |(y k).real|) * F.eta) < F.big)
    (hcz : 0 ≤ cz) :
    (fmaSum (fun k => mul alpha (x k)) y z K).Finite := by
  have hu := F.u_pos
  have he := F.eta_pos
  have hmf : ∀ k, k < K → (mul alpha (x k)).Finite := fun k hk => mul_finite (hx k hk).1 (hx k hk).2.1 (by rw [abs_mul]; exact hax k hk)
  have hsum2 : ∑ k ∈ range K, |(mul alpha (x k)).real| * |(y k).real| ≤
      (1 + F.u) * (|alpha.real| * ∑ k ∈ range K, |(x k).real| * |(y k).real|) + (∑ k ∈ range K, |(y k).real|) * F.eta := by
    rw [mul_sum, mul_sum, sum_mul, ← sum_add_distrib]
    refine sum_le_sum fun k hk => ?_
    have h4 := (mul_inv (hmf k (mem_range.1 hk))).2.2
    have h5 := abs_add_le ((mul alpha (x k)).real - alpha.real * (x k).real) (alpha.real * (x k).real)
    rw [sub_add_cancel] at h5
    have h6 : |(mul alpha (x k)).real| ≤ (1 + F.u) * (|alpha.real| * |(x k).real|) + F.eta := by rw [abs_mul] at h4 h5; linarith
    refine le_trans (mul_le_mul_of_nonneg_right h6 (abs_nonneg _)) (le_of_eq ?_)
    ring
  refine fmaSum_finite K hz (fun k hk => ⟨hmf k hk, (hx k hk).2.2⟩) (lt_of_le_of_lt ?_ h)
  set T := |alpha.real| * ∑ k ∈ range K, |(x k).real| * |(y k).real| with hT
  have hY : 0 ≤ ∑ k ∈ range K, |(y k).real| := sum_nonneg fun _ _ => abs_nonneg _
  set Y := ∑ k ∈ range K, |(y k).real| with hY'
  have hK : (0 : ℝ) ≤ K := Nat.cast_nonneg K
  have hge : (K + cz + Y) * F.eta ≤ (1 + F.u) * ((K + cz + Y) * F.eta) := le_mul_of_one_le_left (by positivity) (by linarith)
  rw [pow_succ, mul_assoc]
  refine mul_le_mul_of_nonneg_left ?_ (by positivity)
  linarith

end Bin

/-- The element stored by the left trmm is one accumulation over a window `lo, …, M-1` of the row, where `lo` is at most the row index and some entries left of the
diagonal are replaced by zero (any arithmetic). -/
theorem LeftVal.window {V : Type} [Arith V] {SS M N : Nat} {alpha : V} {a b : Nat → Nat → V} {r c : Nat} {v : V} (hr : r < M) (h : LeftVal SS M N alpha a b r c v) :
    ∃ (lo : Nat) (aa : Nat → V), lo ≤ r ∧ (∀ k, lo ≤ k → k < M → aa k = a r k ∨ k < r ∧ aa k = Arith.zero) ∧
      v = fmaSum (fun t => Arith.mul alpha (aa (lo + t))) (fun t => b (lo + t) c) Arith.zero (M - lo) := by
  obtain ⟨p, i, ht, h1, h2, rfl⟩ := h
  have hcat : ∀ (f g : Nat → V) (z : V) (m n : Nat), fmaSum (fun k => f (m + k)) (fun k => g (m + k)) (fmaSum f g z m) n = fmaSum f g z (m + n) := by
    intro f g z m n
    induction n with
    | zero => rfl
    | succ n ih => rw [← Nat.add_assoc]; simp only [fmaSum]; rw [ih]
  split
  · rename_i hc
    unfold trmmLFullEntry
    generalize hlo : (r - i) / SS * SS = lo
    have hlo1 : lo ≤ r - i := by rw [← hlo]; exact Nat.div_mul_le_self _ _
    refine ⟨i + lo, fun k => if k < i + p * SS then (if r ≤ k then a r k else Arith.zero) else a r k, by omega, fun k hk1 hk2 => ?_, ?_⟩
    · beta_reduce
      split
      · split
        · exact Or.inl rfl
        · exact Or.inr ⟨by omega, rfl⟩
      · exact Or.inl rfl
    · rw [show M - (i + lo) = (p * SS - lo) + (M - i - p * SS) by omega, ← hcat]
      have e1 : fmaSum (fun t => Arith.mul alpha (if r - i ≤ lo + t then a r (i + (lo + t)) else Arith.zero)) (fun t => b (i + (lo + t)) c) Arith.zero (p * SS - lo) =
          fmaSum (fun t => Arith.mul alpha (if i + lo + t < i + p * SS then (if r ≤ i + lo + t then a r (i + lo + t) else Arith.zero) else a r (i + lo + t)))
            (fun t => b (i + lo + t) c) Arith.zero (p * SS - lo) := by
        refine fmaSum_congr rfl _ (fun t ht => ?_) (fun t ht => by rw [Nat.add_assoc])
        rw [if_pos (show i + lo + t < i + p * SS by omega), Nat.add_assoc]
        exact congrArg _ (if_congr (by omega) rfl rfl)
      refine fmaSum_congr e1 _ (fun t ht => ?_) (fun t ht => ?_)
      · rw [show i + lo + (p * SS - lo + t) = i + p * SS + t by omega]
        beta_reduce
        rw [if_neg (show ¬ i + p * SS + t < i + p * SS by omega)]
      · rw [show i + lo + (p * SS - lo + t) = i + p * SS + t by omega]
  · exact ⟨i, fun k => a r k, h1, fun k _ _ => Or.inl rfl, rfl⟩

end Blast
