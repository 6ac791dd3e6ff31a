import Verif.BinarySolve
import Verif.LuRound
import Verif.LuDet
/-
LU factorization in a binary format of IEEE 754, with overflow and underflow: if the factors are finite, the factorization is accurate.
-/
set_option linter.unusedSectionVars false
namespace Blast
open Finset

/-! ### Real numbers -/

theorem sum_abs_congr {k : Nat} {f g : Nat → ℝ} (h : ∀ q ∈ range k, f q = g q) : ∑ q ∈ range k, |f q| = ∑ q ∈ range k, |g q| :=
  sum_congr rfl fun q hq => by rw [h q hq]

/-- the product of the first k columns of the unit lower and rows of the upper triangular factor stored in a, plus what is left to eliminate -/
noncomputable def luY (k : Nat) (a : Nat → Nat → ℝ) (i j : Nat) : ℝ :=
  ∑ q ∈ range k, tri .lower true a i q * tri .upper false a q j + (if k ≤ i ∧ k ≤ j then a i j else 0)

/-- the same with absolute values -/
noncomputable def luYa (k : Nat) (a : Nat → Nat → ℝ) (i j : Nat) : ℝ :=
  ∑ q ∈ range k, |tri .lower true a i q * tri .upper false a q j| + (if k ≤ i ∧ k ≤ j then |a i j| else 0)

theorem luY_le (k : Nat) (a : Nat → Nat → ℝ) (i j : Nat) : |luY k a i j| ≤ luYa k a i j := by
  unfold luY luYa
  refine le_trans (abs_add_le _ _) (add_le_add (abs_sum_le_sum_abs _ _) ?_)
  split
  · exact le_rfl
  · rw [abs_zero]

theorem luYa_nonneg (k : Nat) (a : Nat → Nat → ℝ) (i j : Nat) : 0 ≤ luYa k a i j := le_trans (abs_nonneg _) (luY_le k a i j)

theorem luY_congr {k m n : Nat} {a a' : Nat → Nat → ℝ} (hk : k ≤ m) (hkn : k ≤ n) (h : ∀ i j, i < m → j < n → a' i j = a i j) {i j : Nat} (hi : i < m) (hj : j < n) :
    luY k a' i j = luY k a i j ∧ luYa k a' i j = luYa k a i j := by
  have e : ∀ q ∈ range k, tri .lower true a' i q * tri .upper false a' q j = tri .lower true a i q * tri .upper false a q j := by
    intro q hq
    have := mem_range.1 hq
    rw [tri_eq_lower, tri_eq_lower, tri_eq_upper, tri_eq_upper, h i q hi (by omega), h q j (by omega) hj]
  unfold luY luYa
  rw [sum_congr rfl e, sum_abs_congr e, h i j hi hj]
  exact ⟨rfl, rfl⟩

theorem luY_perm {k m : Nat} (a : Nat → Nat → ℝ) {σ : Nat → Nat} (h1 : ∀ i, i < k → σ i = i) (h2 : ∀ i, k ≤ i → i < m → k ≤ σ i ∧ σ i < m) {i : Nat} (hi : i < m) (j : Nat) :
    luY k (fun i j => a (σ i) j) i j = luY k a (σ i) j ∧ luYa k (fun i j => a (σ i) j) i j = luYa k a (σ i) j := by
  have e : ∀ q ∈ range k, tri .lower true (fun i j => a (σ i) j) i q * tri .upper false (fun i j => a (σ i) j) q j =
      tri .lower true a (σ i) q * tri .upper false a q j := by
    intro q hq
    have hq := mem_range.1 hq
    rw [tri_eq_lower, tri_eq_lower, tri_eq_upper, tri_eq_upper, h1 q hq]
    by_cases hik : i < k
    · rw [h1 i hik]
    · have := h2 i (by omega) hi
      rw [if_neg (show ¬ i = q by omega), if_neg (show ¬ σ i = q by omega), if_pos (show q < i by omega), if_pos (show q < σ i by omega)]
  have hc : (k ≤ i ∧ k ≤ j) ↔ (k ≤ σ i ∧ k ≤ j) := by
    by_cases hik : i < k
    · rw [h1 i hik]
    · have := h2 i (by omega) hi
      constructor
      · exact fun hh => ⟨this.1, hh.2⟩
      · exact fun hh => ⟨by omega, hh.2⟩
  unfold luY luYa
  rw [sum_congr rfl e, sum_abs_congr e]
  simp only [hc]
  exact ⟨trivial, trivial⟩

/-- the trailing block of a replaced by s -/
def luPaste (k : Nat) (a s : Nat → Nat → ℝ) : Nat → Nat → ℝ := fun i j => if i < k ∨ j < k then a i j else s (i - k) (j - k)

theorem luY_paste (k t : Nat) (a s : Nat → Nat → ℝ) (i j : Nat) :
    (k ≤ i ∧ k ≤ j → luY (k + t) (luPaste k a s) i j = luY t s (i - k) (j - k) + ∑ q ∈ range k, tri .lower true a i q * tri .upper false a q j ∧
      luYa (k + t) (luPaste k a s) i j = luYa t s (i - k) (j - k) + ∑ q ∈ range k, |tri .lower true a i q * tri .upper false a q j|) ∧
    (¬ (k ≤ i ∧ k ≤ j) → luY (k + t) (luPaste k a s) i j = luY k a i j ∧ luYa (k + t) (luPaste k a s) i j = luYa k a i j) := by
  have hL : ∀ q, q < k → tri .lower true (luPaste k a s) i q = tri .lower true a i q := by
    intro q hq
    unfold luPaste
    rw [tri_eq_lower, tri_eq_lower, if_pos (Or.inr hq)]
  have hU : ∀ q, q < k → tri .upper false (luPaste k a s) q j = tri .upper false a q j := by
    intro q hq
    unfold luPaste
    rw [tri_eq_upper, tri_eq_upper, if_pos (Or.inl hq)]
  have hsum : ∀ f : ℝ → ℝ, ∑ q ∈ range (k + t), f (tri .lower true (luPaste k a s) i q * tri .upper false (luPaste k a s) q j) =
      ∑ q ∈ range k, f (tri .lower true a i q * tri .upper false a q j) +
      ∑ q ∈ range t, f (tri .lower true (luPaste k a s) i (k + q) * tri .upper false (luPaste k a s) (k + q) j) := by
    intro f
    rw [sum_range_add]
    congr 1
    exact sum_congr rfl (fun q hq => by rw [hL q (mem_range.1 hq), hU q (mem_range.1 hq)])
  have hs1 := hsum (fun x => x)
  have hs2 := hsum (fun x => |x|)
  beta_reduce at hs1 hs2
  constructor
  · intro hc
    have e1 : ∀ q ∈ range t, tri .lower true (luPaste k a s) i (k + q) * tri .upper false (luPaste k a s) (k + q) j =
        tri .lower true s (i - k) q * tri .upper false s q (j - k) := by
      intro q hq
      rw [tri_eq_lower, tri_eq_lower, tri_eq_upper, tri_eq_upper]
      unfold luPaste
      rw [if_neg (show ¬ (i < k ∨ k + q < k) by omega), if_neg (show ¬ (k + q < k ∨ j < k) by omega), show k + q - k = q by omega]
      congr 1
      · by_cases h1 : i = k + q
        · rw [if_pos h1, if_pos (by omega)]
        · rw [if_neg h1, if_neg (show ¬ i - k = q by omega)]
          by_cases h2 : k + q < i
          · rw [if_pos h2, if_pos (by omega)]
          · rw [if_neg h2, if_neg (by omega)]
      · by_cases h1 : k + q ≤ j
        · rw [if_pos h1, if_pos (by omega)]
        · rw [if_neg h1, if_neg (by omega)]
    have e3 : ∀ x : ℝ, (if k + t ≤ i ∧ k + t ≤ j then x else 0) = (if t ≤ i - k ∧ t ≤ j - k then x else 0) := by
      intro x
      by_cases h1 : k + t ≤ i ∧ k + t ≤ j
      · rw [if_pos h1, if_pos (by omega)]
      · rw [if_neg h1, if_neg (by omega)]
    have e4 : luPaste k a s i j = s (i - k) (j - k) := by unfold luPaste; rw [if_neg (by omega)]
    unfold luY luYa
    rw [hs1, hs2, sum_congr rfl e1, sum_abs_congr e1, e3, e3, e4]
    constructor <;> ring
  · intro hc
    have e1 : ∀ q ∈ range t, tri .lower true (luPaste k a s) i (k + q) * tri .upper false (luPaste k a s) (k + q) j = 0 := by
      intro q hq
      rw [tri_eq_lower, tri_eq_upper]
      by_cases hik : i < k
      · rw [if_neg (show ¬ i = k + q by omega), if_neg (show ¬ k + q < i by omega), zero_mul]
      · rw [if_neg (show ¬ k + q ≤ j by omega), mul_zero]
    unfold luY luYa
    rw [hs1, hs2, sum_eq_zero e1, sum_eq_zero (s := range t) (fun q hq => by rw [e1 q hq, abs_zero]),
      if_neg (show ¬ (k + t ≤ i ∧ k + t ≤ j) by omega), if_neg (show ¬ (k + t ≤ i ∧ k + t ≤ j) by omega), if_neg hc, if_neg hc]
    constructor <;> ring

/-- `b` is factorized as far as step `k`, up to `w` roundings and `c` underflows, and the underflow of the multipliers -/
structure LUEta (v e : ℝ) (w c m n k : Nat) (b a : Nat → Nat → ℝ) : Prop where
  near : ∀ i j, i < m → j < n →
    |b i j - luY k a i j| ≤ ((1 + v) ^ w - 1) * luYa k a i j + (1 + v) ^ w * (c + if j < k then |a j j| else 0) * e
  nz : ∀ q, q < k → a q q ≠ 0

theorem LUEta.zero (v e : ℝ) (m n : Nat) (a : Nat → Nat → ℝ) : LUEta v e 0 0 m n 0 a a :=
  ⟨fun i j _ _ => by simp [luY], fun q hq => by omega⟩

theorem eta_mono {v e A d : ℝ} (hv : 0 ≤ v) (he : 0 ≤ e) (hA : 0 ≤ A) (hd : 0 ≤ d) {w w' c c' : Nat} (hw : w ≤ w') (hc : c ≤ c') :
    ((1 + v) ^ w - 1) * A + (1 + v) ^ w * (c + d) * e ≤ ((1 + v) ^ w' - 1) * A + (1 + v) ^ w' * (c' + d) * e := by
  have h1 : (1 + v) ^ w ≤ (1 + v) ^ w' := pow_le_pow_right₀ (by linarith) hw
  have h2 : (c : ℝ) ≤ c' := by exact_mod_cast hc
  have h3 : (0 : ℝ) ≤ (1 + v) ^ w := by positivity
  have h4 : (0 : ℝ) ≤ c := Nat.cast_nonneg c
  exact add_le_add (mul_le_mul_of_nonneg_right (by linarith) hA) (mul_le_mul_of_nonneg_right (mul_le_mul h1 (by linarith) (by linarith) (by linarith)) he)

theorem LUEta.mono {v e : ℝ} (hv : 0 ≤ v) (he : 0 ≤ e) {w w' c c' m n k : Nat} {b a : Nat → Nat → ℝ} (h : LUEta v e w c m n k b a) (hw : w ≤ w') (hc : c ≤ c') :
    LUEta v e w' c' m n k b a :=
  ⟨fun i j hi hj => le_trans (h.near i j hi hj) (eta_mono hv he (luYa_nonneg _ _ _ _) (by split <;> positivity) hw hc), h.nz⟩

theorem LUEta.congr {v e : ℝ} {w c m n k : Nat} {b b' a a' : Nat → Nat → ℝ} (h : LUEta v e w c m n k b a) (hk : k ≤ m) (hkn : k ≤ n)
    (hb : ∀ i j, i < m → j < n → b' i j = b i j) (ha : ∀ i j, i < m → j < n → a' i j = a i j) : LUEta v e w c m n k b' a' := by
  refine ⟨fun i j hi hj => ?_, fun q hq => by rw [ha q q (by omega) (by omega)]; exact h.nz q hq⟩
  obtain ⟨e1, e2⟩ := luY_congr hk hkn ha hi hj
  rw [e1, e2, hb i j hi hj]
  refine le_trans (h.near i j hi hj) (le_of_eq ?_)
  by_cases hjk : j < k
  · rw [if_pos hjk, if_pos hjk, ha j j (by omega) hj]
  · rw [if_neg hjk, if_neg hjk]

theorem LUEta.perm {v e : ℝ} {w c m n k : Nat} {b a : Nat → Nat → ℝ} (h : LUEta v e w c m n k b a) {σ : Nat → Nat}
    (h1 : ∀ i, i < k → σ i = i) (h2 : ∀ i, k ≤ i → i < m → k ≤ σ i ∧ σ i < m) :
    LUEta v e w c m n k (fun i j => b (σ i) j) (fun i j => a (σ i) j) := by
  refine ⟨fun i j hi hj => ?_, fun q hq => by beta_reduce; rw [h1 q hq]; exact h.nz q hq⟩
  have hσ : σ i < m := by
    by_cases hik : i < k
    · rw [h1 i hik]; exact hi
    · exact (h2 i (by omega) hi).2
  obtain ⟨e1, e2⟩ := luY_perm a h1 h2 hi j
  rw [e1, e2]
  refine le_trans (h.near (σ i) j hσ hj) (le_of_eq ?_)
  by_cases hjk : j < k
  · rw [if_pos hjk, if_pos hjk, h1 j hjk]
  · rw [if_neg hjk, if_neg hjk]

/-- factorization of the trailing block -/
theorem LUEta.block {v e : ℝ} (hv : 0 ≤ v) (he : 0 ≤ e) {w w' c c' m n k t : Nat} {b a s : Nat → Nat → ℝ} (h : LUEta v e w c m n k b a)
    (hs : LUEta v e w' c' (m - k) (n - k) t (fun i j => a (k + i) (k + j)) s) :
    LUEta v e (w' + w) (c' + c) m n (k + t) b (luPaste k a s) := by
  refine ⟨fun i j hi hj => ?_, fun q hq => ?_⟩
  · by_cases hc : k ≤ i ∧ k ≤ j
    · obtain ⟨e1, e2⟩ := (luY_paste k t a s i j).1 hc
      have n1 := h.near i j hi hj
      have n2 := hs.near (i - k) (j - k) (by omega) (by omega)
      beta_reduce at n2
      rw [show k + (i - k) = i by omega, show k + (j - k) = j by omega] at n2
      have n3 : luY k a i j = a i j + ∑ q ∈ range k, tri .lower true a i q * tri .upper false a q j := by unfold luY; rw [if_pos hc, add_comm]
      have n4 : luYa k a i j = |a i j| + ∑ q ∈ range k, |tri .lower true a i q * tri .upper false a q j| := by unfold luYa; rw [if_pos hc, add_comm]
      rw [if_neg (show ¬ j < k by omega), n3, n4] at n1
      have g1 : 1 ≤ (1 + v) ^ w := one_le_pow₀ (by linarith)
      have g2 : 1 ≤ (1 + v) ^ w' := one_le_pow₀ (by linarith)
      have n5 := etaSubst (by linarith) (sum_nonneg fun _ _ => abs_nonneg _) n1 n2 (luY_le t s _ _) (by linarith) (luYa_nonneg _ _ _ _)
      rw [e1, e2]
      refine le_trans n5 ?_
      have hd : (if j < k + t then |luPaste k a s j j| else 0) = if j - k < t then |s (j - k) (j - k)| else 0 := by
        by_cases hjt : j < k + t
        · rw [if_pos hjt, if_pos (by omega)]; unfold luPaste; rw [if_neg (by omega)]
        · rw [if_neg hjt, if_neg (by omega)]
      rw [hd]
      have hd0 : (0 : ℝ) ≤ if j - k < t then |s (j - k) (j - k)| else 0 := by split <;> positivity
      set d := if j - k < t then |s (j - k) (j - k)| else 0
      have q : (1 + v) ^ (w' + w) = (1 + v) ^ w * (1 + v) ^ w' := by rw [pow_add, mul_comm]
      rw [q]
      push_cast
      have h4 : (0 : ℝ) ≤ c := Nat.cast_nonneg c
      have h5 : (1 + v) ^ w * (c * e) ≤ (1 + v) ^ w * (1 + v) ^ w' * (c * e) :=
        mul_le_mul_of_nonneg_right (le_mul_of_one_le_right (by linarith) g2) (by positivity)
      have e5 : (1 + v) ^ w * (1 + v) ^ w' * (c' + c + d) * e = (1 + v) ^ w * (1 + v) ^ w' * (c * e) + (1 + v) ^ w * ((1 + v) ^ w' * (c' + d) * e) := by ring
      rw [e5, show (1 + ((1 + v) ^ w - 1)) = (1 + v) ^ w by ring, show (1 + ((1 + v) ^ w' - 1)) = (1 + v) ^ w' by ring, add_zero]
      linarith
    · obtain ⟨e1, e2⟩ := (luY_paste k t a s i j).2 hc
      rw [e1, e2]
      have n1 := h.near i j hi hj
      have hcj : ∀ i' j', ¬ (k ≤ i' ∧ k ≤ j') → luPaste k a s i' j' = a i' j' := fun i' j' h' => by unfold luPaste; rw [if_pos (by omega)]
      refine le_trans n1 ?_
      by_cases hjk : j < k
      · rw [if_pos hjk, if_pos (show j < k + t by omega), hcj j j (by omega)]
        exact eta_mono hv he (luYa_nonneg _ _ _ _) (abs_nonneg _) (by omega) (by omega)
      · rw [if_neg hjk]
        refine le_trans (eta_mono hv he (luYa_nonneg _ _ _ _) le_rfl (w' := w' + w) (c' := c' + c) (by omega) (by omega)) ?_
        have : (0 : ℝ) ≤ if j < k + t then |luPaste k a s j j| else 0 := by split <;> positivity
        refine add_le_add le_rfl (mul_le_mul_of_nonneg_right (mul_le_mul_of_nonneg_left (by linarith) (by positivity)) he)
  · unfold luPaste
    by_cases hqk : q < k
    · rw [if_pos (Or.inl hqk)]; exact h.nz q hqk
    · rw [if_neg (by omega)]; exact hs.nz (q - k) (by omega)

/-! ### Elimination steps -/

namespace Bin
variable {F : Format}

/-- the operations of an elimination step: a finite result comes from finite numbers, and its error is small -/
structure EtaOps (F : Format) (w0 : Nat) (κ : ℝ) (dv : Bin F → Bin F → Bin F) (upd : Bin F → Bin F → Bin F → Bin F) : Prop where
  dv_num : ∀ x y, IsNum (dv x y)
  dv_inv : ∀ x y, IsNum y → y.Finite → (dv x y).Finite → x.Finite ∧
    |x.real - (dv x y).real * y.real| ≤ ((1 + bu F.u) ^ w0 - 1) * |(dv x y).real * y.real| + (1 + bu F.u) ^ w0 * (3 + |y.real|) * F.eta
  dv_le : ∀ x y, IsNum y → x.Finite → y.Finite → y.real ≠ 0 → |x.real| ≤ |y.real| → |(dv x y).real| ≤ κ
  upd_num : ∀ l u a, IsNum (upd l u a)
  upd_inv : ∀ l u a, IsNum l → IsNum a → (upd l u a).Finite → l.Finite ∧ u.Finite ∧ a.Finite ∧
    |a.real - (l.real * u.real + (upd l u a).real)| ≤ ((1 + bu F.u) ^ w0 - 1) * (|l.real * u.real| + |(upd l u a).real|) + (1 + bu F.u) ^ w0 * 3 * F.eta

theorem eq_zero_real {x : Bin F} (hx : x.Finite) (h : ¬ Arith.eq x Arith.zero = true) : x.real ≠ 0 := by
  rcases x with ⟨s, y⟩ | _ | _
  · intro e
    refine h ?_
    show eq (fin s y) (fin false 0) = true
    simp only [eq, decide_eq_true_eq]
    rw [e]
    simp [real]
  · exact hx.elim
  · exact hx.elim

/-- one elimination step, backwards -/
theorem elim_inv {dv : Bin F → Bin F → Bin F} {upd : Bin F → Bin F → Bin F → Bin F} {w0 : Nat} {κ : ℝ} (ho : EtaOps F w0 κ dv upd) {w c m n k : Nat} (hk : k < m) (hkn : k < n)
    {b : Nat → Nat → ℝ} {a : Nat → Nat → Bin F} (hnum : ∀ i j, i < m → j < n → IsNum (a i j)) (hz : ¬ Arith.eq (a k k) Arith.zero = true)
    (hf : ∀ i j, i < m → j < n → (elim dv upd k a i j).Finite) :
    (∀ i j, i < m → j < n → (a i j).Finite) ∧
    (LUEta (bu F.u) F.eta w c m n k b (fun i j => (a i j).real) →
      LUEta (bu F.u) F.eta (w0 + w) (3 + c) m n (k + 1) b (fun i j => (elim dv upd k a i j).real)) := by
  have e1 : ∀ i j, ¬ k < i → elim dv upd k a i j = a i j := fun i j hi => by unfold elim; rw [if_neg hi]
  have e2 : ∀ i j, j < k → elim dv upd k a i j = a i j := fun i j hj => by
    unfold elim
    by_cases hi : k < i
    · rw [if_pos hi, if_neg (by omega), if_neg (by omega)]
    · rw [if_neg hi]
  have e3 : ∀ i, k < i → elim dv upd k a i k = dv (a i k) (a k k) := fun i hi => by unfold elim; rw [if_pos hi, if_pos rfl]
  have e4 : ∀ i j, k < i → k < j → elim dv upd k a i j = upd (dv (a i k) (a k k)) (a k j) (a i j) := fun i j hi hj => by
    unfold elim; rw [if_pos hi, if_neg (by omega), if_pos hj]
  have hkk : (a k k).Finite := by have := hf k k hk hkn; rwa [e1 k k (by omega)] at this
  have hnz := eq_zero_real hkk hz
  have hfin : ∀ i j, i < m → j < n → (a i j).Finite := by
    intro i j hi hj
    have := hf i j hi hj
    by_cases hik : k < i
    · rcases Nat.lt_trichotomy j k with hjk | hjk | hjk
      · rwa [e2 i j hjk] at this
      · subst hjk
        rw [e3 i hik] at this
        exact (ho.dv_inv _ _ (hnum j j hk hkn) hkk this).1
      · rw [e4 i j hik hjk] at this
        exact (ho.upd_inv _ _ _ (ho.dv_num _ _) (hnum i j hi hj) this).2.2.1
    · rwa [e1 i j hik] at this
  refine ⟨hfin, fun h => ?_⟩
  have hv := bu_pos (F := F)
  have he := F.eta_pos
  have hb := h.block hv he.le (t := 1) (w' := w0) (c' := 3) (s := fun i j => (elim dv upd k a (k + i) (k + j)).real) (by
    refine ⟨fun i j hi hj => ?_, fun q hq => ?_⟩
    · beta_reduce
      unfold luY luYa
      rw [sum_range_one, sum_range_one, tri_eq_lower, tri_eq_upper, if_pos (Nat.zero_le j)]
      have hw1 : 1 ≤ (1 + bu F.u) ^ w0 := one_le_pow₀ (by linarith)
      have hd0 : (0 : ℝ) ≤ if j < 1 then |(elim dv upd k a (k + j) (k + j)).real| else 0 := by split <;> positivity
      by_cases hi0 : i = 0
      · subst hi0
        rw [if_pos rfl, if_neg (show ¬ (1 ≤ 0 ∧ 1 ≤ j) by omega), if_neg (show ¬ (1 ≤ 0 ∧ 1 ≤ j) by omega), one_mul]
        simp only [add_zero]
        rw [e1 _ _ (show ¬ k < k by omega), sub_self, abs_zero]
        exact add_nonneg (mul_nonneg (by linarith) (abs_nonneg _)) (by positivity)
      · rw [if_neg hi0, if_pos (show 0 < i by omega), e1 _ _ (show ¬ k < k + 0 by omega), Nat.add_zero, e3 _ (show k < k + i by omega)]
        have hik := hf (k + i) k (by omega) hkn
        rw [e3 _ (by omega)] at hik
        by_cases hj0 : j = 0
        · subst hj0
          rw [if_neg (show ¬ (1 ≤ i ∧ 1 ≤ 0) by omega), if_neg (show ¬ (1 ≤ i ∧ 1 ≤ 0) by omega), if_pos (show 0 < 1 by omega)]
          simp only [add_zero]
          rw [e1 _ _ (show ¬ k < k by omega)]
          exact (ho.dv_inv _ _ (hnum k k hk hkn) hkk hik).2
        · have hij := hf (k + i) (k + j) (by omega) (by omega)
          rw [e4 _ _ (by omega) (by omega)] at hij
          rw [if_pos (show 1 ≤ i ∧ 1 ≤ j by omega), if_pos (show 1 ≤ i ∧ 1 ≤ j by omega)]
          beta_reduce
          rw [e4 _ _ (show k < k + i by omega) (show k < k + j by omega),
            if_neg (show ¬ j < 1 by omega), add_zero]
          exact (ho.upd_inv _ _ _ (ho.dv_num _ _) (hnum _ _ (by omega) (by omega)) hij).2.2.2
    · rw [show q = 0 by omega]
      beta_reduce
      rw [Nat.add_zero, e1 _ _ (by omega)]; exact hnz)
  have e : luPaste k (fun i j => (a i j).real) (fun i j => (elim dv upd k a (k + i) (k + j)).real) = fun i j => (elim dv upd k a i j).real := by
    funext i j
    unfold luPaste
    by_cases hc : i < k ∨ j < k
    · rw [if_pos hc]
      rcases hc with hc | hc
      · rw [e1 i j (by omega)]
      · rw [e2 i j hc]
    · rw [if_neg hc]
      beta_reduce
      rw [show k + (i - k) = i by omega, show k + (j - k) = j by omega]
  rw [e] at hb
  exact hb

/-- the largest modulus among finite numbers -/
theorem iamaxF_inv (x : Nat → Bin F) (t : Nat) (h : ∀ j, j ≤ t → (x j).Finite) :
    (iamaxF x t).1.Finite ∧ (iamaxF x t).1.real = |(x (iamaxF x t).2).real| ∧ (∀ j, j ≤ t → |(x j).real| ≤ |(x (iamaxF x t).2).real|) := by
  have habs : ∀ j, j ≤ t → (abs (x j)).Finite ∧ (abs (x j)).real = |(x j).real| := by
    intro j hj
    have := h j hj
    generalize x j = z at this
    rcases z with ⟨s, y⟩ | _ | _
    · refine ⟨trivial, ?_⟩
      cases s <;> simp [abs, real]
    · exact this.elim
    · exact this.elim
  induction t with
  | zero =>
    refine ⟨(habs 0 le_rfl).1, (habs 0 le_rfl).2, fun j hj => ?_⟩
    rw [show j = 0 by omega]; exact le_refl _
  | succ t ih =>
    obtain ⟨h0, h1, h2⟩ := ih (fun j hj => h j (by omega)) (fun j hj => habs j (by omega))
    obtain ⟨g1, g2⟩ := habs (t + 1) le_rfl
    have hgt : ∀ {a b : Bin F}, a.Finite → b.Finite → (gt a b = true ↔ b.real < a.real) := by
      intro a b ha hb
      rcases a with ⟨s, y⟩ | _ | _
      · rcases b with ⟨s', y'⟩ | _ | _
        · simp [gt]
        · exact hb.elim
        · exact hb.elim
      · exact ha.elim
      · exact ha.elim
    unfold iamaxF
    by_cases hg : Arith.gt (Arith.abs (x (t + 1))) (iamaxF x t).1 = true
    · rw [if_pos hg]
      have hg' := (hgt g1 h0).1 hg
      rw [h1, g2] at hg'
      refine ⟨g1, g2, fun j hj => ?_⟩
      by_cases hj2 : j = t + 1
      · subst hj2; exact le_refl _
      · exact le_trans (h2 j (by omega)) (le_of_lt hg')
    · rw [if_neg hg]
      have hg' : ¬ (iamaxF x t).1.real < (abs (x (t + 1))).real := fun h => hg ((hgt g1 h0).2 h)
      rw [h1, g2] at hg'
      refine ⟨h0, h1, fun j hj => ?_⟩
      by_cases hj2 : j = t + 1
      · subst hj2; exact le_of_not_gt hg'
      · exact h2 j (by omega)

theorem pivot_max {m k : Nat} (a : Nat → Nat → Bin F) (hf : ∀ i, k ≤ i → i < m → (a i k).Finite) {i : Nat} (h1 : k ≤ i) (h2 : i < m) :
    |(a i k).real| ≤ |(a (pivotRow m a k) k).real| := by
  have := (iamaxF_inv (fun i => a (k + i) k) (m - k - 1) (fun j hj => hf _ (by omega) (by omega))).2.2 (i - k) (by omega)
  rw [show k + (i - k) = i by omega] at this
  unfold pivotRow
  rw [Nat.add_comm _ k]
  exact this

theorem elim_isNum {dv : Bin F → Bin F → Bin F} {upd : Bin F → Bin F → Bin F → Bin F} {w0 : Nat} {κ : ℝ} (ho : EtaOps F w0 κ dv upd) (k : Nat) {a : Nat → Nat → Bin F} {i j : Nat}
    (h : IsNum (a i j)) : IsNum (elim dv upd k a i j) := by
  unfold elim
  split
  · split
    · exact ho.dv_num _ _
    · split
      · exact ho.upd_num _ _ _
      · exact h
  · exact h

/-- Everything known about the state after `K` steps. -/
theorem luRun_eta {dv : Bin F → Bin F → Bin F} {upd : Bin F → Bin F → Bin F → Bin F} {w0 : Nat} {κ : ℝ} (ho : EtaOps F w0 κ dv upd) {m n : Nat}
    {a0 : Nat → Nat → Bin F} (hnum : ∀ i j, i < m → j < n → IsNum (a0 i j)) {ip : Nat → Nat} (K : Nat) (hK : K ≤ m) (hKn : K ≤ n)
    {a : Nat → Nat → Bin F} {p : Nat → Nat} (h : luRun dv upd m a0 ip K = some (a, p)) :
    (∀ i j, i < m → j < n → IsNum (a i j)) ∧ (∀ q, q < K → q ≤ p q ∧ p q < m) ∧ (∀ q, K ≤ q → p q = ip q) ∧
    ((∀ i j, i < m → j < n → (a i j).Finite) → (∀ i j, i < m → j < n → (a0 i j).Finite) ∧
      LUEta (bu F.u) F.eta (w0 * K) (3 * K) m n K (rowSwaps p 0 K (fun i j => (a0 i j).real)) (fun i j => (a i j).real) ∧
      (∀ i q, q < K → q < i → i < m → |(a i q).real| ≤ κ)) := by
  induction K generalizing a p with
  | zero =>
    simp only [luRun, Option.some.injEq, Prod.mk.injEq] at h
    obtain ⟨rfl, rfl⟩ := h
    exact ⟨hnum, fun q hq => by omega, fun q _ => rfl, fun hf => ⟨hf, by rw [Nat.mul_zero, Nat.mul_zero]; exact LUEta.zero _ _ m n _, fun i q hq => by omega⟩⟩
  | succ K ih =>
    unfold luRun at h
    cases hr : luRun dv upd m a0 ip K with
    | none => rw [hr] at h; simp at h
    | some r =>
      obtain ⟨a1, p1⟩ := r
      rw [hr] at h
      obtain ⟨i1, i2, i3, i4⟩ := ih (by omega) (by omega) hr
      obtain ⟨b1, b2⟩ := pivotRow_lt a1 (show K < m by omega)
      simp only [Option.bind_some] at h
      unfold luStep at h
      simp only at h
      by_cases hz : Arith.eq (swapRows K (pivotRow m a1 K) a1 K K) Arith.zero = true
      · rw [if_pos hz] at h; simp at h
      · rw [if_neg hz] at h
        simp only [Option.some.injEq, Prod.mk.injEq] at h
        obtain ⟨rfl, rfl⟩ := h
        have hσ : ∀ i, i < m → swapIdx K (pivotRow m a1 K) i < m := by
          intro i hi
          by_cases hiK : i < K
          · rw [swapIdx_lt (Nat.le_refl K) b1 hiK]; exact hi
          · exact (swapIdx_bounds (k := K) ⟨Nat.le_refl K, by omega⟩ ⟨b1, b2⟩ ⟨by omega, hi⟩).2
        have hnum' : ∀ i j, i < m → j < n → IsNum (swapRows K (pivotRow m a1 K) a1 i j) := fun i j hi hj => by
          rw [swapRows_eq]; exact i1 _ _ (hσ i hi) hj
        refine ⟨fun i j hi hj => elim_isNum ho K (hnum' i j hi hj), ?_, ?_, fun hf => ?_⟩
        · intro q hq
          unfold setAt
          by_cases hqk : q = K
          · rw [if_pos hqk]; subst hqk; exact ⟨b1, b2⟩
          · rw [if_neg hqk]; exact i2 q (by omega)
        · intro q hq
          unfold setAt
          rw [if_neg (by omega)]; exact i3 q (by omega)
        · obtain ⟨f1, f2⟩ := elim_inv ho (w := w0 * K) (c := 3 * K) (b := swapRows K (pivotRow m a1 K) (rowSwaps p1 0 K (fun i j => (a0 i j).real))) (show K < m by omega) (show K < n by omega) hnum' hz hf
          have hfa : ∀ i j, i < m → j < n → (a1 i j).Finite := fun i j hi hj => by
            have := f1 _ j (hσ i hi) hj
            rwa [swapRows_eq, swapIdx_invol] at this
          obtain ⟨g1, g2, g3⟩ := i4 hfa
          have hnz := eq_zero_real (f1 K K (by omega) (by omega)) hz
          have hb : rowSwaps (setAt p1 K (pivotRow m a1 K)) 0 (K + 1) (fun i j => (a0 i j).real) =
              swapRows K (pivotRow m a1 K) (rowSwaps p1 0 K (fun i j => (a0 i j).real)) := by
            funext i j
            show rowSwaps (setAt p1 K (pivotRow m a1 K)) 0 K (fun i j => (a0 i j).real) (swapIdx (0 + K) (setAt p1 K (pivotRow m a1 K) (0 + K)) i) j = _
            rw [Nat.zero_add, rowSwaps_congr (p' := p1) (fun q _ hq => by unfold setAt; rw [if_neg (by omega)]), swapRows_eq]
            unfold setAt; rw [if_pos rfl]
          refine ⟨g1, ?_, ?_⟩
          · rw [hb, show w0 * (K + 1) = w0 + w0 * K by ring, show 3 * (K + 1) = 3 + 3 * K by ring]
            exact f2 (g2.perm (σ := swapIdx K (pivotRow m a1 K)) (fun i hi => swapIdx_lt (Nat.le_refl K) b1 hi)
              (fun i h1 h2 => swapIdx_bounds ⟨Nat.le_refl K, by omega⟩ ⟨b1, b2⟩ ⟨h1, h2⟩))
          · intro i q hq hqi him
            by_cases hqk : q = K
            · subst hqk
              have e3 : elim dv upd q (swapRows q (pivotRow m a1 q) a1) i q = dv (swapRows q (pivotRow m a1 q) a1 i q) (swapRows q (pivotRow m a1 q) a1 q q) := by
                unfold elim; rw [if_pos hqi, if_pos rfl]
              rw [e3]
              refine ho.dv_le _ _ (hnum' q q (by omega) (by omega)) (f1 i q him (by omega)) (f1 q q (by omega) (by omega)) hnz ?_
              have hpiv : swapRows q (pivotRow m a1 q) a1 q q = a1 (pivotRow m a1 q) q := by rw [swapRows_eq]; unfold swapIdx; rw [if_pos rfl]
              rw [hpiv, swapRows_eq]
              have hbd := swapIdx_bounds (p := q) (q := pivotRow m a1 q) (k := q) (m := m) (i := i) ⟨by omega, by omega⟩ ⟨b1, b2⟩ ⟨by omega, him⟩
              exact pivot_max a1 (fun i' _ h2 => hfa i' q h2 (by omega)) hbd.1 hbd.2
            · have : elim dv upd K (swapRows K (pivotRow m a1 K) a1) i q = swapRows K (pivotRow m a1 K) a1 i q := by
                unfold elim
                rw [if_neg hqk, if_neg (show ¬ K < q by omega), ite_self]
              rw [this, swapRows_eq]
              by_cases hiK : i < K
              · rw [swapIdx_lt (Nat.le_refl K) b1 hiK]; exact g3 i q (by omega) hqi him
              · have hbd := swapIdx_bounds (p := K) (q := pivotRow m a1 K) (k := K) (m := m) (i := i) ⟨by omega, by omega⟩ ⟨b1, b2⟩ ⟨by omega, him⟩
                exact g3 _ q (by omega) (by omega) hbd.2

/-! ### The operations of the code -/

theorem representable_one (hW : F.Wide) : F.Representable 1 := by
  obtain ⟨h1, h2⟩ := hW
  refine ⟨⟨2 ^ F.p, -F.p, ?_, by omega, by omega, ?_⟩, fun _ => Or.inr ?_⟩
  · rw [abs_of_nonneg (by positivity), pow_succ]
    have : (0 : ℤ) < 2 ^ F.p := by positivity
    omega
  · push_cast
    rw [← zpow_natCast, ← zpow_add₀ (by norm_num)]
    simp
  · rw [abs_one]
    exact le_trans (Format.two_zpow_le (show F.emin ≤ 0 by omega)) (by norm_num)

theorem mk_le {nz : Bool} {x z : ℝ} (h : (mk F nz x).Finite) (hz : F.Representable z) (hx : |x| ≤ z) : |(mk F nz x).real| ≤ z := by
  have h1 := F.round_le (abs_nonneg x) hz hx
  have h2 := F.round_nonneg (abs_nonneg x)
  rw [real_mk h]
  split
  · rw [abs_neg, abs_of_nonneg h2]; exact h1
  · rw [abs_of_nonneg h2]; exact h1

theorem div_le_one' (hW : F.Wide) {x y : Bin F} (hx : x.Finite) (hy : y.Finite) (hy0 : y.real ≠ 0) (h : |x.real| ≤ |y.real|) : |(div x y).real| ≤ 1 := by
  rcases x with ⟨s, x⟩ | _ | _
  · rcases y with ⟨t, y⟩ | _ | _
    · have hne : y ≠ 0 := fun e => hy0 ((real_eq_zero t y).2 e)
      simp only [div]
      rw [if_neg hne]
      by_cases hf : (mk F (s != t) (real (fin s x : Bin F) / real (fin t y : Bin F))).Finite
      · refine mk_le hf (representable_one hW) ?_
        rw [abs_div]
        exact div_le_one_of_le₀ h (abs_nonneg _)
      · have : (mk F (s != t) (real (fin s x : Bin F) / real (fin t y : Bin F))).real = 0 := by
          generalize mk F (s != t) (real (fin s x : Bin F) / real (fin t y : Bin F)) = z at hf
          rcases z with ⟨_, _⟩ | _ | _
          · exact absurd trivial hf
          · rfl
          · rfl
        rw [this, abs_zero]
        norm_num
    · exact hy.elim
    · exact hy.elim
  · exact hx.elim
  · exact hx.elim

theorem isNum_gerEntry (al x y a : Bin F) : IsNum (gerEntry al x y a) := isNum_fma _ _ _

/-- column-major getf2 -/
theorem etaOps_col (hW : F.Wide) : EtaOps F 1 1 Arith.div (updCol : Bin F → Bin F → Bin F → Bin F) := by
  have hv := bu_pos (F := F)
  have he := F.eta_pos
  refine ⟨isNum_div, fun x y _ hy h => ?_, fun x y _ hx hy h0 h => div_le_one' hW hx hy h0 h, fun l u a => isNum_fma _ _ _, fun l u a hl ha h => ?_⟩
  · obtain ⟨h1, h2, h3⟩ := div_back hy h
    refine ⟨h1, le_trans h3 ?_⟩
    rw [pow_one, show 1 + bu F.u - 1 = bu F.u by ring, mul_assoc]
    exact add_le_add le_rfl (mul_le_mul_of_nonneg_left (mul_le_mul_of_nonneg_right (by linarith) he.le) (by linarith))
  · obtain ⟨h1, h2, h3, h4⟩ := fma_inv h
    have k1 := (mul_inv h1).2.1
    have k2 := (mul_inv h3).2.1
    have e1 : (Arith.mul (Arith.neg Arith.one) l).real = -l.real := (mul_negOne hl k1).2
    have e2 : (Arith.mul Arith.one a).real = a.real := (mul_one' ha k2).2
    rw [e1, e2] at h4
    refine ⟨k1, h2, k2, ?_⟩
    have h5 := back_eta F.u_pos.le F.u_lt_one h4
    change |_ - (updCol l u a).real| ≤ bu F.u * |(updCol l u a).real| + _ at h5
    rw [show a.real - (l.real * u.real + (updCol l u a).real) = -l.real * u.real + a.real - (updCol l u a).real by ring, pow_one, show 1 + bu F.u - 1 = bu F.u by ring]
    have : 0 ≤ bu F.u * |l.real * u.real| := mul_nonneg hv (abs_nonneg _)
    have : 0 ≤ (1 + bu F.u) * F.eta := by positivity
    linarith

/-- row-major getf2 with division -/
theorem etaOps_row (hW : F.Wide) : EtaOps F 1 1 Arith.div (updRow : Bin F → Bin F → Bin F → Bin F) := by
  have hv := bu_pos (F := F)
  have he := F.eta_pos
  refine ⟨(etaOps_col hW).dv_num, (etaOps_col hW).dv_inv, (etaOps_col hW).dv_le, fun l u a => isNum_add _ _, fun l u a hl ha h => ?_⟩
  obtain ⟨h1, h2, h3⟩ := add_inv h
  obtain ⟨k1, k2, k3⟩ := mul_inv h2
  have l1 := (mul_inv k1).2.1
  have e1 : (Arith.mul (Arith.neg Arith.one) l).real = -l.real := (mul_negOne hl l1).2
  rw [e1] at k3
  refine ⟨l1, k2, h1, ?_⟩
  have h5 := back_eta F.u_pos.le F.u_lt_one h3
  change |_ - (updRow l u a).real| ≤ bu F.u * |(updRow l u a).real| + _ at h5
  have hub : F.u ≤ bu F.u := le_bu F.u_pos.le F.u_lt_one
  set q := (Arith.mul (Arith.mul (Arith.neg Arith.one) l) u).real
  change |q - _| ≤ _ at k3
  have h6 := abs_add_le (a.real + q - (updRow l u a).real) (-(q - -l.real * u.real))
  rw [abs_neg] at h6
  rw [show a.real - (l.real * u.real + (updRow l u a).real) = a.real + q - (updRow l u a).real + -(q - -l.real * u.real) by ring, pow_one, show 1 + bu F.u - 1 = bu F.u by ring]
  rw [neg_mul, abs_neg] at k3
  have h7 : F.u * |l.real * u.real| ≤ bu F.u * |l.real * u.real| := mul_le_mul_of_nonneg_right hub (abs_nonneg _)
  have : 0 ≤ bu F.u * F.eta := by positivity
  rw [neg_mul] at h6 ⊢
  linarith

/-- multiplication by the reciprocal, for formats whose exponent range is symmetric -/
theorem recip_inv (hW : F.Wide) (hp : 3 ≤ F.p) (hE : F.under = .gradual ∧ F.emin + F.emax ≤ 1) {y : Bin F} (hny : IsNum y) (hy : y.Finite) (h : (div (fin false 1) y).Finite) :
    y.real ≠ 0 ∧ |(div (fin false 1) y).real * y.real - 1| ≤ 5 * F.u := by
  obtain ⟨-, h2, h3⟩ := div_inv hy h
  refine ⟨h2, ?_⟩
  have hu := F.u_pos
  have he := F.eta_pos
  have e1 : (fin false 1 : Bin F).real = 1 := by simp [real]
  rw [e1] at h3
  have hb : |y.real| < F.big := Format.Representable.lt_big (hny hy)
  have h4 := mul_le_mul_of_nonneg_right h3 (abs_nonneg y.real)
  have hy0 : 0 < |y.real| := abs_pos.2 h2
  rw [← abs_mul, sub_mul, one_div, inv_mul_cancel₀ h2, abs_inv, add_mul, mul_assoc, inv_mul_cancel₀ hy0.ne', mul_one] at h4
  have h5 : F.eta * |y.real| ≤ 4 * F.u := by
    have h6 : F.eta * |y.real| ≤ F.eta * F.big := mul_le_mul_of_nonneg_left hb.le he.le
    refine le_trans h6 ?_
    unfold Format.eta Format.big Format.u
    rw [if_pos hE.1, ← zpow_add₀ (by norm_num)]
    have h7 : (2 : ℝ) ^ (F.emin - F.p - 1 + (F.emax + 1)) ≤ (2 : ℝ) ^ (1 - (F.p : ℤ)) := Format.two_zpow_le (by omega)
    refine le_trans h7 (le_of_eq ?_)
    rw [sub_eq_add_neg, zpow_add₀ (by norm_num), zpow_neg, zpow_natCast, pow_succ, one_div, inv_pow]
    norm_num
    ring
  linarith

theorem u_le_sixteenth (hp : 3 ≤ F.p) : F.u ≤ 1 / 16 := by
  unfold Format.u
  calc (1 / 2 : ℝ) ^ (F.p + 1) ≤ (1 / 2 : ℝ) ^ 4 := pow_le_pow_of_le_one (by norm_num) (by norm_num) (by omega)
    _ = 1 / 16 := by norm_num

theorem inv_five_le (hp : 3 ≤ F.p) : 1 / (1 - 5 * F.u) ≤ (1 + bu F.u) ^ 6 := by
  have hu := F.u_pos
  have h16 := u_le_sixteenth hp
  have e : 1 + bu F.u = 1 / (1 - F.u) := one_add_bu F.u_lt_one
  rw [e, one_div_pow]
  refine one_div_le_one_div_of_le (by have : 0 < 1 - F.u := by linarith
                                      positivity) ?_
  have h1 : 0 ≤ F.u ^ 2 := by positivity
  have h2 : (1 - F.u) ^ 6 = 1 - 6 * F.u + 15 * F.u ^ 2 - 20 * F.u ^ 3 + 15 * F.u ^ 4 - 6 * F.u ^ 5 + F.u ^ 6 := by ring
  rw [h2]
  have h3 : F.u ^ 2 ≤ 1 / 16 * F.u := by nlinarith
  have h4 : F.u ^ 4 ≤ F.u * F.u ^ 3 := le_of_eq (by ring)
  have h5 : 0 ≤ F.u ^ 3 := by positivity
  have h6 : F.u ^ 4 ≤ 1 / 16 * F.u ^ 3 := by nlinarith
  have h7 : F.u ^ 6 ≤ 1 / 16 * F.u ^ 5 := by nlinarith [pow_pos hu 5]
  have h8 : 0 ≤ F.u ^ 5 := by positivity
  linarith

/-- row-major getf2 with multiplication by the reciprocal of the pivot -/
theorem etaOps_recip (hW : F.Wide) (hp : 3 ≤ F.p) (hE : F.under = .gradual ∧ F.emin + F.emax ≤ 1) :
    EtaOps F 7 (1 + 8 * F.u) (fun x y => Arith.mul x (Arith.div Arith.one y)) (updRow : Bin F → Bin F → Bin F → Bin F) := by
  have hv := bu_pos (F := F)
  have he := F.eta_pos
  have hu := F.u_pos
  have h16 := u_le_sixteenth hp
  refine ⟨fun x y => isNum_mul _ _, fun x y hny hy h => ?_, fun x y hny hx hy h0 h => ?_, (etaOps_row hW).upd_num, fun l u a hl ha h => ?_⟩
  · obtain ⟨h1, h2, h3⟩ := mul_inv h
    refine ⟨h1, ?_⟩
    obtain ⟨h4, h5⟩ := recip_inv hW hp hE hny hy h2
    change |(Arith.div Arith.one y).real * y.real - 1| ≤ 5 * F.u at h5
    have h6 := mul_le_mul_of_nonneg_right (back_eta hu.le F.u_lt_one h3) (abs_nonneg y.real)
    change |x.real * (Arith.div Arith.one y).real - (Arith.mul x (Arith.div Arith.one y)).real| * _ ≤
      (bu F.u * |(Arith.mul x (Arith.div Arith.one y)).real| + _) * _ at h6
    beta_reduce
    set r := (Arith.div Arith.one y).real
    set z := (Arith.mul x (Arith.div Arith.one y)).real
    rw [← abs_mul, sub_mul, add_mul, mul_assoc (bu F.u), ← abs_mul z] at h6
    set X := x.real * r * y.real
    have k1 : |x.real - X| ≤ 5 * F.u * |x.real| := by
      rw [show x.real - X = -((r * y.real - 1) * x.real) by ring, abs_neg, abs_mul]
      exact mul_le_mul_of_nonneg_right h5 (abs_nonneg _)
    have k2 : |x.real| * (1 - 5 * F.u) ≤ |X| := by
      have := abs_sub_abs_le_abs_sub x.real X
      linarith
    have hg := inv_five_le (F := F) hp
    set g := (1 + bu F.u) ^ 6 with hgd
    have hg1 : 1 ≤ g := one_le_pow₀ (by linarith)
    have k3 : |x.real - X| ≤ (g - 1) * |X| := by
      have h15 : 0 < 1 - 5 * F.u := by linarith
      have : |x.real| ≤ 1 / (1 - 5 * F.u) * |X| := by
        rw [one_div, ← div_eq_inv_mul, le_div_iff₀ h15]; exact k2
      have k4 : 5 * F.u * |x.real| ≤ 5 * F.u * (1 / (1 - 5 * F.u) * |X|) := mul_le_mul_of_nonneg_left this (by linarith)
      have k5 : 5 * F.u * (1 / (1 - 5 * F.u) * |X|) = (1 / (1 - 5 * F.u) - 1) * |X| := by
        field_simp
        ring
      have k6 : (1 / (1 - 5 * F.u) - 1) * |X| ≤ (g - 1) * |X| := mul_le_mul_of_nonneg_right (by linarith) (abs_nonneg _)
      linarith
    have k7 : |X| ≤ |z * y.real| + (bu F.u * |z * y.real| + (1 + bu F.u) * F.eta * |y.real|) := by
      have := abs_sub_abs_le_abs_sub X (z * y.real)
      linarith
    have k8 := mul_le_mul_of_nonneg_left k7 (show 0 ≤ g - 1 by linarith)
    have k9 := abs_add_le (x.real - X) (X - z * y.real)
    rw [show x.real - X + (X - z * y.real) = x.real - z * y.real by ring] at k9
    have q : (1 + bu F.u) ^ 7 = g * (1 + bu F.u) := by rw [hgd]; ring
    rw [q]
    have hY := abs_nonneg y.real
    have k10 : 0 ≤ g * (1 + bu F.u) * 3 * F.eta := by positivity
    calc |x.real - z * y.real| ≤ (g - 1) * (|z * y.real| + (bu F.u * |z * y.real| + (1 + bu F.u) * F.eta * |y.real|)) +
          (bu F.u * |z * y.real| + (1 + bu F.u) * F.eta * |y.real|) := by linarith
      _ = (g * (1 + bu F.u) - 1) * |z * y.real| + g * (1 + bu F.u) * |y.real| * F.eta := by ring
      _ ≤ _ := by linarith
  · beta_reduce
    by_cases hf : (Arith.mul x (Arith.div Arith.one y)).Finite
    · obtain ⟨h1, h2, h3⟩ := mul_inv hf
      obtain ⟨h4, h5⟩ := recip_inv hW hp hE hny hy h2
      change |(Arith.div Arith.one y).real * y.real - 1| ≤ 5 * F.u at h5
      change |(Arith.mul x (Arith.div Arith.one y)).real - x.real * (Arith.div Arith.one y).real| ≤ F.u * |x.real * (Arith.div Arith.one y).real| + F.eta at h3
      set r := (Arith.div Arith.one y).real
      set z := (Arith.mul x (Arith.div Arith.one y)).real
      have k1 : |x.real * r| ≤ 1 + 5 * F.u := by
        have : |x.real * r| ≤ |r * y.real| := by rw [abs_mul, abs_mul, mul_comm |r|]; exact mul_le_mul_of_nonneg_right h (abs_nonneg _)
        have h6 := abs_sub_abs_le_abs_sub (r * y.real) 1
        rw [abs_one] at h6
        linarith
      have k2 : |z| ≤ |x.real * r| + (F.u * |x.real * r| + F.eta) := by
        have := abs_sub_abs_le_abs_sub z (x.real * r)
        linarith
      have k3 : F.eta ≤ F.u := by
        unfold Format.eta Format.u
        rw [if_pos hE.1]
        have : (2 : ℝ) ^ (F.emin - F.p - 1) ≤ (2 : ℝ) ^ (-((F.p + 1 : Nat) : ℤ)) := Format.two_zpow_le (by have := hW.1; push_cast; omega)
        refine le_trans this (le_of_eq ?_)
        rw [zpow_neg, zpow_natCast, one_div, inv_pow]
      have k4 : F.u * |x.real * r| ≤ F.u * (1 + 5 * F.u) := mul_le_mul_of_nonneg_left k1 hu.le
      nlinarith
    · have : (Arith.mul x (Arith.div Arith.one y)).real = 0 := by
        generalize Arith.mul x (Arith.div Arith.one y) = z at hf
        rcases z with ⟨_, _⟩ | _ | _
        · exact absurd trivial hf
        · rfl
        · rfl
      rw [this, abs_zero]
      positivity
  · obtain ⟨h1, h2, h3, h4⟩ := (etaOps_row hW).upd_inv l u a hl ha h
    refine ⟨h1, h2, h3, le_trans h4 ?_⟩
    have := eta_mono (A := |l.real * u.real| + |(updRow l u a).real|) (d := 0) hv he.le (add_nonneg (abs_nonneg _) (abs_nonneg _)) le_rfl
      (w := 1) (w' := 7) (c := 3) (c' := 3) (by omega) le_rfl
    rw [add_zero] at this
    exact_mod_cast this

end Bin
end Blast
