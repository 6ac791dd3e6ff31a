import Verif.BinarySum
import Verif.BackwardPotrf
/-
Backward error analysis of substitution and of the Cholesky factorization in a binary format of IEEE 754, with underflow.
-/
namespace Blast
open Finset

/-! ### Real numbers -/

/-- repeated subtraction, backwards: every step loses at most v relatively and h absolutely -/
theorem etaChain {v h : ℝ} (hv : 0 ≤ v) (hh : 0 ≤ h) {s p : Nat → ℝ} (n : Nat) (hst : ∀ k, k < n → |s k - s (k + 1) - p k| ≤ v * (|s (k + 1)| + |p k|) + h) :
    |s 0 - (s n + ∑ k ∈ range n, p k)| ≤ ((1 + v) ^ n - 1) * (|s n| + ∑ k ∈ range n, |p k|) + n * (1 + v) ^ n * h := by
  induction n with
  | zero => simp
  | succ n ih =>
    have i := ih fun k hk => hst k (by omega)
    have e := hst n (by omega)
    have hQ : 0 ≤ ∑ k ∈ range n, |p k| := sum_nonneg fun _ _ => abs_nonneg _
    rw [sum_range_succ, sum_range_succ]
    set P := ∑ k ∈ range n, p k
    set Q := ∑ k ∈ range n, |p k|
    have g1 : 1 ≤ (1 + v) ^ n := one_le_pow₀ (by linarith)
    have hs : |s n| ≤ (1 + v) * (|s (n + 1)| + |p n|) + h := by
      have h1 : |s n| ≤ |s n - s (n + 1) - p n| + |s (n + 1)| + |p n| := by
        have := abs_add_le (s n - s (n + 1) - p n + s (n + 1)) (p n)
        have h2 := abs_add_le (s n - s (n + 1) - p n) (s (n + 1))
        rw [show s n - s (n + 1) - p n + s (n + 1) + p n = s n by ring] at this
        linarith
      linarith
    have ht : |s 0 - (s (n + 1) + (P + p n))| ≤ |s 0 - (s n + P)| + |s n - s (n + 1) - p n| := by
      have := abs_add_le (s 0 - (s n + P)) (s n - s (n + 1) - p n)
      rw [show s 0 - (s n + P) + (s n - s (n + 1) - p n) = s 0 - (s (n + 1) + (P + p n)) by ring] at this
      exact this
    have q1 : (1 + v) ^ (n + 1) = (1 + v) * (1 + v) ^ n := by ring
    have hX : 0 ≤ |s (n + 1)| + |p n| := add_nonneg (abs_nonneg _) (abs_nonneg _)
    set X := |s (n + 1)| + |p n|
    have m1 := mul_le_mul_of_nonneg_left hs (show 0 ≤ (1 + v) ^ n - 1 by linarith)
    have n1 : ((1 + v) ^ n - 1) * Q ≤ ((1 + v) ^ (n + 1) - 1) * Q := mul_le_mul_of_nonneg_right (by rw [q1]; nlinarith) hQ
    have n2 : (0 : ℝ) ≤ n := Nat.cast_nonneg n
    have n3 : (n : ℝ) * (1 + v) ^ n * h + (1 + v) ^ n * h ≤ (n + 1) * (1 + v) ^ (n + 1) * h := by
      have : (1 + v) ^ n * h ≤ (1 + v) ^ (n + 1) * h := mul_le_mul_of_nonneg_right (by rw [q1]; nlinarith) hh
      have h3 := mul_le_mul_of_nonneg_left this (show (0 : ℝ) ≤ n + 1 by linarith)
      linarith
    push_cast
    calc |s 0 - (s (n + 1) + (P + p n))| ≤ (((1 + v) ^ n - 1) * (|s n| + Q) + n * (1 + v) ^ n * h) + (v * X + h) := by linarith
      _ ≤ ((1 + v) ^ n - 1) * ((1 + v) * X + h) + ((1 + v) ^ n - 1) * Q + n * (1 + v) ^ n * h + (v * X + h) := by linarith
      _ = ((1 + v) ^ (n + 1) - 1) * X + ((1 + v) ^ n - 1) * Q + (n * (1 + v) ^ n * h + (1 + v) ^ n * h) := by rw [q1]; ring
      _ ≤ ((1 + v) ^ (n + 1) - 1) * X + ((1 + v) ^ (n + 1) - 1) * Q + (n + 1) * (1 + v) ^ (n + 1) * h := by linarith
      _ = ((1 + v) ^ (n + 1) - 1) * (|s (n + 1)| + (Q + |p n|)) + (n + 1) * (1 + v) ^ (n + 1) * h := by ring

/-- the last step: the remaining s is s' + e -/
theorem etaSubst {g w H h X c s s' y Q : ℝ} (hg : 0 ≤ g) (hY : 0 ≤ Q) (h1 : |c - (s + y)| ≤ g * (|s| + Q) + H)
    (h2 : |s - s'| ≤ w * X + h) (h3 : |s'| ≤ X) (hw : 0 ≤ w) (hX : 0 ≤ X) :
    |c - (s' + y)| ≤ ((1 + g) * (1 + w) - 1) * (X + Q) + H + (1 + g) * h := by
  have e : |c - (s' + y)| ≤ |c - (s + y)| + |s - s'| := by
    have := abs_add_le (c - (s + y)) (s - s')
    rw [show c - (s + y) + (s - s') = c - (s' + y) by ring] at this
    exact this
  have hs : |s| ≤ (1 + w) * X + h := by
    have := abs_add_le (s - s') s'
    rw [sub_add_cancel] at this
    linarith
  have m1 := mul_le_mul_of_nonneg_left hs hg
  have m2 : g * Q ≤ ((1 + g) * (1 + w) - 1) * Q := mul_le_mul_of_nonneg_right (by nlinarith) hY
  calc |c - (s' + y)| ≤ g * |s| + g * Q + H + (w * X + h) := by linarith
    _ ≤ g * ((1 + w) * X + h) + ((1 + g) * (1 + w) - 1) * Q + H + (w * X + h) := by linarith
    _ = _ := by ring

/-- the error in terms of the result -/
theorem back_eta {u h x z : ℝ} (hu : 0 ≤ u) (hu1 : u < 1) (hh : |z - x| ≤ u * |x| + h) : |x - z| ≤ bu u * |z| + (1 + bu u) * h := by
  have h1 : (1 - u) * |x| ≤ |z| + h := by
    have := abs_sub_abs_le_abs_sub x z
    rw [abs_sub_comm] at this
    linarith
  have h2 : |x| ≤ (|z| + h) / (1 - u) := by rw [le_div_iff₀ (by linarith)]; linarith
  rw [abs_sub_comm]
  refine le_trans hh ?_
  have h3 := mul_le_mul_of_nonneg_left h2 hu
  have e : u * ((|z| + h) / (1 - u)) = bu u * (|z| + h) := by unfold bu; ring
  rw [e] at h3
  linarith

namespace Bin
variable {F : Format}

theorem _root_.Blast.Format.u_lt_one (F : Format) : F.u < 1 := by
  unfold Format.u
  exact pow_lt_one₀ (by norm_num) (by norm_num) (by omega)

theorem _root_.Blast.Format.u_le_half (F : Format) : F.u ≤ 1 / 2 := by
  unfold Format.u
  rw [pow_succ]
  have : (1 / 2 : ℝ) ^ F.p ≤ 1 := pow_le_one₀ (by norm_num) (by norm_num)
  linarith

theorem bu_pos : 0 ≤ bu F.u := bu_nonneg F.u_pos.le F.u_lt_one

theorem bu_le_one : bu F.u ≤ 1 := by
  have := F.u_le_half
  unfold bu
  rw [div_le_one (by linarith)]
  linarith

/-- repeated subtraction of products, each rounded -/
theorem subFold_inv {a x : Nat → Bin F} {c : Bin F} (lo n : Nat) (h : (subFold (fun k => Arith.mul (a k) (x k)) c lo n).Finite) :
    c.Finite ∧ (∀ k, k < n → (a (lo + k)).Finite ∧ (x (lo + k)).Finite) ∧
    |c.real - ((subFold (fun k => Arith.mul (a k) (x k)) c lo n).real + ∑ k ∈ range n, (a (lo + k)).real * (x (lo + k)).real)| ≤
      ((1 + bu F.u) ^ n - 1) * (|(subFold (fun k => Arith.mul (a k) (x k)) c lo n).real| + ∑ k ∈ range n, |(a (lo + k)).real * (x (lo + k)).real|) +
        n * (1 + bu F.u) ^ n * (3 * F.eta) := by
  have key : ∀ k, k ≤ n → (subFold (fun k => Arith.mul (a k) (x k)) c lo k).Finite := by
    intro k hk
    induction n with
    | zero => obtain rfl : k = 0 := by omega
              exact h
    | succ n ih =>
      rcases Nat.lt_or_ge n k with hk' | hk'
      · obtain rfl : k = n + 1 := by omega
        exact h
      · exact ih (sub_inv (h : (sub _ _).Finite)).1 hk'
  have hv := bu_pos (F := F)
  have hv1 := bu_le_one (F := F)
  have he := F.eta_pos
  have step : ∀ k, k < n → (a (lo + k)).Finite ∧ (x (lo + k)).Finite ∧
      |(subFold (fun k => Arith.mul (a k) (x k)) c lo k).real - (subFold (fun k => Arith.mul (a k) (x k)) c lo (k + 1)).real - (a (lo + k)).real * (x (lo + k)).real| ≤
        bu F.u * (|(subFold (fun k => Arith.mul (a k) (x k)) c lo (k + 1)).real| + |(a (lo + k)).real * (x (lo + k)).real|) + 3 * F.eta := by
    intro k hk
    have hf := key (k + 1) (by omega)
    obtain ⟨h1, h2, h3⟩ := sub_inv (hf : (sub (subFold (fun k => Arith.mul (a k) (x k)) c lo k) (mul (a (lo + k)) (x (lo + k)))).Finite)
    obtain ⟨h4, h5, h6⟩ := mul_inv h2
    refine ⟨h4, h5, ?_⟩
    have e1 := back_eta F.u_pos.le F.u_lt_one h3
    change |_ - (subFold (fun k => Arith.mul (a k) (x k)) c lo (k + 1)).real| ≤ bu F.u * |(subFold (fun k => Arith.mul (a k) (x k)) c lo (k + 1)).real| + _ at e1
    have e2 : F.u * |(a (lo + k)).real * (x (lo + k)).real| ≤ bu F.u * |(a (lo + k)).real * (x (lo + k)).real| :=
      mul_le_mul_of_nonneg_right (le_bu F.u_pos.le F.u_lt_one) (abs_nonneg _)
    set S := (subFold (fun k => Arith.mul (a k) (x k)) c lo k).real
    set S' := (subFold (fun k => Arith.mul (a k) (x k)) c lo (k + 1)).real
    set q := (mul (a (lo + k)) (x (lo + k))).real
    set p := (a (lo + k)).real * (x (lo + k)).real
    have e3 := abs_add_le (S - q - S') (q - p)
    rw [show S - q - S' + (q - p) = S - S' - p by ring] at e3
    change |S - q - S'| ≤ _ at e1
    have e4 : bu F.u * F.eta ≤ 1 * F.eta := mul_le_mul_of_nonneg_right hv1 he.le
    linarith
  refine ⟨key 0 (by omega), fun k hk => ⟨(step k hk).1, (step k hk).2.1⟩, ?_⟩
  exact etaChain hv (by linarith) (s := fun k => (subFold (fun k => Arith.mul (a k) (x k)) c lo k).real) (p := fun k => (a (lo + k)).real * (x (lo + k)).real) n
    (fun k hk => (step k hk).2.2)

/-- a finite quotient, backwards -/
theorem div_back {a b : Bin F} (hb : b.Finite) (h : (div a b).Finite) :
    a.Finite ∧ b.real ≠ 0 ∧ |a.real - (div a b).real * b.real| ≤ bu F.u * |(div a b).real * b.real| + (1 + bu F.u) * (|b.real| * F.eta) := by
  obtain ⟨h1, h2, h3⟩ := div_inv hb h
  refine ⟨h1, h2, ?_⟩
  have e := back_eta F.u_pos.le F.u_lt_one h3
  have e1 := mul_le_mul_of_nonneg_right e (abs_nonneg b.real)
  rw [← abs_mul, sub_mul, div_mul_cancel₀ _ h2] at e1
  refine le_trans e1 (le_of_eq ?_)
  rw [abs_mul]
  ring

/-! ### Normal numbers -/

/-- the range of exponents is wide enough that square roots do not underflow or overflow; true of double and float -/
def _root_.Blast.Format.Wide (F : Format) : Prop := F.emin + 2 * F.p + 4 ≤ 0 ∧ 1 ≤ F.emax

theorem _root_.Blast.Format.round_rel (F : Format) {y : ℝ} (hy : (2 : ℝ) ^ F.emin ≤ y) : |F.round y - y| ≤ F.u * y := by
  have hpos : 0 < y := lt_of_lt_of_le (zpow_pos (by norm_num) _) hy
  rw [F.round_normal hy]
  have h := F.roundG_ulp y
  have hlog : (2 : ℝ) ^ Int.log 2 y ≤ y := by
    have := Int.zpow_log_le_self (b := 2) (r := y) (by norm_num) hpos
    exact_mod_cast this
  have hlt : y < (2 : ℝ) ^ (Int.log 2 y + 1) := by
    have := Int.lt_zpow_succ_log_self (b := 2) (by norm_num) y
    exact_mod_cast this
  have hl : F.emin ≤ Int.log 2 y := by
    have := Format.two_zpow_lt.1 (lt_of_le_of_lt hy hlt)
    omega
  have e : 1 / 2 * F.ulp y = F.u * (2 : ℝ) ^ Int.log 2 y := by
    unfold Format.ulp Format.u
    rw [max_eq_left hl, zpow_sub₀ (by norm_num), zpow_natCast, pow_succ, one_div, inv_pow]
    field_simp
  rw [e] at h
  exact le_trans h (mul_le_mul_of_nonneg_left hlog F.u_pos.le)

theorem mk_rel {nz : Bool} {x : ℝ} (hx : (2 : ℝ) ^ F.emin ≤ |x|) (h : (mk F nz x).Finite) : |(mk F nz x).real - x| ≤ F.u * |x| := by
  rw [real_mk h]
  have := F.round_rel hx
  split
  · rename_i hl
    rw [abs_of_neg hl] at this ⊢
    rw [show -F.round (-x) - x = -(F.round (-x) - -x) by ring, abs_neg]
    exact this
  · rename_i hl
    rw [abs_of_nonneg (not_lt.1 hl)] at this ⊢
    exact this

/-- a number of the format, or infinite or NaN -/
def IsNum (x : Bin F) : Prop := x.Finite → F.Representable x.real

theorem isNum_mk (nz : Bool) (x : ℝ) : IsNum (mk F nz x) := mk_representable

theorem representable_zero : F.Representable 0 :=
  ⟨F.representableG_zero, fun _ => Or.inl rfl⟩

theorem isNum_add (a b : Bin F) : IsNum (add a b) := by
  rcases a with ⟨s, x⟩ | s | _ <;> rcases b with ⟨t, y⟩ | t | _
  · exact isNum_mk _ _
  all_goals intro h
  · exact h.elim
  · exact h.elim
  · exact h.elim
  · simp only [add] at h
    split at h <;> exact h.elim
  all_goals exact h.elim

theorem isNum_fma (a b c : Bin F) : IsNum (fma a b c) := by
  rcases a with ⟨s, x⟩ | s | _ <;> rcases b with ⟨t, y⟩ | t | _ <;> rcases c with ⟨r, z⟩ | r | _
  case fin.fin.fin => exact isNum_mk _ _
  case fin.fin.inf => exact fun h => h.elim
  case fin.fin.nan => exact fun h => h.elim
  all_goals
    simp only [fma]
    exact isNum_add _ _

theorem isNum_fnma (a b c : Bin F) : IsNum (fnma a b c) := isNum_fma _ _ _

theorem isNum_mul (a b : Bin F) : IsNum (mul a b) := by
  rcases a with ⟨s, x⟩ | s | _ <;> rcases b with ⟨t, y⟩ | t | _
  · exact isNum_mk _ _
  all_goals intro h
  · simp only [mul] at h
    split at h <;> exact h.elim
  · exact h.elim
  · simp only [mul] at h
    split at h <;> exact h.elim
  all_goals exact h.elim

theorem isNum_div (a b : Bin F) : IsNum (div a b) := by
  rcases a with ⟨s, x⟩ | s | _ <;> rcases b with ⟨t, y⟩ | t | _
  · by_cases hy : y = 0
    · intro h
      simp only [div] at h
      rw [if_pos hy] at h
      split at h <;> exact h.elim
    · have e : div (fin s x : Bin F) (fin t y) = mk F (s != t) (real (fin s x : Bin F) / real (fin t y : Bin F)) := by
        simp only [div]
        exact if_neg hy
      rw [e]
      exact isNum_mk _ _
  · intro _
    have e : (div (fin s x : Bin F) (inf t)).real = 0 := (real_eq_zero _ _).2 rfl
    rw [e]
    exact representable_zero
  all_goals exact fun h => h.elim

/-- multiplication by -1 is exact -/
theorem mul_negOne {x : Bin F} (hx : IsNum x) (h : x.Finite) : (mul (neg (fin false 1)) x).Finite ∧ (mul (neg (fin false 1)) x).real = -x.real := by
  rcases x with ⟨t, y⟩ | _ | _
  · have e : (neg (fin false 1) : Bin F).real * (fin t y : Bin F).real = -(fin t y : Bin F).real := by
      rw [real_neg]
      cases t <;> simp [real]
    have hr : F.Representable ((neg (fin false 1) : Bin F).real * (fin t y : Bin F).real) := by rw [e]; exact Format.Representable.neg (hx h)
    have := mk_exact (nz := (!false) != t) hr
    rw [e] at this
    simp only [neg, mul] at this ⊢
    have e' : (fin (!false) 1 : Bin F).real * (fin t y : Bin F).real = -(fin t y : Bin F).real := e
    rw [e']
    exact this
  · exact h.elim
  · exact h.elim

/-- multiplication by 1 is exact -/
theorem mul_one' {x : Bin F} (hx : IsNum x) (h : x.Finite) : (mul (fin false 1) x).Finite ∧ (mul (fin false 1) x).real = x.real := by
  rcases x with ⟨t, y⟩ | _ | _
  · have e : (fin false 1 : Bin F).real * (fin t y : Bin F).real = (fin t y : Bin F).real := by simp [real]
    have := mk_exact (F := F) (nz := false != t) (x := (fin t y : Bin F).real) (hx h)
    simp only [mul]
    rw [e]
    exact this
  · exact h.elim
  · exact h.elim

/-! ### Cholesky -/

theorem fmaSum_prefix {a b : Nat → Bin F} {z : Bin F} {n : Nat} (h : (fmaSum a b z n).Finite) : ∀ k, k ≤ n → (fmaSum a b z k).Finite := by
  intro k hk
  induction n with
  | zero => obtain rfl : k = 0 := by omega
            exact h
  | succ n ih =>
    rcases Nat.lt_or_ge n k with hk' | hk'
    · obtain rfl : k = n + 1 := by omega
      exact h
    · exact ih (fma_inv (h : (fma _ _ _).Finite)).2.2.1 hk'

theorem fnmaSum_prefix {a b : Nat → Bin F} {z : Bin F} {n : Nat} (h : (fnmaSum a b z n).Finite) : ∀ k, k ≤ n → (fnmaSum a b z k).Finite := by
  intro k hk
  induction n with
  | zero => obtain rfl : k = 0 := by omega
            exact h
  | succ n ih =>
    rcases Nat.lt_or_ge n k with hk' | hk'
    · obtain rfl : k = n + 1 := by omega
      exact h
    · exact ih (fnma_inv (h : (fnma _ _ _).Finite)).2.2.1 hk'

/-- the products of two rows subtracted from acc: everything is finite if the result is, and the error is bounded -/
theorem potS_inv {KN : Nat} {l : Nat → Nat → Bin F} {acc : Bin F} {r c : Nat} (hl : ∀ q, q < c → IsNum (l r q)) (h : (potS KN l acc r c).Finite) :
    acc.Finite ∧ (∀ q, q < c → (l r q).Finite ∧ (l c q).Finite) ∧
    |acc.real - ((potS KN l acc r c).real + ∑ q ∈ range c, (l r q).real * (l c q).real)| ≤
      ((1 + bu F.u) ^ c - 1) * (|(potS KN l acc r c).real| + ∑ q ∈ range c, |(l r q).real * (l c q).real|) + c * (1 + bu F.u) ^ c * (2 * F.eta) := by
  have e : c = c / KN * KN + c % KN := by have := Nat.div_add_mod c KN; rw [Nat.mul_comm] at this; omega
  unfold potS at h ⊢
  set K := c / KN * KN
  set R := c % KN
  have hv := bu_pos (F := F)
  have hv1 := bu_le_one (F := F)
  have he := F.eta_pos
  have e4 : bu F.u * F.eta ≤ 1 * F.eta := mul_le_mul_of_nonneg_right hv1 he.le
  set f1 : Nat → Bin F := fun q => Arith.mul (Arith.neg Arith.one) (l r q) with hf1
  set S1 : Nat → Bin F := fun k => fmaSum f1 (fun q => l c q) acc k with hS1
  set S2 : Nat → Bin F := fun k => fnmaSum (fun t => l c (K + t)) (fun t => l r (K + t)) (S1 K) k with hS2
  have p2 : ∀ k, k ≤ R → (S2 k).Finite := fnmaSum_prefix h
  have p1 : ∀ k, k ≤ K → (S1 k).Finite := fmaSum_prefix (p2 0 (by omega))
  have st2 : ∀ k, k < R → (l r (K + k)).Finite ∧ (l c (K + k)).Finite ∧
      |(S2 k).real - (S2 (k + 1)).real - (l r (K + k)).real * (l c (K + k)).real| ≤ bu F.u * (|(S2 (k + 1)).real| + |(l r (K + k)).real * (l c (K + k)).real|) + 2 * F.eta := by
    intro k hk
    obtain ⟨h1, h2, h3, h4⟩ := fnma_inv (p2 (k + 1) (by omega) : (fnma (l c (K + k)) (l r (K + k)) (S2 k)).Finite)
    refine ⟨h2, h1, ?_⟩
    have e1 := back_eta F.u_pos.le F.u_lt_one h4
    change |_ - (S2 (k + 1)).real| ≤ bu F.u * |(S2 (k + 1)).real| + _ at e1
    rw [mul_comm (l c (K + k)).real] at e1
    have n1 : 0 ≤ bu F.u * |(l r (K + k)).real * (l c (K + k)).real| := by positivity
    rw [show (S2 k).real - (S2 (k + 1)).real - (l r (K + k)).real * (l c (K + k)).real = (S2 k).real - (l r (K + k)).real * (l c (K + k)).real - (S2 (k + 1)).real by ring]
    linarith
  have st1 : ∀ k, k < K → (l r k).Finite ∧ (l c k).Finite ∧
      |(S1 k).real - (S1 (k + 1)).real - (l r k).real * (l c k).real| ≤ bu F.u * (|(S1 (k + 1)).real| + |(l r k).real * (l c k).real|) + 2 * F.eta := by
    intro k hk
    obtain ⟨h1, h2, h3, h4⟩ := fma_inv (p1 (k + 1) (by omega) : (fma (f1 k) (l c k) (S1 k)).Finite)
    have h5 := (mul_inv h1).2.1
    refine ⟨h5, h2, ?_⟩
    have e0 : (f1 k).real = -(l r k).real := (mul_negOne (hl k (by omega)) h5).2
    have e1 := back_eta F.u_pos.le F.u_lt_one h4
    change |_ - (S1 (k + 1)).real| ≤ bu F.u * |(S1 (k + 1)).real| + _ at e1
    rw [e0] at e1
    have n1 : 0 ≤ bu F.u * |(l r k).real * (l c k).real| := by positivity
    rw [show (S1 k).real - (S1 (k + 1)).real - (l r k).real * (l c k).real = -(l r k).real * (l c k).real + (S1 k).real - (S1 (k + 1)).real by ring]
    linarith
  refine ⟨p1 0 (by omega), fun q hq => ?_, ?_⟩
  · rcases Nat.lt_or_ge q K with h' | h'
    · exact ⟨(st1 q h').1, (st1 q h').2.1⟩
    · have := st2 (q - K) (by omega)
      rw [show K + (q - K) = q by omega] at this
      exact ⟨this.1, this.2.1⟩
  · have c1 := etaChain hv (by linarith) (s := fun k => (S1 k).real) (p := fun k => (l r k).real * (l c k).real) K (fun k hk => (st1 k hk).2.2)
    have c2 := etaChain hv (by linarith) (s := fun k => (S2 k).real) (p := fun k => (l r (K + k)).real * (l c (K + k)).real) R (fun k hk => (st2 k hk).2.2)
    beta_reduce at c1 c2
    have g1 : 1 ≤ (1 + bu F.u) ^ K := one_le_pow₀ (by linarith)
    have g2 : 1 ≤ (1 + bu F.u) ^ R := one_le_pow₀ (by linarith)
    have hQ1 : 0 ≤ ∑ k ∈ range K, |(l r k).real * (l c k).real| := sum_nonneg fun _ _ => abs_nonneg _
    have hQ2 : 0 ≤ ∑ k ∈ range R, |(l r (K + k)).real * (l c (K + k)).real| := sum_nonneg fun _ _ => abs_nonneg _
    have sub := etaSubst (by linarith) hQ1 c1 c2 (le_trans (abs_add_le _ _) (add_le_add le_rfl (abs_sum_le_sum_abs _ _))) (by linarith) (add_nonneg (abs_nonneg _) hQ2)
    have key : ∀ f : Nat → ℝ, ∑ q ∈ range c, f q = ∑ q ∈ range K, f q + ∑ t ∈ range R, f (K + t) := by
      intro f
      rw [← sum_range_add f, ← e]
    rw [key (fun q => (l r q).real * (l c q).real), key (fun q => |(l r q).real * (l c q).real|)]
    have q1 : (1 + ((1 + bu F.u) ^ K - 1)) * (1 + ((1 + bu F.u) ^ R - 1)) = (1 + bu F.u) ^ c := by
      rw [e, pow_add]; ring
    rw [q1] at sub
    have b1 : (K : ℝ) * (1 + bu F.u) ^ K * (2 * F.eta) ≤ K * (1 + bu F.u) ^ c * (2 * F.eta) :=
      mul_le_mul_of_nonneg_right (mul_le_mul_of_nonneg_left (pow_le_pow_right₀ (by linarith) (by omega)) (Nat.cast_nonneg K)) (by linarith)
    have b2 : (1 + ((1 + bu F.u) ^ K - 1)) * (R * (1 + bu F.u) ^ R * (2 * F.eta)) = R * (1 + bu F.u) ^ c * (2 * F.eta) := by
      rw [e, pow_add]; ring
    have ec : (c : ℝ) = K + R := by exact_mod_cast e
    rw [b2] at sub
    refine le_trans (le_of_eq ?_) (le_trans sub ?_)
    · congr 1
      show acc.real - _ = acc.real - _
      ring
    · rw [ec]
      have : ((1 + bu F.u) ^ c - 1) * (|(S2 R).real| + ∑ k ∈ range R, |(l r (K + k)).real * (l c (K + k)).real| + ∑ k ∈ range K, |(l r k).real * (l c k).real|) =
        ((1 + bu F.u) ^ c - 1) * (|(S2 R).real| + (∑ k ∈ range K, |(l r k).real * (l c k).real| + ∑ k ∈ range R, |(l r (K + k)).real * (l c (K + k)).real|)) := by ring
      rw [this]
      linarith

/-- the value of `potS` is a number of the format if acc is -/
theorem isNum_potS {KN : Nat} {l : Nat → Nat → Bin F} {acc : Bin F} {r c : Nat} (h : IsNum acc) : IsNum (potS KN l acc r c) := by
  have h1 : ∀ (f g : Nat → Bin F) n, IsNum (fmaSum f g acc n) := fun f g n => by
    cases n with
    | zero => exact h
    | succ n => exact isNum_fma _ _ _
  unfold potS
  cases c % KN with
  | zero => exact h1 _ _ _
  | succ n => exact isNum_fnma _ _ _

/-- positive numbers of the format are not below the smallest subnormal number -/
theorem _root_.Blast.Format.Representable.le {x : ℝ} (h : F.Representable x) (hx : 0 < x) : (2 : ℝ) ^ (F.emin - F.p) ≤ x := by
  obtain ⟨⟨n, e, h1, h2, h3, rfl⟩, -⟩ := h
  have he : (0 : ℝ) < (2 : ℝ) ^ e := zpow_pos (by norm_num) _
  have hn : (0 : ℝ) < n := by
    by_contra hc
    have := mul_nonpos_of_nonpos_of_nonneg (not_lt.1 hc) he.le
    linarith
  have hn1 : (1 : ℝ) ≤ n := by
    have : (0 : ℤ) < n := by exact_mod_cast hn
    exact_mod_cast this
  calc (2 : ℝ) ^ (F.emin - F.p) ≤ 2 ^ e := Format.two_zpow_le (by omega)
    _ = 1 * 2 ^ e := by ring
    _ ≤ n * 2 ^ e := mul_le_mul_of_nonneg_right hn1 he.le

/-- the pivot of the Cholesky factorization: if the computed diagonal element is finite, the pivot was positive, and neither its square root nor the quotient underflows -/
theorem pivot_inv (hW : F.Wide) {S : Bin F} (hS : IsNum S) (h : (div S (sqrt S)).Finite) :
    (sqrt S).Finite ∧ 0 < (sqrt S).real ∧ 0 < (div S (sqrt S)).real ∧ Rel (bu F.u) 3 (div S (sqrt S)).real (sqrt S).real := by
  rcases S with ⟨s, x⟩ | s | _
  · by_cases hx : x = 0
    · subst hx
      have : div (fin s 0 : Bin F) (sqrt (fin s 0)) = nan := by simp [sqrt, div]
      rw [this] at h
      exact h.elim
    · cases s with
      | true =>
        have : div (fin true x : Bin F) (sqrt (fin true x)) = nan := by simp [sqrt, div, hx]
        rw [this] at h
        exact h.elim
      | false =>
        have hx0 : 0 < (x : ℝ) := by
          have : 0 < x := pos_iff_ne_zero.2 hx
          exact_mod_cast this
        have hr : (fin false x : Bin F).real = x := by simp [real]
        have hrep : F.Representable (x : ℝ) := by
          have := hS trivial
          rwa [hr] at this
        have e1 : sqrt (fin false x : Bin F) = mk F false (Real.sqrt x) := by simp [sqrt, hx]
        have hs0 : 0 < Real.sqrt (x : ℝ) := Real.sqrt_pos.2 hx0
        have hss : Real.sqrt (x : ℝ) * Real.sqrt x = x := Real.mul_self_sqrt hx0.le
        have hu := F.u_pos
        have huh := F.u_le_half
        -- not too small
        have hlow : (2 : ℝ) ^ (F.emin + 1) ≤ Real.sqrt (x : ℝ) := by
          refine Real.le_sqrt_of_sq_le ?_
          have h1 := hrep.le hx0
          refine le_trans ?_ h1
          rw [pow_two, ← zpow_add₀ (by norm_num)]
          exact Format.two_zpow_le (by have := hW.1; omega)
        have hp2 : (0 : ℝ) < (2 : ℝ) ^ F.emin := zpow_pos (by norm_num) _
        have e2 : (2 : ℝ) ^ (F.emin + 1) = 2 ^ F.emin * 2 := by rw [zpow_add₀ (by norm_num), zpow_one]
        rw [e2] at hlow
        -- not too large
        have hbig4 : (4 : ℝ) ≤ F.big := by
          have := Format.two_zpow_le (a := 2) (b := F.emax + 1) (by have := hW.2; omega)
          have e : (2 : ℝ) ^ (2 : ℤ) = 4 := by norm_num
          rw [e] at this
          exact this
        have hxb : (x : ℝ) < F.big := lt_of_le_of_lt (le_abs_self _) (Format.Representable.lt_big hrep)
        have heta : F.eta < 1 := by
          have h1 := Format.two_zpow_le (a := F.emin - F.p - 1) (b := -1) (by have := hW.1; omega)
          have h2 := Format.two_zpow_le (a := F.emin) (b := -1) (by have := hW.1; omega)
          have e : (2 : ℝ) ^ (-1 : ℤ) = 1 / 2 := by norm_num
          rw [e] at h1 h2
          have : F.eta ≤ 1 / 2 := by unfold Format.eta; split <;> assumption
          linarith
        have hfin : (mk F false (Real.sqrt (x : ℝ))).Finite := by
          refine mk_finite ?_
          rw [abs_of_pos hs0]
          have h5 : Real.sqrt (x : ℝ) ≤ F.big / 2 := by
            refine Real.sqrt_le_iff.2 ⟨by linarith, ?_⟩
            nlinarith
          nlinarith
        have h3 : |(mk F false (Real.sqrt (x : ℝ))).real - Real.sqrt x| ≤ F.u * |Real.sqrt (x : ℝ)| := mk_rel (by rw [abs_of_pos hs0]; linarith) hfin
        rw [e1] at h ⊢
        set t := mk F false (Real.sqrt (x : ℝ)) with ht
        have hrel := rel_of_err hu.le F.u_lt_one h3
        have ht0 : 0 < t.real := by
          have := (abs_le.1 h3).1
          rw [abs_of_pos hs0] at this
          nlinarith
        -- the quotient
        have ed : ∃ nz, div (fin false x : Bin F) t = mk F nz ((x : ℝ) / t.real) := by
          rcases hte : t with ⟨s', y⟩ | _ | _
          · have hy : y ≠ 0 := by
              rintro rfl
              rw [hte] at ht0
              simp [real] at ht0
            refine ⟨false != s', ?_⟩
            simp only [div]
            rw [if_neg hy, hr]
          · rw [hte] at hfin; exact hfin.elim
          · rw [hte] at hfin; exact hfin.elim
        obtain ⟨nz, ed⟩ := ed
        rw [ed] at h ⊢
        have hq0 : 0 < (x : ℝ) / t.real := div_pos hx0 ht0
        have hq : (2 : ℝ) ^ F.emin ≤ |(x : ℝ) / t.real| := by
          rw [abs_of_pos hq0, le_div_iff₀ ht0]
          have h6 := (abs_le.1 h3).2
          rw [abs_of_pos hs0] at h6
          have h7 : t.real ≤ 2 * Real.sqrt (x : ℝ) := by nlinarith
          calc (2 : ℝ) ^ F.emin * t.real ≤ 2 ^ F.emin * (2 * Real.sqrt (x : ℝ)) := mul_le_mul_of_nonneg_left h7 hp2.le
            _ = 2 ^ F.emin * 2 * Real.sqrt (x : ℝ) := by ring
            _ ≤ Real.sqrt (x : ℝ) * Real.sqrt (x : ℝ) := mul_le_mul_of_nonneg_right hlow hs0.le
            _ = x := hss
        have h8 := mk_rel hq h
        have hrel2 := rel_of_err hu.le F.u_lt_one h8
        have hl0 : 0 < (mk F nz ((x : ℝ) / t.real)).real := by
          have := (abs_le.1 h8).1
          rw [abs_of_pos hq0] at this
          nlinarith
        refine ⟨hfin, ht0, hl0, ?_⟩
        have hvv := bu_pos (F := F)
        have m1 := hrel2.mul hvv (Rel.refl (bu F.u) t.real)
        rw [div_mul_cancel₀ _ ht0.ne'] at m1
        have m2 := hrel.mul hvv hrel
        rw [hss] at m2
        exact (m1.trans hvv m2.symm).cancel ht0.ne'
  · cases s <;> exact h.elim
  · exact h.elim

/-- one element of the Cholesky factor -/
theorem pot_entry' (hW : F.Wide) {KN : Nat} {l : Nat → Nat → Bin F} {ar ac : Bin F} {r c : Nat} (hac : IsNum ac) (hl : ∀ q, q < c → IsNum (l r q))
    (hcc : l c c = Arith.div (potS KN l ac c c) (Arith.sqrt (potS KN l ac c c))) (hfc : (l c c).Finite)
    (hrc : l r c = Arith.div (potS KN l ar r c) (Arith.sqrt (potS KN l ac c c)) ∨ l r c = Arith.div (potS KN l ar r c) (l c c)) (hfr : (l r c).Finite) :
    0 < (l c c).real ∧ ar.Finite ∧ (∀ q, q < c → (l r q).Finite ∧ (l c q).Finite) ∧
    |ar.real - ∑ q ∈ range (c + 1), (l r q).real * (l c q).real| ≤
      ((1 + bu F.u) ^ (c + 4) - 1) * ∑ q ∈ range (c + 1), |(l r q).real| * |(l c q).real| + (1 + bu F.u) ^ (c + 4) * (2 * c + |(l c c).real|) * F.eta := by
  have hv := bu_pos (F := F)
  have he := F.eta_pos
  have hfc' := hfc
  rw [hcc] at hfc'
  obtain ⟨p1, p2, p3, p4⟩ := pivot_inv hW (isNum_potS hac) hfc'
  have ecc : (l c c).real = (div (potS KN l ac c c) (sqrt (potS KN l ac c c))).real := congrArg Bin.real hcc
  rw [← ecc] at p3 p4
  set t := sqrt (potS KN l ac c c) with ht
  set S := potS KN l ar r c with hS
  have g3 : 1 ≤ (1 + bu F.u) ^ 3 := one_le_pow₀ (by linarith)
  have hlt : |t.real| ≤ (1 + bu F.u) ^ 3 * |(l c c).real| := by
    have h1 := p4.left
    have h2 := abs_add_le (t.real - (l c c).real) (l c c).real
    rw [sub_add_cancel, abs_sub_comm] at h2
    linarith
  have hdiv : S.Finite ∧ |S.real - (l r c).real * (l c c).real| ≤ ((1 + bu F.u) ^ 4 - 1) * |(l r c).real * (l c c).real| + (1 + bu F.u) ^ 4 * |(l c c).real| * F.eta := by
    rcases hrc with hh | hh
    · have hf2 : (div S t).Finite := by rw [hh] at hfr; exact hfr
      obtain ⟨d1, -, d3⟩ := div_back p1 hf2
      refine ⟨d1, ?_⟩
      have e : (div S t).real = (l r c).real := congrArg Bin.real hh.symm
      rw [e] at d3
      have h1 : |S.real - (l r c).real * (l c c).real| ≤ |S.real - (l r c).real * t.real| + |(l r c).real| * |(l c c).real - t.real| := by
        rw [← abs_mul]
        have := abs_add_le (S.real - (l r c).real * t.real) (-((l r c).real * ((l c c).real - t.real)))
        rw [abs_neg, show S.real - (l r c).real * t.real + -((l r c).real * ((l c c).real - t.real)) = S.real - (l r c).real * (l c c).real by ring] at this
        exact this
      have h2 := mul_le_mul_of_nonneg_left p4.left (abs_nonneg (l r c).real)
      rw [abs_mul] at d3
      have h3 := mul_le_mul_of_nonneg_left hlt (show 0 ≤ bu F.u * |(l r c).real| by positivity)
      have h4 := mul_le_mul_of_nonneg_left hlt (show 0 ≤ (1 + bu F.u) * F.eta by positivity)
      rw [abs_mul]
      calc |S.real - (l r c).real * (l c c).real| ≤ bu F.u * |(l r c).real| * ((1 + bu F.u) ^ 3 * |(l c c).real|) + (1 + bu F.u) * F.eta * ((1 + bu F.u) ^ 3 * |(l c c).real|) +
            |(l r c).real| * (((1 + bu F.u) ^ 3 - 1) * |(l c c).real|) := by linarith
        _ = _ := by ring
    · have hf2 : (div S (l c c)).Finite := by rw [hh] at hfr; exact hfr
      obtain ⟨d1, -, d3⟩ := div_back hfc hf2
      refine ⟨d1, ?_⟩
      have e : (div S (l c c)).real = (l r c).real := congrArg Bin.real hh.symm
      rw [e] at d3
      have q4 : (1 + bu F.u) ^ 4 = (1 + bu F.u) * (1 + bu F.u) ^ 3 := by ring
      have q5 : 1 + bu F.u ≤ (1 + bu F.u) ^ 4 := by rw [q4]; nlinarith
      have h5 := mul_le_mul_of_nonneg_right (show bu F.u ≤ (1 + bu F.u) ^ 4 - 1 by linarith) (abs_nonneg ((l r c).real * (l c c).real))
      have h6 := mul_le_mul_of_nonneg_right q5 (show 0 ≤ |(l c c).real| * F.eta by positivity)
      refine le_trans d3 (le_trans (add_le_add h5 h6) (le_of_eq (by ring)))
  obtain ⟨s1, s2⟩ := hdiv
  obtain ⟨k1, k2, k3⟩ := potS_inv hl s1
  refine ⟨p3, k1, k2, ?_⟩
  have g4 : 1 ≤ (1 + bu F.u) ^ 4 := one_le_pow₀ (by linarith)
  have gc : 1 ≤ (1 + bu F.u) ^ c := one_le_pow₀ (by linarith)
  have hQ : 0 ≤ ∑ q ∈ range c, |(l r q).real * (l c q).real| := sum_nonneg fun _ _ => abs_nonneg _
  have sub := etaSubst (by linarith) hQ k3 s2 le_rfl (by linarith) (abs_nonneg _)
  rw [sum_range_succ, sum_range_succ]
  simp only [← abs_mul]
  rw [add_comm (∑ q ∈ range c, (l r q).real * (l c q).real), add_comm (∑ q ∈ range c, |(l r q).real * (l c q).real|)]
  refine le_trans sub ?_
  have q1 : (1 + ((1 + bu F.u) ^ c - 1)) * (1 + ((1 + bu F.u) ^ 4 - 1)) = (1 + bu F.u) ^ (c + 4) := by rw [pow_add]; ring
  rw [q1]
  have b1 : (c : ℝ) * (1 + bu F.u) ^ c * (2 * F.eta) ≤ c * (1 + bu F.u) ^ (c + 4) * (2 * F.eta) :=
    mul_le_mul_of_nonneg_right (mul_le_mul_of_nonneg_left (pow_le_pow_right₀ (by linarith) (by omega)) (Nat.cast_nonneg c)) (by linarith)
  have b2 : (1 + ((1 + bu F.u) ^ c - 1)) * ((1 + bu F.u) ^ 4 * |(l c c).real| * F.eta) = (1 + bu F.u) ^ (c + 4) * |(l c c).real| * F.eta := by rw [pow_add]; ring
  rw [b2]
  linarith

end Bin
end Blast
