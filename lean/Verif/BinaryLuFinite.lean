import Verif.BinaryGetrf
/-
LU factorization in a binary format of IEEE 754: conditions under which no operation overflows.
-/
set_option linter.unusedSectionVars false
namespace Blast
open Finset

namespace Bin
variable {F : Format}

theorem big_ge_four (hW : F.Wide) : 4 ≤ F.big := by
  unfold Format.big
  have : (2 : ℝ) ^ (2 : ℤ) ≤ (2 : ℝ) ^ (F.emax + 1) := Format.two_zpow_le (by have := hW.2; omega)
  refine le_trans (by norm_num) this

theorem eta_le_half (hW : F.Wide) : F.eta ≤ 1 / 8 := by
  have h1 : (2 : ℝ) ^ (F.emin - F.p - 1) ≤ (2 : ℝ) ^ (-3 : ℤ) := Format.two_zpow_le (by have := hW.1; omega)
  have h2 : (2 : ℝ) ^ F.emin ≤ (2 : ℝ) ^ (-3 : ℤ) := Format.two_zpow_le (by have := hW.1; omega)
  have h3 : F.eta ≤ (2 : ℝ) ^ (-3 : ℤ) := by unfold Format.eta; split <;> assumption
  exact le_trans h3 (by norm_num)

theorem div_finite (hW : F.Wide) {x y : Bin F} (hx : x.Finite) (hy : y.Finite) (hy0 : y.real ≠ 0) (h : |x.real| ≤ |y.real|) : (div x y).Finite := by
  rcases x with ⟨s, x⟩ | _ | _
  · rcases y with ⟨t, y⟩ | _ | _
    · have hne : y ≠ 0 := fun e => hy0 ((real_eq_zero t y).2 e)
      simp only [div]
      rw [if_neg hne]
      refine mk_finite ?_
      have h1 : |real (fin s x : Bin F) / real (fin t y : Bin F)| ≤ 1 := by
        rw [abs_div]
        exact div_le_one_of_le₀ h (abs_nonneg _)
      have h2 := big_ge_four hW
      have h3 := eta_le_half hW
      have h4 := F.u_lt_one
      have h5 := F.u_pos
      have h6 : (1 + F.u) * |real (fin s x : Bin F) / real (fin t y : Bin F)| ≤ (1 + F.u) * 1 := mul_le_mul_of_nonneg_left h1 (by linarith)
      linarith
    · exact hy.elim
    · exact hy.elim
  · exact hx.elim
  · exact hx.elim

theorem add_finite {a b : Bin F} (ha : a.Finite) (hb : b.Finite) (h : (1 + F.u) * |a.real + b.real| + F.eta < F.big) : (add a b).Finite := by
  rcases a with ⟨s, x⟩ | s | _
  · rcases b with ⟨t, y⟩ | t | _
    · exact mk_finite h
    · exact hb.elim
    · exact hb.elim
  · exact ha.elim
  · exact ha.elim

/-- a product with a number of modulus at most 1 is not larger -/
theorem mul_le_of_le_one {l y : Bin F} (hl : l.Finite) (hl1 : |l.real| ≤ 1) (hy : y.Finite) (hn : IsNum y) : (mul l y).Finite ∧ |(mul l y).real| ≤ |y.real| := by
  have hz := hn hy
  have hz' : F.Representable |y.real| := by
    rcases abs_choice y.real with h | h
    · rw [h]; exact hz
    · rw [h]; exact Format.Representable.neg hz
  rcases l with ⟨s, x⟩ | _ | _
  · rcases y with ⟨t, y⟩ | _ | _
    · simp only [mul]
      have hb : |real (fin s x : Bin F) * real (fin t y : Bin F)| ≤ |real (fin t y : Bin F)| := by
        rw [abs_mul]
        exact mul_le_of_le_one_left (abs_nonneg _) hl1
      have hf : (mk F (s != t) (real (fin s x : Bin F) * real (fin t y : Bin F))).Finite := by
        have hbig := Format.Representable.lt_big hz'
        rw [abs_abs] at hbig
        have h1 := F.round_le (abs_nonneg (real (fin s x : Bin F) * real (fin t y : Bin F))) hz' hb
        unfold mk
        rw [if_neg (by linarith)]
        exact trivial
      exact ⟨hf, mk_le hf hz' hb⟩
    · exact hy.elim
    · exact hy.elim
  · exact hl.elim
  · exact hl.elim

theorem le_of_err {z x u e B : ℝ} (hu : 0 ≤ u) (h : |z - x| ≤ u * |x| + e) (hx : |x| ≤ B) : |z| ≤ (1 + u) * B + e := by
  have h1 := abs_add_le (z - x) x
  rw [sub_add_cancel] at h1
  have h2 : u * |x| ≤ u * B := mul_le_mul_of_nonneg_left hx hu
  linarith

theorem fma_fwd {a b c : Bin F} (ha : a.Finite) (hb : b.Finite) (hc : c.Finite) {B : ℝ} (h : |a.real * b.real + c.real| ≤ B) (hB : (1 + F.u) * B + F.eta < F.big) :
    (fma a b c).Finite ∧ |(fma a b c).real| ≤ (1 + F.u) * B + F.eta := by
  have hu := F.u_pos
  have hf : (fma a b c).Finite := fma_finite ha hb hc (lt_of_le_of_lt (add_le_add (mul_le_mul_of_nonneg_left h (by linarith)) le_rfl) hB)
  exact ⟨hf, le_of_err hu.le (fma_inv hf).2.2.2 h⟩

theorem add_fwd {a b : Bin F} (ha : a.Finite) (hb : b.Finite) {B : ℝ} (h : |a.real + b.real| ≤ B) (hB : (1 + F.u) * B + F.eta < F.big) :
    (add a b).Finite ∧ |(add a b).real| ≤ (1 + F.u) * B + F.eta := by
  have hu := F.u_pos
  have hf : (add a b).Finite := add_finite ha hb (lt_of_le_of_lt (add_le_add (mul_le_mul_of_nonneg_left h (by linarith)) le_rfl) hB)
  exact ⟨hf, le_of_err hu.le (add_inv hf).2.2 h⟩

theorem sub_fwd {a b : Bin F} (ha : a.Finite) (hb : b.Finite) {B : ℝ} (h : |a.real - b.real| ≤ B) (hB : (1 + F.u) * B + F.eta < F.big) :
    (sub a b).Finite ∧ |(sub a b).real| ≤ (1 + F.u) * B + F.eta :=
  add_fwd ha ((finite_neg b).2 hb) (by rw [real_neg, ← sub_eq_add_neg]; exact h) hB

/-- the operations of an elimination step do not overflow -/
structure FwdOps (F : Format) (dv : Bin F → Bin F → Bin F) (upd : Bin F → Bin F → Bin F → Bin F) : Prop where
  dv_fin : ∀ x y, x.Finite → y.Finite → y.real ≠ 0 → |x.real| ≤ |y.real| → (dv x y).Finite
  upd_fin : ∀ l u a B, IsNum l → IsNum u → IsNum a → l.Finite → u.Finite → a.Finite → |l.real| ≤ 1 → |u.real| ≤ B → |a.real| ≤ B →
    2 * (1 + F.u) * B + F.eta < F.big → (upd l u a).Finite ∧ |(upd l u a).real| ≤ 2 * (1 + F.u) * B + F.eta

theorem mul_negOne_fin {l : Bin F} (hl : IsNum l) (h : l.Finite) : (mul (neg (fin false 1)) l).Finite ∧ (mul (neg (fin false 1)) l).real = -l.real := mul_negOne hl h

theorem fwdOps_col (hW : F.Wide) : FwdOps F Arith.div (updCol : Bin F → Bin F → Bin F → Bin F) := by
  refine ⟨fun x y hx hy h0 h => div_finite hW hx hy h0 h, fun l u a B hl hu ha fl fu fa h1 h2 h3 h4 => ?_⟩
  obtain ⟨f1, e1⟩ := mul_negOne hl fl
  obtain ⟨f2, e2⟩ := mul_one' ha fa
  have := fma_fwd (a := Arith.mul (Arith.neg Arith.one) l) (b := u) (c := Arith.mul Arith.one a) f1 fu f2 (B := 2 * B) (by
    have e1' : (Arith.mul (Arith.neg Arith.one) l).real = -l.real := e1
    have e2' : (Arith.mul Arith.one a).real = a.real := e2
    rw [e1', e2']
    have q := abs_add_le (-l.real * u.real) a.real
    rw [abs_mul, abs_neg] at q
    have q2 : |l.real| * |u.real| ≤ 1 * |u.real| := mul_le_mul_of_nonneg_right h1 (abs_nonneg _)
    linarith) (by linarith)
  exact ⟨this.1, le_trans this.2 (by linarith)⟩

theorem fwdOps_row (hW : F.Wide) : FwdOps F Arith.div (updRow : Bin F → Bin F → Bin F → Bin F) := by
  refine ⟨fun x y hx hy h0 h => div_finite hW hx hy h0 h, fun l u a B hl hu ha fl fu fa h1 h2 h3 h4 => ?_⟩
  obtain ⟨f1, e1⟩ := mul_negOne hl fl
  have e1' : (Arith.mul (Arith.neg Arith.one) l).real = -l.real := e1
  obtain ⟨f2, e2⟩ := mul_le_of_le_one (l := Arith.mul (Arith.neg Arith.one) l) (y := u) f1 (by rw [e1', abs_neg]; exact h1) fu hu
  have := add_fwd (a := a) (b := Arith.mul (Arith.mul (Arith.neg Arith.one) l) u) fa f2 (B := 2 * B) (by
    have q := abs_add_le a.real (Arith.mul (Arith.mul (Arith.neg Arith.one) l) u).real
    have e2' : |(Arith.mul (Arith.mul (Arith.neg Arith.one) l) u).real| ≤ |u.real| := e2
    linarith) (by linarith)
  exact ⟨this.1, le_trans this.2 (by linarith)⟩

/-- All elements are finite numbers, the multipliers at most 1 and the rest bounded. -/
def FinState (F : Format) (m n k : Nat) (G : ℝ) (a : Nat → Nat → Bin F) : Prop :=
  ∀ i j, i < m → j < n → (a i j).Finite ∧ IsNum (a i j) ∧ (if j < k ∧ j < i then |(a i j).real| ≤ 1 else |(a i j).real| + 2 * F.eta ≤ G)

theorem FinState.mono {m n k : Nat} {G G' : ℝ} {a : Nat → Nat → Bin F} (h : FinState F m n k G a) (hG : G ≤ G') : FinState F m n k G' a := by
  intro i j hi hj
  obtain ⟨h1, h2, h3⟩ := h i j hi hj
  refine ⟨h1, h2, ?_⟩
  by_cases hc : j < k ∧ j < i
  · rw [if_pos hc] at h3 ⊢; exact h3
  · rw [if_neg hc] at h3 ⊢; linarith

theorem FinState.step {dv : Bin F → Bin F → Bin F} {upd : Bin F → Bin F → Bin F → Bin F} {w0 : Nat} (ho : EtaOps F w0 1 dv upd) (hw : FwdOps F dv upd)
    {m n k : Nat} {G : ℝ} {a a' : Nat → Nat → Bin F} {p p' : Nat → Nat} (hk : k < m) (hkn : k < n) (h : FinState F m n k G a) (hG : 2 * (1 + F.u) * G < F.big) (hG0 : 2 * F.eta ≤ G)
    (hs : luStep dv upd m k a p = some (a', p')) : FinState F m n (k + 1) (2 * (1 + F.u) * G) a' := by
  have hu := F.u_pos
  have he := F.eta_pos
  have hGG : G ≤ 2 * (1 + F.u) * G := by nlinarith
  obtain ⟨b1, b2⟩ := pivotRow_lt a hk
  unfold luStep at hs
  simp only at hs
  by_cases hz : Arith.eq (swapRows k (pivotRow m a k) a k k) Arith.zero = true
  · rw [if_pos hz] at hs; simp at hs
  rw [if_neg hz] at hs
  simp only [Option.some.injEq, Prod.mk.injEq] at hs
  obtain ⟨rfl, -⟩ := hs
  have hb : ∀ i, k ≤ i → i < m → k ≤ swapIdx k (pivotRow m a k) i ∧ swapIdx k (pivotRow m a k) i < m := fun i h1 h2 =>
    swapIdx_bounds ⟨Nat.le_refl k, by omega⟩ ⟨b1, b2⟩ ⟨h1, h2⟩
  have hpiv : swapRows k (pivotRow m a k) a k k = a (pivotRow m a k) k := by rw [swapRows_eq]; unfold swapIdx; rw [if_pos rfl]
  -- the matrix after the interchange
  have h' : FinState F m n k G (swapRows k (pivotRow m a k) a) := by
    intro i j hi hj
    rw [swapRows_eq]
    by_cases hik : i < k
    · rw [swapIdx_lt (Nat.le_refl k) b1 hik]; exact h i j hi hj
    · obtain ⟨q1, q2⟩ := hb i (by omega) hi
      obtain ⟨h1, h2, h3⟩ := h _ j q2 hj
      refine ⟨h1, h2, ?_⟩
      by_cases hc : j < k
      · rw [if_pos ⟨hc, by omega⟩] at h3 ⊢; exact h3
      · rw [if_neg (by omega)] at h3 ⊢; exact h3
  have hmax : ∀ i, k ≤ i → i < m → |(swapRows k (pivotRow m a k) a i k).real| ≤ |(swapRows k (pivotRow m a k) a k k).real| := by
    intro i h1 h2
    rw [hpiv, swapRows_eq]
    obtain ⟨q1, q2⟩ := hb i h1 h2
    exact pivot_max a (fun i' _ h2 => (h i' k h2 hkn).1) q1 q2
  generalize swapRows k (pivotRow m a k) a = b at h' hmax hz
  have hnz := eq_zero_real (h' k k hk hkn).1 hz
  intro i j hi hj
  obtain ⟨h1, h2, h3⟩ := h' i j hi hj
  unfold elim
  by_cases hki : k < i
  · rw [if_pos hki]
    obtain ⟨f1, -, -⟩ := h' i k hi hkn
    obtain ⟨g1, g2, -⟩ := h' k k hk hkn
    have hd := hw.dv_fin _ _ f1 g1 hnz (hmax i (by omega) hi)
    have hd1 := ho.dv_le _ _ g2 f1 g1 hnz (hmax i (by omega) hi)
    by_cases hjk : j = k
    · subst hjk
      rw [if_pos rfl, if_pos (by omega)]
      exact ⟨hd, ho.dv_num _ _, hd1⟩
    · rw [if_neg hjk]
      by_cases hkj : k < j
      · rw [if_pos hkj, if_neg (by omega)]
        rw [if_neg (by omega)] at h3
        obtain ⟨u1, u2, u3⟩ := h' k j hk hj
        rw [if_neg (by omega)] at u3
        have := hw.upd_fin _ _ _ (G - 2 * F.eta) (ho.dv_num (b i k) (b k k)) u2 h2 hd u1 h1 hd1 (by linarith) (by linarith) (by nlinarith)
        exact ⟨this.1, ho.upd_num _ _ _, by nlinarith [this.2]⟩
      · rw [if_neg hkj]
        refine ⟨h1, h2, ?_⟩
        rw [if_pos (by omega)] at h3 ⊢
        exact h3
  · rw [if_neg hki]
    refine ⟨h1, h2, ?_⟩
    by_cases hc : j < k ∧ j < i
    · rw [if_pos hc] at h3; rw [if_pos (by omega)]; exact h3
    · rw [if_neg hc] at h3; rw [if_neg (by omega)]; linarith

/-- `n` steps without overflow -/
theorem luRun_fin {dv : Bin F → Bin F → Bin F} {upd : Bin F → Bin F → Bin F → Bin F} {w0 : Nat} (ho : EtaOps F w0 1 dv upd) (hw : FwdOps F dv upd)
    {m n : Nat} {G : ℝ} (hG0 : 2 * F.eta ≤ G) {a0 : Nat → Nat → Bin F} (h0 : FinState F m n 0 G a0) {ip : Nat → Nat} (K : Nat) (hK : K ≤ m) (hKn : K ≤ n)
    (hG : (2 * (1 + F.u)) ^ K * G < F.big) {a : Nat → Nat → Bin F} {p : Nat → Nat} (h : luRun dv upd m a0 ip K = some (a, p)) :
    FinState F m n K ((2 * (1 + F.u)) ^ K * G) a := by
  have hu := F.u_pos
  have he := F.eta_pos
  have hr : 1 ≤ 2 * (1 + F.u) := by linarith
  induction K generalizing a p with
  | zero =>
    simp only [luRun, Option.some.injEq, Prod.mk.injEq] at h
    obtain ⟨rfl, rfl⟩ := h
    rw [pow_zero, one_mul]; exact h0
  | succ K ih =>
    unfold luRun at h
    have hle : (2 * (1 + F.u)) ^ K * G ≤ (2 * (1 + F.u)) ^ (K + 1) * G := mul_le_mul_of_nonneg_right (pow_le_pow_right₀ hr (by omega)) (by linarith)
    cases hq : luRun dv upd m a0 ip K with
    | none => rw [hq] at h; simp at h
    | some r =>
      obtain ⟨a1, p1⟩ := r
      rw [hq] at h
      simp only [Option.bind_some] at h
      have h1 : 1 ≤ (2 * (1 + F.u)) ^ K := one_le_pow₀ hr
      have := (ih (by omega) (by omega) (lt_of_le_of_lt hle hG) hq).step ho hw (by omega) (by omega) (by rw [pow_succ] at hG; linarith) (by nlinarith) h
      refine this.mono (le_of_eq ?_)
      rw [pow_succ]; ring

/-- the rows of the upper factor, forwards -/
theorem subFold_fwd {l x : Nat → Bin F} {b : Bin F} {g : ℝ} {i T : Nat} (hiT : i ≤ T) (hg : 2 * F.eta ≤ g) (hG : (2 * (1 + F.u)) ^ T * g < F.big)
    (hb : b.Finite ∧ IsNum b ∧ |b.real| + 2 * F.eta ≤ g) (hl : ∀ q, q < i → (l q).Finite ∧ |(l q).real| ≤ 1)
    (hx : ∀ q, q < i → (x q).Finite ∧ IsNum (x q) ∧ |(x q).real| + 2 * F.eta ≤ (2 * (1 + F.u)) ^ q * g) (t : Nat) (ht : t ≤ i) :
    (subFold (fun q => Arith.mul (l q) (x q)) b 0 t).Finite ∧ IsNum (subFold (fun q => Arith.mul (l q) (x q)) b 0 t) ∧
      |(subFold (fun q => Arith.mul (l q) (x q)) b 0 t).real| + 2 * F.eta ≤ (2 * (1 + F.u)) ^ t * g := by
  have hu := F.u_pos
  have he := F.eta_pos
  induction t with
  | zero => rw [pow_zero, one_mul]; exact hb
  | succ t ih =>
    obtain ⟨i1, i2, i3⟩ := ih (by omega)
    obtain ⟨l1, l2⟩ := hl t (by omega)
    obtain ⟨x1, x2, x3⟩ := hx t (by omega)
    obtain ⟨m1, m2⟩ := mul_le_of_le_one l1 l2 x1 x2
    have hle : (2 * (1 + F.u)) ^ (t + 1) * g ≤ (2 * (1 + F.u)) ^ T * g := mul_le_mul_of_nonneg_right (pow_le_pow_right₀ (by linarith) (by omega)) (by linarith)
    have e : (2 * (1 + F.u)) ^ (t + 1) * g = (1 + F.u) * (2 * ((2 * (1 + F.u)) ^ t * g)) := by rw [pow_succ]; ring
    set R := (2 * (1 + F.u)) ^ t * g
    rw [e] at hle ⊢
    simp only [subFold, Nat.zero_add]
    set S := subFold (fun q => Arith.mul (l q) (x q)) b 0 t
    have h1 := abs_sub S.real (mul (l t) (x t)).real
    have := sub_fwd i1 m1 (B := 2 * R - 4 * F.eta) (by linarith) (by nlinarith)
    exact ⟨this.1, isNum_add _ _, by have h2 := this.2; change |(Arith.sub S (Arith.mul (l t) (x t))).real| ≤ _ at h2; nlinarith⟩

/-- the sums of products of the update by gemm, forwards -/
theorem fmaSum_fwd {l x : Nat → Bin F} {g : ℝ} {T : Nat} (hg : 2 * F.eta ≤ g) (hG : (2 * (1 + F.u)) ^ T * g < F.big)
    (hl : ∀ q, q < T → (l q).Finite ∧ |(l q).real| ≤ 1)
    (hx : ∀ q, q < T → (x q).Finite ∧ |(x q).real| + 2 * F.eta ≤ (2 * (1 + F.u)) ^ q * g) (t : Nat) (ht : t ≤ T) :
    (fmaSum l x Arith.zero t).Finite ∧ |(fmaSum l x Arith.zero t).real| + g ≤ (2 * (1 + F.u)) ^ t * g ∧
      (0 < t → |(fmaSum l x Arith.zero t).real| + g + F.eta ≤ (2 * (1 + F.u)) ^ t * g) := by
  have hu := F.u_pos
  have he := F.eta_pos
  induction t with
  | zero =>
    have e3 : (Arith.zero : Bin F).real = 0 := by simp [Arith.zero, real]
    refine ⟨trivial, ?_, fun h => by omega⟩
    show |(Arith.zero : Bin F).real| + g ≤ _
    rw [e3, abs_zero, pow_zero]; linarith
  | succ t ih =>
    obtain ⟨i1, i2, -⟩ := ih (by omega)
    obtain ⟨l1, l2⟩ := hl t (by omega)
    obtain ⟨x1, x3⟩ := hx t (by omega)
    have hle : (2 * (1 + F.u)) ^ (t + 1) * g ≤ (2 * (1 + F.u)) ^ T * g := mul_le_mul_of_nonneg_right (pow_le_pow_right₀ (by linarith) (by omega)) (by linarith)
    have e : (2 * (1 + F.u)) ^ (t + 1) * g = (1 + F.u) * (2 * ((2 * (1 + F.u)) ^ t * g)) := by rw [pow_succ]; ring
    set R := (2 * (1 + F.u)) ^ t * g
    rw [e] at hle ⊢
    have h1 := abs_add_le ((l t).real * (x t).real) (fmaSum l x Arith.zero t).real
    rw [abs_mul] at h1
    have h2 : |(l t).real| * |(x t).real| ≤ 1 * |(x t).real| := mul_le_mul_of_nonneg_right l2 (abs_nonneg _)
    have := fma_fwd l1 x1 i1 (B := 2 * R - 2 * F.eta - g) (by linarith) (by nlinarith)
    have h3 := this.2
    change |(fmaSum l x Arith.zero (t + 1)).real| ≤ _ at h3
    exact ⟨this.1, by nlinarith, fun _ => by nlinarith⟩

theorem gemmNeg_fwd {l x : Nat → Bin F} {c : Bin F} {g : ℝ} {T : Nat} (hT : 0 < T) (hg : 2 * F.eta ≤ g) (hG : (1 + F.u) * ((2 * (1 + F.u)) ^ T * g) < F.big)
    (hc : c.Finite ∧ |c.real| + 2 * F.eta ≤ g) (hl : ∀ q, q < T → (l q).Finite ∧ |(l q).real| ≤ 1)
    (hx : ∀ q, q < T → (x q).Finite ∧ |(x q).real| + 2 * F.eta ≤ (2 * (1 + F.u)) ^ q * g) :
    (gemmEntry (Arith.neg Arith.one) Arith.one l x c T).Finite ∧
      |(gemmEntry (Arith.neg Arith.one) Arith.one l x c T).real| + 2 * F.eta ≤ (1 + F.u) * ((2 * (1 + F.u)) ^ T * g) := by
  have hu := F.u_pos
  have he := F.eta_pos
  have hR : 0 ≤ (2 * (1 + F.u)) ^ T * g := mul_nonneg (by positivity) (by linarith)
  obtain ⟨s1, -, s2⟩ := fmaSum_fwd hg (lt_of_le_of_lt (le_mul_of_one_le_left hR (by linarith)) hG) hl hx T le_rfl
  have s2 := s2 hT
  have hS : IsNum (fmaSum l x Arith.zero T) := by
    obtain ⟨K', rfl⟩ : ∃ K', T = K' + 1 := ⟨T - 1, by omega⟩
    exact isNum_fma _ _ _
  have e1 : (mul (fmaSum l x Arith.zero T) (Arith.neg Arith.one)).Finite ∧ (mul (fmaSum l x Arith.zero T) (Arith.neg Arith.one)).real = -(fmaSum l x Arith.zero T).real := by
    rw [mul_comm']
    exact mul_negOne hS s1
  have e2 : (Arith.one : Bin F).real = 1 := by simp [Arith.one, real]
  set R := (2 * (1 + F.u)) ^ T * g
  have h1 := abs_sub c.real (fmaSum l x Arith.zero T).real
  have := fma_fwd (a := Arith.one) (b := c) (c := mul (fmaSum l x Arith.zero T) (Arith.neg Arith.one)) trivial hc.1 e1.1 (B := R - 3 * F.eta) (by
    rw [e1.2, e2, one_mul, ← sub_eq_add_neg]; linarith) (by nlinarith)
  refine ⟨this.1, ?_⟩
  have h3 := this.2
  change |(gemmEntry (Arith.neg Arith.one) Arith.one l x c T).real| ≤ _ at h3
  nlinarith

/-- one block step without overflow -/
theorem blkRes_fin {T m n : Nat} (hT : 0 < T) {g : ℝ} (hg : 2 * F.eta ≤ g) (hG : (1 + F.u) * ((2 * (1 + F.u)) ^ T * g) < F.big)
    {α s x : Nat → Nat → Bin F} (hs : FinState F m T T ((2 * (1 + F.u)) ^ T * g) s)
    (hα : ∀ i j, i < m → T ≤ j → j < n → (α i j).Finite ∧ IsNum (α i j) ∧ |(α i j).real| + 2 * F.eta ≤ g)
    (hTm : T ≤ m) (hx : ∀ i j, i < T → j < n - T → x i j = subFold (fun q => Arith.mul (s i q) (x q j)) (α i (T + j)) 0 i) :
    FinState F m n T ((1 + F.u) * ((2 * (1 + F.u)) ^ T * g)) (blkRes T s x α) := by
  have hu := F.u_pos
  have he := F.eta_pos
  have hR : 0 ≤ (2 * (1 + F.u)) ^ T * g := mul_nonneg (by positivity) (by linarith)
  have hR' : (2 * (1 + F.u)) ^ T * g ≤ (1 + F.u) * ((2 * (1 + F.u)) ^ T * g) := le_mul_of_one_le_left hR (by linarith)
  have hl : ∀ i q, i < m → q < T → q < i → (s i q).Finite ∧ |(s i q).real| ≤ 1 := fun i q hi hq hqi => by
    obtain ⟨h1, -, h3⟩ := hs i q hi hq
    rw [if_pos ⟨hq, hqi⟩] at h3
    exact ⟨h1, h3⟩
  have hxx : ∀ i, i < T → ∀ j, j < n - T → (x i j).Finite ∧ IsNum (x i j) ∧ |(x i j).real| + 2 * F.eta ≤ (2 * (1 + F.u)) ^ i * g := by
    intro i
    induction i using Nat.strong_induction_on with
    | _ i ih =>
      intro hi j hj
      rw [hx i j hi hj]
      exact subFold_fwd (T := T) (by omega) hg (by linarith) (hα i (T + j) (by omega) (by omega) (by omega)) (fun q hq => hl i q (by omega) (by omega) hq)
        (fun q hq => ih q hq (by omega) j hj) i le_rfl
  intro i j hi hj
  unfold blkRes
  by_cases hjT : j < T
  · rw [if_pos hjT]
    obtain ⟨h1, h2, h3⟩ := hs i j hi hjT
    refine ⟨h1, h2, ?_⟩
    by_cases hc : j < T ∧ j < i
    · rw [if_pos hc] at h3 ⊢; exact h3
    · rw [if_neg hc] at h3 ⊢; linarith
  · rw [if_neg hjT, if_neg (show ¬ (j < T ∧ j < i) by omega)]
    by_cases hiT : i < T
    · rw [if_pos hiT]
      obtain ⟨h1, h2, h3⟩ := hxx i hiT (j - T) (by omega)
      have : (2 * (1 + F.u)) ^ i * g ≤ (2 * (1 + F.u)) ^ T * g := mul_le_mul_of_nonneg_right (pow_le_pow_right₀ (by linarith) (by omega)) (by linarith)
      exact ⟨h1, h2, by linarith⟩
    · rw [if_neg hiT]
      have hαα := hα i j hi (by omega) hj
      have := gemmNeg_fwd hT hg hG ⟨hαα.1, hαα.2.2⟩ (fun q hq => hl i q hi hq (by omega)) (fun q hq => ⟨(hxx q hq (j - T) (by omega)).1, (hxx q hq (j - T) (by omega)).2.2⟩)
      exact ⟨this.1, isNum_fma _ _ _, this.2⟩

/-- extension by the trailing block -/
theorem FinState.extend {M N k t : Nat} {G G' : ℝ} (hG : G ≤ G') {a : Nat → Nat → Bin F} (h : FinState F M N k G a) {p : Nat → Nat} {s : Nat → Nat → Bin F}
    (hpermb : ∀ i, i < M - k → rowPerm p 0 t i < M - k) (hs : FinState F (M - k) (N - k) t G' s)
    {a' : Nat → Nat → Bin F} (ha' : ∀ i j, i < M → j < N → a' i j =
      if i < k then a i j else if j < k then a (k + rowPerm p 0 t (i - k)) j else s (i - k) (j - k)) : FinState F M N (k + t) G' a' := by
  intro i j hi hj
  rw [ha' i j hi hj]
  by_cases hik : i < k
  · rw [if_pos hik]
    obtain ⟨h1, h2, h3⟩ := h i j hi hj
    refine ⟨h1, h2, ?_⟩
    by_cases hc : j < k ∧ j < i
    · rw [if_pos hc] at h3; rw [if_pos (by omega)]; exact h3
    · rw [if_neg hc] at h3; rw [if_neg (by omega)]; linarith
  · rw [if_neg hik]
    by_cases hjk : j < k
    · rw [if_pos hjk]
      have hb := hpermb (i - k) (by omega)
      obtain ⟨h1, h2, h3⟩ := h (k + rowPerm p 0 t (i - k)) j (by omega) hj
      rw [if_pos (by omega)] at h3
      exact ⟨h1, h2, by rw [if_pos (by omega)]; exact h3⟩
    · rw [if_neg hjk]
      obtain ⟨h1, h2, h3⟩ := hs (i - k) (j - k) (by omega) (by omega)
      refine ⟨h1, h2, ?_⟩
      by_cases hc : j - k < t ∧ j - k < i - k
      · rw [if_pos hc] at h3; rw [if_pos (by omega)]; exact h3
      · rw [if_neg hc] at h3; rw [if_neg (by omega)]; exact h3

theorem FinState.block {M N k : Nat} {G : ℝ} {a : Nat → Nat → Bin F} (h : FinState F M N k G a) : FinState F (M - k) (N - k) 0 G (fun i j => a (k + i) (k + j)) := by
  intro i j hi hj
  obtain ⟨h1, h2, h3⟩ := h (k + i) (k + j) (by omega) (by omega)
  rw [if_neg (by omega)] at h3
  exact ⟨h1, h2, by rw [if_neg (by omega)]; exact h3⟩

theorem FinState.cols {M N N' k : Nat} {G : ℝ} {a : Nat → Nat → Bin F} (h : FinState F M N k G a) (hN : N' ≤ N) : FinState F M N' k G a :=
  fun i j hi hj => h i j hi (by omega)

/-- growth in one step of the blocked algorithm -/
noncomputable def growth (F : Format) : ℝ := 2 * (1 + F.u) ^ 2

theorem growth_pow {T : Nat} (hT : 0 < T) {g : ℝ} (hg : 0 ≤ g) : (1 + F.u) * ((2 * (1 + F.u)) ^ T * g) ≤ growth F ^ T * g := by
  have hu := F.u_pos
  unfold growth
  rw [show 2 * (1 + F.u) ^ 2 = (1 + F.u) * (2 * (1 + F.u)) by ring, mul_pow (1 + F.u), ← mul_assoc]
  have h1 : 1 + F.u ≤ (1 + F.u) ^ T := le_self_pow₀ (by linarith) (by omega)
  exact mul_le_mul_of_nonneg_right (mul_le_mul_of_nonneg_right h1 (by positivity)) hg

theorem one_le_growth : 1 ≤ growth F := by
  have hu := F.u_pos
  unfold growth
  nlinarith

theorem getrfBlk_fin (hW : F.Wide) {T M N k : Nat} (hT : 0 < T) (hM : k + T < M) (hN : k + T < N) {a : Nat → Nat → Bin F} {P P' : Nat → Nat} {a' : Nat → Nat → Bin F} {g : ℝ}
    (hg : 2 * F.eta ≤ g) (hG : growth F ^ T * g < F.big) (h : FinState F M N k g a) (he : getrfBlk T M N k a P = (a', some P')) : FinState F M N (k + T) (growth F ^ T * g) a' := by
  have hu := F.u_pos
  have heta := F.eta_pos
  have hg0 : 0 ≤ g := by linarith
  have hp := growth_pow (F := F) hT hg0
  rcases hlu : luFull Arith.div updCol (M - k) (fun i j => a (k + i) (k + j)) (fun i => P (k + i)) T with ⟨s, _ | p⟩
  · unfold getrfBlk at he
    rw [hlu] at he
    simp at he
  obtain ⟨x, x1, x2, x3⟩ := getrfBlk_eq hM hN hlu
  rw [he] at x2 x3
  cases x2
  have hb := h.block
  have hR' : (2 * (1 + F.u)) ^ T * g ≤ (1 + F.u) * ((2 * (1 + F.u)) ^ T * g) := le_mul_of_one_le_left (mul_nonneg (by positivity) hg0) (by linarith)
  have hs := luRun_fin (etaOps_col hW) (fwdOps_col hW) hg (hb.cols (show T ≤ N - k by omega)) T (by omega) le_rfl (by linarith) (luFull_some _ hlu)
  have hpiv := luRun_pivots T (by omega) (luFull_some _ hlu)
  have hpermb : ∀ i, i < M - k → rowPerm p 0 T i < M - k := fun i hi =>
    (rowPerm_bounds (fun q _ hq => ⟨by omega, (hpiv.1 q (by omega)).2⟩) (by omega) ⟨by omega, hi⟩).2
  have hblk := blkRes_fin (m := M - k) (n := N - k) hT hg (by linarith) hs (α := rowSwaps p 0 T (fun i j => a (k + i) (k + j))) (fun i j hi hj hjn => by
    rw [rowSwaps_eq]
    obtain ⟨h1, h2, h3⟩ := hb (rowPerm p 0 T i) j (hpermb i hi) hjn
    rw [if_neg (by omega)] at h3
    exact ⟨h1, h2, h3⟩) (by omega) x1
  exact FinState.extend (le_mul_of_one_le_left hg0 (one_le_pow₀ one_le_growth)) h hpermb (hblk.mono hp) x3

theorem getrfIter_fin (hW : F.Wide) {T M N : Nat} (hT : 0 < T) {g : ℝ} (hg : 2 * F.eta ≤ g) (hG : growth F ^ (min M N) * g < F.big) (fuel : Nat) {k k' : Nat} {a a' : Nat → Nat → Bin F} {P P' : Nat → Nat}
    (h : FinState F M N k (growth F ^ k * g) a) (he : getrfIter T M N fuel k a P = (k', a', some P')) (hk : k ≤ min M N) :
    FinState F M N k' (growth F ^ k' * g) a' ∧ k' ≤ min M N := by
  have heta := F.eta_pos
  induction fuel generalizing k a P with
  | zero => simp only [getrfIter, Prod.mk.injEq, Option.some.injEq] at he; obtain ⟨rfl, rfl, rfl⟩ := he; exact ⟨h, hk⟩
  | succ fuel ih =>
    unfold getrfIter at he
    by_cases hc : k + T < M ∧ k + T < N
    · rw [if_pos hc] at he
      rcases hb : getrfBlk T M N k a P with ⟨a1, _ | P1⟩
      · rw [hb] at he; simp at he
      · rw [hb] at he
        have e : growth F ^ (k + T) * g = growth F ^ T * (growth F ^ k * g) := by rw [pow_add]; ring
        have hle : growth F ^ (k + T) * g ≤ growth F ^ (min M N) * g := mul_le_mul_of_nonneg_right (pow_le_pow_right₀ one_le_growth (by omega)) (by linarith)
        have h1 : g ≤ growth F ^ k * g := le_mul_of_one_le_left (by linarith) (one_le_pow₀ one_le_growth)
        exact ih (by rw [e]; exact getrfBlk_fin hW hT hc.1 hc.2 (by linarith) (by linarith) h hb) he (by omega)
    · rw [if_neg hc] at he
      simp only [Prod.mk.injEq, Option.some.injEq] at he
      obtain ⟨rfl, rfl, rfl⟩ := he
      exact ⟨h, hk⟩

theorem getrfFull_fin (hW : F.Wide) {T M N : Nat} (hT : 0 < T) {a0 b : Nat → Nat → Bin F} {ip p : Nat → Nat} {g : ℝ} (hg : 2 * F.eta ≤ g)
    (hG : growth F ^ (min M N) * g < F.big) (h0 : FinState F M N 0 g a0)
    (h : getrfFull T M N a0 ip = (b, some p)) : FinState F M N (min M N) (growth F ^ (min M N) * g) b := by
  have hu := F.u_pos
  have heta := F.eta_pos
  unfold getrfFull at h
  rcases hi : getrfIter T M N (M + 1) 0 a0 ip with ⟨k, a, _ | P⟩
  · rw [hi] at h; simp at h
  rw [hi] at h
  obtain ⟨hst, hk⟩ := getrfIter_fin hW hT hg hG (M + 1) (by rw [pow_zero, one_mul]; exact h0) hi (Nat.zero_le _)
  dsimp only at h
  have h1 : g ≤ growth F ^ k * g := le_mul_of_one_le_left (by linarith) (one_le_pow₀ one_le_growth)
  by_cases hc : k < M ∧ k < N
  · rcases hlu : luFull Arith.div updCol (M - k) (fun i j => a (k + i) (k + j)) (fun i => P (k + i)) (min (M - k) (N - k)) with ⟨s, _ | q⟩
    · unfold getrfLast at h
      rw [if_pos hc, hlu] at h
      simp at h
    · obtain ⟨e1, e2⟩ := getrfLast_eq hc.1 hc.2 hlu
      rw [h] at e1 e2
      cases e1
      have hmin : min (M - k) (N - k) = min M N - k := by omega
      rw [hmin] at hlu
      have hpiv := luRun_pivots (min M N - k) (by omega) (luFull_some _ hlu)
      have hpermb : ∀ i, i < M - k → rowPerm q 0 (min M N - k) i < M - k := fun i hi =>
        (rowPerm_bounds (fun q' _ hq => ⟨by omega, (hpiv.1 q' (by omega)).2⟩) (by omega) ⟨by omega, hi⟩).2
      have hg1 : 0 ≤ growth F ^ k * g := by linarith
      have hle : (2 * (1 + F.u)) ^ (min M N - k) * (growth F ^ k * g) ≤ growth F ^ (min M N) * g := by
        have e : growth F ^ (min M N) * g = growth F ^ (min M N - k) * (growth F ^ k * g) := by
          rw [← mul_assoc, ← pow_add, show min M N - k + k = min M N by omega]
        rw [e]
        refine mul_le_mul_of_nonneg_right (pow_le_pow_left₀ (by linarith) ?_ _) hg1
        unfold growth
        nlinarith
      have hs := luRun_fin (etaOps_col hW) (fwdOps_col hW) (by linarith) hst.block (min M N - k) (by omega) (by omega) (lt_of_le_of_lt hle hG) (luFull_some _ hlu)
      have := FinState.extend (G' := growth F ^ (min M N) * g) (mul_le_mul_of_nonneg_right (pow_le_pow_right₀ one_le_growth hk) (by linarith)) hst hpermb (hs.mono hle) e2
      rwa [show k + (min M N - k) = min M N by omega] at this
  · unfold getrfLast at h
    rw [if_neg hc] at h
    simp only [Prod.mk.injEq, Option.some.injEq] at h
    obtain ⟨h1, rfl⟩ := h
    have hkm : k = min M N := by omega
    have e : swapCols P k k 0 k a = a := by
      funext i j
      unfold swapCols
      rw [Nat.sub_self]
      show (if _ then a i j else a i j) = _
      rw [ite_self]
    rw [e] at h1
    subst h1
    rwa [← hkm]

end Bin
end Blast
