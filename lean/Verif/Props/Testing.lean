import Verif.Testing
import Verif.Ieee
import Verif.Spec
/- Concrete cases meeting the hypotheses of these theorems: Verif/Cases/Testing.lean, and the examples in this file. -/
/-
Property C62: the comparison functions of the test suite.
-/
set_option linter.unusedSectionVars false
namespace Blast
open Prog

/-! ### Specification -/

/-- `(i,j)` is the first pair, row by row, for which `bad` holds -/
def FirstAt (M N : Nat) (bad : Nat → Nat → Prop) (i j : Nat) : Prop :=
  i < M ∧ j < N ∧ bad i j ∧ ∀ i' j', j' < N → i' < i ∨ (i' = i ∧ j' < j) → ¬ bad i' j'

/-- the verdict on two matrices of the same size M-by-N whose elements must not be `bad` -/
def RightVerdict (M N : Nat) (bad : Nat → Nat → Prop) : Verdict → Prop
  | .success => ∀ i j, i < M → j < N → ¬ bad i j
  | .mismatch i j => FirstAt M N bad i j
  | .sizeMismatch => False

section
variable {V : Type} [Arith V]

theorem scanMat_reads {SS : Nat} (bad : V → V → Bool) {a b : Container} {m : Mem V} {f g : Nat → Nat → V}
    (hf : Contains SS m a f) (hg : Contains SS m b g) :
    (b.rows ≠ a.rows ∨ b.cols ≠ a.cols → scanMat SS bad a b m = .ok .sizeMismatch m) ∧
    (b.rows = a.rows ∧ b.cols = a.cols → ∃ v, scanMat SS bad a b m = .ok v m ∧
      RightVerdict a.rows a.cols (fun i j => bad (f i j) (g i j) = true) v) := by
  constructor
  · intro h
    unfold scanMat; rw [if_pos h]; rfl
  · rintro ⟨h1, h2⟩
    have : ReadsQ (scanMat SS bad a b : Prog V Verdict) m (RightVerdict a.rows a.cols (fun i j => bad (f i j) (g i j) = true)) := by
      unfold scanMat
      rw [if_neg (by omega)]
      refine (readsQ_foldN (fun k r => (r = .success → ∀ i j, i < k → j < a.cols → ¬ bad (f i j) (g i j) = true) ∧
        (r ≠ .success → RightVerdict a.rows a.cols (fun i j => bad (f i j) (g i j) = true) r)) ?_ ?_).mono ?_
      · exact ⟨fun _ i j h => absurd h (by omega), fun h => absurd rfl h⟩
      · intro i r hi hr
        refine (readsQ_foldN (fun k r => (r = .success → (∀ i' j, i' < i → j < a.cols → ¬ bad (f i' j) (g i' j) = true) ∧
            ∀ j, j < k → ¬ bad (f i j) (g i j) = true) ∧
          (r ≠ .success → RightVerdict a.rows a.cols (fun i j => bad (f i j) (g i j) = true) r)) ?_ ?_).mono ?_
        · exact ⟨fun h => ⟨hr.1 h, fun j h => absurd h (by omega)⟩, hr.2⟩
        · intro j r' hj hr'
          cases r' with
          | success =>
            refine Reads.bindQ (reads_read (hf i j (by omega) (by omega))) ?_
            refine Reads.bindQ (reads_read (hg i j (by omega) (by omega))) ?_
            have h5 := hr'.1 rfl
            by_cases hb : bad (f i j) (g i j) = true
            · rw [if_pos hb]
              refine readsQ_pure ⟨fun h => by (cases h), fun _ => ⟨hi, hj, hb, ?_⟩⟩
              rintro i' j' hj' (h | ⟨rfl, h⟩)
              · exact h5.1 i' j' h hj'
              · exact h5.2 j' h
            · rw [if_neg hb]
              refine readsQ_pure ⟨fun _ => ⟨h5.1, fun j' hj' => ?_⟩, fun h => absurd rfl h⟩
              by_cases hjj : j' = j
              · rw [hjj]; exact hb
              · exact h5.2 j' (by omega)
          | sizeMismatch => exact (hr'.2 (fun h => by cases h)).elim
          | mismatch i0 j0 => exact readsQ_pure ⟨fun h => Verdict.noConfusion h, fun _ => hr'.2 (fun h => Verdict.noConfusion h)⟩
        · intro r' hr'
          refine ⟨fun h i' j hi' hj => ?_, hr'.2⟩
          by_cases hii : i' = i
          · rw [hii]; exact (hr'.1 h).2 j hj
          · exact (hr'.1 h).1 i' j (by omega) hj
      · intro r hr
        cases r with
        | success => exact hr.1 rfl
        | sizeMismatch => exact hr.2 (fun h => by cases h)
        | mismatch i j => exact hr.2 (fun h => by cases h)
    exact this

/-- the verdict on two vectors of the same size -/
def RightVerdictV (n : Nat) (bad : Nat → Prop) : Verdict → Prop
  | .success => ∀ j, j < n → ¬ bad j
  | .mismatch j _ => j < n ∧ bad j ∧ ∀ j', j' < j → ¬ bad j'
  | .sizeMismatch => False

theorem scanVec_verdict (bad : Nat → Bool) (n : Nat) : RightVerdictV n (fun j => bad j = true) (scanVec bad n) := by
  unfold scanVec
  cases h : (List.range n).find? bad with
  | none =>
    intro j hj hb
    have := List.find?_eq_none.1 h j (List.mem_range.2 hj)
    exact this hb
  | some j =>
    rw [List.find?_range_eq_some] at h
    exact ⟨List.mem_range.1 h.2.1, h.1, fun j' hj' hb => by
      have := h.2.2 j' hj'
      rw [hb] at this; cases this⟩
end

/-! ### Floating-point values -/

variable {V : Type} [Field V] [LinearOrder V] [IsStrictOrderedRing V] [Arith V] {u : V} [hR : Rounded u]

include hR in
theorem isNan_iff (x : Ieee V) : isNan x = true ↔ x = .nan := by
  cases x with
  | fin x =>
    have : Arith.eq x x = true := (hR.eq_iff x x).2 rfl
    show (!Arith.eq x x) = true ↔ _
    rw [this]
    simp
  | inf s => show (!(s == s)) = true ↔ _; simp
  | nan => simp [isNan, Arith.eq, Ieee.eq]

include hR in
theorem err_le {x y : V} (h : |x - y| ≤ u * |y|) : |x| ≤ (1 + u) * |y| ∧ (1 - u) * |y| ≤ |x| := by
  constructor
  · have := abs_sub_abs_le_abs_sub x y; linarith
  · have := abs_sub_abs_le_abs_sub y x
    rw [abs_sub_comm y x] at this; linarith

include hR in
/-- the computed comparison of numbers, in terms of the exact quantities -/
theorem farApart_num {atol rtol : V} (ha : 0 ≤ atol) (hr : 0 ≤ rtol) (a b : V) :
    (farApart atol rtol a b = false → (1 - u) * |a - b| ≤ (1 + u) ^ 2 * (atol + rtol * |b|)) ∧
    ((1 + u) * |a - b| ≤ (1 - u) ^ 2 * (atol + rtol * |b|) → farApart atol rtol a b = false) := by
  have hu := hR.u_nonneg
  have hu1 := hR.u_lt_one
  have e : farApart atol rtol a b = false ↔ |Arith.sub a b| ≤ Arith.add atol (Arith.mul rtol |b|) := by
    unfold farApart
    rw [hR.abs_eq, hR.abs_eq, ← Bool.not_eq_true, hR.gt_iff, not_lt]
  have h1 := err_le (hR.sub_err a b)
  have h2 := err_le (hR.mul_err rtol |b|)
  have h3 := err_le (hR.add_err atol (Arith.mul rtol |b|))
  have hb := abs_nonneg b
  have hrb : 0 ≤ rtol * |b| := mul_nonneg hr hb
  have hm : 0 ≤ Arith.mul rtol |b| := by
    have := abs_le.1 (hR.mul_err rtol |b|)
    rw [abs_of_nonneg hrb] at this
    nlinarith [this.1]
  rw [abs_of_nonneg hrb, abs_of_nonneg hm] at h2
  have hs : 0 ≤ atol + Arith.mul rtol |b| := by linarith
  have ht : 0 ≤ Arith.add atol (Arith.mul rtol |b|) := by
    have := abs_le.1 (hR.add_err atol (Arith.mul rtol |b|))
    rw [abs_of_nonneg hs] at this
    nlinarith [this.1]
  rw [abs_of_nonneg hs, abs_of_nonneg ht] at h3
  rw [e]
  constructor
  · intro h
    calc (1 - u) * |a - b| ≤ |Arith.sub a b| := h1.2
      _ ≤ Arith.add atol (Arith.mul rtol |b|) := h
      _ ≤ (1 + u) * (atol + Arith.mul rtol |b|) := h3.1
      _ ≤ (1 + u) * ((1 + u) * atol + (1 + u) * (rtol * |b|)) := by
        refine mul_le_mul_of_nonneg_left ?_ (by linarith)
        have : atol ≤ (1 + u) * atol := by nlinarith
        linarith [h2.1]
      _ = (1 + u) ^ 2 * (atol + rtol * |b|) := by ring
  · intro h
    calc |Arith.sub a b| ≤ (1 + u) * |a - b| := h1.1
      _ ≤ (1 - u) ^ 2 * (atol + rtol * |b|) := h
      _ = (1 - u) * ((1 - u) * atol + (1 - u) * (rtol * |b|)) := by ring
      _ ≤ (1 - u) * (atol + Arith.mul rtol |b|) := by
        refine mul_le_mul_of_nonneg_left ?_ (by linarith)
        have : (1 - u) * atol ≤ atol := by nlinarith
        linarith [h2.2]
      _ ≤ Arith.add atol (Arith.mul rtol |b|) := h3.2

include hR in
/-- `approxEqual` of two floating-point values with finite tolerances, in the version for matrix elements -/
theorem matDiffer_cases {atol rtol : V} (hr : 0 ≤ rtol) (a b : Ieee V) :
    matDiffer (.fin atol) (.fin rtol) a b = false ↔
      (a = .nan ∧ b = .nan) ∨ (∃ x y, a = .fin x ∧ b = .fin y ∧ farApart atol rtol x y = false) ∨ (a ≠ .nan ∧ ∃ s, b = .inf s) := by
  have hn := fun x : Ieee V => isNan_iff (u := u) x
  have hE : ∀ x : V, isNan (Ieee.fin x) = false := fun x => by
    rw [← Bool.not_eq_true, hn]; intro h; cases h
  have hI : ∀ s : Bool, isNan (Ieee.inf s : Ieee V) = false := fun s => by
    rw [← Bool.not_eq_true, hn]; intro h; cases h
  have hN : isNan (Ieee.nan : Ieee V) = true := (hn _).2 rfl
  have hd : decide (rtol < 0) = false := decide_eq_false (not_lt.2 hr)
  have hT : ∀ (d : Ieee V) (s : Bool), Ieee.gt d (Ieee.add (.fin atol) (Ieee.mul (.fin rtol) (Ieee.abs (.inf s)))) = false := by
    intro d s
    show Ieee.gt d (Ieee.add (.fin atol) (if rtol = 0 then .nan else .inf (decide (rtol < 0) != false))) = false
    by_cases h : rtol = 0
    · rw [if_pos h]; cases d <;> rfl
    · rw [if_neg h, hd]; cases d with
      | fin x => rfl
      | inf t => cases t <;> rfl
      | nan => rfl
  unfold matDiffer
  cases a with
  | nan =>
    rw [hN]
    cases b with
    | nan => rw [hN]; simp [farApart, Arith.abs, Arith.sub, Arith.gt, Ieee.abs, Ieee.sub, Ieee.gt, Ieee.add]
    | fin y => rw [hE]; simp
    | inf s => rw [hI]; simp
  | fin x =>
    rw [hE]
    cases b with
    | nan => rw [hN]; simp
    | fin y =>
      rw [hE]
      have : farApart (.fin atol) (.fin rtol) (.fin x) (.fin y : Ieee V) = farApart atol rtol x y := rfl
      rw [this]; simp
    | inf s =>
      rw [hI]
      have : farApart (.fin atol) (.fin rtol) (.fin x) (.inf s : Ieee V) = false := hT _ s
      rw [this]; simp
  | inf s =>
    rw [hI]
    cases b with
    | nan => rw [hN]; simp
    | fin y =>
      rw [hE]
      have : farApart (.fin atol) (.fin rtol) (.inf s) (.fin y : Ieee V) = true := rfl
      rw [this]; simp
    | inf t =>
      rw [hI]
      have : farApart (.fin atol) (.fin rtol) (.inf s) (.inf t : Ieee V) = false := hT _ t
      rw [this]; simp

/-! ### Property C62 -/

/-- Two floating-point values pass for sure: both are not a number, or both are finite and `|a - b| ≤ abs_tol + rel_tol*|b|` holds with the margin needed for
the rounding errors of the comparison itself. -/
def SurelyClose (u atol rtol : V) (a b : Ieee V) : Prop :=
  (a = .nan ∧ b = .nan) ∨ ∃ x y, a = .fin x ∧ b = .fin y ∧ (1 + u) * |x - y| ≤ (1 - u) ^ 2 * (atol + rtol * |y|)

/-- What is known of values that passed: both are not a number; or both are finite and `|a - b| ≤ abs_tol + rel_tol*|b|` up to the rounding errors of the
comparison; or the expected value is infinite, in which case nothing is known about the other. -/
def KnownClose (u atol rtol : V) (a b : Ieee V) : Prop :=
  (a = .nan ∧ b = .nan) ∨ (∃ x y, a = .fin x ∧ b = .fin y ∧ (1 - u) * |x - y| ≤ (1 + u) ^ 2 * (atol + rtol * |y|)) ∨ (a ≠ .nan ∧ ∃ s, b = .inf s)

/-- **C62** (matrices). `approxEqual(lhs, rhs, abs_tol, rel_tol)` returns for all matrices, changes nothing, reports a size mismatch iff the sizes differ, and
otherwise succeeds if all elements are close and only if they are; the pair it reports is the first one, row by row, that is not close. -/
theorem C62_approxEqual_matrix {SS : Nat} {lhs rhs : Container} {m : Mem (Ieee V)} {f g : Nat → Nat → Ieee V} {atol rtol : V} (ha : 0 ≤ atol) (hr : 0 ≤ rtol)
    (hf : Contains SS m lhs f) (hg : Contains SS m rhs g) :
    ∃ v, approxEqualMat SS lhs rhs (.fin atol) (.fin rtol) m = .ok v m ∧
      (v = .sizeMismatch ↔ rhs.rows ≠ lhs.rows ∨ rhs.cols ≠ lhs.cols) ∧
      (v = .success → ∀ i j, i < lhs.rows → j < lhs.cols → KnownClose u atol rtol (f i j) (g i j)) ∧
      (rhs.rows = lhs.rows ∧ rhs.cols = lhs.cols → (∀ i j, i < lhs.rows → j < lhs.cols → SurelyClose u atol rtol (f i j) (g i j)) → v = .success) ∧
      (∀ i j, v = .mismatch i j → i < lhs.rows ∧ j < lhs.cols ∧ ¬ SurelyClose u atol rtol (f i j) (g i j) ∧
        ∀ i' j', j' < lhs.cols → i' < i ∨ (i' = i ∧ j' < j) → KnownClose u atol rtol (f i' j') (g i' j')) := by
  have known : ∀ a b : Ieee V, ¬ matDiffer (.fin atol) (.fin rtol) a b = true → KnownClose u atol rtol a b := by
    intro a b h
    rw [Bool.not_eq_true, matDiffer_cases (u := u) hr] at h
    rcases h with h | ⟨x, y, rfl, rfl, h⟩ | h
    · exact Or.inl h
    · exact Or.inr (Or.inl ⟨x, y, rfl, rfl, (farApart_num ha hr x y).1 h⟩)
    · exact Or.inr (Or.inr h)
  have sure : ∀ a b : Ieee V, SurelyClose u atol rtol a b → ¬ matDiffer (.fin atol) (.fin rtol) a b = true := by
    intro a b h
    rw [Bool.not_eq_true, matDiffer_cases (u := u) hr]
    rcases h with h | ⟨x, y, rfl, rfl, h⟩
    · exact Or.inl h
    · exact Or.inr (Or.inl ⟨x, y, rfl, rfl, (farApart_num ha hr x y).2 h⟩)
  obtain ⟨h1, h2⟩ := scanMat_reads (matDiffer (.fin atol) (.fin rtol)) hf hg
  by_cases hs : rhs.rows = lhs.rows ∧ rhs.cols = lhs.cols
  · obtain ⟨v, hv, hq⟩ := h2 hs
    refine ⟨v, hv, ?_, ?_, ?_, ?_⟩
    · constructor
      · intro h; rw [h] at hq; exact hq.elim
      · intro h; omega
    · intro h i j hi hj
      rw [h] at hq
      exact known _ _ (hq i j hi hj)
    · intro _ hall
      cases v with
      | success => rfl
      | sizeMismatch => exact hq.elim
      | mismatch i j => exact absurd hq.2.2.1 (sure _ _ (hall i j hq.1 hq.2.1))
    · intro i j h
      rw [h] at hq
      exact ⟨hq.1, hq.2.1, fun hc => sure _ _ hc hq.2.2.1, fun i' j' hj' hlt => known _ _ (hq.2.2.2 i' j' hj' hlt)⟩
  · have hs' : rhs.rows ≠ lhs.rows ∨ rhs.cols ≠ lhs.cols := by
      by_cases h : rhs.rows = lhs.rows
      · exact Or.inr (fun h' => hs ⟨h, h'⟩)
      · exact Or.inl h
    exact ⟨.sizeMismatch, h1 hs', ⟨fun _ => hs', fun _ => rfl⟩, fun h => Verdict.noConfusion h, fun h => absurd h hs, fun i j h => Verdict.noConfusion h⟩

/-- **C62** (vectors). Sizes are checked; finite elements are compared as in the matrix version. -/
theorem C62_approxEqual_vector (n n' : Nat) (x y : Nat → Ieee V) {atol rtol : V} (ha : 0 ≤ atol) (hr : 0 ≤ rtol) :
    (approxEqualVec n n' x y (.fin atol) (.fin rtol) = .sizeMismatch ↔ n' ≠ n) ∧
    (approxEqualVec n n' x y (.fin atol) (.fin rtol) = .success → ∀ j, j < n → ∀ a b, x j = .fin a → y j = .fin b →
      (1 - u) * |a - b| ≤ (1 + u) ^ 2 * (atol + rtol * |b|)) ∧
    (n' = n → (∀ j, j < n → ∃ a b, x j = .fin a ∧ y j = .fin b ∧ (1 + u) * |a - b| ≤ (1 - u) ^ 2 * (atol + rtol * |b|)) →
      approxEqualVec n n' x y (.fin atol) (.fin rtol) = .success) ∧
    (∀ j k, approxEqualVec n n' x y (.fin atol) (.fin rtol) = .mismatch j k → j < n ∧
      (∀ a b, x j = .fin a → y j = .fin b → ¬ (1 + u) * |a - b| ≤ (1 - u) ^ 2 * (atol + rtol * |b|)) ∧
      ∀ j', j' < j → ∀ a b, x j' = .fin a → y j' = .fin b → (1 - u) * |a - b| ≤ (1 + u) ^ 2 * (atol + rtol * |b|)) := by
  unfold approxEqualVec
  by_cases hn : n' = n
  · rw [if_neg (not_not.2 hn)]
    have hv := scanVec_verdict (fun j => farApart (.fin atol) (.fin rtol) (x j) (y j)) n
    have known : ∀ j, ¬ farApart (.fin atol) (.fin rtol) (x j) (y j) = true → ∀ a b, x j = .fin a → y j = .fin b →
        (1 - u) * |a - b| ≤ (1 + u) ^ 2 * (atol + rtol * |b|) := by
      intro j h a b e1 e2
      rw [e1, e2, Bool.not_eq_true] at h
      exact (farApart_num ha hr a b).1 h
    have sure : ∀ j a b, x j = .fin a → y j = .fin b → (1 + u) * |a - b| ≤ (1 - u) ^ 2 * (atol + rtol * |b|) →
        ¬ farApart (.fin atol) (.fin rtol) (x j) (y j) = true := by
      intro j a b e1 e2 h
      rw [e1, e2, Bool.not_eq_true]
      exact (farApart_num ha hr a b).2 h
    generalize scanVec (fun j => farApart (.fin atol) (.fin rtol) (x j) (y j)) n = v at hv
    refine ⟨⟨fun h => by rw [h] at hv; exact hv.elim, fun h => absurd hn h⟩, fun h j hj => ?_, fun _ hall => ?_, fun j k h => ?_⟩
    · rw [h] at hv; exact known j (hv j hj)
    · cases v with
      | success => rfl
      | sizeMismatch => exact hv.elim
      | mismatch j k =>
        obtain ⟨a, b, e1, e2, hc⟩ := hall j hv.1
        exact absurd hv.2.1 (sure j a b e1 e2 hc)
    · rw [h] at hv
      exact ⟨hv.1, fun a b e1 e2 hc => sure j a b e1 e2 hc hv.2.1, fun j' hj' => known j' (hv.2.2 j' hj')⟩
  · rw [if_pos hn]
    exact ⟨⟨fun _ => hn, fun _ => rfl⟩, fun h => Verdict.noConfusion h, fun h => absurd h hn, fun j k h => Verdict.noConfusion h⟩

/-- **C62** (one tolerance for each element). -/
theorem C62_approxEqual_tolerances (n n' k : Nat) (x y tol : Nat → Ieee V) :
    (approxEqualTol n n' k x y tol = .sizeMismatch ↔ n ≠ k ∨ n' ≠ k) ∧
    (approxEqualTol n n' k x y tol = .success → ∀ j, j < n → ∀ a b t, x j = .fin a → y j = .fin b → tol j = .fin t → (1 - u) * |a - b| ≤ t) ∧
    (n = k ∧ n' = k → (∀ j, j < n → ∃ a b t, x j = .fin a ∧ y j = .fin b ∧ tol j = .fin t ∧ (1 + u) * |a - b| ≤ t) →
      approxEqualTol n n' k x y tol = .success) := by
  unfold approxEqualTol
  by_cases hn : n = k ∧ n' = k
  · rw [if_neg (by omega)]
    obtain ⟨rfl, hn'⟩ := hn
    obtain rfl := hn'.symm
    have e : ∀ j a b t, x j = .fin a → y j = .fin b → tol j = .fin t →
        (Arith.gt (Arith.abs (Arith.sub (x j) (y j))) (tol j) = true ↔ t < |Arith.sub a b|) := by
      intro j a b t e1 e2 e3
      rw [e1, e2, e3, ← hR.abs_eq]
      exact hR.gt_iff _ _
    have hv := scanVec_verdict (fun j => Arith.gt (Arith.abs (Arith.sub (x j) (y j))) (tol j)) n
    generalize scanVec (fun j => Arith.gt (Arith.abs (Arith.sub (x j) (y j))) (tol j)) n = v at hv
    refine ⟨⟨fun h => by rw [h] at hv; exact hv.elim, fun h => by omega⟩, fun h j hj a b t e1 e2 e3 => ?_, fun _ hall => ?_⟩
    · rw [h] at hv
      have := hv j hj
      beta_reduce at this
      rw [e j a b t e1 e2 e3, not_lt] at this
      exact le_trans (err_le (hR.sub_err a b)).2 this
    · cases v with
      | success => rfl
      | sizeMismatch => exact hv.elim
      | mismatch j k =>
        obtain ⟨a, b, t, e1, e2, e3, hc⟩ := hall j hv.1
        have := (e j a b t e1 e2 e3).1 hv.2.1
        exact absurd (le_trans (err_le (hR.sub_err a b)).1 hc) (not_le.2 this)
  · rw [if_pos (by omega)]
    exact ⟨⟨fun _ => by omega, fun _ => rfl⟩, fun h => Verdict.noConfusion h, fun h => absurd h hn⟩

include hR in
theorem eq_cases (a b : Ieee V) : Arith.eq a b = true ↔ a = b ∧ a ≠ .nan := by
  cases a with
  | nan => exact ⟨fun h => by (cases h), fun h => absurd rfl h.2⟩
  | fin x =>
    cases b with
    | nan => exact ⟨fun h => by (cases h), fun h => by cases h.1⟩
    | inf s => exact ⟨fun h => by (cases h), fun h => by cases h.1⟩
    | fin y =>
      have : Arith.eq (Ieee.fin x) (Ieee.fin y) = Arith.eq x y := rfl
      rw [this, hR.eq_iff]
      exact ⟨fun h => ⟨by rw [h], fun h => by cases h⟩, fun h => by cases h.1; rfl⟩
  | inf s =>
    cases b with
    | nan => exact ⟨fun h => by (cases h), fun h => by cases h.1⟩
    | fin y => exact ⟨fun h => by (cases h), fun h => by cases h.1⟩
    | inf t =>
      have : Arith.eq (Ieee.inf s : Ieee V) (Ieee.inf t) = (s == t) := rfl
      rw [this]
      exact ⟨fun h => ⟨by rw [eq_of_beq h], fun h => by cases h⟩, fun h => by cases h.1; exact beq_self_eq_true s⟩

include hR in
/-- **C62** (exact comparison, matrices). `exactEqual` succeeds iff the sizes agree and every two corresponding elements are the same number or infinity. -/
theorem C62_exactEqual_matrix {SS : Nat} {lhs rhs : Container} {m : Mem (Ieee V)} {f g : Nat → Nat → Ieee V}
    (hf : Contains SS m lhs f) (hg : Contains SS m rhs g) :
    ∃ v, exactEqualMat SS lhs rhs m = .ok v m ∧
      (v = .sizeMismatch ↔ rhs.rows ≠ lhs.rows ∨ rhs.cols ≠ lhs.cols) ∧
      (v = .success ↔ (rhs.rows = lhs.rows ∧ rhs.cols = lhs.cols) ∧ ∀ i j, i < lhs.rows → j < lhs.cols → f i j = g i j ∧ f i j ≠ .nan) ∧
      (∀ i j, v = .mismatch i j → FirstAt lhs.rows lhs.cols (fun i j => ¬ (f i j = g i j ∧ f i j ≠ .nan)) i j) := by
  have e : ∀ a b : Ieee V, (!Arith.eq a b) = true ↔ ¬ (a = b ∧ a ≠ .nan) := by
    intro a b
    rw [Bool.not_eq_true', ← Bool.not_eq_true, eq_cases (u := u)]
  obtain ⟨h1, h2⟩ := scanMat_reads (fun a b : Ieee V => !Arith.eq a b) hf hg
  simp only [e] at h2
  by_cases hs : rhs.rows = lhs.rows ∧ rhs.cols = lhs.cols
  · obtain ⟨v, hv, hq⟩ := h2 hs
    refine ⟨v, hv, ⟨fun h => by rw [h] at hq; exact hq.elim, fun h => by omega⟩, ⟨fun h => ⟨hs, fun i j hi hj => ?_⟩, fun hall => ?_⟩, fun i j h => ?_⟩
    · rw [h] at hq; exact not_not.1 (hq i j hi hj)
    · cases v with
      | success => rfl
      | sizeMismatch => exact hq.elim
      | mismatch i j => exact absurd (hall.2 i j hq.1 hq.2.1) hq.2.2.1
    · rw [h] at hq; exact hq
  · have hs' : rhs.rows ≠ lhs.rows ∨ rhs.cols ≠ lhs.cols := by
      by_cases h : rhs.rows = lhs.rows
      · exact Or.inr (fun h' => hs ⟨h, h'⟩)
      · exact Or.inl h
    exact ⟨.sizeMismatch, h1 hs', ⟨fun _ => hs', fun _ => rfl⟩, ⟨fun h => Verdict.noConfusion h, fun h => absurd h.1 hs⟩, fun i j h => Verdict.noConfusion h⟩

include hR in
/-- **C62** (exact comparison, vectors). -/
theorem C62_exactEqual_vector (n n' : Nat) (x y : Nat → Ieee V) :
    (exactEqualVec n n' x y = .sizeMismatch ↔ n' ≠ n) ∧
    (exactEqualVec n n' x y = .success ↔ n' = n ∧ ∀ j, j < n → x j = y j ∧ x j ≠ .nan) := by
  have e : ∀ a b : Ieee V, (!Arith.eq a b) = true ↔ ¬ (a = b ∧ a ≠ .nan) := by
    intro a b
    rw [Bool.not_eq_true', ← Bool.not_eq_true, eq_cases (u := u)]
  unfold exactEqualVec
  by_cases hn : n' = n
  · rw [if_neg (not_not.2 hn)]
    have hv := scanVec_verdict (fun j => !Arith.eq (x j) (y j)) n
    simp only [e] at hv
    generalize scanVec (fun j => !Arith.eq (x j) (y j)) n = v at hv
    refine ⟨⟨fun h => by rw [h] at hv; exact hv.elim, fun h => absurd hn h⟩, ⟨fun h => ⟨hn, fun j hj => ?_⟩, fun hall => ?_⟩⟩
    · rw [h] at hv; exact not_not.1 (hv j hj)
    · cases v with
      | success => rfl
      | sizeMismatch => exact hv.elim
      | mismatch j k => exact absurd (hall.2 j hv.1) hv.2.1
  · rw [if_pos hn]
    exact ⟨⟨fun _ => hn, fun _ => rfl⟩, ⟨fun h => Verdict.noConfusion h, fun h => absurd h.1 hn⟩⟩

include hR in
/-- **C62** (refuted for infinite expected values). Whatever the tolerances, every number passes as approximately equal to infinity. -/
theorem C62_infinity_refuted {SS : Nat} {lhs rhs : Container} {m : Mem (Ieee V)} {f g : Nat → Nat → Ieee V} {atol rtol : V} (ha : 0 ≤ atol) (hr : 0 ≤ rtol)
    (hf : Contains SS m lhs f) (hg : Contains SS m rhs g) (hs : rhs.rows = lhs.rows ∧ rhs.cols = lhs.cols)
    (hfin : ∀ i j, i < lhs.rows → j < lhs.cols → ∃ x, f i j = .fin x) (hinf : ∀ i j, i < lhs.rows → j < lhs.cols → ∃ s, g i j = .inf s) :
    approxEqualMat SS lhs rhs (.fin atol) (.fin rtol) m = .ok .success m := by
  obtain ⟨v, hv, h1, _, _, h4⟩ := C62_approxEqual_matrix (u := u) ha hr hf hg
  obtain ⟨_, h2⟩ := scanMat_reads (matDiffer (.fin atol) (.fin rtol)) hf hg
  obtain ⟨w, hw, hq⟩ := h2 hs
  have : v = w := by
    have e := hv.symm.trans hw
    injection e
  rw [hv]
  cases w with
  | success => rw [this]
  | sizeMismatch => exact hq.elim
  | mismatch i j =>
    exfalso
    obtain ⟨hi, hj, hb, _⟩ := hq
    obtain ⟨x, ex⟩ := hfin i j hi hj
    obtain ⟨s, es⟩ := hinf i j hi hj
    have : matDiffer (.fin atol) (.fin rtol) (f i j) (g i j) = false :=
      (matDiffer_cases (u := u) hr _ _).2 (Or.inr (Or.inr ⟨(by rw [ex]; intro h; cases h), s, es⟩))
    rw [this] at hb; cases hb

/-- **C62** (refuted for NaN in vectors and scalars). Whatever the tolerances, a vector of NaN passes as approximately equal to every vector of the same size, and
every scalar passes as approximately equal to NaN. -/
theorem C62_nan_refuted (n : Nat) (x y tol : Nat → Ieee V) (atol rtol : Ieee V) (hx : ∀ j, x j = .nan) :
    approxEqualVec n n x y atol rtol = .success ∧ approxEqualTol n n n x y tol = .success ∧
    (∀ a : Ieee V, approxEqualScalar a .nan atol rtol = true) ∧ ∀ b : Ieee V, approxEqualScalar .nan b atol rtol = true := by
  have g1 : ∀ b t : Ieee V, Arith.gt (Arith.abs (Arith.sub .nan b)) t = false := by
    intro b t
    cases b <;> rfl
  have g2 : ∀ a : Ieee V, Arith.gt (Arith.abs (Arith.sub a .nan)) (Arith.add atol (Arith.mul rtol (Arith.abs .nan))) = false := by
    intro a
    cases a <;> rfl
  refine ⟨?_, ?_, fun a => ?_, fun b => ?_⟩
  · have hv := scanVec_verdict (fun j => farApart atol rtol (x j) (y j)) n
    unfold approxEqualVec
    rw [if_neg (not_not.2 rfl)]
    generalize scanVec (fun j => farApart atol rtol (x j) (y j)) n = v at hv
    cases v with
    | success => rfl
    | sizeMismatch => exact hv.elim
    | mismatch j k =>
      have := hv.2.1
      beta_reduce at this
      rw [hx j] at this
      exact absurd this (by rw [show farApart atol rtol .nan (y j) = false from g1 _ _]; exact Bool.false_ne_true)
  · have hv := scanVec_verdict (fun j => Arith.gt (Arith.abs (Arith.sub (x j) (y j))) (tol j)) n
    unfold approxEqualTol
    rw [if_neg (by omega)]
    generalize scanVec (fun j => Arith.gt (Arith.abs (Arith.sub (x j) (y j))) (tol j)) n = v at hv
    cases v with
    | success => rfl
    | sizeMismatch => exact hv.elim
    | mismatch j k =>
      have := hv.2.1
      beta_reduce at this
      rw [hx j, g1] at this
      cases this
  · show (!farApart atol rtol a .nan) = true
    rw [show farApart atol rtol a .nan = false from g2 a]; rfl
  · show (!farApart atol rtol .nan b) = true
    rw [show farApart atol rtol .nan b = false from g1 _ _]; rfl

/-- **C62** (scalars). -/
theorem C62_approxEqual_scalar {atol rtol : V} (ha : 0 ≤ atol) (hr : 0 ≤ rtol) (a b : V) :
    (approxEqualScalar (.fin a) (.fin b) (.fin atol) (.fin rtol : Ieee V) = true → (1 - u) * |a - b| ≤ (1 + u) ^ 2 * (atol + rtol * |b|)) ∧
    ((1 + u) * |a - b| ≤ (1 - u) ^ 2 * (atol + rtol * |b|) → approxEqualScalar (.fin a) (.fin b) (.fin atol) (.fin rtol : Ieee V) = true) := by
  have e : approxEqualScalar (.fin a) (.fin b) (.fin atol) (.fin rtol : Ieee V) = !farApart atol rtol a b := rfl
  rw [e, Bool.not_eq_true']
  exact farApart_num ha hr a b

/-! ### The hypotheses are satisfiable -/

/-- a memory holding `0, 1, 2, …` -/
def countMem : Mem (Ieee Rat) := fun z => if 0 ≤ z then some (.fin z) else none

example : Contains 4 countMem ⟨.dynDense, .columnMajor, 3, 2, 0⟩ (fun i j => .fin ((4 * j + i : Int) : Rat)) ∧
    Contains 4 countMem ⟨.statPanel, .columnMajor, 3, 2, 8⟩ (fun i j => .fin ((8 + 4 * j + i : Int) : Rat)) := by
  constructor
  · have : ∀ i < 3, ∀ j < 2, (Container.mk .dynDense .columnMajor 3 2 0).addr 4 i j = 4 * (j : Int) + i := by decide +kernel
    intro i j hi hj
    rw [this i hi j hj]
    show (if (0 : Int) ≤ 4 * j + i then _ else _) = _
    rw [if_pos (by omega)]
  · have : ∀ i < 3, ∀ j < 2, (Container.mk .statPanel .columnMajor 3 2 8).addr 4 i j = 8 + 4 * (j : Int) + i := by decide +kernel
    intro i j hi hj
    rw [this i hi j hj]
    show (if (0 : Int) ≤ 8 + 4 * j + i then _ else _) = _
    rw [if_pos (by omega)]

end Blast
