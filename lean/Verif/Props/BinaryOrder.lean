import Verif.Props.Lu
import Verif.Binary
import Mathlib.Data.EReal.Basic
/- Concrete cases meeting the hypotheses of these theorems: Verif/Cases/BinaryOrder.lean. -/
/-
C85, C25 (continued): comparisons and iamax in a binary format of IEEE 754, with infinities and NaN.
-/
set_option linter.unusedSectionVars false
namespace Blast
open Prog
variable {F : Format}

/-! ### Specification -/

/-- the extended real number a floating-point number stands for; NaN stands for none -/
noncomputable def Bin.ext : Bin F → Option EReal
  | .fin s x => some (((if s then -(x : ℝ) else (x : ℝ)) : ℝ) : EReal)
  | .inf s => some (if s then ⊥ else ⊤)
  | .nan => none

/-! ### C85 -/

/-- **C85** (comparison): `a > b` holds exactly if both are numbers (possibly infinite) and the number a is greater than b. -/
theorem C85_greater (a b : Bin F) : Arith.gt a b = true ↔ ∃ x y, a.ext = some x ∧ b.ext = some y ∧ y < x := by
  cases a with
  | nan => cases b <;> simp [Arith.gt, Bin.gt, Bin.ext]
  | inf s =>
    cases b with
    | nan => simp [Arith.gt, Bin.gt, Bin.ext]
    | inf t => cases s <;> cases t <;> simp [Arith.gt, Bin.gt, Bin.ext]
    | fin t y => cases s <;> simp [Arith.gt, Bin.gt, Bin.ext, EReal.coe_lt_top]
  | fin s x =>
    cases b with
    | nan => simp [Arith.gt, Bin.gt, Bin.ext]
    | inf t => cases t <;> simp [Arith.gt, Bin.gt, Bin.ext]
    | fin t y =>
      refine (decide_eq_true_iff).trans ⟨fun h => ⟨_, _, rfl, rfl, EReal.coe_lt_coe_iff.2 h⟩, ?_⟩
      rintro ⟨_, _, h1, h2, h3⟩
      cases h1; cases h2
      exact EReal.coe_lt_coe_iff.1 h3

/-- **C85** (equality): `a == b` holds exactly if both are the same number; the two zeros are equal, NaN is not equal to itself. -/
theorem C85_equal (a b : Bin F) : Arith.eq a b = true ↔ ∃ x, a.ext = some x ∧ b.ext = some x := by
  cases a with
  | nan => cases b <;> simp [Arith.eq, Bin.eq, Bin.ext]
  | inf s =>
    cases b with
    | nan => simp [Arith.eq, Bin.eq, Bin.ext]
    | inf t => cases s <;> cases t <;> simp [Arith.eq, Bin.eq, Bin.ext]
    | fin t y => cases s <;> simp [Arith.eq, Bin.eq, Bin.ext]
  | fin s x =>
    cases b with
    | nan => simp [Arith.eq, Bin.eq, Bin.ext]
    | inf t => cases t <;> simp [Arith.eq, Bin.eq, Bin.ext]
    | fin t y =>
      refine (decide_eq_true_iff).trans ⟨fun h => ⟨_, rfl, congrArg some (congrArg _ h.symm)⟩, ?_⟩
      rintro ⟨_, h1, h2⟩
      cases h1
      exact (EReal.coe_eq_coe_iff.1 (Option.some.inj h2)).symm

/-- **C85** (absolute value): `abs(a)` is the absolute value; NaN stays NaN. -/
theorem C85_abs (a : Bin F) : (Arith.abs a).ext = a.ext.map (fun x => max x (-x)) := by
  cases a with
  | nan => rfl
  | inf s => cases s <;> simp [Arith.abs, Bin.abs, Bin.ext]
  | fin s x =>
    have hx : (0 : ℝ) ≤ x := x.2
    have : ((-x : ℝ) : EReal) ≤ ((x : ℝ) : EReal) := EReal.coe_le_coe_iff.2 (by linarith)
    rw [EReal.coe_neg] at this
    cases s
    · simp only [Arith.abs, Bin.abs, Bin.ext, Bool.false_eq_true, if_false, Option.map_some]
      rw [max_eq_left this]
    · simp only [Arith.abs, Bin.abs, Bin.ext, Bool.false_eq_true, if_false, if_true, Option.map_some]
      rw [EReal.coe_neg, neg_neg, max_eq_right this]

/-! ### C25 -/

/-- the invariant of the scan -/
private theorem scan {f : Nat → Bin F} (h0 : f 0 ≠ .nan) (t : Nat) :
    (iamaxF f t).1 = Arith.abs (f (iamaxF f t).2) ∧
    ∃ x, (Arith.abs (f (iamaxF f t).2)).ext = some x ∧
      (∀ j, j ≤ t → ∀ y, (Arith.abs (f j)).ext = some y → y ≤ x) ∧
      (∀ j, j < (iamaxF f t).2 → ∀ y, (Arith.abs (f j)).ext = some y → y < x) := by
  induction t with
  | zero =>
    refine ⟨rfl, ?_⟩
    cases hf : f 0 with
    | nan => exact absurd hf h0
    | inf s =>
      refine ⟨⊤, ?_, fun j hj y hy => le_top, fun j hj => absurd hj (Nat.not_lt_zero _)⟩
      show (Arith.abs (f 0)).ext = _
      rw [hf]; rfl
    | fin s x =>
      refine ⟨((x : ℝ) : EReal), ?_, fun j hj y hy => ?_, fun j hj => absurd hj (Nat.not_lt_zero _)⟩
      · show (Arith.abs (f 0)).ext = _
        rw [hf]; rfl
      · obtain rfl : j = 0 := by omega
        rw [hf] at hy
        have : some ((x : ℝ) : EReal) = some y := hy
        exact le_of_eq (Option.some.inj this).symm
  | succ t ih =>
    obtain ⟨h1, x, h2, h3, h4⟩ := ih
    unfold iamaxF
    by_cases hg : Arith.gt (Arith.abs (f (t + 1))) (iamaxF f t).1 = true
    · rw [if_pos hg]
      rw [h1] at hg
      obtain ⟨a, b, ha, hb, hab⟩ := (C85_greater _ _).1 hg
      obtain rfl : x = b := Option.some.inj (h2.symm.trans hb)
      refine ⟨rfl, a, ha, fun j hj y hy => ?_, fun j hj y hy => ?_⟩
      · rcases Nat.lt_or_ge j (t + 1) with hlt | hge
        · exact le_trans (h3 j (by omega) y hy) hab.le
        · obtain rfl : j = t + 1 := by omega
          exact le_of_eq (Option.some.inj (hy.symm.trans ha))
      · have hj : j < t + 1 := hj
        exact lt_of_le_of_lt (h3 j (by omega) y hy) hab
    · rw [if_neg hg]
      refine ⟨h1, x, h2, fun j hj y hy => ?_, h4⟩
      rcases Nat.lt_or_ge j (t + 1) with hlt | hge
      · exact h3 j (by omega) y hy
      · obtain rfl : j = t + 1 := by omega
        rw [h1] at hg
        by_contra hc
        exact hg ((C85_greater _ _).2 ⟨y, x, hy, h2, not_le.1 hc⟩)

/-- **C25** in IEEE arithmetic. If the first element is not NaN, iamax returns the first index whose absolute value is largest among all elements
that are not NaN; infinities count. -/
theorem C25_iamax_ieee {SS : Nat} {x : VArg} (px : x.p.Plain SS) {m : Mem (Bin F)} {f : Nat → Bin F} (h : VHolds SS m x.p x.n f)
    (hn : 0 < x.n) (h0 : f 0 ≠ .nan) :
    ∃ i, iamaxVec SS x m = .ok i m ∧ i < x.n ∧ ∃ a, (f i).ext = some a ∧
      (∀ j, j < x.n → ∀ b, (f j).ext = some b → max b (-b) ≤ max a (-a)) ∧
      (∀ j, j < i → ∀ b, (f j).ext = some b → max b (-b) < max a (-a)) := by
  have hle := iamaxF_le f (x.n - 1)
  obtain ⟨-, y, h2, h3, h4⟩ := scan h0 (x.n - 1)
  rw [C85_abs] at h2
  cases ha : (f (iamaxF f (x.n - 1)).2).ext with
  | none => rw [ha] at h2; cases h2
  | some a =>
    rw [ha] at h2
    obtain rfl : max a (-a) = y := Option.some.inj h2
    refine ⟨(iamaxF f (x.n - 1)).2, ?_, by omega, a, ha, fun j hj b hb => ?_, fun j hj b hb => ?_⟩
    · unfold iamaxVec
      rw [if_neg (by omega)]
      exact reads_iamaxPtr px hn h
    · exact h3 j (by omega) _ (by rw [C85_abs, hb]; rfl)
    · exact h4 j hj _ (by rw [C85_abs, hb]; rfl)

/-- **C25** (NaN first): if the first element is NaN, iamax returns 0, whatever the other elements are. -/
theorem C25_iamax_nan_first {SS : Nat} {x : VArg} (px : x.p.Plain SS) {m : Mem (Bin F)} {f : Nat → Bin F} (h : VHolds SS m x.p x.n f)
    (hn : 0 < x.n) (h0 : f 0 = .nan) : iamaxVec SS x m = .ok 0 m := by
  have : ∀ t, iamaxF f t = (.nan, 0) := by
    intro t
    induction t with
    | zero => show (Arith.abs (f 0), 0) = _; rw [h0]; rfl
    | succ t ih =>
      unfold iamaxF
      rw [ih, if_neg]
      intro hc
      obtain ⟨a, b, -, hb, -⟩ := (C85_greater _ _).1 hc
      cases hb
  unfold iamaxVec
  rw [if_neg (by omega)]
  have := reads_iamaxPtr (SS := SS) px hn h
  rw [‹∀ t, iamaxF f t = (.nan, 0)›] at this
  exact this

end Blast
