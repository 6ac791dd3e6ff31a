import Verif.Props.Binary
import Verif.Props.BinaryLu
import Verif.Props.BinarySystem
/- Concrete cases meeting the hypotheses of these theorems: Verif/Cases/FlushZero.lean. -/
/-
Property C98: flush-to-zero and denormals-are-zero, which programs built with `-ffast-math` (cmake/InitialCache.cmake:3) switch on.

The formats of `Binary.lean` have a field `under` that says what becomes of results too small for a normal number; the theorems C85-C95 about `Bin F` hold
for each of the three ways, with the absolute error `F.eta` of the way. Here: what this error is, that nothing else changes, and what becomes false.
-/
namespace Blast
open Prog Reg Finset Bin
variable {F : Format}

/-! ### Denormals-are-zero -/

/-- an operand as an operation with denormals-are-zero sees it -/
noncomputable def daz : Bin F → Bin F
  | .fin s x => if (x : ℝ) < (2 : ℝ) ^ F.emin then .fin s 0 else .fin s x
  | x => x

theorem daz_of_isNum (hu : F.under ≠ .gradual) {x : Bin F} (h : x.IsNum) : daz x = x := by
  rcases x with ⟨s, x⟩ | s | _
  · show (if (x : ℝ) < (2 : ℝ) ^ F.emin then fin s 0 else fin s x) = _
    split
    · rename_i hx
      have h1 := (h trivial).2 hu
      have h2 : |(fin s x : Bin F).real| = x := by cases s <;> simp [real]
      rw [h2] at h1
      rcases h1 with h1 | h1
      · have : x = 0 := (real_eq_zero s x).1 h1
        rw [this]
      · linarith
    · rfl
  · rfl
  · rfl

theorem isNum_neg {x : Bin F} (h : x.IsNum) : (Bin.neg x).IsNum := fun hf => by
  rw [real_neg]
  exact Format.Representable.neg (h ((finite_neg x).1 hf))

theorem isNum_abs {x : Bin F} (h : x.IsNum) : (Bin.abs x).IsNum := fun hf => by
  rcases x with ⟨s, x⟩ | s | _
  · have := h trivial
    cases s
    · exact this
    · exact Format.Representable.neg (x := (fin true x : Bin F).real) this |> fun h => by simpa [Bin.abs, real] using h
  · exact hf.elim
  · exact hf.elim

theorem isNum_sqrt (x : Bin F) : (Bin.sqrt x).IsNum := by
  rcases x with ⟨s, x⟩ | (_ | _) | _
  · show Bin.IsNum (if x = 0 then fin s 0 else if s then nan else mk F false (Real.sqrt x))
    split
    · intro _
      have : (fin s 0 : Bin F).real = 0 := by cases s <;> simp [real]
      rw [this]
      exact representable_zero
    · split
      · exact fun h => h.elim
      · exact isNum_mk _ _
  all_goals exact fun h => h.elim

/-- the numbers of a format, infinities and NaN -/
def NumOf (F : Format) : Type := {x : Bin F // x.IsNum}

/-- the operations of the format on its numbers -/
noncomputable def plainArith (hW : F.Wide) : Arith (NumOf F) where
  zero := ⟨.fin false 0, fun _ => by rw [show (fin false 0 : Bin F).real = 0 by simp [real]]; exact representable_zero⟩
  one := ⟨.fin false 1, fun _ => by rw [show (fin false 1 : Bin F).real = 1 by simp [real]]; exact representable_one hW⟩
  add a b := ⟨Bin.add a.1 b.1, isNum_add _ _⟩
  sub a b := ⟨Bin.sub a.1 b.1, isNum_add _ _⟩
  mul a b := ⟨Bin.mul a.1 b.1, isNum_mul _ _⟩
  div a b := ⟨Bin.div a.1 b.1, isNum_div _ _⟩
  neg a := ⟨Bin.neg a.1, isNum_neg a.2⟩
  sqrt a := ⟨Bin.sqrt a.1, isNum_sqrt _⟩
  fma a b c := ⟨Bin.fma a.1 b.1 c.1, isNum_fma _ _ _⟩
  fnma a b c := ⟨Bin.fnma a.1 b.1 c.1, isNum_fnma _ _ _⟩
  abs a := ⟨Bin.abs a.1, isNum_abs a.2⟩
  gt a b := Bin.gt a.1 b.1
  eq a b := Bin.eq a.1 b.1

/-- the same operations with denormals-are-zero: rounding operations and comparisons see subnormal operands as zeros; changing the sign and clearing it
do not look at the number -/
noncomputable def dazArith (hW : F.Wide) : Arith (NumOf F) where
  zero := ⟨.fin false 0, fun _ => by rw [show (fin false 0 : Bin F).real = 0 by simp [real]]; exact representable_zero⟩
  one := ⟨.fin false 1, fun _ => by rw [show (fin false 1 : Bin F).real = 1 by simp [real]]; exact representable_one hW⟩
  add a b := ⟨Bin.add (daz a.1) (daz b.1), isNum_add _ _⟩
  sub a b := ⟨Bin.sub (daz a.1) (daz b.1), isNum_add _ _⟩
  mul a b := ⟨Bin.mul (daz a.1) (daz b.1), isNum_mul _ _⟩
  div a b := ⟨Bin.div (daz a.1) (daz b.1), isNum_div _ _⟩
  neg a := ⟨Bin.neg a.1, isNum_neg a.2⟩
  sqrt a := ⟨Bin.sqrt (daz a.1), isNum_sqrt _⟩
  fma a b c := ⟨Bin.fma (daz a.1) (daz b.1) (daz c.1), isNum_fma _ _ _⟩
  fnma a b c := ⟨Bin.fnma (daz a.1) (daz b.1) (daz c.1), isNum_fnma _ _ _⟩
  abs a := ⟨Bin.abs a.1, isNum_abs a.2⟩
  gt a b := Bin.gt (daz a.1) (daz b.1)
  eq a b := Bin.eq (daz a.1) (daz b.1)

/-- **C98** (denormals-are-zero): with flush-to-zero no operation gives a subnormal number, so denormals-are-zero changes no operation on numbers the
program computes, and no call of any algorithm whose arguments hold no subnormal numbers: the two arithmetics are equal. -/
theorem C98_daz (hW : F.Wide) (hu : F.under ≠ .gradual) : dazArith hW = plainArith hW := by
  have h : ∀ a : NumOf F, daz a.1 = a.1 := fun a => daz_of_isNum hu a.2
  simp only [dazArith, plainArith, h]

/-! ### Rounding -/

/-- a result of less than half of the smallest normal number becomes zero -/
theorem tiny_of_half (hu : F.under ≠ .gradual) {y : ℝ} (h0 : 0 ≤ y) (h : y ≤ (2 : ℝ) ^ F.emin / 2) : F.tiny y := by
  have hp : (0 : ℝ) < (2 : ℝ) ^ F.emin := zpow_pos (by norm_num) _
  unfold Format.tiny
  rcases hm : F.under with _ | _ | _
  · exact absurd hm hu
  · simp only
    have h1 := (abs_le.1 (rndMag_err F.p h0)).2
    have h2 : (1 / 2 : ℝ) ^ (F.p + 1) ≤ 1 / 2 := by
      rw [pow_succ]
      have : (1 / 2 : ℝ) ^ F.p ≤ 1 := pow_le_one₀ (by norm_num) (by norm_num)
      linarith
    have h3 : (1 / 2 : ℝ) ^ (F.p + 1) * y ≤ 1 / 2 * y := mul_le_mul_of_nonneg_right h2 h0
    linarith
  · simp only
    linarith

theorem finite_mk_iff {nz : Bool} {x : ℝ} : (mk F nz x).Finite ↔ F.round |x| < F.big := by
  unfold Bin.mk
  split
  · rename_i h
    exact ⟨fun h => h.elim, fun h' => absurd h (not_le.2 h')⟩
  · rename_i h
    exact ⟨fun _ => not_le.1 h, fun _ => trivial⟩

theorem mk_flushed (hu : F.under ≠ .gradual) {nz : Bool} {x : ℝ} (h : |x| ≤ (2 : ℝ) ^ F.emin / 2) : (mk F nz x).Finite ∧ (mk F nz x).real = 0 := by
  have hr := F.round_tiny (tiny_of_half hu (abs_nonneg x) h)
  have hf : (mk F nz x).Finite := finite_mk_iff.2 (by rw [hr]; exact zpow_pos (by norm_num) _)
  refine ⟨hf, ?_⟩
  rw [real_mk hf, hr, neg_zero, ite_self]

/-- **C98** (rounding): with flush-to-zero (either kind) a finite result is zero or a normal number; results in the normal range are those of gradual
underflow, and the others are wrong by less than the smallest normal number. -/
theorem C98_rounding (hu : F.under ≠ .gradual) {nz : Bool} {x : ℝ} (h : (mk F nz x).Finite) :
    ((mk F nz x).real = 0 ∨ (2 : ℝ) ^ F.emin ≤ |(mk F nz x).real|) ∧
    ((2 : ℝ) ^ F.emin ≤ |x| → |(mk F nz x).real - x| ≤ F.u * |x| ∧
      ∃ h' : (mk { F with under := .gradual } nz x).Finite, (mk { F with under := .gradual } nz x).real = (mk F nz x).real) ∧
    (|x| < (2 : ℝ) ^ F.emin → |(mk F nz x).real - x| ≤ F.u * |x| + (2 : ℝ) ^ F.emin) := by
  refine ⟨(mk_representable h).2 hu, fun hx => ⟨mk_rel hx h, ?_⟩, fun _ => ?_⟩
  · have e : ({ F with under := .gradual } : Format).round |x| = F.round |x| := by
      rw [F.round_normal hx, ({ F with under := .gradual } : Format).round_gradual rfl]
      rfl
    have hf : (mk { F with under := .gradual } nz x).Finite := by
      refine finite_mk_iff.2 ?_
      rw [e]
      exact finite_mk_iff.1 h
    exact ⟨hf, by rw [real_mk h, real_mk hf, e]⟩
  · have := mk_err h
    unfold Format.eta at this
    rwa [if_neg hu] at this

/-- **C98** (formats): C85-C95 apply to double and float with flush-to-zero, with an absolute error of the smallest normal number, 2^-1022 and 2^-126. -/
theorem C98_formats : (binary64Ftz.Wide ∧ binary32Ftz.Wide ∧ binary64Fz.Wide ∧ binary32Fz.Wide) ∧
    (binary64Ftz.u = binary64.u ∧ binary64Fz.u = binary64.u ∧ binary32Ftz.u = binary32.u ∧ binary32Fz.u = binary32.u) ∧
    (binary64Ftz.eta = (2 : ℝ) ^ (-1022 : ℤ) ∧ binary64Fz.eta = (2 : ℝ) ^ (-1022 : ℤ) ∧
      binary32Ftz.eta = (2 : ℝ) ^ (-126 : ℤ) ∧ binary32Fz.eta = (2 : ℝ) ^ (-126 : ℤ)) := by
  refine ⟨⟨⟨by decide, by decide⟩, ⟨by decide, by decide⟩, ⟨by decide, by decide⟩, ⟨by decide, by decide⟩⟩, ⟨rfl, rfl, rfl, rfl⟩, ?_, ?_, ?_, ?_⟩ <;>
    (unfold Format.eta; rw [if_neg (by decide)]; rfl)

/-- **C98** (gemm): with flush-to-zero, for any arguments, the elements of the result are zeros, normal numbers, infinities or NaN; a finite one is wrong by
rounding and by at most the smallest normal number for each operation. -/
theorem C98_gemm (hu : F.under ≠ .gradual) {SS : Nat} {m : Mem (Bin F)} {A B C D : Container} (alpha beta : Bin F) (h : GemmArgs SS m A B C D)
    (hs : GemmSizes A B C D) {a b c : Nat → Nat → Bin F} (ha : Contains SS m A a) (hb : Contains SS m B b) (hc : Contains SS m C c) :
    ∃ m' d, gemmCall SS alpha A B beta C D m = .ok () m' ∧ Contains SS m' D d ∧ ∀ i j, i < D.rows → j < D.cols → (d i j).Finite →
      ((d i j).real = 0 ∨ (2 : ℝ) ^ F.emin ≤ |(d i j).real|) ∧
      |(d i j).real - (alpha.real * ∑ k ∈ range A.cols, (a i k).real * (b k j).real + beta.real * (c i j).real)| ≤
        ((1 + F.u) ^ (A.cols + 2) - 1) * (|alpha.real| * ∑ k ∈ range A.cols, |(a i k).real| * |(b k j).real| + |beta.real| * |(c i j).real|) +
          (1 + F.u) ^ (A.cols + 2) * (A.cols * |alpha.real| + 2) * (2 : ℝ) ^ F.emin := by
  obtain ⟨m', e, e1⟩ := C04_gemm_bitwise alpha beta h hs ha hb hc
  obtain ⟨m1, d, f, f1, f2⟩ := C85_gemm alpha beta h hs ha hb hc
  rw [e] at f
  cases f
  refine ⟨m', d, e, f1, fun i j hi hj hf => ⟨?_, ?_⟩⟩
  · have : d i j = Arith.fma beta (c i j) (Arith.mul (fmaSum (fun k => a i k) (fun k => b k j) Arith.zero A.cols) alpha) := by
      have h1 := f1 i j hi hj
      rw [e1 i j hi hj] at h1
      exact (Option.some.inj h1).symm
    rw [this] at hf ⊢
    exact (isNum_fma _ _ _ hf).2 hu
  · have := (f2 i j hi hj hf).2.2.2.2
    unfold Format.eta at this
    rwa [if_neg hu] at this

/-! ### What becomes false -/

/-- the matrix [[m, m], [m, 3/2 m]], m the smallest normal number -/
noncomputable def flushVal (F : Format) (i j : Nat) : Bin F := .fin false (if i = 1 ∧ j = 1 then 3 / 2 * 2 ^ F.emin else 2 ^ F.emin)

theorem flushVal_real (i j : Nat) : (flushVal F i j).real = if i = 1 ∧ j = 1 then 3 / 2 * (2 : ℝ) ^ F.emin else (2 : ℝ) ^ F.emin := by
  unfold flushVal
  split <;> simp [real]

/-- the elements are normal numbers and the matrix is regular -/
theorem flushVal_regular : (∀ i j, (flushVal F i j).Finite ∧ (2 : ℝ) ^ F.emin ≤ (flushVal F i j).real) ∧
    (flushVal F 0 0).real * (flushVal F 1 1).real - (flushVal F 0 1).real * (flushVal F 1 0).real ≠ 0 := by
  have hp : (0 : ℝ) < (2 : ℝ) ^ F.emin := zpow_pos (by norm_num) _
  refine ⟨fun i j => ⟨trivial, ?_⟩, ?_⟩
  · rw [flushVal_real]
    split <;> linarith
  · simp only [flushVal_real]
    norm_num
    intro hc
    nlinarith

theorem pivotRow_flush : pivotRow 2 (flushVal F) 0 = 0 := by
  have h : iamaxF (fun i => flushVal F (0 + i) 0) 1 = (Arith.abs (flushVal F 0 0), 0) := by
    show (if Arith.gt (Arith.abs (flushVal F (0 + (0 + 1)) 0)) (iamaxF (fun i => flushVal F (0 + i) 0) 0).1 then _ else _) = _
    rw [if_neg]
    · rfl
    · show ¬ (decide ((fin false (2 ^ F.emin) : Bin F).real < (fin false (2 ^ F.emin) : Bin F).real) = true)
      simp
  unfold pivotRow
  rw [show (2 - 0 - 1 : Nat) = 1 from rfl, h]

/-- the multiplier is 1 and the last element after the first step is the rounding of m / 2 -/
theorem flush_schur (hW : F.Wide) (hp1 : 1 ≤ F.p) : ∃ nz, updCol (Arith.div (flushVal F 1 0) (flushVal F 0 0)) (flushVal F 0 1) (flushVal F 1 1) = mk F nz ((2 : ℝ) ^ F.emin / 2) := by
  have hp : (0 : ℝ) < (2 : ℝ) ^ F.emin := zpow_pos (by norm_num) _
  have h0 : ((2 : NNReal) ^ F.emin) ≠ 0 := (zpow_pos (by norm_num) _).ne'
  have hone := mk_exact (F := F) (nz := false) (representable_one hW)
  have hdiv : (Arith.div (flushVal F 1 0) (flushVal F 0 0) : Bin F) = mk F false 1 := by
    show (if ((2 : NNReal) ^ F.emin) = 0 then _ else mk F (false != false) ((flushVal F 1 0).real / (flushVal F 0 0).real)) = _
    rw [if_neg h0]
    simp only [flushVal_real]
    rw [if_neg (by omega), if_neg (by omega), div_self hp.ne']
    rfl
  obtain ⟨hl, hlr⟩ := hone
  rw [hdiv]
  generalize mk F false 1 = l at hl hlr
  obtain ⟨s, x, rfl⟩ : ∃ s x, l = fin s x := by
    rcases l with ⟨s, x⟩ | _ | _
    · exact ⟨s, x, rfl⟩
    · exact hl.elim
    · exact hl.elim
  have hm1 : (Arith.mul (Arith.neg Arith.one) (fin s x) : Bin F) = mk F ((!false) != s) (-1) := by
    show mk F ((!false) != s) ((fin true 1 : Bin F).real * (fin s x : Bin F).real) = _
    rw [hlr]
    congr 1
    simp [real]
  obtain ⟨k1, k2⟩ := mk_exact (F := F) (nz := (!false) != s) (Format.Representable.neg (representable_one hW))
  have hmulone : (Arith.mul Arith.one (flushVal F 1 1) : Bin F) = mk F (false != false) (3 / 2 * (2 : ℝ) ^ F.emin) := by
    show mk F (false != false) ((fin false 1 : Bin F).real * (flushVal F 1 1).real) = _
    rw [flushVal_real, if_pos ⟨rfl, rfl⟩]
    congr 1
    simp [real]
  have hrep : F.Representable (3 / 2 * (2 : ℝ) ^ F.emin) := by
    refine ⟨⟨3, F.emin - 1, ?_, by omega, by have := hW.1; have := hW.2; omega, ?_⟩, fun _ => Or.inr ?_⟩
    · have : (2 : ℤ) ^ (1 + 1) ≤ 2 ^ (F.p + 1) := pow_le_pow_right₀ (by norm_num) (by omega)
      have e : |(3 : ℤ)| = 3 := rfl
      rw [e]
      omega
    · rw [zpow_sub₀ (by norm_num), zpow_one]; push_cast; ring
    · rw [abs_of_pos (by linarith)]; linarith
  obtain ⟨q1, q2⟩ := mk_exact (F := F) (nz := false != false) hrep
  unfold updCol gerEntry
  rw [hm1, hmulone]
  generalize mk F ((!false) != s) (-1) = w at k1 k2
  generalize mk F (false != false) (3 / 2 * (2 : ℝ) ^ F.emin) = z at q1 q2
  rcases w with ⟨s1, x1⟩ | _ | _
  · rcases z with ⟨s2, x2⟩ | _ | _
    · refine ⟨(s1 != false) && s2, ?_⟩
      show mk F ((s1 != false) && s2) ((fin s1 x1 : Bin F).real * (flushVal F 0 1).real + (fin s2 x2 : Bin F).real) = _
      rw [k2, q2, flushVal_real, if_neg (by omega)]
      congr 1
      ring
    · exact q1.elim
    · exact q1.elim
  · exact k1.elim
  · exact k1.elim

theorem eq_zero_iff {x : Bin F} (hx : x.Finite) : Arith.eq x Arith.zero = true ↔ x.real = 0 := by
  rcases x with ⟨s, x⟩ | _ | _
  · show decide ((fin s x : Bin F).real = (fin false 0 : Bin F).real) = true ↔ _
    rw [decide_eq_true_iff, show (fin false 0 : Bin F).real = 0 by simp [real]]
  · exact hx.elim
  · exact hx.elim

/-- the second step finds the rounding of m / 2 -/
theorem flush_run (hW : F.Wide) (hp1 : 1 ≤ F.p) (ip : Nat → Nat) : ∃ nz, (mk F nz ((2 : ℝ) ^ F.emin / 2)).Finite ∧
    ((mk F nz ((2 : ℝ) ^ F.emin / 2)).real = 0 → luRun Arith.div updCol 2 (flushVal F) ip (min 2 2) = none) ∧
    ((mk F nz ((2 : ℝ) ^ F.emin / 2)).real ≠ 0 → luRun Arith.div updCol 2 (flushVal F) ip (min 2 2) ≠ none) := by
  have hp : (0 : ℝ) < (2 : ℝ) ^ F.emin := zpow_pos (by norm_num) _
  obtain ⟨nz, hs⟩ := flush_schur hW hp1
  have hf : (mk F nz ((2 : ℝ) ^ F.emin / 2)).Finite := by
    refine finite_mk_iff.2 ?_
    · have h1 := F.round_le (abs_nonneg _) (representable_one hW) (y := |(2 : ℝ) ^ F.emin / 2|) (by
        rw [abs_of_pos (by linarith)]
        have := Format.two_zpow_le (a := F.emin) (b := 0) (by have := hW.1; omega)
        rw [zpow_zero] at this
        linarith)
      have h2 := Format.two_zpow_lt.2 (show (0 : ℤ) < F.emax + 1 by have := hW.2; omega)
      rw [zpow_zero] at h2
      exact lt_of_le_of_lt h1 h2
  have e0 : luStep Arith.div updCol 2 0 (flushVal F) ip = some (elim Arith.div updCol 0 (flushVal F), setAt ip 0 0) := by
    unfold luStep
    simp only [pivotRow_flush, swapRows_self]
    rw [if_neg]
    rw [eq_zero_iff (x := flushVal F 0 0) trivial, flushVal_real, if_neg (by omega)]
    exact hp.ne'
  have e1 : luRun Arith.div updCol 2 (flushVal F) ip (min 2 2) = luStep Arith.div updCol 2 1 (elim Arith.div updCol 0 (flushVal F)) (setAt ip 0 0) := by
    show ((luRun Arith.div updCol 2 (flushVal F) ip 1).bind _) = _
    have : luRun Arith.div updCol 2 (flushVal F) ip 1 = some (elim Arith.div updCol 0 (flushVal F), setAt ip 0 0) := by
      show ((some (flushVal F, ip)).bind _) = _
      exact e0
    rw [this]
    rfl
  have hpiv : ∀ a : Nat → Nat → Bin F, pivotRow 2 a 1 = 1 := fun a => rfl
  have e2 : elim Arith.div updCol 0 (flushVal F) 1 1 = mk F nz ((2 : ℝ) ^ F.emin / 2) := by rw [← hs]; rfl
  refine ⟨nz, hf, fun h => ?_, fun h => ?_⟩
  · rw [e1]
    unfold luStep
    simp only [hpiv, swapRows_self, e2]
    rw [if_pos ((eq_zero_iff hf).2 h)]
  · rw [e1]
    unfold luStep
    simp only [hpiv, swapRows_self, e2]
    rw [if_neg (fun hc => h ((eq_zero_iff hf).1 hc))]
    simp

/-- **C98** (singularity, refuted): C21 says that getf2 throws for singular matrices only. With flush-to-zero it throws for the regular matrix
[[m, m], [m, 3/2 m]] of normal numbers, m being the smallest one, in which every intermediate result but the last, m/2, is exact; with gradual
underflow it factorizes it. -/
theorem C98_getf2_singular_refuted (hW : F.Wide) (hp1 : 1 ≤ F.p) {SS TR : Nat} {A : MPtr} {m0 : Mem (Bin F)} (hp : LuPre SS TR 2 2 A m0)
    (h : Holds SS m0 A 2 2 (flushVal F)) (ip : Nat → Nat) :
    ((flushVal F 0 0).real * (flushVal F 1 1).real - (flushVal F 0 1).real * (flushVal F 1 0).real ≠ 0) ∧
    (F.under ≠ .gradual → ∃ m', getf2Ptr SS TR 2 2 A ip m0 = .throw .invalidArgument m') ∧
    (F.under = .gradual → ∃ p m', getf2Ptr SS TR 2 2 A ip m0 = .ok p m') := by
  have hpos : (0 : ℝ) < (2 : ℝ) ^ F.emin := zpow_pos (by norm_num) _
  obtain ⟨nz, hf, h1, h2⟩ := flush_run hW hp1 ip
  refine ⟨flushVal_regular.2, fun hu => ?_, fun hu => ?_⟩
  · have hz := h1 (mk_flushed hu (by rw [abs_of_pos (by linarith)])).2
    rcases runs_getf2Ptr hp h ip with ⟨p, m', -, a', e2, -⟩ | ⟨e, m', e1, rfl, -⟩
    · rw [hz] at e2; cases e2
    · exact ⟨m', e1⟩
  · have hrep : F.Representable ((2 : ℝ) ^ F.emin / 2) := by
      refine ⟨⟨1, F.emin - 1, ?_, by omega, by have := hW.1; have := hW.2; omega, ?_⟩, fun hc => absurd hu hc⟩
      · rw [abs_one]
        exact one_lt_pow₀ (by norm_num) (by omega)
      · rw [zpow_sub₀ (by norm_num), zpow_one]; push_cast; ring
    have hne := h2 (by rw [(mk_exact hrep).2]; linarith)
    rcases runs_getf2Ptr hp h ip with ⟨p, m', e, -⟩ | ⟨e, m', -, -, ⟨k, a', p, hk, g1, g2⟩, -⟩
    · exact ⟨p, m', e⟩
    · exfalso
      refine hne (luRun_none_mono (K := k + 1) ?_ (by omega))
      unfold luRun
      rw [g1, Option.bind_some, g2]

/-- the column (2^emax, 2^emax) -/
noncomputable def hugeVal (F : Format) (_ _ : Nat) : Bin F := .fin false (2 ^ F.emax)

theorem hugeVal_real (i j : Nat) : (hugeVal F i j).real = (2 : ℝ) ^ F.emax := by simp [hugeVal, real]

/-- **C98** (reciprocals, refuted): C87 bounds the error of row-major getf2 where the compiler multiplies by the reciprocal of the pivot (`-ffast-math`). With
flush-to-zero, for a column of two equal numbers 2^emax, the reciprocal becomes zero: getf2 returns normally with the multiplier 0 instead of 1. -/
theorem C98_reciprocal_refuted (hu : F.under ≠ .gradual) (hr : 0 < F.emin + F.emax) {SS : Nat} (hSS : 0 < SS) {A : Mat} (hA : A.rows = 2 ∧ A.cols = 1)
    (hd : A.p.panel = false) {m0 : Mem (Bin F)} (hinj : Inj SS A.p A.rows A.cols) (h : Holds SS m0 A.p A.rows A.cols (hugeVal F)) (ip : Nat → Nat) :
    ∃ p m' l, getf2Row SS (fun x y => Arith.mul x (Arith.div Arith.one y)) A ip m0 = .ok p m' ∧ m' (A.p.addr SS (1 : Nat) (0 : Nat)) = some l ∧
      l.Finite ∧ l.real = 0 := by
  have hpos : (0 : ℝ) < (2 : ℝ) ^ F.emax := zpow_pos (by norm_num) _
  have h0 : ((2 : NNReal) ^ F.emax) ≠ 0 := (zpow_pos (by norm_num) _).ne'
  -- the reciprocal
  have hrec : (Arith.div Arith.one (hugeVal F 0 0) : Bin F) = mk F false (1 / (2 : ℝ) ^ F.emax) := by
    show (if ((2 : NNReal) ^ F.emax) = 0 then _ else mk F (false != false) ((fin false 1 : Bin F).real / (hugeVal F 0 0).real)) = _
    rw [if_neg h0, hugeVal_real]
    simp [real]
  have hsmall : |1 / (2 : ℝ) ^ F.emax| ≤ (2 : ℝ) ^ F.emin / 2 := by
    rw [abs_of_pos (by positivity), one_div, ← zpow_neg, show (2 : ℝ) ^ F.emin / 2 = (2 : ℝ) ^ (F.emin - 1) by rw [zpow_sub₀ (by norm_num), zpow_one]]
    exact Format.two_zpow_le (by omega)
  obtain ⟨r1, r2⟩ := mk_flushed hu (nz := false) hsmall
  rw [← hrec] at r1 r2
  -- the multiplier
  have hmul : (Arith.mul (hugeVal F 1 0) (Arith.div Arith.one (hugeVal F 0 0)) : Bin F).Finite ∧
      (Arith.mul (hugeVal F 1 0) (Arith.div Arith.one (hugeVal F 0 0)) : Bin F).real = 0 := by
    generalize (Arith.div Arith.one (hugeVal F 0 0) : Bin F) = r at r1 r2
    rcases r with ⟨s, x⟩ | _ | _
    · show (mk F (false != s) ((hugeVal F 1 0).real * (fin s x : Bin F).real)).Finite ∧ (mk F (false != s) ((hugeVal F 1 0).real * (fin s x : Bin F).real)).real = 0
      rw [r2, mul_zero]
      exact mk_exact representable_zero
    · exact r1.elim
    · exact r1.elim
  have hpiv : pivotRow 2 (hugeVal F) 0 = 0 := by
    have h : iamaxF (fun i => hugeVal F (0 + i) 0) 1 = (Arith.abs (hugeVal F 0 0), 0) := by
      show (if Arith.gt (Arith.abs (hugeVal F (0 + (0 + 1)) 0)) (iamaxF (fun i => hugeVal F (0 + i) 0) 0).1 then _ else _) = _
      rw [if_neg]
      · rfl
      · show ¬ (decide ((fin false (2 ^ F.emax) : Bin F).real < (fin false (2 ^ F.emax) : Bin F).real) = true)
        simp
    unfold pivotRow
    rw [show (2 - 0 - 1 : Nat) = 1 from rfl, h]
  have hrun : luRun (fun x y : Bin F => Arith.mul x (Arith.div Arith.one y)) updRow A.rows (hugeVal F) ip (min A.rows A.cols) =
      some (elim (fun x y => Arith.mul x (Arith.div Arith.one y)) updRow 0 (hugeVal F), setAt ip 0 0) := by
    rw [hA.1, hA.2]
    show ((some (hugeVal F, ip)).bind _) = _
    show luStep _ _ 2 0 (hugeVal F) ip = _
    unfold luStep
    simp only [hpiv, swapRows_self]
    rw [if_neg]
    rw [eq_zero_iff (x := hugeVal F 0 0) trivial, hugeVal_real]
    exact hpos.ne'
  rcases runs_getf2Row hSS (fun x y => Arith.mul x (Arith.div Arith.one y)) hd hinj h ip with ⟨p, m', e1, a', e2, e3⟩ | ⟨e, m', -, -, ⟨k, a', p, hk, g1, g2⟩, -⟩
  · rw [hrun] at e2
    cases e2
    refine ⟨_, m', _, e1, e3.holds 1 0 (by omega) (by omega), ?_⟩
    exact hmul
  · exfalso
    have : luRun (fun x y : Bin F => Arith.mul x (Arith.div Arith.one y)) updRow A.rows (hugeVal F) ip (min A.rows A.cols) = none := by
      refine luRun_none_mono (K := k + 1) ?_ (by omega)
      unfold luRun
      rw [g1, Option.bind_some, g2]
    rw [hrun] at this
    cases this

/-! ### What stays the same -/

/-- the format with gradual underflow -/
def Format.ieee (F : Format) : Format := { F with under := .gradual }

/-- the same number in the format with gradual underflow -/
def regrade : Bin F → Bin F.ieee
  | .fin s x => .fin s x
  | .inf s => .inf s
  | .nan => .nan

/-- zero, or in the normal range or above -/
def NotSmall (F : Format) (x : ℝ) : Prop := x = 0 ∨ (2 : ℝ) ^ F.emin ≤ |x|

theorem regrade_real (x : Bin F) : (regrade x).real = x.real := by rcases x with ⟨s, x⟩ | _ | _ <;> rfl
theorem regrade_finite (x : Bin F) : (regrade x).Finite ↔ x.Finite := by rcases x with ⟨s, x⟩ | _ | _ <;> exact Iff.rfl

theorem round_ieee {x : ℝ} (h : NotSmall F x) : F.ieee.round |x| = F.round |x| := by
  rcases h with rfl | h
  · rw [abs_zero, Format.round_zero, Format.round_zero]
  · rw [F.round_normal h, F.ieee.round_gradual rfl]
    rfl

theorem regrade_mk {nz : Bool} {x : ℝ} (h : NotSmall F x) : regrade (mk F nz x) = mk F.ieee nz x := by
  have e := round_ieee h
  by_cases hb : F.big ≤ F.round |x|
  · have h1 : mk F nz x = inf (decide (x < 0)) := if_pos hb
    have h2 : mk F.ieee nz x = inf (decide (x < 0)) := if_pos (by rw [e]; exact hb)
    rw [h1, h2]; rfl
  · have h1 : mk F nz x = fin (if x = 0 then nz else decide (x < 0)) ⟨F.round |x|, F.round_nonneg (abs_nonneg x)⟩ := if_neg hb
    have h2 : mk F.ieee nz x = fin (if x = 0 then nz else decide (x < 0)) ⟨F.ieee.round |x|, F.ieee.round_nonneg (abs_nonneg x)⟩ :=
      if_neg (by rw [e]; exact hb)
    rw [h1, h2]
    show fin _ _ = fin _ _
    congr 1
    exact Subtype.ext e.symm

theorem regrade_mul {a b : Bin F} (h : a.Finite → b.Finite → NotSmall F (a.real * b.real)) : regrade (Bin.mul a b) = Bin.mul (regrade a) (regrade b) := by
  rcases a with ⟨s, x⟩ | s | _ <;> rcases b with ⟨t, y⟩ | t | _
  · exact regrade_mk (h trivial trivial)
  · show regrade (if x = 0 then nan else inf (s != t)) = if x = 0 then nan else inf (s != t)
    split <;> rfl
  · rfl
  · show regrade (if y = 0 then nan else inf (s != t)) = if y = 0 then nan else inf (s != t)
    split <;> rfl
  all_goals rfl

theorem regrade_add {a b : Bin F} (h : a.Finite → b.Finite → NotSmall F (a.real + b.real)) : regrade (Bin.add a b) = Bin.add (regrade a) (regrade b) := by
  rcases a with ⟨s, x⟩ | s | _ <;> rcases b with ⟨t, y⟩ | t | _
  · exact regrade_mk (h trivial trivial)
  · rfl
  · rfl
  · rfl
  · show regrade (if s = t then inf s else nan) = if s = t then inf s else nan
    split <;> rfl
  all_goals rfl

theorem regrade_fma {a b c : Bin F} (h : a.Finite → b.Finite → c.Finite → NotSmall F (a.real * b.real + c.real)) :
    regrade (Bin.fma a b c) = Bin.fma (regrade a) (regrade b) (regrade c) := by
  have key : ∀ p q : Bin F, ¬ p.Finite → regrade (Bin.add p q) = Bin.add (regrade p) (regrade q) := fun p q hp => regrade_add (fun h => absurd h hp)
  have km : ∀ p q : Bin F, ¬ (p.Finite ∧ q.Finite) → regrade (Bin.mul p q) = Bin.mul (regrade p) (regrade q) := fun p q hp =>
    regrade_mul (fun h1 h2 => absurd ⟨h1, h2⟩ hp)
  have inf_ : ∀ p q : Bin F, ¬ (p.Finite ∧ q.Finite) → ¬ (Bin.mul p q).Finite := fun p q hp hf => hp ⟨(Bin.mul_inv hf).1, (Bin.mul_inv hf).2.1⟩
  rcases a with ⟨s, x⟩ | s | _
  · rcases b with ⟨t, y⟩ | t | _
    · rcases c with ⟨r, z⟩ | r | _
      · exact regrade_mk (h trivial trivial trivial)
      · rfl
      · rfl
    · have hn : ¬ ((fin s x : Bin F).Finite ∧ (inf t : Bin F).Finite) := fun h => h.2
      show regrade (Bin.add (Bin.mul (fin s x) (inf t)) c) = Bin.add (Bin.mul (fin s x) (inf t)) (regrade c)
      rw [key _ _ (inf_ _ _ hn), km _ _ hn]; rfl
    · have hn : ¬ ((fin s x : Bin F).Finite ∧ (nan : Bin F).Finite) := fun h => h.2
      show regrade (Bin.add (Bin.mul (fin s x) nan) c) = Bin.add (Bin.mul (fin s x) nan) (regrade c)
      rw [key _ _ (inf_ _ _ hn), km _ _ hn]; rfl
  · have hn : ¬ ((inf s : Bin F).Finite ∧ b.Finite) := fun h => h.1
    have e1 : Bin.fma (inf s) b c = Bin.add (Bin.mul (inf s) b) c := rfl
    have e2 : Bin.fma (regrade (inf s : Bin F)) (regrade b) (regrade c) = Bin.add (Bin.mul (regrade (inf s : Bin F)) (regrade b)) (regrade c) := rfl
    rw [e1, e2, key _ _ (inf_ _ _ hn), km _ _ hn]
  · have hn : ¬ ((nan : Bin F).Finite ∧ b.Finite) := fun h => h.1
    have e1 : Bin.fma nan b c = Bin.add (Bin.mul nan b) c := rfl
    have e2 : Bin.fma (regrade (nan : Bin F)) (regrade b) (regrade c) = Bin.add (Bin.mul (regrade (nan : Bin F)) (regrade b)) (regrade c) := rfl
    rw [e1, e2, key _ _ (inf_ _ _ hn), km _ _ hn]

theorem regrade_fmaSum {a b : Nat → Bin F} {c : Bin F} (K : Nat)
    (h : ∀ k < K, (a k).Finite → (b k).Finite → (fmaSum a b c k).Finite → NotSmall F ((a k).real * (b k).real + (fmaSum a b c k).real)) :
    regrade (fmaSum a b c K) = fmaSum (fun k => regrade (a k)) (fun k => regrade (b k)) (regrade c) K := by
  induction K with
  | zero => rfl
  | succ K ih =>
    show regrade (Bin.fma (a K) (b K) (fmaSum a b c K)) = Bin.fma (regrade (a K)) (regrade (b K)) (fmaSum _ _ (regrade c) K)
    rw [regrade_fma (h K (by omega)), ih (fun k hk => h k (by omega))]

/-- **C98** (nothing small, nothing changes): if none of the exact results that gemm rounds for the elements of D - the partial sums, their product with alpha,
the last addition - is a non-zero number below the normal range, then gemm writes the same numbers, bit for bit, with flush-to-zero as with gradual
underflow. -/
theorem C98_gemm_agrees {SS : Nat} {m : Mem (Bin F)} {m2 : Mem (Bin F.ieee)} {A B C D : Container} (alpha beta : Bin F) (h : GemmArgs SS m A B C D)
    (h2 : GemmArgs SS m2 A B C D) (hs : GemmSizes A B C D) {a b c : Nat → Nat → Bin F} (ha : Contains SS m A a) (hb : Contains SS m B b) (hc : Contains SS m C c)
    (ha2 : Contains SS m2 A (fun i j => regrade (a i j))) (hb2 : Contains SS m2 B (fun i j => regrade (b i j))) (hc2 : Contains SS m2 C (fun i j => regrade (c i j)))
    (hsum : ∀ i j k, i < D.rows → j < D.cols → k < A.cols →
      NotSmall F ((a i k).real * (b k j).real + (fmaSum (fun k => a i k) (fun k => b k j) Arith.zero k).real))
    (hmul : ∀ i j, i < D.rows → j < D.cols → NotSmall F ((fmaSum (fun k => a i k) (fun k => b k j) Arith.zero A.cols).real * alpha.real))
    (hadd : ∀ i j, i < D.rows → j < D.cols →
      NotSmall F (beta.real * (c i j).real + (Bin.mul (fmaSum (fun k => a i k) (fun k => b k j) Arith.zero A.cols) alpha).real)) :
    ∃ m' m2' d, gemmCall SS alpha A B beta C D m = .ok () m' ∧ gemmCall SS (regrade alpha) A B (regrade beta) C D m2 = .ok () m2' ∧
      Contains SS m' D d ∧ Contains SS m2' D (fun i j => regrade (d i j)) := by
  obtain ⟨m', e, e1⟩ := C04_gemm_bitwise alpha beta h hs ha hb hc
  obtain ⟨m2', f, f1⟩ := C04_gemm_bitwise (regrade alpha) (regrade beta) h2 hs ha2 hb2 hc2
  refine ⟨m', m2', _, e, f, e1, fun i j hi hj => ?_⟩
  rw [f1 i j hi hj]
  congr 1
  show Bin.fma (regrade beta) (regrade (c i j)) (Bin.mul (fmaSum (fun k => regrade (a i k)) (fun k => regrade (b k j)) (regrade (Arith.zero : Bin F)) A.cols) (regrade alpha)) =
    regrade (Bin.fma beta (c i j) (Bin.mul (fmaSum (fun k => a i k) (fun k => b k j) Arith.zero A.cols) alpha))
  rw [regrade_fma (fun _ _ _ => hadd i j hi hj), regrade_mul (fun _ _ => hmul i j hi hj),
    regrade_fmaSum (a := fun k => a i k) (b := fun k => b k j) A.cols (fun k hk _ _ _ => hsum i j k hi hj hk)]

end Blast
