import Verif.BinaryLuStuck
import Verif.Props.BinarySolve
/- Concrete cases meeting the hypotheses of these theorems: Verif/Cases/BinaryLu.lean. -/
/-
Property C87: LU factorization in a binary format of IEEE 754, with overflow and underflow.
-/
set_option linter.unusedSectionVars false
namespace Blast
open Finset Prog
variable {F : Format}

/-! ### Specification -/

/-- If no element of the factors `b` is an infinity or a NaN, then none of `a` was, and L * U is close to P * A, element by element: `w * min m n`
roundings and underflows by at most `(3 * min m n + |u_jj|) * eta`. The multipliers are at most `κ`, the pivots are not zero. -/
def IsBinLU (F : Format) (w : Nat) (κ : ℝ) (m n : Nat) (a b : Nat → Nat → Bin F) (p : Nat → Nat) : Prop :=
  (∀ i j, i < m → j < n → (b i j).Finite) →
    (∀ i j, i < m → j < n → (a i j).Finite) ∧ (∀ k, k < min m n → (b k k).real ≠ 0) ∧
    (∀ i k, k < min m n → k < i → i < m → |(b i k).real| ≤ κ) ∧
    ∀ i j, i < m → j < n →
      |rowSwaps p 0 (min m n) (fun i j => (a i j).real) i j -
          ∑ k ∈ range (min m n), tri .lower true (fun i j => (b i j).real) i k * tri .upper false (fun i j => (b i j).real) k j| ≤
        ((1 / (1 - F.u)) ^ (w * min m n) - 1) *
            ∑ k ∈ range (min m n), |tri .lower true (fun i j => (b i j).real) i k| * |tri .upper false (fun i j => (b i j).real) k j| +
          (1 / (1 - F.u)) ^ (w * min m n) * (3 * min m n + if j < min m n then |(b j j).real| else 0) * F.eta

/-- What a factorization routine does: it returns or throws invalid_argument, and nothing but the elements of the matrix changes. -/
structure BinLuOutcome (F : Format) (w : Nat) (κ : ℝ) (SS m n : Nat) (A : MPtr) (a : Nat → Nat → Bin F) (ip : Nat → Nat)
    (r : Res (Bin F) (Nat → Nat)) (m0 : Mem (Bin F)) : Prop where
  either : (∃ p m', r = .ok p m' ∧ (∀ y, ¬ Cells SS A m n y → m' y = m0 y)) ∨
    (∃ m', r = .throw .invalidArgument m' ∧ (∀ y, ¬ Cells SS A m n y → m' y = m0 y))
  ret : ∀ p m', r = .ok p m' → ∃ b, Holds SS m' A m n b ∧ IsBinLU F w κ m n a b p ∧
    (∀ k, k < min m n → k ≤ p k ∧ p k < m) ∧ (∀ k, min m n ≤ k → p k = ip k)

/-- Matrices with elements at most `μ`: if `ρ ^ min m n * (μ + 2 * eta)` is in the range of the format, nothing overflows - the factors are
finite, with multipliers at most 1 and elements of U bounded by the growth factor - and the routine returns unless there is a singular
matrix nearby. -/
structure BinLuSafe (F : Format) (ρ μ : ℝ) (SS m n : Nat) (A : MPtr) (a : Nat → Nat → Bin F) (r : Res (Bin F) (Nat → Nat)) : Prop where
  finite : ∀ p m', r = .ok p m' → ∃ b, Holds SS m' A m n b ∧ (∀ i j, i < m → j < n → (b i j).Finite) ∧
    (∀ i k, k < min m n → k < i → i < m → |(b i k).real| ≤ 1) ∧
    (∀ i j, i < m → j < n → i ≤ j → |(b i j).real| ≤ ρ ^ min m n * (μ + 2 * F.eta))
  full : RobustIndep (((1 / (1 - F.u)) ^ min m n - 1) * (min m n * (ρ ^ min m n * (μ + 2 * F.eta))) +
      (1 / (1 - F.u)) ^ min m n * (3 * min m n + ρ ^ min m n * (μ + 2 * F.eta)) * F.eta) m n (fun i j => (a i j).real) → ∃ p m', r = .ok p m'

/-! ### Proofs -/

theorem isBinLU_of {w : Nat} {κ : ℝ} {m n : Nat} {a b : Nat → Nat → Bin F} {p : Nat → Nat}
    (h : (∀ i j, i < m → j < n → (b i j).Finite) → (∀ i j, i < m → j < n → (a i j).Finite) ∧
      LUEta (bu F.u) F.eta (w * min m n) (3 * min m n) m n (min m n) (rowSwaps p 0 (min m n) (fun i j => (a i j).real)) (fun i j => (b i j).real) ∧
      (∀ i q, q < min m n → q < i → i < m → |(b i q).real| ≤ κ)) : IsBinLU F w κ m n a b p := by
  intro hf
  obtain ⟨h1, h2, h3⟩ := h hf
  refine ⟨h1, h2.nz, h3, fun i j hi hj => ?_⟩
  have := h2.near i j hi hj
  unfold luY luYa at this
  have hc : ¬ (min m n ≤ i ∧ min m n ≤ j) := by omega
  rw [if_neg hc, if_neg hc, add_zero, add_zero, one_add_bu F.u_lt_one] at this
  simp only [abs_mul] at this
  push_cast at this ⊢
  exact this

theorem binLuOutcome_of {w : Nat} {κ : ℝ} {SS m n : Nat} {A : MPtr} {a : Nat → Nat → Bin F} {ip : Nat → Nat} {m0 : Mem (Bin F)} {q : Prog (Bin F) (Nat → Nat)}
    {r : (Nat → Nat → Bin F) × Option (Nat → Nat)} (h : RunsLu (SS := SS) (M := m) (N := n) A q m0 m0 r)
    (hr : ∀ p, r = (r.1, some p) → IsBinLU F w κ m n a r.1 p ∧ (∀ k, k < min m n → k ≤ p k ∧ p k < m) ∧ (∀ k, min m n ≤ k → p k = ip k)) :
    BinLuOutcome F w κ SS m n A a ip (q m0) m0 := by
  obtain ⟨b, o⟩ := r
  rcases h with ⟨p, m', e, e1, e2⟩ | ⟨x, m', e, rfl, e1, e2⟩
  · dsimp only at e1 e2
    subst e1
    refine ⟨Or.inl ⟨p, m', e, e2.frame⟩, fun p' m'' h' => ?_⟩
    rw [e] at h'
    injection h' with h1 h2
    subst h1; subst h2
    exact ⟨b, e2.holds, hr p rfl⟩
  · refine ⟨Or.inr ⟨m', e, e2.frame⟩, fun p' m'' h' => ?_⟩
    rw [e] at h'
    cases h'

theorem finState_zero {m n : Nat} {a : Nat → Nat → Bin F} {μ : ℝ} (hf : ∀ i j, i < m → j < n → (a i j).Finite) (hn : ∀ i j, i < m → j < n → (a i j).IsNum)
    (hμ : ∀ i j, i < m → j < n → |(a i j).real| ≤ μ) : Bin.FinState F m n 0 (μ + 2 * F.eta) a :=
  fun i j hi hj => ⟨hf i j hi hj, hn i j hi hj, by rw [if_neg (by omega)]; have := hμ i j hi hj; linarith⟩

theorem binLuSafe_of {ρ μ : ℝ} {SS m n : Nat} {A : MPtr} {a : Nat → Nat → Bin F} {m0 : Mem (Bin F)} {q : Prog (Bin F) (Nat → Nat)} (hρ : 0 ≤ ρ) (hμ : 0 ≤ μ)
    {r : (Nat → Nat → Bin F) × Option (Nat → Nat)} (h : RunsLu (SS := SS) (M := m) (N := n) A q m0 m0 r)
    (hr : ∀ p, r = (r.1, some p) → Bin.FinState F m n (min m n) (ρ ^ min m n * (μ + 2 * F.eta)) r.1)
    (hs : r = (r.1, none) → ∃ K N' b P, Bin.Stuck F 1 m n K N' (ρ ^ min m n * (μ + 2 * F.eta)) a b P) :
    BinLuSafe F ρ μ SS m n A a (q m0) := by
  have he := F.eta_pos
  obtain ⟨b, o⟩ := r
  rcases h with ⟨p, m', e, e1, e2⟩ | ⟨x, m', e, rfl, e1, e2⟩
  · dsimp only at e1 e2
    subst e1
    refine ⟨fun p' m'' h' => ?_, fun _ => ⟨p, m', e⟩⟩
    rw [e] at h'
    injection h' with h1 h2
    subst h1; subst h2
    have hb := hr p rfl
    refine ⟨b, e2.holds, fun i j hi hj => (hb i j hi hj).1, fun i k hk hki hi => ?_, fun i j hi hj hij => ?_⟩
    · have := (hb i k hi (by omega)).2.2
      rwa [if_pos ⟨hk, hki⟩] at this
    · have := (hb i j hi hj).2.2
      rw [if_neg (by omega)] at this
      dsimp only at this
      linarith
  · dsimp only at e1
    subst e1
    obtain ⟨K, N', c, P, hst⟩ := hs rfl
    have := hst.singular (mul_nonneg (pow_nonneg hρ _) (by linarith))
    unfold Bin.stuckDist at this
    rw [Nat.one_mul] at this
    exact ⟨fun p' m'' h' => by (rw [e] at h'; cases h'), fun hrob => absurd hrob this⟩

/-- the update of the row-major getrf: `A(i, j) -= A(i, k) * A(k, j)` -/
theorem Bin.etaOps_sub {dv : Bin F → Bin F → Bin F} {upd : Bin F → Bin F → Bin F → Bin F} {w0 : Nat} {κ : ℝ} (h0 : 0 < w0) (h : Bin.EtaOps F w0 κ dv upd) :
    Bin.EtaOps F w0 κ dv (updSub : Bin F → Bin F → Bin F → Bin F) := by
  have hv := bu_pos (F := F)
  have he := F.eta_pos
  refine ⟨h.dv_num, h.dv_inv, h.dv_le, fun l u a => Bin.isNum_add _ _, fun l u a hl ha hf => ?_⟩
  obtain ⟨h1, h2, h3⟩ := Bin.sub_inv hf
  obtain ⟨k1, k2, k3⟩ := Bin.mul_inv h2
  refine ⟨k1, k2, h1, ?_⟩
  have h5 := back_eta F.u_pos.le F.u_lt_one h3
  change |_ - (updSub l u a).real| ≤ bu F.u * |(updSub l u a).real| + _ at h5
  have hub : F.u ≤ bu F.u := le_bu F.u_pos.le F.u_lt_one
  set q := (Arith.mul l u).real
  change |q - _| ≤ _ at k3
  change |a.real - q - _| ≤ _ at h5
  have h6 := abs_add_le (a.real - q - (updSub l u a).real) (q - l.real * u.real)
  rw [show a.real - q - (updSub l u a).real + (q - l.real * u.real) = a.real - (l.real * u.real + (updSub l u a).real) by ring] at h6
  have h7 : F.u * |l.real * u.real| ≤ bu F.u * |l.real * u.real| := mul_le_mul_of_nonneg_right hub (abs_nonneg _)
  have h8 : 0 ≤ bu F.u * F.eta := by positivity
  have h9 := eta_mono (A := |l.real * u.real| + |(updSub l u a).real|) (d := 0) hv he.le (add_nonneg (abs_nonneg _) (abs_nonneg _)) le_rfl
    (w := 1) (w' := w0) (c := 3) (c' := 3) h0 le_rfl
  rw [add_zero, pow_one] at h9
  push_cast at h9
  refine le_trans ?_ h9
  linarith

theorem elimRun_eta {dv : Bin F → Bin F → Bin F} {w0 : Nat} {κ : ℝ} (ho : Bin.EtaOps F w0 κ dv updSub)
    (hz : ∀ x y : Bin F, y.IsNum → y.Finite → (dv x y).Finite → y.real ≠ 0) {m n : Nat} {a : Nat → Nat → Bin F} (hn : ∀ i j, i < m → j < n → (a i j).IsNum) (K : Nat) (hK : K < m) (hKn : K ≤ n) :
    (∀ i j, i < m → j < n → (elimRun dv a K i j).IsNum) ∧
    ((∀ i j, i < m → j < n → (elimRun dv a K i j).Finite) → (∀ i j, i < m → j < n → (a i j).Finite) ∧
      LUEta (bu F.u) F.eta (w0 * K) (3 * K) m n K (fun i j => (a i j).real) (fun i j => (elimRun dv a K i j).real)) := by
  induction K with
  | zero => exact ⟨hn, fun hf => ⟨hf, by rw [Nat.mul_zero, Nat.mul_zero]; exact LUEta.zero _ _ m n _⟩⟩
  | succ K ih =>
    obtain ⟨i1, i2⟩ := ih (by omega) (by omega)
    refine ⟨fun i j hi hj => Bin.elim_isNum ho K (i1 i j hi hj), fun hf => ?_⟩
    have hkk : (elimRun dv a K K K).Finite := by
      have := hf K K (by omega) (by omega)
      change (elim dv updSub K (elimRun dv a K) K K).Finite at this
      unfold elim at this
      rwa [if_neg (by omega)] at this
    have hne : (elimRun dv a K K K).real ≠ 0 := by
      have := hf (K + 1) K hK (by omega)
      change (elim dv updSub K (elimRun dv a K) (K + 1) K).Finite at this
      unfold elim at this
      rw [if_pos (by omega), if_pos rfl] at this
      exact hz _ _ (i1 K K (by omega) (by omega)) hkk this
    obtain ⟨f1, f2⟩ := Bin.elim_inv ho (w := w0 * K) (c := 3 * K) (b := fun i j => (a i j).real) (show K < m by omega) (show K < n by omega) i1 (fun e => by
      generalize elimRun dv a K K K = z at e hne
      rcases z with ⟨s, y⟩ | _ | _
      · change decide ((Bin.fin s y : Bin F).real = (Bin.fin false 0 : Bin F).real) = true at e
        rw [decide_eq_true_eq] at e
        exact hne (by rw [e]; simp [Bin.real])
      · exact hne rfl
      · exact hne rfl) hf
    obtain ⟨g1, g2⟩ := i2 f1
    refine ⟨g1, ?_⟩
    rw [show w0 * (K + 1) = w0 + w0 * K by ring, show 3 * (K + 1) = 3 + 3 * K by ring]
    exact f2 g2

theorem luY_last {m : Nat} (a : Nat → Nat → ℝ) {i j : Nat} (hi : i < m + 1) :
    luY m a i j = ∑ q ∈ range (m + 1), tri .lower true a i q * tri .upper false a q j ∧
    luYa m a i j = ∑ q ∈ range (m + 1), |tri .lower true a i q * tri .upper false a q j| := by
  unfold luY luYa
  rw [sum_range_succ, sum_range_succ]
  have e : tri .lower true a i m * tri .upper false a m j = if m ≤ i ∧ m ≤ j then a i j else 0 := by
    rw [tri_eq_lower, tri_eq_upper]
    by_cases h1 : i = m
    · subst h1
      rw [if_pos rfl, one_mul]
      exact if_congr (by omega) rfl rfl
    · rw [if_neg h1, if_neg (show ¬ m < i by omega), zero_mul, if_neg (by omega)]
  rw [e]
  refine ⟨rfl, ?_⟩
  by_cases hc : m ≤ i ∧ m ≤ j
  · rw [if_pos hc, if_pos hc]
  · rw [if_neg hc, if_neg hc, abs_zero]

/-! ### Theorems -/

/-- **C87** (getf2, column-major). -/
theorem C87_getf2 (hW : F.Wide) {SS TR m n : Nat} {A : MPtr} {m0 : Mem (Bin F)} (hp : LuPre SS TR m n A m0) {a : Nat → Nat → Bin F}
    (h : Holds SS m0 A m n a) (hn : ∀ i j, i < m → j < n → (a i j).IsNum) (ip : Nat → Nat) :
    BinLuOutcome F 1 1 SS m n A a ip (getf2Ptr SS TR m n A ip m0) m0 := by
  refine binLuOutcome_of (getf2Ptr_det hp h ip) (fun p hr => ?_)
  obtain ⟨-, g2, g3, g4⟩ := Bin.luRun_eta (n := n) (Bin.etaOps_col hW) hn (min m n) (by omega) (by omega) (luFull_some _ hr)
  exact ⟨isBinLU_of g4, g2, g3⟩

/-- **C87** (getf2, column-major, no overflow). -/
theorem C87_getf2_safe (hW : F.Wide) {SS TR m n : Nat} {A : MPtr} {m0 : Mem (Bin F)} (hp : LuPre SS TR m n A m0) {a : Nat → Nat → Bin F}
    (h : Holds SS m0 A m n a) (hn : ∀ i j, i < m → j < n → (a i j).IsNum) (ip : Nat → Nat) (hf : ∀ i j, i < m → j < n → (a i j).Finite) {μ : ℝ} (h0 : 0 ≤ μ)
    (hμ : ∀ i j, i < m → j < n → |(a i j).real| ≤ μ) (hb : (2 * (1 + F.u)) ^ min m n * (μ + 2 * F.eta) < F.big) :
    BinLuSafe F (2 * (1 + F.u)) μ SS m n A a (getf2Ptr SS TR m n A ip m0) := by
  have hu := F.u_pos
  have he := F.eta_pos
  refine binLuSafe_of (by linarith) h0 (getf2Ptr_det hp h ip) (fun p hr => ?_) (fun hr => ?_)
  · exact Bin.luRun_fin (Bin.etaOps_col hW) (Bin.fwdOps_col hW) (by linarith) (finState_zero hf hn hμ) (min m n) (by omega) (by omega) hb (luFull_some _ hr)
  · exact Bin.luFull_stuck (Bin.etaOps_col hW) (Bin.fwdOps_col hW) (by linarith) (finState_zero hf hn hμ) hb hr

/-- **C87** (getf2, row-major), where Blaze divides the column by the pivot. -/
theorem C87_getf2_row_major (hW : F.Wide) {SS : Nat} (hSS : 0 < SS) {A : Mat} (hd : A.p.panel = false) {m0 : Mem (Bin F)} (hinj : Inj SS A.p A.rows A.cols)
    {a : Nat → Nat → Bin F} (h : Holds SS m0 A.p A.rows A.cols a) (hn : ∀ i j, i < A.rows → j < A.cols → (a i j).IsNum) (ip : Nat → Nat) :
    BinLuOutcome F 1 1 SS A.rows A.cols A.p a ip (getf2Row SS Arith.div A ip m0) m0 := by
  refine binLuOutcome_of (getf2Row_det hSS _ hd hinj h ip) (fun p hr => ?_)
  obtain ⟨-, g2, g3, g4⟩ := Bin.luRun_eta (n := A.cols) (Bin.etaOps_row hW) hn (min A.rows A.cols) (by omega) (by omega) (luFull_some _ hr)
  exact ⟨isBinLU_of g4, g2, g3⟩

/-- **C87** (getf2, row-major, no overflow). -/
theorem C87_getf2_row_major_safe (hW : F.Wide) {SS : Nat} (hSS : 0 < SS) {A : Mat} (hd : A.p.panel = false) {m0 : Mem (Bin F)} (hinj : Inj SS A.p A.rows A.cols)
    {a : Nat → Nat → Bin F} (h : Holds SS m0 A.p A.rows A.cols a) (hn : ∀ i j, i < A.rows → j < A.cols → (a i j).IsNum) (ip : Nat → Nat)
    (hf : ∀ i j, i < A.rows → j < A.cols → (a i j).Finite) {μ : ℝ} (h0 : 0 ≤ μ) (hμ : ∀ i j, i < A.rows → j < A.cols → |(a i j).real| ≤ μ)
    (hb : (2 * (1 + F.u)) ^ min A.rows A.cols * (μ + 2 * F.eta) < F.big) :
    BinLuSafe F (2 * (1 + F.u)) μ SS A.rows A.cols A.p a (getf2Row SS Arith.div A ip m0) := by
  have hu := F.u_pos
  have he := F.eta_pos
  refine binLuSafe_of (by linarith) h0 (getf2Row_det hSS _ hd hinj h ip) (fun p hr => ?_) (fun hr => ?_)
  · exact Bin.luRun_fin (Bin.etaOps_row hW) (Bin.fwdOps_row hW) (by linarith) (finState_zero hf hn hμ) (min A.rows A.cols) (by omega) (by omega) hb (luFull_some _ hr)
  · exact Bin.luFull_stuck (Bin.etaOps_row hW) (Bin.fwdOps_row hW) (by linarith) (finState_zero hf hn hμ) hb hr

/-- **C87** (getf2, row-major), where Blaze multiplies the column by the reciprocal of the pivot, for formats whose exponent range is symmetric. -/
theorem C87_getf2_row_major_reciprocal (hW : F.Wide) (hp : 3 ≤ F.p) (hE : F.under = .gradual ∧ F.emin + F.emax ≤ 1) {SS : Nat} (hSS : 0 < SS) {A : Mat} (hd : A.p.panel = false)
    {m0 : Mem (Bin F)} (hinj : Inj SS A.p A.rows A.cols) {a : Nat → Nat → Bin F} (h : Holds SS m0 A.p A.rows A.cols a)
    (hn : ∀ i j, i < A.rows → j < A.cols → (a i j).IsNum) (ip : Nat → Nat) :
    BinLuOutcome F 7 (1 + 8 * F.u) SS A.rows A.cols A.p a ip (getf2Row SS (fun x y => Arith.mul x (Arith.div Arith.one y)) A ip m0) m0 := by
  refine binLuOutcome_of (getf2Row_det hSS _ hd hinj h ip) (fun p hr => ?_)
  obtain ⟨-, g2, g3, g4⟩ := Bin.luRun_eta (n := A.cols) (Bin.etaOps_recip hW hp hE) hn (min A.rows A.cols) (by omega) (by omega) (luFull_some _ hr)
  exact ⟨isBinLU_of g4, g2, g3⟩

/-- **C87** (getrf, column-major). -/
theorem C87_getrf (hW : F.Wide) {SS TR m n : Nat} {A : MPtr} {m0 : Mem (Bin F)} (hp : GetrfPre SS TR m n A m0) {a : Nat → Nat → Bin F}
    (h : Holds SS m0 A m n a) (hn : ∀ i j, i < m → j < n → (a i j).IsNum) (ip : Nat → Nat) :
    BinLuOutcome F 1 1 SS m n A a ip (getrfPtr SS TR m n A ip m0) m0 := by
  refine binLuOutcome_of (det_getrfPtr hp ip h) (fun p hr => ?_)
  have hst := Bin.getrfFull_state hW (Nat.mul_pos hp.tr hp.ss) hn hr
  exact ⟨isBinLU_of (by rw [Nat.one_mul]; exact hst.fin), hst.piv, hst.rest⟩

/-- **C87** (getrf, column-major, no overflow). -/
theorem C87_getrf_safe (hW : F.Wide) {SS TR m n : Nat} {A : MPtr} {m0 : Mem (Bin F)} (hp : GetrfPre SS TR m n A m0) {a : Nat → Nat → Bin F}
    (h : Holds SS m0 A m n a) (hn : ∀ i j, i < m → j < n → (a i j).IsNum) (ip : Nat → Nat) (hf : ∀ i j, i < m → j < n → (a i j).Finite) {μ : ℝ} (h0 : 0 ≤ μ)
    (hμ : ∀ i j, i < m → j < n → |(a i j).real| ≤ μ) (hb : (2 * (1 + F.u) ^ 2) ^ min m n * (μ + 2 * F.eta) < F.big) :
    BinLuSafe F (2 * (1 + F.u) ^ 2) μ SS m n A a (getrfPtr SS TR m n A ip m0) := by
  have hu := F.u_pos
  have he := F.eta_pos
  refine binLuSafe_of (by positivity) h0 (det_getrfPtr hp ip h) (fun p hr => ?_) (fun hr => ?_)
  · exact Bin.getrfFull_fin hW (Nat.mul_pos hp.tr hp.ss) (by linarith) hb (finState_zero hf hn hμ) hr
  · exact Bin.getrfFull_stuck hW (Nat.mul_pos hp.tr hp.ss) (by linarith) hb (finState_zero hf hn hμ) hr

/-- **C87** (getrf of a whole matrix object): with padding, tile size and pointers as the library computes them, a matrix of numbers at most `μ`
which is not close to a singular one is factorized without overflow and up to rounding and underflow. -/
theorem C87_getrf_matrix (hW : F.Wide) {SS : Nat} (hSS : 0 < SS) {m0 : Mem (Bin F)} {A : Container} (hd : A.isPanel = false)
    (hs : A.so = .columnMajor) (hl : Live SS m0 A) {a : Nat → Nat → Bin F} (h : Contains SS m0 A a) (ip : Nat → Nat)
    (hn : ∀ i j, i < A.rows → j < A.cols → (a i j).IsNum) (hf : ∀ i j, i < A.rows → j < A.cols → (a i j).Finite) {μ : ℝ} (h0 : 0 ≤ μ)
    (hμ : ∀ i j, i < A.rows → j < A.cols → |(a i j).real| ≤ μ) (hb : (2 * (1 + F.u) ^ 2) ^ min A.rows A.cols * (μ + 2 * F.eta) < F.big)
    (hrob : RobustIndep (((1 / (1 - F.u)) ^ min A.rows A.cols - 1) * (min A.rows A.cols * ((2 * (1 + F.u) ^ 2) ^ min A.rows A.cols * (μ + 2 * F.eta))) +
      (1 / (1 - F.u)) ^ min A.rows A.cols * (3 * min A.rows A.cols + (2 * (1 + F.u) ^ 2) ^ min A.rows A.cols * (μ + 2 * F.eta)) * F.eta) A.rows A.cols (fun i j => (a i j).real)) :
    ∃ p m' b, getrfPtr SS 1 A.rows A.cols (A.mptr SS) ip m0 = .ok p m' ∧ Contains SS m' A b ∧ (∀ i j, i < A.rows → j < A.cols → (b i j).Finite) ∧
      IsBinLU F 1 1 A.rows A.cols a b p ∧ (∀ k, k < min A.rows A.cols → k ≤ p k ∧ p k < A.rows) ∧ OnlyElemsChange SS m0 m' A := by
  have h1 := C87_getrf hW (LuPre.of_live hSS hd hs hl) h.holds hn ip
  have h2 := C87_getrf_safe hW (LuPre.of_live hSS hd hs hl) h.holds hn ip hf h0 hμ hb
  obtain ⟨p, m', e⟩ := h2.full hrob
  obtain ⟨b, c1, c2, c3, -⟩ := h1.ret p m' e
  obtain ⟨b', d1, d2, -⟩ := h2.finite p m' e
  have hbb : ∀ i j, i < A.rows → j < A.cols → b i j = b' i j := fun i j hi hj => Option.some.inj ((c1 i j hi hj).symm.trans (d1 i j hi hj))
  have hfr : ∀ y, ¬ Cells SS (A.mptr SS) A.rows A.cols y → m' y = m0 y := by
    rcases h1.either with ⟨p', m'', e', hy⟩ | ⟨m'', e', -⟩
    · rw [e] at e'
      injection e' with e1 e2
      subst e2
      exact hy
    · rw [e] at e'; cases e'
  refine ⟨p, m', b, e, fun i j hi hj => ?_, fun i j hi hj => by rw [hbb i j hi hj]; exact d2 i j hi hj, c2, c3, fun y hy => ?_⟩
  · rw [Container.addr_eq_mptr]; exact c1 i j hi hj
  · exact hfr y (fun hc => hy ((cells_iff A y).1 hc))

/-- **C87** (getrf, row-major): it always returns and makes no interchanges. If no element of the result is an infinity or a NaN, then none of A was, and
L * U is close to A; here `w` is 1 if Blaze divides the column by the pivot, 7 if it multiplies with the reciprocal. The multipliers are not bounded. -/
theorem C87_getrf_row_major (hW : F.Wide) (hp : 3 ≤ F.p) (hE : F.under = .gradual ∧ F.emin + F.emax ≤ 1) {SS : Nat} {dv : Bin F → Bin F → Bin F} {w : Nat}
    (hdv : (dv = Arith.div ∧ w = 1) ∨ ((dv = fun x y => Arith.mul x (Arith.div Arith.one y)) ∧ w = 7)) {A : Mat}
    {m0 : Mem (Bin F)} (hinj : Inj SS A.p A.rows A.cols) {a : Nat → Nat → Bin F} (h : Holds SS m0 A.p A.rows A.cols a)
    (hn : ∀ i j, i < A.rows → j < A.cols → (a i j).IsNum) (ip : Nat → Nat) :
    ∃ p m' b, getrfRow SS dv A ip m0 = .ok p m' ∧ (∀ k, k < min A.rows A.cols → p k = k) ∧
      (∀ k, min A.rows A.cols ≤ k → p k = ip k) ∧ Holds SS m' A.p A.rows A.cols b ∧
      (∀ y, ¬ Cells SS A.p A.rows A.cols y → m' y = m0 y) ∧
      ((∀ i j, i < A.rows → j < A.cols → (b i j).Finite) → (∀ i j, i < A.rows → j < A.cols → (a i j).Finite) ∧
        ∀ i j, i < A.rows → j < A.cols →
          |(a i j).real - ∑ k ∈ range (min A.rows A.cols), tri .lower true (fun i j => (b i j).real) i k * tri .upper false (fun i j => (b i j).real) k j| ≤
            ((1 / (1 - F.u)) ^ (w * min A.rows A.cols) - 1) *
                ∑ k ∈ range (min A.rows A.cols), |tri .lower true (fun i j => (b i j).real) i k| * |tri .upper false (fun i j => (b i j).real) k j| +
              (1 / (1 - F.u)) ^ (w * min A.rows A.cols) * (3 * min A.rows A.cols + if j < min A.rows A.cols then |(b j j).real| else 0) * F.eta) := by
  have hv := Bin.bu_pos (F := F)
  have he := F.eta_pos
  obtain ⟨ho, hz⟩ : (∃ κ, Bin.EtaOps F w κ dv updSub) ∧ ∀ x y : Bin F, y.IsNum → y.Finite → (dv x y).Finite → y.real ≠ 0 := by
    rcases hdv with ⟨rfl, rfl⟩ | ⟨rfl, rfl⟩
    · exact ⟨⟨_, Bin.etaOps_sub (by decide) (Bin.etaOps_col hW)⟩, fun x y _ hy hf => (Bin.div_inv hy hf).2.1⟩
    · exact ⟨⟨_, Bin.etaOps_sub (by decide) (Bin.etaOps_recip hW hp hE)⟩, fun x y hny hy hf => (Bin.recip_inv hW hp hE hny hy (Bin.mul_inv hf).2.1).1⟩
  obtain ⟨κ, ho⟩ := ho
  obtain ⟨p, m', h1, h2, rfl⟩ := runs_getrfRow dv hinj h ip
  refine ⟨_, m', _, h1, fun k hk => if_pos hk, fun k hk => if_neg (by omega), h2.holds, h2.frame, fun hf => ?_⟩
  by_cases hmn : A.rows ≤ A.cols
  · rw [Nat.min_eq_left hmn] at hf ⊢
    by_cases hm0 : A.rows = 0
    · exact ⟨fun i j hi => by omega, fun i j hi => by omega⟩
    obtain ⟨r, hr⟩ : ∃ r, A.rows = r + 1 := ⟨A.rows - 1, by omega⟩
    have e : ∀ i j, i < A.rows → elimRun dv a A.rows i j = elimRun dv a r i j := by
      intro i j hi
      rw [hr]
      show elim dv updSub r (elimRun dv a r) i j = _
      unfold elim
      rw [if_neg (by omega)]
    obtain ⟨-, g⟩ := elimRun_eta ho hz hn r (by omega) (by omega)
    obtain ⟨g1, g2⟩ := g (fun i j hi hj => by rw [← e i j hi]; exact hf i j hi hj)
    refine ⟨g1, fun i j hi hj => ?_⟩
    have hc := (LUEta.congr g2 (by omega) (by omega) (fun i j _ _ => rfl) (a' := fun i j => (elimRun dv a A.rows i j).real) (fun i j hi _ => by rw [e i j hi])).near i j hi hj
    obtain ⟨l1, l2⟩ := luY_last (m := r) (fun i j => (elimRun dv a A.rows i j).real) (i := i) (j := j) (by omega)
    rw [l1, l2, ← hr] at hc
    simp only [abs_mul] at hc
    refine le_trans hc ?_
    have hd : (if j < r then |(elimRun dv a A.rows j j).real| else 0) ≤ if j < A.rows then |(elimRun dv a A.rows j j).real| else 0 := by
      by_cases hj1 : j < r
      · rw [if_pos hj1, if_pos (by omega)]
      · rw [if_neg hj1]; split <;> positivity
    have hS : 0 ≤ ∑ k ∈ range A.rows, |tri .lower true (fun i j => (elimRun dv a A.rows i j).real) i k| * |tri .upper false (fun i j => (elimRun dv a A.rows i j).real) k j| :=
      sum_nonneg fun _ _ => mul_nonneg (abs_nonneg _) (abs_nonneg _)
    have hd0 : 0 ≤ if j < r then |(elimRun dv a A.rows j j).real| else 0 := by split <;> positivity
    refine le_trans (eta_mono (w' := w * A.rows) (c' := 3 * A.rows) hv he.le hS hd0 (Nat.mul_le_mul_left _ (by omega)) (by omega)) ?_
    rw [one_add_bu F.u_lt_one]
    push_cast
    refine add_le_add le_rfl (mul_le_mul_of_nonneg_right (mul_le_mul_of_nonneg_left (by linarith) ?_) he.le)
    rw [← one_add_bu F.u_lt_one]; positivity
  · rw [Nat.min_eq_right (by omega)] at hf ⊢
    obtain ⟨-, g⟩ := elimRun_eta ho hz hn A.cols (by omega) le_rfl
    obtain ⟨g1, g2⟩ := g hf
    refine ⟨g1, fun i j hi hj => ?_⟩
    have := g2.near i j hi hj
    unfold luY luYa at this
    have hc : ¬ (A.cols ≤ i ∧ A.cols ≤ j) := by omega
    rw [if_neg hc, if_neg hc, add_zero, add_zero, one_add_bu F.u_lt_one] at this
    simp only [abs_mul] at this
    push_cast at this ⊢
    exact this

/-- **C87** (formats): double and float have a symmetric exponent range and enough digits. -/
theorem C87_formats : (binary64.Wide ∧ 3 ≤ binary64.p ∧ binary64.emin + binary64.emax ≤ 1) ∧
    (binary32.Wide ∧ 3 ≤ binary32.p ∧ binary32.emin + binary32.emax ≤ 1) := ⟨⟨C86_wide.1, by decide, by decide⟩, ⟨C86_wide.2, by decide, by decide⟩⟩

end Blast
