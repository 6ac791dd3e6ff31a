import Mathlib.Algebra.Order.BigOperators.Group.Multiset
import Mathlib.Algebra.BigOperators.Group.Multiset.Basic
import Mathlib.Tactic.Positivity
import Mathlib.Tactic.Linarith
import Mathlib.Tactic.Abel
import Verif.FastMath
import Verif.Props.ReferenceAccuracy
import Verif.Props.Transpose
/- Concrete cases meeting the hypotheses of these theorems: Verif/Cases/FastMath.lean. -/
/-
Property C95: the accuracy of the scalar loops does not depend on how the compiler evaluates them.
-/
set_option linter.unusedSectionVars false
namespace Blast
open Finset Prog Reg

section
variable {V : Type} [Field V] [LinearOrder V] [IsStrictOrderedRing V] [Arith V] {u : V} [hR : Rounded u]

/-- the sum of the moduli -/
def absSum (T : Multiset V) : V := (T.map (fun x => |x|)).sum

theorem absSum_add (S T : Multiset V) : absSum (S + T) = absSum S + absSum T := by
  unfold absSum; rw [Multiset.map_add, Multiset.sum_add]
theorem absSum_cons (x : V) (T : Multiset V) : absSum (x ::ₘ T) = |x| + absSum T := by
  unfold absSum; rw [Multiset.map_cons, Multiset.sum_cons]
theorem absSum_neg (T : Multiset V) : absSum (T.map (fun x => -x)) = absSum T := by
  unfold absSum; rw [Multiset.map_map]; simp only [Function.comp_def, abs_neg]
theorem absSum_nonneg (T : Multiset V) : 0 ≤ absSum T := by
  refine Multiset.sum_nonneg (fun x hx => ?_)
  obtain ⟨y, -, rfl⟩ := Multiset.mem_map.1 hx
  exact abs_nonneg y
theorem abs_sum_le_absSum (T : Multiset V) : |T.sum| ≤ absSum T := by
  induction T using Multiset.induction_on with
  | empty => simp [absSum]
  | cons x T ih => rw [Multiset.sum_cons, absSum_cons]; exact le_trans (abs_add_le _ _) (by linarith)
theorem sum_neg_map (T : Multiset V) : (T.map (fun x => -x)).sum = -T.sum := by
  induction T using Multiset.induction_on with
  | empty => simp
  | cons x T ih => rw [Multiset.map_cons, Multiset.sum_cons, Multiset.sum_cons, ih]; ring

/-- one more rounding -/
private theorem err_step {x X z A : V} {h : Nat} (hA : |X| ≤ A) (h1 : |x - X| ≤ ((1 + u) ^ h - 1) * A) (h2 : |z - x| ≤ u * |x|) :
    |z - X| ≤ ((1 + u) ^ (h + 1) - 1) * A := by
  have hu := hR.u_nonneg
  have h3 : |x| ≤ (1 + u) ^ h * A := by
    have := abs_add_le (x - X) X
    rw [sub_add_cancel] at this
    linarith
  have h4 := mul_le_mul_of_nonneg_left h3 hu
  have h5 := abs_add_le (z - x) (x - X)
  rw [sub_add_sub_cancel] at h5
  rw [pow_succ]
  linarith

private theorem err_mono {x X A : V} {h k : Nat} (hk : h ≤ k) (hA : 0 ≤ A) (h1 : |x - X| ≤ ((1 + u) ^ h - 1) * A) : |x - X| ≤ ((1 + u) ^ k - 1) * A := by
  have hu := hR.u_nonneg
  refine le_trans h1 (mul_le_mul_of_nonneg_right ?_ hA)
  have := pow_le_pow_right₀ (show 1 ≤ 1 + u by linarith) hk
  linarith

/-- the error of evaluating a sum, in any order -/
theorem SumTree.run_err (s : SumTree V) : |s.run - s.terms.sum| ≤ ((1 + u) ^ s.height - 1) * absSum s.terms := by
  have hu := hR.u_nonneg
  induction s with
  | num v => simp [run, terms, height]
  | prod a b =>
    show |Arith.mul a b - ({a * b} : Multiset V).sum| ≤ ((1 + u) ^ 1 - 1) * absSum {a * b}
    rw [Multiset.sum_singleton, show absSum ({a * b} : Multiset V) = |a * b| by simp [absSum], pow_one, add_sub_cancel_left]
    exact hR.mul_err a b
  | neg s ih =>
    show |Arith.neg s.run - (s.terms.map (fun x => -x)).sum| ≤ ((1 + u) ^ s.height - 1) * absSum (s.terms.map (fun x => -x))
    rw [hR.neg_eq, sum_neg_map, absSum_neg, show -s.run - -s.terms.sum = -(s.run - s.terms.sum) by ring, abs_neg]
    exact ih
  | add s t ihs iht =>
    show |Arith.add s.run t.run - (s.terms + t.terms).sum| ≤ ((1 + u) ^ (max s.height t.height + 1) - 1) * absSum (s.terms + t.terms)
    refine err_step (abs_sum_le_absSum _) (x := s.run + t.run) ?_ (hR.add_err _ _)
    rw [Multiset.sum_add, absSum_add, show s.run + t.run - (s.terms.sum + t.terms.sum) = (s.run - s.terms.sum) + (t.run - t.terms.sum) by ring]
    refine le_trans (abs_add_le _ _) ?_
    rw [mul_add]
    exact add_le_add (err_mono (le_max_left _ _) (absSum_nonneg _) ihs) (err_mono (le_max_right _ _) (absSum_nonneg _) iht)
  | sub s t ihs iht =>
    show |Arith.sub s.run t.run - (s.terms + t.terms.map (fun x => -x)).sum| ≤ ((1 + u) ^ (max s.height t.height + 1) - 1) * absSum (s.terms + t.terms.map (fun x => -x))
    refine err_step (abs_sum_le_absSum _) (x := s.run - t.run) ?_ (hR.sub_err _ _)
    rw [Multiset.sum_add, absSum_add, sum_neg_map, absSum_neg,
      show s.run - t.run - (s.terms.sum + -t.terms.sum) = (s.run - s.terms.sum) + -(t.run - t.terms.sum) by ring]
    refine le_trans (abs_add_le _ _) ?_
    rw [mul_add, abs_neg]
    exact add_le_add (err_mono (le_max_left _ _) (absSum_nonneg _) ihs) (err_mono (le_max_right _ _) (absSum_nonneg _) iht)
  | fma a b s ih =>
    show |Arith.fma a b s.run - ((a * b) ::ₘ s.terms).sum| ≤ ((1 + u) ^ (s.height + 1) - 1) * absSum ((a * b) ::ₘ s.terms)
    refine err_step (abs_sum_le_absSum _) (x := a * b + s.run) ?_ (hR.fma_err _ _ _)
    rw [Multiset.sum_cons, absSum_cons, show a * b + s.run - (a * b + s.terms.sum) = s.run - s.terms.sum by ring, mul_add]
    have : 0 ≤ ((1 + u) ^ s.height - 1) * |a * b| := mul_nonneg (by have := one_le_pow₀ (n := s.height) (show 1 ≤ 1 + u by linarith); linarith) (abs_nonneg _)
    linarith
  | fnma a b s ih =>
    show |Arith.fnma a b s.run - ((-(a * b)) ::ₘ s.terms).sum| ≤ ((1 + u) ^ (s.height + 1) - 1) * absSum ((-(a * b)) ::ₘ s.terms)
    refine err_step (abs_sum_le_absSum _) (x := s.run - a * b) ?_ (hR.fnma_err _ _ _)
    rw [Multiset.sum_cons, absSum_cons, show s.run - a * b - (-(a * b) + s.terms.sum) = s.run - s.terms.sum by ring, mul_add]
    have : 0 ≤ ((1 + u) ^ s.height - 1) * |-(a * b)| := mul_nonneg (by have := one_le_pow₀ (n := s.height) (show 1 ≤ 1 + u by linarith); linarith) (abs_nonneg _)
    linarith

/-- the error of any evaluation of a sum of given terms -/
theorem Regroups.err {h : Nat} {T : Multiset V} {s : SumTree V} (hs : Regroups h T s) : |s.run - T.sum| ≤ ((1 + u) ^ h - 1) * absSum T := by
  obtain ⟨h1, z, h2⟩ := hs
  have e1 : s.terms.sum = T.sum := by rw [h2, Multiset.sum_add, Multiset.sum_replicate, smul_zero, add_zero]
  have e2 : absSum s.terms = absSum T := by
    rw [h2, absSum_add]
    unfold absSum
    rw [Multiset.map_replicate, Multiset.sum_replicate, abs_zero, smul_zero, add_zero]
  have := err_mono h1 (absSum_nonneg _) (SumTree.run_err (u := u) s)
  rwa [e1, e2] at this
end
/-! ### Running the loops -/
section
variable {V : Type} [Arith V]

/-- the values collected by the read loop -/
def collected (lo : Nat) (f : Nat → V) : Nat → Nat → V
  | 0 => fun _ => Arith.zero
  | n + 1 => put (collected lo f n) (lo + n) (f (lo + n))

theorem collected_eq (lo : Nat) (f : Nat → V) (n q : Nat) : collected lo f n q = if lo ≤ q ∧ q < lo + n then f q else Arith.zero := by
  induction n with
  | zero => rw [if_neg (by omega)]; rfl
  | succ n ih =>
    show put (collected lo f n) (lo + n) (f (lo + n)) q = _
    unfold put
    by_cases h : q = lo + n
    · rw [if_pos h, if_pos (by omega), h]
    · rw [if_neg h, ih]
      exact if_congr (by omega) rfl rfl

theorem reads_collect {lo hi : Nat} {addrA addrX : Nat → Int} {m : Mem V} (h : ∀ k, lo ≤ k → k < hi → (m (addrA k)).isSome = true ∧ (m (addrX k)).isSome = true) :
    Reads (foldFrom lo hi (fun k (ax : (Nat → V) × (Nat → V)) => do
      let a ← Prog.read (addrA k)
      let x ← Prog.read (addrX k)
      pure (put ax.1 k a, put ax.2 k x)) (fun _ => Arith.zero, fun _ => Arith.zero)) m
      (collected lo (fun k => val m (addrA k)) (hi - lo), collected lo (fun k => val m (addrX k)) (hi - lo)) := by
  unfold foldFrom
  refine reads_foldN (fun k => (collected lo (fun k => val m (addrA k)) k, collected lo (fun k => val m (addrX k)) k)) rfl ?_
  intro k hk
  obtain ⟨h1, h2⟩ := h (lo + k) (by omega) (by omega)
  exact Reads.bind (reads_val h1) (Reads.bind (reads_val h2) reads_pure)

theorem runs_solveOrd {no ni : Nat} (down : Bool) {addrX addrB addrA : Nat → Nat → Int} (ord : Nat → Nat → V → (Nat → V) → (Nat → V) → SumTree V) (dv : V → V → V)
    (diag : Bool) (lo hi : Nat → Nat)
    (hlo : ∀ i k, i < ni → lo i ≤ k → k < hi i → k < ni ∧ innerLt down k i)
    {m : Mem V}
    (hinj : ∀ o i o' i', o < no → i < ni → o' < no → i' < ni → addrX o i = addrX o' i' → o = o' ∧ i = i')
    (hX : ∀ o i, o < no → i < ni → (m (addrX o i)).isSome = true)
    (hB : ∀ o i, o < no → i < ni → (m (addrB o i)).isSome = true)
    (hBX : ∀ o i o' i', o < no → i < ni → o' < no → i' < ni → addrB o i = addrX o' i' → o = o' ∧ i = i')
    (hA : ∀ i k, i < ni → (lo i ≤ k ∧ k < hi i ∨ (diag = false ∧ k = i)) → (m (addrA i k)).isSome = true ∧
      ∀ o' i', o' < no → i' < ni → addrA i k ≠ addrX o' i') :
    ∃ m', forN no (fun o => innerLoop down ni (solveOrdBody addrX addrB addrA ord dv diag lo hi o)) m = .ok () m' ∧
      (∀ x, (∀ o i, o < no → i < ni → x ≠ addrX o i) → m' x = m x) ∧
      (∀ o i, o < no → i < ni → m' (addrX o i) = some (
        let v := (ord o i (val m (addrB o i)) (collected (lo i) (fun k => val m (addrA i k)) (hi i - lo i))
          (collected (lo i) (fun k => val m' (addrX o k)) (hi i - lo i))).run
        if diag then v else dv v (val m (addrA i i)))) := by
  let F : Nat → Nat → Mem V → V := fun o i m1 =>
    let v := (ord o i (val m1 (addrB o i)) (collected (lo i) (fun k => val m1 (addrA i k)) (hi i - lo i))
          (collected (lo i) (fun k => val m1 (addrX o k)) (hi i - lo i))).run
    if diag then v else dv v (val m1 (addrA i i))
  obtain ⟨m', e1, e2, e3⟩ := runs_once2 no ni down addrX hinj F
    (solveOrdBody addrX addrB addrA ord dv diag lo hi) m (by
      intro o i ho hi' m1 h1 h2
      have hal : ∀ x, (m x).isSome = true → (m1 x).isSome = true := by
        intro x hx
        by_cases hb : Before2 no ni down addrX o i x
        · exact h2 x hb
        · rw [h1 x hb]; exact hx
      unfold solveOrdBody
      rw [bind_ok (reads_val (hal _ (hB o i ho hi')))]
      rw [bind_ok (reads_collect (lo := lo i) (hi := hi i) (addrA := addrA i) (addrX := addrX o) (m := m1) (by
        intro k hk1 hk2
        exact ⟨hal _ (hA i k hi' (Or.inl ⟨hk1, hk2⟩)).1, hal _ (hX o k ho (hlo i k hi' hk1 hk2).1)⟩))]
      cases hd : diag
      · simp only [Bool.false_eq_true, if_false]
        rw [bind_ok (reads_val (hal _ (hA i i hi' (Or.inr ⟨hd, rfl⟩)).1))]
        rw [write_eq _ (hal _ (hX o i ho hi'))]
        simp [F, hd]
      · simp only [if_true]
        rw [write_eq _ (hal _ (hX o i ho hi'))]
        simp [F, hd])
  refine ⟨m', e1, e2, ?_⟩
  intro o i ho hi'
  rw [e3 o i ho hi']
  have hAout : ∀ k, (lo i ≤ k ∧ k < hi i ∨ (diag = false ∧ k = i)) →
      val (mixMem (Before2 no ni down addrX o i) m' m) (addrA i k) = val m (addrA i k) := by
    intro k hk
    unfold val
    rw [mixMem_out]
    rintro ⟨o', i', h1, h2, _, hx⟩
    exact (hA i k hi' hk).2 o' i' h1 h2 hx
  have hBout : val (mixMem (Before2 no ni down addrX o i) m' m) (addrB o i) = val m (addrB o i) := by
    unfold val
    rw [mixMem_out]
    rintro ⟨o', i', h1, h2, h3, hx⟩
    obtain ⟨rfl, rfl⟩ := hBX _ _ _ _ ho hi' h1 h2 hx
    unfold innerLt at h3
    cases down <;> simp at h3
  have hXin : ∀ k, lo i ≤ k → k < hi i →
      val (mixMem (Before2 no ni down addrX o i) m' m) (addrX o k) = val m' (addrX o k) := by
    intro k h1 h2
    unfold val
    rw [mixMem_in]
    exact ⟨o, k, ho, (hlo i k hi' h1 h2).1, Or.inr ⟨rfl, (hlo i k hi' h1 h2).2⟩, rfl⟩
  have hc : ∀ (f g : Nat → V), (∀ k, lo i ≤ k → k < hi i → f k = g k) → collected (lo i) f (hi i - lo i) = collected (lo i) g (hi i - lo i) := by
    intro f g hfg
    funext q
    rw [collected_eq, collected_eq]
    by_cases hq : lo i ≤ q ∧ q < lo i + (hi i - lo i)
    · rw [if_pos hq, if_pos hq, hfg q hq.1 (by omega)]
    · rw [if_neg hq, if_neg hq]
  dsimp only [F]
  rw [hBout, hc _ _ (fun k h1 h2 => hAout k (Or.inl ⟨h1, h2⟩)), hc _ _ hXin]
  cases hd : diag
  · simp only [Bool.false_eq_true, if_false]
    rw [hAout i (Or.inr ⟨hd, rfl⟩)]
  · simp only [if_true]
end
section
variable {V : Type} [Field V] [LinearOrder V] [IsStrictOrderedRing V] [Arith V] {u : V} [hR : Rounded u]

theorem DivOrRecip.err {dv : V → V → V} (h : DivOrRecip dv) {x d : V} (hd : d ≠ 0) : |dv x d * d - x| ≤ ((1 + u) ^ 2 - 1) * |x| := by
  have hu := hR.u_nonneg
  have h0 : 0 < |d| := abs_pos.2 hd
  rcases h x d with e | e
  · rw [e]
    have h1 := mul_le_mul_of_nonneg_right (hR.div_err x d hd) h0.le
    rw [← abs_mul, sub_mul, div_mul_cancel₀ _ hd, mul_assoc, ← abs_mul, div_mul_cancel₀ _ hd] at h1
    refine le_trans h1 (mul_le_mul_of_nonneg_right ?_ (abs_nonneg _))
    nlinarith
  · rw [e]
    have h1 := mul_le_mul_of_nonneg_right (hR.div_err 1 d hd) h0.le
    rw [← abs_mul, sub_mul, div_mul_cancel₀ _ hd, mul_assoc, ← abs_mul, div_mul_cancel₀ _ hd, abs_one, mul_one] at h1
    rw [hR.one_eq]
    generalize Arith.div 1 d = r at *
    have h2 := mul_le_mul_of_nonneg_right (hR.mul_err x r) h0.le
    rw [← abs_mul, mul_assoc u, ← abs_mul] at h2
    have h3 : |x * r * d| ≤ |x| * (1 + u) := by
      rw [mul_assoc, abs_mul]
      refine mul_le_mul_of_nonneg_left ?_ (abs_nonneg _)
      have := abs_add_le (r * d - 1) 1
      rw [sub_add_cancel, abs_one] at this
      linarith
    have h4 : |x * r * d - x| ≤ |x| * u := by
      rw [show x * r * d - x = x * (r * d - 1) by ring, abs_mul]
      exact mul_le_mul_of_nonneg_left h1 (abs_nonneg _)
    have h5 := abs_add_le ((Arith.mul x r - x * r) * d) (x * r * d - x)
    rw [show (Arith.mul x r - x * r) * d + (x * r * d - x) = Arith.mul x r * d - x by ring] at h5
    have h6 := mul_le_mul_of_nonneg_left h3 hu
    nlinarith

theorem solve_ord {no ni : Nat} (uplo : UpLo) {addrX addrB addrA : Nat → Nat → Int} {ord : Nat → Nat → V → (Nat → V) → (Nat → V) → SumTree V} {dv : V → V → V} (hdv : DivOrRecip dv)
    {h : Nat} (hord : ∀ o i, o < no → i < ni → ∀ b a x, Regroups h (solveTerms (solveLo uplo i) (solveHi uplo ni i) b a x) (ord o i b a x))
    (diag : Bool) {m : Mem V} {a b : Nat → Nat → V}
    (hinj : ∀ o i o' i', o < no → i < ni → o' < no → i' < ni → addrX o i = addrX o' i' → o = o' ∧ i = i')
    (hX : ∀ o i, o < no → i < ni → (m (addrX o i)).isSome = true)
    (hB : ∀ o i, o < no → i < ni → m (addrB o i) = some (b o i))
    (hBX : ∀ o i o' i', o < no → i < ni → o' < no → i' < ni → addrB o i = addrX o' i' → o = o' ∧ i = i')
    (hA : ∀ i k, i < ni → k < ni → TriRef uplo diag i k → m (addrA i k) = some (a i k) ∧ ∀ o' i', o' < no → i' < ni → addrA i k ≠ addrX o' i')
    (hnz : diag = false → ∀ i, i < ni → a i i ≠ 0) :
    ∃ m', forN no (fun o => innerLoop (solveDown uplo) ni (solveOrdBody addrX addrB addrA ord dv diag (solveLo uplo) (solveHi uplo ni) o)) m = .ok () m' ∧
      (∀ x, (∀ o i, o < no → i < ni → x ≠ addrX o i) → m' x = m x) ∧
      (∀ o i, o < no → i < ni → m' (addrX o i) = some (val m' (addrX o i))) ∧
      (∀ o i, o < no → i < ni → |b o i - ∑ k ∈ range ni, tri uplo diag a i k * val m' (addrX o k)| ≤
          ((1 + u) ^ (h + 2) - 1) * (|b o i| + ∑ k ∈ range ni, |tri uplo diag a i k| * |val m' (addrX o k)|)) := by
  have hu := hR.u_nonneg
  have href : ∀ i k, i < ni → (solveLo uplo i ≤ k ∧ k < solveHi uplo ni i ∨ (diag = false ∧ k = i)) →
      k < ni ∧ TriRef uplo diag i k := by
    intro i k hi hk
    cases uplo with
    | lower =>
      rcases hk with ⟨_, hk⟩ | ⟨h1, h2⟩
      · change k < i at hk; exact ⟨by omega, Or.inr (Or.inl ⟨rfl, hk⟩)⟩
      · exact ⟨by omega, Or.inl ⟨h2.symm, h1⟩⟩
    | upper =>
      rcases hk with ⟨h3, hk⟩ | ⟨h1, h2⟩
      · change i + 1 ≤ k at h3; change k < ni at hk; exact ⟨hk, Or.inr (Or.inr ⟨rfl, by omega⟩)⟩
      · exact ⟨by omega, Or.inl ⟨h2.symm, h1⟩⟩
  obtain ⟨m', e1, e2, e3⟩ := runs_solveOrd (no := no) (ni := ni) (solveDown uplo) (addrX := addrX) (addrB := addrB)
    (addrA := addrA) ord dv diag (solveLo uplo) (solveHi uplo ni)
    (by
      intro i k hi h1 h2
      cases uplo with
      | lower => change k < i at h2; exact ⟨by omega, by simpa [innerLt, solveDown] using h2⟩
      | upper =>
        change k < ni at h2; change i + 1 ≤ k at h1
        exact ⟨h2, by simp [innerLt, solveDown]; omega⟩) (m := m) hinj hX
    (by intro o i ho hi; rw [hB o i ho hi]; rfl) hBX
    (by
      intro i k hi hk
      obtain ⟨h1, h2⟩ := href i k hi hk
      exact ⟨by rw [(hA i k hi h1 h2).1]; rfl, (hA i k hi h1 h2).2⟩)
  refine ⟨m', e1, e2, fun o i ho hi => ?_, fun o i ho hi => ?_⟩
  · have := e3 o i ho hi
    rw [val_some this]; exact this
  · have hv := val_some (e3 o i ho hi)
    dsimp only at hv
    rw [val_some (hB o i ho hi)] at hv
    have hE := (hord o i ho hi (b o i) (collected (solveLo uplo i) (fun k => val m (addrA i k)) (solveHi uplo ni i - solveLo uplo i))
      (collected (solveLo uplo i) (fun k => val m' (addrX o k)) (solveHi uplo ni i - solveLo uplo i))).err (u := u)
    generalize (ord o i (b o i) (collected (solveLo uplo i) (fun k => val m (addrA i k)) (solveHi uplo ni i - solveLo uplo i))
      (collected (solveLo uplo i) (fun k => val m' (addrX o k)) (solveHi uplo ni i - solveLo uplo i))).run = S at hv hE
    have hc : ∀ k ∈ Finset.Ico (solveLo uplo i) (solveHi uplo ni i),
        -(collected (solveLo uplo i) (fun k => val m (addrA i k)) (solveHi uplo ni i - solveLo uplo i) k *
          collected (solveLo uplo i) (fun k => val m' (addrX o k)) (solveHi uplo ni i - solveLo uplo i) k) = -(tri uplo diag a i k * val m' (addrX o k)) := by
      intro k hk
      obtain ⟨k1, k2⟩ := Finset.mem_Ico.1 hk
      obtain ⟨h1, h2⟩ := href i k hi (Or.inl ⟨k1, k2⟩)
      rw [collected_eq, collected_eq, if_pos (by omega), if_pos (by omega), val_some (hA i _ hi h1 h2).1]
      congr 2
      cases uplo with
      | lower => exact (tri_lower (by change k < i at k2; omega)).symm
      | upper => exact (tri_upper (by change i + 1 ≤ k at k1; omega)).symm
    have hT : solveTerms (solveLo uplo i) (solveHi uplo ni i) (b o i) (collected (solveLo uplo i) (fun k => val m (addrA i k)) (solveHi uplo ni i - solveLo uplo i))
        (collected (solveLo uplo i) (fun k => val m' (addrX o k)) (solveHi uplo ni i - solveLo uplo i)) =
        b o i ::ₘ (Finset.Ico (solveLo uplo i) (solveHi uplo ni i)).val.map (fun k => -(tri uplo diag a i k * val m' (addrX o k))) := by
      unfold solveTerms
      rw [Multiset.map_congr rfl hc]
    rw [hT, absSum_cons, Multiset.sum_cons] at hE
    have s1 : ((Finset.Ico (solveLo uplo i) (solveHi uplo ni i)).val.map (fun k => -(tri uplo diag a i k * val m' (addrX o k)))).sum =
        -∑ k ∈ range (solveHi uplo ni i - solveLo uplo i), tri uplo diag a i (solveLo uplo i + k) * val m' (addrX o (solveLo uplo i + k)) := by
      show ∑ k ∈ Finset.Ico (solveLo uplo i) (solveHi uplo ni i), -(tri uplo diag a i k * val m' (addrX o k)) = _
      rw [Finset.sum_neg_distrib, Finset.sum_Ico_eq_sum_range]
    have s2 : absSum ((Finset.Ico (solveLo uplo i) (solveHi uplo ni i)).val.map (fun k => -(tri uplo diag a i k * val m' (addrX o k)))) =
        ∑ k ∈ range (solveHi uplo ni i - solveLo uplo i), |tri uplo diag a i (solveLo uplo i + k)| * |val m' (addrX o (solveLo uplo i + k))| := by
      unfold absSum
      rw [Multiset.map_map]
      show ∑ k ∈ Finset.Ico (solveLo uplo i) (solveHi uplo ni i), |-(tri uplo diag a i k * val m' (addrX o k))| = _
      rw [Finset.sum_Ico_eq_sum_range]
      exact Finset.sum_congr rfl (fun k _ => by rw [abs_neg, abs_mul])
    rw [s1, s2] at hE
    have hdec : ∀ g : Nat → V, (∀ k, tri uplo diag a i k = 0 → g k = 0) → ∑ k ∈ range ni, g k =
        g i + ∑ k ∈ range (solveHi uplo ni i - solveLo uplo i), g (solveLo uplo i + k) := by
      intro g hg
      cases uplo with
      | lower =>
        rw [sum_lower _ hi (fun k hk => hg k (tri_lower_zero hk)), add_comm]
        simp [solveHi, solveLo]
      | upper =>
        rw [sum_upper _ hi (fun k hk => hg k (tri_upper_zero hk))]
        simp [solveHi, solveLo]
    rw [hdec (fun k => tri uplo diag a i k * val m' (addrX o k)) (fun k hk => by rw [hk, zero_mul]),
      hdec (fun k => |tri uplo diag a i k| * |val m' (addrX o k)|) (fun k hk => by rw [hk, abs_zero, zero_mul])]
    have q0 : |∑ k ∈ range (solveHi uplo ni i - solveLo uplo i), tri uplo diag a i (solveLo uplo i + k) * val m' (addrX o (solveLo uplo i + k))| ≤
        ∑ k ∈ range (solveHi uplo ni i - solveLo uplo i), |tri uplo diag a i (solveLo uplo i + k)| * |val m' (addrX o (solveLo uplo i + k))| := by
      refine le_trans (Finset.abs_sum_le_sum_abs _ _) (Finset.sum_le_sum fun k _ => ?_)
      rw [abs_mul]
    generalize ∑ k ∈ range (solveHi uplo ni i - solveLo uplo i), tri uplo diag a i (solveLo uplo i + k) * val m' (addrX o (solveLo uplo i + k)) = P at *
    generalize ∑ k ∈ range (solveHi uplo ni i - solveLo uplo i), |tri uplo diag a i (solveLo uplo i + k)| * |val m' (addrX o (solveLo uplo i + k))| = Q at *
    have hD : |tri uplo diag a i i * val m' (addrX o i) - S| ≤ ((1 + u) ^ 2 - 1) * |S| := by
      rw [hv, tri_diag]
      cases hd : diag
      · simp only [Bool.false_eq_true, if_false]
        rw [val_some (hA i i hi hi (Or.inl ⟨rfl, hd⟩)).1, mul_comm]
        exact hdv.err (hnz hd i hi)
      · simp only [if_true]
        rw [one_mul, sub_self, abs_zero]
        exact mul_nonneg (by nlinarith) (abs_nonneg _)
    have g1 : 1 ≤ (1 + u) ^ h := one_le_pow₀ (by linarith)
    have hQ : 0 ≤ Q := le_trans (abs_nonneg _) q0
    have hS : |S| ≤ (1 + u) ^ h * (|b o i| + Q) := by
      have t1 := abs_add_le (S - (b o i + -P)) (b o i + -P)
      rw [sub_add_cancel] at t1
      have t2 := abs_add_le (b o i) (-P)
      rw [abs_neg] at t2
      nlinarith
    have hw : 0 ≤ (1 + u) ^ 2 - 1 := by nlinarith
    have t3 := mul_le_mul_of_nonneg_left hS hw
    have t4 := abs_add_le (-(S - (b o i + -P))) (-(tri uplo diag a i i * val m' (addrX o i) - S))
    rw [abs_neg, abs_neg, show -(S - (b o i + -P)) + -(tri uplo diag a i i * val m' (addrX o i) - S) = b o i - (tri uplo diag a i i * val m' (addrX o i) + P) by ring] at t4
    have t5 : 0 ≤ ((1 + u) ^ (h + 2) - 1) * (|tri uplo diag a i i| * |val m' (addrX o i)|) :=
      mul_nonneg (by have := one_le_pow₀ (n := h + 2) (show 1 ≤ 1 + u by linarith); linarith) (by positivity)
    have t6 : ((1 + u) ^ h - 1) * (|b o i| + Q) + ((1 + u) ^ 2 - 1) * ((1 + u) ^ h * (|b o i| + Q)) = ((1 + u) ^ (h + 2) - 1) * (|b o i| + Q) := by ring
    nlinarith

/-- **C95** (trsm). Let the compiler evaluate the sum for each element of the solution in any way, with at most `h` roundings in a row, and divide or multiply with the reciprocal:
the computed solution leaves a residual of at most `(1+u)^(h+2) - 1`, relative to `|B| + |tri(A)| |X|`, and nothing but X is written. -/
theorem C95_trsm {SS m n : Nat} {A X B : MPtr} (uplo : UpLo) (unit : Bool) {ord : Nat → Nat → V → (Nat → V) → (Nat → V) → SumTree V} {dv : V → V → V} {h : Nat}
    (hord : ∀ j i, j < n → i < m → ∀ b a x, Regroups h (solveTerms (solveLo uplo i) (solveHi uplo m i) b a x) (ord j i b a x)) (hdv : DivOrRecip dv)
    {mem : Mem V} {a b : Nat → Nat → V}
    (hA : TriArg SS mem A m uplo unit a X m n) (hnz : unit = false → ∀ i, i < m → a i i ≠ 0)
    (hX : Readable SS mem X m n) (hinj : Inj SS X m n) (hB : Holds SS mem B m n b)
    (hBX : SameOrDisj SS B X m n) :
    ∃ mem' x, trsmOrdPtr SS m n uplo unit ord dv A B X mem = .ok () mem' ∧ Holds SS mem' X m n x ∧
      (∀ i j, i < m → j < n → |b i j - ∑ k ∈ range m, tri uplo unit a i k * x k j| ≤
        ((1 + u) ^ (h + 2) - 1) * (|b i j| + ∑ k ∈ range m, |tri uplo unit a i k| * |x k j|)) ∧
      (∀ y, ¬ Cells SS X m n y → mem' y = mem y) := by
  obtain ⟨mem', e1, e2, e3, e4⟩ := solve_ord (u := u) (no := n) (ni := m) uplo
    (addrX := fun o i => X.addr SS (i : Nat) (o : Nat)) (addrB := fun o i => B.addr SS (i : Nat) (o : Nat))
    (addrA := fun i k => A.addr SS (i : Nat) (k : Nat)) hdv hord unit (m := mem) (a := a) (b := fun o i => b i o)
    (by intro o i o' i' h1 h2 h3 h4 he; have := hinj _ _ _ _ h2 h1 h4 h3 he; exact ⟨this.2, this.1⟩)
    (by intro o i ho hi; exact hX i o hi ho) (fun o i ho hi => hB i o hi ho)
    (by intro o i o' i' h1 h2 h3 h4 he; have := hBX _ _ _ _ h2 h1 h4 h3 he; exact ⟨this.2, this.1⟩)
    (by
      intro i k hi hk hr
      have := hA i k hi hk hr
      exact ⟨this.1, fun o' i' h1 h2 he => this.2 ⟨i', o', h2, h1, he⟩⟩) hnz
  exact ⟨mem', fun i j => val mem' (X.addr SS i j), e1, fun i j hi hj => e3 j i hj hi, fun i j hi hj => e4 j i hj hi,
    fun y hy => e2 y (fun o i ho hi he => hy ⟨i, o, hi, ho, he⟩)⟩

/-- **C95** (trsv). -/
theorem C95_trsv {SS n : Nat} {A : MPtr} {b x : VPtr} (uplo : UpLo) {ord : Nat → V → (Nat → V) → (Nat → V) → SumTree V} {dv : V → V → V} {h : Nat}
    (hord : ∀ i, i < n → ∀ b a x, Regroups h (solveTerms (solveLo uplo i) (solveHi uplo n i) b a x) (ord i b a x)) (hdv : DivOrRecip dv)
    {mem : Mem V} {a : Nat → Nat → V} {bv : Nat → V}
    (hA : ∀ i k, i < n → k < n → TriRef uplo false i k →
      mem (A.addr SS i k) = some (a i k) ∧ ∀ i' : Nat, i' < n → A.addr SS i k ≠ x.addr SS i')
    (hnz : ∀ i, i < n → a i i ≠ 0)
    (hX : ∀ i : Nat, i < n → (mem (x.addr SS i)).isSome = true)
    (hinj : ∀ i i' : Nat, i < n → i' < n → x.addr SS i = x.addr SS i' → i = i')
    (hB : VHolds SS mem b n bv)
    (hBX : ∀ i i' : Nat, i < n → i' < n → b.addr SS i = x.addr SS i' → i = i') :
    ∃ mem' xv, trsvOrdPtr SS n uplo ord dv A b x mem = .ok () mem' ∧ VHolds SS mem' x n xv ∧
      (∀ i, i < n → |bv i - ∑ k ∈ range n, tri uplo false a i k * xv k| ≤
        ((1 + u) ^ (h + 2) - 1) * (|bv i| + ∑ k ∈ range n, |tri uplo false a i k| * |xv k|)) ∧
      (∀ y, (∀ i : Nat, i < n → y ≠ x.addr SS i) → mem' y = mem y) := by
  obtain ⟨mem', e1, e2, e3, e4⟩ := solve_ord (u := u) (no := 1) (ni := n) uplo
    (addrX := fun _ i => x.addr SS (i : Nat)) (addrB := fun _ i => b.addr SS (i : Nat))
    (addrA := fun i k => A.addr SS (i : Nat) (k : Nat)) (ord := fun _ => ord) hdv (fun _ i _ hi => hord i hi) false (m := mem) (a := a) (b := fun _ i => bv i)
    (by intro o i o' i' h1 h2 h3 h4 he; exact ⟨by omega, hinj _ _ h2 h4 he⟩)
    (by intro o i ho hi; exact hX i hi) (fun o i ho hi => hB i hi)
    (by intro o i o' i' h1 h2 h3 h4 he; exact ⟨by omega, hBX _ _ h2 h4 he⟩)
    (by
      intro i k hi hk hr
      have := hA i k hi hk hr
      exact ⟨this.1, fun o' i' h1 h2 => this.2 i' h2⟩) (fun _ => hnz)
  exact ⟨mem', fun i => val mem' (x.addr SS i), e1, fun i hi => e3 0 i (by omega) hi, fun i hi => e4 0 i (by omega) hi,
    fun y hy => e2 y (fun o i ho hi => hy i hi)⟩
end

/-! ### The orders of the source are among those covered -/
section
variable {V : Type} [Arith V]

private theorem plainOrder_put (lo : Nat) (b : V) (a x : Nat → V) (n q : Nat) (v w : V) (hq : lo + n ≤ q) :
    plainOrder lo b (put a q v) (put x q w) n = plainOrder lo b a x n := by
  induction n with
  | zero => rfl
  | succ n ih =>
    show SumTree.sub (plainOrder lo b (put a q v) (put x q w) n) (.prod (put a q v (lo + n)) (put x q w (lo + n))) = .sub (plainOrder lo b a x n) (.prod (a (lo + n)) (x (lo + n)))
    rw [ih (by omega)]
    unfold put
    rw [if_neg (by omega), if_neg (by omega)]

private theorem fusedOrder_put (lo : Nat) (b : V) (a x : Nat → V) (n q : Nat) (v w : V) (hq : lo + n ≤ q) :
    fusedOrder lo b (put a q v) (put x q w) n = fusedOrder lo b a x n := by
  induction n with
  | zero => rfl
  | succ n ih =>
    show SumTree.fnma (put a q v (lo + n)) (put x q w (lo + n)) (fusedOrder lo b (put a q v) (put x q w) n) = .fnma (a (lo + n)) (x (lo + n)) (fusedOrder lo b a x n)
    rw [ih (by omega)]
    unfold put
    rw [if_neg (by omega), if_neg (by omega)]

/-- collecting the operands and then evaluating a tree that grows from the left is the loop with an accumulator -/
private theorem collect_fold {β : Type} (lo : Nat) (tree : (Nat → V) → (Nat → V) → Nat → SumTree V) (op : V → V → V → V)
    (hput : ∀ a x n q v w, lo + n ≤ q → tree (put a q v) (put x q w) n = tree a x n)
    (hrun : ∀ a x n, (tree a x (n + 1)).run = op (tree a x n).run (a (lo + n)) (x (lo + n)))
    (b : V) (h0 : ∀ a x, (tree a x 0).run = b) (rA rX : Nat → Prog V V) (n : Nat) (K : V → Prog V β) :
    (foldN n (fun k (ax : (Nat → V) × (Nat → V)) => do
      let a ← rA (lo + k)
      let x ← rX (lo + k)
      pure (put ax.1 (lo + k) a, put ax.2 (lo + k) x)) (fun _ => Arith.zero, fun _ => Arith.zero) >>= fun ax => K (tree ax.1 ax.2 n).run) =
    (foldN n (fun k acc => do
      let a ← rA (lo + k)
      let x ← rX (lo + k)
      pure (op acc a x)) b >>= K) := by
  induction n generalizing K with
  | zero =>
    show K (tree (fun _ => Arith.zero) (fun _ => Arith.zero) 0).run = K b
    rw [h0]
  | succ n ih =>
    have := ih (fun acc => do
      let a ← rA (lo + n)
      let x ← rX (lo + n)
      K (op acc a x))
    refine Eq.trans ?_ (Eq.trans this ?_)
    · show ((foldN n _ _ >>= _) >>= _) = _
      rw [bind_assoc']
      congr 1
      funext ax
      rw [bind_assoc']
      congr 1
      funext a
      rw [bind_assoc']
      congr 1
      funext x
      show K (tree (put ax.1 (lo + n) a) (put ax.2 (lo + n) x) (n + 1)).run = _
      rw [hrun, hput _ _ _ _ _ _ (le_refl _)]
      unfold put
      rw [if_pos rfl, if_pos rfl]
    · symm
      show ((foldN n _ _ >>= _) >>= _) = _
      rw [bind_assoc']
      congr 1
      funext acc
      rw [bind_assoc']
      congr 1
      funext a
      rw [bind_assoc']
      congr 1

/-- one element of trsm as written -/
private theorem solveOrdBody_eq (addrX addrB addrA : Nat → Nat → Int) (tree : Nat → V → (Nat → V) → (Nat → V) → Nat → SumTree V) (op : V → V → V → V)
    (hput : ∀ lo b a x n q v w, lo + n ≤ q → tree lo b (put a q v) (put x q w) n = tree lo b a x n)
    (hrun : ∀ lo b a x n, (tree lo b a x (n + 1)).run = op (tree lo b a x n).run (a (lo + n)) (x (lo + n)))
    (h0 : ∀ lo b a x, (tree lo b a x 0).run = b) (dv : V → V → V) (diag : Bool) (lo hi : Nat → Nat) (o i : Nat) :
    solveOrdBody addrX addrB addrA (fun _ i b a x => tree (lo i) b a x (hi i - lo i)) dv diag lo hi o i = (do
      let b ← Prog.read (addrB o i)
      let acc ← foldFrom (lo i) (hi i) (fun k acc => do
        let a ← Prog.read (addrA i k)
        let x ← Prog.read (addrX o k)
        pure (op acc a x)) b
      if diag then Prog.write (addrX o i) acc else do
        let d ← Prog.read (addrA i i)
        Prog.write (addrX o i) (dv acc d)) := by
  unfold solveOrdBody foldFrom
  congr 1
  funext b
  exact collect_fold (lo i) (tree (lo i) b) op (hput (lo i) b) (hrun (lo i) b) b (h0 (lo i) b) (fun k => Prog.read (addrA i k)) (fun k => Prog.read (addrX o k)) (hi i - lo i)
    (fun acc => if diag then Prog.write (addrX o i) acc else do
        let d ← Prog.read (addrA i i)
        Prog.write (addrX o i) (dv acc d))

/-- **C95**: with the order of the source, without contraction, the loops of this property are those of `trsm` as written. -/
theorem C95_trsm_as_written (SS M N : Nat) (uplo : UpLo) (unit : Bool) (A B X : MPtr) :
    trsmOrdPtr SS M N uplo unit (fun _ i b a x => plainOrder (solveLo uplo i) b a x (solveHi uplo M i - solveLo uplo i)) Arith.div A B X = (trsmPtr SS M N uplo unit A B X : Prog V Unit) := by
  unfold trsmOrdPtr
  have : ∀ j, (solveOrdBody (fun o i => X.addr SS (i : Nat) (o : Nat)) (fun o i => B.addr SS (i : Nat) (o : Nat)) (fun i k => A.addr SS (i : Nat) (k : Nat))
      (fun _ i b a x => plainOrder (solveLo uplo i) b a x (solveHi uplo M i - solveLo uplo i)) Arith.div unit (solveLo uplo) (solveHi uplo M) j : Nat → Prog V Unit) = _ :=
    fun j => funext (fun i => solveOrdBody_eq _ _ _ plainOrder (fun acc a x => Arith.sub acc (Arith.mul a x)) (fun lo b a x n q v w hq => plainOrder_put lo b a x n q v w hq)
      (fun _ _ _ _ _ => rfl) (fun _ _ _ _ => rfl) Arith.div unit (solveLo uplo) (solveHi uplo M) j i)
  rw [funext (fun j => congrArg (innerLoop (solveDown uplo) M) (this j))]
  cases uplo <;> rfl

/-- **C95**: … and with the order of the source, contracted, those of `trsm` as GCC compiles them by default. -/
theorem C95_trsm_contracted (SS M N : Nat) (uplo : UpLo) (unit : Bool) (A B X : MPtr) :
    trsmOrdPtr SS M N uplo unit (fun _ i b a x => fusedOrder (solveLo uplo i) b a x (solveHi uplo M i - solveLo uplo i)) Arith.div A B X = (trsmFusedPtr SS M N uplo unit A B X : Prog V Unit) := by
  unfold trsmOrdPtr
  have : ∀ j, (solveOrdBody (fun o i => X.addr SS (i : Nat) (o : Nat)) (fun o i => B.addr SS (i : Nat) (o : Nat)) (fun i k => A.addr SS (i : Nat) (k : Nat))
      (fun _ i b a x => fusedOrder (solveLo uplo i) b a x (solveHi uplo M i - solveLo uplo i)) Arith.div unit (solveLo uplo) (solveHi uplo M) j : Nat → Prog V Unit) = _ :=
    fun j => funext (fun i => solveOrdBody_eq _ _ _ fusedOrder (fun acc a x => Arith.fnma a x acc) (fun lo b a x n q v w hq => fusedOrder_put lo b a x n q v w hq)
      (fun _ _ _ _ _ => rfl) (fun _ _ _ _ => rfl) Arith.div unit (solveLo uplo) (solveHi uplo M) j i)
  rw [funext (fun j => congrArg (innerLoop (solveDown uplo) M) (this j))]
  cases uplo <;> rfl

/-- **C95** (trsv as written). -/
theorem C95_trsv_as_written (SS N : Nat) (uplo : UpLo) (A : MPtr) (b x : VPtr) :
    trsvOrdPtr SS N uplo (fun i b a x => plainOrder (solveLo uplo i) b a x (solveHi uplo N i - solveLo uplo i)) Arith.div A b x = (trsvPtr SS N uplo A b x : Prog V Unit) := by
  unfold trsvOrdPtr
  have : ∀ j, (solveOrdBody (fun _ i => x.addr SS (i : Nat)) (fun _ i => b.addr SS (i : Nat)) (fun i k => A.addr SS (i : Nat) (k : Nat))
      (fun _ i b a x => plainOrder (solveLo uplo i) b a x (solveHi uplo N i - solveLo uplo i)) Arith.div false (solveLo uplo) (solveHi uplo N) j : Nat → Prog V Unit) = _ :=
    fun j => funext (fun i => solveOrdBody_eq _ _ _ plainOrder (fun acc a x => Arith.sub acc (Arith.mul a x)) (fun lo b a x n q v w hq => plainOrder_put lo b a x n q v w hq)
      (fun _ _ _ _ _ => rfl) (fun _ _ _ _ => rfl) Arith.div false (solveLo uplo) (solveHi uplo N) j i)
  rw [funext (fun j => congrArg (innerLoop (solveDown uplo) N) (this j))]
  cases uplo <;> rfl

/-- **C95** (trsv, contracted). -/
theorem C95_trsv_contracted (SS N : Nat) (uplo : UpLo) (A : MPtr) (b x : VPtr) :
    trsvOrdPtr SS N uplo (fun i b a x => fusedOrder (solveLo uplo i) b a x (solveHi uplo N i - solveLo uplo i)) Arith.div A b x = (trsvFusedPtr SS N uplo A b x : Prog V Unit) := by
  unfold trsvOrdPtr
  have : ∀ j, (solveOrdBody (fun _ i => x.addr SS (i : Nat)) (fun _ i => b.addr SS (i : Nat)) (fun i k => A.addr SS (i : Nat) (k : Nat))
      (fun _ i b a x => fusedOrder (solveLo uplo i) b a x (solveHi uplo N i - solveLo uplo i)) Arith.div false (solveLo uplo) (solveHi uplo N) j : Nat → Prog V Unit) = _ :=
    fun j => funext (fun i => solveOrdBody_eq _ _ _ fusedOrder (fun acc a x => Arith.fnma a x acc) (fun lo b a x n q v w hq => fusedOrder_put lo b a x n q v w hq)
      (fun _ _ _ _ _ => rfl) (fun _ _ _ _ => rfl) Arith.div false (solveLo uplo) (solveHi uplo N) j i)
  rw [funext (fun j => congrArg (innerLoop (solveDown uplo) N) (this j))]
  cases uplo <;> rfl

private theorem Ico_succ (lo n : Nat) (f : Nat → V) : (Finset.Ico lo (lo + (n + 1))).val.map f = f (lo + n) ::ₘ (Finset.Ico lo (lo + n)).val.map f := by
  have h : Finset.Ico lo (lo + (n + 1)) = insert (lo + n) (Finset.Ico lo (lo + n)) := by ext k; simp only [Finset.mem_Ico, Finset.mem_insert]; omega
  rw [h, Finset.insert_val_of_notMem (by simp), Multiset.map_cons]

/-- the order of the source is one of those covered, with at most `hi - lo + 1` roundings in a row -/
theorem plainOrder_regroups [Ring V] (lo n : Nat) (b : V) (a x : Nat → V) : Regroups (n + 1) (solveTerms lo (lo + n) b a x) (plainOrder lo b a x n) := by
  unfold Regroups
  induction n with
  | zero => exact ⟨Nat.zero_le _, 0, by simp [plainOrder, SumTree.terms, solveTerms]⟩
  | succ n ih =>
    obtain ⟨h1, z, h2⟩ := ih
    refine ⟨?_, z, ?_⟩
    · show max (plainOrder lo b a x n).height 1 + 1 ≤ n + 1 + 1
      omega
    · show (plainOrder lo b a x n).terms + ({a (lo + n) * x (lo + n)} : Multiset V).map (fun x => -x) = _
      rw [h2]
      unfold solveTerms
      rw [Ico_succ, Multiset.map_singleton, Multiset.cons_swap, Multiset.add_comm, Multiset.singleton_add]
      simp only [Multiset.cons_add]

theorem fusedOrder_regroups [Ring V] (lo n : Nat) (b : V) (a x : Nat → V) : Regroups n (solveTerms lo (lo + n) b a x) (fusedOrder lo b a x n) := by
  unfold Regroups
  induction n with
  | zero => exact ⟨Nat.zero_le _, 0, by simp [fusedOrder, SumTree.terms, solveTerms]⟩
  | succ n ih =>
    obtain ⟨h1, z, h2⟩ := ih
    refine ⟨?_, z, ?_⟩
    · show (fusedOrder lo b a x n).height + 1 ≤ n + 1
      omega
    · show (-(a (lo + n) * x (lo + n))) ::ₘ (fusedOrder lo b a x n).terms = _
      rw [h2]
      unfold solveTerms
      rw [Ico_succ, Multiset.cons_swap]
      simp only [Multiset.cons_add]
end

/-! ### The product -/
section
variable {V : Type} [Arith V]

/-- what `reference::gemm` computes, when the sums are evaluated as `ord` says -/
theorem refGemmOrd_val {SS M N K : Nat} (hSS : 0 < SS) {A B C D : MPtr} (ord : Nat → Nat → (Nat → V) → (Nat → V) → SumTree V) (fin : V → V → V → V → V)
    (wA : A.panel = true → A.ptr % (SS : Int) = 0) (wB : B.panel = true → B.ptr % (SS : Int) = 0)
    (wC : C.panel = true → C.ptr % (SS : Int) = 0) (wD : D.panel = true → D.ptr % (SS : Int) = 0) (alpha beta : V) {mem : Mem V}
    {a b c : Nat → Nat → V} (hA : Holds SS mem A M K a) (hB : Holds SS mem B K N b) (hC : Holds SS mem C M N c)
    (hD : Readable SS mem D M N) (hinj : Inj SS D M N) (dA : Disj SS A M K D M N) (dB : Disj SS B K N D M N)
    (dC : SameOrDisj SS C D M N) :
    ∃ mem', refGemmOrd SS M N K ord fin alpha A B beta C D mem = .ok () mem' ∧
      Holds SS mem' D M N (fun i j => fin alpha (ord i j (collected 0 (fun k => a i k) K) (collected 0 (fun k => b k j) K)).run beta (c i j)) ∧
      (∀ y, ¬ Cells SS D M N y → mem' y = mem y) := by
  unfold refGemmOrd
  rw [derefAt_start hSS wA, derefAt_start hSS wB, derefAt_start hSS wC, assignAt_start hSS wD]
  refine runs_elementwise hD hinj _ _ (fun i j hi hj m1 h1 h2 => ?_)
  have hr : Reads (foldN K (fun k (ab : (Nat → V) × (Nat → V)) => do
      let a ← Prog.read (A.addr SS (i : Nat) (k : Nat))
      let b ← Prog.read (B.addr SS (k : Nat) (j : Nat))
      pure (put ab.1 k a, put ab.2 k b)) (fun _ => Arith.zero, fun _ => Arith.zero)) m1 (collected 0 (fun k => a i k) K, collected 0 (fun k => b k j) K) := by
    refine reads_foldN (fun k => (collected 0 (fun k => a i k) k, collected 0 (fun k => b k j) k)) rfl (fun k hk => ?_)
    have ea : m1 (A.addr SS i k) = some (a i k) := by
      rw [h1 _ (fun i' j' h3 h4 _ => dA _ _ _ _ hi hk h3 h4)]; exact hA i k hi hk
    have eb : m1 (B.addr SS k j) = some (b k j) := by
      rw [h1 _ (fun i' j' h3 h4 _ => dB _ _ _ _ hk hj h3 h4)]; exact hB k j hk hj
    have e0 : ∀ f : Nat → V, collected 0 f (k + 1) = put (collected 0 f k) k (f k) := fun f => by
      show put (collected 0 f k) (0 + k) (f (0 + k)) = _; rw [Nat.zero_add]
    rw [e0, e0]
    exact Reads.bind (reads_read ea) (Reads.bind (reads_read eb) reads_pure)
  rw [bind_ok hr]
  have ec : m1 (C.addr SS i j) = some (c i j) := by
    rw [h1 _ (fun i' j' h3 h4 h5 h6 => h5 (by obtain ⟨e1, e2⟩ := dC _ _ _ _ hi hj h3 h4 h6; exact ⟨e1.symm, e2.symm⟩))]
    exact hC i j hi hj
  rw [bind_ok (reads_read ec)]
  exact write_eq _ h2

/-- **C95**: with the order of the source, without contraction, the loops are those of `reference::gemm` as written. -/
theorem C95_reference_gemm_as_written (SS M N K : Nat) (alpha beta : V) (A B C D : MPtr) :
    refGemmOrd SS M N K (fun _ _ a b => plainSum a b K) (fun alpha v beta c => Arith.add (Arith.mul alpha v) (Arith.mul beta c)) alpha A B beta C D =
      (refGemm SS M N K alpha A B beta C D : Prog V Unit) := by
  unfold refGemmOrd refGemm
  congr 1; funext i; congr 1; funext j
  have := collect_fold 0 plainSum (fun acc a b => Arith.add acc (Arith.mul a b)) (fun a x n q v w hq => by
      induction n with
      | zero => rfl
      | succ n ih =>
        show SumTree.add (plainSum (put a q v) (put x q w) n) (.prod (put a q v n) (put x q w n)) = .add (plainSum a x n) (.prod (a n) (x n))
        rw [ih (by omega)]
        unfold put
        rw [if_neg (by omega), if_neg (by omega)])
    (fun a x n => by show Arith.add _ (Arith.mul (a n) (x n)) = _; rw [Nat.zero_add]) Arith.zero (fun _ _ => rfl)
    (fun k => derefAt SS A i k) (fun k => derefAt SS B k j) K
    (fun v => do
      let c ← derefAt SS C i j
      assignAt SS D i j (Arith.add (Arith.mul alpha v) (Arith.mul beta c)))
  simp only [Nat.zero_add] at this
  exact this
end

section
variable {V : Type} [Field V] [LinearOrder V] [IsStrictOrderedRing V] [Arith V] {u : V} [hR : Rounded u]

/-- **C95** (reference::gemm). However the compiler evaluates the sums (at most `h` roundings in a row), and whether or not it contracts `alpha * v + beta * c`: the computed
element differs from the exact one by at most `(1+u)^(h+2) - 1`, relative to `|alpha| |A| |B| + |beta| |C|`. -/
theorem C95_reference_gemm {SS M N K : Nat} (hSS : 0 < SS) {A B C D : MPtr} {ord : Nat → Nat → (Nat → V) → (Nat → V) → SumTree V} {fin : V → V → V → V → V} {h : Nat}
    (hord : ∀ i j, i < M → j < N → ∀ a b, Regroups h (prodTerms K a b) (ord i j a b)) (hfin : AxpbyForm fin)
    (wA : A.panel = true → A.ptr % (SS : Int) = 0) (wB : B.panel = true → B.ptr % (SS : Int) = 0)
    (wC : C.panel = true → C.ptr % (SS : Int) = 0) (wD : D.panel = true → D.ptr % (SS : Int) = 0) (alpha beta : V) {mem : Mem V}
    {a b c : Nat → Nat → V} (hA : Holds SS mem A M K a) (hB : Holds SS mem B K N b) (hC : Holds SS mem C M N c)
    (hD : Readable SS mem D M N) (hinj : Inj SS D M N) (dA : Disj SS A M K D M N) (dB : Disj SS B K N D M N)
    (dC : SameOrDisj SS C D M N) :
    ∃ mem' d, refGemmOrd SS M N K ord fin alpha A B beta C D mem = .ok () mem' ∧ Holds SS mem' D M N d ∧
      (∀ i j, i < M → j < N → |d i j - (alpha * ∑ k ∈ range K, a i k * b k j + beta * c i j)| ≤
        ((1 + u) ^ (h + 2) - 1) * (|alpha| * ∑ k ∈ range K, |a i k| * |b k j| + |beta| * |c i j|)) ∧
      (∀ y, ¬ Cells SS D M N y → mem' y = mem y) := by
  obtain ⟨mem', e1, e2, e3⟩ := refGemmOrd_val hSS ord fin wA wB wC wD alpha beta hA hB hC hD hinj dA dB dC
  refine ⟨mem', _, e1, e2, fun i j hi hj => ?_, e3⟩
  have hE := (hord i j hi hj (collected 0 (fun k => a i k) K) (collected 0 (fun k => b k j) K)).err (u := u)
  have hT : prodTerms K (collected 0 (fun k => a i k) K) (collected 0 (fun k => b k j) K) = (Finset.range K).val.map (fun k => a i k * b k j) := by
    unfold prodTerms
    refine Multiset.map_congr rfl (fun k hk => ?_)
    have hk' : k < K := Finset.mem_range.1 hk
    rw [collected_eq, collected_eq, if_pos (by omega), if_pos (by omega)]
  have s2 : absSum ((Finset.range K).val.map (fun k => a i k * b k j)) = ∑ k ∈ range K, |a i k| * |b k j| := by
    unfold absSum
    rw [Multiset.map_map]
    show ∑ k ∈ range K, |a i k * b k j| = _
    exact Finset.sum_congr rfl (fun k _ => abs_mul _ _)
  rw [hT, s2] at hE
  have hn : Near u h (∑ k ∈ range K, |a i k| * |b k j|) (ord i j (collected 0 (fun k => a i k) K) (collected 0 (fun k => b k j) K)).run (∑ k ∈ range K, a i k * b k j) :=
    ⟨by refine le_trans (Finset.abs_sum_le_sum_abs _ _) (Finset.sum_le_sum fun k _ => ?_); rw [abs_mul], hE⟩
  have e4 := near_mul (Near.refl u alpha) hn
  have e5 := near_mul (Near.refl u beta) (Near.refl u (c i j))
  rcases hfin alpha (ord i j (collected 0 (fun k => a i k) K) (collected 0 (fun k => b k j) K)).run beta (c i j) with e | e | e <;> rw [e]
  · exact (near_add (e4.mono hR.u_nonneg (show 0 + h + 1 ≤ h + 1 by omega)) (e5.mono hR.u_nonneg (show 0 + 0 + 1 ≤ h + 1 by omega))).err
  · exact (near_fma (k := h + 1) (Near.refl u alpha) hn (e5.mono hR.u_nonneg (show 0 + 0 + 1 ≤ h + 1 by omega)) (by omega)).err
  · have := (near_fma (k := h + 1) (Near.refl u beta) (Near.refl u (c i j)) (e4.mono hR.u_nonneg (show 0 + h + 1 ≤ h + 1 by omega)) (by omega)).err
    rwa [add_comm (beta * c i j), add_comm (|beta| * |c i j|)] at this
end

/-! ### The orders named above -/
section
variable {V : Type} [Ring V] [Arith V]

theorem plainSum_regroups (h0 : (Arith.zero : V) = 0) (n : Nat) (a b : Nat → V) : Regroups (n + 1) (prodTerms n a b) (plainSum a b n) := by
  refine ⟨?_, 1, ?_⟩
  · induction n with
    | zero => exact Nat.zero_le _
    | succ n ih => show max (plainSum a b n).height 1 + 1 ≤ _; omega
  · induction n with
    | zero => simp [plainSum, SumTree.terms, prodTerms, h0]
    | succ n ih =>
      show (plainSum a b n).terms + {a n * b n} = _
      rw [ih]
      unfold prodTerms
      rw [Finset.range_add_one, Finset.insert_val_of_notMem (by simp), Multiset.map_cons, Multiset.cons_add, Multiset.add_comm, Multiset.singleton_add]

private theorem laneSum_terms (h0 : (Arith.zero : V) = 0) (L : Nat) (a b : Nat → V) (l n : Nat) :
    (laneSum L a b l n).terms = ((Finset.range n).filter (fun k => k % L = l)).val.map (fun k => a k * b k) + {0} := by
  induction n with
  | zero => simp [laneSum, SumTree.terms, h0]
  | succ n ih =>
    unfold laneSum
    rw [Finset.range_add_one, Finset.filter_insert]
    split
    · show (a n * b n) ::ₘ (laneSum L a b l n).terms = _
      rw [ih, Finset.insert_val_of_notMem (by simp), Multiset.map_cons, Multiset.cons_add]
    · exact ih

private theorem lanesTotal_terms (h0 : (Arith.zero : V) = 0) (L : Nat) (a b : Nat → V) (n c : Nat) :
    (lanesTotal L a b n c).terms = ((Finset.range n).filter (fun k => k % L < c)).val.map (fun k => a k * b k) + Multiset.replicate (c + 1) 0 := by
  induction c with
  | zero => simp [lanesTotal, SumTree.terms, h0]
  | succ c ih =>
    show (lanesTotal L a b n c).terms + (laneSum L a b c n).terms = _
    rw [ih, laneSum_terms h0]
    have : (Finset.range n).filter (fun k => k % L < c + 1) = ((Finset.range n).filter (fun k => k % L < c)).disjUnion ((Finset.range n).filter (fun k => k % L = c))
        (by rw [Finset.disjoint_left]; intro k h1 h2; rw [Finset.mem_filter] at h1 h2; omega) := by
      ext k
      rw [Finset.mem_disjUnion, Finset.mem_filter, Finset.mem_filter, Finset.mem_filter]
      constructor
      · rintro ⟨h1, h2⟩
        rcases Nat.lt_or_ge (k % L) c with h | h
        · exact Or.inl ⟨h1, h⟩
        · exact Or.inr ⟨h1, by omega⟩
      · rintro (⟨h1, h2⟩ | ⟨h1, h2⟩) <;> exact ⟨h1, by omega⟩
    rw [this, Finset.disjUnion_val, Multiset.map_add, show Multiset.replicate (c + 1 + 1) (0 : V) = Multiset.replicate (c + 1) 0 + {0} by
      rw [Multiset.replicate_add, Multiset.replicate_one]]
    abel

private theorem laneSum_height (L : Nat) (hL : 0 < L) (a b : Nat → V) (l n : Nat) (hl : l < L) : (laneSum L a b l n).height ≤ (n + (L - 1 - l)) / L := by
  induction n with
  | zero => exact Nat.zero_le _
  | succ n ih =>
    unfold laneSum
    split
    · rename_i h
      show (laneSum L a b l n).height + 1 ≤ _
      have e : n + 1 + (L - 1 - l) = (n / L + 1) * L := by
        have := Nat.div_add_mod n L
        rw [h] at this
        rw [Nat.add_mul, one_mul, Nat.mul_comm (n / L)]; omega
      have e2 : n + (L - 1 - l) = (L - 1) + L * (n / L) := by
        have := Nat.div_add_mod n L
        rw [h] at this
        omega
      rw [e, Nat.mul_div_cancel _ hL]
      rw [e2, Nat.add_mul_div_left _ _ hL, Nat.div_eq_of_lt (by omega)] at ih
      omega
    · exact le_trans ih (Nat.div_le_div_right (by omega))

/-- the vectorized loop evaluates the sum, with at most `ceil(n / L) + L` roundings in a row -/
theorem lanes_regroups (h0 : (Arith.zero : V) = 0) (L n : Nat) (hL : 0 < L) (a b : Nat → V) : Regroups ((n + (L - 1)) / L + L) (prodTerms n a b) (lanesTotal L a b n L) := by
  refine ⟨?_, L + 1, ?_⟩
  · have : ∀ c, c ≤ L → (lanesTotal L a b n c).height ≤ (n + (L - 1)) / L + c := by
      intro c
      induction c with
      | zero => intro _; exact Nat.zero_le _
      | succ c ih =>
        intro hc
        show max (lanesTotal L a b n c).height (laneSum L a b c n).height + 1 ≤ _
        have h1 := ih (by omega)
        have h2 := laneSum_height L hL a b c n (by omega)
        have h3 : (n + (L - 1 - c)) / L ≤ (n + (L - 1)) / L := Nat.div_le_div_right (by omega)
        omega
    exact this L (le_refl _)
  · rw [lanesTotal_terms h0, Finset.filter_true_of_mem (fun k _ => Nat.mod_lt _ hL)]
    rfl

/-- … and so does the vectorized substitution -/
theorem laneOrder_regroups (h0 : (Arith.zero : V) = 0) (L lo n : Nat) (hL : 0 < L) (b : V) (a x : Nat → V) :
    Regroups ((n + (L - 1)) / L + L + 1) (solveTerms lo (lo + n) b a x) (laneOrder L lo b a x n) := by
  obtain ⟨h1, z, h2⟩ := lanes_regroups h0 L n hL (fun k => a (lo + k)) (fun k => x (lo + k))
  refine ⟨?_, z, ?_⟩
  · show max 0 (lanesTotal L (fun k => a (lo + k)) (fun k => x (lo + k)) n L).height + 1 ≤ _
    omega
  · show {b} + (lanesTotal L (fun k => a (lo + k)) (fun k => x (lo + k)) n L).terms.map (fun x => -x) = _
    rw [h2, Multiset.map_add, Multiset.map_replicate, neg_zero]
    unfold prodTerms solveTerms
    rw [Multiset.map_map, Multiset.singleton_add, Multiset.cons_add]
    congr 2
    have : Finset.Ico lo (lo + n) = (Finset.range n).map (addLeftEmbedding lo) := by
      rw [Finset.range_eq_Ico, Finset.map_add_left_Ico, Nat.add_zero]
    rw [this, Finset.map_val, Multiset.map_map]
    rfl
end

/-! ### Vectorized loops -/
section
variable {V : Type} [Field V] [LinearOrder V] [IsStrictOrderedRing V] [Arith V] {u : V} [hR : Rounded u]

/-- **C95** (trsm in a loop vectorized over `L` lanes): the residual is bounded by `(1+u)^(ceil(m/L) + L + 3) - 1`, relative to `|B| + |tri(A)| |X|`. -/
theorem C95_trsm_vectorized {SS m n : Nat} {A X B : MPtr} (uplo : UpLo) (unit : Bool) (L : Nat) (hL : 0 < L) {dv : V → V → V} (hdv : DivOrRecip dv)
    {mem : Mem V} {a b : Nat → Nat → V}
    (hA : TriArg SS mem A m uplo unit a X m n) (hnz : unit = false → ∀ i, i < m → a i i ≠ 0)
    (hX : Readable SS mem X m n) (hinj : Inj SS X m n) (hB : Holds SS mem B m n b)
    (hBX : SameOrDisj SS B X m n) :
    ∃ mem' x, trsmOrdPtr SS m n uplo unit (fun _ i b a x => laneOrder L (solveLo uplo i) b a x (solveHi uplo m i - solveLo uplo i)) dv A B X mem = .ok () mem' ∧
      Holds SS mem' X m n x ∧
      (∀ i j, i < m → j < n → |b i j - ∑ k ∈ range m, tri uplo unit a i k * x k j| ≤
        ((1 + u) ^ ((m + (L - 1)) / L + L + 1 + 2) - 1) * (|b i j| + ∑ k ∈ range m, |tri uplo unit a i k| * |x k j|)) ∧
      (∀ y, ¬ Cells SS X m n y → mem' y = mem y) := by
  refine C95_trsm (u := u) uplo unit (fun j i hj hi b a x => ?_) hdv hA hnz hX hinj hB hBX
  have hle : solveLo uplo i ≤ solveHi uplo m i := by cases uplo <;> simp [solveLo, solveHi] <;> omega
  have hm : solveHi uplo m i ≤ m := by cases uplo <;> simp [solveHi] <;> omega
  obtain ⟨h1, h2⟩ := laneOrder_regroups hR.zero_eq L (solveLo uplo i) (solveHi uplo m i - solveLo uplo i) hL b a x
  rw [Nat.add_sub_cancel' hle] at h2
  refine ⟨le_trans h1 ?_, h2⟩
  have : (solveHi uplo m i - solveLo uplo i + (L - 1)) / L ≤ (m + (L - 1)) / L := Nat.div_le_div_right (by omega)
  omega
end

/-! ### The results do depend on it -/

/-- the products in the order in which they are written, or the last two first -/
noncomputable def lastTwoFirst {V : Type} [Arith V] (a b : Nat → V) : SumTree V := .add (.prod (a 0) (b 0)) (.add (.prod (a 1) (b 1)) (.prod (a 2) (b 2)))

theorem lastTwoFirst_regroups {V : Type} [Ring V] [Arith V] (a b : Nat → V) : Regroups 3 (prodTerms 3 a b) (lastTwoFirst a b) := by
  refine ⟨Nat.le_refl _, 0, ?_⟩
  show {a 0 * b 0} + ({a 1 * b 1} + {a 2 * b 2}) = _
  unfold prodTerms
  have : (Finset.range 3).val = 0 ::ₘ 1 ::ₘ {2} := rfl
  rw [this]
  rfl

/-- **C95** (refuted: the result is not determined by the source). In every binary format, the product of the row (1, 2^(p+2), -2^(p+2)) and a column of ones is computed
as 0 in the order of the source and as 1 if the last two terms are added first, which the recommended flags permit. -/
theorem C95_order_matters_refuted {p SS : Nat} (hSS : 0 < SS) {A B C D : MPtr}
    (wA : A.panel = true → A.ptr % (SS : Int) = 0) (wB : B.panel = true → B.ptr % (SS : Int) = 0)
    (wC : C.panel = true → C.ptr % (SS : Int) = 0) (wD : D.panel = true → D.ptr % (SS : Int) = 0) {mem : Mem (Fe p)} {a b c : Nat → Nat → Fe p}
    (hA : Holds SS mem A 1 3 a) (hB : Holds SS mem B 3 1 b) (hC : Holds SS mem C 1 1 c)
    (ha : a 0 0 = ExactInts.num 1 ∧ a 0 1 = ExactInts.num (2 ^ (p + 2)) ∧ a 0 2 = ExactInts.num (-2 ^ (p + 2))) (hb : ∀ k, k < 3 → b k 0 = ExactInts.num 1) (hc : c 0 0 = ExactInts.num 0)
    (hD : Readable SS mem D 1 1) (hinj : Inj SS D 1 1) (dA : Disj SS A 1 3 D 1 1) (dB : Disj SS B 3 1 D 1 1)
    (dC : SameOrDisj SS C D 1 1) :
    (∀ a b : Nat → Fe p, Regroups 4 (prodTerms 3 a b) (plainSum a b 3) ∧ Regroups 4 (prodTerms 3 a b) (lastTwoFirst a b)) ∧
    ∃ m1 m2, refGemmOrd SS 1 1 3 (fun _ _ a b => plainSum a b 3) (fun alpha v beta c => Arith.add (Arith.mul alpha v) (Arith.mul beta c)) (ExactInts.num 1) A B (ExactInts.num 0) C D mem = .ok () m1 ∧
      refGemmOrd SS 1 1 3 (fun _ _ a b => lastTwoFirst a b) (fun alpha v beta c => Arith.add (Arith.mul alpha v) (Arith.mul beta c)) (ExactInts.num 1) A B (ExactInts.num 0) C D mem = .ok () m2 ∧
      m1 (D.addr SS 0 0) = some (ExactInts.num 0) ∧ m2 (D.addr SS 0 0) = some (ExactInts.num 1) := by
  refine ⟨fun a b => ⟨plainSum_regroups rfl 3 a b, le_trans (lastTwoFirst_regroups a b).1 (by omega), (lastTwoFirst_regroups a b).2⟩, ?_⟩
  obtain ⟨m1, e1, e2, -⟩ := refGemmOrd_val hSS (fun _ _ a b => plainSum a b 3) (fun alpha v beta c => Arith.add (Arith.mul alpha v) (Arith.mul beta c)) wA wB wC wD
    (ExactInts.num 1) (ExactInts.num 0) hA hB hC hD hinj dA dB dC
  obtain ⟨m2, e3, e4, -⟩ := refGemmOrd_val hSS (fun _ _ a b => lastTwoFirst a b) (fun alpha v beta c => Arith.add (Arith.mul alpha v) (Arith.mul beta c)) wA wB wC wD
    (ExactInts.num 1) (ExactInts.num 0) hA hB hC hD hinj dA dB dC
  have e2 := e2 0 0 (by omega) (by omega)
  have e4 := e4 0 0 (by omega) (by omega)
  have hX : (1 : ℝ) ≤ 2 ^ p := one_le_pow₀ (by norm_num)
  have r0 : rndE p 0 = 0 := rndE_zero p
  have r1 : rndE p 1 = 1 := by
    have h := rndE_int (p := p) (n := 1) (by rw [abs_one]; exact one_le_pow₀ (by norm_num))
    simpa using h
  have rX : rndE p (2 ^ (p + 2)) = 2 ^ (p + 2) := by
    rw [rndE_near (k := 2) (n := 2 ^ p)]
    · push_cast; ring
    · rw [show 2 + p = p + 2 by ring]
    · rw [show 2 + p + 1 = p + 2 + 1 by ring, pow_succ _ (p + 2)]; linarith [show (0 : ℝ) < 2 ^ (p + 2) by positivity]
    · push_cast; rw [show (2 : ℝ) ^ (p + 2) - 2 ^ p * 2 ^ 2 = 0 by ring, abs_zero]; norm_num
  have rX1 : rndE p (1 + 2 ^ (p + 2)) = 2 ^ (p + 2) := by
    rw [rndE_near (k := 2) (n := 2 ^ p)]
    · push_cast; ring
    · rw [show 2 + p = p + 2 by ring]; linarith
    · rw [show 2 + p + 1 = p + 2 + 1 by ring, pow_succ _ (p + 2), show p + 2 = p + 1 + 1 by ring, pow_succ, pow_succ]; linarith
    · push_cast; rw [show (1 : ℝ) + 2 ^ (p + 2) - 2 ^ p * 2 ^ 2 = 1 by ring, abs_one]; norm_num
  have rN : rndE p (-2 ^ (p + 2)) = -2 ^ (p + 2) := by rw [rndE_neg, rX]
  have c0 : ∀ f : Nat → Fe p, ∀ k, k < 3 → collected 0 f 3 k = f k := fun f k hk => by rw [collected_eq, if_pos (by omega)]
  have p1 : Arith.mul (ExactInts.num 1 : Fe p) (ExactInts.num 1) = (1 : ℝ) := by
    show rndE p (((1 : ℤ) : ℝ) * ((1 : ℤ) : ℝ)) = 1
    rw [Int.cast_one, one_mul, r1]
  have p2 : Arith.mul (ExactInts.num (2 ^ (p + 2)) : Fe p) (ExactInts.num 1) = (2 ^ (p + 2) : ℝ) := by
    show rndE p (((2 ^ (p + 2) : ℤ) : ℝ) * ((1 : ℤ) : ℝ)) = 2 ^ (p + 2)
    push_cast; rw [mul_one, rX]
  have p3 : Arith.mul (ExactInts.num (-2 ^ (p + 2)) : Fe p) (ExactInts.num 1) = (-2 ^ (p + 2) : ℝ) := by
    show rndE p (((-2 ^ (p + 2) : ℤ) : ℝ) * ((1 : ℤ) : ℝ)) = -2 ^ (p + 2)
    push_cast; rw [mul_one, rN]
  have q0 : Arith.mul (ExactInts.num 0 : Fe p) (ExactInts.num 0) = (0 : ℝ) := by
    show rndE p (((0 : ℤ) : ℝ) * ((0 : ℤ) : ℝ)) = 0
    rw [Int.cast_zero, zero_mul, r0]
  have s0 : (plainSum (collected 0 (fun k => a 0 k) 3) (collected 0 (fun k => b k 0) 3) 3).run = (0 : ℝ) := by
    show Arith.add (V := Fe p) (Arith.add (V := Fe p) (Arith.add (V := Fe p) Arith.zero (Arith.mul (V := Fe p) _ _)) (Arith.mul (V := Fe p) _ _)) (Arith.mul (V := Fe p) _ _) = _
    rw [c0 _ 0 (by omega), c0 _ 0 (by omega), c0 _ 1 (by omega), c0 _ 1 (by omega), c0 _ 2 (by omega), c0 _ 2 (by omega), ha.1, ha.2.1, ha.2.2, hb 0 (by omega), hb 1 (by omega), hb 2 (by omega),
      p1, p2, p3]
    show rndE p (rndE p (rndE p (0 + 1) + 2 ^ (p + 2)) + -2 ^ (p + 2)) = 0
    rw [zero_add, r1, rX1, add_neg_cancel, r0]
  have s1 : (lastTwoFirst (collected 0 (fun k => a 0 k) 3) (collected 0 (fun k => b k 0) 3)).run = (1 : ℝ) := by
    show Arith.add (V := Fe p) (Arith.mul (V := Fe p) _ _) (Arith.add (V := Fe p) (Arith.mul (V := Fe p) _ _) (Arith.mul (V := Fe p) _ _)) = _
    rw [c0 _ 0 (by omega), c0 _ 0 (by omega), c0 _ 1 (by omega), c0 _ 1 (by omega), c0 _ 2 (by omega), c0 _ 2 (by omega), ha.1, ha.2.1, ha.2.2, hb 0 (by omega), hb 1 (by omega), hb 2 (by omega),
      p1, p2, p3]
    show rndE p (1 + rndE p (2 ^ (p + 2) + -2 ^ (p + 2))) = 1
    rw [add_neg_cancel, r0, add_zero, r1]
  refine ⟨m1, m2, e1, e3, ?_, ?_⟩
  · refine e2.trans (congrArg some ?_)
    beta_reduce
    rw [s0, hc, q0]
    show rndE p (rndE p (((1 : ℤ) : ℝ) * 0) + 0) = ((0 : ℤ) : ℝ)
    rw [mul_zero, r0, add_zero, r0, Int.cast_zero]
  · refine e4.trans (congrArg some ?_)
    beta_reduce
    rw [s1, hc, q0]
    show rndE p (rndE p (((1 : ℤ) : ℝ) * 1) + 0) = ((1 : ℤ) : ℝ)
    rw [Int.cast_one, one_mul, r1, add_zero, r1]
end Blast
