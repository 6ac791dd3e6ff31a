import Verif.BackwardPotrf
import Verif.Nan
import Verif.RoundingBinary
import Verif.Props.Potrf
/- Concrete cases meeting the hypotheses of these theorems: Verif/Cases/Accuracy.lean, and the examples in this file. -/
/-
Property C58: the Cholesky factorization in rounded arithmetic.
-/
set_option linter.unusedSectionVars false
namespace Blast
open Finset Prog
variable {V : Type} [Field V] [LinearOrder V] [IsStrictOrderedRing V] [Arith V] {u : V}

/-- the lower triangular `l` is a Cholesky factor of `a` up to the relative error `g`: its diagonal is positive and `|a - l lᵀ| ≤ g |l| |l|ᵀ` -/
def IsCholeskyUpTo (g : V) (M N : Nat) (l a : Nat → Nat → V) : Prop :=
  (∀ k, k < N → 0 < l k k) ∧
  ∀ i j, j ≤ i → i < M → j < N → |a i j - ∑ q ∈ range (j + 1), l i q * l j q| ≤ g * ∑ q ∈ range (j + 1), |l i q| * |l j q|

/-- the `n × n` matrix given by the lower triangle of `a` is positive definite by a margin `d` (relative to its diagonal):
`xᵀ S x > d * xᵀ diag(S) x` for every nonzero `x` -/
def LowerPosDefBy (d : V) (n : Nat) (a : Nat → Nat → V) : Prop :=
  ∀ x : Nat → V, (∃ i, i < n ∧ x i ≠ 0) →
    d * (∑ i ∈ range n, a i i * (x i * x i)) < ∑ i ∈ range n, ∑ j ∈ range n, x i * a (max i j) (min i j) * x j

section
variable [hR : RoundedSqrt u]

theorem pow_bu (n : Nat) : (1 + bu u) ^ n = (1 / (1 - u)) ^ n := by rw [one_add_bu hR.u_lt_one]

/-- the diagonal tile contains the row of the column's diagonal element -/
theorem potHeight_diag {T KN M c : Nat} (hKN : 0 < KN) (hT : KN ≤ T) : c < c / KN * KN + potHeight T M (c / KN * KN) := by
  have h2 := Nat.div_add_mod c KN
  have h3 := Nat.mod_lt c hKN
  rw [Nat.mul_comm] at h2
  have h4 : T ≤ potHeight T M (c / KN * KN) := by unfold potHeight; split_ifs <;> omega
  omega

/-- the recurrence of potrf on a matrix that is positive definite by a sufficient margin -/
theorem PotRec.rounded {T KN M N : Nat} (hKN : 0 < KN) (hT : KN ≤ T) (hNM : N ≤ M) {l a fa : Nat → Nat → V} {g : V}
    (hg : g = (1 / (1 - u)) ^ (N + 4) - 1) (hg1 : g < 1) (hng : (N : V) * g * (1 + g) ≤ (1 - g) * (1 - g))
    (hpd : LowerPosDefBy ((N : V) * g / (1 - g)) N a) (hfa : ∀ i j, Rel (bu u) 1 (fa i j) (a i j))
    (h : ∀ r c : Nat, c ≤ r → r < M → c < N → PotRec T KN M l fa r c) : IsCholeskyUpTo g M N l a := by
  have hg0 : 0 ≤ g := by
    have := Near.one_le_pow (u := bu u) buN (N + 4)
    rw [hg, ← pow_bu]; linarith
  have main : ∀ k, k ≤ N → (∀ j, j < k → 0 < l j j) ∧
      (∀ i j, j < k → j ≤ i → i < M → |a i j - ∑ q ∈ range (j + 1), l i q * l j q| ≤ g * ∑ q ∈ range (j + 1), |l i q * l j q|) := by
    intro k
    induction k with
    | zero => exact fun _ => ⟨fun j hj => by omega, fun i j hj => by omega⟩
    | succ k ih =>
      intro hk
      obtain ⟨h1, h2⟩ := ih (by omega)
      have hn := ((near_potS (u := u) KN l (fa k k) k k).rel buN (hfa k k).symm).mono buN (show k + 1 ≤ N + 4 by omega)
      have hn' := hn.err
      rw [pow_bu, ← hg] at hn'
      have hS : 0 < potS KN l (fa k k) k k :=
        rounded_pivot_pos (show k < N by omega) hg0 hg1 hng hpd (fun j hj => ne_of_gt (h1 j hj)) (fun i j hj hji hik => h2 i j hj hji (by omega)) hn'
      have hcc : l k k = Arith.div (potS KN l (fa k k) k k) (Arith.sqrt (potS KN l (fa k k) k k)) := by
        have := h k k (le_refl _) (by omega) (by omega)
        unfold PotRec at this
        rwa [if_pos (potHeight_diag hKN hT)] at this
      have hent : ∀ i, k ≤ i → i < M → 0 < l k k ∧
          Near (bu u) (k + 4) (∑ q ∈ range (k + 1), |l i q * l k q|) (fa i k) (∑ q ∈ range (k + 1), l i q * l k q) := by
        intro i hi hiM
        refine pot_entry hS hcc ?_
        have := h i k hi hiM (by omega)
        unfold PotRec at this
        split_ifs at this
        · exact Or.inl this
        · exact Or.inr this
      refine ⟨fun j hj => ?_, fun i j hj hji hiM => ?_⟩
      · by_cases hjk : j = k
        · subst hjk; exact (hent j (le_refl _) (by omega)).1
        · exact h1 j (by omega)
      · by_cases hjk : j = k
        · subst hjk
          have := ((((hent i hji hiM).2).rel buN (hfa i j).symm).mono buN (show j + 4 + 1 ≤ N + 4 by omega)).err
          rwa [pow_bu, ← hg] at this
        · exact h2 i j (by omega) hji hiM
  obtain ⟨h1, h2⟩ := main N (le_refl _)
  refine ⟨h1, fun i j hji hi hj => ?_⟩
  have := h2 i j hj hji hi
  simpa only [abs_mul] using this

theorem potrf_rounded {SS TR KN : Nat} {m m' : Mem V} {A L : Container} {W : Nat → Nat → Prop} {f : V → V} (hf1 : ∀ x, Rel (bu u) 1 (f x) x)
    (h : PotrfArgs SS m A L) (hs : PotrfSizes A L) (hf : PotrfFits SS TR KN A L)
    {a : Nat → Nat → V} (ha : ContainsLower SS m A a) {g : V}
    (hg : g = (1 / (1 - u)) ^ (A.cols + 4) - 1) (hg1 : g < 1) (hng : (A.cols : V) * g * (1 + g) ≤ (1 - g) * (1 - g))
    (hpd : LowerPosDefBy ((A.cols : V) * g / (1 - g)) A.cols a)
    (hp : PotrfSpec SS TR KN A.rows A.cols (roundUp A.rows SS) W (A.mptr SS) (L.mptr SS) f m m') :
    ∃ l, ContainsLower SS m' L l ∧ IsCholeskyUpTo g A.rows A.cols l a := by
  obtain ⟨_, h2, h3⟩ := hp
  obtain ⟨e1, e2, e3⟩ := hs
  refine ⟨fun r c => val m' ((L.mptr SS).addr SS r c), fun i j hji hi hj => ?_, ?_⟩
  · have := h2 _ (h.lL.alloc _ (L.addr_storage h.ss hi hj))
    rw [Option.isSome_iff_exists] at this
    obtain ⟨v, hv⟩ := this
    unfold val
    beta_reduce
    rw [← Container.addr_eq_mptr, hv]; rfl
  · refine PotRec.rounded hf.kn hf.knT e1 hg hg1 hng hpd (fa := fun i j => f (a i j)) (fun i j => hf1 _) (fun r c hcr hr hc => ?_)
    have := h3 r c hcr hr hc
    refine this.congr (fun _ _ => rfl) (fun _ _ => rfl) ?_ ?_
    · unfold val; rw [← Container.addr_eq_mptr, ha r c hcr hr hc]; rfl
    · unfold val; rw [← Container.addr_eq_mptr, ha c c (Nat.le_refl _) (by omega) hc]; rfl

/-- **C58** (dense). In rounded arithmetic with unit roundoff u let g = (1/(1-u))^(N+4) - 1 (≈ (N+4)u), N the number of columns. If the matrix is
positive definite by the margin N g/(1-g) (relative to its diagonal) and N is not so large that N g (1+g) > (1-g)², then potrf breaks down
nowhere: it leaves a lower triangular L with positive diagonal and |A - L Lᵀ| ≤ g |L| |L|ᵀ, element by element. L may be A. -/
theorem C58_potrf_dense_accuracy {SS TR : Nat} {m : Mem V} {A L : Container} (h : PotrfArgs SS m A L) (hs : PotrfSizes A L)
    (hf : PotrfFits SS TR 4 A L) {a : Nat → Nat → V} (ha : ContainsLower SS m A a) {g : V}
    (hg : g = (1 / (1 - u)) ^ (A.cols + 4) - 1) (hg1 : g < 1) (hng : (A.cols : V) * g * (1 + g) ≤ (1 - g) * (1 - g))
    (hpd : LowerPosDefBy ((A.cols : V) * g / (1 - g)) A.cols a) :
    ∃ m', potrfDenseCall SS TR A L m = .ok () m' ∧ ∃ l, ContainsLower SS m' L l ∧ IsCholeskyUpTo g A.rows A.cols l a := by
  obtain ⟨m', h1, h2⟩ := potrfDenseCall_spec h hs hf
  refine ⟨m', h1, potrf_rounded (fun x => ?_) h hs hf ha hg hg1 hng hpd h2⟩
  have := rel_mul (u := u) Arith.one x
  rwa [show (Arith.one : V) * x = x by rw [hR.one_eq, one_mul]] at this

/-- **C58** (panel). -/
theorem C58_potrf_panel_accuracy {SS KN : Nat} {m : Mem V} {A L : Container} (h : PotrfArgs SS m A L) (hs : PotrfSizes A L)
    (hf : PotrfFits SS 1 KN A L) {a : Nat → Nat → V} (ha : ContainsLower SS m A a) {g : V}
    (hg : g = (1 / (1 - u)) ^ (A.cols + 4) - 1) (hg1 : g < 1) (hng : (A.cols : V) * g * (1 + g) ≤ (1 - g) * (1 - g))
    (hpd : LowerPosDefBy ((A.cols : V) * g / (1 - g)) A.cols a) :
    ∃ m', potrfPanelCall SS KN A L m = .ok () m' ∧ ∃ l, ContainsLower SS m' L l ∧ IsCholeskyUpTo g A.rows A.cols l a := by
  obtain ⟨m', h1, h2⟩ := potrfPanelCall_spec h hs hf
  exact ⟨m', h1, potrf_rounded (fun x => (Rel.refl _ _).mono buN (Nat.zero_le 1)) h hs hf ha hg hg1 hng hpd h2⟩

/-- the recurrence of potrf in arithmetic with NaN: if the computed factor consists of numbers it is accurate -/
theorem PotRec.nan {T KN M N : Nat} (hKN : 0 < KN) (hT : KN ≤ T) (hNM : N ≤ M) {l a fa : Nat → Nat → V} {ln an : Nat → Nat → Nan V}
    (hl : ∀ i j, j ≤ i → i < M → j < N → ln i j = num (l i j)) (han : ∀ i j, j ≤ i → i < M → j < N → an i j = num (fa i j))
    (hfa : ∀ i j, Rel (bu u) 1 (fa i j) (a i j))
    (h : ∀ r c : Nat, c ≤ r → r < M → c < N → PotRec T KN M ln an r c) : IsCholeskyUpTo ((1 / (1 - u)) ^ (N + 4) - 1) M N l a := by
  have hpot : ∀ r c, c ≤ r → r < M → c < N → potS KN ln (an r c) r c = num (potS KN l (fa r c) r c) := by
    intro r c hcr hr hc
    rw [han r c hcr hr hc]
    exact nan_potS (fun q hq => hl r q (by omega) hr (by omega)) (fun q hq => hl c q (by omega) (by omega) (by omega))
  have hpiv : ∀ c, c < N → 0 < potS KN l (fa c c) c c ∧ l c c = Arith.div (potS KN l (fa c c) c c) (Arith.sqrt (potS KN l (fa c c) c c)) := by
    intro c hc
    have := h c c (le_refl _) (by omega) hc
    unfold PotRec at this
    rw [if_pos (potHeight_diag hKN hT), hpot c c (le_refl _) (by omega) hc, hl c c (le_refl _) (by omega) hc] at this
    obtain ⟨y, hy, hy0, hz⟩ := nan_div_inv this
    obtain ⟨hs0, rfl⟩ := nan_sqrt_inv hy
    refine ⟨lt_of_le_of_ne hs0 (fun he => hy0 ?_), hz⟩
    obtain ⟨t, h0, h1, h2⟩ := hR.sqrt_err _ hs0
    have ht : t = 0 := by
      rw [← he] at h1; exact mul_self_eq_zero.1 h1
    rw [ht, sub_zero, mul_zero] at h2
    exact abs_eq_zero.1 (le_antisymm h2 (abs_nonneg _))
  have hent : ∀ r c, c ≤ r → r < M → c < N → 0 < l c c ∧
      Near (bu u) (c + 4) (∑ q ∈ range (c + 1), |l r q * l c q|) (fa r c) (∑ q ∈ range (c + 1), l r q * l c q) := by
    intro r c hcr hr hc
    obtain ⟨p1, p2⟩ := hpiv c hc
    refine pot_entry p1 p2 ?_
    have := h r c hcr hr hc
    unfold PotRec at this
    rw [hpot r c hcr hr hc, hl r c hcr hr hc, hpot c c (le_refl _) (by omega) hc, hl c c (le_refl _) (by omega) hc] at this
    obtain ⟨y, hy, _, hz⟩ := nan_div_inv this
    split_ifs at hy
    · obtain ⟨_, rfl⟩ := nan_sqrt_inv hy
      exact Or.inl hz
    · rw [num_inj hy]; exact Or.inr hz
  refine ⟨fun k hk => (hent k k (le_refl _) (by omega) hk).1, fun i j hji hi hj => ?_⟩
  have := ((((hent i j hji hi hj).2).rel buN (hfa i j).symm).mono buN (show j + 4 + 1 ≤ N + 4 by omega)).err
  rw [pow_bu] at this
  simpa only [abs_mul] using this

theorem potrf_nan {SS TR KN : Nat} {m m' : Mem (Nan V)} {A L : Container} {W : Nat → Nat → Prop} {f : Nan V → Nan V}
    {f' : V → V} (hff : ∀ x, f (num x) = num (f' x)) (hf1 : ∀ x, Rel (bu u) 1 (f' x) x)
    (hs : PotrfSizes A L) (hf : PotrfFits SS TR KN A L)
    {a l : Nat → Nat → V} (ha : ContainsLower SS m A (fun i j => num (a i j)))
    (hp : PotrfSpec SS TR KN A.rows A.cols (roundUp A.rows SS) W (A.mptr SS) (L.mptr SS) f m m')
    (hl : ContainsLower SS m' L (fun i j => num (l i j))) :
    IsCholeskyUpTo ((1 / (1 - u)) ^ (A.cols + 4) - 1) A.rows A.cols l a := by
  obtain ⟨_, _, h3⟩ := hp
  obtain ⟨e1, e2, e3⟩ := hs
  refine PotRec.nan hf.kn hf.knT e1 (ln := fun r c => val m' ((L.mptr SS).addr SS r c)) (an := fun r c => f (val m ((A.mptr SS).addr SS r c)))
    (fa := fun i j => f' (a i j)) (fun i j hji hi hj => ?_) (fun i j hji hi hj => ?_) (fun i j => hf1 _) h3
  · unfold val
    beta_reduce
    rw [← Container.addr_eq_mptr, hl i j hji (by omega) (by omega)]; rfl
  · unfold val
    beta_reduce
    rw [← Container.addr_eq_mptr, ha i j hji hi hj]; exact hff _

/-- **C58** (dense, success is detected). In arithmetic with NaN - the square root of a negative number and the division by zero give NaN, and NaN
propagates - the factorization of a matrix of numbers either leaves a NaN in the lower triangle of L, or |A - L Lᵀ| ≤ g |L| |L|ᵀ with
g = (1/(1-u))^(N+4) - 1. No assumption on definiteness. -/
theorem C58_potrf_dense_nan_or_accurate {SS TR : Nat} {m : Mem (Nan V)} {A L : Container} (h : PotrfArgs SS m A L) (hs : PotrfSizes A L)
    (hf : PotrfFits SS TR 4 A L) {a : Nat → Nat → V} (ha : ContainsLower SS m A (fun i j => num (a i j))) :
    ∃ m', potrfDenseCall SS TR A L m = .ok () m' ∧
      ∀ l, ContainsLower SS m' L (fun i j => num (l i j)) → IsCholeskyUpTo ((1 / (1 - u)) ^ (A.cols + 4) - 1) A.rows A.cols l a := by
  obtain ⟨m', h1, h2⟩ := potrfDenseCall_spec h hs hf
  refine ⟨m', h1, fun l hl => potrf_nan (f' := Arith.mul Arith.one) (fun x => rfl) (fun x => ?_) hs hf ha h2 hl⟩
  have := rel_mul (u := u) Arith.one x
  rwa [show (Arith.one : V) * x = x by rw [hR.one_eq, one_mul]] at this

/-- **C58** (panel, success is detected). -/
theorem C58_potrf_panel_nan_or_accurate {SS KN : Nat} {m : Mem (Nan V)} {A L : Container} (h : PotrfArgs SS m A L) (hs : PotrfSizes A L)
    (hf : PotrfFits SS 1 KN A L) {a : Nat → Nat → V} (ha : ContainsLower SS m A (fun i j => num (a i j))) :
    ∃ m', potrfPanelCall SS KN A L m = .ok () m' ∧
      ∀ l, ContainsLower SS m' L (fun i j => num (l i j)) → IsCholeskyUpTo ((1 / (1 - u)) ^ (A.cols + 4) - 1) A.rows A.cols l a := by
  obtain ⟨m', h1, h2⟩ := potrfPanelCall_spec h hs hf
  exact ⟨m', h1, fun l hl => potrf_nan (f' := id) (fun x => rfl) (fun x => (Rel.refl _ _).mono buN (Nat.zero_le 1)) hs hf ha h2 hl⟩

end

/-! ### The hypotheses are satisfiable -/

/-- the identity is positive definite by any margin less than one -/
theorem identity_posdef_by {n : Nat} {d : V} (hd : d < 1) : LowerPosDefBy d n (fun i j => if i = j then (1 : V) else 0) := by
  rintro x ⟨i, hi, hx⟩
  have e : ∑ i ∈ range n, ∑ j ∈ range n, x i * (if max i j = min i j then (1 : V) else 0) * x j = ∑ i ∈ range n, x i * x i := by
    refine sum_congr rfl (fun i hi => ?_)
    rw [sum_eq_single i]
    · simp
    · intro j _ hj
      rw [if_neg (by omega)]; ring
    · intro h; exact absurd hi h
  have e' : ∑ i ∈ range n, (if i = i then (1 : V) else 0) * (x i * x i) = ∑ i ∈ range n, x i * x i :=
    sum_congr rfl (fun i hi => by rw [if_pos rfl, one_mul])
  have hp : 0 < ∑ i ∈ range n, x i * x i := sum_pos' (fun i _ => mul_self_nonneg (x i)) ⟨i, mem_range.2 hi, mul_self_pos.2 hx⟩
  show d * (∑ i ∈ range n, (if i = i then (1 : V) else 0) * (x i * x i)) < ∑ i ∈ range n, ∑ j ∈ range n, x i * (if max i j = min i j then (1 : V) else 0) * x j
  rw [e, e']
  nlinarith

/-- memory with the 6×6 identity, with given zero and one -/
noncomputable def idMem {W : Type} (one zero : W) (c : Container) : Mem W := fun z =>
  open Classical in
  if c.Storage 4 z then some (if ∃ i, i < 6 ∧ z = c.addr 4 i i then one else zero) else none

theorem idMem_live {W : Type} (one zero : W) : Live 4 (idMem one zero ⟨.dynPanel, .columnMajor, 6, 6, 0⟩) ⟨.dynPanel, .columnMajor, 6, 6, 0⟩ :=
  ⟨rfl, fun z hz => by unfold idMem; rw [if_pos hz]; rfl⟩

theorem idMem_contains {W : Type} (one zero : W) : ContainsLower 4 (idMem one zero ⟨.dynPanel, .columnMajor, 6, 6, 0⟩) ⟨.dynPanel, .columnMajor, 6, 6, 0⟩
    (fun i j => if i = j then one else zero) := by
  intro i j hji hi hj
  unfold idMem
  rw [if_pos (Container.addr_storage (by decide) _ hi hj)]
  congr 1
  beta_reduce
  by_cases hij : i = j
  · subst hij
    rw [if_pos ⟨i, hi, rfl⟩, if_pos rfl]
  · rw [if_neg hij, if_neg]
    rintro ⟨k, hk, he⟩
    have := Container.inj (SS := 4) (by decide) ⟨.dynPanel, .columnMajor, 6, 6, 0⟩ i j k k hi hj hk hk
    rw [← Container.addr_eq_mptr, ← Container.addr_eq_mptr] at this
    have := this he
    omega

/-- the error bound for double precision and six columns is small -/
theorem g_double : ((1 / (1 - flU 52)) ^ (6 + 4) - 1 : Fl 52) ≤ 1 / 100 := by
  have hu : flU 52 ≤ (1 / 10000 : Fl 52) := by
    show ((1 / 2 : ℝ) ^ (52 + 1) : ℝ) ≤ 1 / 10000
    norm_num
  have h0 : (0 : Fl 52) ≤ flU 52 := by
    show (0 : ℝ) ≤ ((1 / 2 : ℝ) ^ (52 + 1) : ℝ)
    positivity
  generalize flU 52 = w at hu h0
  have h1 : ((10 : Nat) : Fl 52) * w < 1 := by push_cast; linarith
  have h2 := inv_pow_sub_one_le_gamma h0 (by linarith) 10 h1
  refine le_trans h2 ?_
  push_cast at h1 ⊢
  rw [div_le_iff₀ (by linarith)]
  linarith

theorem g_double_nonneg : (0 : Fl 52) ≤ (1 / (1 - flU 52)) ^ (6 + 4) - 1 := by
  have := Near.one_le_pow (u := bu (flU 52)) buN (6 + 4)
  rw [pow_bu] at this
  linarith

/-- the identity, 6×6, in double precision meets the hypotheses of the a priori theorem -/
example : ∃ m', potrfPanelCall 4 4 ⟨.dynPanel, .columnMajor, 6, 6, 0⟩ ⟨.dynPanel, .columnMajor, 6, 6, 0⟩
    (idMem (1 : Fl 52) 0 ⟨.dynPanel, .columnMajor, 6, 6, 0⟩) = .ok () m' ∧
    ∃ l : Nat → Nat → Fl 52, ContainsLower 4 m' ⟨.dynPanel, .columnMajor, 6, 6, 0⟩ l ∧
      IsCholeskyUpTo ((1 / (1 - flU 52)) ^ (6 + 4) - 1) 6 6 l (fun i j => if i = j then 1 else 0) := by
  have h1 := g_double
  have h0 := g_double_nonneg
  refine C58_potrf_panel_accuracy (u := flU 52) ⟨by decide, rfl, rfl, idMem_live _ _, idMem_live _ _, Or.inl rfl⟩ (by decide)
    (potrfFits_square (by decide) (Or.inr ⟨rfl, rfl⟩)) (idMem_contains _ _) rfl ?_ ?_ (identity_posdef_by ?_)
  all_goals
    show _
    push_cast
    generalize ((1 / (1 - flU 52)) ^ (6 + 4) - 1 : Fl 52) = g at h1 h0
  · linarith
  · nlinarith
  · rw [div_lt_one (by linarith)]; linarith

/-- the hypotheses of the theorem with NaN are met -/
example : ∃ m', potrfPanelCall 4 4 ⟨.dynPanel, .columnMajor, 6, 6, 0⟩ ⟨.dynPanel, .columnMajor, 6, 6, 0⟩
    (idMem (num (1 : Fl 52)) (num 0) ⟨.dynPanel, .columnMajor, 6, 6, 0⟩) = .ok () m' ∧
    ∀ l : Nat → Nat → Fl 52, ContainsLower 4 m' ⟨.dynPanel, .columnMajor, 6, 6, 0⟩ (fun i j => num (l i j)) →
      IsCholeskyUpTo ((1 / (1 - flU 52)) ^ (6 + 4) - 1) 6 6 l (fun i j => if i = j then 1 else 0) := by
  refine C58_potrf_panel_nan_or_accurate (u := flU 52) ⟨by decide, rfl, rfl, idMem_live _ _, idMem_live _ _, Or.inl rfl⟩ (by decide)
    (potrfFits_square (by decide) (Or.inr ⟨rfl, rfl⟩)) ?_
  intro i j hji hi hj
  rw [idMem_contains _ _ i j hji hi hj]
  by_cases hij : i = j
  · simp only [if_pos hij]
  · simp only [if_neg hij]

end Blast
