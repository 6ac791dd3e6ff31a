import Verif.Props.BinaryLu
import Verif.Props.BackwardSystem
import Verif.BinaryTrsm
import Mathlib.LinearAlgebra.Matrix.Block
/- Concrete cases meeting the hypotheses of these theorems: Verif/Cases/BinarySystem.lean. -/
/-
Property C88: solving systems of linear equations in a binary format of IEEE 754, with overflow and underflow.
-/
set_option linter.unusedSectionVars false
namespace Blast
open Finset Prog
variable {F : Format}

/-- residual of a system solved by two triangular systems with approximate factors, relative and absolute errors -/
theorem residual_compose_add {n : Nat} {A L U : Nat → Nat → ℝ} {x y b e2 e3 : Nat → ℝ} {g1 g2 e1 : ℝ} (hg1 : 0 ≤ g1) {i : Nat}
    (h1 : |b i - ∑ q ∈ range n, L i q * y q| ≤ g1 * ∑ q ∈ range n, |L i q| * |y q| + e1)
    (h2 : ∀ q, q < n → |y q - ∑ k ∈ range n, U q k * x k| ≤ g1 * ∑ k ∈ range n, |U q k| * |x k| + e2 q)
    (h3 : ∀ k, k < n → |A i k - ∑ q ∈ range n, L i q * U q k| ≤ g2 * ∑ q ∈ range n, |L i q| * |U q k| + e3 k) :
    |b i - ∑ k ∈ range n, A i k * x k| ≤
      (g1 * (1 + g1) + g1 + g2) * ∑ q ∈ range n, ∑ k ∈ range n, |L i q| * |U q k| * |x k| +
        (e1 + (1 + g1) * ∑ q ∈ range n, |L i q| * e2 q + ∑ k ∈ range n, e3 k * |x k|) := by
  have e : b i - ∑ k ∈ range n, A i k * x k = (b i - ∑ q ∈ range n, L i q * y q) +
      (∑ q ∈ range n, L i q * (y q - ∑ k ∈ range n, U q k * x k) -
        ∑ k ∈ range n, (A i k - ∑ q ∈ range n, L i q * U q k) * x k) := by
    simp only [mul_sub, sub_mul, sum_sub_distrib, mul_sum, sum_mul]
    rw [sum_comm (f := fun k q => L i q * U q k * x k)]
    simp only [mul_assoc]
    ring
  have hy : ∀ q, q < n → |y q| ≤ (1 + g1) * (∑ k ∈ range n, |U q k| * |x k|) + e2 q := by
    intro q hq
    have t1 : |y q| ≤ |y q - ∑ k ∈ range n, U q k * x k| + |∑ k ∈ range n, U q k * x k| := by
      have := abs_add_le (y q - ∑ k ∈ range n, U q k * x k) (∑ k ∈ range n, U q k * x k)
      rwa [sub_add_cancel] at this
    have t2 : |∑ k ∈ range n, U q k * x k| ≤ ∑ k ∈ range n, |U q k| * |x k| := by
      refine le_trans (abs_sum_le_sum_abs _ _) (le_of_eq (sum_congr rfl (fun k _ => abs_mul _ _)))
    have := h2 q hq
    linarith
  have b1 : ∑ q ∈ range n, |L i q| * |y q| ≤ (1 + g1) * (∑ q ∈ range n, ∑ k ∈ range n, |L i q| * |U q k| * |x k|) + ∑ q ∈ range n, |L i q| * e2 q := by
    rw [mul_sum, ← sum_add_distrib]
    refine sum_le_sum (fun q hq => ?_)
    refine le_trans (mul_le_mul_of_nonneg_left (hy q (mem_range.1 hq)) (abs_nonneg _)) (le_of_eq ?_)
    rw [mul_add, mul_left_comm, mul_sum]
    simp only [mul_assoc]
  have b2 : |∑ q ∈ range n, L i q * (y q - ∑ k ∈ range n, U q k * x k)| ≤
      g1 * (∑ q ∈ range n, ∑ k ∈ range n, |L i q| * |U q k| * |x k|) + ∑ q ∈ range n, |L i q| * e2 q := by
    refine le_trans (abs_sum_le_sum_abs _ _) ?_
    rw [mul_sum, ← sum_add_distrib]
    refine sum_le_sum (fun q hq => ?_)
    rw [abs_mul]
    refine le_trans (mul_le_mul_of_nonneg_left (h2 q (mem_range.1 hq)) (abs_nonneg _)) (le_of_eq ?_)
    rw [mul_add, mul_left_comm, mul_sum]
    simp only [mul_assoc]
  have b3 : |∑ k ∈ range n, (A i k - ∑ q ∈ range n, L i q * U q k) * x k| ≤
      g2 * (∑ q ∈ range n, ∑ k ∈ range n, |L i q| * |U q k| * |x k|) + ∑ k ∈ range n, e3 k * |x k| := by
    refine le_trans (abs_sum_le_sum_abs _ _) ?_
    rw [sum_comm, mul_sum, ← sum_add_distrib]
    refine sum_le_sum (fun k hk => ?_)
    rw [abs_mul]
    refine le_trans (mul_le_mul_of_nonneg_right (h3 k (mem_range.1 hk)) (abs_nonneg _)) (le_of_eq ?_)
    rw [add_mul, mul_assoc, sum_mul]
  have b1' := mul_le_mul_of_nonneg_left b1 hg1
  rw [e]
  refine le_trans (abs_add_le _ _) ?_
  have t3 := abs_sub (∑ q ∈ range n, L i q * (y q - ∑ k ∈ range n, U q k * x k))
    (∑ k ∈ range n, (A i k - ∑ q ∈ range n, L i q * U q k) * x k)
  generalize (∑ q ∈ range n, ∑ k ∈ range n, |L i q| * |U q k| * |x k|) = S at *
  generalize (∑ q ∈ range n, |L i q| * e2 q) = E at *
  have e2 : (g1 * (1 + g1) + g1 + g2) * S + (e1 + (1 + g1) * E + ∑ k ∈ range n, e3 k * |x k|) =
    (g1 * ((1 + g1) * S + E) + e1) + ((g1 * S + E) + (g2 * S + ∑ k ∈ range n, e3 k * |x k|)) := by ring
  rw [e2]
  linarith

/-- the right-hand side after the interchanges and the two substitutions, in any arithmetic -/
theorem luSolve_det {V : Type} [Arith V] {SS TR n r : Nat} {A B : MPtr} {m0 : Mem V} (hSS : 0 < SS) (hd : B.panel = false)
    (hinj : Inj SS B n r) (hdis : Disj SS A n n B n r) {b c : Nat → Nat → V} (hb : Holds SS m0 B n r b) {ip p : Nat → Nat} {m1 : Mem V}
    (e1 : getrfPtr SS TR n n A ip m0 = .ok p m1) (c1 : Holds SS m1 A n n c) (c7 : ∀ y, ¬ Cells SS A n n y → m1 y = m0 y)
    (c3 : ∀ q, q < n → q ≤ p q ∧ p q < n) :
    ∃ m', luSolve SS TR n r A B ip m0 = .ok () m' ∧ Holds SS m' A n n c ∧
      Holds SS m' B n r (fun i j => trsmSol .upper false n c (fun i => trsmSol .lower true n c (fun i => rowSwaps p (0 : Nat) (n - 0) b i j) i) i) ∧
      (∀ z, ¬ Cells SS A n n z → ¬ Cells SS B n r z → m' z = m0 z) := by
  have notA : ∀ i j : Nat, i < n → j < r → ¬ Cells SS A n n (B.addr SS i j) := by
    rintro i j hi hj ⟨i', j', hi', hj', he⟩
    exact hdis i' j' i j hi' hj' hi hj he.symm
  have notB : ∀ i j : Nat, i < n → j < n → ¬ Cells SS B n r (A.addr SS i j) := by
    rintro i j hi hj ⟨i', j', hi', hj', he⟩
    exact hdis i j i' j' hi hj hi' hj' he
  have hb1 : Holds SS m1 B n r b := fun i j hi hj => by rw [c7 _ (notA i j hi hj)]; exact hb i j hi hj
  obtain ⟨m2, e2, f2, g2⟩ := C24_laswp hSS hd hb1 hinj (Nat.zero_le n) (Nat.le_refl n) (ipiv := p)
    (fun q _ hq => (c3 q hq).2)
  have ha2 : Holds SS m2 A n n c := fun i j hi hj => by rw [g2 _ (notB i j hi hj)]; exact c1 i j hi hj
  have self : SameOrDisj SS B B n r := fun i j i' j' h1 h2 h3 h4 he => hinj i j i' j' h1 h2 h3 h4 he
  obtain ⟨m3, e3, f3, g3⟩ := trsmPtr_det (SS := SS) (m := n) (n := r) (A := A) (X := B) (B := B) .lower true
    (mem := m2) (a := c) (fun i k hi hk _ => ⟨ha2 i k hi hk, notB i k hi hk⟩)
    (fun i j hi hj => by rw [f2 i j hi hj]; rfl) hinj f2 self
  have ha3 : Holds SS m3 A n n c := fun i j hi hj => by rw [g3 _ (notB i j hi hj)]; exact ha2 i j hi hj
  obtain ⟨m4, e4, f4, g4⟩ := trsmPtr_det (SS := SS) (m := n) (n := r) (A := A) (X := B) (B := B) .upper false
    (mem := m3) (a := c) (fun i k hi hk _ => ⟨ha3 i k hi hk, notB i k hi hk⟩)
    (fun i j hi hj => by rw [f3 i j hi hj]; rfl) hinj f3 self
  refine ⟨m4, ?_, fun i j hi hj => by rw [g4 _ (notB i j hi hj)]; exact ha3 i j hi hj, f4, fun z h1 h2 => ?_⟩
  · unfold luSolve
    rw [bind_ok e1, bind_ok e2, bind_ok e3]
    exact e4
  · rw [g4 z h2, g3 z h2, g2 z h2, c7 z h1]

/-! ### Specification -/

/-- The columns of X that contain neither infinities nor NaN solve the system up to rounding errors and underflow: `a`, `b` are the matrices of
the system, `c`, `p` the factors of `a` left by getrf and the interchanges, `x` the result. -/
def BinSolves (F : Format) (n r : Nat) (a b c : Nat → Nat → Bin F) (p : Nat → Nat) (x : Nat → Nat → Bin F) : Prop :=
  ∀ j, j < r → (∀ i, i < n → (x i j).Finite) → (∀ i, i < n → (b i j).Finite) ∧ ∀ i, i < n →
    |rowSwaps p 0 n (fun i j => (b i j).real) i j - ∑ k ∈ range n, rowSwaps p 0 n (fun i j => (a i j).real) i k * (x k j).real| ≤
      ((1 / (1 - F.u)) ^ (2 * n) + (1 / (1 - F.u)) ^ n - 2) *
          ∑ q ∈ range n, ∑ k ∈ range n, |tri .lower true (fun i j => (c i j).real) i q| * |tri .upper false (fun i j => (c i j).real) q k| * |(x k j).real| +
        (1 / (1 - F.u)) ^ n * ((3 * n + 1) + ∑ k ∈ range n, (3 * n + |(c k k).real|) * ((1 / (1 - F.u)) ^ n + |(x k j).real|)) * F.eta

/-! ### The theorems -/

/-- **C88** (LU). The sequence getrf, laswp, trsm, trsm on binary floating-point numbers either throws invalid_argument, leaving everything but A as it was,
or it returns, changing only A and B. If in the latter case the factors in A are finite, then A was finite and every finite column of the result X solves the
system up to rounding errors and underflow, whatever overflowed elsewhere. -/
theorem C88_lu_solve (hW : F.Wide) {SS TR n r : Nat} {A B : MPtr} {m0 : Mem (Bin F)} (hp : GetrfPre SS TR n n A m0) (hd : B.panel = false)
    (hinj : Inj SS B n r) (hdis : Disj SS A n n B n r) {a b : Nat → Nat → Bin F} (ha : Holds SS m0 A n n a) (hb : Holds SS m0 B n r b)
    (hn : ∀ i j, i < n → j < n → (a i j).IsNum) (ip : Nat → Nat) :
    (∃ m', luSolve SS TR n r A B ip m0 = .throw .invalidArgument m' ∧ getrfPtr SS TR n n A ip m0 = .throw .invalidArgument m' ∧
      (∀ z, ¬ Cells SS A n n z → m' z = m0 z)) ∨
    (∃ m' m1 c p x, luSolve SS TR n r A B ip m0 = .ok () m' ∧ getrfPtr SS TR n n A ip m0 = .ok p m1 ∧ Holds SS m1 A n n c ∧
      Holds SS m' A n n c ∧ Holds SS m' B n r x ∧
      (∀ q, q < n → q ≤ p q ∧ p q < n) ∧ IsBinLU F 1 1 n n a c p ∧
      ((∀ i j, i < n → j < n → (c i j).Finite) → BinSolves F n r a b c p x) ∧
      (∀ z, ¬ Cells SS A n n z → ¬ Cells SS B n r z → m' z = m0 z)) := by
  have hSS := hp.ss
  have ho := C87_getrf hW hp ha hn ip
  rcases ho.either with ⟨p, m1, e1, c7⟩ | ⟨m1, e1, c7⟩
  swap
  · exact Or.inl ⟨m1, by unfold luSolve; exact bind_throw e1, e1, c7⟩
  obtain ⟨c, c1, c2, c3, -⟩ := ho.ret p m1 e1
  rw [Nat.min_self] at c3
  obtain ⟨m4, e4, f1, f4, f5⟩ := luSolve_det hSS hd hinj hdis hb e1 c1 c7 c3
  refine Or.inr ⟨m4, m1, c, p, _, e4, e1, c1, f1, f4, c3, c2, ?_, f5⟩
  · intro hc j hj hx
    beta_reduce at hx ⊢
    obtain ⟨-, -, d2, d3⟩ := c2 hc
    rw [Nat.min_self] at d2 d3
    rw [one_mul] at d3
    have ry := trsmSol_rec .lower true n c (fun i => rowSwaps p (0 : Nat) (n - 0) b i j)
    set y := trsmSol .lower true n c (fun i => rowSwaps p (0 : Nat) (n - 0) b i j) with hy
    have rx := trsmSol_rec .upper false n c y
    set x := trsmSol .upper false n c y with hx'
    have k2 := fun q (hq : q < n) => Bin.trsmRec_inv rx hq (hx q hq) (fun _ => hc q q hq hq)
    have k1 := fun q (hq : q < n) => Bin.trsmRec_inv ry hq ((k2 q hq).1) (fun h => by cases h)
    have hv := Bin.bu_pos (F := F)
    have he := F.eta_pos
    have hG : 1 ≤ (1 / (1 - F.u)) ^ n := by
      rw [← one_add_bu F.u_lt_one]
      exact one_le_pow₀ (by linarith)
    have hbf : ∀ i, i < n → (b i j).Finite := by
      intro i hi
      obtain ⟨i', h1, h2⟩ := rowPerm_surj (p := p) (k0 := 0) (t := n) (m := n) (fun q _ hq => (c3 q (by omega)).2) (by omega) hi
      have := (k1 i' h1).1
      rw [rowSwaps_eq, Nat.sub_zero, h2] at this
      exact this
    refine ⟨hbf, fun i hi => ?_⟩
    have r1 := (k1 i hi).2.2.2
    rw [tri_diag, if_pos rfl, abs_one, rowSwaps_eq, Nat.sub_zero] at r1
    have := residual_compose_add (A := rowSwaps p 0 n fun i j => (a i j).real) (x := fun k => (x k).real) (y := fun q => (y q).real)
      (L := tri .lower true (fun i k => (c i k).real)) (U := tri .upper false (fun i k => (c i k).real))
      (b := fun i => rowSwaps p 0 n (fun i j => (b i j).real) i j) (g1 := (1 / (1 - F.u)) ^ n - 1) (by linarith) (i := i)
      (by rw [rowSwaps_eq]; exact r1) (fun q hq => (k2 q hq).2.2.2) (fun k hk => d3 i k hi hk)
    refine le_trans this (add_le_add (le_of_eq ?_) ?_)
    · rw [show 2 * n = n + n by omega, pow_add]
      ring
    · set G := (1 / (1 - F.u)) ^ n
      have hL : ∀ q, q < n → |tri .lower true (fun i k => (c i k).real) i q| ≤ 1 := by
        intro q hq
        rw [tri_eq_lower]
        by_cases t1 : i = q
        · rw [if_pos t1, abs_one]
        · rw [if_neg t1]
          by_cases t2 : q < i
          · rw [if_pos t2]; exact d2 i q hq t2 hi
          · rw [if_neg t2, abs_zero]; exact zero_le_one
      have s1 : ∑ q ∈ range n, |tri .lower true (fun i k => (c i k).real) i q| * (G * (3 * n + |tri .upper false (fun i k => (c i k).real) q q|) * F.eta) ≤
          ∑ q ∈ range n, G * (3 * n + |(c q q).real|) * F.eta := by
        refine sum_le_sum fun q hq => ?_
        rw [tri_diag]
        exact mul_le_of_le_one_left (by positivity) (hL q (mem_range.1 hq))
      have s2 : ∑ k ∈ range n, G * (3 * n + if k < n then |(c k k).real| else 0) * F.eta * |(x k).real| =
          ∑ k ∈ range n, G * (3 * n + |(c k k).real|) * F.eta * |(x k).real| :=
        sum_congr rfl fun k hk => by rw [if_pos (mem_range.1 hk)]
      rw [s2]
      have s3 := mul_le_mul_of_nonneg_left s1 (show (0 : ℝ) ≤ 1 + (G - 1) by linarith)
      refine le_trans (add_le_add_left (add_le_add_right s3 _) _) (le_of_eq ?_)
      have s4 : (1 + (G - 1)) * ∑ q ∈ range n, G * (3 * n + |(c q q).real|) * F.eta + ∑ k ∈ range n, G * (3 * n + |(c k k).real|) * F.eta * |(x k).real| =
          G * (∑ k ∈ range n, (3 * n + |(c k k).real|) * (G + |(x k).real|)) * F.eta := by
        rw [mul_sum, ← sum_add_distrib, mul_sum, sum_mul]
        exact sum_congr rfl fun k _ => by ring
      rw [add_assoc, s4]
      ring

/-- **C88** (LU, a priori). If A is finite with |A| ≤ μ, `W = (2 (1+u)^2)^n (μ + 2 eta)` does not overflow, and no singular matrix lies close to A, then the
sequence returns, the factors are finite, and every finite column of X has a residual of at most
`(G^2 + G - 2) n W * (sum of |X|) + G (3 n + 1 + sum of (3 n + W) (G + |X|)) eta`, G = (1/(1-u))^n. -/
theorem C88_lu_solve_safe (hW : F.Wide) {SS TR n r : Nat} {A B : MPtr} {m0 : Mem (Bin F)} (hp : GetrfPre SS TR n n A m0) (hd : B.panel = false)
    (hinj : Inj SS B n r) (hdis : Disj SS A n n B n r) {a b : Nat → Nat → Bin F} (ha : Holds SS m0 A n n a) (hb : Holds SS m0 B n r b)
    (hn : ∀ i j, i < n → j < n → (a i j).IsNum) (ip : Nat → Nat) (hf : ∀ i j, i < n → j < n → (a i j).Finite) {μ : ℝ} (h0 : 0 ≤ μ)
    (hμ : ∀ i j, i < n → j < n → |(a i j).real| ≤ μ) {G W : ℝ} (hGe : G = (1 / (1 - F.u)) ^ n) (hWe : W = (2 * (1 + F.u) ^ 2) ^ n * (μ + 2 * F.eta))
    (hbig : W < F.big) (hrob : RobustIndep ((G - 1) * (n * W) + G * (3 * n + W) * F.eta) n n (fun i j => (a i j).real)) :
    ∃ m' c x, luSolve SS TR n r A B ip m0 = .ok () m' ∧ Holds SS m' A n n c ∧ (∀ i j, i < n → j < n → (c i j).Finite) ∧ Holds SS m' B n r x ∧
      (∀ j, j < r → (∀ i, i < n → (x i j).Finite) → (∀ i, i < n → (b i j).Finite) ∧ ∀ i, i < n →
        |(b i j).real - ∑ k ∈ range n, (a i k).real * (x k j).real| ≤
          (G ^ 2 + G - 2) * (n * W) * (∑ k ∈ range n, |(x k j).real|) +
            G * ((3 * n + 1) + ∑ k ∈ range n, (3 * n + W) * (G + |(x k j).real|)) * F.eta) ∧
      (∀ z, ¬ Cells SS A n n z → ¬ Cells SS B n r z → m' z = m0 z) := by
  have hsafe := C87_getrf_safe hW hp ha hn ip hf h0 hμ (by rw [Nat.min_self, ← hWe]; exact hbig)
  obtain ⟨p', m1', e'⟩ := hsafe.full (by rw [Nat.min_self, ← hWe, ← hGe]; exact hrob)
  rcases C88_lu_solve hW hp hd hinj hdis ha hb hn ip with ⟨m', -, e1, -⟩ | ⟨m', m1, c, p, x, e1, e2, e3, e4, e5, e6, e7, e8, e9⟩
  · rw [e'] at e1; simp at e1
  obtain ⟨c', f1, f2, f3, f4⟩ := hsafe.finite p m1 e2
  rw [Nat.min_self] at f3 f4
  rw [← hWe] at f4
  have hcc : ∀ i j, i < n → j < n → c' i j = c i j := by
    intro i j hi hj
    have := (f1 i j hi hj).symm.trans (e3 i j hi hj)
    exact Option.some.inj this
  have hc : ∀ i j, i < n → j < n → (c i j).Finite := fun i j hi hj => by rw [← hcc i j hi hj]; exact f2 i j hi hj
  refine ⟨m', c, x, e1, e4, hc, e5, fun j hj hx => ?_, e9⟩
  obtain ⟨k1, k2⟩ := e8 hc j hj hx
  refine ⟨k1, fun i hi => ?_⟩
  obtain ⟨i', h1, h2⟩ := rowPerm_surj (p := p) (k0 := 0) (t := n) (m := n) (fun q _ hq => (e6 q (by omega)).2) (by omega) hi
  have := k2 i' h1
  simp only [rowSwaps_eq, h2] at this
  refine le_trans this ?_
  have he := F.eta_pos
  have hG : 1 ≤ G := by
    have hv := Bin.bu_pos (F := F)
    rw [hGe, ← one_add_bu F.u_lt_one]
    exact one_le_pow₀ (by linarith)
  have hu := F.u_pos
  have hW0 : 0 ≤ W := by rw [hWe]; positivity
  have hUb : ∀ q k, q ≤ k → k < n → |(c q k).real| ≤ W := fun q k hq hk => by
    rw [← hcc q k (by omega) hk]; exact f4 q k (by omega) hk hq
  rw [← hGe, show (1 / (1 - F.u)) ^ (2 * n) = G ^ 2 by rw [hGe, ← pow_mul, mul_comm]]
  refine add_le_add ?_ ?_
  · rw [mul_assoc]
    refine mul_le_mul_of_nonneg_left ?_ (by nlinarith)
    have step : ∀ q ∈ range n, ∑ k ∈ range n, |tri .lower true (fun i j => (c i j).real) i' q| * |tri .upper false (fun i j => (c i j).real) q k| * |(x k j).real| ≤
        W * ∑ k ∈ range n, |(x k j).real| := by
      intro q hq
      have hq := mem_range.1 hq
      rw [mul_sum]
      refine sum_le_sum (fun k hk => mul_le_mul_of_nonneg_right ?_ (abs_nonneg _))
      refine le_trans (mul_le_of_le_one_left (abs_nonneg _) ?_) ?_
      · rw [tri_eq_lower]
        by_cases t1 : i' = q
        · rw [if_pos t1, abs_one]
        · rw [if_neg t1]
          by_cases t2 : q < i'
          · rw [if_pos t2, ← hcc i' q h1 hq]; exact f3 i' q hq t2 h1
          · rw [if_neg t2, abs_zero]; exact zero_le_one
      · rw [tri_eq_upper]
        by_cases t1 : q ≤ k
        · rw [if_pos t1]; exact hUb q k t1 (mem_range.1 hk)
        · rw [if_neg t1, abs_zero]; exact hW0
    refine le_trans (sum_le_sum step) (le_of_eq ?_)
    rw [sum_const, card_range, nsmul_eq_mul]
    ring
  · refine mul_le_mul_of_nonneg_right (mul_le_mul_of_nonneg_left (add_le_add_right (sum_le_sum fun k hk => ?_) _) (by linarith)) he.le
    refine mul_le_mul_of_nonneg_right ?_ (by positivity)
    have := hUb k k le_rfl (mem_range.1 hk)
    linarith

/-- if no singular matrix is near, the pivots are not small -/
theorem pivot_ge_of_robust {n : Nat} {A c : Nat → Nat → ℝ} {p : Nat → Nat} {D δ : ℝ} (hp : ∀ q, q < n → p q < n)
    (hl : ∀ i k, k < i → i < n → |c i k| ≤ 1)
    (hD : ∀ i j, i < n → j < n → |rowSwaps p 0 n A i j - ∑ k ∈ range n, tri .lower true c i k * tri .upper false c k j| ≤ D)
    (hrob : RobustIndep (D + δ) n n A) {k : Nat} (hk : k < n) : δ < |c k k| := by
  by_contra hle
  push Not at hle
  have hind := hrob (fun i j => ∑ q ∈ range n, tri .lower true c (rowPermInv p n i) q * (if q = k ∧ j = k then 0 else tri .upper false c q j))
    (fun i j hi hj => ?_)
  · rw [Nat.min_self] at hind
    have hU : ColsIndep n n (fun q j => if q = k ∧ j = k then 0 else tri .upper false c q j) := by
      intro x hx j hj
      refine hind x (fun i hi => ?_) j hj
      have e : ∑ j ∈ range n, (∑ q ∈ range n, tri .lower true c (rowPermInv p n i) q * (if q = k ∧ j = k then 0 else tri .upper false c q j)) * x j =
          ∑ q ∈ range n, tri .lower true c (rowPermInv p n i) q * ∑ j ∈ range n, (if q = k ∧ j = k then 0 else tri .upper false c q j) * x j := by
        simp only [sum_mul, mul_sum]
        rw [sum_comm]
        exact sum_congr rfl fun q _ => sum_congr rfl fun j _ => by ring
      rw [e]
      refine sum_eq_zero fun q hq => ?_
      have := hx q (mem_range.1 hq)
      beta_reduce at this
      rw [this, mul_zero]
    rw [colsIndep_iff_det] at hU
    apply hU
    rw [Matrix.det_of_upperTriangular]
    · refine prod_eq_zero (mem_univ (⟨k, hk⟩ : Fin n)) ?_
      show (if k = k ∧ k = k then (0 : ℝ) else _) = 0
      rw [if_pos ⟨rfl, rfl⟩]
    · intro i j hij
      have hij : (j : Nat) < (i : Nat) := hij
      show (if (i : Nat) = k ∧ (j : Nat) = k then (0 : ℝ) else tri .upper false c i j) = 0
      rw [if_neg (by omega), tri_upper_zero hij]
  · beta_reduce
    have hi' := rowPermInv_lt (p := p) (t := n) hp le_rfl hi
    have h1 := hD _ j hi' hj
    rw [rowSwaps_eq, rowPermInv_right] at h1
    generalize rowPermInv p n i = i' at hi' h1 ⊢
    have e : ∑ q ∈ range n, tri .lower true c i' q * (if q = k ∧ j = k then 0 else tri .upper false c q j) =
        ∑ q ∈ range n, tri .lower true c i' q * tri .upper false c q j - if j = k then tri .lower true c i' k * c k k else 0 := by
      by_cases hj : j = k
      · rw [if_pos hj, eq_sub_iff_add_eq]
        rw [← add_sum_erase _ _ (mem_range.2 hk), ← add_sum_erase _ (fun q => tri .lower true c i' q * tri .upper false c q j) (mem_range.2 hk)]
        rw [if_pos ⟨rfl, hj⟩, mul_zero, zero_add, hj, tri_diag, if_neg (by simp), add_comm]
        congr 1
        exact sum_congr rfl fun q hq => by rw [if_neg (fun h => (mem_erase.1 hq).1 h.1)]
      · rw [if_neg hj, sub_zero]
        exact sum_congr rfl fun q _ => by rw [if_neg (fun h => hj h.2)]
    rw [e]
    have h2 : |(if j = k then tri .lower true c i' k * c k k else 0)| ≤ δ := by
      by_cases hj : j = k
      · rw [if_pos hj, abs_mul]
        refine le_trans (mul_le_of_le_one_left (abs_nonneg _) ?_) hle
        rw [tri_eq_lower]
        by_cases t1 : i' = k
        · rw [if_pos t1, abs_one]
        · rw [if_neg t1]
          by_cases t2 : k < i'
          · rw [if_pos t2]; exact hl i' k t2 hi'
          · rw [if_neg t2, abs_zero]; exact zero_le_one
      · rw [if_neg hj, abs_zero]
        exact le_trans (abs_nonneg _) hle
    have h3 := abs_sub (∑ q ∈ range n, tri .lower true c i' q * tri .upper false c q j - A i j) (if j = k then tri .lower true c i' k * c k k else 0)
    rw [abs_sub_comm] at h1
    rw [sub_right_comm]
    linarith

/-- **C86** (trsm, a priori). If the elements of the triangle of A are finite, at most `α` off the diagonal and at least `δ` on it, B is finite with `|B| ≤ β`,
and `W = C (β + (2 n + δ) eta) (1 + C α)^n`, `C = (1+u)^(2n+1) / δ`, does not overflow, then X is finite, `|X| ≤ W`, and X solves the system up to rounding
errors and underflow. -/
theorem C86_trsm_safe {SS : Nat} {m : Mem (Bin F)} {A B X : Container} (uplo : Reg.UpLo) (unit : Bool) (h : TrsmArgs SS m A B X)
    (hs : (A.rows = B.rows ∧ A.cols = B.rows) ∧ X.rows = B.rows ∧ X.cols = B.cols) {a b : Nat → Nat → Bin F}
    (ha : ContainsTri SS m A uplo unit a) (hb : Contains SS m B b) {α β δ C W : ℝ} (hα : 0 ≤ α) (hβ : 0 ≤ β) (hδ : 0 < δ) (hun : unit = true → δ = 1)
    (haf : ∀ i k, i < B.rows → k < B.rows → k ≠ i → TriRef uplo unit i k → (a i k).Finite ∧ |(a i k).real| ≤ α)
    (hd : unit = false → ∀ i, i < B.rows → (a i i).Finite ∧ δ ≤ |(a i i).real|)
    (hbf : ∀ i j, i < B.rows → j < B.cols → (b i j).Finite ∧ |(b i j).real| ≤ β)
    (hC : C = (1 + F.u) ^ (2 * B.rows + 1) / δ) (hWe : W = C * (β + (2 * B.rows + δ) * F.eta) * (1 + C * α) ^ B.rows)
    (h1 : W < F.big) (h2 : δ * W < F.big) :
    ∃ m' x, trsmCall SS uplo unit A B X m = .ok () m' ∧ Contains SS m' X x ∧ OnlyElemsChange SS m m' X ∧ ∀ i j, i < X.rows → j < X.cols →
      (x i j).Finite ∧ |(x i j).real| ≤ W ∧
      |(b i j).real - ∑ k ∈ range X.rows, tri uplo unit (fun i k => (a i k).real) i k * (x k j).real| ≤
        ((1 / (1 - F.u)) ^ X.rows - 1) * ∑ k ∈ range X.rows, |tri uplo unit (fun i k => (a i k).real) i k| * |(x k j).real| +
          (1 / (1 - F.u)) ^ X.rows * (3 * X.rows + |tri uplo unit (fun i k => (a i k).real) i i|) * F.eta := by
  obtain ⟨m', e, e1, e2⟩ := det_trsm uplo unit h hs ha hb
  obtain ⟨-, h3, h4⟩ := hs
  refine ⟨m', _, e, e1, e2, fun i j hi hj => ?_⟩
  rw [h3] at hi ⊢
  have hrec := trsmSol_rec uplo unit B.rows a (fun i => b i j)
  have k := Bin.trsmRec_fwd hrec hα hδ hun haf hd (fun i hi => hbf i j hi (by omega)) hβ hC hWe h1 h2 i hi
  exact ⟨k.1, k.2, (Bin.trsmRec_inv hrec hi k.1 (fun hu => (hd hu i hi).1)).2.2.2⟩

/-- **C88** (LU, no overflow at all). If A and B are finite with |A| ≤ μ, |B| ≤ β, no singular matrix lies within `(G - 1) n W + G (3 n + W) eta + δ` of A,
and the bounds W of the factors, Y of the intermediate result and X of the solution do not overflow, then the sequence returns, everything it
computes is finite, the solution is at most X, and its residual is as small as in the previous theorem. -/
theorem C88_lu_solve_total (hW : F.Wide) {SS TR n r : Nat} {A B : MPtr} {m0 : Mem (Bin F)} (hp : GetrfPre SS TR n n A m0) (hd : B.panel = false)
    (hinj : Inj SS B n r) (hdis : Disj SS A n n B n r) {a b : Nat → Nat → Bin F} (ha : Holds SS m0 A n n a) (hb : Holds SS m0 B n r b)
    (hn : ∀ i j, i < n → j < n → (a i j).IsNum) (ip : Nat → Nat) (hf : ∀ i j, i < n → j < n → (a i j).Finite) {μ β δ : ℝ} (h0 : 0 ≤ μ)
    (hμ : ∀ i j, i < n → j < n → |(a i j).real| ≤ μ) (hβ0 : 0 ≤ β) (hβ : ∀ i j, i < n → j < r → (b i j).Finite ∧ |(b i j).real| ≤ β) (hδ : 0 < δ)
    {G W c1 c2 Y X : ℝ} (hGe : G = (1 / (1 - F.u)) ^ n) (hWe : W = (2 * (1 + F.u) ^ 2) ^ n * (μ + 2 * F.eta)) (hbig : W < F.big)
    (hrob : RobustIndep ((G - 1) * (n * W) + G * (3 * n + W) * F.eta + δ) n n (fun i j => (a i j).real))
    (hc1 : c1 = (1 + F.u) ^ (2 * n + 1)) (hY : Y = c1 * (β + (2 * n + 1) * F.eta) * (1 + c1) ^ n) (hYb : Y < F.big)
    (hc2 : c2 = (1 + F.u) ^ (2 * n + 1) / δ) (hX : X = c2 * (Y + (2 * n + δ) * F.eta) * (1 + c2 * W) ^ n) (hXb : X < F.big) (hXb' : δ * X < F.big) :
    ∃ m' x, luSolve SS TR n r A B ip m0 = .ok () m' ∧ Holds SS m' B n r x ∧
      (∀ i j, i < n → j < r → (x i j).Finite ∧ |(x i j).real| ≤ X ∧
        |(b i j).real - ∑ k ∈ range n, (a i k).real * (x k j).real| ≤
          (G ^ 2 + G - 2) * (n * W) * (∑ k ∈ range n, |(x k j).real|) +
            G * ((3 * n + 1) + ∑ k ∈ range n, (3 * n + W) * (G + |(x k j).real|)) * F.eta) ∧
      (∀ z, ¬ Cells SS A n n z → ¬ Cells SS B n r z → m' z = m0 z) := by
  have hu := F.u_pos
  have he := F.eta_pos
  have hG : 1 ≤ G := by
    have hv := Bin.bu_pos (F := F)
    rw [hGe, ← one_add_bu F.u_lt_one]
    exact one_le_pow₀ (by linarith)
  have hW0 : 0 ≤ W := by rw [hWe]; positivity
  set D := (G - 1) * (n * W) + G * (3 * n + W) * F.eta with hD
  have hrob' : RobustIndep D n n (fun i j => (a i j).real) := fun a' h => hrob a' fun i j hi hj => le_trans (h i j hi hj) (by linarith)
  obtain ⟨m', c', x, e1, -, -, e4, e5, e6⟩ := C88_lu_solve_safe hW hp hd hinj hdis ha hb hn ip hf h0 hμ hGe hWe hbig hrob'
  have hsafe := C87_getrf_safe hW hp ha hn ip hf h0 hμ (by rw [Nat.min_self, ← hWe]; exact hbig)
  have ho := C87_getrf hW hp ha hn ip
  obtain ⟨p, m1, g1⟩ := hsafe.full (by rw [Nat.min_self, ← hWe, ← hGe]; exact hrob')
  have g2 : ∀ y, ¬ Cells SS A n n y → m1 y = m0 y := by
    rcases ho.either with ⟨p', m1', f1, f2⟩ | ⟨m1', f1, f2⟩
    · rw [g1] at f1; injection f1 with q1 q2; subst q2; exact f2
    · rw [g1] at f1; simp at f1
  obtain ⟨c, c1', c2', c3, -⟩ := ho.ret p m1 g1
  obtain ⟨c'', f1, f2, f3, f4⟩ := hsafe.finite p m1 g1
  rw [Nat.min_self] at f3 f4 c3
  rw [← hWe] at f4
  have hcc : ∀ i j, i < n → j < n → c'' i j = c i j := fun i j hi hj => Option.some.inj ((f1 i j hi hj).symm.trans (c1' i j hi hj))
  have hc : ∀ i j, i < n → j < n → (c i j).Finite := fun i j hi hj => by rw [← hcc i j hi hj]; exact f2 i j hi hj
  have hL : ∀ i k, k < i → i < n → |(c i k).real| ≤ 1 := fun i k hk hi => by rw [← hcc i k hi (by omega)]; exact f3 i k (by omega) hk hi
  have hU : ∀ i j, i ≤ j → j < n → |(c i j).real| ≤ W := fun i j hi hj => by rw [← hcc i j (by omega) hj]; exact f4 i j (by omega) hj hi
  obtain ⟨m2, k1, -, k3, -⟩ := luSolve_det hp.ss hd hinj hdis hb g1 c1' g2 c3
  rw [e1] at k1
  injection k1 with _ k1
  subst k1
  -- the pivots
  have hpiv : ∀ k, k < n → δ < |(c k k).real| := by
    obtain ⟨-, -, d2, d3⟩ := c2' hc
    rw [Nat.min_self] at d2 d3
    rw [one_mul, ← hGe] at d3
    refine fun k hk => pivot_ge_of_robust (c := fun i j => (c i j).real) (D := D) (fun q hq => (c3 q hq).2) hL (fun i j hi hj => le_trans (d3 i j hi hj) ?_) hrob hk
    rw [if_pos hj]
    refine add_le_add (mul_le_mul_of_nonneg_left ?_ (by linarith)) (mul_le_mul_of_nonneg_right (mul_le_mul_of_nonneg_left ?_ (by linarith)) he.le)
    · have step : ∀ q ∈ range n, |tri .lower true (fun i j => (c i j).real) i q| * |tri .upper false (fun i j => (c i j).real) q j| ≤ W := by
        intro q hq
        have hq := mem_range.1 hq
        refine le_trans (mul_le_of_le_one_left (abs_nonneg _) ?_) ?_
        · rw [tri_eq_lower]
          by_cases t1 : i = q
          · rw [if_pos t1, abs_one]
          · rw [if_neg t1]
            by_cases t2 : q < i
            · rw [if_pos t2]; exact hL i q t2 hi
            · rw [if_neg t2, abs_zero]; exact zero_le_one
        · rw [tri_eq_upper]
          by_cases t1 : q ≤ j
          · rw [if_pos t1]; exact hU q j t1 hj
          · rw [if_neg t1, abs_zero]; exact hW0
      refine le_trans (sum_le_sum step) (le_of_eq ?_)
      rw [sum_const, card_range, nsmul_eq_mul]
    · have := hU j j le_rfl hj
      linarith
  have hxf : ∀ i j, i < n → j < r → (x i j).Finite ∧ |(x i j).real| ≤ X := by
    intro i j hi hj
    have ex : x i j = _ := Option.some.inj ((e4 i j hi hj).symm.trans (k3 i j hi hj))
    rw [ex]
    have ry := trsmSol_rec .lower true n c (fun i => rowSwaps p (0 : Nat) (n - 0) b i j)
    have hy := Bin.trsmRec_fwd ry (α := 1) (β := β) (δ := 1) (C := c1) (W := Y) zero_le_one one_pos (fun _ => rfl)
      (fun i k hi hk hne hr => ⟨hc i k hi hk, by
        rcases hr with ⟨h, -⟩ | ⟨-, h⟩ | ⟨h, -⟩
        · exact absurd h.symm hne
        · exact hL i k h hi
        · cases h⟩) (fun h => by cases h)
      (fun i hi => by
        rw [rowSwaps_eq, Nat.sub_zero]
        refine hβ _ j ?_ hj
        exact (rowPerm_bounds (fun q _ hq => ⟨Nat.zero_le _, (c3 q (by omega)).2⟩) (by omega) ⟨Nat.zero_le _, hi⟩).2) hβ0 (by rw [hc1, div_one]) (by rw [hY, mul_one]) hYb (by rw [one_mul]; exact hYb)
    have rx := trsmSol_rec .upper false n c (trsmSol .lower true n c (fun i => rowSwaps p (0 : Nat) (n - 0) b i j))
    have hY0 : 0 ≤ Y := by
      rw [hY, hc1]; positivity
    exact Bin.trsmRec_fwd rx (α := W) (β := Y) (δ := δ) (C := c2) (W := X) hW0 hδ (fun h => by cases h)
      (fun i k hi hk hne hr => ⟨hc i k hi hk, by
        rcases hr with ⟨h, -⟩ | ⟨h, -⟩ | ⟨-, h⟩
        · exact absurd h.symm hne
        · cases h
        · exact hU i k h.le hk⟩) (fun _ i hi => ⟨hc i i hi hi, (hpiv i hi).le⟩) hy hY0 hc2 hX hXb hXb' i hi
  exact ⟨m', x, e1, e4, fun i j hi hj => ⟨(hxf i j hi hj).1, (hxf i j hi hj).2, (e5 j hj (fun i hi => (hxf i j hi hj).1)).2 i hi⟩, e6⟩

/-- **C88** (LU, matrices). The same for matrix objects: A column-major, B of the same number of rows in either storage order. -/
theorem C88_lu_solve_matrices (hW : F.Wide) {SS : Nat} (hSS : 0 < SS) {m0 : Mem (Bin F)} {A B : Container}
    (dA : A.isPanel = false) (dB : B.isPanel = false) (sA : A.so = .columnMajor) (lA : Live SS m0 A)
    (hap : Apart SS A B) (hsq : A.cols = A.rows) (hr : B.rows = A.rows)
    {a b : Nat → Nat → Bin F} (ha : Contains SS m0 A a) (hb : Contains SS m0 B b) (ip : Nat → Nat)
    (hn : ∀ i j, i < A.rows → j < A.rows → (a i j).IsNum) (hf : ∀ i j, i < A.rows → j < A.rows → (a i j).Finite) {μ β δ : ℝ} (h0 : 0 ≤ μ)
    (hμ : ∀ i j, i < A.rows → j < A.rows → |(a i j).real| ≤ μ) (hβ0 : 0 ≤ β)
    (hβ : ∀ i j, i < A.rows → j < B.cols → (b i j).Finite ∧ |(b i j).real| ≤ β) (hδ : 0 < δ)
    {G W c1 c2 Y X : ℝ} (hGe : G = (1 / (1 - F.u)) ^ A.rows) (hWe : W = (2 * (1 + F.u) ^ 2) ^ A.rows * (μ + 2 * F.eta)) (hbig : W < F.big)
    (hrob : RobustIndep ((G - 1) * (A.rows * W) + G * (3 * A.rows + W) * F.eta + δ) A.rows A.rows (fun i j => (a i j).real))
    (hc1 : c1 = (1 + F.u) ^ (2 * A.rows + 1)) (hY : Y = c1 * (β + (2 * A.rows + 1) * F.eta) * (1 + c1) ^ A.rows) (hYb : Y < F.big)
    (hc2 : c2 = (1 + F.u) ^ (2 * A.rows + 1) / δ) (hX : X = c2 * (Y + (2 * A.rows + δ) * F.eta) * (1 + c2 * W) ^ A.rows) (hXb : X < F.big)
    (hXb' : δ * X < F.big) :
    ∃ m' x, luSolve SS 1 A.rows B.cols (A.mptr SS) (B.mptr SS) ip m0 = .ok () m' ∧ Contains SS m' B x ∧
      (∀ i j, i < A.rows → j < B.cols → (x i j).Finite ∧ |(x i j).real| ≤ X ∧
        |(b i j).real - ∑ k ∈ range A.rows, (a i k).real * (x k j).real| ≤
          (G ^ 2 + G - 2) * (A.rows * W) * (∑ k ∈ range A.rows, |(x k j).real|) +
            G * ((3 * A.rows + 1) + ∑ k ∈ range A.rows, (3 * A.rows + W) * (G + |(x k j).real|)) * F.eta) ∧
      (∀ z, ¬ IsElem SS A z → ¬ IsElem SS B z → m' z = m0 z) := by
  have hp := LuPre.of_live hSS dA sA lA
  rw [hsq] at hp
  obtain ⟨m', x, h1, h2, h3, h4⟩ := C88_lu_solve_total (r := B.cols) (B := B.mptr SS) hW hp
    (by rw [Container.mptr_eq]; exact dB) (by have := B.inj hSS; rwa [hr] at this)
    (by have := hap.disj hSS; rwa [hr, hsq] at this)
    (by have := ha.holds; rwa [hsq] at this) (by have := hb.holds; rwa [hr] at this) hn ip hf h0 hμ hβ0 hβ hδ hGe hWe hbig hrob hc1 hY hYb hc2 hX hXb hXb'
  refine ⟨m', x, h1, ?_, h3, fun z hz1 hz2 => h4 z (fun hc => hz1 ((cells_iff A z).1 (by rw [hsq]; exact hc)))
    (fun hc => hz2 ((cells_iff B z).1 (by rw [hr]; exact hc)))⟩
  intro i j hi hj
  rw [Container.addr_eq_mptr]
  exact h2 i j (by omega) hj

/-- the composition of potrf and the two substitutions, in any arithmetic -/
theorem choleskySolve_det {V : Type} [Arith V] {SS TR : Nat} {m0 m1 : Mem V} {A L B : Container} (h : PotrfArgs SS m0 A L) (hs : PotrfSizes A L)
    (hf : PotrfFits SS TR 4 A L) (hsq : A.cols = A.rows) (hr : B.rows = A.rows) (hap : Apart SS L B)
    {b l : Nat → Nat → V} (hb : Contains SS m0 B b) (e1 : potrfDenseCall SS TR A L m0 = .ok () m1) (l1 : ContainsLower SS m1 L l) :
    ∃ m', choleskySolve SS TR A L B m0 = .ok () m' ∧ ContainsLower SS m' L l ∧
      Contains SS m' B (fun i j => trsmSol .upper false A.rows (fun i j => l j i) (fun i => trsmSol .lower false A.rows l (fun i => b i j) i) i) ∧
      (∀ z, ¬ L.Storage SS z → ¬ IsElem SS B z → m' z = m0 z) := by
  have hSS := h.ss
  obtain ⟨m1', e1', fr, -⟩ := C16_potrf_dense_frame h hs hf
  rw [e1] at e1'
  injection e1' with _ e1'
  subst e1'
  obtain ⟨s1, s2, s3⟩ := hs
  have dis := hap.disj hSS
  rw [s2, s3, hsq, hr] at dis
  have hinj := B.inj hSS
  rw [hr] at hinj
  have notB : ∀ i j : Nat, i < A.rows → j < A.rows → ¬ Cells SS (B.mptr SS) A.rows B.cols ((L.mptr SS).addr SS i j) := by
    rintro i j hi hj ⟨i', j', hi', hj', he⟩
    exact dis i j i' j' hi hj hi' hj' he
  have lat : ∀ i j : Nat, j ≤ i → i < A.rows → m1 ((L.mptr SS).addr SS i j) = some (l i j) := by
    intro i j hj hi
    rw [← Container.addr_eq_mptr]
    exact l1 i j hj (by omega) (by omega)
  have hb1 : Holds SS m1 (B.mptr SS) A.rows B.cols b := by
    intro i j hi hj
    rw [← Container.addr_eq_mptr, fr _ (fun hc => hap _ hc (B.addr_storage hSS (by omega) hj))]
    exact hb i j (by omega) hj
  obtain ⟨m3, e3, f3, g3⟩ := trsmPtr_det (SS := SS) (m := A.rows) (n := B.cols) (A := L.mptr SS) (X := B.mptr SS)
    (B := B.mptr SS) .lower false (mem := m1) (a := l)
    (fun i k hi hk hr => ⟨lat i k (by unfold TriRef at hr; simp at hr; omega) hi, notB i k hi hk⟩)
    (fun i j hi hj => by rw [hb1 i j hi hj]; rfl) hinj hb1 hinj
  obtain ⟨m4, e4, f4, g4⟩ := trsmPtr_det (SS := SS) (m := A.rows) (n := B.cols) (A := (L.mptr SS).trans SS)
    (X := B.mptr SS) (B := B.mptr SS) .upper false (mem := m3) (a := fun i j => l j i)
    (fun i k hi hk hr => by
      have hik : i ≤ k := by unfold TriRef at hr; simp at hr; omega
      rw [MPtr.trans_addr hSS]
      exact ⟨by rw [g3 _ (notB k i hk hi)]; exact lat k i hik hk, notB k i hk hi⟩)
    (fun i j hi hj => by rw [f3 i j hi hj]; rfl) hinj f3 hinj
  refine ⟨m4, ?_, ?_, fun i j hi hj => ?_, fun z h1 h2 => ?_⟩
  · unfold choleskySolve
    rw [bind_ok e1, bind_ok e3]
    exact e4
  · intro i j hji hi hj
    rw [Container.addr_eq_mptr, g4 _ (notB i j (by omega) (by omega)), g3 _ (notB i j (by omega) (by omega)), ← Container.addr_eq_mptr]
    exact l1 i j hji hi hj
  · rw [Container.addr_eq_mptr]
    exact f4 i j (by omega) hj
  · rw [g4 z (fun hc => h2 ((cells_iff B z).1 (by rw [hr]; exact hc))),
      g3 z (fun hc => h2 ((cells_iff B z).1 (by rw [hr]; exact hc))), fr z h1]

/-- **C88** (Cholesky). The sequence potrf, trsm, trsm returns whatever the numbers are, changing only L and B. If the lower triangle left in L is finite,
every finite column of the result X solves `S X = B` up to rounding errors and underflow, S being the symmetric matrix whose lower triangle is in A. -/
theorem C88_cholesky_solve (hW : F.Wide) {SS TR : Nat} {m0 : Mem (Bin F)} {A L B : Container} (h : PotrfArgs SS m0 A L) (hs : PotrfSizes A L)
    (hf : PotrfFits SS TR 4 A L) (hsq : A.cols = A.rows) (hr : B.rows = A.rows) (hap : Apart SS L B)
    {a b : Nat → Nat → Bin F} (ha : ContainsLower SS m0 A a) (hb : Contains SS m0 B b) (hn : ∀ i j, (a i j).IsNum) :
    ∃ m' l x, choleskySolve SS TR A L B m0 = .ok () m' ∧ ContainsLower SS m' L l ∧ Contains SS m' B x ∧ IsBinCholesky F A.rows A.rows l a ∧
      ((∀ i j, j ≤ i → i < A.rows → (l i j).Finite) → ∀ j, j < B.cols → (∀ i, i < A.rows → (x i j).Finite) →
        (∀ i, i < A.rows → (b i j).Finite) ∧ ∀ i, i < A.rows →
          |(b i j).real - ∑ k ∈ range A.rows, (a (max i k) (min i k)).real * (x k j).real| ≤
            ((1 / (1 - F.u)) ^ (2 * A.rows) + (1 / (1 - F.u)) ^ (A.rows + 4) - 2) *
                ∑ q ∈ range A.rows, ∑ k ∈ range A.rows, |tri .lower false (fun i j => (l i j).real) i q| * |tri .lower false (fun i j => (l i j).real) k q| * |(x k j).real| +
              ((1 / (1 - F.u)) ^ A.rows * (3 * A.rows + |(l i i).real|) +
                (1 / (1 - F.u)) ^ (2 * A.rows) * ∑ q ∈ range A.rows, |tri .lower false (fun i j => (l i j).real) i q| * (3 * A.rows + |(l q q).real|) +
                (1 / (1 - F.u)) ^ (A.rows + 4) * ∑ k ∈ range A.rows, (2 * A.rows + |(l (min i k) (min i k)).real|) * |(x k j).real|) * F.eta) ∧
      (∀ z, ¬ L.Storage SS z → ¬ IsElem SS B z → m' z = m0 z) := by
  obtain ⟨m1, e1, l, l1, l2⟩ := C86_potrf_dense hW h hs hf ha hn
  rw [hsq] at l2
  obtain ⟨m4, q1, q2, q3, q4⟩ := choleskySolve_det h hs hf hsq hr hap hb e1 l1
  refine ⟨m4, l, fun i j => trsmSol .upper false A.rows (fun i j => l j i)
    (fun i => trsmSol .lower false A.rows l (fun i => b i j) i) i, q1, q2, q3, l2, ?_, q4⟩
  · intro hl j hj hx
    beta_reduce at hx ⊢
    have ry := trsmSol_rec .lower false A.rows l (fun i => b i j)
    set y := trsmSol .lower false A.rows l (fun i => b i j) with hy
    have rx := trsmSol_rec .upper false A.rows (fun i j => l j i) y
    set x := trsmSol .upper false A.rows (fun i j => l j i) y with hx'
    have k2 := fun q (hq : q < A.rows) => Bin.trsmRec_inv rx hq (hx q hq) (fun _ => hl q q le_rfl hq)
    have k1 := fun q (hq : q < A.rows) => Bin.trsmRec_inv ry hq ((k2 q hq).1) (fun _ => hl q q le_rfl hq)
    refine ⟨fun i hi => (k1 i hi).1, fun i hi => ?_⟩
    have hv := Bin.bu_pos (F := F)
    have he := F.eta_pos
    have hG : 1 ≤ (1 / (1 - F.u)) ^ A.rows := by
      rw [← one_add_bu F.u_lt_one]
      exact one_le_pow₀ (by linarith)
    set lr : Nat → Nat → ℝ := fun i j => (l i j).real with hlr
    have sw : ∀ i q, tri .upper false (fun i j => lr j i) q i = tri .lower false lr i q := by
      intro i q
      unfold tri
      by_cases hq : i = q
      · subst hq; simp
      · rw [if_neg hq, if_neg (Ne.symm hq)]
    have hll : ∀ i q, q ≤ i → tri .lower false lr i q = lr i q := by
      intro i q hq
      rcases Nat.lt_or_eq_of_le hq with h1 | h1
      · exact tri_lower h1
      · rw [h1, tri_diag]; rfl
    have hl0 : ∀ k q, k < q → tri .lower false lr k q = 0 := by
      intro k q hq
      rw [← sw, tri_upper_zero hq]
    have hsum : ∀ (f : ℝ → ℝ → ℝ), (∀ z, f z 0 = 0) → ∀ i k, k ≤ i → i < A.rows →
        ∑ q ∈ range A.rows, f (tri .lower false lr i q) (tri .lower false lr k q) = ∑ q ∈ range (k + 1), f (lr i q) (lr k q) := by
      intro f hf0 i k hki hi
      symm
      refine Eq.trans (sum_congr rfl (fun q hq => ?_)) (sum_subset ?_ ?_)
      · have := mem_range.1 hq
        rw [hll i q (by omega), hll k q (by omega)]
      · intro q hq; rw [mem_range] at *; omega
      · intro q _ hq
        rw [mem_range] at hq
        rw [hl0 k q (by omega), hf0]
    have key : ∀ i k, i < A.rows → k < A.rows →
        |(a (max i k) (min i k)).real - ∑ q ∈ range A.rows, tri .lower false lr i q * tri .lower false lr k q| ≤
        ((1 / (1 - F.u)) ^ (A.rows + 4) - 1) * ∑ q ∈ range A.rows, |tri .lower false lr i q| * |tri .lower false lr k q| +
          (1 / (1 - F.u)) ^ (A.rows + 4) * (2 * A.rows + |(l (min i k) (min i k)).real|) * F.eta := by
      intro i k hi hk
      have low : ∀ i k, k ≤ i → i < A.rows → |(a i k).real - ∑ q ∈ range A.rows, tri .lower false lr i q * tri .lower false lr k q| ≤
          ((1 / (1 - F.u)) ^ (A.rows + 4) - 1) * ∑ q ∈ range A.rows, |tri .lower false lr i q| * |tri .lower false lr k q| +
            (1 / (1 - F.u)) ^ (A.rows + 4) * (2 * A.rows + |(l k k).real|) * F.eta := by
        intro i k hki hi
        rw [hsum (fun x y => x * y) (fun z => mul_zero z) i k hki hi,
          hsum (fun x y => |x| * |y|) (fun z => by rw [abs_zero, mul_zero]) i k hki hi]
        refine le_trans (l2 i k hki hi (by omega) (hl i k hki hi) (hl k k le_rfl (by omega))).2.2.2 ?_
        have hpw : (1 / (1 - F.u)) ^ (k + 4) ≤ (1 / (1 - F.u)) ^ (A.rows + 4) := by
          rw [← one_add_bu F.u_lt_one]
          exact pow_le_pow_right₀ (by linarith) (by omega)
        have hkn : (k : ℝ) ≤ A.rows := by exact_mod_cast (by omega : k ≤ A.rows)
        have hpos : (0 : ℝ) ≤ (1 / (1 - F.u)) ^ (A.rows + 4) := by
          rw [← one_add_bu F.u_lt_one]; positivity
        refine add_le_add (mul_le_mul_of_nonneg_right (by linarith) (sum_nonneg fun _ _ => by positivity)) ?_
        refine mul_le_mul_of_nonneg_right (mul_le_mul hpw (by linarith) (by positivity) hpos) he.le
      rcases Nat.le_total k i with h1 | h1
      · rw [max_eq_left h1, min_eq_right h1]; exact low i k h1 hi
      · rw [max_eq_right h1, min_eq_left h1]
        have := low k i h1 hk
        simp only [mul_comm (tri .lower false lr k _), mul_comm |tri .lower false lr k _|] at this
        exact this
    have r1 := (k1 i hi).2.2.2
    rw [tri_diag, if_neg (by simp)] at r1
    have := residual_compose_add (A := fun i k => (a (max i k) (min i k)).real) (x := fun k => (x k).real) (y := fun q => (y q).real)
      (L := tri .lower false lr) (U := fun q k => tri .lower false lr k q)
      (b := fun i => (b i j).real) (g1 := (1 / (1 - F.u)) ^ A.rows - 1) (by linarith) (i := i) r1
      (e2 := fun q => (1 / (1 - F.u)) ^ A.rows * (3 * A.rows + |(l q q).real|) * F.eta) (fun q hq => by
        have := (k2 q hq).2.2.2
        rw [tri_diag, if_neg (by simp)] at this
        have e : (fun i k => ((fun i j => l j i) i k).real) = fun i j => lr j i := rfl
        rw [e] at this
        simpa only [sw] using this) (fun k hk => key i k hi hk)
    refine le_trans this (le_of_eq ?_)
    rw [show (1 / (1 - F.u)) ^ (2 * A.rows) = (1 / (1 - F.u)) ^ A.rows * (1 / (1 - F.u)) ^ A.rows by rw [two_mul, pow_add]]
    set G := (1 / (1 - F.u)) ^ A.rows
    have s1 : (1 + (G - 1)) * ∑ q ∈ range A.rows, |tri .lower false lr i q| * (G * (3 * A.rows + |(l q q).real|) * F.eta) =
        G * G * (∑ q ∈ range A.rows, |tri .lower false lr i q| * (3 * A.rows + |(l q q).real|)) * F.eta := by
      rw [mul_sum, mul_sum, sum_mul]
      exact sum_congr rfl fun q _ => by ring
    have s2 : ∑ k ∈ range A.rows, (1 / (1 - F.u)) ^ (A.rows + 4) * (2 * A.rows + |(l (min i k) (min i k)).real|) * F.eta * |(x k).real| =
        (1 / (1 - F.u)) ^ (A.rows + 4) * (∑ k ∈ range A.rows, (2 * A.rows + |(l (min i k) (min i k)).real|) * |(x k).real|) * F.eta := by
      rw [mul_sum, sum_mul]
      exact sum_congr rfl fun q _ => by ring
    rw [s1, s2]
    ring

end Blast
