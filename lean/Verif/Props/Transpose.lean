import Verif.Integers
import Verif.Props.NanProp
import Verif.Ieee
import Mathlib.Tactic.Linarith
import Mathlib.Tactic.Ring
/-
C83: transposition. Floating-point multiplication is commutative, so gemm with exchanged and transposed factors computes the transposed result bit for bit,
and `A Aᵀ + C` with a symmetric C is symmetric. ger with x = y has this property for alpha = 1 but not in general.
-/
namespace Blast
open Prog Reg
variable {V : Type}

/-- the factors of a product may be exchanged -/
class CommFactors (V : Type) [Arith V] : Prop where
  mul_comm : ∀ a b : V, Arith.mul a b = Arith.mul b a
  fma_comm : ∀ a b c : V, Arith.fma a b c = Arith.fma b a c

instance (p : Nat) : CommFactors (Fe p) where
  mul_comm := fun a b => by show rndE p ((show ℝ from a) * (show ℝ from b)) = rndE p ((show ℝ from b) * (show ℝ from a)); rw [mul_comm]
  fma_comm := fun a b c => by
    show rndE p ((show ℝ from a) * (show ℝ from b) + (show ℝ from c)) = rndE p ((show ℝ from b) * (show ℝ from a) + (show ℝ from c)); rw [mul_comm]

instance (p : Nat) : CommFactors (Ieee (Fe p)) where
  mul_comm := fun a b => by
    cases a <;> cases b <;> try rfl
    · exact congrArg Ieee.fin (CommFactors.mul_comm _ _)
    · exact congrArg Ieee.inf (Bool.xor_comm _ _)
  fma_comm := fun a b c => by
    show Ieee.fma a b c = Ieee.fma b a c
    cases a <;> cases b <;> cases c <;> first | rfl | exact congrArg Ieee.fin (CommFactors.fma_comm _ _ _) | (rename_i s t _; cases s <;> cases t <;> rfl)

instance {R : Type} [CommRing R] [Arith R] [ExactRing R] : CommFactors R where
  mul_comm := fun a b => by rw [ExactRing.mul_eq, ExactRing.mul_eq, mul_comm]
  fma_comm := fun a b c => by rw [ExactRing.fma_eq, ExactRing.fma_eq, mul_comm]

theorem fmaSum_comm [Arith V] [CommFactors V] (a b : Nat → V) (c : V) (K : Nat) : fmaSum a b c K = fmaSum b a c K := by
  induction K with
  | zero => rfl
  | succ K ih =>
    unfold fmaSum
    rw [ih]
    exact CommFactors.fma_comm _ _ _

/-- the result in D' is the transpose of the result in D, bit for bit -/
def TransposedResult {α β : Type} (SS : Nat) (p : Prog V α) (m : Mem V) (D : Container) (SS' : Nat) (q : Prog V β) (n : Mem V) (D' : Container) : Prop :=
  ∃ (x : α) (y : β) (m' n' : Mem V), p m = .ok x m' ∧ q n = .ok y n' ∧
    ∀ i j, i < D.rows → j < D.cols → ∃ v, m' (D.addr SS i j) = some v ∧ n' (D'.addr SS' j i) = some v

/-- **C83** (gemm). `alpha Bᵀ Aᵀ + beta Cᵀ` is the transpose of `alpha A B + beta C`, bit for bit, for all layouts, sizes and SIMD widths. -/
theorem C83_gemm_transpose [Arith V] [CommFactors V] {SS SS' : Nat} {m n : Mem V} {A B C D A' B' C' D' : Container} (alpha beta : V)
    (h : GemmArgs SS m A B C D) (hs : GemmSizes A B C D) (h' : GemmArgs SS' n A' B' C' D') (hs' : GemmSizes A' B' C' D')
    (hA : A'.rows = B.cols ∧ A'.cols = B.rows) (hB : B'.rows = A.cols ∧ B'.cols = A.rows) {a b c : Nat → Nat → V}
    (ha : Contains SS m A a) (hb : Contains SS m B b) (hc : Contains SS m C c)
    (ha' : Contains SS' n A' (fun i j => b j i)) (hb' : Contains SS' n B' (fun i j => a j i)) (hc' : Contains SS' n C' (fun i j => c j i)) :
    TransposedResult SS (gemmCall SS alpha A B beta C D) m D SS' (gemmCall SS' alpha A' B' beta C' D') n D' := by
  obtain ⟨m', e, e1⟩ := C04_gemm_bitwise alpha beta h hs ha hb hc
  obtain ⟨n', f, f1⟩ := C04_gemm_bitwise alpha beta h' hs' ha' hb' hc'
  obtain ⟨s1, ⟨s2, s3⟩, s4, s5⟩ := hs
  obtain ⟨t1, ⟨t2, t3⟩, t4, t5⟩ := hs'
  refine ⟨(), (), m', n', e, f, fun i j hi hj => ⟨_, e1 i j hi hj, ?_⟩⟩
  rw [f1 j i (by omega) (by omega)]
  beta_reduce
  rw [fmaSum_comm, show A'.cols = A.cols by omega]

/-- **C83** (symmetry of gemm). `alpha A Aᵀ + beta C` with a symmetric C is symmetric, bit for bit (B holds the transpose of A). -/
theorem C83_gemm_symmetric [Arith V] [CommFactors V] {SS : Nat} {m : Mem V} {A B C D : Container} (alpha beta : V)
    (h : GemmArgs SS m A B C D) (hs : GemmSizes A B C D) {a c : Nat → Nat → V} (ha : Contains SS m A a) (hb : Contains SS m B (fun i j => a j i))
    (hc : Contains SS m C c) (hsym : ∀ i j, c i j = c j i) (hsq : D.rows = D.cols) :
    ∃ m', gemmCall SS alpha A B beta C D m = .ok () m' ∧ ∀ i j, i < D.rows → j < D.rows → m' (D.addr SS i j) = m' (D.addr SS j i) := by
  obtain ⟨m', e, e1⟩ := C04_gemm_bitwise alpha beta h hs ha hb hc
  refine ⟨m', e, fun i j hi hj => ?_⟩
  rw [e1 i j hi (by omega), e1 j i hj (by omega)]
  beta_reduce
  rw [fmaSum_comm, hsym i j]

/-- **C83** (ger). With alpha = 1 (multiplication by which does not change the elements of x), `A + x xᵀ` with a symmetric A is symmetric, bit for bit. -/
theorem C83_ger_symmetric [Arith V] [CommFactors V] {SS : Nat} {m : Mem V} {x y : VObj} {A B : Container}
    (h : GerArgs SS m x y A B) (hs : GerSizes x y A B) {xv : Nat → V} {a : Nat → Nat → V} (hx : VContains m x xv) (hy : VContains m y xv) (ha : Contains SS m A a)
    (hone : ∀ i, i < x.n → Arith.mul Arith.one (xv i) = xv i) (hsym : ∀ i j, a i j = a j i) (hsq : B.rows = B.cols) :
    ∃ m', gerCall SS 1 Arith.one x y A B m = .ok () m' ∧ ∀ i j, i < B.rows → j < B.rows → m' (B.addr SS i j) = m' (B.addr SS j i) := by
  obtain ⟨m', e, e1⟩ := det_ger Arith.one h hs hx hy ha
  refine ⟨m', e, fun i j hi hj => ?_⟩
  rw [e1 i j hi (by omega), e1 j i hj (by omega)]
  beta_reduce
  obtain ⟨⟨s1, s2⟩, s3, s4⟩ := hs
  rw [hone i (by omega), hone j (by omega), hsym i j, CommFactors.fma_comm]

/-! ### ger is not symmetric in general -/

/-- a value with a quotient next to an integer is rounded to that integer -/
theorem rndE_near {p k : Nat} {n : ℤ} {x : ℝ} (h1 : (2 : ℝ) ^ (k + p) ≤ x) (h2 : x < 2 ^ (k + p + 1)) (h3 : |x - n * 2 ^ k| < 2 ^ k / 2) : rndE p x = n * 2 ^ k := by
  have hk : (0 : ℝ) < 2 ^ k := by positivity
  have hx : 0 < x := lt_of_lt_of_le (by positivity) h1
  have hlog : Int.log 2 x = ((k + p : Nat) : ℤ) := by
    apply le_antisymm
    · have : Int.log 2 x < ((k + p + 1 : Nat) : ℤ) := by
        rw [← Int.lt_zpow_iff_log_lt (by norm_num) hx, zpow_natCast]
        exact_mod_cast h2
      omega
    · rw [← Int.zpow_le_iff_le_log (by norm_num) hx, zpow_natCast]
      exact_mod_cast h1
  unfold rndE rndMag
  rw [if_neg (not_lt.2 hx.le), hlog, show (((k + p : Nat) : ℤ)) - (p : ℤ) = ((k : Nat) : ℤ) by push_cast; ring, zpow_natCast]
  congr 1
  have h4 := rne_err (x / 2 ^ k)
  have h5 : |x / 2 ^ k - n| < 1 / 2 := by
    rw [show x / 2 ^ k - n = (x - n * 2 ^ k) / 2 ^ k by field_simp, abs_div, abs_of_pos hk, div_lt_iff₀ hk]
    linarith
  have h6 : |((rne (x / 2 ^ k) : ℤ) : ℝ) - (n : ℝ)| < 1 := by
    rw [abs_le] at h4
    rw [abs_lt] at h5 ⊢
    constructor <;> linarith [h4.1, h4.2, h5.1, h5.2]
  rw [← Int.cast_sub, ← Int.cast_abs] at h6
  have h7 : |rne (x / 2 ^ k) - n| < 1 := by exact_mod_cast h6
  have h8 := Int.abs_lt_one_iff.1 h7
  rw [show rne (x / 2 ^ k) = n by omega]

/-- **C83** (ger, refuted in general). For every binary format with at least five bits there are alpha and x, representable in it, with which ger on the zero
matrix (x = y) stores a matrix that is not symmetric. -/
theorem C83_ger_symmetric_refuted {p SS : Nat} (hp : 4 ≤ p) {m : Mem (Fe p)} {x y : VObj} {A B : Container} (h : GerArgs SS m x y A B) (hs : GerSizes x y A B)
    (hB : B.rows = 2 ∧ B.cols = 2) {xv : Nat → Fe p} (hx : VContains m x xv) (hy : VContains m y xv) (ha : Contains SS m A (fun _ _ => (ExactInts.num 0 : Fe p)))
    (hx0 : xv 0 = ExactInts.num (2 ^ (p + 1) - 7)) (hx1 : xv 1 = ExactInts.num 5) :
    ∃ m', gerCall SS 1 (ExactInts.num 3) x y A B m = .ok () m' ∧ m' (B.addr SS 0 1) ≠ m' (B.addr SS 1 0) := by
  obtain ⟨m', e, e1⟩ := det_ger (ExactInts.num 3) h hs hx hy ha
  refine ⟨m', e, ?_⟩
  rw [e1 0 1 (by omega) (by omega), e1 1 0 (by omega) (by omega)]
  beta_reduce
  rw [hx0, hx1]
  obtain ⟨q, rfl⟩ : ∃ q, p = q + 4 := ⟨p - 4, by omega⟩
  have hQ : (1 : ℝ) ≤ 2 ^ q := one_le_pow₀ (by norm_num)
  have hQz : (1 : ℤ) ≤ 2 ^ q := one_le_pow₀ (by norm_num)
  have w : ∀ c : Nat, (2 : ℝ) ^ (q + c) = 2 ^ q * 2 ^ c := fun c => pow_add _ _ _
  have hb : ∀ n : ℤ, |n| ≤ 32 → |n| ≤ ExactInts.bound (Fe (q + 4)) := fun n hn => by
    show |n| ≤ 2 ^ (q + 4 + 1)
    rw [show q + 4 + 1 = q + 5 by ring, pow_add]; omega
  have z0 : Arith.mul (Arith.one : Fe (q + 4)) (ExactInts.num 0) = ExactInts.num 0 := mul_one_num (hb 0 (by decide))
  have z1 : Arith.mul (ExactInts.num 3 : Fe (q + 4)) (ExactInts.num 5) = ExactInts.num 15 := ExactInts.mul 3 5 (hb 3 (by decide)) (hb 5 (by decide)) (hb 15 (by decide))
  have z2 : Arith.mul (ExactInts.num 3 : Fe (q + 4)) (ExactInts.num (2 ^ (q + 4 + 1) - 7)) = ExactInts.num (96 * 2 ^ q - 20) := by
    show rndE (q + 4) (((3 : ℤ) : ℝ) * ((2 ^ (q + 4 + 1) - 7 : ℤ) : ℝ)) = ((96 * 2 ^ q - 20 : ℤ) : ℝ)
    push_cast
    rw [rndE_near (k := 2) (n := 24 * 2 ^ q - 5)]
    · push_cast; ring
    · rw [show 2 + (q + 4) = q + 6 by ring, show q + 4 + 1 = q + 5 by ring, w, w]; linarith
    · rw [show 2 + (q + 4) + 1 = q + 7 by ring, show q + 4 + 1 = q + 5 by ring, w, w]; linarith
    · rw [show q + 4 + 1 = q + 5 by ring, w, show (3 : ℝ) * (2 ^ q * 2 ^ 5 - 7) - ((24 * 2 ^ q - 5 : ℤ) : ℝ) * 2 ^ 2 = -1 by push_cast; ring]; norm_num
  rw [z0, z1, z2]
  intro hh
  have hh' : rndE (q + 4) (((96 * 2 ^ q - 20 : ℤ) : ℝ) * ((5 : ℤ) : ℝ) + ((0 : ℤ) : ℝ)) = rndE (q + 4) (((15 : ℤ) : ℝ) * ((2 ^ (q + 4 + 1) - 7 : ℤ) : ℝ) + ((0 : ℤ) : ℝ)) := Option.some.inj hh
  push_cast at hh'
  rw [rndE_near (k := 4) (n := 30 * 2 ^ q - 6), rndE_near (k := 4) (n := 30 * 2 ^ q - 7)] at hh'
  · push_cast at hh'; linarith
  · rw [show 4 + (q + 4) = q + 8 by ring, show q + 4 + 1 = q + 5 by ring, w, w]; linarith
  · rw [show 4 + (q + 4) + 1 = q + 9 by ring, show q + 4 + 1 = q + 5 by ring, w, w]; linarith
  · rw [show q + 4 + 1 = q + 5 by ring, w, show (15 : ℝ) * (2 ^ q * 2 ^ 5 - 7) + 0 - ((30 * 2 ^ q - 7 : ℤ) : ℝ) * 2 ^ 4 = 7 by push_cast; ring]; norm_num
  · rw [show 4 + (q + 4) = q + 8 by ring, w]; linarith
  · rw [show 4 + (q + 4) + 1 = q + 9 by ring, w]; linarith
  · rw [show (96 * 2 ^ q - 20 : ℝ) * 5 + 0 - ((30 * 2 ^ q - 6 : ℤ) : ℝ) * 2 ^ 4 = -4 by push_cast; ring]; norm_num

end Blast
