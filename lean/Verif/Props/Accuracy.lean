import Verif.Rounding
import Verif.RoundingBinary
import Verif.Props.Gemm
import Verif.Props.Ger
import Verif.Props.Syrk
import Verif.Props.Trmm
/- Concrete cases meeting the hypotheses of these theorems: Verif/Cases/Accuracy.lean, and the examples in this file. -/
/-
Property C56: forward error bounds in rounded arithmetic, for the algorithms without divisions.

`[Rounded u]` (Rounding.lean) says that every scalar operation has a relative error of at most `u`.
-/
set_option linter.unusedSectionVars false
namespace Blast
open Finset Prog
variable {V : Type} [Field V] [LinearOrder V] [IsStrictOrderedRing V] [Arith V] {u : V} [hR : Rounded u]

/-- **C56** (gemm). The computed `alpha*A*B + beta*C` differs from the exact one by at most `(1+u)^(K+2) - 1` (≈ (K+2)u, see
`pow_sub_one_le_gamma`) relative to `|alpha| |A| |B| + |beta| |C|`, where K is the inner dimension; whatever the layouts, sizes and SIMD width. -/
theorem C56_gemm_accuracy {SS : Nat} {m : Mem V} {A B C D : Container} (alpha beta : V)
    (h : GemmArgs SS m A B C D) (hs : GemmSizes A B C D) {a b c : Nat → Nat → V}
    (ha : Contains SS m A a) (hb : Contains SS m B b) (hc : Contains SS m C c) :
    ∃ m' d, gemmCall SS alpha A B beta C D m = .ok () m' ∧ Contains SS m' D d ∧
      ∀ i j, i < D.rows → j < D.cols →
        |d i j - (alpha * ∑ k ∈ range A.cols, a i k * b k j + beta * c i j)| ≤
          ((1 + u) ^ (A.cols + 2) - 1) * (|alpha| * ∑ k ∈ range A.cols, |a i k| * |b k j| + |beta| * |c i j|) := by
  obtain ⟨m', h1, h2⟩ := C04_gemm_bitwise alpha beta h hs ha hb hc
  refine ⟨m', _, h1, h2, fun i j _ _ => ?_⟩
  have e1 := near_fmaSum (u := u) (n := 0) (k := 0) A.cols (fun t _ => Near.refl u (a i t)) (fun t _ => Near.refl u (b t j))
    (near_zero 0) (le_refl _)
  have e2 := near_mul e1 (Near.refl u alpha)
  have e3 := near_fma (Near.refl u beta) (Near.refl u (c i j)) e2 (by omega)
  exact e3.bound hR.u_nonneg (by omega) (by ring) (by ring)

/-- **C56** (ger). -/
theorem C56_ger_accuracy {SS : Nat} {m : Mem V} {x y : VObj} {A B : Container} (alpha : V) (h : GerArgs SS m x y A B) (hs : GerSizes x y A B)
    {xv yv : Nat → V} {a : Nat → Nat → V} (hx : VContains m x xv) (hy : VContains m y yv) (ha : Contains SS m A a) :
    ∃ m' b, gerCall SS 1 alpha x y A B m = .ok () m' ∧ Contains SS m' B b ∧
      ∀ i j, i < B.rows → j < B.cols →
        |b i j - (a i j + alpha * xv i * yv j)| ≤ ((1 + u) ^ 2 - 1) * (|a i j| + |alpha| * |xv i| * |yv j|) := by
  obtain ⟨m', h1, h2⟩ := C09_ger_bitwise alpha (h.pre hs) (xv := xv) (yv := yv) (a := a)
    (fun i hi => by rw [VObj.ptr_addr]; exact hx i hi) (fun j hj => by rw [VObj.ptr_addr]; exact hy j hj)
    (fun i j hi hj => by
      rw [← Container.addr_eq_mptr]; exact ha i j (by rw [hs.1.1]; exact hi) (by rw [hs.1.2]; exact hj))
  refine ⟨m', fun i j => Arith.fma (Arith.mul alpha (xv i)) (yv j) (Arith.mul Arith.one (a i j)), by rw [gerCall_sizes hs]; exact h1, fun i j hi hj => ?_, fun i j _ _ => ?_⟩
  · rw [Container.addr_eq_mptr]
    exact h2 i j (by rw [hs.2.1] at hi; exact hi) (by rw [hs.2.2] at hj; exact hj)
  · have e1 := near_mul (Near.refl u alpha) (Near.refl u (xv i))
    have e2 := near_mul (Near.refl u (Arith.one : V)) (Near.refl u (a i j))
    have e3 := near_fma e1 (Near.refl u (yv j)) e2 (by omega)
    rw [hR.one_eq, abs_one] at e3
    rw [hR.one_eq]
    exact e3.bound hR.u_nonneg (by omega) (by ring) (by ring)

/-- **C56** (syrkLower). -/
theorem C56_syrk_accuracy {SS : Nat} {m : Mem V} {A C D : Container}
    (alpha beta : V) (h : SyrkArgs SS m A C D) (hs : SyrkSizes A C D) {a c : Nat → Nat → V}
    (ha : Contains SS m A a) (hc : ∀ i j, i < C.rows → j ≤ i → m (C.addr SS i j) = some (c i j)) :
    ∃ (m' : Mem V) (d : Nat → Nat → V), syrkCall SS 1 alpha A beta C D m = .ok () m' ∧
      (∀ i j, i < D.rows → j ≤ i → m' (D.addr SS i j) = some (d i j)) ∧
      ∀ i j, i < D.rows → j ≤ i →
        |d i j - (beta * c i j + alpha * ∑ k ∈ range A.cols, a i k * a j k)| ≤
          ((1 + u) ^ (A.cols + 1) - 1) * (|beta| * |c i j| + |alpha| * ∑ k ∈ range A.cols, |a i k| * |a j k|) := by
  obtain ⟨m', h1, h2⟩ := C10_syrk_bitwise alpha beta (h.pre hs) (a := a) (c := c) ha.holds
    (fun i j hi hj => by rw [← Container.addr_eq_mptr]; exact hc i j (by rw [hs.1.1]; exact hi) hj)
  refine ⟨m', fun i j => fmaSum (fun l => Arith.mul alpha (a i l)) (fun l => a j l) (Arith.mul beta (c i j)) A.cols, by rw [syrkCall_sizes hs]; exact h1, fun i j hi hj => ?_, fun i j _ _ => ?_⟩
  · rw [Container.addr_eq_mptr]
    exact h2 i j (by rw [hs.2.1] at hi; exact hi) hj
  · have e1 := near_fmaSum (u := u) A.cols (fun t _ => near_mul (Near.refl u alpha) (Near.refl u (a i t))) (fun t _ => Near.refl u (a j t))
      (near_mul (Near.refl u beta) (Near.refl u (c i j))) (le_refl _)
    exact e1.bound hR.u_nonneg (by omega)
      (by rw [mul_sum]; congr 1; exact sum_congr rfl (fun k _ => by ring))
      (by rw [mul_sum]; congr 1; exact sum_congr rfl (fun k _ => by ring))

/-- **C56** (trmm, right multiplication by a lower triangular matrix). -/
theorem C56_trmm_right_accuracy {SS : Nat} {m : Mem V} {B A C : Container} (alpha : V)
    (h : TrmmRArgs SS m B A C) (hs : TrmmRSizes B A C) {a b : Nat → Nat → V}
    (ha : ∀ k j, j ≤ k → k < A.rows → m (A.addr SS k j) = some (a k j)) (hb : Contains SS m B b) :
    ∃ m' c, trmmRightCall SS 1 alpha B A .lower false C m = .ok () m' ∧ Contains SS m' C c ∧
      ∀ i j, i < C.rows → j < C.cols →
        |c i j - alpha * ∑ k ∈ range B.cols, b i k * tri .lower false a k j| ≤
          ((1 + u) ^ (B.cols + 1) - 1) * (|alpha| * ∑ k ∈ range B.cols, |b i k| * |tri .lower false a k j|) := by
  have hp := h.pre hs
  obtain ⟨m', h1, h2⟩ := C13_trmm_right_bitwise alpha hp
  refine ⟨m', fun i j => fmaSum (fun t => Arith.mul alpha (val m ((B.mptr SS).addr SS i (j + t : Nat))))
    (fun t => val m ((A.mptr SS).addr SS (j + t : Nat) j)) Arith.zero (B.cols - j), by rw [trmmRightCall_sizes hs]; exact h1, fun i j hi hj => ?_, fun i j hi hj => ?_⟩
  · rw [Container.addr_eq_mptr]
    exact h2 i j (by rw [hs.2.1] at hi; exact hi) (by rw [hs.2.2] at hj; exact hj)
  · have hi' : i < B.rows := by rw [hs.2.1] at hi; exact hi
    have hj' : j < B.cols := by rw [hs.2.2] at hj; exact hj
    have ea : ∀ t, t < B.cols - j → val m ((A.mptr SS).addr SS (j + t : Nat) j) = tri .lower false a (j + t) j := by
      intro t ht
      have e := ha (j + t) j (by omega) (by rw [hs.1.1]; omega)
      rw [Container.addr_eq_mptr] at e
      rw [val_some e]
      rcases Nat.eq_zero_or_pos t with rfl | h0
      · rw [Nat.add_zero, tri_diag]; rfl
      · rw [tri_lower (by omega)]
    have e1 := near_fmaSum (u := u) (k := 1) (a := fun t => Arith.mul alpha (val m ((B.mptr SS).addr SS i (j + t : Nat))))
      (b := fun t => val m ((A.mptr SS).addr SS (j + t : Nat) j)) (B.cols - j)
      (fun t _ => near_mul (Near.refl u alpha) (Near.refl u _)) (fun t _ => Near.refl u _)
      (near_zero 1) (le_refl _)
    rw [mul_sum, sum_from (fun k => alpha * (b i k * tri .lower false a k j)) (Nat.le_of_lt hj') (fun k hk => by rw [tri_lower_zero hk]; ring),
      sum_from (fun k => |b i k| * |tri .lower false a k j|) (Nat.le_of_lt hj') (fun k hk => by rw [tri_lower_zero hk]; simp)]
    refine e1.bound hR.u_nonneg (by omega) ?_ ?_
    · rw [zero_add]
      exact sum_congr rfl (fun k hk => by
        rw [ea k (mem_range.1 hk), hb.holds.val hi' (show j + k < B.cols by have := mem_range.1 hk; omega)]; ring)
    · rw [zero_add, mul_sum]
      exact sum_congr rfl (fun k hk => by
        rw [ea k (mem_range.1 hk), hb.holds.val hi' (show j + k < B.cols by have := mem_range.1 hk; omega)]; ring)

/-- **C56** (trmm, left multiplication by an upper triangular matrix with zeros below the diagonal). -/
theorem C56_trmm_left_accuracy {SS : Nat} {m : Mem V} {A B C : Container} (alpha : V)
    (h : TrmmLArgs SS m A B C) (hs : TrmmLSizes A B C) {a b : Nat → Nat → V}
    (ha : Contains SS m A a) (hz : ∀ i k, k < i → a i k = 0) (hb : Contains SS m B b) :
    ∃ m' c, trmmLeftCall SS 1 alpha A .upper false B C m = .ok () m' ∧ Contains SS m' C c ∧
      ∀ i j, i < C.rows → j < C.cols →
        |c i j - alpha * ∑ k ∈ range B.rows, a i k * b k j| ≤
          ((1 + u) ^ (B.rows + 1) - 1) * (|alpha| * ∑ k ∈ range B.rows, |a i k| * |b k j|) := by
  have hp := h.pre hs
  obtain ⟨⟨e1, e2⟩, e3, e4⟩ := id hs
  have hav : ∀ i k, i < B.rows → k < B.rows → val m ((A.mptr SS).addr SS i k) = a i k :=
    fun i k hi hk => ha.holds.val (by omega) (by omega)
  have hbv : ∀ k j, k < B.rows → j < B.cols → val m ((B.mptr SS).addr SS k j) = b k j :=
    fun k j hk hj => hb.holds.val (by omega) (by omega)
  have hzero : Near u 1 0 (Arith.zero : V) 0 := near_zero 1
  have spec : LeftSpec SS 1 B.rows B.cols alpha (A.mptr SS) (B.mptr SS) m
      (fun i j v => Near u (B.rows + 1) (∑ k ∈ range B.rows, |alpha| * |a i k| * |b k j|) v (∑ k ∈ range B.rows, alpha * a i k * b k j)) := by
    constructor
    · intro i RM r j _ hr hM hj _ _
      have hs' : r / SS * SS ≤ r := Nat.div_mul_le_self r SS
      unfold trmmLFullEntry
      generalize hq : r / SS * SS = q at hs'
      have n1 := near_fmaSum (u := u) (k := 1)
        (a := fun t => Arith.mul alpha (if r ≤ q + t then val m ((A.mptr SS).addr SS (i + r : Nat) (i + (q + t) : Nat)) else Arith.zero))
        (b := fun t => val m ((B.mptr SS).addr SS (i + (q + t) : Nat) j))
        (A := fun t => |alpha| * |a (i + r) (i + (q + t))|) (x := fun t => alpha * a (i + r) (i + (q + t)))
        (B := fun t => |b (i + (q + t)) j|) (y := fun t => b (i + (q + t)) j) (RM * SS - q)
        (fun t ht => by
          have : (if r ≤ q + t then val m ((A.mptr SS).addr SS (i + r : Nat) (i + (q + t) : Nat)) else Arith.zero) = a (i + r) (i + (q + t)) := by
            by_cases hlt : r ≤ q + t
            · rw [if_pos hlt, hav _ _ (by omega) (by omega)]
            · rw [if_neg hlt, hz _ _ (by omega), hR.zero_eq]
          beta_reduce
          rw [this]
          exact near_mul (Near.refl u alpha) (Near.refl u _))
        (fun t ht => by
          beta_reduce
          rw [hbv _ _ (by omega) hj]; exact Near.refl u _) hzero (le_refl _)
      have n2 := near_fmaSum (u := u) (n := 1) (k := 1 + (RM * SS - q))
        (a := fun k => Arith.mul alpha (val m ((A.mptr SS).addr SS (i + r : Nat) (i + RM * SS + k : Nat))))
        (b := fun k => val m ((B.mptr SS).addr SS (i + RM * SS + k : Nat) j))
        (A := fun t => |alpha| * |a (i + r) (i + RM * SS + t)|) (x := fun t => alpha * a (i + r) (i + RM * SS + t))
        (B := fun t => |b (i + RM * SS + t) j|) (y := fun t => b (i + RM * SS + t) j) (B.rows - i - RM * SS)
        (fun t ht => by
          beta_reduce
          rw [hav _ _ (by omega) (by omega)]; exact near_mul (Near.refl u alpha) (Near.refl u _))
        (fun t ht => by
          beta_reduce
          rw [hbv _ _ (by omega) hj]; exact Near.refl u _) n1 (by omega)
      have n3 := n2.mono hR.u_nonneg (show 1 + (RM * SS - q) + (B.rows - i - RM * SS) ≤ B.rows + 1 by omega)
      have key : ∀ f : Nat → V, (∀ k, k < i + q → f k = 0) →
          ∑ k ∈ range B.rows, f k = (0 + ∑ t ∈ range (RM * SS - q), f (i + (q + t))) + ∑ t ∈ range (B.rows - i - RM * SS), f (i + RM * SS + t) := by
        intro f hf
        rw [sum_from f (show i + q ≤ B.rows by omega) hf, show B.rows - (i + q) = (RM * SS - q) + (B.rows - i - RM * SS) by omega, sum_range_add, zero_add]
        refine congrArg₂ (· + ·) (sum_congr rfl (fun k _ => by rw [Nat.add_assoc])) (sum_congr rfl (fun k hk => ?_))
        rw [show i + q + (RM * SS - q + k) = i + RM * SS + k by omega]
      rw [key _ (fun k hk => by rw [hz (i + r) k (by omega)]; simp), key _ (fun k hk => by rw [hz (i + r) k (by omega)]; simp)]
      exact n3
    · intro _ i row j hi hrow hj _
      unfold trmmLPartEntry
      have n1 := near_fmaSum (u := u) (k := 1)
        (a := fun t => Arith.mul alpha (val m ((A.mptr SS).addr SS row (i + t : Nat))))
        (b := fun t => val m ((B.mptr SS).addr SS (i + t : Nat) j))
        (A := fun t => |alpha| * |a row (i + t)|) (x := fun t => alpha * a row (i + t))
        (B := fun t => |b (i + t) j|) (y := fun t => b (i + t) j) (B.rows - i)
        (fun t ht => by
          beta_reduce
          rw [hav _ _ (by omega) (by omega)]; exact near_mul (Near.refl u alpha) (Near.refl u _))
        (fun t ht => by
          beta_reduce
          rw [hbv _ _ (by omega) hj]; exact Near.refl u _) hzero (le_refl _)
      have n3 := n1.mono hR.u_nonneg (show 1 + (B.rows - i) ≤ B.rows + 1 by omega)
      rw [zero_add, zero_add] at n3
      rw [sum_from _ (show i ≤ B.rows by omega) (fun k hk => by rw [hz row k (by omega)]; simp),
        sum_from (fun k => alpha * a row k * b k j) (show i ≤ B.rows by omega) (fun k hk => by rw [hz row k (by omega)]; simp)]
      exact n3
  obtain ⟨m', h1, h2, _⟩ := trmmLeftPtr_runs hp spec
  refine ⟨m', fun i j => val m' (C.addr SS i j), by rw [trmmLeftCall_sizes hs]; exact h1, fun i j hi hj => ?_, fun i j hi hj => ?_⟩
  · obtain ⟨v, e, _⟩ := h2 i j (by omega) (by omega)
    rw [← Container.addr_eq_mptr] at e
    beta_reduce
    rw [val_some e]; exact e
  · obtain ⟨v, e, hn⟩ := h2 i j (by omega) (by omega)
    rw [← Container.addr_eq_mptr] at e
    beta_reduce
    rw [val_some e]
    exact hn.bound hR.u_nonneg (le_refl _) (by rw [mul_sum]; exact sum_congr rfl (fun k _ => by ring)) (by rw [mul_sum]; exact sum_congr rfl (fun k _ => by ring))

/-! ### The hypotheses are satisfiable -/

/-- rounding is really modelled: binary arithmetic with 53 bit significands (`double` without overflow and underflow) satisfies the hypothesis -/
example : Rounded (flU 52) := inferInstance

/-- and the error is not zero there: 1/3 is not representable -/
theorem fl_rounds : (Arith.div (1 : Fl 0) (show Fl 0 from (3 : ℝ))) ≠ (1 : Fl 0) / (show Fl 0 from (3 : ℝ)) := by
  have h1 : Int.log 2 |(1 / 3 : ℝ)| = -2 := by
    rw [abs_of_pos (by norm_num)]
    have h2 : Int.log 2 (1 / 3 : ℝ) < -1 := by
      rw [← Int.lt_zpow_iff_log_lt (by norm_num) (by norm_num)]; norm_num
    have h3 : -2 ≤ Int.log 2 (1 / 3 : ℝ) := by
      rw [← Int.zpow_le_iff_le_log (by norm_num) (by norm_num)]; norm_num
    omega
  show rnd 0 ((1 : ℝ) / (3 : ℝ)) ≠ (1 : ℝ) / (3 : ℝ)
  unfold rnd
  rw [h1]
  have h4 : round ((1 / 3 : ℝ) / 2 ^ ((-2 : Int) - ((0 : Nat) : Int))) = 1 := by
    rw [round_eq, Int.floor_eq_iff]
    norm_num
  rw [h4]; norm_num

/-- the memory of the gemm example with elements that are binary floating-point numbers -/
noncomputable def flMem : Mem (Fl 52) := fun x => if 0 ≤ x ∧ x < 1000 then some (show Fl 52 from (x : ℝ)) else none

theorem flMem_live {c : Container} (h1 : c.data % 4 = 0) (h2 : 0 ≤ c.data) (h3 : c.data + c.capacity 4 ≤ 1000) : Live 4 flMem c := by
  refine ⟨h1, fun x hx => ?_⟩
  unfold Container.Storage at hx
  unfold flMem
  rw [if_pos ⟨by omega, by omega⟩]; rfl

example : GemmArgs 4 flMem demoA demoB demoC demoD ∧ GemmSizes demoA demoB demoC demoD ∧
    (∃ a, Contains 4 flMem demoA a) ∧ (∃ b, Contains 4 flMem demoB b) ∧ (∃ c, Contains 4 flMem demoC c) := by
  have h : GemmArgs 4 flMem demoA demoB demoC demoD :=
    ⟨by decide, rfl, rfl, rfl, flMem_live (by decide) (by decide) (by decide),
      flMem_live (by decide) (by decide) (by decide), flMem_live (by decide) (by decide) (by decide),
      flMem_live (by decide) (by decide) (by decide), demo_apart (by decide), demo_apart (by decide),
      Or.inr (demo_apart (by decide))⟩
  have key : ∀ c : Container, Live 4 flMem c → ∃ a, Contains 4 flMem c a :=
    fun c hc => ⟨_, hc.contains (by decide)⟩
  exact ⟨h, by decide, key _ h.lA, key _ h.lB, key _ h.lC⟩

end Blast
