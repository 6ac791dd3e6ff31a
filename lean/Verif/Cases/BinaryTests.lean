import Verif.Props.BinaryTests
import Verif.Cases.BinaryRandom
import Verif.Cases.Trmm
import Verif.Cases.Ger
/-
Cases of Props/BinaryTests and Props/ReferenceTrmm.
-/
namespace Blast
open Bin Finset

/-- the double nearest to 1e-11 -/
noncomputable def tol11 : Bin binary64 := mk binary64 false (1 / 10 ^ 11)

/-- numbers drawn: 1 in the cells with an even number, 1/2 in the others -/
noncomputable def drawn (x : Int) : Bin binary64 := if x % 2 = 0 then .fin false 1 else .fin false (1 / 2)
theorem drawn_unit (x : Int) : Unit01 (drawn x) := by
  unfold drawn
  split <;> exact ⟨trivial, by simp [real], by simp [real]; try norm_num⟩
noncomputable abbrev drawMem : Mem (Bin binary64) := memOf 1000 drawn

theorem wide64 : binary64.Wide := ⟨by decide, by decide⟩

theorem big64 : (2 : ℝ) ^ (40 : ℕ) ≤ binary64.big := by
  have h : (2 : ℝ) ^ ((40 : ℕ) : ℤ) ≤ (2 : ℝ) ^ (binary64.emax + 1) := zpow_le_zpow_right₀ (by norm_num) (by decide)
  unfold Format.big
  rwa [zpow_natCast] at h
theorem tol11_val : tol11.Finite ∧ (999 / 1000 * (1 / 10 ^ 11) ≤ tol11.real ∧ tol11.real ≤ 1) := by
  have hu := u_binary64
  have he := eta_le_u wide64
  have hb := big64
  rw [hu] at he
  have hx : |(1 / 10 ^ 11 : ℝ)| = 1 / 10 ^ 11 := abs_of_pos (by positivity)
  have hf : tol11.Finite := mk_finite (by rw [hx, hu]; refine lt_of_le_of_lt (add_le_add le_rfl he) (lt_of_lt_of_le ?_ hb); norm_num)
  have h := mk_err hf
  rw [hx, hu, abs_le] at h
  refine ⟨hf, ?_⟩
  change -_ ≤ tol11.real - _ ∧ tol11.real - _ ≤ _ at h
  constructor
  · have : (999 / 1000 * (1 / 10 ^ 11) : ℝ) ≤ 1 / 10 ^ 11 - (1 / 2 ^ 53 * (1 / 10 ^ 11) + 1 / 2 ^ 53 * (1 / 2 ^ 53) / 2) := by norm_num
    linarith [h.1]
  · have : (1 / 10 ^ 11 + (1 / 2 ^ 53 * (1 / 10 ^ 11) + 1 / 2 ^ 53 * (1 / 2 ^ 53) / 2) : ℝ) ≤ 1 := by norm_num
    linarith [h.2]

theorem tol_case {k : Nat} (h : 3 ≤ k) (h' : k ≤ 10003) : TolFor binary64 k tol11 tol11 := ((C92_sizes h).1 tol11 tol11 tol11_val.1 tol11_val.1 tol11_val.2 tol11_val.2).1 h'

/-- 5 × 7 times 7 × 6 -/
example := C92_gemm (F := binary64) wide64 (SS := 4) (m := drawMem) (A := ⟨.dynDense, .columnMajor, 5, 7, 0⟩) (B := ⟨.dynDense, .rowMajor, 7, 6, 100⟩)
  (C := ⟨.dynDense, .columnMajor, 5, 6, 200⟩) (D := ⟨.dynDense, .columnMajor, 5, 6, 300⟩) (E := ⟨.dynDense, .columnMajor, 5, 6, 400⟩) (atol := tol11) (rtol := tol11)
  (alpha := drawn 1) (beta := drawn 2)
  ⟨lit, rfl, rfl, rfl, memOf_live lit lit lit, memOf_live lit lit lit, memOf_live lit lit lit, memOf_live lit lit lit, apart_of lit, apart_of lit, Or.inr (apart_of lit)⟩ lit
  ⟨lit, rfl, rfl, rfl, memOf_live lit lit lit, memOf_live lit lit lit, memOf_live lit lit lit, memOf_live lit lit lit, apart_of lit, apart_of lit, Or.inr (apart_of lit)⟩ lit
  (apart_of lit) (apart_of lit) (memOf_contains lit lit lit) (memOf_contains lit lit lit) (memOf_contains lit lit lit) (drawn_unit _) (drawn_unit _)
  (fun _ _ _ _ => drawn_unit _) (fun _ _ _ _ => drawn_unit _) (fun _ _ _ _ => drawn_unit _) (tol_case (by decide) (by decide))

/-- ones in the cells below 400, the number q in the others -/
noncomputable def fillVal (q : NNReal) (x : Int) : Bin binary64 := if x < 400 then .fin false 1 else .fin false q
theorem fill_lo {q : NNReal} {x : Int} (h : x < 400) : fillVal q x = .fin false 1 := if_pos h
theorem fill_hi {q : NNReal} {x : Int} (h : 400 ≤ x) : fillVal q x = .fin false q := if_neg (by omega)
theorem one_unit : Unit01 (.fin false 1 : Bin binary64) := ⟨trivial, by simp [real], by simp [real]⟩
theorem zero_unit : Unit01 (.fin false 0 : Bin binary64) := ⟨trivial, by simp [real], by simp [real]⟩
theorem computed_exact {k : Nat} {q : NNReal} {x : ℝ} (h : x = q) : ComputedFrom k (.fin false q : Bin binary64) x := by
  subst h
  refine ⟨trivial, ?_⟩
  have h1 : (1 : ℝ) ≤ (1 + binary64.u) ^ k := one_le_pow₀ (by rw [u_binary64]; norm_num)
  have h2 : 0 ≤ binary64.eta := binary64.eta_pos.le
  rw [show (Bin.fin false q : Bin binary64).real = q by simp [real], sub_self, abs_zero]
  have h3 := mul_nonneg (sub_nonneg.2 h1) (NNReal.coe_nonneg q)
  have h4 : 0 ≤ 2 * (k : ℝ) * (1 + binary64.u) ^ k * binary64.eta := mul_nonneg (mul_nonneg (by positivity) (by linarith)) h2
  linarith
theorem fill_of {q : NNReal} {c : Container} (h : 0 ≤ c.data) (h' : c.data + c.capacity 4 ≤ 400) : Contains 4 (memOf 1000 (fillVal q)) c (fun _ _ => .fin false 1) :=
  fun i j hi hj => by
    have hc := c.addr_storage (SS := 4) (by decide) hi hj
    rw [memOf_contains (SS := 4) (n := 1000) (f := fillVal q) (c := c) (by decide) h (by omega) i j hi hj]
    exact congrArg some (fill_lo (by have := hc.2; omega))
theorem fill_of' {q : NNReal} {c : Container} (h : 400 ≤ c.data) (h' : c.data + c.capacity 4 ≤ 1000) : Contains 4 (memOf 1000 (fillVal q)) c (fun _ _ => .fin false q) :=
  fun i j hi hj => by
    have hc := c.addr_storage (SS := 4) (by decide) hi hj
    rw [memOf_contains (SS := 4) (n := 1000) (f := fillVal q) (c := c) (by decide) (by omega) h' i j hi hj]
    exact congrArg some (fill_hi (by have := hc.1; omega))

/-- ones times ones plus ones, compared with eights (a reference of any kind) -/
example := C92_gemm_any (F := binary64) wide64 (SS := 4) (k := 10) (m := memOf 1000 (fillVal 8)) (A := ⟨.dynDense, .columnMajor, 5, 7, 0⟩) (B := ⟨.dynDense, .rowMajor, 7, 6, 100⟩)
  (C := ⟨.dynDense, .columnMajor, 5, 6, 200⟩) (D := ⟨.dynDense, .columnMajor, 5, 6, 300⟩) (E := ⟨.dynDense, .columnMajor, 5, 6, 400⟩) (atol := tol11) (rtol := tol11)
  (alpha := .fin false 1) (beta := .fin false 1)
  ⟨lit, rfl, rfl, rfl, memOf_live lit lit lit, memOf_live lit lit lit, memOf_live lit lit lit, memOf_live lit lit lit, apart_of lit, apart_of lit, Or.inr (apart_of lit)⟩ lit
  ⟨rfl, rfl⟩ (fun a h h' => (apart_of (SS := 4) lit) a h' h) (fill_of lit lit) (fill_of lit lit) (fill_of lit lit) (fill_of' lit lit) one_unit one_unit
  (fun _ _ _ _ => one_unit) (fun _ _ _ _ => one_unit) (fun _ _ _ _ => one_unit) (fun _ _ _ _ => computed_exact (by simp [real]; try norm_num)) (by decide)
  (tol_case (by decide) (by decide))

/-- 5 × 7 times 7 × 7 lower triangular -/
example := C92_trmm_right (F := binary64) wide64 (SS := 4) (m := drawMem) (B := ⟨.dynDense, .columnMajor, 5, 7, 200⟩) (A := ⟨.statPanel, .rowMajor, 7, 7, 0⟩)
  (C := ⟨.statDense, .columnMajor, 5, 7, 600⟩) (E := ⟨.statDense, .columnMajor, 5, 7, 700⟩) (atol := tol11) (rtol := tol11) (alpha := drawn 1)
  ⟨by decide, rfl, rfl, memOf_live lit lit lit, memOf_live lit lit lit, memOf_live lit lit lit, apart_of lit, Or.inr (apart_of lit)⟩ lit
  ⟨by decide, rfl, rfl, memOf_live lit lit lit, memOf_live lit lit lit, memOf_live lit lit lit, apart_of lit, Or.inr (apart_of lit)⟩ lit (apart_of lit) (apart_of lit)
  (memOf_contains lit lit lit) (memOf_contains lit lit lit) (drawn_unit _) (fun _ _ _ _ => drawn_unit _) (fun _ _ _ _ => drawn_unit _) (tol_case (by decide) (by decide))

/-- 5 × 5 times 5 × 7, with the header of trmm: whatever is below the diagonal of the first matrix -/
example := C92_trmm_left (F := binary64) wide64 (included := true) (SS := 4) (m := drawMem) (A := ⟨.dynDense, .columnMajor, 5, 5, 0⟩) (B := ⟨.statPanel, .rowMajor, 5, 7, 300⟩)
  (C := ⟨.statDense, .columnMajor, 5, 7, 600⟩) (E := ⟨.statDense, .columnMajor, 5, 7, 700⟩) (atol := tol11) (rtol := tol11) (alpha := drawn 1)
  ⟨by decide, rfl, rfl, memOf_live lit lit lit, memOf_live lit lit lit, memOf_live lit lit lit, apart_of lit, Or.inr (apart_of lit), fun _ h => by cases h⟩ lit
  ⟨by decide, rfl, rfl, memOf_live lit lit lit, memOf_live lit lit lit, memOf_live lit lit lit, apart_of lit, Or.inr (apart_of lit), fun _ h => by cases h⟩ lit (apart_of lit) (apart_of lit)
  (memOf_contains lit lit lit) (memOf_contains lit lit lit) (drawn_unit _) (fun _ _ _ _ => drawn_unit _) (fun _ _ _ _ => drawn_unit _) (fun h => by cases h)
  (tol_case (by decide) (by decide))

/-- an upper triangular matrix: ones on and above the diagonal, zeros below it (cells 0-39), ones elsewhere -/
noncomputable def upVal (x : Int) : Bin binary64 := if x < 40 ∧ x / 8 < x % 8 then .fin false 0 else .fin false 1
theorem upVal_unit (x : Int) : Unit01 (upVal x) := by unfold upVal; split; exacts [zero_unit, one_unit]
theorem upVal_zero : ∀ i k : Nat, k < i → i < 5 → (upVal ((⟨.dynDense, .columnMajor, 5, 5, 0⟩ : Container).addr 4 i k)).real = 0 := fun i k h hi => by
  have h' : ∀ i < 5, ∀ k < 5, k < i → ((⟨.dynDense, .columnMajor, 5, 5, 0⟩ : Container).addr 4 i k) < 40 ∧
      ((⟨.dynDense, .columnMajor, 5, 5, 0⟩ : Container).addr 4 i k) / 8 < ((⟨.dynDense, .columnMajor, 5, 5, 0⟩ : Container).addr 4 i k) % 8 := by decide
  unfold upVal
  rw [if_pos (h' i hi k (by omega) h)]
  simp [real]
example := C92_trmm_left (F := binary64) wide64 (included := false) (SS := 4) (m := memOf 1000 upVal) (A := ⟨.dynDense, .columnMajor, 5, 5, 0⟩) (B := ⟨.statPanel, .rowMajor, 5, 7, 300⟩)
  (C := ⟨.statDense, .columnMajor, 5, 7, 600⟩) (E := ⟨.statDense, .columnMajor, 5, 7, 700⟩) (atol := tol11) (rtol := tol11) (alpha := drawn 1)
  ⟨by decide, rfl, rfl, memOf_live lit lit lit, memOf_live lit lit lit, memOf_live lit lit lit, apart_of lit, Or.inr (apart_of lit), fun _ h => by cases h⟩ lit
  ⟨by decide, rfl, rfl, memOf_live lit lit lit, memOf_live lit lit lit, memOf_live lit lit lit, apart_of lit, Or.inr (apart_of lit), fun _ h => by cases h⟩ lit (apart_of lit) (apart_of lit)
  (memOf_contains lit lit lit) (memOf_contains lit lit lit) (drawn_unit _) (fun _ _ _ _ => upVal_unit _) (fun _ _ _ _ => upVal_unit _) (fun _ => upVal_zero)
  (tol_case (by decide) (by decide))

/-- a rank-one update of ones, compared with twos -/
example := C92_ger (F := binary64) wide64 (SS := 4) (k := 3) (m := memOf 1000 (fillVal 2)) (x := ⟨true, 5, 0⟩) (y := ⟨false, 7, 20⟩) (A := ⟨.dynPanel, .columnMajor, 5, 7, 100⟩)
  (B := ⟨.statDense, .columnMajor, 5, 7, 600⟩) (E := ⟨.statDense, .columnMajor, 5, 7, 700⟩) (atol := tol11) (rtol := tol11) (alpha := .fin false 1)
  ⟨by decide, rfl, rfl, memOf_vlive lit lit lit, memOf_vlive lit lit lit, memOf_live lit lit lit, memOf_live lit lit lit, vapart_of lit, vapart_of lit,
    Or.inr (apart_of lit)⟩ lit ⟨rfl, rfl⟩ (fun a h h' => (apart_of (SS := 4) lit) a h' h) (xv := fun i => fillVal 2 (0 + i)) (yv := fun i => fillVal 2 (20 + i)) (memOf_vcontains lit lit) (memOf_vcontains lit lit)
  (fill_of lit lit) (fill_of' lit lit) one_unit
  (fun i hi => by rw [fill_lo (by dsimp only at hi; omega)]; exact one_unit) (fun i hi => by rw [fill_lo (by dsimp only at hi; omega)]; exact one_unit) (fun _ _ _ _ => one_unit)
  (fun i j hi hj => by
    rw [fill_lo (by dsimp only at hi; omega), fill_lo (by dsimp only at hj; omega)]
    exact computed_exact (by simp [real]; try norm_num)) (tol_case (by decide) (by decide))

/-- zeros in the cells 300-599 (the result of syrk), fours in the lower triangle of the reference at 600, zeros above its diagonal, ones elsewhere -/
noncomputable def syrkTestVal (x : Int) : Bin binary64 :=
  if x < 300 then .fin false 1 else if x < 600 then .fin false 0 else if (x - 600) / 8 ≤ (x - 600) % 8 then .fin false 4 else .fin false 0
theorem syrkTestE (i j : Nat) (hi : i < 6) (hj : j < 6) : syrkTestVal ((⟨.statDense, .columnMajor, 6, 6, 600⟩ : Container).addr 4 i j) = if j ≤ i then .fin false 4 else .fin false 0 := by
  have h : ∀ i < 6, ∀ j < 6, ¬ ((⟨.statDense, .columnMajor, 6, 6, 600⟩ : Container).addr 4 i j) < 600 ∧
      ((((⟨.statDense, .columnMajor, 6, 6, 600⟩ : Container).addr 4 i j) - 600) / 8 ≤ (((⟨.statDense, .columnMajor, 6, 6, 600⟩ : Container).addr 4 i j) - 600) % 8 ↔ j ≤ i) := by decide
  unfold syrkTestVal
  rw [if_neg (by have := (h i hi j hj).1; omega), if_neg (h i hi j hj).1]
  exact if_congr (h i hi j hj).2 rfl rfl
theorem syrkTestA {c : Container} (h : 0 ≤ c.data) (h' : c.data + c.capacity 4 ≤ 300) : Contains 4 (memOf 1000 syrkTestVal) c (fun _ _ => .fin false 1) := fun i j hi hj => by
  have hc := c.addr_storage (SS := 4) (by decide) hi hj
  rw [memOf_contains (SS := 4) (n := 1000) (f := syrkTestVal) (c := c) (by decide) h (by omega) i j hi hj]
  exact congrArg some (if_pos (by have := hc.2; omega))
theorem syrkTestD : Contains 4 (memOf 1000 syrkTestVal) ⟨.statDense, .columnMajor, 6, 6, 400⟩ (fun _ _ => .fin false 0) := fun i j hi hj => by
  have hc := (⟨.statDense, .columnMajor, 6, 6, 400⟩ : Container).addr_storage (SS := 4) (by decide) hi hj
  have h1 : (400 : Int) ≤ (⟨.statDense, .columnMajor, 6, 6, 400⟩ : Container).addr 4 i j := hc.1
  have h2 : (⟨.statDense, .columnMajor, 6, 6, 400⟩ : Container).addr 4 i j < 400 + ((⟨.statDense, .columnMajor, 6, 6, 400⟩ : Container).capacity 4 : Int) := hc.2
  have h3 : ((⟨.statDense, .columnMajor, 6, 6, 400⟩ : Container).capacity 4 : Int) ≤ 100 := lit
  rw [memOf_contains (SS := 4) (n := 1000) (f := syrkTestVal) (c := ⟨.statDense, .columnMajor, 6, 6, 400⟩) lit lit lit i j hi hj]
  refine congrArg some ?_
  unfold syrkTestVal
  beta_reduce
  rw [if_neg (by omega), if_pos (by omega)]
example := C92_syrk (F := binary64) wide64 (SS := 4) (k := 5) (m := memOf 1000 syrkTestVal) (A := ⟨.dynDense, .columnMajor, 6, 3, 0⟩) (C := ⟨.statDense, .columnMajor, 6, 6, 100⟩)
  (D := ⟨.statDense, .columnMajor, 6, 6, 400⟩) (E := ⟨.statDense, .columnMajor, 6, 6, 600⟩) (atol := tol11) (rtol := tol11) (alpha := .fin false 1) (beta := .fin false 1)
  ⟨by decide, rfl, rfl, rfl, memOf_live lit lit lit, memOf_live lit lit lit, memOf_live lit lit lit, apart_of lit, Or.inr (apart_of lit)⟩ lit ⟨rfl, rfl⟩ (fun a h h' => (apart_of (SS := 4) lit) a h' h)
  (syrkTestA lit lit) (fun i j _ hi hj => syrkTestA (c := ⟨.statDense, .columnMajor, 6, 6, 100⟩) lit lit i j hi hj) syrkTestD (memOf_contains lit lit lit)
  one_unit one_unit (fun _ _ _ _ => one_unit) (fun _ _ _ _ => one_unit)
  (fun i j h hj => by
    have hj : j < 6 := hj
    rw [syrkTestE i j (by omega) hj, if_neg (by omega)]
    exact ⟨trivial, by simp [real], trivial, by simp [real]⟩)
  (fun i j h hi => by
    have hi : i < 6 := hi
    rw [syrkTestE i j hi (by omega), if_pos h]
    exact computed_exact (by simp [real]; try norm_num)) (by decide) (tol_case (by decide) (by decide))

/-- the random 8 × 8 positive definite matrix and its factor -/
noncomputable def zerosVal : Int → Bin binary64 := fun _ => Arith.zero
example := C92_potrf_dense (F := binary64) (k := 10) (m := memOf 1000 zerosVal) (A := spdA) (L := spdL) (TR := 1) (atol := tol11) (rtol := tol11) wide64 rfl
  ⟨by decide, rfl, rfl, memOf_live lit lit lit, memOf_live lit lit lit, Or.inr (apart_of lit)⟩ (by decide) (apart_of lit) spd_fits rfl (by decide)
  (C91_sizes.1 (by decide)) (t := 1000) (by decide) (rnd_free (by decide) _) (rndR_drawn 8) rndN_val (fun i j hi hj => memOf_contains (c := spdL) lit lit lit i j hi hj)
  (((C92_sizes (k := 10) (by decide)).1 tol11 tol11 tol11_val.1 tol11_val.1 tol11_val.2 tol11_val.2).2 8 (by decide) (by decide))

/-! ### what the reference multiplication runs (C93) -/

example := C93_reference (included := true) (SS := 4) (TR := 1) (m := demoMem) (A := ⟨.dynDense, .rowMajor, 5, 5, 0⟩) (B := ⟨.statPanel, .rowMajor, 5, 7, 300⟩)
  (C := ⟨.statDense, .columnMajor, 5, 7, 600⟩) .lower true (2 : Rat) (Or.inr (Or.inl rfl)) lit lit (memOf_live lit lit lit) (memOf_live lit lit lit) (memOf_live lit lit lit)
  (fun i k hi hk _ => memOf_contains (SS := 4) (c := ⟨.dynDense, .rowMajor, 5, 5, 0⟩) lit lit lit i k hi hk) (memOf_contains lit lit lit) (apart_of lit) (Or.inr (apart_of lit))
example := C93_reference (included := false) (SS := 4) (TR := 1) (m := demoMem) (A := ⟨.dynDense, .columnMajor, 5, 5, 0⟩) (B := ⟨.statPanel, .rowMajor, 5, 7, 300⟩)
  (C := ⟨.statDense, .columnMajor, 5, 7, 600⟩) .upper false (2 : Rat) (Or.inl rfl) lit lit (memOf_live lit lit lit) (memOf_live lit lit lit) (memOf_live lit lit lit)
  (fun i k hi hk _ => memOf_contains (SS := 4) (c := ⟨.dynDense, .columnMajor, 5, 5, 0⟩) lit lit lit i k hi hk) (memOf_contains lit lit lit) (apart_of lit) (Or.inr (apart_of lit))
example := C93_optimized (SS := 4) (TR := 1) (2 : Rat) ⟨.dynDense, .columnMajor, 5, 5, 0⟩ .upper false ⟨.statPanel, .rowMajor, 5, 7, 300⟩ ⟨.statDense, .columnMajor, 5, 7, 600⟩ rfl rfl
example := C93_optimized_rejects (SS := 4) (TR := 1) (m := demoMem) (A := ⟨.dynDense, .columnMajor, 5, 5, 0⟩) (B := ⟨.statPanel, .rowMajor, 5, 7, 300⟩)
  (C := ⟨.statDense, .columnMajor, 5, 7, 600⟩) (2 : Rat) .lower false rfl rfl lit (Or.inr rfl)
example := C93_agree (2 : Rat) trmmL_case lit trmmL_a trmmL_zero (memOf_contains lit lit lit) true
example := C93_agree (2 : Rat) trmmL_case lit trmmL_a trmmL_zero (memOf_contains lit lit lit) false
end Blast
