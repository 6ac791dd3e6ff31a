import Verif.Cases.BinarySystem
import Verif.Cases.Integers
import Verif.Cases.Scaling
import Verif.Props.Relations
/-
Concrete cases of the theorems in Props/Relations.
-/
namespace Blast
open Finset

/-- the 5 × 5 matrix in block 0; the right hand side is row 0 of block 1 (stride 8), the solution is at 700 with stride 3 -/
def tvA : Container := ⟨.dynDense, .columnMajor, 5, 5, (64 * 0 : Nat)⟩

theorem trsv_sel {V : Type} (f : Nat → Nat → Nat → V) (uplo : Reg.UpLo) :
    TrsvReady 4 5 uplo (selMem f) (tvA.mptr 4) (.vec false false 64 8) (.vec false false 700 3) (f 0) (fun i => f 1 0 i) where
  matrix := fun i k hi hk _ => ⟨by
    have := sel_dyn (SS := 4) (r := 5) (c := 5) f 0 lit lit lit lit i k hi hk
    rw [Container.addr_eq_mptr] at this
    exact this, by
    have : ∀ i < 5, ∀ k < 5, (tvA.mptr 4).addr 4 (i : Nat) (k : Nat) < 100 := by decide +kernel
    intro i' hi' e
    have h1 := this i hi k hk
    have e : (tvA.mptr 4).addr 4 (i : Nat) (k : Nat) = 700 + i' * 3 := e
    omega⟩
  live := fun i hi => by
    show (selMem f (700 + (i : Int) * 3)).isSome = true
    unfold selMem; rw [memOf_at (by omega) (by omega)]; rfl
  inj := fun i i' _ _ e => by
    have e : (700 : Int) + i * 3 = 700 + i' * 3 := e
    omega
  rhs := fun i hi => by
    show memOf 2000 _ ((64 : Int) + i * 8) = _
    rw [memOf_at (by omega) (by omega)]
    rw [show (((64 : Int) + i * 8) / 64).toNat = 1 by omega, show (((64 : Int) + i * 8) % 64 % 8).toNat = 0 by omega,
      show (((64 : Int) + i * 8) % 64 / 8).toNat = i by omega]
  apart := fun i i' _ _ e => by
    have e : (64 : Int) + i * 8 = 700 + i' * 3 := e
    omega

theorem rel_trsm {V : Type} (f : Nat → Nat → Nat → V) : TrsmArgs 4 (selMem f) tvA ⟨.dynDense, .columnMajor, 5, 7, (64 * 2 : Nat)⟩ ⟨.statDense, .columnMajor, 5, 7, (64 * 3 : Nat)⟩ :=
  ⟨by decide, memOf_live lit lit lit, memOf_live lit lit lit, memOf_live lit lit lit, apart_of lit, Or.inr (apart_of lit)⟩

/-- column 3 of the right hand sides in block 2 is row 0 of block 1 -/
def relVal (q i j : Nat) : Rat := if q = 2 then if j = 3 then (1 + i : Nat) else (7 * i + j : Nat) else if q = 1 then (1 + j : Nat) else (2 + i + 3 * j : Nat)

example := C89_trsv_is_trsm (trsv_sel relVal .upper) (rel_trsm relVal) lit rfl ((sel_dyn (SS := 4) (r := 5) (c := 5) relVal 0 lit lit lit lit).tri _ _)
  (sel_dyn (SS := 4) (r := 5) (c := 7) relVal 2 lit lit lit lit) (j := 3) lit (fun _ _ => rfl)

/-- the reference solves with 3 times the right hand side in block 1, trsm with block 2, which holds the products -/
def relVal3 (q i j : Nat) : Rat := if q = 2 then Arith.mul 3 ((1 + i + 10 * j : Nat) : Rat) else if q = 1 then (1 + i + 10 * j : Nat) else (2 + i + 3 * j : Nat)

theorem rel_apart : Apart 4 tvA ⟨.statPanel, .rowMajor, 5, 7, 700⟩ := apart_of lit
theorem rel_live {V : Type} (f : Nat → Nat → Nat → V) : Live 4 (selMem f) ⟨.statPanel, .rowMajor, 5, 7, 700⟩ := memOf_live lit lit lit

example := C89_reference_trsm_left (SS := 4) (m := 5) (n := 7) (A := tvA.mptr 4) (X := (⟨.statPanel, .rowMajor, 5, 7, 700⟩ : Container).mptr 4)
  (B := (⟨.dynDense, .columnMajor, 5, 7, (64 * 1 : Nat)⟩ : Container).mptr 4) .lower false (3 : Rat) (mem := selMem relVal3)
  (triArg_of (by decide) .lower false (sel_dyn (SS := 4) (r := 5) (c := 5) relVal3 0 lit lit lit lit) rel_apart lit lit lit lit)
  ((rel_live relVal3).readable (by decide)) (fun i j i' j' a b c d e => Container.inj (SS := 4) (by decide) ⟨.statPanel, .rowMajor, 5, 7, 700⟩ i j i' j' a b c d e)
  (sel_dyn (SS := 4) (r := 5) (c := 7) relVal3 1 lit lit lit lit).holds (sameOrDisj_of (SS := 4) (by decide) (c := ⟨.dynDense, .columnMajor, 5, 7, (64 * 1 : Nat)⟩) (d := ⟨.statPanel, .rowMajor, 5, 7, 700⟩) lit lit lit) (rel_trsm relVal3) lit rfl rfl
  ((sel_dyn (SS := 4) (r := 5) (c := 5) relVal3 0 lit lit lit lit).tri _ _) (sel_dyn (SS := 4) (r := 5) (c := 7) relVal3 2 lit lit lit lit)

/-- X (7 × 5) times the matrix in block 0; block 3 holds its transpose, block 2 the transposed products -/
def relVal4 (q i j : Nat) : Rat :=
  if q = 2 then Arith.mul 3 ((1 + j + 10 * i : Nat) : Rat) else if q = 1 then (1 + i + 10 * j : Nat) else if q = 3 then (2 + j + 3 * i : Nat) else (2 + i + 3 * j : Nat)

example := C89_reference_trsm_right (SS := 4) (m := 7) (n := 5) (A := tvA.mptr 4) (X := (⟨.statPanel, .rowMajor, 7, 5, 700⟩ : Container).mptr 4)
  (B := (⟨.dynDense, .columnMajor, 7, 5, (64 * 1 : Nat)⟩ : Container).mptr 4) (fun p q => Rat.mul_comm p q) .lower false (3 : Rat) (mem := selMem relVal4) (mem1 := selMem relVal4)
  (a := relVal4 0) (b := relVal4 1)
  (triArg_of (by decide) .lower false (sel_dyn (SS := 4) (r := 5) (c := 5) relVal4 0 lit lit lit lit) (apart_of lit) lit lit lit lit)
  ((memOf_live lit lit lit : Live 4 (selMem relVal4) ⟨.statPanel, .rowMajor, 7, 5, 700⟩).readable (by decide))
  (fun i j i' j' a b c d e => Container.inj (SS := 4) (by decide) ⟨.statPanel, .rowMajor, 7, 5, 700⟩ i j i' j' a b c d e)
  (sel_dyn (SS := 4) (r := 7) (c := 5) relVal4 1 lit lit lit lit).holds (sameOrDisj_of (SS := 4) (by decide) (c := ⟨.dynDense, .columnMajor, 7, 5, (64 * 1 : Nat)⟩) (d := ⟨.statPanel, .rowMajor, 7, 5, 700⟩) lit lit lit)
  (A1 := ⟨.dynDense, .columnMajor, 5, 5, (64 * 3 : Nat)⟩) (B1 := ⟨.dynDense, .columnMajor, 5, 7, (64 * 2 : Nat)⟩) (X1 := ⟨.statDense, .columnMajor, 5, 7, (64 * 4 : Nat)⟩)
  (SS' := 4) ⟨by decide, memOf_live lit lit lit, memOf_live lit lit lit, memOf_live lit lit lit, apart_of lit, Or.inr (apart_of lit)⟩ lit rfl rfl
  ((sel_dyn (SS := 4) (r := 5) (c := 5) relVal4 3 lit lit lit lit).tri _ _) (sel_dyn (SS := 4) (r := 5) (c := 7) relVal4 2 lit lit lit lit)

/-- the other triangle is different -/
example := C74_trsv (trsv_sel relVal .upper) (trsv_sel (fun q i j => if q = 0 ∧ j < i then (100 : Rat) else relVal q i j) .upper) (fun i k _ _ ht => by
  rw [if_neg]
  rintro ⟨-, hlt⟩
  rcases ht with ⟨e, -⟩ | ⟨e, -⟩ | ⟨-, e⟩
  · omega
  · cases e
  · omega)

/-- b(2) = NaN: x(1) = NaN, with an upper triangle -/
example : ∃ m' xv, trsvPtr 4 5 .upper (tvA.mptr 4) (.vec false false 64 8) (.vec false false 700 3)
      (selMem (fun q i j => if q = 1 ∧ j = 2 then nanVal else num (relVal q i j))) = .ok () m' ∧ VHolds 4 m' (.vec false false 700 3) 5 xv ∧ IsNan (xv 1) := by
  obtain ⟨m', xv, h1, h2, h3⟩ := C76_trsv (V := Nan Rat) (trsv_sel (fun q i j => if q = 1 ∧ j = 2 then nanVal else num (relVal q i j)) .upper)
  exact ⟨m', xv, h1, h2, h3 2 (by decide) (Or.inl (if_pos ⟨rfl, rfl⟩)) 1 (by decide) (Or.inr (by unfold SolvedBefore; decide))⟩

example := C78_trsv (G := PowTwo) fac (fun k => fac (2 * k)) (fac 1) (trsv_sel feVal .lower)
  (trsv_sel (fun q i j => if q = 0 then scl (fac i * fac (2 * j)) (feVal 0 i j) else scl (fac j * fac 1) (feVal 1 i j)) .lower)

def relSys (q i j : Nat) : ℤ := if q = 0 then intVal 0 i j else ∑ k ∈ range 5, tri .upper false (intVal 0) j k * (k - 3 : ℤ)

example := C82_trsv (E := (inferInstance : ExactInts Dbl)) (z := fun k => (k - 3 : ℤ)) (a := intVal 0) (bv := fun i => relSys 1 0 i)
  (trsv_sel (fun q i j => (ExactInts.num (relSys q i j) : Dbl)) .upper) (fun i k hi hk _ => intVal_le 0 lit i (Nat.lt_of_lt_of_le hi lit) k (Nat.lt_of_lt_of_le hk lit))
  (by have : ∀ i < 5, intVal 0 i i ≠ 0 := by decide +kernel
      exact fun i hi => this i hi)
  (fun i _ => rfl)
  (by have : ∀ i < 5, |((i : ℕ) - 3 : ℤ)| ≤ (2 : ℤ) ^ (52 + 1) := by decide +kernel
      exact fun i hi => this i hi)
  (by have : ∀ i < 5, ∑ k ∈ range 5, |tri .upper false (intVal 0) i k| * |((k : ℕ) - 3 : ℤ)| ≤ (2 : ℤ) ^ (52 + 1) := by decide +kernel
      exact fun i hi => this i hi)

/-- ones -/
noncomputable def relOne (_ _ _ : Nat) : Bin binary64 := .fin false 1

example : ∃ m' xv, trsvPtr 4 5 .lower (tvA.mptr 4) (.vec false false 64 8) (.vec false false 700 3) (selMem relOne) = .ok () m' ∧
    VHolds 4 m' (.vec false false 700 3) 5 xv ∧ ∀ i < 5, (xv i).Finite := by
  have h1 : |(relOne 0 0 0).real| = 1 := by simp [relOne, Bin.real]
  have hW : (1 + binary64.u) ^ (2 * 5 + 1) / 1 * (1 + (2 * (5 : ℕ) + 1) * binary64.eta) * (1 + (1 + binary64.u) ^ (2 * 5 + 1) / 1 * 1) ^ 5 < 2 ^ 40 := by
    have he := binLu_eta
    have he0 := binary64.eta_pos
    have hu0 := binary64.u_pos
    have hc : (1 + binary64.u) ^ (2 * 5 + 1) ≤ 2 := by
      refine le_trans (pow_le_pow_left₀ (by linarith) (show 1 + binary64.u ≤ 1 + 1 / 10000 by have := binLu_u; norm_num at this ⊢; linarith) _) (by norm_num)
    have hc0 : 0 ≤ (1 + binary64.u) ^ (2 * 5 + 1) := by positivity
    rw [div_one, mul_one]
    generalize (1 + binary64.u) ^ (2 * 5 + 1) = c at *
    have h2 : (1 + (2 * (5 : ℕ) + 1) * binary64.eta) ≤ 2 := by push_cast; norm_num at he ⊢; linarith
    have h3 : (1 + c) ^ 5 ≤ (3 : ℝ) ^ 5 := pow_le_pow_left₀ (by linarith) (by linarith) 5
    have h4 : 0 ≤ (1 + (2 * (5 : ℕ) + 1) * binary64.eta) := by positivity
    have h5 := mul_le_mul (mul_le_mul hc h2 h4 (by norm_num)) h3 (by positivity) (by norm_num)
    exact lt_of_le_of_lt h5 (by norm_num)
  obtain ⟨m', xv, e1, e2, e3⟩ := C86_trsv_safe (trsv_sel relOne .lower) (α := 1) (β := 1) (δ := 1) zero_le_one zero_le_one one_pos
    (fun _ _ _ _ _ _ => ⟨trivial, h1.le⟩) (fun _ _ => ⟨trivial, h1.ge⟩) (fun _ _ => ⟨trivial, h1.le⟩) rfl rfl (lt_big_of hW) (lt_big_of (by rw [one_mul]; exact hW))
  exact ⟨m', xv, e1, e2, fun i hi => (e3 i hi).1⟩

example := C86_trsv (trsv_sel relOne .upper)

/-! syrk and trmm -/

/-- block 0: A, block 1: alpha A, block 2: the transpose of A -/
noncomputable def relSyrk (q i j : Nat) : Bin binary64 :=
  if q = 1 then Arith.mul (binVal 1) (binVal (i + 8 * j)) else if q = 2 then binVal (j + 8 * i) else binVal (i + 8 * j)

theorem relSyrk_fin {q : Nat} (hq : 2 < q) (i j : Nat) : (relSyrk q i j).Finite := by
  unfold relSyrk
  rw [if_neg (by omega), if_neg (by omega)]
  trivial

example := C89_syrk_is_gemm (SS := 4) (SS' := 4) (m := selMem relSyrk) (m1 := selMem relSyrk) (A := ⟨.dynDense, .columnMajor, 5, 7, (64 * 0 : Nat)⟩)
  (C := ⟨.statDense, .columnMajor, 5, 5, (64 * 3 : Nat)⟩) (D := ⟨.statDense, .columnMajor, 5, 5, (64 * 4 : Nat)⟩) (A1 := ⟨.dynDense, .columnMajor, 5, 7, (64 * 1 : Nat)⟩)
  (B1 := ⟨.dynDense, .columnMajor, 7, 5, (64 * 2 : Nat)⟩) (C1 := ⟨.statDense, .columnMajor, 5, 5, (64 * 3 : Nat)⟩) (D1 := ⟨.statDense, .columnMajor, 5, 5, (64 * 4 : Nat)⟩)
  (binVal 1) ⟨by decide, rfl, rfl, rfl, memOf_live lit lit lit, memOf_live lit lit lit, memOf_live lit lit lit, apart_of lit, Or.inr (apart_of lit)⟩ lit
  ⟨by decide, rfl, rfl, rfl, memOf_live lit lit lit, memOf_live lit lit lit, memOf_live lit lit lit, memOf_live lit lit lit, apart_of lit, apart_of lit, Or.inr (apart_of lit)⟩ lit
  rfl rfl rfl (sel_dyn relSyrk 0 lit lit lit lit) (fun i j _ => sel_stat relSyrk 3 lit lit lit lit i j) (sel_stat relSyrk 4 lit lit lit lit)
  (sel_dyn relSyrk 1 lit lit lit lit) (sel_dyn relSyrk 2 lit lit lit lit) (sel_stat relSyrk 3 lit lit lit lit)
  (fun _ _ _ _ => relSyrk_fin lit _ _) (fun _ _ _ _ => relSyrk_fin lit _ _)

/-- block 0: A, block 1: B, block 2: alpha B, block 3: A with zeros above the diagonal -/
noncomputable def relTrmm (q i j : Nat) : Bin binary64 :=
  if q = 2 then Arith.mul (binVal 1) (binVal (i + 8 * j)) else if q = 3 then (if j ≤ i then binVal (i + 8 * j) else Arith.zero) else binVal (i + 8 * j)

theorem relTrmm_fin {q : Nat} (hq : 3 < q) (i j : Nat) : (relTrmm q i j).Finite := by
  unfold relTrmm
  rw [if_neg (by omega), if_neg (by omega)]
  trivial

theorem bin_mul_fin (x y : Int) : (Arith.mul (binVal x) (binVal y)).Finite := by
  refine Bin.mul_finite trivial trivial ?_
  rw [abs_mul]
  exact bin_one x y

example := C89_trmm_right_is_gemm (SS := 4) (SS' := 4) (m := selMem relTrmm) (m1 := selMem relTrmm) (A := ⟨.dynDense, .columnMajor, 7, 7, (64 * 0 : Nat)⟩)
  (B := ⟨.dynDense, .columnMajor, 5, 7, (64 * 1 : Nat)⟩) (C := ⟨.statDense, .columnMajor, 5, 7, (64 * 4 : Nat)⟩) (B1 := ⟨.dynDense, .columnMajor, 5, 7, (64 * 2 : Nat)⟩)
  (A1 := ⟨.dynDense, .columnMajor, 7, 7, (64 * 3 : Nat)⟩) (C1 := ⟨.statDense, .columnMajor, 5, 7, (64 * 5 : Nat)⟩) (D1 := ⟨.statDense, .columnMajor, 5, 7, (64 * 6 : Nat)⟩)
  (binVal 1) ⟨by decide, rfl, rfl, memOf_live lit lit lit, memOf_live lit lit lit, memOf_live lit lit lit, apart_of lit, Or.inr (apart_of lit)⟩ lit
  ⟨by decide, rfl, rfl, rfl, memOf_live lit lit lit, memOf_live lit lit lit, memOf_live lit lit lit, memOf_live lit lit lit, apart_of lit, apart_of lit, Or.inr (apart_of lit)⟩ lit
  rfl rfl rfl (fun i j _ => sel_dyn relTrmm 0 lit lit lit lit i j) (sel_dyn relTrmm 1 lit lit lit lit)
  (sel_dyn relTrmm 2 lit lit lit lit) (sel_dyn relTrmm 3 lit lit lit lit) (sel_stat relTrmm 5 lit lit lit lit)
  (fun _ _ _ _ => bin_mul_fin _ _) (fun _ _ _ _ => relTrmm_fin lit _ _)

/-- block 0: an upper triangular matrix, block 1: B, block 2: alpha A -/
noncomputable def relTrmmL (q i j : Nat) : Bin binary64 :=
  if q = 2 then Arith.mul (binVal 1) (binUp 0 i j) else binUp q i j

theorem relTrmmL_fin {q : Nat} (hq : q ≠ 2) (i j : Nat) : (relTrmmL q i j).Finite := by
  unfold relTrmmL
  rw [if_neg hq]
  exact binUp_fin _ _ _

example := C89_trmm_left_is_gemm (SS := 4) (SS' := 4) (m := selMem relTrmmL) (m1 := selMem relTrmmL) (A := ⟨.dynDense, .columnMajor, 5, 5, (64 * 0 : Nat)⟩)
  (B := ⟨.dynDense, .columnMajor, 5, 7, (64 * 1 : Nat)⟩) (C := ⟨.statDense, .columnMajor, 5, 7, (64 * 4 : Nat)⟩) (A1 := ⟨.dynDense, .columnMajor, 5, 5, (64 * 2 : Nat)⟩)
  (B1 := ⟨.dynDense, .columnMajor, 5, 7, (64 * 1 : Nat)⟩) (C1 := ⟨.statDense, .columnMajor, 5, 7, (64 * 5 : Nat)⟩) (D1 := ⟨.statDense, .columnMajor, 5, 7, (64 * 6 : Nat)⟩)
  (binVal 1) ⟨by decide, rfl, rfl, memOf_live lit lit lit, memOf_live lit lit lit, memOf_live lit lit lit, apart_of lit, Or.inr (apart_of lit), fun h => by cases h⟩ lit
  ⟨by decide, rfl, rfl, rfl, memOf_live lit lit lit, memOf_live lit lit lit, memOf_live lit lit lit, memOf_live lit lit lit, apart_of lit, apart_of lit, Or.inr (apart_of lit)⟩ lit
  rfl rfl rfl (sel_dyn relTrmmL 0 lit lit lit lit) (sel_dyn relTrmmL 1 lit lit lit lit)
  (fun i k h _ => by
    show (if 0 = 2 then _ else binUp 0 i k) = _
    rw [if_neg (by decide)]
    unfold binUp
    rw [if_pos ⟨rfl, h⟩]; rfl)
  (sel_dyn relTrmmL 2 lit lit lit lit) (sel_dyn relTrmmL 1 lit lit lit lit) (sel_stat relTrmmL 5 lit lit lit lit) trivial
  (fun _ _ _ _ => relTrmmL_fin lit _ _) (fun _ _ _ _ => relTrmmL_fin lit _ _)

end Blast
