import Verif.Cases.Binary
import Verif.Cases.Potrf
import Verif.Props.BinarySolve
/-
Concrete cases of the theorems in Props/BinarySolve, in binary64.
-/
namespace Blast
open Finset

theorem Contains.eq {V : Type} {SS : Nat} {m : Mem V} {A : Container} {a b : Nat → Nat → V} (h : Contains SS m A a) (h' : Contains SS m A b) {i j : Nat} (hi : i < A.rows) (hj : j < A.cols) :
    a i j = b i j := Option.some.inj ((h i j hi hj).symm.trans (h' i j hi hj))

theorem bin_trsm {f : Int → Bin binary64} : TrsmArgs 4 (memOf 2000 f) ⟨.dynDense, .columnMajor, 5, 5, 0⟩ ⟨.dynDense, .columnMajor, 5, 7, 64⟩ ⟨.statDense, .columnMajor, 5, 7, 128⟩ :=
  ⟨by decide, memOf_live lit lit lit, memOf_live lit lit lit, memOf_live lit lit lit, apart_of lit, Or.inr (apart_of lit)⟩

example := C86_trsm (SS := 4) (m := binMem) .upper false (A := ⟨.dynDense, .columnMajor, 5, 5, 0⟩) (B := ⟨.dynDense, .columnMajor, 5, 7, 64⟩)
  (X := ⟨.statDense, .columnMajor, 5, 7, 128⟩) bin_trsm lit ((memOf_contains lit lit lit).tri _ _) (memOf_contains lit lit lit)

/-- unit lower triangular, in place: x(1,j) = b(1,j) - a(1,0) b(0,j) is finite, so its equation holds up to rounding -/
example : ∃ m' x, trsmCall 4 .lower true ⟨.dynDense, .columnMajor, 5, 5, 0⟩ ⟨.dynDense, .columnMajor, 5, 7, 64⟩ ⟨.statDense, .columnMajor, 5, 7, 128⟩ binMem = .ok () m' ∧
    Contains 4 m' ⟨.statDense, .columnMajor, 5, 7, 128⟩ x ∧
    |(binVal 65).real - ∑ k ∈ range 5, tri .lower true (fun i k => (binVal ((⟨.dynDense, .columnMajor, 5, 5, 0⟩ : Container).addr 4 i k)).real) 1 k * (x k 0).real| ≤
      ((1 / (1 - binary64.u)) ^ 5 - 1) * ∑ k ∈ range 5, |tri .lower true (fun i k => (binVal ((⟨.dynDense, .columnMajor, 5, 5, 0⟩ : Container).addr 4 i k)).real) 1 k| * |(x k 0).real| +
        (1 / (1 - binary64.u)) ^ 5 * (3 * 5 + 1) * binary64.eta := by
  obtain ⟨m', x, e, c, h⟩ := C86_trsm (SS := 4) (m := binMem) .lower true (A := ⟨.dynDense, .columnMajor, 5, 5, 0⟩) (B := ⟨.dynDense, .columnMajor, 5, 7, 64⟩)
    (X := ⟨.statDense, .columnMajor, 5, 7, 128⟩) bin_trsm lit ((memOf_contains lit lit lit).tri _ _) (memOf_contains lit lit lit)
  obtain ⟨m2, e2, c2, -⟩ := det_trsm (SS := 4) (m := binMem) .lower true (A := ⟨.dynDense, .columnMajor, 5, 5, 0⟩) (B := ⟨.dynDense, .columnMajor, 5, 7, 64⟩)
    (X := ⟨.statDense, .columnMajor, 5, 7, 128⟩) bin_trsm lit ((memOf_contains lit lit lit).tri _ _) (memOf_contains lit lit lit)
  obtain rfl : m' = m2 := by
    have := e.symm.trans e2
    injection this
  refine ⟨m', x, e, c, ?_⟩
  have hx : (x 1 0).Finite := by
    rw [c.eq c2 (show 1 < 5 by decide) (show 0 < 7 by decide)]
    have h0 := trsmSol_rec (V := Bin binary64) .lower true 5 (fun i j => binVal ((⟨.dynDense, .columnMajor, 5, 5, 0⟩ : Container).addr 4 i j))
      (fun i => binVal ((⟨.dynDense, .columnMajor, 5, 7, 64⟩ : Container).addr 4 i 0))
    have h1 := h0 1 (by decide)
    have h00 := h0 0 (by decide)
    have e1 : trsmSol (V := Bin binary64) .lower true 5 (fun i j => binVal ((⟨.dynDense, .columnMajor, 5, 5, 0⟩ : Container).addr 4 i j))
      (fun i => binVal ((⟨.dynDense, .columnMajor, 5, 7, 64⟩ : Container).addr 4 i 0)) 0 = binVal 64 := h00
    have e2 : trsmSol (V := Bin binary64) .lower true 5 (fun i j => binVal ((⟨.dynDense, .columnMajor, 5, 5, 0⟩ : Container).addr 4 i j))
      (fun i => binVal ((⟨.dynDense, .columnMajor, 5, 7, 64⟩ : Container).addr 4 i 0)) 1 = Bin.sub (binVal 65) (Bin.mul (binVal 1) (binVal 64)) := by
      rw [← e1]; exact h1
    show (trsmSol (V := Bin binary64) .lower true 5 (fun i j => binVal ((⟨.dynDense, .columnMajor, 5, 5, 0⟩ : Container).addr 4 i j))
      (fun i => binVal ((⟨.dynDense, .columnMajor, 5, 7, 64⟩ : Container).addr 4 i 0)) 1).Finite
    rw [e2]
    have hm : (Bin.mul (binVal 1) (binVal 64)).Finite := Bin.mul_finite trivial trivial (by rw [abs_mul]; exact bin_one 1 64)
    have hm2 := (Bin.mul_inv hm).2.2
    have hm3 := binVal_mul 1 64
    have hu := bin_u
    have hu0 := binary64.u_pos
    have he := bin_eta
    have hb := bin_big
    have hm4 : |(Bin.mul (binVal 1) (binVal 64)).real| ≤ 9 := by
      have := abs_add_le ((Bin.mul (binVal 1) (binVal 64)).real - (binVal 1).real * (binVal 64).real) ((binVal 1).real * (binVal 64).real)
      rw [sub_add_cancel] at this
      rw [abs_mul] at this hm2
      have q : binary64.u * (|(binVal 1).real| * |(binVal 64).real|) ≤ 1 * 4 := mul_le_mul hu hm3 (by positivity) (by norm_num)
      linarith
    rcases hq : Bin.mul (binVal 1) (binVal 64) with ⟨t, y⟩ | t | _
    · refine Bin.mk_finite ?_
      rw [hq] at hm4
      have h3 : |(binVal 65).real + (Bin.fin (!t) y : Bin binary64).real| ≤ 11 := by
        have h4 := abs_add_le (binVal 65).real (Bin.fin (!t) y : Bin binary64).real
        have h5 : (Bin.fin (!t) y : Bin binary64).real = -(Bin.fin t y : Bin binary64).real := Bin.real_neg (Bin.fin t y)
        have h6 := binVal_le 65
        rw [h5, abs_neg] at h4
        rw [h5]
        linarith
      have h7 := mul_le_mul (show 1 + binary64.u ≤ 2 by linarith) h3 (abs_nonneg _) (by norm_num)
      refine lt_of_le_of_lt (add_le_add h7 he) (lt_of_lt_of_le (by norm_num) hb)
    · rw [hq] at hm; exact hm.elim
    · rw [hq] at hm; exact hm.elim
  have := (h 1 0 (by decide) (by decide) hx (fun h => by cases h)).2.2.2
  rw [tri_diag, if_pos rfl, abs_one] at this
  exact this

/-- block 0: a 1-by-1 panel matrix (4) -/
noncomputable def binFour : Mem (Bin binary64) := memOf 2000 (fun _ => .fin false 4)

def fourA : Container := ⟨.dynPanel, .columnMajor, 1, 1, 0⟩
def fourL : Container := ⟨.dynPanel, .columnMajor, 1, 1, 400⟩

theorem four_rep : binary64.Representable 4 := ⟨⟨4, 0, by norm_num [binary64], by decide, by decide, by norm_num⟩, fun h => absurd rfl h⟩
theorem two_rep : binary64.Representable 2 := ⟨⟨2, 0, by norm_num [binary64], by decide, by decide, by norm_num⟩, fun h => absurd rfl h⟩

theorem four_args : PotrfArgs 4 binFour fourA fourL := ⟨by decide, rfl, rfl, memOf_live lit lit lit, memOf_live lit lit lit, Or.inr (apart_of lit)⟩
theorem four_fits : PotrfFits 4 1 4 fourA fourL := potrfFits_square (by decide) (Or.inr ⟨rfl, rfl⟩)
theorem four_real : (Bin.fin false 4 : Bin binary64).real = 4 := by simp [Bin.real]
theorem four_num : (Bin.fin false 4 : Bin binary64).IsNum := fun _ => by rw [four_real]; exact four_rep

example : ∃ m', potrfPanelCall 4 4 fourA fourL binFour = .ok () m' ∧ ∃ l, ContainsLower 4 m' fourL l ∧ IsBinCholesky binary64 1 1 l (fun _ _ => .fin false 4) :=
  C86_potrf_panel C86_wide.1 four_args lit four_fits (fun i j _ hi hj => memOf_contains (c := fourA) lit lit lit i j hi hj) (fun _ _ => four_num)

/-- the computed diagonal element 4 / sqrt(4) is finite, so the assumptions in `IsBinCholesky` are met -/
example : (Bin.div (.fin false 4) (Bin.sqrt (.fin false 4)) : Bin binary64).Finite := by
  have e : Real.sqrt ((4 : NNReal) : ℝ) = 2 := by
    rw [NNReal.coe_ofNat, show (4 : ℝ) = 2 * 2 by norm_num]
    exact Real.sqrt_mul_self (by norm_num)
  have h4 : (4 : NNReal) ≠ 0 := by norm_num
  have e1 : Bin.sqrt (.fin false 4 : Bin binary64) = Bin.mk binary64 false 2 := by
    simp only [Bin.sqrt]
    rw [if_neg h4, e]
    rfl
  rw [e1]
  have h2 := Bin.mk_exact (F := binary64) (nz := false) two_rep
  rcases hq : Bin.mk binary64 false 2 with ⟨t, y⟩ | t | _
  · rw [hq] at h2
    have hy : y ≠ 0 := by
      rintro rfl
      have := h2.2
      rw [(Bin.real_eq_zero t 0).2 rfl] at this
      norm_num at this
    simp only [Bin.div]
    rw [if_neg hy, h2.2, four_real]
    exact (Bin.mk_exact (by rw [show (4 : ℝ) / 2 = 2 by norm_num]; exact two_rep)).1
  · rw [hq] at h2; exact h2.1.elim
  · rw [hq] at h2; exact h2.1.elim

/-- the 8-by-8 matrix with 4 everywhere in the stored triangle: not positive definite, the statement holds for the finite elements -/
example := C86_potrf_dense C86_wide.1 (TR := 1) (m := binFour) (A := cholA) (L := cholL)
  ⟨by decide, rfl, rfl, memOf_live lit lit lit, memOf_live lit lit lit, Or.inr (apart_of lit)⟩ lit chol_fits' (a := fun _ _ => .fin false 4)
  (fun i j _ hi hj => memOf_contains (c := cholA) lit lit lit i j hi hj) (fun _ _ => four_num)

end Blast
