import Verif.Cases.Integers
import Verif.Props.Transpose
/-
Concrete cases of the theorems in Props/Transpose: `double` arithmetic; memory as in Cases/Selection.
-/
namespace Blast

/-- some values that are not integers, an infinity and a not-a-number -/
noncomputable def dblVal (q i j : Nat) : Dbl := if q = 1 ∧ i = 2 ∧ j = 3 then .nan else if q = 0 ∧ i = 1 ∧ j = 1 then .inf true else .fin ((1 + i + 10 * j + 100 * q : Fe 52) / 7)

/-- 7 × 6 times 6 × 8 and 8 × 6 times 6 × 7, other classes and SIMD width -/
example := C83_gemm_transpose (SS := 4) (SS' := 8) (m := selMem dblVal) (n := selMem (fun q i j => if q = 0 then dblVal 1 j i else if q = 1 then dblVal 0 j i else dblVal 2 j i))
  (dblVal 3 0 0) (dblVal 3 1 0)
  (A := ⟨.dynDense, .columnMajor, 7, 6, (64 * 0 : Nat)⟩) (B := ⟨.dynDense, .columnMajor, 6, 8, (64 * 1 : Nat)⟩) (C := ⟨.statDense, .columnMajor, 7, 8, (64 * 2 : Nat)⟩)
  (D := ⟨.statDense, .columnMajor, 7, 8, 192⟩)
  (A' := ⟨.statDense, .columnMajor, 8, 6, (64 * 0 : Nat)⟩) (B' := ⟨.statDense, .columnMajor, 6, 7, (64 * 1 : Nat)⟩) (C' := ⟨.dynDense, .columnMajor, 8, 7, (64 * 2 : Nat)⟩)
  (D' := ⟨.dynDense, .columnMajor, 8, 7, (64 * 2 : Nat)⟩)
  ⟨by decide, rfl, rfl, rfl, memOf_live lit lit lit, memOf_live lit lit lit, memOf_live lit lit lit, memOf_live lit lit lit, apart_of lit, apart_of lit, Or.inr (apart_of lit)⟩ lit
  ⟨by decide, rfl, rfl, rfl, memOf_live lit lit lit, memOf_live lit lit lit, memOf_live lit lit lit, memOf_live lit lit lit, apart_of lit, apart_of lit, Or.inl rfl⟩ lit
  ⟨rfl, rfl⟩ ⟨rfl, rfl⟩ (sel_dyn dblVal 0 lit lit lit lit) (sel_dyn dblVal 1 lit lit lit lit) (sel_stat dblVal 2 lit lit lit lit)
  (sel_stat _ 0 lit lit lit lit) (sel_stat _ 1 lit lit lit lit) (sel_dyn _ 2 lit lit lit lit)

/-- A (7 × 6), its transpose in block 1, a symmetric matrix in block 2 -/
noncomputable def symVal (q i j : Nat) : Dbl := if q = 1 then dblVal 0 j i else if q = 2 then dblVal 4 (i + j) (i * j) else dblVal q i j

example := C83_gemm_symmetric (SS := 4) (m := selMem symVal) (dblVal 3 0 0) (dblVal 3 1 0) (a := dblVal 0) (c := symVal 2)
  (A := ⟨.dynDense, .columnMajor, 7, 6, (64 * 0 : Nat)⟩) (B := ⟨.dynDense, .columnMajor, 6, 7, (64 * 1 : Nat)⟩) (C := ⟨.statDense, .columnMajor, 7, 7, (64 * 2 : Nat)⟩)
  (D := ⟨.statDense, .columnMajor, 7, 7, 192⟩)
  ⟨by decide, rfl, rfl, rfl, memOf_live lit lit lit, memOf_live lit lit lit, memOf_live lit lit lit, memOf_live lit lit lit, apart_of lit, apart_of lit, Or.inr (apart_of lit)⟩ lit
  (sel_dyn symVal 0 lit lit lit lit) (sel_dyn symVal 1 lit lit lit lit) (sel_stat symVal 2 lit lit lit lit)
  (fun i j => by show dblVal 4 (i + j) (i * j) = dblVal 4 (j + i) (j * i); rw [Nat.add_comm, Nat.mul_comm]) rfl

/-- integers: multiplication by one does not round them -/
def symInt (q i j : Nat) : ℤ := if q = 2 then intVal 0 (i + j) (i * j) else intVal 0 i j

example := C83_ger_symmetric (SS := 4) (m := intMem symInt)
  (x := ⟨true, 7, (64 * 0 : Nat)⟩) (y := ⟨false, 7, (64 * 1 : Nat)⟩) (A := ⟨.dynDense, .columnMajor, 7, 7, (64 * 2 : Nat)⟩) (B := ⟨.statDense, .columnMajor, 7, 7, 192⟩)
  (xv := fun i => ExactInts.num (intVal 0 i 0)) (a := fun i j => ExactInts.num (intVal 0 (i + j) (i * j)))
  ⟨by decide, rfl, rfl, memOf_vlive lit lit lit, memOf_vlive lit lit lit, memOf_live lit lit lit, memOf_live lit lit lit, vapart_of lit, vapart_of lit, Or.inr (apart_of lit)⟩ lit
  (sel_vec _ 0 lit lit) (sel_vec _ 1 lit lit) (sel_dyn _ 2 lit lit lit lit) (fun i hi => mul_one_num (intVal_le 0 lit i (Nat.lt_of_lt_of_le hi lit) 0 lit))
  (fun i j => by rw [Nat.add_comm, Nat.mul_comm]) rfl

/-- x = y = (2^53 - 7, 5), alpha = 3 -/
noncomputable def asymMem : Mem (Fe 52) := memOf 1000 (fun x => ExactInts.num (if x = 0 ∨ x = 64 then 2 ^ (52 + 1) - 7 else if x = 1 ∨ x = 65 then 5 else 0))

example := C83_ger_symmetric_refuted (p := 52) (SS := 4) (by decide) (m := asymMem) (x := ⟨true, 2, 0⟩) (y := ⟨false, 2, 64⟩) (A := ⟨.dynDense, .columnMajor, 2, 2, 128⟩)
  (B := ⟨.dynDense, .columnMajor, 2, 2, 192⟩) (xv := fun i => ExactInts.num (if i = 0 then 2 ^ (52 + 1) - 7 else 5))
  ⟨by decide, rfl, rfl, memOf_vlive lit lit lit, memOf_vlive lit lit lit, memOf_live lit lit lit, memOf_live lit lit lit, vapart_of lit, vapart_of lit, Or.inr (apart_of lit)⟩ lit ⟨rfl, rfl⟩
  (fun i hi => by
    match i, hi with
    | 0, _ => exact memOf_at lit lit
    | 1, _ => exact memOf_at lit lit)
  (fun i hi => by
    match i, hi with
    | 0, _ => exact memOf_at lit lit
    | 1, _ => exact memOf_at lit lit)
  (memOf_contains' lit lit lit (fun i hi j hj => by
    have : ∀ i < 2, ∀ j < 2, (⟨.dynDense, .columnMajor, 2, 2, 128⟩ : Container).addr 4 i j ∉ [0, 64, 1, 65] := by decide +kernel
    have h := this i hi j hj
    simp only [List.mem_cons, List.not_mem_nil, not_or, or_false] at h
    rw [if_neg (by tauto), if_neg (by tauto)]))
  rfl rfl

end Blast
