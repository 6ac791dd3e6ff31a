import Verif.Cases.Lu
import Verif.Props.LuCatchBlocked

/-! Concrete cases for the theorems of `Verif.Props.LuCatch`: the matrix [0 0 5; 1 0 6; 0 0 7], which has no pivot in its second column. -/

namespace Blast
open Reg

theorem caught_pre : LuPre 2 1 3 3 (caughtA.mptr 2) caughtMem := C97_getrf_leaves_refuted.1
theorem caught_has : Contains 2 caughtMem caughtA caughtVal := C97_getrf_leaves_refuted.2.1

/-- it throws, with rows 0 and 1 interchanged in all columns: the state of a factorization stopped at column 1 -/
theorem caught_throws : caughtOut (getf2PtrS 2 1 3 3 (caughtA.mptr 2) id caughtMem) = some (false, 1, some 1, some 6) := by decide +kernel

example := C97_getf2_leaves caught_pre caught_has.holds id

example : ∃ p m' b k, getf2PtrS 2 1 3 3 (caughtA.mptr 2) id caughtMem = .ok (false, p) m' ∧ StoppedLU 3 3 k caughtVal b p id := by
  obtain ⟨r, p, m', b, e, -, -, -, h⟩ := C97_getf2_leaves caught_pre caught_has.holds id
  have := caught_throws
  rw [e] at this
  simp only [caughtOut, Option.some.injEq, Prod.mk.injEq] at this
  obtain rfl := this.1
  obtain ⟨k, h⟩ := h rfl
  exact ⟨p, m', b, k, e, h⟩

/-- recovery, for the same matrix in the same memory -/
example : ∀ i j, i < 3 → j < 3 → caughtVal i j = caughtVal i j := by
  obtain ⟨r, p, m', b, e, -, -, -, h⟩ := C97_getf2_leaves caught_pre caught_has.holds id
  have := caught_throws
  rw [e] at this
  simp only [caughtOut, Option.some.injEq, Prod.mk.injEq] at this
  obtain rfl := this.1
  exact C97_getf2_recoverable caught_pre caught_pre caught_has.holds caught_has.holds id id e e (fun _ _ _ _ => rfl)

/-- a matrix that is not singular -/
example := C97_getf2_leaves luCm_pre.toLuPre luCm_has.holds id
/-- getrf: 5 x 3 with tiles of 4 is a single block -/
example := C97_getrf_single_block_leaves luCm_pre.toLuPre luCm_has.holds id (Or.inr (by decide))

/-- row-major: ones everywhere (stopped at column 1) -/
def flatMem : Mem Rat := memOf 1000 (fun _ => 1)
example := C97_getf2_row_major_leaves (SS := 4) (by decide) (dv := (· / ·)) (fun _ _ _ => rfl) (A := luRm.mat 4) rfl (Container.inj (by decide) luRm)
  (m0 := flatMem) (a := fun _ _ => 1) (memOf_contains' (c := luRm) lit lit lit (by decide +kernel)).holds id
example := C97_getf2_row_major_leaves (SS := 4) (by decide) (dv := (· / ·)) (fun _ _ _ => rfl) (A := luRm.mat 4) rfl (Container.inj (by decide) luRm) luRm_has.holds id

/-! getrf with tiles of 2: two blocks, the first of which throws -/

theorem caught_live : Live 2 caughtMem caughtA := by
  refine ⟨by decide, fun x hx => ?_⟩
  have h1 : 0 ≤ x ∧ x < 12 := hx
  unfold caughtMem
  rw [if_pos h1]; rfl
theorem caught_pre2 : GetrfPre 2 1 3 3 (caughtA.mptr 2) caughtMem := LuPre.of_live (by decide) rfl rfl caught_live

theorem caught_throws2 : caughtOut (getrfPtrS 2 1 3 3 (caughtA.mptr 2) id caughtMem) = some (false, 1, some 1, some 5) := by decide +kernel

example : ∃ p m' b k c, getrfPtrS 2 1 3 3 (caughtA.mptr 2) id caughtMem = .ok (false, p) m' ∧ StoppedBlock 3 3 0 2 k caughtVal c b p id := by
  obtain ⟨r, p, m', b, e, -, -, -, h⟩ := C97_getrf_leaves caught_pre2 caught_has.holds id
  have := caught_throws2
  rw [e] at this
  simp only [caughtOut, Option.some.injEq, Prod.mk.injEq] at this
  obtain rfl := this.1
  obtain ⟨s, k, c, hs, h⟩ := h rfl
  have h1 := h.lt
  have hs0 : s = 0 ∨ s = 2 := by
    have : s % 2 = 0 := hs
    omega
  rcases hs0 with rfl | rfl
  · exact ⟨p, m', b, k, c, e, h⟩
  · exfalso
    have h2 := h.pivots 0 (by decide)
    have h3 := h.pivots 1 (by decide)
    -- the second column depends on the first: it is the column of the exception
    refine (show ¬ ColsIndep 3 2 caughtVal from ?_) ?_
    · intro hi
      have := hi (fun j => if j = 1 then 1 else 0) (by
        intro i hi
        have : ∀ i < 3, ∑ j ∈ Finset.range 2, (if j = 1 then (1 : Rat) else 0) * caughtVal i j = 0 := by decide +kernel
        simpa [mul_comm] using this i hi) 1 (by decide)
      simp at this
    · intro x hx j hj
      have := h.before (fun q => if q < 2 then x q else 0) (by
        intro i hi
        refine Eq.trans ?_ (hx i hi)
        refine (Finset.sum_subset (Finset.range_subset_range.2 (show 2 ≤ 2 + k by omega)) ?_).symm.trans ?_
        · intro q _ hq
          rw [if_neg (by simpa using hq), mul_zero]
        · exact Finset.sum_congr rfl (fun q hq => by rw [if_pos (Finset.mem_range.1 hq)])) j (by omega)
      rwa [if_pos hj] at this

/-- recovery, for the same matrix in the same memory -/
example : ∀ i j, i < 3 → j < 3 → caughtVal i j = caughtVal i j := by
  obtain ⟨r, p, m', b, e, -, -, -, h⟩ := C97_getrf_leaves caught_pre2 caught_has.holds id
  have := caught_throws2
  rw [e] at this
  simp only [caughtOut, Option.some.injEq, Prod.mk.injEq] at this
  obtain rfl := this.1
  exact C97_getrf_recoverable caught_pre2 caught_pre2 caught_has.holds caught_has.holds id id e e (fun _ _ _ _ => rfl)

/-- a matrix that is not singular -/
example := C97_getrf_leaves luCm_pre luCm_has.holds id

example := C97_getf2_reproducible caught_pre caught_pre caught_has.holds caught_has.holds id

end Blast
