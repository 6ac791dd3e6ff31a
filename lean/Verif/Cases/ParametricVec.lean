import Verif.Props.ParametricVec
import Verif.Cases.Relations
import Verif.Cases.FlushAgree
/-
Concrete cases of the theorems in Props/ParametricVec: digits, in double precision with flush-to-zero, and as integers.
-/
namespace Blast
open Reg

/-- digits on a unit diagonal -/
def solveDigit (q i j : Nat) : Int := if q = 0 then (if i = j then 1 else ((i + 2 * j) % 3 : Nat)) else ((i + j) % 10 : Nat)
theorem solveDigit_small (q i j : Nat) : -2 ^ 20 ≤ solveDigit q i j ∧ solveDigit q i j ≤ 2 ^ 20 := by
  unfold solveDigit
  split
  · split <;> omega
  · omega

/-- C99_trsv: tracked double-precision numbers and integers -/
example (uplo : UpLo) := C99_trsv tracked_int ((trsv_sel (fun q i j => bin64 (solveDigit q i j)) uplo).mapped fresh) (trsv_sel (fun q i j => SmallInt.of (solveDigit q i j)) uplo)
  (fun i k _ _ _ => tracked_bin64 (solveDigit_small 0 i k)) (fun i _ => tracked_bin64 (solveDigit_small 1 0 i))

/-- the solution over the integers is a vector of integers, so nothing small is rounded -/
theorem solve_known (uplo : UpLo) : (match trsvPtr 4 5 uplo (tvA.mptr 4) (.vec false false 64 8) (.vec false false 700 3) (selMem (fun q i j => SmallInt.of (solveDigit q i j))) with
    | .ok _ m => (List.range 5).all (fun i => ((m ((VPtr.vec false false 700 3).addr 4 (i : Nat))).bind (·.val)).isSome)
    | _ => false) = true := by
  cases uplo <;> decide +kernel

example (uplo : UpLo) : ∃ (m1 : Mem (Bin binary64Ftz)) (m2 : Mem (Bin binary64Ftz.ieee)) (d : Nat → Bin binary64Ftz),
    trsvPtr 4 5 uplo (tvA.mptr 4) (.vec false false 64 8) (.vec false false 700 3) (selMem (fun q i j => bin64 (solveDigit q i j))) = .ok () m1 ∧
    trsvPtr 4 5 uplo (tvA.mptr 4) (.vec false false 64 8) (.vec false false 700 3) (regradeMem (selMem (fun q i j => bin64 (solveDigit q i j)))) = .ok () m2 ∧
    VHolds 4 m1 (.vec false false 700 3) 5 d ∧ VHolds 4 m2 (.vec false false 700 3) 5 (fun i => regrade (d i)) := by
  obtain ⟨mt, m1, m2, t, d, e, e1, e2, e3, e4, e5, e6, e7⟩ := C98_trsv_nothing_small (trsv_sel (fun q i j => bin64 (solveDigit q i j)) uplo)
  obtain ⟨mt', k1, t', k, f1, f2, f3, f4, f5⟩ := C99_trsv tracked_int ((trsv_sel (fun q i j => bin64 (solveDigit q i j)) uplo).mapped fresh)
    (trsv_sel (fun q i j => SmallInt.of (solveDigit q i j)) uplo) (fun i k _ _ _ => tracked_bin64 (solveDigit_small 0 i k)) (fun i _ => tracked_bin64 (solveDigit_small 1 0 i))
  obtain rfl : mt = mt' := by
    change trsvPtr 4 5 uplo (tvA.mptr 4) (.vec false false 64 8) (.vec false false 700 3) (track (selMem (fun q i j => bin64 (solveDigit q i j)))) = .ok () mt' at f1
    rw [e1] at f1; cases f1; rfl
  have hK := solve_known uplo
  rw [f2] at hK
  refine ⟨m1, m2, d, e2, e3, e5, fun i hi => ?_⟩
  have hk := List.all_eq_true.1 hK i (List.mem_range.2 hi)
  rw [f4 i hi] at hk
  obtain ⟨x, hx⟩ := Option.isSome_iff_exists.1 hk
  have ht : t i = t' i := Option.some.inj ((e4 i hi).symm.trans (f3 i hi))
  rw [e6 i hi, (e7 i hi).2 (by rw [ht]; exact (f5 i hi x hx).1)]

/-- C99_makePositiveDefinite: the same, 8 × 8, the temporary matrix at 1000 -/
example := C99_makePositiveDefinite tracked_int (SS := 4) (SS' := 2) (m := track (digitMem digit)) (m' := smallMem digit)
  (A := .obj ⟨.dynDense, .columnMajor, 8, 8, 0⟩) (A' := .obj ⟨.statDense, .rowMajor, 8, 8, 64⟩) (t := 1000) (t' := 2000)
  (r := fun i j => fresh (bin64 (digit (i + 3 * j)))) (r' := fun i j => SmallInt.of (digit (i + 3 * j))) (s := fresh (bin64 8)) (s' := SmallInt.of 8)
  (by decide) (by decide) rfl trivial (digitMem_live lit lit lit) rfl rfl trivial (memOf_live lit lit lit) rfl rfl (by decide) (by decide)
  (fun x hx => by
    have h : digitMem digit x = none := if_neg (fun hc => by have := hx.1; dsimp at this; omega)
    show (digitMem digit x).map _ = none
    rw [h]; rfl)
  (fun x hx => if_neg (fun hc => by have := hx.1; dsimp at this; omega))
  (fun i j _ _ => tracked_bin64 (digit_small _)) (tracked_bin64 (by decide))

end Blast
