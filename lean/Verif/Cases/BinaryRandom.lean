import Verif.Props.BinaryRandom
import Verif.Cases.BinaryCholesky
/-
Cases of Props/BinaryRandom: 8 × 8 matrices of doubles, whatever numbers are drawn.
-/
namespace Blast
open Bin

theorem rnd_free {c : Container} (h : 1000 ≤ c.data) (f : Int → Bin binary64) (z : Int) (hz : c.Storage 4 z) : memOf 1000 f z = none :=
  if_neg (fun hc => by have := hz.1; omega)

noncomputable def rndN : Bin binary64 := .fin false 8
theorem rndN_val : rndN.Finite ∧ rndN.real = (8 : Nat) := ⟨trivial, by unfold rndN; simp [real]⟩

/-- numbers drawn: 1 below and on the diagonal, -1/2 above it -/
noncomputable def rndR (i k : Nat) : Bin binary64 := if k ≤ i then .fin false 1 else .fin true (1 / 2)
theorem rndR_drawn (n : Nat) : Drawn n rndR := fun i k _ _ => by
  unfold rndR
  split
  · exact ⟨trivial, by simp [real]⟩
  · refine ⟨trivial, ?_⟩
    simp only [real]
    rw [abs_le]
    constructor <;> norm_num

example {R : Nat → Nat → Bin binary64} (hR : Drawn 8 R) := C91_makePositiveDefinite (F := binary64) (A := spdA) ⟨by decide, by decide⟩ (by decide) rfl spd_args.lA rfl
  (C91_sizes.1 (by decide)) (t := 1000) (by decide) (rnd_free (by decide) _) hR rndN_val
example := C91_makePositiveDefinite (F := binary64) (A := spdA) ⟨by decide, by decide⟩ (by decide) rfl spd_args.lA rfl
  (C91_sizes.1 (by decide)) (t := 1000) (by decide) (rnd_free (by decide) _) (rndR_drawn 8) rndN_val
example := C91_makePositiveDefinite_panel (F := binary64) (A := spdPan) ⟨by decide, by decide⟩ (by decide) rfl spdPan_args.lA rfl
  (C91_sizes.1 (by decide)) (t := 1000) (by decide) (rnd_free (by decide) _) (rndR_drawn 8) rndN_val
example := C91_potrf_dense (F := binary64) (A := spdA) ⟨by decide, by decide⟩ rfl spd_args (by decide) spd_fits rfl (by decide)
  (C91_sizes.1 (by decide)) (t := 1000) (by decide) (rnd_free (by decide) _) (rndR_drawn 8) rndN_val
example := C91_potrf_panel (F := binary64) (A := spdPan) ⟨by decide, by decide⟩ spdPan_args (by decide) spdPan_fits rfl (by decide)
  (C91_sizes.1 (by decide)) (t := 1000) (by decide) (rnd_free (by decide) _) (rndR_drawn 8) rndN_val

end Blast
