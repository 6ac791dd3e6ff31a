import Verif.Cases.Transpose
import Verif.Cases.BinaryRandom
import Verif.Cases.Reference
import Verif.Props.TransposeRandom
/-
Cases of Props/TransposeRandom: 8 × 8 matrices of doubles, whatever numbers are drawn; the product of Cases/Transpose by the reference implementation.
-/
namespace Blast

example (R : Nat → Nat → Bin binary64) (tn : Bin binary64) := C83_makePositiveDefinite_symmetric (SS := 4) (by decide) (A := spdA) rfl spd_args.lA rfl
  (t := 1000) (by decide) (rnd_free (by decide) _) R tn
example (R : Nat → Nat → Bin binary64) (tn : Bin binary64) := C83_makePositiveDefinite_panel_symmetric (SS := 4) (by decide) (A := spdPan) rfl spdPan_args.lA rfl
  (t := 1000) (by decide) (rnd_free (by decide) _) R tn

example := C83_reference_gemm_symmetric (SS := 4) (n := 7) (K := 6) (by decide) (mem := selMem symVal)
  (A := (⟨.dynDense, .columnMajor, 7, 6, (64 * 0 : Nat)⟩ : Container).mptr 4) (B := (⟨.dynDense, .columnMajor, 6, 7, (64 * 1 : Nat)⟩ : Container).mptr 4)
  (C := (⟨.statDense, .columnMajor, 7, 7, (64 * 2 : Nat)⟩ : Container).mptr 4) (D := (⟨.statDense, .columnMajor, 7, 7, 192⟩ : Container).mptr 4)
  (by decide) (by decide) (by decide) (by decide) (dblVal 3 0 0) (dblVal 3 1 0) (a := dblVal 0) (c := symVal 2)
  (sel_dyn symVal 0 lit lit lit lit).holds (sel_dyn symVal 1 lit lit lit lit).holds (sel_stat symVal 2 lit lit lit lit).holds
  (fun i j _ _ => by show dblVal 4 (i + j) (i * j) = dblVal 4 (j + i) (j * i); rw [Nat.add_comm, Nat.mul_comm])
  (memOf_readable (c := ⟨.statDense, .columnMajor, 7, 7, 192⟩) lit lit lit) (Container.inj (by decide) ⟨.statDense, .columnMajor, 7, 7, 192⟩)
  ((apart_of (c := ⟨.dynDense, .columnMajor, 7, 6, (64 * 0 : Nat)⟩) (d := ⟨.statDense, .columnMajor, 7, 7, 192⟩) lit).disj (by decide))
  ((apart_of (c := ⟨.dynDense, .columnMajor, 6, 7, (64 * 1 : Nat)⟩) (d := ⟨.statDense, .columnMajor, 7, 7, 192⟩) lit).disj (by decide))
  (sameOrDisj_of (c := ⟨.statDense, .columnMajor, 7, 7, (64 * 2 : Nat)⟩) (d := ⟨.statDense, .columnMajor, 7, 7, 192⟩) (by decide) lit rfl rfl)

end Blast
