import Verif.Cases.Gemm
import Verif.Props.GemmKernel
/- Concrete cases for the theorems of `Verif/Props/GemmKernel.lean`. -/
set_option linter.unusedSectionVars false
namespace Blast

def kA : Container := ⟨.dynDense, .columnMajor, 8, 3, 0⟩
def kB : Container := ⟨.dynDense, .rowMajor, 3, 4, 100⟩
def kC : Container := ⟨.dynPanel, .columnMajor, 8, 4, 200⟩
def kD : Container := ⟨.statDense, .columnMajor, 8, 4, 600⟩

theorem k_readable {c : Container} {r n : Nat} (h2 : 0 ≤ c.data) (h3 : c.data + c.capacity 4 ≤ 1000) (hr : r ≤ c.rows) (hn : n ≤ c.cols) :
    Readable 4 demoMem (c.mptr 4) r n := fun i j hi hj => by
  rw [demoMem_eq, (memOf_contains (f := fun x => (x : Rat)) (by decide) h2 h3).holds i j (by omega) (by omega)]; rfl

theorem k_holds {c : Container} {r n : Nat} (h2 : 0 ≤ c.data) (h3 : c.data + c.capacity 4 ≤ 1000) (hr : r ≤ c.rows) (hn : n ≤ c.cols) :
    Holds 4 demoMem (c.mptr 4) r n (fun i j => ((c.addr 4 i j : Int) : Rat)) := fun i j hi hj =>
  (memOf_contains (f := fun x => (x : Rat)) (by decide) h2 h3).holds i j (by omega) (by omega)

/-- 8 × 4 tiles in two SIMD vectors per column, K = 3; C in a panel matrix, B row-major -/
theorem k_ptrs {rc nc nb md nd : Nat} (h1 : rc ≤ 8) (h2 : nc ≤ 4) (h3 : nb ≤ 4) (h4 : md ≤ 8) (h5 : nd ≤ 4) :
    KernelPtrs 4 (2 * 4) 4 3 (kA.mptr 4) (kB.mptr 4) (kC.mptr 4) (kD.mptr 4) demoMem rc nc nb md nd where
  ss := by decide
  wa := by decide
  wb := by decide
  wc := by decide
  wd := by decide
  sa := rfl
  sc := rfl
  sd := rfl
  ra := k_readable lit lit lit lit
  rb := k_readable (c := kB) lit lit lit h3
  rc := k_readable (c := kC) lit lit h1 h2
  rd := k_readable (c := kD) lit lit h4 h5
  inj := fun i j i' j' hi hj hi' hj' => Container.inj (SS := 4) (by decide) kD i j i' j' (Nat.lt_of_lt_of_le hi h4) (Nat.lt_of_lt_of_le hj h5) (Nat.lt_of_lt_of_le hi' h4) (Nat.lt_of_lt_of_le hj' h5)

theorem k_full : KernelPtrs 4 (2 * 4) 4 3 (kA.mptr 4) (kB.mptr 4) (kC.mptr 4) (kD.mptr 4) demoMem (2 * 4) 4 4 (2 * 4) 4 := k_ptrs lit lit lit lit lit

example := C71_kernel (RM := 2) (N := 4) (K := 3) (Reg.reset : Reg Rat) k_full (k_holds lit lit lit lit) (k_holds lit lit lit lit) (k_holds lit lit lit lit)
example := C71_kernel_exact (RM := 2) (N := 4) (K := 3) (Reg.reset : Reg Rat) k_full (k_holds lit lit lit lit) (k_holds lit lit lit lit) (k_holds lit lit lit lit)
example := C71_kernel_alpha_beta (RM := 2) (N := 4) (K := 3) (2 : Rat) 3 k_full (k_holds lit lit lit lit) (k_holds lit lit lit lit) (k_holds lit lit lit lit)
/-- 6 × 3 of the 8 × 4 tile are stored -/
example := C71_kernel_partial_tile (RM := 2) (N := 4) (K := 3) (md := 6) (nd := 3) (Reg.reset : Reg Rat) (by decide) (by decide) (k_ptrs lit lit lit lit lit) (k_holds lit lit lit lit) (k_holds lit lit lit lit)
  (k_holds lit lit lit lit)
example := C71_kernel_partial_tile_exact (RM := 2) (N := 4) (K := 3) (md := 6) (nd := 3) (Reg.reset : Reg Rat) (by decide) (by decide) (k_ptrs lit lit lit lit lit) (k_holds lit lit lit lit) (k_holds lit lit lit lit)
  (k_holds lit lit lit lit)
example := C71_kernel_alpha_beta_partial_tile (RM := 2) (N := 4) (K := 3) (md := 6) (nd := 3) (2 : Rat) 3 (by decide) (by decide) (by decide) (k_ptrs lit lit lit lit lit) (k_holds lit lit lit lit)
  (k_holds lit lit lit lit) (k_holds lit lit lit lit)

theorem k_args : GemmArgs 4 demoMem kA kB kC kD :=
  ⟨by decide, rfl, rfl, rfl, memOf_live lit lit lit, memOf_live lit lit lit, memOf_live lit lit lit, memOf_live lit lit lit, apart_of lit, apart_of lit, Or.inr (apart_of lit)⟩
example := C71_gemm_bitwise k_args lit (demo_contains lit lit) (demo_contains lit lit) (demo_contains lit lit)
example := C71_gemm_value k_args lit (demo_contains lit lit) (demo_contains lit lit) (demo_contains lit lit)
example := (C71_gemm_size_check (V := Rat) (SS := 4) (A := kA) (B := kB) (C := kC) (D := kD)).2 lit demoMem k_args
example := (C71_gemm_size_check (V := Rat) (SS := 4) (A := kA) (B := kA) (C := kC) (D := kD)).1 lit demoMem
end Blast
