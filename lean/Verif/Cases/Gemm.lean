import Verif.Cases.Demo
/-
Concrete cases of the theorems in Props/Gemm: SIMD width 4; a 5×3 dense, a 3×7 row-major panel, a 5×7 panel and a 5×7 dense matrix; cell x holds the
number x.
-/
namespace Blast
open Finset

/-- contents of the four matrices -/
theorem demo_contains {c : Container} (h2 : 0 ≤ c.data) (h3 : c.data + c.capacity 4 ≤ 1000) :
    Contains 4 demoMem c (fun i j => ((c.addr 4 i j : Int) : Rat)) := memOf_contains (by decide) h2 h3

/-- gemm: 2 A B + 3 C -/
example : ∃ m', gemmCall 4 (2 : Rat) demoA demoB 3 demoC demoD demoMem = .ok () m' ∧ Contains 4 m' demoD (fun i j =>
    2 * (∑ k ∈ range 3, ((demoA.addr 4 i k : Int) : Rat) * ((demoB.addr 4 k j : Int) : Rat)) + 3 * ((demoC.addr 4 i j : Int) : Rat)) :=
  C01_gemm_value 2 3 demo_args lit (demo_contains lit lit) (demo_contains lit lit) (demo_contains lit lit)

example := C02_gemm_frame (2 : Rat) 3 demo_args lit
example := C03_gemm_in_bounds (2 : Rat) 3 demo_args lit
example := C04_gemm_bitwise (2 : Rat) 3 demo_args lit (demo_contains lit lit) (demo_contains lit lit) (demo_contains lit lit)

/-- the same values (all ones) in dense matrices with SIMD width 2 and in panel matrices with SIMD width 4 -/
example : ∃ m' n' d, gemmCall 2 (5 : Rat) ⟨.dynDense, .columnMajor, 5, 3, 0⟩ ⟨.dynDense, .rowMajor, 3, 7, 100⟩ 3 ⟨.dynDense, .columnMajor, 5, 7, 200⟩
      ⟨.dynDense, .columnMajor, 5, 7, 300⟩ (memOf 1000 (fun _ => 1)) = .ok () m' ∧
    gemmCall 4 (5 : Rat) ⟨.statPanel, .columnMajor, 5, 3, 0⟩ ⟨.statPanel, .columnMajor, 3, 7, 100⟩ 3 ⟨.statPanel, .columnMajor, 5, 7, 200⟩
      ⟨.statPanel, .columnMajor, 5, 7, 300⟩ (memOf 1000 (fun _ => 1)) = .ok () n' ∧
    Contains 2 m' ⟨.dynDense, .columnMajor, 5, 7, 300⟩ d ∧ Contains 4 n' ⟨.statPanel, .columnMajor, 5, 7, 300⟩ d := by
  have g2 : GemmArgs 2 (memOf 1000 (fun _ => (1 : Rat))) ⟨.dynDense, .columnMajor, 5, 3, 0⟩ ⟨.dynDense, .rowMajor, 3, 7, 100⟩ ⟨.dynDense, .columnMajor, 5, 7, 200⟩
      ⟨.dynDense, .columnMajor, 5, 7, 300⟩ :=
    ⟨by decide, rfl, rfl, rfl, memOf_live lit lit lit, memOf_live lit lit lit, memOf_live lit lit lit, memOf_live lit lit lit, apart_of lit, apart_of lit,
      Or.inr (apart_of lit)⟩
  have g4 : GemmArgs 4 (memOf 1000 (fun _ => (1 : Rat))) ⟨.statPanel, .columnMajor, 5, 3, 0⟩ ⟨.statPanel, .columnMajor, 3, 7, 100⟩
      ⟨.statPanel, .columnMajor, 5, 7, 200⟩ ⟨.statPanel, .columnMajor, 5, 7, 300⟩ :=
    ⟨by decide, rfl, rfl, rfl, memOf_live lit lit lit, memOf_live lit lit lit, memOf_live lit lit lit, memOf_live lit lit lit, apart_of lit, apart_of lit,
      Or.inr (apart_of lit)⟩
  obtain ⟨m', e, _⟩ := C02_gemm_frame (5 : Rat) 3 g2 lit
  obtain ⟨n', f, _⟩ := C02_gemm_frame (5 : Rat) 3 g4 lit
  obtain ⟨d, h1, h2⟩ := C04_gemm_layout_independent (5 : Rat) 3 g2 lit g4 lit rfl rfl rfl (a := fun _ _ => 1) (b := fun _ _ => 1) (c := fun _ _ => 1)
    (memOf_contains lit lit lit) (memOf_contains lit lit lit) (memOf_contains lit lit lit) (memOf_contains lit lit lit) (memOf_contains lit lit lit)
    (memOf_contains lit lit lit) e f
  exact ⟨m', n', d, e, f, h1, h2⟩

example := C05_gemm_in_place (2 : Rat) 3 (SS := 4) (by decide) rfl rfl demo_args.lA demo_args.lB demo_args.lC (demo_apart (c := demoA) (d := demoC) lit)
  (demo_apart (c := demoB) lit) lit (demo_contains lit lit) (demo_contains lit lit) (demo_contains lit lit)

example : ∃ m1 m2 d, gemmCall 4 (2 : Rat) demoA demoB 3 demoC demoC demoMem = .ok () m1 ∧ gemmCall 4 (2 : Rat) demoA demoB 3 demoC demoD demoMem = .ok () m2 ∧
    Contains 4 m1 demoC d ∧ Contains 4 m2 demoD d := by
  have h1 : Apart 4 demoA demoC := demo_apart (by decide)
  have h2 : Apart 4 demoB demoC := demo_apart (by decide)
  obtain ⟨m1, e, _⟩ := C05_gemm_in_place (2 : Rat) 3 (SS := 4) (by decide) rfl rfl demo_args.lA demo_args.lB demo_args.lC h1 h2 lit
    (demo_contains lit lit) (demo_contains lit lit) (demo_contains lit lit)
  obtain ⟨m2, f, _⟩ := C02_gemm_frame (2 : Rat) 3 demo_args lit
  obtain ⟨d, g1, g2⟩ := C05_gemm_in_place_bitwise (2 : Rat) 3 demo_args h1 h2 lit (demo_contains lit lit) (demo_contains lit lit) (demo_contains lit lit) e f
  exact ⟨m1, m2, d, e, f, g1, g2⟩

/-- consistent sizes, and inconsistent ones (A is 5×3, the second argument 5×7) -/
example := (C06_gemm_size_check (2 : Rat) 3 demo_args).2 lit
example : gemmCall 4 (2 : Rat) demoA demoC 3 demoC demoD demoMem = .throw .invalidArgument demoMem :=
  (C06_gemm_size_check (2 : Rat) 3 (A := demoA) (B := demoC) (C := demoC) (D := demoD)
    ⟨by decide, rfl, rfl, rfl, demo_args.lA, demo_args.lC, demo_args.lC, demo_args.lD, demo_apart (by decide), demo_apart (by decide),
      Or.inr (demo_apart (by decide))⟩).1 lit

/-- the pointers of the four matrices -/
example := C01_gemm_pointer_value (2 : Rat) 3 (demo_args.pre lit) (demo_contains (c := demoA) lit lit).holds (demo_contains (c := demoB) lit lit).holds
  (demo_contains (c := demoC) lit lit).holds

end Blast
