import Verif.Props.Gemm
import Verif.Syrk
import Mathlib.Tactic.NormNum
/- Concrete cases meeting the hypotheses of these theorems: Verif/Cases/Ger.lean, and the examples in this file. -/
/-
Property C10: dense syrk.
-/
set_option linter.unusedSectionVars false
namespace Blast
open Finset Prog
variable {V : Type}

/-- What a caller of `syrkLower(alpha, A, beta, C, D)` ensures: column-major objects that exist, the output D shares
no memory with A, and is C itself or shares no memory with it. -/
structure SyrkArgs (SS : Nat) (m : Mem V) (A C D : Container) : Prop where
  ss : 0 < SS
  sA : A.so = .columnMajor
  sC : C.so = .columnMajor
  sD : D.so = .columnMajor
  lA : Live SS m A
  lC : Live SS m C
  lD : Live SS m D
  dA : Apart SS A D
  dC : C = D ∨ Apart SS C D

/-- the sizes required -/
def SyrkSizes (A C D : Container) : Prop :=
  (C.rows = A.rows ∧ C.cols = A.rows) ∧ (D.rows = A.rows ∧ D.cols = A.rows)

instance (A C D : Container) : Decidable (SyrkSizes A C D) := by unfold SyrkSizes; infer_instance

/-- the library call on a target with `TileSize = TR * SimdSize` -/
abbrev syrkCall [Arith V] (SS TR : Nat) (alpha : V) (A : Container) (beta : V) (C D : Container) : Prog V Unit :=
  syrkMat SS TR alpha (A.mat SS) beta (C.mat SS) (D.mat SS)

/-- `x` is the cell of an element of `c` on or below the diagonal -/
def IsLowerElem (SS : Nat) (c : Container) (x : Int) : Prop :=
  ∃ i j, i < c.rows ∧ j < c.cols ∧ j ≤ i ∧ x = c.addr SS i j

theorem SyrkArgs.pre [Arith V] {SS : Nat} {m : Mem V} {A C D : Container} (h : SyrkArgs SS m A C D)
    (hs : SyrkSizes A C D) : SyrkPre SS 1 A.rows A.cols (A.mptr SS) (C.mptr SS) (D.mptr SS) m := by
  obtain ⟨⟨h1, h2⟩, h3, h4⟩ := hs
  have so : ∀ c : Container, (c.mptr SS).so = c.so := fun c => by rw [Container.mptr_eq]; rfl
  refine ⟨h.ss, by omega, A.mptr_wf h.ss h.lA.align, C.mptr_wf h.ss h.lC.align, D.mptr_wf h.ss h.lD.align,
    by rw [so, h.sA], by rw [so, h.sC], by rw [so, h.sD], ?_, ?_, ?_, ?_, ?_, ?_⟩
  · rw [Nat.one_mul]; exact h.lA.readablePad h.ss h.sA
  · rw [Nat.one_mul]
    have := h.lC.readablePad h.ss h.sC; rwa [h1, h2] at this
  · intro i j hi hj
    exact h.lD.readable h.ss i j (by omega) (by omega)
  · have := D.inj h.ss; rwa [h3, h4] at this
  · have := h.dA.disj h.ss; rwa [h3, h4] at this
  · intro i j i' j' hi hj hi' hj' he
    rcases h.dC with rfl | hd
    · exact C.inj h.ss i j i' j' (by omega) (by omega) (by omega) (by omega) he
    · exact absurd he (hd.disj h.ss i j i' j' (by omega) (by omega) (by omega) (by omega))

theorem syrkCall_sizes [Arith V] {SS TR : Nat} {alpha beta : V} {A C D : Container} (hs : SyrkSizes A C D) :
    syrkCall SS TR alpha A beta C D =
      syrkPtr SS TR A.rows A.cols alpha (A.mptr SS) beta (C.mptr SS) (D.mptr SS) := by
  obtain ⟨⟨h1, h2⟩, h3, h4⟩ := hs
  unfold syrkCall syrkMat Container.mat
  simp [h1, h2, h3, h4]

/-- **C10**. In exact arithmetic `syrkLower(alpha, A, beta, C, D)` (tile size equal to the SIMD width, as on AVX2)
leaves `beta*C(i,j) + alpha * (A*A^T)(i,j)` in D(i,j) for every `j ≤ i`, and changes no other memory cell, in particular no
element of D above the diagonal. D may be C; only the part of C on and below the diagonal matters. -/
theorem C10_syrk_value [CommRing V] [Arith V] [ExactRing V] {SS : Nat} {m : Mem V} {A C D : Container}
    (alpha beta : V) (h : SyrkArgs SS m A C D) (hs : SyrkSizes A C D) {a c : Nat → Nat → V}
    (ha : Contains SS m A a) (hc : ∀ i j, i < C.rows → j ≤ i → m (C.addr SS i j) = some (c i j)) :
    ∃ m', syrkCall SS 1 alpha A beta C D m = .ok () m' ∧
      (∀ i j, i < D.rows → j ≤ i → m' (D.addr SS i j) =
        some (beta * c i j + alpha * ∑ k ∈ range A.cols, a i k * a j k)) ∧
      (∀ x, ¬ IsLowerElem SS D x → m' x = m x) := by
  obtain ⟨m', h1, h2, h3⟩ := syrkPtr_correct (alpha := alpha) (beta := beta) (h.pre hs)
  rw [syrkCall_sizes hs]
  obtain ⟨⟨e1, e2⟩, e3, e4⟩ := hs
  refine ⟨m', h1, fun i j hi hj => ?_, fun z hz => h3 z (fun i j hi hj hx => hz ?_)⟩
  · rw [Container.addr_eq_mptr, h2 i j (by omega) hj]
    have ec : val m ((C.mptr SS).addr SS i j) = c i j := by
      rw [← Container.addr_eq_mptr]; unfold val; rw [hc i j (by omega) hj]; rfl
    unfold syrkEntry
    rw [fmaSum_congr (a' := fun k => Arith.mul alpha (a i k)) (b' := fun k => a j k) rfl A.cols
      (fun k hk => congrArg (Arith.mul alpha) (ha.holds.val (show i < A.rows by omega) hk))
      (fun k hk => ha.holds.val (show j < A.rows by omega) hk), ec, fmaSum_eq]
    simp only [ExactRing.mul_eq, mul_sum]
    congr 2
    exact sum_congr rfl (fun k _ => by ring)
  · exact ⟨i, j, by omega, by omega, hj, by rw [Container.addr_eq_mptr]; exact hx⟩

/-- **C10** (pointer version, any tile size): under the preconditions of `SyrkPre` - in particular A and C must be
readable up to the next multiple of the tile size. -/
theorem C10_syrk_pointer_value [CommRing V] [Arith V] [ExactRing V] {SS TR M K : Nat} {m : Mem V} {A C D : MPtr}
    (alpha beta : V) (h : SyrkPre SS TR M K A C D m) {a c : Nat → Nat → V}
    (ha : Holds SS m A M K a) (hc : ∀ i j : Nat, i < M → j ≤ i → m (C.addr SS i j) = some (c i j)) :
    ∃ m', syrkPtr SS TR M K alpha A beta C D m = .ok () m' ∧
      (∀ i j : Nat, i < M → j ≤ i → m' (D.addr SS i j) =
        some (beta * c i j + alpha * ∑ k ∈ range K, a i k * a j k)) ∧
      (∀ z, (∀ i j : Nat, i < M → j ≤ i → z ≠ D.addr SS i j) → m' z = m z) := by
  obtain ⟨m', h1, h2, h3⟩ := syrkPtr_correct (alpha := alpha) (beta := beta) h
  refine ⟨m', h1, fun i j hi hj => ?_, h3⟩
  rw [h2 i j hi hj]
  have ec : val m (C.addr SS i j) = c i j := by unfold val; rw [hc i j hi hj]; rfl
  unfold syrkEntry
  rw [fmaSum_congr (a' := fun k => Arith.mul alpha (a i k)) (b' := fun k => a j k) rfl K
    (fun k hk => congrArg (Arith.mul alpha) (ha.val hi hk)) (fun k hk => ha.val (show j < M by omega) hk), ec, fmaSum_eq]
  simp only [ExactRing.mul_eq, mul_sum]
  congr 2
  exact sum_congr rfl (fun k _ => by ring)

/-- **C10** (bitwise). For an arbitrary arithmetic every computed element is the accumulation
`fma(alpha*A(i,K-1), A(j,K-1), … fma(alpha*A(i,0), A(j,0), beta*C(i,j)))`, independent of the position in the tiling. -/
theorem C10_syrk_bitwise [Arith V] {SS TR M K : Nat} {m : Mem V} {A C D : MPtr}
    (alpha beta : V) (h : SyrkPre SS TR M K A C D m) {a c : Nat → Nat → V}
    (ha : Holds SS m A M K a) (hc : ∀ i j : Nat, i < M → j ≤ i → m (C.addr SS i j) = some (c i j)) :
    ∃ m', syrkPtr SS TR M K alpha A beta C D m = .ok () m' ∧
      (∀ i j : Nat, i < M → j ≤ i → m' (D.addr SS i j) =
        some (fmaSum (fun k => Arith.mul alpha (a i k)) (fun k => a j k) (Arith.mul beta (c i j)) K)) := by
  obtain ⟨m', h1, h2, h3⟩ := syrkPtr_correct (alpha := alpha) (beta := beta) h
  refine ⟨m', h1, fun i j hi hj => ?_⟩
  rw [h2 i j hi hj]
  have ec : val m (C.addr SS i j) = c i j := by unfold val; rw [hc i j hi hj]; rfl
  unfold syrkEntry
  rw [fmaSum_congr (a' := fun k => Arith.mul alpha (a i k)) (b' := fun k => a j k) rfl K
    (fun k hk => congrArg (Arith.mul alpha) (ha.val hi hk)) (fun k hk => ha.val (show j < M by omega) hk), ec]

/-- **C10** (sizes). syrkLower throws `std::invalid_argument`, leaving memory unchanged, exactly when C or D is not
square with as many rows as A. -/
theorem C10_syrk_size_check [Arith V] {SS : Nat} {m : Mem V} {A C D : Container} (alpha beta : V)
    (h : SyrkArgs SS m A C D) :
    (¬ SyrkSizes A C D → syrkCall SS 1 alpha A beta C D m = .throw .invalidArgument m) ∧
    (SyrkSizes A C D → ∃ m', syrkCall SS 1 alpha A beta C D m = .ok () m') := by
  refine ⟨fun hn => ?_, fun hs => ?_⟩
  · unfold syrkCall syrkMat Container.mat
    simp only
    split
    · rfl
    · split
      · rfl
      · exfalso; apply hn; unfold SyrkSizes; omega
  · obtain ⟨m', h1, _⟩ := syrkPtr_correct (alpha := alpha) (beta := beta) (h.pre hs)
    exact ⟨m', by rw [syrkCall_sizes hs]; exact h1⟩

/-- memory of the counterexample: exactly the (padded) storage of three 1×1 objects -/
def syrkMem : Mem Rat := fun z => if z ∈ ([0, 1, 20, 21, 30, 31] : List Int) then some 1 else none

/-- **C10** (excluded case). With tiles larger than the SIMD width (double on NEON) syrkLower reads beyond the padded
storage of C and A already for 1×1 matrices. -/
theorem C10_syrk_large_tile_out_of_bounds :
    syrkCall 2 2 (1 : Rat) ⟨.statDense, .columnMajor, 1, 1, 0⟩ 1 ⟨.statDense, .columnMajor, 1, 1, 20⟩
      ⟨.statDense, .columnMajor, 1, 1, 30⟩ syrkMem = .ub := by
  rfl

/-- an instance of the hypotheses: 6×3 A, C = D of size 6×6, SIMD width 4 -/
example : SyrkArgs 4 demoMem ⟨.dynDense, .columnMajor, 6, 3, 200⟩ ⟨.statDense, .columnMajor, 6, 6, 600⟩
      ⟨.statDense, .columnMajor, 6, 6, 600⟩ ∧
    SyrkSizes ⟨.dynDense, .columnMajor, 6, 3, 200⟩ ⟨.statDense, .columnMajor, 6, 6, 600⟩
      ⟨.statDense, .columnMajor, 6, 6, 600⟩ :=
  ⟨⟨by decide, rfl, rfl, rfl, demo_live (by decide) (by decide) (by decide), demo_live (by decide) (by decide) (by decide),
    demo_live (by decide) (by decide) (by decide), demo_apart (by decide), Or.inl rfl⟩, by decide⟩

end Blast
