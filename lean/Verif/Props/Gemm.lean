import Verif.Spec
import Verif.Lawful
/- Concrete cases meeting the hypotheses of these theorems: Verif/Cases/Gemm.lean, and the examples in this file. -/
/-
Properties C01-C06: gemm.
-/
set_option linter.unusedSectionVars false
namespace Blast
open Finset Prog
variable {V : Type}

/-- What a caller of `gemm(alpha, A, B, beta, C, D)` with blast matrices has to ensure: A, C and D are
column-major (otherwise the code does not compile), the objects exist, the output D is a different
object from A and B, and C is either D itself or a different object. Sizes are not assumed here. -/
structure GemmArgs (SS : Nat) (m : Mem V) (A B C D : Container) : Prop where
  ss : 0 < SS
  sA : A.so = .columnMajor
  sC : C.so = .columnMajor
  sD : D.so = .columnMajor
  lA : Live SS m A
  lB : Live SS m B
  lC : Live SS m C
  lD : Live SS m D
  dA : Apart SS A D
  dB : Apart SS B D
  dC : C = D ∨ Apart SS C D

/-- the sizes the library requires -/
def GemmSizes (A B C D : Container) : Prop :=
  B.rows = A.cols ∧ (C.rows = A.rows ∧ C.cols = B.cols) ∧ (D.rows = A.rows ∧ D.cols = B.cols)

instance (A B C D : Container) : Decidable (GemmSizes A B C D) := by unfold GemmSizes; infer_instance

/-- the library call -/
abbrev gemmCall [Arith V] (SS : Nat) (alpha : V) (A B : Container) (beta : V) (C D : Container) :
    Prog V Unit :=
  gemmMat SS alpha (A.mat SS) (B.mat SS) beta (C.mat SS) (D.mat SS)

theorem GemmArgs.pre [Arith V] {SS : Nat} {m : Mem V} {A B C D : Container} (h : GemmArgs SS m A B C D)
    (hs : GemmSizes A B C D) :
    GemmPre SS A.rows B.cols A.cols (A.mptr SS) (B.mptr SS) (C.mptr SS) (D.mptr SS) m := by
  obtain ⟨h1, ⟨h2, h3⟩, h4, h5⟩ := hs
  have so : ∀ c : Container, (c.mptr SS).so = c.so := fun c => by rw [Container.mptr_eq]; rfl
  refine ⟨h.ss, A.mptr_wf h.ss h.lA.align, B.mptr_wf h.ss h.lB.align, C.mptr_wf h.ss h.lC.align,
    D.mptr_wf h.ss h.lD.align, by rw [so, h.sA], by rw [so, h.sC], by rw [so, h.sD],
    h.lA.readablePad h.ss h.sA, ?_, ?_, ?_, ?_, ?_, ?_, ?_⟩
  · have := h.lB.readable h.ss; rwa [h1] at this
  · have := h.lC.readablePad h.ss h.sC; rwa [h2, h3] at this
  · have := h.lD.readable h.ss; rwa [h4, h5] at this
  · have := D.inj h.ss; rwa [h4, h5] at this
  · have := h.dA.disj h.ss; rwa [h4, h5] at this
  · have := h.dB.disj h.ss; rwa [h1, h4, h5] at this
  · intro i j i' j' hi hj hi' hj' he
    rcases h.dC with rfl | hd
    · exact C.inj h.ss i j i' j' (by omega) (by omega) (by omega) (by omega) he
    · exact absurd he (hd.disj h.ss i j i' j' (by omega) (by omega) (by omega) (by omega))

theorem gemmCall_sizes [Arith V] {SS : Nat} {alpha beta : V} {A B C D : Container}
    (hs : GemmSizes A B C D) : gemmCall SS alpha A B beta C D =
      gemmPtr SS A.rows B.cols A.cols alpha (A.mptr SS) (B.mptr SS) beta (C.mptr SS) (D.mptr SS) := by
  obtain ⟨h1, ⟨h2, h3⟩, h4, h5⟩ := hs
  unfold gemmCall gemmMat Container.mat
  simp [h1, h2, h3, h4, h5]

/-- **C04** (bitwise result). For an arbitrary scalar arithmetic - no algebraic law is assumed - gemm stores
in `D(i,j)` the value `fma(beta, C(i,j), S * alpha)` where `S` is the left-to-right accumulation
`fma(A(i,K-1), B(K-1,j), … fma(A(i,0), B(0,j), 0))`. The expression mentions neither the SIMD width nor the
layout nor the position of `(i,j)`. -/
theorem C04_gemm_bitwise [Arith V] {SS : Nat} {m : Mem V} {A B C D : Container} (alpha beta : V)
    (h : GemmArgs SS m A B C D) (hs : GemmSizes A B C D) {a b c : Nat → Nat → V}
    (ha : Contains SS m A a) (hb : Contains SS m B b) (hc : Contains SS m C c) :
    ∃ m', gemmCall SS alpha A B beta C D m = .ok () m' ∧
      Contains SS m' D (fun i j => Arith.fma beta (c i j)
        (Arith.mul (fmaSum (fun k => a i k) (fun k => b k j) Arith.zero A.cols) alpha)) := by
  have hp := h.pre hs
  obtain ⟨m', h1, h2, _⟩ := gemmPtr_correct (alpha := alpha) (beta := beta) hp
  refine ⟨m', by rw [gemmCall_sizes hs]; exact h1, ?_⟩
  intro i j hi hj
  obtain ⟨e1, ⟨e2, e3⟩, e4, e5⟩ := hs
  rw [Container.addr_eq_mptr, h2 i j (by omega) (by omega), hc.holds.val (by omega) (by omega)]
  unfold gemmEntry
  rw [fmaSum_congr rfl A.cols (fun k hk => ha.holds.val (by omega) hk)
    (fun k hk => hb.holds.val (by omega) (by omega))]

/-- **C04** (independence). Two gemm calls on the same values - with different SIMD widths, different
placements, dense or panel storage, different storage orders of B - produce the same matrix. -/
theorem C04_gemm_layout_independent [Arith V] {SS SS' : Nat} {m n m' n' : Mem V}
    {A B C D A' B' C' D' : Container} (alpha beta : V)
    (h : GemmArgs SS m A B C D) (hs : GemmSizes A B C D)
    (h' : GemmArgs SS' n A' B' C' D') (hs' : GemmSizes A' B' C' D')
    (_hr : A'.rows = A.rows) (hk : A'.cols = A.cols) (_hn : B'.cols = B.cols)
    {a b c : Nat → Nat → V}
    (ha : Contains SS m A a) (hb : Contains SS m B b) (hc : Contains SS m C c)
    (ha' : Contains SS' n A' a) (hb' : Contains SS' n B' b) (hc' : Contains SS' n C' c)
    (hrun : gemmCall SS alpha A B beta C D m = .ok () m')
    (hrun' : gemmCall SS' alpha A' B' beta C' D' n = .ok () n') :
    ∃ d, Contains SS m' D d ∧ Contains SS' n' D' d := by
  obtain ⟨m1, e1, c1⟩ := C04_gemm_bitwise alpha beta h hs ha hb hc
  obtain ⟨n1, e2, c2⟩ := C04_gemm_bitwise alpha beta h' hs' ha' hb' hc'
  rw [e1] at hrun; rw [e2] at hrun'
  injection hrun with _ hrun; injection hrun' with _ hrun'
  subst hrun; subst hrun'
  refine ⟨_, c1, ?_⟩
  intro i j hi hj
  rw [c2 i j hi hj, hk]

/-- **C01**. In exact arithmetic gemm leaves `alpha*A*B + beta*C` in D, for all sizes, values, layouts and
previous contents of D and of the padding. -/
theorem C01_gemm_value [CommRing V] [Arith V] [ExactRing V] {SS : Nat} {m : Mem V} {A B C D : Container}
    (alpha beta : V) (h : GemmArgs SS m A B C D) (hs : GemmSizes A B C D) {a b c : Nat → Nat → V}
    (ha : Contains SS m A a) (hb : Contains SS m B b) (hc : Contains SS m C c) :
    ∃ m', gemmCall SS alpha A B beta C D m = .ok () m' ∧
      Contains SS m' D (fun i j => alpha * (∑ k ∈ range A.cols, a i k * b k j) + beta * c i j) := by
  obtain ⟨m', h1, h2⟩ := C04_gemm_bitwise alpha beta h hs ha hb hc
  refine ⟨m', h1, fun i j hi hj => ?_⟩
  rw [h2 i j hi hj]
  simp only [fmaSum_eq, ExactRing.fma_eq, ExactRing.mul_eq, ExactRing.zero_eq]
  congr 1; ring

/-- **C02**. gemm changes no memory cell other than the elements of D. -/
theorem C02_gemm_frame [Arith V] {SS : Nat} {m : Mem V} {A B C D : Container} (alpha beta : V)
    (h : GemmArgs SS m A B C D) (hs : GemmSizes A B C D) :
    ∃ m', gemmCall SS alpha A B beta C D m = .ok () m' ∧ OnlyElemsChange SS m m' D := by
  obtain ⟨m', h1, _, h3⟩ := gemmPtr_correct (alpha := alpha) (beta := beta) (h.pre hs)
  refine ⟨m', by rw [gemmCall_sizes hs]; exact h1, fun x hx => h3 x (fun hc => hx ?_)⟩
  obtain ⟨e1, ⟨e2, e3⟩, e4, e5⟩ := hs
  rw [← e4, ← e5] at hc
  exact (cells_iff D x).1 hc

/-- **C03**. gemm accesses only the storage of its arguments: it also terminates normally (no access to an
unallocated cell, no misaligned access) when nothing else is allocated, and then has the same effect. -/
theorem C03_gemm_in_bounds [Arith V] {SS : Nat} {m : Mem V} {A B C D : Container} (alpha beta : V)
    (h : GemmArgs SS m A B C D) (hs : GemmSizes A B C D) :
    let S := fun x => A.Storage SS x ∨ B.Storage SS x ∨ C.Storage SS x ∨ D.Storage SS x
    ∃ m', gemmCall SS alpha A B beta C D m = .ok () m' ∧
      gemmCall SS alpha A B beta C D (onlyAllocated S m) = .ok () (onlyAllocated S m') := by
  intro S
  have hl : ∀ c : Container, (∀ x, c.Storage SS x → S x) → Live SS m c → Live SS (onlyAllocated S m) c := by
    intro c hc hl
    refine ⟨hl.align, fun x hx => ?_⟩
    rw [onlyAllocated_of (hc x hx)]; exact hl.alloc x hx
  have h' : GemmArgs SS (onlyAllocated S m) A B C D :=
    ⟨h.ss, h.sA, h.sC, h.sD, hl A (fun _ hx => Or.inl hx) h.lA, hl B (fun _ hx => Or.inr (Or.inl hx)) h.lB,
      hl C (fun _ hx => Or.inr (Or.inr (Or.inl hx))) h.lC, hl D (fun _ hx => Or.inr (Or.inr (Or.inr hx))) h.lD,
      h.dA, h.dB, h.dC⟩
  have hc : ∀ c : Container, (∀ x, c.Storage SS x → S x) → Live SS m c →
      Contains SS (onlyAllocated S m) c (fun i j => val m (c.addr SS i j)) := by
    intro c hc hl i j hi hj
    rw [onlyAllocated_of (hc _ (c.addr_storage h.ss hi hj))]; exact hl.contains h.ss i j hi hj
  obtain ⟨m', e, c1⟩ := C04_gemm_bitwise alpha beta h hs (h.lA.contains h.ss) (h.lB.contains h.ss)
    (h.lC.contains h.ss)
  obtain ⟨n', e', c2⟩ := C04_gemm_bitwise alpha beta h' hs (hc A (fun _ hx => Or.inl hx) h.lA)
    (hc B (fun _ hx => Or.inr (Or.inl hx)) h.lB) (hc C (fun _ hx => Or.inr (Or.inr (Or.inl hx))) h.lC)
  obtain ⟨m1, f, o1⟩ := C02_gemm_frame alpha beta h hs
  obtain ⟨n1, f', o2⟩ := C02_gemm_frame alpha beta h' hs
  rw [e] at f; rw [e'] at f'
  injection f with _ f; injection f' with _ f'
  subst f; subst f'
  refine ⟨_, e, ?_⟩
  rw [e']
  congr 1
  funext x
  by_cases hx : IsElem SS D x
  · obtain ⟨i, j, hi, hj, rfl⟩ := hx
    rw [c2 i j hi hj, onlyAllocated_of (Or.inr (Or.inr (Or.inr (D.addr_storage h.ss hi hj)))), c1 i j hi hj]
  · rw [o2 x hx]
    unfold onlyAllocated
    rw [o1 x hx]

/-- **C05**. gemm in place (C is D): the result is the one computed from the values C had before the call. -/
theorem C05_gemm_in_place [CommRing V] [Arith V] [ExactRing V] {SS : Nat} {m : Mem V} {A B C : Container}
    (alpha beta : V) (hSS : 0 < SS) (sA : A.so = .columnMajor) (sC : C.so = .columnMajor)
    (lA : Live SS m A) (lB : Live SS m B) (lC : Live SS m C) (dA : Apart SS A C) (dB : Apart SS B C)
    (hs : GemmSizes A B C C) {a b c : Nat → Nat → V}
    (ha : Contains SS m A a) (hb : Contains SS m B b) (hc : Contains SS m C c) :
    ∃ m', gemmCall SS alpha A B beta C C m = .ok () m' ∧
      Contains SS m' C (fun i j => alpha * (∑ k ∈ range A.cols, a i k * b k j) + beta * c i j) :=
  C01_gemm_value alpha beta ⟨hSS, sA, sC, sC, lA, lB, lC, lC, dA, dB, Or.inl rfl⟩ hs ha hb hc

/-- **C05** (bitwise). The in-place result equals, bit for bit, the result of a call with a separate output
matrix `D`, for an arbitrary arithmetic. -/
theorem C05_gemm_in_place_bitwise [Arith V] {SS : Nat} {m m1 m2 : Mem V} {A B C D : Container}
    (alpha beta : V) (h : GemmArgs SS m A B C D) (dA : Apart SS A C) (dB : Apart SS B C)
    (hs : GemmSizes A B C D) {a b c : Nat → Nat → V}
    (ha : Contains SS m A a) (hb : Contains SS m B b) (hc : Contains SS m C c)
    (h1 : gemmCall SS alpha A B beta C C m = .ok () m1)
    (h2 : gemmCall SS alpha A B beta C D m = .ok () m2) :
    ∃ d, Contains SS m1 C d ∧ Contains SS m2 D d :=
  C04_gemm_layout_independent alpha beta
    ⟨h.ss, h.sA, h.sC, h.sC, h.lA, h.lB, h.lC, h.lC, dA, dB, Or.inl rfl⟩ ⟨hs.1, hs.2.1, hs.2.1⟩
    h hs rfl rfl rfl ha hb hc ha hb hc h1 h2

/-- **C06**. gemm throws exactly when the sizes are inconsistent; then the exception is
`std::invalid_argument` and memory is unchanged. -/
theorem C06_gemm_size_check [Arith V] {SS : Nat} {m : Mem V} {A B C D : Container} (alpha beta : V)
    (h : GemmArgs SS m A B C D) :
    (¬ GemmSizes A B C D → gemmCall SS alpha A B beta C D m = .throw .invalidArgument m) ∧
    (GemmSizes A B C D → ∃ m', gemmCall SS alpha A B beta C D m = .ok () m') := by
  refine ⟨fun hn => ?_, fun hs => ?_⟩
  · unfold gemmCall gemmMat Container.mat
    simp only
    split
    · rfl
    · split
      · rfl
      · split
        · rfl
        · exfalso; apply hn; unfold GemmSizes; omega
  · obtain ⟨m', h1, _⟩ := C02_gemm_frame alpha beta h hs
    exact ⟨m', h1⟩

/-! ### The hypotheses are satisfiable -/

/-- memory in which everything from 0 to 999 is allocated -/
def demoMem : Mem Rat := fun x => if 0 ≤ x ∧ x < 1000 then some (x : Rat) else none

/-- a 5×3 column-major dense matrix, a 3×7 row-major panel matrix, 5×7 matrices, SIMD width 4 -/
def demoA : Container := ⟨.dynDense, .columnMajor, 5, 3, 0⟩
def demoB : Container := ⟨.statPanel, .rowMajor, 3, 7, 100⟩
def demoC : Container := ⟨.dynPanel, .columnMajor, 5, 7, 200⟩
def demoD : Container := ⟨.statDense, .columnMajor, 5, 7, 600⟩

theorem demo_live {c : Container} (h1 : c.data % 4 = 0) (h2 : 0 ≤ c.data)
    (h3 : c.data + c.capacity 4 ≤ 1000) : Live 4 demoMem c := by
  refine ⟨h1, fun x hx => ?_⟩
  unfold Container.Storage at hx
  unfold demoMem
  rw [if_pos ⟨by omega, by omega⟩]; rfl

theorem demo_apart {c d : Container} (h : c.data + c.capacity 4 ≤ d.data) : Apart 4 c d := by
  intro x hx hd
  unfold Container.Storage at hx hd
  omega

theorem demo_args : GemmArgs 4 demoMem demoA demoB demoC demoD :=
  ⟨by decide, rfl, rfl, rfl, demo_live (by decide) (by decide) (by decide),
    demo_live (by decide) (by decide) (by decide), demo_live (by decide) (by decide) (by decide),
    demo_live (by decide) (by decide) (by decide), demo_apart (by decide), demo_apart (by decide),
    Or.inr (demo_apart (by decide))⟩

example : GemmArgs 4 demoMem demoA demoB demoC demoD ∧ GemmSizes demoA demoB demoC demoD ∧
    (∃ a, Contains 4 demoMem demoA a) ∧ (∃ b, Contains 4 demoMem demoB b) ∧
    (∃ c, Contains 4 demoMem demoC c) := by
  have key : ∀ c : Container, Live 4 demoMem c → ∃ a, Contains 4 demoMem c a :=
    fun c hc => ⟨_, hc.contains (by decide)⟩
  exact ⟨demo_args, by decide, key _ demo_args.lA, key _ demo_args.lB, key _ demo_args.lC⟩

end Blast
namespace Blast
open Finset Prog
variable {V : Type}

/-- **C01** for matrix pointers (any mixture of dense/panel, aligned/unaligned, padded/unpadded pointers, any
spacing), under the explicit preconditions of `GemmPre`. -/
theorem C01_gemm_pointer_value [CommRing V] [Arith V] [ExactRing V] {SS M N K : Nat} {m : Mem V}
    {A B C D : MPtr} (alpha beta : V) (h : GemmPre SS M N K A B C D m) {a b c : Nat → Nat → V}
    (ha : Holds SS m A M K a) (hb : Holds SS m B K N b) (hc : Holds SS m C M N c) :
    ∃ m', gemmPtr SS M N K alpha A B beta C D m = .ok () m' ∧
      Holds SS m' D M N (fun i j => alpha * (∑ k ∈ range K, a i k * b k j) + beta * c i j) ∧
      (∀ x, ¬ Cells SS D M N x → m' x = m x) := by
  obtain ⟨m', h1, h2, h3⟩ := gemmPtr_correct (alpha := alpha) (beta := beta) h
  refine ⟨m', h1, fun i j hi hj => ?_, h3⟩
  rw [h2 i j hi hj, hc.val hi hj]
  unfold gemmEntry
  rw [fmaSum_congr rfl K (fun k hk => ha.val hi hk) (fun k hk => hb.val hk hj)]
  simp only [fmaSum_eq, ExactRing.fma_eq, ExactRing.mul_eq, ExactRing.zero_eq]
  congr 1; ring

/-- An unpadded, unaligned column-major dense pointer (`IsAligned = IsPadded = false`) -/
def unpaddedPtr (base spacing : Int) : MPtr :=
  { panel := false, so := .columnMajor, aligned := false, padded := false, ptr := base, spacing := spacing }

/-- exactly the elements of the four matrices of the counterexample are allocated -/
def unpaddedMem : Mem Rat := fun x =>
  if x ∈ ([0, 1, 10, 20, 21, 30, 31] : List Int) then some 1 else none

/-- **C03** (second half, the excluded case). For pointers to unpadded operands whose number of rows is not a
multiple of the SIMD width gemm reads outside the operands: with 2×1 matrices A, C, D and a 1×1 matrix B of
which exactly the elements are allocated, the call has undefined behaviour (SIMD width 4). -/
theorem C03_gemm_unpadded_out_of_bounds :
    gemmPtr 4 2 1 1 (1 : Rat) (unpaddedPtr 0 2) (unpaddedPtr 10 1) 1 (unpaddedPtr 20 2) (unpaddedPtr 30 2)
      unpaddedMem = .ub := by
  rfl

/-- in the counterexample every element of the operands is allocated -/
example : Readable 4 unpaddedMem (unpaddedPtr 0 2) 2 1 ∧ Readable 4 unpaddedMem (unpaddedPtr 10 1) 1 1 ∧
    Readable 4 unpaddedMem (unpaddedPtr 20 2) 2 1 ∧ Readable 4 unpaddedMem (unpaddedPtr 30 2) 2 1 := by
  have key : ∀ p : MPtr, ∀ r : Nat, (∀ i, i < r → (unpaddedMem (p.addr 4 (i : Nat) 0)).isSome = true) →
      Readable 4 unpaddedMem p r 1 := by
    intro p r h i j hi hj
    obtain rfl : j = 0 := by omega
    exact h i hi
  exact ⟨key _ _ (by decide), key _ _ (by decide), key _ _ (by decide), key _ _ (by decide)⟩

end Blast
