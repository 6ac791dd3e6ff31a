import Verif.Props.Gemm
import Verif.Props.Reference
import Verif.VecObj
import Mathlib.Tactic.NormNum
/- Concrete cases meeting the hypotheses of these theorems: Verif/Cases/Ger.lean, and the examples in this file. -/
/-
Property C09: dense ger.
-/
set_option linter.unusedSectionVars false
namespace Blast
open Finset Prog
variable {V : Type}

/-- What a caller of `ger(alpha, x, y, A, B)` ensures: the objects exist, A and B are column-major, the output B
shares no memory with x and y, and is A itself or shares no memory with it. -/
structure GerArgs (SS : Nat) (m : Mem V) (x y : VObj) (A B : Container) : Prop where
  ss : 0 < SS
  sA : A.so = .columnMajor
  sB : B.so = .columnMajor
  lx : VLive SS m x
  ly : VLive SS m y
  lA : Live SS m A
  lB : Live SS m B
  dx : ∀ z, x.Storage SS z → ¬ B.Storage SS z
  dy : ∀ z, y.Storage SS z → ¬ B.Storage SS z
  dA : A = B ∨ Apart SS A B

/-- the sizes required -/
def GerSizes (x y : VObj) (A B : Container) : Prop :=
  (A.rows = x.n ∧ A.cols = y.n) ∧ (B.rows = x.n ∧ B.cols = y.n)

instance (x y : VObj) (A B : Container) : Decidable (GerSizes x y A B) := by unfold GerSizes; infer_instance

/-- the library call on a target whose tile has `TR * SS` rows (`TileSize = TR * SimdSize`) -/
abbrev gerCall [Arith V] (SS TR : Nat) (alpha : V) (x y : VObj) (A B : Container) : Prog V Unit :=
  gerMat SS TR alpha x.arg y.arg (A.mat SS) (B.mat SS)

theorem GerArgs.pre [Arith V] {SS : Nat} {m : Mem V} {x y : VObj} {A B : Container} (h : GerArgs SS m x y A B)
    (hs : GerSizes x y A B) : GerPre SS 1 x.n y.n x.ptr y.ptr (A.mptr SS) (B.mptr SS) m := by
  obtain ⟨⟨h1, h2⟩, h3, h4⟩ := hs
  have so : ∀ c : Container, (c.mptr SS).so = c.so := fun c => by rw [Container.mptr_eq]; rfl
  have hap : ((A.mptr SS).aligned && (A.mptr SS).padded) = true := by rw [Container.mptr_eq]; rfl
  refine ⟨h.ss, by omega, VObj.colOK h.lx.align, y.rowOK, A.mptr_wf h.ss h.lA.align, B.mptr_wf h.ss h.lB.align,
    by rw [so, h.sA], by rw [so, h.sB], ?_, ?_, ?_, ?_, ?_, ?_, ?_, ?_⟩
  · intro i hi
    rw [VObj.ptr_addr]
    rw [Nat.one_mul] at hi
    exact h.lx.alloc _ (VObj.storage_elem h.ss hi)
  · intro j hj
    rw [VObj.ptr_addr]
    exact h.ly.alloc _ (VObj.storage_elem h.ss (by have := self_le_roundUp (n := y.n) h.ss; omega))
  · rw [if_pos hap]
    have := h.lA.readablePad h.ss h.sA; rwa [h1, h2] at this
  · have := h.lB.readable h.ss; rwa [h3, h4] at this
  · have := B.inj h.ss; rwa [h3, h4] at this
  · rintro i hi ⟨a, b, ha, hb, e⟩
    refine h.dx (x.data + i) (VObj.storage_elem h.ss (by have := self_le_roundUp (n := x.n) h.ss; omega)) ?_
    rw [VObj.ptr_addr] at e
    rw [e, ← Container.addr_eq_mptr]
    exact B.addr_storage h.ss (by omega) (by omega)
  · rintro i hi ⟨a, b, ha, hb, e⟩
    refine h.dy (y.data + i) (VObj.storage_elem h.ss (by have := self_le_roundUp (n := y.n) h.ss; omega)) ?_
    rw [VObj.ptr_addr] at e
    rw [e, ← Container.addr_eq_mptr]
    exact B.addr_storage h.ss (by omega) (by omega)
  · intro i j i' j' hi hj hi' hj' he
    rcases h.dA with rfl | hd
    · exact A.inj h.ss i j i' j' (by omega) (by omega) (by omega) (by omega) he
    · exact absurd he (hd.disj h.ss i j i' j' (by omega) (by omega) (by omega) (by omega))

theorem gerCall_sizes [Arith V] {SS TR : Nat} {alpha : V} {x y : VObj} {A B : Container} (hs : GerSizes x y A B) :
    gerCall SS TR alpha x y A B = gerPtr SS TR x.n y.n alpha x.ptr y.ptr (A.mptr SS) (B.mptr SS) := by
  obtain ⟨⟨h1, h2⟩, h3, h4⟩ := hs
  unfold gerCall gerMat Container.mat VObj.arg
  simp [h1, h2, h3, h4]

/-- **C09**. In exact arithmetic `ger(alpha, x, y, A, B)` (tile size equal to the SIMD width, as on AVX2) leaves
`A + alpha*x*y^T` in B and changes no other memory cell. B may be A. All sizes, dense and panel storage. -/
theorem C09_ger_value [CommRing V] [Arith V] [ExactRing V] {SS : Nat} {m : Mem V} {x y : VObj} {A B : Container}
    (alpha : V) (h : GerArgs SS m x y A B) (hs : GerSizes x y A B) {xv yv : Nat → V} {a : Nat → Nat → V}
    (hx : VContains m x xv) (hy : VContains m y yv) (ha : Contains SS m A a) :
    ∃ m', gerCall SS 1 alpha x y A B m = .ok () m' ∧
      Contains SS m' B (fun i j => a i j + alpha * xv i * yv j) ∧ OnlyElemsChange SS m m' B := by
  obtain ⟨m', h1, h2, h3⟩ := gerPtr_correct (alpha := alpha) (h.pre hs)
  rw [gerCall_sizes hs]
  obtain ⟨⟨e1, e2⟩, e3, e4⟩ := hs
  refine ⟨m', h1, fun i j hi hj => ?_, fun z hz => h3 z (fun hc => hz ?_)⟩
  · rw [Container.addr_eq_mptr, h2 i j (by omega) (by omega), ha.holds.val (by omega) (by omega)]
    have ex : val m (x.ptr.addr SS i) = xv i := by
      rw [VObj.ptr_addr]; unfold val; rw [hx i (by omega)]; rfl
    have ey : val m (y.ptr.addr SS j) = yv j := by
      rw [VObj.ptr_addr]; unfold val; rw [hy j (by omega)]; rfl
    rw [ex, ey]
    unfold gerEntry
    simp only [ExactRing.fma_eq, ExactRing.mul_eq, ExactRing.one_eq]
    congr 1; ring
  · rw [← e3, ← e4] at hc
    exact (cells_iff B z).1 hc

/-- **C09** (pointer version, any tile size, any mixture of aligned/padded pointers and strided vectors): under the
explicit preconditions of `GerPre` - in particular x must be readable up to the next multiple of the tile size. -/
theorem C09_ger_pointer_value [CommRing V] [Arith V] [ExactRing V] {SS TR M N : Nat} {m : Mem V} {x y : VPtr}
    {A B : MPtr} (alpha : V) (h : GerPre SS TR M N x y A B m) {xv yv : Nat → V} {a : Nat → Nat → V}
    (hx : VHolds SS m x M xv) (hy : VHolds SS m y N yv) (ha : Holds SS m A M N a) :
    ∃ m', gerPtr SS TR M N alpha x y A B m = .ok () m' ∧
      Holds SS m' B M N (fun i j => a i j + alpha * xv i * yv j) ∧ (∀ z, ¬ Cells SS B M N z → m' z = m z) := by
  obtain ⟨m', h1, h2, h3⟩ := gerPtr_correct (alpha := alpha) h
  refine ⟨m', h1, fun i j hi hj => ?_, h3⟩
  rw [h2 i j hi hj, ha.val hi hj]
  have ex : val m (x.addr SS i) = xv i := by unfold val; rw [hx i hi]; rfl
  have ey : val m (y.addr SS j) = yv j := by unfold val; rw [hy j hj]; rfl
  rw [ex, ey]
  unfold gerEntry
  simp only [ExactRing.fma_eq, ExactRing.mul_eq, ExactRing.one_eq]
  congr 1; ring

/-- **C09** (bitwise). For an arbitrary arithmetic every element of the result is the fixed expression
`fma(alpha*x[i], y[j], 1*A(i,j))`, independent of the position in the tiling. -/
theorem C09_ger_bitwise [Arith V] {SS TR M N : Nat} {m : Mem V} {x y : VPtr} {A B : MPtr} (alpha : V)
    (h : GerPre SS TR M N x y A B m) {xv yv : Nat → V} {a : Nat → Nat → V}
    (hx : VHolds SS m x M xv) (hy : VHolds SS m y N yv) (ha : Holds SS m A M N a) :
    ∃ m', gerPtr SS TR M N alpha x y A B m = .ok () m' ∧ Holds SS m' B M N (fun i j =>
      Arith.fma (Arith.mul alpha (xv i)) (yv j) (Arith.mul Arith.one (a i j))) := by
  obtain ⟨m', h1, h2, _⟩ := gerPtr_correct (alpha := alpha) h
  refine ⟨m', h1, fun i j hi hj => ?_⟩
  rw [h2 i j hi hj, ha.val hi hj]
  have ex : val m (x.addr SS i) = xv i := by unfold val; rw [hx i hi]; rfl
  have ey : val m (y.addr SS j) = yv j := by unfold val; rw [hy j hj]; rfl
  rw [ex, ey]; rfl

/-- **C09** (sizes). ger throws `std::invalid_argument`, leaving memory unchanged, exactly when the sizes are
inconsistent. -/
theorem C09_ger_size_check [Arith V] {SS : Nat} {m : Mem V} {x y : VObj} {A B : Container} (alpha : V)
    (h : GerArgs SS m x y A B) :
    (¬ GerSizes x y A B → gerCall SS 1 alpha x y A B m = .throw .invalidArgument m) ∧
    (GerSizes x y A B → ∃ m', gerCall SS 1 alpha x y A B m = .ok () m') := by
  refine ⟨fun hn => ?_, fun hs => ?_⟩
  · unfold gerCall gerMat Container.mat VObj.arg
    simp only
    split
    · rfl
    · split
      · rfl
      · split
        · rfl
        · split
          · rfl
          · exfalso; apply hn; unfold GerSizes; omega
  · obtain ⟨m', h1, _⟩ := gerPtr_correct (alpha := alpha) (h.pre hs)
    exact ⟨m', by rw [gerCall_sizes hs]; exact h1⟩

/-- memory of the counterexample: exactly the (padded) storage of four objects -/
def gerMem : Mem Rat := fun z =>
  if z ∈ ([0, 1, 10, 11, 20, 21, 30, 31] : List Int) then some 1 else none

/-- **C09** (excluded case). When the tile is larger than the SIMD width (double on NEON: SIMD width 2, tile size 4)
ger reads x beyond its padded storage: with a vector x of length 1 (storage of 2 elements) the call has undefined
behaviour although all arguments are properly allocated. -/
theorem C09_ger_large_tile_out_of_bounds :
    gerCall 2 2 (1 : Rat) ⟨true, 1, 0⟩ ⟨true, 1, 10⟩ ⟨.statDense, .columnMajor, 1, 1, 20⟩
      ⟨.statDense, .columnMajor, 1, 1, 30⟩ gerMem = .ub := by
  rfl

/-- in the counterexample all hypotheses of the value theorem hold -/
example : GerArgs 2 gerMem ⟨true, 1, 0⟩ ⟨true, 1, 10⟩ ⟨.statDense, .columnMajor, 1, 1, 20⟩
    ⟨.statDense, .columnMajor, 1, 1, 30⟩ := by
  have hst : ∀ (b : Int) (x : Int), b ≤ x → x < b + 2 → x = b ∨ x = b + 1 := by intro b x h1 h2; omega
  have key : ∀ (b x : Int), b ∈ ([0, 10, 20, 30] : List Int) → b ≤ x → x < b + 2 → (gerMem x).isSome = true := by
    intro b x hb h1 h2
    simp only [List.mem_cons, List.not_mem_nil, or_false] at hb
    rcases hst b x h1 h2 with rfl | rfl <;> rcases hb with rfl | rfl | rfl | rfl <;> rfl
  refine ⟨by decide, rfl, rfl, ⟨by decide, ?_⟩, ⟨by decide, ?_⟩, ⟨by decide, ?_⟩, ⟨by decide, ?_⟩, ?_, ?_, Or.inr ?_⟩
  · exact fun x hx => key 0 x (by decide) hx.1 hx.2
  · exact fun x hx => key 10 x (by decide) hx.1 hx.2
  · exact fun x hx => key 20 x (by decide) hx.1 hx.2
  · exact fun x hx => key 30 x (by decide) hx.1 hx.2
  · intro z h1 h2
    have h1 : (0 : Int) ≤ z ∧ z < 0 + 2 := h1
    have h2 : (30 : Int) ≤ z ∧ z < 30 + 2 := h2
    omega
  · intro z h1 h2
    have h1 : (10 : Int) ≤ z ∧ z < 10 + 2 := h1
    have h2 : (30 : Int) ≤ z ∧ z < 30 + 2 := h2
    omega
  · intro z h1 h2
    have h1 : (20 : Int) ≤ z ∧ z < 20 + 2 := h1
    have h2 : (30 : Int) ≤ z ∧ z < 30 + 2 := h2
    omega

/-- a larger instance of the hypotheses: 5-element x, 7-element y, 5×7 panel A, dense B, SIMD width 4 -/
example : GerArgs 4 demoMem ⟨true, 5, 0⟩ ⟨false, 7, 20⟩ ⟨.dynPanel, .columnMajor, 5, 7, 200⟩
      ⟨.statDense, .columnMajor, 5, 7, 600⟩ ∧
    GerSizes ⟨true, 5, 0⟩ ⟨false, 7, 20⟩ ⟨.dynPanel, .columnMajor, 5, 7, 200⟩ ⟨.statDense, .columnMajor, 5, 7, 600⟩ := by
  have vl : ∀ v : VObj, v.data % 4 = 0 → 0 ≤ v.data → v.data + v.capacity 4 ≤ 1000 → VLive 4 demoMem v := by
    intro v h1 h2 h3
    refine ⟨h1, fun x hx => ?_⟩
    unfold VObj.Storage at hx
    unfold demoMem
    rw [if_pos ⟨by omega, by omega⟩]; rfl
  refine ⟨⟨by decide, rfl, rfl, vl _ (by decide) (by decide) (by decide), vl _ (by decide) (by decide) (by decide),
    demo_live (by decide) (by decide) (by decide), demo_live (by decide) (by decide) (by decide), ?_, ?_,
    Or.inr (demo_apart (by decide))⟩, by decide⟩
  · intro z h1 h2
    have h1 : (0 : Int) ≤ z ∧ z < 0 + 8 := h1
    have h2 : (600 : Int) ≤ z ∧ _ := h2
    omega
  · intro z h1 h2
    have h1 : (20 : Int) ≤ z ∧ z < 20 + 8 := h1
    have h2 : (600 : Int) ≤ z ∧ _ := h2
    omega

/-! ### Row-major ger -/

/-- **C09** (row-major overload). With a B of the right size the row-major ger leaves `A + alpha*x*y^T` in B and
changes nothing else; it throws `std::invalid_argument` iff the size of A does not match. -/
theorem C09_ger_row_major [CommRing V] [Arith V] [ExactRing V] {SS : Nat} {mem : Mem V}
    {x y : VArg} {A B : Mat} (alpha : V) {xv yv : Nat → V} {a : Nat → Nat → V}
    (hx : VHolds SS mem x.p x.n xv) (hy : VHolds SS mem y.p y.n yv) (hA : Holds SS mem A.p x.n y.n a)
    (hB : Readable SS mem B.p x.n y.n) (hinj : Inj SS B.p x.n y.n) (dA : SameOrDisj SS A.p B.p x.n y.n)
    (dx : ∀ i : Nat, i < x.n → ¬ Cells SS B.p x.n y.n (x.p.addr SS i))
    (dy : ∀ i : Nat, i < y.n → ¬ Cells SS B.p x.n y.n (y.p.addr SS i)) :
    (¬ (A.rows = x.n ∧ A.cols = y.n) → gerRowMat SS alpha x y A B mem = .throw .invalidArgument mem) ∧
    (A.rows = x.n ∧ A.cols = y.n → ∃ mem', gerRowMat SS alpha x y A B mem = .ok () mem' ∧
      Holds SS mem' B.p x.n y.n (fun i j => a i j + alpha * xv i * yv j) ∧
      (∀ z, ¬ Cells SS B.p x.n y.n z → mem' z = mem z)) := by
  constructor
  · intro h
    unfold gerRowMat
    rw [if_pos (by omega)]; rfl
  · intro h
    unfold gerRowMat
    rw [if_neg (by omega)]
    refine runs_elementwise hB hinj _ _ (fun i j hi hj m1 h1 h2 => ?_)
    have ea : m1 (A.p.addr SS i j) = some (a i j) := by
      rw [h1 _ (fun i' j' h3 h4 h5 h6 => h5 (by obtain ⟨e1, e2⟩ := dA _ _ _ _ hi hj h3 h4 h6; exact ⟨e1.symm, e2.symm⟩))]
      exact hA i j hi hj
    have ex := hx i hi
    rw [← h1 _ (fun i' j' h3 h4 _ h6 => dx i hi ⟨i', j', h3, h4, h6⟩)] at ex
    have ey := hy j hj
    rw [← h1 _ (fun i' j' h3 h4 _ h6 => dy j hj ⟨i', j', h3, h4, h6⟩)] at ey
    unfold MPtr.get VPtr.get
    rw [bind_ok (reads_read ea), bind_ok (reads_read ex), bind_ok (reads_read ey)]
    refine (write_eq _ h2).trans ?_
    rw [ExactRing.mul_eq, ExactRing.mul_eq, ExactRing.add_eq]

/-- **C09** (row-major overload, unchecked output). The size of the output is not checked: with 1×2 arguments and a
1×1 output matrix, the row-major ger writes the cell after the output instead of throwing. -/
theorem C09_ger_row_major_output_unchecked :
    let p := fun b : Int => ({ panel := false, so := .rowMajor, aligned := true, padded := true, ptr := b, spacing := 4 } : MPtr)
    let m0 : Mem Rat := fun z => if 0 ≤ z ∧ z < 100 then some 1 else none
    ∃ m', gerRowMat 4 (1 : Rat) ⟨.vec true true 0 1, 1⟩ ⟨.vec true true 20 1, 2⟩ ⟨p 40, 1, 2⟩ ⟨p 60, 1, 1⟩ m0 = .ok () m' ∧
      m' 61 = some 2 ∧ m0 61 = some 1 := by
  refine ⟨_, rfl, ?_, rfl⟩
  show some ((1 : Rat) + 1 * 1 * 1) = some 2
  norm_num

end Blast
