import Verif.Trmm
import Verif.Eval
import Verif.Props.Gemm
import Verif.Props.Reference
/- Concrete cases meeting the hypotheses of these theorems: Verif/Cases/Trmm.lean, and the examples in this file. -/
/-
Properties C11-C14: triangular matrix multiplication.
-/
set_option linter.unusedSectionVars false
namespace Blast
open Finset Prog
open Reg (UpLo)
variable {V : Type}

/-- Sums over the columns of a triangular matrix start at any `s` up to the diagonal. -/
theorem sum_from [AddCommMonoid V] (g : Nat → V) {s m : Nat} (h : s ≤ m) (hz : ∀ k, k < s → g k = 0) :
    ∑ k ∈ range m, g k = ∑ k ∈ range (m - s), g (s + k) := by
  obtain ⟨r, rfl⟩ : ∃ r, m = s + r := ⟨m - s, by omega⟩
  rw [sum_range_add, sum_eq_zero (s := range s) (fun k hk => hz k (mem_range.1 hk)), zero_add, Nat.add_sub_cancel_left]

/-! ### Right multiplication -/

section
variable [CommRing V] [Arith V] [ExactRing V]

theorem trmmREntry_eq (alpha : V) (b a : Nat → V) (j N : Nat) (hj : j < N) {t : Nat → V}
    (h1 : ∀ k, j ≤ k → k < N → t k = a k) (h0 : ∀ k, k < j → t k = 0) :
    trmmREntry alpha b a j N = alpha * ∑ k ∈ range N, b k * t k := by
  unfold trmmREntry
  rw [fmaSum_eq, ExactRing.zero_eq, zero_add, mul_sum,
    sum_from (fun k => alpha * (b k * t k)) (Nat.le_of_lt hj) (fun k hk => by rw [h0 k hk]; ring)]
  refine sum_congr rfl (fun k hk => ?_)
  have := mem_range.1 hk
  rw [ExactRing.mul_eq, h1 (j + k) (by omega) (by omega)]; ring

/-- **C13** (pointer interface, any tile size). -/
theorem C13_trmm_right_pointer_value {SS TR M N : Nat} {m : Mem V} {B A C : MPtr} (alpha : V)
    (h : TrmmRPre SS TR M N B A C m) {a b : Nat → Nat → V}
    (ha : TriArg SS m A N .lower false a C M N) (hb : Holds SS m B M N b) :
    ∃ m', trmmRightPtr SS TR M N alpha B A .lower false C m = .ok () m' ∧
      Holds SS m' C M N (fun i j => alpha * ∑ k ∈ range N, b i k * tri .lower false a k j) ∧
      (∀ z, ¬ Cells SS C M N z → m' z = m z) := by
  obtain ⟨m', h1, h2, h3⟩ := trmmRightPtr_correct (alpha := alpha) h false (fun hh => by cases hh)
  refine ⟨m', h1, fun i j hi hj => ?_, h3⟩
  rw [h2 i j hi hj, trmmREntry_eq alpha _ _ j N hj (t := fun k => tri .lower false a k j)]
  · congr 2
    refine sum_congr rfl (fun k hk => ?_)
    rw [hb.val hi (mem_range.1 hk)]
  · intro k h4 h5
    rcases Nat.lt_or_eq_of_le h4 with h6 | rfl
    · rw [tri_lower h6]
      exact (val_some (ha k j h5 hj (Or.inr (Or.inl ⟨rfl, h6⟩))).1).symm
    · rw [tri_diag]
      exact (val_some (ha j j h5 hj (Or.inl ⟨rfl, rfl⟩)).1).symm
  · intro k hk
    exact tri_lower_zero hk

end

/-- What a caller of `trmm(alpha, B, A, Lower, diag, C)` with blast matrices ensures. -/
structure TrmmRArgs (SS : Nat) (m : Mem V) (B A C : Container) : Prop where
  ss : 0 < SS
  sB : B.so = .columnMajor
  sC : C.so = .columnMajor
  lA : Live SS m A
  lB : Live SS m B
  lC : Live SS m C
  dA : Apart SS A C
  dB : B = C ∨ Apart SS B C

/-- the sizes required by the right multiplication -/
def TrmmRSizes (B A C : Container) : Prop :=
  (A.rows = B.cols ∧ A.cols = B.cols) ∧ (C.rows = B.rows ∧ C.cols = B.cols)

instance (B A C : Container) : Decidable (TrmmRSizes B A C) := by unfold TrmmRSizes; infer_instance

/-- the library call (tile size `TR * SS`) -/
abbrev trmmRightCall [Arith V] (SS TR : Nat) (alpha : V) (B A : Container) (uplo : UpLo) (diag : Bool) (C : Container) :
    Prog V Unit :=
  trmmRightMat SS TR alpha (B.mat SS) (A.mat SS) uplo diag (C.mat SS)

theorem Container.mptr_so {SS : Nat} (c : Container) : (c.mptr SS).so = c.so := by rw [Container.mptr_eq]; rfl

theorem TrmmRArgs.pre [Arith V] {SS : Nat} {m : Mem V} {B A C : Container} (h : TrmmRArgs SS m B A C)
    (hs : TrmmRSizes B A C) : TrmmRPre SS 1 B.rows B.cols (B.mptr SS) (A.mptr SS) (C.mptr SS) m := by
  obtain ⟨⟨h1, h2⟩, h3, h4⟩ := hs
  refine ⟨h.ss, by omega, A.mptr_wf h.ss h.lA.align, B.mptr_wf h.ss h.lB.align, C.mptr_wf h.ss h.lC.align,
    by rw [B.mptr_so, h.sB], by rw [C.mptr_so, h.sC], fun _ _ => rfl, ?_, ?_, ?_, ?_, ?_, ?_⟩
  · intro k j hjk hk
    exact h.lA.readable h.ss k j (by omega) (by omega)
  · rw [Nat.one_mul]; exact h.lB.readablePad h.ss h.sB
  · have := h.lC.readable h.ss; rwa [h3, h4] at this
  · have := C.inj h.ss; rwa [h3, h4] at this
  · rintro k j hjk hk ⟨a, b, ha, hb, e⟩
    exact h.dA.disj h.ss k j a b (by omega) (by omega) (by omega) (by omega) e
  · intro i j i' j' hi hj hi' hj' he
    rcases h.dB with rfl | hd
    · exact B.inj h.ss i j i' j' (by omega) (by omega) (by omega) (by omega) he
    · exact absurd he (hd.disj h.ss i j i' j' (by omega) (by omega) (by omega) (by omega))

theorem trmmRightCall_sizes [Arith V] {SS TR : Nat} {alpha : V} {B A C : Container} {uplo : UpLo} {diag : Bool}
    (hs : TrmmRSizes B A C) : trmmRightCall SS TR alpha B A uplo diag C =
      trmmRightPtr SS TR B.rows B.cols alpha (B.mptr SS) (A.mptr SS) uplo diag (C.mptr SS) := by
  obtain ⟨⟨h1, h2⟩, h3, h4⟩ := hs
  unfold trmmRightCall trmmRightMat Container.mat
  simp [h1, h2, h3, h4]

/-- **C13**. In exact arithmetic `trmm(alpha, B, A, Lower, false, C)` leaves `alpha*B*L` in C, where L is the lower
triangle of A (whatever the elements of A above the diagonal are), and changes no other memory cell. All sizes, dense
and panel storage, C may be B. -/
theorem C13_trmm_right_value [CommRing V] [Arith V] [ExactRing V] {SS : Nat} {m : Mem V} {B A C : Container} (alpha : V)
    (h : TrmmRArgs SS m B A C) (hs : TrmmRSizes B A C) {a b : Nat → Nat → V}
    (ha : ∀ k j, j ≤ k → k < A.rows → m (A.addr SS k j) = some (a k j)) (hb : Contains SS m B b) :
    ∃ m', trmmRightCall SS 1 alpha B A .lower false C m = .ok () m' ∧
      Contains SS m' C (fun i j => alpha * ∑ k ∈ range B.cols, b i k * tri .lower false a k j) ∧
      OnlyElemsChange SS m m' C := by
  have hp := h.pre hs
  rw [trmmRightCall_sizes hs]
  obtain ⟨m', h1, h2, h3⟩ := C13_trmm_right_pointer_value alpha hp (a := a) (b := b) (fun k j hk hj hr => by
    have hjk : j ≤ k := by
      rcases hr with ⟨rfl, _⟩ | ⟨_, hr⟩ | ⟨hr, _⟩
      · exact Nat.le_refl _
      · exact Nat.le_of_lt hr
      · cases hr
    refine ⟨?_, hp.dA k j hjk hk⟩
    rw [← Container.addr_eq_mptr]
    exact ha k j hjk (by rw [hs.1.1]; exact hk)) hb.holds
  obtain ⟨_, e3, e4⟩ := hs
  refine ⟨m', h1, fun i j hi hj => ?_, fun z hz => h3 z (fun hc => hz ?_)⟩
  · rw [Container.addr_eq_mptr]; exact h2 i j (by omega) (by omega)
  · rw [← e3, ← e4] at hc
    exact (cells_iff C z).1 hc

/-- **C13** (bitwise). For an arbitrary arithmetic (IEEE included) every element of the result is one fixed expression,
independent of layout, tile size and position in the tiling. -/
theorem C13_trmm_right_bitwise [Arith V] {SS TR M N : Nat} {m : Mem V} {B A C : MPtr} (alpha : V)
    (h : TrmmRPre SS TR M N B A C m) :
    ∃ m', trmmRightPtr SS TR M N alpha B A .lower false C m = .ok () m' ∧
      Holds SS m' C M N (fun i j =>
        fmaSum (fun t => Arith.mul alpha (val m (B.addr SS i (j + t : Nat)))) (fun t => val m (A.addr SS (j + t : Nat) j))
          Arith.zero (N - j)) := by
  obtain ⟨m', h1, h2, _⟩ := trmmRightPtr_correct (alpha := alpha) h false (fun hh => by cases hh)
  exact ⟨m', h1, fun i j hi hj => h2 i j hi hj⟩

/-- memory of the counterexample: A is the 3×3 identity in panel storage, B is 4×3 with all elements 1 -/
def trmmRMem : Mem Rat := fun z =>
  if z = 0 ∨ z = 3 ∨ z = 10 then some 1 else if 0 ≤ z ∧ z < 16 then some 0
  else if 16 ≤ z ∧ z < 28 then some 1 else if 28 ≤ z ∧ z < 40 then some 0 else none

def trmmRWitB : Container := ⟨.statDense, .columnMajor, 4, 3, 16⟩
def trmmRWitA : Container := ⟨.statPanel, .columnMajor, 3, 3, 0⟩
def trmmRWitC : Container := ⟨.statDense, .columnMajor, 4, 3, 28⟩

/-- **C13** (excluded case). With a tile larger than the SIMD width (double on NEON: SIMD width 2, tile size 4) and a
column-major panel matrix A the product is wrong: multiplying a matrix of ones by the identity yields 0 in column 2,
because the pointer moved down row by row does not enter the next panel. -/
theorem C13_trmm_right_panel_large_tile_wrong :
    TrmmRArgs 2 trmmRMem trmmRWitB trmmRWitA trmmRWitC ∧ TrmmRSizes trmmRWitB trmmRWitA trmmRWitC ∧
    Contains 2 trmmRMem trmmRWitA (fun i j => if i = j then 1 else 0) ∧ Contains 2 trmmRMem trmmRWitB (fun _ _ => 1) ∧
    ∃ m', trmmRightCall 2 2 (1 : Rat) trmmRWitB trmmRWitA .lower false trmmRWitC trmmRMem = .ok () m' ∧
      m' (trmmRWitC.addr 2 0 2) = some 0 := by
  have al : ∀ z : Int, 0 ≤ z → z < 40 → (trmmRMem z).isSome = true := by
    intro z h1 h2; unfold trmmRMem; split_ifs <;> first | rfl | omega
  refine ⟨⟨by decide, rfl, rfl, ⟨by decide, fun z hz => al z hz.1 (lt_of_lt_of_le hz.2 (by decide))⟩,
    ⟨by decide, fun z hz => al z (le_trans (by decide) hz.1) (lt_of_lt_of_le hz.2 (by decide))⟩,
    ⟨by decide, fun z hz => al z (le_trans (by decide) hz.1) (lt_of_lt_of_le hz.2 (by decide))⟩, ?_, Or.inr ?_⟩,
    by decide, fun i j hi hj => ?_, fun i j hi hj => ?_, ?_⟩
  · intro z h1 h2
    have h1 : (0 : Int) ≤ z ∧ z < 0 + 12 := h1
    have h2 : (28 : Int) ≤ z ∧ z < 28 + 12 := h2
    omega
  · intro z h1 h2
    have h1 : (16 : Int) ≤ z ∧ z < 16 + 12 := h1
    have h2 : (28 : Int) ≤ z ∧ z < 28 + 12 := h2
    omega
  · have : ∀ i < 3, ∀ j < 3, trmmRMem (trmmRWitA.addr 2 i j) = some (if i = j then 1 else 0) := by decide +kernel
    exact this i hi j hj
  · have : ∀ i < 4, ∀ j < 3, trmmRMem (trmmRWitB.addr 2 i j) = some 1 := by decide +kernel
    exact this i hi j hj
  · refine ok_of_okCell ?_
    decide +kernel

/-! ### Left multiplication -/

section
variable [CommRing V] [Arith V] [ExactRing V]

theorem trmmLPartEntry_eq (alpha : V) (a b : Nat → V) {i row M : Nat} (hi : i ≤ row) (hM : i ≤ M) {t : Nat → V}
    (h1 : ∀ k, k < M → t k = a k) (h0 : ∀ k, k < row → t k = 0) :
    trmmLPartEntry alpha a b i M = alpha * ∑ k ∈ range M, t k * b k := by
  unfold trmmLPartEntry
  rw [fmaSum_eq, ExactRing.zero_eq, zero_add, mul_sum,
    sum_from (fun k => alpha * (t k * b k)) hM (fun k hk => by rw [h0 k (by omega)]; ring)]
  refine sum_congr rfl (fun k hk => ?_)
  have := mem_range.1 hk
  rw [ExactRing.mul_eq, h1 (i + k) (by omega)]; ring

theorem trmmLFullEntry_eq {SS : Nat} (alpha : V) (a b : Nat → V) {i r KM M : Nat} (hr : r < KM) (hM : i + KM ≤ M)
    {t : Nat → V} (h1 : ∀ k, i + r ≤ k → k < M → t k = a k) (h0 : ∀ k, k < i + r → t k = 0) :
    trmmLFullEntry SS alpha a b i r KM M = alpha * ∑ k ∈ range M, t k * b k := by
  have hs : r / SS * SS ≤ r := Nat.div_mul_le_self r SS
  generalize hq : r / SS * SS = q at hs
  unfold trmmLFullEntry
  rw [hq, fmaSum_eq, fmaSum_eq, ExactRing.zero_eq, zero_add, mul_sum,
    sum_from (fun k => alpha * (t k * b k)) (show i + q ≤ M by omega) (fun k hk => by rw [h0 k (by omega)]; ring),
    show M - (i + q) = (KM - q) + (M - i - KM) by omega, sum_range_add]
  refine congrArg₂ (· + ·) (sum_congr rfl (fun k hk => ?_)) (sum_congr rfl (fun k hk => ?_))
  · have := mem_range.1 hk
    rw [ExactRing.mul_eq, ← Nat.add_assoc]
    by_cases hlt : r ≤ q + k
    · rw [if_pos hlt, h1 (i + q + k) (by omega) (by omega)]; ring
    · rw [if_neg hlt, h0 (i + q + k) (by omega)]; ring
  · have := mem_range.1 hk
    rw [ExactRing.mul_eq, show i + q + (KM - q + k) = i + KM + k by omega, h1 (i + KM + k) (by omega) (by omega)]; ring

/-- the common core of C11 and C12 -/
theorem trmm_left_exact {SS TR M N : Nat} {m : Mem V} {A B C : MPtr} (alpha : V) (h : TrmmLPre SS TR M N A B C m)
    {a b : Nat → Nat → V} (ha : ∀ i k : Nat, i ≤ k → k < M → m (A.addr SS i k) = some (a i k))
    (hz : ¬ (M % (TR * SS) = 0 ∧ N % (TR * SS) = 0) → ∀ i k : Nat, k < i → i < M → m (A.addr SS i k) = some 0)
    (hb : Holds SS m B M N b) :
    ∃ m', trmmLeftPtr SS TR M N alpha A .upper false B C m = .ok () m' ∧
      Holds SS m' C M N (fun i j => alpha * ∑ k ∈ range M, tri .upper false a i k * b k j) ∧
      (∀ z, ¬ Cells SS C M N z → m' z = m z) := by
  have tu : ∀ i k : Nat, i ≤ k → k < M → tri .upper false a i k = val m (A.addr SS i k) := by
    intro i k hik hk
    rw [val_some (ha i k hik hk)]
    rcases Nat.lt_or_eq_of_le hik with h1 | rfl
    · exact tri_upper h1
    · rw [tri_diag]; rfl
  have spec : LeftSpec SS TR M N alpha A B m
      (fun i j v => v = alpha * ∑ k ∈ range M, tri .upper false a i k * b k j) := by
   constructor
   · intro i RM r j _ hr hM hj _ _
     rw [trmmLFullEntry_eq alpha _ _ hr hM (t := fun k => tri .upper false a (i + r) k)
       (fun k h1 h2 => tu _ k h1 h2) (fun k hk => tri_upper_zero hk)]
     congr 1
     refine sum_congr rfl (fun k hk => ?_)
     rw [hb.val (mem_range.1 hk) hj]
   · intro hn i row j hi hrow hj _
     rw [trmmLPartEntry_eq alpha _ _ hi (show i ≤ M by omega) (t := fun k => tri .upper false a row k)
       (fun k hk => ?_) (fun k hk => tri_upper_zero hk)]
     · congr 1
       refine sum_congr rfl (fun k hk => ?_)
       rw [hb.val (mem_range.1 hk) hj]
     · rcases Nat.lt_or_ge k row with hlt | hge
       · rw [tri_upper_zero hlt, val_some (hz hn row k hlt hrow)]
       · exact tu row k hge hk
  obtain ⟨m', h1, h2, h3⟩ := trmmLeftPtr_runs h spec
  refine ⟨m', h1, fun i j hi hj => ?_, h3⟩
  obtain ⟨v, e, rfl⟩ := h2 i j hi hj
  exact e

/-- **C11** (pointer interface, any tile size): A stores zeros below the diagonal. -/
theorem C11_trmm_left_pointer_value {SS TR M N : Nat} {m : Mem V} {A B C : MPtr} (alpha : V)
    (h : TrmmLPre SS TR M N A B C m) {a b : Nat → Nat → V} (ha : Holds SS m A M M a)
    (hz : ∀ i k, k < i → a i k = 0) (hb : Holds SS m B M N b) :
    ∃ m', trmmLeftPtr SS TR M N alpha A .upper false B C m = .ok () m' ∧
      Holds SS m' C M N (fun i j => alpha * ∑ k ∈ range M, a i k * b k j) ∧
      (∀ z, ¬ Cells SS C M N z → m' z = m z) := by
  obtain ⟨m', h1, h2, h3⟩ := trmm_left_exact alpha h (a := a) (fun i k hik hk => ha i k (by omega) hk)
    (fun _ i k hk hi => by rw [ha i k hi (by omega), hz i k hk]) hb
  refine ⟨m', h1, fun i j hi hj => ?_, h3⟩
  rw [h2 i j hi hj]
  refine congrArg (fun x => some (alpha * x)) (sum_congr rfl (fun k _ => ?_))
  rcases Nat.lt_trichotomy i k with hlt | rfl | hgt
  · rw [tri_upper hlt]
  · rw [tri_diag]; rfl
  · rw [tri_upper_zero hgt, hz i k hgt]

/-- **C12** (pointer interface). If M and N are multiples of the tile size only the upper triangle of A is used: the
elements below the diagonal may have any value, or not exist at all, and the result is the product with the upper
triangle. -/
theorem C12_trmm_left_ignores_lower_pointer {SS TR M N : Nat} {m : Mem V} {A B C : MPtr} (alpha : V)
    (h : TrmmLPre SS TR M N A B C m) (hM : M % (TR * SS) = 0) (hN : N % (TR * SS) = 0)
    {a b : Nat → Nat → V} (ha : TriArg SS m A M .upper false a C M N) (hb : Holds SS m B M N b) :
    ∃ m', trmmLeftPtr SS TR M N alpha A .upper false B C m = .ok () m' ∧
      Holds SS m' C M N (fun i j => alpha * ∑ k ∈ range M, tri .upper false a i k * b k j) ∧
      (∀ z, ¬ Cells SS C M N z → m' z = m z) := by
  refine trmm_left_exact alpha h (fun i k hik hk => (ha i k (by omega) hk ?_).1) (fun hn => absurd ⟨hM, hN⟩ hn) hb
  rcases Nat.lt_or_eq_of_le hik with h1 | rfl
  · exact Or.inr (Or.inr ⟨rfl, h1⟩)
  · exact Or.inl ⟨rfl, rfl⟩

end

/-- What a caller of `trmm(alpha, A, Upper, false, B, C)` with blast matrices ensures. The last condition excludes
the panel layouts of B that the code gets wrong. -/
structure TrmmLArgs (SS : Nat) (m : Mem V) (A B C : Container) : Prop where
  ss : 0 < SS
  sA : A.so = .columnMajor
  sC : C.so = .columnMajor
  lA : Live SS m A
  lB : Live SS m B
  lC : Live SS m C
  dA : Apart SS A C
  dB : B = C ∨ Apart SS B C
  pan : B.isPanel = true → B.so = .columnMajor → B.rows < 2 * SS

/-- the sizes required by the left multiplication -/
def TrmmLSizes (A B C : Container) : Prop :=
  (A.rows = B.rows ∧ A.cols = B.rows) ∧ (C.rows = B.rows ∧ C.cols = B.cols)

instance (A B C : Container) : Decidable (TrmmLSizes A B C) := by unfold TrmmLSizes; infer_instance

/-- the library call (tile size `TR * SS`) -/
abbrev trmmLeftCall [Arith V] (SS TR : Nat) (alpha : V) (A : Container) (uplo : UpLo) (diag : Bool) (B C : Container) :
    Prog V Unit :=
  trmmLeftMat SS TR alpha (A.mat SS) uplo diag (B.mat SS) (C.mat SS)

theorem TrmmLArgs.pre [Arith V] {SS : Nat} {m : Mem V} {A B C : Container} (h : TrmmLArgs SS m A B C)
    (hs : TrmmLSizes A B C) : TrmmLPre SS 1 B.rows B.cols (A.mptr SS) (B.mptr SS) (C.mptr SS) m := by
  obtain ⟨⟨h1, h2⟩, h3, h4⟩ := hs
  refine ⟨h.ss, by omega, A.mptr_wf h.ss h.lA.align, B.mptr_wf h.ss h.lB.align, C.mptr_wf h.ss h.lC.align,
    by rw [A.mptr_so, h.sA], by rw [C.mptr_so, h.sC], ?_, ?_, h.lB.readable h.ss, ?_, ?_, ?_, ?_⟩
  · intro hp hso
    rw [B.mptr_so] at hso
    refine ⟨?_, Or.inl rfl⟩
    rw [Nat.one_mul]
    refine h.pan ?_ hso
    rw [Container.mptr_eq] at hp; exact hp
  · intro i k hi hk _
    rw [Nat.one_mul] at hi
    have := h.lA.readablePad h.ss h.sA
    rw [h1, h2] at this
    exact this i k hi hk
  · have := h.lC.readable h.ss; rwa [h3, h4] at this
  · have := C.inj h.ss; rwa [h3, h4] at this
  · rintro k j hk hj _ ⟨a, b, ha, hb, e⟩
    exact h.dA.disj h.ss k j a b (by omega) (by omega) (by omega) (by omega) e
  · intro i j i' j' hi hj hi' hj' he
    rcases h.dB with rfl | hd
    · exact B.inj h.ss i j i' j' (by omega) (by omega) (by omega) (by omega) he
    · exact absurd he (hd.disj h.ss i j i' j' (by omega) (by omega) (by omega) (by omega))

theorem trmmLeftCall_sizes [Arith V] {SS TR : Nat} {alpha : V} {A B C : Container} {uplo : UpLo} {diag : Bool}
    (hs : TrmmLSizes A B C) : trmmLeftCall SS TR alpha A uplo diag B C =
      trmmLeftPtr SS TR B.rows B.cols alpha (A.mptr SS) uplo diag (B.mptr SS) (C.mptr SS) := by
  obtain ⟨⟨h1, h2⟩, h3, h4⟩ := hs
  unfold trmmLeftCall trmmLeftMat Container.mat
  simp [h1, h2, h3, h4]

/-- **C11**. If A is upper triangular (its elements below the diagonal are zero), in exact arithmetic
`trmm(alpha, A, Upper, false, B, C)` leaves `alpha*A*B` in C and changes no other memory cell. All sizes; C may be B. -/
theorem C11_trmm_left_value [CommRing V] [Arith V] [ExactRing V] {SS : Nat} {m : Mem V} {A B C : Container} (alpha : V)
    (h : TrmmLArgs SS m A B C) (hs : TrmmLSizes A B C) {a b : Nat → Nat → V}
    (ha : Contains SS m A a) (hz : ∀ i k, k < i → a i k = 0) (hb : Contains SS m B b) :
    ∃ m', trmmLeftCall SS 1 alpha A .upper false B C m = .ok () m' ∧
      Contains SS m' C (fun i j => alpha * ∑ k ∈ range B.rows, a i k * b k j) ∧ OnlyElemsChange SS m m' C := by
  have hp := h.pre hs
  rw [trmmLeftCall_sizes hs]
  obtain ⟨⟨e1, e2⟩, e3, e4⟩ := hs
  have ha' := ha.holds
  rw [e1, e2] at ha'
  obtain ⟨m', h1, h2, h3⟩ := C11_trmm_left_pointer_value alpha hp ha' hz hb.holds
  refine ⟨m', h1, fun i j hi hj => ?_, fun z hz => h3 z (fun hc => hz ?_)⟩
  · rw [Container.addr_eq_mptr]; exact h2 i j (by omega) (by omega)
  · rw [← e3, ← e4] at hc
    exact (cells_iff C z).1 hc

/-- **C11** (frame, any arithmetic). Whatever A contains, the call succeeds, writes every element of C and nothing
else. -/
theorem C11_trmm_left_frame [Arith V] {SS : Nat} {m : Mem V} {A B C : Container} (alpha : V)
    (h : TrmmLArgs SS m A B C) (hs : TrmmLSizes A B C) :
    ∃ m', trmmLeftCall SS 1 alpha A .upper false B C m = .ok () m' ∧ OnlyElemsChange SS m m' C := by
  rw [trmmLeftCall_sizes hs]
  obtain ⟨m', h1, _, h3⟩ := trmmLeftPtr_runs (alpha := alpha) (Q := fun _ _ _ => True) (h.pre hs)
    ⟨fun _ _ _ _ _ _ _ _ _ _ => trivial, fun _ _ _ _ _ _ _ _ => trivial⟩
  obtain ⟨_, e3, e4⟩ := hs
  refine ⟨m', h1, fun z hz => h3 z (fun hc => hz ?_)⟩
  rw [← e3, ← e4] at hc
  exact (cells_iff C z).1 hc

/-- **C12**. If the sizes of B are multiples of the tile size, the result is the product with the upper triangle of A,
whatever the elements of A below the diagonal are. -/
theorem C12_trmm_left_ignores_lower [CommRing V] [Arith V] [ExactRing V] {SS : Nat} {m : Mem V} {A B C : Container}
    (alpha : V) (h : TrmmLArgs SS m A B C) (hs : TrmmLSizes A B C) (hM : B.rows % SS = 0) (hN : B.cols % SS = 0)
    {a b : Nat → Nat → V} (ha : Contains SS m A a) (hb : Contains SS m B b) :
    ∃ m', trmmLeftCall SS 1 alpha A .upper false B C m = .ok () m' ∧
      Contains SS m' C (fun i j => alpha * ∑ k ∈ range B.rows, tri .upper false a i k * b k j) ∧
      OnlyElemsChange SS m m' C := by
  have hp := h.pre hs
  rw [trmmLeftCall_sizes hs]
  obtain ⟨⟨e1, e2⟩, e3, e4⟩ := hs
  obtain ⟨m', h1, h2, h3⟩ := C12_trmm_left_ignores_lower_pointer alpha hp (by rw [Nat.one_mul]; exact hM)
    (by rw [Nat.one_mul]; exact hN) (a := a) (b := b) (fun i k hi hk _ => by
      refine ⟨?_, hp.dA i k hi hk ?_⟩
      · exact ha.holds i k (by omega) (by omega)
      · rename_i hr
        left
        rcases hr with ⟨rfl, _⟩ | ⟨hr, _⟩ | ⟨_, hr⟩
        · exact Nat.le_refl _
        · cases hr
        · exact Nat.le_of_lt hr) hb.holds
  refine ⟨m', h1, fun i j hi hj => ?_, fun z hz => h3 z (fun hc => hz ?_)⟩
  · rw [Container.addr_eq_mptr]; exact h2 i j (by omega) (by omega)
  · rw [← e3, ← e4] at hc
    exact (cells_iff C z).1 hc

/-! ### Counterexamples for the left multiplication -/

/-- A is the 4×4 identity, B is 4×2 in panel storage with row i filled with i+1 -/
def trmmLMem : Mem Rat := fun z =>
  if z = 0 ∨ z = 5 ∨ z = 10 ∨ z = 15 then some 1 else if 0 ≤ z ∧ z < 16 then some 0
  else if z = 16 ∨ z = 18 then some 1 else if z = 17 ∨ z = 19 then some 2
  else if z = 20 ∨ z = 22 then some 3 else if z = 21 ∨ z = 23 then some 4
  else if 24 ≤ z ∧ z < 32 then some 0 else none

def trmmLWitA : Container := ⟨.statDense, .columnMajor, 4, 4, 0⟩
def trmmLWitB : Container := ⟨.statPanel, .columnMajor, 4, 2, 16⟩
def trmmLWitC : Container := ⟨.statDense, .columnMajor, 4, 2, 24⟩

/-- **C11** (excluded case). With a column-major panel matrix B of two or more tiles (here SIMD width and tile size 2,
4 rows) left trmm is wrong: multiplying by the identity gives C(2,0) = 1 although B(2,0) = 3, because the pointer
moved down row by row does not enter the next panel. -/
theorem C11_trmm_left_panel_wrong :
    TrmmLSizes trmmLWitA trmmLWitB trmmLWitC ∧
    Contains 2 trmmLMem trmmLWitA (fun i j => if i = j then 1 else 0) ∧
    Contains 2 trmmLMem trmmLWitB (fun i _ => (i : Rat) + 1) ∧
    ∃ m', trmmLeftCall 2 1 (1 : Rat) trmmLWitA .upper false trmmLWitB trmmLWitC trmmLMem = .ok () m' ∧
      m' (trmmLWitC.addr 2 2 0) = some 1 := by
  refine ⟨by decide, fun i j hi hj => ?_, fun i j hi hj => ?_, ?_⟩
  · have : ∀ i < 4, ∀ j < 4, trmmLMem (trmmLWitA.addr 2 i j) = some (if i = j then 1 else 0) := by decide +kernel
    exact this i hi j hj
  · have : ∀ i < 4, ∀ j < 2, trmmLMem (trmmLWitB.addr 2 i j) = some ((i : Rat) + 1) := by decide +kernel
    exact this i hi j hj
  · refine ok_of_okCell ?_
    decide +kernel

/-- all elements (and the padding) of three 2×2 matrices are 1 -/
def trmmLMem1 : Mem Rat := fun z => if 0 ≤ z ∧ z < 24 then some 1 else none

def trmmLWit1A : Container := ⟨.statDense, .columnMajor, 2, 2, 0⟩
def trmmLWit1B : Container := ⟨.statDense, .columnMajor, 2, 2, 8⟩
def trmmLWit1C : Container := ⟨.statDense, .columnMajor, 2, 2, 16⟩

/-- **C12** (excluded case). When a dimension is not a multiple of the tile size, left trmm uses the elements below
the diagonal: with all 2×2 matrices filled with ones (SIMD width 4) the product with the upper triangle has
`C(1,0) = 1`, but the call stores 2. -/
theorem C12_trmm_left_uses_lower_part :
    TrmmLArgs 4 trmmLMem1 trmmLWit1A trmmLWit1B trmmLWit1C ∧ TrmmLSizes trmmLWit1A trmmLWit1B trmmLWit1C ∧
    Contains 4 trmmLMem1 trmmLWit1A (fun _ _ => 1) ∧ Contains 4 trmmLMem1 trmmLWit1B (fun _ _ => 1) ∧
    (1 : Rat) * ∑ k ∈ range 2, tri .upper false (fun _ _ => (1 : Rat)) 1 k * 1 = 1 ∧
    ∃ m', trmmLeftCall 4 1 (1 : Rat) trmmLWit1A .upper false trmmLWit1B trmmLWit1C trmmLMem1 = .ok () m' ∧
      m' (trmmLWit1C.addr 4 1 0) = some 2 := by
  have al : ∀ z : Int, 0 ≤ z → z < 24 → (trmmLMem1 z).isSome = true := by
    intro z h1 h2; unfold trmmLMem1; rw [if_pos ⟨h1, h2⟩]; rfl
  refine ⟨⟨by decide, rfl, rfl, ⟨by decide, fun z hz => al z hz.1 (lt_of_lt_of_le hz.2 (by decide))⟩,
    ⟨by decide, fun z hz => al z (le_trans (by decide) hz.1) (lt_of_lt_of_le hz.2 (by decide))⟩,
    ⟨by decide, fun z hz => al z (le_trans (by decide) hz.1) (lt_of_lt_of_le hz.2 (by decide))⟩, ?_, Or.inr ?_,
    fun h => by cases h⟩, by decide, fun i j hi hj => ?_, fun i j hi hj => ?_, by decide +kernel, ?_⟩
  · intro z h1 h2
    have h1 : (0 : Int) ≤ z ∧ z < 0 + 8 := h1
    have h2 : (16 : Int) ≤ z ∧ z < 16 + 8 := h2
    omega
  · intro z h1 h2
    have h1 : (8 : Int) ≤ z ∧ z < 8 + 8 := h1
    have h2 : (16 : Int) ≤ z ∧ z < 16 + 8 := h2
    omega
  · have : ∀ i < 2, ∀ j < 2, trmmLMem1 (trmmLWit1A.addr 4 i j) = some 1 := by decide +kernel
    exact this i hi j hj
  · have : ∀ i < 2, ∀ j < 2, trmmLMem1 (trmmLWit1B.addr 4 i j) = some 1 := by decide +kernel
    exact this i hi j hj
  · refine ok_of_okCell ?_
    decide +kernel

/-! ### Unsupported variants -/

/-- **C14** (left). For all sizes and flags: a size mismatch throws `std::invalid_argument`; with matching sizes a
unit diagonal or a lower triangle throws `std::logic_error`. Memory is unchanged in both cases. -/
theorem C14_trmm_left_rejects [Arith V] {SS TR : Nat} {m : Mem V} {A B C : Container} (alpha : V) (uplo : UpLo)
    (diag : Bool) :
    (¬ TrmmLSizes A B C → trmmLeftCall SS TR alpha A uplo diag B C m = .throw .invalidArgument m) ∧
    (TrmmLSizes A B C → diag = true ∨ uplo = .lower →
      trmmLeftCall SS TR alpha A uplo diag B C m = .throw .logicError m) := by
  constructor
  · intro hn
    unfold trmmLeftCall trmmLeftMat Container.mat
    dsimp only
    split
    · rfl
    · split
      · rfl
      · exfalso; apply hn; unfold TrmmLSizes; omega
  · intro hs h
    rw [trmmLeftCall_sizes hs]
    unfold trmmLeftPtr
    cases diag
    · rcases h with h | rfl
      · cases h
      · rfl
    · rfl

/-- **C14** (right). For all sizes and flags: a size mismatch throws `std::invalid_argument`; with matching sizes an
upper triangle throws `std::logic_error`. Memory is unchanged in both cases. -/
theorem C14_trmm_right_rejects [Arith V] {SS TR : Nat} {m : Mem V} {B A C : Container} (alpha : V) (uplo : UpLo)
    (diag : Bool) :
    (¬ TrmmRSizes B A C → trmmRightCall SS TR alpha B A uplo diag C m = .throw .invalidArgument m) ∧
    (TrmmRSizes B A C → uplo = .upper → trmmRightCall SS TR alpha B A uplo diag C m = .throw .logicError m) := by
  constructor
  · intro hn
    unfold trmmRightCall trmmRightMat Container.mat
    dsimp only
    split
    · rfl
    · split
      · rfl
      · exfalso; apply hn; unfold TrmmRSizes; omega
  · rintro hs rfl
    rw [trmmRightCall_sizes hs]
    rfl

theorem loop_first [Arith V] {fuel : Nat} {c : Nat → Bool} {st i : Nat} {body : Nat → Prog V Unit} {m : Mem V}
    (hc : c i = true) (hb : body i m = .terminate) : loop (fuel + 1) c st body i m = .terminate := by
  unfold loop
  rw [if_pos hc]
  show bind' _ _ m = _
  unfold bind'
  rw [hb]

theorem loop_skip [Arith V] {fuel : Nat} {c : Nat → Bool} {st i : Nat} {body : Nat → Prog V Unit}
    (hc : c i = false) : loop (fuel + 1) c st body i = pure i := by
  unfold loop
  rw [if_neg (by rw [hc]; simp)]

theorem bind_terminate {α β : Type} {p : Prog V α} {f : α → Prog V β} {m : Mem V} (h : p m = .terminate) :
    (p >>= f) m = .terminate := by
  show bind' _ _ m = _
  unfold bind'
  rw [h]

/-- **C14** (right, unit diagonal). A unit diagonal with a lower triangle is not rejected with an exception: when both
dimensions of B are at least one tile the program terminates (the `std::logic_error` is thrown inside a `noexcept`
function), for every memory content. -/
theorem C14_trmm_right_unit_diagonal_terminates [Arith V] {SS TR : Nat} {m : Mem V} {B A C : Container} (alpha : V)
    (hs : TrmmRSizes B A C) (hM : TR * SS ≤ B.rows) (hN : TR * SS ≤ B.cols) :
    trmmRightCall SS TR alpha B A .lower true C m = .terminate := by
  rw [trmmRightCall_sizes hs]
  have hfull : ∀ RM i j, trmmRTileFull SS TR RM B.cols alpha (B.mptr SS) (A.mptr SS) true (C.mptr SS) i j m =
      .terminate := fun RM i j => bind_terminate rfl
  unfold trmmRightPtr
  refine bind_terminate (loop_first (by simpa using hN) ?_)
  unfold rowTiles
  by_cases h3 : (decide (0 + 3 * (TR * SS) ≤ B.rows) && (0 + 4 * (TR * SS) != B.rows)) = true
  · exact bind_terminate (loop_first h3 (hfull _ _ _))
  · rw [loop_skip (by simpa using h3), pure_bind']
    by_cases h2 : decide (0 + 2 * (TR * SS) ≤ B.rows) = true
    · exact bind_terminate (loop_first h2 (hfull _ _ _))
    · rw [loop_skip (by simpa using h2), pure_bind']
      exact bind_terminate (loop_first (by simpa using hM) (hfull _ _ _))

/-- **C14** (right, unit diagonal, small matrices). When a dimension of B is smaller than the tile the flag is silently
ignored: the call computes the product with the stored diagonal of A. -/
theorem C14_trmm_right_unit_diagonal_ignored [CommRing V] [Arith V] [ExactRing V] {SS : Nat} {m : Mem V}
    {B A C : Container} (alpha : V) (h : TrmmRArgs SS m B A C) (hs : TrmmRSizes B A C)
    (hsmall : B.rows < SS ∨ B.cols < SS) {a b : Nat → Nat → V} (ha : Contains SS m A a) (hb : Contains SS m B b) :
    ∃ m', trmmRightCall SS 1 alpha B A .lower true C m = .ok () m' ∧
      Contains SS m' C (fun i j => alpha * ∑ k ∈ range B.cols, b i k * tri .lower false a k j) := by
  have hp := h.pre hs
  rw [trmmRightCall_sizes hs]
  obtain ⟨m', h1, h2, h3⟩ := trmmRightPtr_correct (alpha := alpha) hp true (fun _ => by rw [Nat.one_mul]; exact hsmall)
  obtain ⟨⟨e1, e2⟩, e3, e4⟩ := hs
  refine ⟨m', h1, fun i j hi hj => ?_⟩
  rw [Container.addr_eq_mptr, h2 i j (by omega) (by omega),
    trmmREntry_eq alpha _ _ j B.cols (by omega) (t := fun k => tri .lower false a k j)]
  · refine congrArg (fun x => some (alpha * x)) (sum_congr rfl (fun k hk => ?_))
    rw [hb.holds.val (by omega) (mem_range.1 hk)]
  · intro k h4 h5
    rw [ha.holds.val (by omega) (by omega)]
    rcases Nat.lt_or_eq_of_le h4 with h6 | rfl
    · rw [tri_lower h6]
    · rw [tri_diag]; rfl
  · intro k hk
    exact tri_lower_zero hk

/-- **C14** (right, unit diagonal: the ignored flag gives a wrong product). 1×1 matrices, A = 5, B = 1, unit diagonal
requested: the result is 5, not 1. -/
theorem C14_trmm_right_unit_diagonal_wrong :
    let m0 : Mem Rat := fun z => if z = 0 then some 5 else if 0 ≤ z ∧ z < 12 then some 1 else none
    ∃ m', trmmRightCall 4 1 (1 : Rat) ⟨.statDense, .columnMajor, 1, 1, 4⟩ ⟨.statDense, .columnMajor, 1, 1, 0⟩ .lower true
      ⟨.statDense, .columnMajor, 1, 1, 8⟩ m0 = .ok () m' ∧ m' 8 = some 5 := by
  refine ok_of_okCell ?_
  decide +kernel

/-! ### Instances of the hypotheses -/

/-- 5×7 dense B and C, 7×7 row-major panel A -/
example : TrmmRArgs 4 demoMem ⟨.dynDense, .columnMajor, 5, 7, 200⟩ ⟨.statPanel, .rowMajor, 7, 7, 0⟩
      ⟨.statDense, .columnMajor, 5, 7, 600⟩ ∧
    TrmmRSizes ⟨.dynDense, .columnMajor, 5, 7, 200⟩ ⟨.statPanel, .rowMajor, 7, 7, 0⟩ ⟨.statDense, .columnMajor, 5, 7, 600⟩ ∧
    (∃ a, Contains 4 demoMem ⟨.statPanel, .rowMajor, 7, 7, 0⟩ a) :=
  have l : Live 4 demoMem ⟨.statPanel, .rowMajor, 7, 7, 0⟩ := demo_live (by decide) (by decide) (by decide)
  ⟨⟨by decide, rfl, rfl, l, demo_live (by decide) (by decide) (by decide),
    demo_live (by decide) (by decide) (by decide), demo_apart (by decide), Or.inr (demo_apart (by decide))⟩, by decide,
    ⟨_, l.contains (by decide)⟩⟩

/-- 8×4 (multiples of the tile size) in place, and 5×7 with a row-major B -/
example : (TrmmLArgs 4 demoMem ⟨.dynDense, .columnMajor, 8, 8, 0⟩ ⟨.statDense, .columnMajor, 8, 4, 600⟩
      ⟨.statDense, .columnMajor, 8, 4, 600⟩ ∧
    TrmmLSizes ⟨.dynDense, .columnMajor, 8, 8, 0⟩ ⟨.statDense, .columnMajor, 8, 4, 600⟩ ⟨.statDense, .columnMajor, 8, 4, 600⟩) ∧
    TrmmLArgs 4 demoMem ⟨.dynPanel, .columnMajor, 5, 5, 0⟩ ⟨.statPanel, .rowMajor, 5, 7, 300⟩
      ⟨.statDense, .columnMajor, 5, 7, 600⟩ :=
  ⟨⟨⟨by decide, rfl, rfl, demo_live (by decide) (by decide) (by decide), demo_live (by decide) (by decide) (by decide),
    demo_live (by decide) (by decide) (by decide), demo_apart (by decide), Or.inl rfl, fun h => by cases h⟩, by decide⟩,
   ⟨by decide, rfl, rfl, demo_live (by decide) (by decide) (by decide), demo_live (by decide) (by decide) (by decide),
    demo_live (by decide) (by decide) (by decide), demo_apart (by decide), Or.inr (demo_apart (by decide)),
    fun _ h => by cases h⟩⟩

/-- a memory in which an upper triangular 3×3 matrix with zeros below the diagonal is stored -/
example : ∃ (m : Mem Rat) (a : Nat → Nat → Rat), Contains 4 m ⟨.dynDense, .columnMajor, 3, 3, 0⟩ a ∧
    (∀ i k, k < i → a i k = 0) ∧ a 0 2 = 7 := by
  refine ⟨fun z => some (if z % 4 ≤ z / 4 then 7 else 0), fun i k => if i ≤ k then 7 else 0, fun i j hi hj => ?_, ?_, ?_⟩
  · have : ∀ i < 3, ∀ j < 3, (fun z : Int => some (if z % 4 ≤ z / 4 then (7 : Rat) else 0))
      (Container.addr 4 ⟨.dynDense, .columnMajor, 3, 3, 0⟩ i j) = some (if i ≤ j then 7 else 0) := by decide +kernel
    exact this i hi j hj
  · intro i k h
    show (if i ≤ k then (7 : Rat) else 0) = 0
    rw [if_neg (by omega)]
  · rfl

end Blast
