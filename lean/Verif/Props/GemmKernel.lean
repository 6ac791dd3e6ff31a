import Verif.Props.Gemm
import Verif.Eval
/- Concrete cases meeting the hypotheses of these theorems: Verif/Cases/GemmKernel.lean, and the examples in this file. -/
/-
Property C71: the register-matrix gemm kernels `gemm(ker, K, ...)`, called with matrix pointers, and `gemm(A, B, C, D)`.
-/
set_option linter.unusedSectionVars false
namespace Blast
open Finset Prog
variable {V : Type}

/-! ### Specification -/

/-- Pointers a caller passes to a gemm kernel with a register matrix of `R × N` elements: a, c and d column-major; SIMD-aligned where the type of the
pointer says so; `rc × nc` elements of c are read. No requirement on overlaps. -/
structure KernelPtrs (SS R N K : Nat) (a b c d : MPtr) (m : Mem V) (rc nc nb md nd : Nat) : Prop where
  ss : 0 < SS
  wa : a.WF SS
  wb : b.WF SS
  wc : c.WF SS
  wd : d.WF SS
  sa : a.so = .columnMajor
  sc : c.so = .columnMajor
  sd : d.so = .columnMajor
  ra : Readable SS m a R K
  rb : Readable SS m b K nb
  rc : Readable SS m c rc nc
  rd : Readable SS m d md nd
  inj : Inj SS d md nd

/-! ### Correctness -/

section
variable [Arith V] {SS RM N K : Nat} {a b c d : MPtr} {m : Mem V}

theorem writesSet_spec {md nd : Nat} (hi : Inj SS d md nd) {F : Nat → Nat → V} {p : Prog V Unit}
    (h : ∀ g : Int → V, (∀ i j : Nat, i < md → j < nd → g (d.addr SS i j) = F i j) →
      Runs p m (fun _ m' => WritesSet m m' (fun x => ∃ i j : Nat, i < md ∧ j < nd ∧ x = d.addr SS i j) g)) :
    ∃ m', p m = .ok () m' ∧ Holds SS m' d md nd F ∧ ∀ x, ¬ Cells SS d md nd x → m' x = m x := by
  obtain ⟨g, hg⟩ := exists_cellFn hi F
  obtain ⟨_, m', h1, h2⟩ := h g hg
  refine ⟨m', h1, fun i j hi hj => ?_, fun x hx => ?_⟩
  · rw [(h2 _).1 ⟨i, j, hi, hj, rfl⟩, hg i j hi hj]
  · exact (h2 x).2 (fun ⟨i, j, hi, hj, e⟩ => hx ⟨i, j, hi, hj, e⟩)

/-- **C71** (`gemm(ker, K, a, b, c, d)`), any arithmetic: `d(i,j)` becomes `fma(a(i,K-1), b(K-1,j), … fma(a(i,0), b(0,j), c(i,j)))`, computed from the
values before the call - whatever overlaps whatever -, nothing else changes, and the previous contents of the register matrix are irrelevant. -/
theorem C71_kernel (r : Reg V) (h : KernelPtrs SS (RM * SS) N K a b c d m (RM * SS) N N (RM * SS) N) {x y z : Nat → Nat → V}
    (hx : Holds SS m a (RM * SS) K x) (hy : Holds SS m b K N y) (hz : Holds SS m c (RM * SS) N z) :
    ∃ m', gemmFull1 SS RM N K r a b c d m = .ok () m' ∧
      Holds SS m' d (RM * SS) N (fun i j => fmaSum (fun k => x i k) (fun k => y k j) (z i j) K) ∧
      ∀ u, ¬ Cells SS d (RM * SS) N u → m' u = m u := by
  refine writesSet_spec h.inj (fun g hg => ?_)
  refine Runs.noexcept ?_
  refine ReadsQ.bind_runs (Reg.reads_load h.ss h.wc (MPtr.At.refl h.ss c) h.sc (fun r s hr hs => by
    rw [Int.zero_add, Int.zero_add]; exact h.rc r s hr hs)) ?_
  intro r0 h0
  refine ReadsQ.bind_runs (reads_gerFoldFull h.ss
    (X := fun k r => val m (a.addr SS ((0 + r : Nat) : Int) k))
    (Y := fun k s => val m (b.addr SS k ((0 + s : Nat) : Int)))
    (fun k hk => loads_A h.ss h.wa (MPtr.At.refl h.ss a) h.sa (Nat.zero_mod _) (fun r hr => by rw [Nat.zero_add]; exact h.ra r k hr hk))
    (fun k hk => gets_B h.ss h.wb ((MPtr.At.refl h.ss b).unal h.ss) (by rw [MPtr.unal_ptr h.ss]; simp)
      (fun s hs => by rw [Nat.zero_add]; exact h.rb k s hk hs))) ?_
  intro r1 h1
  refine (Reg.runs_store h.ss h.wd (MPtr.At.refl h.ss d) h.sd (fun _ => by simp) g
    (fun r s hr hs => by rw [Int.zero_add, Int.zero_add]; exact h.rd r s hr hs) ?_).mono ?_
  · intro r s hr hs
    rw [Int.zero_add, Int.zero_add, hg r s hr hs, h1 r s hr hs, h0 r s hr hs, Int.zero_add, Int.zero_add]
    exact (fmaSum_congr (hz.val hr hs) K (fun k hk => by simp only [Nat.zero_add]; exact hx.val hr hk)
      (fun k hk => by simp only [Nat.zero_add]; exact hy.val hk hs)).symm
  · intro _ m' hw'
    refine hw'.congr (fun x => ?_)
    simp only [Int.zero_add]

/-- **C71** (`gemm(ker, K, a, b, c, d, md, nd)`), any arithmetic: the `md × nd` part of d gets the same values and nothing else changes. The whole register
matrix is loaded from c (all `RM * SS` rows, all N columns), and all `RM * SS` rows of a are read. -/
theorem C71_kernel_partial_tile (r : Reg V) {md nd : Nat} (hmd : md ≤ RM * SS) (hnd : nd ≤ N)
    (h : KernelPtrs SS (RM * SS) N K a b c d m (RM * SS) N nd md nd) {x y z : Nat → Nat → V}
    (hx : Holds SS m a md K x) (hy : Holds SS m b K nd y) (hz : Holds SS m c md nd z) :
    ∃ m', gemmPart1 SS RM N K r a b c d md nd m = .ok () m' ∧
      Holds SS m' d md nd (fun i j => fmaSum (fun k => x i k) (fun k => y k j) (z i j) K) ∧
      ∀ u, ¬ Cells SS d md nd u → m' u = m u := by
  refine writesSet_spec h.inj (fun g hg => ?_)
  refine Runs.noexcept ?_
  refine ReadsQ.bind_runs (Reg.reads_load h.ss h.wc (MPtr.At.refl h.ss c) h.sc (fun r s hr hs => by
    rw [Int.zero_add, Int.zero_add]; exact h.rc r s hr hs)) ?_
  intro r0 h0
  refine ReadsQ.bind_runs (reads_gerFold (mm := md) (nn := nd) h.ss
    (X := fun k r => val m (a.addr SS ((0 + r : Nat) : Int) k))
    (Y := fun k s => val m (b.addr SS k ((0 + s : Nat) : Int)))
    (fun k hk => loads_A h.ss h.wa (MPtr.At.refl h.ss a) h.sa (Nat.zero_mod _) (fun r hr => by rw [Nat.zero_add]; exact h.ra r k hr hk))
    (fun k hk => gets_B h.ss h.wb ((MPtr.At.refl h.ss b).unal h.ss) (by rw [MPtr.unal_ptr h.ss]; simp)
      (fun s hs => by rw [Nat.zero_add]; exact h.rb k s hk (by omega)))) ?_
  rintro r1 ⟨h1, _⟩
  refine (Reg.runs_storeP h.ss h.wd (MPtr.At.refl h.ss d) h.sd (fun _ => by simp) hmd g
    (fun r s hr hs hs' => by rw [Int.zero_add, Int.zero_add]; exact h.rd r s hr hs') ?_).mono ?_
  · intro r s hr hs hs'
    rw [Int.zero_add, Int.zero_add, hg r s hr hs', h1 r s (by omega) hs hs', h0 r s (by omega) hs, Int.zero_add, Int.zero_add]
    exact (fmaSum_congr (hz.val hr hs') K (fun k hk => by simp only [Nat.zero_add]; exact hx.val hr hk)
      (fun k hk => by simp only [Nat.zero_add]; exact hy.val hk hs')).symm
  · intro _ m' hw'
    refine hw'.congr (fun x => ?_)
    simp only [Int.zero_add]
    constructor
    · rintro ⟨r, s, hr, hs, hs', hx⟩; exact ⟨r, s, hr, hs', hx⟩
    · rintro ⟨r, s, hr, hs, hx⟩; exact ⟨r, s, hr, by omega, hs, hx⟩

/-- **C71** (`gemm(ker, K, alpha, a, b, beta, c, d)`), any arithmetic. -/
theorem C71_kernel_alpha_beta (alpha beta : V) (h : KernelPtrs SS (RM * SS) N K a b c d m (RM * SS) N N (RM * SS) N) {x y z : Nat → Nat → V}
    (hx : Holds SS m a (RM * SS) K x) (hy : Holds SS m b K N y) (hz : Holds SS m c (RM * SS) N z) :
    ∃ m', gemmFull SS RM N K alpha a b beta c d m = .ok () m' ∧
      Holds SS m' d (RM * SS) N (fun i j => Arith.fma beta (z i j) (Arith.mul (fmaSum (fun k => x i k) (fun k => y k j) Arith.zero K) alpha)) ∧
      ∀ u, ¬ Cells SS d (RM * SS) N u → m' u = m u := by
  refine writesSet_spec h.inj (fun g hg => ?_)
  refine (runs_gemmFull (I := 0) (J := 0) h.ss h.wa h.wb h.wc h.wd h.sa h.sc h.sd (MPtr.At.refl h.ss a) (MPtr.At.refl h.ss b)
    (MPtr.At.refl h.ss c) (MPtr.At.refl h.ss d) (Nat.zero_mod _) (fun r k hr hk => by rw [Nat.zero_add]; exact h.ra r k hr hk)
    (fun k s hk hs => by rw [Nat.zero_add]; exact h.rb k s hk hs) (fun r s hr hs => by rw [Nat.zero_add, Nat.zero_add]; exact h.rc r s hr hs)
    (fun r s hr hs => by rw [Nat.zero_add, Nat.zero_add]; exact h.rd r s hr hs) g (fun r s hr hs => ?_)).mono ?_
  · simp only [Nat.zero_add]
    rw [hg r s hr hs, hz.val hr hs]
    unfold gemmEntry
    rw [fmaSum_congr rfl K (fun k hk => hx.val hr hk) (fun k hk => hy.val hk hs)]
  · intro _ m' hw'
    simpa only [Nat.zero_add] using hw'

/-- **C71** (`gemm(ker, K, alpha, a, b, beta, c, d, md, nd)`), any arithmetic; the tile is the smallest one for md rows. Only nd columns of c are read. -/
theorem C71_kernel_alpha_beta_partial_tile (alpha beta : V) {md nd : Nat} (hmd : md ≤ RM * SS) (ht : RM * SS < md + SS) (hnd : nd ≤ N)
    (h : KernelPtrs SS (RM * SS) N K a b c d m (RM * SS) nd nd md nd) {x y z : Nat → Nat → V}
    (hx : Holds SS m a md K x) (hy : Holds SS m b K nd y) (hz : Holds SS m c md nd z) :
    ∃ m', gemmPart SS RM N K alpha a b beta c d md nd m = .ok () m' ∧
      Holds SS m' d md nd (fun i j => Arith.fma beta (z i j) (Arith.mul (fmaSum (fun k => x i k) (fun k => y k j) Arith.zero K) alpha)) ∧
      ∀ u, ¬ Cells SS d md nd u → m' u = m u := by
  refine writesSet_spec h.inj (fun g hg => ?_)
  refine (runs_gemmPart (I := 0) (J := 0) h.ss h.wa h.wb h.wc h.wd h.sa h.sc h.sd (MPtr.At.refl h.ss a) (MPtr.At.refl h.ss b)
    (MPtr.At.refl h.ss c) (MPtr.At.refl h.ss d) (Nat.zero_mod _) hmd ht hnd (fun r k hr hk => by rw [Nat.zero_add]; exact h.ra r k hr hk)
    (fun k s hk hs => by rw [Nat.zero_add]; exact h.rb k s hk hs) (fun r s hr hs => by rw [Nat.zero_add, Nat.zero_add]; exact h.rc r s hr hs)
    (fun r s hr hs => by rw [Nat.zero_add, Nat.zero_add]; exact h.rd r s hr hs) g (fun r s hr hs => ?_)).mono ?_
  · simp only [Nat.zero_add]
    rw [hg r s hr hs, hz.val hr hs]
    unfold gemmEntry
    rw [fmaSum_congr rfl K (fun k hk => hx.val hr hk) (fun k hk => hy.val hk hs)]
  · intro _ m' hw'
    simpa only [Nat.zero_add] using hw'

end

/-- **C71** (exact arithmetic). The kernels compute `C + A B`. -/
theorem C71_kernel_exact [CommRing V] [Arith V] [ExactRing V] {SS RM N K : Nat} {a b c d : MPtr} {m : Mem V} (r : Reg V)
    (h : KernelPtrs SS (RM * SS) N K a b c d m (RM * SS) N N (RM * SS) N) {x y z : Nat → Nat → V}
    (hx : Holds SS m a (RM * SS) K x) (hy : Holds SS m b K N y) (hz : Holds SS m c (RM * SS) N z) :
    ∃ m', gemmFull1 SS RM N K r a b c d m = .ok () m' ∧
      Holds SS m' d (RM * SS) N (fun i j => z i j + ∑ k ∈ range K, x i k * y k j) := by
  obtain ⟨m', h1, h2, _⟩ := C71_kernel r h hx hy hz
  refine ⟨m', h1, fun i j hi hj => ?_⟩
  rw [h2 i j hi hj]
  dsimp only
  rw [fmaSum_eq]

/-- **C71** (exact arithmetic), partial tile. -/
theorem C71_kernel_partial_tile_exact [CommRing V] [Arith V] [ExactRing V] {SS RM N K md nd : Nat} {a b c d : MPtr} {m : Mem V} (r : Reg V)
    (hmd : md ≤ RM * SS) (hnd : nd ≤ N) (h : KernelPtrs SS (RM * SS) N K a b c d m (RM * SS) N nd md nd) {x y z : Nat → Nat → V}
    (hx : Holds SS m a md K x) (hy : Holds SS m b K nd y) (hz : Holds SS m c md nd z) :
    ∃ m', gemmPart1 SS RM N K r a b c d md nd m = .ok () m' ∧
      Holds SS m' d md nd (fun i j => z i j + ∑ k ∈ range K, x i k * y k j) := by
  obtain ⟨m', h1, h2, _⟩ := C71_kernel_partial_tile r hmd hnd h hx hy hz
  refine ⟨m', h1, fun i j hi hj => ?_⟩
  rw [h2 i j hi hj]
  dsimp only
  rw [fmaSum_eq]

/-! ### `gemm(A, B, C, D)` -/

/-- the call `gemm(A, B, C, D)` -/
abbrev gemmCall1 [Arith V] (SS : Nat) (A B C D : Container) : Prog V Unit := gemmMat1 SS (A.mat SS) (B.mat SS) (C.mat SS) (D.mat SS)

/-- **C71** (`gemm(A, B, C, D)`, any arithmetic): what is stored, and nothing else changes. -/
theorem C71_gemm_bitwise [Arith V] {SS : Nat} {m : Mem V} {A B C D : Container} (h : GemmArgs SS m A B C D) (hs : GemmSizes A B C D)
    {a b c : Nat → Nat → V} (ha : Contains SS m A a) (hb : Contains SS m B b) (hc : Contains SS m C c) :
    ∃ m', gemmCall1 SS A B C D m = .ok () m' ∧ OnlyElemsChange SS m m' D ∧
      Contains SS m' D (fun i j => Arith.fma Arith.one (c i j) (Arith.mul (fmaSum (fun k => a i k) (fun k => b k j) Arith.zero A.cols) Arith.one)) := by
  obtain ⟨m', h1, h2⟩ := C04_gemm_bitwise Arith.one Arith.one h hs ha hb hc
  obtain ⟨m2, h3, h4⟩ := C02_gemm_frame Arith.one Arith.one h hs
  have e : m2 = m' := by rw [h3] at h1; injection h1
  subst e
  exact ⟨m2, h3, h4, h2⟩

/-- **C71** (`gemm(A, B, C, D)`): in exact arithmetic D becomes `A B + C`. -/
theorem C71_gemm_value [CommRing V] [Arith V] [ExactRing V] {SS : Nat} {m : Mem V} {A B C D : Container} (h : GemmArgs SS m A B C D)
    (hs : GemmSizes A B C D) {a b c : Nat → Nat → V} (ha : Contains SS m A a) (hb : Contains SS m B b) (hc : Contains SS m C c) :
    ∃ m', gemmCall1 SS A B C D m = .ok () m' ∧ Contains SS m' D (fun i j => (∑ k ∈ range A.cols, a i k * b k j) + c i j) := by
  obtain ⟨m', h1, h2⟩ := C01_gemm_value (Arith.one : V) Arith.one h hs ha hb hc
  refine ⟨m', h1, fun i j hi hj => ?_⟩
  rw [h2 i j hi hj]
  dsimp only
  rw [ExactRing.one_eq, one_mul, one_mul]

/-- **C71** (sizes). Inconsistent sizes: `std::invalid_argument`, no access to memory; the sizes that are accepted are exactly the consistent ones. -/
theorem C71_gemm_size_check [Arith V] {SS : Nat} {A B C D : Container} :
    (¬ GemmSizes A B C D → ∀ m : Mem V, gemmCall1 SS A B C D m = .throw .invalidArgument m) ∧
    (GemmSizes A B C D → ∀ m : Mem V, GemmArgs SS m A B C D → ∃ m', gemmCall1 SS A B C D m = .ok () m') := by
  refine ⟨fun hs m => ?_, fun hs m h => ?_⟩
  · unfold gemmCall1 gemmMat1 gemmMat Container.mat
    unfold GemmSizes at hs
    simp only
    by_cases h1 : B.rows ≠ A.cols
    · rw [if_pos h1]; rfl
    · rw [if_neg h1]
      by_cases h2 : C.rows ≠ A.rows ∨ C.cols ≠ B.cols
      · rw [if_pos h2]; rfl
      · rw [if_neg h2]
        by_cases h3 : D.rows ≠ A.rows ∨ D.cols ≠ B.cols
        · rw [if_pos h3]; rfl
        · exfalso; omega
  · obtain ⟨m', h1, _⟩ := C02_gemm_frame (Arith.one : V) Arith.one h hs
    exact ⟨m', h1⟩

/-! ### The documented operand sizes are not sufficient for the partial-tile kernel -/

/-- allocated: a (4 × 0), b (0 × 1), c and d (4 × 1 each, at 16 and 32) -/
def kernelMem : Mem Rat := fun x => if 16 ≤ x ∧ x < 20 ∨ 32 ≤ x ∧ x < 36 then some 1 else none

/-- **C71** (defect). The documentation says that c is md by nd. With exactly that much memory the kernel without alpha and beta reads outside c (columns nd
to N-1), while the one with alpha and beta does not. -/
theorem C71_partial_tile_out_of_bounds_refuted :
    gemmPart1 4 1 4 0 (Reg.reset : Reg Rat) (unpaddedPtr 0 4) (unpaddedPtr 8 4) (unpaddedPtr 16 4) (unpaddedPtr 32 4) 4 1 kernelMem = .ub ∧
    (∃ m', gemmPart 4 1 4 0 (1 : Rat) (unpaddedPtr 0 4) (unpaddedPtr 8 4) 1 (unpaddedPtr 16 4) (unpaddedPtr 32 4) 4 1 kernelMem = .ok () m') := by
  refine ⟨rfl, ?_⟩
  have hz : Holds 4 kernelMem (unpaddedPtr 16 4) 4 1 (fun _ _ => (1 : Rat)) := fun i j hi hj => by
    obtain rfl : j = 0 := by omega
    show kernelMem (16 + (i : Int) + 4 * 0) = some 1
    unfold kernelMem; rw [if_pos (by omega)]
  have hd : Holds 4 kernelMem (unpaddedPtr 32 4) 4 1 (fun _ _ => (1 : Rat)) := fun i j hi hj => by
    obtain rfl : j = 0 := by omega
    show kernelMem (32 + (i : Int) + 4 * 0) = some 1
    unfold kernelMem; rw [if_pos (by omega)]
  have hi : Inj 4 (unpaddedPtr 32 4) 4 1 := fun i j i' j' hi hj hi' hj' e => by
    have e : 32 + (i : Int) + 4 * j = 32 + (i' : Int) + 4 * j' := e
    omega
  obtain ⟨m', h, _⟩ := C71_kernel_alpha_beta_partial_tile (SS := 4) (RM := 1) (N := 4) (K := 0) (md := 4) (nd := 1) (a := unpaddedPtr 0 4)
    (b := unpaddedPtr 8 4) (c := unpaddedPtr 16 4) (d := unpaddedPtr 32 4) (m := kernelMem) (x := fun _ _ => 0) (y := fun _ _ => 0) (z := fun _ _ => 1)
    1 1 (by decide) (by decide) (by decide)
    ⟨by decide, by decide, by decide, by decide, by decide, rfl, rfl, rfl, fun i j _ hj => by omega, fun i j hi _ => by omega,
      (fun i j hi hj => by rw [hz i j hi hj]; rfl), (fun i j hi hj => by rw [hd i j hi hj]; rfl), hi⟩ (fun i j _ hj => by omega) (fun i j hi _ => by omega) hz
  exact ⟨m', h⟩

/-! ### A concrete case: everything is the same matrix -/

/-- `gemm(ker, 4, p, p, p, p)` with 4 × 4 matrices in a column-major array of 16 elements: the matrix is replaced by `P P + P` -/
example : ∃ m', gemmFull1 4 1 4 4 (Reg.reset : Reg Rat) (unpaddedPtr 0 4) (unpaddedPtr 0 4) (unpaddedPtr 0 4) (unpaddedPtr 0 4)
      (fun x => if 0 ≤ x ∧ x < 16 then some 1 else none) = .ok () m' ∧
    Holds 4 m' (unpaddedPtr 0 4) 4 4 (fun _ _ => 1 + ∑ k ∈ range 4, 1 * 1) := by
  have hr : Readable 4 (fun x => if 0 ≤ x ∧ x < 16 then some (1 : Rat) else none) (unpaddedPtr 0 4) 4 4 := fun i j hi hj => by
    show (if 0 ≤ 0 + (i : Int) + 4 * j ∧ 0 + (i : Int) + 4 * j < 16 then some (1 : Rat) else none).isSome = true
    rw [if_pos (by omega)]; rfl
  have hh : Holds 4 (fun x => if 0 ≤ x ∧ x < 16 then some (1 : Rat) else none) (unpaddedPtr 0 4) 4 4 (fun _ _ => 1) := fun i j hi hj => by
    show (if 0 ≤ 0 + (i : Int) + 4 * j ∧ 0 + (i : Int) + 4 * j < 16 then some (1 : Rat) else none) = _
    rw [if_pos (by omega)]
  exact C71_kernel_exact (SS := 4) (RM := 1) (N := 4) (K := 4) Reg.reset ⟨by decide, by decide, by decide, by decide, by decide, rfl, rfl, rfl, hr, hr, hr, hr,
    fun i j i' j' hi hj hi' hj' e => by
      have e : 0 + (i : Int) + 4 * j = 0 + (i' : Int) + 4 * j' := e
      omega⟩ hh hh hh

end Blast
