import Verif.Potrf
import Verif.RealArith
import Verif.Eval
import Verif.Props.Gemm
/- Concrete cases meeting the hypotheses of these theorems: Verif/Cases/Potrf.lean, and the examples in this file. -/
/-
Properties C15-C18: Cholesky factorization.
-/
set_option linter.unusedSectionVars false
namespace Blast
open Finset Prog
variable {V : Type}

/-! ### Arguments -/

/-- What a caller of `potrf(A, L)` ensures: column-major matrix objects that exist; L is A itself or a different
object. -/
structure PotrfArgs (SS : Nat) (m : Mem V) (A L : Container) : Prop where
  ss : 0 < SS
  sA : A.so = .columnMajor
  sL : L.so = .columnMajor
  lA : Live SS m A
  lL : Live SS m L
  d : A = L ∨ Apart SS A L

/-- the sizes required by the library -/
def PotrfSizes (A L : Container) : Prop := A.cols ≤ A.rows ∧ L.rows = A.rows ∧ L.cols = A.cols

instance (A L : Container) : Decidable (PotrfSizes A L) := by unfold PotrfSizes; infer_instance

/-- The sizes for which the library code stays inside the matrices. `SS` is the SIMD width, `TR * SS` the height of the
smallest tile and `KN` the width of the tiles. The library does not check these conditions; what happens outside them
is shown by the `C18_…_ub` theorems. -/
structure PotrfFits (SS TR KN : Nat) (A L : Container) : Prop where
  tr : 0 < TR
  kn : 0 < KN
  knT : KN ≤ TR * SS
  /-- strips start at aligned rows -/
  al : SS ∣ KN ∨ A.cols ≤ KN
  /-- the last tile of each strip ends in the padding rows -/
  rows : ∀ k, k % KN = 0 → k < A.cols → k < A.rows → k + roundUp (A.rows - k) (TR * SS) ≤ roundUp A.rows SS
  /-- the last strip does not exceed the matrix, or the matrix is a DynamicPanelMatrix (whose storage is larger than
  necessary) -/
  cols : A.cols % KN = 0 ∨ (KN ≤ SS ∧ A.kind = .dynPanel ∧ L.kind = .dynPanel)

theorem roundUp_of_mod {n s : Nat} (hs : 0 < s) (h : n % s = 0) : roundUp n s = n := by
  unfold roundUp
  obtain ⟨q, rfl⟩ : ∃ q, n = s * q := ⟨n / s, by have := Nat.div_add_mod n s; omega⟩
  rw [show s * q + s - 1 = (s - 1) + s * q by omega, Nat.add_mul_div_left _ _ hs,
    Nat.div_eq_of_lt (by omega), Nat.zero_add, Nat.mul_comm]

/-- the usual case: tile height = SIMD width = tile width (double on AVX2, and panel matrices except for float on
AVX2) -/
theorem potrfFits_square {SS : Nat} (hSS : 0 < SS) {A L : Container}
    (h : A.cols % SS = 0 ∨ (A.kind = .dynPanel ∧ L.kind = .dynPanel)) : PotrfFits SS 1 SS A L where
  tr := by omega
  kn := hSS
  knT := by omega
  al := Or.inl (Nat.dvd_refl _)
  rows := by
    intro k hk _ hkM
    rw [Nat.one_mul]
    unfold roundUp
    obtain ⟨q, rfl⟩ : ∃ q, k = SS * q := ⟨k / SS, by have := Nat.div_add_mod k SS; omega⟩
    rw [show A.rows + SS - 1 = (A.rows - SS * q + SS - 1) + SS * q by omega, Nat.add_mul_div_left _ _ hSS,
      Nat.add_mul, Nat.mul_comm q]
    omega
  cols := h.imp id (fun h => ⟨Nat.le_refl _, h⟩)

/-- double on NEON (SIMD width 2, tile height 4, tile width 4): the padded number of rows must be a multiple of 4 -/
theorem potrfFits_neon_double {A L : Container} (hc : A.cols % 4 = 0) (hr : A.rows % 4 = 0 ∨ A.rows % 4 = 3) :
    PotrfFits 2 2 4 A L where
  tr := by omega
  kn := by omega
  knT := by omega
  al := Or.inl (by decide)
  rows := by
    intro k hk _ hkM
    unfold roundUp
    omega
  cols := Or.inl hc

/-- the reads beyond the last column of a DynamicPanelMatrix stay inside its storage -/
theorem dynPanel_storage {SS KN : Nat} (hSS : 0 < SS) (hKN : 0 < KN) (hk : KN ≤ SS) {c : Container}
    (h : c.kind = .dynPanel) (hs : c.so = .columnMajor) {i j : Nat} (hi : i < roundUp c.rows SS)
    (hj : j < roundUp c.cols KN) : c.Storage SS (c.addr SS i j) := by
  have hcols : 0 < c.cols := by
    rcases Nat.eq_zero_or_pos c.cols with h0 | h0
    · rw [h0] at hj; unfold roundUp at hj
      rw [Nat.zero_add, Nat.div_eq_of_lt (by omega)] at hj; omega
    · exact h0
  have hru : roundUp c.cols KN ≤ c.cols * SS := by
    unfold roundUp
    refine Nat.mul_le_mul ?_ hk
    refine Nat.le_of_lt_succ ((Nat.div_lt_iff_lt_mul hKN).2 ?_)
    have := Nat.mul_le_mul_left c.cols (show 1 ≤ KN from hKN)
    rw [Nat.succ_mul]; omega
  have hp : c.isPanel = true := by unfold Container.isPanel; rw [h]
  have hcap : c.capacity SS = SS * c.cols * roundUp c.rows SS := by
    unfold Container.capacity Container.spacing
    rw [h, if_pos hp]
    unfold Container.minorSize Container.majorSize
    rw [hs]
    simp only
    rw [nextMultiple_eq_roundUp _ hSS]
  have hidx : c.elementIndex SS i j = i / SS * (SS * c.cols) + i % SS + j * SS := by
    rw [Container.elementIndex_panel hp]
    unfold Container.maj Container.min' Container.minorSize
    rw [hs]
  have hq : roundUp c.rows SS = (c.rows + SS - 1) / SS * SS := rfl
  generalize hqq : (c.rows + SS - 1) / SS = q at hq
  have hiq : i / SS < q := by rw [Nat.div_lt_iff_lt_mul hSS]; omega
  rw [hq] at hcap
  have hml := Nat.mod_lt i hSS
  have hlt : c.elementIndex SS i j < c.capacity SS := by
    rw [hcap, hidx]
    have e1 : j * SS + SS ≤ c.cols * SS * SS := by
      have := Nat.mul_le_mul_right SS (show j + 1 ≤ c.cols * SS by omega)
      rw [Nat.add_mul] at this; omega
    have e2 : i / SS * (SS * c.cols) ≤ (q - 1) * (SS * c.cols) := Nat.mul_le_mul_right _ (Nat.le_sub_one_of_lt hiq)
    have e3 : (q - 1) * (SS * c.cols) + c.cols * SS * SS ≤ SS * c.cols * (q * SS) := by
      obtain ⟨p, rfl⟩ : ∃ p, q = p + 1 := ⟨q - 1, by have : 0 < q := Nat.lt_of_le_of_lt (Nat.zero_le _) hiq; omega⟩
      have : SS * c.cols * ((p + 1) * SS) = p * (SS * c.cols) * SS + c.cols * SS * SS := by ring
      rw [this, Nat.add_sub_cancel]
      exact Nat.add_le_add_right (Nat.le_mul_of_pos_right _ hSS) _
    omega
  unfold Container.Storage Container.addr
  omega

/-- elements and padding rows of a column-major matrix have distinct addresses -/
theorem Container.injPad {SS : Nat} (hSS : 0 < SS) (c : Container) (hs : c.so = .columnMajor) :
    Inj SS (c.mptr SS) (roundUp c.rows SS) c.cols := by
  intro i j i' j' hi hj hi' hj' he
  rw [← addr_eq_mptr, ← addr_eq_mptr] at he
  unfold addr at he
  refine c.elementIndex_inj hSS ?_ ?_ ?_ ?_ (by omega)
  all_goals simp only [Container.maj, Container.majorSize, Container.min', Container.minorSize]
  all_goals rw [hs]
  all_goals simp only
  · rw [nextMultiple_eq_roundUp _ hSS]; exact hi
  · exact hj
  · rw [nextMultiple_eq_roundUp _ hSS]; exact hi'
  · exact hj'

theorem PotrfArgs.pre [Arith V] {SS TR KN : Nat} {m : Mem V} {A L : Container} (h : PotrfArgs SS m A L)
    (hs : PotrfSizes A L) (hf : PotrfFits SS TR KN A L) {W : Nat → Nat → Prop} (hW : ∀ r c, c ≤ r → W r c)
    (hW2 : ∀ r c, W r c → c / KN * KN ≤ r) (hW3 : ∀ r c q, W r c → q ≤ c → W r q) :
    PotrfPre SS TR KN A.rows A.cols (roundUp A.rows SS) W (A.mptr SS) (L.mptr SS) m := by
  obtain ⟨h1, h2, h3⟩ := hs
  have rd : ∀ c : Container, Live SS m c → c.so = .columnMajor → c.rows = A.rows → c.cols = A.cols →
      (A.cols % KN = 0 ∨ (KN ≤ SS ∧ c.kind = .dynPanel)) → ∀ i j : Nat, i < roundUp A.rows SS → j < roundUp A.cols KN →
      (m ((c.mptr SS).addr SS i j)).isSome = true := by
    intro c hl hso hr hc hcol i j hi hj
    rw [← Container.addr_eq_mptr]
    refine hl.alloc _ ?_
    rcases hcol with h0 | ⟨hk, hd⟩
    · refine c.addr_storage_pad h.ss hso (by rw [hr]; exact hi) ?_
      rw [roundUp_of_mod hf.kn h0] at hj; omega
    · exact dynPanel_storage h.ss hf.kn hk hd hso (by rw [hr]; exact hi) (by rw [hc]; exact hj)
  refine ⟨h.ss, hf.tr, hf.kn, hf.knT, h1, self_le_roundUp h.ss, A.mptr_wf h.ss h.lA.align,
    L.mptr_wf h.ss h.lL.align, by rw [Container.mptr_eq]; exact h.sA, by rw [Container.mptr_eq]; exact h.sL,
    hW, hW2, hW3, ?_, ?_, ?_, ?_, ?_, ?_⟩
  · intro k hk hkN
    rcases hf.al with hd | hN
    · exact Nat.mod_eq_zero_of_dvd (Nat.dvd_trans hd (Nat.dvd_of_mod_eq_zero hk))
    · rcases Nat.eq_zero_or_pos k with rfl | h0
      · exact Nat.zero_mod _
      · have := Nat.le_of_dvd h0 (Nat.dvd_of_mod_eq_zero hk); omega
  · intro k x hk hkN hx
    have := hf.rows k hk hkN (by omega)
    have h4 := le_roundUp (n := A.rows - k) (SS := TR * SS) (a := (x + 1) * (TR * SS))
      (Nat.mul_pos hf.tr h.ss) (Nat.mul_mod_left _ _) (by rw [Nat.add_mul]; omega)
    omega
  · intro r c _ hr hc
    exact rd A h.lA h.sA rfl rfl (hf.cols.imp id (fun h => ⟨h.1, h.2.1⟩)) r c hr hc
  · intro r c _ hr hc
    exact rd L h.lL h.sL h2 h3 (hf.cols.imp id (fun h => ⟨h.1, h.2.2⟩)) r c hr hc
  · intro r c r' c' _ hr hc _ hr' hc' he
    exact L.injPad h.ss h.sL r c r' c' (by rw [h2]; exact hr) (by omega) (by rw [h2]; exact hr') (by omega) he
  · intro r c r' c' _ hr hc _ hr' hc' he
    rcases h.d with rfl | hd
    · have := self_le_roundUp (n := A.rows) h.ss
      exact A.injPad h.ss h.sA r c r' c' (by omega) (by omega) (by omega) (by omega) he
    · exfalso
      rw [← Container.addr_eq_mptr, ← Container.addr_eq_mptr] at he
      refine hd _ (A.addr_storage h.ss hr hc) ?_
      rw [he]
      exact L.addr_storage_pad h.ss h.sL (by rw [h2]; exact hr') (by omega)

/-- `potrf(A, L)` for dense matrices: tile width 4 -/
abbrev potrfDenseCall [Arith V] (SS TR : Nat) (A L : Container) : Prog V Unit :=
  potrfDenseMat SS TR (A.mat SS) (L.mat SS)

/-- `potrf(A, L)` for panel matrices -/
abbrev potrfPanelCall [Arith V] (SS KN : Nat) (A L : Container) : Prog V Unit :=
  potrfPanelMat SS KN (A.mat SS) (L.mat SS)

/-- the sizes are checked -/
theorem C15_potrf_dense_size_check [Arith V] {SS TR : Nat} {A L : Container} {m : Mem V} :
    (potrfDenseCall SS TR A L m = .throw .invalidArgument m) ∨ PotrfSizes A L := by
  unfold potrfDenseCall potrfDenseMat Container.mat PotrfSizes
  by_cases h1 : A.cols > A.rows
  · left; simp only [if_pos h1]; rfl
  · by_cases h2 : L.rows ≠ A.rows
    · left; simp only [if_neg h1, if_pos h2]; rfl
    · by_cases h3 : L.cols ≠ A.cols
      · left; simp only [if_neg h1, if_neg h2, if_pos h3]; rfl
      · right; omega

theorem C15_potrf_panel_size_check [Arith V] {SS KN : Nat} {A L : Container} {m : Mem V} :
    (potrfPanelCall SS KN A L m = .throw .invalidArgument m) ∨ PotrfSizes A L := by
  unfold potrfPanelCall potrfPanelMat Container.mat PotrfSizes
  by_cases h1 : A.cols > A.rows
  · left; simp only [if_pos h1]; rfl
  · by_cases h2 : L.rows ≠ A.rows
    · left; simp only [if_neg h1, if_pos h2]; rfl
    · by_cases h3 : L.cols ≠ A.cols
      · left; simp only [if_neg h1, if_neg h2, if_pos h3]; rfl
      · right; omega

theorem potrfDenseCall_spec [Arith V] {SS TR : Nat} {m : Mem V} {A L : Container} (h : PotrfArgs SS m A L)
    (hs : PotrfSizes A L) (hf : PotrfFits SS TR 4 A L) :
    ∃ m', potrfDenseCall SS TR A L m = .ok () m' ∧
      PotrfSpec SS TR 4 A.rows A.cols (roundUp A.rows SS) (fun r c => c ≤ r) (A.mptr SS) (L.mptr SS)
        (Arith.mul Arith.one) m m' := by
  have hp := h.pre hs hf (W := fun r c => c ≤ r) (fun _ _ h => h)
    (fun r c h => Nat.le_trans (Nat.div_mul_le_self c 4) h) (fun r c q h hq => Nat.le_trans hq h)
  obtain ⟨m', h1, h2⟩ := potrfDensePtr_correct hp
  obtain ⟨e1, e2, e3⟩ := hs
  refine ⟨m', ?_, h2⟩
  unfold potrfDenseCall potrfDenseMat Container.mat
  rw [if_neg (by simpa using e1), if_neg (by simpa using e2), if_neg (by simpa using e3)]
  exact h1

theorem potrfPanelCall_spec' [Arith V] {SS KN : Nat} {m : Mem V} {A L : Container} (h : PotrfArgs SS m A L)
    (hs : PotrfSizes A L) (hf : PotrfFits SS 1 KN A L) :
    ∃ m', potrfPanelCall SS KN A L m = .ok () m' ∧
      PotrfSpec SS 1 KN A.rows A.cols (roundUp A.rows SS) (fun r c => c / KN * KN ≤ r) (A.mptr SS) (L.mptr SS)
        id m m' ∧
      ∀ r c : Nat, c / KN * KN ≤ r → r < c → c < A.cols → PotUp SS KN (fun r c => val m' ((L.mptr SS).addr SS r c))
        (fun r c => val m ((A.mptr SS).addr SS r c)) r c := by
  have hp := h.pre hs hf (W := fun r c => c / KN * KN ≤ r)
    (fun r c h => Nat.le_trans (Nat.div_mul_le_self c KN) h) (fun _ _ h => h)
    (fun r c q h hq => Nat.le_trans (Nat.mul_le_mul_right _ (Nat.div_le_div_right hq)) h)
  obtain ⟨m', h1, h2, h3⟩ := potrfPanelPtr_correct' hp
  obtain ⟨e1, e2, e3⟩ := hs
  refine ⟨m', ?_, h2, h3⟩
  unfold potrfPanelCall potrfPanelMat Container.mat
  rw [if_neg (by simpa using e1), if_neg (by simpa using e2), if_neg (by simpa using e3)]
  exact h1

theorem potrfPanelCall_spec [Arith V] {SS KN : Nat} {m : Mem V} {A L : Container} (h : PotrfArgs SS m A L)
    (hs : PotrfSizes A L) (hf : PotrfFits SS 1 KN A L) :
    ∃ m', potrfPanelCall SS KN A L m = .ok () m' ∧
      PotrfSpec SS 1 KN A.rows A.cols (roundUp A.rows SS) (fun r c => c / KN * KN ≤ r) (A.mptr SS) (L.mptr SS)
        id m m' := by
  obtain ⟨m', h1, h2, -⟩ := potrfPanelCall_spec' h hs hf
  exact ⟨m', h1, h2⟩

/-! ### C15: the Cholesky factor -/

/-- in memory `m` the elements of `c` on and below the diagonal are those of `a` -/
def ContainsLower (SS : Nat) (m : Mem V) (c : Container) (a : Nat → Nat → V) : Prop :=
  ∀ i j, j ≤ i → i < c.rows → j < c.cols → m (c.addr SS i j) = some (a i j)

/-- `l` (lower triangular, `M × N`) is the Cholesky factor of the `N × N` matrix given by the lower triangle of `a`, and
for the additional `M - N` rows `l lᵀ = a` holds as well. -/
def IsCholesky [Field V] [LinearOrder V] (M N : Nat) (l a : Nat → Nat → V) : Prop :=
  (∀ k, k < N → 0 < l k k) ∧ ∀ i j, j ≤ i → i < M → j < N → ∑ q ∈ range (j + 1), l i q * l j q = a i j

theorem potS_eq [CommRing V] [Arith V] [ExactRing V] {KN : Nat} (l : Nat → Nat → V) (acc : V) (r c : Nat) :
    potS KN l acc r c = acc - ∑ q ∈ range c, l c q * l r q := by
  unfold potS
  rw [fnmaSum_eq, fmaSum_eq]
  have e : c = c / KN * KN + c % KN := by have := Nat.div_add_mod c KN; rw [Nat.mul_comm] at this; omega
  have e2 : ∑ q ∈ range c, l c q * l r q = ∑ q ∈ range (c / KN * KN), l c q * l r q +
      ∑ t ∈ range (c % KN), l c (c / KN * KN + t) * l r (c / KN * KN + t) := by
    rw [← sum_range_add (fun q => l c q * l r q), ← e]
  rw [e2]
  have e3 : ∑ q ∈ range (c / KN * KN), Arith.mul (Arith.neg Arith.one) (l r q) * l c q =
      - ∑ q ∈ range (c / KN * KN), l c q * l r q := by
    rw [← sum_neg_distrib]
    refine sum_congr rfl (fun q _ => ?_)
    rw [ExactRing.mul_eq, ExactRing.neg_eq, ExactRing.one_eq]; ring
  rw [e3]; ring

theorem PotRec.cholesky [Field V] [LinearOrder V] [IsStrictOrderedRing V] [Arith V] [ExactSqrt V] {T KN M N : Nat}
    (hKN : 0 < KN) (hT : KN ≤ T) (hNM : N ≤ M) {l a : Nat → Nat → V} (hpd : LowerPosDef N a)
    (h : ∀ r c : Nat, c ≤ r → r < M → c < N → PotRec T KN M l a r c) : IsCholesky M N l a := by
  refine cholesky_exact_or hNM hpd (fun i k hki hi hk => ?_)
  have h1 := h i k hki hi hk
  unfold PotRec at h1
  rw [potS_eq, potS_eq] at h1
  by_cases hb : i < k / KN * KN + potHeight T M (k / KN * KN)
  · rw [if_pos hb] at h1
    exact ⟨_, Or.inl rfl, h1⟩
  · rw [if_neg hb] at h1
    refine ⟨_, Or.inr ⟨?_, rfl⟩, h1⟩
    have h2 := Nat.div_add_mod k KN
    have h3 := Nat.mod_lt k hKN
    rw [Nat.mul_comm] at h2
    have h4 : T ≤ potHeight T M (k / KN * KN) := by unfold potHeight; split_ifs <;> omega
    omega

theorem potrf_factor [Field V] [LinearOrder V] [IsStrictOrderedRing V] [Arith V] [ExactSqrt V] {SS TR KN : Nat}
    {m m' : Mem V} {A L : Container} {W : Nat → Nat → Prop} {f : V → V} (hf1 : ∀ x, f x = x)
    (h : PotrfArgs SS m A L) (hs : PotrfSizes A L) (hf : PotrfFits SS TR KN A L)
    {a : Nat → Nat → V} (ha : ContainsLower SS m A a) (hpd : LowerPosDef A.cols a)
    (hp : PotrfSpec SS TR KN A.rows A.cols (roundUp A.rows SS) W (A.mptr SS) (L.mptr SS) f m m') :
    ∃ l, ContainsLower SS m' L l ∧ IsCholesky A.rows A.cols l a := by
  obtain ⟨_, h2, h3⟩ := hp
  obtain ⟨e1, e2, e3⟩ := hs
  refine ⟨fun r c => val m' ((L.mptr SS).addr SS r c), fun i j hji hi hj => ?_, ?_⟩
  · have := h2 _ (h.lL.alloc _ (L.addr_storage h.ss hi hj))
    rw [Option.isSome_iff_exists] at this
    obtain ⟨v, hv⟩ := this
    unfold val
    beta_reduce
    rw [← Container.addr_eq_mptr, hv]; rfl
  · refine PotRec.cholesky hf.kn hf.knT e1 hpd (fun r c hcr hr hc => ?_)
    have := h3 r c hcr hr hc
    refine this.congr (fun _ _ => rfl) (fun _ _ => rfl) ?_ ?_
    · rw [hf1]; unfold val; rw [← Container.addr_eq_mptr, ha r c hcr hr hc]; rfl
    · rw [hf1]; unfold val; rw [← Container.addr_eq_mptr, ha c c (Nat.le_refl _) (by omega) hc]; rfl

/-- **C15** (dense). In exact arithmetic, if the lower triangle of the first `cols(A)` rows of A is that of a positive
definite matrix, then potrf leaves in L the Cholesky factor: positive diagonal, `L Lᵀ = A`. L may be A. -/
theorem C15_potrf_dense_cholesky [Field V] [LinearOrder V] [IsStrictOrderedRing V] [Arith V] [ExactSqrt V]
    {SS TR : Nat} {m : Mem V} {A L : Container} (h : PotrfArgs SS m A L) (hs : PotrfSizes A L)
    (hf : PotrfFits SS TR 4 A L) {a : Nat → Nat → V} (ha : ContainsLower SS m A a) (hpd : LowerPosDef A.cols a) :
    ∃ m', potrfDenseCall SS TR A L m = .ok () m' ∧
      ∃ l, ContainsLower SS m' L l ∧ IsCholesky A.rows A.cols l a := by
  obtain ⟨m', h1, h2⟩ := potrfDenseCall_spec h hs hf
  exact ⟨m', h1, potrf_factor (fun x => by rw [ExactRing.mul_eq, ExactRing.one_eq, one_mul]) h hs hf ha hpd h2⟩

/-- **C15** (panel). -/
theorem C15_potrf_panel_cholesky [Field V] [LinearOrder V] [IsStrictOrderedRing V] [Arith V] [ExactSqrt V]
    {SS KN : Nat} {m : Mem V} {A L : Container} (h : PotrfArgs SS m A L) (hs : PotrfSizes A L)
    (hf : PotrfFits SS 1 KN A L) {a : Nat → Nat → V} (ha : ContainsLower SS m A a) (hpd : LowerPosDef A.cols a) :
    ∃ m', potrfPanelCall SS KN A L m = .ok () m' ∧
      ∃ l, ContainsLower SS m' L l ∧ IsCholesky A.rows A.cols l a := by
  obtain ⟨m', h1, h2⟩ := potrfPanelCall_spec h hs hf
  exact ⟨m', h1, potrf_factor (fun x => rfl) h hs hf ha hpd h2⟩

/-! ### C16, C17: what is changed and what the result depends on -/

/-- the recurrence determines the lower triangle -/
theorem PotRec.unique [Arith V] {T KN M N : Nat} (hKN : 0 < KN) (hT : KN ≤ T) (hNM : N ≤ M)
    {l l' a a' : Nat → Nat → V} (ha : ∀ r c : Nat, c ≤ r → r < M → c < N → a r c = a' r c)
    (h : ∀ r c : Nat, c ≤ r → r < M → c < N → PotRec T KN M l a r c)
    (h' : ∀ r c : Nat, c ≤ r → r < M → c < N → PotRec T KN M l' a' r c) :
    ∀ c r : Nat, c ≤ r → r < M → c < N → l r c = l' r c := by
  intro c
  induction c using Nat.strong_induction_on with
  | _ c ih =>
    intro r hcr hr hc
    have hS : ∀ r, c ≤ r → r < M → potS KN l (a r c) r c = potS KN l' (a' r c) r c := fun r hcr hr =>
      potS_congr (ha r c hcr hr hc) (fun q hq => ih q hq r (by omega) hr (by omega))
        (fun q hq => ih q hq c (by omega) (by omega) (by omega))
    have h2 := Nat.div_add_mod c KN
    have h3 := Nat.mod_lt c hKN
    rw [Nat.mul_comm] at h2
    have h4 : T ≤ potHeight T M (c / KN * KN) := by unfold potHeight; split_ifs <;> omega
    have hd : l c c = l' c c := by
      have e1 := h c c (Nat.le_refl _) (by omega) hc
      have e2 := h' c c (Nat.le_refl _) (by omega) hc
      unfold PotRec at e1 e2
      rw [if_pos (by omega)] at e1 e2
      rw [e1, e2, hS c (Nat.le_refl _) (by omega)]
    have e1 := h r c hcr hr hc
    have e2 := h' r c hcr hr hc
    unfold PotRec at e1 e2
    rw [e1, e2, hS r hcr hr, hS c (Nat.le_refl _) (by omega), hd]

/-- **C16** (frame). potrf on dense matrices changes no memory outside L and no element of L above the diagonal. -/
theorem C16_potrf_dense_frame [Arith V] {SS TR : Nat} {m : Mem V} {A L : Container} (h : PotrfArgs SS m A L)
    (hs : PotrfSizes A L) (hf : PotrfFits SS TR 4 A L) :
    ∃ m', potrfDenseCall SS TR A L m = .ok () m' ∧
      (∀ z, ¬ L.Storage SS z → m' z = m z) ∧
      (∀ i j, i < j → i < L.rows → j < L.cols → m' (L.addr SS i j) = m (L.addr SS i j)) := by
  obtain ⟨m', h1, h2, _⟩ := potrfDenseCall_spec h hs hf
  obtain ⟨e1, e2, e3⟩ := hs
  have hle : ∀ c, potRows 4 A.rows A.cols (roundUp A.rows SS) c ≤ roundUp A.rows SS :=
    fun c => potRows_le (self_le_roundUp h.ss) c
  refine ⟨m', h1, fun z hz => h2 z ?_, fun i j hij hi hj => h2 _ ?_⟩
  · rintro r c _ hc hr rfl
    refine hz ?_
    rw [← Container.addr_eq_mptr]
    exact L.addr_storage_pad h.ss h.sL (by have := hle c; rw [e2]; omega) (by omega)
  · intro r c hcr hc hr he
    rw [Container.addr_eq_mptr] at he
    have := self_le_roundUp (n := L.rows) h.ss
    obtain ⟨rfl, rfl⟩ := L.injPad h.ss h.sL i j r c (by omega) hj (by have := hle c; rw [e2]; omega) (by omega) he
    omega

/-- what two runs have in common: the lower triangle of the result is determined by the lower triangle of A, in any
arithmetic -/
theorem potrf_determined [Arith V] {SS TR KN SS' TR' : Nat} {m n m' n' : Mem V} {A L A' L' : Container}
    {W W' : Nat → Nat → Prop} {f : V → V} (hT : TR * SS = TR' * SS')
    (hs : PotrfSizes A L) (hf : PotrfFits SS TR KN A L) (hs' : PotrfSizes A' L')
    (hr : A'.rows = A.rows) (hc : A'.cols = A.cols)
    (h : PotrfSpec SS TR KN A.rows A.cols (roundUp A.rows SS) W (A.mptr SS) (L.mptr SS) f m m')
    (h' : PotrfSpec SS' TR' KN A'.rows A'.cols (roundUp A'.rows SS') W' (A'.mptr SS') (L'.mptr SS') f n n')
    (lL : Live SS m L) (lL' : Live SS' n L') (hSS : 0 < SS) (hSS' : 0 < SS')
    {a : Nat → Nat → V} (ha : ContainsLower SS m A a) (ha' : ContainsLower SS' n A' a) :
    ∃ l, ContainsLower SS m' L l ∧ ContainsLower SS' n' L' l := by
  obtain ⟨_, h2, h3⟩ := h
  obtain ⟨_, h2', h3'⟩ := h'
  obtain ⟨e1, e2, e3⟩ := hs
  obtain ⟨e1', e2', e3'⟩ := hs'
  have hv : ∀ {S : Nat} {x x' : Mem V} {c : Container}, 0 < S → Live S x c →
      (∀ z, (x z).isSome = true → (x' z).isSome = true) →
      ∀ i j, i < c.rows → j < c.cols → x' (c.addr S i j) = some (val x' ((c.mptr S).addr S i j)) := by
    intro S x x' c hS hl hal i j hi hj
    have := hal _ (hl.alloc _ (c.addr_storage hS hi hj))
    rw [Option.isSome_iff_exists] at this
    obtain ⟨v, hv⟩ := this
    unfold val
    rw [← Container.addr_eq_mptr, hv]; rfl
  refine ⟨fun r c => val m' ((L.mptr SS).addr SS r c), fun i j hji hi hj => hv hSS lL h2 i j hi hj,
    fun i j hji hi hj => ?_⟩
  rw [hv hSS' lL' h2' i j hi hj]
  congr 1
  symm
  refine PotRec.unique (T := TR * SS) (KN := KN) (M := A.rows) (N := A.cols) hf.kn hf.knT e1
    (l := fun r c => val m' ((L.mptr SS).addr SS r c)) (l' := fun r c => val n' ((L'.mptr SS').addr SS' r c))
    (a := fun r c => f (val m ((A.mptr SS).addr SS r c))) (a' := fun r c => f (val n ((A'.mptr SS').addr SS' r c)))
    (fun r c hcr hr' hc' => ?_) h3 ?_ j i hji (by omega) (by omega)
  · congr 1
    unfold val
    rw [← Container.addr_eq_mptr, ← Container.addr_eq_mptr, ha r c hcr hr' hc', ha' r c hcr (by omega) (by omega)]
  · rw [hT, ← hr, ← hc]; exact h3'

/-- **C16** (non-interference). The lower triangle of the result of dense potrf depends only on the lower triangle of A:
not on the elements of A above the diagonal, not on the previous content of L, not on the placement. Holds bit for bit
in any arithmetic. -/
theorem C16_potrf_dense_depends_on_lower [Arith V] {SS TR : Nat} {m n : Mem V} {A L A' L' : Container}
    (h : PotrfArgs SS m A L) (hs : PotrfSizes A L) (hf : PotrfFits SS TR 4 A L)
    (h' : PotrfArgs SS n A' L') (hs' : PotrfSizes A' L') (hf' : PotrfFits SS TR 4 A' L')
    (hr : A'.rows = A.rows) (hc : A'.cols = A.cols) {a : Nat → Nat → V} (ha : ContainsLower SS m A a)
    (ha' : ContainsLower SS n A' a) :
    ∃ m' n' l, potrfDenseCall SS TR A L m = .ok () m' ∧ potrfDenseCall SS TR A' L' n = .ok () n' ∧
      ContainsLower SS m' L l ∧ ContainsLower SS n' L' l := by
  obtain ⟨m', h1, h2⟩ := potrfDenseCall_spec h hs hf
  obtain ⟨n', h1', h2'⟩ := potrfDenseCall_spec h' hs' hf'
  obtain ⟨l, h3, h4⟩ := potrf_determined rfl hs hf hs' hr hc h2 h2' h.lL h'.lL h.ss h.ss ha ha'
  exact ⟨m', n', l, h1, h1', h3, h4⟩

/-- **C17** (frame). potrf on panel matrices changes no memory outside L and no element of L above the blocks of size KN
on the diagonal. -/
theorem C17_potrf_panel_frame [Arith V] {SS KN : Nat} {m : Mem V} {A L : Container} (h : PotrfArgs SS m A L)
    (hs : PotrfSizes A L) (hf : PotrfFits SS 1 KN A L) :
    ∃ m', potrfPanelCall SS KN A L m = .ok () m' ∧
      (∀ z, ¬ L.Storage SS z → m' z = m z) ∧
      (∀ i j, i < j / KN * KN → i < L.rows → j < L.cols → m' (L.addr SS i j) = m (L.addr SS i j)) := by
  obtain ⟨m', h1, h2, _⟩ := potrfPanelCall_spec h hs hf
  obtain ⟨e1, e2, e3⟩ := hs
  have hle : ∀ c, potRows KN A.rows A.cols (roundUp A.rows SS) c ≤ roundUp A.rows SS :=
    fun c => potRows_le (self_le_roundUp h.ss) c
  refine ⟨m', h1, fun z hz => h2 z ?_, fun i j hij hi hj => h2 _ ?_⟩
  · rintro r c _ hc hr rfl
    refine hz ?_
    rw [← Container.addr_eq_mptr]
    exact L.addr_storage_pad h.ss h.sL (by have := hle c; rw [e2]; omega) (by omega)
  · intro r c hcr hc hr he
    rw [Container.addr_eq_mptr] at he
    have := self_le_roundUp (n := L.rows) h.ss
    obtain ⟨rfl, rfl⟩ := L.injPad h.ss h.sL i j r c (by omega) hj (by have := hle c; rw [e2]; omega) (by omega) he
    omega

/-- **C17** (non-interference), as in the dense case. -/
theorem C17_potrf_panel_depends_on_lower [Arith V] {SS KN : Nat} {m n : Mem V} {A L A' L' : Container}
    (h : PotrfArgs SS m A L) (hs : PotrfSizes A L) (hf : PotrfFits SS 1 KN A L)
    (h' : PotrfArgs SS n A' L') (hs' : PotrfSizes A' L') (hf' : PotrfFits SS 1 KN A' L')
    (hr : A'.rows = A.rows) (hc : A'.cols = A.cols) {a : Nat → Nat → V} (ha : ContainsLower SS m A a)
    (ha' : ContainsLower SS n A' a) :
    ∃ m' n' l, potrfPanelCall SS KN A L m = .ok () m' ∧ potrfPanelCall SS KN A' L' n = .ok () n' ∧
      ContainsLower SS m' L l ∧ ContainsLower SS n' L' l := by
  obtain ⟨m', h1, h2⟩ := potrfPanelCall_spec h hs hf
  obtain ⟨n', h1', h2'⟩ := potrfPanelCall_spec h' hs' hf'
  obtain ⟨l, h3, h4⟩ := potrf_determined rfl hs hf hs' hr hc h2 h2' h.lL h'.lL h.ss h.ss ha ha'
  exact ⟨m', n', l, h1, h1', h3, h4⟩

/-- memory of the examples: A is the 2×2 identity at 0, the cells 16.. (where L is placed) contain 7 -/
def potrfMem : Mem Rat := fun z =>
  if z = 0 ∨ z = 3 then some 1 else if 0 ≤ z ∧ z < 16 then some 0 else if 16 ≤ z ∧ z < 32 then some 7 else none

def potrfWitA : Container := ⟨.dynPanel, .columnMajor, 2, 2, 0⟩
def potrfWitL : Container := ⟨.dynPanel, .columnMajor, 2, 2, 16⟩

theorem potrfWit_args : PotrfArgs 2 potrfMem potrfWitA potrfWitL := by
  have al : ∀ z : Int, 0 ≤ z → z < 32 → (potrfMem z).isSome = true := by
    intro z h1 h2; unfold potrfMem; split_ifs <;> first | rfl | omega
  refine ⟨by decide, rfl, rfl, ⟨by decide, fun z hz => al z hz.1 (lt_of_lt_of_le hz.2 (by decide))⟩,
    ⟨by decide, fun z hz => al z (le_trans (by decide) hz.1) (lt_of_lt_of_le hz.2 (by decide))⟩, Or.inr ?_⟩
  intro z h1 h2
  have h1 : (0 : Int) ≤ z ∧ z < 0 + 8 := h1
  have h2 : (16 : Int) ≤ z ∧ z < 16 + 8 := h2
  omega

/-- **C17** (the dense guarantee fails). Panel potrf overwrites elements above the diagonal that lie inside a diagonal
block: factorizing the 2×2 identity replaces `L(0,1) = 7` by 0. -/
theorem C17_potrf_panel_overwrites_upper :
    PotrfArgs 2 potrfMem potrfWitA potrfWitL ∧ PotrfSizes potrfWitA potrfWitL ∧
    PotrfFits 2 1 2 potrfWitA potrfWitL ∧ potrfMem (potrfWitL.addr 2 0 1) = some 7 ∧
    ∃ m', potrfPanelCall 2 2 potrfWitA potrfWitL potrfMem = .ok () m' ∧ m' (potrfWitL.addr 2 0 1) = some 0 := by
  refine ⟨potrfWit_args, by decide, potrfFits_square (by decide) (Or.inl rfl), by decide +kernel, ?_⟩
  refine ok_of_okCell ?_
  decide +kernel

/-! ### C18: memory accesses -/

/-- **C18** (dense). Under `PotrfFits` dense potrf accesses only the storage of A and L, with aligned accesses: it
terminates normally even if nothing else is allocated, with the same factor. -/
theorem C18_potrf_dense_in_bounds [Arith V] {SS TR : Nat} {m : Mem V} {A L : Container} (h : PotrfArgs SS m A L)
    (hs : PotrfSizes A L) (hf : PotrfFits SS TR 4 A L) :
    let S := fun x => A.Storage SS x ∨ L.Storage SS x
    ∃ m' n' l, potrfDenseCall SS TR A L m = .ok () m' ∧ potrfDenseCall SS TR A L (onlyAllocated S m) = .ok () n' ∧
      ContainsLower SS m' L l ∧ ContainsLower SS n' L l := by
  intro S
  have hl : ∀ c : Container, (∀ x, c.Storage SS x → S x) → Live SS m c → Live SS (onlyAllocated S m) c := by
    intro c hc hl
    refine ⟨hl.align, fun x hx => ?_⟩
    rw [onlyAllocated_of (hc x hx)]; exact hl.alloc x hx
  have h' : PotrfArgs SS (onlyAllocated S m) A L :=
    ⟨h.ss, h.sA, h.sL, hl A (fun _ hx => Or.inl hx) h.lA, hl L (fun _ hx => Or.inr hx) h.lL, h.d⟩
  refine C16_potrf_dense_depends_on_lower h hs hf h' hs hf rfl rfl
    (a := fun i j => val m (A.addr SS i j)) (fun i j _ hi hj => h.lA.contains h.ss i j hi hj) (fun i j _ hi hj => ?_)
  rw [onlyAllocated_of (Or.inl (A.addr_storage h.ss hi hj))]
  exact h.lA.contains h.ss i j hi hj

/-- **C18** (panel). -/
theorem C18_potrf_panel_in_bounds [Arith V] {SS KN : Nat} {m : Mem V} {A L : Container} (h : PotrfArgs SS m A L)
    (hs : PotrfSizes A L) (hf : PotrfFits SS 1 KN A L) :
    let S := fun x => A.Storage SS x ∨ L.Storage SS x
    ∃ m' n' l, potrfPanelCall SS KN A L m = .ok () m' ∧ potrfPanelCall SS KN A L (onlyAllocated S m) = .ok () n' ∧
      ContainsLower SS m' L l ∧ ContainsLower SS n' L l := by
  intro S
  have hl : ∀ c : Container, (∀ x, c.Storage SS x → S x) → Live SS m c → Live SS (onlyAllocated S m) c := by
    intro c hc hl
    refine ⟨hl.align, fun x hx => ?_⟩
    rw [onlyAllocated_of (hc x hx)]; exact hl.alloc x hx
  have h' : PotrfArgs SS (onlyAllocated S m) A L :=
    ⟨h.ss, h.sA, h.sL, hl A (fun _ hx => Or.inl hx) h.lA, hl L (fun _ hx => Or.inr hx) h.lL, h.d⟩
  refine C17_potrf_panel_depends_on_lower h hs hf h' hs hf rfl rfl
    (a := fun i j => val m (A.addr SS i j)) (fun i j _ hi hj => h.lA.contains h.ss i j hi hj) (fun i j _ hi hj => ?_)
  rw [onlyAllocated_of (Or.inl (A.addr_storage h.ss hi hj))]
  exact h.lA.contains h.ss i j hi hj

/-- a memory in which the cells `0 … n-1` are allocated and contain 1 -/
def potrfOnes (n : Nat) : Mem Rat := fun z => if 0 ≤ z ∧ z < n then some 1 else none

theorem potrfOnes_live {n SS : Nat} {c : Container} (h0 : c.data = 0) (hn : c.capacity SS ≤ n) :
    Live SS (potrfOnes n) c := by
  refine ⟨by rw [h0]; exact Int.zero_emod _, fun z hz => ?_⟩
  unfold Container.Storage at hz
  rw [h0] at hz
  unfold potrfOnes
  rw [if_pos (by omega)]; rfl

def potrfOne : Container := ⟨.dynDense, .columnMajor, 1, 1, 0⟩
def potrfEight : Container := ⟨.statDense, .columnMajor, 8, 8, 0⟩
def potrfSix : Container := ⟨.statDense, .columnMajor, 6, 4, 0⟩
def potrfOnePanel : Container := ⟨.statPanel, .columnMajor, 1, 1, 0⟩

/-- **C18** (excluded case: number of columns not a multiple of 4). Factorizing a 1×1 dense matrix (double on AVX2: SIMD
width 4) reads the columns 1, 2, 3, outside the storage. -/
theorem C18_potrf_dense_columns_ub :
    PotrfArgs 4 (potrfOnes 4) potrfOne potrfOne ∧ PotrfSizes potrfOne potrfOne ∧
    potrfDenseCall 4 1 potrfOne potrfOne (potrfOnes 4) = .ub := by
  refine ⟨⟨by decide, rfl, rfl, potrfOnes_live rfl (by decide), potrfOnes_live rfl (by decide), Or.inl rfl⟩,
    by decide, ub_of_isUb ?_⟩
  decide +kernel

/-- **C18** (excluded case: SIMD width larger than 4). With SIMD width 8 (float on AVX2) factorizing an 8×8 dense matrix
makes an aligned access to a misaligned address: row 4. -/
theorem C18_potrf_dense_float_ub :
    PotrfArgs 8 (potrfOnes 64) potrfEight potrfEight ∧ PotrfSizes potrfEight potrfEight ∧
    potrfDenseCall 8 1 potrfEight potrfEight (potrfOnes 64) = .ub := by
  refine ⟨⟨by decide, rfl, rfl, potrfOnes_live rfl (by decide), potrfOnes_live rfl (by decide), Or.inl rfl⟩,
    by decide, ub_of_isUb ?_⟩
  decide +kernel

/-- **C18** (excluded case: tile higher than the SIMD width). With SIMD width 2 and tile height 4 (double on NEON)
factorizing a 6×4 dense matrix accesses rows 6 and 7, which the storage does not have. -/
theorem C18_potrf_dense_rows_ub :
    PotrfArgs 2 (potrfOnes 24) potrfSix potrfSix ∧ PotrfSizes potrfSix potrfSix ∧
    potrfDenseCall 2 2 potrfSix potrfSix (potrfOnes 24) = .ub := by
  refine ⟨⟨by decide, rfl, rfl, potrfOnes_live rfl (by decide), potrfOnes_live rfl (by decide), Or.inl rfl⟩,
    by decide, ub_of_isUb ?_⟩
  decide +kernel

/-- **C18** (excluded case: static panel matrix with a number of columns that is not a multiple of KN). -/
theorem C18_potrf_panel_columns_ub :
    PotrfArgs 4 (potrfOnes 4) potrfOnePanel potrfOnePanel ∧ PotrfSizes potrfOnePanel potrfOnePanel ∧
    potrfPanelCall 4 4 potrfOnePanel potrfOnePanel (potrfOnes 4) = .ub := by
  refine ⟨⟨by decide, rfl, rfl, potrfOnes_live rfl (by decide), potrfOnes_live rfl (by decide), Or.inl rfl⟩,
    by decide, ub_of_isUb ?_⟩
  decide +kernel

/-! ### Non-vacuity -/

/-- a positive definite matrix over the reals: the identity of any size -/
theorem identity_posdef (n : Nat) : LowerPosDef n (fun i j => if i = j then (1 : ℝ) else 0) := by
  rintro x ⟨i, hi, hx⟩
  have e : ∑ i ∈ range n, ∑ j ∈ range n, x i * (if max i j = min i j then (1 : ℝ) else 0) * x j =
      ∑ i ∈ range n, x i * x i := by
    refine sum_congr rfl (fun i hi => ?_)
    rw [sum_eq_single i]
    · simp
    · intro j _ hj
      rw [if_neg (by omega)]; ring
    · intro h; exact absurd hi h
  rw [e]
  exact sum_pos' (fun i _ => mul_self_nonneg (x i)) ⟨i, mem_range.2 hi, mul_self_pos.2 hx⟩

/-- memory with the 6×6 identity as a DynamicPanelMatrix with SIMD width 4 -/
noncomputable def potrfDemoMem (c : Container) : Mem ℝ := fun z =>
  open Classical in
  if c.Storage 4 z then some (if ∃ i, i < 6 ∧ z = c.addr 4 i i then 1 else 0) else none

/-- the hypotheses of the C15-C18 theorems hold for a 6×6 matrix factorized in place, which exercises the remainder
strip -/
example : ∃ m', potrfPanelCall 4 4 ⟨.dynPanel, .columnMajor, 6, 6, 0⟩ ⟨.dynPanel, .columnMajor, 6, 6, 0⟩
    (potrfDemoMem ⟨.dynPanel, .columnMajor, 6, 6, 0⟩) = .ok () m' ∧
    ∃ l : Nat → Nat → ℝ, ContainsLower 4 m' ⟨.dynPanel, .columnMajor, 6, 6, 0⟩ l ∧
      IsCholesky 6 6 l (fun i j => if i = j then 1 else 0) := by
  have hl : Live 4 (potrfDemoMem ⟨.dynPanel, .columnMajor, 6, 6, 0⟩) ⟨.dynPanel, .columnMajor, 6, 6, 0⟩ :=
    ⟨rfl, fun z hz => by unfold potrfDemoMem; rw [if_pos hz]; rfl⟩
  refine C15_potrf_panel_cholesky ⟨by decide, rfl, rfl, hl, hl, Or.inl rfl⟩ (by decide)
    (potrfFits_square (by decide) (Or.inr ⟨rfl, rfl⟩)) (fun i j hji hi hj => ?_) (identity_posdef 6)
  unfold potrfDemoMem
  rw [if_pos (Container.addr_storage (by decide) _ hi hj)]
  congr 1
  by_cases hij : i = j
  · subst hij
    rw [if_pos ⟨i, hi, rfl⟩, if_pos rfl]
  · rw [if_neg hij, if_neg]
    rintro ⟨k, hk, he⟩
    have := Container.inj (SS := 4) (by decide) ⟨.dynPanel, .columnMajor, 6, 6, 0⟩ i j k k hi hj hk hk
    rw [← Container.addr_eq_mptr, ← Container.addr_eq_mptr] at this
    have := this he
    omega

end Blast
