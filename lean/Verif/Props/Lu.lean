import Verif.Getrf
import Mathlib.LinearAlgebra.Matrix.ToLinearEquiv
import Verif.Props.Gemm
/- Concrete cases meeting the hypotheses of these theorems: Verif/Cases/Lu.lean, and the examples in this file. -/
/-
Properties C19-C25: LU factorization, row interchanges, iamax.
-/
set_option linter.unusedSectionVars false
namespace Blast
open Finset Prog Reg
variable {V : Type}

/-! ### Specification

`tri .lower true b` is the unit lower trapezoidal, `tri .upper false b` the upper trapezoidal matrix stored in `b`;
`rowSwaps p 0 t a` is `a` after exchanging rows `k` and `p k` for k = 0, …, t-1; `ColsIndep m r a`: the first r columns
of the m-row matrix `a` are linearly independent. -/

/-- `b` holds the factors L and U of `a` with its rows permuted as `p` says: `L * U = P * A` -/
def IsLU [Field V] (m n : Nat) (a b : Nat → Nat → V) (p : Nat → Nat) : Prop :=
  ∀ i j, i < m → j < n →
    ∑ k ∈ range (min m n), tri .lower true b i k * tri .upper false b k j = rowSwaps p 0 (min m n) a i j

/-- what a factorization routine may do: return factors, or throw invalid_argument -/
structure LuOutcome [Field V] [LinearOrder V] (SS m n : Nat) (A : MPtr) (a : Nat → Nat → V) (ip : Nat → Nat)
    (r : Res V (Nat → Nat)) (m0 : Mem V) : Prop where
  /-- on return: factorization, pivot bounds, multipliers bounded by 1, nothing else changed -/
  ret : ∀ p m', r = .ok p m' → ∃ b, Holds SS m' A m n b ∧ IsLU m n a b p ∧
    (∀ k, k < min m n → k ≤ p k ∧ p k < m) ∧ (∀ k, min m n ≤ k → p k = ip k) ∧
    (∀ i k, k < min m n → k < i → i < m → |b i k| ≤ 1) ∧ (∀ k, k < min m n → b k k ≠ 0) ∧
    (∀ y, ¬ Cells SS A m n y → m' y = m0 y)
  /-- it returns for matrices of full rank (leading columns) -/
  full : ColsIndep m (min m n) a → ∃ p m', r = .ok p m'
  /-- it throws for all other matrices -/
  sing : ¬ ColsIndep m (min m n) a → ∃ m', r = .throw .invalidArgument m' ∧ (∀ y, ¬ Cells SS A m n y → m' y = m0 y)

section
variable [Field V] [LinearOrder V] [IsStrictOrderedRing V] [Arith V] [ExactOrd V]

theorem luRun_some_iff {dv : V → V → V} {upd : V → V → V → V} (ho : ExactOps dv upd) {m K : Nat} (hK : K ≤ m)
    (a : Nat → Nat → V) (ip : Nat → Nat) : (∃ r, luRun dv upd m a ip K = some r) ↔ ColsIndep m K a := by
  constructor
  · rintro ⟨⟨b, p⟩, h⟩
    obtain ⟨h1, h2, -, -⟩ := luRun_spec ho K hK h
    exact (colsIndep_rowSwaps hK (fun q hq => (h2 q hq).2) a).1 (h1.indep hK)
  · intro h
    cases hr : luRun dv upd m a ip K with
    | some r => exact ⟨r, rfl⟩
    | none =>
      obtain ⟨k, a', p', hk, h1, h2⟩ := luRun_none_iff.1 hr
      obtain ⟨i1, i2, -, -⟩ := luRun_spec ho k (by omega) h1
      have := i1.dep (luStep_none h2)
      exact absurd ((colsIndep_rowSwaps (by omega) (fun q hq => (i2 q hq).2) a).2 (h.le (by omega))) this

theorem luOutcome_of {dv : V → V → V} {upd : V → V → V → V} (ho : ExactOps dv upd) {SS m n : Nat} {A : MPtr}
    {a : Nat → Nat → V} {ip : Nat → Nat} {m0 : Mem V} {p : Prog V (Nat → Nat)}
    (h : RunsE p m0 (fun P mem' => ∃ b, luRun dv upd m a ip (min m n) = some (b, P) ∧ MatIn SS m n A m0 mem' b)
      (fun e mem' => e = .invalidArgument ∧ luRun dv upd m a ip (min m n) = none ∧
        ∀ y, ¬ Cells SS A m n y → mem' y = m0 y)) :
    LuOutcome SS m n A a ip (p m0) m0 := by
  have hiff := luRun_some_iff ho (Nat.min_le_left m n) a ip
  rcases h with ⟨P, mem', h1, b, h2, h3⟩ | ⟨e, mem', h1, rfl, h2, h3⟩
  · have hind := hiff.1 ⟨_, h2⟩
    refine ⟨fun p m' hr => ?_, fun _ => ⟨P, mem', h1⟩, fun hn => absurd hind hn⟩
    rw [h1] at hr
    injection hr with e1 e2
    subst e1 e2
    obtain ⟨i1, i2, i3, i4⟩ := luRun_spec ho (min m n) (Nat.min_le_left m n) h2
    refine ⟨b, h3.holds, ?_, i2, i3, i4, i1.nz, h3.frame⟩
    intro i j hi hj
    rw [i1.eq i j hi, if_neg (by omega), add_zero]
  · have hn : ¬ ColsIndep m (min m n) a := fun hc => by
      obtain ⟨r, hr⟩ := hiff.2 hc
      rw [h2] at hr; simp at hr
    refine ⟨fun p m' hr => ?_, fun hc => absurd hc hn, fun _ => ⟨mem', h1, h3⟩⟩
    rw [h1] at hr; simp at hr

/-- outcome of column-major getf2 -/
theorem getf2_outcome {SS TR m n : Nat} {A : MPtr} {m0 : Mem V} (hp : LuPre SS TR m n A m0) {a : Nat → Nat → V}
    (h : Holds SS m0 A m n a) (ip : Nat → Nat) : LuOutcome SS m n A a ip (getf2Ptr SS TR m n A ip m0) m0 :=
  luOutcome_of exactOps_col ((runs_getf2Ptr hp h ip).mono (fun _ _ h => h)
    (fun _ _ h => ⟨h.1, luRun_none_iff.2 h.2.1, h.2.2⟩))

/-- outcome of row-major getf2 -/
theorem getf2Row_outcome {SS : Nat} (hSS : 0 < SS) {dv : V → V → V} (hdv : ∀ x y, y ≠ 0 → dv x y = x / y) {A : Mat}
    (hd : A.p.panel = false) {m0 : Mem V} (hinj : Inj SS A.p A.rows A.cols) {a : Nat → Nat → V}
    (h : Holds SS m0 A.p A.rows A.cols a) (ip : Nat → Nat) :
    LuOutcome SS A.rows A.cols A.p a ip (getf2Row SS dv A ip m0) m0 :=
  luOutcome_of (exactOps_row hdv) ((runs_getf2Row hSS dv hd hinj h ip).mono (fun _ _ h => h)
    (fun _ _ h => ⟨h.1, luRun_none_iff.2 h.2.1, h.2.2⟩))

/-- outcome of column-major getrf -/
theorem getrf_outcome {SS TR m n : Nat} {A : MPtr} {m0 : Mem V} (hp : GetrfPre SS TR m n A m0) {a : Nat → Nat → V}
    (h : Holds SS m0 A m n a) (ip : Nat → Nat) : LuOutcome SS m n A a ip (getrfPtr SS TR m n A ip m0) m0 :=
  luOutcome_of exactOps_col (runs_getrfPtr hp ip h)

/-! ### Matrices with padded storage (the layout of DynamicMatrix / StaticMatrix), tile size = SIMD width -/

omit [Field V] [LinearOrder V] [IsStrictOrderedRing V] [ExactOrd V] in
theorem LuPre.of_live {SS : Nat} (hSS : 0 < SS) {m0 : Mem V} {A : Container} (hd : A.isPanel = false)
    (hs : A.so = .columnMajor) (hl : Live SS m0 A) : GetrfPre SS 1 A.rows A.cols (A.mptr SS) m0 := by
  refine ⟨⟨hSS, by omega, ?_, ?_, A.inj hSS, ?_⟩, A.mptr_wf hSS hl.align, hl.readablePad hSS hs⟩
  · rw [Container.mptr_eq]; exact hd
  · rw [Container.mptr_eq]; exact hs
  · intro k i h1 h2 h3
    rw [Nat.one_mul] at h3
    rw [← Container.addr_eq_mptr]
    apply hl.alloc
    have hi : k + 1 + i < A.rows + SS := by
      have : roundUp (A.rows - k - 1) SS < A.rows - k - 1 + SS := by
        unfold roundUp
        have := Nat.div_mul_le_self (A.rows - k - 1 + SS - 1) SS
        omega
      omega
    have hsp : A.spacing SS = nextMultiple A.rows SS := by
      unfold Container.spacing Container.majorSize; rw [hd, hs]; rfl
    have hge : A.rows ≤ A.spacing SS := by
      rw [hsp]; unfold nextMultiple; omega
    have hgeSS : SS ≤ A.spacing SS := by
      rw [hsp, nextMultiple_eq_roundUp _ hSS]
      exact le_roundUp hSS (Nat.mod_self SS) (by omega)
    have hidx : A.elementIndex SS (k + 1 + i) k = k + 1 + i + k * A.spacing SS := by
      unfold Container.elementIndex; rw [hd, hs]; rfl
    have hcap : A.capacity SS = A.spacing SS * A.cols := by
      unfold Container.capacity Container.minorSize
      rw [hs]
      cases hk : A.kind <;> simp [hk, Container.isPanel] at hd ⊢
    have hmul : A.spacing SS * (k + 2) ≤ A.spacing SS * A.cols := Nat.mul_le_mul_left _ (by omega)
    have hexp : A.spacing SS * (k + 2) = k * A.spacing SS + 2 * A.spacing SS := by ring
    unfold Container.Storage Container.addr
    rw [hidx, hcap]
    generalize A.spacing SS * A.cols = cap at *
    generalize k * A.spacing SS = ks at *
    generalize A.spacing SS = sp at *
    push_cast
    omega

/-! ### C19 -/

/-- **C19** (column-major). If `getf2(m, n, A, ipiv)` returns, then the overwritten matrix holds factors with
`L * U = P * A`, where P are the recorded row interchanges; only elements of A change, and only `ipiv[0..min(m,n)-1]`.
For all sizes and values, any dense column-major pointer, any tile and SIMD width (`LuPre` states which cells a SIMD
load may touch). -/
theorem C19_getf2_factorizes {SS TR m n : Nat} {A : MPtr} {m0 : Mem V} (hp : LuPre SS TR m n A m0) {a : Nat → Nat → V}
    (h : Holds SS m0 A m n a) (ip : Nat → Nat) {p : Nat → Nat} {m' : Mem V}
    (hr : getf2Ptr SS TR m n A ip m0 = .ok p m') :
    ∃ b, Holds SS m' A m n b ∧ IsLU m n a b p ∧ (∀ k, min m n ≤ k → p k = ip k) ∧
      (∀ y, ¬ Cells SS A m n y → m' y = m0 y) := by
  obtain ⟨b, h1, h2, -, h4, -, -, h6⟩ := (getf2_outcome hp h ip).ret p m' hr
  exact ⟨b, h1, h2, h4, h6⟩

/-- **C19** (row-major). -/
theorem C19_getf2_row_major_factorizes {SS : Nat} (hSS : 0 < SS) {dv : V → V → V} (hdv : ∀ x y, y ≠ 0 → dv x y = x / y)
    {A : Mat} (hd : A.p.panel = false) {m0 : Mem V} (hinj : Inj SS A.p A.rows A.cols) {a : Nat → Nat → V}
    (h : Holds SS m0 A.p A.rows A.cols a) (ip : Nat → Nat) {p : Nat → Nat} {m' : Mem V}
    (hr : getf2Row SS dv A ip m0 = .ok p m') :
    ∃ b, Holds SS m' A.p A.rows A.cols b ∧ IsLU A.rows A.cols a b p ∧ (∀ k, min A.rows A.cols ≤ k → p k = ip k) ∧
      (∀ y, ¬ Cells SS A.p A.rows A.cols y → m' y = m0 y) := by
  obtain ⟨b, h1, h2, -, h4, -, -, h6⟩ := (getf2Row_outcome hSS hdv hd hinj h ip).ret p m' hr
  exact ⟨b, h1, h2, h4, h6⟩

/-- **C19** for matrices with the padded layout of DynamicMatrix/StaticMatrix (tile size = SIMD width): the assumptions
of `C19_getf2_factorizes` hold, nothing outside the storage of A is accessed. -/
theorem C19_getf2_padded {SS : Nat} (hSS : 0 < SS) {m0 : Mem V} {A : Container} (hd : A.isPanel = false)
    (hs : A.so = .columnMajor) (hl : Live SS m0 A) {a : Nat → Nat → V} (h : Contains SS m0 A a) (ip : Nat → Nat)
    {p : Nat → Nat} {m' : Mem V} (hr : getf2Ptr SS 1 A.rows A.cols (A.mptr SS) ip m0 = .ok p m') :
    ∃ b, Contains SS m' A b ∧ IsLU A.rows A.cols a b p ∧ OnlyElemsChange SS m0 m' A := by
  obtain ⟨b, h1, h2, -, h4⟩ := C19_getf2_factorizes (LuPre.of_live hSS hd hs hl).toLuPre h.holds ip hr
  refine ⟨b, fun i j hi hj => ?_, h2, fun y hy => h4 y (fun hc => hy ((cells_iff A y).1 hc))⟩
  rw [Container.addr_eq_mptr]; exact h1 i j hi hj

/-! ### C20 -/

/-- **C20** (getf2, column-major): pivot indices are in range and all multipliers are at most 1 in absolute value. -/
theorem C20_getf2_pivot_bounds {SS TR m n : Nat} {A : MPtr} {m0 : Mem V} (hp : LuPre SS TR m n A m0) {a : Nat → Nat → V}
    (h : Holds SS m0 A m n a) (ip : Nat → Nat) {p : Nat → Nat} {m' : Mem V}
    (hr : getf2Ptr SS TR m n A ip m0 = .ok p m') :
    (∀ k, k < min m n → k ≤ p k ∧ p k < m) ∧
      (∀ i k, k < min m n → k < i → i < m → ∃ v, m' (A.addr SS i k) = some v ∧ |v| ≤ 1) := by
  obtain ⟨b, h1, -, h3, -, h5, -⟩ := (getf2_outcome hp h ip).ret p m' hr
  exact ⟨h3, fun i k hk hki him => ⟨b i k, h1 i k him (by omega), h5 i k hk hki him⟩⟩

/-- **C20** (getf2, row-major). -/
theorem C20_getf2_row_major_pivot_bounds {SS : Nat} (hSS : 0 < SS) {dv : V → V → V}
    (hdv : ∀ x y, y ≠ 0 → dv x y = x / y) {A : Mat} (hd : A.p.panel = false) {m0 : Mem V}
    (hinj : Inj SS A.p A.rows A.cols) {a : Nat → Nat → V} (h : Holds SS m0 A.p A.rows A.cols a) (ip : Nat → Nat)
    {p : Nat → Nat} {m' : Mem V} (hr : getf2Row SS dv A ip m0 = .ok p m') :
    (∀ k, k < min A.rows A.cols → k ≤ p k ∧ p k < A.rows) ∧
      (∀ i k, k < min A.rows A.cols → k < i → i < A.rows → ∃ v, m' (A.p.addr SS i k) = some v ∧ |v| ≤ 1) := by
  obtain ⟨b, h1, -, h3, -, h5, -⟩ := (getf2Row_outcome hSS hdv hd hinj h ip).ret p m' hr
  exact ⟨h3, fun i k hk hki him => ⟨b i k, h1 i k him (by omega), h5 i k hk hki him⟩⟩

/-- **C20** (getrf, column-major). -/
theorem C20_getrf_pivot_bounds {SS TR m n : Nat} {A : MPtr} {m0 : Mem V} (hp : GetrfPre SS TR m n A m0)
    {a : Nat → Nat → V} (h : Holds SS m0 A m n a) (ip : Nat → Nat) {p : Nat → Nat} {m' : Mem V}
    (hr : getrfPtr SS TR m n A ip m0 = .ok p m') :
    (∀ k, k < min m n → k ≤ p k ∧ p k < m) ∧
      (∀ i k, k < min m n → k < i → i < m → ∃ v, m' (A.addr SS i k) = some v ∧ |v| ≤ 1) := by
  obtain ⟨b, h1, -, h3, -, h5, -⟩ := (getrf_outcome hp h ip).ret p m' hr
  exact ⟨h3, fun i k hk hki him => ⟨b i k, h1 i k him (by omega), h5 i k hk hki him⟩⟩

/-! ### C21 -/

/-- independence of the columns of a square matrix is invertibility -/
theorem colsIndep_iff_det {n : Nat} (a : Nat → Nat → V) :
    ColsIndep n n a ↔ (Matrix.of (fun i j : Fin n => a i j)).det ≠ 0 := by
  have hsum : ∀ (f : Nat → V), ∑ j ∈ range n, f j = ∑ j : Fin n, f j := fun f => (Fin.sum_univ_eq_sum_range f n).symm
  rw [Ne, ← Matrix.exists_mulVec_eq_zero_iff, not_exists]
  constructor
  · rintro h v ⟨hv, he⟩
    apply hv
    have := h (fun j => if hj : j < n then v ⟨j, hj⟩ else 0) (fun i hi => ?_)
    · funext j
      have := this j j.2
      simpa using this
    · rw [hsum]
      have := congrFun he ⟨i, hi⟩
      simpa [Matrix.mulVec, dotProduct] using this
  · intro h x hx j hj
    by_contra hne
    refine h (fun j => x j) ⟨fun he => hne (congrFun he ⟨j, hj⟩), ?_⟩
    funext i
    have := hx i i.2
    rw [hsum] at this
    simpa [Matrix.mulVec, dotProduct] using this

/-- **C21** (column-major). getf2 returns iff the first min(m,n) columns are linearly independent, otherwise it throws
std::invalid_argument. (The arithmetic is only assumed exact for division by nonzero numbers, so the result does not
depend on any division by zero.) -/
theorem C21_getf2_singular {SS TR m n : Nat} {A : MPtr} {m0 : Mem V} (hp : LuPre SS TR m n A m0) {a : Nat → Nat → V}
    (h : Holds SS m0 A m n a) (ip : Nat → Nat) :
    (ColsIndep m (min m n) a ∧ ∃ p m', getf2Ptr SS TR m n A ip m0 = .ok p m') ∨
    (¬ ColsIndep m (min m n) a ∧ ∃ m', getf2Ptr SS TR m n A ip m0 = .throw .invalidArgument m' ∧
      (∀ y, ¬ Cells SS A m n y → m' y = m0 y)) := by
  have := getf2_outcome hp h ip
  by_cases hc : ColsIndep m (min m n) a
  · exact Or.inl ⟨hc, this.full hc⟩
  · exact Or.inr ⟨hc, this.sing hc⟩

/-- **C21** (square matrices): getf2 returns iff the determinant is not zero. -/
theorem C21_getf2_returns_iff_invertible {SS TR n : Nat} {A : MPtr} {m0 : Mem V} (hp : LuPre SS TR n n A m0)
    {a : Nat → Nat → V} (h : Holds SS m0 A n n a) (ip : Nat → Nat) :
    (∃ p m', getf2Ptr SS TR n n A ip m0 = .ok p m') ↔ (Matrix.of (fun i j : Fin n => a i j)).det ≠ 0 := by
  rw [← colsIndep_iff_det]
  rcases C21_getf2_singular hp h ip with ⟨h1, h2⟩ | ⟨h1, m', h2, -⟩
  · rw [Nat.min_self] at h1; exact ⟨fun _ => h1, fun _ => h2⟩
  · rw [Nat.min_self] at h1
    exact ⟨fun ⟨p, m'', e⟩ => by rw [h2] at e; simp at e, fun h => absurd h h1⟩

/-- **C21** (row-major). -/
theorem C21_getf2_row_major_singular {SS : Nat} (hSS : 0 < SS) {dv : V → V → V} (hdv : ∀ x y, y ≠ 0 → dv x y = x / y)
    {A : Mat} (hd : A.p.panel = false) {m0 : Mem V} (hinj : Inj SS A.p A.rows A.cols) {a : Nat → Nat → V}
    (h : Holds SS m0 A.p A.rows A.cols a) (ip : Nat → Nat) :
    (ColsIndep A.rows (min A.rows A.cols) a ∧ ∃ p m', getf2Row SS dv A ip m0 = .ok p m') ∨
    (¬ ColsIndep A.rows (min A.rows A.cols) a ∧ ∃ m', getf2Row SS dv A ip m0 = .throw .invalidArgument m' ∧
      (∀ y, ¬ Cells SS A.p A.rows A.cols y → m' y = m0 y)) := by
  have := getf2Row_outcome hSS hdv hd hinj h ip
  by_cases hc : ColsIndep A.rows (min A.rows A.cols) a
  · exact Or.inl ⟨hc, this.full hc⟩
  · exact Or.inr ⟨hc, this.sing hc⟩

/-- **C21** (getrf, column-major). -/
theorem C21_getrf_singular {SS TR m n : Nat} {A : MPtr} {m0 : Mem V} (hp : GetrfPre SS TR m n A m0) {a : Nat → Nat → V}
    (h : Holds SS m0 A m n a) (ip : Nat → Nat) :
    (ColsIndep m (min m n) a ∧ ∃ p m', getrfPtr SS TR m n A ip m0 = .ok p m') ∨
    (¬ ColsIndep m (min m n) a ∧ ∃ m', getrfPtr SS TR m n A ip m0 = .throw .invalidArgument m' ∧
      (∀ y, ¬ Cells SS A m n y → m' y = m0 y)) := by
  have := getrf_outcome hp h ip
  by_cases hc : ColsIndep m (min m n) a
  · exact Or.inl ⟨hc, this.full hc⟩
  · exact Or.inr ⟨hc, this.sing hc⟩

/-! ### C22 -/

/-- **C22**. If column-major getrf returns, the overwritten matrix holds factors with `L * U = P * A` for the recorded
(global) row interchanges; only elements of A and `ipiv[0..min(m,n)-1]` change. -/
theorem C22_getrf_factorizes {SS TR m n : Nat} {A : MPtr} {m0 : Mem V} (hp : GetrfPre SS TR m n A m0) {a : Nat → Nat → V}
    (h : Holds SS m0 A m n a) (ip : Nat → Nat) {p : Nat → Nat} {m' : Mem V}
    (hr : getrfPtr SS TR m n A ip m0 = .ok p m') :
    ∃ b, Holds SS m' A m n b ∧ IsLU m n a b p ∧ (∀ k, min m n ≤ k → p k = ip k) ∧
      (∀ y, ¬ Cells SS A m n y → m' y = m0 y) := by
  obtain ⟨b, h1, h2, -, h4, -, -, h6⟩ := (getrf_outcome hp h ip).ret p m' hr
  exact ⟨b, h1, h2, h4, h6⟩

/-- **C22** (same result as the unblocked algorithm). On equal matrices - stored anywhere, with any block size - getrf
and getf2 either both throw or both return, and then with the same pivot indices and the same factors. -/
theorem C22_getrf_equals_getf2 {SS TR SS' TR' m n : Nat} {A A' : MPtr} {m0 m0' : Mem V} (hp : GetrfPre SS TR m n A m0)
    (hp' : LuPre SS' TR' m n A' m0') {a : Nat → Nat → V} (h : Holds SS m0 A m n a) (h' : Holds SS' m0' A' m n a)
    (ip : Nat → Nat) :
    (∃ p b m' m'', getrfPtr SS TR m n A ip m0 = .ok p m' ∧ getf2Ptr SS' TR' m n A' ip m0' = .ok p m'' ∧
      Holds SS m' A m n b ∧ Holds SS' m'' A' m n b) ∨
    (∃ m' m'', getrfPtr SS TR m n A ip m0 = .throw .invalidArgument m' ∧
      getf2Ptr SS' TR' m n A' ip m0' = .throw .invalidArgument m'') := by
  rcases runs_getrfPtr hp ip h with ⟨p, m', e1, b, e2, e3⟩ | ⟨e, m', e1, rfl, e2, -⟩
  · rcases runs_getf2Ptr hp' h' ip with ⟨p', m'', f1, b', f2, f3⟩ | ⟨e, m'', f1, rfl, f2, -⟩
    · rw [e2] at f2
      simp only [Option.some.injEq, Prod.mk.injEq] at f2
      obtain ⟨rfl, rfl⟩ := f2
      exact Or.inl ⟨p, b, m', m'', e1, f1, e3.holds, f3.holds⟩
    · rw [luRun_none_iff.2 f2] at e2; simp at e2
  · rcases runs_getf2Ptr hp' h' ip with ⟨p', m'', f1, b', f2, f3⟩ | ⟨e, m'', f1, rfl, f2, -⟩
    · rw [e2] at f2; simp at f2
    · exact Or.inr ⟨m', m'', e1, f1⟩

/-- **C22** for matrices with the padded layout of DynamicMatrix/StaticMatrix (block size = tile size = SIMD width). -/
theorem C22_getrf_padded {SS : Nat} (hSS : 0 < SS) {m0 : Mem V} {A : Container} (hd : A.isPanel = false)
    (hs : A.so = .columnMajor) (hl : Live SS m0 A) {a : Nat → Nat → V} (h : Contains SS m0 A a) (ip : Nat → Nat) :
    (ColsIndep A.rows (min A.rows A.cols) a ∧ ∃ p m' b, getrfPtr SS 1 A.rows A.cols (A.mptr SS) ip m0 = .ok p m' ∧
      Contains SS m' A b ∧ IsLU A.rows A.cols a b p ∧ OnlyElemsChange SS m0 m' A) ∨
    (¬ ColsIndep A.rows (min A.rows A.cols) a ∧ ∃ m', getrfPtr SS 1 A.rows A.cols (A.mptr SS) ip m0 =
      .throw .invalidArgument m' ∧ OnlyElemsChange SS m0 m' A) := by
  have hp := LuPre.of_live hSS hd hs hl
  have hc : ∀ {m' : Mem V}, (∀ y, ¬ Cells SS (A.mptr SS) A.rows A.cols y → m' y = m0 y) → OnlyElemsChange SS m0 m' A :=
    fun h y hy => h y (fun hc => hy ((cells_iff A y).1 hc))
  rcases C21_getrf_singular hp h.holds ip with ⟨h1, p, m', h2⟩ | ⟨h1, m', h2, h3⟩
  · obtain ⟨b, e1, e2, -, e4⟩ := C22_getrf_factorizes hp h.holds ip h2
    refine Or.inl ⟨h1, p, m', b, h2, fun i j hi hj => ?_, e2, hc e4⟩
    rw [Container.addr_eq_mptr]; exact e1 i j hi hj
  · exact Or.inr ⟨h1, m', h2, hc h3⟩

end

/-! ### C23: row-major getrf -/

section
variable [Arith V]

/-- the update of an element by row-major getrf -/
def updSub (l u a : V) : V := Arith.sub a (Arith.mul l u)

/-- elimination without pivoting -/
def elimRun (dv : V → V → V) (a : Nat → Nat → V) : Nat → Nat → Nat → V
  | 0 => a
  | k + 1 => elim dv updSub k (elimRun dv a k)

theorem runs_updBlock {SS m n k : Nat} {A : MPtr} (hinj : Inj SS A m n) {m0 mem : Mem V}
    {a : Nat → Nat → V} (h : MatIn SS m n A m0 mem a) (hkm : k < m) (hkn : k < n) :
    Runs (forFrom (k + 1) n (fun j => forFrom (k + 1) m (fun i => do
      let x ← A.get SS i j
      let l ← A.get SS i k
      let u ← A.get SS k j
      A.set SS i j (Arith.sub x (Arith.mul l u))))) mem (fun _ mem' =>
        MatIn SS m n A m0 mem' (fun i j => if k < i ∧ k < j then updSub (a i k) (a k j) (a i j) else a i j)) := by
  refine (runs_forFrom (by omega) (fun t mem' => MatIn SS m n A m0 mem' (fun i j =>
    if k < i ∧ k < j ∧ j < t then updSub (a i k) (a k j) (a i j) else a i j)) ?_ ?_).mono ?_
  · exact h.congr (fun i j hi hj => by rw [if_neg (by omega)])
  · intro j mem1 hj1 hj2 h1
    refine (runs_forFrom (by omega) (fun t mem' => MatIn SS m n A m0 mem' (fun i' j' =>
      if k < i' ∧ k < j' ∧ (j' < j ∨ (j' = j ∧ i' < t)) then updSub (a i' k) (a k j') (a i' j') else a i' j')) ?_ ?_).mono ?_
    · refine h1.congr (fun i' j' hi hj => ?_)
      by_cases e : k < i' ∧ k < j' ∧ j' < j
      · rw [if_pos e, if_pos (by omega)]
      · rw [if_neg e, if_neg (by omega)]
    · intro i mem2 hi1 hi2 h2
      have e1 := h2.holds i j hi2 hj2
      have e2 := h2.holds i k hi2 hkn
      have e3 := h2.holds k j hkm hj2
      rw [if_neg (by omega)] at e1 e2 e3
      refine Reads.bind_runs (reads_read e1) (Reads.bind_runs (reads_read e2) (Reads.bind_runs (reads_read e3) ?_))
      refine ⟨(), _, write_ok (by rw [e1]; rfl), ?_⟩
      refine (h2.write hinj hi2 hj2 _).congr (fun i' j' hi' hj' => ?_)
      by_cases e : i' = i ∧ j' = j
      · obtain ⟨rfl, rfl⟩ := e
        rw [if_pos ⟨rfl, rfl⟩, if_pos (by omega)]; rfl
      · rw [if_neg e]
        by_cases e2 : k < i' ∧ k < j' ∧ (j' < j ∨ j' = j ∧ i' < i)
        · rw [if_pos e2, if_pos (by omega)]
        · rw [if_neg e2, if_neg (by omega)]
    · intro _ mem2 h2
      refine h2.congr (fun i' j' hi hj => ?_)
      by_cases e : k < i' ∧ k < j' ∧ j' < j + 1
      · rw [if_pos e, if_pos (by omega)]
      · rw [if_neg e, if_neg (by omega)]
  · intro _ mem' h'
    refine h'.congr (fun i j hi hj => ?_)
    by_cases e : k < i ∧ k < j
    · rw [if_pos e, if_pos (by omega)]
    · rw [if_neg e, if_neg (by omega)]

/-- Row-major getrf always returns; it performs elimination without interchanges. -/
theorem runs_getrfRow {SS : Nat} (dv : V → V → V) {A : Mat} {m0 : Mem V}
    (hinj : Inj SS A.p A.rows A.cols) {a : Nat → Nat → V} (h : Holds SS m0 A.p A.rows A.cols a) (ipiv : Nat → Nat) :
    Runs (getrfRow SS dv A ipiv) m0 (fun p mem' => MatIn SS A.rows A.cols A.p m0 mem' (elimRun dv a (min A.rows A.cols)) ∧
      p = fun k => if k < min A.rows A.cols then k else ipiv k) := by
  have key : ∀ K, K ≤ min A.rows A.cols → Runs (foldN K (fun k ipiv => do
      let d ← A.p.get SS k k
      forFrom (k + 1) A.rows (fun i => do
        let x ← A.p.get SS i k
        A.p.set SS i k (dv x d))
      forFrom (k + 1) A.cols (fun j => forFrom (k + 1) A.rows (fun i => do
        let x ← A.p.get SS i j
        let l ← A.p.get SS i k
        let u ← A.p.get SS k j
        A.p.set SS i j (Arith.sub x (Arith.mul l u))))
      pure (setAt ipiv k k)) ipiv) m0 (fun p mem' => MatIn SS A.rows A.cols A.p m0 mem' (elimRun dv a K) ∧
        p = fun k => if k < K then k else ipiv k) := by
    intro K
    induction K with
    | zero => intro _; exact ⟨_, _, rfl, MatIn.of_holds h, rfl⟩
    | succ K ih =>
      intro hK
      refine Runs.bind (ih (by omega)) ?_
      rintro p mem1 ⟨h1, rfl⟩
      refine Reads.bind_runs (reads_read (h1.holds K K (by omega) (by omega))) ?_
      refine Runs.bind (runs_divCol' hinj dv _ h1 (by omega) (by omega)) (fun _ mem2 h2 => ?_)
      refine Runs.bind (runs_updBlock hinj h2 (by omega) (by omega)) (fun _ mem3 h3 => ?_)
      refine runs_pure ⟨h3.congr (fun i j hi hj => ?_), ?_⟩
      · show _ = elim dv updSub K (elimRun dv a K) i j
        unfold elim
        by_cases e1 : K < i
        · by_cases e2 : j = K
          · rw [if_pos e1, if_pos e2, if_neg (by omega), if_pos ⟨e1, e2⟩]
          · by_cases e3 : K < j
            · rw [if_pos e1, if_neg e2, if_pos e3, if_pos ⟨e1, e3⟩, if_pos ⟨e1, rfl⟩, if_neg (by omega), if_neg (by omega)]
            · rw [if_pos e1, if_neg e2, if_neg e3, if_neg (by omega), if_neg (by omega)]
        · rw [if_neg e1, if_neg (by omega), if_neg (by omega)]
      · funext k
        unfold setAt
        beta_reduce
        split_ifs <;> omega
  exact key _ (Nat.le_refl _)

end

theorem elimRun_spec [Field V] [Arith V] [ExactField V] {dv : V → V → V} (hdv : ∀ x y, y ≠ 0 → dv x y = x / y) {m : Nat}
    {a : Nat → Nat → V} (K : Nat) (hK : K ≤ m) (h : ∀ k, k < K → ColsIndep (k + 1) (k + 1) a) :
    LUInv m K a (elimRun dv a K) := by
  induction K with
  | zero => exact LUInv.zero m a
  | succ K ih =>
    have hI := ih (by omega) (fun k hk => h k (by omega))
    have ho : ExactOps dv updSub := ⟨hdv, fun l u x => by unfold updSub; rw [ExactRing.sub_eq, ExactRing.mul_eq]⟩
    refine hI.elim ho (fun hz => ?_)
    have hI' : LUInv (K + 1) K a (elimRun dv a K) := ⟨fun i j hi => hI.eq i j (by omega), hI.nz⟩
    exact hI'.dep (fun i h1 h2 => by rw [show i = K by omega]; exact hz) (h K (by omega))

/-- **C23** (what holds). Row-major getrf always returns and records no interchanges (`ipiv[k] = k`); if all leading
square blocks of the matrix are nonsingular, it leaves factors with `L * U = A`. -/
theorem C23_getrf_row_major_no_pivoting [Field V] [Arith V] [ExactField V] {SS : Nat} {dv : V → V → V}
    (hdv : ∀ x y, y ≠ 0 → dv x y = x / y) {A : Mat} {m0 : Mem V} (hinj : Inj SS A.p A.rows A.cols) {a : Nat → Nat → V}
    (h : Holds SS m0 A.p A.rows A.cols a) (ip : Nat → Nat) :
    ∃ p m' b, getrfRow SS dv A ip m0 = .ok p m' ∧ (∀ k, k < min A.rows A.cols → p k = k) ∧
      (∀ k, min A.rows A.cols ≤ k → p k = ip k) ∧ Holds SS m' A.p A.rows A.cols b ∧
      (∀ y, ¬ Cells SS A.p A.rows A.cols y → m' y = m0 y) ∧
      ((∀ k, k < min A.rows A.cols → ColsIndep (k + 1) (k + 1) a) → ∀ i j, i < A.rows → j < A.cols →
        ∑ k ∈ range (min A.rows A.cols), tri .lower true b i k * tri .upper false b k j = a i j) := by
  obtain ⟨p, m', h1, h2, rfl⟩ := runs_getrfRow dv hinj h ip
  refine ⟨_, m', _, h1, fun k hk => if_pos hk, fun k hk => if_neg (by omega), h2.holds, h2.frame, ?_⟩
  intro hind i j hi hj
  rw [(elimRun_spec hdv (m := A.rows) (min A.rows A.cols) (by omega) hind).eq i j hi, if_neg (by omega), add_zero]

/-- **C23** (refutation of the documented behaviour). On the invertible matrix [[0,1],[1,0]] row-major getrf returns
normally, whatever division by zero yields, and leaves something that is not a factorization of any row permutation
recorded in ipiv: the product of the stored factors differs from P*A. -/
theorem C23_getrf_row_major_fails [Field V] [Arith V] [ExactRing V] {SS : Nat} (dv : V → V → V) {p : MPtr} {m0 : Mem V}
    (hinj : Inj SS p 2 2) (h : Holds SS m0 p 2 2 (fun i j => if i = j then 0 else 1)) (ip : Nat → Nat) :
    ColsIndep (V := V) 2 2 (fun i j => if i = j then 0 else 1) ∧
    ∃ q m' b, getrfRow SS dv ⟨p, 2, 2⟩ ip m0 = .ok q m' ∧ Holds SS m' p 2 2 b ∧
      ¬ IsLU 2 2 (fun i j => if i = j then (0 : V) else 1) b q := by
  constructor
  · intro x hx j hj
    have h0 := hx 0 (by omega)
    have h1 := hx 1 (by omega)
    simp [sum_range_succ] at h0 h1
    obtain rfl | rfl : j = 0 ∨ j = 1 := by omega
    · exact h1
    · exact h0
  · obtain ⟨q, m', h1, h2, rfl⟩ := runs_getrfRow dv (A := ⟨p, 2, 2⟩) hinj h ip
    refine ⟨_, m', _, h1, h2.holds, fun hlu => ?_⟩
    have := hlu 1 0 (by omega) (by omega)
    simp [tri_eq_lower, tri_eq_upper, elimRun, elim, rowSwaps, swapIdx] at this

/-! ### C24 -/

section
variable [Arith V]

/-- **C24** (swap). For two vectors of equal length, given by any pointers to distinct cells, `swap` exchanges the
elements and changes nothing else. Different lengths are reported by std::invalid_argument. -/
theorem C24_swap {SS : Nat} {x y : VArg} {m : Mem V} (px : x.p.Plain SS) (py : y.p.Plain SS) {f g : Nat → V}
    (hx : VHolds SS m x.p x.n f) (hy : VHolds SS m y.p y.n g)
    (ix : ∀ i j : Nat, i < x.n → j < x.n → x.p.addr SS i = x.p.addr SS j → i = j)
    (iy : ∀ i j : Nat, i < y.n → j < y.n → y.p.addr SS i = y.p.addr SS j → i = j)
    (ixy : ∀ i j : Nat, i < x.n → j < y.n → x.p.addr SS i ≠ y.p.addr SS j) :
    (x.n ≠ y.n → swapVec SS x y m = .throw .invalidArgument m) ∧
    (x.n = y.n → ∃ m', swapVec SS x y m = .ok () m' ∧ VHolds SS m' x.p x.n g ∧ VHolds SS m' y.p y.n f ∧
      (∀ z, (∀ i : Nat, i < x.n → z ≠ x.p.addr SS i ∧ z ≠ y.p.addr SS i) → m' z = m z)) := by
  constructor
  · intro h
    unfold swapVec; rw [if_pos (fun e => h e.symm)]; rfl
  · intro h
    unfold swapVec
    rw [if_neg (by omega)]
    by_cases h0 : x.n > 0
    · rw [if_pos h0]
      obtain ⟨m', e1, e2, e3, e4⟩ := runs_swap px py (m := m) (n := x.n) (fun i hi => by rw [hx i hi]; rfl)
        (fun i hi => by rw [hy i (by omega)]; rfl) ix (fun i j hi hj => iy i j (by omega) (by omega))
        (fun i j hi hj => ixy i j hi (by omega))
      exact ⟨m', e1, fun i hi => by rw [e2 i hi, hy i (by omega)], fun i hi => by rw [e3 i (by omega), hx i (by omega)], e4⟩
    · rw [if_neg h0]
      exact ⟨m, rfl, fun i hi => by omega, fun i hi => by omega, fun _ _ => rfl⟩

/-- **C24** (swap twice). Applying swap twice restores the memory completely. -/
theorem C24_swap_twice {SS : Nat} {x y : VArg} {m : Mem V} (px : x.p.Plain SS) (py : y.p.Plain SS) {f g : Nat → V}
    (hx : VHolds SS m x.p x.n f) (hy : VHolds SS m y.p y.n g) (hn : x.n = y.n)
    (ix : ∀ i j : Nat, i < x.n → j < x.n → x.p.addr SS i = x.p.addr SS j → i = j)
    (iy : ∀ i j : Nat, i < y.n → j < y.n → y.p.addr SS i = y.p.addr SS j → i = j)
    (ixy : ∀ i j : Nat, i < x.n → j < y.n → x.p.addr SS i ≠ y.p.addr SS j) :
    (do swapVec SS x y; swapVec SS x y) m = .ok () m := by
  obtain ⟨m1, e1, e2, e3, e4⟩ := (C24_swap px py hx hy ix iy ixy).2 hn
  obtain ⟨m2, f1, f2, f3, f4⟩ := (C24_swap px py e2 e3 ix iy ixy).2 hn
  rw [bind_ok e1, f1]
  congr 1
  funext z
  by_cases hz : ∀ i : Nat, i < x.n → z ≠ x.p.addr SS i ∧ z ≠ y.p.addr SS i
  · rw [f4 z hz, e4 z hz]
  · push Not at hz
    obtain ⟨i, hi, hz⟩ := hz
    by_cases hzx : z = x.p.addr SS i
    · rw [hzx, f2 i hi, hx i hi]
    · rw [hz hzx, f3 i (by omega), hy i (by omega)]

/-- **C24** (laswp). `laswp(A, k0, k1, ipiv)` applies the interchanges of rows `k` and `ipiv[k]`, k = k0, …, k1-1 in
this order, to every column of A, and changes nothing else. -/
theorem C24_laswp {SS M N k0 k1 : Nat} (hSS : 0 < SS) {A : MPtr} (hd : A.panel = false) {m : Mem V} {a : Nat → Nat → V}
    (h : Holds SS m A M N a) (hinj : Inj SS A M N) (hk : k0 ≤ k1) (hk1 : k1 ≤ M) {ipiv : Nat → Nat}
    (hp : ∀ q, k0 ≤ q → q < k1 → ipiv q < M) :
    ∃ m', laswp SS N A k0 k1 ipiv m = .ok () m' ∧ Holds SS m' A M N (rowSwaps ipiv k0 (k1 - k0) a) ∧
      (∀ y, ¬ Cells SS A M N y → m' y = m y) := by
  obtain ⟨_, m', h1, h2⟩ := runs_laswp hSS hd (MatIn.of_holds h) hinj (B := A) (c0 := 0) (n := N) (by omega) hd
    (fun i j => by simp) hk hk1 hp
  refine ⟨m', h1, fun i j hi hj => ?_, h2.frame⟩
  rw [h2.holds i j hi hj]
  beta_reduce
  rw [if_pos (by omega)]

theorem forN_congr {n : Nat} {f g : Nat → Prog V Unit} (h : ∀ k, k < n → f k = g k) : forN n f = forN n g := by
  induction n with
  | zero => rfl
  | succ n ih =>
    show (forN n f >>= fun _ => f n) = (forN n g >>= fun _ => g n)
    rw [ih (fun k hk => h k (by omega)), h n (by omega)]

/-- **C24** (laswp reads only `ipiv[k0..k1-1]`). -/
theorem C24_laswp_ipiv_range {SS N k0 k1 : Nat} {A : MPtr} {ipiv ipiv' : Nat → Nat}
    (h : ∀ q, k0 ≤ q → q < k1 → ipiv q = ipiv' q) :
    (laswp SS N A k0 k1 ipiv : Prog V Unit) = laswp SS N A k0 k1 ipiv' := by
  unfold laswp Prog.forFrom
  refine forN_congr (fun t ht => ?_)
  beta_reduce
  rw [h (k0 + t) (by omega) (by omega)]

end

/-- the interchanges of `rowSwaps` in reverse order: first `k0+t-1`, …, last `k0` -/
def rowSwapsRev (ipiv : Nat → Nat) (k0 : Nat) : Nat → (Nat → Nat → V) → (Nat → Nat → V)
  | 0, a => a
  | t + 1, a => rowSwapsRev ipiv k0 t (swapRows (k0 + t) (ipiv (k0 + t)) a)

/-- **C24** (laswp can be undone): the same interchanges in reverse order restore the matrix. -/
theorem C24_row_swaps_undone (ipiv : Nat → Nat) (k0 t : Nat) (a : Nat → Nat → V) :
    rowSwapsRev ipiv k0 t (rowSwaps ipiv k0 t a) = a := by
  induction t generalizing a with
  | zero => rfl
  | succ t ih =>
    show rowSwapsRev ipiv k0 t (swapRows (k0 + t) (ipiv (k0 + t)) (rowSwaps ipiv k0 (t + 1) a)) = a
    have : swapRows (k0 + t) (ipiv (k0 + t)) (rowSwaps ipiv k0 (t + 1) a) = rowSwaps ipiv k0 t a := by
      funext i j
      show rowSwaps ipiv k0 t a (swapIdx _ _ (swapIdx _ _ i)) j = _
      rw [swapIdx_invol]
    rw [this, ih]

/-! ### C25 -/

/-- **C25**. `iamax(x)` returns the first index of an element of maximal absolute value, for every non-empty vector at
any pointer; it writes nothing. -/
theorem C25_iamax [Field V] [LinearOrder V] [IsStrictOrderedRing V] [Arith V] [ExactOrd V] {SS : Nat} {x : VArg}
    (px : x.p.Plain SS) {m : Mem V} {f : Nat → V} (h : VHolds SS m x.p x.n f) (hn : 0 < x.n) :
    ∃ i, iamaxVec SS x m = .ok i m ∧ i < x.n ∧ (∀ j, j < x.n → |f j| ≤ |f i|) ∧ (∀ j, j < i → |f j| < |f i|) := by
  obtain ⟨-, h2, h3⟩ := iamaxF_max f (x.n - 1)
  have hle := iamaxF_le f (x.n - 1)
  refine ⟨_, ?_, by omega, fun j hj => h2 j (by omega), h3⟩
  unfold iamaxVec
  rw [if_neg (by omega)]
  exact reads_iamaxPtr px hn h

/-- **C25** (empty vector): std::invalid_argument. -/
theorem C25_iamax_empty [Arith V] {SS : Nat} {x : VArg} (h : x.n = 0) (m : Mem V) :
    iamaxVec SS x m = .throw .invalidArgument m := by
  unfold iamaxVec; rw [if_pos h]; rfl

/-- **C25** (independence of the arithmetic): for any ordering predicate - also one with NaN - iamax returns the index
reached by scanning left to right and moving on strictly larger absolute values. -/
theorem C25_iamax_scan [Arith V] {SS n : Nat} {x : VPtr} (px : x.Plain SS) {m : Mem V} {f : Nat → V}
    (h : VHolds SS m x n f) (hn : 0 < n) : iamaxPtr SS n x m = .ok (iamaxF f (n - 1)).2 m :=
  reads_iamaxPtr px hn h

/-! ### Plain vector pointers -/

/-- rows and columns of dense matrices are `Plain` (the offset operator moves to the right element) -/
example {SS : Nat} (hSS : 0 < SS) (q : MPtr) (hq : q.panel = false) : (row q).Plain SS ∧ (column q).Plain SS :=
  ⟨plain_row hSS hq, plain_column hSS hq⟩

/-! ### Concrete instances -/

/-- the hypotheses of C19-C22 hold for a 5×7 DynamicMatrix (SIMD width 4), with a matrix whose leading columns are
independent (so the routines return) -/
example : GetrfPre 4 1 5 7 ((⟨.dynDense, .columnMajor, 5, 7, 200⟩ : Container).mptr 4) (demoMem : Mem Rat) :=
  LuPre.of_live (A := ⟨.dynDense, .columnMajor, 5, 7, 200⟩) (by decide) rfl rfl
    (demo_live (by decide) (by decide) (by decide))

example : ColsIndep (V := Rat) 5 5 (fun i j => if j ≤ i then 1 else 0) := by
  intro x hx j hj
  have h0 := hx 0 (by omega)
  have h1 := hx 1 (by omega)
  have h2 := hx 2 (by omega)
  have h3 := hx 3 (by omega)
  have h4 := hx 4 (by omega)
  simp [sum_range_succ] at h0 h1 h2 h3 h4
  obtain rfl | rfl | rfl | rfl | rfl : j = 0 ∨ j = 1 ∨ j = 2 ∨ j = 3 ∨ j = 4 := by omega
  all_goals linarith

/-- and a singular one (so they throw) -/
example : ¬ ColsIndep (V := Rat) 5 5 (fun i j => (i : Rat) + j) := by
  intro h
  have := h (fun j => if j = 0 then 1 else if j = 1 then -2 else if j = 2 then 1 else 0) (fun i _ => by
    simp [sum_range_succ]; ring) 0 (by omega)
  simp at this

/-- memory of the counterexample: exactly the 4 cells of a 2×2 column-major matrix -/
def luMem : Mem Rat := fun z => if 0 ≤ z ∧ z < 4 then some 1 else none

/-- **C19** (excluded case). When the tile is larger than the SIMD width (double on NEON: SIMD width 2, tile size 4),
getf2 of a 2×2 matrix whose storage is exactly 2×2 reads beyond it: undefined behaviour. -/
theorem C19_getf2_large_tile_out_of_bounds :
    getf2Ptr 2 2 2 2 ⟨false, .columnMajor, true, true, 0, 2⟩ id luMem = .ub := by
  rfl

end Blast
