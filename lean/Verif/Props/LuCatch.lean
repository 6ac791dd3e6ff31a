import Verif.LuCatch
import Verif.Props.Lu
import Verif.Eval
/- Concrete cases meeting the hypotheses of these theorems: Verif/Cases/LuCatch.lean. -/
/-
Property C97: what a caller finds in the matrix and in the pivot array after an LU factorization has thrown "Matrix is singular".
-/
set_option linter.unusedSectionVars false
namespace Blast
open Finset Prog Reg
variable {V : Type}

/-! ### Specification -/

/-- The factorization of the `m` x `n` matrix `a` was stopped at column `k`: `b` is what the matrix holds, `p` what the pivot array holds, `ip` what
it held before the call. -/
structure StoppedLU [Field V] [LinearOrder V] (m n k : Nat) (a b : Nat → Nat → V) (p ip : Nat → Nat) : Prop where
  lt : k < min m n
  /-- column `k` is the first one that is a linear combination of the columns before it -/
  before : ColsIndep m k a
  dep : ¬ ColsIndep m (k + 1) a
  /-- the first `k` steps are complete: the recorded interchanges, the first `k` columns of L, the first `k` rows of U and the rest give the matrix -/
  eq : ∀ i j, i < m → j < n → rowSwaps p 0 (k + 1) a i j =
    ∑ q ∈ range k, tri .lower true b i q * tri .upper false b q j + (if k ≤ i ∧ k ≤ j then b i j else 0)
  /-- the column that has no pivot -/
  zero : ∀ i, k ≤ i → i < m → b i k = 0
  diag : ∀ q, q < k → b q q ≠ 0
  bound : ∀ i q, q < k → q < i → i < m → |b i q| ≤ 1
  /-- the pivot array is written up to and including index `k`; no interchange is recorded for column `k` -/
  pivots : ∀ q, q < k → q ≤ p q ∧ p q < m
  own : p k = k
  rest : ∀ q, k < q → p q = ip q

/-- what a factorization leaves behind: the factors, or the state of a factorization stopped by the exception -/
def LeavesLU [Field V] [LinearOrder V] (SS m n : Nat) (A : MPtr) (a : Nat → Nat → V) (ip : Nat → Nat) (r : Res V (Bool × (Nat → Nat))) (m0 : Mem V) : Prop :=
  ∃ ret p m' b, r = .ok (ret, p) m' ∧ Holds SS m' A m n b ∧ (∀ y, ¬ Cells SS A m n y → m' y = m0 y) ∧
    (ret = true → IsLU m n a b p) ∧ (ret = false → ∃ k, StoppedLU m n k a b p ip)

section
variable [Field V] [LinearOrder V] [IsStrictOrderedRing V] [Arith V] [ExactOrd V]

/-- a zero column has its first element as the pivot -/
theorem pivotRow_of_zero {m k : Nat} {b : Nat → Nat → V} (hk : k < m) (h : ∀ i, k ≤ i → i < m → b i k = 0) : pivotRow m b k = k := by
  unfold pivotRow
  obtain ⟨-, -, h3⟩ := iamaxF_max (fun i => b (k + i) k) (m - k - 1)
  have hle := iamaxF_le (fun i => b (k + i) k) (m - k - 1)
  by_contra hne
  have := h3 0 (by omega)
  rw [h _ (by omega) (by omega), h _ (by omega) (by omega)] at this
  exact lt_irrefl _ this

theorem stoppedLU_of {dv : V → V → V} {upd : V → V → V → V} (ho : ExactOps dv upd) {m n k : Nat} (hk : k < min m n) {a b : Nat → Nat → V} {ip p : Nat → Nat}
    (h1 : luRun dv upd m a ip k = some (b, p)) (h2 : luStep dv upd m k b p = none) :
    pivotRow m b k = k ∧ StoppedLU m n k a b (setAt p k k) ip := by
  have hz := luStep_none h2
  have hpiv := pivotRow_of_zero (show k < m by omega) hz
  obtain ⟨i1, i2, i3, i4⟩ := luRun_spec ho k (by omega) h1
  have hne : ∀ q, q ≠ k → setAt p k k q = p q := fun q hq => if_neg hq
  have hself : setAt p k k k = k := if_pos rfl
  refine ⟨hpiv, hk, ?_, ?_, fun i j hi _ => ?_, hz, i1.nz, i4, fun q hq => ?_, hself, fun q hq => ?_⟩
  · exact (colsIndep_rowSwaps (by omega) (fun q hq => (i2 q hq).2) a).1 (i1.indep (by omega))
  · exact fun hc => i1.dep hz ((colsIndep_rowSwaps (by omega) (fun q hq => (i2 q hq).2) a).2 hc)
  · rw [← i1.eq i j hi]
    show rowSwaps (setAt p k k) 0 k a (swapIdx (0 + k) (setAt p k k (0 + k)) i) j = _
    rw [Nat.zero_add, hself, rowSwaps_congr (p' := p) (fun q _ hq => hne q (by omega))]
    congr 1
    unfold swapIdx
    split
    · rename_i h; exact h.symm
    · rfl
  · rw [hne q (by omega)]; exact i2 q hq
  · rw [hne q (by omega)]; exact i3 q (by omega)

theorem leavesLU_of {dv : V → V → V} {upd : V → V → V → V} (ho : ExactOps dv upd) {SS m n : Nat} {A : MPtr} {a : Nat → Nat → V} {ip : Nat → Nat}
    {m0 : Mem V} {P : Prog V (Bool × (Nat → Nat))}
    (h : Runs P m0 (fun r mem' => r = (luLeft dv upd m a ip (min m n)).2 ∧ MatIn SS m n A m0 mem' (luLeft dv upd m a ip (min m n)).1)) :
    LeavesLU SS m n A a ip (P m0) m0 := by
  obtain ⟨r, m', e1, e2, e3⟩ := h
  rcases luLeft_cases dv upd m a ip (min m n) with ⟨b, p, h1, h2⟩ | ⟨k, b, p, hk, h1, h2, h3⟩
  · rw [h2] at e2 e3
    obtain rfl := e2
    refine ⟨true, p, m', b, e1, e3.holds, e3.frame, fun _ i j hi hj => ?_, fun h => by cases h⟩
    obtain ⟨i1, -⟩ := luRun_spec ho (min m n) (Nat.min_le_left m n) h1
    rw [i1.eq i j hi, if_neg (by omega), add_zero]
  · obtain ⟨hpiv, hs⟩ := stoppedLU_of (n := n) ho hk h1 h2
    rw [h3, hpiv, swapRows_self] at e3
    rw [h3, hpiv] at e2
    obtain rfl := e2
    exact ⟨false, _, m', b, e1, e3.holds, e3.frame, fun h => (by cases h), fun _ => ⟨k, hs⟩⟩

end

/-! ### C97 -/

/-- **C97**: the models with an explicit pivot array (`*S`) are the models of C19-C25 with the exception caught: raising std::invalid_argument when
the flag is `false` and dropping the array gives them back, as programs (for every memory, size and arithmetic). -/
theorem C97_pivot_array_model [Arith V] (SS TR m n : Nat) (A : MPtr) (B : Mat) (dv : V → V → V) (ip : Nat → Nat) :
    (raise (getf2PtrS SS TR m n A ip) = (getf2Ptr SS TR m n A ip : Prog V (Nat → Nat))) ∧
      (raise (getf2RowS SS dv B ip) = getf2Row SS dv B ip) ∧
      (raise (getrfPtrS SS TR m n A ip) = (getrfPtr SS TR m n A ip : Prog V (Nat → Nat))) :=
  ⟨getf2Ptr_raise SS TR m n A ip, getf2Row_raise SS dv B ip, getrfPtr_raise SS TR m n A ip⟩

section
variable [Field V] [LinearOrder V] [IsStrictOrderedRing V] [Arith V] [ExactOrd V]

/-- **C97** (getf2, column-major): when getf2 throws, the matrix and the pivot array hold the factorization of the columns before the one that has
no pivot, and this column is the first that depends linearly on the columns before it. -/
theorem C97_getf2_leaves {SS TR m n : Nat} {A : MPtr} {m0 : Mem V} (hp : LuPre SS TR m n A m0) {a : Nat → Nat → V} (h : Holds SS m0 A m n a) (ip : Nat → Nat) :
    LeavesLU SS m n A a ip (getf2PtrS SS TR m n A ip m0) m0 := leavesLU_of exactOps_col (runs_getf2PtrS hp h ip)

/-- **C97** (getf2, row-major) -/
theorem C97_getf2_row_major_leaves {SS : Nat} (hSS : 0 < SS) {dv : V → V → V} (hdv : ∀ x y, y ≠ 0 → dv x y = x / y) {A : Mat} (hd : A.p.panel = false)
    {m0 : Mem V} (hinj : Inj SS A.p A.rows A.cols) {a : Nat → Nat → V} (h : Holds SS m0 A.p A.rows A.cols a) (ip : Nat → Nat) :
    LeavesLU SS A.rows A.cols A.p a ip (getf2RowS SS dv A ip m0) m0 := leavesLU_of (exactOps_row hdv) (runs_getf2RowS hSS dv hd hinj h ip)

omit [LinearOrder V] [IsStrictOrderedRing V] [ExactOrd V] [Arith V] [Field V] in
theorem luCatch_perm_onto {p : Nat → Nat} {t m r : Nat} (ht : t ≤ m) (hp : ∀ q, q < t → p q < m) (hr : r < m) : ∃ i, i < m ∧ rowPerm p 0 t i = r := by
  induction t with
  | zero => exact ⟨r, hr, rfl⟩
  | succ t ih =>
    obtain ⟨i, h1, h2⟩ := ih (by omega) (fun q hq => hp q (by omega))
    have hpt := hp t (by omega)
    refine ⟨swapIdx t (p t) i, ?_, ?_⟩
    · unfold swapIdx; split <;> [exact hpt; (split <;> omega)]
    · show rowPerm p 0 t (swapIdx (0 + t) (p (0 + t)) (swapIdx t (p t) i)) = r
      rw [Nat.zero_add, ← h2]
      congr 1
      unfold swapIdx
      by_cases e1 : i = t
      · rw [if_pos e1]
        by_cases e2 : p t = t
        · rw [if_pos e2, e1]; exact e2
        · rw [if_neg e2, if_pos rfl, e1]
      · rw [if_neg e1]
        by_cases e2 : i = p t
        · rw [if_pos e2, if_pos rfl, e2]
        · rw [if_neg e2, if_neg e1, if_neg e2]

omit [IsStrictOrderedRing V] [Arith V] [ExactOrd V] in
/-- the matrix is determined by what is left behind -/
theorem StoppedLU.recover {m n k k' : Nat} {a a' b : Nat → Nat → V} {p ip ip' : Nat → Nat} (h : StoppedLU m n k a b p ip) (h' : StoppedLU m n k' a' b p ip') :
    ∀ i j, i < m → j < n → a i j = a' i j := by
  have hlt := h.lt
  have hlt' := h'.lt
  have hk : k = k' := by
    rcases lt_trichotomy k k' with hc | hc | hc
    · exact absurd (h.zero k le_rfl (by omega)) (h'.diag k hc)
    · exact hc
    · exact absurd (h'.zero k' le_rfl (by omega)) (h.diag k' hc)
  subst hk
  intro r j hr hj
  obtain ⟨i, hi, e⟩ := luCatch_perm_onto (p := p) (t := k + 1) (m := m) (by omega) (fun q hq => by
    rcases Nat.lt_succ_iff_lt_or_eq.1 hq with hq | rfl
    · exact (h.pivots q hq).2
    · rw [h.own]; omega) hr
  have h1 := h.eq i j hi hj
  rw [← h'.eq i j hi hj, rowSwaps_eq, rowSwaps_eq, e] at h1
  exact h1

/-- **C97**: nothing is lost when getf2 throws: two matrices for which getf2 throws and leaves the same elements and the same pivot array are equal. -/
theorem C97_getf2_recoverable {SS TR m n : Nat} {A : MPtr} {m0 m1 : Mem V} (hp : LuPre SS TR m n A m0) (hp' : LuPre SS TR m n A m1) {a a' : Nat → Nat → V}
    (h : Holds SS m0 A m n a) (h' : Holds SS m1 A m n a') (ip ip' : Nat → Nat) {p : Nat → Nat} {m0' m1' : Mem V}
    (e : getf2PtrS SS TR m n A ip m0 = .ok (false, p) m0') (e' : getf2PtrS SS TR m n A ip' m1 = .ok (false, p) m1')
    (hsame : ∀ i j : Nat, i < m → j < n → m0' (A.addr SS i j) = m1' (A.addr SS i j)) : ∀ i j, i < m → j < n → a i j = a' i j := by
  obtain ⟨r, q, mm, b, e1, hb, -, -, hs⟩ := C97_getf2_leaves hp h ip
  rw [e] at e1
  cases e1
  obtain ⟨r, q', mm, b', e1, hb', -, -, hs'⟩ := C97_getf2_leaves hp' h' ip'
  rw [e'] at e1
  cases e1
  obtain ⟨k, hs⟩ := hs rfl
  obtain ⟨k', hs'⟩ := hs' rfl
  have hbb : ∀ i j, i < m → j < n → b' i j = b i j := fun i j hi hj => by
    have h1 := hb' i j hi hj
    rw [← hsame i j hi hj, hb i j hi hj] at h1
    exact (Option.some.inj h1).symm
  have hk := hs.lt
  have hk' := hs'.lt
  refine hs.recover (k' := k') (ip' := ip') ⟨hk', hs'.before, hs'.dep, fun i j hi hj => ?_, fun i h1 h2 => ?_, fun q hq => ?_, fun i q h1 h2 h3 => ?_,
    hs'.pivots, hs'.own, hs'.rest⟩
  · rw [hs'.eq i j hi hj, hbb i j hi hj]
    congr 1
    refine sum_congr rfl (fun q hq => ?_)
    have hq := mem_range.1 hq
    unfold tri
    rw [hbb i q hi (by omega), hbb q j (by omega) hj]
  · rw [← hbb i k' h2 (by omega)]; exact hs'.zero i h1 h2
  · rw [← hbb q q (by omega) (by omega)]; exact hs'.diag q hq
  · rw [← hbb i q h3 (by omega)]; exact hs'.bound i q h1 h2 h3

/-- **C97** (getrf): the same for getrf if the matrix has no more rows or no more columns than a tile. -/
theorem C97_getrf_single_block_leaves {SS TR m n : Nat} {A : MPtr} {m0 : Mem V} (hp : LuPre SS TR m n A m0) {a : Nat → Nat → V} (h : Holds SS m0 A m n a)
    (ip : Nat → Nat) (hb : m ≤ TR * SS ∨ n ≤ TR * SS) : LeavesLU SS m n A a ip (getrfPtrS SS TR m n A ip m0) m0 := by
  have hloop : (loopUntil (m + 1) (fun k => decide (k + TR * SS < m) && decide (k + TR * SS < n)) (TR * SS) (getrfStepS SS TR m n A) 0 ip :
      Prog V (Bool × (Nat × (Nat → Nat)))) = pure (true, (0, ip)) := by
    unfold loopUntil
    rw [if_neg]
    simp only [Nat.zero_add, Bool.and_eq_true, decide_eq_true_eq, not_and_or]
    omega
  have hoff : A.off SS (0 : Nat) (0 : Nat) = A := by
    have hd := hp.dense
    have hs := hp.so
    rcases A with ⟨pan, so, al, pad, q, sp⟩
    cases hd
    cases hs
    simp [MPtr.off, MPtr.addr]
  have hsw : ∀ (q : Nat → Nat) (mem : Mem V), (laswp SS 0 A 0 (min m n) q : Prog V Unit) mem = .ok () mem := by
    intro q mem
    obtain ⟨_, mem', e1, e2⟩ := runs_forFrom (lo := 0) (hi := min m n) (m := mem) (f := fun k => onlyIf (k != q k)
      (swapVec SS ⟨row ((A.unal SS).off SS k 0), 0⟩ ⟨row ((A.unal SS).off SS (q k : Nat) 0), 0⟩)) (Nat.zero_le _) (fun _ mm => mm = mem) rfl (fun k mm _ _ hm => by
        subst hm
        unfold onlyIf swapVec
        split
        · exact ⟨(), mm, rfl, rfl⟩
        · exact ⟨(), mm, rfl, rfl⟩)
    subst e2
    exact e1
  have hadd : ∀ q : Nat → Nat, addRange q 0 (min m n) = q := fun q => by
    funext i
    unfold addRange
    split <;> rfl
  have hrun : (getrfPtrS SS TR m n A ip : Prog V _) = getrfTailS SS TR m n A (0, ip) := by
    unfold getrfPtrS
    rw [hloop]; rfl
  rw [hrun]
  unfold getrfTailS
  simp only
  by_cases hc : 0 < m ∧ 0 < n
  · rw [if_pos hc]
    simp only [Nat.sub_zero, Nat.zero_add, hoff]
    obtain ⟨r, p, m', b, e1, e2, e3, e4, e5⟩ := C97_getf2_leaves hp h ip
    have hm : mergeAt ip 0 p = p := by funext i; unfold mergeAt; rw [if_neg (by omega)]; rfl
    have e6 : (do let p ← getf2PtrS SS TR m n A (fun i => ip i); pure (p.1, mergeAt ip 0 p.2) : Prog V _) m0 = .ok (r, p) m' := by
      rw [bind_ok e1]; show Res.ok (r, mergeAt ip 0 p) m' = _; rw [hm]
    rw [bind_ok e6]
    refine ⟨r, p, m', b, ?_, e2, e3, e4, e5⟩
    cases r
    · rfl
    · simp only [if_true]
      rw [bind_ok (hsw _ m'), hadd]; rfl
  · rw [if_neg hc]
    refine ⟨true, ip, m0, a, ?_, h, fun _ _ => rfl, fun _ i j hi hj => absurd ⟨by omega, by omega⟩ hc, fun h => by cases h⟩
    show (do laswp SS 0 A 0 (min m n) (addRange ip 0 (min m n)); pure (true, addRange ip 0 (min m n)) : Prog V _) m0 = _
    rw [bind_ok (hsw _ m0), hadd]; rfl

end

/-! ### getrf with more than one block -/

/-- the 3 x 3 matrix [0 0 5; 1 0 6; 0 0 7], column-major -/
def caughtVal (i j : Nat) : Rat := if j = 2 then ((5 + i : Nat) : Rat) else if i = 1 ∧ j = 0 then 1 else 0
def caughtA : Container := ⟨.dynDense, .columnMajor, 3, 3, 0⟩
def caughtMem : Mem Rat := fun x => if 0 ≤ x ∧ x < 12 then some (caughtVal (x % 4).toNat (x / 4).toNat) else none

/-- flag, first two pivots and two elements after a run -/
def caughtOut (r : Res Rat (Bool × (Nat → Nat))) : Option (Bool × Nat × Option Rat × Option Rat) :=
  match r with
  | .ok s m => some (s.1, s.2 0, m (caughtA.addr 2 0 0), m (caughtA.addr 2 0 2))
  | _ => none

/-- **C97** (getrf, refuted for more than one block): for the matrix [0 0 5; 1 0 6; 0 0 7] and tiles of 2, getrf throws after it has interchanged rows
0 and 1 of the first two columns only: what it leaves in the matrix and in the pivot array is not the state of a stopped factorization, for any column. -/
theorem C97_getrf_leaves_refuted : LuPre 2 1 3 3 (caughtA.mptr 2) caughtMem ∧ Contains 2 caughtMem caughtA caughtVal ∧
    ∃ p m', getrfPtrS 2 1 3 3 (caughtA.mptr 2) id caughtMem = .ok (false, p) m' ∧
      ∀ b k, Contains 2 m' caughtA b → ¬ StoppedLU 3 3 k caughtVal b p id := by
  have hc : Contains 2 caughtMem caughtA caughtVal := by
    have : ∀ i < 3, ∀ j < 3, caughtMem (caughtA.addr 2 i j) = some (caughtVal i j) := by decide +kernel
    exact fun i j hi hj => this i hi j hj
  have hl : Live 2 caughtMem caughtA := by
    refine ⟨?_, fun x hx => ?_⟩
    · decide
    · have h1 : 0 ≤ x ∧ x < 12 := hx
      unfold caughtMem
      rw [if_pos h1]; rfl
  refine ⟨(LuPre.of_live (by decide) rfl rfl hl).toLuPre, hc, ?_⟩
  have key : caughtOut (getrfPtrS 2 1 3 3 (caughtA.mptr 2) id caughtMem) = some (false, 1, some 1, some 5) := by decide +kernel
  rcases hr : getrfPtrS 2 1 3 3 (caughtA.mptr 2) id caughtMem with ⟨⟨f, p⟩, m'⟩ | _ | _ | _ | _ <;> rw [hr] at key
  · simp only [caughtOut, Option.some.injEq, Prod.mk.injEq] at key
    obtain ⟨rfl, h1, h2, h3⟩ := key
    refine ⟨p, m', rfl, fun b k hb hs => ?_⟩
    have b00 : b 0 0 = 1 := by
      have := hb 0 0 (by decide) (by decide)
      rw [h2] at this
      exact (Option.some.inj this).symm
    have b02 : b 0 2 = 5 := by
      have := hb 0 2 (by decide) (by decide)
      rw [h3] at this
      exact (Option.some.inj this).symm
    have hk := hs.lt
    obtain ⟨t, rfl⟩ : ∃ t, k = t + 1 := by
      cases k with
      | zero =>
        have := hs.zero 0 le_rfl (by decide)
        rw [b00] at this
        exact absurd this (by decide)
      | succ t => exact ⟨t, rfl⟩
    have hperm : ∀ t, t ≤ 2 → (∀ q, 0 < q → q < t + 1 → q ≤ p q) → rowPerm p 0 (t + 1) 0 = 1 := by
      intro t
      induction t with
      | zero => intro _ _; show swapIdx 0 (p 0) 0 = 1; unfold swapIdx; rw [if_pos rfl]; exact h1
      | succ t ih =>
        intro ht hq
        show rowPerm p 0 (t + 1) (swapIdx (0 + (t + 1)) (p (0 + (t + 1))) 0) = 1
        have hq1 := hq (t + 1) (by omega) (by omega)
        have : swapIdx (0 + (t + 1)) (p (0 + (t + 1))) 0 = 0 := by
          unfold swapIdx
          rw [Nat.zero_add, if_neg (by omega), if_neg (by omega)]
        rw [this]
        exact ih (by omega) (fun q h1 h2 => hq q h1 (by omega))
    have he := hs.eq 0 2 (by decide) (by decide)
    rw [rowSwaps_eq, hperm (t + 1) (by omega) (fun q h1 h2 => by
      rcases Nat.lt_succ_iff_lt_or_eq.1 h2 with h2 | rfl
      · exact (hs.pivots q h2).1
      · rw [hs.own]), if_neg (by omega), add_zero, sum_eq_single 0] at he
    · have e1 : tri .lower true b 0 0 = 1 := by simp [tri]
      have e2 : tri .upper false b 0 2 = 5 := by simp [tri, b02]
      rw [e1, e2] at he
      exact absurd he (by decide +kernel)
    · intro q _ hq
      have : tri .lower true b 0 q = 0 := by
        have : 0 < q := Nat.pos_of_ne_zero hq
        simp [tri]; omega
      rw [this, zero_mul]
    · intro h; exact absurd (mem_range.2 (by omega)) h
  all_goals cases key

end Blast
