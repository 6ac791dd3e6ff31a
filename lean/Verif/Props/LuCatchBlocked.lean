import Verif.Props.LuCatch
/- Concrete cases meeting the hypotheses of these theorems: Verif/Cases/LuCatch.lean. -/
/-
Property C97, continued: what the blocked factorization getrf leaves in the matrix and in the pivot array when it throws "Matrix is singular".
-/
set_option linter.unusedSectionVars false
namespace Blast
open Finset Prog Reg
variable {V : Type}

/-! ### Specification -/

/-- The blocked factorization of the `m` x `n` matrix `a` was stopped in the block of `w` columns that starts at column `s`, at column `k` of the
block: `b` is what the matrix holds, `p` what the pivot array holds, `ip` what it held before the call. `c` is what the matrix held when the
block was begun. -/
structure StoppedBlock [Field V] [LinearOrder V] (m n s w k : Nat) (a c b : Nat → Nat → V) (p ip : Nat → Nat) : Prop where
  lt : s + k < min m n
  width : s + w ≤ n
  /-- column `s + k` of the matrix is the first one that is a linear combination of the columns before it -/
  before : ColsIndep m (s + k) a
  dep : ¬ ColsIndep m (s + k + 1) a
  /-- the first `s` steps are complete, with interchanges of whole rows: L and U so far, and the rest, which is `c` -/
  done : ∀ i j, i < m → j < n → rowSwaps p 0 s a i j =
    ∑ q ∈ range s, tri .lower true b i q * tri .upper false b q j + (if s ≤ i ∧ s ≤ j then c i j else 0)
  diag : ∀ q, q < s → b q q ≠ 0
  bound : ∀ i q, q < s → q < i → i < m → |b i q| ≤ 1
  pivots : ∀ q, q < s → q ≤ p q ∧ p q < m
  /-- in the rows and columns of the block there is a stopped factorization of the block, with pivots relative to the first row of the block -/
  panel : StoppedLU (m - s) w k (fun i j => c (s + i) (s + j)) (fun i j => b (s + i) (s + j)) (fun q => p (s + q)) (fun q => ip (s + q))
  /-- everything else is as it was when the block was begun: the interchanges of the block have not been applied to the other columns -/
  other : ∀ i j, i < m → j < n → ¬ (s ≤ i ∧ s ≤ j ∧ j < s + w) → b i j = c i j

/-- the columns of the block of getrf that starts at column `s`, with tiles of `T` rows -/
def blockWidth (T m n s : Nat) : Nat := if s + T < m ∧ s + T < n then T else n - s

/-- what getrf leaves behind: the factors, or the state of a blocked factorization stopped by the exception -/
def LeavesBlockedLU [Field V] [LinearOrder V] (SS T m n : Nat) (A : MPtr) (a : Nat → Nat → V) (ip : Nat → Nat) (r : Res V (Bool × (Nat → Nat))) (m0 : Mem V) :
    Prop :=
  ∃ ret p m' b, r = .ok (ret, p) m' ∧ Holds SS m' A m n b ∧ (∀ y, ¬ Cells SS A m n y → m' y = m0 y) ∧
    (ret = true → IsLU m n a b p) ∧
    (ret = false → ∃ s k c, s % T = 0 ∧ StoppedBlock m n s (blockWidth T m n s) k a c b p ip)

/-! ### Proof -/

theorem runs_loopUntil {σ : Type} {fuel : Nat} {cond : Nat → Bool} {step : Nat} {body : Nat → σ → Prog V (Bool × σ)} {k : Nat} {s : σ}
    {m : Mem V} (I : Nat → σ → Mem V → Prop) (F : σ → Mem V → Prop) (bound : Nat) (hstep : 0 < step)
    (hb : ∀ k, cond k = true → k < bound) (hf : bound < fuel + k) (hf0 : 0 < fuel) (h0 : I k s m)
    (hs : ∀ k s m, cond k = true → I k s m → Runs (body k s) m (fun r m' => (r.1 = true ∧ I (k + step) r.2 m') ∨ (r.1 = false ∧ F r.2 m'))) :
    Runs (loopUntil fuel cond step body k s) m (fun r m' => (r.1 = true ∧ cond r.2.1 = false ∧ I r.2.1 r.2.2 m') ∨ (r.1 = false ∧ F r.2.2 m')) := by
  induction fuel generalizing k s m with
  | zero => omega
  | succ fuel ih =>
    unfold loopUntil
    by_cases hc : cond k = true
    · rw [if_pos hc]
      have := hb k hc
      refine Runs.bind (hs k s m hc h0) ?_
      rintro ⟨f, s'⟩ m' (⟨h1, h2⟩ | ⟨h1, h2⟩)
      · simp only at h1 h2
        subst h1
        simp only [if_true]
        exact ih (by omega) (by omega) h2
      · simp only at h1 h2
        subst h1
        exact ⟨_, m', rfl, Or.inr ⟨rfl, h2⟩⟩
    · rw [if_neg hc]
      exact ⟨_, _, rfl, Or.inl ⟨rfl, by simpa using hc, h0⟩⟩

section
variable [Field V] [LinearOrder V] [IsStrictOrderedRing V] [Arith V] [ExactOrd V]

/-- the factorization of the block is stopped -/
theorem stoppedBlock_of {m n s w t : Nat} {a c S : Nat → Nat → V} {ip P q : Nat → Nat} (hw : s + w ≤ n) (ht : t < min (m - s) w)
    (hrun : luRun Arith.div updCol m a ip s = some (c, P))
    (h1 : luRun Arith.div updCol (m - s) (fun i j => c (s + i) (s + j)) (fun i => P (s + i)) t = some (S, q))
    (h2 : luStep Arith.div updCol (m - s) t S q = none) :
    pivotRow (m - s) S t = t ∧
    StoppedBlock m n s w t a c (fun i j => if s ≤ i ∧ i < s + (m - s) ∧ s ≤ j ∧ j < s + w then S (i - s) (j - s) else c i j)
      (mergeAt P s (setAt q t t)) ip := by
  obtain ⟨i1, i2, i3, i4⟩ := luRun_spec exactOps_col s (by omega) hrun
  obtain ⟨hpiv, hs⟩ := stoppedLU_of (n := w) exactOps_col ht h1 h2
  have hfull := luRun_shift hrun t
  rw [h1, Option.map_some] at hfull
  have hnone : luRun Arith.div updCol m a ip (s + (t + 1)) = none := by
    rw [luRun_shift hrun]
    unfold luRun; rw [h1, Option.bind_some, h2]; rfl
  have hstep : luStep Arith.div updCol m (s + t) (embed s t c S q) (addRange (mergeAt P s q) s (s + t)) = none := by
    rw [← Nat.add_assoc] at hnone
    unfold luRun at hnone
    rw [hfull, Option.bind_some] at hnone
    exact hnone
  obtain ⟨-, hA⟩ := stoppedLU_of (n := n) exactOps_col (show s + t < min m n by omega) hfull hstep
  have hlow : ∀ r, r < s → mergeAt P s (setAt q t t) r = P r := fun r hr => if_pos hr
  have hblk : ∀ r, mergeAt P s (setAt q t t) (s + r) = setAt q t t r := fun r => by
    unfold mergeAt; rw [if_neg (by omega), show s + r - s = r by omega]
  refine ⟨hpiv, by omega, hw, hA.before, hA.dep, fun i j hi hj => ?_, fun r hr => ?_, fun i r h1 h2 h3 => ?_, fun r hr => ?_, ?_, fun i j hi hj hn => ?_⟩
  · rw [rowSwaps_congr (p' := P) (fun r _ hr => hlow r (by omega)), i1.eq i j hi]
    congr 1
    refine sum_congr rfl (fun r hr => ?_)
    have hr := mem_range.1 hr
    unfold tri
    beta_reduce
    rw [if_neg (c := s ≤ i ∧ i < s + (m - s) ∧ s ≤ r ∧ r < s + w) (by omega), if_neg (c := s ≤ r ∧ r < s + (m - s) ∧ s ≤ j ∧ j < s + w) (by omega)]
  · rw [if_neg (by omega)]; exact i1.nz r hr
  · rw [if_neg (by omega)]; exact i4 i r h1 h2 h3
  · rw [hlow r hr]; exact i2 r hr
  · have e : (fun r => mergeAt P s (setAt q t t) (s + r)) = setAt q t t := funext hblk
    have e2 : (fun r => P (s + r)) = fun r => ip (s + r) := funext (fun r => i3 _ (by omega))
    rw [e, ← e2]
    have hS : ∀ i j, i < m - s → j < w → (if s ≤ s + i ∧ s + i < s + (m - s) ∧ s ≤ s + j ∧ s + j < s + w then S (s + i - s) (s + j - s) else c (s + i) (s + j)) = S i j := by
      intro i j hi hj
      rw [if_pos (by omega), show s + i - s = i by omega, show s + j - s = j by omega]
    have hk := hs.lt
    refine ⟨hs.lt, hs.before, hs.dep, fun i j hi hj => ?_, fun i h1 h2 => ?_, fun r hr => ?_, fun i r h1 h2 h3 => ?_, hs.pivots, hs.own, hs.rest⟩
    · rw [hs.eq i j hi hj]
      simp only [hS i j hi hj]
      congr 1
      refine sum_congr rfl (fun r hr => ?_)
      have hr := mem_range.1 hr
      unfold tri
      simp only [hS i r hi (by omega), hS r j (by omega) hj]
    · simp only [hS i t h2 (by omega)]; exact hs.zero i h1 h2
    · simp only [hS r r (by omega) (by omega)]; exact hs.diag r hr
    · simp only [hS i r h3 (by omega)]; exact hs.bound i r h1 h2 h3
  · rw [if_neg (by omega)]

/-- **C97** (getrf, column-major, any number of blocks): when getrf throws, the matrix and the pivot array hold the state of the blocked factorization
in the block of the first column that has no pivot: the blocks before it are complete, the columns of the block hold a stopped factorization of
the block with relative pivots, the other columns are as they were when the block was begun. -/
theorem C97_getrf_leaves {SS TR m n : Nat} {A : MPtr} {m0 : Mem V} (hp : GetrfPre SS TR m n A m0) {a : Nat → Nat → V} (h : Holds SS m0 A m n a)
    (ip : Nat → Nat) : LeavesBlockedLU SS (TR * SS) m n A a ip (getrfPtrS SS TR m n A ip m0) m0 := by
  have hSS := hp.ss
  have hd := hp.dense
  have hNB : 0 < TR * SS := Nat.mul_pos hp.tr hp.ss
  -- the success case is known
  have hraise := getrfPtr_raise (V := V) SS TR m n A ip
  rcases runs_getrfPtr hp ip h with ⟨P, m', e, b, e1, e2⟩ | ⟨e, m', e0, -, hnone, -⟩
  · rw [← hraise] at e
    obtain ⟨i1, -⟩ := luRun_spec exactOps_col (min m n) (Nat.min_le_left m n) e1
    refine ⟨true, P, m', b, raise_ok e, e2.holds, e2.frame, fun _ i j hi hj => ?_, fun h => by cases h⟩
    rw [i1.eq i j hi, if_neg (by omega), add_zero]
  let F : (Nat → Nat) → Mem V → Prop := fun p mem => ∃ s k c b, s % (TR * SS) = 0 ∧
    StoppedBlock m n s (blockWidth (TR * SS) m n s) k a c b p ip ∧ MatIn SS m n A m0 mem b
  suffices hsuff : Runs (getrfPtrS SS TR m n A ip) m0 (fun r mem => r.1 = false ∧ F r.2 mem) by
    obtain ⟨⟨f, p⟩, mem, e1, e2, s, k, c, b, e3, e4, e5⟩ := hsuff
    simp only at e2 e4
    subst e2
    exact ⟨false, p, mem, b, e1, e5.holds, e5.frame, fun h => (by cases h), fun _ => ⟨s, k, c, e3, e4⟩⟩
  unfold getrfPtrS
  refine Runs.bind (runs_loopUntil (fun k P mem => k % (TR * SS) = 0 ∧ k ≤ m ∧ k ≤ n ∧
      ∃ c, luRun Arith.div updCol m a ip k = some (c, P) ∧ MatIn SS m n A m0 mem c) F m hNB
      (fun k hc => by simp at hc; omega) (by omega) (by omega) ⟨Nat.zero_mod _, by omega, by omega, a, rfl, MatIn.of_holds h⟩ ?_) ?_
  · rintro k P mem hc ⟨h1, h2, h3, c, h4, h5⟩
    simp only [Bool.and_eq_true, decide_eq_true_eq] at hc
    have hpan := fun i j => uoff_addr hSS hd k k i j
    have hlp : LuPre SS TR (m - k) (TR * SS) ((A.unal SS).off SS k k) mem :=
      hp.toLuPre.sub (by omega) (by omega) (uoff_dense hSS hd _ _) (by rw [uoff_so hSS]; exact hp.so) hpan (fun y hy => h5.isSome hy)
    have hholds : Holds SS mem ((A.unal SS).off SS k k) (m - k) (TR * SS) (fun i j => c (k + i) (k + j)) := by
      intro i j hi hj
      rw [hpan]; exact h5.holds _ _ (by omega) (by omega)
    rcases luLeft_cases Arith.div updCol (m - k) (fun i j => c (k + i) (k + j)) (fun i => P (k + i)) (min (m - k) (TR * SS)) with
      ⟨S, q, g1, g2⟩ | ⟨t, S, q, ht, g1, g2, g3⟩
    · rcases runs_getrfStep hp h1 hc.1 hc.2 h4 h5 with ⟨P', mem', e, c', e1, e2⟩ | ⟨e, mem', -, -, hno, -⟩
      · rw [← getrfStep_raise] at e
        exact ⟨_, mem', raise_ok e, Or.inl ⟨rfl, by rw [Nat.add_mod_right]; exact h1, by omega, by omega, c', e1, e2⟩⟩
      · rw [luRun_shift h4, show TR * SS = min (m - k) (TR * SS) by omega, g1] at hno
        cases hno
    · unfold getrfStepS
      obtain ⟨r, mem', f1, f2, f3⟩ := runs_getf2PtrS hlp hholds (fun i => P (k + i))
      have hw : blockWidth (TR * SS) m n k = TR * SS := if_pos hc
      obtain ⟨hpiv, hst⟩ := stoppedBlock_of (n := n) (w := TR * SS) (by omega) ht h4 g1 g2
      rw [g3, hpiv] at f2 f3
      rw [swapRows_self] at f3
      subst f2
      refine ⟨_, mem', bind_ok f1, Or.inr ⟨rfl, k, t, c, _, h1, by rw [hw]; exact hst, ?_⟩⟩
      exact h5.block hp.inj (r0 := k) (c0 := k) (r := m - k) (c := TR * SS) (by omega) (by omega) hpan f3.holds f3.frame
  · rintro ⟨f, k, P⟩ mem (⟨e1, hcond, hk0, hkM, hkN, c, h4, h5⟩ | ⟨e1, e2⟩)
    · simp only at e1 hcond hk0 hkM hkN h4 h5 ⊢
      subst e1
      simp only [if_true]
      have hcond : ¬ (k + TR * SS < m ∧ k + TR * SS < n) := by
        intro hc
        have : (decide (k + TR * SS < m) && decide (k + TR * SS < n)) = true := by simp [hc]
        rw [this] at hcond; cases hcond
      have hmn : k < m ∧ k < n := by
        by_contra hc
        have := luRun_none_mono (K' := k) hnone (by omega)
        rw [h4] at this; cases this
      have hpan : ∀ i j : Nat, (A.off SS k k).addr SS i j = A.addr SS (k + i : Nat) (k + j : Nat) := by
        intro i j
        rw [dense_off_addr hd]; push_cast; rfl
      have hlp : LuPre SS TR (m - k) (n - k) (A.off SS k k) mem :=
        hp.toLuPre.sub (by omega) (by omega) hd hp.so hpan (fun y hy => h5.isSome hy)
      have hholds : Holds SS mem (A.off SS k k) (m - k) (n - k) (fun i j => c (k + i) (k + j)) := by
        intro i j hi hj
        rw [hpan]; exact h5.holds _ _ (by omega) (by omega)
      rcases luLeft_cases Arith.div updCol (m - k) (fun i j => c (k + i) (k + j)) (fun i => P (k + i)) (min (m - k) (n - k)) with
        ⟨S, q, g1, g2⟩ | ⟨t, S, q, ht, g1, g2, g3⟩
      · rw [show min m n = k + min (m - k) (n - k) by omega, luRun_shift h4, g1] at hnone
        cases hnone
      · unfold getrfTailS
        obtain ⟨r, mem', f1, f2, f3⟩ := runs_getf2PtrS hlp hholds (fun i => P (k + i))
        have hw : blockWidth (TR * SS) m n k = n - k := if_neg hcond
        obtain ⟨hpiv, hst⟩ := stoppedBlock_of (n := n) (w := n - k) (by omega) ht h4 g1 g2
        rw [g3, hpiv] at f2 f3
        rw [swapRows_self] at f3
        subst f2
        simp only
        rw [if_pos hmn]
        refine ⟨(false, mergeAt P k (setAt q t t)), mem', ?_, ?_⟩
        · have g : (do let p ← getf2PtrS SS TR (m - k) (n - k) (A.off SS k k) fun i => P (k + i); pure (p.1, mergeAt P k p.2) : Prog V _) mem =
              .ok (false, mergeAt P k (setAt q t t)) mem' := by rw [bind_ok f1]; rfl
          rw [bind_ok g]; rfl
        · exact ⟨rfl, k, t, c, _, hk0, by rw [hw]; exact hst,
            h5.block hp.inj (r0 := k) (c0 := k) (r := m - k) (c := n - k) (by omega) (by omega) hpan f3.holds f3.frame⟩
    · simp only at e1 e2 ⊢
      subst e1
      exact ⟨_, mem, rfl, rfl, e2⟩

omit [IsStrictOrderedRing V] [Arith V] [ExactOrd V] in
/-- the matrix is determined by what is left behind -/
theorem StoppedBlock.recover {T m n s s' k k' : Nat} (hT : 0 < T) {a a' c c' b : Nat → Nat → V} {p ip ip' : Nat → Nat} (hs : s % T = 0) (hs' : s' % T = 0)
    (h : StoppedBlock m n s (blockWidth T m n s) k a c b p ip) (h' : StoppedBlock m n s' (blockWidth T m n s') k' a' c' b p ip') :
    ∀ i j, i < m → j < n → a i j = a' i j := by
  have hlt := h.lt
  have hlt' := h'.lt
  have hkT : ∀ s k : Nat, s % T = 0 → s + k < min m n → k < blockWidth T m n s → k < T := by
    intro s k _ h1 h2
    unfold blockWidth at h2
    split at h2 <;> omega
  have hk1 := hkT s k hs hlt (by have := h.panel.lt; omega)
  have hk2 := hkT s' k' hs' hlt' (by have := h'.panel.lt; omega)
  -- the first zero of the diagonal
  have hz : ∀ {s k w : Nat} {a c : Nat → Nat → V} {ip : Nat → Nat}, StoppedBlock m n s w k a c b p ip → b (s + k) (s + k) = 0 ∧ ∀ q, q < s + k → b q q ≠ 0 := by
    intro s k w a c ip h
    refine ⟨h.panel.zero k le_rfl (by have := h.panel.lt; omega), fun q hq => ?_⟩
    by_cases hqs : q < s
    · exact h.diag q hqs
    · have := h.panel.diag (q - s) (by omega)
      simp only [show s + (q - s) = q by omega] at this
      exact this
  obtain ⟨z1, z2⟩ := hz h
  obtain ⟨z1', z2'⟩ := hz h'
  have hsum : s + k = s' + k' := by
    rcases lt_trichotomy (s + k) (s' + k') with hc | hc | hc
    · exact absurd z1 (z2' _ hc)
    · exact hc
    · exact absurd z1' (z2 _ hc)
  have hss : s = s' := by
    have e1 : (s + k) / T * T = s := by
      obtain ⟨u, rfl⟩ := Nat.dvd_of_mod_eq_zero hs
      rw [Nat.mul_add_div hT, Nat.div_eq_of_lt hk1, Nat.add_zero, Nat.mul_comm]
    have e2 : (s' + k') / T * T = s' := by
      obtain ⟨u, rfl⟩ := Nat.dvd_of_mod_eq_zero hs'
      rw [Nat.mul_add_div hT, Nat.div_eq_of_lt hk2, Nat.add_zero, Nat.mul_comm]
    rw [← e1, ← e2, hsum]
  subst hss
  obtain rfl : k = k' := by omega
  have hrec := h.panel.recover h'.panel
  have hcc : ∀ i j, i < m → j < n → c i j = c' i j := by
    intro i j hi hj
    by_cases hb : s ≤ i ∧ s ≤ j ∧ j < s + blockWidth T m n s
    · have := hrec (i - s) (j - s) (by omega) (by omega)
      simp only [show s + (i - s) = i by omega, show s + (j - s) = j by omega] at this
      exact this
    · rw [← h.other i j hi hj hb, h'.other i j hi hj hb]
  intro r j hr hj
  obtain ⟨i, hi, e⟩ := luCatch_perm_onto (p := p) (t := s) (m := m) (by omega) (fun q hq => (h.pivots q hq).2) hr
  have h1 := h.done i j hi hj
  rw [hcc i j hi hj, ← h'.done i j hi hj, rowSwaps_eq, rowSwaps_eq, e] at h1
  exact h1

/-- **C97**: nothing is lost when getrf throws: two matrices for which getrf throws and leaves the same elements and the same pivot array are equal. -/
theorem C97_getrf_recoverable {SS TR m n : Nat} {A : MPtr} {m0 m1 : Mem V} (hp : GetrfPre SS TR m n A m0) (hp' : GetrfPre SS TR m n A m1)
    {a a' : Nat → Nat → V} (h : Holds SS m0 A m n a) (h' : Holds SS m1 A m n a') (ip ip' : Nat → Nat) {p : Nat → Nat} {m0' m1' : Mem V}
    (e : getrfPtrS SS TR m n A ip m0 = .ok (false, p) m0') (e' : getrfPtrS SS TR m n A ip' m1 = .ok (false, p) m1')
    (hsame : ∀ i j : Nat, i < m → j < n → m0' (A.addr SS i j) = m1' (A.addr SS i j)) : ∀ i j, i < m → j < n → a i j = a' i j := by
  obtain ⟨r, q, mm, b, e1, hb, -, -, hs⟩ := C97_getrf_leaves hp h ip
  rw [e] at e1
  cases e1
  obtain ⟨r, q', mm, b', e1, hb', -, -, hs'⟩ := C97_getrf_leaves hp' h' ip'
  rw [e'] at e1
  cases e1
  obtain ⟨s, k, c, g1, hs⟩ := hs rfl
  obtain ⟨s', k', c', g2, hs'⟩ := hs' rfl
  have hbb : ∀ i j, i < m → j < n → b' i j = b i j := fun i j hi hj => by
    have h1 := hb' i j hi hj
    rw [← hsame i j hi hj, hb i j hi hj] at h1
    exact (Option.some.inj h1).symm
  refine hs.recover (Nat.mul_pos hp.tr hp.ss) (k' := k') (c' := c') (ip' := ip') g1 g2 ?_
  have l1 := hs'.lt
  have l2 := hs'.panel.lt
  have l3 := hs'.width
  refine ⟨hs'.lt, hs'.width, hs'.before, hs'.dep, fun i j hi hj => ?_, fun q hq => ?_, fun i q h1 h2 h3 => ?_, hs'.pivots, ?_,
    fun i j hi hj hn => by rw [← hbb i j hi hj]; exact hs'.other i j hi hj hn⟩
  · rw [hs'.done i j hi hj]
    congr 1
    refine sum_congr rfl (fun q hq => ?_)
    have hq := mem_range.1 hq
    unfold tri
    rw [hbb i q hi (by omega), hbb q j (by omega) hj]
  · rw [← hbb q q (by omega) (by omega)]; exact hs'.diag q hq
  · rw [← hbb i q h3 (by omega)]; exact hs'.bound i q h1 h2 h3
  · have hq := hs'.panel
    refine ⟨hq.lt, hq.before, hq.dep, fun i j hi hj => ?_, fun i h1 h2 => ?_, fun q h1 => ?_, fun i q h1 h2 h3 => ?_, hq.pivots, hq.own, hq.rest⟩
    · rw [hq.eq i j hi hj]
      simp only [hbb (s' + i) (s' + j) (by omega) (by omega)]
      congr 1
      refine sum_congr rfl (fun q h1 => ?_)
      have h1 := mem_range.1 h1
      unfold tri
      simp only [hbb (s' + i) (s' + q) (by omega) (by omega), hbb (s' + q) (s' + j) (by omega) (by omega)]
    · simp only [← hbb (s' + i) (s' + k') (by omega) (by omega)]; exact hq.zero i h1 h2
    · simp only [← hbb (s' + q) (s' + q) (by omega) (by omega)]; exact hq.diag q h1
    · simp only [← hbb (s' + i) (s' + q) (by omega) (by omega)]; exact hq.bound i q h1 h2 h3

end

/-- **C97** (any arithmetic, also floating point): whether getf2 throws, the pivot array and the elements it leaves behind are functions of the elements
of the matrix: they do not depend on where the matrix is stored, on the capacity, on the padding or on the tile size. -/
theorem C97_getf2_reproducible [Arith V] {SS TR SS' TR' m n : Nat} {A B : MPtr} {m0 m1 : Mem V} (hp : LuPre SS TR m n A m0) (hp' : LuPre SS' TR' m n B m1)
    {a : Nat → Nat → V} (h : Holds SS m0 A m n a) (h' : Holds SS' m1 B m n a) (ip : Nat → Nat) :
    ∃ r m0' m1', getf2PtrS SS TR m n A ip m0 = .ok r m0' ∧ getf2PtrS SS' TR' m n B ip m1 = .ok r m1' ∧
      ∀ i j : Nat, i < m → j < n → m0' (A.addr SS i j) = m1' (B.addr SS' i j) := by
  obtain ⟨r, m0', e1, e2, e3⟩ := runs_getf2PtrS hp h ip
  obtain ⟨r', m1', f1, f2, f3⟩ := runs_getf2PtrS hp' h' ip
  rw [← e2] at f2
  subst f2
  refine ⟨_, m0', m1', e1, f1, fun i j hi hj => ?_⟩
  rw [e3.holds i j hi hj, f3.holds i j hi hj]

end Blast
