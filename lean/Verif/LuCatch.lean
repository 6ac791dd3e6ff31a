import Verif.LuMath
import Verif.LuRow
import Verif.LuDet
/-
The LU factorizations with the pivot array as part of the state that a caller finds after catching the exception.

`getf2Ptr`, `getf2Row` and `getrfPtr` (Lu.lean) return the pivot array and lose it when an exception is thrown. The definitions below model the same
code; the result is a flag (`true`: the function returned, `false`: it threw std::invalid_argument) together with the array `ipiv` as it is then.
`*_raise` proves that raising the exception for the flag `false` gives back the models of Lu.lean.
-/
set_option linter.unusedSectionVars false
namespace Blast
open Prog Reg
variable {V : Type} [Arith V]

/-- throw std::invalid_argument if the flag is `false`, otherwise return the array: BLAST_THROW_EXCEPTION, dense/Getf2.hpp:69, 153 -/
def raise {σ : Type} (p : Prog V (Bool × σ)) : Prog V σ := do
  let r ← p
  if r.1 then pure r.2 else Prog.throw .invalidArgument

/-- `for (k = 0; k < n; ++k)` over a body that may leave the loop by an exception: dense/Getf2.hpp:58, 143 -/
def foldUntil {σ : Type} : (n : Nat) → (Nat → σ → Prog V (Bool × σ)) → σ → Prog V (Bool × σ)
  | 0, _, s => pure (true, s)
  | n + 1, f, s => do
    let r ← foldUntil n f s
    if r.1 then f n r.2 else pure r

/-- search of the pivot and exchange of the rows, column-major; returns `ip` and the element on the diagonal: dense/Getf2.hpp:61-68 -/
def getf2Find (SS m n : Nat) (A : MPtr) (k : Nat) : Prog V (Nat × V) := do
  let r ← iamaxPtr SS (m - k) (column ((A.unal SS).off SS k k))
  onlyIf (r + k != k) (swapPtr SS n (row ((A.unal SS).off SS k 0)) (row ((A.unal SS).off SS (r + k : Nat) 0)))
  let d ← derefAt SS A k k
  pure (r + k, d)

/-- division of the column by the pivot and update of the rest: dense/Getf2.hpp:71-75 -/
def getf2Elim (SS TR m n : Nat) (A : MPtr) (k : Nat) : Prog V Unit := do
  forFrom (k + 1) m (fun i => do
    let x ← derefAt SS A i k
    let d ← derefAt SS A k k
    assignAt SS A i k (Arith.div x d))
  onlyIf (decide (k + 1 < m) && decide (k + 1 < n))
    (gerPtr SS TR (m - k - 1) (n - k - 1) (Arith.neg Arith.one)
      (column ((A.unal SS).off SS (k + 1 : Nat) k)) (row ((A.unal SS).off SS k (k + 1 : Nat)))
      ((A.unal SS).off SS (k + 1 : Nat) (k + 1 : Nat)) ((A.unal SS).off SS (k + 1 : Nat) (k + 1 : Nat)))

/-- one iteration of column-major getf2; `ipiv[k]` is written before the exception is thrown: dense/Getf2.hpp:60-76 -/
def getf2StepS (SS TR m n : Nat) (A : MPtr) (k : Nat) (ipiv : Nat → Nat) : Prog V (Bool × (Nat → Nat)) := do
  let r ← getf2Find SS m n A k
  if Arith.eq r.2 Arith.zero then pure (false, setAt ipiv k r.1) else do
  getf2Elim SS TR m n A k
  pure (true, setAt ipiv k r.1)

/-- `getf2(m, n, A, ipiv)`, column-major: dense/Getf2.hpp:52-77 -/
def getf2PtrS (SS TR m n : Nat) (A : MPtr) (ipiv : Nat → Nat) : Prog V (Bool × (Nat → Nat)) :=
  foldUntil (min m n) (getf2StepS SS TR m n A) ipiv

/-- search of the pivot and exchange of the rows, row-major: dense/Getf2.hpp:146-152 -/
def getf2RowFind (SS : Nat) (A : Mat) (k : Nat) : Prog V (Nat × V) := do
  let r ← iamaxVec SS ⟨column ((A.p.unal SS).off SS k k), A.rows - k⟩
  onlyIf (r + k != k)
    (swapVec SS ⟨row ((A.p.unal SS).off SS k 0), A.cols⟩ ⟨row ((A.p.unal SS).off SS (r + k : Nat) 0), A.cols⟩)
  let d ← A.p.get SS k k
  pure (r + k, d)

/-- division of the column by the pivot and update of the rest, row-major: dense/Getf2.hpp:155-161 -/
def getf2RowElim (SS : Nat) (dv : V → V → V) (A : Mat) (k : Nat) (d : V) : Prog V Unit := do
  forFrom (k + 1) A.rows (fun i => do
    let x ← A.p.get SS i k
    A.p.set SS i k (dv x d))
  gerRowMat SS (Arith.neg Arith.one)
    ⟨column ((A.p.unal SS).off SS (k + 1 : Nat) k), A.rows - k - 1⟩
    ⟨row ((A.p.unal SS).off SS k (k + 1 : Nat)), A.cols - k - 1⟩
    ⟨(A.p.unal SS).off SS (k + 1 : Nat) (k + 1 : Nat), A.rows - k - 1, A.cols - k - 1⟩
    ⟨(A.p.unal SS).off SS (k + 1 : Nat) (k + 1 : Nat), A.rows - k - 1, A.cols - k - 1⟩

/-- one iteration of row-major getf2: dense/Getf2.hpp:143-162 -/
def getf2RowStepS (SS : Nat) (dv : V → V → V) (A : Mat) (k : Nat) (ipiv : Nat → Nat) : Prog V (Bool × (Nat → Nat)) := do
  let r ← getf2RowFind SS A k
  if Arith.eq r.2 Arith.zero then pure (false, setAt ipiv k r.1) else do
  getf2RowElim SS dv A k r.2
  pure (true, setAt ipiv k r.1)

/-- `getf2(A, ipiv)`, row-major: dense/Getf2.hpp:133-164 -/
def getf2RowS (SS : Nat) (dv : V → V → V) (A : Mat) (ipiv : Nat → Nat) : Prog V (Bool × (Nat → Nat)) :=
  foldUntil (min A.rows A.cols) (getf2RowStepS SS dv A) ipiv

/-- `for (; cond(k); k += step)` over a body that may leave the loop by an exception: dense/Getrf.hpp:64 -/
def loopUntil {σ : Type} : (fuel : Nat) → (cond : Nat → Bool) → (step : Nat) → (Nat → σ → Prog V (Bool × σ)) → Nat → σ → Prog V (Bool × (Nat × σ))
  | 0, _, _, _, _, _ => fun _ => .diverge
  | fuel + 1, cond, step, body, k, s =>
    if cond k then do
      let r ← body k s
      if r.1 then loopUntil fuel cond step body (k + step) r.2 else pure (false, (k, r.2))
    else pure (true, (k, s))

/-- one block of column-major getrf: if the factorization of the column panel throws, the pivot indices it has written stay relative to the block
and the interchanges are not applied to the other columns: dense/Getrf.hpp:66-101 -/
def getrfStepS (SS TR M N : Nat) (A : MPtr) (k : Nat) (ipiv : Nat → Nat) : Prog V (Bool × (Nat → Nat)) := do
  let r ← getf2PtrS SS TR (M - k) (TR * SS) ((A.unal SS).off SS k k) (fun i => ipiv (k + i))
  if r.1 then do
    let ipiv := addRange (mergeAt ipiv k r.2) k (k + TR * SS)
    laswp SS k A k (k + TR * SS) ipiv
    laswp SS (N - k - TR * SS) (A.off SS 0 (k + TR * SS : Nat)) k (k + TR * SS) ipiv
    trsmMat SS .lower true ⟨A.off SS k k, TR * SS, TR * SS⟩ ⟨A.off SS k (k + TR * SS : Nat), TR * SS, N - k - TR * SS⟩
      ⟨A.off SS k (k + TR * SS : Nat), TR * SS, N - k - TR * SS⟩
    gemmPtr SS (M - k - TR * SS) (N - k - TR * SS) (TR * SS) (Arith.neg Arith.one)
      (A.off SS (k + TR * SS : Nat) k) (A.off SS k (k + TR * SS : Nat)) Arith.one
      (A.off SS (k + TR * SS : Nat) (k + TR * SS : Nat)) (A.off SS (k + TR * SS : Nat) (k + TR * SS : Nat))
    pure (true, ipiv)
  else pure (false, mergeAt ipiv k r.2)

/-- what follows the loop over the blocks; `s`: the first column that is not factorized yet and the pivots: dense/Getrf.hpp:104-118 -/
def getrfTailS (SS TR M N : Nat) (A : MPtr) (s : Nat × (Nat → Nat)) : Prog V (Bool × (Nat → Nat)) := do
  let q ← (if s.1 < M ∧ s.1 < N then do
      let p ← getf2PtrS SS TR (M - s.1) (N - s.1) (A.off SS s.1 s.1) (fun i => s.2 (s.1 + i))
      pure (p.1, mergeAt s.2 s.1 p.2)
    else pure (true, s.2))
  if q.1 then do
    laswp SS s.1 A s.1 (min M N) (addRange q.2 s.1 (min M N))
    pure (true, addRange q.2 s.1 (min M N))
  else pure (false, q.2)

/-- `getrf(A, ipiv)`, column-major: dense/Getrf.hpp:52-119 -/
def getrfPtrS (SS TR M N : Nat) (A : MPtr) (ipiv : Nat → Nat) : Prog V (Bool × (Nat → Nat)) := do
  let r ← loopUntil (M + 1) (fun k => decide (k + TR * SS < M) && decide (k + TR * SS < N)) (TR * SS)
    (getrfStepS SS TR M N A) 0 ipiv
  if r.1 then getrfTailS SS TR M N A r.2 else pure (false, r.2.2)

/-! ### Raising the exception gives the models of Lu.lean -/

theorem raise_pure_true {σ : Type} (s : σ) : raise (pure (true, s) : Prog V (Bool × σ)) = pure s := rfl
theorem raise_pure_false {σ : Type} (s : σ) : raise (pure (false, s) : Prog V (Bool × σ)) = Prog.throw .invalidArgument := rfl

theorem raise_bind {α σ : Type} (p : Prog V α) (f : α → Prog V (Bool × σ)) : raise (p >>= f) = p >>= fun a => raise (f a) := by
  unfold raise; rw [bind_assoc']

theorem raise_ite {σ : Type} (c : Prop) [Decidable c] (p q : Prog V (Bool × σ)) : raise (if c then p else q) = if c then raise p else raise q := by
  split <;> rfl

theorem throw_bind {α β : Type} (e : Exn) (f : α → Prog V β) : (Prog.throw e >>= f) = Prog.throw e := rfl

/-- a program that goes on only if the flag is `true` -/
theorem raise_cont {σ τ : Type} (p : Prog V (Bool × σ)) (f g : Bool × σ → Prog V (Bool × τ)) (hg : ∀ r, raise (g r) = Prog.throw .invalidArgument) :
    raise (p >>= fun r => if r.1 then f r else g r) = raise p >>= fun s => raise (f (true, s)) := by
  rw [raise_bind]
  unfold raise
  rw [bind_assoc']
  congr 1
  funext r
  rcases r with ⟨_ | _, s⟩
  · have := hg (false, s)
    unfold raise at this
    exact this
  · rfl

theorem foldUntil_raise {σ : Type} {n : Nat} {f : Nat → σ → Prog V (Bool × σ)} {g : Nat → σ → Prog V σ} (h : ∀ k s, raise (f k s) = g k s) (s : σ) :
    raise (foldUntil n f s) = foldN n g s := by
  induction n with
  | zero => rfl
  | succ n ih =>
    show raise (foldUntil n f s >>= fun r => if r.1 then f n r.2 else pure r) = foldN n g s >>= g n
    rw [raise_bind, ← ih]
    unfold raise
    rw [bind_assoc']
    congr 1
    funext r
    rcases r with ⟨_ | _, s⟩
    · rfl
    · exact h n s

theorem getf2Step_raise (SS TR m n : Nat) (A : MPtr) (k : Nat) (ipiv : Nat → Nat) :
    raise (getf2StepS SS TR m n A k ipiv) = (getf2Step SS TR m n A k ipiv : Prog V (Nat → Nat)) := by
  unfold getf2StepS getf2Step getf2Find getf2Elim
  simp only [raise_bind, raise_ite, raise_pure_true, raise_pure_false, bind_assoc', pure_bind']

theorem getf2Ptr_raise (SS TR m n : Nat) (A : MPtr) (ipiv : Nat → Nat) :
    raise (getf2PtrS SS TR m n A ipiv) = (getf2Ptr SS TR m n A ipiv : Prog V (Nat → Nat)) :=
  foldUntil_raise (fun k s => getf2Step_raise SS TR m n A k s) ipiv

theorem getf2RowStep_raise (SS : Nat) (dv : V → V → V) (A : Mat) (k : Nat) (ipiv : Nat → Nat) :
    raise (getf2RowStepS SS dv A k ipiv) = getf2RowStep SS dv A k ipiv := by
  unfold getf2RowStepS getf2RowStep getf2RowFind getf2RowElim
  simp only [raise_bind, raise_ite, raise_pure_true, raise_pure_false, bind_assoc', pure_bind']

theorem getf2Row_raise (SS : Nat) (dv : V → V → V) (A : Mat) (ipiv : Nat → Nat) : raise (getf2RowS SS dv A ipiv) = getf2Row SS dv A ipiv :=
  foldUntil_raise (fun k s => getf2RowStep_raise SS dv A k s) ipiv

theorem loopUntil_raise {σ : Type} {cond : Nat → Bool} {step : Nat} {f : Nat → σ → Prog V (Bool × σ)} {g : Nat → σ → Prog V σ}
    (h : ∀ k s, raise (f k s) = g k s) (fuel k : Nat) (s : σ) : raise (loopUntil fuel cond step f k s) = loopS fuel cond step g k s := by
  induction fuel generalizing k s with
  | zero => rfl
  | succ fuel ih =>
    unfold loopUntil loopS
    rw [raise_ite]
    by_cases hc : cond k = true
    · rw [if_pos hc, if_pos hc, ← h k s, raise_cont _ (fun r => loopUntil fuel cond step f (k + step) r.2) _ (fun _ => rfl)]
      congr 1
      funext s
      exact ih _ s
    · rw [if_neg hc, if_neg hc]; rfl

theorem getrfStep_raise (SS TR M N : Nat) (A : MPtr) (k : Nat) (ipiv : Nat → Nat) :
    raise (getrfStepS SS TR M N A k ipiv) = (getrfStep SS TR M N A k ipiv : Prog V (Nat → Nat)) := by
  unfold getrfStepS getrfStep
  rw [← getf2Ptr_raise, raise_cont _ (fun r => do
    laswp SS k A k (k + TR * SS) (addRange (mergeAt ipiv k r.2) k (k + TR * SS))
    laswp SS (N - k - TR * SS) (A.off SS 0 (k + TR * SS : Nat)) k (k + TR * SS) (addRange (mergeAt ipiv k r.2) k (k + TR * SS))
    trsmMat SS .lower true ⟨A.off SS k k, TR * SS, TR * SS⟩ ⟨A.off SS k (k + TR * SS : Nat), TR * SS, N - k - TR * SS⟩
      ⟨A.off SS k (k + TR * SS : Nat), TR * SS, N - k - TR * SS⟩
    gemmPtr SS (M - k - TR * SS) (N - k - TR * SS) (TR * SS) (Arith.neg Arith.one)
      (A.off SS (k + TR * SS : Nat) k) (A.off SS k (k + TR * SS : Nat)) Arith.one
      (A.off SS (k + TR * SS : Nat) (k + TR * SS : Nat)) (A.off SS (k + TR * SS : Nat) (k + TR * SS : Nat))
    pure (true, addRange (mergeAt ipiv k r.2) k (k + TR * SS))) (fun r => pure (false, mergeAt ipiv k r.2)) (fun _ => rfl)]
  simp only [raise_bind, raise_pure_true]

theorem getrfPtr_raise (SS TR M N : Nat) (A : MPtr) (ipiv : Nat → Nat) :
    raise (getrfPtrS SS TR M N A ipiv) = (getrfPtr SS TR M N A ipiv : Prog V (Nat → Nat)) := by
  unfold getrfPtrS getrfPtr
  rw [← loopUntil_raise (getrfStep_raise SS TR M N A), raise_cont _ (fun r => getrfTailS SS TR M N A r.2) (fun r => pure (false, r.2.2)) (fun _ => rfl)]
  congr 1
  funext s
  unfold getrfTailS
  rw [raise_cont _ (fun q => do
      laswp SS s.1 A s.1 (min M N) (addRange q.2 s.1 (min M N))
      pure (true, addRange q.2 s.1 (min M N))) (fun q => pure (false, q.2)) (fun _ => rfl), raise_ite, raise_bind]
  simp only [raise_bind, raise_pure_true]
  congr 1
  split
  · rw [← getf2Ptr_raise]
    unfold raise
    rw [bind_assoc']
    congr 1
    funext p
    rcases p with ⟨_ | _, p⟩ <;> rfl
  · rfl

/-! ### What the functions leave behind -/

theorem runs_getf2Find {SS TR m n k : Nat} {A : MPtr} {m0 mem : Mem V} (hp : LuPre SS TR m n A m0)
    {a : Nat → Nat → V} (h : MatIn SS m n A m0 mem a) (hkm : k < m) (hkn : k < n) :
    Runs (getf2Find SS m n A k) mem (fun r mem' => r = (pivotRow m a k, swapRows k (pivotRow m a k) a k k) ∧
      MatIn SS m n A m0 mem' (swapRows k (pivotRow m a k) a)) := by
  have hSS := hp.ss
  have hd := hp.dense
  obtain ⟨hp1, hp2⟩ := pivotRow_lt a hkm
  unfold getf2Find
  refine Runs.bind (Reads.runs (a := (iamaxF (fun i => a (k + i) k) (m - k - 1)).2)
    (Q := fun r mem' => r + k = pivotRow m a k ∧ mem' = mem)
    (reads_iamaxPtr (plain_column hSS (uoff_dense hSS hd _ _)) (by omega) ?_) ⟨rfl, rfl⟩) ?_
  · intro i hi
    show mem (((A.unal SS).off SS k k).addr SS i (0 : Nat)) = _
    rw [uoff_addr hSS hd]
    exact h.holds _ _ (by omega) hkn
  rintro r _ ⟨hr, rfl⟩
  simp only [hr]
  refine Runs.bind (Q := fun _ mem' => MatIn SS m n A m0 mem' (swapRows k (pivotRow m a k) a)) ?_ ?_
  · unfold onlyIf
    by_cases hne : pivotRow m a k = k
    · rw [hne]
      simp only [bne_self_eq_false, Bool.false_eq_true, if_false]
      refine runs_pure ?_
      rw [swapRows_self]; exact h
    · have : (pivotRow m a k != k) = true := by simpa using hne
      rw [if_pos this]
      obtain ⟨m', e1, e2⟩ := h.swap_rows hSS hd hp.inj (B := A) (r0 := 0) (c0 := 0) (n := n) (p := k) (q := pivotRow m a k)
        (by omega) (by omega) (fun e => hne e.symm) (by omega) hd (fun i j => by simp)
      refine ⟨(), m', e1, e2.congr (fun i j hi hj => ?_)⟩
      rw [if_pos (by omega), Nat.zero_add, Nat.zero_add]
  rintro _ mem1 h1
  refine Runs.bind (Reads.runs (Q := fun d mem' => d = swapRows k (pivotRow m a k) a k k ∧ mem' = mem1)
    (by rw [derefAt_addr hSS hd]; exact reads_read (h1.holds k k hkm hkn)) ⟨rfl, rfl⟩) ?_
  rintro d _ ⟨rfl, rfl⟩
  exact runs_pure ⟨rfl, h1⟩

/-- a step is determined by the search of the pivot and by what raising the exception gives -/
theorem step_of_find {F : Prog V (Nat × V)} {E : V → Prog V Unit} {k : Nat} {ipiv : Nat → Nat} {mem mem1 : Mem V} {ip : Nat} {d : V}
    (hF : F mem = .ok (ip, d) mem1) {S : Prog V (Bool × (Nat → Nat))}
    (hS : S = (do let r ← F; if Arith.eq r.2 Arith.zero then pure (false, setAt ipiv k r.1) else do
      E r.2
      pure (true, setAt ipiv k r.1)))
    (hz : Arith.eq d Arith.zero = true) : S mem = .ok (false, setAt ipiv k ip) mem1 := by
  rw [hS, bind_ok hF, if_pos hz]; rfl

theorem raise_ok {σ : Type} {S : Prog V (Bool × σ)} {mem mem' : Mem V} {s : σ} (h : raise S mem = .ok s mem') : S mem = .ok (true, s) mem' := by
  change bind' S _ mem = _ at h
  unfold bind' at h
  rcases hS : S mem with ⟨⟨_ | _, s'⟩, m'⟩ | _ | _ | _ | _ <;> rw [hS] at h
  · cases h
  · cases h; rfl
  all_goals cases h

/-- `K` steps of elimination with partial pivoting, with the array of the pivots also after the exception (flag `false`); `K` steps of
dense/Getf2.hpp:58-76 on values -/
def luLeft (dv : V → V → V) (upd : V → V → V → V) (m : Nat) (a : Nat → Nat → V) (ip : Nat → Nat) : Nat → (Nat → Nat → V) × (Bool × (Nat → Nat))
  | 0 => (a, (true, ip))
  | k + 1 =>
    match luLeft dv upd m a ip k with
    | (b, (false, p)) => (b, (false, p))
    | (b, (true, p)) =>
      match luStep dv upd m k b p with
      | some (b', p') => (b', (true, p'))
      | none => (swapRows k (pivotRow m b k) b, (false, setAt p k (pivotRow m b k)))

theorem runs_foldUntil {SS M N m : Nat} {A : MPtr} {m0 : Mem V} (dv : V → V → V) (upd : V → V → V → V) {a : Nat → Nat → V} (h : Holds SS m0 A M N a)
    (ip : Nat → Nat) (step : Nat → (Nat → Nat) → Prog V (Bool × (Nat → Nat))) (K : Nat)
    (hsome : ∀ k b p mem b' p', k < K → MatIn SS M N A m0 mem b → luStep dv upd m k b p = some (b', p') →
      Runs (step k p) mem (fun r mem' => r = (true, p') ∧ MatIn SS M N A m0 mem' b'))
    (hnone : ∀ k b p mem, k < K → MatIn SS M N A m0 mem b → luStep dv upd m k b p = none →
      Runs (step k p) mem (fun r mem' => r = (false, setAt p k (pivotRow m b k)) ∧ MatIn SS M N A m0 mem' (swapRows k (pivotRow m b k) b))) :
    Runs (foldUntil K step ip) m0 (fun r mem' => r = (luLeft dv upd m a ip K).2 ∧ MatIn SS M N A m0 mem' (luLeft dv upd m a ip K).1) := by
  induction K with
  | zero => exact runs_pure ⟨rfl, MatIn.of_holds h⟩
  | succ K ih =>
    refine Runs.bind (ih (fun k b p mem b' p' hk => hsome k b p mem b' p' (by omega)) (fun k b p mem hk => hnone k b p mem (by omega))) ?_
    have e : luLeft dv upd m a ip (K + 1) = match luLeft dv upd m a ip K with
      | (b, (false, p)) => (b, (false, p))
      | (b, (true, p)) => match luStep dv upd m K b p with
        | some (b', p') => (b', (true, p'))
        | none => (swapRows K (pivotRow m b K) b, (false, setAt p K (pivotRow m b K))) := rfl
    rw [e]
    rcases luLeft dv upd m a ip K with ⟨b, _ | _, p⟩
    · rintro r mem1 ⟨rfl, h1⟩
      exact runs_pure ⟨rfl, h1⟩
    · rintro r mem1 ⟨rfl, h1⟩
      simp only [if_true]
      rcases hl : luStep dv upd m K b p with _ | ⟨b', p'⟩
      · exact hnone K b p mem1 (by omega) h1 hl
      · exact hsome K b p mem1 b' p' (by omega) h1 hl

theorem runs_getf2PtrS {SS TR m n : Nat} {A : MPtr} {m0 : Mem V} (hp : LuPre SS TR m n A m0) {a : Nat → Nat → V} (h : Holds SS m0 A m n a)
    (ip : Nat → Nat) : Runs (getf2PtrS SS TR m n A ip) m0 (fun r mem' => r = (luLeft Arith.div updCol m a ip (min m n)).2 ∧
      MatIn SS m n A m0 mem' (luLeft Arith.div updCol m a ip (min m n)).1) := by
  refine runs_foldUntil _ _ h ip _ _ (fun k b p mem b' p' hk hb hl => ?_) (fun k b p mem hk hb hl => ?_)
  · rcases runs_getf2Step hp hb (show k < m by omega) (show k < n by omega) p with ⟨q, mem', e1, a', e2, e3⟩ | ⟨e, mem', -, -, e2, -⟩
    · rw [hl] at e2
      cases e2
      rw [← getf2Step_raise] at e1
      exact ⟨_, mem', raise_ok e1, rfl, e3⟩
    · rw [hl] at e2; cases e2
  · obtain ⟨r, mem', e1, rfl, e3⟩ := runs_getf2Find hp hb (show k < m by omega) (show k < n by omega)
    refine ⟨_, mem', step_of_find e1 (E := fun _ => getf2Elim SS TR m n A k) rfl ?_, rfl, e3⟩
    unfold luStep at hl
    by_contra hc
    rw [if_neg hc] at hl
    cases hl

theorem runs_getf2RowFind {SS k : Nat} (hSS : 0 < SS) {A : Mat} (hd : A.p.panel = false) {m0 mem : Mem V} (hinj : Inj SS A.p A.rows A.cols)
    {a : Nat → Nat → V} (h : MatIn SS A.rows A.cols A.p m0 mem a) (hkm : k < A.rows) (hkn : k < A.cols) :
    Runs (getf2RowFind SS A k) mem (fun r mem' => r = (pivotRow A.rows a k, swapRows k (pivotRow A.rows a k) a k k) ∧
      MatIn SS A.rows A.cols A.p m0 mem' (swapRows k (pivotRow A.rows a k) a)) := by
  obtain ⟨hp1, hp2⟩ := pivotRow_lt a hkm
  unfold getf2RowFind
  refine Runs.bind (Reads.runs (a := (iamaxF (fun i => a (k + i) k) (A.rows - k - 1)).2)
    (Q := fun r mem' => r + k = pivotRow A.rows a k ∧ mem' = mem) ?_ ⟨rfl, rfl⟩) ?_
  · unfold iamaxVec
    rw [if_neg (show ¬ A.rows - k = 0 by omega)]
    refine reads_iamaxPtr (n := A.rows - k) (plain_column hSS (uoff_dense hSS hd _ _)) (by omega) ?_
    intro i hi
    show mem (((A.p.unal SS).off SS k k).addr SS i (0 : Nat)) = _
    rw [uoff_addr hSS hd]
    exact h.holds _ _ (by omega) hkn
  rintro r _ ⟨hr, rfl⟩
  simp only [hr]
  refine Runs.bind (Q := fun _ mem' => MatIn SS A.rows A.cols A.p m0 mem' (swapRows k (pivotRow A.rows a k) a)) ?_ ?_
  · unfold onlyIf
    by_cases hne : pivotRow A.rows a k = k
    · rw [hne]
      simp only [bne_self_eq_false, Bool.false_eq_true, if_false]
      refine runs_pure ?_
      rw [swapRows_self]; exact h
    · have : (pivotRow A.rows a k != k) = true := by simpa using hne
      rw [if_pos this]
      obtain ⟨m', e1, e2⟩ := h.swap_rows hSS hd hinj (B := A.p) (r0 := 0) (c0 := 0) (n := A.cols) (p := k)
        (q := pivotRow A.rows a k) (by omega) (by omega) (fun e => hne e.symm) (by omega) hd (fun i j => by simp)
      unfold swapVec
      rw [if_neg (by simp), if_pos (show A.cols > 0 by omega)]
      refine ⟨(), m', e1, e2.congr (fun i j hi hj => ?_)⟩
      rw [if_pos (by omega), Nat.zero_add, Nat.zero_add]
  rintro _ mem1 h1
  refine Runs.bind (Reads.runs (Q := fun d mem' => d = swapRows k (pivotRow A.rows a k) a k k ∧ mem' = mem1)
    (reads_read (h1.holds k k hkm hkn)) ⟨rfl, rfl⟩) ?_
  rintro d _ ⟨rfl, rfl⟩
  exact runs_pure ⟨rfl, h1⟩

theorem runs_getf2RowS {SS : Nat} (hSS : 0 < SS) (dv : V → V → V) {A : Mat} (hd : A.p.panel = false) {m0 : Mem V}
    (hinj : Inj SS A.p A.rows A.cols) {a : Nat → Nat → V} (h : Holds SS m0 A.p A.rows A.cols a) (ip : Nat → Nat) :
    Runs (getf2RowS SS dv A ip) m0 (fun r mem' => r = (luLeft dv updRow A.rows a ip (min A.rows A.cols)).2 ∧
      MatIn SS A.rows A.cols A.p m0 mem' (luLeft dv updRow A.rows a ip (min A.rows A.cols)).1) := by
  refine runs_foldUntil _ _ h ip _ _ (fun k b p mem b' p' hk hb hl => ?_) (fun k b p mem hk hb hl => ?_)
  · rcases runs_getf2RowStep hSS dv hd hinj hb (show k < A.rows by omega) (show k < A.cols by omega) p with ⟨q, mem', e1, a', e2, e3⟩ | ⟨e, mem', -, -, e2, -⟩
    · rw [hl] at e2
      cases e2
      rw [← getf2RowStep_raise] at e1
      exact ⟨_, mem', raise_ok e1, rfl, e3⟩
    · rw [hl] at e2; cases e2
  · obtain ⟨r, mem', e1, rfl, e3⟩ := runs_getf2RowFind hSS hd hinj hb (show k < A.rows by omega) (show k < A.cols by omega)
    refine ⟨_, mem', step_of_find e1 (E := fun d => getf2RowElim SS dv A k d) rfl ?_, rfl, e3⟩
    unfold luStep at hl
    by_contra hc
    rw [if_neg hc] at hl
    cases hl

/-- how the run ends: all steps done, or stopped at the first column whose pivot is zero -/
theorem luLeft_cases (dv : V → V → V) (upd : V → V → V → V) (m : Nat) (a : Nat → Nat → V) (ip : Nat → Nat) (K : Nat) :
    (∃ b p, luRun dv upd m a ip K = some (b, p) ∧ luLeft dv upd m a ip K = (b, (true, p))) ∨
    (∃ k b p, k < K ∧ luRun dv upd m a ip k = some (b, p) ∧ luStep dv upd m k b p = none ∧
      luLeft dv upd m a ip K = (swapRows k (pivotRow m b k) b, (false, setAt p k (pivotRow m b k)))) := by
  induction K with
  | zero => exact Or.inl ⟨a, ip, rfl, rfl⟩
  | succ K ih =>
    have e : luLeft dv upd m a ip (K + 1) = match luLeft dv upd m a ip K with
      | (b, (false, p)) => (b, (false, p))
      | (b, (true, p)) => match luStep dv upd m K b p with
        | some (b', p') => (b', (true, p'))
        | none => (swapRows K (pivotRow m b K) b, (false, setAt p K (pivotRow m b K))) := rfl
    rcases ih with ⟨b, p, h1, h2⟩ | ⟨k, b, p, hk, h1, h2, h3⟩
    · rw [h2] at e
      rcases hl : luStep dv upd m K b p with _ | ⟨b', p'⟩
      · simp only [hl] at e
        exact Or.inr ⟨K, b, p, by omega, h1, hl, e⟩
      · simp only [hl] at e
        refine Or.inl ⟨b', p', ?_, e⟩
        unfold luRun
        rw [h1]
        exact hl
    · rw [h3] at e
      exact Or.inr ⟨k, b, p, by omega, h1, h2, e⟩

end Blast
