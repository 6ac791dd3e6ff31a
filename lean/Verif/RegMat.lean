import Verif.VecPointer
/-
Register matrix.

Models class RegisterMatrix<T, M, N, columnMajor> of
/repo/include/blast/math/register_matrix/RegisterMatrix.hpp, with M = SS*RM.
(`SO == columnMajor` is static-asserted, l.38; the row-major branches are dead code and not modelled.)
-/
set_option linter.unusedSectionVars false
namespace Blast
open Prog
variable {V : Type} [Arith V]

/-- `SimdVecType v_[RM][RN]` (RegisterMatrix.hpp:385): `r i j l` is lane `l` of `v_[i][j]`. -/
abbrev Reg (V : Type) := Nat → Nat → Vec V

namespace Reg

/-- `v_[i][j] = v` -/
def upd (r : Reg V) (i j : Nat) (v : Vec V) : Reg V :=
  fun i' j' => if i' = i ∧ j' = j then v else r i' j'

/-- element access `at(i,j) = v_[i / SS][j][i % SS]` and `operator()`: RegisterMatrix.hpp:83-86, 388-398. -/
def el (SS : Nat) (r : Reg V) (i j : Nat) : V := r (i / SS) j (i % SS)

/-- `for (i < RM) if (g i) v_[i][j] = f(i, v_[i][j])` -/
def forRows (RM : Nat) (g : Nat → Bool) (j : Nat) (f : Nat → Vec V → Prog V (Vec V)) (r : Reg V) :
    Prog V (Reg V) :=
  foldN RM (fun i r => if g i then do let v ← f i (r i j); pure (r.upd i j v) else pure r) r

/-- `for (j < N) if (g j) body(j)` -/
def forCols (N : Nat) (g : Nat → Bool) (body : Nat → Reg V → Prog V (Reg V)) (r : Reg V) :
    Prog V (Reg V) :=
  foldN N (fun j r => if g j then body j r else pure r) r

/-- `reset()`: RegisterMatrix.hpp:90-98 (also run by the constructor, l.45-48) -/
def reset : Reg V := fun _ _ _ => Arith.zero

/-- `operator*=`: RegisterMatrix.hpp:102-109. Loop order is irrelevant (pure). -/
def scale (r : Reg V) (alpha : V) : Reg V := fun i j l => Arith.mul (r i j l) alpha

/-- `axpy(beta, a)`: RegisterMatrix.hpp:113-124 -/
def axpy (SS RM N : Nat) (r : Reg V) (beta : V) (a : MPtr) : Prog V (Reg V) :=
  forCols N (fun _ => true) (fun j => forRows RM (fun _ => true) j (fun i v => do
    let x ← (a.off SS (SS * i) j).load SS
    pure (fun l => Arith.fma beta (x l) (v l)))) r

/-- `axpy(beta, a, m, n)`: RegisterMatrix.hpp:128-139 -/
def axpyP (SS RM N : Nat) (r : Reg V) (beta : V) (a : MPtr) (m n : Nat) : Prog V (Reg V) :=
  forCols N (fun j => j < n) (fun j => forRows RM (fun i => SS * i < m) j (fun i v => do
    let x ← (a.off SS (SS * i) j).load SS
    pure (fun l => Arith.fma beta (x l) (v l)))) r

/-- `load(p)`: RegisterMatrix.hpp:432-439 -/
def load (SS RM N : Nat) (r : Reg V) (p : MPtr) : Prog V (Reg V) :=
  forCols N (fun _ => true) (fun j => forRows RM (fun _ => true) j (fun i _ =>
    (p.off SS (SS * i) j).load SS)) r

/-- `load(beta, p)`: RegisterMatrix.hpp:445-452 -/
def loadB (SS RM N : Nat) (r : Reg V) (beta : V) (p : MPtr) : Prog V (Reg V) :=
  forCols N (fun _ => true) (fun j => forRows RM (fun _ => true) j (fun i _ => do
    let x ← (p.off SS (SS * i) j).load SS
    pure (fun l => Arith.mul beta (x l)))) r

/-- `load(beta, p, m, n)`: RegisterMatrix.hpp:458-481. `v_[m / SS]` is out of bounds when
`m / SS ≥ RM` and `m % SS ≠ 0`. -/
def loadBP (SS RM N : Nat) (r : Reg V) (beta : V) (p : MPtr) (m n : Nat) : Prog V (Reg V) :=
  forCols N (fun j => j < n) (fun j r =>
    if p.aligned && p.padded then
      forRows RM (fun i => SS * i < m) j (fun i _ => do
        let x ← (p.off SS (SS * i) j).load SS
        pure (fun l => Arith.mul beta (x l))) r
    else do
      let r ← forRows RM (fun i => SS * i + SS ≤ m) j (fun i _ => do
        let x ← (p.off SS (SS * i) j).load SS
        pure (fun l => Arith.mul beta (x l))) r
      if m % SS ≠ 0 then
        if m / SS < RM then do
          let x ← (p.off SS ((m - m % SS : Nat) : Int) j).loadMask SS (fun l => l < m % SS)
          pure (r.upd (m / SS) j (fun l => Arith.mul beta (x l)))
        else ub
      else pure r) r

/-- `store(p)`: RegisterMatrix.hpp:486-493 -/
def store (SS RM N : Nat) (r : Reg V) (p : MPtr) : Prog V Unit :=
  forN N (fun j => forN RM (fun i => (p.off SS (SS * i) j).store SS (r i j)))

/-- `store(p, m, n)`: RegisterMatrix.hpp:499-515. `v_[m / SS]` is out of bounds when
`m / SS ≥ RM` and `m % SS ≠ 0`. -/
def storeP (SS RM N : Nat) (r : Reg V) (p : MPtr) (m n : Nat) : Prog V Unit := do
  forN N (fun j => onlyIf (j < n) (forN RM (fun i => onlyIf (SS * (i + 1) ≤ m)
    ((p.off SS (SS * i) j).store SS (r i j)))))
  if m % SS ≠ 0 then
    forN (min n N) (fun j =>
      if m / SS < RM then
        (p.off SS ((SS * (m / SS) : Nat) : Int) j).storeMask SS (r (m / SS) j) (fun l => l < m % SS)
      else ub)
  else pure ()

/-- `storeLower(p)`: RegisterMatrix.hpp:521-538 -/
def storeLower (SS RM N : Nat) (r : Reg V) (p : MPtr) : Prog V Unit :=
  forN N (fun j => do
    onlyIf (j % SS ≠ 0 ∧ j / SS < RM)
      ((p.off SS (SS * (j / SS) : Nat) j).storeMask SS (r (j / SS) j) (fun l => j % SS ≤ l))
    forFrom (if j % SS ≠ 0 ∧ j / SS < RM then j / SS + 1 else j / SS) RM (fun ri =>
      (p.off SS (SS * ri) j).store SS (r ri j)))

/-- `storeLower(p, m, n)`: RegisterMatrix.hpp:544-560. `skip` and `rem` are signed. -/
def storeLowerP (SS RM N : Nat) (r : Reg V) (p : MPtr) (m n : Nat) : Prog V Unit :=
  forN N (fun j => onlyIf (j < n) (forFrom (j / SS) RM (fun ri =>
    let skip : Int := (j : Int) - ri * SS
    let rem : Int := (m : Int) - ri * SS
    (p.off SS (SS * ri) j).storeMask SS (r ri j)
      (fun l => (l : Int) < rem && (if 0 < skip then decide (skip ≤ l) else true)))))

/-- loads `ax[i] = f(a(i*SS).load())`, RegisterMatrix.hpp:614-618, 641-645, 666-670, 691-695. The array is
uninitialised in C++; the model starts it with zeros, all entries `< RM` are overwritten. -/
def loadCol (SS RM : Nat) (a : VPtr) (f : V → V) : Prog V (Nat → Vec V) :=
  foldN RM (fun i ax => do
    let x ← (a.off SS ((i * SS : Nat) : Int)).load SS
    pure (fun i' => if i' = i then (fun l => f (x l)) else ax i')) (fun _ _ => Arith.zero)

/-- `ger(alpha, a, b)`: RegisterMatrix.hpp:610-629 (`f v = alpha * v`) and `ger(a, b)`: l.637-656 (`f v = v`) -/
def gerF (SS RM N : Nat) (r : Reg V) (f : V → V) (a b : VPtr) : Prog V (Reg V) := do
  let ax ← loadCol SS RM a f
  forCols N (fun _ => true) (fun j r => do
    let bx ← b.get SS j
    forRows RM (fun _ => true) j (fun i v => pure (fun l => Arith.fma (ax i l) bx (v l))) r) r

/-- `ger(alpha, a, b, m, n)`: RegisterMatrix.hpp:664-681 and `ger(a, b, m, n)`: l.689-706.
The argument `m` is not used: all rows are loaded unmasked and updated. -/
def gerFP (SS RM N : Nat) (r : Reg V) (f : V → V) (a b : VPtr) (_m n : Nat) : Prog V (Reg V) := do
  let ax ← loadCol SS RM a f
  forCols N (fun j => j < n) (fun j r => do
    let bx ← b.get SS j
    forRows RM (fun _ => true) j (fun i v => pure (fun l => Arith.fma (ax i l) bx (v l))) r) r

/-- UpLo.hpp -/
inductive UpLo where
  | lower
  | upper
  deriving DecidableEq, Repr

/-- Side.hpp -/
inductive Side where
  | left
  | right
  deriving DecidableEq, Repr

/-- `trsm(side, uplo, A)`, branch Right/Upper: RegisterMatrix.hpp:563-591. -/
def trsmRU (SS RM N : Nat) (r : Reg V) (A : MPtr) : Prog V (Reg V) :=
  forCols N (fun _ => true) (fun j r => do
    let r ← foldN j (fun k r => do
      let akj ← A.get SS k j
      forRows RM (fun _ => true) j (fun i v => pure (fun l => Arith.fnma akj (r i k l) (v l))) r) r
    let ajj ← A.get SS j j
    forRows RM (fun _ => true) j (fun _ v => pure (fun l => Arith.div (v l) ajj)) r) r

/-- `trsm(side, uplo, A)`: RegisterMatrix.hpp:563-600. Only Right/Upper is implemented; for the other three combinations
the body is `assert(false)`, which release builds skip: the registers keep their values and nothing is reported. -/
abbrev trsm (SS RM N : Nat) (side : Side) (uplo : UpLo) (r : Reg V) (A : MPtr) : Prog V (Reg V) :=
  match side, uplo with
  | .right, .upper => r.trsmRU SS RM N A
  | _, _ => pure r

/-- `potrf()`: RegisterMatrix.hpp:710-739 -/
def potrf (SS RM N : Nat) (r : Reg V) : Prog V (Reg V) :=
  forCols N (fun _ => true) (fun k r => do
    let r ← foldN k (fun j r => do
      let akj := r (k / SS) j (k % SS)
      forRows RM (fun i => k / SS ≤ i) k (fun i v => pure (fun l => Arith.fnma akj (r i j l) (v l))) r) r
    let s := Arith.sqrt (r (k / SS) k (k % SS))
    forRows RM (fun _ => true) k (fun i v =>
      pure (fun l => if i < k / SS then Arith.zero else Arith.div (v l) s)) r) r

/-- `trmm(alpha, a, uplo, diag, b)` (left multiplication by a triangular `a`): RegisterMatrix.hpp:745-789.
The function is noexcept, so its throws terminate. -/
def trmmL (SS RM N : Nat) (r : Reg V) (alpha : V) (a : MPtr) (uplo : UpLo) (diag : Bool) (b : MPtr) :
    Prog V (Reg V) := noexcept <|
  if diag then throw .logicError else
  match uplo with
  | .lower => throw .logicError
  | .upper => do
    let s ← foldN (RM * SS) (fun k (s : Reg V × MPtr × MPtr) => do
      let (r, a, bu) := s
      let ax ← foldN ((k + 1) / SS) (fun i ax => do
        let x ← (a.off SS ((i * SS : Nat) : Int) 0).load SS
        pure (fun i' => if i' = i then (fun l => Arith.mul alpha (x l)) else ax i')) (fun _ _ => Arith.zero)
      let ax ← ((if (k + 1) % SS ≠ 0 then do
          let x ← (a.off SS (((k + 1) / SS * SS : Nat) : Int) 0).loadMask SS (fun l => l < (k + 1) % SS)
          pure (fun i' => if i' = (k + 1) / SS then (fun l => Arith.mul alpha (x l)) else ax i')
        else pure ax) : Prog V (Nat → Vec V))
      let r ← forCols N (fun _ => true) (fun j r => do
        let bx ← bu.get SS 0 j
        let r ← forRows ((k + 1) / SS) (fun _ => true) j
          (fun i v => pure (fun l => Arith.fma (ax i l) bx (v l))) r
        if (k + 1) % SS ≠ 0 then
          pure (r.upd ((k + 1) / SS) j
            (fun l => Arith.fma (ax ((k + 1) / SS) l) bx (r ((k + 1) / SS) j l)))
        else pure r) r
      pure (r, a.hmove SS 1, bu.vmove SS 1)) (r, a, b.unal SS)
    pure s.1

/-- body of the loop over `k` in the two right multiplications, RegisterMatrix.hpp:808-828, 856-876 -/
def trmmRStep (SS RM : Nat) (alpha : V) (k : Nat) (s : Reg V × MPtr × MPtr) :
    Prog V (Reg V × MPtr × MPtr) := do
  let (r, b, au) := s
  let bx ← foldN RM (fun i ax => do
    let x ← (b.off SS ((i * SS : Nat) : Int) 0).load SS
    pure (fun i' => if i' = i then (fun l => Arith.mul alpha (x l)) else ax i')) (fun _ _ => Arith.zero)
  let r ← forCols (k + 1) (fun _ => true) (fun j r => do
    let ax ← au.get SS 0 j
    forRows RM (fun _ => true) j (fun i v => pure (fun l => Arith.fma (bx i l) ax (v l))) r) r
  pure (r, b.hmove SS 1, au.vmove SS 1)

/-- `trmm(alpha, b, a, uplo, diag)` (right multiplication): RegisterMatrix.hpp:795-838; noexcept. -/
def trmmR (SS RM N : Nat) (r : Reg V) (alpha : V) (b a : MPtr) (uplo : UpLo) (diag : Bool) :
    Prog V (Reg V) := noexcept <|
  if diag then throw .logicError else
  match uplo with
  | .upper => throw .logicError
  | .lower => do
    let s ← foldN N (trmmRStep SS RM alpha) (r, b, a.unal SS)
    pure s.1

/-- `trmm(alpha, b, a, uplo, diag, m, n)`: RegisterMatrix.hpp:844-880. `uplo`, `diag` and `m` are ignored. -/
def trmmRP (SS RM N : Nat) (r : Reg V) (alpha : V) (b a : MPtr) (_uplo : UpLo) (_diag : Bool)
    (_m n : Nat) : Prog V (Reg V) := noexcept <| do
  let s ← foldN N (fun k s => if k < n then trmmRStep SS RM alpha k s else pure s) (r, b, a.unal SS)
  pure s.1

/-! ### Loop rules -/

theorem readsQ_forRows {RM : Nat} {g : Nat → Bool} {j : Nat} {f : Nat → Vec V → Prog V (Vec V)}
    {r : Reg V} {m : Mem V} (Q : Nat → Vec V → Prop)
    (h : ∀ i, i < RM → g i = true → ReadsQ (f i (r i j)) m (Q i)) :
    ReadsQ (forRows RM g j f r) m (fun r' =>
      (∀ i, i < RM → g i = true → Q i (r' i j)) ∧
      (∀ i j', ¬ (j' = j ∧ i < RM ∧ g i = true) → r' i j' = r i j')) := by
  refine readsQ_foldN (I := fun k (r' : Reg V) =>
      (∀ i, i < k → g i = true → Q i (r' i j)) ∧
      (∀ i j', ¬ (j' = j ∧ i < k ∧ g i = true) → r' i j' = r i j')) ?_ ?_
  · exact ⟨fun i hi => by omega, fun i j' _ => rfl⟩
  · rintro k s hk ⟨h1, h2⟩
    by_cases hg : g k = true
    · rw [if_pos hg]
      have e : s k j = r k j := h2 k j (by omega)
      rw [e]
      refine ReadsQ.bind (h k hk hg) (fun v hv => readsQ_pure ⟨?_, ?_⟩)
      · intro i hi hgi
        unfold upd
        by_cases hik : i = k
        · subst hik; rw [if_pos ⟨rfl, rfl⟩]; exact hv
        · rw [if_neg (fun h => hik h.1)]; exact h1 i (by omega) hgi
      · intro i j' hn
        unfold upd
        rw [if_neg (by rintro ⟨rfl, rfl⟩; exact hn ⟨rfl, by omega, hg⟩)]
        exact h2 i j' (by rintro ⟨rfl, hi, hgi⟩; exact hn ⟨rfl, by omega, hgi⟩)
    · rw [if_neg hg]
      refine readsQ_pure ⟨?_, ?_⟩
      · intro i hi hgi
        by_cases hik : i = k
        · subst hik; exact absurd hgi hg
        · exact h1 i (by omega) hgi
      · intro i j' hn
        exact h2 i j' (by rintro ⟨rfl, hi, hgi⟩; exact hn ⟨rfl, by omega, hgi⟩)

theorem readsQ_forCols {N : Nat} {g : Nat → Bool} {body : Nat → Reg V → Prog V (Reg V)}
    {r : Reg V} {m : Mem V} (Q : Nat → (Nat → Vec V) → Prop)
    (h : ∀ j, j < N → g j = true → ∀ r0 : Reg V, (∀ i, r0 i j = r i j) →
      ReadsQ (body j r0) m (fun r' => Q j (fun i => r' i j) ∧ ∀ i j', j' ≠ j → r' i j' = r0 i j')) :
    ReadsQ (forCols N g body r) m (fun r' =>
      (∀ j, j < N → g j = true → Q j (fun i => r' i j)) ∧
      (∀ i j, ¬ (j < N ∧ g j = true) → r' i j = r i j)) := by
  refine readsQ_foldN (I := fun k (r' : Reg V) =>
      (∀ j, j < k → g j = true → Q j (fun i => r' i j)) ∧
      (∀ i j, ¬ (j < k ∧ g j = true) → r' i j = r i j)) ?_ ?_
  · exact ⟨fun i hi => by omega, fun i j' _ => rfl⟩
  · rintro k s hk ⟨h1, h2⟩
    by_cases hg : g k = true
    · rw [if_pos hg]
      refine (h k hk hg s (fun i => h2 i k (by omega))).mono ?_
      rintro r' ⟨hq, hn⟩
      refine ⟨?_, ?_⟩
      · intro j hj hgj
        by_cases hjk : j = k
        · subst hjk; exact hq
        · have e : (fun i => r' i j) = (fun i => s i j) := by funext i; exact hn i j hjk
          rw [e]; exact h1 j (by omega) hgj
      · intro i j hnj
        rw [hn i j (by rintro rfl; exact hnj ⟨by omega, hg⟩)]
        exact h2 i j (by rintro ⟨hj, hgj⟩; exact hnj ⟨by omega, hgj⟩)
    · rw [if_neg hg]
      refine readsQ_pure ⟨?_, ?_⟩
      · intro j hj hgj
        by_cases hjk : j = k
        · subst hjk; exact absurd hgj hg
        · exact h1 j (by omega) hgj
      · intro i j hnj
        exact h2 i j (by rintro ⟨hj, hgj⟩; exact hnj ⟨by omega, hgj⟩)

end Reg
end Blast
