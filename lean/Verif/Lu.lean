import Verif.Reference
import Verif.TrsmDense
import Verif.Ger
import Verif.Props.Reference
/-
LU factorization.

Models /repo/include/blast/math/dense/{Iamax,Swap,Laswp,Getf2,Getrf}.hpp.

The pivot array `size_t * ipiv` is a function from indices to values that is passed in and returned: a write to
`ipiv[k]` is an update of the function, `ipiv + k` is the shifted function. It lives in memory separate from that of
the matrices.
-/
set_option linter.unusedSectionVars false
namespace Blast
open Prog Reg
variable {V : Type} [Arith V]

/-! ### Model -/

/-- `*(~x)(i)` as a value: dense/Iamax.hpp:87, dense/Swap.hpp:43 -/
def vderef (SS : Nat) (x : VPtr) (i : Nat) : Prog V V := ((x.unal SS).off SS i).get SS 0

/-- `*(~x)(i) = v`: dense/Swap.hpp:43 -/
def vassign (SS : Nat) (x : VPtr) (i : Nat) (v : V) : Prog V Unit := ((x.unal SS).off SS i).set SS 0 v

/-- `iamax(n, x)`: dense/Iamax.hpp:66-95 (the `#if 1` branch; the assertion `n > 0` is not executed in release builds:
with n = 0 the code reads `*x`). -/
def iamaxPtr (SS n : Nat) (x : VPtr) : Prog V Nat := do
  let v0 ← x.get SS 0
  let r ← foldFrom 1 n (fun i s => do
    let v ← vderef SS x i
    pure (if Arith.gt (Arith.abs v) s.1 then (Arith.abs v, i) else s)) (Arith.abs v0, 0)
  pure r.2

/-- `iamax(x)`: dense/Iamax.hpp:170-178 -/
def iamaxVec (SS : Nat) (x : VArg) : Prog V Nat :=
  if x.n = 0 then throw .invalidArgument else iamaxPtr SS x.n x.p

/-- `swap(n, x, y)`: dense/Swap.hpp:35-44, element exchange by std::swap (temporary, two assignments) -/
def swapPtr (SS n : Nat) (x y : VPtr) : Prog V Unit :=
  forN n (fun i => do
    let t ← vderef SS x i
    let u ← vderef SS y i
    vassign SS x i u
    vassign SS y i t)

/-- `swap(x, y)`: dense/Swap.hpp:57-70 -/
def swapVec (SS : Nat) (x y : VArg) : Prog V Unit :=
  if y.n ≠ x.n then throw .invalidArgument
  else if x.n > 0 then swapPtr SS x.n x.p y.p else pure ()

/-- `laswp(A, k0, k1, ipiv)`: dense/Laswp.hpp:37-43; `A` has `n` columns; `row(A, k)` is a Blaze row view, whose
elements are those of row k of A. -/
def laswp (SS n : Nat) (A : MPtr) (k0 k1 : Nat) (ipiv : Nat → Nat) : Prog V Unit :=
  forFrom k0 k1 (fun k => onlyIf (k != ipiv k)
    (swapVec SS ⟨row ((A.unal SS).off SS k 0), n⟩ ⟨row ((A.unal SS).off SS (ipiv k : Nat) 0), n⟩))

/-- `f` with the value at `k` replaced by `v`: `ipiv[k] = v`: dense/Getf2.hpp:62 -/
def setAt (f : Nat → Nat) (k v : Nat) : Nat → Nat := fun i => if i = k then v else f i

/-- one iteration of column-major getf2: dense/Getf2.hpp:60-76 -/
def getf2Step (SS TR m n : Nat) (A : MPtr) (k : Nat) (ipiv : Nat → Nat) : Prog V (Nat → Nat) := do
  let r ← iamaxPtr SS (m - k) (column ((A.unal SS).off SS k k))
  let ip := r + k
  onlyIf (ip != k) (swapPtr SS n (row ((A.unal SS).off SS k 0)) (row ((A.unal SS).off SS (ip : Nat) 0)))
  let d ← derefAt SS A k k
  if Arith.eq d Arith.zero then throw .invalidArgument else do
  forFrom (k + 1) m (fun i => do
    let x ← derefAt SS A i k
    let d ← derefAt SS A k k
    assignAt SS A i k (Arith.div x d))
  onlyIf (decide (k + 1 < m) && decide (k + 1 < n))
    (gerPtr SS TR (m - k - 1) (n - k - 1) (Arith.neg Arith.one)
      (column ((A.unal SS).off SS (k + 1 : Nat) k)) (row ((A.unal SS).off SS k (k + 1 : Nat)))
      ((A.unal SS).off SS (k + 1 : Nat) (k + 1 : Nat)) ((A.unal SS).off SS (k + 1 : Nat) (k + 1 : Nat)))
  pure (setAt ipiv k ip)

/-- `getf2(m, n, A, ipiv)`, column-major: dense/Getf2.hpp:52-77. The loop `for (k = 0; k < m && k < n; ++k)` runs
`min(m, n)` times. `ET(-1)` is `neg one`. -/
def getf2Ptr (SS TR m n : Nat) (A : MPtr) (ipiv : Nat → Nat) : Prog V (Nat → Nat) :=
  foldN (min m n) (getf2Step SS TR m n A) ipiv

/-- one iteration of row-major getf2: dense/Getf2.hpp:143-162. `submatrix(...) /= s` is a Blaze operation; `dv x s` is
the value it assigns to an element `x` (Blaze may multiply by the reciprocal). -/
def getf2RowStep (SS : Nat) (dv : V → V → V) (A : Mat) (k : Nat) (ipiv : Nat → Nat) : Prog V (Nat → Nat) := do
  let r ← iamaxVec SS ⟨column ((A.p.unal SS).off SS k k), A.rows - k⟩
  let ip := r + k
  onlyIf (ip != k)
    (swapVec SS ⟨row ((A.p.unal SS).off SS k 0), A.cols⟩ ⟨row ((A.p.unal SS).off SS (ip : Nat) 0), A.cols⟩)
  let d ← A.p.get SS k k
  if Arith.eq d Arith.zero then throw .invalidArgument else do
  forFrom (k + 1) A.rows (fun i => do
    let x ← A.p.get SS i k
    A.p.set SS i k (dv x d))
  gerRowMat SS (Arith.neg Arith.one)
    ⟨column ((A.p.unal SS).off SS (k + 1 : Nat) k), A.rows - k - 1⟩
    ⟨row ((A.p.unal SS).off SS k (k + 1 : Nat)), A.cols - k - 1⟩
    ⟨(A.p.unal SS).off SS (k + 1 : Nat) (k + 1 : Nat), A.rows - k - 1, A.cols - k - 1⟩
    ⟨(A.p.unal SS).off SS (k + 1 : Nat) (k + 1 : Nat), A.rows - k - 1, A.cols - k - 1⟩
  pure (setAt ipiv k ip)

/-- `getf2(A, ipiv)`, row-major: dense/Getf2.hpp:133-164 -/
def getf2Row (SS : Nat) (dv : V → V → V) (A : Mat) (ipiv : Nat → Nat) : Prog V (Nat → Nat) :=
  foldN (min A.rows A.cols) (getf2RowStep SS dv A) ipiv

/-- `for (; cond(k); k += step) s = body(k, s)`, returning the final `k` and `s`: dense/Getrf.hpp:64 -/
def loopS {σ : Type} : (fuel : Nat) → (cond : Nat → Bool) → (step : Nat) → (Nat → σ → Prog V σ) → Nat → σ → Prog V (Nat × σ)
  | 0, _, _, _, _, _ => fun _ => .diverge
  | fuel + 1, cond, step, body, k, s =>
    if cond k then do
      let s ← body k s
      loopS fuel cond step body (k + step) s
    else pure (k, s)

/-- the array after a callee that was given `ipiv + k` has turned it into `p`: `ipiv + k` in dense/Getrf.hpp:67, 107 -/
def mergeAt (ipiv : Nat → Nat) (k : Nat) (p : Nat → Nat) : Nat → Nat := fun i => if i < k then ipiv i else p (i - k)

/-- `for (i = k; i < hi; ++i) ipiv[i] += k`: dense/Getrf.hpp:70-71, 111-112 -/
def addRange (ipiv : Nat → Nat) (k hi : Nat) : Nat → Nat := fun i => if k ≤ i ∧ i < hi then ipiv i + k else ipiv i

/-- one block of column-major getrf: dense/Getrf.hpp:66-101, block size `NB = TR * SS` -/
def getrfStep (SS TR M N : Nat) (A : MPtr) (k : Nat) (ipiv : Nat → Nat) : Prog V (Nat → Nat) := do
  let p ← getf2Ptr SS TR (M - k) (TR * SS) ((A.unal SS).off SS k k) (fun i => ipiv (k + i))
  let ipiv := addRange (mergeAt ipiv k p) k (k + TR * SS)
  laswp SS k A k (k + TR * SS) ipiv
  laswp SS (N - k - TR * SS) (A.off SS 0 (k + TR * SS : Nat)) k (k + TR * SS) ipiv
  trsmMat SS .lower true ⟨A.off SS k k, TR * SS, TR * SS⟩ ⟨A.off SS k (k + TR * SS : Nat), TR * SS, N - k - TR * SS⟩
    ⟨A.off SS k (k + TR * SS : Nat), TR * SS, N - k - TR * SS⟩
  gemmPtr SS (M - k - TR * SS) (N - k - TR * SS) (TR * SS) (Arith.neg Arith.one)
    (A.off SS (k + TR * SS : Nat) k) (A.off SS k (k + TR * SS : Nat)) Arith.one
    (A.off SS (k + TR * SS : Nat) (k + TR * SS : Nat)) (A.off SS (k + TR * SS : Nat) (k + TR * SS : Nat))
  pure ipiv

/-- `getrf(A, ipiv)`, column-major: dense/Getrf.hpp:52-119. Element access through the submatrix views is modelled by
the pointer to their origin. -/
def getrfPtr (SS TR M N : Nat) (A : MPtr) (ipiv : Nat → Nat) : Prog V (Nat → Nat) := do
  let r ← loopS (M + 1) (fun k => decide (k + TR * SS < M) && decide (k + TR * SS < N)) (TR * SS)
    (getrfStep SS TR M N A) 0 ipiv
  let k := r.1
  let ipiv ← (if k < M ∧ k < N then do
      let p ← getf2Ptr SS TR (M - k) (N - k) (A.off SS k k) (fun i => r.2 (k + i))
      pure (mergeAt r.2 k p)
    else pure r.2)
  let ipiv := addRange ipiv k (min M N)
  laswp SS k A k (min M N) ipiv
  pure ipiv

/-- `getrf(A, ipiv)`, row-major: dense/Getrf.hpp:141-162 -/
def getrfRow (SS : Nat) (dv : V → V → V) (A : Mat) (ipiv : Nat → Nat) : Prog V (Nat → Nat) :=
  foldN (min A.rows A.cols) (fun k ipiv => do
    let d ← A.p.get SS k k
    forFrom (k + 1) A.rows (fun i => do
      let x ← A.p.get SS i k
      A.p.set SS i k (dv x d))
    forFrom (k + 1) A.cols (fun j => forFrom (k + 1) A.rows (fun i => do
      let x ← A.p.get SS i j
      let l ← A.p.get SS i k
      let u ← A.p.get SS k j
      A.p.set SS i j (Arith.sub x (Arith.mul l u))))
    pure (setAt ipiv k k)) ipiv

/-! ### Values computed -/

/-- running maximum of |x 0|, …, |x t| and its first index: the loop of dense/Iamax.hpp:82-93 on values -/
def iamaxF (x : Nat → V) : Nat → V × Nat
  | 0 => (Arith.abs (x 0), 0)
  | t + 1 => if Arith.gt (Arith.abs (x (t + 1))) (iamaxF x t).1 then (Arith.abs (x (t + 1)), t + 1) else iamaxF x t

/-- rows `p` and `q` exchanged: effect of dense/Swap.hpp:42-43 on two rows -/
def swapRows (p q : Nat) (a : Nat → Nat → V) : Nat → Nat → V :=
  fun i j => a (if i = p then q else if i = q then p else i) j

/-- row chosen as pivot for column `k`: dense/Getf2.hpp:61 -/
def pivotRow (m : Nat) (a : Nat → Nat → V) (k : Nat) : Nat := (iamaxF (fun i => a (k + i) k) (m - k - 1)).2 + k

/-- elimination of column `k` below the diagonal; multipliers are stored in the column: dense/Getf2.hpp:71-75 on values -/
def elim (dv : V → V → V) (upd : V → V → V → V) (k : Nat) (a : Nat → Nat → V) : Nat → Nat → V := fun i j =>
  if k < i then
    if j = k then dv (a i k) (a k k)
    else if k < j then upd (dv (a i k) (a k k)) (a k j) (a i j) else a i j
  else a i j

/-- one elimination step with partial pivoting; `none`: a zero pivot was met: dense/Getf2.hpp:61-75 on values -/
def luStep (dv : V → V → V) (upd : V → V → V → V) (m k : Nat) (a : Nat → Nat → V) (ipiv : Nat → Nat) :
    Option ((Nat → Nat → V) × (Nat → Nat)) :=
  let ip := pivotRow m a k
  let a' := swapRows k ip a
  if Arith.eq (a' k k) Arith.zero then none else some (elim dv upd k a', setAt ipiv k ip)

/-- `K` elimination steps with partial pivoting: dense/Getf2.hpp:58-76 on values -/
def luRun (dv : V → V → V) (upd : V → V → V → V) (m : Nat) (a : Nat → Nat → V) (ipiv : Nat → Nat) :
    Nat → Option ((Nat → Nat → V) × (Nat → Nat))
  | 0 => some (a, ipiv)
  | k + 1 => (luRun dv upd m a ipiv k).bind (fun s => luStep dv upd m k s.1 s.2)

theorem iamaxF_le (x : Nat → V) (t : Nat) : (iamaxF x t).2 ≤ t := by
  induction t with
  | zero => exact Nat.le_refl _
  | succ t ih =>
    unfold iamaxF
    split
    · exact Nat.le_refl _
    · omega

theorem pivotRow_lt {m k : Nat} (a : Nat → Nat → V) (hk : k < m) : k ≤ pivotRow m a k ∧ pivotRow m a k < m := by
  unfold pivotRow
  have := iamaxF_le (fun i => a (k + i) k) (m - k - 1)
  omega

/-! ### Outcomes with exceptions -/

/-- `p` run in `m` either returns normally in a state satisfying `Q` or throws in a state satisfying `E`. -/
def RunsE {α : Type} (p : Prog V α) (m : Mem V) (Q : α → Mem V → Prop) (E : Exn → Mem V → Prop) : Prop :=
  (∃ a m', p m = .ok a m' ∧ Q a m') ∨ (∃ e m', p m = .throw e m' ∧ E e m')

theorem Prog.Runs.e {α : Type} {p : Prog V α} {m : Mem V} {Q : α → Mem V → Prop} {E : Exn → Mem V → Prop} (h : Runs p m Q) :
    RunsE p m Q E := Or.inl h

theorem runsE_throw {α : Type} {e : Exn} {m : Mem V} {Q : α → Mem V → Prop} {E : Exn → Mem V → Prop} (h : E e m) :
    RunsE (throw e : Prog V α) m Q E := Or.inr ⟨e, m, rfl, h⟩

theorem RunsE.bind {α β : Type} {p : Prog V α} {f : α → Prog V β} {m : Mem V} {Q : α → Mem V → Prop}
    {R : β → Mem V → Prop} {E : Exn → Mem V → Prop} (h : RunsE p m Q E) (h2 : ∀ a m', Q a m' → RunsE (f a) m' R E) :
    RunsE (p >>= f) m R E := by
  rcases h with ⟨a, m', h, hq⟩ | ⟨e, m', h, he⟩
  · rcases h2 a m' hq with ⟨b, m'', h', hr⟩ | ⟨e, m'', h', hr⟩
    · exact Or.inl ⟨b, m'', by rw [bind_ok h]; exact h', hr⟩
    · exact Or.inr ⟨e, m'', by rw [bind_ok h]; exact h', hr⟩
  · refine Or.inr ⟨e, m', ?_, he⟩
    show Prog.bind' p f m = _
    unfold Prog.bind'; rw [h]

theorem RunsE.mono {α : Type} {p : Prog V α} {m : Mem V} {Q Q' : α → Mem V → Prop} {E E' : Exn → Mem V → Prop}
    (h : RunsE p m Q E) (h1 : ∀ a m', Q a m' → Q' a m') (h2 : ∀ e m', E e m' → E' e m') : RunsE p m Q' E' := by
  rcases h with ⟨a, m', h, hq⟩ | ⟨e, m', h, he⟩
  · exact Or.inl ⟨a, m', h, h1 _ _ hq⟩
  · exact Or.inr ⟨e, m', h, h2 _ _ he⟩

theorem runsE_loopS {σ : Type} {fuel : Nat} {cond : Nat → Bool} {step : Nat} {body : Nat → σ → Prog V σ} {k : Nat} {s : σ}
    {m : Mem V} {E : Exn → Mem V → Prop} (I : Nat → σ → Mem V → Prop) (bound : Nat) (hstep : 0 < step)
    (hb : ∀ k, cond k = true → k < bound) (hf : bound < fuel + k) (hf0 : 0 < fuel) (h0 : I k s m)
    (hs : ∀ k s m, cond k = true → I k s m → RunsE (body k s) m (I (k + step)) E) :
    RunsE (loopS fuel cond step body k s) m (fun r m' => cond r.1 = false ∧ I r.1 r.2 m') E := by
  induction fuel generalizing k s m with
  | zero => omega
  | succ fuel ih =>
    unfold loopS
    by_cases hc : cond k = true
    · rw [if_pos hc]
      have := hb k hc
      exact RunsE.bind (hs k s m hc h0) (fun s' m' h' => ih (by omega) (by omega) h')
    · rw [if_neg hc]
      exact Or.inl ⟨_, _, rfl, by simpa using hc, h0⟩

/-! ### Matrices in memory -/

/-- `m` is `m0` with the `M × N` matrix at `A` now holding `a` -/
structure MatIn (SS M N : Nat) (A : MPtr) (m0 m : Mem V) (a : Nat → Nat → V) : Prop where
  holds : Holds SS m A M N a
  frame : ∀ y, ¬ Cells SS A M N y → m y = m0 y

theorem MatIn.isSome {SS M N : Nat} {A : MPtr} {m0 m : Mem V} {a : Nat → Nat → V} (h : MatIn SS M N A m0 m a) {y : Int}
    (hy : (m0 y).isSome = true) : (m y).isSome = true := by
  by_cases hc : Cells SS A M N y
  · obtain ⟨i, j, hi, hj, rfl⟩ := hc
    rw [h.holds i j hi hj]; rfl
  · rw [h.frame y hc]; exact hy

theorem MatIn.trans {SS M N : Nat} {A : MPtr} {m0 m1 m2 : Mem V} {a b : Nat → Nat → V} (h1 : MatIn SS M N A m0 m1 a)
    (h2 : MatIn SS M N A m1 m2 b) : MatIn SS M N A m0 m2 b :=
  ⟨h2.holds, fun y hy => by rw [h2.frame y hy, h1.frame y hy]⟩

theorem MatIn.congr {SS M N : Nat} {A : MPtr} {m0 m : Mem V} {a b : Nat → Nat → V} (h : MatIn SS M N A m0 m a)
    (he : ∀ i j, i < M → j < N → a i j = b i j) : MatIn SS M N A m0 m b :=
  ⟨fun i j hi hj => by rw [h.holds i j hi hj, he i j hi hj], h.frame⟩

theorem MatIn.of_holds {SS M N : Nat} {A : MPtr} {m : Mem V} {a : Nat → Nat → V} (h : Holds SS m A M N a) :
    MatIn SS M N A m m a := ⟨h, fun _ _ => rfl⟩

/-- memory after writing `v` at `x` -/
def upd1 (m : Mem V) (x : Int) (v : V) : Mem V := fun y => if y = x then some v else m y

theorem write_ok {m : Mem V} {x : Int} {v : V} (h : (m x).isSome = true) : write x v m = .ok () (upd1 m x v) := by
  unfold write
  cases hx : m x with
  | none => simp [hx] at h
  | some _ => rfl

/-- writing one element -/
theorem MatIn.write {SS M N : Nat} {A : MPtr} {m0 m : Mem V} {a : Nat → Nat → V} (h : MatIn SS M N A m0 m a)
    (hinj : Inj SS A M N) {p q : Nat} (hp : p < M) (hq : q < N) (v : V) :
    MatIn SS M N A m0 (upd1 m (A.addr SS p q) v) (fun i j => if i = p ∧ j = q then v else a i j) := by
  constructor
  · intro i j hi hj
    unfold upd1
    beta_reduce
    by_cases he : i = p ∧ j = q
    · obtain ⟨rfl, rfl⟩ := he; simp
    · rw [if_neg (fun e => he (hinj _ _ _ _ hi hj hp hq e)), if_neg he, h.holds i j hi hj]
  · intro y hy
    unfold upd1
    rw [if_neg (fun e => hy ⟨p, q, hp, hq, e⟩), h.frame y hy]

theorem dense_off_addr {SS : Nat} {A : MPtr} (hp : A.panel = false) (i j a b : Int) :
    (A.off SS i j).addr SS a b = A.addr SS (i + a) (j + b) := by
  obtain ⟨pn, so, al, pd, pt, sp⟩ := A
  simp only at hp; subst hp
  cases so <;> simp [MPtr.off, MPtr.addr, Int.mul_add] <;> omega

theorem dense_unal_addr {SS : Nat} (hSS : 0 < SS) {A : MPtr} (hp : A.panel = false) (a b : Int) :
    (A.unal SS).addr SS a b = A.addr SS a b := by
  rw [MPtr.unal_ptr hSS]
  obtain ⟨pn, so, al, pd, pt, sp⟩ := A
  simp only at hp; subst hp
  cases so <;> simp [MPtr.addr]

theorem unal_panel {SS : Nat} (hSS : 0 < SS) {A : MPtr} : (A.unal SS).panel = A.panel := by rw [MPtr.unal_ptr hSS]

theorem dense_uoff_addr {SS : Nat} (hSS : 0 < SS) {A : MPtr} (hp : A.panel = false) (i j a b : Int) :
    ((A.unal SS).off SS i j).addr SS a b = A.addr SS (i + a) (j + b) := by
  rw [dense_off_addr (by rw [unal_panel hSS, hp]), dense_unal_addr hSS hp]

theorem derefAt_addr {SS : Nat} (hSS : 0 < SS) {A : MPtr} (hp : A.panel = false) (i j : Nat) :
    (derefAt SS A i j : Prog V V) = Prog.read (A.addr SS i j) := by
  unfold derefAt
  rw [← MPtr.addr_zero hSS, dense_uoff_addr hSS hp]; simp

theorem assignAt_addr {SS : Nat} (hSS : 0 < SS) {A : MPtr} (hp : A.panel = false) (i j : Nat) (v : V) :
    (assignAt SS A i j v : Prog V Unit) = Prog.write (A.addr SS i j) v := by
  unfold assignAt
  rw [← MPtr.addr_zero hSS, dense_uoff_addr hSS hp]; simp

/-- `(~x)(i)` addresses element `i` -/
def VPtr.Plain (SS : Nat) (x : VPtr) : Prop := ∀ i : Int, ((x.unal SS).off SS i).addr SS 0 = x.addr SS i

theorem plain_row {SS : Nat} (hSS : 0 < SS) {q : MPtr} (hp : q.panel = false) : (row q).Plain SS := by
  intro i
  show ((q.unal SS).off SS 0 i).addr SS 0 0 = q.addr SS 0 i
  rw [dense_uoff_addr hSS hp]; simp

theorem plain_column {SS : Nat} (hSS : 0 < SS) {q : MPtr} (hp : q.panel = false) : (column q).Plain SS := by
  intro i
  show ((q.unal SS).off SS i 0).addr SS 0 0 = q.addr SS i 0
  rw [dense_uoff_addr hSS hp]; simp

/-! ### iamax -/

theorem reads_iamaxPtr {SS n : Nat} {x : VPtr} (hx : x.Plain SS) {m : Mem V} {f : Nat → V} (hn : 0 < n)
    (h : VHolds SS m x n f) : Reads (iamaxPtr SS n x) m (iamaxF f (n - 1)).2 := by
  unfold iamaxPtr
  refine Reads.bind (reads_read (h 0 hn)) ?_
  refine Reads.bind (b := (iamaxF f (n - 1)).2) (reads_foldN (fun t => iamaxF f t) rfl (fun t ht => ?_)) reads_pure
  unfold vderef VPtr.get
  beta_reduce
  rw [hx]
  refine Reads.bind (reads_read (h (1 + t) (by omega))) ?_
  refine reads_pure' ?_
  rw [Nat.add_comm 1 t]; rfl

/-! ### swap -/

theorem runs_swap {SS n : Nat} {x y : VPtr} (hx : x.Plain SS) (hy : y.Plain SS) {m : Mem V}
    (sx : ∀ i : Nat, i < n → (m (x.addr SS i)).isSome = true) (sy : ∀ i : Nat, i < n → (m (y.addr SS i)).isSome = true)
    (ix : ∀ i j : Nat, i < n → j < n → x.addr SS i = x.addr SS j → i = j)
    (iy : ∀ i j : Nat, i < n → j < n → y.addr SS i = y.addr SS j → i = j)
    (ixy : ∀ i j : Nat, i < n → j < n → x.addr SS i ≠ y.addr SS j) :
    ∃ m', swapPtr SS n x y m = .ok () m' ∧ (∀ i : Nat, i < n → m' (x.addr SS i) = m (y.addr SS i)) ∧
      (∀ i : Nat, i < n → m' (y.addr SS i) = m (x.addr SS i)) ∧
      (∀ z, (∀ i : Nat, i < n → z ≠ x.addr SS i ∧ z ≠ y.addr SS i) → m' z = m z) := by
  have key : Runs (swapPtr SS n x y) m (fun _ m' => (∀ i : Nat, i < n → m' (x.addr SS i) = m (y.addr SS i)) ∧
      (∀ i : Nat, i < n → m' (y.addr SS i) = m (x.addr SS i)) ∧
      (∀ z, (∀ i : Nat, i < n → z ≠ x.addr SS i ∧ z ≠ y.addr SS i) → m' z = m z)) := by
    refine runs_forN (fun t m' => (∀ i : Nat, i < t → m' (x.addr SS i) = m (y.addr SS i)) ∧
      (∀ i : Nat, i < t → m' (y.addr SS i) = m (x.addr SS i)) ∧
      (∀ z, (∀ i : Nat, i < t → z ≠ x.addr SS i ∧ z ≠ y.addr SS i) → m' z = m z))
      ⟨fun i hi => by omega, fun i hi => by omega, fun z _ => rfl⟩ ?_
    rintro t m1 ht ⟨h1, h2, h3⟩
    have ex : m1 (x.addr SS t) = m (x.addr SS t) := h3 _ (fun i hi =>
      ⟨fun e => by have := ix _ _ ht (by omega) e; omega, ixy _ _ ht (by omega)⟩)
    have ey : m1 (y.addr SS t) = m (y.addr SS t) := h3 _ (fun i hi =>
      ⟨fun e => ixy _ _ (by omega) ht e.symm, fun e => by have := iy _ _ ht (by omega) e; omega⟩)
    obtain ⟨u, hu⟩ := Option.isSome_iff_exists.1 (sx t ht)
    obtain ⟨w, hw⟩ := Option.isSome_iff_exists.1 (sy t ht)
    unfold vderef vassign VPtr.get VPtr.set
    rw [hx, hy]
    refine Reads.bind_runs (reads_read (ex.trans hu)) (Reads.bind_runs (reads_read (ey.trans hw)) ?_)
    refine Runs.bind (Q := fun _ m2 => m2 = upd1 m1 (x.addr SS t) w) ⟨(), _, write_ok (by rw [ex, hu]; rfl), rfl⟩ ?_
    rintro _ m2 rfl
    have eyx : y.addr SS t ≠ x.addr SS t := fun e => ixy _ _ ht ht e.symm
    refine ⟨(), _, write_ok (by unfold upd1; rw [if_neg eyx, ey, hw]; rfl), ?_, ?_, ?_⟩
    · intro i hi
      unfold upd1
      rw [if_neg (ixy _ _ (by omega) ht)]
      by_cases hit : i = t
      · subst hit; rw [if_pos rfl, hw]
      · rw [if_neg (fun e => hit (ix _ _ (by omega) ht e)), h1 i (by omega)]
    · intro i hi
      unfold upd1
      by_cases hit : i = t
      · subst hit; rw [if_pos rfl, hu]
      · rw [if_neg (fun e => hit (iy _ _ (by omega) ht e)), if_neg (fun e => ixy _ _ ht (by omega) e.symm), h2 i (by omega)]
    · intro z hz
      unfold upd1
      rw [if_neg (hz t (by omega)).2, if_neg (hz t (by omega)).1]
      exact h3 z (fun i hi => hz i (by omega))
  obtain ⟨_, m', h1, h2⟩ := key
  exact ⟨m', h1, h2⟩

/-- exchanging rows `p` and `q`, columns `c0 .. c0+n-1`, of a matrix in memory -/
theorem MatIn.swap_rows {SS M N : Nat} (hSS : 0 < SS) {A : MPtr} (hd : A.panel = false) {m0 m : Mem V} {a : Nat → Nat → V}
    (h : MatIn SS M N A m0 m a) (hinj : Inj SS A M N) {B : MPtr} {r0 c0 n p q : Nat} (hp : r0 + p < M) (hq : r0 + q < M)
    (hpq : p ≠ q) (hn : c0 + n ≤ N) (hB : B.panel = false)
    (hBa : ∀ i j : Int, B.addr SS i j = A.addr SS (r0 + i) (c0 + j)) :
    ∃ m', swapPtr SS n (row ((B.unal SS).off SS p 0)) (row ((B.unal SS).off SS q 0)) m = .ok () m' ∧
      MatIn SS M N A m0 m' (fun i j => if c0 ≤ j ∧ j < c0 + n then swapRows (r0 + p) (r0 + q) a i j else a i j) := by
  have ea : ∀ (s i : Nat), (row ((B.unal SS).off SS s 0)).addr SS i = A.addr SS (r0 + s : Nat) (c0 + i : Nat) := by
    intro s i
    show ((B.unal SS).off SS s 0).addr SS 0 i = _
    rw [dense_uoff_addr hSS hB, hBa]
    push_cast; simp
  have dp : ∀ s : Nat, ((B.unal SS).off SS s 0).panel = false := by
    intro s
    show (B.unal SS).panel = false
    rw [unal_panel hSS, hB]
  obtain ⟨m', h1, h2, h3, h4⟩ := runs_swap (n := n) (plain_row hSS (dp p)) (plain_row hSS (dp q)) (m := m)
    (fun i hi => by rw [ea, h.holds _ _ hp (by omega)]; rfl)
    (fun i hi => by rw [ea, h.holds _ _ hq (by omega)]; rfl)
    (fun i j hi hj e => by
      rw [ea, ea] at e
      have := (hinj _ _ _ _ hp (by omega) hp (by omega) e).2; omega)
    (fun i j hi hj e => by
      rw [ea, ea] at e
      have := (hinj _ _ _ _ hq (by omega) hq (by omega) e).2; omega)
    (fun i j hi hj e => by
      rw [ea, ea] at e
      have := (hinj _ _ _ _ hp (by omega) hq (by omega) e).1; omega)
  refine ⟨m', h1, ?_, ?_⟩
  · intro i j hi hj
    beta_reduce
    by_cases hc : c0 ≤ j ∧ j < c0 + n
    · rw [if_pos hc]
      unfold swapRows
      by_cases hip : i = r0 + p
      · subst hip
        rw [if_pos rfl]
        have := h2 (j - c0) (by omega)
        rw [ea, ea, show c0 + (j - c0) = j by omega] at this
        rw [this, h.holds _ _ hq hj]
      · rw [if_neg hip]
        by_cases hiq : i = r0 + q
        · subst hiq
          rw [if_pos rfl]
          have := h3 (j - c0) (by omega)
          rw [ea, ea, show c0 + (j - c0) = j by omega] at this
          rw [this, h.holds _ _ hp hj]
        · rw [if_neg hiq, h4 _ (fun t ht => ?_), h.holds i j hi hj]
          rw [ea, ea]
          exact ⟨fun e => hip (hinj _ _ _ _ hi hj hp (by omega) e).1, fun e => hiq (hinj _ _ _ _ hi hj hq (by omega) e).1⟩
    · rw [if_neg hc, h4 _ (fun t ht => ?_), h.holds i j hi hj]
      rw [ea, ea]
      exact ⟨fun e => hc (by have := (hinj _ _ _ _ hi hj hp (by omega) e).2; omega),
        fun e => hc (by have := (hinj _ _ _ _ hi hj hq (by omega) e).2; omega)⟩
  · intro y hy
    rw [h4 y (fun t ht => ?_), h.frame y hy]
    rw [ea, ea]
    exact ⟨fun e => hy ⟨_, _, hp, by omega, e⟩, fun e => hy ⟨_, _, hq, by omega, e⟩⟩

/-- overwriting a sub-block -/
theorem MatIn.block {SS M N : Nat} {A : MPtr} {m0 m m' : Mem V} {a : Nat → Nat → V} (h : MatIn SS M N A m0 m a)
    (hinj : Inj SS A M N) {B : MPtr} {r0 c0 r c : Nat} (hr : r0 + r ≤ M) (hc : c0 + c ≤ N)
    (hBa : ∀ i j : Nat, B.addr SS i j = A.addr SS (r0 + i : Nat) (c0 + j : Nat)) {f : Nat → Nat → V}
    (h1 : ∀ i j : Nat, i < r → j < c → m' (B.addr SS i j) = some (f i j))
    (h2 : ∀ z, ¬ Cells SS B r c z → m' z = m z) :
    MatIn SS M N A m0 m' (fun i j =>
      if r0 ≤ i ∧ i < r0 + r ∧ c0 ≤ j ∧ j < c0 + c then f (i - r0) (j - c0) else a i j) := by
  constructor
  · intro i j hi hj
    beta_reduce
    by_cases hb : r0 ≤ i ∧ i < r0 + r ∧ c0 ≤ j ∧ j < c0 + c
    · rw [if_pos hb]
      have := h1 (i - r0) (j - c0) (by omega) (by omega)
      rwa [hBa, show r0 + (i - r0) = i by omega, show c0 + (j - c0) = j by omega] at this
    · rw [if_neg hb, h2, h.holds i j hi hj]
      rintro ⟨i', j', hi', hj', e⟩
      rw [hBa] at e
      have := hinj _ _ _ _ hi hj (by omega) (by omega) e
      omega
  · intro y hy
    rw [h2, h.frame y hy]
    rintro ⟨i', j', hi', hj', e⟩
    rw [hBa] at e
    exact hy ⟨_, _, by omega, by omega, e⟩

theorem swapRows_self (p : Nat) (a : Nat → Nat → V) : swapRows p p a = a := by
  funext i j
  unfold swapRows
  congr 1
  split <;> simp_all

/-- Assumptions of column-major getf2 on its matrix argument: dense storage, distinct elements; every column that is
used as the vector of a rank-1 update is readable up to the next multiple of the tile size. -/
structure LuPre (SS TR m n : Nat) (A : MPtr) (m0 : Mem V) : Prop where
  ss : 0 < SS
  tr : 0 < TR
  dense : A.panel = false
  so : A.so = .columnMajor
  inj : Inj SS A m n
  over : ∀ k i : Nat, k + 1 < m → k + 1 < n → i < roundUp (m - k - 1) (TR * SS) →
    (m0 (A.addr SS (k + 1 + i : Nat) k)).isSome = true

theorem Inj.sub {SS M N : Nat} {A B : MPtr} (h : Inj SS A M N) {r0 c0 r c : Nat} (hr : r0 + r ≤ M) (hc : c0 + c ≤ N)
    (hBa : ∀ i j : Nat, B.addr SS i j = A.addr SS (r0 + i : Nat) (c0 + j : Nat)) : Inj SS B r c := by
  intro i j i' j' hi hj hi' hj' e
  rw [hBa, hBa] at e
  have := h _ _ _ _ (by omega) (by omega) (by omega) (by omega) e
  omega

theorem uoff_addr {SS : Nat} (hSS : 0 < SS) {A : MPtr} (hp : A.panel = false) (r c i j : Nat) :
    ((A.unal SS).off SS r c).addr SS i j = A.addr SS (r + i : Nat) (c + j : Nat) := by
  rw [dense_uoff_addr hSS hp]; push_cast; rfl

theorem uoff_dense {SS : Nat} (hSS : 0 < SS) {A : MPtr} (hp : A.panel = false) (i j : Int) :
    ((A.unal SS).off SS i j).panel = false := by
  show (A.unal SS).panel = false
  rw [unal_panel hSS, hp]

theorem uoff_aligned {SS : Nat} (hSS : 0 < SS) {A : MPtr} (i j : Int) :
    ((A.unal SS).off SS i j).aligned = false := by
  show (A.unal SS).aligned = false
  rw [MPtr.unal_ptr hSS]

theorem uoff_so {SS : Nat} (hSS : 0 < SS) {A : MPtr} (i j : Int) : ((A.unal SS).off SS i j).so = A.so := by
  show (A.unal SS).so = A.so
  rw [MPtr.unal_ptr hSS]

theorem wf_of_plain {SS : Nat} {q : MPtr} (h1 : q.panel = false) (h2 : q.aligned = false) : q.WF SS := by
  intro h; rw [h1, h2] at h; simp at h

/-- the update of an element by column-major getf2: dense/Getf2.hpp:75 with dense/Ger.hpp -/
def updCol (l u a : V) : V := gerEntry (Arith.neg Arith.one) l u a

theorem runs_divCol {SS m n k : Nat} (hSS : 0 < SS) {A : MPtr} (hd : A.panel = false) (hinj : Inj SS A m n) {m0 mem : Mem V}
    {a : Nat → Nat → V} (h : MatIn SS m n A m0 mem a) (hkm : k < m) (hkn : k < n) :
    Runs (forFrom (k + 1) m (fun i => do
      let x ← derefAt SS A i k
      let d ← derefAt SS A k k
      assignAt SS A i k (Arith.div x d))) mem (fun _ mem' =>
        MatIn SS m n A m0 mem' (fun i j => if k < i ∧ j = k then Arith.div (a i k) (a k k) else a i j)) := by
  refine (runs_forFrom (by omega) (fun t mem' => MatIn SS m n A m0 mem' (fun i j =>
    if k < i ∧ i < t ∧ j = k then Arith.div (a i k) (a k k) else a i j)) ?_ ?_).mono ?_
  · exact h.congr (fun i j hi hj => by rw [if_neg (by omega)])
  · intro i mem1 hi1 hi2 h1
    rw [derefAt_addr hSS hd, derefAt_addr hSS hd]
    refine Reads.bind_runs (reads_read (h1.holds i k hi2 hkn)) (Reads.bind_runs (reads_read (h1.holds k k hkm hkn)) ?_)
    rw [assignAt_addr hSS hd, if_neg (show ¬ (k < i ∧ i < i ∧ k = k) by omega), if_neg (show ¬ (k < k ∧ k < i ∧ k = k) by omega)]
    refine ⟨(), _, write_ok (by rw [h1.holds i k hi2 hkn]; rfl), ?_⟩
    refine (h1.write hinj hi2 hkn _).congr (fun i' j' hi' hj' => ?_)
    by_cases e : i' = i ∧ j' = k
    · obtain ⟨rfl, rfl⟩ := e
      rw [if_pos ⟨rfl, rfl⟩, if_pos (by omega)]
    · rw [if_neg e]
      by_cases e2 : k < i' ∧ i' < i ∧ j' = k
      · rw [if_pos e2, if_pos (by omega)]
      · rw [if_neg e2, if_neg (by omega)]
  · intro _ mem' h'
    refine h'.congr (fun i j hi hj => ?_)
    by_cases e : k < i ∧ j = k
    · rw [if_pos e, if_pos (by omega)]
    · rw [if_neg e, if_neg (by omega)]

theorem runs_gerBlock {SS TR m n k : Nat} {A : MPtr} {m0 mem : Mem V} (hp : LuPre SS TR m n A m0)
    {a : Nat → Nat → V} (h : MatIn SS m n A m0 mem a) (hkm : k + 1 < m) (hkn : k + 1 < n) :
    Runs (gerPtr SS TR (m - k - 1) (n - k - 1) (Arith.neg Arith.one)
      (column ((A.unal SS).off SS (k + 1 : Nat) k)) (row ((A.unal SS).off SS k (k + 1 : Nat)))
      ((A.unal SS).off SS (k + 1 : Nat) (k + 1 : Nat)) ((A.unal SS).off SS (k + 1 : Nat) (k + 1 : Nat))) mem
      (fun _ mem' => MatIn SS m n A m0 mem' (fun i j => if k < i ∧ k < j then updCol (a i k) (a k j) (a i j) else a i j)) := by
  have hSS := hp.ss
  have hd := hp.dense
  have ex : ∀ i : Nat, (column ((A.unal SS).off SS (k + 1 : Nat) k)).addr SS i = A.addr SS (k + 1 + i : Nat) k := by
    intro i
    show ((A.unal SS).off SS (k + 1 : Nat) k).addr SS i (0 : Nat) = _
    rw [uoff_addr hSS hd]; rfl
  have ey : ∀ j : Nat, (row ((A.unal SS).off SS k (k + 1 : Nat))).addr SS j = A.addr SS k (k + 1 + j : Nat) := by
    intro j
    show ((A.unal SS).off SS k (k + 1 : Nat)).addr SS (0 : Nat) j = _
    rw [uoff_addr hSS hd]; rfl
  have wf : ∀ i j : Int, ((A.unal SS).off SS i j).WF SS := fun i j => wf_of_plain (uoff_dense hSS hd _ _) (uoff_aligned hSS _ _)
  have hB := fun i j => uoff_addr hSS hd (k + 1) (k + 1) i j
  have hinj := hp.inj.sub (r0 := k + 1) (c0 := k + 1) (r := m - k - 1) (c := n - k - 1) (by omega) (by omega) hB
  have hR : Readable SS mem ((A.unal SS).off SS (k + 1 : Nat) (k + 1 : Nat)) (m - k - 1) (n - k - 1) := by
    intro i j hi hj
    rw [hB, h.holds _ _ (by omega) (by omega)]; rfl
  have pre : GerPre SS TR (m - k - 1) (n - k - 1) (column ((A.unal SS).off SS (k + 1 : Nat) k))
      (row ((A.unal SS).off SS k (k + 1 : Nat)))
      ((A.unal SS).off SS (k + 1 : Nat) (k + 1 : Nat)) ((A.unal SS).off SS (k + 1 : Nat) (k + 1 : Nat)) mem := by
    refine ⟨hSS, hp.tr, ⟨wf _ _, by rw [uoff_so hSS, hp.so]⟩, wf _ _, wf _ _, wf _ _, by rw [uoff_so hSS, hp.so],
      by rw [uoff_so hSS, hp.so], ?_, ?_, ?_, hR, hinj, ?_, ?_, hinj⟩
    · intro i hi
      rw [ex]; exact h.isSome (hp.over k i hkm hkn hi)
    · intro j hj
      rw [ey, h.holds _ _ (by omega) (by omega)]; rfl
    · rw [uoff_aligned hSS]
      simp only [Bool.false_and, Bool.false_eq_true, if_false]
      exact hR
    · rintro i hi ⟨i', j', hi', hj', e⟩
      rw [ex, hB] at e
      have := hp.inj _ _ _ _ (by omega) (by omega) (by omega) (by omega) e
      omega
    · rintro i hi ⟨i', j', hi', hj', e⟩
      rw [ey, hB] at e
      have := hp.inj _ _ _ _ (by omega) (by omega) (by omega) (by omega) e
      omega
  obtain ⟨mem', h1, h2, h3⟩ := gerPtr_correct (alpha := Arith.neg Arith.one) pre
  refine ⟨(), mem', h1, ?_⟩
  refine (h.block hp.inj (r0 := k + 1) (c0 := k + 1) (by omega) (by omega) hB h2 h3).congr (fun i j hi hj => ?_)
  by_cases e : k < i ∧ k < j
  · rw [if_pos e, if_pos (by omega), ex, ey, hB, show k + 1 + (i - (k + 1)) = i by omega,
      show k + 1 + (j - (k + 1)) = j by omega, h.holds.val hi (by omega), h.holds.val (by omega) hj, h.holds.val hi hj]
    rfl
  · rw [if_neg e, if_neg (by omega)]

/-- one iteration of getf2 does what `luStep` says -/
theorem runs_getf2Step {SS TR m n k : Nat} {A : MPtr} {m0 mem : Mem V} (hp : LuPre SS TR m n A m0)
    {a : Nat → Nat → V} (h : MatIn SS m n A m0 mem a) (hkm : k < m) (hkn : k < n) (ipiv : Nat → Nat) :
    RunsE (getf2Step SS TR m n A k ipiv) mem
      (fun p mem' => ∃ a', luStep Arith.div updCol m k a ipiv = some (a', p) ∧ MatIn SS m n A m0 mem' a')
      (fun e mem' => e = .invalidArgument ∧ luStep Arith.div updCol m k a ipiv = none ∧
        MatIn SS m n A m0 mem' (swapRows k (pivotRow m a k) a)) := by
  have hSS := hp.ss
  have hd := hp.dense
  obtain ⟨hp1, hp2⟩ := pivotRow_lt a hkm
  unfold getf2Step
  refine RunsE.bind (Runs.e (Reads.runs (a := (iamaxF (fun i => a (k + i) k) (m - k - 1)).2)
    (Q := fun r mem' => r + k = pivotRow m a k ∧ mem' = mem)
    (reads_iamaxPtr (plain_column hSS (uoff_dense hSS hd _ _)) (by omega) ?_) ⟨rfl, rfl⟩)) ?_
  · intro i hi
    show mem (((A.unal SS).off SS k k).addr SS i (0 : Nat)) = _
    rw [uoff_addr hSS hd]
    exact h.holds _ _ (by omega) hkn
  rintro r _ ⟨hr, rfl⟩
  simp only [hr]
  refine RunsE.bind (Q := fun _ mem' => MatIn SS m n A m0 mem' (swapRows k (pivotRow m a k) a)) (Runs.e ?_) ?_
  · unfold onlyIf
    by_cases hne : pivotRow m a k = k
    · rw [hne]
      simp only [bne_self_eq_false, Bool.false_eq_true, if_false]
      refine runs_pure ?_
      rw [swapRows_self]; exact h
    · have : (pivotRow m a k != k) = true := by simpa using hne
      rw [if_pos this]
      obtain ⟨m', e1, e2⟩ := h.swap_rows hSS hd hp.inj (B := A) (r0 := 0) (c0 := 0) (n := n) (p := k) (q := pivotRow m a k)
        (by omega) (by omega) (fun e => hne e.symm) (by omega) hd (fun i j => by simp)
      refine ⟨(), m', e1, e2.congr (fun i j hi hj => ?_)⟩
      rw [if_pos (by omega), Nat.zero_add, Nat.zero_add]
  rintro _ mem1 h1
  refine RunsE.bind (Runs.e (Reads.runs (Q := fun d mem' => d = swapRows k (pivotRow m a k) a k k ∧ mem' = mem1)
    (by rw [derefAt_addr hSS hd]; exact reads_read (h1.holds k k hkm hkn)) ⟨rfl, rfl⟩)) ?_
  rintro d _ ⟨rfl, rfl⟩
  unfold luStep
  simp only
  by_cases hz : Arith.eq (swapRows k (pivotRow m a k) a k k) Arith.zero = true
  · rw [if_pos hz]
    exact runsE_throw ⟨rfl, by rw [if_pos hz], h1⟩
  · rw [if_neg hz]
    refine RunsE.bind (Runs.e (runs_divCol hSS hd hp.inj h1 hkm hkn)) ?_
    intro _ mem2 h2
    refine RunsE.bind (Q := fun _ mem' => MatIn SS m n A m0 mem'
      (elim Arith.div updCol k (swapRows k (pivotRow m a k) a))) (Runs.e ?_) ?_
    · unfold onlyIf
      by_cases hc : k + 1 < m ∧ k + 1 < n
      · rw [if_pos (by simpa using hc)]
        refine (runs_gerBlock hp h2 hc.1 hc.2).mono (fun _ mem3 h3 => h3.congr (fun i j hi hj => ?_))
        unfold elim
        by_cases e1 : k < i
        · by_cases e2 : j = k
          · rw [if_pos e1, if_pos e2, if_neg (by omega), if_pos ⟨e1, e2⟩]
          · by_cases e3 : k < j
            · rw [if_pos e1, if_neg e2, if_pos e3, if_pos ⟨e1, e3⟩, if_pos ⟨e1, rfl⟩, if_neg (by omega), if_neg (by omega)]
            · rw [if_pos e1, if_neg e2, if_neg e3, if_neg (by omega), if_neg (by omega)]
        · rw [if_neg e1, if_neg (by omega), if_neg (by omega)]
      · rw [if_neg (by simpa using hc)]
        refine runs_pure (h2.congr (fun i j hi hj => ?_))
        unfold elim
        by_cases e1 : k < i
        · by_cases e2 : j = k
          · rw [if_pos e1, if_pos e2, if_pos ⟨e1, e2⟩]
          · rw [if_pos e1, if_neg e2, if_neg (by omega), if_neg (by omega)]
        · rw [if_neg e1, if_neg (by omega)]
    · intro _ mem3 h3
      rw [if_neg hz]
      exact Or.inl ⟨_, _, rfl, _, rfl, h3⟩

/-- column-major getf2 does what `luRun` says -/
theorem runs_getf2Ptr {SS TR m n : Nat} {A : MPtr} {m0 : Mem V} (hp : LuPre SS TR m n A m0)
    {a : Nat → Nat → V} (h : Holds SS m0 A m n a) (ipiv : Nat → Nat) :
    RunsE (getf2Ptr SS TR m n A ipiv) m0
      (fun p mem' => ∃ a', luRun Arith.div updCol m a ipiv (min m n) = some (a', p) ∧ MatIn SS m n A m0 mem' a')
      (fun e mem' => e = .invalidArgument ∧
        (∃ k a' p, k < min m n ∧ luRun Arith.div updCol m a ipiv k = some (a', p) ∧
          luStep Arith.div updCol m k a' p = none) ∧ ∀ y, ¬ Cells SS A m n y → mem' y = m0 y) := by
  have key : ∀ K, K ≤ min m n → RunsE (foldN K (getf2Step SS TR m n A) ipiv) m0
      (fun p mem' => ∃ a', luRun Arith.div updCol m a ipiv K = some (a', p) ∧ MatIn SS m n A m0 mem' a')
      (fun e mem' => e = .invalidArgument ∧
        (∃ k a' p, k < min m n ∧ luRun Arith.div updCol m a ipiv k = some (a', p) ∧
          luStep Arith.div updCol m k a' p = none) ∧ ∀ y, ¬ Cells SS A m n y → mem' y = m0 y) := by
    intro K
    induction K with
    | zero => intro _; exact Or.inl ⟨_, _, rfl, _, rfl, MatIn.of_holds h⟩
    | succ K ih =>
      intro hK
      refine RunsE.bind (ih (by omega)) ?_
      rintro p mem1 ⟨a1, e1, h1⟩
      refine (runs_getf2Step hp h1 (by omega) (by omega) p).mono ?_ ?_
      · rintro p' mem2 ⟨a2, e2, h2⟩
        exact ⟨a2, by unfold luRun; rw [e1]; exact e2, h2⟩
      · rintro e mem2 ⟨he, h2, h3⟩
        exact ⟨he, ⟨K, a1, p, by omega, e1, h2⟩, h3.frame⟩
  exact key _ (Nat.le_refl _)

end Blast
