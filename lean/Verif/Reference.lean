import Verif.Once
import Verif.Gemm
/-
Reference routines: /repo/include/blast/math/reference/*.hpp.

C++ leaves the evaluation order of the operands of `*` and `+` unspecified; the model reads the operands in one
fixed order (A before X/B), which is unobservable because reads have no side effects. `v += a * b` is modelled as two
operations (no contraction by the compiler).
-/
set_option linter.unusedSectionVars false
namespace Blast
open Prog Reg
variable {V : Type} [Arith V]

/-- `for (k = lo; k < hi; ++k) s = f(k, s)`: loops of reference/Gemm.hpp, Trsm.hpp, Trmm.hpp, dense/Trsm.hpp and dense/Iamax.hpp -/
def foldFrom {σ : Type} (lo hi : Nat) (f : Nat → σ → Prog V σ) (s : σ) : Prog V σ :=
  foldN (hi - lo) (fun t => f (lo + t)) s

/-- `*(~p)(i, j)` as a value: `operator~`, `operator()`, `operator*` (dense/DynamicMatrixPointer.hpp:110-120, 155-158;
panel/DynamicPanelMatrixPointer.hpp:126-136, 171-174) -/
def derefAt (SS : Nat) (p : MPtr) (i j : Nat) : Prog V V := Prog.read ((p.unal SS).off SS i j).ptr

/-- `*(~p)(i, j) = v`: e.g. dense/Getf2.hpp:72, reference/Ger.hpp -/
def assignAt (SS : Nat) (p : MPtr) (i j : Nat) (v : V) : Prog V Unit := Prog.write ((p.unal SS).off SS i j).ptr v

/-- `reference::gemm` with pointers: reference/Gemm.hpp:42-57 -/
def refGemm (SS M N K : Nat) (alpha : V) (A B : MPtr) (beta : V) (C D : MPtr) : Prog V Unit :=
  forN M (fun i => forN N (fun j => do
    let v ← foldN K (fun k v => do
      let a ← derefAt SS A i k
      let b ← derefAt SS B k j
      pure (Arith.add v (Arith.mul a b))) Arith.zero
    let c ← derefAt SS C i j
    assignAt SS D i j (Arith.add (Arith.mul alpha v) (Arith.mul beta c))))

/-- `reference::gemm` with matrices: reference/Gemm.hpp:75-92 -/
def refGemmMat (SS : Nat) (alpha : V) (A B : Mat) (beta : V) (C D : Mat) : Prog V Unit :=
  if B.rows ≠ A.cols then throw .invalidArgument else
  if C.rows ≠ A.rows ∨ C.cols ≠ B.cols then throw .invalidArgument else
  if D.rows ≠ A.rows ∨ D.cols ≠ B.cols then throw .invalidArgument else
  refGemm SS A.rows B.cols A.cols alpha A.p B.p beta C.p D.p

/-- `reference::ger`: reference/Ger.hpp:32-40 -/
def refGer (SS m n : Nat) (alpha : V) (x y : VPtr) (a b : MPtr) : Prog V Unit :=
  forN m (fun i => forN n (fun j => do
    let av ← derefAt SS a i j
    let xv ← ((x.unal SS).off SS i).get SS 0
    let yv ← ((y.unal SS).off SS j).get SS 0
    assignAt SS b i j (Arith.add av (Arith.mul (Arith.mul alpha xv) yv))))

/-- `reference::axpy` with pointers: reference/Axpy.hpp:35-41 -/
def refAxpy (SS M N : Nat) (alpha : V) (A B C : MPtr) : Prog V Unit :=
  forN M (fun i => forN N (fun j => do
    let av ← derefAt SS A i j
    let bv ← derefAt SS B i j
    assignAt SS C i j (Arith.add (Arith.mul alpha av) bv)))

/-- `reference::axpy` with matrices: reference/Axpy.hpp:63-74 -/
def refAxpyMat (SS : Nat) (alpha : V) (A B C : Mat) : Prog V Unit :=
  if A.rows ≠ C.rows ∨ A.cols ≠ C.cols ∨ B.rows ≠ C.rows ∨ B.cols ≠ C.cols then throw .invalidArgument else
  refAxpy SS C.rows C.cols alpha A.p B.p C.p

/-- `reference::trsm`, left: reference/Trsm.hpp:42-71 -/
def refTrsmL (SS m n : Nat) (A : MPtr) (uplo : UpLo) (diag : Bool) (X : MPtr) (alpha : V) (B : MPtr) :
    Prog V Unit :=
  forN n (fun j =>
    match uplo with
    | .lower => forN m (fun i => do
        let b ← B.get SS i j
        let v ← foldFrom 0 i (fun k v => do
          let a ← A.get SS i k
          let x ← X.get SS k j
          pure (Arith.sub v (Arith.mul a x))) (Arith.mul alpha b)
        if diag then X.set SS i j v else do
          let d ← A.get SS i i
          X.set SS i j (Arith.div v d))
    | .upper => forDown m (fun i => do
        let b ← B.get SS i j
        let v ← foldFrom (i + 1) m (fun k v => do
          let a ← A.get SS i k
          let x ← X.get SS k j
          pure (Arith.sub v (Arith.mul a x))) (Arith.mul alpha b)
        if diag then X.set SS i j v else do
          let d ← A.get SS i i
          X.set SS i j (Arith.div v d)))

/-- `reference::trsm`, right: reference/Trsm.hpp:103-132 -/
def refTrsmR (SS m n : Nat) (X A : MPtr) (uplo : UpLo) (diag : Bool) (alpha : V) (B : MPtr) : Prog V Unit :=
  forN m (fun i =>
    match uplo with
    | .upper => forN n (fun j => do
        let b ← B.get SS i j
        let v ← foldFrom 0 j (fun k v => do
          let a ← A.get SS k j
          let x ← X.get SS i k
          pure (Arith.sub v (Arith.mul x a))) (Arith.mul alpha b)
        if diag then X.set SS i j v else do
          let d ← A.get SS j j
          X.set SS i j (Arith.div v d))
    | .lower => forDown n (fun j => do
        let b ← B.get SS i j
        let v ← foldFrom (j + 1) n (fun k v => do
          let a ← A.get SS k j
          let x ← X.get SS i k
          pure (Arith.sub v (Arith.mul x a))) (Arith.mul alpha b)
        if diag then X.set SS i j v else do
          let d ← A.get SS j j
          X.set SS i j (Arith.div v d)))

/-- `reference::trsm`, left, matrices: reference/Trsm.hpp:162-175 -/
def refTrsmLMat (SS : Nat) (A : Mat) (uplo : UpLo) (diag : Bool) (X : Mat) (alpha : V) (B : Mat) : Prog V Unit :=
  if A.rows ≠ B.rows ∨ A.cols ≠ B.rows ∨ X.rows ≠ B.rows ∨ X.cols ≠ B.cols then throw .invalidArgument else
  refTrsmL SS B.rows B.cols A.p uplo diag X.p alpha B.p

/-- `reference::trsm`, right, matrices: reference/Trsm.hpp:203-216 -/
def refTrsmRMat (SS : Nat) (X A : Mat) (uplo : UpLo) (diag : Bool) (alpha : V) (B : Mat) : Prog V Unit :=
  if A.rows ≠ B.cols ∨ A.cols ≠ B.cols ∨ X.rows ≠ B.rows ∨ X.cols ≠ B.cols then throw .invalidArgument else
  refTrsmR SS B.rows B.cols X.p A.p uplo diag alpha B.p

/-- `reference::trmm`, left: reference/Trmm.hpp:42-71 -/
def refTrmmL (SS m n : Nat) (alpha : V) (A : MPtr) (uplo : UpLo) (diag : Bool) (B C : MPtr) : Prog V Unit :=
  forN n (fun j =>
    match uplo with
    | .upper => forN m (fun i => do
        let v ← foldFrom i m (fun k v =>
          if diag && k == i then do
            let b ← derefAt SS B k j
            pure (Arith.add v b)
          else do
            let a ← derefAt SS A i k
            let b ← derefAt SS B k j
            pure (Arith.add v (Arith.mul a b))) Arith.zero
        assignAt SS C i j (Arith.mul alpha v))
    | .lower => forDown m (fun i => do
        let v ← foldFrom 0 (i + 1) (fun k v =>
          if diag && k == i then do
            let b ← derefAt SS B k j
            pure (Arith.add v b)
          else do
            let a ← derefAt SS A i k
            let b ← derefAt SS B k j
            pure (Arith.add v (Arith.mul a b))) Arith.zero
        assignAt SS C i j (Arith.mul alpha v)))

/-- `reference::trmm`, right: reference/Trmm.hpp:103-132 -/
def refTrmmR (SS m n : Nat) (alpha : V) (B A : MPtr) (uplo : UpLo) (diag : Bool) (C : MPtr) : Prog V Unit :=
  forN m (fun i =>
    match uplo with
    | .lower => forN n (fun j => do
        let v ← foldFrom j n (fun k v =>
          if diag && k == j then do
            let b ← derefAt SS B i k
            pure (Arith.add v b)
          else do
            let a ← derefAt SS A k j
            let b ← derefAt SS B i k
            pure (Arith.add v (Arith.mul b a))) Arith.zero
        assignAt SS C i j (Arith.mul alpha v))
    | .upper => forDown n (fun j => do
        let v ← foldFrom 0 (j + 1) (fun k v =>
          if diag && k == j then do
            let b ← derefAt SS B i k
            pure (Arith.add v b)
          else do
            let a ← derefAt SS A k j
            let b ← derefAt SS B i k
            pure (Arith.add v (Arith.mul b a))) Arith.zero
        assignAt SS C i j (Arith.mul alpha v)))

/-- `reference::trmm`, left, matrices: reference/Trmm.hpp:164-176. (The inner call is the unqualified name `trmm`; this
is the case that it resolves to `reference::trmm` above; see Verif/ReferenceTrmm.lean for when it does.) -/
def refTrmmLMat (SS : Nat) (alpha : V) (A : Mat) (uplo : UpLo) (diag : Bool) (B C : Mat) : Prog V Unit :=
  if A.rows ≠ B.rows ∨ A.cols ≠ B.rows ∨ C.rows ≠ B.rows ∨ C.cols ≠ B.cols then throw .invalidArgument else
  refTrmmL SS B.rows B.cols alpha A.p uplo diag B.p C.p

/-- `reference::trmm`, right, matrices: reference/Trmm.hpp:208-220 -/
def refTrmmRMat (SS : Nat) (alpha : V) (B A : Mat) (uplo : UpLo) (diag : Bool) (C : Mat) : Prog V Unit :=
  if A.rows ≠ B.cols ∨ A.cols ≠ B.cols ∨ C.rows ≠ B.rows ∨ C.cols ≠ B.cols then throw .invalidArgument else
  refTrmmR SS B.rows B.cols alpha B.p A.p uplo diag C.p

/-! ### Results as expressions -/

/-- `(…((c + f lo) + f (lo+1)) + …)`, `n` terms -/
def addFold (f : Nat → V) (c : V) (lo : Nat) : Nat → V
  | 0 => c
  | n + 1 => Arith.add (addFold f c lo n) (f (lo + n))

/-- `(…((c - f lo) - f (lo+1)) - …)`, `n` terms -/
def subFold (f : Nat → V) (c : V) (lo : Nat) : Nat → V
  | 0 => c
  | n + 1 => Arith.sub (subFold f c lo n) (f (lo + n))

theorem addFold_congr {f g : Nat → V} {c : V} {lo : Nat} (n : Nat) (h : ∀ k, lo ≤ k → k < lo + n → f k = g k) :
    addFold f c lo n = addFold g c lo n := by
  induction n with
  | zero => rfl
  | succ n ih =>
    simp only [addFold]
    rw [ih (fun k h1 h2 => h k h1 (by omega)), h (lo + n) (by omega) (by omega)]

theorem subFold_congr {f g : Nat → V} {c : V} {lo : Nat} (n : Nat) (h : ∀ k, lo ≤ k → k < lo + n → f k = g k) :
    subFold f c lo n = subFold g c lo n := by
  induction n with
  | zero => rfl
  | succ n ih =>
    simp only [subFold]
    rw [ih (fun k h1 h2 => h k h1 (by omega)), h (lo + n) (by omega) (by omega)]

theorem reads_addFold {lo hi : Nat} {s : Nat → V → Prog V V} {f : Nat → V} {c : V} {m : Mem V}
    (h : ∀ k v, lo ≤ k → k < hi → Reads (s k v) m (Arith.add v (f k))) :
    Reads (foldFrom lo hi s c) m (addFold f c lo (hi - lo)) := by
  unfold foldFrom
  refine reads_foldN (fun k => addFold f c lo k) rfl ?_
  intro k hk
  exact h _ _ (by omega) (by omega)

theorem reads_subFold {lo hi : Nat} {s : Nat → V → Prog V V} {f : Nat → V} {c : V} {m : Mem V}
    (h : ∀ k v, lo ≤ k → k < hi → Reads (s k v) m (Arith.sub v (f k))) :
    Reads (foldFrom lo hi s c) m (subFold f c lo (hi - lo)) := by
  unfold foldFrom
  refine reads_foldN (fun k => subFold f c lo k) rfl ?_
  intro k hk
  exact h _ _ (by omega) (by omega)

/-- `(~p)` addresses the same elements -/
theorem MPtr.unal_addr {SS : Nat} (hSS : 0 < SS) {p : MPtr} (hw : p.WF SS) (i j : Int) :
    (p.unal SS).addr SS i j = p.addr SS i j := by
  have := ((MPtr.At.refl hSS p).unal hSS).addr hSS hw i j
  rwa [Int.zero_add, Int.zero_add] at this

/-! ### Triangular solve, generic in the side -/

/-- one element of the solve -/
def solveBody (addrX addrB : Nat → Nat → Int) (addrA : Nat → Nat → Int) (f : V → V → V) (ini : V → V) (diag : Bool)
    (lo hi : Nat → Nat) (o i : Nat) : Prog V Unit := do
  let b ← Prog.read (addrB o i)
  let v ← foldFrom (lo i) (hi i) (fun k v => do
    let a ← Prog.read (addrA i k)
    let x ← Prog.read (addrX o k)
    pure (Arith.sub v (f a x))) (ini b)
  if diag then Prog.write (addrX o i) v else do
    let d ← Prog.read (addrA i i)
    Prog.write (addrX o i) (Arith.div v d)

theorem runs_solve {no ni : Nat} (down : Bool) {addrX addrB addrA : Nat → Nat → Int} (f : V → V → V) (ini : V → V)
    (diag : Bool) (lo hi : Nat → Nat)
    (hlo : ∀ i k, i < ni → lo i ≤ k → k < hi i → k < ni ∧ innerLt down k i)
    {m : Mem V}
    (hinj : ∀ o i o' i', o < no → i < ni → o' < no → i' < ni → addrX o i = addrX o' i' → o = o' ∧ i = i')
    (hX : ∀ o i, o < no → i < ni → (m (addrX o i)).isSome = true)
    (hB : ∀ o i, o < no → i < ni → (m (addrB o i)).isSome = true)
    (hBX : ∀ o i o' i', o < no → i < ni → o' < no → i' < ni → addrB o i = addrX o' i' → o = o' ∧ i = i')
    (hA : ∀ i k, i < ni → (lo i ≤ k ∧ k < hi i ∨ (diag = false ∧ k = i)) → (m (addrA i k)).isSome = true ∧
      ∀ o' i', o' < no → i' < ni → addrA i k ≠ addrX o' i') :
    ∃ m', forN no (fun o => innerLoop down ni (solveBody addrX addrB addrA f ini diag lo hi o)) m = .ok () m' ∧
      (∀ x, (∀ o i, o < no → i < ni → x ≠ addrX o i) → m' x = m x) ∧
      (∀ o i, o < no → i < ni → m' (addrX o i) = some (
        let v := subFold (fun k => f (val m (addrA i k)) (val m' (addrX o k)))
          (ini (val m (addrB o i))) (lo i) (hi i - lo i)
        if diag then v else Arith.div v (val m (addrA i i)))) := by
  let F : Nat → Nat → Mem V → V := fun o i m1 =>
    let v := subFold (fun k => f (val m1 (addrA i k)) (val m1 (addrX o k)))
          (ini (val m1 (addrB o i))) (lo i) (hi i - lo i)
    if diag then v else Arith.div v (val m1 (addrA i i))
  obtain ⟨m', e1, e2, e3⟩ := runs_once2 no ni down addrX hinj F
    (solveBody addrX addrB addrA f ini diag lo hi) m (by
      intro o i ho hi' m1 h1 h2
      have hal : ∀ x, (m x).isSome = true → (m1 x).isSome = true := by
        intro x hx
        by_cases hb : Before2 no ni down addrX o i x
        · exact h2 x hb
        · rw [h1 x hb]; exact hx
      unfold solveBody
      rw [bind_ok (reads_val (hal _ (hB o i ho hi')))]
      rw [bind_ok (reads_subFold (f := fun k => f (val m1 (addrA i k)) (val m1 (addrX o k))) (by
        intro k v hk1 hk2
        refine Reads.bind (reads_val (hal _ (hA i k hi' (Or.inl ⟨hk1, hk2⟩)).1)) ?_
        exact Reads.bind (reads_val (hal _ (hX o k ho (hlo i k hi' hk1 hk2).1))) reads_pure))]
      cases hd : diag
      · simp only [Bool.false_eq_true, if_false]
        rw [bind_ok (reads_val (hal _ (hA i i hi' (Or.inr ⟨hd, rfl⟩)).1))]
        rw [write_eq _ (hal _ (hX o i ho hi'))]
        simp [F, hd]
      · simp only [if_true]
        rw [write_eq _ (hal _ (hX o i ho hi'))]
        simp [F, hd])
  refine ⟨m', e1, e2, ?_⟩
  intro o i ho hi'
  rw [e3 o i ho hi']
  have hAout : ∀ k, (lo i ≤ k ∧ k < hi i ∨ (diag = false ∧ k = i)) →
      val (mixMem (Before2 no ni down addrX o i) m' m) (addrA i k) = val m (addrA i k) := by
    intro k hk
    unfold val
    rw [mixMem_out]
    rintro ⟨o', i', h1, h2, _, hx⟩
    exact (hA i k hi' hk).2 o' i' h1 h2 hx
  have hBout : val (mixMem (Before2 no ni down addrX o i) m' m) (addrB o i) = val m (addrB o i) := by
    unfold val
    rw [mixMem_out]
    rintro ⟨o', i', h1, h2, h3, hx⟩
    obtain ⟨rfl, rfl⟩ := hBX _ _ _ _ ho hi' h1 h2 hx
    unfold innerLt at h3
    cases down <;> simp at h3
  have hXin : ∀ k, lo i ≤ k → k < hi i →
      val (mixMem (Before2 no ni down addrX o i) m' m) (addrX o k) = val m' (addrX o k) := by
    intro k h1 h2
    unfold val
    rw [mixMem_in]
    exact ⟨o, k, ho, (hlo i k hi' h1 h2).1, Or.inr ⟨rfl, (hlo i k hi' h1 h2).2⟩, rfl⟩
  dsimp only [F]
  rw [hBout, subFold_congr (g := fun k => f (val m (addrA i k)) (val m' (addrX o k))) _ (by
    intro k h1 h2
    rw [hAout k (Or.inl ⟨h1, by omega⟩), hXin k h1 (by omega)])]
  cases hd : diag
  · simp only [Bool.false_eq_true, if_false]
    rw [hAout i (Or.inr ⟨hd, rfl⟩)]
  · simp only [if_true]

/-! ### Triangular product, generic in the side -/

def prodBody (addrC addrB : Nat → Nat → Int) (addrA : Nat → Nat → Int) (f : V → V → V) (alpha : V) (diag : Bool)
    (lo hi : Nat → Nat) (o i : Nat) : Prog V Unit := do
  let v ← foldFrom (lo i) (hi i) (fun k v =>
    if diag && k == i then do
      let b ← Prog.read (addrB o k)
      pure (Arith.add v b)
    else do
      let a ← Prog.read (addrA i k)
      let b ← Prog.read (addrB o k)
      pure (Arith.add v (f a b))) Arith.zero
  Prog.write (addrC o i) (Arith.mul alpha v)

theorem runs_prod {no ni : Nat} (down : Bool) {addrC addrB addrA : Nat → Nat → Int} (f : V → V → V) (alpha : V)
    (diag : Bool) (lo hi : Nat → Nat)
    (hlo : ∀ i k, i < ni → lo i ≤ k → k < hi i → k < ni ∧ ¬ innerLt down k i)
    {m : Mem V}
    (hinj : ∀ o i o' i', o < no → i < ni → o' < no → i' < ni → addrC o i = addrC o' i' → o = o' ∧ i = i')
    (hC : ∀ o i, o < no → i < ni → (m (addrC o i)).isSome = true)
    (hB : ∀ o i, o < no → i < ni → (m (addrB o i)).isSome = true)
    (hBC : ∀ o i o' i', o < no → i < ni → o' < no → i' < ni → addrB o i = addrC o' i' → o = o' ∧ i = i')
    (hA : ∀ i k, i < ni → lo i ≤ k → k < hi i → ¬ (diag = true ∧ k = i) → (m (addrA i k)).isSome = true ∧
      ∀ o' i', o' < no → i' < ni → addrA i k ≠ addrC o' i') :
    ∃ m', forN no (fun o => innerLoop down ni (prodBody addrC addrB addrA f alpha diag lo hi o)) m = .ok () m' ∧
      (∀ x, (∀ o i, o < no → i < ni → x ≠ addrC o i) → m' x = m x) ∧
      (∀ o i, o < no → i < ni → m' (addrC o i) = some (Arith.mul alpha
        (addFold (fun k => if diag && k == i then val m (addrB o k) else
          f (val m (addrA i k)) (val m (addrB o k))) Arith.zero (lo i) (hi i - lo i)))) := by
  let F : Nat → Nat → Mem V → V := fun o i m1 => Arith.mul alpha
        (addFold (fun k => if diag && k == i then val m1 (addrB o k) else
          f (val m1 (addrA i k)) (val m1 (addrB o k))) Arith.zero (lo i) (hi i - lo i))
  obtain ⟨m', e1, e2, e3⟩ := runs_once2 no ni down addrC hinj F
    (prodBody addrC addrB addrA f alpha diag lo hi) m (by
      intro o i ho hi' m1 h1 h2
      have hal : ∀ x, (m x).isSome = true → (m1 x).isSome = true := by
        intro x hx
        by_cases hb : Before2 no ni down addrC o i x
        · exact h2 x hb
        · rw [h1 x hb]; exact hx
      unfold prodBody
      rw [bind_ok (reads_addFold (f := fun k => if diag && k == i then val m1 (addrB o k) else
          f (val m1 (addrA i k)) (val m1 (addrB o k))) (by
        intro k v hk1 hk2
        by_cases hc : (diag && k == i) = true
        · rw [if_pos hc]; rw [if_pos hc]
          exact Reads.bind (reads_val (hal _ (hB o k ho (hlo i k hi' hk1 hk2).1))) reads_pure
        · rw [if_neg hc]; rw [if_neg hc]
          refine Reads.bind (reads_val (hal _ (hA i k hi' hk1 hk2 (by simpa using hc)).1)) ?_
          exact Reads.bind (reads_val (hal _ (hB o k ho (hlo i k hi' hk1 hk2).1))) reads_pure))]
      exact write_eq _ (hal _ (hC o i ho hi')))
  refine ⟨m', e1, e2, ?_⟩
  intro o i ho hi'
  rw [e3 o i ho hi']
  dsimp only [F]
  rw [addFold_congr (g := fun k => if diag && k == i then val m (addrB o k) else
          f (val m (addrA i k)) (val m (addrB o k))) _ ?_]
  intro k h1 h2
  have h2' : k < hi i := by omega
  have hBout : val (mixMem (Before2 no ni down addrC o i) m' m) (addrB o k) = val m (addrB o k) := by
    unfold val
    rw [mixMem_out]
    rintro ⟨o', i', h3, h4, h5, hx⟩
    obtain ⟨rfl, rfl⟩ := hBC _ _ _ _ ho (hlo i k hi' h1 h2').1 h3 h4 hx
    rcases h5 with h5 | h5
    · omega
    · exact (hlo i k hi' h1 h2').2 h5.2
  rw [hBout]
  by_cases hc : (diag && k == i) = true
  · rw [if_pos hc, if_pos hc]
  · rw [if_neg hc, if_neg hc]
    have : val (mixMem (Before2 no ni down addrC o i) m' m) (addrA i k) = val m (addrA i k) := by
      unfold val
      rw [mixMem_out]
      rintro ⟨o', i', h3, h4, _, hx⟩
      exact (hA i k hi' h1 h2' (by simpa using hc)).2 o' i' h3 h4 hx
    rw [this]

end Blast
