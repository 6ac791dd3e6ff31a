import Verif.MakePosDef
import Verif.Props.Views
import Verif.Props.Reference
import Verif.Props.Storage
import Verif.LinAlg
import Mathlib.Algebra.Order.BigOperators.Ring.Finset
/- Concrete cases meeting the hypotheses of these theorems: Verif/Cases/Register.lean, and the examples in this file. -/
/-
**C43**: makePositiveDefinite produces a symmetric positive definite matrix, whatever the random numbers drawn.
-/
set_option linter.unusedSectionVars false
namespace Blast
open Prog Finset
variable {V : Type}

/-- The cells makePositiveDefinite may change: of a matrix object its whole storage (`reset` also clears the padding), of a view only
the viewed elements. -/
def Owned (SS : Nat) (e : MExpr) (x : Int) : Prop :=
  match e with
  | .obj c => c.Storage SS x
  | e => ∃ i j, i < e.rows ∧ j < e.cols ∧ x = e.addr SS i j

theorem owned_elem {SS : Nat} (hSS : 0 < SS) (e : MExpr) {i j : Nat} (hi : i < e.rows) (hj : j < e.cols) :
    Owned SS e (e.addr SS i j) := by
  cases e with
  | obj c => exact c.addr_storage hSS hi hj
  | sub e af i0 j0 r n => exact ⟨i, j, hi, hj, rfl⟩
  | tr e => exact ⟨i, j, hi, hj, rfl⟩

theorem owned_storage {SS : Nat} (hSS : 0 < SS) (e : MExpr) (hf : e.Fits) {x : Int} (hx : Owned SS e x) : e.base.Storage SS x := by
  cases e with
  | obj c => exact hx
  | sub e' af i0 j0 r n =>
    obtain ⟨i, j, hi, hj, rfl⟩ := hx
    exact MExpr.addr_storage hSS (.sub e' af i0 j0 r n) hf hi hj
  | tr e' =>
    obtain ⟨i, j, hi, hj, rfl⟩ := hx
    exact MExpr.addr_storage hSS (.tr e') hf hi hj

theorem reset_runs [Arith V] {SS : Nat} (hSS : 0 < SS) {m : Mem V} {e : MExpr} (hd : e.isPanel = false) (hf : e.Fits)
    (hl : Live SS m e.base) :
    ∃ m', e.reset SS m = .ok () m' ∧ (∀ i j, i < e.rows → j < e.cols → m' (e.addr SS i j) = some Arith.zero) ∧
      (∀ x, ¬ Owned SS e x → m' x = m x) := by
  cases e with
  | obj c =>
    have hk : c.kind = .dynDense ∨ c.kind = .statDense := by
      have hd : c.isPanel = false := hd
      unfold Container.isPanel at hd
      cases hk : c.kind <;> simp_all
    obtain ⟨m', h1, h2, h3⟩ := C33_reset_dense hSS c hk m hl
    exact ⟨m', h1, h2, h3⟩
  | sub e af i0 j0 r n => exact resetView_runs hSS hf hl
  | tr e => exact resetView_runs hSS hf hl

/-- **C43** (randomize). `randomize(e)` of a matrix or view sets every element to the number drawn for it and changes nothing
else. -/
theorem C43_randomize [Arith V] {SS : Nat} (hSS : 0 < SS) {m : Mem V} {e : MExpr} (hf : e.Fits) (hl : Live SS m e.base)
    (rnd : Nat → Nat → V) :
    ∃ m', randomizeMat SS e rnd m = .ok () m' ∧ Elems SS m' e rnd ∧
      (∀ x, ¬ (∃ i j, i < e.rows ∧ j < e.cols ∧ x = e.addr SS i j) → m' x = m x) := by
  have h := runs_addrLoop (m := m) (e.addr SS) (r := e.rows) (w := fun _ => e.cols)
    (body := fun i j => e.set SS i j (rnd i j))
    (fun i j i' j' h1 h2 h3 h4 => e.addr_inj hSS hf h1 h2 h3 h4) (fun i j => rnd i j)
    (fun i j hi hj => hl.alloc _ (e.addr_storage hSS hf hi hj))
    (fun i j m' hi hj _ _ hall => ⟨(), updMem m' (e.addr SS i j) (rnd i j), write_eq _ (hall i j hi hj), rfl⟩)
  obtain ⟨_, m', h1, h2, h3⟩ := h.noexcept
  exact ⟨m', h1, elems_iff.2 h2, h3⟩

/-- the diagonal update `matrix(i, i) += d` -/
theorem addDiag_runs [Arith V] {SS : Nat} (hSS : 0 < SS) {m : Mem V} {e : MExpr} (hf : e.Fits) (hsq : e.rows = e.cols)
    {a : Nat → Nat → V} (ha : ∀ i j, i < e.rows → j < e.cols → m (e.addr SS i j) = some (a i j)) (d : V) :
    ∃ m', (forN e.cols (fun i => do
        let v ← e.get SS i i
        e.set SS i i (Arith.add v d)) : Prog V Unit) m = .ok () m' ∧
      (∀ i j, i < e.rows → j < e.cols → m' (e.addr SS i j) = some (if i = j then Arith.add (a i j) d else a i j)) ∧
      (∀ x, ¬ (∃ i j, i < e.rows ∧ j < e.cols ∧ x = e.addr SS i j) → m' x = m x) := by
  have h := runs_forN (n := e.cols) (f := fun i => (do
        let v ← e.get SS i i
        e.set SS i i (Arith.add v d) : Prog V Unit)) (m := m) (fun k m' =>
      (∀ i j, i < e.rows → j < e.cols → m' (e.addr SS i j) = some (if i = j ∧ i < k then Arith.add (a i j) d else a i j)) ∧
      (∀ x, ¬ (∃ i j, i < e.rows ∧ j < e.cols ∧ x = e.addr SS i j) → m' x = m x))
    ⟨fun i j hi hj => by rw [ha i j hi hj, if_neg (by omega)], fun _ _ => rfl⟩ (by
      rintro k m1 hk ⟨h1, h2⟩
      have hv : m1 (e.addr SS k k) = some (a k k) := by
        rw [h1 k k (by omega) hk, if_neg (by omega)]
      refine Reads.bind_runs (reads_read hv) (runs_write (by rw [hv]; rfl) ⟨fun i j hi hj => ?_, fun x hx => ?_⟩)
      · dsimp only
        split
        · rename_i he
          obtain ⟨rfl, rfl⟩ := e.addr_inj hSS hf hi hj (by omega) hk he
          rw [if_pos ⟨rfl, by omega⟩]
        · rename_i hne
          rw [h1 i j hi hj]
          by_cases hij : i = j
          · subst hij
            have : i ≠ k := fun h => hne (by rw [h])
            by_cases hik : i < k
            · rw [if_pos ⟨rfl, hik⟩, if_pos ⟨rfl, by omega⟩]
            · rw [if_neg (by omega), if_neg (by omega)]
          · rw [if_neg (by omega), if_neg (by omega)]
      · dsimp only
        rw [if_neg (fun he => hx ⟨k, k, by omega, hk, he⟩)]
        exact h2 x hx)
  obtain ⟨_, m', h1, h2, h3⟩ := h
  refine ⟨m', h1, fun i j hi hj => ?_, h3⟩
  rw [h2 i j hi hj]
  by_cases hij : i = j
  · rw [if_pos ⟨hij, by omega⟩, if_pos hij]
  · rw [if_neg (by omega), if_neg hij]

/-- **C43** (value). In exact arithmetic, for every matrix of drawn numbers `R`, `makePositiveDefinite` of a square dense matrix or view
leaves `R * R^T + N * I`, and changes nothing but the matrix (of a view: but the viewed elements); the temporary storage is
released. `t` is the address of memory that was free before the call. -/
theorem C43_makePositiveDefinite_value [CommRing V] [Arith V] [ExactRing V] {SS : Nat} (hSS : 0 < SS) {m : Mem V} {e : MExpr}
    (hd : e.isPanel = false) (hf : e.Fits) (hl : Live SS m e.base) (hsq : e.rows = e.cols) {t : Int} (ht : t % (SS : Int) = 0)
    (hfree : ∀ x, (⟨.dynDense, .columnMajor, e.cols, e.cols, t⟩ : Container).Storage SS x → m x = none)
    (R : Nat → Nat → V) {etN : V} (hN : etN = (e.cols : V)) :
    ∃ m', makePositiveDefinite SS t R etN e m = .ok () m' ∧
      Elems SS m' e (fun i j => (∑ k ∈ range e.cols, R i k * R j k) + if i = j then (e.cols : V) else 0) ∧
      (∀ x, ¬ Owned SS e x → m' x = m x) := by
  let tmp : Container := ⟨.dynDense, .columnMajor, e.cols, e.cols, t⟩
  have hdis : ∀ x, tmp.Storage SS x → ¬ e.base.Storage SS x := by
    intro x hx hx'
    have := hl.alloc x hx'
    rw [hfree x hx] at this; cases this
  -- construction
  let m1 : Mem V := fun x => if t ≤ x ∧ x < t + tmp.capacity SS then some Arith.zero else m x
  have e1 : (tmp.construct SS : Prog V Unit) m = .ok () m1 := rfl
  have lt1 : Live SS m1 tmp := ⟨ht, fun x hx => by
    show (if t ≤ x ∧ x < t + tmp.capacity SS then some Arith.zero else m x).isSome = true
    rw [if_pos (show t ≤ x ∧ x < t + tmp.capacity SS from hx)]; rfl⟩
  have n1 : ∀ x, ¬ tmp.Storage SS x → m1 x = m x := fun x hx => if_neg hx
  -- random numbers
  obtain ⟨m2, e2, v2, n2⟩ := C43_randomize (e := .obj tmp) hSS (show (MExpr.obj tmp).Fits from trivial) lt1 R
  have n2' : ∀ x, ¬ tmp.Storage SS x → m2 x = m x := by
    intro x hx
    rw [n2 x, n1 x hx]
    rintro ⟨i, j, hi, hj, rfl⟩
    exact hx (tmp.addr_storage hSS hi hj)
  have l2 : Live SS m2 e.base := ⟨hl.align, fun x hx => by
    rw [n2' x (fun h => hdis x h hx)]; exact hl.alloc x hx⟩
  -- reset
  obtain ⟨m3, e3, v3, n3⟩ := reset_runs hSS hd hf l2
  have v2' : ∀ i j, i < e.cols → j < e.cols → m3 (tmp.addr SS i j) = some (R i j) := by
    intro i j hi hj
    rw [n3 _ (fun h => hdis _ (tmp.addr_storage hSS hi hj) (owned_storage hSS e hf h))]
    exact elems_iff.1 v2 i j hi hj
  -- product
  have ad : ∀ i j : Nat, (e.mptr SS).addr SS i j = e.addr SS i j := fun i j => e.mptr_addr_dense hSS hd i j
  have adT : ∀ i j : Nat, ((MExpr.obj tmp).mptr SS).addr SS i j = tmp.addr SS i j :=
    fun i j => (MExpr.obj tmp).mptr_addr_dense hSS rfl i j
  have adTT : ∀ i j : Nat, ((MExpr.obj tmp).trans.mptr SS).addr SS i j = tmp.addr SS j i :=
    fun i j => (MExpr.obj tmp).trans.mptr_addr_dense hSS rfl i j
  have hp : (e.mptr SS).panel = true → (e.mptr SS).ptr % (SS : Int) = 0 := by
    have : (e.mptr SS).panel = e.isPanel := by rw [MExpr.mptr_fields hSS]
    rw [this, hd]; intro h; cases h
  have dis : ∀ i j i' j' : Nat, i < e.cols → j < e.cols → i' < e.cols → j' < e.cols → tmp.addr SS i j ≠ e.addr SS i' j' := by
    intro i j i' j' hi hj hi' hj' he
    refine hdis _ (tmp.addr_storage hSS hi hj) ?_
    rw [he]; exact e.addr_storage hSS hf (by omega) hj'
  obtain ⟨m4, e4, v4, n4⟩ := C46_reference_gemm (M := e.cols) (N := e.cols) (K := e.cols) (mem := m3)
    (A := (MExpr.obj tmp).mptr SS) (B := (MExpr.obj tmp).trans.mptr SS) (C := e.mptr SS) (D := e.mptr SS)
    (a := fun i j => R i j) (b := fun i j => R j i) (c := fun _ _ => (0 : V)) hSS
    (by intro h; rw [MExpr.mptr_fields hSS] at h; cases h) (by intro h; rw [MExpr.mptr_fields hSS] at h; cases h) hp hp
    (Arith.one : V) (Arith.zero : V)
    (fun i j hi hj => by rw [adT]; exact v2' i j hi hj) (fun i j hi hj => by rw [adTT]; exact v2' j i hj hi)
    (fun i j hi hj => by rw [ad, v3 i j (by omega) hj, ExactRing.zero_eq])
    (fun i j hi hj => by rw [ad, v3 i j (by omega) hj]; rfl)
    (fun i j i' j' hi hj hi' hj' h => e.addr_inj hSS hf (by omega) hj (by omega) hj' (by rwa [ad, ad] at h))
    (fun i j i' j' hi hj hi' hj' => by rw [adT, ad]; exact dis i j i' j' hi hj hi' hj')
    (fun i j i' j' hi hj hi' hj' => by rw [adTT, ad]; exact dis j i i' j' hj hi hi' hj')
    (fun i j i' j' hi hj hi' hj' h => e.addr_inj hSS hf (by omega) hj (by omega) hj' (by rwa [ad, ad] at h))
  have e4' : (refGemmMat SS Arith.one ((MExpr.obj tmp).mat SS) ((MExpr.obj tmp).trans.mat SS) Arith.zero (e.mat SS) (e.mat SS) :
      Prog V Unit) m3 = .ok () m4 := by
    unfold refGemmMat
    have r1 : ((MExpr.obj tmp).mat SS).rows = e.cols := rfl
    have r2 : ((MExpr.obj tmp).mat SS).cols = e.cols := rfl
    have r3 : ((MExpr.obj tmp).trans.mat SS).rows = e.cols := rfl
    have r4 : ((MExpr.obj tmp).trans.mat SS).cols = e.cols := rfl
    have r5 : (e.mat SS).rows = e.cols := hsq
    have r6 : (e.mat SS).cols = e.cols := rfl
    rw [r1, r2, r3, r4, r5, r6, if_neg (by simp), if_neg (by simp), if_neg (by simp)]
    exact e4
  -- diagonal
  have v4' : ∀ i j, i < e.rows → j < e.cols → m4 (e.addr SS i j) = some (∑ k ∈ range e.cols, R i k * R j k) := by
    intro i j hi hj
    rw [← ad, v4 i j (by omega) hj]
    simp only [ExactRing.one_eq, ExactRing.zero_eq, one_mul, mul_zero, add_zero]
  obtain ⟨m5, e5, v5, n5⟩ := addDiag_runs hSS hf hsq v4' etN
  have frame : ∀ x, ¬ tmp.Storage SS x → ¬ Owned SS e x → m5 x = m x := by
    intro x h1 h2
    rw [n5 x, n4 x, n3 x h2, n2' x h1]
    · rintro ⟨i, j, hi, hj, rfl⟩
      rw [ad] at h2
      exact h2 (owned_elem hSS e (by omega) hj)
    · rintro ⟨i, j, hi, hj, rfl⟩
      exact h2 (owned_elem hSS e hi hj)
  refine ⟨fun x => if t ≤ x ∧ x < t + tmp.capacity SS then none else m5 x, ?_, elems_iff.2 (fun i j hi hj => ?_), fun x hx => ?_⟩
  · unfold makePositiveDefinite
    rw [if_neg (by omega)]
    show (tmp.construct SS >>= fun _ => _) m = _
    rw [bind_ok e1, bind_ok e2, bind_ok e3, bind_ok e4', bind_ok e5]
    rfl
  · have : ¬ tmp.Storage SS (e.addr SS i j) := fun h => hdis _ h (e.addr_storage hSS hf hi hj)
    show (if t ≤ e.addr SS i j ∧ e.addr SS i j < t + tmp.capacity SS then none else m5 (e.addr SS i j)) = _
    rw [if_neg (show ¬ (t ≤ e.addr SS i j ∧ e.addr SS i j < t + tmp.capacity SS) from this), v5 i j hi hj, hN]
    by_cases hij : i = j
    · rw [if_pos hij, if_pos hij, ExactRing.add_eq]
    · rw [if_neg hij, if_neg hij, add_zero]
  · by_cases h1 : tmp.Storage SS x
    · rw [hfree x h1]; exact if_pos h1
    · refine (if_neg h1).trans (frame x h1 hx)

/-- `R * R^T + N * I` is positive definite -/
theorem posDef_of_gram [Field V] [LinearOrder V] [IsStrictOrderedRing V] {n : Nat} (R : Nat → Nat → V) (x : Nat → V)
    (hx : ∃ i, i < n ∧ x i ≠ 0) :
    0 < ∑ i ∈ range n, ∑ j ∈ range n, x i * ((∑ k ∈ range n, R i k * R j k) + if i = j then (n : V) else 0) * x j := by
  have e : ∑ i ∈ range n, ∑ j ∈ range n, x i * ((∑ k ∈ range n, R i k * R j k) + if i = j then (n : V) else 0) * x j =
      (∑ k ∈ range n, (∑ i ∈ range n, x i * R i k) ^ 2) + (n : V) * ∑ i ∈ range n, x i ^ 2 := by
    have e1 : ∀ i ∈ range n, ∑ j ∈ range n, x i * ((∑ k ∈ range n, R i k * R j k) + if i = j then (n : V) else 0) * x j =
        (∑ j ∈ range n, ∑ k ∈ range n, (x i * R i k) * (x j * R j k)) + (n : V) * x i ^ 2 := by
      intro i hi
      have : ∀ j ∈ range n, x i * ((∑ k ∈ range n, R i k * R j k) + if i = j then (n : V) else 0) * x j =
          (∑ k ∈ range n, (x i * R i k) * (x j * R j k)) + if i = j then (n : V) * x i ^ 2 else 0 := by
        intro j _
        rw [mul_add, add_mul, mul_sum, sum_mul]
        congr 1
        · exact sum_congr rfl (fun k _ => by ring)
        · split
          · rename_i h; subst h; ring
          · ring
      rw [sum_congr rfl this, sum_add_distrib, sum_ite_eq, if_pos hi]
    rw [sum_congr rfl e1, sum_add_distrib, ← mul_sum]
    congr 1
    have : ∀ k ∈ range n, (∑ i ∈ range n, x i * R i k) ^ 2 = ∑ i ∈ range n, ∑ j ∈ range n, (x i * R i k) * (x j * R j k) := by
      intro k _
      rw [sq, sum_mul_sum]
    rw [sum_congr rfl this]
    have sw : ∀ i ∈ range n, ∑ j ∈ range n, ∑ k ∈ range n, x i * R i k * (x j * R j k) =
        ∑ k ∈ range n, ∑ j ∈ range n, x i * R i k * (x j * R j k) := fun i _ => sum_comm
    rw [sum_congr rfl sw, sum_comm]
  rw [e]
  obtain ⟨i, hi, hxi⟩ := hx
  have h1 : 0 ≤ ∑ k ∈ range n, (∑ i ∈ range n, x i * R i k) ^ 2 := sum_nonneg (fun k _ => sq_nonneg _)
  have h2 : 0 < ∑ i ∈ range n, x i ^ 2 :=
    sum_pos' (fun k _ => sq_nonneg _) ⟨i, mem_range.2 hi, by positivity⟩
  have h3 : (0 : V) < n := by exact_mod_cast (by omega : 0 < n)
  have := mul_pos h3 h2
  linarith

/-- **C43**. For every square dense matrix or view and whatever the random numbers drawn, `makePositiveDefinite` leaves, in exact
arithmetic, a symmetric matrix `a` with `x^T a x > 0` for all `x ≠ 0`, and changes nothing else. -/
theorem C43_makePositiveDefinite [Field V] [LinearOrder V] [IsStrictOrderedRing V] [Arith V] [ExactRing V] {SS : Nat} (hSS : 0 < SS)
    {m : Mem V} {e : MExpr} (hd : e.isPanel = false) (hf : e.Fits) (hl : Live SS m e.base) (hsq : e.rows = e.cols) {t : Int}
    (ht : t % (SS : Int) = 0)
    (hfree : ∀ x, (⟨.dynDense, .columnMajor, e.cols, e.cols, t⟩ : Container).Storage SS x → m x = none)
    (R : Nat → Nat → V) {etN : V} (hN : etN = (e.cols : V)) :
    ∃ m' a, makePositiveDefinite SS t R etN e m = .ok () m' ∧ Elems SS m' e a ∧
      (∀ i j, a i j = a j i) ∧
      (∀ x : Nat → V, (∃ i, i < e.cols ∧ x i ≠ 0) → 0 < ∑ i ∈ range e.cols, ∑ j ∈ range e.cols, x i * a i j * x j) ∧
      (∀ x, ¬ Owned SS e x → m' x = m x) := by
  obtain ⟨m', h1, h2, h3⟩ := C43_makePositiveDefinite_value hSS hd hf hl hsq ht hfree R hN
  refine ⟨m', _, h1, h2, fun i j => ?_, fun x hx => posDef_of_gram R x hx, h3⟩
  congr 1
  · exact sum_congr rfl (fun k _ => mul_comm _ _)
  · by_cases h : i = j
    · rw [if_pos h, if_pos h.symm]
    · rw [if_neg h, if_neg (fun h' => h h'.symm)]

/-- **C43** (Cholesky). The lower triangle of the result meets the hypothesis of the Cholesky factorization theorems C15. -/
theorem C43_result_factorizable [Field V] [LinearOrder V] [IsStrictOrderedRing V] {n : Nat} {a : Nat → Nat → V}
    (hs : ∀ i j, a i j = a j i)
    (hp : ∀ x : Nat → V, (∃ i, i < n ∧ x i ≠ 0) → 0 < ∑ i ∈ range n, ∑ j ∈ range n, x i * a i j * x j) : LowerPosDef n a := by
  intro x hx
  have := hp x hx
  refine lt_of_lt_of_eq this (sum_congr rfl (fun i _ => sum_congr rfl (fun j _ => ?_)))
  congr 2
  rcases Nat.le_total i j with h | h
  · rw [Nat.max_eq_right h, Nat.min_eq_left h]; exact hs i j
  · rw [Nat.max_eq_left h, Nat.min_eq_right h]

/-- **C43** (non-square arguments). `std::invalid_argument` is thrown, and nothing is changed. -/
theorem C43_not_square [Arith V] {SS : Nat} {m : Mem V} {e : MExpr} (h : e.rows ≠ e.cols) (t : Int) (R : Nat → Nat → V) (etN : V) :
    makePositiveDefinite SS t R etN e m = .throw .invalidArgument m := by
  unfold makePositiveDefinite
  rw [if_pos h]; rfl

/-- the hypotheses are met, e.g. by the 3×3 block at (1,1) of a 5×7 row-major matrix; temporary storage at 1000 -/
example (R : Nat → Nat → Rat) : ∃ m' a, makePositiveDefinite 4 1000 R 3 (.sub (.obj ⟨.dynDense, .rowMajor, 5, 7, 0⟩) false 1 1 3 3)
    demoMem = .ok () m' ∧ Elems 4 m' (.sub (.obj ⟨.dynDense, .rowMajor, 5, 7, 0⟩) false 1 1 3 3) a ∧
      (∀ x : Nat → Rat, (∃ i, i < 3 ∧ x i ≠ 0) → 0 < ∑ i ∈ range 3, ∑ j ∈ range 3, x i * a i j * x j) := by
  obtain ⟨m', a, h1, h2, _, h3, _⟩ := C43_makePositiveDefinite (SS := 4) (m := demoMem) (t := 1000)
    (e := .sub (.obj ⟨.dynDense, .rowMajor, 5, 7, 0⟩) false 1 1 3 3) (by decide) rfl ⟨trivial, by decide, by decide⟩
    (demo_live (by decide) (by decide) (by decide)) rfl (by decide) (fun x hx => by
      have h1 : (1000 : Int) ≤ x := hx.1
      unfold demoMem
      rw [if_neg (by omega)]) R (etN := 3) (by norm_num [MExpr.cols, MExpr.size])
  exact ⟨m', a, h1, h2, h3⟩
end Blast
