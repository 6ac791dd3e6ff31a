import Verif.GetrfSafe
import Verif.Ieee
import Verif.Props.Frame
/- Concrete cases meeting the hypotheses of these theorems: Verif/Cases/Lu.lean, and the examples in this file. -/
/-
C68: the LU factorizations are memory safe, terminate and give usable row indices for every arithmetic - also on matrices with NaN or infinite elements,
where no comparison can be relied on.
-/
set_option linter.unusedSectionVars false
namespace Blast
open Prog Reg
variable {V : Type}

/-- what a caller can rely on after a factorization of A, whatever the numbers: it returned, or it threw `std::invalid_argument`; only elements of A
have changed, all memory is still allocated; if it returned, `p k` is a row at or below row `k` for every column that was eliminated, the other entries
of the pivot array are unchanged -/
def LuSafe (SS : Nat) (m0 : Mem V) (A : Container) (ip : Nat → Nat) (r : Res V (Nat → Nat)) : Prop :=
  (∃ p m', r = .ok p m' ∧ (∀ k, k < min A.rows A.cols → k ≤ p k ∧ p k < A.rows) ∧ (∀ k, min A.rows A.cols ≤ k → p k = ip k) ∧
    OnlyElemsChange SS m0 m' A ∧ ∀ z, (m' z).isSome = (m0 z).isSome) ∨
  (∃ m', r = .throw .invalidArgument m' ∧ OnlyElemsChange SS m0 m' A ∧ ∀ z, (m' z).isSome = (m0 z).isSome)

theorem LuSafe.of_runs {SS : Nat} {m0 : Mem V} {A : Container} {ip : Nat → Nat} {P : Prog V (Nat → Nat)} (hf : Framed P)
    (h : RunsE P m0 (fun p mem' => PivotsOK A.rows (min A.rows A.cols) ip p ∧ ∀ y, ¬ Cells SS (A.mptr SS) A.rows A.cols y → mem' y = m0 y)
      (fun e mem' => e = .invalidArgument ∧ ∀ y, ¬ Cells SS (A.mptr SS) A.rows A.cols y → mem' y = m0 y)) : LuSafe SS m0 A ip (P m0) := by
  rcases h with ⟨p, m', e, h1, h2⟩ | ⟨e, m', e1, rfl, h2⟩
  · exact Or.inl ⟨p, m', e, h1.1, h1.2, fun y hy => h2 y (fun hc => hy ((cells_iff A y).1 hc)), (hf.ok e).1⟩
  · exact Or.inr ⟨m', e1, fun y hy => h2 y (fun hc => hy ((cells_iff A y).1 hc)), (hf.thrown e1).1⟩

/-- **C68** (getf2, column-major). -/
theorem C68_getf2_safe [Arith V] {SS : Nat} (hSS : 0 < SS) {m0 : Mem V} {A : Container} (hd : A.isPanel = false) (hs : A.so = .columnMajor)
    (hl : Live SS m0 A) (ip : Nat → Nat) : LuSafe SS m0 A ip (getf2Ptr SS 1 A.rows A.cols (A.mptr SS) ip m0) := by
  refine LuSafe.of_runs (framed_getf2Ptr ..) ((runs_getf2Ptr (LuPre.of_live hSS hd hs hl).toLuPre (hl.contains hSS).holds ip).mono ?_ ?_)
  · rintro p mem' ⟨a', h1, h2⟩
    exact ⟨luRun_pivots _ (by omega) h1, h2.frame⟩
  · rintro e mem' ⟨h1, -, h3⟩
    exact ⟨h1, h3⟩

/-- **C68** (getf2, row-major); `dv` is the division, which may have any result for any operands. -/
theorem C68_getf2_row_major_safe [Arith V] {SS : Nat} (hSS : 0 < SS) (dv : V → V → V) {m0 : Mem V} {A : Container} (hd : A.isPanel = false)
    (hl : Live SS m0 A) (ip : Nat → Nat) : LuSafe SS m0 A ip (getf2Row SS dv ⟨A.mptr SS, A.rows, A.cols⟩ ip m0) := by
  refine LuSafe.of_runs (framed_getf2Row ..) ((runs_getf2Row hSS dv (A := ⟨A.mptr SS, A.rows, A.cols⟩) (by rw [Container.mptr_eq]; exact hd)
    (A.inj hSS) (hl.contains hSS).holds ip).mono ?_ ?_)
  · rintro p mem' ⟨a', h1, h2⟩
    exact ⟨luRun_pivots _ (by simp) h1, h2.frame⟩
  · rintro e mem' ⟨h1, -, h3⟩
    exact ⟨h1, h3⟩

/-- **C68** (getrf, column-major). -/
theorem C68_getrf_safe [Arith V] {SS : Nat} (hSS : 0 < SS) {m0 : Mem V} {A : Container} (hd : A.isPanel = false) (hs : A.so = .columnMajor)
    (hl : Live SS m0 A) (ip : Nat → Nat) : LuSafe SS m0 A ip (getrfPtr SS 1 A.rows A.cols (A.mptr SS) ip m0) := by
  refine LuSafe.of_runs (framed_getrfPtr ..) ((safe_getrfPtr (LuPre.of_live hSS hd hs hl) ip (hl.contains hSS).holds).mono ?_ ?_)
  · rintro p mem' ⟨a', h1, h2⟩
    exact ⟨h1, h2.frame⟩
  · rintro e mem' ⟨h1, h3⟩
    exact ⟨h1, h3⟩

/-- **C68** (getrf, row-major): it has no pivoting and never throws. -/
theorem C68_getrf_row_major_safe [Arith V] {SS : Nat} (hSS : 0 < SS) (dv : V → V → V) {m0 : Mem V} {A : Container}
    (hl : Live SS m0 A) (ip : Nat → Nat) :
    LuSafe SS m0 A ip (getrfRow SS dv ⟨A.mptr SS, A.rows, A.cols⟩ ip m0) ∧
      ∃ p m', getrfRow SS dv ⟨A.mptr SS, A.rows, A.cols⟩ ip m0 = .ok p m' := by
  obtain ⟨p, m', e, h2, h3⟩ := runs_getrfRow dv (A := ⟨A.mptr SS, A.rows, A.cols⟩) (A.inj hSS) (hl.contains hSS).holds ip
  refine ⟨LuSafe.of_runs (framed_getrfRow ..) (Or.inl ⟨p, m', e, ⟨fun q hq => ?_, fun q hq => ?_⟩, h2.frame⟩), p, m', e⟩
  · rw [h3]; beta_reduce; rw [if_pos hq]; omega
  · rw [h3]; beta_reduce; rw [if_neg (Nat.not_lt.2 hq)]

/-- **C68** (solving a system). Factorize A by getrf; if that returns, interchange the rows of B as recorded and solve with both factors. Whatever the
numbers, the three calls return; in all cases only elements of A and B change. -/
theorem C68_solve_safe [Arith V] {SS : Nat} (hSS : 0 < SS) {m0 : Mem V} {A B : Container} (hd : A.isPanel = false) (hs : A.so = .columnMajor)
    (hl : Live SS m0 A) (hdB : B.isPanel = false) (hlB : Live SS m0 B) (hAB : Apart SS A B) (hsq : A.rows = A.cols) (hB : B.rows = A.rows) (ip : Nat → Nat) :
    ∃ m', (∀ z, ¬ IsElem SS A z → ¬ IsElem SS B z → m' z = m0 z) ∧
      ((do
        let p ← getrfPtr SS 1 A.rows A.cols (A.mptr SS) ip
        laswp SS B.cols (B.mptr SS) 0 A.rows p
        trsmCall SS .lower true A B B
        trsmCall SS .upper false A B B) m0 = .ok () m' ∨
       (getrfPtr SS 1 A.rows A.cols (A.mptr SS) ip m0 = .throw .invalidArgument m')) := by
  rcases C68_getrf_safe hSS hd hs hl ip with ⟨p, m1, e1, h1, -, h3, h4⟩ | ⟨m1, e1, h3, -⟩
  · rw [bind_ok e1]
    have hlB1 : Live SS m1 B := ⟨hlB.align, fun x hx => by rw [h4]; exact hlB.alloc x hx⟩
    have hlA1 : Live SS m1 A := ⟨hl.align, fun x hx => by rw [h4]; exact hl.alloc x hx⟩
    obtain ⟨m2, e2, -, f2⟩ := C24_laswp hSS (A := B.mptr SS) (M := B.rows) (N := B.cols) (k0 := 0) (k1 := A.rows) (ipiv := p)
      (by rw [Container.mptr_eq]; exact hdB) (hlB1.contains hSS).holds (B.inj hSS) (by omega) (by omega)
      (fun q _ hq => by rw [hB]; exact (h1 q (by omega)).2)
    rw [bind_ok e2]
    have d2 := ((framed_laswp ..).ok e2).1
    have hlB2 : Live SS m2 B := ⟨hlB.align, fun x hx => by rw [d2]; exact hlB1.alloc x hx⟩
    have hlA2 : Live SS m2 A := ⟨hl.align, fun x hx => by rw [d2]; exact hlA1.alloc x hx⟩
    have hsz : (A.rows = B.rows ∧ A.cols = B.rows) ∧ B.rows = B.rows ∧ B.cols = B.cols := ⟨⟨by omega, by omega⟩, rfl, rfl⟩
    obtain ⟨m3, e3, f3⟩ := trsmCall_total .lower true (⟨hSS, hlA2, hlB2, hlB2, hAB, Or.inl rfl⟩ : TrsmArgs SS m2 A B B) hsz
    have d3 := ((framed_trsmMat ..).ok e3).1
    have hlB3 : Live SS m3 B := ⟨hlB.align, fun x hx => by rw [d3]; exact hlB2.alloc x hx⟩
    have hlA3 : Live SS m3 A := ⟨hl.align, fun x hx => by rw [d3]; exact hlA2.alloc x hx⟩
    obtain ⟨m4, e4, f4⟩ := trsmCall_total .upper false (⟨hSS, hlA3, hlB3, hlB3, hAB, Or.inl rfl⟩ : TrsmArgs SS m3 A B B) hsz
    refine ⟨m4, fun z hA hB => ?_, Or.inl ?_⟩
    · rw [f4 z hB, f3 z hB, f2 z (fun hc => hB ((cells_iff B z).1 hc)), h3 z hA]
    · rw [bind_ok e3, e4]
  · exact ⟨m1, fun z hA _ => h3 z hA, Or.inr e1⟩

/-! ### Not-a-number -/

theorem ieee_div_nan [Field V] [LinearOrder V] [IsStrictOrderedRing V] [Arith V] (x : Ieee V) : Arith.div (Ieee.nan : Ieee V) x = .nan := by
  cases x <;> rfl

theorem ieee_mul_nan [Field V] [LinearOrder V] [IsStrictOrderedRing V] [Arith V] (x : Ieee V) : Arith.mul x (Ieee.nan : Ieee V) = .nan := by
  cases x <;> rfl

theorem ieee_fma_nan [Field V] [LinearOrder V] [IsStrictOrderedRing V] [Arith V] (x y : Ieee V) : Arith.fma (Ieee.nan : Ieee V) x y = .nan := by
  cases x <;> cases y <;> rfl

theorem luRun_nan [Field V] [LinearOrder V] [IsStrictOrderedRing V] [Arith V] {m : Nat} (K : Nat) (hK : K ≤ m) {a : Nat → Nat → Ieee V} (ip : Nat → Nat)
    (ha : ∀ i j, i < m → a i j = .nan) :
    ∃ b p, luRun Arith.div updCol m a ip K = some (b, p) ∧ ∀ i j, i < m → b i j = .nan := by
  induction K with
  | zero => exact ⟨a, ip, rfl, ha⟩
  | succ K ih =>
    obtain ⟨b, p, e, hb⟩ := ih (by omega)
    unfold luRun
    rw [e, Option.bind_some]
    obtain ⟨b1, b2⟩ := pivotRow_lt b (show K < m by omega)
    have hsw : ∀ i j, i < m → swapRows K (pivotRow m b K) b i j = .nan := by
      intro i j hi
      unfold swapRows
      refine hb _ _ ?_
      split
      · exact b2
      · split <;> omega
    unfold luStep
    simp only
    rw [if_neg (by rw [hsw K K (by omega)]; simp [Arith.eq, Ieee.eq])]
    refine ⟨_, _, rfl, fun i j hi => ?_⟩
    unfold elim
    split
    · split
      · rw [hsw i K hi, ieee_div_nan]
      · split
        · rw [hsw i K hi, hsw i j hi, ieee_div_nan]
          unfold updCol gerEntry
          rw [ieee_mul_nan, ieee_mul_nan, ieee_fma_nan]
        · exact hsw i j hi
    · exact hsw i j hi

/-- **C68** (NaN is not reported). A matrix all of whose elements are NaN is not rejected as singular: getf2 returns, the factors are all NaN. -/
theorem C68_getf2_nan_returns [Field V] [LinearOrder V] [IsStrictOrderedRing V] [Arith V] {SS : Nat} (hSS : 0 < SS) {m0 : Mem (Ieee V)} {A : Container}
    (hd : A.isPanel = false) (hs : A.so = .columnMajor) (hl : Live SS m0 A) (h : Contains SS m0 A (fun _ _ => .nan)) (ip : Nat → Nat) :
    ∃ p m', getf2Ptr SS 1 A.rows A.cols (A.mptr SS) ip m0 = .ok p m' ∧ Contains SS m' A (fun _ _ => .nan) := by
  obtain ⟨b, q, e, hb⟩ := luRun_nan (V := V) (m := A.rows) (min A.rows A.cols) (by omega) (a := fun _ _ => .nan) ip (fun _ _ _ => rfl)
  rcases runs_getf2Ptr (LuPre.of_live hSS hd hs hl).toLuPre h.holds ip with ⟨p, m', e1, a', e2, e3⟩ | ⟨x, m', e1, rfl, e2, -⟩
  · rw [e] at e2
    simp only [Option.some.injEq, Prod.mk.injEq] at e2
    obtain ⟨rfl, rfl⟩ := e2
    refine ⟨_, m', e1, fun i j hi hj => ?_⟩
    rw [Container.addr_eq_mptr, e3.holds i j hi hj, hb i j hi]
  · rw [luRun_none_iff.2 e2] at e; simp at e

/-! ### The hypotheses are satisfiable -/

/-- a 5×7 column-major DynamicMatrix, all elements NaN -/
example : Live 4 (fun x => if 0 ≤ x ∧ x < 400 then some (Ieee.nan : Ieee Rat) else none) ⟨.dynDense, .columnMajor, 5, 7, 200⟩ := by
  refine ⟨rfl, fun x hx => ?_⟩
  have : (⟨.dynDense, .columnMajor, 5, 7, 200⟩ : Container).capacity 4 = 56 := by decide
  unfold Container.Storage at hx
  rw [this] at hx
  simp only at hx
  rw [if_pos (by omega)]; rfl

end Blast
