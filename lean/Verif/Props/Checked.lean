import Verif.CheckedLemmas
import Verif.CheckedViews
import Verif.Props.Gemm
import Verif.Props.Ger
import Verif.Props.Syrk
import Verif.Props.Trmm
import Verif.Props.Potrf
import Verif.Props.Lu
import Verif.Props.Views
/- Concrete cases meeting the hypotheses of these theorems: Verif/Cases/Checked.lean. -/
/-
Property C90: with assertions switched on no valid call of a routine aborts, and it does exactly what it does without them; what the
assertions of the views detect and what they do not detect.
-/
set_option linter.unusedSectionVars false
namespace Blast
open Prog
variable {V : Type}

/-! ### Specification -/

/-- the outcome of a program whose assertion failed -/
def Aborts {α : Type} (p : Prog V α) : Prop := ∀ m, p m = .terminate

/-- a container that is neither a column-major DynamicPanelMatrix nor a column-major StaticPanelMatrix -/
def NotColumnPanel (c : Container) : Prop := c.isPanel = true → c.so = .rowMajor

private theorem al {SS : Nat} (hSS : 0 < SS) {m : Mem V} {c : Container} (h : Live SS m c) : (c.mptr SS).Al SS :=
  (c.mptr_wf hSS h.align).al

private theorem sol {SS : Nat} {c : Container} {s : SO} (h : c.so = s) : (c.mptr SS).so = s := by rw [c.mptr_so, h]

private theorem vfree {SS : Nat} {c : Container} (h : NotColumnPanel c) : Checked.VFree (c.mptr SS) := by
  intro hp
  rw [Container.mptr_eq] at hp ⊢
  exact h hp

/-! ### Checked calls are the release calls -/

section
variable [Arith V] {SS TR : Nat} {m : Mem V}

/-- **C90** (gemm). -/
theorem C90_gemm {A B C D : Container} (alpha beta : V) (h : GemmArgs SS m A B C D) :
    Checked.gemmMat SS alpha (A.mat SS) (B.mat SS) beta (C.mat SS) (D.mat SS) = gemmCall SS alpha A B beta C D :=
  Checked.gemmMat_eq (al h.ss h.lA) (sol h.sA) (al h.ss h.lB) (al h.ss h.lC) (sol h.sC) (al h.ss h.lD) (sol h.sD)

/-- **C90** (gemm on pointers): only the alignment of the column-major operands matters. -/
theorem C90_gemm_pointers {M N K : Nat} {A B C D : MPtr} (alpha beta : V) (h : GemmPre SS M N K A B C D m) :
    Checked.gemmPtr SS M N K alpha A B beta C D = gemmPtr SS M N K alpha A B beta C D :=
  Checked.gemmPtr_eq h.wA.al h.sA h.wC.al h.sC h.wD.al h.sD

/-- **C90** (ger). -/
theorem C90_ger {x y : VObj} {A B : Container} (alpha : V) (h : GerArgs SS m x y A B) :
    Checked.gerMat SS TR alpha x.arg y.arg (A.mat SS) (B.mat SS) = gerCall SS TR alpha x y A B :=
  Checked.gerMat_eq ⟨Or.inr (by decide), fun _ => h.lx.align⟩ ⟨Or.inr (by decide), fun _ => h.ly.align⟩ (al h.ss h.lA) (sol h.sA)
    (al h.ss h.lB) (sol h.sB)

/-- **C90** (syrkLower). -/
theorem C90_syrk {A C D : Container} (alpha beta : V) (h : SyrkArgs SS m A C D) :
    Checked.syrkMat SS TR alpha (A.mat SS) beta (C.mat SS) (D.mat SS) = syrkCall SS TR alpha A beta C D :=
  Checked.syrkMat_eq (al h.ss h.lA) (sol h.sA) (al h.ss h.lC) (sol h.sC) (al h.ss h.lD) (sol h.sD)

/-- **C90** (left trmm), if B is not a column-major panel matrix. -/
theorem C90_trmm_left {A B C : Container} (alpha : V) (uplo : Reg.UpLo) (diag : Bool) (h : TrmmLArgs SS m A B C) (hB : NotColumnPanel B) :
    Checked.trmmLeftMat SS TR alpha (A.mat SS) uplo diag (B.mat SS) (C.mat SS) = trmmLeftCall SS TR alpha A uplo diag B C :=
  Checked.trmmLeftMat_eq (al h.ss h.lA) (sol h.sA) (al h.ss h.lB) (vfree hB) (al h.ss h.lC) (sol h.sC)

/-- **C90** (right trmm), if A is not a column-major panel matrix. -/
theorem C90_trmm_right {B A C : Container} (alpha : V) (uplo : Reg.UpLo) (diag : Bool) (h : TrmmRArgs SS m B A C) (hA : NotColumnPanel A) :
    Checked.trmmRightMat SS TR alpha (B.mat SS) (A.mat SS) uplo diag (C.mat SS) = trmmRightCall SS TR alpha B A uplo diag C :=
  Checked.trmmRightMat_eq (al h.ss h.lB) (sol h.sB) (al h.ss h.lA) (vfree hA) (al h.ss h.lC) (sol h.sC)

/-- **C90** (dense potrf), if the strip width 4 is a multiple of the SIMD width or there is only one strip. -/
theorem C90_potrf_dense {A L : Container} (h : PotrfArgs SS m A L) (hk : SS ∣ 4 ∨ A.cols ≤ 4) :
    Checked.potrfDenseMat SS TR (A.mat SS) (L.mat SS) = (potrfDenseCall SS TR A L : Prog V Unit) := by
  refine if_congr Iff.rfl rfl (if_congr Iff.rfl rfl (if_congr Iff.rfl rfl ?_))
  exact Checked.potrfDensePtr_eq (al h.ss h.lA) (sol h.sA) (al h.ss h.lL) (sol h.sL) (hk.imp Nat.mod_eq_zero_of_dvd id)

/-- **C90** (panel potrf), under the same condition on the strip width. -/
theorem C90_potrf_panel {KN : Nat} {A L : Container} (h : PotrfArgs SS m A L) (hk : SS ∣ KN ∨ A.cols ≤ KN) :
    Checked.potrfPanelMat SS KN (A.mat SS) (L.mat SS) = (potrfPanelCall SS KN A L : Prog V Unit) := by
  refine if_congr Iff.rfl rfl (if_congr Iff.rfl rfl (if_congr Iff.rfl rfl ?_))
  exact Checked.potrfPanelPtr_eq (al h.ss h.lA) (sol h.sA) (al h.ss h.lL) (sol h.sL) (hk.imp Nat.mod_eq_zero_of_dvd id)

/-- **C90** (getf2, column-major), for every column-major pointer, aligned or not. -/
theorem C90_getf2 {M N : Nat} {A : MPtr} (hs : A.so = .columnMajor) (ip : Nat → Nat) :
    Checked.getf2Ptr SS TR M N A ip = (getf2Ptr SS TR M N A ip : Prog V (Nat → Nat)) :=
  Checked.getf2Ptr_eq hs

/-- **C90** (getrf, column-major). -/
theorem C90_getrf {M N : Nat} {A : MPtr} (h : GetrfPre SS TR M N A m) (ip : Nat → Nat) :
    Checked.getrfPtr SS TR M N A ip = (getrfPtr SS TR M N A ip : Prog V (Nat → Nat)) :=
  Checked.getrfPtr_eq h.wf.al h.so

/-- **C90** (iamax, swap, laswp): vectors with positive element spacing, aligned if their type says so; an empty vector is rejected by an
exception before the assertion of iamax is reached. -/
theorem C90_iamax_swap_laswp {x y : VArg} (hx : x.p.Al SS) (hy : y.p.Al SS) {n k0 k1 : Nat} {A : MPtr} {ipiv : Nat → Nat} :
    Checked.iamaxVec SS x = (iamaxVec SS x : Prog V Nat) ∧ Checked.swapVec SS x y = (swapVec SS x y : Prog V Unit) ∧
      Checked.laswp SS n A k0 k1 ipiv = (laswp SS n A k0 k1 ipiv : Prog V Unit) :=
  ⟨Checked.iamaxVec_eq hx, Checked.swapVec_eq hx hy, Checked.laswp_eq⟩

end

/-! ### A checked build detects misaligned pointers -/

section
variable [Arith V] {SS TR : Nat}

/-- **C90** (misaligned matrices are detected). A call of gemm with matching sizes aborts if the pointer to one of the matrices is declared
aligned and is not on a SIMD boundary. -/
theorem C90_gemm_misaligned {A B C D : Mat} (alpha beta : V) (h1 : B.rows = A.cols) (h2 : C.rows = A.rows ∧ C.cols = B.cols)
    (h3 : D.rows = A.rows ∧ D.cols = B.cols) (h : ∃ X ∈ [A, B, C, D], X.p.aligned = true ∧ X.p.ptr % (SS : Int) ≠ 0) :
    Aborts (Checked.gemmMat SS alpha A B beta C D) := by
  intro m
  unfold Checked.gemmMat
  rw [if_neg (by omega), if_neg (by omega), if_neg (by omega)]
  obtain ⟨X, hX, ha, hp⟩ := h
  have bad : ∀ {α : Type} (k : MPtr → Prog V α) (m : Mem V), (Checked.make SS X.p >>= k) m = .terminate := fun k m => by
    refine Checked.bind_terminate (Checked.assert_false_bind ?_ _ _)
    unfold Checked.alignedOk
    rw [ha]
    simpa using hp
  have step : ∀ {α : Type} (Y : Mat) (k : MPtr → Prog V α) (m : Mem V), (∀ p m, k p m = .terminate) →
      (Checked.make SS Y.p >>= k) m = .terminate := fun Y k m hk => by
    cases hb : Checked.alignedOk SS Y.p
    · exact Checked.bind_terminate (Checked.assert_false_bind hb _ _)
    · unfold Checked.make
      rw [Checked.assert_true hb]
      exact hk _ _
  simp only [List.mem_cons, List.not_mem_nil, or_false] at hX
  rcases hX with rfl | rfl | rfl | rfl
  · exact bad _ _
  · exact step _ _ _ (fun _ _ => bad _ _)
  · exact step _ _ _ (fun _ _ => step _ _ _ (fun _ _ => bad _ _))
  · exact step _ _ _ (fun _ _ => step _ _ _ (fun _ _ => step _ _ _ (fun _ _ => bad _ _)))

/-- a pointer declared aligned that is not on a SIMD boundary -/
def MPtr.Misaligned (SS : Nat) (p : MPtr) : Prop := p.aligned = true ∧ p.ptr % (SS : Int) ≠ 0

/-- a vector that no checked build accepts: a pointer declared aligned that is not on a SIMD boundary, or a dynamic vector whose elements have spacing 0 -/
def VPtr.Misformed (SS : Nat) : VPtr → Prop
  | .rowcol p _ => p.Misaligned SS
  | .vec st al p s => (st = false ∧ s = 0) ∨ (al = true ∧ p % (SS : Int) ≠ 0)

theorem bad_make {SS : Nat} {p : MPtr} (h : p.Misaligned SS) {α : Type} (k : MPtr → Prog V α) (m : Mem V) :
    (Checked.make SS p >>= k) m = .terminate := by
  refine Checked.bind_terminate (Checked.assert_false_bind ?_ _ _)
  unfold Checked.alignedOk
  rw [h.1]
  simpa using h.2

theorem step_make {SS : Nat} (p : MPtr) {α : Type} (k : MPtr → Prog V α) (m : Mem V) (hk : ∀ q m, k q m = .terminate) :
    (Checked.make SS p >>= k) m = .terminate := by
  cases hb : Checked.alignedOk SS p
  · exact Checked.bind_terminate (Checked.assert_false_bind hb _ _)
  · unfold Checked.make
    rw [Checked.assert_true hb]
    exact hk _ _

theorem bad_vmake {SS : Nat} {x : VPtr} (h : x.Misformed SS) {α : Type} (k : VPtr → Prog V α) (m : Mem V) :
    (Checked.vmake SS x >>= k) m = .terminate := by
  refine Checked.bind_terminate ?_
  cases x with
  | rowcol p tf => exact bad_make h _ _
  | vec st al p s =>
    change (Checked.assert _ >>= _) m = _
    cases hb : (st || decide (0 < s))
    · exact Checked.assert_false_bind rfl _ _
    · rw [Checked.assert_true rfl]
      refine Checked.assert_false_bind ?_ _ _
      rcases h with ⟨h1, h2⟩ | ⟨h1, h2⟩
      · subst h1 h2
        simp at hb
      · subst h1
        simpa using h2

theorem step_vmake {SS : Nat} (x : VPtr) {α : Type} (k : VPtr → Prog V α) (m : Mem V) (hk : ∀ q m, k q m = .terminate) :
    (Checked.vmake SS x >>= k) m = .terminate := by
  cases x with
  | rowcol p tf =>
    change ((Checked.make SS p >>= fun _ => pure (VPtr.rowcol p tf)) >>= k) m = _
    rw [Prog.bind_assoc']
    exact step_make _ _ _ (fun q m => hk _ _)
  | vec st al p s =>
    change ((Checked.assert _ >>= fun _ => Checked.assert _ >>= fun _ => pure (VPtr.vec st al p s)) >>= k) m = _
    cases hb : (st || decide (0 < s))
    · exact Checked.bind_terminate (Checked.assert_false_bind rfl _ _)
    · rw [Checked.assert_true rfl]
      cases hc : (!al || p % (SS : Int) == 0)
      · rw [Prog.pure_bind']
        exact Checked.bind_terminate (Checked.assert_false_bind rfl _ _)
      · rw [Checked.assert_true rfl]
        exact hk _ _

/-- **C90** (ger): a checked build aborts on every matrix and vector declared aligned that is not, and on dynamic vectors with spacing 0. -/
theorem C90_ger_misaligned {x y : VArg} {A B : Mat} (alpha : V) (h1 : A.rows = x.n ∧ A.cols = y.n) (h2 : B.rows = x.n ∧ B.cols = y.n)
    (h : (∃ v ∈ [x, y], v.p.Misformed SS) ∨ ∃ X ∈ [A, B], X.p.Misaligned SS) : Aborts (Checked.gerMat SS TR alpha x y A B) := by
  intro m
  unfold Checked.gerMat
  rw [if_neg (by omega), if_neg (by omega), if_neg (by omega), if_neg (by omega)]
  rcases h with ⟨X, hX, hb⟩ | ⟨X, hX, hb⟩ <;> simp only [List.mem_cons, List.not_mem_nil, or_false] at hX <;> rcases hX with rfl | rfl
  · exact bad_vmake hb _ _
  · exact step_vmake _ _ _ (fun _ _ => bad_vmake hb _ _)
  · exact step_vmake _ _ _ (fun _ _ => step_vmake _ _ _ (fun _ _ => bad_make hb _ _))
  · exact step_vmake _ _ _ (fun _ _ => step_vmake _ _ _ (fun _ _ => step_make _ _ _ (fun _ _ => bad_make hb _ _)))

/-- **C90** (trmm, both sides): a checked build aborts on every matrix declared aligned that is not. -/
theorem C90_trmm_misaligned {A B C : Mat} (alpha : V) (uplo : Reg.UpLo) (diag : Bool) (hC : C.rows = B.rows ∧ C.cols = B.cols)
    (h : ∃ X ∈ [A, B, C], X.p.Misaligned SS) :
    (A.rows = B.rows ∧ A.cols = B.rows → Aborts (Checked.trmmLeftMat SS TR alpha A uplo diag B C)) ∧
    (A.rows = B.cols ∧ A.cols = B.cols → Aborts (Checked.trmmRightMat SS TR alpha B A uplo diag C)) := by
  obtain ⟨X, hX, hb⟩ := h
  simp only [List.mem_cons, List.not_mem_nil, or_false] at hX
  constructor
  · intro hA m
    unfold Checked.trmmLeftMat
    rw [if_neg (by omega), if_neg (by omega)]
    rcases hX with rfl | rfl | rfl
    · exact bad_make hb _ _
    · exact step_make _ _ _ (fun _ _ => bad_make hb _ _)
    · exact step_make _ _ _ (fun _ _ => step_make _ _ _ (fun _ _ => bad_make hb _ _))
  · intro hA m
    unfold Checked.trmmRightMat
    rw [if_neg (by omega), if_neg (by omega)]
    rcases hX with rfl | rfl | rfl
    · exact step_make _ _ _ (fun _ _ => bad_make hb _ _)
    · exact bad_make hb _ _
    · exact step_make _ _ _ (fun _ _ => step_make _ _ _ (fun _ _ => bad_make hb _ _))

/-- **C90** (vectors): a checked build aborts in iamax and swap on every non-empty vector declared aligned that is not or that has spacing 0, and in the
pointer overload of iamax on an empty range (of which the release build reads an element that is not there). -/
theorem C90_vectors_detected {x y : VArg} (hx : 0 < x.n) :
    (x.p.Misformed SS → Aborts (Checked.iamaxVec SS x : Prog V Nat)) ∧
    (y.n = x.n → (x.p.Misformed SS ∨ y.p.Misformed SS) → Aborts (Checked.swapVec SS x y : Prog V Unit)) ∧
    Aborts (Checked.iamaxPtr SS 0 x.p : Prog V Nat) := by
  refine ⟨fun h m => ?_, fun hy h m => ?_, fun m => Checked.assert_false_bind rfl _ _⟩
  · unfold Checked.iamaxVec
    rw [if_neg (by omega)]
    exact bad_vmake h _ _
  · unfold Checked.swapVec
    rw [if_neg (by omega), if_pos hx]
    rcases h with h | h
    · exact bad_vmake h _ _
    · exact step_vmake _ _ _ (fun _ _ => bad_vmake h _ _)

/-- the call never returns normally: it aborts, unless something before the failing assertion goes wrong -/
def Rejects {V : Type} {α : Type} (p : Prog V α) : Prop := ∀ m a m', p m ≠ .ok a m'

theorem Rejects.left {α β : Type} {p : Prog V α} (h : Rejects p) (k : α → Prog V β) : Rejects (p >>= k) := by
  intro m b m' e
  change Prog.bind' p k m = _ at e
  unfold Prog.bind' at e
  cases hp : p m with
  | ok a m1 => exact h _ _ _ hp
  | ub => rw [hp] at e; cases e
  | throw x m1 => rw [hp] at e; cases e
  | terminate => rw [hp] at e; cases e
  | diverge => rw [hp] at e; cases e

theorem Rejects.right {α β : Type} (p : Prog V α) {k : α → Prog V β} (h : ∀ a, Rejects (k a)) : Rejects (p >>= k) := by
  intro m b m' e
  change Prog.bind' p k m = _ at e
  unfold Prog.bind' at e
  cases hp : p m with
  | ok a m1 => rw [hp] at e; exact h _ _ _ _ e
  | ub => rw [hp] at e; cases e
  | throw x m1 => rw [hp] at e; cases e
  | terminate => rw [hp] at e; cases e
  | diverge => rw [hp] at e; cases e

theorem Rejects.of_aborts {α : Type} {p : Prog V α} (h : Aborts p) : Rejects p := by
  intro m a m' e
  rw [h m] at e
  cases e

theorem rejects_off {p : MPtr} (h : p.Misaligned SS) : Rejects (Checked.off SS p ((0 : Nat) : Int) ((0 : Nat) : Int) : Prog V MPtr) := by
  refine Rejects.of_aborts fun m => ?_
  have e : p.off SS ((0 : Nat) : Int) ((0 : Nat) : Int) = p := by
    unfold MPtr.off MPtr.addr
    obtain ⟨pn, so, al, pd, q, s⟩ := p
    obtain rfl : al = true := h.1
    cases pn <;> cases so <;> simp
  unfold Checked.off
  rw [e]
  refine Checked.assert_false_bind ?_ _ _
  unfold Checked.alignedOk
  rw [h.1]
  simpa using h.2

theorem rejects_loop {T : Nat} {n i : Nat} {c : Nat → Bool} {f : Nat → Prog V Unit} (hc : c i = true) (h : Rejects (f i)) :
    Rejects (loop (n + 1) c T f i) := by
  unfold loop
  rw [if_pos hc]
  exact h.left _

theorem loop_done {T : Nat} {n i : Nat} {c : Nat → Bool} {f : Nat → Prog V Unit} (hc : c i = false) :
    loop (n + 1) c T f i = (pure i : Prog V Nat) := by
  unfold loop
  rw [if_neg (by rw [hc]; decide)]

theorem rejects_rowTiles {T M i0 : Nat} {body : Nat → Nat → Prog V Unit} {tail : Nat → Prog V Unit} (hM : i0 < M)
    (hb : ∀ rm, Rejects (body rm i0)) (ht : Rejects (tail i0)) : Rejects (rowTiles T M i0 body tail) := by
  unfold rowTiles
  by_cases h3 : (decide (i0 + 3 * T ≤ M) && i0 + 4 * T != M) = true
  · exact (rejects_loop h3 (hb 3)).left _
  rw [loop_done (by simpa using h3), Prog.pure_bind']
  by_cases h2 : decide (i0 + 2 * T ≤ M) = true
  · exact (rejects_loop h2 (hb 2)).left _
  rw [loop_done (by simpa using h2), Prog.pure_bind']
  by_cases h1 : decide (i0 + 1 * T ≤ M) = true
  · exact (rejects_loop h1 (hb 1)).left _
  rw [loop_done (by simpa using h1), Prog.pure_bind']
  unfold onlyIf
  rw [if_pos (decide_eq_true hM)]
  exact ht

theorem rejects_colTiles {T N : Nat} {body tail : Nat → Prog V Unit} (hN : 0 < N) (hb : Rejects (body 0)) (ht : Rejects (tail 0)) :
    Rejects (colTiles T N body tail) := by
  unfold colTiles
  by_cases h1 : decide (0 + T ≤ N) = true
  · exact (rejects_loop h1 hb).left _
  rw [loop_done (by simpa using h1), Prog.pure_bind']
  unfold onlyIf
  rw [if_pos (decide_eq_true hN)]
  exact ht

/-- **C90** (syrk): a checked build never returns normally from syrkLower on non-empty matrices one of which is declared aligned but is not. -/
theorem C90_syrk_misaligned {A C D : Mat} (alpha beta : V) (hA : 0 < A.rows) (h : ∃ X ∈ [A, C, D], X.p.Misaligned SS) :
    Rejects (Checked.syrkMat SS TR alpha A beta C D) := by
  have full : ∀ RM, Rejects (Checked.syrkTileFull SS TR RM A.cols alpha A.p beta C.p D.p 0 0) := by
    intro RM
    unfold Checked.syrkTileFull
    obtain ⟨X, hX, hb⟩ := h
    simp only [List.mem_cons, List.not_mem_nil, or_false] at hX
    rcases hX with rfl | rfl | rfl
    · exact Rejects.right _ fun _ => Rejects.right _ fun _ => (rejects_off hb).left _
    · exact (rejects_off hb).left _
    · exact Rejects.right _ fun _ => Rejects.right _ fun _ => Rejects.right _ fun _ => Rejects.right _ fun _ => Rejects.right _ fun _ =>
        Rejects.right _ fun _ => (rejects_off hb).left _
  have part : ∀ RM ml mm nn, Rejects (Checked.syrkTilePart SS TR RM A.cols alpha A.p beta C.p D.p 0 0 ml mm nn) := by
    intro RM ml mm nn
    unfold Checked.syrkTilePart
    obtain ⟨X, hX, hb⟩ := h
    simp only [List.mem_cons, List.not_mem_nil, or_false] at hX
    rcases hX with rfl | rfl | rfl
    · exact Rejects.right _ fun _ => Rejects.right _ fun _ => (rejects_off hb).left _
    · exact (rejects_off hb).left _
    · exact Rejects.right _ fun _ => Rejects.right _ fun _ => Rejects.right _ fun _ => Rejects.right _ fun _ => Rejects.right _ fun _ =>
        Rejects.right _ fun _ => (rejects_off hb).left _
  unfold Checked.syrkMat
  by_cases h1 : C.rows ≠ A.rows ∨ C.cols ≠ A.rows
  · rw [if_pos h1]
    intro m a m' e
    cases e
  rw [if_neg h1]
  by_cases h2 : D.rows ≠ A.rows ∨ D.cols ≠ A.rows
  · rw [if_pos h2]
    intro m a m' e
    cases e
  rw [if_neg h2]
  exact rejects_colTiles hA (rejects_rowTiles hA (fun rm => full _) (part _ _ _ _))
    (rejects_rowTiles hA (fun rm => part _ _ _ _) (part _ _ _ _))

theorem rejects_potrfLoops {T KN M N : Nat} {body : Nat → Nat → Nat → Prog V Unit} (hN : 0 < N) (hM : 0 < M) (hb : ∀ rm, Rejects (body rm 0 0)) :
    Rejects (potrfLoops T KN M N body) := by
  unfold potrfLoops
  refine Rejects.left (rejects_loop (decide_eq_true hN) ?_) _
  by_cases h3 : decide (0 + 2 * T < M) = true
  · exact (rejects_loop h3 (hb 3)).left _
  rw [loop_done (by simpa using h3), Prog.pure_bind']
  by_cases h2 : decide (0 + 1 * T < M) = true
  · exact (rejects_loop h2 (hb 2)).left _
  rw [loop_done (by simpa using h2), Prog.pure_bind']
  exact (rejects_loop (decide_eq_true (by omega)) (hb 1)).left _

/-- **C90** (potrf): a checked build never returns normally from potrf on non-empty matrices one of which is declared aligned but is not. -/
theorem C90_potrf_misaligned {A L : Mat} {KN : Nat} (hA : 0 < A.cols) (h : A.p.Misaligned SS ∨ L.p.Misaligned SS) :
    Rejects (Checked.potrfDenseMat SS TR A L : Prog V Unit) ∧ Rejects (Checked.potrfPanelMat SS KN A L : Prog V Unit) := by
  constructor
  · unfold Checked.potrfDenseMat
    split
    · intro m a m' e
      cases e
    split
    · intro m a m' e
      cases e
    split
    · intro m a m' e
      cases e
    refine rejects_potrfLoops hA (by omega) fun rm => ?_
    unfold Checked.potrfBackendDense
    rcases h with hb | hb
    · exact Rejects.right _ fun _ => Rejects.right _ fun _ => (rejects_off hb).left _
    · exact Rejects.right _ fun _ => Rejects.right _ fun _ => Rejects.right _ fun _ => Rejects.right _ fun _ => (rejects_off hb).left _
  · unfold Checked.potrfPanelMat
    split
    · intro m a m' e
      cases e
    split
    · intro m a m' e
      cases e
    split
    · intro m a m' e
      cases e
    refine rejects_potrfLoops hA (by omega) fun rm => ?_
    unfold Checked.potrfBackendPanel
    rcases h with hb | hb
    · exact Rejects.right _ fun _ => Rejects.right _ fun _ => (rejects_off hb).left _
    · exact Rejects.right _ fun _ => Rejects.right _ fun _ => Rejects.right _ fun _ => Rejects.right _ fun _ => (rejects_off hb).left _

end

/-! ### What a checked build rejects although the release build is right -/

/-- A = 2 I -/
def chkA : Container := ⟨.statDense, .columnMajor, 4, 4, 0⟩
/-- a 4×4 column-major StaticPanelMatrix of ones -/
def chkB : Container := ⟨.statPanel, .columnMajor, 4, 4, 16⟩
/-- the result -/
def chkC : Container := ⟨.statDense, .columnMajor, 4, 4, 32⟩
/-- a 4×4 dense matrix of ones -/
def chkX : Container := ⟨.statDense, .columnMajor, 4, 4, 48⟩
/-- the memory of the witnesses -/
def chkMem : Mem Rat := fun z =>
  if z = 0 ∨ z = 5 ∨ z = 10 ∨ z = 15 then some 2 else if 0 ≤ z ∧ z < 16 then some 0 else if 16 ≤ z ∧ z < 64 then some 1 else none

private theorem chk_live {c : Container} (h1 : c.data % 4 = 0) (h2 : ∀ z, c.Storage 4 z → 0 ≤ z ∧ z < 64) : Live 4 chkMem c := by
  refine ⟨h1, fun z hz => ?_⟩
  obtain ⟨a, b⟩ := h2 z hz
  unfold chkMem
  split_ifs <;> first | rfl | omega

private def isTerminate (r : Res Rat Unit) : Bool :=
  match r with
  | .terminate => true
  | _ => false

private theorem terminate_of {r : Res Rat Unit} (h : isTerminate r = true) : r = .terminate := by
  unfold isTerminate at h
  cases r <;> first | rfl | cases h

private theorem lA : Live 4 chkMem chkA := chk_live (by decide) (fun z hz => by have h : (0 : Int) ≤ z ∧ z < 0 + 16 := hz; omega)
private theorem lB : Live 4 chkMem chkB := chk_live (by decide) (fun z hz => by have h : (16 : Int) ≤ z ∧ z < 16 + 16 := hz; omega)
private theorem lC : Live 4 chkMem chkC := chk_live (by decide) (fun z hz => by have h : (32 : Int) ≤ z ∧ z < 32 + 16 := hz; omega)
private theorem lX : Live 4 chkMem chkX := chk_live (by decide) (fun z hz => by have h : (48 : Int) ≤ z ∧ z < 48 + 16 := hz; omega)

/-- **C90** (refuted for column-major panel operands). Left trmm with a 4×4 column-major panel matrix B returns the right product without
assertions, and aborts with them: the pointer to B is moved down row by row, and the second move asserts that it is aligned. -/
theorem C90_trmm_left_panel_refuted :
    TrmmLArgs 4 chkMem chkA chkB chkC ∧ TrmmLSizes chkA chkB chkC ∧
    (∃ m', trmmLeftCall 4 1 (1 : Rat) chkA .upper false chkB chkC chkMem = .ok () m' ∧ m' (chkC.addr 4 3 3) = some 2) ∧
    Checked.trmmLeftMat 4 1 (1 : Rat) (chkA.mat 4) .upper false (chkB.mat 4) (chkC.mat 4) chkMem = .terminate := by
  refine ⟨⟨by decide, rfl, rfl, lA, lB, lC, ?_, Or.inr ?_, fun _ _ => by decide⟩, by decide, ?_, terminate_of (by decide +kernel)⟩
  · intro z h1 h2
    have h1 : (0 : Int) ≤ z ∧ z < 0 + 16 := h1
    have h2 : (32 : Int) ≤ z ∧ z < 32 + 16 := h2
    omega
  · intro z h1 h2
    have h1 : (16 : Int) ≤ z ∧ z < 16 + 16 := h1
    have h2 : (32 : Int) ≤ z ∧ z < 32 + 16 := h2
    omega
  · refine ok_of_okCell ?_
    decide +kernel

/-- **C90** (refuted for column-major panel operands). Right trmm with a 4×4 column-major panel matrix A likewise. -/
theorem C90_trmm_right_panel_refuted :
    TrmmRArgs 4 chkMem chkX chkB chkC ∧ TrmmRSizes chkX chkB chkC ∧
    (∃ m', trmmRightCall 4 1 (1 : Rat) chkX chkB .lower false chkC chkMem = .ok () m' ∧ m' (chkC.addr 4 3 0) = some 4) ∧
    Checked.trmmRightMat 4 1 (1 : Rat) (chkX.mat 4) (chkB.mat 4) .lower false (chkC.mat 4) chkMem = .terminate := by
  refine ⟨⟨by decide, rfl, rfl, lB, lX, lC, ?_, Or.inr ?_⟩, by decide, ?_, terminate_of (by decide +kernel)⟩
  · intro z h1 h2
    have h1 : (16 : Int) ≤ z ∧ z < 16 + 16 := h1
    have h2 : (32 : Int) ≤ z ∧ z < 32 + 16 := h2
    omega
  · intro z h1 h2
    have h1 : (48 : Int) ≤ z ∧ z < 48 + 16 := h1
    have h2 : (32 : Int) ≤ z ∧ z < 32 + 16 := h2
    omega
  · refine ok_of_okCell ?_
    decide +kernel

/-! ### Views -/

/-- the sizes of every matrix of the expression are `size_t` values -/
def MExpr.Sized : MExpr → Prop
  | .obj c => c.rows < 2 ^ 64 ∧ c.cols < 2 ^ 64
  | .sub e _ _ _ _ _ => e.Sized
  | .tr e => e.Sized

private theorem sized_lt {e : MExpr} (hf : e.Fits) (hs : e.Sized) : e.rows < 2 ^ 64 ∧ e.cols < 2 ^ 64 := by
  induction e with
  | obj c => exact hs
  | sub e af i j m n ih =>
    obtain ⟨h1, h2, h3⟩ := hf
    have := ih h1 hs
    show m < _ ∧ n < _
    omega
  | tr e ih => exact (ih hf hs).symm

private theorem wadd_of_lt {a b : Nat} (h : a + b < 2 ^ 64) : wadd a b = a + b := Nat.mod_eq_of_lt h

section
variable [Arith V] {SS : Nat}

private theorem addr_eq {e : MExpr} (hf : e.Fits) (hs : e.Sized) {i j : Nat} (hi : i < e.rows) (hj : j < e.cols) :
    (Checked.addr SS e i j : Prog V Int) = pure (e.addr SS i j) := by
  induction e generalizing i j with
  | obj c => rfl
  | sub e af i0 j0 m n ih =>
    obtain ⟨h1, h2, h3⟩ := hf
    have hi' : i < m := hi
    have hj' : j < n := hj
    obtain ⟨b1, b2⟩ := sized_lt h1 hs
    unfold Checked.addr
    rw [Checked.assert_true (by simpa using hi'), pure_bind', Checked.assert_true (by simpa using hj'), pure_bind',
      wadd_of_lt (by omega), wadd_of_lt (by omega)]
    exact ih h1 hs (by omega) (by omega)
  | tr e ih => exact ih hf hs hj hi

/-- **C90** (views, no false alarms). Reading and writing an element of a matrix expression built of submatrices inside their matrices does the
same with and without assertions; so do `reset` and assignment. -/
theorem C90_view_valid {e : MExpr} (hf : e.Fits) (hs : e.Sized) :
    (∀ i j, i < e.rows → j < e.cols → (Checked.get SS e i j : Prog V V) = e.get SS i j) ∧
    (∀ i j (v : V), i < e.rows → j < e.cols → Checked.set SS e i j v = e.set SS i j v) ∧
    (Checked.resetView SS e : Prog V Unit) = e.resetView SS := by
  refine ⟨fun i j hi hj => ?_, fun i j v hi hj => ?_, forN_congr (fun i hi => forN_congr (fun j hj => ?_))⟩
  · unfold Checked.get
    rw [addr_eq hf hs hi hj, pure_bind']; rfl
  · unfold Checked.set
    rw [addr_eq hf hs hi hj, pure_bind']; rfl
  · unfold Checked.set
    rw [addr_eq hf hs hi hj, pure_bind']; rfl

/-- **C90** (assignment between views). -/
theorem C90_view_assign {a b : MExpr} (ha : a.Fits) (hb : b.Fits) (hsa : a.Sized) (hsb : b.Sized) :
    (Checked.assign SS a b : Prog V Unit) = MExpr.assign SS a b := by
  unfold Checked.assign MExpr.assign
  by_cases h : a.rows ≠ b.rows ∨ a.cols ≠ b.cols
  · rw [if_pos h, if_pos h]
  · rw [if_neg h, if_neg h]
    refine forN_congr (fun i hi => forN_congr (fun j hj => ?_))
    rw [(C90_view_valid hb hsb).1 i j (by omega) (by omega)]
    exact bind_congr' rfl (fun v => (C90_view_valid ha hsa).2.1 i j v hi hj)

/-- **C90** (submatrices, valid specifications). -/
theorem C90_submatrix_valid {af : Bool} {e : MExpr} {i j m n : Nat} (hf : (e.submatrix af i j m n).Fits) (hs : e.Sized) :
    (Checked.submatrix af e i j m n : Prog V MExpr) = pure (e.submatrix af i j m n) := by
  have key : ∀ (e : MExpr) (i j : Nat), e.Fits → e.Sized → i + m ≤ e.rows → j + n ≤ e.cols →
      (Checked.subMake e af i j m n : Prog V MExpr) = pure (.sub e af i j m n) := by
    intro e i j hf hs h1 h2
    obtain ⟨b1, b2⟩ := sized_lt hf hs
    unfold Checked.subMake
    rw [wadd_of_lt (by omega), wadd_of_lt (by omega), Checked.assert_true (by simpa using h1), pure_bind',
      Checked.assert_true (by simpa using h2), pure_bind']
  cases e with
  | obj c =>
    obtain ⟨h1, h2, h3⟩ := hf
    exact key _ i j h1 hs h2 h3
  | tr e =>
    obtain ⟨h1, h2, h3⟩ := hf
    exact key _ i j h1 hs h2 h3
  | sub e' af' i' j' m' n' =>
    obtain ⟨h1, h2, h3⟩ := hf
    obtain ⟨b1, b2⟩ := sized_lt h1 hs
    show Checked.subMake e' af (wadd i' i) (wadd j' j) m n = _
    rw [wadd_of_lt (by omega), wadd_of_lt (by omega)]
    exact key e' (i' + i) (j' + j) h1 hs h2 h3

/-- **C90** (submatrices, invalid specifications are detected): if the sums do not overflow `size_t` and the submatrix is not inside the matrix,
constructing it aborts. -/
theorem C90_submatrix_detected {af : Bool} {c : Container} {i j m n : Nat} (hi : i + m < 2 ^ 64) (hj : j + n < 2 ^ 64)
    (h : c.rows < i + m ∨ c.cols < j + n) : Aborts (Checked.submatrix af (.obj c) i j m n : Prog V MExpr) := by
  intro μ
  show Checked.subMake (.obj c) af i j m n μ = _
  unfold Checked.subMake
  rw [wadd_of_lt hi, wadd_of_lt hj]
  by_cases h1 : i + m ≤ (MExpr.obj c).rows
  · have h2 : ¬ j + n ≤ (MExpr.obj c).cols := by
      have h1 : i + m ≤ c.rows := h1
      show ¬ j + n ≤ c.cols
      omega
    rw [Checked.assert_true (decide_eq_true h1), pure_bind']
    exact Checked.assert_false_bind (decide_eq_false h2) _ _
  · exact Checked.assert_false_bind (decide_eq_false h1) _ _

/-- **C90** (submatrix elements out of range are detected): reading or writing element (i, j) of a submatrix aborts unless i and j are smaller
than its numbers of rows and columns. -/
theorem C90_submatrix_index_detected {e : MExpr} {af : Bool} {i0 j0 m n i j : Nat} (h : m ≤ i ∨ n ≤ j) :
    Aborts (Checked.get SS (.sub e af i0 j0 m n) i j : Prog V V) ∧ ∀ v : V, Aborts (Checked.set SS (.sub e af i0 j0 m n) i j v) := by
  have key : ∀ μ : Mem V, (Checked.addr SS (.sub e af i0 j0 m n) i j : Prog V Int) μ = .terminate := by
    intro μ
    unfold Checked.addr
    by_cases h1 : i < m
    · rw [Checked.assert_true (by simpa using h1), pure_bind']
      exact Checked.assert_false_bind (by simpa using (by omega : ¬ j < n)) _ _
    · exact Checked.assert_false_bind (by simpa using h1) _ _
  exact ⟨fun μ => Checked.bind_terminate (key μ), fun v μ => Checked.bind_terminate (key μ)⟩

/-- **C90** (rows, no false alarms): a non-empty row view inside the matrix is constructed, and its elements are read and written as without
assertions. -/
theorem C90_row_valid {r : RowView} (hf : r.Fits) (hs : r.m.Sized) (hn : 0 < r.n) :
    (Checked.rowMake r.m r.i r.j r.n : Prog V RowView) = pure r ∧
    (∀ j, j < r.n → (Checked.rowGet SS r j : Prog V V) = read (r.addr SS j)) ∧
    (∀ j (v : V), j < r.n → Checked.rowSet SS r j v = write (r.addr SS j) v) ∧
    (Checked.rowReset SS r : Prog V Unit) = r.reset SS := by
  obtain ⟨h1, h2, h3⟩ := hf
  obtain ⟨b1, b2⟩ := sized_lt h1 hs
  have key : ∀ j, j < r.n → (Checked.rowAddr SS r j : Prog V Int) = pure (r.addr SS j) := by
    intro j hj
    unfold Checked.rowAddr
    rw [wadd_of_lt (by omega), Checked.assert_true (by simpa using (by omega : r.j + j < r.m.cols)), pure_bind',
      addr_eq h1 hs h2 (by omega)]
    rfl
  have hset : ∀ j (v : V), j < r.n → Checked.rowSet SS r j v = write (r.addr SS j) v := by
    intro j v hj
    unfold Checked.rowSet
    rw [key j hj, pure_bind']
  refine ⟨?_, fun j hj => ?_, hset, forN_congr (fun j hj => hset j _ hj)⟩
  · unfold Checked.rowMake
    rw [wadd_of_lt (by omega), Checked.assert_true (by simpa using h2), pure_bind',
      Checked.assert_true (by simpa using (by omega : r.j < r.m.cols)), pure_bind', Checked.assert_true (by simpa using h3), pure_bind']
  · unfold Checked.rowGet
    rw [key j hj, pure_bind']

/-- **C90** (rows, indices beyond the matrix are detected). -/
theorem C90_row_index_detected {r : RowView} {j : Nat} (hw : r.j + j < 2 ^ 64) (h : r.m.cols ≤ r.j + j) :
    Aborts (Checked.rowGet SS r j : Prog V V) ∧ ∀ v : V, Aborts (Checked.rowSet SS r j v) := by
  have key : ∀ μ : Mem V, (Checked.rowAddr SS r j : Prog V Int) μ = .terminate := by
    intro μ
    unfold Checked.rowAddr
    rw [wadd_of_lt hw]
    exact Checked.assert_false_bind (by simpa using h) _ _
  exact ⟨fun μ => Checked.bind_terminate (key μ), fun v μ => Checked.bind_terminate (key μ)⟩

/-- **C90** (rows, construction): a checked build aborts when a row view is constructed whose row or first column is outside of the matrix, or whose
last column is (unless the sum of the `size_t`s wraps around). -/
theorem C90_row_detected {e : MExpr} {i j n : Nat} (h : e.rows ≤ i ∨ e.cols ≤ j ∨ (j + n < 2 ^ 64 ∧ e.cols < j + n)) :
    Aborts (Checked.rowPart e i j n : Prog V RowView) ∧ (e.rows ≤ i → Aborts (Checked.row e i : Prog V RowView)) := by
  constructor
  · intro μ
    unfold Checked.rowPart Checked.rowMake
    cases h1 : decide (i < e.rows)
    · exact Checked.assert_false_bind rfl _ _
    rw [Checked.assert_true rfl]
    cases h2 : decide (j < e.cols)
    · rw [Prog.pure_bind']
      exact Checked.assert_false_bind rfl _ _
    rw [Checked.assert_true rfl]
    have h1 := of_decide_eq_true h1
    have h2 := of_decide_eq_true h2
    rcases h with h | h | ⟨h, h'⟩
    · omega
    · omega
    · rw [wadd_of_lt h]
      exact Checked.assert_false_bind (by simpa using h') _ _
  · intro hi μ
    unfold Checked.row Checked.rowMake
    exact Checked.assert_false_bind (by simpa using hi) _ _

/-- **C90** (register matrices of dynamic size): constructing one aborts exactly if it is larger than its capacity, element access exactly if an index is
not below the size. -/
theorem C90_dynreg {RM N mm nn i j : Nat} {R : DynReg V} :
    ((mm ≤ RM * SS ∧ nn ≤ N → (Checked.dynMake SS RM N mm nn : Prog V (DynReg V)) = pure (DynReg.construct mm nn)) ∧
      (RM * SS < mm ∨ N < nn → Aborts (Checked.dynMake SS RM N mm nn : Prog V (DynReg V)))) ∧
    ((i < R.m ∧ j < R.n → Checked.dynGet SS R i j = pure (R.el SS i j)) ∧
      (R.m ≤ i ∨ R.n ≤ j → Aborts (Checked.dynGet SS R i j))) := by
  refine ⟨⟨fun h => ?_, fun h μ => Checked.assert_false_bind ?_ _ _⟩, ⟨fun h => ?_, fun h μ => Checked.assert_false_bind ?_ _ _⟩⟩
  · unfold Checked.dynMake
    rw [Checked.assert_true (decide_eq_true h)]
    rfl
  · refine decide_eq_false ?_
    omega
  · unfold Checked.dynGet
    rw [Checked.assert_true (decide_eq_true h)]
    rfl
  · refine decide_eq_false ?_
    omega

/-- **C90** (panel views): element access of a PanelSubmatrix and of a PanelMatrixRow aborts exactly if an index is out of the view's range. -/
theorem C90_panel_views {s : PanelSub} {c : Container} {i j : Nat} :
    ((i < s.nrows ∧ j < s.ncols → (Checked.panelGet SS s i j : Prog V V) = read (s.addr SS i j)) ∧
      (¬ (i < s.nrows ∧ j < s.ncols) → Aborts (Checked.panelGet SS s i j : Prog V V))) ∧
    ((j < c.cols → (Checked.panelRowGet SS c i j : Prog V V) = read (c.addr SS i j)) ∧
      (¬ j < c.cols → Aborts (Checked.panelRowGet SS c i j : Prog V V))) := by
  refine ⟨⟨fun h => ?_, fun h μ => ?_⟩, fun h => ?_, fun h μ => ?_⟩
  · unfold Checked.panelGet
    rw [Checked.assert_true (by simpa using h.1), pure_bind', Checked.assert_true (by simpa using h.2), pure_bind']
  · unfold Checked.panelGet
    by_cases h1 : i < s.nrows
    · rw [Checked.assert_true (by simpa using h1), pure_bind']
      exact Checked.assert_false_bind (by simpa using (by omega : ¬ j < s.ncols)) _ _
    · exact Checked.assert_false_bind (by simpa using h1) _ _
  · unfold Checked.panelRowGet
    rw [Checked.assert_true (by simpa using h), pure_bind']
  · exact Checked.assert_false_bind (by simpa using h) _ _

end

/-! ### What the assertions of the views do not detect, and what they reject without need -/

/-- a 4×6 matrix -/
def chkM : Container := ⟨.dynDense, .columnMajor, 4, 6, 0⟩

/-- **C90** (not detected): `row(m, 1, 0, 2)[4]` of a row view of two elements is the element (1, 4) of the matrix, with assertions too. -/
theorem C90_row_index_refuted :
    (Checked.rowMake (.obj chkM) 1 0 2 : Prog Rat RowView) = pure ⟨.obj chkM, 1, 0, 2⟩ ∧
      (Checked.rowGet 4 ⟨.obj chkM, 1, 0, 2⟩ 4 : Prog Rat Rat) = read (chkM.addr 4 1 4) :=
  ⟨rfl, rfl⟩

/-- **C90** (not detected): a submatrix of a submatrix, of a row and a column more than the latter has, is constructed with assertions too, and
its elements can be accessed. -/
theorem C90_submatrix_nested_refuted :
    (Checked.submatrix false (.sub (.obj chkM) false 0 0 2 2) 0 0 3 3 : Prog Rat MExpr) = pure (.sub (.obj chkM) false 0 0 3 3) ∧
      (Checked.get 4 (.sub (.obj chkM) false 0 0 3 3) 2 2 : Prog Rat Rat) = read (chkM.addr 4 2 2) :=
  ⟨rfl, rfl⟩

/-- **C90** (not detected): the sum of offset and size may overflow. -/
theorem C90_submatrix_overflow_refuted :
    (Checked.submatrix false (.obj chkM) (2 ^ 64 - 1) 0 2 1 : Prog Rat MExpr) = pure (.sub (.obj chkM) false (2 ^ 64 - 1) 0 2 1) ∧
      (Checked.get 4 (.sub (.obj chkM) false (2 ^ 64 - 1) 0 2 1) 0 0 : Prog Rat Rat) = read (chkM.addr 4 (2 ^ 64 - 1) 0) :=
  ⟨rfl, rfl⟩

/-- **C90** (rejected without need): the empty subvector at the end of a row, and the row of a matrix without columns, abort with assertions;
without them they are valid empty views. -/
theorem C90_empty_row_refuted :
    (RowView.subvector (RowView.full (.obj chkM) 1) 6 0).Fits ∧
      Aborts (Checked.subvector (RowView.full (.obj chkM) 1) 6 0 : Prog Rat RowView) ∧
    (RowView.full (.obj ⟨.dynDense, .columnMajor, 4, 0, 0⟩) 1).Fits ∧
      Aborts (Checked.row (.obj ⟨.dynDense, .columnMajor, 4, 0, 0⟩) 1 : Prog Rat RowView) :=
  ⟨⟨trivial, by decide, by decide⟩, fun _ => rfl, ⟨trivial, by decide, by decide⟩, fun _ => rfl⟩

end Blast
