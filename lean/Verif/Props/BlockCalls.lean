import Verif.BlockCalls
import Verif.Props.History
import Verif.Props.ViewAlgos
/- Concrete cases meeting the hypotheses of these theorems: Verif/Cases/BlockCalls.lean, and the examples in this file. -/
/-
C72: client programs whose operands are submatrices and transposes behave like the same programs on mathematical matrices.
-/
set_option linter.unusedSectionVars false
namespace Blast
open Prog Finset Reg
variable {V : Type}

/-! ### Specification -/

namespace VExpr

/-- position in the object of element (i,j) of the operand -/
def pos : VExpr → Nat → Nat → Nat × Nat
  | var _, i, j => (i, j)
  | sub e _ i0 j0 _ _, i, j => e.pos (i0 + i) (j0 + j)
  | tr e, i, j => e.pos j i

/-- (rows, columns) of the operand, if the object has `r` rows and `c` columns -/
def size (r c : Nat) : VExpr → Nat × Nat
  | var _ => (r, c)
  | sub _ _ _ _ m n => (m, n)
  | tr e => ((e.size r c).2, (e.size r c).1)

/-- storage order of the operand, if that of the object is `o` -/
def so (o : SO) : VExpr → SO
  | var _ => o
  | sub e _ _ _ _ _ => e.so o
  | tr e => (e.so o).flip

end VExpr

/-- a matrix operand as a mathematical matrix -/
structure AView (V : Type) where
  rows : Nat
  cols : Nat
  so : SO
  val : Nat → Nat → V

/-- the matrix an operand denotes -/
def HState.look (s : HState V) (e : VExpr) : Option (AView V) :=
  (s.objs e.base).map (fun o => ⟨(e.size o.rows o.cols).1, (e.size o.rows o.cols).2, e.so o.so, fun i j => o.val (e.pos i j).1 (e.pos i j).2⟩)

/-- the elements of the operand `e` get the values `f`, all other elements of its object (and all other objects) keep theirs -/
def PutView (s : HState V) (e : VExpr) (f : Nat → Nat → V) (s' : HState V) : Prop :=
  ∃ o g, s.objs e.base = some o ∧ s' = s.put e.base { o with val := g } ∧
    (∀ i j, i < (e.size o.rows o.cols).1 → j < (e.size o.rows o.cols).2 → g (e.pos i j).1 (e.pos i j).2 = f i j) ∧
    (∀ p q, p < o.rows → q < o.cols → (∀ i j, i < (e.size o.rows o.cols).1 → j < (e.size o.rows o.cols).2 → e.pos i j ≠ (p, q)) → g p q = o.val p q)

/-- LU factorization with partial pivoting of the operand `a` -/
def SpecLuView [Field V] [LinearOrder V] (s : HState V) (a : VExpr) (P : Nat) (r : Outcome V) (s' : HState V) : Prop :=
  ∃ A, s.look a = some A ∧
    (ColsIndep A.rows (min A.rows A.cols) A.val → r = .done ∧ ∃ f p s1, PutView s a f s1 ∧ s' = s1.putPiv P p ∧
      IsLU A.rows A.cols A.val f p ∧ (∀ k, k < min A.rows A.cols → k ≤ p k ∧ p k < A.rows) ∧ (∀ k, min A.rows A.cols ≤ k → p k = s.piv P k) ∧
      (∀ i k, k < min A.rows A.cols → k < i → i < A.rows → |f i k| ≤ 1) ∧ (∀ k, k < min A.rows A.cols → f k k ≠ 0)) ∧
    (¬ ColsIndep A.rows (min A.rows A.cols) A.val → r = .exn .invalidArgument ∧ ∃ f p s1, PutView s a f s1 ∧ s' = s1.putPiv P p)

/-- What a call on views does: `SpecBlk s c r s'` - in state `s` the call `c` may end with outcome `r` in state `s'`. -/
def SpecBlk [Field V] [LinearOrder V] (s : HState V) (c : BCall V) (r : Outcome V) (s' : HState V) : Prop :=
  match c with
  | .assign a b => ∃ A B, s.look a = some A ∧ s.look b = some B ∧
      (A.rows = B.rows ∧ A.cols = B.cols → r = .done ∧ PutView s a B.val s') ∧
      (¬ (A.rows = B.rows ∧ A.cols = B.cols) → r = .exn .invalidArgument ∧ s' = s)
  | .reset e af i j m n => r = .done ∧ PutView s (.sub e af i j m n) (fun _ _ => 0) s'
  | .set a i j v => ∃ A, s.look a = some A ∧ r = .done ∧ PutView s a (fun i' j' => if i' = i ∧ j' = j then v else A.val i' j') s'
  | .get a i j => ∃ A, s.look a = some A ∧ r = .value (A.val i j) ∧ s' = s
  | .randomize a rnd => r = .done ∧ PutView s a rnd s'
  | .gemm alpha a b beta c d => ∃ A B C D, s.look a = some A ∧ s.look b = some B ∧ s.look c = some C ∧ s.look d = some D ∧
      (B.rows = A.cols ∧ (C.rows = A.rows ∧ C.cols = B.cols) ∧ (D.rows = A.rows ∧ D.cols = B.cols) →
        r = .done ∧ PutView s d (fun i j => alpha * (∑ k ∈ range A.cols, A.val i k * B.val k j) + beta * C.val i j) s') ∧
      (¬ (B.rows = A.cols ∧ (C.rows = A.rows ∧ C.cols = B.cols) ∧ (D.rows = A.rows ∧ D.cols = B.cols)) → r = .exn .invalidArgument ∧ s' = s)
  | .trmmLeft alpha a b c => ∃ A B C, s.look a = some A ∧ s.look b = some B ∧ s.look c = some C ∧
      ((A.rows = B.rows ∧ A.cols = B.rows) ∧ (C.rows = B.rows ∧ C.cols = B.cols) → r = .done ∧ ∃ f, PutView s c f s' ∧
        ((∀ i k, k < i → i < A.rows → A.val i k = 0) →
          ∀ i j, i < C.rows → j < C.cols → f i j = alpha * ∑ k ∈ range B.rows, A.val i k * B.val k j)) ∧
      (¬ ((A.rows = B.rows ∧ A.cols = B.rows) ∧ (C.rows = B.rows ∧ C.cols = B.cols)) → r = .exn .invalidArgument ∧ s' = s)
  | .trmmRight alpha b a c => ∃ A B C, s.look a = some A ∧ s.look b = some B ∧ s.look c = some C ∧
      ((A.rows = B.cols ∧ A.cols = B.cols) ∧ (C.rows = B.rows ∧ C.cols = B.cols) → r = .done ∧
        PutView s c (fun i j => alpha * ∑ k ∈ range B.cols, B.val i k * if j ≤ k then A.val k j else 0) s') ∧
      (¬ ((A.rows = B.cols ∧ A.cols = B.cols) ∧ (C.rows = B.rows ∧ C.cols = B.cols)) → r = .exn .invalidArgument ∧ s' = s)
  | .syrk alpha a beta c d => ∃ A C D, s.look a = some A ∧ s.look c = some C ∧ s.look d = some D ∧
      ((C.rows = A.rows ∧ C.cols = A.rows) ∧ (D.rows = A.rows ∧ D.cols = A.rows) → r = .done ∧
        PutView s d (fun i j => if j ≤ i then beta * C.val i j + alpha * ∑ k ∈ range A.cols, A.val i k * A.val j k else D.val i j) s') ∧
      (¬ ((C.rows = A.rows ∧ C.cols = A.rows) ∧ (D.rows = A.rows ∧ D.cols = A.rows)) → r = .exn .invalidArgument ∧ s' = s)
  | .trsm uplo unit a b x => ∃ A B X, s.look a = some A ∧ s.look b = some B ∧ s.look x = some X ∧
      ((A.rows = B.rows ∧ A.cols = B.rows) ∧ X.rows = B.rows ∧ X.cols = B.cols → r = .done ∧ ∃ f, PutView s x f s' ∧
        ((unit = false → ∀ i, i < A.rows → A.val i i ≠ 0) →
          ∀ i j, i < A.rows → j < X.cols → ∑ k ∈ range A.rows, tri uplo unit A.val i k * f k j = B.val i j)) ∧
      (¬ ((A.rows = B.rows ∧ A.cols = B.rows) ∧ X.rows = B.rows ∧ X.cols = B.cols) → r = .exn .invalidArgument ∧ s' = s)
  | .potrf a l => ∃ A L, s.look a = some A ∧ s.look l = some L ∧
      (A.cols ≤ A.rows ∧ L.rows = A.rows ∧ L.cols = A.cols → r = .done ∧ ∃ f, PutView s l f s' ∧
        (LowerPosDef A.cols A.val → IsCholesky A.rows A.cols f A.val) ∧
        (∀ i j, i < L.rows → j < L.cols → i < j → f i j = L.val i j)) ∧
      (¬ (A.cols ≤ A.rows ∧ L.rows = A.rows ∧ L.cols = A.cols) → r = .exn .invalidArgument ∧ s' = s)
  | .getf2 a P _ => SpecLuView s a P r s'
  | .getrf a P _ => ∃ A, s.look a = some A ∧
      (A.so = .columnMajor → SpecLuView s a P r s') ∧
      -- row-major: no pivoting
      (A.so = .rowMajor → r = .done ∧ ∃ f s1, PutView s a f s1 ∧ s' = s1.putPiv P (fun k => if k < min A.rows A.cols then k else s.piv P k) ∧
        ((∀ k, k < min A.rows A.cols → ColsIndep (k + 1) (k + 1) A.val) → ∀ i j, i < A.rows → j < A.cols →
          ∑ k ∈ range (min A.rows A.cols), tri .lower true f i k * tri .upper false f k j = A.val i j))
  | .laswp a k0 k1 P => ∃ A, s.look a = some A ∧ r = .done ∧ PutView s a (rowSwaps (s.piv P) k0 (k1 - k0) A.val) s'

/-- one step of a client program -/
def SpecB [Field V] [LinearOrder V] [Arith V] (KN : Nat) (s : HState V) (st : BStep V) (r : Outcome V) (s' : HState V) : Prop :=
  match st with
  | .whole o => SpecOne KN s o r s'
  | .blk c => SpecBlk s c r s'

/-- `SpecProg KN s l rs s'`: the program `l`, started in `s`, may show the outcomes `rs` and end in `s'` -/
inductive SpecProg [Field V] [LinearOrder V] [Arith V] (KN : Nat) : HState V → List (BStep V) → List (Outcome V) → HState V → Prop where
  | nil (s) : SpecProg KN s [] [] s
  | stop {s st l r s'} : SpecB KN s st r s' → r.final = true → SpecProg KN s (st :: l) [r] s'
  | cons {s st l r s' rs s''} : SpecB KN s st r s' → r.final = false → SpecProg KN s' l rs s'' → SpecProg KN s (st :: l) (r :: rs) s''

/-! ### What the client has to respect -/

/-- `E` is what the operand `e` evaluates to: it is inside its object (which exists), of a dense class, and declared aligned only if it is. -/
structure ViewArg (SS : Nat) (h : HWorld V) (e : VExpr) (E : MExpr) : Prop where
  eval : e.eval h.w.obj = some E
  dense : E.isPanel = false
  fits : E.Fits
  al : E.aligned = true → E.data SS % (SS : Int) = 0

/-- the operands `a`, `b` have no element in common -/
def NoOverlap (a b : VExpr) (A B : MExpr) : Prop :=
  a.base ≠ b.base ∨ ∀ i j i' j', i < A.rows → j < A.cols → i' < B.rows → j' < B.cols → a.pos i j ≠ b.pos i' j'

/-- the operands `a`, `b` have no element in common, except that both may have the same element in the same place -/
def SameOrNoOverlap (a b : VExpr) (A B : MExpr) : Prop :=
  a.base ≠ b.base ∨ ∀ i j i' j', i < A.rows → j < A.cols → i' < B.rows → j' < B.cols → a.pos i j = b.pos i' j' → i = i' ∧ j = j'

/-- The preconditions of the calls on views: see C39, C49 and C51. -/
def BlkAllowed (SS : Nat) (h : HWorld V) : BCall V → Prop
  | .assign a b => ∃ A B, ViewArg SS h a A ∧ ViewArg SS h b B ∧ SameOrNoOverlap b a B A
  | .reset e af i j m n => ∃ E, ViewArg SS h (.sub e af i j m n) E
  | .set a i j _ => ∃ A, ViewArg SS h a A ∧ i < A.rows ∧ j < A.cols
  | .get a i j => ∃ A, ViewArg SS h a A ∧ i < A.rows ∧ j < A.cols
  | .randomize a _ => ∃ A, ViewArg SS h a A
  | .gemm _ a b _ c d => ∃ A B C D, ViewArg SS h a A ∧ ViewArg SS h b B ∧ ViewArg SS h c C ∧ ViewArg SS h d D ∧
      A.so = .columnMajor ∧ C.so = .columnMajor ∧ D.so = .columnMajor ∧ PadInBounds SS A ∧ PadInBounds SS C ∧
      NoOverlap a d A D ∧ NoOverlap b d B D ∧ SameOrNoOverlap c d C D
  | .trmmLeft _ a b c => ∃ A B C, ViewArg SS h a A ∧ ViewArg SS h b B ∧ ViewArg SS h c C ∧
      A.so = .columnMajor ∧ C.so = .columnMajor ∧ PadInBounds SS A ∧ NoOverlap a c A C ∧ SameOrNoOverlap b c B C
  | .trmmRight _ b a c => ∃ A B C, ViewArg SS h a A ∧ ViewArg SS h b B ∧ ViewArg SS h c C ∧
      B.so = .columnMajor ∧ C.so = .columnMajor ∧ PadInBounds SS B ∧ NoOverlap a c A C ∧ SameOrNoOverlap b c B C
  | .syrk _ a _ c d => ∃ A C D, ViewArg SS h a A ∧ ViewArg SS h c C ∧ ViewArg SS h d D ∧
      A.so = .columnMajor ∧ C.so = .columnMajor ∧ D.so = .columnMajor ∧ A.aligned = true ∧ C.aligned = true ∧ D.aligned = true ∧
      PadInBounds SS A ∧ PadInBounds SS C ∧ NoOverlap a d A D ∧ SameOrNoOverlap c d C D
  | .trsm _ _ a b x => ∃ A B X, ViewArg SS h a A ∧ ViewArg SS h b B ∧ ViewArg SS h x X ∧ NoOverlap a x A X ∧ SameOrNoOverlap b x B X
  | .potrf a l => ∃ A L, ViewArg SS h a A ∧ ViewArg SS h l L ∧ A.so = .columnMajor ∧ L.so = .columnMajor ∧ A.aligned = true ∧ L.aligned = true ∧
      SameOrNoOverlap a l A L ∧ A.cols % 4 = 0 ∧ (∀ k, k % 4 = 0 → k < A.cols → k % SS = 0) ∧ 4 ≤ SS ∧
      (∀ k, k % 4 = 0 → k < A.cols → (A.rows - k) % SS = 0)
  | .getf2 a _ _ => ∃ A, ViewArg SS h a A
  | .getrf a _ _ => ∃ A, ViewArg SS h a A ∧ (A.so = .columnMajor → PadInBounds SS A)
  | .laswp a k0 k1 P => ∃ A, ViewArg SS h a A ∧ k0 ≤ k1 ∧ k1 ≤ A.rows ∧ ∀ q, k0 ≤ q → q < k1 → h.piv P q < A.rows

def BAllowed [NatCast V] [Arith V] (SS KN : Nat) (h : HWorld V) : BStep V → Prop
  | .whole st => HAllowed SS KN h st
  | .blk c => BlkAllowed SS h c

/-- every step is allowed at the moment it is made -/
def BAdmissible [NatCast V] [Arith V] (SS KN : Nat) (dv : V → V → V) (h : HWorld V) : List (BStep V) → Prop
  | [] => True
  | st :: l => BAllowed SS KN h st ∧ ((h.bstep SS KN dv st).1.final = false → BAdmissible SS KN dv (h.bstep SS KN dv st).2 l)

/-! ### Proof -/

/-- what an operand evaluates to -/
theorem VExpr.eval_spec {obj : Nat → Option Container} {e : VExpr} {E : MExpr} (h : e.eval obj = some E) :
    obj e.base = some E.base ∧ (∀ i j, E.place i j = e.pos i j) ∧ E.size = e.size E.base.rows E.base.cols ∧ E.so = e.so E.base.so := by
  induction e generalizing E with
  | var x =>
    unfold VExpr.eval at h
    rw [Option.map_eq_some_iff] at h
    obtain ⟨c, hc, rfl⟩ := h
    exact ⟨hc, fun _ _ => rfl, rfl, rfl⟩
  | sub e af i0 j0 m n ih =>
    unfold VExpr.eval at h
    rw [Option.map_eq_some_iff] at h
    obtain ⟨F, hF, rfl⟩ := h
    obtain ⟨h1, h2, h3, h4⟩ := ih hF
    obtain ⟨k1, k2, k3, -, k5⟩ := C39_submatrix_size 1 af F i0 j0 m n
    refine ⟨by rw [k5]; exact h1, fun i j => ?_, Prod.ext k1 k2, by rw [k3, k5]; exact h4⟩
    show _ = e.pos (i0 + i) (j0 + j)
    rw [← h2]
    cases F with
    | obj c => rfl
    | tr F => rfl
    | sub F af' i' j' m' n' =>
      show F.place (i' + i0 + i) (j' + j0 + j) = F.place (i' + (i0 + i)) (j' + (j0 + j))
      rw [Nat.add_assoc, Nat.add_assoc]
  | tr e ih =>
    unfold VExpr.eval at h
    rw [Option.map_eq_some_iff] at h
    obtain ⟨F, hF, rfl⟩ := h
    obtain ⟨h1, h2, h3, h4⟩ := ih hF
    have key : F.trans.base = F.base ∧ (∀ i j, F.trans.place i j = F.place j i) ∧ F.trans.size = (F.size.2, F.size.1) ∧ F.trans.so = F.so.flip := by
      cases F with
      | obj c => exact ⟨rfl, fun _ _ => rfl, rfl, rfl⟩
      | sub F af' i' j' m' n' => exact ⟨rfl, fun _ _ => rfl, rfl, rfl⟩
      | tr F => refine ⟨rfl, fun _ _ => rfl, rfl, ?_⟩; show F.so = F.so.flip.flip; cases F.so <;> rfl
    obtain ⟨k1, k2, k3, k4⟩ := key
    refine ⟨by rw [k1]; exact h1, fun i j => ?_, ?_, ?_⟩
    · rw [k2]; exact h2 j i
    · rw [k3, k1, h3]; rfl
    · rw [k4, k1, h4]; rfl

section aux
variable [Arith V]

/-- an operand, with the matrix it denotes -/
structure Operand (SS : Nat) (h : HWorld V) (s : HState V) (e : VExpr) (E : MExpr) (A : AView V) : Prop where
  look : s.look e = some A
  rows : A.rows = E.rows
  cols : A.cols = E.cols
  so : A.so = E.so
  ok : ViewOK SS h.w.mem E
  elems : Elems SS h.w.mem E A.val

theorem ViewArg.operand {SS : Nat} {h : HWorld V} {s : HState V} (hr : HRep SS h s) {e : VExpr} {E : MExpr} (ha : ViewArg SS h e E) :
    ∃ A, Operand SS h s e E A := by
  obtain ⟨h1, h2, h3, h4⟩ := VExpr.eval_spec ha.eval
  obtain ⟨o, ho, hox⟩ := hr.1.get h1
  refine ⟨_, ⟨by unfold HState.look; rw [ho]; rfl, ?_, ?_, ?_, ⟨ha.dense, ha.fits, hox.live, ha.al⟩, ?_⟩⟩
  · dsimp only; rw [hox.rows, hox.cols, ← h3]; rfl
  · dsimp only; rw [hox.rows, hox.cols, ← h3]; rfl
  · dsimp only; rw [hox.so, ← h4]
  · rw [elems_iff]
    intro i j hi hj
    obtain ⟨p1, p2⟩ := E.place_lt ha.fits hi hj
    rw [E.addr_place, hox.val _ _ p1 p2, h2]

theorem noOverlap_disjoint {SS : Nat} (hSS : 0 < SS) {h : HWorld V} {s : HState V} (hr : HRep SS h s) {a b : VExpr} {A B : MExpr} (ha : ViewArg SS h a A)
    (hb : ViewArg SS h b B) (hn : NoOverlap a b A B) : ViewsDisjoint SS A B := by
  intro i j i' j' hi hj hi' hj' he
  obtain ⟨a1, a2, -⟩ := VExpr.eval_spec ha.eval
  obtain ⟨b1, b2, -⟩ := VExpr.eval_spec hb.eval
  obtain ⟨p1, p2⟩ := A.place_lt ha.fits hi hj
  obtain ⟨q1, q2⟩ := B.place_lt hb.fits hi' hj'
  rw [A.addr_place, B.addr_place] at he
  by_cases hab : a.base = b.base
  · rcases hn with hn | hn
    · exact hn hab
    · rw [hab, b1] at a1
      have hbb := Option.some.inj a1
      rw [← hbb] at p1 p2 he
      obtain ⟨e1, e2⟩ := B.base.inj hSS _ _ _ _ p1 p2 q1 q2 (by rw [← Container.addr_eq_mptr, ← Container.addr_eq_mptr]; exact he)
      exact hn i j i' j' hi hj hi' hj' (by rw [← a2, ← b2]; exact Prod.ext e1 e2)
  · have := ((rep_apart hr.1 a1 b1).1 hab).disj hSS _ _ _ _ p1 p2 q1 q2
    rw [← Container.addr_eq_mptr, ← Container.addr_eq_mptr] at this
    exact this he

theorem sameOrNoOverlap_views {SS : Nat} (hSS : 0 < SS) {h : HWorld V} {s : HState V} (hr : HRep SS h s) {a b : VExpr} {A B : MExpr} (ha : ViewArg SS h a A)
    (hb : ViewArg SS h b B) (hn : SameOrNoOverlap a b A B) : ViewsSameOrDisjoint SS A B := by
  intro i j i' j' hi hj hi' hj' he
  rcases hn with hn | hn
  · exact absurd he (noOverlap_disjoint hSS hr ha hb (Or.inl hn) i j i' j' hi hj hi' hj')
  · obtain ⟨a1, a2, -⟩ := VExpr.eval_spec ha.eval
    obtain ⟨b1, b2, -⟩ := VExpr.eval_spec hb.eval
    obtain ⟨p1, p2⟩ := A.place_lt ha.fits hi hj
    obtain ⟨q1, q2⟩ := B.place_lt hb.fits hi' hj'
    by_cases hab : a.base = b.base
    · rw [A.addr_place, B.addr_place] at he
      rw [hab, b1] at a1
      have hbb := Option.some.inj a1
      rw [← hbb] at p1 p2 he
      obtain ⟨e1, e2⟩ := B.base.inj hSS _ _ _ _ p1 p2 q1 q2 (by rw [← Container.addr_eq_mptr, ← Container.addr_eq_mptr]; exact he)
      exact hn i j i' j' hi hj hi' hj' (by rw [← a2, ← b2]; exact Prod.ext e1 e2)
    · exact absurd he (noOverlap_disjoint hSS hr ha hb (Or.inl hab) i j i' j' hi hj hi' hj')

/-- memory after elements of a view have changed, as a state -/
theorem putView_rep {SS : Nat} (hSS : 0 < SS) {h : HWorld V} {s : HState V} (hr : HRep SS h s) {e : VExpr} {E : MExpr} (ha : ViewArg SS h e E)
    {m' : Mem V} {f : Nat → Nat → V} (hf : ∀ x, ¬ IsViewElem SS E x → m' x = h.w.mem x) (hv : Elems SS m' E f) :
    ∃ o g, s.objs e.base = some o ∧ h.w.obj e.base = some E.base ∧ ObjRep SS h.w.mem E.base o ∧ OnlyElemsChange SS h.w.mem m' E.base ∧
      Contains SS m' E.base g ∧ PutView s e f (s.put e.base { o with val := g }) := by
  obtain ⟨h1, h2, h3, h4⟩ := VExpr.eval_spec ha.eval
  obtain ⟨o, ho, hox⟩ := hr.1.get h1
  have he : OnlyElemsChange SS h.w.mem m' E.base := fun x hx => hf x (fun hc => hx (by
    obtain ⟨i, j, hi, hj, rfl⟩ := hc
    obtain ⟨p1, p2⟩ := E.place_lt ha.fits hi hj
    exact ⟨_, _, p1, p2, E.addr_place i j⟩))
  have hdom : ∀ z, E.base.Storage SS z → (m' z).isSome = (h.w.mem z).isSome := by
    intro z hz
    by_cases hc : IsViewElem SS E z
    · obtain ⟨i, j, hi, hj, rfl⟩ := hc
      rw [elems_iff.1 hv i j hi hj, hox.live.alloc _ hz]; rfl
    · rw [hf z hc]
  have hback := contains_back hSS hox.live hdom
  have hsz : (e.size o.rows o.cols).1 = E.rows ∧ (e.size o.rows o.cols).2 = E.cols := by
    rw [hox.rows, hox.cols, ← h3]; exact ⟨rfl, rfl⟩
  refine ⟨o, _, ho, h1, hox, he, hback, o, _, ho, rfl, fun i j hi hj => ?_, fun p q hp hq hpq => ?_⟩
  · rw [hsz.1] at hi
    rw [hsz.2] at hj
    obtain ⟨p1, p2⟩ := E.place_lt ha.fits hi hj
    rw [← h2]
    refine contains_uniq hback p1 p2 ?_
    rw [← E.addr_place]
    exact elems_iff.1 hv i j hi hj
  · rw [hox.rows] at hp
    rw [hox.cols] at hq
    refine contains_uniq hback hp hq ?_
    rw [hf _ (fun hc => ?_)]
    · exact hox.val p q hp hq
    · obtain ⟨i, j, hi, hj, he⟩ := hc
      obtain ⟨p1, p2⟩ := E.place_lt ha.fits hi hj
      rw [E.addr_place] at he
      obtain ⟨e1, e2⟩ := E.base.inj hSS _ _ _ _ hp hq p1 p2 (by rw [← Container.addr_eq_mptr, ← Container.addr_eq_mptr]; exact he)
      refine hpq i j (by rw [hsz.1]; exact hi) (by rw [hsz.2]; exact hj) ?_
      rw [← h2]; exact Prod.ext e1.symm e2.symm

/-- a call that changes elements of a view only -/
theorem bexec_view {SS : Nat} (hSS : 0 < SS) {h : HWorld V} {s : HState V} (hr : HRep SS h s) {e : VExpr} {E : MExpr} (ha : ViewArg SS h e E)
    {α : Type} {p : Prog V α} {r : α} {m' : Mem V} (hp : p h.w.mem = .ok r m') {f : Nat → Nat → V}
    (hf : ∀ x, ¬ IsViewElem SS E x → m' x = h.w.mem x) (hv : Elems SS m' E f) :
    (h.exec p).1 = .done ∧ ∃ s', PutView s e f s' ∧ HRep SS (h.exec p).2 s' := by
  obtain ⟨o, g, ho, hx, hox, h1, h2, h3⟩ := putView_rep hSS hr ha hf hv
  obtain ⟨f1, f2⟩ := hexec_elems hSS hr hx hox hp h1 h2
  exact ⟨f1, _, h3, f2⟩

/-- the elements of a view after a program that allocates and releases nothing -/
theorem elems_back {SS : Nat} (hSS : 0 < SS) {m m' : Mem V} {E : MExpr} (ho : ViewOK SS m E) (hd : ∀ z, (m' z).isSome = (m z).isSome) :
    Elems SS m' E (fun i j => (m' (E.addr SS i j)).getD Arith.zero) := by
  rw [elems_iff]
  intro i j hi hj
  have := ho.live.alloc _ (E.addr_storage hSS ho.fits hi hj)
  rw [← hd, Option.isSome_iff_exists] at this
  obtain ⟨v, hv⟩ := this
  rw [hv]; rfl

theorem elems_uniq {SS : Nat} {m : Mem V} {E : MExpr} {f g : Nat → Nat → V} (hf : Elems SS m E f) (hg : Elems SS m E g) {i j : Nat}
    (hi : i < E.rows) (hj : j < E.cols) : f i j = g i j := by
  have h1 := elems_iff.1 hf i j hi hj
  rw [elems_iff.1 hg i j hi hj] at h1
  exact (Option.some.inj h1).symm

theorem trsm_views_frame {SS : Nat} (hSS : 0 < SS) {m : Mem V} {A B X : MExpr} (uplo : Reg.UpLo) (unit : Bool)
    (vA : ViewOK SS m A) (vB : ViewOK SS m B) (vX : ViewOK SS m X) (dA : ViewsDisjoint SS A X)
    (dB : ViewsSameOrDisjoint SS B X) (h1 : A.rows = B.rows) (h2 : A.cols = B.rows) (h3 : X.rows = B.rows) (h4 : X.cols = B.cols) :
    ∃ m', trsmMat SS uplo unit (A.mat SS) (B.mat SS) (X.mat SS) m = .ok () m' ∧ (∀ z, ¬ IsViewElem SS X z → m' z = m z) := by
  have dis := vA.disj hSS vX dA
  rw [h1, h2, h3, h4] at dis
  have rA := vA.readable hSS
  rw [h1, h2] at rA
  obtain ⟨m', e1, e2⟩ := trsmPtr_total (SS := SS) (m := B.rows) (n := B.cols) (A := A.mptr SS) (X := X.mptr SS) (B := B.mptr SS) uplo unit (mem := m)
    (fun i k hi hk => ⟨rA i k hi hk, by rintro ⟨i', j', hi', hj', he⟩; exact dis i k i' j' hi hk hi' hj' he⟩)
    (by have := vX.readable hSS; rwa [h3, h4] at this) (by have := vX.inj hSS; rwa [h3, h4] at this) (vB.readable hSS)
    (by
      intro i j i' j' hi hj hi' hj' he
      rw [vB.addr hSS, vX.addr hSS] at he
      exact dB i j i' j' (by omega) (by omega) (by omega) (by omega) he)
  refine ⟨m', ?_, fun z hz => e2 z ?_⟩
  · rw [C27_trsm_size_check, if_pos (show _ from ⟨⟨h1, h2⟩, h3, h4⟩)]
    exact e1
  · rw [← h3, ← h4, vX.cells hSS]; exact hz

end aux

section calls
variable [Field V] [LinearOrder V] [IsStrictOrderedRing V] [Arith V] [ExactSqrt V]

/-- what a call has to satisfy -/
def BlkOK (SS : Nat) (s : HState V) (c : BCall V) (r : Outcome V × HWorld V) : Prop :=
  ∃ s', SpecBlk s c r.1 s' ∧ HRep SS r.2 s' ∧ r.1 ≠ .ub ∧ r.1.final = false

theorem bok_assign {SS KN : Nat} (hSS : 0 < SS) {h : HWorld V} {s : HState V} (hr : HRep SS h s) (dv : V → V → V) {a b : VExpr}
    (hal : BlkAllowed SS h (.assign a b)) : BlkOK SS s (.assign a b) (h.bcall SS KN dv (.assign a b)) := by
  obtain ⟨A, B, vA, vB, hov⟩ := hal
  obtain ⟨oA, pA⟩ := vA.operand hr
  obtain ⟨oB, pB⟩ := vB.operand hr
  unfold BlkOK HWorld.bcall
  simp only [vA.eval, vB.eval]
  by_cases hs : A.rows = B.rows ∧ A.cols = B.cols
  · have hs' : oA.rows = oB.rows ∧ oA.cols = oB.cols := by rw [pA.rows, pA.cols, pB.rows, pB.cols]; exact hs
    have dj := sameOrNoOverlap_views hSS hr vB vA hov
    obtain ⟨m', e, e1, e2⟩ := C39_view_assign hSS vA.fits vB.fits pA.ok.live pB.ok.live hs.1 hs.2
      (fun i j i' j' hi hj hi' hj' => dj i j i' j' (by omega) (by omega) hi' hj') pB.elems
    obtain ⟨f1, s', f2, f3⟩ := bexec_view hSS hr vA e e2 e1
    rw [f1]
    exact ⟨s', ⟨oA, oB, pA.look, pB.look, fun _ => ⟨rfl, f2⟩, fun hn => absurd hs' hn⟩, f3, (by intro h; cases h), rfl⟩
  · have hs' : ¬ (oA.rows = oB.rows ∧ oA.cols = oB.cols) := by rw [pA.rows, pA.cols, pB.rows, pB.cols]; exact hs
    obtain ⟨f1, f2⟩ := hexec_throw hr (C39_view_assign_mismatch (SS := SS) (m := h.w.mem) (a := A) (b := B) (by omega))
    rw [f1]
    exact ⟨s, ⟨oA, oB, pA.look, pB.look, fun hn => absurd hn hs', fun _ => ⟨rfl, rfl⟩⟩, f2, (by intro h; cases h), rfl⟩

theorem bok_reset {SS KN : Nat} (hSS : 0 < SS) {h : HWorld V} {s : HState V} (hr : HRep SS h s) (dv : V → V → V) {e : VExpr} {af : Bool} {i j m n : Nat}
    (hal : BlkAllowed SS h (.reset e af i j m n)) : BlkOK SS s (.reset e af i j m n) (h.bcall SS KN dv (.reset e af i j m n)) := by
  obtain ⟨E, vE⟩ := hal
  obtain ⟨oE, pE⟩ := vE.operand hr
  unfold BlkOK HWorld.bcall
  simp only [vE.eval]
  have hE : (E.reset SS : Prog V Unit) = E.resetView SS := by
    have := vE.eval
    unfold VExpr.eval at this
    rw [Option.map_eq_some_iff] at this
    obtain ⟨F, -, rfl⟩ := this
    cases F <;> rfl
  obtain ⟨m', e, e1, e2⟩ := resetView_runs (V := V) hSS vE.fits pE.ok.live
  rw [← hE] at e
  obtain ⟨f1, s', f2, f3⟩ := bexec_view hSS hr vE (f := fun _ _ => 0) e e2 (elems_iff.2 (fun i j hi hj => by rw [e1 i j hi hj, ExactRing.zero_eq]))
  rw [f1]
  exact ⟨s', ⟨rfl, f2⟩, f3, (by intro h; cases h), rfl⟩

theorem bok_set {SS KN : Nat} (hSS : 0 < SS) {h : HWorld V} {s : HState V} (hr : HRep SS h s) (dv : V → V → V) {a : VExpr} {i j : Nat} {v : V}
    (hal : BlkAllowed SS h (.set a i j v)) : BlkOK SS s (.set a i j v) (h.bcall SS KN dv (.set a i j v)) := by
  obtain ⟨A, vA, hi, hj⟩ := hal
  obtain ⟨oA, pA⟩ := vA.operand hr
  unfold BlkOK HWorld.bcall
  simp only [vA.eval]
  have e : (A.set SS i j v : Prog V Unit) h.w.mem = .ok () (updMem h.w.mem (A.addr SS i j) v) :=
    write_eq _ (pA.ok.live.alloc _ (A.addr_storage hSS vA.fits hi hj))
  obtain ⟨f1, s', f2, f3⟩ := bexec_view hSS hr vA e (f := fun i' j' => if i' = i ∧ j' = j then v else oA.val i' j')
    (fun x hx => if_neg (fun hc => hx ⟨i, j, hi, hj, hc⟩)) (elems_iff.2 (fun i' j' hi' hj' => by
      beta_reduce
      by_cases hc : i' = i ∧ j' = j
      · rw [if_pos hc, hc.1, hc.2]; exact if_pos rfl
      · rw [if_neg hc, show updMem h.w.mem (A.addr SS i j) v (A.addr SS i' j') = h.w.mem (A.addr SS i' j') from if_neg (fun he => hc (A.addr_inj hSS vA.fits hi' hj' hi hj he))]
        exact elems_iff.1 pA.elems i' j' hi' hj'))
  rw [f1]
  exact ⟨s', ⟨oA, pA.look, rfl, f2⟩, f3, (by intro h; cases h), rfl⟩

theorem bok_get {SS KN : Nat} {h : HWorld V} {s : HState V} (hr : HRep SS h s) (dv : V → V → V) {a : VExpr} {i j : Nat}
    (hal : BlkAllowed SS h (.get a i j)) : BlkOK SS s (.get a i j) (h.bcall SS KN dv (.get a i j)) := by
  obtain ⟨A, vA, hi, hj⟩ := hal
  obtain ⟨oA, pA⟩ := vA.operand hr
  unfold BlkOK HWorld.bcall
  simp only [vA.eval]
  have e := pA.elems i j hi hj
  have : h.w.exec (A.get SS i j) (fun v => .value v) = (.value (oA.val i j), h.w) := by
    unfold World.exec; rw [e]
  rw [this]
  exact ⟨s, ⟨oA, pA.look, rfl, rfl⟩, hr, (by intro h; cases h), rfl⟩

theorem bok_randomize {SS KN : Nat} (hSS : 0 < SS) {h : HWorld V} {s : HState V} (hr : HRep SS h s) (dv : V → V → V) {a : VExpr} {rnd : Nat → Nat → V}
    (hal : BlkAllowed SS h (.randomize a rnd)) : BlkOK SS s (.randomize a rnd) (h.bcall SS KN dv (.randomize a rnd)) := by
  obtain ⟨A, vA⟩ := hal
  obtain ⟨oA, pA⟩ := vA.operand hr
  unfold BlkOK HWorld.bcall
  simp only [vA.eval]
  obtain ⟨m', e, e1, e2⟩ := C43_randomize hSS vA.fits pA.ok.live rnd
  obtain ⟨f1, s', f2, f3⟩ := bexec_view hSS hr vA e e2 e1
  rw [f1]
  exact ⟨s', ⟨rfl, f2⟩, f3, (by intro h; cases h), rfl⟩

theorem bok_gemm {SS KN : Nat} (hSS : 0 < SS) {h : HWorld V} {s : HState V} (hr : HRep SS h s) (dv : V → V → V) {alpha beta : V} {a b c d : VExpr}
    (hal : BlkAllowed SS h (.gemm alpha a b beta c d)) : BlkOK SS s (.gemm alpha a b beta c d) (h.bcall SS KN dv (.gemm alpha a b beta c d)) := by
  obtain ⟨A, B, C, D, vA, vB, vC, vD, sA, sC, sD, qA, qC, dA, dB, dC⟩ := hal
  obtain ⟨oA, pA⟩ := vA.operand hr
  obtain ⟨oB, pB⟩ := vB.operand hr
  obtain ⟨oC, pC⟩ := vC.operand hr
  obtain ⟨oD, pD⟩ := vD.operand hr
  unfold BlkOK HWorld.bcall
  simp only [vA.eval, vB.eval, vC.eval, vD.eval]
  have hsz : (oB.rows = oA.cols ∧ (oC.rows = oA.rows ∧ oC.cols = oB.cols) ∧ (oD.rows = oA.rows ∧ oD.cols = oB.cols)) ↔
      (B.rows = A.cols ∧ (C.rows = A.rows ∧ C.cols = B.cols) ∧ (D.rows = A.rows ∧ D.cols = B.cols)) := by
    rw [pA.rows, pA.cols, pB.rows, pB.cols, pC.rows, pC.cols, pD.rows, pD.cols]
  by_cases hs : B.rows = A.cols ∧ (C.rows = A.rows ∧ C.cols = B.cols) ∧ (D.rows = A.rows ∧ D.cols = B.cols)
  · obtain ⟨m', e, e1, e2⟩ := C49_gemm_views alpha beta ⟨hSS, pA.ok, pB.ok, pC.ok, pD.ok, sA, sC, sD, qA, qC,
      noOverlap_disjoint hSS hr vA vD dA, noOverlap_disjoint hSS hr vB vD dB, sameOrNoOverlap_views hSS hr vC vD dC⟩
      hs.1 hs.2.1.1 hs.2.1.2 hs.2.2.1 hs.2.2.2 pA.elems pB.elems pC.elems
    obtain ⟨f1, s', f2, f3⟩ := bexec_view hSS hr vD e e2 e1
    rw [f1]
    exact ⟨s', ⟨oA, oB, oC, oD, pA.look, pB.look, pC.look, pD.look, fun _ => ⟨rfl, by rw [pA.cols]; exact f2⟩, fun hn => absurd (hsz.2 hs) hn⟩, f3,
      (by intro h; cases h), rfl⟩
  · obtain ⟨f1, f2⟩ := hexec_throw hr (C49_gemm_views_mismatch (SS := SS) (m := h.w.mem) alpha beta hs)
    rw [f1]
    exact ⟨s, ⟨oA, oB, oC, oD, pA.look, pB.look, pC.look, pD.look, fun hn => absurd (hsz.1 hn) hs, fun _ => ⟨rfl, rfl⟩⟩, f2, (by intro h; cases h), rfl⟩

theorem bok_trmmLeft {SS KN : Nat} (hSS : 0 < SS) {h : HWorld V} {s : HState V} (hr : HRep SS h s) (dv : V → V → V) {alpha : V} {a b c : VExpr}
    (hal : BlkAllowed SS h (.trmmLeft alpha a b c)) : BlkOK SS s (.trmmLeft alpha a b c) (h.bcall SS KN dv (.trmmLeft alpha a b c)) := by
  obtain ⟨A, B, C, vA, vB, vC, sA, sC, qA, dA, dB⟩ := hal
  obtain ⟨oA, pA⟩ := vA.operand hr
  obtain ⟨oB, pB⟩ := vB.operand hr
  obtain ⟨oC, pC⟩ := vC.operand hr
  unfold BlkOK HWorld.bcall
  simp only [vA.eval, vB.eval, vC.eval]
  have hsz : ((oA.rows = oB.rows ∧ oA.cols = oB.rows) ∧ (oC.rows = oB.rows ∧ oC.cols = oB.cols)) ↔
      ((A.rows = B.rows ∧ A.cols = B.rows) ∧ (C.rows = B.rows ∧ C.cols = B.cols)) := by
    rw [pA.rows, pA.cols, pB.rows, pB.cols, pC.rows, pC.cols]
  by_cases hs : (A.rows = B.rows ∧ A.cols = B.rows) ∧ (C.rows = B.rows ∧ C.cols = B.cols)
  · have args : ViewTrmmLArgs SS h.w.mem A B C := ⟨hSS, pA.ok, pB.ok, pC.ok, sA, sC, qA, noOverlap_disjoint hSS hr vA vC dA,
      sameOrNoOverlap_views hSS hr vB vC dB⟩
    obtain ⟨m', e, e2⟩ := trmm_left_views_frame alpha args hs.1.1 hs.1.2 hs.2.1 hs.2.2
    have hback := elems_back hSS pC.ok ((framed_trmmLeftMat ..).ok e).1
    obtain ⟨f1, s', f2, f3⟩ := bexec_view hSS hr vC e e2 hback
    rw [f1]
    refine ⟨s', ⟨oA, oB, oC, pA.look, pB.look, pC.look, fun _ => ⟨rfl, _, f2, fun hz i j hi hj => ?_⟩, fun hn => absurd (hsz.2 hs) hn⟩, f3,
      (by intro h; cases h), rfl⟩
    have hcA : Elems SS h.w.mem A (fun i k => if k < i then 0 else oA.val i k) := elems_iff.2 (fun i j hi hj => by
      rw [elems_iff.1 pA.elems i j hi hj]
      beta_reduce
      by_cases hji : j < i
      · rw [if_pos hji, hz i j hji (by rw [pA.rows]; exact hi)]
      · rw [if_neg hji])
    obtain ⟨m'', e', g1, -⟩ := C51_trmm_left_views alpha args hs.1.1 hs.1.2 hs.2.1 hs.2.2 hcA (fun i k hki => if_pos hki) pB.elems
    have e'' : Res.ok () m'' = Res.ok () m' := e'.symm.trans e
    cases e''
    rw [pC.rows] at hi
    rw [pC.cols] at hj
    refine (elems_uniq hback g1 hi hj).trans ?_
    rw [pB.rows]
    beta_reduce
    congr 1
    refine sum_congr rfl (fun k hk => ?_)
    by_cases hki : k < i
    · rw [if_pos hki, hz i k hki (by rw [pA.rows]; omega)]
    · rw [if_neg hki]
  · have e : trmmLeftMat SS 1 alpha (A.mat SS) .upper false (B.mat SS) (C.mat SS) h.w.mem = .throw .invalidArgument h.w.mem := by
      unfold trmmLeftMat MExpr.mat
      dsimp only
      by_cases h1 : A.rows ≠ B.rows ∨ A.cols ≠ B.rows
      · rw [if_pos h1]; rfl
      · rw [if_neg h1, if_pos (by omega)]; rfl
    obtain ⟨f1, f2⟩ := hexec_throw hr e
    rw [f1]
    exact ⟨s, ⟨oA, oB, oC, pA.look, pB.look, pC.look, fun hn => absurd (hsz.1 hn) hs, fun _ => ⟨rfl, rfl⟩⟩, f2, (by intro h; cases h), rfl⟩

theorem bok_trmmRight {SS KN : Nat} (hSS : 0 < SS) {h : HWorld V} {s : HState V} (hr : HRep SS h s) (dv : V → V → V) {alpha : V} {a b c : VExpr}
    (hal : BlkAllowed SS h (.trmmRight alpha b a c)) : BlkOK SS s (.trmmRight alpha b a c) (h.bcall SS KN dv (.trmmRight alpha b a c)) := by
  obtain ⟨A, B, C, vA, vB, vC, sB, sC, qB, dA, dB⟩ := hal
  obtain ⟨oA, pA⟩ := vA.operand hr
  obtain ⟨oB, pB⟩ := vB.operand hr
  obtain ⟨oC, pC⟩ := vC.operand hr
  unfold BlkOK HWorld.bcall
  simp only [vA.eval, vB.eval, vC.eval]
  have hsz : ((oA.rows = oB.cols ∧ oA.cols = oB.cols) ∧ (oC.rows = oB.rows ∧ oC.cols = oB.cols)) ↔
      ((A.rows = B.cols ∧ A.cols = B.cols) ∧ (C.rows = B.rows ∧ C.cols = B.cols)) := by
    rw [pA.rows, pA.cols, pB.rows, pB.cols, pC.rows, pC.cols]
  by_cases hs : (A.rows = B.cols ∧ A.cols = B.cols) ∧ (C.rows = B.rows ∧ C.cols = B.cols)
  · obtain ⟨m', e, e1, e2⟩ := C51_trmm_right_views alpha ⟨hSS, pA.ok, pB.ok, pC.ok, sB, sC, qB, noOverlap_disjoint hSS hr vA vC dA,
      sameOrNoOverlap_views hSS hr vB vC dB⟩ hs.1.1 hs.1.2 hs.2.1 hs.2.2 pA.elems pB.elems
    obtain ⟨f1, s', f2, f3⟩ := bexec_view hSS hr vC e e2 (f := fun i j => alpha * ∑ k ∈ range oB.cols, oB.val i k * if j ≤ k then oA.val k j else 0)
      (elems_iff.2 (fun i j hi hj => by
        rw [elems_iff.1 e1 i j hi hj, pB.cols]
        beta_reduce
        congr 2
        refine sum_congr rfl (fun k _ => ?_)
        congr 1
        unfold tri
        by_cases hkj : k = j
        · rw [if_pos hkj, if_neg (by simp), if_pos (show j ≤ k by omega)]
        · rw [if_neg hkj]
          dsimp only
          by_cases hlt : j < k
          · rw [if_pos hlt, if_pos (by omega)]
          · rw [if_neg hlt, if_neg (by omega)]))
    rw [f1]
    exact ⟨s', ⟨oA, oB, oC, pA.look, pB.look, pC.look, fun _ => ⟨rfl, f2⟩, fun hn => absurd (hsz.2 hs) hn⟩, f3, (by intro h; cases h), rfl⟩
  · have e : trmmRightMat SS 1 alpha (B.mat SS) (A.mat SS) .lower false (C.mat SS) h.w.mem = .throw .invalidArgument h.w.mem := by
      unfold trmmRightMat MExpr.mat
      dsimp only
      by_cases h1 : A.rows ≠ B.cols ∨ A.cols ≠ B.cols
      · rw [if_pos h1]; rfl
      · rw [if_neg h1, if_pos (by omega)]; rfl
    obtain ⟨f1, f2⟩ := hexec_throw hr e
    rw [f1]
    exact ⟨s, ⟨oA, oB, oC, pA.look, pB.look, pC.look, fun hn => absurd (hsz.1 hn) hs, fun _ => ⟨rfl, rfl⟩⟩, f2, (by intro h; cases h), rfl⟩

theorem bok_syrk {SS KN : Nat} (hSS : 0 < SS) {h : HWorld V} {s : HState V} (hr : HRep SS h s) (dv : V → V → V) {alpha beta : V} {a c d : VExpr}
    (hal : BlkAllowed SS h (.syrk alpha a beta c d)) : BlkOK SS s (.syrk alpha a beta c d) (h.bcall SS KN dv (.syrk alpha a beta c d)) := by
  obtain ⟨A, C, D, vA, vC, vD, sA, sC, sD, lA, lC, lD, qA, qC, dA, dC⟩ := hal
  obtain ⟨oA, pA⟩ := vA.operand hr
  obtain ⟨oC, pC⟩ := vC.operand hr
  obtain ⟨oD, pD⟩ := vD.operand hr
  unfold BlkOK HWorld.bcall
  simp only [vA.eval, vC.eval, vD.eval]
  have hsz : ((oC.rows = oA.rows ∧ oC.cols = oA.rows) ∧ (oD.rows = oA.rows ∧ oD.cols = oA.rows)) ↔
      ((C.rows = A.rows ∧ C.cols = A.rows) ∧ (D.rows = A.rows ∧ D.cols = A.rows)) := by
    rw [pA.rows, pC.rows, pC.cols, pD.rows, pD.cols]
  by_cases hs : (C.rows = A.rows ∧ C.cols = A.rows) ∧ (D.rows = A.rows ∧ D.cols = A.rows)
  · obtain ⟨m', e, e1, e2⟩ := C51_syrk_views alpha beta ⟨hSS, pA.ok, pC.ok, pD.ok, sA, sC, sD, lA, lC, lD, qA, qC, noOverlap_disjoint hSS hr vA vD dA,
      sameOrNoOverlap_views hSS hr vC vD dC⟩ hs.1.1 hs.1.2 hs.2.1 hs.2.2 pA.elems pC.elems
    obtain ⟨f1, s', f2, f3⟩ := bexec_view hSS hr vD e
      (fun x hx => e2 x (fun i j hi hj he => hx ⟨i, j, hi, by omega, he⟩))
      (f := fun i j => if j ≤ i then beta * oC.val i j + alpha * ∑ k ∈ range oA.cols, oA.val i k * oA.val j k else oD.val i j)
      (elems_iff.2 (fun i j hi hj => by
        beta_reduce
        by_cases hji : j ≤ i
        · rw [if_pos hji, e1 i j hi hji, pA.cols]
        · rw [if_neg hji, e2 _ (fun i' j' hi' hj' he => ?_)]
          · exact elems_iff.1 pD.elems i j hi hj
          · have := D.addr_inj hSS vD.fits hi hj hi' (by omega) he
            omega))
    rw [f1]
    exact ⟨s', ⟨oA, oC, oD, pA.look, pC.look, pD.look, fun _ => ⟨rfl, f2⟩, fun hn => absurd (hsz.2 hs) hn⟩, f3, (by intro h; cases h), rfl⟩
  · have e : syrkMat SS 1 alpha (A.matAl SS) beta (C.matAl SS) (D.matAl SS) h.w.mem = .throw .invalidArgument h.w.mem := by
      unfold syrkMat MExpr.matAl
      dsimp only
      by_cases h1 : C.rows ≠ A.rows ∨ C.cols ≠ A.rows
      · rw [if_pos h1]; rfl
      · rw [if_neg h1, if_pos (by omega)]; rfl
    obtain ⟨f1, f2⟩ := hexec_throw hr e
    rw [f1]
    exact ⟨s, ⟨oA, oC, oD, pA.look, pC.look, pD.look, fun hn => absurd (hsz.1 hn) hs, fun _ => ⟨rfl, rfl⟩⟩, f2, (by intro h; cases h), rfl⟩

theorem bok_trsm {SS KN : Nat} (hSS : 0 < SS) {h : HWorld V} {s : HState V} (hr : HRep SS h s) (dv : V → V → V) {uplo : UpLo} {unit : Bool} {a b x : VExpr}
    (hal : BlkAllowed SS h (.trsm uplo unit a b x)) : BlkOK SS s (.trsm uplo unit a b x) (h.bcall SS KN dv (.trsm uplo unit a b x)) := by
  obtain ⟨A, B, X, vA, vB, vX, dA, dB⟩ := hal
  obtain ⟨oA, pA⟩ := vA.operand hr
  obtain ⟨oB, pB⟩ := vB.operand hr
  obtain ⟨oX, pX⟩ := vX.operand hr
  unfold BlkOK HWorld.bcall
  simp only [vA.eval, vB.eval, vX.eval]
  have hsz : ((oA.rows = oB.rows ∧ oA.cols = oB.rows) ∧ oX.rows = oB.rows ∧ oX.cols = oB.cols) ↔
      ((A.rows = B.rows ∧ A.cols = B.rows) ∧ X.rows = B.rows ∧ X.cols = B.cols) := by
    rw [pA.rows, pA.cols, pB.rows, pB.cols, pX.rows, pX.cols]
  have djA := noOverlap_disjoint hSS hr vA vX dA
  have djB := sameOrNoOverlap_views hSS hr vB vX dB
  by_cases hs : (A.rows = B.rows ∧ A.cols = B.rows) ∧ X.rows = B.rows ∧ X.cols = B.cols
  · obtain ⟨m', e, e2⟩ := trsm_views_frame hSS uplo unit pA.ok pB.ok pX.ok djA djB hs.1.1 hs.1.2 hs.2.1 hs.2.2
    have hback := elems_back hSS pX.ok ((framed_trsmMat ..).ok e).1
    obtain ⟨f1, s', f2, f3⟩ := bexec_view hSS hr vX e e2 hback
    rw [f1]
    refine ⟨s', ⟨oA, oB, oX, pA.look, pB.look, pX.look, fun _ => ⟨rfl, _, f2, fun hz i j hi hj => ?_⟩, fun hn => absurd (hsz.2 hs) hn⟩, f3,
      (by intro h; cases h), rfl⟩
    obtain ⟨m'', xv, e', g1, g2, -⟩ := C51_trsm_views hSS uplo unit pA.ok pB.ok pX.ok djA djB hs.1.1 hs.1.2 hs.2.1 hs.2.2 pA.elems pB.elems
      (fun hu i hi => hz hu i (by rw [pA.rows]; exact hi))
    have e'' : Res.ok () m'' = Res.ok () m' := e'.symm.trans e
    cases e''
    rw [pA.rows] at hi ⊢
    rw [pX.cols] at hj
    rw [← g2 i j (by omega) hj, show A.cols = A.rows by omega]
    refine sum_congr rfl (fun k hk => ?_)
    have hk := mem_range.1 hk
    congr 1
    exact elems_uniq hback g1 (by omega) hj
  · have e : trsmMat SS uplo unit (A.mat SS) (B.mat SS) (X.mat SS) h.w.mem = .throw .invalidArgument h.w.mem := by
      rw [C27_trsm_size_check]
      exact if_neg hs
    obtain ⟨f1, f2⟩ := hexec_throw hr e
    rw [f1]
    exact ⟨s, ⟨oA, oB, oX, pA.look, pB.look, pX.look, fun hn => absurd (hsz.1 hn) hs, fun _ => ⟨rfl, rfl⟩⟩, f2, (by intro h; cases h), rfl⟩

theorem bok_potrf {SS KN : Nat} (hSS : 0 < SS) {h : HWorld V} {s : HState V} (hr : HRep SS h s) (dv : V → V → V) {a l : VExpr}
    (hal : BlkAllowed SS h (.potrf a l)) : BlkOK SS s (.potrf a l) (h.bcall SS KN dv (.potrf a l)) := by
  obtain ⟨A, L, vA, vL, sA, sL, lA, lL, dA, hc, ha4, ht, hrw⟩ := hal
  obtain ⟨oA, pA⟩ := vA.operand hr
  obtain ⟨oL, pL⟩ := vL.operand hr
  unfold BlkOK HWorld.bcall
  simp only [vA.eval, vL.eval, vA.dense, Bool.false_eq_true, if_false]
  have hsz : (oA.cols ≤ oA.rows ∧ oL.rows = oA.rows ∧ oL.cols = oA.cols) ↔ (A.cols ≤ A.rows ∧ L.rows = A.rows ∧ L.cols = A.cols) := by
    rw [pA.rows, pA.cols, pL.rows, pL.cols]
  by_cases hs : A.cols ≤ A.rows ∧ L.rows = A.rows ∧ L.cols = A.cols
  · obtain ⟨m', l', e, e1, e3, e4⟩ := potrf_views_runs (TR := 1) ⟨hSS, by omega, pA.ok, pL.ok, sA, sL, lA, lL, sameOrNoOverlap_views hSS hr vA vL dA, hc, ha4,
      by omega, by rw [Nat.one_mul]; exact hrw⟩ hs.1 hs.2.1 hs.2.2 pA.elems
    have hback := elems_back hSS pL.ok ((framed_potrfDenseMat ..).ok e).1
    obtain ⟨f1, s', f2, f3⟩ := bexec_view hSS hr vL e
      (fun x hx => e4 x (fun i j hji hi hj he => hx ⟨i, j, hi, hj, he⟩)) hback
    rw [f1]
    refine ⟨s', ⟨oA, oL, pA.look, pL.look, fun _ => ⟨rfl, _, f2, fun hpd => ?_, fun i j hi hj hij => ?_⟩, fun hn => absurd (hsz.2 hs) hn⟩, f3,
      (by intro h; cases h), rfl⟩
    · rw [pA.cols] at hpd
      have g2 := e3 hpd
      have hg : ∀ i j, j ≤ i → i < A.rows → j < A.cols → (m' (L.addr SS i j)).getD Arith.zero = l' i j := fun i j hji hi hj => by
        rw [e1 i j hji (by omega) (by omega)]; rfl
      rw [pA.rows, pA.cols]
      refine ⟨fun k hk => ?_, fun i j hji hi hj => ?_⟩
      · beta_reduce
        rw [hg k k (Nat.le_refl _) (by omega) hk]; exact g2.1 k hk
      · rw [← g2.2 i j hji hi hj]
        refine sum_congr rfl (fun q hq => ?_)
        have hq := mem_range.1 hq
        beta_reduce
        rw [hg i q (by omega) hi (by omega), hg j q (by omega) (by omega) (by omega)]
    · rw [pL.rows] at hi
      rw [pL.cols] at hj
      beta_reduce
      rw [e4 _ (fun i' j' hji hi' hj' he => ?_), elems_iff.1 pL.elems i j hi hj]
      · rfl
      · have := L.addr_inj hSS vL.fits hi hj hi' hj' he
        omega
  · have e : potrfDenseMat SS 1 (A.matAl SS) (L.matAl SS) h.w.mem = .throw .invalidArgument h.w.mem := by
      unfold potrfDenseMat MExpr.matAl
      dsimp only
      by_cases h1 : A.rows < A.cols
      · rw [if_pos h1]; rfl
      · rw [if_neg h1]
        by_cases h2 : L.rows ≠ A.rows
        · rw [if_pos h2]; rfl
        · rw [if_neg h2, if_pos (by omega)]; rfl
    obtain ⟨f1, f2⟩ := hexec_throw hr e
    rw [f1]
    exact ⟨s, ⟨oA, oL, pA.look, pL.look, fun hn => absurd (hsz.1 hn) hs, fun _ => ⟨rfl, rfl⟩⟩, f2, (by intro h; cases h), rfl⟩

/-- all LU factorizations with pivoting -/
theorem bok_lu {SS : Nat} (hSS : 0 < SS) {h : HWorld V} {s : HState V} (hr : HRep SS h s) {a : VExpr} {P : Nat} {A : MExpr} (vA : ViewArg SS h a A)
    {oA : AView V} (pA : Operand SS h s a A oA) {p : Prog V (Nat → Nat)} (hp : Framed p) (junk : Nat → Nat)
    (hout : LuOutcome SS A.rows A.cols (A.mptr SS) oA.val (h.piv P) (p h.w.mem) h.w.mem) :
    ∃ s', SpecLuView s a P (h.execPiv p P junk).1 s' ∧ HRep SS (h.execPiv p P junk).2 s' ∧ (h.execPiv p P junk).1 ≠ .ub ∧
      (h.execPiv p P junk).1.final = false := by
  have hel : ∀ {m' : Mem V}, (∀ y, ¬ Cells SS (A.mptr SS) A.rows A.cols y → m' y = h.w.mem y) → ∀ x, ¬ IsViewElem SS A x → m' x = h.w.mem x :=
    fun g y hy => g y (fun hc => hy ((pA.ok.cells hSS y).1 hc))
  by_cases hc : ColsIndep A.rows (min A.rows A.cols) oA.val
  · obtain ⟨q, m', e⟩ := hout.full hc
    obtain ⟨b, g1, g2, g3, g4, g5, g6, g7⟩ := hout.ret q m' e
    obtain ⟨o, g, ho, hx, hox, h1, h2, h3⟩ := putView_rep hSS hr vA (hel g7) ((pA.ok.holds hSS).1 g1)
    obtain ⟨f1, f2⟩ := execPiv_ok hSS hr (P := P) hx hox e h1 h2 junk
    rw [f1]
    refine ⟨_, ⟨oA, pA.look, fun _ => ⟨rfl, b, q, _, h3, rfl, ?_, ?_, ?_, ?_, ?_⟩, fun hn => absurd (by rw [pA.rows, pA.cols]; exact hc) hn⟩, f2,
      (by intro h; cases h), rfl⟩
    · rw [pA.rows, pA.cols]; exact g2
    · rw [pA.rows, pA.cols]; exact g3
    · rw [pA.rows, pA.cols, ← hr.2]; exact g4
    · rw [pA.rows, pA.cols]; exact g5
    · rw [pA.rows, pA.cols]; exact g6
  · obtain ⟨m', e, g⟩ := hout.sing hc
    have hdom := (hp.thrown e).1
    obtain ⟨o, g', ho, hx, hox, h1, h2, h3⟩ := putView_rep hSS hr vA (hel g) (elems_back hSS pA.ok hdom)
    obtain ⟨f1, f2⟩ := execPiv_throw hSS hr (P := P) hx hox e h1 h2 junk
    rw [f1]
    exact ⟨_, ⟨oA, pA.look, fun hn => absurd (by rw [← pA.rows, ← pA.cols]; exact hn) hc, fun _ => ⟨rfl, _, junk, _, h3, rfl⟩⟩, f2,
      (by intro h; cases h), rfl⟩

theorem bok_getf2 {SS KN : Nat} (hSS : 0 < SS) {h : HWorld V} {s : HState V} (hr : HRep SS h s) {dv : V → V → V} (hdv : ∀ x y, y ≠ 0 → dv x y = x / y)
    {a : VExpr} {P : Nat} {junk : Nat → Nat} (hal : BlkAllowed SS h (.getf2 a P junk)) :
    BlkOK SS s (.getf2 a P junk) (h.bcall SS KN dv (.getf2 a P junk)) := by
  obtain ⟨A, vA⟩ := hal
  obtain ⟨oA, pA⟩ := vA.operand hr
  unfold BlkOK HWorld.bcall
  simp only [vA.eval]
  cases hso : A.so with
  | columnMajor => exact bok_lu hSS hr vA pA (framed_getf2Ptr ..) junk (getf2_outcome (pA.ok.luPre hSS hso) ((pA.ok.holds hSS).2 pA.elems) _)
  | rowMajor =>
    exact bok_lu hSS hr vA pA (framed_getf2Row ..) junk (getf2Row_outcome (A := A.mat SS) hSS hdv (by
      show (A.mptr SS).panel = false
      rw [A.mptr_dense hSS]; exact vA.dense) (pA.ok.inj hSS) ((pA.ok.holds hSS).2 pA.elems) _)

theorem bok_getrf {SS KN : Nat} (hSS : 0 < SS) {h : HWorld V} {s : HState V} (hr : HRep SS h s) {dv : V → V → V} (hdv : ∀ x y, y ≠ 0 → dv x y = x / y)
    {a : VExpr} {P : Nat} {junk : Nat → Nat} (hal : BlkAllowed SS h (.getrf a P junk)) :
    BlkOK SS s (.getrf a P junk) (h.bcall SS KN dv (.getrf a P junk)) := by
  obtain ⟨A, vA, hpad⟩ := hal
  obtain ⟨oA, pA⟩ := vA.operand hr
  unfold BlkOK HWorld.bcall
  simp only [vA.eval]
  cases hso : A.so with
  | columnMajor =>
    obtain ⟨s', h1, h2⟩ := bok_lu hSS hr (P := P) vA pA (framed_getrfPtr ..) junk
      (getrf_outcome (pA.ok.getrfPre hSS hso (hpad hso)) ((pA.ok.holds hSS).2 pA.elems) _)
    exact ⟨s', ⟨oA, pA.look, fun _ => h1, fun hn => by rw [pA.so, hso] at hn; cases hn⟩, h2⟩
  | rowMajor =>
    obtain ⟨q, m', b, e, g1, g2, g3, g4, g5⟩ := C23_getrf_row_major_no_pivoting hdv (A := A.mat SS) (pA.ok.inj hSS) ((pA.ok.holds hSS).2 pA.elems) (h.piv P)
    obtain ⟨o, g, ho, hx, hox, h1, h2, h3⟩ := putView_rep hSS hr vA (f := b) (fun y hy => g4 y (fun hc => hy ((pA.ok.cells hSS y).1 hc)))
      ((pA.ok.holds hSS).1 g3)
    obtain ⟨f1, f2⟩ := execPiv_ok hSS hr (P := P) hx hox e h1 h2 junk
    dsimp only
    rw [f1]
    have hq : q = fun k => if k < min oA.rows oA.cols then k else s.piv P k := by
      funext k
      by_cases hk : k < min oA.rows oA.cols
      · rw [if_pos hk]; rw [pA.rows, pA.cols] at hk; exact g1 k hk
      · rw [if_neg hk, ← hr.2]; rw [pA.rows, pA.cols] at hk; exact g2 k (Nat.le_of_not_lt hk)
    rw [hq] at f2
    refine ⟨_, ⟨oA, pA.look, fun hn => ?_, fun _ => ⟨rfl, b, _, h3, rfl, ?_⟩⟩, f2, (by intro h; cases h), rfl⟩
    · rw [pA.so, hso] at hn; cases hn
    · rw [pA.rows, pA.cols]; exact g5

theorem bok_laswp {SS KN : Nat} (hSS : 0 < SS) {h : HWorld V} {s : HState V} (hr : HRep SS h s) (dv : V → V → V) {a : VExpr} {k0 k1 P : Nat}
    (hal : BlkAllowed SS h (.laswp a k0 k1 P)) : BlkOK SS s (.laswp a k0 k1 P) (h.bcall SS KN dv (.laswp a k0 k1 P)) := by
  obtain ⟨A, vA, h1, h2, h3⟩ := hal
  obtain ⟨oA, pA⟩ := vA.operand hr
  unfold BlkOK HWorld.bcall
  simp only [vA.eval]
  obtain ⟨m', e, e1, e2⟩ := C24_laswp hSS (A := A.mptr SS) (by rw [A.mptr_dense hSS]; exact vA.dense) ((pA.ok.holds hSS).2 pA.elems) (pA.ok.inj hSS) h1 h2 h3
  obtain ⟨f1, s', f2, f3⟩ := bexec_view hSS hr vA e (fun y hy => e2 y (fun hc => hy ((pA.ok.cells hSS y).1 hc))) ((pA.ok.holds hSS).1 e1)
  rw [f1]
  exact ⟨s', ⟨oA, pA.look, rfl, by rw [← hr.2]; exact f2⟩, f3, (by intro h; cases h), rfl⟩

theorem bok_call {SS KN : Nat} (hSS : 0 < SS) {h : HWorld V} {s : HState V} (hr : HRep SS h s) {dv : V → V → V} (hdv : ∀ x y, y ≠ 0 → dv x y = x / y)
    (c : BCall V) (hal : BlkAllowed SS h c) : BlkOK SS s c (h.bcall SS KN dv c) := by
  cases c with
  | assign a b => exact bok_assign hSS hr dv hal
  | reset e af i j m n => exact bok_reset hSS hr dv hal
  | set a i j v => exact bok_set hSS hr dv hal
  | get a i j => exact bok_get hr dv hal
  | randomize a rnd => exact bok_randomize hSS hr dv hal
  | gemm alpha a b beta c d => exact bok_gemm hSS hr dv hal
  | trmmLeft alpha a b c => exact bok_trmmLeft hSS hr dv hal
  | trmmRight alpha b a c => exact bok_trmmRight hSS hr dv hal
  | syrk alpha a beta c d => exact bok_syrk hSS hr dv hal
  | trsm uplo unit a b x => exact bok_trsm hSS hr dv hal
  | potrf a l => exact bok_potrf hSS hr dv hal
  | getf2 a P junk => exact bok_getf2 hSS hr hdv hal
  | getrf a P junk => exact bok_getrf hSS hr hdv hal
  | laswp a k0 k1 P => exact bok_laswp hSS hr dv hal

theorem bstep_represents {SS KN : Nat} (hSS : 0 < SS) {h : HWorld V} {s : HState V} (hr : HRep SS h s) {dv : V → V → V}
    (hdv : ∀ x y, y ≠ 0 → dv x y = x / y) (st : BStep V) (hal : BAllowed SS KN h st) :
    ∃ s', SpecB KN s st (h.bstep SS KN dv st).1 s' ∧ HRep SS (h.bstep SS KN dv st).2 s' ∧ (h.bstep SS KN dv st).1 ≠ .ub := by
  cases st with
  | whole st => exact hstep_represents hSS hr hdv st hal
  | blk c =>
    obtain ⟨s', e1, e2, e3, -⟩ := bok_call (KN := KN) hSS hr hdv c hal
    exact ⟨s', e1, e2, e3⟩

theorem brun_represents {SS KN : Nat} (hSS : 0 < SS) {dv : V → V → V} (hdv : ∀ x y, y ≠ 0 → dv x y = x / y) (l : List (BStep V)) :
    ∀ {h : HWorld V} {s : HState V}, HRep SS h s → BAdmissible SS KN dv h l →
    ∃ s', SpecProg KN s l (h.brun SS KN dv l).1 s' ∧ HRep SS (h.brun SS KN dv l).2 s' ∧ Outcome.ub ∉ (h.brun SS KN dv l).1 := by
  induction l with
  | nil => intro h s hr _; exact ⟨s, .nil s, hr, fun hm => by cases hm⟩
  | cons st l ih =>
    intro h s hr hal
    obtain ⟨a1, a2⟩ := hal
    obtain ⟨s1, e1, e2, e3⟩ := bstep_represents hSS hr hdv st a1
    unfold HWorld.brun
    dsimp only
    cases hf : (h.bstep SS KN dv st).1.final
    · obtain ⟨s2, f1, f2, f3⟩ := ih e2 (a2 hf)
      simp only [Bool.false_eq_true, if_false]
      refine ⟨s2, .cons e1 hf f1, f2, fun hm => ?_⟩
      rcases List.mem_cons.1 hm with e | e
      · exact e3 e.symm
      · exact f3 e
    · simp only [if_true]
      exact ⟨s1, .stop e1 hf, e2, fun hm => e3 (List.mem_singleton.1 hm).symm⟩

/-! ### Theorems -/

/-- **C72**. Every client program made of the steps of C69 and of calls of assign, reset, element accesses, randomize, gemm, trmm, syrk, trsm, potrf, getf2,
getrf and laswp whose operands are objects, submatrices, transposes, and submatrices and transposes of these - several of them may refer to the same
object - behaves like the same program on mathematical matrices and their blocks: if every step respects the preconditions when it is made, no step
has undefined behaviour, and the outcomes of all steps and the final values of all objects and pivot arrays are among those the specification
`SpecProg` allows. Exact arithmetic; any number of objects and steps. -/
theorem C72_block_programs {SS KN : Nat} (hSS : 0 < SS) {dv : V → V → V} (hdv : ∀ x y, y ≠ 0 → dv x y = x / y) (piv : Nat → Nat → Nat) (l : List (BStep V))
    (h : BAdmissible SS KN dv (HWorld.start piv) l) :
    ∃ s' : HState V, SpecProg KN ⟨fun _ => none, piv⟩ l ((HWorld.start piv : HWorld V).brun SS KN dv l).1 s' ∧
      Represents SS ((HWorld.start piv : HWorld V).brun SS KN dv l).2.w s'.objs ∧
      ((HWorld.start piv : HWorld V).brun SS KN dv l).2.piv = s'.piv ∧
      Outcome.ub ∉ ((HWorld.start piv : HWorld V).brun SS KN dv l).1 := by
  obtain ⟨s', h1, h2, h3⟩ := brun_represents hSS hdv l (h := HWorld.start piv) (s := ⟨fun _ => none, piv⟩) ⟨empty_represents, rfl⟩ h
  exact ⟨s', h1, h2.1, h2.2, h3⟩

end calls

end Blast
