import Verif.History
import Verif.Props.Lifecycle
import Verif.Props.MakePosDef
import Verif.Props.Frame
import Verif.Props.Solve
/- Concrete cases meeting the hypotheses of these theorems: Verif/Cases/History.lean, and the examples in this file. -/
/-
C69: client programs made of operations on matrix objects and calls of the algorithms behave like the same programs on mathematical matrices.
-/
set_option linter.unusedSectionVars false
namespace Blast
open Prog Finset Reg
variable {V : Type}

/-! ### Specification: what the calls do, in terms of matrices (exact arithmetic) -/

/-- the client's view: values of the matrix objects, contents of the pivot arrays -/
structure HState (V : Type) where
  objs : AState V
  piv : Nat → Nat → Nat

/-- object `x` gets the value `o` -/
def HState.put (s : HState V) (x : Nat) (o : AObj V) : HState V := { s with objs := upd s.objs x (some o) }

/-- pivot array `P` gets the contents `p` -/
def HState.putPiv (s : HState V) (P : Nat) (p : Nat → Nat) : HState V := { s with piv := fun Q => if Q = P then p else s.piv Q }

/-- LU factorization with partial pivoting of the object `a`, as documented: if the leading columns are linearly independent, the object is overwritten by
factors `L`, `U` with `L * U = P * A`, with multipliers at most 1, and the pivot array has the row interchanges; otherwise `std::invalid_argument` is
thrown and the elements of the object (and the pivot array) are unspecified. -/
def SpecLu [Field V] [LinearOrder V] (s : HState V) (a P : Nat) (r : Outcome V) (s' : HState V) : Prop :=
  ∃ A, s.objs a = some A ∧
    (ColsIndep A.rows (min A.rows A.cols) A.val → r = .done ∧ ∃ f p, s' = (s.put a { A with val := f }).putPiv P p ∧
      IsLU A.rows A.cols A.val f p ∧ (∀ k, k < min A.rows A.cols → k ≤ p k ∧ p k < A.rows) ∧ (∀ k, min A.rows A.cols ≤ k → p k = s.piv P k) ∧
      (∀ i k, k < min A.rows A.cols → k < i → i < A.rows → |f i k| ≤ 1) ∧ (∀ k, k < min A.rows A.cols → f k k ≠ 0)) ∧
    (¬ ColsIndep A.rows (min A.rows A.cols) A.val → r = .exn .invalidArgument ∧ ∃ f p, s' = (s.put a { A with val := f }).putPiv P p)

/-- What a call does: `SpecCall KN s c r s'` - in state `s` the call `c` may end with outcome `r` in state `s'`. No memory, no addresses, no
order of evaluation. -/
def SpecCall [Field V] [LinearOrder V] (KN : Nat) (s : HState V) (c : Call V) (r : Outcome V) (s' : HState V) : Prop :=
  match c with
  | .randomize x rnd => ∃ X, s.objs x = some X ∧ r = .done ∧ s' = s.put x { X with val := rnd }
  | .makePositiveDefinite x _ rnd _ => ∃ X, s.objs x = some X ∧
      (X.rows = X.cols → r = .done ∧
        s' = s.put x { X with val := fun i j => (∑ k ∈ range X.cols, rnd i k * rnd j k) + if i = j then (X.cols : V) else 0, pad := none }) ∧
      (X.rows ≠ X.cols → r = .exn .invalidArgument ∧ s' = s)
  | .trmmLeft alpha a b c => ∃ A B C, s.objs a = some A ∧ s.objs b = some B ∧ s.objs c = some C ∧
      ((A.rows = B.rows ∧ A.cols = B.rows) ∧ (C.rows = B.rows ∧ C.cols = B.cols) → r = .done ∧ ∃ f, s' = s.put c { C with val := f } ∧
        ((∀ i k, k < i → i < A.rows → A.val i k = 0) →
          ∀ i j, i < C.rows → j < C.cols → f i j = alpha * ∑ k ∈ range B.rows, A.val i k * B.val k j)) ∧
      (¬ ((A.rows = B.rows ∧ A.cols = B.rows) ∧ (C.rows = B.rows ∧ C.cols = B.cols)) → r = .exn .invalidArgument ∧ s' = s)
  | .trmmRight alpha b a c => ∃ A B C, s.objs a = some A ∧ s.objs b = some B ∧ s.objs c = some C ∧
      ((A.rows = B.cols ∧ A.cols = B.cols) ∧ (C.rows = B.rows ∧ C.cols = B.cols) → r = .done ∧
        s' = s.put c { C with val := fun i j => alpha * ∑ k ∈ range B.cols, B.val i k * if j ≤ k then A.val k j else 0 }) ∧
      (¬ ((A.rows = B.cols ∧ A.cols = B.cols) ∧ (C.rows = B.rows ∧ C.cols = B.cols)) → r = .exn .invalidArgument ∧ s' = s)
  | .syrk alpha a beta c d => ∃ A C D, s.objs a = some A ∧ s.objs c = some C ∧ s.objs d = some D ∧
      ((C.rows = A.rows ∧ C.cols = A.rows) ∧ (D.rows = A.rows ∧ D.cols = A.rows) → r = .done ∧
        s' = s.put d { D with val := fun i j =>
          if j ≤ i then beta * C.val i j + alpha * ∑ k ∈ range A.cols, A.val i k * A.val j k else D.val i j }) ∧
      (¬ ((C.rows = A.rows ∧ C.cols = A.rows) ∧ (D.rows = A.rows ∧ D.cols = A.rows)) → r = .exn .invalidArgument ∧ s' = s)
  | .trsm uplo unit a b x => ∃ A B X, s.objs a = some A ∧ s.objs b = some B ∧ s.objs x = some X ∧
      ((A.rows = B.rows ∧ A.cols = B.rows) ∧ X.rows = B.rows ∧ X.cols = B.cols → r = .done ∧ ∃ f, s' = s.put x { X with val := f } ∧
        ((unit = false → ∀ i, i < A.rows → A.val i i ≠ 0) →
          ∀ i j, i < A.rows → j < X.cols → ∑ k ∈ range A.rows, tri uplo unit A.val i k * f k j = B.val i j)) ∧
      (¬ ((A.rows = B.rows ∧ A.cols = B.rows) ∧ X.rows = B.rows ∧ X.cols = B.cols) → r = .exn .invalidArgument ∧ s' = s)
  | .potrf a l => ∃ A L, s.objs a = some A ∧ s.objs l = some L ∧
      (A.cols ≤ A.rows ∧ L.rows = A.rows ∧ L.cols = A.cols → r = .done ∧ ∃ f, s' = s.put l { L with val := f, pad := none } ∧
        (LowerPosDef A.cols A.val → IsCholesky A.rows A.cols f A.val) ∧
        -- the strictly upper triangle of L is kept (panel matrices: above the diagonal tiles)
        (∀ i j, i < L.rows → j < L.cols → (if A.kind = .dynPanel ∨ A.kind = .statPanel then i < j / KN * KN else i < j) → f i j = L.val i j)) ∧
      (¬ (A.cols ≤ A.rows ∧ L.rows = A.rows ∧ L.cols = A.cols) → r = .exn .invalidArgument ∧ s' = s)
  | .getf2 a P _ => SpecLu s a P r s'
  | .getrf a P _ => ∃ A, s.objs a = some A ∧
      (A.so = .columnMajor → SpecLu s a P r s') ∧
      -- row-major: no pivoting
      (A.so = .rowMajor → r = .done ∧ ∃ f, s' = (s.put a { A with val := f }).putPiv P (fun k => if k < min A.rows A.cols then k else s.piv P k) ∧
        ((∀ k, k < min A.rows A.cols → ColsIndep (k + 1) (k + 1) A.val) → ∀ i j, i < A.rows → j < A.cols →
          ∑ k ∈ range (min A.rows A.cols), tri .lower true f i k * tri .upper false f k j = A.val i j))
  | .laswp x k0 k1 P => ∃ X, s.objs x = some X ∧ r = .done ∧ s' = s.put x { X with val := rowSwaps (s.piv P) k0 (k1 - k0) X.val }

/-- one step of a client program -/
def SpecOne [Field V] [LinearOrder V] [Arith V] (KN : Nat) (s : HState V) (st : HStep V) (r : Outcome V) (s' : HState V) : Prop :=
  match st with
  | .op o => r = (specStep s.objs o).1 ∧ s' = { s with objs := (specStep s.objs o).2 }
  | .call c => SpecCall KN s c r s'

/-- `SpecHist KN s l rs s'`: the program `l`, started in `s`, may show the outcomes `rs` and end in `s'` -/
inductive SpecHist [Field V] [LinearOrder V] [Arith V] (KN : Nat) : HState V → List (HStep V) → List (Outcome V) → HState V → Prop where
  | nil (s) : SpecHist KN s [] [] s
  | stop {s st l r s'} : SpecOne KN s st r s' → r.final = true → SpecHist KN s (st :: l) [r] s'
  | cons {s st l r s' rs s''} : SpecOne KN s st r s' → r.final = false → SpecHist KN s' l rs s'' → SpecHist KN s (st :: l) (r :: rs) s''

/-! ### What the client has to respect -/

/-- The documented preconditions of the calls (storage orders, no overlap of the result with an input other than the documented in-place uses), and
the restrictions under which the algorithms are correct, see the properties of the single algorithms (C10, C11, C13, C15, C17, C19-C24, C27). -/
def CallAllowed [NatCast V] (SS KN : Nat) (h : HWorld V) : Call V → Prop
  | .randomize x _ => ∃ X, h.w.obj x = some X
  | .makePositiveDefinite x t _ etN => ∃ X, h.w.obj x = some X ∧ X.isPanel = false ∧ etN = (X.cols : V) ∧ t % (SS : Int) = 0 ∧
      ∀ z, (⟨.dynDense, .columnMajor, X.cols, X.cols, t⟩ : Container).Storage SS z → h.w.mem z = none
  | .trmmLeft _ a b c => a ≠ c ∧ ∃ A B C, h.w.obj a = some A ∧ h.w.obj b = some B ∧ h.w.obj c = some C ∧ A.so = .columnMajor ∧ C.so = .columnMajor ∧
      (B.isPanel = true → B.so = .columnMajor → B.rows < 2 * SS)
  | .trmmRight _ b a c => a ≠ c ∧ ∃ A B C, h.w.obj a = some A ∧ h.w.obj b = some B ∧ h.w.obj c = some C ∧ B.so = .columnMajor ∧ C.so = .columnMajor
  | .syrk _ a _ c d => a ≠ d ∧ ∃ A C D, h.w.obj a = some A ∧ h.w.obj c = some C ∧ h.w.obj d = some D ∧
      A.so = .columnMajor ∧ C.so = .columnMajor ∧ D.so = .columnMajor
  | .trsm _ _ a b x => a ≠ x ∧ ∃ A B X, h.w.obj a = some A ∧ h.w.obj b = some B ∧ h.w.obj x = some X
  | .potrf a l => ∃ A L, h.w.obj a = some A ∧ h.w.obj l = some L ∧ A.so = .columnMajor ∧ L.so = .columnMajor ∧ A.isPanel = L.isPanel ∧
      (PotrfSizes A L → PotrfFits SS 1 (if A.isPanel then KN else 4) A L)
  | .getf2 a _ _ => ∃ A, h.w.obj a = some A ∧ A.isPanel = false
  | .getrf a _ _ => ∃ A, h.w.obj a = some A ∧ A.isPanel = false
  | .laswp x k0 k1 P => ∃ X, h.w.obj x = some X ∧ X.isPanel = false ∧ k0 ≤ k1 ∧ k1 ≤ X.rows ∧ ∀ q, k0 ≤ q → q < k1 → h.piv P q < X.rows

def HAllowed [NatCast V] [Arith V] (SS KN : Nat) (h : HWorld V) : HStep V → Prop
  | .op o => Allowed SS h.w o
  | .call c => CallAllowed SS KN h c

/-- every step is allowed at the moment it is made -/
def HAdmissible [NatCast V] [Arith V] (SS KN : Nat) (dv : V → V → V) (h : HWorld V) : List (HStep V) → Prop
  | [] => True
  | st :: l => HAllowed SS KN h st ∧ ((h.step SS KN dv st).1.final = false → HAdmissible SS KN dv (h.step SS KN dv st).2 l)

/-! ### Proof -/

section aux
variable [Arith V]

/-- the world represents the client's view -/
def HRep (SS : Nat) (h : HWorld V) (s : HState V) : Prop := Represents SS h.w s.objs ∧ h.piv = s.piv

theorem ObjRep.dom {SS : Nat} (hSS : 0 < SS) {m m' : Mem V} {c : Container} {o : AObj V} (h : ObjRep SS m c o)
    (hd : ∀ z, c.Storage SS z → (m' z).isSome = (m z).isSome) {f : Nat → Nat → V} (hv : Contains SS m' c f) :
    ObjRep SS m' c { o with val := f, pad := none } :=
  ⟨h.kind, h.so, h.rows, h.cols, ⟨h.live.align, fun z hz => by rw [hd z hz]; exact h.live.alloc z hz⟩, hv,
    fun v hv => (by cases hv), fun _ v hv => (by cases hv)⟩

theorem rep_apart {SS : Nat} {w : World V} {a : AState V} (h : Represents SS w a) {x y : Nat} {c d : Container} (hx : w.obj x = some c) (hy : w.obj y = some d) :
    (x ≠ y → Apart SS c d) ∧ (c = d ∨ Apart SS c d) := by
  refine ⟨fun hne => (h.apart x y c d hx hy hne).1, ?_⟩
  by_cases hxy : x = y
  · subst hxy; rw [hx] at hy; exact Or.inl (Option.some.inj hy)
  · exact Or.inr (h.apart x y c d hx hy hxy).1

/-- a call that changes elements of `x` only -/
theorem hexec_elems {SS : Nat} (hSS : 0 < SS) {h : HWorld V} {s : HState V} (hr : HRep SS h s) {x : Nat} {c : Container} (hx : h.w.obj x = some c)
    {o : AObj V} (ho : ObjRep SS h.w.mem c o) {α : Type} {p : Prog V α} {r : α} {m' : Mem V} (hp : p h.w.mem = .ok r m') {f : Nat → Nat → V}
    (hf : OnlyElemsChange SS h.w.mem m' c) (hv : Contains SS m' c f) :
    (h.exec p).1 = .done ∧ HRep SS (h.exec p).2 (s.put x { o with val := f }) := by
  obtain ⟨e1, e2⟩ := exec_ok hSS hr.1 hx hp (fun _ => .done) (fun z hz => hf z (fun he => hz (elem_storage hSS he))) (ho.elems hf hv)
  exact ⟨e1, e2, hr.2⟩

/-- a call that may also change the padding of `x` -/
theorem hexec_dom {SS : Nat} (hSS : 0 < SS) {h : HWorld V} {s : HState V} (hr : HRep SS h s) {x : Nat} {c : Container} (hx : h.w.obj x = some c)
    {o : AObj V} (ho : ObjRep SS h.w.mem c o) {α : Type} {p : Prog V α} {r : α} {m' : Mem V} (hp : p h.w.mem = .ok r m') {f : Nat → Nat → V}
    (hf : ∀ z, ¬ c.Storage SS z → m' z = h.w.mem z) (hd : ∀ z, c.Storage SS z → (m' z).isSome = (h.w.mem z).isSome) (hv : Contains SS m' c f) :
    (h.exec p).1 = .done ∧ HRep SS (h.exec p).2 (s.put x { o with val := f, pad := none }) := by
  obtain ⟨e1, e2⟩ := exec_ok hSS hr.1 hx hp (fun _ => .done) hf (ho.dom hSS hd hv)
  exact ⟨e1, e2, hr.2⟩

theorem hexec_throw {SS : Nat} {h : HWorld V} {s : HState V} (hr : HRep SS h s) {α : Type} {p : Prog V α} {e : Exn} (hp : p h.w.mem = .throw e h.w.mem) :
    (h.exec p).1 = .exn e ∧ HRep SS (h.exec p).2 s := by
  unfold HWorld.exec
  rw [exec_throw hp]
  exact ⟨rfl, hr⟩

/-- the elements read back -/
theorem contains_back {SS : Nat} (hSS : 0 < SS) {m m' : Mem V} {c : Container} (hl : Live SS m c) (hd : ∀ z, c.Storage SS z → (m' z).isSome = (m z).isSome) :
    Contains SS m' c (fun i j => (m' (c.addr SS i j)).getD Arith.zero) :=
  Live.contains hSS ⟨hl.align, fun z hz => by rw [hd z hz]; exact hl.alloc z hz⟩

theorem contains_uniq {SS : Nat} {m : Mem V} {c : Container} {f : Nat → Nat → V} {v : V} (hf : Contains SS m c f) {i j : Nat}
    (hi : i < c.rows) (hj : j < c.cols) (hg : m (c.addr SS i j) = some v) : f i j = v := by
  have := hf i j hi hj
  rw [hg] at this
  exact (Option.some.inj this).symm

theorem isPanel_iff (c : Container) : c.isPanel = true ↔ c.kind = .dynPanel ∨ c.kind = .statPanel := by
  unfold Container.isPanel
  cases c.kind <;> simp

/-- a program that changes the set of allocated cells only inside `S` -/
def DomOut (S : Int → Prop) {α : Type} (p : Prog V α) : Prop :=
  ∀ m r m', p m = .ok r m' → ∀ z, ¬ S z → (m' z).isSome = (m z).isSome

theorem Framed.domOut {S : Int → Prop} {α : Type} {p : Prog V α} (h : Framed p) : DomOut S p := fun _ _ _ e z _ => (h.ok e).1 z

theorem DomOut.bind {S : Int → Prop} {α β : Type} {p : Prog V α} {q : α → Prog V β} (h1 : DomOut S p) (h2 : ∀ a, DomOut S (q a)) : DomOut S (p >>= q) := by
  intro m r m' e z hz
  have e : bind' p q m = .ok r m' := e
  unfold bind' at e
  cases hp : p m with
  | ok a m1 => rw [hp] at e; rw [h2 a m1 r m' e z hz, h1 m a m1 hp z hz]
  | ub => rw [hp] at e; cases e
  | throw x m1 => rw [hp] at e; cases e
  | terminate => rw [hp] at e; cases e
  | diverge => rw [hp] at e; cases e

theorem framed_MExpr_reset' (SS : Nat) (e : MExpr) : Framed (e.reset SS : Prog V Unit) := by
  unfold MExpr.reset; framed

/-- makePositiveDefinite leaves allocated what was allocated, outside the storage of its temporary -/
theorem makePositiveDefinite_dom (SS : Nat) (t : Int) (rnd : Nat → Nat → V) (etN : V) (e : MExpr) :
    DomOut ((⟨.dynDense, .columnMajor, e.cols, e.cols, t⟩ : Container).Storage SS) (makePositiveDefinite SS t rnd etN e) := by
  unfold makePositiveDefinite
  by_cases h : e.rows ≠ e.cols
  · rw [if_pos h]; intro m r m' e; cases e
  · rw [if_neg h]
    refine DomOut.bind ?_ (fun _ => DomOut.bind (framed_randomizeMat ..).domOut (fun _ => DomOut.bind (framed_MExpr_reset' ..).domOut (fun _ =>
      DomOut.bind (framed_refGemmMat ..).domOut (fun _ => DomOut.bind (Framed.domOut (by framed)) (fun _ => ?_)))))
    · intro m r m' e z hz
      have e : Res.ok () (zeroed SS m _) = Res.ok r m' := e
      cases e
      rw [zeroed_out hz]
    · intro m r m' e z hz
      have e : Res.ok () _ = Res.ok r m' := e
      cases e
      exact congrArg Option.isSome (if_neg hz)

end aux

section calls
variable [Field V] [LinearOrder V] [IsStrictOrderedRing V] [Arith V] [ExactSqrt V]

/-- what a step has to satisfy -/
def CallOK (SS KN : Nat) (s : HState V) (c : Call V) (r : Outcome V × HWorld V) : Prop :=
  ∃ s', SpecCall KN s c r.1 s' ∧ HRep SS r.2 s' ∧ r.1 ≠ .ub ∧ r.1.final = false

theorem ok_randomize {SS KN : Nat} (hSS : 0 < SS) {h : HWorld V} {s : HState V} (hr : HRep SS h s) (dv : V → V → V) {x : Nat} {rnd : Nat → Nat → V}
    (hal : CallAllowed SS KN h (.randomize x rnd)) : CallOK SS KN s (.randomize x rnd) (h.call SS KN dv (.randomize x rnd)) := by
  obtain ⟨X, hx⟩ := hal
  obtain ⟨o, ho, hox⟩ := hr.1.get hx
  obtain ⟨m', e, e1, e2⟩ := C43_randomize (e := .obj X) hSS (show (MExpr.obj X).Fits from trivial) hox.live rnd
  obtain ⟨f1, f2⟩ := hexec_elems hSS hr hx hox e (f := rnd) e2 (fun i j hi hj => elems_iff.1 e1 i j hi hj)
  unfold CallOK HWorld.call
  simp only [hx]
  rw [f1]
  exact ⟨_, ⟨o, ho, rfl, rfl⟩, f2, (by intro h; cases h), rfl⟩

theorem ok_makePositiveDefinite {SS KN : Nat} (hSS : 0 < SS) {h : HWorld V} {s : HState V} (hr : HRep SS h s) (dv : V → V → V) {x : Nat} {t : Int}
    {rnd : Nat → Nat → V} {etN : V} (hal : CallAllowed SS KN h (.makePositiveDefinite x t rnd etN)) :
    CallOK SS KN s (.makePositiveDefinite x t rnd etN) (h.call SS KN dv (.makePositiveDefinite x t rnd etN)) := by
  obtain ⟨X, hx, hd, hN, ht, hfree⟩ := hal
  obtain ⟨o, ho, hox⟩ := hr.1.get hx
  unfold CallOK HWorld.call
  simp only [hx]
  by_cases hsq : X.rows = X.cols
  · obtain ⟨m', e, e1, e2⟩ := C43_makePositiveDefinite_value (e := .obj X) hSS hd (show (MExpr.obj X).Fits from trivial) hox.live hsq ht hfree rnd hN
    obtain ⟨f1, f2⟩ := hexec_dom hSS hr hx hox e (f := fun i j => (∑ k ∈ range o.cols, rnd i k * rnd j k) + if i = j then (o.cols : V) else 0) e2
      (fun z hz => makePositiveDefinite_dom SS t rnd etN (.obj X) _ _ _ e z (fun hz' => by
        have := hox.live.alloc z hz
        rw [hfree z hz'] at this; cases this))
      (fun i j hi hj => by rw [hox.cols]; exact elems_iff.1 e1 i j hi hj)
    rw [f1]
    exact ⟨_, ⟨o, ho, fun _ => ⟨rfl, rfl⟩, fun hn => absurd (by rw [hox.rows, hox.cols]; exact hsq) hn⟩, f2, (by intro h; cases h), rfl⟩
  · obtain ⟨f1, f2⟩ := hexec_throw hr (C43_not_square (e := .obj X) (m := h.w.mem) hsq t rnd etN)
    rw [f1]
    exact ⟨s, ⟨o, ho, fun hn => absurd (by rw [← hox.rows, ← hox.cols]; exact hn) hsq, fun _ => ⟨rfl, rfl⟩⟩, f2, (by intro h; cases h), rfl⟩

theorem ok_trmmLeft {SS KN : Nat} (hSS : 0 < SS) {h : HWorld V} {s : HState V} (hr : HRep SS h s) (dv : V → V → V) {alpha : V} {a b c : Nat}
    (hal : CallAllowed SS KN h (.trmmLeft alpha a b c)) : CallOK SS KN s (.trmmLeft alpha a b c) (h.call SS KN dv (.trmmLeft alpha a b c)) := by
  obtain ⟨hac, A, B, C, hA, hB, hC, sA, sC, hpan⟩ := hal
  obtain ⟨oA, pA, rA⟩ := hr.1.get hA
  obtain ⟨oB, pB, rB⟩ := hr.1.get hB
  obtain ⟨oC, pC, rC⟩ := hr.1.get hC
  have args : TrmmLArgs SS h.w.mem A B C := ⟨hSS, sA, sC, rA.live, rB.live, rC.live, (rep_apart hr.1 hA hC).1 hac, (rep_apart hr.1 hB hC).2, hpan⟩
  unfold CallOK HWorld.call
  simp only [hA, hB, hC]
  by_cases hs : TrmmLSizes A B C
  · have hs' : (oA.rows = oB.rows ∧ oA.cols = oB.rows) ∧ (oC.rows = oB.rows ∧ oC.cols = oB.cols) := by
      rw [rA.rows, rA.cols, rB.rows, rB.cols, rC.rows, rC.cols]; exact hs
    obtain ⟨m', e, e2⟩ := C11_trmm_left_frame alpha args hs
    have hdom := ((framed_trmmLeftMat ..).ok e).1
    have hback := contains_back hSS rC.live (fun z _ => hdom z)
    obtain ⟨f1, f2⟩ := hexec_elems hSS hr hC rC e e2 hback
    rw [f1]
    refine ⟨_, ⟨oA, oB, oC, pA, pB, pC, fun _ => ⟨rfl, _, rfl, fun hz i j hi hj => ?_⟩, fun hn => absurd hs' hn⟩, f2, (by intro h; cases h), rfl⟩
    have hcA : Contains SS h.w.mem A (fun i k => if k < i then 0 else oA.val i k) := fun i j hi hj => by
      rw [rA.val i j hi hj]
      beta_reduce
      by_cases hji : j < i
      · rw [if_pos hji, hz i j hji (by rw [rA.rows]; exact hi)]
      · rw [if_neg hji]
    obtain ⟨m'', e', g1, -⟩ := C11_trmm_left_value alpha args hs hcA (fun i k hki => if_pos hki) rB.val
    have e'' : Res.ok () m'' = Res.ok () m' := e'.symm.trans e
    cases e''
    rw [rC.rows] at hi
    rw [rC.cols] at hj
    refine (contains_uniq hback hi hj (g1 i j hi hj)).trans ?_
    rw [rB.rows]
    beta_reduce
    congr 1
    refine sum_congr rfl (fun k hk => ?_)
    by_cases hki : k < i
    · rw [if_pos hki, hz i k hki (by rw [hs'.1.1, rB.rows]; unfold TrmmLSizes at hs; omega)]
    · rw [if_neg hki]
  · obtain ⟨f1, f2⟩ := hexec_throw hr ((C14_trmm_left_rejects alpha .upper false).1 hs)
    have hs' : ¬ ((oA.rows = oB.rows ∧ oA.cols = oB.rows) ∧ (oC.rows = oB.rows ∧ oC.cols = oB.cols)) := by
      rw [rA.rows, rA.cols, rB.rows, rB.cols, rC.rows, rC.cols]; exact hs
    rw [f1]
    exact ⟨s, ⟨oA, oB, oC, pA, pB, pC, fun hn => absurd hn hs', fun _ => ⟨rfl, rfl⟩⟩, f2, (by intro h; cases h), rfl⟩

theorem ok_trmmRight {SS KN : Nat} (hSS : 0 < SS) {h : HWorld V} {s : HState V} (hr : HRep SS h s) (dv : V → V → V) {alpha : V} {a b c : Nat}
    (hal : CallAllowed SS KN h (.trmmRight alpha b a c)) : CallOK SS KN s (.trmmRight alpha b a c) (h.call SS KN dv (.trmmRight alpha b a c)) := by
  obtain ⟨hac, A, B, C, hA, hB, hC, sB, sC⟩ := hal
  obtain ⟨oA, pA, rA⟩ := hr.1.get hA
  obtain ⟨oB, pB, rB⟩ := hr.1.get hB
  obtain ⟨oC, pC, rC⟩ := hr.1.get hC
  have args : TrmmRArgs SS h.w.mem B A C := ⟨hSS, sB, sC, rA.live, rB.live, rC.live, (rep_apart hr.1 hA hC).1 hac, (rep_apart hr.1 hB hC).2⟩
  unfold CallOK HWorld.call
  simp only [hA, hB, hC]
  by_cases hs : TrmmRSizes B A C
  · have hs' : (oA.rows = oB.cols ∧ oA.cols = oB.cols) ∧ (oC.rows = oB.rows ∧ oC.cols = oB.cols) := by
      rw [rA.rows, rA.cols, rB.rows, rB.cols, rC.rows, rC.cols]; exact hs
    obtain ⟨m', e, e1, e2⟩ := C13_trmm_right_value alpha args hs (a := oA.val)
      (fun k j hjk hk => rA.val k j hk (by unfold TrmmRSizes at hs; omega)) rB.val
    obtain ⟨f1, f2⟩ := hexec_elems hSS hr hC rC e e2 (f := fun i j => alpha * ∑ k ∈ range oB.cols, oB.val i k * if j ≤ k then oA.val k j else 0)
      (fun i j hi hj => by
        rw [e1 i j hi hj, rB.cols]
        beta_reduce
        congr 2
        refine sum_congr rfl (fun k _ => ?_)
        congr 1
        unfold tri
        by_cases hkj : k = j
        · rw [if_pos hkj, if_neg (by simp), if_pos (show j ≤ k by omega)]
        · rw [if_neg hkj]
          dsimp only
          by_cases hlt : j < k
          · rw [if_pos hlt, if_pos (by omega)]
          · rw [if_neg hlt, if_neg (by omega)])
    rw [f1]
    exact ⟨_, ⟨oA, oB, oC, pA, pB, pC, fun _ => ⟨rfl, rfl⟩, fun hn => absurd hs' hn⟩, f2, (by intro h; cases h), rfl⟩
  · obtain ⟨f1, f2⟩ := hexec_throw hr ((C14_trmm_right_rejects alpha .lower false).1 hs)
    have hs' : ¬ ((oA.rows = oB.cols ∧ oA.cols = oB.cols) ∧ (oC.rows = oB.rows ∧ oC.cols = oB.cols)) := by
      rw [rA.rows, rA.cols, rB.rows, rB.cols, rC.rows, rC.cols]; exact hs
    rw [f1]
    exact ⟨s, ⟨oA, oB, oC, pA, pB, pC, fun hn => absurd hn hs', fun _ => ⟨rfl, rfl⟩⟩, f2, (by intro h; cases h), rfl⟩

theorem ok_syrk {SS KN : Nat} (hSS : 0 < SS) {h : HWorld V} {s : HState V} (hr : HRep SS h s) (dv : V → V → V) {alpha beta : V} {a c d : Nat}
    (hal : CallAllowed SS KN h (.syrk alpha a beta c d)) : CallOK SS KN s (.syrk alpha a beta c d) (h.call SS KN dv (.syrk alpha a beta c d)) := by
  obtain ⟨had, A, C, D, hA, hC, hD, sA, sC, sD⟩ := hal
  obtain ⟨oA, pA, rA⟩ := hr.1.get hA
  obtain ⟨oC, pC, rC⟩ := hr.1.get hC
  obtain ⟨oD, pD, rD⟩ := hr.1.get hD
  have args : SyrkArgs SS h.w.mem A C D := ⟨hSS, sA, sC, sD, rA.live, rC.live, rD.live, (rep_apart hr.1 hA hD).1 had, (rep_apart hr.1 hC hD).2⟩
  unfold CallOK HWorld.call
  simp only [hA, hC, hD]
  by_cases hs : SyrkSizes A C D
  · have hs' : (oC.rows = oA.rows ∧ oC.cols = oA.rows) ∧ (oD.rows = oA.rows ∧ oD.cols = oA.rows) := by
      rw [rA.rows, rC.rows, rC.cols, rD.rows, rD.cols]; exact hs
    obtain ⟨m', e, e1, e2⟩ := C10_syrk_value alpha beta args hs (a := oA.val) (c := oC.val) rA.val
      (fun i j hi hj => rC.val i j hi (by unfold SyrkSizes at hs; omega))
    obtain ⟨f1, f2⟩ := hexec_elems hSS hr hD rD e
      (fun z hz => e2 z (fun hc => hz (by obtain ⟨i, j, hi, hj, _, rfl⟩ := hc; exact ⟨i, j, hi, hj, rfl⟩)))
      (f := fun i j => if j ≤ i then beta * oC.val i j + alpha * ∑ k ∈ range oA.cols, oA.val i k * oA.val j k else oD.val i j)
      (fun i j hi hj => by
        beta_reduce
        by_cases hji : j ≤ i
        · rw [if_pos hji, e1 i j hi hji, rA.cols]
        · rw [if_neg hji, e2 _ (fun hc => ?_)]
          · exact rD.val i j hi hj
          · obtain ⟨i', j', hi', hj', hle, he⟩ := hc
            have := D.inj hSS i j i' j' hi hj hi' hj' (by rw [← Container.addr_eq_mptr, ← Container.addr_eq_mptr]; exact he)
            omega)
    rw [f1]
    exact ⟨_, ⟨oA, oC, oD, pA, pC, pD, fun _ => ⟨rfl, rfl⟩, fun hn => absurd hs' hn⟩, f2, (by intro h; cases h), rfl⟩
  · obtain ⟨f1, f2⟩ := hexec_throw hr ((C10_syrk_size_check alpha beta args).1 hs)
    have hs' : ¬ ((oC.rows = oA.rows ∧ oC.cols = oA.rows) ∧ (oD.rows = oA.rows ∧ oD.cols = oA.rows)) := by
      rw [rA.rows, rC.rows, rC.cols, rD.rows, rD.cols]; exact hs
    rw [f1]
    exact ⟨s, ⟨oA, oC, oD, pA, pC, pD, fun hn => absurd hn hs', fun _ => ⟨rfl, rfl⟩⟩, f2, (by intro h; cases h), rfl⟩

theorem ok_trsm {SS KN : Nat} (hSS : 0 < SS) {h : HWorld V} {s : HState V} (hr : HRep SS h s) (dv : V → V → V) {uplo : UpLo} {unit : Bool} {a b x : Nat}
    (hal : CallAllowed SS KN h (.trsm uplo unit a b x)) : CallOK SS KN s (.trsm uplo unit a b x) (h.call SS KN dv (.trsm uplo unit a b x)) := by
  obtain ⟨hax, A, B, X, hA, hB, hX⟩ := hal
  obtain ⟨oA, pA, rA⟩ := hr.1.get hA
  obtain ⟨oB, pB, rB⟩ := hr.1.get hB
  obtain ⟨oX, pX, rX⟩ := hr.1.get hX
  have args : TrsmArgs SS h.w.mem A B X := ⟨hSS, rA.live, rB.live, rX.live, (rep_apart hr.1 hA hX).1 hax, (rep_apart hr.1 hB hX).2⟩
  unfold CallOK HWorld.call
  simp only [hA, hB, hX]
  by_cases hs : (A.rows = B.rows ∧ A.cols = B.rows) ∧ X.rows = B.rows ∧ X.cols = B.cols
  · have hs' : (oA.rows = oB.rows ∧ oA.cols = oB.rows) ∧ oX.rows = oB.rows ∧ oX.cols = oB.cols := by
      rw [rA.rows, rA.cols, rB.rows, rB.cols, rX.rows, rX.cols]; exact hs
    obtain ⟨m', e, e2⟩ := trsmCall_total uplo unit args hs
    have hdom := ((framed_trsmMat ..).ok e).1
    have hback := contains_back hSS rX.live (fun z _ => hdom z)
    obtain ⟨f1, f2⟩ := hexec_elems hSS hr hX rX e e2 hback
    rw [f1]
    refine ⟨_, ⟨oA, oB, oX, pA, pB, pX, fun _ => ⟨rfl, _, rfl, fun hz i j hi hj => ?_⟩, fun hn => absurd hs' hn⟩, f2, (by intro h; cases h), rfl⟩
    obtain ⟨m'', xv, e', g1, g2, -⟩ := C27_trsm_solves (SS := SS) (m := B.rows) (n := B.cols) (A := A.mptr SS) (X := X.mptr SS) (B := B.mptr SS) uplo unit
      (mem := h.w.mem) (a := oA.val) (b := oB.val)
      (fun i k hi hk _ => ⟨by rw [← Container.addr_eq_mptr]; exact rA.val i k (by omega) (by omega), fun hc => by
        obtain ⟨i', j', hi', hj', he⟩ := hc
        exact args.dA.disj hSS i k i' j' (by omega) (by omega) (by omega) (by omega) he⟩)
      (fun hu i hi => hz hu i (by rw [rA.rows]; omega))
      (fun i j hi hj => rX.live.readable hSS i j (by omega) (by omega))
      (fun i j i' j' hi hj hi' hj' he => X.inj hSS i j i' j' (by omega) (by omega) (by omega) (by omega) he)
      (fun i j hi hj => rB.val.holds i j hi hj)
      (by
        intro i j i' j' hi hj hi' hj' he
        rcases args.dB with rfl | hd
        · exact B.inj hSS i j i' j' (by omega) (by omega) (by omega) (by omega) he
        · exact absurd he (hd.disj hSS i j i' j' (by omega) (by omega) (by omega) (by omega)))
    have e0 : trsmCall SS uplo unit A B X h.w.mem = .ok () m'' := by
      unfold trsmCall
      rw [C27_trsm_size_check]
      exact (if_pos hs).trans e'
    have e'' : Res.ok () m'' = Res.ok () m' := e0.symm.trans e
    cases e''
    rw [rA.rows] at hi ⊢
    rw [rX.cols] at hj
    rw [← g2 i j (by omega) (by omega), show A.rows = B.rows from hs.1.1]
    refine sum_congr rfl (fun k hk => ?_)
    have hk := mem_range.1 hk
    congr 1
    exact contains_uniq hback (by omega) hj (by rw [Container.addr_eq_mptr]; exact g1 k j (by omega) (by omega))
  · have e : trsmCall SS uplo unit A B X h.w.mem = .throw .invalidArgument h.w.mem := by
      unfold trsmCall
      rw [C27_trsm_size_check]
      exact if_neg hs
    obtain ⟨f1, f2⟩ := hexec_throw hr e
    have hs' : ¬ ((oA.rows = oB.rows ∧ oA.cols = oB.rows) ∧ oX.rows = oB.rows ∧ oX.cols = oB.cols) := by
      rw [rA.rows, rA.cols, rB.rows, rB.cols, rX.rows, rX.cols]; exact hs
    rw [f1]
    exact ⟨s, ⟨oA, oB, oX, pA, pB, pX, fun hn => absurd hn hs', fun _ => ⟨rfl, rfl⟩⟩, f2, (by intro h; cases h), rfl⟩

/-- both potrf programs -/
theorem ok_potrf_aux {SS KN : Nat} (hSS : 0 < SS) {h : HWorld V} {s : HState V} (hr : HRep SS h s) {a l : Nat} {A L : Container}
    (hA : h.w.obj a = some A) (hL : h.w.obj l = some L) {oA oL : AObj V} (pA : s.objs a = some oA) (rA : ObjRep SS h.w.mem A oA)
    (pL : s.objs l = some oL) (rL : ObjRep SS h.w.mem L oL) {p : Prog V Unit} (hp : Framed p)
    (hthrow : p h.w.mem = .throw .invalidArgument h.w.mem ∨ PotrfSizes A L)
    {keep : Nat → Nat → Prop} (hkeep : ∀ i j, (if oA.kind = .dynPanel ∨ oA.kind = .statPanel then i < j / KN * KN else i < j) → keep i j)
    (hfr : PotrfSizes A L → ∃ m', p h.w.mem = .ok () m' ∧ (∀ z, ¬ L.Storage SS z → m' z = h.w.mem z) ∧
      (∀ i j, keep i j → i < L.rows → j < L.cols → m' (L.addr SS i j) = h.w.mem (L.addr SS i j)))
    (hval : PotrfSizes A L → LowerPosDef A.cols oA.val → ∃ m', p h.w.mem = .ok () m' ∧ ∃ f, ContainsLower SS m' L f ∧ IsCholesky A.rows A.cols f oA.val) :
    CallOK SS KN s (.potrf a l) (h.exec p) := by
  by_cases hs : PotrfSizes A L
  · have hs' : oA.cols ≤ oA.rows ∧ oL.rows = oA.rows ∧ oL.cols = oA.cols := by rw [rA.rows, rA.cols, rL.rows, rL.cols]; exact hs
    obtain ⟨m', e, e1, e2⟩ := hfr hs
    have hdom := (hp.ok e).1
    have hback := contains_back hSS rL.live (fun z _ => hdom z)
    obtain ⟨f1, f2⟩ := hexec_dom hSS hr hL rL e e1 (fun z _ => hdom z) hback
    unfold CallOK
    rw [f1]
    refine ⟨_, ⟨oA, oL, pA, pL, fun _ => ⟨rfl, _, rfl, fun hpd => ?_, fun i j hi hj hk => ?_⟩, fun hn => absurd hs' hn⟩, f2, (by intro h; cases h), rfl⟩
    · rw [rA.cols] at hpd
      obtain ⟨m'', e', g, g1, g2⟩ := hval hs hpd
      have e'' : Res.ok () m'' = Res.ok () m' := e'.symm.trans e
      cases e''
      have hg : ∀ i j, j ≤ i → i < A.rows → j < A.cols → (m' (L.addr SS i j)).getD Arith.zero = g i j := fun i j hji hi hj =>
        contains_uniq hback (by unfold PotrfSizes at hs; omega) (by unfold PotrfSizes at hs; omega)
          (g1 i j hji (by unfold PotrfSizes at hs; omega) (by unfold PotrfSizes at hs; omega))
      rw [rA.rows, rA.cols]
      refine ⟨fun k hk => ?_, fun i j hji hi hj => ?_⟩
      · beta_reduce
        rw [hg k k (Nat.le_refl _) (by unfold PotrfSizes at hs; omega) hk]; exact g2.1 k hk
      · rw [← g2.2 i j hji hi hj]
        refine sum_congr rfl (fun q hq => ?_)
        have hq := mem_range.1 hq
        beta_reduce
        rw [hg i q (by omega) hi (by omega), hg j q (by omega) (by omega) (by omega)]
    · rw [rL.rows] at hi
      rw [rL.cols] at hj
      refine contains_uniq hback hi hj ?_
      rw [e2 i j (hkeep i j hk) hi hj]
      exact rL.val i j hi hj
  · have hs' : ¬ (oA.cols ≤ oA.rows ∧ oL.rows = oA.rows ∧ oL.cols = oA.cols) := by rw [rA.rows, rA.cols, rL.rows, rL.cols]; exact hs
    obtain ⟨f1, f2⟩ := hexec_throw hr (hthrow.resolve_right hs)
    unfold CallOK
    rw [f1]
    exact ⟨s, ⟨oA, oL, pA, pL, fun hn => absurd hn hs', fun _ => ⟨rfl, rfl⟩⟩, f2, (by intro h; cases h), rfl⟩

theorem ok_potrf {SS KN : Nat} (hSS : 0 < SS) {h : HWorld V} {s : HState V} (hr : HRep SS h s) (dv : V → V → V) {a l : Nat}
    (hal : CallAllowed SS KN h (.potrf a l)) : CallOK SS KN s (.potrf a l) (h.call SS KN dv (.potrf a l)) := by
  obtain ⟨A, L, hA, hL, sA, sL, hpan, hfit⟩ := hal
  obtain ⟨oA, pA, rA⟩ := hr.1.get hA
  obtain ⟨oL, pL, rL⟩ := hr.1.get hL
  have args : PotrfArgs SS h.w.mem A L := ⟨hSS, sA, sL, rA.live, rL.live, (rep_apart hr.1 hA hL).2⟩
  have hlow : ContainsLower SS h.w.mem A oA.val := fun i j _ hi hj => rA.val i j hi hj
  have hcall : h.call SS KN dv (.potrf a l) =
      if A.isPanel then h.exec (potrfPanelMat SS KN (A.mat SS) (L.mat SS)) else h.exec (potrfDenseMat SS 1 (A.mat SS) (L.mat SS)) := by
    unfold HWorld.call
    simp only [hA, hL]
  rw [hcall]
  cases hp : A.isPanel
  · rw [hp] at hfit
    rw [if_neg (by simp)]
    simp only [Bool.false_eq_true, if_false] at hfit
    refine ok_potrf_aux hSS hr hA hL pA rA pL rL (framed_potrfDenseMat ..) C15_potrf_dense_size_check (keep := fun i j => i < j) (fun i j hk => ?_)
      (fun hs => ?_) (fun hs hpd => C15_potrf_dense_cholesky args hs (hfit hs) hlow hpd)
    · rw [if_neg (by rw [rA.kind, ← isPanel_iff, hp]; simp)] at hk; exact hk
    · obtain ⟨m', e, e1, e2⟩ := C16_potrf_dense_frame args hs (hfit hs)
      exact ⟨m', e, e1, e2⟩
  · rw [hp] at hfit
    rw [if_pos rfl]
    simp only [if_true] at hfit
    refine ok_potrf_aux hSS hr hA hL pA rA pL rL (framed_potrfPanelMat ..) C15_potrf_panel_size_check (keep := fun i j => i < j / KN * KN) (fun i j hk => ?_)
      (fun hs => ?_) (fun hs hpd => C15_potrf_panel_cholesky args hs (hfit hs) hlow hpd)
    · rw [if_pos (by rw [rA.kind, ← isPanel_iff, hp])] at hk; exact hk
    · obtain ⟨m', e, e1, e2⟩ := C17_potrf_panel_frame args hs (hfit hs)
      exact ⟨m', e, e1, e2⟩

/-- a factorization that returned -/
theorem execPiv_ok {SS : Nat} (hSS : 0 < SS) {h : HWorld V} {s : HState V} (hr : HRep SS h s) {x P : Nat} {c : Container} (hx : h.w.obj x = some c)
    {o : AObj V} (ho : ObjRep SS h.w.mem c o) {p : Prog V (Nat → Nat)} {q : Nat → Nat} {m' : Mem V} (hp : p h.w.mem = .ok q m') {f : Nat → Nat → V}
    (hf : OnlyElemsChange SS h.w.mem m' c) (hv : Contains SS m' c f) (junk : Nat → Nat) :
    (h.execPiv p P junk).1 = .done ∧ HRep SS (h.execPiv p P junk).2 ((s.put x { o with val := f }).putPiv P q) := by
  unfold HWorld.execPiv
  rw [hp]
  refine ⟨rfl, hr.1.update hSS hx (fun z hz => hf z (fun he => hz (elem_storage hSS he))) (ho.elems hf hv), ?_⟩
  show HWorld.setPiv h.piv P q = _
  rw [hr.2]; rfl

/-- a factorization that threw -/
theorem execPiv_throw {SS : Nat} (hSS : 0 < SS) {h : HWorld V} {s : HState V} (hr : HRep SS h s) {x P : Nat} {c : Container} (hx : h.w.obj x = some c)
    {o : AObj V} (ho : ObjRep SS h.w.mem c o) {p : Prog V (Nat → Nat)} {e : Exn} {m' : Mem V} (hp : p h.w.mem = .throw e m') {f : Nat → Nat → V}
    (hf : OnlyElemsChange SS h.w.mem m' c) (hv : Contains SS m' c f) (junk : Nat → Nat) :
    (h.execPiv p P junk).1 = .exn e ∧ HRep SS (h.execPiv p P junk).2 ((s.put x { o with val := f }).putPiv P junk) := by
  unfold HWorld.execPiv
  rw [hp]
  refine ⟨rfl, hr.1.update hSS hx (fun z hz => hf z (fun he => hz (elem_storage hSS he))) (ho.elems hf hv), ?_⟩
  show HWorld.setPiv h.piv P junk = _
  rw [hr.2]; rfl

/-- all LU factorizations with pivoting -/
theorem ok_lu {SS : Nat} (hSS : 0 < SS) {h : HWorld V} {s : HState V} (hr : HRep SS h s) {a P : Nat} {A : Container} (hA : h.w.obj a = some A)
    {oA : AObj V} (pA : s.objs a = some oA) (rA : ObjRep SS h.w.mem A oA) {p : Prog V (Nat → Nat)} (hp : Framed p) (junk : Nat → Nat)
    (hout : LuOutcome SS A.rows A.cols (A.mptr SS) oA.val (h.piv P) (p h.w.mem) h.w.mem) :
    ∃ s', SpecLu s a P (h.execPiv p P junk).1 s' ∧ HRep SS (h.execPiv p P junk).2 s' ∧ (h.execPiv p P junk).1 ≠ .ub ∧
      (h.execPiv p P junk).1.final = false := by
  have hel : ∀ {m' : Mem V}, (∀ y, ¬ Cells SS (A.mptr SS) A.rows A.cols y → m' y = h.w.mem y) → OnlyElemsChange SS h.w.mem m' A :=
    fun g y hy => g y (fun hc => hy ((cells_iff A y).1 hc))
  by_cases hc : ColsIndep A.rows (min A.rows A.cols) oA.val
  · obtain ⟨q, m', e⟩ := hout.full hc
    obtain ⟨b, g1, g2, g3, g4, g5, g6, g7⟩ := hout.ret q m' e
    obtain ⟨f1, f2⟩ := execPiv_ok hSS hr (P := P) hA rA e (f := b) (hel g7) (fun i j hi hj => by rw [Container.addr_eq_mptr]; exact g1 i j hi hj) junk
    rw [f1]
    refine ⟨_, ⟨oA, pA, fun _ => ⟨rfl, b, q, rfl, ?_, ?_, ?_, ?_, ?_⟩, fun hn => absurd (by rw [rA.rows, rA.cols]; exact hc) hn⟩, f2, (by intro h; cases h), rfl⟩
    · rw [rA.rows, rA.cols]; exact g2
    · rw [rA.rows, rA.cols]; exact g3
    · rw [rA.rows, rA.cols, ← hr.2]; exact g4
    · rw [rA.rows, rA.cols]; exact g5
    · rw [rA.rows, rA.cols]; exact g6
  · obtain ⟨m', e, g⟩ := hout.sing hc
    have hdom := (hp.thrown e).1
    obtain ⟨f1, f2⟩ := execPiv_throw hSS hr (P := P) hA rA e (hel g) (contains_back hSS rA.live (fun z _ => hdom z)) junk
    rw [f1]
    exact ⟨_, ⟨oA, pA, fun hn => absurd (by rw [← rA.rows, ← rA.cols]; exact hn) hc, fun _ => ⟨rfl, _, junk, rfl⟩⟩, f2, (by intro h; cases h), rfl⟩

theorem ok_getf2 {SS KN : Nat} (hSS : 0 < SS) {h : HWorld V} {s : HState V} (hr : HRep SS h s) {dv : V → V → V} (hdv : ∀ x y, y ≠ 0 → dv x y = x / y)
    {a P : Nat} {junk : Nat → Nat} (hal : CallAllowed SS KN h (.getf2 a P junk)) : CallOK SS KN s (.getf2 a P junk) (h.call SS KN dv (.getf2 a P junk)) := by
  obtain ⟨A, hA, hd⟩ := hal
  obtain ⟨oA, pA, rA⟩ := hr.1.get hA
  unfold CallOK HWorld.call
  simp only [hA]
  cases hso : A.so with
  | columnMajor => exact ok_lu hSS hr hA pA rA (framed_getf2Ptr ..) junk (getf2_outcome (LuPre.of_live hSS hd hso rA.live).toLuPre rA.val.holds _)
  | rowMajor =>
    exact ok_lu hSS hr hA pA rA (framed_getf2Row ..) junk (getf2Row_outcome (A := A.mat SS) hSS hdv (by
      show (A.mptr SS).panel = false
      rw [Container.mptr_eq]; exact hd) (A.inj hSS) rA.val.holds _)

theorem ok_getrf {SS KN : Nat} (hSS : 0 < SS) {h : HWorld V} {s : HState V} (hr : HRep SS h s) {dv : V → V → V} (hdv : ∀ x y, y ≠ 0 → dv x y = x / y)
    {a P : Nat} {junk : Nat → Nat} (hal : CallAllowed SS KN h (.getrf a P junk)) : CallOK SS KN s (.getrf a P junk) (h.call SS KN dv (.getrf a P junk)) := by
  obtain ⟨A, hA, hd⟩ := hal
  obtain ⟨oA, pA, rA⟩ := hr.1.get hA
  unfold CallOK HWorld.call
  simp only [hA]
  cases hso : A.so with
  | columnMajor =>
    obtain ⟨s', h1, h2⟩ := ok_lu hSS hr (P := P) hA pA rA (framed_getrfPtr ..) junk (getrf_outcome (LuPre.of_live hSS hd hso rA.live) rA.val.holds _)
    exact ⟨s', ⟨oA, pA, fun _ => h1, fun hn => by rw [rA.so, hso] at hn; cases hn⟩, h2⟩
  | rowMajor =>
    obtain ⟨q, m', b, e, g1, g2, g3, g4, g5⟩ := C23_getrf_row_major_no_pivoting hdv (A := A.mat SS) (A.inj hSS) rA.val.holds (h.piv P)
    obtain ⟨f1, f2⟩ := execPiv_ok hSS hr (P := P) hA rA e (f := b) (fun y hy => g4 y (fun hc => hy ((cells_iff A y).1 hc)))
      (fun i j hi hj => by rw [Container.addr_eq_mptr]; exact g3 i j hi hj) junk
    dsimp only
    rw [f1]
    have hq : q = fun k => if k < min oA.rows oA.cols then k else s.piv P k := by
      funext k
      by_cases hk : k < min oA.rows oA.cols
      · rw [if_pos hk]; rw [rA.rows, rA.cols] at hk; exact g1 k hk
      · rw [if_neg hk, ← hr.2]; rw [rA.rows, rA.cols] at hk; exact g2 k (Nat.le_of_not_lt hk)
    rw [hq] at f2
    refine ⟨_, ⟨oA, pA, fun hn => ?_, fun _ => ⟨rfl, b, rfl, ?_⟩⟩, f2, (by intro h; cases h), rfl⟩
    · rw [rA.so, hso] at hn; cases hn
    · rw [rA.rows, rA.cols]; exact g5

theorem ok_laswp {SS KN : Nat} (hSS : 0 < SS) {h : HWorld V} {s : HState V} (hr : HRep SS h s) (dv : V → V → V) {x k0 k1 P : Nat}
    (hal : CallAllowed SS KN h (.laswp x k0 k1 P)) : CallOK SS KN s (.laswp x k0 k1 P) (h.call SS KN dv (.laswp x k0 k1 P)) := by
  obtain ⟨X, hx, hd, h1, h2, h3⟩ := hal
  obtain ⟨o, ho, hox⟩ := hr.1.get hx
  obtain ⟨m', e, e1, e2⟩ := C24_laswp hSS (A := X.mptr SS) (by rw [Container.mptr_eq]; exact hd) hox.val.holds (X.inj hSS) h1 h2 h3
  obtain ⟨f1, f2⟩ := hexec_elems hSS hr hx hox e (fun y hy => e2 y (fun hc => hy ((cells_iff X y).1 hc)))
    (fun i j hi hj => by rw [Container.addr_eq_mptr]; exact e1 i j hi hj)
  unfold CallOK HWorld.call
  simp only [hx]
  rw [f1]
  exact ⟨_, ⟨o, ho, rfl, by rw [hr.2]⟩, f2, (by intro h; cases h), rfl⟩

theorem ok_call {SS KN : Nat} (hSS : 0 < SS) {h : HWorld V} {s : HState V} (hr : HRep SS h s) {dv : V → V → V} (hdv : ∀ x y, y ≠ 0 → dv x y = x / y)
    (c : Call V) (hal : CallAllowed SS KN h c) : CallOK SS KN s c (h.call SS KN dv c) := by
  cases c with
  | randomize x rnd => exact ok_randomize hSS hr dv hal
  | makePositiveDefinite x t rnd etN => exact ok_makePositiveDefinite hSS hr dv hal
  | trmmLeft alpha a b c => exact ok_trmmLeft hSS hr dv hal
  | trmmRight alpha b a c => exact ok_trmmRight hSS hr dv hal
  | syrk alpha a beta c d => exact ok_syrk hSS hr dv hal
  | trsm uplo unit a b x => exact ok_trsm hSS hr dv hal
  | potrf a l => exact ok_potrf hSS hr dv hal
  | getf2 a P junk => exact ok_getf2 hSS hr hdv hal
  | getrf a P junk => exact ok_getrf hSS hr hdv hal
  | laswp x k0 k1 P => exact ok_laswp hSS hr dv hal

theorem hstep_represents {SS KN : Nat} (hSS : 0 < SS) {h : HWorld V} {s : HState V} (hr : HRep SS h s) {dv : V → V → V}
    (hdv : ∀ x y, y ≠ 0 → dv x y = x / y) (st : HStep V) (hal : HAllowed SS KN h st) :
    ∃ s', SpecOne KN s st (h.step SS KN dv st).1 s' ∧ HRep SS (h.step SS KN dv st).2 s' ∧ (h.step SS KN dv st).1 ≠ .ub := by
  cases st with
  | op o =>
    obtain ⟨e1, e2⟩ := step_represents hSS hr.1 o hal
    refine ⟨{ s with objs := (specStep s.objs o).2 }, ⟨e1, rfl⟩, ⟨e2, hr.2⟩, ?_⟩
    show (h.w.step false SS o).1 ≠ _
    rw [e1]; exact allowed_no_ub hr.1 o hal
  | call c =>
    obtain ⟨s', e1, e2, e3, -⟩ := ok_call hSS hr hdv c hal
    exact ⟨s', e1, e2, e3⟩

theorem hrun_represents {SS KN : Nat} (hSS : 0 < SS) {dv : V → V → V} (hdv : ∀ x y, y ≠ 0 → dv x y = x / y) (l : List (HStep V)) :
    ∀ {h : HWorld V} {s : HState V}, HRep SS h s → HAdmissible SS KN dv h l →
    ∃ s', SpecHist KN s l (h.run SS KN dv l).1 s' ∧ HRep SS (h.run SS KN dv l).2 s' ∧ Outcome.ub ∉ (h.run SS KN dv l).1 := by
  induction l with
  | nil => intro h s hr _; exact ⟨s, .nil s, hr, fun hm => by cases hm⟩
  | cons st l ih =>
    intro h s hr hal
    obtain ⟨a1, a2⟩ := hal
    obtain ⟨s1, e1, e2, e3⟩ := hstep_represents hSS hr hdv st a1
    unfold HWorld.run
    dsimp only
    cases hf : (h.step SS KN dv st).1.final
    · obtain ⟨s2, f1, f2, f3⟩ := ih e2 (a2 hf)
      simp only [Bool.false_eq_true, if_false]
      refine ⟨s2, .cons e1 hf f1, f2, fun hm => ?_⟩
      rcases List.mem_cons.1 hm with e | e
      · exact e3 e.symm
      · exact f3 e
    · simp only [if_true]
      exact ⟨s1, .stop e1 hf, e2, fun hm => e3 (List.mem_singleton.1 hm).symm⟩

/-! ### Theorems -/

/-- **C69**. Every client program made of operations on matrix objects (constructions, copies, moves, assignments, element accesses, comparisons, resets,
products, destructions) and calls of randomize, makePositiveDefinite, trmm, syrk, trsm, potrf, getf2, getrf and laswp, each respecting the documented
preconditions when it is made, behaves like the same program on mathematical matrices: no step has undefined behaviour, the outcomes of all steps
and the final values of all objects and pivot arrays are among those the specification `SpecHist` allows, different objects do not overlap, and
memory and heap contain exactly the storage of the living objects. Exact arithmetic; any number of objects and steps. -/
theorem C69_history {SS KN : Nat} (hSS : 0 < SS) {dv : V → V → V} (hdv : ∀ x y, y ≠ 0 → dv x y = x / y) (piv : Nat → Nat → Nat) (l : List (HStep V))
    (h : HAdmissible SS KN dv (HWorld.start piv) l) :
    ∃ s' : HState V, SpecHist KN ⟨fun _ => none, piv⟩ l ((HWorld.start piv : HWorld V).run SS KN dv l).1 s' ∧
      Represents SS ((HWorld.start piv : HWorld V).run SS KN dv l).2.w s'.objs ∧
      ((HWorld.start piv : HWorld V).run SS KN dv l).2.piv = s'.piv ∧
      Outcome.ub ∉ ((HWorld.start piv : HWorld V).run SS KN dv l).1 := by
  obtain ⟨s', h1, h2, h3⟩ := hrun_represents hSS hdv l (h := HWorld.start piv) (s := ⟨fun _ => none, piv⟩) ⟨empty_represents, rfl⟩ h
  exact ⟨s', h1, h2.1, h2.2, h3⟩

/-- **C69** (no leak). If no object is left at the end of the program, all memory has been given back, whatever was called and thrown on the way. -/
theorem C69_no_leak {SS KN : Nat} (hSS : 0 < SS) {dv : V → V → V} (hdv : ∀ x y, y ≠ 0 → dv x y = x / y) (piv : Nat → Nat → Nat) (l : List (HStep V))
    (h : HAdmissible SS KN dv (HWorld.start piv) l) (hend : ∀ x, ((HWorld.start piv : HWorld V).run SS KN dv l).2.w.obj x = none) :
    (∀ z, ((HWorld.start piv : HWorld V).run SS KN dv l).2.w.mem z = none) ∧
    (∀ p, ((HWorld.start piv : HWorld V).run SS KN dv l).2.w.heap p = none) := by
  obtain ⟨s', _, hr, _⟩ := C69_history hSS hdv piv l h
  constructor
  · intro z
    cases hz : ((HWorld.start piv : HWorld V).run SS KN dv l).2.w.mem z with
    | none => rfl
    | some v =>
      obtain ⟨x, c, hx, _⟩ := (hr.mem z).1 (by rw [hz]; rfl)
      rw [hend x] at hx; cases hx
  · intro p
    cases hp : ((HWorld.start piv : HWorld V).run SS KN dv l).2.w.heap p with
    | none => rfl
    | some b =>
      obtain ⟨x, c, hx, _⟩ := (hr.heap p b).1 hp
      rw [hend x] at hx; cases hx

end calls

/-! ### What the specification says about two programs (no reference to the code) -/

section programs
variable [Field V] [LinearOrder V] [IsStrictOrderedRing V] [Arith V]

theorem SpecHist.cons_inv {KN : Nat} {s s'' : HState V} {st : HStep V} {l : List (HStep V)} {rs : List (Outcome V)} (h : SpecHist KN s (st :: l) rs s'') :
    ∃ r s', SpecOne KN s st r s' ∧ ((r.final = true ∧ rs = [r] ∧ s'' = s') ∨ (r.final = false ∧ ∃ rs', rs = r :: rs' ∧ SpecHist KN s' l rs' s'')) := by
  cases h with
  | stop h1 h2 => exact ⟨_, _, h1, Or.inl ⟨h2, rfl, rfl⟩⟩
  | cons h1 h2 h3 => exact ⟨_, _, h1, Or.inr ⟨h2, _, rfl, h3⟩⟩

/-- a step that must return normally -/
theorem SpecHist.step {KN : Nat} {s s'' : HState V} {st : HStep V} {l : List (HStep V)} {rs : List (Outcome V)} (h : SpecHist KN s (st :: l) rs s'')
    {Q : HState V → Prop} (hst : ∀ r s', SpecOne KN s st r s' → r = .done ∧ Q s') : ∃ s' rs', Q s' ∧ rs = .done :: rs' ∧ SpecHist KN s' l rs' s'' := by
  obtain ⟨r, s', h1, h2⟩ := h.cons_inv
  obtain ⟨rfl, hq⟩ := hst r s' h1
  rcases h2 with ⟨hf, _⟩ | ⟨_, rs', e, h3⟩
  · cases hf
  · exact ⟨s', rs', hq, e, h3⟩

theorem HState.put_self {s : HState V} {x : Nat} {o : AObj V} : (s.put x o).objs x = some o := if_pos rfl
theorem HState.put_other {s : HState V} {x y : Nat} {o : AObj V} (h : y ≠ x) : (s.put x o).objs y = s.objs y := if_neg h
theorem HState.putPiv_self {s : HState V} {P : Nat} {p : Nat → Nat} : (s.putPiv P p).piv P = p := if_pos rfl

/-- **C69** (solving a system). In every state in which `a` is a square column-major matrix with linearly independent columns and `b` another matrix with as
many rows, the program `getrf(a, P); laswp(b, 0, n, P); trsm<Lower, Unit>(a, b, b); trsm<Upper, NonUnit>(a, b, b)` returns from all four calls,
and then `b` is the solution X of A X = B for the former values A, B. With `C69_history` this holds at any point of any admissible program. -/
theorem C69_solve_program {KN : Nat} {s s' : HState V} {rs : List (Outcome V)} {a b P : Nat} {junk : Nat → Nat} {A B : AObj V} (hab : a ≠ b)
    (hA : s.objs a = some A) (hB : s.objs b = some B) (hso : A.so = .columnMajor) (hsq : A.cols = A.rows) (hr : B.rows = A.rows)
    (hind : ColsIndep A.rows A.rows A.val)
    (h : SpecHist KN s [.call (.getrf a P junk), .call (.laswp b 0 A.rows P), .call (.trsm .lower true a b b), .call (.trsm .upper false a b b)] rs s') :
    rs = [.done, .done, .done, .done] ∧ ∃ x, s'.objs b = some { B with val := x } ∧
      ∀ i j, i < A.rows → j < B.cols → ∑ k ∈ range A.rows, A.val i k * x k j = B.val i j := by
  have hmin : min A.rows A.cols = A.rows := by rw [hsq, Nat.min_self]
  obtain ⟨s1, rs1, ⟨f, p, e1, g1, g2, g3⟩, rfl, q1⟩ := h.step (Q := fun s1 => ∃ f p, s1 = (s.put a { A with val := f }).putPiv P p ∧
      IsLU A.rows A.cols A.val f p ∧ (∀ k, k < A.rows → p k < A.rows) ∧ (∀ k, k < A.rows → f k k ≠ 0)) (by
    rintro r s' ⟨A', hA', h1, -⟩
    rw [hA] at hA'; cases hA'
    obtain ⟨A'', hA'', h2, -⟩ := h1 hso
    rw [hA] at hA''; cases hA''
    rw [hmin] at h2
    obtain ⟨e1, f, p, e2, g1, g2, -, -, g5⟩ := h2 hind
    exact ⟨e1, f, p, e2, g1, fun k hk => (g2 k hk).2, g5⟩)
  have a1 : s1.objs a = some { A with val := f } := by rw [e1]; exact HState.put_self
  have b1 : s1.objs b = some B := by rw [e1]; exact (HState.put_other (Ne.symm hab)).trans hB
  have p1 : s1.piv P = p := by rw [e1]; exact HState.putPiv_self
  obtain ⟨s2, rs2, e2, rfl, q2⟩ := q1.step (Q := fun s2 => s2 = s1.put b { B with val := rowSwaps p 0 A.rows B.val }) (by
    rintro r s' ⟨B', hB', e, e'⟩
    rw [b1] at hB'; cases hB'
    rw [p1, Nat.sub_zero] at e'
    exact ⟨e, e'⟩)
  have a2 : s2.objs a = some { A with val := f } := by rw [e2]; exact (HState.put_other hab).trans a1
  have b2 : s2.objs b = some { B with val := rowSwaps p 0 A.rows B.val } := by rw [e2]; exact HState.put_self
  obtain ⟨s3, rs3, ⟨y, e3, hy⟩, rfl, q3⟩ := q2.step (Q := fun s3 => ∃ y, s3 = s2.put b { B with val := y } ∧
      ∀ i j, i < A.rows → j < B.cols → ∑ k ∈ range A.rows, tri .lower true f i k * y k j = rowSwaps p 0 A.rows B.val i j) (by
    rintro r s' ⟨A', B', X', hA', hB', hX', h1, -⟩
    rw [a2] at hA'; cases hA'
    rw [b2] at hB'; cases hB'
    rw [b2] at hX'; cases hX'
    obtain ⟨e, y, e', hy⟩ := h1 ⟨⟨hr.symm, hsq.trans hr.symm⟩, rfl, rfl⟩
    exact ⟨e, y, e', hy (fun hn => by cases hn)⟩)
  have a3 : s3.objs a = some { A with val := f } := by rw [e3]; exact (HState.put_other hab).trans a2
  have b3 : s3.objs b = some { B with val := y } := by rw [e3]; exact HState.put_self
  obtain ⟨s4, rs4, ⟨x, e4, hx⟩, rfl, q4⟩ := q3.step (Q := fun s4 => ∃ x, s4 = s3.put b { B with val := x } ∧
      ∀ i j, i < A.rows → j < B.cols → ∑ k ∈ range A.rows, tri .upper false f i k * x k j = y i j) (by
    rintro r s' ⟨A', B', X', hA', hB', hX', h1, -⟩
    rw [a3] at hA'; cases hA'
    rw [b3] at hB'; cases hB'
    rw [b3] at hX'; cases hX'
    obtain ⟨e, y, e', hy⟩ := h1 ⟨⟨hr.symm, hsq.trans hr.symm⟩, rfl, rfl⟩
    exact ⟨e, y, e', hy (fun _ i hi => g3 i hi)⟩)
  cases q4 with
  | nil =>
    refine ⟨rfl, x, by rw [e4]; exact HState.put_self, fun i j hi hj => ?_⟩
    have perm : ∀ i', i' < A.rows → ∑ k ∈ range A.rows, A.val (rowPerm p 0 A.rows i') k * x k j = B.val (rowPerm p 0 A.rows i') j := by
      intro i' hi'
      have h1 := hy i' j hi' hj
      rw [rowSwaps_eq] at h1
      rw [← h1]
      have h2 : ∀ k, k < A.rows → A.val (rowPerm p 0 A.rows i') k = ∑ q ∈ range A.rows, tri .lower true f i' q * tri .upper false f q k := by
        intro k hk
        have := g1 i' k hi' (by omega)
        rw [hmin, rowSwaps_eq] at this
        exact this.symm
      rw [sum_congr rfl (fun k hk => by rw [h2 k (mem_range.1 hk), sum_mul]), sum_comm]
      refine sum_congr rfl (fun q hq => ?_)
      rw [← hx q j (mem_range.1 hq) hj, mul_sum]
      exact sum_congr rfl (fun k _ => by ring)
    obtain ⟨i', h1, h2⟩ := rowPerm_surj (p := p) (k0 := 0) (t := A.rows) (m := A.rows) (fun q _ hq => g2 q (by omega)) (by omega) hi
    have := perm i' h1
    rwa [h2] at this

/-- **C69** (a random positive definite matrix and its Cholesky factor). For a square object `x`, `makePositiveDefinite(x); potrf(x, x)` returns, and the
lower triangle of `x` is then the Cholesky factor of R Rᵀ + n I, whatever the random numbers R. -/
theorem C69_cholesky_program {KN : Nat} {s s' : HState V} {rs : List (Outcome V)} {x : Nat} {t : Int} {rnd : Nat → Nat → V} {etN : V} {X : AObj V}
    (hX : s.objs x = some X) (hsq : X.rows = X.cols)
    (h : SpecHist KN s [.call (.makePositiveDefinite x t rnd etN), .call (.potrf x x)] rs s') :
    rs = [.done, .done] ∧ ∃ l, s'.objs x = some { X with val := l, pad := none } ∧ (∀ k, k < X.cols → 0 < l k k) ∧
      ∀ i j, j ≤ i → i < X.rows → ∑ q ∈ range (j + 1), l i q * l j q = (∑ k ∈ range X.cols, rnd i k * rnd j k) + if i = j then (X.cols : V) else 0 := by
  obtain ⟨s1, rs1, e1, rfl, q1⟩ := h.step (Q := fun s1 => s1 =
      s.put x { X with val := fun i j => (∑ k ∈ range X.cols, rnd i k * rnd j k) + if i = j then (X.cols : V) else 0, pad := none }) (by
    rintro r s' ⟨X', hX', h1, -⟩
    rw [hX] at hX'; cases hX'
    exact h1 hsq)
  have x1 := HState.put_self (s := s) (x := x)
    (o := { X with val := fun i j => (∑ k ∈ range X.cols, rnd i k * rnd j k) + if i = j then (X.cols : V) else 0, pad := none })
  rw [← e1] at x1
  obtain ⟨s2, rs2, ⟨l, e2, hl⟩, rfl, q2⟩ := q1.step (Q := fun s2 => ∃ l, s2 = s1.put x { X with val := l, pad := none } ∧
      IsCholesky X.rows X.cols l (fun i j => (∑ k ∈ range X.cols, rnd i k * rnd j k) + if i = j then (X.cols : V) else 0)) (by
    rintro r s' ⟨A', L', hA', hL', h1, -⟩
    rw [x1] at hA'; cases hA'
    rw [x1] at hL'; cases hL'
    obtain ⟨e, f, e', h2, -⟩ := h1 ⟨Nat.le_of_eq hsq.symm, rfl, rfl⟩
    refine ⟨e, f, e', h2 ?_⟩
    refine C43_result_factorizable (fun i j => ?_) (fun y hy => posDef_of_gram rnd y hy)
    refine congrArg₂ (· + ·) (sum_congr rfl (fun k _ => mul_comm (rnd i k) (rnd j k))) ?_
    by_cases h : i = j
    · rw [if_pos h, if_pos h.symm]
    · rw [if_neg h, if_neg (fun h' => h h'.symm)])
  cases q2 with
  | nil => exact ⟨rfl, l, by rw [e2]; exact HState.put_self, hl.1, fun i j hji hi => hl.2 i j hji hi (by omega)⟩

end programs

/-! ### An admissible program -/

section demo
variable [NatCast V] [Arith V]

omit [NatCast V] in
theorem execPiv_obj {h : HWorld V} (p : Prog V (Nat → Nat)) (P : Nat) (junk : Nat → Nat) : (h.execPiv p P junk).2.w.obj = h.w.obj := by
  unfold HWorld.execPiv
  split <;> rfl

/-- a call in front of a program that is admissible whenever the objects are `f` -/
theorem call_tail {SS KN : Nat} {dv : V → V → V} {f : Nat → Option Container} {l : List (HStep V)}
    (ht : ∀ h : HWorld V, h.w.obj = f → HAdmissible SS KN dv h l) (c : Call V) (hobj : ∀ h : HWorld V, (h.call SS KN dv c).2.w.obj = h.w.obj)
    (hal : ∀ h : HWorld V, h.w.obj = f → CallAllowed SS KN h c) :
    ∀ h : HWorld V, h.w.obj = f → HAdmissible SS KN dv h (.call c :: l) := fun h hf =>
  ⟨hal h hf, fun _ => ht _ ((hobj h).trans hf)⟩

omit [NatCast V] in
theorem call_obj {SS KN : Nat} {dv : V → V → V} (c : Call V) (h : HWorld V) : (h.call SS KN dv c).2.w.obj = h.w.obj := by
  cases c <;> simp only [HWorld.call] <;> (repeat' split) <;> first | rfl | exact exec_obj .. | exact execPiv_obj ..

end demo

def demoX : Container := ⟨.dynDense, .columnMajor, 4, 4, 0⟩
def demoY : Container := ⟨.statDense, .columnMajor, 4, 4, 64⟩

/-- a program: two objects, random values, a positive definite matrix, its Cholesky factor, a triangular solve, a rank-k update, a system
of equations, reading a result, destruction -/
def demoProgram : List (HStep ℝ) :=
  [.op (.create 0 demoX), .op (.create 1 demoY),
   .call (.randomize 1 (fun i j => i + 2 * j)), .call (.potrf 0 0), .call (.trsm .lower false 0 1 1), .call (.syrk 2 1 1 0 0), .call (.getrf 0 7 id),
   .op (.destroy 0), .op (.destroy 1)]

/-- `demoProgram` meets the hypothesis of C69 -/
theorem demoProgram_admissible (piv : Nat → Nat → Nat) (dv : ℝ → ℝ → ℝ) : HAdmissible 4 4 dv (HWorld.start piv) demoProgram := by
  have c0 : demoX.capacity 4 = 16 := by decide
  let f := upd (upd (fun _ => none) 0 (some demoX)) 1 (some demoY)
  have f0 : f 0 = some demoX := rfl
  have f1 : f 1 = some demoY := rfl
  have t0 : ∀ h : HWorld ℝ, h.w.obj = f → HAdmissible 4 4 dv h [.op (.destroy 0), .op (.destroy 1)] := fun h hf =>
    ⟨⟨demoX, by rw [hf, f0]⟩, fun hn => ⟨⟨demoY, by
      have e : (h.step 4 4 dv (.op (.destroy 0))).2.w.obj = _ := destroy_obj (c := demoX) (by rw [hf, f0]) hn
      rw [e, hf]; rfl⟩, fun _ => trivial⟩⟩
  have t1 := call_tail t0 (.getrf 0 7 id) (call_obj _) (fun h hf => ⟨demoX, (by rw [hf, f0]), rfl⟩)
  have t2 := call_tail t1 (.syrk 2 1 1 0 0) (call_obj _) (fun h hf =>
    ⟨by decide, demoY, demoX, demoX, (by rw [hf, f1]), (by rw [hf, f0]), (by rw [hf, f0]), rfl, rfl, rfl⟩)
  have t3 := call_tail t2 (.trsm .lower false 0 1 1) (call_obj _) (fun h hf =>
    ⟨by decide, demoX, demoY, demoY, (by rw [hf, f0]), (by rw [hf, f1]), (by rw [hf, f1])⟩)
  have t4 := call_tail t3 (.potrf 0 0) (call_obj _) (fun h hf =>
    ⟨demoX, demoX, (by rw [hf, f0]), (by rw [hf, f0]), rfl, rfl, rfl, fun _ => potrfFits_square (by decide) (Or.inl (by decide))⟩)
  have t5 := call_tail t4 (.randomize 1 (fun i j => i + 2 * j)) (call_obj _) (fun h hf => ⟨demoY, by rw [hf, f1]⟩)
  refine ⟨⟨rfl, by decide, fun z _ => rfl, fun _ => rfl⟩, fun _ => ⟨⟨rfl, by decide, fun z hz => ?_, fun h => by cases h⟩, fun _ => t5 _ rfl⟩⟩
  have h1 : (64 : Int) ≤ z := hz.1
  exact if_neg (fun hc => by have := hc.2; rw [c0] at this; simp [demoX] at this; omega)

/-- the hypotheses of `C69_solve_program` can be met: in any represented world in which the calls are allowed, the program of four calls has an outcome -/
example {SS KN : Nat} (hSS : 0 < SS) (h : HWorld ℝ) (s : HState ℝ) (hr : HRep SS h s) (l : List (HStep ℝ))
    (hal : HAdmissible SS KN (· / ·) h l) : ∃ rs s', SpecHist KN s l rs s' := by
  obtain ⟨s', h1, _⟩ := hrun_represents hSS (fun _ _ _ => rfl) l hr hal
  exact ⟨_, s', h1⟩

end Blast
