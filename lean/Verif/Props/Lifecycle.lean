import Verif.Lifecycle
import Verif.Props.Storage
/- Concrete cases meeting the hypotheses of these theorems: Verif/Cases/Storage.lean, and the examples in this file. -/
/-
Property C52: histories of construction, copy, assignment, element access, gemm and destruction of matrix objects.
-/
set_option linter.unusedSectionVars false
namespace Blast
open Prog
variable {V : Type} [Arith V]

/-! ### Specification: matrix objects as values -/

/-- What a client knows of a matrix object: its class, shape and elements, and the common value of its padding elements (`none`: nothing is
promised about them). -/
structure AObj (V : Type) where
  kind : Kind
  so : SO
  rows : Nat
  cols : Nat
  val : Nat → Nat → V
  pad : Option V

def AObj.isDyn (o : AObj V) : Bool := match o.kind with | .dynDense => true | .dynPanel => true | _ => false

abbrev AState (V : Type) := Nat → Option (AObj V)

/-- One step of a client program, as documented: no memory, no addresses. -/
def specStep (a : AState V) : Op V → Outcome V × AState V
  | .create x c => (.done, upd a x (some ⟨c.kind, c.so, c.rows, c.cols, fun _ _ => Arith.zero, some Arith.zero⟩))
  | .createFill x c v => (.done, upd a x (some ⟨c.kind, c.so, c.rows, c.cols, fun _ _ => v, some v⟩))
  | .createList x c l =>
    if l.length ≠ c.rows ∨ ∃ r ∈ l, c.cols < r.length then (.exn .invalidArgument, a)
    else (.done, upd a x (some ⟨c.kind, c.so, c.rows, c.cols, fun i j => ((l[i]?.getD [])[j]?).getD Arith.zero, some Arith.zero⟩))
  | .copyCreate x y _ =>
    match a y with
    | some o => if o.isDyn then (.exn .logicError, a) else (.done, upd a x (some o))
    | none => (.ub, a)
  | .moveCreate x y _ =>
    match a y with
    | some o => if o.isDyn then (.terminated, a) else (.done, upd a x (some o))
    | none => (.ub, a)
  | .copyAssign x y =>
    match a y with
    | some o => if o.isDyn then (.exn .logicError, a) else (.done, upd a x (some o))
    | none => (.ub, a)
  | .moveAssign x y =>
    match a y with
    | some o => if o.isDyn then (.terminated, a) else (.done, upd a x (some o))
    | none => (.ub, a)
  | .assign x y =>
    match a x, a y with
    | some o, some p =>
      if o.rows ≠ p.rows ∨ o.cols ≠ p.cols then (.exn .invalidArgument, a)
      else (.done, upd a x (some { o with val := p.val }))
    | _, _ => (.ub, a)
  | .fill x v =>
    match a x with
    | some o => (.done, upd a x (some { o with val := fun _ _ => v }))
    | none => (.ub, a)
  | .set x i j v =>
    match a x with
    | some o => (.done, upd a x (some { o with val := fun i' j' => if i' = i ∧ j' = j then v else o.val i' j' }))
    | none => (.ub, a)
  | .get x i j =>
    match a x with
    | some o => (.value (o.val i j), a)
    | none => (.ub, a)
  | .equal x y =>
    match a x, a y with
    | some o, some p =>
      if o.rows ≠ p.rows ∨ o.cols ≠ p.cols then (.exn .invalidArgument, a)
      else (.flag (decide (∀ i, i < o.rows → ∀ j, j < o.cols → Arith.eq (o.val i j) (p.val i j) = true)), a)
    | _, _ => (.ub, a)
  | .reset x =>
    match a x with
    | some o => (.done, upd a x (some { o with val := fun _ _ => Arith.zero, pad := if o.kind = .dynPanel then o.pad else some Arith.zero }))
    | none => (.ub, a)
  | .gemm alpha xa xb beta xc xd =>
    match a xa, a xb, a xc, a xd with
    | some A, some B, some C, some D =>
      if B.rows = A.cols ∧ (C.rows = A.rows ∧ C.cols = B.cols) ∧ (D.rows = A.rows ∧ D.cols = B.cols) then
        (.done, upd a xd (some { D with
            val := fun i j =>
              Arith.fma beta (C.val i j) (Arith.mul (fmaSum (fun k => A.val i k) (fun k => B.val k j) Arith.zero A.cols) alpha) }))
      else (.exn .invalidArgument, a)
    | _, _, _, _ => (.ub, a)
  | .destroy x => (.done, upd a x none)

def specRun (a : AState V) : List (Op V) → List (Outcome V) × AState V
  | [] => ([], a)
  | op :: ops =>
    let r := specStep a op
    if r.1.final then ([r.1], r.2) else
      let r' := specRun r.2 ops
      (r.1 :: r'.1, r'.2)

/-! ### What the client and its environment have to respect -/

/-- the environment's choice of storage for a new object: aligned and unused -/
structure Fresh (SS : Nat) (w : World V) (c : Container) : Prop where
  align : c.data % (SS : Int) = 0
  free : ∀ z, c.Storage SS z → w.mem z = none
  heap : c.isDyn = true → w.heap c.data = none

/-- objects of the same class: for the static classes the size is part of the type -/
def SameType (c d : Container) : Prop :=
  c.kind = d.kind ∧ c.so = d.so ∧ (c.isDyn = false → c.rows = d.rows ∧ c.cols = d.cols)

/-- shapes for which `reset()` works, see C33 -/
def ResetOK (SS : Nat) (c : Container) : Prop :=
  c.kind ≠ .statPanel ∧
  (c.kind = .dynPanel → c.minorSize ≤ nextMultiple c.majorSize SS ∧ nextMultiple c.majorSize SS ≤ SS * c.minorSize)

/-- A step a C++ program can make without breaking a rule of the language or a documented precondition: variables exist when they are used, indices
are in range, objects are constructed only once. -/
def Allowed (SS : Nat) (w : World V) : Op V → Prop
  | .create x c => w.obj x = none ∧ Fresh SS w c
  | .createFill x c _ => w.obj x = none ∧ Fresh SS w c ∧ c.kind = .statDense
  | .createList x c _ => w.obj x = none ∧ Fresh SS w c ∧ c.isDyn = false
  | .copyCreate x y data => w.obj x = none ∧ ∃ d, w.obj y = some d ∧ (d.isDyn = false → Fresh SS w { d with data := data })
  | .moveCreate x y data => w.obj x = none ∧ ∃ d, w.obj y = some d ∧ (d.isDyn = false → Fresh SS w { d with data := data })
  | .copyAssign x y => ∃ c d, w.obj x = some c ∧ w.obj y = some d ∧ SameType c d
  | .moveAssign x y => ∃ c d, w.obj x = some c ∧ w.obj y = some d ∧ SameType c d
  | .assign x y => ∃ c d, w.obj x = some c ∧ w.obj y = some d
  | .fill x _ => ∃ c, w.obj x = some c
  | .set x i j _ => ∃ c, w.obj x = some c ∧ i < c.rows ∧ j < c.cols
  | .get x i j => ∃ c, w.obj x = some c ∧ i < c.rows ∧ j < c.cols
  | .equal x y => ∃ c d, w.obj x = some c ∧ w.obj y = some d
  | .reset x => ∃ c, w.obj x = some c ∧ ResetOK SS c
  | .gemm _ a b _ c d => a ≠ d ∧ b ≠ d ∧ ∃ A B C D, w.obj a = some A ∧ w.obj b = some B ∧ w.obj c = some C ∧ w.obj d = some D ∧
      A.so = .columnMajor ∧ C.so = .columnMajor ∧ D.so = .columnMajor
  | .destroy x => ∃ c, w.obj x = some c

/-- every step of the history is allowed at the moment it is made -/
def Admissible (strict : Bool) (SS : Nat) (w : World V) : List (Op V) → Prop
  | [] => True
  | op :: ops => Allowed SS w op ∧
      ((w.step strict SS op).1.final = false → Admissible strict SS (w.step strict SS op).2 ops)

/-! ### The relation between memory and values -/

/-- in memory `m`, the object `c` has the value `o` -/
structure ObjRep (SS : Nat) (m : Mem V) (c : Container) (o : AObj V) : Prop where
  kind : o.kind = c.kind
  so : o.so = c.so
  rows : o.rows = c.rows
  cols : o.cols = c.cols
  live : Live SS m c
  val : Contains SS m c o.val
  pad : ∀ v, o.pad = some v → ∀ z, c.Storage SS z → ¬ IsElem SS c z → m z = some v
  padz : c.kind ≠ .statDense → ∀ v, o.pad = some v → v = Arith.zero

def Matches (SS : Nat) (m : Mem V) : Option Container → Option (AObj V) → Prop
  | none, none => True
  | some c, some o => ObjRep SS m c o
  | _, _ => False

/-- The world `w` represents the value state `a`: every object has its value, objects do not overlap, and memory and heap contain the storage of the
living objects and nothing else. -/
structure Represents (SS : Nat) (w : World V) (a : AState V) : Prop where
  objs : ∀ x, Matches SS w.mem (w.obj x) (a x)
  apart : ∀ x y c d, w.obj x = some c → w.obj y = some d → x ≠ y →
    Apart SS c d ∧ (c.isDyn = true → d.isDyn = true → c.data ≠ d.data)
  mem : ∀ z, (w.mem z).isSome = true ↔ ∃ x c, w.obj x = some c ∧ c.Storage SS z
  heap : ∀ p b, w.heap p = some b ↔ ∃ x c, w.obj x = some c ∧ c.isDyn = true ∧ c.data = p ∧ b = ⟨c.capacity SS, true⟩

namespace Represents
variable {SS : Nat} {w : World V} {a : AState V}

theorem get (h : Represents SS w a) {x : Nat} {c : Container} (hx : w.obj x = some c) :
    ∃ o, a x = some o ∧ ObjRep SS w.mem c o := by
  have := h.objs x
  rw [hx] at this
  cases ha : a x with
  | none => rw [ha] at this; exact this.elim
  | some o => rw [ha] at this; exact ⟨o, rfl, this⟩

theorem none' (h : Represents SS w a) {x : Nat} (hx : w.obj x = none) : a x = none := by
  have := h.objs x
  rw [hx] at this
  cases ha : a x with
  | none => rfl
  | some o => rw [ha] at this; exact this.elim

end Represents

theorem ObjRep.frame {SS : Nat} (hSS : 0 < SS) {m m' : Mem V} {c : Container} {o : AObj V} (h : ObjRep SS m c o)
    (hm : ∀ z, c.Storage SS z → m' z = m z) : ObjRep SS m' c o :=
  ⟨h.kind, h.so, h.rows, h.cols, ⟨h.live.align, fun z hz => by rw [hm z hz]; exact h.live.alloc z hz⟩,
    fun i j hi hj => by rw [hm _ (c.addr_storage hSS hi hj)]; exact h.val i j hi hj,
    fun v hv z hz he => by rw [hm z hz]; exact h.pad v hv z hz he, h.padz⟩

theorem Matches.frame {SS : Nat} (hSS : 0 < SS) {m m' : Mem V} {oc : Option Container} {oa : Option (AObj V)}
    (h : Matches SS m oc oa) (hm : ∀ c, oc = some c → ∀ z, c.Storage SS z → m' z = m z) : Matches SS m' oc oa := by
  cases oc <;> cases oa
  · trivial
  · exact h.elim
  · exact h.elim
  · exact ObjRep.frame hSS h (hm _ rfl)

/-- an existing object gets a new value -/
theorem Represents.update {SS : Nat} (hSS : 0 < SS) {w : World V} {a : AState V} (h : Represents SS w a) {x : Nat} {c : Container}
    (hx : w.obj x = some c) {m' : Mem V} (hf : ∀ z, ¬ c.Storage SS z → m' z = w.mem z) {o' : AObj V} (ho : ObjRep SS m' c o') :
    Represents SS { w with mem := m' } (upd a x (some o')) := by
  refine ⟨fun y => ?_, h.apart, fun z => ?_, h.heap⟩
  · show Matches SS m' (w.obj y) (upd a x (some o') y)
    unfold upd
    by_cases hy : y = x
    · subst hy; rw [if_pos rfl, hx]; exact ho
    · rw [if_neg hy]
      refine (h.objs y).frame hSS (fun d hd z hz => hf z (fun hc => ?_))
      exact (h.apart y x d c hd hx hy).1 z hz hc
  · show (m' z).isSome = true ↔ _
    by_cases hz : c.Storage SS z
    · exact ⟨fun _ => ⟨x, c, hx, hz⟩, fun _ => ho.live.alloc z hz⟩
    · rw [hf z hz]; exact h.mem z

/-- nothing changes -/
theorem upd_same {α : Type} (f : Nat → Option α) (x : Nat) : upd f x (f x) = f := by
  funext y; unfold upd; by_cases h : y = x
  · subst h; rw [if_pos rfl]
  · rw [if_neg h]

/-- a new object -/
theorem Represents.add {SS : Nat} (hSS : 0 < SS) {w : World V} {a : AState V} (h : Represents SS w a) {x : Nat} {c : Container}
    (hx : w.obj x = none) (hfr : Fresh SS w c) {m' : Mem V} (hf : ∀ z, ¬ c.Storage SS z → m' z = w.mem z) {o' : AObj V}
    (ho : ObjRep SS m' c o') :
    Represents SS ⟨m', if c.isDyn then fun p => if p = c.data then some ⟨c.capacity SS, true⟩ else w.heap p else w.heap,
      upd w.obj x (some c)⟩ (upd a x (some o')) := by
  have disj : ∀ y d, w.obj y = some d → Apart SS c d ∧ Apart SS d c ∧ (c.isDyn = true → d.isDyn = true → c.data ≠ d.data) := by
    intro y d hd
    have hs : ∀ z, c.Storage SS z → ¬ d.Storage SS z := by
      intro z hz hz'
      have h1 := (h.mem z).2 ⟨y, d, hd, hz'⟩
      rw [hfr.free z hz] at h1; cases h1
    refine ⟨hs, fun z h1 h2 => hs z h2 h1, fun hc hd' he => ?_⟩
    have h1 := (h.heap d.data ⟨d.capacity SS, true⟩).2 ⟨y, d, hd, hd', rfl, rfl⟩
    rw [← he, hfr.heap hc] at h1; cases h1
  have hupd : ∀ y d, upd w.obj x (some c) y = some d ↔ (y = x ∧ d = c) ∨ (y ≠ x ∧ w.obj y = some d) := by
    intro y d
    unfold upd
    by_cases hy : y = x
    · rw [if_pos hy]
      constructor
      · intro e; exact Or.inl ⟨hy, (Option.some.inj e).symm⟩
      · rintro (⟨_, rfl⟩ | ⟨hn, _⟩)
        · rfl
        · exact absurd hy hn
    · rw [if_neg hy]
      constructor
      · intro e; exact Or.inr ⟨hy, e⟩
      · rintro (⟨hn, _⟩ | ⟨_, e⟩)
        · exact absurd hn hy
        · exact e
  refine ⟨fun y => ?_, fun y y' d d' hd hd' hne => ?_, fun z => ?_, fun p b => ?_⟩
  · show Matches SS m' (upd w.obj x (some c) y) (upd a x (some o') y)
    unfold upd
    by_cases hy : y = x
    · rw [if_pos hy, if_pos hy]; exact ho
    · rw [if_neg hy, if_neg hy]
      refine (h.objs y).frame hSS (fun d hd z hz => hf z (fun hc => ?_))
      exact (disj y d hd).1 z hc hz
  · rcases (hupd y d).1 hd with ⟨e1, e2⟩ | ⟨e1, e2⟩ <;> rcases (hupd y' d').1 hd' with ⟨f1, f2⟩ | ⟨f1, f2⟩
    · exact absurd (e1.trans f1.symm) hne
    · subst e2; exact ⟨(disj y' d' f2).1, (disj y' d' f2).2.2⟩
    · subst f2; exact ⟨(disj y d e2).2.1, fun g1 g2 he => (disj y d e2).2.2 g2 g1 he.symm⟩
    · exact h.apart y y' d d' e2 f2 hne
  · show (m' z).isSome = true ↔ ∃ y d, upd w.obj x (some c) y = some d ∧ d.Storage SS z
    by_cases hz : c.Storage SS z
    · exact ⟨fun _ => ⟨x, c, (hupd x c).2 (Or.inl ⟨rfl, rfl⟩), hz⟩, fun _ => ho.live.alloc z hz⟩
    · rw [hf z hz, h.mem z]
      constructor
      · rintro ⟨y, d, hd, hd'⟩
        exact ⟨y, d, (hupd y d).2 (Or.inr ⟨fun e => (by rw [e, hx] at hd; cases hd), hd⟩), hd'⟩
      · rintro ⟨y, d, hd, hd'⟩
        rcases (hupd y d).1 hd with ⟨_, e⟩ | ⟨_, e⟩
        · subst e; exact absurd hd' hz
        · exact ⟨y, d, e, hd'⟩
  · show (if c.isDyn then fun p => if p = c.data then some ⟨c.capacity SS, true⟩ else w.heap p else w.heap) p = some b ↔
      ∃ y d, upd w.obj x (some c) y = some d ∧ d.isDyn = true ∧ d.data = p ∧ b = ⟨d.capacity SS, true⟩
    have old : w.heap p = some b ↔ ∃ y d, y ≠ x ∧ w.obj y = some d ∧ d.isDyn = true ∧ d.data = p ∧ b = ⟨d.capacity SS, true⟩ := by
      rw [h.heap p b]
      constructor
      · rintro ⟨y, d, hd, r⟩; exact ⟨y, d, fun e => (by rw [e, hx] at hd; cases hd), hd, r⟩
      · rintro ⟨y, d, _, hd, r⟩; exact ⟨y, d, hd, r⟩
    cases hc : c.isDyn
    · rw [if_neg (by simp), old]
      constructor
      · rintro ⟨y, d, hn, hd, r⟩; exact ⟨y, d, (hupd y d).2 (Or.inr ⟨hn, hd⟩), r⟩
      · rintro ⟨y, d, hd, r1, r⟩
        rcases (hupd y d).1 hd with ⟨_, e⟩ | ⟨e1, e⟩
        · subst e; rw [hc] at r1; cases r1
        · exact ⟨y, d, e1, e, r1, r⟩
    · rw [if_pos rfl]
      by_cases hp : p = c.data
      · rw [if_pos hp]
        constructor
        · intro e
          exact ⟨x, c, (hupd x c).2 (Or.inl ⟨rfl, rfl⟩), hc, hp.symm, (Option.some.inj e).symm⟩
        · rintro ⟨y, d, hd, r1, r2, r3⟩
          rcases (hupd y d).1 hd with ⟨_, e⟩ | ⟨e1, e⟩
          · subst e; rw [r3]
          · exact absurd (hp.symm.trans r2.symm) ((disj y d e).2.2 hc r1)
      · rw [if_neg hp, old]
        constructor
        · rintro ⟨y, d, hn, hd, r⟩; exact ⟨y, d, (hupd y d).2 (Or.inr ⟨hn, hd⟩), r⟩
        · rintro ⟨y, d, hd, r1, r2, r3⟩
          rcases (hupd y d).1 hd with ⟨_, e⟩ | ⟨e1, e⟩
          · subst e; exact absurd r2.symm hp
          · exact ⟨y, d, e1, e, r1, r2, r3⟩

/-- an object disappears -/
theorem Represents.remove {SS : Nat} (hSS : 0 < SS) {w : World V} {a : AState V} (h : Represents SS w a) {x : Nat} {c : Container}
    (hx : w.obj x = some c) :
    Represents SS ⟨fun z => if c.data ≤ z ∧ z < c.data + c.capacity SS then none else w.mem z,
      if c.isDyn then fun p => if p = c.data then none else w.heap p else w.heap, upd w.obj x none⟩ (upd a x none) := by
  have hupd : ∀ y d, upd w.obj x none y = some d ↔ (y ≠ x ∧ w.obj y = some d) := by
    intro y d
    unfold upd
    by_cases hy : y = x
    · rw [if_pos hy]
      constructor
      · intro e; cases e
      · rintro ⟨hn, _⟩; exact absurd hy hn
    · rw [if_neg hy]; exact ⟨fun e => ⟨hy, e⟩, fun e => e.2⟩
  refine ⟨fun y => ?_, fun y y' d d' hd hd' hne => ?_, fun z => ?_, fun p b => ?_⟩
  · show Matches SS _ (upd w.obj x none y) (upd a x none y)
    unfold upd
    by_cases hy : y = x
    · rw [if_pos hy, if_pos hy]; trivial
    · rw [if_neg hy, if_neg hy]
      refine (h.objs y).frame hSS (fun d hd z hz => if_neg (fun hc => ?_))
      exact (h.apart y x d c hd hx hy).1 z hz hc
  · exact h.apart y y' d d' ((hupd y d).1 hd).2 ((hupd y' d').1 hd').2 hne
  · dsimp only
    constructor
    · intro e
      by_cases hz : c.data ≤ z ∧ z < c.data + c.capacity SS
      · rw [if_pos hz] at e; cases e
      · rw [if_neg hz] at e
        obtain ⟨y, d, hd, hs⟩ := (h.mem z).1 e
        refine ⟨y, d, (hupd y d).2 ⟨fun he => ?_, hd⟩, hs⟩
        rw [he, hx] at hd; rw [Option.some.inj hd] at hz; exact hz hs
    · rintro ⟨y, d, hd, hs⟩
      obtain ⟨hn, hd⟩ := (hupd y d).1 hd
      rw [if_neg (show ¬ (c.data ≤ z ∧ z < c.data + c.capacity SS) from fun hc => (h.apart y x d c hd hx hn).1 z hs hc)]
      exact (h.mem z).2 ⟨y, d, hd, hs⟩
  · show (if c.isDyn then fun p => if p = c.data then none else w.heap p else w.heap) p = some b ↔ _
    dsimp only
    have old := h.heap p b
    cases hc : c.isDyn
    · rw [if_neg (by simp), old]
      constructor
      · rintro ⟨y, d, hd, r1, r⟩
        refine ⟨y, d, (hupd y d).2 ⟨fun he => ?_, hd⟩, r1, r⟩
        rw [he, hx] at hd; rw [← Option.some.inj hd, hc] at r1; cases r1
      · rintro ⟨y, d, hd, r⟩; exact ⟨y, d, ((hupd y d).1 hd).2, r⟩
    · rw [if_pos rfl]
      by_cases hp : p = c.data
      · rw [if_pos hp]
        constructor
        · intro e; cases e
        · rintro ⟨y, d, hd, r1, r2, r3⟩
          obtain ⟨hn, hd⟩ := (hupd y d).1 hd
          exact absurd (r2.trans hp) ((h.apart y x d c hd hx hn).2 r1 hc)
      · rw [if_neg hp, old]
        constructor
        · rintro ⟨y, d, hd, r1, r2, r⟩
          refine ⟨y, d, (hupd y d).2 ⟨fun he => ?_, hd⟩, r1, r2, r⟩
          rw [he, hx] at hd; rw [← Option.some.inj hd] at r2; exact hp r2.symm
        · rintro ⟨y, d, hd, r⟩; exact ⟨y, d, ((hupd y d).1 hd).2, r⟩

/-! ### Single steps -/

theorem ObjRep.elems {SS : Nat} {m m' : Mem V} {c : Container} {o : AObj V} (h : ObjRep SS m c o)
    (hf : OnlyElemsChange SS m m' c) {f : Nat → Nat → V} (hv : Contains SS m' c f) : ObjRep SS m' c { o with val := f } := by
  refine ⟨h.kind, h.so, h.rows, h.cols, ⟨h.live.align, fun z hz => ?_⟩, hv, fun v hpv z hz he => ?_, h.padz⟩
  · by_cases he : IsElem SS c z
    · obtain ⟨i, j, hi, hj, rfl⟩ := he
      rw [hv i j hi hj]; rfl
    · rw [hf z he]; exact h.live.alloc z hz
  · rw [hf z he]; exact h.pad v hpv z hz he

theorem elem_storage {SS : Nat} (hSS : 0 < SS) {c : Container} {z : Int} (h : IsElem SS c z) : c.Storage SS z := by
  obtain ⟨i, j, hi, hj, rfl⟩ := h
  exact c.addr_storage hSS hi hj

theorem runs_copyCells {src dst : Int} {n : Nat} {m : Mem V} (hs : ∀ k : Nat, k < n → (m (src + k)).isSome = true)
    (hd : ∀ k : Nat, k < n → (m (dst + k)).isSome = true)
    (hdis : src = dst ∨ ∀ k k' : Nat, k < n → k' < n → src + k ≠ dst + k') :
    Runs (World.copyCells src dst n) m (fun _ m' => (∀ k : Nat, k < n → m' (dst + k) = m (src + k)) ∧
      ∀ z, (∀ k : Nat, k < n → z ≠ dst + k) → m' z = m z) := by
  unfold World.copyCells
  refine (runs_forN (fun k m' => (∀ k' : Nat, k' < k → m' (dst + k') = m (src + k')) ∧
    ∀ z, (∀ k' : Nat, k' < k → z ≠ dst + k') → m' z = m z) ⟨fun k' hk => absurd hk (by omega), fun z _ => rfl⟩ ?_).mono (fun _ _ h => h)
  rintro k m' hk ⟨h1, h2⟩
  have e : m' (src + k) = m (src + k) := by
    refine h2 _ (fun k' hk' => ?_)
    rcases hdis with rfl | hdis
    · omega
    · exact hdis k k' hk (by omega)
  obtain ⟨v, hv⟩ := Option.isSome_iff_exists.1 (hs k hk)
  refine Runs.bind (Q := fun b mb => b = v ∧ mb = m') ⟨v, m', ?_, rfl, rfl⟩ ?_
  · show (match m' (src + k) with | some v => Res.ok v m' | none => Res.ub) = _
    rw [e, hv]
  · intro b mb hb
    obtain ⟨hb1, hb2⟩ := hb
    subst hb1
    subst hb2
    have hal : (mb (dst + k)).isSome = true := by
      rw [h2 _ (fun k' hk' => by omega)]; exact hd k hk
    refine runs_write hal ?_
    constructor
    · intro k' hk'
      beta_reduce
      by_cases hkk : k' = k
      · subst hkk; rw [if_pos rfl, hv]
      · rw [if_neg (by omega)]; exact h1 k' (by omega)
    · intro z hz
      beta_reduce
      rw [if_neg (hz k (by omega))]
      exact h2 z (fun k' hk' => hz k' (by omega))

/-- memory in which the storage of `c` has been allocated and set to zero -/
def zeroed (SS : Nat) (m : Mem V) (c : Container) : Mem V :=
  fun x => if c.data ≤ x ∧ x < c.data + c.capacity SS then some Arith.zero else m x

theorem zeroed_in {SS : Nat} {m : Mem V} {c : Container} {z : Int} (h : c.Storage SS z) : zeroed SS m c z = some Arith.zero := if_pos h

theorem zeroed_out {SS : Nat} {m : Mem V} {c : Container} {z : Int} (h : ¬ c.Storage SS z) : zeroed SS m c z = m z := if_neg h

theorem zeroed_live {SS : Nat} {m : Mem V} {c : Container} (h : c.data % (SS : Int) = 0) : Live SS (zeroed SS m c) c :=
  ⟨h, fun z hz => by rw [zeroed_in hz]; rfl⟩

theorem construct_ok {SS : Nat} (hSS : 0 < SS) {w : World V} {a : AState V} (h : Represents SS w a) {x : Nat} {c : Container}
    (hx : w.obj x = none) (hfr : Fresh SS w c) {p : Prog V Unit} {m' : Mem V} (hp : p (zeroed SS w.mem c) = .ok () m')
    (hf : ∀ z, ¬ c.Storage SS z → m' z = zeroed SS w.mem c z) {o' : AObj V} (ho : ObjRep SS m' c o') :
    (w.construct SS x c p).1 = .done ∧ Represents SS (w.construct SS x c p).2 (upd a x (some o')) := by
  have e : (c.construct SS >>= fun _ => p) w.mem = .ok () m' := by
    rw [bind_ok (show (c.construct SS : Prog V Unit) w.mem = .ok () (zeroed SS w.mem c) from rfl)]; exact hp
  unfold World.construct
  rw [e]
  exact ⟨rfl, h.add hSS hx hfr (fun z hz => by rw [hf z hz, zeroed_out hz]) ho⟩

theorem exec_ok {SS : Nat} (hSS : 0 < SS) {w : World V} {a : AState V} (h : Represents SS w a) {x : Nat} {c : Container}
    (hx : w.obj x = some c) {α : Type} {p : Prog V α} {r : α} {m' : Mem V} (hp : p w.mem = .ok r m') (k : α → Outcome V)
    (hf : ∀ z, ¬ c.Storage SS z → m' z = w.mem z) {o' : AObj V} (ho : ObjRep SS m' c o') :
    (w.exec p k).1 = k r ∧ Represents SS (w.exec p k).2 (upd a x (some o')) := by
  unfold World.exec
  rw [hp]
  exact ⟨rfl, h.update hSS hx hf ho⟩

theorem exec_read {w : World V} {α : Type} {p : Prog V α} {r : α} (hp : p w.mem = .ok r w.mem) (k : α → Outcome V) :
    w.exec p k = (k r, w) := by
  unfold World.exec; rw [hp]

theorem exec_throw {w : World V} {α : Type} {p : Prog V α} {e : Exn} (hp : p w.mem = .throw e w.mem) (k : α → Outcome V) :
    w.exec p k = (.exn e, w) := by
  unfold World.exec; rw [hp]

theorem isDyn_eq {SS : Nat} {m : Mem V} {c : Container} {o : AObj V} (h : ObjRep SS m c o) : o.isDyn = c.isDyn := by
  unfold AObj.isDyn Container.isDyn; rw [h.kind]; cases c.kind <;> rfl

/-- objects of a static class copied cell by cell -/
theorem ObjRep.copy {SS : Nat} (hSS : 0 < SS) {m m' : Mem V} {c d : Container} {o : AObj V} (h : ObjRep SS m d o)
    (hk : c.kind = d.kind) (hso : c.so = d.so) (hr : c.rows = d.rows) (hc : c.cols = d.cols) (hal : c.data % (SS : Int) = 0)
    (he : ∀ k : Nat, k < c.capacity SS → m' (c.data + k) = m (d.data + k)) : ObjRep SS m' c o := by
  obtain ⟨ck, cs, cr, cc, cd⟩ := c
  obtain ⟨dk, ds, dr, dc, dd⟩ := d
  simp only at hk hso hr hc hal he
  subst hk hso hr hc
  have hst : ∀ k : Nat, k < (⟨ck, cs, cr, cc, cd⟩ : Container).capacity SS →
      (⟨ck, cs, cr, cc, dd⟩ : Container).Storage SS (dd + k) := by
    intro k hk
    exact ⟨by show dd ≤ dd + k; omega, by show dd + (k : Int) < dd + _; exact Int.add_lt_add_left (by exact_mod_cast hk) _⟩
  have hex : ∀ z, (⟨ck, cs, cr, cc, cd⟩ : Container).Storage SS z → ∃ k : Nat, k < (⟨ck, cs, cr, cc, cd⟩ : Container).capacity SS ∧ z = cd + k := by
    intro z hz
    have h1 : cd ≤ z := hz.1
    have h2 : z < cd + ((⟨ck, cs, cr, cc, cd⟩ : Container).capacity SS : Nat) := hz.2
    exact ⟨(z - cd).toNat, by omega, by omega⟩
  have hel : ∀ i j, i < cr → j < cc → m' ((⟨ck, cs, cr, cc, cd⟩ : Container).addr SS i j) = m ((⟨ck, cs, cr, cc, dd⟩ : Container).addr SS i j) := by
    intro i j hi hj
    obtain ⟨h1, h2⟩ := Container.addr_storage hSS (⟨ck, cs, cr, cc, cd⟩ : Container) hi hj
    have e1 : (⟨ck, cs, cr, cc, cd⟩ : Container).addr SS i j = cd + ((⟨ck, cs, cr, cc, cd⟩ : Container).elementIndex SS i j : Nat) := rfl
    rw [e1] at h2 ⊢
    have h3 : cd + (((⟨ck, cs, cr, cc, cd⟩ : Container).elementIndex SS i j : Nat) : Int) < cd + ((⟨ck, cs, cr, cc, cd⟩ : Container).capacity SS : Nat) := h2
    rw [he _ (by omega)]; rfl
  refine ⟨h.kind, h.so, h.rows, h.cols, ⟨hal, fun z hz => ?_⟩, fun i j hi hj => ?_, fun v hpv z hz hn => ?_, h.padz⟩
  · obtain ⟨k, hk, rfl⟩ := hex z hz
    rw [he k hk]; exact h.live.alloc _ (hst k hk)
  · rw [hel i j hi hj]; exact h.val i j hi hj
  · obtain ⟨k, hk, rfl⟩ := hex z hz
    rw [he k hk]
    refine h.pad v hpv _ (hst k hk) (fun ⟨i, j, hi, hj, e⟩ => hn ⟨i, j, hi, hj, ?_⟩)
    have e' : dd + (k : Int) = dd + (((⟨ck, cs, cr, cc, dd⟩ : Container).elementIndex SS i j : Nat) : Int) := e
    show cd + (k : Int) = cd + (((⟨ck, cs, cr, cc, dd⟩ : Container).elementIndex SS i j : Nat) : Int)
    omega

theorem copyCreate_ok {SS : Nat} (hSS : 0 < SS) {w : World V} {a : AState V} (h : Represents SS w a) {x : Nat} {d : Container} {data : Int}
    (hx : w.obj x = none) (hfr : Fresh SS w { d with data := data }) {o : AObj V} (ho : ObjRep SS w.mem d o) :
    (w.construct SS x { d with data := data } (World.copyCells d.data data (d.capacity SS))).1 = .done ∧
    Represents SS (w.construct SS x { d with data := data } (World.copyCells d.data data (d.capacity SS))).2 (upd a x (some o)) := by
  have cap : ({ d with data := data } : Container).capacity SS = d.capacity SS := rfl
  have hap : ∀ z, d.Storage SS z → ¬ ({ d with data := data } : Container).Storage SS z := by
    intro z hz hz'
    have := ho.live.alloc z hz
    rw [hfr.free z hz'] at this; cases this
  have sto : ∀ k : Nat, k < d.capacity SS → d.Storage SS (d.data + k) := fun k hk => ⟨by omega, by omega⟩
  have dto : ∀ k : Nat, k < d.capacity SS → ({ d with data := data } : Container).Storage SS (data + k) :=
    fun k hk => ⟨by show data ≤ data + k; omega, by show data + (k : Int) < data + (d.capacity SS : Nat); omega⟩
  obtain ⟨_, m', e1, e2, e3⟩ := runs_copyCells (src := d.data) (dst := data) (n := d.capacity SS) (m := zeroed SS w.mem { d with data := data })
    (fun k hk => by rw [zeroed_out (hap _ (sto k hk))]; exact ho.live.alloc _ (sto k hk))
    (fun k hk => by rw [zeroed_in (dto k hk)]; rfl)
    (Or.inr (fun k k' hk hk' e => hap _ (sto k hk) (by rw [e]; exact dto k' hk')))
  refine construct_ok hSS h hx hfr e1 (fun z hz => e3 z (fun k hk e => hz (by rw [e]; exact dto k hk))) ?_
  refine ho.copy hSS rfl rfl rfl rfl hfr.align (fun k hk => ?_)
  exact (e2 k hk).trans (zeroed_out (hap _ (sto k hk)))

theorem copyAssign_ok {SS : Nat} (hSS : 0 < SS) {w : World V} {a : AState V} (h : Represents SS w a) {x y : Nat} {c d : Container}
    (hx : w.obj x = some c) (hy : w.obj y = some d) (ht : SameType c d) (hst : c.isDyn = false) {o : AObj V} (ho : ObjRep SS w.mem d o) :
    (w.exec (World.copyCells d.data c.data (c.capacity SS)) (fun _ => .done)).1 = .done ∧
    Represents SS (w.exec (World.copyCells d.data c.data (c.capacity SS)) (fun _ => .done)).2 (upd a x (some o)) := by
  obtain ⟨t1, t2, t3⟩ := ht
  obtain ⟨t3, t4⟩ := t3 hst
  obtain ⟨oc, _, hoc⟩ := h.get hx
  have cap : c.capacity SS = d.capacity SS := by
    unfold Container.capacity Container.spacing Container.majorSize Container.minorSize Container.isPanel
    rw [t1, t2, t3, t4]
  have sto : ∀ k : Nat, k < c.capacity SS → d.Storage SS (d.data + k) := fun k hk => ⟨by omega, by omega⟩
  have dto : ∀ k : Nat, k < c.capacity SS → c.Storage SS (c.data + k) := fun k hk => ⟨by omega, by omega⟩
  have hdis : d.data = c.data ∨ ∀ k k' : Nat, k < c.capacity SS → k' < c.capacity SS → d.data + k ≠ c.data + k' := by
    by_cases hxy : x = y
    · subst hxy; rw [hx] at hy; rw [Option.some.inj hy]; exact Or.inl rfl
    · right; intro k k' hk hk' e
      exact (h.apart x y c d hx hy hxy).1 _ (dto k' hk') (by rw [← e]; exact sto k hk)
  obtain ⟨_, m', e1, e2, e3⟩ := runs_copyCells (src := d.data) (dst := c.data) (n := c.capacity SS) (m := w.mem)
    (fun k hk => ho.live.alloc _ (sto k hk)) (fun k hk => hoc.live.alloc _ (dto k hk)) hdis
  exact exec_ok hSS h hx e1 (fun _ => .done) (fun z hz => e3 z (fun k hk e => hz (by rw [e]; exact dto k hk)))
    (ho.copy hSS t1 t2 t3 t4 hoc.live.align e2)

theorem fill_ok {SS : Nat} (hSS : 0 < SS) {w : World V} {a : AState V} (h : Represents SS w a) {x : Nat} {c : Container}
    (hx : w.obj x = some c) {o : AObj V} (ho : ObjRep SS w.mem c o) (v : V) :
    (w.exec (c.assignScalar SS v) (fun _ => .done)).1 = .done ∧
    Represents SS (w.exec (c.assignScalar SS v) (fun _ => .done)).2 (upd a x (some { o with val := fun _ _ => v })) := by
  obtain ⟨_, m', e1, e2, e3⟩ := runs_elemLoop (c := c) (r := c.rows) (w := fun _ => c.cols) (m := w.mem) hSS (Nat.le_refl _)
    (fun _ _ => Nat.le_refl _) (body := fun i j => c.set SS i j v) (fun _ _ => v)
    (fun i j hi hj => ho.live.alloc _ (c.addr_storage hSS hi hj)) (fun i j m' hi hj _ _ ha => runs_write (ha i j hi hj) rfl)
  exact exec_ok hSS h hx e1 (fun _ => .done) (fun z hz => e3 z (fun he => hz (elem_storage hSS he)))
    (ho.elems e3 (fun i j hi hj => e2 i j hi hj))

theorem set_ok {SS : Nat} (hSS : 0 < SS) {w : World V} {a : AState V} (h : Represents SS w a) {x : Nat} {c : Container}
    (hx : w.obj x = some c) {o : AObj V} (ho : ObjRep SS w.mem c o) {i j : Nat} (hi : i < c.rows) (hj : j < c.cols) (v : V) :
    (w.exec (c.set SS i j v) (fun _ => .done)).1 = .done ∧
    Represents SS (w.exec (c.set SS i j v) (fun _ => .done)).2
      (upd a x (some { o with val := fun i' j' => if i' = i ∧ j' = j then v else o.val i' j' })) := by
  obtain ⟨_, m', e1, e2⟩ : Runs (c.set SS i j v) w.mem
      (fun _ m' => m' = fun z => if z = c.addr SS i j then some v else w.mem z) :=
    runs_write (ho.live.alloc _ (c.addr_storage hSS hi hj)) rfl
  have hfr : OnlyElemsChange SS w.mem m' c := by
    intro z hz; rw [e2]; exact if_neg (fun e => hz ⟨i, j, hi, hj, e⟩)
  refine exec_ok hSS h hx e1 (fun _ => .done) (fun z hz => hfr z (fun he => hz (elem_storage hSS he))) (ho.elems hfr ?_)
  intro i' j' hi' hj'
  rw [e2]
  beta_reduce
  by_cases he : i' = i ∧ j' = j
  · obtain ⟨rfl, rfl⟩ := he
    rw [if_pos rfl, if_pos ⟨rfl, rfl⟩]
  · rw [if_neg he, if_neg (fun e => he ((C31_storage_injective_in_bounds hSS c).2 _ _ _ _ hi' hj' hi hj e))]
    exact ho.val i' j' hi' hj'

theorem reset_ok {SS : Nat} (hSS : 0 < SS) {w : World V} {a : AState V} (h : Represents SS w a) {x : Nat} {c : Container}
    (hx : w.obj x = some c) {o : AObj V} (ho : ObjRep SS w.mem c o) (hr : ResetOK SS c) :
    (w.exec (c.reset SS) (fun _ => .done)).1 = .done ∧
    Represents SS (w.exec (c.reset SS) (fun _ => .done)).2
      (upd a x (some { o with val := fun _ _ => Arith.zero, pad := if o.kind = .dynPanel then o.pad else some Arith.zero })) := by
  -- all kinds: `reset` is one fill
  have hdense : ∀ m', c.reset SS w.mem = .ok () m' → (∀ z, ¬ c.Storage SS z → m' z = w.mem z) →
      Contains SS m' c (fun _ _ => Arith.zero) →
      (∀ v, (if o.kind = .dynPanel then o.pad else some Arith.zero) = some v → ∀ z, c.Storage SS z → ¬ IsElem SS c z → m' z = some v) →
      (w.exec (c.reset SS) (fun _ => .done)).1 = .done ∧
      Represents SS (w.exec (c.reset SS) (fun _ => .done)).2
        (upd a x (some { o with val := fun _ _ => Arith.zero, pad := if o.kind = .dynPanel then o.pad else some Arith.zero })) := by
    intro m' e1 e2 e3 e4
    have hlive : ∀ z, c.Storage SS z → (m' z).isSome = true := by
      intro z hz
      unfold Container.reset at e1
      have key : ∀ n : Nat, n ≤ c.capacity SS → fillN c.data n (Arith.zero : V) w.mem = .ok () m' → (m' z).isSome = true := by
        intro n hn e
        obtain ⟨_, m2, f1, f2⟩ := runs_fillN (v := (Arith.zero : V)) (base := c.data) (n := n) (m := w.mem)
          (fun z h1 h2 => ho.live.alloc z ⟨h1, by
            have : (n : Int) ≤ (c.capacity SS : Nat) := by exact_mod_cast hn
            omega⟩)
        have hm : m' = m2 := by rw [e] at f1; cases f1; rfl
        subst hm
        by_cases hz' : c.data ≤ z ∧ z < c.data + (n : Int)
        · rw [(f2 z).1 hz']; rfl
        · rw [(f2 z).2 hz']; exact ho.live.alloc z hz
      cases hk : c.kind with
      | statPanel => exact absurd hk hr.1
      | dynDense => rw [hk] at e1; exact key _ (by unfold Container.capacity; rw [hk]) e1
      | statDense => rw [hk] at e1; exact key _ (Nat.le_refl _) e1
      | dynPanel => rw [hk] at e1; exact key _ (by unfold Container.capacity; rw [hk]; exact Nat.mul_le_mul_left _ (hr.2 hk).1) e1
    refine exec_ok hSS h hx e1 (fun _ => .done) e2 ⟨ho.kind, ho.so, ho.rows, ho.cols, ⟨ho.live.align, hlive⟩, e3, e4, fun hk v hv => ?_⟩
    dsimp only at hv
    by_cases hd : o.kind = .dynPanel
    · rw [if_pos hd] at hv; exact ho.padz hk v hv
    · rw [if_neg hd] at hv; cases hv; rfl
  cases hk : c.kind with
  | statPanel => exact absurd hk hr.1
  | dynDense =>
    have hcap : c.capacity SS = c.spacing SS * c.minorSize := by unfold Container.capacity; rw [hk]
    obtain ⟨_, m', e1, e2⟩ := runs_fillN (v := (Arith.zero : V)) (base := c.data) (n := c.capacity SS) (m := w.mem)
      (fun z h1 h2 => ho.live.alloc z ⟨h1, h2⟩)
    refine hdense m' ?_ (fun z hz => (e2 z).2 hz) (fun i j hi hj => (e2 _).1 (c.addr_storage hSS hi hj))
      (fun v hv z hz _ => by rw [ho.kind, hk, if_neg (by decide)] at hv; cases hv; exact (e2 z).1 hz)
    unfold Container.reset; rw [hk, ← hcap]; exact e1
  | statDense =>
    obtain ⟨_, m', e1, e2⟩ := runs_fillN (v := (Arith.zero : V)) (base := c.data) (n := c.capacity SS) (m := w.mem)
      (fun z h1 h2 => ho.live.alloc z ⟨h1, h2⟩)
    refine hdense m' ?_ (fun z hz => (e2 z).2 hz) (fun i j hi hj => (e2 _).1 (c.addr_storage hSS hi hj))
      (fun v hv z hz _ => by rw [ho.kind, hk, if_neg (by decide)] at hv; cases hv; exact (e2 z).1 hz)
    unfold Container.reset; rw [hk]; exact e1
  | dynPanel =>
    obtain ⟨h1, h2⟩ := hr.2 hk
    obtain ⟨m', e1, e2, e3⟩ := C33_reset_panel hSS c hk w.mem ho.live h1 h2
    refine hdense m' e1 e3 e2 (fun v hv z hz he => ?_)
    rw [ho.kind, hk, if_pos rfl] at hv
    have hv0 := ho.padz (by rw [hk]; decide) v hv
    have hle : c.spacing SS * c.minorSize ≤ c.capacity SS := by
      unfold Container.capacity; rw [hk]; exact Nat.mul_le_mul_left _ h1
    obtain ⟨_, m2, f1, f2⟩ := runs_fillN (v := (Arith.zero : V)) (base := c.data) (n := c.spacing SS * c.minorSize) (m := w.mem)
      (fun z h1 h2 => ho.live.alloc z ⟨h1, by
        have : ((c.spacing SS * c.minorSize : Nat) : Int) ≤ (c.capacity SS : Nat) := by exact_mod_cast hle
        omega⟩)
    have e1' : fillN c.data (c.spacing SS * c.minorSize) Arith.zero w.mem = .ok () m' := by
      have := e1; unfold Container.reset at this; rw [hk] at this; exact this
    have hm : m' = m2 := by rw [e1'] at f1; cases f1; rfl
    rw [hm]
    by_cases hz' : c.data ≤ z ∧ z < c.data + ((c.spacing SS * c.minorSize : Nat) : Int)
    · rw [hv0]; exact (f2 z).1 hz'
    · rw [(f2 z).2 hz']; exact ho.pad v hv z hz he

theorem gemm_ok {SS : Nat} (hSS : 0 < SS) {w : World V} {a : AState V} (h : Represents SS w a) {xa xb xc xd : Nat} {A B C D : Container}
    (hA : w.obj xa = some A) (hB : w.obj xb = some B) (hC : w.obj xc = some C) (hD : w.obj xd = some D) (had : xa ≠ xd) (hbd : xb ≠ xd)
    (sA : A.so = .columnMajor) (sC : C.so = .columnMajor) (sD : D.so = .columnMajor) {oA oB oC oD : AObj V}
    (rA : ObjRep SS w.mem A oA) (rB : ObjRep SS w.mem B oB) (rC : ObjRep SS w.mem C oC) (rD : ObjRep SS w.mem D oD) (alpha beta : V) :
    (¬ GemmSizes A B C D →
      w.exec (gemmMat SS alpha (A.mat SS) (B.mat SS) beta (C.mat SS) (D.mat SS)) (fun _ => .done) = (.exn .invalidArgument, w)) ∧
    (GemmSizes A B C D →
      (w.exec (gemmMat SS alpha (A.mat SS) (B.mat SS) beta (C.mat SS) (D.mat SS)) (fun _ => .done)).1 = .done ∧
      Represents SS (w.exec (gemmMat SS alpha (A.mat SS) (B.mat SS) beta (C.mat SS) (D.mat SS)) (fun _ => .done)).2
        (upd a xd (some { oD with
            val := fun i j =>
              Arith.fma beta (oC.val i j) (Arith.mul (fmaSum (fun k => oA.val i k) (fun k => oB.val k j) Arith.zero A.cols) alpha) }))) := by
  have ha : GemmArgs SS w.mem A B C D := by
    refine ⟨hSS, sA, sC, sD, rA.live, rB.live, rC.live, rD.live, (h.apart _ _ _ _ hA hD had).1, (h.apart _ _ _ _ hB hD hbd).1, ?_⟩
    by_cases hcd : xc = xd
    · subst hcd; rw [hC] at hD; exact Or.inl (Option.some.inj hD)
    · exact Or.inr (h.apart _ _ _ _ hC hD hcd).1
  constructor
  · intro hs
    exact exec_throw ((C06_gemm_size_check alpha beta ha).1 hs) _
  · intro hs
    obtain ⟨m', e1, e2⟩ := C04_gemm_bitwise alpha beta ha hs rA.val rB.val rC.val
    obtain ⟨m'', f1, f2⟩ := C02_gemm_frame alpha beta ha hs
    have hm : m'' = m' := by rw [e1] at f1; cases f1; rfl
    subst hm
    exact exec_ok hSS h hD e1 (fun _ => .done) (fun z hz => f2 z (fun he => hz (elem_storage hSS he))) (rD.elems f2 e2)

theorem step_represents {SS : Nat} (hSS : 0 < SS) {w : World V} {a : AState V} (h : Represents SS w a) (op : Op V)
    (hal : Allowed SS w op) :
    (w.step false SS op).1 = (specStep a op).1 ∧ Represents SS (w.step false SS op).2 (specStep a op).2 := by
  cases op with
  | create x c =>
    obtain ⟨hx, hfr⟩ := hal
    refine construct_ok hSS h hx hfr (p := pure ()) rfl (fun z _ => rfl) ?_
    exact ⟨rfl, rfl, rfl, rfl, zeroed_live hfr.align, fun i j hi hj => zeroed_in (c.addr_storage hSS hi hj),
      fun v hv z hz _ => by cases hv; exact zeroed_in hz, fun _ v hv => by cases hv; rfl⟩
  | createFill x c v =>
    obtain ⟨hx, hfr, hk⟩ := hal
    have hl : Live SS (zeroed SS w.mem c) c := zeroed_live hfr.align
    obtain ⟨_, m', e1, e2⟩ := runs_fillN (v := v) (base := c.data) (n := c.capacity SS) (m := zeroed SS w.mem c)
      (fun z h1 h2 => hl.alloc z ⟨h1, h2⟩)
    refine construct_ok hSS h hx hfr e1 (fun z hz => (e2 z).2 hz) ?_
    exact ⟨rfl, rfl, rfl, rfl, ⟨hfr.align, fun z hz => by rw [(e2 z).1 hz]; rfl⟩,
      fun i j hi hj => (e2 _).1 (c.addr_storage hSS hi hj), fun u hu z hz _ => by cases hu; exact (e2 z).1 hz, fun hn => absurd hk hn⟩
  | createList x c l =>
    obtain ⟨hx, hfr, hk⟩ := hal
    have hl : Live SS (zeroed SS w.mem c) c := zeroed_live hfr.align
    obtain ⟨t1, t2⟩ := C34_initializer_list hSS c l (zeroed SS w.mem c) hl
    by_cases hbad : l.length ≠ c.rows ∨ ∃ r ∈ l, c.cols < r.length
    · obtain ⟨m', e1, e2⟩ := t1 hbad
      have e : (c.construct SS >>= fun _ => c.initList SS l) w.mem = .throw .invalidArgument m' := by
        rw [bind_ok (show (c.construct SS : Prog V Unit) w.mem = .ok () (zeroed SS w.mem c) from rfl)]; exact e1
      have hw : (w.construct SS x c (c.initList SS l)) = (.exn .invalidArgument, w) := by
        unfold World.construct
        rw [e]
        have : (fun z => if c.data ≤ z ∧ z < c.data + c.capacity SS then none else m' z) = w.mem := by
          funext z
          by_cases hz : c.data ≤ z ∧ z < c.data + c.capacity SS
          · rw [if_pos hz]; exact (hfr.free z hz).symm
          · rw [if_neg hz, e2 z hz]; exact zeroed_out hz
        show (Outcome.exn Exn.invalidArgument, ({ w with mem := _ } : World V)) = _
        rw [this]
      have hs : specStep a (.createList x c l) = (.exn .invalidArgument, a) := by
        unfold specStep; exact if_pos hbad
      show (w.construct SS x c (c.initList SS l)).1 = _ ∧ Represents SS (w.construct SS x c (c.initList SS l)).2 _
      rw [hw, hs]; exact ⟨rfl, h⟩
    · obtain ⟨m', e1, e2, e3, e4⟩ := t2 ⟨Decidable.byContradiction fun hc => hbad (Or.inl hc), fun r hr =>
        Nat.le_of_not_lt fun hc => hbad (Or.inr ⟨r, hr, hc⟩)⟩
      have hs : specStep a (.createList x c l) = (.done, upd a x (some ⟨c.kind, c.so, c.rows, c.cols,
          fun i j => ((l[i]?.getD [])[j]?).getD Arith.zero, some Arith.zero⟩)) := by
        unfold specStep; exact if_neg hbad
      show (w.construct SS x c (c.initList SS l)).1 = _ ∧ Represents SS (w.construct SS x c (c.initList SS l)).2 _
      rw [hs]
      refine construct_ok hSS h hx hfr e1 e4 ⟨rfl, rfl, rfl, rfl, ⟨hfr.align, fun z hz => ?_⟩, e2, fun v hv z hz he => by cases hv; exact e3 z hz he, fun _ v hv => by cases hv; rfl⟩
      by_cases he : IsElem SS c z
      · obtain ⟨i, j, hi, hj, rfl⟩ := he
        rw [e2 i j hi hj]; rfl
      · rw [e3 z hz he]; rfl
  | copyCreate x y data =>
    obtain ⟨hx, d, hy, hfr⟩ := hal
    obtain ⟨o, ho, hr⟩ := h.get hy
    unfold World.step specStep
    simp only [hy, ho, isDyn_eq hr]
    cases hd : d.isDyn
    · exact copyCreate_ok hSS h hx (hfr hd) hr
    · exact ⟨rfl, h⟩
  | moveCreate x y data =>
    obtain ⟨hx, d, hy, hfr⟩ := hal
    obtain ⟨o, ho, hr⟩ := h.get hy
    unfold World.step specStep
    simp only [hy, ho, isDyn_eq hr]
    cases hd : d.isDyn
    · exact copyCreate_ok hSS h hx (hfr hd) hr
    · exact ⟨rfl, h⟩
  | copyAssign x y =>
    obtain ⟨c, d, hx, hy, ht⟩ := hal
    obtain ⟨o, ho, hr⟩ := h.get hy
    have hdyn : c.isDyn = d.isDyn := by unfold Container.isDyn; rw [ht.1]
    unfold World.step specStep
    simp only [hx, hy, ho, isDyn_eq hr, hdyn]
    cases hd : d.isDyn
    · exact copyAssign_ok hSS h hx hy ht (hdyn.trans hd) hr
    · exact ⟨rfl, h⟩
  | moveAssign x y =>
    obtain ⟨c, d, hx, hy, ht⟩ := hal
    obtain ⟨o, ho, hr⟩ := h.get hy
    have hdyn : c.isDyn = d.isDyn := by unfold Container.isDyn; rw [ht.1]
    unfold World.step specStep
    simp only [hx, hy, ho, isDyn_eq hr, hdyn]
    cases hd : d.isDyn
    · exact copyAssign_ok hSS h hx hy ht (hdyn.trans hd) hr
    · exact ⟨rfl, h⟩
  | assign x y =>
    obtain ⟨c, d, hx, hy⟩ := hal
    obtain ⟨o, ho, hr⟩ := h.get hx
    obtain ⟨p, hp, hq⟩ := h.get hy
    have hab : c = d ∨ Apart SS d c := by
      by_cases hxy : y = x
      · subst hxy; rw [hx] at hy; exact Or.inl (Option.some.inj hy)
      · exact Or.inr (h.apart _ _ _ _ hy hx hxy).1
    obtain ⟨t1, t2⟩ := C42_assign hSS c d w.mem hr.live hq.live hab hq.val
    unfold World.step specStep
    simp only [hx, hy, ho, hp, hr.rows, hr.cols, hq.rows, hq.cols]
    by_cases hbad : c.rows ≠ d.rows ∨ c.cols ≠ d.cols
    · rw [if_pos hbad, exec_throw (t1 hbad)]; exact ⟨rfl, h⟩
    · rw [if_neg hbad]
      obtain ⟨m', e1, e2, e3⟩ := t2 (by omega)
      have hnew := hr.elems e3 e2
      simp only [hr.rows, hr.cols] at hnew
      exact exec_ok hSS h hx e1 (fun _ => .done) (fun z hz => e3 z (fun he => hz (elem_storage hSS he))) hnew
  | fill x v =>
    obtain ⟨c, hx⟩ := hal
    obtain ⟨o, ho, hr⟩ := h.get hx
    unfold World.step specStep
    simp only [hx, ho]
    exact fill_ok hSS h hx hr v
  | set x i j v =>
    obtain ⟨c, hx, hi, hj⟩ := hal
    obtain ⟨o, ho, hr⟩ := h.get hx
    unfold World.step specStep
    simp only [hx, ho]
    exact set_ok hSS h hx hr hi hj v
  | get x i j =>
    obtain ⟨c, hx, hi, hj⟩ := hal
    obtain ⟨o, ho, hr⟩ := h.get hx
    unfold World.step specStep
    simp only [hx, ho]
    have : (c.get SS i j : Prog V V) w.mem = .ok (o.val i j) w.mem := by
      unfold Container.get Prog.read; rw [hr.val i j hi hj]
    rw [exec_read this]
    exact ⟨rfl, h⟩
  | equal x y =>
    obtain ⟨c, d, hx, hy⟩ := hal
    obtain ⟨o, ho, hr⟩ := h.get hx
    obtain ⟨p, hp, hq⟩ := h.get hy
    obtain ⟨t1, t2⟩ := C42_equality c d w.mem hr.val hq.val
    unfold World.step specStep
    simp only [hx, hy, ho, hp, hr.rows, hr.cols, hq.rows, hq.cols]
    by_cases hbad : c.rows ≠ d.rows ∨ c.cols ≠ d.cols
    · rw [if_pos hbad, exec_throw (t1 hbad)]; exact ⟨rfl, h⟩
    · rw [if_neg hbad]
      obtain ⟨r, e1, e2⟩ := t2 (by omega)
      rw [exec_read e1]
      refine ⟨?_, h⟩
      show Outcome.flag r = Outcome.flag _
      congr 1
      rw [Bool.eq_iff_iff, e2, decide_eq_true_iff]
      exact ⟨fun g i hi j hj => g i j hi hj, fun g i j hi hj => g i hi j hj⟩
  | reset x =>
    obtain ⟨c, hx, hok⟩ := hal
    obtain ⟨o, ho, hr⟩ := h.get hx
    unfold World.step specStep
    simp only [hx, ho]
    exact reset_ok hSS h hx hr hok
  | gemm alpha xa xb beta xc xd =>
    obtain ⟨had, hbd, A, B, C, D, hA, hB, hC, hD, sA, sC, sD⟩ := hal
    obtain ⟨oA, pA, rA⟩ := h.get hA
    obtain ⟨oB, pB, rB⟩ := h.get hB
    obtain ⟨oC, pC, rC⟩ := h.get hC
    obtain ⟨oD, pD, rD⟩ := h.get hD
    obtain ⟨t1, t2⟩ := gemm_ok hSS h hA hB hC hD had hbd sA sC sD rA rB rC rD alpha beta
    simp only [rD.rows, rD.cols] at t2
    unfold World.step specStep
    simp only [hA, hB, hC, hD, pA, pB, pC, pD, rA.rows, rA.cols, rB.rows, rB.cols, rC.rows, rC.cols, rD.rows, rD.cols]
    by_cases hs : B.rows = A.cols ∧ (C.rows = A.rows ∧ C.cols = B.cols) ∧ (D.rows = A.rows ∧ D.cols = B.cols)
    · rw [if_pos hs]; exact t2 hs
    · rw [if_neg hs, t1 hs]; exact ⟨rfl, h⟩
  | destroy x =>
    obtain ⟨c, hx⟩ := hal
    have hrem := h.remove hSS hx
    unfold World.step specStep
    simp only [hx]
    cases hd : c.isDyn
    · rw [hd] at hrem
      exact ⟨rfl, hrem⟩
    · rw [hd] at hrem
      have hh : w.heap c.data = some ⟨c.capacity SS, true⟩ := (h.heap _ _).2 ⟨x, c, hx, hd, rfl, rfl⟩
      have hdel : w.delete false c.data = (.done, { w with
          mem := fun z => if c.data ≤ z ∧ z < c.data + c.capacity SS then none else w.mem z
          heap := fun p => if p = c.data then none else w.heap p }) := by
        unfold World.delete; rw [hh]; rfl
      rw [if_pos rfl, hdel]
      exact ⟨rfl, hrem⟩

/-! ### C52: histories -/

theorem empty_represents {SS : Nat} : Represents SS (World.empty : World V) (fun _ => none) := by
  refine ⟨fun x => trivial, fun x y c d hx => (by cases hx), fun z => ?_, fun p b => ?_⟩
  · constructor
    · intro h; cases h
    · rintro ⟨x, c, hx, _⟩; cases hx
  · constructor
    · intro h; cases h
    · rintro ⟨x, c, hx, _⟩; cases hx

theorem allowed_no_ub {SS : Nat} {w : World V} {a : AState V} (h : Represents SS w a) (op : Op V) (hal : Allowed SS w op) :
    (specStep a op).1 ≠ .ub := by
  cases op with
  | create x c => intro e; cases e
  | createFill x c v => intro e; cases e
  | createList x c l =>
    unfold specStep
    by_cases hb : l.length ≠ c.rows ∨ ∃ r ∈ l, c.cols < r.length
    · simp only [if_pos hb]; intro e; cases e
    · simp only [if_neg hb]; intro e; cases e
  | copyCreate x y data =>
    obtain ⟨hx, d, hy, hfr⟩ := hal
    obtain ⟨o, ho, hr⟩ := h.get hy
    unfold specStep; simp only [ho]
    cases o.isDyn <;> (intro e; cases e)
  | moveCreate x y data =>
    obtain ⟨hx, d, hy, hfr⟩ := hal
    obtain ⟨o, ho, hr⟩ := h.get hy
    unfold specStep; simp only [ho]
    cases o.isDyn <;> (intro e; cases e)
  | copyAssign x y =>
    obtain ⟨c, d, hx, hy, ht⟩ := hal
    obtain ⟨o, ho, hr⟩ := h.get hy
    unfold specStep; simp only [ho]
    cases o.isDyn <;> (intro e; cases e)
  | moveAssign x y =>
    obtain ⟨c, d, hx, hy, ht⟩ := hal
    obtain ⟨o, ho, hr⟩ := h.get hy
    unfold specStep; simp only [ho]
    cases o.isDyn <;> (intro e; cases e)
  | assign x y =>
    obtain ⟨c, d, hx, hy⟩ := hal
    obtain ⟨o, ho, hr⟩ := h.get hx
    obtain ⟨p, hp, hq⟩ := h.get hy
    unfold specStep; simp only [ho, hp]
    split <;> (intro e; cases e)
  | fill x v =>
    obtain ⟨c, hx⟩ := hal
    obtain ⟨o, ho, hr⟩ := h.get hx
    unfold specStep; simp only [ho]; intro e; cases e
  | set x i j v =>
    obtain ⟨c, hx, hi, hj⟩ := hal
    obtain ⟨o, ho, hr⟩ := h.get hx
    unfold specStep; simp only [ho]; intro e; cases e
  | get x i j =>
    obtain ⟨c, hx, hi, hj⟩ := hal
    obtain ⟨o, ho, hr⟩ := h.get hx
    unfold specStep; simp only [ho]; intro e; cases e
  | equal x y =>
    obtain ⟨c, d, hx, hy⟩ := hal
    obtain ⟨o, ho, hr⟩ := h.get hx
    obtain ⟨p, hp, hq⟩ := h.get hy
    unfold specStep; simp only [ho, hp]
    split <;> (intro e; cases e)
  | reset x =>
    obtain ⟨c, hx, hok⟩ := hal
    obtain ⟨o, ho, hr⟩ := h.get hx
    unfold specStep; simp only [ho]; intro e; cases e
  | gemm alpha xa xb beta xc xd =>
    obtain ⟨had, hbd, A, B, C, D, hA, hB, hC, hD, sA, sC, sD⟩ := hal
    obtain ⟨oA, pA, rA⟩ := h.get hA
    obtain ⟨oB, pB, rB⟩ := h.get hB
    obtain ⟨oC, pC, rC⟩ := h.get hC
    obtain ⟨oD, pD, rD⟩ := h.get hD
    unfold specStep; simp only [pA, pB, pC, pD]
    split <;> (intro e; cases e)
  | destroy x => intro e; cases e

theorem run_represents {SS : Nat} (hSS : 0 < SS) (ops : List (Op V)) : ∀ {w : World V} {a : AState V}, Represents SS w a →
    Admissible false SS w ops →
    (w.run false SS ops).1 = (specRun a ops).1 ∧ Represents SS (w.run false SS ops).2 (specRun a ops).2 ∧
      Outcome.ub ∉ (w.run false SS ops).1 := by
  induction ops with
  | nil => intro w a h _; exact ⟨rfl, h, fun hm => by cases hm⟩
  | cons op ops ih =>
    intro w a h hal
    obtain ⟨h1, h2⟩ := hal
    obtain ⟨e1, e2⟩ := step_represents hSS h op h1
    have hub := allowed_no_ub h op h1
    unfold World.run specRun
    dsimp only
    rw [e1] at h2 ⊢
    cases hf : (specStep a op).1.final
    · obtain ⟨f1, f2, f3⟩ := ih e2 (h2 hf)
      simp only [Bool.false_eq_true, if_false]
      refine ⟨(by rw [f1]), f2, fun hm => ?_⟩
      rcases List.mem_cons.1 hm with e | e
      · exact hub e.symm
      · exact f3 e
    · simp only [if_true]
      exact ⟨trivial, e2, fun hm => hub (List.mem_singleton.1 hm).symm⟩

/-- **C52**. Every history of constructions, copies, moves, assignments, element accesses, comparisons, resets, matrix products and destructions of
matrix objects of the four classes behaves like the same history on values: the outcome of every step (value read, exception, termination) is the one
specified by `specStep`, no step has undefined behaviour, at the end every object contains its specified value, different objects do not
overlap, and memory and heap contain exactly the storage of the living objects. (`delete[]` of memory from the aligned `new[]` counts as correct here;
see `C52_mismatched_delete_refuted`.) -/
theorem C52_history {SS : Nat} (hSS : 0 < SS) (ops : List (Op V)) (h : Admissible false SS World.empty ops) :
    ((World.empty : World V).run false SS ops).1 = (specRun (fun _ => none) ops).1 ∧
    Represents SS ((World.empty : World V).run false SS ops).2 (specRun (fun _ => none) ops).2 ∧
    Outcome.ub ∉ ((World.empty : World V).run false SS ops).1 :=
  run_represents hSS ops empty_represents h

/-- **C52** (no leak). When all objects of a history are gone, all memory has been given back. -/
theorem C52_no_leak {SS : Nat} (hSS : 0 < SS) (ops : List (Op V)) (h : Admissible false SS World.empty ops)
    (hend : ∀ x, (specRun (fun _ => none) ops).2 x = none) :
    (∀ z, ((World.empty : World V).run false SS ops).2.mem z = none) ∧
    (∀ p, ((World.empty : World V).run false SS ops).2.heap p = none) := by
  obtain ⟨_, hr, _⟩ := C52_history hSS ops h
  have ho : ∀ x, ((World.empty : World V).run false SS ops).2.obj x = none := by
    intro x
    have := hr.objs x
    rw [hend x] at this
    cases hx : ((World.empty : World V).run false SS ops).2.obj x with
    | none => rfl
    | some c => rw [hx] at this; exact this.elim
  constructor
  · intro z
    cases hz : ((World.empty : World V).run false SS ops).2.mem z with
    | none => rfl
    | some v =>
      obtain ⟨x, c, hx, _⟩ := (hr.mem z).1 (by rw [hz]; rfl)
      rw [ho x] at hx; cases hx
  · intro p
    cases hp : ((World.empty : World V).run false SS ops).2.heap p with
    | none => rfl
    | some b =>
      obtain ⟨x, c, hx, _⟩ := (hr.heap p b).1 hp
      rw [ho x] at hx; cases hx

/-- **C52** (padding). In every history without `StaticMatrix(v)` the padding elements of all objects are 0 at every moment ("Initialize padding elements
to 0 to prevent denorms in calculations"). -/
theorem C52_padding_zero {SS : Nat} (hSS : 0 < SS) (ops : List (Op V)) (h : Admissible false SS World.empty ops)
    (hno : ∀ op ∈ ops, ∀ x c v, op ≠ .createFill x c v) :
    ∀ x c, ((World.empty : World V).run false SS ops).2.obj x = some c → ∀ z, c.Storage SS z → ¬ IsElem SS c z →
      ((World.empty : World V).run false SS ops).2.mem z = some Arith.zero := by
  obtain ⟨_, hr, _⟩ := C52_history hSS ops h
  have key : ∀ (ops : List (Op V)) (a : AState V), (∀ op ∈ ops, ∀ x c v, op ≠ .createFill x c v) →
      (∀ x o, a x = some o → o.pad = some Arith.zero) → ∀ x o, (specRun a ops).2 x = some o → o.pad = some Arith.zero := by
    intro ops
    induction ops with
    | nil => intro a _ h; exact h
    | cons op ops ih =>
      intro a hn ha
      have hupd : ∀ (y : Nat) (p : Option (AObj V)), (∀ q, p = some q → q.pad = some Arith.zero) →
          ∀ x o, upd a y p x = some o → o.pad = some Arith.zero := by
        intro y p hp x o hx
        unfold upd at hx
        by_cases hxy : x = y
        · rw [if_pos hxy] at hx; exact hp o hx
        · rw [if_neg hxy] at hx; exact ha x o hx
      have hstep : ∀ x o, (specStep a op).2 x = some o → o.pad = some Arith.zero := by
        have hn' := hn op (List.mem_cons_self ..)
        intro x o hx
        cases op <;> simp only [specStep] at hx <;> (repeat' split at hx) <;> first
          | exact ha x o hx
          | exact absurd rfl (hn' _ _ _)
          | exact hupd _ _ (fun q hq => by cases hq <;> first | rfl | exact ha _ _ (by assumption) | (dsimp only; exact ha _ _ (by assumption))) x o hx
      unfold specRun
      dsimp only
      cases (specStep a op).1.final
      · exact ih _ (fun o ho => hn o (List.mem_cons_of_mem _ ho)) hstep
      · exact hstep
  intro x c hx z hz he
  obtain ⟨o, ho, hro⟩ := hr.get hx
  exact hro.pad _ (key ops _ hno (fun x o hx => by cases hx) x o ho) z hz he

/-- **C52** (the destructors of the dynamic classes break a rule of C++). The storage comes from `new(std::align_val_t{…}) T[n]` and is released with plain
`delete[]`. If this mismatch is counted as the undefined behaviour it is, then constructing and destroying any DynamicMatrix or DynamicPanelMatrix
has undefined behaviour. -/
theorem C52_mismatched_delete_refuted {SS : Nat} (x : Nat) (c : Container) (hd : c.isDyn = true) :
    ((World.empty : World V).run true SS [.create x c, .destroy x]).1 = [.done, .ub] := by
  have e1 : (World.empty : World V).step true SS (.create x c) = (.done,
      ⟨zeroed SS (World.empty : World V).mem c, fun a => if a = c.data then some ⟨c.capacity SS, true⟩ else none, upd (World.empty : World V).obj x (some c)⟩) := by
    show (World.empty : World V).construct SS x c (pure ()) = _
    unfold World.construct
    rw [bind_ok (show (c.construct SS : Prog V Unit) (World.empty : World V).mem = .ok () (zeroed SS (World.empty : World V).mem c) from rfl), hd]
    rfl
  have e2 : ((World.mk (zeroed SS (World.empty : World V).mem c) (fun a => if a = c.data then some ⟨c.capacity SS, true⟩ else none)
      (upd (World.empty : World V).obj x (some c))).step true SS (.destroy x)).1 = .ub := by
    unfold World.step
    simp only [upd, if_true, hd]
    unfold World.delete
    simp
  unfold World.run
  rw [e1]
  simp only [Outcome.final, Bool.false_eq_true, if_false]
  unfold World.run
  dsimp only
  rw [e2]
  rfl

/-! ### An admissible history -/

theorem exec_obj {w : World V} {α : Type} (p : Prog V α) (k : α → Outcome V) : (w.exec p k).2.obj = w.obj := by
  unfold World.exec; split <;> rfl

theorem destroy_obj {strict : Bool} {SS : Nat} {w : World V} {x : Nat} {c : Container} (hx : w.obj x = some c)
    (h : (w.step strict SS (.destroy x)).1.final = false) : (w.step strict SS (.destroy x)).2.obj = upd w.obj x none := by
  unfold World.step at h ⊢
  simp only [hx] at h ⊢
  cases hd : c.isDyn
  · rfl
  · rw [hd, if_pos rfl] at h
    dsimp only at h
    rw [if_pos rfl]
    dsimp only
    rw [h]; rfl

/-- a dynamic dense, a static panel and a dynamic panel matrix are constructed, an element is assigned, their product is computed and compared, and all are
destroyed -/
def demoHistory : List (Op Rat) :=
  [.create 0 ⟨.dynDense, .columnMajor, 2, 3, 0⟩, .create 1 ⟨.statPanel, .rowMajor, 3, 2, 64⟩, .create 2 ⟨.dynPanel, .columnMajor, 2, 2, 128⟩,
   .set 0 1 2 5, .gemm 1 0 1 1 2 2, .equal 2 2, .reset 0, .destroy 1, .destroy 0, .destroy 2]

theorem exec_tail {strict : Bool} {SS : Nat} {f : Nat → Option Container} {ops : List (Op V)}
    (ht : ∀ w : World V, w.obj = f → Admissible strict SS w ops) (op : Op V) {α : Type} (p : World V → Prog V α) (k : α → Outcome V)
    (hop : ∀ w : World V, w.obj = f → w.step strict SS op = w.exec (p w) k) (hal : ∀ w : World V, w.obj = f → Allowed SS w op) :
    ∀ w : World V, w.obj = f → Admissible strict SS w (op :: ops) := fun w hw =>
  ⟨hal w hw, fun _ => ht _ (by rw [hop w hw, exec_obj, hw])⟩

theorem destroy_tail {strict : Bool} {SS : Nat} {f : Nat → Option Container} {ops : List (Op V)} (x : Nat) {c : Container} (hx : f x = some c)
    (ht : ∀ w : World V, w.obj = upd f x none → Admissible strict SS w ops) :
    ∀ w : World V, w.obj = f → Admissible strict SS w (.destroy x :: ops) := fun w hw =>
  ⟨⟨c, by rw [hw, hx]⟩, fun h => ht _ (by rw [destroy_obj (c := c) (by rw [hw, hx]) h, hw])⟩

def histA : Container := ⟨.dynDense, .columnMajor, 2, 3, 0⟩
def histB : Container := ⟨.statPanel, .rowMajor, 3, 2, 64⟩
def histC : Container := ⟨.dynPanel, .columnMajor, 2, 2, 128⟩

theorem demoHistory_admissible : Admissible false 4 (World.empty : World Rat) demoHistory := by
  have c0 : (⟨.dynDense, .columnMajor, 2, 3, 0⟩ : Container).capacity 4 = 12 := by decide
  have c1 : (⟨.statPanel, .rowMajor, 3, 2, 64⟩ : Container).capacity 4 = 12 := by decide
  let f := upd (upd (upd (fun _ => none) 0 (some histA)) 1 (some histB)) 2 (some histC)
  have f0 : f 0 = some histA := rfl
  have f1 : f 1 = some histB := rfl
  have f2 : f 2 = some histC := rfl
  have t1 : ∀ w : World Rat, w.obj = f → Admissible false 4 w [.destroy 1, .destroy 0, .destroy 2] :=
    destroy_tail 1 f1 (destroy_tail 0 (c := histA) rfl (destroy_tail 2 (c := histC) rfl (fun _ _ => trivial)))
  have t2 := exec_tail t1 (.reset 0) (fun _ => histA.reset 4) (fun _ => .done)
    (fun w hw => by simp only [World.step, hw, f0]) (fun w hw => ⟨histA, (by rw [hw]; exact f0), by decide, by decide⟩)
  have t3 := exec_tail t2 (.equal 2 2) (fun _ => eqMat 4 histC histC) (fun b => .flag b)
    (fun w hw => by simp only [World.step, hw, f2]) (fun w hw => ⟨histC, histC, (by rw [hw]; exact f2), (by rw [hw]; exact f2)⟩)
  have t4 := exec_tail t3 (.gemm 1 0 1 1 2 2) (fun _ => gemmMat 4 1 (histA.mat 4) (histB.mat 4) 1 (histC.mat 4) (histC.mat 4)) (fun _ => .done)
    (fun w hw => by simp only [World.step, hw, f0, f1, f2])
    (fun w hw => ⟨by decide, by decide, histA, histB, histC, histC, (by rw [hw]; exact f0), (by rw [hw]; exact f1), (by rw [hw]; exact f2), (by rw [hw]; exact f2), rfl, rfl, rfl⟩)
  have t5 := exec_tail t4 (.set 0 1 2 5) (fun _ => histA.set 4 1 2 5) (fun _ => .done)
    (fun w hw => by simp only [World.step, hw, f0]) (fun w hw => ⟨histA, (by rw [hw]; exact f0), by decide, by decide⟩)
  refine ⟨⟨rfl, by decide, fun z _ => rfl, fun _ => rfl⟩, fun _ => ⟨⟨rfl, by decide, fun z hz => ?_, fun h => by cases h⟩, fun _ =>
    ⟨⟨rfl, by decide, fun z hz => ?_, fun _ => rfl⟩, fun _ => t5 _ rfl⟩⟩⟩
  · have h1 : (64 : Int) ≤ z := hz.1
    exact if_neg (fun hc => by have := hc.2; rw [c0] at this; simp at this; omega)
  · have h1 : (128 : Int) ≤ z := hz.1
    exact (if_neg (fun hc => by have := hc.2; rw [c1] at this; simp at this; omega)).trans
      (if_neg (fun hc => by have := hc.2; rw [c0] at this; simp at this; omega))
end Blast
