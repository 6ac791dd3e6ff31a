import Verif.ContainerLemmas
import Verif.VecPointer
/-
Views: submatrices, rows, transposes.

Models /repo/include/blast/math/views/Submatrix.hpp, /repo/include/blast/math/views/Row.hpp,
/repo/include/blast/math/expressions/{MatTransExpr,PMatTransExpr}.hpp and
/repo/include/blast/math/views/submatrix/Panel.hpp, /repo/include/blast/math/views/row/Panel.hpp.
-/
set_option linter.unusedSectionVars false
namespace Blast
open Prog
variable {V : Type} [Arith V]

/-- A matrix or a matrix expression that refers to the storage of a matrix object:
`obj c` is the object itself, `sub e af i j m n` is `Submatrix<MT, AF>` (views/Submatrix.hpp:23-166, members
`matrix_, i_, j_, m_, n_, data_`), `tr e` is `MatTransExpr<MT>` (expressions/MatTransExpr.hpp:22-127) or
`PMatTransExpr` (expressions/PMatTransExpr.hpp:48-204). The grammar is more permissive than the C++ types:
a `Submatrix` of a `MatTransExpr` does not compile (the constructor takes the address of a temporary). -/
inductive MExpr where
  | obj (c : Container)
  | sub (e : MExpr) (af : Bool) (i j m n : Nat)
  | tr (e : MExpr)
  deriving DecidableEq, Repr

namespace MExpr

/-- the matrix object whose storage is referred to -/
def base : MExpr → Container
  | obj c => c
  | sub e _ _ _ _ _ => e.base
  | tr e => e.base

/-- (`rows(m)`, `columns(m)`): Submatrix.hpp:97-106, MatTransExpr.hpp:57-73, PMatTransExpr.hpp:117-120,149-152 -/
def size : MExpr → Nat × Nat
  | obj c => (c.rows, c.cols)
  | sub _ _ _ _ m n => (m, n)
  | tr e => (e.size.2, e.size.1)

/-- rows() of a matrix expression: views/submatrix/Panel.hpp, expressions/MatTransExpr.hpp, expressions/PMatTransExpr.hpp -/
def rows (e : MExpr) : Nat := e.size.1
/-- columns() of a matrix expression: views/submatrix/Panel.hpp, expressions/MatTransExpr.hpp, expressions/PMatTransExpr.hpp -/
def cols (e : MExpr) : Nat := e.size.2

/-- `StorageOrder_v`: Submatrix.hpp:216-217, MatTransExpr.hpp:221-222, PMatTransExpr.hpp:274-275 -/
def so : MExpr → SO
  | obj c => c.so
  | sub e _ _ _ _ _ => e.so
  | tr e => e.so.flip

/-- whether the pointer type of the expression is a panel pointer (IsPanelMatrix / IsDenseMatrix: Submatrix.hpp:195-196,
MatTransExpr.hpp:194-204, PMatTransExpr.hpp:243) -/
def isPanel (e : MExpr) : Bool := e.base.isPanel

/-- `IsAligned_v`: Submatrix.hpp:172-173 (`AF`), MatTransExpr.hpp:167-168, PMatTransExpr.hpp:250-251 -/
def aligned : MExpr → Bool
  | obj _ => true
  | sub _ af _ _ _ _ => af
  | tr e => e.aligned

/-- `IsPadded_v`: Submatrix.hpp:181-182 (never), MatTransExpr.hpp:176-177, PMatTransExpr.hpp:254-255 -/
def padded : MExpr → Bool
  | obj _ => true
  | sub _ _ _ _ _ _ => false
  | tr e => e.padded

/-- `spacing(m)`: Submatrix.hpp:121-124, MatTransExpr.hpp:109-112, PMatTransExpr.hpp:159-162 -/
def spacing (SS : Nat) : MExpr → Nat
  | obj c => c.spacing SS
  | sub e _ _ _ _ _ => e.spacing SS
  | tr e => e.spacing SS

/-- address of `m(i, j)`: Submatrix.hpp:127-142 (`matrix_(i_ + i, j_ + j)`), MatTransExpr.hpp:42-47,
PMatTransExpr.hpp:85-90 (`m_(j, i)`) -/
def addr (SS : Nat) : MExpr → Nat → Nat → Int
  | obj c, i, j => c.addr SS i j
  | sub e _ i0 j0 _ _, i, j => e.addr SS (i0 + i) (j0 + j)
  | tr e, i, j => e.addr SS j i

/-- `data(m)`: Submatrix.hpp:56 (`data_ {&matrix_(i_, j_)}`), 143-152; MatTransExpr.hpp:83-99; PMatTransExpr.hpp:128-142 -/
def data (SS : Nat) : MExpr → Int
  | obj c => c.data
  | sub e _ i j _ _ => e.addr SS i j
  | tr e => e.data SS

/-- `ptr<AF>(m, i, j)`: dense/DynamicMatrixPointer.hpp:242-263 (and StaticMatrixPointer.hpp), panel/DynamicPanelMatrixPointer.hpp:274-287
(the constructor l.44-50 calls `ptrOffset`) -/
def ptrAt (SS : Nat) (e : MExpr) (al : Bool) (i j : Nat) : MPtr :=
  let p : MPtr := { panel := e.isPanel, so := e.so, aligned := al, padded := e.padded, ptr := e.data SS,
                    spacing := e.spacing SS }
  if e.isPanel then { p with ptr := p.addr SS i j }
  else { p with ptr := match e.so with
      | .columnMajor => e.data SS + i + e.spacing SS * j
      | .rowMajor => e.data SS + e.spacing SS * i + j }

/-- `ptr(m)`: Matrix.hpp:30-50 -/
def mptr (SS : Nat) (e : MExpr) : MPtr := e.ptrAt SS e.aligned 0 0

/-- what the algorithms see of a matrix expression -/
def mat (SS : Nat) (e : MExpr) : Mat := ⟨e.mptr SS, e.rows, e.cols⟩

/-- What syrkLower and potrf see of a matrix or submatrix: they use `ptr<aligned>(…)` whatever the alignment flag of their argument is
(dense/Syrk.hpp:48-142, dense/Potrf.hpp:35-61) -/
def matAl (SS : Nat) (e : MExpr) : Mat := ⟨e.ptrAt SS true 0 0, e.rows, e.cols⟩

/-- `submatrix<AF>(m, i, j, m, n)`: Submatrix.hpp:234-282. A submatrix of a submatrix refers to the operand, with the
offsets added (l.258-261, 279-282). The bounds are only checked by BLAST_USER_ASSERT (nothing in a release build). -/
def submatrix (af : Bool) (e : MExpr) (i j m n : Nat) : MExpr :=
  match e with
  | sub e' _ i' j' _ _ => sub e' af (i' + i) (j' + j) m n
  | e => sub e af i j m n

/-- `trans(m)`: MatTransExpr.hpp:139-159; the transpose of a transpose is its operand (l.156-159) -/
def trans (e : MExpr) : MExpr :=
  match e with
  | tr e' => e'
  | e => tr e

/-- read `m(i, j)` -/
def get (SS : Nat) (e : MExpr) (i j : Nat) : Prog V V := read (e.addr SS i j)

/-- `m(i, j) = v` -/
def set (SS : Nat) (e : MExpr) (i j : Nat) (v : V) : Prog V Unit := write (e.addr SS i j) v

/-- `reset(Submatrix&)`: Submatrix.hpp:290-296 -/
def resetView (SS : Nat) (e : MExpr) : Prog V Unit :=
  forN e.rows (fun i => forN e.cols (fun j => e.set SS i j Arith.zero))

/-- `reset(m)`: of an object, dense/DynamicMatrix.hpp:190-193, dense/StaticMatrix.hpp:198-201, DynamicPanelMatrix's member; of a view,
Submatrix.hpp:290-296. (There is none for a transpose expression.) -/
def reset (SS : Nat) (e : MExpr) : Prog V Unit :=
  match e with
  | obj c => c.reset SS
  | e => e.resetView SS

/-- generic `assign(a, b)`: Matrix.hpp:71-85, and `Submatrix::operator=` (Submatrix.hpp:77-82) -/
def assign (SS : Nat) (a b : MExpr) : Prog V Unit :=
  if a.rows ≠ b.rows ∨ a.cols ≠ b.cols then throw .invalidArgument
  else forN a.rows (fun i => forN a.cols (fun j => do
    let v ← b.get SS i j
    a.set SS i j v))

/-- all submatrix specifications in the expression are inside the matrix they view (what the BLAST_USER_ASSERTs of
Submatrix.hpp:58-59 demand) -/
def Fits : MExpr → Prop
  | obj _ => True
  | sub e _ i j m n => e.Fits ∧ i + m ≤ e.rows ∧ j + n ≤ e.cols
  | tr e => e.Fits

end MExpr

/-- `Row<MT>`: views/Row.hpp:27-158 (members `matrix_, i_, j_, n_`) -/
structure RowView where
  m : MExpr
  i : Nat
  j : Nat
  n : Nat
  deriving DecidableEq, Repr

namespace RowView

/-- `row(m, i)`: Row.hpp:238-242 -/
def full (m : MExpr) (i : Nat) : RowView := ⟨m, i, 0, m.cols⟩

/-- `row(m, i, j, n)`: Row.hpp:257-261 -/
def part (m : MExpr) (i j n : Nat) : RowView := ⟨m, i, j, n⟩

/-- `subvector(row, j, n)`: Row.hpp:133-149 -/
def subvector (r : RowView) (j n : Nat) : RowView := ⟨r.m, r.i, r.j + j, n⟩

/-- address of `row[j]`: Row.hpp:92-105 -/
def addr (SS : Nat) (r : RowView) (j : Nat) : Int := r.m.addr SS r.i (r.j + j)

/-- the run-time spacing between consecutive elements of a row of a dense matrix or of a column-major panel matrix:
Row.hpp:215-225 (`Spacing<Row<MT>>`; for dense column-major matrices the spacing of the matrix, `1` for row-major,
the SIMD size for column-major panel matrices) -/
def spacing (SS : Nat) (r : RowView) : Nat :=
  if r.m.isPanel then SS else match r.m.so with | .rowMajor => 1 | .columnMajor => r.m.spacing SS

/-- `IsAligned_v<Row<MT>>`: Row.hpp:164-165 -/
def aligned (r : RowView) : Bool := r.m.aligned && r.m.padded

/-- `ptr<AF>(row, j)`: dense/StaticVectorPointer.hpp:237-265, dense/DynamicVectorPointer.hpp:216-244: `{&v[j], spacing(v)}` -/
def ptrAt (SS : Nat) (r : RowView) (al isStatic : Bool) (j : Nat) : VPtr :=
  .vec isStatic al (r.addr SS j) (r.spacing SS)

/-- `reset(Row&)`: Row.hpp:269-274 -/
def reset (SS : Nat) (r : RowView) : Prog V Unit := forN r.n (fun j => write (r.addr SS j) Arith.zero)

/-- what the BLAST_USER_ASSERTs of Row.hpp:64-66 demand -/
def Fits (r : RowView) : Prop := r.m.Fits ∧ r.i < r.m.rows ∧ r.j + r.n ≤ r.m.cols

end RowView

/-! ### Checked views of panel matrices -/

/-- `size_t` addition -/
def wadd (a b : Nat) : Nat := (a + b) % 2 ^ 64

/-- `PanelSubmatrix<MT, SO>`: views/submatrix/Panel.hpp:43-267 (members `matrix_, i_, j_, m_, n_`; `matrix_` is a
panel matrix object, the constraint at l.265 excludes nesting) -/
structure PanelSub where
  m : Container
  i : Nat
  j : Nat
  nrows : Nat
  ncols : Nat
  deriving DecidableEq, Repr

/-- Constructor (checked): submatrix/Panel.hpp:83-111, called by `submatrix(PanelMatrix&, …)` (PanelMatrix.hpp:15-26). All index
arithmetic is on `size_t`. The address computed for `data_` (l.90) before the checks is not dereferenced; forming it is
not modelled. -/
def panelSubmatrix (SS : Nat) (c : Container) (i j m n : Nat) : Prog V PanelSub :=
  if wadd i m > c.rows ∨ wadd j n > c.cols then throw .invalidArgument
  else if c.so = .rowMajor ∧ j % SS > 0 then throw .logicError
  else if c.so = .columnMajor ∧ i % SS > 0 then throw .logicError
  else pure ⟨c, i, j, m, n⟩

namespace PanelSub

/-- `submatrix(PanelSubmatrix&, …)`: submatrix/Panel.hpp:270-281 -/
def submatrix (SS : Nat) (s : PanelSub) (i j m n : Nat) : Prog V PanelSub :=
  panelSubmatrix SS s.m (wadd s.i i) (wadd s.j j) m n

/-- address of `s(i, j)`: submatrix/Panel.hpp:185-200 -/
def addr (SS : Nat) (s : PanelSub) (i j : Nat) : Int := s.m.addr SS (wadd s.i i) (wadd s.j j)

/-- `s.at(i, j)` as a value: submatrix/Panel.hpp:203-224 -/
def at' (SS : Nat) (s : PanelSub) (i j : Nat) : Prog V V :=
  if i ≥ s.nrows then throw .outOfRange
  else if j ≥ s.ncols then throw .outOfRange
  else read (s.addr SS i j)

/-- `offset()`: submatrix/Panel.hpp:149-152. By the precedence of `==` and `?:` the expression is
`SO == ((columnMajor ? i_ : j_) % panelSize_)`, i.e. the truth value of `SO == i_ % panelSize_`
(StorageOrder.hpp: rowMajor = 0, columnMajor = 1). -/
def offset (SS : Nat) (s : PanelSub) : Nat :=
  if (match s.m.so with | .rowMajor => 0 | .columnMajor => 1) = s.i % SS then 1 else 0

end PanelSub

/-- `PMatTransExpr::at(i, j)`: expressions/PMatTransExpr.hpp:101-110 -/
def transAt (SS : Nat) (e : MExpr) (i j : Nat) : Prog V V :=
  if i ≥ e.cols then throw .outOfRange
  else if j ≥ e.rows then throw .outOfRange
  else read ((MExpr.tr e).addr SS i j)

/-- `PanelMatrixRow(m, i)` (checked): views/row/Panel.hpp:62-76, called by `row(PanelMatrix&, i)`
(PanelMatrix.hpp:29-40); as a view it is the full row. -/
def panelMatrixRow (c : Container) (i : Nat) : Prog V RowView :=
  if c.rows ≤ i then throw .invalidArgument else pure (RowView.full (.obj c) i)

/-! ### Addresses -/

namespace MExpr

/-- position in the matrix object of element `(i,j)` of the expression -/
def place : MExpr → Nat → Nat → Nat × Nat
  | obj _, i, j => (i, j)
  | sub e _ i0 j0 _ _, i, j => e.place (i0 + i) (j0 + j)
  | tr e, i, j => e.place j i

/-- whether the expression is transposed with respect to its object -/
def flipped : MExpr → Bool
  | obj _ => false
  | sub e _ _ _ _ _ => e.flipped
  | tr e => !e.flipped

theorem addr_place {SS : Nat} (e : MExpr) (i j : Nat) :
    e.addr SS i j = e.base.addr SS (e.place i j).1 (e.place i j).2 := by
  induction e generalizing i j with
  | obj c => rfl
  | sub e af i0 j0 m n ih => exact ih _ _
  | tr e ih => exact ih _ _

theorem place_affine (e : MExpr) (i j : Nat) :
    e.place i j = if e.flipped then ((e.place 0 0).1 + j, (e.place 0 0).2 + i)
      else ((e.place 0 0).1 + i, (e.place 0 0).2 + j) := by
  induction e generalizing i j with
  | obj c => simp [place, flipped]
  | sub e af i0 j0 m n ih =>
    unfold place flipped
    rw [ih (i0 + i), ih (i0 + 0)]
    cases e.flipped <;> simp <;> omega
  | tr e ih =>
    unfold place flipped
    rw [ih j]
    cases e.flipped <;> simp

theorem place_lt (e : MExpr) (hf : e.Fits) {i j : Nat} (hi : i < e.rows) (hj : j < e.cols) :
    (e.place i j).1 < e.base.rows ∧ (e.place i j).2 < e.base.cols := by
  induction e generalizing i j with
  | obj c => exact ⟨hi, hj⟩
  | sub e af i0 j0 m n ih =>
    obtain ⟨h1, h2, h3⟩ := hf
    have hi' : i < m := hi
    have hj' : j < n := hj
    exact ih h1 (by omega) (by omega)
  | tr e ih => exact ih hf hj hi

theorem place_inj (e : MExpr) {i j i' j' : Nat} (h : e.place i j = e.place i' j') : i = i' ∧ j = j' := by
  rw [place_affine, place_affine e i' j'] at h
  cases hf : e.flipped <;> rw [hf] at h <;> simp at h <;> omega

theorem addr_inj {SS : Nat} (hSS : 0 < SS) (e : MExpr) (hf : e.Fits) {i j i' j' : Nat}
    (hi : i < e.rows) (hj : j < e.cols) (hi' : i' < e.rows) (hj' : j' < e.cols)
    (h : e.addr SS i j = e.addr SS i' j') : i = i' ∧ j = j' := by
  rw [addr_place, addr_place e i' j'] at h
  obtain ⟨a, b⟩ := e.place_lt hf hi hj
  obtain ⟨a', b'⟩ := e.place_lt hf hi' hj'
  have := e.base.inj hSS _ _ _ _ a b a' b'
  rw [← Container.addr_eq_mptr, ← Container.addr_eq_mptr] at this
  obtain ⟨h1, h2⟩ := this h
  exact e.place_inj (Prod.ext h1 h2)

theorem addr_storage {SS : Nat} (hSS : 0 < SS) (e : MExpr) (hf : e.Fits) {i j : Nat}
    (hi : i < e.rows) (hj : j < e.cols) : e.base.Storage SS (e.addr SS i j) := by
  obtain ⟨a, b⟩ := e.place_lt hf hi hj
  rw [addr_place]
  exact e.base.addr_storage hSS a b

theorem spacing_base {SS : Nat} (e : MExpr) : e.spacing SS = e.base.spacing SS := by
  induction e with
  | obj c => rfl
  | sub e _ _ _ _ _ ih => exact ih
  | tr e ih => exact ih

theorem data_eq {SS : Nat} (hSS : 0 < SS) (e : MExpr) : e.data SS = e.addr SS 0 0 := by
  induction e with
  | obj c =>
    rw [addr, Container.addr_eq_mptr, Container.mptr_eq]
    exact (MPtr.addr_zero hSS (c.basePtr SS)).symm
  | sub e af i0 j0 m n ih => rfl
  | tr e ih => exact ih

theorem so_base (e : MExpr) : e.so = if e.flipped then e.base.so.flip else e.base.so := by
  induction e with
  | obj c => rfl
  | sub e _ _ _ _ _ ih => exact ih
  | tr e ih =>
    unfold so flipped base
    rw [ih]
    cases e.flipped <;> cases e.base.so <;> rfl

theorem mptr_fields {SS : Nat} (hSS : 0 < SS) (e : MExpr) :
    e.mptr SS = { panel := e.isPanel, so := e.so, aligned := e.aligned, padded := e.padded, ptr := e.data SS,
                  spacing := e.spacing SS } := by
  unfold mptr ptrAt
  cases hp : e.isPanel
  · cases hs : e.so <;> simp
  · simp only [if_true]
    congr 1
    exact MPtr.addr_zero hSS _

/-- address in a dense object, by strides -/
theorem dense_addr {SS : Nat} (c : Container) (hd : c.isPanel = false) (i j : Nat) :
    c.addr SS i j = match c.so with
      | .columnMajor => c.data + i + (c.spacing SS : Int) * j
      | .rowMajor => c.data + (c.spacing SS : Int) * i + j := by
  rw [Container.addr_eq_mptr, Container.mptr_eq]
  unfold Container.basePtr MPtr.addr
  simp only [hd]
  cases c.so <;> simp

/-- `ptr(e)[i, j]` is `e(i, j)` for every view of a dense matrix -/
theorem mptr_addr_dense {SS : Nat} (hSS : 0 < SS) (e : MExpr) (hd : e.isPanel = false) (i j : Nat) :
    (e.mptr SS).addr SS i j = e.addr SS i j := by
  rw [mptr_fields hSS, data_eq hSS]
  have hb : e.base.isPanel = false := hd
  unfold MPtr.addr
  simp only [hd]
  rw [addr_place, addr_place e i j, place_affine e i j, dense_addr _ hb, dense_addr _ hb, so_base, spacing_base]
  cases hf : e.flipped <;> cases hs : e.base.so <;> simp [SO.flip] <;> grind

/-- `ptr(e)[i, j]` is `e(i, j)` for a view of a panel matrix that starts on a panel boundary, if the object is aligned -/
theorem mptr_addr_panel {SS : Nat} (hSS : 0 < SS) (e : MExpr) (hp : e.isPanel = true)
    (hal : e.base.data % (SS : Int) = 0)
    (hb : e.base.maj (e.place 0 0).1 (e.place 0 0).2 % SS = 0) (i j : Nat) :
    (e.mptr SS).addr SS i j = e.addr SS i j := by
  rw [mptr_fields hSS, data_eq hSS]
  have hpb : e.base.isPanel = true := hp
  have hidx : ∀ i j, e.base.addr SS i j = e.base.data + (e.base.maj i j / SS * e.base.spacing SS + e.base.maj i j % SS
      + e.base.min' i j * SS : Nat) := by
    intro i j
    unfold Container.addr
    rw [Container.elementIndex_panel hpb]
    have : e.base.spacing SS = SS * e.base.minorSize := by unfold Container.spacing; rw [if_pos hpb]
    rw [this]
  have hsp := e.base.spacing_mod hSS
  obtain ⟨q, hq⟩ : ∃ q, e.base.spacing SS = SS * q := ⟨_, (Nat.mul_div_cancel' (Nat.dvd_of_mod_eq_zero hsp)).symm⟩
  have hmod : (e.addr SS 0 0) % (SS : Int) = 0 := by
    rw [addr_place, hidx, hb, hq, Nat.add_zero]
    generalize e.base.maj (e.place 0 0).1 (e.place 0 0).2 / SS = a
    generalize e.base.min' (e.place 0 0).1 (e.place 0 0).2 = b
    rw [show a * (SS * q) + b * SS = SS * (a * q + b) by grind]
    rw [Int.natCast_mul, Int.add_mul_emod_self_left]
    exact hal
  unfold MPtr.addr
  simp only [hp, if_true, hmod, ite_self, Int.sub_zero, Int.add_zero]
  rw [addr_place, addr_place e i j, place_affine e i j, hidx, hidx, so_base, spacing_base]
  clear hmod hidx
  generalize e.place 0 0 = o at hb ⊢
  have hdiv : ∀ a b : Nat, a % SS = 0 → (a + b) / SS = a / SS + b / SS ∧ (a + b) % SS = b % SS := by
    intro a b ha
    obtain ⟨q, rfl⟩ := Nat.dvd_of_mod_eq_zero ha
    rw [Nat.mul_add_div hSS, Nat.mul_div_cancel_left _ hSS]
    refine ⟨rfl, ?_⟩
    rw [Nat.mul_add_mod]
  unfold Container.maj Container.min' at *
  have c1 : ∀ a : Nat, (a : Int) / (SS : Int) = ((a / SS : Nat) : Int) := fun a => rfl
  have c2 : ∀ a : Nat, (a : Int) % (SS : Int) = ((a % SS : Nat) : Int) := fun a => rfl
  cases hf : e.flipped <;> cases hs : e.base.so <;> rw [hs] at hb <;>
    simp only [SO.flip, if_true, Bool.false_eq_true, if_false] at hb ⊢ <;>
    rw [c1, c2] <;> rw [(hdiv _ _ hb).1, (hdiv _ _ hb).2, hb] <;> simp only [Int.natCast_add, Int.natCast_mul] <;> grind

end MExpr

theorem RowView.addr_place {SS : Nat} (r : RowView) (j : Nat) :
    r.addr SS j = r.m.base.addr SS (r.m.place r.i (r.j + j)).1 (r.m.place r.i (r.j + j)).2 :=
  MExpr.addr_place _ _ _

/-- `ptr(row, j)[k]` is `row[j + k]`, for rows of dense matrices and of untransposed-view column-major panel matrices -/
theorem RowView.ptr_addr {SS : Nat} (r : RowView)
    (h : r.m.isPanel = true → r.m.so = .columnMajor) (al st : Bool) (j k : Nat) :
    (r.ptrAt SS al st j).addr SS k = r.addr SS (j + k) := by
  unfold RowView.ptrAt VPtr.addr
  simp only
  rw [RowView.addr_place, RowView.addr_place, MExpr.place_affine, MExpr.place_affine r.m r.i (r.j + (j + k))]
  unfold RowView.spacing
  cases hp : r.m.isPanel
  · have hb : r.m.base.isPanel = false := hp
    rw [MExpr.dense_addr _ hb, MExpr.dense_addr _ hb, MExpr.so_base, MExpr.spacing_base]
    cases hf : r.m.flipped <;> cases hs : r.m.base.so <;> simp [SO.flip] <;> grind
  · have hb : r.m.base.isPanel = true := hp
    have hso := h hp
    rw [MExpr.so_base] at hso
    unfold Container.addr
    rw [Container.elementIndex_panel hb, Container.elementIndex_panel hb]
    unfold Container.maj Container.min'
    cases hf : r.m.flipped <;> cases hs : r.m.base.so <;> rw [hf, hs] at hso <;> simp [SO.flip] at hso ⊢ <;> grind

end Blast
