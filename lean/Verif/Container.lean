import Verif.Gemm
/-
Matrix containers.

Models /repo/include/blast/math/dense/{Dynamic,Static}Matrix.hpp,
/repo/include/blast/math/panel/{Dynamic,Static}PanelMatrix.hpp,
/repo/include/blast/math/dense/StaticVector.hpp, /repo/include/blast/util/NextMultiple.hpp and the generic
functions in /repo/include/blast/math/Matrix.hpp.
-/
set_option linter.unusedSectionVars false
namespace Blast
open Prog
variable {V : Type} [Arith V]

/-- `nextMultiple`: util/NextMultiple.hpp:19-22 (`size_t` without overflow) -/
def nextMultiple (value factor : Nat) : Nat := value + (factor - value % factor) % factor

/-- the four matrix classes: dense/DynamicMatrix.hpp:27, dense/StaticMatrix.hpp:28, panel/DynamicPanelMatrix.hpp:35, panel/StaticPanelMatrix.hpp:36 -/
inductive Kind where
  | dynDense
  | statDense
  | dynPanel
  | statPanel
  deriving DecidableEq, Repr

/-- A matrix object: its class, storage order, size and the address `data()` of its storage: members of the classes: dense/DynamicMatrix.hpp:141-145, dense/StaticMatrix.hpp:152-160, panel/DynamicPanelMatrix.hpp:176-181, panel/StaticPanelMatrix.hpp:167-176 -/
structure Container where
  kind : Kind
  so : SO
  rows : Nat
  cols : Nat
  data : Int
  deriving DecidableEq, Repr

namespace Container

/-- panel matrix classes: panel/DynamicPanelMatrix.hpp:35, panel/StaticPanelMatrix.hpp:36 -/
def isPanel (c : Container) : Bool :=
  match c.kind with
  | .dynPanel => true
  | .statPanel => true
  | _ => false

/-- extent along the contiguous direction (`SO == columnMajor ? m : n`): dense/DynamicMatrix.hpp:36, dense/StaticMatrix.hpp:152, panel/DynamicPanelMatrix.hpp:61, panel/StaticPanelMatrix.hpp:167-170 -/
def majorSize (c : Container) : Nat := match c.so with | .columnMajor => c.rows | .rowMajor => c.cols

/-- extent along the other direction (`SO == columnMajor ? n : m`): dense/DynamicMatrix.hpp:39, dense/StaticMatrix.hpp:153, panel/DynamicPanelMatrix.hpp:60, panel/StaticPanelMatrix.hpp:169 -/
def minorSize (c : Container) : Nat := match c.so with | .columnMajor => c.cols | .rowMajor => c.rows

/-- `spacing_`: dense/DynamicMatrix.hpp:36, dense/StaticMatrix.hpp:152, panel/DynamicPanelMatrix.hpp:60,
panel/StaticPanelMatrix.hpp:169 -/
def spacing (SS : Nat) (c : Container) : Nat :=
  if c.isPanel then SS * c.minorSize else nextMultiple c.majorSize SS

/-- number of allocated elements: dense/DynamicMatrix.hpp:39, dense/StaticMatrix.hpp:153,
panel/DynamicPanelMatrix.hpp:61, panel/StaticPanelMatrix.hpp:166-170 -/
def capacity (SS : Nat) (c : Container) : Nat :=
  match c.kind with
  | .dynDense => c.spacing SS * c.minorSize
  | .statDense => c.spacing SS * c.minorSize
  | .dynPanel => c.spacing SS * nextMultiple c.majorSize SS
  | .statPanel => (c.majorSize / SS + (if c.majorSize % SS > 0 then 1 else 0)) * c.spacing SS

/-- `elementIndex(i, j)`: dense/DynamicMatrix.hpp:147-150, dense/StaticMatrix.hpp:162-165,
panel/DynamicPanelMatrix.hpp:184-189, panel/StaticPanelMatrix.hpp:179-184 -/
def elementIndex (SS : Nat) (c : Container) (i j : Nat) : Nat :=
  if c.isPanel then
    match c.so with
    | .columnMajor => i / SS * c.spacing SS + i % SS + j * SS
    | .rowMajor => j / SS * c.spacing SS + j % SS + i * SS
  else
    match c.so with
    | .columnMajor => i + j * c.spacing SS
    | .rowMajor => i * c.spacing SS + j

/-- address of `m(i, j)`: elementIndex in dense/DynamicMatrix.hpp:147-150, dense/StaticMatrix.hpp:164, panel/DynamicPanelMatrix.hpp:184-188, panel/StaticPanelMatrix.hpp:182-183 -/
def addr (SS : Nat) (c : Container) (i j : Nat) : Int := c.data + c.elementIndex SS i j

/-- flags of the pointers returned by `ptr(m)`: all four classes are declared aligned and padded
(dense/DynamicMatrix.hpp:208-213, dense/StaticMatrix.hpp, panel/*.hpp IsAligned/IsPadded = true) -/
def basePtr (SS : Nat) (c : Container) : MPtr :=
  { panel := c.isPanel, so := c.so, aligned := true, padded := true, ptr := c.data, spacing := c.spacing SS }

/-- `ptr<AF>(m, i, j)`: dense/DynamicMatrixPointer.hpp:242-263, dense/StaticMatrixPointer.hpp,
panel/DynamicPanelMatrixPointer.hpp:274-287 (constructor l.45-51 calls `ptrOffset`), panel/StaticPanelMatrixPointer.hpp -/
def ptrAt (SS : Nat) (c : Container) (aligned : Bool) (i j : Nat) : MPtr :=
  let p := { c.basePtr SS with aligned := aligned }
  if c.isPanel then { p with ptr := p.addr SS i j }
  else { p with ptr := match c.so with
      | .columnMajor => c.data + i + c.spacing SS * j
      | .rowMajor => c.data + c.spacing SS * i + j }

/-- `ptr(m)`: Matrix.hpp:30-34 -/
def mptr (SS : Nat) (c : Container) : MPtr := c.ptrAt SS true 0 0

/-- what the algorithms see of a matrix object: rows, columns, ptr: dense/DynamicMatrix.hpp:98-124, dense/StaticMatrix.hpp:112-138, panel/DynamicPanelMatrix.hpp:133-159, panel/StaticPanelMatrix.hpp:119-160 -/
def mat (SS : Nat) (c : Container) : Mat := ⟨c.mptr SS, c.rows, c.cols⟩

end Container

/-- `std::fill_n(base, n, v)`: used in dense/StaticMatrix.hpp:39, 45, 68, 147, dense/DynamicMatrix.hpp:133, panel/DynamicPanelMatrix.hpp:168, panel/StaticPanelMatrix.hpp:64, 70 -/
def fillN (base : Int) (n : Nat) (v : V) : Prog V Unit := forN n (fun k => write (base + k) v)

/-- `new T[n] {}` at the fresh address `base`: the cells become allocated and zero: dense/DynamicMatrix.hpp:39, panel/DynamicPanelMatrix.hpp:65 -/
def allocZero (base : Int) (n : Nat) : Prog V Unit := fun m =>
  .ok () (fun x => if base ≤ x ∧ x < base + n then some Arith.zero else m x)

namespace Container

/-- read `m(i, j)`: operator() const: dense/DynamicMatrix.hpp:86-89, dense/StaticMatrix.hpp:100-103, panel/DynamicPanelMatrix.hpp:121-124, panel/StaticPanelMatrix.hpp:107-110 -/
def get (SS : Nat) (c : Container) (i j : Nat) : Prog V V := read (c.addr SS i j)

/-- `m(i, j) = v`: operator(): dense/DynamicMatrix.hpp:92-95, dense/StaticMatrix.hpp:106-109, panel/DynamicPanelMatrix.hpp:127-130, panel/StaticPanelMatrix.hpp:113-116 -/
def set (SS : Nat) (c : Container) (i j : Nat) (v : V) : Prog V Unit := write (c.addr SS i j) v

/-- constructor of the dynamic classes (dense/DynamicMatrix.hpp:33-41, panel/DynamicPanelMatrix.hpp:57-67) and the
default constructor of the static ones (dense/StaticMatrix.hpp:35-40, panel/StaticPanelMatrix.hpp:60-65): the
whole storage, including padding, becomes 0. -/
def construct (SS : Nat) (c : Container) : Prog V Unit := allocZero c.data (c.capacity SS)

/-- `reset()`: dense/DynamicMatrix.hpp:131-134, dense/StaticMatrix.hpp:145-148,
panel/DynamicPanelMatrix.hpp:166-169. StaticPanelMatrix has no reset(); modelled as doing nothing. -/
def reset (SS : Nat) (c : Container) : Prog V Unit :=
  match c.kind with
  | .dynDense => fillN c.data (c.spacing SS * c.minorSize) Arith.zero
  | .statDense => fillN c.data (c.capacity SS) Arith.zero
  | .dynPanel => fillN c.data (c.spacing SS * c.minorSize) Arith.zero
  | .statPanel => pure ()

/-- `operator=(T val)`: dense/DynamicMatrix.hpp:62-69 and the same loop in the other classes -/
def assignScalar (SS : Nat) (c : Container) (v : V) : Prog V Unit :=
  forN c.rows (fun i => forN c.cols (fun j => c.set SS i j v))

/-- `determineColumns(list)` (Blaze): length of the longest row: used in dense/StaticMatrix.hpp:70, panel/StaticPanelMatrix.hpp:72 -/
def determineColumns (list : List (List V)) : Nat := list.foldl (fun n r => max n r.length) 0

/-- constructor from an initializer list: dense/StaticMatrix.hpp:66-87, panel/StaticPanelMatrix.hpp:68-89 -/
def initList (SS : Nat) (c : Container) (list : List (List V)) : Prog V Unit := do
  fillN c.data (c.capacity SS) Arith.zero
  if list.length ≠ c.rows ∨ c.cols < determineColumns list then throw .invalidArgument
  else forN list.length (fun i => forN (list.getD i []).length (fun j =>
    c.set SS i j ((list.getD i []).getD j Arith.zero)))

end Container

/-- generic `assign(a, b)`: Matrix.hpp:71-85 -/
def assignMat (SS : Nat) (a b : Container) : Prog V Unit :=
  if a.rows ≠ b.rows ∨ a.cols ≠ b.cols then throw .invalidArgument
  else forN a.rows (fun i => forN a.cols (fun j => do
    let v ← b.get SS i j
    a.set SS i j v))

/-- generic `operator==(a, b)`: Matrix.hpp:53-68. `for … if (…) return false` is a fold with a flag:
once `false`, no further element is read. -/
def eqMat (SS : Nat) (a b : Container) : Prog V Bool :=
  if a.rows ≠ b.rows ∨ a.cols ≠ b.cols then throw .invalidArgument
  else foldN a.rows (fun i r => foldN a.cols (fun j r =>
    if r then do
      let x ← a.get SS i j
      let y ← b.get SS i j
      pure (Arith.eq x y)
    else pure false) r) true

/-! ### nextMultiple -/

theorem nextMultiple_spec (v : Nat) {f : Nat} (hf : 0 < f) :
    nextMultiple v f % f = 0 ∧ v ≤ nextMultiple v f ∧ nextMultiple v f < v + f := by
  unfold nextMultiple
  have h1 := Nat.mod_lt v hf
  have h2 := Nat.div_add_mod v f
  by_cases h : v % f = 0
  · rw [h, Nat.sub_zero, Nat.mod_self]
    exact ⟨h, by omega, by omega⟩
  · rw [Nat.mod_eq_of_lt (show f - v % f < f by omega)]
    refine ⟨?_, by omega, by omega⟩
    have : v + (f - v % f) = (v / f + 1) * f := by
      rw [Nat.add_mul, Nat.mul_comm (v / f)]; omega
    rw [this]; exact Nat.mul_mod_left _ _

theorem nextMultiple_eq_roundUp (v : Nat) {f : Nat} (hf : 0 < f) : nextMultiple v f = roundUp v f := by
  obtain ⟨h1, h2, h3⟩ := nextMultiple_spec v hf
  have h4 : nextMultiple v f ≤ roundUp v f := le_roundUp hf h1 h3
  unfold roundUp at *
  have h5 := Nat.div_add_mod (v + f - 1) f
  have h6 : (v + f - 1) / f ≤ nextMultiple v f / f := by
    rw [Nat.div_le_iff_le_mul_add_pred hf]
    have := Nat.div_add_mod (nextMultiple v f) f
    rw [h1] at this
    omega
  have h7 := Nat.mul_le_mul_right f h6
  have h8 := Nat.div_add_mod (nextMultiple v f) f
  rw [Nat.mul_comm] at h8
  omega

/-! ### Addresses -/

namespace Container

theorem mptr_eq {SS : Nat} (c : Container) : c.mptr SS = c.basePtr SS := by
  obtain ⟨k, so, r, n, d⟩ := c
  unfold mptr ptrAt basePtr
  cases k <;> cases so <;> simp [isPanel, MPtr.addr]

/-- the address of `m(i,j)` is the one designated by `ptr(m)[i, j]` -/
theorem addr_eq_mptr {SS : Nat} (c : Container) (i j : Nat) :
    c.addr SS i j = (c.mptr SS).addr SS i j := by
  rw [mptr_eq]
  obtain ⟨k, so, r, n, d⟩ := c
  unfold addr elementIndex basePtr MPtr.addr
  cases k <;> cases so <;> simp [isPanel, spacing, minorSize, majorSize, Int.mul_comm] <;> omega

/-- `ptr(m, i, j)` points to `m(i,j)` -/
theorem ptrAt_ptr {SS : Nat} (c : Container) (al : Bool) (hal : c.data % (SS : Int) = 0) (i j : Nat) :
    (c.ptrAt SS al i j).ptr = c.addr SS i j := by
  rw [addr_eq_mptr, mptr_eq]
  unfold ptrAt basePtr MPtr.addr
  obtain ⟨k, so, r, n, d⟩ := c
  simp only at hal
  cases k <;> cases so <;> cases al <;> simp [isPanel, hal]

theorem spacing_mod {SS : Nat} (hSS : 0 < SS) (c : Container) : c.spacing SS % SS = 0 := by
  unfold spacing
  split
  · exact Nat.mul_mod_right _ _
  · exact (nextMultiple_spec _ hSS).1

/-- the pointer of a library matrix with SIMD-aligned storage is well-formed -/
theorem mptr_wf {SS : Nat} (hSS : 0 < SS) (c : Container) (hal : c.data % (SS : Int) = 0) :
    (c.mptr SS).WF SS := by
  rw [mptr_eq]
  intro _
  refine ⟨hal, ?_⟩
  show ((c.spacing SS : Nat) : Int) % (SS : Int) = 0
  exact cast_mod_zero (c.spacing_mod hSS)

/-- mixed radix: distinct digits give distinct numbers -/
theorem radix_inj {s a b a' b' : Nat} (ha : a < s) (ha' : a' < s) (h : a + b * s = a' + b' * s) :
    a = a' ∧ b = b' := by
  have h1 : (a + b * s) % s = (a' + b' * s) % s := by rw [h]
  rw [Nat.add_mul_mod_self_right, Nat.add_mul_mod_self_right, Nat.mod_eq_of_lt ha, Nat.mod_eq_of_lt ha'] at h1
  subst h1
  have h2 : b * s = b' * s := by omega
  exact ⟨rfl, Nat.eq_of_mul_eq_mul_right (by omega) h2⟩

/-- index along the major / minor direction -/
def maj (c : Container) (i j : Nat) : Nat := match c.so with | .columnMajor => i | .rowMajor => j
/-- minor index -/
def min' (c : Container) (i j : Nat) : Nat := match c.so with | .columnMajor => j | .rowMajor => i

theorem elementIndex_panel {SS : Nat} {c : Container} (h : c.isPanel = true) (i j : Nat) :
    c.elementIndex SS i j = c.maj i j / SS * (SS * c.minorSize) + c.maj i j % SS + c.min' i j * SS := by
  unfold elementIndex maj min' spacing
  rw [if_pos h, if_pos h]
  cases c.so <;> rfl

theorem elementIndex_dense {SS : Nat} {c : Container} (h : c.isPanel = false) (i j : Nat) :
    c.elementIndex SS i j = c.maj i j + c.min' i j * nextMultiple c.majorSize SS := by
  unfold elementIndex maj min' spacing
  rw [if_neg (by simp [h]), if_neg (by simp [h])]
  cases c.so
  · simp; omega
  · rfl

/-- The storage index of an element or of a padding element (major index up to the next multiple of SS)
is inside the allocated storage. -/
theorem elementIndex_lt {SS : Nat} (hSS : 0 < SS) (c : Container) {i j : Nat}
    (h1 : c.maj i j < nextMultiple c.majorSize SS) (h2 : c.min' i j < c.minorSize) :
    c.elementIndex SS i j < c.capacity SS := by
  obtain ⟨n1, n2, n3⟩ := nextMultiple_spec c.majorSize hSS
  cases hp : c.isPanel
  · rw [elementIndex_dense hp]
    have hcap : c.capacity SS = nextMultiple c.majorSize SS * c.minorSize := by
      unfold capacity spacing
      rw [if_neg (by simp [hp])]
      unfold isPanel at hp
      cases hk : c.kind <;> rw [hk] at hp <;> simp at hp <;> rfl
    rw [hcap]
    have := Nat.mul_le_mul_right (nextMultiple c.majorSize SS) (show c.min' i j + 1 ≤ c.minorSize from h2)
    rw [Nat.add_mul, Nat.mul_comm c.minorSize] at this
    omega
  · rw [elementIndex_panel hp]
    generalize hP : nextMultiple c.majorSize SS = P at *
    obtain ⟨q, hq⟩ : ∃ q, P = q * SS := ⟨P / SS, by
      have := Nat.div_add_mod P SS; rw [n1, Nat.mul_comm] at this; omega⟩
    have hmq : c.maj i j / SS < q := by
      rw [Nat.div_lt_iff_lt_mul hSS]; omega
    have hml := Nat.mod_lt (c.maj i j) hSS
    have hb : c.maj i j / SS * (SS * c.minorSize) + c.maj i j % SS + c.min' i j * SS < q * (SS * c.minorSize) := by
      have e1 := Nat.mul_le_mul_right (SS * c.minorSize) (show c.maj i j / SS + 1 ≤ q from hmq)
      rw [Nat.add_mul] at e1
      have e2 := Nat.mul_le_mul_right SS (show c.min' i j + 1 ≤ c.minorSize from h2)
      rw [Nat.add_mul, Nat.mul_comm c.minorSize] at e2
      omega
    refine Nat.lt_of_lt_of_le hb ?_
    have hsp : c.spacing SS = SS * c.minorSize := by unfold spacing; rw [if_pos hp]
    unfold isPanel at hp
    unfold capacity
    rw [hsp]
    cases hk : c.kind <;> rw [hk] at hp <;> simp only [Bool.false_eq_true] at hp
    · simp only
      rw [hP, hq, Nat.mul_comm]
      exact Nat.mul_le_mul_left _ (Nat.le_mul_of_pos_right _ hSS)
    · simp only
      refine Nat.mul_le_mul_right _ ?_
      have hdm := Nat.div_add_mod c.majorSize SS
      have hml := Nat.mod_lt c.majorSize hSS
      by_cases h0 : c.majorSize % SS > 0
      · rw [if_pos h0]
        have : q * SS < (c.majorSize / SS + 1 + 1) * SS := by
          rw [Nat.add_mul, Nat.add_mul, Nat.mul_comm (c.majorSize / SS)]; omega
        have := Nat.lt_of_mul_lt_mul_right this
        omega
      · rw [if_neg h0]
        have : q * SS < (c.majorSize / SS + 1) * SS := by
          rw [Nat.add_mul, Nat.mul_comm (c.majorSize / SS)]; omega
        have := Nat.lt_of_mul_lt_mul_right this
        omega

/-- Distinct elements (including padding elements) have distinct storage indices. -/
theorem elementIndex_inj {SS : Nat} (hSS : 0 < SS) (c : Container) {i j i' j' : Nat}
    (h1 : c.maj i j < nextMultiple c.majorSize SS) (h2 : c.min' i j < c.minorSize)
    (h1' : c.maj i' j' < nextMultiple c.majorSize SS) (h2' : c.min' i' j' < c.minorSize)
    (h : c.elementIndex SS i j = c.elementIndex SS i' j') : i = i' ∧ j = j' := by
  have key : c.maj i j = c.maj i' j' ∧ c.min' i j = c.min' i' j' := by
    cases hp : c.isPanel
    · rw [elementIndex_dense hp, elementIndex_dense hp] at h
      exact radix_inj h1 h1' h
    · rw [elementIndex_panel hp, elementIndex_panel hp] at h
      have hm := Nat.mod_lt (c.maj i j) hSS
      have hm' := Nat.mod_lt (c.maj i' j') hSS
      have h3 : (c.maj i j % SS + (c.min' i j + c.maj i j / SS * c.minorSize) * SS) =
          (c.maj i' j' % SS + (c.min' i' j' + c.maj i' j' / SS * c.minorSize) * SS) := by
        rw [Nat.add_mul, Nat.add_mul, Nat.mul_assoc, Nat.mul_assoc, Nat.mul_comm c.minorSize]
        omega
      obtain ⟨h4, h5⟩ := radix_inj hm hm' h3
      obtain ⟨h6, h7⟩ := radix_inj h2 h2' h5
      refine ⟨?_, h6⟩
      rw [← Nat.div_add_mod (c.maj i j) SS, ← Nat.div_add_mod (c.maj i' j') SS, h4, h7]
  unfold maj min' at key
  cases hs : c.so <;> rw [hs] at key <;> simp only at key
  · exact ⟨key.2, key.1⟩
  · exact key

theorem maj_lt {SS : Nat} (hSS : 0 < SS) (c : Container) {i j : Nat} (hi : i < c.rows) (hj : j < c.cols) :
    c.maj i j < nextMultiple c.majorSize SS ∧ c.min' i j < c.minorSize := by
  have h := (nextMultiple_spec c.majorSize hSS).2.1
  unfold maj min' majorSize minorSize at *
  cases hs : c.so <;> rw [hs] at h <;> simp only at * <;> exact ⟨by omega, by omega⟩

theorem inj {SS : Nat} (hSS : 0 < SS) (c : Container) : Inj SS (c.mptr SS) c.rows c.cols := by
  intro i j i' j' hi hj hi' hj' h
  rw [← addr_eq_mptr, ← addr_eq_mptr] at h
  unfold addr at h
  obtain ⟨a1, a2⟩ := c.maj_lt hSS hi hj
  obtain ⟨b1, b2⟩ := c.maj_lt hSS hi' hj'
  exact c.elementIndex_inj hSS a1 a2 b1 b2 (by omega)

/-- `x` is a cell of the storage of the matrix object -/
def Storage (SS : Nat) (c : Container) (x : Int) : Prop := c.data ≤ x ∧ x < c.data + c.capacity SS

theorem addr_storage {SS : Nat} (hSS : 0 < SS) (c : Container) {i j : Nat}
    (hi : i < c.rows) (hj : j < c.cols) : c.Storage SS (c.addr SS i j) := by
  obtain ⟨a1, a2⟩ := c.maj_lt hSS hi hj
  have := c.elementIndex_lt hSS a1 a2
  unfold Storage addr
  omega

/-- padding rows of a column-major matrix are inside its storage -/
theorem addr_storage_pad {SS : Nat} (hSS : 0 < SS) (c : Container) (hs : c.so = .columnMajor) {i j : Nat}
    (hi : i < roundUp c.rows SS) (hj : j < c.cols) : c.Storage SS (c.addr SS i j) := by
  have := c.elementIndex_lt (i := i) (j := j) hSS (by
      unfold maj majorSize; rw [hs]; simp only; rw [nextMultiple_eq_roundUp _ hSS]; exact hi)
    (by unfold min' minorSize; rw [hs]; exact hj)
  unfold Storage addr
  omega

end Container

/-- the storage of the matrix is allocated and SIMD-aligned (CACHE_LINE_SIZE alignment of the C++ classes) -/
structure Live (SS : Nat) (m : Mem V) (c : Container) : Prop where
  align : c.data % (SS : Int) = 0
  alloc : ∀ x, c.Storage SS x → (m x).isSome = true

/-- two matrix objects have disjoint storage -/
def Apart (SS : Nat) (c d : Container) : Prop := ∀ x, c.Storage SS x → ¬ d.Storage SS x

theorem Live.readable {SS : Nat} (hSS : 0 < SS) {m : Mem V} {c : Container} (h : Live SS m c) :
    Readable SS m (c.mptr SS) c.rows c.cols := by
  intro i j hi hj
  rw [← Container.addr_eq_mptr]
  exact h.alloc _ (c.addr_storage hSS hi hj)

theorem Live.readablePad {SS : Nat} (hSS : 0 < SS) {m : Mem V} {c : Container} (h : Live SS m c)
    (hs : c.so = .columnMajor) : Readable SS m (c.mptr SS) (roundUp c.rows SS) c.cols := by
  intro i j hi hj
  rw [← Container.addr_eq_mptr]
  exact h.alloc _ (c.addr_storage_pad hSS hs hi hj)

theorem Apart.disj {SS : Nat} (hSS : 0 < SS) {c d : Container} (h : Apart SS c d) :
    Disj SS (c.mptr SS) c.rows c.cols (d.mptr SS) d.rows d.cols := by
  intro i j i' j' hi hj hi' hj' he
  rw [← Container.addr_eq_mptr, ← Container.addr_eq_mptr] at he
  refine h _ (c.addr_storage hSS hi hj) ?_
  rw [he]
  exact d.addr_storage hSS hi' hj'

end Blast
