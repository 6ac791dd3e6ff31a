import Verif.Simd
/-
Matrix pointers.

Models /repo/include/blast/math/dense/{Dynamic,Static}MatrixPointer.hpp,
/repo/include/blast/math/panel/{Dynamic,Static}PanelMatrixPointer.hpp.
Static and dynamic variants differ only in where the spacing is stored, so one structure
covers both.  BLAST_USER_ASSERTs (debug assertions) are not modelled; a misaligned access through
an aligned pointer is `ub` when it happens.  Pointer arithmetic is on unbounded integers.  In the
panel pointers `i / SS` and `i % SS` are computed in the unsigned 64-bit type; since SS is a power of two
and spacing is a multiple of SS this agrees modulo 2^64 with the Euclidean division used here.
-/
set_option linter.unusedSectionVars false
namespace Blast
open Prog
variable {V : Type} [Arith V]

/-- StorageOrder.hpp / blaze storage order flags. -/
inductive SO where
  | rowMajor
  | columnMajor
  deriving DecidableEq, Repr

/-- the other storage order: trans() in dense/DynamicMatrixPointer.hpp, dense/StaticMatrixPointer.hpp and the panel pointers -/
def SO.flip : SO → SO
  | .rowMajor => .columnMajor
  | .columnMajor => .rowMajor

/-- TransposeFlag.hpp -/
inductive TF where
  | rowVector
  | columnVector
  deriving DecidableEq, Repr

/-- Matrix pointer (template flags SO, AF, PF; members ptr_, spacing_):
dense/DynamicMatrixPointer.hpp:19-209, dense/StaticMatrixPointer.hpp, panel/DynamicPanelMatrixPointer.hpp:19-253,
panel/StaticPanelMatrixPointer.hpp. -/
structure MPtr where
  panel : Bool
  so : SO
  aligned : Bool
  padded : Bool
  ptr : Int
  spacing : Int
  deriving DecidableEq, Repr

namespace MPtr

/-- `ptrOffset`: dense/DynamicMatrixPointer.hpp:200-206, dense/StaticMatrixPointer.hpp:197-200,
panel/DynamicPanelMatrixPointer.hpp:224-241, panel/StaticPanelMatrixPointer.hpp:217-234.
This is also the address designated by `p[i, j]`. -/
def addr (SS : Nat) (p : MPtr) (i j : Int) : Int :=
  if p.panel then
    let rem := if p.aligned then 0 else p.ptr % (SS : Int)
    let base := p.ptr - rem
    match p.so with
    | .columnMajor => base + (i + rem) / (SS : Int) * p.spacing + (i + rem) % (SS : Int) + j * SS
    | .rowMajor => base + i * SS + (j + rem) / (SS : Int) * p.spacing + (j + rem) % (SS : Int)
  else
    match p.so with
    | .columnMajor => p.ptr + i + p.spacing * j
    | .rowMajor => p.ptr + p.spacing * i + j

/-- `operator()`: dense/DynamicMatrixPointer.hpp:110-113, panel/DynamicPanelMatrixPointer.hpp:126-129. -/
def off (SS : Nat) (p : MPtr) (i j : Int) : MPtr := { p with ptr := p.addr SS i j }

/-- `operator~`: dense/DynamicMatrixPointer.hpp:155-158; for panel pointers (l.171-174) it goes through the
constructor with offset (0,0), i.e. `ptrOffset(ptr, 0, 0)` of the unaligned type. -/
def unal (SS : Nat) (p : MPtr) : MPtr :=
  let q := { p with aligned := false }
  if p.panel then { q with ptr := q.addr SS 0 0 } else q

/-- `trans()`: dense/DynamicMatrixPointer.hpp:161-164; panel (l.177-180) through the constructor
with offset (0,0) of the transposed type. -/
def trans (SS : Nat) (p : MPtr) : MPtr :=
  let q := { p with so := p.so.flip }
  if p.panel then { q with ptr := q.addr SS 0 0 } else q

/-- `hmove`: dense/DynamicMatrixPointer.hpp:167-175, panel/DynamicPanelMatrixPointer.hpp:183-195. -/
def hmove (SS : Nat) (p : MPtr) (inc : Int) : MPtr :=
  if p.panel then
    match p.so with
    | .columnMajor => { p with ptr := p.ptr + SS * inc }
    | .rowMajor => { p with ptr := p.ptr + (p.spacing * (inc / (SS : Int)) + inc % (SS : Int)) }
  else
    match p.so with
    | .columnMajor => { p with ptr := p.ptr + p.spacing * inc }
    | .rowMajor => { p with ptr := p.ptr + inc }

/-- `vmove`: dense/DynamicMatrixPointer.hpp:178-186, panel/DynamicPanelMatrixPointer.hpp:198-210. -/
def vmove (SS : Nat) (p : MPtr) (inc : Int) : MPtr :=
  if p.panel then
    match p.so with
    | .rowMajor => { p with ptr := p.ptr + SS * inc }
    | .columnMajor => { p with ptr := p.ptr + (p.spacing * (inc / (SS : Int)) + inc % (SS : Int)) }
  else
    match p.so with
    | .rowMajor => { p with ptr := p.ptr + p.spacing * inc }
    | .columnMajor => { p with ptr := p.ptr + inc }

/-- `cachePreferredTraversal`: dense/DynamicMatrixPointer.hpp:32, panel/DynamicPanelMatrixPointer.hpp:32. -/
def cachePreferredTraversal (p : MPtr) : SO := if p.panel then p.so.flip else p.so

/-- `load()`: dense/DynamicMatrixPointer.hpp:54-57; panel/DynamicPanelMatrixPointer.hpp:56-68 (aligned: SIMD load;
unaligned: scalar gather through `~*this`). -/
def load (SS : Nat) (p : MPtr) : Prog V (Vec V) :=
  if p.panel && !p.aligned then
    match p.so with
    | .columnMajor => gather SS (fun _ => true) (fun l => (p.unal SS).addr SS l 0)
    | .rowMajor => gather SS (fun _ => true) (fun l => (p.unal SS).addr SS 0 l)
  else loadVec SS p.aligned p.ptr

/-- `load(mask)`: dense/DynamicMatrixPointer.hpp:60-63, panel/DynamicPanelMatrixPointer.hpp:71-74. -/
def loadMask (SS : Nat) (p : MPtr) (mask : Nat → Bool) : Prog V (Vec V) :=
  loadVecMask SS mask p.ptr

/-- orientation of the contiguous direction, dense/DynamicMatrixPointer.hpp:197. -/
def majorOrientation (p : MPtr) : TF :=
  match p.so with
  | .columnMajor => .columnVector
  | .rowMajor => .rowVector

/-- `load(orientation)`: dense/DynamicMatrixPointer.hpp:66-72, panel/StaticPanelMatrixPointer.hpp:73-79
(the dynamic panel version with an unaligned pointer does not compile). -/
def loadT (SS : Nat) (p : MPtr) (o : TF) : Prog V (Vec V) :=
  if o = p.majorOrientation then loadVec SS p.aligned p.ptr else throw .logicError

/-- `load(orientation, mask)`: dense/DynamicMatrixPointer.hpp:75-81, panel/DynamicPanelMatrixPointer.hpp:89-95. -/
def loadTMask (SS : Nat) (p : MPtr) (o : TF) (mask : Nat → Bool) : Prog V (Vec V) :=
  if o = p.majorOrientation then loadVecMask SS mask p.ptr else throw .logicError

/-- `store(val)`: dense/DynamicMatrixPointer.hpp:84-87, panel/DynamicPanelMatrixPointer.hpp:98-102
(panel: compiles only for aligned pointers). -/
def store (SS : Nat) (p : MPtr) (v : Vec V) : Prog V Unit := storeVec SS p.aligned p.ptr v

/-- `store(val, mask)`: dense/DynamicMatrixPointer.hpp:90-93, panel/DynamicPanelMatrixPointer.hpp:105-109. -/
def storeMask (SS : Nat) (p : MPtr) (v : Vec V) (mask : Nat → Bool) : Prog V Unit :=
  storeVecMask SS mask p.ptr v

/-- read `p[i, j]`: operator*: dense/DynamicMatrixPointer.hpp:146-149, dense/StaticMatrixPointer.hpp:141-144, panel/DynamicPanelMatrixPointer.hpp:162-165, panel/StaticPanelMatrixPointer.hpp:149-152 -/
def get (SS : Nat) (p : MPtr) (i j : Int) : Prog V V := read (p.addr SS i j)

/-- write `p[i, j] = v`: operator*: dense/DynamicMatrixPointer.hpp:135-138, dense/StaticMatrixPointer.hpp:130-133, panel/DynamicPanelMatrixPointer.hpp:151-154, panel/StaticPanelMatrixPointer.hpp:138-141 -/
def set (SS : Nat) (p : MPtr) (i j : Int) (v : V) : Prog V Unit := write (p.addr SS i j) v

/-! ### Well-formedness and address lemmas -/

/-- Geometry assumed of a pointer to the origin of a matrix: a pointer declared aligned, and
every panel pointer, starts at a SIMD boundary and has a spacing that is a multiple of SS. -/
def WF (SS : Nat) (p : MPtr) : Prop :=
  (p.aligned = true ∨ p.panel = true) → p.ptr % (SS : Int) = 0 ∧ p.spacing % (SS : Int) = 0

/-- this condition can be decided -/
instance (SS : Nat) (p : MPtr) : Decidable (WF SS p) := by unfold WF; infer_instance

/-- index along the contiguous (major) direction -/
def major (p : MPtr) (i j : Int) : Int :=
  match p.so with
  | .columnMajor => i
  | .rowMajor => j

theorem addr_dense_col {SS : Nat} {p : MPtr} (hp : p.panel = false) (hs : p.so = .columnMajor)
    (i j : Int) : p.addr SS i j = p.ptr + i + p.spacing * j := by
  simp [addr, hp, hs]

theorem addr_dense_row {SS : Nat} {p : MPtr} (hp : p.panel = false) (hs : p.so = .rowMajor)
    (i j : Int) : p.addr SS i j = p.ptr + p.spacing * i + j := by
  simp [addr, hp, hs]

theorem addr_panel_col {SS : Nat} {p : MPtr} (hp : p.panel = true) (hs : p.so = .columnMajor)
    (hw : p.ptr % (SS : Int) = 0) (i j : Int) :
    p.addr SS i j = p.ptr + i / (SS : Int) * p.spacing + i % (SS : Int) + j * SS := by
  simp [addr, hp, hs, hw]

theorem addr_panel_row {SS : Nat} {p : MPtr} (hp : p.panel = true) (hs : p.so = .rowMajor)
    (hw : p.ptr % (SS : Int) = 0) (i j : Int) :
    p.addr SS i j = p.ptr + i * SS + j / (SS : Int) * p.spacing + j % (SS : Int) := by
  simp [addr, hp, hs, hw]

/-- `p(0,0)` designates the same element as `p` -/
theorem addr_zero {SS : Nat} (hSS : 0 < SS) (p : MPtr) : p.addr SS 0 0 = p.ptr := by
  have hpos : (0 : Int) < SS := by omega
  by_cases hp : p.panel = true
  · have h1 := Int.emod_nonneg p.ptr (by omega : (SS : Int) ≠ 0)
    have h2 := Int.emod_lt_of_pos p.ptr hpos
    have h3 : p.ptr % (SS : Int) / (SS : Int) = 0 := Int.ediv_eq_zero_of_lt h1 h2
    cases ha : p.aligned <;> cases hs : p.so <;>
      simp only [addr, hp, ha, hs, if_true] <;> simp [h3]
  · simp at hp
    cases hs : p.so <;> simp [addr, hp, hs]

theorem unal_ptr {SS : Nat} (hSS : 0 < SS) (p : MPtr) :
    p.unal SS = { p with aligned := false } := by
  unfold unal
  by_cases hp : p.panel = true
  · simp only [hp, if_true]
    rw [addr_zero hSS]
  · simp at hp
    simp [hp]

theorem trans_ptr {SS : Nat} (hSS : 0 < SS) (p : MPtr) :
    p.trans SS = { p with so := p.so.flip } := by
  unfold trans
  by_cases hp : p.panel = true
  · simp only [hp, if_true]
    rw [addr_zero hSS]
  · simp at hp
    simp [hp]

theorem trans_addr {SS : Nat} (hSS : 0 < SS) (p : MPtr) (i j : Int) :
    (p.trans SS).addr SS i j = p.addr SS j i := by
  rw [trans_ptr hSS]
  obtain ⟨pn, so, al, pd, pt, sp⟩ := p
  cases so <;> cases pn <;> cases al <;> simp [addr, SO.flip] <;> omega

/-- `q` points to element `(i,j)` of the matrix whose origin `p` points to. -/
structure At (SS : Nat) (q p : MPtr) (i j : Int) : Prop where
  panel : q.panel = p.panel
  so : q.so = p.so
  spacing : q.spacing = p.spacing
  al : q.aligned = true → p.aligned = true
  ptr : q.ptr = p.addr SS i j
  maj : q.aligned = true → p.major i j % (SS : Int) = 0

theorem At.refl {SS : Nat} (hSS : 0 < SS) (p : MPtr) : At SS p p 0 0 where
  panel := rfl
  so := rfl
  spacing := rfl
  al := id
  ptr := (addr_zero hSS p).symm
  maj := fun _ => by unfold major; cases p.so <;> simp

theorem At.unal {SS : Nat} (hSS : 0 < SS) {q p : MPtr} {i j : Int} (h : At SS q p i j) :
    At SS (q.unal SS) p i j := by
  rw [unal_ptr hSS]
  exact ⟨h.panel, h.so, h.spacing, fun h => by simp at h, h.ptr, fun h => by simp at h⟩

theorem addr_mod {SS : Nat} {p : MPtr} (hw : WF SS p) (hp : p.panel = true)
    (i j : Int) : p.addr SS i j % (SS : Int) = p.major i j % (SS : Int) := by
  obtain ⟨h1, h2⟩ := hw (Or.inr hp)
  obtain ⟨q, hq⟩ := Int.dvd_of_emod_eq_zero h1
  obtain ⟨s, hs⟩ := Int.dvd_of_emod_eq_zero h2
  unfold major
  cases hso : p.so
  · rw [addr_panel_row hp hso h1, hs, hq]
    rw [show (SS : Int) * q + i * SS + j / (SS : Int) * ((SS : Int) * s) + j % (SS : Int)
        = j % (SS : Int) + (SS : Int) * (q + i + j / (SS : Int) * s) by
      rw [Int.mul_add, Int.mul_add, Int.mul_comm i, Int.mul_left_comm (j / (SS : Int))]; omega]
    simp
  · rw [addr_panel_col hp hso h1, hs, hq]
    rw [show (SS : Int) * q + i / (SS : Int) * ((SS : Int) * s) + i % (SS : Int) + j * SS
        = i % (SS : Int) + (SS : Int) * (q + j + i / (SS : Int) * s) by
      rw [Int.mul_add, Int.mul_add, Int.mul_comm j, Int.mul_left_comm (i / (SS : Int))]; omega]
    simp

/-- Position of an aligned pointer is a SIMD boundary. -/
theorem At.ptr_mod {SS : Nat} {q p : MPtr} {i j : Int} (hw : WF SS p) (h : At SS q p i j)
    (ha : q.aligned = true) : q.ptr % (SS : Int) = 0 := by
  rw [h.ptr]
  by_cases hp : p.panel = true
  · rw [addr_mod hw hp]; exact h.maj ha
  · simp at hp
    obtain ⟨h1, h2⟩ := hw (Or.inl (h.al ha))
    have hm := h.maj ha
    obtain ⟨u, hu⟩ := Int.dvd_of_emod_eq_zero h1
    obtain ⟨s, hs⟩ := Int.dvd_of_emod_eq_zero h2
    obtain ⟨t, ht⟩ := Int.dvd_of_emod_eq_zero hm
    unfold major at ht
    cases hso : p.so <;> rw [hso] at ht <;> simp only at ht
    · rw [addr_dense_row hp hso, hu, hs, ht, Int.mul_assoc, ← Int.mul_add, ← Int.mul_add]
      simp
    · rw [addr_dense_col hp hso, hu, hs, ht, Int.mul_assoc, ← Int.mul_add, ← Int.mul_add]
      simp

theorem ediv_add_split (n x a : Int) (hn : n ≠ 0) :
    x / n + (a + x % n) / n = (x + a) / n := by
  have h1 : x + a = (a + x % n) + n * (x / n) := by
    have := Int.emod_add_mul_ediv x n
    omega
  rw [h1, Int.add_mul_ediv_left _ _ hn]
  omega

theorem emod_add_split (n x a : Int) :
    (a + x % n) % n = (x + a) % n := by
  rw [Int.add_comm x a, Int.add_emod a x, Int.add_emod a (x % n), Int.emod_emod]

/-- Offsetting from `(i,j)` by `(a,b)` designates element `(i+a, j+b)`. -/
theorem At.addr {SS : Nat} (hSS : 0 < SS) {q p : MPtr} {i j : Int} (hw : WF SS p)
    (h : At SS q p i j) (a b : Int) : q.addr SS a b = p.addr SS (i + a) (j + b) := by
  have hn : (SS : Int) ≠ 0 := by omega
  by_cases hp : p.panel = true
  · have hqp : q.panel = true := h.panel.trans hp
    obtain ⟨h1, h2⟩ := hw (Or.inr hp)
    have hm := addr_mod hw hp i j
    have hrem : (if q.aligned = true then (0 : Int) else q.ptr % (SS : Int)) = p.major i j % (SS : Int) := by
      by_cases ha : q.aligned = true
      · rw [if_pos ha, h.maj ha]
      · rw [if_neg ha, h.ptr, hm]
    unfold MPtr.major at hrem
    cases hso : p.so
    · have hqs : q.so = .rowMajor := h.so.trans hso
      rw [hso] at hrem
      simp only at hrem
      rw [addr_panel_row hp hso h1]
      unfold MPtr.addr
      simp only [hqp, hqs, if_true, hrem, h.spacing]
      rw [h.ptr, addr_panel_row hp hso h1, ← ediv_add_split _ j b hn, ← emod_add_split _ j b,
        Int.add_mul, Int.add_mul]
      omega
    · have hqs : q.so = .columnMajor := h.so.trans hso
      rw [hso] at hrem
      simp only at hrem
      rw [addr_panel_col hp hso h1]
      unfold MPtr.addr
      simp only [hqp, hqs, if_true, hrem, h.spacing]
      rw [h.ptr, addr_panel_col hp hso h1, ← ediv_add_split _ i a hn, ← emod_add_split _ i a,
        Int.add_mul, Int.add_mul]
      omega
  · simp at hp
    have hqp : q.panel = false := h.panel.trans hp
    cases hso : p.so
    · rw [addr_dense_row hp hso, addr_dense_row hqp (h.so.trans hso), h.ptr,
        addr_dense_row hp hso, h.spacing, Int.mul_add]
      omega
    · rw [addr_dense_col hp hso, addr_dense_col hqp (h.so.trans hso), h.ptr,
        addr_dense_col hp hso, h.spacing, Int.mul_add]
      omega

theorem At.off {SS : Nat} (hSS : 0 < SS) {q p : MPtr} {i j : Int} (hw : WF SS p)
    (h : At SS q p i j) (a b : Int) (hm : q.aligned = true → p.major a b % (SS : Int) = 0) :
    At SS (q.off SS a b) p (i + a) (j + b) where
  panel := h.panel
  so := h.so
  spacing := h.spacing
  al := h.al
  ptr := by
    show q.addr SS a b = _
    exact h.addr hSS hw a b
  maj := fun ha => by
    have h1 := h.maj ha
    have h2 := hm ha
    unfold MPtr.major at *
    cases hs : p.so <;> rw [hs] at h1 h2 <;> simp only at * <;> rw [Int.add_emod, h1, h2] <;> simp

/-- `hmove` is an offset in columns; for panel row-major pointers only from a panel boundary. -/
theorem hmove_eq_off {SS : Nat} {p : MPtr}
    (h : p.panel = true → p.so = .rowMajor → p.ptr % (SS : Int) = 0)
    (hc : p.panel = true → p.so = .columnMajor → p.aligned = false → 0 < SS) (inc : Int) :
    p.hmove SS inc = p.off SS 0 inc := by
  unfold hmove off
  cases hp : p.panel <;> cases hs : p.so
  · simp [addr, hp, hs]
  · simp [addr, hp, hs]
  · have := h hp hs
    simp only [if_true]
    rw [addr_panel_row hp hs this]
    congr 1
    rw [Int.mul_comm p.spacing]
    omega
  · simp only [if_true]
    congr 1
    have h3 : p.aligned = false → p.ptr % (SS : Int) / (SS : Int) = 0 := by
      intro ha
      have hSS := hc hp hs ha
      exact Int.ediv_eq_zero_of_lt (Int.emod_nonneg p.ptr (by omega))
        (Int.emod_lt_of_pos p.ptr (by omega))
    cases ha : p.aligned
    · simp [addr, hp, hs, ha, h3 ha, Int.mul_comm]
    · simp [addr, hp, hs, ha, Int.mul_comm]

/-- `vmove` is an offset in rows; for panel column-major pointers only from a panel boundary. -/
theorem vmove_eq_off {SS : Nat} {p : MPtr}
    (h : p.panel = true → p.so = .columnMajor → p.ptr % (SS : Int) = 0)
    (hc : p.panel = true → p.so = .rowMajor → p.aligned = false → 0 < SS) (inc : Int) :
    p.vmove SS inc = p.off SS inc 0 := by
  unfold vmove off
  cases hp : p.panel <;> cases hs : p.so
  · simp [addr, hp, hs]
  · simp [addr, hp, hs]
  · simp only [if_true]
    congr 1
    have h3 : p.aligned = false → p.ptr % (SS : Int) / (SS : Int) = 0 := by
      intro ha
      have hSS := hc hp hs ha
      exact Int.ediv_eq_zero_of_lt (Int.emod_nonneg p.ptr (by omega))
        (Int.emod_lt_of_pos p.ptr (by omega))
    cases ha : p.aligned
    · simp [addr, hp, hs, ha, h3 ha, Int.mul_comm]
      omega
    · simp [addr, hp, hs, ha, Int.mul_comm]
  · have := h hp hs
    simp only [if_true]
    rw [addr_panel_col hp hs this]
    congr 1
    rw [Int.mul_comm p.spacing]
    omega

/-- In a column-major matrix `SS` consecutive rows starting at a SIMD-row boundary (any row for
dense storage) are contiguous. -/
theorem addr_contig {SS : Nat} {p : MPtr} (hw : WF SS p) (hs : p.so = .columnMajor)
    (i j : Int) (hi : p.panel = true → i % (SS : Int) = 0) (l : Nat) (hl : l < SS) :
    p.addr SS (i + l) j = p.addr SS i j + l := by
  cases hp : p.panel
  · rw [addr_dense_col hp hs, addr_dense_col hp hs]; omega
  · obtain ⟨h1, h2⟩ := hw (Or.inr hp)
    have hi := hi hp
    have hn : (SS : Int) ≠ 0 := by omega
    obtain ⟨t, ht⟩ := Int.dvd_of_emod_eq_zero hi
    rw [addr_panel_col hp hs h1, addr_panel_col hp hs h1]
    have e1 : (i + (l : Int)) / (SS : Int) = i / (SS : Int) := by
      rw [ht, Int.mul_comm, Int.add_comm, Int.add_mul_ediv_right _ _ hn, Int.mul_ediv_cancel _ hn,
        Int.ediv_eq_zero_of_lt (by omega) (by omega)]
      omega
    have e2 : (i + (l : Int)) % (SS : Int) = l := by
      rw [Int.add_emod, hi, Int.zero_add, Int.emod_emod]
      exact Int.emod_eq_of_lt (by omega) (by omega)
    rw [e1, e2, hi]
    omega

/-- Column-major `load()` at `(i,j)` reads elements `(i..i+SS-1, j)`. -/
theorem At.reads_load {SS : Nat} (hSS : 0 < SS) {q p : MPtr} {i j : Int} {m : Mem V} (hw : WF SS p)
    (h : At SS q p i j) (hs : p.so = .columnMajor)
    (hr : ∀ l : Nat, l < SS → (m (p.addr SS (i + l) j)).isSome = true) :
    ∃ v : Vec V, Reads (q.load SS) m v ∧ ∀ l : Nat, l < SS → v l = val m (p.addr SS (i + l) j) := by
  have hqs : q.so = .columnMajor := h.so.trans hs
  by_cases hpa : (q.panel && !q.aligned) = true
  · refine ⟨fun l => if l < SS then val m ((q.unal SS).addr SS l 0) else Arith.zero, ?_, ?_⟩
    · unfold load
      rw [if_pos hpa, hqs]
      have := reads_gather (SS := SS) (mask := fun _ => true)
        (addr := fun l => (q.unal SS).addr SS (l : Nat) 0) (m := m) (fun l hl _ => by
          rw [(h.unal hSS).addr hSS hw]; simpa using hr l hl)
      simpa using this
    · intro l hl
      dsimp only
      rw [if_pos hl, (h.unal hSS).addr hSS hw]; simp
  · have hc : p.panel = true → i % (SS : Int) = 0 := by
      intro hp
      have hq : q.panel = true := h.panel.trans hp
      have ha : q.aligned = true := by simpa [hq] using hpa
      have := h.maj ha
      simpa [MPtr.major, hs] using this
    refine ⟨fun l => if l < SS then val m (q.ptr + l) else Arith.zero, ?_, ?_⟩
    · unfold load
      rw [if_neg hpa]
      refine reads_loadVec (fun ha => h.ptr_mod hw ha) (fun l hl => ?_)
      rw [h.ptr, ← addr_contig hw hs i j hc l hl]
      exact hr l hl
    · intro l hl
      dsimp only
      rw [if_pos hl, h.ptr, ← addr_contig hw hs i j hc l hl]

/-- Masked load at `(i,j)`. -/
theorem At.reads_loadMask {SS : Nat} {q p : MPtr} {i j : Int} {m : Mem V} (hw : WF SS p)
    (h : At SS q p i j) (hs : p.so = .columnMajor) (hc : p.panel = true → i % (SS : Int) = 0)
    (mask : Nat → Bool)
    (hr : ∀ l : Nat, l < SS → mask l = true → (m (p.addr SS (i + l) j)).isSome = true) :
    ∃ v : Vec V, Reads (q.loadMask SS mask) m v ∧ ∀ l : Nat, l < SS →
      v l = if mask l then val m (p.addr SS (i + l) j) else Arith.zero := by
  refine ⟨fun l => if l < SS then (if mask l then val m (q.ptr + l) else Arith.zero) else Arith.zero, ?_, ?_⟩
  · refine reads_loadVecMask (fun l hl hm => ?_)
    rw [h.ptr, ← addr_contig hw hs i j hc l hl]
    exact hr l hl hm
  · intro l hl
    simp only
    rw [if_pos hl, h.ptr, ← addr_contig hw hs i j hc l hl]

/-- Column load through a row/column vector pointer (`load(columnVector)`). -/
theorem At.reads_loadT {SS : Nat} {q p : MPtr} {i j : Int} {m : Mem V} (hw : WF SS p)
    (h : At SS q p i j) (hs : p.so = .columnMajor) (hc : p.panel = true → i % (SS : Int) = 0)
    (hr : ∀ l : Nat, l < SS → (m (p.addr SS (i + l) j)).isSome = true) :
    ∃ v : Vec V, Reads (q.loadT SS .columnVector) m v ∧
      ∀ l : Nat, l < SS → v l = val m (p.addr SS (i + l) j) := by
  have hqs : q.so = .columnMajor := h.so.trans hs
  refine ⟨fun l => if l < SS then val m (q.ptr + l) else Arith.zero, ?_, ?_⟩
  · unfold loadT majorOrientation
    rw [hqs, if_pos rfl]
    refine reads_loadVec (fun ha => h.ptr_mod hw ha) (fun l hl => ?_)
    rw [h.ptr, ← addr_contig hw hs i j hc l hl]
    exact hr l hl
  · intro l hl
    dsimp only
    rw [if_pos hl, h.ptr, ← addr_contig hw hs i j hc l hl]

/-- Column-major unmasked store at `(i,j)`. -/
theorem At.runs_store {SS : Nat} {q p : MPtr} {i j : Int} {m : Mem V} (hw : WF SS p)
    (h : At SS q p i j) (hs : p.so = .columnMajor) (hc : p.panel = true → i % (SS : Int) = 0)
    (v : Vec V) (g : Int → V)
    (hr : ∀ l : Nat, l < SS → (m (p.addr SS (i + l) j)).isSome = true)
    (hg : ∀ l : Nat, l < SS → g (p.addr SS (i + l) j) = v l) :
    Runs (q.store SS v) m (fun _ m' =>
      WritesSet m m' (fun x => ∃ l : Nat, l < SS ∧ x = p.addr SS (i + l) j) g) := by
  unfold MPtr.store
  refine (Blast.runs_storeVec g (fun ha => h.ptr_mod hw ha) ?_ ?_).mono ?_
  · intro l hl
    rw [h.ptr, ← addr_contig hw hs i j hc l hl]
    exact hr l hl
  · intro l hl
    rw [h.ptr, ← addr_contig hw hs i j hc l hl]
    exact hg l hl
  · intro _ m' hw'
    refine hw'.congr (fun x => ?_)
    constructor
    · rintro ⟨l, hl, rfl⟩
      exact ⟨l, hl, by rw [h.ptr, ← addr_contig hw hs i j hc l hl]⟩
    · rintro ⟨l, hl, rfl⟩
      exact ⟨l, hl, by rw [h.ptr, ← addr_contig hw hs i j hc l hl]⟩

/-- Column-major masked store at `(i,j)`. -/
theorem At.runs_storeMask {SS : Nat} {q p : MPtr} {i j : Int} {m : Mem V} (hw : WF SS p)
    (h : At SS q p i j) (hs : p.so = .columnMajor) (hc : p.panel = true → i % (SS : Int) = 0)
    (v : Vec V) (mask : Nat → Bool) (g : Int → V)
    (hr : ∀ l : Nat, l < SS → mask l = true → (m (p.addr SS (i + l) j)).isSome = true)
    (hg : ∀ l : Nat, l < SS → mask l = true → g (p.addr SS (i + l) j) = v l) :
    Runs (q.storeMask SS v mask) m (fun _ m' =>
      WritesSet m m' (fun x => ∃ l : Nat, l < SS ∧ mask l = true ∧ x = p.addr SS (i + l) j) g) := by
  unfold MPtr.storeMask
  refine (Blast.runs_storeVecMask g ?_ ?_).mono ?_
  · intro l hl hm
    rw [h.ptr, ← addr_contig hw hs i j hc l hl]
    exact hr l hl hm
  · intro l hl hm
    rw [h.ptr, ← addr_contig hw hs i j hc l hl]
    exact hg l hl hm
  · intro _ m' hw'
    refine hw'.congr (fun x => ?_)
    constructor
    · rintro ⟨l, hl, hm, rfl⟩
      exact ⟨l, hl, hm, by rw [h.ptr, ← addr_contig hw hs i j hc l hl]⟩
    · rintro ⟨l, hl, hm, rfl⟩
      exact ⟨l, hl, hm, by rw [h.ptr, ← addr_contig hw hs i j hc l hl]⟩

/-- Scalar read `q[a,b]`. -/
theorem At.reads_get {SS : Nat} (hSS : 0 < SS) {q p : MPtr} {i j : Int} {m : Mem V} (hw : WF SS p)
    (h : At SS q p i j) (a b : Int)
    (hr : (m (p.addr SS (i + a) (j + b))).isSome = true) :
    Reads (q.get SS a b) m (val m (p.addr SS (i + a) (j + b))) := by
  unfold MPtr.get
  rw [h.addr hSS hw]
  unfold val
  cases hm : m (p.addr SS (i + a) (j + b)) with
  | none => rw [hm] at hr; simp at hr
  | some v => exact reads_read hm

end MPtr
end Blast
