import Verif.Views
import Verif.Props.Gemm
import Verif.Eval
import Verif.Once
/- Concrete cases meeting the hypotheses of these theorems: Verif/Cases/Views.lean, and the examples in this file. -/
/-
Properties C39 (views), C40 (checked panel views), C45 (transposition), C49 (gemm on views).
-/
set_option linter.unusedSectionVars false
namespace Blast
open Prog
variable {V : Type}

/-- In memory `m`, reading `e(i, j)` gives `a i j`, for every element of the matrix or view `e`. -/
def Elems [Arith V] (SS : Nat) (m : Mem V) (e : MExpr) (a : Nat → Nat → V) : Prop :=
  ∀ i j, i < e.rows → j < e.cols → e.get SS i j m = .ok (a i j) m

/-- In memory `m`, reading `r[j]` gives `a j`, for every element of the row view `r`. -/
def RowElems [Arith V] (SS : Nat) (m : Mem V) (r : RowView) (a : Nat → V) : Prop :=
  ∀ j, j < r.n → Prog.read (r.addr SS j) m = .ok (a j) m

/-- The elements of `c` outside the `r × n` block at `(i, j)` are the same in both memories, and so is every cell outside
the matrix elements. -/
def OnlyBlockChanges (SS : Nat) (m m' : Mem V) (c : Container) (i j r n : Nat) : Prop :=
  (∀ p q, p < c.rows → q < c.cols → ¬ (i ≤ p ∧ p < i + r ∧ j ≤ q ∧ q < j + n) →
    m' (c.addr SS p q) = m (c.addr SS p q)) ∧
  OnlyElemsChange SS m m' c

theorem read_ok_iff [Arith V] {m : Mem V} {x : Int} {v : V} : Prog.read x m = .ok v m ↔ m x = some v := by
  unfold Prog.read
  cases hm : m x with
  | none => simp
  | some w => simp

theorem elems_iff [Arith V] {SS : Nat} {m : Mem V} {e : MExpr} {a : Nat → Nat → V} :
    Elems SS m e a ↔ ∀ i j, i < e.rows → j < e.cols → m (e.addr SS i j) = some (a i j) := by
  unfold Elems MExpr.get
  simp only [read_ok_iff]

/-! ### C39: submatrix views -/

/-- the size of a submatrix is the requested one, and it views the same matrix object with the same storage order and spacing -/
theorem C39_submatrix_size (SS : Nat) (af : Bool) (e : MExpr) (i j r n : Nat) :
    (e.submatrix af i j r n).rows = r ∧ (e.submatrix af i j r n).cols = n ∧
    (e.submatrix af i j r n).so = e.so ∧ (e.submatrix af i j r n).spacing SS = e.spacing SS ∧
    (e.submatrix af i j r n).base = e.base := by
  cases e <;> exact ⟨rfl, rfl, rfl, rfl, rfl⟩

/-- **C39** (element access). `submatrix(e, i, j, r, n)(k, l)` is `e(i+k, j+l)`, whether `e` is a matrix, itself a submatrix
(then the new view refers to the underlying matrix), or a transpose. -/
theorem C39_submatrix_elements [Arith V] {SS : Nat} {m : Mem V} {e : MExpr} {a : Nat → Nat → V} (af : Bool) {i j r n : Nat}
    (h : Elems SS m e a) (hr : i + r ≤ e.rows) (hn : j + n ≤ e.cols) :
    Elems SS m (e.submatrix af i j r n) (fun k l => a (i + k) (j + l)) := by
  rw [elems_iff] at h ⊢
  intro k l hk hl
  obtain ⟨h1, h2, _⟩ := C39_submatrix_size SS af e i j r n
  rw [h1] at hk; rw [h2] at hl
  have := h (i + k) (j + l) (by omega) (by omega)
  rw [← this]
  cases e with
  | obj c => rfl
  | tr e => rfl
  | sub e af' i' j' r' n' =>
    show m (e.addr SS (i' + i + k) (j' + j + l)) = m (e.addr SS (i' + (i + k)) (j' + (j + l)))
    rw [Nat.add_assoc, Nat.add_assoc]

/-- **C39** (composition). A submatrix of a submatrix of `c` is the submatrix of `c` at the summed offsets. -/
theorem C39_submatrix_compose (af af' : Bool) (c : Container) (i j r n i' j' r' n' : Nat) :
    ((MExpr.obj c).submatrix af i j r n).submatrix af' i' j' r' n' =
      (MExpr.obj c).submatrix af' (i + i') (j + j') r' n' := rfl

/-- a submatrix that is inside `e` fits -/
theorem fits_submatrix {e : MExpr} (hf : e.Fits) (af : Bool) {i j r n : Nat} (hr : i + r ≤ e.rows)
    (hn : j + n ≤ e.cols) : (e.submatrix af i j r n).Fits := by
  cases e with
  | obj c => exact ⟨hf, hr, hn⟩
  | tr e => exact ⟨hf, hr, hn⟩
  | sub e af' i' j' r' n' =>
    obtain ⟨h1, h2, h3⟩ := hf
    have hr : i + r ≤ r' := hr
    have hn : j + n ≤ n' := hn
    exact ⟨h1, by omega, by omega⟩

/-- **C39** (bounds). The elements of a chain of views that fit are different cells of the storage of the viewed object. -/
theorem C39_view_in_bounds [Arith V] {SS : Nat} (hSS : 0 < SS) {m : Mem V} {e : MExpr} (hf : e.Fits)
    (hl : Live SS m e.base) :
    (∀ i j, i < e.rows → j < e.cols →
      e.base.Storage SS (e.addr SS i j) ∧ IsElem SS e.base (e.addr SS i j) ∧ ∃ v, e.get SS i j m = .ok v m) ∧
    (∀ i j i' j', i < e.rows → j < e.cols → i' < e.rows → j' < e.cols →
      e.addr SS i j = e.addr SS i' j' → i = i' ∧ j = j') := by
  refine ⟨fun i j hi hj => ?_, fun i j i' j' h1 h2 h3 h4 => e.addr_inj hSS hf h1 h2 h3 h4⟩
  have hs := e.addr_storage hSS hf hi hj
  obtain ⟨a, b⟩ := e.place_lt hf hi hj
  refine ⟨hs, ⟨_, _, a, b, e.addr_place i j⟩, ?_⟩
  have := hl.alloc _ hs
  cases hm : m (e.addr SS i j) with
  | none => rw [hm] at this; cases this
  | some v => exact ⟨v, read_ok_iff.2 hm⟩

/-- **C39** (pointers). For every chain of views of a dense matrix, the pointer `ptr(e)` designates at offset `(i,j)` the element
`e(i, j)`; the same holds for views of panel matrices that start on a panel boundary of an aligned object. -/
theorem C39_view_pointer {SS : Nat} (hSS : 0 < SS) (e : MExpr)
    (h : e.isPanel = true → e.base.data % (SS : Int) = 0 ∧ e.base.maj (e.place 0 0).1 (e.place 0 0).2 % SS = 0)
    (i j : Nat) : (e.mptr SS).addr SS i j = e.addr SS i j := by
  cases hp : e.isPanel
  · exact e.mptr_addr_dense hSS hp i j
  · exact e.mptr_addr_panel hSS hp (h hp).1 (h hp).2 i j

/-- The pointer of a view of a panel matrix that starts inside a panel does not designate the right elements: row 1 of the
view of a 4-row column-major panel matrix (SIMD width 2) that starts at row 1 is row 2 of the matrix, at address 8
(the second panel), but an aligned pointer designates address 2. -/
theorem C39_view_pointer_unaligned_panel_refuted :
    ∃ e : MExpr, e.Fits ∧ e.base.data % 2 = 0 ∧ e.addr 2 1 0 = 8 ∧ (e.mptr 2).addr 2 1 0 = 2 :=
  ⟨.sub (.obj ⟨.dynPanel, .columnMajor, 4, 4, 0⟩) true 1 0 3 4, ⟨trivial, by decide, by decide⟩, by decide, by decide,
    by decide⟩

/-- **C39** (writing an element through a view). Storing `v` in element `(k,l)` of `submatrix(c, i, j, r, n)` sets element `(i+k, j+l)` of `c`
and changes nothing else. -/
theorem C39_submatrix_set [Arith V] {SS : Nat} (hSS : 0 < SS) {m : Mem V} {c : Container} (hl : Live SS m c) (af : Bool)
    {i j r n k l : Nat} (hr : i + r ≤ c.rows) (hn : j + n ≤ c.cols) (hk : k < r) (hll : l < n) (v : V) :
    ∃ m', ((MExpr.obj c).submatrix af i j r n).set SS k l v m = .ok () m' ∧
      m' (c.addr SS (i + k) (j + l)) = some v ∧
      OnlyBlockChanges SS m m' c (i + k) (j + l) 1 1 := by
  have ha := hl.alloc _ (c.addr_storage hSS (i := i + k) (j := j + l) (by omega) (by omega))
  refine ⟨_, write_eq v ha, updMem_same _ _ _, fun p q hp hq hpq => updMem_ne _ _ (fun h => hpq ?_),
    fun x hx => updMem_ne _ _ (fun h => hx ⟨_, _, by omega, by omega, h⟩)⟩
  have := c.inj hSS _ _ _ _ hp hq (show i + k < c.rows by omega) (show j + l < c.cols by omega)
  rw [← Container.addr_eq_mptr, ← Container.addr_eq_mptr] at this
  obtain ⟨rfl, rfl⟩ := this h
  omega

theorem resetView_runs [Arith V] {SS : Nat} (hSS : 0 < SS) {m : Mem V} {e : MExpr} (hf : e.Fits) (hl : Live SS m e.base) :
    ∃ m', e.resetView SS m = .ok () m' ∧
      (∀ i j, i < e.rows → j < e.cols → m' (e.addr SS i j) = some Arith.zero) ∧
      (∀ x, ¬ (∃ i j, i < e.rows ∧ j < e.cols ∧ x = e.addr SS i j) → m' x = m x) := by
  have h := runs_addrLoop (m := m) (e.addr SS) (r := e.rows) (w := fun _ => e.cols)
    (body := fun i j => e.set SS i j (Arith.zero : V))
    (fun i j i' j' h1 h2 h3 h4 => e.addr_inj hSS hf h1 h2 h3 h4) (fun _ _ => (Arith.zero : V))
    (fun i j hi hj => hl.alloc _ (e.addr_storage hSS hf hi hj))
    (fun i j m' hi hj _ _ hall => ⟨(), updMem m' (e.addr SS i j) Arith.zero, write_eq _ (hall i j hi hj), rfl⟩)
  obtain ⟨_, m', h1, h2, h3⟩ := h
  exact ⟨m', h1, h2, h3⟩

/-- **C39** (reset). `reset(submatrix(c, i, j, r, n))` sets the viewed block of `c` to zero and changes nothing else. -/
theorem C39_submatrix_reset [Arith V] {SS : Nat} (hSS : 0 < SS) {m : Mem V} {c : Container} (hl : Live SS m c) (af : Bool)
    {i j r n : Nat} (hr : i + r ≤ c.rows) (hn : j + n ≤ c.cols) :
    ∃ m', ((MExpr.obj c).submatrix af i j r n).reset SS m = .ok () m' ∧
      (∀ p q, i ≤ p → p < i + r → j ≤ q → q < j + n → m' (c.addr SS p q) = some Arith.zero) ∧
      OnlyBlockChanges SS m m' c i j r n := by
  obtain ⟨m', h1, h2, h3⟩ := resetView_runs hSS (e := .sub (.obj c) af i j r n) ⟨trivial, hr, hn⟩ hl
  refine ⟨m', h1, fun p q hp1 hp2 hq1 hq2 => ?_, fun p q hp hq hpq => ?_, fun x hx => ?_⟩
  · have := h2 (p - i) (q - j) (show p - i < r by omega) (show q - j < n by omega)
    have e : (MExpr.sub (.obj c) af i j r n).addr SS (p - i) (q - j) = c.addr SS p q := by
      show c.addr SS (i + (p - i)) (j + (q - j)) = _
      rw [show i + (p - i) = p by omega, show j + (q - j) = q by omega]
    rwa [e] at this
  · refine h3 _ ?_
    rintro ⟨k, l, hk, hll, he⟩
    have hk : k < r := hk
    have hll : l < n := hll
    have := c.inj hSS _ _ _ _ hp hq (show i + k < c.rows by omega) (show j + l < c.cols by omega)
    rw [← Container.addr_eq_mptr, ← Container.addr_eq_mptr] at this
    obtain ⟨rfl, rfl⟩ := this he
    omega
  · refine h3 _ ?_
    rintro ⟨k, l, hk, hll, he⟩
    have hk : k < r := hk
    have hll : l < n := hll
    exact hx ⟨i + k, j + l, by omega, by omega, he⟩

theorem assign_runs [Arith V] {SS : Nat} (hSS : 0 < SS) {m : Mem V} {a b : MExpr} (hfa : a.Fits) (hfb : b.Fits)
    (hla : Live SS m a.base) (hlb : Live SS m b.base) (hr : a.rows = b.rows) (hc : a.cols = b.cols)
    (hov : ∀ i j i' j', i < a.rows → j < a.cols → i' < a.rows → j' < a.cols →
      b.addr SS i j = a.addr SS i' j' → i = i' ∧ j = j') :
    ∃ m', a.assign SS b m = .ok () m' ∧
      (∀ i j, i < a.rows → j < a.cols → m' (a.addr SS i j) = m (b.addr SS i j)) ∧
      (∀ x, ¬ (∃ i j, i < a.rows ∧ j < a.cols ∧ x = a.addr SS i j) → m' x = m x) := by
  have hb : ∀ i j, i < a.rows → j < a.cols → (m (b.addr SS i j)).isSome = true := fun i j hi hj =>
    hlb.alloc _ (b.addr_storage hSS hfb (by omega) (by omega))
  have h := runs_addrLoop (m := m) (a.addr SS) (r := a.rows) (w := fun _ => a.cols)
    (body := fun i j => do
      let v ← b.get SS i j
      a.set SS i j v)
    (fun i j i' j' h1 h2 h3 h4 => a.addr_inj hSS hfa h1 h2 h3 h4) (fun i j => val m (b.addr SS i j))
    (fun i j hi hj => hla.alloc _ (a.addr_storage hSS hfa hi hj))
    (fun i j m' hi hj hout hsame hall => by
      have hval : m' (b.addr SS i j) = m (b.addr SS i j) := by
        by_cases hx : ∃ i' j', i' < a.rows ∧ j' < a.cols ∧ b.addr SS i j = a.addr SS i' j'
        · obtain ⟨i', j', h1, h2, h3⟩ := hx
          obtain ⟨rfl, rfl⟩ := hov _ _ _ _ hi hj h1 h2 h3
          rw [h3]
          exact hsame i j hi hj (Or.inr ⟨rfl, Nat.le_refl _⟩)
        · exact hout _ hx
      have hrd : (b.get SS i j) m' = .ok (val m (b.addr SS i j)) m' := by
        refine read_ok_iff.2 ?_
        rw [hval]
        have := hb i j hi hj
        unfold val
        cases hm : m (b.addr SS i j) with
        | none => rw [hm] at this; cases this
        | some v => simp
      refine ⟨(), updMem m' (a.addr SS i j) (val m (b.addr SS i j)), ?_, rfl⟩
      rw [bind_ok hrd]
      exact write_eq _ (hall i j hi hj))
  obtain ⟨_, m', h1, h2, h3⟩ := h
  refine ⟨m', ?_, fun i j hi hj => ?_, h3⟩
  · unfold MExpr.assign
    rw [if_neg (by omega)]
    exact h1
  · rw [h2 i j hi hj]
    have := hb i j hi hj
    unfold val
    cases hm : m (b.addr SS i j) with
    | none => rw [hm] at this; cases this
    | some v => simp

/-- **C39** (assignment). Assigning the view or matrix `b` to the view or matrix `a` of the same size gives `a` the elements of
`b`, and changes no cell that is not an element of `a`. `a` and `b` may belong to the same object as long as no element of `b` is
an element of `a` at another position. -/
theorem C39_view_assign [Arith V] {SS : Nat} (hSS : 0 < SS) {m : Mem V} {a b : MExpr} (hfa : a.Fits) (hfb : b.Fits)
    (hla : Live SS m a.base) (hlb : Live SS m b.base) (hr : a.rows = b.rows) (hc : a.cols = b.cols)
    (hov : ∀ i j i' j', i < a.rows → j < a.cols → i' < a.rows → j' < a.cols →
      b.addr SS i j = a.addr SS i' j' → i = i' ∧ j = j') {x : Nat → Nat → V} (hx : Elems SS m b x) :
    ∃ m', a.assign SS b m = .ok () m' ∧ Elems SS m' a x ∧
      (∀ z, ¬ (∃ i j, i < a.rows ∧ j < a.cols ∧ z = a.addr SS i j) → m' z = m z) := by
  obtain ⟨m', h1, h2, h3⟩ := assign_runs hSS hfa hfb hla hlb hr hc hov
  refine ⟨m', h1, elems_iff.2 (fun i j hi hj => ?_), h3⟩
  rw [h2 i j hi hj]
  exact elems_iff.1 hx i j (by omega) (by omega)

/-- **C39** (size mismatch). Assigning between matrices or views of different sizes throws `std::invalid_argument` and
changes nothing. -/
theorem C39_view_assign_mismatch [Arith V] {SS : Nat} {m : Mem V} {a b : MExpr} (h : a.rows ≠ b.rows ∨ a.cols ≠ b.cols) :
    a.assign SS b m = .throw .invalidArgument m := by
  unfold MExpr.assign
  rw [if_pos h]; rfl

/-! ### C39: row views -/

/-- **C39** (rows). `row(e, i)[j]` is `e(i, j)`. -/
theorem C39_row_elements [Arith V] {SS : Nat} {m : Mem V} {e : MExpr} {a : Nat → Nat → V} {i : Nat}
    (h : Elems SS m e a) (hi : i < e.rows) :
    (RowView.full e i).n = e.cols ∧ RowElems SS m (RowView.full e i) (fun j => a i j) := by
  refine ⟨rfl, fun j hj => read_ok_iff.2 ?_⟩
  rw [elems_iff] at h
  show m (e.addr SS i (0 + j)) = _
  rw [Nat.zero_add]
  exact h i j hi hj

/-- **C39** (part of a row). `row(e, i, j, n)[k]` is `e(i, j+k)`. -/
theorem C39_row_part_elements [Arith V] {SS : Nat} {m : Mem V} {e : MExpr} {a : Nat → Nat → V} {i j n : Nat}
    (h : Elems SS m e a) (hi : i < e.rows) (hj : j + n ≤ e.cols) :
    (RowView.part e i j n).n = n ∧ RowElems SS m (RowView.part e i j n) (fun k => a i (j + k)) := by
  refine ⟨rfl, fun k hk => read_ok_iff.2 ?_⟩
  have hk : k < n := hk
  exact elems_iff.1 h i (j + k) hi (by omega)

/-- **C39** (subvectors of rows). `subvector(r, j, n)[k]` is `r[j+k]`. -/
theorem C39_subvector_elements [Arith V] {SS : Nat} {m : Mem V} {r : RowView} {a : Nat → V} {j n : Nat}
    (h : RowElems SS m r a) (hj : j + n ≤ r.n) :
    (r.subvector j n).n = n ∧ RowElems SS m (r.subvector j n) (fun k => a (j + k)) := by
  refine ⟨rfl, fun k hk => read_ok_iff.2 ?_⟩
  have hk : k < n := hk
  have := read_ok_iff.1 (h (j + k) (by omega))
  rw [← this]
  show m (r.m.addr SS r.i (r.j + j + k)) = m (r.m.addr SS r.i (r.j + (j + k)))
  rw [Nat.add_assoc]

/-- **C39** (row pointers). The vector pointer `ptr(r, j)` of a row of a dense matrix or of a column-major panel matrix designates at
offset `k` the element `r[j+k]`. -/
theorem C39_row_pointer {SS : Nat} (r : RowView) (h : r.m.isPanel = true → r.m.so = .columnMajor)
    (al st : Bool) (j k : Nat) : (r.ptrAt SS al st j).addr SS k = r.addr SS (j + k) :=
  RowView.ptr_addr r h al st j k

/-- **C39** (reset of a row). `reset(row(c, i, j, n))` zeroes these elements and nothing else. -/
theorem C39_row_reset [Arith V] {SS : Nat} (hSS : 0 < SS) {m : Mem V} {c : Container} (hl : Live SS m c)
    {i j n : Nat} (hi : i < c.rows) (hj : j + n ≤ c.cols) :
    ∃ m', (RowView.part (.obj c) i j n).reset SS m = .ok () m' ∧
      (∀ q, j ≤ q → q < j + n → m' (c.addr SS i q) = some Arith.zero) ∧
      OnlyBlockChanges SS m m' c i j 1 n := by
  have hinj : ∀ p q p' q', p < c.rows → q < c.cols → p' < c.rows → q' < c.cols → c.addr SS p q = c.addr SS p' q' →
      p = p' ∧ q = q' := by
    intro p q p' q' h1 h2 h3 h4 he
    have := c.inj hSS _ _ _ _ h1 h2 h3 h4
    rw [← Container.addr_eq_mptr, ← Container.addr_eq_mptr] at this
    exact this he
  have h : Runs ((RowView.part (.obj c) i j n).reset SS) m (fun _ m' =>
      WritesSet m m' (fun x => ∃ k, k < n ∧ x = c.addr SS i (j + k)) (fun _ => (Arith.zero : V))) := by
    unfold RowView.reset
    refine writes_forN (fun (k : Nat) x => x = c.addr SS i (j + k)) (fun _ => (Arith.zero : V)) ?_
    intro k hk m' hw
    have hk : k < n := hk
    refine ⟨(), _, write_eq _ (hw.isSome (hl.alloc _ (c.addr_storage hSS hi (show j + k < c.cols by omega)))), fun x => ⟨?_, ?_⟩⟩
    · rintro rfl; exact updMem_same _ _ _
    · intro hx; exact updMem_ne _ _ hx
  obtain ⟨_, m', h1, h2⟩ := h
  refine ⟨m', h1, fun q h3 h4 => ?_, fun p q hp hq hpq => ?_, fun x hx => ?_⟩
  · exact (h2 _).1 ⟨q - j, by omega, by rw [show j + (q - j) = q by omega]⟩
  · refine (h2 _).2 ?_
    rintro ⟨k, hk, he⟩
    obtain ⟨rfl, rfl⟩ := hinj _ _ _ _ hp hq hi (by omega) he
    omega
  · refine (h2 _).2 ?_
    rintro ⟨k, hk, rfl⟩
    exact hx ⟨i, j + k, hi, by omega, rfl⟩

/-! ### C45: transposition -/

/-- **C45** (elements). `trans(e)(i, j)` is `e(j, i)`. -/
theorem C45_trans_elements [Arith V] {SS : Nat} {m : Mem V} {e : MExpr} {a : Nat → Nat → V} (h : Elems SS m e a) :
    Elems SS m e.trans (fun i j => a j i) := by
  rw [elems_iff] at h ⊢
  intro i j hi hj
  cases e with
  | obj c => exact h j i hj hi
  | sub e af i0 j0 r n => exact h j i hj hi
  | tr e => exact h j i hj hi

/-- **C45** (size and storage order). The transpose has the dimensions exchanged, the opposite storage order and the same storage. -/
theorem C45_trans_shape (SS : Nat) (e : MExpr) :
    e.trans.rows = e.cols ∧ e.trans.cols = e.rows ∧ e.trans.so ≠ e.so ∧ e.trans.data SS = e.data SS ∧
    e.trans.spacing SS = e.spacing SS := by
  cases e with
  | obj c => exact ⟨rfl, rfl, by show c.so.flip ≠ c.so; cases c.so <;> decide, rfl, rfl⟩
  | sub e af i0 j0 r n =>
    exact ⟨rfl, rfl, by show e.so.flip ≠ e.so; cases e.so <;> decide, rfl, rfl⟩
  | tr e => exact ⟨rfl, rfl, by show e.so ≠ e.so.flip; cases e.so <;> decide, rfl, rfl⟩

/-- **C45** (involution). `trans(trans(m))` of a matrix or submatrix, or of a transpose built by `trans`, is that very matrix,
submatrix or transpose (the hypothesis excludes only an explicit `MatTransExpr<MatTransExpr<…>>`, which `trans` never builds). -/
theorem C45_trans_trans (e : MExpr) (h : ∀ e', e ≠ .tr (.tr e')) : e.trans.trans = e := by
  cases e with
  | obj c => rfl
  | sub e af i0 j0 r n => rfl
  | tr e =>
    cases e with
    | obj c => rfl
    | sub e af i0 j0 r n => rfl
    | tr e => exact absurd rfl (h e)

/-- **C45** (involution on elements), without restriction. -/
theorem C45_trans_trans_elements [Arith V] {SS : Nat} {m : Mem V} {e : MExpr} {a : Nat → Nat → V} (h : Elems SS m e a) :
    e.trans.trans.rows = e.rows ∧ e.trans.trans.cols = e.cols ∧ Elems SS m e.trans.trans a := by
  have h1 := C45_trans_shape SS e
  have h2 := C45_trans_shape SS e.trans
  exact ⟨by rw [h2.1, h1.2.1], by rw [h2.2.1, h1.1], C45_trans_elements (C45_trans_elements h)⟩

/-- **C45** (pointers). `ptr(trans(e))` designates at offset `(i, j)` the element `e(j, i)`, for every view `e` of a dense matrix and
every view of an aligned panel matrix that starts on a panel boundary. -/
theorem C45_trans_pointer {SS : Nat} (hSS : 0 < SS) (e : MExpr)
    (h : e.isPanel = true → e.base.data % (SS : Int) = 0 ∧ e.base.maj (e.place 0 0).1 (e.place 0 0).2 % SS = 0)
    (i j : Nat) : (e.trans.mptr SS).addr SS i j = e.addr SS j i := by
  have ht : e.trans.base = e.base ∧ e.trans.place 0 0 = e.place 0 0 ∧ e.trans.addr SS i j = e.addr SS j i := by
    cases e <;> exact ⟨rfl, rfl, rfl⟩
  obtain ⟨h1, h2, h3⟩ := ht
  rw [C39_view_pointer hSS e.trans ?_ i j, h3]
  intro hp
  rw [h1, h2]
  refine h ?_
  unfold MExpr.isPanel at hp ⊢
  rwa [← h1]

/-- **C45** (checked access). `at(i, j)` of the transpose of a panel matrix `e` throws `std::out_of_range` exactly when `(i, j)` is outside
of the transpose, and is `e(j, i)` otherwise. -/
theorem C45_trans_at [Arith V] {SS : Nat} {m : Mem V} {e : MExpr} {a : Nat → Nat → V} (h : Elems SS m e a) (i j : Nat) :
    transAt SS e i j m = if i < e.trans.rows ∧ j < e.trans.cols then .ok (a j i) m else .throw .outOfRange m := by
  have h1 := C45_trans_shape SS e
  rw [h1.1, h1.2.1]
  unfold transAt
  by_cases hi : i < e.cols
  · by_cases hj : j < e.rows
    · rw [if_neg (by omega), if_neg (by omega), if_pos ⟨hi, hj⟩]
      exact h j i hj hi
    · rw [if_neg (by omega), if_pos (by omega), if_neg (by omega)]; rfl
  · rw [if_pos (by omega), if_neg (by omega)]; rfl

/-! ### C40: checked views of panel matrices -/

/-- **C40** (creation). For sums of offset and size that do not overflow `size_t`, `submatrix(c, i, j, r, n)` of a panel matrix throws
`std::invalid_argument` if the submatrix is not inside the matrix; throws `std::logic_error` if it is inside but does not start
on a panel boundary; and otherwise creates the view. No memory is touched. -/
theorem C40_panel_submatrix [Arith V] {SS : Nat} {m : Mem V} {c : Container} {i j r n : Nat}
    (h1 : i + r < 2 ^ 64) (h2 : j + n < 2 ^ 64) :
    panelSubmatrix SS c i j r n m =
      if ¬ (i + r ≤ c.rows ∧ j + n ≤ c.cols) then .throw .invalidArgument m
      else if c.maj i j % SS = 0 then .ok ⟨c, i, j, r, n⟩ m
      else .throw .logicError m := by
  unfold panelSubmatrix wadd Container.maj
  rw [Nat.mod_eq_of_lt h1, Nat.mod_eq_of_lt h2]
  by_cases hb : i + r ≤ c.rows ∧ j + n ≤ c.cols
  · rw [if_neg (by omega), if_neg (not_not.2 hb)]
    cases c.so
    · simp only [true_and]
      by_cases hj : j % SS = 0
      · rw [if_neg (by omega), if_pos hj, if_neg (by simp)]; rfl
      · rw [if_pos (by omega), if_neg hj]; rfl
    · simp only [true_and]
      by_cases hi : i % SS = 0
      · rw [if_neg (by simp), if_neg (by omega), if_pos hi]; rfl
      · rw [if_neg (by simp), if_pos (by omega), if_neg hi]; rfl
  · rw [if_pos (by omega), if_pos hb]; rfl

/-- The check can be defeated by `size_t` wrap-around: a 4-row view starting at row 2^64-4 of an 8×8 panel matrix is created. -/
theorem C40_overflow_refuted (m : Mem Rat) :
    ∃ s, panelSubmatrix (V := Rat) 4 ⟨.dynPanel, .columnMajor, 8, 8, 0⟩ (2 ^ 64 - 4) 0 4 8 m = .ok s m :=
  ⟨⟨⟨.dynPanel, .columnMajor, 8, 8, 0⟩, 2 ^ 64 - 4, 0, 4, 8⟩, by
    unfold panelSubmatrix
    rw [if_neg (by decide), if_neg (by decide), if_neg (by decide)]; rfl⟩

/-- a view created without overflow refers to elements of the matrix -/
def PanelSub.Fits (s : PanelSub) : Prop :=
  s.i + s.nrows ≤ s.m.rows ∧ s.j + s.ncols ≤ s.m.cols ∧ s.m.rows < 2 ^ 64 ∧ s.m.cols < 2 ^ 64

/-- **C40** (elements and `at`). `at(k, l)` of a created view is element `(i+k, j+l)` of the matrix, or `std::out_of_range` outside of the
view. -/
theorem C40_at [Arith V] {SS : Nat} {m : Mem V} {s : PanelSub} (hs : s.Fits) {a : Nat → Nat → V}
    (ha : Contains SS m s.m a) (k l : Nat) :
    s.at' SS k l m = if k < s.nrows ∧ l < s.ncols then .ok (a (s.i + k) (s.j + l)) m else .throw .outOfRange m := by
  obtain ⟨h1, h2, h3, h4⟩ := hs
  unfold PanelSub.at'
  by_cases hk : k < s.nrows
  · by_cases hl : l < s.ncols
    · rw [if_neg (by omega), if_neg (by omega), if_pos ⟨hk, hl⟩]
      unfold PanelSub.addr wadd
      rw [Nat.mod_eq_of_lt (by omega), Nat.mod_eq_of_lt (by omega)]
      exact read_ok_iff.2 (ha _ _ (by omega) (by omega))
    · rw [if_neg (by omega), if_pos (by omega), if_neg (by omega)]; rfl
  · rw [if_pos (by omega), if_neg (by omega)]; rfl

/-- **C40** (nesting). A view of a view is checked against the underlying matrix and refers to it at the summed offsets. -/
theorem C40_panel_submatrix_nested [Arith V] {SS : Nat} {m : Mem V} {s : PanelSub} {i j r n : Nat}
    (h1 : s.i + i + r < 2 ^ 64) (h2 : s.j + j + n < 2 ^ 64) :
    s.submatrix SS i j r n m =
      if ¬ (s.i + i + r ≤ s.m.rows ∧ s.j + j + n ≤ s.m.cols) then .throw .invalidArgument m
      else if s.m.maj (s.i + i) (s.j + j) % SS = 0 then .ok ⟨s.m, s.i + i, s.j + j, r, n⟩ m
      else .throw .logicError m := by
  unfold PanelSub.submatrix
  have e1 : wadd s.i i = s.i + i := by unfold wadd; exact Nat.mod_eq_of_lt (by omega)
  have e2 : wadd s.j j = s.j + j := by unfold wadd; exact Nat.mod_eq_of_lt (by omega)
  rw [e1, e2, C40_panel_submatrix h1 h2]

/-- A view of a view may therefore leave the view it was taken from: the first 4 rows of an 8-row matrix, viewed from row 4 for 4 rows. -/
theorem C40_nested_escapes_view_refuted (m : Mem Rat) :
    ∃ s t, panelSubmatrix (V := Rat) 4 ⟨.dynPanel, .columnMajor, 8, 8, 0⟩ 0 0 4 8 m = .ok s m ∧
      s.submatrix (V := Rat) 4 4 0 4 8 m = .ok t m ∧ ¬ (4 + t.nrows ≤ s.nrows) := by
  refine ⟨⟨⟨.dynPanel, .columnMajor, 8, 8, 0⟩, 0, 0, 4, 8⟩, ⟨⟨.dynPanel, .columnMajor, 8, 8, 0⟩, 4, 0, 4, 8⟩, ?_, ?_, by decide⟩
  · rw [C40_panel_submatrix (by decide) (by decide)]; rfl
  · rw [C40_panel_submatrix_nested (by decide) (by decide)]; rfl

/-- **C40** (offset). For created views of column-major panel matrices with panels of at least two rows, `offset()` is the true offset (0) … -/
theorem C40_offset_column_major {SS : Nat} {s : PanelSub} (hs : s.m.so = .columnMajor) (hb : s.i % SS = 0) :
    s.offset SS = s.i % SS := by
  unfold PanelSub.offset
  rw [hs, hb]; rfl

/-- … but for row-major ones it is 1 instead of 0 whenever the view starts at a row that is a multiple of the panel size. -/
theorem C40_offset_row_major_refuted {SS : Nat} {s : PanelSub} (hs : s.m.so = .rowMajor) (hi : s.i % SS = 0)
    (_hb : s.j % SS = 0) : s.offset SS = 1 := by
  unfold PanelSub.offset
  rw [hs, hi]; rfl

/-- **C40** (rows). `row(c, i)` of a panel matrix through `PanelMatrixRow` throws `std::invalid_argument` iff `i` is not a row. -/
theorem C40_panel_row [Arith V] {m : Mem V} {c : Container} {i : Nat} :
    panelMatrixRow (V := V) c i m =
      if i < c.rows then .ok (RowView.full (.obj c) i) m else .throw .invalidArgument m := by
  unfold panelMatrixRow
  by_cases h : i < c.rows
  · rw [if_neg (by omega), if_pos h]; rfl
  · rw [if_pos (by omega), if_neg h]; rfl

/-! ### C49: gemm on views of dense matrices -/

/-- Rows up to the next multiple of the SIMD width, below the last column of the (column-major) view `e`, are still inside the storage of
the viewed object. (gemm reads that far, whatever the size of the view.) -/
def PadInBounds (SS : Nat) (e : MExpr) : Prop :=
  e.cols = 0 ∨ e.data SS + roundUp e.rows SS + (e.spacing SS : Int) * ((e.cols : Int) - 1)
    ≤ e.base.data + e.base.capacity SS

/-- A view of a dense matrix that fits, whose object exists, and whose alignment flag tells the truth. -/
structure ViewOK (SS : Nat) (m : Mem V) (e : MExpr) : Prop where
  dense : e.isPanel = false
  fits : e.Fits
  live : Live SS m e.base
  al : e.aligned = true → e.data SS % (SS : Int) = 0

/-- What a caller of `gemm(alpha, A, B, beta, C, D)` with views of dense matrices has to ensure. The views may belong to the
same matrix object as long as their elements do not overlap (C and D may also be the same view). -/
structure ViewGemmArgs (SS : Nat) (m : Mem V) (A B C D : MExpr) : Prop where
  ss : 0 < SS
  vA : ViewOK SS m A
  vB : ViewOK SS m B
  vC : ViewOK SS m C
  vD : ViewOK SS m D
  sA : A.so = .columnMajor
  sC : C.so = .columnMajor
  sD : D.so = .columnMajor
  pA : PadInBounds SS A
  pC : PadInBounds SS C
  dA : ∀ i j i' j', i < A.rows → j < A.cols → i' < D.rows → j' < D.cols → A.addr SS i j ≠ D.addr SS i' j'
  dB : ∀ i j i' j', i < B.rows → j < B.cols → i' < D.rows → j' < D.cols → B.addr SS i j ≠ D.addr SS i' j'
  dC : ∀ i j i' j', i < C.rows → j < C.cols → i' < D.rows → j' < D.cols →
    C.addr SS i j = D.addr SS i' j' → i = i' ∧ j = j'

theorem ViewOK.wf {SS : Nat} (hSS : 0 < SS) {m : Mem V} {e : MExpr} (h : ViewOK SS m e) : (e.mptr SS).WF SS := by
  rw [MExpr.mptr_fields hSS]
  intro h1
  have h1 : e.aligned = true ∨ e.isPanel = true := h1
  rw [h.dense] at h1
  refine ⟨h.al (by simpa using h1), ?_⟩
  show ((e.spacing SS : Nat) : Int) % (SS : Int) = 0
  rw [MExpr.spacing_base]
  exact cast_mod_zero (e.base.spacing_mod hSS)

theorem ViewOK.readable {SS : Nat} (hSS : 0 < SS) {m : Mem V} {e : MExpr} (h : ViewOK SS m e) :
    Readable SS m (e.mptr SS) e.rows e.cols := by
  intro i j hi hj
  rw [e.mptr_addr_dense hSS h.dense]
  exact h.live.alloc _ (e.addr_storage hSS h.fits hi hj)

theorem ViewOK.readablePad {SS : Nat} (hSS : 0 < SS) {m : Mem V} {e : MExpr} (h : ViewOK SS m e)
    (hs : e.so = .columnMajor) (hp : PadInBounds SS e) : Readable SS m (e.mptr SS) (roundUp e.rows SS) e.cols := by
  intro i j hi hj
  by_cases hir : i < e.rows
  · exact h.readable hSS i j hir hj
  refine h.live.alloc _ ?_
  have hr0 : 0 < e.rows := by
    by_contra h0
    have : e.rows = 0 := by omega
    rw [this] at hi
    unfold roundUp at hi
    rw [Nat.zero_add, Nat.div_eq_of_lt (by omega)] at hi
    omega
  have hlow := (e.addr_storage hSS h.fits hr0 (show 0 < e.cols by omega)).1
  rw [← MExpr.data_eq hSS] at hlow
  have ha : (e.mptr SS).addr SS i j = e.data SS + i + (e.spacing SS : Int) * j := by
    rw [MExpr.mptr_fields hSS]
    unfold MPtr.addr
    simp [h.dense, hs]
  rw [ha]
  rcases hp with hp | hp
  · omega
  have hj' : (e.spacing SS : Int) * j ≤ (e.spacing SS : Int) * ((e.cols : Int) - 1) :=
    Int.mul_le_mul_of_nonneg_left (by omega) (by omega)
  have hj0 : 0 ≤ (e.spacing SS : Int) * j := Int.mul_nonneg (by omega) (by omega)
  exact ⟨by omega, by omega⟩

theorem ViewGemmArgs.pre [Arith V] {SS : Nat} {m : Mem V} {A B C D : MExpr} (h : ViewGemmArgs SS m A B C D)
    (h1 : B.rows = A.cols) (h2 : C.rows = A.rows) (h3 : C.cols = B.cols) (h4 : D.rows = A.rows) (h5 : D.cols = B.cols) :
    GemmPre SS A.rows B.cols A.cols (A.mptr SS) (B.mptr SS) (C.mptr SS) (D.mptr SS) m := by
  have hSS := h.ss
  have so : ∀ e : MExpr, (e.mptr SS).so = e.so := fun e => by rw [MExpr.mptr_fields hSS]
  have ad : ∀ e : MExpr, ViewOK SS m e → ∀ i j : Nat, (e.mptr SS).addr SS i j = e.addr SS i j :=
    fun e he i j => e.mptr_addr_dense hSS he.dense i j
  refine ⟨hSS, h.vA.wf hSS, h.vB.wf hSS, h.vC.wf hSS, h.vD.wf hSS, by rw [so, h.sA], by rw [so, h.sC], by rw [so, h.sD],
    h.vA.readablePad hSS h.sA h.pA, ?_, ?_, ?_, ?_, ?_, ?_, ?_⟩
  · have := h.vB.readable hSS; rwa [h1] at this
  · have := h.vC.readablePad hSS h.sC h.pC; rwa [h2, h3] at this
  · have := h.vD.readable hSS; rwa [h4, h5] at this
  · intro i j i' j' hi hj hi' hj' he
    rw [ad D h.vD, ad D h.vD] at he
    exact D.addr_inj hSS h.vD.fits (by omega) (by omega) (by omega) (by omega) he
  · intro i j i' j' hi hj hi' hj'
    rw [ad A h.vA, ad D h.vD]
    exact h.dA i j i' j' hi hj (by omega) (by omega)
  · intro i j i' j' hi hj hi' hj'
    rw [ad B h.vB, ad D h.vD]
    exact h.dB i j i' j' (by omega) hj (by omega) (by omega)
  · intro i j i' j' hi hj hi' hj' he
    rw [ad C h.vC, ad D h.vD] at he
    exact h.dC i j i' j' (by omega) (by omega) (by omega) (by omega) he

open Finset in
/-- **C49**. gemm on views: in exact arithmetic the elements of the view D become `alpha*A*B + beta*C` and no other cell
of memory changes (in particular no other element of the matrix D belongs to), even if A, B, C and D are blocks of one matrix. -/
theorem C49_gemm_views [CommRing V] [Arith V] [ExactRing V] {SS : Nat} {m : Mem V} {A B C D : MExpr}
    (alpha beta : V) (h : ViewGemmArgs SS m A B C D)
    (h1 : B.rows = A.cols) (h2 : C.rows = A.rows) (h3 : C.cols = B.cols) (h4 : D.rows = A.rows) (h5 : D.cols = B.cols)
    {a b c : Nat → Nat → V} (ha : Elems SS m A a) (hb : Elems SS m B b) (hc : Elems SS m C c) :
    ∃ m', gemmMat SS alpha (A.mat SS) (B.mat SS) beta (C.mat SS) (D.mat SS) m = .ok () m' ∧
      Elems SS m' D (fun i j => alpha * (∑ k ∈ range A.cols, a i k * b k j) + beta * c i j) ∧
      (∀ x, ¬ (∃ i j, i < D.rows ∧ j < D.cols ∧ x = D.addr SS i j) → m' x = m x) := by
  have hSS := h.ss
  have ad : ∀ e : MExpr, ViewOK SS m e → ∀ i j : Nat, (e.mptr SS).addr SS i j = e.addr SS i j :=
    fun e he i j => e.mptr_addr_dense hSS he.dense i j
  have vals : ∀ (e : MExpr) (x : Nat → Nat → V), ViewOK SS m e → Elems SS m e x → ∀ i j : Nat, i < e.rows → j < e.cols →
      val m ((e.mptr SS).addr SS i j) = x i j := by
    intro e x he hx i j hi hj
    rw [ad e he]
    unfold Blast.val
    rw [elems_iff.1 hx i j hi hj]; rfl
  obtain ⟨m', e1, e2, e3⟩ := gemmPtr_correct (alpha := alpha) (beta := beta) (h.pre h1 h2 h3 h4 h5)
  refine ⟨m', ?_, elems_iff.2 (fun i j hi hj => ?_), fun x hx => e3 x ?_⟩
  · unfold gemmMat MExpr.mat
    simp only
    rw [if_neg (by simp [h1]), if_neg (by simp [h2, h3]), if_neg (by simp [h4, h5])]
    exact e1
  · rw [← ad D h.vD, e2 i j (by omega) (by omega), vals C c h.vC hc i j (by omega) (by omega)]
    unfold gemmEntry
    rw [fmaSum_congr rfl A.cols (fun k hk => vals A a h.vA ha i k (by omega) hk)
      (fun k hk => vals B b h.vB hb k j (by omega) (by omega))]
    simp only [fmaSum_eq, ExactRing.fma_eq, ExactRing.mul_eq, ExactRing.zero_eq]
    congr 1; ring
  · rintro ⟨i, j, hi, hj, rfl⟩
    exact hx ⟨i, j, by omega, by omega, ad D h.vD i j⟩

/-- **C49** (sizes). gemm on views of inconsistent sizes throws `std::invalid_argument` without side effects. -/
theorem C49_gemm_views_mismatch [Arith V] {SS : Nat} {m : Mem V} {A B C D : MExpr} (alpha beta : V)
    (h : ¬ (B.rows = A.cols ∧ (C.rows = A.rows ∧ C.cols = B.cols) ∧ (D.rows = A.rows ∧ D.cols = B.cols))) :
    gemmMat SS alpha (A.mat SS) (B.mat SS) beta (C.mat SS) (D.mat SS) m = .throw .invalidArgument m := by
  unfold gemmMat MExpr.mat
  simp only
  by_cases h1 : B.rows = A.cols
  · by_cases h2 : C.rows = A.rows ∧ C.cols = B.cols
    · rw [if_neg (by simp [h1]), if_neg (by simp [h2]), if_pos (by
        by_contra h3; simp only [not_or, not_not] at h3; exact h ⟨h1, h2, h3⟩)]
      rfl
    · rw [if_neg (by simp [h1]), if_pos (by
        by_contra h3; simp only [not_or, not_not] at h3; exact h2 h3)]
      rfl
  · rw [if_pos h1]; rfl

/-- `PadInBounds` holds for a submatrix of a column-major dense matrix whose top row is a multiple of the SIMD width … -/
theorem C49_padInBounds_of_aligned_row {SS : Nat} (hSS : 0 < SS) (c : Container) (hd : c.isPanel = false)
    (hs : c.so = .columnMajor) (af : Bool) {i j r n : Nat} (hi : i % SS = 0) (hr : i + r ≤ c.rows) (hn : j + n ≤ c.cols) :
    PadInBounds SS (.sub (.obj c) af i j r n) := by
  by_cases h0 : n = 0
  · exact Or.inl h0
  refine Or.inr ?_
  show c.addr SS i j + roundUp r SS + (c.spacing SS : Int) * ((n : Int) - 1) ≤ c.data + c.capacity SS
  rw [MExpr.dense_addr _ hd, hs]
  have hsp : c.spacing SS = roundUp c.rows SS := by
    unfold Container.spacing Container.majorSize
    rw [if_neg (by simp [hd]), hs]
    exact nextMultiple_eq_roundUp _ hSS
  have hcap : c.capacity SS = c.spacing SS * c.cols := by
    unfold Container.isPanel at hd
    unfold Container.capacity Container.minorSize
    rw [hs]
    cases hk : c.kind <;> rw [hk] at hd <;> simp at hd
  have hir : i + roundUp r SS ≤ c.spacing SS := by
    rw [hsp]
    obtain ⟨q, rfl⟩ := Nat.dvd_of_mod_eq_zero hi
    unfold roundUp
    rw [← Nat.mul_comm q SS, ← Nat.add_mul]
    refine Nat.mul_le_mul_right _ ?_
    rw [Nat.add_comm q, ← Nat.add_mul_div_right _ _ hSS]
    refine Nat.div_le_div_right ?_
    rw [Nat.mul_comm SS q] at hr
    omega
  rw [hcap]
  have hjn : c.spacing SS * (j + n) ≤ c.spacing SS * c.cols := Nat.mul_le_mul_left _ hn
  have e : ((c.spacing SS * (j + n) : Nat) : Int) = (c.spacing SS : Int) * j + (c.spacing SS : Int) * ((n : Int) - 1) + c.spacing SS := by
    push_cast; ring
  simp only
  omega

/-- … and for any fitting submatrix whose number of rows is a multiple of the SIMD width. -/
theorem C49_padInBounds_of_full_rows {SS : Nat} (hSS : 0 < SS) (c : Container) (hd : c.isPanel = false)
    (hs : c.so = .columnMajor) (af : Bool) {i j r n : Nat} (hi : r % SS = 0) (hr : i + r ≤ c.rows) (hn : j + n ≤ c.cols) :
    PadInBounds SS (.sub (.obj c) af i j r n) := by
  by_cases h0 : n = 0
  · exact Or.inl h0
  refine Or.inr ?_
  show c.addr SS i j + roundUp r SS + (c.spacing SS : Int) * ((n : Int) - 1) ≤ c.data + c.capacity SS
  rw [MExpr.dense_addr _ hd, hs]
  have hsp : c.spacing SS = roundUp c.rows SS := by
    unfold Container.spacing Container.majorSize
    rw [if_neg (by simp [hd]), hs]
    exact nextMultiple_eq_roundUp _ hSS
  have hcap : c.capacity SS = c.spacing SS * c.cols := by
    unfold Container.isPanel at hd
    unfold Container.capacity Container.minorSize
    rw [hs]
    cases hk : c.kind <;> rw [hk] at hd <;> simp at hd
  have hrr : roundUp r SS = r := by
    obtain ⟨q, rfl⟩ := Nat.dvd_of_mod_eq_zero hi
    unfold roundUp
    rw [show SS * q + SS - 1 = SS - 1 + SS * q by omega, Nat.add_mul_div_left _ _ hSS, Nat.div_eq_of_lt (by omega), Nat.zero_add,
      Nat.mul_comm]
  have hir : i + roundUp r SS ≤ c.spacing SS := by
    rw [hsp, hrr]
    have := self_le_roundUp (n := c.rows) hSS
    omega
  rw [hcap]
  have hjn : c.spacing SS * (j + n) ≤ c.spacing SS * c.cols := Nat.mul_le_mul_left _ hn
  have e : ((c.spacing SS * (j + n) : Nat) : Int) = (c.spacing SS : Int) * j + (c.spacing SS : Int) * ((n : Int) - 1) + c.spacing SS := by
    push_cast; ring
  simp only
  omega

/-- memory of the witness: cells 0-1, 8-9, 16-17 and 24-25 (the four objects below) are allocated -/
def padMem : Mem Rat := fun x =>
  if (0 ≤ x ∧ x < 2) ∨ (8 ≤ x ∧ x < 10) ∨ (16 ≤ x ∧ x < 18) ∨ (24 ≤ x ∧ x < 26) then some 1 else none

/-- **C49** needs `PadInBounds`: with A the last row of a 2×1 matrix (a fitting, unaligned view), gemm reads outside of the
storage of the matrix. -/
theorem C49_gemm_view_out_of_bounds_refuted :
    ∃ A : MExpr, A.Fits ∧ (∀ x, A.base.Storage 2 x → (padMem x).isSome = true) ∧ A.aligned = false ∧
      gemmMat 2 (1 : Rat) (A.mat 2) ((MExpr.obj ⟨.dynDense, .columnMajor, 1, 1, 8⟩).mat 2) 1
        ((MExpr.obj ⟨.dynDense, .columnMajor, 1, 1, 16⟩).mat 2) ((MExpr.obj ⟨.dynDense, .columnMajor, 1, 1, 24⟩).mat 2)
        padMem = .ub := by
  refine ⟨.sub (.obj ⟨.dynDense, .columnMajor, 2, 1, 0⟩) false 1 0 1 1, ⟨trivial, by decide, by decide⟩, ?_, rfl, ?_⟩
  · intro x hx
    have h1 : (0 : Int) ≤ x := hx.1
    have h2 : x < 0 + ((2 : Nat) : Int) := hx.2
    unfold padMem
    rw [if_pos (by omega)]; rfl
  · refine ub_of_isUb ?_
    decide +kernel

/-! ### The hypotheses are satisfiable -/

/-- a 10×9 column-major dense matrix at address 0, SIMD width 4 -/
def viewObj : Container := ⟨.dynDense, .columnMajor, 10, 9, 0⟩

theorem viewObj_live : Live 4 demoMem viewObj := demo_live (by decide) (by decide) (by decide)

theorem viewObj_elems : Elems 4 demoMem (.obj viewObj) (fun i j => Blast.val demoMem (viewObj.addr 4 i j)) := by
  rw [elems_iff]
  exact viewObj_live.contains (by decide)

/-- C39: a submatrix of a submatrix -/
example : Elems 4 demoMem (((MExpr.obj viewObj).submatrix false 1 2 8 6).submatrix false 2 1 3 4)
    (fun k l => Blast.val demoMem (viewObj.addr 4 (1 + (2 + k)) (2 + (1 + l)))) := by
  have h1 := C39_submatrix_elements false (i := 1) (j := 2) (r := 8) (n := 6) viewObj_elems (by decide) (by decide)
  have h2 := C39_submatrix_elements false (i := 2) (j := 1) (r := 3) (n := 4) h1 (by decide) (by decide)
  exact h2

/-- C39: reset of a block -/
example : ∃ m', ((MExpr.obj viewObj).submatrix false 1 2 8 6).reset 4 demoMem = .ok () m' ∧
    m' (viewObj.addr 4 8 7) = some 0 ∧ m' (viewObj.addr 4 9 7) = demoMem (viewObj.addr 4 9 7) := by
  obtain ⟨m', h1, h2, h3, _⟩ := C39_submatrix_reset (by decide) viewObj_live false (i := 1) (j := 2) (r := 8) (n := 6)
    (by decide) (by decide)
  exact ⟨m', h1, h2 8 7 (by decide) (by decide) (by decide) (by decide), h3 9 7 (by decide) (by decide) (by omega)⟩

/-- C39: copying a block of a matrix to another block of the same matrix -/
example : ∃ m', ((MExpr.obj viewObj).submatrix false 0 0 2 3).assign 4 ((MExpr.obj viewObj).submatrix false 3 1 2 3) demoMem
    = .ok () m' := by
  obtain ⟨m', h, _⟩ := C39_view_assign (SS := 4) (by decide) (m := demoMem) (a := (MExpr.obj viewObj).submatrix false 0 0 2 3)
    (b := (MExpr.obj viewObj).submatrix false 3 1 2 3) ⟨trivial, by decide, by decide⟩ ⟨trivial, by decide, by decide⟩
    viewObj_live viewObj_live rfl rfl (by
      have : ∀ i < 2, ∀ j < 3, ∀ i' < 2, ∀ j' < 3,
        ((MExpr.obj viewObj).submatrix false 3 1 2 3).addr 4 i j ≠ ((MExpr.obj viewObj).submatrix false 0 0 2 3).addr 4 i' j' := by
        decide +kernel
      intro i j i' j' h1 h2 h3 h4 h5
      exact absurd h5 (this i h1 j h2 i' h3 j' h4))
    (C39_submatrix_elements false viewObj_elems (by decide) (by decide))
  exact ⟨m', h⟩

/-- C39: rows and their subvectors -/
example : RowElems 4 demoMem ((RowView.full (.obj viewObj) 7).subvector 2 5)
    (fun k => Blast.val demoMem (viewObj.addr 4 7 (2 + k))) :=
  (C39_subvector_elements (C39_row_elements viewObj_elems (by decide)).2 (by decide)).2

/-- C39: pointer of a view of a panel matrix starting at the second panel -/
example : ((MExpr.sub (.obj ⟨.dynPanel, .columnMajor, 9, 5, 16⟩) true 4 1 5 4).mptr 4).addr 4 ((4 : Nat) : Int) ((3 : Nat) : Int) =
    (⟨.dynPanel, .columnMajor, 9, 5, 16⟩ : Container).addr 4 8 4 :=
  C39_view_pointer (by decide) _ (fun _ => ⟨by decide, by decide⟩) 4 3

/-- C40: all three outcomes occur -/
example : panelSubmatrix 4 ⟨.dynPanel, .columnMajor, 8, 8, 0⟩ 4 3 4 5 demoMem =
      .ok ⟨⟨.dynPanel, .columnMajor, 8, 8, 0⟩, 4, 3, 4, 5⟩ demoMem ∧
    panelSubmatrix 4 ⟨.dynPanel, .columnMajor, 8, 8, 0⟩ 4 3 5 5 demoMem = .throw .invalidArgument demoMem ∧
    panelSubmatrix 4 ⟨.dynPanel, .columnMajor, 8, 8, 0⟩ 3 3 4 5 demoMem = .throw .logicError demoMem := by
  refine ⟨?_, ?_, ?_⟩ <;> rw [C40_panel_submatrix (by decide) (by decide)] <;> rfl

/-- C49: the blocks of one 10×9 matrix: A = rows 4-9, columns 0-1 (aligned), B = rows 1-2, columns 6-8 (unaligned), C = D = rows 4-9,
columns 3-5 -/
theorem viewGemm_demo : ViewGemmArgs 4 demoMem (.sub (.obj viewObj) true 4 0 6 2) (.sub (.obj viewObj) false 1 6 2 3)
    (.sub (.obj viewObj) true 4 3 6 3) (.sub (.obj viewObj) true 4 3 6 3) := by
  have hd : viewObj.isPanel = false := rfl
  have d1 : ∀ i < 6, ∀ j < 2, ∀ i' < 6, ∀ j' < 3, (MExpr.sub (.obj viewObj) true 4 0 6 2).addr 4 i j ≠
      (MExpr.sub (.obj viewObj) true 4 3 6 3).addr 4 i' j' := by decide +kernel
  have d2 : ∀ i < 2, ∀ j < 3, ∀ i' < 6, ∀ j' < 3, (MExpr.sub (.obj viewObj) false 1 6 2 3).addr 4 i j ≠
      (MExpr.sub (.obj viewObj) true 4 3 6 3).addr 4 i' j' := by decide +kernel
  have vC : ViewOK 4 demoMem (.sub (.obj viewObj) true 4 3 6 3) :=
    ⟨rfl, ⟨trivial, by decide, by decide⟩, viewObj_live, fun _ => by decide⟩
  refine ⟨by decide, ⟨rfl, ⟨trivial, by decide, by decide⟩, viewObj_live, fun _ => by decide⟩,
    ⟨rfl, ⟨trivial, by decide, by decide⟩, viewObj_live, fun h => by cases h⟩, vC, vC, rfl, rfl, rfl,
    C49_padInBounds_of_aligned_row (by decide) _ hd rfl _ (by decide) (by decide) (by decide),
    C49_padInBounds_of_aligned_row (by decide) _ hd rfl _ (by decide) (by decide) (by decide),
    fun i j i' j' h1 h2 h3 h4 => d1 i h1 j h2 i' h3 j' h4, fun i j i' j' h1 h2 h3 h4 => d2 i h1 j h2 i' h3 j' h4,
    fun i j i' j' h1 h2 h3 h4 he => MExpr.addr_inj (by decide) _ vC.fits h1 h2 h3 h4 he⟩

example : ∃ m', gemmMat 4 (2 : Rat) ((MExpr.sub (.obj viewObj) true 4 0 6 2).mat 4) ((MExpr.sub (.obj viewObj) false 1 6 2 3).mat 4) 1
    ((MExpr.sub (.obj viewObj) true 4 3 6 3).mat 4) ((MExpr.sub (.obj viewObj) true 4 3 6 3).mat 4) demoMem = .ok () m' := by
  obtain ⟨m', h, _⟩ := C49_gemm_views 2 1 viewGemm_demo rfl rfl rfl rfl rfl
    (C39_submatrix_elements true viewObj_elems (by decide) (by decide))
    (C39_submatrix_elements false viewObj_elems (by decide) (by decide))
    (C39_submatrix_elements true viewObj_elems (by decide) (by decide))
  exact ⟨m', h⟩

end Blast
