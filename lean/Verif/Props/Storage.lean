import Verif.ContainerLemmas
import Verif.Lawful
import Verif.Props.Gemm
/- Concrete cases meeting the hypotheses of these theorems: Verif/Cases/Storage.lean, and the examples in this file. -/
/-
Properties C31-C35, C42, C44: storage, containers, pointers.
-/
set_option linter.unusedSectionVars false
namespace Blast
open Prog
variable {V : Type} [Arith V]

/-! ### C44 -/

/-- **C44**. `nextMultiple v f` is the least multiple of `f` that is at least `v`. -/
theorem C44_nextMultiple_least (v : Nat) {f : Nat} (hf : 0 < f) :
    f ∣ nextMultiple v f ∧ v ≤ nextMultiple v f ∧ ∀ w, f ∣ w → v ≤ w → nextMultiple v f ≤ w := by
  obtain ⟨h1, h2, h3⟩ := nextMultiple_spec v hf
  refine ⟨Nat.dvd_of_mod_eq_zero h1, h2, ?_⟩
  rintro w ⟨q, rfl⟩ hw
  have h4 := Nat.div_add_mod (nextMultiple v f) f
  rw [h1, Nat.add_zero] at h4
  rw [← h4] at h3 ⊢
  refine Nat.mul_le_mul_left f ?_
  have : f * (nextMultiple v f / f) < f * (q + 1) := by rw [Nat.mul_add]; omega
  have := Nat.lt_of_mul_lt_mul_left this
  omega

/-- **C44** (consequence for matrices). In every blast matrix with SIMD-aligned storage, each SIMD group of
consecutive elements along the storage direction that contains at least one element starts at a multiple of
the SIMD width and lies completely inside the allocated storage: column-major case (columns). -/
theorem C44_columns_padded {SS : Nat} (hSS : 0 < SS) (c : Container) (hs : c.so = .columnMajor)
    (hal : (SS : Int) ∣ c.data) {g j : Nat} (hg : g * SS < c.rows) (hj : j < c.cols) :
    (SS : Int) ∣ c.addr SS (g * SS) j ∧
    ∀ l, l < SS → c.addr SS (g * SS + l) j = c.addr SS (g * SS) j + l ∧
      c.data ≤ c.addr SS (g * SS + l) j ∧ c.addr SS (g * SS + l) j < c.data + c.capacity SS := by
  have hal' : c.data % (SS : Int) = 0 := Int.emod_eq_zero_of_dvd hal
  have hw := c.mptr_wf hSS hal'
  have so : (c.mptr SS).so = .columnMajor := by rw [Container.mptr_eq]; exact hs
  have hgm : ((g * SS : Nat) : Int) % (SS : Int) = 0 := by rw [Int.natCast_mul]; exact Int.mul_emod_left _ _
  constructor
  · have := (at_off hSS hw (g * SS) j (fun _ => by unfold MPtr.major; rw [so]; exact hgm)).ptr_mod hw
      (by unfold MPtr.off; rw [Container.mptr_eq]; rfl)
    have e : ((c.mptr SS).off SS (g * SS : Nat) j).ptr = c.addr SS (g * SS) j := by
      rw [Container.addr_eq_mptr]; rfl
    rw [e] at this
    exact Int.dvd_of_emod_eq_zero this
  · intro l hl
    have h1 := MPtr.addr_contig hw so (g * SS : Nat) j (fun _ => hgm) l hl
    rw [← Int.natCast_add, ← Container.addr_eq_mptr, ← Container.addr_eq_mptr] at h1
    refine ⟨h1, ?_⟩
    have h2 : g * SS + l < roundUp c.rows SS := by
      have : g * SS + SS ≤ roundUp c.rows SS := le_roundUp hSS (by
        rw [Nat.add_mod_right]; exact Nat.mul_mod_left _ _) (by omega)
      omega
    exact c.addr_storage_pad hSS hs h2 hj

/-- the transposed matrix object: same storage -/
def Container.flip (c : Container) : Container := { c with so := c.so.flip, rows := c.cols, cols := c.rows }

theorem Container.flip_addr (SS : Nat) (c : Container) (i j : Nat) : c.flip.addr SS i j = c.addr SS j i := by
  obtain ⟨k, so, r, n, d⟩ := c
  unfold Container.flip Container.addr Container.elementIndex Container.spacing
  cases k <;> cases so <;> simp [Container.isPanel, SO.flip, Container.minorSize, Container.majorSize] <;> omega

theorem Container.flip_capacity (SS : Nat) (c : Container) : c.flip.capacity SS = c.capacity SS := by
  obtain ⟨k, so, r, n, d⟩ := c
  unfold Container.flip Container.capacity Container.spacing
  cases k <;> cases so <;> simp [Container.isPanel, SO.flip, Container.minorSize, Container.majorSize]

/-- **C44** (consequence for matrices), row-major case (rows). -/
theorem C44_rows_padded {SS : Nat} (hSS : 0 < SS) (c : Container) (hs : c.so = .rowMajor)
    (hal : (SS : Int) ∣ c.data) {g i : Nat} (hg : g * SS < c.cols) (hi : i < c.rows) :
    (SS : Int) ∣ c.addr SS i (g * SS) ∧
    ∀ l, l < SS → c.addr SS i (g * SS + l) = c.addr SS i (g * SS) + l ∧
      c.data ≤ c.addr SS i (g * SS + l) ∧ c.addr SS i (g * SS + l) < c.data + c.capacity SS := by
  have := C44_columns_padded hSS c.flip (by unfold Container.flip; rw [hs]; rfl) hal (g := g) (j := i) hg hi
  simp only [Container.flip_addr, Container.flip_capacity] at this
  exact this

/-- a non-trivial case: the second SIMD group of the last column of a 5 × 3 matrix -/
example : demoA.so = .columnMajor ∧ ((4 : Nat) : Int) ∣ demoA.data ∧ 1 * 4 < demoA.rows ∧ 2 < demoA.cols := by
  decide

/-! ### C31 -/

/-- **C31**. Distinct elements of a matrix have distinct addresses and every element lies in the matrix'
own storage - for dense and panel, static and dynamic matrices, both storage orders, all sizes. -/
theorem C31_storage_injective_in_bounds {SS : Nat} (hSS : 0 < SS) (c : Container) :
    (∀ i j, i < c.rows → j < c.cols →
      c.data ≤ c.addr SS i j ∧ c.addr SS i j < c.data + c.capacity SS) ∧
    (∀ i j i' j', i < c.rows → j < c.cols → i' < c.rows → j' < c.cols →
      c.addr SS i j = c.addr SS i' j' → i = i' ∧ j = j') := by
  refine ⟨fun i j hi hj => c.addr_storage hSS hi hj, ?_⟩
  intro i j i' j' hi hj hi' hj' he
  have := c.inj hSS i j i' j' hi hj hi' hj'
  rw [← Container.addr_eq_mptr, ← Container.addr_eq_mptr] at this
  exact this he

/-! ### C32 -/

/-- element operations a user can perform on a matrix -/
inductive ElemOp (V : Type) where
  | write (i j : Nat) (v : V)
  | read (i j : Nat)

/-- the operation is within the matrix -/
def ElemOp.InBounds (c : Container) : ElemOp V → Prop
  | .write i j _ => i < c.rows ∧ j < c.cols
  | .read i j => i < c.rows ∧ j < c.cols

/-- run operations on the matrix object, collecting the values read -/
def runElemOps (SS : Nat) (c : Container) : List (ElemOp V) → Prog V (List V)
  | [] => pure []
  | .write i j v :: ops => do c.set SS i j v; runElemOps SS c ops
  | .read i j :: ops => do
      let v ← c.get SS i j
      let vs ← runElemOps SS c ops
      pure (v :: vs)

/-- the same operations on a plain map from index pairs to values -/
def specElemOps : (Nat → Nat → V) → List (ElemOp V) → List V
  | _, [] => []
  | f, .write i j v :: ops => specElemOps (fun i' j' => if i' = i ∧ j' = j then v else f i' j') ops
  | f, .read i j :: ops => f i j :: specElemOps f ops

theorem runElemOps_spec {SS : Nat} (hSS : 0 < SS) (c : Container) (ops : List (ElemOp V))
    (hb : ∀ o ∈ ops, o.InBounds c) (f : Nat → Nat → V) (m : Mem V) (hc : Contains SS m c f) :
    Runs (runElemOps SS c ops) m (fun r m' => r = specElemOps f ops ∧ OnlyElemsChange SS m m' c) := by
  induction ops generalizing f m with
  | nil => exact runs_pure ⟨rfl, fun _ _ => rfl⟩
  | cons o ops ih =>
    have ho := hb o (by simp)
    have hb' : ∀ o ∈ ops, o.InBounds c := fun o h => hb o (by simp [h])
    cases o with
    | write i j v =>
      obtain ⟨hi, hj⟩ := ho
      unfold runElemOps
      refine Runs.bind (runs_write (Q := fun _ m' =>
        m' = fun y => if y = c.addr SS i j then some v else m y) (by rw [hc i j hi hj]; rfl) rfl) ?_
      rintro _ m' rfl
      refine (ih hb' (fun i' j' => if i' = i ∧ j' = j then v else f i' j') _ ?_).mono ?_
      · intro i' j' hi' hj'
        dsimp only
        by_cases he : i' = i ∧ j' = j
        · obtain ⟨rfl, rfl⟩ := he; rw [if_pos rfl, if_pos ⟨rfl, rfl⟩]
        · rw [if_neg he, if_neg (fun h => he ((C31_storage_injective_in_bounds hSS c).2 _ _ _ _ hi' hj' hi hj h)),
            hc i' j' hi' hj']
      · rintro r m'' ⟨rfl, h2⟩
        refine ⟨rfl, fun x hx => ?_⟩
        rw [h2 x hx]
        dsimp only
        rw [if_neg (fun h => hx ⟨i, j, hi, hj, h⟩)]
    | read i j =>
      obtain ⟨hi, hj⟩ := ho
      unfold runElemOps
      refine Reads.bind_runs (reads_read (hc i j hi hj)) ?_
      refine Runs.bind (ih hb' f m hc) ?_
      rintro r m' ⟨rfl, h2⟩
      exact runs_pure ⟨rfl, h2⟩

/-- **C32**. A newly constructed matrix behaves, under every finite history of element reads and writes, like a map
from index pairs to values that is initially 0 everywhere; nothing outside the object's storage changes. -/
theorem C32_matrix_is_map {SS : Nat} (hSS : 0 < SS) (c : Container) (m : Mem V) (ops : List (ElemOp V))
    (hb : ∀ o ∈ ops, o.InBounds c) :
    ∃ m', (do c.construct SS; runElemOps SS c ops) m = .ok (specElemOps (fun _ _ => Arith.zero) ops) m' ∧
      ∀ x, ¬ c.Storage SS x → m' x = m x := by
  have h0 : (c.construct SS : Prog V Unit) m = .ok () (fun x =>
      if c.data ≤ x ∧ x < c.data + c.capacity SS then some Arith.zero else m x) := rfl
  have hc : Contains SS (fun x =>
      if c.data ≤ x ∧ x < c.data + c.capacity SS then some (Arith.zero : V) else m x) c
      (fun _ _ => Arith.zero) := by
    intro i j hi hj
    dsimp only
    have hst : c.data ≤ c.addr SS i j ∧ c.addr SS i j < c.data + c.capacity SS := c.addr_storage hSS hi hj
    rw [if_pos hst]
  obtain ⟨r, m', h1, rfl, h2⟩ := runElemOps_spec hSS c ops hb _ _ hc
  refine ⟨m', by rw [bind_ok h0]; exact h1, fun x hx => ?_⟩
  rw [h2 x (fun ⟨i, j, hi, hj, he⟩ => hx (he ▸ c.addr_storage hSS hi hj))]
  dsimp only
  have hst : ¬ (c.data ≤ x ∧ x < c.data + c.capacity SS) := hx
  rw [if_neg hst]

example : ∀ o ∈ [ElemOp.write 1 2 (7 : Rat), .read 1 2, .write 1 2 8, .read 1 2, .read 0 2],
    o.InBounds demoA := by
  intro o ho
  simp only [List.mem_cons, List.not_mem_nil, or_false] at ho
  rcases ho with rfl | rfl | rfl | rfl | rfl <;> exact ⟨by decide, by decide⟩

/-! ### C33 -/

/-- **C33** for the dense matrix classes. -/
theorem C33_reset_dense {SS : Nat} (hSS : 0 < SS) (c : Container) (hk : c.kind = .dynDense ∨ c.kind = .statDense)
    (m : Mem V) (hl : Live SS m c) :
    ∃ m', c.reset SS m = .ok () m' ∧ Contains SS m' c (fun _ _ => Arith.zero) ∧
      ∀ x, ¬ c.Storage SS x → m' x = m x := by
  have hp : c.reset SS = (fillN c.data (c.capacity SS) Arith.zero : Prog V Unit) := by
    unfold Container.reset Container.capacity
    rcases hk with hk | hk <;> rw [hk]
  obtain ⟨_, m', h1, h2⟩ := runs_fillN (v := (Arith.zero : V)) (fun x h1 h2 => hl.alloc x ⟨h1, h2⟩)
  exact ⟨m', by rw [hp]; exact h1, fun i j hi hj => (h2 _).1 (c.addr_storage hSS hi hj),
    fun x hx => (h2 x).2 hx⟩

/-- **C33** for DynamicPanelMatrix: that reset() is always right is false (see the two counterexamples below). It
is right when the extent across the panels is between the number of panels and the padded extent along them (and only then:
`C33_reset_panel_iff`). -/
theorem C33_reset_panel {SS : Nat} (hSS : 0 < SS) (c : Container) (hk : c.kind = .dynPanel)
    (m : Mem V) (hl : Live SS m c) (h1 : c.minorSize ≤ nextMultiple c.majorSize SS)
    (h2 : nextMultiple c.majorSize SS ≤ SS * c.minorSize) :
    ∃ m', c.reset SS m = .ok () m' ∧ Contains SS m' c (fun _ _ => Arith.zero) ∧
      ∀ x, ¬ c.Storage SS x → m' x = m x := by
  have hpan : c.isPanel = true := by unfold Container.isPanel; rw [hk]
  have hp : c.reset SS = (fillN c.data (c.spacing SS * c.minorSize) Arith.zero : Prog V Unit) := by
    unfold Container.reset; rw [hk]
  have hcap : c.capacity SS = c.spacing SS * nextMultiple c.majorSize SS := by
    unfold Container.capacity; rw [hk]
  have hle : c.spacing SS * c.minorSize ≤ c.capacity SS := by rw [hcap]; exact Nat.mul_le_mul_left _ h1
  obtain ⟨_, m', e1, e2⟩ := runs_fillN (v := (Arith.zero : V)) (n := c.spacing SS * c.minorSize)
    (fun x h1 h2 => hl.alloc x ⟨h1, by omega⟩)
  refine ⟨m', by rw [hp]; exact e1, fun i j hi hj => (e2 _).1 ?_, fun x hx => (e2 x).2 (fun hc => hx ⟨hc.1, by omega⟩)⟩
  obtain ⟨a1, a2⟩ := c.maj_lt hSS hi hj
  have hei := Container.elementIndex_panel (SS := SS) hpan i j
  have hsp : c.spacing SS = SS * c.minorSize := by unfold Container.spacing; rw [if_pos hpan]
  have hlt : c.elementIndex SS i j < c.spacing SS * c.minorSize := by
    rw [hei, hsp]
    have hml := Nat.mod_lt (c.maj i j) hSS
    have hq : c.maj i j / SS < c.minorSize := by
      rw [Nat.div_lt_iff_lt_mul hSS, Nat.mul_comm]; omega
    have e1 := Nat.mul_le_mul_right (SS * c.minorSize) (show c.maj i j / SS + 1 ≤ c.minorSize from hq)
    rw [Nat.add_mul, Nat.mul_comm c.minorSize] at e1
    have e2 := Nat.mul_le_mul_right SS (show c.min' i j + 1 ≤ c.minorSize from a2)
    rw [Nat.add_mul, Nat.mul_comm c.minorSize] at e2
    omega
  unfold Container.addr
  omega

/-- **C33** is false for DynamicPanelMatrix (1): a wide matrix. Whenever the extent across the panels exceeds the
padded extent along the panels and just the matrix' storage is allocated, reset() writes out of bounds. -/
theorem C33_reset_panel_out_of_bounds {SS : Nat} (hSS : 0 < SS) (c : Container) (hk : c.kind = .dynPanel)
    (m : Mem V) (hl : Live SS m c) (hw : nextMultiple c.majorSize SS < c.minorSize)
    (hend : m (c.data + c.capacity SS) = none) : c.reset SS m = .ub := by
  have hp : c.reset SS = (fillN c.data (c.spacing SS * c.minorSize) Arith.zero : Prog V Unit) := by
    unfold Container.reset; rw [hk]
  have hpan : c.isPanel = true := by unfold Container.isPanel; rw [hk]
  have hcap : c.capacity SS = c.spacing SS * nextMultiple c.majorSize SS := by
    unfold Container.capacity; rw [hk]
  have hpos : 0 < c.spacing SS := by
    unfold Container.spacing; rw [if_pos hpan]; exact Nat.mul_pos hSS (by omega)
  rw [hp]
  refine fillN_ub (k := c.capacity SS) ?_ (fun k hk' => hl.alloc _ ⟨by omega, by omega⟩) hend
  rw [hcap]; exact Nat.mul_lt_mul_of_pos_left hw hpos

/-- **C33** is false for DynamicPanelMatrix (2): a tall matrix. Elements of panels beyond the first
`minorSize` panels keep their value. -/
theorem C33_reset_panel_incomplete {SS : Nat} (c : Container) (hk : c.kind = .dynPanel)
    (m m' : Mem V) (hrun : c.reset SS m = .ok () m') {i j : Nat}
    (hfar : c.spacing SS * c.minorSize ≤ c.elementIndex SS i j) :
    m' (c.addr SS i j) = m (c.addr SS i j) := by
  have hp : c.reset SS = (fillN c.data (c.spacing SS * c.minorSize) Arith.zero : Prog V Unit) := by
    unfold Container.reset; rw [hk]
  rw [hp] at hrun
  have key : ∀ (n : Nat) (m' : Mem V), fillN c.data n (Arith.zero : V) m = .ok () m' →
      ∀ x, c.data + n ≤ x → m' x = m x := by
    intro n
    induction n with
    | zero => intro m' h x _; cases h; rfl
    | succ n ih =>
      intro m' h x hx
      have e : fillN c.data (n + 1) (Arith.zero : V) m =
        (fillN c.data n Arith.zero >>= fun _ => write (c.data + (n : Nat)) Arith.zero) m := rfl
      rw [e] at h
      cases h1 : fillN c.data n (Arith.zero : V) m with
      | ok a m1 =>
        rw [bind_ok h1] at h
        unfold write at h
        cases h2 : m1 (c.data + (n : Nat)) with
        | none => rw [h2] at h; cases h
        | some v =>
          rw [h2] at h
          injection h with _ h
          subst h
          dsimp only
          rw [if_neg (by omega)]
          exact ih m1 h1 x (by omega)
      | _ => exfalso; change bind' _ _ m = _ at h; unfold bind' at h; rw [h1] at h; cases h
  refine key _ m' hrun _ ?_
  unfold Container.addr
  omega

/-- **C33** for DynamicPanelMatrix, exactly: for a matrix with at least one element, `reset()` zeroes all elements without touching memory
outside of the matrix, whatever the contents, iff the extent across the panels is at most the padded extent along the
panels, and at least the number of panels. -/
theorem C33_reset_panel_iff {SS : Nat} (hSS : 0 < SS) (c : Container) (hk : c.kind = .dynPanel) (hal : c.data % (SS : Int) = 0)
    (hr : 0 < c.rows) (hc : 0 < c.cols) (hv : ∃ v : V, v ≠ Arith.zero) :
    (∀ m : Mem V, Live SS m c → (∀ x, ¬ c.Storage SS x → m x = none) →
      ∃ m', c.reset SS m = .ok () m' ∧ Contains SS m' c (fun _ _ => Arith.zero)) ↔
    (c.minorSize ≤ nextMultiple c.majorSize SS ∧ nextMultiple c.majorSize SS ≤ SS * c.minorSize) := by
  constructor
  · intro h
    obtain ⟨v, hv⟩ := hv
    let m : Mem V := fun x => if c.data ≤ x ∧ x < c.data + c.capacity SS then some v else none
    have hl : Live SS m c := ⟨hal, fun x hx => by
      show (if c.data ≤ x ∧ x < c.data + c.capacity SS then some v else none).isSome = true
      rw [if_pos (show c.data ≤ x ∧ x < c.data + c.capacity SS from hx)]; rfl⟩
    have hout : ∀ x, ¬ c.Storage SS x → m x = none := fun x hx => if_neg hx
    obtain ⟨m', h1, h2⟩ := h m hl hout
    have p1 : c.minorSize ≤ nextMultiple c.majorSize SS := by
      rcases Nat.lt_or_ge (nextMultiple c.majorSize SS) c.minorSize with hlt | hge
      · have := C33_reset_panel_out_of_bounds hSS c hk m hl hlt (hout _ (fun hx => by have := hx.2; omega))
        rw [this] at h1; cases h1
      · exact hge
    refine ⟨p1, ?_⟩
    rcases Nat.lt_or_ge (SS * c.minorSize) (nextMultiple c.majorSize SS) with hlt | hge
    · exfalso
      have hpan : c.isPanel = true := by unfold Container.isPanel; rw [hk]
      have hM : 0 < c.majorSize := by unfold Container.majorSize; cases c.so <;> assumption
      obtain ⟨i, j, hi, hj, hmaj⟩ : ∃ i j, i < c.rows ∧ j < c.cols ∧ c.maj i j = c.majorSize - 1 := by
        unfold Container.maj Container.majorSize
        cases c.so
        · exact ⟨0, c.cols - 1, hr, by omega, rfl⟩
        · exact ⟨c.rows - 1, 0, by omega, hc, rfl⟩
      have hfar : c.spacing SS * c.minorSize ≤ c.elementIndex SS i j := by
        rw [Container.elementIndex_panel hpan, hmaj]
        have hsp : c.spacing SS = SS * c.minorSize := by unfold Container.spacing; rw [if_pos hpan]
        have hq : c.minorSize ≤ (c.majorSize - 1) / SS := by
          rw [nextMultiple_eq_roundUp _ hSS] at hlt
          unfold roundUp at hlt
          have e : (c.majorSize + SS - 1) / SS = (c.majorSize - 1) / SS + 1 := by
            rw [show c.majorSize + SS - 1 = (c.majorSize - 1) + SS by omega, Nat.add_div_right _ hSS]
          rw [e, Nat.mul_comm SS] at hlt
          exact Nat.lt_succ_iff.1 (Nat.lt_of_mul_lt_mul_right hlt)
        have := Nat.mul_le_mul_right (SS * c.minorSize) hq
        rw [hsp, Nat.mul_comm (SS * c.minorSize)]
        omega
      have h3 := C33_reset_panel_incomplete c hk m m' h1 hfar
      rw [h2 i j hi hj] at h3
      have h4 : m (c.addr SS i j) = some v := if_pos (c.addr_storage hSS hi hj)
      rw [h4] at h3
      injection h3 with h3
      exact hv h3.symm
    · exact hge
  · rintro ⟨h1, h2⟩ m hl _
    obtain ⟨m', e1, e2, _⟩ := C33_reset_panel hSS c hk m hl h1 h2
    exact ⟨m', e1, e2⟩

/-- wide: a 1 × 5 double matrix with AVX2 (capacity 80, reset() clears 100 elements) -/
example : (⟨.dynPanel, .columnMajor, 1, 5, 0⟩ : Container).capacity 4 = 80 ∧
    nextMultiple (⟨.dynPanel, .columnMajor, 1, 5, 0⟩ : Container).majorSize 4 <
      (⟨.dynPanel, .columnMajor, 1, 5, 0⟩ : Container).minorSize := by decide
/-- tall: in a 5 × 1 matrix the element (4,0) is not cleared -/
example : (⟨.dynPanel, .columnMajor, 5, 1, 0⟩ : Container).spacing 4 *
    (⟨.dynPanel, .columnMajor, 5, 1, 0⟩ : Container).minorSize ≤
    (⟨.dynPanel, .columnMajor, 5, 1, 0⟩ : Container).elementIndex 4 4 0 := by decide
/-- the sizes for which it is right include e.g. square panel matrices -/
example : (⟨.dynPanel, .columnMajor, 7, 7, 0⟩ : Container).minorSize ≤ nextMultiple 7 4 ∧
    nextMultiple 7 4 ≤ 4 * (⟨.dynPanel, .columnMajor, 7, 7, 0⟩ : Container).minorSize := by decide

/-! ### C34 -/

/-- length of the longest row is at most `n` iff every row has length at most `n` -/
theorem determineColumns_le (list : List (List V)) (n : Nat) :
    Container.determineColumns list ≤ n ↔ ∀ r ∈ list, r.length ≤ n := by
  unfold Container.determineColumns
  have key : ∀ (l : List (List V)) (k : Nat),
      l.foldl (fun n r => max n r.length) k ≤ n ↔ k ≤ n ∧ ∀ r ∈ l, r.length ≤ n := by
    intro l
    induction l with
    | nil => intro k; simp
    | cons r l ih =>
      intro k
      rw [List.foldl_cons, ih]
      simp only [List.mem_cons, forall_eq_or_imp, Nat.max_le, and_assoc]
  rw [key]; simp

/-- **C34**. Construction of a static (dense or panel) matrix from a list of rows throws
`std::invalid_argument` iff the number of rows differs from M or some row is longer than N; otherwise element
(i,j) is the j-th entry of the i-th row, or 0 if that row is too short, and the padding is 0. Only the object's own storage is written. -/
theorem C34_initializer_list {SS : Nat} (hSS : 0 < SS) (c : Container) (list : List (List V)) (m : Mem V)
    (hl : Live SS m c) :
    ((list.length ≠ c.rows ∨ ∃ r ∈ list, c.cols < r.length) →
      ∃ m', c.initList SS list m = .throw .invalidArgument m' ∧ ∀ x, ¬ c.Storage SS x → m' x = m x) ∧
    ((list.length = c.rows ∧ ∀ r ∈ list, r.length ≤ c.cols) →
      ∃ m', c.initList SS list m = .ok () m' ∧
        Contains SS m' c (fun i j => ((list[i]?.getD [])[j]?).getD Arith.zero) ∧
        (∀ x, c.Storage SS x → ¬ IsElem SS c x → m' x = some Arith.zero) ∧
        ∀ x, ¬ c.Storage SS x → m' x = m x) := by
  obtain ⟨_, m1, e1, e2⟩ := runs_fillN (v := (Arith.zero : V)) (fun x h1 h2 => hl.alloc x ⟨h1, h2⟩)
  have hdc := determineColumns_le list c.cols
  constructor
  · intro h
    refine ⟨m1, ?_, fun x hx => (e2 x).2 hx⟩
    unfold Container.initList
    rw [bind_ok e1, if_pos]
    · rfl
    · rcases h with h | ⟨r, hr, hlen⟩
      · exact Or.inl h
      · right
        by_contra hc
        have := hdc.1 (by omega) r hr
        omega
  · rintro ⟨h1, h2⟩
    have hw : ∀ i, i < list.length → (list.getD i []).length ≤ c.cols := by
      intro i hi
      rw [List.getD_eq_getElem?_getD, List.getElem?_eq_getElem hi]
      exact h2 _ (List.getElem_mem hi)
    obtain ⟨_, m2, f1, f2, f3⟩ := runs_elemLoop (c := c) (r := list.length) (w := fun i => (list.getD i []).length)
      (m := m1) hSS (by omega) hw
      (body := fun i j => c.set SS i j ((list.getD i []).getD j Arith.zero))
      (fun i j => (list.getD i []).getD j Arith.zero)
      (fun i j hi hj => by
        have := hw i hi
        rw [(e2 _).1 (c.addr_storage hSS (by omega) (by omega))]; rfl)
      (fun i j m' hi hj _ _ ha => runs_write (ha i j hi hj) rfl)
    refine ⟨m2, ?_, ?_, fun x hx he => ?_, fun x hx => ?_⟩
    · unfold Container.initList
      rw [bind_ok e1, if_neg]
      · exact f1
      · rintro (hc | hc)
        · exact hc h1
        · have := hdc.2 h2; omega
    · intro i j hi hj
      have hil : i < list.length := by omega
      have hgetD : list.getD i [] = list[i]?.getD [] := by rw [List.getD_eq_getElem?_getD]
      by_cases hjl : j < (list.getD i []).length
      · rw [f2 i j hil hjl, List.getD_eq_getElem?_getD, hgetD]
      · rw [f3 _ (by
          rintro ⟨i', j', a, b, he⟩
          have hw' := hw i' a
          obtain ⟨rfl, rfl⟩ := (C31_storage_injective_in_bounds hSS c).2 _ _ _ _ hi hj (by omega) (by omega) he
          exact hjl b)]
        rw [(e2 _).1 (c.addr_storage hSS hi hj)]
        dsimp only
        rw [← hgetD]
        congr 1
        rw [List.getElem?_eq_none (by omega)]; rfl
    · rw [f3 x (by
        rintro ⟨i', j', a, b, rfl⟩
        have hw' := hw i' a
        exact he ⟨i', j', by omega, by omega, rfl⟩)]
      exact (e2 x).1 hx
    · rw [f3 x (by
        rintro ⟨i', j', a, b, rfl⟩
        have hw' := hw i' a
        exact hx (c.addr_storage hSS (by omega) (by omega)))]
      exact (e2 x).2 hx

/-- a list that is accepted for a 2 × 3 matrix, with a short row -/
example : ([[1, 2, 3], [4]] : List (List Rat)).length = (⟨.statDense, .rowMajor, 2, 3, 0⟩ : Container).rows ∧
    ∀ r ∈ ([[1, 2, 3], [4]] : List (List Rat)), r.length ≤ (⟨.statDense, .rowMajor, 2, 3, 0⟩ : Container).cols := by
  constructor
  · rfl
  · intro r hr
    simp only [List.mem_cons, List.not_mem_nil, or_false] at hr
    rcases hr with rfl | rfl <;> decide
example : Live 4 demoMem ⟨.statDense, .rowMajor, 2, 3, 0⟩ := demo_live (by decide) (by decide) (by decide)

/-! ### C35 -/

/-- **C35**. `ptr(m, i, j)` (aligned or not) points to the cell of `m(i, j)`. -/
theorem C35_ptr_of_matrix {SS : Nat} (c : Container) (aligned : Bool) (hal : (SS : Int) ∣ c.data) (i j : Nat) :
    (c.ptrAt SS aligned i j).ptr = c.addr SS i j :=
  c.ptrAt_ptr aligned (Int.emod_eq_zero_of_dvd hal) i j

/-- **C35**, dense pointers: all laws hold without any condition. -/
theorem C35_dense_pointer_laws {SS : Nat} (hSS : 0 < SS) (p : MPtr) (hp : p.panel = false) (i j k l : Int) :
    (p.off SS i j).addr SS k l = p.addr SS (i + k) (j + l) ∧
    (p.off SS i j).ptr = p.addr SS i j ∧
    p.hmove SS l = p.off SS 0 l ∧ p.vmove SS k = p.off SS k 0 ∧
    (p.trans SS).addr SS i j = p.addr SS j i ∧ (p.unal SS).addr SS i j = p.addr SS i j := by
  refine ⟨?_, rfl, MPtr.hmove_eq_off (by simp [hp]) (by simp [hp]) l, MPtr.vmove_eq_off (by simp [hp]) (by simp [hp]) k,
    MPtr.trans_addr hSS p i j, ?_⟩
  · unfold MPtr.off MPtr.addr
    simp only [hp, Bool.false_eq_true, if_false]
    cases hs : p.so <;> simp only <;> rw [Int.mul_add] <;> omega
  · rw [MPtr.unal_ptr hSS]
    unfold MPtr.addr
    simp [hp]

/-- **C35**, panel pointers to the origin of a matrix (panel-aligned address and spacing). Offsets compose if the
pointer is unaligned or the first offset is a multiple of the panel size (the alignment contract of an aligned
pointer). -/
theorem C35_panel_pointer_laws {SS : Nat} (hSS : 0 < SS) (p : MPtr) (hp : p.panel = true)
    (h1 : (SS : Int) ∣ p.ptr) (h2 : (SS : Int) ∣ p.spacing) (i j k l : Int)
    (ha : p.aligned = true → (SS : Int) ∣ (match p.so with | .columnMajor => i | .rowMajor => j)) :
    (p.off SS i j).addr SS k l = p.addr SS (i + k) (j + l) ∧
    p.hmove SS l = p.off SS 0 l ∧ p.vmove SS k = p.off SS k 0 ∧
    (p.trans SS).addr SS i j = p.addr SS j i ∧ (p.unal SS).addr SS i j = p.addr SS i j := by
  have e1 := Int.emod_eq_zero_of_dvd h1
  have hw : p.WF SS := fun _ => ⟨e1, Int.emod_eq_zero_of_dvd h2⟩
  have hat := (MPtr.At.refl hSS p).off hSS hw i j (fun h => Int.emod_eq_zero_of_dvd (by
    have := ha h
    unfold MPtr.major; cases hs : p.so <;> rw [hs] at this <;> exact this))
  rw [Int.zero_add, Int.zero_add] at hat
  refine ⟨hat.addr hSS hw k l, MPtr.hmove_eq_off (fun _ _ => e1) (fun _ _ _ => hSS) l,
    MPtr.vmove_eq_off (fun _ _ => e1) (fun _ _ _ => hSS) k, MPtr.trans_addr hSS p i j, ?_⟩
  have := ((MPtr.At.refl hSS p).unal hSS).addr hSS hw i j
  rw [Int.zero_add, Int.zero_add] at this
  exact this

example : (demoC.mptr 4).panel = true ∧ ((4 : Nat) : Int) ∣ (demoC.mptr 4).ptr ∧
    ((4 : Nat) : Int) ∣ (demoC.mptr 4).spacing := by decide

/-- **C35** fails for `vmove` of a panel pointer that is not at a panel boundary: from row 3 of the first panel of a
5 × 7 panel matrix (SIMD width 4) `vmove(1)` goes to the element (0,1) instead of (4,0). -/
theorem C35_vmove_inside_panel_wrong :
    (((demoC.mptr 4).unal 4).off 4 3 0).vmove 4 1 = ((demoC.mptr 4).unal 4).off 4 0 1 ∧
    (((demoC.mptr 4).unal 4).off 4 3 0).vmove 4 1 ≠ ((demoC.mptr 4).unal 4).off 4 (3 + 1) 0 := by
  decide

/-! ### C42 -/

/-- **C42**, generic `assign(a, b)`. `a` and `b` may be any two matrix objects, also of different classes and
storage orders, with disjoint storage or identical. -/
theorem C42_assign {SS : Nat} (hSS : 0 < SS) (a b : Container) (m : Mem V) (la : Live SS m a) (lb : Live SS m b)
    (hab : a = b ∨ Apart SS b a) {f : Nat → Nat → V} (hf : Contains SS m b f) :
    ((a.rows ≠ b.rows ∨ a.cols ≠ b.cols) → assignMat SS a b m = .throw .invalidArgument m) ∧
    ((a.rows = b.rows ∧ a.cols = b.cols) →
      ∃ m', assignMat SS a b m = .ok () m' ∧ Contains SS m' a f ∧ OnlyElemsChange SS m m' a) := by
  constructor
  · intro h
    unfold assignMat; rw [if_pos h]; rfl
  · rintro ⟨h1, h2⟩
    obtain ⟨_, m', e1, e2, e3⟩ := runs_elemLoop (c := a) (r := a.rows) (w := fun _ => a.cols) (m := m) hSS
      (Nat.le_refl _) (fun _ _ => Nat.le_refl _)
      (body := fun i j => do let v ← b.get SS i j; a.set SS i j v) f
      (fun i j hi hj => la.alloc _ (a.addr_storage hSS hi hj))
      (fun i j m' hi hj h3 h4 h5 => by
        refine Reads.bind_runs (a := f i j) (reads_read ?_) (runs_write (h5 i j hi hj) rfl)
        rcases hab with rfl | hd
        · rw [h4 i j hi hj (Or.inr ⟨rfl, Nat.le_refl _⟩)]; exact hf i j hi hj
        · rw [h3]
          · exact hf i j (by omega) (by omega)
          · rintro ⟨i', j', hi', hj', he⟩
            refine hd _ (b.addr_storage hSS (show i < b.rows by omega) (show j < b.cols by omega)) ?_
            rw [he]; exact a.addr_storage hSS hi' hj')
    refine ⟨m', ?_, e2, fun x hx => e3 x hx⟩
    unfold assignMat; rw [if_neg (by omega)]; exact e1

/-- **C42**, generic `a == b`. -/
theorem C42_equality {SS : Nat} (a b : Container) (m : Mem V) {f g : Nat → Nat → V}
    (hf : Contains SS m a f) (hg : Contains SS m b g) :
    ((a.rows ≠ b.rows ∨ a.cols ≠ b.cols) → (eqMat SS a b : Prog V Bool) m = .throw .invalidArgument m) ∧
    ((a.rows = b.rows ∧ a.cols = b.cols) →
      ∃ r, eqMat SS a b m = .ok r m ∧
        (r = true ↔ ∀ i j, i < a.rows → j < a.cols → Arith.eq (f i j) (g i j) = true)) := by
  constructor
  · intro h
    unfold eqMat; rw [if_pos h]; rfl
  · rintro ⟨h1, h2⟩
    have : ReadsQ (eqMat SS a b : Prog V Bool) m (fun r => r = true ↔
        ∀ i j, i < a.rows → j < a.cols → Arith.eq (f i j) (g i j) = true) := by
      unfold eqMat
      rw [if_neg (by omega)]
      refine readsQ_foldN (fun k r => r = true ↔
        ∀ i j, i < k → j < a.cols → Arith.eq (f i j) (g i j) = true) ?_ ?_
      · simp
      · intro i r hi hr
        refine (readsQ_foldN (fun k r => r = true ↔
          (∀ i' j, i' < i → j < a.cols → Arith.eq (f i' j) (g i' j) = true) ∧
          (∀ j, j < k → Arith.eq (f i j) (g i j) = true)) ?_ ?_).mono ?_
        · rw [hr]; simp
        · intro j r' hj hr'
          cases r'
          · simp only [Bool.false_eq_true, if_false]
            refine readsQ_pure ?_
            constructor
            · intro h; cases h
            · rintro ⟨h3, h4⟩
              exact hr'.2 ⟨h3, fun j' hj' => h4 j' (by omega)⟩
          · simp only [if_true]
            refine Reads.bindQ (reads_read (hf i j (by omega) (by omega))) ?_
            refine Reads.bindQ (reads_read (hg i j (by omega) (by omega))) ?_
            refine readsQ_pure ?_
            have h5 := hr'.1 rfl
            constructor
            · intro h
              refine ⟨h5.1, fun j' hj' => ?_⟩
              by_cases hjj : j' = j
              · subst hjj; exact h
              · exact h5.2 j' (by omega)
            · rintro ⟨_, h4⟩; exact h4 j (by omega)
        · intro r' hr'
          rw [hr']
          constructor
          · rintro ⟨h3, h4⟩ i' j hi' hj
            by_cases hii : i' = i
            · subst hii; exact h4 j hj
            · exact h3 i' j (by omega) hj
          · intro h
            exact ⟨fun i' j hi' hj => h i' j (by omega) hj, fun j hj => h i j (by omega) hj⟩
    exact this

/-- **C42**, equality in exact arithmetic -/
theorem C42_equality_exact {V : Type} [CommRing V] [Arith V] [ExactRing V] {SS : Nat} (a b : Container)
    (m : Mem V) {f g : Nat → Nat → V} (hf : Contains SS m a f) (hg : Contains SS m b g)
    (hs : a.rows = b.rows ∧ a.cols = b.cols) :
    ∃ r, eqMat SS a b m = .ok r m ∧ (r = true ↔ ∀ i j, i < a.rows → j < a.cols → f i j = g i j) := by
  obtain ⟨r, h1, h2⟩ := (C42_equality a b m hf hg).2 hs
  exact ⟨r, h1, by rw [h2]; simp only [ExactRing.eq_iff]⟩

example : Live 4 demoMem demoC ∧ Live 4 demoMem demoD ∧ Apart 4 demoC demoD ∧ demoD.rows = demoC.rows ∧
    demoD.cols = demoC.cols :=
  ⟨demo_args.lC, demo_args.lD, demo_apart (by decide), rfl, rfl⟩

end Blast
