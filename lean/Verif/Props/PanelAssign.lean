import Verif.PanelAssign
import Verif.Spec
import Verif.Eval
import Verif.Lawful
import Verif.Props.Gemm
/- Concrete cases meeting the hypotheses of these theorems: Verif/Cases/Register.lean, and the examples in this file. -/
/-
**C41**: assignment between dense (Blaze) and panel matrices copies every element and modifies nothing else.
-/
set_option linter.unusedSectionVars false
namespace Blast
open Prog
variable {V : Type}

/-- The `r × n` dense matrix at `p` (a Blaze matrix with any spacing): its rows or columns do not overlap and its elements are
allocated. If `simd`, it moreover starts at a SIMD boundary and its spacing is a multiple of the SIMD width. -/
structure DenseArg (SS : Nat) (m : Mem V) (p : MPtr) (r n : Nat) (simd : Prop) : Prop where
  dense : p.panel = false
  room : (match p.so with | .columnMajor => (r : Int) | .rowMajor => (n : Int)) ≤ p.spacing
  alloc : ∀ i j : Nat, i < r → j < n → (m (p.addr SS i j)).isSome = true
  aligned : (simd ∨ p.aligned = true) → p.ptr % (SS : Int) = 0 ∧ p.spacing % (SS : Int) = 0

/-- no element of the dense matrix at `p` lies in the storage of `c` -/
def DenseApart (SS : Nat) (p : MPtr) (r n : Nat) (c : Container) : Prop :=
  ∀ i j : Nat, i < r → j < n → ¬ c.Storage SS (p.addr SS i j)

theorem int_radix_inj {s a b a' b' : Int} (ha : 0 ≤ a) (ha2 : a < s) (ha' : 0 ≤ a') (ha2' : a' < s)
    (h : a + s * b = a' + s * b') : a = a' ∧ b = b' := by
  have hs : s ≠ 0 := by omega
  have e1 : (a + s * b) / s = b := by rw [Int.add_mul_ediv_left _ _ hs, Int.ediv_eq_zero_of_lt ha ha2]; omega
  have e2 : (a' + s * b') / s = b' := by rw [Int.add_mul_ediv_left _ _ hs, Int.ediv_eq_zero_of_lt ha' ha2']; omega
  have : b = b' := by rw [← e1, ← e2, h]
  subst this
  omega

theorem DenseArg.inj [Arith V] {SS : Nat} {m : Mem V} {p : MPtr} {r n : Nat} {s : Prop} (h : DenseArg SS m p r n s) :
    Inj SS p r n := by
  intro i j i' j' hi hj hi' hj' he
  have hr := h.room
  cases hs : p.so
  · rw [hs] at hr
    dsimp only at hr
    rw [MPtr.addr_dense_row h.dense hs, MPtr.addr_dense_row h.dense hs] at he
    have := int_radix_inj (s := p.spacing) (a := j) (b := i) (a' := j') (b' := i') (by omega) (by omega) (by omega) (by omega)
      (by omega)
    omega
  · rw [hs] at hr
    dsimp only at hr
    rw [MPtr.addr_dense_col h.dense hs, MPtr.addr_dense_col h.dense hs] at he
    have := int_radix_inj (s := p.spacing) (a := i) (b := j) (a' := i') (b' := j') (by omega) (by omega) (by omega) (by omega)
      (by omega)
    omega

theorem DenseArg.wf [Arith V] {SS : Nat} {m : Mem V} {p : MPtr} {r n : Nat} {s : Prop} (h : DenseArg SS m p r n s) :
    p.WF SS := fun ha => h.aligned (Or.inr (ha.resolve_right (by simp [h.dense])))

/-- **C41** (dense := panel). If the panel matrix `c` has the elements `a`, assigning it to a dense matrix of the same size that does
not overlap it gives the dense matrix the elements `a` and changes no other cell (in particular not the padding of either
matrix); nothing outside of the two matrices is accessed. If both are column-major the dense matrix has to be SIMD-aligned. -/
theorem C41_dense_from_panel [Arith V] {SS : Nat} (hSS : 0 < SS) {m : Mem V} {c : Container} {p : MPtr} {a : Nat → Nat → V}
    (hp : c.isPanel = true) (hl : Live SS m c) (ha : Contains SS m c a)
    (hd : DenseArg SS m p c.rows c.cols (p.so = .columnMajor ∧ c.so = .columnMajor)) (hap : DenseApart SS p c.rows c.cols c) :
    ∃ m', assignDensePanel SS c.rows c.cols p (c.mptr SS) m = .ok () m' ∧
      Holds SS m' p c.rows c.cols a ∧
      (∀ x, ¬ (∃ i j : Nat, i < c.rows ∧ j < c.cols ∧ x = p.addr SS i j) → m' x = m x) := by
  have hso : (c.mptr SS).so = c.so := by rw [c.mptr_eq]; rfl
  have hw := c.mptr_wf hSS hl.align
  have hpan : (c.mptr SS).panel = true := by rw [c.mptr_eq]; exact hp
  have hpre : PanelAssignPre SS c.rows c.cols (if c.so = .columnMajor then roundUp c.rows SS else c.rows) p (c.mptr SS) m := by
    refine ⟨hSS, hd.wf, hw, ?_, ?_, ?_, hd.alloc, hd.inj, ?_⟩
    · rw [hso]; intro h; exact ⟨hd.aligned (Or.inl h), hw (Or.inr hpan)⟩
    · split
      · exact self_le_roundUp hSS
      · exact Nat.le_refl _
    · intro i j hi hj
      rw [← c.addr_eq_mptr]
      refine hl.alloc _ ?_
      split at hi
      · rename_i hs; exact c.addr_storage_pad hSS hs hi hj
      · exact c.addr_storage hSS hi hj
    · intro i j i' j' hi hj hi' hj' he
      refine hap i' j' hi' hj' ?_
      rw [← he, ← c.addr_eq_mptr]
      exact c.addr_storage hSS hi hj
  obtain ⟨g, hg⟩ := exists_cellFn hd.inj (fun i j => a i j)
  have hg' : ∀ i j : Nat, i < c.rows → j < c.cols → g (p.addr SS i j) = val m ((c.mptr SS).addr SS i j) := by
    intro i j hi hj
    rw [hg i j hi hj, Holds.val ha.holds hi hj]
  obtain ⟨_, m', h1, h2⟩ := assignDensePanel_runs hpre (by
    rw [hso]; intro h; rw [if_pos h.2]) hg'
  refine ⟨m', h1, fun i j hi hj => ?_, fun x hx => (h2 x).2 ?_⟩
  · rw [(h2 _).1 ⟨i, j, hi, hj, trivial, rfl⟩, hg i j hi hj]
  · rintro ⟨i, j, hi, hj, _, he⟩
    exact hx ⟨i, j, hi, hj, he⟩

/-- **C41** (panel := dense). If the dense matrix at `p` has the size and elements `a`, assigning it to the panel matrix `c` of the same size
gives `c` the elements `a` and changes no other cell (in particular not the padding of the panels). If both are column-major
the dense matrix has to be SIMD-aligned. -/
theorem C41_panel_from_dense [Arith V] {SS : Nat} (hSS : 0 < SS) {m : Mem V} {c : Container} {p : MPtr} {a : Nat → Nat → V}
    (hp : c.isPanel = true) (hl : Live SS m c) (ha : Holds SS m p c.rows c.cols a)
    (hd : DenseArg SS m p c.rows c.cols (p.so = .columnMajor ∧ c.so = .columnMajor)) (hap : DenseApart SS p c.rows c.cols c) :
    ∃ m', assignPanelDense SS c.rows c.cols (c.mptr SS) p m = .ok () m' ∧
      Contains SS m' c a ∧ OnlyElemsChange SS m m' c := by
  have hso : (c.mptr SS).so = c.so := by rw [c.mptr_eq]; rfl
  have hw := c.mptr_wf hSS hl.align
  have hpan : (c.mptr SS).panel = true := by rw [c.mptr_eq]; exact hp
  have hpre : PanelAssignPre SS c.rows c.cols c.rows (c.mptr SS) p m := by
    refine ⟨hSS, hw, hd.wf, ?_, Nat.le_refl _, hd.alloc, ?_, c.inj hSS, ?_⟩
    · rw [hso]; intro h; exact ⟨hw (Or.inr hpan), hd.aligned (Or.inl h.symm)⟩
    · intro i j hi hj
      rw [← c.addr_eq_mptr]
      exact hl.alloc _ (c.addr_storage hSS hi hj)
    · intro i j i' j' hi hj hi' hj' he
      refine hap i j hi hj ?_
      rw [he, ← c.addr_eq_mptr]
      exact c.addr_storage hSS hi' hj'
  obtain ⟨g, hg⟩ := exists_cellFn (c.inj hSS) (fun i j => a i j)
  have hg' : ∀ i j : Nat, i < c.rows → j < c.cols → g ((c.mptr SS).addr SS i j) = val m (p.addr SS i j) := by
    intro i j hi hj
    rw [hg i j hi hj, Holds.val ha hi hj]
  obtain ⟨_, m', h1, h2⟩ := assignPanelDense_runs hpre hpan hd.dense hg'
  refine ⟨m', h1, fun i j hi hj => ?_, fun x hx => (h2 x).2 ?_⟩
  · rw [c.addr_eq_mptr, (h2 _).1 ⟨i, j, hi, hj, trivial, rfl⟩, hg i j hi hj]
  · rintro ⟨i, j, hi, hj, _, he⟩
    exact hx ⟨i, j, hi, hj, by rw [c.addr_eq_mptr]; exact he⟩

/-- **C41** (round trip). Copying a panel matrix into a dense one and back into a panel matrix of the same size (of any storage
order) restores the elements. -/
theorem C41_round_trip [Arith V] {SS : Nat} (hSS : 0 < SS) {m : Mem V} {c c' : Container} {p : MPtr} {a : Nat → Nat → V}
    (hp : c.isPanel = true) (hl : Live SS m c) (ha : Contains SS m c a)
    (hp' : c'.isPanel = true) (hl' : Live SS m c') (hr : c'.rows = c.rows) (hc : c'.cols = c.cols)
    (hd : DenseArg SS m p c.rows c.cols (p.so = .columnMajor)) (hap : DenseApart SS p c.rows c.cols c)
    (hap' : DenseApart SS p c.rows c.cols c') :
    ∃ m', (do assignDensePanel SS c.rows c.cols p (c.mptr SS)
              assignPanelDense SS c.rows c.cols (c'.mptr SS) p : Prog V Unit) m = .ok () m' ∧
      Contains SS m' c' a := by
  have weak : ∀ {q : Prop}, (q → p.so = .columnMajor) → ∀ {mm : Mem V}, (∀ i j : Nat, i < c.rows → j < c.cols →
      (mm (p.addr SS i j)).isSome = true) → DenseArg SS mm p c.rows c.cols q := fun hq _ hm =>
    ⟨hd.dense, hd.room, hm, fun h => hd.aligned (h.imp hq id)⟩
  obtain ⟨m1, h1, h2, h3⟩ := C41_dense_from_panel hSS hp hl ha (weak (fun h => h.1) hd.alloc) hap
  have hl1 : Live SS m1 c' := by
    refine ⟨hl'.align, fun x hx => ?_⟩
    rw [h3 x]
    · exact hl'.alloc x hx
    · rintro ⟨i, j, hi, hj, rfl⟩
      exact hap' i j hi hj hx
  have key := C41_panel_from_dense (c := c') (p := p) (a := a) hSS hp' hl1 (by rw [hr, hc]; exact h2)
    (by rw [hr, hc]; exact weak (fun h => h.1) (fun i j hi hj => by rw [h2 i j hi hj]; rfl)) (by rw [hr, hc]; exact hap')
  rw [hr, hc] at key
  obtain ⟨m2, k1, k2, _⟩ := key
  exact ⟨m2, by rw [bind_ok h1]; exact k1, k2⟩

/-- The SIMD alignment is needed: a column-major dense matrix that starts at an odd address (SIMD width 2), although declared
unaligned, is accessed through an aligned pointer. -/
theorem C41_unaligned_dense_refuted :
    assignDensePanel 2 2 2 ⟨false, .columnMajor, false, false, 101, 2⟩
      ((⟨.dynPanel, .columnMajor, 2, 2, 0⟩ : Container).mptr 2) demoMem = .ub := by
  refine ub_of_isUb ?_; decide +kernel

/-- The sizes are not compared (only by internal assertions): assigning a 4×2 dense matrix to a 2×2 panel matrix whose storage is
cells 0-3 writes outside of the panel matrix. -/
theorem C41_size_mismatch_refuted :
    ∃ m', assignPanelDense 2 4 2 ((⟨.dynPanel, .columnMajor, 2, 2, 0⟩ : Container).mptr 2)
      ⟨false, .columnMajor, true, false, 100, 4⟩ demoMem = .ok () m' ∧ m' 4 ≠ demoMem 4 := by
  obtain ⟨m', h1, h2⟩ := ok_of_okCell (r := assignPanelDense 2 4 2
    ((⟨.dynPanel, .columnMajor, 2, 2, 0⟩ : Container).mptr 2) ⟨false, .columnMajor, true, false, 100, 4⟩ demoMem)
    (x := 4) (v := some 102) (by decide +kernel)
  exact ⟨m', h1, by rw [h2]; decide +kernel⟩

/-- the hypotheses are met by a 5×3 column-major panel matrix and a row-major 5×3 dense matrix with spacing 7 -/
example : ∃ m', assignDensePanel 4 5 3 ⟨false, .rowMajor, false, false, 501, 7⟩
      ((⟨.dynPanel, .columnMajor, 5, 3, 0⟩ : Container).mptr 4) demoMem = .ok () m' ∧
      Holds 4 m' ⟨false, .rowMajor, false, false, 501, 7⟩ 5 3
        (fun i j => val demoMem ((⟨.dynPanel, .columnMajor, 5, 3, 0⟩ : Container).addr 4 i j)) := by
  have hl : Live 4 demoMem ⟨.dynPanel, .columnMajor, 5, 3, 0⟩ := demo_live (by decide) (by decide) (by decide)
  have h := C41_dense_from_panel (p := ⟨false, .rowMajor, false, false, 501, 7⟩) (SS := 4) (by decide) rfl hl (hl.contains (by decide))
    ⟨rfl, by decide, fun i j hi hj => by
      have : ∀ i < 5, ∀ j < 3, (demoMem ((⟨false, .rowMajor, false, false, 501, 7⟩ : MPtr).addr 4 (i : Nat) (j : Nat))).isSome = true := by
        decide +kernel
      exact this i hi j hj, by rintro (⟨h, _⟩ | h) <;> cases h⟩ (fun i j hi hj hs => by
      have : ∀ i < 5, ∀ j < 3, 500 ≤ ((⟨false, .rowMajor, false, false, 501, 7⟩ : MPtr).addr 4 (i : Nat) (j : Nat)) := by
        decide +kernel
      have h1 := this i hi j hj
      have h2 := hs.2
      have h3 : ((⟨.dynPanel, .columnMajor, 5, 3, 0⟩ : Container).capacity 4 : Nat) ≤ 100 := by decide
      simp only at h2
      omega)
  obtain ⟨m', h1, h2, _⟩ := h
  exact ⟨m', h1, h2⟩

/-- … and by column-major aligned dense matrices in both directions -/
example : ∃ m', assignPanelDense 4 5 3 ((⟨.statPanel, .columnMajor, 5, 3, 0⟩ : Container).mptr 4)
      ⟨false, .columnMajor, false, false, 500, 8⟩ demoMem = .ok () m' ∧
      Contains 4 m' ⟨.statPanel, .columnMajor, 5, 3, 0⟩ (fun i j => ((500 + i + 8 * j : Nat) : Rat)) := by
  have hl : Live 4 demoMem ⟨.statPanel, .columnMajor, 5, 3, 0⟩ := demo_live (by decide) (by decide) (by decide)
  have h := C41_panel_from_dense (p := ⟨false, .columnMajor, false, false, 500, 8⟩) (SS := 4) (a := fun i j => ((500 + i + 8 * j : Nat) : Rat))
      (m := demoMem) (c := ⟨.statPanel, .columnMajor, 5, 3, 0⟩)
    (by decide) rfl hl (fun i j hi hj => by
      have : ∀ i < 5, ∀ j < 3, demoMem ((⟨false, .columnMajor, false, false, 500, 8⟩ : MPtr).addr 4 (i : Nat) (j : Nat)) =
        some ((500 + i + 8 * j : Nat) : Rat) := by decide +kernel
      exact this i hi j hj)
    ⟨rfl, by decide, fun i j hi hj => by
      have : ∀ i < 5, ∀ j < 3, (demoMem ((⟨false, .columnMajor, false, false, 500, 8⟩ : MPtr).addr 4 (i : Nat) (j : Nat))).isSome = true := by
        decide +kernel
      exact this i hi j hj, fun _ => by decide⟩ (fun i j hi hj hs => by
      have : ∀ i < 5, ∀ j < 3, 500 ≤ ((⟨false, .columnMajor, false, false, 500, 8⟩ : MPtr).addr 4 (i : Nat) (j : Nat)) := by
        decide +kernel
      have h1 := this i hi j hj
      have h2 := hs.2
      have h3 : ((⟨.statPanel, .columnMajor, 5, 3, 0⟩ : Container).capacity 4 : Nat) ≤ 100 := by decide
      simp only at h2
      omega)
  obtain ⟨m', h1, h2, _⟩ := h
  exact ⟨m', h1, h2⟩
end Blast
