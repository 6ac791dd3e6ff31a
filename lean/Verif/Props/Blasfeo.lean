import Verif.Blasfeo
import Verif.Once
import Verif.Eval
/- Concrete cases meeting the hypotheses of these theorems: Verif/Cases/Blasfeo.lean, and the examples in this file. -/
/-
Property C65: conversion between Blaze matrices and BLASFEO matrices.
-/
set_option linter.unusedSectionVars false
namespace Blast
open Prog
variable {V : Type} [Arith V]
namespace Blasfeo

/-- the m-by-n block of a BLASFEO matrix at (i0, j0) has a cell of its own for each element, all of them allocated -/
structure BlockOk (mem : Mem V) (s : BMat) (i0 j0 m n : Nat) : Prop where
  alloc : ∀ i j, i < m → j < n → (mem (s.addr (i0 + i) (j0 + j))).isSome = true
  inj : ∀ i j i' j', i < m → j < n → i' < m → j' < n → s.addr (i0 + i) (j0 + j) = s.addr (i0 + i') (j0 + j') → i = i' ∧ j = j'

/-- a Blaze matrix has a cell of its own for each element, all of them allocated -/
structure DenseOk (mem : Mem V) (A : DMat) : Prop where
  alloc : ∀ i j, i < A.rows → j < A.cols → (mem (A.addr i j)).isSome = true
  wide : (match A.so with | .columnMajor => A.rows | .rowMajor => A.cols) ≤ A.spacing

/-- no cell of the Blaze matrix belongs to the block -/
def Separate (A : DMat) (s : BMat) (i0 j0 m n : Nat) : Prop :=
  ∀ i j i' j', i < A.rows → j < A.cols → i' < m → j' < n → A.addr i j ≠ s.addr (i0 + i') (j0 + j')

theorem wide_inj {sp a b a' b' : Nat} (h : a < sp) (h' : a' < sp) (e : ((a : Int) + sp * b) = a' + sp * b') : a = a' ∧ b = b' := by
  have e' : a + sp * b = a' + sp * b' := by exact_mod_cast e
  have hp : 0 < sp := by omega
  have h1 := congrArg (· / sp) e'
  have h2 := congrArg (· % sp) e'
  simp only [Nat.add_mul_div_left _ _ hp, Nat.add_mul_mod_self_left, Nat.div_eq_of_lt h, Nat.div_eq_of_lt h', Nat.mod_eq_of_lt h, Nat.mod_eq_of_lt h'] at h1 h2
  omega

theorem DMat.addr_inj {A : DMat} (hw : (match A.so with | .columnMajor => A.rows | .rowMajor => A.cols) ≤ A.spacing) {i j i' j' : Nat} (hi : i < A.rows) (hj : j < A.cols)
    (hi' : i' < A.rows) (hj' : j' < A.cols) (e : A.addr i j = A.addr i' j') : i = i' ∧ j = j' := by
  unfold DMat.addr at e
  cases hso : A.so <;> rw [hso] at hw e <;> dsimp only at hw e
  rotate_left
  · exact wide_inj (sp := A.spacing) (by omega) (by omega) (by omega)
  · have := wide_inj (sp := A.spacing) (a := j) (b := i) (a' := j') (b' := i') (by omega) (by omega) (by omega)
    omega

/-- a double loop that copies `src o i` to `dst o i` -/
theorem copy2 (no ni : Nat) (src dst : Nat → Nat → Int) (mem : Mem V)
    (hs : ∀ o i, o < no → i < ni → (mem (src o i)).isSome = true) (hd : ∀ o i, o < no → i < ni → (mem (dst o i)).isSome = true)
    (hinj : ∀ o i o' i', o < no → i < ni → o' < no → i' < ni → dst o i = dst o' i' → o = o' ∧ i = i')
    (hsep : ∀ o i o' i', o < no → i < ni → o' < no → i' < ni → src o i ≠ dst o' i') :
    ∃ mem', (forN no fun o => forN ni fun i => do let v ← Prog.read (src o i); Prog.write (dst o i) v) mem = .ok () mem' ∧
      (∀ o i, o < no → i < ni → mem' (dst o i) = mem (src o i)) ∧
      ∀ x, (∀ o i, o < no → i < ni → x ≠ dst o i) → mem' x = mem x := by
  obtain ⟨mem', e1, e2, e3⟩ := runs_once2 no ni false dst hinj (fun o i m => (m (src o i)).getD Arith.zero)
    (fun o i => do let v ← Prog.read (src o i); Prog.write (dst o i) v) mem (by
      intro o i ho hi m1 h1 h2
      have hsrc : m1 (src o i) = mem (src o i) := h1 _ (by
        rintro ⟨o', i', ho', hi', _, e⟩
        exact hsep o i o' i' ho hi ho' hi' e)
      have hdst : (m1 (dst o i)).isSome = true := by
        by_cases hb : Before2 no ni false dst o i (dst o i)
        · exact h2 _ hb
        · rw [h1 _ hb]; exact hd o i ho hi
      obtain ⟨v, hv⟩ := Option.isSome_iff_exists.1 (hs o i ho hi)
      have hr : Prog.read (src o i) m1 = .ok v m1 := by
        unfold Prog.read; rw [hsrc, hv]
      rw [bind_ok hr, write_eq _ hdst, hsrc, hv]
      rfl)
  refine ⟨mem', e1, fun o i ho hi => ?_, fun x hx => e2 x hx⟩
  rw [e3 o i ho hi, mixMem_out (by
    rintro ⟨o', i', ho', hi', _, e⟩
    exact hsep o i o' i' ho hi ho' hi' e)]
  obtain ⟨v, hv⟩ := Option.isSome_iff_exists.1 (hs o i ho hi)
  rw [hv]; rfl

/-- **C65** (pack). `pack(A, sB, bi, bj)` copies element (i, j) of A, for either storage order of A, to element (bi+i, bj+j) of sB and changes nothing else. -/
theorem C65_pack {mem : Mem V} {A : DMat} {sB : BMat} {bi bj : Nat} (hA : DenseOk mem A) (hB : BlockOk mem sB bi bj A.rows A.cols)
    (hsep : Separate A sB bi bj A.rows A.cols) :
    ∃ mem', pack A sB bi bj mem = .ok () mem' ∧
      (∀ i j, i < A.rows → j < A.cols → mem' (sB.addr (bi + i) (bj + j)) = mem (A.addr i j)) ∧
      ∀ x, (∀ i j, i < A.rows → j < A.cols → x ≠ sB.addr (bi + i) (bj + j)) → mem' x = mem x := by
  unfold pack
  cases hso : A.so <;> dsimp only
  rotate_left
  · have ea : ∀ i j : Nat, A.data + i + A.spacing * j = A.addr i j := fun i j => by unfold DMat.addr; rw [hso]
    obtain ⟨mem', e1, e2, e3⟩ := copy2 A.cols A.rows (fun j i => A.addr i j) (fun j i => sB.addr (bi + i) (bj + j)) mem
      (fun o i ho hi => hA.alloc i o hi ho) (fun o i ho hi => hB.alloc i o hi ho)
      (fun o i o' i' ho hi ho' hi' e => (hB.inj i o i' o' hi ho hi' ho' e).symm)
      (fun o i o' i' ho hi ho' hi' => hsep i o i' o' hi ho hi' ho')
    refine ⟨mem', ?_, fun i j hi hj => e2 j i hj hi, fun x hx => e3 x (fun o i ho hi => hx i o hi ho)⟩
    unfold packMat
    simp only [ea]
    exact e1
  · have ea : ∀ i j : Nat, A.data + j + A.spacing * i = A.addr i j := fun i j => by unfold DMat.addr; rw [hso]; dsimp only; omega
    obtain ⟨mem', e1, e2, e3⟩ := copy2 A.rows A.cols (fun i j => A.addr i j) (fun i j => sB.addr (bi + i) (bj + j)) mem
      hA.alloc hB.alloc hB.inj hsep
    refine ⟨mem', ?_, e2, e3⟩
    unfold packTranMat
    simp only [ea]
    exact e1

/-- **C65** (unpack). `unpack(m, n, sA, ai, aj, B)` copies element (ai+i, aj+j) of sA to element (i, j) of B, for either storage order of B, and changes nothing else. -/
theorem C65_unpack {mem : Mem V} {B : DMat} {sA : BMat} {ai aj : Nat} (hB : DenseOk mem B) (hA : BlockOk mem sA ai aj B.rows B.cols)
    (hsep : Separate B sA ai aj B.rows B.cols) :
    ∃ mem', unpack B.rows B.cols sA ai aj B mem = .ok () mem' ∧
      (∀ i j, i < B.rows → j < B.cols → mem' (B.addr i j) = mem (sA.addr (ai + i) (aj + j))) ∧
      ∀ x, (∀ i j, i < B.rows → j < B.cols → x ≠ B.addr i j) → mem' x = mem x := by
  unfold unpack
  obtain ⟨mem', e1, e2, e3⟩ := copy2 B.cols B.rows (fun j i => sA.addr (ai + i) (aj + j)) (fun j i => B.addr i j) mem
    (fun o i ho hi => hA.alloc i o hi ho) (fun o i ho hi => hB.alloc i o hi ho)
    (fun o i o' i' ho hi ho' hi' e => (DMat.addr_inj hB.wide hi ho hi' ho' e).symm)
    (fun o i o' i' ho hi ho' hi' => (hsep i' o' i o hi' ho' hi ho).symm)
  refine ⟨mem', ?_, fun i j hi hj => e2 j i hj hi, fun x hx => e3 x (fun o i ho hi => hx i o hi ho)⟩
  cases hso : B.so <;> dsimp only
  rotate_left
  · have ea : ∀ i j : Nat, B.data + i + B.spacing * j = B.addr i j := fun i j => by unfold DMat.addr; rw [hso]
    unfold unpackMat
    simp only [ea]
    exact e1
  · have ea : ∀ i j : Nat, B.data + j + B.spacing * i = B.addr i j := fun i j => by unfold DMat.addr; rw [hso]; dsimp only; omega
    unfold unpackTranMat
    simp only [ea]
    exact e1

/-- **C65** (unpack_tran). `unpack_tran(m, n, sA, ai, aj, B)` copies element (ai+i, aj+j) of sA to element (j, i) of B and changes nothing else. -/
theorem C65_unpack_tran {mem : Mem V} {B : DMat} {sA : BMat} {ai aj : Nat} (hB : DenseOk mem B) (hA : BlockOk mem sA ai aj B.cols B.rows)
    (hsep : Separate B sA ai aj B.cols B.rows) :
    ∃ mem', unpackTran B.cols B.rows sA ai aj B mem = .ok () mem' ∧
      (∀ i j, i < B.cols → j < B.rows → mem' (B.addr j i) = mem (sA.addr (ai + i) (aj + j))) ∧
      ∀ x, (∀ i j, i < B.rows → j < B.cols → x ≠ B.addr i j) → mem' x = mem x := by
  unfold unpackTran
  obtain ⟨mem', e1, e2, e3⟩ := copy2 B.rows B.cols (fun j i => sA.addr (ai + i) (aj + j)) (fun j i => B.addr j i) mem
    (fun o i ho hi => hA.alloc i o hi ho) (fun o i ho hi => hB.alloc o i ho hi)
    (fun o i o' i' ho hi ho' hi' e => DMat.addr_inj hB.wide ho hi ho' hi' e)
    (fun o i o' i' ho hi ho' hi' => (hsep o' i' i o ho' hi' hi ho).symm)
  refine ⟨mem', ?_, fun i j hi hj => e2 j i hj hi, fun x hx => e3 x (fun o i ho hi => hx o i ho hi)⟩
  cases hso : B.so <;> dsimp only
  rotate_left
  · have ea : ∀ i j : Nat, B.data + j + B.spacing * i = B.addr j i := fun i j => by unfold DMat.addr; rw [hso]
    unfold unpackTranMat
    simp only [ea]
    exact e1
  · have ea : ∀ i j : Nat, B.data + i + B.spacing * j = B.addr j i := fun i j => by unfold DMat.addr; rw [hso]; dsimp only; omega
    unfold unpackMat
    simp only [ea]
    exact e1

/-- **C65** (round trip). Packing A and unpacking the block to B, whatever the two storage orders, leaves in B the elements A had, and A unchanged. -/
theorem C65_round_trip {mem : Mem V} {A B : DMat} {s : BMat} {si sj : Nat} (hA : DenseOk mem A) (hB : DenseOk mem B) (hrows : B.rows = A.rows) (hcols : B.cols = A.cols)
    (hs : BlockOk mem s si sj A.rows A.cols) (hsA : Separate A s si sj A.rows A.cols) (hsB : Separate B s si sj A.rows A.cols) 
    (hAB : ∀ i j i' j', i < A.rows → j < A.cols → i' < A.rows → j' < A.cols → A.addr i j ≠ B.addr i' j') :
    ∃ mem', (do pack A s si sj; unpack A.rows A.cols s si sj B : Prog V Unit) mem = .ok () mem' ∧
      ∀ i j, i < A.rows → j < A.cols → mem' (B.addr i j) = mem (A.addr i j) ∧ mem' (A.addr i j) = mem (A.addr i j) := by
  obtain ⟨m1, e1, e2, e3⟩ := C65_pack hA hs hsA
  have keep : ∀ x, (mem x).isSome = true → (m1 x).isSome = true := by
    intro x hx
    by_cases h : ∃ i j, i < A.rows ∧ j < A.cols ∧ x = s.addr (si + i) (sj + j)
    · obtain ⟨i, j, hi, hj, rfl⟩ := h
      rw [e2 i j hi hj]; exact hA.alloc i j hi hj
    · rw [e3 x (fun i j hi hj e => h ⟨i, j, hi, hj, e⟩)]; exact hx
  have hB1 : DenseOk m1 B := ⟨fun i j hi hj => keep _ (hB.alloc i j hi hj), hB.wide⟩
  have hs1 : BlockOk m1 s si sj B.rows B.cols := by
    rw [hrows, hcols]; exact ⟨fun i j hi hj => keep _ (hs.alloc i j hi hj), hs.inj⟩
  obtain ⟨m2, f1, f2, f3⟩ := C65_unpack hB1 hs1 (by rw [hrows, hcols]; exact hsB)
  rw [hrows, hcols] at f1 f2 f3
  refine ⟨m2, by rw [bind_ok e1]; exact f1, fun i j hi hj => ⟨?_, ?_⟩⟩
  · rw [f2 i j hi hj, e2 i j hi hj]
  · rw [f3 _ (fun i' j' hi' hj' => hAB i j i' j' hi hj hi' hj'), e3 _ (fun i' j' hi' hj' => hsA i j i' j' hi hj hi' hj')]

/-- **C65** (vectors). `pack(a, sB, bi, bj)` puts a column vector into column bj starting at row bi, a row vector into row bi starting at column bj, and changes nothing
else. -/
theorem C65_pack_vector {mem : Mem V} {column : Bool} {n : Nat} {data : Int} {sB : BMat} {bi bj : Nat} {cell : Nat → Int}
    (hcell : ∀ i, cell i = if column then sB.addr (bi + i) bj else sB.addr bi (bj + i))
    (ha : ∀ i : Nat, i < n → (mem (data + i)).isSome = true) (hB : ∀ i, i < n → (mem (cell i)).isSome = true)
    (hinj : ∀ i i', i < n → i' < n → cell i = cell i' → i = i') (hsep : ∀ i i' : Nat, i < n → i' < n → data + i ≠ cell i') :
    ∃ mem', packVec column n data sB bi bj mem = .ok () mem' ∧ (∀ i : Nat, i < n → mem' (cell i) = mem (data + i)) ∧
      ∀ x, (∀ i, i < n → x ≠ cell i) → mem' x = mem x := by
  obtain ⟨mem', e1, e2, e3⟩ := copy2 1 n (fun j i => data + i + n * j) (fun j i => if column then sB.addr (bi + i) (bj + j) else sB.addr (bi + j) (bj + i)) mem
    (fun o i ho hi => by obtain rfl : o = 0 := by omega
                         simpa using ha i hi)
    (fun o i ho hi => by obtain rfl : o = 0 := by omega
                         have := hB i hi; rw [hcell] at this; exact this)
    (fun o i o' i' ho hi ho' hi' e => by
      obtain rfl : o = 0 := by omega
      obtain rfl : o' = 0 := by omega
      exact ⟨rfl, hinj i i' hi hi' (by rw [hcell, hcell]; exact e)⟩)
    (fun o i o' i' ho hi ho' hi' => by
      obtain rfl : o = 0 := by omega
      obtain rfl : o' = 0 := by omega
      have := hsep i i' hi hi'
      rw [hcell] at this
      simpa using this)
  refine ⟨mem', ?_, fun i hi => ?_, fun x hx => e3 x (fun o i ho hi => ?_)⟩
  · unfold packVec
    cases column <;> simpa [packMat, packTranMat] using e1
  · have := e2 0 i (by omega) hi
    rw [hcell]
    simpa using this
  · obtain rfl : o = 0 := by omega
    have := hx i hi
    rw [hcell] at this
    simpa using this

/-- **C65** (assignment). Assigning a column-major Blaze matrix to a `blasfeo::DynamicMatrix` copies all elements if the sizes agree; otherwise it throws
`std::invalid_argument` and changes nothing. (There is no resizing, contrary to the comment on the operator.) -/
theorem C65_assign {mem : Mem V} {A : DMat} {sB : BMat} (hA : DenseOk mem A) (hso : A.so = .columnMajor) (hB : BlockOk mem sB 0 0 sB.rows sB.cols)
    (hsep : Separate A sB 0 0 sB.rows sB.cols) :
    (¬ (A.rows = sB.rows ∧ A.cols = sB.cols) → assignDense sB A mem = .throw .invalidArgument mem) ∧
    (A.rows = sB.rows → A.cols = sB.cols → ∃ mem', assignDense sB A mem = .ok () mem' ∧
      (∀ i j, i < A.rows → j < A.cols → mem' (sB.addr i j) = mem (A.addr i j)) ∧
      ∀ x, (∀ i j, i < A.rows → j < A.cols → x ≠ sB.addr i j) → mem' x = mem x) := by
  unfold assignDense
  constructor
  · intro h
    rw [if_pos (by by_contra hc; apply h; omega)]
    rfl
  · intro h1 h2
    rw [if_neg (by omega)]
    have := C65_pack (bi := 0) (bj := 0) hA (by rw [h1, h2]; exact hB) (by rw [h1, h2]; exact hsep)
    unfold pack at this
    rw [hso] at this
    simpa only [Nat.zero_add] using this

/-! ## The hypotheses are met: a row-major 2-by-3 matrix and a panel-layout BLASFEO matrix with panels of four rows -/

def demoB : BMat := ⟨6, 5, fun i j => 100 + (i / 4) * 20 + 4 * j + i % 4⟩
def demoRM : DMat := ⟨.rowMajor, 2, 3, 0, 4⟩
def demoCM : DMat := ⟨.columnMajor, 2, 3, 50, 3⟩
def demoMemB : Mem Rat := fun x => if 0 ≤ x ∧ x < 200 then some x else none

theorem demo_ok : DenseOk demoMemB demoRM ∧ DenseOk demoMemB demoCM ∧ BlockOk demoMemB demoB 3 1 2 3 ∧ Separate demoRM demoB 3 1 2 3 ∧ Separate demoCM demoB 3 1 2 3 := by
  refine ⟨⟨?_, by decide⟩, ⟨?_, by decide⟩, ⟨?_, ?_⟩, ?_, ?_⟩
  · have : ∀ i < 2, ∀ j < 3, (demoMemB (demoRM.addr i j)).isSome = true := by decide +kernel
    exact fun i j hi hj => this i hi j hj
  · have : ∀ i < 2, ∀ j < 3, (demoMemB (demoCM.addr i j)).isSome = true := by decide +kernel
    exact fun i j hi hj => this i hi j hj
  · have : ∀ i < 2, ∀ j < 3, (demoMemB (demoB.addr (3 + i) (1 + j))).isSome = true := by decide +kernel
    exact fun i j hi hj => this i hi j hj
  · have : ∀ i < 2, ∀ j < 3, ∀ i' < 2, ∀ j' < 3, demoB.addr (3 + i) (1 + j) ≠ demoB.addr (3 + i') (1 + j') ∨ (i = i' ∧ j = j') := by decide +kernel
    exact fun i j i' j' hi hj hi' hj' e => (this i hi j hj i' hi' j' hj').resolve_left (fun h => h e)
  · have : ∀ i < 2, ∀ j < 3, ∀ i' < 2, ∀ j' < 3, demoRM.addr i j ≠ demoB.addr (3 + i') (1 + j') := by decide +kernel
    exact fun i j i' j' hi hj hi' hj' => this i hi j hj i' hi' j' hj'
  · have : ∀ i < 2, ∀ j < 3, ∀ i' < 2, ∀ j' < 3, demoCM.addr i j ≠ demoB.addr (3 + i') (1 + j') := by decide +kernel
    exact fun i j i' j' hi hj hi' hj' => this i hi j hj i' hi' j' hj'

example : ∃ mem', (do pack demoRM demoB 3 1; unpack 2 3 demoB 3 1 demoCM : Prog Rat Unit) demoMemB = .ok () mem' ∧ mem' (demoCM.addr 1 2) = some 6 := by
  obtain ⟨m, e1, e2⟩ := C65_round_trip demo_ok.1 demo_ok.2.1 rfl rfl demo_ok.2.2.1 demo_ok.2.2.2.1 demo_ok.2.2.2.2 (by
    have : ∀ i < 2, ∀ j < 3, ∀ i' < 2, ∀ j' < 3, demoRM.addr i j ≠ demoCM.addr i' j' := by decide +kernel
    exact fun i j i' j' hi hj hi' hj' => this i hi j hj i' hi' j' hj')
  exact ⟨m, e1, (e2 1 2 (by decide) (by decide)).1⟩

example : assignDense demoB demoCM demoMemB = .throw .invalidArgument demoMemB := by
  unfold assignDense; rw [if_pos (by decide)]; rfl

end Blasfeo
end Blast
