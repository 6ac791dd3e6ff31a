import Verif.Container
/-
Specification vocabulary used in the statements of the property theorems.
Nothing here refers to how the library computes anything.
-/
set_option linter.unusedSectionVars false
namespace Blast
variable {V : Type}

/-- In memory `m`, the elements of the matrix object `c` are the entries of `a`. -/
def Contains (SS : Nat) (m : Mem V) (c : Container) (a : Nat → Nat → V) : Prop :=
  ∀ i j, i < c.rows → j < c.cols → m (c.addr SS i j) = some (a i j)

/-- `x` is the cell of some element of the matrix object `c` (padding is not an element) -/
def IsElem (SS : Nat) (c : Container) (x : Int) : Prop :=
  ∃ i j, i < c.rows ∧ j < c.cols ∧ x = c.addr SS i j

/-- Between `m` and `m'` no memory cell changed except, possibly, elements of `c`. -/
def OnlyElemsChange (SS : Nat) (m m' : Mem V) (c : Container) : Prop :=
  ∀ x, ¬ IsElem SS c x → m' x = m x

/-- In memory `m`, the `r × c` matrix at pointer `p` has the entries of `a`. -/
def Holds (SS : Nat) (m : Mem V) (p : MPtr) (r c : Nat) (a : Nat → Nat → V) : Prop :=
  ∀ i j : Nat, i < r → j < c → m (p.addr SS i j) = some (a i j)

/-- In memory `m`, the vector of length `n` at pointer `p` has the entries of `a`. -/
def VHolds (SS : Nat) (m : Mem V) (p : VPtr) (n : Nat) (a : Nat → V) : Prop :=
  ∀ i : Nat, i < n → m (p.addr SS i) = some (a i)

open Classical in
/-- the memory `m` with every cell outside `S` deallocated -/
noncomputable def onlyAllocated (S : Int → Prop) (m : Mem V) : Mem V := fun x => if S x then m x else none

/-! ### Relation to the pointer level -/

theorem Contains.holds {SS : Nat} {m : Mem V} {c : Container} {a : Nat → Nat → V}
    (h : Contains SS m c a) : Holds SS m (c.mptr SS) c.rows c.cols a := by
  intro i j hi hj
  rw [← Container.addr_eq_mptr]; exact h i j hi hj

theorem Holds.val [Arith V] {SS : Nat} {m : Mem V} {p : MPtr} {r c : Nat} {a : Nat → Nat → V}
    (h : Holds SS m p r c a) {i j : Nat} (hi : i < r) (hj : j < c) : val m (p.addr SS i j) = a i j := by
  unfold Blast.val; rw [h i j hi hj]; rfl

theorem cells_iff {SS : Nat} (c : Container) (x : Int) :
    Cells SS (c.mptr SS) c.rows c.cols x ↔ IsElem SS c x := by
  unfold Cells IsElem
  constructor
  · rintro ⟨i, j, hi, hj, rfl⟩; exact ⟨i, j, hi, hj, (c.addr_eq_mptr i j).symm⟩
  · rintro ⟨i, j, hi, hj, rfl⟩; exact ⟨i, j, hi, hj, c.addr_eq_mptr i j⟩

theorem onlyAllocated_of {S : Int → Prop} {m : Mem V} {x : Int} (h : S x) : onlyAllocated S m x = m x := by
  unfold onlyAllocated; rw [if_pos h]

theorem Live.contains [Arith V] {SS : Nat} (hSS : 0 < SS) {m : Mem V} {c : Container} (h : Live SS m c) :
    Contains SS m c (fun i j => Blast.val m (c.addr SS i j)) := by
  intro i j hi hj
  have := h.alloc _ (c.addr_storage hSS hi hj)
  unfold Blast.val
  cases hm : m (c.addr SS i j) with
  | none => rw [hm] at this; simp at this
  | some v => simp [hm]

end Blast
