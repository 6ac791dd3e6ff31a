import Verif.Props.Blasfeo
import Verif.Props.BlasfeoOwn
/- Concrete cases for the theorems of `Verif/Props/Blasfeo.lean` and `Verif/Props/BlasfeoOwn.lean`. -/
namespace Blast
namespace Blasfeo

/-- a 2 × 3 row-major matrix packed at (3, 1) of a 6 × 5 panel-major one: the block spans two panels -/
example := C65_pack demo_ok.1 demo_ok.2.2.1 demo_ok.2.2.2.1
example : ∃ mem', pack demoRM demoB 3 1 demoMemB = .ok () mem' ∧ mem' (demoB.addr 4 3) = some 6 := by
  obtain ⟨m, e1, e2, _⟩ := C65_pack demo_ok.1 demo_ok.2.2.1 demo_ok.2.2.2.1
  exact ⟨m, e1, e2 1 2 (by decide) (by decide)⟩
example := C65_unpack demo_ok.2.1 demo_ok.2.2.1 demo_ok.2.2.2.2

theorem demo_tran : BlockOk demoMemB demoB 2 3 3 2 ∧ Separate demoRM demoB 2 3 3 2 := by
  refine ⟨⟨?_, ?_⟩, ?_⟩
  · have : ∀ i < 3, ∀ j < 2, (demoMemB (demoB.addr (2 + i) (3 + j))).isSome = true := by decide +kernel
    exact fun i j hi hj => this i hi j hj
  · have : ∀ i < 3, ∀ j < 2, ∀ i' < 3, ∀ j' < 2, demoB.addr (2 + i) (3 + j) ≠ demoB.addr (2 + i') (3 + j') ∨ (i = i' ∧ j = j') := by decide +kernel
    exact fun i j i' j' hi hj hi' hj' e => (this i hi j hj i' hi' j' hj').resolve_left (fun h => h e)
  · have : ∀ i < 2, ∀ j < 3, ∀ i' < 3, ∀ j' < 2, demoRM.addr i j ≠ demoB.addr (2 + i') (3 + j') := by decide +kernel
    exact fun i j i' j' hi hj hi' hj' => this i hi j hj i' hi' j' hj'
example : ∃ mem', unpackTran 3 2 demoB 2 3 demoRM demoMemB = .ok () mem' ∧ mem' (demoRM.addr 1 2) = some 136 := by
  obtain ⟨m, e1, e2, _⟩ := C65_unpack_tran demo_ok.1 demo_tran.1 demo_tran.2
  exact ⟨m, e1, e2 2 1 (by decide) (by decide)⟩

/-- a vector of 4 elements into a column (crossing a panel boundary) and into a row -/
example : ∃ mem', packVec true 4 10 demoB 2 3 demoMemB = .ok () mem' ∧ mem' (demoB.addr 5 3) = some 13 := by
  have h1 : ∀ i : Nat, i < 4 → (demoMemB (10 + i)).isSome = true := by decide +kernel
  have h2 : ∀ i : Nat, i < 4 → (demoMemB (demoB.addr (2 + i) 3)).isSome = true := by decide +kernel
  have h3 : ∀ i : Nat, i < 4 → ∀ i', i' < 4 → demoB.addr (2 + i) 3 = demoB.addr (2 + i') 3 → i = i' := by decide +kernel
  have h4 : ∀ i : Nat, i < 4 → ∀ i' : Nat, i' < 4 → (10 : Int) + i ≠ demoB.addr (2 + i') 3 := by decide +kernel
  obtain ⟨m, e1, e2, _⟩ := C65_pack_vector (column := true) (sB := demoB) (bi := 2) (bj := 3) (cell := fun i => demoB.addr (2 + i) 3) (fun i => rfl) h1 h2
    (fun i i' hi hi' => h3 i hi i' hi') (fun i i' hi hi' => h4 i hi i' hi')
  exact ⟨m, e1, e2 3 (by decide)⟩
example : ∃ mem', packVec false 4 10 demoB 5 1 demoMemB = .ok () mem' ∧ mem' (demoB.addr 5 4) = some 13 := by
  have h1 : ∀ i : Nat, i < 4 → (demoMemB (10 + i)).isSome = true := by decide +kernel
  have h2 : ∀ i : Nat, i < 4 → (demoMemB (demoB.addr 5 (1 + i))).isSome = true := by decide +kernel
  have h3 : ∀ i : Nat, i < 4 → ∀ i', i' < 4 → demoB.addr 5 (1 + i) = demoB.addr 5 (1 + i') → i = i' := by decide +kernel
  have h4 : ∀ i : Nat, i < 4 → ∀ i' : Nat, i' < 4 → (10 : Int) + i ≠ demoB.addr 5 (1 + i') := by decide +kernel
  obtain ⟨m, e1, e2, _⟩ := C65_pack_vector (column := false) (sB := demoB) (bi := 5) (bj := 1) (cell := fun i => demoB.addr 5 (1 + i)) (fun i => rfl) h1 h2
    (fun i i' hi hi' => h3 i hi i' hi') (fun i i' hi hi' => h4 i hi i' hi')
  exact ⟨m, e1, e2 3 (by decide)⟩

/-- a 6 × 5 column-major matrix assigned to the panel-major one -/
def demoCM65 : DMat := ⟨.columnMajor, 6, 5, 0, 8⟩
example : ∃ mem', assignDense demoB demoCM65 demoMemB = .ok () mem' ∧ mem' (demoB.addr 5 4) = some 37 := by
  have h1 : ∀ i < 6, ∀ j < 5, (demoMemB (demoCM65.addr i j)).isSome = true := by decide +kernel
  have h2 : ∀ i < 6, ∀ j < 5, (demoMemB (demoB.addr (0 + i) (0 + j))).isSome = true := by decide +kernel
  have h3 : ∀ i < 6, ∀ j < 5, ∀ i' < 6, ∀ j' < 5, demoB.addr (0 + i) (0 + j) ≠ demoB.addr (0 + i') (0 + j') ∨ (i = i' ∧ j = j') := by decide +kernel
  have h4 : ∀ i < 6, ∀ j < 5, ∀ i' < 6, ∀ j' < 5, demoCM65.addr i j ≠ demoB.addr (0 + i') (0 + j') := by decide +kernel
  obtain ⟨m, e1, e2, _⟩ := (C65_assign (A := demoCM65) (sB := demoB) ⟨fun i j hi hj => h1 i hi j hj, by decide⟩ rfl
    ⟨fun i j hi hj => h2 i hi j hj, fun i j i' j' hi hj hi' hj' e => (h3 i hi j hj i' hi' j' hj').resolve_left (fun h => h e)⟩
    (fun i j i' j' hi hj hi' hj' => h4 i hi j hj i' hi' j' hj')).2 rfl rfl
  exact ⟨m, e1, e2 5 4 (by decide) (by decide)⟩

/-! ### ownership -/

def demoStorage : List StorageOp := [.sized 0 (some 7), .moveCtor 1 0, .sized 2 (some 8), .moveAssign 1 2, .destroy 2, .sized 3 (some 7), .swap 3 3, .destroy 1, .destroy 0, .destroy 3]

theorem demoStorage_valid : ValidOps StorageOp.step StorageOp.Allowed .empty demoStorage := by
  refine ⟨⟨rfl, fun b h => rfl⟩, fun s h => ?_⟩; cases h
  refine ⟨⟨rfl, by simp [OwnSt.setPtr, OwnSt.malloc, OwnSt.setLive]⟩, fun s h => ?_⟩; cases h
  refine ⟨⟨rfl, fun b h => by cases h; rfl⟩, fun s h => ?_⟩; cases h
  refine ⟨⟨by simp [OwnSt.setPtr, OwnSt.malloc, OwnSt.setLive], by simp [OwnSt.setPtr, OwnSt.malloc, OwnSt.setLive]⟩, fun s h => ?_⟩; cases h
  refine ⟨by simp [StorageOp.Allowed, OwnSt.setPtr, OwnSt.malloc, OwnSt.setLive], fun s h => ?_⟩; cases h
  refine ⟨⟨rfl, fun b h => by cases h; rfl⟩, fun s h => ?_⟩; cases h
  refine ⟨⟨by simp [OwnSt.setPtr, OwnSt.malloc, OwnSt.setLive], by simp [OwnSt.setPtr, OwnSt.malloc, OwnSt.setLive]⟩, fun s h => ?_⟩; cases h
  refine ⟨by simp [StorageOp.Allowed, OwnSt.setPtr, OwnSt.malloc, OwnSt.setLive], fun s h => ?_⟩; cases h
  refine ⟨by simp [StorageOp.Allowed, OwnSt.setPtr, OwnSt.malloc, OwnSt.setLive], fun s h => ?_⟩; cases h
  refine ⟨by simp [StorageOp.Allowed, OwnSt.setPtr, OwnSt.malloc, OwnSt.setLive], fun s h => ?_⟩; cases h
  trivial

example := C66_storage demoStorage_valid
example := C66_storage (ops := demoStorage.take 7) (by
  refine ⟨⟨rfl, fun b h => rfl⟩, fun s h => ?_⟩; cases h
  refine ⟨⟨rfl, by simp [OwnSt.setPtr, OwnSt.malloc, OwnSt.setLive]⟩, fun s h => ?_⟩; cases h
  refine ⟨⟨rfl, fun b h => by cases h; rfl⟩, fun s h => ?_⟩; cases h
  refine ⟨⟨by simp [OwnSt.setPtr, OwnSt.malloc, OwnSt.setLive], by simp [OwnSt.setPtr, OwnSt.malloc, OwnSt.setLive]⟩, fun s h => ?_⟩; cases h
  refine ⟨by simp [StorageOp.Allowed, OwnSt.setPtr, OwnSt.malloc, OwnSt.setLive], fun s h => ?_⟩; cases h
  refine ⟨⟨rfl, fun b h => by cases h; rfl⟩, fun s h => ?_⟩; cases h
  refine ⟨⟨by simp [OwnSt.setPtr, OwnSt.malloc, OwnSt.setLive], by simp [OwnSt.setPtr, OwnSt.malloc, OwnSt.setLive]⟩, fun s h => ?_⟩; cases h
  trivial)

/-- object 0 owns block 7, object 1 owns block 8, object 2 does not exist -/
def demoOwn : OwnSt := ⟨fun o => if o = 0 then some (some 7) else if o = 1 then some (some 8) else none, fun b => b == 7 || b == 8⟩
example := (C66_moves (s := demoOwn) (o := 2) (src := 0) (p := none) (q := some 7) rfl).1 rfl
example := (C66_moves (s := demoOwn) (o := 1) (src := 0) (p := some 8) (q := some 7) rfl).2 rfl
/-- move assignment to itself -/
example := (C66_moves (s := demoOwn) (o := 1) (src := 1) (p := some 8) (q := some 8) rfl).2 rfl

def demoMatrixOps : List MatrixOp := [.construct 0 7, .construct 1 8, .assignBlaze 0, .copyAssign 1 1, .destroy 0, .destroy 1]

example := C66_matrix_no_copies (ops := demoMatrixOps) (by simp [demoMatrixOps, MatrixOp.copies]) (by
  refine ⟨⟨rfl, rfl⟩, fun s h => ?_⟩; cases h
  refine ⟨⟨rfl, rfl⟩, fun s h => ?_⟩; cases h
  refine ⟨by simp [MatrixOp.Allowed, OwnSt.setPtr, OwnSt.malloc, OwnSt.setLive], fun s h => ?_⟩; cases h
  refine ⟨by simp [MatrixOp.Allowed, OwnSt.setPtr, OwnSt.malloc, OwnSt.setLive], fun s h => ?_⟩; cases h
  refine ⟨by simp [MatrixOp.Allowed, OwnSt.setPtr, OwnSt.malloc, OwnSt.setLive], fun s h => ?_⟩; cases h
  refine ⟨by simp [MatrixOp.Allowed, OwnSt.setPtr, OwnSt.malloc, OwnSt.setLive], fun s h => ?_⟩; cases h
  trivial)

/-- construct, copy, destroy the copy: no undefined behaviour so far, one object left -/
example := C66_matrix_copy_refuted (ops := [.construct 0 7, .copyCtor 1 0, .destroy 1]) (by
  refine ⟨⟨rfl, rfl⟩, fun s h => ?_⟩; cases h
  refine ⟨⟨rfl, by simp [OwnSt.setPtr, OwnSt.malloc, OwnSt.setLive]⟩, fun s h => ?_⟩; cases h
  refine ⟨by simp [MatrixOp.Allowed, OwnSt.setPtr, OwnSt.malloc, OwnSt.setLive], fun s h => ?_⟩; cases h
  trivial) ⟨.copyCtor 1 0, by simp, trivial⟩ rfl

end Blasfeo
end Blast
