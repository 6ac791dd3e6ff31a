import Verif.BlasfeoOwn
import Mathlib.Data.Set.Card
/- Concrete cases meeting the hypotheses of these theorems: Verif/Cases/Blasfeo.lean, and the examples in this file. -/
/-
Property C66: ownership of memory in the BLASFEO wrappers.
-/
set_option linter.unusedSectionVars false
namespace Blast
namespace Blasfeo

/-- every allocated block is held by exactly one object, and objects hold null or allocated blocks -/
def ExactlyOwned (s : OwnSt) : Prop :=
  (∀ b, s.live b = true → ∃ o, s.ptr o = some (some b)) ∧
  (∀ o b, s.ptr o = some (some b) → s.live b = true) ∧
  ∀ o o' b, s.ptr o = some (some b) → s.ptr o' = some (some b) → o = o'

theorem empty_owned : ExactlyOwned .empty := ⟨fun _ h => by simp [OwnSt.empty] at h, fun _ _ h => by simp [OwnSt.empty] at h, fun _ _ _ h => by simp [OwnSt.empty] at h⟩

theorem owned_construct {s : OwnSt} {o b : Nat} (h : ExactlyOwned s) (ho : s.ptr o = none) (hb : s.live b = false) :
    ExactlyOwned ((s.malloc (some b)).setPtr o (some (some b))) := by
  obtain ⟨h1, h2, h3⟩ := h
  refine ⟨fun c hc => ?_, fun x c hx => ?_, fun x y c hx hy => ?_⟩
  · simp only [OwnSt.malloc, OwnSt.setPtr, OwnSt.setLive] at hc ⊢
    by_cases e : c = b
    · exact ⟨o, by simp [e]⟩
    · rw [if_neg e] at hc
      obtain ⟨x, hx⟩ := h1 c hc
      refine ⟨x, ?_⟩
      rw [if_neg (by rintro rfl; rw [ho] at hx; cases hx)]
      exact hx
  · simp only [OwnSt.malloc, OwnSt.setPtr, OwnSt.setLive] at hx ⊢
    by_cases e : x = o
    · rw [if_pos e] at hx
      cases hx; simp
    · rw [if_neg e] at hx
      by_cases e2 : c = b
      · simp [e2]
      · rw [if_neg e2]; exact h2 x c hx
  · simp only [OwnSt.malloc, OwnSt.setPtr, OwnSt.setLive] at hx hy
    have key : ∀ z, s.ptr z = some (some b) → False := fun z hz => by rw [h2 z b hz] at hb; cases hb
    by_cases ex : x = o <;> by_cases ey : y = o
    · omega
    · rw [if_pos ex] at hx; rw [if_neg ey] at hy; cases hx; exact (key _ hy).elim
    · rw [if_neg ex] at hx; rw [if_pos ey] at hy; cases hy; exact (key _ hx).elim
    · rw [if_neg ex] at hx; rw [if_neg ey] at hy; exact h3 x y c hx hy

theorem owned_null {s : OwnSt} {o : Nat} (h : ExactlyOwned s) (ho : s.ptr o = none) : ExactlyOwned (s.setPtr o (some none)) := by
  obtain ⟨h1, h2, h3⟩ := h
  have key : ∀ x c, (s.setPtr o (some none)).ptr x = some (some c) ↔ s.ptr x = some (some c) := by
    intro x c
    simp only [OwnSt.setPtr]
    by_cases e : x = o
    · simp [e, ho]
    · rw [if_neg e]
  refine ⟨fun c hc => ?_, fun x c hx => h2 x c ((key x c).1 hx), fun x y c hx hy => h3 x y c ((key x c).1 hx) ((key y c).1 hy)⟩
  obtain ⟨x, hx⟩ := h1 c hc
  exact ⟨x, (key x c).2 hx⟩

/-- exchanging the pointers held by two objects, where absent objects count as holding null -/
theorem owned_perm {s t : OwnSt} {f : Nat → Nat} (hf : ∀ x, f (f x) = x) (hl : t.live = s.live) (h : ExactlyOwned s)
    (hp : ∀ x b, t.ptr x = some (some b) ↔ s.ptr (f x) = some (some b)) : ExactlyOwned t := by
  obtain ⟨h1, h2, h3⟩ := h
  refine ⟨fun c hc => ?_, fun x c hx => ?_, fun x y c hx hy => ?_⟩
  · rw [hl] at hc
    obtain ⟨x, hx⟩ := h1 c hc
    exact ⟨f x, (hp _ _).2 (by rw [hf]; exact hx)⟩
  · rw [hl]; exact h2 _ c ((hp x c).1 hx)
  · have := h3 _ _ c ((hp x c).1 hx) ((hp y c).1 hy)
    rw [← hf x, this, hf]

theorem owned_destroy {s : OwnSt} {o : Nat} {p : Option Nat} (h : ExactlyOwned s) (ho : s.ptr o = some p) :
    ∃ s', s.free p = some s' ∧ ExactlyOwned (s'.setPtr o none) := by
  obtain ⟨h1, h2, h3⟩ := h
  cases p with
  | none =>
    refine ⟨s, rfl, ?_⟩
    have key : ∀ x c, (s.setPtr o none).ptr x = some (some c) ↔ s.ptr x = some (some c) := by
      intro x c
      simp only [OwnSt.setPtr]
      by_cases e : x = o
      · simp [e, ho]
      · rw [if_neg e]
    refine ⟨fun c hc => ?_, fun x c hx => h2 x c ((key x c).1 hx), fun x y c hx hy => h3 x y c ((key x c).1 hx) ((key y c).1 hy)⟩
    obtain ⟨x, hx⟩ := h1 c hc
    exact ⟨x, (key x c).2 hx⟩
  | some b =>
    refine ⟨s.setLive b false, by simp [OwnSt.free, h2 o b ho], ?_⟩
    have key : ∀ x c, ((s.setLive b false).setPtr o none).ptr x = some (some c) ↔ s.ptr x = some (some c) ∧ c ≠ b := by
      intro x c
      simp only [OwnSt.setPtr, OwnSt.setLive]
      by_cases e : x = o
      · subst e
        rw [if_pos rfl, ho]
        constructor
        · intro h; cases h
        · rintro ⟨h, h'⟩; cases h; exact (h' rfl).elim
      · rw [if_neg e]
        exact ⟨fun h => ⟨h, by rintro rfl; exact e (h3 x o c h ho)⟩, fun h => h.1⟩
    have kl : ∀ c, ((s.setLive b false).setPtr o none).live c = true ↔ s.live c = true ∧ c ≠ b := by
      intro c
      simp only [OwnSt.setPtr, OwnSt.setLive]
      by_cases e : c = b
      · simp [e]
      · simp [e]
    refine ⟨fun c hc => ?_, fun x c hx => ?_, fun x y c hx hy => h3 x y c ((key x c).1 hx).1 ((key y c).1 hy).1⟩
    · obtain ⟨x, hx⟩ := h1 c ((kl c).1 hc).1
      exact ⟨x, (key x c).2 ⟨hx, ((kl c).1 hc).2⟩⟩
    · obtain ⟨q1, q2⟩ := (key x c).1 hx
      exact (kl c).2 ⟨h2 x c q1, q2⟩

/-- the numbers x and y exchanged -/
def swapIdx (x y z : Nat) : Nat := if z = x then y else if z = y then x else z

theorem swapIdx_inv (x y z : Nat) : swapIdx x y (swapIdx x y z) = z := by
  unfold swapIdx
  by_cases h : z = x <;> by_cases h2 : z = y
  · subst h; subst h2; simp
  · subst h; by_cases h3 : y = z <;> simp [h3]
  · subst h2; simp [h]
  · simp [h, h2]

theorem owned_swap {s : OwnSt} {o o' : Nat} {p q : Option Nat} (h : ExactlyOwned s) (ho : s.ptr o = some p) (ho' : s.ptr o' = some q) :
    ExactlyOwned ((s.setPtr o (some q)).setPtr o' (some p)) := by
  refine owned_perm (s := s) (swapIdx_inv o o') rfl h (fun x b => ?_)
  simp only [OwnSt.setPtr, swapIdx]
  by_cases e1 : x = o' <;> by_cases e2 : x = o
  · subst e1; subst e2; simp [ho]
  · subst e1; rw [if_pos rfl, if_neg e2, if_pos rfl, ho]
  · subst e2; rw [if_neg e1, if_pos rfl, if_pos rfl, ho']
  · simp [e1, e2]

/-- one operation on AlignedStorage objects -/
theorem storage_step {s : OwnSt} {op : StorageOp} (h : ExactlyOwned s) (ha : op.Allowed s) : ∃ s', op.step s = some s' ∧ ExactlyOwned s' := by
  cases op with
  | default o => exact ⟨_, rfl, owned_null h ha⟩
  | sized o r =>
    cases r with
    | none => exact ⟨_, rfl, owned_null h ha.1⟩
    | some b => exact ⟨_, rfl, owned_construct h ha.1 (ha.2 b rfl)⟩
  | moveCtor o src =>
    obtain ⟨p, hp⟩ := Option.ne_none_iff_exists'.1 ha.2
    have hne : src ≠ o := by rintro rfl; rw [ha.1] at hp; cases hp
    refine ⟨_, by unfold StorageOp.step; dsimp only; rw [hp], ?_⟩
    refine owned_perm (s := s) (swapIdx_inv o src) rfl h (fun x b => ?_)
    simp only [OwnSt.setPtr, swapIdx]
    by_cases e1 : x = src
    · subst e1; rw [if_pos rfl, if_neg hne, if_pos rfl, ha.1]; simp
    · by_cases e2 : x = o
      · subst e2; rw [if_neg e1, if_pos rfl, if_pos rfl, hp]
      · simp [e1, e2]
  | moveAssign o src =>
    obtain ⟨p, hp⟩ := Option.ne_none_iff_exists'.1 ha.1
    obtain ⟨q, hq⟩ := Option.ne_none_iff_exists'.1 ha.2
    exact ⟨_, by unfold StorageOp.step; dsimp only; rw [hp, hq], owned_swap h hp hq⟩
  | swap o src =>
    obtain ⟨p, hp⟩ := Option.ne_none_iff_exists'.1 ha.1
    obtain ⟨q, hq⟩ := Option.ne_none_iff_exists'.1 ha.2
    exact ⟨_, by unfold StorageOp.step; dsimp only; rw [hp, hq], owned_swap h hp hq⟩
  | destroy o =>
    obtain ⟨p, hp⟩ := Option.ne_none_iff_exists'.1 ha
    obtain ⟨s', h1, h2⟩ := owned_destroy h hp
    exact ⟨_, by unfold StorageOp.step; dsimp only; rw [hp]; dsimp only; rw [h1]; rfl, h2⟩

theorem run_invariant {Op : Type} {step : OwnSt → Op → Option OwnSt} {Allowed : OwnSt → Op → Prop} {I : OwnSt → Prop} {P : Op → Prop}
    (hstep : ∀ s op, I s → P op → Allowed s op → ∃ s', step s op = some s' ∧ I s') :
    ∀ (ops : List Op) (s : OwnSt), I s → (∀ op ∈ ops, P op) → ValidOps step Allowed s ops → ∃ s', runOps step s ops = some s' ∧ I s' := by
  intro ops
  induction ops with
  | nil => intro s h _ _; exact ⟨s, rfl, h⟩
  | cons op ops ih =>
    intro s h hP hv
    obtain ⟨s1, e1, h1⟩ := hstep s op h (hP op (List.mem_cons_self ..)) hv.1
    obtain ⟨s2, e2, h2⟩ := ih s1 h1 (fun x hx => hP x (List.mem_cons_of_mem _ hx)) (hv.2 s1 e1)
    exact ⟨s2, by unfold runOps; rw [e1]; exact e2, h2⟩

/-- **C66** (AlignedStorage). Whatever sequence of constructions, moves, swaps (also of an object with itself) and destructions of AlignedStorage objects a program
executes, whichever blocks the allocator hands out and whether or not it succeeds: no block is freed twice or freed without being allocated, and at every
moment each allocated block is held by exactly one object. In particular, when no object is left, no block is. -/
theorem C66_storage {ops : List StorageOp} (hv : ValidOps StorageOp.step StorageOp.Allowed .empty ops) :
    ∃ s, runOps StorageOp.step .empty ops = some s ∧ ExactlyOwned s ∧ ((∀ o, s.ptr o = none) → ∀ b, s.live b = false) := by
  obtain ⟨s, e, h⟩ := run_invariant (I := ExactlyOwned) (P := fun _ => True) (fun s op h _ ha => storage_step h ha) ops .empty empty_owned (fun _ _ => trivial) hv
  refine ⟨s, e, h, fun hn b => ?_⟩
  by_contra hb
  obtain ⟨o, ho⟩ := h.1 b (by simpa using hb)
  rw [hn o] at ho; cases ho

/-- **C66** (moves). Move construction transfers the block and leaves null in the source; move assignment exchanges the two blocks - the old block of the
target is not freed but kept alive by the source - and touches no other object. Neither allocates nor frees. -/
theorem C66_moves {s : OwnSt} {o src : Nat} {p q : Option Nat} (hs : s.ptr src = some q) :
    (s.ptr o = none → ∃ s', (StorageOp.moveCtor o src).step s = some s' ∧ s'.ptr o = some q ∧ s'.ptr src = some none ∧ s'.live = s.live ∧
      ∀ x, x ≠ o → x ≠ src → s'.ptr x = s.ptr x) ∧
    (s.ptr o = some p → ∃ s', (StorageOp.moveAssign o src).step s = some s' ∧ s'.ptr o = some q ∧ s'.ptr src = some p ∧ s'.live = s.live ∧
      ∀ x, x ≠ o → x ≠ src → s'.ptr x = s.ptr x) := by
  constructor
  · intro ho
    have hne : o ≠ src := by rintro rfl; rw [ho] at hs; cases hs
    refine ⟨(s.setPtr o (some q)).setPtr src (some none), by unfold StorageOp.step; dsimp only; rw [hs], ?_, ?_, rfl, fun x h1 h2 => ?_⟩ <;> simp [OwnSt.setPtr, *]
  · intro ho
    refine ⟨(s.setPtr o (some q)).setPtr src (some p), by unfold StorageOp.step; dsimp only; rw [ho, hs], ?_, ?_, rfl, fun x h1 h2 => ?_⟩
    · simp only [OwnSt.setPtr]
      by_cases e : o = src
      · subst e; rw [if_pos rfl]; rw [ho] at hs; exact hs
      · simp [e]
    · simp [OwnSt.setPtr]
    · simp [OwnSt.setPtr, *]

/-- the operations of blasfeo::DynamicMatrix that make two objects hold the same block -/
def MatrixOp.copies : MatrixOp → Prop
  | .copyCtor _ _ => True
  | .copyAssign o src => o ≠ src
  | _ => False

theorem matrix_step {s : OwnSt} {op : MatrixOp} (h : ExactlyOwned s) (hc : ¬ op.copies) (ha : op.Allowed s) : ∃ s', op.step s = some s' ∧ ExactlyOwned s' := by
  cases op with
  | construct o b => exact ⟨_, rfl, owned_construct h ha.1 ha.2⟩
  | copyCtor o src => exact (hc trivial).elim
  | copyAssign o src =>
    obtain rfl : o = src := by by_contra hne; exact hc hne
    obtain ⟨p, hp⟩ := Option.ne_none_iff_exists'.1 ha.1
    refine ⟨_, by unfold MatrixOp.step; dsimp only; rw [hp], ?_⟩
    refine owned_perm (s := s) (f := id) (fun _ => rfl) rfl h (fun x b => ?_)
    simp only [OwnSt.setPtr, id]
    by_cases e : x = o
    · rw [e, if_pos rfl, hp]
    · rw [if_neg e]
  | assignBlaze o => exact ⟨s, by unfold MatrixOp.step; dsimp only; rw [if_neg ha], h⟩
  | destroy o =>
    obtain ⟨p, hp⟩ := Option.ne_none_iff_exists'.1 ha
    obtain ⟨s', h1, h2⟩ := owned_destroy h hp
    exact ⟨_, by unfold MatrixOp.step; dsimp only; rw [hp]; dsimp only; rw [h1]; rfl, h2⟩

/-- **C66** (blasfeo::DynamicMatrix without copies). As long as no object is copied from another one, no block is freed twice, each allocated block is held by exactly
one object, and nothing is left when no object is. -/
theorem C66_matrix_no_copies {ops : List MatrixOp} (hc : ∀ op ∈ ops, ¬ op.copies) (hv : ValidOps MatrixOp.step MatrixOp.Allowed .empty ops) :
    ∃ s, runOps MatrixOp.step .empty ops = some s ∧ ExactlyOwned s ∧ ((∀ o, s.ptr o = none) → ∀ b, s.live b = false) := by
  obtain ⟨s, e, h⟩ := run_invariant (I := ExactlyOwned) (P := fun op => ¬ op.copies) (fun s op h hc ha => matrix_step h hc ha) ops .empty empty_owned hc hv
  refine ⟨s, e, h, fun hn b => ?_⟩
  by_contra hb
  obtain ⟨o, ho⟩ := h.1 b (by simpa using hb)
  rw [hn o] at ho; cases ho

/-- blocks allocated, objects alive -/
def OwnSt.liveSet (s : OwnSt) : Set Nat := {b | s.live b = true}
def OwnSt.objSet (s : OwnSt) : Set Nat := {o | s.ptr o ≠ none}

/-- counting invariant of histories of DynamicMatrix -/
structure Count (s : OwnSt) : Prop where
  finL : s.liveSet.Finite
  finO : s.objSet.Finite
  le : s.liveSet.ncard ≤ s.objSet.ncard
  nonnull : ∀ o, s.ptr o ≠ some none

/-- more objects than blocks, or a block without owner: the history cannot end well -/
def Doomed (s : OwnSt) : Prop :=
  s.liveSet.ncard < s.objSet.ncard ∨ ∃ b, s.live b = true ∧ ∀ o, s.ptr o ≠ some (some b)

theorem objSet_set_none {s : OwnSt} {o : Nat} : (s.setPtr o none).objSet = s.objSet \ {o} := by
  ext x
  simp only [OwnSt.objSet, OwnSt.setPtr, Set.mem_ofPred_eq, Set.mem_sdiff, Set.mem_singleton_iff]
  by_cases e : x = o <;> simp [e]

theorem objSet_set_some {s : OwnSt} {o : Nat} {p : Option Nat} : (s.setPtr o (some p)).objSet = insert o s.objSet := by
  ext x
  simp only [OwnSt.objSet, OwnSt.setPtr, Set.mem_ofPred_eq, Set.mem_insert_iff]
  by_cases e : x = o <;> simp [e]

theorem liveSet_true {s : OwnSt} {b : Nat} : (s.setLive b true).liveSet = insert b s.liveSet := by
  ext x
  simp only [OwnSt.liveSet, OwnSt.setLive, Set.mem_ofPred_eq, Set.mem_insert_iff]
  by_cases e : x = b <;> simp [e]

theorem liveSet_false {s : OwnSt} {b : Nat} : (s.setLive b false).liveSet = s.liveSet \ {b} := by
  ext x
  simp only [OwnSt.liveSet, OwnSt.setLive, Set.mem_ofPred_eq, Set.mem_sdiff, Set.mem_singleton_iff]
  by_cases e : x = b <;> simp [e]

theorem count_step {s s' : OwnSt} {op : MatrixOp} (h : Count s) (ha : op.Allowed s) (e : op.step s = some s') :
    Count s' ∧ (Doomed s → Doomed s') ∧ (ExactlyOwned s → op.copies → Doomed s') := by
  cases op with
  | construct o b =>
    injection e with e
    subst e
    have eo : ((s.malloc (some b)).setPtr o (some (some b))).objSet = insert o s.objSet := objSet_set_some
    have el : ((s.malloc (some b)).setPtr o (some (some b))).liveSet = insert b s.liveSet := liveSet_true
    have co : (insert o s.objSet).ncard = s.objSet.ncard + 1 := Set.ncard_insert_of_notMem (by simp [OwnSt.objSet, ha.1]) h.finO
    have cl : (insert b s.liveSet).ncard = s.liveSet.ncard + 1 := Set.ncard_insert_of_notMem (by simp [OwnSt.liveSet, ha.2]) h.finL
    refine ⟨⟨?_, ?_, ?_, ?_⟩, ?_, fun _ hc => hc.elim⟩
    · rw [el]; exact h.finL.insert _
    · rw [eo]; exact h.finO.insert _
    · rw [eo, el, co, cl]; have := h.le; omega
    · intro x
      simp only [OwnSt.setPtr, OwnSt.malloc, OwnSt.setLive]
      split
      · simp
      · exact h.nonnull x
    · rintro (hd | ⟨c, hc, hu⟩)
      · left; rw [eo, el, co, cl]; omega
      · right
        have hcb : c ≠ b := by rintro rfl; rw [ha.2] at hc; cases hc
        refine ⟨c, ?_, fun x => ?_⟩
        · simp [OwnSt.setPtr, OwnSt.malloc, OwnSt.setLive, hcb, hc]
        · simp only [OwnSt.setPtr, OwnSt.malloc, OwnSt.setLive]
          split
          · intro e; injection e with e; injection e with e; exact hcb e.symm
          · exact hu x
  | copyCtor o src =>
    unfold MatrixOp.step at e
    dsimp only at e
    obtain ⟨p, hp⟩ := Option.ne_none_iff_exists'.1 ha.2
    rw [hp] at e
    injection e with e
    subst e
    have co : (insert o s.objSet).ncard = s.objSet.ncard + 1 := Set.ncard_insert_of_notMem (by simp [OwnSt.objSet, ha.1]) h.finO
    have el : (s.setPtr o (some p)).liveSet = s.liveSet := rfl
    have hdoom : Doomed (s.setPtr o (some p)) := by
      left; rw [objSet_set_some, el, co]; have := h.le; omega
    refine ⟨⟨h.finL, ?_, ?_, ?_⟩, fun _ => hdoom, fun _ _ => hdoom⟩
    · rw [objSet_set_some]; exact h.finO.insert _
    · rw [objSet_set_some, el, co]; have := h.le; omega
    · intro x
      simp only [OwnSt.setPtr]
      split
      · rw [← hp]; exact h.nonnull src
      · exact h.nonnull x
  | copyAssign o src =>
    unfold MatrixOp.step at e
    dsimp only at e
    obtain ⟨p, hp⟩ := Option.ne_none_iff_exists'.1 ha.2
    rw [hp] at e
    injection e with e
    subst e
    have eo : (s.setPtr o (some p)).objSet = s.objSet := by
      rw [objSet_set_some]; exact Set.insert_eq_of_mem ha.1
    have el : (s.setPtr o (some p)).liveSet = s.liveSet := rfl
    refine ⟨⟨h.finL, by rw [eo]; exact h.finO, by rw [eo, el]; exact h.le, ?_⟩, ?_, ?_⟩
    · intro x
      simp only [OwnSt.setPtr]
      split
      · rw [← hp]; exact h.nonnull src
      · exact h.nonnull x
    · rintro (hd | ⟨c, hc, hu⟩)
      · left; rw [eo, el]; exact hd
      · right
        refine ⟨c, hc, fun x => ?_⟩
        simp only [OwnSt.setPtr]
        split
        · rw [← hp]; exact hu src
        · exact hu x
    · intro hex hne
      obtain ⟨q, hq⟩ := Option.ne_none_iff_exists'.1 ha.1
      cases q with
      | none => exact (h.nonnull o hq).elim
      | some b =>
        right
        refine ⟨b, hex.2.1 o b hq, fun x => ?_⟩
        simp only [OwnSt.setPtr]
        split
        · rw [← hp]; intro hx; exact hne (hex.2.2 o src b hq hx)
        · rename_i hxo; intro hx; exact hxo (hex.2.2 x o b hx hq)
  | assignBlaze o =>
    unfold MatrixOp.step at e
    dsimp only at e
    rw [if_neg ha] at e
    injection e with e
    subst e
    exact ⟨h, id, fun _ hc => hc.elim⟩
  | destroy o =>
    unfold MatrixOp.step at e
    dsimp only at e
    obtain ⟨p, hp⟩ := Option.ne_none_iff_exists'.1 ha
    rw [hp] at e
    cases p with
    | none => exact (h.nonnull o hp).elim
    | some b =>
      dsimp only at e
      unfold OwnSt.free at e
      dsimp only at e
      split at e
      rotate_left
      · cases e
      rename_i hb
      injection e with e
      subst e
      have eo : ((s.setLive b false).setPtr o none).objSet = s.objSet \ {o} := objSet_set_none
      have el : ((s.setLive b false).setPtr o none).liveSet = s.liveSet \ {b} := liveSet_false
      have hmo : o ∈ s.objSet := ha
      have hml : b ∈ s.liveSet := hb
      have co := Set.ncard_sdiff_singleton_add_one hmo h.finO
      have cl := Set.ncard_sdiff_singleton_add_one hml h.finL
      refine ⟨⟨?_, ?_, ?_, ?_⟩, ?_, fun _ hc => hc.elim⟩
      · rw [el]; exact h.finL.subset Set.sdiff_subset
      · rw [eo]; exact h.finO.subset Set.sdiff_subset
      · rw [eo, el]; have := h.le; omega
      · intro x
        simp only [OwnSt.setPtr, OwnSt.setLive]
        split
        · simp
        · exact h.nonnull x
      · rintro (hd | ⟨c, hc, hu⟩)
        · left; rw [eo, el]; omega
        · right
          have hcb : c ≠ b := by rintro rfl; exact hu o hp
          refine ⟨c, ?_, fun x => ?_⟩
          · simp [OwnSt.setPtr, OwnSt.setLive, hcb, hc]
          · simp only [OwnSt.setPtr, OwnSt.setLive]
            split
            · simp
            · exact hu x

theorem count_empty : Count .empty := by
  have e1 : OwnSt.empty.liveSet = ∅ := by ext x; simp [OwnSt.liveSet, OwnSt.empty]
  have e2 : OwnSt.empty.objSet = ∅ := by ext x; simp [OwnSt.objSet, OwnSt.empty]
  refine ⟨?_, ?_, ?_, fun o => ?_⟩
  · rw [e1]; exact Set.finite_empty
  · rw [e2]; exact Set.finite_empty
  · rw [e1, e2]
  · simp [OwnSt.empty]

theorem doomed_run : ∀ (ops : List MatrixOp) (s s' : OwnSt), Count s → Doomed s ∨ (ExactlyOwned s ∧ ∃ op ∈ ops, op.copies) →
    ValidOps MatrixOp.step MatrixOp.Allowed s ops → runOps MatrixOp.step s ops = some s' → Count s' ∧ Doomed s' := by
  intro ops
  induction ops with
  | nil =>
    intro s s' hc hd _ e
    injection e with e
    subst e
    rcases hd with hd | ⟨_, op, hop, _⟩
    · exact ⟨hc, hd⟩
    · cases hop
  | cons op ops ih =>
    intro s s' hc hd hv e
    unfold runOps at e
    cases hs : op.step s with
    | none => rw [hs] at e; cases e
    | some s1 =>
      rw [hs] at e
      obtain ⟨k1, k2, k3⟩ := count_step hc hv.1 hs
      refine ih s1 s' k1 ?_ (hv.2 s1 hs) e
      rcases hd with hd | ⟨hex, op', hop', hcop⟩
      · exact Or.inl (k2 hd)
      · by_cases hcc : op.copies
        · exact Or.inl (k3 hex hcc)
        · obtain ⟨s1', e1, h1⟩ := matrix_step hex hcc hv.1
          rw [hs] at e1
          injection e1 with e1
          subst e1
          rcases List.mem_cons.1 hop' with rfl | hm
          · exact (hcc hcop).elim
          · exact Or.inr ⟨h1, op', hm, hcop⟩

/-- **C66** (copying is fatal). blasfeo::DynamicMatrix has the implicit copy operations. In every history containing at least one copy construction, or one
copy assignment between different objects, the destruction of all objects - in whatever order, and whatever happens in between - frees a block that is not
allocated. -/
theorem C66_matrix_copy_refuted {ops : List MatrixOp} {s : OwnSt} (hv : ValidOps MatrixOp.step MatrixOp.Allowed .empty ops) (hc : ∃ op ∈ ops, op.copies)
    (hrun : runOps MatrixOp.step .empty ops = some s) : ∃ o, s.ptr o ≠ none := by
  obtain ⟨k1, k2⟩ := doomed_run ops .empty s count_empty (Or.inr ⟨empty_owned, hc⟩) hv hrun
  by_contra hn
  push Not at hn
  have e2 : s.objSet = ∅ := by ext x; simp [OwnSt.objSet, hn x]
  have h0 : s.objSet.ncard = 0 := by rw [e2]; exact Set.ncard_empty _
  rcases k2 with h | ⟨b, hb, _⟩
  · omega
  · have : s.liveSet.ncard = 0 := by have := k1.le; omega
    have := (Set.ncard_eq_zero k1.finL).1 this
    have hb' : b ∈ s.liveSet := hb
    rw [this] at hb'
    exact hb'

/-- the shortest such program: `{ DynamicMatrix<double> x(m, n); DynamicMatrix<double> y = x; }` -/
example : ValidOps MatrixOp.step MatrixOp.Allowed .empty [.construct 0 7, .copyCtor 1 0, .destroy 1, .destroy 0] ∧
    runOps MatrixOp.step .empty [.construct 0 7, .copyCtor 1 0, .destroy 1, .destroy 0] = none := by
  refine ⟨⟨⟨rfl, rfl⟩, ?_⟩, rfl⟩
  intro s h; cases h
  refine ⟨⟨rfl, by simp [OwnSt.setPtr, OwnSt.malloc, OwnSt.setLive]⟩, ?_⟩
  intro s h; cases h
  refine ⟨by simp [MatrixOp.Allowed, OwnSt.setPtr, OwnSt.malloc, OwnSt.setLive], ?_⟩
  intro s h; cases h
  refine ⟨by simp [MatrixOp.Allowed, OwnSt.setPtr, OwnSt.malloc, OwnSt.setLive], fun s h => ?_⟩
  cases h

/-- a history of AlignedStorage meeting the hypotheses, with a move, an assignment and a reused block -/
example : ValidOps StorageOp.step StorageOp.Allowed .empty [.sized 0 (some 7), .moveCtor 1 0, .sized 2 (some 8), .moveAssign 1 2, .destroy 2, .sized 3 (some 7), .swap 3 3] := by
  refine ⟨⟨rfl, fun b h => rfl⟩, fun s h => ?_⟩; cases h
  refine ⟨⟨rfl, by simp [OwnSt.setPtr, OwnSt.malloc, OwnSt.setLive]⟩, fun s h => ?_⟩; cases h
  refine ⟨⟨rfl, fun b h => by cases h; rfl⟩, fun s h => ?_⟩; cases h
  refine ⟨⟨by simp [OwnSt.setPtr, OwnSt.malloc, OwnSt.setLive], by simp [OwnSt.setPtr, OwnSt.malloc, OwnSt.setLive]⟩, fun s h => ?_⟩; cases h
  refine ⟨by simp [StorageOp.Allowed, OwnSt.setPtr, OwnSt.malloc, OwnSt.setLive], fun s h => ?_⟩; cases h
  refine ⟨⟨rfl, fun b h => by cases h; rfl⟩, fun s h => ?_⟩; cases h
  refine ⟨⟨by simp [OwnSt.setPtr, OwnSt.malloc, OwnSt.setLive], by simp [OwnSt.setPtr, OwnSt.malloc, OwnSt.setLive]⟩, fun s h => ?_⟩; cases h
  trivial

end Blasfeo
end Blast
