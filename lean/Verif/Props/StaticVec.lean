import Verif.StaticVec
import Verif.ContainerLemmas
import Verif.Props.Gemm
/- Concrete cases meeting the hypotheses of these theorems: Verif/Cases/Storage.lean, and the examples in this file. -/
/-
Property C53: StaticVector.
-/
set_option linter.unusedSectionVars false
namespace Blast
open Prog
variable {V : Type} [Arith V]

/-- `nextMultiple` is not smaller -/
theorem VObj.n_le_capacity {SS : Nat} (hSS : 0 < SS) (v : VObj) : v.n ≤ v.capacity SS := by
  unfold VObj.capacity
  rw [nextMultiple_eq_roundUp _ hSS]
  exact self_le_roundUp hSS

/-- all cells of the storage of `v` change to `f 0, f 1, …` and no other cell changes -/
def VWritten (SS : Nat) (m m' : Mem V) (v : VObj) (f : Nat → V) : Prop :=
  (∀ k : Nat, k < v.capacity SS → m' (v.data + k) = some (f k)) ∧ (∀ z, ¬ v.Storage SS z → m' z = m z)

theorem runs_vfill {SS : Nat} {v : VObj} {m : Mem V} (h : VLive SS m v) (x : V) :
    Runs (fillN v.data (v.capacity SS) x) m (fun _ m' => VWritten SS m m' v (fun _ => x)) := by
  refine (runs_fillN (fun z h1 h2 => h.alloc z ⟨h1, h2⟩)).mono (fun _ m' hw => ⟨fun k hk => ?_, fun z hz => (hw z).2 hz⟩)
  exact (hw _).1 ⟨by omega, by omega⟩

/-- **C53** (default construction, construction from a value, assignment of a value, `reset()`): every element, and every padding element, becomes the
value (0 for default construction and reset); nothing else changes. -/
theorem C53_fill {SS : Nat} (v : VObj) (m : Mem V) (h : VLive SS m v) (x : V) :
    Runs (v.ctorDefault SS) m (fun _ m' => VWritten SS m m' v (fun _ => Arith.zero)) ∧
    Runs (v.ctorFill SS x) m (fun _ m' => VWritten SS m m' v (fun _ => x)) ∧
    Runs (v.assignScalar SS x) m (fun _ m' => VWritten SS m m' v (fun _ => x)) ∧
    Runs (v.reset SS) m (fun _ m' => VWritten SS m m' v (fun _ => Arith.zero)) :=
  ⟨runs_vfill h _, runs_vfill h _, runs_vfill h _, runs_vfill h _⟩

/-- **C53** (initializer list): element `i` is the `i`-th entry of the list; missing entries are 0, superfluous entries are ignored, padding elements are
0; nothing else changes, whatever the storage contained before. -/
theorem C53_initializer_list {SS : Nat} (hSS : 0 < SS) (v : VObj) (m : Mem V) (h : VLive SS m v) (l : List V) :
    Runs (v.ctorList SS l) m (fun _ m' =>
      VWritten SS m m' v (fun k => if k < v.n then (l[k]?).getD Arith.zero else Arith.zero)) := by
  have hc := v.n_le_capacity hSS
  unfold VObj.ctorList
  refine Runs.bind (Q := fun _ m' => (∀ k : Nat, k < min l.length v.n → m' (v.data + k) = some (l.getD k Arith.zero)) ∧
      (∀ z, (∀ k : Nat, k < min l.length v.n → z ≠ v.data + k) → m' z = m z)) ?_ ?_
  · refine runs_forN (I := fun t m' => (∀ k : Nat, k < t → m' (v.data + k) = some (l.getD k Arith.zero)) ∧
      (∀ z, (∀ k : Nat, k < t → z ≠ v.data + k) → m' z = m z)) ⟨fun k hk => absurd hk (Nat.not_lt_zero _), fun _ _ => rfl⟩ ?_
    intro t m' ht ⟨i1, i2⟩
    refine runs_write ?_ ?_
    · rw [i2 _ (fun k hk => by omega)]
      exact h.alloc _ ⟨by omega, by omega⟩
    · constructor
      · intro k hk
        by_cases e : k = t
        · subst e; simp
        · dsimp only; rw [if_neg (by omega)]; exact i1 k (by omega)
      · intro z hz
        dsimp only; rw [if_neg (hz t (by omega))]
        exact i2 z (fun k hk => hz k (by omega))
  · intro _ m1 ⟨q1, q2⟩
    refine (runs_fillN (fun z h1 h2 => ?_)).mono ?_
    · rw [q2 z (fun k hk => by omega)]
      exact h.alloc z ⟨by omega, by omega⟩
    · intro _ m2 hw
      constructor
      · intro k hk
        dsimp only
        by_cases hkm : k < min l.length v.n
        · rw [(hw _).2 (by omega), q1 k hkm, if_pos (by omega), List.getD_eq_getElem?_getD]
        · rw [(hw _).1 ⟨by omega, by omega⟩]
          by_cases hkn : k < v.n
          · rw [if_pos hkn, List.getElem?_eq_none (by omega)]; rfl
          · rw [if_neg hkn]
      · intro z hz
        rw [(hw z).2 (fun hc' => hz ⟨by omega, by omega⟩), q2 z (fun k hk e => hz ⟨by omega, by omega⟩)]

/-! ### Histories -/

/-- vectors as values: `a x i` is element `i` of vector `x` (elements beyond the size are the padding) -/
def vspec (a : Nat → Nat → V) : VOp V → Option V × (Nat → Nat → V)
  | .fill x v => (none, fun y => if y = x then fun _ => v else a y)
  | .reset x => (none, fun y => if y = x then fun _ => Arith.zero else a y)
  | .set x i v => (none, fun y => if y = x then fun k => if k = i then v else a x k else a y)
  | .get x i => (some (a x i), a)
  | .assign x z => (none, fun y => if y = x then a z else a y)

def vspecAll (a : Nat → Nat → V) : List (VOp V) → List (Option V) × (Nat → Nat → V)
  | [] => ([], a)
  | op :: ops => ((vspec a op).1 :: (vspecAll (vspec a op).2 ops).1, (vspecAll (vspec a op).2 ops).2)

/-- the vectors used by an operation -/
def VOp.uses : VOp V → List Nat
  | .fill x _ => [x]
  | .reset x => [x]
  | .set x _ _ => [x]
  | .get x _ => [x]
  | .assign x y => [x, y]

/-- indices in range, vector assignment between vectors of the same type -/
def VOp.Valid (vs : Nat → VObj) : VOp V → Prop
  | .set x i _ => i < (vs x).n
  | .get x i => i < (vs x).n
  | .assign x y => (vs x).n = (vs y).n
  | _ => True

/-- in memory `m` the storage of every vector in `U` contains its value, the rest of memory is as in `m0` -/
structure VRep (SS : Nat) (vs : Nat → VObj) (U : Nat → Prop) (m0 m : Mem V) (a : Nat → Nat → V) : Prop where
  val : ∀ x, U x → ∀ k : Nat, k < (vs x).capacity SS → m ((vs x).data + k) = some (a x k)
  frame : ∀ z, (∀ x, U x → ¬ (vs x).Storage SS z) → m z = m0 z

theorem VRep.write {SS : Nat} {vs : Nat → VObj} {U : Nat → Prop} {m0 m m' : Mem V} {a : Nat → Nat → V} (h : VRep SS vs U m0 m a)
    (hd : ∀ x y, U x → U y → x ≠ y → ∀ z, (vs x).Storage SS z → ¬ (vs y).Storage SS z) {x : Nat} (hx : U x) {f : Nat → V}
    (hw : VWritten SS m m' (vs x) f) : VRep SS vs U m0 m' (fun y => if y = x then f else a y) := by
  constructor
  · intro y hy k hk
    by_cases e : y = x
    · subst e; rw [if_pos rfl]; exact hw.1 k hk
    · rw [if_neg e, hw.2 _ (hd y x hy hx e _ ⟨by omega, by omega⟩)]
      exact h.val y hy k hk
  · intro z hz
    rw [hw.2 z (hz x hx)]; exact h.frame z hz

theorem VRep.live {SS : Nat} {vs : Nat → VObj} {U : Nat → Prop} {m0 m : Mem V} {a : Nat → Nat → V} (h : VRep SS vs U m0 m a) {x : Nat} (hx : U x)
    {z : Int} (hz : (vs x).Storage SS z) : (m z).isSome = true := by
  have h1 := hz.1
  have h2 := hz.2
  have := h.val x hx (z - (vs x).data).toNat (by omega)
  rw [show (vs x).data + (((z - (vs x).data).toNat : Nat) : Int) = z by omega] at this
  rw [this]; rfl

theorem runs_vcopy {SS : Nat} {v u : VObj} {m : Mem V} {f : Nat → V} (hc : v.capacity SS = u.capacity SS)
    (hv : ∀ z, v.Storage SS z → (m z).isSome = true) (hu : ∀ k : Nat, k < u.capacity SS → m (u.data + k) = some (f k))
    (hd : v = u ∨ ∀ z, v.Storage SS z → ¬ u.Storage SS z) :
    Runs (v.copyAssign SS u) m (fun _ m' => VWritten SS m m' v f) := by
  unfold VObj.copyAssign
  refine (runs_forN (I := fun t m' => (∀ k : Nat, k < t → m' (v.data + k) = some (f k)) ∧
      (∀ z, (∀ k : Nat, k < t → z ≠ v.data + k) → m' z = m z)) ⟨fun k hk => absurd hk (Nat.not_lt_zero _), fun _ _ => rfl⟩ ?_).mono ?_
  · intro t m' ht ⟨i1, i2⟩
    have hrd : m' (u.data + t) = some (f t) := by
      rw [i2 _ ?_]
      · exact hu t (by omega)
      · intro k hk e
        rcases hd with rfl | hd
        · omega
        · exact hd (v.data + k) ⟨by omega, by omega⟩ (by rw [← e]; exact ⟨by omega, by omega⟩)
    refine Runs.bind (Q := fun x m'' => x = f t ∧ m'' = m') ⟨f t, m', by unfold Prog.read; rw [hrd], rfl, rfl⟩ ?_
    rintro _ _ ⟨rfl, rfl⟩
    refine runs_write ?_ ?_
    · rw [i2 _ (fun k hk => by omega)]
      exact hv _ ⟨by omega, by omega⟩
    · constructor
      · intro k hk
        by_cases e : k = t
        · subst e; simp
        · dsimp only; rw [if_neg (by omega)]; exact i1 k (by omega)
      · intro z hz
        dsimp only; rw [if_neg (hz t (by omega))]
        exact i2 z (fun k hk => hz k (by omega))
  · intro _ m' ⟨i1, i2⟩
    exact ⟨i1, fun z hz => i2 z (fun k hk e => hz ⟨by omega, by omega⟩)⟩

theorem vop_rep {SS : Nat} (hSS : 0 < SS) {vs : Nat → VObj} {U : Nat → Prop} {m0 m : Mem V} {a : Nat → Nat → V}
    (hd : ∀ x y, U x → U y → x ≠ y → ∀ z, (vs x).Storage SS z → ¬ (vs y).Storage SS z)
    (h : VRep SS vs U m0 m a) (op : VOp V) (hu : ∀ x ∈ op.uses, U x) (hv : op.Valid vs) :
    Runs (op.run SS vs) m (fun r m' => r = (vspec a op).1 ∧ VRep SS vs U m0 m' (vspec a op).2) := by
  cases op with
  | fill x v =>
    have hx : U x := hu x (by simp [VOp.uses])
    unfold VOp.run
    refine Runs.bind (Q := fun _ m' => VWritten SS m m' (vs x) (fun _ => v)) ?_ (fun _ m' hw => runs_pure ⟨rfl, h.write hd hx hw⟩)
    refine (runs_fillN (fun z h1 h2 => h.live hx ⟨h1, h2⟩)).mono (fun _ m' hw => ⟨fun k hk => ?_, fun z hz => (hw z).2 hz⟩)
    exact (hw _).1 ⟨by omega, by omega⟩
  | reset x =>
    have hx : U x := hu x (by simp [VOp.uses])
    unfold VOp.run
    refine Runs.bind (Q := fun _ m' => VWritten SS m m' (vs x) (fun _ => Arith.zero)) ?_ (fun _ m' hw => runs_pure ⟨rfl, h.write hd hx hw⟩)
    refine (runs_fillN (fun z h1 h2 => h.live hx ⟨h1, h2⟩)).mono (fun _ m' hw => ⟨fun k hk => ?_, fun z hz => (hw z).2 hz⟩)
    exact (hw _).1 ⟨by omega, by omega⟩
  | set x i v =>
    have hx : U x := hu x (by simp [VOp.uses])
    have hi : i < (vs x).capacity SS := Nat.lt_of_lt_of_le hv ((vs x).n_le_capacity hSS)
    unfold VOp.run
    refine Runs.bind (Q := fun _ m' => VWritten SS m m' (vs x) (fun k => if k = i then v else a x k)) ?_
      (fun _ m' hw => runs_pure ⟨rfl, h.write hd hx hw⟩)
    refine runs_write (h.live hx ⟨by omega, by omega⟩) ⟨fun k hk => ?_, fun z hz => ?_⟩
    · by_cases e : k = i
      · subst e; simp
      · dsimp only; rw [if_neg (by omega), if_neg e]; exact h.val x hx k hk
    · dsimp only; rw [if_neg (fun e => hz ⟨by omega, by omega⟩)]
  | get x i =>
    have hx : U x := hu x (by simp [VOp.uses])
    have hi : i < (vs x).capacity SS := Nat.lt_of_lt_of_le hv ((vs x).n_le_capacity hSS)
    unfold VOp.run
    refine Runs.bind (Q := fun r m' => r = a x i ∧ m' = m) ⟨a x i, m, (by unfold VObj.get Prog.read; rw [h.val x hx i hi]), rfl, rfl⟩ ?_
    rintro _ _ ⟨rfl, rfl⟩
    exact runs_pure ⟨rfl, h⟩
  | assign x y =>
    have hx : U x := hu x (by simp [VOp.uses])
    have hy : U y := hu y (by simp [VOp.uses])
    unfold VOp.run
    refine Runs.bind (Q := fun _ m' => VWritten SS m m' (vs x) (a y)) ?_ (fun _ m' hw => runs_pure ⟨rfl, h.write hd hx hw⟩)
    refine runs_vcopy ?_ (fun z hz => h.live hx hz) (h.val y hy) ?_
    · have hv' : (vs x).n = (vs y).n := hv
      unfold VObj.capacity; rw [hv']
    · by_cases e : x = y
      · exact Or.inl (by rw [e])
      · exact Or.inr (hd x y hx hy e)

/-- **C53** (histories). Any sequence of fills, resets, element assignments, element reads and assignments between vectors of the same type, on any
number of vectors with pairwise disjoint storage, returns the values it returns when the vectors are values; at the end every vector contains its specified value, and
no cell outside of the vectors has changed. -/
theorem C53_history {SS : Nat} (hSS : 0 < SS) (vs : Nat → VObj) (U : Nat → Prop)
    (hd : ∀ x y, U x → U y → x ≠ y → ∀ z, (vs x).Storage SS z → ¬ (vs y).Storage SS z) (ops : List (VOp V)) :
    ∀ (m : Mem V) (a : Nat → Nat → V), (∀ x, U x → ∀ k : Nat, k < (vs x).capacity SS → m ((vs x).data + k) = some (a x k)) →
    (∀ op ∈ ops, (∀ x ∈ op.uses, U x) ∧ op.Valid vs) →
    Runs (VOp.runAll SS vs ops) m (fun rs m' => rs = (vspecAll a ops).1 ∧
      (∀ x, U x → ∀ i : Nat, i < (vs x).n → m' ((vs x).data + i) = some ((vspecAll a ops).2 x i)) ∧
      (∀ z, (∀ x, U x → ¬ (vs x).Storage SS z) → m' z = m z)) := by
  have key : ∀ (ops : List (VOp V)) (m0 m : Mem V) (a : Nat → Nat → V), VRep SS vs U m0 m a →
      (∀ op ∈ ops, (∀ x ∈ op.uses, U x) ∧ op.Valid vs) →
      Runs (VOp.runAll SS vs ops) m (fun rs m' => rs = (vspecAll a ops).1 ∧ VRep SS vs U m0 m' (vspecAll a ops).2) := by
    intro ops
    induction ops with
    | nil => intro m0 m a h _; exact runs_pure ⟨rfl, h⟩
    | cons op ops ih =>
      intro m0 m a h hv
      obtain ⟨h1, h2⟩ := hv op (List.mem_cons_self ..)
      unfold VOp.runAll
      refine Runs.bind (vop_rep hSS hd h op h1 h2) ?_
      rintro _ m1 ⟨rfl, hr⟩
      refine Runs.bind (ih m0 m1 _ hr (fun o ho => hv o (List.mem_cons_of_mem _ ho))) ?_
      rintro _ m2 ⟨rfl, hr2⟩
      exact runs_pure ⟨rfl, hr2⟩
  intro m a hm hv
  refine (key ops m m a ⟨hm, fun _ _ => rfl⟩ hv).mono ?_
  rintro rs m' ⟨e, hr⟩
  exact ⟨e, fun x hx i hi => hr.val x hx i (Nat.lt_of_lt_of_le hi ((vs x).n_le_capacity hSS)), hr.frame⟩

/-- a vector of 5 elements in storage for 8, for 4 lanes -/
example : VLive 4 demoMem ⟨true, 5, 16⟩ ∧ (⟨true, 5, 16⟩ : VObj).capacity 4 = 8 := by
  refine ⟨⟨by decide, fun x hx => ?_⟩, by decide⟩
  have h1 := hx.1
  have h2 := hx.2
  rw [show (⟨true, 5, 16⟩ : VObj).capacity 4 = 8 by decide] at h2
  simp at h1 h2
  unfold demoMem
  rw [if_pos ⟨by omega, by omega⟩]; rfl

/-- two vectors with disjoint storage and a history meeting the hypotheses of `C53_history` -/
example : (∀ x y : Nat, x < 2 → y < 2 → x ≠ y → ∀ z, (⟨true, 5, 16 * (x : Int)⟩ : VObj).Storage 4 z → ¬ (⟨true, 5, 16 * (y : Int)⟩ : VObj).Storage 4 z) ∧
    (∀ op ∈ [VOp.fill 0 (3 : Rat), .set 1 4 5, .assign 0 1, .get 0 4],
      (∀ x ∈ op.uses, x < 2) ∧ op.Valid (fun x : Nat => (⟨true, 5, 16 * (x : Int)⟩ : VObj))) := by
  constructor
  · intro x y hx hy hne z h1 h2
    have a1 := h1.1; have a2 := h1.2; have b1 := h2.1; have b2 := h2.2
    rw [show ∀ d, (⟨true, 5, d⟩ : VObj).capacity 4 = 8 from fun _ => show nextMultiple 5 4 = 8 by decide] at a2 b2
    dsimp only at *
    omega
  · intro op hop
    simp only [List.mem_cons, List.not_mem_nil, or_false] at hop
    rcases hop with rfl | rfl | rfl | rfl <;> simp [VOp.uses, VOp.Valid]

end Blast
