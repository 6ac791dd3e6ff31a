import Verif.Props.FlushZero
import Verif.Props.Parametric
/- Concrete cases meeting the hypotheses of these theorems: Verif/Cases/FlushAgree.lean. -/
/-
C98, continued: calls in which nothing small is rounded give the same numbers with flush-to-zero as with gradual underflow. "Nothing small is rounded" is
observed by running the call on numbers that carry this information.
-/
namespace Blast
open Prog Reg Finset Bin
variable {F : Format}

/-- a number together with the information whether it was computed without rounding a non-zero exact result below the normal range -/
structure Tracked (F : Format) where
  val : Bin F
  ok : Prop

/-- the operations on the numbers, and what becomes of the information -/
noncomputable instance : Arith (Tracked F) where
  zero := ⟨Arith.zero, True⟩
  one := ⟨Arith.one, True⟩
  add a b := ⟨Arith.add a.val b.val, a.ok ∧ b.ok ∧ NotSmall F (a.val.real + b.val.real)⟩
  sub a b := ⟨Arith.sub a.val b.val, a.ok ∧ b.ok ∧ NotSmall F (a.val.real - b.val.real)⟩
  mul a b := ⟨Arith.mul a.val b.val, a.ok ∧ b.ok ∧ NotSmall F (a.val.real * b.val.real)⟩
  div a b := ⟨Arith.div a.val b.val, a.ok ∧ b.ok ∧ NotSmall F (a.val.real / b.val.real)⟩
  neg a := ⟨Arith.neg a.val, a.ok⟩
  sqrt a := ⟨Arith.sqrt a.val, a.ok ∧ NotSmall F (Real.sqrt a.val.real)⟩
  fma a b c := ⟨Arith.fma a.val b.val c.val, a.ok ∧ b.ok ∧ c.ok ∧ NotSmall F (a.val.real * b.val.real + c.val.real)⟩
  fnma a b c := ⟨Arith.fnma a.val b.val c.val, a.ok ∧ b.ok ∧ c.ok ∧ NotSmall F (c.val.real - a.val.real * b.val.real)⟩
  abs a := ⟨Arith.abs a.val, a.ok⟩
  gt a b := Arith.gt a.val b.val
  eq a b := Arith.eq a.val b.val

theorem regrade_neg (a : Bin F) : regrade (Bin.neg a) = Bin.neg (regrade a) := by rcases a with ⟨s, x⟩ | s | _ <;> rfl

theorem regrade_div {a b : Bin F} (h : a.Finite → b.Finite → NotSmall F (a.real / b.real)) : regrade (Bin.div a b) = Bin.div (regrade a) (regrade b) := by
  rcases a with ⟨s, x⟩ | s | _ <;> rcases b with ⟨t, y⟩ | t | _
  · show regrade (if y = 0 then (if x = 0 then nan else inf (s != t)) else mk F (s != t) ((fin s x : Bin F).real / (fin t y : Bin F).real)) =
      if y = 0 then (if x = 0 then nan else inf (s != t)) else mk F.ieee (s != t) ((fin s x : Bin F).real / (fin t y : Bin F).real)
    split
    · split <;> rfl
    · exact regrade_mk (h trivial trivial)
  all_goals rfl

theorem regrade_sqrt {a : Bin F} (h : a.Finite → NotSmall F (Real.sqrt a.real)) : regrade (Bin.sqrt a) = Bin.sqrt (regrade a) := by
  rcases a with ⟨s, x⟩ | (_ | _) | _
  · show regrade (if x = 0 then fin s 0 else if s then nan else mk F false (Real.sqrt x)) = if x = 0 then fin s 0 else if s then nan else mk F.ieee false (Real.sqrt x)
    split
    · rfl
    · cases s
      · refine regrade_mk ?_
        have := h trivial
        rwa [show (fin false x : Bin F).real = x by simp [real]] at this
      · rfl
  all_goals rfl

/-- the values of the tracked numbers are those computed without tracking -/
theorem tracked_val : OpRel (fun (t : Tracked F) (x : Bin F) => t.val = x) where
  zero := rfl
  one := rfl
  add h1 h2 := by rw [← h1, ← h2]; rfl
  sub h1 h2 := by rw [← h1, ← h2]; rfl
  mul h1 h2 := by rw [← h1, ← h2]; rfl
  div h1 h2 := by rw [← h1, ← h2]; rfl
  neg h1 := by rw [← h1]; rfl
  sqrt h1 := by rw [← h1]; rfl
  fma h1 h2 h3 := by rw [← h1, ← h2, ← h3]; rfl
  fnma h1 h2 h3 := by rw [← h1, ← h2, ← h3]; rfl

/-- where nothing small was rounded, gradual underflow computes the same number -/
theorem tracked_ieee : OpRel (fun (t : Tracked F) (y : Bin F.ieee) => t.ok → regrade t.val = y) where
  zero _ := rfl
  one _ := rfl
  add h1 h2 := fun ⟨o1, o2, o3⟩ => by rw [← h1 o1, ← h2 o2]; exact regrade_add (fun _ _ => o3)
  sub {a _ b _} h1 h2 := fun ⟨o1, o2, o3⟩ => by
    rw [← h1 o1, ← h2 o2]
    show regrade (Bin.add a.val (Bin.neg b.val)) = Bin.add (regrade a.val) (Bin.neg (regrade b.val))
    rw [← regrade_neg]
    exact regrade_add (fun _ _ => by rw [real_neg, ← sub_eq_add_neg]; exact o3)
  mul h1 h2 := fun ⟨o1, o2, o3⟩ => by rw [← h1 o1, ← h2 o2]; exact regrade_mul (fun _ _ => o3)
  div h1 h2 := fun ⟨o1, o2, o3⟩ => by rw [← h1 o1, ← h2 o2]; exact regrade_div (fun _ _ => o3)
  neg h1 := fun o1 => by rw [← h1 o1]; exact regrade_neg _
  sqrt h1 := fun ⟨o1, o2⟩ => by rw [← h1 o1]; exact regrade_sqrt (fun _ => o2)
  fma h1 h2 h3 := fun ⟨o1, o2, o3, o4⟩ => by rw [← h1 o1, ← h2 o2, ← h3 o3]; exact regrade_fma (fun _ _ _ => o4)
  fnma {a _ b _ c _} h1 h2 h3 := fun ⟨o1, o2, o3, o4⟩ => by
    rw [← h1 o1, ← h2 o2, ← h3 o3]
    show regrade (Bin.fma (Bin.neg a.val) b.val c.val) = Bin.fma (Bin.neg (regrade a.val)) (regrade b.val) (regrade c.val)
    rw [← regrade_neg]
    exact regrade_fma (fun _ _ _ => by rw [real_neg, neg_mul, neg_add_eq_sub]; exact o4)

/-- a memory with the numbers of `m`, of which nothing is known to be small -/
def track (m : Mem (Bin F)) : Mem (Tracked F) := fun x => (m x).map (fun v => ⟨v, True⟩)
/-- the memory `m` of a program with gradual underflow -/
def regradeMem (m : Mem (Bin F)) : Mem (Bin F.ieee) := fun x => (m x).map regrade

/-- the call `p`, made with tracked numbers, returns, and it rounded nothing small on the way to the elements (i, j) of C with `P i j` -/
def NothingSmall (P : Nat → Nat → Prop) (SS : Nat) (p : Prog (Tracked F) Unit) (m : Mem (Tracked F)) (C : Container) : Prop :=
  ∃ m' t, p m = .ok () m' ∧ Contains SS m' C t ∧ ∀ i j, i < C.rows → j < C.cols → P i j → (t i j).ok

/-- the call `p` made in `m` and the call `q` made in the same memory of a program with gradual underflow return, and give the same numbers -/
def SameAsGradual (P : Nat → Nat → Prop) (SS : Nat) (p : Prog (Bin F) Unit) (q : Prog (Bin F.ieee) Unit) (m : Mem (Bin F)) (C : Container) : Prop :=
  ∃ m' n' d e, p m = .ok () m' ∧ q (regradeMem m) = .ok () n' ∧ Contains SS m' C d ∧ Contains SS n' C e ∧
    ∀ i j, i < C.rows → j < C.cols → P i j → e i j = regrade (d i j)

theorem contains_unique {V : Type} {SS : Nat} {m : Mem V} {C : Container} {a b : Nat → Nat → V} (h1 : Contains SS m C a) (h2 : Contains SS m C b) {i j : Nat}
    (hi : i < C.rows) (hj : j < C.cols) : a i j = b i j := Option.some.inj ((h1 i j hi hj).symm.trans (h2 i j hi hj))

theorem sameAsGradual_of {P : Nat → Nat → Prop} {SS : Nat} {pt : Prog (Tracked F) Unit} {p : Prog (Bin F) Unit} {q : Prog (Bin F.ieee) Unit} {m : Mem (Bin F)} {C : Container}
    (h1 : RelResult (fun (t : Tracked F) (x : Bin F) => t.val = x) P SS pt (track m) C SS p m C)
    (h2 : RelResult (fun (t : Tracked F) (y : Bin F.ieee) => t.ok → regrade t.val = y) P SS pt (track m) C SS q (regradeMem m) C)
    (hok : NothingSmall P SS pt (track m) C) : SameAsGradual P SS p q m C := by
  obtain ⟨t', t, e0, e1, e2⟩ := hok
  obtain ⟨r, a', m', f, d, f1, f2, f3, f4, f5⟩ := h1
  obtain ⟨r', b', n', g, e, g1, g2, g3, g4, g5⟩ := h2
  have hr : r = .ok () ∧ a' = t' := by
    cases r with
    | ok v =>
      change pt (track m) = .ok v a' at f1
      rw [e0] at f1; cases f1; exact ⟨rfl, rfl⟩
    | error x =>
      change pt (track m) = .throw x a' at f1
      rw [e0] at f1; cases f1
  have hr' : r' = .ok () ∧ b' = t' := by
    cases r' with
    | ok v =>
      change pt (track m) = .ok v b' at g1
      rw [e0] at g1; cases g1; exact ⟨rfl, rfl⟩
    | error x =>
      change pt (track m) = .throw x b' at g1
      rw [e0] at g1; cases g1
  obtain ⟨rfl, rfl⟩ := hr
  obtain ⟨rfl, rfl⟩ := hr'
  refine ⟨m', n', d, e, f2, g2, f4, g4, fun i j hi hj hp => ?_⟩
  have k1 := f5 i j hi hj hp
  have k2 := g5 i j hi hj hp (by rw [contains_unique g3 e1 hi hj]; exact e2 i j hi hj hp)
  rw [← k2, ← k1, contains_unique f3 g3 hi hj]

theorem Live.mapped {V W : Type} {SS : Nat} {m : Mem V} {c : Container} (h : Live SS m c) (f : V → W) : Live SS (fun x => (m x).map f) c :=
  ⟨h.align, fun x hx => by have := h.alloc x hx; simpa using this⟩
theorem Contains.mapped {V W : Type} {SS : Nat} {m : Mem V} {c : Container} {a : Nat → Nat → V} (h : Contains SS m c a) (f : V → W) :
    Contains SS (fun x => (m x).map f) c (fun i j => f (a i j)) := fun i j hi hj => by beta_reduce; rw [h i j hi hj]; rfl
theorem ContainsLower.mapped {V W : Type} {SS : Nat} {m : Mem V} {c : Container} {a : Nat → Nat → V} (h : ContainsLower SS m c a) (f : V → W) :
    ContainsLower SS (fun x => (m x).map f) c (fun i j => f (a i j)) := fun i j hi hj hij => by beta_reduce; rw [h i j hi hj hij]; rfl
theorem ContainsTri.mapped {V W : Type} {SS : Nat} {m : Mem V} {c : Container} {uplo : UpLo} {unit : Bool} {a : Nat → Nat → V} (h : ContainsTri SS m c uplo unit a) (f : V → W) :
    ContainsTri SS (fun x => (m x).map f) c uplo unit (fun i j => f (a i j)) := fun i j hi hj hij => by beta_reduce; rw [h i j hi hj hij]; rfl

theorem sameSize_refl (A : Container) : SameSize A A := ⟨rfl, rfl⟩

/-- a number of which nothing is known to be small -/
def fresh (x : Bin F) : Tracked F := ⟨x, True⟩

/-- **C98** (nothing small, nothing changes: gemm, observed on the run). -/
theorem C98_gemm_nothing_small {SS : Nat} {m : Mem (Bin F)} {A B C D : Container} (alpha beta : Bin F) (h : GemmArgs SS m A B C D) (hs : GemmSizes A B C D)
    {a b c : Nat → Nat → Bin F} (ha : Contains SS m A a) (hb : Contains SS m B b) (hc : Contains SS m C c)
    (hok : NothingSmall Every SS (gemmCall SS (fresh alpha) A B (fresh beta) C D) (track m) D) :
    SameAsGradual Every SS (gemmCall SS alpha A B beta C D) (gemmCall SS (regrade alpha) A B (regrade beta) C D) m D := by
  have key : ∀ {W : Type} (f : Bin F → W), GemmArgs SS (fun x => (m x).map f) A B C D := fun f =>
    ⟨h.ss, h.sA, h.sC, h.sD, h.lA.mapped f, h.lB.mapped f, h.lC.mapped f, h.lD.mapped f, h.dA, h.dB, h.dC⟩
  refine sameAsGradual_of (C99_gemm tracked_val rfl rfl (key fresh) hs h hs (sameSize_refl A) (ha.mapped fresh) (hb.mapped fresh) (hc.mapped fresh) ha hb hc
    (fun _ _ _ _ => rfl) (fun _ _ _ _ => rfl) (fun _ _ _ _ => rfl)) ?_ hok
  exact C99_gemm tracked_ieee (fun _ => rfl) (fun _ => rfl) (key fresh) hs (key regrade) hs (sameSize_refl A) (ha.mapped fresh) (hb.mapped fresh) (hc.mapped fresh)
    (ha.mapped regrade) (hb.mapped regrade) (hc.mapped regrade) (fun _ _ _ _ _ => rfl) (fun _ _ _ _ _ => rfl) (fun _ _ _ _ _ => rfl)

/-- **C98** (nothing small, nothing changes: syrkLower). -/
theorem C98_syrk_nothing_small {SS : Nat} {m : Mem (Bin F)} {A C D : Container} (alpha beta : Bin F) (h : SyrkArgs SS m A C D) (hs : SyrkSizes A C D)
    {a c d : Nat → Nat → Bin F} (ha : Contains SS m A a) (hc : ContainsLower SS m C c) (hd : Contains SS m D d)
    (hok : NothingSmall LowerOnly SS (syrkCall SS 1 (fresh alpha) A (fresh beta) C D) (track m) D) :
    SameAsGradual LowerOnly SS (syrkCall SS 1 alpha A beta C D) (syrkCall SS 1 (regrade alpha) A (regrade beta) C D) m D := by
  have key : ∀ {W : Type} (f : Bin F → W), SyrkArgs SS (fun x => (m x).map f) A C D := fun f =>
    ⟨h.ss, h.sA, h.sC, h.sD, h.lA.mapped f, h.lC.mapped f, h.lD.mapped f, h.dA, h.dC⟩
  refine sameAsGradual_of (C99_syrk tracked_val rfl rfl (key fresh) hs h hs (sameSize_refl A) (ha.mapped fresh) (hc.mapped fresh) (hd.mapped fresh) ha hc hd
    (fun _ _ _ _ => rfl) (fun _ _ _ _ _ => rfl)) ?_ hok
  exact C99_syrk tracked_ieee (fun _ => rfl) (fun _ => rfl) (key fresh) hs (key regrade) hs (sameSize_refl A) (ha.mapped fresh) (hc.mapped fresh) (hd.mapped fresh)
    (ha.mapped regrade) (hc.mapped regrade) (hd.mapped regrade) (fun _ _ _ _ _ => rfl) (fun _ _ _ _ _ _ => rfl)

/-- **C98** (nothing small, nothing changes: trmm from the right). -/
theorem C98_trmm_right_nothing_small {SS : Nat} {m : Mem (Bin F)} {A B C : Container} (alpha : Bin F) (h : TrmmRArgs SS m B A C) (hs : TrmmRSizes B A C)
    {a b : Nat → Nat → Bin F} (ha : ContainsLower SS m A a) (hb : Contains SS m B b)
    (hok : NothingSmall Every SS (trmmRightCall SS 1 (fresh alpha) B A .lower false C) (track m) C) :
    SameAsGradual Every SS (trmmRightCall SS 1 alpha B A .lower false C) (trmmRightCall SS 1 (regrade alpha) B A .lower false C) m C := by
  have key : ∀ {W : Type} (f : Bin F → W), TrmmRArgs SS (fun x => (m x).map f) B A C := fun f =>
    ⟨h.ss, h.sB, h.sC, h.lA.mapped f, h.lB.mapped f, h.lC.mapped f, h.dA, h.dB⟩
  refine sameAsGradual_of (C99_trmm_right tracked_val rfl (key fresh) hs h hs (sameSize_refl B) (ha.mapped fresh) (hb.mapped fresh) ha hb
    (fun _ _ _ _ _ => rfl) (fun _ _ _ _ => rfl)) ?_ hok
  exact C99_trmm_right tracked_ieee (fun _ => rfl) (key fresh) hs (key regrade) hs (sameSize_refl B) (ha.mapped fresh) (hb.mapped fresh)
    (ha.mapped regrade) (hb.mapped regrade) (fun _ _ _ _ _ _ => rfl) (fun _ _ _ _ _ => rfl)

/-- **C98** (nothing small, nothing changes: trmm from the left). -/
theorem C98_trmm_left_nothing_small {SS : Nat} {m : Mem (Bin F)} {A B C : Container} (alpha : Bin F) (h : TrmmLArgs SS m A B C) (hs : TrmmLSizes A B C)
    {a b : Nat → Nat → Bin F} (ha : Contains SS m A a) (hb : Contains SS m B b)
    (hok : NothingSmall Every SS (trmmLeftCall SS 1 (fresh alpha) A .upper false B C) (track m) C) :
    SameAsGradual Every SS (trmmLeftCall SS 1 alpha A .upper false B C) (trmmLeftCall SS 1 (regrade alpha) A .upper false B C) m C := by
  have key : ∀ {W : Type} (f : Bin F → W), TrmmLArgs SS (fun x => (m x).map f) A B C := fun f =>
    ⟨h.ss, h.sA, h.sC, h.lA.mapped f, h.lB.mapped f, h.lC.mapped f, h.dA, h.dB, h.pan⟩
  refine sameAsGradual_of (C99_trmm_left tracked_val rfl (key fresh) hs h hs (sameSize_refl B) (ha.mapped fresh) (hb.mapped fresh) ha hb
    (fun _ _ _ _ => rfl) (fun _ _ _ _ => rfl)) ?_ hok
  exact C99_trmm_left tracked_ieee (fun _ => rfl) (key fresh) hs (key regrade) hs (sameSize_refl B) (ha.mapped fresh) (hb.mapped fresh)
    (ha.mapped regrade) (hb.mapped regrade) (fun _ _ _ _ _ => rfl) (fun _ _ _ _ _ => rfl)

/-- **C98** (nothing small, nothing changes: trsm). -/
theorem C98_trsm_nothing_small {SS : Nat} {m : Mem (Bin F)} {A B X : Container} (uplo : UpLo) (unit : Bool) (h : TrsmArgs SS m A B X)
    (hs : (A.rows = B.rows ∧ A.cols = B.rows) ∧ X.rows = B.rows ∧ X.cols = B.cols) {a b : Nat → Nat → Bin F} (ha : ContainsTri SS m A uplo unit a) (hb : Contains SS m B b)
    (hok : NothingSmall Every SS (trsmCall SS uplo unit A B X) (track m) X) :
    SameAsGradual Every SS (trsmCall SS uplo unit A B X) (trsmCall SS uplo unit A B X) m X := by
  have key : ∀ {W : Type} (f : Bin F → W), TrsmArgs SS (fun x => (m x).map f) A B X := fun f =>
    ⟨h.ss, h.lA.mapped f, h.lB.mapped f, h.lX.mapped f, h.dA, h.dB⟩
  refine sameAsGradual_of (C99_trsm tracked_val uplo unit (key fresh) hs h hs (sameSize_refl B) (ha.mapped fresh) (hb.mapped fresh) ha hb
    (fun _ _ _ _ _ => rfl) (fun _ _ _ _ => rfl)) ?_ hok
  exact C99_trsm tracked_ieee uplo unit (key fresh) hs (key regrade) hs (sameSize_refl B) (ha.mapped fresh) (hb.mapped fresh)
    (ha.mapped regrade) (hb.mapped regrade) (fun _ _ _ _ _ _ => rfl) (fun _ _ _ _ _ => rfl)

/-- **C98** (nothing small, nothing changes: potrf on dense matrices). -/
theorem C98_potrf_dense_nothing_small {SS : Nat} {m : Mem (Bin F)} {A L : Container} (h : PotrfArgs SS m A L) (hs : PotrfSizes A L) (hf : PotrfFits SS 1 4 A L)
    {a l : Nat → Nat → Bin F} (ha : ContainsLower SS m A a) (hl : Contains SS m L l) (hok : NothingSmall LowerOnly SS (potrfDenseCall SS 1 A L) (track m) L) :
    SameAsGradual LowerOnly SS (potrfDenseCall SS 1 A L) (potrfDenseCall SS 1 A L) m L := by
  have key : ∀ {W : Type} (f : Bin F → W), PotrfArgs SS (fun x => (m x).map f) A L := fun f => ⟨h.ss, h.sA, h.sL, h.lA.mapped f, h.lL.mapped f, h.d⟩
  refine sameAsGradual_of (C99_potrf_dense tracked_val (key fresh) hs hf h hs hf (sameSize_refl A) (ha.mapped fresh) (hl.mapped fresh) ha hl (fun _ _ _ _ _ => rfl)) ?_ hok
  exact C99_potrf_dense tracked_ieee (key fresh) hs hf (key regrade) hs hf (sameSize_refl A) (ha.mapped fresh) (hl.mapped fresh)
    (ha.mapped regrade) (hl.mapped regrade) (fun _ _ _ _ _ _ => rfl)

/-- **C98** (nothing small, nothing changes: potrf on panel matrices). -/
theorem C98_potrf_panel_nothing_small {SS KN : Nat} {m : Mem (Bin F)} {A L : Container} (h : PotrfArgs SS m A L) (hs : PotrfSizes A L) (hf : PotrfFits SS 1 KN A L)
    {a l : Nat → Nat → Bin F} (ha : Contains SS m A a) (hl : Contains SS m L l)
    (hok : NothingSmall (fun i j => j / KN * KN ≤ i) SS (potrfPanelCall SS KN A L) (track m) L) :
    SameAsGradual (fun i j => j / KN * KN ≤ i) SS (potrfPanelCall SS KN A L) (potrfPanelCall SS KN A L) m L := by
  have key : ∀ {W : Type} (f : Bin F → W), PotrfArgs SS (fun x => (m x).map f) A L := fun f => ⟨h.ss, h.sA, h.sL, h.lA.mapped f, h.lL.mapped f, h.d⟩
  refine sameAsGradual_of (C99_potrf_panel tracked_val (key fresh) hs hf h hs hf (sameSize_refl A) (ha.mapped fresh) (hl.mapped fresh) ha hl (fun _ _ _ _ => rfl)) ?_ hok
  exact C99_potrf_panel tracked_ieee (key fresh) hs hf (key regrade) hs hf (sameSize_refl A) (ha.mapped fresh) (hl.mapped fresh)
    (ha.mapped regrade) (hl.mapped regrade) (fun _ _ _ _ _ => rfl)

end Blast
