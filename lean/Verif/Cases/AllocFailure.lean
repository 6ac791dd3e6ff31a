import Verif.Props.AllocFailureAny
/-
Concrete cases for C96.
-/
namespace Blast
open Prog Finset Reg

/-- a dynamic panel matrix -/
def allocP : Container := ⟨.dynPanel, .columnMajor, 3, 3, 64⟩

/-- A program in which four allocations fail: a constructor (twice), makePositiveDefinite of a dense and of a panel matrix; the dense ones are tried again. -/
def allocProgram : List (MStep ℝ × Bool) :=
  [(.plain (.op (.create 0 demoX)), true), (.plain (.op (.create 0 demoX)), true), (.plain (.op (.create 0 demoX)), false),
   (.plain (.op (.create 1 allocP)), false),
   (.plain (.call (.makePositiveDefinite 0 1000 (fun i j => i + 2 * j) 4)), true), (.posDefPanel 1 0 (fun _ _ => 1) 3, true),
   (.plain (.call (.potrf 0 0)), true), (.plain (.op (.get 1 2 2)), true),
   (.plain (.op (.destroy 0)), false), (.plain (.op (.destroy 1)), true)]

theorem stepMay_obj {V : Type} [Arith V] {SS KN : Nat} {dv : V → V → V} {h : HWorld V} {fail : Bool} (x : Nat) (t : Int) (rnd : Nat → Nat → V) (tn : V) :
    (h.stepMay SS KN dv fail (.plain (.call (.makePositiveDefinite x t rnd tn)))).2.w.obj = h.w.obj ∧
    (h.stepMay SS KN dv fail (.posDefPanel x t rnd tn)).2.w.obj = h.w.obj := by
  constructor <;> simp only [HWorld.stepMay] <;> split <;> first | rfl | exact exec_obj ..

theorem allocProgram_admissible (piv : Nat → Nat → Nat) (dv : ℝ → ℝ → ℝ) : MAdmissible 4 4 dv (HWorld.start piv) allocProgram := by
  have c0 : demoX.capacity 4 = 16 := by decide
  let f := upd (upd (fun _ => none) 0 (some demoX)) 1 (some allocP)
  have f0 : f 0 = some demoX := rfl
  have f1 : f 1 = some allocP := rfl
  have t0 : ∀ h : HWorld ℝ, h.w.obj = f → MAdmissible 4 4 dv h [(.plain (.op (.destroy 0)), false), (.plain (.op (.destroy 1)), true)] := fun h hf =>
    ⟨⟨demoX, by rw [hf, f0]⟩, fun hn => ⟨⟨allocP, by
      have e : (h.step 4 4 dv (.op (.destroy 0))).2.w.obj = _ := destroy_obj (c := demoX) (by rw [hf, f0]) hn
      show (h.step 4 4 dv (.op (.destroy 0))).2.w.obj 1 = _
      rw [e, hf]; rfl⟩, fun _ => trivial⟩⟩
  have t1 : ∀ h : HWorld ℝ, h.w.obj = f → MAdmissible 4 4 dv h ((.plain (.op (.get 1 2 2)), true) :: _) := fun h hf =>
    ⟨⟨allocP, (by rw [hf, f1]), (by decide), (by decide)⟩, fun _ => t0 _ (by
      show (h.w.step false 4 (.get 1 2 2)).2.obj = f
      simp only [World.step, hf, f1]
      rw [exec_obj, hf])⟩
  have t2 : ∀ h : HWorld ℝ, h.w.obj = f → MAdmissible 4 4 dv h ((.plain (.call (.potrf 0 0)), true) :: _) := fun h hf =>
    ⟨⟨demoX, demoX, (by rw [hf, f0]), (by rw [hf, f0]), rfl, rfl, rfl, fun _ => potrfFits_square (by decide) (Or.inl (by decide))⟩,
      fun _ => t1 _ ((call_obj (SS := 4) (KN := 4) (dv := dv) (.potrf 0 0) h).trans hf)⟩
  have t3 : ∀ h : HWorld ℝ, h.w.obj = f → MAdmissible 4 4 dv h ((.posDefPanel 1 0 (fun _ _ => 1) 3, true) :: _) := fun h hf =>
    ⟨⟨allocP, (by rw [hf, f1]), rfl, rfl, (by norm_num [allocP]), fun hc => by rcases hc with hc | hc <;> cases hc⟩,
      fun _ => t2 _ ((stepMay_obj ..).2.trans hf)⟩
  have t4 : ∀ h : HWorld ℝ, h.w.obj = f → MAdmissible 4 4 dv h ((.plain (.call (.makePositiveDefinite 0 1000 (fun i j => i + 2 * j) 4)), true) :: _) := fun h hf =>
    ⟨⟨demoX, (by rw [hf, f0]), rfl, (by norm_num [demoX]), fun hc => by cases hc⟩, fun _ => t3 _ ((stepMay_obj ..).1.trans hf)⟩
  refine ⟨⟨rfl, fun hc => by rcases hc with hc | hc <;> cases hc⟩, fun _ => ⟨⟨rfl, fun hc => by rcases hc with hc | hc <;> cases hc⟩, fun _ =>
    ⟨⟨rfl, fun _ => ⟨by decide, fun z _ => rfl, fun _ => rfl⟩⟩, fun _ => ⟨⟨rfl, fun _ => ⟨by decide, fun z hz => ?_, fun _ => rfl⟩⟩, fun _ => t4 _ rfl⟩⟩⟩⟩
  have h1 : (64 : Int) ≤ z := hz.1
  exact if_neg (fun hc => by have := hc.2; rw [c0] at this; simp [demoX] at this; omega)

/-- C96_history, C96_no_leak -/
example (piv : Nat → Nat → Nat) : ∃ s' : HState ℝ, SpecMay 4 ⟨fun _ => none, piv⟩ allocProgram ((HWorld.start piv : HWorld ℝ).runMay 4 4 (· / ·) allocProgram).1 s' ∧
    Represents 4 ((HWorld.start piv : HWorld ℝ).runMay 4 4 (· / ·) allocProgram).2.w s'.objs := by
  obtain ⟨s', h1, h2, _⟩ := C96_history (V := ℝ) (SS := 4) (KN := 4) (dv := (· / ·)) (by decide) (fun _ _ _ => rfl) piv allocProgram (allocProgram_admissible piv (· / ·))
  exact ⟨s', h1, h2⟩

/-- the start of the program: a failed constructor, then the object -/
def allocStart : List (MStep ℝ × Bool) :=
  [(.plain (.op (.create 0 demoX)), true), (.plain (.op (.create 0 demoX)), false), (.plain (.op (.destroy 0)), false)]

theorem allocStart_end (piv : Nat → Nat → Nat) : ∀ x, ((HWorld.start piv : HWorld ℝ).runMay 4 4 (· / ·) allocStart).2.w.obj x = none := by
  intro x
  rcases x with _ | x <;> rfl

theorem allocStart_admissible (piv : Nat → Nat → Nat) (dv : ℝ → ℝ → ℝ) : MAdmissible 4 4 dv (HWorld.start piv) allocStart :=
  ⟨⟨rfl, fun hc => by rcases hc with hc | hc <;> cases hc⟩, fun _ => ⟨⟨rfl, fun _ => ⟨by decide, fun z _ => rfl, fun _ => rfl⟩⟩, fun _ => ⟨⟨demoX, rfl⟩, fun _ => trivial⟩⟩⟩

example (piv : Nat → Nat → Nat) : ∀ z, ((HWorld.start piv : HWorld ℝ).runMay 4 4 (· / ·) allocStart).2.w.mem z = none :=
  (C96_no_leak (V := ℝ) (SS := 4) (KN := 4) (dv := (· / ·)) (by decide) (fun _ _ _ => rfl) piv allocStart (allocStart_admissible piv (· / ·)) (allocStart_end piv)).1

/-- C96_strong_guarantee, C96_retry, at the start of the program -/
example (piv : Nat → Nat → Nat) (l : List (MStep ℝ × Bool)) :
    (HWorld.start piv : HWorld ℝ).runMay 4 4 (· / ·) ((.plain (.op (.create 0 demoX)), true) :: (.plain (.op (.create 0 demoX)), false) :: l) =
      (.exn .badAlloc :: ((HWorld.start piv : HWorld ℝ).runMay 4 4 (· / ·) ((.plain (.op (.create 0 demoX)), false) :: l)).1,
        ((HWorld.start piv : HWorld ℝ).runMay 4 4 (· / ·) ((.plain (.op (.create 0 demoX)), false) :: l)).2) :=
  C96_retry (SS := 4) (KN := 4) (h := HWorld.start piv) (s := ⟨fun _ => none, piv⟩) (dv := (· / ·)) (by decide) ⟨empty_represents, rfl⟩ (fun _ _ _ => rfl)
    (.op (.create 0 demoX)) ⟨rfl, fun hc => by rcases hc with hc | hc <;> cases hc⟩ rfl l

/-- C96_panel_strong_guarantee_refuted: a panel matrix of zeros contains threes on the diagonal after the failed call -/
example (piv : Nat → Nat → Nat) (rnd : Nat → Nat → ℝ) :
    ((HWorld.start piv : HWorld ℝ).step 4 4 (· / ·) (.op (.create 1 allocP))).2.w.mem (allocP.addr 4 1 1) = some 0 ∧
    (((HWorld.start piv : HWorld ℝ).step 4 4 (· / ·) (.op (.create 1 allocP))).2.stepMay 4 4 (· / ·) true (.posDefPanel 1 0 rnd (allocP.cols : ℝ))).2.w.mem (allocP.addr 4 1 1)
      = some 3 := by
  have hal : HAllowed 4 4 (HWorld.start piv : HWorld ℝ) (.op (.create 1 allocP)) := ⟨rfl, by decide, fun z _ => rfl, fun _ => rfl⟩
  obtain ⟨s', h1, h2, _⟩ := hstep_represents (V := ℝ) (KN := 4) (SS := 4) (by decide) (h := HWorld.start piv) (s := ⟨fun _ => none, piv⟩) ⟨empty_represents, rfl⟩
    (dv := (· / ·)) (fun _ _ _ => rfl) (.op (.create 1 allocP)) hal
  have hr : ∀ i j, i < 3 → j < 3 → ((HWorld.start piv : HWorld ℝ).step 4 4 (· / ·) (.op (.create 1 allocP))).2.w.mem (allocP.addr 4 i j) = some 0 := by
    intro i j hi hj
    obtain ⟨o, ho, hox⟩ := h2.1.get (x := 1) (c := allocP) rfl
    have e := hox.val i j hi hj
    have : o.val i j = 0 := by
      have hs := h1.2
      rw [hs] at ho
      have : o = ⟨.dynPanel, .columnMajor, 3, 3, fun _ _ => Arith.zero, some Arith.zero⟩ := (Option.some.inj ho).symm
      rw [this]; exact ExactRing.zero_eq
    rw [e, this]
  refine ⟨hr 1 1 (by decide) (by decide), ?_⟩
  have := (C96_panel_strong_guarantee_refuted (KN := 4) (dv := (· / ·)) (by decide) h2 (x := 1) (X := allocP) rfl rfl rfl 0 rnd (i := 1) (j := 1) (by decide) (by decide)).2
  rw [this]; norm_num [allocP]

/-! ### IEEE arithmetic -/

/-- a failed constructor, the object, failed makePositiveDefinite, end of life -/
def allocIeee : List (MStep (Bin binary64) × Bool) :=
  [(.plain (.op (.create 0 demoX)), true), (.plain (.op (.create 0 demoX)), false),
   (.plain (.call (.makePositiveDefinite 0 0 (fun _ _ => .nan) .nan)), true), (.plain (.op (.destroy 0)), true)]

theorem allocIeee_ok (piv : Nat → Nat → Nat) (dv : Bin binary64 → Bin binary64 → Bin binary64) : MAdmissibleAny 4 4 dv (HWorld.start piv) allocIeee :=
  ⟨⟨rfl, fun hc => by rcases hc with hc | hc <;> cases hc⟩, fun _ => ⟨⟨rfl, fun _ => ⟨by decide, fun z _ => rfl, fun _ => rfl⟩⟩, fun _ =>
    ⟨⟨demoX, rfl, rfl, fun hc => by cases hc⟩, fun _ => ⟨⟨demoX, rfl⟩, fun _ => trivial⟩⟩⟩⟩

example (piv : Nat → Nat → Nat) (dv : Bin binary64 → Bin binary64 → Bin binary64) :
    Outcome.ub ∉ ((HWorld.start piv : HWorld (Bin binary64)).runMay 4 4 dv allocIeee).1 :=
  (C96_safe (SS := 4) (KN := 4) (by decide) dv piv allocIeee (allocIeee_ok piv dv)).1

example (piv : Nat → Nat → Nat) (dv : Bin binary64 → Bin binary64 → Bin binary64) :
    ∀ p, ((HWorld.start piv : HWorld (Bin binary64)).runMay 4 4 dv allocIeee).2.w.heap p = none :=
  (C96_no_leak_any (SS := 4) (KN := 4) (by decide) dv piv allocIeee (allocIeee_ok piv dv) (fun x => by rcases x with _ | x <;> rfl)).2

example (piv : Nat → Nat → Nat) (dv : Bin binary64 → Bin binary64 → Bin binary64) :
    ((HWorld.start piv : HWorld (Bin binary64)).stepMay 4 4 dv true (.plain (.op (.create 0 demoX)))).2 = HWorld.start piv :=
  (C96_strong_guarantee_any (SS := 4) (KN := 4) (h := HWorld.start piv) (s := ⟨fun _ => none, piv⟩) (by decide) ⟨empty_represents, rfl⟩ dv (.plain (.op (.create 0 demoX))) true
    ⟨rfl, fun hc => by rcases hc with hc | hc <;> cases hc⟩ rfl).2.2 (fun _ _ _ _ h => by cases h)

end Blast
