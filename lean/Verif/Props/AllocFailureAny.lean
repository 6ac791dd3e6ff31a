import Verif.Props.AllocFailure
import Verif.Props.Reproducible
import Verif.Props.BinaryRandom
/- Concrete cases meeting the hypotheses of these theorems: Verif/Cases/AllocFailure.lean -/
/-
C96 in an arbitrary arithmetic (rounding, NaN, infinities): safety, no leak and the strong guarantee do not depend on exactness.
-/
set_option linter.unusedSectionVars false
namespace Blast
open Prog Finset Reg
variable {V : Type} [Arith V]

/-- What the client has to respect, as `MAllowed`, in an arbitrary arithmetic. -/
def MOkAny (SS KN : Nat) (h : HWorld V) (fail : Bool) : MStep V → Prop
  | .plain (.op (.create x c)) => h.w.obj x = none ∧ (fail = false ∨ c.isDyn = false → Fresh SS h.w c)
  | .plain (.call (.makePositiveDefinite x t _ _)) => ∃ X, h.w.obj x = some X ∧ X.isPanel = false ∧
      (fail = false → t % (SS : Int) = 0 ∧ ∀ z, (⟨.dynDense, .columnMajor, X.cols, X.cols, t⟩ : Container).Storage SS z → h.w.mem z = none)
  | .plain st => HOkAny SS KN h st
  | .posDefPanel x t _ _ => ∃ X, h.w.obj x = some X ∧ X.isPanel = true ∧ X.so = .columnMajor ∧
      (fail = false ∨ X.isDyn = false → t % (SS : Int) = 0 ∧ ∀ z, ({ X with data := t } : Container).Storage SS z → h.w.mem z = none)

/-- every step is allowed when it is reached -/
def MAdmissibleAny (SS KN : Nat) (dv : V → V → V) (h : HWorld V) : List (MStep V × Bool) → Prop
  | [] => True
  | s :: l => MOkAny SS KN h s.2 s.1 ∧ ((h.stepMay SS KN dv s.2 s.1).1.final = false → MAdmissibleAny SS KN dv (h.stepMay SS KN dv s.2 s.1).2 l)

/-- the steps that allocate -/
def MStep.Allocates (s : HState V) : MStep V → Prop
  | .plain (.op (.create _ c)) => c.kind = .dynDense ∨ c.kind = .dynPanel
  | .plain (.call (.makePositiveDefinite _ _ _ _)) => True
  | .plain _ => False
  | .posDefPanel x _ _ _ => ∃ X, s.objs x = some X ∧ X.kind = .dynPanel

theorem detCall_no_badAlloc (SS KN : Nat) (dv : V → V → V) (s : HState V) (c : Call V) : (detCall SS KN dv s c).1 ≠ .exn .badAlloc := by
  have lu : ∀ a P A junk r, (s.lu a P A junk r).1 ≠ .exn .badAlloc := by
    intro a P A junk r
    unfold HState.lu
    split <;> (intro e; cases e)
  cases c <;> simp only [detCall] <;> (repeat' split) <;> first | exact lu _ _ _ _ _ | (intro e; cases e)

theorem detStep_no_badAlloc (SS KN : Nat) (dv : V → V → V) (s : HState V) (st : HStep V) : (detStep SS KN dv s st).1 ≠ .exn .badAlloc := by
  cases st with
  | op o =>
    show (specStep s.objs o).1 ≠ _
    cases o <;> simp only [specStep] <;> (repeat' split) <;> (intro e; cases e)
  | call c => exact detCall_no_badAlloc SS KN dv s c

/-- one step: no undefined behaviour, a consistent state; `std::bad_alloc` is reported only by a step that allocates and whose allocation failed, and then nothing has changed,
or (panel makePositiveDefinite) only elements of the matrix -/
theorem stepMay_any {SS KN : Nat} (hSS : 0 < SS) {h : HWorld V} {s : HState V} (hr : HRep SS h s) (dv : V → V → V) (st : MStep V) (fail : Bool)
    (hal : MOkAny SS KN h fail st) :
    (h.stepMay SS KN dv fail st).1 ≠ .ub ∧ ∃ s', HRep SS (h.stepMay SS KN dv fail st).2 s' ∧
      ((h.stepMay SS KN dv fail st).1 = .exn .badAlloc → fail = true ∧ st.Allocates s ∧
        ((h.stepMay SS KN dv fail st).2 = h ∨ ∃ x t rnd tn, st = .posDefPanel x t rnd tn ∧ ∃ X, s.objs x = some X ∧
          s' = s.put x { X with val := fun i j => if i = j then tn else Arith.zero })) ∧
      (fail = false → ∀ st', st = .plain st' → (h.stepMay SS KN dv fail st).1 = (detStep SS KN dv s st').1 ∧ s' = (detStep SS KN dv s st').2) := by
  have plainCase : ∀ st' : HStep V, st = .plain st' → HOkAny SS KN h st' → h.stepMay SS KN dv fail st = h.step SS KN dv st' →
      (h.stepMay SS KN dv fail st).1 ≠ .ub ∧ ∃ s', HRep SS (h.stepMay SS KN dv fail st).2 s' ∧
      ((h.stepMay SS KN dv fail st).1 = .exn .badAlloc → fail = true ∧ st.Allocates s ∧
        ((h.stepMay SS KN dv fail st).2 = h ∨ ∃ x t rnd tn, st = .posDefPanel x t rnd tn ∧ ∃ X, s.objs x = some X ∧
          s' = s.put x { X with val := fun i j => if i = j then tn else Arith.zero })) ∧
      (fail = false → ∀ st', st = .plain st' → (h.stepMay SS KN dv fail st).1 = (detStep SS KN dv s st').1 ∧ s' = (detStep SS KN dv s st').2) := by
    intro st' hst ha e
    obtain ⟨g1, g2, g3⟩ := det_step hSS hr dv st' ha
    rw [e]
    refine ⟨g3, _, g2, fun hb => absurd (g1.symm.trans hb) (detStep_no_badAlloc SS KN dv s st'), fun _ st'' h'' => ?_⟩
    rw [hst] at h''
    obtain rfl : st' = st'' := MStep.plain.inj h''
    exact ⟨g1, rfl⟩
  cases st with
  | posDefPanel x t rnd tn =>
    obtain ⟨X, hx, hp, hso, hal⟩ := hal
    obtain ⟨o, ho, hox⟩ := hr.1.get hx
    have e0 : h.stepMay SS KN dv fail (.posDefPanel x t rnd tn) = h.exec (makePositiveDefinitePanelMay SS fail t rnd tn X) := by
      simp only [HWorld.stepMay, hx]
    rw [e0]
    by_cases hsq : X.rows = X.cols
    · by_cases hb : fail = false ∨ X.isDyn = false
      · obtain ⟨ht, hfree⟩ := hal hb
        obtain ⟨m', e, e1, e2⟩ := det_makePositiveDefinitePanel hSS hso hox.live hsq ht hfree rnd tn
        rw [makePositiveDefinitePanelMay_false _ _ _ _ _ _ hb]
        obtain ⟨f1, f2⟩ := hexec_elems hSS hr hx hox e e2 e1
        rw [f1]
        exact ⟨(by intro h; cases h), _, f2, (fun h => by cases h), fun _ st' h' => by cases h'⟩
      · have hf : fail = true := by cases fail <;> simp_all
        have hd : X.isDyn = true := by cases hX : X.isDyn <;> simp_all
        subst hf
        obtain ⟨m', e, e1, e2⟩ := makePositiveDefinitePanelMay_fail hSS t rnd tn hsq hd hox.live
        obtain ⟨f1, f2⟩ := hexec_throw_elems hSS hr hx hox e e2 e1
        rw [f1]
        refine ⟨(by intro h; cases h), _, f2, fun _ => ⟨rfl, ⟨o, ho, ?_⟩, Or.inr ⟨x, t, rnd, tn, rfl, o, ho, rfl⟩⟩, fun _ st' h' => by cases h'⟩
        rw [hox.kind]
        rcases (isDyn_iff X).1 hd with h | h
        · have := (isPanel_iff X).1 hp; rw [h] at this; rcases this with h | h <;> cases h
        · exact h
    · have e : makePositiveDefinitePanelMay SS fail t rnd tn X h.w.mem = .throw .invalidArgument h.w.mem := by
        unfold makePositiveDefinitePanelMay; rw [if_pos hsq]; rfl
      obtain ⟨f1, f2⟩ := hexec_throw hr e
      rw [f1]
      exact ⟨(by intro h; cases h), s, f2, (fun h => by cases h), fun _ st' h' => by cases h'⟩
  | plain st =>
    cases st with
    | op op =>
      cases op with
      | create x c =>
        obtain ⟨hx, hfr⟩ := hal
        by_cases hb : fail = false ∨ c.isDyn = false
        · refine plainCase _ rfl ⟨hx, hfr hb⟩ ?_
          simp only [HWorld.stepMay]; rw [if_neg]; rcases hb with h | h <;> simp [h]
        · have hf : fail = true := by cases fail <;> simp_all
          have hd : c.isDyn = true := by cases hX : c.isDyn <;> simp_all
          subst hf
          have e : h.stepMay SS KN dv true (.plain (.op (.create x c))) = (.exn .badAlloc, h) := by
            simp only [HWorld.stepMay]; rw [if_pos (by rw [hd]; rfl)]
          rw [e]
          exact ⟨(by intro h; cases h), s, hr, fun _ => ⟨rfl, (isDyn_iff c).1 hd, Or.inl rfl⟩, fun h => by cases h⟩
      | _ => exact plainCase _ rfl hal rfl
    | call c =>
      cases c with
      | makePositiveDefinite x t rnd etN =>
        obtain ⟨X, hx, hp, hal⟩ := hal
        cases hf : fail with
        | false =>
          obtain ⟨ht, hfree⟩ := hal hf
          subst hf
          refine plainCase (.call (.makePositiveDefinite x t rnd etN)) rfl ⟨X, hx, hp, ht, hfree⟩ ?_
          simp only [HWorld.stepMay, HWorld.step, HWorld.call, hx, makePositiveDefiniteMay_false]
        | true =>
          have e0 : h.stepMay SS KN dv true (.plain (.call (.makePositiveDefinite x t rnd etN))) =
              h.exec (makePositiveDefiniteMay SS true t rnd etN (.obj X)) := by simp only [HWorld.stepMay, hx]
          rw [e0]
          by_cases hsq : X.rows = X.cols
          · have e1 : h.exec (makePositiveDefiniteMay SS true t rnd etN (.obj X)) = (.exn .badAlloc, h) := by
              unfold HWorld.exec
              rw [exec_throw (makePositiveDefiniteMay_fail SS t rnd etN (.obj X) hsq h.w.mem)]
            rw [e1]
            exact ⟨(by intro h; cases h), s, hr, fun _ => ⟨rfl, trivial, Or.inl rfl⟩, fun h => by cases h⟩
          · obtain ⟨f1, f2⟩ := hexec_throw hr (show makePositiveDefiniteMay SS true t rnd etN (.obj X) h.w.mem = .throw .invalidArgument h.w.mem from by
              unfold makePositiveDefiniteMay; rw [if_pos (show (MExpr.obj X).rows ≠ (MExpr.obj X).cols from hsq)]; rfl)
            rw [f1]
            exact ⟨(by intro h; cases h), s, f2, (fun h => by cases h), fun h => by cases h⟩
      | _ => exact plainCase _ rfl hal rfl

theorem runMay_any {SS KN : Nat} (hSS : 0 < SS) (dv : V → V → V) (l : List (MStep V × Bool)) :
    ∀ {h : HWorld V} {s : HState V}, HRep SS h s → MAdmissibleAny SS KN dv h l →
    Outcome.ub ∉ (h.runMay SS KN dv l).1 ∧ ∃ s', HRep SS (h.runMay SS KN dv l).2 s' := by
  induction l with
  | nil => intro h s hr _; exact ⟨(fun hm => by cases hm), s, hr⟩
  | cons st l ih =>
    intro h s hr hal
    obtain ⟨a1, a2⟩ := hal
    obtain ⟨st, fail⟩ := st
    obtain ⟨e3, s1, e2, -⟩ := stepMay_any hSS hr dv st fail a1
    unfold HWorld.runMay
    dsimp only at a1 a2 ⊢
    cases hf : (h.stepMay SS KN dv fail st).1.final
    · obtain ⟨f3, s2, f2⟩ := ih e2 (a2 hf)
      simp only [Bool.false_eq_true, if_false]
      refine ⟨fun hm => ?_, s2, f2⟩
      rcases List.mem_cons.1 hm with e | e
      · exact e3 e.symm
      · exact f3 e
    · simp only [if_true]
      exact ⟨fun hm => e3 (List.mem_singleton.1 hm).symm, s1, e2⟩

/-- **C96** (safety, any arithmetic). Whichever allocations fail, no step has undefined behaviour, and after the program memory and heap contain exactly the storage of the living
objects, which do not overlap; with rounding, NaN and infinities, too. -/
theorem C96_safe {SS KN : Nat} (hSS : 0 < SS) (dv : V → V → V) (piv : Nat → Nat → Nat) (l : List (MStep V × Bool))
    (h : MAdmissibleAny SS KN dv (HWorld.start piv) l) :
    Outcome.ub ∉ ((HWorld.start piv : HWorld V).runMay SS KN dv l).1 ∧
    ∃ s : HState V, Represents SS ((HWorld.start piv : HWorld V).runMay SS KN dv l).2.w s.objs := by
  obtain ⟨e1, s, e2⟩ := runMay_any hSS dv l (h := HWorld.start piv) (s := ⟨fun _ => none, piv⟩) ⟨empty_represents, rfl⟩ h
  exact ⟨e1, s, e2.1⟩

/-- **C96** (no leak, any arithmetic). -/
theorem C96_no_leak_any {SS KN : Nat} (hSS : 0 < SS) (dv : V → V → V) (piv : Nat → Nat → Nat) (l : List (MStep V × Bool))
    (h : MAdmissibleAny SS KN dv (HWorld.start piv) l) (hend : ∀ x, ((HWorld.start piv : HWorld V).runMay SS KN dv l).2.w.obj x = none) :
    (∀ z, ((HWorld.start piv : HWorld V).runMay SS KN dv l).2.w.mem z = none) ∧
    (∀ p, ((HWorld.start piv : HWorld V).runMay SS KN dv l).2.w.heap p = none) := by
  obtain ⟨-, s, hr⟩ := C96_safe hSS dv piv l h
  constructor
  · intro z
    cases hz : ((HWorld.start piv : HWorld V).runMay SS KN dv l).2.w.mem z with
    | none => rfl
    | some v =>
      obtain ⟨x, c, hx, _⟩ := (hr.mem z).1 (by rw [hz]; rfl)
      rw [hend x] at hx; cases hx
  · intro p
    cases hp : ((HWorld.start piv : HWorld V).runMay SS KN dv l).2.w.heap p with
    | none => rfl
    | some b =>
      obtain ⟨x, c, hx, _⟩ := (hr.heap p b).1 hp
      rw [hend x] at hx; cases hx

/-- **C96** (strong guarantee, any arithmetic). In every reachable state a step that reports `std::bad_alloc` is one that allocates and whose allocation failed; unless it is
makePositiveDefinite of a panel matrix, the whole world — memory, heap, objects, pivot arrays — is exactly as before the step. -/
theorem C96_strong_guarantee_any {SS KN : Nat} (hSS : 0 < SS) {h : HWorld V} {s : HState V} (hr : HRep SS h s) (dv : V → V → V) (st : MStep V) (fail : Bool)
    (hal : MOkAny SS KN h fail st) (hbad : (h.stepMay SS KN dv fail st).1 = .exn .badAlloc) :
    fail = true ∧ st.Allocates s ∧ ((∀ x t rnd tn, st ≠ .posDefPanel x t rnd tn) → (h.stepMay SS KN dv fail st).2 = h) := by
  obtain ⟨-, s', -, h2, -⟩ := stepMay_any hSS hr dv st fail hal
  obtain ⟨h3, h4, h5⟩ := h2 hbad
  refine ⟨h3, h4, fun hn => ?_⟩
  rcases h5 with h5 | ⟨x, t, rnd, tn, h5, -⟩
  · exact h5
  · exact absurd h5 (hn x t rnd tn)

end Blast
