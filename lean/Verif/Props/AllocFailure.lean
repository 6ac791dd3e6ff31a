import Verif.AllocFailure
import Verif.Props.History
import Verif.Props.PanelRandom
/- Concrete cases meeting the hypotheses of these theorems: Verif/Cases/AllocFailure.lean -/
/-
C96: client programs in which any allocation may fail with std::bad_alloc.
-/
set_option linter.unusedSectionVars false
namespace Blast
open Prog Finset Reg
variable {V : Type}

/-! ### Specification -/

/-- What a step may do when its allocation fails: a constructor of a dynamic class makes no object; makePositiveDefinite of a dense matrix leaves the matrix as it was;
makePositiveDefinite of a dynamic panel matrix of size n has already overwritten it by n times the identity. All other steps do not allocate. -/
def SpecFail [Field V] [LinearOrder V] [Arith V] (KN : Nat) (s : HState V) (st : MStep V) (r : Outcome V) (s' : HState V) : Prop :=
  match st with
  | .plain (.op (.create x c)) =>
      (c.kind = .dynDense ∨ c.kind = .dynPanel → r = .exn .badAlloc ∧ s' = s) ∧
      (¬ (c.kind = .dynDense ∨ c.kind = .dynPanel) → SpecOne KN s (.op (.create x c)) r s')
  | .plain (.call (.makePositiveDefinite x _ _ _)) => ∃ X, s.objs x = some X ∧ s' = s ∧
      (X.rows = X.cols → r = .exn .badAlloc) ∧ (X.rows ≠ X.cols → r = .exn .invalidArgument)
  | .plain st => SpecOne KN s st r s'
  | .posDefPanel x _ rnd _ => ∃ X, s.objs x = some X ∧
      (X.rows = X.cols ∧ X.kind = .dynPanel → r = .exn .badAlloc ∧ s' = s.put x { X with val := fun i j => if i = j then (X.cols : V) else 0 }) ∧
      (X.rows = X.cols ∧ X.kind ≠ .dynPanel → r = .done ∧
        s' = s.put x { X with val := fun i j => (∑ k ∈ range X.cols, rnd i k * rnd j k) + if i = j then (X.cols : V) else 0 }) ∧
      (X.rows ≠ X.cols → r = .exn .invalidArgument ∧ s' = s)

/-- What a step may do when its allocation, if any, succeeds. -/
def SpecWell [Field V] [LinearOrder V] [Arith V] (KN : Nat) (s : HState V) (st : MStep V) (r : Outcome V) (s' : HState V) : Prop :=
  match st with
  | .plain st => SpecOne KN s st r s'
  | .posDefPanel x _ rnd _ => ∃ X, s.objs x = some X ∧
      (X.rows = X.cols → r = .done ∧
        s' = s.put x { X with val := fun i j => (∑ k ∈ range X.cols, rnd i k * rnd j k) + if i = j then (X.cols : V) else 0 }) ∧
      (X.rows ≠ X.cols → r = .exn .invalidArgument ∧ s' = s)

/-- `SpecMay KN s l rs s'`: the program `l`, started in `s`, may show the outcomes `rs` and end in `s'` -/
inductive SpecMay [Field V] [LinearOrder V] [Arith V] (KN : Nat) : HState V → List (MStep V × Bool) → List (Outcome V) → HState V → Prop where
  | nil (s) : SpecMay KN s [] [] s
  | stop {s st fail l r s'} : (if fail = true then SpecFail KN s st r s' else SpecWell KN s st r s') → r.final = true → SpecMay KN s ((st, fail) :: l) [r] s'
  | cons {s st fail l r s' rs s''} : (if fail = true then SpecFail KN s st r s' else SpecWell KN s st r s') → r.final = false → SpecMay KN s' l rs s'' →
      SpecMay KN s ((st, fail) :: l) (r :: rs) s''

/-- What the client has to respect: as in `HAllowed`; when the allocation fails there is no new storage, so nothing is required of its address. -/
def MAllowed [NatCast V] [Arith V] (SS KN : Nat) (h : HWorld V) (fail : Bool) : MStep V → Prop
  | .plain (.op (.create x c)) => h.w.obj x = none ∧ (fail = false ∨ c.isDyn = false → Fresh SS h.w c)
  | .plain (.call (.makePositiveDefinite x t _ etN)) => ∃ X, h.w.obj x = some X ∧ X.isPanel = false ∧ etN = (X.cols : V) ∧
      (fail = false → t % (SS : Int) = 0 ∧ ∀ z, (⟨.dynDense, .columnMajor, X.cols, X.cols, t⟩ : Container).Storage SS z → h.w.mem z = none)
  | .plain st => HAllowed SS KN h st
  | .posDefPanel x t _ tn => ∃ X, h.w.obj x = some X ∧ X.isPanel = true ∧ X.so = .columnMajor ∧ tn = (X.cols : V) ∧
      (fail = false ∨ X.isDyn = false → t % (SS : Int) = 0 ∧ ∀ z, ({ X with data := t } : Container).Storage SS z → h.w.mem z = none)

/-- every step is allowed when it is reached -/
def MAdmissible [NatCast V] [Arith V] (SS KN : Nat) (dv : V → V → V) (h : HWorld V) : List (MStep V × Bool) → Prop
  | [] => True
  | s :: l => MAllowed SS KN h s.2 s.1 ∧ ((h.stepMay SS KN dv s.2 s.1).1.final = false → MAdmissible SS KN dv (h.stepMay SS KN dv s.2 s.1).2 l)

/-! ### Proof -/

section may
variable [Field V] [LinearOrder V] [IsStrictOrderedRing V] [Arith V] [ExactSqrt V]

theorem isDyn_iff (c : Container) : c.isDyn = true ↔ c.kind = .dynDense ∨ c.kind = .dynPanel := by
  unfold Container.isDyn; cases c.kind <;> simp

omit [Field V] [LinearOrder V] [IsStrictOrderedRing V] [ExactSqrt V] in
theorem constructMay_false (SS : Nat) (c : Container) (hn : ¬ c.isDyn = true) (fail : Bool) : (constructMay SS fail c : Prog V Unit) = c.construct SS := by
  unfold constructMay; rw [if_neg]; intro h; exact hn (by simpa using (Bool.and_eq_true _ _ ▸ h : _ ∧ _).2)

omit [Field V] [LinearOrder V] [IsStrictOrderedRing V] [ExactSqrt V] in
theorem makePositiveDefiniteMay_false (SS : Nat) (t : Int) (rnd : Nat → Nat → V) (etN : V) (e : MExpr) :
    makePositiveDefiniteMay SS false t rnd etN e = makePositiveDefinite SS t rnd etN e := rfl

omit [Field V] [LinearOrder V] [IsStrictOrderedRing V] [ExactSqrt V] in
theorem makePositiveDefinitePanelMay_false (SS : Nat) (t : Int) (rnd : Nat → Nat → V) (tn : V) (c : Container) (fail : Bool) (hn : fail = false ∨ c.isDyn = false) :
    makePositiveDefinitePanelMay SS fail t rnd tn c = makePositiveDefinitePanel SS t rnd tn c := by
  have : (constructMay SS fail { c with data := t } : Prog V Unit) = ({ c with data := t } : Container).construct SS := by
    unfold constructMay
    have e : ({ c with data := t } : Container).isDyn = c.isDyn := rfl
    rcases hn with h | h <;> simp [e, h]
  unfold makePositiveDefinitePanelMay makePositiveDefinitePanel
  simp only [this]

omit [Field V] [LinearOrder V] [IsStrictOrderedRing V] [ExactSqrt V] in
/-- makePositiveDefinite of a dense matrix, failing allocation: the matrix, and all the memory, is as before -/
theorem makePositiveDefiniteMay_fail (SS : Nat) (t : Int) (rnd : Nat → Nat → V) (etN : V) (e : MExpr) (hsq : e.rows = e.cols) (m : Mem V) :
    makePositiveDefiniteMay SS true t rnd etN e m = .throw .badAlloc m := by
  unfold makePositiveDefiniteMay
  rw [if_neg (by omega)]
  rfl

omit [Field V] [LinearOrder V] [IsStrictOrderedRing V] [ExactSqrt V] in
/-- makePositiveDefinite of a dynamic panel matrix, failing allocation -/
theorem makePositiveDefinitePanelMay_fail {SS : Nat} (hSS : 0 < SS) (t : Int) (rnd : Nat → Nat → V) (tn : V) {c : Container} (hsq : c.rows = c.cols)
    (hd : c.isDyn = true) {m : Mem V} (hl : Live SS m c) :
    ∃ m', makePositiveDefinitePanelMay SS true t rnd tn c m = .throw .badAlloc m' ∧ Contains SS m' c (fun i j => if i = j then tn else Arith.zero) ∧
      OnlyElemsChange SS m m' c := by
  obtain ⟨m1, e1, v1, n1⟩ := C54_randomize hSS hl (fun _ _ => Arith.zero)
  obtain ⟨m2, e2, v2, n2⟩ := setDiag_runs hSS hsq v1 tn
  refine ⟨m2, ?_, v2, fun x hx => by rw [n2 x hx, n1 x hx]⟩
  unfold makePositiveDefinitePanelMay
  rw [if_neg (by omega)]
  have e3 : (constructMay SS true { c with data := t } : Prog V Unit) = Prog.throw Exn.badAlloc := by
    unfold constructMay; rw [if_pos]; show (true && c.isDyn) = true; rw [hd]; rfl
  show (c.assignScalar SS Arith.zero >>= fun _ => forN c.rows (fun i => c.set SS i i tn) >>= fun _ => constructMay SS true { c with data := t } >>= _) m = _
  rw [bind_ok (show c.assignScalar SS Arith.zero m = .ok () m1 from e1), bind_ok e2, e3]
  rfl

omit [Field V] [LinearOrder V] [IsStrictOrderedRing V] [ExactSqrt V] in
/-- a call that throws after having changed elements of `x` -/
theorem hexec_throw_elems {SS : Nat} (hSS : 0 < SS) {h : HWorld V} {s : HState V} (hr : HRep SS h s) {x : Nat} {c : Container} (hx : h.w.obj x = some c)
    {o : AObj V} (ho : ObjRep SS h.w.mem c o) {α : Type} {p : Prog V α} {e : Exn} {m' : Mem V} (hp : p h.w.mem = .throw e m') {f : Nat → Nat → V}
    (hf : OnlyElemsChange SS h.w.mem m' c) (hv : Contains SS m' c f) :
    (h.exec p).1 = .exn e ∧ HRep SS (h.exec p).2 (s.put x { o with val := f }) := by
  have e1 : h.exec p = (.exn e, ⟨{ h.w with mem := m' }, h.piv⟩) := by unfold HWorld.exec World.exec; rw [hp]
  have e2 := (exec_ok hSS hr.1 hx (p := fun _ => Res.ok () m') (r := ()) (m' := m') rfl (fun _ => .done)
    (fun z hz => hf z (fun he => hz (elem_storage hSS he))) (ho.elems hf hv)).2
  rw [e1]
  exact ⟨rfl, e2, hr.2⟩

/-- one step -/
theorem stepMay_represents {SS KN : Nat} (hSS : 0 < SS) {h : HWorld V} {s : HState V} (hr : HRep SS h s) {dv : V → V → V}
    (hdv : ∀ x y, y ≠ 0 → dv x y = x / y) (st : MStep V) (fail : Bool) (hal : MAllowed SS KN h fail st) :
    ∃ s', (if fail = true then SpecFail KN s st (h.stepMay SS KN dv fail st).1 s' else SpecWell KN s st (h.stepMay SS KN dv fail st).1 s') ∧
      HRep SS (h.stepMay SS KN dv fail st).2 s' ∧ (h.stepMay SS KN dv fail st).1 ≠ .ub := by
  have plainCase : ∀ st' : HStep V, HAllowed SS KN h st' → h.stepMay SS KN dv fail (.plain st') = h.step SS KN dv st' →
      (fail = true → ∀ r s', SpecOne KN s st' r s' → SpecFail KN s (.plain st') r s') →
      ∃ s', (if fail = true then SpecFail KN s (.plain st') (h.stepMay SS KN dv fail (.plain st')).1 s'
        else SpecWell KN s (.plain st') (h.stepMay SS KN dv fail (.plain st')).1 s') ∧
      HRep SS (h.stepMay SS KN dv fail (.plain st')).2 s' ∧ (h.stepMay SS KN dv fail (.plain st')).1 ≠ .ub := by
    intro st' ha e hs
    obtain ⟨s', g1, g2, g3⟩ := hstep_represents hSS hr hdv st' ha
    rw [e]
    refine ⟨s', ?_, g2, g3⟩
    by_cases hfail : fail = true
    · rw [if_pos hfail]; exact hs hfail _ _ g1
    · rw [if_neg hfail]; exact g1
  cases st with
  | posDefPanel x t rnd tn =>
    obtain ⟨X, hx, hp, hso, htn, hal⟩ := hal
    obtain ⟨o, ho, hox⟩ := hr.1.get hx
    have e0 : h.stepMay SS KN dv fail (.posDefPanel x t rnd tn) = h.exec (makePositiveDefinitePanelMay SS fail t rnd tn X) := by
      simp only [HWorld.stepMay, hx]
    rw [e0]
    by_cases hsq : X.rows = X.cols
    · have hosq : o.rows = o.cols := by rw [hox.rows, hox.cols]; exact hsq
      by_cases hb : fail = false ∨ X.isDyn = false
      · obtain ⟨ht, hfree⟩ := hal hb
        obtain ⟨m', e, e1, e2⟩ := C54_makePositiveDefinite_value hSS hso hox.live hsq ht hfree rnd htn
        rw [makePositiveDefinitePanelMay_false _ _ _ _ _ _ hb]
        obtain ⟨f1, f2⟩ := hexec_elems hSS hr hx hox e (f := fun i j => (∑ k ∈ range o.cols, rnd i k * rnd j k) + if i = j then (o.cols : V) else 0) e2
          (by rw [hox.cols]; exact e1)
        rw [f1]
        refine ⟨_, ?_, f2, by intro h; cases h⟩
        by_cases hfail : fail = true
        · rw [if_pos hfail]
          have hk : o.kind ≠ .dynPanel := by
            rw [hox.kind]
            rcases hb with h | h
            · rw [h] at hfail; cases hfail
            · intro hc; rw [(isDyn_iff X).2 (Or.inr hc)] at h; cases h
          exact ⟨o, ho, fun h => absurd h.2 hk, fun _ => ⟨rfl, rfl⟩, fun h => absurd hosq h⟩
        · rw [if_neg hfail]
          exact ⟨o, ho, fun _ => ⟨rfl, rfl⟩, fun h => absurd hosq h⟩
      · have hf : fail = true := by cases fail <;> simp_all
        have hd : X.isDyn = true := by cases hX : X.isDyn <;> simp_all
        have hk : o.kind = .dynPanel := by
          rw [hox.kind]
          rcases (isDyn_iff X).1 hd with h | h
          · have := (isPanel_iff X).1 hp; rw [h] at this; rcases this with h | h <;> cases h
          · exact h
        subst hf
        obtain ⟨m', e, e1, e2⟩ := makePositiveDefinitePanelMay_fail hSS t rnd tn hsq hd hox.live
        obtain ⟨f1, f2⟩ := hexec_throw_elems hSS hr hx hox e (f := fun i j => if i = j then (o.cols : V) else 0) e2
          (by rw [hox.cols, ← htn, ← ExactRing.zero_eq (V := V)]; exact e1)
        rw [f1]
        refine ⟨_, ?_, f2, by intro h; cases h⟩
        rw [if_pos rfl]
        exact ⟨o, ho, fun _ => ⟨rfl, rfl⟩, fun h => absurd hk h.2, fun h => absurd hosq h⟩
    · have hosq : o.rows ≠ o.cols := by rw [hox.rows, hox.cols]; exact hsq
      have e : makePositiveDefinitePanelMay SS fail t rnd tn X h.w.mem = .throw .invalidArgument h.w.mem := by
        unfold makePositiveDefinitePanelMay; rw [if_pos hsq]; rfl
      obtain ⟨f1, f2⟩ := hexec_throw hr e
      rw [f1]
      refine ⟨s, ?_, f2, by intro h; cases h⟩
      by_cases hfail : fail = true
      · rw [if_pos hfail]; exact ⟨o, ho, fun h => absurd h.1 hosq, fun h => absurd h.1 hosq, fun _ => ⟨rfl, rfl⟩⟩
      · rw [if_neg hfail]; exact ⟨o, ho, fun h => absurd h hosq, fun _ => ⟨rfl, rfl⟩⟩
  | plain st =>
    cases st with
    | op op =>
      cases op with
      | create x c =>
        obtain ⟨hx, hfr⟩ := hal
        by_cases hb : fail = false ∨ c.isDyn = false
        · refine plainCase _ ⟨hx, hfr hb⟩ ?_ ?_
          · simp only [HWorld.stepMay]; rw [if_neg]; rcases hb with h | h <;> simp [h]
          · intro hf r s' hs
            have hn : ¬ (c.kind = .dynDense ∨ c.kind = .dynPanel) := fun hc => by
              have := (isDyn_iff c).2 hc
              rcases hb with h | h
              · rw [h] at hf; cases hf
              · rw [h] at this; cases this
            exact ⟨fun hc => absurd hc hn, fun _ => hs⟩
        · have hf : fail = true := by cases fail <;> simp_all
          have hd : c.isDyn = true := by cases hX : c.isDyn <;> simp_all
          subst hf
          have e : h.stepMay SS KN dv true (.plain (.op (.create x c))) = (.exn .badAlloc, h) := by
            simp only [HWorld.stepMay]; rw [if_pos (by rw [hd]; rfl)]
          rw [e]
          refine ⟨s, ?_, hr, by intro h; cases h⟩
          rw [if_pos rfl]
          exact ⟨fun _ => ⟨rfl, rfl⟩, fun hn => absurd ((isDyn_iff c).1 hd) hn⟩
      | _ => exact plainCase _ hal rfl (fun _ _ _ hs => hs)
    | call c =>
      cases c with
      | makePositiveDefinite x t rnd etN =>
        obtain ⟨X, hx, hp, hN, hal⟩ := hal
        cases hf : fail with
        | false =>
          obtain ⟨ht, hfree⟩ := hal hf
          subst hf
          refine plainCase (.call (.makePositiveDefinite x t rnd etN)) ⟨X, hx, hp, hN, ht, hfree⟩ ?_ (fun h => by cases h)
          simp only [HWorld.stepMay, HWorld.step, HWorld.call, hx, makePositiveDefiniteMay_false]
        | true =>
          obtain ⟨o, ho, hox⟩ := hr.1.get hx
          have e0 : h.stepMay SS KN dv true (.plain (.call (.makePositiveDefinite x t rnd etN))) =
              h.exec (makePositiveDefiniteMay SS true t rnd etN (.obj X)) := by simp only [HWorld.stepMay, hx]
          rw [e0]
          simp only [if_true]
          by_cases hsq : X.rows = X.cols
          · obtain ⟨f1, f2⟩ := hexec_throw hr (makePositiveDefiniteMay_fail SS t rnd etN (.obj X) hsq h.w.mem)
            rw [f1]
            exact ⟨s, ⟨o, ho, rfl, fun _ => rfl, fun hn => absurd (by rw [hox.rows, hox.cols]; exact hsq) hn⟩, f2, by intro h; cases h⟩
          · obtain ⟨f1, f2⟩ := hexec_throw hr (show makePositiveDefiniteMay SS true t rnd etN (.obj X) h.w.mem = .throw .invalidArgument h.w.mem from by
              unfold makePositiveDefiniteMay; rw [if_pos (show (MExpr.obj X).rows ≠ (MExpr.obj X).cols from hsq)]; rfl)
            rw [f1]
            exact ⟨s, ⟨o, ho, rfl, fun hn => absurd (by rw [← hox.rows, ← hox.cols]; exact hn) hsq, fun _ => rfl⟩, f2, by intro h; cases h⟩
      | _ => exact plainCase _ hal rfl (fun _ _ _ hs => hs)

theorem runMay_represents {SS KN : Nat} (hSS : 0 < SS) {dv : V → V → V} (hdv : ∀ x y, y ≠ 0 → dv x y = x / y) (l : List (MStep V × Bool)) :
    ∀ {h : HWorld V} {s : HState V}, HRep SS h s → MAdmissible SS KN dv h l →
    ∃ s', SpecMay KN s l (h.runMay SS KN dv l).1 s' ∧ HRep SS (h.runMay SS KN dv l).2 s' ∧ Outcome.ub ∉ (h.runMay SS KN dv l).1 := by
  induction l with
  | nil => intro h s hr _; exact ⟨s, .nil s, hr, fun hm => by cases hm⟩
  | cons st l ih =>
    intro h s hr hal
    obtain ⟨a1, a2⟩ := hal
    obtain ⟨st, fail⟩ := st
    obtain ⟨s1, e1, e2, e3⟩ := stepMay_represents hSS hr hdv st fail a1
    unfold HWorld.runMay
    dsimp only at a1 a2 ⊢
    cases hf : (h.stepMay SS KN dv fail st).1.final
    · obtain ⟨s2, f1, f2, f3⟩ := ih e2 (a2 hf)
      simp only [Bool.false_eq_true, if_false]
      refine ⟨s2, .cons e1 hf f1, f2, fun hm => ?_⟩
      rcases List.mem_cons.1 hm with e | e
      · exact e3 e.symm
      · exact f3 e
    · simp only [if_true]
      exact ⟨s1, .stop e1 hf, e2, fun hm => e3 (List.mem_singleton.1 hm).symm⟩

/-! ### Theorems -/

/-- **C96**. Every client program as in C69, in which in addition any of the allocations may fail with `std::bad_alloc` (in any pattern), behaves as specified by `SpecMay`:
no step has undefined behaviour, a failing step reports the exception, a failing constructor makes no object, a failing makePositiveDefinite of a dense matrix changes nothing,
that of a dynamic panel matrix of size n leaves n times the identity, and all other objects and pivot arrays are as the rest of the program makes them; living objects do not
overlap, and memory and heap contain exactly their storage. Exact arithmetic; any number of objects, steps and failures. -/
theorem C96_history {SS KN : Nat} (hSS : 0 < SS) {dv : V → V → V} (hdv : ∀ x y, y ≠ 0 → dv x y = x / y) (piv : Nat → Nat → Nat) (l : List (MStep V × Bool))
    (h : MAdmissible SS KN dv (HWorld.start piv) l) :
    ∃ s' : HState V, SpecMay KN ⟨fun _ => none, piv⟩ l ((HWorld.start piv : HWorld V).runMay SS KN dv l).1 s' ∧
      Represents SS ((HWorld.start piv : HWorld V).runMay SS KN dv l).2.w s'.objs ∧
      ((HWorld.start piv : HWorld V).runMay SS KN dv l).2.piv = s'.piv ∧
      Outcome.ub ∉ ((HWorld.start piv : HWorld V).runMay SS KN dv l).1 := by
  obtain ⟨s', h1, h2, h3⟩ := runMay_represents hSS hdv l (h := HWorld.start piv) (s := ⟨fun _ => none, piv⟩) ⟨empty_represents, rfl⟩ h
  exact ⟨s', h1, h2.1, h2.2, h3⟩

/-- **C96** (no leak). If no object is left at the end of the program, all memory has been given back, whichever allocations failed on the way. -/
theorem C96_no_leak {SS KN : Nat} (hSS : 0 < SS) {dv : V → V → V} (hdv : ∀ x y, y ≠ 0 → dv x y = x / y) (piv : Nat → Nat → Nat) (l : List (MStep V × Bool))
    (h : MAdmissible SS KN dv (HWorld.start piv) l) (hend : ∀ x, ((HWorld.start piv : HWorld V).runMay SS KN dv l).2.w.obj x = none) :
    (∀ z, ((HWorld.start piv : HWorld V).runMay SS KN dv l).2.w.mem z = none) ∧
    (∀ p, ((HWorld.start piv : HWorld V).runMay SS KN dv l).2.w.heap p = none) := by
  obtain ⟨s', _, hr, _⟩ := C96_history hSS hdv piv l h
  constructor
  · intro z
    cases hz : ((HWorld.start piv : HWorld V).runMay SS KN dv l).2.w.mem z with
    | none => rfl
    | some v =>
      obtain ⟨x, c, hx, _⟩ := (hr.mem z).1 (by rw [hz]; rfl)
      rw [hend x] at hx; cases hx
  · intro p
    cases hp : ((HWorld.start piv : HWorld V).runMay SS KN dv l).2.w.heap p with
    | none => rfl
    | some b =>
      obtain ⟨x, c, hx, _⟩ := (hr.heap p b).1 hp
      rw [hend x] at hx; cases hx

/-- no step of `History` reports std::bad_alloc -/
theorem specOne_no_badAlloc {KN : Nat} {s s' : HState V} {st : HStep V} {r : Outcome V} (h : SpecOne KN s st r s') : r ≠ .exn .badAlloc := by
  have lu : ∀ {a P : Nat}, SpecLu s a P r s' → r ≠ .exn .badAlloc := by
    rintro a P ⟨A, _, h1, h2⟩ e
    by_cases hc : ColsIndep A.rows (min A.rows A.cols) A.val
    · rw [(h1 hc).1] at e; cases e
    · rw [(h2 hc).1] at e; cases e
  have two : ∀ {p : Prop} {q q' : Prop}, (p → r = .done ∧ q) → (¬ p → r = .exn .invalidArgument ∧ q') → r ≠ .exn .badAlloc := by
    intro p q q' h1 h2 e
    by_cases hp : p
    · rw [(h1 hp).1] at e; cases e
    · rw [(h2 hp).1] at e; cases e
  cases st with
  | op o =>
    rw [h.1]
    cases o <;> simp only [specStep] <;> (repeat' split) <;> (intro e; cases e)
  | call c =>
    cases c with
    | randomize x rnd => obtain ⟨X, _, h1, _⟩ := h; rw [h1]; intro e; cases e
    | makePositiveDefinite x t rnd etN => obtain ⟨X, _, h1, h2⟩ := h; exact two h1 h2
    | trmmLeft alpha a b c => obtain ⟨A, B, C, _, _, _, h1, h2⟩ := h; exact two h1 h2
    | trmmRight alpha b a c => obtain ⟨A, B, C, _, _, _, h1, h2⟩ := h; exact two h1 h2
    | syrk alpha a beta c d => obtain ⟨A, B, C, _, _, _, h1, h2⟩ := h; exact two h1 h2
    | trsm uplo unit a b x => obtain ⟨A, B, C, _, _, _, h1, h2⟩ := h; exact two h1 h2
    | potrf a l => obtain ⟨A, B, _, _, h1, h2⟩ := h; exact two h1 h2
    | getf2 a P junk => exact lu h
    | getrf a P junk =>
      obtain ⟨A, _, h1, h2⟩ := h
      cases hso : A.so with
      | columnMajor => exact lu (h1 hso)
      | rowMajor => rw [(h2 hso).1]; intro e; cases e
    | laswp x k0 k1 P => obtain ⟨X, _, h1, _⟩ := h; rw [h1]; intro e; cases e

/-- **C96** (strong guarantee). In every reachable state: a step other than makePositiveDefinite of a dynamic panel matrix that reports `std::bad_alloc` has left the whole world —
memory, heap, objects, pivot arrays — exactly as it was; and such a report comes only from a step whose allocation failed. -/
theorem C96_strong_guarantee {SS KN : Nat} (hSS : 0 < SS) {h : HWorld V} {s : HState V} (hr : HRep SS h s) {dv : V → V → V}
    (hdv : ∀ x y, y ≠ 0 → dv x y = x / y) (st : HStep V) (fail : Bool) (hal : MAllowed SS KN h fail (.plain st))
    (hbad : (h.stepMay SS KN dv fail (.plain st)).1 = .exn .badAlloc) :
    fail = true ∧ (h.stepMay SS KN dv fail (.plain st)).2 = h := by
  obtain ⟨s', h1, h2, h3⟩ := stepMay_represents hSS hr hdv (.plain st) fail hal
  rw [hbad] at h1
  have hf : fail = true := by
    cases hf : fail with
    | true => rfl
    | false => rw [hf, if_neg (by decide)] at h1; exact absurd rfl (specOne_no_badAlloc h1)
  refine ⟨hf, ?_⟩
  subst hf
  rw [if_pos rfl] at h1
  have hsp : SpecOne KN s st (.exn .badAlloc) s' → (Outcome.exn Exn.badAlloc : Outcome V) ≠ .exn .badAlloc := specOne_no_badAlloc
  cases st with
  | op op =>
    cases op with
    | create x c =>
      by_cases hd : c.isDyn = true
      · simp only [HWorld.stepMay]; rw [if_pos (by rw [hd]; rfl)]
      · exact absurd rfl (specOne_no_badAlloc (h1.2 (fun hc => hd ((isDyn_iff c).2 hc))))
    | _ => exact absurd rfl (hsp h1)
  | call c =>
    cases c with
    | makePositiveDefinite x t rnd etN =>
      obtain ⟨X, hx, _⟩ := hal
      by_cases hsq : X.rows = X.cols
      · simp only [HWorld.stepMay, hx]
        unfold HWorld.exec
        rw [exec_throw (makePositiveDefiniteMay_fail SS t rnd etN (.obj X) hsq h.w.mem)]
      · exfalso
        simp only [HWorld.stepMay, hx] at hbad
        unfold HWorld.exec at hbad
        rw [exec_throw (show makePositiveDefiniteMay SS true t rnd etN (.obj X) h.w.mem = .throw .invalidArgument h.w.mem from by
              unfold makePositiveDefiniteMay; rw [if_pos (show (MExpr.obj X).rows ≠ (MExpr.obj X).cols from hsq)]; rfl)] at hbad
        cases hbad
    | _ => exact absurd rfl (hsp h1)

/-- **C96** (trying again). After a constructor or makePositiveDefinite of a dense matrix has failed for lack of memory, the same step, when its allocation succeeds, does exactly
what it would have done at the first attempt, and so does the rest of the program. -/
theorem C96_retry {SS KN : Nat} (hSS : 0 < SS) {h : HWorld V} {s : HState V} (hr : HRep SS h s) {dv : V → V → V}
    (hdv : ∀ x y, y ≠ 0 → dv x y = x / y) (st : HStep V) (hal : MAllowed SS KN h true (.plain st))
    (hbad : (h.stepMay SS KN dv true (.plain st)).1 = .exn .badAlloc) (l : List (MStep V × Bool)) :
    h.runMay SS KN dv ((.plain st, true) :: (.plain st, false) :: l) =
      (.exn .badAlloc :: (h.runMay SS KN dv ((.plain st, false) :: l)).1, (h.runMay SS KN dv ((.plain st, false) :: l)).2) := by
  obtain ⟨_, e⟩ := C96_strong_guarantee hSS hr hdv st true hal hbad
  rw [HWorld.runMay]
  dsimp only
  rw [hbad, e]
  rfl

/-- **C96**, refutation of the strong guarantee for makePositiveDefinite of dynamic panel matrices: whenever its allocation fails, whatever the matrix (of size n) contained is lost
and it contains n times the identity, although the call reports failure. -/
theorem C96_panel_strong_guarantee_refuted {SS KN : Nat} (hSS : 0 < SS) {h : HWorld V} {s : HState V} (hr : HRep SS h s) {dv : V → V → V} {x : Nat} {X : Container}
    (hx : h.w.obj x = some X) (hk : X.kind = .dynPanel) (hsq : X.rows = X.cols) (t : Int) (rnd : Nat → Nat → V) {i j : Nat} (hi : i < X.rows) (hj : j < X.cols) :
    (h.stepMay SS KN dv true (.posDefPanel x t rnd (X.cols : V))).1 = .exn .badAlloc ∧
    (h.stepMay SS KN dv true (.posDefPanel x t rnd (X.cols : V))).2.w.mem (X.addr SS i j) = some (if i = j then (X.cols : V) else 0) := by
  obtain ⟨o, ho, hox⟩ := hr.1.get hx
  obtain ⟨m', e, e1, e2⟩ := makePositiveDefinitePanelMay_fail hSS t rnd (X.cols : V) hsq ((isDyn_iff X).2 (Or.inr hk)) hox.live
  have e0 : h.stepMay SS KN dv true (.posDefPanel x t rnd (X.cols : V)) = (.exn .badAlloc, ⟨{ h.w with mem := m' }, h.piv⟩) := by
    simp only [HWorld.stepMay, hx]
    unfold HWorld.exec World.exec
    rw [e]
  rw [e0]
  refine ⟨rfl, ?_⟩
  have := e1 i j hi hj
  rw [ExactRing.zero_eq] at this
  exact this

end may
end Blast
