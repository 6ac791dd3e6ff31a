import Verif.PanelRandom
import Verif.Props.MakePosDef
import Verif.Props.Potrf
/- Concrete cases meeting the hypotheses of these theorems: Verif/Cases/Register.lean, and the examples in this file. -/
/-
Property C54: random panel matrices.
-/
set_option linter.unusedSectionVars false
namespace Blast
open Prog Finset
variable {V : Type}

section
variable [Arith V]

theorem Container.addr_inj {SS : Nat} (hSS : 0 < SS) (c : Container) {i j i' j' : Nat} (hi : i < c.rows) (hj : j < c.cols)
    (hi' : i' < c.rows) (hj' : j' < c.cols) (he : c.addr SS i j = c.addr SS i' j') : i = i' ∧ j = j' := by
  have := c.inj hSS i j i' j' hi hj hi' hj'
  rw [← Container.addr_eq_mptr, ← Container.addr_eq_mptr] at this
  exact this he

/-- **C54** (randomize). Every element becomes the number drawn for it; nothing else changes. -/
theorem C54_randomize {SS : Nat} (hSS : 0 < SS) {m : Mem V} {c : Container} (hl : Live SS m c) (R : Nat → Nat → V) :
    ∃ m', randomizePanel SS c R m = .ok () m' ∧ Contains SS m' c R ∧ OnlyElemsChange SS m m' c := by
  obtain ⟨_, m', h1, h2, h3⟩ := runs_elemLoop (m := m) (body := fun i j => c.set SS i j (R i j)) hSS (c := c) (r := c.rows) (w := fun _ => c.cols)
    (Nat.le_refl _) (fun _ _ => Nat.le_refl _) R
    (fun i j hi hj => hl.alloc _ (c.addr_storage hSS hi hj))
    (fun i j m' hi hj _ _ h3 => runs_write (h3 i j hi hj) rfl)
  exact ⟨m', h1, h2, fun x hx => h3 x (fun ⟨i, j, hi, hj, e⟩ => hx ⟨i, j, hi, hj, e⟩)⟩

/-- **C54** (generate). A generated matrix contains the numbers drawn, and zero padding. -/
theorem C54_generate {SS : Nat} (hSS : 0 < SS) {m : Mem V} {c : Container} (hal : c.data % (SS : Int) = 0) (R : Nat → Nat → V) :
    ∃ m', generatePanel SS c R m = .ok () m' ∧ Live SS m' c ∧ Contains SS m' c R ∧
      (∀ z, c.Storage SS z → ¬ IsElem SS c z → m' z = some Arith.zero) ∧ (∀ z, ¬ c.Storage SS z → m' z = m z) := by
  let m1 : Mem V := fun x => if c.data ≤ x ∧ x < c.data + c.capacity SS then some Arith.zero else m x
  have l1 : Live SS m1 c := ⟨hal, fun x hx => by
    show (if c.data ≤ x ∧ x < c.data + c.capacity SS then some Arith.zero else m x).isSome = true
    rw [if_pos (show c.data ≤ x ∧ x < c.data + c.capacity SS from hx)]; rfl⟩
  obtain ⟨m2, h1, h2, h3⟩ := C54_randomize hSS l1 R
  have hst : ∀ z, IsElem SS c z → c.Storage SS z := by
    rintro z ⟨i, j, hi, hj, rfl⟩; exact c.addr_storage hSS hi hj
  refine ⟨m2, ?_, ⟨hal, fun z hz => ?_⟩, h2, fun z hz he => ?_, fun z hz => ?_⟩
  · show (c.construct SS >>= fun _ => randomizePanel SS c R) m = _
    rw [bind_ok (show (c.construct SS : Prog V Unit) m = .ok () m1 from rfl)]; exact h1
  · by_cases he : IsElem SS c z
    · obtain ⟨i, j, hi, hj, rfl⟩ := he
      rw [h2 i j hi hj]; rfl
    · rw [h3 z he]; exact l1.alloc z hz
  · rw [h3 z he]; exact if_pos hz
  · rw [h3 z (fun he => hz (hst z he))]; exact if_neg hz

/-- elements of the matrix left by `makeHermitian` -/
def mirrored (cj : V → V) (R : Nat → Nat → V) (i j : Nat) : V := if j ≤ i then R i j else cj (R j i)

/-- **C54** (makeHermitian). The elements on and below the diagonal are the numbers drawn, the elements above it their conjugates; nothing else changes. -/
theorem C54_makeHermitian {SS : Nat} (hSS : 0 < SS) {m : Mem V} {c : Container} (hl : Live SS m c) (hsq : c.rows = c.cols) (cj : V → V)
    (R : Nat → Nat → V) :
    ∃ m', makeHermitian SS c cj R m = .ok () m' ∧ Contains SS m' c (fun i j => if j ≤ i then R i j else cj (R j i)) ∧
      OnlyElemsChange SS m m' c := by
  let F := mirrored cj R
  have al : ∀ i j, i < c.rows → j < c.rows → (m (c.addr SS i j)).isSome = true :=
    fun i j hi hj => hl.alloc _ (c.addr_storage hSS hi (by omega))
  have key : Runs (forN c.rows (fun i => do
      forN i (fun j => do
        c.set SS i j (R i j)
        let v ← c.get SS i j
        c.set SS j i (cj v))
      c.set SS i i (R i i))) m (fun _ m' => (∀ i j, i < c.rows → j < c.rows → m' (c.addr SS i j) = some (F i j)) ∧
        (∀ x, (∀ i j, i < c.rows → j < c.rows → x ≠ c.addr SS i j) → m' x = m x)) := by
    refine runs_forN (I := fun t m' => (∀ i j, i < t → j < t → m' (c.addr SS i j) = some (F i j)) ∧
        (∀ x, (∀ i j, i < t → j < t → x ≠ c.addr SS i j) → m' x = m x)) ⟨fun i j hi => absurd hi (Nat.not_lt_zero _), fun _ _ => rfl⟩ ?_
    intro t m1 ht ⟨i1, i2⟩
    have inj : ∀ {i j i' j' : Nat}, i < c.rows → j < c.rows → i' < c.rows → j' < c.rows → c.addr SS i j = c.addr SS i' j' → i = i' ∧ j = j' :=
      fun hi hj hi' hj' he => c.addr_inj hSS hi (by omega) hi' (by omega) he
    refine Runs.bind (Q := fun _ m' => (∀ i j, i < t → j < t → m' (c.addr SS i j) = some (F i j)) ∧
        (∀ k, k < t → m' (c.addr SS t k) = some (F t k) ∧ m' (c.addr SS k t) = some (F k t)) ∧
        (∀ x, (∀ i j, i < t → j < t → x ≠ c.addr SS i j) → (∀ k, k < t → x ≠ c.addr SS t k ∧ x ≠ c.addr SS k t) → m' x = m x)) ?_ ?_
    · refine runs_forN (I := fun s m' => (∀ i j, i < t → j < t → m' (c.addr SS i j) = some (F i j)) ∧
        (∀ k, k < s → m' (c.addr SS t k) = some (F t k) ∧ m' (c.addr SS k t) = some (F k t)) ∧
        (∀ x, (∀ i j, i < t → j < t → x ≠ c.addr SS i j) → (∀ k, k < s → x ≠ c.addr SS t k ∧ x ≠ c.addr SS k t) → m' x = m x))
        ⟨i1, fun k hk => absurd hk (Nat.not_lt_zero _), fun x hx _ => i2 x hx⟩ ?_
      intro s m2 hs ⟨j1, j2, j3⟩
      have hF1 : F t s = R t s := if_pos (by omega)
      have hF2 : F s t = cj (R t s) := if_neg (by omega)
      have a1 : (m2 (c.addr SS t s)).isSome = true := by
        rw [j3 _ (fun i j hi hj e => by have := inj (by omega) (by omega) (by omega) (by omega) e; omega)
          (fun k hk => ⟨fun e => by have := inj (by omega) (by omega) (by omega) (by omega) e; omega,
            fun e => by have := inj (by omega) (by omega) (by omega) (by omega) e; omega⟩)]
        exact al t s (by omega) (by omega)
      have a2 : (m2 (c.addr SS s t)).isSome = true := by
        rw [j3 _ (fun i j hi hj e => by have := inj (by omega) (by omega) (by omega) (by omega) e; omega)
          (fun k hk => ⟨fun e => by have := inj (by omega) (by omega) (by omega) (by omega) e; omega,
            fun e => by have := inj (by omega) (by omega) (by omega) (by omega) e; omega⟩)]
        exact al s t (by omega) (by omega)
      have hne : c.addr SS s t ≠ c.addr SS t s := fun e => by
        have := inj (by omega) (by omega) (by omega) (by omega) e; omega
      refine Runs.bind (Q := fun _ m' => m' = fun x => if x = c.addr SS t s then some (R t s) else m2 x) (runs_write a1 rfl) ?_
      rintro _ _ rfl
      refine Runs.bind (Q := fun v m' => v = R t s ∧ m' = fun x => if x = c.addr SS t s then some (R t s) else m2 x)
        ⟨R t s, _, (by unfold Container.get Prog.read; simp), rfl, rfl⟩ ?_
      rintro _ _ ⟨rfl, rfl⟩
      refine runs_write ?_ ⟨?_, ?_, ?_⟩
      · rw [if_neg hne]; exact a2
      · intro i j hi hj
        have e1 : c.addr SS i j ≠ c.addr SS t s := fun e => by have := inj (by omega) (by omega) (by omega) (by omega) e; omega
        have e2 : c.addr SS i j ≠ c.addr SS s t := fun e => by have := inj (by omega) (by omega) (by omega) (by omega) e; omega
        dsimp only; rw [if_neg e2, if_neg e1]; exact j1 i j hi hj
      · intro k hk
        dsimp only
        by_cases ek : k = s
        · subst ek
          rw [if_neg (fun e => hne e.symm), if_pos rfl, if_pos rfl, hF1, hF2]; exact ⟨rfl, rfl⟩
        · have e1 : c.addr SS t k ≠ c.addr SS t s := fun e => by have := inj (by omega) (by omega) (by omega) (by omega) e; omega
          have e2 : c.addr SS t k ≠ c.addr SS s t := fun e => by have := inj (by omega) (by omega) (by omega) (by omega) e; omega
          have e3 : c.addr SS k t ≠ c.addr SS t s := fun e => by have := inj (by omega) (by omega) (by omega) (by omega) e; omega
          have e4 : c.addr SS k t ≠ c.addr SS s t := fun e => by have := inj (by omega) (by omega) (by omega) (by omega) e; omega
          rw [if_neg e2, if_neg e1, if_neg e4, if_neg e3]; exact j2 k (by omega)
      · intro x hx hk
        dsimp only
        rw [if_neg (hk s (by omega)).2, if_neg (hk s (by omega)).1]
        exact j3 x hx (fun k hk' => hk k (by omega))
    · intro _ m2 ⟨j1, j2, j3⟩
      have hF : F t t = R t t := if_pos (Nat.le_refl _)
      refine runs_write ?_ ⟨?_, ?_⟩
      · rw [j3 _ (fun i j hi hj e => by have := inj (by omega) (by omega) (by omega) (by omega) e; omega)
          (fun k hk => ⟨fun e => by have := inj (by omega) (by omega) (by omega) (by omega) e; omega,
            fun e => by have := inj (by omega) (by omega) (by omega) (by omega) e; omega⟩)]
        exact al t t (by omega) (by omega)
      · intro i j hi hj
        dsimp only
        by_cases e : i = t ∧ j = t
        · obtain ⟨rfl, rfl⟩ := e; rw [if_pos rfl, hF]
        · rw [if_neg (fun he => e (inj (by omega) (by omega) (by omega) (by omega) he))]
          by_cases hit : i = t
          · subst hit; exact (j2 j (by omega)).1
          · by_cases hjt : j = t
            · subst hjt; exact (j2 i (by omega)).2
            · exact j1 i j (by omega) (by omega)
      · intro x hx
        dsimp only
        rw [if_neg (hx t t (by omega) (by omega))]
        exact j3 x (fun i j hi hj => hx i j (by omega) (by omega)) (fun k hk => ⟨hx t k (by omega) (by omega), hx k t (by omega) (by omega)⟩)
  obtain ⟨_, m', h1, h2, h3⟩ := key
  refine ⟨m', ?_, fun i j hi hj => h2 i j hi (by omega), fun x hx => h3 x (fun i j hi hj e => hx ⟨i, j, hi, by omega, e⟩)⟩
  unfold makeHermitian
  rw [if_neg (by omega)]; exact h1

/-- **C54** (makeSymmetric). The result is a symmetric matrix whose elements on and below the diagonal are the numbers drawn; nothing else changes. -/
theorem C54_makeSymmetric {SS : Nat} (hSS : 0 < SS) {m : Mem V} {c : Container} (hl : Live SS m c) (hsq : c.rows = c.cols) (R : Nat → Nat → V) :
    ∃ m' a, makeSymmetric SS c R m = .ok () m' ∧ Contains SS m' c a ∧ (∀ i j, a i j = a j i) ∧ (∀ i j, j ≤ i → a i j = R i j) ∧
      OnlyElemsChange SS m m' c := by
  obtain ⟨m', h1, h2, h3⟩ := C54_makeHermitian hSS hl hsq id R
  refine ⟨m', _, h1, h2, fun i j => ?_, fun i j h => if_pos h, h3⟩
  simp only [id]
  rcases Nat.lt_trichotomy i j with h | h | h
  · rw [if_neg (by omega), if_pos (by omega)]
  · subst h; rfl
  · rw [if_pos (by omega), if_neg (by omega)]

/-- **C54** (non-square matrices). makeSymmetric, makeHermitian and makePositiveDefinite throw `std::invalid_argument` and change nothing. -/
theorem C54_not_square {SS : Nat} {m : Mem V} {c : Container} (h : c.rows ≠ c.cols) (cj : V → V) (R : Nat → Nat → V) (t : Int) (tn : V) :
    makeSymmetric SS c R m = .throw .invalidArgument m ∧ makeHermitian SS c cj R m = .throw .invalidArgument m ∧
    makePositiveDefinitePanel SS t R tn c m = .throw .invalidArgument m := by
  unfold makeSymmetric makeHermitian makePositiveDefinitePanel
  rw [if_pos h, if_pos h, if_pos h]; exact ⟨rfl, rfl, rfl⟩

/-- the diagonal loop -/
theorem setDiag_runs {SS : Nat} (hSS : 0 < SS) {m : Mem V} {c : Container} (hsq : c.rows = c.cols) {a : Nat → Nat → V} (ha : Contains SS m c a) (v : V) :
    ∃ m', forN c.rows (fun i => c.set SS i i v) m = .ok () m' ∧ Contains SS m' c (fun i j => if i = j then v else a i j) ∧ OnlyElemsChange SS m m' c := by
  have key : Runs (forN c.rows (fun i => c.set SS i i v)) m (fun _ m' =>
      (∀ i j, i < c.rows → j < c.cols → m' (c.addr SS i j) = some (if i = j ∧ i < c.rows then v else a i j)) ∧ OnlyElemsChange SS m m' c) := by
    refine runs_forN (I := fun t m' => (∀ i j, i < c.rows → j < c.cols → m' (c.addr SS i j) = some (if i = j ∧ i < t then v else a i j)) ∧
      OnlyElemsChange SS m m' c) ⟨fun i j hi hj => ?_, fun _ _ => rfl⟩ ?_
    · rw [if_neg (by omega)]; exact ha i j hi hj
    · intro t m1 ht ⟨i1, i2⟩
      refine runs_write (by rw [i1 t t ht (by omega)]; rfl) ⟨fun i j hi hj => ?_, fun x hx => ?_⟩
      · by_cases e : i = t ∧ j = t
        · obtain ⟨rfl, rfl⟩ := e
          dsimp only; rw [if_pos rfl, if_pos (by omega)]
        · dsimp only
          rw [if_neg (fun he => e (c.addr_inj hSS hi hj ht (by omega) he)), i1 i j hi hj]
          by_cases h1 : i = j ∧ i < t
          · rw [if_pos h1, if_pos (by omega)]
          · rw [if_neg h1, if_neg (by omega)]
      · dsimp only; rw [if_neg (fun e => hx ⟨t, t, ht, by omega, e⟩)]; exact i2 x hx
  obtain ⟨_, m', h1, h2, h3⟩ := key
  refine ⟨m', h1, fun i j hi hj => ?_, h3⟩
  rw [h2 i j hi hj]
  by_cases e : i = j
  · dsimp only; rw [if_pos ⟨e, hi⟩, if_pos e]
  · dsimp only; rw [if_neg (fun h => e h.1), if_neg e]

theorem trans_obj_mptr {SS : Nat} (hSS : 0 < SS) (c : Container) : (MExpr.obj c).trans.mptr SS = (c.mptr SS).trans SS := by
  rw [MPtr.trans_ptr hSS, MExpr.mptr_fields hSS, Container.mptr_eq]
  rfl

end

/-- **C54** (makePositiveDefinite, value). In exact arithmetic, for every matrix of drawn numbers `R`, `makePositiveDefinite` of a square column-major panel matrix
leaves `R * R^T + N * I` and changes nothing but elements of the matrix; the temporary storage is released. -/
theorem C54_makePositiveDefinite_value [CommRing V] [Arith V] [ExactRing V] {SS : Nat} (hSS : 0 < SS) {m : Mem V} {c : Container}
    (hso : c.so = .columnMajor) (hl : Live SS m c) (hsq : c.rows = c.cols) {t : Int} (ht : t % (SS : Int) = 0)
    (hfree : ∀ x, ({ c with data := t } : Container).Storage SS x → m x = none)
    (R : Nat → Nat → V) {tn : V} (hN : tn = (c.cols : V)) :
    ∃ m', makePositiveDefinitePanel SS t R tn c m = .ok () m' ∧
      Contains SS m' c (fun i j => (∑ k ∈ range c.cols, R i k * R j k) + if i = j then (c.cols : V) else 0) ∧
      OnlyElemsChange SS m m' c := by
  let tmp : Container := { c with data := t }
  have hdis : ∀ x, tmp.Storage SS x → ¬ c.Storage SS x := by
    intro x hx hx'
    have := hl.alloc x hx'
    rw [hfree x hx] at this; cases this
  have hst : ∀ (d : Container) z, IsElem SS d z → d.Storage SS z := by
    rintro d z ⟨i, j, hi, hj, rfl⟩; exact d.addr_storage hSS hi hj
  -- matrix = 0
  obtain ⟨m1, e1, v1, n1⟩ := C54_randomize hSS hl (fun _ _ => Arith.zero)
  -- diagonal
  obtain ⟨m2, e2, v2, n2⟩ := setDiag_runs hSS hsq v1 tn
  -- temporary
  obtain ⟨m3, e3, l3, v3, _, n3⟩ := C54_generate (m := m2) hSS (c := tmp) ht R
  have hfr : ∀ x, ¬ tmp.Storage SS x → ¬ IsElem SS c x → m3 x = m x := fun x h1 h2 => by rw [n3 x h1, n2 x h2, n1 x h2]
  have lc : Live SS m3 c := ⟨hl.align, fun x hx => by
    have h1 : ¬ tmp.Storage SS x := fun h => hdis x h hx
    rw [n3 x h1]
    by_cases he : IsElem SS c x
    · obtain ⟨i, j, hi, hj, rfl⟩ := he; rw [v2 i j hi hj]; rfl
    · rw [n2 x he, n1 x he]; exact hl.alloc x hx⟩
  have vc : Contains SS m3 c (fun i j => if i = j then tn else Arith.zero) := fun i j hi hj => by
    rw [n3 _ (fun h => hdis _ h (c.addr_storage hSS hi hj))]; exact v2 i j hi hj
  -- product
  have adT : ∀ i j : Int, ((MExpr.obj tmp).trans.mptr SS).addr SS i j = (tmp.mptr SS).addr SS j i := fun i j => by
    rw [trans_obj_mptr hSS, MPtr.trans_addr hSS]
  have so : ∀ d : Container, (d.mptr SS).so = d.so := fun d => by rw [Container.mptr_eq]; rfl
  have hap : Apart SS tmp c := hdis
  have pre : GemmPre SS c.rows c.rows c.rows (tmp.mptr SS) ((MExpr.obj tmp).trans.mptr SS) (c.mptr SS) (c.mptr SS) m3 := by
    refine ⟨hSS, tmp.mptr_wf hSS ht, (by rw [trans_obj_mptr hSS]; exact (tmp.mptr_wf hSS ht).trans hSS), c.mptr_wf hSS hl.align, c.mptr_wf hSS hl.align,
      (by rw [so]; exact hso), (by rw [so]; exact hso), (by rw [so]; exact hso), ?_, ?_, ?_, ?_, ?_, ?_, ?_, ?_⟩
    · have := l3.readablePad hSS (show tmp.so = _ from hso)
      have e : tmp.cols = c.rows := hsq.symm
      rw [e] at this; exact this
    · intro i j hi hj
      rw [adT]
      exact l3.readable hSS j i hj (show i < c.cols by omega)
    · have := lc.readablePad hSS hso; rwa [← hsq] at this
    · have := lc.readable hSS; rwa [← hsq] at this
    · have := c.inj hSS; rwa [← hsq] at this
    · intro i j i' j' hi hj hi' hj'
      exact hap.disj hSS i j i' j' hi (show j < c.cols by omega) hi' (by omega)
    · intro i j i' j' hi hj hi' hj'
      rw [adT]
      exact hap.disj hSS j i i' j' hj (show i < c.cols by omega) hi' (by omega)
    · intro i j i' j' hi hj hi' hj' he
      exact c.inj hSS i j i' j' hi (by omega) hi' (by omega) he
  obtain ⟨m4, e4, v4, n4⟩ := C01_gemm_pointer_value (Arith.one : V) Arith.one pre (a := fun i j => R i j) (b := fun i j => R j i)
    (c := fun i j => if i = j then tn else Arith.zero)
    (fun i j hi hj => by rw [← Container.addr_eq_mptr]; exact v3 i j hi (show j < c.cols by omega))
    (fun i j hi hj => by rw [adT, ← Container.addr_eq_mptr]; exact v3 j i hj (show i < c.cols by omega))
    (fun i j hi hj => by rw [← Container.addr_eq_mptr]; exact vc i j hi (by omega))
  have n4' : ∀ x, ¬ IsElem SS c x → m4 x = m3 x := fun x hx => n4 x (fun hc => hx (by
    obtain ⟨i, j, hi, hj, rfl⟩ := hc
    exact ⟨i, j, hi, by omega, by rw [Container.addr_eq_mptr]⟩))
  refine ⟨fun x => if t ≤ x ∧ x < t + tmp.capacity SS then none else m4 x, ?_, fun i j hi hj => ?_, fun x hx => ?_⟩
  · unfold makePositiveDefinitePanel
    rw [if_neg (by omega)]
    have e4' : gemmMat SS Arith.one (tmp.mat SS) ((MExpr.obj tmp).trans.mat SS) Arith.one (c.mat SS) (c.mat SS) m3 = .ok () m4 := by
      unfold gemmMat
      have r1 : (tmp.mat SS).rows = c.rows := rfl
      have r2 : (tmp.mat SS).cols = c.rows := hsq.symm
      have r3 : ((MExpr.obj tmp).trans.mat SS).rows = c.rows := hsq.symm
      have r4 : ((MExpr.obj tmp).trans.mat SS).cols = c.rows := rfl
      have r5 : (c.mat SS).rows = c.rows := rfl
      have r6 : (c.mat SS).cols = c.rows := hsq.symm
      rw [r1, r2, r3, r4, r5, r6, if_neg (by simp), if_neg (by simp), if_neg (by simp)]
      exact e4
    have e3' : (tmp.construct SS >>= fun _ => randomizePanel SS tmp R) m2 = .ok () m3 := e3
    show (c.assignScalar SS Arith.zero >>= fun _ => forN c.rows (fun i => c.set SS i i tn) >>= fun _ => tmp.construct SS >>= fun _ =>
      randomizePanel SS tmp R >>= fun _ => gemmMat SS Arith.one (tmp.mat SS) ((MExpr.obj tmp).trans.mat SS) Arith.one (c.mat SS) (c.mat SS) >>= fun _ =>
      freeStorage SS tmp) m = _
    rw [bind_ok (show c.assignScalar SS Arith.zero m = .ok () m1 from e1), bind_ok e2, ← bind_assoc', bind_ok e3', bind_ok e4']
    rfl
  · have : ¬ tmp.Storage SS (c.addr SS i j) := fun h => hdis _ h (c.addr_storage hSS hi hj)
    show (if t ≤ c.addr SS i j ∧ c.addr SS i j < t + tmp.capacity SS then none else m4 (c.addr SS i j)) = _
    rw [if_neg (show ¬ (t ≤ c.addr SS i j ∧ c.addr SS i j < t + tmp.capacity SS) from this), Container.addr_eq_mptr, v4 i j hi (by omega), hN, hsq]
    simp only [ExactRing.one_eq, ExactRing.zero_eq, one_mul]
  · show (if t ≤ x ∧ x < t + tmp.capacity SS then none else m4 x) = _
    by_cases h1 : tmp.Storage SS x
    · rw [hfree x h1]; exact if_pos h1
    · rw [if_neg (show ¬ (t ≤ x ∧ x < t + tmp.capacity SS) from h1), n4' x hx, hfr x h1 hx]

/-- **C54** (makePositiveDefinite). Whatever numbers are drawn, in exact arithmetic the result is symmetric and positive definite. -/
theorem C54_makePositiveDefinite [Field V] [LinearOrder V] [IsStrictOrderedRing V] [Arith V] [ExactRing V] {SS : Nat} (hSS : 0 < SS) {m : Mem V} {c : Container}
    (hso : c.so = .columnMajor) (hl : Live SS m c) (hsq : c.rows = c.cols) {t : Int} (ht : t % (SS : Int) = 0)
    (hfree : ∀ x, ({ c with data := t } : Container).Storage SS x → m x = none)
    (R : Nat → Nat → V) {tn : V} (hN : tn = (c.cols : V)) :
    ∃ m' a, makePositiveDefinitePanel SS t R tn c m = .ok () m' ∧ Contains SS m' c a ∧ (∀ i j, a i j = a j i) ∧
      (∀ x : Nat → V, (∃ i, i < c.cols ∧ x i ≠ 0) → 0 < ∑ i ∈ range c.cols, ∑ j ∈ range c.cols, x i * a i j * x j) ∧
      OnlyElemsChange SS m m' c := by
  obtain ⟨m', h1, h2, h3⟩ := C54_makePositiveDefinite_value hSS hso hl hsq ht hfree R hN
  refine ⟨m', _, h1, h2, fun i j => ?_, fun x hx => posDef_of_gram R x hx, h3⟩
  congr 1
  · exact sum_congr rfl (fun k _ => mul_comm _ _)
  · by_cases h : i = j
    · rw [if_pos h, if_pos h.symm]
    · rw [if_neg h, if_neg (fun h' => h h'.symm)]

/-- **C54** (with potrf, the scenario of test/blast/math/panel/PotrfTest.cpp, for every size that the potrf kernel supports). `makePositiveDefinite(A); potrf(A, L);` leaves
`L * L^T = A`. -/
theorem C54_makePositiveDefinite_potrf [Field V] [LinearOrder V] [IsStrictOrderedRing V] [Arith V] [ExactSqrt V] {SS KN : Nat} {m : Mem V}
    {A L : Container} (h : PotrfArgs SS m A L) (hs : PotrfSizes A L) (hf : PotrfFits SS 1 KN A L) (hd : Apart SS A L) (hsq : A.rows = A.cols) {t : Int} (ht : t % (SS : Int) = 0)
    (hfree : ∀ x, ({ A with data := t } : Container).Storage SS x → m x = none)
    (R : Nat → Nat → V) {tn : V} (hN : tn = (A.cols : V)) :
    ∃ m' m'' a l, makePositiveDefinitePanel SS t R tn A m = .ok () m' ∧ potrfPanelCall SS KN A L m' = .ok () m'' ∧
      Contains SS m'' A a ∧ ContainsLower SS m'' L l ∧ IsCholesky A.rows A.cols l a := by
  obtain ⟨m', a, h1, h2, h3, h4, h5⟩ := C54_makePositiveDefinite h.ss h.sA h.lA hsq ht hfree R hN
  have hlive : ∀ c : Container, Live SS m c → Live SS m' c := fun c hc => ⟨hc.align, fun x hx => by
    by_cases he : IsElem SS A x
    · obtain ⟨i, j, hi, hj, rfl⟩ := he; rw [h2 i j hi hj]; rfl
    · rw [h5 x he]; exact hc.alloc x hx⟩
  have h' : PotrfArgs SS m' A L := ⟨h.ss, h.sA, h.sL, hlive A h.lA, hlive L h.lL, Or.inr hd⟩
  obtain ⟨m'', g1, l, g2, g3⟩ := C15_potrf_panel_cholesky h' hs hf (fun i j _ hi hj => h2 i j hi hj) (C43_result_factorizable h3 h4)
  obtain ⟨n'', k1, k2, _⟩ := C17_potrf_panel_frame h' hs hf
  rw [g1] at k1
  injection k1 with _ k1
  subst k1
  exact ⟨m', m'', a, l, h1, g1, fun i j hi hj => by rw [k2 _ (hd _ (A.addr_storage h.ss hi hj))]; exact h2 i j hi hj, g2, g3⟩

/-- a 3×3 static panel matrix at 0, temporary storage at 1000 -/
example (R : Nat → Nat → Rat) : ∃ m' a, makePositiveDefinitePanel 4 1000 R 3 ⟨.statPanel, .columnMajor, 3, 3, 0⟩ demoMem = .ok () m' ∧
    Contains 4 m' ⟨.statPanel, .columnMajor, 3, 3, 0⟩ a ∧ (∀ i j, a i j = a j i) ∧
    (∀ x : Nat → Rat, (∃ i, i < 3 ∧ x i ≠ 0) → 0 < ∑ i ∈ range 3, ∑ j ∈ range 3, x i * a i j * x j) ∧
    OnlyElemsChange 4 demoMem m' ⟨.statPanel, .columnMajor, 3, 3, 0⟩ :=
  C54_makePositiveDefinite (c := ⟨.statPanel, .columnMajor, 3, 3, 0⟩) (by decide) rfl (demo_live (by decide) (by decide) (by decide)) rfl (by decide)
    (fun x hx => if_neg (fun hc => by have := hx.1; simp at this; omega)) R rfl

/-- the hypotheses of `C54_makePositiveDefinite_potrf` are met by 4×4 panel matrices -/
example : PotrfArgs 4 demoMem ⟨.dynPanel, .columnMajor, 4, 4, 0⟩ ⟨.dynPanel, .columnMajor, 4, 4, 64⟩ ∧
    PotrfSizes ⟨.dynPanel, .columnMajor, 4, 4, 0⟩ ⟨.dynPanel, .columnMajor, 4, 4, 64⟩ ∧
    PotrfFits 4 1 4 ⟨.dynPanel, .columnMajor, 4, 4, 0⟩ ⟨.dynPanel, .columnMajor, 4, 4, 64⟩ := by
  refine ⟨⟨by decide, rfl, rfl, demo_live (by decide) (by decide) (by decide), demo_live (by decide) (by decide) (by decide), Or.inr (demo_apart (by decide))⟩,
    by decide, ⟨by decide, by decide, by decide, Or.inl (by decide), fun k h1 h2 _ => ?_, ?_⟩⟩
  · have h2 : k < 4 := h2
    obtain rfl : k = 0 := by omega
    decide
  · simp
end Blast
