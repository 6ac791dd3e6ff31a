import Verif.LuDet
import Verif.Props.Frame
import Verif.Props.MakePosDef
import Verif.Props.ReferenceAccuracy
/-
What the algorithms compute, as functions of the element values of their arguments: for an arbitrary scalar arithmetic. Used for C74 and C75.
-/
set_option linter.unusedSectionVars false
namespace Blast
open Prog Reg
variable {V : Type} [Arith V]

theorem fmaSum_congr' {a a' b b' : Nat → V} {c : V} (n : Nat) (ha : ∀ k, k < n → a k = a' k) (hb : ∀ k, k < n → b k = b' k) :
    fmaSum a b c n = fmaSum a' b' c n := fmaSum_congr rfl n ha hb

/-! ### trmm -/

/-- `v` is the element (r,c) left by trmm with an upper triangular left factor: `SS` is the tile size -/
def LeftVal (SS M N : Nat) (alpha : V) (a b : Nat → Nat → V) (r c : Nat) (v : V) : Prop :=
  ∃ p i, LeftTile SS M p i ∧ i ≤ r ∧ r < i + p * SS ∧
    v = if i + p * SS ≤ M ∧ c < N / SS * SS then trmmLFullEntry SS alpha (a r) (fun k => b k c) i (r - i) (p * SS) M
      else trmmLPartEntry alpha (a r) (fun k => b k c) i M

theorem LeftVal.unique {SS M N : Nat} {alpha : V} {a b : Nat → Nat → V} {r c : Nat} {v v' : V} (h : LeftVal SS M N alpha a b r c v)
    (h' : LeftVal SS M N alpha a b r c v') : v = v' := by
  obtain ⟨p, i, t, h1, h2, e⟩ := h
  obtain ⟨p', i', t', h1', h2', e'⟩ := h'
  obtain ⟨rfl, rfl⟩ := t.unique t' h1 h2 h1' h2'
  rw [e, e']

/-- the values left trmm stores, as a function of the values of its arguments -/
noncomputable def trmmLDet (SS M N : Nat) (alpha : V) (a b : Nat → Nat → V) (r c : Nat) : V :=
  @Classical.epsilon _ ⟨Arith.zero⟩ (LeftVal SS M N alpha a b r c)

theorem LeftVal.eq_det {SS M N : Nat} {alpha : V} {a b : Nat → Nat → V} {r c : Nat} {v : V} (h : LeftVal SS M N alpha a b r c v) :
    v = trmmLDet SS M N alpha a b r c :=
  h.unique (Classical.epsilon_spec_aux _ (LeftVal SS M N alpha a b r c) ⟨v, h⟩)

theorem det_trmmLeft_val {SS : Nat} {m : Mem V} {A B C : Container} (alpha : V) (h : TrmmLArgs SS m A B C) (hs : TrmmLSizes A B C)
    {a b : Nat → Nat → V} (ha : Contains SS m A a) (hb : Contains SS m B b) :
    ∃ m', trmmLeftCall SS 1 alpha A .upper false B C m = .ok () m' ∧ Contains SS m' C (trmmLDet SS B.rows B.cols alpha a b) ∧ OnlyElemsChange SS m m' C ∧
      ∀ i j, i < B.rows → j < B.cols → LeftVal SS B.rows B.cols alpha a b i j (trmmLDet SS B.rows B.cols alpha a b i j) := by
  have hp := h.pre hs
  obtain ⟨⟨e1, e2⟩, e3, e4⟩ := id hs
  have hav : ∀ i k, i < B.rows → k < B.rows → val m ((A.mptr SS).addr SS i k) = a i k :=
    fun i k hi hk => ha.holds.val (by omega) (by omega)
  have hbv : ∀ k j, k < B.rows → j < B.cols → val m ((B.mptr SS).addr SS k j) = b k j :=
    fun k j hk hj => hb.holds.val (by omega) (by omega)
  have spec : LeftSpec SS 1 B.rows B.cols alpha (A.mptr SS) (B.mptr SS) m (LeftVal SS B.rows B.cols alpha a b) := by
    constructor
    · intro i RM r j _ hr hM hj ht hjs
      obtain ⟨p, ht, rfl⟩ := ht
      rw [Nat.one_mul] at ht hjs
      rw [Nat.mul_one] at hr hM ⊢
      refine ⟨p, i, ht, by omega, by omega, ?_⟩
      rw [if_pos ⟨hM, hjs⟩, show i + r - i = r by omega]
      have hq : r / SS * SS ≤ r := Nat.div_mul_le_self r SS
      unfold trmmLFullEntry
      have e : fmaSum (fun t => Arith.mul alpha (if r ≤ r / SS * SS + t then val m ((A.mptr SS).addr SS (i + r : Nat) (i + (r / SS * SS + t) : Nat)) else Arith.zero))
          (fun t => val m ((B.mptr SS).addr SS (i + (r / SS * SS + t) : Nat) j)) Arith.zero (p * SS - r / SS * SS) =
          fmaSum (fun t => Arith.mul alpha (if r ≤ r / SS * SS + t then a (i + r) (i + (r / SS * SS + t)) else Arith.zero))
          (fun t => b (i + (r / SS * SS + t)) j) Arith.zero (p * SS - r / SS * SS) :=
        fmaSum_congr' _ (fun k hk => by rw [hav _ _ (by omega) (by omega)]) (fun k hk => hbv _ _ (by omega) hj)
      beta_reduce
      rw [e]
      exact fmaSum_congr' _ (fun k hk => by rw [hav _ _ (by omega) (by omega)]) (fun k hk => hbv _ _ (by omega) hj)
    · intro _ i row j hi hrow hj ht
      obtain ⟨p, ht, h1, h2⟩ := ht
      rw [Nat.one_mul] at ht h1 h2
      refine ⟨p, i, ht, hi, h1, ?_⟩
      rw [if_neg (by omega)]
      unfold trmmLPartEntry
      exact fmaSum_congr' _ (fun k hk => congrArg (Arith.mul alpha) (hav _ _ (by omega) (by omega))) (fun k hk => hbv _ _ (by omega) hj)
  obtain ⟨m', h1, h2, h3⟩ := trmmLeftPtr_runs hp spec
  refine ⟨m', by rw [trmmLeftCall_sizes hs]; exact h1, fun i j hi hj => ?_, fun z hz => h3 z (fun hc => hz ((cells_iff C z).1 (by rw [e3, e4]; exact hc))),
    fun i j hi hj => ?_⟩
  · obtain ⟨v, e, hv⟩ := h2 i j (by omega) (by omega)
    rw [Container.addr_eq_mptr, e, hv.eq_det]
  · obtain ⟨v, -, hv⟩ := h2 i j hi hj
    exact hv.eq_det ▸ hv

theorem det_trmmLeft {SS : Nat} {m : Mem V} {A B C : Container} (alpha : V) (h : TrmmLArgs SS m A B C) (hs : TrmmLSizes A B C)
    {a b : Nat → Nat → V} (ha : Contains SS m A a) (hb : Contains SS m B b) :
    ∃ m', trmmLeftCall SS 1 alpha A .upper false B C m = .ok () m' ∧ Contains SS m' C (trmmLDet SS B.rows B.cols alpha a b) ∧ OnlyElemsChange SS m m' C := by
  obtain ⟨m', h1, h2, h3, -⟩ := det_trmmLeft_val alpha h hs ha hb
  exact ⟨m', h1, h2, h3⟩

/-- the values right trmm stores, as a function of the values of its arguments -/
def trmmRDet (N : Nat) (alpha : V) (b a : Nat → Nat → V) (i j : Nat) : V :=
  fmaSum (fun t => Arith.mul alpha (b i (j + t))) (fun t => a (j + t) j) Arith.zero (N - j)

theorem det_trmmRight {SS : Nat} {m : Mem V} {A B C : Container} (alpha : V) (h : TrmmRArgs SS m B A C) (hs : TrmmRSizes B A C)
    {a b : Nat → Nat → V} (ha : ContainsLower SS m A a) (hb : Contains SS m B b) :
    ∃ m', trmmRightCall SS 1 alpha B A .lower false C m = .ok () m' ∧ Contains SS m' C (trmmRDet B.cols alpha b a) ∧ OnlyElemsChange SS m m' C := by
  obtain ⟨m', h1, h2, h3⟩ := trmmRightPtr_correct (alpha := alpha) (h.pre hs) false (fun hh => by cases hh)
  rw [trmmRightCall_sizes hs]
  obtain ⟨⟨e1, e2⟩, e3, e4⟩ := hs
  refine ⟨m', h1, fun i j hi hj => ?_, fun z hz => h3 z (fun hc => hz ((cells_iff C z).1 (by rw [e3, e4]; exact hc)))⟩
  rw [Container.addr_eq_mptr, h2 i j (by omega) (by omega)]
  unfold trmmREntry trmmRDet
  rw [fmaSum_congr' (a' := fun t => Arith.mul alpha (b i (j + t))) (b' := fun t => a (j + t) j) _ (fun t ht => ?_) (fun t ht => ?_)]
  · exact congrArg (Arith.mul alpha) (hb.holds.val (by omega) (by omega))
  · have := ha (j + t) j (by omega) (by omega) (by omega)
    rw [Container.addr_eq_mptr] at this
    exact val_some this

/-! ### syrk -/

def syrkDet (K : Nat) (alpha beta : V) (a c d : Nat → Nat → V) (i j : Nat) : V :=
  if j ≤ i then fmaSum (fun k => Arith.mul alpha (a i k)) (fun k => a j k) (Arith.mul beta (c i j)) K else d i j

theorem det_syrk {SS : Nat} {m : Mem V} {A C D : Container} (alpha beta : V) (h : SyrkArgs SS m A C D) (hs : SyrkSizes A C D)
    {a c d : Nat → Nat → V} (ha : Contains SS m A a) (hc : ContainsLower SS m C c) (hd : Contains SS m D d) :
    ∃ m', syrkCall SS 1 alpha A beta C D m = .ok () m' ∧ Contains SS m' D (syrkDet A.cols alpha beta a c d) ∧
      (∀ z, ¬ IsLowerElem SS D z → m' z = m z) := by
  obtain ⟨m', h1, h2, h3⟩ := syrkPtr_correct (alpha := alpha) (beta := beta) (h.pre hs)
  rw [syrkCall_sizes hs]
  obtain ⟨⟨e1, e2⟩, e3, e4⟩ := hs
  have hfr : ∀ z, ¬ IsLowerElem SS D z → m' z = m z := fun z hz => h3 z (fun i j hi hj hx => hz
    ⟨i, j, by omega, by omega, hj, by rw [Container.addr_eq_mptr]; exact hx⟩)
  refine ⟨m', h1, fun i j hi hj => ?_, hfr⟩
  unfold syrkDet
  by_cases hji : j ≤ i
  · rw [if_pos hji, Container.addr_eq_mptr, h2 i j (by omega) hji]
    have ec : val m ((C.mptr SS).addr SS i j) = c i j := by
      have := hc i j hji (by omega) (by omega)
      rw [Container.addr_eq_mptr] at this
      exact val_some this
    unfold syrkEntry
    rw [ec, fmaSum_congr' (a' := fun k => Arith.mul alpha (a i k)) (b' := fun k => a j k) _ (fun k hk => ?_) (fun k hk => ?_)]
    · exact congrArg (Arith.mul alpha) (ha.holds.val (by omega) hk)
    · exact ha.holds.val (by omega) hk
  · rw [if_neg hji, hfr _ (fun hc => ?_)]
    · exact hd i j hi hj
    · obtain ⟨i', j', hi', hj', hle, he⟩ := hc
      have := D.inj h.ss i j i' j' hi hj hi' hj' (by rw [← Container.addr_eq_mptr, ← Container.addr_eq_mptr]; exact he)
      omega

/-! ### trsm -/

noncomputable def trsmDet (uplo : UpLo) (unit : Bool) (M : Nat) (a b : Nat → Nat → V) (i j : Nat) : V := trsmSol uplo unit M a (fun i => b i j) i

/-- the elements of `A` that trsm uses -/
def ContainsTri (SS : Nat) (m : Mem V) (A : Container) (uplo : UpLo) (unit : Bool) (a : Nat → Nat → V) : Prop :=
  ∀ i j, i < A.rows → j < A.cols → TriRef uplo unit i j → m (A.addr SS i j) = some (a i j)

theorem Contains.tri {SS : Nat} {m : Mem V} {A : Container} {a : Nat → Nat → V} (h : Contains SS m A a) (uplo : UpLo) (unit : Bool) :
    ContainsTri SS m A uplo unit a := fun i j hi hj _ => h i j hi hj

theorem det_trsm {SS : Nat} {m : Mem V} {A B X : Container} (uplo : UpLo) (unit : Bool) (h : TrsmArgs SS m A B X)
    (hs : (A.rows = B.rows ∧ A.cols = B.rows) ∧ X.rows = B.rows ∧ X.cols = B.cols) {a b : Nat → Nat → V}
    (ha : ContainsTri SS m A uplo unit a) (hb : Contains SS m B b) :
    ∃ m', trsmCall SS uplo unit A B X m = .ok () m' ∧ Contains SS m' X (trsmDet uplo unit B.rows a b) ∧ OnlyElemsChange SS m m' X := by
  have e0 : trsmCall SS uplo unit A B X m = trsmPtr SS B.rows B.cols uplo unit (A.mptr SS) (B.mptr SS) (X.mptr SS) m := by
    show trsmMat SS uplo unit (A.mat SS) (B.mat SS) (X.mat SS) m = _
    rw [C27_trsm_size_check]
    exact if_pos hs
  obtain ⟨⟨h1, h2⟩, h3, h4⟩ := hs
  obtain ⟨m', e1, e2, e3⟩ := trsmPtr_det (SS := SS) (m := B.rows) (n := B.cols) (A := A.mptr SS) (X := X.mptr SS) (B := B.mptr SS) uplo unit
      (mem := m) (a := a) (b := b)
      (fun i k hi hk hr => ⟨by rw [← Container.addr_eq_mptr]; exact ha i k (by omega) (by omega) hr, fun hc => by
        obtain ⟨i', j', hi', hj', he⟩ := hc
        exact h.dA.disj h.ss i k i' j' (by omega) (by omega) (by omega) (by omega) he⟩)
      (fun i j hi hj => h.lX.readable h.ss i j (by omega) (by omega))
      (fun i j i' j' hi hj hi' hj' he => X.inj h.ss i j i' j' (by omega) (by omega) (by omega) (by omega) he)
      hb.holds
      (by
        intro i j i' j' hi hj hi' hj' he
        rcases h.dB with rfl | hd
        · exact B.inj h.ss i j i' j' (by omega) (by omega) (by omega) (by omega) he
        · exact absurd he (hd.disj h.ss i j i' j' (by omega) (by omega) (by omega) (by omega)))
  refine ⟨m', e0.trans e1, fun i j hi hj => by rw [Container.addr_eq_mptr]; exact e2 i j (by omega) (by omega),
    fun z hz => e3 z (fun hc => hz ((cells_iff X z).1 (by rw [h3, h4]; exact hc)))⟩

/-! ### potrf -/

/-- the recurrences of the lower triangle and, if `up`, of the elements above the diagonal in the diagonal tiles -/
def PotAll (SS KN M N : Nat) (up : Bool) (a l : Nat → Nat → V) : Prop :=
  (∀ r c, c ≤ r → r < M → c < N → PotRec SS KN M l a r c) ∧
  (up = true → ∀ r c, c / KN * KN ≤ r → r < c → c < N → PotUp SS KN l a r c)

theorem PotAll.unique {SS KN M N : Nat} {up : Bool} (hKN : 0 < KN) (hT : KN ≤ SS) (hNM : N ≤ M) {a l l' : Nat → Nat → V} (h : PotAll SS KN M N up a l)
    (h' : PotAll SS KN M N up a l') :
    (∀ r c, c ≤ r → r < M → c < N → l r c = l' r c) ∧ (up = true → ∀ r c, c / KN * KN ≤ r → r < c → c < N → l r c = l' r c) := by
  have hlow := PotRec.unique hKN hT hNM (fun _ _ _ _ _ => rfl) h.1 h'.1
  refine ⟨fun r c => hlow c r, fun hu r c => ?_⟩
  induction c using Nat.strong_induction_on with
  | _ c ih =>
    intro hr hrc hc
    have hrow : ∀ q, q < c → l r q = l' r q := by
      intro q hq
      by_cases hqr : q ≤ r
      · exact hlow q r hqr (by omega) (by omega)
      · refine ih q hq ?_ (by omega) (by omega)
        exact Nat.le_trans (Nat.mul_le_mul_right _ (Nat.div_le_div_right (by omega))) hr
    have hcol : ∀ q, q ≤ c → l c q = l' c q := fun q hq => hlow q c hq (by omega) (by omega)
    have e := h.2 hu r c hr hrc hc
    have e' := h'.2 hu r c hr hrc hc
    unfold PotUp at e e'
    rw [e, e', potS_congr rfl hrow (fun q hq => hcol q (by omega)), potS_congr rfl (fun q hq => hcol q (by omega)) (fun q hq => hcol q (by omega))]

/-- the factor computed by potrf, as a function of the lower triangle -/
noncomputable def potSol (SS KN M N : Nat) (up : Bool) (a : Nat → Nat → V) : Nat → Nat → V :=
  @Classical.epsilon _ ⟨fun _ _ => Arith.zero⟩ (PotAll SS KN M N up a)

theorem PotAll.sol {SS KN M N : Nat} {up : Bool} {a l : Nat → Nat → V} (h : PotAll SS KN M N up a l) : PotAll SS KN M N up a (potSol SS KN M N up a) :=
  Classical.epsilon_spec_aux _ (PotAll SS KN M N up a) ⟨l, h⟩

/-- the matrix left in L; `old`: the previous elements of L -/
noncomputable def potDenseDet (SS M N : Nat) (a old : Nat → Nat → V) (r c : Nat) : V :=
  if c ≤ r then potSol SS 4 M N false (fun r c => Arith.mul Arith.one (a r c)) r c else old r c

/-- the values panel potrf stores -/
noncomputable def potPanelDet (SS KN M N : Nat) (a old : Nat → Nat → V) (r c : Nat) : V :=
  if c / KN * KN ≤ r then potSol SS KN M N true a r c else old r c

theorem some_val {m : Mem V} {x : Int} (h : (m x).isSome = true) : m x = some (val m x) := by
  unfold val
  cases hx : m x with
  | none => rw [hx] at h; cases h
  | some v => rfl

theorem det_potrfDense_all {SS : Nat} {m : Mem V} {A L : Container} (h : PotrfArgs SS m A L) (hs : PotrfSizes A L) (hf : PotrfFits SS 1 4 A L)
    {a old : Nat → Nat → V} (ha : ContainsLower SS m A a) (hl : ∀ i j, i < j → i < L.rows → j < L.cols → m (L.addr SS i j) = some (old i j)) :
    ∃ m', potrfDenseCall SS 1 A L m = .ok () m' ∧ Contains SS m' L (potDenseDet SS A.rows A.cols a old) ∧
      (∀ z, ¬ L.Storage SS z → m' z = m z) ∧
      PotAll SS 4 A.rows A.cols false (fun r c => Arith.mul Arith.one (a r c)) (potSol SS 4 A.rows A.cols false (fun r c => Arith.mul Arith.one (a r c))) := by
  obtain ⟨m', e, e1, e2, e3⟩ := potrfDenseCall_spec h hs hf
  obtain ⟨n', f, f1, f2⟩ := C16_potrf_dense_frame h hs hf
  have e'' : Res.ok () n' = Res.ok () m' := f.symm.trans e
  cases e''
  obtain ⟨s1, s2, s3⟩ := hs
  have hall : PotAll SS 4 A.rows A.cols false (fun r c => Arith.mul Arith.one (a r c)) (fun r c => val m' ((L.mptr SS).addr SS r c)) := by
    refine ⟨fun r c hcr hr hc => ?_, fun hu => by cases hu⟩
    have hv : ∀ r c, c ≤ r → r < A.rows → c < A.cols → val m ((A.mptr SS).addr SS r c) = a r c := fun r c hcr hr hc => by
      have := ha r c hcr hr hc
      rw [Container.addr_eq_mptr] at this
      exact val_some this
    have := e3 r c hcr hr hc
    rw [Nat.one_mul] at this
    exact this.congr (fun _ _ => rfl) (fun _ _ => rfl) (by rw [hv r c hcr hr hc]) (by rw [hv c c (Nat.le_refl _) (by omega) hc])
  refine ⟨m', e, fun i j hi hj => ?_, f1, hall.sol⟩
  unfold potDenseDet
  by_cases hji : j ≤ i
  · rw [if_pos hji]
    rw [← (hall.unique (by omega) (by have := hf.knT; omega) (by omega) hall.sol).1 i j hji (by omega) (by omega), Container.addr_eq_mptr]
    refine some_val ?_
    refine e2 _ ?_
    rw [← Container.addr_eq_mptr]
    exact h.lL.alloc _ (L.addr_storage h.ss hi hj)
  · rw [if_neg hji, f2 i j (by omega) hi hj]
    exact hl i j (by omega) hi hj

theorem det_potrfDense {SS : Nat} {m : Mem V} {A L : Container} (h : PotrfArgs SS m A L) (hs : PotrfSizes A L) (hf : PotrfFits SS 1 4 A L)
    {a old : Nat → Nat → V} (ha : ContainsLower SS m A a) (hl : ∀ i j, i < j → i < L.rows → j < L.cols → m (L.addr SS i j) = some (old i j)) :
    ∃ m', potrfDenseCall SS 1 A L m = .ok () m' ∧ Contains SS m' L (potDenseDet SS A.rows A.cols a old) ∧
      (∀ z, ¬ L.Storage SS z → m' z = m z) := by
  obtain ⟨m', h1, h2, h3, -⟩ := det_potrfDense_all h hs hf ha hl
  exact ⟨m', h1, h2, h3⟩

theorem det_potrfPanel_all {SS KN : Nat} {m : Mem V} {A L : Container} (h : PotrfArgs SS m A L) (hs : PotrfSizes A L) (hf : PotrfFits SS 1 KN A L)
    {a old : Nat → Nat → V} (ha : Contains SS m A a) (hl : ∀ i j, i < j / KN * KN → i < L.rows → j < L.cols → m (L.addr SS i j) = some (old i j)) :
    ∃ m', potrfPanelCall SS KN A L m = .ok () m' ∧ Contains SS m' L (potPanelDet SS KN A.rows A.cols a old) ∧
      (∀ z, ¬ L.Storage SS z → m' z = m z) ∧
      PotAll SS KN A.rows A.cols true a (potSol SS KN A.rows A.cols true a) := by
  obtain ⟨m', e, ⟨e1, e2, e3⟩, e4⟩ := potrfPanelCall_spec' h hs hf
  obtain ⟨n', f, f1, f2⟩ := C17_potrf_panel_frame h hs hf
  have e'' : Res.ok () n' = Res.ok () m' := f.symm.trans e
  cases e''
  obtain ⟨s1, s2, s3⟩ := hs
  have hv : ∀ r c, r < A.rows → c < A.cols → val m ((A.mptr SS).addr SS r c) = a r c := fun r c hr hc => ha.holds.val hr hc
  have hall : PotAll SS KN A.rows A.cols true a (fun r c => val m' ((L.mptr SS).addr SS r c)) := by
    refine ⟨fun r c hcr hr hc => ?_, fun _ r c hr hrc hc => ?_⟩
    · have := e3 r c hcr hr hc
      rw [Nat.one_mul] at this
      exact this.congr (fun _ _ => rfl) (fun _ _ => rfl) (hv r c hr hc) (hv c c (by omega) hc)
    · exact (e4 r c hr hrc hc).congr (fun _ _ => rfl) (fun _ _ => rfl) (hv r c (by omega) hc) (hv c c (by omega) hc)
  refine ⟨m', e, fun i j hi hj => ?_, f1, hall.sol⟩
  unfold potPanelDet
  have hsome : m' ((L.mptr SS).addr SS i j) = some (val m' ((L.mptr SS).addr SS i j)) := by
    refine some_val (e2 _ ?_)
    rw [← Container.addr_eq_mptr]
    exact h.lL.alloc _ (L.addr_storage h.ss hi hj)
  have hu := hall.unique hf.kn (by have := hf.knT; omega) (by omega) hall.sol
  by_cases hji : j / KN * KN ≤ i
  · rw [if_pos hji, Container.addr_eq_mptr, hsome]
    by_cases h2 : j ≤ i
    · rw [← hu.1 i j h2 (by omega) (by omega)]
    · rw [← hu.2 rfl i j hji (by omega) (by omega)]
  · rw [if_neg hji, f2 i j (by omega) hi hj]
    exact hl i j (by omega) hi hj

theorem det_potrfPanel {SS KN : Nat} {m : Mem V} {A L : Container} (h : PotrfArgs SS m A L) (hs : PotrfSizes A L) (hf : PotrfFits SS 1 KN A L)
    {a old : Nat → Nat → V} (ha : Contains SS m A a) (hl : ∀ i j, i < j / KN * KN → i < L.rows → j < L.cols → m (L.addr SS i j) = some (old i j)) :
    ∃ m', potrfPanelCall SS KN A L m = .ok () m' ∧ Contains SS m' L (potPanelDet SS KN A.rows A.cols a old) ∧
      (∀ z, ¬ L.Storage SS z → m' z = m z) := by
  obtain ⟨m', h1, h2, h3, -⟩ := det_potrfPanel_all h hs hf ha hl
  exact ⟨m', h1, h2, h3⟩

/-! ### LU and row interchanges -/

/-- how the run of a factorization ended: the elements of `A` and the pivots are `r` -/
def LuEnds (SS : Nat) (A : Container) (p : Prog V (Nat → Nat)) (m : Mem V) (r : (Nat → Nat → V) × Option (Nat → Nat)) : Prop :=
  ∃ m', (match r.2 with
    | some q => p m = .ok q m'
    | none => p m = .throw .invalidArgument m') ∧ Contains SS m' A r.1 ∧ OnlyElemsChange SS m m' A

theorem RunsLu.ends {SS : Nat} {A : Container} {p : Prog V (Nat → Nat)} {m : Mem V} {r : (Nat → Nat → V) × Option (Nat → Nat)}
    (h : RunsLu (SS := SS) (M := A.rows) (N := A.cols) (A.mptr SS) p m m r) : LuEnds SS A p m r := by
  have key : ∀ m', MatIn SS A.rows A.cols (A.mptr SS) m m' r.1 → Contains SS m' A r.1 ∧ OnlyElemsChange SS m m' A := fun m' hm =>
    ⟨fun i j hi hj => by rw [Container.addr_eq_mptr]; exact hm.holds i j hi hj, fun z hz => hm.frame z (fun hc => hz ((cells_iff A z).1 hc))⟩
  rcases h with ⟨q, m', e, e1, e2⟩ | ⟨x, m', e, rfl, e1, e2⟩
  · exact ⟨m', by rw [e1]; exact e, key m' e2⟩
  · exact ⟨m', by rw [e1]; exact e, key m' e2⟩

theorem det_getf2 {SS : Nat} (hSS : 0 < SS) {m : Mem V} {A : Container} (hd : A.isPanel = false) (hs : A.so = .columnMajor) (hl : Live SS m A)
    {a : Nat → Nat → V} (ha : Contains SS m A a) (ip : Nat → Nat) :
    LuEnds SS A (getf2Ptr SS 1 A.rows A.cols (A.mptr SS) ip) m (luFull Arith.div updCol A.rows a ip (min A.rows A.cols)) :=
  (getf2Ptr_det (LuPre.of_live hSS hd hs hl).toLuPre ha.holds ip).ends

theorem det_getf2Row {SS : Nat} (hSS : 0 < SS) (dv : V → V → V) {m : Mem V} {A : Container} (hd : A.isPanel = false)
    {a : Nat → Nat → V} (ha : Contains SS m A a) (ip : Nat → Nat) :
    LuEnds SS A (getf2Row SS dv (A.mat SS) ip) m (luFull dv updRow A.rows a ip (min A.rows A.cols)) :=
  RunsLu.ends (getf2Row_det hSS dv (A := A.mat SS) (by show (A.mptr SS).panel = false; rw [Container.mptr_eq]; exact hd) (A.inj hSS) ha.holds ip)

theorem det_getrf {SS : Nat} (hSS : 0 < SS) {m : Mem V} {A : Container} (hd : A.isPanel = false) (hs : A.so = .columnMajor) (hl : Live SS m A)
    {a : Nat → Nat → V} (ha : Contains SS m A a) (ip : Nat → Nat) :
    LuEnds SS A (getrfPtr SS 1 A.rows A.cols (A.mptr SS) ip) m (getrfFull SS A.rows A.cols a ip) := by
  have := (det_getrfPtr (LuPre.of_live hSS hd hs hl) ip ha.holds).ends
  rwa [Nat.one_mul] at this

theorem det_getrfRow {SS : Nat} (hSS : 0 < SS) (dv : V → V → V) {m : Mem V} {A : Container}
    {a : Nat → Nat → V} (ha : Contains SS m A a) (ip : Nat → Nat) :
    LuEnds SS A (getrfRow SS dv (A.mat SS) ip) m (elimRun dv a (min A.rows A.cols), some (fun k => if k < min A.rows A.cols then k else ip k)) := by
  obtain ⟨q, m', e, e1, rfl⟩ := runs_getrfRow (SS := SS) dv (A := A.mat SS) (m0 := m) (A.inj hSS) ha.holds ip
  exact ⟨m', e, fun i j hi hj => by rw [Container.addr_eq_mptr]; exact e1.holds i j hi hj, fun z hz => e1.frame z (fun hc => hz ((cells_iff A z).1 hc))⟩

/-! ### makePositiveDefinite -/

def makePosDet (N : Nat) (rnd : Nat → Nat → V) (etN : V) (i j : Nat) : V :=
  let v := Arith.add (Arith.mul Arith.one (addFold (fun k => Arith.mul (rnd i k) (rnd j k)) Arith.zero 0 N)) (Arith.mul Arith.zero Arith.zero)
  if i = j then Arith.add v etN else v

theorem det_makePositiveDefinite {SS : Nat} (hSS : 0 < SS) {m : Mem V} {e : MExpr}
    (hd : e.isPanel = false) (hf : e.Fits) (hl : Live SS m e.base) (hsq : e.rows = e.cols) {t : Int} (ht : t % (SS : Int) = 0)
    (hfree : ∀ x, (⟨.dynDense, .columnMajor, e.cols, e.cols, t⟩ : Container).Storage SS x → m x = none)
    (R : Nat → Nat → V) (etN : V) :
    ∃ m', makePositiveDefinite SS t R etN e m = .ok () m' ∧
      Elems SS m' e (makePosDet e.cols R etN) ∧
      (∀ x, ¬ Owned SS e x → m' x = m x) := by
  let tmp : Container := ⟨.dynDense, .columnMajor, e.cols, e.cols, t⟩
  have hdis : ∀ x, tmp.Storage SS x → ¬ e.base.Storage SS x := by
    intro x hx hx'
    have := hl.alloc x hx'
    rw [hfree x hx] at this; cases this
  -- construction
  let m1 : Mem V := fun x => if t ≤ x ∧ x < t + tmp.capacity SS then some Arith.zero else m x
  have e1 : (tmp.construct SS : Prog V Unit) m = .ok () m1 := rfl
  have lt1 : Live SS m1 tmp := ⟨ht, fun x hx => by
    show (if t ≤ x ∧ x < t + tmp.capacity SS then some Arith.zero else m x).isSome = true
    rw [if_pos (show t ≤ x ∧ x < t + tmp.capacity SS from hx)]; rfl⟩
  have n1 : ∀ x, ¬ tmp.Storage SS x → m1 x = m x := fun x hx => if_neg hx
  -- random numbers
  obtain ⟨m2, e2, v2, n2⟩ := C43_randomize (e := .obj tmp) hSS (show (MExpr.obj tmp).Fits from trivial) lt1 R
  have n2' : ∀ x, ¬ tmp.Storage SS x → m2 x = m x := by
    intro x hx
    rw [n2 x, n1 x hx]
    rintro ⟨i, j, hi, hj, rfl⟩
    exact hx (tmp.addr_storage hSS hi hj)
  have l2 : Live SS m2 e.base := ⟨hl.align, fun x hx => by
    rw [n2' x (fun h => hdis x h hx)]; exact hl.alloc x hx⟩
  -- reset
  obtain ⟨m3, e3, v3, n3⟩ := reset_runs hSS hd hf l2
  have v2' : ∀ i j, i < e.cols → j < e.cols → m3 (tmp.addr SS i j) = some (R i j) := by
    intro i j hi hj
    rw [n3 _ (fun h => hdis _ (tmp.addr_storage hSS hi hj) (owned_storage hSS e hf h))]
    exact elems_iff.1 v2 i j hi hj
  -- product
  have ad : ∀ i j : Nat, (e.mptr SS).addr SS i j = e.addr SS i j := fun i j => e.mptr_addr_dense hSS hd i j
  have adT : ∀ i j : Nat, ((MExpr.obj tmp).mptr SS).addr SS i j = tmp.addr SS i j :=
    fun i j => (MExpr.obj tmp).mptr_addr_dense hSS rfl i j
  have adTT : ∀ i j : Nat, ((MExpr.obj tmp).trans.mptr SS).addr SS i j = tmp.addr SS j i :=
    fun i j => (MExpr.obj tmp).trans.mptr_addr_dense hSS rfl i j
  have hp : (e.mptr SS).panel = true → (e.mptr SS).ptr % (SS : Int) = 0 := by
    have : (e.mptr SS).panel = e.isPanel := by rw [MExpr.mptr_fields hSS]
    rw [this, hd]; intro h; cases h
  have dis : ∀ i j i' j' : Nat, i < e.cols → j < e.cols → i' < e.cols → j' < e.cols → tmp.addr SS i j ≠ e.addr SS i' j' := by
    intro i j i' j' hi hj hi' hj' he
    refine hdis _ (tmp.addr_storage hSS hi hj) ?_
    rw [he]; exact e.addr_storage hSS hf (by omega) hj'
  obtain ⟨m4, e4, v4, n4⟩ := refGemm_bitwise (M := e.cols) (N := e.cols) (K := e.cols) (mem := m3)
    (A := (MExpr.obj tmp).mptr SS) (B := (MExpr.obj tmp).trans.mptr SS) (C := e.mptr SS) (D := e.mptr SS)
    (a := fun i j => R i j) (b := fun i j => R j i) (c := fun _ _ => (Arith.zero : V)) hSS
    (by intro h; rw [MExpr.mptr_fields hSS] at h; cases h) (by intro h; rw [MExpr.mptr_fields hSS] at h; cases h) hp hp
    (Arith.one : V) (Arith.zero : V)
    (fun i j hi hj => by rw [adT]; exact v2' i j hi hj) (fun i j hi hj => by rw [adTT]; exact v2' j i hj hi)
    (fun i j hi hj => by rw [ad, v3 i j (by omega) hj])
    (fun i j hi hj => by rw [ad, v3 i j (by omega) hj]; rfl)
    (fun i j i' j' hi hj hi' hj' h => e.addr_inj hSS hf (by omega) hj (by omega) hj' (by rwa [ad, ad] at h))
    (fun i j i' j' hi hj hi' hj' => by rw [adT, ad]; exact dis i j i' j' hi hj hi' hj')
    (fun i j i' j' hi hj hi' hj' => by rw [adTT, ad]; exact dis j i i' j' hj hi hi' hj')
    (fun i j i' j' hi hj hi' hj' h => e.addr_inj hSS hf (by omega) hj (by omega) hj' (by rwa [ad, ad] at h))
  have e4' : (refGemmMat SS Arith.one ((MExpr.obj tmp).mat SS) ((MExpr.obj tmp).trans.mat SS) Arith.zero (e.mat SS) (e.mat SS) :
      Prog V Unit) m3 = .ok () m4 := by
    unfold refGemmMat
    have r1 : ((MExpr.obj tmp).mat SS).rows = e.cols := rfl
    have r2 : ((MExpr.obj tmp).mat SS).cols = e.cols := rfl
    have r3 : ((MExpr.obj tmp).trans.mat SS).rows = e.cols := rfl
    have r4 : ((MExpr.obj tmp).trans.mat SS).cols = e.cols := rfl
    have r5 : (e.mat SS).rows = e.cols := hsq
    have r6 : (e.mat SS).cols = e.cols := rfl
    rw [r1, r2, r3, r4, r5, r6, if_neg (by simp), if_neg (by simp), if_neg (by simp)]
    exact e4
  -- diagonal
  have v4' : ∀ i j, i < e.rows → j < e.cols → m4 (e.addr SS i j) = some (Arith.add (Arith.mul Arith.one (addFold (fun k => Arith.mul (R i k) (R j k)) Arith.zero 0 e.cols)) (Arith.mul Arith.zero Arith.zero)) := by
    intro i j hi hj
    rw [← ad, v4 i j (by omega) hj]
  obtain ⟨m5, e5, v5, n5⟩ := addDiag_runs hSS hf hsq v4' etN
  have frame : ∀ x, ¬ tmp.Storage SS x → ¬ Owned SS e x → m5 x = m x := by
    intro x h1 h2
    rw [n5 x, n4 x, n3 x h2, n2' x h1]
    · rintro ⟨i, j, hi, hj, rfl⟩
      rw [ad] at h2
      exact h2 (owned_elem hSS e (by omega) hj)
    · rintro ⟨i, j, hi, hj, rfl⟩
      exact h2 (owned_elem hSS e hi hj)
  refine ⟨fun x => if t ≤ x ∧ x < t + tmp.capacity SS then none else m5 x, ?_, elems_iff.2 (fun i j hi hj => ?_), fun x hx => ?_⟩
  · unfold makePositiveDefinite
    rw [if_neg (by omega)]
    show (tmp.construct SS >>= fun _ => _) m = _
    rw [bind_ok e1, bind_ok e2, bind_ok e3, bind_ok e4', bind_ok e5]
    rfl
  · have : ¬ tmp.Storage SS (e.addr SS i j) := fun h => hdis _ h (e.addr_storage hSS hf hi hj)
    show (if t ≤ e.addr SS i j ∧ e.addr SS i j < t + tmp.capacity SS then none else m5 (e.addr SS i j)) = _
    rw [if_neg (show ¬ (t ≤ e.addr SS i j ∧ e.addr SS i j < t + tmp.capacity SS) from this), v5 i j hi hj]
    rfl
  · by_cases h1 : tmp.Storage SS x
    · rw [hfree x h1]; exact if_pos h1
    · refine (if_neg h1).trans (frame x h1 hx)

end Blast
