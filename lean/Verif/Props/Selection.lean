import Verif.Selection
import Verif.Props.NanProp
import Verif.Props.Reproducible
import Verif.Eval
/- Concrete cases meeting the hypotheses of these theorems: Verif/Cases/Selection.lean. -/
/-
C77: batch invariance. A call on selected rows and columns of the arguments gives, bit for bit, the selected elements of the result.
-/
set_option linter.unusedSectionVars false
namespace Blast
open Prog Reg
variable {V : Type} [Arith V]

/-- The call `p` made in memory `m`, with result object `C`, and the call `q` made in memory `n`, with result object `D`, end in the same way, and afterwards
element (i, j) of `D`, for the (i, j) of the set `W`, is element (ρ i, γ j) of `C`. -/
def Selects {α : Type} (W : Nat → Nat → Prop) (ρ γ : Nat → Nat) (SS : Nat) (p : Prog V α) (m : Mem V) (C : Container) (SS' : Nat) (q : Prog V α) (n : Mem V)
    (D : Container) : Prop :=
  ∃ (r : Except Exn α) (m' n' : Mem V) (f g : Nat → Nat → V), Ends p m r m' ∧ Ends q n r n' ∧ Contains SS m' C f ∧ Contains SS' n' D g ∧
    ∀ i j, i < D.rows → j < D.cols → W i j → g i j = f (ρ i) (γ j)

/-- all elements -/
def Everywhere : Nat → Nat → Prop := fun _ _ => True
/-- the elements on and below the diagonal -/
def OnLower : Nat → Nat → Prop := fun i j => j ≤ i

/-- `ρ` maps the indices below `n'` to indices below `n` -/
def Into (ρ : Nat → Nat) (n' n : Nat) : Prop := ∀ i, i < n' → ρ i < n

/-- **C77** (gemm). Rows ρ of A and C, columns γ of B and C, in any order and number, on any SIMD width. -/
theorem C77_gemm {SS SS' : Nat} {m n : Mem V} {A B C D A' B' C' D' : Container} (alpha beta : V)
    (h : GemmArgs SS m A B C D) (hs : GemmSizes A B C D) (h' : GemmArgs SS' n A' B' C' D') (hs' : GemmSizes A' B' C' D')
    (hK : A'.cols = A.cols) {ρ γ : Nat → Nat} (hρ : Into ρ A'.rows A.rows) (hγ : Into γ B'.cols B.cols)
    {a b c : Nat → Nat → V} (ha : Contains SS m A a) (hb : Contains SS m B b) (hc : Contains SS m C c)
    (ha' : Contains SS' n A' (fun i k => a (ρ i) k)) (hb' : Contains SS' n B' (fun k j => b k (γ j))) (hc' : Contains SS' n C' (fun i j => c (ρ i) (γ j))) :
    Selects Everywhere ρ γ SS (gemmCall SS alpha A B beta C D) m D SS' (gemmCall SS' alpha A' B' beta C' D') n D' ∧ Into ρ D'.rows D.rows ∧ Into γ D'.cols D.cols := by
  obtain ⟨m', e, e1⟩ := C04_gemm_bitwise alpha beta h hs ha hb hc
  obtain ⟨n', f, f1⟩ := C04_gemm_bitwise alpha beta h' hs' ha' hb' hc'
  rw [hK] at f1
  obtain ⟨s1, s2, s3⟩ := hs
  obtain ⟨t1, t2, t3⟩ := hs'
  exact ⟨⟨.ok (), m', n', _, _, e, f, e1, f1, fun i j _ _ _ => rfl⟩, fun i hi => by have := hρ i (by omega); omega, fun i hi => by have := hγ i (by omega); omega⟩

/-- **C77** (ger). -/
theorem C77_ger {SS SS' : Nat} {m n : Mem V} {x y x' y' : VObj} {A B A' B' : Container} (alpha : V)
    (h : GerArgs SS m x y A B) (hs : GerSizes x y A B) (h' : GerArgs SS' n x' y' A' B') (hs' : GerSizes x' y' A' B')
    {ρ γ : Nat → Nat} (hρ : Into ρ A'.rows A.rows) (hγ : Into γ A'.cols A.cols)
    {xv yv : Nat → V} {a : Nat → Nat → V} (hx : VContains m x xv) (hy : VContains m y yv) (ha : Contains SS m A a)
    (hx' : VContains n x' (fun i => xv (ρ i))) (hy' : VContains n y' (fun j => yv (γ j))) (ha' : Contains SS' n A' (fun i j => a (ρ i) (γ j))) :
    Selects Everywhere ρ γ SS (gerCall SS 1 alpha x y A B) m B SS' (gerCall SS' 1 alpha x' y' A' B') n B' ∧ Into ρ B'.rows B.rows ∧ Into γ B'.cols B.cols := by
  obtain ⟨m', e, e1⟩ := det_ger alpha h hs hx hy ha
  obtain ⟨n', f, f1⟩ := det_ger alpha h' hs' hx' hy' ha'
  obtain ⟨s1, s2, s3⟩ := hs
  obtain ⟨t1, t2, t3⟩ := hs'
  exact ⟨⟨.ok (), m', n', _, _, e, f, e1, f1, fun i j _ _ _ => rfl⟩, fun i hi => by have := hρ i (by omega); omega, fun i hi => by have := hγ i (by omega); omega⟩

/-- **C77** (syrkLower). Rows ρ of A, in increasing order, rows and columns ρ of C: the lower triangle of the result. -/
theorem C77_syrk {SS SS' : Nat} {m n : Mem V} {A C D A' C' D' : Container} (alpha beta : V)
    (h : SyrkArgs SS m A C D) (hs : SyrkSizes A C D) (h' : SyrkArgs SS' n A' C' D') (hs' : SyrkSizes A' C' D')
    (hK : A'.cols = A.cols) {ρ : Nat → Nat} (hρ : Into ρ A'.rows A.rows) (hmono : ∀ i j, j ≤ i → i < A'.rows → ρ j ≤ ρ i)
    {a c d d' : Nat → Nat → V} (ha : Contains SS m A a) (hc : ContainsLower SS m C c) (hd : Contains SS m D d)
    (ha' : Contains SS' n A' (fun i k => a (ρ i) k)) (hc' : ContainsLower SS' n C' (fun i j => c (ρ i) (ρ j))) (hd' : Contains SS' n D' d') :
    Selects OnLower ρ ρ SS (syrkCall SS 1 alpha A beta C D) m D SS' (syrkCall SS' 1 alpha A' beta C' D') n D' ∧ Into ρ D'.rows D.rows := by
  obtain ⟨m', e, e1, -⟩ := det_syrk alpha beta h hs ha hc hd
  obtain ⟨n', f, f1, -⟩ := det_syrk alpha beta h' hs' ha' hc' hd'
  rw [hK] at f1
  obtain ⟨s1, s2, s3⟩ := hs
  obtain ⟨t1, t2, t3⟩ := hs'
  refine ⟨⟨.ok (), m', n', _, _, e, f, e1, f1, fun i j hi _ hij => ?_⟩, fun i hi => by have := hρ i (by omega); omega⟩
  unfold OnLower at hij
  unfold syrkDet
  rw [if_pos hij, if_pos (hmono i j hij (by omega))]

/-- **C77** (trmm from the right). Rows ρ of B. -/
theorem C77_trmm_right {SS SS' : Nat} {m n : Mem V} {A B C A' B' C' : Container} (alpha : V)
    (h : TrmmRArgs SS m B A C) (hs : TrmmRSizes B A C) (h' : TrmmRArgs SS' n B' A' C') (hs' : TrmmRSizes B' A' C')
    (hN : B'.cols = B.cols) {ρ : Nat → Nat} (hρ : Into ρ B'.rows B.rows) {a b : Nat → Nat → V} (ha : ContainsLower SS m A a) (hb : Contains SS m B b)
    (ha' : ContainsLower SS' n A' a) (hb' : Contains SS' n B' (fun i k => b (ρ i) k)) :
    Selects Everywhere ρ id SS (trmmRightCall SS 1 alpha B A .lower false C) m C SS' (trmmRightCall SS' 1 alpha B' A' .lower false C') n C' ∧
      Into ρ C'.rows C.rows := by
  obtain ⟨m', e, e1, -⟩ := det_trmmRight alpha h hs ha hb
  obtain ⟨n', f, f1, -⟩ := det_trmmRight alpha h' hs' ha' hb'
  rw [hN] at f1
  obtain ⟨s1, s2, s3⟩ := hs
  obtain ⟨t1, t2, t3⟩ := hs'
  exact ⟨⟨.ok (), m', n', _, _, e, f, e1, f1, fun i j _ _ _ => rfl⟩, fun i hi => by have := hρ i (by omega); omega⟩

/-- **C77** (trmm from the left). Columns γ of B, if a column of the complete column tiles is replaced by one of the complete column tiles, and one of the
remaining columns by one of the remaining columns (without this condition the claim is false, see below). -/
theorem C77_trmm_left {SS : Nat} {m n : Mem V} {A B C A' B' C' : Container} (alpha : V)
    (h : TrmmLArgs SS m A B C) (hs : TrmmLSizes A B C) (h' : TrmmLArgs SS n A' B' C') (hs' : TrmmLSizes A' B' C')
    (hM : B'.rows = B.rows) {γ : Nat → Nat} (hγ : Into γ B'.cols B.cols) (htile : ∀ j, j < B'.cols → (j < B'.cols / SS * SS ↔ γ j < B.cols / SS * SS))
    {a b : Nat → Nat → V} (ha : Contains SS m A a) (hb : Contains SS m B b)
    (ha' : Contains SS n A' a) (hb' : Contains SS n B' (fun i j => b i (γ j))) :
    Selects Everywhere id γ SS (trmmLeftCall SS 1 alpha A .upper false B C) m C SS (trmmLeftCall SS 1 alpha A' .upper false B' C') n C' ∧ Into γ C'.cols C.cols := by
  obtain ⟨m', e, e1, -, v⟩ := det_trmmLeft_val alpha h hs ha hb
  obtain ⟨n', f, f1, -, v'⟩ := det_trmmLeft_val alpha h' hs' ha' hb'
  obtain ⟨s1, s2, s3⟩ := hs
  obtain ⟨t1, t2, t3⟩ := hs'
  refine ⟨⟨.ok (), m', n', _, _, e, f, e1, f1, fun i j hi hj _ => ?_⟩, fun i hi => by have := hγ i (by omega); omega⟩
  have hv' := v' i j (by omega) (by omega)
  have hv := v i (γ j) (by omega) (hγ j (by omega))
  refine hv'.unique ?_
  obtain ⟨p, q, t, h1, h2, e⟩ := hv
  refine ⟨p, q, by rw [hM]; exact t, h1, h2, ?_⟩
  show trmmLDet SS B.rows B.cols alpha a b i (γ j) = _
  rw [e, hM]
  exact if_congr (and_congr_right (fun _ => (htile j (by omega)).symm)) rfl rfl

/-- **C77** (trsm). Columns γ of B: a batch of right-hand sides may be split, reordered and extended. -/
theorem C77_trsm {SS SS' : Nat} {m n : Mem V} {A B X A' B' X' : Container} (uplo : UpLo) (unit : Bool)
    (h : TrsmArgs SS m A B X) (hs : (A.rows = B.rows ∧ A.cols = B.rows) ∧ X.rows = B.rows ∧ X.cols = B.cols)
    (h' : TrsmArgs SS' n A' B' X') (hs' : (A'.rows = B'.rows ∧ A'.cols = B'.rows) ∧ X'.rows = B'.rows ∧ X'.cols = B'.cols)
    (hM : B'.rows = B.rows) {γ : Nat → Nat} (hγ : Into γ B'.cols B.cols) {a b : Nat → Nat → V} (ha : ContainsTri SS m A uplo unit a) (hb : Contains SS m B b)
    (ha' : ContainsTri SS' n A' uplo unit a) (hb' : Contains SS' n B' (fun i j => b i (γ j))) :
    Selects Everywhere id γ SS (trsmCall SS uplo unit A B X) m X SS' (trsmCall SS' uplo unit A' B' X') n X' ∧ Into γ X'.cols X.cols := by
  obtain ⟨m', e, e1, -⟩ := det_trsm uplo unit h hs ha hb
  obtain ⟨n', f, f1, -⟩ := det_trsm uplo unit h' hs' ha' hb'
  rw [hM] at f1
  obtain ⟨s1, s2, s3⟩ := hs
  obtain ⟨t1, t2, t3⟩ := hs'
  exact ⟨⟨.ok (), m', n', _, _, e, f, e1, f1, fun i j _ _ _ => rfl⟩, fun i hi => by have := hγ i (by omega); omega⟩

/-- **C77** (trsm with a lower triangle). The leading part of the system gives the leading part of the solution. -/
theorem C77_trsm_leading {SS SS' : Nat} {m n : Mem V} {A B X A' B' X' : Container} (unit : Bool)
    (h : TrsmArgs SS m A B X) (hs : (A.rows = B.rows ∧ A.cols = B.rows) ∧ X.rows = B.rows ∧ X.cols = B.cols)
    (h' : TrsmArgs SS' n A' B' X') (hs' : (A'.rows = B'.rows ∧ A'.cols = B'.rows) ∧ X'.rows = B'.rows ∧ X'.cols = B'.cols)
    (hM : B'.rows ≤ B.rows) {γ : Nat → Nat} (hγ : Into γ B'.cols B.cols) {a b : Nat → Nat → V} (ha : ContainsTri SS m A .lower unit a) (hb : Contains SS m B b)
    (ha' : ContainsTri SS' n A' .lower unit a) (hb' : Contains SS' n B' (fun i j => b i (γ j))) :
    Selects Everywhere id γ SS (trsmCall SS .lower unit A B X) m X SS' (trsmCall SS' .lower unit A' B' X') n X' ∧ Into γ X'.cols X.cols := by
  obtain ⟨m', e, e1, -⟩ := det_trsm .lower unit h hs ha hb
  obtain ⟨n', f, f1, -⟩ := det_trsm .lower unit h' hs' ha' hb'
  obtain ⟨s1, s2, s3⟩ := hs
  obtain ⟨t1, t2, t3⟩ := hs'
  refine ⟨⟨.ok (), m', n', _, _, e, f, e1, f1, fun i j hi _ _ => ?_⟩, fun i hi => by have := hγ i (by omega); omega⟩
  refine TrsmRec.unique (m := B'.rows) (trsmSol_rec _ _ _ _ _) (fun i hi => ?_) (fun _ _ _ _ _ => rfl) (fun _ _ => rfl) i (by omega)
  exact trsmSol_rec .lower unit B.rows a (fun i => b i (γ j)) i (by omega)

/-- the unique solution of the recurrences of a factorization with fewer rows and columns -/
theorem PotAll.leading {SS KN M N M' N' : Nat} {up : Bool} (hM : M' ≤ M) (hN : N' ≤ N) (hN' : N' ≤ M') {a l : Nat → Nat → V} (h : PotAll SS KN M N up a l) :
    PotAll SS KN M' N' up a l := by
  refine ⟨fun r c hcr hr hc => ?_, fun hu r c h1 h2 hc => h.2 hu r c h1 h2 (by omega)⟩
  have := h.1 r c hcr (by omega) (by omega)
  unfold PotRec at this ⊢
  rw [this]
  congr 1
  exact if_congr (potHeight_lt hM hr) rfl rfl

/-- **C77** (potrf on dense matrices). The factor of a leading part of A (the first M' rows and N' columns of its lower triangle) is that part of the factor of A. -/
theorem C77_potrf_dense_leading {SS : Nat} {m n : Mem V} {A L A' L' : Container}
    (h : PotrfArgs SS m A L) (hs : PotrfSizes A L) (hf : PotrfFits SS 1 4 A L) (h' : PotrfArgs SS n A' L') (hs' : PotrfSizes A' L')
    (hf' : PotrfFits SS 1 4 A' L') (hM : A'.rows ≤ A.rows) (hN : A'.cols ≤ A.cols) {a l l' : Nat → Nat → V} (ha : ContainsLower SS m A a) (hl : Contains SS m L l)
    (ha' : ContainsLower SS n A' a) (hl' : Contains SS n L' l') :
    Selects OnLower id id SS (potrfDenseCall SS 1 A L) m L SS (potrfDenseCall SS 1 A' L') n L' := by
  obtain ⟨m', e, e1, -, hall⟩ := det_potrfDense_all h hs hf ha (fun i j _ hi hj => hl i j hi hj)
  obtain ⟨n', f, f1, -, hall'⟩ := det_potrfDense_all h' hs' hf' ha' (fun i j _ hi hj => hl' i j hi hj)
  obtain ⟨s1, s2, s3⟩ := hs
  obtain ⟨t1, t2, t3⟩ := hs'
  refine ⟨.ok (), m', n', _, _, e, f, e1, f1, fun i j hi hj hij => ?_⟩
  unfold OnLower at hij
  unfold potDenseDet
  show (if _ then _ else _) = if j ≤ i then _ else _
  rw [if_pos hij, if_pos hij]
  have hkn := hf'.knT
  exact (PotAll.unique (by omega) (by omega) (by omega) hall' (hall.leading hM hN (by omega))).1 i j hij (by omega) (by omega)

/-- **C77** (potrf on panel matrices). -/
theorem C77_potrf_panel_leading {SS KN : Nat} {m n : Mem V} {A L A' L' : Container}
    (h : PotrfArgs SS m A L) (hs : PotrfSizes A L) (hf : PotrfFits SS 1 KN A L) (h' : PotrfArgs SS n A' L') (hs' : PotrfSizes A' L')
    (hf' : PotrfFits SS 1 KN A' L') (hM : A'.rows ≤ A.rows) (hN : A'.cols ≤ A.cols) {a l l' : Nat → Nat → V} (ha : Contains SS m A a) (hl : Contains SS m L l)
    (ha' : Contains SS n A' a) (hl' : Contains SS n L' l') :
    Selects OnLower id id SS (potrfPanelCall SS KN A L) m L SS (potrfPanelCall SS KN A' L') n L' := by
  obtain ⟨m', e, e1, -, hall⟩ := det_potrfPanel_all h hs hf ha (fun i j _ hi hj => hl i j hi hj)
  obtain ⟨n', f, f1, -, hall'⟩ := det_potrfPanel_all h' hs' hf' ha' (fun i j _ hi hj => hl' i j hi hj)
  obtain ⟨s1, s2, s3⟩ := hs
  obtain ⟨t1, t2, t3⟩ := hs'
  refine ⟨.ok (), m', n', _, _, e, f, e1, f1, fun i j hi hj hij => ?_⟩
  unfold OnLower at hij
  have : j / KN * KN ≤ j := Nat.div_mul_le_self j KN
  unfold potPanelDet
  show (if _ then _ else _) = if j / KN * KN ≤ i then _ else _
  rw [if_pos (by omega), if_pos (by omega)]
  exact (PotAll.unique hf'.kn (by have := hf'.knT; omega) (by omega) hall' (hall.leading hM hN (by omega))).1 i j hij (by omega) (by omega)

theorem LuEnds.selects {SS SS' : Nat} {m n : Mem V} {A A' : Container} {p q : Prog V (Nat → Nat)} {r r' : (Nat → Nat → V) × Option (Nat → Nat)} {γ : Nat → Nat}
    (h : LuEnds SS A p m r) (h' : LuEnds SS' A' q n r') (e : r' = (pick γ r.1, r.2)) : Selects Everywhere id γ SS p m A SS' q n A' := by
  subst e
  obtain ⟨m', e, e1, -⟩ := h
  obtain ⟨n', f, f1, -⟩ := h'
  cases hr : r.2 with
  | none =>
    rw [hr] at e f
    exact ⟨.error .invalidArgument, m', n', _, _, e, f, e1, f1, fun _ _ _ _ _ => rfl⟩
  | some p =>
    rw [hr] at e f
    exact ⟨.ok p, m', n', _, _, e, f, e1, f1, fun _ _ _ _ _ => rfl⟩

/-- columns γ of a matrix with M rows and at least M columns; the first M columns stay where they are -/
structure AfterSquare (M N N' : Nat) (γ : Nat → Nat) : Prop where
  wide : M ≤ N
  wide' : M ≤ N'
  fixed : ∀ j, j < M → γ j = j
  right : ∀ j, M ≤ j → j < N' → M ≤ γ j ∧ γ j < N

/-- the same selection, extended beyond column N' -/
def extSel (N N' : Nat) (γ : Nat → Nat) (j : Nat) : Nat := if j < N' then γ j else N + j

theorem AfterSquare.colSel {M N N' : Nat} {γ : Nat → Nat} (h : AfterSquare M N N' γ) : ColSel M N N' (extSel N N' γ) := by
  have hw := h.wide
  have hw' := h.wide'
  refine ⟨⟨fun j hj => ?_, fun j hj => ?_⟩, fun j => ?_⟩ <;> unfold extSel
  · rw [if_pos (by omega)]; exact h.fixed j hj
  · by_cases hj' : j < N'
    · rw [if_pos hj']; exact (h.right j hj hj').1
    · rw [if_neg hj']; omega
  · by_cases hj' : j < N'
    · rw [if_pos hj']
      by_cases hj : j < M
      · rw [h.fixed j hj]; omega
      · have := (h.right j (by omega) hj').2; omega
    · rw [if_neg hj']; omega

theorem selects_ext {α : Type} {W : Nat → Nat → Prop} {ρ γ : Nat → Nat} {N : Nat} {SS : Nat} {p : Prog V α} {m : Mem V} {C : Container} {SS' : Nat} {q : Prog V α} {n : Mem V}
    {D : Container} (h : Selects W ρ (extSel N D.cols γ) SS p m C SS' q n D) : Selects W ρ γ SS p m C SS' q n D := by
  obtain ⟨r, m', n', f, g, h1, h2, h3, h4, h5⟩ := h
  refine ⟨r, m', n', f, g, h1, h2, h3, h4, fun i j hi hj hw => ?_⟩
  rw [h5 i j hi hj hw]
  unfold extSel
  rw [if_pos hj]

theorem contains_ext {SS N : Nat} {n : Mem V} {A : Container} {a : Nat → Nat → V} {γ : Nat → Nat} (h : Contains SS n A (fun i j => a i (γ j))) :
    Contains SS n A (pick (extSel N A.cols γ) a) := by
  intro i j hi hj
  unfold pick extSel
  rw [if_pos hj]
  exact h i j hi hj

/-- **C77** (getf2, column-major). Columns to the right of the square part may be selected, reordered, repeated, left out or added: the outcome (also an
exception), the pivots, and the elements of the other columns stay the same. -/
theorem C77_getf2 {SS SS' : Nat} (hSS : 0 < SS) (hSS' : 0 < SS') {m n : Mem V} {A A' : Container} (hd : A.isPanel = false) (hs : A.so = .columnMajor)
    (hl : Live SS m A) (hd' : A'.isPanel = false) (hs' : A'.so = .columnMajor) (hl' : Live SS' n A') (hM : A'.rows = A.rows) {γ : Nat → Nat}
    (hγ : AfterSquare A.rows A.cols A'.cols γ)
    {a : Nat → Nat → V} (ha : Contains SS m A a) (ha' : Contains SS' n A' (fun i j => a i (γ j))) (ip : Nat → Nat) :
    Selects Everywhere id γ SS (getf2Ptr SS 1 A.rows A.cols (A.mptr SS) ip) m A SS' (getf2Ptr SS' 1 A'.rows A'.cols (A'.mptr SS') ip) n A' := by
  refine selects_ext (N := A.cols) ((det_getf2 hSS hd hs hl ha ip).selects (det_getf2 hSS' hd' hs' hl' (contains_ext (N := A.cols) ha') ip) ?_)
  rw [hM, Nat.min_eq_left hγ.wide, Nat.min_eq_left hγ.wide']
  exact luFull_pick _ _ hγ.colSel.keep _ _

/-- **C77** (getf2, row-major). -/
theorem C77_getf2_row_major {SS SS' : Nat} (hSS : 0 < SS) (hSS' : 0 < SS') (dv : V → V → V) {m n : Mem V} {A A' : Container} (hd : A.isPanel = false)
    (hd' : A'.isPanel = false) (hM : A'.rows = A.rows) {γ : Nat → Nat} (hγ : AfterSquare A.rows A.cols A'.cols γ)
    {a : Nat → Nat → V} (ha : Contains SS m A a) (ha' : Contains SS' n A' (fun i j => a i (γ j))) (ip : Nat → Nat) :
    Selects Everywhere id γ SS (getf2Row SS dv (A.mat SS) ip) m A SS' (getf2Row SS' dv (A'.mat SS') ip) n A' := by
  refine selects_ext (N := A.cols) ((det_getf2Row hSS dv hd ha ip).selects (det_getf2Row hSS' dv hd' (contains_ext (N := A.cols) ha') ip) ?_)
  rw [hM, Nat.min_eq_left hγ.wide, Nat.min_eq_left hγ.wide']
  exact luFull_pick _ _ hγ.colSel.keep _ _

/-- **C77** (getrf, column-major). -/
theorem C77_getrf {SS : Nat} (hSS : 0 < SS) {m n : Mem V} {A A' : Container} (hd : A.isPanel = false) (hs : A.so = .columnMajor)
    (hl : Live SS m A) (hd' : A'.isPanel = false) (hs' : A'.so = .columnMajor) (hl' : Live SS n A') (hM : A'.rows = A.rows) {γ : Nat → Nat}
    (hγ : AfterSquare A.rows A.cols A'.cols γ)
    {a : Nat → Nat → V} (ha : Contains SS m A a) (ha' : Contains SS n A' (fun i j => a i (γ j))) (ip : Nat → Nat) :
    Selects Everywhere id γ SS (getrfPtr SS 1 A.rows A.cols (A.mptr SS) ip) m A SS (getrfPtr SS 1 A'.rows A'.cols (A'.mptr SS) ip) n A' := by
  refine selects_ext (N := A.cols) ((det_getrf hSS hd hs hl ha ip).selects (det_getrf hSS hd' hs' hl' (contains_ext (N := A.cols) ha') ip) ?_)
  rw [hM]
  exact getrfFull_pick hγ.colSel hγ.wide hγ.wide' _ _

/-- **C77** (getrf, row-major). -/
theorem C77_getrf_row_major {SS SS' : Nat} (hSS : 0 < SS) (hSS' : 0 < SS') (dv : V → V → V) {m n : Mem V} {A A' : Container}
    (hM : A'.rows = A.rows) {γ : Nat → Nat} (hγ : AfterSquare A.rows A.cols A'.cols γ)
    {a : Nat → Nat → V} (ha : Contains SS m A a) (ha' : Contains SS' n A' (fun i j => a i (γ j))) (ip : Nat → Nat) :
    Selects Everywhere id γ SS (getrfRow SS dv (A.mat SS) ip) m A SS' (getrfRow SS' dv (A'.mat SS') ip) n A' := by
  refine selects_ext (N := A.cols) ((det_getrfRow hSS dv ha ip).selects (det_getrfRow hSS' dv (contains_ext (N := A.cols) ha') ip) ?_)
  rw [hM, Nat.min_eq_left hγ.wide, Nat.min_eq_left hγ.wide', elimRun_pick dv hγ.colSel.keep _ _ (Nat.le_refl _)]

/-- Without the condition on the tiles the claim is false for trmm from the left: all elements of A (2 × 2) and B are 1. In the call with two columns element (1, 0)
of C is 1, in the call with the first column only it is 2: the element below the diagonal of A is used. -/
theorem C77_trmm_left_refuted :
    let A : Container := ⟨.statDense, .columnMajor, 2, 2, 0⟩
    let B : Container := ⟨.statDense, .columnMajor, 2, 2, 4⟩
    let C : Container := ⟨.statDense, .columnMajor, 2, 2, 8⟩
    let B' : Container := ⟨.statDense, .columnMajor, 2, 1, 12⟩
    let C' : Container := ⟨.statDense, .columnMajor, 2, 1, 14⟩
    let m : Mem Rat := fun z => if 0 ≤ z ∧ z < 16 then some 1 else none
    Contains 2 m A (fun _ _ => 1) ∧ Contains 2 m B (fun _ _ => 1) ∧ Contains 2 m B' (fun _ _ => 1) ∧
    (∃ m', trmmLeftCall 2 1 (1 : Rat) A .upper false B C m = .ok () m' ∧ m' (C.addr 2 1 0) = some 1) ∧
    (∃ n', trmmLeftCall 2 1 (1 : Rat) A .upper false B' C' m = .ok () n' ∧ n' (C'.addr 2 1 0) = some 2) := by
  intro A B C B' C' m
  have key : ∀ x : Container, 0 ≤ x.data → (∀ i < 2, ∀ j < 2, i < x.rows → j < x.cols → 0 ≤ x.addr 2 i j ∧ x.addr 2 i j < 16) → x.rows ≤ 2 → x.cols ≤ 2 →
      Contains 2 m x (fun _ _ => 1) := fun x _ h hr hc i j hi hj => if_pos (h i (by omega) j (by omega) hi hj)
  refine ⟨key A (by decide) (by decide +kernel) (by decide) (by decide), key B (by decide) (by decide +kernel) (by decide) (by decide),
    key B' (by decide) (by decide +kernel) (by decide) (by decide), ?_, ?_⟩
  · refine ok_of_okCell ?_
    decide +kernel
  · refine ok_of_okCell ?_
    decide +kernel

end Blast
