import Verif.Parametric
import Verif.Props.Reproducible
/- Concrete cases meeting the hypotheses of these theorems: Verif/Cases/Parametric.lean. -/
/-
C99: the algorithms use the numbers only through the operations of the arithmetic. Whatever relation between two element types the operations respect holds
between the results if it holds between the arguments.
-/
set_option linter.unusedSectionVars false
namespace Blast
open Prog Reg
variable {V W : Type} [Arith V] [Arith W] {R : V → W → Prop}

/-- The call `p` made in memory `m`, with result object `C`, and the call `q` over another element type, made in memory `n`, with result object `D`, end in
the same way (both return the same value or both throw the same exception), and afterwards the elements of `C` are related to those of `D` (those (i, j)
with `P i j`). -/
def RelResult {α : Type} (R : V → W → Prop) (P : Nat → Nat → Prop) (SS : Nat) (p : Prog V α) (m : Mem V) (C : Container) (SS' : Nat) (q : Prog W α) (n : Mem W)
    (D : Container) : Prop :=
  ∃ (r : Except Exn α) (m' : Mem V) (n' : Mem W) (f : Nat → Nat → V) (g : Nat → Nat → W), Ends p m r m' ∧ Ends q n r n' ∧ Contains SS m' C f ∧ Contains SS' n' D g ∧
    ∀ i j, i < C.rows → j < C.cols → P i j → R (f i j) (g i j)

/-- all elements -/
def Every (_ _ : Nat) : Prop := True
/-- the elements on and below the diagonal -/
def LowerOnly (i j : Nat) : Prop := j ≤ i

/-- the elements of a matrix of the size of A are related -/
def RelElems (R : V → W → Prop) (A : Container) (a : Nat → Nat → V) (b : Nat → Nat → W) : Prop := ∀ i j, i < A.rows → j < A.cols → R (a i j) (b i j)
/-- those on and below the diagonal are -/
def RelLower (R : V → W → Prop) (A : Container) (a : Nat → Nat → V) (b : Nat → Nat → W) : Prop := ∀ i j, i < A.rows → j < A.cols → j ≤ i → R (a i j) (b i j)
/-- those of a triangle are -/
def RelTri (R : V → W → Prop) (A : Container) (uplo : UpLo) (unit : Bool) (a : Nat → Nat → V) (b : Nat → Nat → W) : Prop :=
  ∀ i j, i < A.rows → j < A.cols → TriRef uplo unit i j → R (a i j) (b i j)

open Classical in
/-- elements that do not matter can be taken to be zero -/
theorem total_of (o : OpRel R) {P : Nat → Nat → Prop} {a : Nat → Nat → V} {b : Nat → Nat → W} (h : ∀ i j, P i j → R (a i j) (b i j)) :
    ∃ (a1 : Nat → Nat → V) (b1 : Nat → Nat → W), (∀ i j, R (a1 i j) (b1 i j)) ∧ ∀ i j, P i j → a1 i j = a i j ∧ b1 i j = b i j := by
  refine ⟨fun i j => if P i j then a i j else Arith.zero, fun i j => if P i j then b i j else Arith.zero, fun i j => ?_, fun i j hp => ?_⟩
  · beta_reduce
    by_cases hp : P i j
    · rw [if_pos hp, if_pos hp]; exact h i j hp
    · rw [if_neg hp, if_neg hp]; exact o.zero
  · beta_reduce
    rw [if_pos hp, if_pos hp]
    exact ⟨rfl, rfl⟩

/-- **C99** (gemm). -/
theorem C99_gemm (o : OpRel R) {SS SS' : Nat} {m : Mem V} {n : Mem W} {A B C D A' B' C' D' : Container} {alpha beta : V} {alpha' beta' : W}
    (hal : R alpha alpha') (hbe : R beta beta') (h : GemmArgs SS m A B C D) (hs : GemmSizes A B C D) (h' : GemmArgs SS' n A' B' C' D') (hs' : GemmSizes A' B' C' D')
    (hA : SameSize A A') {a b c : Nat → Nat → V} {a' b' c' : Nat → Nat → W} (ha : Contains SS m A a) (hb : Contains SS m B b) (hc : Contains SS m C c)
    (ha' : Contains SS' n A' a') (hb' : Contains SS' n B' b') (hc' : Contains SS' n C' c') (hra : RelElems R A a a') (hrb : RelElems R B b b') (hrc : RelElems R C c c') :
    RelResult R Every SS (gemmCall SS alpha A B beta C D) m D SS' (gemmCall SS' alpha' A' B' beta' C' D') n D' := by
  obtain ⟨m', e, e1⟩ := C04_gemm_bitwise alpha beta h hs ha hb hc
  obtain ⟨n', f, f1⟩ := C04_gemm_bitwise alpha' beta' h' hs' ha' hb' hc'
  rw [hA.2] at f1
  refine ⟨.ok (), m', n', _, _, e, f, e1, f1, fun i j hi hj _ => ?_⟩
  obtain ⟨s0, ⟨s1, s2⟩, s3, s4⟩ := hs
  exact o.fma hbe (hrc i j (by omega) (by omega)) (o.mul (o.fmaSum o.zero _ (fun k hk => hra i k (by omega) hk) (fun k hk => hrb k j (by omega) (by omega))) hal)

/-- **C99** (ger). -/
theorem C99_ger (o : OpRel R) {SS SS' : Nat} {m : Mem V} {n : Mem W} {x y x' y' : VObj} {A B A' B' : Container} {alpha : V} {alpha' : W} (hal : R alpha alpha')
    (h : GerArgs SS m x y A B) (hs : GerSizes x y A B) (h' : GerArgs SS' n x' y' A' B') (hs' : GerSizes x' y' A' B')
    {xv yv : Nat → V} {a : Nat → Nat → V} {xv' yv' : Nat → W} {a' : Nat → Nat → W} (hx : VContains m x xv) (hy : VContains m y yv) (ha : Contains SS m A a)
    (hx' : VContains n x' xv') (hy' : VContains n y' yv') (ha' : Contains SS' n A' a') (hrx : ∀ i < A.rows, R (xv i) (xv' i)) (hry : ∀ j < A.cols, R (yv j) (yv' j))
    (hra : RelElems R A a a') : RelResult R Every SS (gerCall SS 1 alpha x y A B) m B SS' (gerCall SS' 1 alpha' x' y' A' B') n B' := by
  obtain ⟨m', e, e1⟩ := det_ger alpha h hs hx hy ha
  obtain ⟨n', f, f1⟩ := det_ger alpha' h' hs' hx' hy' ha'
  refine ⟨.ok (), m', n', _, _, e, f, e1, f1, fun i j hi hj _ => ?_⟩
  obtain ⟨⟨s1, s2⟩, s3, s4⟩ := hs
  exact o.gerEntry hal (hrx i (by omega)) (hry j (by omega)) (hra i j (by omega) (by omega))

/-- **C99** (syrkLower): the elements on and below the diagonal. -/
theorem C99_syrk (o : OpRel R) {SS SS' : Nat} {m : Mem V} {n : Mem W} {A C D A' C' D' : Container} {alpha beta : V} {alpha' beta' : W}
    (hal : R alpha alpha') (hbe : R beta beta') (h : SyrkArgs SS m A C D) (hs : SyrkSizes A C D) (h' : SyrkArgs SS' n A' C' D') (hs' : SyrkSizes A' C' D')
    (hA : SameSize A A') {a c d : Nat → Nat → V} {a' c' d' : Nat → Nat → W} (ha : Contains SS m A a) (hc : ContainsLower SS m C c) (hd : Contains SS m D d)
    (ha' : Contains SS' n A' a') (hc' : ContainsLower SS' n C' c') (hd' : Contains SS' n D' d') (hra : RelElems R A a a') (hrc : RelLower R C c c') :
    RelResult R LowerOnly SS (syrkCall SS 1 alpha A beta C D) m D SS' (syrkCall SS' 1 alpha' A' beta' C' D') n D' := by
  obtain ⟨m', e, e1, -⟩ := det_syrk alpha beta h hs ha hc hd
  obtain ⟨n', f, f1, -⟩ := det_syrk alpha' beta' h' hs' ha' hc' hd'
  rw [hA.2] at f1
  refine ⟨.ok (), m', n', _, _, e, f, e1, f1, fun i j hi hj hij => ?_⟩
  obtain ⟨⟨s1, s2⟩, s3, s4⟩ := hs
  unfold syrkDet
  rw [if_pos (show j ≤ i from hij), if_pos (show j ≤ i from hij)]
  exact o.fmaSum (o.mul hbe (hrc i j (by omega) (by omega) hij)) _ (fun k hk => o.mul hal (hra i k (by omega) hk)) (fun k hk => hra j k (by omega) hk)

/-- **C99** (trmm from the left; A upper triangular). -/
theorem C99_trmm_left (o : OpRel R) {SS : Nat} {m : Mem V} {n : Mem W} {A B C A' B' C' : Container} {alpha : V} {alpha' : W} (hal : R alpha alpha')
    (h : TrmmLArgs SS m A B C) (hs : TrmmLSizes A B C) (h' : TrmmLArgs SS n A' B' C') (hs' : TrmmLSizes A' B' C') (hB : SameSize B B')
    {a b : Nat → Nat → V} {a' b' : Nat → Nat → W} (ha : Contains SS m A a) (hb : Contains SS m B b) (ha' : Contains SS n A' a') (hb' : Contains SS n B' b')
    (hra : RelElems R A a a') (hrb : RelElems R B b b') :
    RelResult R Every SS (trmmLeftCall SS 1 alpha A .upper false B C) m C SS (trmmLeftCall SS 1 alpha' A' .upper false B' C') n C' := by
  obtain ⟨a1, a1', t1, t2⟩ := total_of o (P := fun i j => i < A.rows ∧ j < A.cols) (fun i j hp => hra i j hp.1 hp.2)
  obtain ⟨b1, b1', t3, t4⟩ := total_of o (P := fun i j => i < B.rows ∧ j < B.cols) (fun i j hp => hrb i j hp.1 hp.2)
  obtain ⟨⟨s1, s2⟩, s3, s4⟩ := id hs
  obtain ⟨⟨s1', s2'⟩, s3', s4'⟩ := id hs'
  have hB1 := hB.1
  have hB2 := hB.2
  obtain ⟨m', e, e1, -, e2⟩ := det_trmmLeft_val alpha h hs (a := a1) (b := b1)
    (fun i j hi hj => by rw [(t2 i j ⟨hi, hj⟩).1]; exact ha i j hi hj) (fun i j hi hj => by rw [(t4 i j ⟨hi, hj⟩).1]; exact hb i j hi hj)
  obtain ⟨n', f, f1, -, f2⟩ := det_trmmLeft_val alpha' h' hs' (a := a1') (b := b1')
    (fun i j hi hj => by rw [(t2 i j ⟨by omega, by omega⟩).2]; exact ha' i j hi hj) (fun i j hi hj => by rw [(t4 i j ⟨by omega, by omega⟩).2]; exact hb' i j hi hj)
  refine ⟨.ok (), m', n', _, _, e, f, e1, f1, fun i j hi hj _ => ?_⟩
  have g2 := f2 i j (by omega) (by omega)
  rw [hB.1, hB.2] at g2 ⊢
  exact o.leftVal hal t1 t3 (e2 i j (by omega) (by omega)) g2

/-- **C99** (trmm from the right; A lower triangular). -/
theorem C99_trmm_right (o : OpRel R) {SS SS' : Nat} {m : Mem V} {n : Mem W} {A B C A' B' C' : Container} {alpha : V} {alpha' : W} (hal : R alpha alpha')
    (h : TrmmRArgs SS m B A C) (hs : TrmmRSizes B A C) (h' : TrmmRArgs SS' n B' A' C') (hs' : TrmmRSizes B' A' C') (hB : SameSize B B')
    {a b : Nat → Nat → V} {a' b' : Nat → Nat → W} (ha : ContainsLower SS m A a) (hb : Contains SS m B b) (ha' : ContainsLower SS' n A' a') (hb' : Contains SS' n B' b')
    (hra : RelLower R A a a') (hrb : RelElems R B b b') :
    RelResult R Every SS (trmmRightCall SS 1 alpha B A .lower false C) m C SS' (trmmRightCall SS' 1 alpha' B' A' .lower false C') n C' := by
  obtain ⟨m', e, e1, -⟩ := det_trmmRight alpha h hs ha hb
  obtain ⟨n', f, f1, -⟩ := det_trmmRight alpha' h' hs' ha' hb'
  rw [hB.2] at f1
  refine ⟨.ok (), m', n', _, _, e, f, e1, f1, fun i j hi hj _ => ?_⟩
  obtain ⟨⟨s1, s2⟩, s3, s4⟩ := hs
  exact o.fmaSum o.zero _ (fun t ht => o.mul hal (hrb i (j + t) (by omega) (by omega))) (fun t ht => hra (j + t) j (by omega) (by omega) (by omega))

/-- **C99** (trsm): the triangle of A named in the call. -/
theorem C99_trsm (o : OpRel R) {SS SS' : Nat} {m : Mem V} {n : Mem W} {A B X A' B' X' : Container} (uplo : UpLo) (unit : Bool)
    (h : TrsmArgs SS m A B X) (hs : (A.rows = B.rows ∧ A.cols = B.rows) ∧ X.rows = B.rows ∧ X.cols = B.cols)
    (h' : TrsmArgs SS' n A' B' X') (hs' : (A'.rows = B'.rows ∧ A'.cols = B'.rows) ∧ X'.rows = B'.rows ∧ X'.cols = B'.cols)
    (hB : SameSize B B') {a b : Nat → Nat → V} {a' b' : Nat → Nat → W} (ha : ContainsTri SS m A uplo unit a) (hb : Contains SS m B b)
    (ha' : ContainsTri SS' n A' uplo unit a') (hb' : Contains SS' n B' b') (hra : RelTri R A uplo unit a a') (hrb : RelElems R B b b') :
    RelResult R Every SS (trsmCall SS uplo unit A B X) m X SS' (trsmCall SS' uplo unit A' B' X') n X' := by
  obtain ⟨m', e, e1, -⟩ := det_trsm uplo unit h hs ha hb
  obtain ⟨n', f, f1, -⟩ := det_trsm uplo unit h' hs' ha' hb'
  rw [hB.1] at f1
  refine ⟨.ok (), m', n', _, _, e, f, e1, f1, fun i j hi hj _ => ?_⟩
  obtain ⟨⟨s1, s2⟩, s3, s4⟩ := hs
  exact o.trsmRec (trsmSol_rec uplo unit B.rows a (fun i => b i j)) (trsmSol_rec uplo unit B.rows a' (fun i => b' i j))
    (fun i k hi hk ht => hra i k (by omega) (by omega) ht) (fun i hi => hrb i j hi (by omega)) i (by omega)

/-- **C99** (potrf on dense matrices): the elements on and below the diagonal. -/
theorem C99_potrf_dense (o : OpRel R) {SS : Nat} {m : Mem V} {n : Mem W} {A L A' L' : Container}
    (h : PotrfArgs SS m A L) (hs : PotrfSizes A L) (hf : PotrfFits SS 1 4 A L) (h' : PotrfArgs SS n A' L') (hs' : PotrfSizes A' L')
    (hf' : PotrfFits SS 1 4 A' L') (hA : SameSize A A') {a l : Nat → Nat → V} {a' l' : Nat → Nat → W} (ha : ContainsLower SS m A a) (hl : Contains SS m L l)
    (ha' : ContainsLower SS n A' a') (hl' : Contains SS n L' l') (hra : RelLower R A a a') :
    RelResult R LowerOnly SS (potrfDenseCall SS 1 A L) m L SS (potrfDenseCall SS 1 A' L') n L' := by
  obtain ⟨a1, a1', t1, t2⟩ := total_of o (P := fun i j => i < A.rows ∧ j < A.cols ∧ j ≤ i) (fun i j hp => hra i j hp.1 hp.2.1 hp.2.2)
  have hA1 := hA.1
  have hA2 := hA.2
  obtain ⟨m', e, e1, -, e2⟩ := det_potrfDense_all h hs hf (a := a1) (fun i j h1 h2 h3 => by rw [(t2 i j (by omega)).1]; exact ha i j h1 h2 h3)
    (fun i j _ hi hj => hl i j hi hj)
  obtain ⟨n', f, f1, -, f2⟩ := det_potrfDense_all h' hs' hf' (a := a1') (fun i j h1 h2 h3 => by rw [(t2 i j (by omega)).2]; exact ha' i j h1 h2 h3)
    (fun i j _ hi hj => hl' i j hi hj)
  rw [hA.1, hA.2] at f1 f2
  refine ⟨.ok (), m', n', _, _, e, f, e1, f1, fun i j hi hj hij => ?_⟩
  obtain ⟨s1, s2, s3⟩ := hs
  unfold potDenseDet
  rw [if_pos (show j ≤ i from hij), if_pos (show j ≤ i from hij)]
  have hk := hf.kn
  have hT := hf.knT
  exact (o.potAll hk (by omega) s1 (fun r c => o.mul o.one (t1 r c)) e2 f2).1 i j hij (by omega) (by omega)

/-- **C99** (potrf on panel matrices): all elements that it computes, also those above the diagonal inside the diagonal tiles. -/
theorem C99_potrf_panel (o : OpRel R) {SS KN : Nat} {m : Mem V} {n : Mem W} {A L A' L' : Container}
    (h : PotrfArgs SS m A L) (hs : PotrfSizes A L) (hf : PotrfFits SS 1 KN A L) (h' : PotrfArgs SS n A' L') (hs' : PotrfSizes A' L')
    (hf' : PotrfFits SS 1 KN A' L') (hA : SameSize A A') {a l : Nat → Nat → V} {a' l' : Nat → Nat → W} (ha : Contains SS m A a) (hl : Contains SS m L l)
    (ha' : Contains SS n A' a') (hl' : Contains SS n L' l') (hra : RelElems R A a a') :
    RelResult R (fun i j => j / KN * KN ≤ i) SS (potrfPanelCall SS KN A L) m L SS (potrfPanelCall SS KN A' L') n L' := by
  obtain ⟨a1, a1', t1, t2⟩ := total_of o (P := fun i j => i < A.rows ∧ j < A.cols) (fun i j hp => hra i j hp.1 hp.2)
  have hA1 := hA.1
  have hA2 := hA.2
  obtain ⟨m', e, e1, -, e2⟩ := det_potrfPanel_all h hs hf (a := a1) (fun i j h1 h2 => by rw [(t2 i j (by omega)).1]; exact ha i j h1 h2)
    (fun i j _ hi hj => hl i j hi hj)
  obtain ⟨n', f, f1, -, f2⟩ := det_potrfPanel_all h' hs' hf' (a := a1') (fun i j h1 h2 => by rw [(t2 i j (by omega)).2]; exact ha' i j h1 h2)
    (fun i j _ hi hj => hl' i j hi hj)
  rw [hA.1, hA.2] at f1 f2
  refine ⟨.ok (), m', n', _, _, e, f, e1, f1, fun i j hi hj hij => ?_⟩
  obtain ⟨s1, s2, s3⟩ := hs
  unfold potPanelDet
  rw [if_pos hij, if_pos hij]
  have hk := hf.kn
  have hT := hf.knT
  have key := o.potAll hk (by omega) s1 t1 e2 f2
  by_cases hc : j ≤ i
  · exact key.1 i j hc (by omega) (by omega)
  · exact key.2 rfl i j hij (by omega) (by omega)

theorem LuEnds.related {SS SS' : Nat} {m : Mem V} {n : Mem W} {A A' : Container} {p : Prog V (Nat → Nat)} {q : Prog W (Nat → Nat)}
    {r : (Nat → Nat → V) × Option (Nat → Nat)} {r' : (Nat → Nat → W) × Option (Nat → Nat)} (h : LuEnds SS A p m r) (h' : LuEnds SS' A' q n r')
    (e : r.2 = r'.2 ∧ ∀ i j, R (r.1 i j) (r'.1 i j)) : RelResult R Every SS p m A SS' q n A' := by
  obtain ⟨r1, r2⟩ := r
  obtain ⟨r1', r2'⟩ := r'
  obtain ⟨rfl, e⟩ := e
  obtain ⟨m', e0, e1, -⟩ := h
  obtain ⟨n', f, f1, -⟩ := h'
  cases r2 with
  | none => exact ⟨.error .invalidArgument, m', n', _, _, e0, f, e1, f1, fun i j _ _ _ => e i j⟩
  | some p => exact ⟨.ok p, m', n', _, _, e0, f, e1, f1, fun i j _ _ _ => e i j⟩

/-- **C99** (getf2, column-major): the same outcome and the same pivots. -/
theorem C99_getf2 (o : OpRel R) (c : CmpRel R) {SS SS' : Nat} (hSS : 0 < SS) (hSS' : 0 < SS') {m : Mem V} {n : Mem W} {A A' : Container}
    (hd : A.isPanel = false) (hs : A.so = .columnMajor) (hl : Live SS m A) (hd' : A'.isPanel = false) (hs' : A'.so = .columnMajor) (hl' : Live SS' n A')
    (hA : SameSize A A') {a : Nat → Nat → V} {a' : Nat → Nat → W} (ha : Contains SS m A a) (ha' : Contains SS' n A' a') (hra : RelElems R A a a') (ip : Nat → Nat) :
    RelResult R Every SS (getf2Ptr SS 1 A.rows A.cols (A.mptr SS) ip) m A SS' (getf2Ptr SS' 1 A'.rows A'.cols (A'.mptr SS') ip) n A' := by
  obtain ⟨a1, a1', t1, t2⟩ := total_of o (P := fun i j => i < A.rows ∧ j < A.cols) (fun i j hp => hra i j hp.1 hp.2)
  have hA1 := hA.1
  have hA2 := hA.2
  have k1 := det_getf2 hSS hd hs hl (a := a1) (fun i j h1 h2 => by rw [(t2 i j (by omega)).1]; exact ha i j h1 h2) ip
  have k2 := det_getf2 hSS' hd' hs' hl' (a := a1') (fun i j h1 h2 => by rw [(t2 i j (by omega)).2]; exact ha' i j h1 h2) ip
  refine k1.related k2 ?_
  rw [hA1, hA2]
  exact OpRel.luFull c o _ _ _ _ o.div o.updCol t1 ip _

/-- **C99** (getf2, row-major); `dv`, `dv'`: the divisions, which the relation must respect too. -/
theorem C99_getf2_row_major (o : OpRel R) (c : CmpRel R) {SS SS' : Nat} (hSS : 0 < SS) (hSS' : 0 < SS') (dv : V → V → V) (dv' : W → W → W)
    (hdv : ∀ {x x' y y'}, R x x' → R y y' → R (dv x y) (dv' x' y')) {m : Mem V} {n : Mem W} {A A' : Container} (hd : A.isPanel = false)
    (hd' : A'.isPanel = false) (hA : SameSize A A') {a : Nat → Nat → V} {a' : Nat → Nat → W} (ha : Contains SS m A a) (ha' : Contains SS' n A' a')
    (hra : RelElems R A a a') (ip : Nat → Nat) :
    RelResult R Every SS (getf2Row SS dv (A.mat SS) ip) m A SS' (getf2Row SS' dv' (A'.mat SS') ip) n A' := by
  obtain ⟨a1, a1', t1, t2⟩ := total_of o (P := fun i j => i < A.rows ∧ j < A.cols) (fun i j hp => hra i j hp.1 hp.2)
  have hA1 := hA.1
  have hA2 := hA.2
  have k1 := det_getf2Row hSS dv hd (a := a1) (fun i j h1 h2 => by rw [(t2 i j (by omega)).1]; exact ha i j h1 h2) ip
  have k2 := det_getf2Row hSS' dv' hd' (a := a1') (fun i j h1 h2 => by rw [(t2 i j (by omega)).2]; exact ha' i j h1 h2) ip
  refine k1.related k2 ?_
  rw [hA1, hA2]
  exact OpRel.luFull c o _ _ _ _ hdv (fun h1 h2 h3 => o.add h3 (o.mul (o.mul (o.neg o.one) h1) h2)) t1 ip _

/-- **C99** (getrf, column-major). -/
theorem C99_getrf (o : OpRel R) (c : CmpRel R) {SS : Nat} (hSS : 0 < SS) {m : Mem V} {n : Mem W} {A A' : Container}
    (hd : A.isPanel = false) (hs : A.so = .columnMajor) (hl : Live SS m A) (hd' : A'.isPanel = false) (hs' : A'.so = .columnMajor) (hl' : Live SS n A')
    (hA : SameSize A A') {a : Nat → Nat → V} {a' : Nat → Nat → W} (ha : Contains SS m A a) (ha' : Contains SS n A' a') (hra : RelElems R A a a') (ip : Nat → Nat) :
    RelResult R Every SS (getrfPtr SS 1 A.rows A.cols (A.mptr SS) ip) m A SS (getrfPtr SS 1 A'.rows A'.cols (A'.mptr SS) ip) n A' := by
  obtain ⟨a1, a1', t1, t2⟩ := total_of o (P := fun i j => i < A.rows ∧ j < A.cols) (fun i j hp => hra i j hp.1 hp.2)
  have hA1 := hA.1
  have hA2 := hA.2
  have k1 := det_getrf hSS hd hs hl (a := a1) (fun i j h1 h2 => by rw [(t2 i j (by omega)).1]; exact ha i j h1 h2) ip
  have k2 := det_getrf hSS hd' hs' hl' (a := a1') (fun i j h1 h2 => by rw [(t2 i j (by omega)).2]; exact ha' i j h1 h2) ip
  refine k1.related k2 ?_
  rw [hA1, hA2]
  exact OpRel.getrfFull c o t1 ip

/-- **C99** (getrf, row-major): no comparisons. -/
theorem C99_getrf_row_major (o : OpRel R) {SS SS' : Nat} (hSS : 0 < SS) (hSS' : 0 < SS') (dv : V → V → V) (dv' : W → W → W)
    (hdv : ∀ {x x' y y'}, R x x' → R y y' → R (dv x y) (dv' x' y')) {m : Mem V} {n : Mem W} {A A' : Container} (hA : SameSize A A')
    {a : Nat → Nat → V} {a' : Nat → Nat → W} (ha : Contains SS m A a) (ha' : Contains SS' n A' a') (hra : RelElems R A a a') (ip : Nat → Nat) :
    RelResult R Every SS (getrfRow SS dv (A.mat SS) ip) m A SS' (getrfRow SS' dv' (A'.mat SS') ip) n A' := by
  obtain ⟨a1, a1', t1, t2⟩ := total_of o (P := fun i j => i < A.rows ∧ j < A.cols) (fun i j hp => hra i j hp.1 hp.2)
  have hA1 := hA.1
  have hA2 := hA.2
  have k1 := det_getrfRow hSS dv (A := A) (a := a1) (fun i j h1 h2 => by rw [(t2 i j (by omega)).1]; exact ha i j h1 h2) ip
  have k2 := det_getrfRow hSS' dv' (A := A') (a := a1') (fun i j h1 h2 => by rw [(t2 i j (by omega)).2]; exact ha' i j h1 h2) ip
  refine k1.related k2 ⟨by dsimp only; rw [hA1, hA2], ?_⟩
  rw [hA1, hA2]
  exact OpRel.elimRun dv dv' o hdv t1 _

end Blast
