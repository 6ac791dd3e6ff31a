import Verif.NanProp
import Verif.Props.Reproducible
/-
C76: no algorithm swallows a NaN.

`IsNan` (class `NanArith`): a set of values such that every operation with such an operand gives such a value. IEEE 754 arithmetic is an instance.
The theorems hold for every element type, shape, storage order, SIMD width and content of the padding.
-/
set_option linter.unusedSectionVars false
namespace Blast
open Prog Reg
variable {V : Type} [Arith V]

/-- the call returns, and leaves the elements `d` in `D`, for which `P` -/
def Leaves (SS : Nat) (p : Prog V Unit) (m : Mem V) (D : Container) (P : (Nat → Nat → V) → Prop) : Prop :=
  ∃ m' d, p m = .ok () m' ∧ Contains SS m' D d ∧ P d

/-- **C76** (gemm): `D(i,j)` is NaN if `alpha`, `beta`, `C(i,j)`, an element of row `i` of A or of column `j` of B is NaN: also for `beta = 0` or `alpha = 0`. -/
theorem C76_gemm [NanArith V] {SS : Nat} {m : Mem V} {A B C D : Container} (alpha beta : V) (h : GemmArgs SS m A B C D) (hs : GemmSizes A B C D)
    {a b c : Nat → Nat → V} (ha : Contains SS m A a) (hb : Contains SS m B b) (hc : Contains SS m C c) :
    Leaves SS (gemmCall SS alpha A B beta C D) m D (fun d => ∀ i j, i < D.rows → j < D.cols →
      (IsNan alpha ∨ IsNan beta ∨ IsNan (c i j) ∨ ∃ k, k < A.cols ∧ (IsNan (a i k) ∨ IsNan (b k j))) → IsNan (d i j)) := by
  obtain ⟨m', e, e1⟩ := C04_gemm_bitwise alpha beta h hs ha hb hc
  exact ⟨m', _, e, e1, fun i j hi hj hn => gemmEntry_nan hn⟩

/-- **C76** (gemm, containment): and if no operation on numbers gives NaN then only if. -/
theorem C76_gemm_only [NanOnly V] {SS : Nat} {m : Mem V} {A B C D : Container} (alpha beta : V) (h : GemmArgs SS m A B C D) (hs : GemmSizes A B C D)
    {a b c : Nat → Nat → V} (ha : Contains SS m A a) (hb : Contains SS m B b) (hc : Contains SS m C c) :
    Leaves SS (gemmCall SS alpha A B beta C D) m D (fun d => ∀ i j, i < D.rows → j < D.cols →
      (IsNan (d i j) ↔ IsNan alpha ∨ IsNan beta ∨ IsNan (c i j) ∨ ∃ k, k < A.cols ∧ (IsNan (a i k) ∨ IsNan (b k j)))) := by
  obtain ⟨m', e, e1⟩ := C04_gemm_bitwise alpha beta h hs ha hb hc
  refine ⟨m', _, e, e1, fun i j hi hj => ⟨fun hn => ?_, fun hn => gemmEntry_nan hn⟩⟩
  rcases NanOnly.fma_only _ _ _ hn with hn | hn | hn
  · exact Or.inr (Or.inl hn)
  · exact Or.inr (Or.inr (Or.inl hn))
  · rcases NanOnly.mul_only _ _ hn with hn | hn
    · rcases fmaSum_only hn with hn | hn
      · exact absurd hn NanOnly.zero_num
      · exact Or.inr (Or.inr (Or.inr hn))
    · exact Or.inl hn

theorem det_ger {SS : Nat} {m : Mem V} {x y : VObj} {A B : Container} (alpha : V) (h : GerArgs SS m x y A B) (hs : GerSizes x y A B)
    {xv yv : Nat → V} {a : Nat → Nat → V} (hx : VContains m x xv) (hy : VContains m y yv) (ha : Contains SS m A a) :
    ∃ m', gerCall SS 1 alpha x y A B m = .ok () m' ∧ Contains SS m' B (fun i j => Arith.fma (Arith.mul alpha (xv i)) (yv j) (Arith.mul Arith.one (a i j))) := by
  obtain ⟨m', h1, h2, -⟩ := gerPtr_correct (alpha := alpha) (h.pre hs)
  rw [gerCall_sizes hs]
  obtain ⟨⟨e1, e2⟩, e3, e4⟩ := hs
  refine ⟨m', h1, fun i j hi hj => ?_⟩
  rw [Container.addr_eq_mptr, h2 i j (by omega) (by omega), ha.holds.val (by omega) (by omega)]
  have ex : val m (x.ptr.addr SS i) = xv i := by
    rw [VObj.ptr_addr]; unfold val; rw [hx i (by omega)]; rfl
  have ey : val m (y.ptr.addr SS j) = yv j := by
    rw [VObj.ptr_addr]; unfold val; rw [hy j (by omega)]; rfl
  rw [ex, ey]
  rfl

/-- **C76** (ger). -/
theorem C76_ger [NanArith V] {SS : Nat} {m : Mem V} {x y : VObj} {A B : Container} (alpha : V) (h : GerArgs SS m x y A B) (hs : GerSizes x y A B)
    {xv yv : Nat → V} {a : Nat → Nat → V} (hx : VContains m x xv) (hy : VContains m y yv) (ha : Contains SS m A a) :
    Leaves SS (gerCall SS 1 alpha x y A B) m B (fun d => ∀ i j, i < B.rows → j < B.cols →
      (IsNan alpha ∨ IsNan (xv i) ∨ IsNan (yv j) ∨ IsNan (a i j)) → IsNan (d i j)) := by
  obtain ⟨m', e, e1⟩ := det_ger alpha h hs hx hy ha
  refine ⟨m', _, e, e1, fun i j hi hj hn => ?_⟩
  rcases hn with hn | hn | hn | hn
  · exact NanArith.fma _ _ _ (Or.inl (NanArith.mul _ _ (Or.inl hn)))
  · exact NanArith.fma _ _ _ (Or.inl (NanArith.mul _ _ (Or.inr hn)))
  · exact NanArith.fma _ _ _ (Or.inr (Or.inl hn))
  · exact NanArith.fma _ _ _ (Or.inr (Or.inr (NanArith.mul _ _ (Or.inr hn))))

theorem C76_ger_only [NanOnly V] {SS : Nat} {m : Mem V} {x y : VObj} {A B : Container} (alpha : V) (h : GerArgs SS m x y A B) (hs : GerSizes x y A B)
    {xv yv : Nat → V} {a : Nat → Nat → V} (hx : VContains m x xv) (hy : VContains m y yv) (ha : Contains SS m A a) :
    Leaves SS (gerCall SS 1 alpha x y A B) m B (fun d => ∀ i j, i < B.rows → j < B.cols →
      (IsNan (d i j) ↔ IsNan alpha ∨ IsNan (xv i) ∨ IsNan (yv j) ∨ IsNan (a i j))) := by
  obtain ⟨m', e, e1⟩ := det_ger alpha h hs hx hy ha
  refine ⟨m', _, e, e1, fun i j hi hj => ⟨fun hn => ?_, fun hn => ?_⟩⟩
  · rcases NanOnly.fma_only _ _ _ hn with hn | hn | hn
    · rcases NanOnly.mul_only _ _ hn with hn | hn
      · exact Or.inl hn
      · exact Or.inr (Or.inl hn)
    · exact Or.inr (Or.inr (Or.inl hn))
    · rcases NanOnly.mul_only _ _ hn with hn | hn
      · exact absurd hn NanOnly.one_num
      · exact Or.inr (Or.inr (Or.inr hn))
  · rcases hn with hn | hn | hn | hn
    · exact NanArith.fma _ _ _ (Or.inl (NanArith.mul _ _ (Or.inl hn)))
    · exact NanArith.fma _ _ _ (Or.inl (NanArith.mul _ _ (Or.inr hn)))
    · exact NanArith.fma _ _ _ (Or.inr (Or.inl hn))
    · exact NanArith.fma _ _ _ (Or.inr (Or.inr (NanArith.mul _ _ (Or.inr hn))))

/-- **C76** (syrkLower). -/
theorem C76_syrk [NanArith V] {SS : Nat} {m : Mem V} {A C D : Container} (alpha beta : V) (h : SyrkArgs SS m A C D) (hs : SyrkSizes A C D)
    {a c d0 : Nat → Nat → V} (ha : Contains SS m A a) (hc : ContainsLower SS m C c) (hd : Contains SS m D d0) :
    Leaves SS (syrkCall SS 1 alpha A beta C D) m D (fun d => ∀ i j, j ≤ i → i < D.rows →
      (IsNan beta ∨ IsNan (c i j) ∨ ∃ k, k < A.cols ∧ (IsNan alpha ∨ IsNan (a i k) ∨ IsNan (a j k))) → IsNan (d i j)) := by
  obtain ⟨m', e, e1, -⟩ := det_syrk alpha beta h hs ha hc hd
  refine ⟨m', _, e, e1, fun i j hji hi hn => ?_⟩
  unfold syrkDet
  rw [if_pos hji]
  rcases hn with hn | hn | ⟨k, hk, hn | hn | hn⟩
  · exact fmaSum_nan_acc (NanArith.mul _ _ (Or.inl hn)) _
  · exact fmaSum_nan_acc (NanArith.mul _ _ (Or.inr hn)) _
  · exact fmaSum_nan hk (Or.inl (NanArith.mul _ _ (Or.inl hn)))
  · exact fmaSum_nan hk (Or.inl (NanArith.mul _ _ (Or.inr hn)))
  · exact fmaSum_nan hk (Or.inr hn)

theorem C76_syrk_only [NanOnly V] {SS : Nat} {m : Mem V} {A C D : Container} (alpha beta : V) (h : SyrkArgs SS m A C D) (hs : SyrkSizes A C D)
    {a c d0 : Nat → Nat → V} (ha : Contains SS m A a) (hc : ContainsLower SS m C c) (hd : Contains SS m D d0) :
    Leaves SS (syrkCall SS 1 alpha A beta C D) m D (fun d => ∀ i j, j ≤ i → i < D.rows →
      (IsNan (d i j) ↔ IsNan beta ∨ IsNan (c i j) ∨ ∃ k, k < A.cols ∧ (IsNan alpha ∨ IsNan (a i k) ∨ IsNan (a j k)))) := by
  obtain ⟨m', e, e1, -⟩ := det_syrk alpha beta h hs ha hc hd
  refine ⟨m', _, e, e1, fun i j hji hi => ?_⟩
  unfold syrkDet
  rw [if_pos hji]
  constructor
  · intro hn
    rcases fmaSum_only hn with hn | ⟨k, hk, hn | hn⟩
    · rcases NanOnly.mul_only _ _ hn with hn | hn
      · exact Or.inl hn
      · exact Or.inr (Or.inl hn)
    · refine Or.inr (Or.inr ⟨k, hk, ?_⟩)
      rcases NanOnly.mul_only _ _ hn with hn | hn
      · exact Or.inl hn
      · exact Or.inr (Or.inl hn)
    · exact Or.inr (Or.inr ⟨k, hk, Or.inr (Or.inr hn)⟩)
  · intro hn
    rcases hn with hn | hn | ⟨k, hk, hn | hn | hn⟩
    · exact fmaSum_nan_acc (NanArith.mul _ _ (Or.inl hn)) _
    · exact fmaSum_nan_acc (NanArith.mul _ _ (Or.inr hn)) _
    · exact fmaSum_nan hk (Or.inl (NanArith.mul _ _ (Or.inl hn)))
    · exact fmaSum_nan hk (Or.inl (NanArith.mul _ _ (Or.inr hn)))
    · exact fmaSum_nan hk (Or.inr hn)

/-- **C76** (trmm with an upper triangular left factor): `C(r,j)` is NaN if `alpha`, a referenced element of row `r` of A, or an element of column `j` of B
is NaN that is in row `r` or below, or in the same block of `SS` rows. -/
theorem C76_trmm_left [NanArith V] {SS : Nat} {m : Mem V} {A B C : Container} (alpha : V) (h : TrmmLArgs SS m A B C) (hs : TrmmLSizes A B C)
    {a b : Nat → Nat → V} (ha : Contains SS m A a) (hb : Contains SS m B b) :
    Leaves SS (trmmLeftCall SS 1 alpha A .upper false B C) m C (fun d => ∀ r j, r < C.rows → j < C.cols →
      (IsNan alpha ∨ (∃ k, r ≤ k ∧ k < B.rows ∧ IsNan (a r k)) ∨ ∃ k, r / SS * SS ≤ k ∧ k < B.rows ∧ IsNan (b k j)) → IsNan (d r j)) := by
  obtain ⟨m', e, e1, -, e2⟩ := det_trmmLeft_val alpha h hs ha hb
  obtain ⟨-, s1, s2⟩ := id hs
  refine ⟨m', _, e, e1, fun r j hr hj hn => ?_⟩
  have hv := e2 r j (by omega) (by omega)
  rcases hn with hn | ⟨k, h1, h2, hn⟩ | ⟨k, h1, h2, hn⟩
  · exact hv.nan_left (Nat.le_refl _) (by omega) (Or.inl hn)
  · exact hv.nan_left h1 h2 (Or.inr hn)
  · exact hv.nan_right h.ss h1 h2 hn

/-- It is not true that `C(r,j)` depends only on the rows `≥ r` of B, as the product with an upper triangular matrix does: the kernel multiplies the zeros
below the diagonal of a block of `SS` rows with the elements of B, and a NaN in row 0 of B gets into row 1 of C, whatever else A and B contain. -/
theorem C76_trmm_left_above_refuted [NanArith V] {SS : Nat} (hSS : 2 ≤ SS) {m : Mem V} {A B C : Container} (alpha : V) (h : TrmmLArgs SS m A B C)
    (hs : TrmmLSizes A B C) {a b : Nat → Nat → V} (ha : Contains SS m A a) (hb : Contains SS m B b) (h2 : 2 ≤ C.rows) :
    Leaves SS (trmmLeftCall SS 1 alpha A .upper false B C) m C (fun d => ∀ j, j < C.cols → IsNan (b 0 j) → IsNan (d 1 j)) := by
  obtain ⟨m', d, e, e1, e2⟩ := C76_trmm_left alpha h hs ha hb
  obtain ⟨-, s1, s2⟩ := id hs
  refine ⟨m', d, e, e1, fun j hj hn => e2 1 j (by omega) hj (Or.inr (Or.inr ⟨0, ?_, by omega, hn⟩))⟩
  rw [Nat.div_eq_of_lt (by omega)]
  omega

/-- **C76** (trmm with a lower triangular right factor). -/
theorem C76_trmm_right [NanArith V] {SS : Nat} {m : Mem V} {A B C : Container} (alpha : V) (h : TrmmRArgs SS m B A C) (hs : TrmmRSizes B A C)
    {a b : Nat → Nat → V} (ha : ContainsLower SS m A a) (hb : Contains SS m B b) :
    Leaves SS (trmmRightCall SS 1 alpha B A .lower false C) m C (fun d => ∀ i j, i < C.rows → j < C.cols →
      (IsNan alpha ∨ ∃ k, j ≤ k ∧ k < B.cols ∧ (IsNan (b i k) ∨ IsNan (a k j))) → IsNan (d i j)) := by
  obtain ⟨m', e, e1, -⟩ := det_trmmRight alpha h hs ha hb
  obtain ⟨-, s1, s2⟩ := id hs
  refine ⟨m', _, e, e1, fun i j hi hj hn => ?_⟩
  unfold trmmRDet
  rcases hn with hn | ⟨k, h1, h2, hn⟩
  · exact fmaSum_nan (k := 0) (by omega) (Or.inl (NanArith.mul _ _ (Or.inl hn)))
  · refine fmaSum_nan (k := k - j) (by omega) ?_
    rw [show j + (k - j) = k by omega]
    rcases hn with hn | hn
    · exact Or.inl (NanArith.mul _ _ (Or.inr hn))
    · exact Or.inr hn

theorem C76_trmm_right_only [NanOnly V] {SS : Nat} {m : Mem V} {A B C : Container} (alpha : V) (h : TrmmRArgs SS m B A C) (hs : TrmmRSizes B A C)
    {a b : Nat → Nat → V} (ha : ContainsLower SS m A a) (hb : Contains SS m B b) :
    Leaves SS (trmmRightCall SS 1 alpha B A .lower false C) m C (fun d => ∀ i j, i < C.rows → j < C.cols →
      (IsNan (d i j) ↔ IsNan alpha ∨ ∃ k, j ≤ k ∧ k < B.cols ∧ (IsNan (b i k) ∨ IsNan (a k j)))) := by
  obtain ⟨m', e, e1, -⟩ := det_trmmRight alpha h hs ha hb
  obtain ⟨-, s1, s2⟩ := id hs
  refine ⟨m', _, e, e1, fun i j hi hj => ⟨fun hn => ?_, fun hn => ?_⟩⟩
  · unfold trmmRDet at hn
    rcases fmaSum_only hn with hn | ⟨t, ht, hn | hn⟩
    · exact absurd hn NanOnly.zero_num
    · rcases NanOnly.mul_only _ _ hn with hn | hn
      · exact Or.inl hn
      · exact Or.inr ⟨j + t, by omega, by omega, Or.inl hn⟩
    · exact Or.inr ⟨j + t, by omega, by omega, Or.inr hn⟩
  · unfold trmmRDet
    rcases hn with hn | ⟨k, h1, h2, hn⟩
    · exact fmaSum_nan (k := 0) (by omega) (Or.inl (NanArith.mul _ _ (Or.inl hn)))
    · refine fmaSum_nan (k := k - j) (by omega) ?_
      rw [show j + (k - j) = k by omega]
      rcases hn with hn | hn
      · exact Or.inl (NanArith.mul _ _ (Or.inr hn))
      · exact Or.inr hn

/-- **C76** (trsm): a NaN in row `k` of the right-hand side (column `j`), or in a referenced element of row `k` of A, makes `x(k,j)` and all elements of
the column that are solved later NaN. -/
theorem C76_trsm [NanArith V] {SS : Nat} {m : Mem V} {A B X : Container} (uplo : UpLo) (unit : Bool) (h : TrsmArgs SS m A B X)
    (hs : (A.rows = B.rows ∧ A.cols = B.rows) ∧ X.rows = B.rows ∧ X.cols = B.cols) {a b : Nat → Nat → V}
    (ha : ContainsTri SS m A uplo unit a) (hb : Contains SS m B b) :
    Leaves SS (trsmCall SS uplo unit A B X) m X (fun x => ∀ k j, k < X.rows → j < X.cols →
      (IsNan (b k j) ∨ ∃ q, q < A.cols ∧ TriRef uplo unit k q ∧ IsNan (a k q)) →
        ∀ r, r < X.rows → (r = k ∨ SolvedBefore uplo k r) → IsNan (x r j)) := by
  obtain ⟨m', e, e1, -⟩ := det_trsm uplo unit h hs ha hb
  refine ⟨m', _, e, e1, fun k j hk hj hn r hr hkr => ?_⟩
  have hrec := trsmSol_rec uplo unit B.rows a (fun i => b i j)
  have hk0 : IsNan (trsmSol uplo unit B.rows a (fun i => b i j) k) := by
    rcases hn with hn | ⟨q, hq, ht, hn⟩
    · exact hrec.nan_rhs (by omega) hn
    · rcases ht with ⟨rfl, rfl⟩ | ⟨rfl, ht⟩ | ⟨rfl, ht⟩
      · exact hrec.nan_diag (by omega) hn
      · exact hrec.nan_term (k := q) (by omega) (by omega) ht (Or.inl hn)
      · exact hrec.nan_term (k := q) (by omega) (by omega) ht (Or.inl hn)
  rcases hkr with rfl | hkr
  · exact hk0
  · exact hrec.nan_term (k := k) (by omega) (by omega) hkr (Or.inr hk0)

/-- what a NaN in the lower triangle of A does to the Cholesky factor: it makes the row `r` of L NaN from column `c` on, and all of L in the columns `≥ r` -/
def CholNan [NanArith V] (M N : Nat) (a l : Nat → Nat → V) : Prop :=
  ∀ r c, c ≤ r → r < M → c < N → IsNan (a r c) → ∀ i j, j ≤ i → i < M → j < N → (i = r ∧ c ≤ j ∨ r ≤ j) → IsNan (l i j)

theorem cholNan_of [NanArith V] {T KN M N : Nat} {a a' l : Nat → Nat → V} (h : ∀ r c, c ≤ r → r < M → c < N → PotRec T KN M l a' r c)
    (ha : ∀ r c, c ≤ r → r < M → c < N → IsNan (a r c) → IsNan (a' r c)) : CholNan M N a l := by
  intro r c hc hr hcN hn i j hji hi hj hp
  have hn' := ha r c hc hr hcN hn
  rcases hp with ⟨rfl, hp⟩ | hp
  · exact pot_nan_row h hp hji hi hj hn'
  · exact pot_nan_all h hc hp hji hi hj hn'

/-- **C76** (potrf, dense). -/
theorem C76_potrf_dense [NanArith V] {SS : Nat} {m : Mem V} {A L : Container} (h : PotrfArgs SS m A L) (hs : PotrfSizes A L) (hf : PotrfFits SS 1 4 A L)
    {a l0 : Nat → Nat → V} (ha : ContainsLower SS m A a) (hl : Contains SS m L l0) :
    Leaves SS (potrfDenseCall SS 1 A L) m L (CholNan A.rows A.cols a) := by
  obtain ⟨m', e, e1, e2, e3⟩ := potrfDenseCall_spec h hs hf
  obtain ⟨m'', f, f1, -⟩ := det_potrfDense h hs hf ha (fun i j _ hi hj => hl i j hi hj)
  have e'' : Res.ok () m'' = Res.ok () m' := f.symm.trans e
  cases e''
  refine ⟨m', _, e, f1, ?_⟩
  obtain ⟨s1, s2, s3⟩ := id hs
  have key : CholNan A.rows A.cols a (fun r c => val m' ((L.mptr SS).addr SS r c)) :=
    cholNan_of e3 (fun r c hc hr hcN hn => by
      have := ha r c hc hr hcN
      rw [Container.addr_eq_mptr] at this
      show IsNan (Arith.mul Arith.one (val m ((A.mptr SS).addr SS r c)))
      rw [val_some this]
      exact NanArith.mul _ _ (Or.inr hn))
  intro r c hc hr hcN hn i j hji hi hj hp
  have := key r c hc hr hcN hn i j hji hi hj hp
  have e4 := f1 i j (by omega) (by omega)
  rw [Container.addr_eq_mptr] at e4
  have e5 : val m' ((L.mptr SS).addr SS i j) = _ := val_some e4
  rw [← e5]
  exact this

/-- **C76** (potrf, panel). -/
theorem C76_potrf_panel [NanArith V] {SS KN : Nat} {m : Mem V} {A L : Container} (h : PotrfArgs SS m A L) (hs : PotrfSizes A L) (hf : PotrfFits SS 1 KN A L)
    {a l0 : Nat → Nat → V} (ha : Contains SS m A a) (hl : Contains SS m L l0) :
    Leaves SS (potrfPanelCall SS KN A L) m L (CholNan A.rows A.cols a) := by
  obtain ⟨m', e, ⟨e1, e2, e3⟩, -⟩ := potrfPanelCall_spec' h hs hf
  obtain ⟨m'', f, f1, -⟩ := det_potrfPanel h hs hf ha (fun i j _ hi hj => hl i j hi hj)
  have e'' : Res.ok () m'' = Res.ok () m' := f.symm.trans e
  cases e''
  refine ⟨m', _, e, f1, ?_⟩
  obtain ⟨s1, s2, s3⟩ := id hs
  have key : CholNan A.rows A.cols a (fun r c => val m' ((L.mptr SS).addr SS r c)) :=
    cholNan_of e3 (fun r c hc hr hcN hn => by
      show IsNan (val m ((A.mptr SS).addr SS r c))
      rw [ha.holds.val hr hcN]
      exact hn)
  intro r c hc hr hcN hn i j hji hi hj hp
  have := key r c hc hr hcN hn i j hji hi hj hp
  have e4 := f1 i j (by omega) (by omega)
  rw [Container.addr_eq_mptr] at e4
  have e5 : val m' ((L.mptr SS).addr SS i j) = _ := val_some e4
  rw [← e5]
  exact this

/-- **C76** (potrf): after the Cholesky factorization of a square matrix, checking one number is enough: if `L(n-1,n-1)` is not NaN then neither is any
element of the lower triangle of A. -/
theorem C76_potrf_check [NanArith V] {n : Nat} {a l : Nat → Nat → V} (h : CholNan n n a l) (hl : ¬ IsNan (l (n - 1) (n - 1))) :
    ∀ r c, c ≤ r → r < n → ¬ IsNan (a r c) := fun r c hc hr hn =>
  hl (h r c hc hr (by omega) hn _ _ (Nat.le_refl _) (by omega) (by omega) (Or.inr (by omega)))

/-- What a NaN in an element of A does to an LU factorization: a NaN is left in A, also if the factorization throws; if A is square and the factorization
returns then its last diagonal element is NaN. -/
def LuNan [NanArith V] (SS : Nat) (p : Prog V (Nat → Nat)) (m : Mem V) (A : Container) : Prop :=
  ∃ (r : Except Exn (Nat → Nat)) (m' : Mem V) (l : Nat → Nat → V), Ends p m r m' ∧ Contains SS m' A l ∧ HasNan A.rows A.cols l ∧
    (A.rows = A.cols → (∃ q, r = .ok q) → IsNan (l (A.rows - 1) (A.rows - 1)))

theorem LuEnds.nan [NanArith V] {SS : Nat} {A : Container} {p : Prog V (Nat → Nat)} {m : Mem V} {l : Nat → Nat → V} {r : Option (Nat → Nat)}
    (h : LuEnds SS A p m (l, r)) (h1 : HasNan A.rows A.cols l) (h2 : A.rows = A.cols → ∀ q, r = some q → IsNan (l (A.rows - 1) (A.rows - 1))) : LuNan SS p m A := by
  obtain ⟨m', e, e1, -⟩ := h
  cases r with
  | none => exact ⟨.error .invalidArgument, m', l, e, e1, h1, fun _ ⟨q, hq⟩ => by cases hq⟩
  | some q => exact ⟨.ok q, m', l, e, e1, h1, fun hsq _ => h2 hsq q rfl⟩

theorem luFull_nan [NanArith V] {dv : V → V → V} {upd : V → V → V → V} (ho : NanOps dv upd) {SS : Nat} {A : Container} {p : Prog V (Nat → Nat)} {m : Mem V}
    {a : Nat → Nat → V} {ip : Nat → Nat} (h : LuEnds SS A p m (luFull dv upd A.rows a ip (min A.rows A.cols))) (hn : HasNan A.rows A.cols a) : LuNan SS p m A := by
  have h1 := hn.luFull ho ip (K := min A.rows A.cols) (by omega)
  rcases hr : luFull dv upd A.rows a ip (min A.rows A.cols) with ⟨l, r⟩
  rw [hr] at h h1
  refine h.nan h1 (fun hsq q hq => ?_)
  subst hq
  rw [← hsq, Nat.min_self] at hr
  rw [← hsq] at hn
  obtain ⟨i, -, hi, -⟩ := id hn
  exact luFull_last_nan ho ip (by omega) hn hr

/-- **C76** (getf2, column-major). -/
theorem C76_getf2 [NanArith V] {SS : Nat} (hSS : 0 < SS) {m : Mem V} {A : Container} (hd : A.isPanel = false) (hs : A.so = .columnMajor)
    (hl : Live SS m A) {a : Nat → Nat → V} (ha : Contains SS m A a) (ip : Nat → Nat) (hn : HasNan A.rows A.cols a) :
    LuNan SS (getf2Ptr SS 1 A.rows A.cols (A.mptr SS) ip) m A :=
  luFull_nan nanOps_col (det_getf2 hSS hd hs hl ha ip) hn

/-- **C76** (getf2, row-major). -/
theorem C76_getf2_row_major [NanArith V] {SS : Nat} (hSS : 0 < SS) (dv : V → V → V) (hdv : ∀ x y, IsNan x ∨ IsNan y → IsNan (dv x y)) {m : Mem V} {A : Container}
    (hd : A.isPanel = false) {a : Nat → Nat → V} (ha : Contains SS m A a) (ip : Nat → Nat) (hn : HasNan A.rows A.cols a) :
    LuNan SS (getf2Row SS dv (A.mat SS) ip) m A :=
  luFull_nan (nanOps_row hdv) (det_getf2Row hSS dv hd ha ip) hn

/-- **C76** (getrf, column-major). -/
theorem C76_getrf [NanArith V] {SS : Nat} (hSS : 0 < SS) {m : Mem V} {A : Container} (hd : A.isPanel = false) (hs : A.so = .columnMajor)
    (hl : Live SS m A) {a : Nat → Nat → V} (ha : Contains SS m A a) (ip : Nat → Nat) (hn : HasNan A.rows A.cols a) :
    LuNan SS (getrfPtr SS 1 A.rows A.cols (A.mptr SS) ip) m A := by
  have h := det_getrf hSS hd hs hl ha ip
  have h1 := hn.getrfFull (T := SS) ip
  rcases hr : getrfFull SS A.rows A.cols a ip with ⟨l, r⟩
  rw [hr] at h h1
  refine h.nan h1 (fun hsq q hq => ?_)
  subst hq
  rw [← hsq] at hr hn
  obtain ⟨i, -, hi, -⟩ := id hn
  exact getrfFull_last_nan hSS ip (by omega) hn hr

/-- **C76** (getrf, row-major). -/
theorem C76_getrf_row_major [NanArith V] {SS : Nat} (hSS : 0 < SS) (dv : V → V → V) (hdv : ∀ x y, IsNan x ∨ IsNan y → IsNan (dv x y)) {m : Mem V} {A : Container}
    {a : Nat → Nat → V} (ha : Contains SS m A a) (ip : Nat → Nat) (hn : HasNan A.rows A.cols a) : LuNan SS (getrfRow SS dv (A.mat SS) ip) m A := by
  refine (det_getrfRow hSS dv ha ip).nan (hn.elimRun hdv _) (fun hsq q _ => ?_)
  rw [← hsq, Nat.min_self]
  rw [← hsq] at hn
  obtain ⟨i, -, hi, -⟩ := id hn
  exact elimRun_last_nan hdv (by omega) hn

end Blast
