import Verif.Scaling
import Verif.Props.Selection
import Verif.Eval
/- Concrete cases meeting the hypotheses of these theorems: Verif/Cases/Scaling.lean. -/
/-
C78: exact scaling. Scaling rows and columns of the arguments by factors with which the arithmetic commutes without rounding differences (±2^k in binary
floating point) scales the result, bit for bit.
-/
set_option linter.unusedSectionVars false
namespace Blast
open Prog Reg
variable {G V : Type} [CommGroup G] [Arith V] [Scaling G V]

/-- The call `p` made in memory `m`, with result object `C`, and the call `q` made in memory `n`, with result object `D`, end in the same way; if they return,
element (i, j) of `D`, for the (i, j) of the set `W`, is afterwards element (i, j) of `C` multiplied by the factor `σ i j`. -/
def Scales {α : Type} (W : Nat → Nat → Prop) (σ : Nat → Nat → G) (SS : Nat) (p : Prog V α) (m : Mem V) (C : Container) (SS' : Nat) (q : Prog V α) (n : Mem V)
    (D : Container) : Prop :=
  ∃ (r : Except Exn α) (m' n' : Mem V) (f g : Nat → Nat → V), Ends p m r m' ∧ Ends q n r n' ∧ Contains SS m' C f ∧ Contains SS' n' D g ∧
    ∀ x, r = .ok x → ∀ i j, i < D.rows → j < D.cols → W i j → g i j = scl (σ i j) (f i j)

/-- **C78** (gemm). A(i,k) multiplied by r(i) t(k), B(k,j) by c(j) / t(k), C(i,j) by s r(i) c(j), alpha by s: D(i,j) is multiplied by s r(i) c(j). -/
theorem C78_gemm {SS SS' : Nat} {m n : Mem V} {A B C D A' B' C' D' : Container} (alpha beta : V)
    (h : GemmArgs SS m A B C D) (hs : GemmSizes A B C D) (h' : GemmArgs SS' n A' B' C' D') (hs' : GemmSizes A' B' C' D')
    (hA : SameSize A A') (hB : SameSize B B') {a b c : Nat → Nat → V} (ha : Contains SS m A a) (hb : Contains SS m B b) (hc : Contains SS m C c)
    (s : G) (r t u : Nat → G) (ha' : Contains SS' n A' (fun i k => scl (r i * t k) (a i k))) (hb' : Contains SS' n B' (fun k j => scl (u j / t k) (b k j)))
    (hc' : Contains SS' n C' (fun i j => scl (s * r i * u j) (c i j))) :
    Scales Everywhere (fun i j => s * r i * u j) SS (gemmCall SS alpha A B beta C D) m D SS' (gemmCall SS' (scl s alpha) A' B' beta C' D') n D' := by
  obtain ⟨m', e, e1⟩ := C04_gemm_bitwise alpha beta h hs ha hb hc
  obtain ⟨n', f, f1⟩ := C04_gemm_bitwise (scl s alpha) beta h' hs' ha' hb' hc'
  rw [hA.2] at f1
  refine ⟨.ok (), m', n', _, _, e, f, e1, f1, fun _ _ i j _ _ _ => ?_⟩
  beta_reduce
  rw [fmaSum_scl_zero (G := G) (f := fun k => r i * t k) (h := fun k => u j / t k) (s := r i * u j) _ (fun k _ => by rw [mul_assoc, mul_div_cancel]),
    scl_mul (k := s * r i * u j) (by rw [mul_comm, mul_assoc]), scl_fma_right]

/-- **C78** (ger). -/
theorem C78_ger {SS SS' : Nat} {m n : Mem V} {x y x' y' : VObj} {A B A' B' : Container} (alpha : V)
    (h : GerArgs SS m x y A B) (hs : GerSizes x y A B) (h' : GerArgs SS' n x' y' A' B') (hs' : GerSizes x' y' A' B')
    {xv yv : Nat → V} {a : Nat → Nat → V} (hx : VContains m x xv) (hy : VContains m y yv) (ha : Contains SS m A a)
    (s : G) (r u : Nat → G) (hx' : VContains n x' (fun i => scl (r i) (xv i))) (hy' : VContains n y' (fun j => scl (u j) (yv j)))
    (ha' : Contains SS' n A' (fun i j => scl (s * r i * u j) (a i j))) :
    Scales Everywhere (fun i j => s * r i * u j) SS (gerCall SS 1 alpha x y A B) m B SS' (gerCall SS' 1 (scl s alpha) x' y' A' B') n B' := by
  obtain ⟨m', e, e1⟩ := det_ger alpha h hs hx hy ha
  obtain ⟨n', f, f1⟩ := det_ger (scl s alpha) h' hs' hx' hy' ha'
  refine ⟨.ok (), m', n', _, _, e, f, e1, f1, fun _ _ i j _ _ _ => ?_⟩
  beta_reduce
  rw [scl_mul rfl, scl_mul_left]
  exact scl_fma rfl _ _ _

/-- **C78** (syrkLower). A(i,k) multiplied by r(i) t with one factor t, C(i,j) and alpha accordingly. -/
theorem C78_syrk {SS SS' : Nat} {m n : Mem V} {A C D A' C' D' : Container} (alpha beta : V)
    (h : SyrkArgs SS m A C D) (hs : SyrkSizes A C D) (h' : SyrkArgs SS' n A' C' D') (hs' : SyrkSizes A' C' D')
    (hA : SameSize A A') {a c d d' : Nat → Nat → V} (ha : Contains SS m A a) (hc : ContainsLower SS m C c) (hd : Contains SS m D d)
    (s : G) (r : Nat → G) (ha' : Contains SS' n A' (fun i k => scl (r i) (a i k))) (hc' : ContainsLower SS' n C' (fun i j => scl (s * r i * r j) (c i j)))
    (hd' : Contains SS' n D' d') :
    Scales OnLower (fun i j => s * r i * r j) SS (syrkCall SS 1 alpha A beta C D) m D SS' (syrkCall SS' 1 (scl s alpha) A' beta C' D') n D' := by
  obtain ⟨m', e, e1, -⟩ := det_syrk alpha beta h hs ha hc hd
  obtain ⟨n', f, f1, -⟩ := det_syrk (scl s alpha) beta h' hs' ha' hc' hd'
  rw [hA.2] at f1
  refine ⟨.ok (), m', n', _, _, e, f, e1, f1, fun _ _ i j _ _ hij => ?_⟩
  unfold OnLower at hij
  unfold syrkDet
  rw [if_pos hij, if_pos hij, scl_mul_left, ← fmaSum_scl (G := G) (f := fun _ => s * r i) (h := fun _ => r j) (s := s * r i * r j) _ (fun _ _ => rfl)]
  exact fmaSum_congr' _ (fun _ _ => scl_mul rfl _ _) (fun _ _ => rfl)

/-- **C78** (trmm from the right). B(i,k) multiplied by r(i) t(k), A(k,j) by c(j) / t(k), alpha by s. -/
theorem C78_trmm_right {SS SS' : Nat} {m n : Mem V} {A B C A' B' C' : Container} (alpha : V)
    (h : TrmmRArgs SS m B A C) (hs : TrmmRSizes B A C) (h' : TrmmRArgs SS' n B' A' C') (hs' : TrmmRSizes B' A' C')
    (hB : SameSize B B') {a b : Nat → Nat → V} (ha : ContainsLower SS m A a) (hb : Contains SS m B b)
    (s : G) (r t u : Nat → G) (ha' : ContainsLower SS' n A' (fun k j => scl (u j / t k) (a k j))) (hb' : Contains SS' n B' (fun i k => scl (r i * t k) (b i k))) :
    Scales Everywhere (fun i j => s * r i * u j) SS (trmmRightCall SS 1 alpha B A .lower false C) m C SS'
      (trmmRightCall SS' 1 (scl s alpha) B' A' .lower false C') n C' := by
  obtain ⟨m', e, e1, -⟩ := det_trmmRight alpha h hs ha hb
  obtain ⟨n', f, f1, -⟩ := det_trmmRight (scl s alpha) h' hs' ha' hb'
  rw [hB.2] at f1
  refine ⟨.ok (), m', n', _, _, e, f, e1, f1, fun _ _ i j _ _ _ => ?_⟩
  unfold trmmRDet
  rw [← fmaSum_scl_zero (G := G) (f := fun k => s * (r i * t (j + k))) (h := fun k => u j / t (j + k)) (s := s * r i * u j) _
    (fun k _ => by rw [← mul_assoc, mul_assoc (s * r i), mul_div_cancel])]
  exact fmaSum_congr' _ (fun _ _ => scl_mul rfl _ _) (fun _ _ => rfl)

/-- **C78** (trmm from the left). A(i,k) multiplied by r(i) t(k), B(k,j) by c(j) / t(k), alpha by s. -/
theorem C78_trmm_left {SS : Nat} {m n : Mem V} {A B C A' B' C' : Container} (alpha : V)
    (h : TrmmLArgs SS m A B C) (hs : TrmmLSizes A B C) (h' : TrmmLArgs SS n A' B' C') (hs' : TrmmLSizes A' B' C')
    (hB : SameSize B B') {a b : Nat → Nat → V} (ha : Contains SS m A a) (hb : Contains SS m B b)
    (s : G) (r t u : Nat → G) (ha' : Contains SS n A' (fun i k => scl (r i * t k) (a i k))) (hb' : Contains SS n B' (fun k j => scl (u j / t k) (b k j))) :
    Scales Everywhere (fun i j => s * r i * u j) SS (trmmLeftCall SS 1 alpha A .upper false B C) m C SS
      (trmmLeftCall SS 1 (scl s alpha) A' .upper false B' C') n C' := by
  obtain ⟨m', e, e1, -, v⟩ := det_trmmLeft_val alpha h hs ha hb
  obtain ⟨n', f, f1, -, v'⟩ := det_trmmLeft_val (scl s alpha) h' hs' ha' hb'
  obtain ⟨s1, s2, s3⟩ := hs
  obtain ⟨t1, t2, t3⟩ := hs'
  obtain ⟨b1, b2⟩ := hB
  refine ⟨.ok (), m', n', _, _, e, f, e1, f1, fun _ _ i j hi hj _ => ?_⟩
  have w' := v' i j (by omega) (by omega)
  rw [b1, b2] at w' ⊢
  exact w'.unique ((v i j (by omega) (by omega)).scl r t u s)

/-- **C78** (trsm). A(i,k) multiplied by r(i) t(k), B(i,j) by r(i) c(j): X(k,j) is multiplied by c(j) / t(k). With a unit diagonal, r(i) t(i) = 1. -/
theorem C78_trsm {SS SS' : Nat} {m n : Mem V} {A B X A' B' X' : Container} (uplo : UpLo) (unit : Bool)
    (h : TrsmArgs SS m A B X) (hs : (A.rows = B.rows ∧ A.cols = B.rows) ∧ X.rows = B.rows ∧ X.cols = B.cols)
    (h' : TrsmArgs SS' n A' B' X') (hs' : (A'.rows = B'.rows ∧ A'.cols = B'.rows) ∧ X'.rows = B'.rows ∧ X'.cols = B'.cols)
    (hB : SameSize B B') {a b : Nat → Nat → V} (ha : ContainsTri SS m A uplo unit a) (hb : Contains SS m B b) (r t u : Nat → G)
    (hu : unit = true → ∀ i, i < B.rows → r i * t i = 1)
    (ha' : ContainsTri SS' n A' uplo unit (fun i k => scl (r i * t k) (a i k))) (hb' : Contains SS' n B' (fun i j => scl (r i * u j) (b i j))) :
    Scales Everywhere (fun k j => u j / t k) SS (trsmCall SS uplo unit A B X) m X SS' (trsmCall SS' uplo unit A' B' X') n X' := by
  obtain ⟨m', e, e1, -⟩ := det_trsm uplo unit h hs ha hb
  obtain ⟨n', f, f1, -⟩ := det_trsm uplo unit h' hs' ha' hb'
  rw [hB.1] at f1
  obtain ⟨s1, s2, s3⟩ := hs
  obtain ⟨t1, t2, t3⟩ := hs'
  obtain ⟨b1, b2⟩ := hB
  exact ⟨.ok (), m', n', _, _, e, f, e1, f1, fun _ _ i j hi _ _ => trsmSol_scl a (fun i => b i j) r t (u j) hu (by omega)⟩

/-- **C78** (potrf, dense). A(i,j) multiplied by s(i) s(j), with positive factors s: L(i,j) is multiplied by s(i). -/
theorem C78_potrf_dense {G V : Type} [CommGroup G] [Arith V] [S : ScalingSqrt G V] {SS : Nat} {m n : Mem V} {A L A' L' : Container}
    (h : PotrfArgs SS m A L) (hs : PotrfSizes A L) (hf : PotrfFits SS 1 4 A L) (h' : PotrfArgs SS n A' L') (hs' : PotrfSizes A' L')
    (hf' : PotrfFits SS 1 4 A' L') (hA : SameSize A A') {a l l' : Nat → Nat → V} (ha : ContainsLower SS m A a) (hl : Contains SS m L l)
    (s : Nat → G) (hp : ∀ i, i < A.rows → S.Pos (s i)) (ha' : ContainsLower SS n A' (fun i j => scl (s i * s j) (a i j))) (hl' : Contains SS n L' l') :
    Scales OnLower (fun i _ => s i) SS (potrfDenseCall SS 1 A L) m L SS (potrfDenseCall SS 1 A' L') n L' := by
  obtain ⟨m', e, e1, -, hall⟩ := det_potrfDense_all h hs hf ha (fun i j _ hi hj => hl i j hi hj)
  obtain ⟨n', f, f1, -, hall'⟩ := det_potrfDense_all h' hs' hf' ha' (fun i j _ hi hj => hl' i j hi hj)
  obtain ⟨s1, s2, s3⟩ := hs
  obtain ⟨t1, t2, t3⟩ := hs'
  refine ⟨.ok (), m', n', _, _, e, f, e1, f1, fun _ _ i j hi hj hij => ?_⟩
  unfold OnLower at hij
  have hkn := hf'.knT
  rw [hA.1, hA.2] at hall' ⊢
  unfold potDenseDet
  show (if _ then _ else _) = scl (s i) (if j ≤ i then _ else _)
  rw [if_pos hij, if_pos hij]
  have hm : (fun r c => Arith.mul Arith.one (scl (s r * s c) (a r c))) = fun r c => scl (s r * s c) (Arith.mul Arith.one (a r c)) := by
    funext r c; exact scl_mul_left _ _ _
  rw [hm] at hall' ⊢
  have hsz := hA.1
  have hsc := hA.2
  exact (PotAll.unique (by omega) (by omega) (by omega) hall' (hall.scl s hp (by omega))).1 i j hij (by omega) (by omega)

/-- **C78** (potrf, panel). -/
theorem C78_potrf_panel {G V : Type} [CommGroup G] [Arith V] [S : ScalingSqrt G V] {SS KN : Nat} {m n : Mem V} {A L A' L' : Container}
    (h : PotrfArgs SS m A L) (hs : PotrfSizes A L) (hf : PotrfFits SS 1 KN A L) (h' : PotrfArgs SS n A' L') (hs' : PotrfSizes A' L')
    (hf' : PotrfFits SS 1 KN A' L') (hA : SameSize A A') {a l l' : Nat → Nat → V} (ha : Contains SS m A a) (hl : Contains SS m L l)
    (s : Nat → G) (hp : ∀ i, i < A.rows → S.Pos (s i)) (ha' : Contains SS n A' (fun i j => scl (s i * s j) (a i j))) (hl' : Contains SS n L' l') :
    Scales OnLower (fun i _ => s i) SS (potrfPanelCall SS KN A L) m L SS (potrfPanelCall SS KN A' L') n L' := by
  obtain ⟨m', e, e1, -, hall⟩ := det_potrfPanel_all h hs hf ha (fun i j _ hi hj => hl i j hi hj)
  obtain ⟨n', f, f1, -, hall'⟩ := det_potrfPanel_all h' hs' hf' ha' (fun i j _ hi hj => hl' i j hi hj)
  obtain ⟨s1, s2, s3⟩ := hs
  obtain ⟨t1, t2, t3⟩ := hs'
  refine ⟨.ok (), m', n', _, _, e, f, e1, f1, fun _ _ i j hi hj hij => ?_⟩
  unfold OnLower at hij
  have : j / KN * KN ≤ j := Nat.div_mul_le_self j KN
  rw [hA.1, hA.2] at hall' ⊢
  unfold potPanelDet
  show (if _ then _ else _) = scl (s i) (if j / KN * KN ≤ i then _ else _)
  rw [if_pos (by omega), if_pos (by omega)]
  have hsz := hA.1
  have hsc := hA.2
  exact (PotAll.unique hf'.kn (by have := hf'.knT; omega) (by omega) hall' (hall.scl s hp (by omega))).1 i j hij (by omega) (by omega)

/-- the elements of the factors stored by an LU factorization of a matrix whose column j was multiplied by c(j): L as before, column j of U multiplied by c(j) -/
def luFactor (c : Nat → G) (i j : Nat) : G := if j < i then 1 else c j

theorem luFactor_full {M N : Nat} (c : Nat → G) (f : Nat → Nat → V) {i j : Nat} (hi : i < M) (hj : j < N) : luSclM M c (min M N) f i j = scl (luFactor c i j) (f i j) := by
  unfold luSclM luFactor
  by_cases h : j < i
  · rw [if_pos (by omega), if_pos h]
    exact (Scaling.one_act _).symm
  · rw [if_neg (by omega), if_neg h]

theorem luFactor_step {M N : Nat} (c : Nat → G) (f : Nat → Nat → V) {i j : Nat} (hi : i < M) (hj : j < N) : luScl c (min M N) f i j = scl (luFactor c i j) (f i j) := by
  unfold luScl luFactor
  by_cases h : j < i
  · rw [if_pos (by omega), if_pos h]
    exact (Scaling.one_act _).symm
  · rw [if_neg (by omega), if_neg h]

theorem LuEnds.scales {SS SS' : Nat} {A A' : Container} {p q : Prog V (Nat → Nat)} {m n : Mem V} {r r' : (Nat → Nat → V) × Option (Nat → Nat)} {σ : Nat → Nat → G}
    (h : LuEnds SS A p m r) (h' : LuEnds SS' A' q n r') (e2 : r'.2 = r.2)
    (e1 : r.2.isSome = true → ∀ i j, i < A'.rows → j < A'.cols → r'.1 i j = scl (σ i j) (r.1 i j)) : Scales Everywhere σ SS p m A SS' q n A' := by
  obtain ⟨m', e, g1, -⟩ := h
  obtain ⟨n', f, f1, -⟩ := h'
  cases hr : r.2 with
  | none =>
    rw [e2, hr] at f
    rw [hr] at e
    exact ⟨.error .invalidArgument, m', n', _, _, e, f, g1, f1, fun x hx => by cases hx⟩
  | some p =>
    rw [e2, hr] at f
    rw [hr] at e
    exact ⟨.ok p, m', n', _, _, e, f, g1, f1, fun x _ i j hi hj _ => e1 (by rw [hr]; rfl) i j hi hj⟩

/-- **C78** (getf2, column-major). Column j of A multiplied by c(j): the same outcome and pivots, the same L, column j of U multiplied by c(j). -/
theorem C78_getf2 {SS SS' : Nat} (hSS : 0 < SS) (hSS' : 0 < SS') {m n : Mem V} {A A' : Container} (hd : A.isPanel = false) (hs : A.so = .columnMajor)
    (hl : Live SS m A) (hd' : A'.isPanel = false) (hs' : A'.so = .columnMajor) (hl' : Live SS' n A') (hA : SameSize A A')
    {a : Nat → Nat → V} (ha : Contains SS m A a) (c : Nat → G) (ha' : Contains SS' n A' (fun i j => scl (c j) (a i j))) (ip : Nat → Nat) :
    Scales Everywhere (luFactor c) SS (getf2Ptr SS 1 A.rows A.cols (A.mptr SS) ip) m A SS' (getf2Ptr SS' 1 A'.rows A'.cols (A'.mptr SS') ip) n A' := by
  have k := luFull_luScl (luScales_col c) (m := A.rows) a ip (min A.rows A.cols) (by omega)
  have d := det_getf2 hSS' hd' hs' hl' ha' ip
  have hsz := hA.1
  have hsc := hA.2
  rw [hA.1, hA.2] at d ⊢
  refine (det_getf2 hSS hd hs hl ha ip).scales d k.1 (fun hh i j hi hj => ?_)
  rw [k.2 hh]
  exact luFactor_step c _ (by omega) (by omega)

/-- **C78** (getf2, row-major). `dv` is Blaze's division of a column by the pivot. -/
theorem C78_getf2_row_major {SS SS' : Nat} (hSS : 0 < SS) (hSS' : 0 < SS') {dv : V → V → V} (hdv : ∀ (g h : G) (x d : V), dv (scl g x) (scl h d) = scl (g / h) (dv x d))
    {m n : Mem V} {A A' : Container} (hd : A.isPanel = false)
    (hd' : A'.isPanel = false) (hA : SameSize A A') {a : Nat → Nat → V} (ha : Contains SS m A a) (c : Nat → G) (ha' : Contains SS' n A' (fun i j => scl (c j) (a i j)))
    (ip : Nat → Nat) :
    Scales Everywhere (luFactor c) SS (getf2Row SS dv (A.mat SS) ip) m A SS' (getf2Row SS' dv (A'.mat SS') ip) n A' := by
  have k := luFull_luScl (luScales_row c hdv) (m := A.rows) a ip (min A.rows A.cols) (by omega)
  have d := det_getf2Row hSS' dv hd' ha' ip
  have hsz := hA.1
  have hsc := hA.2
  rw [hA.1, hA.2] at d
  refine (det_getf2Row hSS dv hd ha ip).scales d k.1 (fun hh i j hi hj => ?_)
  rw [k.2 hh]
  exact luFactor_step c _ (by omega) (by omega)

/-- **C78** (getrf, column-major). -/
theorem C78_getrf {SS : Nat} (hSS : 0 < SS) {m n : Mem V} {A A' : Container} (hd : A.isPanel = false) (hs : A.so = .columnMajor)
    (hl : Live SS m A) (hd' : A'.isPanel = false) (hs' : A'.so = .columnMajor) (hl' : Live SS n A') (hA : SameSize A A')
    {a : Nat → Nat → V} (ha : Contains SS m A a) (c : Nat → G) (ha' : Contains SS n A' (fun i j => scl (c j) (a i j))) (ip : Nat → Nat) :
    Scales Everywhere (luFactor c) SS (getrfPtr SS 1 A.rows A.cols (A.mptr SS) ip) m A SS (getrfPtr SS 1 A'.rows A'.cols (A'.mptr SS) ip) n A' := by
  have d := det_getrf hSS hd' hs' hl' ha' ip
  have hsz := hA.1
  have hsc := hA.2
  rw [hA.1, hA.2] at d ⊢
  refine (det_getrf hSS hd hs hl ha ip).scales d (getrfFull_scl c a ip).1 (fun hh i j hi hj => ?_)
  rw [(getrfFull_scl c a ip).2 hh]
  exact luFactor_full c _ (by omega) (by omega)

/-- **C78** (getrf, row-major, which does not pivot). A(i,j) multiplied by r(i) c(j): L(i,j) is multiplied by r(i) / r(j), U(i,j) by r(i) c(j). -/
theorem C78_getrf_row_major {SS SS' : Nat} (hSS : 0 < SS) (hSS' : 0 < SS') {dv : V → V → V} (hdv : ∀ (g h : G) (x d : V), dv (scl g x) (scl h d) = scl (g / h) (dv x d))
    {m n : Mem V} {A A' : Container} (hA : SameSize A A') {a : Nat → Nat → V} (ha : Contains SS m A a) (r c : Nat → G)
    (ha' : Contains SS' n A' (fun i j => scl (r i * c j) (a i j))) (ip : Nat → Nat) :
    Scales Everywhere (fun i j => if j < i then r i / r j else r i * c j) SS (getrfRow SS dv (A.mat SS) ip) m A SS' (getrfRow SS' dv (A'.mat SS') ip) n A' := by
  have d := det_getrfRow hSS' dv ha' ip
  have hsz := hA.1
  have hsc := hA.2
  rw [hA.1, hA.2, elimRun_scl hdv] at d
  refine (det_getrfRow hSS dv ha ip).scales d rfl (fun _ i j hi hj => ?_)
  show npScl r c _ _ i j = _
  unfold npScl
  by_cases h : j < i
  · rw [if_pos (by omega), if_pos h]
  · rw [if_neg (by omega), if_neg h]

end Blast
