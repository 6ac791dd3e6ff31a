import Verif.Determined
import Verif.Props.History
import Verif.Props.Ger
/- Concrete cases meeting the hypotheses of these theorems: Verif/Cases/Reproducible.lean, and the examples in this file. -/
/-
C74: the result of a call depends only on the elements of its arguments, bit for bit, in any arithmetic.
C75: whole programs are safe and reproducible in any arithmetic.
-/
set_option linter.unusedSectionVars false
namespace Blast
open Prog Reg
variable {V : Type} [Arith V]

/-! ### C74 -/

/-- The call `p` made in memory `m`, with result object `C`, and the call `q` made in memory `n`, with result object `D`, end in the same way
(both return the same value or both throw the same exception), and afterwards the elements of `C` and `D` are the same. -/
def SameResult {α : Type} (SS : Nat) (p : Prog V α) (m : Mem V) (C : Container) (SS' : Nat) (q : Prog V α) (n : Mem V) (D : Container) : Prop :=
  ∃ (r : Except Exn α) (m' n' : Mem V) (f : Nat → Nat → V), Ends p m r m' ∧ Ends q n r n' ∧ Contains SS m' C f ∧ Contains SS' n' D f

/-- two matrix objects have the same size -/
def SameSize (A A' : Container) : Prop := A'.rows = A.rows ∧ A'.cols = A.cols

/-- **C74** (gemm). -/
theorem C74_gemm {SS SS' : Nat} {m n : Mem V} {A B C D A' B' C' D' : Container} (alpha beta : V)
    (h : GemmArgs SS m A B C D) (hs : GemmSizes A B C D) (h' : GemmArgs SS' n A' B' C' D') (hs' : GemmSizes A' B' C' D')
    (hA : SameSize A A') {a b c : Nat → Nat → V} (ha : Contains SS m A a) (hb : Contains SS m B b) (hc : Contains SS m C c)
    (ha' : Contains SS' n A' a) (hb' : Contains SS' n B' b) (hc' : Contains SS' n C' c) :
    SameResult SS (gemmCall SS alpha A B beta C D) m D SS' (gemmCall SS' alpha A' B' beta C' D') n D' := by
  obtain ⟨m', e, e1⟩ := C04_gemm_bitwise alpha beta h hs ha hb hc
  obtain ⟨n', f, f1⟩ := C04_gemm_bitwise alpha beta h' hs' ha' hb' hc'
  rw [hA.2] at f1
  exact ⟨.ok (), m', n', _, e, f, e1, f1⟩

/-- **C74** (ger). -/
theorem C74_ger {SS SS' : Nat} {m n : Mem V} {x y x' y' : VObj} {A B A' B' : Container} (alpha : V)
    (h : GerArgs SS m x y A B) (hs : GerSizes x y A B) (h' : GerArgs SS' n x' y' A' B') (hs' : GerSizes x' y' A' B')
    {xv yv : Nat → V} {a : Nat → Nat → V} (hx : VContains m x xv) (hy : VContains m y yv) (ha : Contains SS m A a)
    (hx' : VContains n x' xv) (hy' : VContains n y' yv) (ha' : Contains SS' n A' a) :
    SameResult SS (gerCall SS 1 alpha x y A B) m B SS' (gerCall SS' 1 alpha x' y' A' B') n B' := by
  have key : ∀ {SS : Nat} {m : Mem V} {x y : VObj} {A B : Container}, GerArgs SS m x y A B → GerSizes x y A B → VContains m x xv → VContains m y yv →
      Contains SS m A a → ∃ m', gerCall SS 1 alpha x y A B m = .ok () m' ∧
        Contains SS m' B (fun i j => Arith.fma (Arith.mul alpha (xv i)) (yv j) (Arith.mul Arith.one (a i j))) := by
    intro SS m x y A B h hs hx hy ha
    obtain ⟨m', h1, h2, -⟩ := gerPtr_correct (alpha := alpha) (h.pre hs)
    rw [gerCall_sizes hs]
    obtain ⟨⟨e1, e2⟩, e3, e4⟩ := hs
    refine ⟨m', h1, fun i j hi hj => ?_⟩
    rw [Container.addr_eq_mptr, h2 i j (by omega) (by omega), ha.holds.val (by omega) (by omega)]
    have ex : val m (x.ptr.addr SS i) = xv i := by
      rw [VObj.ptr_addr]; unfold val; rw [hx i (by omega)]; rfl
    have ey : val m (y.ptr.addr SS j) = yv j := by
      rw [VObj.ptr_addr]; unfold val; rw [hy j (by omega)]; rfl
    rw [ex, ey]
    rfl
  obtain ⟨m', e, e1⟩ := key h hs hx hy ha
  obtain ⟨n', f, f1⟩ := key h' hs' hx' hy' ha'
  exact ⟨.ok (), m', n', _, e, f, e1, f1⟩

/-- **C74** (syrkLower): the elements of D above the diagonal are kept. -/
theorem C74_syrk {SS SS' : Nat} {m n : Mem V} {A C D A' C' D' : Container} (alpha beta : V)
    (h : SyrkArgs SS m A C D) (hs : SyrkSizes A C D) (h' : SyrkArgs SS' n A' C' D') (hs' : SyrkSizes A' C' D')
    (hA : SameSize A A') {a c d : Nat → Nat → V} (ha : Contains SS m A a) (hc : ContainsLower SS m C c) (hd : Contains SS m D d)
    (ha' : Contains SS' n A' a) (hc' : ContainsLower SS' n C' c) (hd' : Contains SS' n D' d) :
    SameResult SS (syrkCall SS 1 alpha A beta C D) m D SS' (syrkCall SS' 1 alpha A' beta C' D') n D' := by
  obtain ⟨m', e, e1, -⟩ := det_syrk alpha beta h hs ha hc hd
  obtain ⟨n', f, f1, -⟩ := det_syrk alpha beta h' hs' ha' hc' hd'
  rw [hA.2] at f1
  exact ⟨.ok (), m', n', _, e, f, e1, f1⟩

/-- **C74** (trmm from the left). -/
theorem C74_trmm_left {SS : Nat} {m n : Mem V} {A B C A' B' C' : Container} (alpha : V)
    (h : TrmmLArgs SS m A B C) (hs : TrmmLSizes A B C) (h' : TrmmLArgs SS n A' B' C') (hs' : TrmmLSizes A' B' C')
    (hB : SameSize B B') {a b : Nat → Nat → V} (ha : Contains SS m A a) (hb : Contains SS m B b)
    (ha' : Contains SS n A' a) (hb' : Contains SS n B' b) :
    SameResult SS (trmmLeftCall SS 1 alpha A .upper false B C) m C SS (trmmLeftCall SS 1 alpha A' .upper false B' C') n C' := by
  obtain ⟨m', e, e1, -⟩ := det_trmmLeft alpha h hs ha hb
  obtain ⟨n', f, f1, -⟩ := det_trmmLeft alpha h' hs' ha' hb'
  rw [hB.1, hB.2] at f1
  exact ⟨.ok (), m', n', _, e, f, e1, f1⟩

/-- **C74** (trmm from the right): only the lower triangle of A matters. -/
theorem C74_trmm_right {SS SS' : Nat} {m n : Mem V} {A B C A' B' C' : Container} (alpha : V)
    (h : TrmmRArgs SS m B A C) (hs : TrmmRSizes B A C) (h' : TrmmRArgs SS' n B' A' C') (hs' : TrmmRSizes B' A' C')
    (hB : SameSize B B') {a b : Nat → Nat → V} (ha : ContainsLower SS m A a) (hb : Contains SS m B b)
    (ha' : ContainsLower SS' n A' a) (hb' : Contains SS' n B' b) :
    SameResult SS (trmmRightCall SS 1 alpha B A .lower false C) m C SS' (trmmRightCall SS' 1 alpha B' A' .lower false C') n C' := by
  obtain ⟨m', e, e1, -⟩ := det_trmmRight alpha h hs ha hb
  obtain ⟨n', f, f1, -⟩ := det_trmmRight alpha h' hs' ha' hb'
  rw [hB.2] at f1
  exact ⟨.ok (), m', n', _, e, f, e1, f1⟩

/-- **C74** (trsm): only the triangle of A named in the call matters (without the diagonal, if it is a unit triangle). -/
theorem C74_trsm {SS SS' : Nat} {m n : Mem V} {A B X A' B' X' : Container} (uplo : UpLo) (unit : Bool)
    (h : TrsmArgs SS m A B X) (hs : (A.rows = B.rows ∧ A.cols = B.rows) ∧ X.rows = B.rows ∧ X.cols = B.cols)
    (h' : TrsmArgs SS' n A' B' X') (hs' : (A'.rows = B'.rows ∧ A'.cols = B'.rows) ∧ X'.rows = B'.rows ∧ X'.cols = B'.cols)
    (hB : SameSize B B') {a b : Nat → Nat → V} (ha : ContainsTri SS m A uplo unit a) (hb : Contains SS m B b)
    (ha' : ContainsTri SS' n A' uplo unit a) (hb' : Contains SS' n B' b) :
    SameResult SS (trsmCall SS uplo unit A B X) m X SS' (trsmCall SS' uplo unit A' B' X') n X' := by
  obtain ⟨m', e, e1, -⟩ := det_trsm uplo unit h hs ha hb
  obtain ⟨n', f, f1, -⟩ := det_trsm uplo unit h' hs' ha' hb'
  rw [hB.1] at f1
  exact ⟨.ok (), m', n', _, e, f, e1, f1⟩

/-- **C74** (potrf on dense matrices): all of L, if the elements above the diagonal were the same before. -/
theorem C74_potrf_dense {SS : Nat} {m n : Mem V} {A L A' L' : Container}
    (h : PotrfArgs SS m A L) (hs : PotrfSizes A L) (hf : PotrfFits SS 1 4 A L) (h' : PotrfArgs SS n A' L') (hs' : PotrfSizes A' L')
    (hf' : PotrfFits SS 1 4 A' L') (hA : SameSize A A') {a l : Nat → Nat → V} (ha : ContainsLower SS m A a) (hl : Contains SS m L l)
    (ha' : ContainsLower SS n A' a) (hl' : Contains SS n L' l) :
    SameResult SS (potrfDenseCall SS 1 A L) m L SS (potrfDenseCall SS 1 A' L') n L' := by
  obtain ⟨m', e, e1, -⟩ := det_potrfDense h hs hf ha (fun i j _ hi hj => hl i j hi hj)
  obtain ⟨n', f, f1, -⟩ := det_potrfDense h' hs' hf' ha' (fun i j _ hi hj => hl' i j hi hj)
  rw [hA.1, hA.2] at f1
  exact ⟨.ok (), m', n', _, e, f, e1, f1⟩

/-- **C74** (potrf on panel matrices): all of L, also the elements above the diagonal that the factorization overwrites. -/
theorem C74_potrf_panel {SS KN : Nat} {m n : Mem V} {A L A' L' : Container}
    (h : PotrfArgs SS m A L) (hs : PotrfSizes A L) (hf : PotrfFits SS 1 KN A L) (h' : PotrfArgs SS n A' L') (hs' : PotrfSizes A' L')
    (hf' : PotrfFits SS 1 KN A' L') (hA : SameSize A A') {a l : Nat → Nat → V} (ha : Contains SS m A a) (hl : Contains SS m L l)
    (ha' : Contains SS n A' a) (hl' : Contains SS n L' l) :
    SameResult SS (potrfPanelCall SS KN A L) m L SS (potrfPanelCall SS KN A' L') n L' := by
  obtain ⟨m', e, e1, -⟩ := det_potrfPanel h hs hf ha (fun i j _ hi hj => hl i j hi hj)
  obtain ⟨n', f, f1, -⟩ := det_potrfPanel h' hs' hf' ha' (fun i j _ hi hj => hl' i j hi hj)
  rw [hA.1, hA.2] at f1
  exact ⟨.ok (), m', n', _, e, f, e1, f1⟩

theorem LuEnds.same {SS SS' : Nat} {m n : Mem V} {A A' : Container} {p q : Prog V (Nat → Nat)} {r r' : (Nat → Nat → V) × Option (Nat → Nat)}
    (h : LuEnds SS A p m r) (h' : LuEnds SS' A' q n r') (e : r = r') : SameResult SS p m A SS' q n A' := by
  subst e
  obtain ⟨m', e, e1, -⟩ := h
  obtain ⟨n', f, f1, -⟩ := h'
  cases hr : r.2 with
  | none =>
    rw [hr] at e f
    exact ⟨.error .invalidArgument, m', n', _, e, f, e1, f1⟩
  | some p =>
    rw [hr] at e f
    exact ⟨.ok p, m', n', _, e, f, e1, f1⟩

/-- **C74** (getf2, column-major): the outcome, the pivots and the elements, also after `std::invalid_argument`. -/
theorem C74_getf2 {SS SS' : Nat} (hSS : 0 < SS) (hSS' : 0 < SS') {m n : Mem V} {A A' : Container} (hd : A.isPanel = false) (hs : A.so = .columnMajor)
    (hl : Live SS m A) (hd' : A'.isPanel = false) (hs' : A'.so = .columnMajor) (hl' : Live SS' n A') (hA : SameSize A A')
    {a : Nat → Nat → V} (ha : Contains SS m A a) (ha' : Contains SS' n A' a) (ip : Nat → Nat) :
    SameResult SS (getf2Ptr SS 1 A.rows A.cols (A.mptr SS) ip) m A SS' (getf2Ptr SS' 1 A'.rows A'.cols (A'.mptr SS') ip) n A' :=
  (det_getf2 hSS hd hs hl ha ip).same (det_getf2 hSS' hd' hs' hl' ha' ip) (by rw [hA.1, hA.2])

/-- **C74** (getf2, row-major). `dv`: the division. -/
theorem C74_getf2_row_major {SS SS' : Nat} (hSS : 0 < SS) (hSS' : 0 < SS') (dv : V → V → V) {m n : Mem V} {A A' : Container} (hd : A.isPanel = false)
    (hd' : A'.isPanel = false) (hA : SameSize A A') {a : Nat → Nat → V} (ha : Contains SS m A a) (ha' : Contains SS' n A' a) (ip : Nat → Nat) :
    SameResult SS (getf2Row SS dv (A.mat SS) ip) m A SS' (getf2Row SS' dv (A'.mat SS') ip) n A' :=
  (det_getf2Row hSS dv hd ha ip).same (det_getf2Row hSS' dv hd' ha' ip) (by rw [hA.1, hA.2])

/-- **C74** (getrf, column-major). -/
theorem C74_getrf {SS : Nat} (hSS : 0 < SS) {m n : Mem V} {A A' : Container} (hd : A.isPanel = false) (hs : A.so = .columnMajor)
    (hl : Live SS m A) (hd' : A'.isPanel = false) (hs' : A'.so = .columnMajor) (hl' : Live SS n A') (hA : SameSize A A')
    {a : Nat → Nat → V} (ha : Contains SS m A a) (ha' : Contains SS n A' a) (ip : Nat → Nat) :
    SameResult SS (getrfPtr SS 1 A.rows A.cols (A.mptr SS) ip) m A SS (getrfPtr SS 1 A'.rows A'.cols (A'.mptr SS) ip) n A' :=
  (det_getrf hSS hd hs hl ha ip).same (det_getrf hSS hd' hs' hl' ha' ip) (by rw [hA.1, hA.2])

/-- **C74** (getrf, row-major). -/
theorem C74_getrf_row_major {SS SS' : Nat} (hSS : 0 < SS) (hSS' : 0 < SS') (dv : V → V → V) {m n : Mem V} {A A' : Container}
    (hA : SameSize A A') {a : Nat → Nat → V} (ha : Contains SS m A a) (ha' : Contains SS' n A' a) (ip : Nat → Nat) :
    SameResult SS (getrfRow SS dv (A.mat SS) ip) m A SS' (getrfRow SS' dv (A'.mat SS') ip) n A' :=
  (det_getrfRow hSS dv ha ip).same (det_getrfRow hSS' dv ha' ip) (by rw [hA.1, hA.2])

/-- **C74** (makePositiveDefinite): for the same random numbers, the same matrix, wherever the temporary is allocated (`t`, `t'`). -/
theorem C74_makePositiveDefinite {SS SS' : Nat} (hSS : 0 < SS) (hSS' : 0 < SS') {m n : Mem V} {A A' : Container} (hd : A.isPanel = false)
    (hl : Live SS m A) (hd' : A'.isPanel = false) (hl' : Live SS' n A') (hA : SameSize A A') (hsq : A.rows = A.cols) {t t' : Int}
    (ht : t % (SS : Int) = 0) (hfree : ∀ z, (⟨.dynDense, .columnMajor, A.cols, A.cols, t⟩ : Container).Storage SS z → m z = none)
    (ht' : t' % (SS' : Int) = 0) (hfree' : ∀ z, (⟨.dynDense, .columnMajor, A'.cols, A'.cols, t'⟩ : Container).Storage SS' z → n z = none)
    (rnd : Nat → Nat → V) (etN : V) :
    SameResult SS (makePositiveDefinite SS t rnd etN (.obj A)) m A SS' (makePositiveDefinite SS' t' rnd etN (.obj A')) n A' := by
  obtain ⟨m', e, e1, -⟩ := det_makePositiveDefinite (e := .obj A) hSS hd (show (MExpr.obj A).Fits from trivial) hl hsq ht hfree rnd etN
  obtain ⟨n', f, f1, -⟩ := det_makePositiveDefinite (e := .obj A') hSS' hd' (show (MExpr.obj A').Fits from trivial) hl'
    (show A'.rows = A'.cols by rw [hA.1, hA.2, hsq]) ht' hfree' rnd etN
  refine ⟨.ok (), m', n', _, e, f, fun i j hi hj => elems_iff.1 e1 i j hi hj, fun i j hi hj => ?_⟩
  have := elems_iff.1 f1 i j hi hj
  change n' (A'.addr SS' i j) = some (makePosDet A'.cols rnd etN i j) at this
  rw [hA.2] at this
  exact this

/-! ### C75: specification -/

/-- the addresses chosen by the allocator (or the compiler) replaced by 0 -/
def Op.unplaced : Op V → Op V
  | .create x c => .create x { c with data := 0 }
  | .createFill x c v => .createFill x { c with data := 0 } v
  | .createList x c l => .createList x { c with data := 0 } l
  | .copyCreate x y _ => .copyCreate x y 0
  | .moveCreate x y _ => .moveCreate x y 0
  | o => o

def HStep.unplaced : HStep V → HStep V
  | .op o => .op o.unplaced
  | .call (.makePositiveDefinite x _ rnd etN) => .call (.makePositiveDefinite x 0 rnd etN)
  | .call c => .call c

/-- Two runs of one and the same client program: the same steps, but the objects and temporaries may get other addresses. -/
def SameProgram (l l' : List (HStep V)) : Prop := l.map HStep.unplaced = l'.map HStep.unplaced

/-- The preconditions of the calls, as for C69, for an arbitrary arithmetic. -/
def CallOkAny (SS KN : Nat) (h : HWorld V) : Call V → Prop
  | .randomize x _ => ∃ X, h.w.obj x = some X
  | .makePositiveDefinite x t _ _ => ∃ X, h.w.obj x = some X ∧ X.isPanel = false ∧ t % (SS : Int) = 0 ∧
      ∀ z, (⟨.dynDense, .columnMajor, X.cols, X.cols, t⟩ : Container).Storage SS z → h.w.mem z = none
  | .trmmLeft _ a b c => a ≠ c ∧ ∃ A B C, h.w.obj a = some A ∧ h.w.obj b = some B ∧ h.w.obj c = some C ∧ A.so = .columnMajor ∧ C.so = .columnMajor ∧
      (B.isPanel = true → B.so = .columnMajor → B.rows < 2 * SS)
  | .trmmRight _ b a c => a ≠ c ∧ ∃ A B C, h.w.obj a = some A ∧ h.w.obj b = some B ∧ h.w.obj c = some C ∧ B.so = .columnMajor ∧ C.so = .columnMajor
  | .syrk _ a _ c d => a ≠ d ∧ ∃ A C D, h.w.obj a = some A ∧ h.w.obj c = some C ∧ h.w.obj d = some D ∧
      A.so = .columnMajor ∧ C.so = .columnMajor ∧ D.so = .columnMajor
  | .trsm _ _ a b x => a ≠ x ∧ ∃ A B X, h.w.obj a = some A ∧ h.w.obj b = some B ∧ h.w.obj x = some X
  | .potrf a l => ∃ A L, h.w.obj a = some A ∧ h.w.obj l = some L ∧ A.so = .columnMajor ∧ L.so = .columnMajor ∧ A.isPanel = L.isPanel ∧
      (PotrfSizes A L → PotrfFits SS 1 (if A.isPanel then KN else 4) A L)
  | .getf2 a _ _ => ∃ A, h.w.obj a = some A ∧ A.isPanel = false
  | .getrf a _ _ => ∃ A, h.w.obj a = some A ∧ A.isPanel = false
  | .laswp x k0 k1 P => ∃ X, h.w.obj x = some X ∧ X.isPanel = false ∧ k0 ≤ k1 ∧ k1 ≤ X.rows ∧ ∀ q, k0 ≤ q → q < k1 → h.piv P q < X.rows

def HOkAny (SS KN : Nat) (h : HWorld V) : HStep V → Prop
  | .op o => Allowed SS h.w o
  | .call c => CallOkAny SS KN h c

/-- every step is allowed at the moment it is made -/
def AdmissibleAny (SS KN : Nat) (dv : V → V → V) (h : HWorld V) : List (HStep V) → Prop
  | [] => True
  | st :: l => HOkAny SS KN h st ∧ ((h.step SS KN dv st).1.final = false → AdmissibleAny SS KN dv (h.step SS KN dv st).2 l)

/-! ### C75: proof -/

theorem specStep_unplaced (a : AState V) (o : Op V) : specStep a o.unplaced = specStep a o := by
  cases o <;> rfl

/-- the state after a factorization -/
def HState.lu (s : HState V) (a P : Nat) (A : AObj V) (junk : Nat → Nat) (r : (Nat → Nat → V) × Option (Nat → Nat)) : Outcome V × HState V :=
  match r.2 with
  | some q => (.done, (s.put a { A with val := r.1 }).putPiv P q)
  | none => (.exn .invalidArgument, (s.put a { A with val := r.1 }).putPiv P junk)

open Classical in
/-- what a call does, as a function of the element values -/
noncomputable def detCall (SS KN : Nat) (dv : V → V → V) (s : HState V) : Call V → Outcome V × HState V
  | .randomize x rnd =>
    match s.objs x with
    | some X => (.done, s.put x { X with val := rnd })
    | none => (.ub, s)
  | .makePositiveDefinite x _ rnd etN =>
    match s.objs x with
    | some X => if X.rows = X.cols then (.done, s.put x { X with val := makePosDet X.cols rnd etN, pad := none }) else (.exn .invalidArgument, s)
    | none => (.ub, s)
  | .trmmLeft alpha a b c =>
    match s.objs a, s.objs b, s.objs c with
    | some A, some B, some C =>
      if (A.rows = B.rows ∧ A.cols = B.rows) ∧ (C.rows = B.rows ∧ C.cols = B.cols) then
        (.done, s.put c { C with val := trmmLDet SS B.rows B.cols alpha A.val B.val }) else (.exn .invalidArgument, s)
    | _, _, _ => (.ub, s)
  | .trmmRight alpha b a c =>
    match s.objs a, s.objs b, s.objs c with
    | some A, some B, some C =>
      if (A.rows = B.cols ∧ A.cols = B.cols) ∧ (C.rows = B.rows ∧ C.cols = B.cols) then
        (.done, s.put c { C with val := trmmRDet B.cols alpha B.val A.val }) else (.exn .invalidArgument, s)
    | _, _, _ => (.ub, s)
  | .syrk alpha a beta c d =>
    match s.objs a, s.objs c, s.objs d with
    | some A, some C, some D =>
      if (C.rows = A.rows ∧ C.cols = A.rows) ∧ (D.rows = A.rows ∧ D.cols = A.rows) then
        (.done, s.put d { D with val := syrkDet A.cols alpha beta A.val C.val D.val }) else (.exn .invalidArgument, s)
    | _, _, _ => (.ub, s)
  | .trsm uplo unit a b x =>
    match s.objs a, s.objs b, s.objs x with
    | some A, some B, some X =>
      if (A.rows = B.rows ∧ A.cols = B.rows) ∧ X.rows = B.rows ∧ X.cols = B.cols then
        (.done, s.put x { X with val := trsmDet uplo unit B.rows A.val B.val }) else (.exn .invalidArgument, s)
    | _, _, _ => (.ub, s)
  | .potrf a l =>
    match s.objs a, s.objs l with
    | some A, some L =>
      if A.cols ≤ A.rows ∧ L.rows = A.rows ∧ L.cols = A.cols then
        (.done, s.put l { L with
          val := (if A.kind = .dynPanel ∨ A.kind = .statPanel then potPanelDet SS KN A.rows A.cols A.val L.val
            else potDenseDet SS A.rows A.cols A.val L.val)
          pad := none }) else (.exn .invalidArgument, s)
    | _, _ => (.ub, s)
  | .getf2 a P junk =>
    match s.objs a with
    | some A =>
      match A.so with
      | .columnMajor => s.lu a P A junk (luFull Arith.div updCol A.rows A.val (s.piv P) (min A.rows A.cols))
      | .rowMajor => s.lu a P A junk (luFull dv updRow A.rows A.val (s.piv P) (min A.rows A.cols))
    | none => (.ub, s)
  | .getrf a P junk =>
    match s.objs a with
    | some A =>
      match A.so with
      | .columnMajor => s.lu a P A junk (getrfFull SS A.rows A.cols A.val (s.piv P))
      | .rowMajor => s.lu a P A junk (elimRun dv A.val (min A.rows A.cols), some (fun k => if k < min A.rows A.cols then k else s.piv P k))
    | none => (.ub, s)
  | .laswp x k0 k1 P =>
    match s.objs x with
    | some X => (.done, s.put x { X with val := rowSwaps (s.piv P) k0 (k1 - k0) X.val })
    | none => (.ub, s)

/-- what has to be proved of a call -/
def CallDet (SS KN : Nat) (dv : V → V → V) (s : HState V) (c : Call V) (r : Outcome V × HWorld V) : Prop :=
  r.1 = (detCall SS KN dv s c).1 ∧ HRep SS r.2 (detCall SS KN dv s c).2 ∧ r.1 ≠ .ub

theorem exn_ne_ub {e : Exn} : (Outcome.exn e : Outcome V) ≠ .ub := by intro h; cases h
theorem done_ne_ub : (Outcome.done : Outcome V) ≠ .ub := by intro h; cases h

theorem execPiv_ends {SS : Nat} (hSS : 0 < SS) {h : HWorld V} {s : HState V} (hr : HRep SS h s) {x P : Nat} {c : Container} (hx : h.w.obj x = some c)
    {o : AObj V} (ho : ObjRep SS h.w.mem c o) {p : Prog V (Nat → Nat)} {r : (Nat → Nat → V) × Option (Nat → Nat)} (hp : LuEnds SS c p h.w.mem r)
    (junk : Nat → Nat) :
    (h.execPiv p P junk).1 = (s.lu x P o junk r).1 ∧ HRep SS (h.execPiv p P junk).2 (s.lu x P o junk r).2 ∧ (h.execPiv p P junk).1 ≠ .ub := by
  obtain ⟨m', e, hv, hf⟩ := hp
  have hu := fun m' (hf : OnlyElemsChange SS h.w.mem m' c) (hv : Contains SS m' c r.1) =>
    hr.1.update hSS hx (fun z hz => hf z (fun he => hz (elem_storage hSS he))) (ho.elems hf hv)
  unfold HWorld.execPiv HState.lu
  cases hq : r.2 with
  | none =>
    rw [hq] at e
    dsimp only at e ⊢
    rw [e]
    refine ⟨rfl, ⟨hu m' hf hv, ?_⟩, exn_ne_ub⟩
    show HWorld.setPiv h.piv P junk = _
    rw [hr.2]; rfl
  | some q =>
    rw [hq] at e
    dsimp only at e ⊢
    rw [e]
    refine ⟨rfl, ⟨hu m' hf hv, ?_⟩, done_ne_ub⟩
    show HWorld.setPiv h.piv P q = _
    rw [hr.2]; rfl

theorem det_call {SS KN : Nat} (hSS : 0 < SS) {h : HWorld V} {s : HState V} (hr : HRep SS h s) (dv : V → V → V) (c : Call V)
    (hal : CallOkAny SS KN h c) : CallDet SS KN dv s c (h.call SS KN dv c) := by
  unfold CallDet
  cases c with
  | randomize x rnd =>
    obtain ⟨X, hx⟩ := hal
    obtain ⟨o, ho, hox⟩ := hr.1.get hx
    obtain ⟨m', e, e1, e2⟩ := C43_randomize (e := .obj X) hSS (show (MExpr.obj X).Fits from trivial) hox.live rnd
    obtain ⟨f1, f2⟩ := hexec_elems hSS hr hx hox e (f := rnd) e2 (fun i j hi hj => elems_iff.1 e1 i j hi hj)
    unfold HWorld.call detCall
    simp only [hx, ho]
    rw [f1]
    exact ⟨rfl, f2, done_ne_ub⟩
  | makePositiveDefinite x t rnd etN =>
    obtain ⟨X, hx, hd, ht, hfree⟩ := hal
    obtain ⟨o, ho, hox⟩ := hr.1.get hx
    unfold HWorld.call detCall
    simp only [hx, ho]
    rw [hox.rows, hox.cols]
    by_cases hsq : X.rows = X.cols
    · obtain ⟨m', e, e1, e2⟩ := det_makePositiveDefinite (e := .obj X) hSS hd (show (MExpr.obj X).Fits from trivial) hox.live hsq ht hfree rnd etN
      obtain ⟨f1, f2⟩ := hexec_dom hSS hr hx hox e (f := makePosDet X.cols rnd etN) e2
        (fun z hz => makePositiveDefinite_dom SS t rnd etN (.obj X) _ _ _ e z (fun hz' => by
          have := hox.live.alloc z hz
          rw [hfree z hz'] at this; cases this))
        (fun i j hi hj => elems_iff.1 e1 i j hi hj)
      rw [hox.rows, hox.cols] at f2
      rw [f1, if_pos hsq]
      exact ⟨rfl, f2, done_ne_ub⟩
    · obtain ⟨f1, f2⟩ := hexec_throw hr (C43_not_square (e := .obj X) (m := h.w.mem) hsq t rnd etN)
      rw [f1, if_neg hsq]
      exact ⟨rfl, f2, exn_ne_ub⟩
  | trmmLeft alpha a b c =>
    obtain ⟨hac, A, B, C, hA, hB, hC, sA, sC, hpan⟩ := hal
    obtain ⟨oA, pA, rA⟩ := hr.1.get hA
    obtain ⟨oB, pB, rB⟩ := hr.1.get hB
    obtain ⟨oC, pC, rC⟩ := hr.1.get hC
    have args : TrmmLArgs SS h.w.mem A B C := ⟨hSS, sA, sC, rA.live, rB.live, rC.live, (rep_apart hr.1 hA hC).1 hac, (rep_apart hr.1 hB hC).2, hpan⟩
    unfold HWorld.call detCall
    simp only [hA, hB, hC, pA, pB, pC]
    rw [rA.rows, rA.cols, rB.rows, rB.cols, rC.rows, rC.cols]
    by_cases hs : TrmmLSizes A B C
    · obtain ⟨m', e, e1, e2⟩ := det_trmmLeft alpha args hs rA.val rB.val
      obtain ⟨f1, f2⟩ := hexec_elems hSS hr hC rC e e2 e1
      rw [rC.rows, rC.cols] at f2
      rw [f1, if_pos (show _ ∧ _ from hs)]
      exact ⟨rfl, f2, done_ne_ub⟩
    · obtain ⟨f1, f2⟩ := hexec_throw hr ((C14_trmm_left_rejects alpha .upper false).1 hs)
      rw [f1, if_neg (show ¬ (_ ∧ _) from hs)]
      exact ⟨rfl, f2, exn_ne_ub⟩
  | trmmRight alpha b a c =>
    obtain ⟨hac, A, B, C, hA, hB, hC, sB, sC⟩ := hal
    obtain ⟨oA, pA, rA⟩ := hr.1.get hA
    obtain ⟨oB, pB, rB⟩ := hr.1.get hB
    obtain ⟨oC, pC, rC⟩ := hr.1.get hC
    have args : TrmmRArgs SS h.w.mem B A C := ⟨hSS, sB, sC, rA.live, rB.live, rC.live, (rep_apart hr.1 hA hC).1 hac, (rep_apart hr.1 hB hC).2⟩
    unfold HWorld.call detCall
    simp only [hA, hB, hC, pA, pB, pC]
    rw [rA.rows, rA.cols, rB.rows, rB.cols, rC.rows, rC.cols]
    by_cases hs : TrmmRSizes B A C
    · obtain ⟨m', e, e1, e2⟩ := det_trmmRight alpha args hs (fun i j _ hi hj => rA.val i j hi hj) rB.val
      obtain ⟨f1, f2⟩ := hexec_elems hSS hr hC rC e e2 e1
      rw [rC.rows, rC.cols] at f2
      rw [f1, if_pos (show _ ∧ _ from hs)]
      exact ⟨rfl, f2, done_ne_ub⟩
    · obtain ⟨f1, f2⟩ := hexec_throw hr ((C14_trmm_right_rejects alpha .lower false).1 hs)
      rw [f1, if_neg (show ¬ (_ ∧ _) from hs)]
      exact ⟨rfl, f2, exn_ne_ub⟩
  | syrk alpha a beta c d =>
    obtain ⟨had, A, C, D, hA, hC, hD, sA, sC, sD⟩ := hal
    obtain ⟨oA, pA, rA⟩ := hr.1.get hA
    obtain ⟨oC, pC, rC⟩ := hr.1.get hC
    obtain ⟨oD, pD, rD⟩ := hr.1.get hD
    have args : SyrkArgs SS h.w.mem A C D := ⟨hSS, sA, sC, sD, rA.live, rC.live, rD.live, (rep_apart hr.1 hA hD).1 had, (rep_apart hr.1 hC hD).2⟩
    unfold HWorld.call detCall
    simp only [hA, hC, hD, pA, pC, pD]
    rw [rA.rows, rA.cols, rC.rows, rC.cols, rD.rows, rD.cols]
    by_cases hs : SyrkSizes A C D
    · obtain ⟨m', e, e1, e2⟩ := det_syrk alpha beta args hs rA.val (fun i j _ hi hj => rC.val i j hi hj) rD.val
      obtain ⟨f1, f2⟩ := hexec_elems hSS hr hD rD e
        (fun z hz => e2 z (fun hc => hz (by obtain ⟨i, j, hi, hj, _, rfl⟩ := hc; exact ⟨i, j, hi, hj, rfl⟩))) e1
      rw [rD.rows, rD.cols] at f2
      rw [f1, if_pos (show _ ∧ _ from hs)]
      exact ⟨rfl, f2, done_ne_ub⟩
    · obtain ⟨f1, f2⟩ := hexec_throw hr ((C10_syrk_size_check alpha beta args).1 hs)
      rw [f1, if_neg (show ¬ (_ ∧ _) from hs)]
      exact ⟨rfl, f2, exn_ne_ub⟩
  | trsm uplo unit a b x =>
    obtain ⟨hax, A, B, X, hA, hB, hX⟩ := hal
    obtain ⟨oA, pA, rA⟩ := hr.1.get hA
    obtain ⟨oB, pB, rB⟩ := hr.1.get hB
    obtain ⟨oX, pX, rX⟩ := hr.1.get hX
    have args : TrsmArgs SS h.w.mem A B X := ⟨hSS, rA.live, rB.live, rX.live, (rep_apart hr.1 hA hX).1 hax, (rep_apart hr.1 hB hX).2⟩
    unfold HWorld.call detCall
    simp only [hA, hB, hX, pA, pB, pX]
    rw [rA.rows, rA.cols, rB.rows, rB.cols, rX.rows, rX.cols]
    by_cases hs : (A.rows = B.rows ∧ A.cols = B.rows) ∧ X.rows = B.rows ∧ X.cols = B.cols
    · obtain ⟨m', e, e1, e2⟩ := det_trsm uplo unit args hs (rA.val.tri uplo unit) rB.val
      obtain ⟨f1, f2⟩ := hexec_elems hSS hr hX rX e e2 e1
      rw [rX.rows, rX.cols] at f2
      rw [f1, if_pos hs]
      exact ⟨rfl, f2, done_ne_ub⟩
    · have e : trsmCall SS uplo unit A B X h.w.mem = .throw .invalidArgument h.w.mem := by
        unfold trsmCall
        rw [C27_trsm_size_check]
        exact if_neg hs
      obtain ⟨f1, f2⟩ := hexec_throw hr e
      rw [f1, if_neg hs]
      exact ⟨rfl, f2, exn_ne_ub⟩
  | potrf a l =>
    obtain ⟨A, L, hA, hL, sA, sL, hpan, hfit⟩ := hal
    obtain ⟨oA, pA, rA⟩ := hr.1.get hA
    obtain ⟨oL, pL, rL⟩ := hr.1.get hL
    have args : PotrfArgs SS h.w.mem A L := ⟨hSS, sA, sL, rA.live, rL.live, (rep_apart hr.1 hA hL).2⟩
    unfold HWorld.call detCall
    simp only [hA, hL, pA, pL]
    rw [rA.rows, rA.cols, rL.rows, rL.cols, rA.kind]
    cases hp : A.isPanel
    · rw [hp] at hfit
      simp only [Bool.false_eq_true, if_false] at hfit ⊢
      rw [if_neg (show ¬ (A.kind = .dynPanel ∨ A.kind = .statPanel) by rw [← isPanel_iff, hp]; simp)]
      by_cases hs : PotrfSizes A L
      · obtain ⟨m', e, e1, e2⟩ := det_potrfDense args hs (hfit hs) (fun i j _ hi hj => rA.val i j hi hj) (fun i j _ hi hj => rL.val i j hi hj)
        have hdom := ((framed_potrfDenseMat ..).ok e).1
        obtain ⟨f1, f2⟩ := hexec_dom hSS hr hL rL e e2 (fun z _ => hdom z) e1
        rw [rL.rows, rL.cols] at f2
        rw [f1, if_pos (show _ ∧ _ from hs)]
        exact ⟨rfl, f2, done_ne_ub⟩
      · obtain ⟨f1, f2⟩ := hexec_throw hr (C15_potrf_dense_size_check.resolve_right hs)
        rw [f1, if_neg (show ¬ (_ ∧ _) from hs)]
        exact ⟨rfl, f2, exn_ne_ub⟩
    · rw [hp] at hfit
      simp only [if_true] at hfit ⊢
      rw [if_pos (show A.kind = .dynPanel ∨ A.kind = .statPanel by rw [← isPanel_iff, hp])]
      by_cases hs : PotrfSizes A L
      · obtain ⟨m', e, e1, e2⟩ := det_potrfPanel args hs (hfit hs) rA.val (fun i j _ hi hj => rL.val i j hi hj)
        have hdom := ((framed_potrfPanelMat ..).ok e).1
        obtain ⟨f1, f2⟩ := hexec_dom hSS hr hL rL e e2 (fun z _ => hdom z) e1
        rw [rL.rows, rL.cols] at f2
        rw [f1, if_pos (show _ ∧ _ from hs)]
        exact ⟨rfl, f2, done_ne_ub⟩
      · obtain ⟨f1, f2⟩ := hexec_throw hr (C15_potrf_panel_size_check.resolve_right hs)
        rw [f1, if_neg (show ¬ (_ ∧ _) from hs)]
        exact ⟨rfl, f2, exn_ne_ub⟩
  | getf2 a P junk =>
    obtain ⟨A, hA, hd⟩ := hal
    obtain ⟨oA, pA, rA⟩ := hr.1.get hA
    unfold HWorld.call detCall
    simp only [hA, pA]
    rw [rA.so, rA.rows, rA.cols, ← hr.2]
    cases hso : A.so with
    | columnMajor => exact execPiv_ends hSS hr hA rA (det_getf2 hSS hd hso rA.live rA.val _) junk
    | rowMajor => exact execPiv_ends hSS hr hA rA (det_getf2Row hSS dv hd rA.val _) junk
  | getrf a P junk =>
    obtain ⟨A, hA, hd⟩ := hal
    obtain ⟨oA, pA, rA⟩ := hr.1.get hA
    unfold HWorld.call detCall
    simp only [hA, pA]
    rw [rA.so, rA.rows, rA.cols, ← hr.2]
    cases hso : A.so with
    | columnMajor => exact execPiv_ends hSS hr hA rA (det_getrf hSS hd hso rA.live rA.val _) junk
    | rowMajor => exact execPiv_ends hSS hr hA rA (det_getrfRow hSS dv rA.val _) junk
  | laswp x k0 k1 P =>
    obtain ⟨X, hx, hd, h1, h2, h3⟩ := hal
    obtain ⟨o, ho, hox⟩ := hr.1.get hx
    obtain ⟨m', e, e1, e2⟩ := C24_laswp hSS (A := X.mptr SS) (by rw [Container.mptr_eq]; exact hd) hox.val.holds (X.inj hSS) h1 h2 h3
    obtain ⟨f1, f2⟩ := hexec_elems hSS hr hx hox e (fun y hy => e2 y (fun hc => hy ((cells_iff X y).1 hc)))
      (fun i j hi hj => by rw [Container.addr_eq_mptr]; exact e1 i j hi hj)
    unfold HWorld.call detCall
    simp only [hx, ho]
    rw [f1, ← hr.2]
    exact ⟨rfl, f2, done_ne_ub⟩

/-- one step, as a function of the values -/
noncomputable def detStep (SS KN : Nat) (dv : V → V → V) (s : HState V) : HStep V → Outcome V × HState V
  | .op o => ((specStep s.objs o).1, { s with objs := (specStep s.objs o).2 })
  | .call c => detCall SS KN dv s c

theorem detStep_unplaced (SS KN : Nat) (dv : V → V → V) (s : HState V) (st : HStep V) : detStep SS KN dv s st.unplaced = detStep SS KN dv s st := by
  cases st with
  | op o =>
    show ((specStep s.objs o.unplaced).1, _) = _
    rw [specStep_unplaced]; rfl
  | call c => cases c <;> rfl

theorem det_step {SS KN : Nat} (hSS : 0 < SS) {h : HWorld V} {s : HState V} (hr : HRep SS h s) (dv : V → V → V) (st : HStep V) (hal : HOkAny SS KN h st) :
    (h.step SS KN dv st).1 = (detStep SS KN dv s st).1 ∧ HRep SS (h.step SS KN dv st).2 (detStep SS KN dv s st).2 ∧ (h.step SS KN dv st).1 ≠ .ub := by
  cases st with
  | op o =>
    obtain ⟨e1, e2⟩ := step_represents hSS hr.1 o hal
    refine ⟨e1, ⟨e2, hr.2⟩, ?_⟩
    show (h.w.step false SS o).1 ≠ _
    rw [e1]; exact allowed_no_ub hr.1 o hal
  | call c => exact det_call hSS hr dv c hal

theorem det_run {SS KN : Nat} (hSS : 0 < SS) (dv : V → V → V) : ∀ (l l' : List (HStep V)) {h h' : HWorld V} {s : HState V}, HRep SS h s → HRep SS h' s →
    SameProgram l l' → AdmissibleAny SS KN dv h l → AdmissibleAny SS KN dv h' l' →
    (h.run SS KN dv l).1 = (h'.run SS KN dv l').1 ∧ Outcome.ub ∉ (h.run SS KN dv l).1 ∧
    ∃ s', HRep SS (h.run SS KN dv l).2 s' ∧ HRep SS (h'.run SS KN dv l').2 s' := by
  intro l
  induction l with
  | nil =>
    intro l' h h' s hr hr' hp _ _
    cases l' with
    | nil => exact ⟨rfl, (fun hm => by cases hm), s, hr, hr'⟩
    | cons st l' => cases hp
  | cons st l ih =>
    intro l' h h' s hr hr' hp ha ha'
    cases l' with
    | nil => cases hp
    | cons st' l' =>
      obtain ⟨hst, hl⟩ := List.cons.inj hp
      obtain ⟨a1, a2⟩ := ha
      obtain ⟨a1', a2'⟩ := ha'
      obtain ⟨e1, e2, e3⟩ := det_step hSS hr dv st a1
      obtain ⟨f1, f2, f3⟩ := det_step hSS hr' dv st' a1'
      rw [← detStep_unplaced, hst, detStep_unplaced] at e1 e2
      have hout : (h.step SS KN dv st).1 = (h'.step SS KN dv st').1 := e1.trans f1.symm
      unfold HWorld.run
      dsimp only
      rw [← hout]
      cases hf : (h.step SS KN dv st).1.final
      · obtain ⟨g1, g2, s', g3, g4⟩ := ih l' e2 f2 hl (a2 hf) (a2' (by rw [← hout]; exact hf))
        simp only [Bool.false_eq_true, if_false]
        refine ⟨by rw [g1], fun hm => ?_, s', g3, g4⟩
        rcases List.mem_cons.1 hm with e | e
        · exact e3 e.symm
        · exact g2 e
      · simp only [if_true]
        exact ⟨trivial, fun hm => e3 (List.mem_singleton.1 hm).symm, _, e2, f2⟩

/-! ### C75: theorems -/

/-- **C75** (reproducibility). A client program made of the steps of C69 is run twice; the two runs differ in the addresses of objects and temporaries only.
In any arithmetic, with rounding, NaN and infinities, the two runs show the same outcomes step by step (the same values read, comparison results and
exceptions), and end with the same objects, of equal class, size and element values, and the same pivot arrays. -/
theorem C75_reproducible {SS KN : Nat} (hSS : 0 < SS) (dv : V → V → V) (piv : Nat → Nat → Nat) {l l' : List (HStep V)} (hp : SameProgram l l')
    (h : AdmissibleAny SS KN dv (HWorld.start piv) l) (h' : AdmissibleAny SS KN dv (HWorld.start piv) l') :
    ((HWorld.start piv : HWorld V).run SS KN dv l).1 = ((HWorld.start piv : HWorld V).run SS KN dv l').1 ∧
    ∃ s : HState V, (Represents SS ((HWorld.start piv : HWorld V).run SS KN dv l).2.w s.objs ∧
        Represents SS ((HWorld.start piv : HWorld V).run SS KN dv l').2.w s.objs) ∧
      ((HWorld.start piv : HWorld V).run SS KN dv l).2.piv = s.piv ∧ ((HWorld.start piv : HWorld V).run SS KN dv l').2.piv = s.piv := by
  obtain ⟨e1, -, s, e2, e3⟩ := det_run hSS dv l l' (h := HWorld.start piv) (h' := HWorld.start piv) (s := ⟨fun _ => none, piv⟩)
    ⟨empty_represents, rfl⟩ ⟨empty_represents, rfl⟩ hp h h'
  exact ⟨e1, s, ⟨e2.1, e3.1⟩, e2.2, e3.2⟩

/-- **C75** (safety). In any arithmetic, no step of such a program has undefined behaviour, and at the end memory and heap contain exactly the storage of the
living objects, which do not overlap. -/
theorem C75_safe {SS KN : Nat} (hSS : 0 < SS) (dv : V → V → V) (piv : Nat → Nat → Nat) {l : List (HStep V)}
    (h : AdmissibleAny SS KN dv (HWorld.start piv) l) :
    Outcome.ub ∉ ((HWorld.start piv : HWorld V).run SS KN dv l).1 ∧
    ∃ s : HState V, Represents SS ((HWorld.start piv : HWorld V).run SS KN dv l).2.w s.objs := by
  obtain ⟨-, e1, s, e2, -⟩ := det_run hSS dv l l (h := HWorld.start piv) (h' := HWorld.start piv) (s := ⟨fun _ => none, piv⟩)
    ⟨empty_represents, rfl⟩ ⟨empty_represents, rfl⟩ rfl h h
  exact ⟨e1, s, e2.1⟩

/-- **C75** (no leak). -/
theorem C75_no_leak {SS KN : Nat} (hSS : 0 < SS) (dv : V → V → V) (piv : Nat → Nat → Nat) {l : List (HStep V)}
    (h : AdmissibleAny SS KN dv (HWorld.start piv) l) (hend : ∀ x, ((HWorld.start piv : HWorld V).run SS KN dv l).2.w.obj x = none) :
    (∀ z, ((HWorld.start piv : HWorld V).run SS KN dv l).2.w.mem z = none) ∧
    (∀ p, ((HWorld.start piv : HWorld V).run SS KN dv l).2.w.heap p = none) := by
  obtain ⟨-, s, hr⟩ := C75_safe hSS dv piv h
  constructor
  · intro z
    cases hz : ((HWorld.start piv : HWorld V).run SS KN dv l).2.w.mem z with
    | none => rfl
    | some v =>
      obtain ⟨x, c, hx, _⟩ := (hr.mem z).1 (by rw [hz]; rfl)
      rw [hend x] at hx; cases hx
  · intro p
    cases hp : ((HWorld.start piv : HWorld V).run SS KN dv l).2.w.heap p with
    | none => rfl
    | some b =>
      obtain ⟨x, c, hx, _⟩ := (hr.heap p b).1 hp
      rw [hend x] at hx; cases hx

/-! ### C75: a program that is admissible with one choice of addresses is admissible with every other choice of free and aligned addresses -/

/-- the addresses given to new objects and temporaries in this step are aligned and not in use -/
def HStep.Placed (SS : Nat) (h : HWorld V) : HStep V → Prop
  | .op (.create _ c) => Fresh SS h.w c
  | .op (.createFill _ c _) => Fresh SS h.w c
  | .op (.createList _ c _) => Fresh SS h.w c
  | .op (.copyCreate _ y p) => ∀ d, h.w.obj y = some d → d.isDyn = false → Fresh SS h.w { d with data := p }
  | .op (.moveCreate _ y p) => ∀ d, h.w.obj y = some d → d.isDyn = false → Fresh SS h.w { d with data := p }
  | .call (.makePositiveDefinite x t _ _) => ∀ X, h.w.obj x = some X → t % (SS : Int) = 0 ∧
      ∀ z, (⟨.dynDense, .columnMajor, X.cols, X.cols, t⟩ : Container).Storage SS z → h.w.mem z = none
  | _ => True

/-- this holds of every step at the moment it is made -/
def PlacedAll (SS KN : Nat) (dv : V → V → V) (h : HWorld V) : List (HStep V) → Prop
  | [] => True
  | st :: l => st.Placed SS h ∧ ((h.step SS KN dv st).1.final = false → PlacedAll SS KN dv (h.step SS KN dv st).2 l)

theorem HRep.moved {SS : Nat} {h h' : HWorld V} {s : HState V} (hr : HRep SS h s) (hr' : HRep SS h' s) {x : Nat} {c : Container} (hx : h.w.obj x = some c) :
    ∃ p, h'.w.obj x = some { c with data := p } := by
  obtain ⟨o, e, ho⟩ := hr.1.get hx
  have h2 := hr'.1.objs x
  rw [e] at h2
  cases hx' : h'.w.obj x with
  | none => rw [hx'] at h2; cases h2
  | some c' =>
    rw [hx'] at h2
    have h2 : ObjRep SS h'.w.mem c' o := h2
    refine ⟨c'.data, ?_⟩
    cases c' with
    | mk k so r n p =>
      cases c with
      | mk k' so' r' n' p' =>
        have e1 : k = k' := h2.kind.symm.trans ho.kind
        have e2 : so = so' := h2.so.symm.trans ho.so
        have e3 : r = r' := h2.rows.symm.trans ho.rows
        have e4 : n = n' := h2.cols.symm.trans ho.cols
        subst e1 e2 e3 e4
        rfl

theorem HRep.unused {SS : Nat} {h h' : HWorld V} {s : HState V} (hr : HRep SS h s) (hr' : HRep SS h' s) {x : Nat} (hx : h.w.obj x = none) :
    h'.w.obj x = none := by
  cases hx' : h'.w.obj x with
  | none => rfl
  | some c =>
    obtain ⟨p, e⟩ := hr'.moved hr hx'
    rw [hx] at e; cases e

theorem allowed_moved {SS : Nat} {h h' : HWorld V} {s : HState V} (hr : HRep SS h s) (hr' : HRep SS h' s) {o o' : Op V}
    (hu : o.unplaced = o'.unplaced) (ha : Allowed SS h.w o) (hp : (HStep.op o').Placed SS h') : Allowed SS h'.w o' := by
  cases o <;> cases o' <;> simp only [Op.unplaced, reduceCtorEq, Op.create.injEq, Op.createFill.injEq, Op.createList.injEq, Op.copyCreate.injEq,
    Op.moveCreate.injEq, Op.copyAssign.injEq, Op.moveAssign.injEq, Op.assign.injEq, Op.fill.injEq, Op.set.injEq, Op.get.injEq, Op.equal.injEq,
    Op.reset.injEq, Op.gemm.injEq, Op.destroy.injEq] at hu
  case create => exact ⟨hu.1 ▸ hr.unused hr' ha.1, hp⟩
  case createFill x c v x' c' v' =>
    obtain ⟨rfl, hu, -⟩ := hu
    exact ⟨hr.unused hr' ha.1, hp, (congrArg Container.kind hu).symm.trans ha.2.2⟩
  case createList x c v x' c' v' =>
    obtain ⟨rfl, hu, -⟩ := hu
    exact ⟨hr.unused hr' ha.1, hp, (congrArg Container.isDyn hu).symm.trans ha.2.2⟩
  case copyCreate =>
    obtain ⟨rfl, rfl, -⟩ := hu
    obtain ⟨h1, d, h2, -⟩ := ha
    obtain ⟨p, e⟩ := hr.moved hr' h2
    exact ⟨hr.unused hr' h1, _, e, fun hd => hp _ e hd⟩
  case moveCreate =>
    obtain ⟨rfl, rfl, -⟩ := hu
    obtain ⟨h1, d, h2, -⟩ := ha
    obtain ⟨p, e⟩ := hr.moved hr' h2
    exact ⟨hr.unused hr' h1, _, e, fun hd => hp _ e hd⟩
  case copyAssign =>
    obtain ⟨rfl, rfl⟩ := hu
    obtain ⟨c, d, h1, h2, h3⟩ := ha
    obtain ⟨p, e⟩ := hr.moved hr' h1
    obtain ⟨q, f⟩ := hr.moved hr' h2
    exact ⟨_, _, e, f, h3⟩
  case moveAssign =>
    obtain ⟨rfl, rfl⟩ := hu
    obtain ⟨c, d, h1, h2, h3⟩ := ha
    obtain ⟨p, e⟩ := hr.moved hr' h1
    obtain ⟨q, f⟩ := hr.moved hr' h2
    exact ⟨_, _, e, f, h3⟩
  case assign =>
    obtain ⟨rfl, rfl⟩ := hu
    obtain ⟨c, d, h1, h2⟩ := ha
    obtain ⟨p, e⟩ := hr.moved hr' h1
    obtain ⟨q, f⟩ := hr.moved hr' h2
    exact ⟨_, _, e, f⟩
  case fill =>
    obtain ⟨rfl, -⟩ := hu
    obtain ⟨c, h1⟩ := ha
    obtain ⟨p, e⟩ := hr.moved hr' h1
    exact ⟨_, e⟩
  case set =>
    obtain ⟨rfl, rfl, rfl, -⟩ := hu
    obtain ⟨c, h1, h2⟩ := ha
    obtain ⟨p, e⟩ := hr.moved hr' h1
    exact ⟨_, e, h2⟩
  case get =>
    obtain ⟨rfl, rfl, rfl⟩ := hu
    obtain ⟨c, h1, h2⟩ := ha
    obtain ⟨p, e⟩ := hr.moved hr' h1
    exact ⟨_, e, h2⟩
  case equal =>
    obtain ⟨rfl, rfl⟩ := hu
    obtain ⟨c, d, h1, h2⟩ := ha
    obtain ⟨p, e⟩ := hr.moved hr' h1
    obtain ⟨q, f⟩ := hr.moved hr' h2
    exact ⟨_, _, e, f⟩
  case reset =>
    subst hu
    obtain ⟨c, h1, h2⟩ := ha
    obtain ⟨p, e⟩ := hr.moved hr' h1
    exact ⟨_, e, h2⟩
  case gemm =>
    obtain ⟨-, rfl, rfl, -, rfl, rfl⟩ := hu
    obtain ⟨n1, n2, A, B, C, D, h1, h2, h3, h4, h5⟩ := ha
    obtain ⟨p, e1⟩ := hr.moved hr' h1
    obtain ⟨p, e2⟩ := hr.moved hr' h2
    obtain ⟨p, e3⟩ := hr.moved hr' h3
    obtain ⟨p, e4⟩ := hr.moved hr' h4
    exact ⟨n1, n2, _, _, _, _, e1, e2, e3, e4, h5⟩
  case destroy =>
    subst hu
    obtain ⟨c, h1⟩ := ha
    obtain ⟨p, e⟩ := hr.moved hr' h1
    exact ⟨_, e⟩

theorem callOk_moved {SS KN : Nat} {h h' : HWorld V} {s : HState V} (hr : HRep SS h s) (hr' : HRep SS h' s) {c : Call V}
    (ha : CallOkAny SS KN h c) (hp : (HStep.call c).Placed SS h') : CallOkAny SS KN h' c := by
  cases c with
  | randomize x rnd =>
    obtain ⟨X, h1⟩ := ha
    obtain ⟨p, e⟩ := hr.moved hr' h1
    exact ⟨_, e⟩
  | makePositiveDefinite x t rnd etN =>
    obtain ⟨X, h1, h2, -⟩ := ha
    obtain ⟨p, e⟩ := hr.moved hr' h1
    exact ⟨_, e, h2, hp _ e⟩
  | trmmLeft alpha a b c =>
    obtain ⟨n1, A, B, C, h1, h2, h3, h4⟩ := ha
    obtain ⟨p, e1⟩ := hr.moved hr' h1
    obtain ⟨p, e2⟩ := hr.moved hr' h2
    obtain ⟨p, e3⟩ := hr.moved hr' h3
    exact ⟨n1, _, _, _, e1, e2, e3, h4⟩
  | trmmRight alpha b a c =>
    obtain ⟨n1, A, B, C, h1, h2, h3, h4⟩ := ha
    obtain ⟨p, e1⟩ := hr.moved hr' h1
    obtain ⟨p, e2⟩ := hr.moved hr' h2
    obtain ⟨p, e3⟩ := hr.moved hr' h3
    exact ⟨n1, _, _, _, e1, e2, e3, h4⟩
  | syrk alpha a beta c d =>
    obtain ⟨n1, A, C, D, h1, h2, h3, h4⟩ := ha
    obtain ⟨p, e1⟩ := hr.moved hr' h1
    obtain ⟨p, e2⟩ := hr.moved hr' h2
    obtain ⟨p, e3⟩ := hr.moved hr' h3
    exact ⟨n1, _, _, _, e1, e2, e3, h4⟩
  | trsm uplo unit a b x =>
    obtain ⟨n1, A, B, X, h1, h2, h3⟩ := ha
    obtain ⟨p, e1⟩ := hr.moved hr' h1
    obtain ⟨p, e2⟩ := hr.moved hr' h2
    obtain ⟨p, e3⟩ := hr.moved hr' h3
    exact ⟨n1, _, _, _, e1, e2, e3⟩
  | potrf a l =>
    obtain ⟨A, L, h1, h2, h3, h4, h5, h6⟩ := ha
    obtain ⟨p, e1⟩ := hr.moved hr' h1
    obtain ⟨q, e2⟩ := hr.moved hr' h2
    exact ⟨_, _, e1, e2, h3, h4, h5, fun hs => ⟨(h6 hs).tr, (h6 hs).kn, (h6 hs).knT, (h6 hs).al, (h6 hs).rows, (h6 hs).cols⟩⟩
  | getf2 a P junk =>
    obtain ⟨A, h1, h2⟩ := ha
    obtain ⟨p, e⟩ := hr.moved hr' h1
    exact ⟨_, e, h2⟩
  | getrf a P junk =>
    obtain ⟨A, h1, h2⟩ := ha
    obtain ⟨p, e⟩ := hr.moved hr' h1
    exact ⟨_, e, h2⟩
  | laswp x k0 k1 P =>
    obtain ⟨X, h1, h2⟩ := ha
    obtain ⟨p, e⟩ := hr.moved hr' h1
    exact ⟨_, e, by rw [hr'.2, ← hr.2]; exact h2⟩

theorem hOk_moved {SS KN : Nat} {h h' : HWorld V} {s : HState V} (hr : HRep SS h s) (hr' : HRep SS h' s) {st st' : HStep V}
    (hu : st.unplaced = st'.unplaced) (ha : HOkAny SS KN h st) (hp : st'.Placed SS h') : HOkAny SS KN h' st' := by
  cases st with
  | op o =>
    cases st' with
    | op o' => exact allowed_moved hr hr' (by simpa only [HStep.unplaced, HStep.op.injEq] using hu) ha hp
    | call c => cases c <;> cases hu
  | call c =>
    cases st' with
    | op o' => cases c <;> cases hu
    | call c' =>
      have key : ∀ {c : Call V}, CallOkAny SS KN h c → (HStep.call c).Placed SS h' → CallOkAny SS KN h' c := fun a b => callOk_moved hr hr' a b
      by_cases hc : c = c'
      · subst hc; exact key ha hp
      · cases c <;> cases c' <;> simp only [HStep.unplaced, HStep.call.injEq, reduceCtorEq, Call.makePositiveDefinite.injEq] at hu <;> try exact absurd hu hc
        obtain ⟨rfl, -, -, -⟩ := hu
        obtain ⟨X, h1, h2, -⟩ := ha
        obtain ⟨p, e⟩ := hr.moved hr' h1
        exact ⟨_, e, h2, hp _ e⟩

theorem admissible_moved {SS KN : Nat} (hSS : 0 < SS) (dv : V → V → V) : ∀ (l l' : List (HStep V)) {h h' : HWorld V} {s : HState V}, HRep SS h s →
    HRep SS h' s → SameProgram l l' → AdmissibleAny SS KN dv h l → PlacedAll SS KN dv h' l' → AdmissibleAny SS KN dv h' l' := by
  intro l
  induction l with
  | nil =>
    intro l' h h' s hr hr' hp _ _
    cases l' with
    | nil => trivial
    | cons st l' => cases hp
  | cons st l ih =>
    intro l' h h' s hr hr' hp ha hf
    cases l' with
    | nil => cases hp
    | cons st' l' =>
      obtain ⟨hst, hl⟩ := List.cons.inj hp
      obtain ⟨a1, a2⟩ := ha
      have a1' := hOk_moved hr hr' hst a1 hf.1
      obtain ⟨e1, e2, -⟩ := det_step hSS hr dv st a1
      obtain ⟨f1, f2, -⟩ := det_step hSS hr' dv st' a1'
      rw [← detStep_unplaced, hst, detStep_unplaced] at e1 e2
      exact ⟨a1', fun hn => ih l' e2 f2 hl (a2 (by rw [e1, ← f1]; exact hn)) (hf.2 hn)⟩

/-- **C75** (relocation). If a client program is admissible in one run, it is admissible, and hence safe and has the same outcomes and results, in every run
in which the allocator returns aligned addresses that are not in use. -/
theorem C75_relocatable {SS KN : Nat} (hSS : 0 < SS) (dv : V → V → V) (piv : Nat → Nat → Nat) {l l' : List (HStep V)} (hp : SameProgram l l')
    (h : AdmissibleAny SS KN dv (HWorld.start piv) l) (h' : PlacedAll SS KN dv (HWorld.start piv) l') :
    AdmissibleAny SS KN dv (HWorld.start piv) l' ∧
    ((HWorld.start piv : HWorld V).run SS KN dv l).1 = ((HWorld.start piv : HWorld V).run SS KN dv l').1 ∧
    ∃ s : HState V, (Represents SS ((HWorld.start piv : HWorld V).run SS KN dv l).2.w s.objs ∧
        Represents SS ((HWorld.start piv : HWorld V).run SS KN dv l').2.w s.objs) ∧
      ((HWorld.start piv : HWorld V).run SS KN dv l).2.piv = s.piv ∧ ((HWorld.start piv : HWorld V).run SS KN dv l').2.piv = s.piv := by
  have a := admissible_moved hSS dv l l' (h := HWorld.start piv) (h' := HWorld.start piv) (s := ⟨fun _ => none, piv⟩)
    ⟨empty_represents, rfl⟩ ⟨empty_represents, rfl⟩ hp h h'
  exact ⟨a, C75_reproducible hSS dv piv hp h a⟩

/-- an admissible run has placed its objects well -/
theorem AdmissibleAny.placed {SS KN : Nat} {dv : V → V → V} : ∀ {l : List (HStep V)} {h : HWorld V}, AdmissibleAny SS KN dv h l → PlacedAll SS KN dv h l
  | [], _, _ => trivial
  | st :: l, h, ⟨h1, h2⟩ => by
    refine ⟨?_, fun hn => (h2 hn).placed⟩
    cases st with
    | op o =>
      cases o with
      | create x c => exact h1.2
      | createFill x c v => exact h1.2.1
      | createList x c v => exact h1.2.1
      | copyCreate x y p =>
        obtain ⟨-, d, e1, e2⟩ := h1
        intro d' e; rw [e1] at e; cases e; exact e2
      | moveCreate x y p =>
        obtain ⟨-, d, e1, e2⟩ := h1
        intro d' e; rw [e1] at e; cases e; exact e2
      | _ => trivial
    | call c =>
      cases c with
      | makePositiveDefinite x t rnd etN =>
        obtain ⟨X, e1, -, e2⟩ := h1
        intro d' e; rw [e1] at e; cases e; exact e2
      | _ => trivial

/-! ### The hypotheses are satisfiable -/

/-- what C69 allows is allowed here -/
theorem HAllowed.any {F : Type} [NatCast F] [Arith F] {SS KN : Nat} {h : HWorld F} {st : HStep F} (ha : HAllowed SS KN h st) : HOkAny SS KN h st := by
  cases st with
  | op o => exact ha
  | call c =>
    cases c with
    | makePositiveDefinite x t rnd etN =>
      obtain ⟨X, h1, h2, -, h3⟩ := ha
      exact ⟨X, h1, h2, h3⟩
    | _ => exact ha

theorem HAdmissible.any {F : Type} [NatCast F] [Arith F] {SS KN : Nat} {dv : F → F → F} : ∀ {l : List (HStep F)} {h : HWorld F},
    HAdmissible SS KN dv h l → AdmissibleAny SS KN dv h l
  | [], _, _ => trivial
  | _ :: _, _, h => ⟨h.1.any, fun hf => (h.2 hf).any⟩

theorem any_tail {SS KN : Nat} {dv : V → V → V} {f : Nat → Option Container} {l : List (HStep V)}
    (hl : ∀ h : HWorld V, h.w.obj = f → AdmissibleAny SS KN dv h l) (c : Call V)
    (hc : ∀ h : HWorld V, h.w.obj = f → CallOkAny SS KN h c) : ∀ h : HWorld V, h.w.obj = f → AdmissibleAny SS KN dv h (.call c :: l) :=
  fun h hf => ⟨hc h hf, fun _ => hl _ ((call_obj c h).trans hf)⟩

/-- a program with objects at `p` and `q` and a temporary at `t` -/
def placedProgram (p q t : Int) : List (HStep V) :=
  [.op (.create 0 ⟨.dynDense, .columnMajor, 4, 4, p⟩), .op (.create 1 ⟨.statDense, .columnMajor, 4, 4, q⟩),
   .call (.makePositiveDefinite 0 t (fun _ _ => Arith.one) Arith.one), .call (.potrf 0 1), .call (.trsm .lower false 1 0 0), .call (.trmmLeft Arith.one 0 1 1),
   .call (.trmmRight Arith.one 1 0 1), .call (.syrk Arith.one 0 Arith.one 1 1), .call (.getf2 1 6 id), .call (.getrf 0 7 id),
   .op (.get 0 1 2), .op (.destroy 0), .op (.destroy 1)]

/-- it is admissible in every arithmetic, wherever the storage is allocated, provided it is aligned and does not overlap -/
theorem placedProgram_ok (piv : Nat → Nat → Nat) (dv : V → V → V) {p q t : Int} (hp : p % 4 = 0) (hq : q % 4 = 0) (ht : t % 4 = 0)
    (h1 : p + 16 ≤ q ∨ q + 16 ≤ p) (h2 : p + 16 ≤ t ∨ t + 16 ≤ p) (h3 : q + 16 ≤ t ∨ t + 16 ≤ q) :
    AdmissibleAny 4 4 dv (HWorld.start piv) (placedProgram p q t : List (HStep V)) := by
  let X : Container := ⟨.dynDense, .columnMajor, 4, 4, p⟩
  let Y : Container := ⟨.statDense, .columnMajor, 4, 4, q⟩
  let f := upd (upd (fun _ => none) 0 (some X)) 1 (some Y)
  have f0 : f 0 = some X := rfl
  have f1 : f 1 = some Y := rfl
  have cX : X.capacity 4 = 16 := (show Container.capacity 4 ⟨.dynDense, .columnMajor, 4, 4, 0⟩ = 16 by decide)
  have cY : Y.capacity 4 = 16 := (show Container.capacity 4 ⟨.statDense, .columnMajor, 4, 4, 0⟩ = 16 by decide)
  have t0 : ∀ h : HWorld V, h.w.obj = f → AdmissibleAny 4 4 dv h [.op (.get 0 1 2), .op (.destroy 0), .op (.destroy 1)] := fun h hf => by
    have hg : (h.step 4 4 dv (.op (.get 0 1 2))).2.w.obj = f := by
      show (h.w.step false 4 (.get 0 1 2)).2.obj = f
      unfold World.step
      simp only [hf, f0]
      exact (exec_obj ..).trans hf
    exact ⟨⟨X, by rw [hf, f0]; exact ⟨rfl, show (1 : Nat) < 4 by decide, show (2 : Nat) < 4 by decide⟩⟩, fun _ => ⟨⟨X, by rw [hg, f0]⟩, fun hn => ⟨⟨Y, by
      have e : ((h.step 4 4 dv (.op (.get 0 1 2))).2.step 4 4 dv (.op (.destroy 0))).2.w.obj = _ := destroy_obj (c := X) (by rw [hg, f0]) hn
      rw [e, hg]; rfl⟩, fun _ => trivial⟩⟩⟩
  have t1 := any_tail t0 (.getrf 0 7 id) (fun h hf => ⟨X, (by rw [hf, f0]), rfl⟩)
  have t2 := any_tail t1 (.getf2 1 6 id) (fun h hf => ⟨Y, (by rw [hf, f1]), rfl⟩)
  have t3 := any_tail t2 (.syrk Arith.one 0 Arith.one 1 1) (fun h hf =>
    ⟨by decide, X, Y, Y, (by rw [hf, f0]), (by rw [hf, f1]), (by rw [hf, f1]), rfl, rfl, rfl⟩)
  have t4 := any_tail t3 (.trmmRight Arith.one 1 0 1) (fun h hf =>
    ⟨by decide, X, Y, Y, (by rw [hf, f0]), (by rw [hf, f1]), (by rw [hf, f1]), rfl, rfl⟩)
  have t5 := any_tail t4 (.trmmLeft Arith.one 0 1 1) (fun h hf =>
    ⟨by decide, X, Y, Y, (by rw [hf, f0]), (by rw [hf, f1]), (by rw [hf, f1]), rfl, rfl, fun hn => by cases hn⟩)
  have t6 := any_tail t5 (.trsm .lower false 1 0 0) (fun h hf =>
    ⟨by decide, Y, X, X, (by rw [hf, f1]), (by rw [hf, f0]), (by rw [hf, f0])⟩)
  have t7 := any_tail t6 (.potrf 0 1) (fun h hf =>
    ⟨X, Y, (by rw [hf, f0]), (by rw [hf, f1]), rfl, rfl, rfl, fun _ => potrfFits_square (by decide) (Or.inl (show 4 % 4 = 0 from rfl))⟩)
  refine ⟨⟨rfl, hp, fun z _ => rfl, fun _ => rfl⟩, fun _ => ⟨⟨rfl, hq, fun z hz => ?_, fun h => by cases h⟩, fun _ => ⟨⟨X, rfl, rfl, ht, fun z hz => ?_⟩,
    fun _ => t7 _ (call_obj _ _)⟩⟩⟩
  · obtain ⟨g1, g2⟩ := hz
    exact if_neg (fun hc => by
      obtain ⟨k1, k2⟩ := hc
      rw [cX] at k2; rw [cY] at g2
      dsimp only [X, Y] at *
      omega)
  · obtain ⟨g1, g2⟩ := hz
    have cT : Container.capacity 4 ⟨.dynDense, .columnMajor, X.cols, X.cols, t⟩ = 16 :=
      (show Container.capacity 4 ⟨.dynDense, .columnMajor, 4, 4, 0⟩ = 16 by decide)
    rw [cT] at g2
    refine (if_neg ?_).trans (if_neg ?_)
    · rintro ⟨k1, k2⟩
      rw [cY] at k2
      dsimp only [X, Y] at *
      omega
    · rintro ⟨k1, k2⟩
      rw [cX] at k2
      dsimp only [X, Y] at *
      omega

example (piv : Nat → Nat → Nat) (dv : V → V → V) := C75_reproducible (V := V) (SS := 4) (KN := 4) (by decide) dv piv (l := placedProgram 0 64 128)
  (l' := placedProgram 400 16 (-32)) rfl (placedProgram_ok piv dv rfl rfl rfl (by decide) (by decide) (by decide))
  (placedProgram_ok piv dv rfl rfl rfl (by decide) (by decide) (by decide))

example (piv : Nat → Nat → Nat) (dv : V → V → V) := C75_relocatable (V := V) (SS := 4) (KN := 4) (by decide) dv piv (l := placedProgram 0 64 128)
  (l' := placedProgram 400 16 (-32)) rfl (placedProgram_ok piv dv rfl rfl rfl (by decide) (by decide) (by decide))
  (placedProgram_ok piv dv rfl rfl rfl (by decide) (by decide) (by decide)).placed

end Blast
