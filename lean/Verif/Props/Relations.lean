import Verif.Relations
import Verif.Props.BinarySystem
import Verif.Props.Integers
import Verif.Props.Scaling
import Verif.Props.NanProp
/-
Property C89: different routines give the same numbers. trsv is one column of trsm, the reference trsm is trsm applied to alpha B (any arithmetic, bit for bit);
syrk and trmm are gemm with a transposed or zero-filled operand (IEEE arithmetic, up to the sign of zeros). With C89 the properties C74, C76, C78, C82 and C86 of
trsm carry over to trsv.
-/
set_option linter.unusedSectionVars false
namespace Blast
open Prog Reg Finset

section
variable {V : Type} [Arith V]

/-- **C89** (trsv). In any arithmetic, `trsvLeftLower/Upper(A, b, x)` leaves bit for bit the same numbers in x as `trsm` leaves in a column of X, if the triangles of the
two matrices agree and the column of B agrees with b; whatever the layouts, strides, SIMD widths and the number of right-hand sides of trsm. -/
theorem C89_trsv_is_trsm {SS SS' n : Nat} {uplo : UpLo} {A : MPtr} {b x : VPtr} {m m1 : Mem V} {a : Nat → Nat → V} {bv : Nat → V}
    (h : TrsvReady SS n uplo m A b x a bv) {A1 B1 X1 : Container} (h1 : TrsmArgs SS' m1 A1 B1 X1)
    (hs : (A1.rows = B1.rows ∧ A1.cols = B1.rows) ∧ X1.rows = B1.rows ∧ X1.cols = B1.cols) (hn : B1.rows = n)
    (ha : ContainsTri SS' m1 A1 uplo false a) {b1 : Nat → Nat → V} (hb : Contains SS' m1 B1 b1) {j : Nat} (hj : j < B1.cols) (hcol : ∀ i, i < n → b1 i j = bv i) :
    ∃ m' m1' xv, trsvPtr SS n uplo A b x m = .ok () m' ∧ trsmCall SS' uplo false A1 B1 X1 m1 = .ok () m1' ∧ VHolds SS m' x n xv ∧
      (∀ i, i < n → m1' (X1.addr SS' i j) = some (xv i)) ∧ (∀ y, (∀ i : Nat, i < n → y ≠ x.addr SS i) → m' y = m y) := by
  obtain ⟨m', e, e1, e2⟩ := det_trsv h
  obtain ⟨m1', f, f1, -⟩ := det_trsm uplo false h1 hs ha hb
  refine ⟨m', m1', _, e, f, e1, fun i hi => ?_, e2⟩
  rw [f1 i j (by omega) (by omega)]
  unfold trsmDet
  rw [hn]
  exact congrArg some (TrsmRec.unique (trsmSol_rec _ _ _ _ _) (trsmSol_rec _ _ _ _ _) (fun _ _ _ _ _ => rfl) (fun i hi => hcol i hi) i hi)

/-- **C89** (reference trsm, matrix on the left). In any arithmetic, `reference::trsm` solving `tri(A) X = alpha B` leaves bit for bit the numbers that `trsm` leaves for the
right-hand side with the elements `alpha * B(i,j)`. -/
theorem C89_reference_trsm_left {SS SS' m n : Nat} {A X B : MPtr} (uplo : UpLo) (diag : Bool) (alpha : V) {mem mem1 : Mem V} {a b : Nat → Nat → V}
    (hA : TriArg SS mem A m uplo diag a X m n) (hX : Readable SS mem X m n) (hinj : Inj SS X m n) (hB : Holds SS mem B m n b) (hBX : SameOrDisj SS B X m n)
    {A1 B1 X1 : Container} (h1 : TrsmArgs SS' mem1 A1 B1 X1)
    (hs : (A1.rows = B1.rows ∧ A1.cols = B1.rows) ∧ X1.rows = B1.rows ∧ X1.cols = B1.cols) (hm : B1.rows = m) (hn : B1.cols = n)
    (ha : ContainsTri SS' mem1 A1 uplo diag a) (hb : Contains SS' mem1 B1 (fun i j => Arith.mul alpha (b i j))) :
    ∃ mem' mem1' x, refTrsmL SS m n A uplo diag X alpha B mem = .ok () mem' ∧ trsmCall SS' uplo diag A1 B1 X1 mem1 = .ok () mem1' ∧
      Holds SS mem' X m n x ∧ Contains SS' mem1' X1 x := by
  obtain ⟨m', e, e1, -⟩ := det_refTrsmL uplo diag alpha hA hX hinj hB hBX
  obtain ⟨m1', f, f1, -⟩ := det_trsm uplo diag h1 hs ha hb
  subst hm hn
  exact ⟨m', m1', _, e, f, e1, f1⟩

/-- **C89** (reference trsm, matrix on the right). In an arithmetic with commutative multiplication, `reference::trsm` solving `X tri(A) = alpha B` leaves the transpose of
what `trsm` leaves for the transposed problem `tri(A)ᵀ Xᵀ = (alpha B)ᵀ`, bit for bit. -/
theorem C89_reference_trsm_right {SS SS' m n : Nat} {A X B : MPtr} (hcomm : ∀ p q : V, Arith.mul p q = Arith.mul q p) (uplo : UpLo) (diag : Bool) (alpha : V)
    {mem mem1 : Mem V} {a b : Nat → Nat → V} (hA : TriArg SS mem A n uplo diag a X m n) (hX : Readable SS mem X m n) (hinj : Inj SS X m n) (hB : Holds SS mem B m n b)
    (hBX : SameOrDisj SS B X m n) {A1 B1 X1 : Container} (h1 : TrsmArgs SS' mem1 A1 B1 X1)
    (hs : (A1.rows = B1.rows ∧ A1.cols = B1.rows) ∧ X1.rows = B1.rows ∧ X1.cols = B1.cols) (hm : B1.rows = n) (hn : B1.cols = m)
    (ha : ContainsTri SS' mem1 A1 (flipUpLo uplo) diag (fun i k => a k i)) (hb : Contains SS' mem1 B1 (fun i j => Arith.mul alpha (b j i))) :
    ∃ mem' mem1' x, refTrsmR SS m n X A uplo diag alpha B mem = .ok () mem' ∧ trsmCall SS' (flipUpLo uplo) diag A1 B1 X1 mem1 = .ok () mem1' ∧
      Holds SS mem' X m n x ∧ Contains SS' mem1' X1 (fun i j => x j i) := by
  obtain ⟨m', e, e1, -⟩ := det_refTrsmR hcomm uplo diag alpha hA hX hinj hB hBX
  obtain ⟨m1', f, f1, -⟩ := det_trsm (flipUpLo uplo) diag h1 hs ha hb
  subst hm hn
  exact ⟨m', m1', _, e, f, e1, f1⟩

/-- **C74** (trsv): the result depends on the selected triangle of A and on b only, bit for bit, wherever they are stored. -/
theorem C74_trsv {SS SS' n : Nat} {uplo : UpLo} {A A' : MPtr} {b x b' x' : VPtr} {m m1 : Mem V} {a a' : Nat → Nat → V} {bv : Nat → V}
    (h : TrsvReady SS n uplo m A b x a bv) (h' : TrsvReady SS' n uplo m1 A' b' x' a' bv) (ha : ∀ i k, i < n → k < n → TriRef uplo false i k → a i k = a' i k) :
    ∃ m' m1' xv, trsvPtr SS n uplo A b x m = .ok () m' ∧ trsvPtr SS' n uplo A' b' x' m1 = .ok () m1' ∧ VHolds SS m' x n xv ∧ VHolds SS' m1' x' n xv := by
  obtain ⟨m', e, e1, -⟩ := det_trsv h
  obtain ⟨m1', f, f1, -⟩ := det_trsv h'
  refine ⟨m', m1', _, e, f, e1, fun i hi => ?_⟩
  rw [f1 i hi]
  exact congrArg some (TrsmRec.unique (trsmSol_rec _ _ _ _ _) (trsmSol_rec _ _ _ _ _) (fun i k hi hk ht => (ha i k hi hk ht).symm) (fun _ _ => rfl) i hi)

/-- **C76** (trsv): a NaN in b(k), or in a referenced element of row `k` of A, makes `x(k)` and all elements that are solved later NaN. -/
theorem C76_trsv [NanArith V] {SS n : Nat} {uplo : UpLo} {A : MPtr} {b x : VPtr} {m : Mem V} {a : Nat → Nat → V} {bv : Nat → V} (h : TrsvReady SS n uplo m A b x a bv) :
    ∃ m' xv, trsvPtr SS n uplo A b x m = .ok () m' ∧ VHolds SS m' x n xv ∧ ∀ k, k < n →
      (IsNan (bv k) ∨ ∃ q, q < n ∧ TriRef uplo false k q ∧ IsNan (a k q)) → ∀ r, r < n → (r = k ∨ SolvedBefore uplo k r) → IsNan (xv r) := by
  obtain ⟨m', e, e1, -⟩ := det_trsv h
  refine ⟨m', _, e, e1, fun k hk hn r hr hkr => ?_⟩
  have hrec := trsmSol_rec uplo false n a bv
  have hk0 : IsNan (trsmSol uplo false n a bv k) := by
    rcases hn with hn | ⟨q, hq, ht, hn⟩
    · exact hrec.nan_rhs hk hn
    · rcases ht with ⟨rfl, -⟩ | ⟨rfl, ht⟩ | ⟨rfl, ht⟩
      · exact hrec.nan_diag hk hn
      · exact hrec.nan_term (k := q) hk hq ht (Or.inl hn)
      · exact hrec.nan_term (k := q) hk hq ht (Or.inl hn)
  rcases hkr with rfl | hkr
  · exact hk0
  · exact hrec.nan_term (k := k) hr hk hkr (Or.inr hk0)

/-- **C78** (trsv). A(i,k) multiplied by r(i) t(k) and b(i) by r(i) c multiplies x(k) by c / t(k), exactly. -/
theorem C78_trsv {G : Type} [CommGroup G] [Scaling G V] {SS SS' n : Nat} {uplo : UpLo} {A A' : MPtr} {b x b' x' : VPtr} {m m1 : Mem V} {a : Nat → Nat → V} {bv : Nat → V}
    (r t : Nat → G) (c : G) (h : TrsvReady SS n uplo m A b x a bv)
    (h' : TrsvReady SS' n uplo m1 A' b' x' (fun i k => scl (r i * t k) (a i k)) (fun i => scl (r i * c) (bv i))) :
    ∃ m' m1' xv, trsvPtr SS n uplo A b x m = .ok () m' ∧ trsvPtr SS' n uplo A' b' x' m1 = .ok () m1' ∧ VHolds SS m' x n xv ∧
      VHolds SS' m1' x' n (fun k => scl (c / t k) (xv k)) := by
  obtain ⟨m', e, e1, -⟩ := det_trsv h
  obtain ⟨m1', f, f1, -⟩ := det_trsv h'
  refine ⟨m', m1', _, e, f, e1, fun i hi => ?_⟩
  rw [f1 i hi, trsmSol_scl a bv r t c (fun hh => by cases hh) hi]

/-- **C82** (trsv). If the triangular system with integer coefficients has an integer solution within the bound, trsv returns exactly this solution. -/
theorem C82_trsv [E : ExactInts V] {SS n : Nat} {uplo : UpLo} {A : MPtr} {b x : VPtr} {m : Mem V} {a : Nat → Nat → ℤ} {bv z : Nat → ℤ}
    (h : TrsvReady SS n uplo m A b x (fun i k => E.num (a i k)) (fun i => E.num (bv i))) (hab : ∀ i k, i < n → k < n → TriRef uplo false i k → |a i k| ≤ E.bound)
    (hd : ∀ i, i < n → a i i ≠ 0) (hz : ∀ i, i < n → bv i = ∑ k ∈ range n, tri uplo false a i k * z k) (h1 : ∀ i, i < n → |z i| ≤ E.bound)
    (h2 : ∀ i, i < n → ∑ k ∈ range n, |tri uplo false a i k| * |z k| ≤ E.bound) :
    ∃ m', trsvPtr SS n uplo A b x m = .ok () m' ∧ VHolds SS m' x n (fun i => E.num (z i)) := by
  obtain ⟨m', e, e1, -⟩ := det_trsv h
  refine ⟨m', e, fun i hi => ?_⟩
  rw [e1 i hi]
  exact congrArg some ((trsmSol_rec uplo false n _ _).unique (TrsmRec_num (x := z) (fun _ => hd) hab h1 hz h2) (fun _ _ _ _ _ => rfl) (fun _ _ => rfl) i hi)

end

variable {F : Format}

/-- **C86** (trsv). In IEEE arithmetic with overflow and underflow, trsv always returns; wherever x(i) and the diagonal element are finite, row i of the system is solved with
a small residual. -/
theorem C86_trsv {SS n : Nat} {uplo : UpLo} {A : MPtr} {b x : VPtr} {m : Mem (Bin F)} {a : Nat → Nat → Bin F} {bv : Nat → Bin F} (h : TrsvReady SS n uplo m A b x a bv) :
    ∃ m' xv, trsvPtr SS n uplo A b x m = .ok () m' ∧ VHolds SS m' x n xv ∧ ∀ i, i < n → (xv i).Finite → (a i i).Finite →
      (bv i).Finite ∧ (a i i).real ≠ 0 ∧ (∀ k, k < n → k ≠ i → TriRef uplo false i k → (a i k).Finite ∧ (xv k).Finite) ∧
      |(bv i).real - ∑ k ∈ range n, tri uplo false (fun i k => (a i k).real) i k * (xv k).real| ≤
        ((1 / (1 - F.u)) ^ n - 1) * ∑ k ∈ range n, |tri uplo false (fun i k => (a i k).real) i k| * |(xv k).real| +
          (1 / (1 - F.u)) ^ n * (3 * n + |(a i i).real|) * F.eta := by
  obtain ⟨m', e, e1, -⟩ := det_trsv h
  refine ⟨m', _, e, e1, fun i hi hf hd => ?_⟩
  obtain ⟨r1, r2, r3, r4⟩ := Bin.trsmRec_inv (trsmSol_rec uplo false n a bv) hi hf (fun _ => hd)
  refine ⟨r1, r2 rfl, r3, ?_⟩
  rwa [show tri uplo false (fun i k => (a i k).real) i i = (a i i).real by cases uplo <;> simp [tri]] at r4

/-- **C86** (trsv, no overflow): bounds on the data under which all elements of x are finite. -/
theorem C86_trsv_safe {SS n : Nat} {uplo : UpLo} {A : MPtr} {b x : VPtr} {m : Mem (Bin F)} {a : Nat → Nat → Bin F} {bv : Nat → Bin F} (h : TrsvReady SS n uplo m A b x a bv)
    {α β δ C W : ℝ} (hα : 0 ≤ α) (hβ : 0 ≤ β) (hδ : 0 < δ)
    (haf : ∀ i k, i < n → k < n → k ≠ i → TriRef uplo false i k → (a i k).Finite ∧ |(a i k).real| ≤ α)
    (hd : ∀ i, i < n → (a i i).Finite ∧ δ ≤ |(a i i).real|) (hbf : ∀ i, i < n → (bv i).Finite ∧ |(bv i).real| ≤ β)
    (hC : C = (1 + F.u) ^ (2 * n + 1) / δ) (hWe : W = C * (β + (2 * n + δ) * F.eta) * (1 + C * α) ^ n) (h1 : W < F.big) (h2 : δ * W < F.big) :
    ∃ m' xv, trsvPtr SS n uplo A b x m = .ok () m' ∧ VHolds SS m' x n xv ∧ ∀ i, i < n → (xv i).Finite ∧ |(xv i).real| ≤ W ∧
      |(bv i).real - ∑ k ∈ range n, tri uplo false (fun i k => (a i k).real) i k * (xv k).real| ≤
        ((1 / (1 - F.u)) ^ n - 1) * ∑ k ∈ range n, |tri uplo false (fun i k => (a i k).real) i k| * |(xv k).real| +
          (1 / (1 - F.u)) ^ n * (3 * n + |(a i i).real|) * F.eta := by
  obtain ⟨m', e, e1, -⟩ := det_trsv h
  refine ⟨m', _, e, e1, fun i hi => ?_⟩
  have hrec := trsmSol_rec uplo false n a bv
  have k := Bin.trsmRec_fwd hrec hα hδ (fun hh => by cases hh) haf (fun _ => hd) hbf hβ hC hWe h1 h2 i hi
  obtain ⟨r1, r2, r3, r4⟩ := Bin.trsmRec_inv hrec hi k.1 (fun _ => (hd i hi).1)
  rw [show tri uplo false (fun i k => (a i k).real) i i = (a i i).real by cases uplo <;> simp [tri]] at r4
  exact ⟨k.1, k.2, r4⟩

/-! ### syrk and trmm are gemm -/

/-- the same number, infinity or NaN; +0 and -0 are the same number -/
def SameNumber : Bin F → Bin F → Prop
  | .fin s x, .fin t y => (Bin.fin s x : Bin F).real = (Bin.fin t y : Bin F).real
  | .inf s, .inf t => s = t
  | .nan, .nan => True
  | _, _ => False

theorem SameNumber.refl (x : Bin F) : SameNumber x x := by cases x <;> simp [SameNumber]

theorem SameNumber.symm {x y : Bin F} (h : SameNumber x y) : SameNumber y x := by
  cases x <;> cases y <;> simp_all [SameNumber]

theorem SameNumber.trans {x y z : Bin F} (h : SameNumber x y) (h' : SameNumber y z) : SameNumber x z := by
  cases x <;> cases y <;> cases z <;> simp_all [SameNumber]

theorem SameNumber.of_fin {x y : Bin F} (hx : x.Finite) (hy : y.Finite) (h : x.real = y.real) : SameNumber x y := by
  cases x <;> cases y <;> simp_all [SameNumber, Bin.Finite]

theorem SameNumber.fin {x y : Bin F} (h : SameNumber x y) : x.Finite → y.Finite ∧ x.real = y.real := by
  cases x <;> cases y <;> simp_all [SameNumber, Bin.Finite]

theorem representable_zero (F : Format) : F.Representable 0 := by
  have := F.range
  exact ⟨⟨0, F.emax - F.p, by rw [abs_zero]; positivity, by omega, by omega, by simp⟩, fun _ => Or.inl rfl⟩

theorem sameNumber_mk (s t : Bool) (x : ℝ) : SameNumber (Bin.mk F s x) (Bin.mk F t x) := by
  by_cases hx : x = 0
  · subst hx
    have h0 : F.Representable 0 := (representable_zero F)
    exact SameNumber.of_fin (Bin.mk_exact h0).1 (Bin.mk_exact h0).1 (by rw [(Bin.mk_exact h0).2, (Bin.mk_exact h0).2])
  · unfold Bin.mk
    rw [if_neg hx, if_neg hx]
    exact SameNumber.refl _

theorem sameNumber_add (p : Bin F) {c c' : Bin F} (h : SameNumber c c') : SameNumber (Bin.add p c) (Bin.add p c') := by
  rcases c with ⟨s, x⟩ | s | _ <;> rcases c' with ⟨t, y⟩ | t | _ <;> try exact h.elim
  · rcases p with ⟨r, z⟩ | r | _
    · simp only [Bin.add]
      rw [show (Bin.fin s x : Bin F).real = (Bin.fin t y : Bin F).real from h]
      exact sameNumber_mk _ _ _
    · exact SameNumber.refl _
    · exact SameNumber.refl _
  · obtain rfl : s = t := h
    exact SameNumber.refl _
  · exact SameNumber.refl _

theorem sameNumber_fma (a b : Bin F) {c c' : Bin F} (h : SameNumber c c') : SameNumber (Bin.fma a b c) (Bin.fma a b c') := by
  have hgen : Bin.fma a b c = Bin.add (Bin.mul a b) c → Bin.fma a b c' = Bin.add (Bin.mul a b) c' → SameNumber (Bin.fma a b c) (Bin.fma a b c') := fun e1 e2 => by
    rw [e1, e2]; exact sameNumber_add _ h
  rcases a with ⟨s, x⟩ | s | _
  · rcases b with ⟨t, y⟩ | t | _
    · rcases c with ⟨p, z⟩ | p | _ <;> rcases c' with ⟨q, w⟩ | q | _ <;> try exact h.elim
      · simp only [Bin.fma]
        rw [show (Bin.fin p z : Bin F).real = (Bin.fin q w : Bin F).real from h]
        exact sameNumber_mk _ _ _
      · obtain rfl : p = q := h
        exact SameNumber.refl _
      · exact SameNumber.refl _
    · exact hgen (by cases c <;> rfl) (by cases c' <;> rfl)
    · exact hgen (by cases c <;> rfl) (by cases c' <;> rfl)
  · cases b <;> exact hgen (by cases c <;> rfl) (by cases c' <;> rfl)
  · cases b <;> exact hgen (by cases c <;> rfl) (by cases c' <;> rfl)

theorem sameNumber_fma_zero {a b c : Bin F} (ha : a.Finite) (hb : b.Finite) (hz : a.real * b.real = 0) (hc : c.IsNum) : SameNumber (Bin.fma a b c) c := by
  rcases a with ⟨s, x⟩ | s | _ <;> try exact ha.elim
  rcases b with ⟨t, y⟩ | t | _ <;> try exact hb.elim
  rcases c with ⟨p, z⟩ | p | _
  · simp only [Bin.fma]
    rw [hz, zero_add]
    have hr : F.Representable (Bin.fin p z : Bin F).real := hc trivial
    exact SameNumber.of_fin (Bin.mk_exact hr).1 trivial (Bin.mk_exact hr).2
  · exact SameNumber.refl _
  · exact SameNumber.refl _

theorem sameNumber_mul_one {x : Bin F} (hx : x.IsNum) : SameNumber (Bin.mul x (Bin.fin false 1)) x := by
  rcases x with ⟨p, z⟩ | p | _
  · simp only [Bin.mul]
    have e : (Bin.fin p z : Bin F).real * (Bin.fin false 1 : Bin F).real = (Bin.fin p z : Bin F).real := by simp [Bin.real]
    rw [e]
    have hr : F.Representable (Bin.fin p z : Bin F).real := hx trivial
    exact SameNumber.of_fin (Bin.mk_exact hr).1 trivial (Bin.mk_exact hr).2
  · simp [Bin.mul, SameNumber]
  · exact SameNumber.refl _

theorem sameNumber_fmaSum (a b : Nat → Bin F) {c c' : Bin F} (h : SameNumber c c') (n : Nat) : SameNumber (fmaSum a b c n) (fmaSum a b c' n) := by
  induction n with
  | zero => exact h
  | succ n ih => exact sameNumber_fma _ _ ih

theorem isNum_fmaSum (a b : Nat → Bin F) {c : Bin F} (h : c.IsNum) (n : Nat) : (fmaSum a b c n).IsNum := by
  cases n with
  | zero => exact h
  | succ n => exact Bin.isNum_fma _ _ _

theorem sameNumber_skip {a b : Nat → Bin F} {c : Bin F} (h : c.IsNum) (n : Nat) (hz : ∀ k, k < n → (a k).Finite ∧ (b k).Finite ∧ (a k).real * (b k).real = 0) :
    SameNumber (fmaSum a b c n) c := by
  induction n with
  | zero => exact SameNumber.refl _
  | succ n ih =>
    obtain ⟨h1, h2, h3⟩ := hz n (by omega)
    exact (sameNumber_fma_zero h1 h2 h3 (isNum_fmaSum a b h n)).trans (ih (fun k hk => hz k (by omega)))

theorem real_zero : (Arith.zero : Bin F).real = 0 := by
  change (Bin.fin false 0 : Bin F).real = 0
  simp [Bin.real]

theorem isNum_zero : (Arith.zero : Bin F).IsNum := fun _ => by
  rw [real_zero]
  exact (representable_zero F)

/-- what gemm with alpha = 1 and beta = 0 leaves -/
theorem sameNumber_gemm (a b : Nat → Bin F) {c : Bin F} (hc : c.Finite) (K : Nat) :
    SameNumber (Arith.fma Arith.zero c (Arith.mul (fmaSum a b Arith.zero K) Arith.one)) (fmaSum a b Arith.zero K) := by
  have h1 := sameNumber_mul_one (isNum_fmaSum a b (isNum_zero (F := F)) K)
  refine SameNumber.trans (sameNumber_fma_zero (F := F) trivial hc ?_ (Bin.isNum_mul _ _)) h1
  rw [real_zero, zero_mul]

/-- the sum may start at the first term that is not zero -/
theorem sameNumber_tail {a b : Nat → Bin F} {lo K : Nat} (hlo : lo ≤ K) (hz : ∀ k, k < lo → (a k).Finite ∧ (b k).Finite ∧ (a k).real * (b k).real = 0) :
    SameNumber (fmaSum (fun t => a (lo + t)) (fun t => b (lo + t)) Arith.zero (K - lo)) (fmaSum a b Arith.zero K) := by
  have e := fmaSum_append a b (Arith.zero : Bin F) lo (K - lo)
  rw [show lo + (K - lo) = K by omega] at e
  rw [← e]
  exact sameNumber_fmaSum _ _ (sameNumber_skip isNum_zero lo hz).symm _

/-- two calls leave the same numbers in the elements of D and D' selected by P -/
def SameNumbers (P : Nat → Nat → Prop) (SS : Nat) (p : Prog (Bin F) Unit) (m : Mem (Bin F)) (D : Container) (SS' : Nat) (p' : Prog (Bin F) Unit) (m1 : Mem (Bin F))
    (D' : Container) : Prop :=
  ∃ m' m1' d d', p m = .ok () m' ∧ p' m1 = .ok () m1' ∧ Contains SS m' D d ∧ Contains SS' m1' D' d' ∧
    ∀ i j, i < D.rows → j < D.cols → P i j → SameNumber (d i j) (d' i j)

/-- **C89** (syrk). `syrkLower(alpha, A, 0, C, D)` leaves in the lower triangle of D the same numbers as `gemm(1, alpha A, Aᵀ, 0, C, D)`: overflow, underflow, NaN and
infinities in A included; only the elements of C, which are multiplied by 0, must be finite. -/
theorem C89_syrk_is_gemm {SS SS' : Nat} {m m1 : Mem (Bin F)} {A C D A1 B1 C1 D1 : Container} (alpha : Bin F) (h : SyrkArgs SS m A C D) (hs : SyrkSizes A C D)
    (h1 : GemmArgs SS' m1 A1 B1 C1 D1) (hs1 : GemmSizes A1 B1 C1 D1) (hr : A1.rows = A.rows) (hk : A1.cols = A.cols) (hc1 : B1.cols = A.rows)
    {a c d c1 : Nat → Nat → Bin F} (ha : Contains SS m A a) (hc : ContainsLower SS m C c) (hd : Contains SS m D d)
    (ha1 : Contains SS' m1 A1 (fun i k => Arith.mul alpha (a i k))) (hb1 : Contains SS' m1 B1 (fun k j => a j k)) (hcc : Contains SS' m1 C1 c1)
    (hcf : ∀ i j, j ≤ i → i < C.rows → (c i j).Finite) (hcf1 : ∀ i j, i < C1.rows → j < C1.cols → (c1 i j).Finite) :
    SameNumbers (fun i j => j ≤ i) SS (syrkCall SS 1 alpha A Arith.zero C D) m D SS' (gemmCall SS' Arith.one A1 B1 Arith.zero C1 D1) m1 D1 := by
  obtain ⟨m', e, e1, -⟩ := det_syrk alpha Arith.zero h hs ha hc hd
  obtain ⟨m1', f, f1⟩ := C04_gemm_bitwise Arith.one Arith.zero h1 hs1 ha1 hb1 hcc
  obtain ⟨⟨s1, s2⟩, s3, s4⟩ := hs
  obtain ⟨t1, ⟨t2, t3⟩, t4, t5⟩ := hs1
  refine ⟨m', m1', _, _, e, f, e1, f1, fun i j hi hj hji => ?_⟩
  unfold syrkDet
  rw [if_pos hji, hk]
  refine SameNumber.trans (sameNumber_fmaSum _ _ (c' := Arith.zero) ?_ _) (sameNumber_gemm _ _ (hcf1 i j (by omega) (by omega)) _).symm
  have hf := hcf i j hji (by omega)
  rcases hcv : c i j with ⟨p, z⟩ | p | _
  · change SameNumber (Bin.mul (Bin.fin false 0) (Bin.fin p z)) (Bin.fin false 0)
    simp only [Bin.mul]
    have e0 : (Bin.fin false 0 : Bin F).real * (Bin.fin p z : Bin F).real = 0 := by simp [Bin.real]
    rw [e0]
    exact SameNumber.of_fin (Bin.mk_exact (representable_zero F)).1 trivial (by rw [(Bin.mk_exact (representable_zero F)).2]; simp [Bin.real])
  · rw [hcv] at hf; exact hf.elim
  · rw [hcv] at hf; exact hf.elim

/-- everywhere -/
def Anywhere (_ _ : Nat) : Prop := True

/-- **C89** (trmm, triangular matrix on the right). `trmm(alpha, B, A, C)` with a lower triangular A leaves the same numbers as `gemm(1, alpha B, A', 0, ·, C)` where A' is A with
zeros above the diagonal, if the elements of alpha B (which gemm multiplies by these zeros) are finite. -/
theorem C89_trmm_right_is_gemm {SS SS' : Nat} {m m1 : Mem (Bin F)} {A B C A1 B1 C1 D1 : Container} (alpha : Bin F) (h : TrmmRArgs SS m B A C) (hs : TrmmRSizes B A C)
    (h1 : GemmArgs SS' m1 B1 A1 C1 D1) (hs1 : GemmSizes B1 A1 C1 D1) (hr : B1.rows = B.rows) (hk : B1.cols = B.cols) (hc1 : A1.cols = B.cols)
    {a b c1 : Nat → Nat → Bin F} (ha : ContainsLower SS m A a) (hb : Contains SS m B b)
    (hb1 : Contains SS' m1 B1 (fun i k => Arith.mul alpha (b i k))) (ha1 : Contains SS' m1 A1 (fun k j => if j ≤ k then a k j else Arith.zero))
    (hcc : Contains SS' m1 C1 c1) (hbf : ∀ i k, i < B.rows → k < B.cols → (Arith.mul alpha (b i k)).Finite)
    (hcf1 : ∀ i j, i < C1.rows → j < C1.cols → (c1 i j).Finite) :
    SameNumbers Anywhere SS (trmmRightCall SS 1 alpha B A .lower false C) m C SS' (gemmCall SS' Arith.one B1 A1 Arith.zero C1 D1) m1 D1 := by
  obtain ⟨m', e, e1, -⟩ := det_trmmRight alpha h hs ha hb
  obtain ⟨m1', f, f1⟩ := C04_gemm_bitwise Arith.one Arith.zero h1 hs1 hb1 ha1 hcc
  obtain ⟨⟨s1, s2⟩, s3, s4⟩ := hs
  obtain ⟨t1, ⟨t2, t3⟩, t4, t5⟩ := hs1
  refine ⟨m', m1', _, _, e, f, e1, f1, fun i j hi hj _ => ?_⟩
  unfold trmmRDet
  rw [hk]
  refine SameNumber.trans ?_ (sameNumber_gemm _ _ (hcf1 i j (by omega) (by omega)) _).symm
  have e2 : fmaSum (fun t => Arith.mul alpha (b i (j + t))) (fun t => a (j + t) j) Arith.zero (B.cols - j) =
      fmaSum (fun t => (fun k => Arith.mul alpha (b i k)) (j + t)) (fun t => (fun k => if j ≤ k then a k j else Arith.zero) (j + t)) Arith.zero (B.cols - j) :=
    fmaSum_congr' _ (fun _ _ => rfl) (fun t _ => by beta_reduce; rw [if_pos (by omega)])
  rw [e2]
  refine sameNumber_tail (a := fun k => Arith.mul alpha (b i k)) (b := fun k => if j ≤ k then a k j else Arith.zero) (lo := j) (K := B.cols) (by omega) (fun k hkj => ⟨hbf i k (by omega) (by omega), ?_, ?_⟩)
  · beta_reduce
    rw [if_neg (by omega)]
    trivial
  · beta_reduce
    rw [if_neg (by omega), real_zero, mul_zero]

/-- **C89** (trmm, triangular matrix on the left). `trmm(alpha, A, B, C)` with an upper triangular A that has zeros below the diagonal leaves the same numbers as
`gemm(1, alpha A, B, 0, ·, C)`, if alpha and the elements of B are finite. -/
theorem C89_trmm_left_is_gemm {SS SS' : Nat} {m m1 : Mem (Bin F)} {A B C A1 B1 C1 D1 : Container} (alpha : Bin F) (h : TrmmLArgs SS m A B C) (hs : TrmmLSizes A B C)
    (h1 : GemmArgs SS' m1 A1 B1 C1 D1) (hs1 : GemmSizes A1 B1 C1 D1) (hr : A1.rows = B.rows) (hk : A1.cols = B.rows) (hc1 : B1.cols = B.cols)
    {a b c1 : Nat → Nat → Bin F} (ha : Contains SS m A a) (hb : Contains SS m B b) (hz : ∀ i k, k < i → i < A.rows → a i k = Arith.zero)
    (ha1 : Contains SS' m1 A1 (fun i k => Arith.mul alpha (a i k))) (hb1 : Contains SS' m1 B1 b) (hcc : Contains SS' m1 C1 c1) (hal : alpha.Finite)
    (hbf : ∀ i j, i < B.rows → j < B.cols → (b i j).Finite) (hcf1 : ∀ i j, i < C1.rows → j < C1.cols → (c1 i j).Finite) :
    SameNumbers Anywhere SS (trmmLeftCall SS 1 alpha A .upper false B C) m C SS' (gemmCall SS' Arith.one A1 B1 Arith.zero C1 D1) m1 D1 := by
  obtain ⟨m', e, e1, -, v⟩ := det_trmmLeft_val alpha h hs ha hb
  obtain ⟨m1', f, f1⟩ := C04_gemm_bitwise Arith.one Arith.zero h1 hs1 ha1 hb1 hcc
  obtain ⟨⟨s1, s2⟩, s3, s4⟩ := hs
  obtain ⟨t1, ⟨t2, t3⟩, t4, t5⟩ := hs1
  refine ⟨m', m1', _, _, e, f, e1, f1, fun i j hi hj _ => ?_⟩
  rw [hk]
  refine SameNumber.trans ?_ (sameNumber_gemm _ _ (hcf1 i j (by omega) (by omega)) _).symm
  obtain ⟨p, i0, ht, h2, h3, e2⟩ := v i j (by omega) (by omega)
  rw [e2]
  have hm0 : (Arith.mul alpha (Arith.zero : Bin F)).Finite ∧ (Arith.mul alpha (Arith.zero : Bin F)).real = 0 := by
    rcases alpha with ⟨s, x⟩ | s | _ <;> try exact hal.elim
    change (Bin.mul (Bin.fin s x) (Bin.fin false 0)).Finite ∧ (Bin.mul (Bin.fin s x) (Bin.fin false 0)).real = 0
    simp only [Bin.mul]
    have e0 : (Bin.fin s x : Bin F).real * (Bin.fin false 0 : Bin F).real = 0 := by simp [Bin.real]
    rw [e0]
    exact Bin.mk_exact (representable_zero F)
  have hskip : ∀ lo, lo ≤ i → ∀ k, k < lo → ((fun k => Arith.mul alpha (a i k)) k).Finite ∧ ((fun k => b k j) k).Finite ∧
      ((fun k => Arith.mul alpha (a i k)) k).real * ((fun k => b k j) k).real = 0 := by
    intro lo hlo k hk'
    beta_reduce
    rw [hz i k (by omega) (by omega)]
    exact ⟨hm0.1, hbf k j (by omega) (by omega), by rw [hm0.2, zero_mul]⟩
  split
  · rename_i hcond
    unfold trmmLFullEntry
    generalize hlo : (i - i0) / SS * SS = lo
    have hlo1 : lo ≤ i - i0 := by rw [← hlo]; exact Nat.div_mul_le_self _ _
    refine SameNumber.trans ?_ (sameNumber_tail (a := fun k => Arith.mul alpha (a i k)) (b := fun k => b k j) (lo := i0 + lo) (K := B.rows) (by omega) (hskip _ (by omega)))
    have e3 := fmaSum_append (fun t => (fun k => Arith.mul alpha (a i k)) (i0 + lo + t)) (fun t => (fun k => b k j) (i0 + lo + t)) (Arith.zero : Bin F) (p * SS - lo)
      (B.rows - i0 - p * SS)
    rw [show p * SS - lo + (B.rows - i0 - p * SS) = B.rows - (i0 + lo) by omega] at e3
    rw [← e3]
    have e4 : fmaSum (fun t => Arith.mul alpha (if i - i0 ≤ lo + t then a i (i0 + (lo + t)) else Arith.zero)) (fun t => b (i0 + (lo + t)) j) Arith.zero (p * SS - lo) =
        fmaSum (fun t => (fun k => Arith.mul alpha (a i k)) (i0 + lo + t)) (fun t => (fun k => b k j) (i0 + lo + t)) (Arith.zero : Bin F) (p * SS - lo) := by
      refine fmaSum_congr' _ (fun t ht => ?_) (fun t _ => by beta_reduce; rw [Nat.add_assoc])
      beta_reduce
      rw [Nat.add_assoc]
      split
      · rfl
      · rw [hz i (i0 + (lo + t)) (by omega) (by omega)]
    rw [e4]
    have e5 : ∀ t, i0 + lo + (p * SS - lo + t) = i0 + p * SS + t := fun t => by omega
    simp only [e5]
    exact SameNumber.refl _
  · unfold trmmLPartEntry
    exact sameNumber_tail (a := fun k => Arith.mul alpha (a i k)) (b := fun k => b k j) (lo := i0) (K := B.rows) (by omega) (hskip _ h2)

end Blast
