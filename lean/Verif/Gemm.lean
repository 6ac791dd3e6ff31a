import Verif.RegLemmas
import Verif.TileLemmas
/-
General matrix-matrix multiplication.

Models /repo/include/blast/math/register_matrix/Gemm.hpp and /repo/include/blast/math/algorithm/Gemm.hpp.
-/
set_option linter.unusedSectionVars false
namespace Blast
open Prog
variable {V : Type} [Arith V]

/-- `gemm(r, K, alpha, a, b)` in-place register gemm: register_matrix/Gemm.hpp:31-36 -/
def gemmAcc (SS RM N : Nat) (r : Reg V) (K : Nat) (alpha : V) (a b : MPtr) : Prog V (Reg V) :=
  foldN K (fun k r => r.gerF SS RM N (Arith.mul alpha) (column (a.off SS 0 k))
    (row ((b.unal SS).off SS k 0))) r

/-- `gemm(r, K, alpha, a, b, md, nd)`: register_matrix/Gemm.hpp:47-52 -/
def gemmAccP (SS RM N : Nat) (r : Reg V) (K : Nat) (alpha : V) (a b : MPtr) (md nd : Nat) :
    Prog V (Reg V) :=
  foldN K (fun k r => r.gerFP SS RM N (Arith.mul alpha) (column (a.off SS 0 k))
    (row ((b.unal SS).off SS k 0)) md nd) r

/-- `gemm(ker, K, alpha, a, b, beta, c, d)`: register_matrix/Gemm.hpp:71-92 (noexcept) -/
def gemmFull (SS RM N K : Nat) (alpha : V) (a b : MPtr) (beta : V) (c d : MPtr) : Prog V Unit :=
  noexcept do
    let aAligned := a.aligned && a.padded && a.so == .columnMajor
    let bAligned := b.aligned && b.padded && b.so == .rowMajor
    let r ← foldN K (fun k (r : Reg V) => r.gerF SS RM N id
      (column ((if aAligned then a else a.unal SS).off SS 0 k))
      (row ((if bAligned then b else b.unal SS).off SS k 0))) Reg.reset
    let r := r.scale alpha
    let r ← r.axpy SS RM N beta c
    r.store SS RM N d

/-- `gemm(ker, K, alpha, a, b, beta, c, d, md, nd)`: register_matrix/Gemm.hpp:112-124 (noexcept) -/
def gemmPart (SS RM N K : Nat) (alpha : V) (a b : MPtr) (beta : V) (c d : MPtr) (md nd : Nat) :
    Prog V Unit :=
  noexcept do
    let r ← foldN K (fun k (r : Reg V) => r.gerFP SS RM N id
      (column (a.off SS 0 k)) (row ((b.unal SS).off SS k 0)) md nd) Reg.reset
    let r := r.scale alpha
    let r ← r.axpyP SS RM N beta c md nd
    r.storeP SS RM N d md nd

/-- `gemm(ker, K, a, b, c, d)`: register_matrix/Gemm.hpp:143-153 (noexcept) -/
def gemmFull1 (SS RM N K : Nat) (r : Reg V) (a b c d : MPtr) : Prog V Unit :=
  noexcept do
    let r ← r.load SS RM N c
    let r ← foldN K (fun k (r : Reg V) => r.gerF SS RM N id
      (column (a.off SS 0 k)) (row ((b.unal SS).off SS k 0))) r
    r.store SS RM N d

/-- `gemm(ker, K, a, b, c, d, md, nd)`: register_matrix/Gemm.hpp:172-182 (noexcept; loads the whole
register matrix from `c`) -/
def gemmPart1 (SS RM N K : Nat) (r : Reg V) (a b c d : MPtr) (md nd : Nat) : Prog V Unit :=
  noexcept do
    let r ← r.load SS RM N c
    let r ← foldN K (fun k (r : Reg V) => r.gerFP SS RM N id
      (column (a.off SS 0 k)) (row ((b.unal SS).off SS k 0)) md nd) r
    r.storeP SS RM N d md nd

/-- `gemm(M, N, K, alpha, A, B, beta, C, D)` with matrix pointers: algorithm/Gemm.hpp:42-62. It compiles only
when A, C (`requires` in register_matrix/Gemm.hpp) and D (`static_assert` in Tile.hpp:51) are
column-major. -/
def gemmPtr (SS M N K : Nat) (alpha : V) (A B : MPtr) (beta : V) (C D : MPtr) : Prog V Unit :=
  tile SS (D.cachePreferredTraversal == .columnMajor) M N
    (fun RM i j => gemmFull SS RM tileStep K alpha (A.off SS i 0) ((B.unal SS).off SS 0 j) beta
      (C.off SS i j) (D.off SS i j))
    (fun RM i j m n => gemmPart SS RM tileStep K alpha (A.off SS i 0) ((B.unal SS).off SS 0 j) beta
      (C.off SS i j) (D.off SS i j) m n)

/-- A matrix argument: what `rows(A)`, `columns(A)` and `ptr(A)` return. -/
structure Mat where
  p : MPtr
  rows : Nat
  cols : Nat
  deriving DecidableEq, Repr

/-- `gemm(alpha, A, B, beta, C, D)` with matrix arguments: algorithm/Gemm.hpp:81-97 -/
def gemmMat (SS : Nat) (alpha : V) (A B : Mat) (beta : V) (C D : Mat) : Prog V Unit :=
  if B.rows ≠ A.cols then throw .invalidArgument else
  if C.rows ≠ A.rows ∨ C.cols ≠ B.cols then throw .invalidArgument else
  if D.rows ≠ A.rows ∨ D.cols ≠ B.cols then throw .invalidArgument else
  gemmPtr SS A.rows B.cols A.cols alpha A.p B.p beta C.p D.p

/-- `gemm(A, B, C, D)`: algorithm/Gemm.hpp:114-118 -/
def gemmMat1 (SS : Nat) (A B C D : Mat) : Prog V Unit :=
  gemmMat SS Arith.one A B Arith.one C D

/-! ### Register-level correctness -/

theorem reads_gerFold {SS RM N mm nn K : Nat} (hSS : 0 < SS) {m : Mem V} {f : V → V} {r0 : Reg V}
    {ap bp : Nat → VPtr} {X Y : Nat → Nat → V}
    (ha : ∀ k, k < K → (ap k).Loads SS m RM (X k))
    (hb : ∀ k, k < K → (bp k).Gets SS m (min nn N) (Y k)) :
    ReadsQ (foldN K (fun k (r : Reg V) => r.gerFP SS RM N f (ap k) (bp k) mm nn) r0) m (fun r' =>
      (∀ i j : Nat, i < RM * SS → j < N → j < nn →
        r'.el SS i j = fmaSum (fun k => f (X k i)) (fun k => Y k j) (r0.el SS i j) K) ∧
      (∀ i j : Nat, ¬ (j < N ∧ j < nn) → r' i j = r0 i j)) := by
  refine readsQ_foldN (I := fun K (r' : Reg V) =>
      (∀ i j : Nat, i < RM * SS → j < N → j < nn →
        r'.el SS i j = fmaSum (fun k => f (X k i)) (fun k => Y k j) (r0.el SS i j) K) ∧
      (∀ i j : Nat, ¬ (j < N ∧ j < nn) → r' i j = r0 i j)) ?_ ?_
  · exact ⟨fun _ _ _ _ _ => rfl, fun _ _ _ => rfl⟩
  · rintro k r hk ⟨h1, h2⟩
    refine (Reg.reads_gerFP (mm := mm) (nn := nn) hSS (ha k hk) (hb k hk)).mono ?_
    rintro r' ⟨h3, h4⟩
    refine ⟨fun i j hi hj hjn => ?_, fun i j hn => ?_⟩
    · rw [h3 i j hi hj hjn, h1 i j hi hj hjn]; rfl
    · rw [h4 i j hn, h2 i j hn]

theorem reads_gerFoldFull {SS RM N K : Nat} (hSS : 0 < SS) {m : Mem V} {f : V → V} {r0 : Reg V}
    {ap bp : Nat → VPtr} {X Y : Nat → Nat → V}
    (ha : ∀ k, k < K → (ap k).Loads SS m RM (X k))
    (hb : ∀ k, k < K → (bp k).Gets SS m N (Y k)) :
    ReadsQ (foldN K (fun k (r : Reg V) => r.gerF SS RM N f (ap k) (bp k)) r0) m (fun r' =>
      ∀ i j : Nat, i < RM * SS → j < N →
        r'.el SS i j = fmaSum (fun k => f (X k i)) (fun k => Y k j) (r0.el SS i j) K) := by
  have e : (fun k (r : Reg V) => r.gerF SS RM N f (ap k) (bp k)) =
      (fun k (r : Reg V) => r.gerFP SS RM N f (ap k) (bp k) 0 N) := by
    funext k r; exact Reg.gerF_eq SS RM N r f (ap k) (bp k)
  rw [e]
  refine (reads_gerFold hSS ha (by simpa using hb)).mono ?_
  rintro r' ⟨h1, _⟩ i j hi hj
  exact h1 i j hi hj hj

/-- value of an entry of `alpha*A*B + beta*C` as computed by the library (`x`: row of A, `y`: column
of B, `c`: entry of C): the products are accumulated by fused multiply-adds starting from 0, the sum is
multiplied by alpha on the right, and beta*c is added by one fused multiply-add. -/
def gemmEntry (alpha beta : V) (x y : Nat → V) (c : V) (K : Nat) : V :=
  Arith.fma beta c (Arith.mul (fmaSum x y Arith.zero K) alpha)

/-- columns of `a` seen from tile row `I`, loaded by the kernel -/
theorem loads_A {SS RM : Nat} (hSS : 0 < SS) {q A : MPtr} {I : Nat} {m : Mem V} {k : Nat}
    (hw : A.WF SS) (h : MPtr.At SS q A I 0) (hs : A.so = .columnMajor) (hI : I % SS = 0)
    (hr : ∀ r : Nat, r < RM * SS → (m (A.addr SS ((I + r : Nat) : Int) k)).isSome = true) :
    (column (q.off SS 0 k)).Loads SS m RM (fun r => val m (A.addr SS ((I + r : Nat) : Int) k)) := by
  have h2 := h.off hSS hw 0 (k : Int) (fun _ => by unfold MPtr.major; rw [hs]; simp)
  rw [Int.add_zero, Int.zero_add] at h2
  have := column_loads (RM := RM) (m := m) hSS hw h2 hs (fun _ => by
      have : ((I % SS : Nat) : Int) = 0 := by rw [hI]; rfl
      rw [Int.natCast_emod] at this; exact this)
    (fun r hr' => by rw [← Int.natCast_add]; exact hr r hr')
  simpa only [Int.natCast_add] using this

theorem gets_B {SS n : Nat} (hSS : 0 < SS) {q B : MPtr} {J : Nat} {m : Mem V} {k : Nat}
    (hw : B.WF SS) (h : MPtr.At SS q B 0 J)
    (ha : q.aligned = true → B.so = .columnMajor → k % SS = 0)
    (hr : ∀ c : Nat, c < n → (m (B.addr SS k ((J + c : Nat) : Int))).isSome = true) :
    (row (q.off SS k 0)).Gets SS m n (fun c => val m (B.addr SS k ((J + c : Nat) : Int))) := by
  have h2 := h.off hSS hw (k : Int) 0 (fun hal => by
    unfold MPtr.major
    cases hs : B.so
    · simp
    · have : ((k % SS : Nat) : Int) = 0 := by rw [ha hal hs]; rfl
      rw [Int.natCast_emod] at this; exact this)
  rw [Int.add_zero, Int.zero_add] at h2
  have := row_gets (n := n) (m := m) hSS hw h2 (fun c hc => by rw [← Int.natCast_add]; exact hr c hc)
  simpa only [Int.natCast_add] using this

theorem el_scale {SS : Nat} (r : Reg V) (alpha : V) (i j : Nat) :
    (r.scale alpha).el SS i j = Arith.mul (r.el SS i j) alpha := rfl

theorem el_reset {SS : Nat} (i j : Nat) : (Reg.reset : Reg V).el SS i j = Arith.zero := rfl

/-- partial tile -/
theorem runs_gemmPart {SS RM N K mm nn : Nat} (hSS : 0 < SS) {a b c d A B C D : MPtr} {I J : Nat}
    {alpha beta : V} {m : Mem V}
    (hA : A.WF SS) (hB : B.WF SS) (hC : C.WF SS) (hD : D.WF SS)
    (sA : A.so = .columnMajor) (sC : C.so = .columnMajor) (sD : D.so = .columnMajor)
    (aA : MPtr.At SS a A I 0) (aB : MPtr.At SS b B 0 J) (aC : MPtr.At SS c C I J)
    (aD : MPtr.At SS d D I J) (hI : I % SS = 0) (hmm : mm ≤ RM * SS) (htight : RM * SS < mm + SS)
    (hnn : nn ≤ N)
    (rA : ∀ r k : Nat, r < RM * SS → k < K → (m (A.addr SS ((I + r : Nat) : Int) k)).isSome = true)
    (rB : ∀ k s : Nat, k < K → s < nn → (m (B.addr SS k ((J + s : Nat) : Int))).isSome = true)
    (rC : ∀ r s : Nat, r < RM * SS → s < nn →
      (m (C.addr SS ((I + r : Nat) : Int) ((J + s : Nat) : Int))).isSome = true)
    (rD : ∀ r s : Nat, r < mm → s < nn →
      (m (D.addr SS ((I + r : Nat) : Int) ((J + s : Nat) : Int))).isSome = true)
    (g : Int → V)
    (hg : ∀ r s : Nat, r < mm → s < nn → g (D.addr SS ((I + r : Nat) : Int) ((J + s : Nat) : Int)) =
      gemmEntry alpha beta (fun k => val m (A.addr SS ((I + r : Nat) : Int) k))
        (fun k => val m (B.addr SS k ((J + s : Nat) : Int)))
        (val m (C.addr SS ((I + r : Nat) : Int) ((J + s : Nat) : Int))) K) :
    Runs (gemmPart SS RM N K alpha a b beta c d mm nn) m (fun _ m' => WritesSet m m'
      (fun x => ∃ r s : Nat, r < mm ∧ s < nn ∧
        x = D.addr SS ((I + r : Nat) : Int) ((J + s : Nat) : Int)) g) := by
  have hIz : (I : Int) % (SS : Int) = 0 := by
    have : ((I % SS : Nat) : Int) = 0 := by rw [hI]; rfl
    rw [Int.natCast_emod] at this; exact this
  refine Runs.noexcept ?_
  refine ReadsQ.bind_runs (reads_gerFold (mm := mm) (nn := nn) hSS
    (X := fun k r => val m (A.addr SS ((I + r : Nat) : Int) k))
    (Y := fun k s => val m (B.addr SS k ((J + s : Nat) : Int)))
    (fun k hk => loads_A hSS hA aA sA hI (fun r hr => rA r k hr hk))
    (fun k hk => gets_B hSS hB (aB.unal hSS) (by rw [MPtr.unal_ptr hSS]; simp)
      (fun s hs => rB k s hk (by omega)))) ?_
  rintro r1 ⟨h1, _⟩
  refine ReadsQ.bind_runs (Reg.reads_axpyP hSS hC aC sC (fun r s hr hr' hs hs' => by
    rw [← Int.natCast_add, ← Int.natCast_add]; exact rC r s hr hs')) ?_
  intro r2 h2
  refine (Reg.runs_storeP hSS hD aD sD (fun _ => hIz) hmm g
    (fun r s hr hs hs' => by rw [← Int.natCast_add, ← Int.natCast_add]; exact rD r s hr hs') ?_).mono ?_
  · intro r s hr hs hs'
    rw [← Int.natCast_add, ← Int.natCast_add, hg r s hr hs', h2 r s (by omega) hr hs hs', el_scale,
      h1 r s (by omega) hs hs', el_reset, ← Int.natCast_add, ← Int.natCast_add]
    rfl
  · intro _ m' hw'
    refine hw'.congr (fun x => ?_)
    simp only [← Int.natCast_add]
    constructor
    · rintro ⟨r, s, hr, hs, hs', hx⟩; exact ⟨r, s, hr, hs', hx⟩
    · rintro ⟨r, s, hr, hs, hx⟩; exact ⟨r, s, hr, by omega, hs, hx⟩

/-- full tile -/
theorem runs_gemmFull {SS RM N K : Nat} (hSS : 0 < SS) {a b c d A B C D : MPtr} {I J : Nat}
    {alpha beta : V} {m : Mem V}
    (hA : A.WF SS) (hB : B.WF SS) (hC : C.WF SS) (hD : D.WF SS)
    (sA : A.so = .columnMajor) (sC : C.so = .columnMajor) (sD : D.so = .columnMajor)
    (aA : MPtr.At SS a A I 0) (aB : MPtr.At SS b B 0 J) (aC : MPtr.At SS c C I J)
    (aD : MPtr.At SS d D I J) (hI : I % SS = 0)
    (rA : ∀ r k : Nat, r < RM * SS → k < K → (m (A.addr SS ((I + r : Nat) : Int) k)).isSome = true)
    (rB : ∀ k s : Nat, k < K → s < N → (m (B.addr SS k ((J + s : Nat) : Int))).isSome = true)
    (rC : ∀ r s : Nat, r < RM * SS → s < N →
      (m (C.addr SS ((I + r : Nat) : Int) ((J + s : Nat) : Int))).isSome = true)
    (rD : ∀ r s : Nat, r < RM * SS → s < N →
      (m (D.addr SS ((I + r : Nat) : Int) ((J + s : Nat) : Int))).isSome = true)
    (g : Int → V)
    (hg : ∀ r s : Nat, r < RM * SS → s < N →
      g (D.addr SS ((I + r : Nat) : Int) ((J + s : Nat) : Int)) =
      gemmEntry alpha beta (fun k => val m (A.addr SS ((I + r : Nat) : Int) k))
        (fun k => val m (B.addr SS k ((J + s : Nat) : Int)))
        (val m (C.addr SS ((I + r : Nat) : Int) ((J + s : Nat) : Int))) K) :
    Runs (gemmFull SS RM N K alpha a b beta c d) m (fun _ m' => WritesSet m m'
      (fun x => ∃ r s : Nat, r < RM * SS ∧ s < N ∧
        x = D.addr SS ((I + r : Nat) : Int) ((J + s : Nat) : Int)) g) := by
  have hIz : (I : Int) % (SS : Int) = 0 := by
    have : ((I % SS : Nat) : Int) = 0 := by rw [hI]; rfl
    rw [Int.natCast_emod] at this; exact this
  have aA' : MPtr.At SS (if (a.aligned && a.padded && a.so == .columnMajor) = true then a else a.unal SS)
      A I 0 := by
    split
    · exact aA
    · exact aA.unal hSS
  have aB' : MPtr.At SS (if (b.aligned && b.padded && b.so == .rowMajor) = true then b else b.unal SS)
      B 0 J := by
    split
    · exact aB
    · exact aB.unal hSS
  refine Runs.noexcept ?_
  refine ReadsQ.bind_runs (reads_gerFoldFull hSS
    (X := fun k r => val m (A.addr SS ((I + r : Nat) : Int) k))
    (Y := fun k s => val m (B.addr SS k ((J + s : Nat) : Int)))
    (fun k hk => loads_A hSS hA aA' sA hI (fun r hr => rA r k hr hk))
    (fun k hk => gets_B hSS hB aB' (by
        intro hal hso
        exfalso
        rw [aB.so, hso] at hal
        rw [if_neg (by simp), MPtr.unal_ptr hSS] at hal
        simp at hal)
      (fun s hs => rB k s hk (by omega)))) ?_
  intro r1 h1
  refine ReadsQ.bind_runs (Reg.reads_axpy hSS hC aC sC (fun r s hr hs => by
    rw [← Int.natCast_add, ← Int.natCast_add]; exact rC r s hr hs)) ?_
  intro r2 h2
  refine (Reg.runs_store hSS hD aD sD (fun _ => hIz) g
    (fun r s hr hs => by rw [← Int.natCast_add, ← Int.natCast_add]; exact rD r s hr hs) ?_).mono ?_
  · intro r s hr hs
    rw [← Int.natCast_add, ← Int.natCast_add, hg r s hr hs, h2 r s hr hs, el_scale,
      h1 r s hr hs, el_reset, ← Int.natCast_add, ← Int.natCast_add]
    rfl
  · intro _ m' hw'
    refine hw'.congr (fun x => ?_)
    simp only [← Int.natCast_add]

/-! ### Matrix-level correctness -/

/-- `n` rounded up to a multiple of `SS` -/
def roundUp (n SS : Nat) : Nat := (n + SS - 1) / SS * SS

theorem le_roundUp {n SS a : Nat} (hSS : 0 < SS) (h1 : a % SS = 0) (h2 : a < n + SS) :
    a ≤ roundUp n SS := by
  unfold roundUp
  have h3 := Nat.div_add_mod a SS
  have h4 : a / SS ≤ (n + SS - 1) / SS := Nat.div_le_div_right (by omega)
  have h5 := Nat.mul_le_mul_right SS h4
  rw [Nat.mul_comm (a / SS)] at h5
  omega

theorem self_le_roundUp {n SS : Nat} (hSS : 0 < SS) : n ≤ roundUp n SS := by
  unfold roundUp
  have h1 := Nat.div_add_mod (n + SS - 1) SS
  have h2 := Nat.mod_lt (n + SS - 1) hSS
  rw [Nat.mul_comm] at h1
  omega

/-- cells `(i,j)`, `i < r`, `j < c` of the matrix at `p` are allocated -/
def Readable (SS : Nat) (m : Mem V) (p : MPtr) (r c : Nat) : Prop :=
  ∀ i j : Nat, i < r → j < c → (m (p.addr SS i j)).isSome = true

/-- distinct elements of the `r × c` matrix at `p` have distinct addresses -/
def Inj (SS : Nat) (p : MPtr) (r c : Nat) : Prop :=
  ∀ i j i' j' : Nat, i < r → j < c → i' < r → j' < c →
    p.addr SS i j = p.addr SS i' j' → i = i' ∧ j = j'

/-- no element of the `r × c` matrix at `p` is an element of the `r' × c'` matrix at `p'` -/
def Disj (SS : Nat) (p : MPtr) (r c : Nat) (p' : MPtr) (r' c' : Nat) : Prop :=
  ∀ i j i' j' : Nat, i < r → j < c → i' < r' → j' < c' → p.addr SS i j ≠ p'.addr SS i' j'

/-- the matrices overlap at most element by element at equal indices (in particular: equal or disjoint) -/
def SameOrDisj (SS : Nat) (p p' : MPtr) (r c : Nat) : Prop :=
  ∀ i j i' j' : Nat, i < r → j < c → i' < r → j' < c →
    p.addr SS i j = p'.addr SS i' j' → i = i' ∧ j = j'

/-- The element cells of the `r × c` matrix at `p` -/
def Cells (SS : Nat) (p : MPtr) (r c : Nat) (x : Int) : Prop :=
  ∃ i j : Nat, i < r ∧ j < c ∧ x = p.addr SS i j

/-- choose cell values for an injective matrix -/
theorem exists_cellFn {SS : Nat} {p : MPtr} {r c : Nat} (h : Inj SS p r c) (F : Nat → Nat → V) :
    ∃ g : Int → V, ∀ i j : Nat, i < r → j < c → g (p.addr SS i j) = F i j := by
  classical
  refine ⟨fun x => if hx : ∃ ij : Nat × Nat, ij.1 < r ∧ ij.2 < c ∧ x = p.addr SS ij.1 ij.2 then
    F hx.choose.1 hx.choose.2 else Arith.zero, ?_⟩
  intro i j hi hj
  have hx : ∃ ij : Nat × Nat, ij.1 < r ∧ ij.2 < c ∧ p.addr SS i j = p.addr SS ij.1 ij.2 :=
    ⟨(i, j), hi, hj, rfl⟩
  simp only [dif_pos hx]
  obtain ⟨h1, h2, h3⟩ := hx.choose_spec
  obtain ⟨h4, h5⟩ := h _ _ _ _ hi hj h1 h2 h3
  rw [← h4, ← h5]

/-- Assumptions on the arguments of gemm: geometry of the pointers; readability (A and C also in
the rows that pad M to a multiple of SS); D has distinct, allocated elements; A and B do not overlap the
elements of D; C is D or does not overlap it. -/
structure GemmPre (SS M N K : Nat) (A B C D : MPtr) (m : Mem V) : Prop where
  ss : 0 < SS
  wA : A.WF SS
  wB : B.WF SS
  wC : C.WF SS
  wD : D.WF SS
  sA : A.so = .columnMajor
  sC : C.so = .columnMajor
  sD : D.so = .columnMajor
  rA : Readable SS m A (roundUp M SS) K
  rB : Readable SS m B K N
  rC : Readable SS m C (roundUp M SS) N
  rD : Readable SS m D M N
  iD : Inj SS D M N
  dA : Disj SS A M K D M N
  dB : Disj SS B K N D M N
  dC : SameOrDisj SS C D M N

theorem at_off {SS : Nat} (hSS : 0 < SS) {p : MPtr} (hw : p.WF SS) (i j : Nat)
    (h : p.aligned = true → p.major i j % (SS : Int) = 0) : MPtr.At SS (p.off SS i j) p i j := by
  have := (MPtr.At.refl hSS p).off hSS hw (i : Int) (j : Int) h
  simpa using this

theorem cast_mod_zero {SS i : Nat} (h : i % SS = 0) : (i : Int) % (SS : Int) = 0 := by
  have : ((i % SS : Nat) : Int) = 0 := by rw [h]; rfl
  rw [Int.natCast_emod] at this; exact this

theorem val_unchanged {m m' : Mem V} {S : Int → Prop} {g : Int → V} (h : WritesSet m m' S g) {x : Int}
    (hx : ¬ S x) : val m' x = val m x := by
  unfold val; rw [(h x).2 hx]

theorem gemmPtr_runs {SS M N K : Nat} {A B C D : MPtr} {alpha beta : V} {m : Mem V}
    (h : GemmPre SS M N K A B C D m) (g : Int → V)
    (hg : ∀ i j : Nat, i < M → j < N → g (D.addr SS i j) =
      gemmEntry alpha beta (fun k => val m (A.addr SS i k)) (fun k => val m (B.addr SS k j))
        (val m (C.addr SS i j)) K) :
    Runs (gemmPtr SS M N K alpha A B beta C D) m (fun _ m' => WritesSet m m' (Cells SS D M N) g) := by
  have hSS := h.ss
  unfold gemmPtr
  rw [tile_eq hSS]
  refine (writes_forList (fun t x => ∃ r s : Nat, r < t.km ∧ s < t.kn ∧
    x = D.addr SS ((t.i + r : Nat) : Int) ((t.j + s : Nat) : Int)) g ?_).mono ?_
  · intro pre t post hl m1 hw1
    have hmem : t ∈ tileCalls SS (D.cachePreferredTraversal == .columnMajor) M N := by rw [hl]; simp
    have hok := tileCalls_ok hSS _ M N t hmem
    have hdis := tileCalls_disjoint hSS (D.cachePreferredTraversal == .columnMajor) M N
    rw [hl, List.pairwise_append] at hdis
    have hpre : ∀ u, u ∈ pre → ∀ x y, u.Has x y → ¬ t.Has x y := fun u hu x y =>
      hdis.2.2 u hu t (by simp) x y
    have hpok : ∀ u, u ∈ pre → u.OK SS M N := fun u hu =>
      tileCalls_ok hSS _ M N u (by rw [hl]; simp [hu])
    have hSsub : ∀ x, (∃ t', t' ∈ pre ∧ ∃ r s : Nat, r < t'.km ∧ s < t'.kn ∧
        x = D.addr SS ((t'.i + r : Nat) : Int) ((t'.j + s : Nat) : Int)) →
        ∃ i j : Nat, i < M ∧ j < N ∧ x = D.addr SS i j ∧ ¬ t.Has i j := by
      rintro x ⟨u, hu, r, s, hr, hs, rfl⟩
      have hu' := hpok u hu
      exact ⟨u.i + r, u.j + s, by have := hu'.rows; omega, by have := hu'.cols; omega, rfl,
        hpre u hu _ _ ⟨by omega, by omega, by omega, by omega⟩⟩
    have hRM : t.i + t.RM * SS ≤ roundUp M SS := by
      refine le_roundUp hSS (add_mod_zero hok.align) ?_
      have := hok.tight; have := hok.rows; omega
    have hmod : (t.i : Int) % (SS : Int) = 0 := cast_mod_zero hok.align
    have aA : MPtr.At SS (A.off SS t.i 0) A t.i 0 := by
      have := at_off hSS h.wA t.i 0 (fun _ => by unfold MPtr.major; rw [h.sA]; exact hmod)
      simpa using this
    have aB : MPtr.At SS ((B.unal SS).off SS 0 t.j) B 0 t.j := by
      have := ((MPtr.At.refl hSS B).unal hSS).off hSS h.wB 0 (t.j : Int) (by
        rw [MPtr.unal_ptr hSS]; simp)
      simpa using this
    have aC := at_off hSS h.wC t.i t.j (fun _ => by unfold MPtr.major; rw [h.sC]; exact hmod)
    have aD := at_off hSS h.wD t.i t.j (fun _ => by unfold MPtr.major; rw [h.sD]; exact hmod)
    have vA : ∀ i k : Nat, i < M → k < K → val m1 (A.addr SS i k) = val m (A.addr SS i k) := by
      intro i k hi hk
      refine val_unchanged hw1 (fun hx => ?_)
      obtain ⟨i', j', hi', hj', he, _⟩ := hSsub _ hx
      exact h.dA _ _ _ _ hi hk hi' hj' he
    have vB : ∀ k j : Nat, k < K → j < N → val m1 (B.addr SS k j) = val m (B.addr SS k j) := by
      intro k j hk hj
      refine val_unchanged hw1 (fun hx => ?_)
      obtain ⟨i', j', hi', hj', he, _⟩ := hSsub _ hx
      exact h.dB _ _ _ _ hk hj hi' hj' he
    have vC : ∀ i j : Nat, i < M → j < N → t.Has i j → val m1 (C.addr SS i j) = val m (C.addr SS i j) := by
      intro i j hi hj hh
      refine val_unchanged hw1 (fun hx => ?_)
      obtain ⟨i', j', hi', hj', he, hn⟩ := hSsub _ hx
      obtain ⟨rfl, rfl⟩ := h.dC _ _ _ _ hi hj hi' hj' he
      exact hn hh
    have hval : ∀ r s : Nat, r < t.km → s < t.kn →
        g (D.addr SS ((t.i + r : Nat) : Int) ((t.j + s : Nat) : Int)) =
        gemmEntry alpha beta (fun k => val m1 (A.addr SS ((t.i + r : Nat) : Int) k))
          (fun k => val m1 (B.addr SS k ((t.j + s : Nat) : Int)))
          (val m1 (C.addr SS ((t.i + r : Nat) : Int) ((t.j + s : Nat) : Int))) K := by
      intro r s hr hs
      have hi : t.i + r < M := by have := hok.rows; omega
      have hj : t.j + s < N := by have := hok.cols; omega
      rw [hg _ _ hi hj, vC _ _ hi hj ⟨by omega, by omega, by omega, by omega⟩]
      unfold gemmEntry
      rw [fmaSum_congr rfl K (fun k hk => vA _ _ hi hk) (fun k hk => vB _ _ hk hj)]
    unfold TileCall.exec
    by_cases hf : t.full = true
    · obtain ⟨hkm, hkn⟩ := hok.full.1 hf
      rw [if_pos hf]
      refine (runs_gemmFull (RM := t.RM) (N := tileStep) hSS h.wA h.wB h.wC h.wD h.sA h.sC h.sD
        aA aB aC aD hok.align
        (fun r k hr hk => hw1.isSome (h.rA _ _ (by omega) hk))
        (fun k s hk hs => hw1.isSome (h.rB _ _ hk (by have := hok.cols; simp only [tileStep] at hs; omega)))
        (fun r s hr hs => hw1.isSome (h.rC _ _ (by omega)
          (by have := hok.cols; simp only [tileStep] at hs; omega)))
        (fun r s hr hs => hw1.isSome (h.rD _ _ (by have := hok.rows; omega)
          (by have := hok.cols; simp only [tileStep] at hs; omega)))
        g (fun r s hr hs => hval r s (by omega) (by simp only [tileStep] at hs; omega))).mono ?_
      intro _ m2 hw2
      refine hw2.congr (fun x => ?_)
      rw [hkm, hkn]; rfl
    · rw [if_neg hf]
      exact runs_gemmPart (RM := t.RM) (N := tileStep) hSS h.wA h.wB h.wC h.wD h.sA h.sC h.sD
        aA aB aC aD hok.align hok.fits hok.tight hok.width
        (fun r k hr hk => hw1.isSome (h.rA _ _ (by omega) hk))
        (fun k s hk hs => hw1.isSome (h.rB _ _ hk (by have := hok.cols; omega)))
        (fun r s hr hs => hw1.isSome (h.rC _ _ (by omega) (by have := hok.cols; omega)))
        (fun r s hr hs => hw1.isSome (h.rD _ _ (by have := hok.rows; omega) (by have := hok.cols; omega)))
        g hval
  · intro _ m' hw
    refine hw.congr (fun x => ?_)
    constructor
    · rintro ⟨t, ht, r, s, hr, hs, rfl⟩
      have hok := tileCalls_ok hSS _ M N t ht
      exact ⟨t.i + r, t.j + s, by have := hok.rows; omega, by have := hok.cols; omega, rfl⟩
    · rintro ⟨i, j, hi, hj, rfl⟩
      obtain ⟨t, ht, h1, h2, h3, h4⟩ := tileCalls_cover hSS
        (D.cachePreferredTraversal == .columnMajor) M N hi hj
      exact ⟨t, ht, i - t.i, j - t.j, by omega, by omega, by
        rw [show t.i + (i - t.i) = i by omega, show t.j + (j - t.j) = j by omega]⟩

/-- gemm, as an existence statement about the final memory -/
theorem gemmPtr_correct {SS M N K : Nat} {A B C D : MPtr} {alpha beta : V} {m : Mem V}
    (h : GemmPre SS M N K A B C D m) :
    ∃ m', gemmPtr SS M N K alpha A B beta C D m = .ok () m' ∧
      (∀ i j : Nat, i < M → j < N → m' (D.addr SS i j) = some
        (gemmEntry alpha beta (fun k => val m (A.addr SS i k)) (fun k => val m (B.addr SS k j))
          (val m (C.addr SS i j)) K)) ∧
      (∀ x, ¬ Cells SS D M N x → m' x = m x) := by
  obtain ⟨g, hg⟩ := exists_cellFn h.iD (fun i j => gemmEntry alpha beta
    (fun k => val m (A.addr SS i k)) (fun k => val m (B.addr SS k j)) (val m (C.addr SS i j)) K)
  obtain ⟨_, m', h1, h2⟩ := gemmPtr_runs h g hg
  refine ⟨m', h1, fun i j hi hj => ?_, fun x hx => (h2 x).2 hx⟩
  rw [(h2 _).1 ⟨i, j, hi, hj, rfl⟩, hg i j hi hj]

end Blast
