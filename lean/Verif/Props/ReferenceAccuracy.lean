import Verif.Props.Accuracy
import Verif.Props.Reference
import Verif.Props.Testing
/- Concrete cases meeting the hypotheses of these theorems: Verif/Cases/Reference.lean, and the examples in this file. -/
/-
Property C63: the reference implementations in rounded arithmetic, and the comparison of an optimized algorithm with its reference implementation
made by the test suite.
-/
set_option linter.unusedSectionVars false
namespace Blast
open Finset Prog
open Reg (UpLo)

/-- the value computed by `reference::gemm`, operation by operation, in any arithmetic -/
theorem refGemm_bitwise {V : Type} [Arith V] {SS M N K : Nat} (hSS : 0 < SS) {A B C D : MPtr}
    (wA : A.panel = true → A.ptr % (SS : Int) = 0) (wB : B.panel = true → B.ptr % (SS : Int) = 0)
    (wC : C.panel = true → C.ptr % (SS : Int) = 0) (wD : D.panel = true → D.ptr % (SS : Int) = 0) (alpha beta : V) {mem : Mem V}
    {a b c : Nat → Nat → V} (hA : Holds SS mem A M K a) (hB : Holds SS mem B K N b) (hC : Holds SS mem C M N c)
    (hD : Readable SS mem D M N) (hinj : Inj SS D M N) (dA : Disj SS A M K D M N) (dB : Disj SS B K N D M N)
    (dC : SameOrDisj SS C D M N) :
    ∃ mem', refGemm SS M N K alpha A B beta C D mem = .ok () mem' ∧
      Holds SS mem' D M N (fun i j => Arith.add (Arith.mul alpha (addFold (fun k => Arith.mul (a i k) (b k j)) Arith.zero 0 K)) (Arith.mul beta (c i j))) ∧
      (∀ y, ¬ Cells SS D M N y → mem' y = mem y) := by
  unfold refGemm
  rw [derefAt_start hSS wA, derefAt_start hSS wB, derefAt_start hSS wC, assignAt_start hSS wD]
  refine runs_elementwise hD hinj _ _ (fun i j hi hj m1 h1 h2 => ?_)
  have hf : ∀ k v, 0 ≤ k → k < K → Reads (do
      let a ← Prog.read (A.addr SS (i : Nat) (k : Nat))
      let b ← Prog.read (B.addr SS (k : Nat) (j : Nat))
      pure (Arith.add v (Arith.mul a b))) m1 (Arith.add v (Arith.mul (a i k) (b k j))) := by
    intro k v _ hk
    have ea : m1 (A.addr SS i k) = some (a i k) := by
      rw [h1 _ (fun i' j' h3 h4 _ => dA _ _ _ _ hi hk h3 h4)]; exact hA i k hi hk
    have eb : m1 (B.addr SS k j) = some (b k j) := by
      rw [h1 _ (fun i' j' h3 h4 _ => dB _ _ _ _ hk hj h3 h4)]; exact hB k j hk hj
    exact Reads.bind (reads_read ea) (Reads.bind (reads_read eb) reads_pure)
  have := reads_addFold (lo := 0) (hi := K) (c := (Arith.zero : V)) hf
  simp only [foldFrom, Nat.sub_zero, Nat.zero_add] at this
  rw [bind_ok this]
  have ec : m1 (C.addr SS i j) = some (c i j) := by
    rw [h1 _ (fun i' j' h3 h4 h5 h6 => h5 (by obtain ⟨e1, e2⟩ := dC _ _ _ _ hi hj h3 h4 h6; exact ⟨e1.symm, e2.symm⟩))]
    exact hC i j hi hj
  rw [bind_ok (reads_read ec)]
  exact write_eq _ h2

variable {V : Type} [Field V] [LinearOrder V] [IsStrictOrderedRing V] [Arith V] {u : V} [hR : Rounded u]

theorem near_add {n : Nat} {B B' x x' y y' : V} (h : Near u n B x y) (h' : Near u n B' x' y') :
    Near u (n + 1) (B + B') (Arith.add x x') (y + y') :=
  (h.add hR.u_nonneg h').round hR.u_nonneg (hR.add_err x x')

theorem near_addFold {k k' : Nat} {f g F : Nat → V} {c z C : V} (lo n : Nat) (hf : ∀ t, t < n → Near u k (F t) (f (lo + t)) (g t))
    (hc : Near u k' C c z) (hk : k ≤ k') :
    Near u (k' + n) (C + ∑ t ∈ range n, F t) (addFold f c lo n) (z + ∑ t ∈ range n, g t) := by
  induction n with
  | zero => simpa [addFold] using hc
  | succ n ih =>
    have h1 := ih (fun t ht => hf t (by omega))
    have h2 := near_add h1 ((hf n (by omega)).mono hR.u_nonneg (show k ≤ k' + n by omega))
    rw [sum_range_succ, sum_range_succ, ← add_assoc C, ← add_assoc z]
    exact h2

/-- accuracy of one element computed by `reference::gemm` -/
theorem near_refGemm (K : Nat) (alpha beta c : V) (x y : Nat → V) :
    Near u (K + 3) (|alpha| * ∑ k ∈ range K, |x k| * |y k| + |beta| * |c|)
      (Arith.add (Arith.mul alpha (addFold (fun k => Arith.mul (x k) (y k)) Arith.zero 0 K)) (Arith.mul beta c))
      (alpha * ∑ k ∈ range K, x k * y k + beta * c) := by
  have e1 := near_addFold (u := u) (k := 1) (k' := 1) (f := fun k => Arith.mul (x k) (y k)) (g := fun k => x k * y k) (F := fun k => |x k| * |y k|) 0 K
    (fun t _ => by rw [Nat.zero_add]; exact near_mul (Near.refl u (x t)) (Near.refl u (y t))) (near_zero 1) (le_refl _)
  rw [zero_add, zero_add] at e1
  have e2 := near_mul (Near.refl u alpha) e1
  have e3 := near_mul (Near.refl u beta) (Near.refl u c)
  have e4 := near_add (e2.mono hR.u_nonneg (show 0 + (1 + K) + 1 ≤ K + 2 by omega)) (e3.mono hR.u_nonneg (show 0 + 0 + 1 ≤ K + 2 by omega))
  exact e4

/-- **C63** (gemm). The computed `alpha*A*B + beta*C` of the reference implementation differs from the exact one by at most `(1+u)^(K+3) - 1`, relative to
`|alpha| |A| |B| + |beta| |C|`; nothing but D is written. -/
theorem C63_reference_gemm_accuracy {SS M N K : Nat} (hSS : 0 < SS) {A B C D : MPtr}
    (wA : A.panel = true → A.ptr % (SS : Int) = 0) (wB : B.panel = true → B.ptr % (SS : Int) = 0)
    (wC : C.panel = true → C.ptr % (SS : Int) = 0) (wD : D.panel = true → D.ptr % (SS : Int) = 0) (alpha beta : V) {mem : Mem V}
    {a b c : Nat → Nat → V} (hA : Holds SS mem A M K a) (hB : Holds SS mem B K N b) (hC : Holds SS mem C M N c)
    (hD : Readable SS mem D M N) (hinj : Inj SS D M N) (dA : Disj SS A M K D M N) (dB : Disj SS B K N D M N)
    (dC : SameOrDisj SS C D M N) :
    ∃ mem' d, refGemm SS M N K alpha A B beta C D mem = .ok () mem' ∧ Holds SS mem' D M N d ∧
      (∀ i j, i < M → j < N → |d i j - (alpha * ∑ k ∈ range K, a i k * b k j + beta * c i j)| ≤
        ((1 + u) ^ (K + 3) - 1) * (|alpha| * ∑ k ∈ range K, |a i k| * |b k j| + |beta| * |c i j|)) ∧
      (∀ y, ¬ Cells SS D M N y → mem' y = mem y) := by
  obtain ⟨mem', e1, e2, e3⟩ := refGemm_bitwise hSS wA wB wC wD alpha beta hA hB hC hD hinj dA dB dC
  exact ⟨mem', _, e1, e2, fun i j _ _ => (near_refGemm K alpha beta (c i j) (fun k => a i k) (fun k => b k j)).err, e3⟩

/-- **C63** (ger). -/
theorem C63_reference_ger_accuracy {SS m n : Nat} (hSS : 0 < SS) {x y : VPtr} {A B : MPtr}
    (wA : A.WF SS) (wB : B.WF SS) (alpha : V) {mem : Mem V} {a : Nat → Nat → V} {xv yv : Nat → V}
    (wx : x.WF SS) (wy : y.WF SS) (hx : VHolds SS mem x m xv) (hy : VHolds SS mem y n yv)
    (hA : Holds SS mem A m n a) (hB : Readable SS mem B m n) (hinj : Inj SS B m n)
    (dA : SameOrDisj SS A B m n)
    (dx : ∀ i : Nat, i < m → ¬ Cells SS B m n (x.addr SS i))
    (dy : ∀ i : Nat, i < n → ¬ Cells SS B m n (y.addr SS i)) :
    ∃ mem' b, refGer SS m n alpha x y A B mem = .ok () mem' ∧ Holds SS mem' B m n b ∧
      (∀ i j, i < m → j < n → |b i j - (a i j + alpha * xv i * yv j)| ≤ ((1 + u) ^ 3 - 1) * (|a i j| + |alpha| * |xv i| * |yv j|)) ∧
      (∀ z, ¬ Cells SS B m n z → mem' z = mem z) := by
  unfold refGer
  rw [derefAt_eq hSS wA, assignAt_eq hSS wB]
  have key : ∀ body : Nat → Nat → Prog V Unit, (∀ i j, i < m → j < n → ∀ m1 : Mem V,
      (∀ z, (∀ i' j', i' < m → j' < n → ¬ (i' = i ∧ j' = j) → z ≠ B.addr SS (i' : Nat) (j' : Nat)) → m1 z = mem z) →
      (m1 (B.addr SS i j)).isSome = true → body i j m1 = .ok () (updMem m1 (B.addr SS i j) ((fun i j => Arith.add (a i j) (Arith.mul (Arith.mul alpha (xv i)) (yv j))) i j))) →
      ∃ mem' b, forN m (fun i => forN n (body i)) mem = .ok () mem' ∧ Holds SS mem' B m n b ∧
        (∀ i j, i < m → j < n → |b i j - (a i j + alpha * xv i * yv j)| ≤ ((1 + u) ^ 3 - 1) * (|a i j| + |alpha| * |xv i| * |yv j|)) ∧ (∀ z, ¬ Cells SS B m n z → mem' z = mem z) := by
    intro body hb
    obtain ⟨mem', e1, e2, e3⟩ := runs_elementwise hB hinj body (fun i j => Arith.add (a i j) (Arith.mul (Arith.mul alpha (xv i)) (yv j))) hb
    refine ⟨mem', _, e1, e2, fun i j hi hj => ?_, e3⟩
    have n1 := near_mul (near_mul (Near.refl u alpha) (Near.refl u (xv i))) (Near.refl u (yv j))
    exact (near_add ((Near.refl u (a i j)).mono hR.u_nonneg (Nat.zero_le _)) n1).bound hR.u_nonneg (by omega) rfl rfl
  refine key _ (fun i j hi hj m1 h1 h2 => ?_)
  have ea : m1 (A.addr SS i j) = some (a i j) := by
    rw [h1 _ (fun i' j' h3 h4 h5 h6 => h5 (by obtain ⟨e1, e2⟩ := dA _ _ _ _ hi hj h3 h4 h6; exact ⟨e1.symm, e2.symm⟩))]
    exact hA i j hi hj
  have ex := hx i hi
  rw [← h1 _ (fun i' j' h3 h4 _ h6 => dx i hi ⟨i', j', h3, h4, h6⟩)] at ex
  have ey := hy j hj
  rw [← h1 _ (fun i' j' h3 h4 _ h6 => dy j hj ⟨i', j', h3, h4, h6⟩)] at ey
  rw [bind_ok (reads_read ea)]
  unfold VPtr.get
  rw [VPtr.unal_off_addr hSS wx, VPtr.unal_off_addr hSS wy, bind_ok (reads_read ex), bind_ok (reads_read ey)]
  exact write_eq _ h2

/-- **C63** (axpy). -/
theorem C63_reference_axpy_accuracy {SS M N : Nat} (hSS : 0 < SS) {A B C : MPtr}
    (wA : A.WF SS) (wB : B.WF SS) (wC : C.WF SS) (alpha : V) {mem : Mem V}
    {a b : Nat → Nat → V} (hA : Holds SS mem A M N a) (hB : Holds SS mem B M N b)
    (hC : Readable SS mem C M N) (hinj : Inj SS C M N) (dA : SameOrDisj SS A C M N) (dB : SameOrDisj SS B C M N) :
    ∃ mem' c, refAxpy SS M N alpha A B C mem = .ok () mem' ∧ Holds SS mem' C M N c ∧
      (∀ i j, i < M → j < N → |c i j - (alpha * a i j + b i j)| ≤ ((1 + u) ^ 2 - 1) * (|alpha| * |a i j| + |b i j|)) ∧
      (∀ y, ¬ Cells SS C M N y → mem' y = mem y) := by
  unfold refAxpy
  rw [derefAt_eq hSS wA, derefAt_eq hSS wB, assignAt_eq hSS wC]
  have key : ∀ body : Nat → Nat → Prog V Unit, (∀ i j, i < M → j < N → ∀ m1 : Mem V,
      (∀ z, (∀ i' j', i' < M → j' < N → ¬ (i' = i ∧ j' = j) → z ≠ C.addr SS (i' : Nat) (j' : Nat)) → m1 z = mem z) →
      (m1 (C.addr SS i j)).isSome = true → body i j m1 = .ok () (updMem m1 (C.addr SS i j) ((fun i j => Arith.add (Arith.mul alpha (a i j)) (b i j)) i j))) →
      ∃ mem' b', forN M (fun i => forN N (body i)) mem = .ok () mem' ∧ Holds SS mem' C M N b' ∧
        (∀ i j, i < M → j < N → |b' i j - (alpha * a i j + b i j)| ≤ ((1 + u) ^ 2 - 1) * (|alpha| * |a i j| + |b i j|)) ∧ (∀ z, ¬ Cells SS C M N z → mem' z = mem z) := by
    intro body hb
    obtain ⟨mem', e1, e2, e3⟩ := runs_elementwise hC hinj body (fun i j => Arith.add (Arith.mul alpha (a i j)) (b i j)) hb
    refine ⟨mem', _, e1, e2, fun i j hi hj => ?_, e3⟩
    have n1 := near_mul (Near.refl u alpha) (Near.refl u (a i j))
    exact (near_add n1 ((Near.refl u (b i j)).mono hR.u_nonneg (Nat.zero_le _))).bound hR.u_nonneg (by omega) rfl rfl
  refine key _ (fun i j hi hj m1 h1 h2 => ?_)
  have ea : m1 (A.addr SS i j) = some (a i j) := by
    rw [h1 _ (fun i' j' h3 h4 h5 h6 => h5 (by obtain ⟨e1, e2⟩ := dA _ _ _ _ hi hj h3 h4 h6; exact ⟨e1.symm, e2.symm⟩))]
    exact hA i j hi hj
  have eb : m1 (B.addr SS i j) = some (b i j) := by
    rw [h1 _ (fun i' j' h3 h4 h5 h6 => h5 (by obtain ⟨e1, e2⟩ := dB _ _ _ _ hi hj h3 h4 h6; exact ⟨e1.symm, e2.symm⟩))]
    exact hB i j hi hj
  rw [bind_ok (reads_read ea), bind_ok (reads_read eb)]
  exact write_eq _ h2

/-- position (i, k) is in the zero part of a triangular matrix -/
def Outside : UpLo → Nat → Nat → Prop
  | .lower, i, k => i < k
  | .upper, i, k => k < i

/-- one product with a triangular matrix -/
theorem prod_near {no ni : Nat} (uplo : UpLo)
    {addrC addrB addrA : Nat → Nat → Int} (f : V → V → V) (hf : ∀ p q, Near u 1 (|p| * |q|) (f p q) (p * q)) (alpha : V)
    (diag : Bool) {m : Mem V} {a b : Nat → Nat → V}
    (hinj : ∀ o i o' i', o < no → i < ni → o' < no → i' < ni → addrC o i = addrC o' i' → o = o' ∧ i = i')
    (hC : ∀ o i, o < no → i < ni → (m (addrC o i)).isSome = true)
    (hB : ∀ o i, o < no → i < ni → m (addrB o i) = some (b o i))
    (hBC : ∀ o i o' i', o < no → i < ni → o' < no → i' < ni → addrB o i = addrC o' i' → o = o' ∧ i = i')
    (hA : ∀ i k, i < ni → k < ni → TriRef uplo diag i k → m (addrA i k) = some (a i k) ∧
      ∀ o' i', o' < no → i' < ni → addrA i k ≠ addrC o' i') :
    ∃ (m' : Mem V) (c : Nat → Nat → V), forN no (fun o => innerLoop (prodDown uplo) ni
        (prodBody addrC addrB addrA f alpha diag (prodLo uplo) (prodHi uplo ni) o)) m = .ok () m' ∧
      (∀ x, (∀ o i, o < no → i < ni → x ≠ addrC o i) → m' x = m x) ∧
      (∀ o i, o < no → i < ni → m' (addrC o i) = some (c o i) ∧
        Near u (ni + 2) (|alpha| * ∑ k ∈ range ni, |tri uplo diag a i k| * |b o k|) (c o i) (alpha * ∑ k ∈ range ni, tri uplo diag a i k * b o k)) := by
  have href : ∀ i k, i < ni → prodLo uplo i ≤ k → k < prodHi uplo ni i → k < ni ∧
      (k ≠ i → TriRef uplo diag i k) := by
    intro i k hi h1 h2
    cases uplo with
    | lower => change k < i + 1 at h2; exact ⟨by omega, fun h => Or.inr (Or.inl ⟨rfl, by omega⟩)⟩
    | upper =>
      change i ≤ k at h1; change k < ni at h2; exact ⟨by omega, fun h => Or.inr (Or.inr ⟨rfl, by omega⟩)⟩
  obtain ⟨m', e1, e2, e3⟩ := runs_prod (no := no) (ni := ni) (prodDown uplo) (addrC := addrC) (addrB := addrB)
    (addrA := addrA) f alpha diag (prodLo uplo) (prodHi uplo ni)
    (by
      intro i k hi h1 h2
      refine ⟨(href i k hi h1 h2).1, ?_⟩
      cases uplo with
      | lower => change k < i + 1 at h2; simp [innerLt, prodDown]; omega
      | upper => change i ≤ k at h1; simp [innerLt, prodDown]; omega) (m := m) hinj hC
    (by intro o i ho hi; rw [hB o i ho hi]; rfl) hBC
    (by
      intro i k hi h1 h2 hk
      have hr : TriRef uplo diag i k := by
        by_cases he : k = i
        · refine Or.inl ⟨he.symm, ?_⟩
          cases hd : diag
          · rfl
          · exact absurd ⟨hd, he⟩ hk
        · exact (href i k hi h1 h2).2 he
      have := hA i k hi (href i k hi h1 h2).1 hr
      exact ⟨by rw [this.1]; rfl, this.2⟩)
  refine ⟨m', _, e1, e2, fun o i ho hi => ⟨e3 o i ho hi, ?_⟩⟩
  have hterm : ∀ k, prodLo uplo i ≤ k → k < prodHi uplo ni i → Near u 1 (|tri uplo diag a i k| * |b o k|)
      (if (diag && k == i) = true then val m (addrB o k) else f (val m (addrA i k)) (val m (addrB o k))) (tri uplo diag a i k * b o k) := by
    intro k h1 h2
    obtain ⟨hk, hr⟩ := href i k hi h1 h2
    rw [val_some (hB o k ho hk)]
    by_cases he : k = i
    · subst he
      rw [tri_diag]
      cases hd : diag
      · rw [if_neg (by simp), if_neg (by simp), val_some (hA k k hk hk (Or.inl ⟨rfl, hd⟩)).1]; exact hf _ _
      · rw [if_pos rfl, if_pos (by simp), one_mul, abs_one, one_mul]; exact (Near.refl u _).mono hR.u_nonneg (Nat.zero_le _)
    · rw [if_neg (by simp [he]), val_some (hA i k hi hk (hr he)).1]
      have : tri uplo diag a i k = a i k := by
        cases uplo with
        | lower => exact tri_lower (by change k < i + 1 at h2; omega)
        | upper => exact tri_upper (by change i ≤ k at h1; omega)
      rw [this]
      exact hf _ _
  have hsum : ∀ g : Nat → V, (∀ k, k < ni → Outside uplo i k → g k = 0) →
      ∑ t ∈ range (prodHi uplo ni i - prodLo uplo i), g (prodLo uplo i + t) = ∑ k ∈ range ni, g k := by
    intro g hz
    let g' : Nat → V := fun k => if k < ni then g k else 0
    have hg' : ∀ k, k < ni → g' k = g k := fun k hk => if_pos hk
    have e : ∑ k ∈ range ni, g k = ∑ k ∈ range ni, g' k := sum_congr rfl (fun k hk => (hg' k (mem_range.1 hk)).symm)
    rw [e, sum_congr rfl (g := fun t => g' (prodLo uplo i + t)) (fun t ht => (hg' _ (href i _ hi (by omega) (by rw [mem_range] at ht; omega)).1).symm)]
    cases uplo with
    | lower =>
      rw [sum_lower g' hi (fun k hk => by
        show (if k < ni then g k else 0) = 0
        split
        · exact hz k (by assumption) hk
        · rfl), ← sum_range_succ]
      simp [prodHi, prodLo]
    | upper =>
      rw [sum_upper g' hi (fun k hk => by
        show (if k < ni then g k else 0) = 0
        split
        · exact hz k (by assumption) hk
        · rfl)]
      simp only [prodHi, prodLo]
      rw [show ni - i = (ni - (i + 1)) + 1 by omega, sum_range_succ', Nat.add_zero, add_comm]
      congr 1
      refine sum_congr rfl (fun k _ => ?_)
      rw [show i + (k + 1) = i + 1 + k by omega]
  have hz : ∀ k, Outside uplo i k → tri uplo diag a i k = 0 := by
    intro k hk
    cases uplo with
    | lower => exact tri_lower_zero hk
    | upper => exact tri_upper_zero hk
  have hle : prodHi uplo ni i - prodLo uplo i ≤ ni := by
    cases uplo with
    | lower => show i + 1 - 0 ≤ ni; omega
    | upper => show ni - i ≤ ni; omega
  have n1 := near_addFold (u := u) (k := 1) (k' := 1)
    (f := fun k => if (diag && k == i) = true then val m (addrB o k) else f (val m (addrA i k)) (val m (addrB o k)))
    (g := fun t => tri uplo diag a i (prodLo uplo i + t) * b o (prodLo uplo i + t))
    (F := fun t => |tri uplo diag a i (prodLo uplo i + t)| * |b o (prodLo uplo i + t)|) (prodLo uplo i) (prodHi uplo ni i - prodLo uplo i)
    (fun t ht => hterm _ (by omega) (by omega)) (near_zero 1) (le_refl _)
  rw [zero_add, zero_add, hsum (fun k => |tri uplo diag a i k| * |b o k|) (fun k _ hk => by rw [hz k hk, abs_zero, zero_mul]),
    hsum (fun k => tri uplo diag a i k * b o k) (fun k _ hk => by rw [hz k hk, zero_mul])] at n1
  exact (near_mul (Near.refl u alpha) n1).mono hR.u_nonneg (by omega)

/-- **C63** (trmm, left): `alpha * tri(A) * B`, for every triangle, unit or non-unit diagonal. -/
theorem C63_reference_trmm_left_accuracy {SS m n : Nat} (hSS : 0 < SS) {A B C : MPtr}
    (wA : A.WF SS) (wB : B.WF SS) (wC : C.WF SS) (uplo : UpLo)
    (diag : Bool) (alpha : V) {mem : Mem V} {a b : Nat → Nat → V}
    (hA : TriArg SS mem A m uplo diag a C m n)
    (hC : Readable SS mem C m n) (hinj : Inj SS C m n) (hB : Holds SS mem B m n b)
    (hBC : SameOrDisj SS B C m n) :
    ∃ mem' c, refTrmmL SS m n alpha A uplo diag B C mem = .ok () mem' ∧ Holds SS mem' C m n c ∧
      (∀ i j, i < m → j < n → |c i j - alpha * ∑ k ∈ range m, tri uplo diag a i k * b k j| ≤
        ((1 + u) ^ (m + 2) - 1) * (|alpha| * ∑ k ∈ range m, |tri uplo diag a i k| * |b k j|)) ∧
      (∀ y, ¬ Cells SS C m n y → mem' y = mem y) := by
  obtain ⟨mem', c, e1, e2, e3⟩ := prod_near (u := u) (no := n) (ni := m) uplo
    (addrC := fun o i => C.addr SS (i : Nat) (o : Nat)) (addrB := fun o i => B.addr SS (i : Nat) (o : Nat))
    (addrA := fun i k => A.addr SS (i : Nat) (k : Nat)) Arith.mul (fun p q => near_mul (Near.refl u p) (Near.refl u q)) alpha diag (m := mem)
    (a := a) (b := fun o i => b i o)
    (by intro o i o' i' h1 h2 h3 h4 he; have := hinj _ _ _ _ h2 h1 h4 h3 he; exact ⟨this.2, this.1⟩)
    (by intro o i ho hi; exact hC i o hi ho) (fun o i ho hi => hB i o hi ho)
    (by intro o i o' i' h1 h2 h3 h4 he; have := hBC _ _ _ _ h2 h1 h4 h3 he; exact ⟨this.2, this.1⟩)
    (by
      intro i k hi hk hr
      have := hA i k hi hk hr
      exact ⟨this.1, fun o' i' h1 h2 he => this.2 ⟨i', o', h2, h1, he⟩⟩)
  refine ⟨mem', fun i j => c j i, ?_, fun i j hi hj => (e3 j i hj hi).1, fun i j hi hj => (e3 j i hj hi).2.err,
    fun y hy => e2 y (fun o i ho hi he => hy ⟨i, o, hi, ho, he⟩)⟩
  unfold refTrmmL
  rw [derefAt_eq hSS wA, derefAt_eq hSS wB, assignAt_eq hSS wC]
  cases uplo <;> exact e1

/-- **C63** (trmm, right): `alpha * B * tri(A)`. -/
theorem C63_reference_trmm_right_accuracy {SS m n : Nat} (hSS : 0 < SS) {A B C : MPtr}
    (wA : A.WF SS) (wB : B.WF SS) (wC : C.WF SS) (uplo : UpLo)
    (diag : Bool) (alpha : V) {mem : Mem V} {a b : Nat → Nat → V}
    (hA : TriArg SS mem A n uplo diag a C m n)
    (hC : Readable SS mem C m n) (hinj : Inj SS C m n) (hB : Holds SS mem B m n b)
    (hBC : SameOrDisj SS B C m n) :
    ∃ mem' c, refTrmmR SS m n alpha B A uplo diag C mem = .ok () mem' ∧ Holds SS mem' C m n c ∧
      (∀ i j, i < m → j < n → |c i j - alpha * ∑ k ∈ range n, b i k * tri uplo diag a k j| ≤
        ((1 + u) ^ (n + 2) - 1) * (|alpha| * ∑ k ∈ range n, |b i k| * |tri uplo diag a k j|)) ∧
      (∀ y, ¬ Cells SS C m n y → mem' y = mem y) := by
  obtain ⟨mem', c, e1, e2, e3⟩ := prod_near (u := u) (no := m) (ni := n) (flipUpLo uplo)
    (addrC := fun o i => C.addr SS (o : Nat) (i : Nat)) (addrB := fun o i => B.addr SS (o : Nat) (i : Nat))
    (addrA := fun i k => A.addr SS (k : Nat) (i : Nat)) (fun p q => Arith.mul q p)
    (fun p q => by rw [mul_comm |p|, mul_comm p]; exact near_mul (Near.refl u q) (Near.refl u p)) alpha diag (m := mem)
    (a := fun x y => a y x) (b := b)
    (by intro o i o' i' h1 h2 h3 h4 he; exact hinj _ _ _ _ h1 h2 h3 h4 he)
    (by intro o i ho hi; exact hC o i ho hi) (fun o i ho hi => hB o i ho hi)
    (by intro o i o' i' h1 h2 h3 h4 he; exact hBC _ _ _ _ h1 h2 h3 h4 he)
    (by
      intro i k hi hk hr
      have := hA k i hk hi hr.flip
      exact ⟨this.1, fun o' i' h1 h2 he => this.2 ⟨o', i', h1, h2, he⟩⟩)
  refine ⟨mem', c, ?_, fun i j hi hj => (e3 i j hi hj).1, fun i j hi hj => ?_, fun y hy => e2 y (fun o i ho hi he => hy ⟨o, i, ho, hi, he⟩)⟩
  · unfold refTrmmR
    rw [derefAt_eq hSS wA, derefAt_eq hSS wB, assignAt_eq hSS wC]
    cases uplo <;> exact e1
  · refine (e3 i j hi hj).2.bound hR.u_nonneg (le_refl _) ?_ ?_
    · congr 1
      exact sum_congr rfl (fun k _ => by rw [tri_flip, mul_comm])
    · congr 1
      exact sum_congr rfl (fun k _ => by rw [tri_flip, mul_comm])

/-! ### Comparison of gemm with its reference implementation -/

omit [Field V] [LinearOrder V] [IsStrictOrderedRing V] in
/-- the value computed by the matrix version of `reference::gemm`, operation by operation -/
theorem refGemmMat_bitwise {SS : Nat} {m : Mem V} {A B C D : Container} (alpha beta : V)
    (h : GemmArgs SS m A B C D) (hs : GemmSizes A B C D) {a b c : Nat → Nat → V}
    (ha : Contains SS m A a) (hb : Contains SS m B b) (hc : Contains SS m C c) :
    ∃ m', refGemmMat SS alpha (A.mat SS) (B.mat SS) beta (C.mat SS) (D.mat SS) m = .ok () m' ∧
      Contains SS m' D (fun i j => Arith.add (Arith.mul alpha (addFold (fun k => Arith.mul (a i k) (b k j)) Arith.zero 0 A.cols)) (Arith.mul beta (c i j))) ∧
      OnlyElemsChange SS m m' D := by
  have hp := h.pre hs
  obtain ⟨h1, ⟨h2, h3⟩, h4, h5⟩ := hs
  obtain ⟨m2, f1, f2, f3⟩ := refGemm_bitwise h.ss (fun h => (hp.wA (Or.inr h)).1) (fun h => (hp.wB (Or.inr h)).1)
    (fun h => (hp.wC (Or.inr h)).1) (fun h => (hp.wD (Or.inr h)).1) alpha beta ha.holds
    (by have := hb.holds; rw [h1] at this; exact this) (by have := hc.holds; rw [h2, h3] at this; exact this)
    hp.rD hp.iD hp.dA hp.dB hp.dC
  refine ⟨m2, ?_, fun i j hi hj => ?_, fun x hx => f3 x (fun hc => hx ?_)⟩
  · rw [(C46_reference_size_check (SS := SS) (A.mat SS) (B.mat SS) (C.mat SS) (D.mat SS) alpha beta m).1, if_pos ⟨h1, ⟨h2, h3⟩, h4, h5⟩]
    exact f1
  · rw [Container.addr_eq_mptr]; exact f2 i j (by omega) (by omega)
  · exact (cells_iff (SS := SS) D x).1 (by rw [h4, h5]; exact hc)

omit [Field V] [LinearOrder V] [IsStrictOrderedRing V] [Arith V] in
theorem live_after {SS : Nat} {m m' : Mem V} {D c : Container} {d : Nat → Nat → V} (hf : OnlyElemsChange SS m m' D) (hd : Contains SS m' D d)
    (h : Live SS m c) : Live SS m' c := by
  refine ⟨h.align, fun x hx => ?_⟩
  by_cases he : IsElem SS D x
  · obtain ⟨i, j, hi, hj, rfl⟩ := he
    rw [hd i j hi hj]; rfl
  · rw [hf x he]; exact h.alloc x hx

omit [Field V] [LinearOrder V] [IsStrictOrderedRing V] [Arith V] in
theorem contains_after {SS : Nat} (hSS : 0 < SS) {m m' : Mem V} {D c : Container} {a : Nat → Nat → V} (hf : OnlyElemsChange SS m m' D)
    (hap : Apart SS c D) (h : Contains SS m c a) : Contains SS m' c a := by
  intro i j hi hj
  rw [hf _ (fun ⟨i', j', hi', hj', he⟩ => hap _ (c.addr_storage hSS hi hj) (by rw [he]; exact D.addr_storage hSS hi' hj'))]
  exact h i j hi hj

include hR in
/-- comparison of two matrices of numbers -/
theorem approxEqualMat_num {SS : Nat} {lhs rhs : Container} {m : Mem V} {f g : Nat → Nat → V} {atol rtol : V} (ha : 0 ≤ atol) (hr : 0 ≤ rtol)
    (hf : Contains SS m lhs f) (hg : Contains SS m rhs g) (hs : rhs.rows = lhs.rows ∧ rhs.cols = lhs.cols) :
    ∃ v, approxEqualMat SS lhs rhs atol rtol m = .ok v m ∧
      (v = .success → ∀ i j, i < lhs.rows → j < lhs.cols → (1 - u) * |f i j - g i j| ≤ (1 + u) ^ 2 * (atol + rtol * |g i j|)) ∧
      ((∀ i j, i < lhs.rows → j < lhs.cols → (1 + u) * |f i j - g i j| ≤ (1 - u) ^ 2 * (atol + rtol * |g i j|)) → v = .success) := by
  obtain ⟨v, hv, hq⟩ := (scanMat_reads (matDiffer atol rtol) hf hg).2 hs
  have hd : ∀ a b : V, matDiffer atol rtol a b = farApart atol rtol a b := by
    intro a b
    have hn : ∀ x : V, isNan x = false := fun x => by
      unfold isNan
      rw [(hR.eq_iff x x).2 rfl]; rfl
    unfold matDiffer
    rw [hn, hn]; simp
  refine ⟨v, hv, ?_, ?_⟩
  · rintro rfl i j hi hj
    have := hq i j hi hj
    beta_reduce at this
    rw [hd, Bool.not_eq_true] at this
    exact (farApart_num ha hr _ _).1 this
  · intro hall
    cases v with
    | success => rfl
    | sizeMismatch => exact hq.elim
    | mismatch i j =>
      have := hq.2.2.1
      beta_reduce at this
      rw [hd, (farApart_num ha hr _ _).2 (hall i j hq.1 hq.2.1)] at this
      cases this

/-- A test of gemm: compute `alpha*A*B + beta*C` into D, the same with the reference implementation into E, and compare, as the macro
`BLAST_ASSERT_APPROX_EQ(D, E, abs_tol, rel_tol)` does. -/
def gemmTest (SS : Nat) (alpha : V) (A B : Container) (beta : V) (C D E : Container) (atol rtol : V) : Prog V Verdict := do
  gemmCall SS alpha A B beta C D
  refGemmMat SS alpha (A.mat SS) (B.mat SS) beta (C.mat SS) (E.mat SS)
  approxEqualMat SS D E atol rtol

/-- **C63** (gemm agrees with its reference implementation). gemm and the reference implementation differ by at most the sum of their error bounds; the test
passes whenever the tolerances allow that. -/
theorem C63_gemm_agrees_with_reference {SS : Nat} {m : Mem V} {A B C D E : Container} (alpha beta atol rtol : V)
    (hD : GemmArgs SS m A B C D) (sD : GemmSizes A B C D) (hE : GemmArgs SS m A B C E) (sE : GemmSizes A B C E) (hC : Apart SS C D)
    (hED : Apart SS D E) {a b c : Nat → Nat → V} (ha : Contains SS m A a) (hb : Contains SS m B b) (hc : Contains SS m C c)
    (hat : 0 ≤ atol) (hrt : 0 ≤ rtol) :
    ∃ m' d e v, gemmTest SS alpha A B beta C D E atol rtol m = .ok v m' ∧ Contains SS m' D d ∧ Contains SS m' E e ∧
      (∀ i j, i < A.rows → j < B.cols → |d i j - e i j| ≤
        (((1 + u) ^ (A.cols + 2) - 1) + ((1 + u) ^ (A.cols + 3) - 1)) * (|alpha| * ∑ k ∈ range A.cols, |a i k| * |b k j| + |beta| * |c i j|)) ∧
      ((∀ i j, i < A.rows → j < B.cols → (1 + u) * ((((1 + u) ^ (A.cols + 2) - 1) + ((1 + u) ^ (A.cols + 3) - 1)) *
          (|alpha| * ∑ k ∈ range A.cols, |a i k| * |b k j| + |beta| * |c i j|)) ≤
        (1 - u) ^ 2 * (atol + rtol * (|alpha * ∑ k ∈ range A.cols, a i k * b k j + beta * c i j| -
          ((1 + u) ^ (A.cols + 3) - 1) * (|alpha| * ∑ k ∈ range A.cols, |a i k| * |b k j| + |beta| * |c i j|)))) → v = .success) := by
  obtain ⟨m1, d, e1, e2, e3⟩ := C56_gemm_accuracy (u := u) alpha beta hD sD ha hb hc
  obtain ⟨m1', e1', e4⟩ := C02_gemm_frame alpha beta hD sD
  rw [e1] at e1'
  injection e1' with _ e1'
  subst e1'
  have hE1 : GemmArgs SS m1 A B C E := ⟨hE.ss, hE.sA, hE.sC, hE.sD, live_after e4 e2 hE.lA, live_after e4 e2 hE.lB, live_after e4 e2 hE.lC,
    live_after e4 e2 hE.lD, hE.dA, hE.dB, hE.dC⟩
  obtain ⟨m2, f1, f2, f3⟩ := refGemmMat_bitwise alpha beta hE1 sE (contains_after hE.ss e4 hD.dA ha) (contains_after hE.ss e4 hD.dB hb)
    (contains_after hE.ss e4 hC hc)
  have hd2 : Contains SS m2 D d := contains_after hE.ss f3 hED e2
  have hs : E.rows = D.rows ∧ E.cols = D.cols := ⟨by rw [sE.2.2.1, sD.2.2.1], by rw [sE.2.2.2, sD.2.2.2]⟩
  obtain ⟨v, g1, _, g3⟩ := approxEqualMat_num (u := u) hat hrt hd2 f2 hs
  have hdiff : ∀ i j, i < A.rows → j < B.cols → _ := fun i j hi hj =>
    abs_sub_le (d i j) (alpha * ∑ k ∈ range A.cols, a i k * b k j + beta * c i j)
      (Arith.add (Arith.mul alpha (addFold (fun k => Arith.mul (a i k) (b k j)) Arith.zero 0 A.cols)) (Arith.mul beta (c i j)))
  have hde : ∀ i j, i < A.rows → j < B.cols → |d i j - Arith.add (Arith.mul alpha (addFold (fun k => Arith.mul (a i k) (b k j)) Arith.zero 0 A.cols)) (Arith.mul beta (c i j))| ≤
      (((1 + u) ^ (A.cols + 2) - 1) + ((1 + u) ^ (A.cols + 3) - 1)) * (|alpha| * ∑ k ∈ range A.cols, |a i k| * |b k j| + |beta| * |c i j|) := by
    intro i j hi hj
    have h1 := e3 i j (by rw [sD.2.2.1]; exact hi) (by rw [sD.2.2.2]; exact hj)
    have h2 := (near_refGemm (u := u) A.cols alpha beta (c i j) (fun k => a i k) (fun k => b k j)).err
    have h3 := hdiff i j hi hj
    rw [abs_sub_comm (alpha * ∑ k ∈ range A.cols, a i k * b k j + beta * c i j)] at h3
    rw [add_mul]
    linarith
  refine ⟨m2, d, _, v, ?_, hd2, f2, hde, fun hcond => g3 (fun i j hi hj => ?_)⟩
  · unfold gemmTest
    rw [bind_ok e1, bind_ok f1]
    exact g1
  · have hi' : i < A.rows := by rw [← sD.2.2.1]; exact hi
    have hj' : j < B.cols := by rw [← sD.2.2.2]; exact hj
    have h1 := hde i j hi' hj'
    have h2 := (near_refGemm (u := u) A.cols alpha beta (c i j) (fun k => a i k) (fun k => b k j)).err
    have h3 := hcond i j hi' hj'
    have hu := hR.u_nonneg
    have h4 : |alpha * ∑ k ∈ range A.cols, a i k * b k j + beta * c i j| -
          ((1 + u) ^ (A.cols + 3) - 1) * (|alpha| * ∑ k ∈ range A.cols, |a i k| * |b k j| + |beta| * |c i j|) ≤
        |Arith.add (Arith.mul alpha (addFold (fun k => Arith.mul (a i k) (b k j)) Arith.zero 0 A.cols)) (Arith.mul beta (c i j))| := by
      have := abs_sub_abs_le_abs_sub (alpha * ∑ k ∈ range A.cols, a i k * b k j + beta * c i j)
        (Arith.add (Arith.mul alpha (addFold (fun k => Arith.mul (a i k) (b k j)) Arith.zero 0 A.cols)) (Arith.mul beta (c i j)))
      rw [abs_sub_comm (alpha * ∑ k ∈ range A.cols, a i k * b k j + beta * c i j)] at this
      linarith
    refine le_trans (mul_le_mul_of_nonneg_left h1 (by linarith)) (le_trans h3 ?_)
    refine mul_le_mul_of_nonneg_left ?_ (sq_nonneg _)
    have := mul_le_mul_of_nonneg_left h4 hrt
    linarith

/-- **C63** (the test detects errors). Whatever program left the matrix `d` in D: if the comparison with the reference implementation passes, then every element of
`d` is within the tolerance of the exact `alpha*A*B + beta*C`, up to the error of the reference implementation and the rounding of the comparison. -/
theorem C63_gemm_test_detects_errors {SS : Nat} {m : Mem V} {A B C D E : Container} (alpha beta atol rtol : V)
    (hE : GemmArgs SS m A B C E) (sE : GemmSizes A B C E) (hED : Apart SS D E) {a b c d : Nat → Nat → V} (ha : Contains SS m A a)
    (hb : Contains SS m B b) (hc : Contains SS m C c) (hd : Contains SS m D d) (hs : D.rows = A.rows ∧ D.cols = B.cols)
    (hat : 0 ≤ atol) (hrt : 0 ≤ rtol) :
    ∃ m' e v, (do
        refGemmMat SS alpha (A.mat SS) (B.mat SS) beta (C.mat SS) (E.mat SS)
        approxEqualMat SS D E atol rtol : Prog V Verdict) m = .ok v m' ∧ Contains SS m' E e ∧
      (v = .success → ∀ i j, i < A.rows → j < B.cols →
        |d i j - (alpha * ∑ k ∈ range A.cols, a i k * b k j + beta * c i j)| ≤
          (1 + u) ^ 2 / (1 - u) * (atol + rtol * |e i j|) +
          ((1 + u) ^ (A.cols + 3) - 1) * (|alpha| * ∑ k ∈ range A.cols, |a i k| * |b k j| + |beta| * |c i j|)) := by
  obtain ⟨m2, f1, f2, f3⟩ := refGemmMat_bitwise alpha beta hE sE ha hb hc
  have hd2 : Contains SS m2 D d := contains_after hE.ss f3 hED hd
  obtain ⟨v, g1, g2, _⟩ := approxEqualMat_num (u := u) hat hrt hd2 f2 ⟨by rw [sE.2.2.1, hs.1], by rw [sE.2.2.2, hs.2]⟩
  refine ⟨m2, _, v, by rw [bind_ok f1]; exact g1, f2, fun hv i j hi hj => ?_⟩
  have h1 := g2 hv i j (by rw [hs.1]; exact hi) (by rw [hs.2]; exact hj)
  have h2 := (near_refGemm (u := u) A.cols alpha beta (c i j) (fun k => a i k) (fun k => b k j)).err
  have hu : 0 < 1 - u := by linarith [hR.u_lt_one]
  refine le_trans (abs_sub_le _ _ _) (add_le_add ?_ h2)
  rw [div_mul_eq_mul_div, le_div_iff₀ hu, mul_comm]
  exact h1

/-- **C63** (double precision). With the tolerances of the test suite for double (1e-11; any absolute tolerance that is not smaller and any relative tolerance up to
1e-3) the test of gemm on matrices with elements and factors in [-1, 1] and inner dimension up to 200 passes in every arithmetic with unit roundoff
2^-53 or less. -/
theorem C63_gemm_test_passes_double {SS : Nat} {m : Mem V} {A B C D E : Container} (alpha beta atol rtol : V)
    (hD : GemmArgs SS m A B C D) (sD : GemmSizes A B C D) (hE : GemmArgs SS m A B C E) (sE : GemmSizes A B C E) (hC : Apart SS C D)
    (hED : Apart SS D E) {a b c : Nat → Nat → V} (ha : Contains SS m A a) (hb : Contains SS m B b) (hc : Contains SS m C c)
    (hu53 : u ≤ 1 / 2 ^ 53) (hat : 1 / 10 ^ 11 ≤ atol) (hrt : 0 ≤ rtol) (hrt' : rtol ≤ 1 / 10 ^ 3) (hK : A.cols ≤ 200)
    (hal : |alpha| ≤ 1) (hbe : |beta| ≤ 1) (ha1 : ∀ i k, |a i k| ≤ 1) (hb1 : ∀ k j, |b k j| ≤ 1) (hc1 : ∀ i j, |c i j| ≤ 1) :
    ∃ m', gemmTest SS alpha A B beta C D E atol rtol m = .ok .success m' := by
  have hat0 : 0 ≤ atol := le_trans (by positivity) hat
  obtain ⟨m', d, e, v, h1, _, _, _, h5⟩ := C63_gemm_agrees_with_reference (u := u) alpha beta atol rtol hD sD hE sE hC hED ha hb hc hat0 hrt
  refine ⟨m', ?_⟩
  rw [h1, h5 ?_]
  intro i j _ _
  have hu := hR.u_nonneg
  have hg : ∀ n : Nat, n ≤ 203 → (1 + u) ^ n - 1 ≤ 204 / 2 ^ 53 := by
    intro n hn
    have hn' : (n : V) ≤ 203 := by exact_mod_cast hn
    have hn0 : (0 : V) ≤ n := Nat.cast_nonneg n
    have hnu : (n : V) * u ≤ 203 / 2 ^ 53 := by
      have := mul_le_mul hn' hu53 hu (by norm_num : (0 : V) ≤ 203)
      linarith
    have h203 : (203 : V) / 2 ^ 53 ≤ 1 / 300 := by norm_num
    refine le_trans (pow_sub_one_le_gamma hu n (by linarith)) ?_
    rw [div_le_iff₀ (by linarith)]
    have : (204 : V) / 2 ^ 53 * (1 - 203 / 2 ^ 53) ≥ 203 / 2 ^ 53 := by norm_num
    nlinarith
  have hmag : |alpha| * ∑ k ∈ range A.cols, |a i k| * |b k j| + |beta| * |c i j| ≤ 201 := by
    have hs : ∑ k ∈ range A.cols, |a i k| * |b k j| ≤ 200 := by
      calc ∑ k ∈ range A.cols, |a i k| * |b k j| ≤ ∑ _k ∈ range A.cols, (1 : V) :=
            sum_le_sum (fun k _ => mul_le_one₀ (ha1 i k) (abs_nonneg _) (hb1 k j))
        _ = A.cols := by simp
        _ ≤ 200 := by exact_mod_cast hK
    have hs0 : 0 ≤ ∑ k ∈ range A.cols, |a i k| * |b k j| := sum_nonneg (fun k _ => mul_nonneg (abs_nonneg _) (abs_nonneg _))
    have h1 : |alpha| * ∑ k ∈ range A.cols, |a i k| * |b k j| ≤ 1 * 200 := mul_le_mul hal hs hs0 (by norm_num)
    have h2 : |beta| * |c i j| ≤ 1 := mul_le_one₀ hbe (abs_nonneg _) (hc1 i j)
    linarith
  have hmag0 : 0 ≤ |alpha| * ∑ k ∈ range A.cols, |a i k| * |b k j| + |beta| * |c i j| :=
    add_nonneg (mul_nonneg (abs_nonneg _) (sum_nonneg (fun k _ => mul_nonneg (abs_nonneg _) (abs_nonneg _)))) (mul_nonneg (abs_nonneg _) (abs_nonneg _))
  have hx := abs_nonneg (alpha * ∑ k ∈ range A.cols, a i k * b k j + beta * c i j)
  generalize |alpha| * ∑ k ∈ range A.cols, |a i k| * |b k j| + |beta| * |c i j| = mag at hmag hmag0
  generalize |alpha * ∑ k ∈ range A.cols, a i k * b k j + beta * c i j| = x at hx
  have g2 := hg (A.cols + 2) (by omega)
  have g3 := hg (A.cols + 3) (by omega)
  have p2 : 0 ≤ (1 + u) ^ (A.cols + 2) - 1 := sub_nonneg.2 (Near.one_le_pow hu _)
  have p3 : 0 ≤ (1 + u) ^ (A.cols + 3) - 1 := sub_nonneg.2 (Near.one_le_pow hu _)
  generalize (1 + u) ^ (A.cols + 2) - 1 = G2 at g2 p2
  generalize (1 + u) ^ (A.cols + 3) - 1 = G3 at g3 p3
  have e1 : (G2 + G3) * mag ≤ 408 / 2 ^ 53 * 201 := mul_le_mul (by linarith) hmag hmag0 (by norm_num)
  have e2 : G3 * mag ≤ 204 / 2 ^ 53 * 201 := mul_le_mul g3 hmag hmag0 (by norm_num)
  have e20 : 0 ≤ G3 * mag := mul_nonneg p3 hmag0
  have e10 : 0 ≤ (G2 + G3) * mag := mul_nonneg (by linarith) hmag0
  have e3 : (1 + u) * ((G2 + G3) * mag) ≤ (1 + 1 / 2 ^ 53) * (408 / 2 ^ 53 * 201) := mul_le_mul (by linarith) e1 e10 (by norm_num)
  have e4 : rtol * (G3 * mag) ≤ 1 / 10 ^ 3 * (204 / 2 ^ 53 * 201) := mul_le_mul hrt' e2 e20 (by norm_num)
  have e5 : 1 / 10 ^ 11 - 1 / 10 ^ 3 * (204 / 2 ^ 53 * 201) ≤ atol + rtol * (x - G3 * mag) := by
    have := mul_nonneg hrt hx
    rw [mul_sub]
    linarith
  have e6 : (1 - 1 / 2 ^ 53 : V) ^ 2 ≤ (1 - u) ^ 2 := pow_le_pow_left₀ (by norm_num) (by linarith) 2
  refine le_trans e3 ?_
  refine le_trans ?_ (mul_le_mul e6 e5 (by norm_num) (sq_nonneg _))
  norm_num

/-! ### The hypotheses are satisfiable -/

/-- the reference result of the example of gemm goes behind D -/
def demoE : Container := { demoD with data := 800 }

example : GemmArgs 4 demoMem demoA demoB demoC demoD ∧ GemmSizes demoA demoB demoC demoD ∧ GemmArgs 4 demoMem demoA demoB demoC demoE ∧
    GemmSizes demoA demoB demoC demoE ∧ Apart 4 demoC demoD ∧ Apart 4 demoD demoE := by
  refine ⟨demo_args, by decide, ⟨by decide, rfl, rfl, rfl, demo_args.lA, demo_args.lB, demo_args.lC, demo_live (by decide) (by decide) (by decide),
    demo_apart (by decide), demo_apart (by decide), Or.inr (demo_apart (by decide))⟩, by decide, demo_apart (by decide), demo_apart (by decide)⟩

/-- binary64 numbers (with unbounded exponents) are such an arithmetic -/
example : Rounded (flU 52) ∧ flU 52 ≤ 1 / 2 ^ 53 := by
  refine ⟨inferInstance, ?_⟩
  have h : ((1 / 2 : ℝ) ^ (52 + 1) : ℝ) ≤ 1 / 2 ^ 53 := by norm_num
  exact h

end Blast
