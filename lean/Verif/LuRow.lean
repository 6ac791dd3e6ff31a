import Verif.LuMath
/-
Row-major getf2 refines `luRun`; laswp; blocked getrf.
-/
set_option linter.unusedSectionVars false
namespace Blast
open Prog
variable {V : Type} [Arith V]

/-- the update of an element by row-major getf2: `A(i,j) + alpha * x[i] * y[j]` with alpha = -1 -/
def updRow (l u a : V) : V := Arith.add a (Arith.mul (Arith.mul (Arith.neg Arith.one) l) u)

theorem runs_divCol' {SS m n k : Nat} {A : MPtr} (hinj : Inj SS A m n) {m0 mem : Mem V} (dv : V → V → V) (d : V)
    {a : Nat → Nat → V} (h : MatIn SS m n A m0 mem a) (hkm : k < m) (hkn : k < n) :
    Runs (forFrom (k + 1) m (fun i => do
      let x ← A.get SS i k
      A.set SS i k (dv x d))) mem (fun _ mem' =>
        MatIn SS m n A m0 mem' (fun i j => if k < i ∧ j = k then dv (a i k) d else a i j)) := by
  refine (runs_forFrom (by omega) (fun t mem' => MatIn SS m n A m0 mem' (fun i j =>
    if k < i ∧ i < t ∧ j = k then dv (a i k) d else a i j)) ?_ ?_).mono ?_
  · exact h.congr (fun i j hi hj => by rw [if_neg (by omega)])
  · intro i mem1 hi1 hi2 h1
    refine Reads.bind_runs (reads_read (h1.holds i k hi2 hkn)) ?_
    rw [if_neg (show ¬ (k < i ∧ i < i ∧ k = k) by omega)]
    refine ⟨(), _, write_ok (by rw [h1.holds i k hi2 hkn]; rfl), ?_⟩
    refine (h1.write hinj hi2 hkn _).congr (fun i' j' hi' hj' => ?_)
    by_cases e : i' = i ∧ j' = k
    · obtain ⟨rfl, rfl⟩ := e
      rw [if_pos ⟨rfl, rfl⟩, if_pos (by omega)]
    · rw [if_neg e]
      by_cases e2 : k < i' ∧ i' < i ∧ j' = k
      · rw [if_pos e2, if_pos (by omega)]
      · rw [if_neg e2, if_neg (by omega)]
  · intro _ mem' h'
    refine h'.congr (fun i j hi hj => ?_)
    by_cases e : k < i ∧ j = k
    · rw [if_pos e, if_pos (by omega)]
    · rw [if_neg e, if_neg (by omega)]

theorem runs_gerRowBlock {SS m n k : Nat} (hSS : 0 < SS) {A : MPtr} (hd : A.panel = false) (hinj : Inj SS A m n)
    {m0 mem : Mem V} {a : Nat → Nat → V} (h : MatIn SS m n A m0 mem a) (hkm : k < m) (hkn : k < n) :
    Runs (gerRowMat SS (Arith.neg Arith.one)
      ⟨column ((A.unal SS).off SS (k + 1 : Nat) k), m - k - 1⟩
      ⟨row ((A.unal SS).off SS k (k + 1 : Nat)), n - k - 1⟩
      ⟨(A.unal SS).off SS (k + 1 : Nat) (k + 1 : Nat), m - k - 1, n - k - 1⟩
      ⟨(A.unal SS).off SS (k + 1 : Nat) (k + 1 : Nat), m - k - 1, n - k - 1⟩) mem
      (fun _ mem' => MatIn SS m n A m0 mem' (fun i j => if k < i ∧ k < j then updRow (a i k) (a k j) (a i j) else a i j)) := by
  have ex : ∀ i : Nat, (column ((A.unal SS).off SS (k + 1 : Nat) k)).addr SS i = A.addr SS (k + 1 + i : Nat) k := by
    intro i
    show ((A.unal SS).off SS (k + 1 : Nat) k).addr SS i (0 : Nat) = _
    rw [uoff_addr hSS hd]; rfl
  have ey : ∀ j : Nat, (row ((A.unal SS).off SS k (k + 1 : Nat))).addr SS j = A.addr SS k (k + 1 + j : Nat) := by
    intro j
    show ((A.unal SS).off SS k (k + 1 : Nat)).addr SS (0 : Nat) j = _
    rw [uoff_addr hSS hd]; rfl
  have hB := fun i j => uoff_addr hSS hd (k + 1) (k + 1) i j
  have hBi := hinj.sub (r0 := k + 1) (c0 := k + 1) (r := m - k - 1) (c := n - k - 1) (by omega) (by omega) hB
  have hR : Readable SS mem ((A.unal SS).off SS (k + 1 : Nat) (k + 1 : Nat)) (m - k - 1) (n - k - 1) := by
    intro i j hi hj
    rw [hB, h.holds _ _ (by omega) (by omega)]; rfl
  unfold gerRowMat
  rw [if_neg (by simp)]
  obtain ⟨mem', h1, h2, h3⟩ := runs_elementwise hR hBi (fun i j => do
      let aij ← ((A.unal SS).off SS (k + 1 : Nat) (k + 1 : Nat)).get SS i j
      let xi ← (column ((A.unal SS).off SS (k + 1 : Nat) k)).get SS i
      let yj ← (row ((A.unal SS).off SS k (k + 1 : Nat))).get SS j
      ((A.unal SS).off SS (k + 1 : Nat) (k + 1 : Nat)).set SS i j
        (Arith.add aij (Arith.mul (Arith.mul (Arith.neg Arith.one) xi) yj)))
    (fun i j => updRow (a (k + 1 + i) k) (a k (k + 1 + j)) (a (k + 1 + i) (k + 1 + j))) (fun i j hi hj m1 e1 e2 => by
      have ea : m1 (((A.unal SS).off SS (k + 1 : Nat) (k + 1 : Nat)).addr SS i j) = some (a (k + 1 + i) (k + 1 + j)) := by
        rw [e1 _ (fun i' j' h3 h4 h5 h6 => h5 (by have := hBi _ _ _ _ hi hj h3 h4 h6; exact ⟨this.1.symm, this.2.symm⟩)), hB]
        exact h.holds _ _ (by omega) (by omega)
      have exv : m1 ((column ((A.unal SS).off SS (k + 1 : Nat) k)).addr SS i) = some (a (k + 1 + i) k) := by
        rw [e1 _ (fun i' j' h3 h4 h5 h6 => by
          rw [ex, hB] at h6
          have := hinj _ _ _ _ (by omega) (by omega) (by omega) (by omega) h6
          omega), ex]
        exact h.holds _ _ (by omega) (by omega)
      have eyv : m1 ((row ((A.unal SS).off SS k (k + 1 : Nat))).addr SS j) = some (a k (k + 1 + j)) := by
        rw [e1 _ (fun i' j' h3 h4 h5 h6 => by
          rw [ey, hB] at h6
          have := hinj _ _ _ _ (by omega) (by omega) (by omega) (by omega) h6
          omega), ey]
        exact h.holds _ _ (by omega) (by omega)
      unfold MPtr.get VPtr.get
      beta_reduce
      rw [bind_ok (reads_read ea), bind_ok (reads_read exv), bind_ok (reads_read eyv)]
      exact write_eq _ e2)
  refine ⟨(), mem', h1, ?_⟩
  refine (h.block hinj (r0 := k + 1) (c0 := k + 1) (by omega) (by omega) hB h2 h3).congr (fun i j hi hj => ?_)
  by_cases e : k < i ∧ k < j
  · rw [if_pos e, if_pos (by omega), show k + 1 + (i - (k + 1)) = i by omega, show k + 1 + (j - (k + 1)) = j by omega]
  · rw [if_neg e, if_neg (by omega)]

theorem runs_getf2RowStep {SS k : Nat} (hSS : 0 < SS) (dv : V → V → V) {A : Mat} (hd : A.p.panel = false) {m0 mem : Mem V}
    (hinj : Inj SS A.p A.rows A.cols)
    {a : Nat → Nat → V} (h : MatIn SS A.rows A.cols A.p m0 mem a) (hkm : k < A.rows) (hkn : k < A.cols) (ipiv : Nat → Nat) :
    RunsE (getf2RowStep SS dv A k ipiv) mem
      (fun p mem' => ∃ a', luStep dv updRow A.rows k a ipiv = some (a', p) ∧ MatIn SS A.rows A.cols A.p m0 mem' a')
      (fun e mem' => e = .invalidArgument ∧ luStep dv updRow A.rows k a ipiv = none ∧
        MatIn SS A.rows A.cols A.p m0 mem' (swapRows k (pivotRow A.rows a k) a)) := by
  obtain ⟨hp1, hp2⟩ := pivotRow_lt a hkm
  unfold getf2RowStep
  refine RunsE.bind (Runs.e (Reads.runs (a := (iamaxF (fun i => a (k + i) k) (A.rows - k - 1)).2)
    (Q := fun r mem' => r + k = pivotRow A.rows a k ∧ mem' = mem) ?_ ⟨rfl, rfl⟩)) ?_
  · unfold iamaxVec
    rw [if_neg (show ¬ A.rows - k = 0 by omega)]
    refine reads_iamaxPtr (n := A.rows - k) (plain_column hSS (uoff_dense hSS hd _ _)) (by omega) ?_
    intro i hi
    show mem (((A.p.unal SS).off SS k k).addr SS i (0 : Nat)) = _
    rw [uoff_addr hSS hd]
    exact h.holds _ _ (by omega) hkn
  rintro r _ ⟨hr, rfl⟩
  simp only [hr]
  refine RunsE.bind (Q := fun _ mem' => MatIn SS A.rows A.cols A.p m0 mem' (swapRows k (pivotRow A.rows a k) a)) (Runs.e ?_) ?_
  · unfold onlyIf
    by_cases hne : pivotRow A.rows a k = k
    · rw [hne]
      simp only [bne_self_eq_false, Bool.false_eq_true, if_false]
      refine runs_pure ?_
      rw [swapRows_self]; exact h
    · have : (pivotRow A.rows a k != k) = true := by simpa using hne
      rw [if_pos this]
      obtain ⟨m', e1, e2⟩ := h.swap_rows hSS hd hinj (B := A.p) (r0 := 0) (c0 := 0) (n := A.cols) (p := k)
        (q := pivotRow A.rows a k) (by omega) (by omega) (fun e => hne e.symm) (by omega) hd (fun i j => by simp)
      unfold swapVec
      rw [if_neg (by simp), if_pos (show A.cols > 0 by omega)]
      refine ⟨(), m', e1, e2.congr (fun i j hi hj => ?_)⟩
      rw [if_pos (by omega), Nat.zero_add, Nat.zero_add]
  rintro _ mem1 h1
  refine RunsE.bind (Runs.e (Reads.runs (Q := fun d mem' => d = swapRows k (pivotRow A.rows a k) a k k ∧ mem' = mem1)
    (reads_read (h1.holds k k hkm hkn)) ⟨rfl, rfl⟩)) ?_
  rintro d _ ⟨rfl, rfl⟩
  unfold luStep
  simp only
  by_cases hz : Arith.eq (swapRows k (pivotRow A.rows a k) a k k) Arith.zero = true
  · rw [if_pos hz]
    exact runsE_throw ⟨rfl, by rw [if_pos hz], h1⟩
  · rw [if_neg hz]
    refine RunsE.bind (Runs.e (runs_divCol' hinj dv _ h1 hkm hkn)) ?_
    intro _ mem2 h2
    refine RunsE.bind (Q := fun _ mem' => MatIn SS A.rows A.cols A.p m0 mem'
      (elim dv updRow k (swapRows k (pivotRow A.rows a k) a))) (Runs.e ?_) ?_
    · refine (runs_gerRowBlock hSS hd hinj h2 hkm hkn).mono (fun _ mem3 h3 => h3.congr (fun i j hi hj => ?_))
      unfold elim
      by_cases e1 : k < i
      · by_cases e2 : j = k
        · rw [if_pos e1, if_pos e2, if_neg (by omega), if_pos ⟨e1, e2⟩]
        · by_cases e3 : k < j
          · rw [if_pos e1, if_neg e2, if_pos e3, if_pos ⟨e1, e3⟩, if_pos ⟨e1, rfl⟩, if_neg (by omega), if_neg (by omega)]
          · rw [if_pos e1, if_neg e2, if_neg e3, if_neg (by omega), if_neg (by omega)]
      · rw [if_neg e1, if_neg (by omega), if_neg (by omega)]
    · intro _ mem3 h3
      rw [if_neg hz]
      exact Or.inl ⟨_, _, rfl, _, rfl, h3⟩

/-- row-major getf2 does what `luRun` says -/
theorem runs_getf2Row {SS : Nat} (hSS : 0 < SS) (dv : V → V → V) {A : Mat} (hd : A.p.panel = false) {m0 : Mem V}
    (hinj : Inj SS A.p A.rows A.cols) {a : Nat → Nat → V} (h : Holds SS m0 A.p A.rows A.cols a) (ipiv : Nat → Nat) :
    RunsE (getf2Row SS dv A ipiv) m0
      (fun p mem' => ∃ a', luRun dv updRow A.rows a ipiv (min A.rows A.cols) = some (a', p) ∧
        MatIn SS A.rows A.cols A.p m0 mem' a')
      (fun e mem' => e = .invalidArgument ∧
        (∃ k a' p, k < min A.rows A.cols ∧ luRun dv updRow A.rows a ipiv k = some (a', p) ∧
          luStep dv updRow A.rows k a' p = none) ∧ ∀ y, ¬ Cells SS A.p A.rows A.cols y → mem' y = m0 y) := by
  have key : ∀ K, K ≤ min A.rows A.cols → RunsE (foldN K (getf2RowStep SS dv A) ipiv) m0
      (fun p mem' => ∃ a', luRun dv updRow A.rows a ipiv K = some (a', p) ∧ MatIn SS A.rows A.cols A.p m0 mem' a')
      (fun e mem' => e = .invalidArgument ∧
        (∃ k a' p, k < min A.rows A.cols ∧ luRun dv updRow A.rows a ipiv k = some (a', p) ∧
          luStep dv updRow A.rows k a' p = none) ∧ ∀ y, ¬ Cells SS A.p A.rows A.cols y → mem' y = m0 y) := by
    intro K
    induction K with
    | zero => intro _; exact Or.inl ⟨_, _, rfl, _, rfl, MatIn.of_holds h⟩
    | succ K ih =>
      intro hK
      refine RunsE.bind (ih (by omega)) ?_
      rintro p mem1 ⟨a1, e1, h1⟩
      refine (runs_getf2RowStep hSS dv hd hinj h1 (by omega) (by omega) p).mono ?_ ?_
      · rintro p' mem2 ⟨a2, e2, h2⟩
        exact ⟨a2, by unfold luRun; rw [e1]; exact e2, h2⟩
      · rintro e mem2 ⟨he, h2, h3⟩
        exact ⟨he, ⟨K, a1, p, by omega, e1, h2⟩, h3.frame⟩
  exact key _ (Nat.le_refl _)

/-! ### laswp -/

theorem rowSwaps_succ (ipiv : Nat → Nat) (k0 t : Nat) (a : Nat → Nat → V) :
    rowSwaps ipiv k0 (t + 1) a = swapRows (k0 + t) (ipiv (k0 + t)) (rowSwaps ipiv k0 t a) := rfl

/-- laswp applied to the columns `c0 .. c0+n-1` of a matrix -/
theorem runs_laswp {SS M N : Nat} (hSS : 0 < SS) {A : MPtr} (hd : A.panel = false) {m0 mem : Mem V} {a : Nat → Nat → V}
    (h : MatIn SS M N A m0 mem a) (hinj : Inj SS A M N) {B : MPtr} {c0 n k0 k1 : Nat} (hn : c0 + n ≤ N)
    (hB : B.panel = false) (hBa : ∀ i j : Int, B.addr SS i j = A.addr SS i (c0 + j)) (hk : k0 ≤ k1) (hk1 : k1 ≤ M)
    {ipiv : Nat → Nat} (hp : ∀ q, k0 ≤ q → q < k1 → ipiv q < M) :
    Runs (laswp SS n B k0 k1 ipiv) mem (fun _ mem' => MatIn SS M N A m0 mem'
      (fun i j => if c0 ≤ j ∧ j < c0 + n then rowSwaps ipiv k0 (k1 - k0) a i j else a i j)) := by
  refine (runs_forFrom hk (fun k mem' => MatIn SS M N A m0 mem'
      (fun i j => if c0 ≤ j ∧ j < c0 + n then rowSwaps ipiv k0 (k - k0) a i j else a i j)) ?_ ?_).mono (fun _ _ h => h)
  · refine h.congr (fun i j hi hj => ?_)
    rw [Nat.sub_self]
    show a i j = if _ then a i j else a i j
    rw [ite_self]
  · intro k mem1 hk2 hk3 h1
    have hlast : ∀ i j : Nat, rowSwaps ipiv k0 (k + 1 - k0) a i j = swapRows k (ipiv k) (rowSwaps ipiv k0 (k - k0) a) i j := by
      intro i j
      rw [show k + 1 - k0 = (k - k0) + 1 by omega, rowSwaps_succ, show k0 + (k - k0) = k by omega]
    unfold onlyIf
    by_cases hne : k = ipiv k
    · rw [if_neg (by simp [← hne])]
      refine runs_pure (h1.congr (fun i j hi hj => ?_))
      rw [hlast, ← hne, swapRows_self]
    · rw [if_pos (by simpa using hne)]
      unfold swapVec
      rw [if_neg (by simp)]
      by_cases hn0 : n > 0
      · rw [if_pos hn0]
        obtain ⟨m', e1, e2⟩ := h1.swap_rows hSS hd hinj (B := B) (r0 := 0) (c0 := c0) (n := n) (p := k) (q := ipiv k)
          (by omega) (by have := hp k hk2 hk3; omega) hne hn hB (fun i j => by rw [hBa]; simp)
        refine ⟨(), m', e1, e2.congr (fun i j hi hj => ?_)⟩
        by_cases hc : c0 ≤ j ∧ j < c0 + n
        · rw [if_pos hc, if_pos hc, hlast, Nat.zero_add, Nat.zero_add, swapRows_eq, swapRows_eq, if_pos hc]
        · rw [if_neg hc, if_neg hc, if_neg hc]
      · rw [if_neg hn0]
        refine runs_pure (h1.congr (fun i j hi hj => ?_))
        rw [if_neg (by omega), if_neg (by omega)]

end Blast
