import Verif.Gemm
/-
Assignment between dense (Blaze) and panel matrices: /repo/include/blast/math/expressions/PanelMatrix.hpp:81-239.

Both operands are given by the pointer to their first element; the dense operand is a Blaze matrix (any spacing), the
panel operand a blast panel matrix. `m, n` are the numbers of rows and columns of the right-hand side; the sizes are only compared
by BLAZE_INTERNAL_ASSERT (not modelled), so nothing checks the left-hand side.
-/
set_option linter.unusedSectionVars false
namespace Blast
open Prog
variable {V : Type} [Arith V]

/-- `ptr<aligned>(m, i, 0)` where `p` points to `m(0, 0)`: dense/DynamicMatrixPointer.hpp:242-263,
panel/DynamicPanelMatrixPointer.hpp:274-287 -/
def alignedAt (SS : Nat) (p : MPtr) (i : Nat) : MPtr := ({ p with aligned := true } : MPtr).off SS i 0

/-- the loop over whole SIMD rows, expressions/PanelMatrix.hpp:103-110 and 191-198 -/
def copyFullRows (SS m n : Nat) (L R : MPtr) : Prog V Nat :=
  loop (m + 1) (fun i => decide (i + SS ≤ m)) SS (fun i =>
    forN n (fun j => do
      let v ← ((alignedAt SS R i).off SS 0 j).load SS
      ((alignedAt SS L i).off SS 0 j).store SS v)) 0

/-- element-wise copy, expressions/PanelMatrix.hpp:163-165 and 235-237 -/
def copyElements (SS m n : Nat) (L R : MPtr) : Prog V Unit :=
  forN m (fun i => forN n (fun j => do
    let v ← R.get SS i j
    L.set SS i j v))

/-- `assign(DenseMatrix& lhs, PanelMatrix const& rhs)`: expressions/PanelMatrix.hpp:81-167 -/
def assignDensePanel (SS m n : Nat) (L R : MPtr) : Prog V Unit :=
  if L.so = .columnMajor ∧ R.so = .columnMajor then do
    let _ ← copyFullRows SS m n L R
    onlyIf (decide (m % SS ≠ 0)) (do
      let i := m - m % SS
      forN n (fun j => do
        let v ← ((alignedAt SS R i).off SS 0 j).load SS
        ((alignedAt SS L i).off SS 0 j).storeMask SS v (fun l => decide (l < m % SS))))
  else copyElements SS m n L R

/-- `assign(PanelMatrix& lhs, DenseMatrix const& rhs)`: expressions/PanelMatrix.hpp:170-239. `data(rhs)` is `R.ptr`,
`spacing(rhs)` is `R.spacing`, `&(*lhs)(i, 0)` is the address of element `(i, 0)` of the panel matrix. -/
def assignPanelDense (SS m n : Nat) (L R : MPtr) : Prog V Unit :=
  if L.so = .columnMajor ∧ R.so = .columnMajor then do
    let _ ← copyFullRows SS m n L R
    onlyIf (decide (m % SS ≠ 0)) (do
      let i := m - m % SS
      forN n (fun j => forN (m % SS) (fun i1 => do
        let v ← read (R.ptr + i + (i1 + R.spacing * j))
        write (L.addr SS i 0 + ((i1 : Int) + SS * j)) v)))
  else if L.so = .columnMajor ∧ R.so = .rowMajor then
    forN m (fun i => forN n (fun j => do
      let v ← read (R.ptr + R.spacing * i + j)
      write (L.addr SS i 0 + (SS : Int) * j) v))
  else copyElements SS m n L R

/-- What the assignments need: the panel operand is well-formed; if both are column-major the dense operand is SIMD-aligned with
a spacing divisible by the SIMD width (`ptr<aligned>` is used whatever the declared alignment); the elements of the
left-hand side are allocated, different, and not elements of the right-hand side; those of the right-hand side are allocated
(`rpad` rows, to include padding if it is read). -/
structure PanelAssignPre (SS m n rpad : Nat) (L R : MPtr) (mem : Mem V) : Prop where
  ss : 0 < SS
  wL : L.WF SS
  wR : R.WF SS
  al : L.so = .columnMajor ∧ R.so = .columnMajor →
    (L.ptr % (SS : Int) = 0 ∧ L.spacing % (SS : Int) = 0) ∧ (R.ptr % (SS : Int) = 0 ∧ R.spacing % (SS : Int) = 0)
  hpad : m ≤ rpad
  rR : Readable SS mem R rpad n
  rL : Readable SS mem L m n
  iL : Inj SS L m n
  dR : Disj SS R m n L m n

variable {SS m n rpad : Nat} {L R : MPtr} {mem : Mem V}

theorem set_aligned_addr (p : MPtr) (h : p.panel = true → p.ptr % (SS : Int) = 0) (i j : Int) :
    ({ p with aligned := true } : MPtr).addr SS i j = p.addr SS i j := by
  unfold MPtr.addr
  cases hp : p.panel
  · simp
  · simp [h hp]

theorem alignedAt_at (hSS : 0 < SS) {p : MPtr} (h1 : p.ptr % (SS : Int) = 0 ∧ p.spacing % (SS : Int) = 0)
    (hs : p.so = .columnMajor) {i : Nat} (hi : i % SS = 0) (j : Nat) :
    MPtr.At SS ((alignedAt SS p i).off SS 0 j) { p with aligned := true } (i : Int) (j : Int) := by
  have hw : ({ p with aligned := true } : MPtr).WF SS := fun _ => h1
  have hm : ∀ b : Int, ({ p with aligned := true } : MPtr).major (i : Int) b % (SS : Int) = 0 := by
    intro b
    unfold MPtr.major
    simp only [hs]
    exact cast_mod_zero hi
  have a1 := (MPtr.At.refl hSS ({ p with aligned := true } : MPtr)).off hSS hw (i : Int) 0 (fun _ => hm 0)
  have a2 := a1.off hSS hw 0 (j : Int) (fun _ => by
    unfold MPtr.major
    simp only [hs]
    simp)
  unfold alignedAt
  simpa using a2

/-- the elements `(i,j)` of `L` with `P i j` -/
def CellsP (SS m n : Nat) (L : MPtr) (P : Nat → Nat → Prop) (x : Int) : Prop :=
  ∃ i j : Nat, i < m ∧ j < n ∧ P i j ∧ x = L.addr SS i j

/-- after some elements have been copied the right-hand side is unchanged -/
theorem PanelAssignPre.val_R (h : PanelAssignPre SS m n rpad L R mem) {P : Nat → Nat → Prop} {g : Int → V} {m1 : Mem V}
    (hw : WritesSet mem m1 (CellsP SS m n L P) g) {i j : Nat} (hi : i < m) (hj : j < n) :
    val m1 (R.addr SS i j) = val mem (R.addr SS i j) := by
  refine val_unchanged hw ?_
  rintro ⟨i', j', hi', hj', _, he⟩
  exact h.dR i j i' j' hi hj hi' hj' he

/-- one element copied -/
theorem copy_one (h : PanelAssignPre SS m n rpad L R mem) {P Q : Nat → Nat → Prop} {g : Int → V} {m1 : Mem V}
    (hg : ∀ i j : Nat, i < m → j < n → g (L.addr SS i j) = val mem (R.addr SS i j))
    (hw : WritesSet mem m1 (CellsP SS m n L P) g) {i j : Nat} (hi : i < m) (hj : j < n)
    (hPQ : ∀ a b, a < m → b < n → (Q a b ↔ P a b ∨ (a = i ∧ b = j))) {x y : Int} (hx : x = R.addr SS i j) (hy : y = L.addr SS i j) :
    Runs (do let v ← read x; write y v) m1 (fun _ m2 => WritesSet mem m2 (CellsP SS m n L Q) g) := by
  subst hx hy
  have r1 : (m1 (R.addr SS i j)).isSome = true := hw.isSome (h.rR i j (by have := h.hpad; omega) hj)
  obtain ⟨v, hv⟩ := Option.isSome_iff_exists.1 r1
  refine Reads.bind_runs (reads_read hv) (runs_write (hw.isSome (h.rL i j hi hj)) ?_)
  have e : v = g (L.addr SS i j) := by
    rw [hg i j hi hj, ← h.val_R hw hi hj]
    unfold val; rw [hv]; rfl
  intro x
  constructor
  · rintro ⟨a, b, ha, hb, hq, rfl⟩
    dsimp only
    split
    · rename_i he; rw [he, e]
    · rename_i hne
      rcases (hPQ a b ha hb).1 hq with hp | ⟨rfl, rfl⟩
      · exact (hw _).1 ⟨a, b, ha, hb, hp, rfl⟩
      · exact absurd rfl hne
  · intro hx
    dsimp only
    rw [if_neg (fun he => hx ⟨i, j, hi, hj, (hPQ i j hi hj).2 (Or.inr ⟨rfl, rfl⟩), he⟩)]
    refine (hw x).2 ?_
    rintro ⟨a, b, ha, hb, hp, rfl⟩
    exact hx ⟨a, b, ha, hb, (hPQ a b ha hb).2 (Or.inl hp), rfl⟩

theorem cellsP_congr {P Q : Nat → Nat → Prop} {g : Int → V} {m1 : Mem V}
    (hw : WritesSet mem m1 (CellsP SS m n L P) g) (hPQ : ∀ a b, a < m → b < n → (Q a b ↔ P a b)) :
    WritesSet mem m1 (CellsP SS m n L Q) g := by
  refine hw.congr (fun x => ⟨?_, ?_⟩)
  · rintro ⟨a, b, ha, hb, hp, rfl⟩
    exact ⟨a, b, ha, hb, (hPQ a b ha hb).2 hp, rfl⟩
  · rintro ⟨a, b, ha, hb, hp, rfl⟩
    exact ⟨a, b, ha, hb, (hPQ a b ha hb).1 hp, rfl⟩

/-- element-wise copy, whatever the expressions used to form the addresses -/
theorem copyLoop_runs (h : PanelAssignPre SS m n rpad L R mem) {g : Int → V}
    (hg : ∀ i j : Nat, i < m → j < n → g (L.addr SS i j) = val mem (R.addr SS i j)) {x y : Nat → Nat → Int}
    (hx : ∀ i j : Nat, i < m → j < n → x i j = R.addr SS i j) (hy : ∀ i j : Nat, i < m → j < n → y i j = L.addr SS i j) :
    Runs (forN m (fun i => forN n (fun j => do let v ← read (x i j); write (y i j) v))) mem
      (fun _ m' => WritesSet mem m' (CellsP SS m n L (fun _ _ => True)) g) := by
  refine (runs_forN (fun k m' => WritesSet mem m' (CellsP SS m n L (fun i _ => i < k)) g) ?_ ?_).mono
    (fun _ m' hw => cellsP_congr hw (fun a b ha hb => by simp [ha]))
  · exact (WritesSet.refl mem g).congr (fun x => ⟨fun h => h.elim, fun ⟨_, _, _, _, h, _⟩ => by omega⟩)
  · intro i m1 hi hw
    refine (runs_forN (fun l m' => WritesSet mem m' (CellsP SS m n L (fun a b => a < i ∨ (a = i ∧ b < l))) g) ?_ ?_).mono
      (fun _ m' hw => cellsP_congr hw (fun a b ha hb => by omega))
    · exact cellsP_congr hw (fun a b ha hb => by omega)
    · intro j m2 hj hw2
      exact copy_one h hg hw2 hi hj (fun a b ha hb => by omega) (hx i j hi hj) (hy i j hi hj)

theorem copyElements_runs (h : PanelAssignPre SS m n rpad L R mem) {g : Int → V}
    (hg : ∀ i j : Nat, i < m → j < n → g (L.addr SS i j) = val mem (R.addr SS i j)) :
    Runs (copyElements SS m n L R) mem (fun _ m' => WritesSet mem m' (CellsP SS m n L (fun _ _ => True)) g) :=
  copyLoop_runs h hg (fun _ _ _ _ => rfl) (fun _ _ _ _ => rfl)

theorem cellsP_step {P Q : Nat → Nat → Prop} {S : Int → Prop} {g : Int → V} {m1 m2 : Mem V}
    (hw : WritesSet mem m1 (CellsP SS m n L P) g) (h2 : WritesSet m1 m2 S g)
    (hQ : ∀ x, CellsP SS m n L Q x ↔ CellsP SS m n L P x ∨ S x) : WritesSet mem m2 (CellsP SS m n L Q) g :=
  (hw.trans h2).congr (fun x => (hQ x).symm)

/-- a column of `SS` elements loaded from `R`, and its first `k` stored in `L` -/
theorem copy_vec (h : PanelAssignPre SS m n rpad L R mem) (hL : L.so = .columnMajor) (hR : R.so = .columnMajor) {g : Int → V}
    (hg : ∀ i j : Nat, i < m → j < n → g (L.addr SS i j) = val mem (R.addr SS i j))
    {i j k : Nat} (hmod : i % SS = 0) (hi : i + k ≤ m) (hk : k ≤ SS) (hj : j < n) (hpad : i + SS ≤ rpad) {m1 : Mem V}
    (hw : WritesSet mem m1 (CellsP SS m n L (fun a b => a < i ∨ (a < i + k ∧ b < j))) g) :
    Runs (do
      let v ← ((alignedAt SS R i).off SS 0 j).load SS
      ((alignedAt SS L i).off SS 0 j).storeMask SS v (fun l => decide (l < k))) m1 (fun _ m2 =>
        WritesSet mem m2 (CellsP SS m n L (fun a b => a < i ∨ (a < i + k ∧ b < j + 1))) g) ∧
    (k = SS → Runs (do
      let v ← ((alignedAt SS R i).off SS 0 j).load SS
      ((alignedAt SS L i).off SS 0 j).store SS v) m1 (fun _ m2 =>
        WritesSet mem m2 (CellsP SS m n L (fun a b => a < i ∨ (a < i + k ∧ b < j + 1))) g)) := by
  have hSS := h.ss
  obtain ⟨alL, alR⟩ := h.al ⟨hL, hR⟩
  have wL' : ({ L with aligned := true } : MPtr).WF SS := fun _ => alL
  have wR' : ({ R with aligned := true } : MPtr).WF SS := fun _ => alR
  have aR := alignedAt_at hSS alR hR hmod j
  have aL := alignedAt_at hSS alL hL hmod j
  have adR : ∀ l : Nat, ({ R with aligned := true } : MPtr).addr SS ((i : Int) + l) j = R.addr SS ((i + l : Nat) : Int) j := by
    intro l; rw [set_aligned_addr R (fun _ => alR.1)]; simp
  have adL : ∀ l : Nat, ({ L with aligned := true } : MPtr).addr SS ((i : Int) + l) j = L.addr SS ((i + l : Nat) : Int) j := by
    intro l; rw [set_aligned_addr L (fun _ => alL.1)]; simp
  obtain ⟨v, hv, hvl⟩ := aR.reads_load (m := m1) hSS wR' hR (by
    intro l hl
    rw [adR]
    exact hw.isSome (h.rR _ _ (by omega) hj))
  have hval : ∀ l : Nat, l < k → g (({ L with aligned := true } : MPtr).addr SS ((i : Int) + l) j) = v l := by
    intro l hl
    rw [adL, hg _ _ (by omega) hj, hvl l (by omega), adR, h.val_R hw (by omega) hj]
  have hall : ∀ l : Nat, l < k → (m1 (({ L with aligned := true } : MPtr).addr SS ((i : Int) + l) j)).isSome = true := by
    intro l hl
    rw [adL]
    exact hw.isSome (h.rL _ _ (by omega) hj)
  have hset : ∀ x, CellsP SS m n L (fun a b => a < i ∨ (a < i + k ∧ b < j + 1)) x ↔
      CellsP SS m n L (fun a b => a < i ∨ (a < i + k ∧ b < j)) x ∨
        ∃ l : Nat, l < k ∧ x = ({ L with aligned := true } : MPtr).addr SS ((i : Int) + l) j := by
    intro x
    constructor
    · rintro ⟨a, b, ha, hb, hp, rfl⟩
      by_cases hc : a < i ∨ (a < i + k ∧ b < j)
      · exact Or.inl ⟨a, b, ha, hb, hc, rfl⟩
      · have hbj : b = j := by omega
        subst hbj
        refine Or.inr ⟨a - i, by omega, ?_⟩
        rw [adL, show i + (a - i) = a by omega]
    · rintro (⟨a, b, ha, hb, hp, rfl⟩ | ⟨l, hl, rfl⟩)
      · exact ⟨a, b, ha, hb, by omega, rfl⟩
      · exact ⟨i + l, j, by omega, hj, by omega, adL l⟩
  refine ⟨Reads.bind_runs hv ?_, fun hks => Reads.bind_runs hv ?_⟩
  · refine (aL.runs_storeMask wL' hL (fun _ => cast_mod_zero hmod) v (fun l => decide (l < k)) g
      (fun l hl hm => hall l (by simpa using hm)) (fun l hl hm => hval l (by simpa using hm))).mono (fun _ m2 h2 => ?_)
    refine cellsP_step hw h2 (fun x => (hset x).trans (or_congr Iff.rfl ⟨?_, ?_⟩))
    · rintro ⟨l, hl, rfl⟩; exact ⟨l, by omega, by simpa using hl, rfl⟩
    · rintro ⟨l, _, hl, rfl⟩; exact ⟨l, by simpa using hl, rfl⟩
  · subst hks
    refine (aL.runs_store wL' hL (fun _ => cast_mod_zero hmod) v g hall hval).mono (fun _ m2 h2 => ?_)
    exact cellsP_step hw h2 hset

/-- whole SIMD rows: after the loop all rows up to the last multiple of the SIMD width have been copied -/
theorem copyFullRows_runs (h : PanelAssignPre SS m n rpad L R mem) (hL : L.so = .columnMajor) (hR : R.so = .columnMajor) {g : Int → V}
    (hg : ∀ i j : Nat, i < m → j < n → g (L.addr SS i j) = val mem (R.addr SS i j)) :
    Runs (copyFullRows SS m n L R) mem (fun _ m' =>
      WritesSet mem m' (CellsP SS m n L (fun i _ => i < m - m % SS)) g) := by
  have hSS := h.ss
  unfold copyFullRows
  refine (runs_loop (I := fun i m' => i % SS = 0 ∧ i ≤ m ∧ WritesSet mem m' (CellsP SS m n L (fun a _ => a < i)) g) m hSS
    (fun i hi => by simp at hi; omega) (by omega) (by omega) ⟨by simp, by omega, ?_⟩ ?_).mono ?_
  · exact (WritesSet.refl mem g).congr (fun x => ⟨fun h => h.elim, fun ⟨_, _, _, _, h, _⟩ => by omega⟩)
  · rintro i m1 hc ⟨hmod, hle, hw⟩
    simp only [decide_eq_true_eq] at hc
    refine (runs_forN (fun l m' => WritesSet mem m' (CellsP SS m n L (fun a b => a < i ∨ (a < i + SS ∧ b < l))) g) ?_ ?_).mono
      (fun _ m' hw => ⟨by rw [Nat.add_mod_right]; exact hmod, by omega, cellsP_congr hw (fun a b ha hb => by omega)⟩)
    · exact cellsP_congr hw (fun a b ha hb => by omega)
    · intro j m2 hj hw2
      exact (copy_vec h hL hR hg hmod hc (by omega) hj (by have := h.hpad; omega) hw2).2 rfl
  · rintro i m' ⟨hc, hmod, hle, hw⟩
    simp only [decide_eq_false_iff_not] at hc
    have : i = m - m % SS := by
      have h1 := Nat.div_add_mod m SS
      have h2 := Nat.mod_lt m hSS
      obtain ⟨q, rfl⟩ := Nat.dvd_of_mod_eq_zero hmod
      have : m % SS = m - SS * q := by
        have : m = (m - SS * q) + SS * q := by omega
        rw [this, Nat.add_mul_mod_self_left, Nat.mod_eq_of_lt (by omega)]
        omega
      omega
    rw [← this]; exact hw

theorem mod_sub_mod (m SS : Nat) : (m - m % SS) % SS = 0 := by
  have := Nat.div_add_mod m SS
  rw [show m - m % SS = SS * (m / SS) by omega]
  exact Nat.mul_mod_right _ _

/-- dense <- panel -/
theorem assignDensePanel_runs (h : PanelAssignPre SS m n rpad L R mem)
    (hpad : L.so = .columnMajor ∧ R.so = .columnMajor → roundUp m SS ≤ rpad) {g : Int → V}
    (hg : ∀ i j : Nat, i < m → j < n → g (L.addr SS i j) = val mem (R.addr SS i j)) :
    Runs (assignDensePanel SS m n L R) mem (fun _ m' => WritesSet mem m' (CellsP SS m n L (fun _ _ => True)) g) := by
  have hSS := h.ss
  unfold assignDensePanel
  by_cases hc : L.so = .columnMajor ∧ R.so = .columnMajor
  · rw [if_pos hc]
    refine Runs.bind (copyFullRows_runs h hc.1 hc.2 hg) (fun _ m1 hw => ?_)
    unfold onlyIf
    by_cases hr : m % SS = 0
    · rw [if_neg (by simp [hr])]
      refine runs_pure (cellsP_congr hw (fun a b ha hb => ?_))
      rw [hr]; simp [ha]
    · rw [if_pos (by simp [hr])]
      have hlt := Nat.mod_lt m hSS
      have hle := Nat.mod_le m SS
      have hru : roundUp m SS = m - m % SS + SS := by
        unfold roundUp
        have := Nat.div_add_mod m SS
        rw [show m - m % SS = SS * (m / SS) by omega]
        have : (m + SS - 1) / SS = m / SS + 1 := by
          rw [show m + SS - 1 = (m % SS - 1) + SS * (m / SS + 1) by rw [Nat.mul_add]; omega, Nat.add_mul_div_left _ _ hSS,
            Nat.div_eq_of_lt (by omega)]
          omega
        rw [this, Nat.add_mul, Nat.mul_comm]; omega
      have hp := hpad hc
      refine (runs_forN (fun l m' => WritesSet mem m' (CellsP SS m n L (fun a b =>
        a < m - m % SS ∨ (a < m - m % SS + m % SS ∧ b < l))) g) ?_ ?_).mono
        (fun _ m' hw => cellsP_congr hw (fun a b ha hb => ⟨fun _ => by omega, fun _ => trivial⟩))
      · exact cellsP_congr hw (fun a b ha hb => by omega)
      · intro j m2 hj hw2
        exact (copy_vec h hc.1 hc.2 hg (mod_sub_mod m SS) (by omega) (by omega) hj (by omega) hw2).1
  · rw [if_neg hc]
    exact copyElements_runs h hg

/-- panel <- dense -/
theorem assignPanelDense_runs (h : PanelAssignPre SS m n rpad L R mem) (pL : L.panel = true) (pR : R.panel = false) {g : Int → V}
    (hg : ∀ i j : Nat, i < m → j < n → g (L.addr SS i j) = val mem (R.addr SS i j)) :
    Runs (assignPanelDense SS m n L R) mem (fun _ m' => WritesSet mem m' (CellsP SS m n L (fun _ _ => True)) g) := by
  have hSS := h.ss
  have hLp : L.ptr % (SS : Int) = 0 := (h.wL (Or.inr pL)).1
  unfold assignPanelDense
  by_cases hc : L.so = .columnMajor ∧ R.so = .columnMajor
  · rw [if_pos hc]
    refine Runs.bind (copyFullRows_runs h hc.1 hc.2 hg) (fun _ m1 hw => ?_)
    unfold onlyIf
    by_cases hr : m % SS = 0
    · rw [if_neg (by simp [hr])]
      refine runs_pure (cellsP_congr hw (fun a b ha hb => ?_))
      rw [hr]; simp [ha]
    · rw [if_pos (by simp [hr])]
      have hlt := Nat.mod_lt m hSS
      have hle := Nat.mod_le m SS
      refine (runs_forN (fun l m' => WritesSet mem m' (CellsP SS m n L (fun a b => a < m - m % SS ∨ b < l)) g) ?_ ?_).mono
        (fun _ m' hw => cellsP_congr hw (fun a b ha hb => ⟨fun _ => by omega, fun _ => trivial⟩))
      · exact cellsP_congr hw (fun a b ha hb => by omega)
      · intro j m2 hj hw2
        refine (runs_forN (fun l m' => WritesSet mem m' (CellsP SS m n L (fun a b => a < m - m % SS ∨ b < j ∨
          (b = j ∧ a < m - m % SS + l))) g) ?_ ?_).mono
          (fun _ m' hw => cellsP_congr hw (fun a b ha hb => by constructor <;> intro _ <;> omega))
        · exact cellsP_congr hw2 (fun a b ha hb => by omega)
        · intro i1 m3 hi1 hw3
          refine copy_one h hg hw3 (i := m - m % SS + i1) (j := j) (by omega) hj (fun a b ha hb => by omega) ?_ ?_
          · rw [MPtr.addr_dense_col pR hc.2]; push_cast; omega
          · have h0 : ((m - m % SS : Nat) : Int) % (SS : Int) = 0 := cast_mod_zero (mod_sub_mod m SS)
            rw [Int.natCast_add, MPtr.addr_contig h.wL hc.1 _ _ (fun _ => h0) i1 (by omega),
              MPtr.addr_panel_col pL hc.1 hLp, MPtr.addr_panel_col pL hc.1 hLp, Int.mul_comm (SS : Int) j]
            omega
  · rw [if_neg hc]
    by_cases hc2 : L.so = .columnMajor ∧ R.so = .rowMajor
    · rw [if_pos hc2]
      refine copyLoop_runs h hg (fun i j hi hj => ?_) (fun i j hi hj => ?_)
      · rw [MPtr.addr_dense_row pR hc2.2]
      · rw [MPtr.addr_panel_col pL hc2.1 hLp, MPtr.addr_panel_col pL hc2.1 hLp, Int.mul_comm (SS : Int) j]
        omega
    · rw [if_neg hc2]
      exact copyElements_runs h hg
end Blast
