import Verif.Tile
/-
The calls made by `tile` are exactly `tileCalls`, and these partition the matrix.
-/
set_option linter.unusedSimpArgs false
namespace Blast
open Prog
variable {V : Type}

/-- Consecutive intervals `(start, length)` from `lo` to `hi`. -/
def Covers : Nat → Nat → List (Nat × Nat) → Prop
  | lo, hi, [] => lo = hi
  | lo, hi, (s, len) :: rest => s = lo ∧ 0 < len ∧ Covers (lo + len) hi rest

theorem Covers.append {lo mid hi : Nat} {l1 l2 : List (Nat × Nat)} (h1 : Covers lo mid l1)
    (h2 : Covers mid hi l2) : Covers lo hi (l1 ++ l2) := by
  induction l1 generalizing lo with
  | nil => simp only [Covers] at h1; subst h1; exact h2
  | cons x xs ih => exact ⟨h1.1, h1.2.1, ih h1.2.2⟩

theorem Covers.le {lo hi : Nat} {l : List (Nat × Nat)} (h : Covers lo hi l) : lo ≤ hi := by
  induction l generalizing lo with
  | nil => simp only [Covers] at h; omega
  | cons x xs ih => have := ih h.2.2; omega

theorem Covers.mem {lo hi : Nat} {l : List (Nat × Nat)} (h : Covers lo hi l) {s : Nat × Nat}
    (hs : s ∈ l) : lo ≤ s.1 ∧ 0 < s.2 ∧ s.1 + s.2 ≤ hi := by
  induction l generalizing lo with
  | nil => simp at hs
  | cons x xs ih =>
    have hle := h.2.2.le
    obtain ⟨hx1, hx2, hx3⟩ := h
    rcases List.mem_cons.1 hs with rfl | hs
    · exact ⟨by omega, hx2, by omega⟩
    · have := ih hx3 hs; exact ⟨by omega, this.2.1, this.2.2⟩

theorem Covers.cover {lo hi : Nat} {l : List (Nat × Nat)} (h : Covers lo hi l) {x : Nat}
    (h1 : lo ≤ x) (h2 : x < hi) : ∃ s, s ∈ l ∧ s.1 ≤ x ∧ x < s.1 + s.2 := by
  induction l generalizing lo with
  | nil => simp only [Covers] at h; omega
  | cons y ys ih =>
    obtain ⟨hy1, hy2, hy3⟩ := h
    by_cases hx : x < lo + y.2
    · exact ⟨y, by simp, by omega, by omega⟩
    · obtain ⟨s, hs, h⟩ := ih hy3 (by omega)
      exact ⟨s, by simp [hs], h⟩

theorem Covers.pairwise {lo hi : Nat} {l : List (Nat × Nat)} (h : Covers lo hi l) :
    l.Pairwise (fun s t => s.1 + s.2 ≤ t.1) := by
  induction l generalizing lo with
  | nil => exact List.Pairwise.nil
  | cons y ys ih =>
    obtain ⟨hy1, hy2, hy3⟩ := h
    refine List.Pairwise.cons (fun t ht => ?_) (ih hy3)
    have := hy3.mem ht
    omega

/-! ### Loops -/

/-- Intervals visited by a loop whose block length at `i` is `len i` (which advances `min i cap`). -/
theorem loop_covers {fuel : Nat} {cond : Nat → Bool} {step : Nat} {i : Nat} (cap : Nat)
    (len : Nat → Nat) (hlen : ∀ i, cond i = true → 0 < len i ∧ i < cap ∧
      min (i + step) cap = i + len i) :
    Covers (min i cap) (min (loopEnd fuel cond step i) cap)
      ((loopIdx fuel cond step i).map (fun i => (i, len i))) := by
  induction fuel generalizing i with
  | zero => simp [loopIdx, loopEnd, Covers]
  | succ fuel ih =>
    simp only [loopIdx, loopEnd]
    by_cases hc : cond i = true
    · simp only [if_pos hc, List.map_cons, Covers]
      obtain ⟨h1, h2, h3⟩ := hlen i hc
      refine ⟨by omega, h1, ?_⟩
      have := ih (i := i + step)
      rw [h3] at this
      rw [show min i cap + len i = i + len i by omega]
      exact this
    · simp only [if_neg hc, List.map_nil, Covers]

theorem loopIdx_prop {fuel : Nat} {cond : Nat → Bool} {step : Nat} {i : Nat} (P : Nat → Prop)
    (h0 : P i) (hs : ∀ i, P i → P (i + step)) :
    (∀ k, k ∈ loopIdx fuel cond step i → cond k = true ∧ P k) ∧ P (loopEnd fuel cond step i) := by
  induction fuel generalizing i with
  | zero => simpa [loopIdx, loopEnd] using h0
  | succ fuel ih =>
    simp only [loopIdx, loopEnd]
    by_cases hc : cond i = true
    · simp only [if_pos hc, List.mem_cons]
      obtain ⟨h1, h2⟩ := ih (hs i h0)
      exact ⟨by rintro k (rfl | hk); exact ⟨hc, h0⟩; exact h1 k hk, h2⟩
    · simp only [if_neg hc]
      exact ⟨by simp, h0⟩

theorem strips_covers (n : Nat) : Covers 0 n (strips n) := by
  unfold strips
  have h1 := loop_covers (fuel := n + 1) (cond := fun j => decide (j + tileStep ≤ n)) (step := tileStep)
    (i := 0) n (fun _ => tileStep) (fun i hi => by
      simp only [decide_eq_true_eq] at hi; unfold tileStep at *; omega)
  have h2 := loopEnd_cond (fuel := n + 1) (cond := fun j => decide (j + tileStep ≤ n)) (step := tileStep)
    (i := 0) n (by decide) (fun i hi => by
      simp only [decide_eq_true_eq] at hi; unfold tileStep at *; omega) (by omega) (by omega)
  generalize loopEnd (n + 1) (fun j => decide (j + tileStep ≤ n)) tileStep 0 = e at *
  simp only [decide_eq_false_iff_not] at h2
  rw [show min 0 n = 0 by omega] at h1
  refine h1.append ?_
  by_cases he : e < n
  · rw [if_pos he]
    simp only [Covers]; omega
  · rw [if_neg he]
    simp only [Covers]; omega

theorem strips_width {n : Nat} {s : Nat × Nat} (hs : s ∈ strips n) : s.2 ≤ tileStep := by
  unfold strips at hs
  have h2 := loopEnd_cond (fuel := n + 1) (cond := fun j => decide (j + tileStep ≤ n)) (step := tileStep)
    (i := 0) n (by decide) (fun i hi => by
      simp only [decide_eq_true_eq] at hi; unfold tileStep at *; omega) (by omega) (by omega)
  generalize loopEnd (n + 1) (fun j => decide (j + tileStep ≤ n)) tileStep 0 = e at *
  simp only [decide_eq_false_iff_not] at h2
  rcases List.mem_append.1 hs with h | h
  · obtain ⟨a, _, rfl⟩ := List.mem_map.1 h
    exact Nat.le_refl _
  · by_cases he : e < n
    · simp only [if_pos he, List.mem_singleton] at h
      subst h
      simp only
      omega
    · simp [if_neg he] at h

/-! ### Row blocks -/

/-- what every block of rows satisfies -/
structure BlockOK (SS m : Nat) (b : RowBlock) : Prop where
  inside : b.i + b.km ≤ m
  pos : 0 < b.km
  rm : 1 ≤ b.RM ∧ b.RM ≤ 3
  fits : b.km ≤ b.RM * SS
  tight : b.RM * SS < b.km + SS
  align : b.i % SS = 0

theorem add_mod_zero {SS i k : Nat} (h : i % SS = 0) : (i + k * SS) % SS = 0 := by
  rw [Nat.add_mul_mod_self_right]; exact h

theorem blocksCol_ok {SS m : Nat} (hSS : 0 < SS) :
    Covers 0 m ((blocksCol SS m).map (fun b => (b.i, b.km))) ∧
    ∀ b, b ∈ blocksCol SS m → BlockOK SS m b := by
  unfold blocksCol
  simp only [List.map_append, List.map_map, Function.comp_def]
  have c3 := loop_covers (fuel := m + 1) (cond := fun i => decide (i + 3 * SS ≤ m) && (i + 4 * SS != m))
    (step := 3 * SS) (i := 0) m (fun _ => 3 * SS) (fun i hi => by
      simp only [Bool.and_eq_true, decide_eq_true_eq] at hi; omega)
  have p3 := loopIdx_prop (fuel := m + 1) (cond := fun i => decide (i + 3 * SS ≤ m) && (i + 4 * SS != m))
    (step := 3 * SS) (i := 0) (fun i => i % SS = 0) (by simp) (fun i hi => add_mod_zero hi)
  generalize loopEnd (m + 1) (fun i => decide (i + 3 * SS ≤ m) && (i + 4 * SS != m)) (3 * SS) 0 = i3 at *
  have c2 := loop_covers (fuel := m + 1) (cond := fun i => decide (i + 2 * SS ≤ m))
    (step := 2 * SS) (i := i3) m (fun _ => 2 * SS) (fun i hi => by
      simp only [decide_eq_true_eq] at hi; omega)
  have p2 := loopIdx_prop (fuel := m + 1) (cond := fun i => decide (i + 2 * SS ≤ m))
    (step := 2 * SS) (i := i3) (fun i => i % SS = 0) p3.2 (fun i hi => add_mod_zero hi)
  generalize loopEnd (m + 1) (fun i => decide (i + 2 * SS ≤ m)) (2 * SS) i3 = i2 at *
  have c1 := loop_covers (fuel := m + 1) (cond := fun i => decide (i + 1 * SS ≤ m))
    (step := 1 * SS) (i := i2) m (fun _ => 1 * SS) (fun i hi => by
      simp only [decide_eq_true_eq] at hi; omega)
  have p1 := loopIdx_prop (fuel := m + 1) (cond := fun i => decide (i + 1 * SS ≤ m))
    (step := 1 * SS) (i := i2) (fun i => i % SS = 0) p2.2 (fun i hi => add_mod_zero hi)
  have e1 := loopEnd_cond (fuel := m + 1) (cond := fun i => decide (i + 1 * SS ≤ m))
    (step := 1 * SS) (i := i2) m (by omega) (fun i hi => by
      simp only [decide_eq_true_eq] at hi; omega) (by omega) (by omega)
  generalize loopEnd (m + 1) (fun i => decide (i + 1 * SS ≤ m)) (1 * SS) i2 = i1 at *
  simp only [decide_eq_false_iff_not] at e1
  rw [show min 0 m = 0 by omega] at c3
  constructor
  · refine c3.append (c2.append (c1.append ?_))
    by_cases he : i1 < m
    · rw [if_pos he]
      simp only [List.map_cons, List.map_nil, Covers]; omega
    · rw [if_neg he]
      simp only [Covers, List.map_nil]; omega
  · intro b hb
    simp only [List.mem_append, List.mem_map] at hb
    rcases hb with ⟨k, hk, rfl⟩ | ⟨k, hk, rfl⟩ | ⟨k, hk, rfl⟩ | hb
    · obtain ⟨h, h'⟩ := p3.1 k hk
      simp only [Bool.and_eq_true, decide_eq_true_eq] at h
      exact ⟨h.1, by simp only; omega, by simp, by simp, by simp only; omega, h'⟩
    · obtain ⟨h, h'⟩ := p2.1 k hk
      simp only [decide_eq_true_eq] at h
      exact ⟨h, by simp only; omega, by simp, by simp, by simp only; omega, h'⟩
    · obtain ⟨h, h'⟩ := p1.1 k hk
      simp only [decide_eq_true_eq] at h
      exact ⟨h, by simp only; omega, by simp, by simp, by simp only; omega, h'⟩
    · by_cases he : i1 < m
      · rw [if_pos he] at hb
        simp only [List.mem_singleton] at hb
        subst hb
        exact ⟨by simp only; omega, by simp only; omega, by simp, by simp only; omega,
          by simp only; omega, p1.2⟩
      · rw [if_neg he] at hb; simp at hb

theorem blocksRow_ok {SS m : Nat} (hSS : 0 < SS) :
    Covers 0 m ((blocksRow SS m).map (fun b => (b.i, b.km))) ∧
    ∀ b, b ∈ blocksRow SS m → BlockOK SS m b := by
  unfold blocksRow
  simp only [List.map_append, List.map_map, Function.comp_def]
  have c3 := loop_covers (fuel := m + 1) (cond := fun i => decide (i + 2 * SS < m) && (i + 4 * SS != m))
    (step := 3 * SS) (i := 0) m (fun i => min (3 * SS) (m - i)) (fun i hi => by
      simp only [Bool.and_eq_true, decide_eq_true_eq] at hi; omega)
  have p3 := loopIdx_prop (fuel := m + 1) (cond := fun i => decide (i + 2 * SS < m) && (i + 4 * SS != m))
    (step := 3 * SS) (i := 0) (fun i => i % SS = 0) (by simp) (fun i hi => add_mod_zero hi)
  generalize loopEnd (m + 1) (fun i => decide (i + 2 * SS < m) && (i + 4 * SS != m)) (3 * SS) 0 = i3 at *
  have c2 := loop_covers (fuel := m + 1) (cond := fun i => decide (i + 1 * SS < m))
    (step := 2 * SS) (i := i3) m (fun i => min (2 * SS) (m - i)) (fun i hi => by
      simp only [decide_eq_true_eq] at hi; omega)
  have p2 := loopIdx_prop (fuel := m + 1) (cond := fun i => decide (i + 1 * SS < m))
    (step := 2 * SS) (i := i3) (fun i => i % SS = 0) p3.2 (fun i hi => add_mod_zero hi)
  generalize loopEnd (m + 1) (fun i => decide (i + 1 * SS < m)) (2 * SS) i3 = i2 at *
  have c1 := loop_covers (fuel := m + 1) (cond := fun i => decide (i + 0 * SS < m))
    (step := 1 * SS) (i := i2) m (fun i => min (1 * SS) (m - i)) (fun i hi => by
      simp only [decide_eq_true_eq] at hi; omega)
  have p1 := loopIdx_prop (fuel := m + 1) (cond := fun i => decide (i + 0 * SS < m))
    (step := 1 * SS) (i := i2) (fun i => i % SS = 0) p2.2 (fun i hi => add_mod_zero hi)
  have e1 := loopEnd_cond (fuel := m + 1) (cond := fun i => decide (i + 0 * SS < m))
    (step := 1 * SS) (i := i2) m (by omega) (fun i hi => by
      simp only [decide_eq_true_eq] at hi; omega) (by omega) (by omega)
  generalize loopEnd (m + 1) (fun i => decide (i + 0 * SS < m)) (1 * SS) i2 = i1 at *
  simp only [decide_eq_false_iff_not] at e1
  rw [show min 0 m = 0 by omega] at c3
  rw [show min i1 m = m by omega] at c1
  refine ⟨c3.append (c2.append c1), ?_⟩
  intro b hb
  simp only [List.mem_append, List.mem_map] at hb
  rcases hb with ⟨k, hk, rfl⟩ | ⟨k, hk, rfl⟩ | ⟨k, hk, rfl⟩
  · obtain ⟨h, h'⟩ := p3.1 k hk
    simp only [Bool.and_eq_true, decide_eq_true_eq] at h
    exact ⟨by simp only; omega, by simp only; omega, by simp, by simp only; omega, by simp only; omega, h'⟩
  · obtain ⟨h, h'⟩ := p2.1 k hk
    simp only [decide_eq_true_eq] at h
    exact ⟨by simp only; omega, by simp only; omega, by simp, by simp only; omega, by simp only; omega, h'⟩
  · obtain ⟨h, h'⟩ := p1.1 k hk
    simp only [decide_eq_true_eq] at h
    exact ⟨by simp only; omega, by simp only; omega, by simp, by simp only; omega, by simp only; omega, h'⟩

/-! ### `tile` makes exactly the calls `tileCalls` -/

theorem loop_bind {α : Type} {fuel : Nat} {cond : Nat → Bool} {step : Nat} {body : Nat → Prog V Unit}
    {i : Nat} (k : Nat → Prog V α)
    (bound : Nat) (hstep : 0 < step) (hb : ∀ i, cond i = true → i < bound) (hf : bound < fuel + i)
    (hf0 : 0 < fuel) :
    (loop fuel cond step body i >>= k) =
      (forList (loopIdx fuel cond step i) body >>= fun _ => k (loopEnd fuel cond step i)) := by
  rw [loop_eq bound hstep hb hf hf0, bind_assoc']
  rfl

theorem tileStrip_eq {SS m j kn : Nat} (hSS : 0 < SS) (right : Bool)
    (hk : right = false → kn = tileStep) (hk' : right = true → kn ≠ tileStep)
    (ff : Nat → Nat → Nat → Prog V Unit) (fp : Nat → Nat → Nat → Nat → Nat → Prog V Unit) :
    tileStrip SS m j kn right ff fp = forList ((blocksCol SS m).map (fun b =>
      (⟨b.RM, b.i, j, b.km, kn, b.km == b.RM * SS && kn == tileStep⟩ : TileCall))) (TileCall.exec ff fp) := by
  unfold tileStrip blocksCol
  simp only
  rw [loop_bind _ m (by omega) (fun i hi => by
      simp only [Bool.and_eq_true, decide_eq_true_eq] at hi; omega) (by omega) (by omega)]
  rw [loop_bind _ m (by omega) (fun i hi => by
      simp only [decide_eq_true_eq] at hi; omega) (by omega) (by omega)]
  rw [loop_bind _ m (by omega) (fun i hi => by
      simp only [decide_eq_true_eq] at hi; omega) (by omega) (by omega)]
  have e1 := loopEnd_cond (fuel := m + 1) (cond := fun i => decide (i + 1 * SS ≤ m))
    (step := 1 * SS) (i := loopEnd (m + 1) (fun i => decide (i + 2 * SS ≤ m)) (2 * SS)
      (loopEnd (m + 1) (fun i => decide (i + 3 * SS ≤ m) && (i + 4 * SS != m)) (3 * SS) 0))
    m (by omega) (fun i hi => by
      simp only [decide_eq_true_eq] at hi; omega) (by omega) (by omega)
  generalize loopEnd (m + 1) (fun i => decide (i + 1 * SS ≤ m)) (1 * SS) _ = i1 at *
  simp only [decide_eq_false_iff_not] at e1
  have hf : ∀ RM i, (if right = true then fp RM i j (RM * SS) kn else ff RM i j) =
      TileCall.exec ff fp ⟨RM, i, j, RM * SS, kn, RM * SS == RM * SS && kn == tileStep⟩ := by
    intro RM i
    cases right
    · simp [TileCall.exec, hk rfl]
    · simp [TileCall.exec, hk' rfl]
  simp only [List.map_append, List.map_map, forList_append, forList_map, Function.comp_def, hf]
  congr 1
  funext _
  congr 1
  funext _
  congr 1
  funext _
  by_cases he : i1 < m
  · have hne : (m - i1 == 1 * SS) = false := by
      rw [beq_eq_false_iff_ne]; omega
    simp only [onlyIf, he, if_true, forList, hne, TileCall.exec, decide_true]
    exact (bind_pure_unit _).symm
  · simp [onlyIf, he, forList]

theorem tileBackend_eq {SS RM m n i : Nat} (hp : 0 < RM * SS)
    (ff : Nat → Nat → Nat → Prog V Unit) (fp : Nat → Nat → Nat → Nat → Nat → Prog V Unit) :
    tileBackend SS RM m n i ff fp = forList ((strips n).map (fun s =>
      (⟨RM, i, s.1, min (RM * SS) (m - i), s.2, min (RM * SS) (m - i) == RM * SS && s.2 == tileStep⟩ :
        TileCall))) (TileCall.exec ff fp) := by
  have e1 := loopEnd_cond (fuel := n + 1) (cond := fun j => decide (j + tileStep ≤ n)) (step := tileStep)
    (i := 0) n (by decide) (fun i hi => by
      simp only [decide_eq_true_eq] at hi; unfold tileStep at *; omega) (by omega) (by omega)
  unfold tileBackend strips
  rw [loop_bind _ n (by decide) (fun i hi => by
      simp only [decide_eq_true_eq] at hi; unfold tileStep at *; omega) (by omega) (by omega)]
  rw [loop_bind _ n (by decide) (fun i hi => by
      simp only [decide_eq_true_eq] at hi; unfold tileStep at *; omega) (by omega) (by omega)]
  generalize loopEnd (n + 1) (fun j => decide (j + tileStep ≤ n)) tileStep 0 = e at *
  simp only [decide_eq_false_iff_not] at e1
  simp only [List.map_append, List.map_map, forList_append, forList_map, Function.comp_def]
  by_cases him : i + RM * SS ≤ m
  · have hmin : min (RM * SS) (m - i) = RM * SS := by omega
    rw [if_pos him, hmin]
    simp only [TileCall.exec, beq_self_eq_true, Bool.and_self, if_true]
    congr 1
    funext _
    by_cases he : e < n
    · have hne : (n - e == tileStep) = false := by rw [beq_eq_false_iff_ne]; omega
      simp only [onlyIf, he, if_true, forList, hne, decide_true]
      exact (bind_pure_unit _).symm
    · simp [onlyIf, he, forList]
  · have hmin : min (RM * SS) (m - i) = m - i := by omega
    have hne : (m - i == RM * SS) = false := by rw [beq_eq_false_iff_ne]; omega
    rw [if_neg him, hmin, hne]
    simp only [TileCall.exec, Bool.false_and]
    congr 1
    funext _
    by_cases he : e < n
    · simp only [onlyIf, he, if_true, forList, decide_true]
      exact (bind_pure_unit _).symm
    · simp [onlyIf, he, forList]

theorem tile_eq {SS : Nat} (hSS : 0 < SS) (ct : Bool) (m n : Nat)
    (ff : Nat → Nat → Nat → Prog V Unit) (fp : Nat → Nat → Nat → Nat → Nat → Prog V Unit) :
    tile SS ct m n ff fp = forList (tileCalls SS ct m n) (TileCall.exec ff fp) := by
  unfold tile tileCalls
  cases ct
  · simp only [Bool.false_eq_true, if_false]
    rw [loop_bind _ m (by omega) (fun i hi => by
      simp only [Bool.and_eq_true, decide_eq_true_eq] at hi; omega) (by omega) (by omega)]
    rw [loop_bind _ m (by omega) (fun i hi => by
      simp only [decide_eq_true_eq] at hi; omega) (by omega) (by omega)]
    rw [loop_bind _ m (by omega) (fun i hi => by
      simp only [decide_eq_true_eq] at hi; omega) (by omega) (by omega)]
    rw [bind_pure_unit, forList_flatMap]
    unfold blocksRow
    simp only [forList_append, forList_map, tileBackend_eq (show 0 < 3 * SS by omega),
      tileBackend_eq (show 0 < 2 * SS by omega), tileBackend_eq (show 0 < 1 * SS by omega)]
  · simp only [if_true]
    have e1 := loopEnd_cond (fuel := n + 1) (cond := fun j => decide (j + tileStep ≤ n)) (step := tileStep)
      (i := 0) n (by decide) (fun i hi => by
        simp only [decide_eq_true_eq] at hi; unfold tileStep at *; omega) (by omega) (by omega)
    rw [loop_bind _ n (by decide) (fun i hi => by
      simp only [decide_eq_true_eq] at hi; unfold tileStep at *; omega) (by omega) (by omega)]
    rw [forList_flatMap]
    unfold strips
    generalize loopEnd (n + 1) (fun j => decide (j + tileStep ≤ n)) tileStep 0 = e at *
    simp only [decide_eq_false_iff_not] at e1
    simp only [forList_append, forList_map]
    have h0 : ∀ j, tileStrip SS m j tileStep false ff fp = _ :=
      fun j => tileStrip_eq hSS false (fun _ => rfl) (by simp) ff fp
    simp only [h0]
    simp only [forList_map]
    congr 1
    funext _
    by_cases he : e < n
    · simp only [onlyIf, he, if_true, forList, decide_true]
      rw [tileStrip_eq hSS true (by simp) (fun _ => by omega) ff fp, bind_pure_unit, forList_map]
    · simp [onlyIf, he, forList]

/-! ### Partition -/

/-- element `(x,y)` lies in the tile -/
def TileCall.Has (t : TileCall) (x y : Nat) : Prop :=
  t.i ≤ x ∧ x < t.i + t.km ∧ t.j ≤ y ∧ y < t.j + t.kn

/-- What every call satisfies: the tile is non-empty and inside the matrix, fits the kernel, starts at a
SIMD boundary, uses every SIMD row of the kernel, and `f_full` is called exactly on exact fits. -/
structure TileCall.OK (SS m n : Nat) (t : TileCall) : Prop where
  rows : t.i + t.km ≤ m
  cols : t.j + t.kn ≤ n
  kmpos : 0 < t.km
  knpos : 0 < t.kn
  rm : 1 ≤ t.RM ∧ t.RM ≤ 3
  fits : t.km ≤ t.RM * SS
  tight : t.RM * SS < t.km + SS
  width : t.kn ≤ 4
  align : t.i % SS = 0
  full : t.full = true ↔ t.km = t.RM * SS ∧ t.kn = 4

theorem tileCalls_ok {SS : Nat} (hSS : 0 < SS) (ct : Bool) (m n : Nat) :
    ∀ t, t ∈ tileCalls SS ct m n → t.OK SS m n := by
  intro t ht
  have key : ∀ (b : RowBlock) (s : Nat × Nat), BlockOK SS m b → s ∈ strips n →
      TileCall.OK SS m n ⟨b.RM, b.i, s.1, b.km, s.2, b.km == b.RM * SS && s.2 == tileStep⟩ := by
    intro b s hb hs
    have hs1 := (strips_covers n).mem hs
    exact ⟨hb.inside, hs1.2.2, hb.pos, hs1.2.1, hb.rm, hb.fits, hb.tight, strips_width hs, hb.align, by
      simp [tileStep]⟩
  unfold tileCalls at ht
  cases ct
  · simp only [Bool.false_eq_true, if_false, List.mem_flatMap, List.mem_map] at ht
    obtain ⟨b, hb, s, hs, rfl⟩ := ht
    exact key b s ((blocksRow_ok hSS).2 b hb) hs
  · simp only [if_true, List.mem_flatMap, List.mem_map] at ht
    obtain ⟨s, hs, b, hb, rfl⟩ := ht
    exact key b s ((blocksCol_ok hSS).2 b hb) hs

theorem tileCalls_cover {SS : Nat} (hSS : 0 < SS) (ct : Bool) (m n : Nat) {x y : Nat} (hx : x < m)
    (hy : y < n) : ∃ t, t ∈ tileCalls SS ct m n ∧ t.Has x y := by
  obtain ⟨s, hs, h1, h2⟩ := (strips_covers n).cover (Nat.zero_le y) hy
  unfold tileCalls
  cases ct
  · obtain ⟨b', hb', h3, h4⟩ := (blocksRow_ok (m := m) hSS).1.cover (Nat.zero_le x) hx
    obtain ⟨b, hb, rfl⟩ := List.mem_map.1 hb'
    refine ⟨⟨b.RM, b.i, s.1, b.km, s.2, b.km == b.RM * SS && s.2 == tileStep⟩, ?_, h3, h4, h1, h2⟩
    simp only [Bool.false_eq_true, if_false, List.mem_flatMap, List.mem_map]
    exact ⟨b, hb, s, hs, rfl⟩
  · obtain ⟨b', hb', h3, h4⟩ := (blocksCol_ok (m := m) hSS).1.cover (Nat.zero_le x) hx
    obtain ⟨b, hb, rfl⟩ := List.mem_map.1 hb'
    refine ⟨⟨b.RM, b.i, s.1, b.km, s.2, b.km == b.RM * SS && s.2 == tileStep⟩, ?_, h3, h4, h1, h2⟩
    simp only [if_true, List.mem_flatMap, List.mem_map]
    exact ⟨s, hs, b, hb, rfl⟩

theorem tileCalls_disjoint {SS : Nat} (hSS : 0 < SS) (ct : Bool) (m n : Nat) :
    (tileCalls SS ct m n).Pairwise (fun t u => ∀ x y, t.Has x y → ¬ u.Has x y) := by
  unfold tileCalls
  have hS := (strips_covers n).pairwise
  cases ct
  · simp only [Bool.false_eq_true, if_false]
    have hB := List.pairwise_map.1 (blocksRow_ok (m := m) hSS).1.pairwise
    rw [List.pairwise_flatMap]
    refine ⟨fun b _ => ?_, hB.imp ?_⟩
    · rw [List.pairwise_map]
      refine hS.imp ?_
      intro s t hst x y h1 h2
      have := h1.2.2.2; have := h2.2.2.1
      simp only at *; omega
    · intro b c hbc t ht u hu
      obtain ⟨s, _, rfl⟩ := List.mem_map.1 ht
      obtain ⟨s', _, rfl⟩ := List.mem_map.1 hu
      intro x y h1 h2
      have := h1.2.1; have := h2.1
      simp only at *; omega
  · simp only [if_true]
    have hB := List.pairwise_map.1 (blocksCol_ok (m := m) hSS).1.pairwise
    rw [List.pairwise_flatMap]
    refine ⟨fun b _ => ?_, hS.imp ?_⟩
    · rw [List.pairwise_map]
      refine hB.imp ?_
      intro s t hst x y h1 h2
      have := h1.2.1; have := h2.1
      simp only at *; omega
    · intro b c hbc t ht u hu
      obtain ⟨s, _, rfl⟩ := List.mem_map.1 ht
      obtain ⟨s', _, rfl⟩ := List.mem_map.1 hu
      intro x y h1 h2
      have := h1.2.2.2; have := h2.2.2.1
      simp only at *; omega

end Blast
