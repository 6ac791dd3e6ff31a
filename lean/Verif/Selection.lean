import Verif.Determined
/-
Selecting rows and columns: the factorizations, as functions of the elements, commute with a selection of the columns to the right of the
square part. Used by Props/Selection (C77).
-/
namespace Blast
open Prog Reg
variable {V : Type} [Arith V]

/-- a selection of columns that keeps the first `m` columns in place -/
def KeepsFirst (m : Nat) (g : Nat → Nat) : Prop := (∀ j, j < m → g j = j) ∧ ∀ j, m ≤ j → m ≤ g j

theorem KeepsFirst.lt {m k j : Nat} {g : Nat → Nat} (h : KeepsFirst m g) (hk : k ≤ m) : g j < k ↔ j < k := by
  by_cases hj : j < m
  · rw [h.1 j hj]
  · have := h.2 j (by omega); omega

theorem KeepsFirst.eq {m k j : Nat} {g : Nat → Nat} (h : KeepsFirst m g) (hk : k < m) : g j = k ↔ j = k := by
  by_cases hj : j < m
  · rw [h.1 j hj]
  · have := h.2 j (by omega); omega

theorem KeepsFirst.shift {m k : Nat} {g : Nat → Nat} (h : KeepsFirst m g) : KeepsFirst (m - k) (fun j => g (k + j) - k) := by
  refine ⟨fun j hj => ?_, fun j hj => ?_⟩
  · show g (k + j) - k = j
    rw [h.1 _ (by omega)]; omega
  · show m - k ≤ g (k + j) - k
    by_cases hk : k + j < m
    · omega
    · have := h.2 (k + j) (by omega); omega

/-- the same selection applied to a matrix -/
def pick (g : Nat → Nat) (a : Nat → Nat → V) : Nat → Nat → V := fun i j => a i (g j)

theorem elim_pick (dv : V → V → V) (upd : V → V → V → V) {k m : Nat} {g : Nat → Nat} (h : KeepsFirst m g) (hk : k < m) (a : Nat → Nat → V) :
    elim dv upd k (pick g a) = pick g (elim dv upd k a) := by
  funext i j
  have hgk : g k = k := h.1 k hk
  have he : (j = k) ↔ (g j = k) := (h.eq hk).symm
  have hl : (k < j) ↔ (k < g j) := by have := h.lt (j := j) (k := k + 1) hk; omega
  unfold elim pick
  rw [hgk]
  simp only [he, hl]

theorem luStep_pick (dv : V → V → V) (upd : V → V → V → V) {k m K : Nat} {g : Nat → Nat} (h : KeepsFirst K g) (hk : k < K) (a : Nat → Nat → V)
    (ip : Nat → Nat) : luStep dv upd m k (pick g a) ip = (luStep dv upd m k a ip).map (fun s => (pick g s.1, s.2)) := by
  have hgk : g k = k := h.1 k hk
  have hp : pivotRow m (pick g a) k = pivotRow m a k := by unfold pivotRow pick; rw [hgk]
  have hsw : swapRows k (pivotRow m a k) (pick g a) = pick g (swapRows k (pivotRow m a k) a) := rfl
  unfold luStep
  dsimp only
  rw [hp, hsw]
  have hd : pick g (swapRows k (pivotRow m a k) a) k k = swapRows k (pivotRow m a k) a k k := by unfold pick; rw [hgk]
  rw [hd, elim_pick dv upd h hk]
  split <;> rfl

theorem luFull_pick (dv : V → V → V) (upd : V → V → V → V) {m K : Nat} {g : Nat → Nat} (h : KeepsFirst K g) (a : Nat → Nat → V) (ip : Nat → Nat) :
    luFull dv upd m (pick g a) ip K = (pick g (luFull dv upd m a ip K).1, (luFull dv upd m a ip K).2) := by
  have key : ∀ k, k ≤ K → luFull dv upd m (pick g a) ip k = (pick g (luFull dv upd m a ip k).1, (luFull dv upd m a ip k).2) := by
    intro k
    induction k with
    | zero => intro _; rfl
    | succ k ih =>
      intro hk
      unfold luFull
      rw [ih (by omega)]
      rcases hr : luFull dv upd m a ip k with ⟨b, _ | p⟩
      · rfl
      · dsimp only
        rw [luStep_pick dv upd h (by omega)]
        have hgk : g k = k := h.1 k (by omega)
        have hp : pivotRow m (pick g b) k = pivotRow m b k := by unfold pivotRow pick; rw [hgk]
        rcases luStep dv upd m k b p with _ | ⟨b', p'⟩
        · show (swapRows k (pivotRow m (pick g b) k) (pick g b), none) = _
          rw [hp]; rfl
        · rfl
  exact key K (Nat.le_refl _)

theorem elimRun_pick (dv : V → V → V) {K : Nat} {g : Nat → Nat} (h : KeepsFirst K g) (a : Nat → Nat → V) :
    ∀ k, k ≤ K → elimRun dv (pick g a) k = pick g (elimRun dv a k) := by
  intro k
  induction k with
  | zero => intro _; rfl
  | succ k ih =>
    intro hk
    unfold elimRun
    rw [ih (by omega), elim_pick dv updSub h (by omega)]

theorem rowSwaps_pick (P : Nat → Nat) (k0 t : Nat) (g : Nat → Nat) (a : Nat → Nat → V) :
    rowSwaps P k0 t (pick g a) = pick g (rowSwaps P k0 t a) := by
  funext i j
  unfold pick
  rw [rowSwaps_eq, rowSwaps_eq]

theorem swapCols_pick (P : Nat → Nat) {k0 k1 c0 n n' : Nat} {g : Nat → Nat} (h : ∀ j, (c0 ≤ j ∧ j < c0 + n') ↔ (c0 ≤ g j ∧ g j < c0 + n))
    (a : Nat → Nat → V) : swapCols P k0 k1 c0 n' (pick g a) = pick g (swapCols P k0 k1 c0 n a) := by
  funext i j
  unfold swapCols
  rw [rowSwaps_pick]
  show (if c0 ≤ j ∧ j < c0 + n' then _ else _) = if c0 ≤ g j ∧ g j < c0 + n then _ else _
  simp only [h j]
  rfl

theorem paste_pick {r0 c0 r c c' : Nat} {g : Nat → Nat} (h : ∀ j, (c0 ≤ j ∧ j < c0 + c') ↔ (c0 ≤ g j ∧ g j < c0 + c)) {f f' a : Nat → Nat → V}
    (hf : ∀ i j, c0 ≤ j → j < c0 + c' → f' i (j - c0) = f i (g j - c0)) : paste r0 c0 r c' f' (pick g a) = pick g (paste r0 c0 r c f a) := by
  funext i j
  unfold paste
  show (if r0 ≤ i ∧ i < r0 + r ∧ c0 ≤ j ∧ j < c0 + c' then _ else _) = if r0 ≤ i ∧ i < r0 + r ∧ c0 ≤ g j ∧ g j < c0 + c then _ else _
  by_cases hc : c0 ≤ j ∧ j < c0 + c'
  · by_cases hr : r0 ≤ i ∧ i < r0 + r
    · rw [if_pos ⟨hr.1, hr.2, hc⟩, if_pos ⟨hr.1, hr.2, (h j).1 hc⟩, hf _ _ hc.1 hc.2]
    · rw [if_neg (fun x => hr ⟨x.1, x.2.1⟩), if_neg (fun x => hr ⟨x.1, x.2.1⟩)]; rfl
  · rw [if_neg (fun x => hc x.2.2), if_neg (fun x => hc ((h j).2 x.2.2))]; rfl

/-- a selection of columns of a matrix with N columns; the result has N' columns -/
structure ColSel (M N N' : Nat) (g : Nat → Nat) : Prop where
  keep : KeepsFirst M g
  lt : ∀ j, j < N' ↔ g j < N

theorem getrfBlk_pick {T M N N' k : Nat} {g : Nat → Nat} (h : ColSel M N N' g) (hk : k + T < M) (hN : M ≤ N) (hN' : M ≤ N') (a : Nat → Nat → V)
    (P : Nat → Nat) :
    getrfBlk T M N' k (pick g a) P = (pick g (getrfBlk T M N k a P).1, (getrfBlk T M N k a P).2) := by
  have hsub : (fun i j => pick g a (k + i) (k + j)) = pick (fun j => g (k + j) - k) (fun i j => a (k + i) (k + j)) := by
    funext i j
    show a (k + i) (g (k + j)) = a (k + i) (k + (g (k + j) - k))
    have : k ≤ g (k + j) := by have := h.keep.lt (j := k + j) (k := k) (by omega); omega
    congr 1; omega
  have hkf : KeepsFirst T (fun j => g (k + j) - k) := by
    have := h.keep.shift (k := k)
    exact ⟨fun j hj => this.1 j (by omega), fun j hj => by
      by_cases hj' : j < M - k
      · rw [this.1 j hj']; exact hj
      · have := this.2 j (by omega); omega⟩
  have c1 : ∀ j, (k ≤ j ∧ j < k + T) ↔ (k ≤ g j ∧ g j < k + T) := fun j => by
    have h1 := h.keep.lt (j := j) (k := k) (by omega)
    have h2 := h.keep.lt (j := j) (k := k + T) (by omega)
    omega
  have c2 : ∀ j, (k + T ≤ j ∧ j < k + T + (N' - k - T)) ↔ (k + T ≤ g j ∧ g j < k + T + (N - k - T)) := fun j => by
    have h1 := h.lt j
    have h2 := h.keep.lt (j := j) (k := k + T) (by omega)
    omega
  have c3 : ∀ j, (0 ≤ j ∧ j < 0 + k) ↔ (0 ≤ g j ∧ g j < 0 + k) := fun j => by
    have h1 := h.keep.lt (j := j) (k := k) (by omega)
    omega
  have hgk : ∀ q, q < T → g (k + q) = k + q := fun q hq => h.keep.1 _ (by omega)
  unfold getrfBlk
  rw [hsub, luFull_pick _ _ hkf]
  rcases hr : luFull Arith.div updCol (M - k) (fun i j => a (k + i) (k + j)) (fun i => P (k + i)) T with ⟨s, _ | p⟩
  · dsimp only
    rw [paste_pick c1]
    intro i j h1 h2
    show s i (g (k + (j - k)) - k) = s i (g j - k)
    rw [show k + (j - k) = j by omega]
  · dsimp only
    rw [paste_pick (f := s) c1 (fun i j h1 h2 => by
      show s i (g (k + (j - k)) - k) = s i (g j - k)
      rw [show k + (j - k) = j by omega])]
    rw [swapCols_pick _ c3, swapCols_pick _ c2]
    generalize swapCols (addRange (mergeAt P k p) k (k + T)) k (k + T) (k + T) (N - k - T)
      (swapCols (addRange (mergeAt P k p) k (k + T)) k (k + T) 0 k (paste k k (M - k) T s a)) = a3
    have e4 : paste k (k + T) T (N' - k - T) (fun i j => trsmSol .lower true T (fun i q => pick g a3 (k + i) (k + q)) (fun i => pick g a3 (k + i) (k + T + j)) i) (pick g a3)
        = pick g (paste k (k + T) T (N - k - T) (fun i j => trsmSol .lower true T (fun i q => a3 (k + i) (k + q)) (fun i => a3 (k + i) (k + T + j)) i) a3) := by
      by_cases hT : T = 0
      · subst hT
        have z : ∀ (c : Nat) (f b : Nat → Nat → V), paste k (k + 0) 0 c f b = b := fun c f b => by
          funext i j; unfold paste; exact if_neg (by omega)
        rw [z, z]
      have key : ∀ i j, i < T → k + T ≤ j → j < k + T + (N' - k - T) →
          trsmSol .lower true T (fun i q => pick g a3 (k + i) (k + q)) (fun i => pick g a3 (k + i) (k + T + (j - (k + T)))) i =
          trsmSol .lower true T (fun i q => a3 (k + i) (k + q)) (fun i => a3 (k + i) (k + T + (g j - (k + T)))) i := by
        intro i j hi h1 h2
        have hg : k + T ≤ g j := ((c2 j).1 ⟨h1, h2⟩).1
        refine TrsmRec.unique (trsmSol_rec _ _ _ _ _) (trsmSol_rec _ _ _ _ _) (fun i q hi hq _ => ?_) (fun i hi => ?_) i hi
        · show a3 (k + i) (g (k + q)) = _
          rw [hgk q hq]
        · show a3 (k + i) (g (k + T + (j - (k + T)))) = _
          rw [show k + T + (j - (k + T)) = j by omega, show k + T + (g j - (k + T)) = g j by omega]
      funext i j
      unfold paste
      show (if k ≤ i ∧ i < k + T ∧ k + T ≤ j ∧ j < k + T + (N' - k - T) then _ else _) =
        if k ≤ i ∧ i < k + T ∧ k + T ≤ g j ∧ g j < k + T + (N - k - T) then _ else _
      by_cases hc : k + T ≤ j ∧ j < k + T + (N' - k - T)
      · by_cases hr : k ≤ i ∧ i < k + T
        · rw [if_pos ⟨hr.1, hr.2, hc⟩, if_pos ⟨hr.1, hr.2, (c2 j).1 hc⟩]; exact key _ _ (by omega) hc.1 hc.2
        · rw [if_neg (fun x => hr ⟨x.1, x.2.1⟩), if_neg (fun x => hr ⟨x.1, x.2.1⟩)]; rfl
      · rw [if_neg (fun x => hc x.2.2), if_neg (fun x => hc ((c2 j).2 x.2.2))]; rfl
    rw [e4]
    generalize paste k (k + T) T (N - k - T) (fun i j => trsmSol .lower true T (fun i q => a3 (k + i) (k + q)) (fun i => a3 (k + i) (k + T + j)) i) a3 = a4
    refine Prod.ext ?_ rfl
    dsimp only
    refine paste_pick c2 (fun i j h1 h2 => ?_)
    have hg : k + T ≤ g j := ((c2 j).1 ⟨h1, h2⟩).1
    unfold gemmEntry
    have ex : fmaSum (fun q => pick g a4 (k + T + i) (k + q)) (fun q => pick g a4 (k + q) (k + T + (j - (k + T)))) Arith.zero T =
        fmaSum (fun q => a4 (k + T + i) (k + q)) (fun q => a4 (k + q) (k + T + (g j - (k + T)))) Arith.zero T := by
      refine fmaSum_congr' T (fun q hq => ?_) (fun q hq => ?_)
      · show a4 _ (g (k + q)) = _
        rw [hgk q hq]
      · show a4 _ (g (k + T + (j - (k + T)))) = _
        rw [show k + T + (j - (k + T)) = j by omega, show k + T + (g j - (k + T)) = g j by omega]
    rw [ex]
    show Arith.fma _ (a4 _ (g (k + T + (j - (k + T))))) _ = _
    rw [show k + T + (j - (k + T)) = j by omega, show k + T + (g j - (k + T)) = g j by omega]

theorem getrfIter_pick {T M N N' : Nat} {g : Nat → Nat} (h : ColSel M N N' g) (hN : M ≤ N) (hN' : M ≤ N') (fuel : Nat) :
    ∀ (k : Nat) (a : Nat → Nat → V) (P : Nat → Nat), getrfIter T M N' fuel k (pick g a) P =
      ((getrfIter T M N fuel k a P).1, pick g (getrfIter T M N fuel k a P).2.1, (getrfIter T M N fuel k a P).2.2) := by
  induction fuel with
  | zero => intro k a P; rfl
  | succ fuel ih =>
    intro k a P
    unfold getrfIter
    by_cases hk : k + T < M
    · rw [if_pos ⟨hk, by omega⟩, if_pos ⟨hk, by omega⟩, getrfBlk_pick h hk hN hN']
      rcases getrfBlk T M N k a P with ⟨b, _ | p⟩
      · rfl
      · exact ih _ _ _
    · rw [if_neg (fun x => hk x.1), if_neg (fun x => hk x.1)]

theorem getrfLast_pick {M N N' : Nat} {g : Nat → Nat} (h : ColSel M N N' g) (hN : M ≤ N) (hN' : M ≤ N') (k : Nat) (a : Nat → Nat → V) (P : Nat → Nat) :
    getrfLast M N' k (pick g a) P = (pick g (getrfLast M N k a P).1, (getrfLast M N k a P).2) := by
  unfold getrfLast
  by_cases hk : k < M
  · rw [if_pos ⟨hk, by omega⟩, if_pos ⟨hk, by omega⟩]
    have hsub : (fun i j => pick g a (k + i) (k + j)) = pick (fun j => g (k + j) - k) (fun i j => a (k + i) (k + j)) := by
      funext i j
      show a (k + i) (g (k + j)) = a (k + i) (k + (g (k + j) - k))
      have : k ≤ g (k + j) := by have := h.keep.lt (j := k + j) (k := k) (by omega); omega
      congr 1; omega
    rw [hsub, show min (M - k) (N' - k) = M - k by omega, show min (M - k) (N - k) = M - k by omega, luFull_pick _ _ (h.keep.shift (k := k)),
      Nat.min_eq_left hN, Nat.min_eq_left hN']
    have c1 : ∀ j, (k ≤ j ∧ j < k + (N' - k)) ↔ (k ≤ g j ∧ g j < k + (N - k)) := fun j => by
      have h1 := h.lt j
      have h2 := h.keep.lt (j := j) (k := k) (by omega)
      omega
    have c3 : ∀ j, (0 ≤ j ∧ j < 0 + k) ↔ (0 ≤ g j ∧ g j < 0 + k) := fun j => by
      have h1 := h.keep.lt (j := j) (k := k) (by omega)
      omega
    rcases luFull Arith.div updCol (M - k) (fun i j => a (k + i) (k + j)) (fun i => P (k + i)) (M - k) with ⟨s, _ | p⟩
    all_goals
      dsimp only
      rw [paste_pick (f := s) c1 (fun i j h1 h2 => by
        show s i (g (k + (j - k)) - k) = s i (g j - k)
        rw [show k + (j - k) = j by omega])]
    rw [swapCols_pick _ c3]
  · rw [if_neg (fun x => hk x.1), if_neg (fun x => hk x.1)]
    have z : ∀ b : Nat → Nat → V, swapCols P k k 0 k b = b := fun b => by
      funext i j; unfold swapCols; rw [Nat.sub_self]; exact ite_self _
    rw [z, z]

theorem getrfFull_pick {T M N N' : Nat} {g : Nat → Nat} (h : ColSel M N N' g) (hN : M ≤ N) (hN' : M ≤ N') (a : Nat → Nat → V) (ip : Nat → Nat) :
    getrfFull T M N' (pick g a) ip = (pick g (getrfFull T M N a ip).1, (getrfFull T M N a ip).2) := by
  unfold getrfFull
  rw [getrfIter_pick h hN hN']
  rcases getrfIter T M N (M + 1) 0 a ip with ⟨k, b, _ | P⟩
  · rfl
  · exact getrfLast_pick h hN hN' k b P

/-- the recurrence of potrf does not depend on the rows below -/
theorem potHeight_lt {T M M' k r : Nat} (hM : M' ≤ M) (hr : r < M') : r < k + potHeight T M k ↔ r < k + potHeight T M' k := by
  unfold potHeight
  split <;> split <;> try split
  all_goals first | omega | (split <;> omega)

end Blast
