import Verif.Parametric
/-
LU factorization with two arithmetics and a relation that the operations respect, but the comparisons only for some numbers. What makes the comparisons of two runs
agree is that every number compared is one of those from which the elements of the result were computed. Models no code; used by Props/Parametric.lean (C99).
-/
set_option linter.unusedSectionVars false
namespace Blast
open Prog Reg
variable {V W : Type} [Arith V] [Arith W] {R : V → W → Prop} {G : V → Prop}

/-- the numbers from which a number in G was computed are in G (for the operands that are matrix elements being updated) -/
structure Backward (G : V → Prop) : Prop where
  div : ∀ {a b}, G (Arith.div a b) → G a
  add : ∀ {a b}, G (Arith.add a b) → G a
  sub : ∀ {a b}, G (Arith.sub a b) → G a
  mul : ∀ {a b}, G (Arith.mul a b) → G b
  fma : ∀ {a b c}, G (Arith.fma a b c) → G b ∧ G c

/-- related numbers compare alike if those of the first kind are in G -/
structure CmpWhere (R : V → W → Prop) (G : V → Prop) : Prop where
  abs : ∀ {a a'}, G a → R a a' → G (Arith.abs a) ∧ R (Arith.abs a) (Arith.abs a')
  gt : ∀ {a a' b b'}, G a → G b → R a a' → R b b' → Arith.gt a b = Arith.gt a' b'
  eq : ∀ {a a'}, G a → R a a' → Arith.eq a Arith.zero = Arith.eq a' Arith.zero

variable [bw : Fact (Backward G)] [w : Fact (CmpWhere R G)] [o : Fact (OpRel R)]

/-- pivot search -/
theorem where_iamaxF {x : Nat → V} {y : Nat → W} : (t : Nat) → (ho : ∀ i ≤ t, G (x i)) → (h : ∀ i ≤ t, R (x i) (y i)) →
    G (iamaxF x t).1 ∧ R (iamaxF x t).1 (iamaxF y t).1 ∧ (iamaxF x t).2 = (iamaxF y t).2
  | 0, ho, h => ⟨(w.out.abs (ho 0 (Nat.le_refl _)) (h 0 (Nat.le_refl _))).1, (w.out.abs (ho 0 (Nat.le_refl _)) (h 0 (Nat.le_refl _))).2, rfl⟩
  | t + 1, ho, h => by
    have ih := where_iamaxF t (fun i hi => ho i (by omega)) (fun i hi => h i (by omega))
    have ha := w.out.abs (ho (t + 1) (Nat.le_refl _)) (h (t + 1) (Nat.le_refl _))
    have e := w.out.gt ha.1 ih.1 ha.2 ih.2.1
    unfold iamaxF
    rw [e]
    split
    · exact ⟨ha.1, ha.2, rfl⟩
    · exact ih

/-- the elements of an M × N matrix are related -/
def RelIn (R : V → W → Prop) (M N : Nat) (a : Nat → Nat → V) (b : Nat → Nat → W) : Prop := ∀ i j, i < M → j < N → R (a i j) (b i j)
/-- the elements of an M × N matrix are in G -/
def GoodIn (G : V → Prop) (M N : Nat) (a : Nat → Nat → V) : Prop := ∀ i j, i < M → j < N → G (a i j)

theorem good_swapRows {M N p q : Nat} {a : Nat → Nat → V} (hp : p < M) (hq : q < M) (h : GoodIn G M N (swapRows p q a)) : GoodIn G M N a := fun i j hi hj => by
  have key : ∀ r, r < M → G (swapRows p q a r j) := fun r hr => h r j hr hj
  unfold swapRows at key
  by_cases h1 : i = p
  · subst h1
    have := key q hq
    beta_reduce at this
    by_cases h2 : q = i
    · rw [if_pos h2] at this; rwa [h2] at this
    · rwa [if_neg h2, if_pos rfl] at this
  · by_cases h2 : i = q
    · subst h2
      have := key p hp
      beta_reduce at this
      rwa [if_pos rfl] at this
    · have := key i hi
      beta_reduce at this
      rwa [if_neg h1, if_neg h2] at this

theorem rel_swapRows {M N p q : Nat} {a : Nat → Nat → V} {b : Nat → Nat → W} (hp : p < M) (hq : q < M) (h : RelIn R M N a b) :
    RelIn R M N (swapRows p q a) (swapRows p q b) := fun i j hi hj => by
  unfold swapRows
  exact h _ j (by split; exact hq; split; exact hp; exact hi) hj

theorem good_elimG {M N k : Nat} {dv : V → V → V} {upd : V → V → V → V} (b1 : ∀ {x y}, G (dv x y) → G x) (b2 : ∀ {l u x}, G (upd l u x) → G x) {a : Nat → Nat → V} (h : GoodIn G M N (elim dv upd k a)) : GoodIn G M N a := fun i j hi hj => by
  have := h i j hi hj
  unfold elim at this
  by_cases h1 : k < i
  · rw [if_pos h1] at this
    by_cases h2 : j = k
    · rw [if_pos h2] at this
      rw [h2]
      exact b1 this
    · rw [if_neg h2] at this
      by_cases h3 : k < j
      · rw [if_pos h3] at this
        exact b2 this
      · rwa [if_neg h3] at this
  · rwa [if_neg h1] at this

theorem rel_elimG {M N k : Nat} {dv : V → V → V} {dv' : W → W → W} {upd : V → V → V → V} {upd' : W → W → W → W} (r1 : ∀ {x x' y y'}, R x x' → R y y' → R (dv x y) (dv' x' y'))
    (r2 : ∀ {l l' u u' x x'}, R l l' → R u u' → R x x' → R (upd l u x) (upd' l' u' x')) {a : Nat → Nat → V} {b : Nat → Nat → W} (hN : k < N) (h : RelIn R M N a b) :
    RelIn R M N (elim dv upd k a) (elim dv' upd' k b) := fun i j hi hj => by
  unfold elim
  split
  · split
    · exact r1 (h i k hi hN) (h k k (by omega) hN)
    · split
      · exact r2 (r1 (h i k hi hN) (h k k (by omega) hN)) (h k j (by omega) hj) (h i j hi hj)
      · exact h i j hi hj
  · exact h i j hi hj

/-- unblocked factorization -/
theorem where_luFullG {M N : Nat} {dv : V → V → V} {dv' : W → W → W} {upd : V → V → V → V} {upd' : W → W → W → W} (b1 : ∀ {x y}, G (dv x y) → G x)
    (b2 : ∀ {l u x}, G (upd l u x) → G x) (r1 : ∀ {x x' y y'}, R x x' → R y y' → R (dv x y) (dv' x' y'))
    (r2 : ∀ {l l' u u' x x'}, R l l' → R u u' → R x x' → R (upd l u x) (upd' l' u' x')) {a : Nat → Nat → V} {b : Nat → Nat → W} (ip : Nat → Nat) (ha : RelIn R M N a b) : (K : Nat) → (hM : K ≤ M) →
    (hN : K ≤ N) → (ho : GoodIn G M N (luFull dv upd M a ip K).1) →
    GoodIn G M N a ∧ (luFull dv upd M a ip K).2 = (luFull dv' upd' M b ip K).2 ∧
      RelIn R M N (luFull dv upd M a ip K).1 (luFull dv' upd' M b ip K).1
  | 0, _, _, ho => ⟨ho, rfl, ha⟩
  | K + 1, hM, hN, ho => by
    have ih := where_luFullG b1 b2 r1 r2 ip ha K (by omega) (by omega)
    unfold luFull at ho ⊢
    revert ho ih
    rcases luFull dv upd M a ip K with ⟨c, p⟩
    rcases luFull dv' upd' M b ip K with ⟨d, p'⟩
    intro ih ho
    rcases p with _ | p
    · obtain ⟨h1, h2, h3⟩ := ih ho
      change none = p' at h2
      subst h2
      exact ⟨h1, rfl, h3⟩
    · have hpl := pivotRow_lt c (k := K) (m := M) (by omega)
      have hc : GoodIn G M N c := by
        simp only [luStep] at ho
        by_cases h0 : Arith.eq (swapRows K (pivotRow M c K) c K K) Arith.zero = true
        · simp only [h0, if_true] at ho
          exact good_swapRows (by omega) hpl.2 ho
        · simp only [h0, if_false] at ho
          exact good_swapRows (by omega) hpl.2 (good_elimG (dv := dv) (upd := upd) b1 b2 ho)
      obtain ⟨h1, h2, h3⟩ := ih hc
      change some p = p' at h2
      subst h2
      have hp : pivotRow M c K = pivotRow M d K := by
        unfold pivotRow
        rw [(where_iamaxF (G := G) (R := R) (M - K - 1) (fun i hi => hc (K + i) K (by omega) (by omega)) (fun i hi => h3 (K + i) K (by omega) (by omega))).2.2]
      have hs : RelIn R M N (swapRows K (pivotRow M d K) c) (swapRows K (pivotRow M d K) d) := rel_swapRows (by omega) (hp ▸ hpl.2) h3
      have hok : G (swapRows K (pivotRow M d K) c K K) := hc _ K (by split; exact hp ▸ hpl.2; split <;> omega) (by omega)
      have hz : Arith.eq (swapRows K (pivotRow M d K) c K K) Arith.zero = Arith.eq (swapRows K (pivotRow M d K) d K K) Arith.zero :=
        w.out.eq hok (hs K K (by omega) (by omega))
      refine ⟨h1, ?_⟩
      simp only [luStep, hp, hz]
      by_cases h0 : Arith.eq (swapRows K (pivotRow M d K) d K K) Arith.zero = true
      · simp only [h0, if_true]
        exact ⟨by trivial, hs⟩
      · simp only [h0, if_false]
        exact ⟨rfl, rel_elimG (dv := dv) (upd := upd) (dv' := dv') (upd' := upd') r1 r2 (by omega) hs⟩

theorem good_elim {M N k : Nat} {a : Nat → Nat → V} (h : GoodIn G M N (elim Arith.div updCol k a)) : GoodIn G M N a :=
  good_elimG bw.out.div (fun h => bw.out.mul (bw.out.fma h).2) h

theorem where_luFull {M N : Nat} {a : Nat → Nat → V} {b : Nat → Nat → W} (ha : RelIn R M N a b) (ip : Nat → Nat) (K : Nat) (hM : K ≤ M)
    (hN : K ≤ N) (ho : GoodIn G M N (luFull Arith.div updCol M a ip K).1) :
    GoodIn G M N a ∧ (luFull Arith.div updCol M a ip K).2 = (luFull Arith.div updCol M b ip K).2 ∧
      RelIn R M N (luFull Arith.div updCol M a ip K).1 (luFull Arith.div updCol M b ip K).1 :=
  where_luFullG bw.out.div (fun h => bw.out.mul (bw.out.fma h).2) o.out.div o.out.updCol ip ha K hM hN ho

/-! ### The blocked factorization -/

theorem good_luFull {M N : Nat} {a : Nat → Nat → V} (ip : Nat → Nat) : (K : Nat) → (hM : K ≤ M) → (ho : GoodIn G M N (luFull Arith.div updCol M a ip K).1) → GoodIn G M N a
  | 0, _, ho => ho
  | K + 1, hM, ho => by
    have ih := good_luFull (M := M) (N := N) (a := a) ip K (by omega)
    unfold luFull at ho
    revert ho ih
    rcases luFull Arith.div updCol M a ip K with ⟨c, p⟩
    intro ih ho
    rcases p with _ | p
    · exact ih ho
    · have hpl := pivotRow_lt c (k := K) (m := M) (by omega)
      refine ih ?_
      simp only [luStep] at ho
      by_cases h0 : Arith.eq (swapRows K (pivotRow M c K) c K K) Arith.zero = true
      · simp only [h0, if_true] at ho
        exact good_swapRows (by omega) hpl.2 ho
      · simp only [h0, if_false] at ho
        exact good_swapRows (by omega) hpl.2 (good_elim ho)

/-- the pivots are row indices -/
theorem luFull_piv {V : Type} [Arith V] {dv : V → V → V} {upd : V → V → V → V} {M : Nat} {a : Nat → Nat → V} {ip : Nat → Nat} : (K : Nat) → (hM : K ≤ M) → {c : Nat → Nat → V} →
    {p : Nat → Nat} → luFull dv upd M a ip K = (c, some p) → ∀ q < K, p q < M
  | 0, _, _, _, _ => fun q hq => absurd hq (Nat.not_lt_zero q)
  | K + 1, hM, c, p, h => by
    have ih := fun c p => luFull_piv (dv := dv) (upd := upd) (M := M) (a := a) (ip := ip) K (by omega) (c := c) (p := p)
    unfold luFull at h
    revert h ih
    rcases luFull dv upd M a ip K with ⟨d, _ | r⟩
    · intro _ h
      cases h
    · intro ih h
      have hpl := pivotRow_lt d (k := K) (m := M) (by omega)
      simp only [luStep] at h
      by_cases h0 : Arith.eq (swapRows K (pivotRow M d K) d K K) Arith.zero = true
      · simp only [h0, if_true] at h
        cases h
      · simp only [h0, if_false] at h
        cases h
        intro q hq
        unfold setAt
        split
        · exact hpl.2
        · exact ih _ _ rfl q (by omega)

theorem good_rowSwaps {P : Nat → Nat} {k0 M N : Nat} {a : Nat → Nat → V} {j : Nat} : (t : Nat) → (hP : ∀ q < t, k0 + q < M ∧ P (k0 + q) < M) →
    (h : ∀ i < M, G (rowSwaps P k0 t a i j)) → ∀ i < M, G (a i j)
  | 0, _, h => h
  | t + 1, hP, h => good_rowSwaps (N := N) t (fun q hq => hP q (by omega)) (fun i hi => by
      have hb := swapIdx_bounds (k := 0) ⟨Nat.zero_le _, (hP t (by omega)).1⟩ ⟨Nat.zero_le _, (hP t (by omega)).2⟩ ⟨Nat.zero_le i, hi⟩
      have := h _ hb.2
      unfold rowSwaps at this
      rwa [swapIdx_invol] at this)

theorem rel_rowSwaps {P : Nat → Nat} {k0 M N : Nat} {a : Nat → Nat → V} {b : Nat → Nat → W} (h : RelIn R M N a b) : (t : Nat) →
    (hP : ∀ q < t, k0 + q < M ∧ P (k0 + q) < M) → RelIn R M N (rowSwaps P k0 t a) (rowSwaps P k0 t b)
  | 0, _ => h
  | t + 1, hP => fun i j hi hj => by
      have hb := swapIdx_bounds (k := 0) ⟨Nat.zero_le _, (hP t (by omega)).1⟩ ⟨Nat.zero_le _, (hP t (by omega)).2⟩ ⟨Nat.zero_le i, hi⟩
      exact rel_rowSwaps h t (fun q hq => hP q (by omega)) _ j hb.2 hj

theorem good_swapCols {P : Nat → Nat} {k0 k1 c0 n M N : Nat} {a : Nat → Nat → V} (hP : ∀ q, k0 ≤ q → q < k1 → q < M ∧ P q < M)
    (h : GoodIn G M N (swapCols P k0 k1 c0 n a)) : GoodIn G M N a := fun i j hi hj => by
  have h1 := fun i hi => h i j hi hj
  unfold swapCols at h1
  by_cases hc : c0 ≤ j ∧ j < c0 + n
  · refine good_rowSwaps (N := N) (P := P) (k0 := k0) (k1 - k0) (fun q hq => hP _ (by omega) (by omega)) (fun r hr => ?_) i hi
    have := h1 r hr
    rwa [if_pos hc] at this
  · have := h1 i hi
    rwa [if_neg hc] at this

theorem rel_swapCols {P : Nat → Nat} {k0 k1 c0 n M N : Nat} {a : Nat → Nat → V} {b : Nat → Nat → W} (hP : ∀ q, k0 ≤ q → q < k1 → q < M ∧ P q < M)
    (h : RelIn R M N a b) : RelIn R M N (swapCols P k0 k1 c0 n a) (swapCols P k0 k1 c0 n b) := fun i j hi hj => by
  unfold swapCols
  split
  · exact rel_rowSwaps h (k1 - k0) (fun q hq => hP _ (by omega) (by omega)) i j hi hj
  · exact h i j hi hj

theorem good_paste {r0 c0 r c M N : Nat} {f a : Nat → Nat → V} (hr : r0 + r ≤ M) (hc : c0 + c ≤ N) (hf : GoodIn G r c f → GoodIn G r c (fun i j => a (r0 + i) (c0 + j)))
    (h : GoodIn G M N (paste r0 c0 r c f a)) : GoodIn G M N a := fun i j hi hj => by
  unfold paste at h
  by_cases hin : r0 ≤ i ∧ i < r0 + r ∧ c0 ≤ j ∧ j < c0 + c
  · have := hf (fun x y hx hy => by
      have := h (r0 + x) (c0 + y) (by omega) (by omega)
      beta_reduce at this
      rwa [if_pos (by omega), Nat.add_sub_cancel_left, Nat.add_sub_cancel_left] at this) (i - r0) (j - c0) (by omega) (by omega)
    beta_reduce at this
    rwa [show r0 + (i - r0) = i by omega, show c0 + (j - c0) = j by omega] at this
  · have := h i j hi hj
    beta_reduce at this
    rwa [if_neg hin] at this

theorem good_pasted {r0 c0 r c M N : Nat} {f a : Nat → Nat → V} (hr : r0 + r ≤ M) (hc : c0 + c ≤ N) (h : GoodIn G M N (paste r0 c0 r c f a)) : GoodIn G r c f := fun x y hx hy => by
  have := h (r0 + x) (c0 + y) (by omega) (by omega)
  unfold paste at this
  rwa [if_pos (by omega), Nat.add_sub_cancel_left, Nat.add_sub_cancel_left] at this

theorem rel_paste {r0 c0 r c M N : Nat} {f a : Nat → Nat → V} {f' a' : Nat → Nat → W} (hf : RelIn R r c f f') (h : RelIn R M N a a') :
    RelIn R M N (paste r0 c0 r c f a) (paste r0 c0 r c f' a') := fun i j hi hj => by
  unfold paste
  split
  · exact hf _ _ (by omega) (by omega)
  · exact h i j hi hj

theorem good_subFold {f : Nat → V} {c : V} {lo : Nat} : (n : Nat) → G (subFold f c lo n) → G c
  | 0, h => h
  | n + 1, h => good_subFold n (bw.out.sub h)

theorem good_trsmSol {m i : Nat} {a : Nat → Nat → V} {b : Nat → V} (hi : i < m) (h : G (trsmSol .lower true m a b i)) : G (b i) := by
  rw [trsmSol_rec .lower true m a b i hi] at h
  exact good_subFold _ h

/-- the trailing part of a block step -/
theorem good_trail {T M N k : Nat} {a3 : Nat → Nat → V} (hM : k + T < M) (hN : k + T < N) {a4 : Nat → Nat → V}
    (e : a4 = paste k (k + T) T (N - k - T) (fun i j => trsmSol .lower true T (fun i q => a3 (k + i) (k + q)) (fun i => a3 (k + i) (k + T + j)) i) a3)
    (h : GoodIn G M N (paste (k + T) (k + T) (M - k - T) (N - k - T) (fun i j => gemmEntry (Arith.neg Arith.one) Arith.one (fun q => a4 (k + T + i) (k + q))
      (fun q => a4 (k + q) (k + T + j)) (a4 (k + T + i) (k + T + j)) T) a4)) : GoodIn G M N a3 := by
  have h4 : GoodIn G M N a4 := good_paste (r0 := k + T) (c0 := k + T) (r := M - k - T) (c := N - k - T) (by omega) (by omega)
    (fun hf i j hi hj => by have h5 := hf i j hi hj; exact (bw.out.fma h5).1) h
  rw [e] at h4
  exact good_paste (r0 := k) (c0 := k + T) (r := T) (c := N - k - T) (by omega) (by omega) (fun hf i j hi hj => good_trsmSol (a := fun i q => a3 (k + i) (k + q)) (b := fun i => a3 (k + i) (k + T + j)) hi (hf i j hi hj)) h4

theorem rel_trail {T M N k : Nat} {a3 : Nat → Nat → V} {b3 : Nat → Nat → W} (hM : k + T < M) (hN : k + T < N)
    {a4 : Nat → Nat → V} {b4 : Nat → Nat → W}
    (e : a4 = paste k (k + T) T (N - k - T) (fun i j => trsmSol .lower true T (fun i q => a3 (k + i) (k + q)) (fun i => a3 (k + i) (k + T + j)) i) a3)
    (e' : b4 = paste k (k + T) T (N - k - T) (fun i j => trsmSol .lower true T (fun i q => b3 (k + i) (k + q)) (fun i => b3 (k + i) (k + T + j)) i) b3)
    (h : RelIn R M N a3 b3) :
    RelIn R M N (paste (k + T) (k + T) (M - k - T) (N - k - T) (fun i j => gemmEntry (Arith.neg Arith.one) Arith.one (fun q => a4 (k + T + i) (k + q))
      (fun q => a4 (k + q) (k + T + j)) (a4 (k + T + i) (k + T + j)) T) a4)
      (paste (k + T) (k + T) (M - k - T) (N - k - T) (fun i j => gemmEntry (Arith.neg Arith.one) Arith.one (fun q => b4 (k + T + i) (k + q))
      (fun q => b4 (k + q) (k + T + j)) (b4 (k + T + i) (k + T + j)) T) b4) := by
  have h4 : RelIn R M N a4 b4 := by
    rw [e, e']
    exact rel_paste (fun i j hi hj => o.out.trsmRec (trsmSol_rec _ _ _ _ _) (trsmSol_rec _ _ _ _ _)
      (fun i q h1 h2 _ => h _ _ (by omega) (by omega)) (fun i h1 => h _ _ (by omega) (by omega)) i hi) h
  exact rel_paste (fun i j hi hj => o.out.gemmEntry (o.out.neg o.out.one) o.out.one (h4 _ _ (by omega) (by omega)) T
    (fun q hq => h4 _ _ (by omega) (by omega)) (fun q hq => h4 _ _ (by omega) (by omega))) h4

theorem good_getrfBlk {T M N k : Nat} {a : Nat → Nat → V} (hM : k + T < M) (hN : k + T < N) (P : Nat → Nat) (ho : GoodIn G M N (getrfBlk T M N k a P).1) : GoodIn G M N a := by
  have back := good_luFull (G := G) (M := M - k) (N := T) (a := fun i j => a (k + i) (k + j)) (fun i => P (k + i)) T (by omega)
  have piv := fun c p => luFull_piv (dv := Arith.div) (upd := updCol) (M := M - k) (a := fun i j => a (k + i) (k + j)) (ip := fun i => P (k + i)) T (by omega) (c := c) (p := p)
  unfold getrfBlk at ho
  revert back piv ho
  rcases luFull Arith.div updCol (M - k) (fun i j => a (k + i) (k + j)) (fun i => P (k + i)) T with ⟨s, _ | p⟩
  · intro ho back piv
    exact good_paste (r0 := k) (c0 := k) (r := M - k) (c := T) (by omega) (by omega) back ho
  · intro ho back piv
    have hP : ∀ q, k ≤ q → q < k + T → q < M ∧ addRange (mergeAt P k p) k (k + T) q < M := fun q h1 h2 => by
      have := piv s p rfl (q - k) (by omega)
      unfold addRange mergeAt
      rw [if_pos ⟨h1, h2⟩, if_neg (by omega)]
      omega
    have h3 := good_trail hM hN rfl ho
    exact good_paste (r0 := k) (c0 := k) (r := M - k) (c := T) (by omega) (by omega) back (good_swapCols hP (good_swapCols hP h3))

theorem where_getrfBlk {T M N k : Nat} {a : Nat → Nat → V} {b : Nat → Nat → W} (hM : k + T < M) (hN : k + T < N) (ha : RelIn R M N a b) (P : Nat → Nat)
    (ho : GoodIn G M N (getrfBlk T M N k a P).1) :
    (getrfBlk T M N k a P).2 = (getrfBlk T M N k b P).2 ∧ RelIn R M N (getrfBlk T M N k a P).1 (getrfBlk T M N k b P).1 := by
  have key := where_luFull (G := G) (M := M - k) (N := T) (a := fun i j => a (k + i) (k + j)) (b := fun i j => b (k + i) (k + j))
    (fun i j hi hj => ha _ _ (by omega) (by omega)) (fun i => P (k + i)) T (by omega) (Nat.le_refl _)
  have piv := fun c p => luFull_piv (dv := Arith.div) (upd := updCol) (M := M - k) (a := fun i j => a (k + i) (k + j)) (ip := fun i => P (k + i)) T (by omega) (c := c) (p := p)
  unfold getrfBlk at ho ⊢
  revert key ho piv
  rcases luFull Arith.div updCol (M - k) (fun i j => a (k + i) (k + j)) (fun i => P (k + i)) T with ⟨s, p⟩
  rcases luFull Arith.div updCol (M - k) (fun i j => b (k + i) (k + j)) (fun i => P (k + i)) T with ⟨s', p'⟩
  intro ho key piv
  rcases p with _ | p
  · obtain ⟨-, h2, h3⟩ := key (good_pasted (r0 := k) (c0 := k) (r := M - k) (c := T) (by omega) (by omega) ho)
    change none = p' at h2
    subst h2
    exact ⟨rfl, rel_paste h3 ha⟩
  · have hP : ∀ q, k ≤ q → q < k + T → q < M ∧ addRange (mergeAt P k p) k (k + T) q < M := fun q h1 h2 => by
      have := piv s p rfl (q - k) (by omega)
      unfold addRange mergeAt
      rw [if_pos ⟨h1, h2⟩, if_neg (by omega)]
      omega
    have h3 := good_trail hM hN rfl ho
    obtain ⟨-, h2, h4⟩ := key (good_pasted (r0 := k) (c0 := k) (r := M - k) (c := T) (by omega) (by omega) (good_swapCols hP (good_swapCols hP h3)))
    change some p = p' at h2
    subst h2
    exact ⟨rfl, rel_trail hM hN rfl rfl (rel_swapCols hP (rel_swapCols hP (rel_paste h4 ha)))⟩

theorem good_getrfIter {T M N : Nat} : (fuel k : Nat) → {a : Nat → Nat → V} → (P : Nat → Nat) → (ho : GoodIn G M N (getrfIter T M N fuel k a P).2.1) → GoodIn G M N a
  | 0, _, _, _, ho => ho
  | fuel + 1, k, a, P, ho => by
    unfold getrfIter at ho
    by_cases hk : k + T < M ∧ k + T < N
    · rw [if_pos hk] at ho
      have hb := good_getrfBlk (G := G) hk.1 hk.2 P (a := a)
      revert ho hb
      rcases getrfBlk T M N k a P with ⟨s, _ | p⟩
      · intro ho hb
        exact hb ho
      · intro ho hb
        exact hb (good_getrfIter fuel (k + T) p ho)
    · rwa [if_neg hk] at ho

theorem where_getrfIter {T M N : Nat} : (fuel k : Nat) → {a : Nat → Nat → V} → {b : Nat → Nat → W} → (ha : RelIn R M N a b) → (P : Nat → Nat) →
    (ho : GoodIn G M N (getrfIter T M N fuel k a P).2.1) →
    (getrfIter T M N fuel k a P).1 = (getrfIter T M N fuel k b P).1 ∧ (getrfIter T M N fuel k a P).2.2 = (getrfIter T M N fuel k b P).2.2 ∧
      RelIn R M N (getrfIter T M N fuel k a P).2.1 (getrfIter T M N fuel k b P).2.1
  | 0, _, _, _, ha, _, _ => ⟨rfl, rfl, ha⟩
  | fuel + 1, k, a, b, ha, P, ho => by
    unfold getrfIter at ho ⊢
    by_cases hk : k + T < M ∧ k + T < N
    · rw [if_pos hk] at ho
      rw [if_pos hk, if_pos hk]
      have hb := where_getrfBlk (G := G) hk.1 hk.2 ha P
      revert ho hb
      rcases getrfBlk T M N k a P with ⟨s, p⟩
      rcases getrfBlk T M N k b P with ⟨s', p'⟩
      intro ho hb
      rcases p with _ | p
      · obtain ⟨h2, h3⟩ := hb ho
        change none = p' at h2
        subst h2
        exact ⟨rfl, rfl, h3⟩
      · obtain ⟨h2, h3⟩ := hb (good_getrfIter fuel (k + T) p ho)
        change some p = p' at h2
        subst h2
        exact where_getrfIter fuel (k + T) h3 p ho
    · rw [if_neg hk, if_neg hk]
      exact ⟨rfl, rfl, ha⟩

theorem last_range {M N k : Nat} {p P : Nat → Nat} (h : ∀ q < min (M - k) (N - k), p q < M - k) (hk : k < M ∧ k < N) :
    ∀ q, k ≤ q → q < min M N → q < M ∧ addRange (mergeAt P k p) k (min M N) q < M := fun q h1 h2 => by
  have := h (q - k) (by omega)
  unfold addRange mergeAt
  rw [if_pos ⟨h1, h2⟩, if_neg (by omega)]
  omega

theorem good_getrfLast {M N k : Nat} {a : Nat → Nat → V} (P : Nat → Nat) (ho : GoodIn G M N (getrfLast M N k a P).1) : GoodIn G M N a := by
  unfold getrfLast at ho
  by_cases hk : k < M ∧ k < N
  · rw [if_pos hk] at ho
    have back := good_luFull (G := G) (M := M - k) (N := N - k) (a := fun i j => a (k + i) (k + j)) (fun i => P (k + i)) (min (M - k) (N - k)) (Nat.min_le_left _ _)
    have piv := fun c p => luFull_piv (dv := Arith.div) (upd := updCol) (M := M - k) (a := fun i j => a (k + i) (k + j)) (ip := fun i => P (k + i)) (min (M - k) (N - k))
      (Nat.min_le_left _ _) (c := c) (p := p)
    revert back piv ho
    rcases luFull Arith.div updCol (M - k) (fun i j => a (k + i) (k + j)) (fun i => P (k + i)) (min (M - k) (N - k)) with ⟨s, _ | p⟩
    · intro ho back piv
      exact good_paste (r0 := k) (c0 := k) (r := M - k) (c := N - k) (by omega) (by omega) back ho
    · intro ho back piv
      exact good_paste (r0 := k) (c0 := k) (r := M - k) (c := N - k) (by omega) (by omega) back (good_swapCols (last_range (piv s p rfl) hk) ho)
  · rw [if_neg hk] at ho
    exact good_swapCols (fun q h1 h2 => absurd h2 (by omega)) ho

theorem where_getrfLast {M N k : Nat} {a : Nat → Nat → V} {b : Nat → Nat → W} (ha : RelIn R M N a b) (P : Nat → Nat)
    (ho : GoodIn G M N (getrfLast M N k a P).1) :
    (getrfLast M N k a P).2 = (getrfLast M N k b P).2 ∧ RelIn R M N (getrfLast M N k a P).1 (getrfLast M N k b P).1 := by
  unfold getrfLast at ho ⊢
  by_cases hk : k < M ∧ k < N
  · rw [if_pos hk] at ho
    rw [if_pos hk, if_pos hk]
    have key := where_luFull (G := G) (M := M - k) (N := N - k) (a := fun i j => a (k + i) (k + j)) (b := fun i j => b (k + i) (k + j))
      (fun i j hi hj => ha _ _ (by omega) (by omega)) (fun i => P (k + i)) (min (M - k) (N - k)) (Nat.min_le_left _ _) (Nat.min_le_right _ _)
    have piv := fun c p => luFull_piv (dv := Arith.div) (upd := updCol) (M := M - k) (a := fun i j => a (k + i) (k + j)) (ip := fun i => P (k + i)) (min (M - k) (N - k))
      (Nat.min_le_left _ _) (c := c) (p := p)
    revert key piv ho
    rcases luFull Arith.div updCol (M - k) (fun i j => a (k + i) (k + j)) (fun i => P (k + i)) (min (M - k) (N - k)) with ⟨s, p⟩
    rcases luFull Arith.div updCol (M - k) (fun i j => b (k + i) (k + j)) (fun i => P (k + i)) (min (M - k) (N - k)) with ⟨s', p'⟩
    intro ho key piv
    rcases p with _ | p
    · obtain ⟨-, h2, h3⟩ := key (good_pasted (r0 := k) (c0 := k) (r := M - k) (c := N - k) (by omega) (by omega) ho)
      change none = p' at h2
      subst h2
      exact ⟨rfl, rel_paste h3 ha⟩
    · have hP := last_range (P := P) (piv s p rfl) hk
      obtain ⟨-, h2, h3⟩ := key (good_pasted (r0 := k) (c0 := k) (r := M - k) (c := N - k) (by omega) (by omega) (good_swapCols hP ho))
      change some p = p' at h2
      subst h2
      exact ⟨rfl, rel_swapCols hP (rel_paste h3 ha)⟩
  · rw [if_neg hk, if_neg hk]
    exact ⟨rfl, rel_swapCols (fun q h1 h2 => absurd h2 (by omega)) ha⟩

theorem where_getrfFull {T M N : Nat} {a : Nat → Nat → V} {b : Nat → Nat → W} (ha : RelIn R M N a b) (P : Nat → Nat)
    (ho : GoodIn G M N (getrfFull T M N a P).1) :
    (getrfFull T M N a P).2 = (getrfFull T M N b P).2 ∧ RelIn R M N (getrfFull T M N a P).1 (getrfFull T M N b P).1 := by
  have h := where_getrfIter (G := G) (T := T) (M + 1) 0 ha P
  unfold getrfFull at ho ⊢
  revert h ho
  rcases getrfIter T M N (M + 1) 0 a P with ⟨k, s, p⟩
  rcases getrfIter T M N (M + 1) 0 b P with ⟨k', s', p'⟩
  intro ho h
  rcases p with _ | p
  · obtain ⟨e1, e2, e3⟩ := h ho
    change k = k' at e1
    change none = p' at e2
    subst e1; subst e2
    exact ⟨rfl, e3⟩
  · obtain ⟨e1, e2, e3⟩ := h (good_getrfLast p ho)
    change k = k' at e1
    change some p = p' at e2
    subst e1; subst e2
    exact where_getrfLast e3 p ho

end Blast
