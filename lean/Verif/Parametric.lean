import Verif.Determined
import Verif.Props.NanProp
/-
Relations between two arithmetics that all operations respect, and the formulas of `Determined.lean`: related arguments, related values. Models no code; used by
Props/Parametric.lean (C99).
-/
set_option linter.unusedSectionVars false
namespace Blast
open Prog Reg
variable {V W : Type} [Arith V] [Arith W] {R : V → W → Prop}

/-- related operands give related results -/
structure OpRel (R : V → W → Prop) : Prop where
  zero : R Arith.zero Arith.zero
  one : R Arith.one Arith.one
  add : ∀ {a a' b b'}, R a a' → R b b' → R (Arith.add a b) (Arith.add a' b')
  sub : ∀ {a a' b b'}, R a a' → R b b' → R (Arith.sub a b) (Arith.sub a' b')
  mul : ∀ {a a' b b'}, R a a' → R b b' → R (Arith.mul a b) (Arith.mul a' b')
  div : ∀ {a a' b b'}, R a a' → R b b' → R (Arith.div a b) (Arith.div a' b')
  neg : ∀ {a a'}, R a a' → R (Arith.neg a) (Arith.neg a')
  sqrt : ∀ {a a'}, R a a' → R (Arith.sqrt a) (Arith.sqrt a')
  fma : ∀ {a a' b b' c c'}, R a a' → R b b' → R c c' → R (Arith.fma a b c) (Arith.fma a' b' c')
  fnma : ∀ {a a' b b' c c'}, R a a' → R b b' → R c c' → R (Arith.fnma a b c) (Arith.fnma a' b' c')

/-- related operands compare alike -/
structure CmpRel (R : V → W → Prop) : Prop where
  abs : ∀ {a a'}, R a a' → R (Arith.abs a) (Arith.abs a')
  gt : ∀ {a a' b b'}, R a a' → R b b' → Arith.gt a b = Arith.gt a' b'
  eq : ∀ {a a' b b'}, R a a' → R b b' → Arith.eq a b = Arith.eq a' b'

namespace OpRel

theorem fmaSum (o : OpRel R) {a b : Nat → V} {a' b' : Nat → W} {c : V} {c' : W} (hc : R c c') : (K : Nat) → (ha : ∀ k < K, R (a k) (a' k)) →
    (hb : ∀ k < K, R (b k) (b' k)) → R (Blast.fmaSum a b c K) (Blast.fmaSum a' b' c' K)
  | 0, _, _ => hc
  | K + 1, ha, hb => o.fma (ha K (by omega)) (hb K (by omega)) (fmaSum o hc K (fun k hk => ha k (by omega)) (fun k hk => hb k (by omega)))

theorem fnmaSum (o : OpRel R) {a b : Nat → V} {a' b' : Nat → W} {c : V} {c' : W} (hc : R c c') : (K : Nat) → (ha : ∀ k < K, R (a k) (a' k)) →
    (hb : ∀ k < K, R (b k) (b' k)) → R (Blast.fnmaSum a b c K) (Blast.fnmaSum a' b' c' K)
  | 0, _, _ => hc
  | K + 1, ha, hb => o.fnma (ha K (by omega)) (hb K (by omega)) (fnmaSum o hc K (fun k hk => ha k (by omega)) (fun k hk => hb k (by omega)))

theorem subFold (o : OpRel R) {f : Nat → V} {f' : Nat → W} {c : V} {c' : W} (hc : R c c') {lo : Nat} : (n : Nat) →
    (hf : ∀ k, lo ≤ k → k < lo + n → R (f k) (f' k)) → R (Blast.subFold f c lo n) (Blast.subFold f' c' lo n)
  | 0, _ => hc
  | n + 1, hf => o.sub (subFold o hc n (fun k h1 h2 => hf k h1 (by omega))) (hf (lo + n) (by omega) (by omega))

theorem gerEntry (o : OpRel R) {al x y a : V} {al' x' y' a' : W} (h1 : R al al') (h2 : R x x') (h3 : R y y') (h4 : R a a') :
    R (Blast.gerEntry al x y a) (Blast.gerEntry al' x' y' a') := o.fma (o.mul h1 h2) h3 (o.mul o.one h4)

theorem gemmEntry (o : OpRel R) {al be c : V} {al' be' c' : W} {x y : Nat → V} {x' y' : Nat → W} (h1 : R al al') (h2 : R be be') (h3 : R c c') (K : Nat)
    (hx : ∀ k < K, R (x k) (x' k)) (hy : ∀ k < K, R (y k) (y' k)) : R (Blast.gemmEntry al be x y c K) (Blast.gemmEntry al' be' x' y' c' K) :=
  o.fma h2 h3 (o.mul (o.fmaSum o.zero K hx hy) h1)

/-- the substitution recurrences -/
theorem trsmRec (o : OpRel R) {uplo : UpLo} {unit : Bool} {m : Nat} {a : Nat → Nat → V} {a' : Nat → Nat → W} {b x : Nat → V} {b' x' : Nat → W}
    (h : TrsmRec uplo unit m a b x) (h' : TrsmRec uplo unit m a' b' x') (ha : ∀ i k, i < m → k < m → TriRef uplo unit i k → R (a i k) (a' i k))
    (hb : ∀ i, i < m → R (b i) (b' i)) : ∀ i, i < m → R (x i) (x' i) := by
  have key : ∀ i, i < m → (∀ k, k < m → solveLo uplo i ≤ k → k < solveHi uplo m i → R (x k) (x' k)) → R (x i) (x' i) := by
    intro i hi ih
    have hs : R (Blast.subFold (fun k => Arith.mul (a i k) (x k)) (b i) (solveLo uplo i) (solveHi uplo m i - solveLo uplo i))
        (Blast.subFold (fun k => Arith.mul (a' i k) (x' k)) (b' i) (solveLo uplo i) (solveHi uplo m i - solveLo uplo i)) := by
      refine o.subFold (hb i hi) _ (fun k h1 h2 => ?_)
      have hk : k < solveHi uplo m i := by omega
      have hkm : k < m := by
        cases uplo with
        | lower => change k < i at hk; omega
        | upper => exact hk
      refine o.mul (ha i k hi hkm ?_) (ih k hkm h1 hk)
      cases uplo with
      | lower => exact Or.inr (Or.inl ⟨rfl, hk⟩)
      | upper => exact Or.inr (Or.inr ⟨rfl, h1⟩)
    rw [h i hi, h' i hi]
    dsimp only
    cases unit with
    | true => exact hs
    | false => exact o.div hs (ha i i hi hi (Or.inl ⟨rfl, rfl⟩))
  cases uplo with
  | lower =>
    intro i
    induction i using Nat.strongRecOn with
    | ind i ih => exact fun hi => key i hi (fun k hk _ h2 => ih k h2 hk)
  | upper =>
    intro i hi
    obtain ⟨t, ht⟩ : ∃ t, i + t + 1 = m := ⟨m - i - 1, by omega⟩
    induction t using Nat.strongRecOn generalizing i with
    | ind t ih => exact key i hi (fun k hk h1 _ => by
        change i + 1 ≤ k at h1
        exact ih (m - k - 1) (by omega) k hk (by omega))

theorem potS (o : OpRel R) {KN : Nat} {l : Nat → Nat → V} {l' : Nat → Nat → W} {acc : V} {acc' : W} {r c : Nat} (hacc : R acc acc')
    (hr : ∀ q, q < c → R (l r q) (l' r q)) (hc : ∀ q, q < c → R (l c q) (l' c q)) : R (Blast.potS KN l acc r c) (Blast.potS KN l' acc' r c) := by
  have h := Nat.div_add_mod c KN
  have h2 := Nat.mul_comm KN (c / KN)
  unfold Blast.potS
  refine o.fnmaSum ?_ _ (fun t ht => hc _ (by omega)) (fun t ht => hr _ (by omega))
  exact o.fmaSum hacc _ (fun q hq => o.mul (o.neg o.one) (hr q (by omega))) (fun q hq => hc q (by omega))

/-- the Cholesky recurrences -/
theorem potRec (o : OpRel R) {T KN M N : Nat} (hKN : 0 < KN) (hT : KN ≤ T) {l a : Nat → Nat → V} {l' a' : Nat → Nat → W} (hNM : N ≤ M) (ha : ∀ r c, c ≤ r → r < M → c < N → R (a r c) (a' r c))
    (h : ∀ r c, c ≤ r → r < M → c < N → PotRec T KN M l a r c) (h' : ∀ r c, c ≤ r → r < M → c < N → PotRec T KN M l' a' r c) :
    ∀ c r, c ≤ r → r < M → c < N → R (l r c) (l' r c) := by
  intro c
  induction c using Nat.strongRecOn with
  | ind c ih =>
    have hS : ∀ r, c ≤ r → r < M → c < N → R (Blast.potS KN l (a r c) r c) (Blast.potS KN l' (a' r c) r c) := fun r h1 h2 h3 =>
      o.potS (ha r c h1 h2 h3) (fun q hq => ih q hq r (by omega) h2 (by omega)) (fun q hq => ih q hq c (by omega) (by omega) (by omega))
    have hd : c < N → R (l c c) (l' c c) := by
      intro hcN
      have e := h c c (Nat.le_refl c) (by omega) hcN
      have e' := h' c c (Nat.le_refl c) (by omega) hcN
      unfold PotRec at e e'
      have g2 := Nat.div_add_mod c KN
      have g3 := Nat.mod_lt c hKN
      rw [Nat.mul_comm] at g2
      have g4 : T ≤ potHeight T M (c / KN * KN) := by unfold potHeight; split_ifs <;> omega
      rw [if_pos (by omega)] at e e'
      rw [e, e']
      exact o.div (hS c (Nat.le_refl c) (by omega) hcN) (o.sqrt (hS c (Nat.le_refl c) (by omega) hcN))
    intro r h1 h2 h3
    have e := h r c h1 h2 h3
    have e' := h' r c h1 h2 h3
    unfold PotRec at e e'
    rw [e, e']
    refine o.div (hS r h1 h2 h3) ?_
    split
    · exact o.sqrt (hS c (Nat.le_refl c) (by omega) h3)
    · exact hd h3

/-- the elements above the diagonal that panel potrf computes -/
theorem potAll (o : OpRel R) {SS KN M N : Nat} {up : Bool} (hKN : 0 < KN) (hT : KN ≤ SS) (hNM : N ≤ M) {a l : Nat → Nat → V} {a' l' : Nat → Nat → W}
    (ha : ∀ r c, R (a r c) (a' r c)) (h : PotAll SS KN M N up a l) (h' : PotAll SS KN M N up a' l') :
    (∀ r c, c ≤ r → r < M → c < N → R (l r c) (l' r c)) ∧ (up = true → ∀ r c, c / KN * KN ≤ r → r < c → c < N → R (l r c) (l' r c)) := by
  have hlow := o.potRec hKN hT hNM (fun r c _ _ _ => ha r c) h.1 h'.1
  refine ⟨fun r c => hlow c r, fun hu r c => ?_⟩
  induction c using Nat.strongRecOn with
  | ind c ih =>
    intro hr hrc hc
    have hrow : ∀ q, q < c → R (l r q) (l' r q) := by
      intro q hq
      by_cases hqr : q ≤ r
      · exact hlow q r hqr (by omega) (by omega)
      · refine ih q hq ?_ (by omega) (by omega)
        exact Nat.le_trans (Nat.mul_le_mul_right _ (Nat.div_le_div_right (by omega))) hr
    have hcol : ∀ q, q ≤ c → R (l c q) (l' c q) := fun q hq => hlow q c hq (by omega) (by omega)
    have e := h.2 hu r c hr hrc hc
    have e' := h'.2 hu r c hr hrc hc
    unfold PotUp at e e'
    rw [e, e']
    split
    · exact o.div (o.potS (ha r c) hrow (fun q hq => hcol q (by omega)))
        (o.sqrt (o.potS (ha c c) (fun q hq => hcol q (by omega)) (fun q hq => hcol q (by omega))))
    · exact o.zero

/-- the two kinds of tiles of left trmm -/
theorem leftVal (o : OpRel R) {SS M N : Nat} {alpha : V} {alpha' : W} {a b : Nat → Nat → V} {a' b' : Nat → Nat → W} {r c : Nat} {v : V} {v' : W}
    (hal : R alpha alpha') (ha : ∀ i j, R (a i j) (a' i j)) (hb : ∀ i j, R (b i j) (b' i j)) (h : LeftVal SS M N alpha a b r c v)
    (h' : LeftVal SS M N alpha' a' b' r c v') : R v v' := by
  obtain ⟨p, i, t, h1, h2, e⟩ := h
  obtain ⟨p', i', t', h1', h2', e'⟩ := h'
  obtain ⟨rfl, rfl⟩ := t.unique t' h1 h2 h1' h2'
  rw [e, e']
  split
  · unfold trmmLFullEntry
    refine o.fmaSum (o.fmaSum o.zero _ (fun t _ => o.mul hal ?_) (fun t _ => hb _ _)) _ (fun k _ => o.mul hal (ha _ _)) (fun k _ => hb _ _)
    split
    · exact ha _ _
    · exact o.zero
  · exact o.fmaSum o.zero _ (fun k _ => o.mul hal (ha _ _)) (fun k _ => hb _ _)

/-! ### LU -/

theorem elim (dv : V → V → V) (dv' : W → W → W) (upd : V → V → V → V) (upd' : W → W → W → W)
    (hdv : ∀ {x x' y y'}, R x x' → R y y' → R (dv x y) (dv' x' y'))
    (hupd : ∀ {x x' y y' z z'}, R x x' → R y y' → R z z' → R (upd x y z) (upd' x' y' z')) {k : Nat} {a : Nat → Nat → V} {a' : Nat → Nat → W}
    (ha : ∀ i j, R (a i j) (a' i j)) (i j : Nat) : R (Blast.elim dv upd k a i j) (Blast.elim dv' upd' k a' i j) := by
  unfold Blast.elim
  split
  · split
    · exact hdv (ha _ _) (ha _ _)
    · split
      · exact hupd (hdv (ha _ _) (ha _ _)) (ha _ _) (ha _ _)
      · exact ha _ _
  · exact ha _ _

theorem iamaxF (c : CmpRel R) {x : Nat → V} {x' : Nat → W} (h : ∀ i, R (x i) (x' i)) : (t : Nat) →
    R (Blast.iamaxF x t).1 (Blast.iamaxF x' t).1 ∧ (Blast.iamaxF x t).2 = (Blast.iamaxF x' t).2
  | 0 => ⟨c.abs (h 0), rfl⟩
  | t + 1 => by
    have ih := iamaxF c h t
    have e := c.gt (c.abs (h (t + 1))) ih.1
    unfold Blast.iamaxF
    rw [e]
    split
    · exact ⟨c.abs (h (t + 1)), rfl⟩
    · exact ih

theorem luFull (c : CmpRel R) (o : OpRel R) (dv : V → V → V) (dv' : W → W → W) (upd : V → V → V → V) (upd' : W → W → W → W)
    (hdv : ∀ {x x' y y'}, R x x' → R y y' → R (dv x y) (dv' x' y'))
    (hupd : ∀ {x x' y y' z z'}, R x x' → R y y' → R z z' → R (upd x y z) (upd' x' y' z')) {m : Nat} {a : Nat → Nat → V} {a' : Nat → Nat → W}
    (ha : ∀ i j, R (a i j) (a' i j)) (ip : Nat → Nat) : (K : Nat) →
    (Blast.luFull dv upd m a ip K).2 = (Blast.luFull dv' upd' m a' ip K).2 ∧
      ∀ i j, R ((Blast.luFull dv upd m a ip K).1 i j) ((Blast.luFull dv' upd' m a' ip K).1 i j)
  | 0 => ⟨rfl, ha⟩
  | K + 1 => by
    have ih := luFull c o dv dv' upd upd' hdv hupd (m := m) ha ip K
    unfold Blast.luFull
    revert ih
    rcases Blast.luFull dv upd m a ip K with ⟨b, p⟩
    rcases Blast.luFull dv' upd' m a' ip K with ⟨b', p'⟩
    rintro ⟨e, hb⟩
    change p = p' at e
    subst e
    rcases p with _ | p
    · exact ⟨rfl, hb⟩
    · have hp : pivotRow m b K = pivotRow m b' K := by
        unfold pivotRow
        rw [(iamaxF c (fun i => hb (K + i) K) (m - K - 1)).2]
      have hs : ∀ i j, R (swapRows K (pivotRow m b' K) b i j) (swapRows K (pivotRow m b' K) b' i j) := fun i j => hb _ _
      have hz := c.eq (hs K K) o.zero
      simp only [luStep, hp, hz]
      by_cases h0 : Arith.eq (swapRows K (pivotRow m b' K) b' K K) Arith.zero = true
      · simp only [h0, if_true]
        exact ⟨by trivial, hs⟩
      · simp only [h0, if_false]
        exact ⟨rfl, elim dv dv' upd upd' hdv hupd hs⟩

theorem elimRun (dv : V → V → V) (dv' : W → W → W) (o : OpRel R)
    (hdv : ∀ {x x' y y'}, R x x' → R y y' → R (dv x y) (dv' x' y')) {a : Nat → Nat → V} {a' : Nat → Nat → W}
    (ha : ∀ i j, R (a i j) (a' i j)) : (K : Nat) → ∀ i j, R (Blast.elimRun dv a K i j) (Blast.elimRun dv' a' K i j)
  | 0 => ha
  | K + 1 => elim dv dv' updSub updSub hdv (fun h1 h2 h3 => o.sub h3 (o.mul h1 h2)) (elimRun dv dv' o hdv ha K)

theorem paste {r0 c0 r c : Nat} {f a : Nat → Nat → V} {f' a' : Nat → Nat → W} (hf : ∀ i j, i < r → j < c → R (f i j) (f' i j)) (ha : ∀ i j, R (a i j) (a' i j))
    (i j : Nat) : R (Blast.paste r0 c0 r c f a i j) (Blast.paste r0 c0 r c f' a' i j) := by
  unfold Blast.paste
  split
  · exact hf _ _ (by omega) (by omega)
  · exact ha _ _

theorem rowSwaps {P : Nat → Nat} {k0 : Nat} {a : Nat → Nat → V} {a' : Nat → Nat → W} (ha : ∀ i j, R (a i j) (a' i j)) : (t : Nat) → ∀ i j,
    R (Blast.rowSwaps P k0 t a i j) (Blast.rowSwaps P k0 t a' i j)
  | 0 => ha
  | t + 1 => fun i j => rowSwaps ha t _ _

theorem swapCols {P : Nat → Nat} {k0 k1 c0 n : Nat} {a : Nat → Nat → V} {a' : Nat → Nat → W} (ha : ∀ i j, R (a i j) (a' i j)) (i j : Nat) :
    R (Blast.swapCols P k0 k1 c0 n a i j) (Blast.swapCols P k0 k1 c0 n a' i j) := by
  unfold Blast.swapCols
  split
  · exact rowSwaps ha _ _ _
  · exact ha _ _

theorem updCol (o : OpRel R) {x y z : V} {x' y' z' : W} (h1 : R x x') (h2 : R y y') (h3 : R z z') : R (Blast.updCol x y z) (Blast.updCol x' y' z') :=
  o.gerEntry (o.neg o.one) h1 h2 h3

theorem getrfBlk (c : CmpRel R) (o : OpRel R) {T M N k : Nat} {a : Nat → Nat → V} {a' : Nat → Nat → W} (ha : ∀ i j, R (a i j) (a' i j)) (P : Nat → Nat) :
    (Blast.getrfBlk T M N k a P).2 = (Blast.getrfBlk T M N k a' P).2 ∧ ∀ i j, R ((Blast.getrfBlk T M N k a P).1 i j) ((Blast.getrfBlk T M N k a' P).1 i j) := by
  have h := luFull c o Arith.div Arith.div Blast.updCol Blast.updCol o.div o.updCol (m := M - k) (a := fun i j => a (k + i) (k + j))
    (a' := fun i j => a' (k + i) (k + j)) (fun i j => ha _ _) (fun i => P (k + i)) T
  unfold Blast.getrfBlk
  revert h
  rcases Blast.luFull Arith.div Blast.updCol (M - k) (fun i j => a (k + i) (k + j)) (fun i => P (k + i)) T with ⟨s, p⟩
  rcases Blast.luFull Arith.div Blast.updCol (M - k) (fun i j => a' (k + i) (k + j)) (fun i => P (k + i)) T with ⟨s', p'⟩
  rintro ⟨e, hs⟩
  change p = p' at e
  subst e
  rcases p with _ | p
  · exact ⟨rfl, paste (fun i j _ _ => hs i j) ha⟩
  · refine ⟨rfl, ?_⟩
    have h3 : ∀ i j, R (Blast.swapCols (addRange (mergeAt P k p) k (k + T)) k (k + T) (k + T) (N - k - T)
        (Blast.swapCols (addRange (mergeAt P k p) k (k + T)) k (k + T) 0 k (Blast.paste k k (M - k) T s a)) i j)
        (Blast.swapCols (addRange (mergeAt P k p) k (k + T)) k (k + T) (k + T) (N - k - T)
        (Blast.swapCols (addRange (mergeAt P k p) k (k + T)) k (k + T) 0 k (Blast.paste k k (M - k) T s' a')) i j) :=
      swapCols (swapCols (paste (fun i j _ _ => hs i j) ha))
    dsimp only
    generalize Blast.swapCols _ k (k + T) (k + T) (N - k - T) (Blast.swapCols _ k (k + T) 0 k (Blast.paste k k (M - k) T s a)) = a3 at h3 ⊢
    generalize Blast.swapCols _ k (k + T) (k + T) (N - k - T) (Blast.swapCols _ k (k + T) 0 k (Blast.paste k k (M - k) T s' a')) = a3' at h3 ⊢
    have h4 := paste (r0 := k) (c0 := k + T) (r := T) (c := N - k - T)
      (f := fun i j => trsmSol .lower true T (fun i q => a3 (k + i) (k + q)) (fun i => a3 (k + i) (k + T + j)) i)
      (f' := fun i j => trsmSol .lower true T (fun i q => a3' (k + i) (k + q)) (fun i => a3' (k + i) (k + T + j)) i)
      (fun i j hi _ => o.trsmRec (trsmSol_rec _ _ _ _ _) (trsmSol_rec _ _ _ _ _) (fun i q _ _ _ => h3 _ _) (fun i _ => h3 _ _) i hi) h3
    exact paste (fun i j _ _ => o.gemmEntry (o.neg o.one) o.one (h4 _ _) T (fun q _ => h4 _ _) (fun q _ => h4 _ _)) h4

theorem getrfIter (c : CmpRel R) (o : OpRel R) {T M N : Nat} : (fuel k : Nat) → {a : Nat → Nat → V} → {a' : Nat → Nat → W} → (∀ i j, R (a i j) (a' i j)) → (P : Nat → Nat) →
    (Blast.getrfIter T M N fuel k a P).1 = (Blast.getrfIter T M N fuel k a' P).1 ∧
    (Blast.getrfIter T M N fuel k a P).2.2 = (Blast.getrfIter T M N fuel k a' P).2.2 ∧
      ∀ i j, R ((Blast.getrfIter T M N fuel k a P).2.1 i j) ((Blast.getrfIter T M N fuel k a' P).2.1 i j)
  | 0, _, _, _, ha, _ => ⟨rfl, rfl, ha⟩
  | fuel + 1, k, a, a', ha, P => by
    unfold Blast.getrfIter
    split
    · have h := getrfBlk c o (T := T) (M := M) (N := N) (k := k) ha P
      revert h
      rcases Blast.getrfBlk T M N k a P with ⟨s, p⟩
      rcases Blast.getrfBlk T M N k a' P with ⟨s', p'⟩
      rintro ⟨e, hs⟩
      change p = p' at e
      subst e
      rcases p with _ | p
      · exact ⟨rfl, rfl, hs⟩
      · exact getrfIter c o fuel (k + T) hs p
    · exact ⟨rfl, rfl, ha⟩

theorem getrfLast (c : CmpRel R) (o : OpRel R) {M N k : Nat} {a : Nat → Nat → V} {a' : Nat → Nat → W} (ha : ∀ i j, R (a i j) (a' i j)) (P : Nat → Nat) :
    (Blast.getrfLast M N k a P).2 = (Blast.getrfLast M N k a' P).2 ∧ ∀ i j, R ((Blast.getrfLast M N k a P).1 i j) ((Blast.getrfLast M N k a' P).1 i j) := by
  unfold Blast.getrfLast
  split
  · have h := luFull c o Arith.div Arith.div Blast.updCol Blast.updCol o.div o.updCol (m := M - k) (a := fun i j => a (k + i) (k + j))
      (a' := fun i j => a' (k + i) (k + j)) (fun i j => ha _ _) (fun i => P (k + i)) (min (M - k) (N - k))
    revert h
    rcases Blast.luFull Arith.div Blast.updCol (M - k) (fun i j => a (k + i) (k + j)) (fun i => P (k + i)) (min (M - k) (N - k)) with ⟨s, p⟩
    rcases Blast.luFull Arith.div Blast.updCol (M - k) (fun i j => a' (k + i) (k + j)) (fun i => P (k + i)) (min (M - k) (N - k)) with ⟨s', p'⟩
    rintro ⟨e, hs⟩
    change p = p' at e
    subst e
    rcases p with _ | p
    · exact ⟨rfl, paste (fun i j _ _ => hs i j) ha⟩
    · exact ⟨rfl, swapCols (paste (fun i j _ _ => hs i j) ha)⟩
  · exact ⟨rfl, swapCols ha⟩

theorem getrfFull (c : CmpRel R) (o : OpRel R) {T M N : Nat} {a : Nat → Nat → V} {a' : Nat → Nat → W} (ha : ∀ i j, R (a i j) (a' i j)) (P : Nat → Nat) :
    (Blast.getrfFull T M N a P).2 = (Blast.getrfFull T M N a' P).2 ∧ ∀ i j, R ((Blast.getrfFull T M N a P).1 i j) ((Blast.getrfFull T M N a' P).1 i j) := by
  have h := getrfIter c o (T := T) (M := M) (N := N) (M + 1) 0 ha P
  unfold Blast.getrfFull
  revert h
  rcases Blast.getrfIter T M N (M + 1) 0 a P with ⟨k, s, p⟩
  rcases Blast.getrfIter T M N (M + 1) 0 a' P with ⟨k', s', p'⟩
  rintro ⟨e1, e, hs⟩
  change k = k' at e1
  change p = p' at e
  subst e1 e
  rcases p with _ | p
  · exact ⟨rfl, hs⟩
  · exact getrfLast c o hs p

end OpRel
end Blast
