import Verif.Gemm
/-
The blocking scheme shared by dense ger, syrk (and others): columns in strips of TILE_SIZE, rows in blocks of
3, 2, 1 tiles followed by a remainder.
-/
set_option linter.unusedSectionVars false
namespace Blast
open Prog
variable {V : Type} [Arith V]

/-- The three row loops followed by the remainder, written out in dense/Ger.hpp:56-91, 103-134 (start 0) and
dense/Syrk.hpp:41-88, 96-140 (start j):
`for (; i+3T <= M && i+4T != M; i += 3T) …; for (; i+2T <= M; i += 2T) …; for (; i+T <= M; i += T) …; if (i < M) …` -/
def rowTiles (T M i0 : Nat) (body : Nat → Nat → Prog V Unit) (tail : Nat → Prog V Unit) : Prog V Unit := do
  let i ← loop (M + 1) (fun i => i + 3 * T ≤ M && i + 4 * T != M) (3 * T) (body 3) i0
  let i ← loop (M + 1) (fun i => i + 2 * T ≤ M) (2 * T) (body 2) i
  let i ← loop (M + 1) (fun i => i + 1 * T ≤ M) (1 * T) (body 1) i
  onlyIf (i < M) (tail i)

/-- The column loop followed by the remainder: dense/Ger.hpp:51-134, dense/Syrk.hpp:36-144:
`for (; j+T <= N; j += T) …; if (j < N) …` -/
def colTiles (T N : Nat) (body tail : Nat → Prog V Unit) : Prog V Unit := do
  let j ← loop (N + 1) (fun j => j + T ≤ N) T body 0
  onlyIf (j < N) (tail j)

theorem runs_rowTiles {T M i0 : Nat} (hT : 0 < T) (hi0 : i0 ≤ M) (h0T : i0 % T = 0)
    {body : Nat → Nat → Prog V Unit} {tail : Nat → Prog V Unit} {m : Mem V} (I : Nat → Mem V → Prop) (h0 : I i0 m)
    (hbody : ∀ rm i m, 1 ≤ rm → i0 ≤ i → i % T = 0 → i + rm * T ≤ M → I i m →
      Runs (body rm i) m (fun _ => I (i + rm * T)))
    (htail : ∀ i m, i0 ≤ i → i % T = 0 → i < M → M < i + T → I i m → Runs (tail i) m (fun _ => I M)) :
    Runs (rowTiles T M i0 body tail) m (fun _ => I M) := by
  unfold rowTiles
  let J : Nat → Mem V → Prop := fun i m => i0 ≤ i ∧ i ≤ M ∧ i % T = 0 ∧ I i m
  have step : ∀ (rm : Nat) (c : Nat → Bool), 1 ≤ rm → (∀ i, c i = true → i + rm * T ≤ M) →
      ∀ i m, J i m → Runs (loop (M + 1) c (rm * T) (body rm) i) m (fun i' m' => c i' = false ∧ J i' m') := by
    intro rm c hrm hc i m hJ
    have hpos : T ≤ rm * T := Nat.le_mul_of_pos_left T hrm
    refine runs_loop (I := J) M (by omega) (fun i hi => by have := hc i hi; omega) (by omega) (by omega) hJ ?_
    rintro i m hci ⟨h1, h2, h3, h4⟩
    have hle := hc i hci
    refine (hbody rm i m hrm h1 h3 hle h4).mono (fun _ m' h5 => ⟨by omega, hle, ?_, h5⟩)
    rw [Nat.add_mul_mod_self_right]; exact h3
  refine Runs.bind (step 3 _ (by omega) (fun i hi => by simp at hi; exact hi.1) i0 m ⟨Nat.le_refl _, hi0, h0T, h0⟩) ?_
  rintro i1 m1 ⟨_, hJ1⟩
  refine Runs.bind (step 2 _ (by omega) (fun i hi => by simpa using hi) i1 m1 hJ1) ?_
  rintro i2 m2 ⟨_, hJ2⟩
  refine Runs.bind (step 1 _ (by omega) (fun i hi => by simpa using hi) i2 m2 hJ2) ?_
  rintro i3 m3 ⟨hc, h1, h2, h3, h4⟩
  unfold onlyIf
  by_cases hlt : i3 < M
  · rw [if_pos (by simpa using hlt)]
    exact htail i3 m3 h1 h3 hlt (by simp at hc; omega) h4
  · rw [if_neg (by simpa using hlt)]
    have : i3 = M := by omega
    subst this
    exact runs_pure h4

theorem runs_colTiles {T N : Nat} (hT : 0 < T) {body tail : Nat → Prog V Unit} {m : Mem V}
    (I : Nat → Mem V → Prop) (h0 : I 0 m)
    (hbody : ∀ j m, j % T = 0 → j + T ≤ N → I j m → Runs (body j) m (fun _ => I (j + T)))
    (htail : ∀ j m, j % T = 0 → j < N → N < j + T → I j m → Runs (tail j) m (fun _ => I N)) :
    Runs (colTiles T N body tail) m (fun _ => I N) := by
  unfold colTiles
  refine Runs.bind (runs_loop (I := fun j m => j ≤ N ∧ j % T = 0 ∧ I j m) N hT
    (fun i hi => by simp at hi; omega) (by omega) (by omega) ⟨by omega, Nat.zero_mod T, h0⟩ ?_) ?_
  · rintro j m hc ⟨h1, h2, h3⟩
    have hc : j + T ≤ N := by simpa using hc
    refine (hbody j m h2 hc h3).mono (fun _ m' h4 => ⟨hc, ?_, h4⟩)
    rw [Nat.add_mod_right]; exact h2
  · rintro j m ⟨hc, h1, h2, h3⟩
    unfold onlyIf
    by_cases hlt : j < N
    · rw [if_pos (by simpa using hlt)]
      exact htail j m h2 hlt (by simp at hc; omega) h3
    · rw [if_neg (by simpa using hlt)]
      have : j = N := by omega
      subst this
      exact runs_pure h3

/-- Started in a memory `m'` that differs from `m` only in elements of `D` in columns left of, or in the column strip of
and above, the `mm × nn` tile at `(i,j)`, `p` writes exactly the elements of the tile satisfying `R`, with the values `g`. -/
def WritesTile (SS M N : Nat) (D : MPtr) (R : Nat → Nat → Prop) (m : Mem V) (g : Int → V) (p : Prog V Unit)
    (i j mm nn : Nat) : Prop :=
  ∀ (S : Int → Prop) (m' : Mem V), WritesSet m m' S g →
    (∀ x, S x → ∃ a b : Nat, a < M ∧ b < N ∧ R a b ∧ (b < j ∨ b < j + nn ∧ a < i) ∧ x = D.addr SS a b) →
    Runs p m' (fun _ m'' => WritesSet m' m'' (fun x => ∃ a b : Nat, (i ≤ a ∧ a < i + mm ∧ j ≤ b ∧ b < j + nn) ∧
      R a b ∧ x = D.addr SS a b) g)

theorem runs_tiles {SS T M N : Nat} (hT : 0 < T) {D : MPtr} {R : Nat → Nat → Prop} {m : Mem V} {g : Int → V}
    (start : Nat → Nat) (hst : ∀ j, j % T = 0 → j < N → start j ≤ M ∧ start j % T = 0)
    (hR : ∀ j a b, j % T = 0 → j ≤ b → R a b → start j ≤ a)
    {bodyC bodyR : Nat → Nat → Nat → Prog V Unit} {tailC tailR : Nat → Nat → Prog V Unit}
    (hbC : ∀ rm i j, 1 ≤ rm → start j ≤ i → i % T = 0 → j % T = 0 → i + rm * T ≤ M → j + T ≤ N →
      WritesTile SS M N D R m g (bodyC j rm i) i j (rm * T) T)
    (htC : ∀ i j, start j ≤ i → i % T = 0 → j % T = 0 → i < M → M < i + T → j + T ≤ N →
      WritesTile SS M N D R m g (tailC j i) i j (M - i) T)
    (hbR : ∀ rm i j, 1 ≤ rm → start j ≤ i → i % T = 0 → j % T = 0 → i + rm * T ≤ M → j < N → N < j + T →
      WritesTile SS M N D R m g (bodyR j rm i) i j (rm * T) (N - j))
    (htR : ∀ i j, start j ≤ i → i % T = 0 → j % T = 0 → i < M → M < i + T → j < N → N < j + T →
      WritesTile SS M N D R m g (tailR j i) i j (M - i) (N - j)) :
    Runs (colTiles T N (fun j => rowTiles T M (start j) (bodyC j) (tailC j))
      (fun j => rowTiles T M (start j) (bodyR j) (tailR j))) m
      (fun _ m' => WritesSet m m' (fun x => ∃ a b : Nat, a < M ∧ b < N ∧ R a b ∧ x = D.addr SS a b) g) := by
  have row : ∀ (j w : Nat) (body : Nat → Nat → Prog V Unit) (tail : Nat → Prog V Unit), j % T = 0 → j < N → j + w ≤ N →
      (∀ rm i, 1 ≤ rm → start j ≤ i → i % T = 0 → i + rm * T ≤ M →
        WritesTile SS M N D R m g (body rm i) i j (rm * T) w) →
      (∀ i, start j ≤ i → i % T = 0 → i < M → M < i + T → WritesTile SS M N D R m g (tail i) i j (M - i) w) →
      ∀ m1, WritesSet m m1 (fun x => ∃ a b : Nat, a < M ∧ b < j ∧ R a b ∧ x = D.addr SS a b) g →
      Runs (rowTiles T M (start j) body tail) m1 (fun _ m2 =>
        WritesSet m m2 (fun x => ∃ a b : Nat, a < M ∧ b < j + w ∧ R a b ∧ x = D.addr SS a b) g) := by
    intro j w body tail hj hjN hw hb ht m1 hw1
    obtain ⟨hs1, hs2⟩ := hst j hj hjN
    let Z : Nat → Int → Prop := fun i x => ∃ a b : Nat, a < M ∧ (b < j ∨ b < j + w ∧ a < i) ∧ R a b ∧ x = D.addr SS a b
    have leaf : ∀ (p : Prog V Unit) (i mm : Nat), start j ≤ i → i + mm ≤ M →
        WritesTile SS M N D R m g p i j mm w → ∀ m2, WritesSet m m2 (Z i) g →
        Runs p m2 (fun _ m3 => WritesSet m m3 (Z (i + mm)) g) := by
      intro p i mm hsi him hp m2 hw2
      refine (hp (Z i) m2 hw2 ?_).mono ?_
      · rintro x ⟨a, b, ha, hb', hr, rfl⟩
        exact ⟨a, b, ha, by omega, hr, hb', rfl⟩
      · intro _ m3 hw3
        refine (hw2.trans hw3).congr (fun x => ?_)
        constructor
        · rintro (⟨a, b, ha, hb', hr, rfl⟩ | ⟨a, b, h1, hr, rfl⟩)
          · exact ⟨a, b, ha, by omega, hr, rfl⟩
          · exact ⟨a, b, by omega, by omega, hr, rfl⟩
        · rintro ⟨a, b, ha, hb', hr, rfl⟩
          by_cases hbj : b < j
          · exact Or.inl ⟨a, b, ha, by omega, hr, rfl⟩
          · by_cases hai : a < i
            · exact Or.inl ⟨a, b, ha, by omega, hr, rfl⟩
            · exact Or.inr ⟨a, b, by omega, hr, rfl⟩
    refine (runs_rowTiles hT hs1 hs2 (I := fun i m2 => WritesSet m m2 (Z i) g) ?_ ?_ ?_).mono ?_
    · refine hw1.congr (fun x => ?_)
      constructor
      · rintro ⟨a, b, ha, hb', hr, rfl⟩; exact ⟨a, b, ha, Or.inl hb', hr, rfl⟩
      · rintro ⟨a, b, ha, hb', hr, rfl⟩
        refine ⟨a, b, ha, ?_, hr, rfl⟩
        by_cases hbj : b < j
        · exact hbj
        · have := hR j a b hj (by omega) hr
          omega
    · intro rm i m2 hrm hi1 hi2 hi3 hw2
      exact leaf _ i (rm * T) hi1 hi3 (hb rm i hrm hi1 hi2 hi3) m2 hw2
    · intro i m2 hi1 hi2 hi3 hi4 hw2
      have := leaf _ i (M - i) hi1 (by omega) (ht i hi1 hi2 hi3 hi4) m2 hw2
      rw [show i + (M - i) = M by omega] at this
      exact this
    · intro _ m2 hw2
      refine hw2.congr (fun x => ?_)
      constructor
      · rintro ⟨a, b, ha, hb', hr, rfl⟩; exact ⟨a, b, ha, by omega, hr, rfl⟩
      · rintro ⟨a, b, ha, hb', hr, rfl⟩; exact ⟨a, b, ha, by omega, hr, rfl⟩
  refine runs_colTiles hT (I := fun j m1 => WritesSet m m1 (fun x => ∃ a b : Nat, a < M ∧ b < j ∧ R a b ∧
      x = D.addr SS a b) g) ?_ ?_ ?_
  · refine (WritesSet.refl m g).congr (fun x => ?_)
    constructor
    · intro h; exact h.elim
    · rintro ⟨a, b, _, hb, _⟩; omega
  · intro j m1 hj hjN hw1
    exact row j T _ _ hj (by omega) hjN (fun rm i h1 h2 h3 h4 => hbC rm i j h1 h2 h3 hj h4 hjN)
      (fun i h1 h2 h3 h4 => htC i j h1 h2 hj h3 h4 hjN) m1 hw1
  · intro j m1 hj hjN hN hw1
    have := row j (N - j) _ _ hj hjN (by omega) (fun rm i h1 h2 h3 h4 => hbR rm i j h1 h2 h3 hj h4 hjN hN)
      (fun i h1 h2 h3 h4 => htR i j h1 h2 hj h3 h4 hjN hN) m1 hw1
    rw [show j + (N - j) = N by omega] at this
    exact this

end Blast
