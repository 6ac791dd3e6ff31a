import Verif.Props.BlasfeoApi
import Mathlib.Algebra.BigOperators.Intervals
import Mathlib.Data.Real.Basic
/-
C84: a library that keeps the contract exists (it reads everything, then stores), and the theorems apply to concrete blocks.
-/
namespace Blast
namespace BlasfeoApi
open Prog Finset Classical
section lib
variable {V : Type} [Field V] [LinearOrder V] [IsStrictOrderedRing V]

/-- read the elements of a matrix block, from element (i, j) -/
noncomputable def val (mem : Mem V) (A : CMat) (i j : Int) (p q : Nat) : V := (mem (A.addr (i + p) (j + q))).getD 0

/-- store `f p q`, p < m, q < n, p, q in W, from element (i, j) on -/
noncomputable def put (W : Nat → Nat → Prop) (m n : Int) (D : CMat) (i j : Int) (f : Nat → Nat → V) (mem : Mem V) : Mem V := fun x =>
  if h : ∃ pq : Nat × Nat, (pq.1 : Int) < m ∧ (pq.2 : Int) < n ∧ W pq.1 pq.2 ∧ x = D.addr (i + pq.1) (j + pq.2) then some (f (choose h).1 (choose h).2) else mem x

noncomputable def vput (m : Int) (cell : Nat → Int) (f : Nat → V) (mem : Mem V) : Mem V := fun x =>
  if h : ∃ p : Nat, (p : Int) < m ∧ x = cell p then some (f (choose h)) else mem x

/-- the Cholesky factor, if there is one -/
noncomputable def chol (m : Int) (c : Nat → Nat → V) : Nat → Nat → V := Classical.epsilon (fun l => IsCholesky m.toNat m.toNat l c)

/-- a library that reads all operands, then stores the result -/
noncomputable def ideal : Lib V where
  gemm_nn m n k alpha A ai aj B bi bj beta C ci cj D di dj := fun mem => .ok () (put all m n D di dj
    (fun p q => beta * val mem C ci cj p q + alpha * ∑ t ∈ range k.toNat, val mem A ai aj p t * val mem B bi bj t q) mem)
  gemm_nt m n k alpha A ai aj B bi bj beta C ci cj D di dj := fun mem => .ok () (put all m n D di dj
    (fun p q => beta * val mem C ci cj p q + alpha * ∑ t ∈ range k.toNat, val mem A ai aj p t * val mem B bi bj q t) mem)
  gemm_tn m n k alpha A ai aj B bi bj beta C ci cj D di dj := fun mem => .ok () (put all m n D di dj
    (fun p q => beta * val mem C ci cj p q + alpha * ∑ t ∈ range k.toNat, val mem A ai aj t p * val mem B bi bj t q) mem)
  trmm_rlnn m n alpha A ai aj B bi bj D di dj := fun mem => .ok () (put all m n D di dj
    (fun p q => alpha * ∑ t ∈ range n.toNat, val mem B bi bj p t * if q ≤ t then val mem A ai aj t q else 0) mem)
  trmm_rutn m n alpha A ai aj B bi bj D di dj := fun mem => .ok () (put all m n D di dj
    (fun p q => alpha * ∑ t ∈ range n.toNat, val mem B bi bj p t * if q ≤ t then val mem A ai aj q t else 0) mem)
  syrk_ln m k alpha A ai aj B bi bj beta C ci cj D di dj := fun mem => .ok () (put lower m m D di dj
    (fun p q => beta * val mem C ci cj p q + alpha * ∑ t ∈ range k.toNat, val mem A ai aj p t * val mem B bi bj q t) mem)
  syrk_potrf_ln m k A ai aj B bi bj C ci cj D di dj := fun mem => .ok () (put lower m m D di dj
    (chol m (fun p q => val mem C ci cj p q + ∑ t ∈ range k.toNat, val mem A ai aj p t * val mem B bi bj q t)) mem)
  potrf_l m C ci cj D di dj := fun mem => .ok () (put lower m m D di dj (chol m (fun p q => val mem C ci cj p q)) mem)
  pack_vec m x y yi := fun mem => .ok () (vput m (fun p => y.addr (yi + p)) (fun p => (mem (x + p)).getD 0) mem)
  unpack_vec m x xi y := fun mem => .ok () (vput m (fun p => y + p) (fun p => (mem (x.addr (xi + p))).getD 0) mem)
  vecse m alpha x xi := fun mem => .ok () (vput m (fun p => x.addr (xi + p)) (fun _ => alpha) mem)
  vecsc m alpha x xi := fun mem => .ok () (vput m (fun p => x.addr (xi + p)) (fun p => alpha * (mem (x.addr (xi + p))).getD 0) mem)

theorem val_of {W : Nat → Nat → Prop} {mem : Mem V} {A : Block} {a : Nat → Nat → V} (h : A.Has W mem a) {p q : Nat} (hp : p < A.r) (hq : q < A.c) (hw : W p q) :
    val mem A.M A.i A.j p q = a p q := by
  have := h p q hp hq hw
  unfold Block.cell at this
  simp only [val, this, Option.getD_some]

theorem stores_put {W : Nat → Nat → Prop} (mem : Mem V) (D : Block) (hD : D.Distinct) (f g : Nat → Nat → V) (hfg : ∀ p q, p < D.r → q < D.c → W p q → f p q = g p q) :
    Stores W (fun mem => .ok () (put W D.r D.c D.M D.i D.j f mem)) mem D g := by
  refine ⟨_, rfl, fun p q hp hq hw => ?_, fun x hx => ?_⟩
  · have hex : ∃ pq : Nat × Nat, (pq.1 : Int) < D.r ∧ (pq.2 : Int) < D.c ∧ W pq.1 pq.2 ∧ D.cell p q = D.M.addr (D.i + pq.1) (D.j + pq.2) :=
      ⟨(p, q), by simpa using hp, by simpa using hq, hw, rfl⟩
    obtain ⟨h1, h2, h3, h4⟩ := choose_spec hex
    obtain ⟨e1, e2⟩ := hD p q _ _ hp hq (by exact_mod_cast h1) (by exact_mod_cast h2) h4
    unfold put
    rw [dif_pos hex]
    rw [← e1, ← e2, hfg p q hp hq hw]
  · unfold put
    rw [dif_neg]
    rintro ⟨pq, h1, h2, _, h4⟩
    exact hx pq.1 pq.2 (by exact_mod_cast h1) (by exact_mod_cast h2) h4

theorem stores_vput (mem : Mem V) (n : Nat) (cell : Nat → Int) (hD : ∀ p p', p < n → p' < n → cell p = cell p' → p = p') (f g : Nat → V) (hfg : ∀ p, p < n → f p = g p) :
    VStores (fun mem => .ok () (vput n cell f mem)) mem n cell g := by
  refine ⟨_, rfl, fun p hp => ?_, fun x hx => ?_⟩
  · have hex : ∃ p' : Nat, (p' : Int) < n ∧ cell p = cell p' := ⟨p, by exact_mod_cast hp, rfl⟩
    obtain ⟨h1, h4⟩ := choose_spec hex
    have e1 := hD p _ hp (by exact_mod_cast h1) h4
    unfold vput
    rw [dif_pos hex, ← e1, hfg p hp]
  · unfold vput
    rw [dif_neg]
    rintro ⟨p, h1, h4⟩
    exact hx p (by exact_mod_cast h1) h4

theorem chol_eq {n : Nat} {c c' l : Nat → Nat → V} (hc : ∀ p q, q ≤ p → p < n → c' p q = c p q) (h : IsCholesky n n l c) {p q : Nat} (hqp : q ≤ p) (hp : p < n) :
    chol (n : Int) c' p q = l p q := by
  have h' : IsCholesky n n l c' := ⟨h.1, fun i j hij hi hj => by rw [hc i j hij hi]; exact h.2 i j hij hi hj⟩
  have := Classical.epsilon_spec (p := fun l => IsCholesky n n l c') ⟨l, h'⟩
  exact IsCholesky.unique (Nat.le_refl n) this h' q (by omega) p hqp hp

theorem ideal_correct : (ideal : Lib V).Correct where
  gemm_nn mem A B C D alpha beta a b c hA hB hC hD hAD hBD hCD e1 e2 e3 e4 e5 ha hb hc := by
    refine stores_put mem D hD.2.2 _ _ fun p q hp hq _ => ?_
    rw [val_of hc (by omega) (by omega) trivial]
    refine congrArg (fun z => _ + alpha * z) (sum_congr rfl fun t ht => ?_)
    have ht : t < A.c := by simpa using ht
    rw [val_of ha (by omega) ht trivial, val_of hb (by omega) (by omega) trivial]
  gemm_nt mem A B C D alpha beta a b c hA hB hC hD hAD hBD hCD e1 e2 e3 e4 e5 ha hb hc := by
    refine stores_put mem D hD.2.2 _ _ fun p q hp hq _ => ?_
    rw [val_of hc (by omega) (by omega) trivial]
    refine congrArg (fun z => _ + alpha * z) (sum_congr rfl fun t ht => ?_)
    have ht : t < A.c := by simpa using ht
    rw [val_of ha (by omega) ht trivial, val_of hb (by omega) (by omega) trivial]
  gemm_tn mem A B C D alpha beta a b c hA hB hC hD hAD hBD hCD e1 e2 e3 e4 e5 ha hb hc := by
    refine stores_put mem D hD.2.2 _ _ fun p q hp hq _ => ?_
    rw [val_of hc (by omega) (by omega) trivial]
    refine congrArg (fun z => _ + alpha * z) (sum_congr rfl fun t ht => ?_)
    have ht : t < A.r := by simpa using ht
    rw [val_of ha ht (by omega) trivial, val_of hb (by omega) (by omega) trivial]
  trmm_rlnn mem A B D alpha a b hA hB hD hAD hBD e1 e2 e3 e4 ha hb := by
    refine stores_put mem D hD.2.2 _ _ fun p q hp hq _ => ?_
    refine congrArg (fun z => alpha * z) (sum_congr rfl fun t ht => ?_)
    have ht : t < D.c := by simpa using ht
    rw [val_of hb (by omega) (by omega) trivial]
    by_cases h : q ≤ t
    · rw [if_pos h, if_pos h, val_of ha (by omega) (by omega) h]
    · rw [if_neg h, if_neg h]
  trmm_rutn mem A B D alpha a b hA hB hD hAD hBD e1 e2 e3 e4 ha hb := by
    refine stores_put mem D hD.2.2 _ _ fun p q hp hq _ => ?_
    refine congrArg (fun z => alpha * z) (sum_congr rfl fun t ht => ?_)
    have ht : t < D.c := by simpa using ht
    rw [val_of hb (by omega) (by omega) trivial]
    by_cases h : q ≤ t
    · rw [if_pos h, if_pos h, val_of ha (by omega) (by omega) h]
    · rw [if_neg h, if_neg h]
  syrk_ln mem A B C D alpha beta a b c hA hB hC hD hAD hBD hCD e1 e2 e3 e4 e5 e6 ha hb hc := by
    have := stores_put (W := lower) mem D hD.2.2 (fun p q => beta * val mem C.M C.i C.j p q + alpha * ∑ t ∈ range A.c, val mem A.M A.i A.j p t * val mem B.M B.i B.j q t)
      (fun p q => beta * c p q + alpha * ∑ k ∈ range A.c, a p k * b q k) fun p q hp hq hw => by
        rw [val_of hc (by omega) (by omega) hw]
        refine congrArg (fun z => _ + alpha * z) (sum_congr rfl fun t ht => ?_)
        have ht : t < A.c := by simpa using ht
        rw [val_of ha (by omega) ht trivial, val_of hb (by omega) (by omega) trivial]
    rw [e2] at this
    exact this
  syrk_potrf_ln mem A B C D a b c l hA hB hC hD hAD hBD hCD e1 e2 e3 e4 e5 e6 ha hb hc hl := by
    have := stores_put (W := lower) mem D hD.2.2
      (chol D.r (fun p q => val mem C.M C.i C.j p q + ∑ t ∈ range A.c, val mem A.M A.i A.j p t * val mem B.M B.i B.j q t)) l fun p q hp hq hw => by
        refine chol_eq (fun p q hqp hp => ?_) hl hw hp
        rw [val_of hc (by omega) (by omega) hqp]
        refine congrArg (fun z => _ + z) (sum_congr rfl fun t ht => ?_)
        have ht : t < A.c := by simpa using ht
        rw [val_of ha (by omega) ht trivial, val_of hb (by omega) (by omega) trivial]
    rw [e2] at this
    exact this
  potrf_l mem C D c l hC hD hCD e1 e2 e3 hc hl := by
    have := stores_put (W := lower) mem D hD.2.2 (chol D.r (fun p q => val mem C.M C.i C.j p q)) l fun p q hp hq hw =>
      chol_eq (fun p q hqp hp => val_of hc (by omega) (by omega) hqp) hl hw hp
    rw [e1] at this
    exact this
  pack_vec mem x y f hy h1 h2 h3 h4 := stores_vput mem y.n y.cell h2 _ _ fun p hp => by rw [h4 p hp]; rfl
  unpack_vec mem x y f hx h1 h2 h3 := stores_vput mem x.n (fun p => y + p) (fun p p' _ _ e => by simpa using e) _ _ fun p hp => by
    have := h3 p hp
    unfold VBlock.cell at this
    rw [this]; rfl
  vecse mem alpha x hx h1 h2 := stores_vput mem x.n x.cell h2 _ _ fun _ _ => rfl
  vecsc mem alpha x f hx h1 h2 := stores_vput mem x.n x.cell h1 _ _ fun p hp => by
    have := h2 p hp
    unfold VBlock.cell at this
    rw [this]; rfl

end lib

/-! ### Concrete blocks -/

/-- a 6-by-6 column-major matrix at `base` -/
def cm (base : Int) : CMat := ⟨6, 6, fun i j => base + i + 6 * j⟩

/-- the element (i, j) of the matrix number q (36 cells each) is `f q i j` -/
def grid (f : Nat → Nat → Nat → ℝ) : Mem ℝ := fun x =>
  if 0 ≤ x ∧ x < 144 then some (f (x / 36).toNat (x % 36 % 6).toNat (x % 36 / 6).toNat) else none

theorem grid_at (f : Nat → Nat → Nat → ℝ) {q i j : Nat} (hq : q < 4) (hi : i < 6) (hj : j < 6) : grid f (36 * q + i + 6 * j : Int) = some (f q i j) := by
  unfold grid
  rw [if_pos ⟨by omega, by omega⟩]
  rw [show (36 * (q : Int) + i + 6 * j) / 36 = q by omega, show (36 * (q : Int) + i + 6 * j) % 36 % 6 = i by omega, show (36 * (q : Int) + i + 6 * j) % 36 / 6 = j by omega]
  simp

/-- the r-by-c block from element (i, j) of the matrix number q -/
def blk (q i j r c : Nat) : Block := ⟨cm (36 * q : Nat), i, j, r, c⟩

section
variable {q i j r c : Nat}
theorem blk_cell (p s : Nat) : (blk q i j r c).cell p s = (36 * q + (i + p : Nat) + 6 * (j + s : Nat) : Int) := by
  simp only [Block.cell, blk, cm]; omega
theorem blk_inside (hi : i + r ≤ 6) (hj : j + c ≤ 6) : (blk q i j r c).Inside := ⟨by simp [blk, cm]; omega, by simp [blk, cm]; omega, by simp [blk, cm], by simp [blk, cm]⟩
theorem blk_has (W : Nat → Nat → Prop) (f : Nat → Nat → Nat → ℝ) (hq : q < 4) (hi : i + r ≤ 6) (hj : j + c ≤ 6) :
    (blk q i j r c).Has W (grid f) (fun p s => f q (i + p) (j + s)) := fun p s hp hs _ => by
  rw [blk_cell]
  have hp : p < r := hp
  have hs : s < c := hs
  exact grid_at f hq (by omega) (by omega)
theorem blk_target (f : Nat → Nat → Nat → ℝ) (hq : q < 4) (hi : i + r ≤ 6) (hj : j + c ≤ 6) : (blk q i j r c).Target (grid f) := by
  refine ⟨blk_inside hi hj, fun p s hp hs => ?_, fun p s p' s' hp hs hp' hs' e => ?_⟩
  · rw [blk_has all f hq hi hj p s hp hs trivial]; exact fun e => nomatch e
  · rw [blk_cell, blk_cell] at e
    have hp : p < r := hp
    have hs : s < c := hs
    have hp' : p' < r := hp'
    have hs' : s' < c := hs'
    omega
theorem blk_apart {q' i' j' r' c' : Nat} (hqq : q ≠ q') (hi : i + r ≤ 6) (hj : j + c ≤ 6) (hi' : i' + r' ≤ 6) (hj' : j' + c' ≤ 6) :
    (blk q i j r c).Apart (blk q' i' j' r' c') := fun p s p' s' hp hs hp' hs' e => by
  rw [blk_cell, blk_cell] at e
  have hp : p < r := hp
  have hs : s < c := hs
  have hp' : p' < r' := hp'
  have hs' : s' < c' := hs'
  omega
end

/-- element (i, j) of the matrix number q -/
def rv (q i j : Nat) : ℝ := 3 * i + j + 10 * q

/-- D = 2 C + 3 A B, 3-by-2, A the block at (1, 2) of the first matrix, C and D the same block -/
example : Stores all (BlasfeoApi.gemm_nn ideal 3 2 4 3 (cm 0) 1 2 (cm 36) 0 1 2 (cm 72) 1 1 (cm 72) 1 1) (grid rv) (blk 2 1 1 3 2)
    (fun p q => 2 * rv 2 (1 + p) (1 + q) + 3 * ∑ k ∈ range 4, rv 0 (1 + p) (2 + k) * rv 1 (0 + k) (1 + q)) :=
  C84_gemm_nn ideal ideal_correct (grid rv) (blk 0 1 2 3 4) (blk 1 0 1 4 2) (blk 2 1 1 3 2) (blk 2 1 1 3 2) 3 2 _ _ _ (blk_inside (by decide) (by decide))
    (blk_inside (by decide) (by decide)) (blk_inside (by decide) (by decide)) (blk_target rv (by decide) (by decide) (by decide))
    (blk_apart (by decide) (by decide) (by decide) (by decide) (by decide)) (blk_apart (by decide) (by decide) (by decide) (by decide) (by decide)) (Or.inl rfl) rfl rfl rfl rfl rfl
    (blk_has all rv (by decide) (by decide) (by decide)) (blk_has all rv (by decide) (by decide) (by decide)) (blk_has all rv (by decide) (by decide) (by decide))

example : Stores all (BlasfeoApi.gemm_nt ideal 3 2 4 3 (cm 0) 1 2 (cm 36) 0 1 2 (cm 72) 0 0 (cm 108) 1 1) (grid rv) (blk 3 1 1 3 2)
    (fun p q => 2 * rv 2 (0 + p) (0 + q) + 3 * ∑ k ∈ range 4, rv 0 (1 + p) (2 + k) * rv 1 (0 + q) (1 + k)) :=
  C84_gemm_nt ideal ideal_correct (grid rv) (blk 0 1 2 3 4) (blk 1 0 1 2 4) (blk 2 0 0 3 2) (blk 3 1 1 3 2) 3 2 _ _ _ (blk_inside (by decide) (by decide))
    (blk_inside (by decide) (by decide)) (blk_inside (by decide) (by decide)) (blk_target rv (by decide) (by decide) (by decide))
    (blk_apart (by decide) (by decide) (by decide) (by decide) (by decide)) (blk_apart (by decide) (by decide) (by decide) (by decide) (by decide))
    (Or.inr (blk_apart (by decide) (by decide) (by decide) (by decide) (by decide))) rfl rfl rfl rfl rfl
    (blk_has all rv (by decide) (by decide) (by decide)) (blk_has all rv (by decide) (by decide) (by decide)) (blk_has all rv (by decide) (by decide) (by decide))

example : Stores all (BlasfeoApi.gemm_tn ideal 3 2 4 3 (cm 0) 1 2 (cm 36) 0 1 2 (cm 72) 0 0 (cm 108) 1 1) (grid rv) (blk 3 1 1 3 2)
    (fun p q => 2 * rv 2 (0 + p) (0 + q) + 3 * ∑ k ∈ range 4, rv 0 (1 + k) (2 + p) * rv 1 (0 + k) (1 + q)) :=
  C84_gemm_tn ideal ideal_correct (grid rv) (blk 0 1 2 4 3) (blk 1 0 1 4 2) (blk 2 0 0 3 2) (blk 3 1 1 3 2) 3 2 _ _ _ (blk_inside (by decide) (by decide))
    (blk_inside (by decide) (by decide)) (blk_inside (by decide) (by decide)) (blk_target rv (by decide) (by decide) (by decide))
    (blk_apart (by decide) (by decide) (by decide) (by decide) (by decide)) (blk_apart (by decide) (by decide) (by decide) (by decide) (by decide))
    (Or.inr (blk_apart (by decide) (by decide) (by decide) (by decide) (by decide))) rfl rfl rfl rfl rfl
    (blk_has all rv (by decide) (by decide) (by decide)) (blk_has all rv (by decide) (by decide) (by decide)) (blk_has all rv (by decide) (by decide) (by decide))

/-- A is the 2-by-2 lower (upper) triangle at (1, 2), B and D are 4-by-2 -/
example : Stores all (BlasfeoApi.trmm_rlnn ideal 4 2 3 (cm 0) 1 2 (cm 36) 0 1 (cm 108) 1 1) (grid rv) (blk 3 1 1 4 2)
    (fun p q => 3 * ∑ k ∈ range 2, rv 1 (0 + p) (1 + k) * if q ≤ k then rv 0 (1 + k) (2 + q) else 0) :=
  C84_trmm_rlnn ideal ideal_correct (grid rv) (blk 0 1 2 2 2) (blk 1 0 1 4 2) (blk 3 1 1 4 2) 3 _ _ (blk_inside (by decide) (by decide))
    (blk_inside (by decide) (by decide)) (blk_target rv (by decide) (by decide) (by decide))
    (blk_apart (by decide) (by decide) (by decide) (by decide) (by decide)) (blk_apart (by decide) (by decide) (by decide) (by decide) (by decide)) rfl rfl rfl rfl
    (blk_has lower rv (by decide) (by decide) (by decide)) (blk_has all rv (by decide) (by decide) (by decide))

example : Stores all (BlasfeoApi.trmm_rutn ideal 4 2 3 (cm 0) 1 2 (cm 36) 0 1 (cm 108) 1 1) (grid rv) (blk 3 1 1 4 2)
    (fun p q => 3 * ∑ k ∈ range 2, rv 1 (0 + p) (1 + k) * if q ≤ k then rv 0 (1 + q) (2 + k) else 0) :=
  C84_trmm_rutn ideal ideal_correct (grid rv) (blk 0 1 2 2 2) (blk 1 0 1 4 2) (blk 3 1 1 4 2) 3 _ _ (blk_inside (by decide) (by decide))
    (blk_inside (by decide) (by decide)) (blk_target rv (by decide) (by decide) (by decide))
    (blk_apart (by decide) (by decide) (by decide) (by decide) (by decide)) (blk_apart (by decide) (by decide) (by decide) (by decide) (by decide)) rfl rfl rfl rfl
    (blk_has upper rv (by decide) (by decide) (by decide)) (blk_has all rv (by decide) (by decide) (by decide))

example : Stores lower (BlasfeoApi.syrk_ln ideal id 3 4 3 (cm 0) 1 2 (cm 36) 0 1 2 (cm 72) 0 0 (cm 108) 1 1) (grid rv) (blk 3 1 1 3 3)
    (fun p q => 2 * rv 2 (0 + p) (0 + q) + 3 * ∑ k ∈ range 4, rv 0 (1 + p) (2 + k) * rv 1 (0 + q) (1 + k)) :=
  C84_syrk_ln ideal ideal_correct (grid rv) (blk 0 1 2 3 4) (blk 1 0 1 3 4) (blk 2 0 0 3 3) (blk 3 1 1 3 3) 3 2 _ _ _ (blk_inside (by decide) (by decide))
    (blk_inside (by decide) (by decide)) (blk_inside (by decide) (by decide)) (blk_target rv (by decide) (by decide) (by decide))
    (blk_apart (by decide) (by decide) (by decide) (by decide) (by decide)) (blk_apart (by decide) (by decide) (by decide) (by decide) (by decide))
    (Or.inr (blk_apart (by decide) (by decide) (by decide) (by decide) (by decide))) rfl rfl rfl rfl rfl rfl
    (blk_has all rv (by decide) (by decide) (by decide)) (blk_has all rv (by decide) (by decide) (by decide)) (blk_has lower rv (by decide) (by decide) (by decide))

/-- matrix 2: `C = [[4, 2], [2, 2]]` with the factor `[[2], [1, 1]]`; matrix 0: first column (1, 0); matrix 1: `[[3, 2], [2, 2]]` -/
noncomputable def pv (q i j : Nat) : ℝ := if q = 2 then (if i = 0 ∧ j = 0 then 4 else 2) else if q = 1 then (if i = 0 ∧ j = 0 then 3 else 2) else if i = 0 ∧ j = 0 then (1 : ℝ) else 0
noncomputable def pl (i j : Nat) : ℝ := if i = 0 ∧ j = 0 then 2 else 1

theorem pl_chol : IsCholesky 2 2 pl (fun i j => pv 2 (0 + i) (0 + j)) := by
  refine ⟨fun k hk => by unfold pl; split <;> norm_num, fun i j hji hi hj => ?_⟩
  have : (i = 0 ∧ j = 0) ∨ (i = 1 ∧ j = 0) ∨ (i = 1 ∧ j = 1) := by omega
  rcases this with ⟨rfl, rfl⟩ | ⟨rfl, rfl⟩ | ⟨rfl, rfl⟩ <;> simp [pl, pv, sum_range_succ] <;> norm_num

example : Stores lower (BlasfeoApi.potrf ideal 2 (cm 72) 0 0 (cm 108) 1 1) (grid pv) (blk 3 1 1 2 2) pl :=
  C84_potrf ideal ideal_correct (grid pv) (blk 2 0 0 2 2) (blk 3 1 1 2 2) _ pl (blk_inside (by decide) (by decide)) (blk_target pv (by decide) (by decide) (by decide))
    (Or.inr (blk_apart (by decide) (by decide) (by decide) (by decide) (by decide))) rfl rfl rfl (blk_has lower pv (by decide) (by decide) (by decide)) pl_chol

/-- `C + A Aᵀ` with A = (1, 0)ᵀ, C = `[[3, 2], [2, 2]]` -/
example : Stores lower (BlasfeoApi.syrk_potrf ideal 2 1 (cm 0) 0 0 (cm 0) 0 0 (cm 36) 0 0 (cm 108) 1 1) (grid pv) (blk 3 1 1 2 2) pl :=
  C84_syrk_potrf ideal ideal_correct (grid pv) (blk 0 0 0 2 1) (blk 0 0 0 2 1) (blk 1 0 0 2 2) (blk 3 1 1 2 2) _ _ _ pl (blk_inside (by decide) (by decide))
    (blk_inside (by decide) (by decide)) (blk_inside (by decide) (by decide)) (blk_target pv (by decide) (by decide) (by decide))
    (blk_apart (by decide) (by decide) (by decide) (by decide) (by decide)) (blk_apart (by decide) (by decide) (by decide) (by decide) (by decide))
    (Or.inr (blk_apart (by decide) (by decide) (by decide) (by decide) (by decide))) rfl rfl rfl rfl rfl rfl
    (blk_has all pv (by decide) (by decide) (by decide)) (blk_has all pv (by decide) (by decide) (by decide)) (blk_has lower pv (by decide) (by decide) (by decide)) (by
      have : (fun p q => pv 1 (0 + p) (0 + q) + ∑ k ∈ range (blk 0 0 0 2 1).c, pv 0 (0 + p) (0 + k) * pv 0 (0 + q) (0 + k)) = fun i j => pv 2 (0 + i) (0 + j) := by
        funext p q
        by_cases h : p = 0 <;> by_cases h' : q = 0 <;> simp [pv, blk, h, h'] <;> norm_num
      rw [this]
      exact pl_chol)

/-- a vector of 6 elements at `base` -/
def cv (base : Int) : CVec := ⟨6, fun i => base + i⟩

theorem cv_at (i p : Nat) (h : i + p < 36) : grid rv ((⟨cv 36, i, 3⟩ : VBlock).cell p) = some (rv 1 ((i + p) % 6) ((i + p) / 6)) := by
  have := grid_at rv (q := 1) (i := (i + p) % 6) (j := (i + p) / 6) (by decide) (by omega) (by omega)
  have e : (⟨cv 36, i, 3⟩ : VBlock).cell p = 36 * (1 : Nat) + ((i + p) % 6 : Nat) + 6 * ((i + p) / 6 : Nat) := by
    simp only [VBlock.cell, cv]
    omega
  rw [e]
  exact this

example : VStores (BlasfeoApi.pack_vec ideal 3 0 (cv 36) 2) (grid rv) 3 (VBlock.cell ⟨cv 36, 2, 3⟩) (fun p => rv 0 p 0) :=
  C84_pack_vec ideal ideal_correct (grid rv) 0 ⟨cv 36, 2, 3⟩ _ ⟨by decide, by decide⟩ (fun p hp => by
    have hp : p < 3 := hp
    rw [cv_at 2 p (by omega)]; exact fun e => nomatch e) (fun p p' _ _ e => by simp only [VBlock.cell, cv] at e; omega)
    (fun p p' hp hp' => by
      have hp : p < 3 := hp
      simp only [VBlock.cell, cv]; omega)
    (fun p hp => by
      have hp : p < 3 := hp
      have := grid_at rv (q := 0) (i := p) (j := 0) (by decide) (by omega) (by decide)
      rw [show (0 : Int) + p = 36 * (0 : Nat) + p + 6 * (0 : Nat) by omega]; exact this)

example : VStores (BlasfeoApi.unpack_vec ideal 3 (cv 36) 2 0) (grid rv) 3 (fun p => (0 : Int) + p) (fun p => rv 1 ((2 + p) % 6) ((2 + p) / 6)) :=
  C84_unpack_vec ideal ideal_correct (grid rv) ⟨cv 36, 2, 3⟩ 0 _ ⟨by decide, by decide⟩ (fun p hp => by
      have hp : p < 3 := hp
      have := grid_at rv (q := 0) (i := p) (j := 0) (by decide) (by omega) (by decide)
      rw [show (0 : Int) + p = 36 * (0 : Nat) + p + 6 * (0 : Nat) by omega, this]; exact fun e => nomatch e)
    (fun p p' hp hp' => by
      have hp' : p' < 3 := hp'
      simp only [VBlock.cell, cv]; omega)
    (fun p hp => by
      have hp : p < 3 := hp
      exact cv_at 2 p (by omega))

example : VStores (BlasfeoApi.vecse ideal 3 7 (cv 36) 2) (grid rv) 3 (VBlock.cell ⟨cv 36, 2, 3⟩) (fun _ => 7) :=
  C84_vecse ideal ideal_correct (grid rv) 7 ⟨cv 36, 2, 3⟩ ⟨by decide, by decide⟩ (fun p hp => by
    have hp : p < 3 := hp
    rw [cv_at 2 p (by omega)]; exact fun e => nomatch e) (fun p p' _ _ e => by simp only [VBlock.cell, cv] at e; omega)

example : VStores (BlasfeoApi.vecsc ideal 3 7 (cv 36) 2) (grid rv) 3 (VBlock.cell ⟨cv 36, 2, 3⟩) (fun p => 7 * rv 1 ((2 + p) % 6) ((2 + p) / 6)) :=
  C84_vecsc ideal ideal_correct (grid rv) 7 ⟨cv 36, 2, 3⟩ _ ⟨by decide, by decide⟩ (fun p p' _ _ e => by simp only [VBlock.cell, cv] at e; omega) (fun p hp => by
    have hp : p < 3 := hp
    exact cv_at 2 p (by omega))

example : (BlasfeoApi.gemm_nn (ideal : Lib ℝ) 3 2 4 3 (cm 0) 1 2 (cm 36) 0 1 2 (cm 72) 1 1 (cm 72) 1 1) = ideal.gemm_nn 3 2 4 3 (cm 0) 1 2 (cm 36) 0 1 2 (cm 72) 1 1 (cm 72) 1 1 :=
  (C84_gemm_call ideal 3 2 4 1 2 0 1 1 1 1 1 3 2 (cm 0) (cm 36) (cm 72) (cm 72) (by decide)).1
example : (BlasfeoApi.trmm_rutn (ideal : Lib ℝ) 4 2 3 (cm 0) 1 2 (cm 36) 0 1 (cm 108) 1 1) = ideal.trmm_rutn 4 2 3 (cm 0) 1 2 (cm 36) 0 1 (cm 108) 1 1 :=
  (C84_trmm_call ideal 4 2 1 2 0 1 1 1 3 (cm 0) (cm 36) (cm 108) (by decide)).2
example : (BlasfeoApi.syrk_ln (ideal : Lib ℝ) (fun n : Nat => (n : ℝ)) 3 4 3 (cm 0) 1 2 (cm 36) 0 1 2 (cm 72) 0 0 (cm 108) 1 1) =
    ideal.syrk_ln 3 4 ((3 : Nat) : ℝ) (cm 0) 1 2 (cm 36) 0 1 ((2 : Nat) : ℝ) (cm 72) 0 0 (cm 108) 1 1 :=
  (C84_syrk_call (fun n : Nat => (n : ℝ)) ideal 3 4 1 2 0 1 0 0 1 1 3 2 (cm 0) (cm 36) (cm 72) (cm 108) (by decide)).1
example : BlasfeoApi.vecse (ideal : Lib ℝ) 3 7 (cv 36) 2 = ideal.vecse 3 7 (cv 36) 2 := (C84_vec_call ideal 3 2 0 0 7 (cv 36) (by decide) (by decide)).2.2.1
example : rows (create_mat (fun m _ mem i j => mem + i + m * j) 1000 3 0) = 1000 := (C84_size _ 1000 3 0 (by decide) (by decide)).1
/-- C84_memsize: 8-byte elements in column-major order -/
example : (create_mat (fun m _ mem i j => mem + 8 * (i + m * j)) 5 3 64).addr 4 2 + 8 ≤ 64 + memsize_mat (fun m n => (8 * (m * n)).toNat) 5 3 := by
  refine (C84_memsize (fun m _ mem i j => mem + 8 * (i + m * j)) (fun m n => (8 * (m * n)).toNat) 8 ?_ (by decide) (by decide) 64 (i := 4) (j := 2) (by decide) (by decide)).2
  intro m n memory i j hi him hj hjn
  have h1 : 0 ≤ m * j := Int.mul_nonneg (by omega) hj
  have h2 : m * j + m ≤ m * n := by
    have := Int.mul_le_mul_of_nonneg_left (show j + 1 ≤ n by omega) (show (0 : Int) ≤ m by omega)
    rw [Int.mul_add, Int.mul_one] at this
    exact this
  omega
example : rows (create_mat (fun m _ mem i j => mem + i + m * j) (2 ^ 31) 3 0) ≠ 2 ^ 31 := C84_size_refuted _ _ 3 0 (by decide) (by decide)

end BlasfeoApi
end Blast
