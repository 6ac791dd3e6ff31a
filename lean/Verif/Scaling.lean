import Verif.Selection
import Mathlib.Algebra.Group.Basic
/-
Exact scalings of the arithmetic: a commutative group of factors acting on the scalars, with which every operation commutes without rounding differences.
For binary floating-point numbers the factors are ±2^k (no overflow or underflow), for exact arithmetic all non-zero numbers. Used by Props/Scaling (C78).
-/
namespace Blast
open Prog Reg

/-- `act g x` is x multiplied by the factor g, exactly -/
class Scaling (G V : Type) [CommGroup G] [Arith V] where
  act : G → V → V
  one_act : ∀ x : V, act 1 x = x
  zero : ∀ g : G, act g (Arith.zero : V) = Arith.zero
  add : ∀ (g : G) (a b : V), Arith.add (act g a) (act g b) = act g (Arith.add a b)
  sub : ∀ (g : G) (a b : V), Arith.sub (act g a) (act g b) = act g (Arith.sub a b)
  mul : ∀ (g h : G) (a b : V), Arith.mul (act g a) (act h b) = act (g * h) (Arith.mul a b)
  div : ∀ (g h : G) (a b : V), Arith.div (act g a) (act h b) = act (g / h) (Arith.div a b)
  fma : ∀ (g h : G) (a b c : V), Arith.fma (act g a) (act h b) (act (g * h) c) = act (g * h) (Arith.fma a b c)
  fnma : ∀ (g h : G) (a b c : V), Arith.fnma (act g a) (act h b) (act (g * h) c) = act (g * h) (Arith.fnma a b c)
  gt_abs : ∀ (g : G) (a b : V), Arith.gt (Arith.abs (act g a)) (Arith.abs (act g b)) = Arith.gt (Arith.abs a) (Arith.abs b)
  eq_zero : ∀ (g : G) (a : V), Arith.eq (act g a) Arith.zero = Arith.eq a Arith.zero

/-- square roots: the factors `g` that are not negative -/
class ScalingSqrt (G V : Type) [CommGroup G] [Arith V] extends Scaling G V where
  Pos : G → Prop
  sqrt : ∀ (g : G) (a : V), Pos g → Arith.sqrt (act (g * g) a) = act g (Arith.sqrt a)

variable {G V : Type} [CommGroup G] [Arith V] [Scaling G V]

/-- `g • x`: the scalar x multiplied by the exact factor g -/
abbrev scl (g : G) (x : V) : V := Scaling.act g x

theorem scl_fma {g h k : G} (e : g * h = k) (a b c : V) : Arith.fma (scl g a) (scl h b) (scl k c) = scl k (Arith.fma a b c) := by
  subst e; exact Scaling.fma g h a b c

theorem scl_fnma {g h k : G} (e : g * h = k) (a b c : V) : Arith.fnma (scl g a) (scl h b) (scl k c) = scl k (Arith.fnma a b c) := by
  subst e; exact Scaling.fnma g h a b c

theorem scl_mul {g h k : G} (e : g * h = k) (a b : V) : Arith.mul (scl g a) (scl h b) = scl k (Arith.mul a b) := by
  subst e; exact Scaling.mul g h a b

theorem scl_div {g h k : G} (e : g / h = k) (a b : V) : Arith.div (scl g a) (scl h b) = scl k (Arith.div a b) := by
  subst e; exact Scaling.div g h a b

theorem scl_mul_left (g : G) (a b : V) : Arith.mul a (scl g b) = scl g (Arith.mul a b) := by
  have := scl_mul (one_mul g) a b
  rwa [show scl (1 : G) a = a from Scaling.one_act a] at this

theorem scl_mul_right (g : G) (a b : V) : Arith.mul (scl g a) b = scl g (Arith.mul a b) := by
  have := scl_mul (mul_one g) a b
  rwa [show scl (1 : G) b = b from Scaling.one_act b] at this

theorem scl_fma_right (g : G) (a b c : V) : Arith.fma a (scl g b) (scl g c) = scl g (Arith.fma a b c) := by
  have := scl_fma (one_mul g) a b c
  rwa [show scl (1 : G) a = a from Scaling.one_act a] at this

theorem fmaSum_scl {s : G} {f h : Nat → G} {a b : Nat → V} {c : V} (K : Nat) (e : ∀ k, k < K → f k * h k = s) :
    fmaSum (fun k => scl (f k) (a k)) (fun k => scl (h k) (b k)) (scl s c) K = scl s (fmaSum a b c K) := by
  induction K with
  | zero => rfl
  | succ K ih =>
    unfold fmaSum
    rw [ih (fun k hk => e k (by omega))]
    exact scl_fma (e K (by omega)) _ _ _

theorem fmaSum_scl_zero {s : G} {f h : Nat → G} {a b : Nat → V} (K : Nat) (e : ∀ k, k < K → f k * h k = s) :
    fmaSum (fun k => scl (f k) (a k)) (fun k => scl (h k) (b k)) Arith.zero K = scl s (fmaSum a b Arith.zero K) := by
  rw [← fmaSum_scl K e, show scl s (Arith.zero : V) = Arith.zero from Scaling.zero s]

theorem fnmaSum_scl {s : G} {f h : Nat → G} {a b : Nat → V} {c : V} (K : Nat) (e : ∀ k, k < K → f k * h k = s) :
    fnmaSum (fun k => scl (f k) (a k)) (fun k => scl (h k) (b k)) (scl s c) K = scl s (fnmaSum a b c K) := by
  induction K with
  | zero => rfl
  | succ K ih =>
    unfold fnmaSum
    rw [ih (fun k hk => e k (by omega))]
    exact scl_fnma (e K (by omega)) _ _ _

theorem subFold_scl {s : G} {f g : Nat → V} {c : V} {lo : Nat} (n : Nat) (h : ∀ k, lo ≤ k → k < lo + n → g k = scl s (f k)) :
    subFold g (scl s c) lo n = scl s (subFold f c lo n) := by
  induction n with
  | zero => rfl
  | succ n ih =>
    unfold subFold
    rw [ih (fun k h1 h2 => h k h1 (by omega)), h (lo + n) (by omega) (by omega)]
    exact Scaling.sub s _ _

/-! ### trsm -/

/-- scaled rows and columns of the system: a(i, k) by r(i) t(k), b(i) by r(i) c, so the solution by c / t(k) -/
theorem TrsmRec.scl {uplo : UpLo} {unit : Bool} {m : Nat} {a : Nat → Nat → V} {b x : Nat → V} (h : TrsmRec uplo unit m a b x) (r t : Nat → G) (c : G)
    (hu : unit = true → ∀ i, i < m → r i * t i = 1) :
    TrsmRec uplo unit m (fun i k => scl (r i * t k) (a i k)) (fun i => scl (r i * c) (b i)) (fun k => scl (c / t k) (x k)) := by
  intro i hi
  have hs : subFold (fun k => Arith.mul (Blast.scl (r i * t k) (a i k)) (Blast.scl (c / t k) (x k))) (Blast.scl (r i * c) (b i)) (solveLo uplo i) (solveHi uplo m i - solveLo uplo i) =
      Blast.scl (r i * c) (subFold (fun k => Arith.mul (a i k) (x k)) (b i) (solveLo uplo i) (solveHi uplo m i - solveLo uplo i)) :=
    subFold_scl _ (fun k _ _ => scl_mul (by rw [mul_assoc, mul_div_cancel]) _ _)
  dsimp only
  rw [hs, h i hi]
  dsimp only
  cases unit with
  | true =>
    rw [if_pos rfl, if_pos rfl]
    have := hu rfl i hi
    rw [show c / t i = r i * c from by rw [div_eq_iff_eq_mul, mul_comm (r i), mul_assoc, this, mul_one]]
  | false =>
    rw [if_neg (by decide), if_neg (by decide)]
    exact (scl_div (by rw [mul_div_mul_left_eq_div]) _ _).symm

theorem trsmSol_scl {uplo : UpLo} {unit : Bool} {m : Nat} (a : Nat → Nat → V) (b : Nat → V) (r t : Nat → G) (c : G)
    (hu : unit = true → ∀ i, i < m → r i * t i = 1) {i : Nat} (hi : i < m) :
    trsmSol uplo unit m (fun i k => scl (r i * t k) (a i k)) (fun i => scl (r i * c) (b i)) i = scl (c / t i) (trsmSol uplo unit m a b i) :=
  ((trsmSol_rec uplo unit m _ _).unique (TrsmRec.scl (trsmSol_rec uplo unit m a b) r t c hu) (fun _ _ _ _ _ => rfl) (fun _ _ => rfl)) i hi

/-! ### LU -/

theorem iamaxF_fst (x : Nat → V) (t : Nat) : (iamaxF x t).1 = Arith.abs (x (iamaxF x t).2) := by
  induction t with
  | zero => rfl
  | succ t ih =>
    unfold iamaxF
    split
    · rfl
    · exact ih

theorem iamaxF_scl (g : G) (x : Nat → V) (t : Nat) : (iamaxF (fun i => scl g (x i)) t).2 = (iamaxF x t).2 := by
  induction t with
  | zero => rfl
  | succ t ih =>
    have e : Arith.gt (Arith.abs (scl g (x (t + 1)))) (iamaxF (fun i => scl g (x i)) t).1 = Arith.gt (Arith.abs (x (t + 1))) (iamaxF x t).1 := by
      rw [iamaxF_fst, iamaxF_fst, ih]
      exact Scaling.gt_abs g _ _
    unfold iamaxF
    rw [e]
    split
    · rfl
    · exact ih

/-- the state of a factorization of a matrix with scaled columns after k steps: the multipliers are those of the unscaled matrix -/
def luScl (c : Nat → G) (k : Nat) (a : Nat → Nat → V) : Nat → Nat → V := fun i j => if j < i ∧ j < k then a i j else scl (c j) (a i j)

theorem luScl_zero (c : Nat → G) (a : Nat → Nat → V) : luScl c 0 a = fun i j => scl (c j) (a i j) := by
  funext i j; unfold luScl; rw [if_neg (by omega)]

/-- a division that does not see a common factor, and an update with an unscaled multiplier -/
structure LuScales (c : Nat → G) (dv : V → V → V) (upd : V → V → V → V) : Prop where
  dv : ∀ j x d, dv (scl (c j) x) (scl (c j) d) = dv x d
  upd : ∀ j l u a, upd l (scl (c j) u) (scl (c j) a) = scl (c j) (upd l u a)

theorem pivotRow_range' {m k : Nat} (hk : k < m) (a : Nat → Nat → V) : k ≤ pivotRow m a k ∧ pivotRow m a k < m := by
  unfold pivotRow
  have := iamaxF_le (fun i => a (k + i) k) (m - k - 1)
  omega

theorem swapRows_luScl (c : Nat → G) {k p : Nat} (hp : k ≤ p) (a : Nat → Nat → V) : swapRows k p (luScl c k a) = luScl c k (swapRows k p a) := by
  funext i j
  unfold swapRows luScl
  dsimp only
  by_cases hj : j < k
  · have hiff : (j < (if i = k then p else if i = p then k else i) ∧ j < k) ↔ (j < i ∧ j < k) := by
      split
      · omega
      · split <;> omega
    by_cases h : j < i ∧ j < k
    · rw [if_pos (hiff.2 h), if_pos h]
    · rw [if_neg (fun x => h (hiff.1 x)), if_neg h]
  · have hn : ∀ i, ¬ (j < i ∧ j < k) := fun i x => hj x.2
    rw [if_neg (hn _), if_neg (hn _)]

theorem pivotRow_luScl (c : Nat → G) (m k : Nat) (a : Nat → Nat → V) : pivotRow m (luScl c k a) k = pivotRow m a k := by
  unfold pivotRow
  have : (fun i => luScl c k a (k + i) k) = fun i => scl (c k) (a (k + i) k) := by
    funext i; unfold luScl; rw [if_neg (by omega)]
  rw [this, iamaxF_scl]

theorem elim_luScl {c : Nat → G} {dv : V → V → V} {upd : V → V → V → V} (h : LuScales c dv upd) (k : Nat) (a : Nat → Nat → V) :
    elim dv upd k (luScl c k a) = luScl c (k + 1) (elim dv upd k a) := by
  have ek : ∀ i, luScl c k a i k = scl (c k) (a i k) := fun i => by unfold luScl; rw [if_neg (by omega)]
  have er : ∀ j, luScl c k a k j = if j < k then a k j else scl (c j) (a k j) := fun j => by
    unfold luScl
    by_cases hj : j < k
    · rw [if_pos ⟨hj, hj⟩, if_pos hj]
    · rw [if_neg (by omega), if_neg hj]
  funext i j
  unfold elim
  by_cases hi : k < i
  · rw [if_pos hi, ek, ek]
    show _ = luScl c (k + 1) _ i j
    by_cases hj : j = k
    · subst hj
      rw [if_pos rfl, h.dv]
      unfold luScl
      beta_reduce
      rw [if_pos ⟨hi, by omega⟩, if_pos hi, if_pos rfl]
    · rw [if_neg hj]
      by_cases hkj : k < j
      · rw [if_pos hkj, er, if_neg (by omega), h.dv]
        unfold luScl
        beta_reduce
        rw [if_neg (by omega), if_neg (by omega), if_pos hi, if_neg hj, if_pos hkj]
        exact h.upd _ _ _ _
      · rw [if_neg hkj]
        unfold luScl
        beta_reduce
        rw [if_pos ⟨by omega, by omega⟩, if_pos ⟨by omega, by omega⟩, if_pos hi, if_neg hj, if_neg hkj]
  · rw [if_neg hi]
    unfold luScl
    beta_reduce
    rw [if_neg hi]
    by_cases hj : j < i ∧ j < k
    · rw [if_pos hj, if_pos ⟨hj.1, by omega⟩]
    · rw [if_neg hj, if_neg (by omega)]

theorem luStep_luScl {c : Nat → G} {dv : V → V → V} {upd : V → V → V → V} (h : LuScales c dv upd) {m k : Nat} (hk : k < m) (a : Nat → Nat → V) (ip : Nat → Nat) :
    luStep dv upd m k (luScl c k a) ip = (luStep dv upd m k a ip).map (fun s => (luScl c (k + 1) s.1, s.2)) := by
  unfold luStep
  dsimp only
  rw [pivotRow_luScl, swapRows_luScl c (pivotRow_range' hk a).1]
  have hd : luScl c k (swapRows k (pivotRow m a k) a) k k = scl (c k) (swapRows k (pivotRow m a k) a k k) := by
    unfold luScl; rw [if_neg (by omega)]
  rw [hd, show Arith.eq (scl (c k) (swapRows k (pivotRow m a k) a k k)) Arith.zero = _ from Scaling.eq_zero (c k) _, elim_luScl h]
  split <;> rfl

/-- the whole factorization: the same outcome and pivots; the elements as described by `luScl` -/
theorem luFull_luScl {c : Nat → G} {dv : V → V → V} {upd : V → V → V → V} (h : LuScales c dv upd) {m : Nat} (a : Nat → Nat → V) (ip : Nat → Nat) :
    ∀ K, K ≤ m → (luFull dv upd m (fun i j => scl (c j) (a i j)) ip K).2 = (luFull dv upd m a ip K).2 ∧
      ((luFull dv upd m a ip K).2.isSome = true → (luFull dv upd m (fun i j => scl (c j) (a i j)) ip K).1 = luScl c K (luFull dv upd m a ip K).1) := by
  intro K
  induction K with
  | zero => intro _; exact ⟨rfl, fun _ => (luScl_zero c a).symm⟩
  | succ K ih =>
    intro hK
    obtain ⟨e1, e2⟩ := ih (by omega)
    rcases hr : luFull dv upd m a ip K with ⟨b, _ | p⟩
    · rcases hr' : luFull dv upd m (fun i j => scl (c j) (a i j)) ip K with ⟨b', _ | p'⟩
      · unfold luFull
        rw [hr, hr']
        exact ⟨rfl, fun hh => by cases hh⟩
      · rw [hr, hr'] at e1; cases e1
    · rw [hr] at e1 e2
      rcases hr' : luFull dv upd m (fun i j => scl (c j) (a i j)) ip K with ⟨b', _ | p'⟩
      · rw [hr'] at e1; cases e1
      · rw [hr'] at e1 e2
        obtain rfl : p' = p := Option.some.inj e1
        obtain rfl : b' = luScl c K b := e2 rfl
        unfold luFull
        rw [hr, hr']
        dsimp only
        rw [luStep_luScl h (by omega)]
        rcases luStep dv upd m K b p' with _ | ⟨b2, p2⟩
        · exact ⟨rfl, fun hh => by cases hh⟩
        · exact ⟨rfl, fun _ => rfl⟩

/-! ### Blocked LU -/

/-- as `luScl`, in the first M rows -/
def luSclM (M : Nat) (c : Nat → G) (k : Nat) (a : Nat → Nat → V) : Nat → Nat → V := fun i j => if j < i ∧ j < k ∧ i < M then a i j else scl (c j) (a i j)

theorem luSclM_zero (M : Nat) (c : Nat → G) (a : Nat → Nat → V) : luSclM M c 0 a = fun i j => scl (c j) (a i j) := by
  funext i j; unfold luSclM; rw [if_neg (by omega)]

theorem rowPerm_ge {p : Nat → Nat} {k0 t m i : Nat} (hp : ∀ q, k0 ≤ q → q < k0 + t → p q < m) (hm : k0 + t ≤ m) (hi : m ≤ i) : rowPerm p k0 t i = i := by
  induction t with
  | zero => rfl
  | succ t ih =>
    show rowPerm p k0 t (swapIdx _ _ i) = i
    have e : swapIdx (k0 + t) (p (k0 + t)) i = i := by
      have := hp (k0 + t) (by omega) (by omega)
      unfold swapIdx
      rw [if_neg (by omega), if_neg (by omega)]
    rw [e]
    exact ih (fun q h1 h2 => hp q h1 (by omega)) (by omega)

theorem swapCols_left_scl {M k T : Nat} {c : Nat → G} {P : Nat → Nat} (hP : ∀ q, k ≤ q → q < k + T → k ≤ P q ∧ P q < M) (hM : k + T ≤ M) (x : Nat → Nat → V) {K : Nat} (hK : k ≤ K) :
    swapCols P k (k + T) 0 k (luSclM M c K x) = luSclM M c K (swapCols P k (k + T) 0 k x) := by
  funext i j
  unfold swapCols
  rw [show k + T - k = T by omega]
  by_cases hj : 0 ≤ j ∧ j < 0 + k
  · rw [if_pos hj, rowSwaps_eq]
    unfold luSclM
    beta_reduce
    rw [if_pos hj, rowSwaps_eq]
    have hiff : (j < rowPerm P k T i ∧ j < K ∧ rowPerm P k T i < M) ↔ (j < i ∧ j < K ∧ i < M) := by
      by_cases h1 : i < k
      · rw [rowPerm_lt (fun q h1 h2 => (hP q h1 h2).1) h1]
      · by_cases h2 : i < M
        · have := rowPerm_bounds hP hM ⟨by omega, h2⟩
          omega
        · rw [rowPerm_ge (fun q h1 h2 => (hP q h1 h2).2) hM (by omega)]
    exact if_congr hiff rfl rfl
  · rw [if_neg hj]
    unfold luSclM
    beta_reduce
    rw [if_neg hj]

theorem swapCols_right_scl {M k T n : Nat} {c : Nat → G} {P : Nat → Nat} (x : Nat → Nat → V) :
    swapCols P k (k + T) (k + T) n (luSclM M c (k + T) x) = luSclM M c (k + T) (swapCols P k (k + T) (k + T) n x) := by
  funext i j
  unfold swapCols
  rw [show k + T - k = T by omega]
  by_cases hj : k + T ≤ j ∧ j < k + T + n
  · rw [if_pos hj, rowSwaps_eq]
    unfold luSclM
    beta_reduce
    have hn : ∀ i : Nat, ¬ (j < i ∧ j < k + T ∧ i < M) := fun i => by omega
    rw [if_neg (hn _), if_neg (hn _), if_pos hj, rowSwaps_eq]
  · rw [if_neg hj]
    unfold luSclM
    beta_reduce
    rw [if_neg hj]

theorem paste_panel_scl {M k T w : Nat} {c : Nat → G} (hw : T ≤ w) (s x : Nat → Nat → V) :
    paste k k (M - k) w (luScl (fun j => c (k + j)) T s) (luSclM M c k x) = luSclM M c (k + T) (paste k k (M - k) w s x) := by
  funext i j
  unfold paste
  by_cases h : k ≤ i ∧ i < k + (M - k) ∧ k ≤ j ∧ j < k + w
  · rw [if_pos h]
    unfold luScl luSclM
    beta_reduce
    rw [if_pos h, show k + (j - k) = j by omega]
    exact if_congr (by omega) rfl rfl
  · rw [if_neg h]
    unfold luSclM
    beta_reduce
    rw [if_neg h]
    exact if_congr (by omega) rfl rfl

/-- the divisions and updates of the column-major code -/
theorem luScales_col (c : Nat → G) : LuScales (V := V) c Arith.div updCol where
  dv := fun j x d => by
    rw [scl_div (div_self' (c j)) x d]
    exact Scaling.one_act _
  upd := fun j l u a => by
    unfold updCol gerEntry
    rw [scl_mul_left]
    exact scl_fma_right _ _ _ _

theorem getrfBlk_scl {T M N k : Nat} {c : Nat → G} {ip P : Nat → Nat} (hM : k + T < M) (hN : k + T < N) (hP : PivotsOK M k ip P) (a : Nat → Nat → V) :
    (getrfBlk T M N k (luSclM M c k a) P).2 = (getrfBlk T M N k a P).2 ∧
      ((getrfBlk T M N k a P).2.isSome = true → (getrfBlk T M N k (luSclM M c k a) P).1 = luSclM M c (k + T) (getrfBlk T M N k a P).1) := by
  have hsub : (fun i j => luSclM M c k a (k + i) (k + j)) = fun i j => scl (c (k + j)) (a (k + i) (k + j)) := by
    funext i j; unfold luSclM; rw [if_neg (by omega)]
  obtain ⟨l1, l2⟩ := luFull_luScl (luScales_col (fun j => c (k + j))) (m := M - k) (fun i j => a (k + i) (k + j)) (fun i => P (k + i)) T (by omega)
  unfold getrfBlk
  rw [hsub]
  rcases hr : luFull Arith.div updCol (M - k) (fun i j => a (k + i) (k + j)) (fun i => P (k + i)) T with ⟨s, _ | p⟩
  · rcases hr' : luFull Arith.div updCol (M - k) (fun i j => scl (c (k + j)) (a (k + i) (k + j))) (fun i => P (k + i)) T with ⟨s', _ | p'⟩
    · exact ⟨rfl, fun hh => by cases hh⟩
    · rw [hr, hr'] at l1; cases l1
  · rcases hr' : luFull Arith.div updCol (M - k) (fun i j => scl (c (k + j)) (a (k + i) (k + j))) (fun i => P (k + i)) T with ⟨s', _ | p'⟩
    · rw [hr, hr'] at l1; cases l1
    · rw [hr, hr'] at l1 l2
      obtain rfl : p' = p := Option.some.inj l1
      obtain rfl : s' = luScl (fun j => c (k + j)) T s := l2 rfl
      have hP' := hP.extend (luRun_pivots T (by omega) (luFull_some _ hr)) (by omega)
      dsimp only
      refine ⟨rfl, fun _ => ?_⟩
      have hPM : ∀ q, k ≤ q → q < k + T → k ≤ addRange (mergeAt P k p') k (k + T) q ∧ addRange (mergeAt P k p') k (k + T) q < M := fun q h1 h2 => by
        have := hP'.1 q h2
        omega
      rw [paste_panel_scl (Nat.le_refl T), swapCols_left_scl hPM (by omega) _ (by omega), swapCols_right_scl]
      generalize swapCols (addRange (mergeAt P k p') k (k + T)) k (k + T) (k + T) (N - k - T)
        (swapCols (addRange (mergeAt P k p') k (k + T)) k (k + T) 0 k (paste k k (M - k) T s a)) = a3
      have e4 : paste k (k + T) T (N - k - T) (fun i j => trsmSol .lower true T (fun i q => luSclM M c (k + T) a3 (k + i) (k + q))
            (fun i => luSclM M c (k + T) a3 (k + i) (k + T + j)) i) (luSclM M c (k + T) a3)
          = luSclM M c (k + T) (paste k (k + T) T (N - k - T) (fun i j => trsmSol .lower true T (fun i q => a3 (k + i) (k + q)) (fun i => a3 (k + i) (k + T + j)) i) a3) := by
        funext i j
        unfold paste
        by_cases h : k ≤ i ∧ i < k + T ∧ k + T ≤ j ∧ j < k + T + (N - k - T)
        · rw [if_pos h]
          show _ = luSclM M c (k + T) _ i j
          have er : ∀ f : Nat → Nat → V, luSclM M c (k + T) f i j = scl (c j) (f i j) := fun f => by unfold luSclM; rw [if_neg (by omega)]
          rw [er]
          beta_reduce
          rw [if_pos h]
          have hs := trsmSol_scl (G := G) (uplo := .lower) (unit := true) (m := T) (fun i q => a3 (k + i) (k + q)) (fun i => a3 (k + i) (k + T + (j - (k + T))))
            (fun _ => 1) (fun _ => 1) (c j) (fun _ _ _ => mul_one 1) (i := i - k) (by omega)
          rw [div_one] at hs
          rw [← hs]
          refine TrsmRec.unique (trsmSol_rec _ _ _ _ _) (trsmSol_rec _ _ _ _ _) (fun i' q hi' hq htri => ?_) (fun i' hi' => ?_) (i - k) (by omega)
          · have hlt : q < i' := by
              have := htri
              rcases this with ⟨_, h⟩ | ⟨_, h⟩ | ⟨h, _⟩
              · cases h
              · exact h
              · cases h
            show luSclM M c (k + T) a3 (k + i') (k + q) = scl ((1 : G) * 1) (a3 (k + i') (k + q))
            unfold luSclM
            rw [if_pos (by omega), mul_one]
            exact (Scaling.one_act _).symm
          · show luSclM M c (k + T) a3 (k + i') (k + T + (j - (k + T))) = scl ((1 : G) * c j) (a3 (k + i') (k + T + (j - (k + T))))
            unfold luSclM
            rw [if_neg (by omega), one_mul, show k + T + (j - (k + T)) = j by omega]
        · rw [if_neg h]
          unfold luSclM
          beta_reduce
          rw [if_neg h]
      rw [e4]
      generalize paste k (k + T) T (N - k - T) (fun i j => trsmSol .lower true T (fun i q => a3 (k + i) (k + q)) (fun i => a3 (k + i) (k + T + j)) i) a3 = a4
      funext i j
      unfold paste
      by_cases h : k + T ≤ i ∧ i < k + T + (M - k - T) ∧ k + T ≤ j ∧ j < k + T + (N - k - T)
      · rw [if_pos h]
        show _ = luSclM M c (k + T) _ i j
        have er : ∀ f : Nat → Nat → V, luSclM M c (k + T) f i j = scl (c j) (f i j) := fun f => by unfold luSclM; rw [if_neg (by omega)]
        rw [er]
        beta_reduce
        rw [if_pos h]
        unfold gemmEntry
        have ex : fmaSum (fun q => luSclM M c (k + T) a4 (k + T + (i - (k + T))) (k + q)) (fun q => luSclM M c (k + T) a4 (k + q) (k + T + (j - (k + T)))) Arith.zero T =
            scl (c j) (fmaSum (fun q => a4 (k + T + (i - (k + T))) (k + q)) (fun q => a4 (k + q) (k + T + (j - (k + T)))) Arith.zero T) := by
          rw [← fmaSum_scl_zero (G := G) (f := fun _ => 1) (h := fun _ => c j) (s := c j) T (fun _ _ => one_mul _)]
          refine fmaSum_congr' T (fun q hq => ?_) (fun q hq => ?_)
          · unfold luSclM
            rw [if_pos (by omega)]
            exact (Scaling.one_act _).symm
          · unfold luSclM
            rw [if_neg (by omega), show k + T + (j - (k + T)) = j by omega]
        have ec : luSclM M c (k + T) a4 (k + T + (i - (k + T))) (k + T + (j - (k + T))) = scl (c j) (a4 (k + T + (i - (k + T))) (k + T + (j - (k + T)))) := by
          unfold luSclM
          rw [if_neg (by omega), show k + T + (j - (k + T)) = j by omega]
        rw [ex, ec, scl_mul_right]
        exact scl_fma_right _ _ _ _
      · rw [if_neg h]
        unfold luSclM
        beta_reduce
        rw [if_neg h]

theorem getrfBlk_piv {T M N k : Nat} {a : Nat → Nat → V} {ip P P' : Nat → Nat} {b : Nat → Nat → V} (hM : k + T < M) (hP : PivotsOK M k ip P)
    (e : getrfBlk T M N k a P = (b, some P')) : PivotsOK M (k + T) ip P' := by
  unfold getrfBlk at e
  rcases hlu : luFull Arith.div updCol (M - k) (fun i j => a (k + i) (k + j)) (fun i => P (k + i)) T with ⟨s, _ | p⟩
  · rw [hlu] at e; cases e
  rw [hlu] at e
  have hP' := hP.extend (luRun_pivots T (by omega) (luFull_some _ hlu)) (by omega)
  obtain ⟨-, e2⟩ := Prod.mk.inj e
  cases e2
  exact hP'

theorem getrfIter_scl {T M N : Nat} {c : Nat → G} {ip : Nat → Nat} (fuel : Nat) :
    ∀ (k : Nat) (a : Nat → Nat → V) (P : Nat → Nat), k ≤ M → PivotsOK M k ip P →
      (getrfIter T M N fuel k (luSclM M c k a) P).1 = (getrfIter T M N fuel k a P).1 ∧
      (getrfIter T M N fuel k (luSclM M c k a) P).2.2 = (getrfIter T M N fuel k a P).2.2 ∧
      (∀ P', (getrfIter T M N fuel k a P).2.2 = some P' →
        (getrfIter T M N fuel k (luSclM M c k a) P).2.1 = luSclM M c (getrfIter T M N fuel k a P).1 (getrfIter T M N fuel k a P).2.1 ∧
        (getrfIter T M N fuel k a P).1 ≤ M ∧ PivotsOK M (getrfIter T M N fuel k a P).1 ip P') := by
  induction fuel with
  | zero =>
    intro k a P hk hP
    exact ⟨rfl, rfl, fun P' e => ⟨rfl, hk, by cases e; exact hP⟩⟩
  | succ fuel ih =>
    intro k a P hkM hP
    unfold getrfIter
    by_cases hk : k + T < M ∧ k + T < N
    · rw [if_pos hk, if_pos hk]
      obtain ⟨e1, e2⟩ := getrfBlk_scl (c := c) hk.1 hk.2 hP a
      rcases hb : getrfBlk T M N k a P with ⟨b, _ | p⟩
      · rcases hb' : getrfBlk T M N k (luSclM M c k a) P with ⟨b', _ | p'⟩
        · exact ⟨rfl, rfl, fun P' e => by cases e⟩
        · rw [hb, hb'] at e1; cases e1
      · rcases hb' : getrfBlk T M N k (luSclM M c k a) P with ⟨b', _ | p'⟩
        · rw [hb, hb'] at e1; cases e1
        · rw [hb, hb'] at e1 e2
          obtain rfl : p' = p := Option.some.inj e1
          obtain rfl : b' = luSclM M c (k + T) b := e2 rfl
          exact ih (k + T) b p' (by omega) (getrfBlk_piv hk.1 hP hb)
    · rw [if_neg hk, if_neg hk]
      exact ⟨rfl, rfl, fun P' e => ⟨rfl, hkM, by cases e; exact hP⟩⟩

theorem getrfLast_scl {M N k : Nat} {c : Nat → G} {ip P : Nat → Nat} (hkM : k ≤ M) (hP : PivotsOK M k ip P) (hkN : k ≤ N) (a : Nat → Nat → V) :
    (getrfLast M N k (luSclM M c k a) P).2 = (getrfLast M N k a P).2 ∧
      ((getrfLast M N k a P).2.isSome = true → (getrfLast M N k (luSclM M c k a) P).1 = luSclM M c (min M N) (getrfLast M N k a P).1) := by
  unfold getrfLast
  by_cases hk : k < M ∧ k < N
  · rw [if_pos hk, if_pos hk]
    have hsub : (fun i j => luSclM M c k a (k + i) (k + j)) = fun i j => scl (c (k + j)) (a (k + i) (k + j)) := by
      funext i j; unfold luSclM; rw [if_neg (by omega)]
    obtain ⟨l1, l2⟩ := luFull_luScl (luScales_col (fun j => c (k + j))) (m := M - k) (fun i j => a (k + i) (k + j)) (fun i => P (k + i)) (min (M - k) (N - k)) (by omega)
    rw [hsub]
    rcases hr : luFull Arith.div updCol (M - k) (fun i j => a (k + i) (k + j)) (fun i => P (k + i)) (min (M - k) (N - k)) with ⟨s, _ | p⟩
    · rcases hr' : luFull Arith.div updCol (M - k) (fun i j => scl (c (k + j)) (a (k + i) (k + j))) (fun i => P (k + i)) (min (M - k) (N - k)) with ⟨s', _ | p'⟩
      · exact ⟨rfl, fun hh => by cases hh⟩
      · rw [hr, hr'] at l1; cases l1
    · rcases hr' : luFull Arith.div updCol (M - k) (fun i j => scl (c (k + j)) (a (k + i) (k + j))) (fun i => P (k + i)) (min (M - k) (N - k)) with ⟨s', _ | p'⟩
      · rw [hr, hr'] at l1; cases l1
      · rw [hr, hr'] at l1 l2
        obtain rfl : p' = p := Option.some.inj l1
        obtain rfl : s' = luScl (fun j => c (k + j)) (min (M - k) (N - k)) s := l2 rfl
        have hP' := hP.extend (luRun_pivots _ (by omega) (luFull_some _ hr)) (by omega)
        dsimp only
        refine ⟨rfl, fun _ => ?_⟩
        have hmin : min M N = k + min (M - k) (N - k) := by omega
        rw [hmin]
        have hPM : ∀ q, k ≤ q → q < k + min (M - k) (N - k) → k ≤ addRange (mergeAt P k p') k (k + min (M - k) (N - k)) q ∧
            addRange (mergeAt P k p') k (k + min (M - k) (N - k)) q < M := fun q h1 h2 => by
          have := hP'.1 q h2
          omega
        rw [paste_panel_scl (by omega), swapCols_left_scl hPM (by omega) _ (by omega)]
  · rw [if_neg hk, if_neg hk]
    refine ⟨rfl, fun _ => ?_⟩
    have z : ∀ b : Nat → Nat → V, swapCols P k k 0 k b = b := fun b => by
      funext i j; unfold swapCols; rw [Nat.sub_self]; exact ite_self _
    dsimp only
    rw [z, z, show min M N = k by omega]

theorem getrfIter_le {T M N : Nat} (fuel : Nat) : ∀ (k : Nat) (a : Nat → Nat → V) (P : Nat → Nat), k ≤ N → (getrfIter T M N fuel k a P).1 ≤ N := by
  induction fuel with
  | zero => intro k a P h; exact h
  | succ fuel ih =>
    intro k a P h
    unfold getrfIter
    by_cases hk : k + T < M ∧ k + T < N
    · rw [if_pos hk]
      rcases getrfBlk T M N k a P with ⟨b, _ | p⟩
      · exact h
      · exact ih _ _ _ (by omega)
    · rw [if_neg hk]; exact h

theorem getrfFull_scl {T M N : Nat} (c : Nat → G) (a : Nat → Nat → V) (ip : Nat → Nat) :
    (getrfFull T M N (fun i j => scl (c j) (a i j)) ip).2 = (getrfFull T M N a ip).2 ∧
      ((getrfFull T M N a ip).2.isSome = true → (getrfFull T M N (fun i j => scl (c j) (a i j)) ip).1 = luSclM M c (min M N) (getrfFull T M N a ip).1) := by
  have hle := getrfIter_le (T := T) (M := M) (N := N) (M + 1) 0 a ip (Nat.zero_le _)
  obtain ⟨e1, e2, e3⟩ := getrfIter_scl (T := T) (M := M) (N := N) (c := c) (ip := ip) (M + 1) 0 a ip (Nat.zero_le _) ⟨fun q h => by omega, fun q _ => rfl⟩
  rw [luSclM_zero] at e1 e2 e3
  unfold getrfFull
  rcases hr : getrfIter T M N (M + 1) 0 a ip with ⟨k, b, _ | P⟩
  · rcases hr' : getrfIter T M N (M + 1) 0 (fun i j => scl (c j) (a i j)) ip with ⟨k', b', _ | P'⟩
    · exact ⟨rfl, fun hh => by cases hh⟩
    · rw [hr, hr'] at e2; cases e2
  · rcases hr' : getrfIter T M N (M + 1) 0 (fun i j => scl (c j) (a i j)) ip with ⟨k', b', _ | P'⟩
    · rw [hr, hr'] at e2; cases e2
    · rw [hr, hr'] at e1 e2 e3
      rw [hr] at hle
      obtain rfl : k' = k := e1
      obtain rfl : P' = P := Option.some.inj e2
      obtain ⟨f1, f2, f3⟩ := e3 P' rfl
      obtain rfl : b' = luSclM M c k' b := f1
      exact getrfLast_scl f2 f3 hle b

/-! ### Row-major LU -/

/-- getf2 with a Blaze division -/
theorem luScales_row (c : Nat → G) {dv : V → V → V} (hdv : ∀ (g h : G) (x d : V), dv (scl g x) (scl h d) = scl (g / h) (dv x d)) : LuScales (V := V) c dv updRow where
  dv := fun j x d => by
    rw [hdv, div_self']
    exact Scaling.one_act _
  upd := fun j l u a => by
    unfold updRow
    rw [scl_mul_left]
    exact Scaling.add _ _ _

/-- both implementations of the division of a column by the pivot: division, and multiplication by the reciprocal -/
theorem scl_recip (g h : G) (x d : V) :
    Arith.mul (scl g x) (Arith.div Arith.one (scl h d)) = scl (g / h) (Arith.mul x (Arith.div Arith.one d)) := by
  have e : Arith.div Arith.one (scl h d) = scl (1 / h) (Arith.div (Arith.one : V) d) := by
    have := scl_div (G := G) (g := 1) (h := h) rfl (Arith.one : V) d
    rwa [show scl (1 : G) (Arith.one : V) = Arith.one from Scaling.one_act _] at this
  rw [e]
  exact scl_mul (mul_one_div g h) _ _

/-- elimination without pivoting of a matrix with scaled rows and columns, after k steps -/
def npScl (r c : Nat → G) (k : Nat) (a : Nat → Nat → V) : Nat → Nat → V :=
  fun i j => if j < i ∧ j < k then scl (r i / r j) (a i j) else scl (r i * c j) (a i j)

theorem elimRun_scl {dv : V → V → V} (hdv : ∀ (g h : G) (x d : V), dv (scl g x) (scl h d) = scl (g / h) (dv x d)) (r c : Nat → G) (a : Nat → Nat → V) (K : Nat) :
    elimRun dv (fun i j => scl (r i * c j) (a i j)) K = npScl r c K (elimRun dv a K) := by
  induction K with
  | zero =>
    funext i j
    unfold npScl
    rw [if_neg (by omega)]
    rfl
  | succ K ih =>
    show elim dv updSub K (elimRun dv (fun i j => scl (r i * c j) (a i j)) K) = npScl r c (K + 1) (elim dv updSub K (elimRun dv a K))
    rw [ih]
    generalize elimRun dv a K = b
    have ek : ∀ i, npScl r c K b i K = scl (r i * c K) (b i K) := fun i => by unfold npScl; rw [if_neg (by omega)]
    have hl : ∀ i, dv (npScl r c K b i K) (npScl r c K b K K) = scl (r i / r K) (dv (b i K) (b K K)) := fun i => by
      rw [ek, ek, hdv, mul_div_mul_right_eq_div]
    funext i j
    unfold elim
    by_cases hi : K < i
    · rw [if_pos hi, hl]
      show _ = npScl r c (K + 1) _ i j
      by_cases hj : j = K
      · subst hj
        rw [if_pos rfl]
        unfold npScl
        beta_reduce
        rw [if_pos ⟨hi, by omega⟩, if_pos hi, if_pos rfl]
      · rw [if_neg hj]
        by_cases hkj : K < j
        · rw [if_pos hkj]
          unfold npScl
          beta_reduce
          rw [if_neg (by omega), if_neg (by omega), if_neg (by omega), if_pos hi, if_neg hj, if_pos hkj]
          unfold updSub
          rw [scl_mul (k := r i * c j) (by rw [← mul_assoc, div_mul_cancel])]
          exact Scaling.sub _ _ _
        · rw [if_neg hkj]
          unfold npScl
          beta_reduce
          by_cases h : j < i ∧ j < K
          · rw [if_pos h, if_pos ⟨h.1, by omega⟩, if_pos hi, if_neg hj, if_neg hkj]
          · omega
    · rw [if_neg hi]
      unfold npScl
      beta_reduce
      rw [if_neg hi]
      by_cases hj : j < i ∧ j < K
      · rw [if_pos hj, if_pos ⟨hj.1, by omega⟩]
      · rw [if_neg hj, if_neg (by omega)]

/-! ### Cholesky -/

theorem potS_scl {KN : Nat} (s : Nat → G) (l : Nat → Nat → V) (acc : V) (r c : Nat) :
    potS KN (fun r c => scl (s r) (l r c)) (scl (s r * s c) acc) r c = scl (s r * s c) (potS KN l acc r c) := by
  unfold potS
  have e : fmaSum (fun q => Arith.mul (Arith.neg Arith.one) (scl (s r) (l r q))) (fun q => scl (s c) (l c q)) (scl (s r * s c) acc) (c / KN * KN) =
      scl (s r * s c) (fmaSum (fun q => Arith.mul (Arith.neg Arith.one) (l r q)) (fun q => l c q) acc (c / KN * KN)) := by
    rw [← fmaSum_scl (G := G) (f := fun _ => s r) (h := fun _ => s c) (s := s r * s c) _ (fun _ _ => rfl)]
    exact fmaSum_congr' _ (fun q _ => scl_mul_left _ _ _) (fun _ _ => rfl)
  beta_reduce
  rw [e]
  exact fnmaSum_scl (G := G) (f := fun _ => s c) (h := fun _ => s r) _ (fun _ _ => mul_comm _ _)

theorem PotAll.scl {G V : Type} [CommGroup G] [Arith V] [S : ScalingSqrt G V] {SS KN M N : Nat} {up : Bool} {a l : Nat → Nat → V} (h : PotAll SS KN M N up a l) (s : Nat → G)
    (hs : ∀ r, r < M → S.Pos (s r)) (hNM : N ≤ M) :
    PotAll SS KN M N up (fun r c => Blast.scl (s r * s c) (a r c)) (fun r c => Blast.scl (s r) (l r c)) := by
  have hq : ∀ c, c < N → Arith.sqrt (potS KN (fun r c => Blast.scl (s r) (l r c)) (Blast.scl (s c * s c) (a c c)) c c) =
      Blast.scl (s c) (Arith.sqrt (potS KN l (a c c) c c)) := fun c hc => by
    rw [potS_scl]
    exact ScalingSqrt.sqrt _ _ (hs c (by omega))
  constructor
  · intro r c hcr hr hc
    have := h.1 r c hcr hr hc
    unfold PotRec at this ⊢
    beta_reduce
    rw [hq c hc, potS_scl, this]
    have hd : ∀ x y : V, Arith.div (Blast.scl (s r * s c) x) (Blast.scl (s c) y) = Blast.scl (s r) (Arith.div x y) := fun x y => scl_div (mul_div_cancel_right _ _) x y
    split
    · exact (hd _ _).symm
    · exact (hd _ _).symm
  · intro hu r c hr hrc hc
    have := h.2 hu r c hr hrc hc
    unfold PotUp at this ⊢
    beta_reduce
    rw [hq c hc, potS_scl, this]
    split
    · exact (scl_div (mul_div_cancel_right _ _) _ _).symm
    · exact Scaling.zero _

/-! ### trmm from the left -/

/-- a(i, k) scaled by r(i) t(k), b(k, j) by c(j) / t(k) -/
theorem LeftVal.scl {SS M N : Nat} {alpha : V} {a b : Nat → Nat → V} {i j : Nat} {v : V} (h : LeftVal SS M N alpha a b i j v) (r t c : Nat → G) (s : G) :
    LeftVal SS M N (Blast.scl s alpha) (fun i k => Blast.scl (r i * t k) (a i k)) (fun k j => Blast.scl (c j / t k) (b k j)) i j (Blast.scl (s * r i * c j) v) := by
  obtain ⟨p, q, ht, h1, h2, e⟩ := h
  refine ⟨p, q, ht, h1, h2, ?_⟩
  have hk : ∀ k, s * (r i * t k) * (c j / t k) = s * r i * c j := fun k => by
    rw [← mul_assoc, mul_assoc (s * r i), mul_div_cancel]
  rw [e]
  clear e
  split
  · unfold trmmLFullEntry
    have e2 : fmaSum (fun t' => Arith.mul (Blast.scl s alpha) (if i - q ≤ (i - q) / SS * SS + t' then Blast.scl (r i * t (q + ((i - q) / SS * SS + t'))) (a i (q + ((i - q) / SS * SS + t'))) else Arith.zero))
        (fun t' => Blast.scl (c j / t (q + ((i - q) / SS * SS + t'))) (b (q + ((i - q) / SS * SS + t')) j)) Arith.zero (p * SS - (i - q) / SS * SS) =
        Blast.scl (s * r i * c j) (fmaSum (fun t' => Arith.mul alpha (if i - q ≤ (i - q) / SS * SS + t' then a i (q + ((i - q) / SS * SS + t')) else Arith.zero))
        (fun t' => b (q + ((i - q) / SS * SS + t')) j) Arith.zero (p * SS - (i - q) / SS * SS)) := by
      rw [← fmaSum_scl_zero (G := G) (f := fun t' => s * (r i * t (q + ((i - q) / SS * SS + t')))) (h := fun t' => c j / t (q + ((i - q) / SS * SS + t'))) (s := s * r i * c j) _ (fun k _ => hk _)]
      refine fmaSum_congr' _ (fun k _ => ?_) (fun _ _ => rfl)
      split
      · exact scl_mul rfl _ _
      · have := scl_mul (G := G) (g := s) (h := r i * t (q + ((i - q) / SS * SS + k))) rfl alpha (Arith.zero : V)
        rwa [show Blast.scl (r i * t (q + ((i - q) / SS * SS + k))) (Arith.zero : V) = Arith.zero from Scaling.zero _] at this
    beta_reduce
    rw [e2, ← fmaSum_scl (G := G) (f := fun k => s * (r i * t (q + p * SS + k))) (h := fun k => c j / t (q + p * SS + k)) (s := s * r i * c j) _ (fun k _ => hk _)]
    exact (fmaSum_congr' _ (fun k _ => scl_mul rfl _ _) (fun _ _ => rfl)).symm
  · unfold trmmLPartEntry
    beta_reduce
    rw [← fmaSum_scl_zero (G := G) (f := fun k => s * (r i * t (q + k))) (h := fun k => c j / t (q + k)) (s := s * r i * c j) _ (fun k _ => hk _)]
    exact (fmaSum_congr' _ (fun k _ => scl_mul rfl _ _) (fun _ _ => rfl)).symm

end Blast
