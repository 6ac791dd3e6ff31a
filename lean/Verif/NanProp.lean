import Verif.Determined
import Verif.Nan
import Verif.Ieee
/-
Propagation of NaN through the expressions that the algorithms compute (no new code). Used for C76.
-/
set_option linter.unusedSectionVars false
namespace Blast
open Prog Reg

/-- A set of values that behaves like the NaNs of IEEE 754: an operation with such an operand gives such a result. -/
class NanArith (V : Type) [Arith V] where
  IsNan : V → Prop
  add : ∀ x y : V, IsNan x ∨ IsNan y → IsNan (Arith.add x y)
  sub : ∀ x y : V, IsNan x ∨ IsNan y → IsNan (Arith.sub x y)
  mul : ∀ x y : V, IsNan x ∨ IsNan y → IsNan (Arith.mul x y)
  div : ∀ x y : V, IsNan x ∨ IsNan y → IsNan (Arith.div x y)
  neg : ∀ x : V, IsNan x → IsNan (Arith.neg x)
  sqrt : ∀ x : V, IsNan x → IsNan (Arith.sqrt x)
  fma : ∀ x y z : V, IsNan x ∨ IsNan y ∨ IsNan z → IsNan (Arith.fma x y z)
  fnma : ∀ x y z : V, IsNan x ∨ IsNan y ∨ IsNan z → IsNan (Arith.fnma x y z)

export NanArith (IsNan)

/-- and no NaN arises from numbers in products and sums (no overflow: `0 * inf` and `inf - inf` do not occur) -/
class NanOnly (V : Type) [Arith V] extends NanArith V where
  zero_num : ¬ IsNan (Arith.zero : V)
  one_num : ¬ IsNan (Arith.one : V)
  mul_only : ∀ x y : V, IsNan (Arith.mul x y) → IsNan x ∨ IsNan y
  fma_only : ∀ x y z : V, IsNan (Arith.fma x y z) → IsNan x ∨ IsNan y ∨ IsNan z

section instances
variable {F : Type} [Field F] [LinearOrder F] [IsStrictOrderedRing F] [Arith F]

/-- numbers and NaN -/
instance : NanArith (Nan F) where
  IsNan x := x = (none : Option F)
  add x y h := by rcases x with _ | x <;> rcases y with _ | y <;> first | rfl | (rcases h with h | h <;> cases h)
  sub x y h := by rcases x with _ | x <;> rcases y with _ | y <;> first | rfl | (rcases h with h | h <;> cases h)
  mul x y h := by rcases x with _ | x <;> rcases y with _ | y <;> first | rfl | (rcases h with h | h <;> cases h)
  div x y h := by rcases x with _ | x <;> rcases y with _ | y <;> first | rfl | (rcases h with h | h <;> cases h)
  neg x h := by rcases x with _ | x <;> first | rfl | cases h
  sqrt x h := by rcases x with _ | x <;> first | rfl | cases h
  fma x y z h := by
    rcases x with _ | x <;> rcases y with _ | y <;> rcases z with _ | z <;> first | rfl | (rcases h with h | h | h <;> cases h)
  fnma x y z h := by
    rcases x with _ | x <;> rcases y with _ | y <;> rcases z with _ | z <;> first | rfl | (rcases h with h | h | h <;> cases h)

/-- the NanOnly structure -/
instance : NanOnly (Nan F) where
  zero_num h := by cases h
  one_num h := by cases h
  mul_only x y h := by
    rcases x with _ | x
    · exact Or.inl rfl
    rcases y with _ | y
    · exact Or.inr rfl
    cases h
  fma_only x y z h := by
    rcases x with _ | x
    · exact Or.inl rfl
    rcases y with _ | y
    · exact Or.inr (Or.inl rfl)
    rcases z with _ | z
    · exact Or.inr (Or.inr rfl)
    cases h

theorem Ieee.add_nan (x : Ieee F) : Ieee.add x .nan = .nan := by cases x <;> rfl
theorem Ieee.mul_nan (x : Ieee F) : Ieee.mul x .nan = .nan := by cases x <;> rfl

/-- numbers, infinities and NaN -/
instance : NanArith (Ieee F) where
  IsNan x := x = .nan
  add x y h := by
    rcases h with rfl | rfl
    · cases y <;> rfl
    · exact Ieee.add_nan x
  sub x y h := by
    rcases h with rfl | rfl
    · cases y <;> rfl
    · cases x <;> rfl
  mul x y h := by
    rcases h with rfl | rfl
    · cases y <;> rfl
    · exact Ieee.mul_nan x
  div x y h := by
    rcases h with rfl | rfl
    · cases y <;> rfl
    · cases x <;> rfl
  neg x h := by subst h; rfl
  sqrt x h := by subst h; rfl
  fma x y z h := by
    rcases h with rfl | rfl | rfl
    · cases y <;> cases z <;> rfl
    · cases x <;> cases z <;> rfl
    · cases x with
      | fin x =>
        cases y with
        | inf t => exact Ieee.add_nan (Ieee.mul (.fin x) (.inf t : Ieee F))
        | _ => rfl
      | inf s =>
        cases y with
        | fin y => exact Ieee.add_nan (Ieee.mul (.inf s) (.fin y : Ieee F))
        | _ => rfl
      | nan => cases y <;> rfl
  fnma x y z h := by
    rcases h with rfl | rfl | rfl
    · cases y <;> cases z <;> rfl
    · cases x <;> cases z <;> rfl
    · cases x with
      | fin x =>
        cases y with
        | inf t => exact Ieee.add_nan (Ieee.neg (Ieee.mul (.fin x) (.inf t : Ieee F)))
        | _ => rfl
      | inf s =>
        cases y with
        | fin y => exact Ieee.add_nan (Ieee.neg (Ieee.mul (.inf s) (.fin y : Ieee F)))
        | _ => rfl
      | nan => cases y <;> rfl

end instances

variable {V : Type} [Arith V] [NanArith V]

/-! ### sums -/

theorem fmaSum_nan_acc {a b : Nat → V} {c : V} (h : IsNan c) (K : Nat) : IsNan (fmaSum a b c K) := by
  induction K with
  | zero => exact h
  | succ K ih => exact NanArith.fma _ _ _ (Or.inr (Or.inr ih))

theorem fmaSum_nan {a b : Nat → V} {c : V} {K k : Nat} (hk : k < K) (h : IsNan (a k) ∨ IsNan (b k)) : IsNan (fmaSum a b c K) := by
  induction K with
  | zero => omega
  | succ K ih =>
    by_cases e : k = K
    · subst e; exact NanArith.fma _ _ _ (by rcases h with h | h; exacts [Or.inl h, Or.inr (Or.inl h)])
    · exact NanArith.fma _ _ _ (Or.inr (Or.inr (ih (by omega))))

theorem fmaSum_only {V : Type} [Arith V] [NanOnly V] {a b : Nat → V} {c : V} {K : Nat} (h : IsNan (fmaSum a b c K)) :
    IsNan c ∨ ∃ k, k < K ∧ (IsNan (a k) ∨ IsNan (b k)) := by
  induction K with
  | zero => exact Or.inl h
  | succ K ih =>
    rcases NanOnly.fma_only _ _ _ h with h | h | h
    · exact Or.inr ⟨K, Nat.lt_succ_self K, Or.inl h⟩
    · exact Or.inr ⟨K, Nat.lt_succ_self K, Or.inr h⟩
    · rcases ih h with h | ⟨k, hk, h⟩
      · exact Or.inl h
      · exact Or.inr ⟨k, by omega, h⟩

theorem fnmaSum_nan_acc {a b : Nat → V} {c : V} (h : IsNan c) (K : Nat) : IsNan (fnmaSum a b c K) := by
  induction K with
  | zero => exact h
  | succ K ih => exact NanArith.fnma _ _ _ (Or.inr (Or.inr ih))

theorem fnmaSum_nan {a b : Nat → V} {c : V} {K k : Nat} (hk : k < K) (h : IsNan (a k) ∨ IsNan (b k)) : IsNan (fnmaSum a b c K) := by
  induction K with
  | zero => omega
  | succ K ih =>
    by_cases e : k = K
    · subst e; exact NanArith.fnma _ _ _ (by rcases h with h | h; exacts [Or.inl h, Or.inr (Or.inl h)])
    · exact NanArith.fnma _ _ _ (Or.inr (Or.inr (ih (by omega))))

theorem subFold_nan_acc {f : Nat → V} {c : V} {lo : Nat} (h : IsNan c) (n : Nat) : IsNan (subFold f c lo n) := by
  induction n with
  | zero => exact h
  | succ n ih => exact NanArith.sub _ _ (Or.inl ih)

theorem subFold_nan {f : Nat → V} {c : V} {lo n k : Nat} (h1 : lo ≤ k) (h2 : k < lo + n) (h : IsNan (f k)) : IsNan (subFold f c lo n) := by
  induction n with
  | zero => omega
  | succ n ih =>
    by_cases e : k = lo + n
    · subst e; exact NanArith.sub _ _ (Or.inr h)
    · exact NanArith.sub _ _ (Or.inl (ih (by omega)))

/-! ### trmm -/

theorem leftSched_mod (T M n : Nat) : (leftSched T M n).2 % T = 0 := by
  induction n with
  | zero => exact Nat.zero_mod T
  | succ n ih =>
    show (leftNext T M (leftSched T M n)).2 % T = 0
    unfold leftNext
    split
    · dsimp only
      rw [Nat.add_mul_mod_self_right]; exact ih
    · exact ih

theorem LeftTile.mod {T M p i : Nat} (h : LeftTile T M p i) : i % T = 0 := by
  obtain ⟨⟨n, e⟩, -⟩ := h
  have := leftSched_mod T M n
  rwa [e] at this

/-- NaN in row `k` of the right factor -/
theorem LeftVal.nan_right {SS M N : Nat} (hSS : 0 < SS) {alpha : V} {a b : Nat → Nat → V} {r c k : Nat} {v : V} (h : LeftVal SS M N alpha a b r c v)
    (hk : r / SS * SS ≤ k) (hkM : k < M) (hn : IsNan (b k c)) : IsNan v := by
  obtain ⟨p, i, ht, h1, h2, rfl⟩ := h
  have hm := ht.mod
  obtain ⟨w, rfl⟩ := Nat.dvd_of_mod_eq_zero hm
  have hd : r / SS = w + (r - SS * w) / SS := by
    conv_lhs => rw [show r = (r - SS * w) + SS * w by omega]
    rw [Nat.add_mul_div_left _ _ hSS, Nat.add_comm]
  rw [hd, Nat.add_mul, Nat.mul_comm w SS] at hk
  have hl : (r - SS * w) / SS * SS ≤ r - SS * w := Nat.div_mul_le_self _ _
  split
  · unfold trmmLFullEntry
    by_cases hlt : k < SS * w + p * SS
    · refine fmaSum_nan_acc (fmaSum_nan (k := k - SS * w - (r - SS * w) / SS * SS) (by omega) (Or.inr ?_)) _
      rw [show SS * w + ((r - SS * w) / SS * SS + (k - SS * w - (r - SS * w) / SS * SS)) = k by omega]
      exact hn
    · refine fmaSum_nan (k := k - SS * w - p * SS) (by omega) (Or.inr ?_)
      rw [show SS * w + p * SS + (k - SS * w - p * SS) = k by omega]
      exact hn
  · unfold trmmLPartEntry
    refine fmaSum_nan (k := k - SS * w) (by omega) (Or.inr ?_)
    rw [show SS * w + (k - SS * w) = k by omega]
    exact hn

/-- NaN in the upper triangular factor or in the scalar -/
theorem LeftVal.nan_left {SS M N : Nat} {alpha : V} {a b : Nat → Nat → V} {r c k : Nat} {v : V} (h : LeftVal SS M N alpha a b r c v)
    (hk : r ≤ k) (hkM : k < M) (hn : IsNan alpha ∨ IsNan (a r k)) : IsNan v := by
  obtain ⟨p, i, ht, h1, h2, rfl⟩ := h
  have hl : (r - i) / SS * SS ≤ r - i := Nat.div_mul_le_self _ _
  split
  · unfold trmmLFullEntry
    by_cases hlt : k < i + p * SS
    · refine fmaSum_nan_acc (fmaSum_nan (k := k - i - (r - i) / SS * SS) (by omega) (Or.inl ?_)) _
      refine NanArith.mul (V := V) _ _ ?_
      rw [if_pos (by omega), show i + ((r - i) / SS * SS + (k - i - (r - i) / SS * SS)) = k by omega]
      exact hn
    · refine fmaSum_nan (k := k - i - p * SS) (by omega) (Or.inl (NanArith.mul _ _ ?_))
      rw [show i + p * SS + (k - i - p * SS) = k by omega]
      exact hn
  · unfold trmmLPartEntry
    refine fmaSum_nan (k := k - i) (by omega) (Or.inl (NanArith.mul _ _ ?_))
    rw [show i + (k - i) = k by omega]
    exact hn

/-! ### triangular solves -/

/-- row `k` is solved before row `i` -/
def SolvedBefore (uplo : UpLo) (k i : Nat) : Prop :=
  match uplo with
  | .lower => k < i
  | .upper => i < k

section
variable {uplo : UpLo} {unit : Bool} {m : Nat} {a : Nat → Nat → V} {b x : Nat → V}

theorem TrsmRec.nan_rhs (h : TrsmRec uplo unit m a b x) {i : Nat} (hi : i < m) (hb : IsNan (b i)) : IsNan (x i) := by
  rw [h i hi]
  dsimp only
  have := subFold_nan_acc (f := fun k => Arith.mul (a i k) (x k)) (lo := solveLo uplo i) hb (solveHi uplo m i - solveLo uplo i)
  cases unit with
  | true => exact this
  | false => exact NanArith.div _ _ (Or.inl this)

theorem TrsmRec.nan_term (h : TrsmRec uplo unit m a b x) {i k : Nat} (hi : i < m) (hk : k < m) (hb : SolvedBefore uplo k i) (hn : IsNan (a i k) ∨ IsNan (x k)) :
    IsNan (x i) := by
  rw [h i hi]
  dsimp only
  have : IsNan (subFold (fun k => Arith.mul (a i k) (x k)) (b i) (solveLo uplo i) (solveHi uplo m i - solveLo uplo i)) := by
    refine subFold_nan (k := k) ?_ ?_ (NanArith.mul _ _ hn)
    · cases uplo
      · exact Nat.zero_le _
      · exact hb
    · cases uplo
      · show k < 0 + (i - 0)
        have : k < i := hb
        omega
      · show k < i + 1 + (m - (i + 1))
        have : i < k := hb
        omega
  cases unit with
  | true => exact this
  | false => exact NanArith.div _ _ (Or.inl this)

theorem TrsmRec.nan_diag (h : TrsmRec uplo false m a b x) {i : Nat} (hi : i < m) (hn : IsNan (a i i)) : IsNan (x i) := by
  rw [h i hi]
  exact NanArith.div _ _ (Or.inr hn)

end

/-! ### Cholesky -/

section
variable {T KN M N : Nat} {l a : Nat → Nat → V}

theorem potS_nan_acc {acc : V} (h : IsNan acc) (r c : Nat) : IsNan (potS KN l acc r c) := fnmaSum_nan_acc (fmaSum_nan_acc h _) _

theorem potS_nan {acc : V} {r c q : Nat} (hq : q < c) (h : IsNan (l r q) ∨ IsNan (l c q)) : IsNan (potS KN l acc r c) := by
  unfold potS
  have h1 := Nat.div_add_mod c KN
  have h2 := Nat.mul_comm KN (c / KN)
  by_cases hc : q < c / KN * KN
  · refine fnmaSum_nan_acc (fmaSum_nan hc ?_) _
    rcases h with h | h
    · exact Or.inl (NanArith.mul _ _ (Or.inr h))
    · exact Or.inr h
  · refine fnmaSum_nan (k := q - c / KN * KN) (by omega) ?_
    rw [show c / KN * KN + (q - c / KN * KN) = q by omega]
    exact h.symm

/-- a NaN in row r spreads along the row -/
theorem pot_nan_row (h : ∀ r c, c ≤ r → r < M → c < N → PotRec T KN M l a r c) {r c c' : Nat} (hc : c ≤ c') (hr : c' ≤ r) (hM : r < M) (hN : c' < N)
    (hn : IsNan (a r c)) : IsNan (l r c') := by
  have h0 : IsNan (l r c) := by
    rw [h r c (by omega) hM (by omega)]
    exact NanArith.div _ _ (Or.inl (potS_nan_acc hn _ _))
  by_cases e : c = c'
  · subst e; exact h0
  · rw [h r c' hr hM hN]
    exact NanArith.div _ _ (Or.inl (potS_nan (q := c) (by omega) (Or.inl h0)))

/-- and from the diagonal to all later columns -/
theorem pot_nan_all (h : ∀ r c, c ≤ r → r < M → c < N → PotRec T KN M l a r c) {r c i j : Nat} (hc : c ≤ r) (hr : r ≤ j) (hj : j ≤ i) (hM : i < M)
    (hN : j < N) (hn : IsNan (a r c)) : IsNan (l i j) := by
  have hd : IsNan (l r r) := pot_nan_row h hc (Nat.le_refl _) (by omega) (by omega) hn
  have hs : IsNan (potS KN l (a r r) r r) := by
    by_cases e : c = r
    · subst e; exact potS_nan_acc hn _ _
    · exact potS_nan (q := c) (by omega) (Or.inl (pot_nan_row h (Nat.le_refl _) hc (by omega) (by omega) hn))
  have hcol : ∀ i, r ≤ i → i < M → IsNan (l i r) := by
    intro i h1 h2
    rw [h i r h1 h2 (by omega)]
    refine NanArith.div _ _ (Or.inr ?_)
    split
    · exact NanArith.sqrt _ hs
    · exact hd
  by_cases e : r = j
  · subst e; exact hcol i hj hM
  · rw [h i j hj hM hN]
    exact NanArith.div _ _ (Or.inl (potS_nan (q := r) (by omega) (Or.inl (hcol i (by omega) hM))))

end

/-! ### LU -/

/-- a NaN among the elements of an m × n matrix, in the rows and columns from `k` on -/
def HasNanFrom (k m n : Nat) (a : Nat → Nat → V) : Prop := ∃ i j, k ≤ i ∧ i < m ∧ k ≤ j ∧ j < n ∧ IsNan (a i j)

/-- a NaN among the elements of an m × n matrix -/
def HasNan (m n : Nat) (a : Nat → Nat → V) : Prop := ∃ i j, i < m ∧ j < n ∧ IsNan (a i j)

/-- the requirements on the division and the update of the factorization -/
structure NanOps (dv : V → V → V) (upd : V → V → V → V) : Prop where
  dv : ∀ x y, IsNan x ∨ IsNan y → IsNan (dv x y)
  upd : ∀ x y z, IsNan x ∨ IsNan y ∨ IsNan z → IsNan (upd x y z)

theorem nanOps_col : NanOps (V := V) Arith.div updCol :=
  ⟨NanArith.div, fun x y z h => by
    unfold updCol gerEntry
    rcases h with h | h | h
    · exact NanArith.fma _ _ _ (Or.inl (NanArith.mul _ _ (Or.inr h)))
    · exact NanArith.fma _ _ _ (Or.inr (Or.inl h))
    · exact NanArith.fma _ _ _ (Or.inr (Or.inr (NanArith.mul _ _ (Or.inr h))))⟩

theorem nanOps_row {dv : V → V → V} (h : ∀ x y, IsNan x ∨ IsNan y → IsNan (dv x y)) : NanOps (V := V) dv updRow :=
  ⟨h, fun x y z h => by
    unfold updRow
    rcases h with h | h | h
    · exact NanArith.add _ _ (Or.inr (NanArith.mul _ _ (Or.inl (NanArith.mul _ _ (Or.inr h)))))
    · exact NanArith.add _ _ (Or.inr (NanArith.mul _ _ (Or.inr h)))
    · exact NanArith.add _ _ (Or.inl h)⟩

theorem nanOps_sub {dv : V → V → V} (h : ∀ x y, IsNan x ∨ IsNan y → IsNan (dv x y)) : NanOps (V := V) dv updSub :=
  ⟨h, fun x y z h => by
    unfold updSub
    rcases h with h | h | h
    · exact NanArith.sub _ _ (Or.inr (NanArith.mul _ _ (Or.inl h)))
    · exact NanArith.sub _ _ (Or.inr (NanArith.mul _ _ (Or.inr h)))
    · exact NanArith.sub _ _ (Or.inl h)⟩

section
variable {dv : V → V → V} {upd : V → V → V → V} {m n : Nat} {a : Nat → Nat → V}

theorem swapRows_at {p q i j : Nat} (a : Nat → Nat → V) : swapRows p q a (if i = p then q else if i = q then p else i) j = a i j := by
  unfold swapRows
  by_cases h1 : i = p
  · subst h1
    by_cases h2 : q = i
    · subst h2; simp
    · simp [h2]
  · by_cases h2 : i = q
    · subst h2; simp [h1]
    · simp [h1, h2]

theorem HasNanFrom.swap {k : Nat} (h : HasNanFrom k m n a) {p q : Nat} (hp : k ≤ p) (hpm : p < m) (hq : k ≤ q) (hqm : q < m) :
    HasNanFrom k m n (swapRows p q a) := by
  obtain ⟨i, j, h1, h2, h3, h4, h5⟩ := h
  refine ⟨if i = p then q else if i = q then p else i, j, ?_, ?_, h3, h4, by rw [swapRows_at]; exact h5⟩ <;> split <;> try split
  all_goals omega

theorem HasNan.swap (h : HasNan m n a) {p q : Nat} (hpm : p < m) (hqm : q < m) : HasNan m n (swapRows p q a) := by
  obtain ⟨i, j, h2, h4, h5⟩ := h
  refine ⟨if i = p then q else if i = q then p else i, j, ?_, h4, by rw [swapRows_at]; exact h5⟩
  split <;> try split
  all_goals omega

/-- elimination keeps NaNs -/
theorem HasNan.elim (ho : NanOps dv upd) {k : Nat} (h : HasNan m n a) : HasNan m n (elim dv upd k a) := by
  obtain ⟨i, j, h2, h4, h5⟩ := h
  refine ⟨i, j, h2, h4, ?_⟩
  unfold Blast.elim
  split
  · split
    · rename_i e; subst e; exact ho.dv _ _ (Or.inl h5)
    · split
      · exact ho.upd _ _ _ (Or.inr (Or.inr h5))
      · exact h5
  · exact h5

/-- a NaN in the active part stays in the active part -/
theorem HasNanFrom.elim (ho : NanOps dv upd) {k : Nat} (h : HasNanFrom k m n a) (hm : k + 1 < m) (hn : k + 1 < n) :
    HasNanFrom (k + 1) m n (elim dv upd k a) := by
  obtain ⟨i, j, h1, h2, h3, h4, h5⟩ := h
  have key : ∀ i j, k < i → k < j → Blast.elim dv upd k a i j = upd (dv (a i k) (a k k)) (a k j) (a i j) := fun i j hi hj => by
    unfold Blast.elim; rw [if_pos hi, if_neg (by omega), if_pos hj]
  by_cases hi : i = k
  · subst hi
    by_cases hj : j = i
    · subst hj
      exact ⟨j + 1, j + 1, by omega, hm, by omega, hn, by rw [key _ _ (by omega) (by omega)]; exact ho.upd _ _ _ (Or.inl (ho.dv _ _ (Or.inr h5)))⟩
    · exact ⟨i + 1, j, by omega, hm, by omega, h4, by rw [key _ _ (by omega) (by omega)]; exact ho.upd _ _ _ (Or.inr (Or.inl h5))⟩
  · by_cases hj : j = k
    · subst hj
      exact ⟨i, j + 1, by omega, h2, by omega, hn, by rw [key _ _ (by omega) (by omega)]; exact ho.upd _ _ _ (Or.inl (ho.dv _ _ (Or.inl h5)))⟩
    · exact ⟨i, j, by omega, h2, by omega, h4, by rw [key _ _ (by omega) (by omega)]; exact ho.upd _ _ _ (Or.inr (Or.inr h5))⟩

/-- the factorization keeps NaNs, also if it fails -/
theorem HasNan.luFull (ho : NanOps dv upd) (ip : Nat → Nat) (h : HasNan m n a) : ∀ {K : Nat}, K ≤ m → HasNan m n (luFull dv upd m a ip K).1 := by
  intro K
  induction K with
  | zero => intro _; exact h
  | succ k ih =>
    intro hk
    have ih := ih (by omega)
    unfold Blast.luFull
    rcases hr : Blast.luFull dv upd m a ip k with ⟨b, _ | p⟩
    · rw [hr] at ih; exact ih
    · rw [hr] at ih
      have hb : HasNan m n (swapRows k (pivotRow m b k) b) := ih.swap (by omega) (pivotRow_lt _ (by omega)).2
      dsimp only
      unfold luStep
      dsimp only
      split
      · rename_i e
        split at e
        · cases e
        · cases e
          exact hb.elim ho
      · exact hb

/-- a NaN never leaves the part that is not factorized yet -/
theorem HasNanFrom.luFull (ho : NanOps dv upd) (ip : Nat → Nat) (h : HasNan m n a) : ∀ {K : Nat}, K < m → K < n → ∀ {b p},
    luFull dv upd m a ip K = (b, some p) → HasNanFrom K m n b := by
  intro K
  induction K with
  | zero =>
    intro _ _ b p e
    cases e
    obtain ⟨i, j, h1, h2, h3⟩ := h
    exact ⟨i, j, Nat.zero_le _, h1, Nat.zero_le _, h2, h3⟩
  | succ k ih =>
    intro hk hkn b p e
    unfold Blast.luFull at e
    rcases hr : Blast.luFull dv upd m a ip k with ⟨b', _ | p'⟩
    · rw [hr] at e; cases e
    · rw [hr] at e
      have hb := (ih (by omega) (by omega) hr).swap (p := k) (q := pivotRow m b' k) (Nat.le_refl _) (by omega) (pivotRow_lt _ (by omega)).1 (pivotRow_lt _ (by omega)).2
      dsimp only at e
      unfold luStep at e
      dsimp only at e
      split at e
      · rename_i e'
        split at e'
        · cases e'
        · cases e'; cases e
          exact hb.elim ho hk hkn
      · cases e

theorem luFull_last_nan (ho : NanOps dv upd) (ip : Nat → Nat) (hm : 0 < m) (h : HasNan m m a) {b : Nat → Nat → V} {p : Nat → Nat}
    (e : luFull dv upd m a ip m = (b, some p)) : IsNan (b (m - 1) (m - 1)) := by
  obtain ⟨k, rfl⟩ : ∃ k, m = k + 1 := ⟨m - 1, by omega⟩
  unfold luFull at e
  rcases hr : luFull dv upd (k + 1) a ip k with ⟨b', _ | p'⟩
  · rw [hr] at e; cases e
  · rw [hr] at e
    have hb := (HasNanFrom.luFull ho ip h (by omega) (by omega) hr).swap (p := k) (q := pivotRow (k + 1) b' k) (Nat.le_refl _) (by omega)
      (pivotRow_lt _ (by omega)).1 (pivotRow_lt _ (by omega)).2
    dsimp only at e
    unfold luStep at e
    dsimp only at e
    split at e
    · rename_i e'
      split at e'
      · cases e'
      · cases e'; cases e
        obtain ⟨i, j, h1, h2, h3, h4, h5⟩ := hb
        obtain rfl : i = k := by omega
        obtain rfl : j = i := by omega
        show IsNan (Blast.elim dv upd _ _ j j)
        unfold Blast.elim
        rw [if_neg (by omega)]
        exact h5
    · cases e

/-- elimination without pivoting -/
theorem HasNan.elimRun (hdv : ∀ x y, IsNan x ∨ IsNan y → IsNan (dv x y)) (h : HasNan m n a) (K : Nat) : HasNan m n (elimRun dv a K) := by
  induction K with
  | zero => exact h
  | succ K ih => exact ih.elim (nanOps_sub hdv)

theorem elimRun_last_nan (hdv : ∀ x y, IsNan x ∨ IsNan y → IsNan (dv x y)) (hm : 0 < m) (h : HasNan m m a) : IsNan (elimRun dv a m (m - 1) (m - 1)) := by
  have key : ∀ K, K < m → HasNanFrom K m m (elimRun dv a K) := by
    intro K
    induction K with
    | zero =>
      intro _
      obtain ⟨i, j, h1, h2, h3⟩ := h
      exact ⟨i, j, Nat.zero_le _, h1, Nat.zero_le _, h2, h3⟩
    | succ K ih => intro hK; exact (ih (by omega)).elim (nanOps_sub hdv) hK hK
  obtain ⟨k, rfl⟩ : ∃ k, m = k + 1 := ⟨m - 1, by omega⟩
  obtain ⟨i, j, h1, h2, h3, h4, h5⟩ := key k (by omega)
  obtain rfl : i = k := by omega
  obtain rfl : j = i := by omega
  show IsNan (Blast.elim dv updSub j _ j j)
  unfold Blast.elim
  rw [if_neg (by omega)]
  exact h5

/-- after a panel of `K` columns: NaN below the diagonal block -/
theorem luFull_panel_nan (ho : NanOps dv upd) (ip : Nat → Nat) {K : Nat} (hK : 0 < K) (hm : K < m) (h : HasNan m K a) {b : Nat → Nat → V} {p : Nat → Nat}
    (e : luFull dv upd m a ip K = (b, some p)) : ∃ i q, K ≤ i ∧ i < m ∧ q < K ∧ IsNan (b i q) := by
  obtain ⟨k, rfl⟩ : ∃ k, K = k + 1 := ⟨K - 1, by omega⟩
  unfold luFull at e
  rcases hr : luFull dv upd m a ip k with ⟨b', _ | p'⟩
  · rw [hr] at e; cases e
  · rw [hr] at e
    have hb := (HasNanFrom.luFull ho ip h (by omega) (by omega) hr).swap (p := k) (q := pivotRow m b' k) (Nat.le_refl _) (by omega)
      (pivotRow_lt _ (by omega)).1 (pivotRow_lt _ (by omega)).2
    dsimp only at e
    unfold luStep at e
    dsimp only at e
    split at e
    · rename_i e'
      split at e'
      · cases e'
      · cases e'; cases e
        obtain ⟨i, j, h1, h2, h3, h4, h5⟩ := hb
        obtain rfl : j = k := by omega
        by_cases hi : i = j
        · subst hi
          refine ⟨i + 1, i, Nat.le_refl _, hm, by omega, ?_⟩
          show IsNan (Blast.elim dv upd _ _ (i + 1) i)
          unfold Blast.elim
          rw [if_pos (by omega), if_pos rfl]
          exact ho.dv _ _ (Or.inr h5)
        · refine ⟨i, j, by omega, h2, by omega, ?_⟩
          show IsNan (Blast.elim dv upd _ _ i j)
          unfold Blast.elim
          rw [if_pos (by omega), if_pos rfl]
          exact ho.dv _ _ (Or.inl h5)
    · cases e

end

/-! ### blocked LU -/

section
variable {M N k T : Nat} {a : Nat → Nat → V}

theorem rowPerm_onto {p : Nat → Nat} {k0 t m i : Nat} (hp : ∀ q, k0 ≤ q → q < k0 + t → k0 ≤ p q ∧ p q < m) (hm : k0 + t ≤ m)
    (hi : k0 ≤ i ∧ i < m) : ∃ i', k0 ≤ i' ∧ i' < m ∧ rowPerm p k0 t i' = i := by
  induction t with
  | zero => exact ⟨i, hi.1, hi.2, rfl⟩
  | succ t ih =>
    obtain ⟨i0, h1, h2, h3⟩ := ih (fun q h1 h2 => hp q h1 (by omega)) (by omega)
    have hb := hp (k0 + t) (by omega) (by omega)
    refine ⟨swapIdx (k0 + t) (p (k0 + t)) i0, ?_, ?_, ?_⟩
    · unfold swapIdx; split <;> try split
      all_goals omega
    · unfold swapIdx; split <;> try split
      all_goals omega
    · show rowPerm p k0 t (swapIdx _ _ (swapIdx _ _ i0)) = i
      rw [show swapIdx (k0 + t) (p (k0 + t)) (swapIdx (k0 + t) (p (k0 + t)) i0) = i0 by
        unfold swapIdx; grind]
      exact h3

/-- interchanges of the rows `≥ k` -/
theorem swapCols_nan {P : Nat → Nat} {k1 c0 n i j : Nat} (hk1 : k ≤ k1) (hk : k1 ≤ M) (hP : ∀ q, k ≤ q → q < k1 → k ≤ P q ∧ P q < M)
    (hi : i < M) (h : IsNan (a i j)) : ∃ i', i' < M ∧ (k ≤ i → k ≤ i') ∧ (i < k → i' = i) ∧ IsNan (swapCols P k k1 c0 n a i' j) := by
  unfold swapCols
  by_cases hc : c0 ≤ j ∧ j < c0 + n
  · by_cases hki : k ≤ i
    · obtain ⟨i', h1, h2, h3⟩ := rowPerm_onto (p := P) (k0 := k) (t := k1 - k) (m := M) (i := i) (fun q h1 h2 => hP q h1 (by omega)) (by omega) ⟨hki, hi⟩
      refine ⟨i', h2, fun _ => h1, fun h => by omega, ?_⟩
      rw [if_pos hc, rowSwaps_eq, h3]; exact h
    · refine ⟨i, hi, fun h => h, fun _ => rfl, ?_⟩
      rw [if_pos hc, rowSwaps_eq, rowPerm_lt (fun q h1 h2 => (hP q h1 (by omega)).1) (by omega)]; exact h
  · exact ⟨i, hi, fun h => h, fun _ => rfl, by rw [if_neg hc]; exact h⟩

theorem HasNan.swapCols {P : Nat → Nat} {k1 c0 n : Nat} (hk1 : k ≤ k1) (hk : k1 ≤ M) (hP : ∀ q, k ≤ q → q < k1 → k ≤ P q ∧ P q < M)
    (h : HasNan M N a) : HasNan M N (swapCols P k k1 c0 n a) := by
  obtain ⟨i, j, hi, hj, hn⟩ := h
  obtain ⟨i', h1, -, -, h2⟩ := swapCols_nan (c0 := c0) (n := n) hk1 hk hP hi hn
  exact ⟨i', j, h1, hj, h2⟩

theorem HasNanFrom.swapCols {P : Nat → Nat} {k1 c0 n : Nat} (hk1 : k ≤ k1) (hk : k1 ≤ M) (hP : ∀ q, k ≤ q → q < k1 → k ≤ P q ∧ P q < M)
    (h : HasNanFrom k M N a) : HasNanFrom k M N (swapCols P k k1 c0 n a) := by
  obtain ⟨i, j, h1, hi, h2, hj, hn⟩ := h
  obtain ⟨i', h3, h4, -, h5⟩ := swapCols_nan (c0 := c0) (n := n) hk1 hk hP hi hn
  exact ⟨i', j, h4 h1, h3, h2, hj, h5⟩

/-- replacing a block whose NaNs survive -/
theorem HasNan.paste {r0 c0 r c : Nat} {f : Nat → Nat → V} (hr : r0 + r ≤ M) (hc : c0 + c ≤ N) (h : HasNan M N a)
    (hf : HasNan r c (fun i j => a (r0 + i) (c0 + j)) → HasNan r c f) : HasNan M N (paste r0 c0 r c f a) := by
  obtain ⟨i, j, hi, hj, hn⟩ := h
  by_cases hin : r0 ≤ i ∧ i < r0 + r ∧ c0 ≤ j ∧ j < c0 + c
  · obtain ⟨i', j', h1, h2, h3⟩ := hf ⟨i - r0, j - c0, by omega, by omega, by
      beta_reduce; rw [show r0 + (i - r0) = i by omega, show c0 + (j - c0) = j by omega]; exact hn⟩
    refine ⟨r0 + i', c0 + j', by omega, by omega, ?_⟩
    unfold Blast.paste
    rw [if_pos ⟨by omega, by omega, by omega, by omega⟩, show r0 + i' - r0 = i' by omega, show c0 + j' - c0 = j' by omega]
    exact h3
  · exact ⟨i, j, hi, hj, by unfold Blast.paste; rw [if_neg hin]; exact hn⟩

/-- replacing a block element by element -/
theorem paste_nan {r0 c0 r c : Nat} {f : Nat → Nat → V} (hf : ∀ i j, i < r → j < c → IsNan (a (r0 + i) (c0 + j)) → IsNan (f i j)) {i j : Nat}
    (h : IsNan (a i j)) : IsNan (paste r0 c0 r c f a i j) := by
  unfold Blast.paste
  split
  · rename_i hin
    refine hf _ _ (by omega) (by omega) ?_
    rw [show r0 + (i - r0) = i by omega, show c0 + (j - c0) = j by omega]; exact h
  · exact h

theorem gemmEntry_nan {alpha beta : V} {x y : Nat → V} {c : V} {K : Nat}
    (h : IsNan alpha ∨ IsNan beta ∨ IsNan c ∨ ∃ k, k < K ∧ (IsNan (x k) ∨ IsNan (y k))) : IsNan (gemmEntry alpha beta x y c K) := by
  unfold gemmEntry
  rcases h with h | h | h | ⟨k, hk, h⟩
  · exact NanArith.fma _ _ _ (Or.inr (Or.inr (NanArith.mul _ _ (Or.inr h))))
  · exact NanArith.fma _ _ _ (Or.inl h)
  · exact NanArith.fma _ _ _ (Or.inr (Or.inl h))
  · exact NanArith.fma _ _ _ (Or.inr (Or.inr (NanArith.mul _ _ (Or.inl (fmaSum_nan hk h)))))

theorem HasNan.getrfBlk {ip P : Nat → Nat} (hM : k + T < M) (hN : k + T < N) (hP : PivotsOK M k ip P) (h : HasNan M N a) :
    HasNan M N (getrfBlk T M N k a P).1 := by
  unfold Blast.getrfBlk
  have h1 := h.paste (r0 := k) (c0 := k) (r := M - k) (c := T) (f := (Blast.luFull Arith.div updCol (M - k) (fun i j => a (k + i) (k + j)) (fun i => P (k + i)) T).1)
    (by omega) (by omega) (fun h => h.luFull nanOps_col _ (by omega))
  rcases hlu : Blast.luFull Arith.div updCol (M - k) (fun i j => a (k + i) (k + j)) (fun i => P (k + i)) T with ⟨s, _ | p⟩
  · rw [hlu] at h1; exact h1
  rw [hlu] at h1
  dsimp only at h1 ⊢
  have hP' := hP.extend (luRun_pivots T (by omega) (luFull_some _ hlu)) (by omega)
  generalize addRange (mergeAt P k p) k (k + T) = P' at hP' ⊢
  have hPM : ∀ q, k ≤ q → q < k + T → k ≤ P' q ∧ P' q < M := fun q h1 h2 => ⟨by have := (hP'.1 q h2).1; omega, (hP'.1 q h2).2⟩
  have h2 := (h1.swapCols (c0 := 0) (n := k) (by omega) (by omega) hPM).swapCols (c0 := k + T) (n := N - k - T) (by omega) (by omega) hPM
  generalize Blast.swapCols P' k (k + T) (k + T) (N - k - T) (Blast.swapCols P' k (k + T) 0 k (Blast.paste k k (M - k) T s a)) = a3 at h2 ⊢
  obtain ⟨i, j, hi, hj, hn⟩ := h2
  refine ⟨i, j, hi, hj, paste_nan (fun i j hi hj h => gemmEntry_nan (Or.inr (Or.inr (Or.inl h)))) (paste_nan (fun i j hi hj h => ?_) hn)⟩
  exact (trsmSol_rec .lower true T _ _).nan_rhs hi h

theorem HasNanFrom.getrfBlk {ip P P' : Nat → Nat} {b : Nat → Nat → V} (hT : 0 < T) (hM : k + T < M) (hN : k + T < N) (hP : PivotsOK M k ip P) (h : HasNanFrom k M N a)
    (e : getrfBlk T M N k a P = (b, some P')) : HasNanFrom (k + T) M N b := by
  unfold Blast.getrfBlk at e
  rcases hlu : Blast.luFull Arith.div updCol (M - k) (fun i j => a (k + i) (k + j)) (fun i => P (k + i)) T with ⟨s, _ | p⟩
  · rw [hlu] at e; cases e
  rw [hlu] at e
  dsimp only at e
  have hP' := hP.extend (luRun_pivots T (by omega) (luFull_some _ hlu)) (by omega)
  generalize addRange (mergeAt P k p) k (k + T) = P'' at hP' e
  have hPM : ∀ q, k ≤ q → q < k + T → k ≤ P'' q ∧ P'' q < M := fun q h1 h2 => ⟨by have := (hP'.1 q h2).1; omega, (hP'.1 q h2).2⟩
  obtain ⟨rfl, -⟩ := Prod.mk.inj e
  generalize hs2 : Blast.swapCols P'' k (k + T) 0 k (Blast.paste k k (M - k) T s a) = a2
  have hsw2 : ∀ i j, k ≤ j → a2 i j = Blast.paste k k (M - k) T s a i j := by
    intro i j hj; rw [← hs2]; unfold Blast.swapCols; rw [if_neg (by omega)]
  generalize hs3 : Blast.swapCols P'' k (k + T) (k + T) (N - k - T) a2 = a3
  have hsw3 : ∀ i j, j < k + T → a3 i j = a2 i j := by
    intro i j hj; rw [← hs3]; unfold Blast.swapCols; rw [if_neg (by omega)]
  generalize hs4 : Blast.paste k (k + T) T (N - k - T) (fun i j => trsmSol .lower true T (fun i q => a3 (k + i) (k + q)) (fun i => a3 (k + i) (k + T + j)) i) a3 = a4
  have h4 : ∀ {i j}, IsNan (a3 i j) → IsNan (a4 i j) := fun {i j} hn => by
    rw [← hs4]
    exact paste_nan (fun i j hi hj h => (trsmSol_rec .lower true T _ _).nan_rhs hi h) hn
  have fin : ∀ {i j}, k + T ≤ i → i < M → k + T ≤ j → j < N →
      (IsNan (a4 i j) ∨ ∃ q, q < T ∧ (IsNan (a4 i (k + q)) ∨ IsNan (a4 (k + q) j))) →
      HasNanFrom (k + T) M N (Blast.paste (k + T) (k + T) (M - k - T) (N - k - T) (fun i j => gemmEntry (Arith.neg Arith.one) Arith.one
        (fun q => a4 (k + T + i) (k + q)) (fun q => a4 (k + q) (k + T + j)) (a4 (k + T + i) (k + T + j)) T) a4) := by
    intro i j h1 h2 h3 h4 hn
    refine ⟨i, j, h1, h2, h3, h4, ?_⟩
    unfold Blast.paste
    rw [if_pos ⟨by omega, by omega, by omega, by omega⟩]
    dsimp only
    rw [show k + T + (i - (k + T)) = i by omega, show k + T + (j - (k + T)) = j by omega]
    refine gemmEntry_nan ?_
    rcases hn with hn | hn
    · exact Or.inr (Or.inr (Or.inl hn))
    · exact Or.inr (Or.inr (Or.inr hn))
  obtain ⟨i, j, h1, h2, h3, h5, h6⟩ := h
  by_cases hj : j < k + T
  · obtain ⟨i', q, g1, g2, g3, g4⟩ := luFull_panel_nan (nanOps_col) _ hT (by omega) (⟨i - k, j - k, by omega, by omega, by
      beta_reduce; rw [show k + (i - k) = i by omega, show k + (j - k) = j by omega]; exact h6⟩ : HasNan (M - k) T (fun i j => a (k + i) (k + j))) hlu
    refine fin (i := k + i') (j := k + T) (by omega) (by omega) (by omega) (by omega) (Or.inr ⟨q, g3, Or.inl (h4 ?_)⟩)
    rw [hsw3 _ _ (by omega), hsw2 _ _ (by omega)]
    unfold Blast.paste
    rw [if_pos ⟨by omega, by omega, by omega, by omega⟩, show k + i' - k = i' by omega, show k + q - k = q by omega]
    exact g4
  · have hn2 : IsNan (a2 i j) := by
      rw [hsw2 _ _ h3]; unfold Blast.paste; rw [if_neg (by omega)]; exact h6
    obtain ⟨i', g1, g2, -, g3⟩ := swapCols_nan (k := k) (c0 := k + T) (n := N - k - T) (by omega) (by omega) hPM h2 hn2
    rw [hs3] at g3
    have g4 := h4 g3
    by_cases hi : k + T ≤ i'
    · exact fin hi g1 (by omega) h5 (Or.inl g4)
    · have := g2 h1
      exact fin (i := k + T) (Nat.le_refl _) hM (by omega) h5 (Or.inr ⟨i' - k, by omega, Or.inr (by rw [show k + (i' - k) = i' by omega]; exact g4)⟩)

theorem getrfBlk_pivots {ip P P' : Nat → Nat} {b : Nat → Nat → V} (hM : k + T < M) (hP : PivotsOK M k ip P)
    (e : getrfBlk T M N k a P = (b, some P')) : PivotsOK M (k + T) ip P' := by
  unfold Blast.getrfBlk at e
  rcases hlu : Blast.luFull Arith.div updCol (M - k) (fun i j => a (k + i) (k + j)) (fun i => P (k + i)) T with ⟨s, _ | p⟩
  · rw [hlu] at e; cases e
  rw [hlu] at e
  have hP' := hP.extend (luRun_pivots T (by omega) (luFull_some _ hlu)) (by omega)
  obtain ⟨-, e2⟩ := Prod.mk.inj e
  cases e2
  exact hP'

/-- the block steps keep NaNs -/
theorem HasNan.getrfIter {ip : Nat → Nat} (fuel : Nat) {k : Nat} {a : Nat → Nat → V} {P : Nat → Nat} (h : HasNan M N a) (hP : PivotsOK M k ip P)
    (hk : k ≤ M) {k' : Nat} {b : Nat → Nat → V} {r : Option (Nat → Nat)} (e : getrfIter T M N fuel k a P = (k', b, r)) :
    HasNan M N b ∧ ∀ P', r = some P' → PivotsOK M k' ip P' ∧ k' ≤ M := by
  induction fuel generalizing k a P with
  | zero => cases e; exact ⟨h, fun P' e => by cases e; exact ⟨hP, hk⟩⟩
  | succ fuel ih =>
    unfold Blast.getrfIter at e
    split at e
    · rename_i hc
      have h1 := h.getrfBlk hc.1 hc.2 hP
      rcases hb : Blast.getrfBlk T M N k a P with ⟨b', _ | P'⟩
      · rw [hb] at e h1
        cases e
        exact ⟨h1, fun P' e => by cases e⟩
      · rw [hb] at e h1
        exact ih h1 (getrfBlk_pivots hc.1 hP hb) (by omega) e
    · cases e; exact ⟨h, fun P' e => by cases e; exact ⟨hP, hk⟩⟩

theorem HasNanFrom.getrfIter {ip : Nat → Nat} (hT : 0 < T) (fuel : Nat) {k : Nat} {a : Nat → Nat → V} {P : Nat → Nat} (h : HasNanFrom k M N a) (hP : PivotsOK M k ip P)
    {k' : Nat} {b : Nat → Nat → V} {P' : Nat → Nat} (e : getrfIter T M N fuel k a P = (k', b, some P')) :
    HasNanFrom k' M N b ∧ PivotsOK M k' ip P' := by
  induction fuel generalizing k a P with
  | zero => cases e; exact ⟨h, hP⟩
  | succ fuel ih =>
    unfold Blast.getrfIter at e
    split at e
    · rename_i hc
      rcases hb : Blast.getrfBlk T M N k a P with ⟨b', _ | P''⟩
      · rw [hb] at e; cases e
      · rw [hb] at e
        exact ih (h.getrfBlk hT hc.1 hc.2 hP hb) (getrfBlk_pivots hc.1 hP hb) e
    · cases e; exact ⟨h, hP⟩

/-- blocked LU keeps NaNs, also if it fails -/
theorem HasNan.getrfFull (ip : Nat → Nat) (h : HasNan M N a) : HasNan M N (getrfFull T M N a ip).1 := by
  unfold Blast.getrfFull
  have h0 : PivotsOK M 0 ip ip := ⟨fun q hq => by omega, fun q _ => rfl⟩
  rcases hi : Blast.getrfIter T M N (M + 1) 0 a ip with ⟨k, b, _ | P⟩
  · exact (h.getrfIter _ h0 (Nat.zero_le _) hi).1
  · obtain ⟨h1, h2⟩ := h.getrfIter _ h0 (Nat.zero_le _) hi
    obtain ⟨hP, hk⟩ := h2 P rfl
    dsimp only
    unfold getrfLast
    split
    · rename_i hc
      have h3 := h1.paste (r0 := k) (c0 := k) (r := M - k) (c := N - k)
        (f := (Blast.luFull Arith.div updCol (M - k) (fun i j => b (k + i) (k + j)) (fun i => P (k + i)) (min (M - k) (N - k))).1)
        (by omega) (by omega) (fun h => h.luFull nanOps_col _ (by omega))
      rcases hlu : Blast.luFull Arith.div updCol (M - k) (fun i j => b (k + i) (k + j)) (fun i => P (k + i)) (min (M - k) (N - k)) with ⟨s, _ | p⟩
      · rw [hlu] at h3; exact h3
      · rw [hlu] at h3
        dsimp only at h3 ⊢
        have hP' := hP.extend (luRun_pivots _ (by omega) (luFull_some _ hlu)) (by omega)
        rw [show k + min (M - k) (N - k) = min M N by omega] at hP'
        exact h3.swapCols (by omega) (by omega) (fun q h1 h2 => ⟨by have := (hP'.1 q h2).1; omega, (hP'.1 q h2).2⟩)
    · exact h1.swapCols (Nat.le_refl _) hk (fun q h1 h2 => by omega)

/-- and puts a NaN into the last diagonal element of a square matrix -/
theorem getrfFull_last_nan (hT : 0 < T) (ip : Nat → Nat) (hM : 0 < M) (h : HasNan M M a) {b : Nat → Nat → V} {p : Nat → Nat}
    (e : getrfFull T M M a ip = (b, some p)) : IsNan (b (M - 1) (M - 1)) := by
  unfold Blast.getrfFull at e
  have h0 : PivotsOK M 0 ip ip := ⟨fun q hq => by omega, fun q _ => rfl⟩
  obtain ⟨i, j, hi, hj, hn⟩ := h
  rcases hit : Blast.getrfIter T M M (M + 1) 0 a ip with ⟨k, b', _ | P⟩
  · rw [hit] at e; cases e
  · rw [hit] at e
    obtain ⟨⟨i, j, h1, h2, h3, h4, h5⟩, hP⟩ := HasNanFrom.getrfIter hT (M + 1) (⟨i, j, Nat.zero_le _, hi, Nat.zero_le _, hj, hn⟩ : HasNanFrom 0 M M a) h0 hit
    dsimp only at e
    unfold getrfLast at e
    rw [if_pos ⟨by omega, by omega⟩] at e
    rcases hlu : Blast.luFull Arith.div updCol (M - k) (fun i j => b' (k + i) (k + j)) (fun i => P (k + i)) (min (M - k) (M - k)) with ⟨s, _ | q⟩
    · rw [hlu] at e; cases e
    · rw [hlu] at e
      obtain ⟨rfl, -⟩ := Prod.mk.inj e
      unfold swapCols
      rw [if_neg (by omega)]
      unfold paste
      rw [if_pos ⟨by omega, by omega, by omega, by omega⟩]
      rw [Nat.min_self] at hlu
      have := luFull_last_nan nanOps_col _ (by omega) (⟨i - k, j - k, by omega, by omega, by
        beta_reduce; rw [show k + (i - k) = i by omega, show k + (j - k) = j by omega]; exact h5⟩ : HasNan (M - k) (M - k) (fun i j => b' (k + i) (k + j))) hlu
      rw [show M - 1 - k = M - k - 1 by omega]
      exact this

end
end Blast
