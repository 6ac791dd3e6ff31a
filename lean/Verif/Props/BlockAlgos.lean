import Verif.Props.BlockCalls
/- Concrete cases meeting the hypotheses of these theorems: Verif/Cases/BlockCalls.lean, and the examples in this file. -/
/-
C73: a blocked algorithm written by a client with the library's building blocks on submatrices of one matrix.
-/
set_option linter.unusedSectionVars false
namespace Blast
open Prog Finset Reg
variable {V : Type}

section schur
variable [Field V] [LinearOrder V] [IsStrictOrderedRing V]

/-- the Schur complement of a positive definite matrix is positive definite -/
theorem schur_posDef {K N : Nat} {a v : Nat → Nat → V} (hpd : LowerPosDef (K + N) a) (hd : ∀ j, j < K → v j j ≠ 0)
    (hl : ∀ i j, j < K → j ≤ i → i < K + N → ∑ q ∈ range (j + 1), v i q * v j q = a i j)
    (hs : ∀ i j, K ≤ j → j ≤ i → i < K + N → v i j + ∑ q ∈ range K, v i q * v j q = a i j) :
    LowerPosDef N (fun i j => v (K + i) (K + j)) := by
  intro x hx
  obtain ⟨i0, hi0, hxi⟩ := hx
  obtain ⟨y, hy⟩ := exists_low_transpose_solution v K hd (fun q => ∑ t ∈ range N, x t * v (K + t) q)
  let z : Nat → V := fun i => if i < K then - y i else x (i - K)
  have hz1 : ∀ i, i < K → z i = - y i := fun i hi => if_pos hi
  have hz2 : ∀ t, z (K + t) = x t := fun t => by
    show (if K + t < K then _ else _) = _
    rw [if_neg (by omega), Nat.add_sub_cancel_left]
  have hpos := hpd z ⟨K + i0, by omega, by rw [hz2]; exact hxi⟩
  have hcol : ∀ q, q < K → ∑ i ∈ range (K + N), z i * low v i q = 0 := by
    intro q hq
    rw [sum_range_add, sum_congr rfl (fun i hi => by rw [hz1 i (mem_range.1 hi)]),
      sum_congr (s₁ := range N) rfl (fun t _ => by rw [hz2, show low v (K + t) q = v (K + t) q from if_pos (by omega)]), ← hy q hq, ← sum_add_distrib]
    exact sum_eq_zero (fun i _ => by ring)
  have key : ∀ i j, j ≤ i → i < K + N → a i j = ∑ q ∈ range K, low v i q * low v j q + if K ≤ j then v i j else 0 := by
    intro i j hji hi
    by_cases hj : K ≤ j
    · rw [if_pos hj, ← hs i j hj hji hi, add_comm]
      congr 1
      refine sum_congr rfl (fun q hq => ?_)
      have := mem_range.1 hq
      unfold low; rw [if_pos (by omega), if_pos (by omega)]
    · rw [if_neg hj, add_zero, ← hl i j (by omega) hji hi]
      have e : ∑ q ∈ range (j + 1), v i q * v j q = ∑ q ∈ range (j + 1), low v i q * low v j q := by
        refine sum_congr rfl (fun q hq => ?_)
        have := mem_range.1 hq
        unfold low; rw [if_pos (by omega), if_pos (by omega)]
      rw [e]
      apply sum_subset
      · intro q hq; rw [mem_range] at *; omega
      · intro q _ hq; rw [mem_range] at hq
        unfold low; rw [if_neg (show ¬ q ≤ j by omega), mul_zero]
  have key2 : ∀ i j, i < K + N → j < K + N → z i * a (max i j) (min i j) * z j =
      ∑ q ∈ range K, (z i * low v i q) * (z j * low v j q) + z i * (if K ≤ min i j then v (max i j) (min i j) else 0) * z j := by
    intro i j hi hj
    have e : ∑ q ∈ range K, (z i * low v i q) * (z j * low v j q) = z i * (∑ q ∈ range K, low v (max i j) q * low v (min i j) q) * z j := by
      rw [mul_sum, sum_mul]
      refine sum_congr rfl (fun q _ => ?_)
      rcases Nat.le_total j i with h | h
      · rw [max_eq_left h, min_eq_right h]; ring
      · rw [max_eq_right h, min_eq_left h]; ring
    rw [e, key (max i j) (min i j) (by omega) (by omega)]
    ring
  rw [sum_congr rfl (fun i hi => sum_congr rfl (fun j hj => key2 i j (mem_range.1 hi) (mem_range.1 hj)))] at hpos
  simp only [sum_add_distrib] at hpos
  have hfirst : ∑ i ∈ range (K + N), ∑ j ∈ range (K + N), ∑ q ∈ range K, (z i * low v i q) * (z j * low v j q) = 0 := by
    refine sum_eq_zero (fun i _ => ?_)
    rw [sum_comm]
    refine sum_eq_zero (fun q hq => ?_)
    rw [← mul_sum, hcol q (mem_range.1 hq), mul_zero]
  rw [hfirst, zero_add, sum_range_add, sum_eq_zero (s := range K) (fun i hi => sum_eq_zero (fun j _ => by
    have := mem_range.1 hi
    rw [if_neg (by omega)]; ring)), zero_add] at hpos
  refine lt_of_lt_of_eq hpos ?_
  refine sum_congr rfl (fun i hi => ?_)
  rw [sum_range_add, sum_eq_zero (s := range K) (fun j hj => by
    have := mem_range.1 hj
    rw [if_neg (by omega)]; ring), zero_add]
  refine sum_congr rfl (fun j hj => ?_)
  rw [hz2, hz2, if_pos (by omega)]
  beta_reduce
  rw [show max (K + i) (K + j) = K + max i j by omega, show min (K + i) (K + j) = K + min i j by omega]

/-- positive definiteness of a leading block -/
theorem LowerPosDef.leading {n b : Nat} (hb : b ≤ n) {a : Nat → Nat → V} (h : LowerPosDef n a) : LowerPosDef b a := by
  intro x hx
  obtain ⟨i, hi, hxi⟩ := hx
  have := h (fun i => if i < b then x i else 0) ⟨i, by omega, by beta_reduce; rw [if_pos hi]; exact hxi⟩
  obtain ⟨c, rfl⟩ := Nat.exists_eq_add_of_le hb
  rw [sum_range_add, sum_eq_zero (s := range c) (fun t _ => sum_eq_zero (fun j _ => by
    beta_reduce; rw [if_neg (by omega)]; ring)), add_zero] at this
  refine lt_of_lt_of_eq this (sum_congr rfl (fun i hi => ?_))
  rw [sum_range_add, sum_eq_zero (s := range c) (fun t _ => by beta_reduce; rw [if_neg (show ¬ b + t < b by omega)]; ring), add_zero]
  refine sum_congr rfl (fun j hj => ?_)
  beta_reduce
  rw [if_pos (mem_range.1 hi), if_pos (mem_range.1 hj)]

end schur

/-! ### Blocked Cholesky factorization -/

/-- the block of object `x` with `m` rows and `n` columns starting at (i, j), declared aligned: `submatrix<aligned>(x, i, j, m, n)` -/
def blk (x i j m n : Nat) : VExpr := .sub (.var x) true i j m n

/-- Right-looking blocked Cholesky factorization of the `n × n` matrix object `x` with block size `b`, from column `K` on, with `r + 1` blocks left:
a client that calls `potrf` on a block column and `syrkLower(-1, A21, 1, A22, A22)` on the rest. -/
def blockedCholesky [Field V] (x n b : Nat) : Nat → Nat → List (BStep V)
  | K, 0 => [.blk (.potrf (blk x K K (n - K) b) (blk x K K (n - K) b))]
  | K, r + 1 =>
    .blk (.potrf (blk x K K (n - K) b) (blk x K K (n - K) b)) ::
    .blk (.syrk (-1) (blk x (K + b) K (n - (K + b)) b) 1 (blk x (K + b) (K + b) (n - (K + b)) (n - (K + b))) (blk x (K + b) (K + b) (n - (K + b)) (n - (K + b)))) ::
    blockedCholesky x n b (K + b) r

section chol
variable [Field V] [LinearOrder V] [IsStrictOrderedRing V]

/-- `J` columns are factored, and the products of the first `K` of them have been subtracted from the rest -/
structure CholInv (n J K : Nat) (a v : Nat → Nat → V) : Prop where
  diag : ∀ j, j < J → 0 < v j j
  left : ∀ i j, j < J → j ≤ i → i < n → ∑ q ∈ range (j + 1), v i q * v j q = a i j
  rest : ∀ i j, J ≤ j → j ≤ i → i < n → v i j + ∑ q ∈ range K, v i q * v j q = a i j
  upper : ∀ i j, i < j → j < n → v i j = a i j

theorem CholInv.start (n : Nat) (a : Nat → Nat → V) : CholInv n 0 0 a a :=
  ⟨fun j hj => by omega, fun i j hj => by omega, fun i j _ _ _ => by rw [range_zero, sum_empty, add_zero], fun _ _ _ _ => rfl⟩

/-- the block column is factored -/
theorem CholInv.factor {n K b : Nat} {a v v1 f : Nat → Nat → V} (h : CholInv n K K a v) (hb : K + b ≤ n)
    (hf : IsCholesky (n - K) b f (fun i j => v (K + i) (K + j))) (hu : ∀ i j, i < n - K → j < b → i < j → f i j = v (K + i) (K + j))
    (h1 : ∀ i j, i < n - K → j < b → v1 (K + i) (K + j) = f i j)
    (h2 : ∀ p q, p < n → q < n → ¬ (K ≤ p ∧ K ≤ q ∧ q < K + b) → v1 p q = v p q) : CholInv n (K + b) K a v1 := by
  obtain ⟨f1, f2⟩ := hf
  refine ⟨fun j hj => ?_, fun i j hj hji hi => ?_, fun i j hj hji hi => ?_, fun i j hij hj => ?_⟩
  · by_cases hjk : j < K
    · rw [h2 j j (by omega) (by omega) (by omega)]; exact h.diag j hjk
    · obtain ⟨t, rfl⟩ := Nat.exists_eq_add_of_le (show K ≤ j by omega)
      rw [h1 t t (by omega) (by omega)]; exact f1 t (by omega)
  · by_cases hjk : j < K
    · rw [← h.left i j hjk hji hi]
      refine sum_congr rfl (fun q hq => ?_)
      have := mem_range.1 hq
      rw [h2 i q hi (by omega) (by omega), h2 j q (by omega) (by omega) (by omega)]
    · obtain ⟨t, rfl⟩ := Nat.exists_eq_add_of_le (show K ≤ j by omega)
      obtain ⟨u, rfl⟩ := Nat.exists_eq_add_of_le (show K ≤ i by omega)
      rw [← h.rest (K + u) (K + t) (by omega) (by omega) hi, Nat.add_assoc, sum_range_add, add_comm]
      have e := f2 u t (by omega) (by omega) (by omega)
      beta_reduce at e
      rw [← e]
      congr 1
      · refine sum_congr rfl (fun q hq => ?_)
        have := mem_range.1 hq
        rw [h1 u q (by omega) (by omega), h1 t q (by omega) (by omega)]
      · refine sum_congr rfl (fun q hq => ?_)
        have := mem_range.1 hq
        rw [h2 _ q (by omega) (by omega) (by omega), h2 _ q (by omega) (by omega) (by omega)]
  · rw [← h.rest i j (by omega) hji hi, h2 i j hi (by omega) (by omega)]
    congr 1
    refine sum_congr rfl (fun q hq => ?_)
    have := mem_range.1 hq
    rw [h2 i q hi (by omega) (by omega), h2 j q (by omega) (by omega) (by omega)]
  · rw [← h.upper i j hij hj]
    by_cases hc : K ≤ i ∧ K ≤ j ∧ j < K + b
    · obtain ⟨t, rfl⟩ := Nat.exists_eq_add_of_le hc.1
      obtain ⟨u, rfl⟩ := Nat.exists_eq_add_of_le hc.2.1
      rw [h1 t u (by omega) (by omega)]
      exact hu t u (by omega) (by omega) (by omega)
    · exact h2 i j (by omega) (by omega) hc

/-- the trailing block is updated -/
theorem CholInv.update {n K b : Nat} {a v v1 : Nat → Nat → V} (h : CholInv n (K + b) K a v) (hb : K + b ≤ n)
    (h1 : ∀ i j, i < n - (K + b) → j < n - (K + b) → v1 (K + b + i) (K + b + j) = if j ≤ i then 1 * v (K + b + i) (K + b + j) +
      (-1) * ∑ k ∈ range b, v (K + b + i) (K + k) * v (K + b + j) (K + k) else v (K + b + i) (K + b + j))
    (h2 : ∀ p q, p < n → q < n → ¬ (K + b ≤ p ∧ K + b ≤ q) → v1 p q = v p q) : CholInv n (K + b) (K + b) a v1 := by
  refine ⟨fun j hj => ?_, fun i j hj hji hi => ?_, fun i j hj hji hi => ?_, fun i j hij hj => ?_⟩
  · rw [h2 j j (by omega) (by omega) (by omega)]; exact h.diag j hj
  · rw [← h.left i j hj hji hi]
    refine sum_congr rfl (fun q hq => ?_)
    have := mem_range.1 hq
    rw [h2 i q hi (by omega) (by omega), h2 j q (by omega) (by omega) (by omega)]
  · rw [← h.rest i j hj hji hi]
    obtain ⟨t, rfl⟩ := Nat.exists_eq_add_of_le hj
    obtain ⟨u, rfl⟩ := Nat.exists_eq_add_of_le (show K + b ≤ i by omega)
    rw [h1 u t (by omega) (by omega), if_pos (by omega), sum_range_add,
      sum_congr (s₁ := range K) rfl (fun q hq => by
        have := mem_range.1 hq
        rw [h2 _ q (by omega) (by omega) (by omega), h2 _ q (by omega) (by omega) (by omega)]),
      sum_congr (s₁ := range b) (g := fun q => v (K + b + u) (K + q) * v (K + b + t) (K + q)) (f := fun q => v1 (K + b + u) (K + q) * v1 (K + b + t) (K + q)) rfl (fun q hq => by
        have := mem_range.1 hq
        beta_reduce
        rw [h2 _ (K + q) (by omega) (by omega) (by omega), h2 _ (K + q) (by omega) (by omega) (by omega)])]
    ring
  · rw [← h.upper i j hij hj]
    by_cases hc : K + b ≤ i ∧ K + b ≤ j
    · obtain ⟨t, rfl⟩ := Nat.exists_eq_add_of_le hc.1
      obtain ⟨u, rfl⟩ := Nat.exists_eq_add_of_le hc.2
      rw [h1 t u (by omega) (by omega), if_neg (by omega)]
    · exact h2 i j (by omega) (by omega) hc

/-- the remaining part is positive definite -/
theorem CholInv.posDef {n K : Nat} {a v : Nat → Nat → V} (h : CholInv n K K a v) (hK : K ≤ n) (hpd : LowerPosDef n a) :
    LowerPosDef (n - K) (fun i j => v (K + i) (K + j)) := by
  obtain ⟨N, rfl⟩ := Nat.exists_eq_add_of_le hK
  rw [Nat.add_sub_cancel_left]
  exact schur_posDef hpd (fun j hj => (h.diag j hj).ne') h.left (fun i j hj hji hi => h.rest i j hj hji hi)

end chol

section run
variable [Field V] [LinearOrder V] [IsStrictOrderedRing V] [Arith V] [ExactSqrt V]

/-- a dense column-major `n × m` matrix object -/
structure DenseCol (o : AObj V) (n m : Nat) : Prop where
  kind : o.kind = .dynDense ∨ o.kind = .statDense
  so : o.so = .columnMajor
  rows : o.rows = n
  cols : o.cols = m

/-- its blocks that start in a row divisible by the SIMD size are valid operands, and their padding is inside the object -/
theorem blk_arg {SS : Nat} (hSS : 0 < SS) {h : HWorld V} {s : HState V} (hr : HRep SS h s) {x n n' : Nat} {o : AObj V} (ho : s.objs x = some o) (hd : DenseCol o n n')
    {i j m k : Nat} (hi : i % SS = 0) (him : i + m ≤ n) (hjk : j + k ≤ n') :
    ∃ c, ViewArg SS h (blk x i j m k) (.sub (.obj c) true i j m k) ∧ c.so = .columnMajor ∧ PadInBounds SS (.sub (.obj c) true i j m k) ∧ h.w.obj x = some c := by
  have hm := hr.1.objs x
  rw [ho] at hm
  cases hc : h.w.obj x with
  | none => rw [hc] at hm; exact hm.elim
  | some c =>
    rw [hc] at hm
    have hm : ObjRep SS h.w.mem c o := hm
    have hp : c.isPanel = false := by
      unfold Container.isPanel
      rw [← hm.kind]
      rcases hd.kind with e | e <;> rw [e]
    have hs : c.so = .columnMajor := by rw [← hm.so]; exact hd.so
    have hrw : c.rows = n := by rw [← hm.rows]; exact hd.rows
    have hcl : c.cols = n' := by rw [← hm.cols]; exact hd.cols
    refine ⟨c, ⟨?_, hp, ⟨trivial, ?_, ?_⟩, fun _ => ?_⟩, hs, C49_padInBounds_of_aligned_row hSS c hp hs true hi (by omega) (by omega), rfl⟩
    · unfold blk VExpr.eval VExpr.eval; rw [hc]; rfl
    · show i + m ≤ c.rows; omega
    · show j + k ≤ c.cols; omega
    · show c.addr SS i j % (SS : Int) = 0
      rw [MExpr.dense_addr _ hp, hs]
      have h1 := hm.live.align
      have h2 : ((c.spacing SS : Nat) : Int) % SS = 0 := by exact_mod_cast c.spacing_mod hSS
      have h3 : (i : Int) % SS = 0 := by exact_mod_cast hi
      have := Int.dvd_of_emod_eq_zero h1
      exact Int.emod_eq_zero_of_dvd (dvd_add (dvd_add (Int.dvd_of_emod_eq_zero h1) (Int.dvd_of_emod_eq_zero h3)) (Dvd.dvd.mul_right (Int.dvd_of_emod_eq_zero h2) _))

/-- what `PutView` on a block means for the object -/
theorem putView_blk {s s' : HState V} {x n n' i j m k : Nat} {o : AObj V} (ho : s.objs x = some o) (hd : DenseCol o n n') {f : Nat → Nat → V}
    (h : PutView s (blk x i j m k) f s') : ∃ g, s' = s.put x { o with val := g } ∧ (∀ t u, t < m → u < k → g (i + t) (j + u) = f t u) ∧
      (∀ p q, p < n → q < n' → ¬ (i ≤ p ∧ p < i + m ∧ j ≤ q ∧ q < j + k) → g p q = o.val p q) := by
  obtain ⟨o', g, h1, h2, h3, h4⟩ := h
  have h1 : s.objs x = some o' := h1
  rw [ho] at h1
  obtain rfl := Option.some.inj h1
  refine ⟨g, h2, h3, fun p q hp hq hpq => h4 p q (by rw [hd.rows]; exact hp) (by rw [hd.cols]; exact hq) (fun t u ht hu e => hpq ?_)⟩
  have ht : t < m := ht
  have hu : u < k := hu
  have e1 : i + t = p := congrArg Prod.fst e
  have e2 : j + u = q := congrArg Prod.snd e
  omega

theorem look_blk {s : HState V} {x i j m k : Nat} {o : AObj V} (ho : s.objs x = some o) :
    s.look (blk x i j m k) = some ⟨m, k, o.so, fun t u => o.val (i + t) (j + u)⟩ := by
  unfold HState.look blk VExpr.base VExpr.base
  rw [ho]; rfl

theorem put_put (s : HState V) (x : Nat) (o o' : AObj V) : (s.put x o).put x o' = s.put x o' := by
  unfold HState.put upd
  congr 1
  funext y
  by_cases hy : y = x
  · simp [hy]
  · simp [hy]

theorem put_self {s : HState V} {x : Nat} {o : AObj V} (ho : s.objs x = some o) : s.put x o = s := by
  unfold HState.put upd
  cases s with
  | mk objs piv =>
    congr 1
    funext y
    by_cases hy : y = x
    · simp only [hy, if_true]; exact ho.symm
    · simp [hy]

theorem put_get (s : HState V) (x : Nat) (o : AObj V) : (s.put x o).objs x = some o := if_pos rfl

/-- one block column is factored in place -/
theorem blocked_factor {KN : Nat} {dv : V → V → V} (hdv : ∀ x y, y ≠ 0 → dv x y = x / y) {h : HWorld V} {s : HState V} (hr : HRep 4 h s) {x n : Nat} {o : AObj V}
    (ho : s.objs x = some o) (hd : DenseCol o n n) {K b : Nat} (hK4 : K % 4 = 0) (hb4 : b % 4 = 0) (hn4 : n % 4 = 0) (hKb : K + b ≤ n) {a : Nat → Nat → V}
    (hpd : LowerPosDef n a) (hi : CholInv n K K a o.val) :
    (h.bcall 4 KN dv (.potrf (blk x K K (n - K) b) (blk x K K (n - K) b))).1 = .done ∧
    ∃ g, HRep 4 (h.bcall 4 KN dv (.potrf (blk x K K (n - K) b) (blk x K K (n - K) b))).2 (s.put x { o with val := g }) ∧ CholInv n (K + b) K a g := by
  obtain ⟨c, va, hs, hp, -⟩ := blk_arg (SS := 4) (by decide) hr ho hd (i := K) (j := K) (m := n - K) (k := b) hK4 (by omega) hKb
  obtain ⟨s', h1, h2, -, -⟩ := bok_call (KN := KN) (SS := 4) (by decide) hr hdv (.potrf (blk x K K (n - K) b) (blk x K K (n - K) b))
    ⟨_, _, va, va, hs, hs, rfl, rfl, Or.inr (fun i j i' j' _ _ _ _ e => by
      have e1 : K + i = K + i' := congrArg Prod.fst e
      have e2 : K + j = K + j' := congrArg Prod.snd e
      omega), hb4, fun k hk _ => hk, by decide, fun k hk _ => by
        show (n - K - k) % 4 = 0
        omega⟩
  obtain ⟨A, L, hA, hL, hok, -⟩ := h1
  rw [look_blk ho] at hA hL
  obtain rfl := Option.some.inj hA
  obtain rfl := Option.some.inj hL
  obtain ⟨r1, f, hf, hc, hup⟩ := hok ⟨by show b ≤ n - K; omega, rfl, rfl⟩
  obtain ⟨g, rfl, g1, g2⟩ := putView_blk ho hd hf
  refine ⟨r1, g, h2, hi.factor hKb (hc ((hi.posDef (by omega) hpd).leading (show b ≤ n - K by omega))) (fun i j hi hj hij => hup i j hi hj hij) g1
    (fun p q hp hq hpq => g2 p q hp hq (by omega))⟩

/-- the rest is updated in place -/
theorem blocked_update {KN : Nat} {dv : V → V → V} (hdv : ∀ x y, y ≠ 0 → dv x y = x / y) {h : HWorld V} {s : HState V} (hr : HRep 4 h s) {x n : Nat} {o : AObj V}
    (ho : s.objs x = some o) (hd : DenseCol o n n) {K b : Nat} (hK4 : K % 4 = 0) (hb4 : b % 4 = 0) (hKb : K + b ≤ n) {a : Nat → Nat → V}
    (hi : CholInv n (K + b) K a o.val) {c : BCall V} (hc : c = .syrk (-1) (blk x (K + b) K (n - (K + b)) b) 1
      (blk x (K + b) (K + b) (n - (K + b)) (n - (K + b))) (blk x (K + b) (K + b) (n - (K + b)) (n - (K + b)))) :
    (h.bcall 4 KN dv c).1 = .done ∧ ∃ g, HRep 4 (h.bcall 4 KN dv c).2 (s.put x { o with val := g }) ∧ CholInv n (K + b) (K + b) a g := by
  obtain ⟨c1, va, hs1, hp1, e1⟩ := blk_arg (SS := 4) (by decide) hr ho hd (i := K + b) (j := K) (m := n - (K + b)) (k := b) (by omega) (by omega) hKb
  obtain ⟨c2, vc, hs2, hp2, e2⟩ := blk_arg (SS := 4) (by decide) hr ho hd (i := K + b) (j := K + b) (m := n - (K + b)) (k := n - (K + b)) (by omega) (by omega)
    (by omega)
  obtain ⟨s', h1, h2, -, -⟩ := bok_call (KN := KN) (SS := 4) (by decide) hr hdv c (by
    rw [hc]
    refine ⟨_, _, _, va, vc, vc, hs1, hs2, hs2, rfl, rfl, rfl, hp1, hp2, Or.inr (fun i j i' j' _ hj _ _ e => ?_), Or.inr (fun i j i' j' _ _ _ _ e => ?_)⟩
    · have e2 : K + j = K + b + j' := congrArg Prod.snd e
      have hj : j < b := hj
      omega
    · have e1 : K + b + i = K + b + i' := congrArg Prod.fst e
      have e2 : K + b + j = K + b + j' := congrArg Prod.snd e
      omega)
  subst hc
  obtain ⟨A, C, D, hA, hC, hD, hok, -⟩ := h1
  rw [look_blk ho] at hA hC hD
  obtain rfl := Option.some.inj hA
  obtain rfl := Option.some.inj hC
  obtain rfl := Option.some.inj hD
  obtain ⟨r1, hf⟩ := hok ⟨⟨rfl, rfl⟩, rfl, rfl⟩
  obtain ⟨g, rfl, g1, g2⟩ := putView_blk ho hd hf
  exact ⟨r1, g, h2, hi.update hKb g1 (fun p q hp hq hpq => g2 p q hp hq (by omega))⟩

theorem brun_cons {SS KN : Nat} {dv : V → V → V} {h : HWorld V} {st : BStep V} {l : List (BStep V)} (hd : (h.bstep SS KN dv st).1 = .done) :
    h.brun SS KN dv (st :: l) = (.done :: ((h.bstep SS KN dv st).2.brun SS KN dv l).1, ((h.bstep SS KN dv st).2.brun SS KN dv l).2) := by
  conv => lhs; unfold HWorld.brun
  dsimp only
  rw [hd]
  rfl

theorem blocked_run {KN : Nat} {dv : V → V → V} (hdv : ∀ x y, y ≠ 0 → dv x y = x / y) {x n b : Nat} (hb4 : b % 4 = 0) {a : Nat → Nat → V}
    (hpd : LowerPosDef n a) (r : Nat) : ∀ {K : Nat} {h : HWorld V} {s : HState V} {o : AObj V}, HRep 4 h s → s.objs x = some o → DenseCol o n n → K % 4 = 0 →
      n = K + (r + 1) * b → CholInv n K K a o.val →
      (∀ e ∈ (h.brun 4 KN dv (blockedCholesky x n b K r)).1, e = .done) ∧
      (h.brun 4 KN dv (blockedCholesky x n b K r)).1.length = (blockedCholesky (V := V) x n b K r).length ∧
      ∃ g K', HRep 4 (h.brun 4 KN dv (blockedCholesky x n b K r)).2 (s.put x { o with val := g }) ∧ CholInv n n K' a g := by
  induction r with
  | zero =>
    intro K h s o hr ho hd hK hn hi
    rw [Nat.zero_add, Nat.one_mul] at hn
    obtain ⟨r1, g, h2, h3⟩ := blocked_factor (KN := KN) hdv hr ho hd hK hb4 (by omega) (by omega) hpd hi
    unfold blockedCholesky
    rw [brun_cons (show (h.bstep 4 KN dv (.blk _)).1 = .done from r1)]
    refine ⟨fun e he => ?_, rfl, g, K, h2, hn ▸ h3⟩
    rcases List.mem_cons.1 he with e | e
    · exact e
    · cases e
  | succ r ih =>
    intro K h s o hr ho hd hK hn hi
    have hn' : n = K + b + (r + 1) * b := by rw [hn]; ring
    have h4 : (r + 1) * b % 4 = 0 := by rw [Nat.mul_mod, hb4, Nat.mul_zero]
    obtain ⟨r1, g, h2, h3⟩ := blocked_factor (KN := KN) hdv hr ho hd hK hb4 (by omega) (by omega) hpd hi
    have hd1 : DenseCol { o with val := g } n n := ⟨hd.kind, hd.so, hd.rows, hd.cols⟩
    obtain ⟨r2, g', h5, h6⟩ := blocked_update (KN := KN) hdv h2 (put_get _ _ _) hd1 hK hb4 (by omega) h3 rfl
    rw [put_put] at h5
    have hd2 : DenseCol { o with val := g' } n n := ⟨hd.kind, hd.so, hd.rows, hd.cols⟩
    obtain ⟨i1, i2, g'', K', i3, i4⟩ := ih h5 (put_get _ _ _) hd2 (by omega) hn' h6
    rw [put_put] at i3
    unfold blockedCholesky
    rw [brun_cons (show (h.bstep 4 KN dv (.blk _)).1 = .done from r1),
      brun_cons (h := (h.bstep 4 KN dv (.blk (.potrf (blk x K K (n - K) b) (blk x K K (n - K) b)))).2) (show (HWorld.bstep 4 KN dv _ (.blk _)).1 = .done from r2)]
    refine ⟨fun e he => ?_, congrArg (· + 2) i2, g'', K', i3, i4⟩
    rcases List.mem_cons.1 he with e | e
    · exact e
    · rcases List.mem_cons.1 e with e | e
      · exact e
      · exact i1 _ e

/-- **C73**. A client that factors a positive definite matrix in blocks of `b` columns, calling `potrf` in place on one block column of the object at a time
and `syrkLower` to subtract its products from the rest of the same object, gets what one call of `potrf` would give: every call returns, and afterwards the
lower triangle of the object is the Cholesky factor of the matrix it had before; its strict upper triangle, its size and class, and all other objects are as
before. For every number of blocks, every block size divisible by the SIMD width (AVX2, double), in every state of the client; exact arithmetic with square
roots. -/
theorem C73_blocked_cholesky {KN : Nat} {dv : V → V → V} (hdv : ∀ x y, y ≠ 0 → dv x y = x / y) {x n b r : Nat} (hb4 : b % 4 = 0) (hn : n = (r + 1) * b)
    {h : HWorld V} {s : HState V} (hr : HRep 4 h s) {o : AObj V} (ho : s.objs x = some o) (hd : DenseCol o n n) (hpd : LowerPosDef n o.val) :
    (h.brun 4 KN dv (blockedCholesky x n b 0 r)).1 = List.replicate (2 * r + 1) .done ∧
    ∃ l, HRep 4 (h.brun 4 KN dv (blockedCholesky x n b 0 r)).2 (s.put x { o with val := l }) ∧ IsCholesky n n l o.val ∧
      ∀ i j, i < j → j < n → l i j = o.val i j := by
  obtain ⟨h1, h2, g, K', h3, h4⟩ := blocked_run (KN := KN) hdv hb4 hpd r hr ho hd (K := 0) rfl (by omega) (CholInv.start n o.val)
  have hlen : ∀ (r K : Nat), (blockedCholesky (V := V) x n b K r).length = 2 * r + 1 := by
    intro r
    induction r with
    | zero => intro K; rfl
    | succ r ih => intro K; show (blockedCholesky (V := V) x n b (K + b) r).length + 2 = _; rw [ih]; ring
  rw [hlen] at h2
  exact ⟨List.eq_replicate_iff.2 ⟨h2, h1⟩, g, h3, ⟨h4.diag, fun i j hji hi hj => h4.left i j hj hji hi⟩, h4.upper⟩

/-! ### Blocked forward substitution -/

/-- Forward substitution with the lower triangular `n × n` matrix object `l` on the right-hand sides in the `n × m` object `x`, with block size `b`, from row `K` on,
with `r + 1` blocks left: `trsm` with the diagonal block, then `gemm(-1, L21, X1, 1, X2, X2)` on the rows below. -/
def blockedForward (l x n m b : Nat) : Nat → Nat → List (BStep V)
  | K, 0 => [.blk (.trsm .lower false (blk l K K b b) (blk x K 0 b m) (blk x K 0 b m))]
  | K, r + 1 =>
    .blk (.trsm .lower false (blk l K K b b) (blk x K 0 b m) (blk x K 0 b m)) ::
    .blk (.gemm (-1) (blk l (K + b) K (n - (K + b)) b) (blk x K 0 b m) 1 (blk x (K + b) 0 (n - (K + b)) m) (blk x (K + b) 0 (n - (K + b)) m)) ::
    blockedForward l x n m b (K + b) r

/-- the rows before `J` are solved, and the products with the first `K` of them have been subtracted from the rest -/
structure FwdInv (n m J K : Nat) (L B v : Nat → Nat → V) : Prop where
  done : ∀ i j, i < J → j < m → ∑ k ∈ range (i + 1), L i k * v k j = B i j
  rest : ∀ i j, J ≤ i → i < n → j < m → v i j + ∑ k ∈ range K, L i k * v k j = B i j

theorem tri_lower_sum (L : Nat → Nat → V) (f : Nat → V) {i n : Nat} (hi : i < n) :
    ∑ k ∈ range n, tri .lower false L i k * f k = ∑ k ∈ range (i + 1), L i k * f k := by
  symm
  rw [← sum_subset (s₁ := range (i + 1)) (s₂ := range n) (fun q hq => by rw [mem_range] at *; omega) (fun q _ hq => by
    rw [mem_range] at hq
    unfold tri
    rw [if_neg (by omega), show (if q < i then L i q else 0) = 0 from if_neg (by omega), zero_mul])]
  refine sum_congr rfl (fun q hq => ?_)
  have := mem_range.1 hq
  unfold tri
  by_cases he : i = q
  · rw [if_pos he]; rfl
  · rw [if_neg he, show (if q < i then L i q else 0) = L i q from if_pos (by omega)]

theorem FwdInv.solve {n m K b : Nat} {L B v v1 f : Nat → Nat → V} (h : FwdInv n m K K L B v) (hb : K + b ≤ n)
    (hf : ∀ i j, i < b → j < m → ∑ k ∈ range b, tri .lower false (fun i k => L (K + i) (K + k)) i k * f k j = v (K + i) j)
    (h1 : ∀ i j, i < b → j < m → v1 (K + i) j = f i j)
    (h2 : ∀ p q, p < n → q < m → ¬ (K ≤ p ∧ p < K + b) → v1 p q = v p q) : FwdInv n m (K + b) K L B v1 := by
  refine ⟨fun i j hi hj => ?_, fun i j hi hin hj => ?_⟩
  · by_cases hik : i < K
    · rw [← h.done i j hik hj]
      refine sum_congr rfl (fun q hq => ?_)
      have := mem_range.1 hq
      rw [h2 q j (by omega) hj (by omega)]
    · obtain ⟨t, rfl⟩ := Nat.exists_eq_add_of_le (show K ≤ i by omega)
      rw [← h.rest (K + t) j (by omega) (by omega) hj, ← hf t j (by omega) hj, tri_lower_sum _ _ (by omega), Nat.add_assoc, sum_range_add, add_comm]
      congr 1
      · refine sum_congr rfl (fun q hq => ?_)
        have := mem_range.1 hq
        rw [h1 q j (by omega) hj]
      · refine sum_congr rfl (fun q hq => ?_)
        have := mem_range.1 hq
        rw [h2 q j (by omega) hj (by omega)]
  · rw [← h.rest i j (by omega) hin hj, h2 i j hin hj (by omega)]
    congr 1
    refine sum_congr rfl (fun q hq => ?_)
    have := mem_range.1 hq
    rw [h2 q j (by omega) hj (by omega)]

theorem FwdInv.update {n m K b : Nat} {L B v v1 : Nat → Nat → V} (h : FwdInv n m (K + b) K L B v) (hb : K + b ≤ n)
    (h1 : ∀ i j, i < n - (K + b) → j < m → v1 (K + b + i) j = (-1) * (∑ k ∈ range b, L (K + b + i) (K + k) * v (K + k) j) + 1 * v (K + b + i) j)
    (h2 : ∀ p q, p < n → q < m → ¬ (K + b ≤ p) → v1 p q = v p q) : FwdInv n m (K + b) (K + b) L B v1 := by
  refine ⟨fun i j hi hj => ?_, fun i j hi hin hj => ?_⟩
  · rw [← h.done i j hi hj]
    refine sum_congr rfl (fun q hq => ?_)
    have := mem_range.1 hq
    rw [h2 q j (by omega) hj (by omega)]
  · rw [← h.rest i j hi hin hj]
    obtain ⟨t, rfl⟩ := Nat.exists_eq_add_of_le hi
    rw [h1 t j (by omega) hj, sum_range_add,
      sum_congr (s₁ := range K) rfl (fun q hq => by
        have := mem_range.1 hq
        rw [h2 q j (by omega) hj (by omega)]),
      sum_congr (s₁ := range b) (g := fun q => L (K + b + t) (K + q) * v (K + q) j) (f := fun q => L (K + b + t) (K + q) * v1 (K + q) j) rfl (fun q hq => by
        have := mem_range.1 hq
        beta_reduce
        rw [h2 (K + q) j (by omega) hj (by omega)])]
    ring

theorem forward_solve {SS KN : Nat} (hSS : 0 < SS) {dv : V → V → V} (hdv : ∀ x y, y ≠ 0 → dv x y = x / y) {h : HWorld V} {s : HState V} (hr : HRep SS h s) {l x n m : Nat}
    {oL oX : AObj V} (hl : s.objs l = some oL) (hx : s.objs x = some oX) (hlx : l ≠ x) (hdL : DenseCol oL n n) (hdX : DenseCol oX n m) {K b : Nat}
    (hK : K % SS = 0) (hKb : K + b ≤ n) {B : Nat → Nat → V} (hnz : ∀ i, i < n → oL.val i i ≠ 0) (hi : FwdInv n m K K oL.val B oX.val) :
    (h.bcall SS KN dv (.trsm .lower false (blk l K K b b) (blk x K 0 b m) (blk x K 0 b m))).1 = .done ∧
    ∃ g, HRep SS (h.bcall SS KN dv (.trsm .lower false (blk l K K b b) (blk x K 0 b m) (blk x K 0 b m))).2 (s.put x { oX with val := g }) ∧
      FwdInv n m (K + b) K oL.val B g := by
  obtain ⟨c1, va, -, -, -⟩ := blk_arg hSS hr hl hdL (i := K) (j := K) (m := b) (k := b) hK (by omega) hKb
  obtain ⟨c2, vx, -, -, -⟩ := blk_arg hSS hr hx hdX (i := K) (j := 0) (m := b) (k := m) hK (by omega) (by omega)
  obtain ⟨s', h1, h2, -, -⟩ := bok_call (KN := KN) hSS hr hdv (.trsm .lower false (blk l K K b b) (blk x K 0 b m) (blk x K 0 b m))
    ⟨_, _, _, va, vx, vx, Or.inl hlx, Or.inr (fun i j i' j' _ _ _ _ e => by
      have e1 : K + i = K + i' := congrArg Prod.fst e
      have e2 : 0 + j = 0 + j' := congrArg Prod.snd e
      omega)⟩
  obtain ⟨A, C, X, hA, hC, hX, hok, -⟩ := h1
  rw [look_blk hl] at hA
  rw [look_blk hx] at hC hX
  obtain rfl := Option.some.inj hA
  obtain rfl := Option.some.inj hC
  obtain rfl := Option.some.inj hX
  obtain ⟨r1, f, hf, hs⟩ := hok ⟨⟨rfl, rfl⟩, rfl, rfl⟩
  obtain ⟨g, rfl, g1, g2⟩ := putView_blk hx hdX hf
  refine ⟨r1, g, h2, hi.solve (f := f) hKb (fun i j hi hj => ?_) (fun i j hi hj => ?_) (fun p q hp hq hpq => g2 p q hp hq (by omega))⟩
  · rw [hs (fun _ i hi => hnz _ (by have hi : i < b := hi; omega)) i j hi hj]; show oX.val (K + i) (0 + j) = _; rw [Nat.zero_add]
  · have := g1 i j hi hj
    rwa [Nat.zero_add] at this

theorem forward_update {SS KN : Nat} (hSS : 0 < SS) {dv : V → V → V} (hdv : ∀ x y, y ≠ 0 → dv x y = x / y) {h : HWorld V} {s : HState V} (hr : HRep SS h s) {l x n m : Nat}
    {oL oX : AObj V} (hl : s.objs l = some oL) (hx : s.objs x = some oX) (hlx : l ≠ x) (hdL : DenseCol oL n n) (hdX : DenseCol oX n m) {K b : Nat}
    (hK : K % SS = 0) (hb : b % SS = 0) (hKb : K + b ≤ n) {B : Nat → Nat → V} (hi : FwdInv n m (K + b) K oL.val B oX.val) {c : BCall V}
    (hc : c = .gemm (-1) (blk l (K + b) K (n - (K + b)) b) (blk x K 0 b m) 1 (blk x (K + b) 0 (n - (K + b)) m) (blk x (K + b) 0 (n - (K + b)) m)) :
    (h.bcall SS KN dv c).1 = .done ∧ ∃ g, HRep SS (h.bcall SS KN dv c).2 (s.put x { oX with val := g }) ∧ FwdInv n m (K + b) (K + b) oL.val B g := by
  have hKb' : (K + b) % SS = 0 := by rw [Nat.add_mod, hK, hb]; exact Nat.zero_mod _
  obtain ⟨c1, va, sa, pa, -⟩ := blk_arg hSS hr hl hdL (i := K + b) (j := K) (m := n - (K + b)) (k := b) hKb' (by omega) hKb
  obtain ⟨c2, vb, -, -, -⟩ := blk_arg hSS hr hx hdX (i := K) (j := 0) (m := b) (k := m) hK (by omega) (by omega)
  obtain ⟨c3, vc, sc, pc, -⟩ := blk_arg hSS hr hx hdX (i := K + b) (j := 0) (m := n - (K + b)) (k := m) hKb' (by omega) (by omega)
  obtain ⟨s', h1, h2, -, -⟩ := bok_call (KN := KN) hSS hr hdv c (by
    rw [hc]
    refine ⟨_, _, _, _, va, vb, vc, vc, sa, sc, sc, pa, pc, Or.inl hlx, Or.inr (fun i j i' j' hi _ _ _ e => ?_), Or.inr (fun i j i' j' _ _ _ _ e => ?_)⟩
    · have e1 : K + i = K + b + i' := congrArg Prod.fst e
      have hi : i < b := hi
      omega
    · have e1 : K + b + i = K + b + i' := congrArg Prod.fst e
      have e2 : 0 + j = 0 + j' := congrArg Prod.snd e
      omega)
  subst hc
  obtain ⟨A, E, C, D, hA, hE, hC, hD, hok, -⟩ := h1
  rw [look_blk hl] at hA
  rw [look_blk hx] at hE hC hD
  obtain rfl := Option.some.inj hA
  obtain rfl := Option.some.inj hE
  obtain rfl := Option.some.inj hC
  obtain rfl := Option.some.inj hD
  obtain ⟨r1, hf⟩ := hok ⟨rfl, ⟨rfl, rfl⟩, rfl, rfl⟩
  obtain ⟨g, rfl, g1, g2⟩ := putView_blk hx hdX hf
  refine ⟨r1, g, h2, hi.update hKb (fun i j hi hj => ?_) (fun p q hp hq hpq => g2 p q hp hq (by omega))⟩
  have := g1 i j hi hj
  simp only [Nat.zero_add] at this
  exact this

theorem forward_run {SS KN : Nat} (hSS : 0 < SS) {dv : V → V → V} (hdv : ∀ x y, y ≠ 0 → dv x y = x / y) {l x n m b : Nat} (hlx : l ≠ x) (hb : b % SS = 0)
    {oL : AObj V} (hdL : DenseCol oL n n) (hnz : ∀ i, i < n → oL.val i i ≠ 0) {B : Nat → Nat → V} (r : Nat) :
    ∀ {K : Nat} {h : HWorld V} {s : HState V} {o : AObj V}, HRep SS h s → s.objs l = some oL → s.objs x = some o → DenseCol o n m → K % SS = 0 →
      n = K + (r + 1) * b → FwdInv n m K K oL.val B o.val →
      (h.brun SS KN dv (blockedForward l x n m b K r)).1 = List.replicate (2 * r + 1) .done ∧
      ∃ g K', HRep SS (h.brun SS KN dv (blockedForward l x n m b K r)).2 (s.put x { o with val := g }) ∧ FwdInv n m n K' oL.val B g := by
  induction r with
  | zero =>
    intro K h s o hr hl ho hd hK hn hi
    rw [Nat.zero_add, Nat.one_mul] at hn
    obtain ⟨r1, g, h2, h3⟩ := forward_solve (KN := KN) (b := b) hSS hdv hr hl ho hlx hdL hd hK (by omega) hnz hi
    unfold blockedForward
    rw [brun_cons (show (h.bstep SS KN dv (.blk _)).1 = .done from r1)]
    exact ⟨rfl, g, K, h2, hn ▸ h3⟩
  | succ r ih =>
    intro K h s o hr hl ho hd hK hn hi
    have hn' : n = K + b + (r + 1) * b := by rw [hn]; ring
    obtain ⟨r1, g, h2, h3⟩ := forward_solve (KN := KN) (b := b) hSS hdv hr hl ho hlx hdL hd hK (by omega) hnz hi
    have hne : ∀ o', (s.put x o').objs l = some oL := fun o' => (if_neg hlx).trans hl
    have hd1 : DenseCol { o with val := g } n m := ⟨hd.kind, hd.so, hd.rows, hd.cols⟩
    obtain ⟨r2, g', h5, h6⟩ := forward_update (KN := KN) hSS hdv h2 (hne _) (put_get _ _ _) hlx hdL hd1 hK hb (by omega) h3 rfl
    rw [put_put] at h5
    have hd2 : DenseCol { o with val := g' } n m := ⟨hd.kind, hd.so, hd.rows, hd.cols⟩
    obtain ⟨i1, g'', K', i3, i4⟩ := ih h5 (hne _) (put_get _ _ _) hd2 (by rw [Nat.add_mod, hK, hb]; exact Nat.zero_mod _) hn' h6
    rw [put_put] at i3
    unfold blockedForward
    rw [brun_cons (show (h.bstep SS KN dv (.blk _)).1 = .done from r1),
      brun_cons (h := (h.bstep SS KN dv (.blk (.trsm .lower false (blk l K K b b) (blk x K 0 b m) (blk x K 0 b m)))).2)
        (show (HWorld.bstep SS KN dv _ (.blk _)).1 = .done from r2)]
    exact ⟨by dsimp only; rw [show 2 * (r + 1) + 1 = (2 * r + 1) + 1 + 1 by ring, List.replicate_succ, List.replicate_succ]; exact congrArg (fun t => .done :: .done :: t) i1,
      g'', K', i3, i4⟩

/-- **C73**. A client that solves `L X = B` in blocks of `b` rows, calling `trsm` in place with one diagonal block at a time and `gemm` to subtract the products with
the solved rows from the rows below - both on blocks of the object that holds the right-hand sides - finds the solution in that object: every call returns,
`L X' = B` (with the lower triangle of the object `l`), and everything else is as before. For every number of blocks, all sizes and every SIMD width dividing
the block size, in every state of the client; exact arithmetic, nonzero diagonal. -/
theorem C73_blocked_forward {SS KN : Nat} (hSS : 0 < SS) {dv : V → V → V} (hdv : ∀ x y, y ≠ 0 → dv x y = x / y) {l x n m b r : Nat} (hlx : l ≠ x) (hb : b % SS = 0)
    (hn : n = (r + 1) * b) {h : HWorld V} {s : HState V} (hr : HRep SS h s) {oL oX : AObj V} (hl : s.objs l = some oL) (hx : s.objs x = some oX)
    (hdL : DenseCol oL n n) (hdX : DenseCol oX n m) (hnz : ∀ i, i < n → oL.val i i ≠ 0) :
    (h.brun SS KN dv (blockedForward l x n m b 0 r)).1 = List.replicate (2 * r + 1) .done ∧
    ∃ f, HRep SS (h.brun SS KN dv (blockedForward l x n m b 0 r)).2 (s.put x { oX with val := f }) ∧
      ∀ i j, i < n → j < m → ∑ k ∈ range n, tri .lower false oL.val i k * f k j = oX.val i j := by
  obtain ⟨h1, g, K', h2, h3⟩ := forward_run (KN := KN) hSS hdv hlx hb hdL hnz r hr hl hx hdX (K := 0) (Nat.zero_mod _) (by omega)
    (⟨fun i j hi => by omega, fun i j _ _ _ => by rw [range_zero, sum_empty, add_zero]⟩ : FwdInv n m 0 0 oL.val oX.val oX.val)
  exact ⟨h1, g, h2, fun i j hi hj => by rw [tri_lower_sum _ _ hi]; exact h3.done i j hi hj⟩

end run

end Blast
