import Verif.BinaryLu
/-
The blocked LU factorization in a binary format of IEEE 754: if the factors are finite, the factorization is accurate.
-/
set_option linter.unusedSectionVars false
namespace Blast
open Finset

/-! ### One block step as a function of the elements, any arithmetic -/

section
variable {V : Type} [Arith V]

/-- the trailing block after a block step: panel s, rows x of the upper factor, update of the rest of α -/
def blkRes (t : Nat) (s x α : Nat → Nat → V) : Nat → Nat → V := fun i j =>
  if j < t then s i j else if i < t then x i (j - t) else
    gemmEntry (Arith.neg Arith.one) Arith.one (fun q => s i q) (fun q => x q (j - t)) (α i j) t

theorem getrfBlk_eq {T M N k : Nat} (hM : k + T < M) (hN : k + T < N) {a s : Nat → Nat → V} {P p : Nat → Nat}
    (hlu : luFull Arith.div updCol (M - k) (fun i j => a (k + i) (k + j)) (fun i => P (k + i)) T = (s, some p)) :
    ∃ x : Nat → Nat → V, (∀ i j, i < T → j < N - k - T →
        x i j = subFold (fun q => Arith.mul (s i q) (x q j)) (rowSwaps p 0 T (fun i j => a (k + i) (k + j)) i (T + j)) 0 i) ∧
      (getrfBlk T M N k a P).2 = some (addRange (mergeAt P k p) k (k + T)) ∧
      ∀ i j, i < M → j < N → (getrfBlk T M N k a P).1 i j =
        if i < k then a i j else if j < k then a (k + rowPerm p 0 T (i - k)) j
        else blkRes T s x (rowSwaps p 0 T (fun i j => a (k + i) (k + j))) (i - k) (j - k) := by
  unfold getrfBlk
  rw [hlu]
  dsimp only
  generalize hP' : addRange (mergeAt P k p) k (k + T) = P'
  have hP'q : ∀ q, q < T → P' (k + q) = p q + k := by
    intro q hq
    rw [← hP']; unfold addRange mergeAt
    rw [if_pos (by omega), if_neg (by omega), show k + q - k = q by omega]
  have hperm : ∀ i, rowPerm P' k T (k + i) = k + rowPerm p 0 T i := fun i => rowPerm_shift hP'q
  have hpermlt : ∀ i, i < k → rowPerm P' k T i = i := fun i hi => rowPerm_lt (fun q h1 h2 => by
    have := hP'q (q - k) (by omega)
    rw [show k + (q - k) = q by omega] at this
    omega) hi
  -- the state before trsm
  have h3 : ∀ i j, i < M → j < N → swapCols P' k (k + T) (k + T) (N - k - T) (swapCols P' k (k + T) 0 k (paste k k (M - k) T s a)) i j =
      if i < k then a i j else if j < k then a (k + rowPerm p 0 T (i - k)) j
      else if j < k + T then s (i - k) (j - k)
      else rowSwaps p 0 T (fun i j => a (k + i) (k + j)) (i - k) (j - k) := by
    intro i j hi hj
    unfold swapCols paste
    rw [show k + T - k = T by omega]
    simp only [rowSwaps_eq]
    by_cases hik : i < k
    · simp only [hpermlt i hik]
      rw [if_pos hik]
      split_ifs <;> first | rfl | omega
    · rw [if_neg hik]
      obtain ⟨i', rfl⟩ : ∃ i', i = k + i' := ⟨i - k, by omega⟩
      simp only [hperm]
      rw [show k + i' - k = i' by omega]
      by_cases hj1 : j < k
      · rw [if_pos hj1, if_neg (by omega), if_pos (by omega), if_neg (by omega)]
      · rw [if_neg hj1]
        by_cases hj2 : j < k + T
        · rw [if_pos hj2, if_neg (by omega), if_neg (by omega), if_pos (by omega)]
        · rw [if_neg hj2, if_pos (by omega), if_neg (by omega), if_neg (by omega), show k + (j - k) = j by omega]
  generalize swapCols P' k (k + T) (k + T) (N - k - T) (swapCols P' k (k + T) 0 k (paste k k (M - k) T s a)) = a3 at h3 ⊢
  refine ⟨fun i j => trsmSol .lower true T (fun i q => a3 (k + i) (k + q)) (fun i => a3 (k + i) (k + T + j)) i, fun i j hi hj => ?_, rfl, fun i j hi hj => ?_⟩
  · have := trsmSol_rec .lower true T (fun i q => a3 (k + i) (k + q)) (fun i => a3 (k + i) (k + T + j)) i hi
    dsimp only at this ⊢
    rw [this, if_pos rfl]
    show subFold _ _ 0 (i - 0) = _
    rw [Nat.sub_zero, h3 _ _ (by omega) (by omega), if_neg (by omega), if_neg (by omega), if_neg (by omega), show k + i - k = i by omega,
      show k + T + j - k = T + j by omega]
    refine subFold_congr _ (fun q _ hq => ?_)
    rw [h3 _ _ (by omega) (by omega), if_neg (by omega), if_neg (by omega), if_pos (by omega), show k + i - k = i by omega, show k + q - k = q by omega]
  · have h4 : ∀ i j, i < M → j < N → paste k (k + T) T (N - k - T) (fun i j => trsmSol .lower true T (fun i q => a3 (k + i) (k + q)) (fun i => a3 (k + i) (k + T + j)) i) a3 i j =
        if i < k then a i j else if j < k then a (k + rowPerm p 0 T (i - k)) j
        else if j < k + T then s (i - k) (j - k)
        else if i < k + T then trsmSol .lower true T (fun i q => a3 (k + i) (k + q)) (fun i => a3 (k + i) (k + T + (j - k - T))) (i - k)
        else rowSwaps p 0 T (fun i j => a (k + i) (k + j)) (i - k) (j - k) := by
      intro i j hi hj
      unfold paste
      by_cases h1 : k ≤ i ∧ i < k + T ∧ k + T ≤ j ∧ j < k + T + (N - k - T)
      · rw [if_pos h1, if_neg (by omega), if_neg (by omega), if_neg (by omega), if_pos (by omega), show j - (k + T) = j - k - T by omega]
      · rw [if_neg h1, h3 i j hi hj]
        by_cases hik : i < k
        · rw [if_pos hik, if_pos hik]
        · rw [if_neg hik, if_neg hik]
          by_cases hjk : j < k
          · rw [if_pos hjk, if_pos hjk]
          · rw [if_neg hjk, if_neg hjk]
            by_cases hj2 : j < k + T
            · rw [if_pos hj2, if_pos hj2]
            · rw [if_neg hj2, if_neg hj2, if_neg (by omega)]
    generalize paste k (k + T) T (N - k - T) (fun i j => trsmSol .lower true T (fun i q => a3 (k + i) (k + q)) (fun i => a3 (k + i) (k + T + j)) i) a3 = a4 at h4 ⊢
    unfold paste blkRes
    by_cases h1 : k + T ≤ i ∧ i < k + T + (M - k - T) ∧ k + T ≤ j ∧ j < k + T + (N - k - T)
    · rw [if_pos h1, if_neg (by omega), if_neg (by omega), if_neg (by omega), if_neg (by omega)]
      unfold gemmEntry
      beta_reduce
      rw [show k + T + (i - (k + T)) = i by omega, show k + T + (j - (k + T)) = j by omega, h4 i j hi hj, if_neg (by omega), if_neg (by omega), if_neg (by omega), if_neg (by omega)]
      congr 2
      refine fmaSum_congr rfl _ (fun q hq => ?_) (fun q hq => ?_)
      · rw [h4 _ _ hi (by omega), if_neg (by omega), if_neg (by omega), if_pos (by omega), show k + q - k = q by omega]
      · rw [h4 _ _ (by omega) hj, if_neg (by omega), if_neg (by omega), if_neg (by omega), if_pos (by omega), show k + q - k = q by omega]
    · rw [if_neg h1, h4 i j hi hj]
      by_cases hik : i < k
      · rw [if_pos hik, if_pos hik]
      · rw [if_neg hik, if_neg hik]
        by_cases hjk : j < k
        · rw [if_pos hjk, if_pos hjk]
        · rw [if_neg hjk, if_neg hjk]
          by_cases hj2 : j < k + T
          · rw [if_pos hj2, if_pos (by omega)]
          · rw [if_neg hj2, if_pos (show i < k + T by omega), if_neg (show ¬ j - k < T by omega), if_pos (show i - k < T by omega)]

/-- the last block -/
theorem getrfLast_eq {M N k : Nat} (hM : k < M) (hN : k < N) {a s : Nat → Nat → V} {P p : Nat → Nat}
    (hlu : luFull Arith.div updCol (M - k) (fun i j => a (k + i) (k + j)) (fun i => P (k + i)) (min (M - k) (N - k)) = (s, some p)) :
    (getrfLast M N k a P).2 = some (addRange (mergeAt P k p) k (min M N)) ∧
      ∀ i j, i < M → j < N → (getrfLast M N k a P).1 i j =
        if i < k then a i j else if j < k then a (k + rowPerm p 0 (min M N - k) (i - k)) j else s (i - k) (j - k) := by
  unfold getrfLast
  rw [if_pos ⟨hM, hN⟩, hlu]
  dsimp only
  generalize hP' : addRange (mergeAt P k p) k (min M N) = P'
  refine ⟨rfl, fun i j hi hj => ?_⟩
  have hP'q : ∀ q, q < min M N - k → P' (k + q) = p q + k := by
    intro q hq
    rw [← hP']; unfold addRange mergeAt
    rw [if_pos (by omega), if_neg (by omega), show k + q - k = q by omega]
  unfold swapCols paste
  simp only [rowSwaps_eq]
  by_cases hik : i < k
  · rw [rowPerm_lt (fun q hq1 hq2 => by
      have := hP'q (q - k) (by omega)
      rw [show k + (q - k) = q by omega] at this
      omega) hik]
    rw [if_pos hik]
    split_ifs <;> first | rfl | omega
  · rw [if_neg hik]
    obtain ⟨i', rfl⟩ : ∃ i', i = k + i' := ⟨i - k, by omega⟩
    rw [rowPerm_shift hP'q, show k + i' - k = i' by omega]
    by_cases hj1 : j < k
    · rw [if_pos hj1, if_pos (by omega), if_neg (by omega)]
    · rw [if_neg hj1, if_neg (by omega), if_pos (by omega)]

end

theorem rowPerm_inj' (p : Nat → Nat) (k0 t : Nat) {i j : Nat} (h : rowPerm p k0 t i = rowPerm p k0 t j) : i = j := by
  induction t generalizing i j with
  | zero => exact h
  | succ t ih =>
    have := ih (i := swapIdx (k0 + t) (p (k0 + t)) i) (j := swapIdx (k0 + t) (p (k0 + t)) j) h
    rw [← swapIdx_invol (k0 + t) (p (k0 + t)) i, this, swapIdx_invol]

/-! ### Binary formats -/

namespace Bin
variable {F : Format}

theorem mul_comm' (a b : Bin F) : mul a b = mul b a := by
  have hx : ∀ s t : Bool, (s != t) = (t != s) := by decide
  rcases a with ⟨s, x⟩ | s | _ <;> rcases b with ⟨t, y⟩ | t | _ <;> simp only [mul, mul_comm, hx]

/-- the update of the trailing block by gemm, backwards -/
theorem gemmNeg_inv {x y : Nat → Bin F} {c : Bin F} {K : Nat} (hK : 0 < K)
    (h : (gemmEntry (Arith.neg Arith.one) Arith.one x y c K).Finite) :
    c.Finite ∧ (∀ q, q < K → (x q).Finite ∧ (y q).Finite) ∧
    |c.real - (∑ q ∈ range K, (x q).real * (y q).real + (gemmEntry (Arith.neg Arith.one) Arith.one x y c K).real)| ≤
      ((1 + bu F.u) ^ K - 1) * (∑ q ∈ range K, |(x q).real * (y q).real| + |(gemmEntry (Arith.neg Arith.one) Arith.one x y c K).real|) +
        (1 + bu F.u) ^ K * (3 * K) * F.eta := by
  have hv := bu_pos (F := F)
  have he := F.eta_pos
  have hu := F.u_pos
  unfold gemmEntry at h ⊢
  obtain ⟨-, h2, h3, h4⟩ := fma_inv h
  have k1 := (mul_inv h3).1
  have hS : IsNum (fmaSum x y Arith.zero K) := by
    obtain ⟨K', rfl⟩ : ∃ K', K = K' + 1 := ⟨K - 1, by omega⟩
    exact isNum_fma _ _ _
  obtain ⟨-, g2, g3⟩ := fmaSum_inv K k1
  have e1 : (Arith.mul (fmaSum x y Arith.zero K) (Arith.neg Arith.one)).real = -(fmaSum x y Arith.zero K).real := by
    show (mul _ _).real = _
    rw [mul_comm']
    exact (mul_negOne hS k1).2
  have e2 : (Arith.one : Bin F).real = 1 := by simp [Arith.one, real]
  have e3 : (Arith.zero : Bin F).real = 0 := by simp [Arith.zero, real]
  rw [e1, e2, one_mul] at h4
  rw [e3, abs_zero, zero_add, zero_add] at g3
  refine ⟨h2, g2, ?_⟩
  have h5 := back_eta hu.le F.u_lt_one h4
  set S := (fmaSum x y Arith.zero K).real
  change |c.real + -S - (Arith.fma Arith.one c (Arith.mul (fmaSum x y Arith.zero K) (Arith.neg Arith.one))).real| ≤
    bu F.u * |(Arith.fma Arith.one c (Arith.mul (fmaSum x y Arith.zero K) (Arith.neg Arith.one))).real| + _ at h5
  set z := (Arith.fma Arith.one c (Arith.mul (fmaSum x y Arith.zero K) (Arith.neg Arith.one))).real
  simp only [abs_mul]
  have hT : 0 ≤ ∑ q ∈ range K, |(x q).real| * |(y q).real| := sum_nonneg fun q _ => mul_nonneg (abs_nonneg _) (abs_nonneg _)
  set T := ∑ q ∈ range K, |(x q).real| * |(y q).real|
  set Q := ∑ q ∈ range K, (x q).real * (y q).real
  have h6 := abs_add_le (c.real + -S - z) (S - Q)
  rw [show c.real + -S - z + (S - Q) = c.real - (Q + z) by ring] at h6
  have p1 : (1 + F.u) ^ K ≤ (1 + bu F.u) ^ K := pow_le_pow_left₀ (by linarith) (by linarith [le_bu hu.le F.u_lt_one]) K
  have p2 : 1 + bu F.u ≤ (1 + bu F.u) ^ K := le_self_pow₀ (by linarith) (by omega)
  have hK1 : (1 : ℝ) ≤ K := by exact_mod_cast hK
  have m1 : bu F.u * |z| ≤ ((1 + bu F.u) ^ K - 1) * |z| := mul_le_mul_of_nonneg_right (by linarith) (abs_nonneg _)
  have m2 : ((1 + F.u) ^ K - 1) * T ≤ ((1 + bu F.u) ^ K - 1) * T := mul_le_mul_of_nonneg_right (by linarith) hT
  have m3 : (1 + bu F.u) * F.eta ≤ (1 + bu F.u) ^ K * K * F.eta := by
    refine mul_le_mul_of_nonneg_right (le_trans p2 (le_mul_of_one_le_right (by linarith) hK1)) he.le
  have m4 : K * (1 + F.u) ^ K * F.eta ≤ (1 + bu F.u) ^ K * K * F.eta := by
    rw [mul_comm (K : ℝ)]
    exact mul_le_mul_of_nonneg_right (mul_le_mul_of_nonneg_right p1 (by linarith)) he.le
  have m5 : 0 ≤ (1 + bu F.u) ^ K * K * F.eta := by positivity
  linarith

/-- one block of the right-looking algorithm, backwards -/
theorem blockStep_inv {t m n : Nat} (ht : 0 < t) (htm : t ≤ m) (htn : t ≤ n) {α s x : Nat → Nat → Bin F} {b : Nat → Nat → ℝ}
    (h : LUEta (bu F.u) F.eta t (3 * t) m t t b (fun i j => (s i j).real)) (hb : ∀ i j, i < m → t ≤ j → j < n → b i j = (α i j).real)
    (hx : ∀ i j, i < t → j < n - t → x i j = subFold (fun q => Arith.mul (s i q) (x q j)) (α i (t + j)) 0 i)
    (hf : ∀ i j, i < m → j < n → (blkRes t s x α i j).Finite) :
    (∀ i j, i < m → t ≤ j → j < n → (α i j).Finite) ∧ LUEta (bu F.u) F.eta t (3 * t) m n t b (fun i j => (blkRes t s x α i j).real) := by
  have hv := bu_pos (F := F)
  have he := F.eta_pos
  have e1 : ∀ i j, j < t → blkRes t s x α i j = s i j := fun i j hj => by unfold blkRes; rw [if_pos hj]
  have e2 : ∀ i j, ¬ j < t → i < t → blkRes t s x α i j = x i (j - t) := fun i j hj hi => by unfold blkRes; rw [if_neg hj, if_pos hi]
  have e3 : ∀ i j, ¬ j < t → ¬ i < t → blkRes t s x α i j =
      gemmEntry (Arith.neg Arith.one) Arith.one (fun q => s i q) (fun q => x q (j - t)) (α i j) t := fun i j hj hi => by
    unfold blkRes; rw [if_neg hj, if_neg hi]
  have hL : ∀ i q, q < t → tri .lower true (fun i j => (blkRes t s x α i j).real) i q = tri .lower true (fun i j => (s i j).real) i q := fun i q hq => by
    rw [tri_eq_lower, tri_eq_lower, e1 i q hq]
  -- the rows of the upper factor
  have hxi : ∀ i j, i < t → ¬ j < t → j < n → (α i j).Finite ∧
      |(α i j).real - ((x i (j - t)).real + ∑ q ∈ range i, (s i q).real * (x q (j - t)).real)| ≤
        ((1 + bu F.u) ^ i - 1) * (|(x i (j - t)).real| + ∑ q ∈ range i, |(s i q).real * (x q (j - t)).real|) + i * (1 + bu F.u) ^ i * (3 * F.eta) := by
    intro i j hi hj hjn
    have hxx := hx i (j - t) hi (by omega)
    rw [show t + (j - t) = j by omega] at hxx
    have hff := hf i j (by omega) hjn
    rw [e2 i j hj hi, hxx] at hff
    obtain ⟨f1, -, f3⟩ := subFold_inv 0 i hff
    rw [← hxx] at f3
    simp only [Nat.zero_add] at f3
    exact ⟨f1, f3⟩
  refine ⟨fun i j hi hj hjn => ?_, fun i j hi hj => ?_, fun q hq => by beta_reduce; rw [e1 q q hq]; exact h.nz q hq⟩
  · by_cases hit : i < t
    · exact (hxi i j hit (by omega) hjn).1
    · have := hf i j hi hjn
      rw [e3 i j (by omega) hit] at this
      exact (gemmNeg_inv ht this).1
  · by_cases hjt : j < t
    · have := h.near i j hi hjt
      have es : ∀ q ∈ range t, tri .lower true (fun i j => (blkRes t s x α i j).real) i q * tri .upper false (fun i j => (blkRes t s x α i j).real) q j =
          tri .lower true (fun i j => (s i j).real) i q * tri .upper false (fun i j => (s i j).real) q j :=
        fun q hq => by rw [hL i q (mem_range.1 hq), tri_eq_upper, tri_eq_upper, e1 q j hjt]
      unfold luY luYa at this ⊢
      rw [sum_congr rfl es, sum_abs_congr es]
      simp only [e1 i j hjt, e1 j j hjt]
      exact this
    · have es : ∀ q ∈ range t, tri .lower true (fun i j => (blkRes t s x α i j).real) i q * tri .upper false (fun i j => (blkRes t s x α i j).real) q j =
          tri .lower true (fun i j => (s i j).real) i q * (x q (j - t)).real := fun q hq => by
        have hq := mem_range.1 hq
        rw [hL i q hq, tri_eq_upper, if_pos (by omega), e2 q j hjt hq]
      rw [if_neg hjt, hb i j hi (by omega) hj, add_zero]
      unfold luY luYa
      rw [sum_congr rfl es, sum_abs_congr es]
      by_cases hit : i < t
      · have hc : ¬ (t ≤ i ∧ t ≤ j) := by omega
        rw [if_neg hc, if_neg hc, add_zero, add_zero]
        have el : ∀ q ∈ range t, tri .lower true (fun i j => (s i j).real) i q * (x q (j - t)).real =
            if q < i then (s i q).real * (x q (j - t)).real else if q = i then (x i (j - t)).real else 0 := by
          intro q _
          rw [tri_eq_lower]
          by_cases h1 : i = q
          · subst h1; rw [if_pos rfl, if_neg (by omega), if_pos rfl, one_mul]
          · rw [if_neg h1, if_neg (show ¬ q = i by omega)]
            by_cases h2 : q < i
            · rw [if_pos h2, if_pos h2]
            · rw [if_neg h2, if_neg h2, zero_mul]
        have key : ∀ (g : ℝ → ℝ), g 0 = 0 → ∑ q ∈ range t, g (tri .lower true (fun i j => (s i j).real) i q * (x q (j - t)).real) =
            g (x i (j - t)).real + ∑ q ∈ range i, g ((s i q).real * (x q (j - t)).real) := by
          intro g hg
          obtain ⟨d, rfl⟩ : ∃ d, t = i + 1 + d := ⟨t - i - 1, by omega⟩
          rw [sum_congr rfl (fun q hq => congrArg g (el q hq)), sum_range_add, sum_range_succ, if_neg (show ¬ i < i by omega), if_pos rfl]
          have z : ∑ q ∈ range d, g (if i + 1 + q < i then (s i (i + 1 + q)).real * (x (i + 1 + q) (j - (i + 1 + d))).real
              else if i + 1 + q = i then (x i (j - (i + 1 + d))).real else 0) = 0 := by
            refine sum_eq_zero fun q _ => ?_
            rw [if_neg (by omega), if_neg (by omega), hg]
          rw [z, add_zero, add_comm]
          congr 1
          refine sum_congr rfl fun q hq => ?_
          rw [if_pos (mem_range.1 hq)]
        have k1 := key (fun y => y) rfl
        have k2 := key (fun y => |y|) abs_zero
        beta_reduce at k1 k2
        rw [k1, k2]
        refine le_trans (hxi i j hit hjt hj).2 ?_
        have := eta_mono (A := |(x i (j - t)).real| + ∑ q ∈ range i, |(s i q).real * (x q (j - t)).real|) (d := 0) hv he.le
          (add_nonneg (abs_nonneg _) (sum_nonneg fun _ _ => abs_nonneg _)) le_rfl (w := i) (w' := t) (c := 3 * i) (c' := 3 * t) (by omega) (by omega)
        rw [add_zero, add_zero] at this
        refine le_trans (le_of_eq ?_) this
        push_cast
        ring
      · have hc : t ≤ i ∧ t ≤ j := by omega
        rw [if_pos hc, if_pos hc]
        have el : ∀ q ∈ range t, tri .lower true (fun i j => (s i j).real) i q * (x q (j - t)).real = (s i q).real * (x q (j - t)).real := fun q hq => by
          have hq := mem_range.1 hq
          rw [tri_eq_lower, if_neg (by omega), if_pos (by omega)]
        rw [sum_congr rfl el, sum_abs_congr el]
        have hff := hf i j hi hj
        rw [e3 i j hjt hit] at hff
        beta_reduce
        rw [e3 i j hjt hit]
        have := (gemmNeg_inv ht hff).2.2
        push_cast
        exact this

/-- state of the blocked algorithm after `k` columns -/
structure BinLuState (F : Format) (M N k : Nat) (a0 : Nat → Nat → Bin F) (ip : Nat → Nat) (a : Nat → Nat → Bin F) (P : Nat → Nat) : Prop where
  num : ∀ i j, i < M → j < N → IsNum (a i j)
  piv : ∀ q, q < k → q ≤ P q ∧ P q < M
  rest : ∀ q, k ≤ q → P q = ip q
  fin : (∀ i j, i < M → j < N → (a i j).Finite) → (∀ i j, i < M → j < N → (a0 i j).Finite) ∧
    LUEta (bu F.u) F.eta k (3 * k) M N k (rowSwaps P 0 k (fun i j => (a0 i j).real)) (fun i j => (a i j).real) ∧
    (∀ i q, q < k → q < i → i < M → |(a i q).real| ≤ 1)

theorem BinLuState.init {M N : Nat} {a0 : Nat → Nat → Bin F} (h : ∀ i j, i < M → j < N → IsNum (a0 i j)) (ip : Nat → Nat) : BinLuState F M N 0 a0 ip a0 ip :=
  ⟨h, fun q hq => by omega, fun q _ => rfl, fun hf => ⟨hf, LUEta.zero _ _ M N _, fun i q hq => by omega⟩⟩

/-- extension of the state by a factorization of the trailing block -/
theorem BinLuState.extend {M N k t : Nat} {a0 a : Nat → Nat → Bin F} {ip P : Nat → Nat} (h : BinLuState F M N k a0 ip a P) (hk : k + t ≤ M) (hkn : k + t ≤ N)
    {p : Nat → Nat} {s : Nat → Nat → Bin F} (hnum : ∀ i j, i < M - k → j < N - k → IsNum (s i j))
    (hpb : ∀ q, q < t → q ≤ p q ∧ p q < M - k) (hpr : ∀ q, t ≤ q → p q = P (k + q))
    (hs : (∀ i j, i < M - k → j < N - k → (s i j).Finite) → (∀ i j, i < M - k → j < N - k → (a (k + i) (k + j)).Finite) ∧
      LUEta (bu F.u) F.eta t (3 * t) (M - k) (N - k) t (rowSwaps p 0 t (fun i j => (a (k + i) (k + j)).real)) (fun i j => (s i j).real) ∧
      (∀ i q, q < t → q < i → i < M - k → |(s i q).real| ≤ 1))
    {a' : Nat → Nat → Bin F} (ha' : ∀ i j, i < M → j < N → a' i j =
      if i < k then a i j else if j < k then a (k + rowPerm p 0 t (i - k)) j else s (i - k) (j - k)) :
    BinLuState F M N (k + t) a0 ip a' (addRange (mergeAt P k p) k (k + t)) := by
  generalize hP' : addRange (mergeAt P k p) k (k + t) = P'
  have hP'q : ∀ q, q < t → P' (k + q) = p q + k := by
    intro q hq
    rw [← hP']; unfold addRange mergeAt
    rw [if_pos (by omega), if_neg (by omega), show k + q - k = q by omega]
  have hP'l : ∀ q, q < k → P' q = P q := by
    intro q hq
    rw [← hP']; unfold addRange mergeAt
    rw [if_neg (by omega), if_pos hq]
  have hperm : ∀ i, rowPerm P' k t (k + i) = k + rowPerm p 0 t i := fun i => rowPerm_shift hP'q
  have hpermlt : ∀ i, i < k → rowPerm P' k t i = i := fun i hi => rowPerm_lt (fun q h1 h2 => by
    have := hP'q (q - k) (by omega)
    rw [show k + (q - k) = q by omega] at this
    omega) hi
  have hpermb : ∀ i, i < M - k → rowPerm p 0 t i < M - k := fun i hi =>
    (rowPerm_bounds (fun q _ hq => ⟨by omega, (hpb q (by omega)).2⟩) (by omega) ⟨by omega, hi⟩).2
  have hσ : ∀ i, k ≤ i → i < M → k ≤ rowPerm P' k t i ∧ rowPerm P' k t i < M := by
    intro i h1 h2
    obtain ⟨i', rfl⟩ : ∃ i', i = k + i' := ⟨i - k, by omega⟩
    rw [hperm]
    have := hpermb i' (by omega)
    omega
  refine ⟨fun i j hi hj => ?_, ?_, ?_, fun hf => ?_⟩
  · rw [ha' i j hi hj]
    by_cases hik : i < k
    · rw [if_pos hik]; exact h.num i j hi hj
    · rw [if_neg hik]
      by_cases hjk : j < k
      · rw [if_pos hjk]
        have := hpermb (i - k) (by omega)
        exact h.num _ _ (by omega) hj
      · rw [if_neg hjk]; exact hnum _ _ (by omega) (by omega)
  · intro q hq
    by_cases hqk : q < k
    · rw [hP'l q hqk]; exact h.piv q hqk
    · have := hP'q (q - k) (by omega)
      rw [show k + (q - k) = q by omega] at this
      have := hpb (q - k) (by omega)
      omega
  · intro q hq
    rw [← hP']; unfold addRange mergeAt
    rw [if_neg (by omega), if_neg (by omega), hpr (q - k) (by omega), show k + (q - k) = q by omega]
    exact h.rest q (by omega)
  · have hfs : ∀ i j, i < M - k → j < N - k → (s i j).Finite := fun i j hi hj => by
      have := hf (k + i) (k + j) (by omega) (by omega)
      rwa [ha' _ _ (by omega) (by omega), if_neg (by omega), if_neg (by omega), show k + i - k = i by omega, show k + j - k = j by omega] at this
    obtain ⟨g1, g2, g3⟩ := hs hfs
    have hfa : ∀ i j, i < M → j < N → (a i j).Finite := by
      intro i j hi hj
      by_cases hik : i < k
      · have := hf i j hi hj
        rwa [ha' i j hi hj, if_pos hik] at this
      · by_cases hjk : j < k
        · -- row i of a is row i' of a'
          obtain ⟨i', hi', e⟩ : ∃ i', i' < M - k ∧ rowPerm p 0 t i' = i - k := by
            have hinj : Set.InjOn (rowPerm p 0 t) (Finset.range (M - k)) := fun x _ y _ hxy => rowPerm_inj' _ _ _ hxy
            have hm : Set.MapsTo (rowPerm p 0 t) (Finset.range (M - k)) (Finset.range (M - k)) := fun x hx => by
              simp only [Finset.coe_range, Set.mem_Iio] at hx ⊢
              exact hpermb x hx
            have := (Finset.surjOn_of_injOn_of_card_le _ hm hinj le_rfl) (show i - k ∈ ((Finset.range (M - k) : Finset Nat) : Set Nat) by simp; omega)
            obtain ⟨x, hx, hxe⟩ := this
            simp only [Finset.coe_range, Set.mem_Iio] at hx
            exact ⟨x, hx, hxe⟩
          have := hf (k + i') j (by omega) hj
          rwa [ha' _ _ (by omega) hj, if_neg (by omega), if_pos hjk, show k + i' - k = i' by omega, e, show k + (i - k) = i by omega] at this
        · have := g1 (i - k) (j - k) (by omega) (by omega)
          rwa [show k + (i - k) = i by omega, show k + (j - k) = j by omega] at this
    obtain ⟨k1, k2, k3⟩ := h.fin hfa
    have h1 := k2.perm (σ := rowPerm P' k t) hpermlt hσ
    have e0 : (fun i j => (a (rowPerm P' k t (k + i)) (k + j)).real) = rowSwaps p 0 t (fun i j => (a (k + i) (k + j)).real) := by
      funext i j; rw [rowSwaps_eq, hperm]
    have h2 := h1.block bu_pos F.eta_pos.le (t := t) (w' := t) (c' := 3 * t) (s := fun i j => (s i j).real) (by beta_reduce; rw [e0]; exact g2)
    refine ⟨k1, ?_, ?_⟩
    · rw [show 3 * (k + t) = 3 * t + 3 * k by omega]
      have h3 := h2.congr (b' := rowSwaps P' 0 (k + t) (fun i j => (a0 i j).real)) (a' := fun i j => (a' i j).real) hk hkn (fun i j hi hj => ?_) (fun i j hi hj => ?_)
      · rwa [Nat.add_comm t k] at h3
      · rw [rowSwaps_eq, rowPerm_add, rowSwaps_eq, rowPerm_congr (p' := P) (fun q _ hq => hP'l q (by omega))]
      · beta_reduce
        unfold luPaste
        beta_reduce
        rw [ha' i j hi hj]
        by_cases hik : i < k
        · rw [if_pos hik, if_pos (Or.inl hik), hpermlt i hik]
        · rw [if_neg hik]
          by_cases hjk : j < k
          · rw [if_pos hjk, if_pos (Or.inr hjk), ← hperm, show k + (i - k) = i by omega]
          · rw [if_neg hjk, if_neg (by omega)]
    · intro i q hq hqi hi
      rw [ha' i q hi (by omega)]
      by_cases hik : i < k
      · rw [if_pos hik]; exact k3 i q (by omega) hqi hi
      · rw [if_neg hik]
        by_cases hqk : q < k
        · rw [if_pos hqk]
          have := hpermb (i - k) (by omega)
          exact k3 _ q hqk (by omega) (by omega)
        · rw [if_neg hqk]
          exact g3 _ _ (by omega) (by omega) (by omega)

/-- one block step -/
theorem getrfBlk_state (hW : F.Wide) {T M N k : Nat} (hT : 0 < T) (hM : k + T < M) (hN : k + T < N) {a0 a : Nat → Nat → Bin F} {ip P P' : Nat → Nat} {a' : Nat → Nat → Bin F}
    (h : BinLuState F M N k a0 ip a P) (he : getrfBlk T M N k a P = (a', some P')) : BinLuState F M N (k + T) a0 ip a' P' := by
  rcases hlu : luFull Arith.div updCol (M - k) (fun i j => a (k + i) (k + j)) (fun i => P (k + i)) T with ⟨s, _ | p⟩
  · unfold getrfBlk at he
    rw [hlu] at he
    simp at he
  obtain ⟨x, x1, x2, x3⟩ := getrfBlk_eq hM hN hlu
  rw [he] at x2 x3
  cases x2
  have hn0 : ∀ i j, i < M - k → j < T → IsNum (a (k + i) (k + j)) := fun i j hi hj => h.num _ _ (by omega) (by omega)
  obtain ⟨g1, g2, g3, g4⟩ := luRun_eta (n := T) (etaOps_col hW) hn0 T (by omega) le_rfl (luFull_some _ hlu)
  have hpermb : ∀ i, i < M - k → rowPerm p 0 T i < M - k := fun i hi =>
    (rowPerm_bounds (fun q _ hq => ⟨by omega, (g2 q (by omega)).2⟩) (by omega) ⟨by omega, hi⟩).2
  refine h.extend (by omega) (by omega) (s := blkRes T s x (rowSwaps p 0 T (fun i j => a (k + i) (k + j)))) (fun i j hi hj => ?_) g2 g3 (fun hf => ?_) x3
  · unfold blkRes
    split
    · exact g1 _ _ hi (by omega)
    · split
      · rename_i h1 h2
        rw [x1 i (j - T) h2 (by omega)]
        cases i with
        | zero =>
          show IsNum (rowSwaps p 0 T (fun i j => a (k + i) (k + j)) 0 (T + (j - T)))
          rw [rowSwaps_eq]
          exact h.num _ _ (by have := hpermb 0 hi; omega) (by omega)
        | succ i => exact isNum_add _ _
      · exact isNum_fma _ _ _
  · have hfs : ∀ i j, i < M - k → j < T → (s i j).Finite := fun i j hi hj => by
      have := hf i j hi (by omega)
      unfold blkRes at this
      rwa [if_pos hj] at this
    obtain ⟨f1, f2, f3⟩ := g4 hfs
    rw [Nat.one_mul] at f2
    obtain ⟨q1, q2⟩ := blockStep_inv hT (show T ≤ M - k by omega) (show T ≤ N - k by omega) f2 (fun i j hi hj hjn => by rw [rowSwaps_eq, rowSwaps_eq]) x1 hf
    refine ⟨fun i j hi hj => ?_, q2, fun i q hq hqi hi => ?_⟩
    · by_cases hjt : j < T
      · exact f1 i j hi hjt
      · obtain ⟨i', hi', e⟩ : ∃ i', i' < M - k ∧ rowPerm p 0 T i' = i := by
          have hinj : Set.InjOn (rowPerm p 0 T) (Finset.range (M - k)) := fun x _ y _ hxy => rowPerm_inj' _ _ _ hxy
          have hm : Set.MapsTo (rowPerm p 0 T) (Finset.range (M - k)) (Finset.range (M - k)) := fun x hx => by
            simp only [Finset.coe_range, Set.mem_Iio] at hx ⊢
            exact hpermb x hx
          obtain ⟨x, hx, hxe⟩ := (Finset.surjOn_of_injOn_of_card_le _ hm hinj le_rfl) (show i ∈ ((Finset.range (M - k) : Finset Nat) : Set Nat) by simp; omega)
          simp only [Finset.coe_range, Set.mem_Iio] at hx
          exact ⟨x, hx, hxe⟩
        have := q1 i' j hi' (by omega) hj
        rwa [rowSwaps_eq, e] at this
    · have : blkRes T s x (rowSwaps p 0 T (fun i j => a (k + i) (k + j))) i q = s i q := by unfold blkRes; rw [if_pos hq]
      rw [this]
      exact f3 i q hq hqi hi

theorem getrfIter_state (hW : F.Wide) {T M N : Nat} (hT : 0 < T) {a0 : Nat → Nat → Bin F} {ip : Nat → Nat} (fuel : Nat) {k k' : Nat} {a a' : Nat → Nat → Bin F} {P P' : Nat → Nat}
    (hkM : k ≤ M) (hkN : k ≤ N) (h : BinLuState F M N k a0 ip a P) (he : getrfIter T M N fuel k a P = (k', a', some P')) :
    BinLuState F M N k' a0 ip a' P' ∧ k' ≤ M ∧ k' ≤ N := by
  induction fuel generalizing k a P with
  | zero => simp only [getrfIter, Prod.mk.injEq, Option.some.injEq] at he; obtain ⟨rfl, rfl, rfl⟩ := he; exact ⟨h, hkM, hkN⟩
  | succ fuel ih =>
    unfold getrfIter at he
    by_cases hc : k + T < M ∧ k + T < N
    · rw [if_pos hc] at he
      rcases hb : getrfBlk T M N k a P with ⟨a1, _ | P1⟩
      · rw [hb] at he; simp at he
      · rw [hb] at he
        exact ih (by omega) (by omega) (getrfBlk_state hW hT hc.1 hc.2 h hb) he
    · rw [if_neg hc] at he
      simp only [Prod.mk.injEq, Option.some.injEq] at he
      obtain ⟨rfl, rfl, rfl⟩ := he
      exact ⟨h, hkM, hkN⟩

theorem getrfFull_state (hW : F.Wide) {T M N : Nat} (hT : 0 < T) {a0 b : Nat → Nat → Bin F} {ip p : Nat → Nat} (hnum : ∀ i j, i < M → j < N → IsNum (a0 i j))
    (h : getrfFull T M N a0 ip = (b, some p)) : BinLuState F M N (min M N) a0 ip b p := by
  unfold getrfFull at h
  rcases hi : getrfIter T M N (M + 1) 0 a0 ip with ⟨k, a, _ | P⟩
  · rw [hi] at h; simp at h
  rw [hi] at h
  obtain ⟨hst, hkM, hkN⟩ := getrfIter_state hW hT (M + 1) (Nat.zero_le _) (Nat.zero_le _) (BinLuState.init hnum ip) hi
  dsimp only at h
  by_cases hc : k < M ∧ k < N
  · rcases hlu : luFull Arith.div updCol (M - k) (fun i j => a (k + i) (k + j)) (fun i => P (k + i)) (min (M - k) (N - k)) with ⟨s, _ | q⟩
    · unfold getrfLast at h
      rw [if_pos hc, hlu] at h
      simp at h
    · obtain ⟨e1, e2⟩ := getrfLast_eq hc.1 hc.2 hlu
      rw [h] at e1 e2
      cases e1
      have hn0 : ∀ i j, i < M - k → j < N - k → IsNum (a (k + i) (k + j)) := fun i j hi hj => hst.num _ _ (by omega) (by omega)
      have hmin : min (M - k) (N - k) = min M N - k := by omega
      rw [hmin] at hlu
      obtain ⟨g1, g2, g3, g4⟩ := luRun_eta (n := N - k) (etaOps_col hW) hn0 (min M N - k) (by omega) (by omega) (luFull_some _ hlu)
      rw [Nat.one_mul] at g4
      have := hst.extend (t := min M N - k) (by omega) (by omega) g1 g2 g3 g4 e2
      rwa [show k + (min M N - k) = min M N by omega] at this
  · unfold getrfLast at h
    rw [if_neg hc] at h
    simp only [Prod.mk.injEq, Option.some.injEq] at h
    obtain ⟨h1, rfl⟩ := h
    have hkm : k = min M N := by omega
    have e : swapCols P k k 0 k a = a := by
      funext i j
      unfold swapCols
      rw [Nat.sub_self]
      show (if _ then a i j else a i j) = _
      rw [ite_self]
    rw [e] at h1
    subst h1
    rwa [← hkm]

end Bin
end Blast
