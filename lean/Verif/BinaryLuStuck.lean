import Verif.BinaryLuFinite
import Verif.Props.BackwardLu
/-
LU factorization in a binary format of IEEE 754: where no pivot is found, the matrix is close to a singular one.
-/
set_option linter.unusedSectionVars false
namespace Blast
open Finset

theorem ColsIndep.of_eq {m r : Nat} {a a' : Nat → Nat → ℝ} (h : ColsIndep m r a) (e : ∀ i j, i < m → j < r → a' i j = a i j) : ColsIndep m r a' :=
  fun x hx j hj => h x (fun i hi => by rw [← hx i hi]; exact sum_congr rfl fun q hq => by rw [e i q hi (mem_range.1 hq)]) j hj

theorem luFull_none {V : Type} [Arith V] {dv : V → V → V} {upd : V → V → V → V} {m : Nat} {a b : Nat → Nat → V} {ip : Nat → Nat} (K : Nat)
    (h : luFull dv upd m a ip K = (b, none)) : ∃ q s p, q < K ∧ luRun dv upd m a ip q = some (s, p) ∧ luStep dv upd m q s p = none := by
  induction K generalizing b with
  | zero => simp [luFull] at h
  | succ K ih =>
    unfold luFull at h
    rcases hr : luFull dv upd m a ip K with ⟨b1, _ | p1⟩
    · obtain ⟨q, s, p, h1, h2, h3⟩ := ih hr
      exact ⟨q, s, p, by omega, h2, h3⟩
    · rw [hr] at h
      cases hs : luStep dv upd m K b1 p1 with
      | none => exact ⟨K, b1, p1, by omega, luFull_some _ hr, hs⟩
      | some r => dsimp only at h; rw [hs] at h; simp at h

namespace Bin
variable {F : Format}

/-- no pivot: the rest of the column is zero -/
theorem step_none {dv : Bin F → Bin F → Bin F} {upd : Bin F → Bin F → Bin F → Bin F} {m k : Nat} {a : Nat → Nat → Bin F} {p : Nat → Nat} (hk : k < m)
    (hf : ∀ i, k ≤ i → i < m → (a i k).Finite) (h : luStep dv upd m k a p = none) {i : Nat} (h1 : k ≤ i) (h2 : i < m) : (a i k).real = 0 := by
  unfold luStep at h
  simp only at h
  by_cases hz : Arith.eq (swapRows k (pivotRow m a k) a k k) Arith.zero = true
  · have hpiv : swapRows k (pivotRow m a k) a k k = a (pivotRow m a k) k := by rw [swapRows_eq]; unfold swapIdx; rw [if_pos rfl]
    rw [hpiv] at hz
    have hm := pivot_max a hf h1 h2
    have : (a (pivotRow m a k) k).real = 0 := by
      generalize a (pivotRow m a k) k = z at hz
      rcases z with ⟨s, y⟩ | _ | _
      · change decide ((fin s y : Bin F).real = (fin false 0 : Bin F).real) = true at hz
        rw [decide_eq_true_eq] at hz
        rw [hz]; simp [real]
      · rfl
      · rfl
    rw [this, abs_zero] at hm
    exact abs_eq_zero.1 (le_antisymm hm (abs_nonneg _))
  · rw [if_neg hz] at h; simp at h

/-- the factorization of the first `N'` columns stops at a zero column -/
structure Stuck (F : Format) (w M N K N' : Nat) (G : ℝ) (a0 a : Nat → Nat → Bin F) (P : Nat → Nat) : Prop where
  lt : K < M
  lt' : K < N'
  le : N' ≤ N
  piv : ∀ q, q < K → P q < M
  near : LUEta (bu F.u) F.eta (w * K) (3 * K) M N' K (rowSwaps P 0 K (fun i j => (a0 i j).real)) (fun i j => (a i j).real)
  bound : FinState F M N' K G a
  zero : ∀ i, K ≤ i → i < M → (a i K).real = 0

/-- how far away the singular matrix can be -/
noncomputable def stuckDist (F : Format) (w n : Nat) (G : ℝ) : ℝ :=
  ((1 / (1 - F.u)) ^ (w * n) - 1) * (n * G) + (1 / (1 - F.u)) ^ (w * n) * (3 * n + G) * F.eta

theorem Stuck.singular {w M N K N' : Nat} {G : ℝ} (hG0 : 0 ≤ G) {a0 a : Nat → Nat → Bin F} {P : Nat → Nat} (h : Stuck F w M N K N' G a0 a P) :
    ¬ RobustIndep (stuckDist F w (min M N) G) M N (fun i j => (a0 i j).real) := by
  have hv := bu_pos (F := F)
  have he := F.eta_pos
  have hK := h.lt
  have hK' := h.lt'
  have hN := h.le
  have hdep := (LUInv.mk (m := M) (k := K) (b := luY K (fun i j => (a i j).real)) (a := fun i j => (a i j).real) (fun i j _ => rfl) h.near.nz).dep h.zero
  have hb : ∀ i j, i < M → j < N' → |(if j < K ∧ j < i then (0 : ℝ) else (a i j).real)| ≤ G := by
    intro i j hi hj
    have := (h.bound i j hi hj).2.2
    by_cases hc : j < K ∧ j < i
    · rw [if_pos hc, abs_zero]; exact hG0
    · rw [if_neg hc] at this ⊢; linarith
  have hbound : ∀ i j, i < M → j < N' → luYa K (fun i j => (a i j).real) i j ≤ (K + 1) * G := by
    intro i j hi hj
    unfold luYa
    have hsum : ∑ q ∈ range K, |tri .lower true (fun i j => (a i j).real) i q * tri .upper false (fun i j => (a i j).real) q j| ≤ ∑ q ∈ range K, G := by
      refine sum_le_sum (fun q hq => ?_)
      have hq := mem_range.1 hq
      rw [abs_mul, tri_eq_lower, tri_eq_upper]
      have hl : |(if i = q then (1 : ℝ) else if q < i then (a i q).real else 0)| ≤ 1 := by
        by_cases h1 : i = q
        · rw [if_pos h1, abs_one]
        · rw [if_neg h1]
          by_cases h2 : q < i
          · rw [if_pos h2]
            have := (h.bound i q hi (by omega)).2.2
            rwa [if_pos ⟨hq, h2⟩] at this
          · rw [if_neg h2, abs_zero]; norm_num
      have hu : |(if q ≤ j then (a q j).real else (0 : ℝ))| ≤ G := by
        by_cases h1 : q ≤ j
        · have := hb q j (by omega) hj
          rw [if_neg (by omega)] at this
          rw [if_pos h1]; exact this
        · rw [if_neg h1, abs_zero]; exact hG0
      calc _ ≤ 1 * G := mul_le_mul hl hu (abs_nonneg _) (by norm_num)
        _ = G := one_mul G
    rw [sum_const, card_range, nsmul_eq_mul] at hsum
    have htr : (if K ≤ i ∧ K ≤ j then |(a i j).real| else 0) ≤ G := by
      by_cases h1 : K ≤ i ∧ K ≤ j
      · have := hb i j hi hj
        rw [if_neg (by omega)] at this
        rw [if_pos h1]; exact this
      · rw [if_neg h1]; exact hG0
    linarith
  intro hrob
  have hind := hrob (fun i j => if j < N' then luY K (fun i j => (a i j).real) (rowPermInv P K i) j else (a0 i j).real) (fun i j hi hj => ?_)
  · apply hdep
    have h1 := (colsIndep_rowSwaps (p := P) (K := K) (by omega) h.piv _).2 (hind.le (show K + 1 ≤ min M N by omega))
    refine h1.of_eq (fun i j hi hj => ?_)
    rw [rowSwaps_eq]
    beta_reduce
    rw [if_pos (show j < N' by omega), rowPermInv_left]
  · beta_reduce
    have g1 : 1 ≤ (1 + bu F.u) ^ (w * K) := one_le_pow₀ (by linarith)
    have g2 : (1 + bu F.u) ^ (w * K) ≤ (1 + bu F.u) ^ (w * min M N) := pow_le_pow_right₀ (by linarith) (Nat.mul_le_mul_left w (show K ≤ min M N by omega))
    have hKn : (K : ℝ) + 1 ≤ (min M N : Nat) := by
      have : K + 1 ≤ min M N := by omega
      exact_mod_cast this
    have hd0 : ((1 + bu F.u) ^ (w * K) - 1) * ((K + 1) * G) + (1 + bu F.u) ^ (w * K) * (3 * K + G) * F.eta ≤ stuckDist F w (min M N) G := by
      unfold stuckDist
      rw [← one_add_bu F.u_lt_one]
      refine add_le_add (mul_le_mul (by linarith) (mul_le_mul_of_nonneg_right hKn hG0) (by positivity) (by linarith)) (mul_le_mul_of_nonneg_right ?_ he.le)
      have hK0 : (0 : ℝ) ≤ K := Nat.cast_nonneg K
      exact mul_le_mul g2 (by linarith) (by linarith) (by linarith)
    by_cases hjN : j < N'
    · rw [if_pos hjN]
      have hi' := rowPermInv_lt (p := P) (t := K) h.piv (by omega) hi
      have n1 := h.near.near _ j hi' hjN
      rw [rowSwaps_eq, rowPermInv_right] at n1
      beta_reduce at n1
      rw [abs_sub_comm]
      refine le_trans n1 (le_trans (add_le_add (mul_le_mul_of_nonneg_left (hbound _ j hi' hjN) (by linarith)) (mul_le_mul_of_nonneg_right (mul_le_mul_of_nonneg_left ?_ (by linarith)) he.le)) hd0)
      push_cast
      have : (if j < K then |(a j j).real| else 0) ≤ G := by
        by_cases h1 : j < K
        · have := hb j j (by omega) hjN
          rw [if_neg (by omega)] at this
          rw [if_pos h1]; exact this
        · rw [if_neg h1]; exact hG0
      linarith
    · rw [if_neg hjN, sub_self, abs_zero]
      refine le_trans ?_ hd0
      have hK0 : (0 : ℝ) ≤ K := Nat.cast_nonneg K
      have : 0 ≤ (1 + bu F.u) ^ (w * K) - 1 := by linarith
      positivity

/-- the unblocked algorithm -/
theorem luFull_stuck {dv : Bin F → Bin F → Bin F} {upd : Bin F → Bin F → Bin F → Bin F} {w0 : Nat} (ho : EtaOps F w0 1 dv upd) (hw : FwdOps F dv upd)
    {m n : Nat} {G : ℝ} (hG0 : 2 * F.eta ≤ G) {a0 b : Nat → Nat → Bin F} (h0 : FinState F m n 0 G a0) {ip : Nat → Nat}
    (hG : (2 * (1 + F.u)) ^ (min m n) * G < F.big) (h : luFull dv upd m a0 ip (min m n) = (b, none)) :
    ∃ K N' a P, Stuck F w0 m n K N' ((2 * (1 + F.u)) ^ (min m n) * G) a0 a P := by
  obtain ⟨q, s, p, h1, h2, h3⟩ := luFull_none _ h
  have hu := F.u_pos
  have he := F.eta_pos
  have hle : (2 * (1 + F.u)) ^ q * G ≤ (2 * (1 + F.u)) ^ (min m n) * G := mul_le_mul_of_nonneg_right (pow_le_pow_right₀ (by linarith) (by omega)) (by linarith)
  have hf := luRun_fin ho hw hG0 h0 q (by omega) (by omega) (lt_of_le_of_lt hle hG) h2
  obtain ⟨-, g2, -, g4⟩ := luRun_eta ho (fun i j hi hj => (h0 i j hi hj).2.1) q (by omega) (by omega) h2
  obtain ⟨-, g5, -⟩ := g4 (fun i j hi hj => (hf i j hi hj).1)
  exact ⟨q, n, s, p, by omega, by omega, le_rfl, fun q' hq' => (g2 q' hq').2, g5, hf.mono hle,
    fun i hi1 hi2 => step_none (by omega) (fun i _ h2 => (hf i q h2 (by omega)).1) h3 hi1 hi2⟩

/-- failure in the trailing block -/
theorem BinLuState.stuck (hW : F.Wide) {M N k n' t : Nat} {a0 a : Nat → Nat → Bin F} {ip P : Nat → Nat} (h : BinLuState F M N k a0 ip a P) {g : ℝ} (hg : 2 * F.eta ≤ g)
    (hf : FinState F M N k (growth F ^ k * g) a) (hkM : k ≤ M) (hn' : k + n' ≤ N) (hG : growth F ^ (min M N) * g < F.big) {s : Nat → Nat → Bin F}
    (ht : t ≤ min (M - k) n') (hlu : luFull Arith.div updCol (M - k) (fun i j => a (k + i) (k + j)) (fun i => P (k + i)) t = (s, none)) :
    ∃ K N' a P, Stuck F 1 M N K N' (growth F ^ (min M N) * g) a0 a P := by
  have hu := F.u_pos
  have he := F.eta_pos
  obtain ⟨q, s, p, h1, h2, h3⟩ := luFull_none _ hlu
  obtain ⟨-, i2, i3⟩ := h.fin (fun i j hi hj => (hf i j hi hj).1)
  have hg1 : 0 ≤ growth F ^ k * g := mul_nonneg (pow_nonneg (by have := one_le_growth (F := F); linarith) k) (by linarith)
  have hgk : g ≤ growth F ^ k * g := le_mul_of_one_le_left (by linarith) (one_le_pow₀ one_le_growth)
  have hle : (2 * (1 + F.u)) ^ q * (growth F ^ k * g) ≤ growth F ^ (min M N) * g := by
    have e : growth F ^ (min M N) * g = growth F ^ (min M N - k) * (growth F ^ k * g) := by
      rw [← mul_assoc, ← pow_add, show min M N - k + k = min M N by omega]
    rw [e]
    refine mul_le_mul_of_nonneg_right (le_trans (pow_le_pow_left₀ (by linarith) (b := growth F) ?_ _) (pow_le_pow_right₀ one_le_growth (by omega))) hg1
    unfold growth
    nlinarith
  have hblk := hf.block.cols (show n' ≤ N - k by omega)
  have hs := luRun_fin (etaOps_col hW) (fwdOps_col hW) (by linarith) hblk q (by omega) (by omega) (lt_of_le_of_lt hle hG) h2
  obtain ⟨g1, g2, g3, g4⟩ := luRun_eta (etaOps_col hW) (fun i j hi hj => (hblk i j hi hj).2.1) q (by omega) (by omega) h2
  rw [Nat.one_mul] at g4
  -- the state restricted to the columns of the panel
  have hst : BinLuState F M (k + n') k a0 ip a P := by
    refine ⟨fun i j hi hj => h.num i j hi (by omega), h.piv, h.rest, fun _ => ⟨fun i j hi hj => ?_, ⟨fun i j hi hj => i2.near i j hi (by omega), i2.nz⟩, i3⟩⟩
    exact (h.fin (fun i j hi hj => (hf i j hi hj).1)).1 i j hi (by omega)
  have hpermb : ∀ i, i < M - k → rowPerm p 0 q i < M - k := fun i hi =>
    (rowPerm_bounds (fun q' _ hq => ⟨by omega, (g2 q' (by omega)).2⟩) (by omega) ⟨by omega, hi⟩).2
  obtain ⟨a', ha'⟩ : ∃ a' : Nat → Nat → Bin F, ∀ i j, i < M → j < k + n' → a' i j =
      if i < k then a i j else if j < k then a (k + rowPerm p 0 q (i - k)) j else s (i - k) (j - k) := ⟨_, fun i j _ _ => rfl⟩
  have hn'' : k + n' - k = n' := by omega
  have e1 := hst.extend (t := q) (by omega) (by omega) (s := s) (by rw [hn'']; exact g1) g2 g3 (by rw [hn'']; exact g4) ha'
  have e2 := FinState.extend (G' := growth F ^ (min M N) * g) (mul_le_mul_of_nonneg_right (pow_le_pow_right₀ one_le_growth (by omega)) (by linarith))
    (hf.cols hn') hpermb (by rw [hn'']; exact hs.mono hle) ha'
  obtain ⟨-, e3, -⟩ := e1.fin (fun i j hi hj => (e2 i j hi hj).1)
  refine ⟨k + q, k + n', a', _, by omega, by omega, hn', fun q' hq' => (e1.piv q' hq').2, by rw [Nat.one_mul]; exact e3, e2, fun i hi1 hi2 => ?_⟩
  rw [ha' i _ hi2 (by omega), if_neg (by omega), if_neg (by omega), show k + q - k = q by omega]
  exact step_none (by omega) (fun i _ h2 => (hs i q h2 (by omega)).1) h3 (by omega) (by omega)

/-- the blocked algorithm -/
theorem getrfFull_stuck (hW : F.Wide) {T M N : Nat} (hT : 0 < T) {a0 b : Nat → Nat → Bin F} {ip : Nat → Nat} {g : ℝ} (hg : 2 * F.eta ≤ g)
    (hG : growth F ^ (min M N) * g < F.big) (h0 : FinState F M N 0 g a0) (h : getrfFull T M N a0 ip = (b, none)) :
    ∃ K N' a P, Stuck F 1 M N K N' (growth F ^ (min M N) * g) a0 a P := by
  have he := F.eta_pos
  have key : ∀ fuel k a P, k ≤ min M N → BinLuState F M N k a0 ip a P → FinState F M N k (growth F ^ k * g) a → ∀ k' a', getrfIter T M N fuel k a P = (k', a', none) →
      ∃ K N' a P, Stuck F 1 M N K N' (growth F ^ (min M N) * g) a0 a P := by
    intro fuel
    induction fuel with
    | zero => intro k a P _ _ _ k' a' he; simp [getrfIter] at he
    | succ fuel ih =>
      intro k a P hk hst hfin k' a' he
      unfold getrfIter at he
      by_cases hc : k + T < M ∧ k + T < N
      · rw [if_pos hc] at he
        rcases hb : getrfBlk T M N k a P with ⟨a1, _ | P1⟩
        · rcases hlu : luFull Arith.div updCol (M - k) (fun i j => a (k + i) (k + j)) (fun i => P (k + i)) T with ⟨s, _ | p⟩
          · exact hst.stuck hW hg hfin (by omega) (n' := T) (by omega) hG (by omega) hlu
          · unfold getrfBlk at hb
            rw [hlu] at hb
            simp at hb
        · rw [hb] at he
          have e : growth F ^ (k + T) * g = growth F ^ T * (growth F ^ k * g) := by rw [pow_add]; ring
          have hle : growth F ^ (k + T) * g ≤ growth F ^ (min M N) * g := mul_le_mul_of_nonneg_right (pow_le_pow_right₀ one_le_growth (by omega)) (by linarith)
          have h1 : g ≤ growth F ^ k * g := le_mul_of_one_le_left (by linarith) (one_le_pow₀ one_le_growth)
          exact ih (k + T) a1 P1 (by omega) (getrfBlk_state hW hT hc.1 hc.2 hst hb)
            (by rw [e]; exact getrfBlk_fin hW hT hc.1 hc.2 (by linarith) (by linarith) hfin hb) k' a' he
      · rw [if_neg hc] at he; simp at he
  have hn0 : ∀ i j, i < M → j < N → IsNum (a0 i j) := fun i j hi hj => (h0 i j hi hj).2.1
  unfold getrfFull at h
  rcases hi : getrfIter T M N (M + 1) 0 a0 ip with ⟨k, a, _ | P⟩
  · exact key _ 0 a0 ip (Nat.zero_le _) (BinLuState.init hn0 ip) (by rw [pow_zero, one_mul]; exact h0) k a hi
  · rw [hi] at h
    dsimp only at h
    obtain ⟨hst, hkM, hkN⟩ := getrfIter_state hW hT (M + 1) (Nat.zero_le _) (Nat.zero_le _) (BinLuState.init hn0 ip) hi
    obtain ⟨hfin, hk⟩ := getrfIter_fin hW hT hg hG (M + 1) (by rw [pow_zero, one_mul]; exact h0) hi (Nat.zero_le _)
    unfold getrfLast at h
    by_cases hc : k < M ∧ k < N
    · rw [if_pos hc] at h
      rcases hlu : luFull Arith.div updCol (M - k) (fun i j => a (k + i) (k + j)) (fun i => P (k + i)) (min (M - k) (N - k)) with ⟨s, _ | p⟩
      · exact hst.stuck hW hg hfin (by omega) (n' := N - k) (by omega) hG (by omega) hlu
      · rw [hlu] at h
        simp at h
    · rw [if_neg hc] at h
      simp at h

end Bin
end Blast
