import Verif.Props.BinaryRandom
/-
Sums of nonnegative numbers in `Bin F`: relative accuracy. No new code is modelled here; used for the tests of the library (Props/BinaryTests).
-/
namespace Blast
open Prog Finset
variable {F : Format}
namespace Bin

/-- `v` is a finite number that arose from the nonnegative number `x` by `k` successive roundings of sums and products, `c` of which may underflow -/
structure Pos (k : Nat) (c : ℝ) (v : Bin F) (x : ℝ) : Prop where
  fin : v.Finite
  nonneg : 0 ≤ x
  cpos : 0 ≤ c
  err : |v.real - x| ≤ ((1 + F.u) ^ k - 1) * x + c * (1 + F.u) ^ k * F.eta

theorem g_mono {k k' : Nat} (h : k ≤ k') : (1 + F.u) ^ k ≤ (1 + F.u) ^ k' := pow_le_pow_right₀ (by have := F.u_pos; linarith) h

theorem Pos.mono {k k' : Nat} {c c' : ℝ} {v : Bin F} {x : ℝ} (h : Pos k c v x) (hk : k ≤ k') (hc : c ≤ c') : Pos k' c' v x := by
  refine ⟨h.fin, h.nonneg, le_trans h.cpos hc, le_trans h.err (add_le_add ?_ ?_)⟩
  · exact mul_le_mul_of_nonneg_right (by have := g_mono (F := F) hk; linarith) h.nonneg
  · exact mul_le_mul_of_nonneg_right (mul_le_mul hc (g_mono hk) (by have := one_le_g (F := F) k; linarith) (le_trans h.cpos hc)) F.eta_pos.le

theorem Pos.exact {v : Bin F} (h : v.Finite) (h0 : 0 ≤ v.real) : Pos 0 0 v v.real := ⟨h, h0, le_rfl, by simp⟩

theorem Pos.round {k : Nat} {c : ℝ} {r : Bin F} {x x' : ℝ} (h0 : 0 ≤ x) (hc : 0 ≤ c) (hr : r.Finite) (h1 : |x' - x| ≤ ((1 + F.u) ^ k - 1) * x + c * (1 + F.u) ^ k * F.eta)
    (h2 : |r.real - x'| ≤ F.u * |x'| + F.eta) : Pos (k + 1) (c + 1) r x := by
  refine ⟨hr, h0, by linarith, ?_⟩
  have h3 := err_step F.u_pos.le h1 (le_of_eq (abs_of_nonneg h0)) h2
  have hw := one_le_g (F := F) (k + 1)
  have he := F.eta_pos
  have : F.eta ≤ (1 + F.u) ^ (k + 1) * F.eta := le_mul_of_one_le_left he.le hw
  rw [pow_succ] at *
  nlinarith

theorem pos_mag {k : Nat} {c x x' : ℝ} (h0 : 0 ≤ x) (hc : 0 ≤ c) (hW : F.Wide) (hk : (1 + F.u) ^ k ≤ 2)
    (hb : 4 * (x + c + 1) < F.big) (h1 : |x' - x| ≤ ((1 + F.u) ^ k - 1) * x + c * (1 + F.u) ^ k * F.eta) : (1 + F.u) * |x'| + F.eta < F.big := by
  have hu := F.u_pos
  have hu2 := F.u_le_half
  have he := F.eta_pos
  have heu := eta_le_u hW
  have he8 : F.eta ≤ 1 / 8 := by nlinarith
  have hw := one_le_g (F := F) k
  have h2 : |x'| ≤ 2 * x + c / 4 := by
    have := abs_add_le (x' - x) x
    rw [sub_add_cancel, abs_of_nonneg h0] at this
    have m1 : ((1 + F.u) ^ k - 1) * x ≤ 1 * x := mul_le_mul_of_nonneg_right (by linarith) h0
    have m2 : c * (1 + F.u) ^ k * F.eta ≤ c * 2 * (1 / 8) := mul_le_mul (mul_le_mul_of_nonneg_left hk hc) he8 he.le (by positivity)
    linarith
  have h3 : (1 + F.u) * |x'| ≤ 3 / 2 * (2 * x + c / 4) := mul_le_mul (by linarith) h2 (abs_nonneg _) (by norm_num)
  linarith

theorem Pos.fma {k : Nat} {c d : ℝ} {v b s : Bin F} {x y : ℝ} (hW : F.Wide) (hv : Pos k c v x) (hb : b.Finite) (hb0 : 0 ≤ b.real) (hb1 : b.real ≤ 1)
    (hs : Pos k d s y) (hk : (1 + F.u) ^ k ≤ 2) (hbig : 4 * (x * b.real + y + (c + d) + 1) < F.big) : Pos (k + 1) (c + d + 1) (Arith.fma v b s) (x * b.real + y) := by
  have h0 : 0 ≤ x * b.real + y := add_nonneg (mul_nonneg hv.nonneg hb0) hs.nonneg
  have hw := one_le_g (F := F) k
  have he := F.eta_pos
  have h1 : |(v.real * b.real + s.real) - (x * b.real + y)| ≤ ((1 + F.u) ^ k - 1) * (x * b.real + y) + (c + d) * (1 + F.u) ^ k * F.eta := by
    have e : (v.real * b.real + s.real) - (x * b.real + y) = (v.real - x) * b.real + (s.real - y) := by ring
    rw [e]
    refine le_trans (abs_add_le _ _) ?_
    rw [abs_mul, abs_of_nonneg hb0]
    have m1 := mul_le_mul_of_nonneg_right hv.err hb0
    have m2 : c * (1 + F.u) ^ k * F.eta * b.real ≤ c * (1 + F.u) ^ k * F.eta :=
      mul_le_of_le_one_right (mul_nonneg (mul_nonneg hv.cpos (by linarith)) he.le) hb1
    have := hs.err
    linarith
  have hcd := add_nonneg hv.cpos hs.cpos
  have hf : (Bin.fma v b s).Finite := fma_finite hv.fin hb hs.fin (pos_mag h0 hcd hW hk hbig h1)
  exact Pos.round h0 hcd hf h1 (fma_inv hf).2.2.2

theorem Pos.mul {k : Nat} {c : ℝ} {v b : Bin F} {x : ℝ} (hW : F.Wide) (hv : Pos k c v x) (hb : b.Finite) (hb0 : 0 ≤ b.real) (hb1 : b.real ≤ 1)
    (hk : (1 + F.u) ^ k ≤ 2) (hbig : 4 * (x * b.real + c + 1) < F.big) : Pos (k + 1) (c + 1) (Arith.mul v b) (x * b.real) ∧ Pos (k + 1) (c + 1) (Arith.mul b v) (x * b.real) := by
  have h0 : 0 ≤ x * b.real := mul_nonneg hv.nonneg hb0
  have hw := one_le_g (F := F) k
  have he := F.eta_pos
  have h1 : |v.real * b.real - x * b.real| ≤ ((1 + F.u) ^ k - 1) * (x * b.real) + c * (1 + F.u) ^ k * F.eta := by
    rw [← sub_mul, abs_mul, abs_of_nonneg hb0]
    have m1 := mul_le_mul_of_nonneg_right hv.err hb0
    have m2 : c * (1 + F.u) ^ k * F.eta * b.real ≤ c * (1 + F.u) ^ k * F.eta :=
      mul_le_of_le_one_right (mul_nonneg (mul_nonneg hv.cpos (by linarith)) he.le) hb1
    linarith
  have hm := pos_mag h0 hv.cpos hW hk hbig h1
  constructor
  · have hf : (Bin.mul v b).Finite := mul_finite hv.fin hb hm
    exact Pos.round h0 hv.cpos hf h1 (mul_inv hf).2.2
  · rw [mul_comm v.real] at h1 hm
    have hf : (Bin.mul b v).Finite := mul_finite hb hv.fin hm
    exact Pos.round h0 hv.cpos hf h1 (mul_inv hf).2.2

theorem Pos.add {k : Nat} {c d : ℝ} {v s : Bin F} {x y : ℝ} (hW : F.Wide) (hv : Pos k c v x) (hs : Pos k d s y) (hk : (1 + F.u) ^ k ≤ 2)
    (hbig : 4 * (x + y + (c + d) + 1) < F.big) : Pos (k + 1) (c + d + 1) (Arith.add v s) (x + y) := by
  have h0 : 0 ≤ x + y := add_nonneg hv.nonneg hs.nonneg
  have h1 : |(v.real + s.real) - (x + y)| ≤ ((1 + F.u) ^ k - 1) * (x + y) + (c + d) * (1 + F.u) ^ k * F.eta := by
    have e : (v.real + s.real) - (x + y) = (v.real - x) + (s.real - y) := by ring
    rw [e]
    refine le_trans (abs_add_le _ _) ?_
    have := hs.err
    have := hv.err
    linarith
  have hcd := add_nonneg hv.cpos hs.cpos
  have hf : (Bin.add v s).Finite := add_finite hv.fin hs.fin (pos_mag h0 hcd hW hk hbig h1)
  exact Pos.round h0 hcd hf h1 (add_inv hf).2.2

theorem Pos.zero : Pos 0 0 (Arith.zero : Bin F) 0 := by
  have h : (Arith.zero : Bin F).real = 0 := by simp [Arith.zero, Bin.real]
  have := Pos.exact (v := (Arith.zero : Bin F)) trivial (by rw [h])
  rwa [h] at this

theorem sum01 {n : Nat} {f : Nat → ℝ} (h : ∀ t, t < n → 0 ≤ f t ∧ f t ≤ 1) : 0 ≤ ∑ t ∈ range n, f t ∧ ∑ t ∈ range n, f t ≤ n := by
  refine ⟨sum_nonneg fun t ht => (h t (mem_range.1 ht)).1, le_trans (sum_le_card_nsmul _ _ 1 fun t ht => (h t (mem_range.1 ht)).2) (by simp)⟩

/-- an accumulation with fma -/
theorem Pos.fmaSum {j : Nat} {ca cz : ℝ} {a b : Nat → Bin F} {z : Bin F} {x : Nat → ℝ} {y : ℝ} (hW : F.Wide) {K n : Nat} (hz : Pos j cz z y) (hn : n ≤ K)
    (ha : ∀ t, t < K → Pos j ca (a t) (x t) ∧ x t ≤ 1) (hb : ∀ t, t < K → (b t).Finite ∧ 0 ≤ (b t).real ∧ (b t).real ≤ 1)
    (hk : (1 + F.u) ^ (j + K) ≤ 2) (hca : 0 ≤ ca) (hbig : 4 * (y + K + cz + K * (ca + 1) + 1) < F.big) :
    Pos (j + n) (cz + n * (ca + 1)) (fmaSum a b z n) (y + ∑ t ∈ range n, x t * (b t).real) := by
  induction n with
  | zero => simpa [Blast.fmaSum] using hz
  | succ n ih =>
    have i := ih (by omega)
    obtain ⟨a1, a2⟩ := ha n (by omega)
    obtain ⟨b1, b2, b3⟩ := hb n (by omega)
    have hs : 0 ≤ ∑ t ∈ range (n + 1), x t * (b t).real ∧ ∑ t ∈ range (n + 1), x t * (b t).real ≤ ((n + 1 : Nat) : ℝ) := sum01 fun t ht => by
      obtain ⟨p1, p2⟩ := ha t (by omega)
      obtain ⟨-, q2, q3⟩ := hb t (by omega)
      exact ⟨mul_nonneg p1.nonneg q2, mul_le_one₀ p2 q2 q3⟩
    rw [sum_range_succ] at hs ⊢
    have hnK : (n : ℝ) + 1 ≤ K := by exact_mod_cast hn
    push_cast at hs ⊢
    have hm : (n : ℝ) * (ca + 1) + (ca + 1) ≤ K * (ca + 1) := by nlinarith
    have := Pos.fma hW (a1.mono (show j ≤ j + n by omega) (le_refl ca)) b1 b2 b3 i (le_trans (g_mono (show j + n ≤ j + K by omega)) hk)
      (by
        refine lt_of_le_of_lt ?_ hbig
        linarith)
    rw [show y + (∑ t ∈ range n, x t * (b t).real + x n * (b n).real) = x n * (b n).real + (y + ∑ t ∈ range n, x t * (b t).real) by ring,
      show cz + ((n : ℝ) + 1) * (ca + 1) = ca + (cz + n * (ca + 1)) + 1 by ring]
    exact this

/-- an accumulation with products and sums -/
theorem Pos.addFold {f : Nat → Bin F} {x : Nat → ℝ} (hW : F.Wide) {lo K n : Nat} (hn : n ≤ K) (hf : ∀ t, t < K → Pos 1 1 (f (lo + t)) (x t) ∧ x t ≤ 1)
    (hk : (1 + F.u) ^ (1 + K) ≤ 2) (hbig : 4 * (K + 2 * K + 1) < F.big) :
    Pos (1 + n) (2 * n) (addFold f Arith.zero lo n) (∑ t ∈ range n, x t) := by
  induction n with
  | zero => simpa [Blast.addFold] using (Pos.zero (F := F)).mono (Nat.zero_le 1) le_rfl
  | succ n ih =>
    have i := ih (by omega)
    obtain ⟨a1, a2⟩ := hf n (by omega)
    have hs : 0 ≤ ∑ t ∈ range (n + 1), x t ∧ ∑ t ∈ range (n + 1), x t ≤ ((n + 1 : Nat) : ℝ) := sum01 fun t ht => ⟨(hf t (by omega)).1.nonneg, (hf t (by omega)).2⟩
    rw [sum_range_succ] at hs ⊢
    have hnK : (n : ℝ) + 1 ≤ K := by exact_mod_cast hn
    push_cast at hs ⊢
    have := Pos.add hW i (a1.mono (show 1 ≤ 1 + n by omega) (le_refl 1)) (le_trans (g_mono (show 1 + n ≤ 1 + K by omega)) hk)
      (by
        refine lt_of_le_of_lt ?_ hbig
        linarith)
    rw [show 2 * ((n : ℝ) + 1) = 2 * n + 1 + 1 by ring]
    exact this

theorem isNan_false {v : Bin F} (h : v.Finite) : isNan v = false := by
  cases v with
  | fin s x => simp [isNan, Arith.eq, Bin.eq]
  | inf s => exact h.elim
  | nan => exact h.elim

theorem abs_real {v : Bin F} (h : v.Finite) : (Arith.abs v : Bin F).Finite ∧ (Arith.abs v : Bin F).real = |v.real| := by
  cases v with
  | fin s x =>
    refine ⟨trivial, ?_⟩
    cases s <;> simp [Arith.abs, Bin.abs, Bin.real]
  | inf s => exact h.elim
  | nan => exact h.elim

theorem gt_false {v w : Bin F} (hv : v.Finite) (hw : w.Finite) : (Arith.gt v w = false) ↔ v.real ≤ w.real := by
  cases v with
  | fin s x =>
    cases w with
    | fin t y => simp [Arith.gt, Bin.gt]
    | inf s => exact hw.elim
    | nan => exact hw.elim
  | inf s => exact hv.elim
  | nan => exact hv.elim

/-- the comparison of the test suite does not fail if the difference is clearly smaller than the tolerance -/
theorem farApart_false {d e atol rtol : Bin F} (hW : F.Wide) (hd : d.Finite) (he : e.Finite) (hat : atol.Finite) (hrt : rtol.Finite) (hat0 : 0 ≤ atol.real) (hat1 : atol.real ≤ 1)
    (hrt0 : 0 ≤ rtol.real) (hrt1 : rtol.real ≤ 1) (hdb : 4 * (|d.real| + 1) < F.big) (heb : 4 * (|e.real| + 1) < F.big)
    (h : (1 + F.u) * |d.real - e.real| + F.eta ≤ (1 - F.u) * (atol.real + ((1 - F.u) * (rtol.real * |e.real|) - F.eta)) - F.eta) : matDiffer atol rtol d e = false := by
  have hu := F.u_pos
  have hu2 := F.u_le_half
  have hep := F.eta_pos
  have heu := eta_le_u hW
  have he8 : F.eta ≤ 1 / 8 := by nlinarith
  have hde : |d.real - e.real| ≤ |d.real| + |e.real| := by
    have := abs_add_le d.real (-e.real)
    rwa [abs_neg, ← sub_eq_add_neg] at this
  have hsf : (Bin.sub d e).Finite := by
    have hne := (finite_neg e).2 he
    refine add_finite hd hne ?_
    rw [real_neg, ← sub_eq_add_neg]
    nlinarith [abs_nonneg d.real, abs_nonneg e.real, abs_nonneg (d.real - e.real)]
  have hs := (sub_inv hsf).2.2
  obtain ⟨ef, er⟩ := abs_real he
  have hre : 0 ≤ rtol.real * |e.real| := mul_nonneg hrt0 (abs_nonneg _)
  have hre1 : rtol.real * |e.real| ≤ |e.real| := mul_le_of_le_one_left (abs_nonneg _) hrt1
  have hpf : (Bin.mul rtol (Arith.abs e)).Finite := mul_finite hrt ef (by rw [er, abs_of_nonneg hre]; nlinarith [abs_nonneg e.real])
  have hp := (mul_inv hpf).2.2
  rw [er, abs_of_nonneg hre] at hp
  obtain ⟨p1, p2⟩ := abs_le.1 hp
  set p := (Bin.mul rtol (Arith.abs e)).real with hpd
  have hpb : |p| ≤ (1 + F.u) * |e.real| + F.eta := by
    rw [abs_le]
    constructor <;> nlinarith [abs_nonneg e.real]
  have hqb : |atol.real + p| ≤ 1 + ((1 + F.u) * |e.real| + F.eta) := le_trans (abs_add_le _ _) (by rw [abs_of_nonneg hat0]; linarith)
  have hqf : (Bin.add atol (Bin.mul rtol (Arith.abs e))).Finite := add_finite hat hpf (by nlinarith [abs_nonneg e.real, abs_nonneg (atol.real + p)])
  have hq := (add_inv hqf).2.2
  rw [← hpd] at hq
  have hpl : atol.real + p ≥ atol.real + ((1 - F.u) * (rtol.real * |e.real|) - F.eta) := by nlinarith
  have hX : 0 < atol.real + ((1 - F.u) * (rtol.real * |e.real|) - F.eta) := by
    by_contra hc
    push Not at hc
    have : (1 - F.u) * (atol.real + ((1 - F.u) * (rtol.real * |e.real|) - F.eta)) ≤ 0 := mul_nonpos_of_nonneg_of_nonpos (by linarith) hc
    have := mul_nonneg (show 0 ≤ 1 + F.u by linarith) (abs_nonneg (d.real - e.real))
    linarith
  rw [abs_of_nonneg (show 0 ≤ atol.real + p by linarith)] at hq
  obtain ⟨q1, q2⟩ := abs_le.1 hq
  unfold matDiffer
  rw [isNan_false hd, isNan_false he]
  simp only [bne_self_eq_false, Bool.false_or]
  unfold farApart
  obtain ⟨sf, sr⟩ := abs_real hsf
  refine (gt_false sf hqf).2 ?_
  change (Arith.abs (Bin.sub d e)).real ≤ (Bin.add atol (Bin.mul rtol (Arith.abs e))).real
  rw [sr]
  have h1 : |(Bin.sub d e).real| ≤ (1 + F.u) * |d.real - e.real| + F.eta := by
    have := abs_add_le ((Bin.sub d e).real - (d.real - e.real)) (d.real - e.real)
    rw [sub_add_cancel] at this
    linarith
  have h2 : (1 - F.u) * (atol.real + ((1 - F.u) * (rtol.real * |e.real|) - F.eta)) ≤ (1 - F.u) * (atol.real + p) := mul_le_mul_of_nonneg_left hpl (by linarith)
  linarith

end Bin
end Blast
