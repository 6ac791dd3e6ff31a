import Verif.RegLemmas
/-
storeLower: element-level behaviour.
-/
set_option linter.unusedSectionVars false
namespace Blast
open Prog
variable {V : Type} [Arith V]
namespace Reg

/-- masked store of one SIMD vector of the register matrix, in terms of element indices -/
theorem runs_cellStoreMask {SS : Nat} (hSS : 0 < SS) {q p : MPtr} {I J : Int} {m : Mem V} {r : Reg V}
    (hw : p.WF SS) (h : MPtr.At SS q p I J) (hs : p.so = .columnMajor)
    (hc : p.panel = true → I % (SS : Int) = 0) (i j : Nat) (mask : Nat → Bool) (g : Int → V)
    (hr : ∀ l, l < SS → mask l = true → (m (p.addr SS (I + (i * SS + l : Nat)) (J + j))).isSome = true)
    (hg : ∀ l, l < SS → mask l = true → g (p.addr SS (I + (i * SS + l : Nat)) (J + j)) = r i j l) :
    Runs ((q.off SS ((SS : Int) * (i : Int)) (j : Int)).storeMask SS (r i j) mask) m (fun _ m' =>
      WritesSet m m' (fun x => ∃ l : Nat, l < SS ∧ mask l = true ∧
        x = p.addr SS (I + (i * SS + l : Nat)) (J + j)) g) := by
  refine ((at_tile hSS hw h hs i j).runs_storeMask hw hs (fun hp => tile_mod (hc hp) i) (r i j) mask g
      (fun l hl hm => ?_) (fun l hl hm => ?_)).mono ?_
  · rw [Int.add_assoc, ← Int.natCast_add]; exact hr l hl hm
  · rw [Int.add_assoc, ← Int.natCast_add]; exact hg l hl hm
  · intro _ m3 hw3
    refine hw3.congr (fun x => ?_)
    constructor
    · rintro ⟨l, hl, hm, hx⟩
      exact ⟨l, hl, hm, by rw [hx, Int.add_assoc, ← Int.natCast_add]⟩
    · rintro ⟨l, hl, hm, hx⟩
      exact ⟨l, hl, hm, by rw [hx, Int.add_assoc, ← Int.natCast_add]⟩

theorem runs_cellStore {SS : Nat} (hSS : 0 < SS) {q p : MPtr} {I J : Int} {m : Mem V} {r : Reg V}
    (hw : p.WF SS) (h : MPtr.At SS q p I J) (hs : p.so = .columnMajor)
    (hc : p.panel = true → I % (SS : Int) = 0) (i j : Nat) (g : Int → V)
    (hr : ∀ l, l < SS → (m (p.addr SS (I + (i * SS + l : Nat)) (J + j))).isSome = true)
    (hg : ∀ l, l < SS → g (p.addr SS (I + (i * SS + l : Nat)) (J + j)) = r i j l) :
    Runs ((q.off SS ((SS : Int) * (i : Int)) (j : Int)).store SS (r i j)) m (fun _ m' =>
      WritesSet m m' (fun x => ∃ l : Nat, l < SS ∧
        x = p.addr SS (I + (i * SS + l : Nat)) (J + j)) g) := by
  refine ((at_tile hSS hw h hs i j).runs_store hw hs (fun hp => tile_mod (hc hp) i) (r i j) g
      (fun l hl => ?_) (fun l hl => ?_)).mono ?_
  · rw [Int.add_assoc, ← Int.natCast_add]; exact hr l hl
  · rw [Int.add_assoc, ← Int.natCast_add]; exact hg l hl
  · intro _ m3 hw3
    refine hw3.congr (fun x => ?_)
    constructor
    · rintro ⟨l, hl, hx⟩
      exact ⟨l, hl, by rw [hx, Int.add_assoc, ← Int.natCast_add]⟩
    · rintro ⟨l, hl, hx⟩
      exact ⟨l, hl, by rw [hx, Int.add_assoc, ← Int.natCast_add]⟩

theorem runs_storeLowerP {SS RM N mm nn : Nat} (hSS : 0 < SS) {q p : MPtr} {I J : Int} {m : Mem V}
    {r : Reg V} (hw : p.WF SS) (h : MPtr.At SS q p I J) (hs : p.so = .columnMajor)
    (hc : p.panel = true → I % (SS : Int) = 0) (g : Int → V)
    (hr : ∀ a b : Nat, a < RM * SS → a < mm → b < N → b < nn → b ≤ a →
      (m (p.addr SS (I + a) (J + b))).isSome = true)
    (hg : ∀ a b : Nat, a < RM * SS → a < mm → b < N → b < nn → b ≤ a →
      g (p.addr SS (I + a) (J + b)) = r.el SS a b) :
    Runs (r.storeLowerP SS RM N q mm nn) m (fun _ m' => WritesSet m m'
      (fun x => ∃ a b : Nat, a < RM * SS ∧ a < mm ∧ b < N ∧ b < nn ∧ b ≤ a ∧
        x = p.addr SS (I + a) (J + b)) g) := by
  unfold storeLowerP
  refine (writes_forN (fun j x => ∃ a : Nat, a < RM * SS ∧ a < mm ∧ j < nn ∧ j ≤ a ∧
        x = p.addr SS (I + a) (J + j)) g (fun j hj m1 hw1 => ?_)).mono ?_
  · unfold onlyIf
    by_cases hjn : j < nn
    · rw [if_pos (by simpa using hjn)]
      unfold forFrom
      have hmask : ∀ t l : Nat, l < SS →
          (((l : Int) < (mm : Int) - ((j / SS + t : Nat) : Int) * SS &&
            (if 0 < (j : Int) - ((j / SS + t : Nat) : Int) * SS then
              decide ((j : Int) - ((j / SS + t : Nat) : Int) * SS ≤ l) else true)) = true ↔
          ((j / SS + t) * SS + l < mm ∧ j ≤ (j / SS + t) * SS + l)) := by
        intro t l hl
        rw [← Int.natCast_mul]
        generalize (j / SS + t) * SS = b
        rw [Bool.and_eq_true, decide_eq_true_iff]
        constructor
        · rintro ⟨h1, h2⟩
          refine ⟨by omega, ?_⟩
          split at h2
          · rw [decide_eq_true_iff] at h2; omega
          · omega
        · rintro ⟨h1, h2⟩
          refine ⟨by omega, ?_⟩
          split
          · rw [decide_eq_true_iff]; omega
          · rfl
      refine (writes_forN (fun t x => ∃ l : Nat, l < SS ∧ ((j / SS + t) * SS + l < mm ∧
          j ≤ (j / SS + t) * SS + l) ∧ x = p.addr SS (I + ((j / SS + t) * SS + l : Nat)) (J + j)) g
        (fun t ht m2 hw2 => ?_)).mono ?_
      · refine (runs_cellStoreMask (r := r) hSS hw h hs hc (j / SS + t) j _ g (fun l hl hm => ?_)
          (fun l hl hm => ?_)).mono ?_
        · rw [hmask t l hl] at hm
          exact hw2.isSome (hw1.isSome (hr _ _ (idx_lt (by omega) hl) hm.1 hj hjn hm.2))
        · rw [hmask t l hl] at hm
          rw [hg _ _ (idx_lt (by omega) hl) hm.1 hj hjn hm.2, el_mk r hl]
        · intro _ m3 hw3
          refine hw3.congr (fun x => ?_)
          constructor
          · rintro ⟨l, hl, hm, hx⟩; exact ⟨l, hl, (hmask t l hl).1 hm, hx⟩
          · rintro ⟨l, hl, hm, hx⟩; exact ⟨l, hl, (hmask t l hl).2 hm, hx⟩
      · intro _ m3 hw3
        refine hw3.congr (fun x => ?_)
        constructor
        · rintro ⟨t, ht, l, hl, ⟨h1, h2⟩, hx⟩
          exact ⟨_, idx_lt (by omega) hl, h1, hjn, h2, hx⟩
        · rintro ⟨a, ha, h1, _, h2, hx⟩
          obtain ⟨h3, h4, h5⟩ := idx_split hSS ha
          have h6 : j / SS ≤ a / SS := Nat.div_le_div_right h2
          refine ⟨a / SS - j / SS, by omega, a % SS, h4, ?_⟩
          rw [show j / SS + (a / SS - j / SS) = a / SS by omega, h5]
          exact ⟨⟨h1, h2⟩, hx⟩
    · rw [if_neg (by simpa using hjn)]
      refine runs_pure ((WritesSet.refl m1 g).congr (fun x => ?_))
      constructor
      · intro h; exact absurd h (by simp)
      · rintro ⟨a, _, _, h1, _⟩; exact absurd h1 hjn
  · intro _ m2 hw2
    refine hw2.congr (fun x => ?_)
    constructor
    · rintro ⟨j, hj, a, h1, h2, h3, h4, hx⟩; exact ⟨a, j, h1, h2, hj, h3, h4, hx⟩
    · rintro ⟨a, j, h1, h2, hj, h3, h4, hx⟩; exact ⟨j, hj, a, h1, h2, h3, h4, hx⟩

theorem runs_storeLower {SS RM N : Nat} (hSS : 0 < SS) {q p : MPtr} {I J : Int} {m : Mem V}
    {r : Reg V} (hw : p.WF SS) (h : MPtr.At SS q p I J) (hs : p.so = .columnMajor)
    (hc : p.panel = true → I % (SS : Int) = 0) (g : Int → V)
    (hr : ∀ a b : Nat, a < RM * SS → b < N → b ≤ a → (m (p.addr SS (I + a) (J + b))).isSome = true)
    (hg : ∀ a b : Nat, a < RM * SS → b < N → b ≤ a → g (p.addr SS (I + a) (J + b)) = r.el SS a b) :
    Runs (r.storeLower SS RM N q) m (fun _ m' => WritesSet m m'
      (fun x => ∃ a b : Nat, a < RM * SS ∧ b < N ∧ b ≤ a ∧ x = p.addr SS (I + a) (J + b)) g) := by
  unfold storeLower
  refine (writes_forN (fun j x => ∃ a : Nat, a < RM * SS ∧ j ≤ a ∧
        x = p.addr SS (I + a) (J + j)) g (fun j hj m1 hw1 => ?_)).mono ?_
  · have hdm := Nat.div_add_mod j SS
    have hjm := Nat.mod_lt j hSS
    have hfrom : ∀ (lo : Nat) (m2 : Mem V) (hal : ∀ x, (m1 x).isSome = true → (m2 x).isSome = true), j ≤ lo * SS →
        Runs (forFrom lo RM (fun ri => (q.off SS (SS * ri) j).store SS (r ri j))) m2
          (fun _ m3 => WritesSet m2 m3 (fun x => ∃ a : Nat, a < RM * SS ∧ lo * SS ≤ a ∧
            x = p.addr SS (I + a) (J + j)) g) := by
      intro lo m2 hal hlo
      unfold forFrom
      refine (writes_forN (fun t x => ∃ l : Nat, l < SS ∧
          x = p.addr SS (I + ((lo + t) * SS + l : Nat)) (J + j)) g (fun t ht m3 hw3 => ?_)).mono ?_
      · have hge : ∀ l, j ≤ (lo + t) * SS + l := by
          intro l; rw [Nat.add_mul]; omega
        refine (runs_cellStore (r := r) hSS hw h hs hc (lo + t) j g (fun l hl => ?_) (fun l hl => ?_))
        · exact hw3.isSome (hal _ (hw1.isSome (hr _ _ (idx_lt (by omega) hl) hj (hge l))))
        · rw [hg _ _ (idx_lt (by omega) hl) hj (hge l), el_mk r hl]
      · intro _ m4 hw4
        refine hw4.congr (fun x => ?_)
        constructor
        · rintro ⟨t, ht, l, hl, hx⟩
          exact ⟨_, idx_lt (by omega) hl, by rw [Nat.add_mul]; omega, hx⟩
        · rintro ⟨a, ha, h2, hx⟩
          obtain ⟨h3, h4, h5⟩ := idx_split hSS ha
          have h6 : lo ≤ a / SS := (Nat.le_div_iff_mul_le hSS).2 h2
          refine ⟨a / SS - lo, by omega, a % SS, h4, ?_⟩
          rw [show lo + (a / SS - lo) = a / SS by omega, h5]
          exact hx
    by_cases hcnd : j % SS ≠ 0 ∧ j / SS < RM
    · rw [if_pos hcnd]
      unfold onlyIf
      rw [if_pos (by simpa using hcnd)]
      have hcast : ((SS * (j / SS) : Nat) : Int) = (SS : Int) * ((j / SS : Nat) : Int) := Int.natCast_mul _ _
      rw [hcast]
      have hmj : j = j / SS * SS + j % SS := by rw [Nat.mul_comm]; exact hdm.symm
      refine Runs.bind (runs_cellStoreMask (r := r) hSS hw h hs hc (j / SS) j _ g (fun l hl hm => ?_)
        (fun l hl hm => ?_)) ?_
      · rw [decide_eq_true_iff] at hm
        exact hw1.isSome (hr _ _ (idx_lt hcnd.2 hl) hj (by omega))
      · rw [decide_eq_true_iff] at hm
        rw [hg _ _ (idx_lt hcnd.2 hl) hj (by omega), el_mk r hl]
      · intro _ m2 hw2
        refine (hfrom (j / SS + 1) m2 (fun x hx => hw2.isSome hx) (by rw [Nat.add_mul]; omega)).mono ?_
        intro _ m3 hw3
        refine (hw2.trans hw3).congr (fun x => ?_)
        constructor
        · rintro (⟨l, hl, hm, hx⟩ | ⟨a, ha, h2, hx⟩)
          · rw [decide_eq_true_iff] at hm
            exact ⟨_, idx_lt hcnd.2 hl, by omega, hx⟩
          · exact ⟨a, ha, by rw [Nat.add_mul] at h2; omega, hx⟩
        · rintro ⟨a, ha, h2, hx⟩
          by_cases hlt : (j / SS + 1) * SS ≤ a
          · exact Or.inr ⟨a, ha, hlt, hx⟩
          · rw [Nat.add_mul] at hlt
            refine Or.inl ⟨a - j / SS * SS, by omega, by rw [decide_eq_true_iff]; omega, ?_⟩
            rw [show j / SS * SS + (a - j / SS * SS) = a by omega]
            exact hx
    · rw [if_neg hcnd]
      unfold onlyIf
      rw [if_neg (by simpa using hcnd)]
      rw [pure_bind']
      by_cases h0 : j % SS = 0
      · have : j = j / SS * SS := by rw [Nat.mul_comm]; omega
        refine (hfrom (j / SS) m1 (fun x hx => hx) (by omega)).mono ?_
        intro _ m3 hw3
        refine hw3.congr (fun x => ?_)
        rw [← this]
      · have h1 : RM ≤ j / SS := by omega
        have h2 : RM * SS ≤ j := by
          have := Nat.mul_le_mul_right SS h1
          rw [Nat.mul_comm (j / SS)] at this; omega
        unfold forFrom
        rw [show RM - j / SS = 0 by omega]
        refine runs_pure ((WritesSet.refl m1 g).congr (fun x => ?_))
        constructor
        · intro h; exact absurd h (by simp)
        · rintro ⟨a, h3, h4, _⟩; omega
  · intro _ m2 hw2
    refine hw2.congr (fun x => ?_)
    constructor
    · rintro ⟨j, hj, a, h1, h4, hx⟩; exact ⟨a, j, h1, hj, h4, hx⟩
    · rintro ⟨a, j, h1, hj, h4, hx⟩; exact ⟨j, hj, a, h1, h4, hx⟩

end Reg
end Blast
