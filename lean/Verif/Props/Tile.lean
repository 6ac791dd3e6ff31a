import Verif.TileLemmas
/- Concrete cases meeting the hypotheses of these theorems: Verif/Cases/Register.lean, and the examples in this file. -/
/-
Property C08: tile covers the matrix exactly once.
-/
namespace Blast
open Prog

/-- **C08**. For every SIMD width, size and traversal order there is a finite list of calls such that `tile`,
whatever the callbacks do, executes exactly these calls in order and returns. The rectangles of the calls lie
in the `m × n` matrix, cover every element, and no element is in two of them. `f_full` is called exactly for
tiles that fill the whole kernel; every kernel has 1, 2 or 3 SIMD rows and 4 columns; the tile fits the kernel and
uses every SIMD row of it (`(RM-1)*SS < km`); tile rows start at multiples of the SIMD width. -/
theorem C08_tile_partition {SS : Nat} (hSS : 0 < SS) (colTraversal : Bool) (m n : Nat) :
    ∃ calls : List TileCall,
      (∀ (V : Type) (ff : Nat → Nat → Nat → Prog V Unit)
          (fp : Nat → Nat → Nat → Nat → Nat → Prog V Unit),
        tile SS colTraversal m n ff fp = forList calls (fun t =>
          if t.full then ff t.RM t.i t.j else fp t.RM t.i t.j t.km t.kn)) ∧
      (∀ t ∈ calls, t.i + t.km ≤ m ∧ t.j + t.kn ≤ n ∧ 0 < t.km ∧ 0 < t.kn) ∧
      (∀ x y, x < m → y < n → ∃ t ∈ calls, (t.i ≤ x ∧ x < t.i + t.km) ∧ (t.j ≤ y ∧ y < t.j + t.kn)) ∧
      (calls.Pairwise fun t u => ∀ x y,
        ¬ (((t.i ≤ x ∧ x < t.i + t.km) ∧ (t.j ≤ y ∧ y < t.j + t.kn)) ∧
           ((u.i ≤ x ∧ x < u.i + u.km) ∧ (u.j ≤ y ∧ y < u.j + u.kn)))) ∧
      (∀ t ∈ calls, (t.RM = 1 ∨ t.RM = 2 ∨ t.RM = 3) ∧ t.km ≤ t.RM * SS ∧ (t.RM - 1) * SS < t.km ∧
        t.kn ≤ 4 ∧ t.i % SS = 0 ∧ (t.full = true ↔ t.km = t.RM * SS ∧ t.kn = 4)) := by
  refine ⟨tileCalls SS colTraversal m n, ?_, ?_, ?_, ?_, ?_⟩
  · intro V ff fp
    rw [tile_eq hSS]; rfl
  · intro t ht
    have h := tileCalls_ok hSS _ _ _ t ht
    exact ⟨h.rows, h.cols, h.kmpos, h.knpos⟩
  · intro x y hx hy
    obtain ⟨t, ht, h1, h2, h3, h4⟩ := tileCalls_cover hSS colTraversal m n hx hy
    exact ⟨t, ht, ⟨h1, h2⟩, h3, h4⟩
  · refine (tileCalls_disjoint hSS colTraversal m n).imp ?_
    rintro t u h x y ⟨⟨⟨a, b⟩, c, d⟩, ⟨a', b'⟩, c', d'⟩
    exact h x y ⟨a, b, c, d⟩ ⟨a', b', c', d'⟩
  · intro t ht
    have h := tileCalls_ok hSS _ _ _ t ht
    have h1 := h.rm
    refine ⟨by omega, h.fits, ?_, h.width, h.align, h.full⟩
    have h2 := h.tight
    have h3 : t.RM * SS = (t.RM - 1) * SS + SS := by
      rw [← Nat.succ_mul, Nat.succ_eq_add_one, Nat.sub_add_cancel h1.1]
    omega

/-- a non-trivial case: a 29 × 6 matrix with SIMD width 4, column traversal -/
example : tileCalls 4 true 29 6 =
    [⟨3, 0, 0, 12, 4, true⟩, ⟨3, 12, 0, 12, 4, true⟩, ⟨1, 24, 0, 4, 4, true⟩, ⟨1, 28, 0, 1, 4, false⟩,
     ⟨3, 0, 4, 12, 2, false⟩, ⟨3, 12, 4, 12, 2, false⟩, ⟨1, 24, 4, 4, 2, false⟩, ⟨1, 28, 4, 1, 2, false⟩] := by
  decide

end Blast
