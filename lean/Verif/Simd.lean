import Verif.Mem
/-
SIMD vectors and masked memory access.

Models /repo/include/blast/math/simd/SimdVec.hpp, SimdMask.hpp, SimdIndex.hpp and
/repo/include/blast/math/simd/arch/{Avx2,Neon64}.hpp (maskload, maskstore).
A SIMD register is a function lane ↦ value; only lanes `< SS` are meaningful, `SS` being
`SimdVec<T>::size()`.
-/
set_option linter.unusedSectionVars false
namespace Blast
open Prog
variable {V : Type} [Arith V]

/-- SIMD register (SimdVec.hpp:127-311). Simplification: lanes ≥ SS exist but are never stored. The broadcast constructor (SimdVec.hpp:166-169) is `fun _ => v`. -/
abbrev Vec (V : Type) := Nat → V

/-- Value of a cell; `zero` if unallocated (only used where the cell is known to be allocated). -/
def val (m : Mem V) (x : Int) : V := (m x).getD Arith.zero

/-- Gather `SS` lanes from the addresses `addr`, lanes with `mask l = false` are not accessed and
give 0. (Lanes `SS`, `SS+1`, … do not exist; the model gives them the value 0.)  Models maskload (Avx2.hpp:33-45 `_mm256_maskload_*`, Neon64.hpp:23-58) for
`addr l = base + l`, and the scalar gather loops (panel/DynamicPanelMatrixPointer.hpp:56-68,
dense/DynamicVectorPointer.hpp:52-73) otherwise. -/
def gather (SS : Nat) (mask : Nat → Bool) (addr : Nat → Int) : Prog V (Vec V) := fun m =>
  if ∀ l, l < SS → mask l = true → (m (addr l)).isSome = true then
    .ok (fun l => if l < SS then (if mask l then val m (addr l) else Arith.zero) else Arith.zero) m
  else .ub

/-- Unmasked SIMD load, SimdVec.hpp:178-181 (`load_aligned`/`load_unaligned`). An aligned load from an
address that is not a multiple of `SS` elements is undefined behaviour. -/
def loadVec (SS : Nat) (aligned : Bool) (base : Int) : Prog V (Vec V) :=
  if aligned && base % (SS : Int) != 0 then ub else gather SS (fun _ => true) (fun l => base + l)

/-- Masked SIMD load, SimdVec.hpp:191-194 (the `aligned` argument is ignored by the code). -/
def loadVecMask (SS : Nat) (mask : Nat → Bool) (base : Int) : Prog V (Vec V) :=
  gather SS mask (fun l => base + l)

/-- Masked SIMD store, SimdVec.hpp:256-259, maskstore in Avx2.hpp:48-61, Neon64.hpp:61-88:
only the selected lanes are accessed. -/
def storeVecMask (SS : Nat) (mask : Nat → Bool) (base : Int) (v : Vec V) : Prog V Unit := fun m =>
  if ∀ l, l < SS → mask l = true → (m (base + l)).isSome = true then
    .ok () (fun x => if base ≤ x ∧ x < base + SS ∧ mask (x - base).toNat = true
                     then some (v (x - base).toNat) else m x)
  else .ub

/-- Unmasked SIMD store, SimdVec.hpp:240-246. -/
def storeVec (SS : Nat) (aligned : Bool) (base : Int) (v : Vec V) : Prog V Unit :=
  if aligned && base % (SS : Int) != 0 then ub else storeVecMask SS (fun _ => true) base v

/-! ### Lemmas -/

theorem reads_gather {SS : Nat} {mask : Nat → Bool} {addr : Nat → Int} {m : Mem V}
    (h : ∀ l, l < SS → mask l = true → (m (addr l)).isSome = true) :
    Reads (gather SS mask addr) m (fun l => if l < SS then (if mask l then val m (addr l) else Arith.zero) else Arith.zero) := by
  unfold Reads gather
  rw [if_pos h]

theorem reads_loadVec {SS : Nat} {al : Bool} {base : Int} {m : Mem V}
    (hal : al = true → base % (SS : Int) = 0)
    (h : ∀ l, l < SS → (m (base + (l : Nat))).isSome = true) :
    Reads (loadVec SS al base) m (fun l => if l < SS then val m (base + l) else Arith.zero) := by
  unfold loadVec
  have : ¬ ((al && base % (SS : Int) != 0) = true) := by
    intro hc
    simp at hc
    exact hc.2 (hal hc.1)
  rw [if_neg this]
  have := reads_gather (SS := SS) (mask := fun _ => true) (addr := fun l => base + (l : Nat)) (m := m)
    (fun l hl _ => h l hl)
  simpa using this

theorem reads_loadVecMask {SS : Nat} {mask : Nat → Bool} {base : Int} {m : Mem V}
    (h : ∀ l, l < SS → mask l = true → (m (base + (l : Nat))).isSome = true) :
    Reads (loadVecMask SS mask base) m
      (fun l => if l < SS then (if mask l then val m (base + l) else Arith.zero) else Arith.zero) :=
  reads_gather h

theorem runs_storeVecMask {SS : Nat} {mask : Nat → Bool} {base : Int} {v : Vec V} {m : Mem V}
    (g : Int → V)
    (h : ∀ l, l < SS → mask l = true → (m (base + (l : Nat))).isSome = true)
    (hg : ∀ l, l < SS → mask l = true → g (base + (l : Nat)) = v l) :
    Runs (storeVecMask SS mask base v) m (fun _ m' =>
      WritesSet m m' (fun x => ∃ l, l < SS ∧ mask l = true ∧ x = base + (l : Nat)) g) := by
  refine ⟨(), (fun x => if base ≤ x ∧ x < base + SS ∧ mask (x - base).toNat = true
                     then some (v (x - base).toNat) else m x), ?_, ?_⟩
  · unfold storeVecMask
    rw [if_pos h]
  · intro x
    constructor
    · rintro ⟨l, hl, hm, rfl⟩
      have e : (base + (l : Int) - base).toNat = l := by omega
      dsimp only
      rw [if_pos (by rw [e]; exact ⟨by omega, by omega, hm⟩), e, hg l hl hm]
    · intro hx
      dsimp only
      rw [if_neg]
      rintro ⟨h1, h2, h3⟩
      exact hx ⟨(x - base).toNat, by omega, h3, by omega⟩

theorem runs_storeVec {SS : Nat} {al : Bool} {base : Int} {v : Vec V} {m : Mem V}
    (g : Int → V) (hal : al = true → base % (SS : Int) = 0)
    (h : ∀ l, l < SS → (m (base + (l : Nat))).isSome = true)
    (hg : ∀ l, l < SS → g (base + (l : Nat)) = v l) :
    Runs (storeVec SS al base v) m (fun _ m' =>
      WritesSet m m' (fun x => ∃ l, l < SS ∧ x = base + (l : Nat)) g) := by
  unfold storeVec
  have : ¬ ((al && base % (SS : Int) != 0) = true) := by
    intro hc
    simp at hc
    exact hc.2 (hal hc.1)
  rw [if_neg this]
  refine (runs_storeVecMask g (fun l hl _ => h l hl) (fun l hl _ => hg l hl)).mono ?_
  intro _ m' hw
  exact hw.congr (fun x => by simp)

end Blast
