import Verif.VecPointer
import Mathlib.Tactic.ByContra
/-
Lane-by-lane implementations of masked loads and stores, vector stores, and the horizontal `imax`.

Models /repo/include/blast/math/simd/arch/Neon64.hpp (maskload, maskstore, imax),
/repo/include/blast/math/simd/arch/Avx2.hpp (imax),
the scalar loops of /repo/include/blast/math/dense/{Dynamic,Static}VectorPointer.hpp.
-/
set_option linter.unusedSectionVars false
namespace Blast
open Prog
variable {V : Type} [Arith V]

/-- One scalar access per selected lane: `if (mask[l]) v[l] = src[...]`, starting from 0.
Neon64.hpp:25-42 (float, 4 lanes), 47-58 (double, 2 lanes) with `addr l = base + l`;
DynamicVectorPointer.hpp:52-61, 64-73 and StaticVectorPointer.hpp:53-61, 71-77 with
`addr l = ptr + spacing * l`. -/
def gatherLoop (SS : Nat) (mask : Nat → Bool) (addr : Nat → Int) : Prog V (Vec V) :=
  foldN SS (fun l v => if mask l then do
      let x ← read (addr l)
      pure (fun l' => if l' = l then x else v l')
    else pure v) (fun _ => Arith.zero)

/-- One scalar store per selected lane: Neon64.hpp:63-76, 82-90 with `addr l = base + l`;
DynamicVectorPointer.hpp:76-81, 84-90 and StaticVectorPointer.hpp:90-95, 106-110 with
`addr l = ptr + spacing * l`. -/
def scatterLoop (SS : Nat) (mask : Nat → Bool) (addr : Nat → Int) (v : Vec V) : Prog V Unit :=
  forN SS (fun l => onlyIf (mask l) (write (addr l) (v l)))

/-- `store(val)` of Static/DynamicVectorPointer: StaticVectorPointer.hpp:84-96 (SIMD store when the spacing is 1),
DynamicVectorPointer.hpp:76-81. (RowColumnVectorPointer::store does not compile: matrix pointers have no
`store(orientation, …)`.) -/
def vecStore (SS : Nat) (isStatic aligned : Bool) (ptr spacing : Int) (v : Vec V) : Prog V Unit :=
  if isStatic && spacing == 1 then storeVec SS aligned ptr v
  else scatterLoop SS (fun _ => true) (fun l => ptr + spacing * l) v

/-- `store(val, mask)` of DynamicVectorPointer (DynamicVectorPointer.hpp:84-90) and of StaticVectorPointer with
spacing ≠ 1 (StaticVectorPointer.hpp:105-111; the branch for spacing 1, l.103, does not compile). -/
def vecStoreMask (SS : Nat) (ptr spacing : Int) (v : Vec V) (mask : Nat → Bool) : Prog V Unit :=
  scatterLoop SS mask (fun l => ptr + spacing * l) v

/-- the lane loop reads exactly the selected lanes -/
theorem reads_gatherLoop {SS : Nat} {mask : Nat → Bool} {addr : Nat → Int} {m : Mem V}
    (h : ∀ l, l < SS → mask l = true → (m (addr l)).isSome = true) :
    ReadsQ (gatherLoop SS mask addr) m (fun v =>
      ∀ l, l < SS → v l = if mask l then val m (addr l) else Arith.zero) := by
  unfold gatherLoop
  refine (readsQ_foldN (fun k (v : Vec V) => (∀ l, l < k → v l = if mask l then val m (addr l) else Arith.zero) ∧
    ∀ l, k ≤ l → v l = Arith.zero) ⟨fun l hl => by omega, fun _ _ => rfl⟩ ?_).mono (fun v h => h.1)
  rintro k v hk ⟨h1, h2⟩
  by_cases hm : mask k = true
  · rw [if_pos hm]
    refine Reads.bindQ (reads_val (h k hk hm)) (readsQ_pure ⟨fun l hl => ?_, fun l hl => ?_⟩)
    · by_cases he : l = k
      · subst he; dsimp only; rw [if_pos rfl, if_pos hm]
      · dsimp only; rw [if_neg he]; exact h1 l (by omega)
    · dsimp only; rw [if_neg (by omega)]; exact h2 l (by omega)
  · rw [if_neg hm]
    refine readsQ_pure ⟨fun l hl => ?_, fun l hl => h2 l (by omega)⟩
    by_cases he : l = k
    · subst he; rw [if_neg hm]; exact h2 l (by omega)
    · exact h1 l (by omega)

theorem gatherLoop_ub {SS : Nat} {mask : Nat → Bool} {addr : Nat → Int} {m : Mem V}
    (h : ¬ ∀ l, l < SS → mask l = true → (m (addr l)).isSome = true) :
    (gatherLoop SS mask addr : Prog V (Vec V)) m = .ub := by
  unfold gatherLoop
  induction SS with
  | zero => exact absurd (fun l hl => by omega) h
  | succ n ih =>
    by_cases h' : ∀ l, l < n → mask l = true → (m (addr l)).isSome = true
    · obtain ⟨v, hv, _⟩ := reads_gatherLoop h'
      unfold gatherLoop at hv
      show bind' _ _ m = _
      unfold bind'
      rw [hv]
      have hn : mask n = true ∧ ¬ (m (addr n)).isSome = true := by
        by_contra hc
        apply h
        intro l hl hm
        by_cases he : l = n
        · subst he
          by_contra hs
          exact hc ⟨hm, hs⟩
        · exact h' l (by omega) hm
      dsimp only
      rw [if_pos hn.1]
      show bind' _ _ m = _
      unfold bind' Prog.read
      cases hm : m (addr n) with
      | none => rfl
      | some v => rw [hm] at hn; simp at hn
    · show bind' _ _ m = _
      unfold bind'
      rw [ih h']

theorem runs_scatterLoop {SS : Nat} {mask : Nat → Bool} {addr : Nat → Int} {v : Vec V} {m : Mem V}
    (g : Int → V)
    (h : ∀ l, l < SS → mask l = true → (m (addr l)).isSome = true)
    (hg : ∀ l, l < SS → mask l = true → g (addr l) = v l) :
    Runs (scatterLoop SS mask addr v) m (fun _ m' =>
      WritesSet m m' (fun x => ∃ l, l < SS ∧ mask l = true ∧ x = addr l) g) := by
  unfold scatterLoop
  refine (writes_forN (S := fun l x => mask l = true ∧ x = addr l) (g := g) ?_).mono ?_
  · intro l hl m' hw
    unfold onlyIf
    by_cases hm : mask l = true
    · rw [if_pos hm]
      refine runs_write (hw.isSome (h l hl hm)) ?_
      intro x
      constructor
      · rintro ⟨_, rfl⟩; dsimp only; rw [if_pos rfl, hg l hl hm]
      · intro hx; dsimp only; rw [if_neg (fun he => hx ⟨hm, he⟩)]
    · rw [if_neg hm]
      exact runs_pure ((WritesSet.refl m' g).congr (fun x => by simp [hm]))
  · intro _ m' hw
    exact hw

theorem scatterLoop_ub {SS : Nat} {mask : Nat → Bool} {addr : Nat → Int} {v : Vec V} {m : Mem V}
    (hinj : ∀ l l', l < SS → l' < SS → addr l = addr l' → l = l')
    (h : ¬ ∀ l, l < SS → mask l = true → (m (addr l)).isSome = true) :
    scatterLoop SS mask addr v m = .ub := by
  induction SS with
  | zero => exact absurd (fun l hl => by omega) h
  | succ n ih =>
    have e : scatterLoop (n + 1) mask addr v m =
      (scatterLoop n mask addr v >>= fun _ => onlyIf (mask n) (write (addr n) (v n))) m := rfl
    rw [e]
    by_cases h' : ∀ l, l < n → mask l = true → (m (addr l)).isSome = true
    · classical
      obtain ⟨_, m', hr, hw⟩ := runs_scatterLoop (v := v)
        (fun x => if hx : ∃ l, l < n ∧ x = addr l then v hx.choose else Arith.zero) h' (by
          intro l hl _
          have hx : ∃ l', l' < n ∧ addr l = addr l' := ⟨l, hl, rfl⟩
          simp only [dif_pos hx]
          rw [hinj _ _ (by have := hx.choose_spec.1; omega) (by omega) hx.choose_spec.2.symm])
      rw [bind_ok hr]
      have hn : mask n = true ∧ ¬ (m (addr n)).isSome = true := by
        by_contra hc
        apply h
        intro l hl hm
        by_cases he : l = n
        · subst he
          by_contra hs
          exact hc ⟨hm, hs⟩
        · exact h' l (by omega) hm
      unfold onlyIf
      rw [if_pos hn.1]
      unfold write
      have : m' (addr n) = none := by
        rw [(hw _).2 (by rintro ⟨l, hl, _, he⟩; exact absurd (hinj _ _ (by omega) (by omega) he) (by omega))]
        cases hm : m (addr n) with
        | none => rfl
        | some v => rw [hm] at hn; simp at hn
      rw [this]
    · show bind' _ _ m = _
      unfold bind'
      rw [ih (fun l l' hl hl' => hinj l l' (by omega) (by omega)) h']

/-! ### imax -/

/-- a SIMD pair (values, indices): the arguments of imax, dense/Iamax.hpp:44-50, simd/arch/Avx2.hpp:63, 109 -/
abbrev IVec (V : Type) := (Nat → V) × (Nat → Int)

/-- AVX2 step: the other lane (given by `perm`) is taken if it is strictly greater:
`mask = cmp(other, own, GT); blendv(own, other, mask)`, Avx2.hpp:69-77 -/
def imaxStepAvx (perm : Nat → Nat) (s : IVec V) : IVec V :=
  (fun l => if Arith.gt (s.1 (perm l)) (s.1 l) then s.1 (perm l) else s.1 l,
   fun l => if Arith.gt (s.1 (perm l)) (s.1 l) then s.2 (perm l) else s.2 l)

/-- NEON step: the own lane is kept if it is strictly greater, otherwise the other one is taken:
`mask = vcgtq(own, other); vbslq(mask, own, other)`, Neon64.hpp:98-112 -/
def imaxStepNeon (perm : Nat → Nat) (s : IVec V) : IVec V :=
  (fun l => if Arith.gt (s.1 l) (s.1 (perm l)) then s.1 l else s.1 (perm l),
   fun l => if Arith.gt (s.1 l) (s.1 (perm l)) then s.2 l else s.2 (perm l))

/-- `_mm256_permute_ps(v, 0b10'11'00'01)`: within each group of four lanes 0↔1, 2↔3: simd/arch/Avx2.hpp:69-70 -/
def permA (l : Nat) : Nat := if l % 2 = 0 then l + 1 else l - 1
/-- `_mm256_permute_ps(v, 0b00'00'10'10)`: within each group of four lanes, lanes 0,1 take lane 2, lanes 2,3 take lane 0: simd/arch/Avx2.hpp:80-81 -/
def permB (l : Nat) : Nat := l / 4 * 4 + (if l % 4 < 2 then 2 else 0)
/-- `_mm256_permute2f128_*(v, v, 1)` on 8 lanes: swap the two halves: simd/arch/Avx2.hpp:91-93 -/
def permC (l : Nat) : Nat := (l + 4) % 8
/-- `_mm256_permute2f128_pd(v, v, 1)` on 4 lanes: swap the two halves: simd/arch/Avx2.hpp:114-115 -/
def permD (l : Nat) : Nat := (l + 2) % 4
/-- `vextq(v, v, k)` on `n` lanes: rotate by `k`: simd/arch/Neon64.hpp:96-105, 121-122 -/
def rotLanes (n k l : Nat) : Nat := (l + k) % n

/-- `imax` for AVX2 float, 8 lanes: Avx2.hpp:64-107 -/
def imaxAvxFloat (x : Nat → V) (idx : Nat → Int) : IVec V :=
  imaxStepAvx permC (imaxStepAvx permB (imaxStepAvx permA (x, idx)))

/-- `imax` for AVX2 double, 4 lanes: Avx2.hpp:110-131; `_mm256_permute_pd(m1, 5)` swaps lanes 0↔1, 2↔3 -/
def imaxAvxDouble (x : Nat → V) (idx : Nat → Int) : IVec V :=
  imaxStepAvx permA (imaxStepAvx permD (x, idx))

/-- `imax` for NEON64 float, 4 lanes: Neon64.hpp:91-113 -/
def imaxNeonFloat (x : Nat → V) (idx : Nat → Int) : IVec V :=
  imaxStepNeon (rotLanes 4 2) (imaxStepNeon (rotLanes 4 1) (x, idx))

/-- `imax` for NEON64 double, 2 lanes: Neon64.hpp:116-132 -/
def imaxNeonDouble (x : Nat → V) (idx : Nat → Int) : IVec V :=
  imaxStepNeon (rotLanes 2 1) (x, idx)

end Blast
