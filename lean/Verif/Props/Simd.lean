import Verif.SimdLoops
import Verif.Lawful
import Verif.Spec
/- Concrete cases meeting the hypotheses of these theorems: Verif/Cases/Storage.lean, and the examples in this file. -/
/-
Properties C26, C47, C48: SIMD loads/stores, vector pointers, horizontal imax.
-/
set_option linter.unusedSectionVars false
namespace Blast
open Prog
variable {V : Type}

/-! ### C47 -/

/-- **C47**, masked load. It succeeds exactly when the cells of the selected lanes are allocated (cells of other
lanes need not even exist), changes nothing, and gives the cell values in selected lanes and 0 in the others. -/
theorem C47_masked_load [Arith V] (SS : Nat) (mask : Nat → Bool) (base : Int) (m : Mem V) :
    ((∃ v, loadVecMask SS mask base m = .ok v m) ↔
      ∀ l, l < SS → mask l = true → (m (base + l)).isSome = true) ∧
    (∀ v m', loadVecMask SS mask base m = .ok v m' →
      m' = m ∧ ∀ l, l < SS → (mask l = true → some (v l) = m (base + l)) ∧ (mask l = false → v l = Arith.zero)) := by
  have hiff : (∀ l, l < SS → mask l = true → (m (base + (l : Nat))).isSome = true) →
      Reads (loadVecMask SS mask base) m
        (fun l => if l < SS then (if mask l then val m (base + l) else Arith.zero) else Arith.zero) := reads_loadVecMask
  constructor
  · constructor
    · rintro ⟨v, hv⟩
      by_contra hc
      unfold loadVecMask gather at hv
      rw [if_neg hc] at hv; cases hv
    · intro h; exact ⟨_, hiff h⟩
  · intro v m' hv
    by_cases hc : ∀ l, l < SS → mask l = true → (m (base + (l : Nat))).isSome = true
    · have h2 : loadVecMask SS mask base m = _ := hiff hc
      rw [h2] at hv
      injection hv with h3 h4
      subst h3; subst h4
      refine ⟨rfl, fun l hl => ⟨fun hm => ?_, fun hm => ?_⟩⟩
      · have := hc l hl hm
        dsimp only
        rw [if_pos hl, if_pos hm]
        unfold val
        cases hx : m (base + (l : Nat)) with
        | none => rw [hx] at this; simp at this
        | some v => rfl
      · dsimp only; rw [if_pos hl, if_neg (by simp [hm])]
    · unfold loadVecMask gather at hv
      rw [if_neg hc] at hv; cases hv

/-- **C47**, masked store. It succeeds exactly when the cells of the selected lanes are allocated and changes
exactly those cells. -/
theorem C47_masked_store [Arith V] (SS : Nat) (mask : Nat → Bool) (base : Int) (w : Vec V) (m : Mem V) :
    ((∃ m', storeVecMask SS mask base w m = .ok () m') ↔
      ∀ l, l < SS → mask l = true → (m (base + l)).isSome = true) ∧
    (∀ m', storeVecMask SS mask base w m = .ok () m' →
      (∀ l, l < SS → mask l = true → m' (base + l) = some (w l)) ∧
      (∀ x, (∀ l : Nat, l < SS → mask l = true → x ≠ base + l) → m' x = m x)) := by
  constructor
  · constructor
    · rintro ⟨m', hm'⟩
      by_contra hc
      unfold storeVecMask at hm'
      rw [if_neg hc] at hm'; cases hm'
    · intro h
      unfold storeVecMask
      rw [if_pos h]
      exact ⟨_, rfl⟩
  · intro m' hm'
    unfold storeVecMask at hm'
    split at hm'
    · injection hm' with _ h2
      subst h2
      constructor
      · intro l hl hm
        dsimp only
        have e : (base + (l : Int) - base).toNat = l := by omega
        rw [if_pos (by rw [e]; exact ⟨by omega, by omega, hm⟩), e]
      · intro x hx
        dsimp only
        rw [if_neg]
        rintro ⟨h1, h2, h3⟩
        exact hx (x - base).toNat (by omega) h3 (by omega)
    · cases hm'

/-- **C47**, round trip: loading the lanes just stored returns the stored values. -/
theorem C47_store_load [Arith V] (SS : Nat) (mask : Nat → Bool) (base : Int) (w : Vec V) (m m' : Mem V)
    (h : storeVecMask SS mask base w m = .ok () m') :
    ∃ v, loadVecMask SS mask base m' = .ok v m' ∧ ∀ l, l < SS → mask l = true → v l = w l := by
  have h1 := (C47_masked_store SS mask base w m).2 m' h
  obtain ⟨v, hv⟩ := ((C47_masked_load SS mask base m').1).2 (fun l hl hm => by rw [h1.1 l hl hm]; rfl)
  refine ⟨v, hv, fun l hl hm => ?_⟩
  have h2 := (((C47_masked_load SS mask base m').2 v m' hv).2 l hl).1 hm
  rw [h1.1 l hl hm] at h2
  injection h2

/-- **C47**, NEON64: the lane-by-lane implementations behave like the masked load and store above, for every mask
and memory (including undefined behaviour on unallocated selected lanes). -/
theorem C47_neon_refines [Arith V] (SS : Nat) (mask : Nat → Bool) (base : Int) (w : Vec V) (m : Mem V) :
    (∀ v, loadVecMask SS mask base m = .ok v m →
      ∃ v', gatherLoop SS mask (fun l => base + l) m = .ok v' m ∧ ∀ l, l < SS → v' l = v l) ∧
    (loadVecMask SS mask base m = .ub → gatherLoop SS mask (fun l => base + l) m = .ub) ∧
    scatterLoop SS mask (fun l => base + l) w m = storeVecMask SS mask base w m := by
  refine ⟨?_, ?_, ?_⟩
  · intro v hv
    have hc := ((C47_masked_load SS mask base m).1).1 ⟨v, hv⟩
    obtain ⟨v', h1, h2⟩ := reads_gatherLoop (mask := mask) (addr := fun l => base + l) hc
    refine ⟨v', h1, fun l hl => ?_⟩
    have h3 : loadVecMask SS mask base m = _ := reads_loadVecMask hc
    rw [h3] at hv
    injection hv with h4
    rw [h2 l hl, ← h4]; exact (if_pos hl).symm
  · intro h
    refine gatherLoop_ub (fun hc => ?_)
    have h3 : loadVecMask SS mask base m = _ := reads_loadVecMask hc
    rw [h3] at h; cases h
  · by_cases hc : ∀ l, l < SS → mask l = true → (m (base + (l : Nat))).isSome = true
    · have hgx : ∀ l, l < SS → mask l = true →
          (fun x : Int => w (x - base).toNat) (base + (l : Nat)) = w l := by
        intro l _ _
        dsimp only
        rw [show (base + (l : Int) - base).toNat = l by omega]
      obtain ⟨_, m1, e1, w1⟩ := runs_scatterLoop (v := w) (mask := mask) (addr := fun l => base + (l : Nat))
        (fun x => w (x - base).toNat) hc hgx
      obtain ⟨_, m2, e2, w2⟩ := runs_storeVecMask (v := w) (fun x => w (x - base).toNat) hc hgx
      rw [e1, e2]
      congr 1
      funext x
      by_cases hx : ∃ l, l < SS ∧ mask l = true ∧ x = base + (l : Nat)
      · rw [(w1 x).1 hx, (w2 x).1 hx]
      · rw [(w1 x).2 hx, (w2 x).2 hx]
    · rw [scatterLoop_ub (by intro l l' _ _ he; omega) hc]
      unfold storeVecMask
      rw [if_neg hc]

/-- lanes 1 and 2 selected, only their cells allocated -/
example : loadVecMask 4 (fun l => l == 1 || l == 2) 10
    (fun x => if x = 11 ∨ x = 12 then some (x : Rat) else none) ≠ .ub := by
  intro h
  have := ((C47_masked_load 4 (fun l => l == 1 || l == 2) 10
    (fun x => if x = 11 ∨ x = 12 then some (x : Rat) else none)).1).2 (by
      intro l hl hm
      simp only [Bool.or_eq_true, beq_iff_eq] at hm
      rcases hm with rfl | rfl <;> rfl)
  obtain ⟨v, hv⟩ := this
  rw [hv] at h; cases h

/-! ### C48 -/

/-- **C48**, addressing: element `i` is at distance `i*spacing`, offsets add up. -/
theorem C48_vector_pointer_offset (SS : Nat) (st al : Bool) (ptr spacing : Int) (i j : Int) :
    (VPtr.vec st al ptr spacing).addr SS i = ptr + i * spacing ∧
    ((VPtr.vec st al ptr spacing).off SS i).addr SS j = (VPtr.vec st al ptr spacing).addr SS (i + j) ∧
    ((VPtr.vec st al ptr spacing).unal SS).addr SS i = (VPtr.vec st al ptr spacing).addr SS i := by
  refine ⟨rfl, ?_, rfl⟩
  show ptr + i * spacing + j * spacing = ptr + (i + j) * spacing
  rw [Int.add_mul]; omega

/-- **C48**, loads of strided vectors: `load(mask)` (and `load()`, all lanes) reads exactly the selected elements. -/
theorem C48_vector_load [Arith V] (SS : Nat) (st al : Bool) (ptr spacing : Int) (mask : Nat → Bool) (m : Mem V)
    (hal : st = true → spacing = 1 → al = true → (SS : Int) ∣ ptr)
    (h : ∀ l : Nat, l < SS → mask l = true → (m ((VPtr.vec st al ptr spacing).addr SS l)).isSome = true) :
    (∃ v, (VPtr.vec st al ptr spacing).loadMask SS mask m = .ok v m ∧ ∀ l : Nat, l < SS →
      (mask l = true → some (v l) = m ((VPtr.vec st al ptr spacing).addr SS l)) ∧
      (mask l = false → v l = Arith.zero)) ∧
    ((∀ l, mask l = true) → ∃ v, (VPtr.vec st al ptr spacing).load SS m = .ok v m ∧ ∀ l : Nat, l < SS →
      some (v l) = m ((VPtr.vec st al ptr spacing).addr SS l)) := by
  have hadr : ∀ l : Nat, (VPtr.vec st al ptr spacing).addr SS l = ptr + spacing * l := by
    intro l
    show ptr + (l : Int) * spacing = _
    rw [Int.mul_comm]
  have some_val : ∀ x, (m x).isSome = true → some (val m x) = m x := by
    intro x hx
    unfold val
    cases hm : m x with
    | none => rw [hm] at hx; simp at hx
    | some v => rfl
  constructor
  · refine ⟨_, reads_gather (mask := mask) (addr := fun l => ptr + spacing * (l : Nat))
      (fun l hl hm => by rw [← hadr]; exact h l hl hm), fun l hl => ⟨fun hm => ?_, fun hm => ?_⟩⟩
    · rw [if_pos hl, if_pos hm, ← hadr]; exact some_val _ (h l hl hm)
    · rw [if_pos hl, if_neg (by simp [hm])]
  · intro hall
    have hall' : ∀ l : Nat, l < SS → (m ((VPtr.vec st al ptr spacing).addr SS l)).isSome = true :=
      fun l hl => h l hl (hall l)
    unfold VPtr.load
    simp only
    by_cases hc : (st && spacing == 1) = true
    · rw [if_pos hc]
      simp only [Bool.and_eq_true, beq_iff_eq] at hc
      obtain ⟨hst, hsp⟩ := hc
      have e : ∀ l : Nat, ptr + (l : Int) = (VPtr.vec st al ptr spacing).addr SS l := by
        intro l; rw [hadr, hsp, Int.one_mul]
      refine ⟨_, reads_loadVec (fun ha => Int.emod_eq_zero_of_dvd (hal hst hsp ha))
        (fun l hl => by rw [e]; exact hall' l hl), fun l hl => ?_⟩
      rw [if_pos hl, e]; exact some_val _ (hall' l hl)
    · rw [if_neg hc]
      refine ⟨_, reads_gather (mask := fun _ => true) (addr := fun l => ptr + spacing * (l : Nat))
        (fun l hl _ => by rw [← hadr]; exact hall' l hl), fun l hl => ?_⟩
      rw [if_pos hl, if_pos rfl, ← hadr]; exact some_val _ (hall' l hl)

/-- **C48**, stores to strided vectors write exactly the selected elements (spacing not 0). -/
theorem C48_vector_store_mask [Arith V] (SS : Nat) (st al : Bool) (ptr spacing : Int) (mask : Nat → Bool)
    (w : Vec V) (m : Mem V) (hsp : 0 < spacing)
    (h : ∀ l : Nat, l < SS → mask l = true → (m ((VPtr.vec st al ptr spacing).addr SS l)).isSome = true) :
    ∃ m', vecStoreMask SS ptr spacing w mask m = .ok () m' ∧
      (∀ l : Nat, l < SS → mask l = true → m' ((VPtr.vec st al ptr spacing).addr SS l) = some (w l)) ∧
      (∀ x, (∀ l : Nat, l < SS → mask l = true → x ≠ (VPtr.vec st al ptr spacing).addr SS l) → m' x = m x) := by
  have hadr : ∀ l : Nat, (VPtr.vec st al ptr spacing).addr SS l = ptr + spacing * l := by
    intro l
    show ptr + (l : Int) * spacing = _
    rw [Int.mul_comm]
  have hg : ∀ l, l < SS → mask l = true →
      (fun x : Int => w ((x - ptr) / spacing).toNat) (ptr + spacing * (l : Nat)) = w l := by
    intro l _ _
    dsimp only
    rw [show ptr + spacing * (l : Int) - ptr = spacing * l by omega, Int.mul_ediv_cancel_left _ (by omega)]
    rfl
  obtain ⟨_, m', e1, e2⟩ := runs_scatterLoop (v := w) (mask := mask) (addr := fun l => ptr + spacing * (l : Nat))
    (fun x => w ((x - ptr) / spacing).toNat) (fun l hl hm => by rw [← hadr]; exact h l hl hm) hg
  refine ⟨m', e1, fun l hl hm => ?_, fun x hx => (e2 x).2 ?_⟩
  · rw [hadr, (e2 _).1 ⟨l, hl, hm, rfl⟩, hg l hl hm]
  · rintro ⟨l, hl, hm, rfl⟩
    exact hx l hl hm (hadr l).symm

/-- **C48**, the unmasked store of a vector pointer writes exactly the next `SS` elements; an aligned SIMD store (compile-time spacing 1) needs an aligned pointer. -/
theorem C48_vector_store [Arith V] (SS : Nat) (st al : Bool) (ptr spacing : Int) (w : Vec V) (m : Mem V) (hsp : 0 < spacing)
    (hal : st = true → spacing = 1 → al = true → ptr % (SS : Int) = 0)
    (h : ∀ l : Nat, l < SS → (m ((VPtr.vec st al ptr spacing).addr SS l)).isSome = true) :
    ∃ m', vecStore SS st al ptr spacing w m = .ok () m' ∧
      (∀ l : Nat, l < SS → m' ((VPtr.vec st al ptr spacing).addr SS l) = some (w l)) ∧
      (∀ x, (∀ l : Nat, l < SS → x ≠ (VPtr.vec st al ptr spacing).addr SS l) → m' x = m x) := by
  have hadr : ∀ l : Nat, (VPtr.vec st al ptr spacing).addr SS l = ptr + spacing * l := by
    intro l
    show ptr + (l : Int) * spacing = _
    rw [Int.mul_comm]
  unfold vecStore
  by_cases hc : st = true ∧ spacing = 1
  · obtain ⟨h1, h2⟩ := hc
    subst h1 h2
    rw [if_pos (by rfl)]
    have hadr' : ∀ l : Nat, (VPtr.vec true al ptr 1).addr SS l = ptr + l := fun l => by rw [hadr]; omega
    have hg : ∀ l, l < SS → (fun x : Int => w (x - ptr).toNat) (ptr + (l : Nat)) = w l := by
      intro l _
      dsimp only
      rw [show ptr + (l : Int) - ptr = l by omega]; rfl
    obtain ⟨_, m', e1, e2⟩ := runs_storeVec (v := w) (fun x => w (x - ptr).toNat) (hal rfl rfl) (fun l hl => by rw [← hadr']; exact h l hl) hg
    refine ⟨m', e1, fun l hl => ?_, fun x hx => (e2 x).2 ?_⟩
    · rw [hadr', (e2 _).1 ⟨l, hl, rfl⟩, hg l hl]
    · rintro ⟨l, hl, rfl⟩
      exact hx l hl (hadr' l).symm
  · rw [if_neg (by
      intro hh
      rw [Bool.and_eq_true, beq_iff_eq] at hh
      exact hc hh)]
    exact C48_vector_store_mask SS st al ptr spacing (fun _ => true) w m hsp (fun l hl _ => h l hl) |>.imp
      (fun m' e => ⟨e.1, fun l hl => e.2.1 l hl rfl, fun x hx => e.2.2 x (fun l hl _ => hx l hl)⟩)

/-- **C48**, rows and columns of matrix pointers: `column(p)[i]` is `p[i,0]`, `row(p)[j]` is `p[0,j]`; offsets of
column/row pointers move along the column/row (panel pointers: under the alignment contract of C35). -/
theorem C48_row_column [Arith V] {SS : Nat} (hSS : 0 < SS) (p : MPtr) (hw : p.WF SS) (i k : Int)
    (ha : p.aligned = true → (SS : Int) ∣ i) :
    (column p).addr SS i = p.addr SS i 0 ∧ (row p).addr SS i = p.addr SS 0 i ∧
    ((column p).off SS i).addr SS k = p.addr SS (i + k) 0 ∧
    ((row p).off SS i).addr SS k = p.addr SS 0 (i + k) := by
  refine ⟨rfl, rfl, ?_, ?_⟩
  · have h1 := (MPtr.At.refl hSS p).off hSS hw i 0 (fun h => by
      unfold MPtr.major
      cases p.so
      · simp
      · exact Int.emod_eq_zero_of_dvd (ha h))
    rw [Int.zero_add, Int.add_zero] at h1
    have := h1.addr hSS hw k 0
    rw [Int.add_zero] at this
    exact this
  · have h1 := (MPtr.At.refl hSS p).off hSS hw 0 i (fun h => by
      unfold MPtr.major
      cases p.so
      · exact Int.emod_eq_zero_of_dvd (ha h)
      · simp)
    have := h1.addr hSS hw 0 k
    rw [Int.add_zero, show (0 + i + k : Int) = i + k by omega] at this
    exact this

/-- **C48**, limitation found: a SIMD load along the direction that is not contiguous (e.g. `row(p).load()` of a
column-major pointer) does not gather; it throws inside a `noexcept` function, i.e. calls std::terminate. -/
theorem C48_minor_direction_load_terminates [Arith V] {SS : Nat} (p : MPtr) (hs : p.so = .columnMajor) (m : Mem V) :
    (row p).load SS m = .terminate := by
  show noexcept (p.loadT SS .rowVector) m = _
  unfold noexcept MPtr.loadT MPtr.majorOrientation
  rw [hs]
  rfl

example : ∀ l : Nat, l < 4 → (l != 3) = true →
    ((fun x => if 0 ≤ x ∧ x < 100 then some (1 : Rat) else none : Mem Rat)
      ((VPtr.vec false false 10 7).addr 4 l)).isSome = true := by decide

/-! ### C26 -/

/-- the pair in lane `l` is the value and index of a maximal lane among `S l` -/
private def Best [LinearOrder V] (x : Nat → V) (idx : Nat → Int) (S : Nat → Nat → Prop) (s : IVec V) (l : Nat) : Prop :=
  ∃ p, S l p ∧ s.1 l = x p ∧ s.2 l = idx p ∧ ∀ q, S l q → x q ≤ x p

private theorem best_avx [LinearOrder V] [Arith V] (hgt : ∀ a b : V, Arith.gt a b = true ↔ b < a) {x : Nat → V}
    {idx : Nat → Int} {S : Nat → Nat → Prop} {s : IVec V} {perm : Nat → Nat} {l : Nat}
    (h1 : Best x idx S s l) (h2 : Best x idx S s (perm l)) :
    Best x idx (fun l q => S l q ∨ S (perm l) q) (imaxStepAvx perm s) l := by
  obtain ⟨p, a1, a2, a3, a4⟩ := h1
  obtain ⟨p', b1, b2, b3, b4⟩ := h2
  unfold Best imaxStepAvx
  by_cases hc : Arith.gt (s.1 (perm l)) (s.1 l) = true
  · refine ⟨p', Or.inr b1, if_pos hc |>.trans b2, if_pos hc |>.trans b3, ?_⟩
    have := (hgt _ _).1 hc
    rw [a2, b2] at this
    rintro q (hq | hq)
    · exact le_trans (a4 q hq) (le_of_lt this)
    · exact b4 q hq
  · refine ⟨p, Or.inl a1, if_neg hc |>.trans a2, if_neg hc |>.trans a3, ?_⟩
    have : ¬ _ := fun h => hc ((hgt _ _).2 h)
    rw [a2, b2] at this
    rintro q (hq | hq)
    · exact a4 q hq
    · exact le_trans (b4 q hq) (not_lt.1 this)

private theorem best_neon [LinearOrder V] [Arith V] (hgt : ∀ a b : V, Arith.gt a b = true ↔ b < a) {x : Nat → V}
    {idx : Nat → Int} {S : Nat → Nat → Prop} {s : IVec V} {perm : Nat → Nat} {l : Nat}
    (h1 : Best x idx S s l) (h2 : Best x idx S s (perm l)) :
    Best x idx (fun l q => S l q ∨ S (perm l) q) (imaxStepNeon perm s) l := by
  obtain ⟨p, a1, a2, a3, a4⟩ := h1
  obtain ⟨p', b1, b2, b3, b4⟩ := h2
  unfold Best imaxStepNeon
  by_cases hc : Arith.gt (s.1 l) (s.1 (perm l)) = true
  · refine ⟨p, Or.inl a1, if_pos hc |>.trans a2, if_pos hc |>.trans a3, ?_⟩
    have := (hgt _ _).1 hc
    rw [a2, b2] at this
    rintro q (hq | hq)
    · exact a4 q hq
    · exact le_trans (b4 q hq) (le_of_lt this)
  · refine ⟨p', Or.inr b1, if_neg hc |>.trans b2, if_neg hc |>.trans b3, ?_⟩
    have : ¬ _ := fun h => hc ((hgt _ _).2 h)
    rw [a2, b2] at this
    rintro q (hq | hq)
    · exact le_trans (a4 q hq) (not_lt.1 this)
    · exact b4 q hq

private theorem best_init [LinearOrder V] (x : Nat → V) (idx : Nat → Int) (l : Nat) :
    Best x idx (fun l q => q = l) (x, idx) l := ⟨l, rfl, rfl, rfl, by rintro q rfl; exact le_refl _⟩

/-- `r` has in every lane `< n` the maximum of the first `n` entries of `x` and the index of an entry attaining it -/
def IsImax [LinearOrder V] (n : Nat) (x : Nat → V) (idx : Nat → Int) (r : IVec V) : Prop :=
  ∀ l, l < n → ∃ p, p < n ∧ r.1 l = x p ∧ r.2 l = idx p ∧ ∀ q, q < n → x q ≤ x p

/-- **C26**. On all four implementations every lane of the result is the maximum together with the index of a
lane attaining it. -/
theorem C26_imax [LinearOrder V] [Arith V] (hgt : ∀ a b : V, Arith.gt a b = true ↔ b < a) (x : Nat → V)
    (idx : Nat → Int) :
    IsImax 8 x idx (imaxAvxFloat x idx) ∧ IsImax 4 x idx (imaxAvxDouble x idx) ∧
    IsImax 4 x idx (imaxNeonFloat x idx) ∧ IsImax 2 x idx (imaxNeonDouble x idx) := by
  have fin : ∀ (n : Nat) (S : Nat → Nat → Prop) (r : IVec V), (∀ l, l < n → Best x idx S r l) →
      (∀ l, l < n → ∀ q, S l q ↔ q < n) → IsImax n x idx r := by
    intro n S r h1 h2 l hl
    obtain ⟨p, a1, a2, a3, a4⟩ := h1 l hl
    exact ⟨p, (h2 l hl p).1 a1, a2, a3, fun q hq => a4 q ((h2 l hl q).2 hq)⟩
  have i := best_init x idx
  refine ⟨?_, ?_, ?_, ?_⟩
  · refine fin 8 _ _ (fun l hl => best_avx hgt (best_avx hgt (best_avx hgt (i _) (i _)) (best_avx hgt (i _) (i _)))
      (best_avx hgt (best_avx hgt (i _) (i _)) (best_avx hgt (i _) (i _)))) ?_
    intro l hl q
    have : l = 0 ∨ l = 1 ∨ l = 2 ∨ l = 3 ∨ l = 4 ∨ l = 5 ∨ l = 6 ∨ l = 7 := by omega
    rcases this with rfl | rfl | rfl | rfl | rfl | rfl | rfl | rfl <;> simp [permA, permB, permC] <;> omega
  · refine fin 4 _ _ (fun l hl => best_avx hgt (best_avx hgt (i _) (i _)) (best_avx hgt (i _) (i _))) ?_
    intro l hl q
    have : l = 0 ∨ l = 1 ∨ l = 2 ∨ l = 3 := by omega
    rcases this with rfl | rfl | rfl | rfl <;> simp [permA, permD] <;> omega
  · refine fin 4 _ _ (fun l hl => best_neon hgt (best_neon hgt (i _) (i _)) (best_neon hgt (i _) (i _))) ?_
    intro l hl q
    have : l = 0 ∨ l = 1 ∨ l = 2 ∨ l = 3 := by omega
    rcases this with rfl | rfl | rfl | rfl <;> simp [rotLanes] <;> omega
  · refine fin 2 _ _ (fun l hl => best_neon hgt (i _) (i _)) ?_
    intro l hl q
    have : l = 0 ∨ l = 1 := by omega
    rcases this with rfl | rfl <;> simp [rotLanes] <;> omega

/-- **C26**, unique maximum: if the maximum is attained only in lane `p`, every lane of the result holds
`(x p, idx p)`. -/
theorem C26_imax_unique [LinearOrder V] {n : Nat} {x : Nat → V} {idx : Nat → Int} {r : IVec V}
    (h : IsImax n x idx r) {p : Nat} (hp : p < n) (hmax : ∀ q, q < n → q ≠ p → x q < x p) (l : Nat) (hl : l < n) :
    r.1 l = x p ∧ r.2 l = idx p := by
  obtain ⟨p', h1, h2, h3, h4⟩ := h l hl
  by_cases he : p' = p
  · subst he; exact ⟨h2, h3⟩
  · exact absurd (h4 p hp) (not_le.2 (hmax p' h1 he))

/-- **C26**, ties: the documentation of `imax` promises the same index in all lanes. That is false when the maximum
is attained twice: for two equal lanes the lanes of the result carry different indices (AVX2 and NEON64). -/
theorem C26_imax_tie_lanes_differ :
    (imaxNeonDouble (fun _ => (5 : Rat)) (fun l => l)).2 0 ≠ (imaxNeonDouble (fun _ => (5 : Rat)) (fun l => l)).2 1 ∧
    (imaxAvxDouble (fun _ => (5 : Rat)) (fun l => l)).2 0 ≠ (imaxAvxDouble (fun _ => (5 : Rat)) (fun l => l)).2 1 := by
  constructor <;> decide

example : ∀ a b : Rat, Arith.gt a b = true ↔ b < a := ExactOrd.gt_iff

end Blast
