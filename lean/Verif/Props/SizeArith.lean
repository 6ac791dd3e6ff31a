import Verif.SizeArith
/- Concrete cases meeting the hypotheses of these theorems: Verif/Cases/Storage.lean, and the examples in this file. -/
/-
Property C64: size computations in `std::size_t`.
-/
set_option linter.unusedSectionVars false
namespace Blast

/-- the same object in the model with unbounded integers -/
def DynObj.container (o : DynObj) : Container := ⟨if o.panel then .dynPanel else .dynDense, o.so, o.m.toNat, o.n.toNat, 0⟩

/-- Every element has its own place in the array: `elementIndex(i, j)` is below the number of elements allocated, and different for different elements. -/
def DynObj.Sound (SS : UInt64) (o : DynObj) : Prop :=
  ∀ i j, i < o.m → j < o.n → o.elementIndexW SS i j < o.count ∧
    ∀ i' j', i' < o.m → j' < o.n → o.elementIndexW SS i j = o.elementIndexW SS i' j' → i = i' ∧ j = j'

theorem ofNat_toNat' (a : UInt64) : UInt64.ofNat a.toNat = a := UInt64.ofNat_toNat

theorem ofNat_div' (a b : UInt64) : a / b = UInt64.ofNat (a.toNat / b.toNat) := by
  apply UInt64.toNat_inj.1
  rw [UInt64.toNat_div, UInt64.toNat_ofNat']
  exact (Nat.mod_eq_of_lt (Nat.lt_of_le_of_lt (Nat.div_le_self _ _) a.toNat_lt)).symm

theorem ofNat_mod' (a b : UInt64) : a % b = UInt64.ofNat (a.toNat % b.toNat) := by
  apply UInt64.toNat_inj.1
  rw [UInt64.toNat_mod, UInt64.toNat_ofNat']
  exact (Nat.mod_eq_of_lt (Nat.lt_of_le_of_lt (Nat.mod_le _ _) a.toNat_lt)).symm

theorem nextMultipleW_eq (v f : UInt64) (hf : 0 < f) : nextMultipleW v f = UInt64.ofNat (nextMultiple v.toNat f.toNat) := by
  have hf' : 0 < f.toNat := UInt64.lt_iff_toNat_lt.1 hf
  have hlt := Nat.mod_lt v.toNat hf'
  unfold nextMultipleW nextMultiple
  rw [UInt64.ofNat_add, ofNat_toNat', ofNat_mod' (f - v % f)]
  congr 3
  rw [UInt64.toNat_sub_of_le, UInt64.toNat_mod]
  rw [UInt64.le_iff_toNat_le, UInt64.toNat_mod]
  omega

theorem constructW_eq {esz limit : Nat} {SS : UInt64} {panel : Bool} {so : SO} {m n : UInt64} (hSS : 0 < SS) :
    constructW esz limit SS panel so m n =
      if (UInt64.ofNat ((DynObj.container ⟨panel, so, m, n, 0, 0⟩).capacity SS.toNat)).toNat * esz ≤ limit then
        some ⟨panel, so, m, n, UInt64.ofNat ((DynObj.container ⟨panel, so, m, n, 0, 0⟩).spacing SS.toNat),
          UInt64.ofNat ((DynObj.container ⟨panel, so, m, n, 0, 0⟩).capacity SS.toNat)⟩
      else none := by
  unfold constructW newArray
  cases panel <;> cases so <;>
    simp only [DynObj.container, Container.capacity, Container.spacing, Container.isPanel, Container.majorSize, Container.minorSize, if_true, if_false,
      Bool.false_eq_true, nextMultipleW_eq _ _ hSS, UInt64.ofNat_mul, ofNat_toNat'] <;>
    exact apply_ite (Option.map _) _ _ _

theorem elementIndexW_eq {SS : UInt64} {o : DynObj} (hs : o.spacing = UInt64.ofNat (o.container.spacing SS.toNat)) (i j : UInt64) :
    o.elementIndexW SS i j = UInt64.ofNat (o.container.elementIndex SS.toNat i.toNat j.toNat) := by
  obtain ⟨panel, so, m, n, spacing, count⟩ := o
  dsimp only at hs
  unfold DynObj.elementIndexW
  dsimp only
  rw [hs]
  cases panel <;> cases so <;>
    simp only [DynObj.container, Container.elementIndex, Container.isPanel, if_true, if_false, Bool.false_eq_true, UInt64.ofNat_mul, UInt64.ofNat_add, ofNat_toNat',
      ← ofNat_div', ← ofNat_mod']


theorem constructW_some {esz limit : Nat} {SS : UInt64} {panel : Bool} {so : SO} {m n : UInt64} {o : DynObj} (hSS : 0 < SS)
    (h : constructW esz limit SS panel so m n = some o) :
    o.panel = panel ∧ o.so = so ∧ o.m = m ∧ o.n = n ∧ o.spacing = UInt64.ofNat (o.container.spacing SS.toNat) ∧
      o.count = UInt64.ofNat (o.container.capacity SS.toNat) ∧ o.count.toNat * esz ≤ limit := by
  rw [constructW_eq hSS] at h
  split at h
  · rename_i hl
    injection h with h
    subst h
    exact ⟨rfl, rfl, rfl, rfl, rfl, rfl, hl⟩
  · cases h

/-- **C64** (no wrap-around). If the number of elements to allocate, as an unbounded integer, is below 2^64, then `DynamicMatrix(m, n)` or `DynamicPanelMatrix(m, n)`
fails exactly if that number times `sizeof(T)` exceeds the limit; otherwise it allocates exactly that number of elements, and every element -
padding included - has its own place in the array, the one the model with unbounded integers gives it. -/
theorem C64_construct_sound {esz limit : Nat} {SS : UInt64} {panel : Bool} {so : SO} {m n : UInt64} (hSS : 0 < SS) {c : Container}
    (hc : c = ⟨if panel then .dynPanel else .dynDense, so, m.toNat, n.toNat, 0⟩) (h : c.capacity SS.toNat < 2 ^ 64) :
    (c.capacity SS.toNat * esz ≤ limit ∨ constructW esz limit SS panel so m n = none) ∧
    (c.capacity SS.toNat * esz ≤ limit → ∃ o, constructW esz limit SS panel so m n = some o ∧ o.m = m ∧ o.n = n ∧
      o.count.toNat = c.capacity SS.toNat ∧ o.Sound SS ∧
      (∀ i j, i < m → j < n → (o.elementIndexW SS i j).toNat = c.elementIndex SS.toNat i.toNat j.toNat) ∧
      (∀ i j : UInt64, c.maj i.toNat j.toNat < nextMultiple c.majorSize SS.toNat → c.min' i.toNat j.toNat < c.minorSize →
        o.elementIndexW SS i j < o.count)) := by
  have hSS' : 0 < SS.toNat := UInt64.lt_iff_toNat_lt.1 hSS
  subst hc
  have hcap : (UInt64.ofNat ((DynObj.container ⟨panel, so, m, n, 0, 0⟩).capacity SS.toNat)).toNat =
      (DynObj.container ⟨panel, so, m, n, 0, 0⟩).capacity SS.toNat := by
    rw [UInt64.toNat_ofNat']; exact Nat.mod_eq_of_lt h
  rw [constructW_eq hSS, hcap]
  constructor
  · by_cases hl : (DynObj.container ⟨panel, so, m, n, 0, 0⟩).capacity SS.toNat * esz ≤ limit
    · exact Or.inl hl
    · exact Or.inr (if_neg hl)
  · intro hl
    refine ⟨_, if_pos hl, rfl, rfl, hcap, ?_, ?_, ?_⟩
    all_goals
      generalize ho : (⟨panel, so, m, n, UInt64.ofNat ((DynObj.container ⟨panel, so, m, n, 0, 0⟩).spacing SS.toNat),
        UInt64.ofNat ((DynObj.container ⟨panel, so, m, n, 0, 0⟩).capacity SS.toNat)⟩ : DynObj) = o
      have hco : DynObj.container ⟨panel, so, m, n, 0, 0⟩ = o.container := by rw [← ho]; rfl
      have hm : o.m = m := by rw [← ho]
      have hn : o.n = n := by rw [← ho]
      have hs : o.spacing = UInt64.ofNat (o.container.spacing SS.toNat) := by rw [← hco, ← ho]
      have hct : o.count.toNat = o.container.capacity SS.toNat := by rw [← hco, ← hcap, ← ho]
      have hlt : ∀ i j : UInt64, o.container.maj i.toNat j.toNat < nextMultiple o.container.majorSize SS.toNat → o.container.min' i.toNat j.toNat < o.container.minorSize →
          (o.elementIndexW SS i j).toNat = o.container.elementIndex SS.toNat i.toNat j.toNat ∧
          o.container.elementIndex SS.toNat i.toNat j.toNat < o.container.capacity SS.toNat := by
        intro i j h1 h2
        have h3 := o.container.elementIndex_lt hSS' h1 h2
        refine ⟨?_, h3⟩
        rw [elementIndexW_eq hs, UInt64.toNat_ofNat']
        have : o.container.capacity SS.toNat < 2 ^ 64 := by rw [← hco]; exact h
        exact Nat.mod_eq_of_lt (by omega)
      have hin : ∀ i j, i < m → j < n → o.container.maj i.toNat j.toNat < nextMultiple o.container.majorSize SS.toNat ∧ o.container.min' i.toNat j.toNat < o.container.minorSize :=
        fun i j hi hj => o.container.maj_lt hSS' (by rw [← hco]; exact UInt64.lt_iff_toNat_lt.1 hi) (by rw [← hco]; exact UInt64.lt_iff_toNat_lt.1 hj)
    · intro i j hi hj
      rw [hm] at hi; rw [hn] at hj
      obtain ⟨a1, a2⟩ := hin i j hi hj
      obtain ⟨b1, b2⟩ := hlt i j a1 a2
      refine ⟨by rw [UInt64.lt_iff_toNat_lt, b1, hct]; exact b2, fun i' j' hi' hj' he => ?_⟩
      rw [hm] at hi'; rw [hn] at hj'
      obtain ⟨a1', a2'⟩ := hin i' j' hi' hj'
      have he' := congrArg UInt64.toNat he
      rw [b1, (hlt i' j' a1' a2').1] at he'
      obtain ⟨q1, q2⟩ := o.container.elementIndex_inj hSS' a1 a2 a1' a2' he'
      exact ⟨UInt64.toNat_inj.1 q1, UInt64.toNat_inj.1 q2⟩
    · intro i j hi hj
      obtain ⟨a1, a2⟩ := hin i j hi hj
      have := (hlt i j a1 a2).1
      rw [← hco] at this
      exact this
    · intro i j h1 h2
      have e : (⟨if panel then .dynPanel else .dynDense, so, m.toNat, n.toNat, 0⟩ : Container) = o.container := hco
      rw [e] at h1 h2
      obtain ⟨b1, b2⟩ := hlt i j h1 h2
      rw [UInt64.lt_iff_toNat_lt, b1, hct]; exact b2

/-- an element given by its position along and across the contiguous direction -/
theorem DynObj.pick (o : DynObj) {a b : Nat} (ha : a < o.container.majorSize) (hb : b < o.container.minorSize) :
    ∃ i j, i < o.m ∧ j < o.n ∧ o.container.maj i.toNat j.toNat = a ∧ o.container.min' i.toNat j.toNat = b := by
  obtain ⟨panel, so, m, n, sp, ct⟩ := o
  have key : ∀ (x : Nat) (k : UInt64), x < k.toNat → (UInt64.ofNat x).toNat = x := fun x k h => by
    rw [UInt64.toNat_ofNat']; exact Nat.mod_eq_of_lt (Nat.lt_trans h k.toNat_lt)
  cases so
  · have ha' : a < n.toNat := ha
    have hb' : b < m.toNat := hb
    refine ⟨UInt64.ofNat b, UInt64.ofNat a, ?_, ?_, key a n ha', key b m hb'⟩
    · rw [UInt64.lt_iff_toNat_lt, key b m hb']; exact hb'
    · rw [UInt64.lt_iff_toNat_lt, key a n ha']; exact ha'
  · have ha' : a < m.toNat := ha
    have hb' : b < n.toNat := hb
    refine ⟨UInt64.ofNat a, UInt64.ofNat b, ?_, ?_, key a m ha', key b n hb'⟩
    · rw [UInt64.lt_iff_toNat_lt, key a m ha']; exact ha'
    · rw [UInt64.lt_iff_toNat_lt, key b n hb']; exact hb'

/-- **C64** (wrap-around is always fatal). Let `DynamicMatrix(m, n)` return, with SIMD width up to 2^62 (a power of two), elements of at least two bytes and arrays
of less than 2^63 bytes. The object has a place for each element exactly if it has no elements at all, or the padded number of elements is below
2^64. -/
theorem C64_dense_sound_iff {esz limit : Nat} {SS : UInt64} {so : SO} {m n : UInt64} {o : DynObj} (hSS : 0 < SS) (hpow : SS.toNat ∣ 2 ^ 62) (hesz : 2 ≤ esz)
    (hlim : limit < 2 ^ 63) (h : constructW esz limit SS false so m n = some o) {c : Container} (hc : c = ⟨.dynDense, so, m.toNat, n.toNat, 0⟩) :
    o.Sound SS ↔ m = 0 ∨ n = 0 ∨ nextMultiple c.majorSize SS.toNat * c.minorSize < 2 ^ 64 := by
  have hSS' : 0 < SS.toNat := UInt64.lt_iff_toNat_lt.1 hSS
  obtain ⟨e1, e2, e3, e4, e5, e6, e7⟩ := constructW_some hSS h
  have hoc : c = o.container := by unfold DynObj.container; rw [e1, e2, e3, e4, hc]; rfl
  have hm64 : o.container.majorSize < 2 ^ 64 ∧ (0 < m.toNat → 0 < n.toNat → 0 < o.container.majorSize ∧ 0 < o.container.minorSize) := by
    rw [← hoc, hc]
    cases so
    · exact ⟨n.toNat_lt, fun h1 h2 => ⟨h2, h1⟩⟩
    · exact ⟨m.toNat_lt, fun h1 h2 => ⟨h1, h2⟩⟩
  rw [hoc]
  have hpan : o.container.isPanel = false := by unfold DynObj.container Container.isPanel; rw [e1]; rfl
  have hcap : o.container.capacity SS.toNat = nextMultiple o.container.majorSize SS.toNat * o.container.minorSize := by
    unfold Container.capacity Container.spacing
    rw [if_neg (by simp [hpan])]
    unfold DynObj.container
    rw [e1]; rfl
  constructor
  · intro hsound
    by_cases hm : m = 0
    · exact Or.inl hm
    by_cases hn : n = 0
    · exact Or.inr (Or.inl hn)
    refine Or.inr (Or.inr ?_)
    have hm0 : 0 < m.toNat := Nat.pos_of_ne_zero (fun h0 => hm (UInt64.toNat_inj.1 h0))
    have hn0 : 0 < n.toNat := Nat.pos_of_ne_zero (fun h0 => hn (UInt64.toNat_inj.1 h0))
    obtain ⟨hmaj0, hmin0⟩ := hm64.2 hm0 hn0
    have hmaj64 := hm64.1
    obtain ⟨n1, n2, n3⟩ := nextMultiple_spec o.container.majorSize hSS'
    have hSSle : SS.toNat ≤ 2 ^ 62 := Nat.le_of_dvd (by decide) hpow
    have hct : o.count.toNat < 2 ^ 62 := by
      have := Nat.mul_le_mul_left o.count.toNat hesz
      omega
    -- an element outside of the array
    have out : ∀ a b, a < o.container.majorSize → b < o.container.minorSize →
        (a + b * nextMultiple o.container.majorSize SS.toNat) % 2 ^ 64 < o.count.toNat := by
      intro a b ha hb
      obtain ⟨i, j, hi, hj, q1, q2⟩ := o.pick ha hb
      have := (hsound i j hi hj).1
      rw [UInt64.lt_iff_toNat_lt, elementIndexW_eq e5, UInt64.toNat_ofNat', Container.elementIndex_dense hpan, q1, q2] at this
      exact this
    refine Nat.lt_of_not_le (fun hge => ?_)
    rw [e6, hcap, UInt64.toNat_ofNat'] at out hct
    generalize nextMultiple o.container.majorSize SS.toNat = sp at *
    by_cases hsp : 2 ^ 64 ≤ sp
    · -- the spacing wraps around
      have hsp' : sp = 2 ^ 64 := by
        have h64 : SS.toNat ∣ 2 ^ 64 := Nat.dvd_trans hpow (by decide)
        have hd : SS.toNat ∣ sp - 2 ^ 64 := Nat.dvd_sub (Nat.dvd_of_mod_eq_zero n1) h64
        have hlt : sp - 2 ^ 64 < SS.toNat := by omega
        have := Nat.eq_zero_of_dvd_of_lt hd hlt
        omega
      have := out 0 0 hmaj0 hmin0
      rw [hsp', Nat.mul_mod_right] at this
      exact Nat.not_lt_zero _ this
    · by_cases hbig : 2 ^ 63 < sp
      · have := out (o.container.majorSize - 1) 0 (by omega) hmin0
        rw [Nat.zero_mul, Nat.add_zero, Nat.mod_eq_of_lt (by omega)] at this
        omega
      · have hsp0 : 0 < sp := by omega
        have hdm := Nat.div_add_mod (2 ^ 63 + sp - 1) sp
        have hml := Nat.mod_lt (2 ^ 63 + sp - 1) hsp0
        generalize (2 ^ 63 + sp - 1) / sp = q at *
        have hq : q < o.container.minorSize := by
          apply Nat.lt_of_mul_lt_mul_left (a := sp)
          omega
        have := out 0 q hmaj0 hq
        rw [Nat.zero_add, Nat.mul_comm q sp, Nat.mod_eq_of_lt (by omega)] at this
        omega
  · intro hor
    by_cases hlt : o.container.capacity SS.toNat < 2 ^ 64
    · obtain ⟨_, q⟩ := C64_construct_sound (esz := esz) (limit := limit) (panel := false) (so := so) (m := m) (n := n) hSS (c := o.container)
        (by unfold DynObj.container; rw [e1, e2, e3, e4]) hlt
      have hl : o.container.capacity SS.toNat * esz ≤ limit := by
        rw [e6, UInt64.toNat_ofNat', Nat.mod_eq_of_lt hlt] at e7; exact e7
      obtain ⟨o', ho', _, _, _, hs, _⟩ := q hl
      rw [h] at ho'
      injection ho' with ho'
      rw [ho']; exact hs
    · rcases hor with hm | hn | hx
      · intro i j hi; rw [e3, hm] at hi; exact absurd hi UInt64.not_lt_zero
      · intro i j _ hj; rw [e4, hn] at hj; exact absurd hj UInt64.not_lt_zero
      · rw [← hcap] at hx; exact absurd hx hlt

/-- **C64** (refuted without the bound). `DynamicMatrix<double>(2^32, 2^32)` (AVX2) returns an object without any storage; the same holds for
`DynamicPanelMatrix<double>(2^31, 2^31)`, although its elements would need only 2^65 bytes, and for `DynamicMatrix<double>(2^64-1, 5)`. -/
theorem C64_wrap_refuted :
    constructW 8 (2 ^ 63 - 1) 4 false .columnMajor 0x100000000 0x100000000 = some ⟨false, .columnMajor, 0x100000000, 0x100000000, 0x100000000, 0⟩ ∧
    constructW 8 (2 ^ 63 - 1) 4 true .columnMajor 0x80000000 0x80000000 = some ⟨true, .columnMajor, 0x80000000, 0x80000000, 0x200000000, 0⟩ ∧
    constructW 8 (2 ^ 63 - 1) 4 false .columnMajor 0xffffffffffffffff 5 = some ⟨false, .columnMajor, 0xffffffffffffffff, 5, 0, 0⟩ := by
  decide +kernel

/-- none of these objects has a place for its first element -/
theorem C64_wrap_unsound (o : DynObj) (SS : UInt64) (hm : 0 < o.m) (hn : 0 < o.n) (h : o.count = 0) : ¬ o.Sound SS := by
  intro hs
  have := (hs 0 0 hm hn).1
  rw [h] at this
  exact UInt64.not_lt_zero this

/-! ### The hypotheses are satisfiable -/

example : ∃ o, constructW 8 (2 ^ 63 - 1) 4 true .rowMajor 1000 700 = some o ∧ o.Sound 4 := by
  have := (C64_construct_sound (esz := 8) (limit := 2 ^ 63 - 1) (SS := 4) (panel := true) (so := .rowMajor) (m := 1000) (n := 700) (by decide) rfl (by decide +kernel)).2
    (by decide +kernel)
  obtain ⟨o, h1, _, _, _, h2, _⟩ := this
  exact ⟨o, h1, h2⟩

example : ∃ o, constructW 8 (2 ^ 63 - 1) 4 false .columnMajor 0x100000000 0x100000000 = some o ∧ ¬ o.Sound 4 := by
  refine ⟨_, C64_wrap_refuted.1, fun hs => ?_⟩
  rcases (C64_dense_sound_iff (by decide) (by decide) (by decide) (by decide) C64_wrap_refuted.1 rfl).1 hs with h | h | h
  · revert h; decide
  · revert h; decide
  · revert h; decide +kernel

end Blast
