import Verif.Complexity
import Mathlib.Data.UInt
import Mathlib.Algebra.BigOperators.Intervals
import Mathlib.Tactic.Ring
import Mathlib.Tactic.Linarith
/- Concrete cases meeting the hypotheses of these theorems: Verif/Cases/DynReg.lean, and the examples in this file. -/
/-
Property C61: operation counts of the benchmarks.
-/
namespace Blast
open Finset

/-! ### Specification: the textbook loops, counted -/

/-- Cholesky factorization of the lower trapezoid of an m-by-n matrix, column by column: for every column `k` and every earlier column `j`, the
elements `i = k, …, m-1` of column `k` are updated with one multiplication and one subtraction. -/
def potrfUpdates (m n : Nat) : Nat := ∑ k ∈ range n, ∑ _j ∈ range k, ∑ _i ∈ Ico k m, 1

/-- every column `k` is divided, from its diagonal element on -/
def potrfDivisions (m n : Nat) : Nat := ∑ k ∈ range n, ∑ _i ∈ Ico k m, 1

/-- `X*U = B` with B of size m-by-n and U upper triangular: for every column `j` and every earlier column `k`, all elements `i` are updated -/
def trsmUpdates (m n : Nat) : Nat := ∑ j ∈ range n, ∑ _k ∈ range j, ∑ _i ∈ range m, 1

/-- every element of X is divided once -/
def trsmDivisions (m n : Nat) : Nat := ∑ _j ∈ range n, ∑ _i ∈ range m, 1

/-- LU factorization of an m-by-n matrix: in step `k`, rows `i = k+1, …` are updated in columns `j = k+1, …` -/
def getrfUpdates (m n : Nat) : Nat := ∑ k ∈ range (min m n), ∑ _i ∈ Ico (k + 1) m, ∑ _j ∈ Ico (k + 1) n, 1

/-- in step `k` the elements below the pivot are divided -/
def getrfDivisions (m n : Nat) : Nat := ∑ k ∈ range (min m n), ∑ _i ∈ Ico (k + 1) m, 1

/-! ### Closed forms -/

theorem potrfUpdates_succ (m n : Nat) : potrfUpdates m (n + 1) = potrfUpdates m n + n * (m - n) := by
  unfold potrfUpdates; rw [sum_range_succ]; simp

theorem potrfDivisions_succ (m n : Nat) : potrfDivisions m (n + 1) = potrfDivisions m n + (m - n) := by
  unfold potrfDivisions; rw [sum_range_succ]; simp

theorem trsmUpdates_succ (m n : Nat) : trsmUpdates m (n + 1) = trsmUpdates m n + n * m := by
  unfold trsmUpdates; rw [sum_range_succ]; simp

theorem potrfUpdates_closed (m n : Nat) (h : n ≤ m) : (1 + 3 * m - 2 * n) * (n - 1) * n = 6 * potrfUpdates m n := by
  have key : ∀ n : Nat, n ≤ m → ((1 : ℤ) + 3 * m - 2 * n) * (n - 1) * n = 6 * (potrfUpdates m n : ℤ) := by
    intro n
    induction n with
    | zero => intro _; simp [potrfUpdates]
    | succ n ih =>
      intro h
      have e : (potrfUpdates m (n + 1) : ℤ) = potrfUpdates m n + n * ((m : ℤ) - n) := by
        rw [potrfUpdates_succ, Nat.cast_add, Nat.cast_mul, Nat.cast_sub (by omega)]
      rw [e, mul_add, ← ih (by omega)]
      push_cast; ring
  rcases Nat.eq_zero_or_pos n with rfl | hn
  · simp [potrfUpdates]
  · have e : (((1 + 3 * m - 2 * n) * (n - 1) * n : Nat) : ℤ) = ((1 : ℤ) + 3 * m - 2 * n) * (n - 1) * n := by
      rw [Nat.cast_mul, Nat.cast_mul, Nat.cast_sub (show 2 * n ≤ 1 + 3 * m by omega), Nat.cast_sub (show 1 ≤ n from hn)]
      push_cast; ring
    have : (((1 + 3 * m - 2 * n) * (n - 1) * n : Nat) : ℤ) = ((6 * potrfUpdates m n : Nat) : ℤ) := by rw [e, key n h]; push_cast; ring
    exact_mod_cast this

theorem potrfDivisions_closed (m n : Nat) (h : n ≤ m) : n * (1 + 2 * m - n) = 2 * potrfDivisions m n := by
  have key : ∀ n : Nat, n ≤ m → (n : ℤ) * ((1 : ℤ) + 2 * m - n) = 2 * (potrfDivisions m n : ℤ) := by
    intro n
    induction n with
    | zero => intro _; simp [potrfDivisions]
    | succ n ih =>
      intro h
      have e : (potrfDivisions m (n + 1) : ℤ) = potrfDivisions m n + ((m : ℤ) - n) := by
        rw [potrfDivisions_succ, Nat.cast_add, Nat.cast_sub (by omega)]
      rw [e, mul_add, ← ih (by omega)]
      push_cast; ring
  have e : ((n * (1 + 2 * m - n) : Nat) : ℤ) = (n : ℤ) * ((1 : ℤ) + 2 * m - n) := by
    rw [Nat.cast_mul, Nat.cast_sub (show n ≤ 1 + 2 * m by omega)]; push_cast; ring
  have : ((n * (1 + 2 * m - n) : Nat) : ℤ) = ((2 * potrfDivisions m n : Nat) : ℤ) := by rw [e, key n h]; push_cast; ring
  exact_mod_cast this

theorem trsmUpdates_closed (m n : Nat) : m * (n - 1) * n = 2 * trsmUpdates m n := by
  induction n with
  | zero => simp [trsmUpdates]
  | succ n ih =>
    rw [trsmUpdates_succ, Nat.mul_add 2, ← ih]
    cases n with
    | zero => simp
    | succ n => simp only [Nat.add_sub_cancel]; ring

theorem getrfDivisions_square (n : Nat) : n * (n - 1) = 2 * getrfDivisions n n := by
  have e : getrfDivisions n n = ∑ k ∈ range n, k := by
    unfold getrfDivisions
    rw [Nat.min_self, ← sum_range_reflect]
    refine sum_congr rfl (fun k hk => ?_)
    have := mem_range.1 hk
    simp; omega
  rw [e, Nat.mul_comm 2, sum_range_id_mul_two]

theorem sum_succ_mul (n : Nat) : 3 * ∑ k ∈ range n, (k + 1) * k = (n + 1) * (n - 1) * n := by
  induction n with
  | zero => simp
  | succ n ih =>
    rw [sum_range_succ, Nat.mul_add, ih]
    cases n with
    | zero => simp
    | succ n => simp only [Nat.add_sub_cancel]; ring

/-- what is reported for square matrices: every update, and every division once more -/
theorem getrfUpdates_square (n : Nat) : (2 + 2 * n) * (n - 1) * n = 6 * (getrfUpdates n n + getrfDivisions n n) := by
  have e : getrfUpdates n n + getrfDivisions n n = ∑ k ∈ range n, (k + 1) * k := by
    unfold getrfUpdates getrfDivisions
    rw [Nat.min_self, ← sum_add_distrib, ← sum_range_reflect]
    refine sum_congr rfl (fun k hk => ?_)
    have := mem_range.1 hk
    simp only [sum_const, Nat.card_Ico, nsmul_eq_mul, Nat.cast_id, mul_one]
    have h1 : n - (n - 1 - k + 1) = k := by omega
    rw [h1]; ring
  rw [e, show 6 = 2 * 3 from rfl, Nat.mul_assoc 2 3, sum_succ_mul]; ring

/-! ### Wrapping arithmetic -/

theorem ofNat_toNat (a : UInt64) : UInt64.ofNat a.toNat = a := UInt64.ofNat_toNat

theorem div_toNat (x : Nat) (d : UInt64) (h : x < 2 ^ 64) : (UInt64.ofNat x / d).toNat = x / d.toNat := by
  rw [UInt64.toNat_div, UInt64.toNat_ofNat', Nat.mod_eq_of_lt h]

theorem potrf_add_value {m n : UInt64} (h : n.toNat ≤ m.toNat) :
    (1 + 3 * m - 2 * n) * (n - 1) * n = UInt64.ofNat (6 * potrfUpdates m.toNat n.toNat) := by
  rw [← potrfUpdates_closed _ _ h]
  rcases Nat.eq_zero_or_pos n.toNat with h0 | h0
  · have : n = 0 := UInt64.toNat_inj.1 h0
    subst this; simp
  · rw [UInt64.ofNat_mul, UInt64.ofNat_mul, UInt64.ofNat_sub (by omega), UInt64.ofNat_sub (by omega), UInt64.ofNat_add, UInt64.ofNat_mul,
      UInt64.ofNat_mul, ofNat_toNat, ofNat_toNat]
    rfl

theorem potrf_div_value {m n : UInt64} (h : n.toNat ≤ m.toNat) :
    n * (1 + 2 * m - n) = UInt64.ofNat (2 * potrfDivisions m.toNat n.toNat) := by
  rw [← potrfDivisions_closed _ _ h, UInt64.ofNat_mul, UInt64.ofNat_sub (by omega), UInt64.ofNat_add, UInt64.ofNat_mul, ofNat_toNat, ofNat_toNat]
  rfl

theorem trsm_add_value (m n : UInt64) : m * (n - 1) * n = UInt64.ofNat (2 * trsmUpdates m.toNat n.toNat) := by
  rw [← trsmUpdates_closed]
  rcases Nat.eq_zero_or_pos n.toNat with h0 | h0
  · have : n = 0 := UInt64.toNat_inj.1 h0
    subst this; simp
  · rw [UInt64.ofNat_mul, UInt64.ofNat_mul, UInt64.ofNat_sub (by omega), ofNat_toNat, ofNat_toNat]
    rfl

theorem getrf_add_value (n : UInt64) : (2 - n + 3 * n) * (n - 1) * n = UInt64.ofNat (6 * (getrfUpdates n.toNat n.toNat + getrfDivisions n.toNat n.toNat)) := by
  rw [← getrfUpdates_square]
  rcases Nat.eq_zero_or_pos n.toNat with h0 | h0
  · have : n = 0 := UInt64.toNat_inj.1 h0
    subst this; simp
  · have e : 2 - n + 3 * n = 2 + 2 * n := by open scoped UInt64.CommRing in ring
    rw [e, UInt64.ofNat_mul, UInt64.ofNat_mul, UInt64.ofNat_sub (by omega), UInt64.ofNat_add, UInt64.ofNat_mul, ofNat_toNat]
    rfl

theorem getrf_div_value (n : UInt64) : n * (n - 1) = UInt64.ofNat (2 * getrfDivisions n.toNat n.toNat) := by
  rw [← getrfDivisions_square]
  rcases Nat.eq_zero_or_pos n.toNat with h0 | h0
  · have : n = 0 := UInt64.toNat_inj.1 h0
    subst this; simp
  · rw [UInt64.ofNat_mul, UInt64.ofNat_sub (by omega), ofNat_toNat]
    rfl

/-! ### Property C61 -/

/-- the entry `op` of a complexity table is the number `k` -/
def Reports (c : Complexity) (op : String) (k : Nat) : Prop := ∃ v, c.lookup op = some v ∧ v.toNat = k

/-- **C61** (Cholesky). For every m ≥ n for which six times the number of updates, and twice the number of divisions, fit into 64 bits, the reported numbers of
additions, multiplications, divisions and square roots are those of the textbook loops; for m < n the function throws. -/
theorem C61_potrf (m n : UInt64) :
    (m < n → complexityPotrf m n = none) ∧
    (n ≤ m → 6 * potrfUpdates m.toNat n.toNat < 2 ^ 64 → 2 * potrfDivisions m.toNat n.toNat < 2 ^ 64 →
      ∃ c, complexityPotrf m n = some c ∧ Reports c "add" (potrfUpdates m.toNat n.toNat) ∧ Reports c "mul" (potrfUpdates m.toNat n.toNat) ∧
        Reports c "div" (potrfDivisions m.toNat n.toNat) ∧ Reports c "sqrt" n.toNat) := by
  refine ⟨fun h => if_pos h, fun h h6 h2 => ?_⟩
  have hn : ¬ m < n := UInt64.not_lt.2 h
  have hle : n.toNat ≤ m.toNat := UInt64.le_iff_toNat_le.1 h
  have ha : ((1 + 3 * m - 2 * n) * (n - 1) * n / 6).toNat = potrfUpdates m.toNat n.toNat := by
    rw [potrf_add_value hle, div_toNat _ _ h6]
    exact Nat.mul_div_cancel_left _ (by decide)
  have hd : (n * (1 + 2 * m - n) / 2).toNat = potrfDivisions m.toNat n.toNat := by
    rw [potrf_div_value hle, div_toNat _ _ h2]
    exact Nat.mul_div_cancel_left _ (by decide)
  exact ⟨_, if_neg hn, ⟨_, rfl, ha⟩, ⟨_, rfl, ha⟩, ⟨_, rfl, hd⟩, ⟨_, rfl, rfl⟩⟩

/-- **C61** (triangular solve). The reported numbers of additions and multiplications are those of the textbook loops. -/
theorem C61_trsm (m n : UInt64) (h : 2 * trsmUpdates m.toNat n.toNat < 2 ^ 64) :
    Reports (complexityTrsm m n) "add" (trsmUpdates m.toNat n.toNat) ∧ Reports (complexityTrsm m n) "mul" (trsmUpdates m.toNat n.toNat) := by
  have ha : (m * (n - 1) * n / 2).toNat = trsmUpdates m.toNat n.toNat := by
    rw [trsm_add_value, div_toNat _ _ h]
    exact Nat.mul_div_cancel_left _ (by decide)
  exact ⟨⟨_, rfl, ha⟩, ⟨_, rfl, ha⟩⟩

/-- **C61** (LU). For square matrices the reported number of divisions is that of the textbook loops; the reported numbers of additions and
multiplications exceed those of the textbook loops by the number of divisions. -/
theorem C61_getrf_square (n : UInt64) (h : 6 * (getrfUpdates n.toNat n.toNat + getrfDivisions n.toNat n.toNat) < 2 ^ 64) :
    Reports (complexityGetrf n n) "add" (getrfUpdates n.toNat n.toNat + getrfDivisions n.toNat n.toNat) ∧
    Reports (complexityGetrf n n) "mul" (getrfUpdates n.toNat n.toNat + getrfDivisions n.toNat n.toNat) ∧
    Reports (complexityGetrf n n) "div" (getrfDivisions n.toNat n.toNat) := by
  have e : complexityGetrf n n = complexityGetrf' n n := if_neg (UInt64.lt_irrefl n)
  have ha : ((2 - n + 3 * n) * (n - 1) * n / 6).toNat = getrfUpdates n.toNat n.toNat + getrfDivisions n.toNat n.toNat := by
    rw [getrf_add_value, div_toNat _ _ h]
    exact Nat.mul_div_cancel_left _ (by decide)
  have hd : (n * (n - 1) / 2).toNat = getrfDivisions n.toNat n.toNat := by
    rw [getrf_div_value, div_toNat _ _ (by omega)]
    exact Nat.mul_div_cancel_left _ (by decide)
  rw [e]
  exact ⟨⟨_, rfl, ha⟩, ⟨_, rfl, ha⟩, ⟨_, rfl, hd⟩⟩

/-- the two arguments of `complexityGetrf` may be exchanged -/
theorem C61_getrf_symmetric (m n : UInt64) : complexityGetrf m n = complexityGetrf n m := by
  unfold complexityGetrf
  by_cases h : m < n
  · rw [if_pos h, if_neg (UInt64.not_lt.2 (UInt64.le_of_lt h))]
  · rw [if_neg h]
    by_cases h' : n < m
    · rw [if_pos h']
    · rw [if_neg h']
      have : m = n := UInt64.le_antisymm (UInt64.not_lt.1 h') (UInt64.not_lt.1 h)
      rw [this]

/-- **C61** (rate). `setCounters` sets the counter "flops" to the number of additions plus the number of multiplications, every other operation `op` of the
table gets the counter "f.op", and no other counter changes. -/
theorem C61_setCounters (cs : Counters) (a m d s : UInt64) :
    setCounters cs [("add", a), ("mul", m), ("div", d), ("sqrt", s)] "flops" = some (a + m) ∧
    setCounters cs [("add", a), ("mul", m), ("div", d), ("sqrt", s)] "f.add" = some a ∧
    setCounters cs [("add", a), ("mul", m), ("div", d), ("sqrt", s)] "f.mul" = some m ∧
    setCounters cs [("add", a), ("mul", m), ("div", d), ("sqrt", s)] "f.div" = some d ∧
    setCounters cs [("add", a), ("mul", m), ("div", d), ("sqrt", s)] "f.sqrt" = some s ∧
    ∀ k, k ∉ ["flops", "f.add", "f.mul", "f.div", "f.sqrt"] →
      setCounters cs [("add", a), ("mul", m), ("div", d), ("sqrt", s)] k = cs k := by
  refine ⟨?_, ?_, ?_, ?_, ?_, ?_⟩
  · simp [setCounters, Counters.put, flopsOf, List.lookup]
  · simp [setCounters, Counters.put]
  · simp [setCounters, Counters.put]
  · simp [setCounters, Counters.put]
  · simp [setCounters, Counters.put]
  · intro k hk
    simp only [List.mem_cons, List.not_mem_nil, or_false, not_or] at hk
    simp [setCounters, Counters.put, hk]

/-- **C61** (refuted for the divisions of trsm). For a 1-by-4 right-hand side four divisions are made and 2^63 - 2 are reported. -/
theorem C61_trsm_div_refuted :
    ¬ ∀ m n : UInt64, 2 * trsmDivisions m.toNat n.toNat < 2 ^ 64 → Reports (complexityTrsm m n) "div" (trsmDivisions m.toNat n.toNat) := by
  intro h
  have h1 : trsmDivisions 1 4 = 4 := by decide
  obtain ⟨v, hv, e⟩ := h 1 4 (by rw [show (1 : UInt64).toNat = 1 from rfl, show (4 : UInt64).toNat = 4 from rfl, h1]; decide)
  have : (complexityTrsm 1 4).lookup "div" = some 9223372036854775806 := by decide
  rw [this] at hv
  obtain rfl := Option.some.inj hv
  rw [show (1 : UInt64).toNat = 1 from rfl, show (4 : UInt64).toNat = 4 from rfl, h1] at e
  exact absurd e (by decide)

/-- **C61** (refuted for the updates of getrf). A 6-by-1 matrix needs no update at all; more than 2^61 are reported. -/
theorem C61_getrf_rectangular_refuted :
    getrfUpdates 6 1 = 0 ∧ ∃ v, (complexityGetrf 6 1).lookup "add" = some v ∧ 2 ^ 61 < v.toNat := by
  refine ⟨by decide, 3074457345618258597, by decide, by decide⟩

/-- **C61** (refuted for square getrf). A 2-by-2 matrix needs one multiplication; two are reported. -/
theorem C61_getrf_square_refuted : getrfUpdates 2 2 = 1 ∧ Reports (complexityGetrf 2 2) "mul" 2 := by
  refine ⟨by decide, _, rfl, by decide⟩

/-- the hypotheses are met: a 1000-by-300 matrix -/
example : ∃ c, complexityPotrf 1000 300 = some c ∧ Reports c "add" 35894950 ∧ Reports c "div" 255150 := by
  have h6 := potrfUpdates_closed 1000 300 (by decide)
  have h2 := potrfDivisions_closed 1000 300 (by decide)
  obtain ⟨c, hc, ha, _, hd, _⟩ := (C61_potrf 1000 300).2 (by decide) (by
      rw [show (1000 : UInt64).toNat = 1000 from rfl, show (300 : UInt64).toNat = 300 from rfl, ← h6]; decide) (by
      rw [show (1000 : UInt64).toNat = 1000 from rfl, show (300 : UInt64).toNat = 300 from rfl, ← h2]; decide)
  rw [show (1000 : UInt64).toNat = 1000 from rfl, show (300 : UInt64).toNat = 300 from rfl] at ha hd
  rw [show potrfUpdates 1000 300 = 35894950 by omega] at ha
  rw [show potrfDivisions 1000 300 = 255150 by omega] at hd
  exact ⟨c, hc, ha, hd⟩

end Blast
