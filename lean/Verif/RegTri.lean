import Verif.RegLemmas
/-
Register-level triangular solve and Cholesky factorization: element-level results, no algebraic laws.
-/
set_option linter.unusedSectionVars false
namespace Blast
open Prog
variable {V : Type} [Arith V]

/-- `((c - a₀·x₀) - a₁·x₁) - …`, each step a fused negative multiply-add, `K` terms in order. -/
def fnmaSum (a x : Nat → V) (c : V) : Nat → V
  | 0 => c
  | k + 1 => Arith.fnma (a k) (x k) (fnmaSum a x c k)

theorem fnmaSum_congr {a a' b b' : Nat → V} {c c' : V} (hc : c = c') (K : Nat)
    (ha : ∀ k, k < K → a k = a' k) (hb : ∀ k, k < K → b k = b' k) :
    fnmaSum a b c K = fnmaSum a' b' c' K := by
  induction K with
  | zero => exact hc
  | succ K ih =>
    simp only [fnmaSum]
    rw [ih (fun k hk => ha k (by omega)) (fun k hk => hb k (by omega)), ha K (by omega), hb K (by omega)]

namespace Reg

/-- elements of column `j` of rows of index `≥ SS * lo` are replaced by `f a (old value)` -/
theorem reads_mapCol {RM : Nat} {g : Nat → Bool} {j : Nat} {f : Nat → Vec V → Vec V} {r : Reg V} {m : Mem V} :
    ReadsQ (forRows RM g j (fun i v => pure (f i v)) r) m (fun r' =>
      (∀ i, i < RM → g i = true → r' i j = f i (r i j)) ∧
      (∀ i j', ¬ (j' = j ∧ i < RM ∧ g i = true) → r' i j' = r i j')) :=
  readsQ_forRows (fun i v => v = f i (r i j)) (fun i _ _ => readsQ_pure rfl)

/-- `trsm(Right, Upper)`: every row of the result is the forward substitution with the columns of A. Only the upper
triangle of A (with the diagonal) is read. -/
theorem reads_trsmRU {SS RM N : Nat} (hSS : 0 < SS) {A : MPtr} {m : Mem V} {r : Reg V} {a : Nat → Nat → V}
    (hA : ∀ k j : Nat, k ≤ j → j < N → m (A.addr SS k j) = some (a k j)) :
    ReadsQ (r.trsmRU SS RM N A) m (fun r' => ∀ i j : Nat, i < RM * SS → j < N →
      r'.el SS i j = Arith.div (fnmaSum (fun k => a k j) (fun k => r'.el SS i k) (r.el SS i j) j) (a j j)) := by
  unfold trsmRU forCols
  refine (readsQ_foldN (I := fun n (r' : Reg V) =>
    (∀ i j : Nat, i < RM → j < n → ∀ l, r' i j l = Arith.div (fnmaSum (fun k => a k j) (fun k => r' i k l)
      (r i j l) j) (a j j)) ∧ (∀ i j, n ≤ j → r' i j = r i j)) ?_ ?_).mono ?_
  · exact ⟨fun i j _ hj => by omega, fun i j _ => rfl⟩
  · rintro j s hj ⟨h1, h2⟩
    rw [if_pos rfl]
    refine ReadsQ.bind (Q := fun t : Reg V => (∀ i, i < RM → ∀ l, t i j l =
        fnmaSum (fun k => a k j) (fun k => s i k l) (r i j l) j) ∧ (∀ i j', j' ≠ j → t i j' = s i j')) ?_ ?_
    · refine readsQ_foldN (I := fun n (t : Reg V) => (∀ i, i < RM → ∀ l, t i j l =
        fnmaSum (fun k => a k j) (fun k => s i k l) (r i j l) n) ∧ (∀ i j', j' ≠ j → t i j' = s i j')) ?_ ?_
      · exact ⟨fun i _ l => by rw [h2 i j (by omega)]; rfl, fun i j' _ => rfl⟩
      · rintro k t hk ⟨h3, h4⟩
        refine Reads.bindQ (reads_read (hA k j (by omega) hj)) ?_
        refine reads_mapCol.mono ?_
        rintro t' ⟨h5, h6⟩
        refine ⟨fun i hi l => ?_, fun i j' hj' => ?_⟩
        · rw [h5 i hi rfl]; dsimp only; rw [h3 i hi l, h4 i k (by omega)]; rfl
        · rw [h6 i j' (fun hh => hj' hh.1)]; exact h4 i j' hj'
    · rintro t ⟨h3, h4⟩
      refine Reads.bindQ (reads_read (hA j j (by omega) hj)) ?_
      refine reads_mapCol.mono ?_
      rintro t' ⟨h5, h6⟩
      have h7 : ∀ i j', j' ≠ j → t' i j' = s i j' := by
        intro i j' hj'
        rw [h6 i j' (fun hh => hj' hh.1), h4 i j' hj']
      have h8 : ∀ i j' l c, j' ≤ j → fnmaSum (fun k => a k j') (fun k => t' i k l) c j' =
          fnmaSum (fun k => a k j') (fun k => s i k l) c j' := fun i j' l c hle =>
        fnmaSum_congr rfl _ (fun _ _ => rfl) (fun k hk => by rw [h7 i k (by omega)])
      refine ⟨fun i j' hi hj' l => ?_, fun i j' hj' => ?_⟩
      · rw [h8 i j' l _ (by omega)]
        by_cases he : j' = j
        · subst he
          rw [h5 i hi rfl]; dsimp only; rw [h3 i hi l]
        · rw [h7 i j' he, h1 i j' hi (by omega) l]
      · rw [h7 i j' (by omega)]; exact h2 i j' (by omega)
  · rintro r' ⟨h1, _⟩ i j hi hj
    obtain ⟨h3, _, _⟩ := idx_split hSS hi
    exact h1 _ j h3 hj _

/-- `potrf()`: the elements in SIMD rows from the diagonal block on obey the Cholesky recurrence (both sides refer to
the final values); SIMD rows above the diagonal block are zeroed. -/
theorem reads_potrf {SS RM N : Nat} (hSS : 0 < SS) {m : Mem V} {r : Reg V} (hN : N ≤ RM * SS) :
    ReadsQ (r.potrf SS RM N) m (fun r' => ∀ i k : Nat, i < RM * SS → k < N →
      (k / SS ≤ i / SS → r'.el SS i k = Arith.div
        (fnmaSum (fun j => r'.el SS k j) (fun j => r'.el SS i j) (r.el SS i k) k)
        (Arith.sqrt (fnmaSum (fun j => r'.el SS k j) (fun j => r'.el SS k j) (r.el SS k k) k))) ∧
      (i / SS < k / SS → r'.el SS i k = Arith.zero)) := by
  unfold potrf forCols
  let P : Reg V → Nat → Nat → Nat → Prop := fun r' i k l =>
      (k / SS ≤ i → r' i k l = Arith.div
        (fnmaSum (fun j => r'.el SS k j) (fun j => r' i j l) (r i k l) k)
        (Arith.sqrt (fnmaSum (fun j => r'.el SS k j) (fun j => r'.el SS k j) (r.el SS k k) k))) ∧
      (i < k / SS → r' i k l = Arith.zero)
  refine (readsQ_foldN (I := fun n (r' : Reg V) =>
    (∀ i k : Nat, i < RM → k < n → ∀ l, P r' i k l) ∧ (∀ i k, n ≤ k → r' i k = r i k)) ?_ ?_).mono ?_
  · exact ⟨fun i j _ hj => by omega, fun i j _ => rfl⟩
  · rintro k s hk ⟨h1, h2⟩
    rw [if_pos rfl]
    have hkR : k / SS < RM := (idx_split hSS (show k < RM * SS by omega)).1
    refine ReadsQ.bind (Q := fun t : Reg V => (∀ i, i < RM → k / SS ≤ i → ∀ l, t i k l =
        fnmaSum (fun j => s.el SS k j) (fun j => s i j l) (r i k l) k) ∧ (∀ i j', j' ≠ k → t i j' = s i j')) ?_ ?_
    · refine readsQ_foldN (I := fun n (t : Reg V) => (∀ i, i < RM → k / SS ≤ i → ∀ l, t i k l =
        fnmaSum (fun j => s.el SS k j) (fun j => s i j l) (r i k l) n) ∧ (∀ i j', j' ≠ k → t i j' = s i j')) ?_ ?_
      · exact ⟨fun i _ _ l => by rw [h2 i k (by omega)]; rfl, fun i j' _ => rfl⟩
      · rintro j t hj ⟨h3, h4⟩
        refine reads_mapCol.mono ?_
        rintro t' ⟨h5, h6⟩
        refine ⟨fun i hi hki l => ?_, fun i j' hj' => ?_⟩
        · rw [h5 i hi (by simpa using hki)]; dsimp only; rw [h3 i hi hki l, h4 i j (by omega), h4 _ j (by omega)]; rfl
        · rw [h6 i j' (fun hh => hj' hh.1)]; exact h4 i j' hj'
    · rintro t ⟨h3, h4⟩
      refine reads_mapCol.mono ?_
      rintro t' ⟨h5, h6⟩
      have h7 : ∀ i j', j' ≠ k → t' i j' = s i j' := by
        intro i j' hj'
        rw [h6 i j' (fun hh => hj' hh.1), h4 i j' hj']
      have h8 : ∀ c j', j' ≠ k → t'.el SS c j' = s.el SS c j' := by
        intro c j' hj'; unfold el; rw [h7 _ j' hj']
      have h9 : ∀ i j' l c, j' ≤ k → fnmaSum (fun j => t'.el SS j' j) (fun j => t' i j l) c j' =
          fnmaSum (fun j => s.el SS j' j) (fun j => s i j l) c j' := fun i j' l c hle =>
        fnmaSum_congr rfl _ (fun q hq => h8 j' q (by omega)) (fun q hq => by rw [h7 i q (by omega)])
      have h10 : ∀ j' c, j' ≤ k → fnmaSum (fun j => t'.el SS j' j) (fun j => t'.el SS j' j) c j' =
          fnmaSum (fun j => s.el SS j' j) (fun j => s.el SS j' j) c j' := fun j' c hle =>
        fnmaSum_congr rfl _ (fun q hq => h8 j' q (by omega)) (fun q hq => h8 j' q (by omega))
      refine ⟨fun i j' hi hj' l => ?_, fun i j' hj' => ?_⟩
      · by_cases he : j' = k
        · subst he
          constructor
          · intro hki
            rw [h5 i hi rfl]
            dsimp only
            rw [if_neg (by omega), h3 i hi hki l, h3 _ hkR (by omega)]
            rw [h9 i j' l _ (by omega), h10 j' _ (by omega)]
            rfl
          · intro hki
            rw [h5 i hi rfl]
            dsimp only
            rw [if_pos hki]
        · obtain ⟨h11, h12⟩ := h1 i j' hi (by omega) l
          constructor
          · intro hki
            rw [h7 i j' he, h11 hki, h9 i j' l _ (by omega), h10 j' _ (by omega)]
          · intro hki
            rw [h7 i j' he, h12 hki]
      · rw [h7 i j' (by omega)]; exact h2 i j' (by omega)
  · rintro r' ⟨h1, _⟩ i k hi hk
    obtain ⟨h3, _, _⟩ := idx_split hSS hi
    exact h1 _ k h3 hk _

end Reg
end Blast
