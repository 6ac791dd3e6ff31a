import Verif.Relations
import Verif.Props.FlushAgree
/-
C99 and C98 for the triangular solve with one right-hand side and for makePositiveDefinite: related arguments give related results; where nothing small is
rounded flush-to-zero changes nothing.
-/
set_option linter.unusedSectionVars false
namespace Blast
open Prog Reg

section
variable {V W : Type} [Arith V] [Arith W] {R : V → W → Prop}

/-- **C99** (trsv): the selected triangle of A and the right-hand side. -/
theorem C99_trsv (o : OpRel R) {SS SS' n : Nat} {uplo : UpLo} {m : Mem V} {m' : Mem W} {A A' : MPtr} {b x b' x' : VPtr} {a : Nat → Nat → V} {bv : Nat → V}
    {a' : Nat → Nat → W} {bv' : Nat → W} (h : TrsvReady SS n uplo m A b x a bv) (h' : TrsvReady SS' n uplo m' A' b' x' a' bv')
    (hra : ∀ i k, i < n → k < n → TriRef uplo false i k → R (a i k) (a' i k)) (hrb : ∀ i, i < n → R (bv i) (bv' i)) :
    ∃ m1 m1' f f', trsvPtr SS n uplo A b x m = .ok () m1 ∧ trsvPtr SS' n uplo A' b' x' m' = .ok () m1' ∧ VHolds SS m1 x n f ∧ VHolds SS' m1' x' n f' ∧
      ∀ i, i < n → R (f i) (f' i) := by
  obtain ⟨m1, e, e1, -⟩ := det_trsv h
  obtain ⟨m1', f, f1, -⟩ := det_trsv h'
  exact ⟨m1, m1', _, _, e, f, e1, f1, fun i hi => o.trsmRec (trsmSol_rec uplo false n a bv) (trsmSol_rec uplo false n a' bv') hra hrb i hi⟩

/-- **C99** (makePositiveDefinite): related random numbers, and related amounts added to the diagonal, give related matrices. -/
theorem C99_makePositiveDefinite (o : OpRel R) {SS SS' : Nat} (hSS : 0 < SS) (hSS' : 0 < SS') {m : Mem V} {m' : Mem W} {A A' : MExpr}
    (hd : A.isPanel = false) (hf : A.Fits) (hl : Live SS m A.base) (hsq : A.rows = A.cols)
    (hd' : A'.isPanel = false) (hf' : A'.Fits) (hl' : Live SS' m' A'.base) (hsq' : A'.rows = A'.cols) (hA : A'.cols = A.cols)
    {t t' : Int} (ht : t % (SS : Int) = 0) (ht' : t' % (SS' : Int) = 0)
    (hfree : ∀ x, (⟨.dynDense, .columnMajor, A.cols, A.cols, t⟩ : Container).Storage SS x → m x = none)
    (hfree' : ∀ x, (⟨.dynDense, .columnMajor, A'.cols, A'.cols, t'⟩ : Container).Storage SS' x → m' x = none)
    {r : Nat → Nat → V} {r' : Nat → Nat → W} {s : V} {s' : W} (hr : ∀ i j, i < A.cols → j < A.cols → R (r i j) (r' i j)) (hs : R s s') :
    ∃ m1 m1' f f', makePositiveDefinite SS t r s A m = .ok () m1 ∧ makePositiveDefinite SS' t' r' s' A' m' = .ok () m1' ∧ Elems SS m1 A f ∧ Elems SS' m1' A' f' ∧
      ∀ i j, i < A.rows → j < A.cols → R (f i j) (f' i j) := by
  obtain ⟨m1, e, e1, -⟩ := det_makePositiveDefinite hSS hd hf hl hsq ht hfree r s
  obtain ⟨m1', g, g1, -⟩ := det_makePositiveDefinite hSS' hd' hf' hl' hsq' ht' hfree' r' s'
  refine ⟨m1, m1', _, _, e, g, e1, g1, fun i j hi hj => ?_⟩
  rw [hA]
  have key : ∀ n ≤ A.cols, R (addFold (fun k => Arith.mul (r i k) (r j k)) Arith.zero 0 n) (addFold (fun k => Arith.mul (r' i k) (r' j k)) Arith.zero 0 n) := by
    intro n
    induction n with
    | zero => exact fun _ => o.zero
    | succ n ih =>
      intro hn
      exact o.add (ih (by omega)) (o.mul (hr i _ (by omega) (by omega)) (hr j _ (by omega) (by omega)))
  have hv := o.add (o.mul o.one (key A.cols (Nat.le_refl _))) (o.mul o.zero o.zero)
  unfold makePosDet
  beta_reduce
  by_cases hij : i = j
  · simp only [hij, if_true]
    rw [hij] at hv
    exact o.add hv hs
  · simp only [hij, if_false]
    exact hv
end

section
variable {F : Format}

theorem TrsvReady.mapped {V W : Type} [Arith V] [Arith W] {SS n : Nat} {uplo : UpLo} {m : Mem V} {A : MPtr} {b x : VPtr} {a : Nat → Nat → V} {bv : Nat → V}
    (h : TrsvReady SS n uplo m A b x a bv) (f : V → W) : TrsvReady SS n uplo (fun y => (m y).map f) A b x (fun i k => f (a i k)) (fun i => f (bv i)) where
  matrix i k hi hk hr := ⟨by beta_reduce; rw [(h.matrix i k hi hk hr).1]; rfl, (h.matrix i k hi hk hr).2⟩
  live i hi := by have := h.live i hi; simpa using this
  inj := h.inj
  rhs i hi := by beta_reduce; rw [h.rhs i hi]; rfl
  apart := h.apart

/-- **C98** (nothing small, nothing changes: trsv). If the run with tracked numbers rounds nothing small on the way to x i, the run with flush-to-zero and the one
with gradual underflow give the same number for x i. -/
theorem C98_trsv_nothing_small {SS n : Nat} {uplo : UpLo} {m : Mem (Bin F)} {A : MPtr} {b x : VPtr} {a : Nat → Nat → Bin F} {bv : Nat → Bin F}
    (h : TrsvReady SS n uplo m A b x a bv) :
    ∃ (mt : Mem (Tracked F)) (m1 : Mem (Bin F)) (m2 : Mem (Bin F.ieee)) (t : Nat → Tracked F) (d : Nat → Bin F) (e : Nat → Bin F.ieee),
      trsvPtr SS n uplo A b x (track m) = .ok () mt ∧ trsvPtr SS n uplo A b x m = .ok () m1 ∧ trsvPtr SS n uplo A b x (regradeMem m) = .ok () m2 ∧
      VHolds SS mt x n t ∧ VHolds SS m1 x n d ∧ VHolds SS m2 x n e ∧ ∀ i, i < n → (t i).val = d i ∧ ((t i).ok → e i = regrade (d i)) := by
  obtain ⟨mt, m1, t, d, e1, e2, e3, e4, e5⟩ := C99_trsv tracked_val (h.mapped fresh) h (fun _ _ _ _ _ => rfl) (fun _ _ => rfl)
  obtain ⟨mt', m2, t', e, f1, f2, f3, f4, f5⟩ := C99_trsv tracked_ieee (h.mapped fresh) (h.mapped regrade) (fun _ _ _ _ _ _ => rfl) (fun _ _ _ => rfl)
  obtain rfl : mt = mt' := by rw [e1] at f1; cases f1; rfl
  refine ⟨mt, m1, m2, t, d, e, e1, e2, f2, e3, e4, f4, fun i hi => ⟨e5 i hi, fun hk => ?_⟩⟩
  have ht : t i = t' i := Option.some.inj ((e3 i hi).symm.trans (f3 i hi))
  rw [← e5 i hi, ht]
  rw [ht] at hk
  exact (f5 i hi hk).symm
end

end Blast
