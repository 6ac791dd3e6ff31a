import Verif.Cases.FlushAgree
import Verif.Props.FlushLu
/-
Concrete cases of the theorems in Props/FlushLu (C98) and Props/ParametricLu (C99): integer matrices whose factorizations are integer matrices, with and without row
interchanges.
-/
set_option maxRecDepth 20000
namespace Blast
open Prog Reg

/-- the integer is known -/
def SmallInt.known (q : SmallInt) : Prop := q.val.isSome = true
theorem SmallInt.known_iff {q : SmallInt} : q.known ↔ ∃ n, q.val = some n := Option.isSome_iff_exists

/-- the relation of Cases/FlushAgree read from the other side -/
def IntTracked (q : SmallInt) (t : Tracked binary64Ftz) : Prop := TrackedInt t q

theorem int_tracked : OpRel IntTracked where
  zero := tracked_int.zero
  one := tracked_int.one
  add h1 h2 := tracked_int.add h1 h2
  sub h1 h2 := tracked_int.sub h1 h2
  mul h1 h2 := tracked_int.mul h1 h2
  div h1 h2 := tracked_int.div h1 h2
  neg h1 := tracked_int.neg h1
  sqrt h1 := tracked_int.sqrt h1
  fma h1 h2 h3 := tracked_int.fma h1 h2 h3
  fnma h1 h2 h3 := tracked_int.fnma h1 h2 h3

theorem int_back : Backward SmallInt.known where
  div h := by
    obtain ⟨n, h⟩ := SmallInt.known_iff.1 h
    obtain ⟨x, y, e1, e2, e3⟩ := SmallInt.lift2_eq h
    exact SmallInt.known_iff.2 ⟨x, e1⟩
  add h := by
    obtain ⟨n, h⟩ := SmallInt.known_iff.1 h
    obtain ⟨x, y, e1, e2, e3⟩ := SmallInt.lift2_eq h
    exact SmallInt.known_iff.2 ⟨x, e1⟩
  sub h := by
    obtain ⟨n, h⟩ := SmallInt.known_iff.1 h
    obtain ⟨x, y, e1, e2, e3⟩ := SmallInt.lift2_eq h
    exact SmallInt.known_iff.2 ⟨x, e1⟩
  mul h := by
    obtain ⟨n, h⟩ := SmallInt.known_iff.1 h
    obtain ⟨x, y, e1, e2, e3⟩ := SmallInt.lift2_eq h
    exact SmallInt.known_iff.2 ⟨y, e2⟩
  fma h := by
    obtain ⟨n, h⟩ := SmallInt.known_iff.1 h
    obtain ⟨x, y, z, e1, e2, e4, e3⟩ := SmallInt.lift3_eq h
    exact ⟨SmallInt.known_iff.2 ⟨y, e2⟩, SmallInt.known_iff.2 ⟨z, e4⟩⟩

theorem bin_abs_real {a : Bin binary64Ftz} (h : a.Finite) : (Bin.abs a).Finite ∧ (Bin.abs a).real = |a.real| := by
  obtain ⟨s, x, rfl⟩ := bin_fin h
  refine ⟨trivial, ?_⟩
  show (Bin.fin false x : Bin binary64Ftz).real = _
  cases s <;> simp [Bin.real]

theorem int_cmp : CmpWhere IntTracked SmallInt.known where
  abs {q t} h1 h2 := by
    obtain ⟨x, hx⟩ := SmallInt.known_iff.1 h1
    have e : (Arith.abs q : SmallInt) = ⟨some |x|⟩ := by
      show SmallInt.lift1 _ q = _
      unfold SmallInt.lift1
      rw [hx]
    obtain ⟨o1, f1, r1⟩ := h2 x hx
    rw [e]
    refine ⟨rfl, fun n hn => ?_⟩
    cases hn
    refine ⟨o1, (bin_abs_real f1).1, ?_⟩
    show (Bin.abs t.val).real = _
    rw [(bin_abs_real f1).2, r1]
    push_cast
    rfl
  gt {q t q' t'} h1 h1' h2 h2' := by
    obtain ⟨x, hx⟩ := SmallInt.known_iff.1 h1
    obtain ⟨y, hy⟩ := SmallInt.known_iff.1 h1'
    obtain ⟨o1, f1, r1⟩ := h2 x hx
    obtain ⟨o2, f2, r2⟩ := h2' y hy
    show (match q.val, q'.val with
      | some x, some y => decide (y < x)
      | _, _ => false) = Bin.gt t.val t'.val
    rw [hx, hy]
    obtain ⟨s, u, ea⟩ := bin_fin f1
    obtain ⟨r, v, eb⟩ := bin_fin f2
    rw [ea] at r1 ⊢
    rw [eb] at r2 ⊢
    show decide (y < x) = decide ((Bin.fin r v : Bin binary64Ftz).real < (Bin.fin s u : Bin binary64Ftz).real)
    rw [r1, r2]
    exact decide_eq_decide.2 Int.cast_lt.symm
  eq {q t} h1 h2 := by
    obtain ⟨x, hx⟩ := SmallInt.known_iff.1 h1
    obtain ⟨o1, f1, r1⟩ := h2 x hx
    show (match q.val, (some 0 : Option Int) with
      | some x, some y => decide (x = y)
      | _, _ => false) = Bin.eq t.val (Bin.fin false 0)
    rw [hx]
    obtain ⟨s, u, ea⟩ := bin_fin f1
    rw [ea] at r1 ⊢
    show decide (x = 0) = decide ((Bin.fin s u : Bin binary64Ftz).real = (Bin.fin false 0 : Bin binary64Ftz).real)
    rw [r1, show (Bin.fin false 0 : Bin binary64Ftz).real = 0 by simp [Bin.real]]
    exact decide_eq_decide.2 Int.cast_eq_zero.symm

/-- the elements that a run over the small integers leaves in C are known -/
def knownLu (SS : Nat) (r : Res SmallInt (Nat → Nat)) (C : Container) : Bool :=
  let all := fun (m : Mem SmallInt) => (List.range C.rows).all (fun i => (List.range C.cols).all (fun j => ((m (C.addr SS i j)).bind (·.val)).isSome))
  match r with
  | .ok _ m => all m
  | .throw _ m => all m
  | _ => false

theorem endsIn_of {SS : Nat} {q : Prog SmallInt (Nat → Nat)} {n : Mem SmallInt} {C : Container} (h : knownLu SS (q n) C = true) : EndsIn SmallInt.known SS q n C := by
  have key : ∀ m : Mem SmallInt, (List.range C.rows).all (fun i => (List.range C.cols).all (fun j => ((m (C.addr SS i j)).bind (·.val)).isSome)) = true →
      ∃ t, Contains SS m C t ∧ ∀ i j, i < C.rows → j < C.cols → SmallInt.known (t i j) := fun m hm => by
    have h1 : ∀ i j, i < C.rows → j < C.cols → ((m (C.addr SS i j)).bind (·.val)).isSome = true := fun i j hi hj =>
      List.all_eq_true.1 (List.all_eq_true.1 hm i (List.mem_range.2 hi)) j (List.mem_range.2 hj)
    have h2 : ∀ i j, i < C.rows → j < C.cols → ∃ v, m (C.addr SS i j) = some v ∧ SmallInt.known v := fun i j hi hj => by
      have := h1 i j hi hj
      rcases hv : m (C.addr SS i j) with _ | v
      · rw [hv] at this; cases this
      · rw [hv] at this; exact ⟨v, rfl, this⟩
    refine ⟨fun i j => (m (C.addr SS i j)).getD ⟨none⟩, fun i j hi hj => ?_, fun i j hi hj => ?_⟩
    · obtain ⟨v, e, -⟩ := h2 i j hi hj
      show m (C.addr SS i j) = some ((m (C.addr SS i j)).getD ⟨none⟩)
      rw [e]; rfl
    · obtain ⟨v, e, hk⟩ := h2 i j hi hj
      show SmallInt.known ((m (C.addr SS i j)).getD ⟨none⟩)
      rw [e]; exact hk
  cases hr : q n with
  | ok r m =>
    rw [hr] at h
    obtain ⟨t, h1, h2⟩ := key m h
    exact ⟨.ok r, m, t, hr, h1, h2⟩
  | throw x m =>
    rw [hr] at h
    obtain ⟨t, h1, h2⟩ := key m h
    exact ⟨.error x, m, t, hr, h1, h2⟩
  | _ => rw [hr] at h; cases h

/-- then the tracked run rounded nothing small -/
theorem endsIn_tracked {SS : Nat} {q : Prog SmallInt (Nat → Nat)} {n : Mem SmallInt} {p : Prog (Tracked binary64Ftz) (Nat → Nat)} {m : Mem (Tracked binary64Ftz)}
    {C : Container} (h : RelResult IntTracked Every SS q n C SS p m C) (hk : EndsIn SmallInt.known SS q n C) : EndsIn Tracked.ok SS p m C := by
  obtain ⟨r, n', m', f, g, f1, f2, f3, f4, f5⟩ := h
  obtain ⟨r0, n0, t, e0, e1, e2⟩ := hk
  have : n' = n0 := by
    cases r with
    | ok v =>
      change q n = .ok v n' at f1
      cases r0 with
      | ok w => change q n = .ok w n0 at e0; rw [f1] at e0; cases e0; rfl
      | error w => change q n = .throw w n0 at e0; rw [f1] at e0; cases e0
    | error v =>
      change q n = .throw v n' at f1
      cases r0 with
      | ok w => change q n = .ok w n0 at e0; rw [f1] at e0; cases e0
      | error w => change q n = .throw w n0 at e0; rw [f1] at e0; cases e0; rfl
  subst this
  refine ⟨r, m', g, f2, f4, fun i j hi hj => ?_⟩
  obtain ⟨k, hk⟩ := SmallInt.known_iff.1 (e2 i j hi hj)
  rw [contains_unique e1 f3 hi hj] at hk
  exact (f5 i j hi hj trivial k hk).1

/-- the 8 × 8 matrix 1 + min(i, j): the factors are triangles of ones -/
def flushLuA : Container := ⟨.dynDense, .columnMajor, 8, 8, 0⟩

theorem flushLuA_contains {V : Type} (f : Int → V) : Contains 4 (memOf 1000 f) flushLuA (fun i j => f (flushLuA.addr 4 i j)) := memOf_contains lit lit lit
theorem flushLuA_live {V : Type} (f : Int → V) : Live 4 (memOf 1000 f) flushLuA := memOf_live lit lit lit

theorem flushLuA_known : EndsIn SmallInt.known 4 (getf2Ptr 4 1 flushLuA.rows flushLuA.cols (flushLuA.mptr 4) id) (smallMem minVal) flushLuA := endsIn_of (by decide +kernel)

/-- C99_getf2_where with integers and tracked double-precision numbers -/
theorem flushLuA_tracked : RelResult IntTracked Every 4 (getf2Ptr 4 1 flushLuA.rows flushLuA.cols (flushLuA.mptr 4) id) (smallMem minVal) flushLuA
    4 (getf2Ptr 4 1 flushLuA.rows flushLuA.cols (flushLuA.mptr 4) id) (track (digitMem minVal)) flushLuA :=
  C99_getf2_where int_tracked int_back int_cmp (by decide) (by decide) rfl rfl (flushLuA_live (fun x => SmallInt.of (minVal x))) rfl rfl (Live.mapped (flushLuA_live (fun x => bin64 (minVal x))) fresh) ⟨rfl, rfl⟩
    (flushLuA_contains (fun x => SmallInt.of (minVal x))) (Contains.mapped (flushLuA_contains (fun x => bin64 (minVal x))) fresh)
    (fun i j _ _ => tracked_bin64 (minVal_small (flushLuA.addr 4 i j))) id flushLuA_known

example : SameLuAsGradual 4 (getf2Ptr 4 1 flushLuA.rows flushLuA.cols (flushLuA.mptr 4) id) (getf2Ptr 4 1 flushLuA.rows flushLuA.cols (flushLuA.mptr 4) id) (digitMem minVal) flushLuA :=
  C98_getf2_nothing_small (by decide) rfl rfl (flushLuA_live (fun x => bin64 (minVal x))) (flushLuA_contains (fun x => bin64 (minVal x))) id (endsIn_tracked flushLuA_tracked flushLuA_known)

/-- the 8 × 8 matrix with ones on the anti-diagonal and zeros elsewhere: the steps of the blocked factorization interchange rows -/
def antiVal (x : Int) : Int := if x % 8 + x / 8 = 7 then 1 else 0
theorem antiVal_small (x : Int) : -2 ^ 20 ≤ antiVal x ∧ antiVal x ≤ 2 ^ 20 := by unfold antiVal; split <;> decide

theorem anti_known : EndsIn SmallInt.known 4 (getrfPtr 4 1 flushLuA.rows flushLuA.cols (flushLuA.mptr 4) id) (smallMem antiVal) flushLuA := endsIn_of (by decide +kernel)

theorem anti_tracked : RelResult IntTracked Every 4 (getrfPtr 4 1 flushLuA.rows flushLuA.cols (flushLuA.mptr 4) id) (smallMem antiVal) flushLuA
    4 (getrfPtr 4 1 flushLuA.rows flushLuA.cols (flushLuA.mptr 4) id) (track (digitMem antiVal)) flushLuA :=
  C99_getrf_where int_tracked int_back int_cmp (by decide) rfl rfl (flushLuA_live (fun x => SmallInt.of (antiVal x))) rfl rfl (Live.mapped (flushLuA_live (fun x => bin64 (antiVal x))) fresh) ⟨rfl, rfl⟩
    (flushLuA_contains (fun x => SmallInt.of (antiVal x))) (Contains.mapped (flushLuA_contains (fun x => bin64 (antiVal x))) fresh)
    (fun i j _ _ => tracked_bin64 (antiVal_small (flushLuA.addr 4 i j))) id anti_known

example : SameLuAsGradual 4 (getrfPtr 4 1 flushLuA.rows flushLuA.cols (flushLuA.mptr 4) id) (getrfPtr 4 1 flushLuA.rows flushLuA.cols (flushLuA.mptr 4) id) (digitMem antiVal) flushLuA :=
  C98_getrf_nothing_small (by decide) rfl rfl (flushLuA_live (fun x => bin64 (antiVal x))) (flushLuA_contains (fun x => bin64 (antiVal x))) id (endsIn_tracked anti_tracked anti_known)

/-- the same in row-major storage -/
def flushLuR : Container := ⟨.dynDense, .rowMajor, 8, 8, 0⟩

theorem flushLuR_contains {V : Type} (f : Int → V) : Contains 4 (memOf 1000 f) flushLuR (fun i j => f (flushLuR.addr 4 i j)) := memOf_contains lit lit lit

theorem antiR_known : EndsIn SmallInt.known 4 (getf2Row 4 (luDiv true) (flushLuR.mat 4) id) (smallMem antiVal) flushLuR := endsIn_of (by decide +kernel)

/-- C99_getf2_row_major_where, with multiplication by the reciprocal of the pivot -/
theorem antiR_tracked : RelResult IntTracked Every 4 (getf2Row 4 (luDiv true) (flushLuR.mat 4) id) (smallMem antiVal) flushLuR
    4 (getf2Row 4 (luDiv true) (flushLuR.mat 4) id) (track (digitMem antiVal)) flushLuR :=
  C99_getf2_row_major_where int_tracked int_back int_cmp (by decide) (by decide) _ _ (luDiv_rel int_tracked)
    (fun {x y} h => by
      obtain ⟨n, h⟩ := SmallInt.known_iff.1 h
      obtain ⟨x', y', e1, e2, e3⟩ := SmallInt.lift2_eq h
      exact SmallInt.known_iff.2 ⟨x', e1⟩) rfl rfl ⟨rfl, rfl⟩ (flushLuR_contains (fun x => SmallInt.of (antiVal x)))
    (Contains.mapped (flushLuR_contains (fun x => bin64 (antiVal x))) fresh) (fun i j _ _ => tracked_bin64 (antiVal_small (flushLuR.addr 4 i j))) id antiR_known

example : SameLuAsGradual 4 (getf2Row 4 (luDiv true) (flushLuR.mat 4) id) (getf2Row 4 (luDiv true) (flushLuR.mat 4) id) (digitMem antiVal) flushLuR :=
  C98_getf2_row_major_nothing_small true (by decide) rfl (flushLuR_contains (fun x => bin64 (antiVal x))) id (endsIn_tracked antiR_tracked antiR_known)

theorem minR_known : EndsIn SmallInt.known 4 (getrfRow 4 (luDiv false) (flushLuR.mat 4) id) (smallMem minVal) flushLuR := endsIn_of (by decide +kernel)

example : SameLuAsGradual 4 (getrfRow 4 (luDiv false) (flushLuR.mat 4) id) (getrfRow 4 (luDiv false) (flushLuR.mat 4) id) (digitMem minVal) flushLuR :=
  C98_getrf_row_major_nothing_small false (by decide) (flushLuR_contains (fun x => bin64 (minVal x))) id
    (endsIn_tracked (C99_getrf_row_major int_tracked (by decide) (by decide) _ _ (luDiv_rel int_tracked) ⟨rfl, rfl⟩ (flushLuR_contains (fun x => SmallInt.of (minVal x)))
      (Contains.mapped (flushLuR_contains (fun x => bin64 (minVal x))) fresh) (fun i j _ _ => tracked_bin64 (minVal_small (flushLuR.addr 4 i j))) id) minR_known)

end Blast
