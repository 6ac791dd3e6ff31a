import Verif.Props.FlushAgree
import Verif.Props.ParametricLu
/- Concrete cases meeting the hypotheses of these theorems: Verif/Cases/FlushLu.lean. -/
/-
C98, LU factorization: if nothing small was rounded on the way to the elements of the result, the pivots, the outcome and the numbers are those of gradual
underflow. Comparisons (the pivot search, the test for a zero pivot) are not covered by `OpRel`; what makes them agree is that every number compared is one of the
numbers from which the elements of the result were computed.
-/
namespace Blast
open Prog Reg Bin
variable {F : Format}

theorem regrade_gt (a b : Bin F) : Bin.gt (regrade a) (regrade b) = Bin.gt a b := by
  rcases a with ⟨s, x⟩ | s | _ <;> rcases b with ⟨t, y⟩ | t | _ <;> rfl
theorem regrade_eq (a b : Bin F) : Bin.eq (regrade a) (regrade b) = Bin.eq a b := by
  rcases a with ⟨s, x⟩ | s | _ <;> rcases b with ⟨t, y⟩ | t | _ <;> rfl
theorem regrade_abs (a : Bin F) : Bin.abs (regrade a) = regrade (Bin.abs a) := by
  rcases a with ⟨s, x⟩ | s | _ <;> rfl

/-- where nothing small was rounded, the number is the one of gradual underflow -/
def Agree (t : Tracked F) (y : Bin F.ieee) : Prop := t.ok → regrade t.val = y

/-- the factorization `p` made in `m` and `q` made in the same memory of a program with gradual underflow end in the same way (with the same pivots, or both
with the exception), and leave the same numbers in A -/
def SameLuAsGradual (SS : Nat) (p : Prog (Bin F) (Nat → Nat)) (q : Prog (Bin F.ieee) (Nat → Nat)) (m : Mem (Bin F)) (A : Container) : Prop :=
  RelResult (fun x y => regrade x = y) Every SS p m A SS q (regradeMem m) A

/-- tracked numbers compare like the numbers -/
theorem tracked_cmp : CmpRel (fun (t : Tracked F) (x : Bin F) => t.val = x) where
  abs h1 := by rw [← h1]; rfl
  gt h1 h2 := by rw [← h1, ← h2]; rfl
  eq h1 h2 := by rw [← h1, ← h2]; rfl

theorem agree_back : Backward (Tracked.ok (F := F)) := ⟨fun h => h.1, fun h => h.1, fun h => h.1, fun h => h.2.1, fun h => ⟨h.2.1, h.2.2.1⟩⟩
theorem agree_cmp : CmpWhere (Agree (F := F)) Tracked.ok where
  abs h1 h2 := ⟨h1, fun _ => by rw [← h2 h1]; exact (regrade_abs _).symm⟩
  gt h1 h2 h3 h4 := by rw [← h3 h1, ← h4 h2]; exact (regrade_gt _ _).symm
  eq h1 h2 := by rw [← h2 h1]; exact (regrade_eq _ _).symm

theorem sameLu_of {SS : Nat} {A : Container} {pt : Prog (Tracked F) (Nat → Nat)} {p : Prog (Bin F) (Nat → Nat)} {q : Prog (Bin F.ieee) (Nat → Nat)} {m : Mem (Bin F)}
    (h1 : RelResult (fun (t : Tracked F) (x : Bin F) => t.val = x) Every SS pt (track m) A SS p m A)
    (h2 : RelResult Agree Every SS pt (track m) A SS q (regradeMem m) A) (hok : EndsIn Tracked.ok SS pt (track m) A) : SameLuAsGradual SS p q m A := by
  obtain ⟨r0, t', t, e0, e1, e2⟩ := hok
  obtain ⟨r, a', m', f, d, f1, f2, f3, f4, f5⟩ := h1
  obtain ⟨r', b', n', g, e, g1, g2, g3, g4, g5⟩ := h2
  have key : ∀ {r1 : Except Exn (Nat → Nat)} {x : Mem (Tracked F)}, Ends pt (track m) r1 x → r1 = r0 ∧ x = t' := fun {r1 x} h => by
    cases r1 with
    | ok v =>
      change pt (track m) = .ok v x at h
      cases r0 with
      | ok w => change pt (track m) = .ok w t' at e0; rw [e0] at h; cases h; exact ⟨rfl, rfl⟩
      | error w => change pt (track m) = .throw w t' at e0; rw [e0] at h; cases h
    | error v =>
      change pt (track m) = .throw v x at h
      cases r0 with
      | ok w => change pt (track m) = .ok w t' at e0; rw [e0] at h; cases h
      | error w => change pt (track m) = .throw w t' at e0; rw [e0] at h; cases h; exact ⟨rfl, rfl⟩
  obtain ⟨rfl, rfl⟩ := key f1
  obtain ⟨rfl, rfl⟩ := key g1
  refine ⟨r', m', n', d, e, f2, g2, f4, g4, fun i j hi hj hp => ?_⟩
  rw [← f5 i j hi hj hp, contains_unique f3 g3 hi hj]
  exact g5 i j hi hj hp (by rw [contains_unique g3 e1 hi hj]; exact e2 i j hi hj)

/-- **C98** (nothing small, nothing changes: unblocked LU factorization, column-major). -/
theorem C98_getf2_nothing_small {SS : Nat} (hSS : 0 < SS) {m : Mem (Bin F)} {A : Container} (hd : A.isPanel = false) (hs : A.so = .columnMajor) (hl : Live SS m A)
    {a : Nat → Nat → Bin F} (ha : Contains SS m A a) (ip : Nat → Nat)
    (hok : EndsIn Tracked.ok SS (getf2Ptr SS 1 A.rows A.cols (A.mptr SS) ip) (track m) A) :
    SameLuAsGradual SS (getf2Ptr SS 1 A.rows A.cols (A.mptr SS) ip) (getf2Ptr SS 1 A.rows A.cols (A.mptr SS) ip) m A :=
  sameLu_of (C99_getf2 tracked_val tracked_cmp hSS hSS hd hs (hl.mapped fresh) hd hs hl (sameSize_refl A) (ha.mapped fresh) ha (fun _ _ _ _ => rfl) ip)
    (C99_getf2_where tracked_ieee agree_back agree_cmp hSS hSS hd hs (hl.mapped fresh) hd hs (hl.mapped regrade) (sameSize_refl A) (ha.mapped fresh) (ha.mapped regrade) (fun _ _ _ _ _ => rfl) ip hok) hok

/-- **C98** (nothing small, nothing changes: blocked LU factorization, column-major). -/
theorem C98_getrf_nothing_small {SS : Nat} (hSS : 0 < SS) {m : Mem (Bin F)} {A : Container} (hd : A.isPanel = false) (hs : A.so = .columnMajor) (hl : Live SS m A)
    {a : Nat → Nat → Bin F} (ha : Contains SS m A a) (ip : Nat → Nat)
    (hok : EndsIn Tracked.ok SS (getrfPtr SS 1 A.rows A.cols (A.mptr SS) ip) (track m) A) :
    SameLuAsGradual SS (getrfPtr SS 1 A.rows A.cols (A.mptr SS) ip) (getrfPtr SS 1 A.rows A.cols (A.mptr SS) ip) m A :=
  sameLu_of (C99_getrf tracked_val tracked_cmp hSS hd hs (hl.mapped fresh) hd hs hl (sameSize_refl A) (ha.mapped fresh) ha (fun _ _ _ _ => rfl) ip)
    (C99_getrf_where tracked_ieee agree_back agree_cmp hSS hd hs (hl.mapped fresh) hd hs (hl.mapped regrade) (sameSize_refl A) (ha.mapped fresh) (ha.mapped regrade) (fun _ _ _ _ _ => rfl) ip hok) hok

/-- the division of row-major getf2 and getrf: as written, or (`recip`) by the reciprocal, which -ffast-math allows -/
def luDiv {V : Type} [Arith V] (recip : Bool) (x y : V) : V := if recip then Arith.mul x (Arith.div Arith.one y) else Arith.div x y

theorem luDiv_rel {V W : Type} [Arith V] [Arith W] {R : V → W → Prop} (o : OpRel R) {recip : Bool} {x y : V} {x' y' : W} (h1 : R x x') (h2 : R y y') :
    R (luDiv recip x y) (luDiv recip x' y') := by
  cases recip
  · exact o.div h1 h2
  · exact o.mul h1 (o.div o.one h2)

theorem luDiv_back {recip : Bool} {x y : Tracked F} (h : (luDiv recip x y).ok) : x.ok := by
  cases recip
  · exact h.1
  · exact h.1

/-- **C98** (nothing small, nothing changes: unblocked LU factorization, row-major). -/
theorem C98_getf2_row_major_nothing_small (recip : Bool) {SS : Nat} (hSS : 0 < SS) {m : Mem (Bin F)} {A : Container} (hd : A.isPanel = false)
    {a : Nat → Nat → Bin F} (ha : Contains SS m A a) (ip : Nat → Nat) (hok : EndsIn Tracked.ok SS (getf2Row SS (luDiv recip) (A.mat SS) ip) (track m) A) :
    SameLuAsGradual SS (getf2Row SS (luDiv recip) (A.mat SS) ip) (getf2Row SS (luDiv recip) (A.mat SS) ip) m A :=
  sameLu_of (C99_getf2_row_major tracked_val tracked_cmp hSS hSS _ _ (luDiv_rel tracked_val) hd hd (sameSize_refl A) (ha.mapped fresh) ha (fun _ _ _ _ => rfl) ip)
    (C99_getf2_row_major_where tracked_ieee agree_back agree_cmp hSS hSS _ _ (luDiv_rel tracked_ieee) luDiv_back hd hd (sameSize_refl A) (ha.mapped fresh)
      (ha.mapped regrade) (fun _ _ _ _ _ => rfl) ip hok) hok

/-- **C98** (nothing small, nothing changes: LU factorization without pivoting, row-major getrf). -/
theorem C98_getrf_row_major_nothing_small (recip : Bool) {SS : Nat} (hSS : 0 < SS) {m : Mem (Bin F)} {A : Container}
    {a : Nat → Nat → Bin F} (ha : Contains SS m A a) (ip : Nat → Nat) (hok : EndsIn Tracked.ok SS (getrfRow SS (luDiv recip) (A.mat SS) ip) (track m) A) :
    SameLuAsGradual SS (getrfRow SS (luDiv recip) (A.mat SS) ip) (getrfRow SS (luDiv recip) (A.mat SS) ip) m A :=
  sameLu_of (C99_getrf_row_major tracked_val hSS hSS _ _ (luDiv_rel tracked_val) (sameSize_refl A) (ha.mapped fresh) ha (fun _ _ _ _ => rfl) ip)
    (C99_getrf_row_major tracked_ieee hSS hSS _ _ (luDiv_rel tracked_ieee) (sameSize_refl A) (ha.mapped fresh)
      (ha.mapped regrade) (fun _ _ _ _ _ => rfl) ip) hok

end Blast
