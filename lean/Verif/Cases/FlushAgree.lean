import Verif.Cases.Reproducible
import Verif.Cases.FlushZero
import Verif.Props.FlushAgree
import Verif.Props.FlushLu
/-
Concrete cases of the theorems in Props/FlushAgree (C98) and of those in Props/Parametric (C99) with a relation between different element types: integers of at
most 20 bits, computed with as long as they remain so, and the tracked double-precision numbers.
-/
set_option maxRecDepth 20000
namespace Blast
open Prog Reg

/-- an integer of modulus at most 2^20, or nothing -/
structure SmallInt where
  val : Option Int
deriving DecidableEq

namespace SmallInt
def of (x : Int) : SmallInt := ⟨if -2 ^ 20 ≤ x ∧ x ≤ 2 ^ 20 then some x else none⟩
def lift1 (f : Int → SmallInt) (a : SmallInt) : SmallInt := match a.val with
  | some x => f x
  | none => ⟨none⟩
def lift2 (f : Int → Int → SmallInt) (a b : SmallInt) : SmallInt := lift1 (fun x => lift1 (f x) b) a
def lift3 (f : Int → Int → Int → SmallInt) (a b c : SmallInt) : SmallInt := lift1 (fun x => lift2 (f x) b c) a

/-- exact where the result is an integer of modulus at most 2^20, undetermined elsewhere -/
instance : Arith SmallInt where
  zero := of 0
  one := of 1
  add := lift2 (fun x y => of (x + y))
  sub := lift2 (fun x y => of (x - y))
  mul := lift2 (fun x y => of (x * y))
  div := lift2 (fun x y => if y ≠ 0 ∧ x / y * y = x then of (x / y) else ⟨none⟩)
  neg := lift1 (fun x => of (-x))
  sqrt := lift1 (fun x => if 0 ≤ x ∧ (Nat.sqrt x.toNat : Int) * Nat.sqrt x.toNat = x then of (Nat.sqrt x.toNat) else ⟨none⟩)
  fma := lift3 (fun x y z => of (x * y + z))
  fnma := lift3 (fun x y z => of (z - x * y))
  abs := lift1 (fun x => ⟨some |x|⟩)
  gt a b := match a.val, b.val with
    | some x, some y => decide (y < x)
    | _, _ => false
  eq a b := match a.val, b.val with
    | some x, some y => decide (x = y)
    | _, _ => false

theorem of_eq {x n : Int} (h : (of x).val = some n) : n = x ∧ -2 ^ 20 ≤ x ∧ x ≤ 2 ^ 20 := by
  unfold of at h
  dsimp only at h
  split at h
  · next hx => exact ⟨(Option.some.inj h).symm, hx⟩
  · cases h

theorem lift1_eq {f : Int → SmallInt} {a : SmallInt} {n : Int} (h : (lift1 f a).val = some n) : ∃ x, a.val = some x ∧ (f x).val = some n := by
  unfold lift1 at h
  split at h
  · next x e => exact ⟨x, e, h⟩
  · cases h
theorem lift2_eq {f : Int → Int → SmallInt} {a b : SmallInt} {n : Int} (h : (lift2 f a b).val = some n) :
    ∃ x y, a.val = some x ∧ b.val = some y ∧ (f x y).val = some n := by
  obtain ⟨x, h1, h2⟩ := lift1_eq h
  obtain ⟨y, h3, h4⟩ := lift1_eq h2
  exact ⟨x, y, h1, h3, h4⟩
theorem lift3_eq {f : Int → Int → Int → SmallInt} {a b c : SmallInt} {n : Int} (h : (lift3 f a b c).val = some n) :
    ∃ x y z, a.val = some x ∧ b.val = some y ∧ c.val = some z ∧ (f x y z).val = some n := by
  obtain ⟨x, h1, h2⟩ := lift1_eq h
  obtain ⟨y, z, h3, h4, h5⟩ := lift2_eq h2
  exact ⟨x, y, z, h1, h3, h4, h5⟩
end SmallInt

/-- the small integers are numbers of the format -/
theorem small_rep {x : Int} (h : -2 ^ 20 ≤ x ∧ x ≤ 2 ^ 20) : binary64Ftz.Representable (x : ℝ) := by
  refine ⟨⟨x, 0, ?_, by decide, by decide, by simp⟩, fun _ => ?_⟩
  · show |x| < 2 ^ 53
    rw [abs_lt]
    omega
  · by_cases h0 : x = 0
    · left; simp [h0]
    · right
      have h1 : (1 : ℝ) ≤ |(x : ℝ)| := by exact_mod_cast Int.one_le_abs h0
      refine le_trans ?_ h1
      rw [show binary64Ftz.emin = -1022 from rfl]
      exact zpow_le_one_of_nonpos₀ (by norm_num) (by norm_num)

theorem small_notSmall {x : Int} (h : -2 ^ 20 ≤ x ∧ x ≤ 2 ^ 20) : NotSmall binary64Ftz (x : ℝ) := (small_rep h).2 (by decide)

/-- the tracked number is the integer, and nothing was rounded -/
def TrackedInt (t : Tracked binary64Ftz) (q : SmallInt) : Prop := ∀ n, q.val = some n → t.ok ∧ t.val.Finite ∧ t.val.real = n

theorem bin_fin {a : Bin binary64Ftz} (h : a.Finite) : ∃ s x, a = .fin s x := by
  rcases a with ⟨s, x⟩ | s | _
  · exact ⟨s, x, rfl⟩
  · cases h
  · cases h

theorem mk_int {nz : Bool} {r : ℝ} {n : Int} (e : r = (n : ℝ)) (h : -2 ^ 20 ≤ n ∧ n ≤ 2 ^ 20) :
    (Bin.mk binary64Ftz nz r).Finite ∧ (Bin.mk binary64Ftz nz r).real = n := by
  rw [e]; exact Bin.mk_exact (small_rep h)

theorem tracked_int : OpRel TrackedInt where
  zero n h := by
    obtain ⟨rfl, -⟩ := SmallInt.of_eq h
    exact ⟨trivial, trivial, by show (Bin.fin false 0 : Bin binary64Ftz).real = _; simp [Bin.real]⟩
  one n h := by
    obtain ⟨rfl, -⟩ := SmallInt.of_eq h
    exact ⟨trivial, trivial, by show (Bin.fin false 1 : Bin binary64Ftz).real = _; simp [Bin.real]⟩
  add {a a' b b'} h1 h2 n h := by
    obtain ⟨x, y, e1, e2, e3⟩ := SmallInt.lift2_eq h
    obtain ⟨rfl, hb⟩ := SmallInt.of_eq e3
    obtain ⟨o1, f1, r1⟩ := h1 x e1
    obtain ⟨o2, f2, r2⟩ := h2 y e2
    have er : a.val.real + b.val.real = ((x + y : Int) : ℝ) := by rw [r1, r2]; push_cast; rfl
    refine ⟨⟨o1, o2, er ▸ small_notSmall hb⟩, ?_⟩
    obtain ⟨s, u, ea⟩ := bin_fin f1
    obtain ⟨t, v, eb⟩ := bin_fin f2
    show (Bin.add a.val b.val).Finite ∧ (Bin.add a.val b.val).real = _
    rw [ea, eb] at er ⊢
    exact mk_int er hb
  sub {a a' b b'} h1 h2 n h := by
    obtain ⟨x, y, e1, e2, e3⟩ := SmallInt.lift2_eq h
    obtain ⟨rfl, hb⟩ := SmallInt.of_eq e3
    obtain ⟨o1, f1, r1⟩ := h1 x e1
    obtain ⟨o2, f2, r2⟩ := h2 y e2
    have er : a.val.real - b.val.real = ((x - y : Int) : ℝ) := by rw [r1, r2]; push_cast; rfl
    refine ⟨⟨o1, o2, er ▸ small_notSmall hb⟩, ?_⟩
    have ern : a.val.real + (Bin.neg b.val).real = ((x - y : Int) : ℝ) := by rw [Bin.real_neg, ← sub_eq_add_neg]; exact er
    obtain ⟨s, u, ea⟩ := bin_fin f1
    obtain ⟨t, v, eb⟩ := bin_fin f2
    show (Bin.add a.val (Bin.neg b.val)).Finite ∧ (Bin.add a.val (Bin.neg b.val)).real = _
    rw [ea, eb] at ern ⊢
    exact mk_int ern hb
  mul {a a' b b'} h1 h2 n h := by
    obtain ⟨x, y, e1, e2, e3⟩ := SmallInt.lift2_eq h
    obtain ⟨rfl, hb⟩ := SmallInt.of_eq e3
    obtain ⟨o1, f1, r1⟩ := h1 x e1
    obtain ⟨o2, f2, r2⟩ := h2 y e2
    have er : a.val.real * b.val.real = ((x * y : Int) : ℝ) := by rw [r1, r2]; push_cast; rfl
    refine ⟨⟨o1, o2, er ▸ small_notSmall hb⟩, ?_⟩
    obtain ⟨s, u, ea⟩ := bin_fin f1
    obtain ⟨t, v, eb⟩ := bin_fin f2
    show (Bin.mul a.val b.val).Finite ∧ (Bin.mul a.val b.val).real = _
    rw [ea, eb] at er ⊢
    exact mk_int er hb
  div {a a' b b'} h1 h2 n h := by
    obtain ⟨x, y, e1, e2, e3⟩ := SmallInt.lift2_eq h
    beta_reduce at e3
    split at e3
    · next hd =>
      obtain ⟨rfl, hb⟩ := SmallInt.of_eq e3
      obtain ⟨o1, f1, r1⟩ := h1 x e1
      obtain ⟨o2, f2, r2⟩ := h2 y e2
      have hy : (y : ℝ) ≠ 0 := by exact_mod_cast hd.1
      have er : a.val.real / b.val.real = ((x / y : Int) : ℝ) := by
        rw [r1, r2, div_eq_iff hy]
        exact_mod_cast hd.2.symm
      refine ⟨⟨o1, o2, er ▸ small_notSmall hb⟩, ?_⟩
      obtain ⟨s, u, ea⟩ := bin_fin f1
      obtain ⟨t, v, eb⟩ := bin_fin f2
      show (Bin.div a.val b.val).Finite ∧ (Bin.div a.val b.val).real = _
      rw [eb] at r2
      rw [ea, eb] at er ⊢
      have hv : v ≠ 0 := by
        rintro rfl
        apply hy
        rw [← r2]
        simp [Bin.real]
      show (if v = 0 then (if u = 0 then Bin.nan else Bin.inf (s != t)) else Bin.mk binary64Ftz (s != t) _).Finite ∧
        (if v = 0 then (if u = 0 then Bin.nan else Bin.inf (s != t)) else Bin.mk binary64Ftz (s != t) _).real = _
      rw [if_neg hv]
      exact mk_int er hb
    · cases e3
  neg {a a'} h1 n h := by
    obtain ⟨x, e1, e2⟩ := SmallInt.lift1_eq h
    obtain ⟨rfl, hb⟩ := SmallInt.of_eq e2
    obtain ⟨o1, f1, r1⟩ := h1 x e1
    refine ⟨o1, ?_, ?_⟩
    · obtain ⟨s, u, ea⟩ := bin_fin f1
      show (Bin.neg a.val).Finite
      rw [ea]; trivial
    · show (Bin.neg a.val).real = _
      rw [Bin.real_neg, r1]; push_cast; rfl
  sqrt {a a'} h1 n h := by
    obtain ⟨x, e1, e3⟩ := SmallInt.lift1_eq h
    beta_reduce at e3
    split at e3
    · next hd =>
      obtain ⟨rfl, hb⟩ := SmallInt.of_eq e3
      obtain ⟨o1, f1, r1⟩ := h1 x e1
      have er : Real.sqrt a.val.real = (((Nat.sqrt x.toNat : Nat) : Int) : ℝ) := by
        rw [r1, ← hd.2]
        push_cast
        have h0 : (0 : ℝ) ≤ (Nat.sqrt x.toNat : ℝ) := Nat.cast_nonneg _
        rw [hd.2]
        exact Real.sqrt_mul_self h0
      refine ⟨⟨o1, er ▸ small_notSmall hb⟩, ?_⟩
      obtain ⟨s, u, ea⟩ := bin_fin f1
      show (Bin.sqrt a.val).Finite ∧ (Bin.sqrt a.val).real = _
      rw [ea] at er r1 ⊢
      show (if u = 0 then Bin.fin s 0 else if s then Bin.nan else Bin.mk binary64Ftz false (Real.sqrt u)).Finite ∧
        (if u = 0 then Bin.fin s 0 else if s then Bin.nan else Bin.mk binary64Ftz false (Real.sqrt u)).real = _
      by_cases hu : u = 0
      · rw [if_pos hu]
        refine ⟨trivial, ?_⟩
        rw [← er, hu]
        simp [Bin.real]
      · rw [if_neg hu]
        cases s
        · simp only [Bool.false_eq_true, if_false]
          refine mk_int ?_ hb
          rw [← er]
          simp [Bin.real]
        · exfalso
          have hx : (0 : ℝ) ≤ (x : ℝ) := by exact_mod_cast hd.1
          rw [← r1] at hx
          have hp : (0 : ℝ) < u := by exact_mod_cast pos_iff_ne_zero.2 hu
          simp only [Bin.real, if_true] at hx
          linarith
    · cases e3
  fma {a a' b b' c c'} h1 h2 h3 n h := by
    obtain ⟨x, y, z, e1, e2, e4, e3⟩ := SmallInt.lift3_eq h
    obtain ⟨rfl, hb⟩ := SmallInt.of_eq e3
    obtain ⟨o1, f1, r1⟩ := h1 x e1
    obtain ⟨o2, f2, r2⟩ := h2 y e2
    obtain ⟨o3, f3, r3⟩ := h3 z e4
    have er : a.val.real * b.val.real + c.val.real = ((x * y + z : Int) : ℝ) := by rw [r1, r2, r3]; push_cast; rfl
    refine ⟨⟨o1, o2, o3, er ▸ small_notSmall hb⟩, ?_⟩
    obtain ⟨s, u, ea⟩ := bin_fin f1
    obtain ⟨t, v, eb⟩ := bin_fin f2
    obtain ⟨r, w, ec⟩ := bin_fin f3
    show (Bin.fma a.val b.val c.val).Finite ∧ (Bin.fma a.val b.val c.val).real = _
    rw [ea, eb, ec] at er ⊢
    exact mk_int er hb
  fnma {a a' b b' c c'} h1 h2 h3 n h := by
    obtain ⟨x, y, z, e1, e2, e4, e3⟩ := SmallInt.lift3_eq h
    obtain ⟨rfl, hb⟩ := SmallInt.of_eq e3
    obtain ⟨o1, f1, r1⟩ := h1 x e1
    obtain ⟨o2, f2, r2⟩ := h2 y e2
    obtain ⟨o3, f3, r3⟩ := h3 z e4
    have er : c.val.real - a.val.real * b.val.real = ((z - x * y : Int) : ℝ) := by rw [r1, r2, r3]; push_cast; rfl
    have ern : (Bin.neg a.val).real * b.val.real + c.val.real = ((z - x * y : Int) : ℝ) := by rw [Bin.real_neg, neg_mul, neg_add_eq_sub]; exact er
    refine ⟨⟨o1, o2, o3, er ▸ small_notSmall hb⟩, ?_⟩
    obtain ⟨s, u, ea⟩ := bin_fin f1
    obtain ⟨t, v, eb⟩ := bin_fin f2
    obtain ⟨r, w, ec⟩ := bin_fin f3
    show (Bin.fma (Bin.neg a.val) b.val c.val).Finite ∧ (Bin.fma (Bin.neg a.val) b.val c.val).real = _
    rw [ea, eb, ec] at ern ⊢
    exact mk_int ern hb

/-- the run over the small integers returns, and the elements (i, j) of C with `P i j` are known -/
def knownAll (P : Nat → Nat → Bool) (SS : Nat) (r : Res SmallInt Unit) (C : Container) : Bool :=
  match r with
  | .ok _ m => (List.range C.rows).all (fun i => (List.range C.cols).all (fun j => !P i j || ((m (C.addr SS i j)).bind (·.val)).isSome))
  | _ => false

theorem nothingSmall_of {P : Nat → Nat → Prop} {Q : Nat → Nat → Bool} {SS : Nat} {p : Prog (Tracked binary64Ftz) Unit} {q : Prog SmallInt Unit}
    {m : Mem (Tracked binary64Ftz)} {n : Mem SmallInt} {C : Container} (h : RelResult TrackedInt P SS p m C SS q n C) (hPQ : ∀ i j, P i j → Q i j = true)
    (hk : knownAll Q SS (q n) C = true) : NothingSmall P SS p m C := by
  obtain ⟨r, m', n', f, g, f1, f2, f3, f4, f5⟩ := h
  cases r with
  | error x =>
    change q n = .throw x n' at f2
    rw [f2] at hk; cases hk
  | ok v =>
    change q n = .ok v n' at f2
    change p m = .ok v m' at f1
    rw [f2] at hk
    refine ⟨m', f, f1, f3, fun i j hi hj hp => ?_⟩
    have h1 := List.all_eq_true.1 (List.all_eq_true.1 hk i (List.mem_range.2 hi)) j (List.mem_range.2 hj)
    rw [hPQ i j hp, f4 i j hi hj] at h1
    simp only [Bool.not_true, Bool.false_or, Option.bind_some] at h1
    obtain ⟨n, hn⟩ := Option.isSome_iff_exists.1 h1
    exact (f5 i j hi hj hp n hn).1

/-- the integer x in double precision -/
noncomputable def bin64 (x : Int) : Bin binary64Ftz := Bin.mk binary64Ftz false x
theorem tracked_bin64 {x : Int} (h : -2 ^ 20 ≤ x ∧ x ≤ 2 ^ 20) : TrackedInt (fresh (bin64 x)) (SmallInt.of x) := fun n hn => by
  obtain ⟨rfl, hb⟩ := SmallInt.of_eq hn
  exact ⟨trivial, Bin.mk_exact (small_rep h)⟩

/-- the same integers in both formats -/
noncomputable def digitMem (f : Int → Int) : Mem (Bin binary64Ftz) := memOf 1000 (fun x => bin64 (f x))
def smallMem (f : Int → Int) : Mem SmallInt := memOf 1000 (fun x => SmallInt.of (f x))
theorem digitMem_live {f : Int → Int} {SS : Nat} {c : Container} (hS : c.data % SS = 0) (h1 : 0 ≤ c.data) (h2 : c.data + c.capacity SS ≤ 1000) : Live SS (track (digitMem f)) c :=
  Live.mapped (memOf_live hS h1 h2) fresh

/-- one digit per cell -/
def digit (x : Int) : Int := x % 10
theorem digit_small (x : Int) : -2 ^ 20 ≤ digit x ∧ digit x ≤ 2 ^ 20 := by unfold digit; omega
/-- 5 × 7 times 7 × 6 -/
example : SameAsGradual Every 4
    (gemmCall 4 (bin64 2) ⟨.dynDense, .columnMajor, 5, 7, 0⟩ ⟨.dynDense, .columnMajor, 7, 6, 64⟩ (bin64 3) ⟨.dynDense, .columnMajor, 5, 6, 128⟩ ⟨.statDense, .columnMajor, 5, 6, 192⟩)
    (gemmCall 4 (regrade (bin64 2)) ⟨.dynDense, .columnMajor, 5, 7, 0⟩ ⟨.dynDense, .columnMajor, 7, 6, 64⟩ (regrade (bin64 3)) ⟨.dynDense, .columnMajor, 5, 6, 128⟩ ⟨.statDense, .columnMajor, 5, 6, 192⟩)
    (digitMem digit) ⟨.statDense, .columnMajor, 5, 6, 192⟩ :=
  C98_gemm_nothing_small (SS := 4) (bin64 2) (bin64 3)
    ⟨by decide, rfl, rfl, rfl, memOf_live lit lit lit, memOf_live lit lit lit, memOf_live lit lit lit, memOf_live lit lit lit, apart_of lit, apart_of lit, Or.inr (apart_of lit)⟩ lit
    (memOf_contains lit lit lit) (memOf_contains lit lit lit) (memOf_contains lit lit lit)
    (nothingSmall_of (Q := fun _ _ => true) (C99_gemm tracked_int (n := smallMem digit) (tracked_bin64 (x := 2) (by decide)) (tracked_bin64 (x := 3) (by decide))
      ⟨by decide, rfl, rfl, rfl, digitMem_live lit lit lit, digitMem_live lit lit lit, digitMem_live lit lit lit, digitMem_live lit lit lit, apart_of lit, apart_of lit, Or.inr (apart_of lit)⟩ lit
      ⟨by decide, rfl, rfl, rfl, memOf_live lit lit lit, memOf_live lit lit lit, memOf_live lit lit lit, memOf_live lit lit lit, apart_of lit, apart_of lit, Or.inr (apart_of lit)⟩ lit
      ⟨rfl, rfl⟩ (Contains.mapped (memOf_contains lit lit lit) fresh) (Contains.mapped (memOf_contains lit lit lit) fresh) (Contains.mapped (memOf_contains lit lit lit) fresh)
      (memOf_contains lit lit lit) (memOf_contains lit lit lit) (memOf_contains lit lit lit)
      (fun _ _ _ _ => tracked_bin64 (digit_small _)) (fun _ _ _ _ => tracked_bin64 (digit_small _)) (fun _ _ _ _ => tracked_bin64 (digit_small _))) (fun _ _ _ => rfl) (by decide +kernel))

/-- the lower triangle of a product of a 5 × 7 matrix and its transpose -/
example := C98_syrk_nothing_small (SS := 4) (m := digitMem digit) (bin64 2) (bin64 3)
    (A := ⟨.dynDense, .columnMajor, 5, 7, 0⟩) (C := ⟨.statDense, .columnMajor, 5, 5, 128⟩) (D := ⟨.statDense, .columnMajor, 5, 5, 192⟩)
    ⟨by decide, rfl, rfl, rfl, memOf_live lit lit lit, memOf_live lit lit lit, memOf_live lit lit lit, apart_of lit, Or.inr (apart_of lit)⟩ lit
    (memOf_contains lit lit lit) (fun i j _ => memOf_contains lit lit lit i j) (memOf_contains lit lit lit)
    (nothingSmall_of (Q := fun i j => decide (j ≤ i)) (C99_syrk tracked_int (n := smallMem digit) (tracked_bin64 (x := 2) (by decide)) (tracked_bin64 (x := 3) (by decide))
      ⟨by decide, rfl, rfl, rfl, digitMem_live lit lit lit, digitMem_live lit lit lit, digitMem_live lit lit lit, apart_of lit, Or.inr (apart_of lit)⟩ lit
      ⟨by decide, rfl, rfl, rfl, memOf_live lit lit lit, memOf_live lit lit lit, memOf_live lit lit lit, apart_of lit, Or.inr (apart_of lit)⟩ lit
      ⟨rfl, rfl⟩ (Contains.mapped (memOf_contains lit lit lit) fresh) (ContainsLower.mapped (fun i j _ => memOf_contains lit lit lit i j) fresh)
      (Contains.mapped (memOf_contains lit lit lit) fresh)
      (memOf_contains lit lit lit) (fun i j _ => memOf_contains lit lit lit i j) (memOf_contains lit lit lit)
      (fun _ _ _ _ => tracked_bin64 (digit_small _)) (fun _ _ _ _ _ => tracked_bin64 (digit_small _))) (fun _ _ h => decide_eq_true h) (by decide +kernel))

/-- zeros and ones -/
def bit (x : Int) : Int := x % 2
theorem bit_small (x : Int) : -2 ^ 20 ≤ bit x ∧ bit x ≤ 2 ^ 20 := by unfold bit; omega

example := C98_trmm_left_nothing_small (SS := 4) (m := digitMem bit) (bin64 2)
  (A := ⟨.dynDense, .columnMajor, 5, 5, 0⟩) (B := ⟨.dynDense, .columnMajor, 5, 7, 64⟩) (C := ⟨.statDense, .columnMajor, 5, 7, 128⟩)
  ⟨by decide, rfl, rfl, memOf_live lit lit lit, memOf_live lit lit lit, memOf_live lit lit lit, apart_of lit, Or.inr (apart_of lit), fun h => by cases h⟩ lit
  (memOf_contains lit lit lit) (memOf_contains lit lit lit)
  (nothingSmall_of (Q := fun _ _ => true) (C99_trmm_left tracked_int (n := smallMem bit) (tracked_bin64 (x := 2) (by decide))
    ⟨by decide, rfl, rfl, digitMem_live lit lit lit, digitMem_live lit lit lit, digitMem_live lit lit lit, apart_of lit, Or.inr (apart_of lit), fun h => by cases h⟩ lit
    ⟨by decide, rfl, rfl, memOf_live lit lit lit, memOf_live lit lit lit, memOf_live lit lit lit, apart_of lit, Or.inr (apart_of lit), fun h => by cases h⟩ lit
    ⟨rfl, rfl⟩ (Contains.mapped (memOf_contains lit lit lit) fresh) (Contains.mapped (memOf_contains lit lit lit) fresh)
    (memOf_contains lit lit lit) (memOf_contains lit lit lit)
    (fun _ _ _ _ => tracked_bin64 (bit_small _)) (fun _ _ _ _ => tracked_bin64 (bit_small _))) (fun _ _ _ => rfl) (by decide +kernel))

example := C98_trmm_right_nothing_small (SS := 4) (m := digitMem bit) (bin64 2)
  (A := ⟨.dynDense, .columnMajor, 7, 7, 0⟩) (B := ⟨.dynDense, .columnMajor, 5, 7, 64⟩) (C := ⟨.statDense, .columnMajor, 5, 7, 128⟩)
  ⟨by decide, rfl, rfl, memOf_live lit lit lit, memOf_live lit lit lit, memOf_live lit lit lit, apart_of lit, Or.inr (apart_of lit)⟩ lit
  (fun i j _ => memOf_contains lit lit lit i j) (memOf_contains lit lit lit)
  (nothingSmall_of (Q := fun _ _ => true) (C99_trmm_right tracked_int (n := smallMem bit) (tracked_bin64 (x := 2) (by decide))
    ⟨by decide, rfl, rfl, digitMem_live lit lit lit, digitMem_live lit lit lit, digitMem_live lit lit lit, apart_of lit, Or.inr (apart_of lit)⟩ lit
    ⟨by decide, rfl, rfl, memOf_live lit lit lit, memOf_live lit lit lit, memOf_live lit lit lit, apart_of lit, Or.inr (apart_of lit)⟩ lit
    ⟨rfl, rfl⟩ (ContainsLower.mapped (fun i j _ => memOf_contains lit lit lit i j) fresh) (Contains.mapped (memOf_contains lit lit lit) fresh)
    (fun i j _ => memOf_contains lit lit lit i j) (memOf_contains lit lit lit)
    (fun _ _ _ _ _ => tracked_bin64 (bit_small _)) (fun _ _ _ _ => tracked_bin64 (bit_small _))) (fun _ _ _ => rfl) (by decide +kernel))

example := C98_trsm_nothing_small (SS := 4) (m := digitMem bit) .lower true
  (A := ⟨.dynDense, .columnMajor, 5, 5, 0⟩) (B := ⟨.dynDense, .columnMajor, 5, 7, 64⟩) (X := ⟨.statDense, .columnMajor, 5, 7, 128⟩)
  ⟨by decide, memOf_live lit lit lit, memOf_live lit lit lit, memOf_live lit lit lit, apart_of lit, Or.inr (apart_of lit)⟩ lit
  ((memOf_contains lit lit lit : Contains _ _ _ _).tri _ _) (memOf_contains lit lit lit)
  (nothingSmall_of (Q := fun _ _ => true) (C99_trsm tracked_int (n := smallMem bit) .lower true
    ⟨by decide, digitMem_live lit lit lit, digitMem_live lit lit lit, digitMem_live lit lit lit, apart_of lit, Or.inr (apart_of lit)⟩ lit
    ⟨by decide, memOf_live lit lit lit, memOf_live lit lit lit, memOf_live lit lit lit, apart_of lit, Or.inr (apart_of lit)⟩ lit
    ⟨rfl, rfl⟩ (ContainsTri.mapped ((memOf_contains lit lit lit : Contains _ _ _ _).tri _ _) fresh) (Contains.mapped (memOf_contains lit lit lit) fresh)
    ((memOf_contains lit lit lit : Contains _ _ _ _).tri _ _) (memOf_contains lit lit lit)
    (fun _ _ _ _ _ => tracked_bin64 (bit_small _)) (fun _ _ _ _ => tracked_bin64 (bit_small _))) (fun _ _ _ => rfl) (by decide +kernel))

/-- the 8 × 8 matrix with the elements 1 + min(i, j), whose factor is the lower triangle of ones -/
def minVal (x : Int) : Int := (1 + min (x % 8) (x / 8)) % 16
theorem minVal_small (x : Int) : -2 ^ 20 ≤ minVal x ∧ minVal x ≤ 2 ^ 20 := by unfold minVal; omega

example := C98_potrf_dense_nothing_small (SS := 4) (m := digitMem minVal)
  (A := ⟨.dynDense, .columnMajor, 8, 8, 0⟩) (L := ⟨.dynDense, .columnMajor, 8, 8, 64⟩)
  ⟨by decide, rfl, rfl, memOf_live lit lit lit, memOf_live lit lit lit, Or.inr (apart_of lit)⟩ lit (potrfFits_square (by decide) (Or.inl rfl))
  (fun i j _ => memOf_contains lit lit lit i j) (memOf_contains lit lit lit)
  (nothingSmall_of (Q := fun i j => decide (j ≤ i)) (C99_potrf_dense tracked_int (n := smallMem minVal)
    ⟨by decide, rfl, rfl, digitMem_live lit lit lit, digitMem_live lit lit lit, Or.inr (apart_of lit)⟩ lit (potrfFits_square (by decide) (Or.inl rfl))
    ⟨by decide, rfl, rfl, memOf_live lit lit lit, memOf_live lit lit lit, Or.inr (apart_of lit)⟩ lit (potrfFits_square (by decide) (Or.inl rfl))
    ⟨rfl, rfl⟩ (ContainsLower.mapped (fun i j _ => memOf_contains lit lit lit i j) fresh) (Contains.mapped (memOf_contains lit lit lit) fresh)
    (fun i j _ => memOf_contains lit lit lit i j) (memOf_contains lit lit lit)
    (fun _ _ _ _ _ => tracked_bin64 (minVal_small _))) (fun _ _ h => decide_eq_true h) (by decide +kernel))

/-- the same matrix as a panel matrix with panels of four rows -/
def minPanel (x : Int) : Int := (1 + min (x / 32 * 4 + x % 4) (x / 4 % 8)) % 16
theorem minPanel_small (x : Int) : -2 ^ 20 ≤ minPanel x ∧ minPanel x ≤ 2 ^ 20 := by unfold minPanel; omega

example := C98_potrf_panel_nothing_small (SS := 4) (KN := 4) (m := digitMem minPanel)
  (A := ⟨.dynPanel, .columnMajor, 8, 8, 0⟩) (L := ⟨.dynPanel, .columnMajor, 8, 8, 512⟩)
  ⟨by decide, rfl, rfl, memOf_live lit lit lit, memOf_live lit lit lit, Or.inr (apart_of lit)⟩ lit (potrfFits_square (by decide) (Or.inl rfl))
  (memOf_contains lit lit lit) (memOf_contains lit lit lit)
  (nothingSmall_of (Q := fun i j => decide (j / 4 * 4 ≤ i)) (C99_potrf_panel tracked_int (n := smallMem minPanel)
    ⟨by decide, rfl, rfl, digitMem_live lit lit lit, digitMem_live lit lit lit, Or.inr (apart_of lit)⟩ lit (potrfFits_square (by decide) (Or.inl rfl))
    ⟨by decide, rfl, rfl, memOf_live lit lit lit, memOf_live lit lit lit, Or.inr (apart_of lit)⟩ lit (potrfFits_square (by decide) (Or.inl rfl))
    ⟨rfl, rfl⟩ (Contains.mapped (memOf_contains lit lit lit) fresh) (Contains.mapped (memOf_contains lit lit lit) fresh)
    (memOf_contains lit lit lit) (memOf_contains lit lit lit)
    (fun _ _ _ _ => tracked_bin64 (minPanel_small _))) (fun _ _ h => decide_eq_true h) (by decide +kernel))

example := C99_getf2 (tracked_val (F := binary64Ftz)) tracked_cmp (SS := 4) (SS' := 4) (by decide) (by decide) (m := track (flushMem _)) (n := flushMem _) (A := flushCm) (A' := flushCm)
  rfl rfl ((memOf_live lit lit lit : Live _ _ _).mapped fresh) rfl rfl (memOf_live lit lit lit) ⟨rfl, rfl⟩ ((flushMem_has _).mapped fresh) (flushMem_has _) (fun _ _ _ _ => rfl) id
example := C99_getrf (tracked_val (F := binary64Ftz)) tracked_cmp (SS := 4) (by decide) (m := track (flushMem _)) (n := flushMem _) (A := flushCm) (A' := flushCm)
  rfl rfl ((memOf_live lit lit lit : Live _ _ _).mapped fresh) rfl rfl (memOf_live lit lit lit) ⟨rfl, rfl⟩ ((flushMem_has _).mapped fresh) (flushMem_has _) (fun _ _ _ _ => rfl) id

/-- the partial sums of a product of matrices of ones -/
theorem ones_sum (K : Nat) (hK : K ≤ 2 ^ 20) :
    (fmaSum (V := SmallInt) (fun _ => SmallInt.of 1) (fun _ => SmallInt.of 1) Arith.zero K).val = some (K : Int) := by
  induction K with
  | zero => rfl
  | succ K ih =>
    have e : fmaSum (V := SmallInt) (fun _ => SmallInt.of 1) (fun _ => SmallInt.of 1) Arith.zero (K + 1) = SmallInt.of (1 * 1 + (K : Int)) := by
      have e1 : fmaSum (V := SmallInt) (fun _ => SmallInt.of 1) (fun _ => SmallInt.of 1) Arith.zero (K + 1) =
          Arith.fma (SmallInt.of 1) (SmallInt.of 1) (fmaSum (V := SmallInt) (fun _ => SmallInt.of 1) (fun _ => SmallInt.of 1) Arith.zero K) := rfl
      rw [e1]
      generalize fmaSum (V := SmallInt) (fun _ => SmallInt.of 1) (fun _ => SmallInt.of 1) Arith.zero K = w at *
      show SmallInt.lift3 (fun x y z => SmallInt.of (x * y + z)) (SmallInt.of 1) (SmallInt.of 1) w = _
      unfold SmallInt.lift3 SmallInt.lift2 SmallInt.lift1
      rw [ih (by omega)]
      rfl
    rw [e]
    unfold SmallInt.of
    rw [if_pos (by omega)]
    exact congrArg some (by push_cast; omega)

theorem ones_tracked (K : Nat) (hK : K ≤ 2 ^ 20) :
    (fmaSum (fun _ => bin64 1) (fun _ => bin64 1) Arith.zero K).real = (K : ℝ) := by
  have h1 := tracked_int.fmaSum (tracked_int.zero) K (fun _ _ => tracked_bin64 (x := 1) (by decide)) (fun _ _ => tracked_bin64 (x := 1) (by decide)) K (ones_sum K hK)
  have h2 := tracked_val.fmaSum (a := fun _ => fresh (bin64 1)) (b := fun _ => fresh (bin64 1)) (a' := fun _ => bin64 1) (b' := fun _ => bin64 1)
    (c := (Arith.zero : Tracked binary64Ftz)) (c' := Arith.zero) rfl K (fun _ _ => rfl) (fun _ _ => rfl)
  rw [← h2]
  exact_mod_cast h1.2.2

theorem bin64_one : (bin64 1).real = 1 := by
  have := (Bin.mk_exact (nz := false) (small_rep (x := 1) (by decide))).2
  unfold bin64
  rw [this]; norm_num

/-- 5 × 7 times 7 × 6, all elements 1 -/
example := C98_gemm_agrees (SS := 4) (m := memOf 1000 (fun _ => bin64 1)) (m2 := memOf 1000 (fun _ => regrade (bin64 1))) (bin64 1) (bin64 1)
  (A := ⟨.dynDense, .columnMajor, 5, 7, 0⟩) (B := ⟨.dynDense, .columnMajor, 7, 6, 64⟩) (C := ⟨.dynDense, .columnMajor, 5, 6, 128⟩) (D := ⟨.statDense, .columnMajor, 5, 6, 192⟩)
  ⟨by decide, rfl, rfl, rfl, memOf_live lit lit lit, memOf_live lit lit lit, memOf_live lit lit lit, memOf_live lit lit lit, apart_of lit, apart_of lit, Or.inr (apart_of lit)⟩
  ⟨by decide, rfl, rfl, rfl, memOf_live lit lit lit, memOf_live lit lit lit, memOf_live lit lit lit, memOf_live lit lit lit, apart_of lit, apart_of lit, Or.inr (apart_of lit)⟩ lit
  (memOf_contains lit lit lit) (memOf_contains lit lit lit) (memOf_contains lit lit lit)
  (memOf_contains lit lit lit) (memOf_contains lit lit lit) (memOf_contains lit lit lit)
  (fun _ _ k _ _ hk => by
    have hk : k < 7 := hk
    rw [ones_tracked k (by omega), bin64_one]
    have := small_notSmall (x := 1 + k) (by omega)
    push_cast at this
    rwa [one_mul])
  (fun _ _ _ _ => by
    have := small_notSmall (x := 7) (by decide)
    rw [bin64_one, mul_one]
    exact (ones_tracked 7 (by decide)).symm ▸ (by exact_mod_cast this))
  (fun _ _ _ _ => by
    have h7 : (Bin.mul (fmaSum (fun _ => bin64 1) (fun _ => bin64 1) Arith.zero 7) (bin64 1)).real = 7 := by
      have h1 := (tracked_int.mul (tracked_int.fmaSum (tracked_int.zero) 7 (fun _ _ => tracked_bin64 (x := 1) (by decide)) (fun _ _ => tracked_bin64 (x := 1) (by decide)))
        (tracked_bin64 (x := 1) (by decide)) 7 (by decide)).2.2
      have h2 := tracked_val.fmaSum (a := fun _ => fresh (bin64 1)) (b := fun _ => fresh (bin64 1)) (a' := fun _ => bin64 1) (b' := fun _ => bin64 1)
        (c := (Arith.zero : Tracked binary64Ftz)) (c' := Arith.zero) rfl 7 (fun _ _ => rfl) (fun _ _ => rfl)
      rw [← h2]
      exact_mod_cast h1
    have := small_notSmall (x := 8) (by decide)
    rw [bin64_one, one_mul]
    refine (congrArg (fun z => NotSmall binary64Ftz (1 + z)) h7).mpr ?_
    norm_num at this ⊢
    exact this)

end Blast
