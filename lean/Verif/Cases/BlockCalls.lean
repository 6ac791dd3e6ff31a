import Verif.Props.BlockAlgos
import Verif.Cases.Potrf
import Verif.Cases.History
/- Concrete cases for the theorems of `Verif/Props/BlockCalls.lean` and `Verif/Props/BlockAlgos.lean`. -/
namespace Blast
open Finset

section tail
variable {V : Type} [Field V] [LinearOrder V] [Arith V]

theorem bcall_obj {SS KN : Nat} {dv : V → V → V} (c : BCall V) (h : HWorld V) : (h.bcall SS KN dv c).2.w.obj = h.w.obj := by
  cases c <;> simp only [HWorld.bcall] <;> (repeat' split) <;> first | rfl | exact exec_obj .. | exact execPiv_obj .. | (unfold World.exec; split <;> rfl)

theorem bcall_tail {SS KN : Nat} {dv : V → V → V} {P : (Nat → Option Container) → Prop} {l : List (BStep V)}
    (ht : ∀ h : HWorld V, P h.w.obj → BAdmissible SS KN dv h l) (c : BCall V)
    (hal : ∀ h : HWorld V, P h.w.obj → BlkAllowed SS h c) :
    ∀ h : HWorld V, P h.w.obj → BAdmissible SS KN dv h (.blk c :: l) := fun h hf =>
  ⟨hal h hf, fun _ => ht _ (by rw [show (h.bstep SS KN dv (.blk c)).2.w.obj = h.w.obj from bcall_obj c h]; exact hf)⟩

end tail

def bigX : Container := ⟨.dynDense, .columnMajor, 8, 8, 0⟩

theorem big_arg {h : HWorld ℝ} (hx : h.w.obj 0 = some bigX) (i j m k : Nat) (hi : i % 4 = 0) (him : i + m ≤ 8) (hjk : j + k ≤ 8) :
    ViewArg 4 h (blk 0 i j m k) (.sub (.obj bigX) true i j m k) := by
  refine ⟨?_, rfl, ⟨trivial, him, hjk⟩, fun _ => ?_⟩
  · unfold blk VExpr.eval VExpr.eval; rw [hx]; rfl
  · show bigX.addr 4 i j % 4 = 0
    rw [MExpr.dense_addr bigX rfl]
    show (0 + (i : Int) + ((bigX.spacing 4 : Nat) : Int) * j) % 4 = 0
    have : bigX.spacing 4 = 8 := by decide
    rw [this]
    omega

/-- a program on blocks of one 8 × 8 object: random values, a block is the transpose of another, factorization of the leading block, solve with it,
product of blocks, element access -/
def blockProgram : List (BStep ℝ) :=
  [.whole (.op (.create 0 bigX)),
   .blk (.randomize (blk 0 0 0 8 8) (fun i j => if i = j then 2 else i + j)),
   .blk (.assign (blk 0 4 0 4 4) (.tr (blk 0 0 4 4 4))),
   .blk (.potrf (blk 0 0 0 4 4) (blk 0 0 0 4 4)),
   .blk (.trsm .lower false (blk 0 0 0 4 4) (blk 0 0 4 4 4) (blk 0 0 4 4 4)),
   .blk (.gemm (-1) (blk 0 4 0 4 4) (blk 0 0 4 4 4) 1 (blk 0 4 4 4 4) (blk 0 4 4 4 4)),
   .blk (.getf2 (blk 0 4 4 4 4) 3 id),
   .blk (.get (blk 0 4 4 4 4) 1 2)]

theorem blk_inj {x i j m k : Nat} (A B : MExpr) : SameOrNoOverlap (blk x i j m k) (blk x i j m k) A B := Or.inr (fun t u t' u' _ _ _ _ e => by
  have e1 : i + t = i + t' := congrArg Prod.fst e
  have e2 : j + u = j + u' := congrArg Prod.snd e
  omega)

theorem blockProgram_admissible (piv : Nat → Nat → Nat) (dv : ℝ → ℝ → ℝ) : BAdmissible 4 4 dv (HWorld.start piv) blockProgram := by
  let P : (Nat → Option Container) → Prop := fun f => f 0 = some bigX
  have t0 : ∀ h : HWorld ℝ, P h.w.obj → BAdmissible 4 4 dv h [] := fun _ _ => trivial
  have t1 := bcall_tail t0 (.get (blk 0 4 4 4 4) 1 2) (fun h hf => ⟨_, big_arg hf 4 4 4 4 rfl (by decide) (by decide), by decide, by decide⟩)
  have t2 := bcall_tail t1 (.getf2 (blk 0 4 4 4 4) 3 id) (fun h hf => ⟨_, big_arg hf 4 4 4 4 rfl (by decide) (by decide)⟩)
  have t3 := bcall_tail t2 (.gemm (-1) (blk 0 4 0 4 4) (blk 0 0 4 4 4) 1 (blk 0 4 4 4 4) (blk 0 4 4 4 4)) (fun h hf =>
    ⟨_, _, _, _, big_arg hf 4 0 4 4 rfl (by decide) (by decide), big_arg hf 0 4 4 4 rfl (by decide) (by decide), big_arg hf 4 4 4 4 rfl (by decide) (by decide),
      big_arg hf 4 4 4 4 rfl (by decide) (by decide), rfl, rfl, rfl,
      C49_padInBounds_of_aligned_row (by decide) bigX rfl rfl true (by decide) (by decide) (by decide),
      C49_padInBounds_of_aligned_row (by decide) bigX rfl rfl true (by decide) (by decide) (by decide),
      Or.inr (fun t u t' u' _ hu _ _ e => by
        have e2 : 0 + u = 4 + u' := congrArg Prod.snd e
        have hu : u < 4 := hu
        omega),
      Or.inr (fun t u t' u' ht _ _ _ e => by
        have e2 : 0 + t = 4 + t' := congrArg Prod.fst e
        have ht : t < 4 := ht
        omega), blk_inj _ _⟩)
  have t4 := bcall_tail t3 (.trsm .lower false (blk 0 0 0 4 4) (blk 0 0 4 4 4) (blk 0 0 4 4 4)) (fun h hf =>
    ⟨_, _, _, big_arg hf 0 0 4 4 rfl (by decide) (by decide), big_arg hf 0 4 4 4 rfl (by decide) (by decide), big_arg hf 0 4 4 4 rfl (by decide) (by decide),
      Or.inr (fun t u t' u' _ hu _ _ e => by
        have e2 : 0 + u = 4 + u' := congrArg Prod.snd e
        have hu : u < 4 := hu
        omega), blk_inj _ _⟩)
  have t5 := bcall_tail t4 (.potrf (blk 0 0 0 4 4) (blk 0 0 0 4 4)) (fun h hf =>
    ⟨_, _, big_arg hf 0 0 4 4 rfl (by decide) (by decide), big_arg hf 0 0 4 4 rfl (by decide) (by decide), rfl, rfl, rfl, rfl, blk_inj _ _,
      by decide, fun k hk _ => hk, by decide, fun k hk _ => by
        show (4 - k) % 4 = 0
        omega⟩)
  have t6 := bcall_tail t5 (.assign (blk 0 4 0 4 4) (.tr (blk 0 0 4 4 4))) (fun h hf =>
    ⟨_, .tr (.sub (.obj bigX) true 0 4 4 4), big_arg hf 4 0 4 4 rfl (by decide) (by decide), by
      obtain ⟨h1, h2, h3, h4⟩ := big_arg hf 0 4 4 4 rfl (by decide) (by decide)
      exact ⟨by unfold VExpr.eval; rw [h1]; rfl, h2, h3, h4⟩, Or.inr (fun t u t' u' ht hu _ _ e => by
        have e2 : 0 + u = 4 + t' := congrArg Prod.fst e
        have hu : u < 4 := hu
        omega)⟩)
  have t7 := bcall_tail t6 (.randomize (blk 0 0 0 8 8) (fun i j => if i = j then 2 else i + j)) (fun h hf =>
    ⟨_, big_arg hf 0 0 8 8 rfl (by decide) (by decide)⟩)
  exact ⟨⟨rfl, by decide, fun z _ => rfl, fun _ => rfl⟩, fun _ => t7 _ rfl⟩

example (piv : Nat → Nat → Nat) := C72_block_programs (V := ℝ) (SS := 4) (KN := 4) (dv := (· / ·)) (by decide) (fun _ _ _ => rfl) piv blockProgram
  (blockProgram_admissible piv _)

def bigY : Container := ⟨.statDense, .columnMajor, 8, 3, 64⟩

/-- a state that a client can reach, with the positive definite matrix `2 I` in object 0 and another matrix in object 1 -/
theorem big_reachable (piv : Nat → Nat → Nat) : ∃ (h : HWorld ℝ) (s : HState ℝ) (o o' : AObj ℝ), HRep 4 h s ∧ s.objs 0 = some o ∧ s.objs 1 = some o' ∧
    DenseCol o 8 8 ∧ DenseCol o' 8 3 ∧ o.val = fun i j => if i = j then 2 else 0 := by
  have hdv : ∀ x y : ℝ, y ≠ 0 → (· / ·) x y = x / y := fun _ _ _ => rfl
  have hr0 : HRep 4 (HWorld.start piv : HWorld ℝ) ⟨fun _ => none, piv⟩ := ⟨empty_represents, rfl⟩
  obtain ⟨s1, a1, hr1, -⟩ := hstep_represents (KN := 4) (by decide) hr0 hdv (.op (.create 0 bigX)) ⟨rfl, by decide, fun z _ => rfl, fun _ => rfl⟩
  have o1 : ((HWorld.start piv : HWorld ℝ).step 4 4 (· / ·) (.op (.create 0 bigX))).2.w.obj = upd (fun _ => none) 0 (some bigX) := rfl
  obtain ⟨s2, a2, hr2, -⟩ := hstep_represents (KN := 4) (by decide) hr1 hdv (.op (.create 1 bigY)) (by
    refine ⟨by rw [o1]; rfl, by decide, fun z hz => ?_, fun h => by cases h⟩
    have c0 : bigX.capacity 4 = 64 := by decide
    have h1 : (64 : Int) ≤ z := hz.1
    exact if_neg (fun hc => by have := hc.2; rw [c0] at this; simp [bigX] at this; omega))
  obtain ⟨s3, a3, hr3, -⟩ := hstep_represents (KN := 4) (by decide) hr2 hdv (.call (.randomize 0 (fun i j => if i = j then 2 else 0))) ⟨bigX, rfl⟩
  obtain ⟨-, a1⟩ := a1
  obtain ⟨-, a2⟩ := a2
  obtain ⟨X, hX, -, a3⟩ := a3
  subst a1 a2
  have hX0 := Option.some.inj hX
  subst a3
  refine ⟨_, _, _, _, hr3, rfl, rfl, ⟨?_, ?_, ?_, ?_⟩, ⟨Or.inr rfl, rfl, rfl, rfl⟩, rfl⟩
  · rw [← hX0]; exact Or.inl rfl
  · rw [← hX0]; rfl
  · rw [← hX0]; rfl
  · rw [← hX0]; rfl

example (piv : Nat → Nat → Nat) : ∃ (h : HWorld ℝ) (s : HState ℝ) (o : AObj ℝ) (l : Nat → Nat → ℝ),
    HRep 4 (h.brun 4 4 (· / ·) (blockedCholesky 0 8 4 0 1)).2 (s.put 0 { o with val := l }) ∧ IsCholesky 8 8 l o.val := by
  obtain ⟨h, s, o, o', hr, ho, -, hd, -, hv⟩ := big_reachable piv
  obtain ⟨-, l, h1, h2, -⟩ := C73_blocked_cholesky (KN := 4) (dv := (· / ·)) (fun _ _ _ => rfl) (b := 4) (r := 1) rfl rfl hr ho hd (by rw [hv]; exact two_posdef 8)
  exact ⟨h, s, o, l, h1, h2⟩

example (piv : Nat → Nat → Nat) : ∃ (h : HWorld ℝ) (s : HState ℝ) (o o' : AObj ℝ) (f : Nat → Nat → ℝ),
    HRep 4 (h.brun 4 4 (· / ·) (blockedForward 0 1 8 3 4 0 1)).2 (s.put 1 { o' with val := f }) ∧
    ∀ i j, i < 8 → j < 3 → ∑ k ∈ range 8, tri .lower false o.val i k * f k j = o'.val i j := by
  obtain ⟨h, s, o, o', hr, ho, ho', hd, hd', hv⟩ := big_reachable piv
  obtain ⟨-, f, h1, h2⟩ := C73_blocked_forward (KN := 4) (SS := 4) (by decide) (dv := (· / ·)) (fun _ _ _ => rfl) (b := 4) (r := 1) (by decide) rfl rfl hr ho ho' hd hd'
    (by rw [hv]; intro i _; simp)
  exact ⟨h, s, o, o', f, h1, h2⟩

end Blast
