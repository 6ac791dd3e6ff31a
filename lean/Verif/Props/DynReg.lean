import Verif.DynReg
import Verif.Spec
import Verif.Eval
import Verif.Props.Register
/- Concrete cases meeting the hypotheses of these theorems: Verif/Cases/DynReg.lean, and the examples in this file. -/
/-
Property C55: register matrices of dynamic size.
-/
set_option linter.unusedSectionVars false
namespace Blast
open Finset Prog
variable {V : Type}

namespace DynReg

/-- **C55** (construction, reset, scaling). -/
theorem C55_elements [Arith V] {SS : Nat} (R : DynReg V) (m n i j : Nat) (alpha : V) :
    ((construct m n : DynReg V).m = m ∧ (construct m n : DynReg V).n = n ∧ (construct m n : DynReg V).el SS i j = Arith.zero) ∧
    (R.reset.m = R.m ∧ R.reset.n = R.n ∧ R.reset.el SS i j = Arith.zero) ∧
    ((R.scale alpha).m = R.m ∧ (R.scale alpha).n = R.n ∧ (R.scale alpha).el SS i j = Arith.mul (R.el SS i j) alpha) :=
  ⟨⟨rfl, rfl, rfl⟩, ⟨rfl, rfl, rfl⟩, ⟨rfl, rfl, rfl⟩⟩

/-- **C55** (load). `R.load(p(I,J))` puts `p(I+a, J+b)` into element `(a,b)` for all `a`, `b` within the size, and changes no memory. It needs *all*
`RM*SS` rows (the maximal number, not the number of rows of `R`) of the `n` columns to be readable. -/
theorem C55_load [Arith V] {SS RM N I J : Nat} {p : MPtr} {mem : Mem V} (R : DynReg V) (h : TilePtr SS p I) (hn : R.n ≤ N)
    {A : Nat → Nat → V} (hA : ∀ a b : Nat, a < RM * SS → b < R.n → mem (p.addr SS (I + a : Nat) (J + b : Nat)) = some (A a b)) :
    ∃ R', R.load SS RM N (p.off SS I J) mem = .ok R' mem ∧ R'.m = R.m ∧ R'.n = R.n ∧
      (∀ a b : Nat, a < RM * SS → b < R.n → R'.el SS a b = A a b) := by
  have hA' : ∀ a b : Nat, a < RM * SS → b < R.n → mem (p.addr SS ((I : Int) + (a : Nat)) ((J : Int) + (b : Nat))) = some (A a b) := by
    intro a b ha hb; have := hA a b ha hb; push_cast at this; exact this
  have key : ReadsQ (Reg.forCols N (fun j => j < R.n) (fun j => Reg.forRows RM (fun _ => true) j (fun i _ =>
      ((p.off SS I J).off SS (SS * i) j).load SS)) R.v) mem (fun r' => ∀ a b : Nat, a < RM * SS → b < R.n → r'.el SS a b = A a b) := by
    refine (Reg.readsQ_forCols (Q := fun j c => ∀ i, i < RM → ∀ l, l < SS → c i l = A (i * SS + l) j) ?_).mono ?_
    · intro j hj hg r0 hr0
      have hjn : j < R.n := by simpa using hg
      refine (Reg.readsQ_forRows (Q := fun i v => ∀ l, l < SS → v l = A (i * SS + l) j) ?_).mono ?_
      · intro i hi _
        refine (Reg.readsQ_loadCell h.ss h.wf (h.at_ J) h.so i j (fun l hl => ?_)).mono ?_
        · rw [hA' _ j (idx_lt hi hl) hjn]; rfl
        · intro v hv l hl
          rw [hv l hl]; unfold val; rw [hA' _ j (idx_lt hi hl) hjn]; rfl
      · rintro r' ⟨h1, h2⟩
        exact ⟨fun i hi => h1 i hi rfl, fun i j' hj' => h2 i j' (fun hh => hj' hh.1)⟩
    · rintro r' ⟨h1, _⟩ a b ha hb
      exact Reg.el_of h.ss (F := fun a => A a b) (fun i hi l hl => h1 b (by omega) (by simpa using hb) i hi l hl) a ha
  obtain ⟨r', h1, h2⟩ := key
  refine ⟨{ R with v := r' }, ?_, rfl, rfl, h2⟩
  unfold load
  rw [bind_ok h1]; rfl

/-- **C55** (store). `R.store(p(I,J))` leaves the elements of `R` in the block at `p(I,J)` of the size of `R`, and changes no other memory cell. -/
theorem C55_store [Arith V] {SS RM N I J : Nat} {p : MPtr} {mem : Mem V} (R : DynReg V) (h : TilePtr SS p I) (hm : R.m ≤ RM * SS) (hn : R.n ≤ N)
    (hi : Inj SS p (I + R.m) (J + R.n)) (hal : BlockAlloc SS mem p I J R.m R.n) :
    ∃ mem', R.store SS RM N (p.off SS I J) mem = .ok () mem' ∧
      (∀ a b : Nat, a < R.m → b < R.n → mem' (p.addr SS (I + a : Nat) (J + b : Nat)) = some (R.el SS a b)) ∧
      (∀ x, ¬ Block SS p I J R.m R.n x → mem' x = mem x) := by
  have e : (R.store SS RM N (p.off SS I J) : Prog V Unit) = R.v.storeP SS RM N (p.off SS I J) R.m R.n := by
    unfold store Reg.storeP
    rw [Nat.min_eq_left hn]
  rw [e]
  exact C36_store_partial_exact R.v h hm hn hi hal

/-- **C55** (storeLower). Exactly the elements on and below the diagonal are written. -/
theorem C55_storeLower [Arith V] {SS RM N I J : Nat} {p : MPtr} {mem : Mem V} (R : DynReg V) (h : TilePtr SS p I) (hm : R.m ≤ RM * SS) (hn : R.n ≤ N)
    (hi : Inj SS p (I + R.m) (J + R.n))
    (hal : ∀ a b : Nat, a < R.m → b < R.n → b ≤ a → (mem (p.addr SS (I + a : Nat) (J + b : Nat))).isSome = true) :
    ∃ mem', R.storeLower SS RM N (p.off SS I J) mem = .ok () mem' ∧
      (∀ a b : Nat, a < R.m → b < R.n → b ≤ a → mem' (p.addr SS (I + a : Nat) (J + b : Nat)) = some (R.el SS a b)) ∧
      (∀ x, ¬ LowerBlock SS p I J R.m R.n x → mem' x = mem x) :=
  C37_storeLower_rect_exact R.v h hm hn hi hal

/-- **C55** (ger). `R.ger(alpha, a(I,J), b(I',J'))` (with `f x = alpha * x`; `f x = x` for `ger(a, b)`) adds the product of the column at `a(I,J)` and the
row at `b(I',J')` to every element of `R`. All `RM*SS` rows of the column must be readable. -/
theorem C55_ger [Arith V] {SS RM N I J : Nat} {pa pb : MPtr} {i' j' : Int} {q : MPtr} {mem : Mem V} (R : DynReg V) (f : V → V)
    (h : TilePtr SS pa I) (hwb : pb.WF SS) (hq : MPtr.At SS q pb i' j') (hn : R.n ≤ N)
    {X Y : Nat → V} (hX : ∀ a : Nat, a < RM * SS → mem (pa.addr SS (I + a : Nat) J) = some (X a))
    (hY : ∀ b : Nat, b < R.n → mem (pb.addr SS i' (j' + (b : Nat))) = some (Y b)) :
    ∃ R', R.ger SS RM N f (pa.off SS I J) q mem = .ok R' mem ∧ R'.m = R.m ∧ R'.n = R.n ∧
      (∀ a b : Nat, a < RM * SS → b < R.n → R'.el SS a b = Arith.fma (f (X a)) (Y b) (R.el SS a b)) := by
  have key : ReadsQ (R.ger SS RM N f (pa.off SS I J) q) mem (fun R' => R'.m = R.m ∧ R'.n = R.n ∧
      (∀ a b : Nat, a < RM * SS → b < R.n → R'.el SS a b = Arith.fma (f (X a)) (Y b) (R.el SS a b))) := by
    unfold ger
    refine ReadsQ.bind (Q := fun ax : Nat → Vec V => ∀ i, i < RM → ∀ l, l < SS → ax i l = f (X (i * SS + l))) ?_ ?_
    · refine readsQ_foldN (I := fun k (ax : Nat → Vec V) => ∀ i, i < k → ∀ l, l < SS →
        ax i l = f (X (i * SS + l))) (fun i hi => by omega) ?_
      intro k ax hk hax
      have hc : ∀ l, l < SS → mem (pa.addr SS ((I : Int) + (k * SS + l : Nat)) ((J : Int) + (0 : Nat))) = some (X (k * SS + l)) := by
        intro l hl
        have := hX (k * SS + l) (idx_lt hk hl)
        push_cast at this ⊢
        rw [Int.add_zero]; exact this
      refine ReadsQ.bind (Reg.readsQ_loadCell h.ss h.wf (h.at_ J) h.so k 0 (fun l hl => by rw [hc l hl]; rfl)) ?_
      intro v hv
      refine readsQ_pure ?_
      intro i hi l hl
      dsimp only
      by_cases hik : i = k
      · subst hik; rw [if_pos rfl, hv l hl]; unfold val; rw [hc l hl]; rfl
      · rw [if_neg hik]; exact hax i (by omega) l hl
    · intro ax hax
      refine ReadsQ.bind (Reg.readsQ_forCols (Q := fun j c => ∀ i, i < RM → ∀ l, l < SS → c i l =
        Arith.fma (f (X (i * SS + l))) (Y j) (R.v i j l)) ?_) ?_
      · intro j hj hg r0 hr0
        have hjn : j < R.n := by simpa using hg
        have hg := hq.reads_get (m := mem) h.ss hwb 0 (j : Int) (by rw [Int.add_zero, hY j hjn]; rfl)
        refine Reads.bindQ hg ?_
        refine (Reg.readsQ_forRows (Q := fun i v => ∀ l, l < SS → v l =
          Arith.fma (f (X (i * SS + l))) (Y j) (R.v i j l)) ?_).mono ?_
        · intro i hi _
          refine readsQ_pure (fun l hl => ?_)
          rw [hax i hi l hl, hr0 i]; unfold val; rw [Int.add_zero, hY j hjn]; rfl
        · rintro r' ⟨h1, h2⟩
          exact ⟨fun i hi => h1 i hi rfl, fun i j' hj' => h2 i j' (fun hh => hj' hh.1)⟩
      · rintro r' ⟨h1, _⟩
        refine readsQ_pure ⟨rfl, rfl, fun a b ha hb => ?_⟩
        refine Reg.el_of h.ss (F := fun a => Arith.fma (f (X a)) (Y b) (R.v.el SS a b)) (fun i hi l hl => ?_) a ha
        rw [Reg.el_mk R.v hl]
        exact h1 b (by omega) (by simpa using hb) i hi l hl
  obtain ⟨R', h1, h2⟩ := key
  exact ⟨R', h1, h2⟩

end DynReg

/-- **C55** (comparison, for register matrices of static and of dynamic size). `rm == m` is true exactly when the sizes agree and all elements are equal;
it does not throw, and changes nothing. -/
theorem C55_equality [Arith V] {SS : Nat} (r : Reg V) (mm nn : Nat) (c : Container) (mem : Mem V) {f : Nat → Nat → V} (hf : Contains SS mem c f) :
    ∃ b, eqReg SS r mm nn c mem = .ok b mem ∧
      (b = true ↔ mm = c.rows ∧ nn = c.cols ∧ ∀ i j, i < mm → j < nn → Arith.eq (r.el SS i j) (f i j) = true) := by
  by_cases hs : c.rows ≠ mm ∨ c.cols ≠ nn
  · refine ⟨false, by unfold eqReg; rw [if_pos hs]; rfl, ?_⟩
    constructor
    · intro h; cases h
    · rintro ⟨h1, h2, _⟩; omega
  · have : ReadsQ (eqReg SS r mm nn c : Prog V Bool) mem (fun b => b = true ↔
        ∀ i j, i < mm → j < nn → Arith.eq (r.el SS i j) (f i j) = true) := by
      unfold eqReg
      rw [if_neg hs]
      refine readsQ_foldN (fun k b => b = true ↔
        ∀ i j, i < k → j < nn → Arith.eq (r.el SS i j) (f i j) = true) ?_ ?_
      · simp
      · intro i b hi hb
        refine (readsQ_foldN (fun k b => b = true ↔
          (∀ i' j, i' < i → j < nn → Arith.eq (r.el SS i' j) (f i' j) = true) ∧
          (∀ j, j < k → Arith.eq (r.el SS i j) (f i j) = true)) ?_ ?_).mono ?_
        · rw [hb]; simp
        · intro j r' hj hr'
          cases r'
          · simp only [Bool.false_eq_true, if_false]
            refine readsQ_pure ?_
            constructor
            · intro h; cases h
            · rintro ⟨h3, h4⟩
              exact hr'.2 ⟨h3, fun j' hj' => h4 j' (by omega)⟩
          · simp only [if_true]
            refine Reads.bindQ (reads_read (hf i j (by omega) (by omega))) ?_
            refine readsQ_pure ?_
            have h5 := hr'.1 rfl
            constructor
            · intro h
              refine ⟨h5.1, fun j' hj' => ?_⟩
              by_cases hjj : j' = j
              · subst hjj; exact h
              · exact h5.2 j' (by omega)
            · rintro ⟨_, h4⟩; exact h4 j (by omega)
        · intro r' hr'
          rw [hr']
          constructor
          · rintro ⟨h3, h4⟩ i' j hi' hj
            by_cases hii : i' = i
            · subst hii; exact h4 j hj
            · exact h3 i' j (by omega) hj
          · intro h
            exact ⟨fun i' j hi' hj => h i' j (by omega) hj, fun j hj => h i j (by omega) hj⟩
    obtain ⟨b, h1, h2⟩ := this
    refine ⟨b, h1, ?_⟩
    rw [h2]
    exact ⟨fun h => ⟨by omega, by omega, h⟩, fun h => h.2.2⟩

namespace DynReg

/-- **C55** (copy). Load followed by store copies the block. -/
theorem C55_load_store [Arith V] {SS RM N I J I' J' mm nn : Nat} {p q : MPtr} {mem : Mem V} (h : TilePtr SS p I) (hq : TilePtr SS q I')
    (hm : mm ≤ RM * SS) (hn : nn ≤ N) (hi : Inj SS q (I' + mm) (J' + nn)) (hal : BlockAlloc SS mem q I' J' mm nn)
    {A : Nat → Nat → V} (hA : ∀ a b : Nat, a < RM * SS → b < nn → mem (p.addr SS (I + a : Nat) (J + b : Nat)) = some (A a b)) :
    ∃ mem', (do let R ← (construct mm nn : DynReg V).load SS RM N (p.off SS I J)
                R.store SS RM N (q.off SS I' J')) mem = .ok () mem' ∧
      (∀ a b : Nat, a < mm → b < nn → mem' (q.addr SS (I' + a : Nat) (J' + b : Nat)) = some (A a b)) ∧
      (∀ x, ¬ Block SS q I' J' mm nn x → mem' x = mem x) := by
  obtain ⟨R, h1, h2, h3, h4⟩ := C55_load (N := N) (J := J) (construct mm nn) h hn hA
  have h2' : R.m = mm := h2
  have h3' : R.n = nn := h3
  obtain ⟨m', g1, g2, g3⟩ := C55_store (RM := RM) (N := N) (J := J') (mem := mem) R hq (by omega) (by omega) (by rw [h2', h3']; exact hi) (by rw [h2', h3']; exact hal)
  rw [h2', h3'] at g2 g3
  refine ⟨m', by rw [bind_ok h1]; exact g1, fun a b ha hb => ?_, g3⟩
  rw [g2 a b ha hb, h4 a b (by omega) hb]

/-- memory with the four cells of the storage of a 1×1 matrix -/
def shortMem : Mem Rat := fun x => if 0 ≤ x ∧ x < 4 then some 1 else none

/-- undefined behaviour, decidably -/
def loadUb (r : Res Rat (DynReg Rat)) : Bool :=
  match r with
  | .ub => true
  | _ => false

/-- The requirement of `C55_load` on the rows is not met by matrices of the size of the register matrix: loading a 1×1 matrix, stored with its padding in 4
cells (4 lanes), into a `DynamicRegisterMatrix<double, 12, 4>(1, 1)` reads beyond the storage of the matrix. This is what the repository's own test
(DynamicRegisterMatrixTest.cpp, testLoad) does. -/
theorem C55_load_short_refuted :
    ∃ (c : Container) (mem : Mem Rat), Live 4 mem c ∧ c.rows = 1 ∧ c.cols = 1 ∧
      (construct c.rows c.cols : DynReg Rat).load 4 3 4 (c.mptr 4) mem = .ub := by
  refine ⟨⟨.dynDense, .columnMajor, 1, 1, 0⟩, shortMem, ⟨by decide, fun x hx => ?_⟩, rfl, rfl, ?_⟩
  · have h1 := hx.1
    have h2 := hx.2
    rw [show (⟨.dynDense, .columnMajor, 1, 1, 0⟩ : Container).capacity 4 = 4 by decide] at h2
    simp at h1 h2
    unfold shortMem
    rw [if_pos ⟨by omega, by omega⟩]; rfl
  · have : loadUb ((construct 1 1 : DynReg Rat).load 4 3 4 ((⟨.dynDense, .columnMajor, 1, 1, 0⟩ : Container).mptr 4) shortMem) = true := by decide +kernel
    unfold loadUb at this
    show (construct 1 1 : DynReg Rat).load 4 3 4 _ shortMem = .ub
    revert this
    cases (construct 1 1 : DynReg Rat).load 4 3 4 ((⟨.dynDense, .columnMajor, 1, 1, 0⟩ : Container).mptr 4) shortMem <;> intro h <;> first | rfl | cases h

/-- a 6×3 block of a 13×3 matrix, through an aligned pointer, in registers for 8×4: the hypotheses of the theorems are met -/
example : TilePtr 4 ((⟨.dynDense, .columnMajor, 13, 3, 16⟩ : Container).mptr 4) 4 ∧
    (∀ a b : Nat, a < 2 * 4 → b < 3 → (demoMem (((⟨.dynDense, .columnMajor, 13, 3, 16⟩ : Container).mptr 4).addr 4 (4 + a : Nat) (0 + b : Nat))).isSome = true) ∧
    Inj 4 ((⟨.dynDense, .columnMajor, 13, 3, 16⟩ : Container).mptr 4) (4 + 6) (0 + 3) := by
  refine ⟨⟨by decide, Container.mptr_wf (by decide) _ (by decide), rfl, fun _ => rfl⟩, ?_, ?_⟩
  · have : ∀ a < 8, ∀ b < 3, (demoMem (((⟨.dynDense, .columnMajor, 13, 3, 16⟩ : Container).mptr 4).addr 4 (4 + a : Nat) (0 + b : Nat))).isSome = true := by
      decide +kernel
    exact fun a b ha hb => this a ha b hb
  · have := Container.inj (SS := 4) (by decide) (⟨.dynDense, .columnMajor, 13, 3, 16⟩ : Container)
    intro i j i' j' hi hj hi' hj'
    exact this i j i' j' (by show i < 13; omega) (by show j < 3; omega) (by show i' < 13; omega) (by show j' < 3; omega)

end DynReg
end Blast
