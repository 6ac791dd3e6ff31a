import Verif.RowTiles
import Verif.Ger
import Verif.RegLower
/-
Symmetric rank-K update.

Models /repo/include/blast/math/dense/Syrk.hpp.
-/
set_option linter.unusedSectionVars false
namespace Blast
open Prog
variable {V : Type} [Arith V]

/-- full tile: dense/Syrk.hpp:45-51, 56-62, 67-73. `TILE_SIZE = TR * SS`, the kernel has `RM` SIMD rows. -/
def syrkTileFull (SS TR RM K : Nat) (alpha : V) (A : MPtr) (beta : V) (C D : MPtr) (i j : Nat) : Prog V Unit := do
  let r ← Reg.loadB SS RM (TR * SS) Reg.reset beta (C.off SS i j)
  let r ← gemmAcc SS RM (TR * SS) r K alpha (A.off SS i 0) ((A.off SS j 0).trans SS)
  if i = j then r.storeLower SS RM (TR * SS) (D.off SS i j)
  else r.store SS RM (TR * SS) (D.off SS i j)

/-- partial tile: dense/Syrk.hpp:81-87, 101-108, 113-119, 124-130, 136-142. `ml` is the number of rows passed to
`ker.load`, which in the bottom-right corner (l.137) is `ker.rows()` and not `M - i`. -/
def syrkTilePart (SS TR RM K : Nat) (alpha : V) (A : MPtr) (beta : V) (C D : MPtr) (i j ml mm nn : Nat) :
    Prog V Unit := do
  let r ← Reg.loadBP SS RM (TR * SS) Reg.reset beta (C.off SS i j) ml nn
  let r ← gemmAccP SS RM (TR * SS) r K alpha (A.off SS i 0) ((A.off SS j 0).trans SS) mm nn
  if i = j then r.storeLowerP SS RM (TR * SS) (D.off SS i j) mm nn
  else r.storeP SS RM (TR * SS) (D.off SS i j) mm nn

/-- `syrkLower` after the size checks: dense/Syrk.hpp:36-144. The row loops start at `i = j`. -/
def syrkPtr (SS TR M K : Nat) (alpha : V) (A : MPtr) (beta : V) (C D : MPtr) : Prog V Unit :=
  colTiles (TR * SS) M
    (fun j => rowTiles (TR * SS) M j
      (fun rm i => syrkTileFull SS TR (rm * TR) K alpha A beta C D i j)
      (fun i => syrkTilePart SS TR TR K alpha A beta C D i j (M - i) (M - i) (TR * SS)))
    (fun j => rowTiles (TR * SS) M j
      (fun rm i => syrkTilePart SS TR (rm * TR) K alpha A beta C D i j (rm * TR * SS) (rm * TR * SS) (M - j))
      (fun i => syrkTilePart SS TR TR K alpha A beta C D i j (TR * SS) (M - i) (M - j)))

/-- `syrkLower(alpha, A, beta, C, D)`: dense/Syrk.hpp:15-145 -/
def syrkMat (SS TR : Nat) (alpha : V) (A : Mat) (beta : V) (C D : Mat) : Prog V Unit :=
  if C.rows ≠ A.rows ∨ C.cols ≠ A.rows then throw .invalidArgument
  else if D.rows ≠ A.rows ∨ D.cols ≠ A.rows then throw .invalidArgument
  else syrkPtr SS TR A.rows A.cols alpha A.p beta C.p D.p

/-! ### Correctness -/

/-- value computed for an element of the result: `x` row i of A, `y` row j of A -/
def syrkEntry (alpha beta : V) (x y : Nat → V) (c : V) (K : Nat) : V :=
  fmaSum (fun k => Arith.mul alpha (x k)) y (Arith.mul beta c) K

/-- Assumptions: A and C are readable in the rows padding M to a multiple of the tile size; D does not overlap A and is
C or does not overlap it. Only the lower triangle of D must be allocated. -/
structure SyrkPre (SS TR M K : Nat) (A C D : MPtr) (m : Mem V) : Prop where
  ss : 0 < SS
  tr : 0 < TR
  wA : A.WF SS
  wC : C.WF SS
  wD : D.WF SS
  sA : A.so = .columnMajor
  sC : C.so = .columnMajor
  sD : D.so = .columnMajor
  rA : Readable SS m A (roundUp M (TR * SS)) K
  rC : Readable SS m C (roundUp M (TR * SS)) M
  rD : ∀ i j : Nat, i < M → j ≤ i → (m (D.addr SS i j)).isSome = true
  iD : Inj SS D M M
  dA : Disj SS A M K D M M
  dC : SameOrDisj SS C D M M

theorem MPtr.At.trans {SS : Nat} (hSS : 0 < SS) {q p : MPtr} {i j : Int} (h : MPtr.At SS q p i j) :
    MPtr.At SS (q.trans SS) (p.trans SS) j i where
  panel := by rw [MPtr.trans_ptr hSS, MPtr.trans_ptr hSS]; exact h.panel
  so := by rw [MPtr.trans_ptr hSS, MPtr.trans_ptr hSS]; show q.so.flip = p.so.flip; rw [h.so]
  spacing := by rw [MPtr.trans_ptr hSS, MPtr.trans_ptr hSS]; exact h.spacing
  al := by rw [MPtr.trans_ptr hSS, MPtr.trans_ptr hSS]; exact h.al
  ptr := by rw [MPtr.trans_addr hSS, MPtr.trans_ptr hSS]; exact h.ptr
  maj := fun ha => by
    rw [MPtr.trans_ptr hSS] at ha
    rw [MPtr.trans_ptr hSS]
    have := h.maj ha
    unfold MPtr.major at this ⊢
    cases hs : p.so <;> rw [hs] at this <;> simpa [SO.flip] using this

theorem multiple_gap {i j T : Nat} (hi : i % T = 0) (hj : j % T = 0) (hij : j < i) : j + T ≤ i := by
  have e1 := Nat.div_add_mod i T
  have e2 := Nat.div_add_mod j T
  have h3 : j / T + 1 ≤ i / T := by
    apply Nat.succ_le_of_lt
    apply Nat.lt_of_not_le
    intro hc
    have := Nat.mul_le_mul_left T hc
    omega
  have := Nat.mul_le_mul_left T h3
  rw [Nat.mul_add] at this
  omega

theorem MPtr.WF.trans {SS : Nat} (hSS : 0 < SS) {p : MPtr} (h : p.WF SS) : (p.trans SS).WF SS := by
  rw [MPtr.trans_ptr hSS]; exact h

section
variable {SS TR M K : Nat} {A C D : MPtr} {m : Mem V} {alpha beta : V} {g : Int → V}

/-- the register accumulation of a tile -/
theorem reads_syrkAcc (h : SyrkPre SS TR M K A C D m) {S : Int → Prop} {m' : Mem V} (hw : WritesSet m m' S g)
    (hS : ∀ x, S x → ∃ a b : Nat, a < M ∧ b < M ∧ x = D.addr SS a b)
    {i j RM nn : Nat} (hi : i % SS = 0) (hj : j % SS = 0) (hT : i + RM * SS ≤ roundUp M (TR * SS))
    (hjn : j + nn ≤ M) (mm : Nat) (hnn : nn ≤ TR * SS) (r : Reg V) :
    ReadsQ (gemmAccP SS RM (TR * SS) r K alpha (A.off SS i 0) ((A.off SS j 0).trans SS) mm nn) m' (fun r' =>
      ∀ a b : Nat, a < RM * SS → i + a < M → b < nn →
        r'.el SS a b = fmaSum (fun k => Arith.mul alpha (val m (A.addr SS (i + a : Nat) k)))
          (fun k => val m (A.addr SS (j + b : Nat) k)) (r.el SS a b) K) := by
  have al : ∀ {z : Int}, (m z).isSome = true → (m' z).isSome = true := fun hz => hw.isSome hz
  have hself := self_le_roundUp (n := M) (Nat.mul_pos h.tr h.ss)
  have unch : ∀ (a k : Nat), a < M → k < K → val m' (A.addr SS a k) = val m (A.addr SS a k) := by
    intro a k ha hk
    refine val_unchanged hw (fun hs => ?_)
    obtain ⟨a', b', ha', hb', e⟩ := hS _ hs
    exact h.dA _ _ _ _ ha hk ha' hb' e
  have atA := at_off h.ss h.wA i 0 (fun _ => by unfold MPtr.major; rw [h.sA]; exact cast_mod_zero hi)
  have atB := (at_off h.ss h.wA j 0 (fun _ => by unfold MPtr.major; rw [h.sA]; exact cast_mod_zero hj)).trans h.ss
  refine (reads_gerFold (mm := mm) (nn := nn) h.ss
    (X := fun k r => val m' (A.addr SS (i + r : Nat) k))
    (Y := fun k s => val m' ((A.trans SS).addr SS k (j + s : Nat)))
    (fun k hk => loads_A h.ss h.wA atA h.sA hi (fun r hr => al (h.rA _ _ (by omega) hk)))
    (fun k hk => gets_B h.ss (h.wA.trans h.ss) (atB.unal h.ss) (by rw [MPtr.unal_ptr h.ss]; simp)
      (fun s hs => by rw [MPtr.trans_addr h.ss]; exact al (h.rA _ _ (by omega) hk)))).mono ?_
  rintro r' ⟨h1, _⟩ a b ha ham hb
  rw [h1 a b ha (by omega) hb]
  refine fmaSum_congr rfl K (fun k hk => ?_) (fun k hk => ?_)
  · rw [unch _ _ ham hk]
  · rw [MPtr.trans_addr h.ss, unch _ _ (by omega) hk]

theorem gemmAcc_eq (SS RM N : Nat) (r : Reg V) (K : Nat) (alpha : V) (a b : MPtr) :
    gemmAcc SS RM N r K alpha a b = gemmAccP SS RM N r K alpha a b 0 N := by
  unfold gemmAcc gemmAccP
  congr 1
  funext k r
  exact Reg.gerF_eq SS RM N r _ _ _


theorem syrkTileFull_writes (h : SyrkPre SS TR M K A C D m)
    (hg : ∀ a b : Nat, a < M → b ≤ a → g (D.addr SS a b) =
      syrkEntry alpha beta (fun k => val m (A.addr SS a k)) (fun k => val m (A.addr SS b k)) (val m (C.addr SS a b)) K)
    {i j RM : Nat} (hi : i % (TR * SS) = 0) (hj : j % (TR * SS) = 0) (hij : j ≤ i) (him : i + RM * SS ≤ M)
    (hjn : j + TR * SS ≤ M) :
    WritesTile SS M M D (fun a b => b ≤ a) m g (syrkTileFull SS TR RM K alpha A beta C D i j) i j (RM * SS) (TR * SS) := by
  intro S m' hw hS
  have hT : 0 < TR * SS := Nat.mul_pos h.tr h.ss
  have hself := self_le_roundUp (n := M) hT
  have hiS := mod_of_mod_mul hi
  have hjS := mod_of_mod_mul hj
  have hS' : ∀ x, S x → ∃ a b : Nat, a < M ∧ b < M ∧ x = D.addr SS a b := by
    intro x hx; obtain ⟨a, b, ha, hb, _, _, e⟩ := hS x hx; exact ⟨a, b, ha, hb, e⟩
  have al : ∀ {z : Int}, (m z).isSome = true → (m' z).isSome = true := fun hz => hw.isSome hz
  have fC : ∀ r c : Nat, r < RM * SS → c < TR * SS → val m' (C.addr SS (i + r : Nat) (j + c : Nat)) =
      val m (C.addr SS (i + r : Nat) (j + c : Nat)) := by
    intro r c hr hc
    refine val_unchanged hw (fun hs => ?_)
    obtain ⟨a, b, ha, hb, _, hn, e⟩ := hS _ hs
    obtain ⟨e1, e2⟩ := h.dC _ _ _ _ (show i + r < M by omega) (show j + c < M by omega) ha hb e
    omega
  have atC := at_off h.ss h.wC i j (fun _ => by unfold MPtr.major; rw [h.sC]; exact cast_mod_zero hiS)
  have atD := at_off h.ss h.wD i j (fun _ => by unfold MPtr.major; rw [h.sD]; exact cast_mod_zero hiS)
  unfold syrkTileFull
  refine ReadsQ.bind_runs (Reg.reads_loadB h.ss h.wC atC h.sC (fun a b ha hb => ?_)) (fun r1 h1 => ?_)
  · rw [← Int.natCast_add, ← Int.natCast_add]
    exact al (h.rC _ _ (by omega) (by omega))
  rw [gemmAcc_eq]
  refine ReadsQ.bind_runs (reads_syrkAcc h hw hS' hiS hjS (by omega) hjn 0 (Nat.le_refl _) r1) (fun r2 h2 => ?_)
  have hval : ∀ a b : Nat, a < RM * SS → b < TR * SS → j + b ≤ i + a →
      g (D.addr SS ((i : Int) + a) ((j : Int) + b)) = r2.el SS a b := by
    intro a b ha hb hab
    rw [← Int.natCast_add, ← Int.natCast_add, hg _ _ (by omega) hab, h2 a b ha (by omega) hb, h1 a b ha hb,
      ← Int.natCast_add, ← Int.natCast_add, fC a b ha hb]
    rfl
  have hal : ∀ a b : Nat, a < RM * SS → b < TR * SS → j + b ≤ i + a →
      (m' (D.addr SS ((i : Int) + a) ((j : Int) + b))).isSome = true := by
    intro a b ha hb hab
    rw [← Int.natCast_add, ← Int.natCast_add]
    exact al (h.rD _ _ (by omega) hab)
  by_cases hd : i = j
  · rw [if_pos hd]
    refine (Reg.runs_storeLower h.ss h.wD atD h.sD (fun _ => cast_mod_zero hiS) g
      (fun a b ha hb hab => hal a b ha hb (by omega)) (fun a b ha hb hab => hval a b ha hb (by omega))).mono ?_
    intro _ m'' hw2
    refine hw2.congr (fun z => ?_)
    constructor
    · rintro ⟨a, b, ha, hb, hab, rfl⟩
      exact ⟨i + a, j + b, by omega, by omega, by push_cast; rfl⟩
    · rintro ⟨a, b, hab, hR, rfl⟩
      refine ⟨a - i, b - j, by omega, by omega, by omega, ?_⟩
      rw [← Int.natCast_add, ← Int.natCast_add, show i + (a - i) = a by omega, show j + (b - j) = b by omega]
  · rw [if_neg hd]
    have hge := multiple_gap hi hj (show j < i by omega)
    refine (Reg.runs_store h.ss h.wD atD h.sD (fun _ => cast_mod_zero hiS) g
      (fun a b ha hb => hal a b ha hb (by omega)) (fun a b ha hb => hval a b ha hb (by omega))).mono ?_
    intro _ m'' hw2
    refine hw2.congr (fun z => ?_)
    constructor
    · rintro ⟨a, b, ha, hb, rfl⟩
      exact ⟨i + a, j + b, by omega, by omega, by push_cast; rfl⟩
    · rintro ⟨a, b, hab, hR, rfl⟩
      refine ⟨a - i, b - j, by omega, by omega, ?_⟩
      rw [← Int.natCast_add, ← Int.natCast_add, show i + (a - i) = a by omega, show j + (b - j) = b by omega]

theorem syrkTilePart_writes (h : SyrkPre SS TR M K A C D m)
    (hg : ∀ a b : Nat, a < M → b ≤ a → g (D.addr SS a b) =
      syrkEntry alpha beta (fun k => val m (A.addr SS a k)) (fun k => val m (A.addr SS b k)) (val m (C.addr SS a b)) K)
    {i j RM ml mm nn : Nat} (hi : i % (TR * SS) = 0) (hj : j % (TR * SS) = 0) (hij : j ≤ i) (him : i + mm ≤ M)
    (hjn : j + nn ≤ M) (hml : mm ≤ ml) (hmm : ml ≤ RM * SS) (hnn : nn ≤ TR * SS)
    (hT : i + RM * SS ≤ roundUp M (TR * SS)) :
    WritesTile SS M M D (fun a b => b ≤ a) m g (syrkTilePart SS TR RM K alpha A beta C D i j ml mm nn) i j mm nn := by
  intro S m' hw hS
  have hT0 : 0 < TR * SS := Nat.mul_pos h.tr h.ss
  have hiS := mod_of_mod_mul hi
  have hjS := mod_of_mod_mul hj
  have hS' : ∀ x, S x → ∃ a b : Nat, a < M ∧ b < M ∧ x = D.addr SS a b := by
    intro x hx; obtain ⟨a, b, ha, hb, _, _, e⟩ := hS x hx; exact ⟨a, b, ha, hb, e⟩
  have al : ∀ {z : Int}, (m z).isSome = true → (m' z).isSome = true := fun hz => hw.isSome hz
  have fC : ∀ r c : Nat, r < mm → c < nn → val m' (C.addr SS (i + r : Nat) (j + c : Nat)) =
      val m (C.addr SS (i + r : Nat) (j + c : Nat)) := by
    intro r c hr hc
    refine val_unchanged hw (fun hs => ?_)
    obtain ⟨a, b, ha, hb, _, hn, e⟩ := hS _ hs
    obtain ⟨e1, e2⟩ := h.dC _ _ _ _ (show i + r < M by omega) (show j + c < M by omega) ha hb e
    omega
  have atC := at_off h.ss h.wC i j (fun _ => by unfold MPtr.major; rw [h.sC]; exact cast_mod_zero hiS)
  have atD := at_off h.ss h.wD i j (fun _ => by unfold MPtr.major; rw [h.sD]; exact cast_mod_zero hiS)
  unfold syrkTilePart
  refine ReadsQ.bind_runs (Reg.reads_loadBP h.ss h.wC atC h.sC (fun _ => cast_mod_zero hiS) hmm
    (fun a b ha hab hb hbn => ?_)) (fun r1 h1 => ?_)
  · rw [← Int.natCast_add, ← Int.natCast_add]
    exact al (h.rC _ _ (by omega) (by omega))
  refine ReadsQ.bind_runs (reads_syrkAcc h hw hS' hiS hjS hT hjn mm hnn r1) (fun r2 h2 => ?_)
  have hval : ∀ a b : Nat, a < mm → b < nn → j + b ≤ i + a →
      g (D.addr SS ((i : Int) + a) ((j : Int) + b)) = r2.el SS a b := by
    intro a b ha hb hab
    rw [← Int.natCast_add, ← Int.natCast_add, hg _ _ (by omega) hab, h2 a b (by omega) (by omega) hb,
      h1 a b (by omega) (by omega) hb,
      ← Int.natCast_add, ← Int.natCast_add, fC a b ha hb]
    rfl
  have hal : ∀ a b : Nat, a < mm → b < nn → j + b ≤ i + a →
      (m' (D.addr SS ((i : Int) + a) ((j : Int) + b))).isSome = true := by
    intro a b ha hb hab
    rw [← Int.natCast_add, ← Int.natCast_add]
    exact al (h.rD _ _ (by omega) hab)
  by_cases hd : i = j
  · rw [if_pos hd]
    refine (Reg.runs_storeLowerP h.ss h.wD atD h.sD (fun _ => cast_mod_zero hiS) g
      (fun a b _ ha _ hb hab => hal a b ha hb (by omega))
      (fun a b _ ha _ hb hab => hval a b ha hb (by omega))).mono ?_
    intro _ m'' hw2
    refine hw2.congr (fun z => ?_)
    constructor
    · rintro ⟨a, b, _, ha, _, hb, hab, rfl⟩
      exact ⟨i + a, j + b, by omega, by omega, by push_cast; rfl⟩
    · rintro ⟨a, b, hab, hR, rfl⟩
      refine ⟨a - i, b - j, by omega, by omega, by omega, by omega, by omega, ?_⟩
      rw [← Int.natCast_add, ← Int.natCast_add, show i + (a - i) = a by omega, show j + (b - j) = b by omega]
  · rw [if_neg hd]
    have hge := multiple_gap hi hj (show j < i by omega)
    refine (Reg.runs_storeP h.ss h.wD atD h.sD (fun _ => cast_mod_zero hiS) (by omega) g
      (fun a b ha _ hb => hal a b ha hb (by omega)) (fun a b ha _ hb => hval a b ha hb (by omega))).mono ?_
    intro _ m'' hw2
    refine hw2.congr (fun z => ?_)
    constructor
    · rintro ⟨a, b, ha, _, hb, rfl⟩
      exact ⟨i + a, j + b, by omega, by omega, by push_cast; rfl⟩
    · rintro ⟨a, b, hab, hR, rfl⟩
      refine ⟨a - i, b - j, by omega, by omega, by omega, ?_⟩
      rw [← Int.natCast_add, ← Int.natCast_add, show i + (a - i) = a by omega, show j + (b - j) = b by omega]

/-- Result of syrk, as values. -/
theorem syrkPtr_correct (h : SyrkPre SS TR M K A C D m) :
    ∃ m', syrkPtr SS TR M K alpha A beta C D m = .ok () m' ∧
      (∀ i j : Nat, i < M → j ≤ i → m' (D.addr SS i j) = some
        (syrkEntry alpha beta (fun k => val m (A.addr SS i k)) (fun k => val m (A.addr SS j k))
          (val m (C.addr SS i j)) K)) ∧
      (∀ z, (∀ i j : Nat, i < M → j ≤ i → z ≠ D.addr SS i j) → m' z = m z) := by
  obtain ⟨g, hg⟩ := exists_cellFn h.iD (fun i j =>
    syrkEntry alpha beta (fun k => val m (A.addr SS i k)) (fun k => val m (A.addr SS j k)) (val m (C.addr SS i j)) K)
  have hg' : ∀ a b : Nat, a < M → b ≤ a → g (D.addr SS a b) = syrkEntry alpha beta
      (fun k => val m (A.addr SS a k)) (fun k => val m (A.addr SS b k)) (val m (C.addr SS a b)) K :=
    fun a b ha hb => hg a b ha (by omega)
  have hT : 0 < TR * SS := Nat.mul_pos h.tr h.ss
  have hself := self_le_roundUp (n := M) hT
  have key : Runs (syrkPtr SS TR M K alpha A beta C D) m (fun _ m' => WritesSet m m' (fun x =>
      ∃ a b : Nat, a < M ∧ b < M ∧ b ≤ a ∧ x = D.addr SS a b) g) := by
    unfold syrkPtr
    refine runs_tiles (SS := SS) (D := D) (R := fun a b => b ≤ a) (g := g) hT (fun j => j)
      (fun j hj hjM => ⟨by omega, hj⟩) (fun j a b _ hjb hab => Nat.le_trans hjb hab) ?_ ?_ ?_ ?_
    · intro rm i j _ hij hi hj him hjn
      have e : rm * (TR * SS) = rm * TR * SS := (Nat.mul_assoc _ _ _).symm
      rw [e] at him ⊢
      exact syrkTileFull_writes h hg' hi hj hij him hjn
    · intro i j hij hi hj hiM hMi hjn
      exact syrkTilePart_writes h hg' hi hj hij (by omega) hjn (Nat.le_refl _) (by omega) (Nat.le_refl _)
        (le_roundUp hT (by rw [Nat.add_mod_right]; exact hi) (by omega))
    · intro rm i j _ hij hi hj him hjN hNj
      have e : rm * (TR * SS) = rm * TR * SS := (Nat.mul_assoc _ _ _).symm
      rw [e] at him ⊢
      exact syrkTilePart_writes h hg' hi hj hij him (by omega) (Nat.le_refl _) (Nat.le_refl _) (by omega) (by omega)
    · intro i j hij hi hj hiM hMi hjN hNj
      exact syrkTilePart_writes h hg' hi hj hij (by omega) (by omega) (by omega) (Nat.le_refl _) (by omega)
        (le_roundUp hT (by rw [Nat.add_mod_right]; exact hi) (by omega))
  obtain ⟨_, m', h1, h2⟩ := key
  refine ⟨m', h1, fun i j hi hj => ?_, fun z hz => (h2 z).2 ?_⟩
  · rw [(h2 _).1 ⟨i, j, hi, by omega, hj, rfl⟩, hg' i j hi hj]
  · rintro ⟨a, b, ha, _, hab, e⟩
    exact hz a b ha hab e

end
end Blast
