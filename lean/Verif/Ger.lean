import Verif.RowTiles
/-
Dense rank-1 update.

Models /repo/include/blast/math/dense/Ger.hpp.
-/
set_option linter.unusedSectionVars false
namespace Blast
open Prog
variable {V : Type} [Arith V]

/-- full tile: dense/Ger.hpp:62-65, 69-72, 77-80. `TILE_SIZE = TR * SS`, the kernel has `RM` SIMD rows. -/
def gerTileFull (SS TR RM : Nat) (alpha : V) (x y : VPtr) (A B : MPtr) (i j : Nat) : Prog V Unit := do
  let r ← Reg.loadB SS RM (TR * SS) Reg.reset Arith.one (A.off SS i j)
  let r ← r.gerF SS RM (TR * SS) (Arith.mul alpha) (x.off SS i) (y.off SS j)
  r.store SS RM (TR * SS) (B.off SS i j)

/-- partial tile: dense/Ger.hpp:87-90, 106-109, 114-117, 122-125, 131-134 -/
def gerTilePart (SS TR RM : Nat) (alpha : V) (x y : VPtr) (A B : MPtr) (i j mm nn : Nat) : Prog V Unit := do
  let r ← Reg.loadBP SS RM (TR * SS) Reg.reset Arith.one (A.off SS i j) mm nn
  let r ← r.gerFP SS RM (TR * SS) (Arith.mul alpha) (x.off SS i) (y.off SS j) mm nn
  r.storeP SS RM (TR * SS) (B.off SS i j) mm nn

/-- `ger(M, N, alpha, x, y, A, B)`, column-major: dense/Ger.hpp:40-135. -/
def gerPtr (SS TR M N : Nat) (alpha : V) (x y : VPtr) (A B : MPtr) : Prog V Unit :=
  colTiles (TR * SS) N
    (fun j => rowTiles (TR * SS) M 0
      (fun rm i => gerTileFull SS TR (rm * TR) alpha x y A B i j)
      (fun i => gerTilePart SS TR TR alpha x y A B i j (M - i) (TR * SS)))
    (fun j => rowTiles (TR * SS) M 0
      (fun rm i => gerTilePart SS TR (rm * TR) alpha x y A B i j (rm * (TR * SS)) (N - j))
      (fun i => gerTilePart SS TR TR alpha x y A B i j (M - i) (N - j)))

/-- vector argument: pointer and size -/
structure VArg where
  p : VPtr
  n : Nat

/-- `ger(alpha, x, y, A, B)` on column-major matrices: dense/Ger.hpp:160-185 (and the rvalue overload l.210-220) -/
def gerMat (SS TR : Nat) (alpha : V) (x y : VArg) (A B : Mat) : Prog V Unit :=
  if A.rows ≠ x.n then throw .invalidArgument
  else if A.cols ≠ y.n then throw .invalidArgument
  else if B.rows ≠ x.n then throw .invalidArgument
  else if B.cols ≠ y.n then throw .invalidArgument
  else gerPtr SS TR x.n y.n alpha x.p y.p A.p B.p

/-- `ger(alpha, x, y, A, B)` on row-major matrices: dense/Ger.hpp:245-263: the size of B is not checked; plain element
loop `B(i,j) = A(i,j) + alpha * x[i] * y[j]`. -/
def gerRowMat (SS : Nat) (alpha : V) (x y : VArg) (A B : Mat) : Prog V Unit :=
  if A.rows ≠ x.n ∨ A.cols ≠ y.n then throw .invalidArgument
  else forN x.n (fun i => forN y.n (fun j => do
    let a ← A.p.get SS i j
    let xi ← x.p.get SS i
    let yj ← y.p.get SS j
    B.p.set SS i j (Arith.add a (Arith.mul (Arith.mul alpha xi) yj))))

/-! ### Vector pointers used as columns and rows -/

/-- `x` can be loaded with SIMD loads at SIMD-aligned offsets: a column of a column-major matrix, or a vector that,
if declared aligned and contiguous, starts at a SIMD boundary -/
def VPtr.ColOK (SS : Nat) : VPtr → Prop
  | .rowcol p .columnVector => p.WF SS ∧ p.so = .columnMajor
  | .rowcol _ .rowVector => False
  | .vec st al ptr s => st = true → al = true → s = 1 → ptr % (SS : Int) = 0

/-- `y` can be read elementwise -/
def VPtr.RowOK (SS : Nat) : VPtr → Prop
  | .rowcol p _ => p.WF SS
  | .vec _ _ _ _ => True

theorem VPtr.loads_off {SS : Nat} (hSS : 0 < SS) {x : VPtr} (hx : x.ColOK SS) {I RM : Nat} (hI : I % SS = 0) {m : Mem V}
    (hr : ∀ r : Nat, r < RM * SS → (m (x.addr SS (I + r : Nat))).isSome = true) :
    (x.off SS I).Loads SS m RM (fun r => val m (x.addr SS (I + r : Nat))) := by
  cases x with
  | rowcol p tf =>
    cases tf with
    | rowVector => exact hx.elim
    | columnVector =>
      obtain ⟨hw, hs⟩ := hx
      have h1 := at_off hSS hw I 0 (fun _ => by unfold MPtr.major; rw [hs]; exact cast_mod_zero hI)
      have h2 := column_loads (RM := RM) (m := m) hSS hw h1 hs (fun _ => cast_mod_zero hI) (fun r hr' => by
        have := hr r hr'
        simp only [VPtr.addr] at this
        push_cast at this ⊢; exact this)
      intro i hi
      obtain ⟨v, e1, e2⟩ := h2 i hi
      refine ⟨v, e1, fun l hl => ?_⟩
      rw [e2 l hl]
      show val m (p.addr SS _ _) = val m (p.addr SS _ _)
      push_cast; rfl
  | vec st al ptr s =>
    intro i hi
    show ReadsQ (VPtr.load SS (VPtr.vec st al (ptr + (I : Int) * s + ((i * SS : Nat) : Int) * s) s)) m _
    have hcell : ∀ l, l < SS → (m (ptr + (I : Int) * s + ((i * SS : Nat) : Int) * s + s * (l : Int))).isSome = true := by
      intro l hl
      have := hr (i * SS + l) (idx_lt hi hl)
      simp only [VPtr.addr] at this
      rw [show ptr + ((I + (i * SS + l) : Nat) : Int) * s =
        ptr + (I : Int) * s + ((i * SS : Nat) : Int) * s + s * (l : Int) by push_cast; rw [Int.add_mul, Int.add_mul, Int.mul_comm s]; omega] at this
      exact this
    have haddr : ∀ l : Nat, ptr + (I : Int) * s + ((i * SS : Nat) : Int) * s + s * (l : Int) =
        ptr + ((I + (i * SS + l) : Nat) : Int) * s := by
      intro l; push_cast; rw [Int.add_mul, Int.add_mul, Int.mul_comm s]; omega
    unfold VPtr.load
    by_cases hc : (st && s == 1) = true
    · simp only [hc, if_true]
      simp only [Bool.and_eq_true, beq_iff_eq] at hc
      obtain ⟨h1, h2⟩ := hc
      subst h2
      refine Reads.q (reads_loadVec (fun ha => ?_) (fun l hl => ?_)) (fun l hl => ?_)
      · have hp := hx h1 ha rfl
        rw [Int.mul_one, Int.mul_one, Int.add_emod, Int.add_emod ptr, hp, cast_mod_zero hI, Int.natCast_mul,
          Int.mul_emod_left]
        simp
      · have := hcell l hl
        rw [Int.one_mul] at this; exact this
      · rw [if_pos hl]
        show val m _ = val m _
        have := haddr l
        rw [Int.one_mul] at this
        rw [this]; rfl
    · simp only [hc]
      refine Reads.q (reads_gather (fun l hl _ => hcell l hl)) (fun l hl => ?_)
      simp only [if_pos hl, if_true]
      rw [haddr l]; rfl

theorem VPtr.gets_off {SS : Nat} (hSS : 0 < SS) {y : VPtr} (hy : y.RowOK SS) {J n : Nat} (hJ : J % SS = 0) {m : Mem V}
    (hr : ∀ c : Nat, c < n → (m (y.addr SS (J + c : Nat))).isSome = true) :
    (y.off SS J).Gets SS m n (fun c => val m (y.addr SS (J + c : Nat))) := by
  have key : ∀ c : Nat, (y.off SS J).addr SS (c : Int) = y.addr SS (J + c : Nat) := by
    intro c
    cases y with
    | rowcol p tf =>
      cases tf with
      | rowVector =>
        have h1 := at_off hSS hy 0 J (fun _ => by unfold MPtr.major; cases p.so <;> simp; exact cast_mod_zero hJ)
        show (p.off SS 0 J).addr SS 0 c = _
        rw [Int.natCast_zero] at h1
        rw [h1.addr hSS hy]
        show p.addr SS (0 + 0) (J + c) = p.addr SS 0 _
        push_cast; rfl
      | columnVector =>
        have h1 := at_off hSS hy J 0 (fun _ => by unfold MPtr.major; cases p.so <;> simp; exact cast_mod_zero hJ)
        show (p.off SS J 0).addr SS c 0 = _
        rw [Int.natCast_zero] at h1
        rw [h1.addr hSS hy]
        show p.addr SS (J + c) (0 + 0) = p.addr SS _ 0
        push_cast; rfl
    | vec st al ptr s =>
      show ptr + (J : Int) * s + (c : Int) * s = ptr + ((J + c : Nat) : Int) * s
      push_cast; rw [Int.add_mul]; omega
  intro j hj
  unfold VPtr.get
  rw [key]
  exact reads_val (hr j hj)

/-! ### Tiles -/

/-- value computed for an element of the result -/
def gerEntry (alpha x y a : V) : V := Arith.fma (Arith.mul alpha x) y (Arith.mul Arith.one a)

/-- Assumptions on the arguments of the pointer version of ger. -/
structure GerPre (SS TR M N : Nat) (x y : VPtr) (A B : MPtr) (m : Mem V) : Prop where
  ss : 0 < SS
  tr : 0 < TR
  ox : x.ColOK SS
  oy : y.RowOK SS
  wA : A.WF SS
  wB : B.WF SS
  sA : A.so = .columnMajor
  sB : B.so = .columnMajor
  rx : ∀ i : Nat, i < roundUp M (TR * SS) → (m (x.addr SS i)).isSome = true
  ry : ∀ j : Nat, j < N → (m (y.addr SS j)).isSome = true
  rA : Readable SS m A (if A.aligned && A.padded then roundUp M SS else M) N
  rB : Readable SS m B M N
  iB : Inj SS B M N
  dx : ∀ i : Nat, i < M → ¬ Cells SS B M N (x.addr SS i)
  dy : ∀ j : Nat, j < N → ¬ Cells SS B M N (y.addr SS j)
  dA : SameOrDisj SS A B M N

theorem mod_of_mod_mul {i TR SS : Nat} (h : i % (TR * SS) = 0) : i % SS = 0 := by
  have := Nat.mod_mul_left_mod i TR SS
  rw [h] at this; simpa using this.symm

section
variable {SS TR M N : Nat} {x y : VPtr} {A B : MPtr} {m : Mem V} {alpha : V} {g : Int → V}

theorem gerTile_facts (h : GerPre SS TR M N x y A B m) {i j mm nn : Nat} {S : Int → Prop} {m' : Mem V}
    (hw : WritesSet m m' S g) (him : i + mm ≤ M) (hjn : j + nn ≤ N)
    (hS : ∀ x, S x → ∃ a b : Nat, a < M ∧ b < N ∧ True ∧ (b < j ∨ b < j + nn ∧ a < i) ∧
      x = B.addr SS a b) :
    (∀ r : Nat, r < mm → val m' (x.addr SS (i + r : Nat)) = val m (x.addr SS (i + r : Nat))) ∧
    (∀ c : Nat, c < nn → val m' (y.addr SS (j + c : Nat)) = val m (y.addr SS (j + c : Nat))) ∧
    (∀ r c : Nat, r < mm → c < nn → val m' (A.addr SS (i + r : Nat) (j + c : Nat)) =
      val m (A.addr SS (i + r : Nat) (j + c : Nat))) := by
  refine ⟨fun r hr => val_unchanged hw ?_, fun c hc => val_unchanged hw ?_, fun r c hr hc => val_unchanged hw ?_⟩
  · intro hs
    obtain ⟨a, b, ha, hb, _, _, e⟩ := hS _ hs
    exact h.dx (i + r) (by omega) ⟨a, b, ha, hb, e⟩
  · intro hs
    obtain ⟨a, b, ha, hb, _, _, e⟩ := hS _ hs
    exact h.dy (j + c) (by omega) ⟨a, b, ha, hb, e⟩
  · intro hs
    obtain ⟨a, b, ha, hb, _, hn, e⟩ := hS _ hs
    obtain ⟨e1, e2⟩ := h.dA _ _ _ _ (show i + r < M by omega) (show j + c < N by omega) ha hb e
    omega

theorem gerTileFull_writes (h : GerPre SS TR M N x y A B m)
    (hg : ∀ a b : Nat, a < M → b < N → g (B.addr SS a b) =
      gerEntry alpha (val m (x.addr SS a)) (val m (y.addr SS b)) (val m (A.addr SS a b)))
    {i j RM : Nat} (hi : i % SS = 0) (hj : j % SS = 0) (him : i + RM * SS ≤ M) (hjn : j + TR * SS ≤ N) :
    WritesTile SS M N B (fun _ _ => True) m g (gerTileFull SS TR RM alpha x y A B i j) i j (RM * SS) (TR * SS) := by
  intro S m' hw hS
  obtain ⟨fx, fy, fA⟩ := gerTile_facts h hw him hjn hS
  have al : ∀ {z : Int}, (m z).isSome = true → (m' z).isSome = true := fun hz => hw.isSome hz
  have hself := self_le_roundUp (n := M) (Nat.mul_pos h.tr h.ss)
  have hself' := self_le_roundUp (n := M) h.ss
  have atA := at_off h.ss h.wA i j (fun _ => by unfold MPtr.major; rw [h.sA]; exact cast_mod_zero hi)
  have atB := at_off h.ss h.wB i j (fun _ => by unfold MPtr.major; rw [h.sB]; exact cast_mod_zero hi)
  unfold gerTileFull
  refine ReadsQ.bind_runs (Reg.reads_loadB h.ss h.wA atA h.sA (fun a b ha hb => ?_)) (fun r1 h1 => ?_)
  · rw [← Int.natCast_add, ← Int.natCast_add]
    exact al (h.rA _ _ (by split <;> omega) (by omega))
  refine ReadsQ.bind_runs (Reg.reads_gerF h.ss
    (VPtr.loads_off h.ss h.ox hi (fun r hr => al (h.rx _ (by omega))))
    (VPtr.gets_off h.ss h.oy hj (fun c hc => al (h.ry _ (by omega))))) (fun r2 h2 => ?_)
  refine (Reg.runs_store h.ss h.wB atB h.sB (fun _ => cast_mod_zero hi) g (fun a b ha hb => ?_)
    (fun a b ha hb => ?_)).mono ?_
  · rw [← Int.natCast_add, ← Int.natCast_add]
    exact al (h.rB _ _ (by omega) (by omega))
  · rw [← Int.natCast_add, ← Int.natCast_add, hg _ _ (by omega) (by omega), h2 a b ha hb, h1 a b ha hb, fx a ha, fy b hb,
      ← Int.natCast_add, ← Int.natCast_add, fA a b ha hb]
    rfl
  · intro _ m'' hw2
    refine hw2.congr (fun z => ?_)
    constructor
    · rintro ⟨a, b, ha, hb, rfl⟩
      exact ⟨i + a, j + b, by omega, trivial, by push_cast; rfl⟩
    · rintro ⟨a, b, hab, _, rfl⟩
      refine ⟨a - i, b - j, by omega, by omega, ?_⟩
      rw [← Int.natCast_add, ← Int.natCast_add, show i + (a - i) = a by omega, show j + (b - j) = b by omega]

theorem gerTilePart_writes (h : GerPre SS TR M N x y A B m)
    (hg : ∀ a b : Nat, a < M → b < N → g (B.addr SS a b) =
      gerEntry alpha (val m (x.addr SS a)) (val m (y.addr SS b)) (val m (A.addr SS a b)))
    {i j RM mm nn : Nat} (hi : i % SS = 0) (hj : j % SS = 0) (him : i + mm ≤ M) (hjn : j + nn ≤ N)
    (hmm : mm ≤ RM * SS) (hnn : nn ≤ TR * SS) (hT : i + RM * SS ≤ roundUp M (TR * SS)) :
    WritesTile SS M N B (fun _ _ => True) m g (gerTilePart SS TR RM alpha x y A B i j mm nn) i j mm nn := by
  intro S m' hw hS
  obtain ⟨fx, fy, fA⟩ := gerTile_facts h hw him hjn hS
  have al : ∀ {z : Int}, (m z).isSome = true → (m' z).isSome = true := fun hz => hw.isSome hz
  have atA := at_off h.ss h.wA i j (fun _ => by unfold MPtr.major; rw [h.sA]; exact cast_mod_zero hi)
  have atB := at_off h.ss h.wB i j (fun _ => by unfold MPtr.major; rw [h.sB]; exact cast_mod_zero hi)
  unfold gerTilePart
  refine ReadsQ.bind_runs (Reg.reads_loadBP h.ss h.wA atA h.sA (fun _ => cast_mod_zero hi) hmm
    (fun a b ha hab hb hbn => ?_)) (fun r1 h1 => ?_)
  · rw [← Int.natCast_add, ← Int.natCast_add]
    refine al (h.rA _ _ ?_ (by omega))
    rcases hab with hab | ⟨hap, hab⟩
    · have := self_le_roundUp (n := M) h.ss
      split <;> omega
    · have hap : (A.aligned && A.padded) = true := hap
      rw [if_pos hap]
      have h3 := Nat.mod_lt a h.ss
      have h4 := Nat.div_add_mod a SS
      have h5 : i + (a / SS + 1) * SS ≤ roundUp M SS := by
        apply le_roundUp h.ss
        · rw [Nat.add_mul_mod_self_right]; exact hi
        · rw [Nat.add_mul]; omega
      rw [Nat.add_mul, Nat.mul_comm (a / SS)] at h5
      omega
  refine ReadsQ.bind_runs (Reg.reads_gerFP (mm := mm) (nn := nn) h.ss
    (VPtr.loads_off h.ss h.ox hi (fun r hr => al (h.rx _ (by omega))))
    (VPtr.gets_off h.ss h.oy hj (fun c hc => al (h.ry _ (by omega))))) ?_
  rintro r2 ⟨h2, _⟩
  refine (Reg.runs_storeP h.ss h.wB atB h.sB (fun _ => cast_mod_zero hi) hmm g (fun a b ha hb hbn => ?_)
    (fun a b ha hb hbn => ?_)).mono ?_
  · rw [← Int.natCast_add, ← Int.natCast_add]
    exact al (h.rB _ _ (by omega) (by omega))
  · rw [← Int.natCast_add, ← Int.natCast_add, hg _ _ (by omega) (by omega), h2 a b (by omega) hb hbn,
      h1 a b ha hb hbn, fx a ha, fy b hbn, ← Int.natCast_add, ← Int.natCast_add, fA a b ha hbn]
    rfl
  · intro _ m'' hw2
    refine hw2.congr (fun z => ?_)
    constructor
    · rintro ⟨a, b, ha, hb, hbn, rfl⟩
      exact ⟨i + a, j + b, by omega, trivial, by push_cast; rfl⟩
    · rintro ⟨a, b, hab, _, rfl⟩
      refine ⟨a - i, b - j, by omega, by omega, by omega, ?_⟩
      rw [← Int.natCast_add, ← Int.natCast_add, show i + (a - i) = a by omega, show j + (b - j) = b by omega]

theorem gerPtr_runs (h : GerPre SS TR M N x y A B m)
    (hg : ∀ a b : Nat, a < M → b < N → g (B.addr SS a b) =
      gerEntry alpha (val m (x.addr SS a)) (val m (y.addr SS b)) (val m (A.addr SS a b))) :
    Runs (gerPtr SS TR M N alpha x y A B) m (fun _ m' => WritesSet m m' (Cells SS B M N) g) := by
  have hT : 0 < TR * SS := Nat.mul_pos h.tr h.ss
  have hself := self_le_roundUp (n := M) hT
  unfold gerPtr
  refine (runs_tiles (SS := SS) (D := B) (R := fun _ _ => True) (g := g) hT (fun _ => 0)
    (fun _ _ _ => ⟨by omega, Nat.zero_mod _⟩) (fun _ _ _ _ _ _ => by omega) ?_ ?_ ?_ ?_).mono ?_
  · intro rm i j _ _ hi hj him hjn
    have e : rm * (TR * SS) = rm * TR * SS := (Nat.mul_assoc _ _ _).symm
    rw [e] at him ⊢
    exact gerTileFull_writes h hg (mod_of_mod_mul hi) (mod_of_mod_mul hj) him hjn
  · intro i j _ hi hj hiM hMi hjn
    exact gerTilePart_writes h hg (mod_of_mod_mul hi) (mod_of_mod_mul hj) (by omega) hjn (by omega) (Nat.le_refl _)
      (le_roundUp hT (by rw [Nat.add_mod_right]; exact hi) (by omega))
  · intro rm i j _ _ hi hj him hjN hNj
    have e : rm * (TR * SS) = rm * TR * SS := (Nat.mul_assoc _ _ _).symm
    rw [e] at him ⊢
    exact gerTilePart_writes h hg (mod_of_mod_mul hi) (mod_of_mod_mul hj) (by omega) (by omega) (Nat.le_refl _) (by omega)
      (by omega)
  · intro i j _ hi hj hiM hMi hjN hNj
    exact gerTilePart_writes h hg (mod_of_mod_mul hi) (mod_of_mod_mul hj) (by omega) (by omega) (by omega) (by omega)
      (le_roundUp hT (by rw [Nat.add_mod_right]; exact hi) (by omega))
  · intro _ m' hw
    refine hw.congr (fun z => ?_)
    constructor
    · rintro ⟨a, b, ha, hb, _, e⟩; exact ⟨a, b, ha, hb, e⟩
    · rintro ⟨a, b, ha, hb, e⟩; exact ⟨a, b, ha, hb, trivial, e⟩

/-- Result of ger, as values. -/
theorem gerPtr_correct (h : GerPre SS TR M N x y A B m) :
    ∃ m', gerPtr SS TR M N alpha x y A B m = .ok () m' ∧
      (∀ i j : Nat, i < M → j < N → m' (B.addr SS i j) = some
        (gerEntry alpha (val m (x.addr SS i)) (val m (y.addr SS j)) (val m (A.addr SS i j)))) ∧
      (∀ z, ¬ Cells SS B M N z → m' z = m z) := by
  obtain ⟨g, hg⟩ := exists_cellFn h.iB (fun i j =>
    gerEntry alpha (val m (x.addr SS i)) (val m (y.addr SS j)) (val m (A.addr SS i j)))
  obtain ⟨_, m', h1, h2⟩ := gerPtr_runs h hg
  exact ⟨m', h1, fun i j hi hj => by rw [(h2 _).1 ⟨i, j, hi, hj, rfl⟩, hg i j hi hj], fun z hz => (h2 z).2 hz⟩

end
end Blast
