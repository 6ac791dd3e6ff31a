import Verif.Props.Gemm
import Verif.RegLower
import Verif.RealArith
/- Concrete cases meeting the hypotheses of these theorems: Verif/Cases/Register.lean, and the examples in this file. -/
/-
Properties C36-C38: the register matrix.
`RegisterMatrix<ET, RM*SS, N>` is used on a tile: the pointer `p(I, J)` obtained from a pointer `p` to the origin of
a column-major matrix.
-/
set_option linter.unusedSectionVars false
namespace Blast
open Finset Prog
variable {V : Type}

/-- Conditions under which `p(I,J)` may be handed to a register matrix: `p` is the (well-formed) pointer to a
column-major matrix; aligned pointers and panel matrices are only used at SIMD-aligned rows. -/
structure TilePtr (SS : Nat) (p : MPtr) (I : Nat) : Prop where
  ss : 0 < SS
  wf : p.WF SS
  so : p.so = .columnMajor
  al : p.aligned = true ∨ p.panel = true → I % SS = 0

/-- the elements `(I+a, J+b)` of the matrix at `p` with `a < r`, `b < c` -/
def Block (SS : Nat) (p : MPtr) (I J r c : Nat) (x : Int) : Prop :=
  ∃ a b : Nat, a < r ∧ b < c ∧ x = p.addr SS (I + a : Nat) (J + b : Nat)

/-- all elements of the block are allocated -/
def BlockAlloc (SS : Nat) (m : Mem V) (p : MPtr) (I J r c : Nat) : Prop :=
  ∀ a b : Nat, a < r → b < c → (m (p.addr SS (I + a : Nat) (J + b : Nat))).isSome = true

theorem TilePtr.at_ {SS : Nat} {p : MPtr} {I : Nat} (h : TilePtr SS p I) (J : Nat) :
    MPtr.At SS (p.off SS I J) p I J :=
  at_off h.ss h.wf I J (fun ha => by
    unfold MPtr.major; rw [h.so]; exact cast_mod_zero (h.al (Or.inl ha)))

theorem TilePtr.hc {SS : Nat} {p : MPtr} {I : Nat} (h : TilePtr SS p I) (hp : p.panel = true) :
    ((I : Nat) : Int) % (SS : Int) = 0 := cast_mod_zero (h.al (Or.inr hp))

theorem exists_blockFn [Arith V] {SS : Nat} {p : MPtr} {I J r c : Nat} (h : Inj SS p (I + r) (J + c))
    (F : Nat → Nat → V) :
    ∃ g : Int → V, ∀ a b : Nat, a < r → b < c → g (p.addr SS ((I : Int) + (a : Nat)) ((J : Int) + (b : Nat))) = F a b := by
  obtain ⟨g, hg⟩ := exists_cellFn h (fun i j => F (i - I) (j - J))
  refine ⟨g, fun a b ha hb => ?_⟩
  have := hg (I + a) (J + b) (by omega) (by omega)
  rw [show I + a - I = a by omega, show J + b - J = b by omega] at this
  rw [← this]; push_cast; rfl

/-- **C36** (partial store). `store(p(I,J), mm, nn)` leaves the register values in the elements `(I+a, J+b)`,
`a < mm`, `b < nn`, and changes no other memory cell. Only these elements need to be allocated. -/
theorem C36_store_partial_exact [Arith V] {SS RM N mm nn I J : Nat} {p : MPtr} {m : Mem V} (r : Reg V)
    (h : TilePtr SS p I) (hmm : mm ≤ RM * SS) (hnn : nn ≤ N) (hi : Inj SS p (I + mm) (J + nn))
    (hal : BlockAlloc SS m p I J mm nn) :
    ∃ m', r.storeP SS RM N (p.off SS I J) mm nn m = .ok () m' ∧
      (∀ a b : Nat, a < mm → b < nn → m' (p.addr SS (I + a : Nat) (J + b : Nat)) = some (r.el SS a b)) ∧
      (∀ x, ¬ Block SS p I J mm nn x → m' x = m x) := by
  obtain ⟨g, hg⟩ := exists_blockFn (J := J) hi (fun a b => r.el SS a b)
  obtain ⟨_, m', h1, h2⟩ := Reg.runs_storeP (r := r) (N := N) (nn := nn) (m := m) h.ss h.wf (h.at_ J) h.so h.hc hmm g
    (fun a b ha _ hb => by have := hal a b ha hb; push_cast at this; exact this)
    (fun a b ha _ hb => hg a b ha hb)
  refine ⟨m', h1, fun a b ha hb => ?_, fun x hx => (h2 x).2 ?_⟩
  · push_cast
    rw [(h2 _).1 ⟨a, b, ha, by omega, hb, rfl⟩, hg a b ha hb]
  · rintro ⟨a, b, ha, _, hb, rfl⟩
    exact hx ⟨a, b, ha, hb, by push_cast; rfl⟩

/-- **C36** (full store). `store(p(I,J))` writes exactly the `RM*SS × N` block. -/
theorem C36_store_full_exact [Arith V] {SS RM N I J : Nat} {p : MPtr} {m : Mem V} (r : Reg V)
    (h : TilePtr SS p I) (hi : Inj SS p (I + RM * SS) (J + N)) (hal : BlockAlloc SS m p I J (RM * SS) N) :
    ∃ m', r.store SS RM N (p.off SS I J) m = .ok () m' ∧
      (∀ a b : Nat, a < RM * SS → b < N → m' (p.addr SS (I + a : Nat) (J + b : Nat)) = some (r.el SS a b)) ∧
      (∀ x, ¬ Block SS p I J (RM * SS) N x → m' x = m x) := by
  obtain ⟨g, hg⟩ := exists_blockFn (J := J) hi (fun a b => r.el SS a b)
  obtain ⟨_, m', h1, h2⟩ := Reg.runs_store (r := r) (N := N) (m := m) h.ss h.wf (h.at_ J) h.so h.hc g
    (fun a b ha hb => by have := hal a b ha hb; push_cast at this; exact this)
    (fun a b ha hb => hg a b ha hb)
  refine ⟨m', h1, fun a b ha hb => ?_, fun x hx => (h2 x).2 ?_⟩
  · push_cast
    rw [(h2 _).1 ⟨a, b, ha, hb, rfl⟩, hg a b ha hb]
  · rintro ⟨a, b, ha, hb, rfl⟩
    exact hx ⟨a, b, ha, hb, by push_cast; rfl⟩

/-- **C36** (partial load). Through a pointer declared unaligned or unpadded `load(beta, p(I,J), mm, nn)` gives
`beta * p(I+a, J+b)` in element `(a,b)`, changes nothing, and needs only the requested elements to be allocated:
it also runs, with the same elements, when everything else is unallocated. -/
theorem C36_load_partial_exact [Arith V] {SS RM N mm nn I J : Nat} {p : MPtr} {m : Mem V} (r : Reg V) (beta : V)
    (h : TilePtr SS p I) (hmm : mm ≤ RM * SS) (hnn : nn ≤ N) (hup : p.aligned = false ∨ p.padded = false)
    {A : Nat → Nat → V}
    (hA : ∀ a b : Nat, a < mm → b < nn → m (p.addr SS (I + a : Nat) (J + b : Nat)) = some (A a b)) :
    (∃ r', r.loadBP SS RM N beta (p.off SS I J) mm nn m = .ok r' m ∧
      ∀ a b : Nat, a < mm → b < nn → r'.el SS a b = Arith.mul beta (A a b)) ∧
    (∃ r', r.loadBP SS RM N beta (p.off SS I J) mm nn (onlyAllocated (Block SS p I J mm nn) m) =
        .ok r' (onlyAllocated (Block SS p I J mm nn) m) ∧
      ∀ a b : Nat, a < mm → b < nn → r'.el SS a b = Arith.mul beta (A a b)) := by
  have key : ∀ m : Mem V,
      (∀ a b : Nat, a < mm → b < nn → m (p.addr SS (I + a : Nat) (J + b : Nat)) = some (A a b)) →
      ∃ r', r.loadBP SS RM N beta (p.off SS I J) mm nn m = .ok r' m ∧
      ∀ a b : Nat, a < mm → b < nn → r'.el SS a b = Arith.mul beta (A a b) := by
    intro m hA
    have hq : ¬ ((p.off SS I J).aligned && (p.off SS I J).padded) = true := by
      show ¬ (p.aligned && p.padded) = true
      rcases hup with h | h <;> rw [h] <;> simp
    obtain ⟨r', h1, h2⟩ := Reg.reads_loadBP (r := r) (N := N) (nn := nn) (beta := beta) (m := m) h.ss h.wf (h.at_ J) h.so
      h.hc hmm (fun a b _ ha _ hb => by
        rcases ha with ha | ha
        · have := hA a b ha hb; push_cast at this; rw [this]; rfl
        · exact absurd ha.1 hq)
    refine ⟨r', h1, fun a b ha hb => ?_⟩
    rw [h2 a b ha (by omega) hb]
    have := hA a b ha hb; push_cast at this
    unfold val; rw [this]; rfl
  refine ⟨key m hA, key _ (fun a b ha hb => ?_)⟩
  rw [onlyAllocated_of ⟨a, b, ha, hb, rfl⟩]; exact hA a b ha hb

/-- **C36** (partial load, aligned and padded pointer). The load may also touch the padding rows up to the next
multiple of the SIMD width, and nothing else. -/
theorem C36_load_partial_padded [Arith V] {SS RM N mm nn I J : Nat} {p : MPtr} {m : Mem V} (r : Reg V) (beta : V)
    (h : TilePtr SS p I) (hmm : mm ≤ RM * SS) (hnn : nn ≤ N)
    (hal : BlockAlloc SS m p I J (roundUp mm SS) nn) {A : Nat → Nat → V}
    (hA : ∀ a b : Nat, a < mm → b < nn → m (p.addr SS (I + a : Nat) (J + b : Nat)) = some (A a b)) :
    ∃ r', r.loadBP SS RM N beta (p.off SS I J) mm nn (onlyAllocated (Block SS p I J (roundUp mm SS) nn) m) =
        .ok r' (onlyAllocated (Block SS p I J (roundUp mm SS) nn) m) ∧
      ∀ a b : Nat, a < mm → b < nn → r'.el SS a b = Arith.mul beta (A a b) := by
  have hru : ∀ a, a / SS * SS < mm → a < roundUp mm SS := by
    intro a ha
    have h1 := Nat.mod_lt a h.ss
    have h2 := Nat.div_add_mod a SS
    have : (a / SS + 1) * SS ≤ roundUp mm SS := by
      apply le_roundUp h.ss (Nat.mul_mod_left _ _)
      rw [Nat.add_mul]; omega
    rw [Nat.add_mul, Nat.mul_comm (a / SS)] at this
    omega
  have hself := self_le_roundUp (n := mm) h.ss
  obtain ⟨r', h1, h2⟩ := Reg.reads_loadBP (r := r) (N := N) (nn := nn) (beta := beta)
    (m := onlyAllocated (Block SS p I J (roundUp mm SS) nn) m) h.ss h.wf (h.at_ J) h.so
    h.hc hmm (fun a b _ ha _ hb => by
      have ha' : a < roundUp mm SS := by
        rcases ha with ha | ha
        · omega
        · exact hru a ha.2
      rw [onlyAllocated_of ⟨a, b, ha', hb, by push_cast; rfl⟩]
      have := hal a b ha' hb; push_cast at this; exact this)
  refine ⟨r', h1, fun a b ha hb => ?_⟩
  rw [h2 a b ha (by omega) hb]
  unfold val
  rw [onlyAllocated_of ⟨a, b, by omega, hb, by push_cast; rfl⟩]
  have := hA a b ha hb; push_cast at this
  rw [this]; rfl

/-- **C36** (copy). `ker.load(1, p(I,J), mm, nn); ker.store(q(I',J'), mm, nn)` copies the elements of the source
block to the target block, and changes nothing else. -/
theorem C36_load_store_copies [CommRing V] [Arith V] [ExactRing V] {SS RM N mm nn I J I' J' : Nat} {p q : MPtr}
    {m : Mem V} (r : Reg V)
    (h : TilePtr SS p I) (hq : TilePtr SS q I') (hmm : mm ≤ RM * SS) (hnn : nn ≤ N)
    (hup : p.aligned = false ∨ p.padded = false) (hi : Inj SS q (I' + mm) (J' + nn))
    (hal : BlockAlloc SS m q I' J' mm nn) {A : Nat → Nat → V}
    (hA : ∀ a b : Nat, a < mm → b < nn → m (p.addr SS (I + a : Nat) (J + b : Nat)) = some (A a b)) :
    ∃ m', (do let r' ← r.loadBP SS RM N Arith.one (p.off SS I J) mm nn
              r'.storeP SS RM N (q.off SS I' J') mm nn) m = .ok () m' ∧
      (∀ a b : Nat, a < mm → b < nn → m' (q.addr SS (I' + a : Nat) (J' + b : Nat)) = some (A a b)) ∧
      (∀ x, ¬ Block SS q I' J' mm nn x → m' x = m x) := by
  obtain ⟨⟨r', h1, h2⟩, _⟩ := C36_load_partial_exact r Arith.one h hmm hnn hup hA
  obtain ⟨m', h3, h4, h5⟩ := C36_store_partial_exact r' hq hmm hnn hi hal
  refine ⟨m', by rw [bind_ok h1]; exact h3, fun a b ha hb => ?_, h5⟩
  rw [h4 a b ha hb, h2 a b ha hb, ExactRing.mul_eq, ExactRing.one_eq, one_mul]

/-- the elements of the block on or below its own diagonal -/
def LowerBlock (SS : Nat) (p : MPtr) (I J r c : Nat) (x : Int) : Prop :=
  ∃ a b : Nat, a < r ∧ b < c ∧ b ≤ a ∧ x = p.addr SS (I + a : Nat) (J + b : Nat)

/-- **C37**. `storeLower(p(I,J))` writes the register values to exactly the elements on and below the diagonal of
the block. Only these need to be allocated. -/
theorem C37_storeLower_exact [Arith V] {SS RM N I J : Nat} {p : MPtr} {m : Mem V} (r : Reg V)
    (h : TilePtr SS p I) (hi : Inj SS p (I + RM * SS) (J + N))
    (hal : ∀ a b : Nat, a < RM * SS → b < N → b ≤ a → (m (p.addr SS (I + a : Nat) (J + b : Nat))).isSome = true) :
    ∃ m', r.storeLower SS RM N (p.off SS I J) m = .ok () m' ∧
      (∀ a b : Nat, a < RM * SS → b < N → b ≤ a →
        m' (p.addr SS (I + a : Nat) (J + b : Nat)) = some (r.el SS a b)) ∧
      (∀ x, ¬ LowerBlock SS p I J (RM * SS) N x → m' x = m x) := by
  obtain ⟨g, hg⟩ := exists_blockFn (J := J) hi (fun a b => r.el SS a b)
  obtain ⟨_, m', h1, h2⟩ := Reg.runs_storeLower (r := r) (N := N) (m := m) h.ss h.wf (h.at_ J) h.so h.hc g
    (fun a b ha hb hab => by have := hal a b ha hb hab; push_cast at this; exact this)
    (fun a b ha hb _ => hg a b ha hb)
  refine ⟨m', h1, fun a b ha hb hab => ?_, fun x hx => (h2 x).2 ?_⟩
  · push_cast
    rw [(h2 _).1 ⟨a, b, ha, hb, hab, rfl⟩, hg a b ha hb]
  · rintro ⟨a, b, ha, hb, hab, rfl⟩
    exact hx ⟨a, b, ha, hb, hab, by push_cast; rfl⟩

/-- **C37** (partial). `storeLower(p(I,J), mm, nn)` writes exactly the elements on and below the diagonal with
`a < mm`, `b < nn`. -/
theorem C37_storeLower_rect_exact [Arith V] {SS RM N mm nn I J : Nat} {p : MPtr} {m : Mem V} (r : Reg V)
    (h : TilePtr SS p I) (hmm : mm ≤ RM * SS) (hnn : nn ≤ N) (hi : Inj SS p (I + mm) (J + nn))
    (hal : ∀ a b : Nat, a < mm → b < nn → b ≤ a → (m (p.addr SS (I + a : Nat) (J + b : Nat))).isSome = true) :
    ∃ m', r.storeLowerP SS RM N (p.off SS I J) mm nn m = .ok () m' ∧
      (∀ a b : Nat, a < mm → b < nn → b ≤ a →
        m' (p.addr SS (I + a : Nat) (J + b : Nat)) = some (r.el SS a b)) ∧
      (∀ x, ¬ LowerBlock SS p I J mm nn x → m' x = m x) := by
  obtain ⟨g, hg⟩ := exists_blockFn (J := J) hi (fun a b => r.el SS a b)
  obtain ⟨_, m', h1, h2⟩ := Reg.runs_storeLowerP (r := r) (N := N) (mm := mm) (nn := nn) (m := m) h.ss h.wf (h.at_ J)
    h.so h.hc g
    (fun a b _ ha _ hb hab => by have := hal a b ha hb hab; push_cast at this; exact this)
    (fun a b _ ha _ hb _ => hg a b ha hb)
  refine ⟨m', h1, fun a b ha hb hab => ?_, fun x hx => (h2 x).2 ?_⟩
  · push_cast
    rw [(h2 _).1 ⟨a, b, by omega, ha, by omega, hb, hab, rfl⟩, hg a b ha hb]
  · rintro ⟨a, b, _, ha, _, hb, hab, rfl⟩
    exact hx ⟨a, b, ha, hb, hab, by push_cast; rfl⟩

/-- **C38** (triangular solve). `trsm(Right, Upper, A)` turns the register matrix B into X with
`X * triu(A) = B`, reading only the upper triangle of A (whose diagonal is nonzero) and writing no memory. -/
theorem C38_register_trsm [Field V] [Arith V] [ExactField V] {SS RM N : Nat} (hSS : 0 < SS) {A : MPtr} {m : Mem V}
    (B : Reg V) {a : Nat → Nat → V}
    (hA : ∀ k j : Nat, k ≤ j → j < N → m (A.addr SS k j) = some (a k j)) (hd : ∀ j, j < N → a j j ≠ 0) :
    ∃ X, B.trsm SS RM N .right .upper A m = .ok X m ∧ ∀ i j : Nat, i < RM * SS → j < N →
      ∑ k ∈ range (j + 1), X.el SS i k * a k j = B.el SS i j := by
  obtain ⟨X, h1, h2⟩ := Reg.reads_trsmRU (RM := RM) (r := B) hSS hA
  refine ⟨X, h1, fun i j hi hj => ?_⟩
  rw [sum_range_succ, h2 i j hi hj, fnmaSum_eq, ExactField.div_eq _ _ (hd j hj), div_mul_cancel₀ _ (hd j hj)]
  rw [sum_congr rfl (fun k _ => mul_comm (a k j) (X.el SS i k))]
  ring

/-- **C38** (triangular solve, other sides). For every other combination of side and triangle a release build returns
normally with the registers and the memory as they were: `B` is returned as if it were the solution. -/
theorem C38_trsm_other_sides_do_nothing [Arith V] (SS RM N : Nat) (side : Reg.Side) (uplo : Reg.UpLo)
    (h : ¬ (side = .right ∧ uplo = .upper)) (B : Reg V) (A : MPtr) (m : Mem V) :
    B.trsm SS RM N side uplo A m = .ok B m := by
  cases side <;> cases uplo <;> first | rfl | exact absurd ⟨rfl, rfl⟩ h

/-- The property "`trsm(side, uplo, A)` solves the system it names" is therefore false for the other three: with the
1-column register matrix `B = (1, …, 1)` and `A = (2)` the result of `trsm(Left, Lower, A)` is `B` itself, and
`A * X = B` fails. -/
theorem C38_trsm_other_sides_refuted :
    ∃ (m : Mem Rat) (A : MPtr) (B X : Reg Rat), m (A.addr 1 0 0) = some 2 ∧
      B.trsm 1 1 1 .left .lower A m = .ok X m ∧ 2 * X.el 1 0 0 ≠ B.el 1 0 0 :=
  ⟨fun _ => some 2, ⟨false, .columnMajor, false, false, 0, 1⟩, fun _ _ _ => 1, fun _ _ _ => 1, rfl, rfl, by
    show (2 : Rat) * 1 ≠ 1; norm_num⟩

/-- **C38** (Cholesky). If the lower triangle of the top `N × N` block is positive definite, `potrf()` turns the
register matrix A into L with positive diagonal and `L * L_top^T = A` on and below the diagonal; memory is not
accessed. -/
theorem C38_register_potrf [Field V] [LinearOrder V] [IsStrictOrderedRing V] [Arith V] [ExactSqrt V]
    {SS RM N : Nat} (hSS : 0 < SS) (hN : N ≤ RM * SS) (m : Mem V) (A : Reg V)
    (hpd : LowerPosDef N (fun i j => A.el SS i j)) :
    ∃ L, A.potrf SS RM N m = .ok L m ∧ (∀ k, k < N → 0 < L.el SS k k) ∧
      (∀ i k : Nat, k ≤ i → i < RM * SS → k < N →
        ∑ q ∈ range (k + 1), L.el SS i q * L.el SS k q = A.el SS i k) := by
  obtain ⟨L, h1, h2⟩ := Reg.reads_potrf (m := m) (r := A) hSS hN
  refine ⟨L, h1, ?_⟩
  exact cholesky_exact hN hpd (fun i k hki hi hk => (h2 i k hi hk).1 (Nat.div_le_div_right hki))

/-! ### The hypotheses are satisfiable -/

/-- origin of the 12×8 column-major dense matrix of the examples below (SIMD width 4) -/
def tileDemo : MPtr := { panel := false, so := .columnMajor, aligned := false, padded := true, ptr := 0, spacing := 12 }

example : TilePtr 4 tileDemo 1 ∧ Inj 4 tileDemo (1 + 7) (2 + 3) ∧ BlockAlloc 4 demoMem tileDemo 1 2 7 3 := by
  refine ⟨⟨by decide, by decide, rfl, by decide⟩, ?_, ?_⟩
  · intro i j i' j' _ _ _ _ he
    rw [MPtr.addr_dense_col rfl rfl, MPtr.addr_dense_col rfl rfl] at he
    simp only [tileDemo] at he
    omega
  · intro a b ha hb
    rw [MPtr.addr_dense_col rfl rfl]
    have h1 : 0 ≤ tileDemo.ptr + ((1 + a : Nat) : Int) + tileDemo.spacing * ((2 + b : Nat) : Int) := by
      simp only [tileDemo]; omega
    have h2 : tileDemo.ptr + ((1 + a : Nat) : Int) + tileDemo.spacing * ((2 + b : Nat) : Int) < 1000 := by
      simp only [tileDemo]; omega
    unfold demoMem
    rw [if_pos ⟨h1, h2⟩]; rfl

/-- the identity register matrix is positive definite -/
example : LowerPosDef (V := ℝ) 3 (fun i j => Reg.el 4 (fun i j l => if i * 4 + l = j then 1 else 0) i j) := by
  intro x hx
  have e : ∀ i ∈ range 3, ∑ j ∈ range 3, x i *
      (Reg.el 4 (fun i j l => if i * 4 + l = j then (1 : ℝ) else 0) (max i j) (min i j)) * x j = x i * x i := by
    intro i hi
    have e2 : ∀ j ∈ range 3, x i *
      (Reg.el 4 (fun i j l => if i * 4 + l = j then (1 : ℝ) else 0) (max i j) (min i j)) * x j =
        if j = i then x i * x i else 0 := by
      intro j _
      unfold Reg.el
      dsimp only
      by_cases hij : j = i
      · subst hij
        rw [if_pos rfl, if_pos (by rw [max_self, min_self]; omega)]; ring
      · rw [if_neg hij, if_neg (by
          have : max i j / 4 * 4 + max i j % 4 = max i j := by omega
          rw [this]; omega)]; ring
    rw [sum_congr rfl e2, sum_ite_eq' (range 3) i, if_pos hi]
  rw [sum_congr rfl e]
  obtain ⟨i, hi, hne⟩ := hx
  refine sum_pos' (fun j _ => mul_self_nonneg _) ⟨i, mem_range.2 hi, ?_⟩
  exact lt_of_le_of_ne (mul_self_nonneg _) (Ne.symm (mul_self_ne_zero.2 hne))

end Blast
