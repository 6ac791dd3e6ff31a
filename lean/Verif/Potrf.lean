import Verif.Trmm
import Verif.Syrk
/-
Cholesky factorization.

Models /repo/include/blast/math/dense/Potrf.hpp and /repo/include/blast/math/panel/Potrf.hpp; the register operations
are in RegMat.lean.
-/
set_option linter.unusedSectionVars false
namespace Blast
open Prog Reg
variable {V : Type} [Arith V]

/-! ### The code -/

/-- `potrf_backend<KM, KN>(k, i, A, L)` for dense matrices: dense/Potrf.hpp:20-63, KM = RM * SS. `ptr<aligned>(*A, i, k)`
is the pointer `A` (declared aligned) moved to `(i, k)`. -/
def potrfBackendDense (SS RM KN M N : Nat) (A L : MPtr) (k i : Nat) : Prog V Unit := do
  let r ← Reg.loadB SS RM KN Reg.reset Arith.one (A.off SS i k)
  let r ← foldN k (fun l (r : Reg V) => r.gerF SS RM KN (Arith.mul (Arith.neg Arith.one))
    (column ((L.off SS i 0).off SS 0 l)) (row (((L.off SS k 0).trans SS).off SS l 0))) r
  if i = k then do
    let r ← r.potrf SS RM KN
    if k + KN ≤ N then r.storeLower SS RM KN (L.off SS i k)
    else r.storeLowerP SS RM KN (L.off SS i k) (min (M - i) (RM * SS)) (N - k)
  else do
    let r ← r.trsm SS RM KN .right .upper ((L.off SS k k).trans SS)
    if k + KN ≤ N then r.store SS RM KN (L.off SS i k)
    else r.storeP SS RM KN (L.off SS i k) (min (M - i) (RM * SS)) (N - k)

/-- `potrf_backend<KM, KN>(k, i, A, L)` for panel matrices: panel/Potrf.hpp:23-56. The diagonal tile is stored
completely. -/
def potrfBackendPanel (SS RM KN M N : Nat) (A L : MPtr) (k i : Nat) : Prog V Unit := do
  let r ← Reg.load SS RM KN Reg.reset (A.off SS i k)
  let r ← foldN k (fun l (r : Reg V) => r.gerF SS RM KN (Arith.mul (Arith.neg Arith.one))
    (column ((L.off SS i 0).off SS 0 l)) (row (((L.off SS k 0).off SS 0 l).trans SS))) r
  let r ← ((if i = k then r.potrf SS RM KN else r.trsm SS RM KN .right .upper ((L.off SS k k).trans SS)) : Prog V (Reg V))
  if k + KN ≤ N then r.store SS RM KN (L.off SS i k)
  else r.storeP SS RM KN (L.off SS i k) (min (M - i) (RM * SS)) (N - k)

/-- the loops of `potrf`: dense/Potrf.hpp:87-105 (T = TILE_SIZE), panel/Potrf.hpp:87-105 (T = SS). -/
def potrfLoops (T KN M N : Nat) (body : Nat → Nat → Nat → Prog V Unit) : Prog V Unit := do
  let _ ← loop (N + 1) (fun k => k < N) KN (fun k => do
    let i ← loop (M + 1) (fun i => i + 2 * T < M) (3 * T) (body 3 k) k
    let i ← loop (M + 1) (fun i => i + 1 * T < M) (2 * T) (body 2 k) i
    let _ ← loop (M + 1) (fun i => i + 0 * T < M) (1 * T) (body 1 k) i
    pure ()) 0
  pure ()

/-- `potrf(A, L)` for dense matrices after the size checks: dense/Potrf.hpp:87-105; `KN = 4` there. -/
def potrfDensePtr (SS TR KN M N : Nat) (A L : MPtr) : Prog V Unit :=
  potrfLoops (TR * SS) KN M N (fun rm k i => potrfBackendDense SS (rm * TR) KN M N A L k i)

/-- `potrf(A, L)` for panel matrices after the size checks: panel/Potrf.hpp:87-105; `KN = min((RC-4)/3, SS)`. -/
def potrfPanelPtr (SS KN M N : Nat) (A L : MPtr) : Prog V Unit :=
  potrfLoops (1 * SS) KN M N (fun rm k i => potrfBackendPanel SS (rm * 1) KN M N A L k i)

/-- `potrf(A, L)`, dense: dense/Potrf.hpp:66-106 -/
def potrfDenseMat (SS TR : Nat) (A L : Mat) : Prog V Unit :=
  if A.cols > A.rows then throw .invalidArgument
  else if L.rows ≠ A.rows then throw .invalidArgument
  else if L.cols ≠ A.cols then throw .invalidArgument
  else potrfDensePtr SS TR 4 A.rows A.cols A.p L.p

/-- `potrf(A, L)`, panel: panel/Potrf.hpp:59-106 -/
def potrfPanelMat (SS KN : Nat) (A L : Mat) : Prog V Unit :=
  if A.cols > A.rows then throw .invalidArgument
  else if L.rows ≠ A.rows then throw .invalidArgument
  else if L.cols ≠ A.cols then throw .invalidArgument
  else potrfPanelPtr SS KN A.rows A.cols A.p L.p

/-! ### The recurrence -/

/-- `acc` minus the products of rows `r` and `c` of `l` over the columns before `c`, in the order of the code:
the columns of the previous strips first (fused multiply-add with `-1 * l`), then those of the current strip. -/
def potS (KN : Nat) (l : Nat → Nat → V) (acc : V) (r c : Nat) : V :=
  fnmaSum (fun t => l c (c / KN * KN + t)) (fun t => l r (c / KN * KN + t))
    (fmaSum (fun q => Arith.mul (Arith.neg Arith.one) (l r q)) (fun q => l c q) acc (c / KN * KN)) (c % KN)

/-- height of the diagonal tile of the strip starting at column `k` -/
def potHeight (T M k : Nat) : Nat := if k + 2 * T < M then 3 * T else if k + T < M then 2 * T else T

/-- The value of `l(r, c)`: divided by the square root of the pivot in the rows of the diagonal tile of the strip of
column `c`, and by the diagonal element of `l` in the rows of the other tiles. -/
def PotRec (T KN M : Nat) (l a : Nat → Nat → V) (r c : Nat) : Prop :=
  l r c = Arith.div (potS KN l (a r c) r c)
    (if r < c / KN * KN + potHeight T M (c / KN * KN) then Arith.sqrt (potS KN l (a c c) c c) else l c c)

theorem potS_congr {KN : Nat} {l l' : Nat → Nat → V} {acc acc' : V} {r c : Nat} (hacc : acc = acc')
    (hr : ∀ q, q < c → l r q = l' r q) (hc : ∀ q, q < c → l c q = l' c q) :
    potS KN l acc r c = potS KN l' acc' r c := by
  have h := Nat.div_add_mod c KN
  have h2 := Nat.mul_comm KN (c / KN)
  unfold potS
  refine fnmaSum_congr ?_ _ (fun t ht => hc _ (by omega)) (fun t ht => hr _ (by omega))
  exact fmaSum_congr hacc _ (fun q hq => by rw [hr q (by omega)]) (fun q hq => hc q (by omega))

theorem PotRec.congr {T KN M : Nat} {l l' a a' : Nat → Nat → V} {r c : Nat} (h : PotRec T KN M l a r c)
    (hr : ∀ q, q ≤ c → l r q = l' r q) (hc : ∀ q, q ≤ c → l c q = l' c q) (ha : a r c = a' r c) (ha2 : a c c = a' c c) :
    PotRec T KN M l' a' r c := by
  unfold PotRec at h ⊢
  rw [hr c (Nat.le_refl _), hc c (Nat.le_refl _),
    potS_congr ha (fun q hq => hr q (by omega)) (fun q hq => hc q (by omega)),
    potS_congr ha2 (fun q hq => hc q (by omega)) (fun q hq => hc q (by omega))] at h
  exact h

/-- The value stored above the diagonal inside a diagonal tile (panel version): what the vectorized factorization leaves there. -/
def PotUp (SS KN : Nat) (l a : Nat → Nat → V) (r c : Nat) : Prop :=
  l r c = if c % KN / SS ≤ (r - c / KN * KN) / SS then
      Arith.div (potS KN l (a r c) r c) (Arith.sqrt (potS KN l (a c c) c c)) else Arith.zero

theorem PotUp.congr {SS KN : Nat} {l l' a a' : Nat → Nat → V} {r c : Nat} (h : PotUp SS KN l a r c)
    (hr : ∀ q, q ≤ c → l r q = l' r q) (hc : ∀ q, q ≤ c → l c q = l' c q) (ha : a r c = a' r c) (ha2 : a c c = a' c c) :
    PotUp SS KN l' a' r c := by
  unfold PotUp at h ⊢
  rw [hr c (Nat.le_refl _), potS_congr ha (fun q hq => hr q (by omega)) (fun q hq => hc q (by omega)),
    potS_congr ha2 (fun q hq => hc q (by omega)) (fun q hq => hc q (by omega))] at h
  exact h

/-! ### Correctness -/

/-- Assumptions on the arguments of potrf. `W r c` describes the elements that the diagonal tiles store (`c ≤ r` in
the dense version, all of the tile in the panel version); `Mp` is the number of rows including those that only pad the
last tile. Reads and writes of the padding rows, and reads of the columns that pad N to a multiple of KN, must be
possible. -/
structure PotrfPre (SS TR KN M N Mp : Nat) (W : Nat → Nat → Prop) (A L : MPtr) (m : Mem V) : Prop where
  ss : 0 < SS
  tr : 0 < TR
  kn : 0 < KN
  knT : KN ≤ TR * SS
  nm : N ≤ M
  mM : M ≤ Mp
  wA : A.WF SS
  wL : L.WF SS
  sA : A.so = .columnMajor
  sL : L.so = .columnMajor
  low : ∀ r c, c ≤ r → W r c
  blk : ∀ r c, W r c → c / KN * KN ≤ r
  up : ∀ r c q, W r c → q ≤ c → W r q
  al : ∀ k, k % KN = 0 → k < N → k % SS = 0
  mp : ∀ k x, k % KN = 0 → k < N → k + x * (TR * SS) < M → k + (x + 1) * (TR * SS) ≤ Mp
  rA : ∀ r c : Nat, c / KN * KN ≤ r → r < Mp → c < roundUp N KN → (m (A.addr SS r c)).isSome = true
  rL : ∀ r c : Nat, W r c → r < Mp → c < roundUp N KN → (m (L.addr SS r c)).isSome = true
  iL : ∀ r c r' c' : Nat, W r c → r < Mp → c < N → W r' c' → r' < Mp → c' < N →
    L.addr SS r c = L.addr SS r' c' → r = r' ∧ c = c'
  dA : ∀ r c r' c' : Nat, W r c → r < M → c < N → W r' c' → r' < Mp → c' < N →
    A.addr SS r c = L.addr SS r' c' → r = r' ∧ c = c'

/-- rows written in column `c`: the last, incomplete strip does not touch the padding -/
def potRows (KN M N Mp c : Nat) : Nat := if c / KN * KN + KN ≤ N then Mp else M

/-- elements written before tile `(i, k)` -/
def potDone (KN M N Mp : Nat) (W : Nat → Nat → Prop) (k i r c : Nat) : Prop :=
  W r c ∧ c < N ∧ r < potRows KN M N Mp c ∧ (c < k ∨ c < k + KN ∧ r < i)

/-- loop invariant; `f` is what loading an element of A does to it -/
structure PotInv (SS TR KN M N Mp : Nat) (W : Nat → Nat → Prop) (A L : MPtr) (f : V → V) (m : Mem V) (k i : Nat)
    (m' : Mem V) : Prop where
  frame : ∀ z, (∀ r c : Nat, potDone KN M N Mp W k i r c → z ≠ L.addr SS r c) → m' z = m z
  alloc : ∀ z, (m z).isSome = true → (m' z).isSome = true
  rcs : ∀ r c : Nat, c ≤ r → r < M → c < N → (c < k ∨ c < k + KN ∧ r < i) →
    PotRec (TR * SS) KN M (fun r c => val m' (L.addr SS r c)) (fun r c => f (val m (A.addr SS r c))) r c
  ups : ∀ r c : Nat, W r c → r < c → c < N → (c < k ∨ c < k + KN ∧ r < i) →
    PotUp SS KN (fun r c => val m' (L.addr SS r c)) (fun r c => f (val m (A.addr SS r c))) r c

theorem exists_fn_of_inj {P : Nat → Nat → Prop} {adr : Nat → Nat → Int}
    (h : ∀ r c r' c', P r c → P r' c' → adr r c = adr r' c' → r = r' ∧ c = c') (F : Nat → Nat → V) :
    ∃ g : Int → V, ∀ r c, P r c → g (adr r c) = F r c := by
  classical
  refine ⟨fun x => if hx : ∃ ij : Nat × Nat, P ij.1 ij.2 ∧ x = adr ij.1 ij.2 then
    F hx.choose.1 hx.choose.2 else Arith.zero, ?_⟩
  intro i j hij
  have hx : ∃ ij : Nat × Nat, P ij.1 ij.2 ∧ adr i j = adr ij.1 ij.2 := ⟨(i, j), hij, rfl⟩
  simp only [dif_pos hx]
  obtain ⟨h1, h2⟩ := hx.choose_spec
  obtain ⟨e1, e2⟩ := h _ _ _ _ hij h1 h2
  rw [← e1, ← e2]

section
variable {SS TR KN M N Mp : Nat} {W : Nat → Nat → Prop} {A L : MPtr} {m : Mem V} {f : V → V}

theorem potStrip {KN k b : Nat} (hk : k % KN = 0) (hb : b < KN) : (k + b) / KN * KN = k ∧ (k + b) % KN = b := by
  have h1 : k = KN * (k / KN) := by have := Nat.div_add_mod k KN; omega
  have h2 : (k + b) % KN = b := by
    rw [Nat.add_mod, hk, Nat.zero_add, Nat.mod_mod, Nat.mod_eq_of_lt hb]
  have h3 := Nat.div_add_mod (k + b) KN
  have h4 := Nat.mul_comm KN ((k + b) / KN)
  omega

theorem potRows_le (hM : M ≤ Mp) (c : Nat) : potRows KN M N Mp c ≤ Mp := by
  unfold potRows; split <;> omega

/-- the columns of the strip of a column of the matrix lie in the padded matrix -/
theorem strip_lt_roundUp {KN k b N : Nat} (hKN : 0 < KN) (hk : k % KN = 0) (hkN : k < N) (hb : b < KN) :
    k + b < roundUp N KN := by
  have := le_roundUp (n := N) (a := k + KN) hKN (by rw [Nat.add_mod_right]; exact hk) (by omega)
  omega


theorem le_potRows (hM : M ≤ Mp) (c : Nat) : M ≤ potRows KN M N Mp c := by
  unfold potRows; split <;> omega

/-- `l` while tile `(i, k)` is in the register `r` -/
def tileL (SS : Nat) (L : MPtr) (m' : Mem V) (i k : Nat) (r : Reg V) : Nat → Nat → V :=
  fun x y => if i ≤ x ∧ k ≤ y then r.el SS (x - i) (y - k) else val m' (L.addr SS x y)

/-- elements stored by tile `(i, k)` of height `KM` -/
def potTile (KN M N Mp : Nat) (W : Nat → Nat → Prop) (KM k i r c : Nat) : Prop :=
  i ≤ r ∧ r < i + KM ∧ k ≤ c ∧ c < k + KN ∧ c < N ∧ W r c ∧ r < potRows KN M N Mp c

/-- what tile `(i, k)` must hold before it is stored -/
def TileOK (SS TR KN M N : Nat) (W : Nat → Nat → Prop) (A L : MPtr) (f : V → V) (m m' : Mem V) (KM k i : Nat) (r : Reg V) : Prop :=
  (∀ a b : Nat, a < KM → b < KN → i + a < M → k + b < N → k + b ≤ i + a →
    PotRec (TR * SS) KN M (tileL SS L m' i k r) (fun x y => f (val m (A.addr SS x y))) (i + a) (k + b)) ∧
  (∀ a b : Nat, a < KM → b < KN → k + b < N → i + a < k + b → W (i + a) (k + b) →
    PotUp SS KN (tileL SS L m' i k r) (fun x y => f (val m (A.addr SS x y))) (i + a) (k + b))

/-- storing a correct tile establishes the invariant for the next tile -/
theorem PotInv.step (h : PotrfPre SS TR KN M N Mp W A L m) {k i KM : Nat} {m' m'' : Mem V} {r : Reg V} {g : Int → V}
    (hI : PotInv SS TR KN M N Mp W A L f m k i m') (hk : k % KN = 0) (hki : k ≤ i) (hkni : i ≠ k → k + KN ≤ i) (hKM : KN ≤ KM)
    (ht : TileOK SS TR KN M N W A L f m m' KM k i r)
    (hg : ∀ x y, potTile KN M N Mp W KM k i x y → g (L.addr SS x y) = r.el SS (x - i) (y - k))
    (hw : WritesSet m' m'' (fun z => ∃ x y : Nat, potTile KN M N Mp W KM k i x y ∧ z = L.addr SS x y) g) :
    PotInv SS TR KN M N Mp W A L f m k (i + KM) m'' := by
  have hMp : ∀ c, potRows KN M N Mp c ≤ Mp := fun c => potRows_le h.mM c
  have hpM : ∀ c, M ≤ potRows KN M N Mp c := fun c => le_potRows h.mM c
  have hold' : ∀ x y : Nat, W x y → x < M → y < N → ¬ (i ≤ x ∧ x < i + KM ∧ k ≤ y ∧ y < k + KN) →
      val m'' (L.addr SS x y) = val m' (L.addr SS x y) := by
    intro x y hyx hx hy hn
    unfold val
    rw [(hw _).2]
    rintro ⟨x', y', ⟨t1, t2, t3, t4, t5, t6, t7⟩, e⟩
    obtain ⟨e1, e2⟩ := h.iL x y x' y' hyx (by have := h.mM; omega) hy t6
      (by have := hMp y'; omega) t5 e
    exact hn (by omega)
  have hold : ∀ x y : Nat, y ≤ x → x < M → y < N → ¬ (i ≤ x ∧ x < i + KM ∧ k ≤ y ∧ y < k + KN) →
      val m'' (L.addr SS x y) = val m' (L.addr SS x y) := fun x y hyx => hold' x y (h.low _ _ hyx)
  have hnew' : ∀ x y : Nat, W x y → x < M → y < N → i ≤ x → x < i + KM → k ≤ y → y < k + KN →
      val m'' (L.addr SS x y) = r.el SS (x - i) (y - k) := by
    intro x y hyx hx hy h1 h2 h3 h4
    have ht : potTile KN M N Mp W KM k i x y := ⟨h1, h2, h3, h4, hy, hyx, by have := hpM y; omega⟩
    unfold val
    rw [(hw _).1 ⟨x, y, ht, rfl⟩, hg x y ht]; rfl
  have hnew : ∀ x y : Nat, y ≤ x → x < M → y < N → i ≤ x → x < i + KM → k ≤ y → y < k + KN →
      val m'' (L.addr SS x y) = r.el SS (x - i) (y - k) := fun x y hyx => hnew' x y (h.low _ _ hyx)
  refine ⟨fun z hz => ?_, fun z hz => hw.isSome (hI.alloc z hz), fun x y hyx hx hy hd => ?_, fun x y hxy hlt hy hd => ?_⟩
  rotate_left 2
  · have hNM := h.nm
    have hb := h.blk _ _ hxy
    have hbq : ∀ q, q ≤ y → W x q := by
      intro q hq
      by_cases hqx : q ≤ x
      · exact h.low _ _ hqx
      · refine h.up _ _ _ hxy hq
    by_cases hc : y < k ∨ y < k + KN ∧ x < i
    · refine (hI.ups x y hxy hlt hy hc).congr (fun q hq => ?_) (fun q hq => ?_) rfl rfl
      · exact (hold' x q (hbq q hq) (by omega) (by omega) (by omega)).symm
      · refine (hold y q hq (by omega) (by omega) ?_).symm
        rintro ⟨g1, g2, g3, g4⟩
        have hik : i = k := Decidable.byContradiction fun hne => by
          have := hkni hne; omega
        have := (potStrip hk (b := y - k) (by omega)).1
        rw [show k + (y - k) = y by omega] at this
        omega
    · have := ht.2 (x - i) (y - k) (by omega) (by omega) (by omega) (by omega) (by
        rw [show i + (x - i) = x by omega, show k + (y - k) = y by omega]; exact hxy)
      rw [show i + (x - i) = x by omega, show k + (y - k) = y by omega] at this
      refine this.congr (fun q hq => ?_) (fun q hq => ?_) rfl rfl
      · show (if _ then _ else _) = _
        by_cases h1 : i ≤ x ∧ k ≤ q
        · rw [if_pos h1]
          exact (hnew' x q (hbq q hq) (by omega) (by omega) (by omega) (by omega) (by omega) (by omega)).symm
        · rw [if_neg h1]
          exact (hold' x q (hbq q hq) (by omega) (by omega) (by omega)).symm
      · show (if _ then _ else _) = _
        by_cases h1 : i ≤ y ∧ k ≤ q
        · rw [if_pos h1]
          exact (hnew y q (by omega) (by omega) (by omega) (by omega) (by omega) (by omega) (by omega)).symm
        · rw [if_neg h1]
          exact (hold y q (by omega) (by omega) (by omega) (by omega)).symm
  · rw [(hw z).2, hI.frame z]
    · rintro x y ⟨d1, d2, d3, d4⟩
      exact hz x y ⟨d1, d2, d3, by omega⟩
    · rintro ⟨x, y, ⟨t1, t2, t3, t4, t5, t6, t7⟩, e⟩
      exact hz x y ⟨t6, t5, t7, Or.inr ⟨t4, t2⟩⟩ e
  · by_cases hc : y < k ∨ y < k + KN ∧ x < i
    · refine (hI.rcs x y hyx hx hy hc).congr (fun q hq => ?_) (fun q hq => ?_) rfl rfl
      · exact (hold x q (by omega) hx (by omega) (by omega)).symm
      · exact (hold y q hq (by omega) (by omega) (by omega)).symm
    · have := ht.1 (x - i) (y - k) (by omega) (by omega) (by omega) (by omega) (by omega)
      rw [show i + (x - i) = x by omega, show k + (y - k) = y by omega] at this
      refine this.congr (fun q hq => ?_) (fun q hq => ?_) rfl rfl
      · show (if _ then _ else _) = _
        by_cases h1 : i ≤ x ∧ k ≤ q
        · rw [if_pos h1]
          exact (hnew x q (by omega) hx (by omega) (by omega) (by omega) (by omega) (by omega)).symm
        · rw [if_neg h1]
          exact (hold x q (by omega) hx (by omega) (by omega)).symm
      · show (if _ then _ else _) = _
        by_cases h1 : i ≤ y ∧ k ≤ q
        · rw [if_pos h1]
          exact (hnew y q (by omega) (by omega) (by omega) (by omega) (by omega) (by omega) (by omega)).symm
        · rw [if_neg h1]
          exact (hold y q (by omega) (by omega) (by omega) (by omega)).symm

theorem PotInv.valA (h : PotrfPre SS TR KN M N Mp W A L m) {k i : Nat} {m' : Mem V}
    (hI : PotInv SS TR KN M N Mp W A L f m k i m') {x y : Nat} (hyx : W x y) (hx : x < M) (hy : y < N)
    (hn : ¬ (y < k ∨ y < k + KN ∧ x < i)) : val m' (A.addr SS x y) = val m (A.addr SS x y) := by
  unfold val
  rw [hI.frame]
  rintro x' y' ⟨d1, d2, d3, d4⟩ e
  obtain ⟨e1, e2⟩ := h.dA x y x' y' hyx hx hy d1 (by have := potRows_le (KN := KN) (N := N) h.mM y'; omega) d2 e
  subst e1; subst e2
  exact hn d4

theorem potAt (h : PotrfPre SS TR KN M N Mp W A L m) {P : MPtr} (hP : P.WF SS) (hs : P.so = .columnMajor) {i : Nat}
    (hi : i % SS = 0) (k : Nat) : MPtr.At SS (P.off SS i k) P i k := by
  have h2 := (MPtr.At.refl h.ss P).off h.ss hP (i : Int) (k : Int)
    (fun _ => by unfold MPtr.major; rw [hs]; exact cast_mod_zero hi)
  rw [Int.zero_add, Int.zero_add] at h2
  exact h2

/-- the accumulation of the previous strips -/
theorem reads_potAcc (h : PotrfPre SS TR KN M N Mp W A L m) {m' : Mem V}
    (hal : ∀ z, (m z).isSome = true → (m' z).isSome = true) {RM k i : Nat} (hkN : k < N) (hk : k % KN = 0)
    (hi : i % SS = 0) (hki : k ≤ i) (hMp : i + RM * SS ≤ Mp) (hkMp : k + KN ≤ Mp) {rp : Nat → VPtr}
    (hrp : rp = (fun l : Nat => row (((L.off SS k 0).trans SS).off SS (l : Int) 0)) ∨
      rp = (fun l : Nat => row (((L.off SS k 0).off SS 0 (l : Int)).trans SS))) (r : Reg V) :
    ReadsQ (foldN k (fun l (r : Reg V) => r.gerF SS RM KN (Arith.mul (Arith.neg Arith.one))
      (column ((L.off SS i 0).off SS 0 l)) (rp l)) r) m' (fun r' => ∀ a b : Nat, a < RM * SS → b < KN →
      r'.el SS a b = fmaSum (fun q => Arith.mul (Arith.neg Arith.one) (val m' (L.addr SS (i + a : Nat) q)))
        (fun q => val m' (L.addr SS (k + b : Nat) q)) (r.el SS a b) k) := by
  have hks : k % SS = 0 := h.al k hk hkN
  have hNr := self_le_roundUp (n := N) h.kn
  refine reads_gerFoldFull h.ss (f := Arith.mul (Arith.neg Arith.one))
    (X := fun q a => val m' (L.addr SS (i + a : Nat) q)) (Y := fun q b => val m' (L.addr SS (k + b : Nat) q)) ?_ ?_
  · intro q hq
    have := loads_colAt (RM := RM) (k := q) (m := m') h.ss h.wL (potAt h h.wL h.sL hi 0) h.sL (fun _ => cast_mod_zero hi)
      (fun a ha => hal _ (by
        have := h.rL (i + a) q (h.low _ _ (by omega)) (by omega) (by omega)
        simpa using this))
    simpa using this
  · intro q hq
    have hat : MPtr.At SS ((L.off SS k 0).trans SS) (L.trans SS) 0 k := (potAt h h.wL h.sL hks 0).trans h.ss
    have hts : (L.trans SS).so = .rowMajor := by rw [MPtr.trans_ptr h.ss]; show L.so.flip = _; rw [h.sL]; rfl
    have hread : ∀ c : Nat, c < KN → (m' ((L.trans SS).addr SS (q : Int) ((k : Int) + c))).isSome = true := by
      intro c hc
      rw [MPtr.trans_addr h.ss]
      refine hal _ ?_
      have := h.rL (k + c) q (h.low _ _ (by omega)) (by omega) (by omega)
      simpa using this
    have hq2 : ∀ qq : MPtr, MPtr.At SS qq (L.trans SS) q k →
        (row qq).Gets SS m' KN (fun b => val m' (L.addr SS (k + b : Nat) q)) := by
      intro qq hqq
      have := row_gets (n := KN) h.ss (h.wL.trans h.ss) hqq hread
      simpa [MPtr.trans_addr h.ss] using this
    rcases hrp with rfl | rfl
    · refine hq2 _ ?_
      have h2 := hat.off h.ss (h.wL.trans h.ss) (q : Int) 0 (fun _ => by unfold MPtr.major; rw [hts]; simp)
      simpa using h2
    · refine hq2 _ ?_
      have h2 := (potAt h h.wL h.sL hks 0).off h.ss h.wL 0 (q : Int)
        (fun _ => by unfold MPtr.major; rw [h.sL]; simp)
      have h3 := h2.trans h.ss
      simpa using h3

/-- factorizing the accumulated tile -/
theorem reads_potTile (h : PotrfPre SS TR KN M N Mp W A L m) {k i : Nat} {m' : Mem V}
    (hI : PotInv SS TR KN M N Mp W A L f m k i m') {RM : Nat} (hkN : k < N) (hk : k % KN = 0)
    (hi : i % SS = 0) (hki : k ≤ i) (hkni : i ≠ k → k + KN ≤ i)
    (hH : i = k → RM * SS = potHeight (TR * SS) M k) (hH2 : i ≠ k → k + potHeight (TR * SS) M k ≤ i) (hKM : KN ≤ RM * SS) (hkMp : k + KN ≤ Mp)
    {r0 : Reg V} (hr : ∀ a b : Nat, a < RM * SS → b < KN →
      r0.el SS a b = fmaSum (fun q => Arith.mul (Arith.neg Arith.one) (val m' (L.addr SS (i + a : Nat) q)))
        (fun q => val m' (L.addr SS (k + b : Nat) q)) (f (val m' (A.addr SS (i + a : Nat) (k + b : Nat)))) k) :
    ReadsQ (if i = k then r0.potrf SS RM KN else r0.trsmRU SS RM KN ((L.off SS k k).trans SS)) m'
      (TileOK SS TR KN M N W A L f m m' (RM * SS) k i) := by
  have hks : k % SS = 0 := h.al k hk hkN
  by_cases hik : i = k
  · rw [if_pos hik]
    subst hik
    refine (reads_potrf h.ss hKM).mono (fun r' h1 => ?_)
    have hs' : ∀ a b : Nat, a < RM * SS → b < KN → i + a < M → i + b < N → W (i + a) (i + b) →
        potS KN (tileL SS L m' i i r') (f (val m (A.addr SS (i + a : Nat) (i + b : Nat)))) (i + a) (i + b) =
          fnmaSum (fun j => r'.el SS b j) (fun j => r'.el SS a j) (r0.el SS a b) b := by
      intro a b ha hb haM hbN hba
      obtain ⟨e1, e2⟩ := potStrip hk hb
      unfold potS
      rw [e1, e2]
      refine fnmaSum_congr ?_ _ (fun t ht => ?_) (fun t ht => ?_)
      · rw [hr a b ha hb]
        refine fmaSum_congr ?_ _ (fun q hq => ?_) (fun q hq => ?_)
        · rw [hI.valA h hba haM hbN (by omega)]
        · unfold tileL; rw [if_neg (by omega)]
        · unfold tileL; rw [if_neg (by omega)]
      · unfold tileL; rw [if_pos (by omega)]; congr 1 <;> omega
      · unfold tileL; rw [if_pos (by omega)]; congr 1 <;> omega
    have hs : ∀ a b : Nat, a < RM * SS → b < KN → i + a < M → i + b < N → i + b ≤ i + a →
        potS KN (tileL SS L m' i i r') (f (val m (A.addr SS (i + a : Nat) (i + b : Nat)))) (i + a) (i + b) =
          fnmaSum (fun j => r'.el SS b j) (fun j => r'.el SS a j) (r0.el SS a b) b :=
      fun a b ha hb haM hbN hba => hs' a b ha hb haM hbN (h.low _ _ hba)
    refine ⟨fun a b ha hb haM hbN hba => ?_, fun a b ha hb hbN hab hw => ?_⟩
    rotate_left 1
    · have hNM := h.nm
      have et : tileL SS L m' i i r' (i + a) (i + b) = r'.el SS a b := by
        unfold tileL; rw [if_pos (by omega)]; congr 1 <;> omega
      unfold PotUp
      rw [et, (potStrip hk hb).1, (potStrip hk hb).2, show i + a - i = a by omega]
      by_cases hc : b / SS ≤ a / SS
      · rw [if_pos hc, (h1 a b ha hb).1 hc, hs' a b ha hb (by omega) hbN hw, hs b b (by omega) hb (by omega) hbN (Nat.le_refl _)]
      · rw [if_neg hc, (h1 a b ha hb).2 (by omega)]
    have e := (h1 a b ha hb).1 (Nat.div_le_div_right (by omega))
    unfold PotRec
    rw [(potStrip hk hb).1, if_pos (by have := hH rfl; omega), hs a b ha hb haM hbN hba, hs b b (by omega) hb (by have := h.nm; omega) hbN (Nat.le_refl _), ← e]
    unfold tileL
    rw [if_pos (by omega)]
    congr 1 <;> omega
  · rw [if_neg hik]
    have hki2 := hkni hik
    have hNr := fun b hb => strip_lt_roundUp (k := k) (b := b) (N := N) h.kn hk hkN hb
    have hat : MPtr.At SS (L.off SS k k) L k k := potAt h h.wL h.sL hks k
    refine (reads_trsmRU (a := fun q j => val m' (L.addr SS (k + j : Nat) (k + q : Nat))) h.ss ?_).mono
      (fun r' h1 => ⟨fun a b ha hb haM hbN hba => ?_, fun a b ha hb hbN hab => by omega⟩)
    · intro q j hqj hj
      rw [MPtr.trans_addr h.ss, hat.addr h.ss h.wL]
      have := hI.alloc _ (h.rL (k + j) (k + q) (h.low _ _ (by omega)) (by omega) (hNr q (by omega)))
      rw [Option.isSome_iff_exists] at this
      obtain ⟨v, hv⟩ := this
      have e : L.addr SS ((k : Int) + j) ((k : Int) + q) = L.addr SS (k + j : Nat) (k + q : Nat) := by simp
      unfold val
      rw [e, hv]; rfl
    · obtain ⟨e1, e2⟩ := potStrip hk hb
      unfold PotRec
      rw [e1, if_neg (by have := hH2 hik; omega)]
      have e := h1 a b ha hb
      have et : tileL SS L m' i k r' (i + a) (k + b) = r'.el SS a b := by
        unfold tileL; rw [if_pos (by omega)]; congr 1 <;> omega
      have ed : tileL SS L m' i k r' (k + b) (k + b) = val m' (L.addr SS (k + b : Nat) (k + b : Nat)) := by
        unfold tileL; rw [if_neg (by omega)]
      rw [et, ed, e]
      congr 1
      unfold potS
      rw [e1, e2]
      refine fnmaSum_congr ?_ _ (fun t ht => ?_) (fun t ht => ?_)
      · rw [hr a b ha hb]
        refine fmaSum_congr ?_ _ (fun q hq => ?_) (fun q hq => ?_)
        · rw [hI.valA h (h.low _ _ (by omega)) haM hbN (by omega)]
        · unfold tileL; rw [if_neg (by omega)]
        · unfold tileL; rw [if_neg (by omega)]
      · unfold tileL; rw [if_neg (by omega)]
      · unfold tileL; rw [if_pos (by omega)]; congr 1 <;> omega


/-- the function that the tile stores -/
theorem exists_tileFn (h : PotrfPre SS TR KN M N Mp W A L m) (KM k i : Nat) (r : Reg V) :
    ∃ g : Int → V, ∀ x y, potTile KN M N Mp W KM k i x y → g (L.addr SS x y) = r.el SS (x - i) (y - k) := by
  refine exists_fn_of_inj (P := potTile KN M N Mp W KM k i) (adr := fun x y => L.addr SS x y) ?_ _
  rintro r c r' c' ⟨_, _, _, _, t5, t6, t7⟩ ⟨_, _, _, _, u5, u6, u7⟩ e
  have := potRows_le (KN := KN) (N := N) h.mM c
  have := potRows_le (KN := KN) (N := N) h.mM c'
  exact h.iL r c r' c' t6 (by omega) t5 u6 (by omega) u5 e

/-- the last row of a tile -/
theorem potRows_of (h : PotrfPre SS TR KN M N Mp W A L m) {k b : Nat} (hk : k % KN = 0) (hb : b < KN) :
    potRows KN M N Mp (k + b) = if k + KN ≤ N then Mp else M := by
  unfold potRows; rw [(potStrip hk hb).1]

/-- storing a tile completely or only the part inside the matrix; used when all of the tile is to be stored -/
theorem runs_potStore (h : PotrfPre SS TR KN M N Mp W A L m) {m' : Mem V}
    (hal : ∀ z, (m z).isSome = true → (m' z).isSome = true) {RM k i : Nat} (hkN : k < N) (hk : k % KN = 0)
    (hi : i % SS = 0) (hki : k ≤ i) (hMp : i + RM * SS ≤ Mp)
    (hW : ∀ x y, i ≤ x → k ≤ y → y < k + KN → W x y) {r : Reg V} {g : Int → V}
    (hg : ∀ x y, potTile KN M N Mp W (RM * SS) k i x y → g (L.addr SS x y) = r.el SS (x - i) (y - k)) :
    Runs (if k + KN ≤ N then r.store SS RM KN (L.off SS i k)
      else r.storeP SS RM KN (L.off SS i k) (min (M - i) (RM * SS)) (N - k)) m' (fun _ m'' => WritesSet m' m''
        (fun z => ∃ x y : Nat, potTile KN M N Mp W (RM * SS) k i x y ∧ z = L.addr SS x y) g) := by
  have hat : MPtr.At SS (L.off SS i k) L i k := potAt h h.wL h.sL hi k
  have hNr := fun b hb => strip_lt_roundUp (k := k) (b := b) (N := N) h.kn hk hkN hb
  have hadr : ∀ a b : Nat, L.addr SS ((i : Int) + a) ((k : Int) + b) = L.addr SS (i + a : Nat) (k + b : Nat) := by
    intro a b; simp
  have hrd : ∀ a b : Nat, a < RM * SS → b < KN → (m' (L.addr SS ((i : Int) + a) ((k : Int) + b))).isSome = true := by
    intro a b ha hb
    rw [hadr]
    exact hal _ (h.rL _ _ (hW _ _ (by omega) (by omega) (by omega)) (by omega) (hNr b hb))
  by_cases hN : k + KN ≤ N
  · rw [if_pos hN]
    have htile : ∀ a b, a < RM * SS → b < KN → potTile KN M N Mp W (RM * SS) k i (i + a) (k + b) := by
      intro a b ha hb
      refine ⟨by omega, by omega, by omega, by omega, by omega, hW _ _ (by omega) (by omega) (by omega), ?_⟩
      rw [potRows_of h hk hb, if_pos hN]; omega
    refine (runs_store h.ss h.wL hat h.sL (fun _ => cast_mod_zero hi) g hrd (fun a b ha hb => ?_)).mono
      (fun _ m'' hw => hw.congr (fun z => ⟨?_, ?_⟩))
    · rw [hadr, hg _ _ (htile a b ha hb)]; congr 1 <;> omega
    · rintro ⟨a, b, ha, hb, rfl⟩
      exact ⟨_, _, htile a b ha hb, hadr a b⟩
    · rintro ⟨x, y, ⟨t1, t2, t3, t4, t5, t6, t7⟩, rfl⟩
      refine ⟨x - i, y - k, by omega, by omega, ?_⟩
      rw [hadr]; congr 2 <;> omega
  · rw [if_neg hN]
    have htile : ∀ a b, a < min (M - i) (RM * SS) → b < KN → b < N - k →
        potTile KN M N Mp W (RM * SS) k i (i + a) (k + b) := by
      intro a b ha hb hb2
      refine ⟨by omega, by omega, by omega, by omega, by omega, hW _ _ (by omega) (by omega) (by omega), ?_⟩
      rw [potRows_of h hk hb, if_neg hN]; omega
    refine (runs_storeP h.ss h.wL hat h.sL (fun _ => cast_mod_zero hi) (Nat.min_le_right _ _) g
      (fun a b ha hb _ => hrd a b (by omega) hb) (fun a b ha hb hb2 => ?_)).mono
      (fun _ m'' hw => hw.congr (fun z => ⟨?_, ?_⟩))
    · rw [hadr, hg _ _ (htile a b ha hb hb2)]; congr 1 <;> omega
    · rintro ⟨a, b, ha, hb, hb2, rfl⟩
      exact ⟨_, _, htile a b ha hb hb2, hadr a b⟩
    · rintro ⟨x, y, ⟨t1, t2, t3, t4, t5, t6, t7⟩, rfl⟩
      have e := potRows_of (W := W) (A := A) (L := L) (m := m) h hk (b := y - k) (by omega)
      rw [if_neg hN, show k + (y - k) = y by omega] at e
      refine ⟨x - i, y - k, by omega, by omega, by omega, ?_⟩
      rw [hadr]; congr 2 <;> omega

/-- the same when only the lower triangle of the (diagonal) tile is to be stored -/
theorem runs_potStoreLower (h : PotrfPre SS TR KN M N Mp (fun r c => c ≤ r) A L m) {m' : Mem V}
    (hal : ∀ z, (m z).isSome = true → (m' z).isSome = true) {RM k : Nat} (hkN : k < N) (hk : k % KN = 0)
    (hi : k % SS = 0) (hMp : k + RM * SS ≤ Mp) {r : Reg V} {g : Int → V}
    (hg : ∀ x y, potTile KN M N Mp (fun r c => c ≤ r) (RM * SS) k k x y →
      g (L.addr SS x y) = r.el SS (x - k) (y - k)) :
    Runs (if k + KN ≤ N then r.storeLower SS RM KN (L.off SS k k)
      else r.storeLowerP SS RM KN (L.off SS k k) (min (M - k) (RM * SS)) (N - k)) m' (fun _ m'' => WritesSet m' m''
        (fun z => ∃ x y : Nat, potTile KN M N Mp (fun r c => c ≤ r) (RM * SS) k k x y ∧ z = L.addr SS x y) g) := by
  have hat : MPtr.At SS (L.off SS k k) L k k := potAt h h.wL h.sL hi k
  have hNr := fun b hb => strip_lt_roundUp (k := k) (b := b) (N := N) h.kn hk hkN hb
  have hadr : ∀ a b : Nat, L.addr SS ((k : Int) + a) ((k : Int) + b) = L.addr SS (k + a : Nat) (k + b : Nat) := by
    intro a b; simp
  have hrd : ∀ a b : Nat, a < RM * SS → b < KN → b ≤ a →
      (m' (L.addr SS ((k : Int) + a) ((k : Int) + b))).isSome = true := by
    intro a b ha hb hba
    rw [hadr]
    exact hal _ (h.rL _ _ (by omega) (by omega) (hNr b hb))
  by_cases hN : k + KN ≤ N
  · rw [if_pos hN]
    have htile : ∀ a b, a < RM * SS → b < KN → b ≤ a →
        potTile KN M N Mp (fun r c => c ≤ r) (RM * SS) k k (k + a) (k + b) := by
      intro a b ha hb hba
      refine ⟨by omega, by omega, by omega, by omega, by omega, by omega, ?_⟩
      rw [potRows_of h hk hb, if_pos hN]; omega
    refine (runs_storeLower h.ss h.wL hat h.sL (fun _ => cast_mod_zero hi) g hrd (fun a b ha hb hba => ?_)).mono
      (fun _ m'' hw => hw.congr (fun z => ⟨?_, ?_⟩))
    · rw [hadr, hg _ _ (htile a b ha hb hba)]; congr 1 <;> omega
    · rintro ⟨a, b, ha, hb, hba, rfl⟩
      exact ⟨_, _, htile a b ha hb hba, hadr a b⟩
    · rintro ⟨x, y, ⟨t1, t2, t3, t4, t5, t6, t7⟩, rfl⟩
      refine ⟨x - k, y - k, by omega, by omega, by omega, ?_⟩
      rw [hadr]; congr 2 <;> omega
  · rw [if_neg hN]
    have htile : ∀ a b, a < RM * SS → a < min (M - k) (RM * SS) → b < KN → b < N - k → b ≤ a →
        potTile KN M N Mp (fun r c => c ≤ r) (RM * SS) k k (k + a) (k + b) := by
      intro a b _ ha hb hb2 hba
      refine ⟨by omega, by omega, by omega, by omega, by omega, by omega, ?_⟩
      rw [potRows_of h hk hb, if_neg hN]; omega
    refine (runs_storeLowerP h.ss h.wL hat h.sL (fun _ => cast_mod_zero hi) g
      (fun a b ha _ hb _ hba => hrd a b ha hb hba) (fun a b h0 ha hb hb2 hba => ?_)).mono
      (fun _ m'' hw => hw.congr (fun z => ⟨?_, ?_⟩))
    · rw [hadr, hg _ _ (htile a b h0 ha hb hb2 hba)]; congr 1 <;> omega
    · rintro ⟨a, b, h0, ha, hb, hb2, hba, rfl⟩
      exact ⟨_, _, htile a b h0 ha hb hb2 hba, hadr a b⟩
    · rintro ⟨x, y, ⟨t1, t2, t3, t4, t5, t6, t7⟩, rfl⟩
      have e := potRows_of h hk (b := y - k) (by omega)
      rw [if_neg hN, show k + (y - k) = y by omega] at e
      refine ⟨x - k, y - k, by omega, by omega, by omega, by omega, by omega, ?_⟩
      rw [hadr]; congr 2 <;> omega

/-- one dense tile -/
theorem runs_potrfBackendDense (h : PotrfPre SS TR KN M N Mp (fun r c => c ≤ r) A L m) {k i RM : Nat} {m' : Mem V}
    (hI : PotInv SS TR KN M N Mp (fun r c => c ≤ r) A L (Arith.mul Arith.one) m k i m') (hkN : k < N)
    (hk : k % KN = 0) (hi : i % SS = 0) (hki : k ≤ i) (hkni : i ≠ k → k + KN ≤ i)
    (hH : i = k → RM * SS = potHeight (TR * SS) M k) (hH2 : i ≠ k → k + potHeight (TR * SS) M k ≤ i) (hKM : KN ≤ RM * SS)
    (hMp : i + RM * SS ≤ Mp) :
    Runs (potrfBackendDense SS RM KN M N A L k i) m'
      (fun _ => PotInv SS TR KN M N Mp (fun r c => c ≤ r) A L (Arith.mul Arith.one) m k (i + RM * SS)) := by
  have hNr := fun b hb => strip_lt_roundUp (k := k) (b := b) (N := N) h.kn hk hkN hb
  unfold potrfBackendDense
  have h1 := reads_loadB (RM := RM) (N := KN) (m := m') (r := Reg.reset) (beta := Arith.one) h.ss h.wA
    (potAt h h.wA h.sA hi k) h.sA
    (fun a b ha hb => hI.alloc _ (by
      have := h.rA (i + a) (k + b) (by rw [(potStrip hk hb).1]; omega) (by omega) (hNr b hb)
      simpa using this))
  refine h1.bind_runs (fun r0 hr0 => ?_)
  refine (reads_potAcc h hI.alloc (RM := RM) hkN hk hi hki hMp (by omega) (Or.inl rfl) r0).bind_runs (fun r1 hr1 => ?_)
  have hr2 : ∀ a b : Nat, a < RM * SS → b < KN →
      r1.el SS a b = fmaSum (fun q => Arith.mul (Arith.neg Arith.one) (val m' (L.addr SS (i + a : Nat) q)))
        (fun q => val m' (L.addr SS (k + b : Nat) q))
        (Arith.mul Arith.one (val m' (A.addr SS (i + a : Nat) (k + b : Nat)))) k := by
    intro a b ha hb
    rw [hr1 a b ha hb, hr0 a b ha hb]
    simp
  have h3 := reads_potTile h hI (RM := RM) hkN hk hi hki hkni hH hH2 hKM (by omega) hr2
  by_cases hik : i = k
  · rw [if_pos hik] at h3 ⊢
    refine h3.bind_runs (fun r' ht => ?_)
    subst hik
    obtain ⟨g, hg⟩ := exists_tileFn h (RM * SS) i i r'
    exact (runs_potStoreLower h hI.alloc hkN hk hi hMp hg).mono (fun _ m'' hw => hI.step h hk hki hkni hKM ht hg hw)
  · rw [if_neg hik] at h3 ⊢
    refine h3.bind_runs (fun r' ht => ?_)
    obtain ⟨g, hg⟩ := exists_tileFn h (RM * SS) k i r'
    have := hkni hik
    exact (runs_potStore h hI.alloc hkN hk hi hki hMp (fun x y _ _ _ => by omega) hg).mono
      (fun _ m'' hw => hI.step h hk hki hkni hKM ht hg hw)

/-- one panel tile -/
theorem runs_potrfBackendPanel (h : PotrfPre SS TR KN M N Mp (fun r c => c / KN * KN ≤ r) A L m) {k i RM : Nat}
    {m' : Mem V}
    (hI : PotInv SS TR KN M N Mp (fun r c => c / KN * KN ≤ r) A L id m k i m') (hkN : k < N)
    (hk : k % KN = 0) (hi : i % SS = 0) (hki : k ≤ i) (hkni : i ≠ k → k + KN ≤ i)
    (hH : i = k → RM * SS = potHeight (TR * SS) M k) (hH2 : i ≠ k → k + potHeight (TR * SS) M k ≤ i) (hKM : KN ≤ RM * SS)
    (hMp : i + RM * SS ≤ Mp) :
    Runs (potrfBackendPanel SS RM KN M N A L k i) m'
      (fun _ => PotInv SS TR KN M N Mp (fun r c => c / KN * KN ≤ r) A L id m k (i + RM * SS)) := by
  have hNr := fun b hb => strip_lt_roundUp (k := k) (b := b) (N := N) h.kn hk hkN hb
  unfold potrfBackendPanel
  have h1 := reads_load (RM := RM) (N := KN) (m := m') (r := Reg.reset) h.ss h.wA
    (potAt h h.wA h.sA hi k) h.sA
    (fun a b ha hb => hI.alloc _ (by
      have := h.rA (i + a) (k + b) (by rw [(potStrip hk hb).1]; omega) (by omega) (hNr b hb)
      simpa using this))
  refine h1.bind_runs (fun r0 hr0 => ?_)
  refine (reads_potAcc h hI.alloc (RM := RM) hkN hk hi hki hMp (by omega) (Or.inr rfl) r0).bind_runs (fun r1 hr1 => ?_)
  have hr2 : ∀ a b : Nat, a < RM * SS → b < KN →
      r1.el SS a b = fmaSum (fun q => Arith.mul (Arith.neg Arith.one) (val m' (L.addr SS (i + a : Nat) q)))
        (fun q => val m' (L.addr SS (k + b : Nat) q))
        (id (val m' (A.addr SS (i + a : Nat) (k + b : Nat)))) k := by
    intro a b ha hb
    rw [hr1 a b ha hb, hr0 a b ha hb]
    simp
  refine (reads_potTile h hI (RM := RM) hkN hk hi hki hkni hH hH2 hKM (by omega) hr2).bind_runs (fun r' ht => ?_)
  obtain ⟨g, hg⟩ := exists_tileFn h (RM * SS) k i r'
  refine (runs_potStore h hI.alloc hkN hk hi hki hMp (fun x y hx hy hy2 => ?_) hg).mono
    (fun _ m'' hw => hI.step h hk hki hkni hKM ht hg hw)
  have := (potStrip (k := k) (b := y - k) hk (by omega)).1
  rw [show k + (y - k) = y by omega] at this
  omega

/-- the loops over tiles -/
theorem runs_potrfLoops (h : PotrfPre SS TR KN M N Mp W A L m) {body : Nat → Nat → Nat → Prog V Unit}
    (hbody : ∀ rm k i m', PotInv SS TR KN M N Mp W A L f m k i m' → k < N → k % KN = 0 → i % SS = 0 → k ≤ i →
      (i ≠ k → k + KN ≤ i) → (i = k → rm * TR * SS = potHeight (TR * SS) M k) →
      (i ≠ k → k + potHeight (TR * SS) M k ≤ i) → KN ≤ rm * TR * SS → i + rm * TR * SS ≤ Mp →
      Runs (body rm k i) m' (fun _ => PotInv SS TR KN M N Mp W A L f m k (i + rm * TR * SS))) :
    Runs (potrfLoops (TR * SS) KN M N body) m (fun _ m' => ∃ k, N ≤ k ∧ PotInv SS TR KN M N Mp W A L f m k k m') := by
  have hT : 0 < TR * SS := Nat.mul_pos h.tr h.ss
  have hstep : ∀ rm, 0 < rm → ∀ k i m', k < N → k % KN = 0 → i + (rm - 1) * (TR * SS) < M →
      (i = k → rm * (TR * SS) = potHeight (TR * SS) M k) →
      ((∃ x, i = k + x * (TR * SS)) ∧ (i ≠ k → k + potHeight (TR * SS) M k ≤ i)) ∧ PotInv SS TR KN M N Mp W A L f m k i m' →
      Runs (body rm k i) m' (fun _ m1 => ((∃ x, i + rm * (TR * SS) = k + x * (TR * SS)) ∧
        (i + rm * (TR * SS) ≠ k → k + potHeight (TR * SS) M k ≤ i + rm * (TR * SS))) ∧ PotInv SS TR KN M N Mp W A L f m k (i + rm * (TR * SS)) m1) := by
    rintro rm hrm k i m' hkN hk hiM hH ⟨⟨⟨x, hx⟩, hH2⟩, hI⟩
    have e : rm * TR * SS = rm * (TR * SS) := Nat.mul_assoc _ _ _
    have e1 : rm * (TR * SS) = (rm - 1) * (TR * SS) + TR * SS := by
      obtain ⟨n, rfl⟩ : ∃ n, rm = n + 1 := ⟨rm - 1, by omega⟩
      rw [Nat.add_mul]; simp
    have hks := h.al k hk hkN
    have hi : i % SS = 0 := by
      rw [hx, ← Nat.mul_assoc, Nat.add_mul_mod_self_right]; exact hks
    have hne : i ≠ k → k + KN ≤ i := by
      intro hne
      have : 1 * (TR * SS) ≤ x * (TR * SS) := by
        refine Nat.mul_le_mul_right _ ?_
        rcases Nat.eq_zero_or_pos x with h0 | h0
        · subst h0; simp at hx; omega
        · exact h0
      have := h.knT; omega
    have hmp := h.mp k (x + (rm - 1)) hk hkN (by rw [Nat.add_mul]; omega)
    rw [Nat.add_mul, Nat.add_mul] at hmp
    have := hbody rm k i m' hI hkN hk hi (by omega) hne (fun hh => e.trans (hH hh)) hH2 (by rw [e, e1]; have := h.knT; omega) (by rw [e, e1]; omega)
    rw [e] at this
    exact this.mono (fun _ m1 h1 => ⟨⟨⟨x + rm, by rw [Nat.add_mul]; omega⟩, fun _ => by
      by_cases hik : i = k
      · have := hH hik; omega
      · have := hH2 hik; omega⟩, h1⟩)
  unfold potrfLoops
  refine Runs.bind (runs_loop (I := fun k m' => k % KN = 0 ∧ PotInv SS TR KN M N Mp W A L f m k k m') N h.kn
    (fun k hk => by simpa using hk) (by omega) (by omega)
    ⟨Nat.zero_mod _, fun z _ => rfl, fun z hz => hz, fun r c hcr _ _ hd => by omega, fun r c hw hrc hc hd => by omega⟩
    (fun k m' hkN hI => ?_)) (fun k m' hI => runs_pure ?_)
  · have hkN : k < N := by simpa using hkN
    obtain ⟨hk, hI⟩ := hI
    have h0 : ((∃ x, k = k + x * (TR * SS)) ∧ (k ≠ k → k + potHeight (TR * SS) M k ≤ k)) ∧
      PotInv SS TR KN M N Mp W A L f m k k m' := ⟨⟨⟨0, by simp⟩, fun hh => absurd rfl hh⟩, hI⟩
    refine Runs.bind (runs_loop (I := fun i m1 => (i = k → True) ∧ (((∃ x, i = k + x * (TR * SS)) ∧ (i ≠ k → k + potHeight (TR * SS) M k ≤ i)) ∧
      PotInv SS TR KN M N Mp W A L f m k i m1)) M (by omega) (fun i hi => by have := of_decide_eq_true hi; omega) (by omega)
      (by omega) ⟨fun _ => trivial, h0⟩ (fun i m1 hi h1 => (hstep 3 (by omega) k i m1 hkN hk (by have := of_decide_eq_true hi; omega)
        (fun hik => by have := of_decide_eq_true hi; unfold potHeight; rw [if_pos (by omega)]) h1.2).mono
        (fun _ _ h2 => ⟨fun _ => trivial, h2⟩))) ?_
    rintro i1 m1 ⟨hc1, _, h1⟩
    have hc1 := of_decide_eq_false hc1
    refine Runs.bind (runs_loop (I := fun i m1 => (i = k → ¬ k + 2 * (TR * SS) < M) ∧ (((∃ x, i = k + x * (TR * SS)) ∧ (i ≠ k → k + potHeight (TR * SS) M k ≤ i)) ∧
      PotInv SS TR KN M N Mp W A L f m k i m1)) M (by omega) (fun i hi => by have := of_decide_eq_true hi; omega) (by omega)
      (by omega) ⟨fun hik => by omega, h1⟩ (fun i m1 hi h1 => (hstep 2 (by omega) k i m1 hkN hk (by have := of_decide_eq_true hi; omega)
        (fun hik => by
          have := of_decide_eq_true hi; unfold potHeight; rw [if_neg (h1.1 hik), if_pos (by omega)]) h1.2).mono
        (fun _ _ h2 => ⟨fun hh => by omega, h2⟩))) ?_
    rintro i2 m2 ⟨hc2, h20, h2⟩
    have hc2 := of_decide_eq_false hc2
    refine Runs.bind (runs_loop (I := fun i m1 => (i = k → ¬ k + TR * SS < M) ∧ (((∃ x, i = k + x * (TR * SS)) ∧ (i ≠ k → k + potHeight (TR * SS) M k ≤ i)) ∧
      PotInv SS TR KN M N Mp W A L f m k i m1)) M (by omega) (fun i hi => by have := of_decide_eq_true hi; omega) (by omega)
      (by omega) ⟨fun hik => by omega, h2⟩ (fun i m1 hi h1 => (hstep 1 (by omega) k i m1 hkN hk (by have := of_decide_eq_true hi; omega)
        (fun hik => by
          have := h1.1 hik; unfold potHeight; rw [if_neg (by omega), if_neg this, Nat.one_mul]) h1.2).mono
        (fun _ _ h2 => ⟨fun hh => by omega, h2⟩))) ?_
    rintro i3 m3 ⟨hc, _, _, h3⟩
    have hi3 : M ≤ i3 := by
      have := of_decide_eq_false hc; omega
    refine runs_pure ⟨by rw [Nat.add_mod_right]; exact hk, fun z hz => h3.frame z ?_, h3.alloc, ?_, ?_⟩
    · rintro r c ⟨d1, d2, d3, d4⟩
      exact hz r c ⟨d1, d2, d3, by omega⟩
    · intro r c hcr hr hc hd
      exact h3.rcs r c hcr hr hc (by omega)
    · intro r c hw hrc hc hd
      refine h3.ups r c hw hrc hc ?_
      have hnm := h.nm
      have hb := h.blk _ _ hw
      rcases Nat.lt_or_ge c (k + KN) with h7 | h7
      · exact Or.inr ⟨h7, by omega⟩
      · exfalso
        have := (potStrip (KN := KN) (k := k + KN) (b := c - (k + KN)) (by rw [Nat.add_mod_right]; exact hk) (by omega)).1
        rw [show k + KN + (c - (k + KN)) = c by omega] at this
        omega
  · exact ⟨k, by have := of_decide_eq_false hI.1; omega, hI.2.2⟩

/-- What potrf does: it changes only the elements described by `W` (in the columns of complete strips also those of the
padding rows), and the lower triangle satisfies the Cholesky recurrence for the old values of A. -/
def PotrfSpec (SS TR KN M N Mp : Nat) (W : Nat → Nat → Prop) (A L : MPtr) (f : V → V) (m m' : Mem V) : Prop :=
  (∀ z, (∀ r c : Nat, W r c → c < N → r < potRows KN M N Mp c → z ≠ L.addr SS r c) → m' z = m z) ∧
  (∀ z, (m z).isSome = true → (m' z).isSome = true) ∧
  (∀ r c : Nat, c ≤ r → r < M → c < N →
    PotRec (TR * SS) KN M (fun r c => val m' (L.addr SS r c)) (fun r c => f (val m (A.addr SS r c))) r c)

theorem PotInv.spec_up {k : Nat} {m' : Mem V} (hI : PotInv SS TR KN M N Mp W A L f m k k m') (hk : N ≤ k) (r c : Nat) (hw : W r c) (hrc : r < c)
    (hc : c < N) : PotUp SS KN (fun r c => val m' (L.addr SS r c)) (fun r c => f (val m (A.addr SS r c))) r c :=
  hI.ups r c hw hrc hc (by omega)

theorem PotInv.spec {k : Nat} {m' : Mem V} (hI : PotInv SS TR KN M N Mp W A L f m k k m') (hk : N ≤ k) :
    PotrfSpec SS TR KN M N Mp W A L f m m' :=
  ⟨fun z hz => hI.frame z (fun r c ⟨d1, d2, d3, _⟩ => hz r c d1 d2 d3), hI.alloc,
    fun r c hcr hr hc => hI.rcs r c hcr hr hc (by omega)⟩

theorem potrfDensePtr_correct (h : PotrfPre SS TR KN M N Mp (fun r c => c ≤ r) A L m) :
    ∃ m', potrfDensePtr SS TR KN M N A L m = .ok () m' ∧
      PotrfSpec SS TR KN M N Mp (fun r c => c ≤ r) A L (Arith.mul Arith.one) m m' := by
  obtain ⟨_, m', h1, k, hk, h2⟩ := runs_potrfLoops h (f := Arith.mul Arith.one)
    (body := fun rm k i => potrfBackendDense SS (rm * TR) KN M N A L k i)
    (fun rm k i m' hI hkN hk hi hki hne h1 h2 hKM hMp => runs_potrfBackendDense h hI hkN hk hi hki hne h1 h2 hKM hMp)
  exact ⟨m', h1, h2.spec hk⟩

theorem potrfPanelPtr_correct' (h : PotrfPre SS 1 KN M N Mp (fun r c => c / KN * KN ≤ r) A L m) :
    ∃ m', potrfPanelPtr SS KN M N A L m = .ok () m' ∧
      PotrfSpec SS 1 KN M N Mp (fun r c => c / KN * KN ≤ r) A L id m m' ∧
      ∀ r c : Nat, c / KN * KN ≤ r → r < c → c < N → PotUp SS KN (fun r c => val m' (L.addr SS r c)) (fun r c => val m (A.addr SS r c)) r c := by
  obtain ⟨_, m', h1, k, hk, h2⟩ := runs_potrfLoops h (f := id)
    (body := fun rm k i => potrfBackendPanel SS (rm * 1) KN M N A L k i)
    (fun rm k i m' hI hkN hk hi hki hne h1 h2 hKM hMp => runs_potrfBackendPanel h hI hkN hk hi hki hne h1 h2 hKM hMp)
  exact ⟨m', h1, h2.spec hk, h2.spec_up hk⟩

theorem potrfPanelPtr_correct (h : PotrfPre SS 1 KN M N Mp (fun r c => c / KN * KN ≤ r) A L m) :
    ∃ m', potrfPanelPtr SS KN M N A L m = .ok () m' ∧
      PotrfSpec SS 1 KN M N Mp (fun r c => c / KN * KN ≤ r) A L id m m' := by
  obtain ⟨m', h1, h2, -⟩ := potrfPanelPtr_correct' h
  exact ⟨m', h1, h2⟩

end
end Blast
