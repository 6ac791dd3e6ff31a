import Verif.Ger
import Verif.RegTri
/-
Triangular matrix multiplication.

Models /repo/include/blast/math/algorithm/Trmm.hpp; the register operations are in RegMat.lean.
-/
set_option linter.unusedSectionVars false
namespace Blast
open Prog Reg
variable {V : Type} [Arith V]

/-! ### The code -/

/-- `trmmLeftUpper_backend<KM, KN>(M, N, alpha, a, b, c)`: algorithm/Trmm.hpp:22-72, KM = RM * SS, KN = T. -/
def trmmLeftBackend (SS RM T M N : Nat) (alpha : V) (a b c : MPtr) : Prog V Unit :=
  if RM * SS ≤ M then
    colTiles T N (fun j => do
        let r ← Reg.reset.trmmL SS RM T alpha a .upper false (b.off SS 0 j)
        let r ← gemmAcc SS RM T r (M - RM * SS) alpha (a.off SS 0 (RM * SS : Nat)) (b.off SS (RM * SS : Nat) j)
        r.store SS RM T (c.off SS 0 j))
      (fun j => do
        let r ← gemmAccP SS RM T Reg.reset M alpha a (b.off SS 0 j) (RM * SS) (N - j)
        r.storeP SS RM T (c.off SS 0 j) (RM * SS) (N - j))
  else
    colTiles T N (fun j => do
        let r ← gemmAccP SS RM T Reg.reset M alpha a (b.off SS 0 j) M T
        r.storeP SS RM T (c.off SS 0 j) M T)
      (fun j => do
        let r ← gemmAccP SS RM T Reg.reset M alpha a (b.off SS 0 j) M (N - j)
        r.storeP SS RM T (c.off SS 0 j) M (N - j))

/-- `trmm(M, N, alpha, A, uplo, diagonal_unit, B, C)` (left multiplication): algorithm/Trmm.hpp:93-126. -/
def trmmLeftPtr (SS TR M N : Nat) (alpha : V) (A : MPtr) (uplo : UpLo) (diag : Bool) (B C : MPtr) : Prog V Unit :=
  if diag then throw .logicError else
  match uplo with
  | .lower => throw .logicError
  | .upper => do
    let body := fun (rm i : Nat) => trmmLeftBackend SS (rm * TR) (TR * SS) (M - i) N alpha
      (A.off SS i i) (B.off SS i 0) (C.off SS i 0)
    let i ← loop (M + 1) (fun i => i + 2 * (TR * SS) < M && i + 4 * (TR * SS) != M) (3 * (TR * SS)) (body 3) 0
    let i ← loop (M + 1) (fun i => i + 1 * (TR * SS) < M) (2 * (TR * SS)) (body 2) i
    let _ ← loop (M + 1) (fun i => i + 0 * (TR * SS) < M) (1 * (TR * SS)) (body 1) i
    pure ()

/-- full tile of the right multiplication: algorithm/Trmm.hpp:168-171, 175-178, 183-186 -/
def trmmRTileFull (SS TR RM N : Nat) (alpha : V) (B A : MPtr) (diag : Bool) (C : MPtr) (i j : Nat) : Prog V Unit := do
  let r ← Reg.reset.trmmR SS RM (TR * SS) alpha (B.off SS i j) (A.off SS j j) .lower diag
  let r ← gemmAcc SS RM (TR * SS) r (N - j - TR * SS) alpha (B.off SS i (j + TR * SS : Nat))
    (A.off SS (j + TR * SS : Nat) j)
  r.store SS RM (TR * SS) (C.off SS i j)

/-- bottom tile: algorithm/Trmm.hpp:193-196 -/
def trmmRTileBottom (SS TR M N : Nat) (alpha : V) (B A : MPtr) (diag : Bool) (C : MPtr) (i j : Nat) : Prog V Unit := do
  let r ← Reg.reset.trmmRP SS TR (TR * SS) alpha (B.off SS i j) (A.off SS j j) .lower diag (M - i) (TR * SS)
  let r ← gemmAccP SS TR (TR * SS) r (N - j - TR * SS) alpha (B.off SS i (j + TR * SS : Nat))
    (A.off SS (j + TR * SS : Nat) j) (M - i) (TR * SS)
  r.storeP SS TR (TR * SS) (C.off SS i j) (M - i) (TR * SS)

/-- tile of the last, incomplete column strip: algorithm/Trmm.hpp:210-212, 216-218, 223-225, 231-233 -/
def trmmRTileRight (SS TR RM N : Nat) (alpha : V) (B A : MPtr) (diag : Bool) (C : MPtr) (i j mm : Nat) :
    Prog V Unit := do
  let r ← Reg.reset.trmmRP SS RM (TR * SS) alpha (B.off SS i j) (A.off SS j j) .lower diag mm (N - j)
  r.storeP SS RM (TR * SS) (C.off SS i j) mm (N - j)

/-- `trmm(M, N, alpha, B, A, uplo, diagonal_unit, C)` (right multiplication): algorithm/Trmm.hpp:146-242. -/
def trmmRightPtr (SS TR M N : Nat) (alpha : V) (B A : MPtr) (uplo : UpLo) (diag : Bool) (C : MPtr) : Prog V Unit :=
  match uplo with
  | .upper => throw .logicError
  | .lower => colTiles (TR * SS) N
    (fun j => rowTiles (TR * SS) M 0
      (fun rm i => trmmRTileFull SS TR (rm * TR) N alpha B A diag C i j)
      (fun i => trmmRTileBottom SS TR M N alpha B A diag C i j))
    (fun j => rowTiles (TR * SS) M 0
      (fun rm i => trmmRTileRight SS TR (rm * TR) N alpha B A diag C i j (rm * (TR * SS)))
      (fun i => trmmRTileRight SS TR TR N alpha B A diag C i j (M - i)))

/-- `trmm(alpha, A, uplo, diag, B, C)`: algorithm/Trmm.hpp:260-277 -/
def trmmLeftMat (SS TR : Nat) (alpha : V) (A : Mat) (uplo : UpLo) (diag : Bool) (B C : Mat) : Prog V Unit :=
  if A.rows ≠ B.rows ∨ A.cols ≠ B.rows then throw .invalidArgument
  else if C.rows ≠ B.rows ∨ C.cols ≠ B.cols then throw .invalidArgument
  else trmmLeftPtr SS TR B.rows B.cols alpha A.p uplo diag B.p C.p

/-- `trmm(alpha, B, A, uplo, diag, C)`: algorithm/Trmm.hpp:295-310 -/
def trmmRightMat (SS TR : Nat) (alpha : V) (B A : Mat) (uplo : UpLo) (diag : Bool) (C : Mat) : Prog V Unit :=
  if A.rows ≠ B.cols ∨ A.cols ≠ B.cols then throw .invalidArgument
  else if C.rows ≠ B.rows ∨ C.cols ≠ B.cols then throw .invalidArgument
  else trmmRightPtr SS TR B.rows B.cols alpha B.p A.p uplo diag C.p

/-! ### Moving pointers -/

theorem MPtr.At.hmove1 {SS : Nat} (hSS : 0 < SS) {q p : MPtr} {i j : Int} (hw : p.WF SS) (h : MPtr.At SS q p i j)
    (hs : p.so = .columnMajor) : MPtr.At SS (q.hmove SS 1) p i (j + 1) := by
  rw [MPtr.hmove_eq_off (fun _ h1 => by rw [h.so, hs] at h1; cases h1) (fun _ _ _ => hSS)]
  have := h.off hSS hw 0 1 (fun _ => by unfold MPtr.major; rw [hs]; simp)
  rwa [Int.add_zero] at this

/-- `vmove(1)` of an unaligned pointer goes to the next row, except across a panel boundary of a column-major panel
matrix -/
theorem MPtr.At.vmove1 {SS : Nat} (hSS : 0 < SS) {q p : MPtr} {i j : Int} (hw : p.WF SS) (h : MPtr.At SS q p i j)
    (hu : q.aligned = false) (hb : p.panel = true → p.so = .columnMajor → i % (SS : Int) + 1 < SS) :
    MPtr.At SS (q.vmove SS 1) p (i + 1) j := by
  by_cases hpc : p.panel = true ∧ p.so = .columnMajor
  · obtain ⟨hp, hs⟩ := hpc
    have hlt := hb hp hs
    have hn : (SS : Int) ≠ 0 := by omega
    have h0 := Int.emod_nonneg i hn
    have hw1 := (hw (Or.inr hp)).1
    have e1 : (1 : Int) / (SS : Int) = 0 := Int.ediv_eq_zero_of_lt (by omega) (by omega)
    have e2 : (1 : Int) % (SS : Int) = 1 := Int.emod_eq_of_lt (by omega) (by omega)
    have hqp := h.panel.trans hp
    have hqs := h.so.trans hs
    have key : q.vmove SS 1 = { q with ptr := q.ptr + 1 } := by
      unfold MPtr.vmove
      simp only [hqp, hqs, if_true, e1, e2]
      congr 1; omega
    rw [key]
    refine ⟨h.panel, h.so, h.spacing, h.al, ?_, fun ha => by rw [show q.aligned = false from hu] at ha; cases ha⟩
    show q.ptr + 1 = _
    have hdm := Int.emod_add_mul_ediv i (SS : Int)
    have e3 : (i + 1) / (SS : Int) = i / (SS : Int) := by
      have : i + 1 = (i % (SS : Int) + 1) + (SS : Int) * (i / (SS : Int)) := by omega
      rw [this, Int.add_mul_ediv_left _ _ hn, Int.ediv_eq_zero_of_lt (by omega) hlt]; omega
    have e4 : (i + 1) % (SS : Int) = i % (SS : Int) + 1 := by
      have h5 := Int.emod_add_mul_ediv (i + 1) (SS : Int)
      rw [e3] at h5; omega
    rw [h.ptr, MPtr.addr_panel_col hp hs hw1, MPtr.addr_panel_col hp hs hw1, e3, e4]
    omega
  · have hq : q.panel = true → q.so = .columnMajor → q.ptr % (SS : Int) = 0 := fun h1 h2 =>
      absurd ⟨h.panel.symm.trans h1, h.so.symm.trans h2⟩ hpc
    rw [MPtr.vmove_eq_off hq (fun _ _ _ => hSS)]
    have := h.off hSS hw 1 0 (fun ha => by rw [hu] at ha; cases ha)
    rwa [Int.add_zero] at this

theorem MPtr.vmove_aligned (SS : Nat) (q : MPtr) (n : Int) : (q.vmove SS n).aligned = q.aligned := by
  unfold MPtr.vmove
  cases q.panel <;> cases q.so <;> rfl

/-! ### Register operations -/

theorem foldN_guard {σ : Type} (N n : Nat) (f : Nat → σ → Prog V σ) (s : σ) :
    foldN N (fun k s => if k < n then f k s else pure s) s = foldN (min n N) f s := by
  induction N with
  | zero => rw [Nat.min_zero]; rfl
  | succ N ih =>
    show (foldN N _ s >>= _) = _
    rw [ih]
    by_cases h : N < n
    · rw [show min n (N + 1) = N + 1 by omega, show min n N = N by omega]
      show _ = (foldN N f s >>= _)
      congr 1
      funext s'
      exact if_pos h
    · rw [show min n (N + 1) = min n N by omega]
      funext m
      show bind' _ _ m = _
      unfold bind'
      cases hm : foldN (min n N) f s m with
      | ok a m' => dsimp only; rw [if_neg h]; rfl
      | _ => rfl

namespace Reg

/-- SIMD loads of a part of a column through the matrix pointer -/
theorem reads_colLoads {SS n : Nat} (hSS : 0 < SS) {q p : MPtr} {I J : Int} {m : Mem V} {f : V → V} (hw : p.WF SS)
    (h : MPtr.At SS q p I J) (hs : p.so = .columnMajor)
    (hr : ∀ r : Nat, r < n * SS → (m (p.addr SS (I + r) J)).isSome = true) :
    ReadsQ (foldN n (fun i (ax : Nat → Vec V) => do
      let x ← (q.off SS ((i * SS : Nat) : Int) 0).load SS
      pure (fun i' => if i' = i then (fun l => f (x l)) else ax i')) (fun _ _ => Arith.zero)) m
      (fun ax => ∀ i, i < n → ∀ l, l < SS → ax i l = f (val m (p.addr SS (I + (i * SS + l : Nat)) J))) := by
  refine readsQ_foldN (I := fun k (ax : Nat → Vec V) => ∀ i, i < k → ∀ l, l < SS →
    ax i l = f (val m (p.addr SS (I + (i * SS + l : Nat)) J))) (fun i hi => by omega) ?_
  intro k ax hk hax
  have h2 := h.off hSS hw ((k * SS : Nat) : Int) 0 (fun _ => by
    unfold MPtr.major; rw [hs, Int.natCast_mul]; exact Int.mul_emod_left _ _)
  rw [Int.add_zero] at h2
  obtain ⟨v, hv, hv2⟩ := h2.reads_load (m := m) hSS hw hs (fun l hl => by
    have := hr (k * SS + l) (idx_lt hk hl)
    rw [Int.add_assoc, ← Int.natCast_add]; exact this)
  refine Reads.bindQ hv (readsQ_pure ?_)
  intro i hi l hl
  dsimp only
  by_cases hik : i = k
  · subst hik; rw [if_pos rfl, hv2 l hl, Int.add_assoc, ← Int.natCast_add]
  · rw [if_neg hik]; exact hax i (by omega) l hl

/-- the loop of the right multiplication by a lower triangular matrix -/
theorem reads_trmmRFold {SS RM K : Nat} (hSS : 0 < SS) {b B au A : MPtr} {I J P Q : Int} {m : Mem V} {alpha : V}
    {r : Reg V} (hwB : B.WF SS) (hwA : A.WF SS) (hb : MPtr.At SS b B I J) (hsB : B.so = .columnMajor)
    (ha : MPtr.At SS au A P Q) (hu : au.aligned = false)
    (hpan : A.panel = true → A.so = .columnMajor → P % (SS : Int) = 0 ∧ K ≤ SS)
    (rB : ∀ i t : Nat, i < RM * SS → t < K → (m (B.addr SS (I + i) (J + t))).isSome = true)
    (rA : ∀ t c : Nat, c ≤ t → t < K → (m (A.addr SS (P + t) (Q + c))).isSome = true) :
    ReadsQ (foldN K (trmmRStep SS RM alpha) (r, b, au)) m (fun s => ∀ i j : Nat, i < RM * SS →
      s.1.el SS i j = fmaSum (fun t => Arith.mul alpha (val m (B.addr SS (I + i) (J + (j + t : Nat)))))
        (fun t => val m (A.addr SS (P + (j + t : Nat)) (Q + j))) (r.el SS i j) (K - j)) := by
  refine (readsQ_foldN (I := fun k (s : Reg V × MPtr × MPtr) =>
    (∀ i j : Nat, i < RM → ∀ l, l < SS → s.1 i j l =
      fmaSum (fun t => Arith.mul alpha (val m (B.addr SS (I + (i * SS + l : Nat)) (J + (j + t : Nat)))))
        (fun t => val m (A.addr SS (P + (j + t : Nat)) (Q + j))) (r i j l) (k - j)) ∧
    MPtr.At SS s.2.1 B I (J + k) ∧ s.2.2.aligned = false ∧ (k < K → MPtr.At SS s.2.2 A (P + k) Q)) ?_ ?_).mono ?_
  · refine ⟨fun i j _ l _ => by rw [Nat.zero_sub]; rfl, by simpa using hb, hu, fun _ => by simpa using ha⟩
  · rintro k ⟨s, q, a⟩ hk ⟨h1, h2, h3, h4⟩
    unfold trmmRStep
    dsimp only at h1 h2 h3 h4 ⊢
    have h4 := h4 hk
    refine ReadsQ.bind (reads_colLoads hSS (f := Arith.mul alpha) hwB h2 hsB (fun i hi => rB i k hi hk)) ?_
    intro bx hbx
    refine ReadsQ.bind (readsQ_forCols (Q := fun j c => ∀ i, i < RM → ∀ l, l < SS → c i l =
      Arith.fma (Arith.mul alpha (val m (B.addr SS (I + (i * SS + l : Nat)) (J + k))))
        (val m (A.addr SS (P + k) (Q + j))) (s i j l)) ?_) ?_
    · intro j hj _ r0 hr0
      have hg := h4.reads_get (m := m) hSS hwA 0 (j : Int) (by rw [Int.add_zero]; exact rA k j (by omega) hk)
      rw [Int.add_zero] at hg
      refine Reads.bindQ hg ?_
      refine reads_mapCol.mono ?_
      rintro r' ⟨h5, h6⟩
      exact ⟨fun i hi l hl => by dsimp only; rw [h5 i hi rfl]; dsimp only; rw [hbx i hi l hl, hr0 i],
        fun i j' hj' => h6 i j' (fun hh => hj' hh.1)⟩
    · rintro s' ⟨h5, h6⟩
      refine readsQ_pure ⟨?_, ?_, ?_, ?_⟩
      · intro i j hi l hl
        dsimp only
        by_cases hjk : j < k + 1
        · have h5' := h5 j hjk rfl i hi l hl
          dsimp only at h5'
          rw [h5', h1 i j hi l hl, show k + 1 - j = (k - j) + 1 by omega]
          show _ = Arith.fma _ _ _
          dsimp only
          rw [show j + (k - j) = k by omega]
        · rw [h6 i j (fun hh => hjk hh.1), h1 i j hi l hl, show k + 1 - j = 0 by omega, show k - j = 0 by omega]
      · have := h2.hmove1 hSS hwB hsB
        rw [Int.add_assoc] at this
        push_cast; exact this
      · rw [MPtr.vmove_aligned]; exact h3
      · intro hk1
        have := h4.vmove1 hSS hwA h3 (fun hp hso => by
          obtain ⟨hP, hK⟩ := hpan hp hso
          rw [Int.add_emod, hP, Int.zero_add, Int.emod_emod, Int.emod_eq_of_lt (by omega) (by omega)]
          omega)
        rw [Int.add_assoc] at this
        push_cast; exact this
  · rintro s ⟨h1, _⟩ i j hi
    obtain ⟨h3, h4, h5⟩ := idx_split hSS hi
    have := h1 _ j h3 _ h4
    rw [h5] at this
    exact this

/-- the loop of the left multiplication by an upper triangular matrix: row `i` of the result accumulates the terms
`k = (i / SS) * SS, …`; the coefficients with `k < i` are zeros supplied by masked loads. Only the upper triangle of A
is read. -/
theorem reads_trmmL {SS RM N : Nat} (hSS : 0 < SS) {a A b B : MPtr} {I J P Q : Int} {m : Mem V} {alpha : V}
    {r : Reg V} (hwA : A.WF SS) (hwB : B.WF SS) (ha : MPtr.At SS a A I J) (hsA : A.so = .columnMajor)
    (hI : A.panel = true → I % (SS : Int) = 0) (hb : MPtr.At SS b B P Q)
    (hpan : B.panel = true → B.so = .columnMajor → P % (SS : Int) = 0 ∧ RM ≤ 1)
    (rA : ∀ i k : Nat, i ≤ k → k < RM * SS → (m (A.addr SS (I + i) (J + k))).isSome = true)
    (rB : ∀ k c : Nat, k < RM * SS → c < N → (m (B.addr SS (P + k) (Q + c))).isSome = true) :
    ReadsQ (r.trmmL SS RM N alpha a .upper false b) m (fun r' => ∀ i j : Nat, i < RM * SS → j < N →
      r'.el SS i j = fmaSum
        (fun t => Arith.mul alpha (if i ≤ i / SS * SS + t then
          val m (A.addr SS (I + i) (J + (i / SS * SS + t : Nat))) else Arith.zero))
        (fun t => val m (B.addr SS (P + (i / SS * SS + t : Nat)) (Q + j))) (r.el SS i j)
        (RM * SS - i / SS * SS)) := by
  refine ReadsQ.noexcept ?_
  dsimp only
  rw [if_neg (by simp)]
  refine ReadsQ.bind (readsQ_foldN (I := fun k (s : Reg V × MPtr × MPtr) =>
    (∀ i j : Nat, i < RM → j < N → ∀ l, l < SS → s.1 i j l = fmaSum
      (fun t => Arith.mul alpha (if i * SS + l ≤ i * SS + t then
          val m (A.addr SS (I + (i * SS + l : Nat)) (J + (i * SS + t : Nat))) else Arith.zero))
        (fun t => val m (B.addr SS (P + (i * SS + t : Nat)) (Q + j))) (r i j l) (k - i * SS)) ∧
    MPtr.At SS s.2.1 A I (J + k) ∧ s.2.2.aligned = false ∧ (k < RM * SS → MPtr.At SS s.2.2 B (P + k) Q)) ?_ ?_) ?_
  · refine ⟨fun i j _ _ l _ => by rw [Nat.zero_sub]; rfl, by simpa using ha, by rw [MPtr.unal_ptr hSS],
      fun _ => by simpa using hb.unal hSS⟩
  · rintro k ⟨s, q, bu⟩ hk ⟨h1, h2, h3, h4⟩
    dsimp only at h1 h2 h3 h4 ⊢
    have h4 := h4 hk
    have hdm := Nat.div_add_mod (k + 1) SS
    have hml := Nat.mod_lt (k + 1) hSS
    -- number of complete SIMD rows
    refine ReadsQ.bind (reads_colLoads hSS (f := Arith.mul alpha) hwA h2 hsA (fun i hi => ?_)) ?_
    · refine rA i k ?_ hk
      rw [Nat.mul_comm] at hi; omega
    intro ax hax
    refine ReadsQ.bind (Q := fun ax' : Nat → Vec V => ∀ i, i ≤ k / SS → ∀ l, l < SS → ax' i l =
        Arith.mul alpha (if i * SS + l ≤ k then val m (A.addr SS (I + (i * SS + l : Nat)) (J + k)) else Arith.zero)) ?_ ?_
    · by_cases hrem : (k + 1) % SS ≠ 0
      · rw [if_pos hrem]
        have hkd : (k + 1) / SS = k / SS := by
          rw [Nat.succ_div, if_neg (fun hd => hrem (Nat.mod_eq_zero_of_dvd hd))]; omega
        have hmod : (((k + 1) / SS * SS : Nat) : Int) % (SS : Int) = 0 := by
          rw [Int.natCast_mul]; exact Int.mul_emod_left _ _
        have h5 := h2.off hSS hwA (((k + 1) / SS * SS : Nat) : Int) 0 (fun _ => by
          unfold MPtr.major; rw [hsA]; exact hmod)
        rw [Int.add_zero] at h5
        obtain ⟨v, hv, hv2⟩ := h5.reads_loadMask (m := m) hwA hsA
          (fun hp => by rw [Int.add_emod, hI hp, hmod]; simp) (fun l => decide (l < (k + 1) % SS)) (fun l hl hlm => by
            have hlm' : l < (k + 1) % SS := by simpa using hlm
            rw [Int.add_assoc, ← Int.natCast_add]
            exact rA _ k (by rw [Nat.mul_comm]; omega) hk)
        refine Reads.bindQ hv (readsQ_pure ?_)
        intro i hi l hl
        dsimp only
        by_cases hik : i = (k + 1) / SS
        · rw [if_pos hik, hv2 l hl]
          congr 1
          have hsi : SS * ((k + 1) / SS) = i * SS := by rw [hik, Nat.mul_comm]
          by_cases hlm : l < (k + 1) % SS
          · rw [if_pos (by simpa using hlm), if_pos (by omega), hik, Int.add_assoc, ← Int.natCast_add]
          · rw [if_neg (by simpa using hlm), if_neg (by omega)]
        · rw [if_neg hik, hax i (by omega) l hl, if_pos]
          have := Nat.mul_le_mul_left SS (show i + 1 ≤ (k + 1) / SS by omega)
          rw [Nat.mul_add, Nat.mul_comm SS i] at this
          omega
      · rw [if_neg hrem]
        have hrem : (k + 1) % SS = 0 := by omega
        have hkd : (k + 1) / SS = k / SS + 1 := by
          rw [Nat.succ_div, if_pos (Nat.dvd_of_mod_eq_zero hrem)]
        refine readsQ_pure (fun i hi l hl => ?_)
        rw [hax i (by omega) l hl, if_pos]
        have := Nat.mul_le_mul_left SS (show i + 1 ≤ (k + 1) / SS by omega)
        rw [Nat.mul_add, Nat.mul_comm SS i] at this
        omega
    intro ax' hax'
    have hkR : k / SS < RM := (idx_split hSS hk).1
    refine ReadsQ.bind (readsQ_forCols (Q := fun j c => ∀ i, i < RM → ∀ l, l < SS → c i l =
      if i ≤ k / SS then Arith.fma (ax' i l) (val m (B.addr SS (P + k) (Q + j))) (s i j l) else s i j l) ?_) ?_
    · intro j hj _ r0 hr0
      have hg := h4.reads_get (m := m) hSS hwB 0 (j : Int) (by rw [Int.add_zero]; exact rB k j hk hj)
      rw [Int.add_zero] at hg
      refine Reads.bindQ hg ?_
      refine ReadsQ.bind reads_mapCol ?_
      rintro r1 ⟨h5, h6⟩
      by_cases hrem : (k + 1) % SS ≠ 0
      · rw [if_pos hrem]
        have hkd : (k + 1) / SS = k / SS := by
          rw [Nat.succ_div, if_neg (fun hd => hrem (Nat.mod_eq_zero_of_dvd hd))]; omega
        rw [hkd] at h5 h6 ⊢
        refine readsQ_pure ⟨fun i hi l hl => ?_, fun i j' hj' => ?_⟩
        · unfold upd
          dsimp only
          by_cases hik : i = k / SS
          · rw [if_pos ⟨hik, rfl⟩, if_pos (by omega), h6 _ j (fun hh => by omega), hr0, hik]
          · rw [if_neg (fun hh => hik hh.1)]
            by_cases hlt : i < k / SS
            · rw [if_pos (by omega), h5 i hlt rfl]
              dsimp only
              rw [hr0]
            · rw [if_neg (by omega), h6 i j (fun hh => hlt hh.2.1), hr0]
        · unfold upd
          rw [if_neg (fun hh => hj' hh.2), h6 i j' (fun hh => hj' hh.1)]
      · rw [if_neg hrem]
        have hrem : (k + 1) % SS = 0 := by omega
        have hkd : (k + 1) / SS = k / SS + 1 := by
          rw [Nat.succ_div, if_pos (Nat.dvd_of_mod_eq_zero hrem)]
        rw [hkd] at h5 h6
        refine readsQ_pure ⟨fun i hi l hl => ?_, fun i j' hj' => ?_⟩
        · dsimp only
          by_cases hlt : i ≤ k / SS
          · rw [if_pos hlt, h5 i (by omega) rfl]
            dsimp only
            rw [hr0]
          · rw [if_neg hlt, h6 i j (fun hh => by omega), hr0]
        · rw [h6 i j' (fun hh => hj' hh.1)]
    · rintro s' ⟨h5, h6⟩
      refine readsQ_pure ⟨?_, ?_, ?_, ?_⟩
      · intro i j hi hj l hl
        dsimp only
        have h5' := h5 j hj rfl i hi l hl
        dsimp only at h5'
        rw [h5', h1 i j hi hj l hl]
        by_cases hik : i ≤ k / SS
        · have hle : i * SS ≤ k := (Nat.le_div_iff_mul_le hSS).1 hik
          rw [if_pos hik, hax' i hik l hl, show k + 1 - i * SS = (k - i * SS) + 1 by omega]
          show _ = Arith.fma _ _ _
          dsimp only
          rw [show i * SS + (k - i * SS) = k by omega]
        · have hle : ¬ i * SS ≤ k := fun h => hik ((Nat.le_div_iff_mul_le hSS).2 h)
          rw [if_neg hik, show k + 1 - i * SS = 0 by omega, show k - i * SS = 0 by omega]
      · have := h2.hmove1 hSS hwA hsA
        rw [Int.add_assoc] at this
        push_cast; exact this
      · rw [MPtr.vmove_aligned]; exact h3
      · intro hk1
        have := h4.vmove1 hSS hwB h3 (fun hp hso => by
          obtain ⟨hP, hK⟩ := hpan hp hso
          have hR : RM * SS ≤ SS := by have := Nat.mul_le_mul_right SS hK; omega
          rw [Int.add_emod, hP, Int.zero_add, Int.emod_emod, Int.emod_eq_of_lt (by omega) (by omega)]
          omega)
        rw [Int.add_assoc] at this
        push_cast; exact this
  · rintro s ⟨h1, _⟩
    refine readsQ_pure (fun i j hi hj => ?_)
    obtain ⟨h3, h4, h5⟩ := idx_split hSS hi
    have := h1 _ j h3 hj _ h4
    rw [h5] at this
    exact this

end Reg

/-! ### Accumulating products -/

theorem fmaSum_append (a b : Nat → V) (c : V) (K1 K2 : Nat) :
    fmaSum (fun k => a (K1 + k)) (fun k => b (K1 + k)) (fmaSum a b c K1) K2 = fmaSum a b c (K1 + K2) := by
  induction K2 with
  | zero => rfl
  | succ K ih => show Arith.fma _ _ _ = Arith.fma _ _ _; rw [ih]; rfl

theorem loads_colAt {SS RM : Nat} (hSS : 0 < SS) {q A : MPtr} {I J : Int} {m : Mem V} {k : Nat} (hw : A.WF SS)
    (h : MPtr.At SS q A I J) (hs : A.so = .columnMajor) (hI : A.panel = true → I % (SS : Int) = 0)
    (hr : ∀ r : Nat, r < RM * SS → (m (A.addr SS (I + r) (J + k))).isSome = true) :
    (column (q.off SS 0 k)).Loads SS m RM (fun r => val m (A.addr SS (I + r) (J + k))) := by
  have h2 := h.off hSS hw 0 (k : Int) (fun _ => by unfold MPtr.major; rw [hs]; simp)
  rw [Int.add_zero] at h2
  exact column_loads hSS hw h2 hs hI hr

theorem gets_rowAt {SS n : Nat} (hSS : 0 < SS) {q B : MPtr} {P Q : Int} {m : Mem V} {k : Nat} (hw : B.WF SS)
    (h : MPtr.At SS q B P Q) (hr : ∀ c : Nat, c < n → (m (B.addr SS (P + k) (Q + c))).isSome = true) :
    (row ((q.unal SS).off SS k 0)).Gets SS m n (fun c => val m (B.addr SS (P + k) (Q + c))) := by
  have h2 := (h.unal hSS).off hSS hw (k : Int) 0 (fun ha => by rw [MPtr.unal_ptr hSS] at ha; cases ha)
  rw [Int.add_zero] at h2
  exact row_gets hSS hw h2 hr

theorem reads_gemmAccP {SS RM N K mm nn : Nat} (hSS : 0 < SS) {a b A B : MPtr} {I J P Q : Int} {m : Mem V} {alpha : V}
    {r : Reg V} (hwA : A.WF SS) (hwB : B.WF SS) (ha : MPtr.At SS a A I J) (hsA : A.so = .columnMajor)
    (hI : A.panel = true → I % (SS : Int) = 0) (hb : MPtr.At SS b B P Q)
    (rA : ∀ i k : Nat, i < RM * SS → k < K → (m (A.addr SS (I + i) (J + k))).isSome = true)
    (rB : ∀ k c : Nat, k < K → c < N → c < nn → (m (B.addr SS (P + k) (Q + c))).isSome = true) :
    ReadsQ (gemmAccP SS RM N r K alpha a b mm nn) m (fun r' => ∀ i j : Nat, i < RM * SS → j < N → j < nn →
      r'.el SS i j = fmaSum (fun k => Arith.mul alpha (val m (A.addr SS (I + i) (J + k))))
        (fun k => val m (B.addr SS (P + k) (Q + j))) (r.el SS i j) K) := by
  refine (reads_gerFold (mm := mm) (nn := nn) hSS (f := Arith.mul alpha)
    (X := fun k i => val m (A.addr SS (I + i) (J + k))) (Y := fun k j => val m (B.addr SS (P + k) (Q + j)))
    (fun k hk => loads_colAt hSS hwA ha hsA hI (fun i hi => rA i k hi hk))
    (fun k hk => gets_rowAt hSS hwB hb (fun c hc => rB k c hk (by omega) (by omega)))).mono ?_
  rintro r' ⟨h1, _⟩
  exact h1

theorem reads_gemmAcc {SS RM N K : Nat} (hSS : 0 < SS) {a b A B : MPtr} {I J P Q : Int} {m : Mem V} {alpha : V}
    {r : Reg V} (hwA : A.WF SS) (hwB : B.WF SS) (ha : MPtr.At SS a A I J) (hsA : A.so = .columnMajor)
    (hI : A.panel = true → I % (SS : Int) = 0) (hb : MPtr.At SS b B P Q)
    (rA : ∀ i k : Nat, i < RM * SS → k < K → (m (A.addr SS (I + i) (J + k))).isSome = true)
    (rB : ∀ k c : Nat, k < K → c < N → (m (B.addr SS (P + k) (Q + c))).isSome = true) :
    ReadsQ (gemmAcc SS RM N r K alpha a b) m (fun r' => ∀ i j : Nat, i < RM * SS → j < N →
      r'.el SS i j = fmaSum (fun k => Arith.mul alpha (val m (A.addr SS (I + i) (J + k))))
        (fun k => val m (B.addr SS (P + k) (Q + j))) (r.el SS i j) K) :=
  reads_gerFoldFull hSS (f := Arith.mul alpha)
    (X := fun k i => val m (A.addr SS (I + i) (J + k))) (Y := fun k j => val m (B.addr SS (P + k) (Q + j)))
    (fun k hk => loads_colAt hSS hwA ha hsA hI (fun i hi => rA i k hi hk))
    (fun k hk => gets_rowAt hSS hwB hb (fun c hc => rB k c hk hc))

/-! ### Right multiplication -/

/-- Assumptions on the arguments of the right multiplication: B and C column-major (required by the code), B readable
in the rows that pad M to a multiple of the tile size, the lower triangle of A readable, C with distinct allocated
elements, not overlapping the lower triangle of A; B is C or does not overlap it. A column-major panel matrix A is
allowed only if the tile is one panel high (see `MPtr.At.vmove1`). -/
structure TrmmRPre (SS TR M N : Nat) (B A C : MPtr) (m : Mem V) : Prop where
  ss : 0 < SS
  tr : 0 < TR
  wA : A.WF SS
  wB : B.WF SS
  wC : C.WF SS
  sB : B.so = .columnMajor
  sC : C.so = .columnMajor
  pan : A.panel = true → A.so = .columnMajor → TR = 1
  rA : ∀ k j : Nat, j ≤ k → k < N → (m (A.addr SS k j)).isSome = true
  rB : Readable SS m B (roundUp M (TR * SS)) N
  rC : Readable SS m C M N
  iC : Inj SS C M N
  dA : ∀ k j : Nat, j ≤ k → k < N → ¬ Cells SS C M N (A.addr SS k j)
  dB : SameOrDisj SS B C M N

/-- value computed by the right multiplication -/
def trmmREntry (alpha : V) (b : Nat → V) (a : Nat → V) (j N : Nat) : V :=
  fmaSum (fun t => Arith.mul alpha (b (j + t))) (fun t => a (j + t)) Arith.zero (N - j)

section
variable {SS TR M N : Nat} {A B C : MPtr} {m : Mem V} {alpha : V} {g : Int → V}

theorem trmmRTile_facts (h : TrmmRPre SS TR M N B A C m) {i j mm nn : Nat} {S : Int → Prop} {m' : Mem V}
    (hw : WritesSet m m' S g) (him : i + mm ≤ M)
    (hS : ∀ x, S x → ∃ a b : Nat, a < M ∧ b < N ∧ True ∧ (b < j ∨ b < j + nn ∧ a < i) ∧ x = C.addr SS a b) :
    (∀ r c : Nat, r < mm → j ≤ c → c < N → val m' (B.addr SS (i + r : Nat) c) = val m (B.addr SS (i + r : Nat) c)) ∧
    (∀ k c : Nat, c ≤ k → k < N → val m' (A.addr SS k c) = val m (A.addr SS k c)) := by
  refine ⟨fun r c hr hjc hc => val_unchanged hw ?_, fun k c hck hk => val_unchanged hw ?_⟩
  · intro hs
    obtain ⟨a, b, ha, hb, _, hn, e⟩ := hS _ hs
    obtain ⟨e1, e2⟩ := h.dB _ _ _ _ (show i + r < M by omega) hc ha hb e
    omega
  · intro hs
    obtain ⟨a, b, ha, hb, _, _, e⟩ := hS _ hs
    exact h.dA k c hck hk ⟨a, b, ha, hb, e⟩

/-- registers after the triangular part, started from zeros -/
theorem trmmR_tri (h : TrmmRPre SS TR M N B A C m) {m' : Mem V} (al : ∀ {z : Int}, (m z).isSome = true → (m' z).isSome = true)
    {i j RM K : Nat} (hi : i % SS = 0) (hj : j % SS = 0) (hT : i + RM * SS ≤ roundUp M (TR * SS)) (hK : j + K ≤ N)
    (hKT : K ≤ TR * SS) :
    ReadsQ (foldN K (trmmRStep SS RM alpha) (Reg.reset, B.off SS i j, (A.off SS j j).unal SS) >>= fun s => pure s.1) m'
      (fun s => ∀ r c : Nat, r < RM * SS → s.el SS r c =
        fmaSum (fun t => Arith.mul alpha (val m' (B.addr SS (i + r : Nat) (j + c + t : Nat))))
          (fun t => val m' (A.addr SS (j + c + t : Nat) (j + c : Nat))) Arith.zero (K - c)) := by
  have atB := at_off h.ss h.wB i j (fun _ => by unfold MPtr.major; rw [h.sB]; exact cast_mod_zero hi)
  have atA := (at_off h.ss h.wA j j (fun _ => by unfold MPtr.major; cases A.so <;> exact cast_mod_zero hj)).unal h.ss
  refine ReadsQ.bind (Reg.reads_trmmRFold h.ss h.wB h.wA atB h.sB atA (by rw [MPtr.unal_ptr h.ss])
    (fun hp hs => ⟨cast_mod_zero hj, by rw [h.pan hp hs] at hKT; omega⟩)
    (fun r t hr ht => ?_) (fun t c hct ht => ?_)) ?_
  · rw [← Int.natCast_add, ← Int.natCast_add]; exact al (h.rB _ _ (by omega) (by omega))
  · rw [← Int.natCast_add, ← Int.natCast_add]; exact al (h.rA _ _ (by omega) (by omega))
  · intro s hs
    refine readsQ_pure (fun r c hr => ?_)
    rw [hs r c hr]
    have e : ∀ t : Nat, ((j : Int) + ((c + t : Nat) : Int)) = ((j + c + t : Nat) : Int) := by intro t; push_cast; omega
    simp only [e, ← Int.natCast_add]
    rfl

theorem trmmRTileFull_writes (h : TrmmRPre SS TR M N B A C m)
    (hg : ∀ a b : Nat, a < M → b < N → g (C.addr SS a b) =
      trmmREntry alpha (fun k => val m (B.addr SS a k)) (fun k => val m (A.addr SS k b)) b N)
    {i j RM : Nat} (hi : i % SS = 0) (hj : j % SS = 0) (him : i + RM * SS ≤ M) (hjn : j + TR * SS ≤ N) :
    WritesTile SS M N C (fun _ _ => True) m g (trmmRTileFull SS TR RM N alpha B A false C i j) i j (RM * SS) (TR * SS) := by
  intro S m' hw hS
  obtain ⟨fB, fA⟩ := trmmRTile_facts h hw him hS
  have al : ∀ {z : Int}, (m z).isSome = true → (m' z).isSome = true := fun hz => hw.isSome hz
  have hself := self_le_roundUp (n := M) (Nat.mul_pos h.tr h.ss)
  have hTm : (TR * SS) % SS = 0 := Nat.mul_mod_left _ _
  have hjT : (j + TR * SS) % SS = 0 := by rw [Nat.add_mod, hj, hTm]; simp
  have atB := at_off h.ss h.wB i (j + TR * SS) (fun _ => by unfold MPtr.major; rw [h.sB]; exact cast_mod_zero hi)
  have atA := at_off h.ss h.wA (j + TR * SS) j (fun _ => by
    unfold MPtr.major; cases A.so
    · exact cast_mod_zero hj
    · exact cast_mod_zero hjT)
  have atC := at_off h.ss h.wC i j (fun _ => by unfold MPtr.major; rw [h.sC]; exact cast_mod_zero hi)
  unfold trmmRTileFull
  refine ReadsQ.bind_runs (ReadsQ.noexcept
    (trmmR_tri h al hi hj (by omega) hjn (Nat.le_refl _))) (fun r1 h1 => ?_)
  refine ReadsQ.bind_runs (reads_gemmAcc h.ss h.wB h.wA atB h.sB (fun _ => cast_mod_zero hi) atA
    (fun r k hr hk => ?_) (fun k c hk hc => ?_)) (fun r2 h2 => ?_)
  · rw [← Int.natCast_add, ← Int.natCast_add]; exact al (h.rB _ _ (by omega) (by omega))
  · rw [← Int.natCast_add, ← Int.natCast_add]; exact al (h.rA _ _ (by omega) (by omega))
  refine (Reg.runs_store h.ss h.wC atC h.sC (fun _ => cast_mod_zero hi) g (fun a b ha hb => ?_)
    (fun a b ha hb => ?_)).mono ?_
  · rw [← Int.natCast_add, ← Int.natCast_add]
    exact al (h.rC _ _ (by omega) (by omega))
  · rw [← Int.natCast_add, ← Int.natCast_add, hg _ _ (by omega) (by omega), h2 a b ha hb, h1 a b ha]
    have := fmaSum_append (fun t => Arith.mul alpha (val m' (B.addr SS (i + a : Nat) (j + b + t : Nat))))
      (fun t => val m' (A.addr SS (j + b + t : Nat) (j + b : Nat))) Arith.zero (TR * SS - b) (N - j - TR * SS)
    rw [show TR * SS - b + (N - j - TR * SS) = N - (j + b) by omega] at this
    unfold trmmREntry
    have e1 : fmaSum (fun t => Arith.mul alpha (val m (B.addr SS (i + a : Nat) (j + b + t : Nat))))
        (fun t => val m (A.addr SS (j + b + t : Nat) (j + b : Nat))) Arith.zero (N - (j + b)) =
      fmaSum (fun t => Arith.mul alpha (val m' (B.addr SS (i + a : Nat) (j + b + t : Nat))))
        (fun t => val m' (A.addr SS (j + b + t : Nat) (j + b : Nat))) Arith.zero (N - (j + b)) :=
      fmaSum_congr rfl _ (fun t ht => by rw [fB a _ ha (by omega) (by omega)])
        (fun t ht => by rw [fA _ _ (by omega) (by omega)])
    rw [e1, ← this]
    refine fmaSum_congr rfl _ (fun t ht => ?_) (fun t ht => ?_)
    · rw [← Int.natCast_add, ← Int.natCast_add]
      rw [show j + b + (TR * SS - b + t) = j + TR * SS + t by omega]
    · rw [← Int.natCast_add, ← Int.natCast_add]
      rw [show j + b + (TR * SS - b + t) = j + TR * SS + t by omega]
  · intro _ m'' hw2
    refine hw2.congr (fun z => ?_)
    constructor
    · rintro ⟨a, b, ha, hb, rfl⟩
      exact ⟨i + a, j + b, by omega, trivial, by push_cast; rfl⟩
    · rintro ⟨a, b, hab, _, rfl⟩
      refine ⟨a - i, b - j, by omega, by omega, ?_⟩
      rw [← Int.natCast_add, ← Int.natCast_add, show i + (a - i) = a by omega, show j + (b - j) = b by omega]

theorem trmmRTileBottom_writes (h : TrmmRPre SS TR M N B A C m) (diag : Bool)
    (hg : ∀ a b : Nat, a < M → b < N → g (C.addr SS a b) =
      trmmREntry alpha (fun k => val m (B.addr SS a k)) (fun k => val m (A.addr SS k b)) b N)
    {i j : Nat} (hi : i % SS = 0) (hj : j % SS = 0) (hiM : i < M) (hMi : M < i + TR * SS) (hjn : j + TR * SS ≤ N)
    (hT : i + TR * SS ≤ roundUp M (TR * SS)) :
    WritesTile SS M N C (fun _ _ => True) m g (trmmRTileBottom SS TR M N alpha B A diag C i j) i j (M - i) (TR * SS) := by
  intro S m' hw hS
  obtain ⟨fB, fA⟩ := trmmRTile_facts h hw (show i + (M - i) ≤ M by omega) hS
  have al : ∀ {z : Int}, (m z).isSome = true → (m' z).isSome = true := fun hz => hw.isSome hz
  have hTm : (TR * SS) % SS = 0 := Nat.mul_mod_left _ _
  have hjT : (j + TR * SS) % SS = 0 := by rw [Nat.add_mod, hj, hTm]; simp
  have atB := at_off h.ss h.wB i (j + TR * SS) (fun _ => by unfold MPtr.major; rw [h.sB]; exact cast_mod_zero hi)
  have atA := at_off h.ss h.wA (j + TR * SS) j (fun _ => by
    unfold MPtr.major; cases A.so
    · exact cast_mod_zero hj
    · exact cast_mod_zero hjT)
  have atC := at_off h.ss h.wC i j (fun _ => by unfold MPtr.major; rw [h.sC]; exact cast_mod_zero hi)
  unfold trmmRTileBottom Reg.trmmRP
  rw [foldN_guard, Nat.min_self]
  refine ReadsQ.bind_runs (ReadsQ.noexcept
    (trmmR_tri h al hi hj (by omega) hjn (Nat.le_refl _))) (fun r1 h1 => ?_)
  refine ReadsQ.bind_runs (reads_gemmAccP (mm := M - i) (nn := TR * SS) h.ss h.wB h.wA atB h.sB
    (fun _ => cast_mod_zero hi) atA
    (fun r k hr hk => ?_) (fun k c hk hc _ => ?_)) (fun r2 h2 => ?_)
  · rw [← Int.natCast_add, ← Int.natCast_add]; exact al (h.rB _ _ (by omega) (by omega))
  · rw [← Int.natCast_add, ← Int.natCast_add]; exact al (h.rA _ _ (by omega) (by omega))
  refine (Reg.runs_storeP h.ss h.wC atC h.sC (fun _ => cast_mod_zero hi) (by omega) g (fun a b ha hb _ => ?_)
    (fun a b ha hb _ => ?_)).mono ?_
  · rw [← Int.natCast_add, ← Int.natCast_add]
    exact al (h.rC _ _ (by omega) (by omega))
  · rw [← Int.natCast_add, ← Int.natCast_add, hg _ _ (by omega) (by omega), h2 a b (by omega) hb hb, h1 a b (by omega)]
    have := fmaSum_append (fun t => Arith.mul alpha (val m' (B.addr SS (i + a : Nat) (j + b + t : Nat))))
      (fun t => val m' (A.addr SS (j + b + t : Nat) (j + b : Nat))) Arith.zero (TR * SS - b) (N - j - TR * SS)
    rw [show TR * SS - b + (N - j - TR * SS) = N - (j + b) by omega] at this
    unfold trmmREntry
    have e1 : fmaSum (fun t => Arith.mul alpha (val m (B.addr SS (i + a : Nat) (j + b + t : Nat))))
        (fun t => val m (A.addr SS (j + b + t : Nat) (j + b : Nat))) Arith.zero (N - (j + b)) =
      fmaSum (fun t => Arith.mul alpha (val m' (B.addr SS (i + a : Nat) (j + b + t : Nat))))
        (fun t => val m' (A.addr SS (j + b + t : Nat) (j + b : Nat))) Arith.zero (N - (j + b)) :=
      fmaSum_congr rfl _ (fun t ht => by rw [fB a _ ha (by omega) (by omega)])
        (fun t ht => by rw [fA _ _ (by omega) (by omega)])
    rw [e1, ← this]
    refine fmaSum_congr rfl _ (fun t ht => ?_) (fun t ht => ?_)
    · rw [← Int.natCast_add, ← Int.natCast_add]
      rw [show j + b + (TR * SS - b + t) = j + TR * SS + t by omega]
    · rw [← Int.natCast_add, ← Int.natCast_add]
      rw [show j + b + (TR * SS - b + t) = j + TR * SS + t by omega]
  · intro _ m'' hw2
    refine hw2.congr (fun z => ?_)
    constructor
    · rintro ⟨a, b, ha, hb, _, rfl⟩
      exact ⟨i + a, j + b, by omega, trivial, by push_cast; rfl⟩
    · rintro ⟨a, b, hab, _, rfl⟩
      refine ⟨a - i, b - j, by omega, by omega, by omega, ?_⟩
      rw [← Int.natCast_add, ← Int.natCast_add, show i + (a - i) = a by omega, show j + (b - j) = b by omega]

theorem trmmRTileRight_writes (h : TrmmRPre SS TR M N B A C m) (diag : Bool)
    (hg : ∀ a b : Nat, a < M → b < N → g (C.addr SS a b) =
      trmmREntry alpha (fun k => val m (B.addr SS a k)) (fun k => val m (A.addr SS k b)) b N)
    {i j RM mm : Nat} (hi : i % SS = 0) (hj : j % SS = 0) (him : i + mm ≤ M) (hmm : mm ≤ RM * SS) (hjN : j < N)
    (hNj : N < j + TR * SS) (hT : i + RM * SS ≤ roundUp M (TR * SS)) :
    WritesTile SS M N C (fun _ _ => True) m g (trmmRTileRight SS TR RM N alpha B A diag C i j mm) i j mm (N - j) := by
  intro S m' hw hS
  obtain ⟨fB, fA⟩ := trmmRTile_facts h hw him hS
  have al : ∀ {z : Int}, (m z).isSome = true → (m' z).isSome = true := fun hz => hw.isSome hz
  have atC := at_off h.ss h.wC i j (fun _ => by unfold MPtr.major; rw [h.sC]; exact cast_mod_zero hi)
  unfold trmmRTileRight Reg.trmmRP
  rw [foldN_guard, show min (N - j) (TR * SS) = N - j by omega]
  refine ReadsQ.bind_runs (ReadsQ.noexcept
    (trmmR_tri h al hi hj hT (show j + (N - j) ≤ N by omega) (by omega))) (fun r1 h1 => ?_)
  refine (Reg.runs_storeP h.ss h.wC atC h.sC (fun _ => cast_mod_zero hi) hmm g (fun a b ha hb _ => ?_)
    (fun a b ha hb hb' => ?_)).mono ?_
  · rw [← Int.natCast_add, ← Int.natCast_add]
    exact al (h.rC _ _ (by omega) (by omega))
  · rw [← Int.natCast_add, ← Int.natCast_add, hg _ _ (by omega) (by omega), h1 a b (by omega)]
    unfold trmmREntry
    rw [show N - j - b = N - (j + b) by omega]
    exact fmaSum_congr rfl _ (fun t ht => by rw [fB a _ ha (by omega) (by omega)])
        (fun t ht => by rw [fA _ _ (by omega) (by omega)])
  · intro _ m'' hw2
    refine hw2.congr (fun z => ?_)
    constructor
    · rintro ⟨a, b, ha, hb, _, rfl⟩
      exact ⟨i + a, j + b, by omega, trivial, by push_cast; rfl⟩
    · rintro ⟨a, b, hab, _, rfl⟩
      refine ⟨a - i, b - j, by omega, by omega, by omega, ?_⟩
      rw [← Int.natCast_add, ← Int.natCast_add, show i + (a - i) = a by omega, show j + (b - j) = b by omega]

/-- The right multiplication. A unit diagonal (`diag = true`) is ignored unless a full tile exists (M and N at least
one tile), where it is fatal. -/
theorem trmmRightPtr_runs (h : TrmmRPre SS TR M N B A C m) (diag : Bool)
    (hd : diag = true → M < TR * SS ∨ N < TR * SS)
    (hg : ∀ a b : Nat, a < M → b < N → g (C.addr SS a b) =
      trmmREntry alpha (fun k => val m (B.addr SS a k)) (fun k => val m (A.addr SS k b)) b N) :
    Runs (trmmRightPtr SS TR M N alpha B A .lower diag C) m (fun _ m' => WritesSet m m' (Cells SS C M N) g) := by
  have hT : 0 < TR * SS := Nat.mul_pos h.tr h.ss
  have hself := self_le_roundUp (n := M) hT
  unfold trmmRightPtr
  refine (runs_tiles (SS := SS) (D := C) (R := fun _ _ => True) (g := g) hT (fun _ => 0)
    (fun _ _ _ => ⟨by omega, Nat.zero_mod _⟩) (fun _ _ _ _ _ _ => by omega) ?_ ?_ ?_ ?_).mono ?_
  · intro rm i j hrm _ hi hj him hjn
    have e : rm * (TR * SS) = rm * TR * SS := (Nat.mul_assoc _ _ _).symm
    have hf : diag = false := by
      cases hdd : diag
      · rfl
      · have := hd hdd
        have := Nat.le_mul_of_pos_left (TR * SS) hrm
        omega
    subst hf
    rw [e] at him ⊢
    exact trmmRTileFull_writes h hg (mod_of_mod_mul hi) (mod_of_mod_mul hj) him hjn
  · intro i j _ hi hj hiM hMi hjn
    exact trmmRTileBottom_writes h diag hg (mod_of_mod_mul hi) (mod_of_mod_mul hj) hiM hMi hjn
      (le_roundUp hT (by rw [Nat.add_mod_right]; exact hi) (by omega))
  · intro rm i j _ _ hi hj him hjN hNj
    have e : rm * (TR * SS) = rm * TR * SS := (Nat.mul_assoc _ _ _).symm
    rw [e] at him ⊢
    exact trmmRTileRight_writes h diag hg (mod_of_mod_mul hi) (mod_of_mod_mul hj) him (Nat.le_refl _) hjN hNj (by omega)
  · intro i j _ hi hj hiM hMi hjN hNj
    exact trmmRTileRight_writes h diag hg (mod_of_mod_mul hi) (mod_of_mod_mul hj) (by omega) (by omega) hjN hNj
      (le_roundUp hT (by rw [Nat.add_mod_right]; exact hi) (by omega))
  · intro _ m' hw
    refine hw.congr (fun z => ?_)
    constructor
    · rintro ⟨a, b, ha, hb, _, e⟩; exact ⟨a, b, ha, hb, e⟩
    · rintro ⟨a, b, ha, hb, e⟩; exact ⟨a, b, ha, hb, trivial, e⟩

theorem trmmRightPtr_correct (h : TrmmRPre SS TR M N B A C m) (diag : Bool)
    (hd : diag = true → M < TR * SS ∨ N < TR * SS) :
    ∃ m', trmmRightPtr SS TR M N alpha B A .lower diag C m = .ok () m' ∧
      (∀ i j : Nat, i < M → j < N → m' (C.addr SS i j) = some
        (trmmREntry alpha (fun k => val m (B.addr SS i k)) (fun k => val m (A.addr SS k j)) j N)) ∧
      (∀ z, ¬ Cells SS C M N z → m' z = m z) := by
  obtain ⟨g, hg⟩ := exists_cellFn h.iC (fun i j =>
    trmmREntry alpha (fun k => val m (B.addr SS i k)) (fun k => val m (A.addr SS k j)) j N)
  obtain ⟨_, m', h1, h2⟩ := trmmRightPtr_runs h diag hd hg
  exact ⟨m', h1, fun i j hi hj => by rw [(h2 _).1 ⟨i, j, hi, hj, rfl⟩, hg i j hi hj], fun z hz => (h2 z).2 hz⟩

end

/-! ### Left multiplication -/

/-- `m'` differs from `m` exactly in the cells `S`, whose new values satisfy `P` -/
def Wrote (m m' : Mem V) (S : Int → Prop) (P : Int → V → Prop) : Prop :=
  ∀ x, (S x → ∃ v, m' x = some v ∧ P x v) ∧ (¬ S x → m' x = m x)

theorem Wrote.refl (m : Mem V) (P : Int → V → Prop) : Wrote m m (fun _ => False) P :=
  fun _ => ⟨fun h => h.elim, fun _ => rfl⟩

theorem Wrote.trans {m m' m'' : Mem V} {S S' : Int → Prop} {P : Int → V → Prop} (h : Wrote m m' S P)
    (h' : Wrote m' m'' S' P) : Wrote m m'' (fun x => S x ∨ S' x) P := by
  intro x
  constructor
  · intro hx
    by_cases h2 : S' x
    · exact (h' x).1 h2
    · rw [(h' x).2 h2]
      exact (h x).1 (hx.resolve_right h2)
  · intro hx
    rw [(h' x).2 (fun h2 => hx (Or.inr h2)), (h x).2 (fun h2 => hx (Or.inl h2))]

theorem Wrote.congr {m m' : Mem V} {S S' : Int → Prop} {P : Int → V → Prop} (h : Wrote m m' S P)
    (hS : ∀ x, S x ↔ S' x) : Wrote m m' S' P :=
  fun x => ⟨fun hx => (h x).1 ((hS x).2 hx), fun hx => (h x).2 (fun h2 => hx ((hS x).1 h2))⟩

theorem Wrote.isSome {m m' : Mem V} {S : Int → Prop} {P : Int → V → Prop} (h : Wrote m m' S P) {x : Int}
    (hx : (m x).isSome) : (m' x).isSome := by
  by_cases hs : S x
  · obtain ⟨v, e, _⟩ := (h x).1 hs
    rw [e]; rfl
  · rw [(h x).2 hs]; exact hx

theorem Wrote.val_unchanged {m m' : Mem V} {S : Int → Prop} {P : Int → V → Prop} (h : Wrote m m' S P) {x : Int}
    (hx : ¬ S x) : val m' x = val m x := by
  unfold val; rw [(h x).2 hx]

theorem WritesSet.wrote {m m' : Mem V} {S : Int → Prop} {g : Int → V} {P : Int → V → Prop} (h : WritesSet m m' S g)
    (hP : ∀ x, S x → P x (g x)) : Wrote m m' S P :=
  fun x => ⟨fun hx => ⟨_, (h x).1 hx, hP x hx⟩, (h x).2⟩

/-- Assumptions on the arguments of the left multiplication: A and C column-major (required by the code), A readable in
the rows that pad M to a multiple of the tile size, and, unless M and N are multiples of the tile size, also below
the diagonal; B and C readable, C with distinct elements, not overlapping the part of A that is read; B is C or does
not overlap it. A column-major panel matrix B is allowed only if no full tile is higher than one panel
(see `MPtr.At.vmove1`). -/
structure TrmmLPre (SS TR M N : Nat) (A B C : MPtr) (m : Mem V) : Prop where
  ss : 0 < SS
  tr : 0 < TR
  wA : A.WF SS
  wB : B.WF SS
  wC : C.WF SS
  sA : A.so = .columnMajor
  sC : C.so = .columnMajor
  pan : B.panel = true → B.so = .columnMajor → M < 2 * (TR * SS) ∧ (TR = 1 ∨ M < TR * SS)
  rA : ∀ i k : Nat, i < roundUp M (TR * SS) → k < M → (i ≤ k ∨ ¬ (M % (TR * SS) = 0 ∧ N % (TR * SS) = 0)) →
    (m (A.addr SS i k)).isSome = true
  rB : Readable SS m B M N
  rC : Readable SS m C M N
  iC : Inj SS C M N
  dA : ∀ i k : Nat, i < M → k < M → (i ≤ k ∨ ¬ (M % (TR * SS) = 0 ∧ N % (TR * SS) = 0)) →
    ¬ Cells SS C M N (A.addr SS i k)
  dB : SameOrDisj SS B C M N

/-- value stored by a full tile of `KM` rows starting at row `i`, for row `i + r`; `a`: row of A, `b`: column of B -/
def trmmLFullEntry (SS : Nat) (alpha : V) (a b : Nat → V) (i r KM M : Nat) : V :=
  fmaSum (fun k => Arith.mul alpha (a (i + KM + k))) (fun k => b (i + KM + k))
    (fmaSum (fun t => Arith.mul alpha (if r ≤ r / SS * SS + t then a (i + (r / SS * SS + t)) else Arith.zero))
      (fun t => b (i + (r / SS * SS + t))) Arith.zero (KM - r / SS * SS)) (M - i - KM)

/-- value stored by the other tiles -/
def trmmLPartEntry (alpha : V) (a b : Nat → V) (i M : Nat) : V :=
  fmaSum (fun k => Arith.mul alpha (a (i + k))) (fun k => b (i + k)) Arith.zero (M - i)

section
variable {SS TR M N : Nat} {A B C : MPtr} {m : Mem V} {alpha : V} {Q : Nat → Nat → V → Prop}

/-- cells finished before column `j` of the row block starting at `i` -/
def leftDone (SS M N : Nat) (C : MPtr) (i hh j : Nat) (x : Int) : Prop :=
  ∃ a b : Nat, a < M ∧ b < N ∧ (a < i ∨ a < i + hh ∧ b < j) ∧ x = C.addr SS a b

/-- the stored values satisfy `Q` -/
def leftP (SS M N : Nat) (C : MPtr) (Q : Nat → Nat → V → Prop) (x : Int) (v : V) : Prop :=
  ∀ a b : Nat, a < M → b < N → x = C.addr SS a b → Q a b v

theorem left_facts (h : TrmmLPre SS TR M N A B C m) {i j hh : Nat} {P : Int → V → Prop} {m' : Mem V}
    (hw : Wrote m m' (leftDone SS M N C i hh j) P) :
    (∀ k b : Nat, i ≤ k → k < M → j ≤ b → b < N → val m' (B.addr SS k b) = val m (B.addr SS k b)) ∧
    (∀ a k : Nat, a < M → k < M → (a ≤ k ∨ ¬ (M % (TR * SS) = 0 ∧ N % (TR * SS) = 0)) →
      val m' (A.addr SS a k) = val m (A.addr SS a k)) := by
  refine ⟨fun k b hik hk hjb hb => hw.val_unchanged ?_, fun a k ha hk hl => hw.val_unchanged ?_⟩
  · rintro ⟨a', b', ha', hb', hd, e⟩
    obtain ⟨rfl, rfl⟩ := h.dB _ _ _ _ hk hb ha' hb' e
    omega
  · rintro ⟨a', b', ha', hb', hd, e⟩
    exact h.dA a k ha hk hl ⟨a', b', ha', hb', e⟩

theorem leftFull_writes (h : TrmmLPre SS TR M N A B C m) {i j RM : Nat} (hi : i % SS = 0) (hj : j % SS = 0)
    (him : i + RM * SS ≤ M) (hjn : j + TR * SS ≤ N)
    (hpan : B.panel = true → B.so = .columnMajor → RM ≤ 1)
    (hQ : ∀ r b : Nat, r < RM * SS → j ≤ b → b < j + TR * SS → Q (i + r) b (trmmLFullEntry SS alpha (fun k => val m (A.addr SS (i + r : Nat) k))
      (fun k => val m (B.addr SS k b)) i r (RM * SS) M))
    {m' : Mem V} (hw : Wrote m m' (leftDone SS M N C i (RM * SS) j) (leftP SS M N C Q)) :
    Runs (do
        let r ← Reg.reset.trmmL SS RM (TR * SS) alpha (A.off SS i i) .upper false ((B.off SS i 0).off SS 0 j)
        let r ← gemmAcc SS RM (TR * SS) r (M - i - RM * SS) alpha ((A.off SS i i).off SS 0 (RM * SS : Nat))
          ((B.off SS i 0).off SS (RM * SS : Nat) j)
        r.store SS RM (TR * SS) ((C.off SS i 0).off SS 0 j)) m'
      (fun _ m'' => Wrote m m'' (leftDone SS M N C i (RM * SS) (j + TR * SS)) (leftP SS M N C Q)) := by
  have hSS := h.ss
  obtain ⟨fB, fA⟩ := left_facts h hw
  have hself := self_le_roundUp (n := M) (Nat.mul_pos h.tr h.ss)
  have al : ∀ {z : Int}, (m z).isSome = true → (m' z).isSome = true := fun hz => hw.isSome hz
  have hiz : (i : Int) % (SS : Int) = 0 := cast_mod_zero hi
  have hjz : (j : Int) % (SS : Int) = 0 := cast_mod_zero hj
  have hKz : ((RM * SS : Nat) : Int) % (SS : Int) = 0 := by rw [Int.natCast_mul]; exact Int.mul_emod_left _ _
  have atA := at_off hSS h.wA i i (fun _ => by unfold MPtr.major; rw [h.sA]; exact hiz)
  have atA2 := atA.off hSS h.wA 0 ((RM * SS : Nat) : Int) (fun _ => by unfold MPtr.major; rw [h.sA]; simp)
  have atB0 := at_off hSS h.wB i 0 (fun _ => by
    unfold MPtr.major; cases B.so
    · simp
    · exact hiz)
  have atB1 := atB0.off hSS h.wB 0 (j : Int) (fun _ => by
    unfold MPtr.major; cases B.so
    · exact hjz
    · simp)
  have atB2 := atB0.off hSS h.wB ((RM * SS : Nat) : Int) (j : Int) (fun _ => by
    unfold MPtr.major; cases B.so
    · exact hjz
    · exact hKz)
  have atC0 := at_off hSS h.wC i 0 (fun _ => by unfold MPtr.major; rw [h.sC]; exact hiz)
  have atC := atC0.off hSS h.wC 0 (j : Int) (fun _ => by unfold MPtr.major; rw [h.sC]; simp)
  simp only [Int.add_zero, Int.natCast_zero, Int.zero_add] at atA2 atB1 atB2 atC
  refine ReadsQ.bind_runs (Reg.reads_trmmL hSS h.wA h.wB atA h.sA (fun _ => hiz) atB1
    (fun hp hs => ⟨hiz, hpan hp hs⟩) (fun r k hrk hk => ?_) (fun k c hk hc => ?_)) (fun r1 h1 => ?_)
  · rw [← Int.natCast_add, ← Int.natCast_add]
    exact al (h.rA _ _ (by omega) (by omega) (Or.inl (by omega)))
  · rw [← Int.natCast_add, ← Int.natCast_add]
    exact al (h.rB _ _ (by omega) (by omega))
  refine ReadsQ.bind_runs (reads_gemmAcc hSS h.wA h.wB atA2 h.sA (fun _ => hiz) atB2
    (fun r k hr hk => ?_) (fun k c hk hc => ?_)) (fun r2 h2 => ?_)
  · rw [← Int.natCast_add, ← Int.natCast_add, ← Int.natCast_add]
    exact al (h.rA _ _ (by omega) (by omega) (Or.inl (by omega)))
  · rw [← Int.natCast_add, ← Int.natCast_add, ← Int.natCast_add]
    exact al (h.rB _ _ (by omega) (by omega))
  obtain ⟨g, hg⟩ := exists_cellFn h.iC (fun a b => r2.el SS (a - i) (b - j))
  refine (Reg.runs_store hSS h.wC atC h.sC (fun _ => hiz) g (fun a b ha hb => ?_)
    (fun a b ha hb => ?_)).mono ?_
  · rw [← Int.natCast_add, ← Int.natCast_add]
    exact al (h.rC _ _ (by omega) (by omega))
  · rw [← Int.natCast_add, ← Int.natCast_add, hg _ _ (by omega) (by omega)]
    rw [show i + a - i = a by omega, show j + b - j = b by omega]
  · intro _ m'' hw2
    refine (hw.trans (hw2.wrote ?_)).congr (fun z => ?_)
    · rintro x ⟨r, c, hr, hc, rfl⟩ a b ha hb e
      rw [← Int.natCast_add, ← Int.natCast_add] at e ⊢
      obtain ⟨e1, e2⟩ := h.iC _ _ _ _ (by omega) (by omega) ha hb e
      subst e1; subst e2
      rw [hg _ _ (by omega) (by omega)]
      rw [show i + r - i = r by omega, show j + c - j = c by omega, h2 r c hr hc, h1 r c hr hc]
      have hq := hQ r (j + c) hr (by omega) (by omega)
      unfold trmmLFullEntry at hq
      have hrd : r / SS * SS ≤ r := Nat.div_mul_le_self r SS
      have e3 : ∀ t : Nat, ((i : Int) + ((r / SS * SS + t : Nat) : Int)) = ((i + (r / SS * SS + t) : Nat) : Int) := by
        intro t; push_cast; rfl
      have e4 : ∀ k : Nat, ((i : Int) + ((RM * SS : Nat) : Int) + (k : Int)) = ((i + RM * SS + k : Nat) : Int) := by
        intro t; push_cast; rfl
      simp only [e3, e4, ← Int.natCast_add]
      have e5 : fmaSum (fun k => Arith.mul alpha (val m' (A.addr SS (i + r : Nat) (i + RM * SS + k : Nat))))
          (fun k => val m' (B.addr SS (i + RM * SS + k : Nat) (j + c : Nat)))
          (fmaSum (fun t => Arith.mul alpha (if r ≤ r / SS * SS + t then
            val m' (A.addr SS (i + r : Nat) (i + (r / SS * SS + t) : Nat)) else Arith.zero))
            (fun t => val m' (B.addr SS (i + (r / SS * SS + t) : Nat) (j + c : Nat))) Arith.zero
            (RM * SS - r / SS * SS)) (M - i - RM * SS) =
        fmaSum (fun k => Arith.mul alpha (val m (A.addr SS (i + r : Nat) (i + RM * SS + k : Nat))))
          (fun k => val m (B.addr SS (i + RM * SS + k : Nat) (j + c : Nat)))
          (fmaSum (fun t => Arith.mul alpha (if r ≤ r / SS * SS + t then
            val m (A.addr SS (i + r : Nat) (i + (r / SS * SS + t) : Nat)) else Arith.zero))
            (fun t => val m (B.addr SS (i + (r / SS * SS + t) : Nat) (j + c : Nat))) Arith.zero
            (RM * SS - r / SS * SS)) (M - i - RM * SS) := by
        refine fmaSum_congr (fmaSum_congr rfl _ (fun t ht => ?_) (fun t ht => ?_)) _ (fun k hk => ?_) (fun k hk => ?_)
        · by_cases hle : r ≤ r / SS * SS + t
          · rw [if_pos hle, if_pos hle, fA _ _ (by omega) (by omega) (Or.inl (by omega))]
          · rw [if_neg hle, if_neg hle]
        · rw [fB _ _ (by omega) (by omega) (by omega) (by omega)]
        · rw [fA _ _ (by omega) (by omega) (Or.inl (by omega))]
        · rw [fB _ _ (by omega) (by omega) (by omega) (by omega)]
      rw [← e5] at hq
      exact hq
    · constructor
      · rintro (⟨a, b, ha, hb, hd, e⟩ | ⟨r, c, hr, hc, e⟩)
        · exact ⟨a, b, ha, hb, by omega, e⟩
        · exact ⟨i + r, j + c, by omega, by omega, by omega, by rw [e]; push_cast; rfl⟩
      · rintro ⟨a, b, ha, hb, hd, e⟩
        by_cases hold : a < i ∨ a < i + RM * SS ∧ b < j
        · exact Or.inl ⟨a, b, ha, hb, hold, e⟩
        · refine Or.inr ⟨a - i, b - j, by omega, by omega, ?_⟩
          rw [← Int.natCast_add, ← Int.natCast_add, show i + (a - i) = a by omega, show j + (b - j) = b by omega]
          exact e

theorem leftPart_writes (h : TrmmLPre SS TR M N A B C m) (hl : ¬ (M % (TR * SS) = 0 ∧ N % (TR * SS) = 0))
    {i j RM mm nn : Nat} (hi : i % SS = 0) (hj : j % SS = 0)
    (him : i + mm ≤ M) (hmm : mm ≤ RM * SS) (hjn : j + nn ≤ N) (hnn : nn ≤ TR * SS)
    (hT : i + RM * SS ≤ roundUp M (TR * SS))
    (hQ : ∀ a b : Nat, i ≤ a → a < i + mm → j ≤ b → b < j + nn → Q a b (trmmLPartEntry alpha (fun k => val m (A.addr SS a k))
      (fun k => val m (B.addr SS k b)) i M))
    {m' : Mem V} (hw : Wrote m m' (leftDone SS M N C i mm j) (leftP SS M N C Q)) :
    Runs (do
        let r ← gemmAccP SS RM (TR * SS) Reg.reset (M - i) alpha (A.off SS i i) ((B.off SS i 0).off SS 0 j) mm nn
        r.storeP SS RM (TR * SS) ((C.off SS i 0).off SS 0 j) mm nn) m'
      (fun _ m'' => Wrote m m'' (leftDone SS M N C i mm (j + nn)) (leftP SS M N C Q)) := by
  have hSS := h.ss
  obtain ⟨fB, fA⟩ := left_facts h hw
  have al : ∀ {z : Int}, (m z).isSome = true → (m' z).isSome = true := fun hz => hw.isSome hz
  have hiz : (i : Int) % (SS : Int) = 0 := cast_mod_zero hi
  have hjz : (j : Int) % (SS : Int) = 0 := cast_mod_zero hj
  have atA := at_off hSS h.wA i i (fun _ => by unfold MPtr.major; rw [h.sA]; exact hiz)
  have atB0 := at_off hSS h.wB i 0 (fun _ => by
    unfold MPtr.major; cases B.so
    · simp
    · exact hiz)
  have atB1 := atB0.off hSS h.wB 0 (j : Int) (fun _ => by
    unfold MPtr.major; cases B.so
    · exact hjz
    · simp)
  have atC0 := at_off hSS h.wC i 0 (fun _ => by unfold MPtr.major; rw [h.sC]; exact hiz)
  have atC := atC0.off hSS h.wC 0 (j : Int) (fun _ => by unfold MPtr.major; rw [h.sC]; simp)
  simp only [Int.add_zero, Int.natCast_zero, Int.zero_add] at atB1 atC
  refine ReadsQ.bind_runs (reads_gemmAccP (mm := mm) (nn := nn) hSS h.wA h.wB atA h.sA (fun _ => hiz) atB1
    (fun r k hr hk => ?_) (fun k c hk hc hcn => ?_)) (fun r2 h2 => ?_)
  · rw [← Int.natCast_add, ← Int.natCast_add]
    exact al (h.rA _ _ (by omega) (by omega) (Or.inr hl))
  · rw [← Int.natCast_add, ← Int.natCast_add]
    exact al (h.rB _ _ (by omega) (by omega))
  obtain ⟨g, hg⟩ := exists_cellFn h.iC (fun a b => r2.el SS (a - i) (b - j))
  refine (Reg.runs_storeP hSS h.wC atC h.sC (fun _ => hiz) hmm g (fun a b ha hb hbn => ?_)
    (fun a b ha hb hbn => ?_)).mono ?_
  · rw [← Int.natCast_add, ← Int.natCast_add]
    exact al (h.rC _ _ (by omega) (by omega))
  · rw [← Int.natCast_add, ← Int.natCast_add, hg _ _ (by omega) (by omega)]
    rw [show i + a - i = a by omega, show j + b - j = b by omega]
  · intro _ m'' hw2
    refine (hw.trans (hw2.wrote ?_)).congr (fun z => ?_)
    · rintro x ⟨r, c, hr, hc, hcn, rfl⟩ a b ha hb e
      rw [← Int.natCast_add, ← Int.natCast_add] at e ⊢
      obtain ⟨e1, e2⟩ := h.iC _ _ _ _ (by omega) (by omega) ha hb e
      subst e1; subst e2
      rw [hg _ _ (by omega) (by omega)]
      rw [show i + r - i = r by omega, show j + c - j = c by omega, h2 r c (by omega) hc hcn]
      have hq := hQ (i + r) (j + c) (by omega) (by omega) (by omega) (by omega)
      unfold trmmLPartEntry at hq
      simp only [← Int.natCast_add]
      have e5 : fmaSum (fun k => Arith.mul alpha (val m' (A.addr SS (i + r : Nat) (i + k : Nat))))
          (fun k => val m' (B.addr SS (i + k : Nat) (j + c : Nat))) Arith.zero (M - i) =
        fmaSum (fun k => Arith.mul alpha (val m (A.addr SS (i + r : Nat) (i + k : Nat))))
          (fun k => val m (B.addr SS (i + k : Nat) (j + c : Nat))) Arith.zero (M - i) := by
        refine fmaSum_congr rfl _ (fun k hk => ?_) (fun k hk => ?_)
        · rw [fA _ _ (by omega) (by omega) (Or.inr hl)]
        · rw [fB _ _ (by omega) (by omega) (by omega) (by omega)]
      rw [← e5] at hq
      exact hq
    · constructor
      · rintro (⟨a, b, ha, hb, hd, e⟩ | ⟨r, c, hr, hc, hcn, e⟩)
        · exact ⟨a, b, ha, hb, by omega, e⟩
        · exact ⟨i + r, j + c, by omega, by omega, by omega, by rw [e]; push_cast; rfl⟩
      · rintro ⟨a, b, ha, hb, hd, e⟩
        by_cases hold : a < i ∨ a < i + mm ∧ b < j
        · exact Or.inl ⟨a, b, ha, hb, hold, e⟩
        · refine Or.inr ⟨a - i, b - j, by omega, by omega, by omega, ?_⟩
          rw [← Int.natCast_add, ← Int.natCast_add, show i + (a - i) = a by omega, show j + (b - j) = b by omega]
          exact e

/-- condition of loop `p` (3, 2, 1: tiles of `p * T` rows) at row `i`: algorithm/Trmm.hpp:101-117 -/
def leftCond (T M p i : Nat) : Prop := if p = 3 then i + 2 * T < M ∧ i + 4 * T ≠ M else i + (p - 1) * T < M

/-- this condition can be decided -/
instance (T M p i : Nat) : Decidable (leftCond T M p i) := by unfold leftCond; infer_instance

/-- next loop and row -/
def leftNext (T M : Nat) (s : Nat × Nat) : Nat × Nat := if leftCond T M s.1 s.2 then (s.1, s.2 + s.1 * T) else (s.1 - 1, s.2)

/-- loop and row after `n` steps -/
def leftSched (T M : Nat) : Nat → Nat × Nat
  | 0 => (3, 0)
  | n + 1 => leftNext T M (leftSched T M n)

/-- a tile of `p * T` rows at row `i` is processed -/
def LeftTile (T M p i : Nat) : Prop := (∃ n, leftSched T M n = (p, i)) ∧ leftCond T M p i

theorem leftSched_mono {T M n n' : Nat} (h : n ≤ n') : (leftSched T M n).2 ≤ (leftSched T M n').2 := by
  induction n' with
  | zero => rw [show n = 0 by omega]; exact Nat.le_refl _
  | succ n' ih =>
    rcases Nat.lt_or_eq_of_le h with h1 | rfl
    · refine Nat.le_trans (ih (by omega)) ?_
      show _ ≤ (leftNext T M _).2
      unfold leftNext
      split
      · exact Nat.le_add_right _ _
      · exact Nat.le_refl _
    · exact Nat.le_refl _

/-- the tiles do not overlap -/
theorem LeftTile.unique {T M p i p' i' a : Nat} (h : LeftTile T M p i) (h' : LeftTile T M p' i') (h1 : i ≤ a) (h2 : a < i + p * T)
    (h1' : i' ≤ a) (h2' : a < i' + p' * T) : p = p' ∧ i = i' := by
  obtain ⟨⟨n, e⟩, c⟩ := h
  obtain ⟨⟨n', e'⟩, c'⟩ := h'
  rcases Nat.lt_trichotomy n n' with hlt | rfl | hlt
  · have := leftSched_mono (T := T) (M := M) (show n + 1 ≤ n' by omega)
    rw [e'] at this
    have e2 : leftSched T M (n + 1) = (p, i + p * T) := by
      show leftNext T M _ = _
      rw [e]; exact if_pos c
    rw [e2] at this
    have : i + p * T ≤ i' := this
    omega
  · rw [e] at e'
    simpa using e'
  · have := leftSched_mono (T := T) (M := M) (show n' + 1 ≤ n by omega)
    rw [e] at this
    have e2 : leftSched T M (n' + 1) = (p', i' + p' * T) := by
      show leftNext T M _ = _
      rw [e']; exact if_pos c'
    rw [e2] at this
    have : i' + p' * T ≤ i := this
    omega

/-- Values the left multiplication may produce at `(a, b)`: the result of a full tile containing row `a` (only in
complete column strips if the sizes are multiples of the tile size), or of another tile. -/
structure LeftSpec (SS TR M N : Nat) (alpha : V) (A B : MPtr) (m : Mem V) (Q : Nat → Nat → V → Prop) : Prop where
  full : ∀ i RM r b : Nat, i % SS = 0 → r < RM * SS → i + RM * SS ≤ M → b < N →
    (∃ p, LeftTile (TR * SS) M p i ∧ RM = p * TR) → b < N / (TR * SS) * (TR * SS) →
    Q (i + r) b (trmmLFullEntry SS alpha (fun k => val m (A.addr SS (i + r : Nat) k)) (fun k => val m (B.addr SS k b))
      i r (RM * SS) M)
  part : ¬ (M % (TR * SS) = 0 ∧ N % (TR * SS) = 0) → ∀ i a b : Nat, i ≤ a → a < M → b < N →
    (∃ p, LeftTile (TR * SS) M p i ∧ a < i + p * (TR * SS) ∧ (M < i + p * (TR * SS) ∨ N / (TR * SS) * (TR * SS) ≤ b)) →
    Q a b (trmmLPartEntry alpha (fun k => val m (A.addr SS a k)) (fun k => val m (B.addr SS k b)) i M)

theorem strip_lt {T N j b : Nat} (hT : 0 < T) (hj : j % T = 0) (hb : b < j + T) (hjN : j + T ≤ N) : b < N / T * T := by
  obtain ⟨q, rfl⟩ := Nat.dvd_of_mod_eq_zero hj
  have : q + 1 ≤ N / T := (Nat.le_div_iff_mul_le hT).2 (by rw [Nat.add_mul, Nat.mul_comm q T]; omega)
  have h2 := Nat.mul_le_mul_right T this
  rw [Nat.add_mul, Nat.mul_comm q T] at h2
  omega

theorem strip_ge {T N j b : Nat} (hT : 0 < T) (hj : j % T = 0) (hb : j ≤ b) (hjN : N < j + T) : N / T * T ≤ b := by
  obtain ⟨q, rfl⟩ := Nat.dvd_of_mod_eq_zero hj
  have : N / T ≤ q := by
    have : N / T < q + 1 := (Nat.div_lt_iff_lt_mul hT).2 (by rw [Nat.add_mul, Nat.mul_comm q T]; omega)
    omega
  have h2 := Nat.mul_le_mul_right T this
  rw [Nat.mul_comm q T] at h2
  omega

theorem leftBackend_writes (h : TrmmLPre SS TR M N A B C m) (hs : LeftSpec SS TR M N alpha A B m Q) {i rm : Nat}
    (hi : i % (TR * SS) = 0) (hrm : 1 ≤ rm) (hlt : i + (rm - 1) * (TR * SS) < M) (htile : LeftTile (TR * SS) M rm i)
    {m' : Mem V} (hw : Wrote m m' (leftDone SS M N C i 0 0) (leftP SS M N C Q)) :
    Runs (trmmLeftBackend SS (rm * TR) (TR * SS) (M - i) N alpha (A.off SS i i) (B.off SS i 0) (C.off SS i 0)) m'
      (fun _ m'' => Wrote m m'' (leftDone SS M N C (i + rm * (TR * SS)) 0 0) (leftP SS M N C Q)) := by
  have hT0 : 0 < TR * SS := Nat.mul_pos h.tr h.ss
  have er : rm * TR * SS = rm * (TR * SS) := Nat.mul_assoc _ _ _
  have es : rm * (TR * SS) = (rm - 1) * (TR * SS) + TR * SS := by
    rw [← Nat.succ_mul]; congr 1; omega
  have hiSS := mod_of_mod_mul hi
  have hT : i + rm * TR * SS ≤ roundUp M (TR * SS) := by
    rw [er]
    refine le_roundUp hT0 (by rw [Nat.add_mul_mod_self_right]; exact hi) (by omega)
  unfold trmmLeftBackend
  by_cases hf : rm * TR * SS ≤ M - i
  · rw [if_pos hf]
    refine (runs_colTiles hT0 (I := fun j m1 => Wrote m m1 (leftDone SS M N C i (rm * TR * SS) j) (leftP SS M N C Q))
      ?_ ?_ ?_).mono ?_
    · exact hw.congr (fun x => ⟨fun ⟨a, b, ha, hb, hd, e⟩ => ⟨a, b, ha, hb, by omega, e⟩,
        fun ⟨a, b, ha, hb, hd, e⟩ => ⟨a, b, ha, hb, by omega, e⟩⟩)
    · intro j m1 hj hjn hw1
      refine leftFull_writes h hiSS (mod_of_mod_mul hj) (by omega) hjn ?_ (fun r b hr hb1 hb2 =>
        hs.full i (rm * TR) r b hiSS hr (by omega) (by omega) ⟨rm, htile, rfl⟩ (strip_lt hT0 hj hb2 hjn)) hw1
      intro hp hso
      obtain ⟨h1, h2⟩ := h.pan hp hso
      rw [er] at hf
      have hrm1 : rm = 1 := by
        rcases Nat.lt_or_ge rm 2 with hlt2 | hge
        · omega
        · have := Nat.mul_le_mul_right (TR * SS) hge
          omega
      subst hrm1
      rw [Nat.one_mul] at hf ⊢
      omega
    · intro j m1 hj hjN hNj hw1
      have := leftPart_writes (nn := N - j) (RM := rm * TR) h (fun hd => ?_) hiSS (mod_of_mod_mul hj)
        (show i + rm * TR * SS ≤ M by omega)
        (Nat.le_refl _) (by omega) (by omega) hT (fun a b h1 h2 h3 h4 => hs.part (fun hd => ?_) i a b h1 (by omega) (by omega)
          ⟨rm, htile, by omega, Or.inr (strip_ge hT0 hj h3 (by omega))⟩) hw1
      · rw [show j + (N - j) = N by omega] at this
        exact this
      · have h1 := hd.2
        have h2 : N = j + (N - j) := by omega
        rw [h2, Nat.add_mod, hj, Nat.zero_add, Nat.mod_mod, Nat.mod_eq_of_lt (by omega)] at h1
        omega
      · have h1 := hd.2
        have h2 : N = j + (N - j) := by omega
        rw [h2, Nat.add_mod, hj, Nat.zero_add, Nat.mod_mod, Nat.mod_eq_of_lt (by omega)] at h1
        omega
    · intro _ m2 hw2
      refine hw2.congr (fun x => ⟨fun ⟨a, b, ha, hb, hd, e⟩ => ⟨a, b, ha, hb, by omega, e⟩,
        fun ⟨a, b, ha, hb, hd, e⟩ => ⟨a, b, ha, hb, by omega, e⟩⟩)
  · rw [if_neg hf]
    have hl : ¬ (M % (TR * SS) = 0 ∧ N % (TR * SS) = 0) := by
      rintro ⟨h1, _⟩
      have h2 : (i + (rm - 1) * (TR * SS)) % (TR * SS) = 0 := by rw [Nat.add_mul_mod_self_right]; exact hi
      have h3 : M = i + (rm - 1) * (TR * SS) + (M - (i + (rm - 1) * (TR * SS))) := by omega
      rw [h3, Nat.add_mod, h2, Nat.zero_add, Nat.mod_mod, Nat.mod_eq_of_lt (by omega)] at h1
      omega
    refine (runs_colTiles hT0 (I := fun j m1 => Wrote m m1 (leftDone SS M N C i (M - i) j) (leftP SS M N C Q))
      ?_ ?_ ?_).mono ?_
    · exact hw.congr (fun x => ⟨fun ⟨a, b, ha, hb, hd, e⟩ => ⟨a, b, ha, hb, by omega, e⟩,
        fun ⟨a, b, ha, hb, hd, e⟩ => ⟨a, b, ha, hb, by omega, e⟩⟩)
    · intro j m1 hj hjn hw1
      exact leftPart_writes (nn := TR * SS) (RM := rm * TR) h hl hiSS (mod_of_mod_mul hj)
        (show i + (M - i) ≤ M by omega) (by omega) (by omega) (by omega) hT
        (fun a b h1 h2 h3 h4 => hs.part hl i a b h1 (by omega) (by omega) ⟨rm, htile, by omega, Or.inl (by omega)⟩) hw1
    · intro j m1 hj hjN hNj hw1
      have := leftPart_writes (nn := N - j) (RM := rm * TR) h hl hiSS (mod_of_mod_mul hj)
        (show i + (M - i) ≤ M by omega)
        (by omega) (by omega) (by omega) hT (fun a b h1 h2 h3 h4 => hs.part hl i a b h1 (by omega) (by omega) ⟨rm, htile, by omega, Or.inl (by omega)⟩) hw1
      rw [show j + (N - j) = N by omega] at this
      exact this
    · intro _ m2 hw2
      refine hw2.congr (fun x => ⟨fun ⟨a, b, ha, hb, hd, e⟩ => ⟨a, b, ha, hb, by omega, e⟩,
        fun ⟨a, b, ha, hb, hd, e⟩ => ⟨a, b, ha, hb, by omega, e⟩⟩)

/-- Left multiplication: exactly the elements of C are written, with values allowed by `Q`. -/
theorem trmmLeftPtr_runs (h : TrmmLPre SS TR M N A B C m) (hs : LeftSpec SS TR M N alpha A B m Q) :
    ∃ m', trmmLeftPtr SS TR M N alpha A .upper false B C m = .ok () m' ∧
      (∀ i j : Nat, i < M → j < N → ∃ v, m' (C.addr SS i j) = some v ∧ Q i j v) ∧
      (∀ z, ¬ Cells SS C M N z → m' z = m z) := by
  have hT0 : 0 < TR * SS := Nat.mul_pos h.tr h.ss
  let I : Nat → Nat → Mem V → Prop := fun rm i m1 => i % (TR * SS) = 0 ∧ (∃ n, leftSched (TR * SS) M n = (rm, i)) ∧
    Wrote m m1 (leftDone SS M N C i 0 0) (leftP SS M N C Q)
  have step : ∀ (rm : Nat) (c : Nat → Bool), 1 ≤ rm → (∀ i, c i = true → i + (rm - 1) * (TR * SS) < M) →
      (∀ i, c i = true ↔ leftCond (TR * SS) M rm i) →
      ∀ i m1, I rm i m1 → Runs (loop (M + 1) c (rm * (TR * SS)) (fun i => trmmLeftBackend SS (rm * TR) (TR * SS) (M - i) N
        alpha (A.off SS i i) (B.off SS i 0) (C.off SS i 0)) i) m1 (fun i' m' => c i' = false ∧ I (rm - 1) i' m') := by
    intro rm c hrm hc hcc i m1 hI
    refine (runs_loop (I := I rm) M (Nat.mul_pos (by omega) hT0) (fun i hi => by have := hc i hi; omega) (by omega) (by omega)
      hI ?_).mono ?_
    · rintro i m1 hci ⟨h1, ⟨n, h2⟩, h3⟩
      have ht := (hcc i).1 hci
      refine (leftBackend_writes h hs h1 hrm (hc i hci) ⟨⟨n, h2⟩, ht⟩ h3).mono (fun _ m2 h4 => ⟨?_, ⟨n + 1, ?_⟩, h4⟩)
      · rw [Nat.add_mul_mod_self_right]; exact h1
      · show leftNext _ _ _ = _
        rw [h2]; exact if_pos ht
    · rintro i' m' ⟨h0, h1, ⟨n, h2⟩, h3⟩
      refine ⟨h0, h1, ⟨n + 1, ?_⟩, h3⟩
      show leftNext _ _ _ = _
      rw [h2]
      exact if_neg (fun hc => by rw [(hcc i').2 hc] at h0; cases h0)
  have main : Runs (trmmLeftPtr SS TR M N alpha A .upper false B C) m (fun _ m' =>
      Wrote m m' (Cells SS C M N) (leftP SS M N C Q)) := by
    unfold trmmLeftPtr
    rw [if_neg (by simp)]
    refine Runs.bind (step 3 _ (by omega) (fun i hi => by simp at hi; omega) (fun i => by simp [leftCond]) 0 m ⟨Nat.zero_mod _, ⟨0, rfl⟩, ?_⟩) ?_
    · exact (Wrote.refl m _).congr (fun x => ⟨fun hh => hh.elim, fun ⟨a, b, _, _, hd, _⟩ => by omega⟩)
    rintro i1 m1 ⟨_, h1⟩
    refine Runs.bind (step 2 _ (by omega) (fun i hi => by simp at hi; omega) (fun i => by simp [leftCond]) i1 m1 h1) ?_
    rintro i2 m2 ⟨_, h2⟩
    refine Runs.bind (step 1 _ (by omega) (fun i hi => by simpa using hi) (fun i => by simp [leftCond]) i2 m2 h2) ?_
    rintro i3 m3 ⟨hc, _, _, h3⟩
    have hc : M ≤ i3 := by simpa using hc
    refine runs_pure (h3.congr (fun x => ⟨fun ⟨a, b, ha, hb, _, e⟩ => ⟨a, b, ha, hb, e⟩,
      fun ⟨a, b, ha, hb, e⟩ => ⟨a, b, ha, hb, by omega, e⟩⟩))
  obtain ⟨_, m', h1, h2⟩ := main
  refine ⟨m', h1, fun i j hi hj => ?_, fun z hz => (h2 z).2 hz⟩
  obtain ⟨v, e, hv⟩ := (h2 (C.addr SS i j)).1 ⟨i, j, hi, hj, rfl⟩
  exact ⟨v, e, hv i j hi hj rfl⟩

end
end Blast
