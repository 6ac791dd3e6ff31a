import Verif.RegMat
/-
Element-level behaviour of the register matrix operations used by gemm, ger, syrk.
-/
set_option linter.unusedSectionVars false
namespace Blast
open Prog
variable {V : Type} [Arith V]

/-- `((c + a₀·b₀) + a₁·b₁) + …`, each step a fused multiply-add, `K` terms in order. -/
def fmaSum (a b : Nat → V) (c : V) : Nat → V
  | 0 => c
  | k + 1 => Arith.fma (a k) (b k) (fmaSum a b c k)

theorem fmaSum_congr {a a' b b' : Nat → V} {c c' : V} (hc : c = c') (K : Nat)
    (ha : ∀ k, k < K → a k = a' k) (hb : ∀ k, k < K → b k = b' k) :
    fmaSum a b c K = fmaSum a' b' c' K := by
  induction K with
  | zero => exact hc
  | succ K ih =>
    simp only [fmaSum]
    rw [ih (fun k hk => ha k (by omega)) (fun k hk => hb k (by omega)), ha K (by omega), hb K (by omega)]

theorem mul_add_div' {SS i l : Nat} (hl : l < SS) : (i * SS + l) / SS = i := by
  rw [Nat.add_comm, Nat.add_mul_div_right _ _ (by omega), Nat.div_eq_of_lt hl]; omega

theorem mul_add_mod' {SS i l : Nat} (hl : l < SS) : (i * SS + l) % SS = l := by
  rw [Nat.add_comm, Nat.add_mul_mod_self_right, Nat.mod_eq_of_lt hl]

theorem idx_lt {SS RM i l : Nat} (hi : i < RM) (hl : l < SS) : i * SS + l < RM * SS := by
  have := Nat.mul_le_mul_right SS (show i + 1 ≤ RM by omega)
  rw [Nat.add_mul] at this; omega

theorem idx_split {SS RM a : Nat} (hSS : 0 < SS) (ha : a < RM * SS) :
    a / SS < RM ∧ a % SS < SS ∧ a / SS * SS + a % SS = a := by
  refine ⟨(Nat.div_lt_iff_lt_mul hSS).2 ha, Nat.mod_lt _ hSS, ?_⟩
  have := Nat.div_add_mod a SS
  rw [Nat.mul_comm] at this; exact this

theorem mul_emod_cast (SS i : Nat) : ((SS : Int) * (i : Int)) % (SS : Int) = 0 := Int.mul_emod_right _ _

namespace Reg

theorem el_mk {SS : Nat} (r : Reg V) {i j l : Nat} (hl : l < SS) :
    r.el SS (i * SS + l) j = r i j l := by
  unfold el; rw [mul_add_div' hl, mul_add_mod' hl]

theorem el_of {SS RM : Nat} (hSS : 0 < SS) {r : Reg V} {j : Nat} {F : Nat → V}
    (h : ∀ i, i < RM → ∀ l, l < SS → r i j l = F (i * SS + l)) :
    ∀ a, a < RM * SS → r.el SS a j = F a := by
  intro a ha
  obtain ⟨h1, h2, h3⟩ := idx_split hSS ha
  have := h _ h1 _ h2
  rw [h3] at this
  exact this

/-- Address of the SIMD vector `(SS*i, j)` of a tile at `(I,J)`. -/
theorem at_tile {SS : Nat} (hSS : 0 < SS) {q p : MPtr} {I J : Int} (hw : p.WF SS)
    (h : MPtr.At SS q p I J) (hs : p.so = .columnMajor) (i j : Nat) :
    MPtr.At SS (q.off SS ((SS : Int) * (i : Int)) (j : Int)) p (I + ((i * SS : Nat) : Int)) (J + j) := by
  have := h.off hSS hw ((SS : Int) * (i : Int)) (j : Int)
    (fun _ => by unfold MPtr.major; rw [hs]; exact mul_emod_cast SS i)
  have e : ((i * SS : Nat) : Int) = (SS : Int) * (i : Int) := by
    rw [Int.natCast_mul, Int.mul_comm]
  rw [e]; exact this

theorem tile_mod {SS : Nat} {I : Int} (h : I % (SS : Int) = 0) (i : Nat) :
    (I + ((i * SS : Nat) : Int)) % (SS : Int) = 0 := by
  rw [Int.natCast_mul, Int.add_mul_emod_self_right]; exact h

/-- `v_[i][j] = f(p(SS*i, j).load(), v_[i][j])`-type loads. -/
theorem readsQ_loadCell {SS : Nat} (hSS : 0 < SS) {q p : MPtr} {I J : Int} {m : Mem V} (hw : p.WF SS)
    (h : MPtr.At SS q p I J) (hs : p.so = .columnMajor) (i j : Nat)
    (hr : ∀ l, l < SS → (m (p.addr SS (I + (i * SS + l : Nat)) (J + j))).isSome = true) :
    ReadsQ ((q.off SS ((SS : Int) * (i : Int)) (j : Int)).load SS) m
      (fun v => ∀ l, l < SS → v l = val m (p.addr SS (I + (i * SS + l : Nat)) (J + j))) := by
  have h2 := at_tile hSS hw h hs i j
  obtain ⟨v, hv, hv2⟩ := h2.reads_load (m := m) hSS hw hs (fun l hl => by
    have := hr l hl
    rw [Int.add_assoc, ← Int.natCast_add]; exact this)
  refine ⟨v, hv, fun l hl => ?_⟩
  rw [hv2 l hl, Int.add_assoc, ← Int.natCast_add]

theorem reads_axpy {SS RM N : Nat} (hSS : 0 < SS) {q p : MPtr} {I J : Int} {m : Mem V} {r : Reg V}
    {beta : V} (hw : p.WF SS) (h : MPtr.At SS q p I J) (hs : p.so = .columnMajor)
    (hr : ∀ a b : Nat, a < RM * SS → b < N → (m (p.addr SS (I + a) (J + b))).isSome = true) :
    ReadsQ (r.axpy SS RM N beta q) m (fun r' => ∀ a b : Nat, a < RM * SS → b < N →
      r'.el SS a b = Arith.fma beta (val m (p.addr SS (I + a) (J + b))) (r.el SS a b)) := by
  refine (readsQ_forCols (Q := fun j c => ∀ i, i < RM → ∀ l, l < SS → c i l =
      Arith.fma beta (val m (p.addr SS (I + (i * SS + l : Nat)) (J + j))) (r i j l)) ?_).mono ?_
  · intro j hj _ r0 hr0
    refine (readsQ_forRows (Q := fun i v => ∀ l, l < SS → v l =
      Arith.fma beta (val m (p.addr SS (I + (i * SS + l : Nat)) (J + j))) (r i j l)) ?_).mono ?_
    · intro i hi _
      refine ReadsQ.bind (readsQ_loadCell hSS hw h hs i j (fun l hl => hr _ _ (idx_lt hi hl) hj)) ?_
      intro v hv
      refine readsQ_pure (fun l hl => ?_)
      rw [hv l hl, hr0 i]
    · rintro r' ⟨h1, h2⟩
      exact ⟨fun i hi => h1 i hi rfl, fun i j' hj' => h2 i j' (fun hh => hj' hh.1)⟩
  · rintro r' ⟨h1, _⟩ a b ha hb
    refine el_of hSS (F := fun a => Arith.fma beta (val m (p.addr SS (I + a) (J + b))) (r.el SS a b))
      (fun i hi l hl => ?_) a ha
    rw [el_mk r hl]
    exact h1 b hb rfl i hi l hl

theorem reads_axpyP {SS RM N mm nn : Nat} (hSS : 0 < SS) {q p : MPtr} {I J : Int} {m : Mem V}
    {r : Reg V} {beta : V} (hw : p.WF SS) (h : MPtr.At SS q p I J) (hs : p.so = .columnMajor)
    (hr : ∀ a b : Nat, a < RM * SS → a / SS * SS < mm → b < N → b < nn →
      (m (p.addr SS (I + a) (J + b))).isSome = true) :
    ReadsQ (r.axpyP SS RM N beta q mm nn) m (fun r' => ∀ a b : Nat, a < RM * SS → a < mm → b < N →
      b < nn → r'.el SS a b = Arith.fma beta (val m (p.addr SS (I + a) (J + b))) (r.el SS a b)) := by
  refine (readsQ_forCols (Q := fun j c => ∀ i, i < RM → SS * i < mm → ∀ l, l < SS → c i l =
      Arith.fma beta (val m (p.addr SS (I + (i * SS + l : Nat)) (J + j))) (r i j l)) ?_).mono ?_
  · intro j hj hg r0 hr0
    have hjn : j < nn := by simpa using hg
    refine (readsQ_forRows (Q := fun i v => ∀ l, l < SS → v l =
      Arith.fma beta (val m (p.addr SS (I + (i * SS + l : Nat)) (J + j))) (r i j l)) ?_).mono ?_
    · intro i hi hgi
      have him : SS * i < mm := by simpa using hgi
      refine ReadsQ.bind (readsQ_loadCell hSS hw h hs i j (fun l hl => hr _ _ (idx_lt hi hl) ?_ hj hjn)) ?_
      · rw [mul_add_div' hl, Nat.mul_comm]; exact him
      intro v hv
      refine readsQ_pure (fun l hl => ?_)
      rw [hv l hl, hr0 i]
    · rintro r' ⟨h1, h2⟩
      exact ⟨fun i hi him => h1 i hi (by simpa using him), fun i j' hj' => h2 i j' (fun hh => hj' hh.1)⟩
  · rintro r' ⟨h1, _⟩ a b ha ham hb hbn
    obtain ⟨h3, h4, h5⟩ := idx_split hSS ha
    have := h1 b hb (by simpa using hbn) (a / SS) h3 (by rw [Nat.mul_comm]; omega) (a % SS) h4
    rw [h5] at this
    exact this

theorem reads_load {SS RM N : Nat} (hSS : 0 < SS) {q p : MPtr} {I J : Int} {m : Mem V} {r : Reg V}
    (hw : p.WF SS) (h : MPtr.At SS q p I J) (hs : p.so = .columnMajor)
    (hr : ∀ a b : Nat, a < RM * SS → b < N → (m (p.addr SS (I + a) (J + b))).isSome = true) :
    ReadsQ (r.load SS RM N q) m (fun r' => ∀ a b : Nat, a < RM * SS → b < N →
      r'.el SS a b = val m (p.addr SS (I + a) (J + b))) := by
  refine (readsQ_forCols (Q := fun j c => ∀ i, i < RM → ∀ l, l < SS → c i l =
      val m (p.addr SS (I + (i * SS + l : Nat)) (J + j))) ?_).mono ?_
  · intro j hj _ r0 hr0
    refine (readsQ_forRows (Q := fun i v => ∀ l, l < SS → v l =
      val m (p.addr SS (I + (i * SS + l : Nat)) (J + j))) ?_).mono ?_
    · intro i hi _
      exact readsQ_loadCell hSS hw h hs i j (fun l hl => hr _ _ (idx_lt hi hl) hj)
    · rintro r' ⟨h1, h2⟩
      exact ⟨fun i hi => h1 i hi rfl, fun i j' hj' => h2 i j' (fun hh => hj' hh.1)⟩
  · rintro r' ⟨h1, _⟩ a b ha hb
    exact el_of hSS (F := fun a => val m (p.addr SS (I + a) (J + b)))
      (fun i hi l hl => h1 b hb rfl i hi l hl) a ha

theorem reads_loadB {SS RM N : Nat} (hSS : 0 < SS) {q p : MPtr} {I J : Int} {m : Mem V} {r : Reg V}
    {beta : V} (hw : p.WF SS) (h : MPtr.At SS q p I J) (hs : p.so = .columnMajor)
    (hr : ∀ a b : Nat, a < RM * SS → b < N → (m (p.addr SS (I + a) (J + b))).isSome = true) :
    ReadsQ (r.loadB SS RM N beta q) m (fun r' => ∀ a b : Nat, a < RM * SS → b < N →
      r'.el SS a b = Arith.mul beta (val m (p.addr SS (I + a) (J + b)))) := by
  refine (readsQ_forCols (Q := fun j c => ∀ i, i < RM → ∀ l, l < SS → c i l =
      Arith.mul beta (val m (p.addr SS (I + (i * SS + l : Nat)) (J + j)))) ?_).mono ?_
  · intro j hj _ r0 hr0
    refine (readsQ_forRows (Q := fun i v => ∀ l, l < SS → v l =
      Arith.mul beta (val m (p.addr SS (I + (i * SS + l : Nat)) (J + j)))) ?_).mono ?_
    · intro i hi _
      refine ReadsQ.bind (readsQ_loadCell hSS hw h hs i j (fun l hl => hr _ _ (idx_lt hi hl) hj)) ?_
      intro v hv
      refine readsQ_pure (fun l hl => ?_)
      rw [hv l hl]
    · rintro r' ⟨h1, h2⟩
      exact ⟨fun i hi => h1 i hi rfl, fun i j' hj' => h2 i j' (fun hh => hj' hh.1)⟩
  · rintro r' ⟨h1, _⟩ a b ha hb
    exact el_of hSS (F := fun a => Arith.mul beta (val m (p.addr SS (I + a) (J + b))))
      (fun i hi l hl => h1 b hb rfl i hi l hl) a ha

/-- `load(beta, p, m, n)`: with unmasked loads only the padding up to the next multiple of SS rows is
touched, and only when the pointer is declared aligned and padded. -/
theorem reads_loadBP {SS RM N mm nn : Nat} (hSS : 0 < SS) {q p : MPtr} {I J : Int} {m : Mem V}
    {r : Reg V} {beta : V} (hw : p.WF SS) (h : MPtr.At SS q p I J) (hs : p.so = .columnMajor)
    (hc : p.panel = true → I % (SS : Int) = 0) (hmm : mm ≤ RM * SS)
    (hr : ∀ a b : Nat, a < RM * SS → (a < mm ∨ (q.aligned && q.padded) = true ∧ a / SS * SS < mm) →
      b < N → b < nn → (m (p.addr SS (I + a) (J + b))).isSome = true) :
    ReadsQ (r.loadBP SS RM N beta q mm nn) m (fun r' => ∀ a b : Nat, a < mm → b < N →
      b < nn → r'.el SS a b = Arith.mul beta (val m (p.addr SS (I + a) (J + b)))) := by
  refine (readsQ_forCols (Q := fun j c => ∀ i, i < RM → ∀ l, l < SS → i * SS + l < mm → c i l =
      Arith.mul beta (val m (p.addr SS (I + (i * SS + l : Nat)) (J + j)))) ?_).mono ?_
  · intro j hj hg r0 hr0
    have hjn : j < nn := by simpa using hg
    by_cases hap : (q.aligned && q.padded) = true
    · rw [if_pos hap]
      refine (readsQ_forRows (Q := fun i v => ∀ l, l < SS → v l =
        Arith.mul beta (val m (p.addr SS (I + (i * SS + l : Nat)) (J + j)))) ?_).mono ?_
      · intro i hi hgi
        have him : SS * i < mm := by simpa using hgi
        refine ReadsQ.bind (readsQ_loadCell hSS hw h hs i j
          (fun l hl => hr _ _ (idx_lt hi hl) (Or.inr ⟨hap, ?_⟩) hj hjn)) ?_
        · rw [mul_add_div' hl, Nat.mul_comm]; exact him
        intro v hv
        refine readsQ_pure (fun l hl => ?_)
        rw [hv l hl]
      · rintro r' ⟨h1, h2⟩
        exact ⟨fun i hi l hl hil => h1 i hi (by
            have : SS * i < mm := by rw [Nat.mul_comm]; omega
            simpa using this) l hl, fun i j' hj' => h2 i j' (fun hh => hj' hh.1)⟩
    · rw [if_neg hap]
      refine ReadsQ.bind (readsQ_forRows (Q := fun i v => ∀ l, l < SS → v l =
        Arith.mul beta (val m (p.addr SS (I + (i * SS + l : Nat)) (J + j)))) ?_) ?_
      · intro i hi hgi
        have him : SS * i + SS ≤ mm := by simpa using hgi
        refine ReadsQ.bind (readsQ_loadCell hSS hw h hs i j
          (fun l hl => hr _ _ (idx_lt hi hl) (Or.inl ?_) hj hjn)) ?_
        · rw [Nat.mul_comm] at him; omega
        intro v hv
        refine readsQ_pure (fun l hl => ?_)
        rw [hv l hl]
      · rintro r1 ⟨h1, h2⟩
        have hdm := Nat.div_add_mod mm SS
        have hml := Nat.mod_lt mm hSS
        by_cases hrem : mm % SS ≠ 0
        · rw [if_pos hrem]
          have hdiv : mm / SS < RM := by
            rw [Nat.div_lt_iff_lt_mul hSS]
            have h4 : mm % SS ≠ 0 → mm ≠ RM * SS := by
              intro hne he; rw [he] at hne; simp at hne
            have := h4 hrem
            omega
          rw [if_pos hdiv]
          have e : ((mm - mm % SS : Nat) : Int) = (SS : Int) * ((mm / SS : Nat) : Int) := by
            rw [← Int.natCast_mul]; congr 1; omega
          rw [e]
          have h2' := at_tile hSS hw h hs (mm / SS) j
          obtain ⟨v, hv, hv2⟩ := h2'.reads_loadMask (m := m) hw hs (fun hp => tile_mod (hc hp) _)
            (fun l => decide (l < mm % SS)) (fun l hl hlm => by
              have hlm' : l < mm % SS := by simpa using hlm
              have := hr (mm / SS * SS + l) j (idx_lt hdiv hl)
                (Or.inl (by rw [Nat.mul_comm]; omega)) hj hjn
              rw [Int.add_assoc, ← Int.natCast_add]; exact this)
          refine Reads.bindQ hv (readsQ_pure ⟨?_, ?_⟩)
          · intro i hi l hl hil
            unfold upd
            dsimp only
            by_cases hi2 : i = mm / SS
            · have hlm : l < mm % SS := by subst hi2; rw [Nat.mul_comm] at hil; omega
              rw [if_pos ⟨hi2, rfl⟩, hv2 l hl, if_pos (by simpa using hlm), hi2, Int.add_assoc,
                ← Int.natCast_add]
            · rw [if_neg (fun hh => hi2 hh.1)]
              refine h1 i hi ?_ l hl
              have hlt : i < mm / SS := by
                have : i < mm / SS + 1 := by
                  rw [← Nat.not_le]
                  intro hle
                  have := Nat.mul_le_mul_left SS hle
                  rw [Nat.mul_add] at this
                  rw [Nat.mul_comm] at hil
                  omega
                omega
              have := Nat.mul_le_mul_left SS (show i + 1 ≤ mm / SS from hlt)
              rw [Nat.mul_add] at this
              have : SS * i + SS ≤ mm := by omega
              simpa using this
          · intro i j' hj'
            unfold upd
            rw [if_neg (fun hh => hj' hh.2)]
            exact h2 i j' (fun hh => hj' hh.1)
        · rw [if_neg hrem]
          refine readsQ_pure ⟨?_, fun i j' hj' => h2 i j' (fun hh => hj' hh.1)⟩
          intro i hi l hl hil
          refine h1 i hi ?_ l hl
          have hlt : i < mm / SS := by
            rw [← Nat.not_le]
            intro hle
            have := Nat.mul_le_mul_left SS hle
            rw [Nat.mul_comm] at hil
            omega
          have := Nat.mul_le_mul_left SS (show i + 1 ≤ mm / SS from hlt)
          rw [Nat.mul_add] at this
          have : SS * i + SS ≤ mm := by omega
          simpa using this
  · rintro r' ⟨h1, _⟩ a b ha hb hbn
    obtain ⟨h3, h4, h5⟩ := idx_split hSS (show a < RM * SS by omega)
    have := h1 b hb (by simpa using hbn) (a / SS) h3 (a % SS) h4 (by omega)
    rw [h5] at this
    exact this

/-! ### ger -/

theorem reads_loadCol {SS RM : Nat} {a : VPtr} {m : Mem V} {f : V → V} {X : Nat → V}
    (h : a.Loads SS m RM X) :
    ReadsQ (loadCol SS RM a f) m (fun ax => ∀ i, i < RM → ∀ l, l < SS → ax i l = f (X (i * SS + l))) := by
  refine readsQ_foldN (I := fun k (ax : Nat → Vec V) => ∀ i, i < k → ∀ l, l < SS →
    ax i l = f (X (i * SS + l))) (fun i hi => by omega) ?_
  intro k ax hk hax
  refine ReadsQ.bind (h k hk) (fun v hv => readsQ_pure ?_)
  intro i hi l hl
  dsimp only
  by_cases hik : i = k
  · subst hik; rw [if_pos rfl, hv l hl]
  · rw [if_neg hik]; exact hax i (by omega) l hl

theorem reads_gerFP {SS RM N mm nn : Nat} (hSS : 0 < SS) {a b : VPtr} {m : Mem V} {f : V → V}
    {X Y : Nat → V} {r : Reg V} (ha : a.Loads SS m RM X) (hb : b.Gets SS m (min nn N) Y) :
    ReadsQ (r.gerFP SS RM N f a b mm nn) m (fun r' =>
      (∀ i j : Nat, i < RM * SS → j < N → j < nn →
        r'.el SS i j = Arith.fma (f (X i)) (Y j) (r.el SS i j)) ∧
      (∀ i j : Nat, ¬ (j < N ∧ j < nn) → r' i j = r i j)) := by
  refine ReadsQ.bind (reads_loadCol (f := f) ha) (fun ax hax => ?_)
  refine (readsQ_forCols (Q := fun j c => ∀ i, i < RM → ∀ l, l < SS → c i l =
      Arith.fma (f (X (i * SS + l))) (Y j) (r i j l)) ?_).mono ?_
  · intro j hj hg r0 hr0
    have hjn : j < nn := by simpa using hg
    refine Reads.bindQ (hb j (by omega)) ?_
    refine (readsQ_forRows (Q := fun i v => ∀ l, l < SS → v l =
      Arith.fma (f (X (i * SS + l))) (Y j) (r i j l)) ?_).mono ?_
    · intro i hi _
      refine readsQ_pure (fun l hl => ?_)
      rw [hax i hi l hl, hr0 i]
    · rintro r' ⟨h1, h2⟩
      exact ⟨fun i hi => h1 i hi rfl, fun i j' hj' => h2 i j' (fun hh => hj' hh.1)⟩
  · rintro r' ⟨h1, h2⟩
    refine ⟨?_, fun i j hn => h2 i j (fun hh => hn ⟨hh.1, by simpa using hh.2⟩)⟩
    intro a b ha hb hbn
    refine el_of hSS (F := fun a => Arith.fma (f (X a)) (Y b) (r.el SS a b)) (fun i hi l hl => ?_) a ha
    rw [el_mk r hl]
    exact h1 b hb (by simpa using hbn) i hi l hl

theorem gerF_eq (SS RM N : Nat) (r : Reg V) (f : V → V) (a b : VPtr) :
    r.gerF SS RM N f a b = r.gerFP SS RM N f a b 0 N := by
  unfold gerF gerFP forCols
  congr 1
  funext ax
  have : ∀ n, n ≤ N → ∀ (body : Nat → Reg V → Prog V (Reg V)) (r : Reg V),
      foldN n (fun j r => if (fun _ => true) j = true then body j r else pure r) r =
      foldN n (fun j r => if decide (j < N) = true then body j r else pure r) r := by
    intro n
    induction n with
    | zero => intros; rfl
    | succ n ih =>
      intro hn body r
      show (foldN n _ r >>= _) = (foldN n _ r >>= _)
      rw [ih (by omega) body r]
      congr 1
      funext r'
      simp [show n < N by omega]
  exact this N (Nat.le_refl _) _ r

theorem reads_gerF {SS RM N : Nat} (hSS : 0 < SS) {a b : VPtr} {m : Mem V} {f : V → V}
    {X Y : Nat → V} {r : Reg V} (ha : a.Loads SS m RM X) (hb : b.Gets SS m N Y) :
    ReadsQ (r.gerF SS RM N f a b) m (fun r' => ∀ i j : Nat, i < RM * SS → j < N →
        r'.el SS i j = Arith.fma (f (X i)) (Y j) (r.el SS i j)) := by
  rw [gerF_eq]
  refine (reads_gerFP (mm := 0) (nn := N) hSS ha (by simpa using hb)).mono ?_
  rintro r' ⟨h1, _⟩ i j hi hj
  exact h1 i j hi hj hj

/-! ### Stores -/

theorem runs_storeP {SS RM N mm nn : Nat} (hSS : 0 < SS) {q p : MPtr} {I J : Int} {m : Mem V}
    {r : Reg V} (hw : p.WF SS) (h : MPtr.At SS q p I J) (hs : p.so = .columnMajor)
    (hc : p.panel = true → I % (SS : Int) = 0) (hmm : mm ≤ RM * SS) (g : Int → V)
    (hr : ∀ a b : Nat, a < mm → b < N → b < nn → (m (p.addr SS (I + a) (J + b))).isSome = true)
    (hg : ∀ a b : Nat, a < mm → b < N → b < nn → g (p.addr SS (I + a) (J + b)) = r.el SS a b) :
    Runs (r.storeP SS RM N q mm nn) m (fun _ m' => WritesSet m m'
      (fun x => ∃ a b : Nat, a < mm ∧ b < N ∧ b < nn ∧ x = p.addr SS (I + a) (J + b)) g) := by
  have hdm := Nat.div_add_mod mm SS
  have hml := Nat.mod_lt mm hSS
  have hfull : ∀ i, SS * (i + 1) ≤ mm → ∀ l, l < SS → i * SS + l < mm := by
    intro i hi l hl
    rw [Nat.mul_comm, Nat.add_mul] at hi; omega
  refine Runs.bind (Q := fun _ m' => WritesSet m m' (fun x => ∃ j, j < N ∧ ∃ i, i < RM ∧
      (j < nn ∧ SS * (i + 1) ≤ mm ∧ ∃ l : Nat, l < SS ∧
        x = p.addr SS (I + (i * SS + l : Nat)) (J + j))) g) ?_ ?_
  · refine writes_forN _ g (fun j hj m1 hw1 => ?_)
    by_cases hjn : j < nn
    · unfold onlyIf
      rw [if_pos (by simpa using hjn)]
      refine writes_forN _ g (fun i hi m2 hw2 => ?_)
      by_cases him : SS * (i + 1) ≤ mm
      · rw [if_pos (by simpa using him)]
        refine ((at_tile hSS hw h hs i j).runs_store hw hs (fun hp => tile_mod (hc hp) i) (r i j) g
          (fun l hl => ?_) (fun l hl => ?_)).mono ?_
        · rw [Int.add_assoc, ← Int.natCast_add]
          exact hw2.isSome (hw1.isSome (hr _ _ (hfull i him l hl) hj hjn))
        · rw [Int.add_assoc, ← Int.natCast_add, hg _ _ (hfull i him l hl) hj hjn, el_mk r hl]
        · intro _ m3 hw3
          refine hw3.congr (fun x => ?_)
          constructor
          · rintro ⟨l, hl, hx⟩
            exact ⟨hjn, him, l, hl, by rw [hx, Int.add_assoc, ← Int.natCast_add]⟩
          · rintro ⟨_, _, l, hl, hx⟩
            exact ⟨l, hl, by rw [hx, Int.add_assoc, ← Int.natCast_add]⟩
      · rw [if_neg (by simpa using him)]
        refine runs_pure ((WritesSet.refl m2 g).congr (fun x => ?_))
        simp only [false_iff]
        rintro ⟨_, h4, _⟩
        exact him h4
    · unfold onlyIf
      rw [if_neg (by simpa using hjn)]
      refine runs_pure ((WritesSet.refl m1 g).congr (fun x => ?_))
      simp only [false_iff]
      rintro ⟨_, _, h4, _⟩
      exact hjn h4
  · intro _ m1 hw1
    by_cases hrem : mm % SS ≠ 0
    · rw [if_pos hrem]
      have hdiv : mm / SS < RM := by
        rw [Nat.div_lt_iff_lt_mul hSS]
        have h4 : mm % SS ≠ 0 → mm ≠ RM * SS := by
          intro hne he; rw [he] at hne; simp at hne
        have := h4 hrem
        omega
      simp only [if_pos hdiv]
      refine (writes_forN (fun j x => ∃ l : Nat, l < mm % SS ∧
        x = p.addr SS (I + (mm / SS * SS + l : Nat)) (J + j)) g (fun j hj m2 hw2 => ?_)).mono ?_
      · have hjN : j < N := by omega
        have hjn : j < nn := by omega
        rw [Int.natCast_mul]
        refine ((at_tile hSS hw h hs (mm / SS) j).runs_storeMask hw hs (fun hp => tile_mod (hc hp) _)
          (r (mm / SS) j) (fun l => decide (l < mm % SS)) g (fun l hl hlm => ?_) (fun l hl hlm => ?_)).mono ?_
        · have hlm' : l < mm % SS := by simpa using hlm
          rw [Int.add_assoc, ← Int.natCast_add]
          exact hw2.isSome (hw1.isSome (hr _ _ (by rw [Nat.mul_comm]; omega) hjN hjn))
        · have hlm' : l < mm % SS := by simpa using hlm
          rw [Int.add_assoc, ← Int.natCast_add, hg _ _ (by rw [Nat.mul_comm]; omega) hjN hjn, el_mk r hl]
        · intro _ m3 hw3
          refine hw3.congr (fun x => ?_)
          constructor
          · rintro ⟨l, hl, hlm, hx⟩
            exact ⟨l, by simpa using hlm, by rw [hx, Int.add_assoc, ← Int.natCast_add]⟩
          · rintro ⟨l, hl, hx⟩
            exact ⟨l, by omega, by simpa using hl, by rw [hx, Int.add_assoc, ← Int.natCast_add]⟩
      · intro _ m2 hw2
        refine (hw1.trans hw2).congr (fun x => ?_)
        constructor
        · rintro (⟨j, hj, i, hi, hjn, him, l, hl, hx⟩ | ⟨j, hj, l, hl, hx⟩)
          · exact ⟨i * SS + l, j, hfull i him l hl, hj, hjn, hx⟩
          · exact ⟨mm / SS * SS + l, j, by rw [Nat.mul_comm]; omega, by omega, by omega, hx⟩
        · rintro ⟨a, b, ha, hb, hbn, hx⟩
          obtain ⟨h3, h4, h5⟩ := idx_split hSS (show a < RM * SS by omega)
          by_cases hai : a / SS = mm / SS
          · refine Or.inr ⟨b, by omega, a % SS, ?_, ?_⟩
            · have : SS * (a / SS) = SS * (mm / SS) := by rw [hai]
              rw [Nat.mul_comm] at h5
              omega
            · rw [← hai, h5]; exact hx
          · refine Or.inl ⟨b, hb, a / SS, h3, hbn, ?_, a % SS, h4, by rw [h5]; exact hx⟩
            have h6 : a / SS ≤ mm / SS := Nat.div_le_div_right (by omega)
            have := Nat.mul_le_mul_left SS (show a / SS + 1 ≤ mm / SS by omega)
            omega
    · rw [if_neg hrem]
      refine runs_pure (hw1.congr (fun x => ?_))
      constructor
      · rintro ⟨j, hj, i, hi, hjn, him, l, hl, hx⟩
        exact ⟨i * SS + l, j, hfull i him l hl, hj, hjn, hx⟩
      · rintro ⟨a, b, ha, hb, hbn, hx⟩
        obtain ⟨h3, h4, h5⟩ := idx_split hSS (show a < RM * SS by omega)
        refine ⟨b, hb, a / SS, h3, hbn, ?_, a % SS, h4, by rw [h5]; exact hx⟩
        have h6 : a / SS ≤ mm / SS := Nat.div_le_div_right (by omega)
        have h7 : a / SS ≠ mm / SS := by
          intro he
          have : SS * (a / SS) = SS * (mm / SS) := by rw [he]
          rw [Nat.mul_comm] at h5
          omega
        have := Nat.mul_le_mul_left SS (show a / SS + 1 ≤ mm / SS by omega)
        omega

theorem runs_store {SS RM N : Nat} (hSS : 0 < SS) {q p : MPtr} {I J : Int} {m : Mem V}
    {r : Reg V} (hw : p.WF SS) (h : MPtr.At SS q p I J) (hs : p.so = .columnMajor)
    (hc : p.panel = true → I % (SS : Int) = 0) (g : Int → V)
    (hr : ∀ a b : Nat, a < RM * SS → b < N → (m (p.addr SS (I + a) (J + b))).isSome = true)
    (hg : ∀ a b : Nat, a < RM * SS → b < N → g (p.addr SS (I + a) (J + b)) = r.el SS a b) :
    Runs (r.store SS RM N q) m (fun _ m' => WritesSet m m'
      (fun x => ∃ a b : Nat, a < RM * SS ∧ b < N ∧ x = p.addr SS (I + a) (J + b)) g) := by
  refine (writes_forN (fun j x => ∃ i, i < RM ∧ ∃ l : Nat, l < SS ∧
        x = p.addr SS (I + (i * SS + l : Nat)) (J + j)) g (fun j hj m1 hw1 => ?_)).mono ?_
  · refine writes_forN _ g (fun i hi m2 hw2 => ?_)
    refine ((at_tile hSS hw h hs i j).runs_store hw hs (fun hp => tile_mod (hc hp) i) (r i j) g
      (fun l hl => ?_) (fun l hl => ?_)).mono ?_
    · rw [Int.add_assoc, ← Int.natCast_add]
      exact hw2.isSome (hw1.isSome (hr _ _ (idx_lt hi hl) hj))
    · rw [Int.add_assoc, ← Int.natCast_add, hg _ _ (idx_lt hi hl) hj, el_mk r hl]
    · intro _ m3 hw3
      refine hw3.congr (fun x => ?_)
      constructor
      · rintro ⟨l, hl, hx⟩
        exact ⟨l, hl, by rw [hx, Int.add_assoc, ← Int.natCast_add]⟩
      · rintro ⟨l, hl, hx⟩
        exact ⟨l, hl, by rw [hx, Int.add_assoc, ← Int.natCast_add]⟩
  · intro _ m2 hw2
    refine hw2.congr (fun x => ?_)
    constructor
    · rintro ⟨j, hj, i, hi, l, hl, hx⟩
      exact ⟨i * SS + l, j, idx_lt hi hl, hj, hx⟩
    · rintro ⟨a, b, ha, hb, hx⟩
      obtain ⟨h3, h4, h5⟩ := idx_split hSS ha
      exact ⟨b, hb, a / SS, h3, a % SS, h4, by rw [h5]; exact hx⟩

end Reg
end Blast
