import Verif.Frame
import Verif.Getrf
import Verif.Props.TrsmDense
/-
Safety of the blocked LU factorization for an arbitrary scalar arithmetic: no algebraic law is assumed, comparisons may have any result (NaN).
-/
set_option linter.unusedSectionVars false
namespace Blast
open Prog Reg
variable {V : Type} [Arith V]

/-- for any arithmetic, any coefficients: trsm runs, writes X and nothing else -/
theorem trsmPtr_total {SS m n : Nat} {A X B : MPtr} (uplo : UpLo) (unit : Bool) {mem : Mem V}
    (hA : ∀ i k : Nat, i < m → k < m → (mem (A.addr SS i k)).isSome = true ∧ ¬ Cells SS X m n (A.addr SS i k))
    (hX : Readable SS mem X m n) (hinj : Inj SS X m n) (hB : Readable SS mem B m n) (hBX : SameOrDisj SS B X m n) :
    ∃ mem', trsmPtr SS m n uplo unit A B X mem = .ok () mem' ∧ (∀ y, ¬ Cells SS X m n y → mem' y = mem y) := by
  obtain ⟨mem', e1, e2, -⟩ := runs_solve (no := n) (ni := m) (solveDown uplo)
    (addrX := fun o i => X.addr SS (i : Nat) (o : Nat)) (addrB := fun o i => B.addr SS (i : Nat) (o : Nat))
    (addrA := fun i k => A.addr SS (i : Nat) (k : Nat)) Arith.mul id unit (solveLo uplo) (solveHi uplo m)
    (by
      intro i k hi h1 h2
      cases uplo with
      | lower => change k < i at h2; exact ⟨by omega, by simpa [innerLt, solveDown] using h2⟩
      | upper =>
        change k < m at h2; change i + 1 ≤ k at h1
        exact ⟨h2, by simp [innerLt, solveDown]; omega⟩) (m := mem)
    (by intro o i o' i' h1 h2 h3 h4 he; have := hinj _ _ _ _ h2 h1 h4 h3 he; exact ⟨this.2, this.1⟩)
    (by intro o i ho hi; exact hX i o hi ho) (fun o i ho hi => hB i o hi ho)
    (by intro o i o' i' h1 h2 h3 h4 he; have := hBX _ _ _ _ h2 h1 h4 h3 he; exact ⟨this.2, this.1⟩)
    (by
      intro i k hi hk
      have hk' : k < m := by
        rcases hk with ⟨h1, h2⟩ | ⟨_, h2⟩
        · cases uplo with
          | lower => change k < i at h2; omega
          | upper => exact h2
        · omega
      obtain ⟨h1, h2⟩ := hA i k hi hk'
      exact ⟨h1, fun o' i' ho hi' he => h2 ⟨i', o', hi', ho, he⟩⟩)
  exact ⟨mem', by cases uplo <;> exact e1, fun y hy => e2 y (fun o i ho hi he => hy ⟨i, o, hi, ho, he⟩)⟩

/-- interchanges recorded for the first `K` columns: in range; the other entries are those of `ip` -/
def PivotsOK (M K : Nat) (ip P : Nat → Nat) : Prop := (∀ q, q < K → q ≤ P q ∧ P q < M) ∧ (∀ q, K ≤ q → P q = ip q)

theorem luRun_pivots {dv : V → V → V} {upd : V → V → V → V} {m : Nat} {a0 : Nat → Nat → V} {ip : Nat → Nat} (K : Nat) (hK : K ≤ m)
    {a : Nat → Nat → V} {p : Nat → Nat} (h : luRun dv upd m a0 ip K = some (a, p)) : PivotsOK m K ip p := by
  induction K generalizing a p with
  | zero =>
    simp only [luRun, Option.some.injEq, Prod.mk.injEq] at h
    obtain ⟨rfl, rfl⟩ := h
    exact ⟨fun q hq => by omega, fun q _ => rfl⟩
  | succ K ih =>
    unfold luRun at h
    cases hr : luRun dv upd m a0 ip K with
    | none => rw [hr] at h; simp at h
    | some r =>
      obtain ⟨a1, p1⟩ := r
      rw [hr] at h
      obtain ⟨i2, i3⟩ := ih (by omega) hr
      obtain ⟨b1, b2⟩ := pivotRow_lt a1 (show K < m by omega)
      simp only [Option.bind_some] at h
      unfold luStep at h
      simp only at h
      by_cases hz : Arith.eq (swapRows K (pivotRow m a1 K) a1 K K) Arith.zero = true
      · rw [if_pos hz] at h; simp at h
      · rw [if_neg hz] at h
        simp only [Option.some.injEq, Prod.mk.injEq] at h
        obtain ⟨rfl, rfl⟩ := h
        refine ⟨fun q hq => ?_, fun q hq => ?_⟩
        · unfold setAt
          by_cases hqk : q = K
          · rw [if_pos hqk]; subst hqk; exact ⟨b1, b2⟩
          · rw [if_neg hqk]; exact i2 q (by omega)
        · unfold setAt
          rw [if_neg (by omega)]; exact i3 q (by omega)

/-- a local program that changes only elements of A leaves A a matrix -/
theorem MatIn.framed {α : Type} {SS M N : Nat} {A : MPtr} {m0 m m' : Mem V} {a : Nat → Nat → V} {r : α} (h : MatIn SS M N A m0 m a)
    {p : Prog V α} (hF : Framed p) (e : p m = .ok r m') (hf : ∀ z, ¬ Cells SS A M N z → m' z = m z) :
    ∃ a', MatIn SS M N A m0 m' a' := by
  refine ⟨fun i j => val m' (A.addr SS i j), fun i j hi hj => ?_, fun y hy => (hf y hy).trans (h.frame y hy)⟩
  have := (hF.ok e).1 (A.addr SS i j)
  rw [h.holds i j hi hj] at this
  cases e2 : m' (A.addr SS i j) with
  | none => rw [e2] at this; cases this
  | some v => unfold val; rw [e2]; rfl

theorem off_wf' {SS : Nat} {A : MPtr} (hd : A.panel = false) (hs : A.so = .columnMajor) (hw : A.WF SS) {i j : Nat}
    (hi : i % SS = 0) : (A.off SS i j).WF SS := by
  obtain ⟨pn, so, al, pd, pt, sp⟩ := A
  simp only at hd hs
  subst hd hs
  intro h
  have := hw h
  refine ⟨?_, this.2⟩
  obtain ⟨h1, h2⟩ := this
  have hi' := cast_mod_zero hi
  simp only [MPtr.off, MPtr.addr]
  have e1 := Int.dvd_of_emod_eq_zero h1
  have e2 := Int.dvd_of_emod_eq_zero h2
  have e3 := Int.dvd_of_emod_eq_zero hi'
  refine Int.emod_eq_zero_of_dvd ?_
  simp only [Bool.false_eq_true, if_false]
  exact dvd_add (dvd_add e1 e3) (dvd_mul_of_dvd_left e2 _)

theorem roundUp_sub' {M k SS : Nat} (hSS : 0 < SS) (hk : k % SS = 0) (h : k ≤ M) : k + roundUp (M - k) SS = roundUp M SS := by
  unfold roundUp
  obtain ⟨q, rfl⟩ := Nat.dvd_of_mod_eq_zero hk
  rw [show M + SS - 1 = (M - SS * q + SS - 1) + SS * q by omega, Nat.add_mul_div_left _ _ hSS, Nat.add_mul]
  rw [Nat.mul_comm q SS]; omega

theorem cells_sub {SS M N r0 c0 r c : Nat} {A B : MPtr} (hr : r0 + r ≤ M) (hc : c0 + c ≤ N)
    (hB : ∀ i j : Nat, B.addr SS i j = A.addr SS (r0 + i : Nat) (c0 + j : Nat)) {z : Int} (h : Cells SS B r c z) : Cells SS A M N z := by
  obtain ⟨i, j, hi, hj, rfl⟩ := h
  exact ⟨r0 + i, c0 + j, by omega, by omega, hB i j⟩

theorem PivotsOK.extend {M k T : Nat} {ip P p : Nat → Nat} (h : PivotsOK M k ip P) (hp : PivotsOK (M - k) T (fun i => P (k + i)) p)
    (hkM : k ≤ M) : PivotsOK M (k + T) ip (addRange (mergeAt P k p) k (k + T)) := by
  refine ⟨fun q hq => ?_, fun q hq => ?_⟩
  · unfold addRange mergeAt
    by_cases hqk : q < k
    · rw [if_neg (by omega), if_pos hqk]; exact h.1 q hqk
    · rw [if_pos (by omega), if_neg hqk]
      have := hp.1 (q - k) (by omega)
      omega
  · unfold addRange mergeAt
    rw [if_neg (by omega), if_neg (by omega), hp.2 (q - k) (by omega)]
    show P (k + (q - k)) = ip q
    rw [show k + (q - k) = q by omega]
    exact h.2 q (by omega)

/-- one block step for an arbitrary arithmetic -/
theorem safe_getrfStep {SS TR M N k : Nat} {A : MPtr} {m0 mem : Mem V} (hp : GetrfPre SS TR M N A m0)
    {a : Nat → Nat → V} {ip P : Nat → Nat} (hk : k % (TR * SS) = 0) (hkM : k + TR * SS < M) (hkN : k + TR * SS < N)
    (hP : PivotsOK M k ip P) (h : MatIn SS M N A m0 mem a) :
    RunsE (getrfStep SS TR M N A k P) mem
      (fun P' mem' => PivotsOK M (k + TR * SS) ip P' ∧ ∃ a', MatIn SS M N A m0 mem' a')
      (fun e mem' => e = .invalidArgument ∧ ∀ y, ¬ Cells SS A M N y → mem' y = m0 y) := by
  have hSS := hp.ss
  have hd := hp.dense
  have hNB : 0 < TR * SS := Nat.mul_pos hp.tr hp.ss
  have hkS : k % SS = 0 := Nat.mod_eq_zero_of_dvd (Nat.dvd_trans ⟨TR, Nat.mul_comm _ _⟩ (Nat.dvd_of_mod_eq_zero hk))
  have hNS : (TR * SS) % SS = 0 := Nat.mul_mod_left _ _
  have hkNS : (k + TR * SS) % SS = 0 := by rw [Nat.add_mod, hkS, hNS]; simp
  have hpan := fun i j => uoff_addr hSS hd k k i j
  have hoff : ∀ r c i j : Nat, (A.off SS r c).addr SS i j = A.addr SS (r + i : Nat) (c + j : Nat) := by
    intro r c i j
    rw [dense_off_addr hd]; push_cast; rfl
  have hlp : LuPre SS TR (M - k) (TR * SS) ((A.unal SS).off SS k k) mem :=
    hp.toLuPre.sub (by omega) (by omega) (uoff_dense hSS hd _ _) (by rw [uoff_so hSS]; exact hp.so) hpan (fun y hy => h.isSome hy)
  have hholds : Holds SS mem ((A.unal SS).off SS k k) (M - k) (TR * SS) (fun i j => a (k + i) (k + j)) := by
    intro i j hi hj
    rw [hpan]; exact h.holds _ _ (by omega) (by omega)
  unfold getrfStep
  refine RunsE.bind ((runs_getf2Ptr hlp hholds (fun i => P (k + i))).mono (fun _ _ h => h) ?_) ?_
  · rintro e mem' ⟨he, -, hf⟩
    refine ⟨he, fun y hy => ?_⟩
    rw [hf y (fun hc => hy (cells_sub (by omega) (by omega) hpan hc)), h.frame y hy]
  rintro p mem1 ⟨s, hs, h1⟩
  rw [show min (M - k) (TR * SS) = TR * SS by omega] at hs
  have hP' := hP.extend (luRun_pivots (TR * SS) (by omega) hs) (by omega)
  generalize addRange (mergeAt P k p) k (k + TR * SS) = P' at hP' ⊢
  have hPM : ∀ q, k ≤ q → q < k + TR * SS → P' q < M := fun q _ h2 => (hP'.1 q h2).2
  have h2 := h.block hp.inj (r0 := k) (c0 := k) (r := M - k) (c := TR * SS) (by omega) (by omega) hpan h1.holds h1.frame
  refine RunsE.bind (Runs.e (runs_laswp hSS hd h2 hp.inj (B := A) (c0 := 0) (n := k) (k0 := k) (k1 := k + TR * SS) (by omega) hd
    (fun i j => by simp) (by omega) (by omega) hPM)) ?_
  intro _ mem2 h3
  refine RunsE.bind (Runs.e (runs_laswp hSS hd h3 hp.inj (B := A.off SS 0 (k + TR * SS : Nat)) (c0 := k + TR * SS)
    (n := N - k - TR * SS) (k0 := k) (k1 := k + TR * SS) (by omega) hd
    (fun i j => by rw [dense_off_addr hd, Int.zero_add]) (by omega) (by omega) hPM)) ?_
  intro _ mem3 h4
  have hX := hoff k (k + TR * SS)
  have hA21 := hoff (k + TR * SS) k
  have hC := hoff (k + TR * SS) (k + TR * SS)
  have hrd : ∀ {mm : Mem V} {b : Nat → Nat → V}, MatIn SS M N A m0 mm b → ∀ i j : Nat, i < M → j < N → (mm (A.addr SS i j)).isSome = true :=
    fun hb i j hi hj => by rw [hb.holds i j hi hj]; rfl
  refine RunsE.bind (Q := fun _ mem' => ∃ a', MatIn SS M N A m0 mem' a') (Runs.e ?_) ?_
  · obtain ⟨mem', e1, e2⟩ := trsmPtr_total (SS := SS) (m := TR * SS) (n := N - k - TR * SS) (A := A.off SS k k)
      (X := A.off SS k (k + TR * SS : Nat)) (B := A.off SS k (k + TR * SS : Nat)) .lower true (mem := mem3)
      (by
        intro i q hi hq
        rw [hoff k k]
        refine ⟨hrd h4 _ _ (by omega) (by omega), ?_⟩
        rintro ⟨i', j', hi', hj', e⟩
        rw [hX] at e
        have := hp.inj _ _ _ _ (by omega) (by omega) (by omega) (by omega) e
        omega)
      (fun i j hi hj => by rw [hX]; exact hrd h4 _ _ (by omega) (by omega))
      (hp.inj.sub (by omega) (by omega) hX)
      (fun i j hi hj => by rw [hX]; exact hrd h4 _ _ (by omega) (by omega))
      (hp.inj.sub (by omega) (by omega) hX)
    refine ⟨(), mem', ?_, h4.framed (framed_trsmPtr ..) e1 (fun z hz => e2 z (fun hc => hz (cells_sub (by omega) (by omega) hX hc)))⟩
    rw [C27_trsm_size_check, if_pos ⟨⟨rfl, rfl⟩, rfl, rfl⟩]
    exact e1
  rintro _ mem4 ⟨a4, h6⟩
  refine RunsE.bind (Q := fun _ mem' => ∃ a', MatIn SS M N A m0 mem' a') (Runs.e ?_) ?_
  · have hpad : ∀ i j : Nat, i < roundUp M SS → j < N → (mem4 (A.addr SS i j)).isSome = true :=
      fun i j hi hj => h6.isSome (hp.pad i j hi hj)
    have hru := roundUp_sub' hSS hkNS (show k + TR * SS ≤ M by omega)
    have hle := self_le_roundUp (n := M) hSS
    have hgp : GemmPre SS (M - k - TR * SS) (N - k - TR * SS) (TR * SS) (A.off SS (k + TR * SS : Nat) k)
        (A.off SS k (k + TR * SS : Nat)) (A.off SS (k + TR * SS : Nat) (k + TR * SS : Nat))
        (A.off SS (k + TR * SS : Nat) (k + TR * SS : Nat)) mem4 := by
      rw [show M - (k + TR * SS) = M - k - TR * SS by omega] at hru
      refine ⟨hSS, off_wf' hd hp.so hp.wf hkNS, off_wf' hd hp.so hp.wf hkS, off_wf' hd hp.so hp.wf hkNS,
        off_wf' hd hp.so hp.wf hkNS, hp.so, hp.so, hp.so, ?_, ?_, ?_, ?_, hp.inj.sub (by omega) (by omega) hC, ?_, ?_,
        hp.inj.sub (by omega) (by omega) hC⟩
      · intro i j hi hj; rw [hA21]; exact hpad _ _ (by omega) (by omega)
      · intro i j hi hj; rw [hX]; exact hpad _ _ (by omega) (by omega)
      · intro i j hi hj; rw [hC]; exact hpad _ _ (by omega) (by omega)
      · intro i j hi hj; rw [hC]; exact hpad _ _ (by omega) (by omega)
      · intro i j i' j' hi hj hi' hj' e
        rw [hA21, hC] at e
        have := hp.inj _ _ _ _ (by omega) (by omega) (by omega) (by omega) e
        omega
      · intro i j i' j' hi hj hi' hj' e
        rw [hX, hC] at e
        have := hp.inj _ _ _ _ (by omega) (by omega) (by omega) (by omega) e
        omega
    obtain ⟨mem', e1, e2, e3⟩ := gemmPtr_correct (alpha := Arith.neg Arith.one) (beta := Arith.one) hgp
    exact ⟨(), mem', e1, h6.framed (framed_gemmPtr ..) e1 (fun z hz => e3 z (fun hc => hz (cells_sub (by omega) (by omega) hC hc)))⟩
  rintro _ mem5 h7
  exact Or.inl ⟨_, _, rfl, hP', h7⟩

/-- Column-major getrf for an arbitrary arithmetic: it ends, normally or by throwing invalid_argument, writes only elements of A, and returns
interchanges that are in range. -/
theorem safe_getrfPtr {SS TR M N : Nat} {A : MPtr} {m0 : Mem V} (hp : GetrfPre SS TR M N A m0)
    {a0 : Nat → Nat → V} (ip : Nat → Nat) (h : Holds SS m0 A M N a0) :
    RunsE (getrfPtr SS TR M N A ip) m0
      (fun P mem' => ∃ a, PivotsOK M (min M N) ip P ∧ MatIn SS M N A m0 mem' a)
      (fun e mem' => e = .invalidArgument ∧ ∀ y, ¬ Cells SS A M N y → mem' y = m0 y) := by
  have hSS := hp.ss
  have hd := hp.dense
  have hNB : 0 < TR * SS := Nat.mul_pos hp.tr hp.ss
  unfold getrfPtr
  refine RunsE.bind (runsE_loopS (fun k P mem => k % (TR * SS) = 0 ∧ k ≤ M ∧ k ≤ N ∧
      PivotsOK M k ip P ∧ ∃ a, MatIn SS M N A m0 mem a) M hNB
      (fun k hc => by simp at hc; omega) (by omega) (by omega)
      ⟨Nat.zero_mod _, by omega, by omega, ⟨fun q hq => by omega, fun _ _ => rfl⟩, a0, MatIn.of_holds h⟩ ?_) ?_
  · rintro k P mem hc ⟨h1, h2, h3, h4, a, h5⟩
    simp only [Bool.and_eq_true, decide_eq_true_eq] at hc
    refine (safe_getrfStep hp h1 hc.1 hc.2 h4 h5).mono ?_ (fun _ _ h => h)
    rintro P' mem' ⟨e1, a', e2⟩
    exact ⟨by rw [Nat.add_mod_right]; exact h1, by omega, by omega, e1, a', e2⟩
  rintro ⟨k, P⟩ mem ⟨-, hk0, hkM, hkN, hP, a, h1⟩
  simp only at hkM hkN hP ⊢
  have hoff : ∀ i j : Nat, (A.off SS k k).addr SS i j = A.addr SS (k + i : Nat) (k + j : Nat) := by
    intro i j
    rw [dense_off_addr hd]; push_cast; rfl
  by_cases hc : k < M ∧ k < N
  · rw [if_pos hc]
    have hlp : LuPre SS TR (M - k) (N - k) (A.off SS k k) mem :=
      hp.toLuPre.sub (by omega) (by omega) hd hp.so hoff (fun y hy => h1.isSome hy)
    have hholds : Holds SS mem (A.off SS k k) (M - k) (N - k) (fun i j => a (k + i) (k + j)) := by
      intro i j hi hj
      rw [hoff]; exact h1.holds _ _ (by omega) (by omega)
    refine RunsE.bind (RunsE.bind ((runs_getf2Ptr hlp hholds (fun i => P (k + i))).mono (fun _ _ h => h) ?_)
      (R := fun r mem' => ∃ p s, luRun Arith.div updCol (M - k) (fun i j => a (k + i) (k + j)) (fun i => P (k + i))
        (min M N - k) = some (s, p) ∧ MatIn SS (M - k) (N - k) (A.off SS k k) mem mem' s ∧ r = mergeAt P k p) ?_) ?_
    · rintro e mem' ⟨he, -, hf⟩
      refine ⟨he, fun y hy => ?_⟩
      rw [hf y (fun hc => hy (cells_sub (by omega) (by omega) hoff hc)), h1.frame y hy]
    · rintro p mem1 ⟨s, hs, h2⟩
      rw [show min (M - k) (N - k) = min M N - k by omega] at hs
      exact Or.inl ⟨_, _, rfl, p, s, hs, h2, rfl⟩
    rintro _ mem1 ⟨p, s, hs, h2, rfl⟩
    have hP' := hP.extend (luRun_pivots (min M N - k) (by omega) hs) (by omega)
    rw [show k + (min M N - k) = min M N by omega] at hP'
    generalize addRange (mergeAt P k p) k (min M N) = P' at hP' ⊢
    have h3 := h1.block hp.inj (r0 := k) (c0 := k) (r := M - k) (c := N - k) (by omega) (by omega) hoff h2.holds h2.frame
    refine RunsE.bind (Runs.e (runs_laswp hSS hd h3 hp.inj (B := A) (c0 := 0) (n := k) (k0 := k) (k1 := min M N) (by omega) hd
      (fun i j => by simp) (by omega) (by omega) (fun q _ h2 => (hP'.1 q h2).2))) ?_
    intro _ mem2 h4
    exact Or.inl ⟨_, _, rfl, _, hP', h4⟩
  · rw [if_neg hc]
    have hkm : k = min M N := by omega
    show RunsE (do
      laswp SS k A k (min M N) (addRange P k (min M N))
      pure (addRange P k (min M N))) mem _ _
    have hadd : addRange P k (min M N) = P := by
      funext i; unfold addRange; rw [if_neg (by omega)]
    rw [hadd, ← hkm]
    refine RunsE.bind (Runs.e (runs_laswp hSS hd h1 hp.inj (B := A) (c0 := 0) (n := k) (k0 := k) (k1 := k) (by omega) hd
      (fun i j => by simp) (by omega) (by omega) (fun q h1 h2 => by omega))) ?_
    intro _ mem2 h4
    exact Or.inl ⟨_, _, rfl, _, hP, h4⟩

end Blast
