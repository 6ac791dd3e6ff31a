import Verif.LuRow
/-
Column-major getrf (blocked) computes what the unblocked elimination `luRun` computes, in exact arithmetic.
-/
set_option linter.unusedSectionVars false
namespace Blast
open Finset Prog
variable {V : Type}

theorem exactOps_col [Field V] [Arith V] [ExactField V] : ExactOps (Arith.div : V → V → V) updCol :=
  ⟨fun x y hy => ExactField.div_eq x y hy, fun l u a => by
    unfold updCol gerEntry
    rw [ExactRing.fma_eq, ExactRing.mul_eq, ExactRing.mul_eq, ExactRing.neg_eq, ExactRing.one_eq]; ring⟩

theorem exactOps_row [Field V] [Arith V] [ExactField V] {dv : V → V → V} (h : ∀ x y, y ≠ 0 → dv x y = x / y) :
    ExactOps dv updRow :=
  ⟨h, fun l u a => by
    unfold updRow
    rw [ExactRing.add_eq, ExactRing.mul_eq, ExactRing.mul_eq, ExactRing.neg_eq, ExactRing.one_eq]; ring⟩

section
variable [Arith V]

theorem luRun_none_mono {dv : V → V → V} {upd : V → V → V → V} {m : Nat} {a : Nat → Nat → V} {p : Nat → Nat} {K K' : Nat}
    (h : luRun dv upd m a p K = none) (hK : K ≤ K') : luRun dv upd m a p K' = none := by
  induction K' with
  | zero => rwa [show K = 0 by omega] at h
  | succ K' ih =>
    by_cases he : K = K' + 1
    · rwa [he] at h
    · unfold luRun; rw [ih (by omega)]; rfl

theorem luRun_none_iff {dv : V → V → V} {upd : V → V → V → V} {m : Nat} {a : Nat → Nat → V} {p : Nat → Nat} {K : Nat} :
    luRun dv upd m a p K = none ↔ ∃ k a' p', k < K ∧ luRun dv upd m a p k = some (a', p') ∧ luStep dv upd m k a' p' = none := by
  constructor
  · induction K with
    | zero => intro h; simp [luRun] at h
    | succ K ih =>
      intro h
      cases hr : luRun dv upd m a p K with
      | none =>
        obtain ⟨k, a', p', h1, h2⟩ := ih hr
        exact ⟨k, a', p', by omega, h2⟩
      | some r =>
        refine ⟨K, r.1, r.2, by omega, hr, ?_⟩
        unfold luRun at h; rw [hr] at h; exact h
  · rintro ⟨k, a', p', h1, h2, h3⟩
    refine luRun_none_mono (K := k + 1) ?_ h1
    unfold luRun; rw [h2]; exact h3

/-- Assumptions of column-major getrf on its argument: those of getf2, geometry of the pointer, and readability of
the rows that pad M to a multiple of SS. -/
structure GetrfPre (SS TR M N : Nat) (A : MPtr) (m0 : Mem V) : Prop extends LuPre SS TR M N A m0 where
  wf : A.WF SS
  pad : Readable SS m0 A (roundUp M SS) N

theorem LuPre.sub {SS TR M N : Nat} {A : MPtr} {m0 mem : Mem V} (h : LuPre SS TR M N A m0) {B : MPtr} {k n : Nat}
    (hk : k ≤ M) (hn : k + n ≤ N) (hd : B.panel = false) (hs : B.so = .columnMajor)
    (hB : ∀ i j : Nat, B.addr SS i j = A.addr SS (k + i : Nat) (k + j : Nat))
    (hm : ∀ y, (m0 y).isSome = true → (mem y).isSome = true) : LuPre SS TR (M - k) n B mem := by
  refine ⟨h.ss, h.tr, hd, hs, h.inj.sub (by omega) hn hB, ?_⟩
  intro t i h1 h2 h3
  rw [hB]
  apply hm
  have := h.over (k + t) i (by omega) (by omega) (by rwa [show M - (k + t) - 1 = M - k - t - 1 by omega])
  rwa [show k + (t + 1 + i) = k + t + 1 + i by omega]

end

variable [Field V] [LinearOrder V] [IsStrictOrderedRing V] [Arith V] [ExactOrd V]

theorem roundUp_sub {M k SS : Nat} (hSS : 0 < SS) (hk : k % SS = 0) (h : k ≤ M) : k + roundUp (M - k) SS = roundUp M SS := by
  unfold roundUp
  obtain ⟨q, rfl⟩ := Nat.dvd_of_mod_eq_zero hk
  rw [show M + SS - 1 = (M - SS * q + SS - 1) + SS * q by omega, Nat.add_mul_div_left _ _ hSS, Nat.add_mul]
  rw [Nat.mul_comm q SS]; omega

theorem off_wf {SS : Nat} {A : MPtr} (hd : A.panel = false) (hs : A.so = .columnMajor) (hw : A.WF SS) {i j : Nat}
    (hi : i % SS = 0) : (A.off SS i j).WF SS := by
  obtain ⟨pn, so, al, pd, pt, sp⟩ := A
  simp only at hd hs
  subst hd hs
  intro h
  have := hw h
  refine ⟨?_, this.2⟩
  obtain ⟨h1, h2⟩ := this
  have hi' := cast_mod_zero hi
  simp only [MPtr.off, MPtr.addr]
  have e1 := Int.dvd_of_emod_eq_zero h1
  have e2 := Int.dvd_of_emod_eq_zero h2
  have e3 := Int.dvd_of_emod_eq_zero hi'
  refine Int.emod_eq_zero_of_dvd ?_
  simp only [Bool.false_eq_true, if_false]
  exact dvd_add (dvd_add e1 e3) (dvd_mul_of_dvd_left e2 _)

theorem runs_getrfStep {SS TR M N k : Nat} {A : MPtr} {m0 mem : Mem V} (hp : GetrfPre SS TR M N A m0)
    {a0 a : Nat → Nat → V} {ip P : Nat → Nat} (hk : k % (TR * SS) = 0) (hkM : k + TR * SS < M) (hkN : k + TR * SS < N)
    (hrun : luRun Arith.div updCol M a0 ip k = some (a, P)) (h : MatIn SS M N A m0 mem a) :
    RunsE (getrfStep SS TR M N A k P) mem
      (fun P' mem' => ∃ a', luRun Arith.div updCol M a0 ip (k + TR * SS) = some (a', P') ∧ MatIn SS M N A m0 mem' a')
      (fun e mem' => e = .invalidArgument ∧ luRun Arith.div updCol M a0 ip (k + TR * SS) = none ∧
        ∀ y, ¬ Cells SS A M N y → mem' y = m0 y) := by
  have hSS := hp.ss
  have hd := hp.dense
  have hNB : 0 < TR * SS := Nat.mul_pos hp.tr hp.ss
  have hkS : k % SS = 0 := Nat.mod_eq_zero_of_dvd (Nat.dvd_trans ⟨TR, Nat.mul_comm _ _⟩ (Nat.dvd_of_mod_eq_zero hk))
  have hNS : (TR * SS) % SS = 0 := Nat.mul_mod_left _ _
  have hkNS : (k + TR * SS) % SS = 0 := by rw [Nat.add_mod, hkS, hNS]; simp
  have hpan := fun i j => uoff_addr hSS hd k k i j
  have hoff : ∀ r c i j : Nat, (A.off SS r c).addr SS i j = A.addr SS (r + i : Nat) (c + j : Nat) := by
    intro r c i j
    rw [dense_off_addr hd]; push_cast; rfl
  have hshift := luRun_shift hrun
  have hlp : LuPre SS TR (M - k) (TR * SS) ((A.unal SS).off SS k k) mem :=
    hp.toLuPre.sub (by omega) (by omega) (uoff_dense hSS hd _ _) (by rw [uoff_so hSS]; exact hp.so) hpan (fun y hy => h.isSome hy)
  have hholds : Holds SS mem ((A.unal SS).off SS k k) (M - k) (TR * SS) (fun i j => a (k + i) (k + j)) := by
    intro i j hi hj
    rw [hpan]; exact h.holds _ _ (by omega) (by omega)
  unfold getrfStep
  refine RunsE.bind ((runs_getf2Ptr hlp hholds (fun i => P (k + i))).mono (fun _ _ h => h) ?_) ?_
  · rintro e mem' ⟨he, ⟨t, s, p, ht, h1, h2⟩, hf⟩
    refine ⟨he, ?_, fun y hy => ?_⟩
    · refine luRun_none_mono (K := k + (t + 1)) ?_ (by omega)
      rw [hshift]
      unfold luRun; rw [h1, Option.bind_some, h2]; rfl
    · rw [hf y (fun hc => hy ?_), h.frame y hy]
      obtain ⟨i, j, hi, hj, rfl⟩ := hc
      exact ⟨k + i, k + j, by omega, by omega, hpan i j⟩
  rintro p mem1 ⟨s, hs, h1⟩
  rw [show min (M - k) (TR * SS) = TR * SS by omega] at hs
  have hsp := luRun_spec exactOps_col (TR * SS) (by omega) hs
  obtain ⟨hlu, hpb, -, -⟩ := hsp
  have hres := hshift (TR * SS)
  rw [hs] at hres
  simp only [Option.map_some] at hres
  generalize hP' : addRange (mergeAt P k p) k (k + TR * SS) = P' at hres ⊢
  have hP'q : ∀ q, q < TR * SS → P' (k + q) = p q + k := by
    intro q hq
    rw [← hP']; unfold addRange mergeAt
    rw [if_pos (by omega), if_neg (by omega), show k + q - k = q by omega]
  have hperm : ∀ i, rowPerm P' k (TR * SS) (k + i) = k + rowPerm p 0 (TR * SS) i := fun i => rowPerm_shift hP'q
  have hpermlt : ∀ i, i < k → rowPerm P' k (TR * SS) i = i := fun i hi => rowPerm_lt (fun q h1 h2 => by
    have := hP'q (q - k) (by omega)
    rw [show k + (q - k) = q by omega] at this
    omega) hi
  have hPM : ∀ q, k ≤ q → q < k + TR * SS → P' q < M := by
    intro q hq1 hq2
    have := hP'q (q - k) (by omega)
    rw [show k + (q - k) = q by omega] at this
    have := hpb (q - k) (by omega)
    omega
  have hpermb : ∀ i, i < M - k → rowPerm p 0 (TR * SS) i < M - k := fun i hi =>
    (rowPerm_bounds (fun q _ hq => ⟨by omega, (hpb q (by omega)).2⟩) (by omega) ⟨by omega, hi⟩).2
  -- after the panel
  have h2 := h.block hp.inj (r0 := k) (c0 := k) (r := M - k) (c := TR * SS) (by omega) (by omega) hpan h1.holds h1.frame
  -- interchanges on the left
  refine RunsE.bind (Runs.e (runs_laswp hSS hd h2 hp.inj (B := A) (c0 := 0) (n := k) (k0 := k) (k1 := k + TR * SS) (by omega) hd
    (fun i j => by simp) (by omega) (by omega) hPM)) ?_
  intro _ mem2 h3
  -- interchanges on the right
  refine RunsE.bind (Runs.e (runs_laswp hSS hd h3 hp.inj (B := A.off SS 0 (k + TR * SS : Nat)) (c0 := k + TR * SS)
    (n := N - k - TR * SS) (k0 := k) (k1 := k + TR * SS) (by omega) hd
    (fun i j => by rw [dense_off_addr hd, Int.zero_add]) (by omega) (by omega) hPM)) ?_
  intro _ mem3 h4
  rw [show k + TR * SS - k = TR * SS by omega] at h4
  -- the state now
  have h5 : MatIn SS M N A m0 mem3 (fun i j =>
      if i < k then a i j else if j < k then a (k + rowPerm p 0 (TR * SS) (i - k)) j
      else if j < k + TR * SS then s (i - k) (j - k)
      else rowSwaps p 0 (TR * SS) (fun i j => a (k + i) (k + j)) (i - k) (j - k)) := by
    refine h4.congr (fun i j hi hj => ?_)
    simp only [rowSwaps_eq]
    by_cases hik : i < k
    · simp only [hpermlt i hik]
      rw [if_pos hik]
      split_ifs <;> first | rfl | omega
    · rw [if_neg hik]
      obtain ⟨i', rfl⟩ : ∃ i', i = k + i' := ⟨i - k, by omega⟩
      simp only [hperm]
      rw [show k + i' - k = i' by omega]
      by_cases hj1 : j < k
      · rw [if_pos hj1, if_neg (by omega), if_pos (by omega), if_neg (by omega)]
      · rw [if_neg hj1]
        by_cases hj2 : j < k + TR * SS
        · rw [if_pos hj2, if_neg (by omega), if_neg (by omega), if_pos (by omega)]
        · rw [if_neg hj2, if_pos (by omega), if_neg (by omega), if_neg (by omega), show k + (j - k) = j by omega]
  -- trsm
  have hA11 := hoff k k
  have hX := hoff k (k + TR * SS)
  have hXcells : ∀ i j : Nat, i < M → j < N → ¬ (k ≤ i ∧ i < k + TR * SS ∧ k + TR * SS ≤ j) →
      ¬ Cells SS (A.off SS k (k + TR * SS : Nat)) (TR * SS) (N - k - TR * SS) (A.addr SS i j) := by
    rintro i j hi hj hne ⟨i', j', hi', hj', e⟩
    rw [hX] at e
    have := hp.inj _ _ _ _ hi hj (by omega) (by omega) e
    omega
  refine RunsE.bind (Q := fun _ mem' => MatIn SS M N A m0 mem' (fun i j =>
      if i < k then a i j else if j < k then a (k + rowPerm p 0 (TR * SS) (i - k)) j
      else if j < k + TR * SS ∨ i < k + TR * SS then s (i - k) (j - k)
      else rowSwaps p 0 (TR * SS) (fun i j => a (k + i) (k + j)) (i - k) (j - k))) (Runs.e ?_) ?_
  · rw [Runs, C27_trsm_size_check]
    rw [if_pos ⟨⟨rfl, rfl⟩, rfl, rfl⟩]
    obtain ⟨mem', x, e1, e2, e3, e4⟩ := C27_trsm_solves (SS := SS) (m := TR * SS) (n := N - k - TR * SS)
      (A := A.off SS k k) (X := A.off SS k (k + TR * SS : Nat)) (B := A.off SS k (k + TR * SS : Nat)) .lower true
      (mem := mem3) (a := s) (b := fun i j => rowSwaps p 0 (TR * SS) (fun i j => a (k + i) (k + j)) i (TR * SS + j))
      (by
        intro i q hi hq hr
        rw [hA11]
        refine ⟨?_, hXcells _ _ (by omega) (by omega) (by omega)⟩
        rw [h5.holds _ _ (by omega) (by omega)]
        beta_reduce
        rw [if_neg (by omega), if_neg (by omega), if_pos (by omega),
          show k + i - k = i by omega, show k + q - k = q by omega])
      (by simp)
      (by
        intro i j hi hj
        rw [hX, h5.holds _ _ (by omega) (by omega)]; rfl)
      (hp.inj.sub (by omega) (by omega) hX)
      (by
        intro i j hi hj
        rw [hX, h5.holds _ _ (by omega) (by omega)]
        beta_reduce
        rw [if_neg (by omega), if_neg (by omega), if_neg (by omega),
          show k + i - k = i by omega, show k + TR * SS + j - k = TR * SS + j by omega])
      (hp.inj.sub (by omega) (by omega) hX)
    refine ⟨(), mem', e1, ?_⟩
    refine (h5.block hp.inj (r0 := k) (c0 := k + TR * SS) (r := TR * SS) (c := N - k - TR * SS) (by omega) (by omega) hX e2 e4).congr
      (fun i j hi hj => ?_)
    have hx : ∀ i j, i < TR * SS → j < N - k - TR * SS → x i j = s i (TR * SS + j) := by
      intro i j hi hj
      refine C27_trsm_unique (m := TR * SS) .lower true (a := s) (by simp) (x := fun i => x i j) (y := fun i => s i (TR * SS + j)) ?_ i hi
      intro i hi
      rw [e3 i j hi hj, hlu.eq i _ (by omega), if_neg (by omega), add_zero]
      refine sum_congr rfl (fun q hq => ?_)
      have hq := mem_range.1 hq
      rw [tri_eq_upper, if_pos (by omega)]
    by_cases hi1 : k ≤ i ∧ i < k + TR * SS ∧ k + TR * SS ≤ j ∧ j < k + TR * SS + (N - k - TR * SS)
    · rw [if_pos hi1, if_neg (by omega), if_neg (by omega), if_pos (by omega), hx _ _ (by omega) (by omega),
        show TR * SS + (j - (k + TR * SS)) = j - k by omega]
    · rw [if_neg hi1]
      by_cases h1 : i < k
      · rw [if_pos h1, if_pos h1]
      · rw [if_neg h1, if_neg h1]
        by_cases h2 : j < k
        · rw [if_pos h2, if_pos h2]
        · rw [if_neg h2, if_neg h2]
          by_cases h3 : j < k + TR * SS
          · rw [if_pos h3, if_pos (Or.inl h3)]
          · rw [if_neg h3, if_neg (by omega)]
  intro _ mem4 h6
  -- gemm
  have hA21 := hoff (k + TR * SS) k
  have hC := hoff (k + TR * SS) (k + TR * SS)
  refine RunsE.bind (Q := fun _ mem' => MatIn SS M N A m0 mem' (embed k (TR * SS) a s p)) (Runs.e ?_) ?_
  · have hpad : ∀ i j : Nat, i < roundUp M SS → j < N → (mem4 (A.addr SS i j)).isSome = true :=
      fun i j hi hj => h6.isSome (hp.pad i j hi hj)
    have hru := roundUp_sub hSS hkNS (show k + TR * SS ≤ M by omega)
    have hle := self_le_roundUp (n := M) hSS
    have hgp : GemmPre SS (M - k - TR * SS) (N - k - TR * SS) (TR * SS) (A.off SS (k + TR * SS : Nat) k)
        (A.off SS k (k + TR * SS : Nat)) (A.off SS (k + TR * SS : Nat) (k + TR * SS : Nat))
        (A.off SS (k + TR * SS : Nat) (k + TR * SS : Nat)) mem4 := by
      rw [show M - (k + TR * SS) = M - k - TR * SS by omega] at hru
      refine ⟨hSS, off_wf hd hp.so hp.wf hkNS, off_wf hd hp.so hp.wf hkS, off_wf hd hp.so hp.wf hkNS,
        off_wf hd hp.so hp.wf hkNS, hp.so, hp.so, hp.so, ?_, ?_, ?_, ?_, hp.inj.sub (by omega) (by omega) hC, ?_, ?_,
        hp.inj.sub (by omega) (by omega) hC⟩
      · intro i j hi hj; rw [hA21]; exact hpad _ _ (by omega) (by omega)
      · intro i j hi hj; rw [hX]; exact hpad _ _ (by omega) (by omega)
      · intro i j hi hj; rw [hC]; exact hpad _ _ (by omega) (by omega)
      · intro i j hi hj; rw [hC]; exact hpad _ _ (by omega) (by omega)
      · intro i j i' j' hi hj hi' hj' e
        rw [hA21, hC] at e
        have := hp.inj _ _ _ _ (by omega) (by omega) (by omega) (by omega) e
        omega
      · intro i j i' j' hi hj hi' hj' e
        rw [hX, hC] at e
        have := hp.inj _ _ _ _ (by omega) (by omega) (by omega) (by omega) e
        omega
    obtain ⟨mem', e1, e2, e3⟩ := gemmPtr_correct (alpha := Arith.neg Arith.one) (beta := Arith.one) hgp
    refine ⟨(), mem', e1, ?_⟩
    refine (h6.block hp.inj (r0 := k + TR * SS) (c0 := k + TR * SS) (r := M - k - TR * SS) (c := N - k - TR * SS)
      (by omega) (by omega) hC e2 e3).congr (fun i j hi hj => ?_)
    have hval : ∀ i j : Nat, i < M → j < N → val mem4 (A.addr SS i j) = _ := fun i j hi hj => h6.holds.val hi hj
    unfold embed
    by_cases hi1 : k + TR * SS ≤ i ∧ i < k + TR * SS + (M - k - TR * SS) ∧ k + TR * SS ≤ j ∧ j < k + TR * SS + (N - k - TR * SS)
    · rw [if_pos hi1, if_neg (by omega), if_neg (by omega)]
      unfold gemmEntry
      rw [ExactRing.fma_eq, ExactRing.mul_eq, fmaSum_eq, ExactRing.zero_eq, ExactRing.neg_eq, ExactRing.one_eq]
      rw [hC, show k + TR * SS + (i - (k + TR * SS)) = i by omega, show k + TR * SS + (j - (k + TR * SS)) = j by omega,
        hval i j hi hj, if_neg (by omega), if_neg (by omega), if_neg (by omega), hlu.eq _ _ (by omega), if_pos (by omega)]
      have : ∑ q ∈ range (TR * SS), val mem4 ((A.off SS (k + TR * SS : Nat) k).addr SS (i - (k + TR * SS) : Nat) q) *
          val mem4 ((A.off SS k (k + TR * SS : Nat)).addr SS q (j - (k + TR * SS) : Nat)) =
          ∑ q ∈ range (TR * SS), tri .lower true s (i - k) q * tri .upper false s q (j - k) := by
        refine sum_congr rfl (fun q hq => ?_)
        have hq := mem_range.1 hq
        have e1 : val mem4 (A.addr SS i (k + q : Nat)) = s (i - k) q := by
          rw [hval i _ hi (by omega), if_neg (by omega), if_neg (by omega), if_pos (by omega), show k + q - k = q by omega]
        have e2 : val mem4 (A.addr SS (k + q : Nat) j) = s q (j - k) := by
          rw [hval _ j (by omega) hj, if_neg (by omega), if_neg (by omega), if_pos (by omega), show k + q - k = q by omega]
        rw [hA21, hX, show k + TR * SS + (i - (k + TR * SS)) = i by omega, show k + TR * SS + (j - (k + TR * SS)) = j by omega,
          e1, e2, tri_eq_lower, tri_eq_upper, if_neg (by omega), if_pos (by omega), if_pos (by omega)]
      rw [this]
      ring
    · rw [if_neg hi1]
      by_cases h1 : i < k
      · rw [if_pos h1, if_pos h1]
      · rw [if_neg h1, if_neg h1]
        by_cases h2 : j < k
        · rw [if_pos h2, if_pos h2]
        · rw [if_neg h2, if_neg h2, if_pos (by omega)]
  intro _ mem5 h7
  exact Or.inl ⟨_, _, rfl, _, hres, h7⟩

/-- Column-major getrf does what `min M N` unblocked elimination steps do. -/
theorem runs_getrfPtr {SS TR M N : Nat} {A : MPtr} {m0 : Mem V} (hp : GetrfPre SS TR M N A m0)
    {a0 : Nat → Nat → V} (ip : Nat → Nat) (h : Holds SS m0 A M N a0) :
    RunsE (getrfPtr SS TR M N A ip) m0
      (fun P mem' => ∃ a, luRun Arith.div updCol M a0 ip (min M N) = some (a, P) ∧ MatIn SS M N A m0 mem' a)
      (fun e mem' => e = .invalidArgument ∧ luRun Arith.div updCol M a0 ip (min M N) = none ∧
        ∀ y, ¬ Cells SS A M N y → mem' y = m0 y) := by
  have hSS := hp.ss
  have hd := hp.dense
  have hNB : 0 < TR * SS := Nat.mul_pos hp.tr hp.ss
  unfold getrfPtr
  refine RunsE.bind (runsE_loopS (fun k P mem => k % (TR * SS) = 0 ∧ k ≤ M ∧ k ≤ N ∧
      ∃ a, luRun Arith.div updCol M a0 ip k = some (a, P) ∧ MatIn SS M N A m0 mem a) M hNB
      (fun k hc => by simp at hc; omega) (by omega) (by omega) ⟨Nat.zero_mod _, by omega, by omega, a0, rfl, MatIn.of_holds h⟩ ?_) ?_
  · rintro k P mem hc ⟨h1, h2, h3, a, h4, h5⟩
    simp only [Bool.and_eq_true, decide_eq_true_eq] at hc
    refine (runs_getrfStep hp h1 hc.1 hc.2 h4 h5).mono ?_ (fun _ _ h => ⟨h.1, luRun_none_mono h.2.1 (by omega), h.2.2⟩)
    rintro P' mem' ⟨a', e1, e2⟩
    exact ⟨by rw [Nat.add_mod_right]; exact h1, by omega, by omega, a', e1, e2⟩
  rintro ⟨k, P⟩ mem ⟨-, hk0, hkM, hkN, a, hrun, h1⟩
  simp only at hkM hkN hrun ⊢
  have hoff : ∀ i j : Nat, (A.off SS k k).addr SS i j = A.addr SS (k + i : Nat) (k + j : Nat) := by
    intro i j
    rw [dense_off_addr hd]; push_cast; rfl
  by_cases hc : k < M ∧ k < N
  · rw [if_pos hc]
    have hlp : LuPre SS TR (M - k) (N - k) (A.off SS k k) mem :=
      hp.toLuPre.sub (by omega) (by omega) hd hp.so hoff (fun y hy => h1.isSome hy)
    have hholds : Holds SS mem (A.off SS k k) (M - k) (N - k) (fun i j => a (k + i) (k + j)) := by
      intro i j hi hj
      rw [hoff]; exact h1.holds _ _ (by omega) (by omega)
    have hshift := luRun_shift hrun
    refine RunsE.bind (RunsE.bind ((runs_getf2Ptr hlp hholds (fun i => P (k + i))).mono (fun _ _ h => h) ?_)
      (R := fun r mem' => ∃ p s, luRun Arith.div updCol (M - k) (fun i j => a (k + i) (k + j)) (fun i => P (k + i))
        (min M N - k) = some (s, p) ∧ MatIn SS (M - k) (N - k) (A.off SS k k) mem mem' s ∧ r = mergeAt P k p) ?_) ?_
    · rintro e mem' ⟨he, ⟨t, s, p, ht, h2, h3⟩, hf⟩
      refine ⟨he, ?_, fun y hy => ?_⟩
      · refine luRun_none_mono (K := k + (t + 1)) ?_ (by omega)
        rw [hshift]
        unfold luRun; rw [h2, Option.bind_some, h3]; rfl
      · rw [hf y (fun hc => hy ?_), h1.frame y hy]
        obtain ⟨i, j, hi, hj, rfl⟩ := hc
        exact ⟨k + i, k + j, by omega, by omega, hoff i j⟩
    · rintro p mem1 ⟨s, hs, h2⟩
      rw [show min (M - k) (N - k) = min M N - k by omega] at hs
      exact Or.inl ⟨_, _, rfl, p, s, hs, h2, rfl⟩
    rintro _ mem1 ⟨p, s, hs, h2, rfl⟩
    obtain ⟨hlu, hpb, -, -⟩ := luRun_spec exactOps_col (min M N - k) (by omega) hs
    have hres := hshift (min M N - k)
    rw [hs, show k + (min M N - k) = min M N by omega] at hres
    simp only [Option.map_some] at hres
    generalize hP' : addRange (mergeAt P k p) k (min M N) = P' at hres ⊢
    have hP'q : ∀ q, q < min M N - k → P' (k + q) = p q + k := by
      intro q hq
      rw [← hP']; unfold addRange mergeAt
      rw [if_pos (by omega), if_neg (by omega), show k + q - k = q by omega]
    have hPM : ∀ q, k ≤ q → q < min M N → P' q < M := by
      intro q hq1 hq2
      have := hP'q (q - k) (by omega)
      rw [show k + (q - k) = q by omega] at this
      have := hpb (q - k) (by omega)
      omega
    have h3 := h1.block hp.inj (r0 := k) (c0 := k) (r := M - k) (c := N - k) (by omega) (by omega) hoff h2.holds h2.frame
    refine RunsE.bind (Runs.e (runs_laswp hSS hd h3 hp.inj (B := A) (c0 := 0) (n := k) (k0 := k) (k1 := min M N) (by omega) hd
      (fun i j => by simp) (by omega) (by omega) hPM)) ?_
    intro _ mem2 h4
    refine Or.inl ⟨_, _, rfl, _, hres, h4.congr (fun i j hi hj => ?_)⟩
    simp only [rowSwaps_eq]
    unfold embed
    by_cases hik : i < k
    · rw [rowPerm_lt (fun q hq1 hq2 => by
        have := hP'q (q - k) (by omega)
        rw [show k + (q - k) = q by omega] at this
        omega) hik]
      rw [if_pos hik]
      split_ifs <;> first | rfl | omega
    · rw [if_neg hik]
      obtain ⟨i', rfl⟩ : ∃ i', i = k + i' := ⟨i - k, by omega⟩
      rw [rowPerm_shift hP'q, show k + i' - k = i' by omega]
      by_cases hj1 : j < k
      · rw [if_pos hj1, if_pos (by omega), if_neg (by omega)]
      · rw [if_neg hj1, if_neg (by omega), if_pos (by omega)]
  · rw [if_neg hc]
    have hkm : k = min M N := by omega
    show RunsE (do
      laswp SS k A k (min M N) (addRange P k (min M N))
      pure (addRange P k (min M N))) mem _ _
    have hadd : addRange P k (min M N) = P := by
      funext i; unfold addRange; rw [if_neg (by omega)]
    rw [hadd, ← hkm]
    refine RunsE.bind (Runs.e (runs_laswp hSS hd h1 hp.inj (B := A) (c0 := 0) (n := k) (k0 := k) (k1 := k) (by omega) hd
      (fun i j => by simp) (by omega) (by omega) (fun q h1 h2 => by omega))) ?_
    intro _ mem2 h4
    refine Or.inl ⟨_, _, rfl, _, hrun, h4.congr (fun i j hi hj => ?_)⟩
    rw [Nat.sub_self]
    show (if _ then a i j else a i j) = _
    rw [ite_self]

end Blast
