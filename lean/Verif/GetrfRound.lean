import Verif.LuRound
/-
Column-major blocked getrf in rounded arithmetic.
-/
set_option linter.unusedSectionVars false
namespace Blast
open Finset Prog
variable {V : Type} [Field V] [LinearOrder V] [IsStrictOrderedRing V] [Arith V] {u : V} [hR : Rounded u]

theorem runs_getrfStep_near {SS TR M N k : Nat} {A : MPtr} {m0 mem : Mem V} (hp : GetrfPre SS TR M N A m0)
    {ρ μ : V} (hρ : 2 * (1 + u) ^ (TR * SS + 3) ≤ ρ)
    {a0 a : Nat → Nat → V} {ip P : Nat → Nat} (hk : k % (TR * SS) = 0) (hkM : k + TR * SS < M) (hkN : k + TR * SS < N)
    (hst : LuState u (1 + u) ρ μ M N k a0 ip a P) (h : MatIn SS M N A m0 mem a) :
    RunsE (getrfStep SS TR M N A k P) mem
      (fun P' mem' => ∃ a', LuState u (1 + u) ρ μ M N (k + TR * SS) a0 ip a' P' ∧ MatIn SS M N A m0 mem' a')
      (fun e mem' => e = .invalidArgument ∧ LuStuck u (1 + u) ρ μ M N a0 ip ∧ ∀ y, ¬ Cells SS A M N y → mem' y = m0 y) := by
  have hu := hR.u_nonneg
  have hρ3 : 2 * (1 + u) ^ 3 ≤ ρ := by
    have : (1 + u) ^ 3 ≤ (1 + u) ^ (TR * SS + 3) := pow_le_pow_right₀ (by linarith) (by omega)
    linarith
  have hρ1 : 1 ≤ ρ := by
    have : (1 : V) ≤ (1 + u) ^ 3 := one_le_pow₀ (by linarith)
    linarith
  have hSS := hp.ss
  have hd := hp.dense
  have hNB : 0 < TR * SS := Nat.mul_pos hp.tr hp.ss
  have hkS : k % SS = 0 := Nat.mod_eq_zero_of_dvd (Nat.dvd_trans ⟨TR, Nat.mul_comm _ _⟩ (Nat.dvd_of_mod_eq_zero hk))
  have hNS : (TR * SS) % SS = 0 := Nat.mul_mod_left _ _
  have hkNS : (k + TR * SS) % SS = 0 := by rw [Nat.add_mod, hkS, hNS]; simp
  have hpan := fun i j => uoff_addr hSS hd k k i j
  have hoff : ∀ r c i j : Nat, (A.off SS r c).addr SS i j = A.addr SS (r + i : Nat) (c + j : Nat) := by
    intro r c i j
    rw [dense_off_addr hd]; push_cast; rfl
  have hlp : LuPre SS TR (M - k) (TR * SS) ((A.unal SS).off SS k k) mem :=
    hp.toLuPre.sub (by omega) (by omega) (uoff_dense hSS hd _ _) (by rw [uoff_so hSS]; exact hp.so) hpan (fun y hy => h.isSome hy)
  have hholds : Holds SS mem ((A.unal SS).off SS k k) (M - k) (TR * SS) (fun i j => a (k + i) (k + j)) := by
    intro i j hi hj
    rw [hpan]; exact h.holds _ _ (by omega) (by omega)
  unfold getrfStep
  refine RunsE.bind ((runs_getf2Ptr hlp hholds (fun i => P (k + i))).mono (fun _ _ h => h) ?_) ?_
  · rintro e mem' ⟨he, ⟨K, s, p, hK, f1, f2⟩, hf⟩
    refine ⟨he, hst.stuck hρ1 (nearOps_col hρ3) (by omega) f1 f2, fun y hy => ?_⟩
    rw [hf y (fun hc => hy ?_), h.frame y hy]
    obtain ⟨i, j, hi, hj, rfl⟩ := hc
    exact ⟨k + i, k + j, by omega, by omega, hpan i j⟩
  rintro p mem1 ⟨s, hs, h1⟩
  rw [show min (M - k) (TR * SS) = TR * SS by omega] at hs
  have hsp := luRun_near (u := u) (n := N - k) (nearOps_col hρ3) hρ1 (TR * SS) (by omega) hs
  obtain ⟨hlu, hpb, hpr, hmul, hgr⟩ := hsp
  generalize hP' : addRange (mergeAt P k p) k (k + TR * SS) = P'
  have hP'q : ∀ q, q < TR * SS → P' (k + q) = p q + k := by
    intro q hq
    rw [← hP']; unfold addRange mergeAt
    rw [if_pos (by omega), if_neg (by omega), show k + q - k = q by omega]
  have hperm : ∀ i, rowPerm P' k (TR * SS) (k + i) = k + rowPerm p 0 (TR * SS) i := fun i => rowPerm_shift hP'q
  have hpermlt : ∀ i, i < k → rowPerm P' k (TR * SS) i = i := fun i hi => rowPerm_lt (fun q h1 h2 => by
    have := hP'q (q - k) (by omega)
    rw [show k + (q - k) = q by omega] at this
    omega) hi
  have hPM : ∀ q, k ≤ q → q < k + TR * SS → P' q < M := by
    intro q hq1 hq2
    have := hP'q (q - k) (by omega)
    rw [show k + (q - k) = q by omega] at this
    have := hpb (q - k) (by omega)
    omega
  -- after the panel
  have h2 := h.block hp.inj (r0 := k) (c0 := k) (r := M - k) (c := TR * SS) (by omega) (by omega) hpan h1.holds h1.frame
  -- interchanges on the left
  refine RunsE.bind (Runs.e (runs_laswp hSS hd h2 hp.inj (B := A) (c0 := 0) (n := k) (k0 := k) (k1 := k + TR * SS) (by omega) hd
    (fun i j => by simp) (by omega) (by omega) hPM)) ?_
  intro _ mem2 h3
  -- interchanges on the right
  refine RunsE.bind (Runs.e (runs_laswp hSS hd h3 hp.inj (B := A.off SS 0 (k + TR * SS : Nat)) (c0 := k + TR * SS)
    (n := N - k - TR * SS) (k0 := k) (k1 := k + TR * SS) (by omega) hd
    (fun i j => by rw [dense_off_addr hd, Int.zero_add]) (by omega) (by omega) hPM)) ?_
  intro _ mem3 h4
  rw [show k + TR * SS - k = TR * SS by omega] at h4
  -- the state now
  have h5 : MatIn SS M N A m0 mem3 (fun i j =>
      if i < k then a i j else if j < k then a (k + rowPerm p 0 (TR * SS) (i - k)) j
      else if j < k + TR * SS then s (i - k) (j - k)
      else rowSwaps p 0 (TR * SS) (fun i j => a (k + i) (k + j)) (i - k) (j - k)) := by
    refine h4.congr (fun i j hi hj => ?_)
    simp only [rowSwaps_eq]
    by_cases hik : i < k
    · simp only [hpermlt i hik]
      rw [if_pos hik]
      split_ifs <;> first | rfl | omega
    · rw [if_neg hik]
      obtain ⟨i', rfl⟩ : ∃ i', i = k + i' := ⟨i - k, by omega⟩
      simp only [hperm]
      rw [show k + i' - k = i' by omega]
      by_cases hj1 : j < k
      · rw [if_pos hj1, if_neg (by omega), if_pos (by omega), if_neg (by omega)]
      · rw [if_neg hj1]
        by_cases hj2 : j < k + TR * SS
        · rw [if_pos hj2, if_neg (by omega), if_neg (by omega), if_pos (by omega)]
        · rw [if_neg hj2, if_pos (by omega), if_neg (by omega), if_neg (by omega), show k + (j - k) = j by omega]
  -- trsm
  have hA11 := hoff k k
  have hX := hoff k (k + TR * SS)
  have hXcells : ∀ i j : Nat, i < M → j < N → ¬ (k ≤ i ∧ i < k + TR * SS ∧ k + TR * SS ≤ j) →
      ¬ Cells SS (A.off SS k (k + TR * SS : Nat)) (TR * SS) (N - k - TR * SS) (A.addr SS i j) := by
    rintro i j hi hj hne ⟨i', j', hi', hj', e⟩
    rw [hX] at e
    have := hp.inj _ _ _ _ hi hj (by omega) (by omega) e
    omega
  refine RunsE.bind (Q := fun _ mem' => ∃ x : Nat → Nat → V,
      (∀ i j, i < TR * SS → j < N - k - TR * SS → |rowSwaps p 0 (TR * SS) (fun i j => a (k + i) (k + j)) i (TR * SS + j) -
        ∑ q ∈ range (TR * SS), tri .lower true s i q * x q j| ≤
        ((1 / (1 - u)) ^ (TR * SS) - 1) * ∑ q ∈ range (TR * SS), |tri .lower true s i q| * |x q j|) ∧
      (∀ i j, i < TR * SS → j < N - k - TR * SS → x i j = subFold (fun q => Arith.mul (s i q) (x q j))
        (rowSwaps p 0 (TR * SS) (fun i j => a (k + i) (k + j)) i (TR * SS + j)) 0 i) ∧
      MatIn SS M N A m0 mem' (fun i j =>
      if i < k then a i j else if j < k then a (k + rowPerm p 0 (TR * SS) (i - k)) j
      else if j < k + TR * SS then s (i - k) (j - k) else if i < k + TR * SS then x (i - k) (j - k - TR * SS)
      else rowSwaps p 0 (TR * SS) (fun i j => a (k + i) (k + j)) (i - k) (j - k))) (Runs.e ?_) ?_
  · rw [Runs, C27_trsm_size_check]
    rw [if_pos ⟨⟨rfl, rfl⟩, rfl, rfl⟩]
    have g1 : TriArg SS mem3 (A.off SS k k) (TR * SS) .lower true s (A.off SS k (k + TR * SS : Nat)) (TR * SS) (N - k - TR * SS) := by
      intro i q hi hq hr
      rw [hA11]
      refine ⟨?_, hXcells _ _ (by omega) (by omega) (by omega)⟩
      rw [h5.holds _ _ (by omega) (by omega)]
      beta_reduce
      rw [if_neg (by omega), if_neg (by omega), if_pos (by omega),
        show k + i - k = i by omega, show k + q - k = q by omega]
    have g2 : Readable SS mem3 (A.off SS k (k + TR * SS : Nat)) (TR * SS) (N - k - TR * SS) := by
      intro i j hi hj
      rw [hX, h5.holds _ _ (by omega) (by omega)]; rfl
    have g3 := hp.inj.sub (r := TR * SS) (c := N - k - TR * SS) (by omega) (by omega) hX
    have g4 : Holds SS mem3 (A.off SS k (k + TR * SS : Nat)) (TR * SS) (N - k - TR * SS)
        (fun i j => rowSwaps p 0 (TR * SS) (fun i j => a (k + i) (k + j)) i (TR * SS + j)) := by
      intro i j hi hj
      rw [hX, h5.holds _ _ (by omega) (by omega)]
      beta_reduce
      rw [if_neg (by omega), if_neg (by omega), if_neg (by omega),
        show k + i - k = i by omega, show k + TR * SS + j - k = TR * SS + j by omega]
    obtain ⟨mem', x, e1, e2, e3, e4⟩ := C57_trsm_residual (u := u) .lower true g1 (by simp) g2 g3 g4 g3
    have e5 := trsm_lower_unit_values g1 g2 g3 g4 g3 e1 e2
    refine ⟨(), mem', e1, x, e3, e5, ?_⟩
    refine (h5.block hp.inj (r0 := k) (c0 := k + TR * SS) (r := TR * SS) (c := N - k - TR * SS) (by omega) (by omega) hX e2 e4).congr
      (fun i j hi hj => ?_)
    by_cases hi1 : k ≤ i ∧ i < k + TR * SS ∧ k + TR * SS ≤ j ∧ j < k + TR * SS + (N - k - TR * SS)
    · rw [if_pos hi1, if_neg (by omega), if_neg (by omega), if_neg (by omega), if_pos (by omega),
        show j - (k + TR * SS) = j - k - TR * SS by omega]
    · rw [if_neg hi1]
      by_cases h1 : i < k
      · rw [if_pos h1, if_pos h1]
      · rw [if_neg h1, if_neg h1]
        by_cases h2 : j < k
        · rw [if_pos h2, if_pos h2]
        · rw [if_neg h2, if_neg h2]
          by_cases h3 : j < k + TR * SS
          · rw [if_pos h3, if_pos h3]
          · rw [if_neg h3, if_neg h3, if_neg (by omega)]
  rintro _ mem4 ⟨x, hx, hxr, h6⟩
  -- gemm
  have hA21 := hoff (k + TR * SS) k
  have hC := hoff (k + TR * SS) (k + TR * SS)
  refine RunsE.bind (Q := fun _ mem' => MatIn SS M N A m0 mem' (fun i j =>
      if i < k then a i j else if j < k then a (k + rowPerm p 0 (TR * SS) (i - k)) j
      else (fun i j => if j < TR * SS then s i j else if i < TR * SS then x i (j - TR * SS) else
      gemmEntry (Arith.neg Arith.one) Arith.one (fun q => s i q) (fun q => x q (j - TR * SS))
        (rowSwaps p 0 (TR * SS) (fun i j => a (k + i) (k + j)) i j) (TR * SS)) (i - k) (j - k))) (Runs.e ?_) ?_
  · have hpad : ∀ i j : Nat, i < roundUp M SS → j < N → (mem4 (A.addr SS i j)).isSome = true :=
      fun i j hi hj => h6.isSome (hp.pad i j hi hj)
    have hru := roundUp_sub hSS hkNS (show k + TR * SS ≤ M by omega)
    have hle := self_le_roundUp (n := M) hSS
    have hgp : GemmPre SS (M - k - TR * SS) (N - k - TR * SS) (TR * SS) (A.off SS (k + TR * SS : Nat) k)
        (A.off SS k (k + TR * SS : Nat)) (A.off SS (k + TR * SS : Nat) (k + TR * SS : Nat))
        (A.off SS (k + TR * SS : Nat) (k + TR * SS : Nat)) mem4 := by
      rw [show M - (k + TR * SS) = M - k - TR * SS by omega] at hru
      refine ⟨hSS, off_wf hd hp.so hp.wf hkNS, off_wf hd hp.so hp.wf hkS, off_wf hd hp.so hp.wf hkNS,
        off_wf hd hp.so hp.wf hkNS, hp.so, hp.so, hp.so, ?_, ?_, ?_, ?_, hp.inj.sub (by omega) (by omega) hC, ?_, ?_,
        hp.inj.sub (by omega) (by omega) hC⟩
      · intro i j hi hj; rw [hA21]; exact hpad _ _ (by omega) (by omega)
      · intro i j hi hj; rw [hX]; exact hpad _ _ (by omega) (by omega)
      · intro i j hi hj; rw [hC]; exact hpad _ _ (by omega) (by omega)
      · intro i j hi hj; rw [hC]; exact hpad _ _ (by omega) (by omega)
      · intro i j i' j' hi hj hi' hj' e
        rw [hA21, hC] at e
        have := hp.inj _ _ _ _ (by omega) (by omega) (by omega) (by omega) e
        omega
      · intro i j i' j' hi hj hi' hj' e
        rw [hX, hC] at e
        have := hp.inj _ _ _ _ (by omega) (by omega) (by omega) (by omega) e
        omega
    obtain ⟨mem', e1, e2, e3⟩ := gemmPtr_correct (alpha := Arith.neg Arith.one) (beta := Arith.one) hgp
    refine ⟨(), mem', e1, ?_⟩
    refine (h6.block hp.inj (r0 := k + TR * SS) (c0 := k + TR * SS) (r := M - k - TR * SS) (c := N - k - TR * SS)
      (by omega) (by omega) hC e2 e3).congr (fun i j hi hj => ?_)
    have hval : ∀ i j : Nat, i < M → j < N → val mem4 (A.addr SS i j) = _ := fun i j hi hj => h6.holds.val hi hj
    by_cases hi1 : k + TR * SS ≤ i ∧ i < k + TR * SS + (M - k - TR * SS) ∧ k + TR * SS ≤ j ∧ j < k + TR * SS + (N - k - TR * SS)
    · rw [if_pos hi1, if_neg (show ¬ i < k by omega), if_neg (show ¬ j < k by omega)]
      beta_reduce
      rw [if_neg (show ¬ j - k < TR * SS by omega), if_neg (show ¬ i - k < TR * SS by omega)]
      unfold gemmEntry
      rw [hC, show k + TR * SS + (i - (k + TR * SS)) = i by omega, show k + TR * SS + (j - (k + TR * SS)) = j by omega,
        hval i j hi hj, if_neg (by omega), if_neg (by omega), if_neg (by omega), if_neg (by omega)]
      congr 2
      refine fmaSum_congr rfl _ (fun q hq => ?_) (fun q hq => ?_)
      · rw [hA21, show k + TR * SS + (i - (k + TR * SS)) = i by omega, hval i _ hi (by omega), if_neg (by omega), if_neg (by omega),
          if_pos (by omega), show k + q - k = q by omega]
      · rw [hX, show k + TR * SS + (j - (k + TR * SS)) = j by omega, hval _ j (by omega) hj, if_neg (by omega), if_neg (by omega),
          if_neg (by omega), if_pos (by omega), show k + q - k = q by omega]
    · rw [if_neg hi1]
      by_cases h1 : i < k
      · rw [if_pos h1, if_pos h1]
      · rw [if_neg h1, if_neg h1]
        by_cases h2 : j < k
        · rw [if_pos h2, if_pos h2]
        · rw [if_neg h2, if_neg h2]
          by_cases h3 : j < k + TR * SS
          · rw [if_pos h3]; beta_reduce; rw [if_pos (show j - k < TR * SS by omega)]
          · rw [if_neg h3, if_pos (show i < k + TR * SS by omega)]; beta_reduce
            rw [if_neg (show ¬ j - k < TR * SS by omega), if_pos (show i - k < TR * SS by omega)]
  intro _ mem5 h7
  refine Or.inl ⟨_, _, rfl, _, ?_, h7⟩
  rw [← hP']
  have hbs := hlu.blockStep hNB (by omega) (by omega) (x := x) (fun i j hi hj => hx i j hi (by omega))
  refine hst.extend hρ1 (by omega) (by omega) hbs hpb hpr ?_ ?_
  · intro i q hq hqi hi
    beta_reduce
    rw [if_pos hq]; exact hmul i q hq hqi hi
  · intro B hB
    have hα : ∀ i j, i < M - k → j < N - k → |rowSwaps p 0 (TR * SS) (fun i j => a (k + i) (k + j)) i j| ≤ B := by
      intro i j hi hj
      rw [rowSwaps_eq]
      exact hB _ _ (rowPerm_bounds (fun q _ hq => ⟨by omega, (hpb q (by omega)).2⟩) (by omega) ⟨by omega, hi⟩).2 hj
    exact blockStep_le (u := u) hNB hρ hα (by omega) hmul (hgr B hB)
      (fun i j hi hj => hxr i j hi (by omega))

/-- Column-major getrf in rounded arithmetic. -/
theorem runs_getrfPtr_near {SS TR M N : Nat} {A : MPtr} {m0 : Mem V} (hp : GetrfPre SS TR M N A m0)
    {ρ μ : V} (hρ : 2 * (1 + u) ^ (TR * SS + 3) ≤ ρ)
    {a0 : Nat → Nat → V} (hμ : ∀ i j, i < M → j < N → |a0 i j| ≤ μ) (ip : Nat → Nat) (h : Holds SS m0 A M N a0) :
    RunsE (getrfPtr SS TR M N A ip) m0
      (fun P mem' => ∃ a, LuState u (1 + u) ρ μ M N (min M N) a0 ip a P ∧ MatIn SS M N A m0 mem' a)
      (fun e mem' => e = .invalidArgument ∧ LuStuck u (1 + u) ρ μ M N a0 ip ∧ ∀ y, ¬ Cells SS A M N y → mem' y = m0 y) := by
  have hu := hR.u_nonneg
  have hρ3 : 2 * (1 + u) ^ 3 ≤ ρ := by
    have : (1 + u) ^ 3 ≤ (1 + u) ^ (TR * SS + 3) := pow_le_pow_right₀ (by linarith) (by omega)
    linarith
  have hρ1 : 1 ≤ ρ := by
    have : (1 : V) ≤ (1 + u) ^ 3 := one_le_pow₀ (by linarith)
    linarith
  have hSS := hp.ss
  have hd := hp.dense
  have hNB : 0 < TR * SS := Nat.mul_pos hp.tr hp.ss
  unfold getrfPtr
  refine RunsE.bind (runsE_loopS (fun k P mem => k % (TR * SS) = 0 ∧ k ≤ M ∧ k ≤ N ∧
      ∃ a, LuState u (1 + u) ρ μ M N k a0 ip a P ∧ MatIn SS M N A m0 mem a) M hNB
      (fun k hc => by simp at hc; omega) (by omega) (by omega)
      ⟨Nat.zero_mod _, by omega, by omega, a0,
        LuState.init u (1 + u) ρ hμ ip, MatIn.of_holds h⟩ ?_) ?_
  · rintro k P mem hc ⟨h1, h2, h3, a, h4, h5⟩
    simp only [Bool.and_eq_true, decide_eq_true_eq] at hc
    refine (runs_getrfStep_near hp hρ h1 hc.1 hc.2 h4 h5).mono ?_ (fun _ _ h => h)
    rintro P' mem' ⟨a', e1, e2⟩
    exact ⟨by rw [Nat.add_mod_right]; exact h1, by omega, by omega, a', e1, e2⟩
  rintro ⟨k, P⟩ mem ⟨-, hk0, hkM, hkN, a, hst, h1⟩
  simp only at hkM hkN hst ⊢
  have hoff : ∀ i j : Nat, (A.off SS k k).addr SS i j = A.addr SS (k + i : Nat) (k + j : Nat) := by
    intro i j
    rw [dense_off_addr hd]; push_cast; rfl
  by_cases hc : k < M ∧ k < N
  · rw [if_pos hc]
    have hlp : LuPre SS TR (M - k) (N - k) (A.off SS k k) mem :=
      hp.toLuPre.sub (by omega) (by omega) hd hp.so hoff (fun y hy => h1.isSome hy)
    have hholds : Holds SS mem (A.off SS k k) (M - k) (N - k) (fun i j => a (k + i) (k + j)) := by
      intro i j hi hj
      rw [hoff]; exact h1.holds _ _ (by omega) (by omega)
    refine RunsE.bind (RunsE.bind ((runs_getf2Ptr hlp hholds (fun i => P (k + i))).mono (fun _ _ h => h) ?_)
      (R := fun r mem' => ∃ p s, luRun Arith.div updCol (M - k) (fun i j => a (k + i) (k + j)) (fun i => P (k + i))
        (min M N - k) = some (s, p) ∧ MatIn SS (M - k) (N - k) (A.off SS k k) mem mem' s ∧ r = mergeAt P k p) ?_) ?_
    · rintro e mem' ⟨he, ⟨K, s, p, hK, f1, f2⟩, hf⟩
      refine ⟨he, hst.stuck hρ1 (nearOps_col hρ3) (by omega) f1 f2, fun y hy => ?_⟩
      rw [hf y (fun hc => hy ?_), h1.frame y hy]
      obtain ⟨i, j, hi, hj, rfl⟩ := hc
      exact ⟨k + i, k + j, by omega, by omega, hoff i j⟩
    · rintro p mem1 ⟨s, hs, h2⟩
      rw [show min (M - k) (N - k) = min M N - k by omega] at hs
      exact Or.inl ⟨_, _, rfl, p, s, hs, h2, rfl⟩
    rintro _ mem1 ⟨p, s, hs, h2, rfl⟩
    obtain ⟨hlu, hpb, hpr, hmul, hgr⟩ := luRun_near (u := u) (n := N - k) (nearOps_col hρ3) hρ1 (min M N - k) (by omega) hs
    have hext := hst.extend hρ1 (t := min M N - k) (by omega) (by omega) hlu hpb hpr hmul hgr
    rw [show k + (min M N - k) = min M N by omega] at hext
    generalize hP' : addRange (mergeAt P k p) k (min M N) = P' at hext ⊢
    have hP'q : ∀ q, q < min M N - k → P' (k + q) = p q + k := by
      intro q hq
      rw [← hP']; unfold addRange mergeAt
      rw [if_pos (by omega), if_neg (by omega), show k + q - k = q by omega]
    have hPM : ∀ q, k ≤ q → q < min M N → P' q < M := fun q hq1 hq2 => (hext.piv q hq2).2
    have h3 := h1.block hp.inj (r0 := k) (c0 := k) (r := M - k) (c := N - k) (by omega) (by omega) hoff h2.holds h2.frame
    refine RunsE.bind (Runs.e (runs_laswp hSS hd h3 hp.inj (B := A) (c0 := 0) (n := k) (k0 := k) (k1 := min M N) (by omega) hd
      (fun i j => by simp) (by omega) (by omega) hPM)) ?_
    intro _ mem2 h4
    refine Or.inl ⟨_, _, rfl, _, hext, h4.congr (fun i j hi hj => ?_)⟩
    simp only [rowSwaps_eq]
    by_cases hik : i < k
    · rw [rowPerm_lt (fun q hq1 hq2 => by
        have := hP'q (q - k) (by omega)
        rw [show k + (q - k) = q by omega] at this
        omega) hik]
      rw [if_pos hik]
      split_ifs <;> first | rfl | omega
    · rw [if_neg hik]
      obtain ⟨i', rfl⟩ : ∃ i', i = k + i' := ⟨i - k, by omega⟩
      rw [rowPerm_shift hP'q, show k + i' - k = i' by omega]
      by_cases hj1 : j < k
      · rw [if_pos hj1, if_pos (by omega), if_neg (by omega)]
      · rw [if_neg hj1, if_neg (by omega), if_pos (by omega)]
  · rw [if_neg hc]
    have hkm : k = min M N := by omega
    show RunsE (do
      laswp SS k A k (min M N) (addRange P k (min M N))
      pure (addRange P k (min M N))) mem _ _
    have hadd : addRange P k (min M N) = P := by
      funext i; unfold addRange; rw [if_neg (by omega)]
    rw [hadd, ← hkm]
    refine RunsE.bind (Runs.e (runs_laswp hSS hd h1 hp.inj (B := A) (c0 := 0) (n := k) (k0 := k) (k1 := k) (by omega) hd
      (fun i j => by simp) (by omega) (by omega) (fun q h1 h2 => by omega))) ?_
    intro _ mem2 h4
    refine Or.inl ⟨_, _, rfl, _, hst, h4.congr (fun i j hi hj => ?_)⟩
    rw [Nat.sub_self]
    show (if _ then a i j else a i j) = _
    rw [ite_self]

end Blast
