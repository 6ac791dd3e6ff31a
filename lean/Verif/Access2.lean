import Verif.Access
import Verif.GetrfSafe
import Verif.Potrf
/-
The memory accesses of trsm, trsv, potrf and of the LU factorizations (see `Threads`).
-/
set_option linter.unusedSectionVars false
namespace Blast
open Prog Reg
variable {V : Type} [Arith V] {W : Int → Prop} {SS TR M N K : Nat}

theorem acc_MPtr_set {p : MPtr} {i j : Int} {v : V} (h : W (p.addr SS i j)) : Acc W (fun _ => True) (p.set SS i j v) := by
  unfold MPtr.set; exact acc_write h

theorem acc_VPtr_set {p : VPtr} {i : Int} {v : V} (h : W (p.addr SS i)) : Acc W (fun _ => True) (p.set SS i v) := by
  unfold VPtr.set; exact acc_write h

/-! ### trsm, trsv -/

theorem acc_trsmPtr {A B X : MPtr} (uplo : UpLo) (unit : Bool) (hW : ∀ a b : Nat, a < M → b < N → W (X.addr SS a b)) :
    Acc W (fun _ => True) (trsmPtr SS M N uplo unit A B X : Prog V Unit) := by
  unfold trsmPtr
  refine acc_forN (fun j hj => ?_)
  cases uplo with
  | lower =>
    dsimp only
    refine acc_forN (fun i hi => acc_bind (by racc) (fun b => acc_bind (by racc) (fun acc => acc_ite (fun _ => ?_) (fun _ => acc_bind (by racc) (fun d => ?_)))))
    all_goals exact acc_MPtr_set (hW i j hi hj)
  | upper =>
    dsimp only
    refine acc_forDown (fun i hi => acc_bind (by racc) (fun b => acc_bind (by racc) (fun acc => acc_ite (fun _ => ?_) (fun _ => acc_bind (by racc) (fun d => ?_)))))
    all_goals exact acc_MPtr_set (hW i j hi hj)

theorem acc_trsmMat {A B X : Mat} (uplo : UpLo) (unit : Bool) (hW : ∀ a b : Nat, a < X.rows → b < X.cols → W (X.p.addr SS a b)) :
    Acc W (fun _ => True) (trsmMat SS uplo unit A B X : Prog V Unit) := by
  unfold trsmMat
  refine acc_ite (fun _ => acc_throw _) (fun _ => acc_ite (fun _ => acc_throw _) (fun h => ?_))
  exact acc_trsmPtr uplo unit (fun a b ha hb => hW a b (by omega) (by omega))

theorem acc_trsvPtr {A : MPtr} {b x : VPtr} (uplo : UpLo) (hW : ∀ a : Nat, a < N → W (x.addr SS a)) :
    Acc W (fun _ => True) (trsvPtr SS N uplo A b x : Prog V Unit) := by
  unfold trsvPtr
  cases uplo with
  | lower =>
    dsimp only
    refine acc_forN (fun i hi => acc_bind (by racc) (fun b => acc_bind (by racc) (fun acc => acc_bind (by racc) (fun d => ?_))))
    exact acc_VPtr_set (hW i hi)
  | upper =>
    dsimp only
    refine acc_forDown (fun i hi => acc_bind (by racc) (fun b => acc_bind (by racc) (fun acc => acc_bind (by racc) (fun d => ?_))))
    exact acc_VPtr_set (hW i hi)

theorem acc_trsvMat {A : Mat} {b x : VArg} (uplo : UpLo) (hx : x.n = b.n) (hW : ∀ a : Nat, a < x.n → W (x.p.addr SS a)) :
    Acc W (fun _ => True) (trsvMat SS uplo A b x : Prog V Unit) := by
  unfold trsvMat
  refine acc_ite (fun _ => acc_throw _) (fun h => ?_)
  exact acc_trsvPtr uplo (fun a ha => hW a (by omega))

/-! ### potrf -/

theorem acc_potrfLoops {T KN Mp : Nat} (hKN : 0 < KN) (hT : 0 < T) {body : Nat → Nat → Nat → Prog V Unit}
    (hMp : ∀ k, k % KN = 0 → k < N → k < M → k + roundUp (M - k) T ≤ Mp)
    (h : ∀ rm k i, k % KN = 0 → k < N → k < M → k ≤ i → (i - k) % T = 0 → i < M → i + rm * T ≤ Mp → Acc W (fun _ => True) (body rm k i)) :
    Acc W (fun _ => True) (potrfLoops T KN M N body) := by
  unfold potrfLoops
  refine acc_bind (Acc.unit (acc_loop (fun k => k % KN = 0) (Nat.zero_mod _) (fun k hk hkN => ⟨?_, by rw [Nat.add_mod_right]; exact hk⟩)))
    (fun _ => acc_pure trivial)
  have hkN : k < N := by simpa using hkN
  have step : ∀ (rm : Nat) (c : Nat → Bool), 0 < rm → (∀ i, c i = true → i + (rm - 1) * T < M) → ∀ i, (k ≤ i ∧ (i - k) % T = 0) →
      Acc W (fun i => (k ≤ i ∧ (i - k) % T = 0) ∧ c i = false) (loop (M + 1) c (rm * T) (body rm k) i) := by
    intro rm c hrm hc i hI
    refine acc_loop (fun i => k ≤ i ∧ (i - k) % T = 0) hI (fun i hi hci => ⟨?_, by omega, ?_⟩)
    · have h1 := hc i hci
      have hiM : i < M := by omega
      refine h rm k i hk hkN (by omega) hi.1 hi.2 hiM ?_
      refine Nat.le_trans ?_ (hMp k hk hkN (by omega))
      obtain ⟨q, hq⟩ := Nat.dvd_of_mod_eq_zero hi.2
      obtain ⟨r, rfl⟩ : ∃ r, rm = r + 1 := ⟨rm - 1, by omega⟩
      simp only [Nat.add_sub_cancel] at h1
      have h2 : (q + r) * T < M - k := by rw [Nat.add_mul, Nat.mul_comm q T]; omega
      have h3 : (q + r + 1) * T ≤ roundUp (M - k) T := by
        unfold roundUp
        refine Nat.mul_le_mul_right T ?_
        refine (Nat.le_div_iff_mul_le hT).2 ?_
        rw [Nat.add_mul, Nat.one_mul]; omega
      have h4 : (q + r + 1) * T = T * q + (r + 1) * T := by rw [Nat.add_assoc, Nat.add_mul, Nat.mul_comm q T]
      omega
    · rw [show i + rm * T - k = (i - k) + rm * T by omega, Nat.add_mul_mod_self_right]; exact hi.2
  refine acc_bindQ (step 3 _ (by omega) (fun i hi => by simpa using hi) k ⟨Nat.le_refl _, by simp⟩) (fun i1 h1 => ?_)
  refine acc_bindQ (step 2 _ (by omega) (fun i hi => by simpa using hi) i1 h1.1) (fun i2 h2 => ?_)
  refine acc_bindQ (step 1 _ (by omega) (fun i hi => by simpa using hi) i2 h2.1) (fun i3 _ => acc_pure trivial)

theorem acc_potrfBackendDense {RM KN Mp k i : Nat} {A L : MPtr} (hSS : 0 < SS) (hw : L.WF SS) (hs : L.so = .columnMajor) (hi : i % SS = 0)
    (hiM : i < M) (hM : M ≤ Mp) (hMp : i + RM * SS ≤ Mp) (hW : ∀ a b : Nat, a < Mp → b < N → W (L.addr SS a b)) :
    Acc W (fun _ => True) (potrfBackendDense SS RM KN M N A L k i : Prog V Unit) := by
  unfold potrfBackendDense
  refine acc_bind (by racc) (fun r => acc_bind (by racc) (fun r => acc_ite (fun e => ?_) (fun e => ?_)))
  · subst e
    refine acc_bind (by racc) (fun r => acc_ite (fun h => ?_) (fun h => ?_))
    · exact acc_storeLowerAt hSS hw hs hi (fun a b _ _ _ _ _ => hW _ _ (by omega) (by omega))
    · exact acc_storeLowerPAt hSS hw hs hi (fun a b _ _ _ _ _ _ _ => hW _ _ (by omega) (by omega))
  · refine acc_bind (by racc) (fun r => acc_ite (fun h => ?_) (fun h => ?_))
    · exact acc_storeAt hSS hw hs hi (fun a b _ _ _ _ => hW _ _ (by omega) (by omega))
    · exact acc_storePAt hSS hw hs hi (fun a b _ _ _ _ _ _ => hW _ _ (by omega) (by omega))

theorem acc_potrfBackendPanel {RM KN Mp k i : Nat} {A L : MPtr} (hSS : 0 < SS) (hw : L.WF SS) (hs : L.so = .columnMajor) (hi : i % SS = 0)
    (hiM : i < M) (hM : M ≤ Mp) (hMp : i + RM * SS ≤ Mp) (hW : ∀ a b : Nat, a < Mp → b < N → W (L.addr SS a b)) :
    Acc W (fun _ => True) (potrfBackendPanel SS RM KN M N A L k i : Prog V Unit) := by
  unfold potrfBackendPanel
  refine acc_bind (by racc) (fun r => acc_bind (by racc) (fun r => acc_bind (by racc) (fun r => acc_ite (fun h => ?_) (fun h => ?_))))
  · exact acc_storeAt hSS hw hs hi (fun a b _ _ _ _ => hW _ _ (by omega) (by omega))
  · exact acc_storePAt hSS hw hs hi (fun a b _ _ _ _ _ _ => hW _ _ (by omega) (by omega))

theorem potrf_row_mod {T KN k i : Nat} (hT : T % SS = 0) (hal : SS ∣ KN ∨ N ≤ KN) (hk : k % KN = 0) (hkN : k < N) (hki : k ≤ i)
    (hi : (i - k) % T = 0) : i % SS = 0 := by
  have h1 : SS ∣ k := by
    rcases hal with h | h
    · exact Nat.dvd_trans h (Nat.dvd_of_mod_eq_zero hk)
    · have : k = 0 := by
        rw [Nat.mod_eq_of_lt (by omega)] at hk; exact hk
      rw [this]; exact Nat.dvd_zero _
  have h2 : SS ∣ i - k := Nat.dvd_trans (Nat.dvd_of_mod_eq_zero hT) (Nat.dvd_of_mod_eq_zero hi)
  have := Nat.dvd_add h1 h2
  rw [show k + (i - k) = i by omega] at this
  exact Nat.mod_eq_zero_of_dvd this

theorem acc_potrfDensePtr {KN Mp : Nat} {A L : MPtr} (hSS : 0 < SS) (hTR : 0 < TR) (hKN : 0 < KN) (hw : L.WF SS) (hs : L.so = .columnMajor)
    (hal : SS ∣ KN ∨ N ≤ KN) (hM : M ≤ Mp) (hMp : ∀ k, k % KN = 0 → k < N → k < M → k + roundUp (M - k) (TR * SS) ≤ Mp)
    (hW : ∀ a b : Nat, a < Mp → b < N → W (L.addr SS a b)) :
    Acc W (fun _ => True) (potrfDensePtr SS TR KN M N A L : Prog V Unit) := by
  unfold potrfDensePtr
  refine acc_potrfLoops hKN (Nat.mul_pos hTR hSS) hMp (fun rm k i hk hkN hkM hki hi hiM h1 => ?_)
  rw [← Nat.mul_assoc] at h1
  exact acc_potrfBackendDense hSS hw hs (potrf_row_mod (Nat.mul_mod_left _ _) hal hk hkN hki hi) hiM hM h1 hW

theorem acc_potrfPanelPtr {KN Mp : Nat} {A L : MPtr} (hSS : 0 < SS) (hKN : 0 < KN) (hw : L.WF SS) (hs : L.so = .columnMajor)
    (hal : SS ∣ KN ∨ N ≤ KN) (hM : M ≤ Mp) (hMp : ∀ k, k % KN = 0 → k < N → k < M → k + roundUp (M - k) (1 * SS) ≤ Mp)
    (hW : ∀ a b : Nat, a < Mp → b < N → W (L.addr SS a b)) :
    Acc W (fun _ => True) (potrfPanelPtr SS KN M N A L : Prog V Unit) := by
  unfold potrfPanelPtr
  refine acc_potrfLoops hKN (by omega) hMp (fun rm k i hk hkN hkM hki hi hiM h1 => ?_)
  rw [← Nat.mul_assoc] at h1
  exact acc_potrfBackendPanel hSS hw hs (potrf_row_mod (Nat.mul_mod_left _ _) hal hk hkN hki hi) hiM hM h1 hW

theorem acc_potrfDenseMat {Mp : Nat} {A L : Mat} (hSS : 0 < SS) (hTR : 0 < TR) (hw : L.p.WF SS) (hs : L.p.so = .columnMajor)
    (hal : SS ∣ 4 ∨ A.cols ≤ 4) (hM : A.rows ≤ Mp) (hMp : ∀ k, k % 4 = 0 → k < A.cols → k < A.rows → k + roundUp (A.rows - k) (TR * SS) ≤ Mp)
    (hW : ∀ a b : Nat, a < Mp → b < L.cols → W (L.p.addr SS a b)) : Acc W (fun _ => True) (potrfDenseMat SS TR A L : Prog V Unit) := by
  unfold potrfDenseMat
  refine acc_ite (fun _ => acc_throw _) (fun _ => acc_ite (fun _ => acc_throw _) (fun _ => acc_ite (fun _ => acc_throw _) (fun h => ?_)))
  exact acc_potrfDensePtr hSS hTR (by omega) hw hs hal hM hMp (fun a b ha hb => hW a b ha (by omega))

theorem acc_potrfPanelMat {KN Mp : Nat} {A L : Mat} (hSS : 0 < SS) (hKN : 0 < KN) (hw : L.p.WF SS) (hs : L.p.so = .columnMajor)
    (hal : SS ∣ KN ∨ A.cols ≤ KN) (hM : A.rows ≤ Mp) (hMp : ∀ k, k % KN = 0 → k < A.cols → k < A.rows → k + roundUp (A.rows - k) (1 * SS) ≤ Mp)
    (hW : ∀ a b : Nat, a < Mp → b < L.cols → W (L.p.addr SS a b)) : Acc W (fun _ => True) (potrfPanelMat SS KN A L : Prog V Unit) := by
  unfold potrfPanelMat
  refine acc_ite (fun _ => acc_throw _) (fun _ => acc_ite (fun _ => acc_throw _) (fun _ => acc_ite (fun _ => acc_throw _) (fun h => ?_)))
  exact acc_potrfPanelPtr hSS hKN hw hs hal hM hMp (fun a b ha hb => hW a b ha (by omega))

/-! ### LU -/

theorem acc_iamaxPtr {n : Nat} {x : VPtr} (hn : 0 < n) : Acc W (fun r => r < n) (iamaxPtr SS n x : Prog V Nat) := by
  unfold iamaxPtr
  refine acc_bind (by racc) (fun v0 => acc_bindQ (Q := fun r => r.2 < n) ?_ (fun r hr => acc_pure hr))
  unfold foldFrom
  refine acc_foldNI (fun _ (s : V × Nat) => s.2 < n) hn (fun k s hk hs => acc_bind (by racc) (fun v => acc_pure ?_))
  split
  · show 1 + k < n; omega
  · exact hs

theorem acc_swapPtr {n : Nat} {x y : VPtr} (hx : x.Plain SS) (hy : y.Plain SS) (wx : ∀ i : Nat, i < n → W (x.addr SS i)) (wy : ∀ i : Nat, i < n → W (y.addr SS i)) :
    Acc W (fun _ => True) (swapPtr SS n x y : Prog V Unit) := by
  unfold swapPtr
  refine acc_forN (fun i hi => acc_bind (by racc) (fun t => acc_bind (by racc) (fun u => acc_bind ?_ (fun _ => ?_))))
  · unfold vassign VPtr.set
    rw [hx]; exact acc_write (wx i hi)
  · unfold vassign VPtr.set
    rw [hy]; exact acc_write (wy i hi)

theorem acc_swapVec {x y : VArg} (hx : x.p.Plain SS) (hy : y.p.Plain SS) (wx : ∀ i : Nat, i < x.n → W (x.p.addr SS i)) (wy : ∀ i : Nat, i < y.n → W (y.p.addr SS i)) :
    Acc W (fun _ => True) (swapVec SS x y : Prog V Unit) := by
  unfold swapVec
  refine acc_ite (fun _ => acc_throw _) (fun h => acc_ite (fun _ => ?_) (fun _ => acc_pure trivial))
  exact acc_swapPtr hx hy wx (fun i hi => wy i (by omega))

theorem row_uoff_addr {A : MPtr} (hSS : 0 < SS) (hd : A.panel = false) (k c i : Nat) :
    (row ((A.unal SS).off SS k c)).addr SS i = A.addr SS k (c + i : Nat) := by
  show ((A.unal SS).off SS k c).addr SS 0 i = _
  rw [dense_uoff_addr hSS hd]; simp

theorem acc_laswp {n k0 k1 : Nat} {A : MPtr} (hSS : 0 < SS) (hd : A.panel = false) {ipiv : Nat → Nat}
    (hp : ∀ q, k0 ≤ q → q < k1 → q < M ∧ ipiv q < M) (hW : ∀ a b : Nat, a < M → b < n → W (A.addr SS a b)) :
    Acc W (fun _ => True) (laswp SS n A k0 k1 ipiv : Prog V Unit) := by
  unfold laswp
  refine acc_forFrom (fun k h1 h2 => acc_onlyIf (fun _ => ?_))
  refine acc_swapVec (plain_row hSS (uoff_dense hSS hd _ _)) (plain_row hSS (uoff_dense hSS hd _ _)) (fun i hi => ?_) (fun i hi => ?_)
  · have := row_uoff_addr hSS hd k 0 i
    dsimp only at hi ⊢
    rw [show ((0 : Nat) : Int) = 0 from rfl] at this
    rw [this, Nat.zero_add]
    exact hW _ _ (hp k h1 h2).1 hi
  · have := row_uoff_addr hSS hd (ipiv k) 0 i
    dsimp only at hi ⊢
    rw [show ((0 : Nat) : Int) = 0 from rfl] at this
    rw [this, Nat.zero_add]
    exact hW _ _ (hp k h1 h2).2 hi

theorem pivots_set {K : Nat} {ip P : Nat → Nat} (h : PivotsOK M K ip P) {r : Nat} (hr : r < M - K) : PivotsOK M (K + 1) ip (setAt P K (r + K)) := by
  refine ⟨fun q hq => ?_, fun q hq => ?_⟩
  · unfold setAt
    by_cases e : q = K
    · rw [if_pos e]; omega
    · rw [if_neg e]; exact h.1 q (by omega)
  · unfold setAt
    rw [if_neg (by omega)]; exact h.2 q (by omega)

theorem acc_getf2Ptr {m n : Nat} {A : MPtr} (hSS : 0 < SS) (hd : A.panel = false) (hs : A.so = .columnMajor)
    (hW : ∀ a b : Nat, a < m → b < n → W (A.addr SS a b)) (ip : Nat → Nat) :
    Acc W (fun P => PivotsOK m (min m n) ip P) (getf2Ptr SS TR m n A ip : Prog V (Nat → Nat)) := by
  unfold getf2Ptr
  refine acc_foldNI (fun K P => PivotsOK m K ip P) ⟨fun q hq => by omega, fun q _ => rfl⟩ (fun k P hk hP => ?_)
  unfold getf2Step
  refine acc_bindQ (acc_iamaxPtr (by omega)) (fun r hr => ?_)
  dsimp only
  refine acc_bind (acc_onlyIf (fun _ => ?_)) (fun _ => acc_bind (by racc) (fun d => acc_ite (fun _ => acc_throw _) (fun _ => ?_)))
  · refine acc_swapPtr (plain_row hSS (uoff_dense hSS hd _ _)) (plain_row hSS (uoff_dense hSS hd _ _)) (fun i hi => ?_) (fun i hi => ?_)
    · have := row_uoff_addr hSS hd k 0 i
      rw [show ((0 : Nat) : Int) = 0 from rfl] at this
      rw [this, Nat.zero_add]
      exact hW _ _ (by omega) hi
    · have := row_uoff_addr hSS hd (r + k) 0 i
      rw [show ((0 : Nat) : Int) = 0 from rfl] at this
      rw [this, Nat.zero_add]
      exact hW _ _ (by omega) hi
  refine acc_bind (acc_forFrom (fun i h1 h2 => acc_bind (by racc) (fun x => acc_bind (by racc) (fun d => ?_)))) (fun _ => ?_)
  · rw [assignAt_addr hSS hd]
    exact acc_write (hW _ _ h2 (by omega))
  refine acc_bind (acc_onlyIf (fun _ => ?_)) (fun _ => acc_pure (pivots_set hP hr))
  refine acc_gerPtr hSS (wf_of_plain (uoff_dense hSS hd _ _) (uoff_aligned hSS _ _)) (by rw [uoff_so hSS]; exact hs) _ _ _ (fun a b ha hb => ?_)
  rw [uoff_addr hSS hd]
  exact hW _ _ (by omega) (by omega)

theorem acc_getf2Row {A : Mat} (hSS : 0 < SS) (dv : V → V → V) (hd : A.p.panel = false)
    (hW : ∀ a b : Nat, a < A.rows → b < A.cols → W (A.p.addr SS a b)) (ip : Nat → Nat) :
    Acc W (fun P => PivotsOK A.rows (min A.rows A.cols) ip P) (getf2Row SS dv A ip : Prog V (Nat → Nat)) := by
  unfold getf2Row
  refine acc_foldNI (fun K P => PivotsOK A.rows K ip P) ⟨fun q hq => by omega, fun q _ => rfl⟩ (fun k P hk hP => ?_)
  unfold getf2RowStep
  refine acc_bindQ (Q := fun r => r < A.rows - k) ?_ (fun r hr => ?_)
  · unfold iamaxVec
    exact acc_ite (fun _ => acc_throw _) (fun _ => acc_iamaxPtr (by omega))
  dsimp only
  refine acc_bind (acc_onlyIf (fun _ => ?_)) (fun _ => acc_bind (by racc) (fun d => acc_ite (fun _ => acc_throw _) (fun _ => ?_)))
  · refine acc_swapVec (plain_row hSS (uoff_dense hSS hd _ _)) (plain_row hSS (uoff_dense hSS hd _ _)) (fun i hi => ?_) (fun i hi => ?_)
    · have := row_uoff_addr hSS hd k 0 i
      dsimp only at hi ⊢
      rw [show ((0 : Nat) : Int) = 0 from rfl] at this
      rw [this, Nat.zero_add]
      exact hW _ _ (by omega) hi
    · have := row_uoff_addr hSS hd (r + k) 0 i
      dsimp only at hi ⊢
      rw [show ((0 : Nat) : Int) = 0 from rfl] at this
      rw [this, Nat.zero_add]
      exact hW _ _ (by omega) hi
  refine acc_bind (acc_forFrom (fun i h1 h2 => acc_bind (by racc) (fun x => ?_))) (fun _ => ?_)
  · exact acc_MPtr_set (hW _ _ h2 (by omega))
  refine acc_bind ?_ (fun _ => acc_pure (pivots_set hP hr))
  refine acc_gerRowMat _ _ _ (fun a b ha hb => ?_)
  dsimp only at ha hb ⊢
  rw [uoff_addr hSS hd]
  exact hW _ _ (by omega) (by omega)

theorem acc_getrfStep {A : MPtr} {k : Nat} (hSS : 0 < SS) (hd : A.panel = false) (hs : A.so = .columnMajor) (hw : A.WF SS)
    (hk : k % SS = 0) (hkM : k + TR * SS < M) (hkN : k + TR * SS < N)
    (hW : ∀ a b : Nat, a < M → b < N → W (A.addr SS a b)) {ip P : Nat → Nat} (hP : PivotsOK M k ip P) :
    Acc W (fun P' => PivotsOK M (k + TR * SS) ip P') (getrfStep SS TR M N A k P : Prog V (Nat → Nat)) := by
  have hoff : ∀ r c i j : Nat, (A.off SS r c).addr SS i j = A.addr SS (r + i : Nat) (c + j : Nat) := by
    intro r c i j
    rw [dense_off_addr hd]; push_cast; rfl
  have hoff0 : ∀ c i j : Nat, (A.off SS 0 c).addr SS i j = A.addr SS (i : Nat) (c + j : Nat) := by
    intro c i j
    rw [dense_off_addr hd]; push_cast; rw [Int.zero_add]
  have hkT : (k + TR * SS) % SS = 0 := by rw [Nat.add_mul_mod_self_right]; exact hk
  unfold getrfStep
  refine acc_bindQ (acc_getf2Ptr hSS (uoff_dense hSS hd _ _) (by rw [uoff_so hSS]; exact hs)
    (fun a b ha hb => by rw [uoff_addr hSS hd]; exact hW _ _ (by omega) (by omega)) _) (fun p hp => ?_)
  rw [show min (M - k) (TR * SS) = TR * SS by omega] at hp
  have hP' := hP.extend hp (by omega)
  dsimp only
  have hpv : ∀ q, k ≤ q → q < k + TR * SS → q < M ∧ addRange (mergeAt P k p) k (k + TR * SS) q < M := fun q h1 h2 => ⟨by omega, (hP'.1 q h2).2⟩
  refine acc_bind (acc_laswp hSS hd hpv (fun a b ha hb => hW _ _ ha (by omega))) (fun _ => ?_)
  refine acc_bind (acc_laswp (M := M) hSS (by exact hd) hpv (fun a b ha hb => by rw [hoff0]; exact hW _ _ ha (by omega))) (fun _ => ?_)
  refine acc_bind (acc_trsmMat .lower true (fun a b ha hb => ?_)) (fun _ => ?_)
  · dsimp only at ha hb ⊢
    rw [hoff]; exact hW _ _ (by omega) (by omega)
  refine acc_bind (acc_gemmPtr hSS (off_wf' hd hs hw hkT) hs _ _ (fun a b ha hb => ?_)) (fun _ => acc_pure hP')
  rw [hoff]; exact hW _ _ (by omega) (by omega)

theorem acc_getrfPtr {A : MPtr} (hSS : 0 < SS) (hd : A.panel = false) (hs : A.so = .columnMajor) (hw : A.WF SS)
    (hW : ∀ a b : Nat, a < M → b < N → W (A.addr SS a b)) (ip : Nat → Nat) :
    Acc W (fun P => PivotsOK M (min M N) ip P) (getrfPtr SS TR M N A ip : Prog V (Nat → Nat)) := by
  have hoff : ∀ r c i j : Nat, (A.off SS r c).addr SS i j = A.addr SS (r + i : Nat) (c + j : Nat) := by
    intro r c i j
    rw [dense_off_addr hd]; push_cast; rfl
  unfold getrfPtr
  refine acc_bindQ (acc_loopS (fun k P => k % SS = 0 ∧ k ≤ min M N ∧ PivotsOK M k ip P) ⟨Nat.zero_mod _, by omega, ⟨fun q hq => by omega, fun q _ => rfl⟩⟩
    (fun k P hI hc => ?_)) (fun r hr => ?_)
  · have hc : k + TR * SS < M ∧ k + TR * SS < N := by simpa using hc
    exact (acc_getrfStep hSS hd hs hw hI.1 hc.1 hc.2 hW hI.2.2).post
      (fun P' hP' => ⟨by rw [Nat.add_mul_mod_self_right]; exact hI.1, by omega, hP'⟩)
  obtain ⟨k, P⟩ := r
  obtain ⟨⟨hk, hkm, hP⟩, _⟩ := hr
  dsimp only at hk hkm hP ⊢
  refine acc_bindQ (Q := fun P' => PivotsOK M (min M N) ip (addRange P' k (min M N))) ?_ (fun P' hP' => ?_)
  · refine acc_ite (fun h => ?_) (fun h => acc_pure ?_)
    · refine acc_bindQ (acc_getf2Ptr hSS (by exact hd) (by exact hs) (fun a b ha hb => by rw [hoff]; exact hW _ _ (by omega) (by omega)) _)
        (fun p hp => acc_pure ?_)
      have := hP.extend hp (by omega)
      rwa [show k + min (M - k) (N - k) = min M N by omega] at this
    · have hkm' : k = min M N := by omega
      have e : addRange P k (min M N) = P := by
        funext i; unfold addRange; rw [if_neg (by omega)]
      rw [e, ← hkm']; exact hP
  · refine acc_bind (acc_laswp hSS hd (fun q h1 h2 => ⟨by omega, (hP'.1 q h2).2⟩) (fun a b ha hb => hW _ _ ha (by omega))) (fun _ => acc_pure hP')

theorem acc_getrfRow {A : Mat} (dv : V → V → V) (hW : ∀ a b : Nat, a < A.rows → b < A.cols → W (A.p.addr SS a b)) (ip : Nat → Nat) :
    Acc W (fun _ => True) (getrfRow SS dv A ip : Prog V (Nat → Nat)) := by
  unfold getrfRow
  refine acc_foldN (fun k P hk => acc_bind (by racc) (fun d => acc_bind (acc_forFrom (fun i h1 h2 => acc_bind (by racc) (fun x => ?_)))
    (fun _ => acc_bind (acc_forFrom (fun j h1 h2 => acc_forFrom (fun i h3 h4 => acc_bind (by racc) (fun x => acc_bind (by racc) (fun l =>
      acc_bind (by racc) (fun u => ?_)))))) (fun _ => acc_pure trivial))))
  · exact acc_MPtr_set (hW _ _ h2 (by omega))
  · exact acc_MPtr_set (hW _ _ h4 h2)

end Blast
