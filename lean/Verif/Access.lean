import Verif.ThreadsLemmas
import Verif.Frame
/-
The memory accesses of the functions of the model (see `Threads`): functions that write nothing; cells written by the others.
-/
set_option linter.unusedSectionVars false
namespace Blast
open Prog
variable {V : Type}

/-- proves `Acc W (fun _ => True) p` for programs that write nothing -/
syntax "racc1" : tactic
macro_rules | `(tactic| racc1) => `(tactic| assumption)
macro_rules | `(tactic| racc1) => `(tactic| trivial)
macro_rules | `(tactic| racc1) => `(tactic| split)
macro_rules | `(tactic| racc1) => `(tactic| intro _)
macro_rules | `(tactic| racc1) => `(tactic| dsimp only)
macro_rules | `(tactic| racc1) => `(tactic| with_reducible refine acc_ite (fun _ => ?_) (fun _ => ?_))
macro_rules | `(tactic| racc1) => `(tactic| with_reducible exact acc_pure trivial)
macro_rules | `(tactic| racc1) => `(tactic| with_reducible exact acc_throw _)
macro_rules | `(tactic| racc1) => `(tactic| with_reducible exact acc_ub)
macro_rules | `(tactic| racc1) => `(tactic| with_reducible refine acc_bind ?_ (fun _ => ?_))
macro_rules | `(tactic| racc1) => `(tactic| with_reducible refine acc_noexcept ?_)
macro_rules | `(tactic| racc1) => `(tactic| with_reducible exact acc_read _)
macro_rules | `(tactic| racc1) => `(tactic| with_reducible refine acc_foldN (fun _ _ _ => ?_))
macro_rules | `(tactic| racc1) => `(tactic| with_reducible refine acc_forN (fun _ _ => ?_))
macro_rules | `(tactic| racc1) => `(tactic| with_reducible refine acc_onlyIf (fun _ => ?_))
macro_rules | `(tactic| racc1) => `(tactic| with_reducible exact acc_gather ..)
macro "racc" : tactic => `(tactic| repeat' racc1)

section ro
variable [Arith V] {W : Int → Prop}

theorem acc_loadVec (SS : Nat) (al : Bool) (b : Int) : Acc W (fun _ => True) (loadVec SS al b : Prog V (Vec V)) := by
  unfold loadVec; racc
macro_rules | `(tactic| racc1) => `(tactic| with_reducible exact acc_loadVec ..)

theorem acc_loadVecMask (SS : Nat) (k : Nat → Bool) (b : Int) : Acc W (fun _ => True) (loadVecMask SS k b : Prog V (Vec V)) := by
  unfold loadVecMask; racc
macro_rules | `(tactic| racc1) => `(tactic| with_reducible exact acc_loadVecMask ..)

theorem acc_MPtr_load (SS : Nat) (p : MPtr) : Acc W (fun _ => True) (p.load SS : Prog V (Vec V)) := by
  unfold MPtr.load; racc
macro_rules | `(tactic| racc1) => `(tactic| with_reducible exact acc_MPtr_load ..)

theorem acc_MPtr_loadMask (SS : Nat) (p : MPtr) (k : Nat → Bool) : Acc W (fun _ => True) (p.loadMask SS k : Prog V (Vec V)) := by
  unfold MPtr.loadMask; racc
macro_rules | `(tactic| racc1) => `(tactic| with_reducible exact acc_MPtr_loadMask ..)

theorem acc_MPtr_loadT (SS : Nat) (p : MPtr) (o : TF) : Acc W (fun _ => True) (p.loadT SS o : Prog V (Vec V)) := by
  unfold MPtr.loadT; racc
macro_rules | `(tactic| racc1) => `(tactic| with_reducible exact acc_MPtr_loadT ..)

theorem acc_MPtr_loadTMask (SS : Nat) (p : MPtr) (o : TF) (k : Nat → Bool) : Acc W (fun _ => True) (p.loadTMask SS o k : Prog V (Vec V)) := by
  unfold MPtr.loadTMask; racc
macro_rules | `(tactic| racc1) => `(tactic| with_reducible exact acc_MPtr_loadTMask ..)

theorem acc_MPtr_get (SS : Nat) (p : MPtr) (i j : Int) : Acc W (fun _ => True) (p.get SS i j : Prog V V) := by
  unfold MPtr.get; racc
macro_rules | `(tactic| racc1) => `(tactic| with_reducible exact acc_MPtr_get ..)

theorem acc_VPtr_load (SS : Nat) (p : VPtr) : Acc W (fun _ => True) (p.load SS : Prog V (Vec V)) := by
  unfold VPtr.load; racc
macro_rules | `(tactic| racc1) => `(tactic| with_reducible exact acc_VPtr_load ..)

theorem acc_VPtr_loadMask (SS : Nat) (p : VPtr) (k : Nat → Bool) : Acc W (fun _ => True) (p.loadMask SS k : Prog V (Vec V)) := by
  unfold VPtr.loadMask; racc
macro_rules | `(tactic| racc1) => `(tactic| with_reducible exact acc_VPtr_loadMask ..)

theorem acc_VPtr_get (SS : Nat) (p : VPtr) (i : Int) : Acc W (fun _ => True) (p.get SS i : Prog V V) := by
  unfold VPtr.get; racc
macro_rules | `(tactic| racc1) => `(tactic| with_reducible exact acc_VPtr_get ..)

theorem acc_Reg_forRows (RM : Nat) (g : Nat → Bool) (j : Nat) (f : Nat → Vec V → Prog V (Vec V)) (r : Reg V) (h : ∀ i v, Acc W (fun _ => True) (f i v)) : Acc W (fun _ => True) (Reg.forRows RM g j f r) := by
  unfold Reg.forRows; racc; exact h _ _
macro_rules | `(tactic| racc1) => `(tactic| with_reducible refine acc_Reg_forRows _ _ _ _ _ (fun _ _ => ?_))

theorem acc_Reg_forCols (N : Nat) (g : Nat → Bool) (f : Nat → Reg V → Prog V (Reg V)) (r : Reg V) (h : ∀ i v, Acc W (fun _ => True) (f i v)) : Acc W (fun _ => True) (Reg.forCols N g f r) := by
  unfold Reg.forCols; racc; exact h _ _
macro_rules | `(tactic| racc1) => `(tactic| with_reducible refine acc_Reg_forCols _ _ _ _ (fun _ _ => ?_))

theorem acc_Reg_axpy (SS RM N : Nat) (r : Reg V) (b : V) (a : MPtr) : Acc W (fun _ => True) (r.axpy SS RM N b a) := by
  unfold Reg.axpy; racc
macro_rules | `(tactic| racc1) => `(tactic| with_reducible exact acc_Reg_axpy ..)

theorem acc_Reg_axpyP (SS RM N : Nat) (r : Reg V) (b : V) (a : MPtr) (m n : Nat) : Acc W (fun _ => True) (r.axpyP SS RM N b a m n) := by
  unfold Reg.axpyP; racc
macro_rules | `(tactic| racc1) => `(tactic| with_reducible exact acc_Reg_axpyP ..)

theorem acc_Reg_load (SS RM N : Nat) (r : Reg V) (a : MPtr) : Acc W (fun _ => True) (r.load SS RM N a) := by
  unfold Reg.load; racc
macro_rules | `(tactic| racc1) => `(tactic| with_reducible exact acc_Reg_load ..)

theorem acc_Reg_loadB (SS RM N : Nat) (r : Reg V) (b : V) (a : MPtr) : Acc W (fun _ => True) (r.loadB SS RM N b a) := by
  unfold Reg.loadB; racc
macro_rules | `(tactic| racc1) => `(tactic| with_reducible exact acc_Reg_loadB ..)

theorem acc_Reg_loadBP (SS RM N : Nat) (r : Reg V) (b : V) (a : MPtr) (m n : Nat) : Acc W (fun _ => True) (r.loadBP SS RM N b a m n) := by
  unfold Reg.loadBP; racc
macro_rules | `(tactic| racc1) => `(tactic| with_reducible exact acc_Reg_loadBP ..)

theorem acc_Reg_loadCol (SS RM : Nat) (a : VPtr) (f : V → V) : Acc W (fun _ => True) (Reg.loadCol SS RM a f) := by
  unfold Reg.loadCol; racc
macro_rules | `(tactic| racc1) => `(tactic| with_reducible exact acc_Reg_loadCol ..)

theorem acc_Reg_gerF (SS RM N : Nat) (r : Reg V) (f : V → V) (a b : VPtr) : Acc W (fun _ => True) (r.gerF SS RM N f a b) := by
  unfold Reg.gerF; racc
macro_rules | `(tactic| racc1) => `(tactic| with_reducible exact acc_Reg_gerF ..)

theorem acc_Reg_gerFP (SS RM N : Nat) (r : Reg V) (f : V → V) (a b : VPtr) (m n : Nat) : Acc W (fun _ => True) (r.gerFP SS RM N f a b m n) := by
  unfold Reg.gerFP; racc
macro_rules | `(tactic| racc1) => `(tactic| with_reducible exact acc_Reg_gerFP ..)

theorem acc_Reg_trsmRU (SS RM N : Nat) (r : Reg V) (a : MPtr) : Acc W (fun _ => True) (r.trsmRU SS RM N a) := by
  unfold Reg.trsmRU; racc
macro_rules | `(tactic| racc1) => `(tactic| with_reducible exact acc_Reg_trsmRU ..)

theorem acc_Reg_potrf (SS RM N : Nat) (r : Reg V) : Acc W (fun _ => True) (r.potrf SS RM N) := by
  unfold Reg.potrf; racc
macro_rules | `(tactic| racc1) => `(tactic| with_reducible exact acc_Reg_potrf ..)

theorem acc_Reg_trmmL (SS RM N : Nat) (r : Reg V) (al : V) (a : MPtr) (u : Reg.UpLo) (d : Bool) (b : MPtr) : Acc W (fun _ => True) (r.trmmL SS RM N al a u d b) := by
  unfold Reg.trmmL; racc
macro_rules | `(tactic| racc1) => `(tactic| with_reducible exact acc_Reg_trmmL ..)

theorem acc_Reg_trmmRStep (SS RM : Nat) (al : V) (k : Nat) (s : Reg V × MPtr × MPtr) : Acc W (fun _ => True) (Reg.trmmRStep SS RM al k s) := by
  unfold Reg.trmmRStep; racc
macro_rules | `(tactic| racc1) => `(tactic| with_reducible exact acc_Reg_trmmRStep ..)

theorem acc_Reg_trmmR (SS RM N : Nat) (r : Reg V) (al : V) (b a : MPtr) (u : Reg.UpLo) (d : Bool) : Acc W (fun _ => True) (r.trmmR SS RM N al b a u d) := by
  unfold Reg.trmmR; racc
macro_rules | `(tactic| racc1) => `(tactic| with_reducible exact acc_Reg_trmmR ..)

theorem acc_Reg_trmmRP (SS RM N : Nat) (r : Reg V) (al : V) (b a : MPtr) (u : Reg.UpLo) (d : Bool) (m n : Nat) : Acc W (fun _ => True) (r.trmmRP SS RM N al b a u d m n) := by
  unfold Reg.trmmRP; racc
macro_rules | `(tactic| racc1) => `(tactic| with_reducible exact acc_Reg_trmmRP ..)

theorem acc_gemmAcc (SS RM N : Nat) (r : Reg V) (K : Nat) (al : V) (a b : MPtr) : Acc W (fun _ => True) (gemmAcc SS RM N r K al a b) := by
  unfold gemmAcc; racc
macro_rules | `(tactic| racc1) => `(tactic| with_reducible exact acc_gemmAcc ..)

theorem acc_gemmAccP (SS RM N : Nat) (r : Reg V) (K : Nat) (al : V) (a b : MPtr) (m n : Nat) : Acc W (fun _ => True) (gemmAccP SS RM N r K al a b m n) := by
  unfold gemmAccP; racc
macro_rules | `(tactic| racc1) => `(tactic| with_reducible exact acc_gemmAccP ..)

theorem acc_foldFrom {σ : Type} (lo hi : Nat) (f : Nat → σ → Prog V σ) (s : σ) (h : ∀ k s, Acc W (fun _ => True) (f k s)) : Acc W (fun _ => True) (foldFrom lo hi f s) := by
  unfold foldFrom; racc; exact h _ _
macro_rules | `(tactic| racc1) => `(tactic| with_reducible refine acc_foldFrom _ _ _ _ (fun _ _ => ?_))

theorem acc_derefAt (SS : Nat) (p : MPtr) (i j : Nat) : Acc W (fun _ => True) (derefAt SS p i j : Prog V V) := by
  unfold derefAt; racc
macro_rules | `(tactic| racc1) => `(tactic| with_reducible exact acc_derefAt ..)

theorem acc_vderef (SS : Nat) (x : VPtr) (i : Nat) : Acc W (fun _ => True) (vderef SS x i : Prog V V) := by
  unfold vderef; racc
macro_rules | `(tactic| racc1) => `(tactic| with_reducible exact acc_vderef ..)

theorem acc_Container_get (SS : Nat) (c : Container) (i j : Nat) : Acc W (fun _ => True) (Container.get SS c i j : Prog V V) := by
  unfold Container.get; racc
macro_rules | `(tactic| racc1) => `(tactic| with_reducible exact acc_Container_get ..)

theorem acc_MExpr_get (SS : Nat) (e : MExpr) (i j : Nat) : Acc W (fun _ => True) (MExpr.get SS e i j : Prog V V) := by
  unfold MExpr.get; racc
macro_rules | `(tactic| racc1) => `(tactic| with_reducible exact acc_MExpr_get ..)

theorem acc_eqMat (SS : Nat) (a b : Container) : Acc W (fun _ => True) (eqMat SS a b : Prog V Bool) := by
  unfold eqMat; racc
macro_rules | `(tactic| racc1) => `(tactic| with_reducible exact acc_eqMat ..)

end ro

/-! ### Stores of register matrices -/

section stores
variable [Arith V] {W : Int → Prop} {SS RM N mm nn : Nat} {q p : MPtr} {I J : Int}

theorem acc_At_store (hw : p.WF SS) (h : MPtr.At SS q p I J) (hs : p.so = .columnMajor) (hc : p.panel = true → I % (SS : Int) = 0) (v : Vec V)
    (hW : ∀ l : Nat, l < SS → W (p.addr SS (I + l) J)) : Acc W (fun _ => True) (q.store SS v) := by
  unfold MPtr.store
  refine acc_storeVec (fun l hl => ?_)
  rw [h.ptr, ← MPtr.addr_contig hw hs I J hc l hl]
  exact hW l hl

theorem acc_At_storeMask (hw : p.WF SS) (h : MPtr.At SS q p I J) (hs : p.so = .columnMajor) (hc : p.panel = true → I % (SS : Int) = 0) (v : Vec V)
    {k : Nat → Bool} (hW : ∀ l : Nat, l < SS → k l = true → W (p.addr SS (I + l) J)) : Acc W (fun _ => True) (q.storeMask SS v k) := by
  unfold MPtr.storeMask
  refine acc_storeVecMask (fun l hl hk => ?_)
  rw [h.ptr, ← MPtr.addr_contig hw hs I J hc l hl]
  exact hW l hl hk

theorem acc_tileVec (hSS : 0 < SS) (hw : p.WF SS) (h : MPtr.At SS q p I J) (hs : p.so = .columnMajor) (hc : p.panel = true → I % (SS : Int) = 0)
    (i j : Nat) (v : Vec V) (hW : ∀ l : Nat, l < SS → W (p.addr SS (I + (i * SS + l : Nat)) (J + j))) :
    Acc W (fun _ => True) ((q.off SS ((SS : Int) * (i : Int)) (j : Int)).store SS v) := by
  refine acc_At_store hw (Reg.at_tile hSS hw h hs i j) hs (fun hp => Reg.tile_mod (hc hp) i) v (fun l hl => ?_)
  rw [Int.add_assoc, ← Int.natCast_add]
  exact hW l hl

theorem acc_tileVecMask (hSS : 0 < SS) (hw : p.WF SS) (h : MPtr.At SS q p I J) (hs : p.so = .columnMajor) (hc : p.panel = true → I % (SS : Int) = 0)
    (i j : Nat) (v : Vec V) {k : Nat → Bool} (hW : ∀ l : Nat, l < SS → k l = true → W (p.addr SS (I + (i * SS + l : Nat)) (J + j))) :
    Acc W (fun _ => True) ((q.off SS ((SS : Int) * (i : Int)) (j : Int)).storeMask SS v k) := by
  refine acc_At_storeMask hw (Reg.at_tile hSS hw h hs i j) hs (fun hp => Reg.tile_mod (hc hp) i) v (fun l hl hk => ?_)
  rw [Int.add_assoc, ← Int.natCast_add]
  exact hW l hl hk

theorem acc_Reg_store (hSS : 0 < SS) {r : Reg V} (hw : p.WF SS) (h : MPtr.At SS q p I J) (hs : p.so = .columnMajor)
    (hc : p.panel = true → I % (SS : Int) = 0) (hW : ∀ a b : Nat, a < RM * SS → b < N → W (p.addr SS (I + a) (J + b))) :
    Acc W (fun _ => True) (r.store SS RM N q) := by
  unfold Reg.store
  exact acc_forN (fun j hj => acc_forN (fun i hi => acc_tileVec hSS hw h hs hc i j _ (fun l hl => hW _ _ (idx_lt hi hl) hj)))

theorem acc_Reg_storeP (hSS : 0 < SS) {r : Reg V} (hw : p.WF SS) (h : MPtr.At SS q p I J) (hs : p.so = .columnMajor)
    (hc : p.panel = true → I % (SS : Int) = 0)
    (hW : ∀ a b : Nat, a < RM * SS → a < mm → b < N → b < nn → W (p.addr SS (I + a) (J + b))) :
    Acc W (fun _ => True) (r.storeP SS RM N q mm nn) := by
  have hdm := Nat.div_add_mod mm SS
  have hml := Nat.mod_lt mm hSS
  unfold Reg.storeP
  refine acc_bind ?_ (fun _ => ?_)
  · refine acc_forN (fun j hj => acc_onlyIf (fun hjn => acc_forN (fun i hi => acc_onlyIf (fun him =>
      acc_tileVec hSS hw h hs hc i j _ (fun l hl => hW _ _ (idx_lt hi hl) ?_ hj (by simpa using hjn))))))
    have him : SS * (i + 1) ≤ mm := by simpa using him
    rw [Nat.mul_comm, Nat.add_mul] at him; omega
  · refine acc_ite (fun _ => ?_) (fun _ => acc_pure trivial)
    refine acc_forN (fun j hj => acc_ite (fun hlt => ?_) (fun _ => acc_ub))
    have e : ((SS * (mm / SS) : Nat) : Int) = (SS : Int) * ((mm / SS : Nat) : Int) := by push_cast; rfl
    rw [e]
    refine acc_tileVecMask hSS hw h hs hc (mm / SS) j _ (fun l hl hk => hW _ _ (idx_lt hlt hl) ?_ (by omega) (by omega))
    have hk : l < mm % SS := by simpa using hk
    rw [Nat.mul_comm] at hdm; omega

theorem acc_Reg_storeLower (hSS : 0 < SS) {r : Reg V} (hw : p.WF SS) (h : MPtr.At SS q p I J) (hs : p.so = .columnMajor)
    (hc : p.panel = true → I % (SS : Int) = 0) (hW : ∀ a b : Nat, a < RM * SS → b < N → b ≤ a → W (p.addr SS (I + a) (J + b))) :
    Acc W (fun _ => True) (r.storeLower SS RM N q) := by
  unfold Reg.storeLower
  refine acc_forN (fun j hj => ?_)
  have hdm := Nat.div_add_mod j SS
  have hml := Nat.mod_lt j hSS
  rw [Nat.mul_comm] at hdm
  refine acc_bind (acc_onlyIf (fun hb => ?_)) (fun _ => ?_)
  · have hb : j % SS ≠ 0 ∧ j / SS < RM := by simpa using hb
    have e : ((SS * (j / SS) : Nat) : Int) = (SS : Int) * ((j / SS : Nat) : Int) := by push_cast; rfl
    rw [e]
    refine acc_tileVecMask hSS hw h hs hc (j / SS) j _ (fun l hl hk => hW _ _ (idx_lt hb.2 hl) hj ?_)
    have hk : j % SS ≤ l := by simpa using hk
    omega
  · refine acc_forFrom (fun ri h1 h2 => acc_tileVec hSS hw h hs hc ri j _ (fun l hl => hW _ _ (idx_lt h2 hl) hj ?_))
    by_cases hb : j % SS ≠ 0 ∧ j / SS < RM
    · rw [if_pos hb] at h1
      have := Nat.mul_le_mul_right SS h1
      rw [Nat.add_mul] at this; omega
    · rw [if_neg hb] at h1
      have := Nat.mul_le_mul_right SS h1
      have : j % SS = 0 := by
        by_cases h0 : j % SS = 0
        · exact h0
        · exact absurd ⟨h0, by omega⟩ hb
      omega

theorem acc_Reg_storeLowerP (hSS : 0 < SS) {r : Reg V} (hw : p.WF SS) (h : MPtr.At SS q p I J) (hs : p.so = .columnMajor)
    (hc : p.panel = true → I % (SS : Int) = 0)
    (hW : ∀ a b : Nat, a < RM * SS → a < mm → b < N → b < nn → b ≤ a → W (p.addr SS (I + a) (J + b))) :
    Acc W (fun _ => True) (r.storeLowerP SS RM N q mm nn) := by
  unfold Reg.storeLowerP
  refine acc_forN (fun j hj => acc_onlyIf (fun hjn => acc_forFrom (fun ri h1 h2 => ?_)))
  have hdm := Nat.div_add_mod j SS
  have hml := Nat.mod_lt j hSS
  rw [Nat.mul_comm] at hdm
  have hle := Nat.mul_le_mul_right SS h1
  refine acc_tileVecMask hSS hw h hs hc ri j _ (fun l hl hk => ?_)
  simp only [Bool.and_eq_true, decide_eq_true_eq] at hk
  obtain ⟨k1, k2⟩ := hk
  have e : ((ri * SS : Nat) : Int) = (ri : Int) * (SS : Int) := Int.natCast_mul _ _
  refine hW _ _ (idx_lt h2 hl) (by omega) hj (by simpa using hjn) ?_
  by_cases h3 : 0 < (j : Int) - (ri : Int) * (SS : Int)
  · rw [if_pos h3] at k2
    simp only [decide_eq_true_eq] at k2
    omega
  · omega

end stores

/-! ### Loops over tiles -/

section tiles
variable {W : Int → Prop}
variable [Arith V]

theorem acc_tile {SS : Nat} (hSS : 0 < SS) (ct : Bool) {m n : Nat} {ff : Nat → Nat → Nat → Prog V Unit}
    {fp : Nat → Nat → Nat → Nat → Nat → Prog V Unit}
    (hf : ∀ RM i j, i % SS = 0 → i + RM * SS ≤ m → j + 4 ≤ n → Acc W (fun _ => True) (ff RM i j))
    (hp : ∀ RM i j km kn, i % SS = 0 → i + km ≤ m → j + kn ≤ n → km ≤ RM * SS → kn ≤ 4 → Acc W (fun _ => True) (fp RM i j km kn)) :
    Acc W (fun _ => True) (tile SS ct m n ff fp) := by
  rw [tile_eq hSS]
  refine acc_forList (fun t ht => ?_)
  have ok := tileCalls_ok hSS ct m n t ht
  unfold TileCall.exec
  refine acc_ite (fun h => ?_) (fun _ => hp _ _ _ _ _ ok.align ok.rows ok.cols ok.fits ok.width)
  obtain ⟨h1, h2⟩ := ok.full.1 h
  exact hf _ _ _ ok.align (by rw [← h1]; exact ok.rows) (by rw [← h2]; exact ok.cols)

theorem acc_rowTiles {T M i0 : Nat} (h0 : i0 ≤ M) (h0T : i0 % T = 0) {body : Nat → Nat → Prog V Unit} {tail : Nat → Prog V Unit}
    (hb : ∀ rm i, i0 ≤ i → i % T = 0 → i + rm * T ≤ M → Acc W (fun _ => True) (body rm i))
    (ht : ∀ i, i0 ≤ i → i % T = 0 → i < M → M < i + T → Acc W (fun _ => True) (tail i)) : Acc W (fun _ => True) (rowTiles T M i0 body tail) := by
  unfold rowTiles
  have step : ∀ (rm : Nat) (c : Nat → Bool), (∀ i, c i = true → i + rm * T ≤ M) → ∀ i, (i0 ≤ i ∧ i ≤ M ∧ i % T = 0) →
      Acc W (fun i => (i0 ≤ i ∧ i ≤ M ∧ i % T = 0) ∧ c i = false) (loop (M + 1) c (rm * T) (body rm) i) := by
    intro rm c hc i hI
    refine acc_loop (fun i => i0 ≤ i ∧ i ≤ M ∧ i % T = 0) hI (fun k hk hck => ⟨hb rm k hk.1 hk.2.2 (hc k hck), by omega, hc k hck, ?_⟩)
    rw [Nat.add_mul_mod_self_right]; exact hk.2.2
  refine acc_bindQ (step 3 _ (fun i hi => by simp at hi; exact hi.1) i0 ⟨Nat.le_refl _, h0, h0T⟩) (fun i1 h1 => ?_)
  refine acc_bindQ (step 2 _ (fun i hi => by simpa using hi) i1 h1.1) (fun i2 h2 => ?_)
  refine acc_bindQ (step 1 _ (fun i hi => by simpa using hi) i2 h2.1) (fun i3 h3 => ?_)
  refine acc_onlyIf (fun hlt => ht i3 h3.1.1 h3.1.2.2 (by simpa using hlt) ?_)
  have := h3.2
  simp at this; omega

theorem acc_colTiles {T N : Nat} {body tail : Nat → Prog V Unit}
    (hb : ∀ j, j % T = 0 → j + T ≤ N → Acc W (fun _ => True) (body j))
    (ht : ∀ j, j % T = 0 → j < N → N < j + T → Acc W (fun _ => True) (tail j)) : Acc W (fun _ => True) (colTiles T N body tail) := by
  unfold colTiles
  refine acc_bindQ (acc_loop (fun j => j ≤ N ∧ j % T = 0) ⟨by omega, Nat.zero_mod T⟩ (fun k hk hck => ?_)) (fun j hj => ?_)
  · have hck : k + T ≤ N := by simpa using hck
    exact ⟨hb k hk.2 hck, hck, by rw [Nat.add_mod_right]; exact hk.2⟩
  · refine acc_onlyIf (fun hlt => ht j hj.1.2 (by simpa using hlt) ?_)
    have := hj.2
    simp at this; omega

end tiles

/-! ### gemm, ger, syrk, trmm -/

section algos
variable [Arith V] {W : Int → Prop} {SS TR M N K RM mm nn i j : Nat} {A B C D : MPtr}

/-- a tile inside the output is stored -/
theorem acc_storeAt (hSS : 0 < SS) {r : Reg V} (hw : D.WF SS) (hs : D.so = .columnMajor) (hi : i % SS = 0)
    (hW : ∀ a b : Nat, i ≤ a → a < i + RM * SS → j ≤ b → b < j + N → W (D.addr SS a b)) : Acc W (fun _ => True) (r.store SS RM N (D.off SS i j)) := by
  refine acc_Reg_store hSS hw (at_off hSS hw i j (fun _ => by unfold MPtr.major; rw [hs]; exact cast_mod_zero hi)) hs (fun _ => cast_mod_zero hi)
    (fun a b ha hb => ?_)
  rw [← Int.natCast_add, ← Int.natCast_add]
  exact hW _ _ (by omega) (by omega) (by omega) (by omega)

theorem acc_storePAt (hSS : 0 < SS) {r : Reg V} (hw : D.WF SS) (hs : D.so = .columnMajor) (hi : i % SS = 0)
    (hW : ∀ a b : Nat, i ≤ a → a < i + RM * SS → a < i + mm → j ≤ b → b < j + N → b < j + nn → W (D.addr SS a b)) :
    Acc W (fun _ => True) (r.storeP SS RM N (D.off SS i j) mm nn) := by
  refine acc_Reg_storeP hSS hw (at_off hSS hw i j (fun _ => by unfold MPtr.major; rw [hs]; exact cast_mod_zero hi)) hs (fun _ => cast_mod_zero hi)
    (fun a b ha ha' hb hb' => ?_)
  rw [← Int.natCast_add, ← Int.natCast_add]
  exact hW _ _ (by omega) (by omega) (by omega) (by omega) (by omega) (by omega)

theorem acc_storeLowerAt (hSS : 0 < SS) {r : Reg V} (hw : D.WF SS) (hs : D.so = .columnMajor) (hi : i % SS = 0)
    (hW : ∀ a b : Nat, i ≤ a → a < i + RM * SS → i ≤ b → b < i + N → b ≤ a → W (D.addr SS a b)) :
    Acc W (fun _ => True) (r.storeLower SS RM N (D.off SS i i)) := by
  refine acc_Reg_storeLower hSS hw (at_off hSS hw i i (fun _ => by unfold MPtr.major; rw [hs]; exact cast_mod_zero hi)) hs (fun _ => cast_mod_zero hi)
    (fun a b ha hb hab => ?_)
  rw [← Int.natCast_add, ← Int.natCast_add]
  exact hW _ _ (by omega) (by omega) (by omega) (by omega) (by omega)

theorem acc_storeLowerPAt (hSS : 0 < SS) {r : Reg V} (hw : D.WF SS) (hs : D.so = .columnMajor) (hi : i % SS = 0)
    (hW : ∀ a b : Nat, i ≤ a → a < i + RM * SS → a < i + mm → i ≤ b → b < i + N → b < i + nn → b ≤ a → W (D.addr SS a b)) :
    Acc W (fun _ => True) (r.storeLowerP SS RM N (D.off SS i i) mm nn) := by
  refine acc_Reg_storeLowerP hSS hw (at_off hSS hw i i (fun _ => by unfold MPtr.major; rw [hs]; exact cast_mod_zero hi)) hs (fun _ => cast_mod_zero hi)
    (fun a b ha ha' hb hb' hab => ?_)
  rw [← Int.natCast_add, ← Int.natCast_add]
  exact hW _ _ (by omega) (by omega) (by omega) (by omega) (by omega) (by omega) (by omega)

theorem acc_gemmPtr (hSS : 0 < SS) (hw : D.WF SS) (hs : D.so = .columnMajor) (alpha beta : V)
    (hW : ∀ a b : Nat, a < M → b < N → W (D.addr SS a b)) : Acc W (fun _ => True) (gemmPtr SS M N K alpha A B beta C D) := by
  unfold gemmPtr
  refine acc_tile hSS _ (fun RM i j hi h1 h2 => ?_) (fun RM i j km kn hi h1 h2 h3 h4 => ?_)
  · unfold gemmFull
    refine acc_noexcept (acc_bind (by racc) (fun r => acc_bind (by racc) (fun r => ?_)))
    exact acc_storeAt hSS hw hs hi (fun a b _ _ _ _ => hW _ _ (by omega) (by unfold tileStep at *; omega))
  · unfold gemmPart
    refine acc_noexcept (acc_bind (by racc) (fun r => acc_bind (by racc) (fun r => ?_)))
    exact acc_storePAt hSS hw hs hi (fun a b _ _ _ _ _ _ => hW _ _ (by omega) (by omega))

theorem acc_gemmMat (hSS : 0 < SS) {A B C D : Mat} (hw : D.p.WF SS) (hs : D.p.so = .columnMajor) (alpha beta : V)
    (hW : ∀ a b : Nat, a < D.rows → b < D.cols → W (D.p.addr SS a b)) : Acc W (fun _ => True) (gemmMat SS alpha A B beta C D) := by
  unfold gemmMat
  refine acc_ite (fun _ => acc_throw _) (fun h1 => acc_ite (fun _ => acc_throw _) (fun h2 => acc_ite (fun _ => acc_throw _) (fun h3 => ?_)))
  exact acc_gemmPtr hSS hw hs alpha beta (fun a b ha hb => hW a b (by omega) (by omega))

theorem acc_gerPtr (hSS : 0 < SS) (hw : D.WF SS) (hs : D.so = .columnMajor) (alpha : V) (x y : VPtr)
    (hW : ∀ a b : Nat, a < M → b < N → W (D.addr SS a b)) : Acc W (fun _ => True) (gerPtr SS TR M N alpha x y A D) := by
  unfold gerPtr
  refine acc_colTiles (fun j hj h1 => acc_rowTiles (by omega) (Nat.zero_mod _) (fun rm i _ hi h2 => ?_) (fun i _ hi h2 h3 => ?_))
    (fun j hj h1 h1' => acc_rowTiles (by omega) (Nat.zero_mod _) (fun rm i _ hi h2 => ?_) (fun i _ hi h2 h3 => ?_))
  · unfold gerTileFull
    refine acc_bind (by racc) (fun r => acc_bind (by racc) (fun r => ?_))
    rw [← Nat.mul_assoc] at h2
    exact acc_storeAt hSS hw hs (mod_of_mod_mul hi) (fun a b _ _ _ _ => hW _ _ (by omega) (by omega))
  all_goals
    unfold gerTilePart
    refine acc_bind (by racc) (fun r => acc_bind (by racc) (fun r => ?_))
    exact acc_storePAt hSS hw hs (mod_of_mod_mul hi) (fun a b _ _ _ _ _ _ => hW _ _ (by omega) (by omega))

theorem acc_gerMat (hSS : 0 < SS) {A B : Mat} (hw : B.p.WF SS) (hs : B.p.so = .columnMajor) (alpha : V) (x y : VArg)
    (hW : ∀ a b : Nat, a < B.rows → b < B.cols → W (B.p.addr SS a b)) : Acc W (fun _ => True) (gerMat SS TR alpha x y A B) := by
  unfold gerMat
  refine acc_ite (fun _ => acc_throw _) (fun h1 => acc_ite (fun _ => acc_throw _) (fun h2 => acc_ite (fun _ => acc_throw _)
    (fun h3 => acc_ite (fun _ => acc_throw _) (fun h4 => ?_))))
  exact acc_gerPtr hSS hw hs alpha _ _ (fun a b ha hb => hW a b (by omega) (by omega))

theorem acc_gerRowMat {A B : Mat} (alpha : V) (x y : VArg) (hW : ∀ a b : Nat, a < x.n → b < y.n → W (B.p.addr SS a b)) :
    Acc W (fun _ => True) (gerRowMat SS alpha x y A B) := by
  unfold gerRowMat
  refine acc_ite (fun _ => acc_throw _) (fun _ => acc_forN (fun i hi => acc_forN (fun j hj => ?_)))
  refine acc_bind (by racc) (fun r => acc_bind (by racc) (fun r => acc_bind (by racc) (fun r => ?_)))
  exact acc_write (hW i j hi hj)

theorem acc_syrkPtr (hSS : 0 < SS) (hw : D.WF SS) (hs : D.so = .columnMajor) (alpha beta : V)
    (hW : ∀ a b : Nat, a < M → b ≤ a → W (D.addr SS a b)) : Acc W (fun _ => True) (syrkPtr SS TR M K alpha A beta C D) := by
  unfold syrkPtr
  have hpart : ∀ {RM i j ml mm nn : Nat}, i % SS = 0 → i + mm ≤ M → j ≤ i → (i ≠ j → j + TR * SS ≤ i) →
      Acc W (fun _ => True) (syrkTilePart SS TR RM K alpha A beta C D i j ml mm nn) := by
    intro RM i j ml mm nn hi h1 h2 h3
    unfold syrkTilePart
    refine acc_bind (by racc) (fun r => acc_bind (by racc) (fun r => acc_ite (fun e => ?_) (fun e => ?_)))
    · subst e
      exact acc_storeLowerPAt hSS hw hs hi (fun a b _ _ _ _ _ _ _ => hW _ _ (by omega) (by omega))
    · have := h3 e
      exact acc_storePAt hSS hw hs hi (fun a b _ _ _ _ _ _ => hW _ _ (by omega) (by omega))
  have hgap : ∀ {i j : Nat}, i % (TR * SS) = 0 → j % (TR * SS) = 0 → j ≤ i → i ≠ j → j + TR * SS ≤ i := by
    intro i j hi hj hle hne
    have h1 := Nat.div_add_mod i (TR * SS)
    have h2 := Nat.div_add_mod j (TR * SS)
    rw [hi, Nat.add_zero] at h1
    rw [hj, Nat.add_zero] at h2
    have h3 : j / (TR * SS) + 1 ≤ i / (TR * SS) := by
      by_cases h4 : i / (TR * SS) ≤ j / (TR * SS)
      · have := Nat.mul_le_mul_left (TR * SS) h4
        omega
      · omega
    have := Nat.mul_le_mul_left (TR * SS) h3
    rw [Nat.mul_add] at this
    omega
  refine acc_colTiles (fun j hj h1 => acc_rowTiles (by omega) hj (fun rm i h0 hi h2 => ?_) (fun i h0 hi h2 h3 => ?_))
    (fun j hj h1 h1' => acc_rowTiles (by omega) hj (fun rm i h0 hi h2 => ?_) (fun i h0 hi h2 h3 => ?_))
  · unfold syrkTileFull
    rw [← Nat.mul_assoc] at h2
    refine acc_bind (by racc) (fun r => acc_bind (by racc) (fun r => acc_ite (fun e => ?_) (fun e => ?_)))
    · subst e
      exact acc_storeLowerAt hSS hw hs (mod_of_mod_mul hi) (fun a b _ _ _ _ _ => hW _ _ (by omega) (by omega))
    · have := hgap hi hj h0 e
      exact acc_storeAt hSS hw hs (mod_of_mod_mul hi) (fun a b _ _ _ _ => hW _ _ (by omega) (by omega))
  · exact hpart (mod_of_mod_mul hi) (by omega) h0 (hgap hi hj h0)
  · exact hpart (mod_of_mod_mul hi) (by rw [← Nat.mul_assoc] at h2; omega) h0 (hgap hi hj h0)
  · exact hpart (mod_of_mod_mul hi) (by omega) h0 (hgap hi hj h0)

theorem acc_syrkMat (hSS : 0 < SS) {A C D : Mat} (hw : D.p.WF SS) (hs : D.p.so = .columnMajor) (alpha beta : V)
    (hW : ∀ a b : Nat, a < D.rows → b < D.cols → b ≤ a → W (D.p.addr SS a b)) : Acc W (fun _ => True) (syrkMat SS TR alpha A beta C D) := by
  unfold syrkMat
  refine acc_ite (fun _ => acc_throw _) (fun h1 => acc_ite (fun _ => acc_throw _) (fun h2 => ?_))
  exact acc_syrkPtr hSS hw hs alpha beta (fun a b ha hb => hW a b (by omega) (by omega) hb)

theorem acc_trmmLeftBackend (hSS : 0 < SS) {T I : Nat} {a b c : MPtr} (hw : C.WF SS) (hs : C.so = .columnMajor) (hI : I % SS = 0) (alpha : V)
    (hc : MPtr.At SS c C I 0) (hW : ∀ x y : Nat, I ≤ x → x < I + M → y < N → W (C.addr SS x y)) :
    Acc W (fun _ => True) (trmmLeftBackend SS RM T M N alpha a b c) := by
  have hat : ∀ j : Nat, MPtr.At SS (c.off SS 0 j) C I j := fun j => by
    have := hc.off hSS hw 0 (j : Int) (fun _ => by unfold MPtr.major; rw [hs]; simp)
    rwa [Int.add_zero, Int.zero_add] at this
  unfold trmmLeftBackend
  refine acc_ite (fun h0 => acc_colTiles (fun j _ h1 => ?_) (fun j _ h1 h2 => ?_)) (fun h0 => acc_colTiles (fun j _ h1 => ?_) (fun j _ h1 h2 => ?_))
  · refine acc_bind (by racc) (fun r => acc_bind (by racc) (fun r => ?_))
    refine acc_Reg_store hSS hw (hat j) hs (fun _ => cast_mod_zero hI) (fun x y hx hy => ?_)
    rw [← Int.natCast_add, ← Int.natCast_add]
    exact hW _ _ (by omega) (by omega) (by omega)
  all_goals
    refine acc_bind (by racc) (fun r => ?_)
    refine acc_Reg_storeP hSS hw (hat j) hs (fun _ => cast_mod_zero hI) (fun x y hx hx' hy hy' => ?_)
    rw [← Int.natCast_add, ← Int.natCast_add]
    exact hW _ _ (by omega) (by omega) (by omega)

theorem acc_trmmLeftPtr (hSS : 0 < SS) (hw : C.WF SS) (hs : C.so = .columnMajor) (alpha : V) (uplo : Reg.UpLo) (diag : Bool)
    (hW : ∀ a b : Nat, a < M → b < N → W (C.addr SS a b)) : Acc W (fun _ => True) (trmmLeftPtr SS TR M N alpha A uplo diag B C) := by
  unfold trmmLeftPtr
  refine acc_ite (fun _ => acc_throw _) (fun _ => ?_)
  cases uplo with
  | lower => exact acc_throw _
  | upper =>
    dsimp only
    have step : ∀ (rm : Nat) (c : Nat → Bool), (∀ i, c i = true → i < M) → ∀ i, i % SS = 0 →
        Acc W (fun i => i % SS = 0 ∧ c i = false) (loop (M + 1) c (rm * (TR * SS)) (fun i => trmmLeftBackend SS (rm * TR) (TR * SS) (M - i) N alpha
          (A.off SS i i) (B.off SS i 0) (C.off SS i 0)) i) := by
      intro rm c hc i hI
      refine acc_loop (fun i => i % SS = 0) hI (fun k hk hck => ⟨?_, ?_⟩)
      · have := hc k hck
        exact acc_trmmLeftBackend hSS hw hs hk alpha (at_off hSS hw k 0 (fun _ => by unfold MPtr.major; rw [hs]; exact cast_mod_zero hk))
          (fun x y _ _ _ => hW x y (by omega) (by omega))
      · rw [← Nat.mul_assoc, Nat.add_mul_mod_self_right]; exact hk
    refine acc_bindQ (step 3 _ (fun i hi => by simp at hi; omega) 0 (Nat.zero_mod _)) (fun i1 h1 => ?_)
    refine acc_bindQ (step 2 _ (fun i hi => by simp at hi; omega) i1 h1.1) (fun i2 h2 => ?_)
    refine acc_bindQ (step 1 _ (fun i hi => by simp at hi; omega) i2 h2.1) (fun i3 h3 => acc_pure trivial)

theorem acc_trmmLeftMat (hSS : 0 < SS) {A B C : Mat} (hw : C.p.WF SS) (hs : C.p.so = .columnMajor) (alpha : V) (uplo : Reg.UpLo) (diag : Bool)
    (hW : ∀ a b : Nat, a < C.rows → b < C.cols → W (C.p.addr SS a b)) : Acc W (fun _ => True) (trmmLeftMat SS TR alpha A uplo diag B C) := by
  unfold trmmLeftMat
  refine acc_ite (fun _ => acc_throw _) (fun h1 => acc_ite (fun _ => acc_throw _) (fun h2 => ?_))
  exact acc_trmmLeftPtr hSS hw hs alpha uplo diag (fun a b ha hb => hW a b (by omega) (by omega))

theorem acc_trmmRightPtr (hSS : 0 < SS) (hw : C.WF SS) (hs : C.so = .columnMajor) (alpha : V) (uplo : Reg.UpLo) (diag : Bool)
    (hW : ∀ a b : Nat, a < M → b < N → W (C.addr SS a b)) : Acc W (fun _ => True) (trmmRightPtr SS TR M N alpha B A uplo diag C) := by
  unfold trmmRightPtr
  cases uplo with
  | upper => exact acc_throw _
  | lower =>
    dsimp only
    refine acc_colTiles (fun j hj h1 => acc_rowTiles (by omega) (Nat.zero_mod _) (fun rm i _ hi h2 => ?_) (fun i _ hi h2 h3 => ?_))
      (fun j hj h1 h1' => acc_rowTiles (by omega) (Nat.zero_mod _) (fun rm i _ hi h2 => ?_) (fun i _ hi h2 h3 => ?_))
    · unfold trmmRTileFull
      refine acc_bind (by racc) (fun r => acc_bind (by racc) (fun r => ?_))
      rw [← Nat.mul_assoc] at h2
      exact acc_storeAt hSS hw hs (mod_of_mod_mul hi) (fun a b _ _ _ _ => hW _ _ (by omega) (by omega))
    · unfold trmmRTileBottom
      refine acc_bind (by racc) (fun r => acc_bind (by racc) (fun r => ?_))
      exact acc_storePAt hSS hw hs (mod_of_mod_mul hi) (fun a b _ _ _ _ _ _ => hW _ _ (by omega) (by omega))
    all_goals
      unfold trmmRTileRight
      refine acc_bind (by racc) (fun r => ?_)
      exact acc_storePAt hSS hw hs (mod_of_mod_mul hi) (fun a b _ _ _ _ _ _ => hW _ _ (by omega) (by omega))

theorem acc_trmmRightMat (hSS : 0 < SS) {A B C : Mat} (hw : C.p.WF SS) (hs : C.p.so = .columnMajor) (alpha : V) (uplo : Reg.UpLo) (diag : Bool)
    (hW : ∀ a b : Nat, a < C.rows → b < C.cols → W (C.p.addr SS a b)) : Acc W (fun _ => True) (trmmRightMat SS TR alpha B A uplo diag C) := by
  unfold trmmRightMat
  refine acc_ite (fun _ => acc_throw _) (fun h1 => acc_ite (fun _ => acc_throw _) (fun h2 => ?_))
  exact acc_trmmRightPtr hSS hw hs alpha uplo diag (fun a b ha hb => hW a b (by omega) (by omega))

end algos
end Blast
