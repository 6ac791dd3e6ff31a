import Verif.Lifecycle
import Verif.PanelRandom
import Verif.Getrf
import Verif.Syrk
import Verif.Trmm
import Verif.Potrf
import Verif.PanelAssign
/-
Locality of programs: a program uses no memory but the cells that are allocated when it starts and allocates and frees nothing, so adding
further memory does not change what it does.

The predicate `Framed` is preserved by all constructs from which the modelled functions are built; below it is proved for every function of the
model that does not allocate.
-/
set_option linter.unusedSectionVars false
namespace Blast
open Prog
variable {V : Type}

/-- the memory `m` together with the cells of `f` that are not in `m` -/
def Mem.join (m f : Mem V) : Mem V := fun z => (m z).or (f z)

/-- the same cells are allocated -/
def SameDom (m m' : Mem V) : Prop := ∀ z, (m' z).isSome = (m z).isSome

/-- What `p` does in a memory it does, with the same result, in every larger memory, leaving the additional cells as they are; the set of
allocated cells does not change. -/
structure Framed {α : Type} (p : Prog V α) : Prop where
  run : ∀ m : Mem V,
    match p m with
    | .ok a m' => SameDom m m' ∧ ∀ f : Mem V, p (m.join f) = .ok a (m'.join f)
    | .throw e m' => SameDom m m' ∧ ∀ f : Mem V, p (m.join f) = .throw e (m'.join f)
    | .terminate => ∀ f : Mem V, p (m.join f) = .terminate
    | .diverge => ∀ f : Mem V, p (m.join f) = .diverge
    | .ub => True

theorem SameDom.refl (m : Mem V) : SameDom m m := fun _ => rfl
theorem SameDom.trans {a b c : Mem V} (h : SameDom a b) (h' : SameDom b c) : SameDom a c := fun z => (h' z).trans (h z)

section
variable {α β σ : Type}

theorem Framed.ok {p : Prog V α} (h : Framed p) {m m' : Mem V} {a : α} (e : p m = .ok a m') :
    SameDom m m' ∧ ∀ f : Mem V, p (m.join f) = .ok a (m'.join f) := by
  have := h.run m; rw [e] at this; exact this

theorem Framed.thrown {p : Prog V α} (h : Framed p) {m m' : Mem V} {x : Exn} (e : p m = .throw x m') :
    SameDom m m' ∧ ∀ f : Mem V, p (m.join f) = .throw x (m'.join f) := by
  have := h.run m; rw [e] at this; exact this

theorem framed_pure (a : α) : Framed (pure a : Prog V α) := ⟨fun m => ⟨.refl m, fun _ => rfl⟩⟩
theorem framed_throw (e : Exn) : Framed (Prog.throw e : Prog V α) := ⟨fun m => ⟨.refl m, fun _ => rfl⟩⟩
theorem framed_ub : Framed (Prog.ub : Prog V α) := ⟨fun _ => trivial⟩
theorem framed_diverge : Framed (fun _ => .diverge : Prog V α) := ⟨fun _ _ => rfl⟩

theorem framed_bind {p : Prog V α} {f : α → Prog V β} (hp : Framed p) (hf : ∀ a, Framed (f a)) : Framed (p >>= f) := by
  refine ⟨fun m => ?_⟩
  have h1 := hp.run m
  show match bind' p f m with | .ok a m' => _ | .throw e m' => _ | .terminate => _ | .diverge => _ | .ub => _
  unfold bind'
  cases e : p m with
  | ok a m' =>
    rw [e] at h1
    obtain ⟨h2, h3⟩ := h1
    have h4 := (hf a).run m'
    have hb : ∀ g : Mem V, (p >>= f) (m.join g) = f a (m'.join g) := fun g => bind_ok (h3 g)
    dsimp only
    cases e2 : f a m' with
    | ok b m2 => rw [e2] at h4; exact ⟨h2.trans h4.1, fun g => (hb g).trans (h4.2 g)⟩
    | throw x m2 => rw [e2] at h4; exact ⟨h2.trans h4.1, fun g => (hb g).trans (h4.2 g)⟩
    | terminate => rw [e2] at h4; exact fun g => (hb g).trans (h4 g)
    | diverge => rw [e2] at h4; exact fun g => (hb g).trans (h4 g)
    | ub => trivial
  | throw x m' =>
    rw [e] at h1
    refine ⟨h1.1, fun g => ?_⟩
    show bind' p f _ = _
    unfold bind'; rw [h1.2 g]
  | terminate =>
    rw [e] at h1
    intro g
    show bind' p f _ = _
    unfold bind'; rw [h1 g]
  | diverge =>
    rw [e] at h1
    intro g
    show bind' p f _ = _
    unfold bind'; rw [h1 g]
  | ub => trivial

theorem framed_noexcept {p : Prog V α} (hp : Framed p) : Framed (noexcept p) := by
  refine ⟨fun m => ?_⟩
  have h1 := hp.run m
  unfold noexcept
  cases e : p m with
  | ok a m' => rw [e] at h1; exact ⟨h1.1, fun g => by simp only [h1.2 g]⟩
  | throw x m' => rw [e] at h1; exact fun g => by simp only [h1.2 g]
  | terminate => rw [e] at h1; exact fun g => by simp only [h1 g]
  | diverge => rw [e] at h1; exact fun g => by simp only [h1 g]
  | ub => trivial

theorem framed_read (x : Int) : Framed (Prog.read x : Prog V V) := by
  refine ⟨fun m => ?_⟩
  unfold Prog.read Mem.join
  cases e : m x with
  | none => trivial
  | some v => exact ⟨.refl m, fun f => by simp [e]⟩

theorem framed_write (x : Int) (v : V) : Framed (Prog.write x v : Prog V Unit) := by
  refine ⟨fun m => ?_⟩
  unfold Prog.write
  cases e : m x with
  | none => trivial
  | some w =>
    refine ⟨fun z => ?_, fun f => ?_⟩
    · by_cases hz : z = x
      · subst hz; simp [e]
      · simp [hz]
    · have e' : (m.join f) x = some w := by simp [Mem.join, e]
      rw [e']
      dsimp only
      congr 1
      funext z
      by_cases hz : z = x
      · simp [Mem.join, hz]
      · simp [Mem.join, hz]

theorem framed_foldN {n : Nat} {f : Nat → σ → Prog V σ} {s : σ} (h : ∀ k s, Framed (f k s)) : Framed (foldN n f s) := by
  induction n with
  | zero => exact framed_pure s
  | succ n ih => exact framed_bind ih (fun a => h n a)

theorem framed_forN {n : Nat} {f : Nat → Prog V Unit} (h : ∀ k, Framed (f k)) : Framed (forN n f) := by
  induction n with
  | zero => exact framed_pure ()
  | succ n ih => exact framed_bind ih (fun _ => h n)

theorem framed_forFrom {lo hi : Nat} {f : Nat → Prog V Unit} (h : ∀ k, Framed (f k)) : Framed (forFrom lo hi f) :=
  framed_forN (fun _ => h _)

theorem framed_forDown {n : Nat} {f : Nat → Prog V Unit} (h : ∀ k, Framed (f k)) : Framed (forDown n f) := by
  induction n with
  | zero => exact framed_pure ()
  | succ n ih => exact framed_bind (h n) (fun _ => ih)

theorem framed_loop {fuel : Nat} {c : Nat → Bool} {step : Nat} {b : Nat → Prog V Unit} {i : Nat} (h : ∀ k, Framed (b k)) :
    Framed (loop fuel c step b i) := by
  induction fuel generalizing i with
  | zero => exact framed_diverge
  | succ n ih =>
    unfold loop
    split
    · exact framed_bind (h i) (fun _ => ih)
    · exact framed_pure i

theorem framed_onlyIf {b : Bool} {p : Prog V Unit} (h : Framed p) : Framed (onlyIf b p) := by
  unfold onlyIf; split
  · exact h
  · exact framed_pure ()

theorem framed_forList {τ : Type} {l : List τ} {f : τ → Prog V Unit} (h : ∀ k, Framed (f k)) : Framed (forList l f) := by
  induction l with
  | nil => exact framed_pure ()
  | cons x l ih => exact framed_bind (h x) (fun _ => ih)

theorem framed_ite {c : Prop} [Decidable c] {p q : Prog V α} (hp : Framed p) (hq : Framed q) : Framed (if c then p else q) := by
  split
  · exact hp
  · exact hq

theorem framed_loopS {fuel : Nat} {c : Nat → Bool} {step : Nat} {b : Nat → σ → Prog V σ} {i : Nat} {s : σ} (h : ∀ k s, Framed (b k s)) :
    Framed (loopS fuel c step b i s) := by
  induction fuel generalizing i s with
  | zero => exact framed_diverge
  | succ n ih =>
    unfold loopS
    split
    · exact framed_bind (h i s) (fun _ => ih)
    · exact framed_pure _

end

theorem val_join [Arith V] {m f : Mem V} {x : Int} (h : (m x).isSome = true) : val (m.join f) x = val m x := by
  unfold val Mem.join
  cases e : m x with
  | none => rw [e] at h; cases h
  | some v => rfl

theorem join_isSome {m f : Mem V} {x : Int} (h : (m x).isSome = true) : ((m.join f) x).isSome = true := by
  unfold Mem.join
  cases e : m x with
  | none => rw [e] at h; cases h
  | some v => rfl

theorem framed_gather [Arith V] (SS : Nat) (mask : Nat → Bool) (addr : Nat → Int) : Framed (gather SS mask addr : Prog V (Vec V)) := by
  refine ⟨fun m => ?_⟩
  unfold gather
  by_cases h : ∀ l, l < SS → mask l = true → (m (addr l)).isSome = true
  · rw [if_pos h]
    refine ⟨.refl m, fun f => ?_⟩
    rw [if_pos (fun l hl hm => join_isSome (h l hl hm))]
    congr 1
    funext l
    by_cases hl : l < SS
    · by_cases hm : mask l = true
      · rw [if_pos hl, if_pos hl, if_pos hm, if_pos hm, val_join (h l hl hm)]
      · rw [if_pos hl, if_pos hl, if_neg hm, if_neg hm]
    · rw [if_neg hl, if_neg hl]
  · rw [if_neg h]; trivial

theorem framed_storeVecMask [Arith V] (SS : Nat) (mask : Nat → Bool) (base : Int) (v : Vec V) :
    Framed (storeVecMask SS mask base v : Prog V Unit) := by
  refine ⟨fun m => ?_⟩
  unfold storeVecMask
  by_cases h : ∀ l, l < SS → mask l = true → (m (base + l)).isSome = true
  · rw [if_pos h]
    refine ⟨fun z => ?_, fun f => ?_⟩
    · dsimp only
      by_cases hz : base ≤ z ∧ z < base + SS ∧ mask (z - base).toNat = true
      · rw [if_pos hz]
        have := h (z - base).toNat (by omega) hz.2.2
        rw [show base + ((z - base).toNat : Int) = z by omega] at this
        rw [this]; rfl
      · rw [if_neg hz]
    · rw [if_pos (fun l hl hm => join_isSome (h l hl hm))]
      congr 1
      funext z
      unfold Mem.join
      by_cases hz : base ≤ z ∧ z < base + SS ∧ mask (z - base).toNat = true
      · simp only [if_pos hz, Option.some_or]
      · simp only [if_neg hz]
  · rw [if_neg h]; trivial

/-! ### All functions of the model -/

/-- proves `Framed p` one construct at a time -/
syntax "framed1" : tactic
macro_rules | `(tactic| framed1) => `(tactic| assumption)
macro_rules | `(tactic| framed1) => `(tactic| split)
macro_rules | `(tactic| framed1) => `(tactic| intro _)
macro_rules | `(tactic| framed1) => `(tactic| dsimp only)
macro_rules | `(tactic| framed1) => `(tactic| with_reducible refine framed_ite ?_ ?_)
macro_rules | `(tactic| framed1) => `(tactic| with_reducible exact framed_pure _)
macro_rules | `(tactic| framed1) => `(tactic| with_reducible exact framed_throw _)
macro_rules | `(tactic| framed1) => `(tactic| with_reducible exact framed_ub)
macro_rules | `(tactic| framed1) => `(tactic| with_reducible refine framed_bind ?_ (fun _ => ?_))
macro_rules | `(tactic| framed1) => `(tactic| with_reducible refine framed_noexcept ?_)
macro_rules | `(tactic| framed1) => `(tactic| with_reducible exact framed_read _)
macro_rules | `(tactic| framed1) => `(tactic| with_reducible exact framed_write _ _)
macro_rules | `(tactic| framed1) => `(tactic| with_reducible refine framed_foldN (fun _ _ => ?_))
macro_rules | `(tactic| framed1) => `(tactic| with_reducible refine framed_forN (fun _ => ?_))
macro_rules | `(tactic| framed1) => `(tactic| with_reducible refine framed_forFrom (fun _ => ?_))
macro_rules | `(tactic| framed1) => `(tactic| with_reducible refine framed_forDown (fun _ => ?_))
macro_rules | `(tactic| framed1) => `(tactic| with_reducible refine framed_loop (fun _ => ?_))
macro_rules | `(tactic| framed1) => `(tactic| with_reducible refine framed_loopS (fun _ _ => ?_))
macro_rules | `(tactic| framed1) => `(tactic| with_reducible refine framed_onlyIf ?_)
macro_rules | `(tactic| framed1) => `(tactic| with_reducible refine framed_forList (fun _ => ?_))
macro_rules | `(tactic| framed1) => `(tactic| with_reducible exact framed_gather ..)
macro_rules | `(tactic| framed1) => `(tactic| with_reducible exact framed_storeVecMask ..)
macro "framed" : tactic => `(tactic| repeat' framed1)

variable [Arith V]

theorem framed_loadVec (SS : Nat) (al : Bool) (b : Int) : Framed (loadVec SS al b : Prog V (Vec V)) := by
  unfold loadVec; framed
macro_rules | `(tactic| framed1) => `(tactic| with_reducible exact framed_loadVec ..)

theorem framed_loadVecMask (SS : Nat) (k : Nat → Bool) (b : Int) : Framed (loadVecMask SS k b : Prog V (Vec V)) := by
  unfold loadVecMask; framed
macro_rules | `(tactic| framed1) => `(tactic| with_reducible exact framed_loadVecMask ..)

theorem framed_storeVec (SS : Nat) (al : Bool) (b : Int) (v : Vec V) : Framed (storeVec SS al b v) := by
  unfold storeVec; framed
macro_rules | `(tactic| framed1) => `(tactic| with_reducible exact framed_storeVec ..)

theorem framed_MPtr_load (SS : Nat) (p : MPtr) : Framed (p.load SS : Prog V (Vec V)) := by
  unfold MPtr.load; framed
macro_rules | `(tactic| framed1) => `(tactic| with_reducible exact framed_MPtr_load ..)

theorem framed_MPtr_loadMask (SS : Nat) (p : MPtr) (k : Nat → Bool) : Framed (p.loadMask SS k : Prog V (Vec V)) := by
  unfold MPtr.loadMask; framed
macro_rules | `(tactic| framed1) => `(tactic| with_reducible exact framed_MPtr_loadMask ..)

theorem framed_MPtr_loadT (SS : Nat) (p : MPtr) (o : TF) : Framed (p.loadT SS o : Prog V (Vec V)) := by
  unfold MPtr.loadT; framed
macro_rules | `(tactic| framed1) => `(tactic| with_reducible exact framed_MPtr_loadT ..)

theorem framed_MPtr_loadTMask (SS : Nat) (p : MPtr) (o : TF) (k : Nat → Bool) : Framed (p.loadTMask SS o k : Prog V (Vec V)) := by
  unfold MPtr.loadTMask; framed
macro_rules | `(tactic| framed1) => `(tactic| with_reducible exact framed_MPtr_loadTMask ..)

theorem framed_MPtr_store (SS : Nat) (p : MPtr) (v : Vec V) : Framed (p.store SS v) := by
  unfold MPtr.store; framed
macro_rules | `(tactic| framed1) => `(tactic| with_reducible exact framed_MPtr_store ..)

theorem framed_MPtr_storeMask (SS : Nat) (p : MPtr) (v : Vec V) (k : Nat → Bool) : Framed (p.storeMask SS v k) := by
  unfold MPtr.storeMask; framed
macro_rules | `(tactic| framed1) => `(tactic| with_reducible exact framed_MPtr_storeMask ..)

theorem framed_MPtr_get (SS : Nat) (p : MPtr) (i j : Int) : Framed (p.get SS i j : Prog V V) := by
  unfold MPtr.get; framed
macro_rules | `(tactic| framed1) => `(tactic| with_reducible exact framed_MPtr_get ..)

theorem framed_MPtr_set (SS : Nat) (p : MPtr) (i j : Int) (v : V) : Framed (p.set SS i j v) := by
  unfold MPtr.set; framed
macro_rules | `(tactic| framed1) => `(tactic| with_reducible exact framed_MPtr_set ..)

theorem framed_VPtr_load (SS : Nat) (p : VPtr) : Framed (p.load SS : Prog V (Vec V)) := by
  unfold VPtr.load; framed
macro_rules | `(tactic| framed1) => `(tactic| with_reducible exact framed_VPtr_load ..)

theorem framed_VPtr_loadMask (SS : Nat) (p : VPtr) (k : Nat → Bool) : Framed (p.loadMask SS k : Prog V (Vec V)) := by
  unfold VPtr.loadMask; framed
macro_rules | `(tactic| framed1) => `(tactic| with_reducible exact framed_VPtr_loadMask ..)

theorem framed_VPtr_get (SS : Nat) (p : VPtr) (i : Int) : Framed (p.get SS i : Prog V V) := by
  unfold VPtr.get; framed
macro_rules | `(tactic| framed1) => `(tactic| with_reducible exact framed_VPtr_get ..)

theorem framed_VPtr_set (SS : Nat) (p : VPtr) (i : Int) (v : V) : Framed (p.set SS i v) := by
  unfold VPtr.set; framed
macro_rules | `(tactic| framed1) => `(tactic| with_reducible exact framed_VPtr_set ..)

theorem framed_Reg_forRows (RM : Nat) (g : Nat → Bool) (j : Nat) (f : Nat → Vec V → Prog V (Vec V)) (r : Reg V) (h : ∀ i v, Framed (f i v)) : Framed (Reg.forRows RM g j f r) := by
  unfold Reg.forRows; framed; exact h _ _
macro_rules | `(tactic| framed1) => `(tactic| with_reducible refine framed_Reg_forRows _ _ _ _ _ (fun _ _ => ?_))

theorem framed_Reg_forCols (N : Nat) (g : Nat → Bool) (f : Nat → Reg V → Prog V (Reg V)) (r : Reg V) (h : ∀ i v, Framed (f i v)) : Framed (Reg.forCols N g f r) := by
  unfold Reg.forCols; framed; exact h _ _
macro_rules | `(tactic| framed1) => `(tactic| with_reducible refine framed_Reg_forCols _ _ _ _ (fun _ _ => ?_))

theorem framed_Reg_axpy (SS RM N : Nat) (r : Reg V) (b : V) (a : MPtr) : Framed (r.axpy SS RM N b a) := by
  unfold Reg.axpy; framed
macro_rules | `(tactic| framed1) => `(tactic| with_reducible exact framed_Reg_axpy ..)

theorem framed_Reg_axpyP (SS RM N : Nat) (r : Reg V) (b : V) (a : MPtr) (m n : Nat) : Framed (r.axpyP SS RM N b a m n) := by
  unfold Reg.axpyP; framed
macro_rules | `(tactic| framed1) => `(tactic| with_reducible exact framed_Reg_axpyP ..)

theorem framed_Reg_load (SS RM N : Nat) (r : Reg V) (a : MPtr) : Framed (r.load SS RM N a) := by
  unfold Reg.load; framed
macro_rules | `(tactic| framed1) => `(tactic| with_reducible exact framed_Reg_load ..)

theorem framed_Reg_loadB (SS RM N : Nat) (r : Reg V) (b : V) (a : MPtr) : Framed (r.loadB SS RM N b a) := by
  unfold Reg.loadB; framed
macro_rules | `(tactic| framed1) => `(tactic| with_reducible exact framed_Reg_loadB ..)

theorem framed_Reg_loadBP (SS RM N : Nat) (r : Reg V) (b : V) (a : MPtr) (m n : Nat) : Framed (r.loadBP SS RM N b a m n) := by
  unfold Reg.loadBP; framed
macro_rules | `(tactic| framed1) => `(tactic| with_reducible exact framed_Reg_loadBP ..)

theorem framed_Reg_store (SS RM N : Nat) (r : Reg V) (a : MPtr) : Framed (r.store SS RM N a) := by
  unfold Reg.store; framed
macro_rules | `(tactic| framed1) => `(tactic| with_reducible exact framed_Reg_store ..)

theorem framed_Reg_storeP (SS RM N : Nat) (r : Reg V) (a : MPtr) (m n : Nat) : Framed (r.storeP SS RM N a m n) := by
  unfold Reg.storeP; framed
macro_rules | `(tactic| framed1) => `(tactic| with_reducible exact framed_Reg_storeP ..)

theorem framed_Reg_storeLower (SS RM N : Nat) (r : Reg V) (a : MPtr) : Framed (r.storeLower SS RM N a) := by
  unfold Reg.storeLower; framed
macro_rules | `(tactic| framed1) => `(tactic| with_reducible exact framed_Reg_storeLower ..)

theorem framed_Reg_storeLowerP (SS RM N : Nat) (r : Reg V) (a : MPtr) (m n : Nat) : Framed (r.storeLowerP SS RM N a m n) := by
  unfold Reg.storeLowerP; framed
macro_rules | `(tactic| framed1) => `(tactic| with_reducible exact framed_Reg_storeLowerP ..)

theorem framed_Reg_loadCol (SS RM : Nat) (a : VPtr) (f : V → V) : Framed (Reg.loadCol SS RM a f) := by
  unfold Reg.loadCol; framed
macro_rules | `(tactic| framed1) => `(tactic| with_reducible exact framed_Reg_loadCol ..)

theorem framed_Reg_gerF (SS RM N : Nat) (r : Reg V) (f : V → V) (a b : VPtr) : Framed (r.gerF SS RM N f a b) := by
  unfold Reg.gerF; framed
macro_rules | `(tactic| framed1) => `(tactic| with_reducible exact framed_Reg_gerF ..)

theorem framed_Reg_gerFP (SS RM N : Nat) (r : Reg V) (f : V → V) (a b : VPtr) (m n : Nat) : Framed (r.gerFP SS RM N f a b m n) := by
  unfold Reg.gerFP; framed
macro_rules | `(tactic| framed1) => `(tactic| with_reducible exact framed_Reg_gerFP ..)

theorem framed_Reg_trsmRU (SS RM N : Nat) (r : Reg V) (a : MPtr) : Framed (r.trsmRU SS RM N a) := by
  unfold Reg.trsmRU; framed
macro_rules | `(tactic| framed1) => `(tactic| with_reducible exact framed_Reg_trsmRU ..)

theorem framed_Reg_potrf (SS RM N : Nat) (r : Reg V) : Framed (r.potrf SS RM N) := by
  unfold Reg.potrf; framed
macro_rules | `(tactic| framed1) => `(tactic| with_reducible exact framed_Reg_potrf ..)

theorem framed_Reg_trmmL (SS RM N : Nat) (r : Reg V) (al : V) (a : MPtr) (u : Reg.UpLo) (d : Bool) (b : MPtr) : Framed (r.trmmL SS RM N al a u d b) := by
  unfold Reg.trmmL; framed
macro_rules | `(tactic| framed1) => `(tactic| with_reducible exact framed_Reg_trmmL ..)

theorem framed_Reg_trmmRStep (SS RM : Nat) (al : V) (k : Nat) (s : Reg V × MPtr × MPtr) : Framed (Reg.trmmRStep SS RM al k s) := by
  unfold Reg.trmmRStep; framed
macro_rules | `(tactic| framed1) => `(tactic| with_reducible exact framed_Reg_trmmRStep ..)

theorem framed_Reg_trmmR (SS RM N : Nat) (r : Reg V) (al : V) (b a : MPtr) (u : Reg.UpLo) (d : Bool) : Framed (r.trmmR SS RM N al b a u d) := by
  unfold Reg.trmmR; framed
macro_rules | `(tactic| framed1) => `(tactic| with_reducible exact framed_Reg_trmmR ..)

theorem framed_Reg_trmmRP (SS RM N : Nat) (r : Reg V) (al : V) (b a : MPtr) (u : Reg.UpLo) (d : Bool) (m n : Nat) : Framed (r.trmmRP SS RM N al b a u d m n) := by
  unfold Reg.trmmRP; framed
macro_rules | `(tactic| framed1) => `(tactic| with_reducible exact framed_Reg_trmmRP ..)

theorem framed_tileBackend (SS RM m n i : Nat) (ff : Nat → Nat → Nat → Prog V Unit) (fp : Nat → Nat → Nat → Nat → Nat → Prog V Unit) (h : ∀ a b c, Framed (ff a b c)) (h' : ∀ a b c d e, Framed (fp a b c d e)) : Framed (tileBackend SS RM m n i ff fp) := by
  unfold tileBackend; framed <;> first | exact h _ _ _ | exact h _ _ | exact h _ | exact h' _ _ _ _ _ | exact h' _
macro_rules | `(tactic| framed1) => `(tactic| with_reducible refine framed_tileBackend _ _ _ _ _ _ _ (fun _ _ _ => ?_) (fun _ _ _ _ _ => ?_))

theorem framed_tileStrip (SS m j k : Nat) (r : Bool) (ff : Nat → Nat → Nat → Prog V Unit) (fp : Nat → Nat → Nat → Nat → Nat → Prog V Unit) (h : ∀ a b c, Framed (ff a b c)) (h' : ∀ a b c d e, Framed (fp a b c d e)) : Framed (tileStrip SS m j k r ff fp) := by
  unfold tileStrip; framed <;> first | exact h _ _ _ | exact h _ _ | exact h _ | exact h' _ _ _ _ _ | exact h' _
macro_rules | `(tactic| framed1) => `(tactic| with_reducible refine framed_tileStrip _ _ _ _ _ _ _ (fun _ _ _ => ?_) (fun _ _ _ _ _ => ?_))

theorem framed_tile (SS : Nat) (ct : Bool) (m n : Nat) (ff : Nat → Nat → Nat → Prog V Unit) (fp : Nat → Nat → Nat → Nat → Nat → Prog V Unit) (h : ∀ a b c, Framed (ff a b c)) (h' : ∀ a b c d e, Framed (fp a b c d e)) : Framed (tile SS ct m n ff fp) := by
  unfold tile; framed <;> first | exact h _ _ _ | exact h _ _ | exact h _ | exact h' _ _ _ _ _ | exact h' _
macro_rules | `(tactic| framed1) => `(tactic| with_reducible refine framed_tile _ _ _ _ _ _ (fun _ _ _ => ?_) (fun _ _ _ _ _ => ?_))

theorem framed_gemmAcc (SS RM N : Nat) (r : Reg V) (K : Nat) (al : V) (a b : MPtr) : Framed (gemmAcc SS RM N r K al a b) := by
  unfold gemmAcc; framed
macro_rules | `(tactic| framed1) => `(tactic| with_reducible exact framed_gemmAcc ..)

theorem framed_gemmAccP (SS RM N : Nat) (r : Reg V) (K : Nat) (al : V) (a b : MPtr) (m n : Nat) : Framed (gemmAccP SS RM N r K al a b m n) := by
  unfold gemmAccP; framed
macro_rules | `(tactic| framed1) => `(tactic| with_reducible exact framed_gemmAccP ..)

theorem framed_gemmFull (SS RM N K : Nat) (al : V) (a b : MPtr) (be : V) (c d : MPtr) : Framed (gemmFull SS RM N K al a b be c d) := by
  unfold gemmFull; framed
macro_rules | `(tactic| framed1) => `(tactic| with_reducible exact framed_gemmFull ..)

theorem framed_gemmPart (SS RM N K : Nat) (al : V) (a b : MPtr) (be : V) (c d : MPtr) (m n : Nat) : Framed (gemmPart SS RM N K al a b be c d m n) := by
  unfold gemmPart; framed
macro_rules | `(tactic| framed1) => `(tactic| with_reducible exact framed_gemmPart ..)

theorem framed_gemmFull1 (SS RM N K : Nat) (r : Reg V) (a b c d : MPtr) : Framed (gemmFull1 SS RM N K r a b c d) := by
  unfold gemmFull1; framed
macro_rules | `(tactic| framed1) => `(tactic| with_reducible exact framed_gemmFull1 ..)

theorem framed_gemmPart1 (SS RM N K : Nat) (r : Reg V) (a b c d : MPtr) (m n : Nat) : Framed (gemmPart1 SS RM N K r a b c d m n) := by
  unfold gemmPart1; framed
macro_rules | `(tactic| framed1) => `(tactic| with_reducible exact framed_gemmPart1 ..)

theorem framed_gemmPtr (SS M N K : Nat) (al : V) (A B : MPtr) (be : V) (C D : MPtr) : Framed (gemmPtr SS M N K al A B be C D) := by
  unfold gemmPtr; framed
macro_rules | `(tactic| framed1) => `(tactic| with_reducible exact framed_gemmPtr ..)

theorem framed_gemmMat (SS : Nat) (al : V) (A B : Mat) (be : V) (C D : Mat) : Framed (gemmMat SS al A B be C D) := by
  unfold gemmMat; framed
macro_rules | `(tactic| framed1) => `(tactic| with_reducible exact framed_gemmMat ..)

theorem framed_gemmMat1 (SS : Nat) (A B C D : Mat) : Framed ((gemmMat1 SS A B C D : Prog V Unit)) := by
  unfold gemmMat1; framed
macro_rules | `(tactic| framed1) => `(tactic| with_reducible exact framed_gemmMat1 ..)

theorem framed_rowTiles (T M i : Nat) (b : Nat → Nat → Prog V Unit) (t : Nat → Prog V Unit) (h : ∀ r i, Framed (b r i)) (h' : ∀ i, Framed (t i)) : Framed (rowTiles T M i b t) := by
  unfold rowTiles; framed <;> first | exact h _ _ _ | exact h _ _ | exact h _ | exact h' _ _ _ _ _ | exact h' _
macro_rules | `(tactic| framed1) => `(tactic| with_reducible refine framed_rowTiles _ _ _ _ _ (fun _ _ => ?_) (fun _ => ?_))

theorem framed_colTiles (T N : Nat) (b t : Nat → Prog V Unit) (h : ∀ i, Framed (b i)) (h' : ∀ i, Framed (t i)) : Framed (colTiles T N b t) := by
  unfold colTiles; framed <;> first | exact h _ _ _ | exact h _ _ | exact h _ | exact h' _ _ _ _ _ | exact h' _
macro_rules | `(tactic| framed1) => `(tactic| with_reducible refine framed_colTiles _ _ _ _ (fun _ => ?_) (fun _ => ?_))

theorem framed_gerTileFull (SS TR RM : Nat) (al : V) (x y : VPtr) (A B : MPtr) (i j : Nat) : Framed (gerTileFull SS TR RM al x y A B i j) := by
  unfold gerTileFull; framed
macro_rules | `(tactic| framed1) => `(tactic| with_reducible exact framed_gerTileFull ..)

theorem framed_gerTilePart (SS TR RM : Nat) (al : V) (x y : VPtr) (A B : MPtr) (i j m n : Nat) : Framed (gerTilePart SS TR RM al x y A B i j m n) := by
  unfold gerTilePart; framed
macro_rules | `(tactic| framed1) => `(tactic| with_reducible exact framed_gerTilePart ..)

theorem framed_gerPtr (SS TR M N : Nat) (al : V) (x y : VPtr) (A B : MPtr) : Framed (gerPtr SS TR M N al x y A B) := by
  unfold gerPtr; framed
macro_rules | `(tactic| framed1) => `(tactic| with_reducible exact framed_gerPtr ..)

theorem framed_gerMat (SS TR : Nat) (al : V) (x y : VArg) (A B : Mat) : Framed (gerMat SS TR al x y A B) := by
  unfold gerMat; framed
macro_rules | `(tactic| framed1) => `(tactic| with_reducible exact framed_gerMat ..)

theorem framed_gerRowMat (SS : Nat) (al : V) (x y : VArg) (A B : Mat) : Framed (gerRowMat SS al x y A B) := by
  unfold gerRowMat; framed
macro_rules | `(tactic| framed1) => `(tactic| with_reducible exact framed_gerRowMat ..)

theorem framed_syrkTileFull (SS TR RM K : Nat) (al : V) (A : MPtr) (be : V) (C D : MPtr) (i j : Nat) : Framed (syrkTileFull SS TR RM K al A be C D i j) := by
  unfold syrkTileFull; framed
macro_rules | `(tactic| framed1) => `(tactic| with_reducible exact framed_syrkTileFull ..)

theorem framed_syrkTilePart (SS TR RM K : Nat) (al : V) (A : MPtr) (be : V) (C D : MPtr) (i j l m n : Nat) : Framed (syrkTilePart SS TR RM K al A be C D i j l m n) := by
  unfold syrkTilePart; framed
macro_rules | `(tactic| framed1) => `(tactic| with_reducible exact framed_syrkTilePart ..)

theorem framed_syrkPtr (SS TR M K : Nat) (al : V) (A : MPtr) (be : V) (C D : MPtr) : Framed (syrkPtr SS TR M K al A be C D) := by
  unfold syrkPtr; framed
macro_rules | `(tactic| framed1) => `(tactic| with_reducible exact framed_syrkPtr ..)

theorem framed_syrkMat (SS TR : Nat) (al : V) (A : Mat) (be : V) (C D : Mat) : Framed (syrkMat SS TR al A be C D) := by
  unfold syrkMat; framed
macro_rules | `(tactic| framed1) => `(tactic| with_reducible exact framed_syrkMat ..)

theorem framed_trmmLeftBackend (SS RM T M N : Nat) (al : V) (a b c : MPtr) : Framed (trmmLeftBackend SS RM T M N al a b c) := by
  unfold trmmLeftBackend; framed
macro_rules | `(tactic| framed1) => `(tactic| with_reducible exact framed_trmmLeftBackend ..)

theorem framed_trmmLeftPtr (SS TR M N : Nat) (al : V) (A : MPtr) (u : Reg.UpLo) (d : Bool) (B C : MPtr) : Framed (trmmLeftPtr SS TR M N al A u d B C) := by
  unfold trmmLeftPtr; framed
macro_rules | `(tactic| framed1) => `(tactic| with_reducible exact framed_trmmLeftPtr ..)

theorem framed_trmmRTileFull (SS TR RM N : Nat) (al : V) (B A : MPtr) (d : Bool) (C : MPtr) (i j : Nat) : Framed (trmmRTileFull SS TR RM N al B A d C i j) := by
  unfold trmmRTileFull; framed
macro_rules | `(tactic| framed1) => `(tactic| with_reducible exact framed_trmmRTileFull ..)

theorem framed_trmmRTileBottom (SS TR M N : Nat) (al : V) (B A : MPtr) (d : Bool) (C : MPtr) (i j : Nat) : Framed (trmmRTileBottom SS TR M N al B A d C i j) := by
  unfold trmmRTileBottom; framed
macro_rules | `(tactic| framed1) => `(tactic| with_reducible exact framed_trmmRTileBottom ..)

theorem framed_trmmRTileRight (SS TR RM N : Nat) (al : V) (B A : MPtr) (d : Bool) (C : MPtr) (i j mm : Nat) : Framed (trmmRTileRight SS TR RM N al B A d C i j mm) := by
  unfold trmmRTileRight; framed
macro_rules | `(tactic| framed1) => `(tactic| with_reducible exact framed_trmmRTileRight ..)

theorem framed_trmmRightPtr (SS TR M N : Nat) (al : V) (B A : MPtr) (u : Reg.UpLo) (d : Bool) (C : MPtr) : Framed (trmmRightPtr SS TR M N al B A u d C) := by
  unfold trmmRightPtr; framed
macro_rules | `(tactic| framed1) => `(tactic| with_reducible exact framed_trmmRightPtr ..)

theorem framed_trmmLeftMat (SS TR : Nat) (al : V) (A : Mat) (u : Reg.UpLo) (d : Bool) (B C : Mat) : Framed (trmmLeftMat SS TR al A u d B C) := by
  unfold trmmLeftMat; framed
macro_rules | `(tactic| framed1) => `(tactic| with_reducible exact framed_trmmLeftMat ..)

theorem framed_trmmRightMat (SS TR : Nat) (al : V) (B A : Mat) (u : Reg.UpLo) (d : Bool) (C : Mat) : Framed (trmmRightMat SS TR al B A u d C) := by
  unfold trmmRightMat; framed
macro_rules | `(tactic| framed1) => `(tactic| with_reducible exact framed_trmmRightMat ..)

theorem framed_foldFrom {σ : Type} (lo hi : Nat) (f : Nat → σ → Prog V σ) (s : σ) (h : ∀ k s, Framed (f k s)) : Framed (foldFrom lo hi f s) := by
  unfold foldFrom; framed; exact h _ _
macro_rules | `(tactic| framed1) => `(tactic| with_reducible refine framed_foldFrom _ _ _ _ (fun _ _ => ?_))

theorem framed_derefAt (SS : Nat) (p : MPtr) (i j : Nat) : Framed (derefAt SS p i j : Prog V V) := by
  unfold derefAt; framed
macro_rules | `(tactic| framed1) => `(tactic| with_reducible exact framed_derefAt ..)

theorem framed_assignAt (SS : Nat) (p : MPtr) (i j : Nat) (v : V) : Framed (assignAt SS p i j v : Prog V Unit) := by
  unfold assignAt; framed
macro_rules | `(tactic| framed1) => `(tactic| with_reducible exact framed_assignAt ..)

theorem framed_refGemm (SS M N K : Nat) (alpha : V) (A B : MPtr) (beta : V) (C D : MPtr) : Framed (refGemm SS M N K alpha A B beta C D : Prog V Unit) := by
  unfold refGemm; framed
macro_rules | `(tactic| framed1) => `(tactic| with_reducible exact framed_refGemm ..)

theorem framed_refGemmMat (SS : Nat) (alpha : V) (A B : Mat) (beta : V) (C D : Mat) : Framed (refGemmMat SS alpha A B beta C D : Prog V Unit) := by
  unfold refGemmMat; framed
macro_rules | `(tactic| framed1) => `(tactic| with_reducible exact framed_refGemmMat ..)

theorem framed_refGer (SS m n : Nat) (alpha : V) (x y : VPtr) (a b : MPtr) : Framed (refGer SS m n alpha x y a b : Prog V Unit) := by
  unfold refGer; framed
macro_rules | `(tactic| framed1) => `(tactic| with_reducible exact framed_refGer ..)

theorem framed_refAxpy (SS M N : Nat) (alpha : V) (A B C : MPtr) : Framed (refAxpy SS M N alpha A B C : Prog V Unit) := by
  unfold refAxpy; framed
macro_rules | `(tactic| framed1) => `(tactic| with_reducible exact framed_refAxpy ..)

theorem framed_refAxpyMat (SS : Nat) (alpha : V) (A B C : Mat) : Framed (refAxpyMat SS alpha A B C : Prog V Unit) := by
  unfold refAxpyMat; framed
macro_rules | `(tactic| framed1) => `(tactic| with_reducible exact framed_refAxpyMat ..)

theorem framed_refTrsmL (SS m n : Nat) (A : MPtr) (uplo : Reg.UpLo) (diag : Bool) (X : MPtr) (alpha : V) (B : MPtr) : Framed (refTrsmL SS m n A uplo diag X alpha B : Prog V Unit) := by
  unfold refTrsmL; framed
macro_rules | `(tactic| framed1) => `(tactic| with_reducible exact framed_refTrsmL ..)

theorem framed_refTrsmR (SS m n : Nat) (X A : MPtr) (uplo : Reg.UpLo) (diag : Bool) (alpha : V) (B : MPtr) : Framed (refTrsmR SS m n X A uplo diag alpha B : Prog V Unit) := by
  unfold refTrsmR; framed
macro_rules | `(tactic| framed1) => `(tactic| with_reducible exact framed_refTrsmR ..)

theorem framed_refTrsmLMat (SS : Nat) (A : Mat) (uplo : Reg.UpLo) (diag : Bool) (X : Mat) (alpha : V) (B : Mat) : Framed (refTrsmLMat SS A uplo diag X alpha B : Prog V Unit) := by
  unfold refTrsmLMat; framed
macro_rules | `(tactic| framed1) => `(tactic| with_reducible exact framed_refTrsmLMat ..)

theorem framed_refTrsmRMat (SS : Nat) (X A : Mat) (uplo : Reg.UpLo) (diag : Bool) (alpha : V) (B : Mat) : Framed (refTrsmRMat SS X A uplo diag alpha B : Prog V Unit) := by
  unfold refTrsmRMat; framed
macro_rules | `(tactic| framed1) => `(tactic| with_reducible exact framed_refTrsmRMat ..)

theorem framed_refTrmmL (SS m n : Nat) (alpha : V) (A : MPtr) (uplo : Reg.UpLo) (diag : Bool) (B C : MPtr) : Framed (refTrmmL SS m n alpha A uplo diag B C : Prog V Unit) := by
  unfold refTrmmL; framed
macro_rules | `(tactic| framed1) => `(tactic| with_reducible exact framed_refTrmmL ..)

theorem framed_refTrmmR (SS m n : Nat) (alpha : V) (B A : MPtr) (uplo : Reg.UpLo) (diag : Bool) (C : MPtr) : Framed (refTrmmR SS m n alpha B A uplo diag C : Prog V Unit) := by
  unfold refTrmmR; framed
macro_rules | `(tactic| framed1) => `(tactic| with_reducible exact framed_refTrmmR ..)

theorem framed_refTrmmLMat (SS : Nat) (alpha : V) (A : Mat) (uplo : Reg.UpLo) (diag : Bool) (B C : Mat) : Framed (refTrmmLMat SS alpha A uplo diag B C : Prog V Unit) := by
  unfold refTrmmLMat; framed
macro_rules | `(tactic| framed1) => `(tactic| with_reducible exact framed_refTrmmLMat ..)

theorem framed_refTrmmRMat (SS : Nat) (alpha : V) (B A : Mat) (uplo : Reg.UpLo) (diag : Bool) (C : Mat) : Framed (refTrmmRMat SS alpha B A uplo diag C : Prog V Unit) := by
  unfold refTrmmRMat; framed
macro_rules | `(tactic| framed1) => `(tactic| with_reducible exact framed_refTrmmRMat ..)

theorem framed_trsmPtr (SS M N : Nat) (uplo : Reg.UpLo) (unit : Bool) (A B X : MPtr) : Framed (trsmPtr SS M N uplo unit A B X : Prog V Unit) := by
  unfold trsmPtr; framed
macro_rules | `(tactic| framed1) => `(tactic| with_reducible exact framed_trsmPtr ..)

theorem framed_trsmMat (SS : Nat) (uplo : Reg.UpLo) (unit : Bool) (A B X : Mat) : Framed (trsmMat SS uplo unit A B X : Prog V Unit) := by
  unfold trsmMat; framed
macro_rules | `(tactic| framed1) => `(tactic| with_reducible exact framed_trsmMat ..)

theorem framed_trsvPtr (SS N : Nat) (uplo : Reg.UpLo) (A : MPtr) (b x : VPtr) : Framed (trsvPtr SS N uplo A b x : Prog V Unit) := by
  unfold trsvPtr; framed
macro_rules | `(tactic| framed1) => `(tactic| with_reducible exact framed_trsvPtr ..)

theorem framed_trsvMat (SS : Nat) (uplo : Reg.UpLo) (A : Mat) (b x : VArg) : Framed (trsvMat SS uplo A b x : Prog V Unit) := by
  unfold trsvMat; framed
macro_rules | `(tactic| framed1) => `(tactic| with_reducible exact framed_trsvMat ..)

theorem framed_vderef (SS : Nat) (x : VPtr) (i : Nat) : Framed (vderef SS x i : Prog V V) := by
  unfold vderef; framed
macro_rules | `(tactic| framed1) => `(tactic| with_reducible exact framed_vderef ..)

theorem framed_vassign (SS : Nat) (x : VPtr) (i : Nat) (v : V) : Framed (vassign SS x i v : Prog V Unit) := by
  unfold vassign; framed
macro_rules | `(tactic| framed1) => `(tactic| with_reducible exact framed_vassign ..)

theorem framed_iamaxPtr (SS n : Nat) (x : VPtr) : Framed (iamaxPtr SS n x : Prog V Nat) := by
  unfold iamaxPtr; framed
macro_rules | `(tactic| framed1) => `(tactic| with_reducible exact framed_iamaxPtr ..)

theorem framed_iamaxVec (SS : Nat) (x : VArg) : Framed (iamaxVec SS x : Prog V Nat) := by
  unfold iamaxVec; framed
macro_rules | `(tactic| framed1) => `(tactic| with_reducible exact framed_iamaxVec ..)

theorem framed_swapPtr (SS n : Nat) (x y : VPtr) : Framed (swapPtr SS n x y : Prog V Unit) := by
  unfold swapPtr; framed
macro_rules | `(tactic| framed1) => `(tactic| with_reducible exact framed_swapPtr ..)

theorem framed_swapVec (SS : Nat) (x y : VArg) : Framed (swapVec SS x y : Prog V Unit) := by
  unfold swapVec; framed
macro_rules | `(tactic| framed1) => `(tactic| with_reducible exact framed_swapVec ..)

theorem framed_laswp (SS n : Nat) (A : MPtr) (k0 k1 : Nat) (ipiv : Nat → Nat) : Framed (laswp SS n A k0 k1 ipiv : Prog V Unit) := by
  unfold laswp; framed
macro_rules | `(tactic| framed1) => `(tactic| with_reducible exact framed_laswp ..)

theorem framed_getf2Step (SS TR m n : Nat) (A : MPtr) (k : Nat) (ipiv : Nat → Nat) : Framed (getf2Step SS TR m n A k ipiv : Prog V (Nat → Nat)) := by
  unfold getf2Step; framed
macro_rules | `(tactic| framed1) => `(tactic| with_reducible exact framed_getf2Step ..)

theorem framed_getf2Ptr (SS TR m n : Nat) (A : MPtr) (ipiv : Nat → Nat) : Framed (getf2Ptr SS TR m n A ipiv : Prog V (Nat → Nat)) := by
  unfold getf2Ptr; framed
macro_rules | `(tactic| framed1) => `(tactic| with_reducible exact framed_getf2Ptr ..)

theorem framed_getf2RowStep (SS : Nat) (dv : V → V → V) (A : Mat) (k : Nat) (ipiv : Nat → Nat) : Framed (getf2RowStep SS dv A k ipiv : Prog V (Nat → Nat)) := by
  unfold getf2RowStep; framed
macro_rules | `(tactic| framed1) => `(tactic| with_reducible exact framed_getf2RowStep ..)

theorem framed_getf2Row (SS : Nat) (dv : V → V → V) (A : Mat) (ipiv : Nat → Nat) : Framed (getf2Row SS dv A ipiv : Prog V (Nat → Nat)) := by
  unfold getf2Row; framed
macro_rules | `(tactic| framed1) => `(tactic| with_reducible exact framed_getf2Row ..)

theorem framed_getrfStep (SS TR M N : Nat) (A : MPtr) (k : Nat) (ipiv : Nat → Nat) : Framed (getrfStep SS TR M N A k ipiv : Prog V (Nat → Nat)) := by
  unfold getrfStep; framed
macro_rules | `(tactic| framed1) => `(tactic| with_reducible exact framed_getrfStep ..)

theorem framed_getrfPtr (SS TR M N : Nat) (A : MPtr) (ipiv : Nat → Nat) : Framed (getrfPtr SS TR M N A ipiv : Prog V (Nat → Nat)) := by
  unfold getrfPtr; framed
macro_rules | `(tactic| framed1) => `(tactic| with_reducible exact framed_getrfPtr ..)

theorem framed_getrfRow (SS : Nat) (dv : V → V → V) (A : Mat) (ipiv : Nat → Nat) : Framed (getrfRow SS dv A ipiv : Prog V (Nat → Nat)) := by
  unfold getrfRow; framed
macro_rules | `(tactic| framed1) => `(tactic| with_reducible exact framed_getrfRow ..)

theorem framed_potrfBackendDense (SS RM KN M N : Nat) (A L : MPtr) (k i : Nat) : Framed (potrfBackendDense SS RM KN M N A L k i : Prog V Unit) := by
  unfold potrfBackendDense; framed
macro_rules | `(tactic| framed1) => `(tactic| with_reducible exact framed_potrfBackendDense ..)

theorem framed_potrfBackendPanel (SS RM KN M N : Nat) (A L : MPtr) (k i : Nat) : Framed (potrfBackendPanel SS RM KN M N A L k i : Prog V Unit) := by
  unfold potrfBackendPanel; framed
macro_rules | `(tactic| framed1) => `(tactic| with_reducible exact framed_potrfBackendPanel ..)

theorem framed_potrfLoops (T KN M N : Nat) (body : Nat → Nat → Nat → Prog V Unit) (h : ∀ a b c, Framed (body a b c)) : Framed (potrfLoops T KN M N body) := by
  unfold potrfLoops; framed <;> exact h _ _ _
macro_rules | `(tactic| framed1) => `(tactic| with_reducible refine framed_potrfLoops _ _ _ _ _ (fun _ _ _ => ?_))

theorem framed_potrfDensePtr (SS TR KN M N : Nat) (A L : MPtr) : Framed (potrfDensePtr SS TR KN M N A L : Prog V Unit) := by
  unfold potrfDensePtr; framed
macro_rules | `(tactic| framed1) => `(tactic| with_reducible exact framed_potrfDensePtr ..)

theorem framed_potrfPanelPtr (SS KN M N : Nat) (A L : MPtr) : Framed (potrfPanelPtr SS KN M N A L : Prog V Unit) := by
  unfold potrfPanelPtr; framed
macro_rules | `(tactic| framed1) => `(tactic| with_reducible exact framed_potrfPanelPtr ..)

theorem framed_potrfDenseMat (SS TR : Nat) (A L : Mat) : Framed (potrfDenseMat SS TR A L : Prog V Unit) := by
  unfold potrfDenseMat; framed
macro_rules | `(tactic| framed1) => `(tactic| with_reducible exact framed_potrfDenseMat ..)

theorem framed_potrfPanelMat (SS KN : Nat) (A L : Mat) : Framed (potrfPanelMat SS KN A L : Prog V Unit) := by
  unfold potrfPanelMat; framed
macro_rules | `(tactic| framed1) => `(tactic| with_reducible exact framed_potrfPanelMat ..)

theorem framed_fillN (base : Int) (n : Nat) (v : V) : Framed (fillN base n v : Prog V Unit) := by
  unfold fillN; framed
macro_rules | `(tactic| framed1) => `(tactic| with_reducible exact framed_fillN ..)

theorem framed_Container_get (SS : Nat) (c : Container) (i j : Nat) : Framed (Container.get SS c i j : Prog V V) := by
  unfold Container.get; framed
macro_rules | `(tactic| framed1) => `(tactic| with_reducible exact framed_Container_get ..)

theorem framed_Container_set (SS : Nat) (c : Container) (i j : Nat) (v : V) : Framed (Container.set SS c i j v : Prog V Unit) := by
  unfold Container.set; framed
macro_rules | `(tactic| framed1) => `(tactic| with_reducible exact framed_Container_set ..)

theorem framed_Container_reset (SS : Nat) (c : Container) : Framed (Container.reset SS c : Prog V Unit) := by
  unfold Container.reset; framed
macro_rules | `(tactic| framed1) => `(tactic| with_reducible exact framed_Container_reset ..)

theorem framed_Container_assignScalar (SS : Nat) (c : Container) (v : V) : Framed (Container.assignScalar SS c v : Prog V Unit) := by
  unfold Container.assignScalar; framed
macro_rules | `(tactic| framed1) => `(tactic| with_reducible exact framed_Container_assignScalar ..)

theorem framed_assignMat (SS : Nat) (a b : Container) : Framed (assignMat SS a b : Prog V Unit) := by
  unfold assignMat; framed
macro_rules | `(tactic| framed1) => `(tactic| with_reducible exact framed_assignMat ..)

theorem framed_eqMat (SS : Nat) (a b : Container) : Framed (eqMat SS a b : Prog V Bool) := by
  unfold eqMat; framed
macro_rules | `(tactic| framed1) => `(tactic| with_reducible exact framed_eqMat ..)

theorem framed_MExpr_get (SS : Nat) (e : MExpr) (i j : Nat) : Framed (MExpr.get SS e i j : Prog V V) := by
  unfold MExpr.get; framed
macro_rules | `(tactic| framed1) => `(tactic| with_reducible exact framed_MExpr_get ..)

theorem framed_MExpr_set (SS : Nat) (e : MExpr) (i j : Nat) (v : V) : Framed (MExpr.set SS e i j v : Prog V Unit) := by
  unfold MExpr.set; framed
macro_rules | `(tactic| framed1) => `(tactic| with_reducible exact framed_MExpr_set ..)

theorem framed_MExpr_resetView (SS : Nat) (e : MExpr) : Framed (MExpr.resetView SS e : Prog V Unit) := by
  unfold MExpr.resetView; framed
macro_rules | `(tactic| framed1) => `(tactic| with_reducible exact framed_MExpr_resetView ..)

theorem framed_MExpr_reset (SS : Nat) (e : MExpr) : Framed (MExpr.reset SS e : Prog V Unit) := by
  unfold MExpr.reset; framed
macro_rules | `(tactic| framed1) => `(tactic| with_reducible exact framed_MExpr_reset ..)

theorem framed_MExpr_assign (SS : Nat) (a b : MExpr) : Framed (MExpr.assign SS a b : Prog V Unit) := by
  unfold MExpr.assign; framed
macro_rules | `(tactic| framed1) => `(tactic| with_reducible exact framed_MExpr_assign ..)

theorem framed_RowView_reset (SS : Nat) (r : RowView) : Framed (RowView.reset SS r : Prog V Unit) := by
  unfold RowView.reset; framed
macro_rules | `(tactic| framed1) => `(tactic| with_reducible exact framed_RowView_reset ..)

theorem framed_randomizeMat (SS : Nat) (e : MExpr) (rnd : Nat → Nat → V) : Framed (randomizeMat SS e rnd : Prog V Unit) := by
  unfold randomizeMat; framed
macro_rules | `(tactic| framed1) => `(tactic| with_reducible exact framed_randomizeMat ..)

theorem framed_copyFullRows (SS m n : Nat) (L R : MPtr) : Framed (copyFullRows SS m n L R : Prog V Nat) := by
  unfold copyFullRows; framed
macro_rules | `(tactic| framed1) => `(tactic| with_reducible exact framed_copyFullRows ..)

theorem framed_copyElements (SS m n : Nat) (L R : MPtr) : Framed (copyElements SS m n L R : Prog V Unit) := by
  unfold copyElements; framed
macro_rules | `(tactic| framed1) => `(tactic| with_reducible exact framed_copyElements ..)

theorem framed_assignDensePanel (SS m n : Nat) (L R : MPtr) : Framed (assignDensePanel SS m n L R : Prog V Unit) := by
  unfold assignDensePanel; framed
macro_rules | `(tactic| framed1) => `(tactic| with_reducible exact framed_assignDensePanel ..)

theorem framed_assignPanelDense (SS m n : Nat) (L R : MPtr) : Framed (assignPanelDense SS m n L R : Prog V Unit) := by
  unfold assignPanelDense; framed
macro_rules | `(tactic| framed1) => `(tactic| with_reducible exact framed_assignPanelDense ..)

theorem framed_randomizePanel (SS : Nat) (c : Container) (rnd : Nat → Nat → V) : Framed (randomizePanel SS c rnd : Prog V Unit) := by
  unfold randomizePanel; framed
macro_rules | `(tactic| framed1) => `(tactic| with_reducible exact framed_randomizePanel ..)

theorem framed_makeHermitian (SS : Nat) (c : Container) (cj : V → V) (rnd : Nat → Nat → V) : Framed (makeHermitian SS c cj rnd : Prog V Unit) := by
  unfold makeHermitian; framed
macro_rules | `(tactic| framed1) => `(tactic| with_reducible exact framed_makeHermitian ..)

theorem framed_makeSymmetric (SS : Nat) (c : Container) (rnd : Nat → Nat → V) : Framed (makeSymmetric SS c rnd : Prog V Unit) := by
  unfold makeSymmetric; framed
macro_rules | `(tactic| framed1) => `(tactic| with_reducible exact framed_makeSymmetric ..)

end Blast
