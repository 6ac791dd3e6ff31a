import Verif.Threads
import Verif.Spec
import Verif.Lu
import Mathlib.Tactic.Choose
/-
Lemmas about `Threads`: the trees compute what the programs compute; simulation of interleaved threads by threads that run alone.
-/
set_option linter.unusedSectionVars false
namespace Blast
open Prog
variable {V : Type}

namespace Tree
variable {α β : Type}

theorem denote_bind (t : Tree V α) (f : α → Tree V β) (m : Mem V) :
    (t.bind f).denote m = Prog.bind' t.denote (fun a => (f a).denote) m := by
  induction t generalizing m with
  | ret a => rfl
  | fail e => cases e <;> rfl
  | read x k ih =>
    show Tree.denote (.read x _) m = _
    unfold Prog.bind' denote
    cases h : m x with
    | none => rfl
    | some v => exact ih v m
  | write x v t ih =>
    show Tree.denote (.write x v _) m = _
    unfold Prog.bind' denote
    cases h : m x with
    | none => rfl
    | some w => exact ih _

theorem denote_may {t : Tree V α} {m m' : Mem V} {a : α} (h : t.denote m = .ok a m') : t.May a := by
  induction t generalizing m with
  | ret b => cases h; rfl
  | fail e => cases e <;> cases h
  | read x k ih =>
    unfold denote at h
    cases e : m x with
    | none => rw [e] at h; cases h
    | some v => rw [e] at h; exact ⟨v, ih v h⟩
  | write x v t ih =>
    unfold denote at h
    cases e : m x with
    | none => rw [e] at h; cases h
    | some w => rw [e] at h; exact ih h

theorem denote_noexcept (t : Tree V α) (m : Mem V) : t.noexcept.denote m = Prog.noexcept t.denote m := by
  induction t generalizing m with
  | ret a => rfl
  | fail e => cases e <;> rfl
  | read x k ih =>
    show Tree.denote (.read x _) m = _
    unfold Prog.noexcept denote
    cases h : m x with
    | none => rfl
    | some v => exact ih v m
  | write x v t ih =>
    show Tree.denote (.write x v _) m = _
    unfold Prog.noexcept denote
    cases h : m x with
    | none => rfl
    | some w => exact ih _

theorem denote_gather [Arith V] (SS : Nat) (mask : Nat → Bool) (addr : Nat → Int) (m : Mem V) :
    (Tree.gather mask addr SS : Tree V (Vec V)).denote m = Blast.gather SS mask addr m := by
  induction SS with
  | zero => simp [Tree.gather, denote, Blast.gather]
  | succ n ih =>
    unfold Tree.gather
    rw [denote_bind]
    unfold Prog.bind'
    rw [ih]
    unfold Blast.gather
    by_cases h : ∀ l, l < n → mask l = true → (m (addr l)).isSome = true
    · rw [if_pos h]
      dsimp only
      by_cases hm : mask n = true
      · rw [if_pos hm]
        unfold denote
        cases e : m (addr n) with
        | none =>
          rw [if_neg (fun h' => by have := h' n (by omega) hm; rw [e] at this; cases this)]
        | some v =>
          rw [if_pos (fun l hl hml => by
            by_cases hln : l = n
            · subst hln; rw [e]; rfl
            · exact h l (by omega) hml)]
          show Res.ok _ m = Res.ok _ m
          congr 1
          funext l
          by_cases hln : l = n
          · subst hln
            rw [if_pos rfl, if_pos (show l < l + 1 by omega), if_pos hm]
            unfold val; rw [e]; rfl
          · rw [if_neg hln]
            by_cases hl : l < n
            · rw [if_pos hl, if_pos (show l < n + 1 by omega)]
            · rw [if_neg hl, if_neg (show ¬ l < n + 1 by omega)]
      · rw [if_neg hm]
        rw [if_pos (fun l hl hml => by
          by_cases hln : l = n
          · subst hln; exact absurd hml hm
          · exact h l (by omega) hml)]
        show Res.ok _ m = Res.ok _ m
        congr 1
        funext l
        by_cases hln : l = n
        · subst hln
          rw [if_neg (by omega), if_pos (by omega), if_neg hm]
        · by_cases hl : l < n
          · rw [if_pos hl, if_pos (show l < n + 1 by omega)]
          · rw [if_neg hl, if_neg (show ¬ l < n + 1 by omega)]
    · rw [if_neg h, if_neg (fun h' => h (fun l hl hm => h' l (by omega) hm))]

theorem denote_scatter [Arith V] (SS : Nat) (mask : Nat → Bool) (base : Int) (v : Vec V) (m : Mem V) :
    (Tree.scatter mask base v SS).denote m = Blast.storeVecMask SS mask base v m := by
  induction SS with
  | zero =>
    unfold Tree.scatter denote Blast.storeVecMask
    rw [if_pos (fun l hl => absurd hl (by omega))]
    congr 1
    funext x
    rw [if_neg (by omega)]
  | succ n ih =>
    unfold Tree.scatter
    rw [denote_bind]
    unfold Prog.bind'
    rw [ih]
    unfold Blast.storeVecMask
    by_cases h : ∀ l, l < n → mask l = true → (m (base + l)).isSome = true
    · rw [if_pos h]
      dsimp only
      by_cases hm : mask n = true
      · rw [if_pos hm]
        unfold denote
        dsimp only
        rw [if_neg (show ¬ (base ≤ base + (n : Int) ∧ base + (n : Int) < base + (n : Int) ∧ _) by omega)]
        cases e : m (base + n) with
        | none =>
          rw [if_neg (fun h' => by have := h' n (by omega) hm; rw [e] at this; cases this)]
        | some w =>
          rw [if_pos (fun l hl hml => by
            by_cases hln : l = n
            · subst hln; rw [e]; rfl
            · exact h l (by omega) hml)]
          show Res.ok _ _ = Res.ok _ _
          congr 1
          funext x
          by_cases hx : x = base + n
          · rw [if_pos hx]
            have hn : (x - base).toNat = n := by omega
            rw [if_pos ⟨by omega, by omega, by rw [hn]; exact hm⟩, hn]
          · rw [if_neg hx]
            by_cases hc : base ≤ x ∧ x < base + (n : Int) ∧ mask (x - base).toNat = true
            · rw [if_pos hc, if_pos ⟨hc.1, by omega, hc.2.2⟩]
            · rw [if_neg hc, if_neg (fun hc' => hc ⟨hc'.1, by omega, hc'.2.2⟩)]
      · rw [if_neg hm]
        rw [if_pos (fun l hl hml => by
          by_cases hln : l = n
          · subst hln; exact absurd hml hm
          · exact h l (by omega) hml)]
        show Res.ok _ _ = Res.ok _ _
        congr 1
        funext x
        by_cases hc : base ≤ x ∧ x < base + (n : Int) ∧ mask (x - base).toNat = true
        · rw [if_pos hc, if_pos ⟨hc.1, by omega, hc.2.2⟩]
        · rw [if_neg hc, if_neg (fun hc' => hc ⟨hc'.1, by
            by_cases hx : x = base + n
            · have hn : (x - base).toNat = n := by omega
              rw [hn] at hc'; exact absurd hc'.2.2 hm
            · omega, hc'.2.2⟩)]
    · have h2 : ¬ ∀ l, l < n + 1 → mask l = true → (m (base + l)).isSome = true := fun h' => h (fun l hl hm => h' l (by omega) hm)
      rw [if_neg h, if_neg h2]

end Tree

/-- a tree made by `Exec` computes what the program computes -/
theorem Exec.denote [Arith V] {α : Type} {p : Prog V α} {t : Tree V α} (h : Exec p t) : ∀ m, t.denote m = p m := by
  induction h with
  | pure a => intro m; rfl
  | throw e => intro m; rfl
  | ub => intro m; rfl
  | diverge => intro m; rfl
  | read x => intro m; unfold Tree.denote Prog.read; cases m x <;> rfl
  | write x v => intro m; unfold Tree.denote Prog.write; cases m x <;> rfl
  | gather SS mask addr => exact Tree.denote_gather SS mask addr
  | storeVecMask SS mask base v => exact Tree.denote_scatter SS mask base v
  | bind _ _ ih1 ih2 =>
    intro m
    rw [Tree.denote_bind]
    show Prog.bind' _ _ m = Prog.bind' _ _ m
    unfold Prog.bind'
    rw [← ih1 m]
    cases e : Tree.denote _ m with
    | ok a m' => exact ih2 a (Tree.denote_may e) m'
    | ub => rfl
    | throw x m' => rfl
    | terminate => rfl
    | diverge => rfl
  | noexcept _ ih =>
    intro m
    rw [Tree.denote_noexcept, funext ih]

/-! ### A logic for the accesses of a program -/

/-- `p` is executed by a tree that writes only cells of `W` and whose results satisfy `Q`, whatever values it reads -/
structure Acc [Arith V] (W : Int → Prop) {α : Type} (Q : α → Prop) (p : Prog V α) : Prop where
  tree : ∃ t, Exec p t ∧ t.All W Q

section acc
variable [Arith V] {W : Int → Prop} {α β σ : Type}

theorem Tree.All.mono {Q R : α → Prop} {W' : Int → Prop} {t : Tree V α} (h : t.All W Q) (hw : ∀ x, W x → W' x) (hq : ∀ a, Q a → R a) : t.All W' R := by
  induction t with
  | ret a => exact hq a h
  | fail f => trivial
  | read x k ih => exact fun v => ih v (h v)
  | write x v t ih => exact ⟨hw x h.1, ih h.2⟩

theorem Tree.All.bind {Q : α → Prop} {R : β → Prop} {t : Tree V α} {f : α → Tree V β} (h : t.All W Q) (hf : ∀ a, Q a → (f a).All W R) :
    (t.bind f).All W R := by
  induction t with
  | ret a => exact hf a h
  | fail f => trivial
  | read x k ih => exact fun v => ih v (h v)
  | write x v t ih => exact ⟨h.1, ih h.2⟩

theorem Tree.All.may {Q : α → Prop} {t : Tree V α} (h : t.All W Q) {a : α} (hm : t.May a) : Q a := by
  induction t with
  | ret b => cases hm; exact h
  | fail f => exact hm.elim
  | read x k ih => obtain ⟨v, hv⟩ := hm; exact ih v (h v) hv
  | write x v t ih => exact ih h.2 hm

theorem Tree.All.bind' {Q : α → Prop} {R : β → Prop} {t : Tree V α} {f : α → Tree V β} (h : t.All W Q) (hf : ∀ a, t.May a → (f a).All W R) :
    (t.bind f).All W R := by
  induction t with
  | ret a => exact hf a rfl
  | fail f => trivial
  | read x k ih => exact fun v => ih v (h v) (fun a ha => hf a ⟨v, ha⟩)
  | write x v t ih => exact ⟨h.1, ih h.2 hf⟩

theorem Tree.All.noexcept {Q : α → Prop} {t : Tree V α} (h : t.All W Q) : t.noexcept.All W Q := by
  induction t with
  | ret a => exact h
  | fail f => cases f <;> trivial
  | read x k ih => exact fun v => ih v (h v)
  | write x v t ih => exact ⟨h.1, ih h.2⟩

theorem Acc.mono {Q R : α → Prop} {W' : Int → Prop} {p : Prog V α} (h : Acc W Q p) (hw : ∀ x, W x → W' x) (hq : ∀ a, Q a → R a) : Acc W' R p := by
  obtain ⟨t, h1, h2⟩ := h.tree
  exact ⟨t, h1, h2.mono hw hq⟩

theorem Acc.post {Q R : α → Prop} {p : Prog V α} (h : Acc W Q p) (hq : ∀ a, Q a → R a) : Acc W R p := h.mono (fun _ h => h) hq

theorem acc_pure {Q : α → Prop} {a : α} (h : Q a) : Acc W Q (pure a : Prog V α) := ⟨_, .pure a, h⟩
theorem acc_throw {Q : α → Prop} (e : Exn) : Acc W Q (Prog.throw e : Prog V α) := ⟨_, .throw e, trivial⟩
theorem acc_ub {Q : α → Prop} : Acc W Q (Prog.ub : Prog V α) := ⟨_, .ub, trivial⟩
theorem acc_diverge {Q : α → Prop} : Acc W Q (fun _ => .diverge : Prog V α) := ⟨_, .diverge, trivial⟩
theorem acc_read (x : Int) : Acc W (fun _ => True) (Prog.read x : Prog V V) := ⟨_, .read x, fun _ => trivial⟩
theorem acc_write {x : Int} {v : V} (h : W x) : Acc W (fun _ => True) (Prog.write x v : Prog V Unit) := ⟨_, .write x v, h, trivial⟩

theorem acc_bindQ {Q : α → Prop} {R : β → Prop} {p : Prog V α} {f : α → Prog V β} (hp : Acc W Q p) (hf : ∀ a, Q a → Acc W R (f a)) : Acc W R (p >>= f) := by
  obtain ⟨t, h1, h2⟩ := hp.tree
  have hg : ∀ a, ∃ g, t.May a → Exec (f a) g ∧ g.All W R := fun a => by
    by_cases hm : t.May a
    · obtain ⟨g, e⟩ := (hf a (h2.may hm)).tree
      exact ⟨g, fun _ => e⟩
    · exact ⟨.fail .ub, fun h => absurd h hm⟩
  choose g hg using hg
  exact ⟨_, .bind h1 (fun a hm => (hg a hm).1), h2.bind' (fun a hm => (hg a hm).2)⟩


/-- the claim about results is dropped -/
theorem Acc.unit {Q : α → Prop} {p : Prog V α} (h : Acc W Q p) : Acc W (fun _ => True) p := h.post (fun _ _ => trivial)

theorem acc_bind {R : β → Prop} {p : Prog V α} {f : α → Prog V β} (hp : Acc W (fun _ => True) p) (hf : ∀ a, Acc W R (f a)) : Acc W R (p >>= f) :=
  acc_bindQ hp (fun a _ => hf a)

theorem acc_noexcept {Q : α → Prop} {p : Prog V α} (hp : Acc W Q p) : Acc W Q (Prog.noexcept p) := by
  obtain ⟨t, h1, h2⟩ := hp.tree
  exact ⟨_, .noexcept h1, h2.noexcept⟩

theorem acc_ite {Q : α → Prop} {c : Prop} [Decidable c] {p q : Prog V α} (hp : c → Acc W Q p) (hq : ¬ c → Acc W Q q) : Acc W Q (if c then p else q) := by
  split
  · exact hp (by assumption)
  · exact hq (by assumption)

theorem acc_onlyIf {b : Bool} {p : Prog V Unit} (h : b = true → Acc W (fun _ => True) p) : Acc W (fun _ => True) (onlyIf b p) := by
  unfold onlyIf; split
  · exact h (by assumption)
  · exact acc_pure trivial

theorem acc_foldNI {n : Nat} {f : Nat → σ → Prog V σ} {s : σ} (I : Nat → σ → Prop) (h0 : I 0 s) (h : ∀ k s, k < n → I k s → Acc W (I (k + 1)) (f k s)) :
    Acc W (I n) (foldN n f s) := by
  induction n with
  | zero => exact acc_pure h0
  | succ n ih => exact acc_bindQ (ih (fun k s hk => h k s (by omega))) (fun a ha => h n a (by omega) ha)

theorem acc_foldN {n : Nat} {f : Nat → σ → Prog V σ} {s : σ} (h : ∀ k s, k < n → Acc W (fun _ => True) (f k s)) : Acc W (fun _ => True) (foldN n f s) :=
  acc_foldNI (fun _ _ => True) trivial (fun k s hk _ => h k s hk)

theorem acc_forN {n : Nat} {f : Nat → Prog V Unit} (h : ∀ k, k < n → Acc W (fun _ => True) (f k)) : Acc W (fun _ => True) (forN n f) := by
  induction n with
  | zero => exact acc_pure trivial
  | succ n ih => exact acc_bind (ih (fun k hk => h k (by omega))) (fun _ => h n (by omega))

theorem acc_forFrom {lo hi : Nat} {f : Nat → Prog V Unit} (h : ∀ k, lo ≤ k → k < hi → Acc W (fun _ => True) (f k)) :
    Acc W (fun _ => True) (forFrom lo hi f) :=
  acc_forN (fun k hk => h _ (by omega) (by omega))

theorem acc_forDown {n : Nat} {f : Nat → Prog V Unit} (h : ∀ k, k < n → Acc W (fun _ => True) (f k)) : Acc W (fun _ => True) (forDown n f) := by
  induction n with
  | zero => exact acc_pure trivial
  | succ n ih => exact acc_bind (h n (by omega)) (fun _ => ih (fun k hk => h k (by omega)))

theorem acc_forList {τ : Type} {l : List τ} {f : τ → Prog V Unit} (h : ∀ x, x ∈ l → Acc W (fun _ => True) (f x)) : Acc W (fun _ => True) (forList l f) := by
  induction l with
  | nil => exact acc_pure trivial
  | cons x l ih => exact acc_bind (h x (by simp)) (fun _ => ih (fun y hy => h y (by simp [hy])))

theorem acc_loop {fuel : Nat} {c : Nat → Bool} {step : Nat} {b : Nat → Prog V Unit} {i : Nat} (I : Nat → Prop) (h0 : I i)
    (h : ∀ k, I k → c k = true → Acc W (fun _ => True) (b k) ∧ I (k + step)) : Acc W (fun k => I k ∧ c k = false) (loop fuel c step b i) := by
  induction fuel generalizing i with
  | zero => exact acc_diverge
  | succ n ih =>
    unfold loop
    cases e : c i with
    | true => rw [if_pos rfl]; exact acc_bind (h i h0 e).1 (fun _ => ih (h i h0 e).2)
    | false => rw [if_neg (by simp)]; exact acc_pure ⟨h0, e⟩

theorem acc_loopS {fuel : Nat} {c : Nat → Bool} {step : Nat} {b : Nat → σ → Prog V σ} {i : Nat} {s : σ} (I : Nat → σ → Prop) (h0 : I i s)
    (h : ∀ k s, I k s → c k = true → Acc W (I (k + step)) (b k s)) :
    Acc W (fun r => I r.1 r.2 ∧ c r.1 = false) (loopS fuel c step b i s) := by
  induction fuel generalizing i s with
  | zero => exact acc_diverge
  | succ n ih =>
    unfold loopS
    cases e : c i with
    | true => rw [if_pos rfl]; exact acc_bindQ (h i s h0 e) (fun a ha => ih ha)
    | false => rw [if_neg (by simp)]; exact acc_pure ⟨h0, e⟩

theorem Tree.all_gather (mask : Nat → Bool) (addr : Nat → Int) (n : Nat) : (Tree.gather mask addr n : Tree V (Vec V)).All W (fun _ => True) := by
  induction n with
  | zero => trivial
  | succ n ih =>
    unfold Tree.gather
    refine ih.bind (fun v _ => ?_)
    split
    · exact fun _ => trivial
    · trivial

theorem acc_gather (SS : Nat) (mask : Nat → Bool) (addr : Nat → Int) : Acc W (fun _ => True) (gather SS mask addr : Prog V (Vec V)) :=
  ⟨_, .gather SS mask addr, Tree.all_gather ..⟩

theorem acc_storeVecMask {SS : Nat} {mask : Nat → Bool} {base : Int} {v : Vec V} (h : ∀ l : Nat, l < SS → mask l = true → W (base + l)) :
    Acc W (fun _ => True) (storeVecMask SS mask base v) := by
  refine ⟨_, .storeVecMask SS mask base v, ?_⟩
  have key : ∀ n, n ≤ SS → (Tree.scatter mask base v n).All W (fun _ => True) := by
    intro n
    induction n with
    | zero => intro _; trivial
    | succ n ih =>
      intro hn
      unfold Tree.scatter
      refine (ih (by omega)).bind (fun _ _ => ?_)
      split
      · exact ⟨h n (by omega) (by assumption), trivial⟩
      · trivial
  exact key SS (Nat.le_refl _)

theorem acc_storeVec {SS : Nat} {al : Bool} {base : Int} {v : Vec V} (h : ∀ l : Nat, l < SS → W (base + l)) :
    Acc W (fun _ => True) (storeVec SS al base v) := by
  unfold storeVec
  exact acc_ite (fun _ => acc_ub) (fun _ => acc_storeVecMask (fun l hl _ => h l hl))

end acc
end Blast
