import Verif.Spec
/-
Lemmas about filling, element-wise loops over containers.
-/
set_option linter.unusedSectionVars false
namespace Blast
open Prog
variable {V : Type} [Arith V]

theorem runs_fillN {base : Int} {n : Nat} {v : V} {m : Mem V}
    (h : ∀ x, base ≤ x → x < base + n → (m x).isSome = true) :
    Runs (fillN base n v) m (fun _ m' =>
      WritesSet m m' (fun x => base ≤ x ∧ x < base + n) (fun _ => v)) := by
  unfold fillN
  refine (writes_forN (S := fun k x => x = base + (k : Nat)) (g := fun _ => v) ?_).mono ?_
  · intro k hk m' hw
    refine runs_write (hw.isSome (h _ (by omega) (by omega))) ?_
    intro x
    constructor
    · intro hx; dsimp only; rw [if_pos hx]
    · intro hx; dsimp only; rw [if_neg hx]
  · intro _ m' hw
    refine hw.congr (fun x => ?_)
    constructor
    · rintro ⟨k, hk, rfl⟩; omega
    · intro hx; exact ⟨(x - base).toNat, by omega, by omega⟩

/-- `std::fill_n` that leaves the allocated memory has undefined behaviour -/
theorem fillN_ub {base : Int} {n : Nat} {v : V} {m : Mem V} {k : Nat} (hk : k < n)
    (hbefore : ∀ k' : Nat, k' < k → (m (base + k')).isSome = true) (hat : m (base + (k : Nat)) = none) :
    fillN base n v m = .ub := by
  have hfirst : Runs (fillN base k v) m (fun _ m' =>
      WritesSet m m' (fun x => base ≤ x ∧ x < base + k) (fun _ => v)) :=
    runs_fillN (fun x h1 h2 => by
      have := hbefore (x - base).toNat (by omega)
      rwa [show base + (((x - base).toNat : Nat) : Int) = x by omega] at this)
  obtain ⟨_, m', hr, hw⟩ := hfirst
  have hub : ∀ n, k < n → fillN base n v m = .ub := by
    intro n
    induction n with
    | zero => intro h; omega
    | succ n ih =>
      intro h
      by_cases hkn : k = n
      · subst hkn
        have : fillN base (k + 1) v m = (fillN base k v >>= fun _ => write (base + (k : Nat)) v) m := rfl
        rw [this, bind_ok hr]
        unfold write
        have : m' (base + (k : Nat)) = none := by rw [(hw _).2 (by omega), hat]
        rw [this]
      · have e := ih (by omega)
        have : fillN base (n + 1) v m = (fillN base n v >>= fun _ => write (base + (n : Nat)) v) m := rfl
        rw [this]
        show bind' (fillN base n v) _ m = _
        unfold bind'; rw [e]
  exact hub n hk

/-- double loop `for i < r, j < w i` over cells at pairwise different addresses: cell (i,j) gets `F i j` -/
theorem runs_addrLoop (addr : Nat → Nat → Int) {r : Nat} {w : Nat → Nat} {m : Mem V}
    (hinj : ∀ i j i' j', i < r → j < w i → i' < r → j' < w i' → addr i j = addr i' j' → i = i' ∧ j = j')
    {body : Nat → Nat → Prog V Unit} (F : Nat → Nat → V)
    (halloc : ∀ i j, i < r → j < w i → (m (addr i j)).isSome = true)
    (hbody : ∀ i j m', i < r → j < w i →
      (∀ x, ¬ (∃ i' j', i' < r ∧ j' < w i' ∧ x = addr i' j') → m' x = m x) →
      (∀ i' j', i' < r → j' < w i' → (i < i' ∨ (i' = i ∧ j ≤ j')) →
        m' (addr i' j') = m (addr i' j')) →
      (∀ i' j', i' < r → j' < w i' → (m' (addr i' j')).isSome = true) →
      Runs (body i j) m' (fun _ m'' => m'' = fun x => if x = addr i j then some (F i j) else m' x)) :
    Runs (forN r (fun i => forN (w i) (fun j => body i j))) m (fun _ m' =>
      (∀ i j, i < r → j < w i → m' (addr i j) = some (F i j)) ∧
      (∀ x, ¬ (∃ i j, i < r ∧ j < w i ∧ x = addr i j) → m' x = m x)) := by
  -- invariant after processing all (i',j') lexicographically before (i,j)
  let Inv : Nat → Nat → Mem V → Prop := fun i j m' =>
    ∀ x, ((∀ i' j', i' < r → j' < w i' → (i' < i ∨ (i' = i ∧ j' < j)) → x = addr i' j' →
        m' x = some (F i' j')) ∧
      ((∀ i' j', i' < r → j' < w i' → (i' < i ∨ (i' = i ∧ j' < j)) → x ≠ addr i' j') → m' x = m x))
  have step : ∀ i j m', i < r → j < w i → Inv i j m' →
      Runs (body i j) m' (fun _ => Inv i (j + 1)) := by
    intro i j m' hi hj hI
    refine (hbody i j m' hi hj ?_ ?_ ?_).mono ?_
    · intro x hx
      exact (hI x).2 (fun i' j' h1 h2 _ he => hx ⟨i', j', h1, h2, he⟩)
    · intro i' j' h1 h2 h3
      refine (hI _).2 (fun i'' j'' h4 h5 h6 he => ?_)
      obtain ⟨rfl, rfl⟩ := hinj _ _ _ _ h1 h2 h4 h5 he
      omega
    · intro i' j' h1 h2
      by_cases hb : i' < i ∨ (i' = i ∧ j' < j)
      · rw [(hI _).1 i' j' h1 h2 hb rfl]; rfl
      · rw [(hI _).2 (fun i'' j'' h4 h5 h6 he => ?_)]
        · exact halloc i' j' h1 h2
        · obtain ⟨rfl, rfl⟩ := hinj _ _ _ _ h1 h2 h4 h5 he
          exact hb h6
    · rintro _ m'' rfl x
      constructor
      · rintro i' j' h1 h2 h3 rfl
        by_cases he : i' = i ∧ j' = j
        · obtain ⟨rfl, rfl⟩ := he; dsimp only; rw [if_pos rfl]
        · dsimp only
          rw [if_neg (fun h => he (by have := hinj _ _ _ _ h1 h2 hi hj h; omega))]
          exact (hI _).1 i' j' h1 h2 (by omega) rfl
      · intro hx
        dsimp only
        rw [if_neg (hx i j hi hj (by omega))]
        exact (hI x).2 (fun i' j' h1 h2 h3 => hx i' j' h1 h2 (by omega))
  refine (runs_forN (fun i m' => Inv i 0 m') ?_ ?_).mono ?_
  · intro x
    exact ⟨fun _ _ _ _ h => by omega, fun _ => rfl⟩
  · intro i m' hi hI
    refine (runs_forN (fun j m' => Inv i j m') hI (fun j m'' hj hI' => step i j m'' hi hj hI')).mono ?_
    intro _ m'' hI' x
    constructor
    · intro i' j' h1 h2 h3 he
      refine (hI' x).1 i' j' h1 h2 ?_ he
      rcases h3 with h3 | h3
      · by_cases hii : i' = i
        · subst hii; exact Or.inr ⟨rfl, h2⟩
        · exact Or.inl (by omega)
      · omega
    · intro hx
      exact (hI' x).2 (fun i' j' h1 h2 h3 => hx i' j' h1 h2 (by omega))
  · intro _ m' hI
    exact ⟨fun i j hi hj => (hI _).1 i j hi hj (Or.inl hi) rfl,
      fun x hx => (hI x).2 (fun i j hi hj _ he => hx ⟨i, j, hi, hj, he⟩)⟩

/-- double loop `for i < r, j < c`: cell (i,j) of the container gets `F i j` -/
theorem runs_elemLoop {SS : Nat} (hSS : 0 < SS) {c : Container} {r : Nat} {w : Nat → Nat} {m : Mem V}
    (hr : r ≤ c.rows) (hw' : ∀ i, i < r → w i ≤ c.cols)
    {body : Nat → Nat → Prog V Unit} (F : Nat → Nat → V)
    (halloc : ∀ i j, i < r → j < w i → (m (c.addr SS i j)).isSome = true)
    (hbody : ∀ i j m', i < r → j < w i →
      (∀ x, ¬ (∃ i' j', i' < r ∧ j' < w i' ∧ x = c.addr SS i' j') → m' x = m x) →
      (∀ i' j', i' < r → j' < w i' → (i < i' ∨ (i' = i ∧ j ≤ j')) →
        m' (c.addr SS i' j') = m (c.addr SS i' j')) →
      (∀ i' j', i' < r → j' < w i' → (m' (c.addr SS i' j')).isSome = true) →
      Runs (body i j) m' (fun _ m'' => m'' = fun x => if x = c.addr SS i j then some (F i j) else m' x)) :
    Runs (forN r (fun i => forN (w i) (fun j => body i j))) m (fun _ m' =>
      (∀ i j, i < r → j < w i → m' (c.addr SS i j) = some (F i j)) ∧
      (∀ x, ¬ (∃ i j, i < r ∧ j < w i ∧ x = c.addr SS i j) → m' x = m x)) := by
  have hinj : ∀ i j i' j', i < r → j < w i → i' < r → j' < w i' →
      c.addr SS i j = c.addr SS i' j' → i = i' ∧ j = j' := by
    intro i j i' j' h1 h2 h3 h4 he
    have := c.inj hSS i j i' j' (by omega) (by have := hw' i h1; omega) (by omega)
      (by have := hw' i' h3; omega)
    rw [← Container.addr_eq_mptr, ← Container.addr_eq_mptr] at this
    exact this he
  exact runs_addrLoop (c.addr SS) hinj F halloc hbody

end Blast
