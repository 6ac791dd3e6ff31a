import Verif.VecPointer
/-
Reasoning principle for algorithms that write every element of the output exactly once, in a fixed
order, computing it from the current memory (reference trsm, trmm, gemm, ger, axpy).
-/
set_option linter.unusedSectionVars false
namespace Blast
open Prog
variable {V : Type} [Arith V]

open Classical in
/-- `m'` on `S`, `m` elsewhere -/
noncomputable def mixMem (S : Int → Prop) (m' m : Mem V) : Mem V := fun x => if S x then m' x else m x

theorem mixMem_in {S : Int → Prop} {m' m : Mem V} {x : Int} (h : S x) : mixMem S m' m x = m' x := by
  unfold mixMem; rw [if_pos h]

theorem mixMem_out {S : Int → Prop} {m' m : Mem V} {x : Int} (h : ¬ S x) : mixMem S m' m x = m x := by
  unfold mixMem; rw [if_neg h]

/-- the memory after storing `v` at `x` -/
def updMem (m : Mem V) (x : Int) (v : V) : Mem V := fun y => if y = x then some v else m y

theorem updMem_same (m : Mem V) (x : Int) (v : V) : updMem m x v x = some v := by
  unfold updMem; rw [if_pos rfl]

theorem updMem_ne (m : Mem V) {x y : Int} (v : V) (h : y ≠ x) : updMem m x v y = m y := by
  unfold updMem; rw [if_neg h]

theorem write_eq {m : Mem V} {x : Int} (v : V) (h : (m x).isSome = true) :
    Prog.write x v m = .ok () (updMem m x v) := by
  unfold Prog.write
  cases hm : m x with
  | none => rw [hm] at h; simp at h
  | some w => rfl

theorem forN_eq_list (n : Nat) (f : Nat → Prog V Unit) : forN n f = forList (List.range n) f := by
  induction n with
  | zero => rfl
  | succ n ih =>
    rw [List.range_succ, forList_append]
    show (forN n f >>= fun _ => f n) = _
    rw [ih]
    congr 1
    funext _
    show f n = (f n >>= fun _ => pure ())
    rw [bind_pure_unit]

theorem forDown_eq_list (n : Nat) (f : Nat → Prog V Unit) : forDown n f = forList (List.range n).reverse f := by
  induction n with
  | zero => rfl
  | succ n ih =>
    rw [List.range_succ, List.reverse_append]
    show (f n >>= fun _ => forDown n f) = _
    rw [ih]; rfl

/-- cells written before step `t` -/
def Before {τ : Type} (l : List τ) (R : τ → τ → Prop) (addr : τ → Int) (t : τ) (x : Int) : Prop :=
  ∃ t', t' ∈ l ∧ R t' t ∧ x = addr t'

theorem runs_once {τ : Type} (l : List τ) (R : τ → τ → Prop) (hp : l.Pairwise R)
    (hasym : ∀ s t, R s t → ¬ R t s) (addr : τ → Int) (hinj : ∀ s t, s ∈ l → t ∈ l → addr s = addr t → s = t)
    (F : τ → Mem V → V) (body : τ → Prog V Unit) (m : Mem V)
    (h : ∀ t, t ∈ l → ∀ m1 : Mem V, (∀ x, ¬ Before l R addr t x → m1 x = m x) →
      (∀ x, Before l R addr t x → (m1 x).isSome = true) →
      body t m1 = .ok () (updMem m1 (addr t) (F t m1))) :
    ∃ m', forList l body m = .ok () m' ∧
      (∀ x, (∀ t, t ∈ l → x ≠ addr t) → m' x = m x) ∧
      (∀ t, t ∈ l → m' (addr t) = some (F t (mixMem (Before l R addr t) m' m))) := by
  have key : ∀ (l' pre : List τ) (mp : Mem V), l = pre ++ l' →
      (∀ x, (∀ t, t ∈ pre → x ≠ addr t) → mp x = m x) →
      (∀ t, t ∈ pre → mp (addr t) = some (F t (mixMem (Before l R addr t) mp m))) →
      ∃ m', forList l' body mp = .ok () m' ∧
      (∀ x, (∀ t, t ∈ l → x ≠ addr t) → m' x = m x) ∧
      (∀ t, t ∈ l → m' (addr t) = some (F t (mixMem (Before l R addr t) m' m))) := by
    intro l'
    induction l' with
    | nil =>
      intro pre mp hl h1 h2
      rw [List.append_nil] at hl
      subst hl
      exact ⟨mp, rfl, h1, h2⟩
    | cons t ts ih =>
      intro pre mp hl h1 h2
      have hpw := hp
      rw [hl, List.pairwise_append] at hpw
      obtain ⟨hp1, hp2, hp3⟩ := hpw
      rw [List.pairwise_cons] at hp2
      have htl : t ∈ l := by rw [hl]; simp
      -- the cells written before t are those of pre
      have hbef : ∀ x, Before l R addr t x ↔ ∃ s, s ∈ pre ∧ x = addr s := by
        intro x
        constructor
        · rintro ⟨s, hs, hr, rfl⟩
          rw [hl, List.mem_append, List.mem_cons] at hs
          rcases hs with hs | rfl | hs
          · exact ⟨s, hs, rfl⟩
          · exact absurd hr (hasym _ _ hr)
          · exact absurd hr (hasym _ _ (hp2.1 s hs))
        · rintro ⟨s, hs, rfl⟩
          exact ⟨s, by rw [hl]; simp [hs], hp3 s hs t (by simp), rfl⟩
      have hnb : ∀ s, s ∈ pre ∨ s = t → ¬ Before l R addr s (addr t) := by
        rintro s hs ⟨s', hs', hr, he⟩
        have := hinj _ _ htl hs' he
        subst this
        rcases hs with hs | rfl
        · exact hasym _ _ hr (hp3 s hs t (by simp))
        · exact hasym _ _ hr hr
      have hmix : mixMem (Before l R addr t) mp m = mp := by
        funext x
        by_cases hx : Before l R addr t x
        · rw [mixMem_in hx]
        · rw [mixMem_out hx]
          exact (h1 x (fun s hs hx' => hx ((hbef x).2 ⟨s, hs, hx'⟩))).symm
      have hstep := h t htl mp (fun x hx => h1 x (fun s hs he => hx ((hbef x).2 ⟨s, hs, he⟩)))
        (fun x hx => by obtain ⟨s, hs, rfl⟩ := (hbef x).1 hx; rw [h2 s hs]; rfl)
      have hmix' : ∀ s, s ∈ pre ∨ s = t → mixMem (Before l R addr s) (updMem mp (addr t) (F t mp)) m =
          mixMem (Before l R addr s) mp m := by
        intro s hs
        funext x
        by_cases hx : Before l R addr s x
        · rw [mixMem_in hx, mixMem_in hx]
          exact updMem_ne _ _ (fun he => hnb s hs (he ▸ hx))
        · rw [mixMem_out hx, mixMem_out hx]
      obtain ⟨m', e1, e2, e3⟩ := ih (pre ++ [t]) (updMem mp (addr t) (F t mp)) (by simp [hl])
        (by
          intro x hx
          rw [updMem_ne _ _ (hx t (by simp))]
          exact h1 x (fun s hs => hx s (by simp [hs])))
        (by
          intro s hs
          rw [List.mem_append, List.mem_singleton] at hs
          rw [hmix' s hs]
          rcases hs with hs | rfl
          · rw [updMem_ne]
            · exact h2 s hs
            · intro he
              have := hinj _ _ (by rw [hl]; simp [hs]) htl he
              subst this
              exact hasym _ _ (hp3 s hs s (by simp)) (hp3 s hs s (by simp))
          · rw [updMem_same, hmix])
      exact ⟨m', by show (body t >>= fun _ => forList ts body) mp = _; rw [bind_ok hstep]; exact e1, e2, e3⟩
  exact key l [] m rfl (fun _ _ => rfl) (fun t ht => by simp at ht)

/-- inner loop upwards or downwards -/
def innerLoop (down : Bool) (n : Nat) (f : Nat → Prog V Unit) : Prog V Unit :=
  if down then forDown n f else forN n f

/-- `i'` comes before `i` in the inner loop -/
def innerLt (down : Bool) (i' i : Nat) : Prop := if down then i < i' else i' < i

/-- cells written before step `(o,i)` of the double loop -/
def Before2 (no ni : Nat) (down : Bool) (addr : Nat → Nat → Int) (o i : Nat) (x : Int) : Prop :=
  ∃ o' i', o' < no ∧ i' < ni ∧ (o' < o ∨ (o' = o ∧ innerLt down i' i)) ∧ x = addr o' i'

theorem runs_once2 (no ni : Nat) (down : Bool) (addr : Nat → Nat → Int)
    (hinj : ∀ o i o' i', o < no → i < ni → o' < no → i' < ni → addr o i = addr o' i' → o = o' ∧ i = i')
    (F : Nat → Nat → Mem V → V) (body : Nat → Nat → Prog V Unit) (m : Mem V)
    (h : ∀ o i, o < no → i < ni → ∀ m1 : Mem V, (∀ x, ¬ Before2 no ni down addr o i x → m1 x = m x) →
      (∀ x, Before2 no ni down addr o i x → (m1 x).isSome = true) →
      body o i m1 = .ok () (updMem m1 (addr o i) (F o i m1))) :
    ∃ m', forN no (fun o => innerLoop down ni (body o)) m = .ok () m' ∧
      (∀ x, (∀ o i, o < no → i < ni → x ≠ addr o i) → m' x = m x) ∧
      (∀ o i, o < no → i < ni →
        m' (addr o i) = some (F o i (mixMem (Before2 no ni down addr o i) m' m))) := by
  let li : List Nat := if down then (List.range ni).reverse else List.range ni
  have hli : ∀ i, i ∈ li ↔ i < ni := by
    intro i; dsimp only [li]; split <;> simp
  have hlp : li.Pairwise (innerLt down) := by
    dsimp only [li, innerLt]
    cases down
    · simp only [Bool.false_eq_true, if_false]; exact List.pairwise_lt_range
    · simp only [if_true]; rw [List.pairwise_reverse]; exact List.pairwise_lt_range
  let l : List (Nat × Nat) := (List.range no).flatMap (fun o => li.map (fun i => (o, i)))
  have hl : ∀ t : Nat × Nat, t ∈ l ↔ t.1 < no ∧ t.2 < ni := by
    rintro ⟨o, i⟩
    dsimp only [l]
    simp only [List.mem_flatMap, List.mem_range, List.mem_map, Prod.mk.injEq]
    constructor
    · rintro ⟨o', h1, i', h2, rfl, rfl⟩; exact ⟨h1, (hli _).1 h2⟩
    · rintro ⟨h1, h2⟩; exact ⟨o, h1, i, (hli _).2 h2, rfl, rfl⟩
  let R : Nat × Nat → Nat × Nat → Prop := fun s t => s.1 < t.1 ∨ (s.1 = t.1 ∧ innerLt down s.2 t.2)
  have hR : l.Pairwise R := by
    dsimp only [l]
    rw [List.pairwise_flatMap]
    constructor
    · intro o _
      rw [List.pairwise_map]
      exact hlp.imp (fun hh => Or.inr ⟨rfl, hh⟩)
    · refine (List.pairwise_lt_range (n := no)).imp ?_
      intro a b hab x hx y hy
      rw [List.mem_map] at hx hy
      obtain ⟨_, _, rfl⟩ := hx
      obtain ⟨_, _, rfl⟩ := hy
      exact Or.inl hab
  have hasym : ∀ s t, R s t → ¬ R t s := by
    rintro ⟨a, b⟩ ⟨c, d⟩ h1 h2
    dsimp only [R, innerLt] at h1 h2
    cases down <;> simp at h1 h2 <;> omega
  have hBef : ∀ t, Before l R (fun t => addr t.1 t.2) t = Before2 no ni down addr t.1 t.2 := by
    intro t
    funext x
    apply propext
    constructor
    · rintro ⟨s, hs, hr, hx⟩
      exact ⟨s.1, s.2, ((hl s).1 hs).1, ((hl s).1 hs).2, hr, hx⟩
    · rintro ⟨o', i', h1, h2, hr, hx⟩
      exact ⟨(o', i'), (hl _).2 ⟨h1, h2⟩, hr, hx⟩
  obtain ⟨m', e1, e2, e3⟩ := runs_once l R hR hasym (fun t => addr t.1 t.2)
    (by
      rintro ⟨a, b⟩ ⟨c, d⟩ hs ht he
      obtain ⟨e1, e2⟩ := hinj a b c d ((hl _).1 hs).1 ((hl _).1 hs).2 ((hl _).1 ht).1 ((hl _).1 ht).2 he
      rw [e1, e2])
    (fun t => F t.1 t.2) (fun t => body t.1 t.2) m
    (by
      intro t ht m1 h1 h2
      rw [hBef] at h1 h2
      exact h t.1 t.2 ((hl _).1 ht).1 ((hl _).1 ht).2 m1 h1 h2)
  refine ⟨m', ?_, fun x hx => e2 x (fun t ht => hx t.1 t.2 ((hl _).1 ht).1 ((hl _).1 ht).2), ?_⟩
  · rw [← e1]
    dsimp only [l]
    rw [forN_eq_list, forList_flatMap]
    congr 1
    funext o
    rw [forList_map]
    dsimp only [li]
    unfold innerLoop
    cases down
    · simp only [Bool.false_eq_true, if_false]; exact forN_eq_list _ _
    · simp only [if_true]; exact forDown_eq_list _ _
  · intro o i ho hi
    have := e3 (o, i) ((hl _).2 ⟨ho, hi⟩)
    rw [hBef] at this
    exact this

end Blast
