import Verif.Access2
import Verif.Props.Frame
/- Concrete cases meeting the hypotheses of these theorems: Verif/Cases/Threads.lean, and the examples in this file. -/
/-
Property C70: concurrent calls. Threads that make library calls whose outputs are not used by the other threads (inputs may be shared) do not disturb each
other, whatever the scheduler does: no data race, no undefined behaviour, each call gives the result it would have given alone, and the final memory does not
depend on the schedule.
-/
set_option linter.unusedSectionVars false
namespace Blast
open Prog Reg
variable {V : Type}

/-! ### Specification -/

/-- `t` is `p` access by access, and when `p` is started in `m`, every access is to a cell of `S` and every write is to a cell of `W`. -/
structure Runnable [Arith V] {α : Type} (S W : Int → Prop) (m : Mem V) (p : Prog V α) (t : Tree V α) : Prop where
  uses : UsesOnly S W p m
  exec : Exec p t
  writes : t.All W (fun _ => True)

/-- `p`, started in `m`, can run in a thread: access by access, it uses only cells of `S` and writes only cells of `W` (whatever the values it reads). -/
structure ThreadSafe [Arith V] {α : Type} (S W : Int → Prop) (p : Prog V α) (m : Mem V) : Prop where
  uses : UsesOnly S W p m
  acc : Acc W (fun _ => True) p

/-- The thread has ended the way `p` ends when it runs alone in memory `m0`: it has returned the same value or thrown the same exception, and in memory `m`
the cells of `W` are as `p` alone would have left them. -/
def EndedAsAlone {α : Type} (W : Int → Prop) (m0 m : Mem V) (p : Prog V α) (t : Tree V α) : Prop :=
  ∃ (r : Except Exn α) (m1 : Mem V), Ends p m0 r m1 ∧ (∀ x, W x → m x = m1 x) ∧
    t = (match r with | .ok a => .ret a | .error e => .fail (.throw e))

/-- two accesses (thread, cell, is a write) conflict: same cell, different threads, and not both are reads. In C++, conflicting accesses that are not ordered
by synchronization are a data race. -/
def Conflict {ι : Type} (a b : ι × Int × Bool) : Prop := a.1 ≠ b.1 ∧ a.2.1 = b.2.1 ∧ (a.2.2 = true ∨ b.2.2 = true)

/-! ### Simulation -/

section sim
variable {α : Type}

theorem Tree.steps_zero {t : Tree V α} {m : Mem V} (h : t.steps m = 0) : t.done = true := by
  cases t with
  | ret a => rfl
  | fail f => rfl
  | read x k => unfold Tree.steps at h; cases e : m x <;> rw [e] at h <;> simp at h
  | write x v t => unfold Tree.steps at h; cases e : m x <;> rw [e] at h <;> simp at h

/-- what is known about a thread while it runs: `R` is what it computes on its own cells and `n` the number of accesses still to be made -/
structure Sim (S W : Int → Prop) (R : Res V α) (n : Nat) (t : Tree V α) (m : Mem V) : Prop where
  den : t.denote (onlyAllocated S m) = R
  cnt : t.steps (onlyAllocated S m) = n
  all : t.All W (fun _ => True)

theorem onlyAllocated_update {S : Int → Prop} {m : Mem V} {x : Int} {v : V} (h : S x) :
    onlyAllocated S (fun y => if y = x then some v else m y) = fun y => if y = x then some v else onlyAllocated S m y := by
  funext y
  by_cases hy : y = x
  · subst hy; rw [if_pos rfl, onlyAllocated_of h, if_pos rfl]
  · rw [if_neg hy]
    by_cases hs : S y
    · rw [onlyAllocated_of hs, onlyAllocated_of hs, if_neg hy]
    · rw [onlyAllocated_not hs, onlyAllocated_not hs]

theorem onlyAllocated_update_not {S : Int → Prop} {m : Mem V} {x : Int} {v : V} (h : ¬ S x) :
    onlyAllocated S (fun y => if y = x then some v else m y) = onlyAllocated S m := by
  funext y
  by_cases hs : S y
  · rw [onlyAllocated_of hs, onlyAllocated_of hs, if_neg (fun e : y = x => h (e ▸ hs))]
  · rw [onlyAllocated_not hs, onlyAllocated_not hs]

theorem onlyAllocated_some {S : Int → Prop} {m : Mem V} {x : Int} {v : V} (h : onlyAllocated S m x = some v) : S x ∧ m x = some v := by
  by_cases hs : S x
  · rw [onlyAllocated_of hs] at h; exact ⟨hs, h⟩
  · rw [onlyAllocated_not hs] at h; cases h

/-- one step of a thread -/
theorem Sim.step {S W : Int → Prop} {R : Res V α} {n : Nat} {t : Tree V α} {m : Mem V} (h : Sim S W R n t m) (hR : R ≠ .ub) :
    (Sim S W R (n - 1) (t.step m).1 (t.step m).2) ∧
    ((t.step m).2 = m ∨ ∃ x v, W x ∧ S x ∧ (m x).isSome ∧ (t.step m).2 = fun y => if y = x then some v else m y) ∧
    (∀ x w, t.access = some (x, w) → S x ∧ (w = true → W x)) := by
  obtain ⟨h1, h2, h3⟩ := h
  cases t with
  | ret a => exact ⟨⟨h1, by rw [← h2]; rfl, h3⟩, Or.inl rfl, fun x w e => by cases e⟩
  | fail f => exact ⟨⟨h1, by rw [← h2]; rfl, h3⟩, Or.inl rfl, fun x w e => by cases e⟩
  | read x k =>
    unfold Tree.denote at h1
    unfold Tree.steps at h2
    cases e : onlyAllocated S m x with
    | none => rw [e] at h1; exact absurd h1.symm hR
    | some v =>
      rw [e] at h1 h2
      obtain ⟨hs, hm⟩ := onlyAllocated_some e
      have e2 : (Tree.read x k).step m = (k v, m) := by show (match m x with | some v => (k v, m) | none => _) = _; rw [hm]
      rw [e2]
      exact ⟨⟨h1, by dsimp only at h2 ⊢; omega, h3 v⟩, Or.inl rfl, fun y w e => by cases e; exact ⟨hs, fun h => by cases h⟩⟩
  | write x v t =>
    unfold Tree.denote at h1
    unfold Tree.steps at h2
    cases e : onlyAllocated S m x with
    | none => rw [e] at h1; exact absurd h1.symm hR
    | some v0 =>
      rw [e] at h1 h2
      obtain ⟨hs, hm⟩ := onlyAllocated_some e
      have e2 : (Tree.write x v t).step m = (t, fun y => if y = x then some v else m y) := by
        show (match m x with | some _ => (t, fun y => if y = x then some v else m y) | none => _) = _; rw [hm]
      rw [e2]
      dsimp only at h1 h2 ⊢
      rw [← onlyAllocated_update hs] at h1 h2
      exact ⟨⟨h1, by omega, h3.2⟩, Or.inr ⟨x, v, h3.1, hs, by rw [hm]; rfl, rfl⟩,
        fun y w e => by cases e; exact ⟨hs, fun _ => h3.1⟩⟩

end sim

section pool
variable {ι : Type} [DecidableEq ι] {α : ι → Type}

/-- the whole pool -/
structure PoolSim (S W : ι → Int → Prop) (R : (i : ι) → Res V (α i)) (n : ι → Nat) (m0 : Mem V) (P : Pool V α) : Prop where
  thr : ∀ i, Sim (S i) (W i) (R i) (n i) (P.thread i) P.mem
  dom : ∀ x, (P.mem x).isSome = (m0 x).isSome
  frame : ∀ x, (∀ i, ¬ W i x) → P.mem x = m0 x

theorem PoolSim.step {S W : ι → Int → Prop} {R : (i : ι) → Res V (α i)} {n : ι → Nat} {m0 : Mem V} {P : Pool V α} (h : PoolSim S W R n m0 P)
    (hR : ∀ i, R i ≠ .ub) (hd : ∀ i j, i ≠ j → ∀ x, W i x → ¬ S j x) (i : ι) :
    PoolSim S W R (fun j => if j = i then n i - 1 else n j) m0 (P.step i) := by
  obtain ⟨s1, s2, _⟩ := (h.thr i).step (hR i)
  refine ⟨fun j => ?_, fun x => ?_, fun x hx => ?_⟩
  · by_cases hj : j = i
    · subst hj
      unfold Pool.step
      dsimp only
      rw [Function.update_self, if_pos rfl]
      exact s1
    · unfold Pool.step
      dsimp only
      rw [Function.update_of_ne hj, if_neg hj]
      rcases s2 with e | ⟨x, v, hw, _, _, e⟩
      · rw [e]; exact h.thr j
      · rw [e]
        have := onlyAllocated_update_not (m := P.mem) (v := v) (hd i j (Ne.symm hj) x hw)
        obtain ⟨h1, h2, h3⟩ := h.thr j
        exact ⟨by rw [this]; exact h1, by rw [this]; exact h2, h3⟩
  · show ((((P.thread i).step P.mem).2) x).isSome = _
    rcases s2 with e | ⟨y, v, _, _, hs, e⟩
    · rw [e]; exact h.dom x
    · rw [e]
      dsimp only
      by_cases hxy : x = y
      · subst hxy; rw [if_pos rfl, ← h.dom x, hs]; rfl
      · rw [if_neg hxy]; exact h.dom x
  · show (((P.thread i).step P.mem).2) x = _
    rcases s2 with e | ⟨y, v, hw, _, _, e⟩
    · rw [e]; exact h.frame x hx
    · rw [e]
      dsimp only
      rw [if_neg (fun e : x = y => hx i (by rw [e]; exact hw))]
      exact h.frame x hx

theorem PoolSim.run {S W : ι → Int → Prop} {R : (i : ι) → Res V (α i)} {n : ι → Nat} {m0 : Mem V} {P : Pool V α} (h : PoolSim S W R n m0 P)
    (hR : ∀ i, R i ≠ .ub) (hd : ∀ i j, i ≠ j → ∀ x, W i x → ¬ S j x) (s : List ι) :
    PoolSim S W R (fun i => n i - s.count i) m0 (P.run s) := by
  induction s generalizing P n with
  | nil => exact h
  | cons i s ih =>
    have := ih (h.step hR hd i)
    have e : (fun j => (if j = i then n i - 1 else n j) - s.count j) = fun j => n j - (i :: s).count j := by
      funext j
      by_cases hj : j = i
      · subst hj; rw [if_pos rfl, List.count_cons_self]; omega
      · rw [if_neg hj, List.count_cons_of_ne (Ne.symm hj)]
    rw [e] at this
    exact this

theorem PoolSim.trace {S W : ι → Int → Prop} {R : (i : ι) → Res V (α i)} {n : ι → Nat} {m0 : Mem V} {P : Pool V α} (h : PoolSim S W R n m0 P)
    (hR : ∀ i, R i ≠ .ub) (hd : ∀ i j, i ≠ j → ∀ x, W i x → ¬ S j x) (s : List ι) :
    ∀ a ∈ P.trace s, S a.1 a.2.1 ∧ (a.2.2 = true → W a.1 a.2.1) := by
  induction s generalizing P n with
  | nil => intro a ha; cases ha
  | cons i s ih =>
    intro a ha
    unfold Pool.trace at ha
    cases e : (P.thread i).access with
    | none => rw [e] at ha; exact ih (h.step hR hd i) a ha
    | some b =>
      rw [e] at ha
      rcases List.mem_cons.1 ha with rfl | ha
      · exact ((h.thr i).step (hR i)).2.2 b.1 b.2 e
      · exact ih (h.step hR hd i) a ha

end pool

/-! ### Any family of calls -/

section main
variable [Arith V] {ι : Type} [DecidableEq ι] {α : ι → Type}

theorem Runnable.res {α : Type} {S W : Int → Prop} {m : Mem V} {p : Prog V α} {t : Tree V α} (h : Runnable S W m p t) :
    ∃ (r : Except Exn α) (m1 m2 : Mem V), Ends p m r m1 ∧ Ends p (onlyAllocated S m) r m2 ∧ ∀ x, W x → m2 x = m1 x := by
  obtain ⟨r, out, _, hrun⟩ := h.uses.run
  exact ⟨r, _, _, hrun m (fun _ _ => rfl), hrun _ (fun x hx => onlyAllocated_of hx), fun x hx => by rw [overlay_of hx, overlay_of hx]⟩

theorem Ends.unique {α : Type} {p : Prog V α} {m m1 m2 : Mem V} {r r' : Except Exn α} (h : Ends p m r m1) (h' : Ends p m r' m2) : r = r' ∧ m1 = m2 := by
  cases r with
  | ok a =>
    have h : p m = _ := h
    cases r' with
    | ok b => have h' : p m = _ := h'; rw [h] at h'; injection h' with q1 q2; exact ⟨by rw [q1], q2⟩
    | error e => have h' : p m = _ := h'; rw [h] at h'; cases h'
  | error a =>
    have h : p m = _ := h
    cases r' with
    | ok b => have h' : p m = _ := h'; rw [h] at h'; cases h'
    | error e => have h' : p m = _ := h'; rw [h] at h'; injection h' with q1 q2; exact ⟨by rw [q1], q2⟩

theorem PoolSim.init {p : (i : ι) → Prog V (α i)} {t : (i : ι) → Tree V (α i)} {S W : ι → Int → Prop} {m : Mem V}
    (h : ∀ i, Runnable (S i) (W i) m (p i) (t i)) :
    PoolSim S W (fun i => p i (onlyAllocated (S i) m)) (fun i => (t i).steps (onlyAllocated (S i) m)) m ⟨t, m⟩ :=
  ⟨fun i => ⟨(h i).exec.denote _, rfl, (h i).writes⟩, fun _ => rfl, fun _ _ => rfl⟩

theorem Runnable.ne_ub {α : Type} {S W : Int → Prop} {m : Mem V} {p : Prog V α} {t : Tree V α} (h : Runnable S W m p t) :
    p (onlyAllocated S m) ≠ .ub := by
  obtain ⟨r, m1, m2, _, h2, _⟩ := h.res
  cases r with
  | ok a => have h2 : p _ = _ := h2; rw [h2]; exact fun h => by cases h
  | error e => have h2 : p _ = _ := h2; rw [h2]; exact fun h => by cases h

theorem Sim.ended {α : Type} {S W : Int → Prop} {m0 m : Mem V} {p : Prog V α} {t t' : Tree V α} {n : Nat} (h : Runnable S W m0 p t)
    (hs : Sim S W (p (onlyAllocated S m0)) n t' m) (hd : t'.done = true) : EndedAsAlone W m0 m p t' := by
  obtain ⟨r, m1, m2, e1, e2, e3⟩ := h.res
  have hden := hs.den
  have key : ∀ m', m' = onlyAllocated S m → m' = m2 → ∀ x, W x → m x = m1 x := by
    intro m' h1 h2 x hx
    rw [← e3 x hx, ← h2, h1, onlyAllocated_of (h.uses.sub x hx)]
  cases r with
  | ok a =>
    have e2 : p (onlyAllocated S m0) = .ok a m2 := e2
    rw [e2] at hden
    cases t' with
    | ret b =>
      have hden : Res.ok b (onlyAllocated S m) = Res.ok a m2 := hden
      injection hden with q1 q2
      exact ⟨.ok a, m1, e1, key _ rfl q2, by rw [q1]⟩
    | fail f => cases f <;> cases hden
    | read x k => cases hd
    | write x v t => cases hd
  | error e =>
    have e2 : p (onlyAllocated S m0) = .throw e m2 := e2
    rw [e2] at hden
    cases t' with
    | ret b => cases hden
    | fail f =>
      cases f with
      | throw e' =>
        have hden : Res.throw e' (onlyAllocated S m) = Res.throw e m2 := hden
        injection hden with q1 q2
        exact ⟨.error e, m1, e1, key _ rfl q2, by rw [q1]⟩
      | ub => cases hden
      | terminate => cases hden
      | diverge => cases hden
    | read x k => cases hd
    | write x v t => cases hd

/-- **C70** (concurrent calls). Threads `i` (any number, also infinitely many) make the calls `p i`, each using only the cells `S i` and writing only the
cells `W i`. No thread uses what another one writes - but they may read the same cells. Then, for every schedule `s` (any interleaving of the accesses of
the threads, of any length):
* there are no conflicting accesses, hence no data race;
* no cell is allocated or freed, and at every moment only cells of the `W i` have changed;
* each thread that has ended has ended as if it had run alone (in particular none has ended by undefined behaviour, termination or divergence);
* a thread has ended when it was scheduled as often as it makes accesses when running alone. -/
theorem C70_concurrent {p : (i : ι) → Prog V (α i)} {t : (i : ι) → Tree V (α i)} {S W : ι → Int → Prop} {m : Mem V}
    (h : ∀ i, Runnable (S i) (W i) m (p i) (t i)) (hd : ∀ i j, i ≠ j → ∀ x, W i x → ¬ S j x) (s : List ι) :
    (∀ a ∈ Pool.trace ⟨t, m⟩ s, ∀ b ∈ Pool.trace ⟨t, m⟩ s, ¬ Conflict a b) ∧
    (∀ a ∈ Pool.trace ⟨t, m⟩ s, S a.1 a.2.1 ∧ (a.2.2 = true → W a.1 a.2.1)) ∧
    (∀ x, ((Pool.run ⟨t, m⟩ s).mem x).isSome = (m x).isSome) ∧
    (∀ x, (∀ i, ¬ W i x) → (Pool.run ⟨t, m⟩ s).mem x = m x) ∧
    (∀ i, ((Pool.run ⟨t, m⟩ s).thread i).done = true → EndedAsAlone (W i) m (Pool.run ⟨t, m⟩ s).mem (p i) ((Pool.run ⟨t, m⟩ s).thread i)) ∧
    (∀ i, (t i).steps (onlyAllocated (S i) m) ≤ s.count i → ((Pool.run ⟨t, m⟩ s).thread i).done = true) := by
  have hR : ∀ i, (fun i => p i (onlyAllocated (S i) m)) i ≠ .ub := fun i => (h i).ne_ub
  have h0 := PoolSim.init h
  have h1 := h0.run hR hd s
  have ht := h0.trace hR hd s
  refine ⟨fun a ha b hb ⟨c1, c2, c3⟩ => ?_, ht, h1.dom, h1.frame, fun i hi => (h1.thr i).ended (h i) hi, fun i hi => ?_⟩
  · rcases c3 with c3 | c3
    · exact hd a.1 b.1 c1 _ ((ht a ha).2 c3) (c2 ▸ (ht b hb).1)
    · exact hd b.1 a.1 (Ne.symm c1) _ ((ht b hb).2 c3) (c2 ▸ (ht a ha).1)
  · refine Tree.steps_zero (m := onlyAllocated (S i) (Pool.run ⟨t, m⟩ s).mem) ?_
    rw [(h1.thr i).cnt]
    omega

/-- **C70** (determinism). After any two schedules that let every thread end, the threads have the same results and the memory is the same. -/
theorem C70_schedule_independent {p : (i : ι) → Prog V (α i)} {t : (i : ι) → Tree V (α i)} {S W : ι → Int → Prop} {m : Mem V}
    (h : ∀ i, Runnable (S i) (W i) m (p i) (t i)) (hd : ∀ i j, i ≠ j → ∀ x, W i x → ¬ S j x) {s s' : List ι}
    (hs : ∀ i, ((Pool.run ⟨t, m⟩ s).thread i).done = true) (hs' : ∀ i, ((Pool.run ⟨t, m⟩ s').thread i).done = true) :
    (Pool.run ⟨t, m⟩ s).thread = (Pool.run ⟨t, m⟩ s').thread ∧ (Pool.run ⟨t, m⟩ s).mem = (Pool.run ⟨t, m⟩ s').mem := by
  obtain ⟨_, _, _, f1, e1, _⟩ := C70_concurrent h hd s
  obtain ⟨_, _, _, f2, e2, _⟩ := C70_concurrent h hd s'
  have key : ∀ i, (Pool.run ⟨t, m⟩ s).thread i = (Pool.run ⟨t, m⟩ s').thread i ∧
      ∀ x, W i x → (Pool.run ⟨t, m⟩ s).mem x = (Pool.run ⟨t, m⟩ s').mem x := by
    intro i
    obtain ⟨r, m1, a1, a2, a3⟩ := e1 i (hs i)
    obtain ⟨r', m1', b1, b2, b3⟩ := e2 i (hs' i)
    have hr := Ends.unique a1 b1
    obtain ⟨rfl, rfl⟩ := hr
    exact ⟨by rw [a3, b3], fun x hx => by rw [a2 x hx, b2 x hx]⟩
  refine ⟨funext (fun i => (key i).1), funext (fun x => ?_)⟩
  by_cases hx : ∃ i, W i x
  · obtain ⟨i, hi⟩ := hx
    exact (key i).2 x hi
  · rw [f1 x (fun i hi => hx ⟨i, hi⟩), f2 x (fun i hi => hx ⟨i, hi⟩)]


/-- **C70** (concurrent calls, in one statement). The calls can be executed access by access such that everything claimed by `C70_concurrent` and
`C70_schedule_independent` holds for all schedules. -/
theorem C70_threads {p : (i : ι) → Prog V (α i)} {S W : ι → Int → Prop} {m : Mem V}
    (h : ∀ i, ThreadSafe (S i) (W i) (p i) m) (hd : ∀ i j, i ≠ j → ∀ x, W i x → ¬ S j x) :
    ∃ (t : (i : ι) → Tree V (α i)) (n : ι → Nat) (final : Mem V), (∀ i, Exec (p i) (t i)) ∧
      (∀ i, ∃ r m1, Ends (p i) m r m1 ∧ ∀ x, W i x → final x = m1 x) ∧ (∀ x, (∀ i, ¬ W i x) → final x = m x) ∧
      ∀ s : List ι,
        (∀ a ∈ Pool.trace ⟨t, m⟩ s, ∀ b ∈ Pool.trace ⟨t, m⟩ s, ¬ Conflict a b) ∧
        (∀ x, ((Pool.run ⟨t, m⟩ s).mem x).isSome = (m x).isSome) ∧
        (∀ x, (∀ i, ¬ W i x) → (Pool.run ⟨t, m⟩ s).mem x = m x) ∧
        (∀ i, ((Pool.run ⟨t, m⟩ s).thread i).done = true → EndedAsAlone (W i) m (Pool.run ⟨t, m⟩ s).mem (p i) ((Pool.run ⟨t, m⟩ s).thread i)) ∧
        (∀ i, n i ≤ s.count i → ((Pool.run ⟨t, m⟩ s).thread i).done = true) ∧
        ((∀ i, ((Pool.run ⟨t, m⟩ s).thread i).done = true) → (Pool.run ⟨t, m⟩ s).mem = final) := by
  have ht : ∀ i, ∃ t, Runnable (S i) (W i) m (p i) t := fun i => by
    obtain ⟨t, h1, h2⟩ := (h i).acc.tree
    exact ⟨t, (h i).uses, h1, h2⟩
  choose t ht using ht
  choose r m1 m2 e1 e2 e3 using fun i => (ht i).res
  classical
  let final : Mem V := fun x => if hx : ∃ i, W i x then m1 hx.choose x else m x
  have huniq : ∀ i j x, W i x → W j x → i = j := fun i j x hi hj => by
    by_cases e : i = j
    · exact e
    · exact absurd ((h j).uses.sub x hj) (hd i j e x hi)
  have hfin : ∀ i x, W i x → final x = m1 i x := fun i x hi => by
    have hx : ∃ i, W i x := ⟨i, hi⟩
    show (if hx : ∃ i, W i x then m1 hx.choose x else m x) = _
    rw [dif_pos hx, huniq _ i x hx.choose_spec hi]
  have hfin' : ∀ x, (∀ i, ¬ W i x) → final x = m x := fun x hx => by
    show (if hx : ∃ i, W i x then m1 hx.choose x else m x) = _
    rw [dif_neg (fun ⟨i, hi⟩ => hx i hi)]
  refine ⟨t, fun i => (t i).steps (onlyAllocated (S i) m), final, fun i => (ht i).exec, fun i => ⟨r i, m1 i, e1 i, hfin i⟩, hfin', fun s => ?_⟩
  obtain ⟨c1, _, c3, c4, c5, c6⟩ := C70_concurrent ht hd s
  refine ⟨c1, c3, c4, c5, c6, fun hall => funext (fun x => ?_)⟩
  by_cases hx : ∃ i, W i x
  · obtain ⟨i, hi⟩ := hx
    obtain ⟨r', m1', a1, a2, _⟩ := c5 i (hall i)
    rw [a2 x hi, hfin i x hi, (Ends.unique (e1 i) a1).2]
  · rw [c4 x (fun i hi => hx ⟨i, hi⟩), hfin' x (fun i hi => hx ⟨i, hi⟩)]

end main

/-! ### Sequences of calls in a thread -/

theorem UsesOnly.seq {α β : Type} {S W S' W' : Int → Prop} {p : Prog V α} {q : α → Prog V β} {m : Mem V} (h : UsesOnly S W p m)
    (hsub : ∀ x, W' x → S' x) (hq : ∀ a m1, p m = .ok a m1 → UsesOnly S' W' (q a) m1) :
    UsesOnly (fun x => S x ∨ S' x) (fun x => W x ∨ W' x) (p >>= q) m := by
  obtain ⟨r, out, h1, h2⟩ := h.run
  have hs : ∀ x, W x ∨ W' x → S x ∨ S' x := fun x hx => hx.imp (h.sub x) (hsub x)
  have hag : ∀ m2 : Mem V, (∀ x, S x ∨ S' x → m2 x = m x) → ∀ x, S x ∨ S' x → overlay W out m2 x = overlay W out m x := by
    intro m2 hm x hx
    by_cases hw : W x
    · rw [overlay_of hw, overlay_of hw]
    · rw [overlay_not hw, overlay_not hw, hm x hx]
  have hdom : ∀ x, (overlay W out m x).isSome = (m x).isSome := fun x => by
    by_cases hw : W x
    · rw [overlay_of hw]; exact h1 x hw
    · rw [overlay_not hw]
  cases r with
  | error e =>
    refine ⟨hs, .error e, overlay W out m, fun x _ => hdom x, fun m2 hm => ?_⟩
    have e1 : p m2 = .throw e (overlay W out m2) := h2 m2 (fun x hx => hm x (Or.inl hx))
    show Prog.bind' p q m2 = .throw e _
    unfold Prog.bind'
    rw [e1]
    dsimp only
    congr 1
    funext x
    by_cases hx : W x ∨ W' x
    · rw [overlay_of (W := fun x => W x ∨ W' x) hx]; exact hag m2 hm x (hs x hx)
    · rw [overlay_not (W := fun x => W x ∨ W' x) hx, overlay_not (fun hw => hx (Or.inl hw))]
  | ok a =>
    have e0 : p m = .ok a (overlay W out m) := h2 m (fun _ _ => rfl)
    obtain ⟨r', out', k1, k2⟩ := (hq a _ e0).run
    refine ⟨hs, r', overlay W' out' (overlay W out m), fun x _ => ?_, fun m2 hm => ?_⟩
    · by_cases hw : W' x
      · rw [overlay_of hw, k1 x hw]; exact hdom x
      · rw [overlay_not hw]; exact hdom x
    · have e1 : p m2 = .ok a (overlay W out m2) := h2 m2 (fun x hx => hm x (Or.inl hx))
      have k3 := k2 (overlay W out m2) (fun x hx => hag m2 hm x (Or.inr hx))
      have e4 : overlay (fun x => W x ∨ W' x) (overlay W' out' (overlay W out m)) m2 = overlay W' out' (overlay W out m2) := by
        funext x
        by_cases hx : W x ∨ W' x
        · rw [overlay_of hx]
          by_cases hw : W' x
          · rw [overlay_of hw, overlay_of hw]
          · rw [overlay_not hw, overlay_not hw]; exact (hag m2 hm x (hs x hx)).symm
        · rw [overlay_not hx, overlay_not (fun hw => hx (Or.inr hw)), overlay_not (fun hw => hx (Or.inl hw))]
      rw [e4]
      have e5 : (p >>= q) m2 = q a (overlay W out m2) := by
        show Prog.bind' p q m2 = _
        unfold Prog.bind'
        rw [e1]
      cases r' with
      | ok b => show (p >>= q) m2 = _; rw [e5]; exact k3
      | error e => show (p >>= q) m2 = _; rw [e5]; exact k3

/-- **C70** (several calls in one thread). A thread may make one call after the other; the cells used are those used by the calls. -/
theorem C70_sequence [Arith V] {α β : Type} {S W S' W' : Int → Prop} {p : Prog V α} {q : α → Prog V β} {m : Mem V} (h : ThreadSafe S W p m)
    (hsub : ∀ x, W' x → S' x) (hq : ∀ a, Acc W' (fun _ => True) (q a)) (hu : ∀ a m1, p m = .ok a m1 → UsesOnly S' W' (q a) m1) :
    ThreadSafe (fun x => S x ∨ S' x) (fun x => W x ∨ W' x) (p >>= q) m :=
  ⟨h.uses.seq hsub hu, acc_bind (h.acc.mono (fun _ hx => Or.inl hx) (fun _ h => h)) (fun a => (hq a).mono (fun _ hx => Or.inr hx) (fun _ h => h))⟩

/-! ### The library's calls -/

section calls
variable [Arith V] {SS : Nat} {m : Mem V}

theorem isElem_of_mptr {D : Container} {a b : Nat} (ha : a < D.rows) (hb : b < D.cols) : IsElem SS D ((D.mptr SS).addr SS a b) :=
  ⟨a, b, ha, hb, (D.addr_eq_mptr a b).symm⟩

theorem mptr_so (c : Container) : (c.mptr SS).so = c.so := by rw [Container.mptr_eq]; rfl

/-- **C70** (gemm): the elements of D are written, nothing else; also when the sizes are inconsistent. -/
theorem C70_gemm {A B C D : Container} (alpha beta : V) (h : GemmArgs SS m A B C D) :
    ThreadSafe (fun x => A.Storage SS x ∨ B.Storage SS x ∨ C.Storage SS x ∨ D.Storage SS x) (IsElem SS D) (gemmCall SS alpha A B beta C D) m :=
  ⟨C67_gemm_uses_only alpha beta h, acc_gemmMat h.ss (D.mptr_wf h.ss h.lD.align) ((mptr_so D).trans h.sD) _ _ (fun a b ha hb => isElem_of_mptr ha hb)⟩

/-- **C70** (ger). -/
theorem C70_ger {x y : VObj} {A B : Container} (alpha : V) (h : GerArgs SS m x y A B) :
    ThreadSafe (fun z => x.Storage SS z ∨ y.Storage SS z ∨ A.Storage SS z ∨ B.Storage SS z) (IsElem SS B) (gerCall SS 1 alpha x y A B) m :=
  ⟨C67_ger_uses_only alpha h, acc_gerMat h.ss (B.mptr_wf h.ss h.lB.align) ((mptr_so B).trans h.sB) _ _ _ (fun a b ha hb => isElem_of_mptr ha hb)⟩

/-- **C70** (syrk): only the lower triangle of D is written. -/
theorem C70_syrk {A C D : Container} (alpha beta : V) (h : SyrkArgs SS m A C D) :
    ThreadSafe (fun x => A.Storage SS x ∨ C.Storage SS x ∨ D.Storage SS x) (IsLowerElem SS D) (syrkCall SS 1 alpha A beta C D) m :=
  ⟨C67_syrk_uses_only alpha beta h, acc_syrkMat h.ss (D.mptr_wf h.ss h.lD.align) ((mptr_so D).trans h.sD) _ _
    (fun a b ha hb hab => ⟨a, b, ha, hb, hab, (D.addr_eq_mptr a b).symm⟩)⟩

/-- **C70** (trmm, left). -/
theorem C70_trmm_left {A B C : Container} (alpha : V) (h : TrmmLArgs SS m A B C) (hs : TrmmLSizes A B C) :
    ThreadSafe (fun x => A.Storage SS x ∨ B.Storage SS x ∨ C.Storage SS x) (IsElem SS C) (trmmLeftCall SS 1 alpha A .upper false B C) m :=
  ⟨C67_trmm_left_uses_only alpha h hs, acc_trmmLeftMat h.ss (C.mptr_wf h.ss h.lC.align) ((mptr_so C).trans h.sC) _ _ _
    (fun a b ha hb => isElem_of_mptr ha hb)⟩

/-- **C70** (trmm, right). -/
theorem C70_trmm_right {A B C : Container} (alpha : V) (h : TrmmRArgs SS m B A C) (hs : TrmmRSizes B A C) :
    ThreadSafe (fun x => A.Storage SS x ∨ B.Storage SS x ∨ C.Storage SS x) (IsElem SS C) (trmmRightCall SS 1 alpha B A .lower false C) m :=
  ⟨C67_trmm_right_uses_only alpha h hs, acc_trmmRightMat h.ss (C.mptr_wf h.ss h.lC.align) ((mptr_so C).trans h.sC) _ _ _
    (fun a b ha hb => isElem_of_mptr ha hb)⟩

/-- **C70** (trsm). -/
theorem C70_trsm {A B X : Container} (uplo : UpLo) (unit : Bool) (h : TrsmArgs SS m A B X) :
    ThreadSafe (fun x => A.Storage SS x ∨ B.Storage SS x ∨ X.Storage SS x) (IsElem SS X) (trsmCall SS uplo unit A B X) m :=
  ⟨C67_trsm_uses_only uplo unit h, acc_trsmMat uplo unit (fun a b ha hb => isElem_of_mptr ha hb)⟩

/-- **C70** (potrf, dense): the storage of L is written (including padding). -/
theorem C70_potrf_dense {TR : Nat} {A L : Container} (h : PotrfArgs SS m A L) (hs : PotrfSizes A L) (hf : PotrfFits SS TR 4 A L) :
    ThreadSafe (fun x => A.Storage SS x ∨ L.Storage SS x) (L.Storage SS) (potrfDenseCall SS TR A L) m :=
  ⟨C67_potrf_dense_uses_only h hs hf, acc_potrfDenseMat h.ss hf.tr (L.mptr_wf h.ss h.lL.align) ((mptr_so L).trans h.sL) hf.al
    (self_le_roundUp h.ss) hf.rows (fun a b ha hb => by
      show L.Storage SS ((L.mptr SS).addr SS a b)
      rw [← Container.addr_eq_mptr]
      exact L.addr_storage_pad h.ss h.sL (by rw [hs.2.1]; exact ha) hb)⟩

/-- **C70** (potrf, panel). -/
theorem C70_potrf_panel {KN : Nat} {A L : Container} (h : PotrfArgs SS m A L) (hs : PotrfSizes A L) (hf : PotrfFits SS 1 KN A L) :
    ThreadSafe (fun x => A.Storage SS x ∨ L.Storage SS x) (L.Storage SS) (potrfPanelCall SS KN A L) m :=
  ⟨C67_potrf_panel_uses_only h hs hf, acc_potrfPanelMat h.ss hf.kn (L.mptr_wf h.ss h.lL.align) ((mptr_so L).trans h.sL) hf.al
    (self_le_roundUp h.ss) hf.rows (fun a b ha hb => by
      show L.Storage SS ((L.mptr SS).addr SS a b)
      rw [← Container.addr_eq_mptr]
      exact L.addr_storage_pad h.ss h.sL (by rw [hs.2.1]; exact ha) hb)⟩

/-- **C70** (getf2, column-major). The array of pivot indices is not shared. -/
theorem C70_getf2 (hSS : 0 < SS) {A : Container} (hd : A.isPanel = false) (hs : A.so = .columnMajor) (hl : Live SS m A) (ip : Nat → Nat) :
    ThreadSafe (A.Storage SS) (IsElem SS A) (getf2Ptr SS 1 A.rows A.cols (A.mptr SS) ip) m :=
  ⟨C67_getf2_uses_only hSS hd hs hl ip, (acc_getf2Ptr hSS (by rw [Container.mptr_eq]; exact hd) ((mptr_so A).trans hs)
    (fun a b ha hb => isElem_of_mptr ha hb) ip).unit⟩

/-- **C70** (getf2, row-major). -/
theorem C70_getf2_row_major (hSS : 0 < SS) (dv : V → V → V) {A : Container} (hd : A.isPanel = false) (hl : Live SS m A) (ip : Nat → Nat) :
    ThreadSafe (A.Storage SS) (IsElem SS A) (getf2Row SS dv (A.mat SS) ip) m :=
  ⟨C67_getf2_row_major_uses_only hSS dv hd hl ip, (acc_getf2Row hSS dv (by show (A.mptr SS).panel = false; rw [Container.mptr_eq]; exact hd)
    (fun a b ha hb => isElem_of_mptr ha hb) ip).unit⟩

/-- **C70** (getrf, column-major). -/
theorem C70_getrf (hSS : 0 < SS) {A : Container} (hd : A.isPanel = false) (hs : A.so = .columnMajor) (hl : Live SS m A) (ip : Nat → Nat) :
    ThreadSafe (A.Storage SS) (IsElem SS A) (getrfPtr SS 1 A.rows A.cols (A.mptr SS) ip) m :=
  ⟨C67_getrf_uses_only hSS hd hs hl ip, (acc_getrfPtr hSS (by rw [Container.mptr_eq]; exact hd) ((mptr_so A).trans hs)
    (A.mptr_wf hSS hl.align) (fun a b ha hb => isElem_of_mptr ha hb) ip).unit⟩

/-- **C70** (laswp). -/
theorem C70_laswp {k0 k1 : Nat} (hSS : 0 < SS) {A : Container} (hd : A.isPanel = false) (hl : Live SS m A)
    (hk : k0 ≤ k1) (hk1 : k1 ≤ A.rows) {ipiv : Nat → Nat} (hp : ∀ q, k0 ≤ q → q < k1 → ipiv q < A.rows) :
    ThreadSafe (A.Storage SS) (IsElem SS A) (laswp SS A.cols (A.mptr SS) k0 k1 ipiv) m :=
  ⟨C67_laswp_uses_only hSS hd hl hk hk1 hp, acc_laswp (M := A.rows) hSS (by rw [Container.mptr_eq]; exact hd)
    (fun q h1 h2 => ⟨by omega, hp q h1 h2⟩) (fun a b ha hb => isElem_of_mptr ha hb)⟩

end calls

/-! ### A concrete instance: three threads that read the same A, B -/

/-- thread `k` computes `A * B + A` (k = 0), the Cholesky factor of A (k = 1), `B` with `A` as triangular coefficient matrix solved in place of a copy (k = 2) -/
def threadWit : Fin 3 → Prog Rat Unit
  | 0 => gemmCall 4 1 (frameWitC 0) (frameWitC 1) 1 (frameWitC 0) (frameWitC 2)
  | 1 => potrfDenseCall 4 1 (frameWitC 0) (frameWitC 3)
  | 2 => trsmCall 4 .lower true (frameWitC 0) (frameWitC 1) (frameWitC 4)

def threadWitS : Fin 3 → Int → Prop
  | 0 => fun x => (frameWitC 0).Storage 4 x ∨ (frameWitC 1).Storage 4 x ∨ (frameWitC 0).Storage 4 x ∨ (frameWitC 2).Storage 4 x
  | 1 => fun x => (frameWitC 0).Storage 4 x ∨ (frameWitC 3).Storage 4 x
  | 2 => fun x => (frameWitC 0).Storage 4 x ∨ (frameWitC 1).Storage 4 x ∨ (frameWitC 4).Storage 4 x

def threadWitW : Fin 3 → Int → Prop
  | 0 => IsElem 4 (frameWitC 2)
  | 1 => (frameWitC 3).Storage 4
  | 2 => IsElem 4 (frameWitC 4)

theorem threadWit_safe : ∀ i, ThreadSafe (threadWitS i) (threadWitW i) (threadWit i) (potrfOnes 80) := by
  have hS := fun k => @frameWit_apart k
  intro i
  match i with
  | 0 => exact C70_gemm 1 1 ⟨by decide, rfl, rfl, rfl, frameWit_live (by decide), frameWit_live (by decide), frameWit_live (by decide),
          frameWit_live (by decide), hS _ (by decide), hS _ (by decide), Or.inr (hS _ (by decide))⟩
  | 1 => exact C70_potrf_dense ⟨by decide, rfl, rfl, frameWit_live (by decide), frameWit_live (by decide), Or.inr (hS _ (by decide))⟩
          (by decide) (potrfFits_square (by decide) (Or.inl rfl))
  | 2 => exact C70_trsm .lower true ⟨by decide, frameWit_live (by decide), frameWit_live (by decide), frameWit_live (by decide), hS _ (by decide),
          Or.inr (hS _ (by decide))⟩

theorem threadWit_apart : ∀ i j, i ≠ j → ∀ x, threadWitW i x → ¬ threadWitS j x := by
  have out : ∀ i x, threadWitW i x → (frameWitC (i.val + 2)).Storage 4 x := by
    intro i x h
    match i with
    | 0 => exact IsElem.storage (SS := 4) (by decide) h
    | 1 => exact h
    | 2 => exact IsElem.storage (SS := 4) (by decide) h
  have use : ∀ j x, threadWitS j x → (frameWitC 0).Storage 4 x ∨ (frameWitC 1).Storage 4 x ∨ (frameWitC (j.val + 2)).Storage 4 x := by
    intro j x h
    match j with
    | 0 =>
      rcases h with h | h | h | h
      · exact Or.inl h
      · exact Or.inr (Or.inl h)
      · exact Or.inl h
      · exact Or.inr (Or.inr h)
    | 1 =>
      rcases h with h | h
      · exact Or.inl h
      · exact Or.inr (Or.inr h)
    | 2 =>
      rcases h with h | h | h
      · exact Or.inl h
      · exact Or.inr (Or.inl h)
      · exact Or.inr (Or.inr h)
  intro i j hij x hw hs
  have hij' : i.val ≠ j.val := fun e => hij (Fin.ext e)
  rcases use j x hs with h | h | h
  · exact frameWit_apart (by omega) x (out i x hw) h
  · exact frameWit_apart (by omega) x (out i x hw) h
  · exact frameWit_apart (by omega) x (out i x hw) h

/-- the hypotheses of `C70_threads` are met by three threads sharing two inputs -/
example : ∃ (t : Fin 3 → Tree Rat Unit) (n : Fin 3 → Nat) (final : Mem Rat), (∀ i, Exec (threadWit i) (t i)) ∧
    ∀ s : List (Fin 3), (∀ i, n i ≤ s.count i) → (Pool.run ⟨t, potrfOnes 80⟩ s).mem = final := by
  obtain ⟨t, n, final, h1, _, _, h4⟩ := C70_threads threadWit_safe threadWit_apart
  exact ⟨t, n, final, h1, fun s hs => (h4 s).2.2.2.2.2 (fun i => (h4 s).2.2.2.2.1 i (hs i))⟩

/-- the hypotheses matter: two threads that write the same cell have a data race, and the result depends on the schedule -/
example : ∃ (t : Bool → Tree Rat Unit) (m : Mem Rat) (s s' : List Bool), (∀ b, Exec (Prog.write 0 (if b then 1 else 2)) (t b)) ∧
    (∀ i, ((Pool.run ⟨t, m⟩ s).thread i).done = true) ∧ (∀ i, ((Pool.run ⟨t, m⟩ s').thread i).done = true) ∧
    (∃ a ∈ Pool.trace ⟨t, m⟩ s, ∃ b ∈ Pool.trace ⟨t, m⟩ s, Conflict a b) ∧ (Pool.run ⟨t, m⟩ s).mem 0 ≠ (Pool.run ⟨t, m⟩ s').mem 0 := by
  refine ⟨fun b => .write 0 (if b then 1 else 2) (.ret ()), potrfOnes 4, [true, false], [false, true], fun b => .write _ _, ?_, ?_, ?_, ?_⟩
  · intro i; cases i <;> rfl
  · intro i; cases i <;> rfl
  · refine ⟨(true, 0, true), ?_, (false, 0, true), ?_, by decide, rfl, Or.inl rfl⟩
    · exact List.mem_cons_self
    · exact List.mem_cons_of_mem _ List.mem_cons_self
  · decide +kernel

end Blast
