import Verif.Arith
/-
Memory, outcomes and loops of the model.

Memory is a flat, element-granular address space (`none` = not allocated).  Undefined behaviour
(access to an unallocated cell, misaligned aligned SIMD access) is the distinct outcome `ub`;
a C++ exception is `throw`, an exception leaving a `noexcept` function is `terminate`
(std::terminate), a `for` loop whose fuel runs out is `diverge`.
-/
namespace Blast

/-- Memory: element address ↦ value; `none` is unallocated. -/
abbrev Mem (V : Type) := Int → Option V

/-- C++ exception types thrown by the library, and `std::bad_alloc`, which `operator new[]` throws (only in `AllocFailure`). -/
inductive Exn where
  | invalidArgument
  | logicError
  | outOfRange
  | badAlloc
  deriving DecidableEq, Repr

/-- Outcome of running a piece of code. -/
inductive Res (V : Type) (α : Type) where
  | ok (a : α) (m : Mem V)
  | ub
  | throw (e : Exn) (m : Mem V)
  | terminate
  | diverge

/-- A program: state transformer with outcomes. -/
def Prog (V : Type) (α : Type) := Mem V → Res V α

namespace Prog
variable {V : Type} {α β σ : Type}

/-- return a value, memory unchanged -/
def pure' (a : α) : Prog V α := fun m => .ok a m

/-- run p, then f on its value; everything but a normal return ends the sequence -/
def bind' (p : Prog V α) (f : α → Prog V β) : Prog V β := fun m =>
  match p m with
  | .ok a m' => f a m'
  | .ub => .ub
  | .throw e m' => .throw e m'
  | .terminate => .terminate
  | .diverge => .diverge

/-- the Monad structure -/
instance : Monad (Prog V) where
  pure := pure'
  bind := bind'

/-- throw a C++ exception -/
def throw (e : Exn) : Prog V α := fun m => .throw e m

/-- undefined behaviour -/
def ub : Prog V α := fun _ => .ub

/-- body of a `noexcept` function: an escaping exception calls std::terminate -/
def noexcept (p : Prog V α) : Prog V α := fun m =>
  match p m with
  | .throw _ _ => .terminate
  | r => r

/-- read one element -/
def read (x : Int) : Prog V V := fun m =>
  match m x with
  | some v => .ok v m
  | none => .ub

/-- write one element -/
def write (x : Int) (v : V) : Prog V Unit := fun m =>
  match m x with
  | some _ => .ok () (fun y => if y = x then some v else m y)
  | none => .ub

/-- `for (k = 0; k < n; ++k) s = f(k, s)` -/
def foldN : (n : Nat) → (Nat → σ → Prog V σ) → σ → Prog V σ
  | 0, _, s => pure s
  | n + 1, f, s => foldN n f s >>= f n

/-- `for (k = 0; k < n; ++k) f(k)` -/
def forN : (n : Nat) → (Nat → Prog V Unit) → Prog V Unit
  | 0, _ => pure ()
  | n + 1, f => do forN n f; f n

/-- `for (k = lo; k < hi; ++k) f(k)` -/
def forFrom (lo hi : Nat) (f : Nat → Prog V Unit) : Prog V Unit :=
  forN (hi - lo) (fun t => f (lo + t))

/-- `for (i = n; i-- > 0; ) f(i)` -/
def forDown : (n : Nat) → (Nat → Prog V Unit) → Prog V Unit
  | 0, _ => pure ()
  | n + 1, f => do f n; forDown n f

/-- `for (; cond(i); i += step) body(i)`, returning the final `i`. -/
def loop : (fuel : Nat) → (cond : Nat → Bool) → (step : Nat) → (Nat → Prog V Unit) → Nat → Prog V Nat
  | 0, _, _, _, _ => fun _ => .diverge
  | fuel + 1, cond, step, body, i =>
    if cond i then do body i; loop fuel cond step body (i + step)
    else pure i

/-- `if (b) p` without else -/
def onlyIf (b : Bool) (p : Prog V Unit) : Prog V Unit := if b then p else pure ()

/-- run `f` on the elements of a list in order -/
def forList {τ : Type} : List τ → (τ → Prog V Unit) → Prog V Unit
  | [], _ => pure ()
  | x :: xs, f => do f x; forList xs f

/-! ### Reasoning -/

/-- `p` run in `m` terminates normally in a state satisfying `Q` (total correctness). -/
def Runs (p : Prog V α) (m : Mem V) (Q : α → Mem V → Prop) : Prop :=
  ∃ a m', p m = .ok a m' ∧ Q a m'

/-- `p` run in `m` terminates normally with result `a` without changing memory. -/
def Reads (p : Prog V α) (m : Mem V) (a : α) : Prop := p m = .ok a m

theorem bind_ok {p : Prog V α} {f : α → Prog V β} {m m' : Mem V} {a : α}
    (h : p m = .ok a m') : (p >>= f) m = f a m' := by
  show bind' p f m = _
  unfold bind'; rw [h]

theorem pure_bind' (a : α) (f : α → Prog V β) : (pure a >>= f) = f a := rfl

theorem bind_pure_unit (p : Prog V Unit) : (p >>= fun _ => pure ()) = p := by
  funext m
  show bind' p _ m = p m
  unfold bind'
  cases p m <;> rfl

theorem bind_assoc' {γ : Type} (p : Prog V α) (f : α → Prog V β) (g : β → Prog V γ) :
    ((p >>= f) >>= g) = (p >>= fun a => f a >>= g) := by
  funext m
  show bind' (bind' p f) g m = bind' p (fun a => bind' (f a) g) m
  unfold bind'
  cases p m <;> rfl

theorem runs_pure {a : α} {m : Mem V} {Q : α → Mem V → Prop} (h : Q a m) : Runs (pure a) m Q :=
  ⟨a, m, rfl, h⟩

theorem Runs.bind {p : Prog V α} {f : α → Prog V β} {m : Mem V} {Q : α → Mem V → Prop}
    {R : β → Mem V → Prop} (h : Runs p m Q) (h2 : ∀ a m', Q a m' → Runs (f a) m' R) :
    Runs (p >>= f) m R := by
  obtain ⟨a, m', h, hq⟩ := h
  obtain ⟨b, m'', h', hr⟩ := h2 a m' hq
  exact ⟨b, m'', by rw [bind_ok h]; exact h', hr⟩

theorem Runs.mono {p : Prog V α} {m : Mem V} {Q R : α → Mem V → Prop}
    (h : Runs p m Q) (h2 : ∀ a m', Q a m' → R a m') : Runs p m R := by
  obtain ⟨a, m', h, hq⟩ := h
  exact ⟨a, m', h, h2 _ _ hq⟩

theorem Reads.runs {p : Prog V α} {m : Mem V} {a : α} {Q : α → Mem V → Prop}
    (h : Reads p m a) (hq : Q a m) : Runs p m Q := ⟨a, m, h, hq⟩

theorem Reads.bind_runs {p : Prog V α} {f : α → Prog V β} {m : Mem V} {a : α}
    {R : β → Mem V → Prop} (h : Reads p m a) (h2 : Runs (f a) m R) : Runs (p >>= f) m R := by
  obtain ⟨b, m'', h', hr⟩ := h2
  exact ⟨b, m'', by rw [bind_ok h]; exact h', hr⟩

theorem Reads.bind {p : Prog V α} {f : α → Prog V β} {m : Mem V} {a : α} {b : β}
    (h : Reads p m a) (h2 : Reads (f a) m b) : Reads (p >>= f) m b := by
  unfold Reads; rw [bind_ok h]; exact h2

theorem reads_pure {a : α} {m : Mem V} : Reads (pure a) m a := rfl

theorem reads_pure' {a b : α} {m : Mem V} (h : a = b) : Reads (pure a) m b := by subst h; rfl

theorem reads_read {x : Int} {m : Mem V} {v : V} (h : m x = some v) : Reads (read x) m v := by
  unfold Reads read; rw [h]

theorem runs_write {x : Int} {v : V} {m : Mem V} {Q : Unit → Mem V → Prop}
    (h : (m x).isSome) (hq : Q () (fun y => if y = x then some v else m y)) :
    Runs (write x v) m Q := by
  refine ⟨(), _, ?_, hq⟩
  unfold write
  cases hx : m x with
  | none => simp [hx] at h
  | some _ => rfl

theorem runs_foldN {n : Nat} {f : Nat → σ → Prog V σ} {s : σ} {m : Mem V}
    (I : Nat → σ → Mem V → Prop) (h0 : I 0 s m)
    (hs : ∀ k s m, k < n → I k s m → Runs (f k s) m (I (k + 1))) :
    Runs (foldN n f s) m (I n) := by
  induction n with
  | zero => exact runs_pure h0
  | succ n ih =>
    exact Runs.bind (ih (fun k s m hk => hs k s m (by omega)))
      (fun a m' ha => hs n a m' (by omega) ha)

theorem reads_foldN {n : Nat} {f : Nat → σ → Prog V σ} {s : σ} {m : Mem V}
    (S : Nat → σ) (h0 : S 0 = s)
    (hs : ∀ k, k < n → Reads (f k (S k)) m (S (k + 1))) :
    Reads (foldN n f s) m (S n) := by
  induction n with
  | zero => subst h0; exact reads_pure
  | succ n ih =>
    exact Reads.bind (ih (fun k hk => hs k (by omega))) (hs n (by omega))

theorem runs_forN {n : Nat} {f : Nat → Prog V Unit} {m : Mem V}
    (I : Nat → Mem V → Prop) (h0 : I 0 m)
    (hs : ∀ k m, k < n → I k m → Runs (f k) m (fun _ => I (k + 1))) :
    Runs (forN n f) m (fun _ => I n) := by
  induction n with
  | zero => exact runs_pure h0
  | succ n ih =>
    exact Runs.bind (ih (fun k m hk => hs k m (by omega)))
      (fun _ m' ha => hs n m' (by omega) ha)

theorem runs_forFrom {lo hi : Nat} {f : Nat → Prog V Unit} {m : Mem V} (hle : lo ≤ hi)
    (I : Nat → Mem V → Prop) (h0 : I lo m)
    (hs : ∀ k m, lo ≤ k → k < hi → I k m → Runs (f k) m (fun _ => I (k + 1))) :
    Runs (forFrom lo hi f) m (fun _ => I hi) := by
  have := runs_forN (n := hi - lo) (f := fun t => f (lo + t)) (m := m)
    (fun t => I (lo + t)) (by simpa using h0)
    (fun k m hk hi' => hs (lo + k) m (by omega) (by omega) hi')
  rw [show lo + (hi - lo) = hi by omega] at this
  exact this

theorem runs_forDown {n : Nat} {f : Nat → Prog V Unit} {m : Mem V}
    (I : Nat → Mem V → Prop) (h0 : I n m)
    (hs : ∀ k m, k < n → I (k + 1) m → Runs (f k) m (fun _ => I k)) :
    Runs (forDown n f) m (fun _ => I 0) := by
  induction n generalizing m with
  | zero => exact runs_pure h0
  | succ n ih =>
    exact Runs.bind (hs n m (by omega) h0)
      (fun _ m' ha => ih ha (fun k m hk => hs k m (by omega)))

/-- Rule for counted `for` loops: the loop index stays of the form `start + t*step`, an invariant
holds, and the bound guarantees termination. -/
theorem runs_loop {fuel : Nat} {cond : Nat → Bool} {step : Nat} {body : Nat → Prog V Unit} {i : Nat}
    {m : Mem V} (I : Nat → Mem V → Prop) (bound : Nat) (hstep : 0 < step)
    (hb : ∀ i, cond i = true → i < bound) (hf : bound < fuel + i) (hf0 : 0 < fuel)
    (h0 : I i m)
    (hs : ∀ i m, cond i = true → I i m → Runs (body i) m (fun _ => I (i + step))) :
    Runs (loop fuel cond step body i) m (fun i' m' => cond i' = false ∧ I i' m') := by
  induction fuel generalizing i m with
  | zero => omega
  | succ fuel ih =>
    unfold loop
    by_cases hc : cond i = true
    · rw [if_pos hc]
      have hi := hb i hc
      exact Runs.bind (hs i m hc h0) (fun _ m' ha => ih (by omega) (by omega) ha)
    · rw [if_neg hc]
      exact runs_pure ⟨by simpa using hc, h0⟩

theorem runs_forList {τ : Type} {l : List τ} {f : τ → Prog V Unit} {m : Mem V}
    (I : List τ → Mem V → Prop) (h0 : I l m)
    (hs : ∀ x xs m, x ∈ l → I (x :: xs) m → Runs (f x) m (fun _ => I xs)) :
    Runs (forList l f) m (fun _ => I []) := by
  induction l generalizing m with
  | nil => exact runs_pure h0
  | cons x xs ih =>
    exact Runs.bind (hs x xs m (by simp) h0)
      (fun _ m' ha => ih ha (fun y ys m hy => hs y ys m (by simp [hy])))

theorem forList_append {τ : Type} (l1 l2 : List τ) (f : τ → Prog V Unit) :
    forList (l1 ++ l2) f = (do forList l1 f; forList l2 f) := by
  induction l1 with
  | nil => rfl
  | cons x xs ih =>
    show (f x >>= fun _ => forList (xs ++ l2) f) = _
    rw [ih]
    show _ = ((f x >>= fun _ => forList xs f) >>= fun _ => forList l2 f)
    rw [bind_assoc']

end Prog

/-! ### Memory effects -/

variable {V : Type}

/-- `m'` is `m` with exactly the cells in `S` overwritten, cell `x` by `g x`. -/
def WritesSet (m m' : Mem V) (S : Int → Prop) (g : Int → V) : Prop :=
  ∀ x, (S x → m' x = some (g x)) ∧ (¬ S x → m' x = m x)

theorem WritesSet.refl (m : Mem V) (g : Int → V) : WritesSet m m (fun _ => False) g :=
  fun _ => ⟨fun h => h.elim, fun _ => rfl⟩

theorem WritesSet.trans {m m' m'' : Mem V} {S S' : Int → Prop} {g : Int → V}
    (h : WritesSet m m' S g) (h' : WritesSet m' m'' S' g) :
    WritesSet m m'' (fun x => S x ∨ S' x) g := by
  intro x
  constructor
  · intro hx
    by_cases h2 : S' x
    · exact (h' x).1 h2
    · rw [(h' x).2 h2]
      exact (h x).1 (hx.resolve_right h2)
  · intro hx
    rw [(h' x).2 (fun h2 => hx (Or.inr h2)), (h x).2 (fun h2 => hx (Or.inl h2))]

theorem WritesSet.congr {m m' : Mem V} {S S' : Int → Prop} {g : Int → V}
    (h : WritesSet m m' S g) (hS : ∀ x, S x ↔ S' x) : WritesSet m m' S' g := by
  intro x
  exact ⟨fun hx => (h x).1 ((hS x).2 hx), fun hx => (h x).2 (fun h2 => hx ((hS x).1 h2))⟩

theorem WritesSet.congr_val {m m' : Mem V} {S : Int → Prop} {g g' : Int → V}
    (h : WritesSet m m' S g) (hg : ∀ x, S x → g x = g' x) : WritesSet m m' S g' := by
  intro x
  exact ⟨fun hx => by rw [(h x).1 hx, hg x hx], (h x).2⟩

theorem WritesSet.isSome {m m' : Mem V} {S : Int → Prop} {g : Int → V}
    (h : WritesSet m m' S g) {x : Int} (hx : (m x).isSome) : (m' x).isSome := by
  by_cases hs : S x
  · rw [(h x).1 hs]; rfl
  · rw [(h x).2 hs]; exact hx

/-! ### Programs that only read memory, and loops of writes -/

namespace Prog
variable {α β σ : Type}

/-- `p` run in `m` terminates normally, leaves memory unchanged and its result satisfies `Q`. -/
def ReadsQ (p : Prog V α) (m : Mem V) (Q : α → Prop) : Prop := ∃ a, p m = .ok a m ∧ Q a

theorem Reads.q {p : Prog V α} {m : Mem V} {a : α} {Q : α → Prop} (h : Reads p m a) (hq : Q a) :
    ReadsQ p m Q := ⟨a, h, hq⟩

theorem readsQ_pure {a : α} {m : Mem V} {Q : α → Prop} (h : Q a) : ReadsQ (pure a) m Q :=
  ⟨a, rfl, h⟩

theorem ReadsQ.bind {p : Prog V α} {f : α → Prog V β} {m : Mem V} {Q : α → Prop} {R : β → Prop}
    (h : ReadsQ p m Q) (h2 : ∀ a, Q a → ReadsQ (f a) m R) : ReadsQ (p >>= f) m R := by
  obtain ⟨a, h, hq⟩ := h
  obtain ⟨b, h', hr⟩ := h2 a hq
  exact ⟨b, by rw [bind_ok h]; exact h', hr⟩

theorem Reads.bindQ {p : Prog V α} {f : α → Prog V β} {m : Mem V} {a : α} {R : β → Prop}
    (h : Reads p m a) (h2 : ReadsQ (f a) m R) : ReadsQ (p >>= f) m R := by
  obtain ⟨b, h', hr⟩ := h2
  exact ⟨b, by rw [bind_ok h]; exact h', hr⟩

theorem ReadsQ.bind_runs {p : Prog V α} {f : α → Prog V β} {m : Mem V} {Q : α → Prop}
    {R : β → Mem V → Prop}
    (h : ReadsQ p m Q) (h2 : ∀ a, Q a → Runs (f a) m R) : Runs (p >>= f) m R := by
  obtain ⟨a, h, hq⟩ := h
  obtain ⟨b, m', h', hr⟩ := h2 a hq
  exact ⟨b, m', by rw [bind_ok h]; exact h', hr⟩

theorem ReadsQ.mono {p : Prog V α} {m : Mem V} {Q R : α → Prop}
    (h : ReadsQ p m Q) (h2 : ∀ a, Q a → R a) : ReadsQ p m R := by
  obtain ⟨a, h, hq⟩ := h
  exact ⟨a, h, h2 _ hq⟩

theorem ReadsQ.noexcept {p : Prog V α} {m : Mem V} {Q : α → Prop}
    (h : ReadsQ p m Q) : ReadsQ (Prog.noexcept p) m Q := by
  obtain ⟨a, h, hq⟩ := h
  exact ⟨a, by unfold Prog.noexcept; rw [h], hq⟩

theorem Runs.noexcept {p : Prog V α} {m : Mem V} {Q : α → Mem V → Prop}
    (h : Runs p m Q) : Runs (Prog.noexcept p) m Q := by
  obtain ⟨a, m', h, hq⟩ := h
  exact ⟨a, m', by unfold Prog.noexcept; rw [h], hq⟩

theorem readsQ_foldN {n : Nat} {f : Nat → σ → Prog V σ} {s : σ} {m : Mem V}
    (I : Nat → σ → Prop) (h0 : I 0 s)
    (hs : ∀ k s, k < n → I k s → ReadsQ (f k s) m (I (k + 1))) :
    ReadsQ (foldN n f s) m (I n) := by
  induction n with
  | zero => exact readsQ_pure h0
  | succ n ih =>
    exact ReadsQ.bind (ih (fun k s hk => hs k s (by omega)))
      (fun a ha => hs n a (by omega) ha)

/-- Loop of writes: step `k` writes the cells `S k` with the values `g`. -/
theorem writes_forN {n : Nat} {f : Nat → Prog V Unit} {m : Mem V} (S : Nat → Int → Prop)
    (g : Int → V)
    (h : ∀ k, k < n → ∀ m', WritesSet m m' (fun x => ∃ k', k' < k ∧ S k' x) g →
      Runs (f k) m' (fun _ m'' => WritesSet m' m'' (S k) g)) :
    Runs (forN n f) m (fun _ m' => WritesSet m m' (fun x => ∃ k, k < n ∧ S k x) g) := by
  refine runs_forN (fun k m' => WritesSet m m' (fun x => ∃ k', k' < k ∧ S k' x) g) ?_ ?_
  · exact (WritesSet.refl m g).congr (fun x => by simp)
  · intro k m' hk hw
    refine (h k hk m' hw).mono (fun _ m'' hw' => (hw.trans hw').congr (fun x => ?_))
    constructor
    · rintro (⟨k', h1, h2⟩ | h2)
      · exact ⟨k', by omega, h2⟩
      · exact ⟨k, by omega, h2⟩
    · rintro ⟨k', h1, h2⟩
      by_cases hkk : k' = k
      · subst hkk; exact Or.inr h2
      · exact Or.inl ⟨k', by omega, h2⟩

/-- Sequence of writes over a list of calls: call `t` writes the cells `S t` with the values `g`,
knowing which calls were made before it. -/
theorem writes_forList {τ : Type} {l : List τ} {f : τ → Prog V Unit} {m : Mem V}
    (S : τ → Int → Prop) (g : Int → V)
    (h : ∀ pre t post, l = pre ++ t :: post → ∀ m',
      WritesSet m m' (fun x => ∃ t', t' ∈ pre ∧ S t' x) g →
      Runs (f t) m' (fun _ m'' => WritesSet m' m'' (S t) g)) :
    Runs (forList l f) m (fun _ m' => WritesSet m m' (fun x => ∃ t, t ∈ l ∧ S t x) g) := by
  have key : ∀ (l' pre : List τ) (m0 : Mem V), l = pre ++ l' →
      WritesSet m m0 (fun x => ∃ t', t' ∈ pre ∧ S t' x) g →
      Runs (forList l' f) m0 (fun _ m' => WritesSet m m' (fun x => ∃ t, t ∈ l ∧ S t x) g) := by
    intro l'
    induction l' with
    | nil =>
      intro pre m0 hl hw
      rw [List.append_nil] at hl
      subst hl
      exact runs_pure hw
    | cons t ts ih =>
      intro pre m0 hl hw
      refine Runs.bind (h pre t ts hl m0 hw) (fun _ m1 hw1 => ?_)
      refine ih (pre ++ [t]) m1 (by simp [hl]) ((hw.trans hw1).congr (fun x => ?_))
      simp only [List.mem_append, List.mem_singleton]
      constructor
      · rintro (⟨t', ht, hx⟩ | hx)
        · exact ⟨t', Or.inl ht, hx⟩
        · exact ⟨t, Or.inr rfl, hx⟩
      · rintro ⟨t', (ht | rfl), hx⟩
        · exact Or.inl ⟨t', ht, hx⟩
        · exact Or.inr hx
  exact key l [] m rfl ((WritesSet.refl m g).congr (fun x => by simp))

theorem forList_map {τ υ : Type} (l : List υ) (h : υ → τ) (f : τ → Prog V Unit) :
    forList (l.map h) f = forList l (fun x => f (h x)) := by
  induction l with
  | nil => rfl
  | cons x xs ih => simp only [List.map_cons, forList]; rw [ih]

theorem forList_flatMap {τ υ : Type} (l : List υ) (h : υ → List τ) (f : τ → Prog V Unit) :
    forList (l.flatMap h) f = forList l (fun x => forList (h x) f) := by
  induction l with
  | nil => rfl
  | cons x xs ih =>
    rw [List.flatMap_cons, forList_append]
    simp only [forList]; rw [ih]

theorem forList_congr {τ : Type} (l : List τ) (f f' : τ → Prog V Unit)
    (h : ∀ x, x ∈ l → f x = f' x) : forList l f = forList l f' := by
  induction l with
  | nil => rfl
  | cons x xs ih =>
    simp only [forList]
    rw [h x (by simp), ih (fun y hy => h y (by simp [hy]))]

/-- indices visited by `loop` -/
def loopIdx : (fuel : Nat) → (cond : Nat → Bool) → (step : Nat) → Nat → List Nat
  | 0, _, _, _ => []
  | fuel + 1, cond, step, i => if cond i then i :: loopIdx fuel cond step (i + step) else []

/-- final index of `loop` -/
def loopEnd : (fuel : Nat) → (cond : Nat → Bool) → (step : Nat) → Nat → Nat
  | 0, _, _, i => i
  | fuel + 1, cond, step, i => if cond i then loopEnd fuel cond step (i + step) else i

/-- A loop with enough fuel runs its body on `loopIdx` in order. -/
theorem loop_eq {fuel : Nat} {cond : Nat → Bool} {step : Nat} {body : Nat → Prog V Unit} {i : Nat}
    (bound : Nat) (hstep : 0 < step) (hb : ∀ i, cond i = true → i < bound) (hf : bound < fuel + i)
    (hf0 : 0 < fuel) :
    loop fuel cond step body i =
      (do forList (loopIdx fuel cond step i) body; pure (loopEnd fuel cond step i)) := by
  induction fuel generalizing i with
  | zero => omega
  | succ fuel ih =>
    simp only [loop, loopIdx, loopEnd]
    by_cases hc : cond i = true
    · have hi := hb i hc
      simp only [if_pos hc, forList]
      rw [ih (by omega) (by omega), bind_assoc']
    · simp only [if_neg hc, forList]
      rfl

theorem loopEnd_cond {fuel : Nat} {cond : Nat → Bool} {step : Nat} {i : Nat}
    (bound : Nat) (hstep : 0 < step) (hb : ∀ i, cond i = true → i < bound) (hf : bound < fuel + i)
    (hf0 : 0 < fuel) : cond (loopEnd fuel cond step i) = false := by
  induction fuel generalizing i with
  | zero => omega
  | succ fuel ih =>
    simp only [loopEnd]
    by_cases hc : cond i = true
    · have hi := hb i hc
      rw [if_pos hc]; exact ih (by omega) (by omega)
    · rw [if_neg hc]; simpa using hc

end Prog

theorem WritesSet.allocated {m m' : Mem V} {S : Int → Prop} {g : Int → V}
    (h : WritesSet m m' S g) (hS : ∀ x, S x → (m x).isSome) (x : Int) :
    (m' x).isSome = (m x).isSome := by
  by_cases hs : S x
  · rw [(h x).1 hs, hS x hs]; rfl
  · rw [(h x).2 hs]

end Blast
