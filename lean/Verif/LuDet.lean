import Verif.GetrfSafe
/-
What the LU factorizations compute, as functions of the elements: for an arbitrary scalar arithmetic, also when they throw.
-/
set_option linter.unusedSectionVars false
namespace Blast
open Prog Reg
variable {V : Type} [Arith V]

/-- `K` steps of elimination with partial pivoting: the matrix left behind, and the pivots (`none`: stopped by a zero pivot, after the interchange) -/
def luFull (dv : V → V → V) (upd : V → V → V → V) (m : Nat) (a : Nat → Nat → V) (ip : Nat → Nat) : Nat → (Nat → Nat → V) × Option (Nat → Nat)
  | 0 => (a, some ip)
  | k + 1 =>
    match luFull dv upd m a ip k with
    | (b, none) => (b, none)
    | (b, some p) =>
      match luStep dv upd m k b p with
      | some (b', p') => (b', some p')
      | none => (swapRows k (pivotRow m b k) b, none)

/-- the result of a factorization program is the value `r` -/
def RunsLu {SS M N : Nat} (A : MPtr) (p : Prog V (Nat → Nat)) (m0 mem : Mem V) (r : (Nat → Nat → V) × Option (Nat → Nat)) : Prop :=
  RunsE p mem (fun q mem' => r.2 = some q ∧ MatIn SS M N A m0 mem' r.1) (fun e mem' => e = .invalidArgument ∧ r.2 = none ∧ MatIn SS M N A m0 mem' r.1)

theorem runsLu_fold {SS M N m : Nat} {A : MPtr} {m0 : Mem V} (dv : V → V → V) (upd : V → V → V → V) {a : Nat → Nat → V} (h : Holds SS m0 A M N a)
    (ip : Nat → Nat) (step : Nat → (Nat → Nat) → Prog V (Nat → Nat)) (K : Nat)
    (hstep : ∀ k b p mem, k < K → MatIn SS M N A m0 mem b → RunsE (step k p) mem
      (fun q mem' => ∃ a', luStep dv upd m k b p = some (a', q) ∧ MatIn SS M N A m0 mem' a')
      (fun e mem' => e = .invalidArgument ∧ luStep dv upd m k b p = none ∧ MatIn SS M N A m0 mem' (swapRows k (pivotRow m b k) b))) :
    RunsLu (SS := SS) (M := M) (N := N) A (foldN K step ip) m0 m0 (luFull dv upd m a ip K) := by
  induction K with
  | zero => exact Or.inl ⟨_, _, rfl, rfl, MatIn.of_holds h⟩
  | succ K ih =>
    have ih := ih (fun k b p mem hk => hstep k b p mem (by omega))
    unfold RunsLu at ih ⊢
    unfold luFull
    rcases hr : luFull dv upd m a ip K with ⟨b, _ | p⟩
    · rw [hr] at ih
      refine RunsE.bind ih ?_
      rintro q mem1 ⟨h1, -⟩
      cases h1
    · rw [hr] at ih
      refine RunsE.bind (ih.mono (fun _ _ h => h) ?_) ?_
      · rintro e mem1 ⟨-, h1, -⟩
        cases h1
      · rintro q mem1 ⟨h1, h2⟩
        cases h1
        refine (hstep K b p mem1 (by omega) h2).mono ?_ ?_
        · rintro q mem2 ⟨a', h3, h4⟩
          simp only [h3]
          exact ⟨trivial, h4⟩
        · rintro e mem2 ⟨he, h3, h4⟩
          simp only [h3]
          exact ⟨he, trivial, h4⟩

theorem getf2Ptr_det {SS TR m n : Nat} {A : MPtr} {m0 : Mem V} (hp : LuPre SS TR m n A m0)
    {a : Nat → Nat → V} (h : Holds SS m0 A m n a) (ip : Nat → Nat) :
    RunsLu (SS := SS) (M := m) (N := n) A (getf2Ptr SS TR m n A ip) m0 m0 (luFull Arith.div updCol m a ip (min m n)) :=
  runsLu_fold _ _ h ip _ _ (fun _ _ _ _ hk h1 => runs_getf2Step hp h1 (by omega) (by omega) _)

theorem getf2Row_det {SS : Nat} (hSS : 0 < SS) (dv : V → V → V) {A : Mat} (hd : A.p.panel = false) {m0 : Mem V}
    (hinj : Inj SS A.p A.rows A.cols) {a : Nat → Nat → V} (h : Holds SS m0 A.p A.rows A.cols a) (ip : Nat → Nat) :
    RunsLu (SS := SS) (M := A.rows) (N := A.cols) A.p (getf2Row SS dv A ip) m0 m0 (luFull dv updRow A.rows a ip (min A.rows A.cols)) :=
  runsLu_fold _ _ h ip _ _ (fun _ _ _ _ hk h1 => runs_getf2RowStep hSS dv hd hinj h1 (by omega) (by omega) _)

/-! ### Triangular solve -/

/-- the recurrence of the substitution, for one right-hand side -/
def TrsmRec (uplo : UpLo) (unit : Bool) (m : Nat) (a : Nat → Nat → V) (b x : Nat → V) : Prop :=
  ∀ i, i < m → x i =
    let v := subFold (fun k => Arith.mul (a i k) (x k)) (b i) (solveLo uplo i) (solveHi uplo m i - solveLo uplo i)
    if unit then v else Arith.div v (a i i)

theorem TrsmRec.unique {uplo : UpLo} {unit : Bool} {m : Nat} {a a' : Nat → Nat → V} {b b' x x' : Nat → V} (h : TrsmRec uplo unit m a b x)
    (h' : TrsmRec uplo unit m a' b' x') (ha : ∀ i k, i < m → k < m → TriRef uplo unit i k → a i k = a' i k) (hb : ∀ i, i < m → b i = b' i) :
    ∀ i, i < m → x i = x' i := by
  have key : ∀ i, i < m → (∀ k, k < m → solveLo uplo i ≤ k → k < solveHi uplo m i → x k = x' k) → x i = x' i := by
    intro i hi ih
    have hs : subFold (fun k => Arith.mul (a i k) (x k)) (b i) (solveLo uplo i) (solveHi uplo m i - solveLo uplo i) =
        subFold (fun k => Arith.mul (a' i k) (x' k)) (b' i) (solveLo uplo i) (solveHi uplo m i - solveLo uplo i) := by
      rw [hb i hi]
      refine subFold_congr _ (fun k h1 h2 => ?_)
      have hk : k < solveHi uplo m i := by omega
      have hkm : k < m := by
        cases uplo with
        | lower => change k < i at hk; omega
        | upper => exact hk
      rw [ih k hkm h1 hk, ha i k hi hkm]
      cases uplo with
      | lower => exact Or.inr (Or.inl ⟨rfl, hk⟩)
      | upper => exact Or.inr (Or.inr ⟨rfl, h1⟩)
    rw [h i hi, h' i hi]
    dsimp only
    rw [hs]
    cases unit with
    | true => rfl
    | false => rw [ha i i hi hi (Or.inl ⟨rfl, rfl⟩)]
  cases uplo with
  | lower =>
    intro i
    induction i using Nat.strongRecOn with
    | ind i ih => exact fun hi => key i hi (fun k hk _ h2 => ih k h2 hk)
  | upper =>
    intro i hi
    obtain ⟨t, ht⟩ : ∃ t, i + t + 1 = m := ⟨m - i - 1, by omega⟩
    induction t using Nat.strongRecOn generalizing i with
    | ind t ih => exact key i hi (fun k hk h1 _ => by
        change i + 1 ≤ k at h1
        exact ih (m - k - 1) (by omega) k hk (by omega))

/-- the solution the substitution computes -/
noncomputable def trsmSol (uplo : UpLo) (unit : Bool) (m : Nat) (a : Nat → Nat → V) (b : Nat → V) : Nat → V :=
  @Classical.epsilon _ ⟨fun _ => Arith.zero⟩ (TrsmRec uplo unit m a b)

theorem TrsmRec.eq_sol {uplo : UpLo} {unit : Bool} {m : Nat} {a : Nat → Nat → V} {b x : Nat → V} (h : TrsmRec uplo unit m a b x) {i : Nat} (hi : i < m) :
    x i = trsmSol uplo unit m a b i :=
  h.unique (Classical.epsilon_spec_aux _ (TrsmRec uplo unit m a b) ⟨x, h⟩) (fun _ _ _ _ _ => rfl) (fun _ _ => rfl) i hi

theorem trsmRec_exists (uplo : UpLo) (unit : Bool) (m : Nat) (a : Nat → Nat → V) (b : Nat → V) : ∃ x, TrsmRec uplo unit m a b x := by
  let f : (Nat → V) → Nat → V := fun x i =>
    let v := subFold (fun k => Arith.mul (a i k) (x k)) (b i) (solveLo uplo i) (solveHi uplo m i - solveLo uplo i)
    if unit then v else Arith.div v (a i i)
  have hf : ∀ (x x' : Nat → V) i, (∀ k, solveLo uplo i ≤ k → k < solveHi uplo m i → x k = x' k) → f x i = f x' i := by
    intro x x' i h
    have e : subFold (fun k => Arith.mul (a i k) (x k)) (b i) (solveLo uplo i) (solveHi uplo m i - solveLo uplo i) =
        subFold (fun k => Arith.mul (a i k) (x' k)) (b i) (solveLo uplo i) (solveHi uplo m i - solveLo uplo i) :=
      subFold_congr _ (fun k h1 h2 => by rw [h k h1 (by omega)])
    show (let v := subFold _ _ _ _; if unit then v else Arith.div v (a i i)) = _
    rw [e]
  cases uplo with
  | lower =>
    have key : ∀ n, ∃ x : Nat → V, ∀ i, i < n → x i = f x i := by
      intro n
      induction n with
      | zero => exact ⟨b, fun i hi => by omega⟩
      | succ n ih =>
        obtain ⟨x, hx⟩ := ih
        refine ⟨fun i => if i = n then f x n else x i, fun i hi => ?_⟩
        by_cases e : i = n
        · subst e
          beta_reduce
          rw [if_pos rfl]
          exact hf _ _ _ (fun k _ h2 => by change k < i at h2; rw [if_neg (by omega)])
        · beta_reduce
          rw [if_neg e, hx i (by omega)]
          exact hf _ _ _ (fun k _ h2 => by change k < i at h2; rw [if_neg (by omega)])
    obtain ⟨x, hx⟩ := key m
    exact ⟨x, hx⟩
  | upper =>
    have key : ∀ n, ∃ x : Nat → V, ∀ i, m - n ≤ i → i < m → x i = f x i := by
      intro n
      induction n with
      | zero => exact ⟨b, fun i h1 hi => by omega⟩
      | succ n ih =>
        obtain ⟨x, hx⟩ := ih
        by_cases hn : m ≤ n
        · exact ⟨x, fun i h1 h2 => hx i (by omega) h2⟩
        refine ⟨fun i => if i = m - (n + 1) then f x (m - (n + 1)) else x i, fun i h1 hi => ?_⟩
        by_cases e : i = m - (n + 1)
        · beta_reduce
          rw [if_pos e, ← e]
          exact hf _ _ _ (fun k h3 _ => by change i + 1 ≤ k at h3; rw [if_neg (by omega)])
        · beta_reduce
          rw [if_neg e, hx i (by omega) hi]
          exact hf _ _ _ (fun k h3 _ => by change i + 1 ≤ k at h3; rw [if_neg (by omega)])
    obtain ⟨x, hx⟩ := key m
    exact ⟨x, fun i hi => hx i (by omega) hi⟩

theorem trsmSol_rec (uplo : UpLo) (unit : Bool) (m : Nat) (a : Nat → Nat → V) (b : Nat → V) : TrsmRec uplo unit m a b (trsmSol uplo unit m a b) := by
  obtain ⟨x, hx⟩ := trsmRec_exists uplo unit m a b
  exact Classical.epsilon_spec_aux _ (TrsmRec uplo unit m a b) ⟨x, hx⟩

/-- trsm computes `trsmSol`, whatever the arithmetic, and writes X only -/
theorem trsmPtr_det {SS m n : Nat} {A X B : MPtr} (uplo : UpLo) (unit : Bool) {mem : Mem V} {a b : Nat → Nat → V}
    (hA : TriArg SS mem A m uplo unit a X m n) (hX : Readable SS mem X m n) (hinj : Inj SS X m n) (hB : Holds SS mem B m n b)
    (hBX : SameOrDisj SS B X m n) :
    ∃ mem', trsmPtr SS m n uplo unit A B X mem = .ok () mem' ∧
      Holds SS mem' X m n (fun i j => trsmSol uplo unit m a (fun i => b i j) i) ∧ (∀ y, ¬ Cells SS X m n y → mem' y = mem y) := by
  have href : ∀ i k, i < m → (solveLo uplo i ≤ k ∧ k < solveHi uplo m i ∨ (unit = false ∧ k = i)) → k < m ∧ TriRef uplo unit i k := by
    intro i k hi hk
    rcases hk with ⟨h1, h2⟩ | ⟨h1, h2⟩
    · cases uplo with
      | lower => change k < i at h2; exact ⟨by omega, Or.inr (Or.inl ⟨rfl, h2⟩)⟩
      | upper => exact ⟨h2, Or.inr (Or.inr ⟨rfl, h1⟩)⟩
    · exact ⟨by omega, Or.inl ⟨h2.symm, h1⟩⟩
  obtain ⟨mem', e1, e2, e3⟩ := runs_solve (no := n) (ni := m) (solveDown uplo)
    (addrX := fun o i => X.addr SS (i : Nat) (o : Nat)) (addrB := fun o i => B.addr SS (i : Nat) (o : Nat))
    (addrA := fun i k => A.addr SS (i : Nat) (k : Nat)) Arith.mul id unit (solveLo uplo) (solveHi uplo m)
    (by
      intro i k hi h1 h2
      cases uplo with
      | lower => change k < i at h2; exact ⟨by omega, by simpa [innerLt, solveDown] using h2⟩
      | upper =>
        change k < m at h2; change i + 1 ≤ k at h1
        exact ⟨h2, by simp [innerLt, solveDown]; omega⟩) (m := mem)
    (by intro o i o' i' h1 h2 h3 h4 he; have := hinj _ _ _ _ h2 h1 h4 h3 he; exact ⟨this.2, this.1⟩)
    (by intro o i ho hi; exact hX i o hi ho) (fun o i ho hi => by rw [hB i o hi ho]; rfl)
    (by intro o i o' i' h1 h2 h3 h4 he; have := hBX _ _ _ _ h2 h1 h4 h3 he; exact ⟨this.2, this.1⟩)
    (by
      intro i k hi hk
      obtain ⟨h0, h1⟩ := href i k hi hk
      obtain ⟨h2, h3⟩ := hA i k hi h0 h1
      exact ⟨by rw [h2]; rfl, fun o' i' ho hi' he => h3 ⟨i', o', hi', ho, he⟩⟩)
  refine ⟨mem', by cases uplo <;> exact e1, fun i j hi hj => ?_, fun y hy => e2 y (fun o i ho hi he => hy ⟨i, o, hi, ho, he⟩)⟩
  have hrec : TrsmRec uplo unit m a (fun i => b i j) (fun i => val mem' (X.addr SS i j)) := by
    intro i hi
    have := e3 j i hj hi
    refine Eq.trans (val_some this) ?_
    dsimp only [id]
    have hs : subFold (fun k => Arith.mul (val mem (A.addr SS i k)) (val mem' (X.addr SS k j))) (val mem (B.addr SS i j)) (solveLo uplo i)
        (solveHi uplo m i - solveLo uplo i) =
        subFold (fun k => Arith.mul (a i k) (val mem' (X.addr SS k j))) (b i j) (solveLo uplo i) (solveHi uplo m i - solveLo uplo i) := by
      rw [val_some (hB i j hi hj)]
      refine subFold_congr _ (fun k h1 h2 => ?_)
      obtain ⟨h3, h4⟩ := href i k hi (Or.inl ⟨h1, by omega⟩)
      rw [val_some (hA i k hi h3 h4).1]
    rw [hs]
    cases unit with
    | true => rfl
    | false =>
      obtain ⟨h3, h4⟩ := href i i hi (Or.inr ⟨rfl, rfl⟩)
      simp only [Bool.false_eq_true, if_false]
      rw [val_some (hA i i hi h3 h4).1]
  beta_reduce
  rw [← hrec.eq_sol hi]
  beta_reduce
  rw [val_some (e3 j i hj hi)]
  exact e3 j i hj hi

/-! ### Blocked factorization -/

/-- `a` with the `r × c` block at `(r0, c0)` replaced by `f` -/
def paste (r0 c0 r c : Nat) (f a : Nat → Nat → V) : Nat → Nat → V :=
  fun i j => if r0 ≤ i ∧ i < r0 + r ∧ c0 ≤ j ∧ j < c0 + c then f (i - r0) (j - c0) else a i j

/-- row interchanges applied to the columns `c0 .. c0+n-1` -/
def swapCols (P : Nat → Nat) (k0 k1 c0 n : Nat) (a : Nat → Nat → V) : Nat → Nat → V :=
  fun i j => if c0 ≤ j ∧ j < c0 + n then rowSwaps P k0 (k1 - k0) a i j else a i j

/-- one block step -/
noncomputable def getrfBlk (T M N k : Nat) (a : Nat → Nat → V) (P : Nat → Nat) : (Nat → Nat → V) × Option (Nat → Nat) :=
  match luFull Arith.div updCol (M - k) (fun i j => a (k + i) (k + j)) (fun i => P (k + i)) T with
  | (s, none) => (paste k k (M - k) T s a, none)
  | (s, some p) =>
    let P' := addRange (mergeAt P k p) k (k + T)
    let a3 := swapCols P' k (k + T) (k + T) (N - k - T) (swapCols P' k (k + T) 0 k (paste k k (M - k) T s a))
    let a4 := paste k (k + T) T (N - k - T) (fun i j => trsmSol .lower true T (fun i q => a3 (k + i) (k + q)) (fun i => a3 (k + i) (k + T + j)) i) a3
    (paste (k + T) (k + T) (M - k - T) (N - k - T) (fun i j => gemmEntry (Arith.neg Arith.one) Arith.one (fun q => a4 (k + T + i) (k + q))
      (fun q => a4 (k + q) (k + T + j)) (a4 (k + T + i) (k + T + j)) T) a4, some P')

/-- the block steps -/
noncomputable def getrfIter (T M N : Nat) : Nat → Nat → (Nat → Nat → V) → (Nat → Nat) → Nat × (Nat → Nat → V) × Option (Nat → Nat)
  | 0, k, a, P => (k, a, some P)
  | fuel + 1, k, a, P =>
    if k + T < M ∧ k + T < N then
      match getrfBlk T M N k a P with
      | (a', none) => (k, a', none)
      | (a', some P') => getrfIter T M N fuel (k + T) a' P'
    else (k, a, some P)

/-- the last block -/
noncomputable def getrfLast (M N k : Nat) (a : Nat → Nat → V) (P : Nat → Nat) : (Nat → Nat → V) × Option (Nat → Nat) :=
  if k < M ∧ k < N then
    match luFull Arith.div updCol (M - k) (fun i j => a (k + i) (k + j)) (fun i => P (k + i)) (min (M - k) (N - k)) with
    | (s, none) => (paste k k (M - k) (N - k) s a, none)
    | (s, some p) =>
      let P' := addRange (mergeAt P k p) k (min M N)
      (swapCols P' k (min M N) 0 k (paste k k (M - k) (N - k) s a), some P')
  else (swapCols P k k 0 k a, some P)

/-- column-major getrf as a function of the elements -/
noncomputable def getrfFull (T M N : Nat) (a : Nat → Nat → V) (ip : Nat → Nat) : (Nat → Nat → V) × Option (Nat → Nat) :=
  match getrfIter T M N (M + 1) 0 a ip with
  | (_, a, none) => (a, none)
  | (k, a, some P) => getrfLast M N k a P

theorem luFull_some {dv : V → V → V} {upd : V → V → V → V} {m : Nat} {a b : Nat → Nat → V} {ip p : Nat → Nat} (K : Nat)
    (h : luFull dv upd m a ip K = (b, some p)) : luRun dv upd m a ip K = some (b, p) := by
  induction K generalizing b p with
  | zero => cases h; rfl
  | succ K ih =>
    unfold luFull at h
    unfold luRun
    rcases hr : luFull dv upd m a ip K with ⟨b1, _ | p1⟩
    · rw [hr] at h; cases h
    · rw [hr] at h
      rw [ih hr]
      show luStep dv upd m K b1 p1 = some (b, p)
      cases hs : luStep dv upd m K b1 p1 with
      | none => simp only [hs] at h; cases h
      | some r =>
        obtain ⟨b2, p2⟩ := r
        simp only [hs] at h
        cases h; rfl

/-- one block step for an arbitrary arithmetic: the values -/
theorem det_getrfStep {SS TR M N k : Nat} {A : MPtr} {m0 mem : Mem V} (hp : GetrfPre SS TR M N A m0)
    {a : Nat → Nat → V} {ip P : Nat → Nat} (hk : k % (TR * SS) = 0) (hkM : k + TR * SS < M) (hkN : k + TR * SS < N)
    (hP : PivotsOK M k ip P) (h : MatIn SS M N A m0 mem a) :
    RunsE (getrfStep SS TR M N A k P) mem
      (fun P' mem' => PivotsOK M (k + TR * SS) ip P' ∧ (getrfBlk (TR * SS) M N k a P).2 = some P' ∧
        MatIn SS M N A m0 mem' (getrfBlk (TR * SS) M N k a P).1)
      (fun e mem' => e = .invalidArgument ∧ (getrfBlk (TR * SS) M N k a P).2 = none ∧ MatIn SS M N A m0 mem' (getrfBlk (TR * SS) M N k a P).1) := by
  have hSS := hp.ss
  have hd := hp.dense
  have hNB : 0 < TR * SS := Nat.mul_pos hp.tr hp.ss
  have hkS : k % SS = 0 := Nat.mod_eq_zero_of_dvd (Nat.dvd_trans ⟨TR, Nat.mul_comm _ _⟩ (Nat.dvd_of_mod_eq_zero hk))
  have hNS : (TR * SS) % SS = 0 := Nat.mul_mod_left _ _
  have hkNS : (k + TR * SS) % SS = 0 := by rw [Nat.add_mod, hkS, hNS]; simp
  have hpan := fun i j => uoff_addr hSS hd k k i j
  have hoff : ∀ r c i j : Nat, (A.off SS r c).addr SS i j = A.addr SS (r + i : Nat) (c + j : Nat) := by
    intro r c i j
    rw [dense_off_addr hd]; push_cast; rfl
  have hlp : LuPre SS TR (M - k) (TR * SS) ((A.unal SS).off SS k k) mem :=
    hp.toLuPre.sub (by omega) (by omega) (uoff_dense hSS hd _ _) (by rw [uoff_so hSS]; exact hp.so) hpan (fun y hy => h.isSome hy)
  have hholds : Holds SS mem ((A.unal SS).off SS k k) (M - k) (TR * SS) (fun i j => a (k + i) (k + j)) := by
    intro i j hi hj
    rw [hpan]; exact h.holds _ _ (by omega) (by omega)
  have hdet := getf2Ptr_det hlp hholds (fun i => P (k + i))
  rw [show min (M - k) (TR * SS) = TR * SS by omega] at hdet
  unfold getrfStep getrfBlk
  rcases hlu : luFull Arith.div updCol (M - k) (fun i j => a (k + i) (k + j)) (fun i => P (k + i)) (TR * SS) with ⟨s, _ | p⟩
  · rw [hlu] at hdet
    unfold RunsLu at hdet
    dsimp only
    refine RunsE.bind (hdet.mono (fun _ _ h => h) ?_) ?_
    · rintro e mem1 ⟨he, -, h1⟩
      exact ⟨he, rfl, h.block hp.inj (r0 := k) (c0 := k) (r := M - k) (c := TR * SS) (by omega) (by omega) hpan h1.holds h1.frame⟩
    · rintro q mem1 ⟨h1, -⟩
      cases h1
  rw [hlu] at hdet
  unfold RunsLu at hdet
  dsimp only
  refine RunsE.bind (hdet.mono (fun _ _ h => h) ?_) ?_
  · rintro e mem1 ⟨-, h1, -⟩
    cases h1
  rintro q mem1 ⟨hq, h1⟩
  cases hq
  have hP' := hP.extend (luRun_pivots (TR * SS) (by omega) (luFull_some _ hlu)) (by omega)
  generalize addRange (mergeAt P k p) k (k + TR * SS) = P' at hP' ⊢
  have hPM : ∀ q, k ≤ q → q < k + TR * SS → P' q < M := fun q _ h2 => (hP'.1 q h2).2
  have h2 : MatIn SS M N A m0 mem1 (paste k k (M - k) (TR * SS) s a) :=
    h.block hp.inj (r0 := k) (c0 := k) (r := M - k) (c := TR * SS) (by omega) (by omega) hpan h1.holds h1.frame
  generalize paste k k (M - k) (TR * SS) s a = a1 at h2 ⊢
  refine RunsE.bind (Q := fun _ mem' => MatIn SS M N A m0 mem' (swapCols P' k (k + TR * SS) 0 k a1)) (Runs.e (runs_laswp hSS hd h2 hp.inj (B := A) (c0 := 0) (n := k) (k0 := k) (k1 := k + TR * SS) (by omega) hd
    (fun i j => by simp) (by omega) (by omega) hPM)) ?_
  intro _ mem2 h3
  refine RunsE.bind (Q := fun _ mem' => MatIn SS M N A m0 mem' (swapCols P' k (k + TR * SS) (k + TR * SS) (N - k - TR * SS) (swapCols P' k (k + TR * SS) 0 k a1)))
    (Runs.e (runs_laswp hSS hd h3 hp.inj (B := A.off SS 0 (k + TR * SS : Nat)) (c0 := k + TR * SS)
    (n := N - k - TR * SS) (k0 := k) (k1 := k + TR * SS) (by omega) hd
    (fun i j => by rw [dense_off_addr hd, Int.zero_add]) (by omega) (by omega) hPM)) ?_
  intro _ mem3 h4
  generalize swapCols P' k (k + TR * SS) (k + TR * SS) (N - k - TR * SS) (swapCols P' k (k + TR * SS) 0 k a1) = a3 at h4 ⊢
  have hX := hoff k (k + TR * SS)
  have hA21 := hoff (k + TR * SS) k
  have hC := hoff (k + TR * SS) (k + TR * SS)
  have hrd : ∀ {mm : Mem V} {b : Nat → Nat → V}, MatIn SS M N A m0 mm b → ∀ i j : Nat, i < M → j < N → (mm (A.addr SS i j)).isSome = true :=
    fun hb i j hi hj => by rw [hb.holds i j hi hj]; rfl
  refine RunsE.bind (Q := fun _ mem' => MatIn SS M N A m0 mem' (paste k (k + TR * SS) (TR * SS) (N - k - TR * SS) (fun i j => trsmSol .lower true (TR * SS)
    (fun i q => a3 (k + i) (k + q)) (fun i => a3 (k + i) (k + TR * SS + j)) i) a3)) (Runs.e ?_) ?_
  · obtain ⟨mem', e1, e2, e3⟩ := trsmPtr_det (SS := SS) (m := TR * SS) (n := N - k - TR * SS) (A := A.off SS k k)
      (X := A.off SS k (k + TR * SS : Nat)) (B := A.off SS k (k + TR * SS : Nat)) .lower true (mem := mem3)
      (a := fun i q => a3 (k + i) (k + q)) (b := fun i j => a3 (k + i) (k + TR * SS + j))
      (by
        intro i q hi hq _
        rw [hoff k k]
        refine ⟨h4.holds _ _ (by omega) (by omega), ?_⟩
        rintro ⟨i', j', hi', hj', e⟩
        rw [hX] at e
        have := hp.inj _ _ _ _ (by omega) (by omega) (by omega) (by omega) e
        omega)
      (fun i j hi hj => by rw [hX]; exact hrd h4 _ _ (by omega) (by omega))
      (hp.inj.sub (by omega) (by omega) hX)
      (fun i j hi hj => by rw [hX]; exact h4.holds _ _ (by omega) (by omega))
      (hp.inj.sub (by omega) (by omega) hX)
    refine ⟨(), mem', ?_, h4.block hp.inj (by omega) (by omega) hX e2 e3⟩
    rw [C27_trsm_size_check, if_pos ⟨⟨rfl, rfl⟩, rfl, rfl⟩]
    exact e1
  rintro _ mem4 h6
  generalize paste k (k + TR * SS) (TR * SS) (N - k - TR * SS) (fun i j => trsmSol .lower true (TR * SS)
    (fun i q => a3 (k + i) (k + q)) (fun i => a3 (k + i) (k + TR * SS + j)) i) a3 = a4 at h6 ⊢
  refine RunsE.bind (Q := fun _ mem' => MatIn SS M N A m0 mem' (paste (k + TR * SS) (k + TR * SS) (M - k - TR * SS) (N - k - TR * SS)
    (fun i j => gemmEntry (Arith.neg Arith.one) Arith.one (fun q => a4 (k + TR * SS + i) (k + q))
      (fun q => a4 (k + q) (k + TR * SS + j)) (a4 (k + TR * SS + i) (k + TR * SS + j)) (TR * SS)) a4)) (Runs.e ?_) ?_
  · have hpad : ∀ i j : Nat, i < roundUp M SS → j < N → (mem4 (A.addr SS i j)).isSome = true :=
      fun i j hi hj => h6.isSome (hp.pad i j hi hj)
    have hru := roundUp_sub' hSS hkNS (show k + TR * SS ≤ M by omega)
    have hle := self_le_roundUp (n := M) hSS
    have hgp : GemmPre SS (M - k - TR * SS) (N - k - TR * SS) (TR * SS) (A.off SS (k + TR * SS : Nat) k)
        (A.off SS k (k + TR * SS : Nat)) (A.off SS (k + TR * SS : Nat) (k + TR * SS : Nat))
        (A.off SS (k + TR * SS : Nat) (k + TR * SS : Nat)) mem4 := by
      rw [show M - (k + TR * SS) = M - k - TR * SS by omega] at hru
      refine ⟨hSS, off_wf' hd hp.so hp.wf hkNS, off_wf' hd hp.so hp.wf hkS, off_wf' hd hp.so hp.wf hkNS,
        off_wf' hd hp.so hp.wf hkNS, hp.so, hp.so, hp.so, ?_, ?_, ?_, ?_, hp.inj.sub (by omega) (by omega) hC, ?_, ?_,
        hp.inj.sub (by omega) (by omega) hC⟩
      · intro i j hi hj; rw [hA21]; exact hpad _ _ (by omega) (by omega)
      · intro i j hi hj; rw [hX]; exact hpad _ _ (by omega) (by omega)
      · intro i j hi hj; rw [hC]; exact hpad _ _ (by omega) (by omega)
      · intro i j hi hj; rw [hC]; exact hpad _ _ (by omega) (by omega)
      · intro i j i' j' hi hj hi' hj' e
        rw [hA21, hC] at e
        have := hp.inj _ _ _ _ (by omega) (by omega) (by omega) (by omega) e
        omega
      · intro i j i' j' hi hj hi' hj' e
        rw [hX, hC] at e
        have := hp.inj _ _ _ _ (by omega) (by omega) (by omega) (by omega) e
        omega
    obtain ⟨mem', e1, e2, e3⟩ := gemmPtr_correct (alpha := Arith.neg Arith.one) (beta := Arith.one) hgp
    refine ⟨(), mem', e1, h6.block hp.inj (f := fun i j => gemmEntry (Arith.neg Arith.one) Arith.one (fun q => a4 (k + TR * SS + i) (k + q))
      (fun q => a4 (k + q) (k + TR * SS + j)) (a4 (k + TR * SS + i) (k + TR * SS + j)) (TR * SS)) (by omega) (by omega) hC (fun i j hi hj => ?_) e3⟩
    rw [e2 i j hi hj]
    congr 1
    unfold gemmEntry
    rw [hC, h6.holds.val (by omega) (by omega)]
    congr 2
    refine fmaSum_congr rfl _ (fun q hq => ?_) (fun q hq => ?_)
    · rw [hA21, h6.holds.val (by omega) (by omega)]
    · rw [hX, h6.holds.val (by omega) (by omega)]
  rintro _ mem5 h7
  exact Or.inl ⟨_, _, rfl, hP', rfl, h7⟩

/-- column-major getrf computes `getrfFull`, whatever the arithmetic -/
theorem det_getrfPtr {SS TR M N : Nat} {A : MPtr} {m0 : Mem V} (hp : GetrfPre SS TR M N A m0)
    {a0 : Nat → Nat → V} (ip : Nat → Nat) (h : Holds SS m0 A M N a0) :
    RunsLu (SS := SS) (M := M) (N := N) A (getrfPtr SS TR M N A ip) m0 m0 (getrfFull (TR * SS) M N a0 ip) := by
  have hSS := hp.ss
  have hd := hp.dense
  have hNB : 0 < TR * SS := Nat.mul_pos hp.tr hp.ss
  have key : ∀ fuel k a P mem, M < fuel + k → 0 < fuel → k % (TR * SS) = 0 → k ≤ M → k ≤ N → PivotsOK M k ip P → MatIn SS M N A m0 mem a →
      RunsE (loopS fuel (fun k => decide (k + TR * SS < M) && decide (k + TR * SS < N)) (TR * SS) (getrfStep SS TR M N A) k P) mem
        (fun r mem' => ∃ a', getrfIter (TR * SS) M N fuel k a P = (r.1, a', some r.2) ∧ r.1 ≤ M ∧ r.1 ≤ N ∧ PivotsOK M r.1 ip r.2 ∧ MatIn SS M N A m0 mem' a' ∧
          (decide (r.1 + TR * SS < M) && decide (r.1 + TR * SS < N)) = false)
        (fun e mem' => e = .invalidArgument ∧ ∃ k' a', getrfIter (TR * SS) M N fuel k a P = (k', a', none) ∧ MatIn SS M N A m0 mem' a') := by
    intro fuel
    induction fuel with
    | zero => intro k a P mem hf h0; omega
    | succ fuel ih =>
      intro k a P mem hf h0 hk hkM hkN hP hm
      unfold loopS getrfIter
      by_cases hc : k + TR * SS < M ∧ k + TR * SS < N
      · rw [if_pos (by simpa using hc), if_pos hc]
        have hst := det_getrfStep hp hk hc.1 hc.2 hP hm
        rcases hb : getrfBlk (TR * SS) M N k a P with ⟨a', _ | P'⟩
        · rw [hb] at hst
          refine RunsE.bind (hst.mono (fun _ _ h => h) ?_) ?_
          · rintro e mem1 ⟨he, -, h1⟩
            exact ⟨he, k, a', rfl, h1⟩
          · rintro q mem1 ⟨-, h1, -⟩; cases h1
        · rw [hb] at hst
          refine RunsE.bind (hst.mono (fun _ _ h => h) ?_) ?_
          · rintro e mem1 ⟨-, h1, -⟩; cases h1
          · rintro q mem1 ⟨h1, h2, h3⟩
            cases h2
            exact ih (k + TR * SS) a' P' mem1 (by omega) (by omega) (by rw [Nat.add_mod_right]; exact hk) (by omega) (by omega) h1 h3
      · rw [if_neg (by simpa using hc), if_neg hc]
        exact Or.inl ⟨_, _, rfl, a, rfl, hkM, hkN, hP, hm, by simpa using hc⟩
  have hloop := key (M + 1) 0 a0 ip m0 (by omega) (by omega) (Nat.zero_mod _) (by omega) (by omega)
    ⟨fun q hq => by omega, fun _ _ => rfl⟩ (MatIn.of_holds h)
  unfold RunsLu getrfPtr getrfFull
  rcases hit : getrfIter (TR * SS) M N (M + 1) 0 a0 ip with ⟨k0, aF, _ | PF⟩
  · rw [hit] at hloop
    refine RunsE.bind (hloop.mono (fun _ _ h => h) ?_) ?_
    · rintro e mem1 ⟨he, k', a', h1, h2⟩
      cases h1
      exact ⟨he, rfl, h2⟩
    · rintro ⟨q1, q2⟩ mem1 ⟨a', h1, -⟩; cases h1
  rw [hit] at hloop
  refine RunsE.bind (hloop.mono (fun _ _ h => h) ?_) ?_
  · rintro e mem1 ⟨-, k', a', h1, -⟩; cases h1
  rintro ⟨k, P⟩ mem ⟨a, hk1, hkM, hkN, hP, h1, -⟩
  cases hk1
  simp only at hkM hkN hP ⊢
  have hoff : ∀ i j : Nat, (A.off SS k k).addr SS i j = A.addr SS (k + i : Nat) (k + j : Nat) := by
    intro i j
    rw [dense_off_addr hd]; push_cast; rfl
  unfold getrfLast
  by_cases hc : k < M ∧ k < N
  · rw [if_pos hc, if_pos hc]
    have hlp : LuPre SS TR (M - k) (N - k) (A.off SS k k) mem :=
      hp.toLuPre.sub (by omega) (by omega) hd hp.so hoff (fun y hy => h1.isSome hy)
    have hholds : Holds SS mem (A.off SS k k) (M - k) (N - k) (fun i j => aF (k + i) (k + j)) := by
      intro i j hi hj
      rw [hoff]; exact h1.holds _ _ (by omega) (by omega)
    have hdet := getf2Ptr_det hlp hholds (fun i => P (k + i))
    unfold RunsLu at hdet
    rcases hlu : luFull Arith.div updCol (M - k) (fun i j => aF (k + i) (k + j)) (fun i => P (k + i)) (min (M - k) (N - k)) with ⟨s, _ | p⟩
    · rw [hlu] at hdet
      dsimp only
      refine RunsE.bind (RunsE.bind (R := fun _ _ => False) (hdet.mono (fun _ _ h => h) ?_) ?_) ?_
      · rintro e mem1 ⟨he, -, h2⟩
        exact ⟨he, rfl, h1.block hp.inj (r0 := k) (c0 := k) (r := M - k) (c := N - k) (by omega) (by omega) hoff h2.holds h2.frame⟩
      · rintro q mem1 ⟨h2, -⟩; cases h2
      · rintro q mem1 hF; exact hF.elim
    · rw [hlu] at hdet
      dsimp only
      refine RunsE.bind (RunsE.bind (R := fun r mem' => r = mergeAt P k p ∧ MatIn SS (M - k) (N - k) (A.off SS k k) mem mem' s)
        (hdet.mono (fun _ _ h => h) ?_) ?_) ?_
      · rintro e mem1 ⟨-, h2, -⟩; cases h2
      · rintro q mem1 ⟨hq, h2⟩
        cases hq
        exact Or.inl ⟨_, _, rfl, rfl, h2⟩
      rintro _ mem1 ⟨rfl, h2⟩
      have hs := luFull_some _ hlu
      rw [show min (M - k) (N - k) = min M N - k by omega] at hs
      have hP' := hP.extend (luRun_pivots (min M N - k) (by omega) hs) (by omega)
      rw [show k + (min M N - k) = min M N by omega] at hP'
      generalize addRange (mergeAt P k p) k (min M N) = P' at hP' ⊢
      have h3 := h1.block hp.inj (r0 := k) (c0 := k) (r := M - k) (c := N - k) (by omega) (by omega) hoff h2.holds h2.frame
      refine RunsE.bind (Runs.e (runs_laswp hSS hd h3 hp.inj (B := A) (c0 := 0) (n := k) (k0 := k) (k1 := min M N) (by omega) hd
        (fun i j => by simp) (by omega) (by omega) (fun q _ h2 => (hP'.1 q h2).2))) ?_
      intro _ mem2 h4
      exact Or.inl ⟨_, _, rfl, rfl, h4⟩
  · rw [if_neg hc, if_neg hc]
    have hkm : k = min M N := by omega
    show RunsE (do
      laswp SS k A k (min M N) (addRange P k (min M N))
      pure (addRange P k (min M N))) mem _ _
    have hadd : addRange P k (min M N) = P := by
      funext i; unfold addRange; rw [if_neg (by omega)]
    rw [hadd, ← hkm]
    refine RunsE.bind (Runs.e (runs_laswp hSS hd h1 hp.inj (B := A) (c0 := 0) (n := k) (k0 := k) (k1 := k) (by omega) hd
      (fun i j => by simp) (by omega) (by omega) (fun q h1 h2 => by omega))) ?_
    intro _ mem2 h4
    exact Or.inl ⟨_, _, rfl, rfl, h4⟩

end Blast
