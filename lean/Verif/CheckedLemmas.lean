import Verif.Checked
/-
With well-aligned arguments no assertion of the checked build fails: its programs are equal to those of the release build.
-/
set_option linter.unusedSectionVars false
namespace Blast
open Prog
variable {V : Type} [Arith V]

/-! ### Congruence of loops -/

theorem foldN_congr {σ : Type} {n : Nat} {f g : Nat → σ → Prog V σ} {s : σ} (h : ∀ k, k < n → ∀ s, f k s = g k s) :
    foldN n f s = foldN n g s := by
  induction n with
  | zero => rfl
  | succ n ih =>
    show foldN n f s >>= f n = foldN n g s >>= g n
    rw [ih (fun k hk => h k (by omega)), show f n = g n from funext (h n (by omega))]

/-- congruence of a loop whose state satisfies an invariant -/
theorem foldN_congr_inv {σ : Type} {n : Nat} {f g : Nat → σ → Prog V σ} {s : σ} (I : Nat → σ → Prop) (h0 : I 0 s)
    (h : ∀ k, k < n → ∀ s, I k s → f k s = g k s)
    (hI : ∀ k, k < n → ∀ s m s' m', I k s → g k s m = .ok s' m' → I (k + 1) s') :
    foldN n f s = foldN n g s ∧ ∀ m s' m', foldN n g s m = .ok s' m' → I n s' := by
  induction n with
  | zero =>
    refine ⟨rfl, fun m s' m' hr => ?_⟩
    cases hr; exact h0
  | succ n ih =>
    obtain ⟨e, hi⟩ := ih (fun k hk => h k (by omega)) (fun k hk => hI k (by omega))
    refine ⟨?_, fun m s' m' hr => ?_⟩
    · show foldN n f s >>= f n = foldN n g s >>= g n
      rw [e]
      funext m
      show bind' (foldN n g s) (f n) m = bind' (foldN n g s) (g n) m
      unfold bind'
      cases hr : foldN n g s m with
      | ok a m1 => exact congrFun (h n (by omega) a (hi m a m1 hr)) m1
      | _ => rfl
    · change bind' (foldN n g s) (g n) m = _ at hr
      unfold bind' at hr
      cases hr1 : foldN n g s m with
      | ok a m1 => rw [hr1] at hr; exact hI n (by omega) a m1 s' m' (hi m a m1 hr1) hr
      | _ => rw [hr1] at hr; cases hr

theorem forN_congr {n : Nat} {f g : Nat → Prog V Unit} (h : ∀ k, k < n → f k = g k) : forN n f = forN n g := by
  induction n with
  | zero => rfl
  | succ n ih =>
    show (forN n f >>= fun _ => f n) = (forN n g >>= fun _ => g n)
    rw [ih (fun k hk => h k (by omega)), h n (by omega)]

theorem forFrom_congr {lo hi : Nat} {f g : Nat → Prog V Unit} (h : ∀ k, f k = g k) : forFrom lo hi f = forFrom lo hi g :=
  forN_congr (fun _ _ => h _)

theorem loop_bind_congr {α : Type} {fuel : Nat} {c : Nat → Bool} {step : Nat} {b b' : Nat → Prog V Unit} {i : Nat}
    {k k' : Nat → Prog V α} (I : Nat → Prop) (h0 : I i) (hs : ∀ i, I i → I (i + step))
    (hb : ∀ i, I i → c i = true → b i = b' i) (hk : ∀ i, I i → k i = k' i) :
    (loop fuel c step b i >>= k) = (loop fuel c step b' i >>= k') := by
  induction fuel generalizing i with
  | zero => rfl
  | succ n ih =>
    unfold loop
    by_cases hc : c i = true
    · rw [if_pos hc, if_pos hc, bind_assoc', bind_assoc', hb i h0 hc, ih (hs i h0)]
    · rw [if_neg hc, if_neg hc]
      exact hk i h0

theorem onlyIf_congr {b : Bool} {p q : Prog V Unit} (h : b = true → p = q) : onlyIf b p = onlyIf b q := by
  unfold onlyIf
  split
  · rename_i hb; exact h hb
  · rfl

theorem bind_congr' {α β : Type} {p q : Prog V α} {f g : α → Prog V β} (h : p = q) (hf : ∀ a, f a = g a) :
    (p >>= f) = (q >>= g) := by
  rw [h, show f = g from funext hf]

theorem rowTiles_congr {T M i0 : Nat} (h0 : i0 % T = 0) {b b' : Nat → Nat → Prog V Unit} {t t' : Nat → Prog V Unit}
    (hb : ∀ rm i, i % T = 0 → b rm i = b' rm i) (ht : ∀ i, i % T = 0 → t i = t' i) :
    rowTiles T M i0 b t = rowTiles T M i0 b' t' := by
  have hs : ∀ rm i, i % T = 0 → (i + rm * T) % T = 0 := fun rm i h => by rw [Nat.add_mul_mod_self_right]; exact h
  unfold rowTiles
  refine loop_bind_congr (fun i => i % T = 0) h0 (hs 3) (fun i h _ => hb 3 i h) (fun i h => ?_)
  refine loop_bind_congr (fun i => i % T = 0) h (hs 2) (fun i h _ => hb 2 i h) (fun i h => ?_)
  refine loop_bind_congr (fun i => i % T = 0) h (hs 1) (fun i h _ => hb 1 i h) (fun i h => ?_)
  exact onlyIf_congr (fun _ => ht i h)

theorem colTiles_congr {T N : Nat} {b b' t t' : Nat → Prog V Unit} (hb : ∀ j, j % T = 0 → b j = b' j)
    (ht : ∀ j, j % T = 0 → t j = t' j) : colTiles T N b t = colTiles T N b' t' := by
  unfold colTiles
  refine loop_bind_congr (fun j => j % T = 0) (Nat.zero_mod _) (fun j h => by rw [Nat.add_mod_right]; exact h)
    (fun j h _ => hb j h) (fun j h => ?_)
  exact onlyIf_congr (fun _ => ht j h)

theorem tile_congr {SS : Nat} {ct : Bool} {m n : Nat} {ff ff' : Nat → Nat → Nat → Prog V Unit}
    {fp fp' : Nat → Nat → Nat → Nat → Nat → Prog V Unit} (hf : ∀ RM i j, i % SS = 0 → ff RM i j = ff' RM i j)
    (hp : ∀ RM i j km kn, i % SS = 0 → fp RM i j km kn = fp' RM i j km kn) :
    tile SS ct m n ff fp = tile SS ct m n ff' fp' := by
  have hs : ∀ rm i, i % SS = 0 → (i + rm * SS) % SS = 0 := fun rm i h => by rw [Nat.add_mul_mod_self_right]; exact h
  have hstrip : ∀ j kn r, tileStrip SS m j kn r ff fp = tileStrip SS m j kn r ff' fp' := by
    intro j kn r
    unfold tileStrip
    have hbody : ∀ RM i, i % SS = 0 →
        (if r = true then fp RM i j (RM * SS) kn else ff RM i j) = (if r = true then fp' RM i j (RM * SS) kn else ff' RM i j) := by
      intro RM i hi
      rw [hf RM i j hi, hp RM i j _ kn hi]
    dsimp only
    refine loop_bind_congr (fun i => i % SS = 0) (Nat.zero_mod _) (hs 3) (fun i h _ => hbody 3 i h) (fun i h => ?_)
    refine loop_bind_congr (fun i => i % SS = 0) h (hs 2) (fun i h _ => hbody 2 i h) (fun i h => ?_)
    refine loop_bind_congr (fun i => i % SS = 0) h (hs 1) (fun i h _ => hbody 1 i h) (fun i h => ?_)
    exact onlyIf_congr (fun _ => hp _ _ _ _ _ h)
  have hback : ∀ RM i, i % SS = 0 → tileBackend SS RM m n i ff fp = tileBackend SS RM m n i ff' fp' := by
    intro RM i hi
    unfold tileBackend
    split
    · exact loop_bind_congr (fun _ => True) trivial (fun _ _ => trivial) (fun j _ _ => hf _ _ _ hi)
        (fun j _ => onlyIf_congr (fun _ => hp _ _ _ _ _ hi))
    · exact loop_bind_congr (fun _ => True) trivial (fun _ _ => trivial) (fun j _ _ => hp _ _ _ _ _ hi)
        (fun j _ => onlyIf_congr (fun _ => hp _ _ _ _ _ hi))
  unfold tile
  split
  · exact loop_bind_congr (fun _ => True) trivial (fun _ _ => trivial) (fun j _ _ => hstrip _ _ _)
      (fun j _ => onlyIf_congr (fun _ => hstrip _ _ _))
  · refine loop_bind_congr (fun i => i % SS = 0) (Nat.zero_mod _) (hs 3) (fun i h _ => hback 3 i h) (fun i h => ?_)
    refine loop_bind_congr (fun i => i % SS = 0) h (hs 2) (fun i h _ => hback 2 i h) (fun i h => ?_)
    exact loop_bind_congr (fun i => i % SS = 0) h (hs 1) (fun i h _ => hback 1 i h) (fun i h => rfl)

theorem Reg.forRows_congr {RM : Nat} {g : Nat → Bool} {j : Nat} {f f' : Nat → Vec V → Prog V (Vec V)} {r : Reg V}
    (h : ∀ i v, f i v = f' i v) : Reg.forRows RM g j f r = Reg.forRows RM g j f' r := by
  rw [show f = f' from funext (fun i => funext (h i))]

theorem Reg.forCols_congr {N : Nat} {g : Nat → Bool} {f f' : Nat → Reg V → Prog V (Reg V)} {r : Reg V}
    (h : ∀ j r, f j r = f' j r) : Reg.forCols N g f r = Reg.forCols N g f' r := by
  rw [show f = f' from funext (fun i => funext (h i))]

/-! ### Alignment -/

/-- a pointer whose type says it is aligned is aligned, and so are its columns (rows) -/
def MPtr.Al (SS : Nat) (p : MPtr) : Prop := p.aligned = true → p.ptr % (SS : Int) = 0 ∧ p.spacing % (SS : Int) = 0

theorem MPtr.WF.al {SS : Nat} {p : MPtr} (h : p.WF SS) : p.Al SS := fun ha => h (Or.inl ha)

theorem MPtr.Al.of_unaligned {SS : Nat} {p : MPtr} (h : p.aligned = false) : p.Al SS := fun ha => by rw [h] at ha; cases ha

theorem MPtr.al_unal {SS : Nat} (p : MPtr) : (p.unal SS).Al SS := by
  refine MPtr.Al.of_unaligned ?_
  unfold MPtr.unal
  dsimp only
  split <;> rfl

theorem MPtr.unal_aligned {SS : Nat} (p : MPtr) : (p.unal SS).aligned = false := by
  unfold MPtr.unal
  dsimp only
  split <;> rfl

private theorem emod_mul (SS : Nat) (a b : Int) (h : a % (SS : Int) = 0) : (b * a) % (SS : Int) = 0 := by
  rw [Int.mul_emod, h, Int.mul_zero, Int.zero_emod]

private theorem emod_mul' (SS : Nat) (a b : Int) (h : a % (SS : Int) = 0) : (a * b) % (SS : Int) = 0 := by
  rw [Int.mul_comm]; exact emod_mul SS a b h

private theorem emod_add (SS : Nat) {a b : Int} (ha : a % (SS : Int) = 0) (hb : b % (SS : Int) = 0) :
    (a + b) % (SS : Int) = 0 := by
  rw [Int.add_emod, ha, hb]; rfl

theorem MPtr.Al.off {SS : Nat} {p : MPtr} (h : p.Al SS) {i j : Int} (hm : p.aligned = true → p.major i j % (SS : Int) = 0) :
    (p.off SS i j).Al SS := by
  intro ha
  change p.aligned = true at ha
  obtain ⟨h1, h2⟩ := h ha
  have hm := hm ha
  refine ⟨?_, h2⟩
  show p.addr SS i j % (SS : Int) = 0
  unfold MPtr.addr
  unfold MPtr.major at hm
  have hself : (SS : Int) % (SS : Int) = 0 := Int.emod_self
  cases hpan : p.panel <;> cases hso : p.so <;> rw [hso] at hm <;>
    simp only [ha, hpan, hso, if_true, Bool.false_eq_true, if_false, Int.sub_zero, Int.add_zero] at hm ⊢
  · exact emod_add SS (emod_add SS h1 (emod_mul' SS _ _ h2)) hm
  · exact emod_add SS (emod_add SS h1 hm) (emod_mul' SS _ _ h2)
  · rw [hm, Int.add_zero]
    exact emod_add SS (emod_add SS h1 (emod_mul SS _ _ hself)) (emod_mul SS _ _ h2)
  · rw [hm, Int.add_zero]
    exact emod_add SS (emod_add SS h1 (emod_mul SS _ _ h2)) (emod_mul SS _ _ hself)

theorem MPtr.Al.off_col {SS : Nat} {p : MPtr} (h : p.Al SS) (hs : p.so = .columnMajor) {i j : Int} (hi : i % (SS : Int) = 0) :
    (p.off SS i j).Al SS := h.off (fun _ => by unfold MPtr.major; rw [hs]; exact hi)

theorem MPtr.Al.off_row {SS : Nat} {p : MPtr} (h : p.Al SS) (hs : p.so = .rowMajor) {i j : Int} (hj : j % (SS : Int) = 0) :
    (p.off SS i j).Al SS := h.off (fun _ => by unfold MPtr.major; rw [hs]; exact hj)

theorem MPtr.Al.hmove_col {SS : Nat} {p : MPtr} (h : p.Al SS) (hs : p.so = .columnMajor) (inc : Int) : (p.hmove SS inc).Al SS := by
  intro ha
  have ha' : p.aligned = true := by
    unfold MPtr.hmove at ha
    rw [hs] at ha
    cases hpan : p.panel <;> rw [hpan] at ha <;> exact ha
  obtain ⟨h1, h2⟩ := h ha'
  unfold MPtr.hmove
  rw [hs]
  cases hpan : p.panel
  · exact ⟨emod_add SS h1 (emod_mul' SS _ _ h2), h2⟩
  · exact ⟨emod_add SS h1 (emod_mul' SS _ _ Int.emod_self), h2⟩

theorem MPtr.trans_aligned {SS : Nat} (p : MPtr) : (p.trans SS).aligned = p.aligned := by
  unfold MPtr.trans
  dsimp only
  split <;> rfl

theorem MPtr.trans_so {SS : Nat} (p : MPtr) : (p.trans SS).so = p.so.flip := by
  unfold MPtr.trans
  dsimp only
  split <;> rfl

theorem MPtr.unal_so {SS : Nat} (p : MPtr) : (p.unal SS).so = p.so := by
  unfold MPtr.unal
  dsimp only
  split <;> rfl

theorem MPtr.unal_panel {SS : Nat} (p : MPtr) : (p.unal SS).panel = p.panel := by
  unfold MPtr.unal
  dsimp only
  split <;> rfl

theorem MPtr.Al.trans {SS : Nat} {p : MPtr} (h : p.Al SS) : (p.trans SS).Al SS := by
  intro ha
  rw [MPtr.trans_aligned] at ha
  have hq : ({ p with so := p.so.flip } : MPtr).Al SS := fun _ => h ha
  have h0 := hq.off (i := 0) (j := 0) (fun _ => by unfold MPtr.major; cases p.so <;> simp [SO.flip])
  unfold MPtr.trans
  dsimp only
  split
  · exact h0 ha
  · exact h ha

/-- the same for vector pointers, with the positive spacing that DynamicVectorPointer asserts -/
def VPtr.Al (SS : Nat) : VPtr → Prop
  | .rowcol p _ => p.Al SS
  | .vec st al p s => (st = true ∨ 0 < s) ∧ (al = true → p % (SS : Int) = 0)

namespace Checked

theorem assert_false_bind {b : Bool} (h : b = false) {α : Type} (k : Unit → Prog V α) (m : Mem V) :
    ((assert b : Prog V Unit) >>= k) m = .terminate := by
  subst h; rfl

theorem bind_terminate {α β : Type} {p : Prog V α} {k : α → Prog V β} {m : Mem V} (h : p m = .terminate) :
    (p >>= k) m = .terminate := by
  show bind' p k m = _
  unfold bind'
  rw [h]

theorem assert_true {b : Bool} (h : b = true) : (assert b : Prog V Unit) = pure () := by
  subst h; rfl

theorem make_eq {SS : Nat} {p : MPtr} (h : p.Al SS) : (make SS p : Prog V MPtr) = pure p := by
  unfold make
  rw [assert_true]
  · rfl
  · unfold alignedOk
    cases ha : p.aligned
    · rfl
    · simp [(h ha).1]

theorem off_eq {SS : Nat} {p : MPtr} (h : p.Al SS) {i j : Int} (hm : p.aligned = true → p.major i j % (SS : Int) = 0) :
    (off SS p i j : Prog V MPtr) = pure (p.off SS i j) := make_eq (h.off hm)

theorem off_col {SS : Nat} {p : MPtr} (h : p.Al SS) (hs : p.so = .columnMajor) {i j : Int} (hi : i % (SS : Int) = 0) :
    (off SS p i j : Prog V MPtr) = pure (p.off SS i j) := make_eq (h.off_col hs hi)

theorem off_unal {SS : Nat} {p : MPtr} (h : p.aligned = false) {i j : Int} :
    (off SS p i j : Prog V MPtr) = pure (p.off SS i j) := make_eq (MPtr.Al.of_unaligned h)

theorem unal_eq {SS : Nat} {p : MPtr} : (unal SS p : Prog V MPtr) = pure (p.unal SS) := make_eq p.al_unal

theorem trans_eq {SS : Nat} {p : MPtr} (h : p.Al SS) : (trans SS p : Prog V MPtr) = pure (p.trans SS) := make_eq h.trans

theorem hmove_col {SS : Nat} {p : MPtr} (h : p.Al SS) (hs : p.so = .columnMajor) {inc : Int} :
    (hmove SS p inc : Prog V MPtr) = pure (p.hmove SS inc) := by
  unfold hmove
  rw [assert_true (by rw [hs]; simp), pure_bind', make_eq (h.hmove_col hs inc)]

/-- `vmove` of an unaligned pointer of a dense or a row-major matrix asserts nothing -/
theorem vmove_unal {SS : Nat} {p : MPtr} (h : p.aligned = false) (hp : p.panel = true → p.so = .rowMajor) {inc : Int} :
    (vmove SS p inc : Prog V MPtr) = pure (p.vmove SS inc) := by
  unfold vmove
  rw [assert_true, pure_bind', make_eq]
  · refine MPtr.Al.of_unaligned ?_
    unfold MPtr.vmove
    cases p.panel <;> cases p.so <;> exact h
  · cases hpan : p.panel
    · rfl
    · rw [hp hpan]; simp

theorem vmake_eq {SS : Nat} {x : VPtr} (h : x.Al SS) : (vmake SS x : Prog V VPtr) = pure x := by
  cases x with
  | rowcol p tf => unfold vmake; dsimp only; rw [make_eq h]; rfl
  | vec st al p s =>
    unfold vmake
    dsimp only
    rw [assert_true, assert_true]
    · rfl
    · cases al
      · rfl
      · simp [h.2 rfl]
    · rcases h.1 with h | h
      · rw [h]; rfl
      · simp [h]


/-! ### Offsets used by register matrices -/

private theorem cast_emod {a SS : Nat} (h : a % SS = 0) : ((a : Nat) : Int) % (SS : Int) = 0 := by
  rw [← Int.natCast_emod, h]; rfl

theorem emod_self_mul {SS : Nat} {i : Int} : ((SS : Int) * i) % (SS : Int) = 0 := Int.mul_emod_right _ _

theorem emod_nat_mul {SS i : Nat} : ((i * SS : Nat) : Int) % (SS : Int) = 0 := cast_emod (Nat.mul_mod_left _ _)

theorem emod_nat_mul' {SS i : Nat} : ((SS * i : Nat) : Int) % (SS : Int) = 0 := cast_emod (Nat.mul_mod_right _ _)

theorem emod_of_tile {SS TR i : Nat} (h : i % (TR * SS) = 0) : (i : Int) % (SS : Int) = 0 := by
  refine cast_emod ?_
  have : SS ∣ i := Nat.dvd_trans (Nat.dvd_mul_left SS TR) (Nat.dvd_of_mod_eq_zero h)
  exact Nat.mod_eq_zero_of_dvd this

theorem emod_of_nat {SS i : Nat} (h : i % SS = 0) : (i : Int) % (SS : Int) = 0 := cast_emod h

/-! ### Register matrices -/

section Registers
variable {SS RM N : Nat} {p : MPtr} (h : p.Al SS) (hs : p.so = .columnMajor)
include h hs

theorem axpy_eq {r : Reg V} {beta : V} : axpy SS RM N r beta p = r.axpy SS RM N beta p :=
  Reg.forCols_congr (fun j r => Reg.forRows_congr (fun i v => by rw [off_col h hs emod_self_mul]; rfl))

theorem axpyP_eq {r : Reg V} {beta : V} {m n : Nat} : axpyP SS RM N r beta p m n = r.axpyP SS RM N beta p m n :=
  Reg.forCols_congr (fun j r => Reg.forRows_congr (fun i v => by rw [off_col h hs emod_self_mul]; rfl))

theorem load_eq {r : Reg V} : load SS RM N r p = r.load SS RM N p :=
  Reg.forCols_congr (fun j r => Reg.forRows_congr (fun i v => by rw [off_col h hs emod_self_mul]; rfl))

theorem loadB_eq {r : Reg V} {beta : V} : loadB SS RM N r beta p = r.loadB SS RM N beta p :=
  Reg.forCols_congr (fun j r => Reg.forRows_congr (fun i v => by rw [off_col h hs emod_self_mul]; rfl))

theorem loadBP_eq {r : Reg V} {beta : V} {m n : Nat} : loadBP SS RM N r beta p m n = r.loadBP SS RM N beta p m n := by
  refine Reg.forCols_congr (fun j r => ?_)
  refine if_congr Iff.rfl (Reg.forRows_congr (fun i v => by rw [off_col h hs emod_self_mul]; rfl)) ?_
  refine bind_congr' (Reg.forRows_congr (fun i v => by rw [off_col h hs emod_self_mul]; rfl)) (fun r => ?_)
  refine if_congr Iff.rfl ?_ rfl
  rw [off_col h hs (emod_of_nat (by rw [Nat.sub_mod_eq_zero_of_mod_eq (by rw [Nat.mod_mod])]))]
  rfl

theorem store_eq {r : Reg V} : store SS RM N r p = r.store SS RM N p :=
  forN_congr (fun j _ => forN_congr (fun i _ => by rw [off_col h hs emod_self_mul]; rfl))

theorem storeP_eq {r : Reg V} {m n : Nat} : storeP SS RM N r p m n = r.storeP SS RM N p m n := by
  refine bind_congr' (forN_congr (fun j _ => onlyIf_congr (fun _ => forN_congr (fun i _ => onlyIf_congr (fun _ => ?_))))) (fun _ => ?_)
  · rw [off_col h hs emod_self_mul]; rfl
  · refine if_congr Iff.rfl (forN_congr (fun j _ => ?_)) rfl
    rw [off_col h hs emod_nat_mul']; rfl

theorem storeLower_eq {r : Reg V} : storeLower SS RM N r p = r.storeLower SS RM N p := by
  refine forN_congr (fun j _ => bind_congr' (onlyIf_congr (fun _ => ?_)) (fun _ => forFrom_congr (fun ri => ?_)))
  · rw [off_col h hs emod_nat_mul']; rfl
  · rw [off_col h hs emod_self_mul]; rfl

theorem storeLowerP_eq {r : Reg V} {m n : Nat} : storeLowerP SS RM N r p m n = r.storeLowerP SS RM N p m n := by
  refine forN_congr (fun j _ => onlyIf_congr (fun _ => forFrom_congr (fun ri => ?_)))
  rw [off_col h hs emod_self_mul]; rfl

end Registers

/-- `x` may be loaded at multiples of the SIMD width -/
def ColAl (SS : Nat) : VPtr → Prop
  | .rowcol p .columnVector => p.Al SS ∧ (p.so = .columnMajor ∨ p.aligned = false)
  | .rowcol p .rowVector => p.Al SS ∧ (p.so = .rowMajor ∨ p.aligned = false)
  | .vec st al p s => (st = true ∨ 0 < s) ∧ (al = true → p % (SS : Int) = 0)

theorem voff_al {SS : Nat} {x : VPtr} (h : ColAl SS x) {i : Int} (hi : i % (SS : Int) = 0) : (x.off SS i).Al SS := by
  cases x with
  | rowcol p tf =>
    cases tf with
    | columnVector =>
      rcases h.2 with hs | hs
      · exact h.1.off_col hs hi
      · exact MPtr.Al.of_unaligned hs
    | rowVector =>
      rcases h.2 with hs | hs
      · exact h.1.off_row hs hi
      · exact MPtr.Al.of_unaligned hs
  | vec st al p s =>
    exact ⟨h.1, fun ha => by rw [Int.add_emod, h.2 ha, Int.mul_emod, hi]; simp⟩

theorem voff_colAl {SS : Nat} {x : VPtr} (h : ColAl SS x) {i : Int} (hi : i % (SS : Int) = 0) : ColAl SS (x.off SS i) := by
  cases x with
  | rowcol p tf =>
    cases tf with
    | columnVector => exact ⟨voff_al (x := .rowcol p .columnVector) h hi, h.2⟩
    | rowVector => exact ⟨voff_al (x := .rowcol p .rowVector) h hi, h.2⟩
  | vec st al p s => exact ⟨h.1, (voff_al (x := .vec st al p s) h hi).2⟩

theorem voff_eq {SS : Nat} {x : VPtr} (h : ColAl SS x) {i : Int} (hi : i % (SS : Int) = 0) :
    (voff SS x i : Prog V VPtr) = pure (x.off SS i) := vmake_eq (voff_al h hi)

theorem loadCol_eq {SS RM : Nat} {a : VPtr} (h : ColAl SS a) {f : V → V} : loadCol SS RM a f = Reg.loadCol SS RM a f :=
  foldN_congr (fun i _ ax => by rw [voff_eq h emod_nat_mul]; rfl)

theorem gerF_eq {SS RM N : Nat} {r : Reg V} {f : V → V} {a b : VPtr} (h : ColAl SS a) :
    gerF SS RM N r f a b = r.gerF SS RM N f a b := by
  unfold gerF
  rw [loadCol_eq h]
  rfl

theorem gerFP_eq {SS RM N : Nat} {r : Reg V} {f : V → V} {a b : VPtr} {m n : Nat} (h : ColAl SS a) :
    gerFP SS RM N r f a b m n = r.gerFP SS RM N f a b m n := by
  unfold gerFP
  rw [loadCol_eq h]
  rfl


/-! ### gemm -/

section Gemm
variable {SS RM N K : Nat} {a b : MPtr} (h : a.Al SS) (hs : a.so = .columnMajor)
include h hs

theorem column_colAl {i j : Int} (hi : i % (SS : Int) = 0) : ColAl SS (column (a.off SS i j)) :=
  ⟨h.off_col hs hi, Or.inl hs⟩

theorem gemmAcc_eq {r : Reg V} {alpha : V} : gemmAcc SS RM N r K alpha a b = Blast.gemmAcc SS RM N r K alpha a b := by
  refine foldN_congr (fun k _ r => ?_)
  rw [off_col h hs (Int.zero_emod _), pure_bind', unal_eq, pure_bind', off_unal b.unal_aligned, pure_bind',
    gerF_eq (column_colAl h hs (Int.zero_emod _))]

theorem gemmAccP_eq {r : Reg V} {alpha : V} {md nd : Nat} :
    gemmAccP SS RM N r K alpha a b md nd = Blast.gemmAccP SS RM N r K alpha a b md nd := by
  refine foldN_congr (fun k _ r => ?_)
  rw [off_col h hs (Int.zero_emod _), pure_bind', unal_eq, pure_bind', off_unal b.unal_aligned, pure_bind',
    gerFP_eq (column_colAl h hs (Int.zero_emod _))]

variable {c d : MPtr} (hc : c.Al SS) (hcs : c.so = .columnMajor) (hd : d.Al SS) (hds : d.so = .columnMajor)
include hc hcs hd hds

theorem gemmFull_eq {alpha beta : V} (hb : b.aligned = false) :
    gemmFull SS RM N K alpha a b beta c d = Blast.gemmFull SS RM N K alpha a b beta c d := by
  unfold gemmFull Blast.gemmFull
  refine congrArg noexcept ?_
  dsimp only
  have hb2 : (b.aligned && b.padded && b.so == .rowMajor) = false := by rw [hb]; rfl
  rw [hb2]
  refine bind_congr' (foldN_congr (fun k _ r => ?_)) (fun r => ?_)
  · rw [if_neg (by simp : ¬ (false = true)), if_neg (by simp : ¬ (false = true))]
    by_cases ha : (a.aligned && a.padded && a.so == .columnMajor) = true
    · rw [if_pos ha, if_pos ha, pure_bind', off_col h hs (Int.zero_emod _), pure_bind', unal_eq, pure_bind',
        off_unal b.unal_aligned, pure_bind', gerF_eq (column_colAl h hs (Int.zero_emod _))]
    · rw [if_neg ha, if_neg ha, unal_eq, pure_bind', off_unal a.unal_aligned, pure_bind', unal_eq, pure_bind',
        off_unal b.unal_aligned, pure_bind', gerF_eq (a := column ((a.unal SS).off SS 0 k))
          ⟨MPtr.Al.of_unaligned a.unal_aligned, Or.inr a.unal_aligned⟩]
  · exact bind_congr' (axpy_eq hc hcs) (fun r => store_eq hd hds)

theorem gemmPart_eq {alpha beta : V} {md nd : Nat} :
    gemmPart SS RM N K alpha a b beta c d md nd = Blast.gemmPart SS RM N K alpha a b beta c d md nd := by
  unfold gemmPart Blast.gemmPart
  refine congrArg noexcept ?_
  refine bind_congr' (foldN_congr (fun k _ r => ?_)) (fun r => ?_)
  · rw [off_col h hs (Int.zero_emod _), pure_bind', unal_eq, pure_bind', off_unal b.unal_aligned, pure_bind',
      gerFP_eq (column_colAl h hs (Int.zero_emod _))]
  · exact bind_congr' (axpyP_eq hc hcs) (fun r => storeP_eq hd hds)

end Gemm

theorem gemmPtr_eq {SS M N K : Nat} {alpha beta : V} {A B C D : MPtr} (hA : A.Al SS) (hAs : A.so = .columnMajor)
    (hC : C.Al SS) (hCs : C.so = .columnMajor) (hD : D.Al SS) (hDs : D.so = .columnMajor) :
    gemmPtr SS M N K alpha A B beta C D = Blast.gemmPtr SS M N K alpha A B beta C D := by
  refine tile_congr (fun RM i j hi => ?_) (fun RM i j m n hi => ?_)
  · rw [off_col hA hAs (emod_of_nat hi), pure_bind', unal_eq, pure_bind', off_unal B.unal_aligned, pure_bind',
      off_col hC hCs (emod_of_nat hi), pure_bind', off_col hD hDs (emod_of_nat hi), pure_bind',
      gemmFull_eq (b := (B.unal SS).off SS 0 j) (hA.off_col hAs (emod_of_nat hi)) hAs (hC.off_col hCs (emod_of_nat hi)) hCs
        (hD.off_col hDs (emod_of_nat hi)) hDs B.unal_aligned]
  · rw [off_col hA hAs (emod_of_nat hi), pure_bind', unal_eq, pure_bind', off_unal B.unal_aligned, pure_bind',
      off_col hC hCs (emod_of_nat hi), pure_bind', off_col hD hDs (emod_of_nat hi), pure_bind',
      gemmPart_eq (hA.off_col hAs (emod_of_nat hi)) hAs (hC.off_col hCs (emod_of_nat hi)) hCs
        (hD.off_col hDs (emod_of_nat hi)) hDs]

theorem gemmMat_eq {SS : Nat} {alpha beta : V} {A B C D : Mat} (hA : A.p.Al SS) (hAs : A.p.so = .columnMajor)
    (hB : B.p.Al SS) (hC : C.p.Al SS) (hCs : C.p.so = .columnMajor) (hD : D.p.Al SS) (hDs : D.p.so = .columnMajor) :
    gemmMat SS alpha A B beta C D = Blast.gemmMat SS alpha A B beta C D := by
  refine if_congr Iff.rfl rfl (if_congr Iff.rfl rfl (if_congr Iff.rfl rfl ?_))
  rw [make_eq hA, pure_bind', make_eq hB, pure_bind', make_eq hC, pure_bind', make_eq hD, pure_bind',
    gemmPtr_eq hA hAs hC hCs hD hDs]

/-! ### ger -/

section Ger
variable {SS TR : Nat} {x y : VPtr} {A B : MPtr} (hx : ColAl SS x) (hy : ColAl SS y) (hA : A.Al SS) (hAs : A.so = .columnMajor)
  (hB : B.Al SS) (hBs : B.so = .columnMajor)
include hx hy hA hAs hB hBs

theorem gerTileFull_eq {RM : Nat} {alpha : V} {i j : Nat} (hi : (i : Int) % (SS : Int) = 0) (hj : (j : Int) % (SS : Int) = 0) :
    gerTileFull SS TR RM alpha x y A B i j = Blast.gerTileFull SS TR RM alpha x y A B i j := by
  unfold gerTileFull Blast.gerTileFull
  rw [off_col hA hAs hi, pure_bind', loadB_eq (hA.off_col hAs hi) hAs]
  refine bind_congr' rfl (fun r => ?_)
  rw [voff_eq hx hi, pure_bind', voff_eq hy hj, pure_bind', gerF_eq (voff_colAl hx hi)]
  refine bind_congr' rfl (fun r => ?_)
  rw [off_col hB hBs hi, pure_bind', store_eq (hB.off_col hBs hi) hBs]

theorem gerTilePart_eq {RM : Nat} {alpha : V} {i j mm nn : Nat} (hi : (i : Int) % (SS : Int) = 0) (hj : (j : Int) % (SS : Int) = 0) :
    gerTilePart SS TR RM alpha x y A B i j mm nn = Blast.gerTilePart SS TR RM alpha x y A B i j mm nn := by
  unfold gerTilePart Blast.gerTilePart
  rw [off_col hA hAs hi, pure_bind', loadBP_eq (hA.off_col hAs hi) hAs]
  refine bind_congr' rfl (fun r => ?_)
  rw [voff_eq hx hi, pure_bind', voff_eq hy hj, pure_bind', gerFP_eq (voff_colAl hx hi)]
  refine bind_congr' rfl (fun r => ?_)
  rw [off_col hB hBs hi, pure_bind', storeP_eq (hB.off_col hBs hi) hBs]

theorem gerPtr_eq {M N : Nat} {alpha : V} : gerPtr SS TR M N alpha x y A B = Blast.gerPtr SS TR M N alpha x y A B := by
  refine colTiles_congr (fun j hj => rowTiles_congr (Nat.zero_mod _) (fun rm i hi => ?_) (fun i hi => ?_))
    (fun j hj => rowTiles_congr (Nat.zero_mod _) (fun rm i hi => ?_) (fun i hi => ?_))
  · exact gerTileFull_eq hx hy hA hAs hB hBs (emod_of_tile hi) (emod_of_tile hj)
  · exact gerTilePart_eq hx hy hA hAs hB hBs (emod_of_tile hi) (emod_of_tile hj)
  · exact gerTilePart_eq hx hy hA hAs hB hBs (emod_of_tile hi) (emod_of_tile hj)
  · exact gerTilePart_eq hx hy hA hAs hB hBs (emod_of_tile hi) (emod_of_tile hj)

end Ger

theorem ColAl.al {SS : Nat} {x : VPtr} (h : ColAl SS x) : x.Al SS := by
  cases x with
  | rowcol p tf => cases tf <;> exact h.1
  | vec => exact h

theorem gerMat_eq {SS TR : Nat} {alpha : V} {x y : VArg} {A B : Mat} (hx : ColAl SS x.p) (hy : ColAl SS y.p) (hA : A.p.Al SS)
    (hAs : A.p.so = .columnMajor) (hB : B.p.Al SS) (hBs : B.p.so = .columnMajor) :
    gerMat SS TR alpha x y A B = Blast.gerMat SS TR alpha x y A B := by
  refine if_congr Iff.rfl rfl (if_congr Iff.rfl rfl (if_congr Iff.rfl rfl (if_congr Iff.rfl rfl ?_)))
  rw [vmake_eq hx.al, pure_bind', vmake_eq hy.al, pure_bind', make_eq hA, pure_bind', make_eq hB, pure_bind',
    gerPtr_eq hx hy hA hAs hB hBs]

/-! ### syrk -/

section Syrk
variable {SS TR : Nat} {A C D : MPtr} (hA : A.Al SS) (hAs : A.so = .columnMajor) (hC : C.Al SS) (hCs : C.so = .columnMajor)
  (hD : D.Al SS) (hDs : D.so = .columnMajor)
include hA hAs hC hCs hD hDs

theorem syrkTileFull_eq {RM K : Nat} {alpha beta : V} {i j : Nat} (hi : (i : Int) % (SS : Int) = 0) (hj : (j : Int) % (SS : Int) = 0) :
    syrkTileFull SS TR RM K alpha A beta C D i j = Blast.syrkTileFull SS TR RM K alpha A beta C D i j := by
  unfold syrkTileFull Blast.syrkTileFull
  rw [off_col hC hCs hi, pure_bind', loadB_eq (hC.off_col hCs hi) hCs]
  refine bind_congr' rfl (fun r => ?_)
  rw [off_col hA hAs hi, pure_bind', off_col hA hAs hj, pure_bind', trans_eq (hA.off_col hAs hj), pure_bind',
    gemmAcc_eq (hA.off_col hAs hi) hAs]
  refine bind_congr' rfl (fun r => ?_)
  rw [off_col hD hDs hi, pure_bind', storeLower_eq (hD.off_col hDs hi) hDs, store_eq (hD.off_col hDs hi) hDs]

theorem syrkTilePart_eq {RM K : Nat} {alpha beta : V} {i j ml mm nn : Nat} (hi : (i : Int) % (SS : Int) = 0)
    (hj : (j : Int) % (SS : Int) = 0) :
    syrkTilePart SS TR RM K alpha A beta C D i j ml mm nn = Blast.syrkTilePart SS TR RM K alpha A beta C D i j ml mm nn := by
  unfold syrkTilePart Blast.syrkTilePart
  rw [off_col hC hCs hi, pure_bind', loadBP_eq (hC.off_col hCs hi) hCs]
  refine bind_congr' rfl (fun r => ?_)
  rw [off_col hA hAs hi, pure_bind', off_col hA hAs hj, pure_bind', trans_eq (hA.off_col hAs hj), pure_bind',
    gemmAccP_eq (hA.off_col hAs hi) hAs]
  refine bind_congr' rfl (fun r => ?_)
  rw [off_col hD hDs hi, pure_bind', storeLowerP_eq (hD.off_col hDs hi) hDs, storeP_eq (hD.off_col hDs hi) hDs]

theorem syrkPtr_eq {M K : Nat} {alpha beta : V} : syrkPtr SS TR M K alpha A beta C D = Blast.syrkPtr SS TR M K alpha A beta C D := by
  refine colTiles_congr (fun j hj => rowTiles_congr hj (fun rm i hi => ?_) (fun i hi => ?_))
    (fun j hj => rowTiles_congr hj (fun rm i hi => ?_) (fun i hi => ?_))
  · exact syrkTileFull_eq hA hAs hC hCs hD hDs (emod_of_tile hi) (emod_of_tile hj)
  · exact syrkTilePart_eq hA hAs hC hCs hD hDs (emod_of_tile hi) (emod_of_tile hj)
  · exact syrkTilePart_eq hA hAs hC hCs hD hDs (emod_of_tile hi) (emod_of_tile hj)
  · exact syrkTilePart_eq hA hAs hC hCs hD hDs (emod_of_tile hi) (emod_of_tile hj)

end Syrk

theorem syrkMat_eq {SS TR : Nat} {alpha beta : V} {A C D : Mat} (hA : A.p.Al SS) (hAs : A.p.so = .columnMajor) (hC : C.p.Al SS)
    (hCs : C.p.so = .columnMajor) (hD : D.p.Al SS) (hDs : D.p.so = .columnMajor) :
    syrkMat SS TR alpha A beta C D = Blast.syrkMat SS TR alpha A beta C D :=
  if_congr Iff.rfl rfl (if_congr Iff.rfl rfl (syrkPtr_eq hA hAs hC hCs hD hDs))

/-! ### potrf -/

theorem potrfLoops_congr {SS T KN M N : Nat} (hT : T % SS = 0) (hKN : KN % SS = 0 ∨ N ≤ KN) {b b' : Nat → Nat → Nat → Prog V Unit}
    (h : ∀ rm k i, k % SS = 0 → k < N → i % SS = 0 → i < M → b rm k i = b' rm k i) :
    potrfLoops T KN M N b = potrfLoops T KN M N b' := by
  have hs : ∀ rm i, i % SS = 0 → (i + rm * T) % SS = 0 := fun rm i hi => by
    rw [Nat.add_mod, hi, Nat.mul_mod, hT]; simp
  unfold potrfLoops
  refine loop_bind_congr (fun k => k % SS = 0 ∨ N ≤ k) (Or.inl (Nat.zero_mod _)) (fun k hk => ?_) (fun k hk hc => ?_) (fun _ _ => rfl)
  · rcases hk with hk | hk
    · rcases hKN with hKN | hKN
      · left; rw [Nat.add_mod, hk, hKN]; simp
      · right; omega
    · right; omega
  have hkN : k < N := by simpa using hc
  have hk : k % SS = 0 := by
    rcases hk with hk | hk
    · exact hk
    · omega
  refine loop_bind_congr (fun i => i % SS = 0) hk (hs 3) (fun i hi hc => h 3 k i hk hkN hi ?_) (fun i hi => ?_)
  · have : i + 2 * T < M := by simpa using hc
    omega
  refine loop_bind_congr (fun i => i % SS = 0) hi (hs 2) (fun i hi hc => h 2 k i hk hkN hi ?_) (fun i hi => ?_)
  · have : i + 1 * T < M := by simpa using hc
    omega
  refine loop_bind_congr (fun i => i % SS = 0) hi (hs 1) (fun i hi hc => h 1 k i hk hkN hi ?_) (fun _ _ => rfl)
  have : i + 0 * T < M := by simpa using hc
  omega

section Potrf
variable {SS KN M N : Nat} {A L : MPtr} (hA : A.Al SS) (hAs : A.so = .columnMajor) (hL : L.Al SS) (hLs : L.so = .columnMajor)
include hA hAs hL hLs

theorem potrfBackendDense_eq {RM k i : Nat} (hk : k % SS = 0) (hkN : k < N) (hi : i % SS = 0) (hiM : i < M) :
    potrfBackendDense (V := V) SS RM KN M N A L k i = Blast.potrfBackendDense SS RM KN M N A L k i := by
  have hk := emod_of_nat hk
  have hi := emod_of_nat hi
  have h0 := Int.zero_emod (SS : Int)
  unfold potrfBackendDense Blast.potrfBackendDense
  rw [assert_true (by simpa using hiM), pure_bind', assert_true (by simpa using hkN), pure_bind', off_col hA hAs hi, pure_bind',
    loadB_eq (hA.off_col hAs hi) hAs]
  refine bind_congr' rfl (fun r => ?_)
  rw [off_col hL hLs hi, pure_bind', off_col hL hLs hk, pure_bind']
  refine bind_congr' (foldN_congr (fun l _ r => ?_)) (fun r => ?_)
  · have hls : (L.off SS i 0).so = .columnMajor := hLs
    rw [off_col (hL.off_col hLs hi) hLs h0, pure_bind', trans_eq (hL.off_col hLs hk), pure_bind',
      off_eq (hL.off_col hLs hk).trans, pure_bind', gerF_eq (column_colAl (hL.off_col hLs hi) hLs h0)]
    intro _
    unfold MPtr.major
    rw [MPtr.trans_so]
    show (match L.so.flip with | .columnMajor => (l : Int) | .rowMajor => 0) % (SS : Int) = 0
    rw [hLs]
    exact h0
  · refine if_congr Iff.rfl ?_ ?_
    · refine bind_congr' rfl (fun r => ?_)
      rw [off_col hL hLs hi, pure_bind', storeLower_eq (hL.off_col hLs hi) hLs, storeLowerP_eq (hL.off_col hLs hi) hLs]
    · rw [off_col hL hLs hk, pure_bind', trans_eq (hL.off_col hLs hk), pure_bind']
      refine bind_congr' rfl (fun r => ?_)
      rw [off_col hL hLs hi, pure_bind', store_eq (hL.off_col hLs hi) hLs, storeP_eq (hL.off_col hLs hi) hLs]

theorem potrfBackendPanel_eq {RM k i : Nat} (hk : k % SS = 0) (hkN : k < N) (hi : i % SS = 0) (hiM : i < M) :
    potrfBackendPanel (V := V) SS RM KN M N A L k i = Blast.potrfBackendPanel SS RM KN M N A L k i := by
  have hk := emod_of_nat hk
  have hi := emod_of_nat hi
  have h0 := Int.zero_emod (SS : Int)
  unfold potrfBackendPanel Blast.potrfBackendPanel
  rw [assert_true (by simpa using hiM), pure_bind', assert_true (by simpa using hkN), pure_bind', off_col hA hAs hi, pure_bind',
    load_eq (hA.off_col hAs hi) hAs]
  refine bind_congr' rfl (fun r => ?_)
  rw [off_col hL hLs hi, pure_bind', off_col hL hLs hk, pure_bind']
  refine bind_congr' (foldN_congr (fun l _ r => ?_)) (fun r => ?_)
  · rw [off_col (hL.off_col hLs hi) hLs h0, pure_bind', off_col (hL.off_col hLs hk) hLs h0, pure_bind',
      trans_eq ((hL.off_col hLs hk).off_col hLs h0), pure_bind', gerF_eq (column_colAl (hL.off_col hLs hi) hLs h0)]
  · refine bind_congr' (if_congr Iff.rfl rfl ?_) (fun r => ?_)
    · rw [off_col hL hLs hk, pure_bind', trans_eq (hL.off_col hLs hk), pure_bind']
    · rw [off_col hL hLs hi, pure_bind', store_eq (hL.off_col hLs hi) hLs, storeP_eq (hL.off_col hLs hi) hLs]

theorem potrfDensePtr_eq {TR : Nat} (hKN : KN % SS = 0 ∨ N ≤ KN) :
    potrfDensePtr (V := V) SS TR KN M N A L = Blast.potrfDensePtr SS TR KN M N A L :=
  potrfLoops_congr (Nat.mul_mod_left _ _) hKN (fun _ _ _ hk hkN hi hiM => potrfBackendDense_eq hA hAs hL hLs hk hkN hi hiM)

theorem potrfPanelPtr_eq (hKN : KN % SS = 0 ∨ N ≤ KN) : potrfPanelPtr (V := V) SS KN M N A L = Blast.potrfPanelPtr SS KN M N A L :=
  potrfLoops_congr (Nat.mul_mod_left _ _) hKN (fun _ _ _ hk hkN hi hiM => potrfBackendPanel_eq hA hAs hL hLs hk hkN hi hiM)

end Potrf


/-! ### trmm -/

/-- a pointer that `vmove` may move by one: not a pointer into a column-major panel matrix -/
def VFree (p : MPtr) : Prop := p.panel = true → p.so = .rowMajor

theorem vmove_flags {SS : Nat} (p : MPtr) (inc : Int) :
    (p.vmove SS inc).aligned = p.aligned ∧ (p.vmove SS inc).panel = p.panel ∧ (p.vmove SS inc).so = p.so := by
  unfold MPtr.vmove
  cases p.panel <;> cases p.so <;> exact ⟨rfl, rfl, rfl⟩

theorem hmove_so {SS : Nat} (p : MPtr) (inc : Int) : (p.hmove SS inc).so = p.so := by
  unfold MPtr.hmove
  cases p.panel <;> cases p.so <;> rfl

theorem noexcept_ok {α : Type} {p : Prog V α} {m : Mem V} {a : α} {m' : Mem V} (h : p m = .ok a m') : noexcept p m = .ok a m' := by
  unfold noexcept; rw [h]

/-- result of a program that ends with `pure` -/
theorem bind_pure_ok {α β : Type} {p : Prog V α} {f : α → β} {m : Mem V} {b : β} {m' : Mem V}
    (h : (p >>= fun a => (pure (f a) : Prog V β)) m = .ok b m') : ∃ a, b = f a := by
  change bind' p (fun a => (pure (f a) : Prog V β)) m = _ at h
  unfold bind' at h
  cases hp : p m with
  | ok a m1 => rw [hp] at h; cases h; exact ⟨a, rfl⟩
  | _ => rw [hp] at h; cases h

theorem bind_ok_inv {α β : Type} {p : Prog V α} {f : α → Prog V β} {m : Mem V} {b : β} {m' : Mem V}
    (h : (p >>= f) m = .ok b m') : ∃ a m1, p m = .ok a m1 ∧ f a m1 = .ok b m' := by
  change bind' p f m = _ at h
  unfold bind' at h
  cases hp : p m with
  | ok a m1 => rw [hp] at h; exact ⟨a, m1, rfl, h⟩
  | _ => rw [hp] at h; cases h

/-- the pointers kept by the loops of the triangular products: the first steps through the columns of an aligned
column-major matrix, the second is unaligned and may step through rows -/
def TrmmInv (SS : Nat) (_k : Nat) (s : Reg V × MPtr × MPtr) : Prop :=
  s.2.1.Al SS ∧ s.2.1.so = .columnMajor ∧ s.2.2.aligned = false ∧ VFree s.2.2

theorem TrmmInv.next {SS k : Nat} {s : Reg V × MPtr × MPtr} (h : TrmmInv SS k s) (r : Reg V) :
    TrmmInv SS (k + 1) (r, s.2.1.hmove SS 1, s.2.2.vmove SS 1) := by
  obtain ⟨h1, h2, h3, h4⟩ := h
  obtain ⟨f1, f2, f3⟩ := vmove_flags (SS := SS) s.2.2 1
  refine ⟨h1.hmove_col h2 1, (hmove_so _ _).trans h2, f1.trans h3, fun hp => ?_⟩
  exact f3.trans (h4 (f2.symm.trans hp))

theorem trmmL_eq {SS RM N : Nat} {r : Reg V} {alpha : V} {a b : MPtr} {uplo : Reg.UpLo} {diag : Bool} (ha : a.Al SS)
    (hs : a.so = .columnMajor) (hb : VFree b) :
    trmmL SS RM N r alpha a uplo diag b = r.trmmL SS RM N alpha a uplo diag b := by
  unfold trmmL Reg.trmmL
  refine congrArg noexcept (if_congr Iff.rfl rfl ?_)
  cases uplo with
  | lower => rfl
  | upper =>
    dsimp only
    rw [unal_eq, pure_bind']
    refine bind_congr' (foldN_congr_inv (TrmmInv SS) ?_ (fun k _ s hI => ?_) (fun k _ s m s' m' hI hr => ?_)).1 (fun s => rfl)
    · exact ⟨ha, hs, b.unal_aligned, fun hp => by
        rw [MPtr.unal_panel] at hp; exact (MPtr.unal_so b).trans (hb hp)⟩
    · obtain ⟨r, a, bu⟩ := s
      obtain ⟨h1, h2, h3, h4⟩ := hI
      dsimp only at h1 h2 h3 h4 ⊢
      refine bind_congr' (foldN_congr (fun i _ ax => ?_)) (fun ax => ?_)
      · rw [off_col h1 h2 emod_nat_mul]; rfl
      refine bind_congr' (if_congr Iff.rfl ?_ rfl) (fun ax => ?_)
      · rw [off_col h1 h2 emod_nat_mul]; rfl
      refine bind_congr' rfl (fun r => ?_)
      rw [hmove_col h1 h2, pure_bind', vmove_unal h3 h4, pure_bind']
    · obtain ⟨_, _, _, hr⟩ := bind_ok_inv hr
      obtain ⟨_, _, _, hr⟩ := bind_ok_inv hr
      obtain ⟨r', hr⟩ := bind_pure_ok hr
      rw [hr]
      exact hI.next r'

theorem trmmRStep_eq {SS RM : Nat} {alpha : V} {k : Nat} {s : Reg V × MPtr × MPtr} (hI : TrmmInv SS k s) :
    trmmRStep SS RM alpha k s = Reg.trmmRStep SS RM alpha k s := by
  obtain ⟨r, b, au⟩ := s
  obtain ⟨h1, h2, h3, h4⟩ := hI
  dsimp only at h1 h2 h3 h4
  unfold trmmRStep Reg.trmmRStep
  dsimp only
  refine bind_congr' (foldN_congr (fun i _ ax => ?_)) (fun ax => ?_)
  · rw [off_col h1 h2 emod_nat_mul]; rfl
  refine bind_congr' rfl (fun r => ?_)
  rw [hmove_col h1 h2, pure_bind', vmove_unal h3 h4, pure_bind']

theorem trmmRStep_inv {SS RM : Nat} {alpha : V} {k : Nat} {s s' : Reg V × MPtr × MPtr} {m m' : Mem V} (hI : TrmmInv SS k s)
    (hr : Reg.trmmRStep SS RM alpha k s m = .ok s' m') : TrmmInv SS (k + 1) s' := by
  obtain ⟨_, _, _, hr⟩ := bind_ok_inv hr
  obtain ⟨r', hr⟩ := bind_pure_ok hr
  rw [hr]
  exact hI.next r'

theorem trmmR_start {SS : Nat} {r : Reg V} {b a : MPtr} (hb : b.Al SS) (hs : b.so = .columnMajor) (ha : VFree a) :
    TrmmInv SS 0 (r, b, a.unal SS) :=
  ⟨hb, hs, a.unal_aligned, fun hp => by rw [MPtr.unal_panel] at hp; exact (MPtr.unal_so a).trans (ha hp)⟩

theorem trmmR_eq {SS RM N : Nat} {r : Reg V} {alpha : V} {a b : MPtr} {uplo : Reg.UpLo} {diag : Bool} (hb : b.Al SS)
    (hs : b.so = .columnMajor) (ha : VFree a) :
    trmmR SS RM N r alpha b a uplo diag = r.trmmR SS RM N alpha b a uplo diag := by
  unfold trmmR Reg.trmmR
  refine congrArg noexcept (if_congr Iff.rfl rfl ?_)
  cases uplo with
  | upper => rfl
  | lower =>
    dsimp only
    rw [unal_eq, pure_bind']
    exact bind_congr' (foldN_congr_inv (TrmmInv SS) (trmmR_start hb hs ha) (fun k _ s hI => trmmRStep_eq hI)
      (fun k _ s m s' m' hI hr => trmmRStep_inv hI hr)).1 (fun s => rfl)

theorem trmmRP_eq {SS RM N : Nat} {r : Reg V} {alpha : V} {a b : MPtr} {uplo : Reg.UpLo} {diag : Bool} {m n : Nat} (hb : b.Al SS)
    (hs : b.so = .columnMajor) (ha : VFree a) :
    trmmRP SS RM N r alpha b a uplo diag m n = r.trmmRP SS RM N alpha b a uplo diag m n := by
  unfold trmmRP Reg.trmmRP
  refine congrArg noexcept ?_
  rw [unal_eq, pure_bind']
  refine bind_congr' (foldN_congr_inv (TrmmInv SS) (trmmR_start hb hs ha) (fun k _ s hI => if_congr Iff.rfl (trmmRStep_eq hI) rfl)
      (fun k _ s m s' m' hI hr => ?_)).1 (fun s => rfl)
  by_cases hk : k < n
  · rw [if_pos hk] at hr; exact trmmRStep_inv hI hr
  · rw [if_neg hk] at hr; cases hr; exact hI

section Trmm
variable {SS TR : Nat} {A B C : MPtr}

/-- offsets of a triangular product that are multiples of the SIMD width in both directions -/
theorem off_both {p : MPtr} (h : p.Al SS) {i j : Int} (hi : i % (SS : Int) = 0) (hj : j % (SS : Int) = 0) : (p.off SS i j).Al SS :=
  h.off (fun _ => by unfold MPtr.major; cases p.so <;> assumption)

theorem off_both_eq {p : MPtr} (h : p.Al SS) {i j : Int} (hi : i % (SS : Int) = 0) (hj : j % (SS : Int) = 0) :
    (off SS p i j : Prog V MPtr) = pure (p.off SS i j) := make_eq (off_both h hi hj)

theorem trmmLeftBackend_eq {RM T M N : Nat} {alpha : V} {a b c : MPtr} (hT : T % SS = 0) (ha : a.Al SS)
    (has : a.so = .columnMajor) (hb : b.Al SS) (hbf : VFree b) (hc : c.Al SS) (hcs : c.so = .columnMajor) :
    trmmLeftBackend SS RM T M N alpha a b c = Blast.trmmLeftBackend SS RM T M N alpha a b c := by
  have h0 := Int.zero_emod (SS : Int)
  have hj' : ∀ {j : Nat}, j % T = 0 → (j : Int) % (SS : Int) = 0 := fun {j} hj =>
    emod_of_nat (Nat.mod_eq_zero_of_dvd (Nat.dvd_trans (Nat.dvd_of_mod_eq_zero hT) (Nat.dvd_of_mod_eq_zero hj)))
  have part : ∀ (j : Nat) (md nd : Nat), j % T = 0 →
      (do
        let bj ← off SS b 0 j
        let r ← gemmAccP SS RM T Reg.reset M alpha a bj md nd
        let cj ← off SS c 0 j
        storeP SS RM T r cj md nd) = (do
        let r ← Blast.gemmAccP SS RM T Reg.reset M alpha a (b.off SS 0 j) md nd
        r.storeP SS RM T (c.off SS 0 j) md nd) := by
    intro j md nd hj
    rw [off_both_eq hb h0 (hj' hj), pure_bind', gemmAccP_eq ha has]
    refine bind_congr' rfl (fun r => ?_)
    rw [off_col hc hcs h0, pure_bind', storeP_eq (hc.off_col hcs h0) hcs]
  refine if_congr Iff.rfl (colTiles_congr (fun j hj => ?_) (fun j hj => part j _ _ hj))
    (colTiles_congr (fun j hj => part j _ _ hj) (fun j hj => part j _ _ hj))
  rw [off_both_eq hb h0 (hj' hj), pure_bind', trmmL_eq (b := b.off SS 0 j) ha has hbf]
  refine bind_congr' rfl (fun r => ?_)
  rw [off_col ha has h0, pure_bind', off_both_eq hb emod_nat_mul (hj' hj), pure_bind', gemmAcc_eq (ha.off_col has h0) has]
  refine bind_congr' rfl (fun r => ?_)
  rw [off_col hc hcs h0, pure_bind', store_eq (hc.off_col hcs h0) hcs]

theorem trmmLeftPtr_eq {M N : Nat} {alpha : V} {uplo : Reg.UpLo} {diag : Bool} (hA : A.Al SS) (hAs : A.so = .columnMajor)
    (hB : B.Al SS) (hBf : VFree B) (hC : C.Al SS) (hCs : C.so = .columnMajor) :
    trmmLeftPtr SS TR M N alpha A uplo diag B C = Blast.trmmLeftPtr SS TR M N alpha A uplo diag B C := by
  unfold trmmLeftPtr Blast.trmmLeftPtr
  refine if_congr Iff.rfl rfl ?_
  cases uplo with
  | lower => rfl
  | upper =>
    have hs : ∀ rm i, i % (TR * SS) = 0 → (i + rm * (TR * SS)) % (TR * SS) = 0 := fun rm i h => by
      rw [Nat.add_mul_mod_self_right]; exact h
    have body : ∀ (rm i : Nat), i % (TR * SS) = 0 → (do
        let a ← off SS A i i
        let b ← off SS B i 0
        let c ← off SS C i 0
        trmmLeftBackend SS (rm * TR) (TR * SS) (M - i) N alpha a b c) =
        Blast.trmmLeftBackend SS (rm * TR) (TR * SS) (M - i) N alpha (A.off SS i i) (B.off SS i 0) (C.off SS i 0) := by
      intro rm i hi
      have hi' := emod_of_tile hi
      rw [off_col hA hAs hi', pure_bind', off_both_eq hB hi' (Int.zero_emod _), pure_bind', off_col hC hCs hi', pure_bind',
        trmmLeftBackend_eq (b := B.off SS i 0) (Nat.mul_mod_left _ _) (hA.off_col hAs hi') hAs (off_both hB hi' (Int.zero_emod _)) hBf
          (hC.off_col hCs hi') hCs]
    dsimp only
    refine loop_bind_congr (fun i => i % (TR * SS) = 0) (Nat.zero_mod _) (hs 3) (fun i hi _ => body 3 i hi) (fun i hi => ?_)
    refine loop_bind_congr (fun i => i % (TR * SS) = 0) hi (hs 2) (fun i hi _ => body 2 i hi) (fun i hi => ?_)
    exact loop_bind_congr (fun i => i % (TR * SS) = 0) hi (hs 1) (fun i hi _ => body 1 i hi) (fun i hi => rfl)

variable (hB : B.Al SS) (hBs : B.so = .columnMajor) (hA : A.Al SS) (hAf : VFree A) (hC : C.Al SS) (hCs : C.so = .columnMajor)
include hB hBs hA hAf hC hCs

theorem trmmRightPtr_eq {M N : Nat} {alpha : V} {uplo : Reg.UpLo} {diag : Bool} :
    trmmRightPtr SS TR M N alpha B A uplo diag C = Blast.trmmRightPtr SS TR M N alpha B A uplo diag C := by
  cases uplo with
  | upper => rfl
  | lower =>
    have right : ∀ (RM i j mm : Nat), i % (TR * SS) = 0 → j % (TR * SS) = 0 →
        trmmRTileRight SS TR RM N alpha B A diag C i j mm = Blast.trmmRTileRight SS TR RM N alpha B A diag C i j mm := by
      intro RM i j mm hi hj
      have hi := emod_of_tile hi
      have hj := emod_of_tile hj
      unfold trmmRTileRight Blast.trmmRTileRight
      rw [off_col hB hBs hi, pure_bind', off_both_eq hA hj hj, pure_bind',
        trmmRP_eq (a := A.off SS j j) (hB.off_col hBs hi) hBs hAf]
      refine bind_congr' rfl (fun r => ?_)
      rw [off_col hC hCs hi, pure_bind', storeP_eq (hC.off_col hCs hi) hCs]
    refine colTiles_congr (fun j hj => rowTiles_congr (Nat.zero_mod _) (fun rm i hi => ?_) (fun i hi => ?_))
      (fun j hj => rowTiles_congr (Nat.zero_mod _) (fun rm i hi => right _ i j _ hi hj) (fun i hi => right _ i j _ hi hj))
    all_goals
      have hi := emod_of_tile hi
      have hjT : (((j + TR * SS : Nat) : Int)) % (SS : Int) = 0 :=
        emod_of_tile (TR := TR) (by rw [Nat.add_mod_right]; exact hj)
      have hj := emod_of_tile hj
    · unfold trmmRTileFull Blast.trmmRTileFull
      rw [off_col hB hBs hi, pure_bind', off_both_eq hA hj hj, pure_bind',
        trmmR_eq (a := A.off SS j j) (hB.off_col hBs hi) hBs hAf]
      refine bind_congr' rfl (fun r => ?_)
      rw [off_col hB hBs hi, pure_bind', off_both_eq hA hjT hj, pure_bind', gemmAcc_eq (hB.off_col hBs hi) hBs]
      refine bind_congr' rfl (fun r => ?_)
      rw [off_col hC hCs hi, pure_bind', store_eq (hC.off_col hCs hi) hCs]
    · unfold trmmRTileBottom Blast.trmmRTileBottom
      rw [off_col hB hBs hi, pure_bind', off_both_eq hA hj hj, pure_bind',
        trmmRP_eq (a := A.off SS j j) (hB.off_col hBs hi) hBs hAf]
      refine bind_congr' rfl (fun r => ?_)
      rw [off_col hB hBs hi, pure_bind', off_both_eq hA hjT hj, pure_bind', gemmAccP_eq (hB.off_col hBs hi) hBs]
      refine bind_congr' rfl (fun r => ?_)
      rw [off_col hC hCs hi, pure_bind', storeP_eq (hC.off_col hCs hi) hCs]

end Trmm

theorem trmmLeftMat_eq {SS TR : Nat} {alpha : V} {uplo : Reg.UpLo} {diag : Bool} {A B C : Mat} (hA : A.p.Al SS)
    (hAs : A.p.so = .columnMajor) (hB : B.p.Al SS) (hBf : VFree B.p) (hC : C.p.Al SS) (hCs : C.p.so = .columnMajor) :
    trmmLeftMat SS TR alpha A uplo diag B C = Blast.trmmLeftMat SS TR alpha A uplo diag B C := by
  refine if_congr Iff.rfl rfl (if_congr Iff.rfl rfl ?_)
  rw [make_eq hA, pure_bind', make_eq hB, pure_bind', make_eq hC, pure_bind', trmmLeftPtr_eq hA hAs hB hBf hC hCs]

theorem trmmRightMat_eq {SS TR : Nat} {alpha : V} {uplo : Reg.UpLo} {diag : Bool} {B A C : Mat} (hB : B.p.Al SS)
    (hBs : B.p.so = .columnMajor) (hA : A.p.Al SS) (hAf : VFree A.p) (hC : C.p.Al SS) (hCs : C.p.so = .columnMajor) :
    trmmRightMat SS TR alpha B A uplo diag C = Blast.trmmRightMat SS TR alpha B A uplo diag C := by
  refine if_congr Iff.rfl rfl (if_congr Iff.rfl rfl ?_)
  rw [make_eq hB, pure_bind', make_eq hA, pure_bind', make_eq hC, pure_bind', trmmRightPtr_eq hB hBs hA hAf hC hCs]

/-! ### LU -/

theorem vunal_eq {SS : Nat} {x : VPtr} (h : x.Al SS) : (vunal SS x : Prog V VPtr) = pure (x.unal SS) := by
  refine vmake_eq ?_
  cases x with
  | rowcol p tf => exact p.al_unal
  | vec st al p s => exact ⟨h.1, fun ha => by cases ha⟩

theorem vunal_colAl {SS : Nat} {x : VPtr} (h : x.Al SS) : ∀ i : Int, ((x.unal SS).off SS i).Al SS := by
  intro i
  cases x with
  | rowcol p tf => cases tf <;> exact MPtr.Al.of_unaligned p.unal_aligned
  | vec st al p s => exact ⟨h.1, fun ha => by cases ha⟩

theorem vderef_eq {SS : Nat} {x : VPtr} (h : x.Al SS) {i : Nat} : (vderef SS x i : Prog V V) = Blast.vderef SS x i := by
  unfold vderef voff
  rw [vunal_eq h, pure_bind', vmake_eq (vunal_colAl h _)]
  rfl

theorem vassign_eq {SS : Nat} {x : VPtr} (h : x.Al SS) {i : Nat} {v : V} : vassign SS x i v = Blast.vassign SS x i v := by
  unfold vassign voff
  rw [vunal_eq h, pure_bind', vmake_eq (vunal_colAl h _)]
  rfl

theorem iamaxPtr_eq {SS n : Nat} {x : VPtr} (h : x.Al SS) (hn : 0 < n) : (iamaxPtr SS n x : Prog V Nat) = Blast.iamaxPtr SS n x := by
  unfold iamaxPtr Blast.iamaxPtr
  rw [assert_true (by simpa using hn), pure_bind']
  refine bind_congr' rfl (fun v0 => bind_congr' (foldN_congr (fun k _ s => ?_)) (fun _ => rfl))
  beta_reduce
  rw [vderef_eq h]

theorem iamaxVec_eq {SS : Nat} {x : VArg} (h : x.p.Al SS) : (iamaxVec SS x : Prog V Nat) = Blast.iamaxVec SS x := by
  unfold iamaxVec Blast.iamaxVec
  by_cases hn : x.n = 0
  · rw [if_pos hn, if_pos hn]
  · rw [if_neg hn, if_neg hn, vmake_eq h, pure_bind', iamaxPtr_eq h (by omega)]

theorem swapPtr_eq {SS n : Nat} {x y : VPtr} (hx : x.Al SS) (hy : y.Al SS) : (swapPtr SS n x y : Prog V Unit) = Blast.swapPtr SS n x y := by
  refine forN_congr (fun i _ => ?_)
  rw [vderef_eq hx, vderef_eq hy]
  refine bind_congr' rfl (fun t => bind_congr' rfl (fun u => ?_))
  rw [vassign_eq hx, vassign_eq hy]

theorem swapVec_eq {SS : Nat} {x y : VArg} (hx : x.p.Al SS) (hy : y.p.Al SS) : (swapVec SS x y : Prog V Unit) = Blast.swapVec SS x y := by
  refine if_congr Iff.rfl rfl (if_congr Iff.rfl ?_ rfl)
  rw [vmake_eq hx, pure_bind', vmake_eq hy, pure_bind', swapPtr_eq hx hy]

theorem row_al {SS : Nat} {p : MPtr} (h : p.Al SS) : (row p).Al SS := h
theorem column_al {SS : Nat} {p : MPtr} (h : p.Al SS) : (column p).Al SS := h

theorem laswp_eq {SS n : Nat} {A : MPtr} {k0 k1 : Nat} {ipiv : Nat → Nat} :
    (laswp SS n A k0 k1 ipiv : Prog V Unit) = Blast.laswp SS n A k0 k1 ipiv := by
  have hu : ∀ i j : Int, ((A.unal SS).off SS i j).Al SS := fun i j => MPtr.Al.of_unaligned A.unal_aligned
  refine forFrom_congr (fun k => onlyIf_congr (fun _ => ?_))
  rw [unal_eq, pure_bind', off_unal A.unal_aligned, pure_bind', off_unal A.unal_aligned, pure_bind']
  exact swapVec_eq (hu _ _) (hu _ _)

theorem derefAt_eq {SS : Nat} {p : MPtr} {i j : Nat} : (derefAt SS p i j : Prog V V) = Blast.derefAt SS p i j := by
  unfold derefAt
  rw [unal_eq, pure_bind', off_unal p.unal_aligned, pure_bind']
  rfl

theorem assignAt_eq {SS : Nat} {p : MPtr} {i j : Nat} {v : V} : assignAt SS p i j v = Blast.assignAt SS p i j v := by
  unfold assignAt
  rw [unal_eq, pure_bind', off_unal p.unal_aligned, pure_bind']
  rfl

theorem getf2Step_eq {SS TR m n : Nat} {A : MPtr} (hs : A.so = .columnMajor) {k : Nat} {ipiv : Nat → Nat} (hk : k < m) :
    (getf2Step SS TR m n A k ipiv : Prog V (Nat → Nat)) = Blast.getf2Step SS TR m n A k ipiv := by
  have hu : ∀ i j : Int, ((A.unal SS).off SS i j).Al SS := fun i j => MPtr.Al.of_unaligned A.unal_aligned
  have hf : (A.unal SS).aligned = false := A.unal_aligned
  have hus : (A.unal SS).so = .columnMajor := (MPtr.unal_so A).trans hs
  unfold getf2Step Blast.getf2Step
  rw [unal_eq, pure_bind', off_unal hf, pure_bind', iamaxPtr_eq (column_al (hu _ _)) (by omega)]
  refine bind_congr' rfl (fun r => ?_)
  dsimp only
  refine bind_congr' (onlyIf_congr (fun _ => ?_)) (fun _ => ?_)
  · rw [off_unal hf, pure_bind', off_unal hf, pure_bind']
    exact swapPtr_eq (hu _ _) (hu _ _)
  · rw [derefAt_eq]
    refine bind_congr' rfl (fun d => if_congr Iff.rfl rfl ?_)
    refine bind_congr' (forFrom_congr (fun i => ?_)) (fun _ => ?_)
    · rw [derefAt_eq]
      exact bind_congr' rfl (fun x => bind_congr' rfl (fun d => assignAt_eq))
    · refine bind_congr' (onlyIf_congr (fun _ => ?_)) (fun _ => rfl)
      rw [off_unal hf, pure_bind', off_unal hf, pure_bind', off_unal hf, pure_bind', pure_bind']
      exact gerPtr_eq (x := column ((A.unal SS).off SS (k + 1 : Nat) k)) (y := row ((A.unal SS).off SS k (k + 1 : Nat)))
        ⟨hu _ _, Or.inr hf⟩ ⟨hu _ _, Or.inr hf⟩ (hu _ _) hus (hu _ _) hus

theorem getf2Ptr_eq {SS TR m n : Nat} {A : MPtr} (hs : A.so = .columnMajor) {ipiv : Nat → Nat} :
    (getf2Ptr SS TR m n A ipiv : Prog V (Nat → Nat)) = Blast.getf2Ptr SS TR m n A ipiv :=
  foldN_congr (fun k hk ipiv => getf2Step_eq hs (by omega))

theorem getrfStep_eq {SS TR M N : Nat} {A : MPtr} (hA : A.Al SS) (hs : A.so = .columnMajor) {k : Nat} {ipiv : Nat → Nat}
    (hk : k % (TR * SS) = 0) :
    (getrfStep SS TR M N A k ipiv : Prog V (Nat → Nat)) = Blast.getrfStep SS TR M N A k ipiv := by
  have hf : (A.unal SS).aligned = false := A.unal_aligned
  have hkT : (((k + TR * SS : Nat) : Int)) % (SS : Int) = 0 := emod_of_tile (TR := TR) (by rw [Nat.add_mod_right]; exact hk)
  have hk := emod_of_tile hk
  unfold getrfStep Blast.getrfStep
  rw [unal_eq, pure_bind', off_unal hf, pure_bind', getf2Ptr_eq (A := (A.unal SS).off SS k k) ((MPtr.unal_so A).trans hs)]
  refine bind_congr' rfl (fun p => ?_)
  dsimp only
  refine bind_congr' laswp_eq (fun _ => bind_congr' laswp_eq (fun _ => bind_congr' rfl (fun _ => ?_)))
  rw [off_col hA hs hkT, pure_bind', off_col hA hs hk, pure_bind', off_col hA hs hkT, pure_bind', pure_bind',
    gemmPtr_eq (hA.off_col hs hkT) hs (hA.off_col hs hkT) hs (hA.off_col hs hkT) hs]

theorem loopS_bind_congr {σ α : Type} {fuel : Nat} {c : Nat → Bool} {step : Nat} {b b' : Nat → σ → Prog V σ} {i : Nat} {s : σ}
    {k k' : Nat × σ → Prog V α} (I : Nat → Prop) (h0 : I i) (hs : ∀ i, I i → I (i + step))
    (hb : ∀ i s, I i → b i s = b' i s) (hk : ∀ i s, I i → k (i, s) = k' (i, s)) :
    (loopS fuel c step b i s >>= k) = (loopS fuel c step b' i s >>= k') := by
  induction fuel generalizing i s with
  | zero => rfl
  | succ n ih =>
    unfold loopS
    by_cases hc : c i = true
    · rw [if_pos hc, if_pos hc, bind_assoc', bind_assoc', hb i s h0]
      exact bind_congr' rfl (fun s => ih (hs i h0))
    · rw [if_neg hc, if_neg hc]
      exact hk i s h0

theorem getrfPtr_eq {SS TR M N : Nat} {A : MPtr} (hA : A.Al SS) (hs : A.so = .columnMajor) {ipiv : Nat → Nat} :
    (getrfPtr SS TR M N A ipiv : Prog V (Nat → Nat)) = Blast.getrfPtr SS TR M N A ipiv := by
  unfold getrfPtr Blast.getrfPtr
  rw [make_eq hA, pure_bind']
  refine loopS_bind_congr (fun k => k % (TR * SS) = 0) (Nat.zero_mod _) (fun k hk => by rw [Nat.add_mod_right]; exact hk)
    (fun k ip hk => getrfStep_eq hA hs hk) (fun k ip hk => ?_)
  dsimp only
  refine bind_congr' (if_congr Iff.rfl ?_ rfl) (fun ip => bind_congr' laswp_eq (fun _ => rfl))
  rw [off_col hA hs (emod_of_tile hk), pure_bind', getf2Ptr_eq (A := A.off SS k k) hs]

end Checked
end Blast
