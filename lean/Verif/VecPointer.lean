import Verif.Pointer
/-
Vector pointers.

Models /repo/include/blast/math/RowColumnVectorPointer.hpp and
/repo/include/blast/math/dense/{Dynamic,Static}VectorPointer.hpp.
-/
set_option linter.unusedSectionVars false
namespace Blast
open Prog
variable {V : Type} [Arith V]

/-- Vector pointers: `rowcol` is RowColumnVectorPointer<MP, TF> (RowColumnVectorPointer.hpp:16-168);
`vec isStatic aligned ptr spacing` is StaticVectorPointer (isStatic = true) or DynamicVectorPointer. -/
inductive VPtr where
  | rowcol (p : MPtr) (tf : TF)
  | vec (isStatic aligned : Bool) (ptr spacing : Int)

namespace VPtr

/-- `operator()(i)`: RowColumnVectorPointer.hpp:103-106, DynamicVectorPointer.hpp:111-114. -/
def off (SS : Nat) (x : VPtr) (i : Int) : VPtr :=
  match x with
  | rowcol p .columnVector => rowcol (p.off SS i 0) .columnVector
  | rowcol p .rowVector => rowcol (p.off SS 0 i) .rowVector
  | vec st al p s => vec st al (p + i * s) s

/-- address of `x[i]`: RowColumnVectorPointer.hpp:116-119, DynamicVectorPointer.hpp:124-127. -/
def addr (SS : Nat) (x : VPtr) (i : Int) : Int :=
  match x with
  | rowcol p .columnVector => p.addr SS i 0
  | rowcol p .rowVector => p.addr SS 0 i
  | vec _ _ p s => p + i * s

/-- `operator~`: RowColumnVectorPointer.hpp:136-139, DynamicVectorPointer.hpp:155-158. -/
def unal (SS : Nat) (x : VPtr) : VPtr :=
  match x with
  | rowcol p tf => rowcol (p.unal SS) tf
  | vec st _ p s => vec st false p s

/-- `load()`: RowColumnVectorPointer.hpp:59-62 (noexcept), DynamicVectorPointer.hpp:52-61 (gather),
StaticVectorPointer.hpp:47-62 (SIMD load when the spacing is 1, gather otherwise). -/
def load (SS : Nat) (x : VPtr) : Prog V (Vec V) :=
  match x with
  | rowcol p tf => noexcept (p.loadT SS tf)
  | vec st al p s =>
    if st && s == 1 then loadVec SS al p else gather SS (fun _ => true) (fun l => p + s * l)

/-- `load(mask)`: RowColumnVectorPointer.hpp:65-68, DynamicVectorPointer.hpp:64-73, StaticVectorPointer.hpp:65-81. -/
def loadMask (SS : Nat) (x : VPtr) (mask : Nat → Bool) : Prog V (Vec V) :=
  match x with
  | rowcol p tf => noexcept (p.loadTMask SS tf mask)
  | vec _ _ p s => gather SS mask (fun l => p + s * l)

/-- read `x[i]`: operator*: dense/DynamicVectorPointer.hpp:146-149, dense/StaticVectorPointer.hpp:157-160, RowColumnVectorPointer.hpp:127-130 -/
def get (SS : Nat) (x : VPtr) (i : Int) : Prog V V := read (x.addr SS i)

/-- write `x[i] = v`: operator*: dense/DynamicVectorPointer.hpp:135-138, dense/StaticVectorPointer.hpp:146-149, RowColumnVectorPointer.hpp:127-130 -/
def set (SS : Nat) (x : VPtr) (i : Int) (v : V) : Prog V Unit := write (x.addr SS i) v

end VPtr

/-- `column(p)`, RowColumnVectorPointer.hpp:179-200 -/
def column (p : MPtr) : VPtr := .rowcol p .columnVector

/-- `row(p)`, RowColumnVectorPointer.hpp:211-232 -/
def row (p : MPtr) : VPtr := .rowcol p .rowVector

/-- In memory `m`, the `RM` SIMD loads at offsets `0, SS, …` of `x` succeed and give the
values `X 0, X 1, …`. -/
def VPtr.Loads (SS : Nat) (x : VPtr) (m : Mem V) (RM : Nat) (X : Nat → V) : Prop :=
  ∀ i, i < RM → ReadsQ ((x.off SS ((i * SS : Nat) : Int)).load SS) m
    (fun v => ∀ l, l < SS → v l = X (i * SS + l))

/-- In memory `m`, elements `0..n-1` of `x` can be read and are `X 0, …`. -/
def VPtr.Gets (SS : Nat) (x : VPtr) (m : Mem V) (n : Nat) (X : Nat → V) : Prop :=
  ∀ j, j < n → Reads (x.get SS (j : Int)) m (X j)

theorem reads_val {m : Mem V} {x : Int} (h : (m x).isSome = true) : Reads (read x) m (val m x) := by
  cases hm : m x with
  | none => rw [hm] at h; simp at h
  | some v => unfold val; rw [hm]; exact reads_read hm

/-- A column of a column-major matrix read through a pointer at `(I,J)`. -/
theorem column_loads {SS : Nat} (hSS : 0 < SS) {q p : MPtr} {I J : Int} {m : Mem V} {RM : Nat}
    (hw : p.WF SS) (h : MPtr.At SS q p I J) (hs : p.so = .columnMajor)
    (hc : p.panel = true → I % (SS : Int) = 0)
    (hr : ∀ r : Nat, r < RM * SS → (m (p.addr SS (I + r) J)).isSome = true) :
    (column q).Loads SS m RM (fun r => val m (p.addr SS (I + r) J)) := by
  intro i hi
  have hib : i * SS + SS ≤ RM * SS := by
    have := Nat.mul_le_mul_right SS (show i + 1 ≤ RM by omega)
    rw [Nat.add_mul] at this; omega
  have hmod : ((i * SS : Nat) : Int) % (SS : Int) = 0 := by
    rw [Int.natCast_mul]; exact Int.mul_emod_left _ _
  have h2 : MPtr.At SS (q.off SS ((i * SS : Nat) : Int) 0) p (I + ((i * SS : Nat) : Int)) (J + 0) :=
    h.off hSS hw _ _ (fun _ => by unfold MPtr.major; rw [hs]; exact hmod)
  rw [Int.add_zero] at h2
  obtain ⟨v, hv, hv2⟩ := h2.reads_loadT (m := m) hw hs
    (fun hp => by rw [Int.add_emod, hc hp, hmod]; simp)
    (fun l hl => by
      have := hr (i * SS + l) (by omega)
      rw [Int.add_assoc, ← Int.natCast_add]; exact this)
  refine ReadsQ.noexcept ⟨v, hv, ?_⟩
  intro l hl
  rw [hv2 l hl, Int.add_assoc, ← Int.natCast_add]

/-- A row of a matrix read element-wise through a pointer at `(I,J)`. -/
theorem row_gets {SS : Nat} (hSS : 0 < SS) {q p : MPtr} {I J : Int} {m : Mem V} {n : Nat}
    (hw : p.WF SS) (h : MPtr.At SS q p I J)
    (hr : ∀ c : Nat, c < n → (m (p.addr SS I (J + c))).isSome = true) :
    (row q).Gets SS m n (fun c => val m (p.addr SS I (J + c))) := by
  intro j hj
  show Reads (read (q.addr SS 0 (j : Int))) m _
  rw [h.addr hSS hw, Int.add_zero]
  exact reads_val (hr j hj)

end Blast
