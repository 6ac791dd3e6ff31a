import Verif.ParametricLu
import Verif.Props.Parametric
/- Concrete cases meeting the hypotheses of these theorems: Verif/Cases/FlushLu.lean. -/
/-
C99 for the column-major LU factorizations, where the comparisons respect the relation only for some numbers (G), and all numbers that the first run leaves in the
matrix are in G.
-/
set_option linter.unusedSectionVars false
namespace Blast
open Prog Reg
variable {V W : Type} [Arith V] [Arith W] {R : V → W → Prop} {G : V → Prop}

/-- the run ends, and all elements it leaves in A are in G -/
def EndsIn (G : V → Prop) (SS : Nat) (p : Prog V (Nat → Nat)) (m : Mem V) (A : Container) : Prop :=
  ∃ r m' t, Ends p m r m' ∧ Contains SS m' A t ∧ ∀ i j, i < A.rows → j < A.cols → G (t i j)

theorem luEnds_fst {SS : Nat} {A : Container} {p : Prog V (Nat → Nat)} {m : Mem V} {r : (Nat → Nat → V) × Option (Nat → Nat)} (h : LuEnds SS A p m r)
    {e : Except Exn (Nat → Nat)} {m' : Mem V} (he : Ends p m e m') : Contains SS m' A r.1 := by
  obtain ⟨r1, r2⟩ := r
  obtain ⟨m1, e0, e1, -⟩ := h
  cases r2 with
  | none =>
    change p m = .throw .invalidArgument m1 at e0
    cases e with
    | ok v => change p m = .ok v m' at he; rw [e0] at he; cases he
    | error x => change p m = .throw x m' at he; rw [e0] at he; cases he; exact e1
  | some q =>
    change p m = .ok q m1 at e0
    cases e with
    | ok v => change p m = .ok v m' at he; rw [e0] at he; cases he; exact e1
    | error x => change p m = .throw x m' at he; rw [e0] at he; cases he

theorem EndsIn.good {SS : Nat} {A : Container} {p : Prog V (Nat → Nat)} {m : Mem V} {r : (Nat → Nat → V) × Option (Nat → Nat)} (h : EndsIn G SS p m A)
    (hr : LuEnds SS A p m r) : GoodIn G A.rows A.cols r.1 := by
  obtain ⟨e, m1, t, he, ht1, ht2⟩ := h
  have hc := luEnds_fst hr he
  exact fun i j hi hj => by rw [← Option.some.inj ((ht1 i j hi hj).symm.trans (hc i j hi hj))]; exact ht2 i j hi hj

theorem LuEnds.relatedIn {SS SS' : Nat} {m : Mem V} {n : Mem W} {A A' : Container} {p : Prog V (Nat → Nat)} {q : Prog W (Nat → Nat)}
    {r : (Nat → Nat → V) × Option (Nat → Nat)} {r' : (Nat → Nat → W) × Option (Nat → Nat)} (h : LuEnds SS A p m r) (h' : LuEnds SS' A' q n r')
    (e : r.2 = r'.2 ∧ RelIn R A.rows A.cols r.1 r'.1) : RelResult R Every SS p m A SS' q n A' := by
  obtain ⟨r1, r2⟩ := r
  obtain ⟨r1', r2'⟩ := r'
  obtain ⟨rfl, e⟩ := e
  obtain ⟨m', e0, e1, -⟩ := h
  obtain ⟨n', f, f1, -⟩ := h'
  cases r2 with
  | none => exact ⟨.error .invalidArgument, m', n', _, _, e0, f, e1, f1, fun i j hi hj _ => e i j hi hj⟩
  | some p => exact ⟨.ok p, m', n', _, _, e0, f, e1, f1, fun i j hi hj _ => e i j hi hj⟩

/-- **C99** (getf2, column-major, comparisons that respect the relation only where G holds). -/
theorem C99_getf2_where (o : OpRel R) (b : Backward G) (c : CmpWhere R G) {SS SS' : Nat} (hSS : 0 < SS) (hSS' : 0 < SS') {m : Mem V} {n : Mem W} {A A' : Container}
    (hd : A.isPanel = false) (hs : A.so = .columnMajor) (hl : Live SS m A) (hd' : A'.isPanel = false) (hs' : A'.so = .columnMajor) (hl' : Live SS' n A')
    (hA : SameSize A A') {a : Nat → Nat → V} {a' : Nat → Nat → W} (ha : Contains SS m A a) (ha' : Contains SS' n A' a') (hra : RelElems R A a a') (ip : Nat → Nat)
    (hG : EndsIn G SS (getf2Ptr SS 1 A.rows A.cols (A.mptr SS) ip) m A) :
    RelResult R Every SS (getf2Ptr SS 1 A.rows A.cols (A.mptr SS) ip) m A SS' (getf2Ptr SS' 1 A'.rows A'.cols (A'.mptr SS') ip) n A' := by
  haveI := Fact.mk o
  haveI := Fact.mk b
  haveI := Fact.mk c
  have k1 := det_getf2 hSS hd hs hl ha ip
  have k2 := det_getf2 hSS' hd' hs' hl' ha' ip
  refine k1.relatedIn k2 ?_
  rw [hA.1, hA.2]
  exact (where_luFull (G := G) hra ip _ (Nat.min_le_left _ _) (Nat.min_le_right _ _) (hG.good k1)).2

/-- **C99** (getf2, row-major, comparisons that respect the relation only where G holds); `dv`, `dv'`: the divisions. -/
theorem C99_getf2_row_major_where (o : OpRel R) (b : Backward G) (c : CmpWhere R G) {SS SS' : Nat} (hSS : 0 < SS) (hSS' : 0 < SS') (dv : V → V → V) (dv' : W → W → W)
    (hdv : ∀ {x x' y y'}, R x x' → R y y' → R (dv x y) (dv' x' y')) (hb : ∀ {x y}, G (dv x y) → G x) {m : Mem V} {n : Mem W} {A A' : Container}
    (hd : A.isPanel = false) (hd' : A'.isPanel = false) (hA : SameSize A A') {a : Nat → Nat → V} {a' : Nat → Nat → W} (ha : Contains SS m A a)
    (ha' : Contains SS' n A' a') (hra : RelElems R A a a') (ip : Nat → Nat) (hG : EndsIn G SS (getf2Row SS dv (A.mat SS) ip) m A) :
    RelResult R Every SS (getf2Row SS dv (A.mat SS) ip) m A SS' (getf2Row SS' dv' (A'.mat SS') ip) n A' := by
  haveI := Fact.mk o
  haveI := Fact.mk b
  haveI := Fact.mk c
  have k1 := det_getf2Row hSS dv hd ha ip
  have k2 := det_getf2Row hSS' dv' hd' ha' ip
  refine k1.relatedIn k2 ?_
  rw [hA.1, hA.2]
  exact (where_luFullG (G := G) (dv := dv) (dv' := dv') (upd := updRow) (upd' := updRow) hb (fun h => b.add h) hdv
    (fun h1 h2 h3 => o.add h3 (o.mul (o.mul (o.neg o.one) h1) h2)) ip hra _ (Nat.min_le_left _ _) (Nat.min_le_right _ _) (hG.good k1)).2

/-- **C99** (getrf, column-major, comparisons that respect the relation only where G holds). -/
theorem C99_getrf_where (o : OpRel R) (b : Backward G) (c : CmpWhere R G) {SS : Nat} (hSS : 0 < SS) {m : Mem V} {n : Mem W} {A A' : Container}
    (hd : A.isPanel = false) (hs : A.so = .columnMajor) (hl : Live SS m A) (hd' : A'.isPanel = false) (hs' : A'.so = .columnMajor) (hl' : Live SS n A')
    (hA : SameSize A A') {a : Nat → Nat → V} {a' : Nat → Nat → W} (ha : Contains SS m A a) (ha' : Contains SS n A' a') (hra : RelElems R A a a') (ip : Nat → Nat)
    (hG : EndsIn G SS (getrfPtr SS 1 A.rows A.cols (A.mptr SS) ip) m A) :
    RelResult R Every SS (getrfPtr SS 1 A.rows A.cols (A.mptr SS) ip) m A SS (getrfPtr SS 1 A'.rows A'.cols (A'.mptr SS) ip) n A' := by
  haveI := Fact.mk o
  haveI := Fact.mk b
  haveI := Fact.mk c
  have k1 := det_getrf hSS hd hs hl ha ip
  have k2 := det_getrf hSS hd' hs' hl' ha' ip
  refine k1.relatedIn k2 ?_
  rw [hA.1, hA.2]
  exact where_getrfFull (G := G) hra ip (hG.good k1)

end Blast
