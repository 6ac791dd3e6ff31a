import Verif.GetrfSafe
import Verif.Props.Lu
import Verif.Props.Syrk
import Verif.Props.Ger
import Verif.Props.Trmm
import Verif.Props.Potrf
import Verif.Props.TrsmDense
import Verif.Eval
/- Concrete cases meeting the hypotheses of these theorems: Verif/Cases/Frame.lean, and the examples in this file. -/
/-
Property C67: library calls are local. They neither allocate nor free memory, read and write only the storage of their arguments, and calls whose
arguments do not overlap can be made in any order - each does what it would have done alone.
-/
set_option linter.unusedSectionVars false
namespace Blast
open Prog Reg
variable {V : Type}

/-! ### Specification -/

open Classical in
/-- the memory `m` with the cells of `W` replaced by those of `out` -/
noncomputable def overlay (W : Int → Prop) (out m : Mem V) : Mem V := fun x => if W x then out x else m x

/-- `p`, started in `m`, ends in `m'`, returning `r` (`.ok a`) or throwing it (`.error e`) -/
def Ends {α : Type} (p : Prog V α) (m : Mem V) (r : Except Exn α) (m' : Mem V) : Prop :=
  match r with
  | .ok a => p m = .ok a m'
  | .error e => p m = .throw e m'

/-- When the cells of `S` are as in `m`, then `p` uses no other memory and writes only `W`: whatever the other cells contain, and whether they are
allocated at all, `p` ends with the same result, the same contents of `W`, and all other cells as they were. No cell is allocated or freed. -/
structure UsesOnly {α : Type} (S W : Int → Prop) (p : Prog V α) (m : Mem V) : Prop where
  sub : ∀ x, W x → S x
  run : ∃ (r : Except Exn α) (out : Mem V), (∀ x, W x → (out x).isSome = (m x).isSome) ∧
    ∀ m2 : Mem V, (∀ x, S x → m2 x = m x) → Ends p m2 r (overlay W out m2)

/-! ### From the frame property -/

section
variable {α β : Type}

theorem overlay_of {W : Int → Prop} {out m : Mem V} {x : Int} (h : W x) : overlay W out m x = out x := by
  unfold overlay; rw [if_pos h]
theorem overlay_not {W : Int → Prop} {out m : Mem V} {x : Int} (h : ¬ W x) : overlay W out m x = m x := by
  unfold overlay; rw [if_neg h]

theorem onlyAllocated_not {S : Int → Prop} {m : Mem V} {x : Int} (h : ¬ S x) : onlyAllocated S m x = none := by
  unfold onlyAllocated; rw [if_neg h]

theorem onlyAllocated_congr {S : Int → Prop} {m m2 : Mem V} (h : ∀ x, S x → m2 x = m x) : onlyAllocated S m2 = onlyAllocated S m := by
  funext x
  by_cases hx : S x
  · rw [onlyAllocated_of hx, onlyAllocated_of hx, h x hx]
  · rw [onlyAllocated_not hx, onlyAllocated_not hx]

theorem onlyAllocated_join (S : Int → Prop) (m : Mem V) : (onlyAllocated S m).join m = m := by
  funext x
  unfold Mem.join
  by_cases hx : S x
  · rw [onlyAllocated_of hx]; cases m x <;> rfl
  · rw [onlyAllocated_not hx]; rfl

theorem Framed.usesOnly {S W : Int → Prop} {p : Prog V α} (hF : Framed p) (hWS : ∀ x, W x → S x) {m : Mem V}
    (h : RunsE p (onlyAllocated S m) (fun _ m' => ∀ x, ¬ W x → m' x = onlyAllocated S m x)
      (fun _ m' => ∀ x, ¬ W x → m' x = onlyAllocated S m x)) : UsesOnly S W p m := by
  have key : ∀ m' : Mem V, SameDom (onlyAllocated S m) m' → (∀ x, ¬ W x → m' x = onlyAllocated S m x) →
      (∀ x, W x → (m' x).isSome = (m x).isSome) ∧ ∀ m2 : Mem V, (∀ x, S x → m2 x = m x) → m'.join m2 = overlay W m' m2 := by
    intro m' hd hf
    refine ⟨fun x hx => by rw [hd x, onlyAllocated_of (hWS x hx)], fun m2 h2 => ?_⟩
    funext x
    unfold Mem.join
    by_cases hx : W x
    · rw [overlay_of hx]
      cases e : m' x with
      | some v => rfl
      | none =>
        have := hd x
        rw [e, onlyAllocated_of (hWS x hx), ← h2 x (hWS x hx)] at this
        cases e2 : m2 x with
        | none => rfl
        | some v => rw [e2] at this; cases this
    · rw [overlay_not hx, hf x hx]
      by_cases hs : S x
      · rw [onlyAllocated_of hs, ← h2 x hs]; cases m2 x <;> rfl
      · rw [onlyAllocated_not hs]; rfl
  rcases h with ⟨a, m', e, hf⟩ | ⟨x, m', e, hf⟩
  · obtain ⟨hd, hj⟩ := hF.ok e
    obtain ⟨k1, k2⟩ := key m' hd hf
    refine ⟨hWS, .ok a, m', k1, fun m2 h2 => ?_⟩
    show p m2 = _
    have := hj m2
    rwa [← onlyAllocated_congr h2, onlyAllocated_join, k2 m2 h2] at this
  · obtain ⟨hd, hj⟩ := hF.thrown e
    obtain ⟨k1, k2⟩ := key m' hd hf
    refine ⟨hWS, .error x, m', k1, fun m2 h2 => ?_⟩
    show p m2 = _
    have := hj m2
    rwa [← onlyAllocated_congr h2, onlyAllocated_join, k2 m2 h2] at this

theorem UsesOnly.of_throw {S W : Int → Prop} {p : Prog V α} (hWS : ∀ x, W x → S x) {m : Mem V} {e : Exn} (h : ∀ m2, p m2 = .throw e m2) :
    UsesOnly S W p m := by
  refine ⟨hWS, .error e, m, fun _ _ => rfl, fun m2 h2 => ?_⟩
  show p m2 = _
  rw [h m2]
  congr 1
  funext x
  by_cases hx : W x
  · rw [overlay_of hx, h2 x (hWS x hx)]
  · rw [overlay_not hx]

end

/-! ### The calls -/

theorem Live.only {SS : Nat} {S : Int → Prop} {m : Mem V} {c : Container} (h : Live SS m c) (hc : ∀ x, c.Storage SS x → S x) :
    Live SS (onlyAllocated S m) c :=
  ⟨h.align, fun x hx => by rw [onlyAllocated_of (hc x hx)]; exact h.alloc x hx⟩

theorem VLive.only {SS : Nat} {S : Int → Prop} {m : Mem V} {v : VObj} (h : VLive SS m v) (hc : ∀ x, v.Storage SS x → S x) :
    VLive SS (onlyAllocated S m) v :=
  ⟨h.align, fun x hx => by rw [onlyAllocated_of (hc x hx)]; exact h.alloc x hx⟩

theorem IsElem.storage {SS : Nat} (hSS : 0 < SS) {c : Container} {x : Int} (h : IsElem SS c x) : c.Storage SS x := by
  obtain ⟨i, j, hi, hj, rfl⟩ := h
  exact c.addr_storage hSS hi hj

/-- **C67** (gemm). Any sizes (inconsistent ones: nothing is accessed), any arithmetic. -/
theorem C67_gemm_uses_only [Arith V] {SS : Nat} {m : Mem V} {A B C D : Container} (alpha beta : V) (h : GemmArgs SS m A B C D) :
    UsesOnly (fun x => A.Storage SS x ∨ B.Storage SS x ∨ C.Storage SS x ∨ D.Storage SS x) (IsElem SS D) (gemmCall SS alpha A B beta C D) m := by
  have hsub : ∀ x, IsElem SS D x → A.Storage SS x ∨ B.Storage SS x ∨ C.Storage SS x ∨ D.Storage SS x :=
    fun x hx => Or.inr (Or.inr (Or.inr (hx.storage h.ss)))
  by_cases hs : GemmSizes A B C D
  · refine (framed_gemmMat ..).usesOnly hsub ?_
    have h' : GemmArgs SS (onlyAllocated (fun x => A.Storage SS x ∨ B.Storage SS x ∨ C.Storage SS x ∨ D.Storage SS x) m) A B C D :=
      ⟨h.ss, h.sA, h.sC, h.sD, h.lA.only (fun _ hx => Or.inl hx), h.lB.only (fun _ hx => Or.inr (Or.inl hx)),
        h.lC.only (fun _ hx => Or.inr (Or.inr (Or.inl hx))), h.lD.only (fun _ hx => Or.inr (Or.inr (Or.inr hx))), h.dA, h.dB, h.dC⟩
    obtain ⟨m', e, f⟩ := C02_gemm_frame alpha beta h' hs
    exact Or.inl ⟨_, m', e, f⟩
  · exact UsesOnly.of_throw hsub (e := .invalidArgument) (fun m2 => by
      unfold gemmCall gemmMat Container.mat
      unfold GemmSizes at hs
      simp only
      by_cases h1 : B.rows ≠ A.cols
      · rw [if_pos h1]; rfl
      · rw [if_neg h1]
        by_cases h2 : C.rows ≠ A.rows ∨ C.cols ≠ B.cols
        · rw [if_pos h2]; rfl
        · rw [if_neg h2]
          by_cases h3 : D.rows ≠ A.rows ∨ D.cols ≠ B.cols
          · rw [if_pos h3]; rfl
          · exfalso; omega)

/-- **C67** (ger). -/
theorem C67_ger_uses_only [Arith V] {SS : Nat} {m : Mem V} {x y : VObj} {A B : Container} (alpha : V) (h : GerArgs SS m x y A B) :
    UsesOnly (fun z => x.Storage SS z ∨ y.Storage SS z ∨ A.Storage SS z ∨ B.Storage SS z) (IsElem SS B) (gerCall SS 1 alpha x y A B) m := by
  have hsub : ∀ z, IsElem SS B z → x.Storage SS z ∨ y.Storage SS z ∨ A.Storage SS z ∨ B.Storage SS z :=
    fun z hz => Or.inr (Or.inr (Or.inr (hz.storage h.ss)))
  have h' : GerArgs SS (onlyAllocated (fun z => x.Storage SS z ∨ y.Storage SS z ∨ A.Storage SS z ∨ B.Storage SS z) m) x y A B :=
    ⟨h.ss, h.sA, h.sB, h.lx.only (fun _ hx => Or.inl hx), h.ly.only (fun _ hx => Or.inr (Or.inl hx)),
      h.lA.only (fun _ hx => Or.inr (Or.inr (Or.inl hx))), h.lB.only (fun _ hx => Or.inr (Or.inr (Or.inr hx))), h.dx, h.dy, h.dA⟩
  refine (framed_gerMat ..).usesOnly hsub ?_
  by_cases hs : GerSizes x y A B
  · obtain ⟨m', h1, h2, h3⟩ := gerPtr_correct (alpha := alpha) (h'.pre hs)
    refine Or.inl ⟨_, m', by rw [← gerCall_sizes hs] at h1; exact h1, fun z hz => h3 z (fun hc => hz ?_)⟩
    obtain ⟨⟨e1, e2⟩, e3, e4⟩ := hs
    rw [← e3, ← e4] at hc
    exact (cells_iff B z).1 hc
  · exact Or.inr ⟨_, _, (C09_ger_size_check alpha h').1 hs, fun _ _ => rfl⟩

theorem IsLowerElem.elem {SS : Nat} {c : Container} {x : Int} (h : IsLowerElem SS c x) : IsElem SS c x := by
  obtain ⟨i, j, hi, hj, _, rfl⟩ := h
  exact ⟨i, j, hi, hj, rfl⟩

/-- **C67** (syrk). -/
theorem C67_syrk_uses_only [Arith V] {SS : Nat} {m : Mem V} {A C D : Container} (alpha beta : V) (h : SyrkArgs SS m A C D) :
    UsesOnly (fun x => A.Storage SS x ∨ C.Storage SS x ∨ D.Storage SS x) (IsLowerElem SS D) (syrkCall SS 1 alpha A beta C D) m := by
  have h' : SyrkArgs SS (onlyAllocated (fun x => A.Storage SS x ∨ C.Storage SS x ∨ D.Storage SS x) m) A C D :=
    ⟨h.ss, h.sA, h.sC, h.sD, h.lA.only (fun _ hx => Or.inl hx), h.lC.only (fun _ hx => Or.inr (Or.inl hx)),
      h.lD.only (fun _ hx => Or.inr (Or.inr hx)), h.dA, h.dC⟩
  refine (framed_syrkMat ..).usesOnly (fun x hx => Or.inr (Or.inr (hx.elem.storage h.ss))) ?_
  by_cases hs : SyrkSizes A C D
  · obtain ⟨m', h1, h2, h3⟩ := syrkPtr_correct (alpha := alpha) (beta := beta) (h'.pre hs)
    refine Or.inl ⟨_, m', by rw [← syrkCall_sizes hs] at h1; exact h1, fun z hz => h3 z (fun i j hi hj hx => hz ?_)⟩
    obtain ⟨⟨e1, e2⟩, e3, e4⟩ := hs
    exact ⟨i, j, by omega, by omega, hj, by rw [Container.addr_eq_mptr]; exact hx⟩
  · exact Or.inr ⟨_, _, (C10_syrk_size_check alpha beta h').1 hs, fun _ _ => rfl⟩

/-- **C67** (trmm, left). -/
theorem C67_trmm_left_uses_only [Arith V] {SS : Nat} {m : Mem V} {A B C : Container} (alpha : V) (h : TrmmLArgs SS m A B C)
    (hs : TrmmLSizes A B C) :
    UsesOnly (fun x => A.Storage SS x ∨ B.Storage SS x ∨ C.Storage SS x) (IsElem SS C) (trmmLeftCall SS 1 alpha A .upper false B C) m := by
  have h' : TrmmLArgs SS (onlyAllocated (fun x => A.Storage SS x ∨ B.Storage SS x ∨ C.Storage SS x) m) A B C :=
    ⟨h.ss, h.sA, h.sC, h.lA.only (fun _ hx => Or.inl hx), h.lB.only (fun _ hx => Or.inr (Or.inl hx)),
      h.lC.only (fun _ hx => Or.inr (Or.inr hx)), h.dA, h.dB, h.pan⟩
  refine (framed_trmmLeftMat ..).usesOnly (fun x hx => Or.inr (Or.inr (hx.storage h.ss))) ?_
  obtain ⟨m', e, f⟩ := C11_trmm_left_frame alpha h' hs
  exact Or.inl ⟨_, m', e, f⟩

/-- **C67** (trmm, right). -/
theorem C67_trmm_right_uses_only [Arith V] {SS : Nat} {m : Mem V} {A B C : Container} (alpha : V) (h : TrmmRArgs SS m B A C)
    (hs : TrmmRSizes B A C) :
    UsesOnly (fun x => A.Storage SS x ∨ B.Storage SS x ∨ C.Storage SS x) (IsElem SS C) (trmmRightCall SS 1 alpha B A .lower false C) m := by
  have h' : TrmmRArgs SS (onlyAllocated (fun x => A.Storage SS x ∨ B.Storage SS x ∨ C.Storage SS x) m) B A C :=
    ⟨h.ss, h.sB, h.sC, h.lA.only (fun _ hx => Or.inl hx), h.lB.only (fun _ hx => Or.inr (Or.inl hx)),
      h.lC.only (fun _ hx => Or.inr (Or.inr hx)), h.dA, h.dB⟩
  refine (framed_trmmRightMat ..).usesOnly (fun x hx => Or.inr (Or.inr (hx.storage h.ss))) ?_
  obtain ⟨m', h1, h2, h3⟩ := trmmRightPtr_correct (alpha := alpha) (h'.pre hs) false (fun hh => Bool.noConfusion hh)
  refine Or.inl ⟨_, m', by rw [← trmmRightCall_sizes hs] at h1; exact h1, fun z hz => h3 z (fun hc => hz ?_)⟩
  obtain ⟨_, e3, e4⟩ := hs
  rw [← e3, ← e4] at hc
  exact (cells_iff C z).1 hc

/-- **C67** (potrf, dense and panel). -/
theorem C67_potrf_dense_uses_only [Arith V] {SS TR : Nat} {m : Mem V} {A L : Container} (h : PotrfArgs SS m A L)
    (hs : PotrfSizes A L) (hf : PotrfFits SS TR 4 A L) :
    UsesOnly (fun x => A.Storage SS x ∨ L.Storage SS x) (L.Storage SS) (potrfDenseCall SS TR A L) m := by
  have h' : PotrfArgs SS (onlyAllocated (fun x => A.Storage SS x ∨ L.Storage SS x) m) A L :=
    ⟨h.ss, h.sA, h.sL, h.lA.only (fun _ hx => Or.inl hx), h.lL.only (fun _ hx => Or.inr hx), h.d⟩
  refine (framed_potrfDenseMat ..).usesOnly (fun x hx => Or.inr hx) ?_
  obtain ⟨m', e, f, _⟩ := C16_potrf_dense_frame h' hs hf
  exact Or.inl ⟨_, m', e, f⟩

theorem C67_potrf_panel_uses_only [Arith V] {SS KN : Nat} {m : Mem V} {A L : Container} (h : PotrfArgs SS m A L)
    (hs : PotrfSizes A L) (hf : PotrfFits SS 1 KN A L) :
    UsesOnly (fun x => A.Storage SS x ∨ L.Storage SS x) (L.Storage SS) (potrfPanelCall SS KN A L) m := by
  have h' : PotrfArgs SS (onlyAllocated (fun x => A.Storage SS x ∨ L.Storage SS x) m) A L :=
    ⟨h.ss, h.sA, h.sL, h.lA.only (fun _ hx => Or.inl hx), h.lL.only (fun _ hx => Or.inr hx), h.d⟩
  refine (framed_potrfPanelMat ..).usesOnly (fun x hx => Or.inr hx) ?_
  obtain ⟨m', e, f, _⟩ := C17_potrf_panel_frame h' hs hf
  exact Or.inl ⟨_, m', e, f⟩

/-- **C67** (getf2, column-major), also when it throws. -/
theorem C67_getf2_uses_only [Arith V] {SS : Nat} (hSS : 0 < SS) {m : Mem V} {A : Container} (hd : A.isPanel = false)
    (hs : A.so = .columnMajor) (hl : Live SS m A) (ip : Nat → Nat) :
    UsesOnly (A.Storage SS) (IsElem SS A) (getf2Ptr SS 1 A.rows A.cols (A.mptr SS) ip) m := by
  have hl' : Live SS (onlyAllocated (A.Storage SS) m) A := hl.only (fun _ hx => hx)
  refine (framed_getf2Ptr ..).usesOnly (fun x hx => hx.storage hSS) ?_
  exact (runs_getf2Ptr (LuPre.of_live hSS hd hs hl').toLuPre (hl'.contains hSS).holds ip).mono
    (fun _ _ ⟨_, _, h⟩ x hx => h.frame x (fun hc => hx ((cells_iff A x).1 hc)))
    (fun _ _ h x hx => h.2.2 x (fun hc => hx ((cells_iff A x).1 hc)))

/-- **C67** (getf2, row-major), also when it throws. -/
theorem C67_getf2_row_major_uses_only [Arith V] {SS : Nat} (hSS : 0 < SS) (dv : V → V → V) {m : Mem V} {A : Container}
    (hd : A.isPanel = false) (hl : Live SS m A) (ip : Nat → Nat) :
    UsesOnly (A.Storage SS) (IsElem SS A) (getf2Row SS dv (A.mat SS) ip) m := by
  have hl' : Live SS (onlyAllocated (A.Storage SS) m) A := hl.only (fun _ hx => hx)
  refine (framed_getf2Row ..).usesOnly (fun x hx => hx.storage hSS) ?_
  exact (runs_getf2Row (A := A.mat SS) hSS dv (by show (A.mptr SS).panel = false; rw [Container.mptr_eq]; exact hd) (A.inj hSS)
    (hl'.contains hSS).holds ip).mono
    (fun _ _ ⟨_, _, h⟩ x hx => h.frame x (fun hc => hx ((cells_iff A x).1 hc)))
    (fun _ _ h x hx => h.2.2 x (fun hc => hx ((cells_iff A x).1 hc)))

/-- **C67** (getrf), also when it throws. -/
theorem C67_getrf_uses_only [Arith V] {SS : Nat} (hSS : 0 < SS) {m : Mem V}
    {A : Container} (hd : A.isPanel = false) (hs : A.so = .columnMajor) (hl : Live SS m A) (ip : Nat → Nat) :
    UsesOnly (A.Storage SS) (IsElem SS A) (getrfPtr SS 1 A.rows A.cols (A.mptr SS) ip) m := by
  have hl' : Live SS (onlyAllocated (A.Storage SS) m) A := hl.only (fun _ hx => hx)
  refine (framed_getrfPtr ..).usesOnly (fun x hx => hx.storage hSS) ?_
  exact (safe_getrfPtr (LuPre.of_live hSS hd hs hl') ip (hl'.contains hSS).holds).mono
    (fun _ _ ⟨_, _, h⟩ x hx => h.frame x (fun hc => hx ((cells_iff A x).1 hc)))
    (fun _ _ h x hx => h.2 x (fun hc => hx ((cells_iff A x).1 hc)))

/-- **C67** (laswp). -/
theorem C67_laswp_uses_only [Arith V] {SS k0 k1 : Nat} (hSS : 0 < SS) {m : Mem V} {A : Container} (hd : A.isPanel = false) (hl : Live SS m A)
    (hk : k0 ≤ k1) (hk1 : k1 ≤ A.rows) {ipiv : Nat → Nat} (hp : ∀ q, k0 ≤ q → q < k1 → ipiv q < A.rows) :
    UsesOnly (A.Storage SS) (IsElem SS A) (laswp SS A.cols (A.mptr SS) k0 k1 ipiv) m := by
  have hl' : Live SS (onlyAllocated (A.Storage SS) m) A := hl.only (fun _ hx => hx)
  refine (framed_laswp ..).usesOnly (fun x hx => hx.storage hSS) ?_
  obtain ⟨m', e, _, f⟩ := C24_laswp hSS (A := A.mptr SS) (by rw [Container.mptr_eq]; exact hd) (hl'.contains hSS).holds (A.inj hSS) hk hk1 hp
  exact Or.inl ⟨_, m', e, fun x hx => f x (fun hc => hx ((cells_iff A x).1 hc))⟩

/-- what a caller of `trsm(A, B, X)` with blast matrices ensures -/
structure TrsmArgs (SS : Nat) (m : Mem V) (A B X : Container) : Prop where
  ss : 0 < SS
  lA : Live SS m A
  lB : Live SS m B
  lX : Live SS m X
  dA : Apart SS A X
  dB : B = X ∨ Apart SS B X

abbrev trsmCall [Arith V] (SS : Nat) (uplo : UpLo) (unit : Bool) (A B X : Container) : Prog V Unit :=
  trsmMat SS uplo unit (A.mat SS) (B.mat SS) (X.mat SS)

/-- trsm on matrix objects, any arithmetic -/
theorem trsmCall_total [Arith V] {SS : Nat} {m : Mem V} {A B X : Container} (uplo : UpLo) (unit : Bool) (h : TrsmArgs SS m A B X)
    (hs : (A.rows = B.rows ∧ A.cols = B.rows) ∧ X.rows = B.rows ∧ X.cols = B.cols) :
    ∃ m', trsmCall SS uplo unit A B X m = .ok () m' ∧ OnlyElemsChange SS m m' X := by
  have e0 : trsmCall SS uplo unit A B X m = trsmPtr SS B.rows B.cols uplo unit (A.mptr SS) (B.mptr SS) (X.mptr SS) m := by
    show trsmMat SS uplo unit (A.mat SS) (B.mat SS) (X.mat SS) m = _
    rw [C27_trsm_size_check]
    exact if_pos hs
  obtain ⟨⟨h1, h2⟩, h3, h4⟩ := hs
  rw [e0, ← h3, ← h4]
  obtain ⟨m', e1, e2⟩ := trsmPtr_total (A := A.mptr SS) (B := B.mptr SS) (X := X.mptr SS) (m := X.rows) (n := X.cols) (mem := m) uplo unit
    (fun i k hi hk => ⟨h.lA.readable h.ss i k (by omega) (by omega), fun ⟨a, b, ha, hb, e⟩ =>
      h.dA.disj h.ss i k a b (by omega) (by omega) (by omega) (by omega) e⟩)
    (h.lX.readable h.ss) (X.inj h.ss)
    (by have := h.lB.readable h.ss; rwa [← h3, ← h4] at this)
    (by
      intro i j i' j' hi hj hi' hj' he
      rcases h.dB with rfl | hd
      · exact B.inj h.ss i j i' j' (by omega) (by omega) (by omega) (by omega) he
      · exact absurd he (hd.disj h.ss i j i' j' (by omega) (by omega) (by omega) (by omega)))
  exact ⟨m', e1, fun x hx => e2 x (fun hc => hx ((cells_iff X x).1 hc))⟩

/-- **C67** (trsm). -/
theorem C67_trsm_uses_only [Arith V] {SS : Nat} {m : Mem V} {A B X : Container} (uplo : UpLo) (unit : Bool) (h : TrsmArgs SS m A B X) :
    UsesOnly (fun x => A.Storage SS x ∨ B.Storage SS x ∨ X.Storage SS x) (IsElem SS X) (trsmCall SS uplo unit A B X) m := by
  have h' : TrsmArgs SS (onlyAllocated (fun x => A.Storage SS x ∨ B.Storage SS x ∨ X.Storage SS x) m) A B X :=
    ⟨h.ss, h.lA.only (fun _ hx => Or.inl hx), h.lB.only (fun _ hx => Or.inr (Or.inl hx)),
      h.lX.only (fun _ hx => Or.inr (Or.inr hx)), h.dA, h.dB⟩
  refine (framed_trsmMat ..).usesOnly (fun x hx => Or.inr (Or.inr (hx.storage h.ss))) ?_
  by_cases hs : (A.rows = B.rows ∧ A.cols = B.rows) ∧ X.rows = B.rows ∧ X.cols = B.cols
  · obtain ⟨m', e, f⟩ := trsmCall_total uplo unit h' hs
    exact Or.inl ⟨_, m', e, f⟩
  · refine Or.inr ⟨.invalidArgument, _, ?_, fun _ _ => rfl⟩
    rw [C27_trsm_size_check]
    exact if_neg hs

/-! ### No call allocates or frees -/

/-- **C67** (no allocation). Whatever the arguments - also overlapping, of inconsistent sizes, not initialized, … - none of these calls changes the
set of allocated memory cells, neither when it returns nor when it throws; and memory that exists in addition does not change what it does and is not
changed. (`Framed` is that statement.) -/
theorem C67_calls_framed [Arith V] (SS TR KN k0 k1 n : Nat) (alpha beta : V) (A B C D : Mat) (x y : VArg) (uplo : UpLo) (diag : Bool) (ipiv : Nat → Nat)
    (dv : V → V → V) (c d : Container) (v : V) :
    Framed (gemmMat SS alpha A B beta C D) ∧ Framed (gerMat SS TR alpha x y A B) ∧ Framed (gerRowMat SS alpha x y A B) ∧
    Framed (syrkMat SS TR alpha A beta C D) ∧ Framed (trmmLeftMat SS TR alpha A uplo diag B C) ∧ Framed (trmmRightMat SS TR alpha B A uplo diag C) ∧
    Framed (trsmMat SS uplo diag A B C : Prog V Unit) ∧ Framed (trsvMat SS uplo A x y : Prog V Unit) ∧
    Framed (potrfDenseMat SS TR A B : Prog V Unit) ∧ Framed (potrfPanelMat SS KN A B : Prog V Unit) ∧
    Framed (getf2Ptr SS TR A.rows A.cols A.p ipiv : Prog V (Nat → Nat)) ∧ Framed (getf2Row SS dv A ipiv) ∧
    Framed (getrfPtr SS TR A.rows A.cols A.p ipiv : Prog V (Nat → Nat)) ∧ Framed (getrfRow SS dv A ipiv) ∧
    Framed (laswp SS n A.p k0 k1 ipiv : Prog V Unit) ∧ Framed (iamaxVec SS x : Prog V Nat) ∧ Framed (swapVec SS x y : Prog V Unit) ∧
    Framed (refGemmMat SS alpha A B beta C D) ∧ Framed (refTrmmLMat SS alpha A uplo diag B C) ∧ Framed (refTrmmRMat SS alpha B A uplo diag C) ∧
    Framed (refTrsmLMat SS A uplo diag B alpha C) ∧ Framed (refTrsmRMat SS B A uplo diag alpha C) ∧
    Framed (assignMat SS c d : Prog V Unit) ∧ Framed (c.assignScalar SS v) ∧ Framed (c.reset SS : Prog V Unit) ∧ Framed (eqMat SS c d : Prog V Bool) := by
  refine ⟨?_, ?_, ?_, ?_, ?_, ?_, ?_, ?_, ?_, ?_, ?_, ?_, ?_, ?_, ?_, ?_, ?_, ?_, ?_, ?_, ?_, ?_, ?_, ?_, ?_, ?_⟩ <;> framed1

/-- what `Framed` says about a call that returns -/
theorem C67_framed_returns {α : Type} {p : Prog V α} (h : Framed p) {m m' : Mem V} {a : α} (e : p m = .ok a m') :
    (∀ z, (m' z).isSome = (m z).isSome) ∧ ∀ f : Mem V, p (fun z => (m z).or (f z)) = .ok a (fun z => (m' z).or (f z)) :=
  h.ok e

/-- what `Framed` says about a call that throws -/
theorem C67_framed_throws {α : Type} {p : Prog V α} (h : Framed p) {m m' : Mem V} {x : Exn} (e : p m = .throw x m') :
    (∀ z, (m' z).isSome = (m z).isSome) ∧ ∀ f : Mem V, p (fun z => (m z).or (f z)) = .throw x (fun z => (m' z).or (f z)) :=
  h.thrown e

/-! ### Calls that do not interfere -/

section
variable {ι : Type} {α : ι → Type}

/-- the calls `P t`, `t ∈ ts`, made one after the other: call `t` ends with `res t` -/
def RunsAll (P : (t : ι) → Prog V (α t)) (res : (t : ι) → Except Exn (α t)) : List ι → Mem V → Mem V → Prop
  | [], m, m' => m' = m
  | t :: ts, m, m' => ∃ m1, Ends (P t) m (res t) m1 ∧ RunsAll P res ts m1 m'

theorem overlay_comm {W W' : Int → Prop} (h : ∀ x, W x → ¬ W' x) (out out' m : Mem V) :
    overlay W out (overlay W' out' m) = overlay W' out' (overlay W out m) := by
  funext x
  by_cases h1 : W x
  · rw [overlay_of h1, overlay_not (h x h1), overlay_of h1]
  · by_cases h2 : W' x
    · rw [overlay_not h1, overlay_of h2, overlay_of h2]
    · rw [overlay_not h1, overlay_not h2, overlay_not h2, overlay_not h1]

/-- **C67** (any order). Calls none of which writes what another one uses can be made in any order: every call ends with the result it has when made
alone, and the final memory is the same. -/
theorem C67_any_order {P : (t : ι) → Prog V (α t)} {S W : ι → Int → Prop} {l : List ι} (hn : l.Nodup) {m : Mem V}
    (h : ∀ t ∈ l, UsesOnly (S t) (W t) (P t) m) (hd : ∀ t ∈ l, ∀ t' ∈ l, t ≠ t' → ∀ x, W t x → ¬ S t' x) :
    ∃ (res : (t : ι) → Except Exn (α t)) (final : Mem V), (∀ t ∈ l, ∃ m1, Ends (P t) m (res t) m1 ∧ ∀ x, W t x → final x = m1 x) ∧
      (∀ x, (∀ t ∈ l, ¬ W t x) → final x = m x) ∧ (∀ l', l'.Perm l → RunsAll P res l' m final) := by
  classical
  have h1 : ∀ t, ∃ (r : Except Exn (α t)) (out : Mem V), t ∈ l → ∀ m2 : Mem V, (∀ x, S t x → m2 x = m x) → Ends (P t) m2 r (overlay (W t) out m2) := by
    intro t
    by_cases ht : t ∈ l
    · obtain ⟨r, out, _, h2⟩ := (h t ht).run
      exact ⟨r, out, fun _ => h2⟩
    · exact ⟨.error .logicError, m, fun hh => absurd hh ht⟩
  choose res out hrun using h1
  let F : Mem V → ι → Mem V := fun m t => overlay (W t) (out t) m
  have hcomm : ∀ t ∈ l, ∀ t' ∈ l, ∀ a, F (F a t) t' = F (F a t') t := by
    intro t ht t' ht' a
    by_cases e : t = t'
    · rw [e]
    · exact overlay_comm (fun x hx hx' => hd t' ht' t ht (Ne.symm e) x hx ((h t ht).sub x hx')) _ _ _
  have hfold_not : ∀ (ts : List ι) (a : Mem V) (x : Int), (∀ t ∈ ts, ¬ W t x) → ts.foldl F a x = a x := by
    intro ts
    induction ts with
    | nil => intros; rfl
    | cons t ts ih =>
      intro a x hx
      rw [List.foldl_cons, ih _ _ (fun t ht => hx t (List.mem_cons_of_mem _ ht))]
      exact overlay_not (hx t List.mem_cons_self)
  have hall : ∀ (ts : List ι), ts.Nodup → (∀ t ∈ ts, t ∈ l) → ∀ a : Mem V, (∀ t ∈ ts, ∀ x, S t x → a x = m x) →
      RunsAll P res ts a (ts.foldl F a) := by
    intro ts
    induction ts with
    | nil => intros; rfl
    | cons t ts ih =>
      intro hnd hsub a ha
      obtain ⟨hnt, hnd'⟩ := List.nodup_cons.1 hnd
      refine ⟨F a t, hrun t (hsub t List.mem_cons_self) a (ha t List.mem_cons_self), ?_⟩
      refine ih hnd' (fun t' ht' => hsub t' (List.mem_cons_of_mem _ ht')) _ (fun t' ht' x hx => ?_)
      have hne : t ≠ t' := fun e => hnt (e ▸ ht')
      show overlay (W t) (out t) a x = m x
      rw [overlay_not (fun hw => hd t (hsub t List.mem_cons_self) t' (hsub t' (List.mem_cons_of_mem _ ht')) hne x hw hx)]
      exact ha t' (List.mem_cons_of_mem _ ht') x hx
  refine ⟨res, l.foldl F m, fun t ht => ⟨F m t, hrun t ht m (fun _ _ => rfl), fun x hx => ?_⟩, fun x hx => hfold_not l m x hx, fun l' hp => ?_⟩
  · have hp : l.Perm (t :: l.erase t) := List.perm_cons_erase ht
    rw [hp.foldl_eq' (fun a ha b hb z => hcomm a ha b hb z) m, List.foldl_cons]
    refine hfold_not _ _ x (fun t' ht' hw => ?_)
    have hm : t' ∈ l := List.mem_of_mem_erase ht'
    have hne : t' ≠ t := fun e => by
      subst e
      exact absurd ht' (by rw [List.Nodup.mem_erase_iff hn]; simp)
    exact hd t' hm t ht hne x hw ((h t ht).sub x hx)
  · rw [← hp.foldl_eq' (fun a ha b hb z => hcomm a (hp.mem_iff.1 ha) b (hp.mem_iff.1 hb) z) m]
    exact hall l' (hp.nodup_iff.2 hn) (fun t ht => hp.mem_iff.1 ht) m (fun _ _ _ _ => rfl)

end

/-! ### A concrete instance: gemm reading A, B and a potrf reading A, into different outputs -/

def frameWitC (k : Nat) : Container := ⟨.statDense, .columnMajor, 4, 4, 16 * k⟩

theorem frameWit_cap (k : Nat) : (frameWitC k).capacity 4 = 16 := by
  simp only [frameWitC, Container.capacity, Container.spacing, Container.majorSize, Container.minorSize, Container.isPanel]
  simp [nextMultiple]

theorem frameWit_live {k : Nat} (hk : k < 5) : Live 4 (potrfOnes 80) (frameWitC k) := by
  refine ⟨by show (16 * (k : Int)) % 4 = 0; omega, fun x hx => ?_⟩
  unfold Container.Storage at hx
  have hc := frameWit_cap k
  rw [hc] at hx
  have hd : (frameWitC k).data = 16 * k := rfl
  unfold potrfOnes
  rw [if_pos (by omega)]; rfl

theorem frameWit_apart {k k' : Nat} (hk : k ≠ k') : Apart 4 (frameWitC k) (frameWitC k') := by
  intro x hx hx'
  unfold Container.Storage at hx hx'
  have hc := frameWit_cap k
  have hc' := frameWit_cap k'
  have hd : (frameWitC k).data = 16 * k := rfl
  have hd' : (frameWitC k').data = 16 * k' := rfl
  omega

/-- two calls with a common input: `gemm(2, A, B, 3, C, C)` and `potrf(A, L)` -/
def frameWitCall : Bool → Prog Rat Unit
  | true => gemmCall 4 2 (frameWitC 0) (frameWitC 1) 3 (frameWitC 2) (frameWitC 2)
  | false => potrfDenseCall 4 1 (frameWitC 0) (frameWitC 3)

example : ∃ res final, ∀ l', l'.Perm [true, false] → RunsAll frameWitCall res l' (potrfOnes 80) final := by
  have hS := fun k => @frameWit_apart k
  obtain ⟨res, final, -, -, h⟩ := C67_any_order (P := frameWitCall) (l := [true, false]) (m := potrfOnes 80)
    (S := fun t => if t = true then fun x => (frameWitC 0).Storage 4 x ∨ (frameWitC 1).Storage 4 x ∨ (frameWitC 2).Storage 4 x ∨ (frameWitC 2).Storage 4 x
      else fun x => (frameWitC 0).Storage 4 x ∨ (frameWitC 3).Storage 4 x)
    (W := fun t => if t = true then IsElem 4 (frameWitC 2) else (frameWitC 3).Storage 4) (by decide)
    (by
      intro t ht
      cases t with
      | true =>
        exact C67_gemm_uses_only 2 3 ⟨by decide, rfl, rfl, rfl, frameWit_live (by decide), frameWit_live (by decide), frameWit_live (by decide),
          frameWit_live (by decide), hS _ (by decide), hS _ (by decide), Or.inl rfl⟩
      | false =>
        exact C67_potrf_dense_uses_only ⟨by decide, rfl, rfl, frameWit_live (by decide), frameWit_live (by decide), Or.inr (hS _ (by decide))⟩
          (by decide) (potrfFits_square (by decide) (Or.inl rfl)))
    (by
      intro t _ t' _ hne x hw hs
      cases t <;> cases t' <;> first | exact absurd rfl hne | skip
      · rcases hs with hs | hs | hs | hs
        · exact hS 3 (k' := 0) (by decide) x hw hs
        · exact hS 3 (k' := 1) (by decide) x hw hs
        · exact hS 3 (k' := 2) (by decide) x hw hs
        · exact hS 3 (k' := 2) (by decide) x hw hs
      · have hw := IsElem.storage (SS := 4) (by decide) hw
        rcases hs with hs | hs
        · exact hS 2 (k' := 0) (by decide) x hw hs
        · exact hS 2 (k' := 3) (by decide) x hw hs)
  exact ⟨res, final, h⟩

/-- the hypotheses matter: a call whose output overlaps an input of another one does not commute with it -/
example : ∃ (p q : Prog Rat Unit) (m m1 m2 : Mem Rat), Framed p ∧ Framed q ∧ (p >>= fun _ => q) m = .ok () m1 ∧
    (q >>= fun _ => p) m = .ok () m2 ∧ m1 ≠ m2 := by
  let u : Container := ⟨.statDense, .columnMajor, 1, 1, 0⟩
  refine ⟨u.assignScalar 4 2, u.assignScalar 4 3, potrfOnes 4, _, _, framed_Container_assignScalar .., framed_Container_assignScalar .., rfl, rfl, ?_⟩
  intro e
  have := congrFun e 0
  revert this
  decide +kernel

end Blast
