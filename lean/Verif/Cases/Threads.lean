import Verif.Cases.Ger
import Verif.Cases.Trmm
import Verif.Cases.Potrf
import Verif.Props.Threads
/- Concrete cases for the theorems of `Verif/Props/Threads.lean`. -/
set_option linter.unusedSectionVars false
namespace Blast

example := C70_ger (2 : Rat) ger_case
example := C70_syrk (2 : Rat) 3 syrk_case
example := C70_trmm_left (2 : Rat) trmmL_case lit
example := C70_trmm_right (2 : Rat) trmmR_case lit
example := C70_potrf_panel pan_args lit pan_fits
example := C70_potrf_dense chol_args lit chol_fits'
example := C70_gemm (1 : Rat) 1 (SS := 4) (m := demoMem) (A := ⟨.dynDense, .columnMajor, 5, 6, 0⟩) (B := ⟨.statPanel, .rowMajor, 6, 3, 100⟩) (C := ⟨.dynDense, .columnMajor, 5, 3, 200⟩)
  (D := ⟨.dynDense, .columnMajor, 5, 3, 300⟩)
  ⟨by decide, rfl, rfl, rfl, memOf_live lit lit lit, memOf_live lit lit lit, memOf_live lit lit lit, memOf_live lit lit lit, apart_of lit, apart_of lit, Or.inr (apart_of lit)⟩
example := C70_getf2 (SS := 4) (m := demoMem) (by decide) (A := ⟨.statDense, .columnMajor, 5, 7, 0⟩) rfl rfl (memOf_live lit lit lit) id
example := C70_getf2_row_major (SS := 4) (by decide) (· / ·) (m := demoMem) (A := ⟨.statDense, .rowMajor, 5, 7, 0⟩) rfl (memOf_live lit lit lit) id
example := C70_getrf (SS := 4) (by decide) (m := demoMem) (A := ⟨.dynDense, .columnMajor, 9, 6, 0⟩) rfl rfl (memOf_live lit lit lit) id
example := C70_laswp (SS := 4) (k0 := 1) (k1 := 4) (by decide) (m := demoMem) (A := ⟨.dynDense, .rowMajor, 9, 6, 0⟩) rfl (memOf_live lit lit lit) (by decide) (by decide)
  (ipiv := fun q => 8 - q) (fun q _ _ => by show 8 - q < 9; omega)
example := C70_trsm (SS := 4) (m := demoMem) (A := ⟨.statPanel, .rowMajor, 5, 5, 0⟩) (B := ⟨.dynDense, .rowMajor, 5, 3, 200⟩)
  (X := ⟨.dynPanel, .columnMajor, 5, 3, 400⟩) .upper false
  ⟨by decide, memOf_live lit lit lit, memOf_live lit lit lit, memOf_live lit lit lit, apart_of lit, Or.inr (apart_of lit)⟩

/-- three threads sharing two inputs, with the trees of `C70_threads`: any schedule, and any two complete schedules -/
example : ∃ t : Fin 3 → Tree Rat Unit, (∀ i, Runnable (threadWitS i) (threadWitW i) (potrfOnes 80) (threadWit i) (t i)) ∧
    (∀ s : List (Fin 3), ∀ a ∈ Pool.trace ⟨t, potrfOnes 80⟩ s, ∀ b ∈ Pool.trace ⟨t, potrfOnes 80⟩ s, ¬ Conflict a b) ∧
    ∀ s s' : List (Fin 3), (∀ i, ((Pool.run ⟨t, potrfOnes 80⟩ s).thread i).done = true) → (∀ i, ((Pool.run ⟨t, potrfOnes 80⟩ s').thread i).done = true) →
      (Pool.run ⟨t, potrfOnes 80⟩ s).mem = (Pool.run ⟨t, potrfOnes 80⟩ s').mem := by
  have h : ∀ i, ∃ t, Runnable (threadWitS i) (threadWitW i) (potrfOnes 80) (threadWit i) t := by
    intro i
    obtain ⟨t, h1, h2⟩ := (threadWit_safe i).acc
    exact ⟨t, (threadWit_safe i).uses, h1, h2⟩
  refine ⟨fun i => (h i).choose, fun i => (h i).choose_spec, fun s => (C70_concurrent (fun i => (h i).choose_spec) threadWit_apart s).1, fun s s' hs hs' => ?_⟩
  exact (C70_schedule_independent (fun i => (h i).choose_spec) threadWit_apart hs hs').2

theorem UsesOnly.domain {V α : Type} {S W : Int → Prop} {p : Prog V α} {m m1 : Mem V} {a : α} (h : UsesOnly S W p m) (hr : p m = .ok a m1) (x : Int) :
    (m1 x).isSome = (m x).isSome := by
  obtain ⟨r, out, h1, h2⟩ := h.run
  have h3 := h2 m (fun _ _ => rfl)
  cases r with
  | error e =>
    have h3 : p m = .throw e _ := h3
    rw [hr] at h3; cases h3
  | ok a =>
    have h3 : p m = .ok a _ := h3
    rw [hr] at h3
    injection h3 with _ h3
    rw [h3]
    by_cases hw : W x
    · rw [overlay_of hw]; exact h1 x hw
    · rw [overlay_not hw]

theorem seq_args {m1 : Mem Rat} (hm : ∀ x, (m1 x).isSome = (potrfOnes 80 x).isSome) : TrsmArgs 4 m1 (frameWitC 0) (frameWitC 2) (frameWitC 4) := by
  have hl : ∀ k < 5, Live 4 m1 (frameWitC k) := fun k hk =>
    ⟨(frameWit_live (k := k) hk).1, fun x hx => by rw [hm]; exact (frameWit_live (k := k) hk).2 x hx⟩
  exact ⟨by decide, hl 0 (by decide), hl 2 (by decide), hl 4 (by decide), frameWit_apart (by decide), Or.inr (frameWit_apart (by decide))⟩

/-- one thread that makes two calls: gemm and then, with its result as the right-hand side, a triangular solve -/
example := C70_sequence (threadWit_safe 0) (q := fun _ => trsmCall 4 .lower true (frameWitC 0) (frameWitC 2) (frameWitC 4)) (W' := IsElem 4 (frameWitC 4))
  (S' := fun x => (frameWitC 0).Storage 4 x ∨ (frameWitC 2).Storage 4 x ∨ (frameWitC 4).Storage 4 x)
  (fun _ hx => Or.inr (Or.inr (IsElem.storage (SS := 4) (by decide) hx)))
  (fun _ => (C70_trsm .lower true (seq_args (fun _ => rfl))).acc)
  (fun _ _ h => (C70_trsm .lower true (seq_args (UsesOnly.domain (threadWit_safe 0).uses h))).uses)
end Blast
