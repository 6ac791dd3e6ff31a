import Verif.Props.Gemm
import Verif.Props.Ger
/-
Memories and objects used by the concrete cases in `Verif/Cases`. Each of these modules goes through the theorems of the module of the same name in
`Verif/Props` and applies every one of them to concrete objects: the kernel accepts the application only if the hypotheses hold of them.
-/
set_option linter.unusedSectionVars false
namespace Blast
variable {V : Type}

/-- the cells 0, …, n-1 are allocated and cell x holds `f x` -/
def memOf (n : Int) (f : Int → V) : Mem V := fun x => if 0 ≤ x ∧ x < n then some (f x) else none

theorem memOf_at {n : Int} {f : Int → V} {x : Int} (h1 : 0 ≤ x) (h2 : x < n) : memOf n f x = some (f x) := by
  unfold memOf; rw [if_pos ⟨h1, h2⟩]

theorem demoMem_eq : demoMem = memOf 1000 (fun x => (x : Rat)) := rfl

theorem memOf_live {SS : Nat} {n : Int} {f : Int → V} {c : Container} (h1 : c.data % (SS : Int) = 0) (h2 : 0 ≤ c.data)
    (h3 : c.data + c.capacity SS ≤ n) : Live SS (memOf n f) c := by
  refine ⟨h1, fun x hx => ?_⟩
  unfold Container.Storage at hx
  rw [memOf_at (by omega) (by omega)]; rfl

theorem memOf_vlive {SS : Nat} {n : Int} {f : Int → V} {v : VObj} (h1 : v.data % (SS : Int) = 0) (h2 : 0 ≤ v.data)
    (h3 : v.data + v.capacity SS ≤ n) : VLive SS (memOf n f) v := by
  refine ⟨h1, fun x hx => ?_⟩
  unfold VObj.Storage at hx
  rw [memOf_at (by omega) (by omega)]; rfl

theorem memOf_contains {SS : Nat} (hSS : 0 < SS) {n : Int} {f : Int → V} {c : Container} (h2 : 0 ≤ c.data)
    (h3 : c.data + c.capacity SS ≤ n) : Contains SS (memOf n f) c (fun i j => f (c.addr SS i j)) := by
  intro i j hi hj
  have := c.addr_storage hSS hi hj
  unfold Container.Storage at this
  exact memOf_at (by omega) (by omega)

theorem memOf_vcontains {n : Int} {f : Int → V} {v : VObj} (h2 : 0 ≤ v.data) (h3 : v.data + v.n ≤ n) :
    VContains (memOf n f) v (fun i => f (v.data + i)) := fun i hi => memOf_at (by omega) (by omega)

theorem apart_of {SS : Nat} {c d : Container} (h : c.data + c.capacity SS ≤ d.data) : Apart SS c d := by
  intro x hx hd
  unfold Container.Storage at hx hd
  omega

theorem vapart_of {SS : Nat} {v : VObj} {d : Container} (h : v.data + v.capacity SS ≤ d.data) :
    ∀ z, v.Storage SS z → ¬ d.Storage SS z := by
  intro x hx hd
  unfold VObj.Storage at hx; unfold Container.Storage at hd
  omega

/-- closes the side conditions of the lemmas above for literal objects -/
macro "lit" : term => `(by first | decide | rfl)

end Blast
