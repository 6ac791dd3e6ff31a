import Verif.Mem
/-
Covering a matrix with register tiles.

Models /repo/include/blast/math/algorithm/arch/avx2/Tile.hpp (arch/neon64/Tile.hpp is textually the same
algorithm) and the dispatching function in /repo/include/blast/math/algorithm/Tile.hpp:48-52.
The kernel object `RegisterMatrix<ET, RM*SS, TILE_STEP, SO> ker` passed to the functors is represented by
its number of SIMD rows `RM`; TILE_STEP = 4 (l.49).
-/
namespace Blast
open Prog
variable {V : Type}

/-- `TILE_STEP`, Tile.hpp:48 -/
def tileStep : Nat := 4

/-- `tile_backend<ET, RM*SS, TILE_STEP, SO>(arch, m, n, i, f_full, f_partial)`: Tile.hpp:16-41 -/
def tileBackend (SS RM m n i : Nat) (ff : Nat → Nat → Nat → Prog V Unit)
    (fp : Nat → Nat → Nat → Nat → Nat → Prog V Unit) : Prog V Unit :=
  if i + RM * SS ≤ m then do
    let j ← loop (n + 1) (fun j => j + tileStep ≤ n) tileStep (fun j => ff RM i j) 0
    onlyIf (j < n) (fp RM i j (RM * SS) (n - j))
  else do
    let j ← loop (n + 1) (fun j => j + tileStep ≤ n) tileStep (fun j => fp RM i j (m - i) tileStep) 0
    onlyIf (j < n) (fp RM i j (m - i) (n - j))

/-- One column strip of the column-major traversal: Tile.hpp:59-86 (main part, `right = false`) and
l.95-124 (right side, `right = true`, `kn = n - j` columns). -/
def tileStrip (SS m j kn : Nat) (right : Bool) (ff : Nat → Nat → Nat → Prog V Unit)
    (fp : Nat → Nat → Nat → Nat → Nat → Prog V Unit) : Prog V Unit := do
  let f := fun RM i => if right then fp RM i j (RM * SS) kn else ff RM i j
  let i ← loop (m + 1) (fun i => i + 3 * SS ≤ m && i + 4 * SS != m) (3 * SS) (f 3) 0
  let i ← loop (m + 1) (fun i => i + 2 * SS ≤ m) (2 * SS) (f 2) i
  let i ← loop (m + 1) (fun i => i + 1 * SS ≤ m) (1 * SS) (f 1) i
  onlyIf (i < m) (fp 1 i j (m - i) kn)

/-- `tile<ET, columnMajor>(arch, traversal_order, m, n, f_full, f_partial)`: Tile.hpp:44-138;
`colTraversal` is `traversal_order == columnMajor`. -/
def tile (SS : Nat) (colTraversal : Bool) (m n : Nat) (ff : Nat → Nat → Nat → Prog V Unit)
    (fp : Nat → Nat → Nat → Nat → Nat → Prog V Unit) : Prog V Unit :=
  if colTraversal then do
    let j ← loop (n + 1) (fun j => j + tileStep ≤ n) tileStep
      (fun j => tileStrip SS m j tileStep false ff fp) 0
    onlyIf (j < n) (tileStrip SS m j (n - j) true ff fp)
  else do
    let i ← loop (m + 1) (fun i => i + 2 * SS < m && i + 4 * SS != m) (3 * SS)
      (fun i => tileBackend SS 3 m n i ff fp) 0
    let i ← loop (m + 1) (fun i => i + 1 * SS < m) (2 * SS) (fun i => tileBackend SS 2 m n i ff fp) i
    let _ ← loop (m + 1) (fun i => i + 0 * SS < m) (1 * SS) (fun i => tileBackend SS 1 m n i ff fp) i
    pure ()

/-- A call made by `tile`: kernel with `RM` SIMD rows, tile of `km × kn` elements at `(i,j)`;
`full` tells which functor is called. -/
structure TileCall where
  RM : Nat
  i : Nat
  j : Nat
  km : Nat
  kn : Nat
  full : Bool
  deriving DecidableEq, Repr

/-- the functor call made for a tile -/
def TileCall.exec (ff : Nat → Nat → Nat → Prog V Unit) (fp : Nat → Nat → Nat → Nat → Nat → Prog V Unit)
    (t : TileCall) : Prog V Unit :=
  if t.full then ff t.RM t.i t.j else fp t.RM t.i t.j t.km t.kn

/-! ### The sequence of calls -/

/-- a block of rows: `(start, RM, number of rows)` -/
structure RowBlock where
  i : Nat
  RM : Nat
  km : Nat

/-- column strips `(j, kn)` -/
def strips (n : Nat) : List (Nat × Nat) :=
  (loopIdx (n + 1) (fun j => j + tileStep ≤ n) tileStep 0).map (fun j => (j, tileStep)) ++
  (let j := loopEnd (n + 1) (fun j => j + tileStep ≤ n) tileStep 0
   if j < n then [(j, n - j)] else [])

/-- the row blocks of the column-major tiling: algorithm/arch/avx2/Tile.hpp, algorithm/arch/neon64/Tile.hpp -/
def blocksCol (SS m : Nat) : List RowBlock :=
  let c3 : Nat → Bool := fun i => i + 3 * SS ≤ m && i + 4 * SS != m
  let c2 : Nat → Bool := fun i => i + 2 * SS ≤ m
  let c1 : Nat → Bool := fun i => i + 1 * SS ≤ m
  let i3 := loopEnd (m + 1) c3 (3 * SS) 0
  let i2 := loopEnd (m + 1) c2 (2 * SS) i3
  let i1 := loopEnd (m + 1) c1 (1 * SS) i2
  (loopIdx (m + 1) c3 (3 * SS) 0).map (fun i => ⟨i, 3, 3 * SS⟩) ++
  ((loopIdx (m + 1) c2 (2 * SS) i3).map (fun i => ⟨i, 2, 2 * SS⟩) ++
  ((loopIdx (m + 1) c1 (1 * SS) i2).map (fun i => ⟨i, 1, 1 * SS⟩) ++
  (if i1 < m then [⟨i1, 1, m - i1⟩] else [])))

/-- the row blocks of the row-major tiling: algorithm/arch/avx2/Tile.hpp, algorithm/arch/neon64/Tile.hpp -/
def blocksRow (SS m : Nat) : List RowBlock :=
  let c3 : Nat → Bool := fun i => i + 2 * SS < m && i + 4 * SS != m
  let c2 : Nat → Bool := fun i => i + 1 * SS < m
  let c1 : Nat → Bool := fun i => i + 0 * SS < m
  let i3 := loopEnd (m + 1) c3 (3 * SS) 0
  let i2 := loopEnd (m + 1) c2 (2 * SS) i3
  (loopIdx (m + 1) c3 (3 * SS) 0).map (fun i => ⟨i, 3, min (3 * SS) (m - i)⟩) ++
  ((loopIdx (m + 1) c2 (2 * SS) i3).map (fun i => ⟨i, 2, min (2 * SS) (m - i)⟩) ++
  (loopIdx (m + 1) c1 (1 * SS) i2).map (fun i => ⟨i, 1, min (1 * SS) (m - i)⟩))

/-- The calls made by `tile`, in order. -/
def tileCalls (SS : Nat) (colTraversal : Bool) (m n : Nat) : List TileCall :=
  if colTraversal then
    (strips n).flatMap (fun s => (blocksCol SS m).map (fun b =>
      ⟨b.RM, b.i, s.1, b.km, s.2, b.km == b.RM * SS && s.2 == tileStep⟩))
  else
    (blocksRow SS m).flatMap (fun b => (strips n).map (fun s =>
      ⟨b.RM, b.i, s.1, b.km, s.2, b.km == b.RM * SS && s.2 == tileStep⟩))

end Blast
