# Formal model of mkatliar/blast in Lean 4

## 1. Approach

The code base is a header-only C++ template library. Everything of interest is *logic over arbitrary sizes*: index
arithmetic of storage schemes, blocking (tiling) with remainder branches, SIMD lane masks, triangular iteration orders, in-place
aliasing, pivoting, size checks. The model is one executable Lean function per C++ function (comments cite file and lines), over

* **scalars**: a type `V` with a class `Arith V` of *uninterpreted* operations (zero, one, add, sub, mul, div, neg, sqrt, fma,
  fnma, abs, gt, eq). No law is assumed, so statements about the *exact sequence of operations* (C04, C09_ger_bitwise,
  C10_syrk_bitwise, C13_trmm_right_bitwise, C16, C17 ...) hold for IEEE arithmetic, provided every operation is a function of its
  operands. "Exact arithmetic" statements add a hypothesis that the operations are those of a commutative ring (`ExactRing`), field
  (`ExactField`), ordered field (`ExactOrd`), ordered field with exact square roots (`ExactSqrt`). `Lawful.lean` and `RealArith.lean`
  instantiate them with `Rat` and `Real`, so the hypotheses are satisfiable.
* **memory**: `Mem V = Int → Option V`, a flat element-granular address space, `none` = not allocated. Reading or writing `none`, or
  an aligned SIMD access at an address that is not a multiple of the SIMD width, is the distinct outcome `ub`.
* **outcomes**: `ok result memory | ub | throw exception memory | terminate | diverge`. An exception leaving a `noexcept` function is
  `terminate`. Loops with a general head `for (; cond; i += step)` carry fuel and `diverge` when it runs out, so termination is
  part of each theorem that concludes `ok`.
* **pointers**: one structure `MPtr` for Dynamic/StaticMatrixPointer and Dynamic/StaticPanelMatrixPointer (kind, storage order, aligned
  flag, padded flag, address, spacing); `VPtr` for row/column/vector pointers.

SIMD width `SS`, tile size `TR * SS`, kernel sizes, matrix sizes, spacings and contents are arbitrary in all positive theorems (positivity /
divisibility hypotheses appear where the C++ has `static_assert`s or documented preconditions). On AVX2 the tile size is one SIMD vector
(`TR = 1`), on NEON two (`TR = 2`).

## 2. Trusted base

* Lean's kernel (4.33.0) and the meaning of Lean's logic. No axiom is added, no compiled evaluation is used; witnesses on literals are
  evaluated with `decide +kernel`, i.e. by the kernel.
* **Axioms**: every property theorem depends on a subset of `propext`, `Classical.choice`, `Quot.sound` (Lean's standard
  axioms) and on nothing else. `vcheck` / `#print axioms` list them per theorem.
* The **faithfulness of the model** to the C++ text, function by function. It was written by reading the source, never by running it.
  The correspondence is documented in the comment of each definition.
* The small **specification vocabulary** used in statements: `Contains`, `Holds`, `VHolds`, `IsElem`, `OnlyElemsChange`, `onlyAllocated`
  (`Spec.lean`), `Live`, `Apart`, `Storage` (`Container*.lean`), `Runs`/`Res` (`Mem.lean`), `tri` (`Props/Reference.lean`), `ruL`/`LU`-style
  definitions at the top of `Props/Lu.lean`, `LowerPosDef` (`LinAlg.lean`). They refer to addresses and values only, not to the algorithms.

### Assumptions made by the model (and so by every theorem)

1. *No overflow*: sizes are unbounded naturals, addresses unbounded integers. Exception: the checked panel views (C40), whose `size_t` additions
   wrap modulo 2^64 in the model, because the check itself can be defeated by wrapping (C40_overflow_refuted), the operation counts (C61), and C64,
   which shows when the size computations of the dynamic classes agree with the unbounded model and that they are unsound otherwise.
2. *No floating-point contraction by the compiler*: `v += a * b` in scalar code is modelled as a multiplication followed by an addition.
   `xsimd::fma`/`fnma` are single operations. In exact arithmetic a contracted expression has the same value. In rounded arithmetic, `Contraction.lean` has
   the scalar solves with fused operations and C57_trsm_contracted, C57_trsv_contracted show the same bounds for them; the theorems about rounded arithmetic
   in general hold for every arithmetic satisfying `Rounded`, among them `FlC p`, in which no product is rounded.
   The build recommended by the library (cmake/InitialCache.cmake:2-3) even has `-ffast-math`. `FastMath.lean` evaluates the sums of the scalar loops in every order and
   grouping, and C95 proves their accuracy for all of them. Theorems about NaN and infinities (C74, C76, C85-C89, C91, C92, C94), about the exact bits of a result and about
   reproducibility are theorems about builds without value-changing flags; explicit vector operations are taken to be executed as written in every build.
3. *Evaluation order*: where C++ leaves the order of operand evaluation open, the model reads operands in one order. Reads have no side
   effects, so only the choice of the reported failure could differ.
4. *Debug assertions* `BLAST_USER_ASSERT`/`BLAZE_INTERNAL_ASSERT` do nothing (release build). What they demand appears as hypotheses. The build with
   `BLAST_USER_ASSERT` switched on is modelled separately (`Checked`, `CheckedViews`); C90 proves it equal to the release build for valid arguments.
5. *Address formation* is not checked, only accesses are (C++ also makes far out-of-bounds pointer formation undefined).
6. *Allocation* yields zeroed, SIMD-aligned, previously unallocated cells; it succeeds, except in `AllocFailure` (C96), where any allocation may throw
   `std::bad_alloc`. Only `Lifecycle` (C52) has a heap; there the mismatch of aligned `new[]` with plain `delete[]` is a parameter of the model.
7. *Template dispatch* is resolved by hand: overload resolution, `requires` clauses and type traits are not modelled, except the traits that end up as
   flags of pointers (alignment, padding, storage order, spacing). Code that does not compile is described in comments, not modelled
   (RowColumnVectorPointer::store, masked StaticVectorPointer::store with spacing 1, Submatrix of a MatTransExpr, PanelMatrixRow::at,
   dense/SyrkBackend.hpp, whose template calls members `offset` and `gemm` that pointers and register matrices do not have; it is unused).
   The single-precision instantiations of dense ger, syrkLower and trmm, and so of getf2 and getrf, do not compile either: they
   declare RegisterMatrix<float, 24, 8>, whose 24 (AVX2) or 48 (NEON) registers violate the static_assert of RegisterMatrix.hpp:383. The model
   is generic in the tile height and the SIMD width, so its theorems about these functions apply to double, and to float only as statements about the text.
8. *Blaze*: algorithms of `dense/` take `blaze::DenseMatrix`; it is modelled by its pointer, spacing, size and (where the code asks for it) padding. Blaze
   operations called by the library are modelled by their effect: `row`/`column`/`submatrix` views as pointers to the viewed element, `A /= s` as an
   elementwise update by an arbitrary function `dv` (Blaze may divide or multiply by the reciprocal), `resize(x, n)` only when it is a no-op.
9. `ipiv` is a pure function in the model (its own storage, apart from matrices); the partially written array after an exception is represented only in the models of `LuCatch` (C97), which return it with a flag instead of throwing.
10. `ET(N)`, `ET(-1)` are exact.
11. Which treatment of results below the normal range is in force (gradual underflow or flush-to-zero, assumption of the format, C98) depends on the start-up
    code linked in and is a parameter. Denormals-are-zero is covered for arguments without subnormal numbers, on which it has no effect (C98_daz).

## 3. Modules (lean/Verif)

| module | models |
|---|---|
| `Arith`, `Lawful`, `RealArith`, `LinAlg`, `LuMath` | scalar operations; laws and pure mathematics (no code) |
| `Mem`, `Once`, `Eval` | memory, outcomes, loops and their proof rules; kernel evaluation of witnesses |
| `Simd`, `SimdLoops` | simd/SimdVec, SimdMask, maskload/maskstore and imax of arch/Avx2.hpp and arch/Neon64.hpp |
| `Pointer`, `VecPointer`, `VecObj` | dense and panel matrix pointers, vector pointers, vector objects |
| `RegMat`, `RegLemmas`, `RegLower`, `RegTri` | register_matrix/RegisterMatrix.hpp |
| `Tile`, `TileLemmas`, `RowTiles` | algorithm/Tile.hpp, algorithm/arch/{avx2,neon64}/Tile.hpp; `RowTiles` factors the identical hand-written tiling loops of dense/Ger, dense/Syrk, algorithm/Trmm |
| `Contraction` | the loops of dense/Trsm.hpp and dense/Trsv.hpp with `acc -= a * x` contracted by the compiler; an arithmetic whose products are not rounded |
| `Gemm` | register_matrix/Gemm.hpp, algorithm/Gemm.hpp |
| `Ger`, `Syrk`, `Trmm`, `TrsmDense`, `Potrf`, `Lu`, `LuRow`, `Getrf` | dense/{Ger,Syrk,Trsm,Trsv,Potrf,Iamax,Swap,Laswp,Getf2,Getrf}.hpp, panel/Potrf.hpp, algorithm/Trmm.hpp |
| `Reference` | reference/{Gemm,Ger,Axpy,Trsm,Trmm}.hpp |
| `Container`, `ContainerLemmas` | dense/{Dynamic,Static}Matrix.hpp, panel/{Dynamic,Static}PanelMatrix.hpp, util/NextMultiple.hpp, Matrix.hpp |
| `Views` | views/{Submatrix,Row}.hpp, expressions/{MatTransExpr,PMatTransExpr}.hpp, views/submatrix/Panel.hpp, views/row/Panel.hpp |
| `PanelAssign` | expressions/PanelMatrix.hpp |
| `Lifecycle` | constructors, destructors, copy/move/assignment of the four matrix classes, the heap |
| `DynReg` | `DynamicRegisterMatrix`, comparison of register matrices with matrices |
| `Rounding`, `RoundingBinary` | the standard model of rounded arithmetic and its error calculus; binary arithmetic with p+1 bit significands as an instance |
| `Backward`, `BackwardPotrf` | backward error calculus: the exact value of an expression in terms of its computed result (`Near` with `u/(1-u)`), sums, pivots, Cholesky entries |
| `LuRound`, `GetrfRound` | LU in rounded arithmetic: `LUNear`, growth, the blocked algorithm |
| `Complexity` | bench/Complexity.hpp on `UInt64` |
| `SizeArith` | constructors and element index of the dynamic classes on `UInt64` |
| `Frame` | no new code: locality lemmas for all modelled functions |
| `Threads`, `ThreadsLemmas`, `Access`, `Access2` | programs access by access (`Tree`), their relation to the model functions (`Exec`), threads interleaved by a schedule (`Pool`); a logic for the cells written; the accesses of every algorithm |
| `BlockCalls` | client programs whose operands are submatrices and transposes of objects (`VExpr`), several of one object in one call |
| `History` | client programs: the operations of `Lifecycle` interleaved with calls of randomize, makePositiveDefinite, trmm, syrk, trsm, potrf, getf2, getrf, laswp on the objects; pivot arrays |
| `LuDet`, `Determined` | no new code: what every function computes, as a function of the elements of its arguments, in an uninterpreted arithmetic (also after an exception) |
| `NanProp` | no new code: propagation of NaN through the values of `Determined` |
| `Selection` | no new code: the values of `Determined` on selected rows and columns |
| `Scaling` | no new code: the values of `Determined` for arguments with scaled rows and columns |
| `RoundEven` | binary arithmetic with ties to even (`Fe p`): instance of the rounding model and of exact scaling by ±2^k |
| `MatForm` | no new code: what it means for an object to hold a Mathlib matrix, triangular parts, LU factors, product of interchanges |
| `BlasfeoApi` | blasfeo_api/{Gemm,Trmm,Syrk,SyrkPotrf,Potrf,Vec}.hpp, create_mat/rows/columns/memsize_mat of Mat.hpp: conversion of `size_t` to `int`, order of the arguments; the BLASFEO library is a parameter |
| `Binary` | the arithmetic of `double` and `float` that the code runs on: IEEE 754-2019 binary formats with rounding to nearest even, subnormal numbers, overflow, signed zeros, infinities and NaN (payloads and flags left out); add, sub, mul, div, sqrt, fma, negation, absolute value, comparisons; each format says whether results below the normal range are rounded to subnormal numbers or flushed to zero (before or after rounding; `-ffast-math` start-up code, cmake/InitialCache.cmake:3) |
| `BinarySum` | no new code: the accumulations of gemm, ger, syrk, trmm in `Bin F`: finiteness and error |
| `BinarySolve` | no new code: substitution and Cholesky steps in `Bin F` |
| `BinaryLu`, `BinaryGetrf` | no new code: the elimination steps and block steps of LU in `Bin F`, read backwards: finite factors come from a finite matrix and multiply to it |
| `BinaryLuFinite`, `BinaryLuStuck` | no new code: growth of the elements of LU in `Bin F` (no overflow), and the singular matrix next to a matrix without pivot |
| `BinaryTrsm` | substitution in `Bin F` does not overflow: forward bounds of mul, div, the dot-product chain and the triangular recurrence |
| `BinaryPotrf` | no new code: the Cholesky recurrence in `Bin F` forwards (`potRec_fwd`): the Schur complement of an approximate factorization keeps the smallest eigenvalue up to n E (`schur_ge`), hence pivots bounded below and rows bounded above |
| `Checked`, `CheckedLemmas`, `CheckedViews` | the same functions with BLAST_USER_ASSERT switched on (pointer classes, iamax, potrf, views; gemm, ger, syrk, trmm, potrf, LU); equality with the release build for aligned arguments |
| `Props/BinaryOrder`, `Props/BinaryRandom` | comparison, abs and iamax in the IEEE model against the extended reals; makePositiveDefinite and potrf of its result in the IEEE model |
| `BinaryPos`, `Props/BinaryTests` | the comparisons of the tests (test/blast/math/dense/*Test.cpp) as programs; relative error bounds for sums of non-negative numbers in `Bin F` |
| `ReferenceTrmm`, `Props/ReferenceTrmm` | reference/Trmm.hpp:164-176 with the overload resolution of the unqualified call at line 175 |
| `Props/PotrfUpper`, `Props/Forward`, `Props/LuRowBinary` | no new code: what panel potrf leaves above the diagonal in exact arithmetic; forward errors from the residual bounds of C86 and C88; a binary64 matrix on which row-major getrf is unstable |
| `FastMath`, `Props/FastMath` | dense/Trsm.hpp:39-65, dense/Trsv.hpp:30-38, 60-68, reference/Gemm.hpp:42-57 as `-ffast-math` (cmake/InitialCache.cmake:2-3) permits them to be evaluated: any order and grouping of the sums, contraction, reciprocals |
| `AllocFailure` | the allocating functions (constructors of the dynamic classes, makePositiveDefinite for dense and panel matrices) when `operator new[]` throws; client programs with a failure pattern | C96 |
| `Props/TrmmUsed` | which elements below the diagonal of A the left triangular product uses, for all sizes (C12) |
| `Props/BinaryTestsLu`, `Props/TransposeRandom` | the LU tests pass in IEEE arithmetic (C92); generated matrices are symmetric bit for bit (C83) |
| `Props/FlushZero` | no new code: denormals-are-zero as an arithmetic, what flush-to-zero changes | C98 |
| `Parametric`, `Props/Parametric` | no new code: relations between two arithmetics, carried through the formulas of `Determined` | C99 |
| `Props/FlushAgree` | no new code: numbers with a flag, by C99 the same run as without | C98 |
| `ParametricLu`, `Props/ParametricLu` | no new code: relations that the comparisons of `getf2` and `getrf` respect only for numbers that the final elements were computed from | C99 |
| `Props/FlushLu` | no new code: LU with tracked numbers; where nothing small was rounded the run is that with gradual underflow | C98 |
| `Props/ParametricVec` | no new code: the same for `trsv` and `makePositiveDefinite` | C98, C99 |
| `LuCatch` | getf2 (both storage orders) and column-major getrf with the pivot array as it is after an exception; raising the exception gives back the models of `Lu` | C97 |
| `Relations` | no new code: trsv (dense/Trsv.hpp) and the reference trsm (reference/Trsm.hpp) compute `trsmSol`, the solution of the substitution recurrence, in an arbitrary arithmetic (`solve_det`) |
| `Integers` | no new code: arithmetic exact on integers up to a bound, and the accumulations of the code on integers |
| `GetrfSafe` | no new code: safety of getrf for an uninterpreted arithmetic |
| `Blasfeo`, `BlasfeoOwn` | include/blasfeo: BlazeInterop.hpp, DynamicMatrix.hpp, Memory.hpp |
| `Ieee`, `Testing` | numbers, infinities and NaN over a rounded field; test/Testing.hpp |
| `Nan` | arithmetic with a not-a-number value on top of any arithmetic (division by zero and roots of negative numbers give NaN; infinities are not distinguished from NaN) |
| `StaticVec` | constructors and operations of `StaticVector` |
| `PanelRandom` | the `blaze` extensions for random panel matrices (DynamicPanelMatrix.hpp, StaticPanelMatrix.hpp) |
| `MakePosDef` | algorithm/Randomize.hpp, algorithm/MakePositiveDefinite.hpp |
| `Spec` | vocabulary of the statements |
| `Props/*` | the property theorems `Cnn_...`, with examples |
| `Cases/*` | concrete cases: every property theorem that has hypotheses is applied to concrete objects, memories and numbers in an `example` here or in its `Props` module (one demo memory in which cell x holds x, triangular, positive definite and singular matrices, views, histories, threads); no new code |

## 4. Method per property

| properties | modelled by | proved by |
|---|---|---|
| C01-C05 gemm | `gemmMat`, `gemmPtr`, `gemmFull`, `gemmPart` | total-correctness theorem of the pointer version (outcome `ok`, D = a fixed fma expression, every other cell unchanged) by invariant over the list of tiles; exact-arithmetic corollary; kernel-evaluated witness for unpadded operands |
| C06 | `gemmMat` | case analysis, both directions |
| C07, C46 | `refGemm`, `refGer`, `refAxpy` | induction over loops; comparison with C01 |
| C08 | `tile` | `tile` = run over an explicit list of rectangles; partition by induction over the three loops |
| C09, C10, C13 | `gerMat`, `gerRowMat`, `syrkMat`, `trmmRightMat` | register kernel theorems + tiling invariant |
| C11, C12, C14 | `trmmLeftMat`, `trmmRightMat` | same; three witnesses for the cases where the code deviates |
| C15-C18 potrf | `potrfDenseMat`, `potrfPanelMat` | invariant over column strips and row tiles (columns finished so far hold the recurrence values); Cholesky mathematics in `LinAlg`; witnesses for sizes where storage is left |
| C19-C23 LU | `getf2Ptr`, `getf2Row`, `getrfPtr`, `getrfRow` | code = pure elimination `luRun`; elimination = P A = L U; blocked = unblocked by exchanging elimination steps |
| C24, C25 | `swapPtr`, `laswp`, `iamaxPtr` | induction |
| C26, C47, C48 | `imax` lane permutations, `loadVecMask`, `storeVecMask`, `gatherLoop`, `scatterLoop`, `VPtr` | case analysis on lanes; refinement loop = mask primitive |
| C27-C30 | `trsmMat`, `trsvMat`, `refTrsm*`, `refTrmm*` | induction over the substitution loops, in place included |
| C31-C35, C42, C44 | `Container`, `MPtr` | mixed-radix index arithmetic; frame lemmas; induction over write histories (C32) |
| C36-C38 | `Reg` | per-lane frame theorems; triangular solve / Cholesky on registers |
| C39, C40, C45, C49 | `MExpr`, `RowView`, `PanelSub`, `PanelRow` | induction over the structure of views; C49 instantiates the pointer gemm |
| C41 | `assignDensePanel`, `assignPanelDense` | loop invariant over copied elements |
| C43 | `makePositiveDefinite` | composition of construct, randomize, reset, reference gemm, diagonal loop, destructor; Gram matrix + N I is positive definite |
| C50 | `luSolve`, `choleskySolve` (client programs over getrf, laswp, trsm, potrf) | composition of C22/C24/C27/C15 and matrix algebra: permuted LU and LLᵀ systems |
| C51 | the dense algorithms on `MExpr` views | the pointer-level theorems instantiated with the injectivity and disjointness of views |
| C52 | `World.step`: objects, heap and memory; histories are lists of operations | simulation relation `Represents` between memory and values, induction over the history |
| C53 | `VObj` operations; histories are lists of `VOp` | representation invariant, induction over the history |
| C54 | `randomizePanel`, `generatePanel`, `makeHermitian`, `makePositiveDefinitePanel` with the draws as an arbitrary function | loop invariants; composition with C09 and C15 |
| C55 | `DynReg`, `eqReg` | loop rules of the register matrix; equality of the dynamic store with the static partial store |
| C56 | the same models as C04, C09, C10, C13 with `[Rounded u]` | the bitwise theorems give the exact sequence of fma per element; induction over it in the error calculus `Near` |
| C57 | the models of C11, C12, C29, C30 with `[Rounded u]` | the loops' final values satisfy the substitution recurrence; each row is an instance of `near_subFold` read backwards |
| C58 | the model of C15-C18 with `[RoundedSqrt u]`, and over `Nan V` | `PotRec` bitwise; induction over columns: residual bound ⇒ positive rounded pivot (completing the square with the margin); with NaN: a numeric factor has positive pivots |
| C59 | the models of C19-C23 with `[Rounded u]` | invariant `LUNear`: P*A is near L*U + trailing block; one elimination step or one block (panel, swaps, trsm, gemm) extends it; growth bound by induction; a zero pivot column gives an exactly singular matrix nearby (`LUInv.dep`) |
| C60 | the composition `luSolve`, `choleskySolve` of C50 with `[Rounded u]` | `residual_compose`: B - A X = (B - L Y) + L (Y - U X) + (L U - A) X with C57, C58, C59 |
| C61 | `complexityPotrf`, `complexityTrsmRightUpper`, `complexityGetrf`, `setCounters` on `UInt64` | sums over the textbook loops, closed forms by induction, transferred to arithmetic modulo 2^64 |
| C62 | `approxEqualMat`, `exactEqualMat`, vector and scalar versions over `Ieee V` | loop invariant "no mismatch so far" for the scan, rounding analysis of one comparison |
| C63 | `refGemm`, `refGer`, `refAxpy`, `refTrmmL/R` with `[Rounded u]`; `gemmTest` = gemm, reference::gemm, approxEqual | value of every element operation by operation, `near_addFold`; composition with C56 and C62 |
| C64 | `constructW`, `elementIndexW`, `nextMultipleW` on `UInt64` | transfer to the unbounded model modulo 2^64; pigeonhole argument for the converse |
| C65 | `pack`, `unpack`, `unpackTran`, `packVec`, `assignDense` on top of copy loops standing for the C functions | one lemma on copy loops (`copy2`), address arithmetic per storage order |
| C66 | `StorageOp`, `MatrixOp`: state = pointer held by each object, allocated blocks | induction over histories; exact ownership invariant; for the refutation a counting argument (more objects than blocks, or an unowned block, forever) |
| C67 | predicate `Framed` (result independent of additional memory, allocation unchanged) for every function of the model | one rule per program construct, then one lemma per function; in-bounds theorems applied to the memory restricted to the arguments; permutations of call lists |
| C68 | the same programs, with an uninterpreted arithmetic | loop invariant of getrf without values (matrix readable, recorded interchanges in range); for getf2 the functional description `luRun`; `Framed` for the allocation |
| C69 | `History`: a world of objects, memory, heap, pivot arrays; steps are object operations and calls | forward simulation: every step keeps the relation between world and mathematical state (`Represents` of C52 plus pivot arrays), using the value and frame theorems of the single algorithms and `Framed`; the two named programs are derived from the specification alone. Not operands: views, vectors; `junk` = contents of the pivot array after a throw |
| C70 | `Threads`: `Exec p t` derives from a model function the tree of its single-cell accesses; `Pool.run` interleaves the trees of any number of threads in any order | (1) every algorithm is executed by a tree all of whose writes, whatever values are read, are to output elements (`Acc`, by the structure of the loops and of the tile stores; for LU with an invariant on the pivots read); (2) C67 gives the cells used; (3) simulation: after every prefix of a schedule, each thread restricted to its own cells still computes its sequential result, and the number of remaining accesses is the sequential one minus the times it was scheduled. Sequentially consistent interleaving; a data-race-free C++ program has no other executions. `Exec` is a relation because `Prog` is a shallow embedding: it determines the accesses up to equality of programs |
| C71 | the kernels `gemm(ker, K, …)` of register_matrix/Gemm.hpp called directly with pointers, and `gemm(A, B, C, D)`; proved from the read-then-store structure of the kernels, so no disjointness hypothesis | C71_* in Props/GemmKernel |
| C72 | `BlockCalls`: the world of C69, operands are view expressions evaluated to `MExpr` when the call is made | forward simulation as for C69, with the view theorems C39, C49, C51; `PutView` says which elements of the object get which value and that the others keep theirs. Exact arithmetic, tile size = SIMD width |
| C73 | the client programs `blockedCholesky`, `blockedForward` | induction over the number of blocks with the invariants `CholInv`, `FwdInv`; each step by C72's step lemma; the Schur complement stays positive definite |
| C74 | the functions as in C01-C22, C54; two memories | every call is shown to end with an explicit function of the elements of its arguments (`Determined`, on top of exact descriptions of each element's chain of operations in `Trmm`, `Potrf`, `Lu`, `LuRow`, `LuDet`), hence two calls agree; arithmetic uninterpreted |
| C75 | the world of C69 with an uninterpreted arithmetic | `detStep` is a function of the value state; `det_step`: the run of any world representing that state follows it; `admissible_moved`: preconditions depend on the value state and the freshness of the new addresses only. `junk` is the same in both runs |
| C76 | as C74; NaN is a predicate `IsNan` that the operations propagate (class `NanArith`; instances `Ieee F`, `Nan F`) | `NanProp`: each determined value (fmaSum, the trsm recurrence, `PotRec`, `luFull`, `getrfFull`) is NaN when an operand is; for LU the invariant is a NaN in the not yet factorized part (`HasNanFrom`), through swaps, elimination, block steps. Containment by the converse rules (class `NanOnly`) |
| C77 | as C74 | `Selection`: the elimination commutes with a choice of columns that keeps the columns already factorized (`KeepsFirst`), by induction over the steps and the blocks; leading parts by uniqueness of the solution of the recurrences (`TrsmRec`, `PotAll`); the other values are functions of one row and one column |
| C78 | as C74; the factors are a commutative group acting on the scalars, with which the operations commute (class `Scaling`) | `Scaling`: each determined value (fmaSum, `TrsmRec`, `PotAll`, `luFull`, `getrfFull`, `elimRun`) for scaled arguments, by induction or by uniqueness of the solution of the recurrence; pivots stay the same because the comparisons of moduli do. Instance `Fe p` (ties to even): `rndE(±2^k x) = ±2^k rndE x` from `Int.log` |
| C79 | as C01, C09-C13 | the entry formulas of C01, C09, C10, C11, C13 are entries of Mathlib's matrix expressions; associativity by running the calls one after the other, objects apart keep their matrix |
| C80 | as C15, C19-C22 | the entrywise factorization statements as matrix equations; uniqueness of Cholesky factors by induction on the column; determinants from triangular matrices and the sign of the product of transpositions |
| C81 | as C27, C28, C50 | the solved systems as matrix equations, multiplied by the inverse (the determinant of the triangle is the product of its diagonal) |
| C82 | values of `Determined` (bitwise results of all algorithms); arithmetic: class `ExactInts` (exact on integers up to a bound), instances for binary formats | partial sums stay within the bound by induction; the integer solution (factor) satisfies the recurrence of the code, whose solution is unique |
| C83 | as C04, the bitwise results of ger, reference gemm and makePositiveDefinite; class `CommFactors` | exchange of factors in the accumulation; the witness computes the two roundings symbolically for all p |
| C84 | `BlasfeoApi`; the library functions are arbitrary programs, `Lib.Correct` is their documented contract in exact arithmetic | the conversions are the identity below 2^31, which blocks inside a matrix satisfy; a library fulfilling the contract is constructed in `Cases/BlasfeoApi` |
| C85 | the calls of C09–C13 in `Bin F`; `Bin.mk` rounds a real number to the nearest number of the format | inversion: a finite result of an operation has finite operands and satisfies the standard error bound with a term for underflow; induction along the accumulation; forward: below the threshold nothing overflows |
| C86 | trsm and potrf in `Bin F` | the same inversion along substitution (backwards over the recurrences of C57, C58), error collected with 1/(1-u); no overflow: growth bounds forwards (`trsmRec_fwd`, `potRec_fwd`) |
| C87 | getf2 and getrf in `Bin F` | backwards: an invariant per elimination step (finite after ⇒ finite before, `LUEta`), block steps via subFold/gemm inversion; forwards: `FinState` with growth 2(1+u)^2 per column; throw ⇒ the exact product plus zero column is a singular matrix within the error bound |
| C88 | luSolve and choleskySolve in `Bin F` | compose the residuals of C86 and C87 (`residual_compose_add`); forwards: `trsmRec_fwd` bounds substitution by a geometric growth, the pivot lower bound comes from robust regularity (`pivot_ge_of_robust`); Cholesky: induction over the columns with `schur_ge` |
| C89 | trsv, reference trsm, trsm, syrk, trmm and gemm | uniqueness of the solution of the substitution recurrence; in `Bin F`: an fma with a zero factor and a finite factor does not change a number (`sameNumber_fma_zero`), so leading zero terms of a sum may be dropped |
| C90 | the build with assertions | congruence of the loop combinators; every pointer formed is aligned when its type says so, since all row offsets are multiples of the SIMD width; programs are equal, so all other theorems carry over |
| C91 | makePositiveDefinite and potrf in IEEE arithmetic | exact values of the generator in any arithmetic (`makePosDet`, `makePosPanelDet`), forward error bound of the sums, Cauchy-Schwarz for the margin of the smallest eigenvalue, then C86_potrf_*_safe with all its constants bounded |
| C92 | the random comparisons of the tests in IEEE arithmetic | both sides of the comparison as explicit expressions in any arithmetic (C63, C04, C13, det_ger, det_syrk, C91), relative error of non-negative sums, and that approxEqual accepts numbers within the bound; LU: backward error and growth bound of C87, laswp (C24) on the copy |
| C93 | reference::trmm and the included headers | case split on the overload; C30 for the reference, C11/C14 for the optimized function; evaluation of both for a 2 × 2 witness |
| C94 | forward error of the solvers in IEEE arithmetic | residual bounds (C86, C88) multiplied with a left inverse; a contraction argument replaces the computed by the exact solution; a small inverse gives the robust regularity that C88 assumes |
| C95 | the scalar loops of trsm, trsv and reference::gemm with every sum evaluated by an arbitrary tree of operations (`FastMath`) | structural induction on the tree bounds the error of any evaluation by its height; the write-once argument of C20/C57 runs the loops; program equalities show that the order of the source is an instance |
| C96 | client programs of C69 plus makePositiveDefinite of panel matrices, each step with a flag saying whether its allocation (at most one) fails (`AllocFailure`) | the invariant of C69 for one more kind of step; the failing programs are evaluated up to the throw; refutation: the panel version overwrites the matrix before it allocates |
| C97 | getf2, getrf with an explicit pivot array and a flag for the exception (`LuCatch`); `StoppedLU` says what a stopped factorization is, `StoppedBlock` what a stopped blocked one is | the runs are those of C19-C22; the invariant of the elimination at the step that finds no pivot; recovery from the permutation being onto; refutation by evaluation |
| C98 | no new model: the formats of `Binary` with `under ≠ .gradual`; `daz` is what an operand looks like with denormals-are-zero | the numbers of such a format are closed under all operations, so `daz` is the identity on them; C85–C95 hold for every format; refutations: m/2 is flushed, 2^-1023 is flushed; where nothing small is rounded, regrade commutes with every operation, and C99 carries this through the calls |
| C99 | no new model: two instances of the polymorphic programs | both runs end with the formulas of `Determined` (C74), and the relation goes through the formulas by induction; for LU through the pivot search and the elimination steps |
<!-- more rows -->

A property of the first list that turned out false of the code was restated as what does hold, and the failure is kept as a proved
witness (theorem names with `_refuted`, `_ub`, `_wrong`, `_out_of_bounds`, `_unchecked`, `_fails`). No property is only partially proved at present.

## 5. Defects of the code found on the way (each a proved witness unless marked "text")

* Unpadded operands whose row count is not a multiple of the SIMD width: gemm reads past the end of A and C (C03).
* Tiles larger than the SIMD width (NEON): ger reads x, syrk reads A and C, getf2 reads A beyond padded storage (C09, C10, C19).
* When blocked getrf throws, the interchanges of the failing block are applied to its own columns only and its pivot indices stay relative to the block,
  so matrix and ipiv are not a partial factorization; getf2 leaves one (C97).
* With flush-to-zero, which `-ffast-math` (cmake/InitialCache.cmake:3) switches on where the start-up code supports it, getf2 throws for a regular matrix of
  normal numbers, and with the reciprocal that the same flag allows a multiplier 1 can become 0 without an exception (C98).
* Row-major ger does not check the size of B (C09).
* Left trmm is wrong for column-major panel B of two or more tiles, since `vmove(1)` is wrong inside a panel (C11, C35), and uses the elements below
  the diagonal of A for sizes that are not multiples of the tile (C12). Right trmm with unit diagonal terminates the program or silently
  ignores the flag (C14); with a large tile and panel A it is wrong (C13).
* potrf leaves the storage for column counts that are not multiples of the tile width and is misaligned for float (C18); panel potrf overwrites
  elements above the diagonal (C17).
* Left trmm multiplies the zeros below the diagonal of a block of A with elements of B, so a NaN or infinity in a row of B above contaminates the
  result (C76).
* Row-major getrf does no pivoting (C23). In binary64 it returns finite but meaningless factors for matrices as harmless as
  [[2^-60, 1], [1, 1]]: a randomized test that draws a tiny leading element must fail.
* potrf applied to a submatrix with an incomplete row tile overwrites the rows below the submatrix; syrk and potrf take `ptr<aligned>` of unaligned
  submatrices, an aligned access to an unaligned address (C51).
* DynamicPanelMatrix::reset() fills the wrong number of elements (C33).
* Panel submatrix checks can be bypassed by wrap-around; nested views are checked against the outer matrix only; offset() is wrong for row-major (C40).
* The pointer of a panel view starting inside a panel is wrong (C39); assignment dense <- panel uses aligned accesses to unaligned dense matrices and does
  not compare sizes (C41).
* row(p).load() of a column-major pointer terminates the program (C48).
* Destructors of the dynamic classes release memory of the aligned `new[]` with plain `delete[]`; their moves terminate the program (C52).
* `DynamicRegisterMatrix::load` and `ger` read all `maxRows()` rows of the source; its `axpy`, `load(beta,p)` and `gemm` do not compile (C55).
* `complexityTrsm_RightUpper` reports a wrong number of divisions (with wrap-around), `complexityGetrf` wrong numbers of updates (`C61_*_refuted`).
* `approxEqual` accepts every number where infinity is expected; the vector and scalar versions accept NaN (`C62_*_refuted`).
* The sizes computed by DynamicMatrix and DynamicPanelMatrix wrap around unchecked: DynamicMatrix(2^32, 2^32) has no storage (`C64_wrap_refuted`).
* blasfeo::DynamicMatrix is copyable by the implicit copy operations, which leads to a double free (`C66_matrix_copy_refuted`); memsize_mat<float> asks for the size of a double matrix, CustomMatrix() and unpack of vectors do not compile (text).
* The partial kernel `gemm(ker, K, a, b, c, d, md, nd)` (register_matrix/Gemm.hpp:172-182) loads the whole register matrix from c although c is documented as md by nd: out-of-bounds read (`C71_partial_tile_out_of_bounds_refuted`).
* blasfeo_api converts sizes and offsets from `size_t` to `int` unchecked: a matrix of 2^31 rows or more does not report its size, a product of m + 2^32 rows is silently
  computed as one of m rows (`C84_size_refuted`, `C84_wrap_refuted`). The comments of `trmm_rutn` call B the triangular matrix; it is A (text).
- gemm multiplies with alpha after the summation of A B, so it returns infinity for A = 2^emax, B = 8, alpha = 1/8 although alpha A B = A is representable
  (`C85_gemm_overflow_refuted`); syrk, trmm and ger multiply with alpha first.
* The left reference::trmm for matrices calls `trmm` unqualified, which is the optimized blast::trmm if its header is included and A and C are column-major
  (`C93_headers_refuted`); so the left trmm test (TrmmTest.cpp) compares trmm with itself and does not see C12 (`C92_trmm_left_refuted`).
* RegisterMatrix::trsm for anything but Right/Upper returns its argument unchanged in release builds (`C38_trsm_other_sides_refuted`).
* With assertions trmm aborts for column-major panel operands (`C90_trmm_*_panel_refuted`); the assertions of Row do not see the length of the row, those of nested
  submatrices not the extent of the inner one, sums wrap around, and empty rows are rejected (`C90_*_refuted`).
* The comment of the right trmm for matrices (algorithm/Trmm.hpp:280) promises `C = alpha*B*A + C`; the code overwrites C (C13; text).
* The recommended flags contain `-ffast-math` (cmake/InitialCache.cmake:3): results of scalar loops are then not determined by the source (`C95_order_matters_refuted`), and NaN
  handling (e.g. of a matrix that is not positive definite) is not guaranteed by the compiler (text).
* makePositiveDefinite of a dynamic panel matrix allocates after it has overwritten the matrix (DynamicPanelMatrix.hpp:339-345): if the allocation fails, the old contents are
  lost (`C96_panel_strong_guarantee_refuted`); the dense version allocates first.
* The four-argument `imax` reduction is documented in reverse (text); several members do not compile if instantiated (text, section 2 item 7).

## 6. Not modelled

The BLASFEO library itself (its functions are parameters of C65, C66, C84), `bench/` other than Complexity.hpp, `test/` other than Testing.hpp, `cmake`, performance, the random engine, Blaze's own containers and expression
templates, BLAZE_INTERNAL_ASSERT and Blaze's own assertions, stream output, element type conversions, weak memory models and synchronization primitives (the library has no threads of its own; concurrent callers are C70).

## 7. Testing the theorems against wrong programs

`tools/mutate.py` applies an edit to a scratch copy of the model, rebuilds, admits (in the scratch copy only) every proof that breaks until the library
builds, and then reports which property theorems depend on an admitted proof (failed) and which property theorems that mention the edited
definition still hold (survivors). Survivors were read one by one: a survivor whose English claim is false of the edited program is too weak and was
tightened. `seeded/LOG.jsonl` has one line per attempt.
