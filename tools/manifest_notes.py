P='proved'; Q='partial'
S['C01']=(P,'All sizes, layouts, values; exact arithmetic = any commutative ring interpretation of the operations.')
S['C02']=(P,'')
S['C03']=(P,'Padded operands: no out-of-bounds and no misaligned access. Unpadded operands: kernel-checked witness of the out-of-bounds read.')
S['C04']=(P,'Arithmetic operations uninterpreted.')
S['C05']=(P,'')
S['C06']=(P,'')
S['C08']=(P,'Both the 3-row (AVX2) and NEON kernels; both traversal orders.')
S['C26']=(P,'The tie-breaking witness shows lanes can differ in index when the maximum is not unique.')
S['C31']=(P,'')
S['C32']=(P,'')
S['C33']=(P,'The wish that reset() always works is refuted for DynamicPanelMatrix; C33_reset_panel_iff gives the exact set of shapes. StaticPanelMatrix has no reset().')
S['C34']=(P,'')
S['C35']=(P,'Panel pointers: laws under the alignment contract; witness that vmove inside a panel is wrong.')
S['C42']=(P,'')
S['C44']=(P,'')
S['C47']=(P,'')
S['C48']=(P,'')
S['C07']=(P,'')
S['C29']=(P,'Exact arithmetic, non-singular A.')
S['C30']=(P,'Exact arithmetic. The matrix-argument left version calls the unqualified name trmm; C30 is about the case that it resolves to reference::trmm, C93 says when it does.')
S['C46']=(P,'')
S['C09']=(P,'Column-major and row-major, in place or not. Witnesses: out-of-bounds read of x when the tile is larger than a SIMD vector; unchecked output size of the row-major overload.')
S['C36']=(P,'')
S['C37']=(P,'')
S['C38']=(P,'Exact arithmetic; Cholesky over a field with square roots of positive numbers (instantiated for the reals).')
S['C10']=(P,'Tile size equal to the SIMD width (AVX2) for blast matrices; for larger tiles the pointer theorem states the extra padding needed and a witness shows the out-of-bounds read.')
S['C27']=(P,'Exact arithmetic, non-singular A (no singularity check in the code).')
S['C28']=(P,'Exact arithmetic; x already has the size of b (resize is an external Blaze operation that is then a no-op).')

S['C19']=(P,'Exact arithmetic (ordered field). Column-major (any tile/SIMD width under the stated readability) and row-major; padded matrices need no further assumption when tile size = SIMD width; witness of the out-of-bounds read otherwise. ipiv is modelled as a function; its contents after an exception: C97.')
S['C20']=(P,'')
S['C21']=(P,'Also for getrf (column-major).')
S['C22']=(P,'Exact arithmetic; getrf returns the very same factors and pivots as getf2.')
S['C23']=(P,'The documented pivoting is refuted by C23_getrf_row_major_fails; numerical stability by C23_getrf_row_major_unstable_refuted (binary64).')
S['C24']=(P,'laswp for dense matrices of either storage order; ipiv entries must be row indices.')
S['C25']=(P,'The variant selected by #if 1 in the code.')

S['C11']=(P,'Exact arithmetic. Column-major panel B with two or more tiles excluded: witness C11_trmm_left_panel_wrong.')
S['C12']=(P,'The unrestricted BLAS convention is refuted by C12_trmm_left_uses_lower_part; C12_trmm_left_elements_used says, for all sizes, which elements below the diagonal are used, and C12_trmm_left_band that zeros in a band below the diagonal are enough.')
S['C13']=(P,'Exact arithmetic, plus a bitwise theorem for any arithmetic. Witness for panel A with a tile larger than the SIMD width.')
S['C14']=(P,'The wish that every unsupported variant be reported by an exception is refuted for the unit diagonal of the right multiplication.')

S['C15']=(P,'Exact arithmetic with exact square roots (instance: the reals). Sizes under PotrfFits; see C18 for the others.')
S['C16']=(P,'Padding rows of L are overwritten in complete strips (inside the storage of L).')
S['C17']=(P,'In exact arithmetic zeros are stored above the diagonal inside the blocks if A is symmetric; C17_potrf_panel_upper_refuted shows that the lower triangle alone is not enough. The wish that panel potrf leaves everything above the diagonal unchanged is refuted by C17_potrf_panel_overwrites_upper.')
S['C18']=(P,'The unrestricted claim is refuted by four witnesses C18_..._ub.')

S['C39']=(P,'Views of blast matrices (Submatrix, Row, MatTransExpr, chains of them). Pointers of panel views that start inside a panel are refuted by C39_view_pointer_unaligned_panel_refuted.')
S['C40']=(P,'size_t arithmetic modulo 2^64. Witnesses: C40_overflow_refuted, C40_nested_escapes_view_refuted, C40_offset_row_major_refuted.')
S['C45']=(P,'')
S['C49']=(P,'Exact arithmetic; column-major views; PadInBounds is necessary (C49_gemm_view_out_of_bounds_refuted).')
S['C41']=(P,'Dense operand: any dense pointer (Blaze matrices with any spacing). Witnesses C41_unaligned_dense_refuted and C41_size_mismatch_refuted.')
S['C43']=(P,'Exact arithmetic (ordered field); arbitrary random draws; the allocator returns free aligned memory; ET(N) is exact.')
S['C50']=(P,'Exact arithmetic. Pointer-level theorems hold for any layout accepted by the algorithms; C50_lu_solve_matrices is the instance for matrix objects.')
S['C51']=(P,'Exact arithmetic. The excluded cases are proved to fail: C51_potrf_view_overwrites_refuted, C51_syrk_unaligned_view_refuted.')

S['C52']=(P,"Refinement by induction over the history. The delete form mismatch is a parameter of the model; C52_mismatched_delete_refuted shows what the letter of the standard says.")

S['C53']=(P,"The storage of distinct vectors is disjoint (C++ objects); indices in range, as the class requires.")
S['C54']=(P,"Arbitrary draws. makePositiveDefinite: column-major panel matrices, exact arithmetic, the allocator returns free aligned memory; generate relies on copy elision of the returned object (copying throws).")

S['C55']=(P,"Column-major pointers, as the class requires. The members that do not compile (axpy, load(beta,p), gemm) or are only declared are not modelled. C55_load_short_refuted: the repository's own tests violate the requirement on load.")

S['C56']=(P,"Standard model of rounded arithmetic (relative error u per operation: no overflow, underflow, NaN); binary arithmetic with any significand length and unbounded exponent is shown to be an instance.")

S['C57']=(P,"Standard model of rounded arithmetic as for C56; division included; the last two theorems: the solves with fused multiply-subtracts. The panel and SIMD register solvers are covered bitwise by their own properties, not here.")

S['C58']=(P,"Standard model of rounded arithmetic with a rounded square root. In the NaN theorems a division by zero gives NaN (IEEE infinities are not distinguished from NaN, and overflow is not modelled). Sizes as required by C18 (PotrfFits).")
S['C59']=(P,"Standard model of rounded arithmetic as for C56 (no overflow/underflow, comparisons and abs exact). The row-major division by the pivot is Blaze's: both implementations (division, multiplication by the reciprocal) are covered.")
S['C60']=(P,"Composition of C57, C58, C59. Standard model of rounded arithmetic (no overflow/underflow).")
S['C61']=(P,"Exact in std::size_t arithmetic; the divisions reported for trsm and the updates reported for non-square getrf are wrong (three _refuted theorems).")
S['C62']=(P,"IEEE values modelled as number/infinity/NaN with a rounding function on numbers. C62_infinity_refuted and C62_nan_refuted show what a passing test does not exclude.")
S['C63']=(P,"Standard model of rounded arithmetic. Composition of C56, C46 and C62.")
S['C64']=(P,"std::size_t is modelled as UInt64; operator new[] as a limit on the byte size (the compiler's check of count*sizeof(T)).")
S['C65']=(P,"The C functions of BLASFEO are not in the repository; they are modelled by their documented effect.")
S['C67']=(P,"order independence is at the granularity of whole calls; together with the disjointness of the accessed cells this is the absence of data races. A write that stores the value already present counts as no write.")
S['C66']=(P,"malloc/free of BLASFEO modelled by their effect on the set of allocated blocks; allocation of a DynamicMatrix is assumed to succeed (BLASFEO exits otherwise).")
S['C68']=(P,"no algebraic law is assumed of the arithmetic; the NaN theorem uses the model of IEEE arithmetic in Ieee.lean (no overflow, unsigned zero).")
S['C69']=(P,"exact arithmetic; tile size = SIMD width; views, vectors and ger are not operands of these programs; what a throwing factorization leaves in the pivot array is arbitrary; the temporary of makePositiveDefinite is a part of memory that is free during the call (its entry in the heap is not tracked).")
S['C70']=(P,"interleaving of single-element accesses (sequential consistency; C++ guarantees it when there is no data race, and that is part of the theorem). A SIMD load or store is a sequence of accesses to its lanes. The execution of a call access by access is given by a derivation `Exec` that follows the model function construct by construct. The array of pivot indices of the LU functions is private to the call. trmm, potrf: consistent sizes as in C67.")
S['C71']=(P,"The kernels are the modelled functions of register_matrix/Gemm.hpp, stated for any pointers satisfying KernelPtrs (no disjointness), with bitwise and exact-arithmetic forms; the unmasked load of c by the partial kernel is refuted separately; gemm(A,B,C,D) is stated over containers.")
S['C72']=(P,"Forward simulation over all admissible programs; the specification SpecProg mentions only values and positions of elements. Operands are dense (panel views are C39/C49); the preconditions are those of C39, C49, C51.")
S['C73']=(P,"Two client programs, by induction over the blocks on top of C72's single-step result; the Schur complement of a positive definite matrix is proved positive definite. Cholesky: SIMD width 4 (AVX2 double), as potrf requires.")
S['C74']=(P,"Each function's result is shown to be an explicit function of the elements (`trmmLDet`, `syrkDet`, `trsmDet`, `potDenseDet`, `potPanelDet`, `luFull`, `getrfFull`, …: module Determined); the theorems mention none of these. Tile size = SIMD width; preconditions as in C01, C09-C20.")
S['C75']=(P,"Simulation of both runs by the same deterministic value semantics (`detStep`), in an uninterpreted arithmetic. What a throwing factorization leaves in the pivot array is a parameter (`junk`) that is the same in both runs; views, vectors and ger are not operands of these programs; tile size = SIMD width.")
S['C76']=(P,"NaN is an abstract predicate (class NanArith, with instances for IEEE arithmetic with infinities and for numbers with NaN); the values are those determined in module Determined. `C76_*_only`: containment, in arithmetics without overflow; `C76_trmm_left_above_refuted`: containment fails for trmm left. The division of the row-major LU codes is any NaN-propagating function.")
S['C77']=(P,"Uninterpreted arithmetic; the values are those determined in module Determined. trmm from the left with the condition on column tiles, which is necessary (C77_trmm_left_refuted: bitwise different elements of the result). Preconditions as in C01, C09-C20; potrf: sizes as required by C18.")
S['C78']=(P,"The exact factors are a commutative group acting on the scalars (class Scaling); instances: binary arithmetic with any significand length, ties to even, unbounded exponent, and factors ±2^k (module RoundEven); the reals with all non-zero factors. If a factorization throws, both calls throw (the elements left behind are not compared).")
S['C79']=(P,"Stated with Mathlib's Matrix type, product, transpose and vecMulVec (module MatForm says what it means for an object to hold a matrix); any commutative ring. Preconditions as in C01, C09-C13.")
S['C80']=(P,"Stated with Mathlib's PosDef, det, submatrix and Equiv.Perm; any linearly ordered field (with exact square roots for potrf). Preconditions as in C15-C22.")
S['C81']=(P,"Stated with Mathlib's matrix inverse. luSolve/choleskySolve are the call sequences of C50.")
S['C82']=(P,"Any arithmetic that is exact on integers up to a bound; instances: binary formats with ties to even (bound 2^(p+1)), also with infinities and NaN. trmm with the triangular matrix on the left assumes zeros below the diagonal (C12). LU is not included: its multipliers are not integers. C82_gemm_bound_sharp shows that the bound cannot be raised.")
S['C83']=(P,"Any arithmetic with commuting factors. C83_ger_symmetric_refuted: ger rounds alpha x(i) before multiplying with y(j), so for general alpha the result for x = y is not symmetric.")
S['C84']=(P,"The library is a parameter: the _call theorems hold for every library and element type, the others assume its documented contract (Lib.Correct), shown satisfiable in Cases/BlasfeoApi. C84_size_refuted and C84_wrap_refuted: sizes from 2^31 on are converted to int without check.")
S['C85']=(P,"Bin F is IEEE 754 binary arithmetic of the format F (binary64, binary32 are instances), without NaN payloads and exception flags; a format may also flush small results to zero (C98). trmm with the triangular matrix on the left assumes zeros (of either sign) below the diagonal (C12). C85_gemm_overflow_refuted: alpha is applied after the summation, so gemm can overflow although the result is representable.")
S['C86']=(P,"A posteriori: finite element and finite diagonal element are the only assumptions on the computed values. A priori (C86_trsm_safe, C86_potrf_dense_safe, C86_potrf_panel_safe): no overflow under explicit bounds. potrf assumes that the stored numbers belong to the format and that the format has enough exponent range (C86_wide: double and float do).")
S['C87']=(P,"Assumes that the stored numbers belong to the format and that the format has enough exponent range (C87_formats: double and float do). The multiplication by the reciprocal, which Blaze may use in the row-major routines, has no no-overflow theorem: the reciprocal of a subnormal pivot overflows.")
S['C88']=(P,"Two kinds of theorems for LU and for Cholesky: a posteriori (if the factors and a column of the result are finite, the residual is small) and a priori (moderate elements, robustly regular or smallest eigenvalue above the rounding errors: no exception, no overflow, finite and bounded solution).")
S['C89']=(P,"trsv, reference::trsm and trsm compute the solution of the same substitution recurrence (trsmSol) in an arbitrary arithmetic. syrk and trmm against gemm: in the IEEE arithmetic Bin F, equality of numbers with +0 = -0 (fma(0, b, -0) = +0, so bitwise equality is false); alpha arbitrary, beta = 0. The single-system versions of C74, C76, C78, C82 and C86 for trsv are in the same module.")
S['C90']=(P,"Namespace Checked restates every function with the assertions it executes; a failed assertion is the outcome terminate. The theorems are equalities of programs (Checked.X = X), so every other theorem about X holds of the checked build. BLAZE_INTERNAL_ASSERT (a different macro) and Blaze's own assertions are not modelled; trsm and trsv are scalar loops without assertions. Refuted parts: C90_*_refuted.")
S['C25']=(P,'The variant selected by #if 1 in the code. C25_iamax_ieee, C25_iamax_nan_first: in IEEE arithmetic with infinities and NaN.')
S['C91']=(P,"The values come from the any-arithmetic descriptions det_makePositiveDefinite and det_makePositiveDefinitePanel, bounded in the IEEE model; positive definiteness with margin is Cauchy-Schwarz on R R^T + n I. The random engine is not modelled: the numbers are universally quantified. The size bounds are not sharp.")
S['C92']=(P,"All sums have non-negative terms, so the error bounds are relative. References computed by blaze expressions are universally quantified within the bound ComputedFrom (at most k roundings, any order). The LU theorems (C92_getf2, C92_getf2_row_major, C92_getrf) allow the call to throw for a singular draw. Not covered: the trsv and trsm tests (their error grows with the conditioning of random triangular matrices), the row-major getrf test (no pivoting; C23_getrf_row_major_unstable_refuted is a draw for which the factors do not reproduce the matrix), and the panel potrf test (it compares elements above the diagonal, where residues are left, see C17). C92_trmm_left_refuted: the left trmm test with the true reference reports a mismatch.")
S['C93']=(P,"Which overload is selected is the C++ rule of argument dependent lookup and more constrained templates, transcribed in Verif/ReferenceTrmm.lean; everything else is proved. C93_headers_refuted: one call, two results.")
S['C94']=(P,"From the residual bounds of C86 and C88 and a left inverse of the real matrix. The growth factor 2^n of Gaussian elimination is in the bound (W), as in C88. The exact solution and the inverse are universally quantified real objects.")
S['C96']=(P,"Each step makes at most one allocation (the only new expressions of the library are in the constructors of the two dynamic classes), so a failure pattern is one flag per step. The strong guarantee is false for makePositiveDefinite of dynamic panel matrices (C96_panel_strong_guarantee_refuted): the matrix is overwritten before the temporary is allocated.")
S['C95']=(P,"Evaluations are trees of additions, subtractions, products and fused operations whose terms are the terms of the sum and zeros; distributing a product over a sum (also permitted by -ffast-math) is not covered. Explicit vector operations are taken to be executed as written. C95_order_matters_refuted: the result is not determined by the source.")
S['C97']=(P,"The pivot array is explicit in the models getf2PtrS, getf2RowS, getrfPtrS; C97_pivot_array_model proves that raising the exception gives back the models of C19-C25. C97_getrf_leaves: the blocked factorization, any number of blocks; C97_getrf_recoverable: nothing is lost. C97_getrf_leaves_refuted: a 3 x 3 matrix with tiles of 2.")
S['C98']=(P,"The field `under` of a format (gradual, flushAfter, flushBefore) is a parameter of all theorems C85-C95 about Bin F, with F.eta the absolute error that goes with it; only the nearest-number clause of C85_rounding and the reciprocal (-ffast-math) theorems of C87 assume gradual underflow. C98_gemm writes one of them out. C98_daz: the arithmetics with and without denormals-are-zero are equal on the numbers of a format with flush-to-zero, hence all programs of the model are. C98_reciprocal_refuted shows that the assumption of the C87 reciprocal theorems is needed. C98_*_nothing_small: the hypothesis NothingSmall is observed on a run with tracked numbers, whose values are those of the run itself (tracked_val, C99) and whose flag says that no operation on the way had a non-zero exact result below the normal range. For LU (C98_getf2_nothing_small, C98_getrf_nothing_small and their row-major counterparts) it is EndsIn Tracked.ok for all elements the run leaves, and SameLuAsGradual is about outcome, pivots and elements. The binary is not modelled: which of the three holds depends on the linked start-up code.")
S['C99']=(P,"OpRel R / CmpRel R say that a relation is respected by the operations / by abs, gt and eq; RelResult says how two calls and their results correspond. The model's programs are polymorphic in the arithmetic, so part of this is true by construction of the model; that the code's templates use the element type only through these operations is the modelling step, checked function by function, and the theorem is about the runs, which also have to agree in control flow, exceptions and undefined behaviour. C99_getf2_where, C99_getf2_row_major_where and C99_getrf_where ask for the comparisons only where a backward-closed set of numbers (Backward, EndsIn) holds the final elements. Used for C98 (tracked numbers), and in Cases/FlushAgree with integers against double-precision numbers.")
