#!/usr/bin/env python3
# Generates /verif/properties.jsonl (kept as a script so that entries stay easy to edit).
import json
B="include/blast/"
M=B+"math/"
P=[]
def p(id,title,statement,quantifier,why,anchors):
    P.append(dict(id=id,title=title,statement=statement,quantifier=quantifier,why_tests_cant=why,anchors=anchors))
W_SIZE="Tests run a finite list of sizes; the blocking has several remainder branches per dimension whose combinations are unbounded."
p("C01","gemm computes alpha*A*B + beta*C",
 "After gemm(alpha, A, B, beta, C, D), in exact arithmetic every element D(i,j), i<M, j<N, equals alpha*sum_k A(i,k)*B(k,j) + beta*C(i,j), whatever the values of A, B, C, alpha, beta, the contents of padding, and the previous contents of D.",
 "all sizes M,N,K (including 0 and non-multiples of the SIMD width), all element values, all SIMD widths, dense and panel operands, both storage orders of B, aligned or unaligned operands",
 W_SIZE,[M+"algorithm/Gemm.hpp:gemm",M+"register_matrix/Gemm.hpp:gemm",M+"algorithm/arch/avx2/Tile.hpp:tile"])
p("C02","gemm changes nothing but the elements of D",
 "gemm writes only the M*N elements of D: every other memory cell - the operands A, B, C, the padding of D, neighbouring columns and other objects - has the same value after the call as before.",
 "all sizes, layouts, values and surrounding memory contents",
 "A test can only look at the cells it thought of allocating around D.",[M+"algorithm/Gemm.hpp:gemm",M+"register_matrix/RegisterMatrix.hpp:store"])
p("C03","gemm stays inside the operands' storage",
 "For padded (and, if declared aligned, SIMD-aligned) operands gemm performs no access outside the storage of A, B, C, D and no misaligned aligned-access, for any size; for operands without padding whose row count is not a multiple of the SIMD width it may read past the end of A and C.",
 "all sizes, spacings and layouts",
 "An out-of-bounds read of a few lanes is invisible to a value test and depends on the allocator.",[M+"register_matrix/RegisterMatrix.hpp:ger",M+"register_matrix/RegisterMatrix.hpp:axpy"])
p("C04","gemm results are bitwise independent of layout and blocking",
 "For any arithmetic (no algebraic law assumed, in particular IEEE floating point) D(i,j) after gemm is one fixed expression: fma(beta, C(i,j), alpha * fold_k fma(A(i,k),B(k,j),.)) - the same for dense/panel storage, for every storage order of B, every traversal order, every position of (i,j) in a tile and every SIMD width.",
 "all scalar arithmetics, all sizes, layouts, traversal orders",
 "Bitwise reproducibility across layouts is a statement about all pairs of runs.",[M+"algorithm/Gemm.hpp:gemm",M+"algorithm/arch/avx2/Tile.hpp:tile",M+"panel/DynamicPanelMatrixPointer.hpp"])
p("C05","gemm may be used in place (C is D)",
 "gemm(alpha,A,B,beta,C,C) gives the same result as computing into a separate D.",
 "all sizes, values, layouts of A,B,C with C not overlapping A or B",
 "Aliasing hazards depend on the order in which tiles are read and written for each size.",[M+"algorithm/Gemm.hpp:gemm"])
p("C06","gemm rejects inconsistent sizes without side effects",
 "The matrix-argument gemm throws std::invalid_argument exactly when rows(B)!=columns(A), or C or D is not rows(A) x columns(B), and in that case no memory is modified; otherwise it does not throw.",
 "all combinations of operand sizes",
 "The size combinations are unbounded.",[M+"algorithm/Gemm.hpp:gemm"])
p("C07","gemm agrees with the reference gemm",
 "In exact arithmetic the optimized gemm and reference::gemm leave the same values in D for the same inputs.",
 "all sizes, values and layouts",
 W_SIZE,[M+"algorithm/Gemm.hpp:gemm",M+"reference/Gemm.hpp:gemm"])
p("C08","tile covers the matrix exactly once",
 "For every m, n and both traversal orders tile() terminates and the rectangles passed to the callbacks lie inside the m x n matrix, are pairwise disjoint and cover every element; f_full is called only with tiles of exactly the kernel size, every kernel has 1, 2 or 3 SIMD rows and 4 columns, tile origins are SIMD-row aligned and no kernel has an entirely unused SIMD row.",
 "all m, n, all SIMD widths, both traversal orders",
 W_SIZE,[M+"algorithm/Tile.hpp:tile",M+"algorithm/arch/avx2/Tile.hpp:tile",M+"algorithm/arch/neon64/Tile.hpp:tile"])
p("C09","ger computes the rank-1 update",
 "After ger(alpha,x,y,A,B) (column-major) in exact arithmetic B(i,j) = A(i,j) + alpha*x[i]*y[j] for all i<M, j<N, B may be A itself, and nothing but the elements of B is written; inconsistent sizes give std::invalid_argument and no change. The column-major guarantee needs a tile size equal to the SIMD width (AVX2); with larger tiles (NEON) x is read past its padded end (witness). The row-major overload does not check the size of B (witness).",
 "all sizes, values, layouts, in place or not",W_SIZE,[M+"dense/Ger.hpp:ger",M+"register_matrix/RegisterMatrix.hpp:ger"])
p("C10","syrkLower computes the lower triangle and only that",
 "After syrkLower(alpha,A,beta,C,D) every D(i,j) with j<=i equals beta*C(i,j) + alpha*sum_k A(i,k)*A(j,k) in exact arithmetic, and no other memory cell - in particular no strictly upper element of D - changes; D may be C. Holds when the tile size equals the SIMD width (AVX2); with larger tiles (NEON) A and C are read past their padded storage (witness).",
 "all sizes M,K, values and layouts",W_SIZE,[M+"dense/Syrk.hpp:syrkLower",M+"register_matrix/RegisterMatrix.hpp:storeLower"])
p("C11","left trmm multiplies by an upper-triangular matrix",
 "If A is upper triangular (zeros stored below the diagonal), after trmm(alpha,A,Upper,false,B,C) C = alpha*A*B in exact arithmetic and nothing but the elements of C is written; C may be B. This holds unless B is a column-major panel matrix of two or more tiles, for which the result is wrong (witness).",
 "all sizes, values and layouts",W_SIZE,[M+"algorithm/Trmm.hpp:trmm",M+"algorithm/Trmm.hpp:trmmLeftUpper_backend",M+"register_matrix/RegisterMatrix.hpp:trmm"])
p("C12","when left trmm ignores the strictly lower part of A",
 "If the sizes of B are multiples of the tile size, trmm(alpha,A,Upper,false,B,C) computes alpha*U*B with U the upper triangle of A, whatever the elements of A below the diagonal are (they need not even exist), as the BLAS convention demands. For other sizes it does use some elements below the diagonal (witness): exactly those that lie in the columns of the group of at most 3 SIMD widths of rows the row belongs to, and only in the tiles that are cut off by an edge of C. So it is enough that the caller stores zeros in the 3*SIMD-1 diagonals below the main one; what is further down never matters.",
 "all sizes and all values of the unreferenced elements",
 "Needs all pairs of inputs that agree on the upper triangle; the existing tests store zeros there.",[M+"algorithm/Trmm.hpp:trmmLeftUpper_backend"])
p("C13","right trmm multiplies by a lower-triangular matrix",
 "After trmm(alpha,B,A,Lower,false,C), C(i,j) = alpha*sum_{k>=j} B(i,k)*A(k,j) in exact arithmetic, elements of A above the diagonal are not used, and nothing but the elements of C is written; C may be B; for any arithmetic each element is one fixed expression independent of layout and tiling. With a tile larger than the SIMD width (NEON) and a column-major panel A the result is wrong (witness).",
 "all sizes, values and layouts",W_SIZE,[M+"algorithm/Trmm.hpp:trmm",M+"register_matrix/RegisterMatrix.hpp:trmm"])
p("C14","how trmm treats unsupported variants",
 "Size mismatches throw std::invalid_argument; left trmm with a lower triangle or a unit diagonal and right trmm with an upper triangle throw std::logic_error; in all these cases memory is unchanged. Right trmm with a unit diagonal does not throw: it terminates the program when both dimensions of B are at least one tile and otherwise silently uses the stored diagonal.",
 "all sizes, uplo, diag combinations",
 "Depends on which of the size-dependent branches is reached.",[M+"algorithm/Trmm.hpp:trmm",M+"register_matrix/RegisterMatrix.hpp:trmm"])
p("C15","potrf computes a Cholesky factor",
 "For an M x N matrix A, M >= N, whose first N rows are symmetric positive definite (only elements on and below the diagonal are used), after potrf(A,L) - dense or panel, L possibly A itself - the lower triangle of L satisfies L*L^T = A with positive diagonal, in exact real arithmetic, for every size for which the code stays inside the storage (C18); other sizes are rejected with invalid_argument.",
 "all N, all symmetric positive definite A",W_SIZE,[M+"dense/Potrf.hpp:potrf",M+"register_matrix/RegisterMatrix.hpp:potrf",M+"register_matrix/RegisterMatrix.hpp:trsm"])
p("C16","dense potrf leaves the strictly upper part of L untouched",
 "potrf on dense matrices does not modify any element L(i,j) with i<j, nor any memory outside L, and the computed lower triangle does not depend (bit for bit, in any arithmetic) on the strictly upper part of A or the previous content of L.",
 "all sizes and values",
 "Frame and non-interference properties quantify over all other cells and all pairs of inputs.",[M+"dense/Potrf.hpp:potrf_backend",M+"register_matrix/RegisterMatrix.hpp:storeLower"])
p("C17","panel potrf and the strictly upper part of L",
 "potrf on panel matrices leaves the elements of L above the KN x KN blocks on the diagonal and all memory outside L unchanged, and depends only on the lower triangle of A; unlike the dense version it overwrites the elements above the diagonal inside the diagonal blocks: with zeros in exact arithmetic if A is symmetric there - so that a new L is lower triangular after the call and the whole product L L^T equals A - and with other numbers if it is not (refuted).",
 "all sizes and values","Frame property over all cells.",[M+"panel/Potrf.hpp:potrf_backend"])
p("C18","potrf stays inside the storage of A and L",
 "potrf accesses only the storage (elements and padding) of its arguments, with correctly aligned accesses, whenever the number of columns is a multiple of the tile width KN (or both are DynamicPanelMatrix), the SIMD width divides KN (or N <= KN), and the rows rounded up to the tile height fit the padding; outside each of these conditions there are sizes with undefined behaviour (columns read past the end, misaligned access, rows past the end).",
 "all sizes M>=N, all SIMD widths",
 "Reading a few columns past the end is invisible to value tests.",[M+"dense/Potrf.hpp:potrf_backend",M+"register_matrix/RegisterMatrix.hpp:load"])
p("C19","getf2 factorizes P*A = L*U",
 "If getf2(m,n,A,ipiv) returns, then with L the unit lower trapezoidal and U the upper trapezoidal part of the overwritten matrix, L*U equals the original matrix with rows interchanged as recorded in ipiv, in exact arithmetic.",
 "all sizes m,n and all matrices, column-major and row-major",W_SIZE,[M+"dense/Getf2.hpp:getf2"])
p("C20","partial pivoting bounds",
 "ipiv[k] satisfies k <= ipiv[k] < m, and every element of the computed L has absolute value at most 1 (growth control of partial pivoting).",
 "all sizes and matrices on which getf2/getrf (column-major) return","Universally quantified inequality.",[M+"dense/Getf2.hpp:getf2",M+"dense/Iamax.hpp:iamax"])
p("C21","singular matrices are detected",
 "getf2 throws std::invalid_argument exactly when elimination meets a column whose entries on and below the diagonal are all zero; for square matrices it returns iff the matrix is invertible. It never divides by zero.",
 "all sizes and matrices","Every pivot position and value pattern.",[M+"dense/Getf2.hpp:getf2"])
p("C22","blocked getrf equals unblocked getf2",
 "Column-major getrf computes the same factorization property P*A = L*U as getf2 (pivot indices global, interchanges applied to all columns), for every block-size remainder.",
 "all sizes m,n and matrices",W_SIZE,[M+"dense/Getrf.hpp:getrf",M+"dense/Laswp.hpp:laswp",M+"dense/Trsm.hpp:trsm"])
p("C23","what row-major getrf really factorizes",
 "Row-major getrf never throws, sets ipiv[k]=k and computes L*U = A (no interchanges) for every matrix whose leading square blocks are nonsingular. It does not do the partial pivoting its documentation promises: on the invertible matrix [[0,1],[1,0]] it returns normally with factors that do not multiply to P*A, whatever a division by zero yields. Nor is it numerically stable: in binary64, on [[2^-60,1],[1,1]] (elements in [0,1], every matrix within 1/8 of it invertible) it returns normally with finite factors whose product has 0 where the matrix has 1.",
 "all sizes and matrices with nonsingular leading blocks; the refutation for every arithmetic of division by zero","Leading minors of all sizes; the failure needs a zero leading minor, which random tests never produce.",[M+"dense/Getrf.hpp:getrf"])
p("C24","swap and laswp permute rows",
 "swap exchanges two vectors elementwise and applying it twice restores them; laswp(A,k0,k1,ipiv) applies the row interchanges k<->ipiv[k] in order k0..k1-1 to every column, only reads ipiv[k0..k1-1], and is undone by applying the interchanges in reverse order.",
 "all sizes, index arrays and storage orders","Permutations compose over unbounded sequences.",[M+"dense/Swap.hpp:swap",M+"dense/Laswp.hpp:laswp"])
p("C25","iamax returns the first index of maximum absolute value",
 "iamax(x) returns the smallest i with |x[i]| >= |x[j]| for all j; an empty vector gives std::invalid_argument. In IEEE arithmetic infinities count as the largest values and NaN elements are passed over, unless the first element is NaN: then the result is 0.",
 "all non-empty vectors, any spacing/orientation","All lengths and tie patterns.",[M+"dense/Iamax.hpp:iamax"])
p("C26","SIMD imax returns the maximum and one of its indices",
 "imax(v, idx) returns in every lane the maximum of v and, when the maximum is attained once, the idx lane of the maximum, on AVX2 (float, double) and NEON64 (float, double) alike.",
 "all lane values over a linear order, all index vectors","All orderings and ties of the lanes.",[M+"simd/arch/Avx2.hpp:imax",M+"simd/arch/Neon64.hpp:imax",M+"simd/SimdVec.hpp:imax"])
p("C27","dense trsm solves A*X = B",
 "After trsm<UPLO,UNIT>(A,B,X) the triangular system A*X = B holds in exact arithmetic (non-zero diagonal when not UNIT), only the relevant triangle of A is used, X may be B, only X is written, sizes are checked.",
 "all sizes, values, storage orders, both triangles, unit or not","All sizes and aliasing.",[M+"dense/Trsm.hpp:trsm"])
p("C28","trsv solves A*x = b",
 "trsvLeftLower/trsvLeftUpper leave in x (of the size of b, possibly b itself) the solution of A*x = b in exact arithmetic (non-zero diagonal), read only the selected triangle of A and write only x; a matrix that is not square of the size of b gives std::invalid_argument.",
 "all sizes and values, in place or not","All sizes.",[M+"dense/Trsv.hpp:trsvLeftLower",M+"dense/Trsv.hpp:trsvLeftUpper"])
p("C29","reference trsm solves A*X = alpha*B and X*A = alpha*B, also in place",
 "reference::trsm leaves X solving the left or right triangular equation in exact arithmetic for upper/lower, unit/non-unit A, uses only the relevant triangle, X may equal B.",
 "all sizes, uplo, diag, values, layouts","All sizes; in-place safety depends on iteration order.",[M+"reference/Trsm.hpp:trsm"])
p("C30","reference trmm multiplies by a triangular matrix, also in place",
 "reference::trmm leaves C = alpha*tri(A)*B (left) or alpha*B*tri(A) (right) in exact arithmetic where tri(A) is the selected triangle with optional unit diagonal; C may equal B; only the triangle is used. (For the left version with matrix arguments this is what its own source says; which function it really calls is C93.)",
 "all sizes, uplo, diag, values, layouts","All sizes; in-place safety depends on iteration order.",[M+"reference/Trmm.hpp:trmm"])
p("C31","element storage is injective and in bounds",
 "Two distinct elements (i,j) of a matrix never share a storage cell and every element's cell lies inside the allocated storage, for dense and panel, static and dynamic matrices, both storage orders.",
 "all sizes and SIMD widths","Index arithmetic over all sizes.",[M+"dense/DynamicMatrix.hpp:elementIndex",M+"dense/StaticMatrix.hpp:elementIndex",M+"panel/DynamicPanelMatrix.hpp:elementIndex",M+"panel/StaticPanelMatrix.hpp:elementIndex"])
p("C32","a matrix behaves like a map from indices to values",
 "After any sequence of element writes m(i,j)=v a read m(i,j) returns the last value written to (i,j), or the initial 0 if there was none.",
 "all sizes, all finite histories of writes","Histories are unbounded.",[M+"dense/DynamicMatrix.hpp",M+"dense/StaticMatrix.hpp",M+"panel/DynamicPanelMatrix.hpp",M+"panel/StaticPanelMatrix.hpp"])
p("C33","reset() sets all elements to zero and stays in bounds - for panel matrices only of some shapes",
 "After reset() of a dense matrix every element is 0 and no memory outside the matrix storage is written. For a non-empty DynamicPanelMatrix this holds iff the extent across the panels is at most the padded extent along the panels and at least the number of panels: wider matrices are written out of bounds, taller ones keep old elements.",
 "all sizes, storage orders, container kinds","All size combinations m,n.",[M+"dense/DynamicMatrix.hpp:reset",M+"dense/StaticMatrix.hpp:reset",M+"panel/DynamicPanelMatrix.hpp:reset",M+"views/Submatrix.hpp:reset"])
p("C34","initializer lists construct the written matrix",
 "StaticMatrix{...}/StaticPanelMatrix{...} built from a row list throws std::invalid_argument iff the number of rows differs from M or some row is longer than N; otherwise element (i,j) is the j-th entry of the i-th list, or 0 when the row is shorter, and all padding elements of the storage are 0.",
 "all sizes and lists","All list shapes.",[M+"dense/StaticMatrix.hpp:StaticMatrix",M+"panel/StaticPanelMatrix.hpp:StaticPanelMatrix"])
p("C35","matrix pointer arithmetic is consistent with element access",
 "ptr(m,i,j) designates the same cell as m(i,j); p(i,j)(k,l) designates the same cell as p(i+k,j+l); hmove/vmove equal the corresponding offsets; trans() exchanges row and column offsets; ~ keeps the position. For pointers to panel matrices these laws hold for pointers that are at the start of a panel (as aligned pointers must be); moving a pointer inside a panel across its end gives the wrong cell (witness).",
 "all pointers, offsets, layouts (dense and panel)","Index arithmetic over all offsets.",[M+"dense/DynamicMatrixPointer.hpp",M+"dense/StaticMatrixPointer.hpp",M+"panel/DynamicPanelMatrixPointer.hpp",M+"panel/StaticPanelMatrixPointer.hpp"])
p("C36","partial register load/store touch exactly the requested rectangle",
 "RegisterMatrix::store(p,m,n) writes exactly the elements (i,j), i<m, j<n, with the register values and nothing else; load(beta,p,m,n) through an unaligned or unpadded pointer reads exactly those elements and store after load(1,..) copies them.",
 "all kernel sizes, m, n, SIMD widths, memory contents","Lane masks for every remainder.",[M+"register_matrix/RegisterMatrix.hpp:store",M+"register_matrix/RegisterMatrix.hpp:load"])
p("C37","storeLower writes exactly the lower triangle",
 "RegisterMatrix::storeLower(p) and storeLower(p,m,n) write exactly the elements with i>=j (and i<m, j<n) and nothing else.",
 "all kernel sizes, m, n, SIMD widths","Lane masks for every column.",[M+"register_matrix/RegisterMatrix.hpp:storeLower"])
p("C38","register triangular solve and Cholesky kernels",
 "RegisterMatrix::trsm(Right,Upper,A) replaces the register matrix B by X with X*A = B; RegisterMatrix::potrf() replaces the lower part of a positive definite top block by its Cholesky factor and the rows below by the corresponding solve, in exact arithmetic. trsm for the other sides and triangles is not implemented: a release build silently leaves B as it was.",
 "all kernel sizes and values","All values.",[M+"register_matrix/RegisterMatrix.hpp:trsm",M+"register_matrix/RegisterMatrix.hpp:potrf"])
p("C39","views address the right elements and compose",
 "submatrix(m,i,j,..)(k,l) is m(i+k,j+l); a submatrix of a submatrix is the submatrix at the summed offsets; row(m,i,j,n)[k] is m(i,j+k); writing, resetting or assigning to a view changes exactly the viewed elements; the pointer of a view designates the viewed elements, for views of panel matrices if they start on a panel boundary (and not otherwise).",
 "all offsets and sizes","All offset combinations.",[M+"views/Submatrix.hpp",M+"views/submatrix/Panel.hpp"])
p("C40","panel submatrix creation is checked",
 "A PanelSubmatrix is created iff it fits in the matrix and starts at a panel boundary: otherwise std::invalid_argument respectively std::logic_error is thrown, as long as offset+size does not wrap around (a wrapped request is accepted); at() throws std::out_of_range outside; a view of a view is checked against the underlying matrix only; row() of a panel matrix checks its index; offset() is right for column-major and wrong for row-major views.",
 "all offsets, sizes","All offset combinations.",[M+"views/submatrix/Panel.hpp:PanelSubmatrix"])
p("C41","dense<->panel assignment copies exactly",
 "assign between dense and panel matrices of equal size copies every element and modifies no cell outside the target's elements (for two column-major matrices the dense one must be SIMD-aligned: an unaligned one is accessed with aligned instructions); copying back and forth restores the elements; sizes are not compared, and a larger right-hand side is written outside of the target.",
 "all sizes, storage orders","Remainder branches per size.",[M+"expressions/PanelMatrix.hpp:assign"])
p("C42","matrix comparison and generic assignment",
 "operator== throws std::invalid_argument on different sizes and otherwise is true iff all elements are equal; assign(a,b) throws on different sizes and otherwise copies all elements, modifying nothing else.",
 "all sizes, values, layouts","All sizes.",[M+"Matrix.hpp:operator==",M+"Matrix.hpp:assign"])
p("C43","makePositiveDefinite yields a symmetric positive definite matrix",
 "For a square dense matrix or view the produced matrix is R*R^T+N*I (R the matrix of drawn numbers): it is symmetric and x^T*A*x > 0 for all x != 0, whatever the random numbers drawn, and nothing outside the matrix (the viewed block) changes; non-square arguments are rejected with std::invalid_argument; randomize writes exactly the elements.",
 "all sizes, all random draws","Quantifies over all random draws and all vectors x.",[M+"algorithm/MakePositiveDefinite.hpp:makePositiveDefinite"])
p("C44","nextMultiple and spacing",
 "nextMultiple(v,f) is the least multiple of f that is >= v (f>0); hence every column (row) of a column-major (row-major) blast matrix starts on a SIMD boundary and has room for a full SIMD load of its last element.",
 "all v, f, sizes","All integers.",[B+"util/NextMultiple.hpp:nextMultiple",M+"dense/DynamicMatrix.hpp",M+"dense/StaticMatrix.hpp"])
p("C45","transposition is an involution on elements",
 "trans(m)(i,j) is m(j,i), trans(trans(m)) has the elements and size of m, and the declared storage order is flipped.",
 "all matrices and indices","All indices.",[M+"expressions/MatTransExpr.hpp",M+"expressions/PMatTransExpr.hpp"])
p("C46","reference gemm, ger and axpy compute their documented results",
 "reference::gemm, reference::ger and reference::axpy leave exactly alpha*A*B+beta*C, A+alpha*x*y^T, alpha*A+B in the output for all sizes, check sizes, and write nothing else.",
 "all sizes, values, layouts","All sizes.",[M+"reference/Gemm.hpp:gemm",M+"reference/Ger.hpp:ger",M+"reference/Axpy.hpp:axpy"])
p("C47","masked SIMD loads and stores touch only selected lanes",
 "A masked load reads only the cells of selected lanes and yields 0 in the others; a masked store changes exactly the cells of selected lanes; a store followed by a load of the same lanes returns the stored values.",
 "all masks, SIMD widths, addresses, memory contents","All masks and memories.",[M+"simd/arch/Avx2.hpp:maskload",M+"simd/arch/Neon64.hpp:maskstore",M+"simd/SimdVec.hpp"])
p("C48","vector pointers address strided vectors",
 "A vector pointer designates element i at distance i*spacing; load/store gather and scatter exactly the selected elements; row()/column() of a matrix pointer address that row/column.",
 "all spacings, offsets, masks","All strides.",[M+"dense/DynamicVectorPointer.hpp",M+"dense/StaticVectorPointer.hpp",M+"RowColumnVectorPointer.hpp"])
p("C49","gemm on views touches only the viewed block",
 "gemm with submatrix views (also blocks of one and the same matrix) as A, B, C, D leaves alpha*A*B+beta*C in the viewed block of D and changes no other cell, provided the SIMD padding of the views lies inside the storage; it throws std::invalid_argument on inconsistent sizes; without the padding condition it reads out of bounds.",
 "all sizes, offsets, values, overlapping-free placements","All block positions of all matrices.",[M+"algorithm/Gemm.hpp:gemm",M+"views/Submatrix.hpp"])
p("C50","solving A*X=B through LU or Cholesky factorization",
 "After ipiv = getrf(A); laswp(B, ipiv); trsm(lower, unit, A, B); trsm(upper, A, B) the matrix left in B satisfies A0*X = B0, where A0, B0 are the matrices before the calls, for every square A0 that is not singular in the pivoting sense; if a zero pivot is met getrf throws std::invalid_argument and B is unchanged. After potrf(A, L) and the two triangular solves with L and trans(L), X satisfies A0*X = B0 for every symmetric positive definite A0.",
 "all sizes, right-hand sides, values, layouts","Composition of four algorithms over all matrices.",[M+"dense/Getrf.hpp:getrf",M+"dense/Laswp.hpp:laswp",M+"dense/Trsm.hpp:trsm",M+"dense/Potrf.hpp:potrf"])
p("C51","factorizations, rank updates and triangular operations on submatrix views",
 "syrk, ger, getf2 and getrf, trmm, trsm and potrf applied to (pairwise disjoint or identical) submatrix views compute in the viewed block what they compute on whole matrices and change no cell outside of the viewed block of the output, provided the block is aligned and its SIMD padding rows are not part of it being overwritten (potrf: row count a multiple of the tile); potrf on a view whose row count is not such a multiple overwrites rows below the block, and syrk on a block that is not aligned has undefined behaviour.",
 "all sizes, offsets, values","All block positions of all matrices.",[M+"dense/Syrk.hpp:syrk",M+"dense/Getf2.hpp:getf2",M+"algorithm/Trmm.hpp:trmm",M+"views/Submatrix.hpp",M+"dense/Potrf.hpp:potrf"])
p("C52","whole histories of matrix objects behave like values",
 "In every program built from construction (default, sized, filled, from a list), copy, move, assignment, fill, element access, comparison, reset, gemm and destruction of matrices of the four classes, every step has the outcome and effect specified on matrix values: no operation on one object changes another, exceptions leave everything unchanged, there is no undefined behaviour (given valid indices, existing objects and column-major gemm operands), padding elements stay 0 (unless a StaticMatrix is constructed from a value), and when all objects are destroyed all memory has been released. Copying a DynamicMatrix or DynamicPanelMatrix throws std::logic_error and moving one terminates the program. (The destructors release memory from the aligned operator new[] with the plain operator delete[], which is undefined behaviour by the letter of the standard.)",
 "all finite histories of operations, all sizes, layouts, values and storage addresses","Arbitrarily long interleavings of operations on arbitrarily many objects.",[M+"dense/DynamicMatrix.hpp:DynamicMatrix",M+"dense/StaticMatrix.hpp:StaticMatrix",M+"panel/DynamicPanelMatrix.hpp:DynamicPanelMatrix",M+"panel/StaticPanelMatrix.hpp:StaticPanelMatrix",M+"Matrix.hpp:assign"])
p("C53","StaticVector objects behave like values",
 "Constructing, filling or resetting a StaticVector sets every element (and the SIMD padding) to the value; construction from an initializer list takes the first N entries and zeroes the rest; any history of fills, resets, element reads, element writes and assignments over any number of vectors returns what it returns on values, and no operation changes another vector or any other memory.",
 "all vector sizes, lists, memory contents and histories","Arbitrarily long histories over arbitrarily many vectors.",[M+"dense/StaticVector.hpp:StaticVector"])
p("C54","random panel matrices have the promised structure",
 "randomize(A) gives every element the number drawn for it and touches only elements; generating a panel matrix also leaves zero padding; makeSymmetric leaves a symmetric matrix with the drawn lower triangle, makeHermitian one whose upper triangle is the conjugate of the lower; makePositiveDefinite leaves the symmetric positive definite matrix R*R^T+N*I, which potrf factorizes without exception, whatever numbers are drawn; the three throw std::invalid_argument on non-square matrices and change nothing.",
 "all sizes, all sequences of random numbers, all memory contents","All outcomes of the random generator.",[M+"DynamicPanelMatrix.hpp:Rand",M+"DynamicPanelMatrix.hpp:makePositiveDefinite",M+"StaticPanelMatrix.hpp:Rand",M+"StaticPanelMatrix.hpp:makeSymmetric"])
p("C55","register matrices of dynamic size, and comparison of register matrices",
 "A DynamicRegisterMatrix(m,n) starts with zeros; load followed by store copies exactly the m x n block and changes no other memory; storeLower writes exactly the lower triangle; ger adds alpha*a*b^T elementwise. load and ger require all maxRows() rows of the source (not only m) to be readable; without them load reads out of bounds. A register matrix (static or dynamic) equals a matrix exactly when sizes and all elements agree; the comparison never throws.",
 "all sizes, register shapes, SIMD widths, positions, values, memory contents","All sizes and memories.",[M+"register_matrix/DynamicRegisterMatrix.hpp:DynamicRegisterMatrix",M+"register_matrix/RegisterMatrix.hpp:operator=="])
p("C56","accuracy of gemm, ger, syrk and trmm in rounded arithmetic",
 "If every scalar operation (including fused multiply-add) has relative error at most u, the computed alpha*A*B+beta*C of gemm differs from the exact one, element by element, by at most ((1+u)^(K+2)-1)*(|alpha||A||B|+|beta||C|), K the inner dimension; likewise ger (2 roundings), syrkLower (K+1), trmm (K+1). The bounds hold whatever the tile, SIMD width, layout and size.",
 "all sizes, layouts, values, all rounding functions with relative error at most u",
 "Quantifies over all values and all rounding behaviours; tests compare with a tolerance on random inputs.",[M+"algorithm/Gemm.hpp:gemm",M+"algorithm/Ger.hpp:ger",M+"algorithm/Syrk.hpp:syrkLower",M+"algorithm/Trmm.hpp:trmm"])
p("C57","backward error of the triangular solvers in rounded arithmetic",
 "If every scalar operation has relative error at most u, the X computed by trsm (left), trsv and the reference trsm (left and right, any uplo, unit or not, any alpha) for an n x n triangular matrix with nonzero diagonal satisfies |alpha*B - T*X| <= ((1/(1-u))^p - 1)*|T|*|X| element by element, p = n (n+1 for the reference versions, which scale by alpha); nothing but X is written.",
 "all sizes, layouts, values, aliasing X = B, all rounding functions with relative error at most u",
 "Quantifies over all values and all rounding behaviours.",[M+"dense/Trsm.hpp:trsm",M+"dense/Trsv.hpp:trsv",M+"reference/Trsm.hpp:trsm"])
p("C58","backward error and breakdown of the Cholesky factorization in rounded arithmetic",
 "If every scalar operation has relative error at most u: for a matrix that is positive definite by a margin of about N^2 u relative to its diagonal, potrf (dense and panel, in place or not) meets no breakdown and leaves a lower triangular L with positive diagonal and |A - L*L^T| <= ((1/(1-u))^(N+4) - 1)*|L|*|L|^T. For an arbitrary matrix of numbers it either leaves a NaN in the lower triangle of L or L satisfies that bound: failure never goes unnoticed.",
 "all sizes, layouts, values, all rounding functions with relative error at most u",
 "Quantifies over all values and all rounding behaviours.",[M+"dense/Potrf.hpp:potrf",M+"panel/Potrf.hpp:potrf"])
p("C59","backward error, growth and breakdown of the LU factorization in rounded arithmetic",
 "If every scalar operation has relative error at most u < 1: getf2 (both storage orders) and column-major getrf either return or throw std::invalid_argument, changing only the elements of A (and the first min(m,n) pivot indices on return). On return |P*A - L*U| <= g*|L|*|U| element by element with g = (1/(1-u))^(2 min(m,n)) - 1, the same for the blocked and the unblocked algorithm; pivot indices are in range, multipliers are at most 1+u (row-major: (1+u)^2), no pivot is zero and U grows at most by a factor of about 2 per step. They do return unless a singular matrix lies within g*min(m,n)*(1+u)*growth of A. Row-major getrf always returns, without interchanges; the residual bound holds if no computed pivot is zero.",
 "all sizes, block sizes, SIMD widths, values, all rounding functions with relative error at most u",
 "Quantifies over all values and all rounding behaviours; the invalid_argument condition is about a neighbourhood of the input.",[M+"dense/Getf2.hpp:getf2",M+"dense/Getrf.hpp:getrf",M+"dense/Trsm.hpp:trsm",M+"dense/Gemm.hpp:gemm",M+"dense/Laswp.hpp:laswp"])
p("C60","solving linear systems in rounded arithmetic",
 "If every scalar operation has relative error at most u: the sequence getrf, laswp, trsm<Lower,Unit>, trsm<Upper,NonUnit> on A and B either throws std::invalid_argument, leaving everything but A unchanged, or leaves X in B with |P*B - P*A*X| <= 2((1/(1-u))^(2n) - 1)*|L|*|U|*|X|; it returns, with |B - A*X| bounded by about n^2 u growth max|A| sum|X|, unless a singular matrix is that close to A. potrf, trsm, trsm on a symmetric matrix that is positive definite by a margin returns X with |B - S*X| <= ((1/(1-u))^(2n) + (1/(1-u))^(n+4) - 2)*|L|*|L|^T*|X|.",
 "all sizes, block sizes, layouts, matrices and right hand sides, all rounding functions with relative error at most u",
 "Quantifies over all values and all rounding behaviours of a composition of four routines.",[M+"dense/Getrf.hpp:getrf",M+"dense/Laswp.hpp:laswp",M+"dense/Trsm.hpp:trsm",M+"dense/Potrf.hpp:potrf"])
p("C61","operation counts reported by the benchmark helpers",
 "complexityPotrf(m,n) reports, for m >= n, exactly the multiplications, additions, divisions and square roots of the textbook Cholesky loops on an m x n lower trapezoid, as long as the intermediate products fit into std::size_t; complexityTrsm_RightUpper reports the additions and multiplications of the textbook loops; complexityGetrf reports for square matrices the right number of divisions and as additions/multiplications the number of updates plus the number of divisions, and is symmetric in m and n. setCounters sets 'flops' to add+mul. Where they are wrong (divisions of trsm; updates of getrf for non-square matrices, where unsigned arithmetic wraps around) counterexamples are proved.",
 "all sizes below the overflow bound","Closed formulas against loop counts for every m, n; unsigned wrap-around.",["include/bench/Complexity.hpp:complexityPotrf","include/bench/Complexity.hpp:complexityTrsm_RightUpper","include/bench/Complexity.hpp:complexityGetrf","include/bench/Complexity.hpp:setCounters"])
p("C62","what a passing comparison of the test suite means",
 "approxEqual of two matrices returns success only if sizes agree and every pair of finite elements satisfies (1-u)|a-b| <= (1+u)^2 (atol+rtol|b|) (u the rounding error of the comparison itself), and does return success if (1+u)|a-b| <= (1-u)^2 (atol+rtol|b|) everywhere; otherwise it reports the first mismatch in row order; likewise for vectors, numbers and element-wise tolerances. exactEqual succeeds iff sizes and all elements agree and no element is NaN. The comparison reads elements only. Refuted: with an expected infinity any number passes, and the vector and scalar versions accept NaN.",
 "all sizes, layouts, IEEE values (numbers, infinities, NaN), rounding functions with relative error at most u","Quantifies over all values, and is about the tests themselves.",["include/test/Testing.hpp:approxEqual","include/test/Testing.hpp:exactEqual"])
p("C63","accuracy of the reference implementations, and what comparing with them shows",
 "If every scalar operation has relative error at most u, reference::gemm differs from the exact alpha*A*B+beta*C by at most ((1+u)^(K+3)-1)(|alpha||A||B|+|beta||C|), reference ger by (1+u)^3-1, axpy by (1+u)^2-1, trmm (left/right, any triangle, unit or not) by (1+u)^(n+2)-1 relative to the magnitudes; nothing but the output is written. gemm and reference::gemm differ by at most the sum of their bounds, so the comparison of the test suite succeeds whenever the tolerances allow that (in particular with tolerance 1e-11 in double precision for elements in [-1,1] and K <= 200); and if the comparison of a matrix D, left by whatever program, with the reference result succeeds, D is within the tolerance plus the reference error of the exact result.",
 "all sizes, layouts, values, all rounding functions with relative error at most u","Tests check single runs; this is about all values and what a passing test implies.",[M+"reference/Gemm.hpp:gemm",M+"reference/Ger.hpp:ger",M+"reference/Axpy.hpp:axpy",M+"reference/Trmm.hpp:trmm","include/test/Testing.hpp:approxEqual","include/test/Tolerance.hpp:absTol"])
p("C64","size computations in 64-bit std::size_t",
 "If the number of elements a DynamicMatrix(m,n) or DynamicPanelMatrix(m,n) has to allocate is, as an unbounded integer, below 2^64, the constructor fails exactly if the allocation exceeds what operator new[] can give, otherwise allocates exactly that number, and every element, padding included, has its own place within the array. Refuted: nothing checks the multiplication, so sizes whose product wraps around (2^32 x 2^32) are accepted and give an object whose storage is too small; for DynamicMatrix the elements have places of their own in the array if and only if the size does not wrap.",
 "all 64-bit m, n, both storage orders, all SIMD sizes, element sizes and allocation limits","Overflow occurs for sizes no test allocates.",[M+"dense/DynamicMatrix.hpp:DynamicMatrix",M+"panel/DynamicPanelMatrix.hpp:DynamicPanelMatrix","include/blast/util/NextMultiple.hpp:nextMultiple"])
p("C65","conversion between Blaze and BLASFEO matrices",
 "blasfeo::pack(A,sB,bi,bj) copies element (i,j) of A to element (bi+i,bj+j) of sB, unpack(m,n,sA,ai,aj,B) copies element (ai+i,aj+j) of sA to element (i,j) of B, unpack_tran to element (j,i), for either storage order of the Blaze matrix, and nothing else is changed; packing and unpacking gives the matrix back; a packed column (row) vector fills a column (row) of the block; assigning a matrix of another size to a blasfeo::DynamicMatrix throws std::invalid_argument and changes nothing.",
 "all sizes, offsets, spacings, storage orders, layouts of the BLASFEO matrix with distinct cells, all values","Index arithmetic for every size, offset and combination of storage orders; absence of other writes.",["include/blasfeo/BlazeInterop.hpp:pack","include/blasfeo/BlazeInterop.hpp:unpack","include/blasfeo/BlazeInterop.hpp:unpack_tran","include/blasfeo/DynamicMatrix.hpp:operator="])
p("C66","ownership of memory in the BLASFEO wrappers",
 "Whatever sequence of constructions, moves, swaps and destructions of blasfeo::detail::AlignedStorage objects is executed, no block is freed twice and every allocated block is held by exactly one object, so none is left when no object is. The same holds for blasfeo::DynamicMatrix as long as no object is copied; refuted: it has the implicit copy operations, and every history with one copy construction, or copy assignment between different objects, that destroys all its objects frees a block that is not allocated.",
 "all finite histories, all choices of the allocator (reuse of blocks, failure)","Ranges over histories of any length and allocator behaviour.",["include/blasfeo/Memory.hpp:AlignedStorage","include/blasfeo/DynamicMatrix.hpp:DynamicMatrix"])
p("C67","library calls are local: no allocation, no access outside the arguments, independent calls commute",
"gemm, ger, syrk, trmm (left and right), trsm, potrf (dense and panel), getf2, getrf and laswp read and write only the storage of the matrices and vectors they are given, and write only the output: for any two memories that agree on the arguments' storage - whatever else is allocated and whatever it contains - the call ends with the same result or exception, the same contents of the output, and all other cells as they were. No algorithm allocates or frees memory, for any arguments, also when it throws. Consequently calls none of which writes what another one uses may be made in any order (inputs may be shared): each ends as if made alone and the final memory is the same.",
"all sizes, layouts, values, arithmetics, all memories agreeing on the arguments, all orders of any number of calls",
"tests run in one memory image and one order; an access outside the arguments or a dependence on unrelated memory shows up only in some memory images",
[M+"algorithm/Gemm.hpp: gemm",M+"dense/Ger.hpp: ger",M+"dense/Syrk.hpp: syrkLower",M+"algorithm/Trmm.hpp: trmm",M+"dense/Trsm.hpp: trsm",M+"dense/Potrf.hpp: potrf",M+"panel/Potrf.hpp: potrf",M+"dense/Getf2.hpp: getf2",M+"dense/Getrf.hpp: getrf",M+"dense/Laswp.hpp: laswp"])
p("C68","the LU factorizations are safe on all numbers, also NaN and infinity",
"getf2 (both storage orders) and getrf, on any live matrix and whatever the arithmetic does - comparisons may have any outcome, divisions any result - end by returning or by throwing std::invalid_argument; they change only elements of A; when they return, ipiv[k] is a row index with k <= ipiv[k] < rows for every k below min(rows, columns) and the other entries of ipiv are unchanged. So laswp with these indices and the two triangular solves are in bounds and return as well. Row-major getrf never throws. A matrix of NaNs is not reported as singular: getf2 returns NaN factors.",
"all sizes, alignments and capacities, all element values incl. NaN and infinities, all arithmetics",
"memory safety would have to be tried for every pattern of comparison results; tests use random finite matrices",
[M+"dense/Getf2.hpp: getf2",M+"dense/Getrf.hpp: getrf",M+"dense/Iamax.hpp: iamax",M+"dense/Laswp.hpp: laswp",M+"dense/Trsm.hpp: trsm"])
p("C69","whole programs that mix object operations and algorithm calls behave like the same programs on mathematical matrices",
"Take any program of constructions, copies, moves, assignments, element accesses, comparisons, resets, products and destructions of matrix objects of the four classes, interleaved with calls of randomize, makePositiveDefinite, trmm (left upper, right lower), syrk, trsm, potrf, getf2, getrf and laswp on those objects (in place where documented), each call respecting the documented preconditions at the moment it is made. In exact arithmetic no step has undefined behaviour; the outcome of every step (return, value read, std::invalid_argument for wrong sizes or singular matrices, std::logic_error, termination) and the final values of all objects and pivot arrays are those of the same program on matrices as mathematical values; objects never overlap, and memory and heap contain exactly the storage of the living objects - after any exceptions on the way - so nothing leaks when all are destroyed. In particular getrf; laswp; trsm; trsm at any point of such a program solves A X = B, and makePositiveDefinite; potrf gives the Cholesky factor of R R^T + n I.",
"all finite programs, all numbers and classes of objects, all sizes, values, random numbers, addresses given by the allocator",
"tests run single calls on fresh objects; interactions (aliasing of arguments, padding left by one call and read by the next, state after an exception) need all interleavings",
[M+"dense/DynamicMatrix.hpp: DynamicMatrix",M+"dense/StaticMatrix.hpp: StaticMatrix",M+"panel/DynamicPanelMatrix.hpp: DynamicPanelMatrix",M+"panel/StaticPanelMatrix.hpp: StaticPanelMatrix",M+"algorithm/Randomize.hpp: randomize",M+"algorithm/MakePositiveDefinite.hpp: makePositiveDefinite",M+"algorithm/Trmm.hpp: trmm",M+"dense/Syrk.hpp: syrkLower",M+"dense/Trsm.hpp: trsm",M+"dense/Potrf.hpp: potrf",M+"panel/Potrf.hpp: potrf",M+"dense/Getf2.hpp: getf2",M+"dense/Getrf.hpp: getrf",M+"dense/Laswp.hpp: laswp"])
p("C70","thread safety: concurrent calls with separate outputs do not interfere, under every schedule",
"Threads call gemm, ger, syrk, trmm, trsm, potrf, getf2, getrf or laswp (each thread any sequence of calls), reading shared inputs if they like; no thread writes storage that another one uses. Then, however the scheduler interleaves the memory accesses of the threads: there is no data race (no two accesses of different threads to the same element of which one is a write); no access is to memory outside the storage of the call's own arguments; no memory is allocated or freed; at every moment only output elements have changed (no temporary writes to padding of or elements next to the output that another thread may own - e.g. syrk touches nothing above the diagonal); every call returns or throws exactly what it would have alone and leaves the same output; it does so after a number of its own accesses that does not depend on the others; the final memory does not depend on the schedule.",
"all numbers of threads, all schedules (interleavings of single accesses, complete or not), all call sequences, sizes, values and arithmetics, any sharing of inputs",
"schedules cannot be enumerated; a race that is benign on the test machine is undefined behaviour, and a write-then-restore of a neighbour's element is invisible to every sequential test",
[M+"algorithm/Gemm.hpp: gemm",M+"dense/Ger.hpp: ger",M+"dense/Syrk.hpp: syrkLower",M+"algorithm/Trmm.hpp: trmm",M+"dense/Trsm.hpp: trsm",M+"dense/Potrf.hpp: potrf",M+"panel/Potrf.hpp: potrf",M+"dense/Getf2.hpp: getf2",M+"dense/Getrf.hpp: getrf",M+"dense/Laswp.hpp: laswp",M+"register_matrix/RegisterMatrix.hpp: store",M+"register_matrix/RegisterMatrix.hpp: storeLower"])
p("C71","The register gemm kernels and gemm(A, B, C, D)",
"gemm(ker, K, a, b, c, d) and gemm(ker, K, alpha, a, b, beta, c, d), called with matrix pointers, store into the (RM*SS) x N block at d the values C + A B (alpha A B + beta C), each element being the documented chain of fused multiply-adds, computed from the values the operands had before the call: the result is independent of any overlap between a, b, c and d and of the previous contents of the register matrix, and nothing outside the block is changed. The partial versions, with trailing arguments md, nd, do the same for the md x nd block and write nothing else. (Defect: the partial version without alpha and beta needs all N columns of c to be readable although it is documented to need md x nd; with only these allocated it reads outside the operand.) gemm(A, B, C, D) makes D equal to A B + C, changes nothing but the elements of D, and rejects exactly the inconsistent sizes with std::invalid_argument before accessing memory.",
"every register size, every K, md, nd, all pointers (also overlapping ones), all element values, all matrices of all sizes",
"a test checks one register shape and K with separate operands; overlaps, borders and all values cannot be enumerated",
[M+"register_matrix/Gemm.hpp: gemm",M+"algorithm/Gemm.hpp: gemm"])
p("C72","whole programs whose operands are blocks and transposes behave like the same programs on mathematical matrices",
"Take any program as in C69 that also calls assign, reset, element access, randomize, gemm, trmm, syrk, trsm, potrf, getf2, getrf and laswp on submatrices (aligned and unaligned), submatrices of submatrices and transposes of its dense matrix objects - any number of operands of a call may be blocks of the same object, as long as the output does not overlap an input except exactly in place. If every call respects the preconditions at the moment it is made (blocks inside their matrices, declared aligned only if they are, storage orders), then in exact arithmetic no step has undefined behaviour, and the outcomes of all steps and the final values of all objects are those of the same program on mathematical matrices: a call changes only the elements of its output block; every other element of the same object, every other object and every pivot array is as before.",
"all finite programs, all nestings of views, all numbers of objects, all sizes, positions, values",
"tests call the algorithms on one or two fixed submatrices; that a vectorised kernel working on a block never disturbs its neighbours in the same object, whatever ran before, concerns every block position and every history",
[M+"views/Submatrix.hpp: Submatrix",M+"views/Submatrix.hpp: submatrix",M+"expressions/MatTransExpr.hpp: trans",M+"algorithm/Gemm.hpp: gemm",M+"algorithm/Trmm.hpp: trmm",M+"dense/Syrk.hpp: syrkLower",M+"dense/Trsm.hpp: trsm",M+"dense/Potrf.hpp: potrf",M+"dense/Getf2.hpp: getf2",M+"dense/Getrf.hpp: getrf",M+"dense/Laswp.hpp: laswp",M+"algorithm/Randomize.hpp: randomize"])
p("C73","blocked algorithms can be built from the library's calls on submatrices",
"A client that factors an n x n positive definite matrix object in place with block size b - for each block column, potrf in place on the submatrix from the diagonal block down, then syrkLower(-1, A21, 1, A22, A22) - ends, whatever the number of blocks, with the Cholesky factor in the lower triangle and the strict upper triangle unchanged, no call throwing. A client that solves L X = B in place by blocks - trsm with each diagonal block, then gemm(-1, L21, X1, 1, X2, X2) - ends with L X = B for the object's former contents B. In both cases nothing else in the client's state changes.",
"all block sizes divisible by the SIMD width, all numbers of blocks and of right-hand sides, all values, all states of the client program in which the objects exist",
"composition of dozens of in-place calls on overlapping aligned blocks: an error in one boundary tile only shows for particular block counts and sizes",
[M+"dense/Potrf.hpp: potrf",M+"dense/Syrk.hpp: syrkLower",M+"dense/Trsm.hpp: trsm",M+"algorithm/Gemm.hpp: gemm",M+"views/Submatrix.hpp: submatrix"])
p("C74","the result of a call depends on the elements of its arguments only, bit for bit",
"Take two calls of the same function (gemm, ger, syrkLower, trmm left or right, trsm, potrf on dense or panel matrices, getf2, getrf - column-major and row-major - or makePositiveDefinite) with arguments of the same sizes and the same elements, in different memories: objects of other classes, at other addresses, with other padding, in place or not, with other contents around them. Then both calls end in the same way - both return, with the same pivots, or both throw the same exception - and the elements of the result are the same, bit for bit, in every floating-point arithmetic, with rounding, overflow, NaN and infinities; for gemm, ger, syrkLower, trmm right, trsm, getf2 and row-major getrf also if the SIMD widths differ. In particular no result depends on padding, on uninitialised memory or on addresses; where only a triangle is an argument, the other one does not matter; after std::invalid_argument the half-factorized matrix is determined too.",
"all sizes, element values, arithmetics, object classes, addresses, memories",
"a test runs in one memory layout; that no padding or stale value reaches a result, for any NaN pattern, is a statement about pairs of executions",
[M+"algorithm/Gemm.hpp: gemm",M+"dense/Ger.hpp: ger",M+"dense/Syrk.hpp: syrkLower",M+"algorithm/Trmm.hpp: trmm",M+"dense/Trsm.hpp: trsm",M+"dense/Potrf.hpp: potrf",M+"panel/Potrf.hpp: potrf",M+"dense/Getf2.hpp: getf2",M+"dense/Getrf.hpp: getrf",M+"algorithm/MakePositiveDefinite.hpp: makePositiveDefinite"])
p("C75","whole programs are safe, leak-free and reproducible in floating point, wherever the allocator puts the objects",
"Take a program as in C69 (constructions, copies, moves, assignments, comparisons, element accesses, resets, destructions and algorithm calls that respect their documented preconditions). In any floating-point arithmetic - with rounding, overflow, NaN and infinities, so also when a factorization breaks down - no step has undefined behaviour, objects never overlap, memory and heap contain exactly the storage of the living objects, and nothing leaks when all are destroyed. A second run of the same program in which the allocator returns other (free and aligned) addresses is admissible as well; it shows the same outcome at every step - values read, comparison results, exceptions - and ends with the same objects, with bitwise equal elements, and the same pivot arrays.",
"all finite programs, all arithmetics, sizes, values, random numbers, and all pairs of address assignments",
"reproducibility compares two runs under all allocator choices; C69 speaks of exact arithmetic only, and rounding decides branches (pivots, comparisons)",
[M+"dense/DynamicMatrix.hpp: DynamicMatrix",M+"dense/StaticMatrix.hpp: StaticMatrix",M+"panel/DynamicPanelMatrix.hpp: DynamicPanelMatrix",M+"panel/StaticPanelMatrix.hpp: StaticPanelMatrix",M+"algorithm/Randomize.hpp: randomize",M+"algorithm/MakePositiveDefinite.hpp: makePositiveDefinite",M+"algorithm/Trmm.hpp: trmm",M+"dense/Syrk.hpp: syrkLower",M+"dense/Trsm.hpp: trsm",M+"dense/Potrf.hpp: potrf",M+"panel/Potrf.hpp: potrf",M+"dense/Getf2.hpp: getf2",M+"dense/Getrf.hpp: getrf",M+"dense/Laswp.hpp: laswp"])
p("C76","no algorithm swallows a NaN",
"In every arithmetic in which an operation with a NaN operand gives NaN (IEEE 754), a NaN among the elements an algorithm is given is visible in its result. gemm, ger, syrkLower, trmm: the element (i,j) of the result is NaN if the scalars or any element of the operands that enters it mathematically is NaN - gemm with alpha = 0 or beta = 0 does not suppress a NaN in A, B or C (unlike BLAS, where C may then be uninitialised); trsm: a NaN in row k of the right-hand side or in a referenced element of row k of the matrix makes row k and all rows solved after it NaN; potrf: a NaN in A(r,c), c <= r, makes row r of L from column c on and all columns >= r of L NaN, so that checking L(n-1,n-1) suffices; getf2 and getrf: a NaN in A leaves a NaN in A, also if std::invalid_argument is thrown, and if A is square and the call returns, its last diagonal element is NaN (the comparisons of the pivot search, always false for NaN, cannot hide it). Conversely, where products and sums of numbers are numbers, an element of the result of gemm, ger, syrkLower and trmm right is NaN only if one of these operands is: no NaN leaks in from padding. (False for trmm left: the kernel multiplies zeros with elements of B in rows above, so a NaN in row 0 of B contaminates row 1 of C.)",
"all sizes, storage orders, object classes, SIMD widths, positions of NaNs, arithmetics with propagating NaNs",
"the positions of NaNs cannot be enumerated, and masked and blended kernels swallow or spread them for particular tile positions only",
[M+"algorithm/Gemm.hpp: gemm",M+"dense/Ger.hpp: ger",M+"dense/Syrk.hpp: syrkLower",M+"algorithm/Trmm.hpp: trmm",M+"dense/Trsm.hpp: trsm",M+"dense/Potrf.hpp: potrf",M+"panel/Potrf.hpp: potrf",M+"dense/Getf2.hpp: getf2",M+"dense/Getrf.hpp: getrf",M+"dense/Iamax.hpp: iamax"])
p("C77","computing a part of the problem gives the same part of the result, bit for bit (batch invariance)",
"Make a second call with selected rows and columns of the arguments - fewer, repeated or in another order - on objects of any class, anywhere. Its result consists of the selected elements of the first call's result, bit for bit, in every floating-point arithmetic: whether an element lies in a complete or a partial tile of the kernels has no influence on it. gemm, ger: any rows of A and C (x) and any columns of B and C (y); syrkLower: any increasing sequence of rows of A; trmm from the right: any rows of B; trsm: any columns of B, and for a lower triangle any leading part of the system; potrf: the leading part of the matrix; getf2 and getrf (column-major and row-major): the columns behind the square part, so a system may be factorized together with any number of right-hand sides, with the same pivots, the same exception and the same L and U. For trmm from the left the columns of complete column tiles and those of the last, partial one must not be exchanged: there the claim is false, the kernel of the partial tile reads A below its diagonal.",
"all sizes, selections of rows and columns, values, arithmetics, object classes, memories",
"relates two executions on problems of different sizes; the tiling of the two runs differs, and tests compare with a tolerance",
[M+"algorithm/Gemm.hpp: gemm",M+"dense/Ger.hpp: ger",M+"dense/Syrk.hpp: syrkLower",M+"algorithm/Trmm.hpp: trmm",M+"dense/Trsm.hpp: trsm",M+"dense/Potrf.hpp: potrf",M+"panel/Potrf.hpp: potrf",M+"dense/Getf2.hpp: getf2",M+"dense/Getrf.hpp: getrf"])
p("C78","scaling rows and columns by powers of two scales the result exactly",
"Multiply rows and columns of the arguments by factors with which the arithmetic commutes without rounding (in binary floating point: any powers of two and signs, as long as nothing overflows or underflows; in exact arithmetic: any non-zero numbers; factors for potrf positive). Then the result is the former result with the corresponding factors, bit for bit - so equilibration with powers of two loses nothing. With factors r(i), t(k), c(j), s: gemm, trmm: A(i,k) times r(i) t(k), B(k,j) times c(j)/t(k), C(i,j) times s r(i) c(j), alpha times s gives D(i,j) times s r(i) c(j); ger, syrkLower likewise; trsm: A(i,k) times r(i) t(k), B(i,j) times r(i) c(j) gives X(k,j) times c(j)/t(k); potrf: A(i,j) times r(i) r(j) gives L(i,j) times r(i); getf2, getrf: column j of A times c(j) gives the same pivots, the same exception, the same L, and column j of U times c(j); row-major getrf, which does not pivot, also for rows: L(i,j) times r(i)/r(j), U(i,j) times r(i) c(j).",
"all sizes, values, factors, object classes, memories, SIMD widths, and all arithmetics that commute with the factors",
"bitwise statement about pairs of executions, for every rounding of every intermediate result and every pivot choice",
[M+"algorithm/Gemm.hpp: gemm",M+"dense/Ger.hpp: ger",M+"dense/Syrk.hpp: syrkLower",M+"algorithm/Trmm.hpp: trmm",M+"dense/Trsm.hpp: trsm",M+"dense/Potrf.hpp: potrf",M+"panel/Potrf.hpp: potrf",M+"dense/Getf2.hpp: getf2",M+"dense/Getrf.hpp: getrf",M+"dense/Iamax.hpp: iamax"])
p("C79","the products are the products of linear algebra",
"In exact arithmetic, if the arguments hold the matrices a, b, c (in the usual mathematical sense) then gemm leaves alpha a b + beta c in D, ger leaves a + alpha x y^T in B, syrkLower leaves the lower triangle of alpha a a^T + beta c in D, trmm leaves alpha a b (a upper triangular) or alpha b lower(a) in C, and nothing but the output changes. Consequently any bracketing of a chain of products gives the same matrix: computing (A B) C or A (B C) with two gemm calls each leaves equal matrices, whatever kinds of matrix objects hold the operands and intermediate results.",
"all sizes (also empty), all entries, all storage kinds and placements allowed by C01, C09-C13",
"tests compare a few random products with another library within a tolerance; an identity between matrices for all sizes and all entries is a statement of algebra",
[M+"algorithm/Gemm.hpp: gemm",M+"dense/Ger.hpp: ger",M+"dense/Syrk.hpp: syrkLower",M+"algorithm/Trmm.hpp: trmm"])
p("C80","factorizations are the factorizations of linear algebra, and give the determinant",
"In exact arithmetic: for a symmetric positive definite matrix a whose lower triangle is stored in A, potrf (dense and panel) leaves in the lower triangle of L the unique lower triangular matrix l with positive diagonal and l l^T = a, and det a = (prod l_ii)^2. If getf2 or getrf returns for an m x n matrix a, then with the row permutation that is the product of the recorded interchanges k <-> ipiv[k], the permuted matrix is the product of the unit lower trapezoidal and the upper trapezoidal factor left in A, all entries of the first at most 1 in absolute value, no diagonal entry of the second zero. For square a, getrf returns if and only if det a is not 0, throws std::invalid_argument otherwise, and det a = (-1)^s prod u_kk where s is the number of k with ipiv[k] different from k.",
"all sizes m, n, all matrices, any previous contents of ipiv",
"the tests multiply the factors of a few random matrices and compare within a tolerance; uniqueness, the sign of the determinant and 'throws iff singular' quantify over all matrices",
[M+"dense/Potrf.hpp: potrf",M+"panel/Potrf.hpp: potrf",M+"dense/Getf2.hpp: getf2",M+"dense/Getrf.hpp: getrf"])
p("C81","triangular, LU and Cholesky solves apply the inverse matrix",
"In exact arithmetic trsm leaves T^-1 B in X and trsv leaves T^-1 b in x, where T is the lower or upper triangle of A with its own (non-zero) or a unit diagonal and ^-1 is the matrix inverse; getrf, laswp and two trsm calls leave a^-1 B in B for every a with det a not 0 (with the identity in B: the inverse matrix itself); potrf and two trsm calls leave a^-1 B in B for every positive definite a; and trsm after trmm with the same upper triangular matrix gives back the matrix trmm was applied to.",
"all sizes and numbers of right-hand sides, all matrices, in place or not",
"a test can only compute residuals of a few systems; that the calls compose to the inverse operation is a statement about all matrices",
[M+"dense/Trsm.hpp: trsm",M+"dense/Trsv.hpp: trsv",M+"dense/Getrf.hpp: getrf",M+"dense/Laswp.hpp: laswp",M+"dense/Potrf.hpp: potrf",M+"algorithm/Trmm.hpp: trmm"])
p("C82","integer matrices are handled without rounding",
"In floating-point arithmetic with (p+1)-bit significands (double: p+1 = 53, float: 24), also with infinities and NaN in the format: if all entries and scalars are integers and the sums of the moduli of the products do not exceed 2^(p+1), then gemm, ger, syrkLower and trmm store exactly the integers of the mathematical result, in whatever order the products are accumulated; trsm returns exactly the integer solution of an integer triangular system if there is one within the bound; potrf (dense and panel) returns exactly the integer factor of a matrix l l^T with an integer lower triangular l with positive diagonal. The bound is sharp: 2^(p+1) + 1*1 is not computed exactly by gemm.",
"all sizes, all integer entries within the bound, all storage kinds, with or without fused multiply-add",
"a test can try a few integer matrices; that no intermediate result of any size is rounded is an invariant of the accumulations",
[M+"algorithm/Gemm.hpp: gemm",M+"dense/Ger.hpp: ger",M+"dense/Syrk.hpp: syrkLower",M+"algorithm/Trmm.hpp: trmm",M+"dense/Trsm.hpp: trsm",M+"dense/Potrf.hpp: potrf",M+"panel/Potrf.hpp: potrf"])
p("C83","transposition symmetry",
"In any arithmetic in which the factors of a product may be exchanged (IEEE floating point, with infinities and NaN): gemm of the transposed factors in reverse order and the transposed C stores the transposed result bit for bit, whatever the kinds of the matrices and the SIMD width; alpha A A^T + beta C with a symmetric C is symmetric bit for bit; A + x x^T computed by ger with alpha = 1 is symmetric for a symmetric A; so are the product by reference::gemm and the matrix that makePositiveDefinite leaves in a dense or panel object, whatever numbers it draws (the debug check isHermitian never fires for rounding). For other alpha the result of ger with x = y is not symmetric in general: a witness for every binary format with at least 5 bits.",
"all sizes, all entries, all storage kinds and SIMD widths",
"tests compare with a tolerance and cannot see bitwise asymmetry; symmetry must hold for every entry of every size",
[M+"algorithm/Gemm.hpp: gemm",M+"dense/Ger.hpp: ger",M+"reference/Gemm.hpp: gemm",M+"StaticPanelMatrix.hpp: makePositiveDefinite",M+"algorithm/MakePositiveDefinite.hpp: makePositiveDefinite"])
p("C84","the BLASFEO wrappers pass the caller's arguments on unchanged",
"gemm_nn, gemm_nt, gemm_tn, trmm_rlnn, trmm_rutn, syrk_ln, syrk_potrf, potrf, pack_vec, unpack_vec, vecse and vecsc of blast::blasfeo call the corresponding BLASFEO function with exactly the sizes, offsets, scalars and matrices of the caller, in the right places, whenever these are below 2^31 (syrk_ln for float rounds the double alpha and beta to float). So for blocks inside BLASFEO matrices and a library that keeps its documented contract they store exactly alpha op(A) op(B) + beta C, alpha B A (A lower), alpha B A^T (A upper), the lower triangle of alpha A B^T + beta C, the Cholesky factor of C + A B^T or of C, the copied, filled or scaled vector, and change nothing outside the output block. A matrix created with sizes below 2^31 reports them, and memsize_mat asks the library for exactly these sizes. Larger sizes are not detected: m + 2^32 rows are treated as m rows.",
"every library, all blocks of all matrices, all scalars; any element type for the forwarding",
"the conversion of sizes shows only for matrices far larger than any test, and a test of a forwarded call checks one placement of the blocks",
["include/blasfeo/blasfeo_api/Gemm.hpp: gemm_nn, gemm_nt, gemm_tn","include/blasfeo/blasfeo_api/Trmm.hpp: trmm_rlnn, trmm_rutn","include/blasfeo/blasfeo_api/Syrk.hpp: syrk_ln","include/blasfeo/blasfeo_api/SyrkPotrf.hpp: syrk_potrf","include/blasfeo/blasfeo_api/Potrf.hpp: potrf","include/blasfeo/blasfeo_api/Vec.hpp: pack_vec, unpack_vec, vecse, vecsc","include/blasfeo/blasfeo_api/Mat.hpp: create_mat, rows, columns, memsize_mat"])
p("C85","the products in IEEE 754 arithmetic, with overflow and underflow",
"In IEEE 754 binary arithmetic with all its special cases (rounding to nearest even, subnormal numbers, overflow to infinity, signed zeros, infinities, NaN; double and float): if an element computed by gemm, ger, syrkLower or trmm is finite, then alpha, beta and all elements of the arguments that belong to it are finite - an infinity or NaN in the arguments is never lost - and its error is at most ((1+u)^n - 1) times the sum of the moduli of the terms plus n subnormal roundoffs (scaled with alpha where alpha multiplies a rounded sum), where u is the unit roundoff and n the number of operations. Conversely the element is finite if the arguments are finite and the sum of the moduli is below the overflow threshold by the rounding margin. gemm overflows in cases where the mathematical result is a number of the format, because it multiplies with alpha after the summation: witness A = 2^emax, B = 8, alpha = 1/8.",
"all sizes, all values including subnormal numbers, infinities and NaN, all storage kinds and SIMD widths, every binary format",
"tests use random values near 1, for which nothing overflows or underflows; an error bound quantifies over all values",
[M+"algorithm/Gemm.hpp: gemm",M+"dense/Ger.hpp: ger",M+"dense/Syrk.hpp: syrkLower",M+"algorithm/Trmm.hpp: trmm"])
p("C86","finite results of trsm, trsv and potrf solve the equations also in the presence of overflow and underflow",
"In IEEE 754 binary arithmetic with all its special cases: if an element of the solution computed by trsm or trsv and the diagonal element of its row are finite, then the diagonal element is not zero, all elements of the triangle of A, of B and of the solution that belong to its equation are finite, and the equation holds up to ((1-u)^-m - 1) sum |tri(a)||x| plus a multiple of the smallest subnormal number. Whatever the lower triangle given to potrf (dense or panel): if an element of L and the diagonal element of its column are finite, then that diagonal element is positive, the element of A is finite, and L L^T equals A there up to ((1-u)^-n - 1) sum |l||l| plus a multiple of the smallest subnormal number. So a caller who finds a finite factor knows that the matrix was, up to rounding, positive definite; no check of the arguments is needed. Conversely, if the elements are bounded so that explicit growth bounds stay below the overflow threshold, trsm returns a finite bounded solution, and potrf of a matrix whose smallest eigenvalue exceeds an explicit multiple of the rounding errors returns a finite factor with diagonal bounded below and explicit absolute error.",
"all sizes, all values including subnormal numbers, infinities and NaN, lower or upper, unit or not, all storage kinds and SIMD widths, every binary format with enough exponent range (double, float)",
"a posteriori guarantee for all inputs, also indefinite, singular and badly scaled ones; tests use well-conditioned random matrices",
[M+"dense/Trsm.hpp: trsm",M+"dense/Trsv.hpp: trsvLeftLower, trsvLeftUpper",M+"dense/Potrf.hpp: potrf",M+"panel/Potrf.hpp: potrf"])
p("C87","LU factorization in IEEE arithmetic: finite factors are accurate, moderate matrices do not overflow, and a throw means nearly singular",
"In IEEE 754 binary arithmetic with all its special cases, getf2 (column-major and row-major, division or reciprocal) and column-major getrf either throw std::invalid_argument or return, and change only the elements of the matrix. If they return and the stored factors contain no infinity or NaN, then the matrix contained none, no pivot is zero, the multipliers are at most 1 (1 + 8u for the reciprocal), the pivot indices are in range, and L U equals the row-permuted matrix up to ((1-u)^-n - 1) |L||U| plus (1-u)^-n (3n + |u_jj|) times half the smallest subnormal number. If in addition the elements of the matrix are at most mu and (2(1+u)^2)^n (mu + 2 eta) is below the overflow threshold, then no operation overflows: all factors are finite, bounded by that number, and the routine throws only if there is a singular matrix (with dependent leading columns) within an explicit distance of the order of the unit roundoff. Row-major getrf always returns, without interchanges; if its result is finite, L U is close to A.",
"all sizes, all values including subnormal numbers, infinities and NaN, all tile sizes and SIMD widths, every binary format with enough exponent range (double, float)",
"a posteriori and a priori guarantees for all inputs, also singular and badly scaled ones, with rounding, overflow and underflow along runs of unbounded length; tests compare single random matrices with a tolerance",
[M+"dense/Getf2.hpp: getf2",M+"dense/Getrf.hpp: getrf",M+"dense/Iamax.hpp: iamax",M+"dense/Laswp.hpp: laswp"])
p("C88","solving a linear system in IEEE arithmetic: moderate, robustly regular systems are solved without overflow and with a small residual",
"In IEEE 754 binary arithmetic with all its special cases, solving A X = B by getrf, laswp and two trsm either throws std::invalid_argument in getrf, or writes factors and a solution, and changes nothing but the elements of A and B. If the stored factors are finite then, for every column of X that contains no infinity or NaN, the column of B contained none and the residual B - A X (of the row-permuted system) is bounded by (G^2 + G - 2) |L||U||X| with G = (1-u)^-n, plus explicit underflow terms. If the elements of A and B are bounded so that an explicit growth bound stays below the overflow threshold, and A stays regular under perturbations of the size of the rounding errors, then there is no throw, no overflow, every element of X is finite and explicitly bounded, and the residual B - A X has this bound. For potrf followed by two trsm the a posteriori bound holds in the same form; and if the smallest eigenvalue of the symmetric matrix exceeds an explicit bound of the rounding errors and the elements are moderate, the factor and the solution are finite, explicitly bounded, and have an explicit small residual.",
"all sizes, all numbers of right-hand sides, all values including subnormal numbers, infinities and NaN, all tile sizes and SIMD widths, every binary format with enough exponent range (double, float)",
"a guarantee on the composition of four routines for all systems, with rounding, overflow and underflow along runs of unbounded length; tests check single random systems with a tolerance",
[M+"dense/Getrf.hpp: getrf",M+"dense/Laswp.hpp: laswp",M+"dense/Trsm.hpp: trsm",M+"dense/Potrf.hpp: potrf"])
p("C89","different routines give the same numbers for the same problem",
"trsvLeftLower and trsvLeftUpper leave in x bit for bit what trsm leaves in a column of X for the same triangle and right-hand side, in every scalar arithmetic, whatever the layouts, strides and SIMD widths and however many right-hand sides trsm is given. reference::trsm with factor alpha leaves bit for bit what trsm leaves for the right-hand side alpha B (with A on the right: for the transposed problem, if multiplication is commutative). In IEEE 754 arithmetic with overflow, underflow, infinities and NaN, syrkLower with beta = 0 leaves in the lower triangle the same numbers as gemm with alpha A and the transpose of A, and trmm leaves the same numbers as gemm with the triangular matrix filled up with zeros, where +0 and -0 count as the same number and only those elements that gemm multiplies by a zero must be finite. Hence replacing one of these calls by the other changes no result.",
"all sizes, all values, all storage kinds, strides and SIMD widths; every scalar arithmetic for trsv and reference::trsm, every IEEE binary format for syrk and trmm",
"tests compare different routines with a tolerance and on single matrices; bitwise agreement must hold for every size, layout and rounding",
[M+"dense/Trsv.hpp: trsvLeftLower, trsvLeftUpper",M+"dense/Trsm.hpp: trsm",M+"reference/Trsm.hpp: trsm",M+"dense/Syrk.hpp: syrkLower",M+"algorithm/Trmm.hpp: trmm",M+"algorithm/Gemm.hpp: gemm"])
p("C90","debug assertions change nothing in valid calls, and what they detect",
"With assertions switched on (BLAZE_USER_ASSERTION=1, as the library's own tests are built) gemm, ger, syrkLower, potrf, getf2, getrf, iamax, swap and laswp do exactly what they do without assertions, for all valid arguments: no assertion fails, and results, exceptions and memory effects are the same. The same holds for trmm unless the operand that is not the aligned one (B on the left multiplication, A on the right) is a column-major panel matrix; then the checked build aborts although the result without assertions is right (refuted by witnesses). A matrix declared aligned that is not aligned is detected by gemm, ger, trmm, syrkLower and potrf, whichever operand it is; a vector declared aligned that is not is detected by iamax, swap and ger. Element access, reset and assignment through submatrices and rows that are inside their matrices never abort; an element index outside a submatrix, a panel submatrix or a panel row always aborts, and so does a submatrix specification that is not inside its matrix if the sums do not overflow. Not detected: an index beyond a row view but inside the matrix, a submatrix larger than the submatrix it is taken of, sums that wrap around. Rejected without need: empty row views at the end of a row.",
"all valid arguments, all memory states, sizes, layouts and SIMD widths; all views and index values",
"tests run in one of the two builds; that the two behave the same, and that no valid call trips an assertion, ranges over all arguments",
["include/blast/util/Assert.hpp: BLAST_USER_ASSERT",M+"dense/DynamicMatrixPointer.hpp, dense/StaticMatrixPointer.hpp",M+"panel/DynamicPanelMatrixPointer.hpp, panel/StaticPanelMatrixPointer.hpp",M+"dense/Potrf.hpp, panel/Potrf.hpp: potrf_backend",M+"dense/Iamax.hpp: iamax",M+"views/Row.hpp, views/Submatrix.hpp",M+"views/row/Panel.hpp, views/submatrix/Panel.hpp"])
p("C91","what makePositiveDefinite makes, potrf factorizes - in double and float",
"In IEEE 754 arithmetic, whatever numbers makePositiveDefinite draws (from [-1,1]; std::uniform_real_distribution draws from [0,1)), the matrix it leaves in a dense or panel object has finite elements, each within 4(n+4)^2 u of R R^T + n I, only the object changes and the temporary is released; and potrf of that matrix returns with a finite factor L whose diagonal elements are at least 3/4 sqrt(n) and for which L L^T is within 20 n (n+4) u of the matrix. Holds for every size n with 128 (n+4)^2 u <= 1: up to 8388604 for double, 358 for float.",
"all sequences of random numbers, all matrix sizes up to the stated bound (for which the potrf kernel is correct), dense and panel storage, all SIMD widths, wherever the temporary is allocated",
"a test draws one sequence from a fixed seed; that no sequence makes the factorization fail, or the test itself fail spuriously, is a statement about all of them",
[M+"algorithm/MakePositiveDefinite.hpp: makePositiveDefinite",M+"algorithm/Randomize.hpp: randomize",M+"dense/Potrf.hpp: potrf",M+"panel/Potrf.hpp: potrf",M+"DynamicPanelMatrix.hpp: makePositiveDefinite",M+"StaticPanelMatrix.hpp: makePositiveDefinite"])
p("C92","the random comparisons of the test suite cannot fail by bad luck",
"In IEEE 754 arithmetic, whatever numbers between 0 and 1 are drawn for the operands, computing with blast and comparing with a reference result by approxEqual succeeds: gemm against reference::gemm (and against any reference computed with at most k roundings), right trmm against reference::trmm, left trmm against what the name reference::trmm of the test runs, ger and syrk against any reference with at most k roundings, and potrf of a matrix made by makePositiveDefinite, L L^T against the matrix. For every matrix with elements in [-1,1], getf2 (both storage orders) and column-major getrf either throw or return factors whose product, computed with at most k roundings, compares equal to the row-interchanged copy (sizes up to 5 for 1e-11, the largest of the tests). It holds whenever the tolerances are at least about k u: for the tolerances 1e-11 of the double tests up to inner dimension 10000 (potrf: 50), for 1e-5 / 1e-4 of the float tests up to 200. The left trmm test is only this good because with the header of the optimized trmm included it compares trmm with itself; with the real reference it fails for matrices that are not zero below the diagonal (refuted).",
"all sequences of random numbers in [0,1], all sizes up to the stated bounds, all storage kinds the functions accept, all SIMD widths, all initial contents of the results",
"the test draws one sequence; that no sequence fails is a statement about all of them",
["test/blast/math/dense/GemmTest.cpp","test/blast/math/dense/TrmmTest.cpp","test/blast/math/dense/GerTest.cpp","test/blast/math/dense/SyrkTest.cpp","test/blast/math/dense/PotrfTest.cpp","test/blast/math/dense/Getf2Test.cpp","test/blast/math/dense/GetrfTest.cpp","include/test/Testing.hpp: approxEqual",M+"reference/Gemm.hpp: gemm",M+"reference/Trmm.hpp: trmm"])
p("C93","what reference::trmm computes depends on the included headers",
"reference::trmm(alpha, A, uplo, diag, B, C) for matrices, left multiplication, leaves alpha tri(A) B for every uplo and diag, also in place, if algorithm/Trmm.hpp is not included or A or C is row-major. If the header is included and A and C are column-major, argument dependent lookup selects the optimized blast::trmm: the call is then that call, throws logic_error for lower or unit triangular A, and uses the elements below the diagonal (refuted: same call, same operands, two results). Both agree for upper triangular matrices that are zero below the diagonal.",
"all sizes, values, layouts, uplo and diag; translation units with and without the header",
"a test is one translation unit; the TrmmTest of the library includes the header and so cannot see the difference",
[M+"reference/Trmm.hpp: trmm",M+"algorithm/Trmm.hpp: trmm"])
p("C94","computed solutions are close to the exact ones (forward error in IEEE arithmetic)",
"In IEEE 754 arithmetic: a finite result of trsm differs from the exact solution y of the triangular system, element by element, at most by |A^-1| applied to the backward error; relative to the largest element of y by at most g k / (1 - g k) plus underflow terms, where k is the largest row sum of |A^-1||A| and g about n u. If A is well conditioned (a bound w of the row sums of |A^-1| times the backward error is below one) and the numbers are of moderate size, then getrf does not throw, the solution by getrf + two trsm is finite, and its error relative to the largest element of the exact solution is at most t/(1-t) plus underflow terms with t = w n (backward error); the same for potrf + two trsm and a symmetric positive definite matrix.",
"all matrix sizes, all finite inputs, all right-hand sides, all inverses and exact solutions, all formats wide enough (double, float), all SIMD widths, both triangles, unit and non-unit diagonal",
"tests compare a few systems with a tolerance; that the error is bounded by the condition number for all systems is a theorem",
[M+"dense/Trsm.hpp: trsm",M+"dense/Getrf.hpp: getrf",M+"dense/Potrf.hpp: potrf",M+"dense/Laswp.hpp: laswp"])
p("C95","the accuracy of the scalar loops does not depend on how the compiler evaluates them",
"The recommended build uses -ffast-math, so the compiler may reorder, regroup (vectorize) and contract the sums of the scalar loops and multiply with reciprocals. However each sum is evaluated, with at most h roundings in a row, and a division performed: trsm and trsv leave a residual of at most (1+u)^(h+2) - 1 relative to |B| + |tri(A)||X|, reference::gemm an error of at most (1+u)^(h+2) - 1 relative to |alpha||A||B| + |beta||C|, and nothing but the result is written. The order of the source (plain or contracted) is among those covered, and a loop vectorized over L lanes has h = ceil(m/L) + L + 1. The values themselves do depend on the evaluation (refuted: two permitted evaluations of one product give 0 and 1).",
"all sizes, all values, all layouts, all evaluation trees of the sums (chosen per element), both triangles, unit and non-unit diagonal, all rounded arithmetics",
"a test runs one binary; which evaluation the compiler chooses differs between compilers, versions, flags and sizes",
["cmake/InitialCache.cmake",M+"dense/Trsm.hpp: trsm",M+"dense/Trsv.hpp: trsv",M+"reference/Gemm.hpp: gemm"])
p("C96","running out of memory leaves the program in a defined state",
"In a client program as in C69 (plus makePositiveDefinite of panel matrices) any allocation may throw std::bad_alloc, in any pattern. No step has undefined behaviour; a constructor that fails makes no object and keeps no memory; makePositiveDefinite of a dense matrix that fails changes nothing at all, and repeating the step when memory is available does what the first attempt would have done; only the makePositiveDefinite of a dynamic panel matrix of size n that fails leaves the matrix as n times the identity (no strong guarantee: refuted); nothing leaks, and all other objects keep their values.",
"all client programs (any number of objects and steps), all patterns of failing allocations, all SIMD widths, all drawn numbers; exact arithmetic",
"a test would have to make each allocation of each program fail in turn; programs and failure patterns are unbounded",
[M+"dense/DynamicMatrix.hpp: DynamicMatrix",M+"panel/DynamicPanelMatrix.hpp: DynamicPanelMatrix",M+"algorithm/MakePositiveDefinite.hpp: makePositiveDefinite",M+"DynamicPanelMatrix.hpp: makePositiveDefinite"])
p("C97","what an LU factorization leaves behind when it throws",
 "If getf2 (either storage order) throws because the matrix is singular, a caller who catches the exception finds, in exact arithmetic, the state of a factorization stopped at column k, where k is the first column that depends linearly on the columns before it: the recorded interchanges ipiv[0..k] applied to the original matrix give L*U over the first k columns plus the remaining block, whose first column is zero; multipliers are at most 1, ipiv[k] = k, the later pivots are unchanged, and the original matrix is determined by what is left. The same holds for column-major getrf if the matrix has at most one tile of rows or columns. With more blocks getrf leaves something else: with s the first column of the block in which column k lies, the first s steps are complete with interchanges of whole rows; the rows from s on of the columns of the block hold a factorization of the block stopped at column k, with pivot indices relative to s; all other elements are as they were when the block was begun, so the interchanges of the block are applied to its own columns only and the rows of the matrix are torn apart (witness). The original matrix is still determined by the elements and the pivot array. In any arithmetic, flag, pivot array and elements after getf2 are functions of the elements before.",
 "all sizes, all matrices, both storage orders of getf2, column-major getrf with any number of blocks",
 "needs the relation between the original matrix, the partially overwritten matrix and the partially written pivot array for every column at which elimination can stop; tests only use regular matrices",[M+"dense/Getf2.hpp:getf2",M+"dense/Getrf.hpp:getrf"])
p("C98","what flush-to-zero and denormals-are-zero change",
 "A program built with the recommended flags (-ffast-math) may run with subnormal results replaced by zero (flush-to-zero, decided before or after rounding) and subnormal operands read as zero (denormals-are-zero). If the arguments hold no subnormal numbers, no operation ever produces one, so denormals-are-zero changes nothing at all. A result in the normal range is the one of IEEE arithmetic with gradual underflow; any other result is wrong by at most the rounding error plus the smallest normal number (2^-1022 or 2^-126). So the guarantees C85-C95 hold for double and float with flush-to-zero too, with the smallest normal number in place of half the smallest subnormal one; in particular every element computed by gemm is zero, a normal number, an infinity or NaN, and a finite one has the error bound of C85 so changed. Two guarantees do not survive: getf2 reports the regular matrix [[m, m], [m, 3/2 m]] of normal numbers (m the smallest one) as singular, where gradual underflow factorizes it; and where the compiler multiplies by the reciprocal of the pivot, row-major getf2 gives, for the column (2^1023, 2^1023) in double, the multiplier 0 instead of 1 (witnesses). A call of gemm, syrkLower, trmm, trsm, trsv or potrf that rounds no non-zero exact result below the normal range on the way to an element gives the same number for it with flush-to-zero as with gradual underflow; a getf2 or getrf (row-major ones also with multiplication by the reciprocal of the pivot) of which this holds for every element it leaves in the matrix also gives the same pivots and the same outcome.",
 "all sizes, all values, all storage kinds and SIMD widths, both kinds of flush-to-zero, every binary format with enough exponent range; refutations for every such format",
 "needs all values near the underflow threshold in every operation of runs of unbounded length; tests use values near 1, and whether the flag is set depends on how the test program was linked",["cmake/InitialCache.cmake",M+"algorithm/Gemm.hpp:gemm",M+"dense/Getf2.hpp:getf2"])
p("C99","the results depend on the numbers only through the operations of the arithmetic",
 "For any relation between two element types that holds between their zeros and ones and that every operation used (add, subtract, multiply, divide, negate, square root, fused multiply-add and its negative) respects: if it holds between the elements and scalars of two calls of gemm, ger, syrkLower, trmm, trsm, trsv, potrf or makePositiveDefinite (for the latter: between the random numbers drawn) with operands of the same sizes, it holds between the elements of their results, whatever the storage kinds and addresses (and for gemm, ger, syrkLower, trmm from the right, trsm, unblocked LU the SIMD widths) are. If comparisons and absolute values respect it too, the same holds for getf2 and getrf, and both calls end in the same way: both return the same pivots or both throw the same exception; in getf2 and column-major getrf it is enough that they respect it for the numbers from which the final elements were computed. So no literal, no bit pattern, no branch on a value and no memory address enters a result except through these operations; the code can be instantiated with numbers that carry further information (error bounds, derivatives, flags) without changing the numbers it computes, and two arithmetics that agree on the data of a call give the same result.",
 "all element types and relations, sizes, values, storage kinds, addresses and (where named) SIMD widths",
 "quantifies over all arithmetics: a test runs one or two element types",[M+"algorithm/Gemm.hpp:gemm",M+"dense/Ger.hpp:ger",M+"dense/Syrk.hpp:syrkLower",M+"algorithm/Trmm.hpp:trmm",M+"dense/Trsm.hpp",M+"dense/Potrf.hpp",M+"dense/Getf2.hpp:getf2",M+"dense/Getrf.hpp:getrf"])
with open("/verif/properties.jsonl","w") as f:
    for q in P: f.write(json.dumps(q)+"\n")
print(len(P))
