{"id": "C01", "title": "gemm computes alpha*A*B + beta*C", "statement": "After gemm(alpha, A, B, beta, C, D), in exact arithmetic every element D(i,j), i<M, j<N, equals alpha*sum_k A(i,k)*B(k,j) + beta*C(i,j), whatever the values of A, B, C, alpha, beta, the contents of padding, and the previous contents of D.", "quantifier": "all sizes M,N,K (including 0 and non-multiples of the SIMD width), all element values, all SIMD widths, dense and panel operands, both storage orders of B, aligned or unaligned operands", "why_tests_cant": "Tests run a finite list of sizes; the blocking has several remainder branches per dimension whose combinations are unbounded.", "anchors": ["include/blast/math/algorithm/Gemm.hpp:gemm", "include/blast/math/register_matrix/Gemm.hpp:gemm", "include/blast/math/algorithm/arch/avx2/Tile.hpp:tile"]}
{"id": "C02", "title": "gemm changes nothing but the elements of D", "statement": "gemm writes only the M*N elements of D: every other memory cell - the operands A, B, C, the padding of D, neighbouring columns and other objects - has the same value after the call as before.", "quantifier": "all sizes, layouts, values and surrounding memory contents", "why_tests_cant": "A test can only look at the cells it thought of allocating around D.", "anchors": ["include/blast/math/algorithm/Gemm.hpp:gemm", "include/blast/math/register_matrix/RegisterMatrix.hpp:store"]}
{"id": "C03", "title": "gemm stays inside the operands' storage", "statement": "For padded (and, if declared aligned, SIMD-aligned) operands gemm performs no access outside the storage of A, B, C, D and no misaligned aligned-access, for any size; for operands without padding whose row count is not a multiple of the SIMD width it may read past the end of A and C.", "quantifier": "all sizes, spacings and layouts", "why_tests_cant": "An out-of-bounds read of a few lanes is invisible to a value test and depends on the allocator.", "anchors": ["include/blast/math/register_matrix/RegisterMatrix.hpp:ger", "include/blast/math/register_matrix/RegisterMatrix.hpp:axpy"]}
{"id": "C04", "title": "gemm results are bitwise independent of layout and blocking", "statement": "For any arithmetic (no algebraic law assumed, in particular IEEE floating point) D(i,j) after gemm is one fixed expression: fma(beta, C(i,j), alpha * fold_k fma(A(i,k),B(k,j),.)) - the same for dense/panel storage, for every storage order of B, every traversal order, every position of (i,j) in a tile and every SIMD width.", "quantifier": "all scalar arithmetics, all sizes, layouts, traversal orders", "why_tests_cant": "Bitwise reproducibility across layouts is a statement about all pairs of runs.", "anchors": ["include/blast/math/algorithm/Gemm.hpp:gemm", "include/blast/math/algorithm/arch/avx2/Tile.hpp:tile", "include/blast/math/panel/DynamicPanelMatrixPointer.hpp"]}
{"id": "C05", "title": "gemm may be used in place (C is D)", "statement": "gemm(alpha,A,B,beta,C,C) gives the same result as computing into a separate D.", "quantifier": "all sizes, values, layouts of A,B,C with C not overlapping A or B", "why_tests_cant": "Aliasing hazards depend on the order in which tiles are read and written for each size.", "anchors": ["include/blast/math/algorithm/Gemm.hpp:gemm"]}
{"id": "C06", "title": "gemm rejects inconsistent sizes without side effects", "statement": "The matrix-argument gemm throws std::invalid_argument exactly when rows(B)!=columns(A), or C or D is not rows(A) x columns(B), and in that case no memory is modified; otherwise it does not throw.", "quantifier": "all combinations of operand sizes", "why_tests_cant": "The size combinations are unbounded.", "anchors": ["include/blast/math/algorithm/Gemm.hpp:gemm"]}
{"id": "C07", "title": "gemm agrees with the reference gemm", "statement": "In exact arithmetic the optimized gemm and reference::gemm leave the same values in D for the same inputs.", "quantifier": "all sizes, values and layouts", "why_tests_cant": "Tests run a finite list of sizes; the blocking has several remainder branches per dimension whose combinations are unbounded.", "anchors": ["include/blast/math/algorithm/Gemm.hpp:gemm", "include/blast/math/reference/Gemm.hpp:gemm"]}
{"id": "C08", "title": "tile covers the matrix exactly once", "statement": "For every m, n and both traversal orders tile() terminates and the rectangles passed to the callbacks lie inside the m x n matrix, are pairwise disjoint and cover every element; f_full is called only with tiles of exactly the kernel size, every kernel has 1, 2 or 3 SIMD rows and 4 columns, tile origins are SIMD-row aligned and no kernel has an entirely unused SIMD row.", "quantifier": "all m, n, all SIMD widths, both traversal orders", "why_tests_cant": "Tests run a finite list of sizes; the blocking has several remainder branches per dimension whose combinations are unbounded.", "anchors": ["include/blast/math/algorithm/Tile.hpp:tile", "include/blast/math/algorithm/arch/avx2/Tile.hpp:tile", "include/blast/math/algorithm/arch/neon64/Tile.hpp:tile"]}
{"id": "C09", "title": "ger computes the rank-1 update", "statement": "After ger(alpha,x,y,A,B) (column-major) in exact arithmetic B(i,j) = A(i,j) + alpha*x[i]*y[j] for all i<M, j<N, B may be A itself, and nothing but the elements of B is written; inconsistent sizes give std::invalid_argument and no change. The column-major guarantee needs a tile size equal to the SIMD width (AVX2); with larger tiles (NEON) x is read past its padded end (witness). The row-major overload does not check the size of B (witness).", "quantifier": "all sizes, values, layouts, in place or not", "why_tests_cant": "Tests run a finite list of sizes; the blocking has several remainder branches per dimension whose combinations are unbounded.", "anchors": ["include/blast/math/dense/Ger.hpp:ger", "include/blast/math/register_matrix/RegisterMatrix.hpp:ger"]}
{"id": "C10", "title": "syrkLower computes the lower triangle and only that", "statement": "After syrkLower(alpha,A,beta,C,D) every D(i,j) with j<=i equals beta*C(i,j) + alpha*sum_k A(i,k)*A(j,k) in exact arithmetic, and no other memory cell - in particular no strictly upper element of D - changes; D may be C. Holds when the tile size equals the SIMD width (AVX2); with larger tiles (NEON) A and C are read past their padded storage (witness).", "quantifier": "all sizes M,K, values and layouts", "why_tests_cant": "Tests run a finite list of sizes; the blocking has several remainder branches per dimension whose combinations are unbounded.", "anchors": ["include/blast/math/dense/Syrk.hpp:syrkLower", "include/blast/math/register_matrix/RegisterMatrix.hpp:storeLower"]}
{"id": "C11", "title": "left trmm multiplies by an upper-triangular matrix", "statement": "If A is upper triangular (zeros stored below the diagonal), after trmm(alpha,A,Upper,false,B,C) C = alpha*A*B in exact arithmetic and nothing but the elements of C is written; C may be B. This holds unless B is a column-major panel matrix of two or more tiles, for which the result is wrong (witness).", "quantifier": "all sizes, values and layouts", "why_tests_cant": "Tests run a finite list of sizes; the blocking has several remainder branches per dimension whose combinations are unbounded.", "anchors": ["include/blast/math/algorithm/Trmm.hpp:trmm", "include/blast/math/algorithm/Trmm.hpp:trmmLeftUpper_backend", "include/blast/math/register_matrix/RegisterMatrix.hpp:trmm"]}
{"id": "C12", "title": "when left trmm ignores the strictly lower part of A", "statement": "If the sizes of B are multiples of the tile size, trmm(alpha,A,Upper,false,B,C) computes alpha*U*B with U the upper triangle of A, whatever the elements of A below the diagonal are (they need not even exist), as the BLAS convention demands. For other sizes it does use some elements below the diagonal (witness): exactly those that lie in the columns of the group of at most 3 SIMD widths of rows the row belongs to, and only in the tiles that are cut off by an edge of C. So it is enough that the caller stores zeros in the 3*SIMD-1 diagonals below the main one; what is further down never matters.", "quantifier": "all sizes and all values of the unreferenced elements", "why_tests_cant": "Needs all pairs of inputs that agree on the upper triangle; the existing tests store zeros there.", "anchors": ["include/blast/math/algorithm/Trmm.hpp:trmmLeftUpper_backend"]}
{"id": "C13", "title": "right trmm multiplies by a lower-triangular matrix", "statement": "After trmm(alpha,B,A,Lower,false,C), C(i,j) = alpha*sum_{k>=j} B(i,k)*A(k,j) in exact arithmetic, elements of A above the diagonal are not used, and nothing but the elements of C is written; C may be B; for any arithmetic each element is one fixed expression independent of layout and tiling. With a tile larger than the SIMD width (NEON) and a column-major panel A the result is wrong (witness).", "quantifier": "all sizes, values and layouts", "why_tests_cant": "Tests run a finite list of sizes; the blocking has several remainder branches per dimension whose combinations are unbounded.", "anchors": ["include/blast/math/algorithm/Trmm.hpp:trmm", "include/blast/math/register_matrix/RegisterMatrix.hpp:trmm"]}
{"id": "C14", "title": "how trmm treats unsupported variants", "statement": "Size mismatches throw std::invalid_argument; left trmm with a lower triangle or a unit diagonal and right trmm with an upper triangle throw std::logic_error; in all these cases memory is unchanged. Right trmm with a unit diagonal does not throw: it terminates the program when both dimensions of B are at least one tile and otherwise silently uses the stored diagonal.", "quantifier": "all sizes, uplo, diag combinations", "why_tests_cant": "Depends on which of the size-dependent branches is reached.", "anchors": ["include/blast/math/algorithm/Trmm.hpp:trmm", "include/blast/math/register_matrix/RegisterMatrix.hpp:trmm"]}
{"id": "C15", "title": "potrf computes a Cholesky factor", "statement": "For an M x N matrix A, M >= N, whose first N rows are symmetric positive definite (only elements on and below the diagonal are used), after potrf(A,L) - dense or panel, L possibly A itself - the lower triangle of L satisfies L*L^T = A with positive diagonal, in exact real arithmetic, for every size for which the code stays inside the storage (C18); other sizes are rejected with invalid_argument.", "quantifier": "all N, all symmetric positive definite A", "why_tests_cant": "Tests run a finite list of sizes; the blocking has several remainder branches per dimension whose combinations are unbounded.", "anchors": ["include/blast/math/dense/Potrf.hpp:potrf", "include/blast/math/register_matrix/RegisterMatrix.hpp:potrf", "include/blast/math/register_matrix/RegisterMatrix.hpp:trsm"]}
{"id": "C16", "title": "dense potrf leaves the strictly upper part of L untouched", "statement": "potrf on dense matrices does not modify any element L(i,j) with i<j, nor any memory outside L, and the computed lower triangle does not depend (bit for bit, in any arithmetic) on the strictly upper part of A or the previous content of L.", "quantifier": "all sizes and values", "why_tests_cant": "Frame and non-interference properties quantify over all other cells and all pairs of inputs.", "anchors": ["include/blast/math/dense/Potrf.hpp:potrf_backend", "include/blast/math/register_matrix/RegisterMatrix.hpp:storeLower"]}
{"id": "C17", "title": "panel potrf and the strictly upper part of L", "statement": "potrf on panel matrices leaves the elements of L above the KN x KN blocks on the diagonal and all memory outside L unchanged, and depends only on the lower triangle of A; unlike the dense version it overwrites the elements above the diagonal inside the diagonal blocks: with zeros in exact arithmetic if A is symmetric there - so that a new L is lower triangular after the call and the whole product L L^T equals A - and with other numbers if it is not (refuted).", "quantifier": "all sizes and values", "why_tests_cant": "Frame property over all cells.", "anchors": ["include/blast/math/panel/Potrf.hpp:potrf_backend"]}
{"id": "C18", "title": "potrf stays inside the storage of A and L", "statement": "potrf accesses only the storage (elements and padding) of its arguments, with correctly aligned accesses, whenever the number of columns is a multiple of the tile width KN (or both are DynamicPanelMatrix), the SIMD width divides KN (or N <= KN), and the rows rounded up to the tile height fit the padding; outside each of these conditions there are sizes with undefined behaviour (columns read past the end, misaligned access, rows past the end).", "quantifier": "all sizes M>=N, all SIMD widths", "why_tests_cant": "Reading a few columns past the end is invisible to value tests.", "anchors": ["include/blast/math/dense/Potrf.hpp:potrf_backend", "include/blast/math/register_matrix/RegisterMatrix.hpp:load"]}
{"id": "C19", "title": "getf2 factorizes P*A = L*U", "statement": "If getf2(m,n,A,ipiv) returns, then with L the unit lower trapezoidal and U the upper trapezoidal part of the overwritten matrix, L*U equals the original matrix with rows interchanged as recorded in ipiv, in exact arithmetic.", "quantifier": "all sizes m,n and all matrices, column-major and row-major", "why_tests_cant": "Tests run a finite list of sizes; the blocking has several remainder branches per dimension whose combinations are unbounded.", "anchors": ["include/blast/math/dense/Getf2.hpp:getf2"]}
{"id": "C20", "title": "partial pivoting bounds", "statement": "ipiv[k] satisfies k <= ipiv[k] < m, and every element of the computed L has absolute value at most 1 (growth control of partial pivoting).", "quantifier": "all sizes and matrices on which getf2/getrf (column-major) return", "why_tests_cant": "Universally quantified inequality.", "anchors": ["include/blast/math/dense/Getf2.hpp:getf2", "include/blast/math/dense/Iamax.hpp:iamax"]}
{"id": "C21", "title": "singular matrices are detected", "statement": "getf2 throws std::invalid_argument exactly when elimination meets a column whose entries on and below the diagonal are all zero; for square matrices it returns iff the matrix is invertible. It never divides by zero.", "quantifier": "all sizes and matrices", "why_tests_cant": "Every pivot position and value pattern.", "anchors": ["include/blast/math/dense/Getf2.hpp:getf2"]}
{"id": "C22", "title": "blocked getrf equals unblocked getf2", "statement": "Column-major getrf computes the same factorization property P*A = L*U as getf2 (pivot indices global, interchanges applied to all columns), for every block-size remainder.", "quantifier": "all sizes m,n and matrices", "why_tests_cant": "Tests run a finite list of sizes; the blocking has several remainder branches per dimension whose combinations are unbounded.", "anchors": ["include/blast/math/dense/Getrf.hpp:getrf", "include/blast/math/dense/Laswp.hpp:laswp", "include/blast/math/dense/Trsm.hpp:trsm"]}
{"id": "C23", "title": "what row-major getrf really factorizes", "statement": "Row-major getrf never throws, sets ipiv[k]=k and computes L*U = A (no interchanges) for every matrix whose leading square blocks are nonsingular. It does not do the partial pivoting its documentation promises: on the invertible matrix [[0,1],[1,0]] it returns normally with factors that do not multiply to P*A, whatever a division by zero yields. Nor is it numerically stable: in binary64, on [[2^-60,1],[1,1]] (elements in [0,1], every matrix within 1/8 of it invertible) it returns normally with finite factors whose product has 0 where the matrix has 1.", "quantifier": "all sizes and matrices with nonsingular leading blocks; the refutation for every arithmetic of division by zero", "why_tests_cant": "Leading minors of all sizes; the failure needs a zero leading minor, which random tests never produce.", "anchors": ["include/blast/math/dense/Getrf.hpp:getrf"]}
{"id": "C24", "title": "swap and laswp permute rows", "statement": "swap exchanges two vectors elementwise and applying it twice restores them; laswp(A,k0,k1,ipiv) applies the row interchanges k<->ipiv[k] in order k0..k1-1 to every column, only reads ipiv[k0..k1-1], and is undone by applying the interchanges in reverse order.", "quantifier": "all sizes, index arrays and storage orders", "why_tests_cant": "Permutations compose over unbounded sequences.", "anchors": ["include/blast/math/dense/Swap.hpp:swap", "include/blast/math/dense/Laswp.hpp:laswp"]}
{"id": "C25", "title": "iamax returns the first index of maximum absolute value", "statement": "iamax(x) returns the smallest i with |x[i]| >= |x[j]| for all j; an empty vector gives std::invalid_argument. In IEEE arithmetic infinities count as the largest values and NaN elements are passed over, unless the first element is NaN: then the result is 0.", "quantifier": "all non-empty vectors, any spacing/orientation", "why_tests_cant": "All lengths and tie patterns.", "anchors": ["include/blast/math/dense/Iamax.hpp:iamax"]}
{"id": "C26", "title": "SIMD imax returns the maximum and one of its indices", "statement": "imax(v, idx) returns in every lane the maximum of v and, when the maximum is attained once, the idx lane of the maximum, on AVX2 (float, double) and NEON64 (float, double) alike.", "quantifier": "all lane values over a linear order, all index vectors", "why_tests_cant": "All orderings and ties of the lanes.", "anchors": ["include/blast/math/simd/arch/Avx2.hpp:imax", "include/blast/math/simd/arch/Neon64.hpp:imax", "include/blast/math/simd/SimdVec.hpp:imax"]}
{"id": "C27", "title": "dense trsm solves A*X = B", "statement": "After trsm<UPLO,UNIT>(A,B,X) the triangular system A*X = B holds in exact arithmetic (non-zero diagonal when not UNIT), only the relevant triangle of A is used, X may be B, only X is written, sizes are checked.", "quantifier": "all sizes, values, storage orders, both triangles, unit or not", "why_tests_cant": "All sizes and aliasing.", "anchors": ["include/blast/math/dense/Trsm.hpp:trsm"]}
{"id": "C28", "title": "trsv solves A*x = b", "statement": "trsvLeftLower/trsvLeftUpper leave in x (of the size of b, possibly b itself) the solution of A*x = b in exact arithmetic (non-zero diagonal), read only the selected triangle of A and write only x; a matrix that is not square of the size of b gives std::invalid_argument.", "quantifier": "all sizes and values, in place or not", "why_tests_cant": "All sizes.", "anchors": ["include/blast/math/dense/Trsv.hpp:trsvLeftLower", "include/blast/math/dense/Trsv.hpp:trsvLeftUpper"]}
{"id": "C29", "title": "reference trsm solves A*X = alpha*B and X*A = alpha*B, also in place", "statement": "reference::trsm leaves X solving the left or right triangular equation in exact arithmetic for upper/lower, unit/non-unit A, uses only the relevant triangle, X may equal B.", "quantifier": "all sizes, uplo, diag, values, layouts", "why_tests_cant": "All sizes; in-place safety depends on iteration order.", "anchors": ["include/blast/math/reference/Trsm.hpp:trsm"]}
{"id": "C30", "title": "reference trmm multiplies by a triangular matrix, also in place", "statement": "reference::trmm leaves C = alpha*tri(A)*B (left) or alpha*B*tri(A) (right) in exact arithmetic where tri(A) is the selected triangle with optional unit diagonal; C may equal B; only the triangle is used. (For the left version with matrix arguments this is what its own source says; which function it really calls is C93.)", "quantifier": "all sizes, uplo, diag, values, layouts", "why_tests_cant": "All sizes; in-place safety depends on iteration order.", "anchors": ["include/blast/math/reference/Trmm.hpp:trmm"]}
{"id": "C31", "title": "element storage is injective and in bounds", "statement": "Two distinct elements (i,j) of a matrix never share a storage cell and every element's cell lies inside the allocated storage, for dense and panel, static and dynamic matrices, both storage orders.", "quantifier": "all sizes and SIMD widths", "why_tests_cant": "Index arithmetic over all sizes.", "anchors": ["include/blast/math/dense/DynamicMatrix.hpp:elementIndex", "include/blast/math/dense/StaticMatrix.hpp:elementIndex", "include/blast/math/panel/DynamicPanelMatrix.hpp:elementIndex", "include/blast/math/panel/StaticPanelMatrix.hpp:elementIndex"]}
{"id": "C32", "title": "a matrix behaves like a map from indices to values", "statement": "After any sequence of element writes m(i,j)=v a read m(i,j) returns the last value written to (i,j), or the initial 0 if there was none.", "quantifier": "all sizes, all finite histories of writes", "why_tests_cant": "Histories are unbounded.", "anchors": ["include/blast/math/dense/DynamicMatrix.hpp", "include/blast/math/dense/StaticMatrix.hpp", "include/blast/math/panel/DynamicPanelMatrix.hpp", "include/blast/math/panel/StaticPanelMatrix.hpp"]}
{"id": "C33", "title": "reset() sets all elements to zero and stays in bounds - for panel matrices only of some shapes", "statement": "After reset() of a dense matrix every element is 0 and no memory outside the matrix storage is written. For a non-empty DynamicPanelMatrix this holds iff the extent across the panels is at most the padded extent along the panels and at least the number of panels: wider matrices are written out of bounds, taller ones keep old elements.", "quantifier": "all sizes, storage orders, container kinds", "why_tests_cant": "All size combinations m,n.", "anchors": ["include/blast/math/dense/DynamicMatrix.hpp:reset", "include/blast/math/dense/StaticMatrix.hpp:reset", "include/blast/math/panel/DynamicPanelMatrix.hpp:reset", "include/blast/math/views/Submatrix.hpp:reset"]}
{"id": "C34", "title": "initializer lists construct the written matrix", "statement": "StaticMatrix{...}/StaticPanelMatrix{...} built from a row list throws std::invalid_argument iff the number of rows differs from M or some row is longer than N; otherwise element (i,j) is the j-th entry of the i-th list, or 0 when the row is shorter, and all padding elements of the storage are 0.", "quantifier": "all sizes and lists", "why_tests_cant": "All list shapes.", "anchors": ["include/blast/math/dense/StaticMatrix.hpp:StaticMatrix", "include/blast/math/panel/StaticPanelMatrix.hpp:StaticPanelMatrix"]}
{"id": "C35", "title": "matrix pointer arithmetic is consistent with element access", "statement": "ptr(m,i,j) designates the same cell as m(i,j); p(i,j)(k,l) designates the same cell as p(i+k,j+l); hmove/vmove equal the corresponding offsets; trans() exchanges row and column offsets; ~ keeps the position. For pointers to panel matrices these laws hold for pointers that are at the start of a panel (as aligned pointers must be); moving a pointer inside a panel across its end gives the wrong cell (witness).", "quantifier": "all pointers, offsets, layouts (dense and panel)", "why_tests_cant": "Index arithmetic over all offsets.", "anchors": ["include/blast/math/dense/DynamicMatrixPointer.hpp", "include/blast/math/dense/StaticMatrixPointer.hpp", "include/blast/math/panel/DynamicPanelMatrixPointer.hpp", "include/blast/math/panel/StaticPanelMatrixPointer.hpp"]}
{"id": "C36", "title": "partial register load/store touch exactly the requested rectangle", "statement": "RegisterMatrix::store(p,m,n) writes exactly the elements (i,j), i<m, j<n, with the register values and nothing else; load(beta,p,m,n) through an unaligned or unpadded pointer reads exactly those elements and store after load(1,..) copies them.", "quantifier": "all kernel sizes, m, n, SIMD widths, memory contents", "why_tests_cant": "Lane masks for every remainder.", "anchors": ["include/blast/math/register_matrix/RegisterMatrix.hpp:store", "include/blast/math/register_matrix/RegisterMatrix.hpp:load"]}
{"id": "C37", "title": "storeLower writes exactly the lower triangle", "statement": "RegisterMatrix::storeLower(p) and storeLower(p,m,n) write exactly the elements with i>=j (and i<m, j<n) and nothing else.", "quantifier": "all kernel sizes, m, n, SIMD widths", "why_tests_cant": "Lane masks for every column.", "anchors": ["include/blast/math/register_matrix/RegisterMatrix.hpp:storeLower"]}
{"id": "C38", "title": "register triangular solve and Cholesky kernels", "statement": "RegisterMatrix::trsm(Right,Upper,A) replaces the register matrix B by X with X*A = B; RegisterMatrix::potrf() replaces the lower part of a positive definite top block by its Cholesky factor and the rows below by the corresponding solve, in exact arithmetic. trsm for the other sides and triangles is not implemented: a release build silently leaves B as it was.", "quantifier": "all kernel sizes and values", "why_tests_cant": "All values.", "anchors": ["include/blast/math/register_matrix/RegisterMatrix.hpp:trsm", "include/blast/math/register_matrix/RegisterMatrix.hpp:potrf"]}
{"id": "C39", "title": "views address the right elements and compose", "statement": "submatrix(m,i,j,..)(k,l) is m(i+k,j+l); a submatrix of a submatrix is the submatrix at the summed offsets; row(m,i,j,n)[k] is m(i,j+k); writing, resetting or assigning to a view changes exactly the viewed elements; the pointer of a view designates the viewed elements, for views of panel matrices if they start on a panel boundary (and not otherwise).", "quantifier": "all offsets and sizes", "why_tests_cant": "All offset combinations.", "anchors": ["include/blast/math/views/Submatrix.hpp", "include/blast/math/views/submatrix/Panel.hpp"]}
{"id": "C40", "title": "panel submatrix creation is checked", "statement": "A PanelSubmatrix is created iff it fits in the matrix and starts at a panel boundary: otherwise std::invalid_argument respectively std::logic_error is thrown, as long as offset+size does not wrap around (a wrapped request is accepted); at() throws std::out_of_range outside; a view of a view is checked against the underlying matrix only; row() of a panel matrix checks its index; offset() is right for column-major and wrong for row-major views.", "quantifier": "all offsets, sizes", "why_tests_cant": "All offset combinations.", "anchors": ["include/blast/math/views/submatrix/Panel.hpp:PanelSubmatrix"]}
{"id": "C41", "title": "dense<->panel assignment copies exactly", "statement": "assign between dense and panel matrices of equal size copies every element and modifies no cell outside the target's elements (for two column-major matrices the dense one must be SIMD-aligned: an unaligned one is accessed with aligned instructions); copying back and forth restores the elements; sizes are not compared, and a larger right-hand side is written outside of the target.", "quantifier": "all sizes, storage orders", "why_tests_cant": "Remainder branches per size.", "anchors": ["include/blast/math/expressions/PanelMatrix.hpp:assign"]}
{"id": "C42", "title": "matrix comparison and generic assignment", "statement": "operator== throws std::invalid_argument on different sizes and otherwise is true iff all elements are equal; assign(a,b) throws on different sizes and otherwise copies all elements, modifying nothing else.", "quantifier": "all sizes, values, layouts", "why_tests_cant": "All sizes.", "anchors": ["include/blast/math/Matrix.hpp:operator==", "include/blast/math/Matrix.hpp:assign"]}
{"id": "C43", "title": "makePositiveDefinite yields a symmetric positive definite matrix", "statement": "For a square dense matrix or view the produced matrix is R*R^T+N*I (R the matrix of drawn numbers): it is symmetric and x^T*A*x > 0 for all x != 0, whatever the random numbers drawn, and nothing outside the matrix (the viewed block) changes; non-square arguments are rejected with std::invalid_argument; randomize writes exactly the elements.", "quantifier": "all sizes, all random draws", "why_tests_cant": "Quantifies over all random draws and all vectors x.", "anchors": ["include/blast/math/algorithm/MakePositiveDefinite.hpp:makePositiveDefinite"]}
{"id": "C44", "title": "nextMultiple and spacing", "statement": "nextMultiple(v,f) is the least multiple of f that is >= v (f>0); hence every column (row) of a column-major (row-major) blast matrix starts on a SIMD boundary and has room for a full SIMD load of its last element.", "quantifier": "all v, f, sizes", "why_tests_cant": "All integers.", "anchors": ["include/blast/util/NextMultiple.hpp:nextMultiple", "include/blast/math/dense/DynamicMatrix.hpp", "include/blast/math/dense/StaticMatrix.hpp"]}
{"id": "C45", "title": "transposition is an involution on elements", "statement": "trans(m)(i,j) is m(j,i), trans(trans(m)) has the elements and size of m, and the declared storage order is flipped.", "quantifier": "all matrices and indices", "why_tests_cant": "All indices.", "anchors": ["include/blast/math/expressions/MatTransExpr.hpp", "include/blast/math/expressions/PMatTransExpr.hpp"]}
{"id": "C46", "title": "reference gemm, ger and axpy compute their documented results", "statement": "reference::gemm, reference::ger and reference::axpy leave exactly alpha*A*B+beta*C, A+alpha*x*y^T, alpha*A+B in the output for all sizes, check sizes, and write nothing else.", "quantifier": "all sizes, values, layouts", "why_tests_cant": "All sizes.", "anchors": ["include/blast/math/reference/Gemm.hpp:gemm", "include/blast/math/reference/Ger.hpp:ger", "include/blast/math/reference/Axpy.hpp:axpy"]}
{"id": "C47", "title": "masked SIMD loads and stores touch only selected lanes", "statement": "A masked load reads only the cells of selected lanes and yields 0 in the others; a masked store changes exactly the cells of selected lanes; a store followed by a load of the same lanes returns the stored values.", "quantifier": "all masks, SIMD widths, addresses, memory contents", "why_tests_cant": "All masks and memories.", "anchors": ["include/blast/math/simd/arch/Avx2.hpp:maskload", "include/blast/math/simd/arch/Neon64.hpp:maskstore", "include/blast/math/simd/SimdVec.hpp"]}
{"id": "C48", "title": "vector pointers address strided vectors", "statement": "A vector pointer designates element i at distance i*spacing; load/store gather and scatter exactly the selected elements; row()/column() of a matrix pointer address that row/column.", "quantifier": "all spacings, offsets, masks", "why_tests_cant": "All strides.", "anchors": ["include/blast/math/dense/DynamicVectorPointer.hpp", "include/blast/math/dense/StaticVectorPointer.hpp", "include/blast/math/RowColumnVectorPointer.hpp"]}
{"id": "C49", "title": "gemm on views touches only the viewed block", "statement": "gemm with submatrix views (also blocks of one and the same matrix) as A, B, C, D leaves alpha*A*B+beta*C in the viewed block of D and changes no other cell, provided the SIMD padding of the views lies inside the storage; it throws std::invalid_argument on inconsistent sizes; without the padding condition it reads out of bounds.", "quantifier": "all sizes, offsets, values, overlapping-free placements", "why_tests_cant": "All block positions of all matrices.", "anchors": ["include/blast/math/algorithm/Gemm.hpp:gemm", "include/blast/math/views/Submatrix.hpp"]}
{"id": "C50", "title": "solving A*X=B through LU or Cholesky factorization", "statement": "After ipiv = getrf(A); laswp(B, ipiv); trsm(lower, unit, A, B); trsm(upper, A, B) the matrix left in B satisfies A0*X = B0, where A0, B0 are the matrices before the calls, for every square A0 that is not singular in the pivoting sense; if a zero pivot is met getrf throws std::invalid_argument and B is unchanged. After potrf(A, L) and the two triangular solves with L and trans(L), X satisfies A0*X = B0 for every symmetric positive definite A0.", "quantifier": "all sizes, right-hand sides, values, layouts", "why_tests_cant": "Composition of four algorithms over all matrices.", "anchors": ["include/blast/math/dense/Getrf.hpp:getrf", "include/blast/math/dense/Laswp.hpp:laswp", "include/blast/math/dense/Trsm.hpp:trsm", "include/blast/math/dense/Potrf.hpp:potrf"]}
{"id": "C51", "title": "factorizations, rank updates and triangular operations on submatrix views", "statement": "syrk, ger, getf2 and getrf, trmm, trsm and potrf applied to (pairwise disjoint or identical) submatrix views compute in the viewed block what they compute on whole matrices and change no cell outside of the viewed block of the output, provided the block is aligned and its SIMD padding rows are not part of it being overwritten (potrf: row count a multiple of the tile); potrf on a view whose row count is not such a multiple overwrites rows below the block, and syrk on a block that is not aligned has undefined behaviour.", "quantifier": "all sizes, offsets, values", "why_tests_cant": "All block positions of all matrices.", "anchors": ["include/blast/math/dense/Syrk.hpp:syrk", "include/blast/math/dense/Getf2.hpp:getf2", "include/blast/math/algorithm/Trmm.hpp:trmm", "include/blast/math/views/Submatrix.hpp", "include/blast/math/dense/Potrf.hpp:potrf"]}
{"id": "C52", "title": "whole histories of matrix objects behave like values", "statement": "In every program built from construction (default, sized, filled, from a list), copy, move, assignment, fill, element access, comparison, reset, gemm and destruction of matrices of the four classes, every step has the outcome and effect specified on matrix values: no operation on one object changes another, exceptions leave everything unchanged, there is no undefined behaviour (given valid indices, existing objects and column-major gemm operands), padding elements stay 0 (unless a StaticMatrix is constructed from a value), and when all objects are destroyed all memory has been released. Copying a DynamicMatrix or DynamicPanelMatrix throws std::logic_error and moving one terminates the program. (The destructors release memory from the aligned operator new[] with the plain operator delete[], which is undefined behaviour by the letter of the standard.)", "quantifier": "all finite histories of operations, all sizes, layouts, values and storage addresses", "why_tests_cant": "Arbitrarily long interleavings of operations on arbitrarily many objects.", "anchors": ["include/blast/math/dense/DynamicMatrix.hpp:DynamicMatrix", "include/blast/math/dense/StaticMatrix.hpp:StaticMatrix", "include/blast/math/panel/DynamicPanelMatrix.hpp:DynamicPanelMatrix", "include/blast/math/panel/StaticPanelMatrix.hpp:StaticPanelMatrix", "include/blast/math/Matrix.hpp:assign"]}
{"id": "C53", "title": "StaticVector objects behave like values", "statement": "Constructing, filling or resetting a StaticVector sets every element (and the SIMD padding) to the value; construction from an initializer list takes the first N entries and zeroes the rest; any history of fills, resets, element reads, element writes and assignments over any number of vectors returns what it returns on values, and no operation changes another vector or any other memory.", "quantifier": "all vector sizes, lists, memory contents and histories", "why_tests_cant": "Arbitrarily long histories over arbitrarily many vectors.", "anchors": ["include/blast/math/dense/StaticVector.hpp:StaticVector"]}
{"id": "C54", "title": "random panel matrices have the promised structure", "statement": "randomize(A) gives every element the number drawn for it and touches only elements; generating a panel matrix also leaves zero padding; makeSymmetric leaves a symmetric matrix with the drawn lower triangle, makeHermitian one whose upper triangle is the conjugate of the lower; makePositiveDefinite leaves the symmetric positive definite matrix R*R^T+N*I, which potrf factorizes without exception, whatever numbers are drawn; the three throw std::invalid_argument on non-square matrices and change nothing.", "quantifier": "all sizes, all sequences of random numbers, all memory contents", "why_tests_cant": "All outcomes of the random generator.", "anchors": ["include/blast/math/DynamicPanelMatrix.hpp:Rand", "include/blast/math/DynamicPanelMatrix.hpp:makePositiveDefinite", "include/blast/math/StaticPanelMatrix.hpp:Rand", "include/blast/math/StaticPanelMatrix.hpp:makeSymmetric"]}
{"id": "C55", "title": "register matrices of dynamic size, and comparison of register matrices", "statement": "A DynamicRegisterMatrix(m,n) starts with zeros; load followed by store copies exactly the m x n block and changes no other memory; storeLower writes exactly the lower triangle; ger adds alpha*a*b^T elementwise. load and ger require all maxRows() rows of the source (not only m) to be readable; without them load reads out of bounds. A register matrix (static or dynamic) equals a matrix exactly when sizes and all elements agree; the comparison never throws.", "quantifier": "all sizes, register shapes, SIMD widths, positions, values, memory contents", "why_tests_cant": "All sizes and memories.", "anchors": ["include/blast/math/register_matrix/DynamicRegisterMatrix.hpp:DynamicRegisterMatrix", "include/blast/math/register_matrix/RegisterMatrix.hpp:operator=="]}
{"id": "C56", "title": "accuracy of gemm, ger, syrk and trmm in rounded arithmetic", "statement": "If every scalar operation (including fused multiply-add) has relative error at most u, the computed alpha*A*B+beta*C of gemm differs from the exact one, element by element, by at most ((1+u)^(K+2)-1)*(|alpha||A||B|+|beta||C|), K the inner dimension; likewise ger (2 roundings), syrkLower (K+1), trmm (K+1). The bounds hold whatever the tile, SIMD width, layout and size.", "quantifier": "all sizes, layouts, values, all rounding functions with relative error at most u", "why_tests_cant": "Quantifies over all values and all rounding behaviours; tests compare with a tolerance on random inputs.", "anchors": ["include/blast/math/algorithm/Gemm.hpp:gemm", "include/blast/math/algorithm/Ger.hpp:ger", "include/blast/math/algorithm/Syrk.hpp:syrkLower", "include/blast/math/algorithm/Trmm.hpp:trmm"]}
{"id": "C57", "title": "backward error of the triangular solvers in rounded arithmetic", "statement": "If every scalar operation has relative error at most u, the X computed by trsm (left), trsv and the reference trsm (left and right, any uplo, unit or not, any alpha) for an n x n triangular matrix with nonzero diagonal satisfies |alpha*B - T*X| <= ((1/(1-u))^p - 1)*|T|*|X| element by element, p = n (n+1 for the reference versions, which scale by alpha); nothing but X is written.", "quantifier": "all sizes, layouts, values, aliasing X = B, all rounding functions with relative error at most u", "why_tests_cant": "Quantifies over all values and all rounding behaviours.", "anchors": ["include/blast/math/dense/Trsm.hpp:trsm", "include/blast/math/dense/Trsv.hpp:trsv", "include/blast/math/reference/Trsm.hpp:trsm"]}
{"id": "C58", "title": "backward error and breakdown of the Cholesky factorization in rounded arithmetic", "statement": "If every scalar operation has relative error at most u: for a matrix that is positive definite by a margin of about N^2 u relative to its diagonal, potrf (dense and panel, in place or not) meets no breakdown and leaves a lower triangular L with positive diagonal and |A - L*L^T| <= ((1/(1-u))^(N+4) - 1)*|L|*|L|^T. For an arbitrary matrix of numbers it either leaves a NaN in the lower triangle of L or L satisfies that bound: failure never goes unnoticed.", "quantifier": "all sizes, layouts, values, all rounding functions with relative error at most u", "why_tests_cant": "Quantifies over all values and all rounding behaviours.", "anchors": ["include/blast/math/dense/Potrf.hpp:potrf", "include/blast/math/panel/Potrf.hpp:potrf"]}
{"id": "C59", "title": "backward error, growth and breakdown of the LU factorization in rounded arithmetic", "statement": "If every scalar operation has relative error at most u < 1: getf2 (both storage orders) and column-major getrf either return or throw std::invalid_argument, changing only the elements of A (and the first min(m,n) pivot indices on return). On return |P*A - L*U| <= g*|L|*|U| element by element with g = (1/(1-u))^(2 min(m,n)) - 1, the same for the blocked and the unblocked algorithm; pivot indices are in range, multipliers are at most 1+u (row-major: (1+u)^2), no pivot is zero and U grows at most by a factor of about 2 per step. They do return unless a singular matrix lies within g*min(m,n)*(1+u)*growth of A. Row-major getrf always returns, without interchanges; the residual bound holds if no computed pivot is zero.", "quantifier": "all sizes, block sizes, SIMD widths, values, all rounding functions with relative error at most u", "why_tests_cant": "Quantifies over all values and all rounding behaviours; the invalid_argument condition is about a neighbourhood of the input.", "anchors": ["include/blast/math/dense/Getf2.hpp:getf2", "include/blast/math/dense/Getrf.hpp:getrf", "include/blast/math/dense/Trsm.hpp:trsm", "include/blast/math/dense/Gemm.hpp:gemm", "include/blast/math/dense/Laswp.hpp:laswp"]}
{"id": "C60", "title": "solving linear systems in rounded arithmetic", "statement": "If every scalar operation has relative error at most u: the sequence getrf, laswp, trsm<Lower,Unit>, trsm<Upper,NonUnit> on A and B either throws std::invalid_argument, leaving everything but A unchanged, or leaves X in B with |P*B - P*A*X| <= 2((1/(1-u))^(2n) - 1)*|L|*|U|*|X|; it returns, with |B - A*X| bounded by about n^2 u growth max|A| sum|X|, unless a singular matrix is that close to A. potrf, trsm, trsm on a symmetric matrix that is positive definite by a margin returns X with |B - S*X| <= ((1/(1-u))^(2n) + (1/(1-u))^(n+4) - 2)*|L|*|L|^T*|X|.", "quantifier": "all sizes, block sizes, layouts, matrices and right hand sides, all rounding functions with relative error at most u", "why_tests_cant": "Quantifies over all values and all rounding behaviours of a composition of four routines.", "anchors": ["include/blast/math/dense/Getrf.hpp:getrf", "include/blast/math/dense/Laswp.hpp:laswp", "include/blast/math/dense/Trsm.hpp:trsm", "include/blast/math/dense/Potrf.hpp:potrf"]}
{"id": "C61", "title": "operation counts reported by the benchmark helpers", "statement": "complexityPotrf(m,n) reports, for m >= n, exactly the multiplications, additions, divisions and square roots of the textbook Cholesky loops on an m x n lower trapezoid, as long as the intermediate products fit into std::size_t; complexityTrsm_RightUpper reports the additions and multiplications of the textbook loops; complexityGetrf reports for square matrices the right number of divisions and as additions/multiplications the number of updates plus the number of divisions, and is symmetric in m and n. setCounters sets 'flops' to add+mul. Where they are wrong (divisions of trsm; updates of getrf for non-square matrices, where unsigned arithmetic wraps around) counterexamples are proved.", "quantifier": "all sizes below the overflow bound", "why_tests_cant": "Closed formulas against loop counts for every m, n; unsigned wrap-around.", "anchors": ["include/bench/Complexity.hpp:complexityPotrf", "include/bench/Complexity.hpp:complexityTrsm_RightUpper", "include/bench/Complexity.hpp:complexityGetrf", "include/bench/Complexity.hpp:setCounters"]}
{"id": "C62", "title": "what a passing comparison of the test suite means", "statement": "approxEqual of two matrices returns success only if sizes agree and every pair of finite elements satisfies (1-u)|a-b| <= (1+u)^2 (atol+rtol|b|) (u the rounding error of the comparison itself), and does return success if (1+u)|a-b| <= (1-u)^2 (atol+rtol|b|) everywhere; otherwise it reports the first mismatch in row order; likewise for vectors, numbers and element-wise tolerances. exactEqual succeeds iff sizes and all elements agree and no element is NaN. The comparison reads elements only. Refuted: with an expected infinity any number passes, and the vector and scalar versions accept NaN.", "quantifier": "all sizes, layouts, IEEE values (numbers, infinities, NaN), rounding functions with relative error at most u", "why_tests_cant": "Quantifies over all values, and is about the tests themselves.", "anchors": ["include/test/Testing.hpp:approxEqual", "include/test/Testing.hpp:exactEqual"]}
{"id": "C63", "title": "accuracy of the reference implementations, and what comparing with them shows", "statement": "If every scalar operation has relative error at most u, reference::gemm differs from the exact alpha*A*B+beta*C by at most ((1+u)^(K+3)-1)(|alpha||A||B|+|beta||C|), reference ger by (1+u)^3-1, axpy by (1+u)^2-1, trmm (left/right, any triangle, unit or not) by (1+u)^(n+2)-1 relative to the magnitudes; nothing but the output is written. gemm and reference::gemm differ by at most the sum of their bounds, so the comparison of the test suite succeeds whenever the tolerances allow that (in particular with tolerance 1e-11 in double precision for elements in [-1,1] and K <= 200); and if the comparison of a matrix D, left by whatever program, with the reference result succeeds, D is within the tolerance plus the reference error of the exact result.", "quantifier": "all sizes, layouts, values, all rounding functions with relative error at most u", "why_tests_cant": "Tests check single runs; this is about all values and what a passing test implies.", "anchors": ["include/blast/math/reference/Gemm.hpp:gemm", "include/blast/math/reference/Ger.hpp:ger", "include/blast/math/reference/Axpy.hpp:axpy", "include/blast/math/reference/Trmm.hpp:trmm", "include/test/Testing.hpp:approxEqual", "include/test/Tolerance.hpp:absTol"]}
{"id": "C64", "title": "size computations in 64-bit std::size_t", "statement": "If the number of elements a DynamicMatrix(m,n) or DynamicPanelMatrix(m,n) has to allocate is, as an unbounded integer, below 2^64, the constructor fails exactly if the allocation exceeds what operator new[] can give, otherwise allocates exactly that number, and every element, padding included, has its own place within the array. Refuted: nothing checks the multiplication, so sizes whose product wraps around (2^32 x 2^32) are accepted and give an object whose storage is too small; for DynamicMatrix the elements have places of their own in the array if and only if the size does not wrap.", "quantifier": "all 64-bit m, n, both storage orders, all SIMD sizes, element sizes and allocation limits", "why_tests_cant": "Overflow occurs for sizes no test allocates.", "anchors": ["include/blast/math/dense/DynamicMatrix.hpp:DynamicMatrix", "include/blast/math/panel/DynamicPanelMatrix.hpp:DynamicPanelMatrix", "include/blast/util/NextMultiple.hpp:nextMultiple"]}
{"id": "C65", "title": "conversion between Blaze and BLASFEO matrices", "statement": "blasfeo::pack(A,sB,bi,bj) copies element (i,j) of A to element (bi+i,bj+j) of sB, unpack(m,n,sA,ai,aj,B) copies element (ai+i,aj+j) of sA to element (i,j) of B, unpack_tran to element (j,i), for either storage order of the Blaze matrix, and nothing else is changed; packing and unpacking gives the matrix back; a packed column (row) vector fills a column (row) of the block; assigning a matrix of another size to a blasfeo::DynamicMatrix throws std::invalid_argument and changes nothing.", "quantifier": "all sizes, offsets, spacings, storage orders, layouts of the BLASFEO matrix with distinct cells, all values", "why_tests_cant": "Index arithmetic for every size, offset and combination of storage orders; absence of other writes.", "anchors": ["include/blasfeo/BlazeInterop.hpp:pack", "include/blasfeo/BlazeInterop.hpp:unpack", "include/blasfeo/BlazeInterop.hpp:unpack_tran", "include/blasfeo/DynamicMatrix.hpp:operator="]}
{"id": "C66", "title": "ownership of memory in the BLASFEO wrappers", "statement": "Whatever sequence of constructions, moves, swaps and destructions of blasfeo::detail::AlignedStorage objects is executed, no block is freed twice and every allocated block is held by exactly one object, so none is left when no object is. The same holds for blasfeo::DynamicMatrix as long as no object is copied; refuted: it has the implicit copy operations, and every history with one copy construction, or copy assignment between different objects, that destroys all its objects frees a block that is not allocated.", "quantifier": "all finite histories, all choices of the allocator (reuse of blocks, failure)", "why_tests_cant": "Ranges over histories of any length and allocator behaviour.", "anchors": ["include/blasfeo/Memory.hpp:AlignedStorage", "include/blasfeo/DynamicMatrix.hpp:DynamicMatrix"]}
{"id": "C67", "title": "library calls are local: no allocation, no access outside the arguments, independent calls commute", "statement": "gemm, ger, syrk, trmm (left and right), trsm, potrf (dense and panel), getf2, getrf and laswp read and write only the storage of the matrices and vectors they are given, and write only the output: for any two memories that agree on the arguments' storage - whatever else is allocated and whatever it contains - the call ends with the same result or exception, the same contents of the output, and all other cells as they were. No algorithm allocates or frees memory, for any arguments, also when it throws. Consequently calls none of which writes what another one uses may be made in any order (inputs may be shared): each ends as if made alone and the final memory is the same.", "quantifier": "all sizes, layouts, values, arithmetics, all memories agreeing on the arguments, all orders of any number of calls", "why_tests_cant": "tests run in one memory image and one order; an access outside the arguments or a dependence on unrelated memory shows up only in some memory images", "anchors": ["include/blast/math/algorithm/Gemm.hpp: gemm", "include/blast/math/dense/Ger.hpp: ger", "include/blast/math/dense/Syrk.hpp: syrkLower", "include/blast/math/algorithm/Trmm.hpp: trmm", "include/blast/math/dense/Trsm.hpp: trsm", "include/blast/math/dense/Potrf.hpp: potrf", "include/blast/math/panel/Potrf.hpp: potrf", "include/blast/math/dense/Getf2.hpp: getf2", "include/blast/math/dense/Getrf.hpp: getrf", "include/blast/math/dense/Laswp.hpp: laswp"]}
{"id": "C68", "title": "the LU factorizations are safe on all numbers, also NaN and infinity", "statement": "getf2 (both storage orders) and getrf, on any live matrix and whatever the arithmetic does - comparisons may have any outcome, divisions any result - end by returning or by throwing std::invalid_argument; they change only elements of A; when they return, ipiv[k] is a row index with k <= ipiv[k] < rows for every k below min(rows, columns) and the other entries of ipiv are unchanged. So laswp with these indices and the two triangular solves are in bounds and return as well. Row-major getrf never throws. A matrix of NaNs is not reported as singular: getf2 returns NaN factors.", "quantifier": "all sizes, alignments and capacities, all element values incl. NaN and infinities, all arithmetics", "why_tests_cant": "memory safety would have to be tried for every pattern of comparison results; tests use random finite matrices", "anchors": ["include/blast/math/dense/Getf2.hpp: getf2", "include/blast/math/dense/Getrf.hpp: getrf", "include/blast/math/dense/Iamax.hpp: iamax", "include/blast/math/dense/Laswp.hpp: laswp", "include/blast/math/dense/Trsm.hpp: trsm"]}
{"id": "C69", "title": "whole programs that mix object operations and algorithm calls behave like the same programs on mathematical matrices", "statement": "Take any program of constructions, copies, moves, assignments, element accesses, comparisons, resets, products and destructions of matrix objects of the four classes, interleaved with calls of randomize, makePositiveDefinite, trmm (left upper, right lower), syrk, trsm, potrf, getf2, getrf and laswp on those objects (in place where documented), each call respecting the documented preconditions at the moment it is made. In exact arithmetic no step has undefined behaviour; the outcome of every step (return, value read, std::invalid_argument for wrong sizes or singular matrices, std::logic_error, termination) and the final values of all objects and pivot arrays are those of the same program on matrices as mathematical values; objects never overlap, and memory and heap contain exactly the storage of the living objects - after any exceptions on the way - so nothing leaks when all are destroyed. In particular getrf; laswp; trsm; trsm at any point of such a program solves A X = B, and makePositiveDefinite; potrf gives the Cholesky factor of R R^T + n I.", "quantifier": "all finite programs, all numbers and classes of objects, all sizes, values, random numbers, addresses given by the allocator", "why_tests_cant": "tests run single calls on fresh objects; interactions (aliasing of arguments, padding left by one call and read by the next, state after an exception) need all interleavings", "anchors": ["include/blast/math/dense/DynamicMatrix.hpp: DynamicMatrix", "include/blast/math/dense/StaticMatrix.hpp: StaticMatrix", "include/blast/math/panel/DynamicPanelMatrix.hpp: DynamicPanelMatrix", "include/blast/math/panel/StaticPanelMatrix.hpp: StaticPanelMatrix", "include/blast/math/algorithm/Randomize.hpp: randomize", "include/blast/math/algorithm/MakePositiveDefinite.hpp: makePositiveDefinite", "include/blast/math/algorithm/Trmm.hpp: trmm", "include/blast/math/dense/Syrk.hpp: syrkLower", "include/blast/math/dense/Trsm.hpp: trsm", "include/blast/math/dense/Potrf.hpp: potrf", "include/blast/math/panel/Potrf.hpp: potrf", "include/blast/math/dense/Getf2.hpp: getf2", "include/blast/math/dense/Getrf.hpp: getrf", "include/blast/math/dense/Laswp.hpp: laswp"]}
{"id": "C70", "title": "thread safety: concurrent calls with separate outputs do not interfere, under every schedule", "statement": "Threads call gemm, ger, syrk, trmm, trsm, potrf, getf2, getrf or laswp (each thread any sequence of calls), reading shared inputs if they like; no thread writes storage that another one uses. Then, however the scheduler interleaves the memory accesses of the threads: there is no data race (no two accesses of different threads to the same element of which one is a write); no access is to memory outside the storage of the call's own arguments; no memory is allocated or freed; at every moment only output elements have changed (no temporary writes to padding of or elements next to the output that another thread may own - e.g. syrk touches nothing above the diagonal); every call returns or throws exactly what it would have alone and leaves the same output; it does so after a number of its own accesses that does not depend on the others; the final memory does not depend on the schedule.", "quantifier": "all numbers of threads, all schedules (interleavings of single accesses, complete or not), all call sequences, sizes, values and arithmetics, any sharing of inputs", "why_tests_cant": "schedules cannot be enumerated; a race that is benign on the test machine is undefined behaviour, and a write-then-restore of a neighbour's element is invisible to every sequential test", "anchors": ["include/blast/math/algorithm/Gemm.hpp: gemm", "include/blast/math/dense/Ger.hpp: ger", "include/blast/math/dense/Syrk.hpp: syrkLower", "include/blast/math/algorithm/Trmm.hpp: trmm", "include/blast/math/dense/Trsm.hpp: trsm", "include/blast/math/dense/Potrf.hpp: potrf", "include/blast/math/panel/Potrf.hpp: potrf", "include/blast/math/dense/Getf2.hpp: getf2", "include/blast/math/dense/Getrf.hpp: getrf", "include/blast/math/dense/Laswp.hpp: laswp", "include/blast/math/register_matrix/RegisterMatrix.hpp: store", "include/blast/math/register_matrix/RegisterMatrix.hpp: storeLower"]}
{"id": "C71", "title": "The register gemm kernels and gemm(A, B, C, D)", "statement": "gemm(ker, K, a, b, c, d) and gemm(ker, K, alpha, a, b, beta, c, d), called with matrix pointers, store into the (RM*SS) x N block at d the values C + A B (alpha A B + beta C), each element being the documented chain of fused multiply-adds, computed from the values the operands had before the call: the result is independent of any overlap between a, b, c and d and of the previous contents of the register matrix, and nothing outside the block is changed. The partial versions, with trailing arguments md, nd, do the same for the md x nd block and write nothing else. (Defect: the partial version without alpha and beta needs all N columns of c to be readable although it is documented to need md x nd; with only these allocated it reads outside the operand.) gemm(A, B, C, D) makes D equal to A B + C, changes nothing but the elements of D, and rejects exactly the inconsistent sizes with std::invalid_argument before accessing memory.", "quantifier": "every register size, every K, md, nd, all pointers (also overlapping ones), all element values, all matrices of all sizes", "why_tests_cant": "a test checks one register shape and K with separate operands; overlaps, borders and all values cannot be enumerated", "anchors": ["include/blast/math/register_matrix/Gemm.hpp: gemm", "include/blast/math/algorithm/Gemm.hpp: gemm"]}
{"id": "C72", "title": "whole programs whose operands are blocks and transposes behave like the same programs on mathematical matrices", "statement": "Take any program as in C69 that also calls assign, reset, element access, randomize, gemm, trmm, syrk, trsm, potrf, getf2, getrf and laswp on submatrices (aligned and unaligned), submatrices of submatrices and transposes of its dense matrix objects - any number of operands of a call may be blocks of the same object, as long as the output does not overlap an input except exactly in place. If every call respects the preconditions at the moment it is made (blocks inside their matrices, declared aligned only if they are, storage orders), then in exact arithmetic no step has undefined behaviour, and the outcomes of all steps and the final values of all objects are those of the same program on mathematical matrices: a call changes only the elements of its output block; every other element of the same object, every other object and every pivot array is as before.", "quantifier": "all finite programs, all nestings of views, all numbers of objects, all sizes, positions, values", "why_tests_cant": "tests call the algorithms on one or two fixed submatrices; that a vectorised kernel working on a block never disturbs its neighbours in the same object, whatever ran before, concerns every block position and every history", "anchors": ["include/blast/math/views/Submatrix.hpp: Submatrix", "include/blast/math/views/Submatrix.hpp: submatrix", "include/blast/math/expressions/MatTransExpr.hpp: trans", "include/blast/math/algorithm/Gemm.hpp: gemm", "include/blast/math/algorithm/Trmm.hpp: trmm", "include/blast/math/dense/Syrk.hpp: syrkLower", "include/blast/math/dense/Trsm.hpp: trsm", "include/blast/math/dense/Potrf.hpp: potrf", "include/blast/math/dense/Getf2.hpp: getf2", "include/blast/math/dense/Getrf.hpp: getrf", "include/blast/math/dense/Laswp.hpp: laswp", "include/blast/math/algorithm/Randomize.hpp: randomize"]}
{"id": "C73", "title": "blocked algorithms can be built from the library's calls on submatrices", "statement": "A client that factors an n x n positive definite matrix object in place with block size b - for each block column, potrf in place on the submatrix from the diagonal block down, then syrkLower(-1, A21, 1, A22, A22) - ends, whatever the number of blocks, with the Cholesky factor in the lower triangle and the strict upper triangle unchanged, no call throwing. A client that solves L X = B in place by blocks - trsm with each diagonal block, then gemm(-1, L21, X1, 1, X2, X2) - ends with L X = B for the object's former contents B. In both cases nothing else in the client's state changes.", "quantifier": "all block sizes divisible by the SIMD width, all numbers of blocks and of right-hand sides, all values, all states of the client program in which the objects exist", "why_tests_cant": "composition of dozens of in-place calls on overlapping aligned blocks: an error in one boundary tile only shows for particular block counts and sizes", "anchors": ["include/blast/math/dense/Potrf.hpp: potrf", "include/blast/math/dense/Syrk.hpp: syrkLower", "include/blast/math/dense/Trsm.hpp: trsm", "include/blast/math/algorithm/Gemm.hpp: gemm", "include/blast/math/views/Submatrix.hpp: submatrix"]}
{"id": "C74", "title": "the result of a call depends on the elements of its arguments only, bit for bit", "statement": "Take two calls of the same function (gemm, ger, syrkLower, trmm left or right, trsm, potrf on dense or panel matrices, getf2, getrf - column-major and row-major - or makePositiveDefinite) with arguments of the same sizes and the same elements, in different memories: objects of other classes, at other addresses, with other padding, in place or not, with other contents around them. Then both calls end in the same way - both return, with the same pivots, or both throw the same exception - and the elements of the result are the same, bit for bit, in every floating-point arithmetic, with rounding, overflow, NaN and infinities; for gemm, ger, syrkLower, trmm right, trsm, getf2 and row-major getrf also if the SIMD widths differ. In particular no result depends on padding, on uninitialised memory or on addresses; where only a triangle is an argument, the other one does not matter; after std::invalid_argument the half-factorized matrix is determined too.", "quantifier": "all sizes, element values, arithmetics, object classes, addresses, memories", "why_tests_cant": "a test runs in one memory layout; that no padding or stale value reaches a result, for any NaN pattern, is a statement about pairs of executions", "anchors": ["include/blast/math/algorithm/Gemm.hpp: gemm", "include/blast/math/dense/Ger.hpp: ger", "include/blast/math/dense/Syrk.hpp: syrkLower", "include/blast/math/algorithm/Trmm.hpp: trmm", "include/blast/math/dense/Trsm.hpp: trsm", "include/blast/math/dense/Potrf.hpp: potrf", "include/blast/math/panel/Potrf.hpp: potrf", "include/blast/math/dense/Getf2.hpp: getf2", "include/blast/math/dense/Getrf.hpp: getrf", "include/blast/math/algorithm/MakePositiveDefinite.hpp: makePositiveDefinite"]}
{"id": "C75", "title": "whole programs are safe, leak-free and reproducible in floating point, wherever the allocator puts the objects", "statement": "Take a program as in C69 (constructions, copies, moves, assignments, comparisons, element accesses, resets, destructions and algorithm calls that respect their documented preconditions). In any floating-point arithmetic - with rounding, overflow, NaN and infinities, so also when a factorization breaks down - no step has undefined behaviour, objects never overlap, memory and heap contain exactly the storage of the living objects, and nothing leaks when all are destroyed. A second run of the same program in which the allocator returns other (free and aligned) addresses is admissible as well; it shows the same outcome at every step - values read, comparison results, exceptions - and ends with the same objects, with bitwise equal elements, and the same pivot arrays.", "quantifier": "all finite programs, all arithmetics, sizes, values, random numbers, and all pairs of address assignments", "why_tests_cant": "reproducibility compares two runs under all allocator choices; C69 speaks of exact arithmetic only, and rounding decides branches (pivots, comparisons)", "anchors": ["include/blast/math/dense/DynamicMatrix.hpp: DynamicMatrix", "include/blast/math/dense/StaticMatrix.hpp: StaticMatrix", "include/blast/math/panel/DynamicPanelMatrix.hpp: DynamicPanelMatrix", "include/blast/math/panel/StaticPanelMatrix.hpp: StaticPanelMatrix", "include/blast/math/algorithm/Randomize.hpp: randomize", "include/blast/math/algorithm/MakePositiveDefinite.hpp: makePositiveDefinite", "include/blast/math/algorithm/Trmm.hpp: trmm", "include/blast/math/dense/Syrk.hpp: syrkLower", "include/blast/math/dense/Trsm.hpp: trsm", "include/blast/math/dense/Potrf.hpp: potrf", "include/blast/math/panel/Potrf.hpp: potrf", "include/blast/math/dense/Getf2.hpp: getf2", "include/blast/math/dense/Getrf.hpp: getrf", "include/blast/math/dense/Laswp.hpp: laswp"]}
{"id": "C76", "title": "no algorithm swallows a NaN", "statement": "In every arithmetic in which an operation with a NaN operand gives NaN (IEEE 754), a NaN among the elements an algorithm is given is visible in its result. gemm, ger, syrkLower, trmm: the element (i,j) of the result is NaN if the scalars or any element of the operands that enters it mathematically is NaN - gemm with alpha = 0 or beta = 0 does not suppress a NaN in A, B or C (unlike BLAS, where C may then be uninitialised); trsm: a NaN in row k of the right-hand side or in a referenced element of row k of the matrix makes row k and all rows solved after it NaN; potrf: a NaN in A(r,c), c <= r, makes row r of L from column c on and all columns >= r of L NaN, so that checking L(n-1,n-1) suffices; getf2 and getrf: a NaN in A leaves a NaN in A, also if std::invalid_argument is thrown, and if A is square and the call returns, its last diagonal element is NaN (the comparisons of the pivot search, always false for NaN, cannot hide it). Conversely, where products and sums of numbers are numbers, an element of the result of gemm, ger, syrkLower and trmm right is NaN only if one of these operands is: no NaN leaks in from padding. (False for trmm left: the kernel multiplies zeros with elements of B in rows above, so a NaN in row 0 of B contaminates row 1 of C.)", "quantifier": "all sizes, storage orders, object classes, SIMD widths, positions of NaNs, arithmetics with propagating NaNs", "why_tests_cant": "the positions of NaNs cannot be enumerated, and masked and blended kernels swallow or spread them for particular tile positions only", "anchors": ["include/blast/math/algorithm/Gemm.hpp: gemm", "include/blast/math/dense/Ger.hpp: ger", "include/blast/math/dense/Syrk.hpp: syrkLower", "include/blast/math/algorithm/Trmm.hpp: trmm", "include/blast/math/dense/Trsm.hpp: trsm", "include/blast/math/dense/Potrf.hpp: potrf", "include/blast/math/panel/Potrf.hpp: potrf", "include/blast/math/dense/Getf2.hpp: getf2", "include/blast/math/dense/Getrf.hpp: getrf", "include/blast/math/dense/Iamax.hpp: iamax"]}
{"id": "C77", "title": "computing a part of the problem gives the same part of the result, bit for bit (batch invariance)", "statement": "Make a second call with selected rows and columns of the arguments - fewer, repeated or in another order - on objects of any class, anywhere. Its result consists of the selected elements of the first call's result, bit for bit, in every floating-point arithmetic: whether an element lies in a complete or a partial tile of the kernels has no influence on it. gemm, ger: any rows of A and C (x) and any columns of B and C (y); syrkLower: any increasing sequence of rows of A; trmm from the right: any rows of B; trsm: any columns of B, and for a lower triangle any leading part of the system; potrf: the leading part of the matrix; getf2 and getrf (column-major and row-major): the columns behind the square part, so a system may be factorized together with any number of right-hand sides, with the same pivots, the same exception and the same L and U. For trmm from the left the columns of complete column tiles and those of the last, partial one must not be exchanged: there the claim is false, the kernel of the partial tile reads A below its diagonal.", "quantifier": "all sizes, selections of rows and columns, values, arithmetics, object classes, memories", "why_tests_cant": "relates two executions on problems of different sizes; the tiling of the two runs differs, and tests compare with a tolerance", "anchors": ["include/blast/math/algorithm/Gemm.hpp: gemm", "include/blast/math/dense/Ger.hpp: ger", "include/blast/math/dense/Syrk.hpp: syrkLower", "include/blast/math/algorithm/Trmm.hpp: trmm", "include/blast/math/dense/Trsm.hpp: trsm", "include/blast/math/dense/Potrf.hpp: potrf", "include/blast/math/panel/Potrf.hpp: potrf", "include/blast/math/dense/Getf2.hpp: getf2", "include/blast/math/dense/Getrf.hpp: getrf"]}
{"id": "C78", "title": "scaling rows and columns by powers of two scales the result exactly", "statement": "Multiply rows and columns of the arguments by factors with which the arithmetic commutes without rounding (in binary floating point: any powers of two and signs, as long as nothing overflows or underflows; in exact arithmetic: any non-zero numbers; factors for potrf positive). Then the result is the former result with the corresponding factors, bit for bit - so equilibration with powers of two loses nothing. With factors r(i), t(k), c(j), s: gemm, trmm: A(i,k) times r(i) t(k), B(k,j) times c(j)/t(k), C(i,j) times s r(i) c(j), alpha times s gives D(i,j) times s r(i) c(j); ger, syrkLower likewise; trsm: A(i,k) times r(i) t(k), B(i,j) times r(i) c(j) gives X(k,j) times c(j)/t(k); potrf: A(i,j) times r(i) r(j) gives L(i,j) times r(i); getf2, getrf: column j of A times c(j) gives the same pivots, the same exception, the same L, and column j of U times c(j); row-major getrf, which does not pivot, also for rows: L(i,j) times r(i)/r(j), U(i,j) times r(i) c(j).", "quantifier": "all sizes, values, factors, object classes, memories, SIMD widths, and all arithmetics that commute with the factors", "why_tests_cant": "bitwise statement about pairs of executions, for every rounding of every intermediate result and every pivot choice", "anchors": ["include/blast/math/algorithm/Gemm.hpp: gemm", "include/blast/math/dense/Ger.hpp: ger", "include/blast/math/dense/Syrk.hpp: syrkLower", "include/blast/math/algorithm/Trmm.hpp: trmm", "include/blast/math/dense/Trsm.hpp: trsm", "include/blast/math/dense/Potrf.hpp: potrf", "include/blast/math/panel/Potrf.hpp: potrf", "include/blast/math/dense/Getf2.hpp: getf2", "include/blast/math/dense/Getrf.hpp: getrf", "include/blast/math/dense/Iamax.hpp: iamax"]}
{"id": "C79", "title": "the products are the products of linear algebra", "statement": "In exact arithmetic, if the arguments hold the matrices a, b, c (in the usual mathematical sense) then gemm leaves alpha a b + beta c in D, ger leaves a + alpha x y^T in B, syrkLower leaves the lower triangle of alpha a a^T + beta c in D, trmm leaves alpha a b (a upper triangular) or alpha b lower(a) in C, and nothing but the output changes. Consequently any bracketing of a chain of products gives the same matrix: computing (A B) C or A (B C) with two gemm calls each leaves equal matrices, whatever kinds of matrix objects hold the operands and intermediate results.", "quantifier": "all sizes (also empty), all entries, all storage kinds and placements allowed by C01, C09-C13", "why_tests_cant": "tests compare a few random products with another library within a tolerance; an identity between matrices for all sizes and all entries is a statement of algebra", "anchors": ["include/blast/math/algorithm/Gemm.hpp: gemm", "include/blast/math/dense/Ger.hpp: ger", "include/blast/math/dense/Syrk.hpp: syrkLower", "include/blast/math/algorithm/Trmm.hpp: trmm"]}
{"id": "C80", "title": "factorizations are the factorizations of linear algebra, and give the determinant", "statement": "In exact arithmetic: for a symmetric positive definite matrix a whose lower triangle is stored in A, potrf (dense and panel) leaves in the lower triangle of L the unique lower triangular matrix l with positive diagonal and l l^T = a, and det a = (prod l_ii)^2. If getf2 or getrf returns for an m x n matrix a, then with the row permutation that is the product of the recorded interchanges k <-> ipiv[k], the permuted matrix is the product of the unit lower trapezoidal and the upper trapezoidal factor left in A, all entries of the first at most 1 in absolute value, no diagonal entry of the second zero. For square a, getrf returns if and only if det a is not 0, throws std::invalid_argument otherwise, and det a = (-1)^s prod u_kk where s is the number of k with ipiv[k] different from k.", "quantifier": "all sizes m, n, all matrices, any previous contents of ipiv", "why_tests_cant": "the tests multiply the factors of a few random matrices and compare within a tolerance; uniqueness, the sign of the determinant and 'throws iff singular' quantify over all matrices", "anchors": ["include/blast/math/dense/Potrf.hpp: potrf", "include/blast/math/panel/Potrf.hpp: potrf", "include/blast/math/dense/Getf2.hpp: getf2", "include/blast/math/dense/Getrf.hpp: getrf"]}
{"id": "C81", "title": "triangular, LU and Cholesky solves apply the inverse matrix", "statement": "In exact arithmetic trsm leaves T^-1 B in X and trsv leaves T^-1 b in x, where T is the lower or upper triangle of A with its own (non-zero) or a unit diagonal and ^-1 is the matrix inverse; getrf, laswp and two trsm calls leave a^-1 B in B for every a with det a not 0 (with the identity in B: the inverse matrix itself); potrf and two trsm calls leave a^-1 B in B for every positive definite a; and trsm after trmm with the same upper triangular matrix gives back the matrix trmm was applied to.", "quantifier": "all sizes and numbers of right-hand sides, all matrices, in place or not", "why_tests_cant": "a test can only compute residuals of a few systems; that the calls compose to the inverse operation is a statement about all matrices", "anchors": ["include/blast/math/dense/Trsm.hpp: trsm", "include/blast/math/dense/Trsv.hpp: trsv", "include/blast/math/dense/Getrf.hpp: getrf", "include/blast/math/dense/Laswp.hpp: laswp", "include/blast/math/dense/Potrf.hpp: potrf", "include/blast/math/algorithm/Trmm.hpp: trmm"]}
{"id": "C82", "title": "integer matrices are handled without rounding", "statement": "In floating-point arithmetic with (p+1)-bit significands (double: p+1 = 53, float: 24), also with infinities and NaN in the format: if all entries and scalars are integers and the sums of the moduli of the products do not exceed 2^(p+1), then gemm, ger, syrkLower and trmm store exactly the integers of the mathematical result, in whatever order the products are accumulated; trsm returns exactly the integer solution of an integer triangular system if there is one within the bound; potrf (dense and panel) returns exactly the integer factor of a matrix l l^T with an integer lower triangular l with positive diagonal. The bound is sharp: 2^(p+1) + 1*1 is not computed exactly by gemm.", "quantifier": "all sizes, all integer entries within the bound, all storage kinds, with or without fused multiply-add", "why_tests_cant": "a test can try a few integer matrices; that no intermediate result of any size is rounded is an invariant of the accumulations", "anchors": ["include/blast/math/algorithm/Gemm.hpp: gemm", "include/blast/math/dense/Ger.hpp: ger", "include/blast/math/dense/Syrk.hpp: syrkLower", "include/blast/math/algorithm/Trmm.hpp: trmm", "include/blast/math/dense/Trsm.hpp: trsm", "include/blast/math/dense/Potrf.hpp: potrf", "include/blast/math/panel/Potrf.hpp: potrf"]}
{"id": "C83", "title": "transposition symmetry", "statement": "In any arithmetic in which the factors of a product may be exchanged (IEEE floating point, with infinities and NaN): gemm of the transposed factors in reverse order and the transposed C stores the transposed result bit for bit, whatever the kinds of the matrices and the SIMD width; alpha A A^T + beta C with a symmetric C is symmetric bit for bit; A + x x^T computed by ger with alpha = 1 is symmetric for a symmetric A; so are the product by reference::gemm and the matrix that makePositiveDefinite leaves in a dense or panel object, whatever numbers it draws (the debug check isHermitian never fires for rounding). For other alpha the result of ger with x = y is not symmetric in general: a witness for every binary format with at least 5 bits.", "quantifier": "all sizes, all entries, all storage kinds and SIMD widths", "why_tests_cant": "tests compare with a tolerance and cannot see bitwise asymmetry; symmetry must hold for every entry of every size", "anchors": ["include/blast/math/algorithm/Gemm.hpp: gemm", "include/blast/math/dense/Ger.hpp: ger", "include/blast/math/reference/Gemm.hpp: gemm", "include/blast/math/StaticPanelMatrix.hpp: makePositiveDefinite", "include/blast/math/algorithm/MakePositiveDefinite.hpp: makePositiveDefinite"]}
{"id": "C84", "title": "the BLASFEO wrappers pass the caller's arguments on unchanged", "statement": "gemm_nn, gemm_nt, gemm_tn, trmm_rlnn, trmm_rutn, syrk_ln, syrk_potrf, potrf, pack_vec, unpack_vec, vecse and vecsc of blast::blasfeo call the corresponding BLASFEO function with exactly the sizes, offsets, scalars and matrices of the caller, in the right places, whenever these are below 2^31 (syrk_ln for float rounds the double alpha and beta to float). So for blocks inside BLASFEO matrices and a library that keeps its documented contract they store exactly alpha op(A) op(B) + beta C, alpha B A (A lower), alpha B A^T (A upper), the lower triangle of alpha A B^T + beta C, the Cholesky factor of C + A B^T or of C, the copied, filled or scaled vector, and change nothing outside the output block. A matrix created with sizes below 2^31 reports them, and memsize_mat asks the library for exactly these sizes. Larger sizes are not detected: m + 2^32 rows are treated as m rows.", "quantifier": "every library, all blocks of all matrices, all scalars; any element type for the forwarding", "why_tests_cant": "the conversion of sizes shows only for matrices far larger than any test, and a test of a forwarded call checks one placement of the blocks", "anchors": ["include/blasfeo/blasfeo_api/Gemm.hpp: gemm_nn, gemm_nt, gemm_tn", "include/blasfeo/blasfeo_api/Trmm.hpp: trmm_rlnn, trmm_rutn", "include/blasfeo/blasfeo_api/Syrk.hpp: syrk_ln", "include/blasfeo/blasfeo_api/SyrkPotrf.hpp: syrk_potrf", "include/blasfeo/blasfeo_api/Potrf.hpp: potrf", "include/blasfeo/blasfeo_api/Vec.hpp: pack_vec, unpack_vec, vecse, vecsc", "include/blasfeo/blasfeo_api/Mat.hpp: create_mat, rows, columns, memsize_mat"]}
{"id": "C85", "title": "the products in IEEE 754 arithmetic, with overflow and underflow", "statement": "In IEEE 754 binary arithmetic with all its special cases (rounding to nearest even, subnormal numbers, overflow to infinity, signed zeros, infinities, NaN; double and float): if an element computed by gemm, ger, syrkLower or trmm is finite, then alpha, beta and all elements of the arguments that belong to it are finite - an infinity or NaN in the arguments is never lost - and its error is at most ((1+u)^n - 1) times the sum of the moduli of the terms plus n subnormal roundoffs (scaled with alpha where alpha multiplies a rounded sum), where u is the unit roundoff and n the number of operations. Conversely the element is finite if the arguments are finite and the sum of the moduli is below the overflow threshold by the rounding margin. gemm overflows in cases where the mathematical result is a number of the format, because it multiplies with alpha after the summation: witness A = 2^emax, B = 8, alpha = 1/8.", "quantifier": "all sizes, all values including subnormal numbers, infinities and NaN, all storage kinds and SIMD widths, every binary format", "why_tests_cant": "tests use random values near 1, for which nothing overflows or underflows; an error bound quantifies over all values", "anchors": ["include/blast/math/algorithm/Gemm.hpp: gemm", "include/blast/math/dense/Ger.hpp: ger", "include/blast/math/dense/Syrk.hpp: syrkLower", "include/blast/math/algorithm/Trmm.hpp: trmm"]}
{"id": "C86", "title": "finite results of trsm, trsv and potrf solve the equations also in the presence of overflow and underflow", "statement": "In IEEE 754 binary arithmetic with all its special cases: if an element of the solution computed by trsm or trsv and the diagonal element of its row are finite, then the diagonal element is not zero, all elements of the triangle of A, of B and of the solution that belong to its equation are finite, and the equation holds up to ((1-u)^-m - 1) sum |tri(a)||x| plus a multiple of the smallest subnormal number. Whatever the lower triangle given to potrf (dense or panel): if an element of L and the diagonal element of its column are finite, then that diagonal element is positive, the element of A is finite, and L L^T equals A there up to ((1-u)^-n - 1) sum |l||l| plus a multiple of the smallest subnormal number. So a caller who finds a finite factor knows that the matrix was, up to rounding, positive definite; no check of the arguments is needed. Conversely, if the elements are bounded so that explicit growth bounds stay below the overflow threshold, trsm returns a finite bounded solution, and potrf of a matrix whose smallest eigenvalue exceeds an explicit multiple of the rounding errors returns a finite factor with diagonal bounded below and explicit absolute error.", "quantifier": "all sizes, all values including subnormal numbers, infinities and NaN, lower or upper, unit or not, all storage kinds and SIMD widths, every binary format with enough exponent range (double, float)", "why_tests_cant": "a posteriori guarantee for all inputs, also indefinite, singular and badly scaled ones; tests use well-conditioned random matrices", "anchors": ["include/blast/math/dense/Trsm.hpp: trsm", "include/blast/math/dense/Trsv.hpp: trsvLeftLower, trsvLeftUpper", "include/blast/math/dense/Potrf.hpp: potrf", "include/blast/math/panel/Potrf.hpp: potrf"]}
{"id": "C87", "title": "LU factorization in IEEE arithmetic: finite factors are accurate, moderate matrices do not overflow, and a throw means nearly singular", "statement": "In IEEE 754 binary arithmetic with all its special cases, getf2 (column-major and row-major, division or reciprocal) and column-major getrf either throw std::invalid_argument or return, and change only the elements of the matrix. If they return and the stored factors contain no infinity or NaN, then the matrix contained none, no pivot is zero, the multipliers are at most 1 (1 + 8u for the reciprocal), the pivot indices are in range, and L U equals the row-permuted matrix up to ((1-u)^-n - 1) |L||U| plus (1-u)^-n (3n + |u_jj|) times half the smallest subnormal number. If in addition the elements of the matrix are at most mu and (2(1+u)^2)^n (mu + 2 eta) is below the overflow threshold, then no operation overflows: all factors are finite, bounded by that number, and the routine throws only if there is a singular matrix (with dependent leading columns) within an explicit distance of the order of the unit roundoff. Row-major getrf always returns, without interchanges; if its result is finite, L U is close to A.", "quantifier": "all sizes, all values including subnormal numbers, infinities and NaN, all tile sizes and SIMD widths, every binary format with enough exponent range (double, float)", "why_tests_cant": "a posteriori and a priori guarantees for all inputs, also singular and badly scaled ones, with rounding, overflow and underflow along runs of unbounded length; tests compare single random matrices with a tolerance", "anchors": ["include/blast/math/dense/Getf2.hpp: getf2", "include/blast/math/dense/Getrf.hpp: getrf", "include/blast/math/dense/Iamax.hpp: iamax", "include/blast/math/dense/Laswp.hpp: laswp"]}
{"id": "C88", "title": "solving a linear system in IEEE arithmetic: moderate, robustly regular systems are solved without overflow and with a small residual", "statement": "In IEEE 754 binary arithmetic with all its special cases, solving A X = B by getrf, laswp and two trsm either throws std::invalid_argument in getrf, or writes factors and a solution, and changes nothing but the elements of A and B. If the stored factors are finite then, for every column of X that contains no infinity or NaN, the column of B contained none and the residual B - A X (of the row-permuted system) is bounded by (G^2 + G - 2) |L||U||X| with G = (1-u)^-n, plus explicit underflow terms. If the elements of A and B are bounded so that an explicit growth bound stays below the overflow threshold, and A stays regular under perturbations of the size of the rounding errors, then there is no throw, no overflow, every element of X is finite and explicitly bounded, and the residual B - A X has this bound. For potrf followed by two trsm the a posteriori bound holds in the same form; and if the smallest eigenvalue of the symmetric matrix exceeds an explicit bound of the rounding errors and the elements are moderate, the factor and the solution are finite, explicitly bounded, and have an explicit small residual.", "quantifier": "all sizes, all numbers of right-hand sides, all values including subnormal numbers, infinities and NaN, all tile sizes and SIMD widths, every binary format with enough exponent range (double, float)", "why_tests_cant": "a guarantee on the composition of four routines for all systems, with rounding, overflow and underflow along runs of unbounded length; tests check single random systems with a tolerance", "anchors": ["include/blast/math/dense/Getrf.hpp: getrf", "include/blast/math/dense/Laswp.hpp: laswp", "include/blast/math/dense/Trsm.hpp: trsm", "include/blast/math/dense/Potrf.hpp: potrf"]}
{"id": "C89", "title": "different routines give the same numbers for the same problem", "statement": "trsvLeftLower and trsvLeftUpper leave in x bit for bit what trsm leaves in a column of X for the same triangle and right-hand side, in every scalar arithmetic, whatever the layouts, strides and SIMD widths and however many right-hand sides trsm is given. reference::trsm with factor alpha leaves bit for bit what trsm leaves for the right-hand side alpha B (with A on the right: for the transposed problem, if multiplication is commutative). In IEEE 754 arithmetic with overflow, underflow, infinities and NaN, syrkLower with beta = 0 leaves in the lower triangle the same numbers as gemm with alpha A and the transpose of A, and trmm leaves the same numbers as gemm with the triangular matrix filled up with zeros, where +0 and -0 count as the same number and only those elements that gemm multiplies by a zero must be finite. Hence replacing one of these calls by the other changes no result.", "quantifier": "all sizes, all values, all storage kinds, strides and SIMD widths; every scalar arithmetic for trsv and reference::trsm, every IEEE binary format for syrk and trmm", "why_tests_cant": "tests compare different routines with a tolerance and on single matrices; bitwise agreement must hold for every size, layout and rounding", "anchors": ["include/blast/math/dense/Trsv.hpp: trsvLeftLower, trsvLeftUpper", "include/blast/math/dense/Trsm.hpp: trsm", "include/blast/math/reference/Trsm.hpp: trsm", "include/blast/math/dense/Syrk.hpp: syrkLower", "include/blast/math/algorithm/Trmm.hpp: trmm", "include/blast/math/algorithm/Gemm.hpp: gemm"]}
{"id": "C90", "title": "debug assertions change nothing in valid calls, and what they detect", "statement": "With assertions switched on (BLAZE_USER_ASSERTION=1, as the library's own tests are built) gemm, ger, syrkLower, potrf, getf2, getrf, iamax, swap and laswp do exactly what they do without assertions, for all valid arguments: no assertion fails, and results, exceptions and memory effects are the same. The same holds for trmm unless the operand that is not the aligned one (B on the left multiplication, A on the right) is a column-major panel matrix; then the checked build aborts although the result without assertions is right (refuted by witnesses). A matrix declared aligned that is not aligned is detected by gemm, ger, trmm, syrkLower and potrf, whichever operand it is; a vector declared aligned that is not is detected by iamax, swap and ger. Element access, reset and assignment through submatrices and rows that are inside their matrices never abort; an element index outside a submatrix, a panel submatrix or a panel row always aborts, and so does a submatrix specification that is not inside its matrix if the sums do not overflow. Not detected: an index beyond a row view but inside the matrix, a submatrix larger than the submatrix it is taken of, sums that wrap around. Rejected without need: empty row views at the end of a row.", "quantifier": "all valid arguments, all memory states, sizes, layouts and SIMD widths; all views and index values", "why_tests_cant": "tests run in one of the two builds; that the two behave the same, and that no valid call trips an assertion, ranges over all arguments", "anchors": ["include/blast/util/Assert.hpp: BLAST_USER_ASSERT", "include/blast/math/dense/DynamicMatrixPointer.hpp, dense/StaticMatrixPointer.hpp", "include/blast/math/panel/DynamicPanelMatrixPointer.hpp, panel/StaticPanelMatrixPointer.hpp", "include/blast/math/dense/Potrf.hpp, panel/Potrf.hpp: potrf_backend", "include/blast/math/dense/Iamax.hpp: iamax", "include/blast/math/views/Row.hpp, views/Submatrix.hpp", "include/blast/math/views/row/Panel.hpp, views/submatrix/Panel.hpp"]}
{"id": "C91", "title": "what makePositiveDefinite makes, potrf factorizes - in double and float", "statement": "In IEEE 754 arithmetic, whatever numbers makePositiveDefinite draws (from [-1,1]; std::uniform_real_distribution draws from [0,1)), the matrix it leaves in a dense or panel object has finite elements, each within 4(n+4)^2 u of R R^T + n I, only the object changes and the temporary is released; and potrf of that matrix returns with a finite factor L whose diagonal elements are at least 3/4 sqrt(n) and for which L L^T is within 20 n (n+4) u of the matrix. Holds for every size n with 128 (n+4)^2 u <= 1: up to 8388604 for double, 358 for float.", "quantifier": "all sequences of random numbers, all matrix sizes up to the stated bound (for which the potrf kernel is correct), dense and panel storage, all SIMD widths, wherever the temporary is allocated", "why_tests_cant": "a test draws one sequence from a fixed seed; that no sequence makes the factorization fail, or the test itself fail spuriously, is a statement about all of them", "anchors": ["include/blast/math/algorithm/MakePositiveDefinite.hpp: makePositiveDefinite", "include/blast/math/algorithm/Randomize.hpp: randomize", "include/blast/math/dense/Potrf.hpp: potrf", "include/blast/math/panel/Potrf.hpp: potrf", "include/blast/math/DynamicPanelMatrix.hpp: makePositiveDefinite", "include/blast/math/StaticPanelMatrix.hpp: makePositiveDefinite"]}
{"id": "C92", "title": "the random comparisons of the test suite cannot fail by bad luck", "statement": "In IEEE 754 arithmetic, whatever numbers between 0 and 1 are drawn for the operands, computing with blast and comparing with a reference result by approxEqual succeeds: gemm against reference::gemm (and against any reference computed with at most k roundings), right trmm against reference::trmm, left trmm against what the name reference::trmm of the test runs, ger and syrk against any reference with at most k roundings, and potrf of a matrix made by makePositiveDefinite, L L^T against the matrix. For every matrix with elements in [-1,1], getf2 (both storage orders) and column-major getrf either throw or return factors whose product, computed with at most k roundings, compares equal to the row-interchanged copy (sizes up to 5 for 1e-11, the largest of the tests). It holds whenever the tolerances are at least about k u: for the tolerances 1e-11 of the double tests up to inner dimension 10000 (potrf: 50), for 1e-5 / 1e-4 of the float tests up to 200. The left trmm test is only this good because with the header of the optimized trmm included it compares trmm with itself; with the real reference it fails for matrices that are not zero below the diagonal (refuted).", "quantifier": "all sequences of random numbers in [0,1], all sizes up to the stated bounds, all storage kinds the functions accept, all SIMD widths, all initial contents of the results", "why_tests_cant": "the test draws one sequence; that no sequence fails is a statement about all of them", "anchors": ["test/blast/math/dense/GemmTest.cpp", "test/blast/math/dense/TrmmTest.cpp", "test/blast/math/dense/GerTest.cpp", "test/blast/math/dense/SyrkTest.cpp", "test/blast/math/dense/PotrfTest.cpp", "test/blast/math/dense/Getf2Test.cpp", "test/blast/math/dense/GetrfTest.cpp", "include/test/Testing.hpp: approxEqual", "include/blast/math/reference/Gemm.hpp: gemm", "include/blast/math/reference/Trmm.hpp: trmm"]}
{"id": "C93", "title": "what reference::trmm computes depends on the included headers", "statement": "reference::trmm(alpha, A, uplo, diag, B, C) for matrices, left multiplication, leaves alpha tri(A) B for every uplo and diag, also in place, if algorithm/Trmm.hpp is not included or A or C is row-major. If the header is included and A and C are column-major, argument dependent lookup selects the optimized blast::trmm: the call is then that call, throws logic_error for lower or unit triangular A, and uses the elements below the diagonal (refuted: same call, same operands, two results). Both agree for upper triangular matrices that are zero below the diagonal.", "quantifier": "all sizes, values, layouts, uplo and diag; translation units with and without the header", "why_tests_cant": "a test is one translation unit; the TrmmTest of the library includes the header and so cannot see the difference", "anchors": ["include/blast/math/reference/Trmm.hpp: trmm", "include/blast/math/algorithm/Trmm.hpp: trmm"]}
{"id": "C94", "title": "computed solutions are close to the exact ones (forward error in IEEE arithmetic)", "statement": "In IEEE 754 arithmetic: a finite result of trsm differs from the exact solution y of the triangular system, element by element, at most by |A^-1| applied to the backward error; relative to the largest element of y by at most g k / (1 - g k) plus underflow terms, where k is the largest row sum of |A^-1||A| and g about n u. If A is well conditioned (a bound w of the row sums of |A^-1| times the backward error is below one) and the numbers are of moderate size, then getrf does not throw, the solution by getrf + two trsm is finite, and its error relative to the largest element of the exact solution is at most t/(1-t) plus underflow terms with t = w n (backward error); the same for potrf + two trsm and a symmetric positive definite matrix.", "quantifier": "all matrix sizes, all finite inputs, all right-hand sides, all inverses and exact solutions, all formats wide enough (double, float), all SIMD widths, both triangles, unit and non-unit diagonal", "why_tests_cant": "tests compare a few systems with a tolerance; that the error is bounded by the condition number for all systems is a theorem", "anchors": ["include/blast/math/dense/Trsm.hpp: trsm", "include/blast/math/dense/Getrf.hpp: getrf", "include/blast/math/dense/Potrf.hpp: potrf", "include/blast/math/dense/Laswp.hpp: laswp"]}
{"id": "C95", "title": "the accuracy of the scalar loops does not depend on how the compiler evaluates them", "statement": "The recommended build uses -ffast-math, so the compiler may reorder, regroup (vectorize) and contract the sums of the scalar loops and multiply with reciprocals. However each sum is evaluated, with at most h roundings in a row, and a division performed: trsm and trsv leave a residual of at most (1+u)^(h+2) - 1 relative to |B| + |tri(A)||X|, reference::gemm an error of at most (1+u)^(h+2) - 1 relative to |alpha||A||B| + |beta||C|, and nothing but the result is written. The order of the source (plain or contracted) is among those covered, and a loop vectorized over L lanes has h = ceil(m/L) + L + 1. The values themselves do depend on the evaluation (refuted: two permitted evaluations of one product give 0 and 1).", "quantifier": "all sizes, all values, all layouts, all evaluation trees of the sums (chosen per element), both triangles, unit and non-unit diagonal, all rounded arithmetics", "why_tests_cant": "a test runs one binary; which evaluation the compiler chooses differs between compilers, versions, flags and sizes", "anchors": ["cmake/InitialCache.cmake", "include/blast/math/dense/Trsm.hpp: trsm", "include/blast/math/dense/Trsv.hpp: trsv", "include/blast/math/reference/Gemm.hpp: gemm"]}
{"id": "C96", "title": "running out of memory leaves the program in a defined state", "statement": "In a client program as in C69 (plus makePositiveDefinite of panel matrices) any allocation may throw std::bad_alloc, in any pattern. No step has undefined behaviour; a constructor that fails makes no object and keeps no memory; makePositiveDefinite of a dense matrix that fails changes nothing at all, and repeating the step when memory is available does what the first attempt would have done; only the makePositiveDefinite of a dynamic panel matrix of size n that fails leaves the matrix as n times the identity (no strong guarantee: refuted); nothing leaks, and all other objects keep their values.", "quantifier": "all client programs (any number of objects and steps), all patterns of failing allocations, all SIMD widths, all drawn numbers; exact arithmetic", "why_tests_cant": "a test would have to make each allocation of each program fail in turn; programs and failure patterns are unbounded", "anchors": ["include/blast/math/dense/DynamicMatrix.hpp: DynamicMatrix", "include/blast/math/panel/DynamicPanelMatrix.hpp: DynamicPanelMatrix", "include/blast/math/algorithm/MakePositiveDefinite.hpp: makePositiveDefinite", "include/blast/math/DynamicPanelMatrix.hpp: makePositiveDefinite"]}
{"id": "C97", "title": "what an LU factorization leaves behind when it throws", "statement": "If getf2 (either storage order) throws because the matrix is singular, a caller who catches the exception finds, in exact arithmetic, the state of a factorization stopped at column k, where k is the first column that depends linearly on the columns before it: the recorded interchanges ipiv[0..k] applied to the original matrix give L*U over the first k columns plus the remaining block, whose first column is zero; multipliers are at most 1, ipiv[k] = k, the later pivots are unchanged, and the original matrix is determined by what is left. The same holds for column-major getrf if the matrix has at most one tile of rows or columns. With more blocks getrf leaves something else: with s the first column of the block in which column k lies, the first s steps are complete with interchanges of whole rows; the rows from s on of the columns of the block hold a factorization of the block stopped at column k, with pivot indices relative to s; all other elements are as they were when the block was begun, so the interchanges of the block are applied to its own columns only and the rows of the matrix are torn apart (witness). The original matrix is still determined by the elements and the pivot array. In any arithmetic, flag, pivot array and elements after getf2 are functions of the elements before.", "quantifier": "all sizes, all matrices, both storage orders of getf2, column-major getrf with any number of blocks", "why_tests_cant": "needs the relation between the original matrix, the partially overwritten matrix and the partially written pivot array for every column at which elimination can stop; tests only use regular matrices", "anchors": ["include/blast/math/dense/Getf2.hpp:getf2", "include/blast/math/dense/Getrf.hpp:getrf"]}
{"id": "C98", "title": "what flush-to-zero and denormals-are-zero change", "statement": "A program built with the recommended flags (-ffast-math) may run with subnormal results replaced by zero (flush-to-zero, decided before or after rounding) and subnormal operands read as zero (denormals-are-zero). If the arguments hold no subnormal numbers, no operation ever produces one, so denormals-are-zero changes nothing at all. A result in the normal range is the one of IEEE arithmetic with gradual underflow; any other result is wrong by at most the rounding error plus the smallest normal number (2^-1022 or 2^-126). So the guarantees C85-C95 hold for double and float with flush-to-zero too, with the smallest normal number in place of half the smallest subnormal one; in particular every element computed by gemm is zero, a normal number, an infinity or NaN, and a finite one has the error bound of C85 so changed. Two guarantees do not survive: getf2 reports the regular matrix [[m, m], [m, 3/2 m]] of normal numbers (m the smallest one) as singular, where gradual underflow factorizes it; and where the compiler multiplies by the reciprocal of the pivot, row-major getf2 gives, for the column (2^1023, 2^1023) in double, the multiplier 0 instead of 1 (witnesses). A call of gemm, syrkLower, trmm, trsm, trsv or potrf that rounds no non-zero exact result below the normal range on the way to an element gives the same number for it with flush-to-zero as with gradual underflow; a getf2 or getrf (row-major ones also with multiplication by the reciprocal of the pivot) of which this holds for every element it leaves in the matrix also gives the same pivots and the same outcome.", "quantifier": "all sizes, all values, all storage kinds and SIMD widths, both kinds of flush-to-zero, every binary format with enough exponent range; refutations for every such format", "why_tests_cant": "needs all values near the underflow threshold in every operation of runs of unbounded length; tests use values near 1, and whether the flag is set depends on how the test program was linked", "anchors": ["cmake/InitialCache.cmake", "include/blast/math/algorithm/Gemm.hpp:gemm", "include/blast/math/dense/Getf2.hpp:getf2"]}
{"id": "C99", "title": "the results depend on the numbers only through the operations of the arithmetic", "statement": "For any relation between two element types that holds between their zeros and ones and that every operation used (add, subtract, multiply, divide, negate, square root, fused multiply-add and its negative) respects: if it holds between the elements and scalars of two calls of gemm, ger, syrkLower, trmm, trsm, trsv, potrf or makePositiveDefinite (for the latter: between the random numbers drawn) with operands of the same sizes, it holds between the elements of their results, whatever the storage kinds and addresses (and for gemm, ger, syrkLower, trmm from the right, trsm, unblocked LU the SIMD widths) are. If comparisons and absolute values respect it too, the same holds for getf2 and getrf, and both calls end in the same way: both return the same pivots or both throw the same exception; in getf2 and column-major getrf it is enough that they respect it for the numbers from which the final elements were computed. So no literal, no bit pattern, no branch on a value and no memory address enters a result except through these operations; the code can be instantiated with numbers that carry further information (error bounds, derivatives, flags) without changing the numbers it computes, and two arithmetics that agree on the data of a call give the same result.", "quantifier": "all element types and relations, sizes, values, storage kinds, addresses and (where named) SIMD widths", "why_tests_cant": "quantifies over all arithmetics: a test runs one or two element types", "anchors": ["include/blast/math/algorithm/Gemm.hpp:gemm", "include/blast/math/dense/Ger.hpp:ger", "include/blast/math/dense/Syrk.hpp:syrkLower", "include/blast/math/algorithm/Trmm.hpp:trmm", "include/blast/math/dense/Trsm.hpp", "include/blast/math/dense/Potrf.hpp", "include/blast/math/dense/Getf2.hpp:getf2", "include/blast/math/dense/Getrf.hpp:getrf"]}
