{
 "claims": [
  {
   "property": "C01",
   "status": "proved",
   "theorems": [
    "Blast.C01_gemm_value",
    "Blast.C01_gemm_pointer_value"
   ],
   "note": "All sizes, layouts, values; exact arithmetic = any commutative ring interpretation of the operations."
  },
  {
   "property": "C02",
   "status": "proved",
   "theorems": [
    "Blast.C02_gemm_frame"
   ],
   "note": ""
  },
  {
   "property": "C03",
   "status": "proved",
   "theorems": [
    "Blast.C03_gemm_in_bounds",
    "Blast.C03_gemm_unpadded_out_of_bounds"
   ],
   "note": "Padded operands: no out-of-bounds and no misaligned access. Unpadded operands: kernel-checked witness of the out-of-bounds read."
  },
  {
   "property": "C04",
   "status": "proved",
   "theorems": [
    "Blast.C04_gemm_bitwise",
    "Blast.C04_gemm_layout_independent"
   ],
   "note": "Arithmetic operations uninterpreted."
  },
  {
   "property": "C05",
   "status": "proved",
   "theorems": [
    "Blast.C05_gemm_in_place",
    "Blast.C05_gemm_in_place_bitwise"
   ],
   "note": ""
  },
  {
   "property": "C06",
   "status": "proved",
   "theorems": [
    "Blast.C06_gemm_size_check"
   ],
   "note": ""
  },
  {
   "property": "C07",
   "status": "proved",
   "theorems": [
    "Blast.C07_gemm_agrees_with_reference"
   ],
   "note": ""
  },
  {
   "property": "C08",
   "status": "proved",
   "theorems": [
    "Blast.C08_tile_partition"
   ],
   "note": "Both the 3-row (AVX2) and NEON kernels; both traversal orders."
  },
  {
   "property": "C09",
   "status": "proved",
   "theorems": [
    "Blast.C09_ger_value",
    "Blast.C09_ger_pointer_value",
    "Blast.C09_ger_bitwise",
    "Blast.C09_ger_size_check",
    "Blast.C09_ger_large_tile_out_of_bounds",
    "Blast.C09_ger_row_major",
    "Blast.C09_ger_row_major_output_unchecked"
   ],
   "note": "Column-major and row-major, in place or not. Witnesses: out-of-bounds read of x when the tile is larger than a SIMD vector; unchecked output size of the row-major overload."
  },
  {
   "property": "C10",
   "status": "proved",
   "theorems": [
    "Blast.C10_syrk_value",
    "Blast.C10_syrk_pointer_value",
    "Blast.C10_syrk_bitwise",
    "Blast.C10_syrk_size_check",
    "Blast.C10_syrk_large_tile_out_of_bounds"
   ],
   "note": "Tile size equal to the SIMD width (AVX2) for blast matrices; for larger tiles the pointer theorem states the extra padding needed and a witness shows the out-of-bounds read."
  },
  {
   "property": "C11",
   "status": "proved",
   "theorems": [
    "Blast.C11_trmm_left_pointer_value",
    "Blast.C11_trmm_left_value",
    "Blast.C11_trmm_left_frame",
    "Blast.C11_trmm_left_panel_wrong"
   ],
   "note": "Exact arithmetic. Column-major panel B with two or more tiles excluded: witness C11_trmm_left_panel_wrong."
  },
  {
   "property": "C12",
   "status": "proved",
   "theorems": [
    "Blast.C12_trmm_left_ignores_lower_pointer",
    "Blast.C12_trmm_left_ignores_lower",
    "Blast.C12_trmm_left_uses_lower_part",
    "Blast.C12_trmm_left_elements_used",
    "Blast.C12_trmm_left_band"
   ],
   "note": "The unrestricted BLAS convention is refuted by C12_trmm_left_uses_lower_part; C12_trmm_left_elements_used says, for all sizes, which elements below the diagonal are used, and C12_trmm_left_band that zeros in a band below the diagonal are enough."
  },
  {
   "property": "C13",
   "status": "proved",
   "theorems": [
    "Blast.C13_trmm_right_pointer_value",
    "Blast.C13_trmm_right_value",
    "Blast.C13_trmm_right_bitwise",
    "Blast.C13_trmm_right_panel_large_tile_wrong"
   ],
   "note": "Exact arithmetic, plus a bitwise theorem for any arithmetic. Witness for panel A with a tile larger than the SIMD width."
  },
  {
   "property": "C14",
   "status": "proved",
   "theorems": [
    "Blast.C14_trmm_left_rejects",
    "Blast.C14_trmm_right_rejects",
    "Blast.C14_trmm_right_unit_diagonal_terminates",
    "Blast.C14_trmm_right_unit_diagonal_ignored",
    "Blast.C14_trmm_right_unit_diagonal_wrong"
   ],
   "note": "The wish that every unsupported variant be reported by an exception is refuted for the unit diagonal of the right multiplication."
  },
  {
   "property": "C15",
   "status": "proved",
   "theorems": [
    "Blast.C15_potrf_dense_size_check",
    "Blast.C15_potrf_panel_size_check",
    "Blast.C15_potrf_dense_cholesky",
    "Blast.C15_potrf_panel_cholesky"
   ],
   "note": "Exact arithmetic with exact square roots (instance: the reals). Sizes under PotrfFits; see C18 for the others."
  },
  {
   "property": "C16",
   "status": "proved",
   "theorems": [
    "Blast.C16_potrf_dense_frame",
    "Blast.C16_potrf_dense_depends_on_lower"
   ],
   "note": "Padding rows of L are overwritten in complete strips (inside the storage of L)."
  },
  {
   "property": "C17",
   "status": "proved",
   "theorems": [
    "Blast.C17_potrf_panel_frame",
    "Blast.C17_potrf_panel_depends_on_lower",
    "Blast.C17_potrf_panel_overwrites_upper",
    "Blast.C17_potrf_panel_upper_zero",
    "Blast.C17_potrf_panel_lower_triangular",
    "Blast.C17_potrf_panel_upper_refuted"
   ],
   "note": "In exact arithmetic zeros are stored above the diagonal inside the blocks if A is symmetric; C17_potrf_panel_upper_refuted shows that the lower triangle alone is not enough. The wish that panel potrf leaves everything above the diagonal unchanged is refuted by C17_potrf_panel_overwrites_upper."
  },
  {
   "property": "C18",
   "status": "proved",
   "theorems": [
    "Blast.C18_potrf_dense_in_bounds",
    "Blast.C18_potrf_panel_in_bounds",
    "Blast.C18_potrf_dense_columns_ub",
    "Blast.C18_potrf_dense_float_ub",
    "Blast.C18_potrf_dense_rows_ub",
    "Blast.C18_potrf_panel_columns_ub"
   ],
   "note": "The unrestricted claim is refuted by four witnesses C18_..._ub."
  },
  {
   "property": "C19",
   "status": "proved",
   "theorems": [
    "Blast.C19_getf2_factorizes",
    "Blast.C19_getf2_row_major_factorizes",
    "Blast.C19_getf2_padded",
    "Blast.C19_getf2_large_tile_out_of_bounds"
   ],
   "note": "Exact arithmetic (ordered field). Column-major (any tile/SIMD width under the stated readability) and row-major; padded matrices need no further assumption when tile size = SIMD width; witness of the out-of-bounds read otherwise. ipiv is modelled as a function; its contents after an exception: C97."
  },
  {
   "property": "C20",
   "status": "proved",
   "theorems": [
    "Blast.C20_getf2_pivot_bounds",
    "Blast.C20_getf2_row_major_pivot_bounds",
    "Blast.C20_getrf_pivot_bounds"
   ],
   "note": ""
  },
  {
   "property": "C21",
   "status": "proved",
   "theorems": [
    "Blast.C21_getf2_singular",
    "Blast.C21_getf2_returns_iff_invertible",
    "Blast.C21_getf2_row_major_singular",
    "Blast.C21_getrf_singular"
   ],
   "note": "Also for getrf (column-major)."
  },
  {
   "property": "C22",
   "status": "proved",
   "theorems": [
    "Blast.C22_getrf_factorizes",
    "Blast.C22_getrf_equals_getf2",
    "Blast.C22_getrf_padded"
   ],
   "note": "Exact arithmetic; getrf returns the very same factors and pivots as getf2."
  },
  {
   "property": "C23",
   "status": "proved",
   "theorems": [
    "Blast.C23_getrf_row_major_no_pivoting",
    "Blast.C23_getrf_row_major_fails",
    "Blast.C23_getrf_row_major_unstable_refuted"
   ],
   "note": "The documented pivoting is refuted by C23_getrf_row_major_fails; numerical stability by C23_getrf_row_major_unstable_refuted (binary64)."
  },
  {
   "property": "C24",
   "status": "proved",
   "theorems": [
    "Blast.C24_swap",
    "Blast.C24_swap_twice",
    "Blast.C24_laswp",
    "Blast.C24_laswp_ipiv_range",
    "Blast.C24_row_swaps_undone"
   ],
   "note": "laswp for dense matrices of either storage order; ipiv entries must be row indices."
  },
  {
   "property": "C25",
   "status": "proved",
   "theorems": [
    "Blast.C25_iamax_ieee",
    "Blast.C25_iamax_nan_first",
    "Blast.C25_iamax",
    "Blast.C25_iamax_empty",
    "Blast.C25_iamax_scan"
   ],
   "note": "The variant selected by #if 1 in the code. C25_iamax_ieee, C25_iamax_nan_first: in IEEE arithmetic with infinities and NaN."
  },
  {
   "property": "C26",
   "status": "proved",
   "theorems": [
    "Blast.C26_imax",
    "Blast.C26_imax_unique",
    "Blast.C26_imax_tie_lanes_differ"
   ],
   "note": "The tie-breaking witness shows lanes can differ in index when the maximum is not unique."
  },
  {
   "property": "C27",
   "status": "proved",
   "theorems": [
    "Blast.C27_trsm_solves",
    "Blast.C27_trsm_unique",
    "Blast.C27_trsm_size_check"
   ],
   "note": "Exact arithmetic, non-singular A (no singularity check in the code)."
  },
  {
   "property": "C28",
   "status": "proved",
   "theorems": [
    "Blast.C28_trsv_solves",
    "Blast.C28_trsv_size_check"
   ],
   "note": "Exact arithmetic; x already has the size of b (resize is an external Blaze operation that is then a no-op)."
  },
  {
   "property": "C29",
   "status": "proved",
   "theorems": [
    "Blast.C29_trsm_left",
    "Blast.C29_trsm_right",
    "Blast.C29_trsm_size_check"
   ],
   "note": "Exact arithmetic, non-singular A."
  },
  {
   "property": "C30",
   "status": "proved",
   "theorems": [
    "Blast.C30_trmm_left",
    "Blast.C30_trmm_right",
    "Blast.C30_trmm_size_check"
   ],
   "note": "Exact arithmetic. The matrix-argument left version calls the unqualified name trmm; C30 is about the case that it resolves to reference::trmm, C93 says when it does."
  },
  {
   "property": "C31",
   "status": "proved",
   "theorems": [
    "Blast.C31_storage_injective_in_bounds"
   ],
   "note": ""
  },
  {
   "property": "C32",
   "status": "proved",
   "theorems": [
    "Blast.C32_matrix_is_map"
   ],
   "note": ""
  },
  {
   "property": "C33",
   "status": "proved",
   "theorems": [
    "Blast.C33_reset_dense",
    "Blast.C33_reset_panel",
    "Blast.C33_reset_panel_out_of_bounds",
    "Blast.C33_reset_panel_incomplete",
    "Blast.C33_reset_panel_iff"
   ],
   "note": "The wish that reset() always works is refuted for DynamicPanelMatrix; C33_reset_panel_iff gives the exact set of shapes. StaticPanelMatrix has no reset()."
  },
  {
   "property": "C34",
   "status": "proved",
   "theorems": [
    "Blast.C34_initializer_list"
   ],
   "note": ""
  },
  {
   "property": "C35",
   "status": "proved",
   "theorems": [
    "Blast.C35_ptr_of_matrix",
    "Blast.C35_dense_pointer_laws",
    "Blast.C35_panel_pointer_laws",
    "Blast.C35_vmove_inside_panel_wrong"
   ],
   "note": "Panel pointers: laws under the alignment contract; witness that vmove inside a panel is wrong."
  },
  {
   "property": "C36",
   "status": "proved",
   "theorems": [
    "Blast.C36_store_partial_exact",
    "Blast.C36_store_full_exact",
    "Blast.C36_load_partial_exact",
    "Blast.C36_load_partial_padded",
    "Blast.C36_load_store_copies"
   ],
   "note": ""
  },
  {
   "property": "C37",
   "status": "proved",
   "theorems": [
    "Blast.C37_storeLower_exact",
    "Blast.C37_storeLower_rect_exact"
   ],
   "note": ""
  },
  {
   "property": "C38",
   "status": "proved",
   "theorems": [
    "Blast.C38_register_trsm",
    "Blast.C38_trsm_other_sides_do_nothing",
    "Blast.C38_trsm_other_sides_refuted",
    "Blast.C38_register_potrf"
   ],
   "note": "Exact arithmetic; Cholesky over a field with square roots of positive numbers (instantiated for the reals)."
  },
  {
   "property": "C39",
   "status": "proved",
   "theorems": [
    "Blast.C39_submatrix_size",
    "Blast.C39_submatrix_elements",
    "Blast.C39_submatrix_compose",
    "Blast.C39_view_in_bounds",
    "Blast.C39_view_pointer",
    "Blast.C39_view_pointer_unaligned_panel_refuted",
    "Blast.C39_submatrix_set",
    "Blast.C39_submatrix_reset",
    "Blast.C39_view_assign",
    "Blast.C39_view_assign_mismatch",
    "Blast.C39_row_elements",
    "Blast.C39_row_part_elements",
    "Blast.C39_subvector_elements",
    "Blast.C39_row_pointer",
    "Blast.C39_row_reset"
   ],
   "note": "Views of blast matrices (Submatrix, Row, MatTransExpr, chains of them). Pointers of panel views that start inside a panel are refuted by C39_view_pointer_unaligned_panel_refuted."
  },
  {
   "property": "C40",
   "status": "proved",
   "theorems": [
    "Blast.C40_panel_submatrix",
    "Blast.C40_overflow_refuted",
    "Blast.C40_at",
    "Blast.C40_panel_submatrix_nested",
    "Blast.C40_nested_escapes_view_refuted",
    "Blast.C40_offset_column_major",
    "Blast.C40_offset_row_major_refuted",
    "Blast.C40_panel_row"
   ],
   "note": "size_t arithmetic modulo 2^64. Witnesses: C40_overflow_refuted, C40_nested_escapes_view_refuted, C40_offset_row_major_refuted."
  },
  {
   "property": "C41",
   "status": "proved",
   "theorems": [
    "Blast.C41_dense_from_panel",
    "Blast.C41_panel_from_dense",
    "Blast.C41_round_trip",
    "Blast.C41_unaligned_dense_refuted",
    "Blast.C41_size_mismatch_refuted"
   ],
   "note": "Dense operand: any dense pointer (Blaze matrices with any spacing). Witnesses C41_unaligned_dense_refuted and C41_size_mismatch_refuted."
  },
  {
   "property": "C42",
   "status": "proved",
   "theorems": [
    "Blast.C42_assign",
    "Blast.C42_equality",
    "Blast.C42_equality_exact"
   ],
   "note": ""
  },
  {
   "property": "C43",
   "status": "proved",
   "theorems": [
    "Blast.C43_randomize",
    "Blast.C43_makePositiveDefinite_value",
    "Blast.C43_makePositiveDefinite",
    "Blast.C43_result_factorizable",
    "Blast.C43_not_square"
   ],
   "note": "Exact arithmetic (ordered field); arbitrary random draws; the allocator returns free aligned memory; ET(N) is exact."
  },
  {
   "property": "C44",
   "status": "proved",
   "theorems": [
    "Blast.C44_nextMultiple_least",
    "Blast.C44_columns_padded",
    "Blast.C44_rows_padded"
   ],
   "note": ""
  },
  {
   "property": "C45",
   "status": "proved",
   "theorems": [
    "Blast.C45_trans_elements",
    "Blast.C45_trans_shape",
    "Blast.C45_trans_trans",
    "Blast.C45_trans_trans_elements",
    "Blast.C45_trans_pointer",
    "Blast.C45_trans_at"
   ],
   "note": ""
  },
  {
   "property": "C46",
   "status": "proved",
   "theorems": [
    "Blast.C46_reference_gemm",
    "Blast.C46_reference_ger",
    "Blast.C46_reference_axpy",
    "Blast.C46_reference_size_check"
   ],
   "note": ""
  },
  {
   "property": "C47",
   "status": "proved",
   "theorems": [
    "Blast.C47_masked_load",
    "Blast.C47_masked_store",
    "Blast.C47_store_load",
    "Blast.C47_neon_refines"
   ],
   "note": ""
  },
  {
   "property": "C48",
   "status": "proved",
   "theorems": [
    "Blast.C48_vector_pointer_offset",
    "Blast.C48_vector_load",
    "Blast.C48_vector_store_mask",
    "Blast.C48_vector_store",
    "Blast.C48_row_column",
    "Blast.C48_minor_direction_load_terminates"
   ],
   "note": ""
  },
  {
   "property": "C49",
   "status": "proved",
   "theorems": [
    "Blast.C49_gemm_views",
    "Blast.C49_gemm_views_mismatch",
    "Blast.C49_padInBounds_of_aligned_row",
    "Blast.C49_padInBounds_of_full_rows",
    "Blast.C49_gemm_view_out_of_bounds_refuted"
   ],
   "note": "Exact arithmetic; column-major views; PadInBounds is necessary (C49_gemm_view_out_of_bounds_refuted)."
  },
  {
   "property": "C50",
   "status": "proved",
   "theorems": [
    "Blast.C50_lu_solve",
    "Blast.C50_lu_solve_singular",
    "Blast.C50_lu_solve_matrices",
    "Blast.C50_cholesky_solve"
   ],
   "note": "Exact arithmetic. Pointer-level theorems hold for any layout accepted by the algorithms; C50_lu_solve_matrices is the instance for matrix objects."
  },
  {
   "property": "C51",
   "status": "proved",
   "theorems": [
    "Blast.C51_syrk_views",
    "Blast.C51_ger_views",
    "Blast.C51_trmm_right_views",
    "Blast.C51_trmm_left_views",
    "Blast.C51_getf2_views",
    "Blast.C51_getrf_views",
    "Blast.C51_trsm_views",
    "Blast.C51_potrf_views",
    "Blast.C51_potrf_view_overwrites_refuted",
    "Blast.C51_syrk_unaligned_view_refuted"
   ],
   "note": "Exact arithmetic. The excluded cases are proved to fail: C51_potrf_view_overwrites_refuted, C51_syrk_unaligned_view_refuted."
  },
  {
   "property": "C52",
   "status": "proved",
   "theorems": [
    "Blast.C52_history",
    "Blast.C52_no_leak",
    "Blast.C52_padding_zero",
    "Blast.C52_mismatched_delete_refuted"
   ],
   "note": "Refinement by induction over the history. The delete form mismatch is a parameter of the model; C52_mismatched_delete_refuted shows what the letter of the standard says."
  },
  {
   "property": "C53",
   "status": "proved",
   "theorems": [
    "Blast.C53_fill",
    "Blast.C53_initializer_list",
    "Blast.C53_history"
   ],
   "note": "The storage of distinct vectors is disjoint (C++ objects); indices in range, as the class requires."
  },
  {
   "property": "C54",
   "status": "proved",
   "theorems": [
    "Blast.C54_randomize",
    "Blast.C54_generate",
    "Blast.C54_makeHermitian",
    "Blast.C54_makeSymmetric",
    "Blast.C54_not_square",
    "Blast.C54_makePositiveDefinite_value",
    "Blast.C54_makePositiveDefinite",
    "Blast.C54_makePositiveDefinite_potrf"
   ],
   "note": "Arbitrary draws. makePositiveDefinite: column-major panel matrices, exact arithmetic, the allocator returns free aligned memory; generate relies on copy elision of the returned object (copying throws)."
  },
  {
   "property": "C55",
   "status": "proved",
   "theorems": [
    "Blast.C55_elements",
    "Blast.C55_load",
    "Blast.C55_store",
    "Blast.C55_storeLower",
    "Blast.C55_ger",
    "Blast.C55_equality",
    "Blast.C55_load_store",
    "Blast.C55_load_short_refuted"
   ],
   "note": "Column-major pointers, as the class requires. The members that do not compile (axpy, load(beta,p), gemm) or are only declared are not modelled. C55_load_short_refuted: the repository's own tests violate the requirement on load."
  },
  {
   "property": "C56",
   "status": "proved",
   "theorems": [
    "Blast.C56_gemm_accuracy",
    "Blast.C56_ger_accuracy",
    "Blast.C56_syrk_accuracy",
    "Blast.C56_trmm_right_accuracy",
    "Blast.C56_trmm_left_accuracy"
   ],
   "note": "Standard model of rounded arithmetic (relative error u per operation: no overflow, underflow, NaN); binary arithmetic with any significand length and unbounded exponent is shown to be an instance."
  },
  {
   "property": "C57",
   "status": "proved",
   "theorems": [
    "Blast.C57_trsm_residual",
    "Blast.C57_trsv_residual",
    "Blast.C57_reference_trsm_left_residual",
    "Blast.C57_reference_trsm_right_residual",
    "Blast.C57_trsm_contracted",
    "Blast.C57_trsv_contracted"
   ],
   "note": "Standard model of rounded arithmetic as for C56; division included; the last two theorems: the solves with fused multiply-subtracts. The panel and SIMD register solvers are covered bitwise by their own properties, not here."
  },
  {
   "property": "C58",
   "status": "proved",
   "theorems": [
    "Blast.C58_potrf_dense_accuracy",
    "Blast.C58_potrf_panel_accuracy",
    "Blast.C58_potrf_dense_nan_or_accurate",
    "Blast.C58_potrf_panel_nan_or_accurate"
   ],
   "note": "Standard model of rounded arithmetic with a rounded square root. In the NaN theorems a division by zero gives NaN (IEEE infinities are not distinguished from NaN, and overflow is not modelled). Sizes as required by C18 (PotrfFits)."
  },
  {
   "property": "C59",
   "status": "proved",
   "theorems": [
    "Blast.C59_getf2_backward_error",
    "Blast.C59_getf2_row_major_backward_error",
    "Blast.C59_getrf_backward_error",
    "Blast.C59_getrf_row_major_backward_error",
    "Blast.C59_getrf_padded"
   ],
   "note": "Standard model of rounded arithmetic as for C56 (no overflow/underflow, comparisons and abs exact). The row-major division by the pivot is Blaze's: both implementations (division, multiplication by the reciprocal) are covered."
  },
  {
   "property": "C60",
   "status": "proved",
   "theorems": [
    "Blast.C60_lu_solve_backward_error",
    "Blast.C60_lu_solve_accuracy",
    "Blast.C60_cholesky_solve_accuracy"
   ],
   "note": "Composition of C57, C58, C59. Standard model of rounded arithmetic (no overflow/underflow)."
  },
  {
   "property": "C61",
   "status": "proved",
   "theorems": [
    "Blast.C61_potrf",
    "Blast.C61_trsm",
    "Blast.C61_getrf_square",
    "Blast.C61_getrf_symmetric",
    "Blast.C61_setCounters",
    "Blast.C61_trsm_div_refuted",
    "Blast.C61_getrf_rectangular_refuted",
    "Blast.C61_getrf_square_refuted"
   ],
   "note": "Exact in std::size_t arithmetic; the divisions reported for trsm and the updates reported for non-square getrf are wrong (three _refuted theorems)."
  },
  {
   "property": "C62",
   "status": "proved",
   "theorems": [
    "Blast.C62_approxEqual_matrix",
    "Blast.C62_approxEqual_vector",
    "Blast.C62_approxEqual_tolerances",
    "Blast.C62_exactEqual_matrix",
    "Blast.C62_exactEqual_vector",
    "Blast.C62_infinity_refuted",
    "Blast.C62_nan_refuted",
    "Blast.C62_approxEqual_scalar"
   ],
   "note": "IEEE values modelled as number/infinity/NaN with a rounding function on numbers. C62_infinity_refuted and C62_nan_refuted show what a passing test does not exclude."
  },
  {
   "property": "C63",
   "status": "proved",
   "theorems": [
    "Blast.C63_reference_gemm_accuracy",
    "Blast.C63_reference_ger_accuracy",
    "Blast.C63_reference_axpy_accuracy",
    "Blast.C63_reference_trmm_left_accuracy",
    "Blast.C63_reference_trmm_right_accuracy",
    "Blast.C63_gemm_agrees_with_reference",
    "Blast.C63_gemm_test_detects_errors",
    "Blast.C63_gemm_test_passes_double"
   ],
   "note": "Standard model of rounded arithmetic. Composition of C56, C46 and C62."
  },
  {
   "property": "C64",
   "status": "proved",
   "theorems": [
    "Blast.C64_construct_sound",
    "Blast.C64_dense_sound_iff",
    "Blast.C64_wrap_refuted",
    "Blast.C64_wrap_unsound"
   ],
   "note": "std::size_t is modelled as UInt64; operator new[] as a limit on the byte size (the compiler's check of count*sizeof(T))."
  },
  {
   "property": "C65",
   "status": "proved",
   "theorems": [
    "Blast.C65_pack",
    "Blast.C65_unpack",
    "Blast.C65_unpack_tran",
    "Blast.C65_round_trip",
    "Blast.C65_pack_vector",
    "Blast.C65_assign"
   ],
   "note": "The C functions of BLASFEO are not in the repository; they are modelled by their documented effect."
  },
  {
   "property": "C66",
   "status": "proved",
   "theorems": [
    "Blast.C66_storage",
    "Blast.C66_moves",
    "Blast.C66_matrix_no_copies",
    "Blast.C66_matrix_copy_refuted"
   ],
   "note": "malloc/free of BLASFEO modelled by their effect on the set of allocated blocks; allocation of a DynamicMatrix is assumed to succeed (BLASFEO exits otherwise)."
  },
  {
   "property": "C67",
   "status": "proved",
   "theorems": [
    "Blast.C67_gemm_uses_only",
    "Blast.C67_ger_uses_only",
    "Blast.C67_syrk_uses_only",
    "Blast.C67_trmm_left_uses_only",
    "Blast.C67_trmm_right_uses_only",
    "Blast.C67_potrf_dense_uses_only",
    "Blast.C67_potrf_panel_uses_only",
    "Blast.C67_getf2_uses_only",
    "Blast.C67_getf2_row_major_uses_only",
    "Blast.C67_getrf_uses_only",
    "Blast.C67_laswp_uses_only",
    "Blast.C67_trsm_uses_only",
    "Blast.C67_calls_framed",
    "Blast.C67_framed_returns",
    "Blast.C67_framed_throws",
    "Blast.C67_any_order"
   ],
   "note": "order independence is at the granularity of whole calls; together with the disjointness of the accessed cells this is the absence of data races. A write that stores the value already present counts as no write."
  },
  {
   "property": "C68",
   "status": "proved",
   "theorems": [
    "Blast.C68_getf2_safe",
    "Blast.C68_getf2_row_major_safe",
    "Blast.C68_getrf_safe",
    "Blast.C68_getrf_row_major_safe",
    "Blast.C68_solve_safe",
    "Blast.C68_getf2_nan_returns"
   ],
   "note": "no algebraic law is assumed of the arithmetic; the NaN theorem uses the model of IEEE arithmetic in Ieee.lean (no overflow, unsigned zero)."
  },
  {
   "property": "C69",
   "status": "proved",
   "theorems": [
    "Blast.C69_history",
    "Blast.C69_no_leak",
    "Blast.C69_solve_program",
    "Blast.C69_cholesky_program"
   ],
   "note": "exact arithmetic; tile size = SIMD width; views, vectors and ger are not operands of these programs; what a throwing factorization leaves in the pivot array is arbitrary; the temporary of makePositiveDefinite is a part of memory that is free during the call (its entry in the heap is not tracked)."
  },
  {
   "property": "C70",
   "status": "proved",
   "theorems": [
    "Blast.C70_concurrent",
    "Blast.C70_schedule_independent",
    "Blast.C70_threads",
    "Blast.C70_sequence",
    "Blast.C70_gemm",
    "Blast.C70_ger",
    "Blast.C70_syrk",
    "Blast.C70_trmm_left",
    "Blast.C70_trmm_right",
    "Blast.C70_trsm",
    "Blast.C70_potrf_dense",
    "Blast.C70_potrf_panel",
    "Blast.C70_getf2",
    "Blast.C70_getf2_row_major",
    "Blast.C70_getrf",
    "Blast.C70_laswp"
   ],
   "note": "interleaving of single-element accesses (sequential consistency; C++ guarantees it when there is no data race, and that is part of the theorem). A SIMD load or store is a sequence of accesses to its lanes. The execution of a call access by access is given by a derivation `Exec` that follows the model function construct by construct. The array of pivot indices of the LU functions is private to the call. trmm, potrf: consistent sizes as in C67."
  },
  {
   "property": "C71",
   "status": "proved",
   "theorems": [
    "Blast.C71_kernel",
    "Blast.C71_kernel_partial_tile",
    "Blast.C71_kernel_alpha_beta",
    "Blast.C71_kernel_alpha_beta_partial_tile",
    "Blast.C71_kernel_exact",
    "Blast.C71_kernel_partial_tile_exact",
    "Blast.C71_gemm_bitwise",
    "Blast.C71_gemm_value",
    "Blast.C71_gemm_size_check",
    "Blast.C71_partial_tile_out_of_bounds_refuted"
   ],
   "note": "The kernels are the modelled functions of register_matrix/Gemm.hpp, stated for any pointers satisfying KernelPtrs (no disjointness), with bitwise and exact-arithmetic forms; the unmasked load of c by the partial kernel is refuted separately; gemm(A,B,C,D) is stated over containers."
  },
  {
   "property": "C72",
   "status": "proved",
   "theorems": [
    "Blast.C72_block_programs"
   ],
   "note": "Forward simulation over all admissible programs; the specification SpecProg mentions only values and positions of elements. Operands are dense (panel views are C39/C49); the preconditions are those of C39, C49, C51."
  },
  {
   "property": "C73",
   "status": "proved",
   "theorems": [
    "Blast.C73_blocked_cholesky",
    "Blast.C73_blocked_forward"
   ],
   "note": "Two client programs, by induction over the blocks on top of C72's single-step result; the Schur complement of a positive definite matrix is proved positive definite. Cholesky: SIMD width 4 (AVX2 double), as potrf requires."
  },
  {
   "property": "C74",
   "status": "proved",
   "theorems": [
    "Blast.C74_trsv",
    "Blast.C74_gemm",
    "Blast.C74_ger",
    "Blast.C74_syrk",
    "Blast.C74_trmm_left",
    "Blast.C74_trmm_right",
    "Blast.C74_trsm",
    "Blast.C74_potrf_dense",
    "Blast.C74_potrf_panel",
    "Blast.C74_getf2",
    "Blast.C74_getf2_row_major",
    "Blast.C74_getrf",
    "Blast.C74_getrf_row_major",
    "Blast.C74_makePositiveDefinite"
   ],
   "note": "Each function's result is shown to be an explicit function of the elements (`trmmLDet`, `syrkDet`, `trsmDet`, `potDenseDet`, `potPanelDet`, `luFull`, `getrfFull`, \u2026: module Determined); the theorems mention none of these. Tile size = SIMD width; preconditions as in C01, C09-C20."
  },
  {
   "property": "C75",
   "status": "proved",
   "theorems": [
    "Blast.C75_reproducible",
    "Blast.C75_safe",
    "Blast.C75_no_leak",
    "Blast.C75_relocatable"
   ],
   "note": "Simulation of both runs by the same deterministic value semantics (`detStep`), in an uninterpreted arithmetic. What a throwing factorization leaves in the pivot array is a parameter (`junk`) that is the same in both runs; views, vectors and ger are not operands of these programs; tile size = SIMD width."
  },
  {
   "property": "C76",
   "status": "proved",
   "theorems": [
    "Blast.C76_gemm",
    "Blast.C76_gemm_only",
    "Blast.C76_ger",
    "Blast.C76_ger_only",
    "Blast.C76_syrk",
    "Blast.C76_syrk_only",
    "Blast.C76_trmm_left",
    "Blast.C76_trmm_left_above_refuted",
    "Blast.C76_trmm_right",
    "Blast.C76_trmm_right_only",
    "Blast.C76_trsm",
    "Blast.C76_potrf_dense",
    "Blast.C76_potrf_panel",
    "Blast.C76_potrf_check",
    "Blast.C76_getf2",
    "Blast.C76_getf2_row_major",
    "Blast.C76_getrf",
    "Blast.C76_getrf_row_major",
    "Blast.C76_trsv"
   ],
   "note": "NaN is an abstract predicate (class NanArith, with instances for IEEE arithmetic with infinities and for numbers with NaN); the values are those determined in module Determined. `C76_*_only`: containment, in arithmetics without overflow; `C76_trmm_left_above_refuted`: containment fails for trmm left. The division of the row-major LU codes is any NaN-propagating function."
  },
  {
   "property": "C77",
   "status": "proved",
   "theorems": [
    "Blast.C77_gemm",
    "Blast.C77_ger",
    "Blast.C77_syrk",
    "Blast.C77_trmm_right",
    "Blast.C77_trmm_left",
    "Blast.C77_trsm",
    "Blast.C77_trsm_leading",
    "Blast.C77_potrf_dense_leading",
    "Blast.C77_potrf_panel_leading",
    "Blast.C77_getf2",
    "Blast.C77_getf2_row_major",
    "Blast.C77_getrf",
    "Blast.C77_getrf_row_major",
    "Blast.C77_trmm_left_refuted"
   ],
   "note": "Uninterpreted arithmetic; the values are those determined in module Determined. trmm from the left with the condition on column tiles, which is necessary (C77_trmm_left_refuted: bitwise different elements of the result). Preconditions as in C01, C09-C20; potrf: sizes as required by C18."
  },
  {
   "property": "C78",
   "status": "proved",
   "theorems": [
    "Blast.C78_trsv",
    "Blast.C78_gemm",
    "Blast.C78_ger",
    "Blast.C78_syrk",
    "Blast.C78_trmm_right",
    "Blast.C78_trmm_left",
    "Blast.C78_trsm",
    "Blast.C78_potrf_dense",
    "Blast.C78_potrf_panel",
    "Blast.C78_getf2",
    "Blast.C78_getf2_row_major",
    "Blast.C78_getrf",
    "Blast.C78_getrf_row_major"
   ],
   "note": "The exact factors are a commutative group acting on the scalars (class Scaling); instances: binary arithmetic with any significand length, ties to even, unbounded exponent, and factors \u00b12^k (module RoundEven); the reals with all non-zero factors. If a factorization throws, both calls throw (the elements left behind are not compared)."
  },
  {
   "property": "C79",
   "status": "proved",
   "theorems": [
    "Blast.C79_gemm",
    "Blast.C79_ger",
    "Blast.C79_syrk",
    "Blast.C79_trmm_left",
    "Blast.C79_trmm_right",
    "Blast.C79_gemm_assoc"
   ],
   "note": "Stated with Mathlib's Matrix type, product, transpose and vecMulVec (module MatForm says what it means for an object to hold a matrix); any commutative ring. Preconditions as in C01, C09-C13."
  },
  {
   "property": "C80",
   "status": "proved",
   "theorems": [
    "Blast.C80_potrf_dense",
    "Blast.C80_potrf_panel",
    "Blast.C80_getrf",
    "Blast.C80_getf2",
    "Blast.C80_getf2_row_major",
    "Blast.C80_getrf_det"
   ],
   "note": "Stated with Mathlib's PosDef, det, submatrix and Equiv.Perm; any linearly ordered field (with exact square roots for potrf). Preconditions as in C15-C22."
  },
  {
   "property": "C81",
   "status": "proved",
   "theorems": [
    "Blast.C81_trsm",
    "Blast.C81_trsv",
    "Blast.C81_lu_solve",
    "Blast.C81_lu_inverse",
    "Blast.C81_cholesky_solve",
    "Blast.C81_trsm_undoes_trmm"
   ],
   "note": "Stated with Mathlib's matrix inverse. luSolve/choleskySolve are the call sequences of C50."
  },
  {
   "property": "C82",
   "status": "proved",
   "theorems": [
    "Blast.C82_gemm",
    "Blast.C82_gemm_bound_sharp",
    "Blast.C82_ger",
    "Blast.C82_syrk",
    "Blast.C82_trmm_right",
    "Blast.C82_trmm_left",
    "Blast.C82_trsm",
    "Blast.C82_potrf_dense",
    "Blast.C82_potrf_panel",
    "Blast.C82_trsv"
   ],
   "note": "Any arithmetic that is exact on integers up to a bound; instances: binary formats with ties to even (bound 2^(p+1)), also with infinities and NaN. trmm with the triangular matrix on the left assumes zeros below the diagonal (C12). LU is not included: its multipliers are not integers. C82_gemm_bound_sharp shows that the bound cannot be raised."
  },
  {
   "property": "C83",
   "status": "proved",
   "theorems": [
    "Blast.C83_gemm_transpose",
    "Blast.C83_gemm_symmetric",
    "Blast.C83_ger_symmetric",
    "Blast.C83_ger_symmetric_refuted",
    "Blast.C83_makePositiveDefinite_symmetric",
    "Blast.C83_makePositiveDefinite_panel_symmetric",
    "Blast.C83_reference_gemm_symmetric"
   ],
   "note": "Any arithmetic with commuting factors. C83_ger_symmetric_refuted: ger rounds alpha x(i) before multiplying with y(j), so for general alpha the result for x = y is not symmetric."
  },
  {
   "property": "C84",
   "status": "proved",
   "theorems": [
    "Blast.C84_gemm_call",
    "Blast.C84_trmm_call",
    "Blast.C84_syrk_call",
    "Blast.C84_vec_call",
    "Blast.C84_size",
    "Blast.C84_memsize",
    "Blast.C84_size_refuted",
    "Blast.C84_wrap_refuted",
    "Blast.C84_gemm_nn",
    "Blast.C84_gemm_nt",
    "Blast.C84_gemm_tn",
    "Blast.C84_trmm_rlnn",
    "Blast.C84_trmm_rutn",
    "Blast.C84_syrk_ln",
    "Blast.C84_syrk_potrf",
    "Blast.C84_potrf",
    "Blast.C84_pack_vec",
    "Blast.C84_unpack_vec",
    "Blast.C84_vecse",
    "Blast.C84_vecsc"
   ],
   "note": "The library is a parameter: the _call theorems hold for every library and element type, the others assume its documented contract (Lib.Correct), shown satisfiable in Cases/BlasfeoApi. C84_size_refuted and C84_wrap_refuted: sizes from 2^31 on are converted to int without check."
  },
  {
   "property": "C85",
   "status": "proved",
   "theorems": [
    "Blast.C85_rounding",
    "Blast.C85_gemm",
    "Blast.C85_gemm_finite",
    "Blast.C85_ger",
    "Blast.C85_ger_finite",
    "Blast.C85_syrk",
    "Blast.C85_syrk_finite",
    "Blast.C85_trmm_right",
    "Blast.C85_trmm_right_finite",
    "Blast.C85_trmm_left",
    "Blast.C85_trmm_left_finite",
    "Blast.C85_gemm_overflow_refuted",
    "Blast.C85_greater",
    "Blast.C85_equal",
    "Blast.C85_abs"
   ],
   "note": "Bin F is IEEE 754 binary arithmetic of the format F (binary64, binary32 are instances), without NaN payloads and exception flags; a format may also flush small results to zero (C98). trmm with the triangular matrix on the left assumes zeros (of either sign) below the diagonal (C12). C85_gemm_overflow_refuted: alpha is applied after the summation, so gemm can overflow although the result is representable."
  },
  {
   "property": "C86",
   "status": "proved",
   "theorems": [
    "Blast.C86_potrf_dense_safe",
    "Blast.C86_potrf_panel_safe",
    "Blast.C86_trsm",
    "Blast.C86_potrf_dense",
    "Blast.C86_potrf_panel",
    "Blast.C86_wide",
    "Blast.C86_trsm_safe",
    "Blast.C86_trsv",
    "Blast.C86_trsv_safe"
   ],
   "note": "A posteriori: finite element and finite diagonal element are the only assumptions on the computed values. A priori (C86_trsm_safe, C86_potrf_dense_safe, C86_potrf_panel_safe): no overflow under explicit bounds. potrf assumes that the stored numbers belong to the format and that the format has enough exponent range (C86_wide: double and float do)."
  },
  {
   "property": "C87",
   "status": "proved",
   "theorems": [
    "Blast.C87_getf2",
    "Blast.C87_getf2_safe",
    "Blast.C87_getf2_row_major",
    "Blast.C87_getf2_row_major_safe",
    "Blast.C87_getf2_row_major_reciprocal",
    "Blast.C87_getrf",
    "Blast.C87_getrf_safe",
    "Blast.C87_getrf_matrix",
    "Blast.C87_getrf_row_major",
    "Blast.C87_formats"
   ],
   "note": "Assumes that the stored numbers belong to the format and that the format has enough exponent range (C87_formats: double and float do). The multiplication by the reciprocal, which Blaze may use in the row-major routines, has no no-overflow theorem: the reciprocal of a subnormal pivot overflows."
  },
  {
   "property": "C88",
   "status": "proved",
   "theorems": [
    "Blast.C88_cholesky_total",
    "Blast.C88_lu_solve",
    "Blast.C88_lu_solve_safe",
    "Blast.C88_lu_solve_total",
    "Blast.C88_lu_solve_matrices",
    "Blast.C88_cholesky_solve"
   ],
   "note": "Two kinds of theorems for LU and for Cholesky: a posteriori (if the factors and a column of the result are finite, the residual is small) and a priori (moderate elements, robustly regular or smallest eigenvalue above the rounding errors: no exception, no overflow, finite and bounded solution)."
  },
  {
   "property": "C89",
   "status": "proved",
   "theorems": [
    "Blast.C89_trsv_is_trsm",
    "Blast.C89_reference_trsm_left",
    "Blast.C89_reference_trsm_right",
    "Blast.C89_syrk_is_gemm",
    "Blast.C89_trmm_right_is_gemm",
    "Blast.C89_trmm_left_is_gemm"
   ],
   "note": "trsv, reference::trsm and trsm compute the solution of the same substitution recurrence (trsmSol) in an arbitrary arithmetic. syrk and trmm against gemm: in the IEEE arithmetic Bin F, equality of numbers with +0 = -0 (fma(0, b, -0) = +0, so bitwise equality is false); alpha arbitrary, beta = 0. The single-system versions of C74, C76, C78, C82 and C86 for trsv are in the same module."
  },
  {
   "property": "C90",
   "status": "proved",
   "theorems": [
    "Blast.C90_gemm",
    "Blast.C90_gemm_pointers",
    "Blast.C90_ger",
    "Blast.C90_syrk",
    "Blast.C90_trmm_left",
    "Blast.C90_trmm_right",
    "Blast.C90_potrf_dense",
    "Blast.C90_potrf_panel",
    "Blast.C90_getf2",
    "Blast.C90_getrf",
    "Blast.C90_iamax_swap_laswp",
    "Blast.C90_gemm_misaligned",
    "Blast.C90_ger_misaligned",
    "Blast.C90_trmm_misaligned",
    "Blast.C90_vectors_detected",
    "Blast.C90_syrk_misaligned",
    "Blast.C90_potrf_misaligned",
    "Blast.C90_trmm_left_panel_refuted",
    "Blast.C90_trmm_right_panel_refuted",
    "Blast.C90_view_valid",
    "Blast.C90_view_assign",
    "Blast.C90_submatrix_valid",
    "Blast.C90_submatrix_detected",
    "Blast.C90_submatrix_index_detected",
    "Blast.C90_row_valid",
    "Blast.C90_row_index_detected",
    "Blast.C90_row_detected",
    "Blast.C90_dynreg",
    "Blast.C90_panel_views",
    "Blast.C90_row_index_refuted",
    "Blast.C90_submatrix_nested_refuted",
    "Blast.C90_submatrix_overflow_refuted",
    "Blast.C90_empty_row_refuted"
   ],
   "note": "Namespace Checked restates every function with the assertions it executes; a failed assertion is the outcome terminate. The theorems are equalities of programs (Checked.X = X), so every other theorem about X holds of the checked build. BLAZE_INTERNAL_ASSERT (a different macro) and Blaze's own assertions are not modelled; trsm and trsv are scalar loops without assertions. Refuted parts: C90_*_refuted."
  },
  {
   "property": "C91",
   "status": "proved",
   "theorems": [
    "Blast.C91_makePositiveDefinite",
    "Blast.C91_makePositiveDefinite_panel",
    "Blast.C91_potrf_dense",
    "Blast.C91_potrf_panel",
    "Blast.C91_sizes"
   ],
   "note": "The values come from the any-arithmetic descriptions det_makePositiveDefinite and det_makePositiveDefinitePanel, bounded in the IEEE model; positive definiteness with margin is Cauchy-Schwarz on R R^T + n I. The random engine is not modelled: the numbers are universally quantified. The size bounds are not sharp."
  },
  {
   "property": "C92",
   "status": "proved",
   "theorems": [
    "Blast.C92_gemm",
    "Blast.C92_gemm_any",
    "Blast.C92_trmm_right",
    "Blast.C92_trmm_left",
    "Blast.C92_trmm_left_refuted",
    "Blast.C92_ger",
    "Blast.C92_syrk",
    "Blast.C92_potrf_dense",
    "Blast.C92_sizes",
    "Blast.C92_getf2",
    "Blast.C92_getf2_row_major",
    "Blast.C92_getrf",
    "Blast.C92_lu_sizes"
   ],
   "note": "All sums have non-negative terms, so the error bounds are relative. References computed by blaze expressions are universally quantified within the bound ComputedFrom (at most k roundings, any order). The LU theorems (C92_getf2, C92_getf2_row_major, C92_getrf) allow the call to throw for a singular draw. Not covered: the trsv and trsm tests (their error grows with the conditioning of random triangular matrices), the row-major getrf test (no pivoting; C23_getrf_row_major_unstable_refuted is a draw for which the factors do not reproduce the matrix), and the panel potrf test (it compares elements above the diagonal, where residues are left, see C17). C92_trmm_left_refuted: the left trmm test with the true reference reports a mismatch."
  },
  {
   "property": "C93",
   "status": "proved",
   "theorems": [
    "Blast.C93_reference",
    "Blast.C93_optimized",
    "Blast.C93_optimized_rejects",
    "Blast.C93_agree",
    "Blast.C93_headers_refuted"
   ],
   "note": "Which overload is selected is the C++ rule of argument dependent lookup and more constrained templates, transcribed in Verif/ReferenceTrmm.lean; everything else is proved. C93_headers_refuted: one call, two results."
  },
  {
   "property": "C94",
   "status": "proved",
   "theorems": [
    "Blast.C94_trsm",
    "Blast.C94_lu_solve",
    "Blast.C94_cholesky_solve"
   ],
   "note": "From the residual bounds of C86 and C88 and a left inverse of the real matrix. The growth factor 2^n of Gaussian elimination is in the bound (W), as in C88. The exact solution and the inverse are universally quantified real objects."
  },
  {
   "property": "C95",
   "status": "proved",
   "theorems": [
    "Blast.C95_trsm",
    "Blast.C95_trsv",
    "Blast.C95_trsm_as_written",
    "Blast.C95_trsm_contracted",
    "Blast.C95_trsv_as_written",
    "Blast.C95_trsv_contracted",
    "Blast.C95_reference_gemm_as_written",
    "Blast.C95_reference_gemm",
    "Blast.C95_trsm_vectorized",
    "Blast.C95_order_matters_refuted"
   ],
   "note": "Evaluations are trees of additions, subtractions, products and fused operations whose terms are the terms of the sum and zeros; distributing a product over a sum (also permitted by -ffast-math) is not covered. Explicit vector operations are taken to be executed as written. C95_order_matters_refuted: the result is not determined by the source."
  },
  {
   "property": "C96",
   "status": "proved",
   "theorems": [
    "Blast.C96_history",
    "Blast.C96_no_leak",
    "Blast.C96_strong_guarantee",
    "Blast.C96_retry",
    "Blast.C96_panel_strong_guarantee_refuted",
    "Blast.C96_safe",
    "Blast.C96_no_leak_any",
    "Blast.C96_strong_guarantee_any"
   ],
   "note": "Each step makes at most one allocation (the only new expressions of the library are in the constructors of the two dynamic classes), so a failure pattern is one flag per step. The strong guarantee is false for makePositiveDefinite of dynamic panel matrices (C96_panel_strong_guarantee_refuted): the matrix is overwritten before the temporary is allocated."
  },
  {
   "property": "C97",
   "status": "proved",
   "theorems": [
    "Blast.C97_pivot_array_model",
    "Blast.C97_getf2_leaves",
    "Blast.C97_getf2_row_major_leaves",
    "Blast.C97_getf2_recoverable",
    "Blast.C97_getrf_single_block_leaves",
    "Blast.C97_getrf_leaves_refuted",
    "Blast.C97_getrf_leaves",
    "Blast.C97_getrf_recoverable",
    "Blast.C97_getf2_reproducible"
   ],
   "note": "The pivot array is explicit in the models getf2PtrS, getf2RowS, getrfPtrS; C97_pivot_array_model proves that raising the exception gives back the models of C19-C25. C97_getrf_leaves: the blocked factorization, any number of blocks; C97_getrf_recoverable: nothing is lost. C97_getrf_leaves_refuted: a 3 x 3 matrix with tiles of 2."
  },
  {
   "property": "C98",
   "status": "proved",
   "theorems": [
    "Blast.C98_gemm_nothing_small",
    "Blast.C98_syrk_nothing_small",
    "Blast.C98_trmm_right_nothing_small",
    "Blast.C98_trmm_left_nothing_small",
    "Blast.C98_trsm_nothing_small",
    "Blast.C98_potrf_dense_nothing_small",
    "Blast.C98_potrf_panel_nothing_small",
    "Blast.C98_getf2_nothing_small",
    "Blast.C98_getrf_nothing_small",
    "Blast.C98_getf2_row_major_nothing_small",
    "Blast.C98_getrf_row_major_nothing_small",
    "Blast.C98_daz",
    "Blast.C98_rounding",
    "Blast.C98_formats",
    "Blast.C98_gemm",
    "Blast.C98_getf2_singular_refuted",
    "Blast.C98_reciprocal_refuted",
    "Blast.C98_gemm_agrees",
    "Blast.C98_trsv_nothing_small"
   ],
   "note": "The field `under` of a format (gradual, flushAfter, flushBefore) is a parameter of all theorems C85-C95 about Bin F, with F.eta the absolute error that goes with it; only the nearest-number clause of C85_rounding and the reciprocal (-ffast-math) theorems of C87 assume gradual underflow. C98_gemm writes one of them out. C98_daz: the arithmetics with and without denormals-are-zero are equal on the numbers of a format with flush-to-zero, hence all programs of the model are. C98_reciprocal_refuted shows that the assumption of the C87 reciprocal theorems is needed. C98_*_nothing_small: the hypothesis NothingSmall is observed on a run with tracked numbers, whose values are those of the run itself (tracked_val, C99) and whose flag says that no operation on the way had a non-zero exact result below the normal range. For LU (C98_getf2_nothing_small, C98_getrf_nothing_small and their row-major counterparts) it is EndsIn Tracked.ok for all elements the run leaves, and SameLuAsGradual is about outcome, pivots and elements. The binary is not modelled: which of the three holds depends on the linked start-up code."
  },
  {
   "property": "C99",
   "status": "proved",
   "theorems": [
    "Blast.C99_gemm",
    "Blast.C99_ger",
    "Blast.C99_syrk",
    "Blast.C99_trmm_left",
    "Blast.C99_trmm_right",
    "Blast.C99_trsm",
    "Blast.C99_potrf_dense",
    "Blast.C99_potrf_panel",
    "Blast.C99_getf2",
    "Blast.C99_getf2_row_major",
    "Blast.C99_getrf",
    "Blast.C99_getrf_row_major",
    "Blast.C99_getf2_where",
    "Blast.C99_getf2_row_major_where",
    "Blast.C99_getrf_where",
    "Blast.C99_trsv",
    "Blast.C99_makePositiveDefinite"
   ],
   "note": "OpRel R / CmpRel R say that a relation is respected by the operations / by abs, gt and eq; RelResult says how two calls and their results correspond. The model's programs are polymorphic in the arithmetic, so part of this is true by construction of the model; that the code's templates use the element type only through these operations is the modelling step, checked function by function, and the theorem is about the runs, which also have to agree in control flow, exceptions and undefined behaviour. C99_getf2_where, C99_getf2_row_major_where and C99_getrf_where ask for the comparisons only where a backward-closed set of numbers (Backward, EndsIn) holds the final elements. Used for C98 (tracked numbers), and in Cases/FlushAgree with integers against double-precision numbers."
  }
 ]
}