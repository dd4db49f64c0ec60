{
 "claims": [
  {
   "property": "C01",
   "status": "proved",
   "theorems": [
    "Ublas.C01_dense_layout_bijection",
    "Ublas.C01_element_rejects"
   ],
   "note": "Bijection for all shapes, both orientations, both build modes."
  },
  {
   "property": "C02",
   "status": "proved",
   "theorems": [
    "Ublas.C02_storage_size_exact",
    "Ublas.C02_element_no_wrap"
   ],
   "note": "64-bit machine arithmetic."
  },
  {
   "property": "C03",
   "status": "partial",
   "theorems": [
    "Ublas.C03_triangular_size_partial",
    "Ublas.C03_refuted"
   ],
   "note": "The overflow guard divides before adding one and lets n=2^32 wrap: refuted; exact below."
  },
  {
   "property": "C04",
   "status": "proved",
   "theorems": [
    "Ublas.C04_filled",
    "Ublas.C04_read_after_write",
    "Ublas.C04_out_of_range_rejected",
    "Ublas.C04_history",
    "Ublas.C04_initial"
   ],
   "note": "Refinement for all histories of insert/erase/clear/resize."
  },
  {
   "property": "C05",
   "status": "partial",
   "theorems": [
    "Ublas.C05_resize_preserve_partial",
    "Ublas.C05_zero_fill_refuted"
   ],
   "note": "Preservation proved; the documented zero filling of new elements is false of the code (uninitialised storage) and refuted."
  },
  {
   "property": "C06",
   "status": "proved",
   "theorems": [
    "Ublas.C06_packed_layout",
    "Ublas.C06_packed_size"
   ],
   "note": "All six structures, both orientations, both build modes, any n>0."
  },
  {
   "property": "C07",
   "status": "proved",
   "theorems": [
    "Ublas.C07_history",
    "Ublas.C07_initial",
    "Ublas.C07_write_outside_rejected"
   ],
   "note": "Refinement over all legal histories."
  },
  {
   "property": "C08",
   "status": "partial",
   "theorems": [
    "Ublas.C08_rectangular_partial",
    "Ublas.C08_refuted",
    "Ublas.C08_rejected_exactly"
   ],
   "note": "With checks on, unit/strict rectangular matrices reject some of their own elements: refuted, with the exact rejected set."
  },
  {
   "property": "C09",
   "status": "proved",
   "theorems": [
    "Ublas.C09_symmetric_history"
   ],
   "note": "Refinement over all legal histories."
  },
  {
   "property": "C10",
   "status": "partial",
   "theorems": [
    "Ublas.C10_hermitian_history_partial",
    "Ublas.C10_erase_refuted",
    "Ublas.C10_assign_outside_rejected",
    "Ublas.C10_assign_inside"
   ],
   "note": "erase_element outside the stored triangle is wrong in the code: refuted; everything else proved (element writes through the proxies of the default configuration; the rejection theorem is for builds with BOOST_UBLAS_NO_ELEMENT_PROXIES)."
  },
  {
   "property": "C11",
   "status": "proved",
   "theorems": [
    "Ublas.C11_band_layout",
    "Ublas.C11_off_band_rejected",
    "Ublas.C11_history"
   ],
   "note": "Any shape and bandwidths; non-preserving resize only (preserving resize is C61)."
  },
  {
   "property": "C12",
   "status": "proved",
   "theorems": [
    "Ublas.C12_range_compose",
    "Ublas.C12_slice_compose",
    "Ublas.C12_slice_compose_range",
    "Ublas.C12_slice_assoc",
    "Ublas.C12_range_assoc",
    "Ublas.C12_identity",
    "Ublas.C12_slice_iterator"
   ],
   "note": "Any start and any (zero, negative) stride whose addressed indices are valid; associativity of slices modulo 2^64 in release builds."
  },
  {
   "property": "C13",
   "status": "partial",
   "theorems": [
    "Ublas.C13_indirect_compose",
    "Ublas.C13_selector_compose_partial",
    "Ublas.C13_empty_rejected_refuted"
   ],
   "note": "Complete for indirect arguments; for range/slice arguments exact when non-empty; empty ranges starting beyond the end are rejected although no index is invalid (refuted)."
  },
  {
   "property": "C14",
   "status": "proved",
   "theorems": [
    "Ublas.C14_vector_proxy",
    "Ublas.C14_project",
    "Ublas.C14_selector_injective"
   ],
   "note": "Arbitrary nesting depth; project with explicit non-empty selectors (all() is C62)."
  },
  {
   "property": "C15",
   "status": "proved",
   "theorems": [
    "Ublas.C15_matrix_proxy",
    "Ublas.C15_matrix_vector_proxy",
    "Ublas.C15_views",
    "Ublas.C15_project"
   ],
   "note": "Arbitrary nesting depth."
  },
  {
   "property": "C16",
   "status": "proved",
   "theorems": [
    "Ublas.C16_unbounded_value_semantics",
    "Ublas.C16_all_destroyed_all_freed",
    "Ublas.C16_out_of_range_rejected",
    "Ublas.C16_bounded_resize",
    "Ublas.C16_bounded_rejects",
    "Ublas.C16_bounded_value_semantics"
   ],
   "note": "Heap model with allocation, construction and release of each block; arbitrary histories."
  },
  {
   "property": "C17",
   "status": "proved",
   "theorems": [
    "Ublas.C17_map_array_refines_map",
    "Ublas.C17_assignment",
    "Ublas.C17_push_back_rejects"
   ],
   "note": "Arbitrary histories in both build modes."
  },
  {
   "property": "C18",
   "status": "partial",
   "theorems": [
    "Ublas.C18_copy_constructor_behaviour",
    "Ublas.C18_copy_refuted",
    "Ublas.C18_copy_empty_partial"
   ],
   "note": "The claim is false of the code: the copy constructor copies nothing (size_ is read before it is set). Negation proved; only the empty case holds."
  },
  {
   "property": "C19",
   "status": "proved",
   "theorems": [
    "Ublas.C19_compressed_vector",
    "Ublas.C19_rejects"
   ],
   "note": "Arbitrary legal histories, any index base, uninitialised memory arbitrary."
  },
  {
   "property": "C20",
   "status": "proved",
   "theorems": [
    "Ublas.C20_mapped_vector",
    "Ublas.C20_mapped_vector_instances",
    "Ublas.C20_rejects"
   ],
   "note": "Any map meeting the map laws; both instances (map_array, std::map) proved to meet them."
  },
  {
   "property": "C21",
   "status": "proved",
   "theorems": [
    "Ublas.C21_coordinate_vector"
   ],
   "note": "Arbitrary legal histories; any conforming std::sort. Legality excludes the three defects recorded as C23, C28, C63."
  },
  {
   "property": "C22",
   "status": "proved",
   "theorems": [
    "Ublas.C22_coordinate_vector_sort",
    "Ublas.C22_coordinate_matrix_sort"
   ],
   "note": "inplace_merge and duplicate summing modelled step by step; std::sort abstract."
  },
  {
   "property": "C23",
   "status": "partial",
   "theorems": [
    "Ublas.C23_pop_back_partial",
    "Ublas.C23_pop_back_unsorted_refuted",
    "Ublas.C23_pop_back_last_refuted"
   ],
   "note": "False of the code for unsorted contents and for the last element (negations proved); proved otherwise."
  },
  {
   "property": "C24",
   "status": "proved",
   "theorems": [
    "Ublas.C24_compressed_matrix"
   ],
   "note": "Arbitrary legal histories, both orientations, any index base; uninitialised memory arbitrary. Legality excludes the defects recorded as C27, C28, C64."
  },
  {
   "property": "C25",
   "status": "proved",
   "theorems": [
    "Ublas.C25_mapped_matrix",
    "Ublas.C25_mapped_matrix_instances"
   ],
   "note": "Any map, both orientations, non-preserving resize (preserving resize is C27)."
  },
  {
   "property": "C26",
   "status": "proved",
   "theorems": [
    "Ublas.C26_coordinate_matrix"
   ],
   "note": "Arbitrary legal histories, both orientations; any conforming std::sort."
  },
  {
   "property": "C27",
   "status": "partial",
   "theorems": [
    "Ublas.C27_coordinate_vector_resize",
    "Ublas.C27_coordinate_matrix_resize_refuted",
    "Ublas.C27_mapped_matrix_resize_preserve_refuted",
    "Ublas.C27_compressed_matrix_resize_refuted",
    "Ublas.C19_compressed_vector",
    "Ublas.C20_mapped_vector"
   ],
   "note": "Vectors proved; matrices do not implement it (refuted)."
  },
  {
   "property": "C28",
   "status": "partial",
   "theorems": [
    "Ublas.C28_compressed_vector_reserve_partial",
    "Ublas.C28_compressed_vector_reserve_refuted",
    "Ublas.C28_compressed_vector_reserve_effect",
    "Ublas.C28_coordinate_reserve_refuted",
    "Ublas.C28_coordinate_vector_reserve_partial",
    "Ublas.C28_coordinate_matrix_reserve_partial",
    "Ublas.C28_compressed_matrix_reserve_refuted",
    "Ublas.C28_compressed_matrix_reserve_partial"
   ],
   "note": "False of the code when n is below the number of stored elements (refuted); proved otherwise."
  },
  {
   "property": "C29",
   "status": "partial",
   "theorems": [
    "Ublas.C29_compressed_of_coordinate_partial",
    "Ublas.C29_index_base_refuted",
    "Ublas.C29_no_lines_refuted"
   ],
   "note": "False of the code for one-based index arrays and for matrices without a major line (refuted); proved for zero-based arrays, every legal source history."
  },
  {
   "property": "C30",
   "status": "proved",
   "theorems": [
    "Ublas.C30_inner_prod",
    "Ublas.C30_size_mismatch",
    "Ublas.denseVec_operand",
    "Ublas.compressedVector_operand"
   ],
   "note": "operands are any vector expressions whose iterators/element access present a vector (Seq.Presents); dense vector and compressed_vector are shown to be such. Scalars from any semiring: rounding not modelled"
  },
  {
   "property": "C31",
   "status": "proved",
   "theorems": [
    "Ublas.C31_matrix_vector",
    "Ublas.dense_operand",
    "Ublas.triangular_operand",
    "Ublas.banded_operand",
    "Ublas.compressedMatrix_operand"
   ],
   "note": "element by index and through iterators, all dispatch paths; the container classes are shown to satisfy the operand hypotheses"
  },
  {
   "property": "C32",
   "status": "proved",
   "theorems": [
    "Ublas.C32_matrix_matrix",
    "Ublas.dense_operand",
    "Ublas.triangular_operand",
    "Ublas.banded_operand",
    "Ublas.compressedMatrix_operand"
   ],
   "note": "as C31"
  },
  {
   "property": "C33",
   "status": "proved",
   "theorems": [
    "Ublas.Axpy.C33_matrix_vector",
    "Ublas.Axpy.C33_vector_matrix",
    "Ublas.Axpy.C33_matrix_matrix",
    "Ublas.Axpy.C33_compressed_vector",
    "Ublas.Axpy.C33_vector_compressed",
    "Ublas.Axpy.C33_coordinate_vector",
    "Ublas.Axpy.C33_view",
    "Ublas.Axpy.C33_into_compressed",
    "Ublas.Axpy.C33_into_compressed_matrix",
    "Ublas.Axpy.C33_into_dense_matrix"
   ],
   "note": "All overloads; operands are any expressions presenting a matrix/vector (shown for the containers in C31), targets any dense or sparse container or view. For dense results the triangular restriction is ignored by the code (stated in C33_matrix_matrix)."
  },
  {
   "property": "C34",
   "status": "partial",
   "theorems": [
    "Ublas.Axpy.C34_opb_prod_partial",
    "Ublas.Axpy.C34_dense_partial",
    "Ublas.Axpy.C34_opb_iterating_refuted"
   ],
   "note": "Proved in the default indexing mode. With BOOST_UBLAS_USE_ITERATING the claim is false of the code (refuted), because dense outer_prod iterators skip the rows of zero elements."
  },
  {
   "property": "C35",
   "status": "proved",
   "theorems": [
    "Ublas.Blocked.C35_matrix_vector",
    "Ublas.Blocked.C35_vector_matrix",
    "Ublas.Blocked.C35_matrix_matrix",
    "Ublas.Blocked.C35_zero_block_diverges"
   ],
   "note": "block_prod with dense results, every block size > 0, every shape, any operand that presents a matrix/vector, debug and release, both evaluation modes; block size 0 never terminates"
  },
  {
   "property": "C36",
   "status": "partial",
   "theorems": [
    "Ublas.SparseProd.C36_sparse_prod_partial",
    "Ublas.SparseProd.C36_empty_result_refuted"
   ],
   "note": "proved when the result has at least one minor element; for results without (zero columns of a row_major, zero rows of a column_major result) the code reads temporary(0) of an empty vector as soon as a line is visited: C36_empty_result_refuted proves the fault for every such input"
  },
  {
   "property": "C37",
   "status": "proved",
   "theorems": [
    "Ublas.Solve.C37_vector",
    "Ublas.Solve.C37_left",
    "Ublas.Solve.C37_matrix",
    "Ublas.Solve.C37_singular",
    "Ublas.Solve.C37_matrix_singular",
    "Ublas.Solve.C37_unique",
    "Ublas.Solve.C37_into_vector",
    "Ublas.Solve.C37_into_matrix",
    "Ublas.Solve.C37_into_compressed_matrix",
    "Ublas.Solve.C37_into_compressed_vector",
    "Ublas.Solve.C37_solve",
    "Ublas.Solve.C37_dense"
   ],
   "note": "Every tag, orientation and storage category, any matrix operand that presents its elements, any right-hand side with element access; over an arbitrary field (no rounding)."
  },
  {
   "property": "C38",
   "status": "proved",
   "theorems": [
    "Ublas.LU.C38_no_pivoting",
    "Ublas.LU.C38_pivoting"
   ],
   "note": "Any dense-category matrix with element access, any shape, over an arbitrary field with exact arithmetic; default indexing evaluation."
  },
  {
   "property": "C39",
   "status": "partial",
   "theorems": [
    "Ublas.LU.C39_no_pivoting",
    "Ublas.LU.C39_pivoting",
    "Ublas.LU.C39_dense",
    "Ublas.LU.C39_left_pivot_partial",
    "Ublas.LU.substPivotLeft_solves",
    "Ublas.LU.C39_left_pivot_refuted"
   ],
   "note": "A x = b proved for vectors and matrices, with and without pivoting; x A = b without pivoting. The left variant with pm is wrong whenever rows were exchanged (it permutes b instead of x): refuted, with the system it really solves."
  },
  {
   "property": "C40",
   "status": "partial",
   "theorems": [
    "Ublas.LU.C40_tall_partial",
    "Ublas.LU.C40_wide_refuted"
   ],
   "note": "Proved over any field for every matrix with at least as many rows as columns (any lawful storage, orientation, checks on or off): P A = L U, first zero pivot reported. Refuted for every wider matrix with a non-zero element right of the square part: the loop only runs to min (size1, size2) and the zero-filled mr overwrites the rest of U."
  },
  {
   "property": "C41",
   "status": "proved",
   "theorems": [
    "Ublas.LU.C41_vector",
    "Ublas.LU.C41_matrix",
    "Ublas.LU.C41_permutation"
   ],
   "note": ""
  },
  {
   "property": "C42",
   "status": "proved",
   "theorems": [
    "Ublas.C42_assign",
    "Ublas.C42_op_assign",
    "Ublas.C42_view_assign",
    "Ublas.C42_view_op_assign",
    "Ublas.C42_compressed_assign",
    "Ublas.C42_compressed_op_assign"
   ],
   "note": "vector<T>, the vector views and compressed_vector; the right-hand side is an arbitrary function of the old contents. Matrix targets not modelled."
  },
  {
   "property": "C43",
   "status": "partial",
   "theorems": [
    "Ublas.C43_compressed_scaled",
    "Ublas.C43_noalias_partial",
    "Ublas.C43_noalias_view",
    "Ublas.C43_sparse_expression",
    "Ublas.C43_refuted",
    "Ublas.C43_compressed_refuted",
    "Ublas.C43_prod_differs"
   ],
   "note": "False of the code when the expression is of sparse category (dense containers) or the target is sparse: the target is cleared first (refuted). Proved otherwise."
  },
  {
   "property": "C44",
   "status": "proved",
   "theorems": [
    "Ublas.C44_assign_every_element",
    "Ublas.C44_packed_view",
    "Ublas.C44_triangular_row",
    "Ublas.assign_elementwise",
    "Ublas.view_supports",
    "Ublas.compressed_supports"
   ],
   "note": "sparse targets: compressed_vector; packed targets: rows of a triangular matrix; proxies: views"
  },
  {
   "property": "C45",
   "status": "partial",
   "theorems": [
    "Ublas.C45_swap_rows_partial",
    "Ublas.C45_refuted"
   ],
   "note": "False of the code for rows of an upper triangular matrix swapped in ascending order (refuted)."
  },
  {
   "property": "C46",
   "status": "proved",
   "theorems": [
    "Ublas.Norms.C46_sum",
    "Ublas.Norms.C46_norm_1",
    "Ublas.Norms.C46_norm_2",
    "Ublas.Norms.C46_norm_inf",
    "Ublas.Norms.C46_index_norm_inf",
    "Ublas.Norms.C46_matrix"
   ],
   "note": "Every evaluation mode and storage category, over an ordered field with an absolute value; square roots are a parameter."
  },
  {
   "property": "C47",
   "status": "partial",
   "theorems": [
    "Ublas.Norms.C47_indexed_partial",
    "Ublas.Norms.C47_iterated_partial",
    "Ublas.Norms.C47_leading_zero_refuted"
   ],
   "note": "Right for the indexing evaluation and for iterator evaluation without a leading zero; the iterator versions compute 0/0 for every vector whose first visited element is zero (refuted)."
  },
  {
   "property": "C48",
   "status": "partial",
   "theorems": [
    "Ublas.C48_binary",
    "Ublas.C48_size_mismatch",
    "Ublas.C48_unary",
    "Ublas.C48_expression_tree",
    "Ublas.C48_matrix_unary",
    "Ublas.C48_matrix_trans",
    "Ublas.C48_matrix_binary",
    "Ublas.C48_matrix_expression_tree",
    "Ublas.C48_outer_partial",
    "Ublas.C48_outer_refuted"
   ],
   "note": "Everything but outer_prod proved for all categories; dense outer_prod iterators skip the row of a zero element (refuted)."
  },
  {
   "property": "C49",
   "status": "partial",
   "theorems": [
    "Ublas.C49_traverse12",
    "Ublas.C49_traverse21",
    "Ublas.C49_traverse12_no_columns",
    "Ublas.C49_iterator_arith_partial",
    "Ublas.C49_iterator_arith_columns_partial",
    "Ublas.C49_negative_distance_refuted"
   ],
   "note": "Traversal proved; negative differences of the minor-direction iterators are wrong in the code and refuted."
  },
  {
   "property": "C50",
   "status": "proved",
   "theorems": [
    "Ublas.C50_compressed_matrix_traversal",
    "Ublas.C19_compressed_vector",
    "Ublas.C20_mapped_vector"
   ],
   "note": "compressed_matrix: both axes, both orientations, after any legal history. Vectors: the entry sequences in C19/C20."
  },
  {
   "property": "C51",
   "status": "proved",
   "theorems": [
    "Ublas.Tens.C51_bijection"
   ],
   "note": "size_t arithmetic is not wrapped: product of extents assumed to fit."
  },
  {
   "property": "C52",
   "status": "proved",
   "theorems": [
    "Ublas.Tens.C52_transform",
    "Ublas.Tens.C52_copy",
    "Ublas.Tens.C52_accumulate",
    "Ublas.Tens.C52_accumulate_sum",
    "Ublas.Tens.C52_norm",
    "Ublas.Tens.C52_rank0"
   ],
   "note": "Arbitrary rank, extents and strides (distinct target offsets), extents below 2^32 (the loop counters are unsigned)."
  },
  {
   "property": "C53",
   "status": "partial",
   "theorems": [
    "Ublas.Tens.C53_trans_partial",
    "Ublas.Tens.C53_inverse_partial",
    "Ublas.Tens.C53_rank1_refuted",
    "Ublas.Tens.C53_invalid"
   ],
   "note": "Proved for rank 2 and more, any permutation. Refuted for rank 1: trans returns zeros."
  },
  {
   "property": "C54",
   "status": "partial",
   "theorems": [
    "Ublas.Tens.C54_ttv",
    "Ublas.Tens.C54_prodVec",
    "Ublas.Tens.C54_prodVec_refused",
    "Ublas.Tens.C54_ttm",
    "Ublas.Tens.C54_prodMat_partial",
    "Ublas.Tens.C54_prodMat_rank1_refuted",
    "Ublas.Tens.C54_prodMat_refused"
   ],
   "note": "tensor-times-vector proved for every rank and mode, tensor-times-matrix for rank 2 and more. Refuted for rank 1 with matrices: the kernel reads past the extents. Extents below 2^32."
  },
  {
   "property": "C55",
   "status": "partial",
   "theorems": [
    "Ublas.Tens.C55_ttt",
    "Ublas.Tens.C55_ttt_outer",
    "Ublas.Tens.C55_prod_partial",
    "Ublas.Tens.C55_prod_refused",
    "Ublas.Tens.C55_static_refuted",
    "Ublas.Tens.C55_inner_partial",
    "Ublas.Tens.C55_inner_rank1_refuted",
    "Ublas.Tens.C55_inner_refused",
    "Ublas.Tens.C55_outer_partial",
    "Ublas.Tens.C55_outer_rank1_refuted"
   ],
   "note": "General contraction, inner and outer products proved for every rank from 2 and every list of modes; refuted for rank-1 inner and outer products and for static-rank full contractions. Extents below 2^32."
  },
  {
   "property": "C56",
   "status": "proved",
   "theorems": [
    "Ublas.Tens.C56_reshape",
    "Ublas.Tens.C56_invalid"
   ],
   "note": ""
  },
  {
   "property": "C57",
   "status": "partial",
   "theorems": [
    "Ublas.Assigner.C57_vector_writes",
    "Ublas.Assigner.C57_matrix_writes",
    "Ublas.Assigner.C57_vector",
    "Ublas.Assigner.C57_vector_values",
    "Ublas.Assigner.C57_matrix",
    "Ublas.Assigner.C57_matrix_values",
    "Ublas.Assigner.C57_dense_values",
    "Ublas.Assigner.C57_matrix_blocks",
    "Ublas.Assigner.C57_compressed_vector",
    "Ublas.Assigner.C57_compressed_matrix",
    "Ublas.Assigner.C57_push_back_values",
    "Ublas.Assigner.C57_matrix_push_back_values",
    "Ublas.Assigner.C57_block_after_row_refuted",
    "Ublas.Assigner.C57_empty_block_refuted",
    "Ublas.Assigner.C57_no_wrap_blocks_refuted",
    "Ublas.Assigner.C57_move_left_refuted"
   ],
   "note": "Every script performs exactly the specified writes in order, for any target; contents and refusals derived for dense and compressed targets. Refuted: a block behind a full row is refused instead of wrapped, an empty block reads its element (0,0), blocks without wrapping are placed diagonally, a move left of column 0 wraps to the next row. Operands that read the target are not covered."
  },
  {
   "property": "C58",
   "status": "partial",
   "theorems": [
    "Ublas.IO.C58_size_text",
    "Ublas.IO.C58_vector_accepts",
    "Ublas.IO.C58_vector_fail_unchanged",
    "Ublas.IO.C58_vector_roundtrip",
    "Ublas.IO.C58_matrix_accepts",
    "Ublas.IO.C58_matrix_only_partial",
    "Ublas.IO.C58_matrix_roundtrip",
    "Ublas.IO.C58_symmetric_accepts",
    "Ublas.IO.C58_symmetric_only",
    "Ublas.IO.C58_symmetric_roundtrip",
    "Ublas.IO.natIO_roundTrips",
    "Ublas.IO.C58_trailing_comma_refuted",
    "Ublas.IO.C58_alloc_refuted",
    "Ublas.IO.C58_overflow_refuted"
   ],
   "note": "Accepted texts characterised for every byte string; round trips for every element type whose own output is read back. Refuted: a trailing comma is accepted, a size that cannot be allocated throws, and in release mode 2^32 x 2^32 announced elements are written outside memory. Classic locale, decimal format; float precision is the element type's."
  },
  {
   "property": "C59",
   "status": "partial",
   "theorems": [
    "Ublas.Blas.C59_reductions",
    "Ublas.Blas.C59_dot",
    "Ublas.Blas.C59_copy",
    "Ublas.Blas.C59_swap",
    "Ublas.Blas.C59_swap_bounded",
    "Ublas.Blas.C59_swap_compressed",
    "Ublas.Blas.C59_swap_demo",
    "Ublas.Blas.C59_scal",
    "Ublas.Blas.C59_axpy",
    "Ublas.Blas.C59_axpy_self",
    "Ublas.Blas.C59_rot_partial",
    "Ublas.Blas.C59_rot_refuted",
    "Ublas.Blas.C59_rot_compressed",
    "Ublas.Blas.C59_tmv",
    "Ublas.Blas.C59_gmv",
    "Ublas.Blas.C59_gr_partial",
    "Ublas.Blas.C59_sr_partial",
    "Ublas.Blas.C59_hr_partial",
    "Ublas.Blas.C59_sr2_partial",
    "Ublas.Blas.C59_hr2_partial",
    "Ublas.Blas.C59_tmm",
    "Ublas.Blas.C59_gmm",
    "Ublas.Blas.C59_srk",
    "Ublas.Blas.C59_hrk",
    "Ublas.Blas.C59_sr2k",
    "Ublas.Blas.C59_hr2k",
    "Ublas.Blas.C59_tsv",
    "Ublas.Blas.C59_tsm"
   ],
   "note": "Dense targets, any operands, debug and release. rot on sparse vectors is refuted (it clears v2 before reading it). Rank updates with two dense vectors only in the default indexing mode (outer_prod iterators: C48). Not covered: swap, symmetric/hermitian targets, iterated evaluation of dense products over an empty inner dimension."
  },
  {
   "property": "C60",
   "status": "proved",
   "theorems": [
    "Ublas.C60_vector_of_vector",
    "Ublas.C60_rejects"
   ],
   "note": "generalized_vector_of_vector<T, L, vector<compressed_vector<T>>>, both orientations, any index base; lines of coordinate vectors are C126."
  },
  {
   "property": "C61",
   "status": "partial",
   "theorems": [
    "Ublas.C61_banded_resize_preserve_refuted",
    "Ublas.C61_banded_resize_shape_partial"
   ],
   "note": "banded_matrix::resize(preserve) is wrong in the code: refuted with out-of-bounds and value witnesses."
  },
  {
   "property": "C62",
   "status": "partial",
   "theorems": [
    "Ublas.C62_all_of_vector_partial",
    "Ublas.C62_all_of_proxy_refuted",
    "Ublas.C62_out_of_bounds"
   ],
   "note": "all() applied to a proxy is resolved with the underlying size in the code: refuted."
  },
  {
   "property": "C63",
   "status": "partial",
   "theorems": [
    "Ublas.C63_discarding_resize_partial",
    "Ublas.C63_discarding_resize_refuted"
   ],
   "note": "False of the code for unsorted contents in debug builds (refuted); proved from sorted contents."
  },
  {
   "property": "C64",
   "status": "partial",
   "theorems": [
    "Ublas.C64_push_back_partial",
    "Ublas.C64_push_back_after_pop_back_refuted"
   ],
   "note": "False of the code after pop_back (refuted); proved when the target row is the last opened one or later."
  },
  {
   "property": "C65",
   "status": "partial",
   "theorems": [
    "Ublas.C65_reverse_partial",
    "Ublas.C65_reverse_refuted"
   ],
   "note": "False of the code across the storage lines when trailing lines are empty (refuted); proved along storage lines."
  },
  {
   "property": "C66",
   "status": "partial",
   "theorems": [
    "Ublas.C66_triangular_partial",
    "Ublas.C66_banded",
    "Ublas.C66_refuted"
   ],
   "note": "false as stated: column-wise traversal of a tall strict (or mutable unit) lower triangular matrix, and row-wise traversal of a wide upper one, miss the last line; proved for all other shapes and for banded_matrix"
  },
  {
   "property": "C67",
   "status": "partial",
   "theorems": [
    "Ublas.C67_dense_partial",
    "Ublas.C67_refuted",
    "Ublas.C67_sparse_never_ends",
    "Ublas.C67_packed_zeros"
   ],
   "note": "False of the code for sparse and packed operands (refuted); proved for dense operands."
  },
  {
   "property": "C68",
   "status": "proved",
   "theorems": [
    "Ublas.C68_matrix_assign",
    "Ublas.C68_packed_target",
    "Ublas.C68_dense",
    "Ublas.C68_compressed",
    "Ublas.C68_triangular",
    "Ublas.C68_strict_lower_refuted",
    "Ublas.C68_range",
    "Ublas.C68_compressed_range",
    "Ublas.mview_supports",
    "Ublas.compressedMatrix_supports",
    "Ublas.tri_supports",
    "Ublas.MT.range_supports"
   ],
   "note": "Holds for every expression whose iterators visit its non-zero elements; C68_strict_lower_refuted shows what the traversal defect C66 does to an assignment. Targets: dense matrices and views, compressed_matrix, lower/upper triangular_matrix. Ranges of any dense or sparse target: C68_range, C68_compressed_range. Not modelled: the conformant-restricted dispatcher."
  },
  {
   "property": "C69",
   "status": "proved",
   "theorems": [
    "Ublas.LU.C69_determinant",
    "Ublas.LU.C38_pivoting"
   ],
   "note": ""
  },
  {
   "property": "C70",
   "status": "partial",
   "theorems": [
    "Ublas.Tens.C70_access",
    "Ublas.Tens.C70_wrong_rank",
    "Ublas.Tens.C70_from_array",
    "Ublas.Tens.C70_range_refuted"
   ],
   "note": "Valid multi-indices: read and write proved. A wrong number of indices throws. Refuted: an index beyond its own extent is accepted when its flat position is inside the container, e.g. t(n0,0,...) is t(0,1,...)."
  },
  {
   "property": "C71",
   "status": "partial",
   "theorems": [
    "Ublas.Tens.C71_same_layout_partial",
    "Ublas.Tens.C71_ne_refuted",
    "Ublas.Tens.C71_layout_refuted"
   ],
   "note": "Proved for tensors of one layout and fewer than 2^32 elements. != is not the negation of == (refuted), tensors of different layouts are compared in memory order (refuted)."
  },
  {
   "property": "C72",
   "status": "partial",
   "theorems": [
    "Ublas.Tens.C72_mixed_checked",
    "Ublas.Tens.C72_eval_same_layout_partial",
    "Ublas.Tens.C72_construct_same_layout_partial",
    "Ublas.Tens.C72_shapes",
    "Ublas.Tens.C72_scalar",
    "Ublas.Tens.C72_mixed_refuted",
    "Ublas.Tens.C72_large_refuted",
    "Ublas.Tens.C72_mixed_shapes_refuted"
   ],
   "note": "Proved for operands of one layout, any schedule of the loop, fewer than 2^32 elements. Refuted for mixed layouts (memory order) and for 2^32 or more elements (unsigned counter never reaches the size). Refuted for shapes inside an operand of another tensor type (only its last tensor is compared). Vector operands: C125; matrix operands do not compile when evaluated."
  },
  {
   "property": "C73",
   "status": "partial",
   "theorems": [
    "Ublas.Tens.C73_contraction_partial",
    "Ublas.Tens.C73_equal_partial",
    "Ublas.Tens.C73_wrong_rank",
    "Ublas.Tens.C73_disjoint_refuted"
   ],
   "note": "Contractions and equal label tuples proved; refuted when no label is shared: the operator is the element-wise product instead of the outer product."
  },
  {
   "property": "C74",
   "status": "proved",
   "theorems": [
    "Ublas.C74_vector",
    "Ublas.C74_matrix",
    "Ublas.C74_view",
    "Ublas.C74_dense_vector",
    "Ublas.C74_compressed_vector",
    "Ublas.C74_dense_matrix",
    "Ublas.C74_compressed_matrix",
    "Ublas.C74_triangular"
   ],
   "note": "Every evaluation mode and target category, for functions with F 0 = 0 (products with a scalar; quotients over a field); the implicit unit diagonal of a unit-triangular target stays 1."
  },
  {
   "property": "C75",
   "status": "partial",
   "theorems": [
    "Ublas.C75_across_release_partial",
    "Ublas.C75_find_element",
    "Ublas.C75_find_element_refuted",
    "Ublas.C75_across_debug",
    "Ublas.C75_across_reverse",
    "Ublas.C60_insert_past_end_refuted"
   ],
   "note": "Refuted: find_element never returns null (absent elements give a pointer to the shared zero); iterating across the lines throws external_logic in debug builds as soon as the line has an element (release visits exactly the stored elements); reverse iteration across the lines reads a past-the-end index; insert_element one line past the end writes outside memory."
  },
  {
   "property": "C76",
   "status": "partial",
   "theorems": [
    "Ublas.C76_zero_vector",
    "Ublas.C76_scalar_vector",
    "Ublas.C76_unit_vector_partial",
    "Ublas.C76_unit_vector_visits_outside",
    "Ublas.C76_unit_vector_refuted",
    "Ublas.C76_unit_vector_assigned",
    "Ublas.C76_zero_matrix",
    "Ublas.C76_identity_matrix_partial",
    "Ublas.C76_identity_columns_throw",
    "Ublas.C76_identity_columns_refuted",
    "Ublas.C76_scalar_matrix",
    "Ublas.C76_identity_assigned"
   ],
   "note": "Refuted: a unit_vector whose index lies outside (after a resize) still visits that index when iterated directly - assigning it throws or writes outside memory; column-wise iteration of any expression over a wide identity_matrix throws bad_index in debug builds."
  },
  {
   "property": "C77",
   "status": "partial",
   "theorems": [
    "Ublas.C77_c_matrix_release_partial",
    "Ublas.C77_c_matrix_step_partial",
    "Ublas.C77_c_matrix_capacity",
    "Ublas.C77_c_matrix_resize_throws",
    "Ublas.C77_c_matrix_refuted",
    "Ublas.C77_c_matrix_swap_partial",
    "Ublas.C77_c_matrix_swap_refuted",
    "Ublas.C77_c_vector",
    "Ublas.C77_c_vector_swap_partial",
    "Ublas.C77_c_vector_assign_partial",
    "Ublas.C77_c_vector_swap_refuted"
   ],
   "note": "Refuted: swap of c_vector/c_matrix demands equal sizes in debug builds and loses elements in release builds when the first is larger; therefore a preserving c_matrix::resize and an assignment of an expression of another size throw bad_size in debug builds. Proved: everything else, and release builds completely (except swap with a larger first operand)."
  },
  {
   "property": "C78",
   "status": "partial",
   "theorems": [
    "Ublas.C78_history_partial",
    "Ublas.C78_ctor",
    "Ublas.C78_history_refuted",
    "Ublas.C78_rejects_partial",
    "Ublas.C78_rejects_refuted",
    "Ublas.C78_walk",
    "Ublas.C78_iterator_rejects",
    "Ublas.C78_iterator_assign_refuted",
    "Ublas.C78_iterator_less_partial",
    "Ublas.C78_iterator_less_refuted"
   ],
   "note": "Refuted: (1) growing again after a reduction of the number of lines brings old values back in the first added line (the spare line is never cleared); (2) after a reduction positions in the first line outside are read without error in debug builds; (3) iterator assignment copies only the pointer, not the indices, so the assigned iterator goes on from the old position; (4) < across lines compares addresses of different allocations. Everything else is proved for all histories."
  },
  {
   "property": "C79",
   "status": "partial",
   "theorems": [
    "Ublas.C79_swap",
    "Ublas.C79_size_mismatch",
    "Ublas.C79_dense_views",
    "Ublas.C79_dense_sparse",
    "Ublas.C79_sparse_sparse",
    "Ublas.C79_compressed_lines",
    "Ublas.C79_matrix_views_partial",
    "Ublas.C79_matrix_sparse",
    "Ublas.C79_matrix_packed",
    "Ublas.C79_matrix_size_mismatch",
    "Ublas.C79_compressed_ranges",
    "Ublas.C79_triangular_ranges",
    "Ublas.C79_empty_refuted",
    "Ublas.C79_mixed_triangles_refuted"
   ],
   "note": "Vector views: dense/dense, dense/sparse, sparse/dense, sparse/sparse, two lines of one compressed_matrix. Matrix views: the dense case; refuted in debug for views of matrices without columns. Sparse matrix views: C79_matrix_sparse for any lawful disjoint pair, C79_compressed_ranges for ranges of two compressed matrices. Packed matrix views of one shape: C79_matrix_packed, C79_triangular_ranges; of different shapes refuted (C79_mixed_triangles_refuted). Packed vector views are C45."
  },
  {
   "property": "C80",
   "status": "partial",
   "theorems": [
    "Ublas.C80_read",
    "Ublas.C80_symmetric",
    "Ublas.C80_hermitian",
    "Ublas.C80_diagonal",
    "Ublas.C80_write",
    "Ublas.C80_write_hermitian",
    "Ublas.C80_write_hermitian_loose",
    "Ublas.C80_insert_hermitian",
    "Ublas.C80_line",
    "Ublas.C80_traverse",
    "Ublas.C80_jump",
    "Ublas.C80_step_back_partial",
    "Ublas.C80_jump_back_refuted",
    "Ublas.C80_reverse_partial",
    "Ublas.C80_reverse_refuted",
    "Ublas.C80_reverse_element_refuted",
    "Ublas.C80_distance_refuted"
   ],
   "note": "Element access, writes, forward traversal, forward jumps and distances proved for a dense adapted matrix. Refuted: reverse loops over every line but the first (end iterators do not know their line's other segment: they read the other triangle, then leave the matrix); -= across the diagonal raises external_logic in debug; begin - end is wrong. Sparse adapted matrices and the mutable iterators (which walk the triangle only) are not modelled here."
  },
  {
   "property": "C81",
   "status": "partial",
   "theorems": [
    "Ublas.C81_triangular_read",
    "Ublas.C81_triangular_write",
    "Ublas.C81_triangular_partial",
    "Ublas.C81_wide_refuted",
    "Ublas.C81_triangular_reverse_row",
    "Ublas.C81_banded_read",
    "Ublas.C81_banded_write",
    "Ublas.C81_banded"
   ],
   "note": "Refuted in debug builds: looping by columns (rows) over a lower (upper) adaptor of a matrix with at least two more columns (rows) than rows (columns) throws bad_index, because the inner iterator of a line wholly outside the triangle is placed beyond the matrix. Strict and unit triangles of the shapes of C66_refuted are excluded from the traversal theorem."
  },
  {
   "property": "C82",
   "status": "proved",
   "theorems": [
    "Ublas.C82_dense_views",
    "Ublas.C82_sparse_views",
    "Ublas.C82_window_spec",
    "Ublas.C82_mapped_views",
    "Ublas.C82_coordinate_views"
   ],
   "note": "const iterators of vector_range, vector_slice, vector_indirect over vector, compressed_vector, mapped_vector and coordinate_vector, any nesting; the pointer an iterator holds to its proxy is not modelled."
  },
  {
   "property": "C83",
   "status": "partial",
   "theorems": [
    "Ublas.C83_dense_views_partial",
    "Ublas.C83_dense_refuted",
    "Ublas.C83_dense_lines",
    "Ublas.C83_sparse_views"
   ],
   "note": "Refuted: a matrix_range with the empty column range at the right edge of a row-major matrix: its row iterators report the wrong rows. For compressed matrices backward iteration is proved along the major direction (the other direction: C65); diagonal-like views of sparse matrices are not stated."
  },
  {
   "property": "C84",
   "status": "proved",
   "theorems": [
    "Ublas.C84_triangular_views",
    "Ublas.C84_banded_views",
    "Ublas.C84_symmetric_views",
    "Ublas.C84_hermitian_views",
    "Ublas.C84_readable"
   ],
   "note": "const iterators (and mutable ones of symmetric_matrix). Strict triangles of shapes where C66 is refuted are excluded by hypothesis."
  },
  {
   "property": "C85",
   "status": "partial",
   "theorems": [
    "Ublas.C85_mapped_views_partial",
    "Ublas.C85_reverse_refuted",
    "Ublas.C85_mapped_instances"
   ],
   "note": "const iterators. Refuted: backwards, in debug builds every step back from an end iterator throws bad_index, in release builds reverse iterators of a line yield every position down to the first stored one, stored or not."
  },
  {
   "property": "C86",
   "status": "partial",
   "theorems": [
    "Ublas.C86_coordinate_views_partial",
    "Ublas.C86_reverse_refuted"
   ],
   "note": "const iterators. Refuted: backwards, in debug builds stepping back from end1/end2, and from the end of a line across the storage order, throws bad_index; along the storage order the first step back from the end of a line arrives at an element of the next line."
  },
  {
   "property": "C87",
   "status": "partial",
   "theorems": [
    "Ublas.C87_map_of_maps",
    "Ublas.C87_map_of_maps_std",
    "Ublas.C87_rejects",
    "Ublas.C87_unchecked_refuted"
   ],
   "note": "Refuted: the container performs no index check at all; in both build modes reading outside the matrix yields zero, writing outside succeeds and the value is read back. nnz() and nnz_capacity() do not compile when instantiated."
  },
  {
   "property": "C88",
   "status": "partial",
   "theorems": [
    "Ublas.C88_map_of_maps_iterators_partial",
    "Ublas.C88_absent_line_refuted",
    "Ublas.C88_reverse_refuted",
    "Ublas.C88_minor_refuted",
    "Ublas.C88_minor_square_refuted"
   ],
   "note": "default std::map storage; const iterators; views of lines, not matrix views. Refuted: a line never written shows the elements of the next line that was; reverse iteration across the storage order throws or is undefined; the nested loops against the storage order run past the end if the matrix is not square, and miss elements if it is."
  },
  {
   "property": "C89",
   "status": "partial",
   "theorems": [
    "Ublas.Tens.C89_equal",
    "Ublas.Tens.C89_unequal_partial",
    "Ublas.Tens.C89_unequal_refuted",
    "Ublas.Tens.C89_compare_partial",
    "Ublas.Tens.C89_compare_refuted",
    "Ublas.Tens.C89_inner_partial",
    "Ublas.Tens.C89_inner_refuted"
   ],
   "note": "Proved for every combination except two different extents of the same static rank. Refuted there: operator!= of two extents<n> is always false, so tensors of static rank with different shapes may compare equal, and inner_prod accepts them (reading past the second operand)."
  },
  {
   "property": "C90",
   "status": "partial",
   "theorems": [
    "Ublas.Tens.C90_get",
    "Ublas.Tens.C90_cat",
    "Ublas.Tens.C90_select",
    "Ublas.Tens.C90_set",
    "Ublas.Tens.C90_reverse",
    "Ublas.Tens.C90_accumulate",
    "Ublas.Tens.C90_product",
    "Ublas.Tens.C90_all_of",
    "Ublas.Tens.C90_any_of_partial",
    "Ublas.Tens.C90_any_of_refuted",
    "Ublas.Tens.C90_shapes_partial",
    "Ublas.Tens.C90_shapes_empty",
    "Ublas.Tens.C90_shapes_refuted",
    "Ublas.Tens.C90_strides",
    "Ublas.Tens.C90_strides_rejected"
   ],
   "note": "Refuted: any_of_v of an empty pack is true; for packs with a zero extent the compile-time and run-time shape predicates disagree. size_t products not wrapped. remove_element_t never compiles (not modelled)."
  },
  {
   "property": "C91",
   "status": "partial",
   "theorems": [
    "Ublas.Tens.C91_access",
    "Ublas.Tens.C91_single",
    "Ublas.Tens.C91_range_refuted",
    "Ublas.Tens.C91_from_matrix",
    "Ublas.Tens.C91_from_vector_partial",
    "Ublas.Tens.C91_from_vector_refuted",
    "Ublas.Tens.C91_from_tensor",
    "Ublas.Tens.C91_fill",
    "Ublas.Tens.C91_init",
    "Ublas.Tens.C91_init_static"
   ],
   "note": "Refuted: at(i1,i2,...) of a static tensor does not check its indices (documented to); a vector of length one is accepted for any static tensor of vector shape and leaves the other elements indeterminate."
  },
  {
   "property": "C92",
   "status": "partial",
   "theorems": [
    "Ublas.C92_c_array_view",
    "Ublas.C92_view_reads",
    "Ublas.C92_construct",
    "Ublas.C92_view_follows_values",
    "Ublas.C92_view_of_compressed_matrix",
    "Ublas.C92_incomplete_matrix_refuted",
    "Ublas.C92_indices_unchecked_refuted"
   ],
   "note": "The view checks no index, even in debug builds (refuted: a column outside reads zero, a row outside leaves the arrays); arrays of a compressed_matrix without complete_index1_data are not complete storage (refuted by a counterexample)."
  },
  {
   "property": "C93",
   "status": "proved",
   "theorems": [
    "Ublas.C93_lines",
    "Ublas.C93_iteration",
    "Ublas.C93_random_access",
    "Ublas.C93_history",
    "Ublas.C93_initial",
    "Ublas.C93_update_all"
   ],
   "note": "Over a dense matrix."
  },
  {
   "property": "C94",
   "status": "partial",
   "theorems": [
    "Ublas.Tens.C94_print",
    "Ublas.Tens.C94_print_scalar",
    "Ublas.Tens.C94_print_vector",
    "Ublas.Tens.C94_rank1_refuted",
    "Ublas.Tens.C94_default_refuted"
   ],
   "note": "Refuted: a tensor of rank one with two or more elements throws std::out_of_range, and a default-constructed tensor leaves its extents. Token level: how one element is written is left to the element type."
  },
  {
   "property": "C95",
   "status": "partial",
   "theorems": [
    "Ublas.Tens.C95_new_tensor_partial",
    "Ublas.Tens.C95_empty",
    "Ublas.Tens.C95_expression_partial",
    "Ublas.Tens.C95_large_refuted"
   ],
   "note": "Proved for every expression over tensors of one layout with fewer than 2^32 elements. Refuted for 2^32 or more elements: the unsigned int loop counter wraps around and the call never returns."
  },
  {
   "property": "C96",
   "status": "proved",
   "theorems": [
    "Ublas.C96_matrix_no_false_alarm",
    "Ublas.C96_matrix_packed",
    "Ublas.C96_vector_no_false_alarm",
    "Ublas.C96_vector_packed",
    "Ublas.C96_compressed_matrix",
    "Ublas.C96_compressed_vector",
    "Ublas.C96_triangular",
    "Ublas.C96_triangular_row"
   ],
   "note": "The comparison is a parameter (Sound: it accepts equal results), instantiated with the exact one and with the headers' norm_inf(a-b) <= eps * max(norms, min_norm) rule. C96_triangular: accepted iff nothing outside the triangle is lost, else external_logic."
  },
  {
   "property": "C97",
   "status": "partial",
   "theorems": [
    "Ublas.LU.C97_factorize",
    "Ublas.LU.C97_factorize_pivot",
    "Ublas.LU.C97_axpy",
    "Ublas.LU.C97_substitute",
    "Ublas.LU.C97_rectangular_refuted",
    "Ublas.LU.C97_rectangular_pivot_refuted"
   ],
   "note": "Square matrices: the self-check always passes. Refuted for rectangular ones: the check multiplies two adaptors of the rectangular matrix, whose inner sizes differ, so a debug build raises bad_argument for every factorisable non-square matrix."
  },
  {
   "property": "C98",
   "status": "partial",
   "theorems": [
    "Ublas.Axpy.C98_matrix_vector",
    "Ublas.Axpy.C98_vector_matrix",
    "Ublas.Axpy.C98_compressed_vector",
    "Ublas.Axpy.C98_vector_compressed",
    "Ublas.Axpy.C98_matrix_matrix",
    "Ublas.Axpy.C98_opb",
    "Ublas.Axpy.C98_restricted_partial",
    "Ublas.Axpy.C98_restricted_refuted",
    "Ublas.Axpy.C98_compressed_matrix"
   ],
   "note": "Exact arithmetic in the comparison. Refuted for axpy_prod with a triangular restriction into a sparse matrix: the check compares with the unrestricted product and raises internal_logic whenever the product is non-zero outside the restriction."
  },
  {
   "property": "C99",
   "status": "proved",
   "theorems": [
    "Ublas.Adaptor.C99_value_semantics",
    "Ublas.Adaptor.C99_all_destroyed",
    "Ublas.Adaptor.C99_out_of_range_rejected"
   ],
   "note": "On an explicit heap that also holds the program's arrays; pointers handed over are starts of program arrays that live as long as the adaptor."
  },
  {
   "property": "C100",
   "status": "proved",
   "theorems": [
    "Ublas.C100_compare",
    "Ublas.C100_mapped_vector",
    "Ublas.C100_mapped_matrix",
    "Ublas.C100_mapped_instances",
    "Ublas.C100_compressed_vector",
    "Ublas.C100_compressed_matrix",
    "Ublas.C100_coordinate_vector",
    "Ublas.C100_coordinate_matrix",
    "Ublas.C100_out_of_range"
   ],
   "note": "The strict proxies (sparse_vector_element, sparse_matrix_element), which are the default; the statements combine at most two elements of one container each. std::map of the mapped containers is either map_array or std::map."
  },
  {
   "property": "C101",
   "status": "partial",
   "theorems": [
    "Ublas.C101_vector",
    "Ublas.C101_matrix",
    "Ublas.C101_vector_partial",
    "Ublas.C101_matrix_partial",
    "Ublas.C101_self_scale_refuted",
    "Ublas.C101_compressed_vector_insert",
    "Ublas.C101_compressed_matrix_insert",
    "Ublas.C101_self_insert_refuted",
    "Ublas.C101_coordinate_vector_insert",
    "Ublas.C101_coordinate_matrix_insert",
    "Ublas.C101_coordinate_insert_refuted"
   ],
   "note": "Refuted: elements visited after v(k) are combined with its new value; insert_element into compressed containers reads the value after shifting (another element's value) or after freeing it (capacity exhausted). The exact behaviour is proved for every case. Coordinate containers: right with room and a reference just obtained; refuted when the debug duplicate check sorts in between, or without room."
  },
  {
   "property": "C102",
   "status": "partial",
   "theorems": [
    "Ublas.C102_statements_partial",
    "Ublas.C102_block_partial",
    "Ublas.C102_adaptor_partial",
    "Ublas.C102_refuted"
   ],
   "note": "Refuted: m(i,j) = m(j,i) = x leaves m(i,j) = conj x when the right operand is evaluated first (C++17); two names of one element, or of an element and its mirror image, lose updates. Everything else proved."
  },
  {
   "property": "C103",
   "status": "partial",
   "theorems": [
    "Ublas.C103_vector_assign_partial",
    "Ublas.C103_matrix_assign_partial",
    "Ublas.C103_prod_partial",
    "Ublas.C103_empty_refuted",
    "Ublas.C103_large_refuted"
   ],
   "note": "Equal for positive sizes up to d times the range of unsigned. Refuted: with size 0 the body runs d*2^32 times and reads an element that does not exist; sizes above d*2^32 are cut short."
  },
  {
   "property": "C104",
   "status": "partial",
   "theorems": [
    "Ublas.Exc.C104_alloc_failure",
    "Ublas.Exc.C104_history",
    "Ublas.Exc.C104_element_partial",
    "Ublas.Exc.C104_resize_element_refuted",
    "Ublas.Exc.C104_ctor_leak_refuted"
   ],
   "note": "Allocation failures: strong guarantee and no leaks, proved for every history. Element failures: refuted for resize with a changed size (destroying the array afterwards destroys elements never constructed) and for leaks in throwing constructors; proved for everything else."
  },
  {
   "property": "C105",
   "status": "partial",
   "theorems": [
    "Ublas.XC.C105_assign_otherwise",
    "Ublas.XC.C105_cmatrix_insert_otherwise",
    "Ublas.XC.C105_coordinate_append_otherwise",
    "Ublas.XC.C105_compressed_otherwise",
    "Ublas.XC.C105_cmatrix_otherwise",
    "Ublas.XC.C105_coordinate_otherwise",
    "Ublas.XC.C105_dense_resize",
    "Ublas.XC.C105_dense_expression",
    "Ublas.XC.C105_triangular_resize",
    "Ublas.XC.C105_symmetric_resize",
    "Ublas.XC.C105_banded_resize",
    "Ublas.XC.C105_dense_assign_partial",
    "Ublas.XC.C105_dense_assign_refuted",
    "Ublas.XC.C105_packed_assign_refuted",
    "Ublas.XC.C105_symmetric_assign_refuted",
    "Ublas.XC.C105_banded_assign_refuted",
    "Ublas.XC.C105_compressed_reserve_partial",
    "Ublas.XC.C105_compressed_retry_refuted",
    "Ublas.XC.C105_compressed_assign_refuted",
    "Ublas.XC.C105_compressed_resize_refuted",
    "Ublas.XC.C105_cmatrix_reserve_partial",
    "Ublas.XC.C105_cmatrix_retry_refuted",
    "Ublas.XC.C105_cmatrix_resize_partial",
    "Ublas.XC.C105_cmatrix_resize_refuted",
    "Ublas.XC.C105_cmatrix_assign_refuted",
    "Ublas.XC.C105_coordinate_reserve_partial",
    "Ublas.XC.C105_coordinate_retry_refuted",
    "Ublas.XC.C105_coordinate_assign_refuted"
   ],
   "note": "Resizing dense, packed and banded matrices and assigning expressions: strong guarantee proved. Refuted: copy assignment sets the dimensions before the storage is obtained (reads outside the array afterwards); compressed_vector, compressed_matrix and the coordinate containers set capacity_, sizes and filled counts before their arrays are resized (a retried insertion writes outside the arrays, reads after a failed assignment are outside the arrays). Proved for them: after a failed reserve every element reads as before; a failed compressed_matrix resize can be repeated."
  },
  {
   "property": "C106",
   "status": "partial",
   "theorems": [
    "Ublas.Tens.Life.C106_dynamic",
    "Ublas.Tens.Life.C106_static_rank_partial",
    "Ublas.Tens.Life.C106_moved_from_refuted",
    "Ublas.Tens.Life.C106_copy_empty_refuted",
    "Ublas.Tens.Life.C106_from_vector_refuted"
   ],
   "note": "Dynamic extents: proved for every program. Fixed number of extents: refuted for moved-from tensors (extents stay, elements are gone), for copies of default constructed tensors in builds with assert, and for construction of a one-extent tensor from a vector (always throws); proved for programs that avoid these."
  },
  {
   "property": "C107",
   "status": "partial",
   "theorems": [
    "Ublas.C107_dense",
    "Ublas.C107_vector_views",
    "Ublas.C107_matrix_views",
    "Ublas.C107_matrix_lines",
    "Ublas.C107_structured",
    "Ublas.C107_adaptors",
    "Ublas.C107_mapped_partial",
    "Ublas.C107_mapped_vector_insert_refuted",
    "Ublas.C107_compressed_vector_partial",
    "Ublas.C107_compressed_vector_full_refuted",
    "Ublas.C107_coordinate_vector",
    "Ublas.C107_coordinate_matrix_refuted",
    "Ublas.C107_compressed_matrix_partial",
    "Ublas.C107_compressed_matrix_read_refuted",
    "Ublas.C107_compressed_matrix_write_refuted",
    "Ublas.C107_vector_of_vector_partial",
    "Ublas.C107_vector_of_vector_insert_refuted"
   ],
   "note": "Proved for dense, structured and coordinate vectors, all views and adaptors, mapped_matrix. Refuted: mapped_vector::insert_element and coordinate_matrix accept elements outside; compressed_matrix reads (zero) and writes (stored) outside columns; compressed_vector::insert_element on a full vector and vector_of_vector::insert_element one line past the end have undefined behaviour in debug builds. See also C87_unchecked_refuted (map of maps) and C78_rejects (dense vector_of_vector)."
  },
  {
   "property": "C108",
   "status": "partial",
   "theorems": [
    "Ublas.C108_dense_matrix",
    "Ublas.C108_views",
    "Ublas.C108_structured",
    "Ublas.C108_adaptors",
    "Ublas.C108_compressed_vector",
    "Ublas.C108_compressed_matrix",
    "Ublas.C108_vector_of_vector",
    "Ublas.C108_mapped",
    "Ublas.C108_coordinate_refuted",
    "Ublas.C108_coordinate_vector_partial",
    "Ublas.C108_coordinate_matrix_partial",
    "Ublas.C108_coordinate_values"
   ],
   "note": "Proved for every container except the coordinate ones, whole histories from any state. Coordinate containers: refuted, insert_element sorts and sums duplicates in debug builds only, so nnz () differs; proved for histories without insert_element, and for element values in legal histories with it."
  },
  {
   "property": "C109",
   "status": "partial",
   "theorems": [
    "Ublas.C109_mapped_elements",
    "Ublas.C109_packed_element",
    "Ublas.C109_packed_size",
    "Ublas.C109_banded_partial",
    "Ublas.C109_banded_refuted",
    "Ublas.C109_key_checked",
    "Ublas.C109_key_injective",
    "Ublas.C109_mapped_refuted",
    "Ublas.C109_restrict_capacity",
    "Ublas.C109_tensor_partial",
    "Ublas.C109_tensor_refuted"
   ],
   "note": "Packed matrices below 2^32, capacities and debug-mode map keys: proved. Refuted: banded_matrix and tensors accept sizes whose cell count wraps (no check in any build); mapped_matrix in release builds shares one key between different elements. Proved for those when the count is below 2^64. C02 and C03 cover dense storage and triangular_size."
  },
  {
   "property": "C110",
   "status": "partial",
   "theorems": [
    "Ublas.C110_assign",
    "Ublas.C110_op_assign",
    "Ublas.C110_view_assign",
    "Ublas.C110_view_op_assign",
    "Ublas.C110_compressed_assign",
    "Ublas.C110_noalias_partial",
    "Ublas.C110_noalias_refuted",
    "Ublas.C110_view_copy_partial",
    "Ublas.C110_range_copy_partial",
    "Ublas.C110_range_copy_refuted",
    "Ublas.C110_slice_copy_refuted"
   ],
   "note": "The forms with a temporary are proved for every right-hand side (any function of the old contents); noalias and the copy assignment of views under the condition that no cell is read after it was overwritten (for ranges: the source does not begin before the target, or the blocks are disjoint).  The copy assignment of overlapping ranges and slices is refuted."
  },
  {
   "property": "C111",
   "status": "partial",
   "theorems": [
    "Ublas.OpenCL.C111_trans_partial",
    "Ublas.OpenCL.C111_change_layout_partial",
    "Ublas.OpenCL.C111_trans_host_partial",
    "Ublas.OpenCL.C111_in_place_refuted",
    "Ublas.OpenCL.C111_layout_refuted",
    "Ublas.OpenCL.C111_size_refuted"
   ],
   "note": "Proved for row_major/column_major, fewer than 2^32 elements and result different from the argument, for every interleaving. The rest is false of the code: in place the outcome depends on the schedule (no assertion), a row-major layout with other size types is treated as column-major, indices are 32-bit."
  },
  {
   "property": "C112",
   "status": "partial",
   "theorems": [
    "Ublas.OpenCL.C112_prod_partial",
    "Ublas.OpenCL.C112_prod_vector_partial",
    "Ublas.OpenCL.C112_vector_prod_partial",
    "Ublas.OpenCL.C112_outer_prod_partial",
    "Ublas.OpenCL.C112_prod_host_partial",
    "Ublas.OpenCL.C112_in_place_refuted",
    "Ublas.OpenCL.C112_result_size_refuted"
   ],
   "note": "Proved for row_major/column_major operands (also mixed) and a result of the right size in its own buffer; clBLAS gemm is modelled by its documented effect, one item per element of the result, any interleaving. False when the result is an operand (it is zeroed first) and for a host result of another size (not resized, overrun)."
  },
  {
   "property": "C113",
   "status": "partial",
   "theorems": [
    "Ublas.OpenCL.C113_element_wise_partial",
    "Ublas.OpenCL.C113_element_wise_vector_partial",
    "Ublas.OpenCL.C113_scalar",
    "Ublas.OpenCL.C113_host_partial",
    "Ublas.OpenCL.C113_layout_refuted",
    "Ublas.OpenCL.C113_result_size_refuted"
   ],
   "note": "Proved, also in place, for operands and result of one orientation and size. False for operands of different layout, which the template accepts and pairs by memory position, and for a smaller result, whose size is not checked (overrun). The device version of element_sub (matrix, matrix, result) (opencl/elementwise.hpp:226-233) passes its arguments in the wrong order and does not compile."
  },
  {
   "property": "C114",
   "status": "partial",
   "theorems": [
    "Ublas.Threads.C114_compressed_vector",
    "Ublas.Threads.C114_compressed_matrix",
    "Ublas.Threads.C114_dense",
    "Ublas.Threads.C114_vector",
    "Ublas.Threads.C114_triangular",
    "Ublas.Threads.C114_symmetric",
    "Ublas.Threads.C114_banded",
    "Ublas.Threads.C114_hermitian",
    "Ublas.Threads.C114_coordinate_partial",
    "Ublas.Threads.C114_coordinate_matrix_partial",
    "Ublas.Threads.C114_coordinate_matrix_refuted",
    "Ublas.Threads.C114_coordinate_alone",
    "Ublas.Threads.C114_coordinate_refuted"
   ],
   "note": "Dense vector and matrix, triangular, symmetric, hermitian and banded matrix, compressed_vector and compressed_matrix: proved for every reachable container, every set of reading threads and every interleaving. coordinate_vector and coordinate_matrix: proved when already sorted; false otherwise (const readers sort the mutable arrays: a schedule of two readers is exhibited in which one obtains a wrong value). A memory access is one atomic step (sequential consistency)."
  },
  {
   "property": "C115",
   "status": "partial",
   "theorems": [
    "Ublas.Threads.C115_dense",
    "Ublas.Threads.C115_vector",
    "Ublas.Threads.C115_triangular",
    "Ublas.Threads.C115_banded",
    "Ublas.Threads.C115_symmetric_partial",
    "Ublas.Threads.C115_symmetric_names_partial",
    "Ublas.Threads.C115_hermitian_partial",
    "Ublas.Threads.C115_hermitian_refuted",
    "Ublas.Threads.C115_symmetric_refuted",
    "Ublas.Threads.C115_compressed_partial",
    "Ublas.Threads.C115_compressed_refuted"
   ],
   "note": "Dense vectors and matrices, triangular and banded matrices: proved for every interleaving. symmetric_matrix and hermitian_matrix: proved when every element is used under one of its two names, and when one thread owns both names and uses either; false when two threads own the two names of one element. compressed_vector: proved for elements that are already stored; false when threads assign to different elements that are not stored (insertion shifts the shared arrays: a lost update is exhibited)."
  },
  {
   "property": "C116",
   "status": "proved",
   "theorems": [
    "Ublas.Ser.C116_vector",
    "Ublas.Ser.C116_bounded_vector",
    "Ublas.Ser.C116_matrix",
    "Ublas.Ser.C116_vector_of_vector",
    "Ublas.Ser.C116_c_vector",
    "Ublas.Ser.C116_c_matrix",
    "Ublas.Ser.C116_constant",
    "Ublas.Ser.C116_mapped_vector",
    "Ublas.Ser.C116_mapped_matrix",
    "Ublas.Ser.C116_map_of_maps",
    "Ublas.Ser.C116_compressed_vector",
    "Ublas.Ser.C116_compressed_matrix",
    "Ublas.Ser.C116_coordinate_vector",
    "Ublas.Ser.C116_coordinate_matrix",
    "Ublas.Ser.C116_generalized_vector_of_vector",
    "Ublas.Ser.C116_fixed_vector",
    "Ublas.Ser.C116_fixed_matrix",
    "Ublas.Ser.C116_sequence"
   ],
   "note": "Archives are sequences of primitive values; the serializers of built-in arrays and std::map (external) are modelled by their documented effect. A std::array is written as a built-in array."
  },
  {
   "property": "C117",
   "status": "partial",
   "theorems": [
    "Ublas.Ser.C117_dense_partial",
    "Ublas.Ser.C117_fixed_partial",
    "Ublas.Ser.C117_constant_partial",
    "Ublas.Ser.C117_mapped_std_partial",
    "Ublas.Ser.C117_map_array_partial",
    "Ublas.Ser.C117_matrix_refuted",
    "Ublas.Ser.C117_c_matrix_refuted",
    "Ublas.Ser.C117_sparse_refuted",
    "Ublas.Ser.C117_map_array_refuted",
    "Ublas.Ser.C117_map_of_maps_refuted"
   ],
   "note": "Proved for vector, bounded_vector, c_vector, the constant containers and the mapped containers over std::map (element access). False as stated: matrix, vector_of_vector, the compressed and the coordinate containers set sizes and counts before the arrays are read, so a truncated archive leaves a container whose elements have no storage (undefined behaviour on the next read); c_matrix does not compare the sizes with its extents; map_array keeps stale keys; mapped_vector_of_mapped_vector loses its sentinel line. Allocation failure while loading is not modelled."
  },
  {
   "property": "C118",
   "status": "partial",
   "theorems": [
    "Ublas.C118_vector_constructors",
    "Ublas.C118_vector_history",
    "Ublas.C118_vector_mismatch",
    "Ublas.FMat.C118_matrix_constructors",
    "Ublas.FMat.C118_matrix_history",
    "Ublas.FMat.C118_matrix_mismatch",
    "Ublas.FMat.C118_matrix_traverse",
    "Ublas.C118_release_sizes_refuted",
    "Ublas.C118_empty_refuted"
   ],
   "note": "Everything is proved for histories whose right-hand sides have the right size. False of the code: without checks an expression of another size is not refused (a shorter one is read outside its storage, a longer one is cut), and fixed_vector::empty () returns a const bool & bound to the temporary that std::array::empty returned, so reading it is undefined. fixed_matrix::operator= (const matrix_container &) calls a member resize that does not exist; it cannot be instantiated and is not modelled."
  },
  {
   "property": "C119",
   "status": "partial",
   "theorems": [
    "Ublas.RVec.C119_random_access_partial",
    "Ublas.RVec.C119_reverse_partial",
    "Ublas.RVec.C119_selector",
    "Ublas.RVec.C119_end_refused_partial",
    "Ublas.RVec.C119_distance_refuted",
    "Ublas.RVec.C119_subscript_refuted",
    "Ublas.RVec.C119_line_end_refuted"
   ],
   "note": "Proved: moves, comparisons, index, element and subscript for all these iterators and their reverses, every difference except negative ones along a line that strides over storage, and bad_index at the end. False of the code: distance_i/distance_j divide a signed offset by an unsigned size, so a negative difference of row-major iterator1 (column-major iterator2) is a huge number; vector::iterator::operator [] does not check (its documentation says it does); * at the end of a contiguous matrix row or column passes the index checks and reads the next line."
  },
  {
   "property": "C120",
   "status": "proved",
   "theorems": [
    "Ublas.C120_storage_order",
    "Ublas.C120_empty",
    "Ublas.C120_sizes",
    "Ublas.C120_defined",
    "Ublas.C120_trans",
    "Ublas.C120_views"
   ],
   "note": "Constness of iterators is not distinguished. For proxies the leading size is the one of the proxy (an example in Props/Oriented.lean), so it is not the distance between lines in storage; the property does not claim it."
  },
  {
   "property": "C121",
   "status": "partial",
   "theorems": [
    "Ublas.Tens.MI.C121_labels",
    "Ublas.Tens.MI.C121_has_index",
    "Ublas.Tens.MI.C121_valid",
    "Ublas.Tens.MI.C121_position",
    "Ublas.Tens.MI.C121_pairs",
    "Ublas.Tens.MI.C121_pairs_valid",
    "Ublas.Tens.MI.C121_number",
    "Ublas.Tens.MI.C121_make",
    "Ublas.Tens.MI.C121_at",
    "Ublas.Tens.MI.C121_to_vector_partial",
    "Ublas.Tens.MI.C121_to_vector_refuted",
    "Ublas.Tens.MI.C121_einstein"
   ],
   "note": "Everything is proved except array_to_vector for multi-indices of different sizes, where the claim is false: the two loop bounds are exchanged and the call throws std::out_of_range, whatever the labels."
  },
  {
   "property": "C122",
   "status": "proved",
   "theorems": [
    "Ublas.Shallow.C122_shared_elements",
    "Ublas.Shallow.C122_all_destroyed",
    "Ublas.Shallow.C122_out_of_range"
   ],
   "note": "The class exists only with BOOST_UBLAS_SHALLOW_ARRAY_ADAPTOR. boost::shared_array is modelled by its documented reference counts; a pointer handed over is the start of an array of the program; std::copy of an array onto itself is a no-op; new does not throw."
  },
  {
   "property": "C123",
   "status": "partial",
   "theorems": [
    "Ublas.OpenCL.C123_mismatch_partial",
    "Ublas.OpenCL.C123_host",
    "Ublas.OpenCL.C123_result_refuted",
    "Ublas.OpenCL.C123_result_vector_refuted"
   ],
   "note": "Operand mismatches are refused by all operations. Refuted: element_wise (and element_add, element_prod, element_div built on it) never looks at the size of the result; with a smaller result every schedule writes behind the end of its buffer, also in debug builds."
  },
  {
   "property": "C124",
   "status": "partial",
   "theorems": [
    "Ublas.RVec.C124_random_access_partial",
    "Ublas.RVec.C124_reverse_partial",
    "Ublas.RVec.C124_selector_partial",
    "Ublas.RVec.C124_end_refused_partial",
    "Ublas.RVec.C124_matrix_range_partial",
    "Ublas.RVec.C124_range_refuted",
    "Ublas.RVec.C124_range_never_refuted",
    "Ublas.RVec.C124_selector_refuted",
    "Ublas.RVec.C124_matrix_range_refuted"
   ],
   "note": "Proved for every expression whose ranges start at 0 (unlike the default build, differences of both signs and the end of every line are right). Refuted: every non-empty vector_range, basic_range and matrix_range with a start above 0 hands out iterators whose counter is the index in the container behind but is used as an index of the range: wrong elements, then bad_index (or reads outside in release builds)."
  },
  {
   "property": "C125",
   "status": "partial",
   "theorems": [
    "Ublas.Tens.C125_combine_partial",
    "Ublas.Tens.C125_shorter_refuted",
    "Ublas.Tens.C125_longer_refuted"
   ],
   "note": "Proved for vectors with as many elements as the tensor, any tensor expression of one layout, any schedule, fewer than 2^32 elements. Refuted: the size of the vector is never compared; a shorter one is read behind its end (bad_index in the middle of the loop, or undefined behaviour), a longer one is cut."
  },
  {
   "property": "C126",
   "status": "partial",
   "theorems": [
    "Ublas.C126_coordinate_lines_partial",
    "Ublas.C126_shrink_refuted"
   ],
   "note": "Proved for every history in which a preserving resize to fewer lines finds the first line it drops sorted. Refuted otherwise in debug builds: that line keeps sorted_ = false with no elements and its consistency check fails."
  },
  {
   "property": "C127",
   "status": "proved",
   "theorems": [
    "Ublas.C127_is_hermitian",
    "Ublas.C127_is_symmetric",
    "Ublas.C127_symmetric_matrix",
    "Ublas.C127_hermitian_matrix",
    "Ublas.C127_diagonal_refuted"
   ],
   "note": "Proved in full. The last theorem is an example of a hermitian_matrix which is not hermitian: a diagonal element that is not its own conjugate is stored as given."
  },
  {
   "property": "C128",
   "status": "partial",
   "theorems": [
    "Ublas.Tens.C128_scalar",
    "Ublas.Tens.C128_expressions_partial",
    "Ublas.Tens.C128_shapes",
    "Ublas.Tens.C128_ne_refuted",
    "Ublas.Tens.C128_large_refuted"
   ],
   "note": "Proved: the six relations with a scalar on either side, for every tensor expression of one layout with fewer than 2^32 elements; two expressions of one layout. Refuted: != is true only if every element differs, so == and != can both be false; from 2^32 elements on the unsigned counter of the comparison wraps around and it never ends."
  },
  {
   "property": "C129",
   "status": "partial",
   "theorems": [
    "Ublas.RVec.C129_random_access_partial",
    "Ublas.RVec.C129_reverse_partial",
    "Ublas.RVec.C129_end_refused_partial",
    "Ublas.RVec.C129_distance_refuted",
    "Ublas.RVec.C129_line_end_refuted"
   ],
   "note": "Proved: everything for rows, and for columns everything but negative differences; the end of columns and of rows shorter than the capacity is noticed. Refuted: the signed offset between two iterator1 is divided by the unsigned capacity, so a negative difference is a huge number; the end of a row as long as the capacity passes the checks of * and reads the next row."
  },
  {
   "property": "C130",
   "status": "partial",
   "theorems": [
    "Ublas.C130_kinds",
    "Ublas.C130_triangular",
    "Ublas.C130_triangular_rejects",
    "Ublas.C130_symmetric_partial",
    "Ublas.C130_symmetric_rejects",
    "Ublas.C130_symmetric_refuted",
    "Ublas.C130_hermitian_partial",
    "Ublas.C130_hermitian_rejects"
   ],
   "note": "Triangular: proved. Symmetric and hermitian: proved for the stored triangle; in the other triangle symmetric_matrix::at_element throws (checks on) or changes an unrelated element (checks off), and hermitian_matrix::at_element throws. In dense, fixed and banded matrices operator () and at_element are one piece of code (C04, C11)."
  },
  {
   "property": "C131",
   "status": "partial",
   "theorems": [
    "Ublas.OpenCL.C131_norms_partial",
    "Ublas.OpenCL.C131_norms_host_partial",
    "Ublas.OpenCL.C131_complex",
    "Ublas.OpenCL.C131_complex_refuted",
    "Ublas.OpenCL.C131_empty_refuted",
    "Ublas.OpenCL.C131_inner_prod",
    "Ublas.OpenCL.C131_inner_prod_mismatch",
    "Ublas.OpenCL.C131_inner_prod_host"
   ],
   "note": "Proved for non-empty vectors of real elements, and inner_prod for all; refuted for empty vectors (every type, every memory) and for the imaginary part of complex results (exact result given). clBLAS and Boost.Compute by their documented effect."
  },
  {
   "property": "C132",
   "status": "partial",
   "theorems": [
    "Ublas.C132_compressed_vector",
    "Ublas.C132_compressed_matrix",
    "Ublas.C132_coordinate_vector",
    "Ublas.C132_coordinate_matrix",
    "Ublas.C132_vector_of_vector",
    "Ublas.C132_vector_of_coordinate_vectors",
    "Ublas.C132_map_of_maps",
    "Ublas.C132_mapped_vector",
    "Ublas.C132_mapped_matrix",
    "Ublas.C132_matrix",
    "Ublas.C132_triangular_matrix",
    "Ublas.C132_banded_matrix",
    "Ublas.C132_symmetric_matrix",
    "Ublas.C132_hermitian_matrix_partial",
    "Ublas.C132_mapped_vector_map_array_partial",
    "Ublas.C132_mapped_matrix_map_array_partial",
    "Ublas.C132_map_array_copy_refuted"
   ],
   "note": "Proved for matrix, triangular, banded, symmetric, compressed, coordinate and vector-of-compressed-vector containers and the mapped ones over std::map; hermitian with erase_element at stored positions; over map_array without copy construction, which is refuted. unbounded_array itself, on which vector rests, is C16."
  },
  {
   "property": "C133",
   "status": "partial",
   "theorems": [
    "Ublas.C133_vector_partial",
    "Ublas.C133_bounded_vector_partial",
    "Ublas.C133_rejects",
    "Ublas.C133_zero_initialised_refuted",
    "Ublas.C133_zero_initialised_partial",
    "Ublas.C133_demo"
   ],
   "note": "Proved with elements nobody wrote left unspecified; refuted: the documented zero initialisation of vector (n) for trivially constructible elements."
  },
  {
   "property": "C134",
   "status": "proved",
   "theorems": [
    "Ublas.C134_matrix",
    "Ublas.C134_bounded_matrix",
    "Ublas.C134_rejects",
    "Ublas.C134_demo"
   ],
   "note": "Elements nobody wrote are left unspecified; the documented zero fill is refuted at C05."
  },
  {
   "property": "C135",
   "status": "partial",
   "theorems": [
    "Ublas.C135_strict_references_partial",
    "Ublas.C135_delayed_write_refuted",
    "Ublas.C135_demo"
   ],
   "note": "Proved for all statements that do not use, through a second reference, an element they have just changed; for those refuted."
  }
 ]
}