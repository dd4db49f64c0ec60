def U(*n): return ["Ublas."+x for x in n]
T['C01']=("proved",U("C01_dense_layout_bijection","C01_element_rejects"),"Bijection for all shapes, both orientations, both build modes.")
T['C04']=("proved",U("C04_filled","C04_read_after_write","C04_out_of_range_rejected","C04_history","C04_initial"),"Refinement for all histories of insert/erase/clear/resize.")
T['C05']=("partial",U("C05_resize_preserve_partial","C05_zero_fill_refuted"),"Preservation proved; the documented zero filling of new elements is false of the code (uninitialised storage) and refuted.")
T['C02']=("proved",U("C02_storage_size_exact","C02_element_no_wrap"),"64-bit machine arithmetic.")
T['C03']=("partial",U("C03_triangular_size_partial","C03_refuted"),"The overflow guard divides before adding one and lets n=2^32 wrap: refuted; exact below.")
T['C49']=("partial",U("C49_traverse12","C49_traverse21","C49_traverse12_no_columns","C49_iterator_arith_partial","C49_iterator_arith_columns_partial","C49_negative_distance_refuted"),"Traversal proved; negative differences of the minor-direction iterators are wrong in the code and refuted.")
T['C06']=("proved",U("C06_packed_layout","C06_packed_size"),"All six structures, both orientations, both build modes, any n>0.")
T['C07']=("proved",U("C07_history","C07_initial","C07_write_outside_rejected"),"Refinement over all legal histories.")
T['C08']=("partial",U("C08_rectangular_partial","C08_refuted","C08_rejected_exactly"),"With checks on, unit/strict rectangular matrices reject some of their own elements: refuted, with the exact rejected set.")
T['C09']=("proved",U("C09_symmetric_history"),"Refinement over all legal histories.")
T['C10']=("partial",U("C10_hermitian_history_partial","C10_erase_refuted","C10_assign_outside_rejected","C10_assign_inside"),"erase_element outside the stored triangle is wrong in the code: refuted; everything else proved (element writes through the proxies of the default configuration; the rejection theorem is for builds with BOOST_UBLAS_NO_ELEMENT_PROXIES).")
T['C11']=("proved",U("C11_band_layout","C11_off_band_rejected","C11_history"),"Any shape and bandwidths; non-preserving resize only (preserving resize is C61).")
T['C61']=("partial",U("C61_banded_resize_preserve_refuted","C61_banded_resize_shape_partial"),"banded_matrix::resize(preserve) is wrong in the code: refuted with out-of-bounds and value witnesses.")
T['C12']=("proved",U("C12_range_compose","C12_slice_compose","C12_slice_compose_range","C12_slice_assoc","C12_range_assoc","C12_identity","C12_slice_iterator"),"Any start and any (zero, negative) stride whose addressed indices are valid; associativity of slices modulo 2^64 in release builds.")
T['C13']=("partial",U("C13_indirect_compose","C13_selector_compose_partial","C13_empty_rejected_refuted"),"Complete for indirect arguments; for range/slice arguments exact when non-empty; empty ranges starting beyond the end are rejected although no index is invalid (refuted).")
T['C14']=("proved",U("C14_vector_proxy","C14_project","C14_selector_injective"),"Arbitrary nesting depth; project with explicit non-empty selectors (all() is C62).")
T['C15']=("proved",U("C15_matrix_proxy","C15_matrix_vector_proxy","C15_views","C15_project"),"Arbitrary nesting depth.")
T['C62']=("partial",U("C62_all_of_vector_partial","C62_all_of_proxy_refuted","C62_out_of_bounds"),"all() applied to a proxy is resolved with the underlying size in the code: refuted.")
T['C16']=("proved",U("C16_unbounded_value_semantics","C16_all_destroyed_all_freed","C16_out_of_range_rejected","C16_bounded_resize","C16_bounded_rejects","C16_bounded_value_semantics"),"Heap model with allocation, construction and release of each block; arbitrary histories.")
T['C17']=("proved",U("C17_map_array_refines_map","C17_assignment","C17_push_back_rejects"),"Arbitrary histories in both build modes.")
T['C18']=("partial",U("C18_copy_constructor_behaviour","C18_copy_refuted","C18_copy_empty_partial"),"The claim is false of the code: the copy constructor copies nothing (size_ is read before it is set). Negation proved; only the empty case holds.")
T['C20']=("proved",U("C20_mapped_vector","C20_mapped_vector_instances","C20_rejects"),"Any map meeting the map laws; both instances (map_array, std::map) proved to meet them.")
T['C25']=("proved",U("C25_mapped_matrix","C25_mapped_matrix_instances"),"Any map, both orientations, non-preserving resize (preserving resize is C27).")
T['C19']=("proved",U("C19_compressed_vector","C19_rejects"),"Arbitrary legal histories, any index base, uninitialised memory arbitrary.")
T['C21']=("proved",U("C21_coordinate_vector"),"Arbitrary legal histories; any conforming std::sort. Legality excludes the three defects recorded as C23, C28, C63.")
T['C22']=("proved",U("C22_coordinate_vector_sort","C22_coordinate_matrix_sort"),"inplace_merge and duplicate summing modelled step by step; std::sort abstract.")
T['C23']=("partial",U("C23_pop_back_partial","C23_pop_back_unsorted_refuted","C23_pop_back_last_refuted"),"False of the code for unsorted contents and for the last element (negations proved); proved otherwise.")
T['C26']=("proved",U("C26_coordinate_matrix"),"Arbitrary legal histories, both orientations; any conforming std::sort.")
T['C27']=("partial",U("C27_coordinate_vector_resize","C27_coordinate_matrix_resize_refuted","C27_mapped_matrix_resize_preserve_refuted","C27_compressed_matrix_resize_refuted","C19_compressed_vector","C20_mapped_vector"),"Vectors proved; matrices do not implement it (refuted).")
T['C28']=("partial",U("C28_compressed_vector_reserve_partial","C28_compressed_vector_reserve_refuted","C28_compressed_vector_reserve_effect","C28_coordinate_reserve_refuted","C28_coordinate_vector_reserve_partial","C28_coordinate_matrix_reserve_partial","C28_compressed_matrix_reserve_refuted","C28_compressed_matrix_reserve_partial"),"False of the code when n is below the number of stored elements (refuted); proved otherwise.")
T['C63']=("partial",U("C63_discarding_resize_partial","C63_discarding_resize_refuted"),"False of the code for unsorted contents in debug builds (refuted); proved from sorted contents.")
T['C24']=("proved",U("C24_compressed_matrix"),"Arbitrary legal histories, both orientations, any index base; uninitialised memory arbitrary. Legality excludes the defects recorded as C27, C28, C64.")
T['C64']=("partial",U("C64_push_back_partial","C64_push_back_after_pop_back_refuted"),"False of the code after pop_back (refuted); proved when the target row is the last opened one or later.")
T['C29']=("partial",U("C29_compressed_of_coordinate_partial","C29_index_base_refuted","C29_no_lines_refuted"),"False of the code for one-based index arrays and for matrices without a major line (refuted); proved for zero-based arrays, every legal source history.")
T['C50']=("proved",U("C50_compressed_matrix_traversal","C19_compressed_vector","C20_mapped_vector"),"compressed_matrix: both axes, both orientations, after any legal history. Vectors: the entry sequences in C19/C20.")
T['C65']=("partial",U("C65_reverse_partial","C65_reverse_refuted"),"False of the code across the storage lines when trailing lines are empty (refuted); proved along storage lines.")
T['C30']=("proved",U("C30_inner_prod","C30_size_mismatch","denseVec_operand","compressedVector_operand"),"operands are any vector expressions whose iterators/element access present a vector (Seq.Presents); dense vector and compressed_vector are shown to be such. Scalars from any semiring: rounding not modelled")
T['C31']=("proved",U("C31_matrix_vector","dense_operand","triangular_operand","banded_operand","compressedMatrix_operand"),"element by index and through iterators, all dispatch paths; the container classes are shown to satisfy the operand hypotheses")
T['C32']=("proved",U("C32_matrix_matrix","dense_operand","triangular_operand","banded_operand","compressedMatrix_operand"),"as C31")
T['C66']=("partial",U("C66_triangular_partial","C66_banded","C66_refuted"),"false as stated: column-wise traversal of a tall strict (or mutable unit) lower triangular matrix, and row-wise traversal of a wide upper one, miss the last line; proved for all other shapes and for banded_matrix")
T['C42']=("proved",U("C42_assign","C42_op_assign","C42_view_assign","C42_view_op_assign","C42_compressed_assign","C42_compressed_op_assign"),"vector<T>, the vector views and compressed_vector; the right-hand side is an arbitrary function of the old contents. Matrix targets not modelled.")
T['C43']=("partial",U("C43_compressed_scaled","C43_noalias_partial","C43_noalias_view","C43_sparse_expression","C43_refuted","C43_compressed_refuted","C43_prod_differs"),"False of the code when the expression is of sparse category (dense containers) or the target is sparse: the target is cleared first (refuted). Proved otherwise.")
T['C44']=("proved",U("C44_assign_every_element","C44_packed_view","C44_triangular_row","assign_elementwise","view_supports","compressed_supports"),"sparse targets: compressed_vector; packed targets: rows of a triangular matrix; proxies: views")
T['C45']=("partial",U("C45_swap_rows_partial","C45_refuted"),"False of the code for rows of an upper triangular matrix swapped in ascending order (refuted).")
T['C48']=("partial",U("C48_binary","C48_size_mismatch","C48_unary","C48_expression_tree","C48_matrix_unary","C48_matrix_trans","C48_matrix_binary","C48_matrix_expression_tree","C48_outer_partial","C48_outer_refuted"),"Everything but outer_prod proved for all categories; dense outer_prod iterators skip the row of a zero element (refuted).")
T['C67']=("partial",U("C67_dense_partial","C67_refuted","C67_sparse_never_ends","C67_packed_zeros"),"False of the code for sparse and packed operands (refuted); proved for dense operands.")

T['C68']=("proved",U("C68_matrix_assign","C68_packed_target","C68_dense","C68_compressed","C68_triangular","C68_strict_lower_refuted","C68_range","C68_compressed_range","mview_supports","compressedMatrix_supports","tri_supports","MT.range_supports"),"Holds for every expression whose iterators visit its non-zero elements; C68_strict_lower_refuted shows what the traversal defect C66 does to an assignment. Targets: dense matrices and views, compressed_matrix, lower/upper triangular_matrix. Ranges of any dense or sparse target: C68_range, C68_compressed_range. Not modelled: the conformant-restricted dispatcher.")
T['C33']=("proved",U("Axpy.C33_matrix_vector","Axpy.C33_vector_matrix","Axpy.C33_matrix_matrix","Axpy.C33_compressed_vector","Axpy.C33_vector_compressed","Axpy.C33_coordinate_vector","Axpy.C33_view","Axpy.C33_into_compressed","Axpy.C33_into_compressed_matrix","Axpy.C33_into_dense_matrix"),"All overloads; operands are any expressions presenting a matrix/vector (shown for the containers in C31), targets any dense or sparse container or view. For dense results the triangular restriction is ignored by the code (stated in C33_matrix_matrix).")
T['C34']=("partial",U("Axpy.C34_opb_prod_partial","Axpy.C34_dense_partial","Axpy.C34_opb_iterating_refuted"),"Proved in the default indexing mode. With BOOST_UBLAS_USE_ITERATING the claim is false of the code (refuted), because dense outer_prod iterators skip the rows of zero elements.")
T['C35']=("proved",U("Blocked.C35_matrix_vector","Blocked.C35_vector_matrix","Blocked.C35_matrix_matrix","Blocked.C35_zero_block_diverges"),"block_prod with dense results, every block size > 0, every shape, any operand that presents a matrix/vector, debug and release, both evaluation modes; block size 0 never terminates")
T['C36']=("partial",U("SparseProd.C36_sparse_prod_partial","SparseProd.C36_empty_result_refuted"),"proved when the result has at least one minor element; for results without (zero columns of a row_major, zero rows of a column_major result) the code reads temporary(0) of an empty vector as soon as a line is visited: C36_empty_result_refuted proves the fault for every such input")

T['C37']=("proved",U("Solve.C37_vector","Solve.C37_left","Solve.C37_matrix","Solve.C37_singular","Solve.C37_matrix_singular","Solve.C37_unique","Solve.C37_into_vector","Solve.C37_into_matrix","Solve.C37_into_compressed_matrix","Solve.C37_into_compressed_vector","Solve.C37_solve","Solve.C37_dense"),"Every tag, orientation and storage category, any matrix operand that presents its elements, any right-hand side with element access; over an arbitrary field (no rounding).")

T['C46']=("proved",U("Norms.C46_sum","Norms.C46_norm_1","Norms.C46_norm_2","Norms.C46_norm_inf","Norms.C46_index_norm_inf","Norms.C46_matrix"),"Every evaluation mode and storage category, over an ordered field with an absolute value; square roots are a parameter.")
T['C47']=("partial",U("Norms.C47_indexed_partial","Norms.C47_iterated_partial","Norms.C47_leading_zero_refuted"),"Right for the indexing evaluation and for iterator evaluation without a leading zero; the iterator versions compute 0/0 for every vector whose first visited element is zero (refuted).")

T['C38']=("proved",U("LU.C38_no_pivoting","LU.C38_pivoting"),"Any dense-category matrix with element access, any shape, over an arbitrary field with exact arithmetic; default indexing evaluation.")
T['C39']=("partial",U("LU.C39_no_pivoting","LU.C39_pivoting","LU.C39_dense","LU.C39_left_pivot_partial","LU.substPivotLeft_solves","LU.C39_left_pivot_refuted"),"A x = b proved for vectors and matrices, with and without pivoting; x A = b without pivoting. The left variant with pm is wrong whenever rows were exchanged (it permutes b instead of x): refuted, with the system it really solves.")
T['C41']=("proved",U("LU.C41_vector","LU.C41_matrix","LU.C41_permutation"),"")
T['C69']=("proved",U("LU.C69_determinant","LU.C38_pivoting"),"")
T['C40']=("partial",U("LU.C40_tall_partial","LU.C40_wide_refuted"),"Proved over any field for every matrix with at least as many rows as columns (any lawful storage, orientation, checks on or off): P A = L U, first zero pivot reported. Refuted for every wider matrix with a non-zero element right of the square part: the loop only runs to min (size1, size2) and the zero-filled mr overwrites the rest of U.")
T['C51']=("proved",U("Tens.C51_bijection"),"size_t arithmetic is not wrapped: product of extents assumed to fit.")
T['C56']=("proved",U("Tens.C56_reshape","Tens.C56_invalid"),"")
T['C70']=("partial",U("Tens.C70_access","Tens.C70_wrong_rank","Tens.C70_from_array","Tens.C70_range_refuted"),"Valid multi-indices: read and write proved. A wrong number of indices throws. Refuted: an index beyond its own extent is accepted when its flat position is inside the container, e.g. t(n0,0,...) is t(0,1,...).")
T['C71']=("partial",U("Tens.C71_same_layout_partial","Tens.C71_ne_refuted","Tens.C71_layout_refuted"),"Proved for tensors of one layout and fewer than 2^32 elements. != is not the negation of == (refuted), tensors of different layouts are compared in memory order (refuted).")
T['C72']=("partial",U("Tens.C72_mixed_checked","Tens.C72_eval_same_layout_partial","Tens.C72_construct_same_layout_partial","Tens.C72_shapes","Tens.C72_scalar","Tens.C72_mixed_refuted","Tens.C72_large_refuted","Tens.C72_mixed_shapes_refuted"),"Proved for operands of one layout, any schedule of the loop, fewer than 2^32 elements. Refuted for mixed layouts (memory order) and for 2^32 or more elements (unsigned counter never reaches the size). Refuted for shapes inside an operand of another tensor type (only its last tensor is compared). Vector operands: C125; matrix operands do not compile when evaluated.")
T['C52']=("proved",U("Tens.C52_transform","Tens.C52_copy","Tens.C52_accumulate","Tens.C52_accumulate_sum","Tens.C52_norm","Tens.C52_rank0"),"Arbitrary rank, extents and strides (distinct target offsets), extents below 2^32 (the loop counters are unsigned).")
T['C53']=("partial",U("Tens.C53_trans_partial","Tens.C53_inverse_partial","Tens.C53_rank1_refuted","Tens.C53_invalid"),"Proved for rank 2 and more, any permutation. Refuted for rank 1: trans returns zeros.")

T['C54']=("partial",U("Tens.C54_ttv","Tens.C54_prodVec","Tens.C54_prodVec_refused","Tens.C54_ttm","Tens.C54_prodMat_partial","Tens.C54_prodMat_rank1_refuted","Tens.C54_prodMat_refused"),"tensor-times-vector proved for every rank and mode, tensor-times-matrix for rank 2 and more. Refuted for rank 1 with matrices: the kernel reads past the extents. Extents below 2^32.")
T['C55']=("partial",U("Tens.C55_ttt","Tens.C55_ttt_outer","Tens.C55_prod_partial","Tens.C55_prod_refused","Tens.C55_static_refuted","Tens.C55_inner_partial","Tens.C55_inner_rank1_refuted","Tens.C55_inner_refused","Tens.C55_outer_partial","Tens.C55_outer_rank1_refuted"),"General contraction, inner and outer products proved for every rank from 2 and every list of modes; refuted for rank-1 inner and outer products and for static-rank full contractions. Extents below 2^32.")
T['C73']=("partial",U("Tens.C73_contraction_partial","Tens.C73_equal_partial","Tens.C73_wrong_rank","Tens.C73_disjoint_refuted"),"Contractions and equal label tuples proved; refuted when no label is shared: the operator is the element-wise product instead of the outer product.")
T['C57']=("partial",U("Assigner.C57_vector_writes","Assigner.C57_matrix_writes","Assigner.C57_vector","Assigner.C57_vector_values","Assigner.C57_matrix","Assigner.C57_matrix_values","Assigner.C57_dense_values","Assigner.C57_matrix_blocks","Assigner.C57_compressed_vector","Assigner.C57_compressed_matrix","Assigner.C57_push_back_values","Assigner.C57_matrix_push_back_values","Assigner.C57_block_after_row_refuted","Assigner.C57_empty_block_refuted","Assigner.C57_no_wrap_blocks_refuted","Assigner.C57_move_left_refuted"),"Every script performs exactly the specified writes in order, for any target; contents and refusals derived for dense and compressed targets. Refuted: a block behind a full row is refused instead of wrapped, an empty block reads its element (0,0), blocks without wrapping are placed diagonally, a move left of column 0 wraps to the next row. Operands that read the target are not covered.")
T['C58']=("partial",U("IO.C58_size_text","IO.C58_vector_accepts","IO.C58_vector_fail_unchanged","IO.C58_vector_roundtrip","IO.C58_matrix_accepts","IO.C58_matrix_only_partial","IO.C58_matrix_roundtrip","IO.C58_symmetric_accepts","IO.C58_symmetric_only","IO.C58_symmetric_roundtrip","IO.natIO_roundTrips","IO.C58_trailing_comma_refuted","IO.C58_alloc_refuted","IO.C58_overflow_refuted"),"Accepted texts characterised for every byte string; round trips for every element type whose own output is read back. Refuted: a trailing comma is accepted, a size that cannot be allocated throws, and in release mode 2^32 x 2^32 announced elements are written outside memory. Classic locale, decimal format; float precision is the element type's.")
T['C74']=("proved",U("C74_vector","C74_matrix","C74_view","C74_dense_vector","C74_compressed_vector","C74_dense_matrix","C74_compressed_matrix","C74_triangular"),"Every evaluation mode and target category, for functions with F 0 = 0 (products with a scalar; quotients over a field); the implicit unit diagonal of a unit-triangular target stays 1.")
T['C59']=("partial",U("Blas.C59_reductions","Blas.C59_dot","Blas.C59_copy","Blas.C59_swap","Blas.C59_swap_bounded","Blas.C59_swap_compressed","Blas.C59_swap_demo","Blas.C59_scal","Blas.C59_axpy","Blas.C59_axpy_self","Blas.C59_rot_partial","Blas.C59_rot_refuted","Blas.C59_rot_compressed","Blas.C59_tmv","Blas.C59_gmv","Blas.C59_gr_partial","Blas.C59_sr_partial","Blas.C59_hr_partial","Blas.C59_sr2_partial","Blas.C59_hr2_partial","Blas.C59_tmm","Blas.C59_gmm","Blas.C59_srk","Blas.C59_hrk","Blas.C59_sr2k","Blas.C59_hr2k","Blas.C59_tsv","Blas.C59_tsm"),"Dense targets, any operands, debug and release. rot on sparse vectors is refuted (it clears v2 before reading it). Rank updates with two dense vectors only in the default indexing mode (outer_prod iterators: C48). Not covered: swap, symmetric/hermitian targets, iterated evaluation of dense products over an empty inner dimension.")

T['C60']=("proved",U("C60_vector_of_vector","C60_rejects"),"generalized_vector_of_vector<T, L, vector<compressed_vector<T>>>, both orientations, any index base; lines of coordinate vectors are C126.")
T['C75']=("partial",U("C75_across_release_partial","C75_find_element","C75_find_element_refuted","C75_across_debug","C75_across_reverse","C60_insert_past_end_refuted"),"Refuted: find_element never returns null (absent elements give a pointer to the shared zero); iterating across the lines throws external_logic in debug builds as soon as the line has an element (release visits exactly the stored elements); reverse iteration across the lines reads a past-the-end index; insert_element one line past the end writes outside memory.")

T['C76']=("partial",U("C76_zero_vector","C76_scalar_vector","C76_unit_vector_partial","C76_unit_vector_visits_outside","C76_unit_vector_refuted","C76_unit_vector_assigned","C76_zero_matrix","C76_identity_matrix_partial","C76_identity_columns_throw","C76_identity_columns_refuted","C76_scalar_matrix","C76_identity_assigned"),"Refuted: a unit_vector whose index lies outside (after a resize) still visits that index when iterated directly - assigning it throws or writes outside memory; column-wise iteration of any expression over a wide identity_matrix throws bad_index in debug builds.")

T['C77']=("partial",U("C77_c_matrix_release_partial","C77_c_matrix_step_partial","C77_c_matrix_capacity","C77_c_matrix_resize_throws","C77_c_matrix_refuted","C77_c_matrix_swap_partial","C77_c_matrix_swap_refuted","C77_c_vector","C77_c_vector_swap_partial","C77_c_vector_assign_partial","C77_c_vector_swap_refuted"),"Refuted: swap of c_vector/c_matrix demands equal sizes in debug builds and loses elements in release builds when the first is larger; therefore a preserving c_matrix::resize and an assignment of an expression of another size throw bad_size in debug builds. Proved: everything else, and release builds completely (except swap with a larger first operand).")

T['C78']=("partial",U("C78_history_partial","C78_ctor","C78_history_refuted","C78_rejects_partial","C78_rejects_refuted","C78_walk","C78_iterator_rejects","C78_iterator_assign_refuted","C78_iterator_less_partial","C78_iterator_less_refuted"),"Refuted: (1) growing again after a reduction of the number of lines brings old values back in the first added line (the spare line is never cleared); (2) after a reduction positions in the first line outside are read without error in debug builds; (3) iterator assignment copies only the pointer, not the indices, so the assigned iterator goes on from the old position; (4) < across lines compares addresses of different allocations. Everything else is proved for all histories.")

T['C79']=("partial",U("C79_swap","C79_size_mismatch","C79_dense_views","C79_dense_sparse","C79_sparse_sparse","C79_compressed_lines","C79_matrix_views_partial","C79_matrix_sparse","C79_matrix_packed","C79_matrix_size_mismatch","C79_compressed_ranges","C79_triangular_ranges","C79_empty_refuted","C79_mixed_triangles_refuted"),"Vector views: dense/dense, dense/sparse, sparse/dense, sparse/sparse, two lines of one compressed_matrix. Matrix views: the dense case; refuted in debug for views of matrices without columns. Sparse matrix views: C79_matrix_sparse for any lawful disjoint pair, C79_compressed_ranges for ranges of two compressed matrices. Packed matrix views of one shape: C79_matrix_packed, C79_triangular_ranges; of different shapes refuted (C79_mixed_triangles_refuted). Packed vector views are C45.")

T['C80']=("partial",U("C80_read","C80_symmetric","C80_hermitian","C80_diagonal","C80_write","C80_write_hermitian","C80_write_hermitian_loose","C80_insert_hermitian","C80_line","C80_traverse","C80_jump","C80_step_back_partial","C80_jump_back_refuted","C80_reverse_partial","C80_reverse_refuted","C80_reverse_element_refuted","C80_distance_refuted"),"Element access, writes, forward traversal, forward jumps and distances proved for a dense adapted matrix. Refuted: reverse loops over every line but the first (end iterators do not know their line's other segment: they read the other triangle, then leave the matrix); -= across the diagonal raises external_logic in debug; begin - end is wrong. Sparse adapted matrices and the mutable iterators (which walk the triangle only) are not modelled here.")

T['C81']=("partial",U("C81_triangular_read","C81_triangular_write","C81_triangular_partial","C81_wide_refuted","C81_triangular_reverse_row","C81_banded_read","C81_banded_write","C81_banded"),"Refuted in debug builds: looping by columns (rows) over a lower (upper) adaptor of a matrix with at least two more columns (rows) than rows (columns) throws bad_index, because the inner iterator of a line wholly outside the triangle is placed beyond the matrix. Strict and unit triangles of the shapes of C66_refuted are excluded from the traversal theorem.")

T['C82']=("proved",U("C82_dense_views","C82_sparse_views","C82_window_spec","C82_mapped_views","C82_coordinate_views"),"const iterators of vector_range, vector_slice, vector_indirect over vector, compressed_vector, mapped_vector and coordinate_vector, any nesting; the pointer an iterator holds to its proxy is not modelled.")

T['C83']=("partial",U("C83_dense_views_partial","C83_dense_refuted","C83_dense_lines","C83_sparse_views"),"Refuted: a matrix_range with the empty column range at the right edge of a row-major matrix: its row iterators report the wrong rows. For compressed matrices backward iteration is proved along the major direction (the other direction: C65); diagonal-like views of sparse matrices are not stated.")

T['C84']=("proved",U("C84_triangular_views","C84_banded_views","C84_symmetric_views","C84_hermitian_views","C84_readable"),"const iterators (and mutable ones of symmetric_matrix). Strict triangles of shapes where C66 is refuted are excluded by hypothesis.")

T['C85']=("partial",U("C85_mapped_views_partial","C85_reverse_refuted","C85_mapped_instances"),"const iterators. Refuted: backwards, in debug builds every step back from an end iterator throws bad_index, in release builds reverse iterators of a line yield every position down to the first stored one, stored or not.")

T['C86']=("partial",U("C86_coordinate_views_partial","C86_reverse_refuted"),"const iterators. Refuted: backwards, in debug builds stepping back from end1/end2, and from the end of a line across the storage order, throws bad_index; along the storage order the first step back from the end of a line arrives at an element of the next line.")

T['C87']=("partial",U("C87_map_of_maps","C87_map_of_maps_std","C87_rejects","C87_unchecked_refuted"),"Refuted: the container performs no index check at all; in both build modes reading outside the matrix yields zero, writing outside succeeds and the value is read back. nnz() and nnz_capacity() do not compile when instantiated.")

T['C88']=("partial",U("C88_map_of_maps_iterators_partial","C88_absent_line_refuted","C88_reverse_refuted","C88_minor_refuted","C88_minor_square_refuted"),"default std::map storage; const iterators; views of lines, not matrix views. Refuted: a line never written shows the elements of the next line that was; reverse iteration across the storage order throws or is undefined; the nested loops against the storage order run past the end if the matrix is not square, and miss elements if it is.")

T['C89']=("partial",U("Tens.C89_equal","Tens.C89_unequal_partial","Tens.C89_unequal_refuted","Tens.C89_compare_partial","Tens.C89_compare_refuted","Tens.C89_inner_partial","Tens.C89_inner_refuted"),"Proved for every combination except two different extents of the same static rank. Refuted there: operator!= of two extents<n> is always false, so tensors of static rank with different shapes may compare equal, and inner_prod accepts them (reading past the second operand).")
T['C90']=("partial",U("Tens.C90_get","Tens.C90_cat","Tens.C90_select","Tens.C90_set","Tens.C90_reverse","Tens.C90_accumulate","Tens.C90_product","Tens.C90_all_of","Tens.C90_any_of_partial","Tens.C90_any_of_refuted","Tens.C90_shapes_partial","Tens.C90_shapes_empty","Tens.C90_shapes_refuted","Tens.C90_strides","Tens.C90_strides_rejected"),"Refuted: any_of_v of an empty pack is true; for packs with a zero extent the compile-time and run-time shape predicates disagree. size_t products not wrapped. remove_element_t never compiles (not modelled).")
T['C91']=("partial",U("Tens.C91_access","Tens.C91_single","Tens.C91_range_refuted","Tens.C91_from_matrix","Tens.C91_from_vector_partial","Tens.C91_from_vector_refuted","Tens.C91_from_tensor","Tens.C91_fill","Tens.C91_init","Tens.C91_init_static"),"Refuted: at(i1,i2,...) of a static tensor does not check its indices (documented to); a vector of length one is accepted for any static tensor of vector shape and leaves the other elements indeterminate.")

T['C92']=("partial",U("C92_c_array_view","C92_view_reads","C92_construct","C92_view_follows_values","C92_view_of_compressed_matrix","C92_incomplete_matrix_refuted","C92_indices_unchecked_refuted"),"The view checks no index, even in debug builds (refuted: a column outside reads zero, a row outside leaves the arrays); arrays of a compressed_matrix without complete_index1_data are not complete storage (refuted by a counterexample).")
T['C93']=("proved",U("C93_lines","C93_iteration","C93_random_access","C93_history","C93_initial","C93_update_all"),"Over a dense matrix.")
T['C94']=("partial",U("Tens.C94_print","Tens.C94_print_scalar","Tens.C94_print_vector","Tens.C94_rank1_refuted","Tens.C94_default_refuted"),"Refuted: a tensor of rank one with two or more elements throws std::out_of_range, and a default-constructed tensor leaves its extents. Token level: how one element is written is left to the element type.")
T['C95']=("partial",U("Tens.C95_new_tensor_partial","Tens.C95_empty","Tens.C95_expression_partial","Tens.C95_large_refuted"),"Proved for every expression over tensors of one layout with fewer than 2^32 elements. Refuted for 2^32 or more elements: the unsigned int loop counter wraps around and the call never returns.")

T['C96']=("proved",U("C96_matrix_no_false_alarm","C96_matrix_packed","C96_vector_no_false_alarm","C96_vector_packed","C96_compressed_matrix","C96_compressed_vector","C96_triangular","C96_triangular_row"),"The comparison is a parameter (Sound: it accepts equal results), instantiated with the exact one and with the headers' norm_inf(a-b) <= eps * max(norms, min_norm) rule. C96_triangular: accepted iff nothing outside the triangle is lost, else external_logic.")
T['C97']=("partial",U("LU.C97_factorize","LU.C97_factorize_pivot","LU.C97_axpy","LU.C97_substitute","LU.C97_rectangular_refuted","LU.C97_rectangular_pivot_refuted"),"Square matrices: the self-check always passes. Refuted for rectangular ones: the check multiplies two adaptors of the rectangular matrix, whose inner sizes differ, so a debug build raises bad_argument for every factorisable non-square matrix.")

T['C98']=("partial",U("Axpy.C98_matrix_vector","Axpy.C98_vector_matrix","Axpy.C98_compressed_vector","Axpy.C98_vector_compressed","Axpy.C98_matrix_matrix","Axpy.C98_opb","Axpy.C98_restricted_partial","Axpy.C98_restricted_refuted","Axpy.C98_compressed_matrix"),"Exact arithmetic in the comparison. Refuted for axpy_prod with a triangular restriction into a sparse matrix: the check compares with the unrestricted product and raises internal_logic whenever the product is non-zero outside the restriction.")

T['C99']=("proved",U("Adaptor.C99_value_semantics","Adaptor.C99_all_destroyed","Adaptor.C99_out_of_range_rejected"),"On an explicit heap that also holds the program's arrays; pointers handed over are starts of program arrays that live as long as the adaptor.")

T['C100']=("proved",U("C100_compare","C100_mapped_vector","C100_mapped_matrix","C100_mapped_instances","C100_compressed_vector","C100_compressed_matrix","C100_coordinate_vector","C100_coordinate_matrix","C100_out_of_range"),"The strict proxies (sparse_vector_element, sparse_matrix_element), which are the default; the statements combine at most two elements of one container each. std::map of the mapped containers is either map_array or std::map.")

T['C101']=("partial",U("C101_vector","C101_matrix","C101_vector_partial","C101_matrix_partial","C101_self_scale_refuted","C101_compressed_vector_insert","C101_compressed_matrix_insert","C101_self_insert_refuted","C101_coordinate_vector_insert","C101_coordinate_matrix_insert","C101_coordinate_insert_refuted"),"Refuted: elements visited after v(k) are combined with its new value; insert_element into compressed containers reads the value after shifting (another element's value) or after freeing it (capacity exhausted). The exact behaviour is proved for every case. Coordinate containers: right with room and a reference just obtained; refuted when the debug duplicate check sorts in between, or without room.")

T['C102']=("partial",U("C102_statements_partial","C102_block_partial","C102_adaptor_partial","C102_refuted"),"Refuted: m(i,j) = m(j,i) = x leaves m(i,j) = conj x when the right operand is evaluated first (C++17); two names of one element, or of an element and its mirror image, lose updates. Everything else proved.")

T['C103']=("partial",U("C103_vector_assign_partial","C103_matrix_assign_partial","C103_prod_partial","C103_empty_refuted","C103_large_refuted"),"Equal for positive sizes up to d times the range of unsigned. Refuted: with size 0 the body runs d*2^32 times and reads an element that does not exist; sizes above d*2^32 are cut short.")

T['C104']=("partial",U("Exc.C104_alloc_failure","Exc.C104_history","Exc.C104_element_partial","Exc.C104_resize_element_refuted","Exc.C104_ctor_leak_refuted"),"Allocation failures: strong guarantee and no leaks, proved for every history. Element failures: refuted for resize with a changed size (destroying the array afterwards destroys elements never constructed) and for leaks in throwing constructors; proved for everything else.")

T['C105']=("partial",U(*["XC."+x for x in ["C105_assign_otherwise","C105_cmatrix_insert_otherwise","C105_coordinate_append_otherwise","C105_compressed_otherwise","C105_cmatrix_otherwise","C105_coordinate_otherwise","C105_dense_resize","C105_dense_expression","C105_triangular_resize","C105_symmetric_resize","C105_banded_resize","C105_dense_assign_partial","C105_dense_assign_refuted","C105_packed_assign_refuted","C105_symmetric_assign_refuted","C105_banded_assign_refuted","C105_compressed_reserve_partial","C105_compressed_retry_refuted","C105_compressed_assign_refuted","C105_compressed_resize_refuted","C105_cmatrix_reserve_partial","C105_cmatrix_retry_refuted","C105_cmatrix_resize_partial","C105_cmatrix_resize_refuted","C105_cmatrix_assign_refuted","C105_coordinate_reserve_partial","C105_coordinate_retry_refuted","C105_coordinate_assign_refuted"]]),"Resizing dense, packed and banded matrices and assigning expressions: strong guarantee proved. Refuted: copy assignment sets the dimensions before the storage is obtained (reads outside the array afterwards); compressed_vector, compressed_matrix and the coordinate containers set capacity_, sizes and filled counts before their arrays are resized (a retried insertion writes outside the arrays, reads after a failed assignment are outside the arrays). Proved for them: after a failed reserve every element reads as before; a failed compressed_matrix resize can be repeated.")

T['C106']=("partial",U(*["Tens.Life."+x for x in ["C106_dynamic","C106_static_rank_partial","C106_moved_from_refuted","C106_copy_empty_refuted","C106_from_vector_refuted"]]),"Dynamic extents: proved for every program. Fixed number of extents: refuted for moved-from tensors (extents stay, elements are gone), for copies of default constructed tensors in builds with assert, and for construction of a one-extent tensor from a vector (always throws); proved for programs that avoid these.")

T['C107']=("partial",U(*["C107_dense","C107_vector_views","C107_matrix_views","C107_matrix_lines","C107_structured","C107_adaptors","C107_mapped_partial","C107_mapped_vector_insert_refuted","C107_compressed_vector_partial","C107_compressed_vector_full_refuted","C107_coordinate_vector","C107_coordinate_matrix_refuted","C107_compressed_matrix_partial","C107_compressed_matrix_read_refuted","C107_compressed_matrix_write_refuted","C107_vector_of_vector_partial","C107_vector_of_vector_insert_refuted"]),"Proved for dense, structured and coordinate vectors, all views and adaptors, mapped_matrix. Refuted: mapped_vector::insert_element and coordinate_matrix accept elements outside; compressed_matrix reads (zero) and writes (stored) outside columns; compressed_vector::insert_element on a full vector and vector_of_vector::insert_element one line past the end have undefined behaviour in debug builds. See also C87_unchecked_refuted (map of maps) and C78_rejects (dense vector_of_vector).")

T['C108']=("partial",U(*["C108_dense_matrix","C108_views","C108_structured","C108_adaptors","C108_compressed_vector","C108_compressed_matrix","C108_vector_of_vector","C108_mapped","C108_coordinate_refuted","C108_coordinate_vector_partial","C108_coordinate_matrix_partial","C108_coordinate_values"]),"Proved for every container except the coordinate ones, whole histories from any state. Coordinate containers: refuted, insert_element sorts and sums duplicates in debug builds only, so nnz () differs; proved for histories without insert_element, and for element values in legal histories with it.")

T['C109']=("partial",U("C109_mapped_elements","C109_packed_element","C109_packed_size","C109_banded_partial","C109_banded_refuted","C109_key_checked","C109_key_injective","C109_mapped_refuted","C109_restrict_capacity","C109_tensor_partial","C109_tensor_refuted"),"Packed matrices below 2^32, capacities and debug-mode map keys: proved. Refuted: banded_matrix and tensors accept sizes whose cell count wraps (no check in any build); mapped_matrix in release builds shares one key between different elements. Proved for those when the count is below 2^64. C02 and C03 cover dense storage and triangular_size.")

T['C110']=("partial",U("C110_assign","C110_op_assign","C110_view_assign","C110_view_op_assign","C110_compressed_assign","C110_noalias_partial","C110_noalias_refuted","C110_view_copy_partial","C110_range_copy_partial","C110_range_copy_refuted","C110_slice_copy_refuted"),"The forms with a temporary are proved for every right-hand side (any function of the old contents); noalias and the copy assignment of views under the condition that no cell is read after it was overwritten (for ranges: the source does not begin before the target, or the blocks are disjoint).  The copy assignment of overlapping ranges and slices is refuted.")

T['C111']=("partial",U("OpenCL.C111_trans_partial","OpenCL.C111_change_layout_partial","OpenCL.C111_trans_host_partial","OpenCL.C111_in_place_refuted","OpenCL.C111_layout_refuted","OpenCL.C111_size_refuted"),"Proved for row_major/column_major, fewer than 2^32 elements and result different from the argument, for every interleaving. The rest is false of the code: in place the outcome depends on the schedule (no assertion), a row-major layout with other size types is treated as column-major, indices are 32-bit.")
T['C112']=("partial",U("OpenCL.C112_prod_partial","OpenCL.C112_prod_vector_partial","OpenCL.C112_vector_prod_partial","OpenCL.C112_outer_prod_partial","OpenCL.C112_prod_host_partial","OpenCL.C112_in_place_refuted","OpenCL.C112_result_size_refuted"),"Proved for row_major/column_major operands (also mixed) and a result of the right size in its own buffer; clBLAS gemm is modelled by its documented effect, one item per element of the result, any interleaving. False when the result is an operand (it is zeroed first) and for a host result of another size (not resized, overrun).")
T['C113']=("partial",U("OpenCL.C113_element_wise_partial","OpenCL.C113_element_wise_vector_partial","OpenCL.C113_scalar","OpenCL.C113_host_partial","OpenCL.C113_layout_refuted","OpenCL.C113_result_size_refuted"),"Proved, also in place, for operands and result of one orientation and size. False for operands of different layout, which the template accepts and pairs by memory position, and for a smaller result, whose size is not checked (overrun). The device version of element_sub (matrix, matrix, result) (opencl/elementwise.hpp:226-233) passes its arguments in the wrong order and does not compile.")

T['C114']=("partial",U("Threads.C114_compressed_vector","Threads.C114_compressed_matrix","Threads.C114_dense","Threads.C114_vector","Threads.C114_triangular","Threads.C114_symmetric","Threads.C114_banded","Threads.C114_hermitian","Threads.C114_coordinate_partial","Threads.C114_coordinate_matrix_partial","Threads.C114_coordinate_matrix_refuted","Threads.C114_coordinate_alone","Threads.C114_coordinate_refuted"),"Dense vector and matrix, triangular, symmetric, hermitian and banded matrix, compressed_vector and compressed_matrix: proved for every reachable container, every set of reading threads and every interleaving. coordinate_vector and coordinate_matrix: proved when already sorted; false otherwise (const readers sort the mutable arrays: a schedule of two readers is exhibited in which one obtains a wrong value). A memory access is one atomic step (sequential consistency).")
T['C115']=("partial",U("Threads.C115_dense","Threads.C115_vector","Threads.C115_triangular","Threads.C115_banded","Threads.C115_symmetric_partial","Threads.C115_symmetric_names_partial","Threads.C115_hermitian_partial","Threads.C115_hermitian_refuted","Threads.C115_symmetric_refuted","Threads.C115_compressed_partial","Threads.C115_compressed_refuted"),"Dense vectors and matrices, triangular and banded matrices: proved for every interleaving. symmetric_matrix and hermitian_matrix: proved when every element is used under one of its two names, and when one thread owns both names and uses either; false when two threads own the two names of one element. compressed_vector: proved for elements that are already stored; false when threads assign to different elements that are not stored (insertion shifts the shared arrays: a lost update is exhibited).")
T['C116']=("proved",U("Ser.C116_vector","Ser.C116_bounded_vector","Ser.C116_matrix","Ser.C116_vector_of_vector","Ser.C116_c_vector","Ser.C116_c_matrix","Ser.C116_constant","Ser.C116_mapped_vector","Ser.C116_mapped_matrix","Ser.C116_map_of_maps","Ser.C116_compressed_vector","Ser.C116_compressed_matrix","Ser.C116_coordinate_vector","Ser.C116_coordinate_matrix","Ser.C116_generalized_vector_of_vector","Ser.C116_fixed_vector","Ser.C116_fixed_matrix","Ser.C116_sequence"),"Archives are sequences of primitive values; the serializers of built-in arrays and std::map (external) are modelled by their documented effect. A std::array is written as a built-in array.")
T['C117']=("partial",U("Ser.C117_dense_partial","Ser.C117_fixed_partial","Ser.C117_constant_partial","Ser.C117_mapped_std_partial","Ser.C117_map_array_partial","Ser.C117_matrix_refuted","Ser.C117_c_matrix_refuted","Ser.C117_sparse_refuted","Ser.C117_map_array_refuted","Ser.C117_map_of_maps_refuted"),"Proved for vector, bounded_vector, c_vector, the constant containers and the mapped containers over std::map (element access). False as stated: matrix, vector_of_vector, the compressed and the coordinate containers set sizes and counts before the arrays are read, so a truncated archive leaves a container whose elements have no storage (undefined behaviour on the next read); c_matrix does not compare the sizes with its extents; map_array keeps stale keys; mapped_vector_of_mapped_vector loses its sentinel line. Allocation failure while loading is not modelled.")
T['C118']=("partial",U("C118_vector_constructors","C118_vector_history","C118_vector_mismatch","FMat.C118_matrix_constructors","FMat.C118_matrix_history","FMat.C118_matrix_mismatch","FMat.C118_matrix_traverse","C118_release_sizes_refuted","C118_empty_refuted"),"Everything is proved for histories whose right-hand sides have the right size. False of the code: without checks an expression of another size is not refused (a shorter one is read outside its storage, a longer one is cut), and fixed_vector::empty () returns a const bool & bound to the temporary that std::array::empty returned, so reading it is undefined. fixed_matrix::operator= (const matrix_container &) calls a member resize that does not exist; it cannot be instantiated and is not modelled.")
T['C119']=("partial",U("RVec.C119_random_access_partial","RVec.C119_reverse_partial","RVec.C119_selector","RVec.C119_end_refused_partial","RVec.C119_distance_refuted","RVec.C119_subscript_refuted","RVec.C119_line_end_refuted"),"Proved: moves, comparisons, index, element and subscript for all these iterators and their reverses, every difference except negative ones along a line that strides over storage, and bad_index at the end. False of the code: distance_i/distance_j divide a signed offset by an unsigned size, so a negative difference of row-major iterator1 (column-major iterator2) is a huge number; vector::iterator::operator [] does not check (its documentation says it does); * at the end of a contiguous matrix row or column passes the index checks and reads the next line.")
T['C120']=("proved",U("C120_storage_order","C120_empty","C120_sizes","C120_defined","C120_trans","C120_views"),"Constness of iterators is not distinguished. For proxies the leading size is the one of the proxy (an example in Props/Oriented.lean), so it is not the distance between lines in storage; the property does not claim it.")
T['C121']=("partial",U("Tens.MI.C121_labels","Tens.MI.C121_has_index","Tens.MI.C121_valid","Tens.MI.C121_position","Tens.MI.C121_pairs","Tens.MI.C121_pairs_valid","Tens.MI.C121_number","Tens.MI.C121_make","Tens.MI.C121_at","Tens.MI.C121_to_vector_partial","Tens.MI.C121_to_vector_refuted","Tens.MI.C121_einstein"),"Everything is proved except array_to_vector for multi-indices of different sizes, where the claim is false: the two loop bounds are exchanged and the call throws std::out_of_range, whatever the labels.")
T['C122']=("proved",U("Shallow.C122_shared_elements","Shallow.C122_all_destroyed","Shallow.C122_out_of_range"),"The class exists only with BOOST_UBLAS_SHALLOW_ARRAY_ADAPTOR. boost::shared_array is modelled by its documented reference counts; a pointer handed over is the start of an array of the program; std::copy of an array onto itself is a no-op; new does not throw.")
T['C123']=("partial",U("OpenCL.C123_mismatch_partial","OpenCL.C123_host","OpenCL.C123_result_refuted","OpenCL.C123_result_vector_refuted"),"Operand mismatches are refused by all operations. Refuted: element_wise (and element_add, element_prod, element_div built on it) never looks at the size of the result; with a smaller result every schedule writes behind the end of its buffer, also in debug builds.")
T['C124']=("partial",U("RVec.C124_random_access_partial","RVec.C124_reverse_partial","RVec.C124_selector_partial","RVec.C124_end_refused_partial","RVec.C124_matrix_range_partial","RVec.C124_range_refuted","RVec.C124_range_never_refuted","RVec.C124_selector_refuted","RVec.C124_matrix_range_refuted"),"Proved for every expression whose ranges start at 0 (unlike the default build, differences of both signs and the end of every line are right). Refuted: every non-empty vector_range, basic_range and matrix_range with a start above 0 hands out iterators whose counter is the index in the container behind but is used as an index of the range: wrong elements, then bad_index (or reads outside in release builds).")
T['C125']=("partial",U("Tens.C125_combine_partial","Tens.C125_shorter_refuted","Tens.C125_longer_refuted"),"Proved for vectors with as many elements as the tensor, any tensor expression of one layout, any schedule, fewer than 2^32 elements. Refuted: the size of the vector is never compared; a shorter one is read behind its end (bad_index in the middle of the loop, or undefined behaviour), a longer one is cut.")
T['C126']=("partial",U("C126_coordinate_lines_partial","C126_shrink_refuted"),"Proved for every history in which a preserving resize to fewer lines finds the first line it drops sorted. Refuted otherwise in debug builds: that line keeps sorted_ = false with no elements and its consistency check fails.")
T['C127']=("proved",U("C127_is_hermitian","C127_is_symmetric","C127_symmetric_matrix","C127_hermitian_matrix","C127_diagonal_refuted"),"Proved in full. The last theorem is an example of a hermitian_matrix which is not hermitian: a diagonal element that is not its own conjugate is stored as given.")
T['C128']=("partial",U("Tens.C128_scalar","Tens.C128_expressions_partial","Tens.C128_shapes","Tens.C128_ne_refuted","Tens.C128_large_refuted"),"Proved: the six relations with a scalar on either side, for every tensor expression of one layout with fewer than 2^32 elements; two expressions of one layout. Refuted: != is true only if every element differs, so == and != can both be false; from 2^32 elements on the unsigned counter of the comparison wraps around and it never ends.")
T['C129']=("partial",U("RVec.C129_random_access_partial","RVec.C129_reverse_partial","RVec.C129_end_refused_partial","RVec.C129_distance_refuted","RVec.C129_line_end_refuted"),"Proved: everything for rows, and for columns everything but negative differences; the end of columns and of rows shorter than the capacity is noticed. Refuted: the signed offset between two iterator1 is divided by the unsigned capacity, so a negative difference is a huge number; the end of a row as long as the capacity passes the checks of * and reads the next row.")
T['C130']=("partial",U("C130_kinds","C130_triangular","C130_triangular_rejects","C130_symmetric_partial","C130_symmetric_rejects","C130_symmetric_refuted","C130_hermitian_partial","C130_hermitian_rejects"),"Triangular: proved. Symmetric and hermitian: proved for the stored triangle; in the other triangle symmetric_matrix::at_element throws (checks on) or changes an unrelated element (checks off), and hermitian_matrix::at_element throws. In dense, fixed and banded matrices operator () and at_element are one piece of code (C04, C11).")
T['C131']=("partial",U(*["OpenCL."+x for x in ["C131_norms_partial","C131_norms_host_partial","C131_complex","C131_complex_refuted","C131_empty_refuted","C131_inner_prod","C131_inner_prod_mismatch","C131_inner_prod_host"]]),"Proved for non-empty vectors of real elements, and inner_prod for all; refuted for empty vectors (every type, every memory) and for the imaginary part of complex results (exact result given). clBLAS and Boost.Compute by their documented effect.")
T['C132']=("partial",U("C132_compressed_vector","C132_compressed_matrix","C132_coordinate_vector","C132_coordinate_matrix","C132_vector_of_vector","C132_vector_of_coordinate_vectors","C132_map_of_maps","C132_mapped_vector","C132_mapped_matrix","C132_matrix","C132_triangular_matrix","C132_banded_matrix","C132_symmetric_matrix","C132_hermitian_matrix_partial","C132_mapped_vector_map_array_partial","C132_mapped_matrix_map_array_partial","C132_map_array_copy_refuted"),"Proved for matrix, triangular, banded, symmetric, compressed, coordinate and vector-of-compressed-vector containers and the mapped ones over std::map; hermitian with erase_element at stored positions; over map_array without copy construction, which is refuted. unbounded_array itself, on which vector rests, is C16.")

T['C133']=("partial",U("C133_vector_partial","C133_bounded_vector_partial","C133_rejects","C133_zero_initialised_refuted","C133_zero_initialised_partial","C133_demo"),"Proved with elements nobody wrote left unspecified; refuted: the documented zero initialisation of vector (n) for trivially constructible elements.")
T['C134']=("proved",U("C134_matrix","C134_bounded_matrix","C134_rejects","C134_demo"),"Elements nobody wrote are left unspecified; the documented zero fill is refuted at C05.")
T['C135']=("partial",U("C135_strict_references_partial","C135_delayed_write_refuted","C135_demo"),"Proved for all statements that do not use, through a second reference, an element they have just changed; for those refuted.")
