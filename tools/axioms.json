{
"Ublas.C01_dense_layout_bijection": "propext, Classical.choice, Quot.sound",
"Ublas.C01_element_rejects": "propext, Quot.sound",
"Ublas.C02_storage_size_exact": "propext, Classical.choice, Quot.sound",
"Ublas.C02_element_no_wrap": "propext, Quot.sound",
"Ublas.C03_triangular_size_partial": "propext, Classical.choice, Quot.sound",
"Ublas.C03_refuted": "propext",
"Ublas.C04_filled": "propext, Quot.sound",
"Ublas.C04_read_after_write": "propext, Quot.sound",
"Ublas.C04_out_of_range_rejected": "propext, Quot.sound",
"Ublas.C04_history": "propext, Classical.choice, Quot.sound",
"Ublas.C04_initial": "propext, Quot.sound",
"Ublas.C05_resize_preserve_partial": "propext, Classical.choice, Quot.sound",
"Ublas.C05_zero_fill_refuted": "propext",
"Ublas.C06_packed_layout": "propext, Classical.choice, Quot.sound",
"Ublas.C06_packed_size": "propext, Classical.choice, Quot.sound",
"Ublas.C07_history": "propext, Classical.choice, Quot.sound",
"Ublas.C07_initial": "propext, Classical.choice, Quot.sound",
"Ublas.C07_write_outside_rejected": "propext, Quot.sound",
"Ublas.C08_rectangular_partial": "propext, Classical.choice, Quot.sound",
"Ublas.C08_refuted": "propext",
"Ublas.C08_rejected_exactly": "propext, Classical.choice, Quot.sound",
"Ublas.C09_symmetric_history": "propext, Classical.choice, Quot.sound",
"Ublas.C10_hermitian_history_partial": "propext, Classical.choice, Quot.sound",
"Ublas.C10_erase_refuted": "propext, Classical.choice, Quot.sound",
"Ublas.C10_assign_outside_rejected": "propext, Quot.sound",
"Ublas.C10_assign_inside": "propext, Quot.sound",
"Ublas.C11_band_layout": "propext, Classical.choice, Quot.sound",
"Ublas.C11_off_band_rejected": "propext, Classical.choice, Quot.sound",
"Ublas.C11_history": "propext, Classical.choice, Quot.sound",
"Ublas.C12_range_compose": "propext, Quot.sound",
"Ublas.C12_slice_compose": "propext, Classical.choice, Quot.sound",
"Ublas.C12_slice_compose_range": "propext, Classical.choice, Quot.sound",
"Ublas.C12_slice_assoc": "propext, Classical.choice, Quot.sound",
"Ublas.C12_range_assoc": "propext, Quot.sound",
"Ublas.C12_identity": "propext, Classical.choice, Quot.sound",
"Ublas.C12_slice_iterator": "propext, Quot.sound",
"Ublas.C13_indirect_compose": "propext, Classical.choice, Quot.sound",
"Ublas.C13_selector_compose_partial": "propext, Classical.choice, Quot.sound",
"Ublas.C13_empty_rejected_refuted": "propext",
"Ublas.C14_vector_proxy": "propext, Classical.choice, Quot.sound",
"Ublas.C14_project": "propext, Classical.choice, Quot.sound",
"Ublas.C14_selector_injective": "propext, Classical.choice, Quot.sound",
"Ublas.C15_matrix_proxy": "propext, Classical.choice, Quot.sound",
"Ublas.C15_matrix_vector_proxy": "propext, Classical.choice, Quot.sound",
"Ublas.C15_views": "propext",
"Ublas.C15_project": "propext, Classical.choice, Quot.sound",
"Ublas.C16_unbounded_value_semantics": "propext, Classical.choice, Quot.sound",
"Ublas.C16_all_destroyed_all_freed": "propext, Classical.choice, Quot.sound",
"Ublas.C16_out_of_range_rejected": "propext",
"Ublas.C16_bounded_resize": "propext, Classical.choice, Quot.sound",
"Ublas.C16_bounded_rejects": "propext, Quot.sound",
"Ublas.C16_bounded_value_semantics": "propext, Classical.choice, Quot.sound",
"Ublas.C17_map_array_refines_map": "propext, Classical.choice, Quot.sound",
"Ublas.C17_assignment": "propext, Classical.choice, Quot.sound",
"Ublas.C17_push_back_rejects": "propext, Quot.sound",
"Ublas.C18_copy_constructor_behaviour": "propext, Quot.sound",
"Ublas.C18_copy_refuted": "propext, Classical.choice, Quot.sound",
"Ublas.C18_copy_empty_partial": "propext, Quot.sound",
"Ublas.C19_compressed_vector": "propext, Classical.choice, Quot.sound",
"Ublas.C19_rejects": "propext, Classical.choice, Quot.sound",
"Ublas.C20_mapped_vector": "propext, Quot.sound",
"Ublas.C20_mapped_vector_instances": "propext, Classical.choice, Quot.sound",
"Ublas.C20_rejects": "propext, Quot.sound",
"Ublas.C21_coordinate_vector": "propext, Classical.choice, Quot.sound",
"Ublas.C22_coordinate_vector_sort": "propext, Classical.choice, Quot.sound",
"Ublas.C22_coordinate_matrix_sort": "propext, Classical.choice, Quot.sound",
"Ublas.C23_pop_back_partial": "propext, Classical.choice, Quot.sound",
"Ublas.C23_pop_back_unsorted_refuted": "propext",
"Ublas.C23_pop_back_last_refuted": "propext",
"Ublas.C24_compressed_matrix": "propext, Classical.choice, Quot.sound",
"Ublas.C25_mapped_matrix": "propext, Classical.choice, Quot.sound",
"Ublas.C25_mapped_matrix_instances": "propext, Classical.choice, Quot.sound",
"Ublas.C26_coordinate_matrix": "propext, Classical.choice, Quot.sound",
"Ublas.C27_coordinate_vector_resize": "propext, Classical.choice, Quot.sound",
"Ublas.C27_coordinate_matrix_resize_refuted": "propext",
"Ublas.C27_mapped_matrix_resize_preserve_refuted": "propext, Quot.sound",
"Ublas.C27_compressed_matrix_resize_refuted": "propext",
"Ublas.C28_compressed_vector_reserve_partial": "propext, Classical.choice, Quot.sound",
"Ublas.C28_compressed_vector_reserve_refuted": "propext",
"Ublas.C28_compressed_vector_reserve_effect": "propext, Classical.choice, Quot.sound",
"Ublas.C28_coordinate_reserve_refuted": "propext",
"Ublas.C28_coordinate_vector_reserve_partial": "propext, Classical.choice, Quot.sound",
"Ublas.C28_coordinate_matrix_reserve_partial": "propext, Classical.choice, Quot.sound",
"Ublas.C28_compressed_matrix_reserve_refuted": "propext",
"Ublas.C28_compressed_matrix_reserve_partial": "propext, Classical.choice, Quot.sound",
"Ublas.C29_compressed_of_coordinate_partial": "propext, Classical.choice, Quot.sound",
"Ublas.C29_index_base_refuted": "propext",
"Ublas.C29_no_lines_refuted": "propext",
"Ublas.C30_inner_prod": "propext, Classical.choice, Quot.sound",
"Ublas.C30_size_mismatch": "propext",
"Ublas.denseVec_operand": "propext, Classical.choice, Quot.sound",
"Ublas.compressedVector_operand": "propext, Quot.sound",
"Ublas.C31_matrix_vector": "propext, Classical.choice, Quot.sound",
"Ublas.dense_operand": "propext, Classical.choice, Quot.sound",
"Ublas.triangular_operand": "propext, Classical.choice, Quot.sound",
"Ublas.banded_operand": "propext, Classical.choice, Quot.sound",
"Ublas.compressedMatrix_operand": "propext, Classical.choice, Quot.sound",
"Ublas.C32_matrix_matrix": "propext, Classical.choice, Quot.sound",
"Ublas.Axpy.C33_matrix_vector": "propext, Classical.choice, Quot.sound",
"Ublas.Axpy.C33_vector_matrix": "propext, Classical.choice, Quot.sound",
"Ublas.Axpy.C33_matrix_matrix": "propext, Classical.choice, Quot.sound",
"Ublas.Axpy.C33_compressed_vector": "propext, Classical.choice, Quot.sound",
"Ublas.Axpy.C33_vector_compressed": "propext, Classical.choice, Quot.sound",
"Ublas.Axpy.C33_coordinate_vector": "propext, Classical.choice, Quot.sound",
"Ublas.Axpy.C33_view": "propext, Classical.choice, Quot.sound",
"Ublas.Axpy.C33_into_compressed": "propext, Classical.choice, Quot.sound",
"Ublas.Axpy.C33_into_compressed_matrix": "propext, Classical.choice, Quot.sound",
"Ublas.Axpy.C33_into_dense_matrix": "propext, Classical.choice, Quot.sound",
"Ublas.Axpy.C34_opb_prod_partial": "propext, Classical.choice, Quot.sound",
"Ublas.Axpy.C34_dense_partial": "propext, Classical.choice, Quot.sound",
"Ublas.Axpy.C34_opb_iterating_refuted": "propext, Classical.choice, Quot.sound",
"Ublas.Blocked.C35_matrix_vector": "propext, Classical.choice, Quot.sound",
"Ublas.Blocked.C35_vector_matrix": "propext, Classical.choice, Quot.sound",
"Ublas.Blocked.C35_matrix_matrix": "propext, Classical.choice, Quot.sound",
"Ublas.Blocked.C35_zero_block_diverges": "propext",
"Ublas.SparseProd.C36_sparse_prod_partial": "propext, Classical.choice, Quot.sound",
"Ublas.SparseProd.C36_empty_result_refuted": "propext, Classical.choice, Quot.sound",
"Ublas.Solve.C37_vector": "propext, Classical.choice, Quot.sound",
"Ublas.Solve.C37_left": "propext, Classical.choice, Quot.sound",
"Ublas.Solve.C37_matrix": "propext, Classical.choice, Quot.sound",
"Ublas.Solve.C37_singular": "propext, Classical.choice, Quot.sound",
"Ublas.Solve.C37_matrix_singular": "propext, Classical.choice, Quot.sound",
"Ublas.Solve.C37_unique": "propext, Classical.choice, Quot.sound",
"Ublas.Solve.C37_into_vector": "propext, Classical.choice, Quot.sound",
"Ublas.Solve.C37_into_matrix": "propext, Classical.choice, Quot.sound",
"Ublas.Solve.C37_into_compressed_matrix": "propext, Classical.choice, Quot.sound",
"Ublas.Solve.C37_into_compressed_vector": "propext, Classical.choice, Quot.sound",
"Ublas.Solve.C37_solve": "propext, Classical.choice, Quot.sound",
"Ublas.Solve.C37_dense": "propext, Classical.choice, Quot.sound",
"Ublas.LU.C38_no_pivoting": "propext, Classical.choice, Quot.sound",
"Ublas.LU.C38_pivoting": "propext, Classical.choice, Quot.sound",
"Ublas.LU.C39_no_pivoting": "propext, Classical.choice, Quot.sound",
"Ublas.LU.C39_pivoting": "propext, Classical.choice, Quot.sound",
"Ublas.LU.C39_dense": "propext, Classical.choice, Quot.sound",
"Ublas.LU.C39_left_pivot_partial": "propext, Classical.choice, Quot.sound",
"Ublas.LU.substPivotLeft_solves": "propext, Classical.choice, Quot.sound",
"Ublas.LU.C39_left_pivot_refuted": "propext, Classical.choice, Quot.sound",
"Ublas.LU.C40_tall_partial": "propext, Classical.choice, Quot.sound",
"Ublas.LU.C40_wide_refuted": "propext, Classical.choice, Quot.sound",
"Ublas.LU.C41_vector": "propext, Classical.choice, Quot.sound",
"Ublas.LU.C41_matrix": "propext, Classical.choice, Quot.sound",
"Ublas.LU.C41_permutation": "propext, Classical.choice, Quot.sound",
"Ublas.C42_assign": "propext, Classical.choice, Quot.sound",
"Ublas.C42_op_assign": "propext, Classical.choice, Quot.sound",
"Ublas.C42_view_assign": "propext, Classical.choice, Quot.sound",
"Ublas.C42_view_op_assign": "propext, Classical.choice, Quot.sound",
"Ublas.C42_compressed_assign": "propext, Classical.choice, Quot.sound",
"Ublas.C42_compressed_op_assign": "propext, Classical.choice, Quot.sound",
"Ublas.C43_compressed_scaled": "propext, Classical.choice, Quot.sound",
"Ublas.C43_noalias_partial": "propext, Classical.choice, Quot.sound",
"Ublas.C43_noalias_view": "propext, Classical.choice, Quot.sound",
"Ublas.C43_sparse_expression": "propext, Classical.choice, Quot.sound",
"Ublas.C43_refuted": "propext",
"Ublas.C43_compressed_refuted": "propext",
"Ublas.C43_prod_differs": "propext, Quot.sound",
"Ublas.C44_assign_every_element": "propext, Classical.choice, Quot.sound",
"Ublas.C44_packed_view": "propext, Classical.choice, Quot.sound",
"Ublas.C44_triangular_row": "propext, Classical.choice, Quot.sound",
"Ublas.assign_elementwise": "propext, Classical.choice, Quot.sound",
"Ublas.view_supports": "propext, Classical.choice, Quot.sound",
"Ublas.compressed_supports": "propext, Classical.choice, Quot.sound",
"Ublas.C45_swap_rows_partial": "propext, Classical.choice, Quot.sound",
"Ublas.C45_refuted": "propext",
"Ublas.Norms.C46_sum": "propext, Classical.choice, Quot.sound",
"Ublas.Norms.C46_norm_1": "propext, Classical.choice, Quot.sound",
"Ublas.Norms.C46_norm_2": "propext, Classical.choice, Quot.sound",
"Ublas.Norms.C46_norm_inf": "propext, Classical.choice, Quot.sound",
"Ublas.Norms.C46_index_norm_inf": "propext, Classical.choice, Quot.sound",
"Ublas.Norms.C46_matrix": "propext, Classical.choice, Quot.sound",
"Ublas.Norms.C47_indexed_partial": "propext, Classical.choice, Quot.sound",
"Ublas.Norms.C47_iterated_partial": "propext, Classical.choice, Quot.sound",
"Ublas.Norms.C47_leading_zero_refuted": "propext, Quot.sound",
"Ublas.C48_binary": "propext, Classical.choice, Quot.sound",
"Ublas.C48_size_mismatch": "propext",
"Ublas.C48_unary": "propext, Quot.sound",
"Ublas.C48_expression_tree": "propext, Classical.choice, Quot.sound",
"Ublas.C48_matrix_unary": "propext, Quot.sound",
"Ublas.C48_matrix_trans": "propext, Quot.sound",
"Ublas.C48_matrix_binary": "propext, Classical.choice, Quot.sound",
"Ublas.C48_matrix_expression_tree": "propext, Classical.choice, Quot.sound",
"Ublas.C48_outer_partial": "propext, Quot.sound",
"Ublas.C48_outer_refuted": "propext, Classical.choice, Quot.sound",
"Ublas.C49_traverse12": "propext, Quot.sound",
"Ublas.C49_traverse21": "propext, Quot.sound",
"Ublas.C49_traverse12_no_columns": "propext, Classical.choice, Quot.sound",
"Ublas.C49_iterator_arith_partial": "propext, Quot.sound",
"Ublas.C49_iterator_arith_columns_partial": "propext, Quot.sound",
"Ublas.C49_negative_distance_refuted": "propext, Quot.sound",
"Ublas.C50_compressed_matrix_traversal": "propext, Classical.choice, Quot.sound",
"Ublas.Tens.C51_bijection": "propext, Classical.choice, Quot.sound",
"Ublas.Tens.C52_transform": "propext, Classical.choice, Quot.sound",
"Ublas.Tens.C52_copy": "propext, Classical.choice, Quot.sound",
"Ublas.Tens.C52_accumulate": "propext, Classical.choice, Quot.sound",
"Ublas.Tens.C52_accumulate_sum": "propext, Classical.choice, Quot.sound",
"Ublas.Tens.C52_norm": "propext, Classical.choice, Quot.sound",
"Ublas.Tens.C52_rank0": "propext",
"Ublas.Tens.C53_trans_partial": "propext, Classical.choice, Quot.sound",
"Ublas.Tens.C53_inverse_partial": "propext, Classical.choice, Quot.sound",
"Ublas.Tens.C53_rank1_refuted": "propext, Classical.choice, Quot.sound",
"Ublas.Tens.C53_invalid": "propext, Classical.choice, Quot.sound",
"Ublas.Tens.C54_ttv": "propext, Classical.choice, Quot.sound",
"Ublas.Tens.C54_prodVec": "propext, Classical.choice, Quot.sound",
"Ublas.Tens.C54_prodVec_refused": "propext, Classical.choice, Quot.sound",
"Ublas.Tens.C54_ttm": "propext, Classical.choice, Quot.sound",
"Ublas.Tens.C54_prodMat_partial": "propext, Classical.choice, Quot.sound",
"Ublas.Tens.C54_prodMat_rank1_refuted": "propext, Classical.choice, Quot.sound",
"Ublas.Tens.C54_prodMat_refused": "propext, Quot.sound",
"Ublas.Tens.C55_ttt": "propext, Classical.choice, Quot.sound",
"Ublas.Tens.C55_ttt_outer": "propext, Classical.choice, Quot.sound",
"Ublas.Tens.C55_prod_partial": "propext, Classical.choice, Quot.sound",
"Ublas.Tens.C55_prod_refused": "propext, Classical.choice, Quot.sound",
"Ublas.Tens.C55_static_refuted": "propext, Classical.choice, Quot.sound",
"Ublas.Tens.C55_inner_partial": "propext, Classical.choice, Quot.sound",
"Ublas.Tens.C55_inner_rank1_refuted": "propext, Classical.choice, Quot.sound",
"Ublas.Tens.C55_inner_refused": "propext",
"Ublas.Tens.C55_outer_partial": "propext, Classical.choice, Quot.sound",
"Ublas.Tens.C55_outer_rank1_refuted": "propext, Classical.choice, Quot.sound",
"Ublas.Tens.C56_reshape": "propext, Classical.choice, Quot.sound",
"Ublas.Tens.C56_invalid": "propext, Quot.sound",
"Ublas.Assigner.C57_vector_writes": "propext, Classical.choice, Quot.sound",
"Ublas.Assigner.C57_matrix_writes": "propext, Classical.choice, Quot.sound",
"Ublas.Assigner.C57_vector": "propext, Classical.choice, Quot.sound",
"Ublas.Assigner.C57_vector_values": "propext, Classical.choice, Quot.sound",
"Ublas.Assigner.C57_matrix": "propext, Classical.choice, Quot.sound",
"Ublas.Assigner.C57_matrix_values": "propext, Classical.choice, Quot.sound",
"Ublas.Assigner.C57_dense_values": "propext, Classical.choice, Quot.sound",
"Ublas.Assigner.C57_matrix_blocks": "propext, Classical.choice, Quot.sound",
"Ublas.Assigner.C57_compressed_vector": "propext, Classical.choice, Quot.sound",
"Ublas.Assigner.C57_compressed_matrix": "propext, Classical.choice, Quot.sound",
"Ublas.Assigner.C57_push_back_values": "propext, Classical.choice, Quot.sound",
"Ublas.Assigner.C57_matrix_push_back_values": "propext, Classical.choice, Quot.sound",
"Ublas.Assigner.C57_block_after_row_refuted": "propext, Classical.choice, Quot.sound",
"Ublas.Assigner.C57_empty_block_refuted": "propext, Quot.sound",
"Ublas.Assigner.C57_no_wrap_blocks_refuted": "propext, Classical.choice, Quot.sound",
"Ublas.Assigner.C57_move_left_refuted": "propext, Classical.choice, Quot.sound",
"Ublas.IO.C58_size_text": "propext, Classical.choice, Quot.sound",
"Ublas.IO.C58_vector_accepts": "propext, Classical.choice, Quot.sound",
"Ublas.IO.C58_vector_fail_unchanged": "propext, Classical.choice, Quot.sound",
"Ublas.IO.C58_vector_roundtrip": "propext, Classical.choice, Quot.sound",
"Ublas.IO.C58_matrix_accepts": "propext, Classical.choice, Quot.sound",
"Ublas.IO.C58_matrix_only_partial": "propext, Classical.choice, Quot.sound",
"Ublas.IO.C58_matrix_roundtrip": "propext, Classical.choice, Quot.sound",
"Ublas.IO.C58_symmetric_accepts": "propext, Classical.choice, Quot.sound",
"Ublas.IO.C58_symmetric_only": "propext, Classical.choice, Quot.sound",
"Ublas.IO.C58_symmetric_roundtrip": "propext, Classical.choice, Quot.sound",
"Ublas.IO.natIO_roundTrips": "propext, Classical.choice, Quot.sound",
"Ublas.IO.C58_trailing_comma_refuted": "propext, Classical.choice, Quot.sound",
"Ublas.IO.C58_alloc_refuted": "propext, Classical.choice, Quot.sound",
"Ublas.IO.C58_overflow_refuted": "propext, Classical.choice, Quot.sound",
"Ublas.Blas.C59_reductions": "propext, Classical.choice, Quot.sound",
"Ublas.Blas.C59_dot": "propext, Classical.choice, Quot.sound",
"Ublas.Blas.C59_copy": "propext, Classical.choice, Quot.sound",
"Ublas.Blas.C59_swap": "propext",
"Ublas.Blas.C59_swap_bounded": "propext, Classical.choice, Quot.sound",
"Ublas.Blas.C59_swap_compressed": "propext, Classical.choice, Quot.sound",
"Ublas.Blas.C59_swap_demo": "propext, Classical.choice, Quot.sound",
"Ublas.Blas.C59_scal": "propext, Classical.choice, Quot.sound",
"Ublas.Blas.C59_axpy": "propext, Classical.choice, Quot.sound",
"Ublas.Blas.C59_axpy_self": "propext, Classical.choice, Quot.sound",
"Ublas.Blas.C59_rot_partial": "propext, Classical.choice, Quot.sound",
"Ublas.Blas.C59_rot_refuted": "propext",
"Ublas.Blas.C59_rot_compressed": "propext, Classical.choice, Quot.sound",
"Ublas.Blas.C59_tmv": "propext, Classical.choice, Quot.sound",
"Ublas.Blas.C59_gmv": "propext, Classical.choice, Quot.sound",
"Ublas.Blas.C59_gr_partial": "propext, Classical.choice, Quot.sound",
"Ublas.Blas.C59_sr_partial": "propext, Classical.choice, Quot.sound",
"Ublas.Blas.C59_hr_partial": "propext, Classical.choice, Quot.sound",
"Ublas.Blas.C59_sr2_partial": "propext, Classical.choice, Quot.sound",
"Ublas.Blas.C59_hr2_partial": "propext, Classical.choice, Quot.sound",
"Ublas.Blas.C59_tmm": "propext, Classical.choice, Quot.sound",
"Ublas.Blas.C59_gmm": "propext, Classical.choice, Quot.sound",
"Ublas.Blas.C59_srk": "propext, Classical.choice, Quot.sound",
"Ublas.Blas.C59_hrk": "propext, Classical.choice, Quot.sound",
"Ublas.Blas.C59_sr2k": "propext, Classical.choice, Quot.sound",
"Ublas.Blas.C59_hr2k": "propext, Classical.choice, Quot.sound",
"Ublas.Blas.C59_tsv": "propext, Classical.choice, Quot.sound",
"Ublas.Blas.C59_tsm": "propext, Classical.choice, Quot.sound",
"Ublas.C60_vector_of_vector": "propext, Classical.choice, Quot.sound",
"Ublas.C60_rejects": "propext",
"Ublas.C61_banded_resize_preserve_refuted": "propext",
"Ublas.C61_banded_resize_shape_partial": "propext",
"Ublas.C62_all_of_vector_partial": "propext",
"Ublas.C62_all_of_proxy_refuted": "propext, Classical.choice, Quot.sound",
"Ublas.C62_out_of_bounds": "propext",
"Ublas.C63_discarding_resize_partial": "propext, Classical.choice, Quot.sound",
"Ublas.C63_discarding_resize_refuted": "propext",
"Ublas.C64_push_back_partial": "propext, Classical.choice, Quot.sound",
"Ublas.C64_push_back_after_pop_back_refuted": "propext",
"Ublas.C65_reverse_partial": "propext, Classical.choice, Quot.sound",
"Ublas.C65_reverse_refuted": "propext",
"Ublas.C66_triangular_partial": "propext, Classical.choice, Quot.sound",
"Ublas.C66_banded": "propext, Classical.choice, Quot.sound",
"Ublas.C66_refuted": "propext, Classical.choice, Quot.sound",
"Ublas.C67_dense_partial": "propext, Classical.choice, Quot.sound",
"Ublas.C67_refuted": "propext, Quot.sound",
"Ublas.C67_sparse_never_ends": "propext, Quot.sound",
"Ublas.C67_packed_zeros": "propext, Quot.sound",
"Ublas.C68_matrix_assign": "propext, Classical.choice, Quot.sound",
"Ublas.C68_packed_target": "propext, Classical.choice, Quot.sound",
"Ublas.C68_dense": "propext, Classical.choice, Quot.sound",
"Ublas.C68_compressed": "propext, Classical.choice, Quot.sound",
"Ublas.C68_triangular": "propext, Classical.choice, Quot.sound",
"Ublas.C68_strict_lower_refuted": "propext",
"Ublas.C68_range": "propext, Classical.choice, Quot.sound",
"Ublas.C68_compressed_range": "propext, Classical.choice, Quot.sound",
"Ublas.mview_supports": "propext, Classical.choice, Quot.sound",
"Ublas.compressedMatrix_supports": "propext, Classical.choice, Quot.sound",
"Ublas.tri_supports": "propext, Classical.choice, Quot.sound",
"Ublas.MT.range_supports": "propext, Classical.choice, Quot.sound",
"Ublas.LU.C69_determinant": "propext, Classical.choice, Quot.sound",
"Ublas.Tens.C70_access": "propext, Classical.choice, Quot.sound",
"Ublas.Tens.C70_wrong_rank": "propext",
"Ublas.Tens.C70_from_array": "propext, Classical.choice, Quot.sound",
"Ublas.Tens.C70_range_refuted": "propext, Classical.choice, Quot.sound",
"Ublas.Tens.C71_same_layout_partial": "propext, Classical.choice, Quot.sound",
"Ublas.Tens.C71_ne_refuted": "propext, Classical.choice, Quot.sound",
"Ublas.Tens.C71_layout_refuted": "propext, Classical.choice, Quot.sound",
"Ublas.Tens.C72_mixed_checked": "propext, Classical.choice, Quot.sound",
"Ublas.Tens.C72_eval_same_layout_partial": "propext, Classical.choice, Quot.sound",
"Ublas.Tens.C72_construct_same_layout_partial": "propext, Classical.choice, Quot.sound",
"Ublas.Tens.C72_shapes": "propext, Quot.sound",
"Ublas.Tens.C72_scalar": "propext, Classical.choice, Quot.sound",
"Ublas.Tens.C72_mixed_refuted": "propext, Classical.choice, Quot.sound",
"Ublas.Tens.C72_large_refuted": "propext, Quot.sound",
"Ublas.Tens.C72_mixed_shapes_refuted": "propext",
"Ublas.Tens.C73_contraction_partial": "propext, Classical.choice, Quot.sound",
"Ublas.Tens.C73_equal_partial": "propext, Classical.choice, Quot.sound",
"Ublas.Tens.C73_wrong_rank": "propext, Classical.choice, Quot.sound",
"Ublas.Tens.C73_disjoint_refuted": "propext, Classical.choice, Quot.sound",
"Ublas.C74_vector": "propext, Quot.sound",
"Ublas.C74_matrix": "propext, Classical.choice, Quot.sound",
"Ublas.C74_view": "propext, Classical.choice, Quot.sound",
"Ublas.C74_dense_vector": "propext, Classical.choice, Quot.sound",
"Ublas.C74_compressed_vector": "propext, Classical.choice, Quot.sound",
"Ublas.C74_dense_matrix": "propext, Classical.choice, Quot.sound",
"Ublas.C74_compressed_matrix": "propext, Classical.choice, Quot.sound",
"Ublas.C74_triangular": "propext, Classical.choice, Quot.sound",
"Ublas.C75_across_release_partial": "propext, Classical.choice, Quot.sound",
"Ublas.C75_find_element": "propext, Classical.choice, Quot.sound",
"Ublas.C75_find_element_refuted": "propext, Classical.choice, Quot.sound",
"Ublas.C75_across_debug": "propext, Classical.choice, Quot.sound",
"Ublas.C75_across_reverse": "propext, Classical.choice, Quot.sound",
"Ublas.C60_insert_past_end_refuted": "propext, Classical.choice, Quot.sound",
"Ublas.C76_zero_vector": "propext, Quot.sound",
"Ublas.C76_scalar_vector": "propext, Classical.choice, Quot.sound",
"Ublas.C76_unit_vector_partial": "propext, Quot.sound",
"Ublas.C76_unit_vector_visits_outside": "propext, Quot.sound",
"Ublas.C76_unit_vector_refuted": "propext, Quot.sound",
"Ublas.C76_unit_vector_assigned": "propext, Quot.sound",
"Ublas.C76_zero_matrix": "propext, Quot.sound",
"Ublas.C76_identity_matrix_partial": "propext, Classical.choice, Quot.sound",
"Ublas.C76_identity_columns_throw": "propext, Classical.choice, Quot.sound",
"Ublas.C76_identity_columns_refuted": "propext, Classical.choice, Quot.sound",
"Ublas.C76_scalar_matrix": "propext, Classical.choice, Quot.sound",
"Ublas.C76_identity_assigned": "propext, Classical.choice, Quot.sound",
"Ublas.C77_c_matrix_release_partial": "propext, Classical.choice, Quot.sound",
"Ublas.C77_c_matrix_step_partial": "propext, Classical.choice, Quot.sound",
"Ublas.C77_c_matrix_capacity": "propext",
"Ublas.C77_c_matrix_resize_throws": "propext, Classical.choice, Quot.sound",
"Ublas.C77_c_matrix_refuted": "propext, Classical.choice, Quot.sound",
"Ublas.C77_c_matrix_swap_partial": "propext, Classical.choice, Quot.sound",
"Ublas.C77_c_matrix_swap_refuted": "propext",
"Ublas.C77_c_vector": "propext, Quot.sound",
"Ublas.C77_c_vector_swap_partial": "propext, Quot.sound",
"Ublas.C77_c_vector_assign_partial": "propext, Classical.choice, Quot.sound",
"Ublas.C77_c_vector_swap_refuted": "propext",
"Ublas.C78_history_partial": "propext, Classical.choice, Quot.sound",
"Ublas.C78_ctor": "propext, Classical.choice, Quot.sound",
"Ublas.C78_history_refuted": "propext",
"Ublas.C78_rejects_partial": "propext, Quot.sound",
"Ublas.C78_rejects_refuted": "propext",
"Ublas.C78_walk": "propext, Classical.choice, Quot.sound",
"Ublas.C78_iterator_rejects": "propext, Quot.sound",
"Ublas.C78_iterator_assign_refuted": "propext",
"Ublas.C78_iterator_less_partial": "propext",
"Ublas.C78_iterator_less_refuted": "propext, Quot.sound",
"Ublas.C79_swap": "propext, Classical.choice, Quot.sound",
"Ublas.C79_size_mismatch": "propext",
"Ublas.C79_dense_views": "propext, Classical.choice, Quot.sound",
"Ublas.C79_dense_sparse": "propext, Classical.choice, Quot.sound",
"Ublas.C79_sparse_sparse": "propext, Classical.choice, Quot.sound",
"Ublas.C79_compressed_lines": "propext, Classical.choice, Quot.sound",
"Ublas.C79_matrix_views_partial": "propext, Classical.choice, Quot.sound",
"Ublas.C79_matrix_sparse": "propext, Classical.choice, Quot.sound",
"Ublas.C79_matrix_packed": "propext, Classical.choice, Quot.sound",
"Ublas.C79_matrix_size_mismatch": "propext",
"Ublas.C79_compressed_ranges": "propext, Classical.choice, Quot.sound",
"Ublas.C79_triangular_ranges": "propext, Classical.choice, Quot.sound",
"Ublas.C79_empty_refuted": "propext, Quot.sound",
"Ublas.C79_mixed_triangles_refuted": "propext",
"Ublas.C80_read": "propext, Quot.sound",
"Ublas.C80_symmetric": "propext, Quot.sound",
"Ublas.C80_hermitian": "propext, Quot.sound",
"Ublas.C80_diagonal": "propext, Quot.sound",
"Ublas.C80_write": "propext, Classical.choice, Quot.sound",
"Ublas.C80_write_hermitian": "propext, Classical.choice, Quot.sound",
"Ublas.C80_write_hermitian_loose": "propext, Classical.choice, Quot.sound",
"Ublas.C80_insert_hermitian": "propext, Classical.choice, Quot.sound",
"Ublas.C80_line": "propext, Classical.choice, Quot.sound",
"Ublas.C80_traverse": "propext, Classical.choice, Quot.sound",
"Ublas.C80_jump": "propext, Classical.choice, Quot.sound",
"Ublas.C80_step_back_partial": "propext, Classical.choice, Quot.sound",
"Ublas.C80_jump_back_refuted": "propext, Classical.choice, Quot.sound",
"Ublas.C80_reverse_partial": "propext, Classical.choice, Quot.sound",
"Ublas.C80_reverse_refuted": "propext, Classical.choice, Quot.sound",
"Ublas.C80_reverse_element_refuted": "propext, Classical.choice, Quot.sound",
"Ublas.C80_distance_refuted": "",
"Ublas.C81_triangular_read": "propext, Classical.choice, Quot.sound",
"Ublas.C81_triangular_write": "propext, Quot.sound",
"Ublas.C81_triangular_partial": "propext, Classical.choice, Quot.sound",
"Ublas.C81_wide_refuted": "propext, Classical.choice, Quot.sound",
"Ublas.C81_triangular_reverse_row": "propext, Classical.choice, Quot.sound",
"Ublas.C81_banded_read": "propext, Classical.choice, Quot.sound",
"Ublas.C81_banded_write": "propext, Classical.choice, Quot.sound",
"Ublas.C81_banded": "propext, Classical.choice, Quot.sound",
"Ublas.C82_dense_views": "propext, Classical.choice, Quot.sound",
"Ublas.C82_sparse_views": "propext, Classical.choice, Quot.sound",
"Ublas.C82_window_spec": "propext, Quot.sound",
"Ublas.C82_mapped_views": "propext, Classical.choice, Quot.sound",
"Ublas.C82_coordinate_views": "propext, Classical.choice, Quot.sound",
"Ublas.C83_dense_views_partial": "propext, Classical.choice, Quot.sound",
"Ublas.C83_dense_refuted": "propext",
"Ublas.C83_dense_lines": "propext, Classical.choice, Quot.sound",
"Ublas.C83_sparse_views": "propext, Classical.choice, Quot.sound",
"Ublas.C84_triangular_views": "propext, Classical.choice, Quot.sound",
"Ublas.C84_banded_views": "propext, Classical.choice, Quot.sound",
"Ublas.C84_symmetric_views": "propext, Classical.choice, Quot.sound",
"Ublas.C84_hermitian_views": "propext, Classical.choice, Quot.sound",
"Ublas.C84_readable": "propext, Classical.choice, Quot.sound",
"Ublas.C85_mapped_views_partial": "propext, Classical.choice, Quot.sound",
"Ublas.C85_reverse_refuted": "propext, Classical.choice, Quot.sound",
"Ublas.C85_mapped_instances": "propext, Classical.choice, Quot.sound",
"Ublas.C86_coordinate_views_partial": "propext, Classical.choice, Quot.sound",
"Ublas.C86_reverse_refuted": "propext, Classical.choice, Quot.sound",
"Ublas.C87_map_of_maps": "propext, Classical.choice, Quot.sound",
"Ublas.C87_map_of_maps_std": "propext, Classical.choice, Quot.sound",
"Ublas.C87_rejects": "propext, Classical.choice, Quot.sound",
"Ublas.C87_unchecked_refuted": "propext, Classical.choice, Quot.sound",
"Ublas.C88_map_of_maps_iterators_partial": "propext, Classical.choice, Quot.sound",
"Ublas.C88_absent_line_refuted": "propext, Classical.choice, Quot.sound",
"Ublas.C88_reverse_refuted": "propext, Classical.choice, Quot.sound",
"Ublas.C88_minor_refuted": "propext, Classical.choice, Quot.sound",
"Ublas.C88_minor_square_refuted": "propext, Classical.choice, Quot.sound",
"Ublas.Tens.C89_equal": "propext, Quot.sound",
"Ublas.Tens.C89_unequal_partial": "propext, Quot.sound",
"Ublas.Tens.C89_unequal_refuted": "propext",
"Ublas.Tens.C89_compare_partial": "propext, Classical.choice, Quot.sound",
"Ublas.Tens.C89_compare_refuted": "propext, Classical.choice, Quot.sound",
"Ublas.Tens.C89_inner_partial": "propext, Classical.choice, Quot.sound",
"Ublas.Tens.C89_inner_refuted": "propext, Classical.choice, Quot.sound",
"Ublas.Tens.C90_get": "propext, Quot.sound",
"Ublas.Tens.C90_cat": "propext, Quot.sound",
"Ublas.Tens.C90_select": "propext, Quot.sound",
"Ublas.Tens.C90_set": "propext, Classical.choice, Quot.sound",
"Ublas.Tens.C90_reverse": "propext, Quot.sound",
"Ublas.Tens.C90_accumulate": "propext, Quot.sound",
"Ublas.Tens.C90_product": "propext, Quot.sound",
"Ublas.Tens.C90_all_of": "propext, Quot.sound",
"Ublas.Tens.C90_any_of_partial": "propext, Quot.sound",
"Ublas.Tens.C90_any_of_refuted": "propext, Quot.sound",
"Ublas.Tens.C90_shapes_partial": "propext, Classical.choice, Quot.sound",
"Ublas.Tens.C90_shapes_empty": "propext",
"Ublas.Tens.C90_shapes_refuted": "propext",
"Ublas.Tens.C90_strides": "propext, Classical.choice, Quot.sound",
"Ublas.Tens.C90_strides_rejected": "propext, Quot.sound",
"Ublas.Tens.C91_access": "propext, Classical.choice, Quot.sound",
"Ublas.Tens.C91_single": "propext, Quot.sound",
"Ublas.Tens.C91_range_refuted": "propext, Classical.choice, Quot.sound",
"Ublas.Tens.C91_from_matrix": "propext, Classical.choice, Quot.sound",
"Ublas.Tens.C91_from_vector_partial": "propext, Classical.choice, Quot.sound",
"Ublas.Tens.C91_from_vector_refuted": "propext, Classical.choice, Quot.sound",
"Ublas.Tens.C91_from_tensor": "propext, Classical.choice, Quot.sound",
"Ublas.Tens.C91_fill": "propext, Classical.choice, Quot.sound",
"Ublas.Tens.C91_init": "propext, Classical.choice, Quot.sound",
"Ublas.Tens.C91_init_static": "propext, Quot.sound",
"Ublas.C92_c_array_view": "propext, Quot.sound",
"Ublas.C92_view_reads": "propext, Quot.sound",
"Ublas.C92_construct": "propext, Quot.sound",
"Ublas.C92_view_follows_values": "propext, Quot.sound",
"Ublas.C92_view_of_compressed_matrix": "propext, Classical.choice, Quot.sound",
"Ublas.C92_incomplete_matrix_refuted": "propext",
"Ublas.C92_indices_unchecked_refuted": "propext, Classical.choice, Quot.sound",
"Ublas.C93_lines": "propext, Quot.sound",
"Ublas.C93_iteration": "propext, Quot.sound",
"Ublas.C93_random_access": "propext, Classical.choice, Quot.sound",
"Ublas.C93_history": "propext, Classical.choice, Quot.sound",
"Ublas.C93_initial": "propext, Quot.sound",
"Ublas.C93_update_all": "propext, Classical.choice, Quot.sound",
"Ublas.Tens.C94_print": "propext, Classical.choice, Quot.sound",
"Ublas.Tens.C94_print_scalar": "propext, Quot.sound",
"Ublas.Tens.C94_print_vector": "propext, Classical.choice, Quot.sound",
"Ublas.Tens.C94_rank1_refuted": "propext, Quot.sound",
"Ublas.Tens.C94_default_refuted": "propext",
"Ublas.Tens.C95_new_tensor_partial": "propext, Classical.choice, Quot.sound",
"Ublas.Tens.C95_empty": "propext",
"Ublas.Tens.C95_expression_partial": "propext, Classical.choice, Quot.sound",
"Ublas.Tens.C95_large_refuted": "propext, Classical.choice, Quot.sound",
"Ublas.C96_matrix_no_false_alarm": "propext, Classical.choice, Quot.sound",
"Ublas.C96_matrix_packed": "propext, Classical.choice, Quot.sound",
"Ublas.C96_vector_no_false_alarm": "propext, Classical.choice, Quot.sound",
"Ublas.C96_vector_packed": "propext, Classical.choice, Quot.sound",
"Ublas.C96_compressed_matrix": "propext, Classical.choice, Quot.sound",
"Ublas.C96_compressed_vector": "propext, Classical.choice, Quot.sound",
"Ublas.C96_triangular": "propext, Classical.choice, Quot.sound",
"Ublas.C96_triangular_row": "propext, Classical.choice, Quot.sound",
"Ublas.LU.C97_factorize": "propext, Classical.choice, Quot.sound",
"Ublas.LU.C97_factorize_pivot": "propext, Classical.choice, Quot.sound",
"Ublas.LU.C97_axpy": "propext, Classical.choice, Quot.sound",
"Ublas.LU.C97_substitute": "propext, Classical.choice, Quot.sound",
"Ublas.LU.C97_rectangular_refuted": "propext, Quot.sound",
"Ublas.LU.C97_rectangular_pivot_refuted": "propext, Classical.choice, Quot.sound",
"Ublas.Axpy.C98_matrix_vector": "propext, Classical.choice, Quot.sound",
"Ublas.Axpy.C98_vector_matrix": "propext, Classical.choice, Quot.sound",
"Ublas.Axpy.C98_compressed_vector": "propext, Classical.choice, Quot.sound",
"Ublas.Axpy.C98_vector_compressed": "propext, Classical.choice, Quot.sound",
"Ublas.Axpy.C98_matrix_matrix": "propext, Classical.choice, Quot.sound",
"Ublas.Axpy.C98_opb": "propext, Classical.choice, Quot.sound",
"Ublas.Axpy.C98_restricted_partial": "propext, Classical.choice, Quot.sound",
"Ublas.Axpy.C98_restricted_refuted": "propext, Classical.choice, Quot.sound",
"Ublas.Axpy.C98_compressed_matrix": "propext, Classical.choice, Quot.sound",
"Ublas.Adaptor.C99_value_semantics": "propext, Classical.choice, Quot.sound",
"Ublas.Adaptor.C99_all_destroyed": "propext, Classical.choice, Quot.sound",
"Ublas.Adaptor.C99_out_of_range_rejected": "propext, Quot.sound",
"Ublas.C100_compare": "propext, Quot.sound",
"Ublas.C100_mapped_vector": "propext, Quot.sound",
"Ublas.C100_mapped_matrix": "propext, Classical.choice, Quot.sound",
"Ublas.C100_mapped_instances": "propext, Classical.choice, Quot.sound",
"Ublas.C100_compressed_vector": "propext, Classical.choice, Quot.sound",
"Ublas.C100_compressed_matrix": "propext, Classical.choice, Quot.sound",
"Ublas.C100_coordinate_vector": "propext, Classical.choice, Quot.sound",
"Ublas.C100_coordinate_matrix": "propext, Classical.choice, Quot.sound",
"Ublas.C100_out_of_range": "propext",
"Ublas.C101_vector": "propext, Quot.sound",
"Ublas.C101_matrix": "propext, Classical.choice, Quot.sound",
"Ublas.C101_vector_partial": "propext, Quot.sound",
"Ublas.C101_matrix_partial": "propext, Classical.choice, Quot.sound",
"Ublas.C101_self_scale_refuted": "propext",
"Ublas.C101_compressed_vector_insert": "propext, Classical.choice, Quot.sound",
"Ublas.C101_compressed_matrix_insert": "propext, Classical.choice, Quot.sound",
"Ublas.C101_self_insert_refuted": "propext",
"Ublas.C101_coordinate_vector_insert": "propext, Classical.choice, Quot.sound",
"Ublas.C101_coordinate_matrix_insert": "propext, Classical.choice, Quot.sound",
"Ublas.C101_coordinate_insert_refuted": "propext",
"Ublas.C102_statements_partial": "propext, Classical.choice, Quot.sound",
"Ublas.C102_block_partial": "propext, Classical.choice, Quot.sound",
"Ublas.C102_adaptor_partial": "propext, Classical.choice, Quot.sound",
"Ublas.C102_refuted": "propext",
"Ublas.C103_vector_assign_partial": "propext, Classical.choice, Quot.sound",
"Ublas.C103_matrix_assign_partial": "propext, Classical.choice, Quot.sound",
"Ublas.C103_prod_partial": "propext, Classical.choice, Quot.sound",
"Ublas.C103_empty_refuted": "propext, Classical.choice, Quot.sound",
"Ublas.C103_large_refuted": "propext, Quot.sound",
"Ublas.Exc.C104_alloc_failure": "propext, Classical.choice, Quot.sound",
"Ublas.Exc.C104_history": "propext, Classical.choice, Quot.sound",
"Ublas.Exc.C104_element_partial": "propext, Classical.choice, Quot.sound",
"Ublas.Exc.C104_resize_element_refuted": "propext, Quot.sound",
"Ublas.Exc.C104_ctor_leak_refuted": "propext, Quot.sound",
"Ublas.XC.C105_assign_otherwise": "propext, Quot.sound",
"Ublas.XC.C105_cmatrix_insert_otherwise": "propext, Classical.choice, Quot.sound",
"Ublas.XC.C105_coordinate_append_otherwise": "propext, Classical.choice, Quot.sound",
"Ublas.XC.C105_compressed_otherwise": "propext, Quot.sound",
"Ublas.XC.C105_cmatrix_otherwise": "propext, Quot.sound",
"Ublas.XC.C105_coordinate_otherwise": "propext, Quot.sound",
"Ublas.XC.C105_dense_resize": "propext, Quot.sound",
"Ublas.XC.C105_dense_expression": "propext, Quot.sound",
"Ublas.XC.C105_triangular_resize": "propext, Quot.sound",
"Ublas.XC.C105_symmetric_resize": "propext, Quot.sound",
"Ublas.XC.C105_banded_resize": "propext, Classical.choice, Quot.sound",
"Ublas.XC.C105_dense_assign_partial": "Quot.sound",
"Ublas.XC.C105_dense_assign_refuted": "propext, Classical.choice, Quot.sound",
"Ublas.XC.C105_packed_assign_refuted": "propext, Quot.sound",
"Ublas.XC.C105_symmetric_assign_refuted": "propext, Quot.sound",
"Ublas.XC.C105_banded_assign_refuted": "propext, Quot.sound",
"Ublas.XC.C105_compressed_reserve_partial": "propext, Classical.choice, Quot.sound",
"Ublas.XC.C105_compressed_retry_refuted": "propext, Classical.choice, Quot.sound",
"Ublas.XC.C105_compressed_assign_refuted": "propext, Quot.sound",
"Ublas.XC.C105_compressed_resize_refuted": "propext, Quot.sound",
"Ublas.XC.C105_cmatrix_reserve_partial": "propext, Classical.choice, Quot.sound",
"Ublas.XC.C105_cmatrix_retry_refuted": "propext, Classical.choice, Quot.sound",
"Ublas.XC.C105_cmatrix_resize_partial": "propext, Classical.choice, Quot.sound",
"Ublas.XC.C105_cmatrix_resize_refuted": "propext, Quot.sound",
"Ublas.XC.C105_cmatrix_assign_refuted": "propext, Classical.choice, Quot.sound",
"Ublas.XC.C105_coordinate_reserve_partial": "propext, Classical.choice, Quot.sound",
"Ublas.XC.C105_coordinate_retry_refuted": "propext, Classical.choice, Quot.sound",
"Ublas.XC.C105_coordinate_assign_refuted": "propext, Classical.choice, Quot.sound",
"Ublas.Tens.Life.C106_dynamic": "propext, Classical.choice, Quot.sound",
"Ublas.Tens.Life.C106_static_rank_partial": "propext, Classical.choice, Quot.sound",
"Ublas.Tens.Life.C106_moved_from_refuted": "propext, Classical.choice, Quot.sound",
"Ublas.Tens.Life.C106_copy_empty_refuted": "propext, Quot.sound",
"Ublas.Tens.Life.C106_from_vector_refuted": "propext",
"Ublas.C107_dense": "propext",
"Ublas.C107_vector_views": "propext",
"Ublas.C107_matrix_views": "propext, Classical.choice, Quot.sound",
"Ublas.C107_matrix_lines": "propext, Classical.choice, Quot.sound",
"Ublas.C107_structured": "propext, Classical.choice, Quot.sound",
"Ublas.C107_adaptors": "propext",
"Ublas.C107_mapped_partial": "propext, Quot.sound",
"Ublas.C107_mapped_vector_insert_refuted": "propext, Quot.sound",
"Ublas.C107_compressed_vector_partial": "propext, Classical.choice, Quot.sound",
"Ublas.C107_compressed_vector_full_refuted": "propext, Classical.choice, Quot.sound",
"Ublas.C107_coordinate_vector": "propext, Classical.choice, Quot.sound",
"Ublas.C107_coordinate_matrix_refuted": "propext, Classical.choice, Quot.sound",
"Ublas.C107_compressed_matrix_partial": "propext, Classical.choice, Quot.sound",
"Ublas.C107_compressed_matrix_read_refuted": "propext, Classical.choice, Quot.sound",
"Ublas.C107_compressed_matrix_write_refuted": "propext",
"Ublas.C107_vector_of_vector_partial": "propext, Classical.choice, Quot.sound",
"Ublas.C107_vector_of_vector_insert_refuted": "propext, Classical.choice, Quot.sound",
"Ublas.C108_dense_matrix": "propext",
"Ublas.C108_views": "propext",
"Ublas.C108_structured": "propext",
"Ublas.C108_adaptors": "propext",
"Ublas.C108_compressed_vector": "propext",
"Ublas.C108_compressed_matrix": "propext, Quot.sound",
"Ublas.C108_vector_of_vector": "propext",
"Ublas.C108_mapped": "propext",
"Ublas.C108_coordinate_refuted": "propext",
"Ublas.C108_coordinate_vector_partial": "propext, Quot.sound",
"Ublas.C108_coordinate_matrix_partial": "propext, Quot.sound",
"Ublas.C108_coordinate_values": "propext, Classical.choice, Quot.sound",
"Ublas.C109_mapped_elements": "propext, Classical.choice, Quot.sound",
"Ublas.C109_packed_element": "propext, Classical.choice, Quot.sound",
"Ublas.C109_packed_size": "propext, Classical.choice, Quot.sound",
"Ublas.C109_banded_partial": "propext, Classical.choice, Quot.sound",
"Ublas.C109_banded_refuted": "propext",
"Ublas.C109_key_checked": "propext, Classical.choice, Quot.sound",
"Ublas.C109_key_injective": "propext, Classical.choice, Quot.sound",
"Ublas.C109_mapped_refuted": "propext",
"Ublas.C109_restrict_capacity": "propext, Quot.sound",
"Ublas.C109_tensor_partial": "propext, Classical.choice, Quot.sound",
"Ublas.C109_tensor_refuted": "propext",
"Ublas.C110_assign": "propext, Classical.choice, Quot.sound",
"Ublas.C110_op_assign": "propext, Classical.choice, Quot.sound",
"Ublas.C110_view_assign": "propext, Classical.choice, Quot.sound",
"Ublas.C110_view_op_assign": "propext, Classical.choice, Quot.sound",
"Ublas.C110_compressed_assign": "propext, Classical.choice, Quot.sound",
"Ublas.C110_noalias_partial": "propext, Classical.choice, Quot.sound",
"Ublas.C110_noalias_refuted": "propext",
"Ublas.C110_view_copy_partial": "propext, Classical.choice, Quot.sound",
"Ublas.C110_range_copy_partial": "propext, Classical.choice, Quot.sound",
"Ublas.C110_range_copy_refuted": "propext",
"Ublas.C110_slice_copy_refuted": "propext, Classical.choice, Quot.sound",
"Ublas.OpenCL.C111_trans_partial": "propext, Classical.choice, Quot.sound",
"Ublas.OpenCL.C111_change_layout_partial": "propext, Classical.choice, Quot.sound",
"Ublas.OpenCL.C111_trans_host_partial": "propext, Classical.choice, Quot.sound",
"Ublas.OpenCL.C111_in_place_refuted": "propext, Quot.sound",
"Ublas.OpenCL.C111_layout_refuted": "propext",
"Ublas.OpenCL.C111_size_refuted": "propext",
"Ublas.OpenCL.C112_prod_partial": "propext, Classical.choice, Quot.sound",
"Ublas.OpenCL.C112_prod_vector_partial": "propext, Classical.choice, Quot.sound",
"Ublas.OpenCL.C112_vector_prod_partial": "propext, Classical.choice, Quot.sound",
"Ublas.OpenCL.C112_outer_prod_partial": "propext, Classical.choice, Quot.sound",
"Ublas.OpenCL.C112_prod_host_partial": "propext, Classical.choice, Quot.sound",
"Ublas.OpenCL.C112_in_place_refuted": "propext",
"Ublas.OpenCL.C112_result_size_refuted": "propext",
"Ublas.OpenCL.C113_element_wise_partial": "propext, Classical.choice, Quot.sound",
"Ublas.OpenCL.C113_element_wise_vector_partial": "propext, Classical.choice, Quot.sound",
"Ublas.OpenCL.C113_scalar": "propext, Classical.choice, Quot.sound",
"Ublas.OpenCL.C113_host_partial": "propext, Classical.choice, Quot.sound",
"Ublas.OpenCL.C113_layout_refuted": "propext, Quot.sound",
"Ublas.OpenCL.C113_result_size_refuted": "propext",
"Ublas.Threads.C114_compressed_vector": "propext, Classical.choice, Quot.sound",
"Ublas.Threads.C114_compressed_matrix": "propext, Classical.choice, Quot.sound",
"Ublas.Threads.C114_dense": "propext, Classical.choice, Quot.sound",
"Ublas.Threads.C114_vector": "propext, Classical.choice, Quot.sound",
"Ublas.Threads.C114_triangular": "propext, Classical.choice, Quot.sound",
"Ublas.Threads.C114_symmetric": "propext, Classical.choice, Quot.sound",
"Ublas.Threads.C114_banded": "propext, Classical.choice, Quot.sound",
"Ublas.Threads.C114_hermitian": "propext, Classical.choice, Quot.sound",
"Ublas.Threads.C114_coordinate_partial": "propext, Classical.choice, Quot.sound",
"Ublas.Threads.C114_coordinate_matrix_partial": "propext, Classical.choice, Quot.sound",
"Ublas.Threads.C114_coordinate_matrix_refuted": "propext",
"Ublas.Threads.C114_coordinate_alone": "propext, Classical.choice, Quot.sound",
"Ublas.Threads.C114_coordinate_refuted": "propext",
"Ublas.Threads.C115_dense": "propext, Classical.choice, Quot.sound",
"Ublas.Threads.C115_vector": "propext, Classical.choice, Quot.sound",
"Ublas.Threads.C115_triangular": "propext, Classical.choice, Quot.sound",
"Ublas.Threads.C115_banded": "propext, Classical.choice, Quot.sound",
"Ublas.Threads.C115_symmetric_partial": "propext, Classical.choice, Quot.sound",
"Ublas.Threads.C115_symmetric_names_partial": "propext, Classical.choice, Quot.sound",
"Ublas.Threads.C115_hermitian_partial": "propext, Classical.choice, Quot.sound",
"Ublas.Threads.C115_hermitian_refuted": "propext",
"Ublas.Threads.C115_symmetric_refuted": "propext",
"Ublas.Threads.C115_compressed_partial": "propext, Classical.choice, Quot.sound",
"Ublas.Threads.C115_compressed_refuted": "propext",
"Ublas.Ser.C116_vector": "propext, Classical.choice, Quot.sound",
"Ublas.Ser.C116_bounded_vector": "propext, Classical.choice, Quot.sound",
"Ublas.Ser.C116_matrix": "propext, Classical.choice, Quot.sound",
"Ublas.Ser.C116_vector_of_vector": "propext, Classical.choice, Quot.sound",
"Ublas.Ser.C116_c_vector": "propext, Classical.choice, Quot.sound",
"Ublas.Ser.C116_c_matrix": "propext, Classical.choice, Quot.sound",
"Ublas.Ser.C116_constant": "propext",
"Ublas.Ser.C116_mapped_vector": "propext, Classical.choice, Quot.sound",
"Ublas.Ser.C116_mapped_matrix": "propext, Classical.choice, Quot.sound",
"Ublas.Ser.C116_map_of_maps": "propext, Classical.choice, Quot.sound",
"Ublas.Ser.C116_compressed_vector": "propext, Classical.choice, Quot.sound",
"Ublas.Ser.C116_compressed_matrix": "propext, Classical.choice, Quot.sound",
"Ublas.Ser.C116_coordinate_vector": "propext, Classical.choice, Quot.sound",
"Ublas.Ser.C116_coordinate_matrix": "propext, Classical.choice, Quot.sound",
"Ublas.Ser.C116_generalized_vector_of_vector": "propext, Classical.choice, Quot.sound",
"Ublas.Ser.C116_fixed_vector": "propext, Classical.choice, Quot.sound",
"Ublas.Ser.C116_fixed_matrix": "propext, Classical.choice, Quot.sound",
"Ublas.Ser.C116_sequence": "propext",
"Ublas.Ser.C117_dense_partial": "propext, Quot.sound",
"Ublas.Ser.C117_fixed_partial": "propext, Quot.sound",
"Ublas.Ser.C117_constant_partial": "propext, Quot.sound",
"Ublas.Ser.C117_mapped_std_partial": "propext, Quot.sound",
"Ublas.Ser.C117_map_array_partial": "propext, Quot.sound",
"Ublas.Ser.C117_matrix_refuted": "propext, Classical.choice, Quot.sound",
"Ublas.Ser.C117_c_matrix_refuted": "propext",
"Ublas.Ser.C117_sparse_refuted": "propext, Classical.choice, Quot.sound",
"Ublas.Ser.C117_map_array_refuted": "propext, Classical.choice, Quot.sound",
"Ublas.Ser.C117_map_of_maps_refuted": "propext, Quot.sound",
"Ublas.C118_vector_constructors": "propext, Quot.sound",
"Ublas.C118_vector_history": "propext, Classical.choice, Quot.sound",
"Ublas.C118_vector_mismatch": "propext, Classical.choice, Quot.sound",
"Ublas.FMat.C118_matrix_constructors": "propext, Quot.sound",
"Ublas.FMat.C118_matrix_history": "propext, Classical.choice, Quot.sound",
"Ublas.FMat.C118_matrix_mismatch": "propext",
"Ublas.FMat.C118_matrix_traverse": "propext, Quot.sound",
"Ublas.C118_release_sizes_refuted": "propext",
"Ublas.C118_empty_refuted": "propext",
"Ublas.RVec.C119_random_access_partial": "propext, Classical.choice, Quot.sound",
"Ublas.RVec.C119_reverse_partial": "propext, Classical.choice, Quot.sound",
"Ublas.RVec.C119_selector": "propext, Classical.choice, Quot.sound",
"Ublas.RVec.C119_end_refused_partial": "propext, Classical.choice, Quot.sound",
"Ublas.RVec.C119_distance_refuted": "propext",
"Ublas.RVec.C119_subscript_refuted": "propext",
"Ublas.RVec.C119_line_end_refuted": "propext",
"Ublas.C120_storage_order": "propext, Classical.choice, Quot.sound",
"Ublas.C120_empty": "propext, Classical.choice, Quot.sound",
"Ublas.C120_sizes": "propext",
"Ublas.C120_defined": "propext",
"Ublas.C120_trans": "propext, Quot.sound",
"Ublas.C120_views": "propext, Classical.choice, Quot.sound",
"Ublas.Tens.MI.C121_labels": "propext",
"Ublas.Tens.MI.C121_has_index": "propext, Quot.sound",
"Ublas.Tens.MI.C121_valid": "propext, Classical.choice, Quot.sound",
"Ublas.Tens.MI.C121_position": "propext, Classical.choice, Quot.sound",
"Ublas.Tens.MI.C121_pairs": "propext, Classical.choice, Quot.sound",
"Ublas.Tens.MI.C121_pairs_valid": "propext, Classical.choice, Quot.sound",
"Ublas.Tens.MI.C121_number": "propext, Classical.choice, Quot.sound",
"Ublas.Tens.MI.C121_make": "propext, Classical.choice, Quot.sound",
"Ublas.Tens.MI.C121_at": "propext",
"Ublas.Tens.MI.C121_to_vector_partial": "propext, Quot.sound",
"Ublas.Tens.MI.C121_to_vector_refuted": "propext, Classical.choice, Quot.sound",
"Ublas.Tens.MI.C121_einstein": "propext, Classical.choice, Quot.sound",
"Ublas.Shallow.C122_shared_elements": "propext, Classical.choice, Quot.sound",
"Ublas.Shallow.C122_all_destroyed": "propext, Classical.choice, Quot.sound",
"Ublas.Shallow.C122_out_of_range": "propext, Quot.sound",
"Ublas.OpenCL.C123_mismatch_partial": "propext",
"Ublas.OpenCL.C123_host": "propext",
"Ublas.OpenCL.C123_result_refuted": "propext, Quot.sound",
"Ublas.OpenCL.C123_result_vector_refuted": "propext, Quot.sound",
"Ublas.RVec.C124_random_access_partial": "propext, Classical.choice, Quot.sound",
"Ublas.RVec.C124_reverse_partial": "propext, Classical.choice, Quot.sound",
"Ublas.RVec.C124_selector_partial": "propext, Classical.choice, Quot.sound",
"Ublas.RVec.C124_end_refused_partial": "propext, Classical.choice, Quot.sound",
"Ublas.RVec.C124_matrix_range_partial": "propext, Classical.choice, Quot.sound",
"Ublas.RVec.C124_range_refuted": "propext, Classical.choice, Quot.sound",
"Ublas.RVec.C124_range_never_refuted": "propext, Classical.choice, Quot.sound",
"Ublas.RVec.C124_selector_refuted": "propext, Quot.sound",
"Ublas.RVec.C124_matrix_range_refuted": "propext, Quot.sound",
"Ublas.Tens.C125_combine_partial": "propext, Classical.choice, Quot.sound",
"Ublas.Tens.C125_shorter_refuted": "propext, Classical.choice, Quot.sound",
"Ublas.Tens.C125_longer_refuted": "propext, Classical.choice, Quot.sound",
"Ublas.C126_coordinate_lines_partial": "propext, Classical.choice, Quot.sound",
"Ublas.C126_shrink_refuted": "propext",
"Ublas.C127_is_hermitian": "propext, Classical.choice, Quot.sound",
"Ublas.C127_is_symmetric": "propext, Classical.choice, Quot.sound",
"Ublas.C127_symmetric_matrix": "propext, Classical.choice, Quot.sound",
"Ublas.C127_hermitian_matrix": "propext, Classical.choice, Quot.sound",
"Ublas.C127_diagonal_refuted": "propext",
"Ublas.Tens.C128_scalar": "propext, Classical.choice, Quot.sound",
"Ublas.Tens.C128_expressions_partial": "propext, Classical.choice, Quot.sound",
"Ublas.Tens.C128_shapes": "propext, Classical.choice, Quot.sound",
"Ublas.Tens.C128_ne_refuted": "propext, Classical.choice, Quot.sound",
"Ublas.Tens.C128_large_refuted": "propext, Quot.sound",
"Ublas.RVec.C129_random_access_partial": "propext, Classical.choice, Quot.sound",
"Ublas.RVec.C129_reverse_partial": "propext, Classical.choice, Quot.sound",
"Ublas.RVec.C129_end_refused_partial": "propext, Classical.choice, Quot.sound",
"Ublas.RVec.C129_distance_refuted": "propext",
"Ublas.RVec.C129_line_end_refuted": "propext",
"Ublas.C130_kinds": "propext, Classical.choice, Quot.sound",
"Ublas.C130_triangular": "propext, Classical.choice, Quot.sound",
"Ublas.C130_triangular_rejects": "propext, Quot.sound",
"Ublas.C130_symmetric_partial": "propext, Classical.choice, Quot.sound",
"Ublas.C130_symmetric_rejects": "propext, Quot.sound",
"Ublas.C130_symmetric_refuted": "propext",
"Ublas.C130_hermitian_partial": "propext, Classical.choice, Quot.sound",
"Ublas.C130_hermitian_rejects": "propext",
"Ublas.OpenCL.C131_norms_partial": "propext, Classical.choice, Quot.sound",
"Ublas.OpenCL.C131_norms_host_partial": "propext, Classical.choice, Quot.sound",
"Ublas.OpenCL.C131_complex": "propext, Classical.choice, Quot.sound",
"Ublas.OpenCL.C131_complex_refuted": "propext",
"Ublas.OpenCL.C131_empty_refuted": "propext",
"Ublas.OpenCL.C131_inner_prod": "propext, Classical.choice, Quot.sound",
"Ublas.OpenCL.C131_inner_prod_mismatch": "propext",
"Ublas.OpenCL.C131_inner_prod_host": "propext, Classical.choice, Quot.sound",
"Ublas.C132_compressed_vector": "propext, Classical.choice, Quot.sound",
"Ublas.C132_compressed_matrix": "propext, Classical.choice, Quot.sound",
"Ublas.C132_coordinate_vector": "propext, Classical.choice, Quot.sound",
"Ublas.C132_coordinate_matrix": "propext, Classical.choice, Quot.sound",
"Ublas.C132_vector_of_vector": "propext, Classical.choice, Quot.sound",
"Ublas.C132_vector_of_coordinate_vectors": "propext, Classical.choice, Quot.sound",
"Ublas.C132_map_of_maps": "propext, Classical.choice, Quot.sound",
"Ublas.C132_mapped_vector": "propext, Classical.choice, Quot.sound",
"Ublas.C132_mapped_matrix": "propext, Classical.choice, Quot.sound",
"Ublas.C132_matrix": "propext, Classical.choice, Quot.sound",
"Ublas.C132_triangular_matrix": "propext, Classical.choice, Quot.sound",
"Ublas.C132_banded_matrix": "propext, Classical.choice, Quot.sound",
"Ublas.C132_symmetric_matrix": "propext, Classical.choice, Quot.sound",
"Ublas.C132_hermitian_matrix_partial": "propext, Classical.choice, Quot.sound",
"Ublas.C132_mapped_vector_map_array_partial": "propext, Classical.choice, Quot.sound",
"Ublas.C132_mapped_matrix_map_array_partial": "propext, Classical.choice, Quot.sound",
"Ublas.C132_map_array_copy_refuted": "propext",
"Ublas.C133_vector_partial": "propext, Classical.choice, Quot.sound",
"Ublas.C133_bounded_vector_partial": "propext, Classical.choice, Quot.sound",
"Ublas.C133_rejects": "propext, Quot.sound",
"Ublas.C133_zero_initialised_refuted": "propext",
"Ublas.C133_zero_initialised_partial": "propext, Classical.choice, Quot.sound",
"Ublas.C133_demo": "propext",
"Ublas.C134_matrix": "propext, Classical.choice, Quot.sound",
"Ublas.C134_bounded_matrix": "propext, Classical.choice, Quot.sound",
"Ublas.C134_rejects": "propext, Quot.sound",
"Ublas.C134_demo": "",
"Ublas.C135_strict_references_partial": "propext, Classical.choice, Quot.sound",
"Ublas.C135_delayed_write_refuted": "propext, Classical.choice, Quot.sound",
"Ublas.C135_demo": "propext"
}