{"id": "C01", "title": "Dense matrix elements occupy distinct storage cells", "statement": "For a row-major or column-major matrix of any size, two element references m(i,j), m(k,l) with valid indices denote the same storage cell only if (i,j)=(k,l); every cell of data() is denoted by exactly one valid (i,j); and the row/column recovered from a cell offset is the one that was addressed.", "quantifier": "all sizes size1,size2, all valid index pairs, both orientations", "why_tests_cant": "unbounded sizes; a unit test fixes a few shapes", "anchors": ["include/boost/numeric/ublas/functional.hpp: basic_row_major::element, storage_size, index_i/index_j", "include/boost/numeric/ublas/functional.hpp: basic_column_major::element"]}
{"id": "C02", "title": "Dense storage size computation never silently overflows", "statement": "storage_size(size1,size2) either returns the exact product or raises bad_size when checks are on; without checks the product is exact exactly when it fits in size_type.", "quantifier": "all pairs of 64-bit sizes", "why_tests_cant": "the failing inputs are astronomically large allocations no unit test can build", "anchors": ["include/boost/numeric/ublas/functional.hpp: basic_row_major::storage_size", "include/boost/numeric/ublas/functional.hpp: basic_column_major::storage_size"]}
{"id": "C03", "title": "Packed triangular storage size computation never silently overflows", "statement": "triangular_size(size1,size2) with checks on either raises bad_size or returns exactly the number n(n+1)/2 of cells needed for n=max(size1,size2).", "quantifier": "all pairs of 64-bit sizes", "why_tests_cant": "failing inputs are around 2^32 rows", "anchors": ["include/boost/numeric/ublas/functional.hpp: basic_row_major::triangular_size", "include/boost/numeric/ublas/functional.hpp: basic_column_major::triangular_size"]}
{"id": "C04", "title": "Dense matrix read-after-write and frame", "statement": "After m(i,j)=t (or insert_element(i,j,t)) m(i,j) is t, every other element and both sizes are unchanged; erase_element(i,j) makes only m(i,j) zero; clear() makes all elements zero; an index outside size1 x size2 raises bad_index when checks are on and never touches memory outside data() when it is in range.", "quantifier": "all matrices, orientations, indices, values, and all sequences of these operations", "why_tests_cant": "histories and sizes are unbounded", "anchors": ["include/boost/numeric/ublas/matrix.hpp: matrix::operator()", "include/boost/numeric/ublas/matrix.hpp: matrix::insert_element", "include/boost/numeric/ublas/matrix.hpp: matrix::erase_element", "include/boost/numeric/ublas/matrix.hpp: matrix::clear"]}
{"id": "C05", "title": "matrix::resize(preserve=true) keeps the common block", "statement": "After m.resize(r,c,true) the matrix has size r x c and every element (i,j) with i<min(size1,r), j<min(size2,c) keeps its value, in both orientations; elements outside the old block have default value (documentation: zero filled).", "quantifier": "all old and new shapes, orientations, contents", "why_tests_cant": "unbounded shapes", "anchors": ["include/boost/numeric/ublas/matrix.hpp: matrix::resize", "include/boost/numeric/ublas/matrix.hpp: detail::matrix_resize_preserve"]}
{"id": "C06", "title": "Triangular packed layouts place structural elements injectively and in bounds", "statement": "For lower, upper, unit_lower, unit_upper, strict_lower and strict_upper triangular_matrix in both orientations, every structural element (i,j) of a square matrix has its own storage cell, inside the packed storage, so that writing one structural element never changes another.", "quantifier": "all sizes, all pairs of structural indices, six structure types, two layouts", "why_tests_cant": "quadratic index arithmetic over unbounded sizes", "anchors": ["include/boost/numeric/ublas/functional.hpp: basic_lower::element, packed_size", "include/boost/numeric/ublas/functional.hpp: basic_upper", "include/boost/numeric/ublas/functional.hpp: basic_unit_lower", "include/boost/numeric/ublas/functional.hpp: basic_unit_upper", "include/boost/numeric/ublas/functional.hpp: basic_strict_lower", "include/boost/numeric/ublas/functional.hpp: basic_strict_upper", "include/boost/numeric/ublas/functional.hpp: lower_element, upper_element", "include/boost/numeric/ublas/triangular.hpp: triangular_matrix"]}
{"id": "C07", "title": "Triangular matrix reads and writes respect the structure", "statement": "m(i,j) of a triangular_matrix is the last value written there for structural (i,j), zero outside the structure and one on the diagonal of unit types; writing through the mutable interface outside the mutable structure raises bad_index with checks on and leaves the structure unchanged.", "quantifier": "all sizes, indices, operation sequences, all structure types", "why_tests_cant": "unbounded histories", "anchors": ["include/boost/numeric/ublas/triangular.hpp: triangular_matrix::operator(), at_element, insert_element, erase_element"]}
{"id": "C08", "title": "Rectangular triangular matrices accept every structural element", "statement": "For triangular_matrix with size1 != size2 every structural element can be addressed without an exception and has its own cell within packed storage.", "quantifier": "all rectangular shapes", "why_tests_cant": "needs unusual shapes and checks enabled", "anchors": ["include/boost/numeric/ublas/functional.hpp: basic_unit_lower::element", "include/boost/numeric/ublas/functional.hpp: basic_strict_lower::element", "include/boost/numeric/ublas/functional.hpp: lower_element"]}
{"id": "C09", "title": "Symmetric matrix stays symmetric", "statement": "After any sequence of writes to a symmetric_matrix, m(i,j)=m(j,i) for all i,j; a write to (i,j) changes exactly m(i,j) and m(j,i).", "quantifier": "all sizes, lower/upper storage, both layouts, all operation sequences", "why_tests_cant": "unbounded histories", "anchors": ["include/boost/numeric/ublas/symmetric.hpp: symmetric_matrix::operator(), insert_element, erase_element"]}
{"id": "C10", "title": "Hermitian matrix stays hermitian", "statement": "After any sequence of insert_element/erase_element/element writes to a hermitian_matrix, m(j,i)=conj(m(i,j)) for all i != j, and only the addressed pair changes.", "quantifier": "all sizes, lower/upper storage, both layouts, all operation sequences", "why_tests_cant": "unbounded histories; the erase path is untested", "anchors": ["include/boost/numeric/ublas/hermitian.hpp: hermitian_matrix::operator(), insert_element, erase_element"]}
{"id": "C11", "title": "Banded matrix band elements are independent", "statement": "For any lower/upper bandwidth and shape, every element in the band has its own cell inside the band storage; reads off the band yield zero; writing a band element changes nothing else; writing off the band raises bad_index with checks on.", "quantifier": "all shapes, bandwidths, both layouts, all operation sequences", "why_tests_cant": "unbounded shapes and bandwidths", "anchors": ["include/boost/numeric/ublas/banded.hpp: banded_matrix::operator(), at_element, insert_element, erase_element"]}
{"id": "C12", "title": "Range and slice composition", "statement": "For ranges and slices r, s with s inside r's index space, r.compose(s) addresses r(s(i)) at position i, is associative, has size s.size(), and composing with all() is the identity; slices may have any non-negative start and any (also negative) stride whose addressed indices are valid.", "quantifier": "all starts, strides, sizes", "why_tests_cant": "unbounded parameter space", "anchors": ["include/boost/numeric/ublas/storage.hpp: basic_range::compose", "include/boost/numeric/ublas/storage.hpp: basic_slice::compose", "include/boost/numeric/ublas/storage.hpp: preprocess"]}
{"id": "C13", "title": "Indirect array composition", "statement": "indirect_array::compose with a range, slice or indirect_array addresses ia(inner(i)) at position i, and is rejected with bad_size/bad_index when checks are on exactly when some inner index is not smaller than ia.size().", "quantifier": "all index arrays and inner selections", "why_tests_cant": "the boundary case is off by one and untested", "anchors": ["include/boost/numeric/ublas/storage.hpp: indirect_array::compose"]}
{"id": "C14", "title": "Vector proxies write through and frame", "statement": "Assigning element i of vector_range / vector_slice / vector_indirect changes exactly the selected element of the underlying vector; reading element i returns the underlying selected element; nested projections equal the projection through the composed selector.", "quantifier": "all vectors, selectors, nestings, values", "why_tests_cant": "unbounded nesting and sizes", "anchors": ["include/boost/numeric/ublas/vector_proxy.hpp: vector_range", "include/boost/numeric/ublas/vector_proxy.hpp: vector_slice", "include/boost/numeric/ublas/vector_proxy.hpp: vector_indirect", "include/boost/numeric/ublas/vector_proxy.hpp: project"]}
{"id": "C15", "title": "Matrix proxies address the right elements", "statement": "matrix_row, matrix_column, matrix_range, matrix_slice, matrix_indirect and matrix_vector_range/slice read and write exactly the elements of the underlying matrix their definition selects, and nested projections equal the composed projection.", "quantifier": "all matrices, selectors, indices", "why_tests_cant": "unbounded sizes and nestings", "anchors": ["include/boost/numeric/ublas/matrix_proxy.hpp: matrix_row", "include/boost/numeric/ublas/matrix_proxy.hpp: matrix_column", "include/boost/numeric/ublas/matrix_proxy.hpp: matrix_range", "include/boost/numeric/ublas/matrix_proxy.hpp: matrix_slice", "include/boost/numeric/ublas/matrix_proxy.hpp: matrix_indirect", "include/boost/numeric/ublas/matrix_proxy.hpp: matrix_vector_range", "include/boost/numeric/ublas/matrix_proxy.hpp: matrix_vector_slice"]}
{"id": "C16", "title": "unbounded_array/bounded_array value semantics", "statement": "resize(n,init) keeps the first min(old,n) elements and sets new ones to init; assignment, swap and copy give value semantics; bounded_array raises bad_size rather than exceeding its capacity when checks are on.", "quantifier": "all sizes, contents, operation sequences", "why_tests_cant": "unbounded histories", "anchors": ["include/boost/numeric/ublas/storage.hpp: unbounded_array::resize_internal, operator=, swap", "include/boost/numeric/ublas/storage.hpp: bounded_array::resize, swap"]}
{"id": "C17", "title": "map_array behaves as an ordered map", "statement": "Under any sequence of operator[], insert, erase, clear, reserve on a map_array, lookups agree with a mathematical finite map, keys stay strictly increasing, and size never exceeds capacity.", "quantifier": "all operation sequences, all keys and values", "why_tests_cant": "unbounded histories; binary search boundaries", "anchors": ["include/boost/numeric/ublas/storage_sparse.hpp: map_array::operator[], insert, erase, find, resize, reserve", "include/boost/numeric/ublas/storage_sparse.hpp: detail::lower_bound"]}
{"id": "C18", "title": "map_array copy construction copies", "statement": "map_array b(a) makes b an independent equal map and leaves a unchanged.", "quantifier": "all source maps", "why_tests_cant": "uninitialised memory may look right by luck", "anchors": ["include/boost/numeric/ublas/storage_sparse.hpp: map_array::map_array(const map_array &)"]}
{"id": "C19", "title": "compressed_vector refines a sparse function", "statement": "Under any legal sequence of operator(), insert_element, erase_element, push_back, pop_back, clear, resize(preserve), reserve, v(i) read through operator() is the last value written to i since it was last erased/cleared, zero otherwise; indices stay strictly increasing, below size and nnz never exceeds capacity.", "quantifier": "all operation sequences, sizes, values", "why_tests_cant": "unbounded histories interacting with capacity growth", "anchors": ["include/boost/numeric/ublas/vector_sparse.hpp: compressed_vector"]}
{"id": "C20", "title": "mapped_vector refines a sparse function", "statement": "Under any sequence of legal operations on mapped_vector, v(i) equals the last value written to i since last erased/cleared, zero otherwise; resize(n,true) keeps exactly the elements below n.", "quantifier": "all operation sequences", "why_tests_cant": "unbounded histories", "anchors": ["include/boost/numeric/ublas/vector_sparse.hpp: mapped_vector"]}
{"id": "C21", "title": "coordinate_vector refines summation semantics", "statement": "append_element(i,t) adds t to element i; after any sequence of append_element, operator() writes through sorting, erase and sort, the value read at i is the sum of the pending contributions; sort() never changes any element's value.", "quantifier": "all operation sequences and sorting states", "why_tests_cant": "unbounded histories; interleavings of appends and lazy sorts", "anchors": ["include/boost/numeric/ublas/vector_sparse.hpp: coordinate_vector::append_element, sort, insert_element, erase_element, pop_back"]}
{"id": "C22", "title": "Lazy sort of coordinate formats is a correct in-place merge", "statement": "The incremental sort of coordinate_vector/coordinate_matrix (sort the new tail, merge it with the sorted prefix in place, sum duplicates) terminates and leaves strictly increasing indices holding per-index sums of the previous contents.", "quantifier": "all sorted prefixes and arbitrary tails", "why_tests_cant": "in-place merge recursion with data-dependent splits; termination", "anchors": ["include/boost/numeric/ublas/vector_sparse.hpp: detail inplace_merge / coordinate_vector::sort", "include/boost/numeric/ublas/matrix_sparse.hpp: coordinate_matrix::sort"]}
{"id": "C23", "title": "pop_back preserves coordinate sortedness bookkeeping", "statement": "After push/append sequences and pop_back, the remaining elements are still read correctly and the container's own consistency checks succeed.", "quantifier": "all operation sequences ending in pop_back", "why_tests_cant": "needs unsorted state at the moment of pop_back", "anchors": ["include/boost/numeric/ublas/vector_sparse.hpp: coordinate_vector::pop_back", "include/boost/numeric/ublas/matrix_sparse.hpp: coordinate_matrix::pop_back"]}
{"id": "C24", "title": "compressed_matrix refines a sparse matrix function", "statement": "Under any legal sequence of operator(), insert_element, erase_element, push_back, pop_back, clear on compressed_matrix (row or column major, index base 0 or 1), m(i,j) equals the last value written since erased/cleared, zero otherwise, and the CSR arrays stay consistent (monotone offsets, strictly increasing minor indices).", "quantifier": "all operation sequences, orientations, index bases", "why_tests_cant": "unbounded histories with partially filled row pointers", "anchors": ["include/boost/numeric/ublas/matrix_sparse.hpp: compressed_matrix"]}
{"id": "C25", "title": "mapped_matrix refines a sparse matrix function", "statement": "Under any legal sequence of operations on mapped_matrix, m(i,j) equals the last value written since erased/cleared, zero otherwise.", "quantifier": "all operation sequences, orientations", "why_tests_cant": "unbounded histories", "anchors": ["include/boost/numeric/ublas/matrix_sparse.hpp: mapped_matrix"]}
{"id": "C26", "title": "coordinate_matrix refines summation semantics", "statement": "append_element(i,j,t) adds t to m(i,j) and the value read at (i,j) after any operation sequence is the sum of contributions since it was last erased/cleared.", "quantifier": "all operation sequences", "why_tests_cant": "unbounded histories", "anchors": ["include/boost/numeric/ublas/matrix_sparse.hpp: coordinate_matrix"]}
{"id": "C27", "title": "Sparse resize with preserve keeps elements inside the new bounds", "statement": "resize(..., preserve=true) on mapped/compressed/coordinate vectors and matrices keeps every stored element whose index is inside the new bounds and drops the rest.", "quantifier": "all shapes and contents", "why_tests_cant": "unbounded contents", "anchors": ["include/boost/numeric/ublas/vector_sparse.hpp: compressed_vector::resize", "include/boost/numeric/ublas/vector_sparse.hpp: mapped_vector::resize", "include/boost/numeric/ublas/vector_sparse.hpp: coordinate_vector::resize", "include/boost/numeric/ublas/matrix_sparse.hpp: compressed_matrix::resize", "include/boost/numeric/ublas/matrix_sparse.hpp: mapped_matrix::resize", "include/boost/numeric/ublas/matrix_sparse.hpp: coordinate_matrix::resize"]}
{"id": "C28", "title": "Sparse reserve with preserve never loses elements", "statement": "reserve(n, preserve=true) on compressed/coordinate vectors and matrices never changes any element.", "quantifier": "all capacities n and contents", "why_tests_cant": "needs n smaller than nnz", "anchors": ["include/boost/numeric/ublas/vector_sparse.hpp: compressed_vector::reserve", "include/boost/numeric/ublas/vector_sparse.hpp: coordinate_vector::reserve", "include/boost/numeric/ublas/matrix_sparse.hpp: compressed_matrix::reserve"]}
{"id": "C29", "title": "Conversion from coordinate_matrix to compressed_matrix preserves every element", "statement": "Constructing a compressed_matrix from a coordinate_matrix yields, at every (i,j), the coordinate_matrix's value, for index base 0 and 1.", "quantifier": "all contents, shapes, index bases", "why_tests_cant": "unbounded contents", "anchors": ["include/boost/numeric/ublas/matrix_sparse.hpp: compressed_matrix(const coordinate_matrix &)"]}
{"id": "C30", "title": "inner_prod equals the mathematical sum for every storage combination", "statement": "inner_prod(v,w) = sum of v(i)*w(i) whichever of the dense indexing, dense iterating, packed (offset-aligned) or sparse (merge) algorithms is dispatched.", "quantifier": "all vectors over any commutative ring, all sparsity patterns/offsets", "why_tests_cant": "unbounded sparsity patterns and merge interleavings", "anchors": ["include/boost/numeric/ublas/functional.hpp: vector_inner_prod::apply (all overloads)"]}
{"id": "C31", "title": "Matrix-vector prod element equals the row sum for every storage combination", "statement": "prod(A,x)(i)=sum_j A(i,j)x(j) and prod(x,A)(j)=sum_i x(i)A(i,j) for dense, packed and sparse dispatch.", "quantifier": "all matrices, vectors, patterns", "why_tests_cant": "unbounded patterns", "anchors": ["include/boost/numeric/ublas/functional.hpp: matrix_vector_prod1::apply", "include/boost/numeric/ublas/functional.hpp: matrix_vector_prod2::apply"]}
{"id": "C32", "title": "Matrix-matrix prod element equals the sum for every storage combination", "statement": "prod(A,B)(i,j)=sum_k A(i,k)B(k,j) for dense, packed and sparse dispatch.", "quantifier": "all matrices and patterns", "why_tests_cant": "unbounded patterns", "anchors": ["include/boost/numeric/ublas/functional.hpp: matrix_matrix_prod::apply"]}
{"id": "C33", "title": "axpy_prod computes A*x and accumulates when init=false", "statement": "axpy_prod(A,x,v,init) leaves v = A*x if init, v_old + A*x otherwise, for dense, compressed, coordinate (even unsorted with duplicates), row- and column-major overloads; same for x^T A and the matrix-matrix overloads.", "quantifier": "all operands, storage formats, orientations", "why_tests_cant": "unbounded patterns; loop orders differ per overload", "anchors": ["include/boost/numeric/ublas/operation.hpp: axpy_prod (all overloads)"]}
{"id": "C34", "title": "opb_prod computes A*B by outer products", "statement": "opb_prod(A,B,m,init) leaves m = A*B if init, m_old + A*B otherwise.", "quantifier": "all operands", "why_tests_cant": "unbounded sizes", "anchors": ["include/boost/numeric/ublas/operation.hpp: opb_prod"]}
{"id": "C35", "title": "block_prod equals prod for every block size", "statement": "block_prod<M,BS>(A,B) equals A*B for every positive block size BS, including sizes that are not multiples of BS.", "quantifier": "all sizes, all positive BS", "why_tests_cant": "unbounded sizes and block sizes", "anchors": ["include/boost/numeric/ublas/operation_blocked.hpp: block_prod"]}
{"id": "C36", "title": "sparse_prod equals prod", "statement": "sparse_prod(A,B,m,init) leaves m = A*B when init is true, and never reads out of bounds, for all shapes including empty ones; with init=false it overwrites the positions where the product is non-zero.", "quantifier": "all sparse operands and shapes", "why_tests_cant": "unbounded patterns; empty shapes", "anchors": ["include/boost/numeric/ublas/operation_sparse.hpp: sparse_prod"]}
{"id": "C37", "title": "Triangular inplace_solve solves the system", "statement": "inplace_solve(A,b,lower_tag/upper_tag/unit_*_tag) leaves x with tri(A)*x=b where tri(A) is the triangle named by the tag, in every dispatch (orientation, dense/packed/sparse); the vector-left form solves x*A=b; the matrix form solves for all columns; when a diagonal element is zero and checks are on it raises singular.", "quantifier": "all sizes, all A with non-zero diagonal, all b, over any field", "why_tests_cant": "unbounded sizes; 12 overloads with different loop orders", "anchors": ["include/boost/numeric/ublas/triangular.hpp: inplace_solve (all overloads)", "include/boost/numeric/ublas/triangular.hpp: solve"]}
{"id": "C38", "title": "LU factorization reproduces the matrix", "statement": "lu_factorize(m) returning 0 leaves unit lower L and upper U packed in m with L*U equal to the original; lu_factorize(m,pm) leaves P*A = L*U for the permutation recorded in pm, for every square or rectangular matrix, also when it reports singularity.", "quantifier": "all matrices over any field", "why_tests_cant": "unbounded sizes and pivot sequences", "anchors": ["include/boost/numeric/ublas/lu.hpp: lu_factorize(M&)", "include/boost/numeric/ublas/lu.hpp: lu_factorize(M&, PM&)"]}
{"id": "C39", "title": "lu_substitute solves A x = b", "statement": "If lu_factorize(m,pm) of a square non-singular A succeeded then lu_substitute(m,pm,b) leaves b with A*x=b; the left variant lu_substitute(b,m,pm) leaves x with x*A=b.", "quantifier": "all non-singular matrices and right-hand sides", "why_tests_cant": "unbounded sizes and pivot sequences", "anchors": ["include/boost/numeric/ublas/lu.hpp: lu_substitute", "include/boost/numeric/ublas/lu.hpp: swap_rows"]}
{"id": "C40", "title": "axpy_lu_factorize agrees with lu_factorize", "statement": "axpy_lu_factorize(m[,pm]) leaves the same factors, i.e. L*U = (P*)A, for every matrix shape.", "quantifier": "all matrices", "why_tests_cant": "wide matrices are untested", "anchors": ["include/boost/numeric/ublas/lu.hpp: axpy_lu_factorize"]}
{"id": "C41", "title": "swap_rows with a permutation matrix applies exactly that permutation", "statement": "swap_rows(pm, x) permutes the entries of x by the transpositions recorded in pm and loses nothing; the result is a permutation of x.", "quantifier": "all sequences of transpositions, all vectors/matrices", "why_tests_cant": "unbounded sizes", "anchors": ["include/boost/numeric/ublas/lu.hpp: swap_rows", "include/boost/numeric/ublas/lu.hpp: permutation_matrix"]}
{"id": "C42", "title": "Element-wise assignment evaluates the right-hand side before writing", "statement": "v = e, v += e, v -= e with a right-hand side that reads v anywhere (including products and projections of v) stores at every index the value of e computed from v's contents before the assignment.", "quantifier": "all expressions, vectors and sizes", "why_tests_cant": "all alias patterns in all expressions", "anchors": ["include/boost/numeric/ublas/vector.hpp: vector::operator=, operator+=", "include/boost/numeric/ublas/detail/vector_assign.hpp: vector_assign", "include/boost/numeric/ublas/matrix.hpp: matrix::operator="]}
{"id": "C43", "title": "noalias assignment is safe exactly for same-index reads", "statement": "noalias(v) = e gives the same result as v = e whenever e reads v only at the index being written (element-wise expressions); with matrix-vector products of v it may not.", "quantifier": "all element-wise expressions", "why_tests_cant": "all expressions", "anchors": ["include/boost/numeric/ublas/detail/definitions.hpp: noalias_proxy", "include/boost/numeric/ublas/detail/vector_assign.hpp: indexing_vector_assign"]}
{"id": "C44", "title": "Sparse and packed assignment store every element of the right-hand side", "statement": "Assigning any expression e to a sparse vector makes v(i)=e(i) for all i; to a packed vector makes v(i)=e(i) for all i in v's support; plus_assign/minus_assign on sparse proxies gives v_old(i)+-e(i).", "quantifier": "all sparsity patterns and offsets", "why_tests_cant": "merge-loop interleavings are unbounded", "anchors": ["include/boost/numeric/ublas/detail/vector_assign.hpp: vector_assign (packed, sparse, sparse_proxy)", "include/boost/numeric/ublas/detail/vector_assign.hpp: make_conformant"]}
{"id": "C45", "title": "Packed swap exchanges elements index-wise", "statement": "swap of two packed vector views exchanges v(i) and w(i) for every i in both supports.", "quantifier": "all supports", "why_tests_cant": "needs different offsets", "anchors": ["include/boost/numeric/ublas/detail/vector_assign.hpp: vector_swap(packed_proxy_tag)"]}
{"id": "C46", "title": "Norms equal their definitions", "statement": "norm_1, norm_inf, index_norm_inf, norm_2_square, sum (vectors) and norm_1, norm_inf, norm_frobenius (matrices) equal sum |v_i|, max |v_i|, the first index attaining the max, sum |v_i|^2, sum v_i, max column sum, max row sum, and sum of squares.", "quantifier": "all vectors/matrices over an ordered field", "why_tests_cant": "unbounded sizes", "anchors": ["include/boost/numeric/ublas/functional.hpp: vector_norm_1", "include/boost/numeric/ublas/functional.hpp: vector_norm_inf", "include/boost/numeric/ublas/functional.hpp: vector_index_norm_inf", "include/boost/numeric/ublas/functional.hpp: vector_sum", "include/boost/numeric/ublas/functional.hpp: matrix_norm_1", "include/boost/numeric/ublas/functional.hpp: matrix_norm_inf", "include/boost/numeric/ublas/functional.hpp: matrix_norm_frobenius"]}
{"id": "C47", "title": "Scaled norm_2 never divides by zero", "statement": "With BOOST_UBLAS_SCALED_NORM, norm_2 of any vector is sqrt of the sum of squares and the scaling never computes 0/0.", "quantifier": "all vectors", "why_tests_cant": "leading zeros with the iterator variant", "anchors": ["include/boost/numeric/ublas/functional.hpp: vector_norm_2 (BOOST_UBLAS_SCALED_NORM)"]}
{"id": "C48", "title": "Element-wise expressions evaluate pointwise", "statement": "(-v)(i), (v+w)(i), (v-w)(i), (t*v)(i), (v/t)(i), element_prod, element_div, outer_prod, trans, herm, conj and nested combinations evaluate to the mathematical element at every index, also when evaluated by the sparse or packed merge iterators.", "quantifier": "all expression trees, all sparsity patterns", "why_tests_cant": "unbounded nesting and merge interleavings", "anchors": ["include/boost/numeric/ublas/vector_expression.hpp: vector_binary::const_iterator (sparse)", "include/boost/numeric/ublas/vector_expression.hpp: vector_unary", "include/boost/numeric/ublas/matrix_expression.hpp: matrix_binary", "include/boost/numeric/ublas/matrix_expression.hpp: vector_matrix_binary", "include/boost/numeric/ublas/matrix_expression.hpp: matrix_unary2"]}
{"id": "C49", "title": "Dense iterators traverse every element exactly once", "statement": "begin()..end() of a dense vector, begin1()/begin2() with nested iterators of a dense matrix in either orientation visit each element exactly once in increasing index order, it+n / it-it2 agree with repeated ++ and index arithmetic, also for negative differences.", "quantifier": "all sizes and iterator pairs", "why_tests_cant": "negative differences mix signed and unsigned arithmetic", "anchors": ["include/boost/numeric/ublas/functional.hpp: increment_i, increment_j, distance_i, distance_j", "include/boost/numeric/ublas/matrix.hpp: matrix::iterator1, iterator2"]}
{"id": "C50", "title": "Iterators of sparse containers enumerate exactly the stored elements in order", "statement": "Iterating begin()..end() of compressed/mapped vectors, and begin1/begin2 nested iteration of a compressed_matrix, yields exactly the stored (index, value) pairs in increasing index order; find(i) is the first stored element with index >= i.", "quantifier": "all contents", "why_tests_cant": "unbounded contents", "anchors": ["include/boost/numeric/ublas/vector_sparse.hpp: compressed_vector::find, begin, end", "include/boost/numeric/ublas/matrix_sparse.hpp: compressed_matrix::find1, find2"]}
{"id": "C51", "title": "Tensor strides give a bijection between multi-indices and memory", "statement": "For every extents with positive extents, to_strides (first or last order) makes to_index a bijection between valid multi-indices and 0..product(extents)-1.", "quantifier": "all ranks and extents, both layouts", "why_tests_cant": "unbounded rank", "anchors": ["include/boost/numeric/ublas/tensor/extents/extents_functions.hpp: to_strides, product", "include/boost/numeric/ublas/tensor/index_functions.hpp: to_index"]}
{"id": "C52", "title": "Tensor copy/transform/accumulate visit every element once", "statement": "copy and transform store at every multi-index of c the (transformed) element of a at the same multi-index for arbitrary strides of both; accumulate folds over every element exactly once.", "quantifier": "all ranks, extents, strides", "why_tests_cant": "unbounded rank recursion", "anchors": ["include/boost/numeric/ublas/tensor/algorithms.hpp: copy, transform, accumulate"]}
{"id": "C53", "title": "Tensor transposition permutes indices", "statement": "trans(A,pi) satisfies B(i_pi) = A(i) at every multi-index; applying the inverse permutation gives A back.", "quantifier": "all ranks, permutations, extents", "why_tests_cant": "unbounded rank, all permutations", "anchors": ["include/boost/numeric/ublas/tensor/algorithms.hpp: trans", "include/boost/numeric/ublas/tensor/function/trans.hpp"]}
{"id": "C54", "title": "Tensor times vector/matrix contract the chosen mode", "statement": "ttv(A,b,m) and ttm(A,B,m) equal the mode-m contraction sum_k A(..k..) b(k) resp. sum_k A(..k..) B(j,k) for every mode.", "quantifier": "all ranks, modes, extents, both layouts", "why_tests_cant": "unbounded rank recursion", "anchors": ["include/boost/numeric/ublas/tensor/multiplication.hpp: ttv, ttv0, ttm, ttm0, mtv"]}
{"id": "C55", "title": "Tensor times tensor contracts the chosen modes; inner and outer products", "statement": "ttt contracts exactly the listed modes; inner_prod(A,B)=sum over all multi-indices; outer_prod(A,B)(i,j)=A(i)B(j).", "quantifier": "all ranks, permutations, extents", "why_tests_cant": "unbounded rank recursion", "anchors": ["include/boost/numeric/ublas/tensor/multiplication.hpp: ttt, inner, outer"]}
{"id": "C56", "title": "Tensor reshape keeps the elements in memory order", "statement": "t.reshape(e) keeps the first min(old,new) elements in memory order, fills new ones with the given value, and the flat index of each element is unchanged.", "quantifier": "all extents", "why_tests_cant": "unbounded extents", "anchors": ["include/boost/numeric/ublas/tensor/function/reshape.hpp"]}
{"id": "C57", "title": "Comma/stream assignment fills in traversal order", "statement": "v <<= a, b, c... writes the values consecutively (skipping by the given policy/manipulators such as move, move_to, next_row, fill policies) and raises when running out of space under checks.", "quantifier": "all sequences of values and manipulators", "why_tests_cant": "unbounded sequences", "anchors": ["include/boost/numeric/ublas/assignment.hpp: vector_expression_assigner", "include/boost/numeric/ublas/assignment.hpp: matrix_expression_assigner"]}
{"id": "C58", "title": "Text output and input round-trip", "statement": "For every vector or matrix, reading back what operator<< wrote yields the same size and elements; malformed input sets the stream's fail state and leaves the target unchanged.", "quantifier": "all vectors/matrices, all byte strings", "why_tests_cant": "all inputs", "anchors": ["include/boost/numeric/ublas/io.hpp: operator <<", "include/boost/numeric/ublas/io.hpp: operator >>"]}
{"id": "C59", "title": "BLAS wrappers compute their formulas", "statement": "blas_1/2/3 functions (asum, axpy, rot, copy, swap, tmv, tsv, gmv, gr, sr, hr, sr2, hr2, tmm, tsm, gmm, srk, hrk, sr2k, hr2k) leave their target equal to the documented formula, also when operands alias the target where the formula reads it.", "quantifier": "all operands", "why_tests_cant": "all operands", "anchors": ["include/boost/numeric/ublas/blas.hpp: blas_1", "include/boost/numeric/ublas/blas.hpp: blas_2", "include/boost/numeric/ublas/blas.hpp: blas_3"]}
{"id": "C60", "title": "vector_of_vector matrices behave as sparse matrices", "statement": "generalized_vector_of_vector read/write/insert/erase/clear/resize behave as a finite map from index pairs, its nnz equals the number of stored elements, and iterating along the storage direction visits exactly the stored elements in order.", "quantifier": "all operation sequences", "why_tests_cant": "unbounded histories", "anchors": ["include/boost/numeric/ublas/vector_of_vector.hpp: generalized_vector_of_vector"]}
{"id": "C61", "title": "banded_matrix::resize(preserve=true) keeps the common band", "statement": "After b.resize(size1,size2,lower,upper) with the default preserve=true every element in the old and the new band keeps its value and no memory outside the band storage is touched.", "quantifier": "all shapes, bandwidths and contents", "why_tests_cant": "all shapes", "anchors": ["include/boost/numeric/ublas/banded.hpp: banded_matrix::resize", "include/boost/numeric/ublas/matrix.hpp: detail::matrix_resize_preserve"]}
{"id": "C62", "title": "Projecting a proxy with all() gives the whole proxy", "statement": "project(p, range::all()), project(p, slice::all()) and indirect_array all() applied to a vector or to a vector proxy p denote exactly the elements of p, with p.size() elements.", "quantifier": "all vectors and nested proxies", "why_tests_cant": "nesting depth is unbounded", "anchors": ["include/boost/numeric/ublas/vector_proxy.hpp: vector_range::project", "include/boost/numeric/ublas/vector_proxy.hpp: vector_slice::project", "include/boost/numeric/ublas/vector_proxy.hpp: vector_indirect::project", "include/boost/numeric/ublas/storage.hpp: basic_range::preprocess"]}
{"id": "C63", "title": "Discarding resize and reserve empty a coordinate_vector", "statement": "resize(n, false) and reserve(n, false) on a coordinate_vector succeed and leave it empty with its consistency checks passing, whatever it held before.", "quantifier": "all contents, sorted or not, both build modes", "why_tests_cant": "the state must be unsorted at the moment of the call", "anchors": ["include/boost/numeric/ublas/vector_sparse.hpp: coordinate_vector::resize", "include/boost/numeric/ublas/vector_sparse.hpp: coordinate_vector::reserve"]}
{"id": "C64", "title": "compressed_matrix::push_back appends any element after the last one", "statement": "For a compressed_matrix, push_back(i,j,t) succeeds and stores t whenever (i,j) follows every stored element in storage order, whatever operations (pop_back, erase_element, clear, ...) came before.", "quantifier": "all histories of operations, all later positions", "why_tests_cant": "the failing state arises only after particular histories", "anchors": ["include/boost/numeric/ublas/matrix_sparse.hpp: compressed_matrix::push_back", "include/boost/numeric/ublas/matrix_sparse.hpp: compressed_matrix::pop_back", "include/boost/numeric/ublas/matrix_sparse.hpp: compressed_matrix::erase_element"]}
{"id": "C65", "title": "Reverse iteration of compressed_matrix visits the same elements backwards", "statement": "For every compressed_matrix, iterating a row or a column from rbegin() to rend() visits exactly the stored elements of that row or column in the reverse of the forward order.", "quantifier": "all contents, both orientations, both axes", "why_tests_cant": "depends on which trailing lines are empty", "anchors": ["include/boost/numeric/ublas/matrix_sparse.hpp: compressed_matrix::const_iterator1::operator --", "include/boost/numeric/ublas/matrix_sparse.hpp: compressed_matrix::const_iterator2::operator --", "include/boost/numeric/ublas/matrix_sparse.hpp: compressed_matrix::find1", "include/boost/numeric/ublas/matrix_sparse.hpp: compressed_matrix::find2"]}
{"id": "C66", "title": "Triangular and banded traversal visits exactly the structure", "statement": "For every triangular_matrix (lower, upper, unit, strict; const and mutable iterators) and banded_matrix, the nested traversals by rows and by columns visit exactly the positions of the triangle or band, each once, in increasing order, with the value m(i,j).", "quantifier": "all structures, orientations, shapes, bandwidths, contents and both build modes", "why_tests_cant": "the iterator bounds come from formulas (restrict/global_restrict) that agree with the structure on square matrices; only a proof over all shapes finds the ones where they do not", "anchors": ["include/boost/numeric/ublas/triangular.hpp: find1", "include/boost/numeric/ublas/triangular.hpp: find2", "include/boost/numeric/ublas/triangular.hpp: begin1", "include/boost/numeric/ublas/triangular.hpp: end2", "include/boost/numeric/ublas/functional.hpp: restrict1", "include/boost/numeric/ublas/functional.hpp: global_restrict2", "include/boost/numeric/ublas/functional.hpp: transposed_structure", "include/boost/numeric/ublas/banded.hpp: find1", "include/boost/numeric/ublas/banded.hpp: find2"]}
{"id": "C67", "title": "Reverse iteration over element-wise expressions visits the same elements backwards", "statement": "For every binary vector expression (v+w, v-w, element_prod, element_div), iterating from rbegin() to rend() visits exactly the elements of the forward iteration in reverse order, whatever the operands' storage category.", "quantifier": "all operands (dense, packed, sparse), all contents", "why_tests_cant": "the failing operand patterns depend on which positions are stored", "anchors": ["include/boost/numeric/ublas/vector_expression.hpp: vector_binary::const_iterator::decrement", "include/boost/numeric/ublas/vector_expression.hpp: vector_binary::const_iterator::increment", "include/boost/numeric/ublas/detail/iterator.hpp: reverse_iterator_base"]}
{"id": "C68", "title": "Matrix assignment stores every element of the right-hand side", "statement": "noalias(m) = e, m.plus_assign(e) and m.minus_assign(e) (and the operators that end in them) make element (i,j) of a dense or sparse matrix or matrix view equal to e(i,j), old + e(i,j), old - e(i,j) for every position, whatever the storage categories of target and expression; a packed target receives every element of its structure and nothing else changes.", "quantifier": "all sizes, all dense/packed/sparse targets and expressions not reading the target, all contents, three evaluation modes, both build modes", "why_tests_cant": "which of six algorithms runs and how the two iterations interleave depends on the categories and on which positions are stored", "anchors": ["include/boost/numeric/ublas/detail/matrix_assign.hpp: matrix_assign", "include/boost/numeric/ublas/detail/matrix_assign.hpp: make_conformant", "include/boost/numeric/ublas/detail/matrix_assign.hpp: iterating_matrix_assign", "include/boost/numeric/ublas/detail/matrix_assign.hpp: indexing_matrix_assign", "include/boost/numeric/ublas/detail/matrix_assign.hpp: matrix_assign_traits"]}
{"id": "C69", "title": "Pivoted LU decides singularity and yields the determinant", "statement": "For a square matrix lu_factorize(m,pm) returns 0 exactly when det(A) is not zero, and det(A) is the product of m(i,i) negated once for every i with pm(i) != i; the partial pivoting keeps every multiplier at absolute value at most one.", "quantifier": "all square matrices over any field, all pivot sequences, both orientations, both build modes", "why_tests_cant": "unbounded sizes and pivot sequences", "anchors": ["include/boost/numeric/ublas/lu.hpp: lu_factorize(M&, PM&)", "include/boost/numeric/ublas/lu.hpp: permutation_matrix"]}
{"id": "C70", "title": "Tensor element access by multi-index", "statement": "t(i1,...,ip) and t.at(i1,...,ip) read and write exactly the element at that multi-index; a wrong number of indices or an index outside its extent is refused with an exception.", "quantifier": "all ranks, extents, layouts and multi-indices", "why_tests_cant": "unbounded rank; most out-of-range indices land on another element", "anchors": ["include/boost/numeric/ublas/tensor/tensor/tensor_dynamic.hpp: tensor_core::at", "include/boost/numeric/ublas/tensor/tensor/tensor_dynamic.hpp: tensor_core::operator()", "include/boost/numeric/ublas/tensor/index_functions.hpp: to_index"]}
{"id": "C71", "title": "Tensor comparisons compare elements at equal multi-indices", "statement": "a == b is true exactly when extents and all elements agree, a != b is its negation, and a < b, <=, >, >= hold exactly when they hold at every multi-index (tensors of different extents are refused), whatever the layouts of a and b.", "quantifier": "all tensors and tensor expressions", "why_tests_cant": "all contents and layouts", "anchors": ["include/boost/numeric/ublas/tensor/operators_comparison.hpp: detail::compare", "include/boost/numeric/ublas/tensor/operators_comparison.hpp: operator ==", "include/boost/numeric/ublas/tensor/operators_comparison.hpp: operator !=", "include/boost/numeric/ublas/tensor/operators_comparison.hpp: operator <"]}
{"id": "C72", "title": "Element-wise tensor expressions are element-wise", "statement": "t = expr, t += expr, tensor(expr) and t += scalar store at every multi-index the value of the expression at that multi-index, also when the expression reads t, independently of the schedule of the parallel loop; operands of another shape are refused with an exception.", "quantifier": "all expressions, extents, layouts, loop schedules", "why_tests_cant": "all schedules, unbounded extents", "anchors": ["include/boost/numeric/ublas/tensor/expression_evaluation.hpp: detail::eval", "include/boost/numeric/ublas/tensor/expression_evaluation.hpp: all_extents_equal", "include/boost/numeric/ublas/tensor/expression_evaluation.hpp: retrieve_extents", "include/boost/numeric/ublas/tensor/operators_arithmetic.hpp: operator +", "include/boost/numeric/ublas/tensor/operators_arithmetic.hpp: operator +=", "include/boost/numeric/ublas/tensor/tensor/tensor_dynamic.hpp: tensor_core(tensor_expression)"]}
{"id": "C73", "title": "Einstein products contract the shared labels", "statement": "A(i..)*B(j..) with placeholder indices is the tensor over the modes with unshared labels whose elements are the sums over the shared labels of the products of the elements: a number if the labels are the same in the same order, the outer product if none is shared; a number of labels other than the rank is refused.", "quantifier": "all ranks, extents, contents, layouts and label tuples", "why_tests_cant": "unbounded ranks and label patterns", "anchors": ["include/boost/numeric/ublas/tensor/operators_arithmetic.hpp: operator *(tensor, tuple)", "include/boost/numeric/ublas/tensor/multi_index_utility.hpp: number_equal_indexes", "include/boost/numeric/ublas/tensor/multi_index_utility.hpp: index_position_pairs", "include/boost/numeric/ublas/tensor/multi_index_utility.hpp: array_to_vector"]}
{"id": "C74", "title": "Scaling in place changes every element", "statement": "v *= t, v /= t, m *= t and m /= t replace every element by its product (quotient) with t, whatever the storage and the evaluation mode; elements which are not stored stay zero and the structure of sparse and packed containers is kept.", "quantifier": "all vectors, views and matrices, contents, scalars, evaluation modes", "why_tests_cant": "unbounded contents and structures", "anchors": ["include/boost/numeric/ublas/detail/vector_assign.hpp: vector_assign_scalar", "include/boost/numeric/ublas/detail/matrix_assign.hpp: matrix_assign_scalar"]}
{"id": "C75", "title": "vector_of_vector look-ups and iteration across the lines", "statement": "find_element of a vector_of_vector matrix returns null exactly for elements which are not stored, iterating across the storage lines (forwards or backwards) visits exactly the stored elements, and positions outside the matrix are refused in debug builds.", "quantifier": "all matrices reachable by any history, both orientations, debug and release builds", "why_tests_cant": "unbounded histories", "anchors": ["include/boost/numeric/ublas/vector_of_vector.hpp: generalized_vector_of_vector::find_element", "include/boost/numeric/ublas/vector_of_vector.hpp: find1", "include/boost/numeric/ublas/vector_of_vector.hpp: find2", "include/boost/numeric/ublas/vector_of_vector.hpp: const_iterator1", "include/boost/numeric/ublas/vector_of_vector.hpp: insert_element"]}
{"id": "C76", "title": "Constant containers are the vectors and matrices they name", "statement": "zero_vector, unit_vector, scalar_vector, zero_matrix, identity_matrix and scalar_matrix deliver, after any resize, exactly the elements of the zero/unit/constant vector or zero/identity/constant matrix of the current size: by element access, by their own iterators and by the iterators of expressions over them, row-wise and column-wise, and no position outside the container is visited.", "quantifier": "all sizes, indices, values, resize histories, both orientations, debug and release builds", "why_tests_cant": "unbounded sizes; the boundary cases (index outside after a resize, rectangular identity) are easily missed", "anchors": ["include/boost/numeric/ublas/vector.hpp: zero_vector", "include/boost/numeric/ublas/vector.hpp: unit_vector", "include/boost/numeric/ublas/vector.hpp: scalar_vector", "include/boost/numeric/ublas/matrix.hpp: zero_matrix", "include/boost/numeric/ublas/matrix.hpp: identity_matrix", "include/boost/numeric/ublas/matrix.hpp: scalar_matrix"]}
{"id": "C77", "title": "c_vector and c_matrix are vectors and matrices of bounded capacity", "statement": "After any history of element writes, clear, resize (preserving or not), copies and assignments of expressions within the capacity, a c_vector/c_matrix has the size last asked for and the expected value at every element that has been written or preserved; swap exchanges two of them; sizes beyond the capacity are refused with bad_size in every build.", "quantifier": "all capacities, contents, histories, both evaluation modes, debug and release builds", "why_tests_cant": "unbounded histories and capacities", "anchors": ["include/boost/numeric/ublas/vector.hpp: c_vector", "include/boost/numeric/ublas/matrix.hpp: c_matrix"]}
{"id": "C78", "title": "The dense vector_of_vector is a matrix", "statement": "After any history of construction, element writes, erase, clear, resize, copies and (computed) assignments a dense vector_of_vector has the expected sizes and elements (elements added by a preserving resize are zero), refuses positions outside the matrix in debug builds, and its iterators visit every element of a row or column once, in order; an assigned iterator behaves like the one it was assigned from and < agrees with the positions.", "quantifier": "all histories, sizes, both orientations, debug and release builds, both evaluation modes", "why_tests_cant": "unbounded histories; stale contents only show up after shrinking and growing again; iterator order across lines depends on the heap", "anchors": ["include/boost/numeric/ublas/matrix.hpp: vector_of_vector::resize", "include/boost/numeric/ublas/matrix.hpp: vector_of_vector::operator ()", "include/boost/numeric/ublas/matrix.hpp: vector_of_vector::find1", "include/boost/numeric/ublas/matrix.hpp: vector_of_vector::const_iterator1::operator =", "include/boost/numeric/ublas/matrix.hpp: vector_of_vector::const_iterator1::operator <"]}
{"id": "C79", "title": "Swapping two views exchanges their elements", "statement": "For two vector views (ranges, slices, rows, columns, whole vectors) that share no element, view1.swap(view2) leaves view1 holding what view2 held and view2 holding what view1 held, whether the containers behind them are dense or sparse and whatever positions are stored in a sparse one; no other element of the containers changes, so swapping two rows of a compressed_matrix gives the row-exchanged matrix. The same holds for two disjoint matrix views: ranges or slices of dense matrices, ranges of compressed matrices with any patterns, and packed (triangular) views of the same shape. Views of different sizes are refused in debug.", "quantifier": "every pair of disjoint views of equal size, every element value, every sparsity pattern of either operand, every orientation and index base", "why_tests_cant": "Tests swap a few views of small containers; the sparse merge depends on how the two patterns interleave.", "anchors": ["include/boost/numeric/ublas/detail/vector_assign.hpp: vector_swap", "include/boost/numeric/ublas/detail/vector_assign.hpp: vector_swap_traits", "include/boost/numeric/ublas/detail/vector_assign.hpp: make_conformant", "include/boost/numeric/ublas/detail/matrix_assign.hpp: matrix_swap", "include/boost/numeric/ublas/vector_proxy.hpp: vector_range::swap", "include/boost/numeric/ublas/vector_proxy.hpp: vector_slice::swap", "include/boost/numeric/ublas/matrix_proxy.hpp: matrix_row::swap", "include/boost/numeric/ublas/matrix_proxy.hpp: matrix_column::swap", "include/boost/numeric/ublas/matrix_proxy.hpp: matrix_range::swap", "include/boost/numeric/ublas/matrix_proxy.hpp: matrix_slice::swap"]}
{"id": "C80", "title": "Symmetric and hermitian adaptors present a symmetric (hermitian) matrix", "statement": "Over a dense square matrix, symmetric_adaptor and hermitian_adaptor present the matrix whose elements in the chosen triangle are those of the adapted matrix and whose other elements are the (conjugated) mirror images: by element access, by the nested row-wise and column-wise loops, by random access and distances of iterators, and backwards by reverse iterators. A write sets an element and its mirror image and nothing else, and does not touch the other triangle of the adapted matrix; hermitian references outside the triangle raise external_logic.", "quantifier": "every size, contents, triangle, line, position, jump, orientation, debug and release builds", "why_tests_cant": "Iterators of a line consist of two segments that switch at the diagonal; every combination of triangle, line, direction and position has its own path.", "anchors": ["include/boost/numeric/ublas/symmetric.hpp: symmetric_adaptor::operator ()", "include/boost/numeric/ublas/symmetric.hpp: symmetric_adaptor::find1", "include/boost/numeric/ublas/symmetric.hpp: symmetric_adaptor::find2", "include/boost/numeric/ublas/symmetric.hpp: symmetric_adaptor::const_iterator1", "include/boost/numeric/ublas/symmetric.hpp: symmetric_adaptor::const_iterator2", "include/boost/numeric/ublas/hermitian.hpp: hermitian_adaptor::operator ()", "include/boost/numeric/ublas/hermitian.hpp: hermitian_adaptor::insert_element", "include/boost/numeric/ublas/hermitian.hpp: hermitian_adaptor::const_iterator1", "include/boost/numeric/ublas/hermitian.hpp: hermitian_adaptor::const_iterator2"]}
{"id": "C81", "title": "Triangular and banded adaptors present the structured part of a dense matrix", "statement": "triangular_adaptor and banded_adaptor over a dense matrix read the adapted element inside the triangle (band), zero outside and one on the diagonal of a unit triangle; a write inside sets exactly that element of the adapted matrix and a write outside is refused with bad_index; the nested loops by rows and by columns, const and mutable, visit exactly the places of the structure once and in order, in every build and for every shape, and a reverse loop over a row visits them in opposite order.", "quantifier": "every triangle kind, bandwidths, shape (including non-square), element position, const and mutable iterators, debug and release builds", "why_tests_cant": "The ranges of the inner iterators come from restrict functions whose corner cases depend on how rows, columns and the kind of triangle relate; tests use square matrices.", "anchors": ["include/boost/numeric/ublas/triangular.hpp: triangular_adaptor::operator ()", "include/boost/numeric/ublas/triangular.hpp: triangular_adaptor::find1", "include/boost/numeric/ublas/triangular.hpp: triangular_adaptor::find2", "include/boost/numeric/ublas/triangular.hpp: triangular_adaptor::const_iterator1", "include/boost/numeric/ublas/triangular.hpp: triangular_adaptor::const_iterator2", "include/boost/numeric/ublas/banded.hpp: banded_adaptor::operator ()", "include/boost/numeric/ublas/banded.hpp: banded_adaptor::find1", "include/boost/numeric/ublas/banded.hpp: banded_adaptor::find2", "include/boost/numeric/ublas/banded.hpp: banded_adaptor::const_iterator1", "include/boost/numeric/ublas/banded.hpp: banded_adaptor::const_iterator2"]}
{"id": "C82", "title": "Iterators of vector views visit what the view shows", "statement": "However vector ranges, slices and indirect arrays are stacked on a vector, iterating the view forwards yields every element of the view in order with its index in the view and the value of the container element it denotes, and iterating backwards yields them in the opposite order. Over a compressed_vector a range shows exactly the stored elements that fall inside it, renumbered; slices and indirect arrays show every element.", "quantifier": "every depth of nesting, every mix of ranges, slices (any stride, also negative and zero) and indirect arrays, every size, contents and, for sparse vectors, every legal history; debug and release builds", "why_tests_cant": "Each layer translates indices of the layer below, so errors appear only for particular nestings; tests use one layer.", "anchors": ["include/boost/numeric/ublas/vector_proxy.hpp: vector_range::const_iterator", "include/boost/numeric/ublas/vector_proxy.hpp: vector_slice::const_iterator", "include/boost/numeric/ublas/vector_proxy.hpp: vector_indirect::const_iterator", "include/boost/numeric/ublas/vector_proxy.hpp: vector_range::find", "include/boost/numeric/ublas/vector_proxy.hpp: vector_slice::find", "include/boost/numeric/ublas/storage.hpp: basic_range::const_iterator", "include/boost/numeric/ublas/storage.hpp: basic_slice::const_iterator", "include/boost/numeric/ublas/storage.hpp: indirect_array::const_iterator"]}
{"id": "C83", "title": "Iterators of matrix views visit what the view shows", "statement": "However matrix ranges, slices and indirect arrays are stacked on a dense or compressed matrix, the nested loops by rows and by columns visit the rows (columns) of the view in order and in each the elements the view shows, in order, with their indices in the view and the values of the elements they denote. Rows, columns and diagonal-like vector views of such a view, again seen through vector views, iterate forwards and backwards over what they show.", "quantifier": "every depth of nesting, kind of selector, orientation, size, contents, sparse history; debug and release builds", "why_tests_cant": "Outer and inner iterators are found again in the container behind for every line; the result depends on nesting, orientation, emptiness of a dimension and sparsity pattern.", "anchors": ["include/boost/numeric/ublas/matrix_proxy.hpp: matrix_range::find1", "include/boost/numeric/ublas/matrix_proxy.hpp: matrix_range::find2", "include/boost/numeric/ublas/matrix_proxy.hpp: matrix_range::const_iterator1", "include/boost/numeric/ublas/matrix_proxy.hpp: matrix_slice::const_iterator1", "include/boost/numeric/ublas/matrix_proxy.hpp: matrix_indirect::const_iterator1", "include/boost/numeric/ublas/matrix_proxy.hpp: matrix_row::find", "include/boost/numeric/ublas/matrix_proxy.hpp: matrix_column::find", "include/boost/numeric/ublas/matrix_proxy.hpp: matrix_vector_range::const_iterator", "include/boost/numeric/ublas/matrix_proxy.hpp: matrix_vector_slice::const_iterator", "include/boost/numeric/ublas/matrix_proxy.hpp: matrix_vector_indirect::const_iterator", "include/boost/numeric/ublas/matrix_sparse.hpp: compressed_matrix::find1", "include/boost/numeric/ublas/matrix_sparse.hpp: compressed_matrix::find2"]}
{"id": "C84", "title": "Iterators of structured matrices and of their views", "statement": "The nested loops over a triangular, banded, symmetric or hermitian matrix, and over every stack of ranges, slices and indirect arrays of it, yield exactly the elements shown (stored elements and the unit diagonal; the band; all elements; for mutable iterators of a symmetric matrix the stored triangle), row by row or column by column in order, each under the outer iterator of its own line; rows and columns, also through further vector views, iterate forwards and backwards over what they show.", "quantifier": "every shape and triangle kind (strict triangles of the shapes of C66), bandwidth, nesting of views, orientation, contents; debug and release builds", "why_tests_cant": "Lines begin and end at places that depend on the structure, the shape and the window cut out by the views; a finite set of shapes cannot cover the combinations.", "anchors": ["include/boost/numeric/ublas/triangular.hpp: triangular_matrix::find1", "include/boost/numeric/ublas/triangular.hpp: triangular_matrix::find2", "include/boost/numeric/ublas/triangular.hpp: triangular_matrix::const_iterator1", "include/boost/numeric/ublas/banded.hpp: banded_matrix::find1", "include/boost/numeric/ublas/banded.hpp: banded_matrix::find2", "include/boost/numeric/ublas/banded.hpp: banded_matrix::const_iterator1", "include/boost/numeric/ublas/symmetric.hpp: symmetric_matrix::find1", "include/boost/numeric/ublas/symmetric.hpp: symmetric_matrix::find2", "include/boost/numeric/ublas/hermitian.hpp: hermitian_matrix::find1", "include/boost/numeric/ublas/hermitian.hpp: hermitian_matrix::find2", "include/boost/numeric/ublas/matrix_proxy.hpp: matrix_range::find1", "include/boost/numeric/ublas/matrix_proxy.hpp: matrix_row::find"]}
{"id": "C85", "title": "Iterating a mapped_matrix shows its stored elements", "statement": "After any history of insertions, erasures, element assignments, clears and resizes, iterating a mapped_matrix by rows or by columns, directly or through any stack of matrix and vector views, yields exactly the stored elements the view shows, each once, in increasing order, with its indices and value; iterating backwards yields them in the opposite order.", "quantifier": "every legal history, map_array and std::map storage, orientation, stack of views, row and column, debug and release builds", "why_tests_cant": "The inner loop of a find walks the map and switches between looking up by key and stepping one index at a time; which path runs depends on orientation, rank and the pattern of stored keys.", "anchors": ["include/boost/numeric/ublas/matrix_sparse.hpp: mapped_matrix::find1", "include/boost/numeric/ublas/matrix_sparse.hpp: mapped_matrix::find2", "include/boost/numeric/ublas/matrix_sparse.hpp: mapped_matrix::const_iterator1", "include/boost/numeric/ublas/matrix_sparse.hpp: mapped_matrix::const_iterator2", "include/boost/numeric/ublas/storage_sparse.hpp: map_array::lower_bound", "include/boost/numeric/ublas/storage_sparse.hpp: map_array::find"]}
{"id": "C86", "title": "Iterating a coordinate_matrix shows its stored elements", "statement": "After any history of insertions, appends (also of the same place several times), erasures, assignments, clears, resizes and sorts, iterating a coordinate_matrix by rows or by columns, directly or through any stack of matrix and vector views, yields exactly the stored elements the view shows, contributions to the same place summed, each once, in increasing order, with its indices and value; iterating backwards yields them in the opposite order.", "quantifier": "every legal history, index base, orientation, conforming std::sort, stack of views, row and column, debug and release builds", "why_tests_cant": "find searches the sorted index arrays twice and then steps index by index, along paths that depend on orientation, rank and the pattern of stored places; appended duplicates appear only after particular histories.", "anchors": ["include/boost/numeric/ublas/matrix_sparse.hpp: coordinate_matrix::find1", "include/boost/numeric/ublas/matrix_sparse.hpp: coordinate_matrix::find2", "include/boost/numeric/ublas/matrix_sparse.hpp: coordinate_matrix::const_iterator1", "include/boost/numeric/ublas/matrix_sparse.hpp: coordinate_matrix::const_iterator2", "include/boost/numeric/ublas/matrix_sparse.hpp: coordinate_matrix::sort", "include/boost/numeric/ublas/vector_sparse.hpp: coordinate_vector::find", "include/boost/numeric/ublas/vector_sparse.hpp: coordinate_vector::const_iterator"]}
{"id": "C87", "title": "mapped_vector_of_mapped_vector behaves as a sparse matrix", "statement": "After any history of element writes and read-modify-writes, insert_element, erase_element, clear and resize(..., false), a mapped_vector_of_mapped_vector over any two correct map types reports the shape of, and reads (operator(), find_element) at every place inside the matrix exactly as, a sparse matrix with that history; inserting an element twice raises bad_index in debug builds, a preserving resize raises internal_logic; reading or writing outside the matrix raises bad_index in debug builds.", "quantifier": "every legal history, map types, orientation, debug and release builds", "why_tests_cant": "Lines are created by the first write into them and never removed, beside a sentinel line that always exists; which lines exist depends on the whole history.", "anchors": ["include/boost/numeric/ublas/matrix_sparse.hpp: mapped_vector_of_mapped_vector::operator ()", "include/boost/numeric/ublas/matrix_sparse.hpp: mapped_vector_of_mapped_vector::find_element", "include/boost/numeric/ublas/matrix_sparse.hpp: mapped_vector_of_mapped_vector::insert_element", "include/boost/numeric/ublas/matrix_sparse.hpp: mapped_vector_of_mapped_vector::erase_element", "include/boost/numeric/ublas/matrix_sparse.hpp: mapped_vector_of_mapped_vector::clear", "include/boost/numeric/ublas/matrix_sparse.hpp: mapped_vector_of_mapped_vector::resize"]}
{"id": "C88", "title": "Iterating a mapped_vector_of_mapped_vector shows its stored elements", "statement": "After any history of element writes, inserts, erases, clears and resizes, iterating a mapped_vector_of_mapped_vector by rows or by columns, or a matrix_row or matrix_column of it (directly or through ranges, slices and indirect views), yields exactly the stored elements, each once, in increasing order, with its indices and value; iterating backwards yields them in the opposite order.", "quantifier": "every legal history, orientation, shape, line, stack of vector views, debug and release builds", "why_tests_cant": "Whether find lands in the right line depends on which lines have ever been written, and the outer iterators compute their index from two maps in a way that depends on orientation and shape.", "anchors": ["include/boost/numeric/ublas/matrix_sparse.hpp: mapped_vector_of_mapped_vector::find1", "include/boost/numeric/ublas/matrix_sparse.hpp: mapped_vector_of_mapped_vector::find2", "include/boost/numeric/ublas/matrix_sparse.hpp: mapped_vector_of_mapped_vector::const_iterator1", "include/boost/numeric/ublas/matrix_sparse.hpp: mapped_vector_of_mapped_vector::const_iterator2"]}
{"id": "C89", "title": "Extents and tensors of different kinds compare by their extents", "statement": "Two extents objects (dynamic, static rank, or fully static, in any combination) satisfy a == b exactly when they list the same extents and a != b exactly otherwise; accordingly two tensors over any kinds of extents satisfy A == B exactly when extents and elements agree, the order comparisons throw for different extents, and inner_prod(A, B) is the sum of all products for equal extents and throws std::length_error otherwise.", "quantifier": "every pair of kinds of extents, ranks, extents, layouts, element values", "why_tests_cant": "Which overload of operator!= is selected depends on the kinds and ranks of both operands; an accepted pair of different shapes only shows when the memory of one happens to begin the memory of the other.", "anchors": ["include/boost/numeric/ublas/tensor/extents/extents_functions.hpp: operator==", "include/boost/numeric/ublas/tensor/extents/extents_functions.hpp: operator!=", "include/boost/numeric/ublas/tensor/extents/extents_static_functions.hpp: operator==", "include/boost/numeric/ublas/tensor/extents/extents_static_functions.hpp: operator!=", "include/boost/numeric/ublas/tensor/operators_comparison.hpp: detail::compare", "include/boost/numeric/ublas/tensor/function/inner_prod.hpp: inner_prod"]}
{"id": "C90", "title": "Compile-time functions on static extents agree with the run-time ones", "statement": "For every pack of extents get_v, cat_t, select_t, set_t, reverse_t and accumulate_v compute the element, concatenation, selection, replacement, reversal and left fold; product_v, is_valid_v, is_scalar_v, is_vector_v, is_matrix_v and is_tensor_v agree with product, is_valid, is_scalar, ... of the same extents at run time; all_of_v and any_of_v are the universal and the existential quantifier; to_strides_v places every multi-index at the position the layout prescribes and at the position the run-time strides give; out-of-range positions and zero extents (strides) are compile errors.", "quantifier": "every pack of extents of every length, position, layout", "why_tests_cant": "Each instantiation is a separate program: testing covers only the packs written in the tests.", "anchors": ["include/boost/numeric/ublas/tensor/extents/extents_static_functions.hpp: get_v", "include/boost/numeric/ublas/tensor/extents/extents_static_functions.hpp: cat_t", "include/boost/numeric/ublas/tensor/extents/extents_static_functions.hpp: select_t", "include/boost/numeric/ublas/tensor/extents/extents_static_functions.hpp: set_t", "include/boost/numeric/ublas/tensor/extents/extents_static_functions.hpp: reverse_t", "include/boost/numeric/ublas/tensor/extents/extents_static_functions.hpp: accumulate_v", "include/boost/numeric/ublas/tensor/extents/extents_static_functions.hpp: product_v", "include/boost/numeric/ublas/tensor/extents/extents_static_functions.hpp: all_of_v", "include/boost/numeric/ublas/tensor/extents/extents_static_functions.hpp: any_of_v", "include/boost/numeric/ublas/tensor/extents/extents_static_functions.hpp: is_valid_v", "include/boost/numeric/ublas/tensor/extents/extents_static_functions.hpp: is_scalar_v", "include/boost/numeric/ublas/tensor/extents/extents_static_functions.hpp: is_vector_v", "include/boost/numeric/ublas/tensor/extents/extents_static_functions.hpp: is_matrix_v", "include/boost/numeric/ublas/tensor/extents/extents_static_functions.hpp: is_tensor_v", "include/boost/numeric/ublas/tensor/extents/extents_static_functions.hpp: to_strides_v", "include/boost/numeric/ublas/tensor/extents/extents_functions.hpp: is_matrix", "include/boost/numeric/ublas/tensor/extents/extents_functions.hpp: is_tensor"]}
{"id": "C91", "title": "Static tensors: element access and construction", "statement": "For a tensor whose extents are part of the type, A(i1,...,ip) reads and writes the element at the multi-index and no other, and at() with an index outside its extent throws; a static tensor built from a value, a matrix, a vector, or another tensor of the same extents (any layout) holds exactly their elements at the corresponding indices, and sources of other sizes throw; ones/zeros (dynamic, static rank, static) give tensors with every element equal to the value and refuse zero extents.", "quantifier": "every rank from two, extents below 2^32, layout, multi-index, source", "why_tests_cant": "The strides of a static tensor are computed by other code than those of the tensor it is built from or compared with; agreement has to hold for every shape and index.", "anchors": ["include/boost/numeric/ublas/tensor/tensor/tensor_static.hpp: tensor_core", "include/boost/numeric/ublas/tensor/tensor/tensor_static.hpp: at", "include/boost/numeric/ublas/tensor/tensor/tensor_static.hpp: operator()", "include/boost/numeric/ublas/tensor/function/init.hpp: init", "include/boost/numeric/ublas/tensor/function/init.hpp: init_static_rank", "include/boost/numeric/ublas/tensor/function/init.hpp: init_static"]}
{"id": "C92", "title": "compressed_matrix_view shows the matrix stored in the caller's arrays", "statement": "A compressed_matrix_view over three arrays that hold a sparse matrix in compressed row (or column) storage with index base IB reads, at every place inside the matrix, the stored element or zero, never touching memory outside the arrays, and follows later writes to the value array; the constructor refuses a wrong element count in debug builds; a view over the arrays of a compressed_matrix with completed index array agrees with that matrix; c_array_view presents exactly its window of memory and refuses other indices in debug builds.", "quantifier": "every shape, sparsity pattern, orientation, index base, array type, history of the viewed compressed_matrix", "why_tests_cant": "The search runs over caller-supplied arrays: that it finds every element and stops inside the arrays depends on all patterns and offsets, including empty lines and non-zero bases.", "anchors": ["include/boost/numeric/ublas/experimental/sparse_view.hpp: compressed_matrix_view", "include/boost/numeric/ublas/experimental/sparse_view.hpp: compressed_matrix_view::operator()", "include/boost/numeric/ublas/experimental/sparse_view.hpp: compressed_matrix_view::find_element", "include/boost/numeric/ublas/experimental/sparse_view.hpp: compressed_matrix_view::find_index_in_row", "include/boost/numeric/ublas/experimental/sparse_view.hpp: compressed_matrix_view::storage_invariants", "include/boost/numeric/ublas/experimental/sparse_view.hpp: c_array_view", "include/boost/numeric/ublas/matrix_sparse.hpp: compressed_matrix::complete_index1_data"]}
{"id": "C93", "title": "A matrix seen as a vector of its rows or columns", "statement": "make_row_vector(m) and make_column_vector(m) behave as a vector of the rows (columns) of m: size() is their number, v[k](j) reads and writes the element of m, iteration forwards and backwards visits every line exactly once in order and random access moves by the given offset, resize(n, preserve) changes the number of lines and keeps the width and (on request) the lines; iterators of different matrices and elements outside the matrix are refused in debug builds.", "quantifier": "every dense matrix, orientation, history of writes and resizes, iterator offsets, debug and release builds", "why_tests_cant": "It has to hold for every history of interleaved element writes and resizes and every position.", "anchors": ["include/boost/numeric/ublas/matrix_vector.hpp: matrix_row_vector", "include/boost/numeric/ublas/matrix_vector.hpp: matrix_column_vector", "include/boost/numeric/ublas/matrix_vector.hpp: detail::matrix_vector_iterator", "include/boost/numeric/ublas/matrix_vector.hpp: make_row_vector", "include/boost/numeric/ublas/matrix_vector.hpp: make_column_vector"]}
{"id": "C94", "title": "Printing a tensor shows every element once in reading order", "statement": "out << t writes every element of t exactly once, slices of the last index outermost and each matrix row by row, with the documented separators, for every storage layout; scalars and vectors (of rank two or more) are written as one bracketed list in index order.", "quantifier": "every rank, extents below 2^32, layout, element values", "why_tests_cant": "The recursion goes over an arbitrary rank and uses strides that depend on the layout; a wrong stride only shows for particular shapes.", "anchors": ["include/boost/numeric/ublas/tensor/ostream.hpp: print", "include/boost/numeric/ublas/tensor/ostream.hpp: operator <<"]}
{"id": "C95", "title": "real, imag and conj of tensor expressions", "statement": "real(e), imag(e) and conj(e) of a tensor expression give, at every multi-index, the real part, imaginary part or conjugate of the element of e, with the extents of e, in whichever order the expression is evaluated; the empty tensor is refused.", "quantifier": "every expression over tensors of one layout, rank, extents, element values", "why_tests_cant": "It ranges over all expressions and shapes.", "anchors": ["include/boost/numeric/ublas/tensor/function/real.hpp: real", "include/boost/numeric/ublas/tensor/function/imag.hpp: imag", "include/boost/numeric/ublas/tensor/function/conj.hpp: conj"]}
{"id": "C96", "title": "Self-checks of debug builds: assignment never raises a false alarm", "statement": "In builds with the type check enabled, assigning (=, +=, -=, and the other element-wise forms) any expression to a compressed vector or matrix, or to a packed one, recomputes the result densely and compares; when the target can hold the result, the comparison passes and the outcome is that of a release build; when a packed target loses a non-zero element outside its structure, external_logic is raised.", "quantifier": "every target state, expression, size, element values, assignment operator, orientation", "why_tests_cant": "The re-computation runs on every assignment in a debug build; that it never fires on a correct result and always fires on a lost element ranges over all contents.", "anchors": ["include/boost/numeric/ublas/detail/matrix_assign.hpp: matrix_assign", "include/boost/numeric/ublas/detail/matrix_assign.hpp: indexing_matrix_assign", "include/boost/numeric/ublas/detail/matrix_assign.hpp: disable_type_check", "include/boost/numeric/ublas/detail/vector_assign.hpp: vector_assign", "include/boost/numeric/ublas/detail/config.hpp: BOOST_UBLAS_CHECK", "include/boost/numeric/ublas/detail/config.hpp: BOOST_UBLAS_TYPE_CHECK_EPSILON"]}
{"id": "C97", "title": "Self-checks of debug builds: LU factorisation and substitution", "statement": "In builds with the type check enabled, lu_factorize (with and without pivots, and the axpy variant) and lu_substitute multiply their results back and compare with the input; for every input on which the release build succeeds the self-check passes and the outcome is the same.", "quantifier": "every matrix, shape, right-hand side, permutation", "why_tests_cant": "The check involves products of the computed factors for every matrix; that it is satisfied by every correct factorisation cannot be settled by examples.", "anchors": ["include/boost/numeric/ublas/lu.hpp: lu_factorize", "include/boost/numeric/ublas/lu.hpp: axpy_lu_factorize", "include/boost/numeric/ublas/lu.hpp: lu_substitute"]}
{"id": "C98", "title": "Self-checks of debug builds: axpy_prod and opb_prod", "statement": "In builds with the type check enabled, every axpy_prod and opb_prod overload recomputes its result through prod and compares; for every operands, target and init flag the comparison passes and the outcome is the one computed without the check, also when a triangular restriction is given.", "quantifier": "every matrix, vector, target contents, restriction, orientation, init flag", "why_tests_cant": "The check runs on every call in debug builds; that it is satisfied by every correct result, including restricted ones, ranges over all operands.", "anchors": ["include/boost/numeric/ublas/operation.hpp: axpy_prod", "include/boost/numeric/ublas/operation.hpp: opb_prod", "include/boost/numeric/ublas/detail/config.hpp: BOOST_UBLAS_TYPE_CHECK"]}
{"id": "C99", "title": "array_adaptor: own or borrowed storage", "statement": "An array_adaptor either owns its elements or refers to an array of the program. After any history of constructions, copies, resizes (with and without a new array), assignments, swaps, element writes and destructions, every adaptor and every program array holds exactly the elements that history gives it; a copy always owns its elements; assignment between equal sizes writes through to a borrowed array while a size change detaches from it; all memory obtained is released exactly once and borrowed arrays are never released; with checks on, an index not below size() is refused.", "quantifier": "every history of operations, number of adaptors and program arrays, sizes, element values, contents of fresh memory", "why_tests_cant": "Double frees, leaks and unintended sharing depend on the interleaving of operations over arbitrarily many objects.", "anchors": ["include/boost/numeric/ublas/storage.hpp: array_adaptor"]}
{"id": "C100", "title": "Element references of sparse containers", "statement": "In the default configuration v(i) and m(i,j) of a non-const mapped, compressed or coordinate container denote proxies. After any legal use of the container, every sequence of statements written with them (assignment of a value or of another element of the same container, +=, -=, *=, /=, ref()) changes exactly the element on the left, to the value ordinary variables would get, an absent element reading as zero; no such statement fails, reads outside the arrays or disturbs other elements, even when it makes the container grow; reading v(i) gives the current element; with checks on, vectors refuse indices not below size().", "quantifier": "every history of container operations, every list of element statements, index, value, operator, capacity, index base, orientation, contents of fresh memory", "why_tests_cant": "A proxy looks its element up again on every use while the container grows or sorts itself between the look-ups; which branch is taken depends on the whole history.", "anchors": ["include/boost/numeric/ublas/vector_sparse.hpp: sparse_vector_element", "include/boost/numeric/ublas/vector_sparse.hpp: mapped_vector", "include/boost/numeric/ublas/vector_sparse.hpp: compressed_vector", "include/boost/numeric/ublas/vector_sparse.hpp: coordinate_vector", "include/boost/numeric/ublas/matrix_sparse.hpp: sparse_matrix_element", "include/boost/numeric/ublas/matrix_sparse.hpp: mapped_matrix", "include/boost/numeric/ublas/matrix_sparse.hpp: compressed_matrix", "include/boost/numeric/ublas/matrix_sparse.hpp: coordinate_matrix"]}
{"id": "C101", "title": "Value arguments taken from the container itself", "statement": "A scalar or value argument passed by const reference that is an element of the target container acts as the value it had before the call: v *= v(k), m /= m(i,j) combine every element with the old value, and insert_element(i, existing element) stores the old value, whatever the capacity.", "quantifier": "every target container, contents, k, (i,j), operator, capacity, orientation, evaluation mode", "why_tests_cant": "Whether the operand is overwritten, shifted or freed before it is read depends on its position relative to the others and on the capacity at that moment.", "anchors": ["include/boost/numeric/ublas/detail/vector_assign.hpp: vector_assign_scalar", "include/boost/numeric/ublas/detail/matrix_assign.hpp: matrix_assign_scalar", "include/boost/numeric/ublas/functional.hpp: scalar_multiplies_assign", "include/boost/numeric/ublas/functional.hpp: scalar_divides_assign", "include/boost/numeric/ublas/vector_sparse.hpp: compressed_vector", "include/boost/numeric/ublas/vector_sparse.hpp: insert_element", "include/boost/numeric/ublas/matrix_sparse.hpp: compressed_matrix", "include/boost/numeric/ublas/matrix_sparse.hpp: insert_element"]}
{"id": "C102", "title": "Element references of hermitian matrices", "statement": "In the default configuration m(i,j) of a non-const hermitian_matrix or hermitian_adaptor denotes a proxy. Statements written with such elements - assignment, +=, -=, *=, /= of a value or another element, swap, chained assignment - and blocks that bind names to elements and work on the names have the effect they have on ordinary variables where m(j,i) is tied to conj(m(i,j)), on either side of the diagonal.", "quantifier": "every size, contents, triangle, layout, list of statements, set of named elements, order of evaluation of operands", "why_tests_cant": "A proxy is a snapshot written back when it is destroyed; whether updates are lost depends on which proxies are alive together and in which order they end.", "anchors": ["include/boost/numeric/ublas/hermitian.hpp: hermitian_matrix_element", "include/boost/numeric/ublas/hermitian.hpp: hermitian_matrix::operator()", "include/boost/numeric/ublas/hermitian.hpp: hermitian_adaptor::operator ()"]}
{"id": "C103", "title": "Builds with Duff's device compute the same as the plain loops", "statement": "Defining BOOST_UBLAS_USE_DUFF_DEVICE only unrolls the dense loops: scaling and assigning vectors and matrices, inner products and the elements of matrix products give the same results, with the same exceptions, as the build without it.", "quantifier": "every target, operand, functor and size, by indexing and by iterators, in debug and release builds", "why_tests_cant": "The unrolled loop is entered in the middle, so it must be right for every residue of the size and for the empty and the very large sizes; tests try a few sizes.", "anchors": ["include/boost/numeric/ublas/detail/duff.hpp: DD", "include/boost/numeric/ublas/detail/duff.hpp: DD_SWITCH", "include/boost/numeric/ublas/detail/vector_assign.hpp: indexing_vector_assign", "include/boost/numeric/ublas/detail/vector_assign.hpp: iterating_vector_assign", "include/boost/numeric/ublas/detail/matrix_assign.hpp: indexing_matrix_assign", "include/boost/numeric/ublas/functional.hpp: vector_inner_prod", "include/boost/numeric/ublas/functional.hpp: matrix_vector_prod1", "include/boost/numeric/ublas/functional.hpp: matrix_matrix_prod"]}
{"id": "C104", "title": "unbounded_array keeps its guarantees when an allocation or an element operation throws", "statement": "If an operation on an unbounded_array ends with an exception, every array is still usable and destructible, only the target of the operation may have changed, and no memory is lost; if the exception is std::bad_alloc nothing has changed at all. In particular a program that catches exceptions and goes on never leaks and never meets undefined behaviour.", "quantifier": "all histories of constructions, copies, moves, resizes, assignments, swaps, element writes and destructions of any number of arrays, all sizes, all subsets of allocations and element operations that fail, trivial and non-trivial element types", "why_tests_cant": "which allocation or copy fails cannot be chosen in an ordinary test, and the number of failure points grows with every size and history; leaks and destruction of elements never constructed do not show as wrong values", "anchors": ["include/boost/numeric/ublas/storage.hpp: unbounded_array", "include/boost/numeric/ublas/storage.hpp: resize_internal", "include/boost/numeric/ublas/storage.hpp: resize", "include/boost/numeric/ublas/storage.hpp: operator =", "include/boost/numeric/ublas/storage.hpp: assign_temporary", "include/boost/numeric/ublas/storage.hpp: swap"]}
{"id": "C105", "title": "A container survives a failed allocation", "statement": "If resize, reserve, assignment or insertion on a vector or matrix ends with std::bad_alloc, the container keeps its size and its elements and can be read, modified, resized and assigned to again; repeating the operation when memory is available succeeds.", "quantifier": "all dense, triangular, symmetric, hermitian, banded matrices, compressed and coordinate vectors and matrices, all old and new sizes, every allocation that can fail in an operation, all later reads and retries, both build modes", "why_tests_cant": "the order in which members are updated only matters when an allocation in between throws, which tests do not arrange; the damage shows later, as an access outside an array", "anchors": ["include/boost/numeric/ublas/matrix.hpp: matrix", "include/boost/numeric/ublas/matrix.hpp: resize", "include/boost/numeric/ublas/matrix.hpp: operator =", "include/boost/numeric/ublas/triangular.hpp: triangular_matrix", "include/boost/numeric/ublas/triangular.hpp: resize", "include/boost/numeric/ublas/triangular.hpp: operator =", "include/boost/numeric/ublas/symmetric.hpp: symmetric_matrix", "include/boost/numeric/ublas/hermitian.hpp: hermitian_matrix", "include/boost/numeric/ublas/banded.hpp: banded_matrix", "include/boost/numeric/ublas/vector_sparse.hpp: compressed_vector", "include/boost/numeric/ublas/vector_sparse.hpp: coordinate_vector", "include/boost/numeric/ublas/vector_sparse.hpp: reserve", "include/boost/numeric/ublas/vector_sparse.hpp: resize", "include/boost/numeric/ublas/vector_sparse.hpp: insert_element", "include/boost/numeric/ublas/vector_sparse.hpp: append_element", "include/boost/numeric/ublas/matrix_sparse.hpp: compressed_matrix", "include/boost/numeric/ublas/matrix_sparse.hpp: coordinate_matrix", "include/boost/numeric/ublas/matrix_sparse.hpp: reserve", "include/boost/numeric/ublas/matrix_sparse.hpp: resize", "include/boost/numeric/ublas/matrix_sparse.hpp: insert_element", "include/boost/numeric/ublas/matrix_sparse.hpp: append_element", "include/boost/numeric/ublas/matrix_sparse.hpp: operator ="]}
{"id": "C106", "title": "Tensors are values: construction, copy, move and assignment", "statement": "A tensor built from extents, an array, a matrix or a vector has exactly those extents and elements, or the constructor throws and no object exists; a copy is independent of its source; a moved-to tensor has the source's value and the source is left as a usable empty tensor; assignment, swap, fill and element-wise updates give the target its new value and leave every other tensor unchanged; an operation that throws changes nothing. At every moment size() is the number of multi-indices of extents().", "quantifier": "all programs (sequences of these operations) over any number of tensors with dynamic extents or a fixed number of extents, all extents, layouts, element values, orders of the parallel loop, and exceptions caught by the program", "why_tests_cant": "value semantics are a statement about all histories; sharing, stale extents after a move and failed assertions appear only after particular sequences of operations", "anchors": ["include/boost/numeric/ublas/tensor/tensor/tensor_dynamic.hpp: tensor_core", "include/boost/numeric/ublas/tensor/tensor/tensor_dynamic.hpp: operator=", "include/boost/numeric/ublas/tensor/tensor/tensor_dynamic.hpp: swap", "include/boost/numeric/ublas/tensor/tensor/tensor_static_rank.hpp: tensor_core", "include/boost/numeric/ublas/tensor/tensor/tensor_static_rank.hpp: operator=", "include/boost/numeric/ublas/tensor/tensor/tensor_static_rank.hpp: swap", "include/boost/numeric/ublas/tensor/extents/extents_static_size.hpp: extents_core"]}
{"id": "C107", "title": "Debug builds refuse indices outside the container", "statement": "In a debug build an element read, an element write, insert_element, append_element or push_back with an index outside the container throws one of the library's exceptions; it never returns a value, never changes an element and never has undefined behaviour.", "quantifier": "all vectors, matrices, views of views, structured matrices, adaptors and sparse containers, every state a legal history leads to, all indices outside (each coordinate), all values", "why_tests_cant": "the set of bad indices is infinite and whether one is noticed depends on the container's fill and capacity at that moment; a missed check does not show as a wrong value when the neighbouring memory happens to be harmless", "anchors": ["include/boost/numeric/ublas/matrix.hpp: matrix", "include/boost/numeric/ublas/matrix.hpp: operator ()", "include/boost/numeric/ublas/matrix.hpp: insert_element", "include/boost/numeric/ublas/vector_proxy.hpp: vector_range", "include/boost/numeric/ublas/vector_proxy.hpp: vector_slice", "include/boost/numeric/ublas/vector_proxy.hpp: vector_indirect", "include/boost/numeric/ublas/matrix_proxy.hpp: matrix_row", "include/boost/numeric/ublas/matrix_proxy.hpp: matrix_range", "include/boost/numeric/ublas/vector_sparse.hpp: mapped_vector", "include/boost/numeric/ublas/vector_sparse.hpp: compressed_vector", "include/boost/numeric/ublas/vector_sparse.hpp: coordinate_vector", "include/boost/numeric/ublas/vector_sparse.hpp: insert_element", "include/boost/numeric/ublas/matrix_sparse.hpp: mapped_matrix", "include/boost/numeric/ublas/matrix_sparse.hpp: compressed_matrix", "include/boost/numeric/ublas/matrix_sparse.hpp: coordinate_matrix", "include/boost/numeric/ublas/matrix_sparse.hpp: find_element", "include/boost/numeric/ublas/vector_of_vector.hpp: generalized_vector_of_vector"]}
{"id": "C108", "title": "The build mode does not change results", "statement": "Whenever a program part runs without a failed check in a debug build, the release build (NDEBUG) of the same part returns normally with the same results: the same values from every read and the same container (sizes, counts and contents) after every sequence of operations.", "quantifier": "all dense, structured, sparse and map-based containers, views and adaptors, every starting state, every sequence of operations (insertions, writes, erasures, resizes, reserves, push and pop, sorts), all indices and values, any contents of newly allocated memory", "why_tests_cant": "one would have to run every history in both builds and compare; the checks themselves contain code (lookups, sorts, recomputed sizes) whose side effects only matter in particular states", "anchors": ["include/boost/numeric/ublas/vector_sparse.hpp: compressed_vector", "include/boost/numeric/ublas/vector_sparse.hpp: coordinate_vector", "include/boost/numeric/ublas/vector_sparse.hpp: mapped_vector", "include/boost/numeric/ublas/vector_sparse.hpp: insert_element", "include/boost/numeric/ublas/matrix_sparse.hpp: compressed_matrix", "include/boost/numeric/ublas/matrix_sparse.hpp: coordinate_matrix", "include/boost/numeric/ublas/matrix_sparse.hpp: mapped_matrix", "include/boost/numeric/ublas/matrix_sparse.hpp: insert_element", "include/boost/numeric/ublas/matrix.hpp: matrix", "include/boost/numeric/ublas/matrix.hpp: resize", "include/boost/numeric/ublas/exception.hpp: BOOST_UBLAS_CHECK"]}
{"id": "C109", "title": "Sizes and addresses are exact in 64-bit arithmetic, or refused", "statement": "For every matrix, tensor and sparse container: the number of storage cells, the capacity and the address or map key of every element that the library computes with 64-bit size_type arithmetic is the mathematical value; parameters for which it is not representable are refused with an exception. In particular two different elements never share storage.", "quantifier": "all 64-bit dimensions, bandwidths, extents (any rank), indices and requested numbers of non-zeros; both orientations and layouts; both build modes", "why_tests_cant": "wrap-around shows only for sizes of several billion, where tests cannot allocate; intermediate expressions (2 * n - j + 1, upper + i - j, i * size2 + j) may wrap although the final value fits", "anchors": ["include/boost/numeric/ublas/functional.hpp: lower_element", "include/boost/numeric/ublas/functional.hpp: packed_size", "include/boost/numeric/ublas/functional.hpp: element", "include/boost/numeric/ublas/functional.hpp: triangular_size", "include/boost/numeric/ublas/banded.hpp: banded_indexing", "include/boost/numeric/ublas/banded.hpp: is_element_in_band", "include/boost/numeric/ublas/matrix_sparse.hpp: mapped_matrix", "include/boost/numeric/ublas/matrix_sparse.hpp: compressed_matrix", "include/boost/numeric/ublas/matrix_sparse.hpp: restrict_capacity", "include/boost/numeric/ublas/tensor/extents/extents_functions.hpp: product", "include/boost/numeric/ublas/tensor/extents/extents_functions.hpp: to_strides", "include/boost/numeric/ublas/tensor/index_functions.hpp: to_index"]}
{"id": "C110", "title": "Assigning to a matrix or matrix view uses the right-hand side's values from before the assignment", "statement": "`m = e`, `m += e` and `m -= e` on a dense or compressed matrix, and `view = e`, `view += e`, `view -= e` on a matrix_range, matrix_slice or matrix_indirect of a dense matrix, store what `e` denotes on the contents before the assignment, even if `e` reads the target in any way (`m = trans (m)`, `m = prod (m, m)`, `project (m, r1, r2) = project (m, r3, r4)`); cells outside a view keep their value.  With `noalias` (or `assign`, `plus_assign`, `minus_assign`) this holds if no element of `e` reads a cell overwritten before.  Violated: copying one view to another view of the same type goes through the copy assignment operator, which uses no temporary, so overlapping ranges or slices are silently corrupted.", "quantifier": "every matrix, size, orientation, view, expression, build configuration (indexing, iterating, threshold; debug and release) and old contents", "why_tests_cant": "whether a right-hand side overlaps the target depends on run-time ranges; tests copy between disjoint blocks, for which the missing temporary makes no difference", "anchors": ["include/boost/numeric/ublas/matrix.hpp: matrix::operator =", "include/boost/numeric/ublas/matrix.hpp: matrix::operator +=", "include/boost/numeric/ublas/matrix.hpp: matrix::operator -=", "include/boost/numeric/ublas/matrix.hpp: matrix::assign", "include/boost/numeric/ublas/matrix_proxy.hpp: matrix_range::operator =", "include/boost/numeric/ublas/matrix_proxy.hpp: matrix_slice::operator =", "include/boost/numeric/ublas/matrix_proxy.hpp: matrix_indirect::operator =", "include/boost/numeric/ublas/detail/matrix_assign.hpp: matrix_assign", "include/boost/numeric/ublas/detail/matrix_assign.hpp: iterating_matrix_assign", "include/boost/numeric/ublas/detail/matrix_assign.hpp: indexing_matrix_assign", "include/boost/numeric/ublas/matrix_sparse.hpp: compressed_matrix::operator ="]}
{"id": "C111", "title": "OpenCL transposition for every interleaving", "statement": "After `opencl::trans (m, result, queue)` element (j, i) of `result` is element (i, j) of `m`, and after `opencl::change_layout (m, result, queue)` the two matrices have equal elements, whatever the order in which the device executes the work items of the kernel; every access stays inside the buffers and all other matrices keep their values.", "quantifier": "All sizes, element values, layouts, distinct or identical arguments, and all interleavings of the work items' reads and writes.", "why_tests_cant": "The number of interleavings is exponential in the number of elements and the device chooses them; a test sees a few.", "anchors": ["include/boost/numeric/ublas/opencl/transpose.hpp: trans", "include/boost/numeric/ublas/opencl/transpose.hpp: change_layout", "include/boost/numeric/ublas/opencl/transpose.hpp: OPENCL_TRANSPOSITION_KERNEL", "include/boost/numeric/ublas/opencl/matrix.hpp: matrix", "include/boost/numeric/ublas/opencl/matrix.hpp: from_host", "include/boost/numeric/ublas/opencl/matrix.hpp: to_host"]}
{"id": "C112", "title": "OpenCL products for every interleaving", "statement": "`opencl::prod` (matrix-matrix, matrix-vector, vector-matrix) and `opencl::outer_prod` store the mathematical product in `result`, for both layouts and for operands of different layout, whatever the order in which the device executes the work items; operands keep their values; the versions for host matrices return the product with the sizes of the product.", "quantifier": "All sizes (including 0), values over any semiring, layouts, previous contents of the result and of fresh device memory, and all interleavings.", "why_tests_cant": "Sizes, layouts, uninitialised memory and schedules are unbounded; a test device behaves deterministically.", "anchors": ["include/boost/numeric/ublas/opencl/prod.hpp: prod", "include/boost/numeric/ublas/opencl/prod.hpp: outer_prod", "include/boost/numeric/ublas/opencl/transpose.hpp: change_layout", "include/boost/numeric/ublas/opencl/matrix.hpp: matrix", "include/boost/numeric/ublas/opencl/matrix.hpp: fill", "include/boost/numeric/ublas/opencl/matrix.hpp: to_host", "include/boost/numeric/ublas/opencl/vector.hpp: vector"]}
{"id": "C113", "title": "OpenCL element-wise operations for every interleaving", "statement": "`opencl::element_add`, `element_sub`, `element_prod`, `element_div`, `element_scale` and `element_wise` store in element (i, j) of `result` the operation applied to the elements (i, j) of the operands, also when `result` is one of the operands, whatever the order in which the device executes the work items.", "quantifier": "All sizes, values, operations, layouts, aliasing of result and operands, and all interleavings.", "why_tests_cant": "In-place updates race unless no item reads what another writes; tests cannot enumerate schedules.", "anchors": ["include/boost/numeric/ublas/opencl/elementwise.hpp: element_wise", "include/boost/numeric/ublas/opencl/elementwise.hpp: element_add", "include/boost/numeric/ublas/opencl/elementwise.hpp: element_sub", "include/boost/numeric/ublas/opencl/elementwise.hpp: element_prod", "include/boost/numeric/ublas/opencl/elementwise.hpp: element_div", "include/boost/numeric/ublas/opencl/elementwise.hpp: element_scale", "include/boost/numeric/ublas/opencl/matrix.hpp: matrix"]}
{"id": "C114", "title": "Concurrent reading of a shared container", "statement": "Any number of threads may call const member functions (element reads) on one shared container at the same time without synchronization: every thread obtains exactly the values it would obtain alone, no access leaves the storage and the container is unchanged, for every interleaving of the individual memory accesses.", "quantifier": "every container reachable by the API, every number of threads, every program of reads (later indices may depend on values read before), every interleaving of single memory accesses; both build modes", "why_tests_cant": "a race appears only under particular schedules; tests execute few of the interleavings, and a const function that sorts a mutable member looks innocent", "anchors": ["include/boost/numeric/ublas/vector_sparse.hpp: compressed_vector", "include/boost/numeric/ublas/vector_sparse.hpp: find_element", "include/boost/numeric/ublas/vector_sparse.hpp: coordinate_vector", "include/boost/numeric/ublas/vector_sparse.hpp: sort", "include/boost/numeric/ublas/matrix_sparse.hpp: compressed_matrix", "include/boost/numeric/ublas/matrix_sparse.hpp: find_element", "include/boost/numeric/ublas/matrix.hpp: operator ()", "include/boost/numeric/ublas/storage_sparse.hpp: lower_bound"]}
{"id": "C115", "title": "Threads working on different elements of one container", "statement": "If every element is written by at most one thread and nobody else reads it, threads may read and write elements of one shared container at the same time: every thread reads what it would read if the others did not exist, and after all threads finished each element holds the last value its owner wrote.", "quantifier": "every dense, packed or compressed container, every number of threads, every assignment of elements to threads, every program of element reads and writes of each thread, every interleaving of single memory accesses", "why_tests_cant": "lost updates need a particular schedule; and whether two elements share mutable state depends on the storage scheme", "anchors": ["include/boost/numeric/ublas/matrix.hpp: operator ()", "include/boost/numeric/ublas/matrix.hpp: at_element", "include/boost/numeric/ublas/vector_sparse.hpp: compressed_vector", "include/boost/numeric/ublas/vector_sparse.hpp: operator ()", "include/boost/numeric/ublas/vector_sparse.hpp: insert_element", "include/boost/numeric/ublas/vector_sparse.hpp: at_element"]}
{"id": "C116", "title": "Saving and loading a container restores it", "statement": "Writing a vector or matrix container to an archive with its serialize member leaves the container unchanged, and reading that archive back, with the same or another build mode, into any container of the type, whatever it held before, gives a container with the same sizes and elements (the same members; over map_array, whose capacity is not saved, the same contents and iteration order), consuming exactly what was written, so that several objects can follow each other in one archive. Sparse containers: in every state a legal history can reach, sorted or not.", "quantifier": "all contents and sizes of the saved container, all previous states of the container loaded into, both build modes, all archives before and after, all legal histories", "why_tests_cant": "A test saves a few containers and loads them into fresh ones; the claim is about every state of both containers, including capacities, unsorted elements and stale storage", "anchors": ["include/boost/numeric/ublas/storage.hpp: unbounded_array::serialize", "include/boost/numeric/ublas/storage.hpp: bounded_array::serialize", "include/boost/numeric/ublas/storage_sparse.hpp: map_std::serialize", "include/boost/numeric/ublas/storage_sparse.hpp: map_array::serialize", "include/boost/numeric/ublas/vector.hpp: serialize", "include/boost/numeric/ublas/matrix.hpp: serialize", "include/boost/numeric/ublas/vector_sparse.hpp: serialize", "include/boost/numeric/ublas/matrix_sparse.hpp: serialize", "include/boost/numeric/ublas/vector_of_vector.hpp: serialize"]}
{"id": "C117", "title": "A damaged archive leaves a usable container", "statement": "Loading an archive that is truncated or damaged either fails with an exception or succeeds, and in both cases touches no memory outside the storage and leaves a container that can still be used: every element its sizes announce has storage and is found.", "quantifier": "all archives (sequences of values), all previous states of the container, both build modes", "why_tests_cant": "There are infinitely many damaged archives, and undefined behaviour after a failed load does not show in a test that only looks at the exception", "anchors": ["include/boost/numeric/ublas/storage.hpp: unbounded_array::serialize", "include/boost/numeric/ublas/storage.hpp: bounded_array::serialize", "include/boost/numeric/ublas/storage_sparse.hpp: map_std::serialize", "include/boost/numeric/ublas/storage_sparse.hpp: map_array::serialize", "include/boost/numeric/ublas/vector.hpp: serialize", "include/boost/numeric/ublas/matrix.hpp: serialize", "include/boost/numeric/ublas/vector_sparse.hpp: serialize", "include/boost/numeric/ublas/matrix_sparse.hpp: serialize", "include/boost/numeric/ublas/vector_of_vector.hpp: serialize"]}
{"id": "C118", "title": "fixed_vector and fixed_matrix behave as vector and matrix of constant size", "statement": "A fixed_vector or fixed_matrix is zero, filled or listed by its constructors; whatever is then done to it - element writes, clear, copies, assignment of expressions that may read it, +=, -=, noalias, container assignments, scaling, swap - it keeps its compile-time size and its elements are the ones the history says; indexes outside the size and expressions of another size are refused; its iterators visit every element once; empty () tells whether the size is zero.", "quantifier": "all sizes, orientations, element rings, histories of operations and right-hand sides, both build modes, all iteration policies", "why_tests_cant": "Tests use two or three sizes and one operation each; the claim ranges over all compile-time sizes and all histories, and a dangling reference shows up only with some compilers.", "anchors": ["include/boost/numeric/ublas/vector.hpp: fixed_vector", "include/boost/numeric/ublas/matrix.hpp: fixed_matrix", "include/boost/numeric/ublas/exception.hpp: BOOST_UBLAS_SAME"]}
{"id": "C119", "title": "Random-access iterators behave like positions", "statement": "The iterators of dense vectors, scalar_vector, rows and columns of dense matrices, matrix_vector_range/slice/indirect, vector proxies, element-wise vector expressions of these, and of ranges, slices and indirect arrays themselves, moved by any sequence of ++, --, += and -= (positive or negative) that stays between begin () and end (), behave like positions: differences and the six comparisons are those of the positions, index () and * give the index and the element there, it [d] gives the element d further; reverse iterators do the same over the reversed sequence. In a checked build * and [] at the end raise bad_index.", "quantifier": "all vectors, sizes below 2^63, nestings of proxies and expressions, all sequences of moves, all pairs of iterators, both build modes", "why_tests_cant": "Tests walk forward with ++; the claim is about every sequence of moves, every pair of iterators and 64-bit wrap-around of counters, and a negative difference or an unchecked subscript is rarely exercised.", "anchors": ["include/boost/numeric/ublas/vector.hpp: vector::const_iterator", "include/boost/numeric/ublas/vector.hpp: scalar_vector::const_iterator", "include/boost/numeric/ublas/storage.hpp: basic_range::const_iterator", "include/boost/numeric/ublas/storage.hpp: basic_slice::const_iterator", "include/boost/numeric/ublas/storage.hpp: indirect_array::const_iterator", "include/boost/numeric/ublas/vector_proxy.hpp: vector_range::const_iterator", "include/boost/numeric/ublas/vector_proxy.hpp: vector_slice::const_iterator", "include/boost/numeric/ublas/vector_proxy.hpp: vector_indirect::const_iterator", "include/boost/numeric/ublas/vector_expression.hpp: vector_unary::const_iterator", "include/boost/numeric/ublas/vector_expression.hpp: vector_binary::const_iterator", "include/boost/numeric/ublas/vector_expression.hpp: vector_binary_scalar1::const_iterator", "include/boost/numeric/ublas/vector_expression.hpp: vector_binary_scalar2::const_iterator", "include/boost/numeric/ublas/matrix.hpp: matrix::const_iterator1", "include/boost/numeric/ublas/matrix.hpp: matrix::const_iterator2", "include/boost/numeric/ublas/matrix_proxy.hpp: matrix_row::const_iterator", "include/boost/numeric/ublas/matrix_proxy.hpp: matrix_column::const_iterator", "include/boost/numeric/ublas/matrix_proxy.hpp: matrix_vector_range::const_iterator", "include/boost/numeric/ublas/functional.hpp: distance_i", "include/boost/numeric/ublas/functional.hpp: distance_j", "include/boost/numeric/ublas/functional.hpp: increment_i", "include/boost/numeric/ublas/functional.hpp: decrement_i", "include/boost/numeric/ublas/detail/iterator.hpp: random_access_iterator_base", "include/boost/numeric/ublas/detail/iterator.hpp: reverse_iterator_base"]}
{"id": "C120", "title": "Generic major/minor loops visit a dense matrix in storage order", "statement": "`size<tag::major>`, `size<tag::minor>`, `size<tag::leading>`, `begin<tag>`, `end<tag>` and `begin (it)`, `end (it)` let one program work for both orientations: the loop over the major dimension of a dense matrix, or of any number of `trans` around it, goes through size<major> lines of size<minor> elements and meets the elements of data () one after the other, each once, with the indices under which the expression shows it; element b of line a is at offset a * size<leading> + b; the loop over the minor dimension meets the same elements with lines and places exchanged; empty matrices end the loops at once; over proxies the loops meet every element of the proxy once, line by line; num_rows, num_columns, size<1>, size<2> agree; trans exchanges the dimensions and keeps major and minor sizes.", "quantifier": "all shapes below 2^64, both orientations, any number of transpositions, all nested proxies, both build modes", "why_tests_cant": "Orientation bugs are invisible on square or single-line matrices; the statement ranges over all shapes and nestings.", "anchors": ["include/boost/numeric/ublas/operation/size.hpp: size", "include/boost/numeric/ublas/operation/begin.hpp: begin", "include/boost/numeric/ublas/operation/end.hpp: end", "include/boost/numeric/ublas/operation/num_rows.hpp: num_rows", "include/boost/numeric/ublas/traits/iterator_type.hpp: iterator_type", "include/boost/numeric/ublas/matrix_expression.hpp: matrix_unary2", "include/boost/numeric/ublas/matrix_expression.hpp: trans"]}
{"id": "C121", "title": "Index labels of the Einstein notation match by value", "statement": "For tuples of index labels (_a ... _z, the placeholder _ matches nothing): has_index tells whether a label occurs, valid_multi_index whether no label but _ is repeated, index_position is the first position of a label or the size, number_equal_indexes counts and index_position_pairs lists, within its array, the positions of the left tuple whose label is shared together with the first position of that label on the right - all common positions if the right tuple is valid; a multi_index<N> can be made exactly of N >= 1 labels that are not repeated, and reading outside it throws; array_to_vector of two multi-indices gives the one-based positions of all common labels.", "quantifier": "all label tuples of all lengths", "why_tests_cant": "The functions are compile-time recursions over arbitrary tuples; tests instantiate a handful, all of the same length for array_to_vector.", "anchors": ["include/boost/numeric/ublas/tensor/multi_index_utility.hpp: has_index", "include/boost/numeric/ublas/tensor/multi_index_utility.hpp: valid_multi_index", "include/boost/numeric/ublas/tensor/multi_index_utility.hpp: number_equal_indexes", "include/boost/numeric/ublas/tensor/multi_index_utility.hpp: index_position", "include/boost/numeric/ublas/tensor/multi_index_utility.hpp: index_position_pairs", "include/boost/numeric/ublas/tensor/multi_index.hpp: multi_index", "include/boost/numeric/ublas/tensor/multi_index.hpp: array_to_vector", "include/boost/numeric/ublas/tensor/index.hpp: index_type"]}
{"id": "C122", "title": "Copies of shallow_array_adaptor share their elements and the memory lives exactly as long as needed", "statement": "With BOOST_UBLAS_SHALLOW_ARRAY_ADAPTOR: a copy-constructed adaptor shows the elements of the original and stays shared with it, so a write through one is read through the other; resize to another size gives the adaptor a new array (elements kept, the rest set to the given value) and leaves the other owners alone; resize to the same size does nothing; assignment copies the elements, into the shared array if the sizes are equal, into a new one otherwise; adaptors over a program array write through to it and never release it; swap and assign_temporary exchange or copy. At every moment exactly the program's arrays and those of live adaptors are in memory: nothing is released early or twice, nothing leaks. In a checked build an index outside the size is refused.", "quantifier": "all histories of constructions, copies, resizes, assignments, swaps, writes and destructions over any number of adaptors and program arrays, all contents of uninitialized memory, both build modes", "why_tests_cant": "Use after free, double delete and leaks depend on the whole history of shared owners; a test fixes one history", "anchors": ["include/boost/numeric/ublas/storage.hpp: shallow_array_adaptor"]}
{"id": "C123", "title": "OpenCL operations refuse operands that do not match", "statement": "In a debug build opencl::trans, change_layout, prod and the element-wise operations throw when the sizes of their arguments (operands and result) do not fit together, before anything is written on the device; no call writes outside the buffer of its result.", "quantifier": "all device and host matrices and vectors, all sizes, layouts, element operations, every interleaving of the work items", "why_tests_cant": "a violated size condition shows only for the combination of sizes not covered by a check, and as an overrun of device memory", "anchors": ["include/boost/numeric/ublas/opencl/elementwise.hpp: element_wise", "include/boost/numeric/ublas/opencl/elementwise.hpp: element_add", "include/boost/numeric/ublas/opencl/elementwise.hpp: element_scale", "include/boost/numeric/ublas/opencl/prod.hpp: prod", "include/boost/numeric/ublas/opencl/transpose.hpp: trans", "include/boost/numeric/ublas/opencl/transpose.hpp: change_layout"]}
{"id": "C124", "title": "Indexed-iterator builds: iterators are random-access iterators over the elements", "statement": "In a build with BOOST_UBLAS_USE_INDEXED_ITERATOR the iterators of dense vectors, scalar_vector, matrix lines, selectors, proxies, expressions and matrix ranges are random-access iterators over the elements they are documented to visit: for any two iterators reached from begin() or end() by ++, --, +=, -=, the six comparisons and the difference (of either sign) are those of the positions, index(), * and it[d] give the index and the element, and in a checked build * and it[d] at the end raise bad_index.", "quantifier": "all expressions, sizes below 2^63, sequences of moves, element types, both build modes", "why_tests_cant": "The option is not enabled in the test suite, and the claim ranges over unboundedly many expressions and move sequences.", "anchors": ["include/boost/numeric/ublas/detail/iterator.hpp: indexed_iterator", "include/boost/numeric/ublas/detail/iterator.hpp: indexed_const_iterator", "include/boost/numeric/ublas/detail/iterator.hpp: indexed_iterator1", "include/boost/numeric/ublas/vector_proxy.hpp: vector_range::find", "include/boost/numeric/ublas/vector_proxy.hpp: vector_slice::find", "include/boost/numeric/ublas/storage.hpp: basic_range::begin", "include/boost/numeric/ublas/matrix_proxy.hpp: matrix_range::find1", "include/boost/numeric/ublas/matrix_proxy.hpp: matrix_range::find2", "include/boost/numeric/ublas/vector_expression.hpp: vector_binary::find"]}
{"id": "C125", "title": "Tensors combined with vectors", "statement": "t op v and v op t for a tensor expression and a vector expression combine, at every multi-index, the tensor element with the vector element at that position of the memory order; a vector whose size is not the number of elements is refused.", "quantifier": "all ranks, extents, tensor expressions, vectors, binary operators, assignment operators and loop schedules", "why_tests_cant": "Quantifies over all shapes, expressions and schedules; no test combines tensors with vectors of another size.", "anchors": ["include/boost/numeric/ublas/tensor/operators_arithmetic.hpp: operator+", "include/boost/numeric/ublas/tensor/operators_arithmetic.hpp: operator-", "include/boost/numeric/ublas/tensor/operators_arithmetic.hpp: operator*", "include/boost/numeric/ublas/tensor/operators_arithmetic.hpp: operator/", "include/boost/numeric/ublas/tensor/expression.hpp: binary_tensor_expression", "include/boost/numeric/ublas/tensor/expression.hpp: make_binary_tensor_expression", "include/boost/numeric/ublas/tensor/expression_evaluation.hpp: eval", "include/boost/numeric/ublas/tensor/expression_evaluation.hpp: all_extents_equal"]}
{"id": "C126", "title": "Matrices stored as an array of coordinate vectors add up appended elements and stay consistent through any history", "statement": "For generalized_vector_of_vector<T, L, vector<coordinate_vector<T>>>: after any history of element writes, insert_element, append_element, erase_element, reads, sort, clear and resize, the sizes, every element, the iteration over the matrix and over any line (increasing order, every element once), nnz after sort and nnz_capacity are those of a partial function to which append_element adds; no operation faults in either build mode.", "quantifier": "every history, every size, both orientations, every conforming std::sort, both sorting strategies, every index base, both build modes, arbitrary contents of uninitialised memory", "why_tests_cant": "The order of insertion, the time of sorting (any read sorts one line) and the resizes interact; a resize can turn a line with pending elements into the sentinel line.", "anchors": ["include/boost/numeric/ublas/vector_of_vector.hpp: generalized_vector_of_vector", "include/boost/numeric/ublas/vector_of_vector.hpp: append_element", "include/boost/numeric/ublas/vector_of_vector.hpp: sort", "include/boost/numeric/ublas/vector_of_vector.hpp: resize", "include/boost/numeric/ublas/vector_sparse.hpp: coordinate_vector"]}
{"id": "C127", "title": "is_symmetric and is_hermitian decide symmetry, and the symmetric and hermitian containers against them", "statement": "is_hermitian (m) (is_symmetric (m)) reads only elements of the matrix and returns true exactly when the matrix is square and every element is the conjugate of (equals) its mirror. Every symmetric_matrix passes is_symmetric, whatever was done to it; a hermitian_matrix with no erase outside its stored triangle passes is_hermitian exactly when its diagonal elements are their own conjugates - the container does not enforce it.", "quantifier": "every matrix, all sizes, every involution as conjugation, both triangles and orientations, every history of the containers, both build modes", "why_tests_cant": "Quantifies over all sizes and all histories; the predicates read only half of the pairs.", "anchors": ["include/boost/numeric/ublas/symmetric.hpp: is_symmetric", "include/boost/numeric/ublas/symmetric.hpp: symmetric_matrix", "include/boost/numeric/ublas/hermitian.hpp: is_hermitian", "include/boost/numeric/ublas/hermitian.hpp: hermitian_matrix"]}
{"id": "C128", "title": "Comparing tensor expressions with a scalar and with each other", "statement": "For every tensor expression x and scalar s the six comparisons s op x and x op s are true exactly when the relation holds at every multi-index, and x != s is the negation of x == s; the comparisons of two compound expressions compare their values at every multi-index, are false for == and throw for the order relations when the extents differ; operands whose parts have different extents throw. The comparison ends for every size.", "quantifier": "all tensor expressions, scalars, extents, layouts, operators, and all schedules of the evaluation loop", "why_tests_cant": "Quantifies over all shapes, contents and schedules.", "anchors": ["include/boost/numeric/ublas/tensor/operators_comparison.hpp: detail::compare", "include/boost/numeric/ublas/tensor/operators_comparison.hpp: operator ==", "include/boost/numeric/ublas/tensor/operators_comparison.hpp: operator !=", "include/boost/numeric/ublas/tensor/operators_comparison.hpp: operator <", "include/boost/numeric/ublas/tensor/operators_comparison.hpp: operator >="]}
{"id": "C129", "title": "The iterators of a c_matrix behave like positions", "statement": "The iterators of every row and column of a c_matrix (and their reverses), moved by any sequence of ++, --, += and -= that stays between begin and end, behave like positions: comparisons and differences are those of the positions, index () and * give index and element, it [d] the element d further, also when the matrix is smaller than its capacity. In a checked build * and [] at the end raise bad_index.", "quantifier": "all capacities, sizes, contents, rows and columns, all sequences of moves, all pairs of iterators, both build modes", "why_tests_cant": "Tests walk forward once over a few sizes; the arithmetic depends on the capacity, which differs from the size, and on the signedness of the types involved.", "anchors": ["include/boost/numeric/ublas/matrix.hpp: c_matrix::iterator1", "include/boost/numeric/ublas/matrix.hpp: c_matrix::iterator2", "include/boost/numeric/ublas/matrix.hpp: c_matrix::const_iterator1", "include/boost/numeric/ublas/matrix.hpp: c_matrix::const_iterator2"]}
{"id": "C130", "title": "at_element names the element", "statement": "`m.at_element (i, j) = v` on a triangular, symmetric or hermitian matrix changes element (i, j) (and its mirror image in a symmetric or hermitian matrix) and no other, wherever `m (i, j) = v` is allowed; with checks on it throws bad_index everywhere else.  Violated: symmetric_matrix::at_element does not look which triangle is stored: in the other triangle it throws with checks on, and without them changes an unrelated element; hermitian_matrix::at_element throws there.", "quantifier": "every size, every structure, both orientations, both build modes, every pair of indices, every contents", "why_tests_cant": "the wrong element is changed only in the triangle that is not stored, in release builds; and its neighbours in the first row happen to be right", "anchors": ["include/boost/numeric/ublas/symmetric.hpp: symmetric_matrix::at_element", "include/boost/numeric/ublas/triangular.hpp: triangular_matrix::at_element", "include/boost/numeric/ublas/hermitian.hpp: hermitian_matrix::at_element"]}
{"id": "C131", "title": "Reductions on the device return what the host functions return", "statement": "The OpenCL versions of inner_prod, a_sum, norm_1 and norm_2, for vectors on the device or on the host, return the sum of products, the sum of absolute values and the Euclidean norm of every vector; the value does not depend on uninitialised memory.  Violated: for empty vectors a_sum, norm_1 and norm_2 wait for an event that was never created; for complex elements the imaginary part of the result is never written.", "quantifier": "every size, every contents, the four element types, every contents of newly allocated memory", "why_tests_cant": "the uninitialised words often happen to be zero; empty vectors are not tested", "anchors": ["include/boost/numeric/ublas/opencl/misc.hpp: a_sum", "include/boost/numeric/ublas/opencl/misc.hpp: norm_1", "include/boost/numeric/ublas/opencl/misc.hpp: norm_2", "include/boost/numeric/ublas/opencl/prod.hpp: inner_prod"]}
{"id": "C132", "title": "Containers are values", "statement": "Copy constructing, assigning and swapping containers of one type behaves as for mathematical values: after any sequence of operations on single variables, copy constructions, assignments and swaps - of a variable with itself too - nothing has faulted and every variable holds what it denotes; writing to one variable never changes another, and the source of a copy keeps its value.  Violated: mapped_vector and mapped_matrix over map_array: copy construction destroys the source and the copy.", "quantifier": "every number of variables, every sequence of statements, every shape, contents and capacity, both build modes, both orientations, every contents of newly allocated memory; vector, matrix, packed, mapped, compressed, coordinate and vector-of-vector containers", "why_tests_cant": "a forgotten or swapped field of one of a dozen containers shows only in the operations that read it later; self-assignment and self-swap are seldom tested", "anchors": ["include/boost/numeric/ublas/vector_sparse.hpp: mapped_vector::swap", "include/boost/numeric/ublas/vector_sparse.hpp: compressed_vector::operator =", "include/boost/numeric/ublas/vector_sparse.hpp: compressed_vector::swap", "include/boost/numeric/ublas/vector_sparse.hpp: coordinate_vector::swap", "include/boost/numeric/ublas/matrix_sparse.hpp: mapped_matrix::swap", "include/boost/numeric/ublas/matrix_sparse.hpp: compressed_matrix::operator =", "include/boost/numeric/ublas/matrix_sparse.hpp: compressed_matrix::swap", "include/boost/numeric/ublas/matrix_sparse.hpp: coordinate_matrix::swap", "include/boost/numeric/ublas/vector_of_vector.hpp: generalized_vector_of_vector::swap", "include/boost/numeric/ublas/matrix.hpp: matrix::swap", "include/boost/numeric/ublas/banded.hpp: banded_matrix::swap", "include/boost/numeric/ublas/triangular.hpp: triangular_matrix::swap", "include/boost/numeric/ublas/symmetric.hpp: symmetric_matrix::swap", "include/boost/numeric/ublas/hermitian.hpp: hermitian_matrix::swap", "include/boost/numeric/ublas/storage.hpp: unbounded_array::operator =", "include/boost/numeric/ublas/storage.hpp: unbounded_array::swap", "include/boost/numeric/ublas/storage_sparse.hpp: map_array"]}
{"id": "C133", "title": "A dense vector is the list of its elements", "statement": "Through any program of constructions, element writes, erase_element, clear, resize, assignments and additions of other containers, v += v, scalings, copies, assignments and swaps of any number of vector<T> (or bounded_vector<T, N> within its capacity), no operation faults and each vector is the list of its elements: by size (), empty (), v (i), v [i], and by iteration forwards and backwards; sizes beyond the capacity, indices beyond the end and additions of other sizes are rejected with checks on.  As documented, elements of `vector (n)` are zero.  Violated: for elements with a trivial constructor they are whatever the memory holds.", "quantifier": "every program, every number of vectors, every size and contents, unbounded and bounded storage, every capacity, all dispatch modes, both build modes, every contents of newly allocated memory", "why_tests_cant": "what a non-preserving resize leaves behind, and fresh memory, are usually zero in tests; self-additions and swaps of different sizes are seldom tested", "anchors": ["include/boost/numeric/ublas/vector.hpp: vector", "include/boost/numeric/ublas/vector.hpp: bounded_vector", "include/boost/numeric/ublas/vector.hpp: vector::resize", "include/boost/numeric/ublas/vector.hpp: vector::swap", "include/boost/numeric/ublas/vector.hpp: vector::const_iterator", "include/boost/numeric/ublas/storage.hpp: unbounded_array", "include/boost/numeric/ublas/storage.hpp: bounded_array", "include/boost/numeric/ublas/detail/vector_assign.hpp: vector_assign", "include/boost/numeric/ublas/detail/vector_assign.hpp: vector_assign_scalar"]}
{"id": "C134", "title": "A dense matrix is the table of its elements", "statement": "Through any program of constructions, element writes (by index or through iterators), erase_element, clear, resize with or without preservation, assignments and additions of other containers, m += m, scalings, copies, assignments and swaps of any number of matrix<T, L> (or matrices over bounded_array, bounded_matrix<T, M, N, L>, within their capacity), no operation faults and each matrix is the table of its elements: by size1 (), size2 (), m (i, j), by iterating its rows with iterator1 and iterator2, and by iterating its columns.  Elements nobody has written are unspecified (their documented zero is C05).  More elements than the capacity, indices beyond the sizes and additions of other sizes are rejected with checks on.", "quantifier": "every program, every number of matrices, all sizes including zero rows or columns, every contents, both orientations, unbounded and bounded storage, every capacity, all dispatch modes, both build modes, every contents of newly allocated memory", "why_tests_cant": "a stride or boundary mistake shows only for non-square or empty shapes in one orientation, after a particular resize or swap, and in one of the two loops that the size decides between", "anchors": ["include/boost/numeric/ublas/matrix.hpp: matrix", "include/boost/numeric/ublas/matrix.hpp: bounded_matrix", "include/boost/numeric/ublas/matrix.hpp: matrix::resize", "include/boost/numeric/ublas/matrix.hpp: matrix::swap", "include/boost/numeric/ublas/matrix.hpp: matrix::const_iterator1", "include/boost/numeric/ublas/matrix.hpp: matrix::const_iterator2", "include/boost/numeric/ublas/matrix.hpp: detail::matrix_resize_preserve", "include/boost/numeric/ublas/storage.hpp: unbounded_array", "include/boost/numeric/ublas/storage.hpp: bounded_array", "include/boost/numeric/ublas/detail/matrix_assign.hpp: matrix_assign", "include/boost/numeric/ublas/detail/matrix_assign.hpp: matrix_assign_scalar"]}
{"id": "C135", "title": "Element references of a strict map_array", "statement": "With BOOST_UBLAS_STRICT_MAP_ARRAY, where `m [k]` returns an object that writes the element back when it is destroyed, statements that read, assign, update (+=, -=, *=, /=), copy, combine, chain or swap elements have the effect they have with plain references: elements named for the first time come into being as zero, the same element may be named twice, no other element changes, and whatever the order of evaluation nothing faults, although naming one element may move the array under the reference to another.  Violated: a statement that changes an element and uses it through a second reference, such as `m [0] += (m [0] = 3)`, still sees the old value, or overwrites the new one, because writes are delayed to the end of the statement.", "quantifier": "every program of such statements and of the other members of map_array, every keys (equal or not, present or not), every value, both orders of evaluation, both build modes", "why_tests_cant": "the build option is off by default and never tested; insertions under a live reference and references to one element twice depend on the state of the array and the order of evaluation", "anchors": ["include/boost/numeric/ublas/storage_sparse.hpp: sparse_storage_element", "include/boost/numeric/ublas/storage_sparse.hpp: map_array::operator []", "include/boost/numeric/ublas/storage_sparse.hpp: map_array"]}
