import json
P=[]
def p(title,statement,quantifier,why,anchors):
    P.append(dict(id="C%02d"%(len(P)+1),title=title,statement=statement,quantifier=quantifier,why_tests_cant=why,anchors=anchors))
U="include/boost/numeric/ublas/"
def A(f,*s): return [(f if f.startswith("include/") else U+f)+": "+x for x in s]

p("Dense matrix elements occupy distinct storage cells",
  "For a row-major or column-major matrix of any size, two element references m(i,j), m(k,l) with valid indices denote the same storage cell only if (i,j)=(k,l); every cell of data() is denoted by exactly one valid (i,j); and the row/column recovered from a cell offset is the one that was addressed.",
  "all sizes size1,size2, all valid index pairs, both orientations","unbounded sizes; a unit test fixes a few shapes",
  A("functional.hpp","basic_row_major::element, storage_size, index_i/index_j","basic_column_major::element"))
p("Dense storage size computation never silently overflows",
  "storage_size(size1,size2) either returns the exact product or raises bad_size when checks are on; without checks the product is exact exactly when it fits in size_type.",
  "all pairs of 64-bit sizes","the failing inputs are astronomically large allocations no unit test can build",
  A("functional.hpp","basic_row_major::storage_size","basic_column_major::storage_size"))
p("Packed triangular storage size computation never silently overflows",
  "triangular_size(size1,size2) with checks on either raises bad_size or returns exactly the number n(n+1)/2 of cells needed for n=max(size1,size2).",
  "all pairs of 64-bit sizes","failing inputs are around 2^32 rows",
  A("functional.hpp","basic_row_major::triangular_size","basic_column_major::triangular_size"))
p("Dense matrix read-after-write and frame",
  "After m(i,j)=t (or insert_element(i,j,t)) m(i,j) is t, every other element and both sizes are unchanged; erase_element(i,j) makes only m(i,j) zero; clear() makes all elements zero; an index outside size1 x size2 raises bad_index when checks are on and never touches memory outside data() when it is in range.",
  "all matrices, orientations, indices, values, and all sequences of these operations","histories and sizes are unbounded",
  A("matrix.hpp","matrix::operator()","matrix::insert_element","matrix::erase_element","matrix::clear"))
p("matrix::resize(preserve=true) keeps the common block",
  "After m.resize(r,c,true) the matrix has size r x c and every element (i,j) with i<min(size1,r), j<min(size2,c) keeps its value, in both orientations; elements outside the old block have default value (documentation: zero filled).",
  "all old and new shapes, orientations, contents","unbounded shapes",
  A("matrix.hpp","matrix::resize","detail::matrix_resize_preserve"))
p("Triangular packed layouts place structural elements injectively and in bounds",
  "For lower, upper, unit_lower, unit_upper, strict_lower and strict_upper triangular_matrix in both orientations, every structural element (i,j) of a square matrix has its own storage cell, inside the packed storage, so that writing one structural element never changes another.",
  "all sizes, all pairs of structural indices, six structure types, two layouts","quadratic index arithmetic over unbounded sizes",
  A("functional.hpp","basic_lower::element, packed_size","basic_upper","basic_unit_lower","basic_unit_upper","basic_strict_lower","basic_strict_upper","lower_element, upper_element")+A("triangular.hpp","triangular_matrix"))
p("Triangular matrix reads and writes respect the structure",
  "m(i,j) of a triangular_matrix is the last value written there for structural (i,j), zero outside the structure and one on the diagonal of unit types; writing through the mutable interface outside the mutable structure raises bad_index with checks on and leaves the structure unchanged.",
  "all sizes, indices, operation sequences, all structure types","unbounded histories",
  A("triangular.hpp","triangular_matrix::operator(), at_element, insert_element, erase_element"))
p("Rectangular triangular matrices accept every structural element",
  "For triangular_matrix with size1 != size2 every structural element can be addressed without an exception and has its own cell within packed storage.",
  "all rectangular shapes","needs unusual shapes and checks enabled",
  A("functional.hpp","basic_unit_lower::element","basic_strict_lower::element","lower_element"))
p("Symmetric matrix stays symmetric",
  "After any sequence of writes to a symmetric_matrix, m(i,j)=m(j,i) for all i,j; a write to (i,j) changes exactly m(i,j) and m(j,i).",
  "all sizes, lower/upper storage, both layouts, all operation sequences","unbounded histories",
  A("symmetric.hpp","symmetric_matrix::operator(), insert_element, erase_element"))
p("Hermitian matrix stays hermitian",
  "After any sequence of insert_element/erase_element/element writes to a hermitian_matrix, m(j,i)=conj(m(i,j)) for all i != j, and only the addressed pair changes.",
  "all sizes, lower/upper storage, both layouts, all operation sequences","unbounded histories; the erase path is untested",
  A("hermitian.hpp","hermitian_matrix::operator(), insert_element, erase_element"))
p("Banded matrix band elements are independent",
  "For any lower/upper bandwidth and shape, every element in the band has its own cell inside the band storage; reads off the band yield zero; writing a band element changes nothing else; writing off the band raises bad_index with checks on.",
  "all shapes, bandwidths, both layouts, all operation sequences","unbounded shapes and bandwidths",
  A("banded.hpp","banded_matrix::operator(), at_element, insert_element, erase_element"))
p("Range and slice composition",
  "For ranges and slices r, s with s inside r's index space, r.compose(s) addresses r(s(i)) at position i, is associative, has size s.size(), and composing with all() is the identity; slices may have any non-negative start and any (also negative) stride whose addressed indices are valid.",
  "all starts, strides, sizes","unbounded parameter space",
  A("storage.hpp","basic_range::compose","basic_slice::compose","preprocess"))
p("Indirect array composition",
  "indirect_array::compose with a range, slice or indirect_array addresses ia(inner(i)) at position i, and is rejected with bad_size/bad_index when checks are on exactly when some inner index is not smaller than ia.size().",
  "all index arrays and inner selections","the boundary case is off by one and untested",
  A("storage.hpp","indirect_array::compose"))
p("Vector proxies write through and frame",
  "Assigning element i of vector_range / vector_slice / vector_indirect changes exactly the selected element of the underlying vector; reading element i returns the underlying selected element; nested projections equal the projection through the composed selector.",
  "all vectors, selectors, nestings, values","unbounded nesting and sizes",
  A("vector_proxy.hpp","vector_range","vector_slice","vector_indirect","project"))
p("Matrix proxies address the right elements",
  "matrix_row, matrix_column, matrix_range, matrix_slice, matrix_indirect and matrix_vector_range/slice read and write exactly the elements of the underlying matrix their definition selects, and nested projections equal the composed projection.",
  "all matrices, selectors, indices","unbounded sizes and nestings",
  A("matrix_proxy.hpp","matrix_row","matrix_column","matrix_range","matrix_slice","matrix_indirect","matrix_vector_range","matrix_vector_slice"))
p("unbounded_array/bounded_array value semantics",
  "resize(n,init) keeps the first min(old,n) elements and sets new ones to init; assignment, swap and copy give value semantics; bounded_array raises bad_size rather than exceeding its capacity when checks are on.",
  "all sizes, contents, operation sequences","unbounded histories",
  A("storage.hpp","unbounded_array::resize_internal, operator=, swap","bounded_array::resize, swap"))
p("map_array behaves as an ordered map",
  "Under any sequence of operator[], insert, erase, clear, reserve on a map_array, lookups agree with a mathematical finite map, keys stay strictly increasing, and size never exceeds capacity.",
  "all operation sequences, all keys and values","unbounded histories; binary search boundaries",
  A("storage_sparse.hpp","map_array::operator[], insert, erase, find, resize, reserve","detail::lower_bound"))
p("map_array copy construction copies",
  "map_array b(a) makes b an independent equal map and leaves a unchanged.",
  "all source maps","uninitialised memory may look right by luck",
  A("storage_sparse.hpp","map_array::map_array(const map_array &)"))
p("compressed_vector refines a sparse function",
  "Under any legal sequence of operator(), insert_element, erase_element, push_back, pop_back, clear, resize(preserve), reserve, v(i) read through operator() is the last value written to i since it was last erased/cleared, zero otherwise; indices stay strictly increasing, below size and nnz never exceeds capacity.",
  "all operation sequences, sizes, values","unbounded histories interacting with capacity growth",
  A("vector_sparse.hpp","compressed_vector"))
p("mapped_vector refines a sparse function",
  "Under any sequence of legal operations on mapped_vector, v(i) equals the last value written to i since last erased/cleared, zero otherwise; resize(n,true) keeps exactly the elements below n.",
  "all operation sequences","unbounded histories",
  A("vector_sparse.hpp","mapped_vector"))
p("coordinate_vector refines summation semantics",
  "append_element(i,t) adds t to element i; after any sequence of append_element, operator() writes through sorting, erase and sort, the value read at i is the sum of the pending contributions; sort() never changes any element's value.",
  "all operation sequences and sorting states","unbounded histories; interleavings of appends and lazy sorts",
  A("vector_sparse.hpp","coordinate_vector::append_element, sort, insert_element, erase_element, pop_back"))
p("Lazy sort of coordinate formats is a correct in-place merge",
  "The incremental sort of coordinate_vector/coordinate_matrix (sort the new tail, merge it with the sorted prefix in place, sum duplicates) terminates and leaves strictly increasing indices holding per-index sums of the previous contents.",
  "all sorted prefixes and arbitrary tails","in-place merge recursion with data-dependent splits; termination",
  A("vector_sparse.hpp","detail inplace_merge / coordinate_vector::sort")+A("matrix_sparse.hpp","coordinate_matrix::sort"))
p("pop_back preserves coordinate sortedness bookkeeping",
  "After push/append sequences and pop_back, the remaining elements are still read correctly and the container's own consistency checks succeed.",
  "all operation sequences ending in pop_back","needs unsorted state at the moment of pop_back",
  A("vector_sparse.hpp","coordinate_vector::pop_back")+A("matrix_sparse.hpp","coordinate_matrix::pop_back"))
p("compressed_matrix refines a sparse matrix function",
  "Under any legal sequence of operator(), insert_element, erase_element, push_back, pop_back, clear on compressed_matrix (row or column major, index base 0 or 1), m(i,j) equals the last value written since erased/cleared, zero otherwise, and the CSR arrays stay consistent (monotone offsets, strictly increasing minor indices).",
  "all operation sequences, orientations, index bases","unbounded histories with partially filled row pointers",
  A("matrix_sparse.hpp","compressed_matrix"))
p("mapped_matrix refines a sparse matrix function",
  "Under any legal sequence of operations on mapped_matrix, m(i,j) equals the last value written since erased/cleared, zero otherwise.",
  "all operation sequences, orientations","unbounded histories",
  A("matrix_sparse.hpp","mapped_matrix"))
p("coordinate_matrix refines summation semantics",
  "append_element(i,j,t) adds t to m(i,j) and the value read at (i,j) after any operation sequence is the sum of contributions since it was last erased/cleared.",
  "all operation sequences","unbounded histories",
  A("matrix_sparse.hpp","coordinate_matrix"))
p("Sparse resize with preserve keeps elements inside the new bounds",
  "resize(..., preserve=true) on mapped/compressed/coordinate vectors and matrices keeps every stored element whose index is inside the new bounds and drops the rest.",
  "all shapes and contents","unbounded contents",
  A("vector_sparse.hpp","compressed_vector::resize","mapped_vector::resize","coordinate_vector::resize")+A("matrix_sparse.hpp","compressed_matrix::resize","mapped_matrix::resize","coordinate_matrix::resize"))
p("Sparse reserve with preserve never loses elements",
  "reserve(n, preserve=true) on compressed/coordinate vectors and matrices never changes any element.",
  "all capacities n and contents","needs n smaller than nnz",
  A("vector_sparse.hpp","compressed_vector::reserve","coordinate_vector::reserve")+A("matrix_sparse.hpp","compressed_matrix::reserve"))
p("Conversion from coordinate_matrix to compressed_matrix preserves every element",
  "Constructing a compressed_matrix from a coordinate_matrix yields, at every (i,j), the coordinate_matrix's value, for index base 0 and 1.",
  "all contents, shapes, index bases","unbounded contents",
  A("matrix_sparse.hpp","compressed_matrix(const coordinate_matrix &)"))
p("inner_prod equals the mathematical sum for every storage combination",
  "inner_prod(v,w) = sum of v(i)*w(i) whichever of the dense indexing, dense iterating, packed (offset-aligned) or sparse (merge) algorithms is dispatched.",
  "all vectors over any commutative ring, all sparsity patterns/offsets","unbounded sparsity patterns and merge interleavings",
  A("functional.hpp","vector_inner_prod::apply (all overloads)"))
p("Matrix-vector prod element equals the row sum for every storage combination",
  "prod(A,x)(i)=sum_j A(i,j)x(j) and prod(x,A)(j)=sum_i x(i)A(i,j) for dense, packed and sparse dispatch.",
  "all matrices, vectors, patterns","unbounded patterns",
  A("functional.hpp","matrix_vector_prod1::apply","matrix_vector_prod2::apply"))
p("Matrix-matrix prod element equals the sum for every storage combination",
  "prod(A,B)(i,j)=sum_k A(i,k)B(k,j) for dense, packed and sparse dispatch.",
  "all matrices and patterns","unbounded patterns",
  A("functional.hpp","matrix_matrix_prod::apply"))
p("axpy_prod computes A*x and accumulates when init=false",
  "axpy_prod(A,x,v,init) leaves v = A*x if init, v_old + A*x otherwise, for dense, compressed, coordinate (even unsorted with duplicates), row- and column-major overloads; same for x^T A and the matrix-matrix overloads.",
  "all operands, storage formats, orientations","unbounded patterns; loop orders differ per overload",
  A("operation.hpp","axpy_prod (all overloads)"))
p("opb_prod computes A*B by outer products",
  "opb_prod(A,B,m,init) leaves m = A*B if init, m_old + A*B otherwise.",
  "all operands","unbounded sizes",
  A("operation.hpp","opb_prod"))
p("block_prod equals prod for every block size",
  "block_prod<M,BS>(A,B) equals A*B for every positive block size BS, including sizes that are not multiples of BS.",
  "all sizes, all positive BS","unbounded sizes and block sizes",
  A("operation_blocked.hpp","block_prod"))
p("sparse_prod equals prod",
  "sparse_prod(A,B,m,init) leaves m = A*B when init is true, and never reads out of bounds, for all shapes including empty ones; with init=false it overwrites the positions where the product is non-zero.",
  "all sparse operands and shapes","unbounded patterns; empty shapes",
  A("operation_sparse.hpp","sparse_prod"))
p("Triangular inplace_solve solves the system",
  "inplace_solve(A,b,lower_tag/upper_tag/unit_*_tag) leaves x with tri(A)*x=b where tri(A) is the triangle named by the tag, in every dispatch (orientation, dense/packed/sparse); the vector-left form solves x*A=b; the matrix form solves for all columns; when a diagonal element is zero and checks are on it raises singular.",
  "all sizes, all A with non-zero diagonal, all b, over any field","unbounded sizes; 12 overloads with different loop orders",
  A("triangular.hpp","inplace_solve (all overloads)","solve"))
p("LU factorization reproduces the matrix",
  "lu_factorize(m) returning 0 leaves unit lower L and upper U packed in m with L*U equal to the original; lu_factorize(m,pm) leaves P*A = L*U for the permutation recorded in pm, for every square or rectangular matrix, also when it reports singularity.",
  "all matrices over any field","unbounded sizes and pivot sequences",
  A("lu.hpp","lu_factorize(M&)","lu_factorize(M&, PM&)"))
p("lu_substitute solves A x = b",
  "If lu_factorize(m,pm) of a square non-singular A succeeded then lu_substitute(m,pm,b) leaves b with A*x=b; the left variant lu_substitute(b,m,pm) leaves x with x*A=b.",
  "all non-singular matrices and right-hand sides","unbounded sizes and pivot sequences",
  A("lu.hpp","lu_substitute","swap_rows"))
p("axpy_lu_factorize agrees with lu_factorize",
  "axpy_lu_factorize(m[,pm]) leaves the same factors, i.e. L*U = (P*)A, for every matrix shape.",
  "all matrices","wide matrices are untested",
  A("lu.hpp","axpy_lu_factorize"))
p("swap_rows with a permutation matrix applies exactly that permutation",
  "swap_rows(pm, x) permutes the entries of x by the transpositions recorded in pm and loses nothing; the result is a permutation of x.",
  "all sequences of transpositions, all vectors/matrices","unbounded sizes",
  A("lu.hpp","swap_rows","permutation_matrix"))
p("Element-wise assignment evaluates the right-hand side before writing",
  "v = e, v += e, v -= e with a right-hand side that reads v anywhere (including products and projections of v) stores at every index the value of e computed from v's contents before the assignment.",
  "all expressions, vectors and sizes","all alias patterns in all expressions",
  A("vector.hpp","vector::operator=, operator+=")+A("detail/vector_assign.hpp","vector_assign")+A("matrix.hpp","matrix::operator="))
p("noalias assignment is safe exactly for same-index reads",
  "noalias(v) = e gives the same result as v = e whenever e reads v only at the index being written (element-wise expressions); with matrix-vector products of v it may not.",
  "all element-wise expressions","all expressions",
  A("detail/definitions.hpp","noalias_proxy")+A("detail/vector_assign.hpp","indexing_vector_assign"))
p("Sparse and packed assignment store every element of the right-hand side",
  "Assigning any expression e to a sparse vector makes v(i)=e(i) for all i; to a packed vector makes v(i)=e(i) for all i in v's support; plus_assign/minus_assign on sparse proxies gives v_old(i)+-e(i).",
  "all sparsity patterns and offsets","merge-loop interleavings are unbounded",
  A("detail/vector_assign.hpp","vector_assign (packed, sparse, sparse_proxy)","make_conformant"))
p("Packed swap exchanges elements index-wise",
  "swap of two packed vector views exchanges v(i) and w(i) for every i in both supports.",
  "all supports","needs different offsets",
  A("detail/vector_assign.hpp","vector_swap(packed_proxy_tag)"))
p("Norms equal their definitions",
  "norm_1, norm_inf, index_norm_inf, norm_2_square, sum (vectors) and norm_1, norm_inf, norm_frobenius (matrices) equal sum |v_i|, max |v_i|, the first index attaining the max, sum |v_i|^2, sum v_i, max column sum, max row sum, and sum of squares.",
  "all vectors/matrices over an ordered field","unbounded sizes",
  A("functional.hpp","vector_norm_1","vector_norm_inf","vector_index_norm_inf","vector_sum","matrix_norm_1","matrix_norm_inf","matrix_norm_frobenius"))
p("Scaled norm_2 never divides by zero",
  "With BOOST_UBLAS_SCALED_NORM, norm_2 of any vector is sqrt of the sum of squares and the scaling never computes 0/0.",
  "all vectors","leading zeros with the iterator variant",
  A("functional.hpp","vector_norm_2 (BOOST_UBLAS_SCALED_NORM)"))
p("Element-wise expressions evaluate pointwise",
  "(-v)(i), (v+w)(i), (v-w)(i), (t*v)(i), (v/t)(i), element_prod, element_div, outer_prod, trans, herm, conj and nested combinations evaluate to the mathematical element at every index, also when evaluated by the sparse or packed merge iterators.",
  "all expression trees, all sparsity patterns","unbounded nesting and merge interleavings",
  A("vector_expression.hpp","vector_binary::const_iterator (sparse)","vector_unary")+A("matrix_expression.hpp","matrix_binary","vector_matrix_binary","matrix_unary2"))
p("Dense iterators traverse every element exactly once",
  "begin()..end() of a dense vector, begin1()/begin2() with nested iterators of a dense matrix in either orientation visit each element exactly once in increasing index order, it+n / it-it2 agree with repeated ++ and index arithmetic, also for negative differences.",
  "all sizes and iterator pairs","negative differences mix signed and unsigned arithmetic",
  A("functional.hpp","increment_i, increment_j, distance_i, distance_j")+A("matrix.hpp","matrix::iterator1, iterator2"))
p("Iterators of sparse containers enumerate exactly the stored elements in order",
  "Iterating begin()..end() of compressed/mapped vectors, and begin1/begin2 nested iteration of a compressed_matrix, yields exactly the stored (index, value) pairs in increasing index order; find(i) is the first stored element with index >= i.",
  "all contents","unbounded contents",
  A("vector_sparse.hpp","compressed_vector::find, begin, end")+A("matrix_sparse.hpp","compressed_matrix::find1, find2"))
p("Tensor strides give a bijection between multi-indices and memory",
  "For every extents with positive extents, to_strides (first or last order) makes to_index a bijection between valid multi-indices and 0..product(extents)-1.",
  "all ranks and extents, both layouts","unbounded rank",
  ["include/boost/numeric/ublas/tensor/extents/extents_functions.hpp: to_strides, product","include/boost/numeric/ublas/tensor/index_functions.hpp: to_index"])
p("Tensor copy/transform/accumulate visit every element once",
  "copy and transform store at every multi-index of c the (transformed) element of a at the same multi-index for arbitrary strides of both; accumulate folds over every element exactly once.",
  "all ranks, extents, strides","unbounded rank recursion",
  ["include/boost/numeric/ublas/tensor/algorithms.hpp: copy, transform, accumulate"])
p("Tensor transposition permutes indices",
  "trans(A,pi) satisfies B(i_pi) = A(i) at every multi-index; applying the inverse permutation gives A back.",
  "all ranks, permutations, extents","unbounded rank, all permutations",
  ["include/boost/numeric/ublas/tensor/algorithms.hpp: trans","include/boost/numeric/ublas/tensor/function/trans.hpp"])
p("Tensor times vector/matrix contract the chosen mode",
  "ttv(A,b,m) and ttm(A,B,m) equal the mode-m contraction sum_k A(..k..) b(k) resp. sum_k A(..k..) B(j,k) for every mode.",
  "all ranks, modes, extents, both layouts","unbounded rank recursion",
  ["include/boost/numeric/ublas/tensor/multiplication.hpp: ttv, ttv0, ttm, ttm0, mtv"])
p("Tensor times tensor contracts the chosen modes; inner and outer products",
  "ttt contracts exactly the listed modes; inner_prod(A,B)=sum over all multi-indices; outer_prod(A,B)(i,j)=A(i)B(j).",
  "all ranks, permutations, extents","unbounded rank recursion",
  ["include/boost/numeric/ublas/tensor/multiplication.hpp: ttt, inner, outer"])
p("Tensor reshape keeps the elements in memory order",
  "t.reshape(e) keeps the first min(old,new) elements in memory order, fills new ones with the given value, and the flat index of each element is unchanged.",
  "all extents","unbounded extents",
  ["include/boost/numeric/ublas/tensor/function/reshape.hpp"])
p("Comma/stream assignment fills in traversal order",
  "v <<= a, b, c... writes the values consecutively (skipping by the given policy/manipulators such as move, move_to, next_row, fill policies) and raises when running out of space under checks.",
  "all sequences of values and manipulators","unbounded sequences",
  A("assignment.hpp","vector_expression_assigner","matrix_expression_assigner"))
p("Text output and input round-trip",
  "For every vector or matrix, reading back what operator<< wrote yields the same size and elements; malformed input sets the stream's fail state and leaves the target unchanged.",
  "all vectors/matrices, all byte strings","all inputs",
  A("io.hpp","operator <<","operator >>"))
p("BLAS wrappers compute their formulas",
  "blas_1/2/3 functions (asum, axpy, rot, copy, swap, tmv, tsv, gmv, gr, sr, hr, sr2, hr2, tmm, tsm, gmm, srk, hrk, sr2k, hr2k) leave their target equal to the documented formula, also when operands alias the target where the formula reads it.",
  "all operands","all operands",
  A("blas.hpp","blas_1","blas_2","blas_3"))
p("vector_of_vector matrices behave as sparse matrices",
  "generalized_vector_of_vector read/write/insert/erase/clear/resize behave as a finite map from index pairs, its nnz equals the number of stored elements, and iterating along the storage direction visits exactly the stored elements in order.",
  "all operation sequences","unbounded histories",
  A("vector_of_vector.hpp","generalized_vector_of_vector"))
p("banded_matrix::resize(preserve=true) keeps the common band",
  "After b.resize(size1,size2,lower,upper) with the default preserve=true every element in the old and the new band keeps its value and no memory outside the band storage is touched.",
  "all shapes, bandwidths and contents","all shapes",
  A("banded.hpp","banded_matrix::resize")+A("matrix.hpp","detail::matrix_resize_preserve"))
p("Projecting a proxy with all() gives the whole proxy",
  "project(p, range::all()), project(p, slice::all()) and indirect_array all() applied to a vector or to a vector proxy p denote exactly the elements of p, with p.size() elements.",
  "all vectors and nested proxies","nesting depth is unbounded",
  A("vector_proxy.hpp","vector_range::project","vector_slice::project","vector_indirect::project")+A("storage.hpp","basic_range::preprocess"))
p("Discarding resize and reserve empty a coordinate_vector","resize(n, false) and reserve(n, false) on a coordinate_vector succeed and leave it empty with its consistency checks passing, whatever it held before.","all contents, sorted or not, both build modes","the state must be unsorted at the moment of the call",A("vector_sparse.hpp","coordinate_vector::resize","coordinate_vector::reserve"))
p("compressed_matrix::push_back appends any element after the last one",
  "For a compressed_matrix, push_back(i,j,t) succeeds and stores t whenever (i,j) follows every stored element in storage order, whatever operations (pop_back, erase_element, clear, ...) came before.",
  "all histories of operations, all later positions","the failing state arises only after particular histories",
  A("matrix_sparse.hpp","compressed_matrix::push_back","compressed_matrix::pop_back","compressed_matrix::erase_element"))
p("Reverse iteration of compressed_matrix visits the same elements backwards",
  "For every compressed_matrix, iterating a row or a column from rbegin() to rend() visits exactly the stored elements of that row or column in the reverse of the forward order.",
  "all contents, both orientations, both axes","depends on which trailing lines are empty",
  A("matrix_sparse.hpp","compressed_matrix::const_iterator1::operator --","compressed_matrix::const_iterator2::operator --","compressed_matrix::find1","compressed_matrix::find2"))
p("Triangular and banded traversal visits exactly the structure",
  "For every triangular_matrix (lower, upper, unit, strict; const and mutable iterators) and banded_matrix, the nested traversals by rows and by columns visit exactly the positions of the triangle or band, each once, in increasing order, with the value m(i,j).",
  "all structures, orientations, shapes, bandwidths, contents and both build modes",
  "the iterator bounds come from formulas (restrict/global_restrict) that agree with the structure on square matrices; only a proof over all shapes finds the ones where they do not",
  A("triangular.hpp","find1","find2","begin1","end2") + A("functional.hpp","restrict1","global_restrict2","transposed_structure") + A("banded.hpp","find1","find2"))
p("Reverse iteration over element-wise expressions visits the same elements backwards",
  "For every binary vector expression (v+w, v-w, element_prod, element_div), iterating from rbegin() to rend() visits exactly the elements of the forward iteration in reverse order, whatever the operands' storage category.",
  "all operands (dense, packed, sparse), all contents","the failing operand patterns depend on which positions are stored",
  A("vector_expression.hpp","vector_binary::const_iterator::decrement","vector_binary::const_iterator::increment")+A("detail/iterator.hpp","reverse_iterator_base"))
p("Matrix assignment stores every element of the right-hand side",
  "noalias(m) = e, m.plus_assign(e) and m.minus_assign(e) (and the operators that end in them) make element (i,j) of a dense or sparse matrix or matrix view equal to e(i,j), old + e(i,j), old - e(i,j) for every position, whatever the storage categories of target and expression; a packed target receives every element of its structure and nothing else changes.",
  "all sizes, all dense/packed/sparse targets and expressions not reading the target, all contents, three evaluation modes, both build modes",
  "which of six algorithms runs and how the two iterations interleave depends on the categories and on which positions are stored",
  A("detail/matrix_assign.hpp","matrix_assign","make_conformant","iterating_matrix_assign","indexing_matrix_assign","matrix_assign_traits"))
p("Pivoted LU decides singularity and yields the determinant",
  "For a square matrix lu_factorize(m,pm) returns 0 exactly when det(A) is not zero, and det(A) is the product of m(i,i) negated once for every i with pm(i) != i; the partial pivoting keeps every multiplier at absolute value at most one.",
  "all square matrices over any field, all pivot sequences, both orientations, both build modes",
  "unbounded sizes and pivot sequences",
  A("lu.hpp","lu_factorize(M&, PM&)","permutation_matrix"))
p("Tensor element access by multi-index",
  "t(i1,...,ip) and t.at(i1,...,ip) read and write exactly the element at that multi-index; a wrong number of indices or an index outside its extent is refused with an exception.",
  "all ranks, extents, layouts and multi-indices","unbounded rank; most out-of-range indices land on another element",
  A("tensor/tensor/tensor_dynamic.hpp","tensor_core::at","tensor_core::operator()")+A("tensor/index_functions.hpp","to_index"))
p("Tensor comparisons compare elements at equal multi-indices",
  "a == b is true exactly when extents and all elements agree, a != b is its negation, and a < b, <=, >, >= hold exactly when they hold at every multi-index (tensors of different extents are refused), whatever the layouts of a and b.",
  "all tensors and tensor expressions","all contents and layouts",
  A("tensor/operators_comparison.hpp","detail::compare","operator ==","operator !=","operator <"))
p("Element-wise tensor expressions are element-wise",
  "t = expr, t += expr, tensor(expr) and t += scalar store at every multi-index the value of the expression at that multi-index, also when the expression reads t, independently of the schedule of the parallel loop; operands of another shape are refused with an exception.",
  "all expressions, extents, layouts, loop schedules","all schedules, unbounded extents",
  A("tensor/expression_evaluation.hpp","detail::eval","all_extents_equal","retrieve_extents")+A("tensor/operators_arithmetic.hpp","operator +","operator +=")+A("tensor/tensor/tensor_dynamic.hpp","tensor_core(tensor_expression)"))
p("Einstein products contract the shared labels",
  "A(i..)*B(j..) with placeholder indices is the tensor over the modes with unshared labels whose elements are the sums over the shared labels of the products of the elements: a number if the labels are the same in the same order, the outer product if none is shared; a number of labels other than the rank is refused.",
  "all ranks, extents, contents, layouts and label tuples","unbounded ranks and label patterns",
  A("tensor/operators_arithmetic.hpp","operator *(tensor, tuple)")+A("tensor/multi_index_utility.hpp","number_equal_indexes","index_position_pairs","array_to_vector"))
p("Scaling in place changes every element",
  "v *= t, v /= t, m *= t and m /= t replace every element by its product (quotient) with t, whatever the storage and the evaluation mode; elements which are not stored stay zero and the structure of sparse and packed containers is kept.",
  "all vectors, views and matrices, contents, scalars, evaluation modes","unbounded contents and structures",
  A("detail/vector_assign.hpp","vector_assign_scalar")+A("detail/matrix_assign.hpp","matrix_assign_scalar"))
p("vector_of_vector look-ups and iteration across the lines",
  "find_element of a vector_of_vector matrix returns null exactly for elements which are not stored, iterating across the storage lines (forwards or backwards) visits exactly the stored elements, and positions outside the matrix are refused in debug builds.",
  "all matrices reachable by any history, both orientations, debug and release builds","unbounded histories",
  A("vector_of_vector.hpp","generalized_vector_of_vector::find_element","find1","find2","const_iterator1","insert_element"))
p("Constant containers are the vectors and matrices they name",
  "zero_vector, unit_vector, scalar_vector, zero_matrix, identity_matrix and scalar_matrix deliver, after any resize, exactly the elements of the zero/unit/constant vector or zero/identity/constant matrix of the current size: by element access, by their own iterators and by the iterators of expressions over them, row-wise and column-wise, and no position outside the container is visited.",
  "all sizes, indices, values, resize histories, both orientations, debug and release builds","unbounded sizes; the boundary cases (index outside after a resize, rectangular identity) are easily missed",
  A("vector.hpp","zero_vector","unit_vector","scalar_vector")+A("matrix.hpp","zero_matrix","identity_matrix","scalar_matrix"))
p("c_vector and c_matrix are vectors and matrices of bounded capacity",
  "After any history of element writes, clear, resize (preserving or not), copies and assignments of expressions within the capacity, a c_vector/c_matrix has the size last asked for and the expected value at every element that has been written or preserved; swap exchanges two of them; sizes beyond the capacity are refused with bad_size in every build.",
  "all capacities, contents, histories, both evaluation modes, debug and release builds","unbounded histories and capacities",
  A("vector.hpp","c_vector")+A("matrix.hpp","c_matrix"))
p("The dense vector_of_vector is a matrix",
  "After any history of construction, element writes, erase, clear, resize, copies and (computed) assignments a dense vector_of_vector has the expected sizes and elements (elements added by a preserving resize are zero), refuses positions outside the matrix in debug builds, and its iterators visit every element of a row or column once, in order; an assigned iterator behaves like the one it was assigned from and < agrees with the positions.",
  "all histories, sizes, both orientations, debug and release builds, both evaluation modes","unbounded histories; stale contents only show up after shrinking and growing again; iterator order across lines depends on the heap",
  A("matrix.hpp","vector_of_vector::resize","vector_of_vector::operator ()","vector_of_vector::find1","vector_of_vector::const_iterator1::operator =","vector_of_vector::const_iterator1::operator <"))
p("Swapping two views exchanges their elements",
  "For two vector views (ranges, slices, rows, columns, whole vectors) that share no element, view1.swap(view2) leaves view1 holding what view2 held and view2 holding what view1 held, whether the containers behind them are dense or sparse and whatever positions are stored in a sparse one; no other element of the containers changes, so swapping two rows of a compressed_matrix gives the row-exchanged matrix. The same holds for two disjoint matrix views: ranges or slices of dense matrices, ranges of compressed matrices with any patterns, and packed (triangular) views of the same shape. Views of different sizes are refused in debug.",
  "every pair of disjoint views of equal size, every element value, every sparsity pattern of either operand, every orientation and index base",
  "Tests swap a few views of small containers; the sparse merge depends on how the two patterns interleave.",
  A("detail/vector_assign.hpp","vector_swap","vector_swap_traits","make_conformant")+A("detail/matrix_assign.hpp","matrix_swap")+A("vector_proxy.hpp","vector_range::swap","vector_slice::swap")+A("matrix_proxy.hpp","matrix_row::swap","matrix_column::swap","matrix_range::swap","matrix_slice::swap"))
p("Symmetric and hermitian adaptors present a symmetric (hermitian) matrix",
  "Over a dense square matrix, symmetric_adaptor and hermitian_adaptor present the matrix whose elements in the chosen triangle are those of the adapted matrix and whose other elements are the (conjugated) mirror images: by element access, by the nested row-wise and column-wise loops, by random access and distances of iterators, and backwards by reverse iterators. A write sets an element and its mirror image and nothing else, and does not touch the other triangle of the adapted matrix; hermitian references outside the triangle raise external_logic.",
  "every size, contents, triangle, line, position, jump, orientation, debug and release builds",
  "Iterators of a line consist of two segments that switch at the diagonal; every combination of triangle, line, direction and position has its own path.",
  A("symmetric.hpp","symmetric_adaptor::operator ()","symmetric_adaptor::find1","symmetric_adaptor::find2","symmetric_adaptor::const_iterator1","symmetric_adaptor::const_iterator2")+A("hermitian.hpp","hermitian_adaptor::operator ()","hermitian_adaptor::insert_element","hermitian_adaptor::const_iterator1","hermitian_adaptor::const_iterator2"))
p("Triangular and banded adaptors present the structured part of a dense matrix",
  "triangular_adaptor and banded_adaptor over a dense matrix read the adapted element inside the triangle (band), zero outside and one on the diagonal of a unit triangle; a write inside sets exactly that element of the adapted matrix and a write outside is refused with bad_index; the nested loops by rows and by columns, const and mutable, visit exactly the places of the structure once and in order, in every build and for every shape, and a reverse loop over a row visits them in opposite order.",
  "every triangle kind, bandwidths, shape (including non-square), element position, const and mutable iterators, debug and release builds",
  "The ranges of the inner iterators come from restrict functions whose corner cases depend on how rows, columns and the kind of triangle relate; tests use square matrices.",
  A("triangular.hpp","triangular_adaptor::operator ()","triangular_adaptor::find1","triangular_adaptor::find2","triangular_adaptor::const_iterator1","triangular_adaptor::const_iterator2")+A("banded.hpp","banded_adaptor::operator ()","banded_adaptor::find1","banded_adaptor::find2","banded_adaptor::const_iterator1","banded_adaptor::const_iterator2"))
p("Iterators of vector views visit what the view shows",
  "However vector ranges, slices and indirect arrays are stacked on a vector, iterating the view forwards yields every element of the view in order with its index in the view and the value of the container element it denotes, and iterating backwards yields them in the opposite order. Over a compressed_vector a range shows exactly the stored elements that fall inside it, renumbered; slices and indirect arrays show every element.",
  "every depth of nesting, every mix of ranges, slices (any stride, also negative and zero) and indirect arrays, every size, contents and, for sparse vectors, every legal history; debug and release builds",
  "Each layer translates indices of the layer below, so errors appear only for particular nestings; tests use one layer.",
  A("vector_proxy.hpp","vector_range::const_iterator","vector_slice::const_iterator","vector_indirect::const_iterator","vector_range::find","vector_slice::find")+A("storage.hpp","basic_range::const_iterator","basic_slice::const_iterator","indirect_array::const_iterator"))
p("Iterators of matrix views visit what the view shows",
  "However matrix ranges, slices and indirect arrays are stacked on a dense or compressed matrix, the nested loops by rows and by columns visit the rows (columns) of the view in order and in each the elements the view shows, in order, with their indices in the view and the values of the elements they denote. Rows, columns and diagonal-like vector views of such a view, again seen through vector views, iterate forwards and backwards over what they show.",
  "every depth of nesting, kind of selector, orientation, size, contents, sparse history; debug and release builds",
  "Outer and inner iterators are found again in the container behind for every line; the result depends on nesting, orientation, emptiness of a dimension and sparsity pattern.",
  A("matrix_proxy.hpp","matrix_range::find1","matrix_range::find2","matrix_range::const_iterator1","matrix_slice::const_iterator1","matrix_indirect::const_iterator1","matrix_row::find","matrix_column::find","matrix_vector_range::const_iterator","matrix_vector_slice::const_iterator","matrix_vector_indirect::const_iterator")+A("matrix_sparse.hpp","compressed_matrix::find1","compressed_matrix::find2"))
p("Iterators of structured matrices and of their views",
  "The nested loops over a triangular, banded, symmetric or hermitian matrix, and over every stack of ranges, slices and indirect arrays of it, yield exactly the elements shown (stored elements and the unit diagonal; the band; all elements; for mutable iterators of a symmetric matrix the stored triangle), row by row or column by column in order, each under the outer iterator of its own line; rows and columns, also through further vector views, iterate forwards and backwards over what they show.",
  "every shape and triangle kind (strict triangles of the shapes of C66), bandwidth, nesting of views, orientation, contents; debug and release builds",
  "Lines begin and end at places that depend on the structure, the shape and the window cut out by the views; a finite set of shapes cannot cover the combinations.",
  A("triangular.hpp","triangular_matrix::find1","triangular_matrix::find2","triangular_matrix::const_iterator1")+A("banded.hpp","banded_matrix::find1","banded_matrix::find2","banded_matrix::const_iterator1")+A("symmetric.hpp","symmetric_matrix::find1","symmetric_matrix::find2")+A("hermitian.hpp","hermitian_matrix::find1","hermitian_matrix::find2")+A("matrix_proxy.hpp","matrix_range::find1","matrix_row::find"))
p("Iterating a mapped_matrix shows its stored elements",
  "After any history of insertions, erasures, element assignments, clears and resizes, iterating a mapped_matrix by rows or by columns, directly or through any stack of matrix and vector views, yields exactly the stored elements the view shows, each once, in increasing order, with its indices and value; iterating backwards yields them in the opposite order.",
  "every legal history, map_array and std::map storage, orientation, stack of views, row and column, debug and release builds",
  "The inner loop of a find walks the map and switches between looking up by key and stepping one index at a time; which path runs depends on orientation, rank and the pattern of stored keys.",
  A("matrix_sparse.hpp","mapped_matrix::find1","mapped_matrix::find2","mapped_matrix::const_iterator1","mapped_matrix::const_iterator2")+A("storage_sparse.hpp","map_array::lower_bound","map_array::find"))
p("Iterating a coordinate_matrix shows its stored elements",
  "After any history of insertions, appends (also of the same place several times), erasures, assignments, clears, resizes and sorts, iterating a coordinate_matrix by rows or by columns, directly or through any stack of matrix and vector views, yields exactly the stored elements the view shows, contributions to the same place summed, each once, in increasing order, with its indices and value; iterating backwards yields them in the opposite order.",
  "every legal history, index base, orientation, conforming std::sort, stack of views, row and column, debug and release builds",
  "find searches the sorted index arrays twice and then steps index by index, along paths that depend on orientation, rank and the pattern of stored places; appended duplicates appear only after particular histories.",
  A("matrix_sparse.hpp","coordinate_matrix::find1","coordinate_matrix::find2","coordinate_matrix::const_iterator1","coordinate_matrix::const_iterator2","coordinate_matrix::sort")+A("vector_sparse.hpp","coordinate_vector::find","coordinate_vector::const_iterator"))
p("mapped_vector_of_mapped_vector behaves as a sparse matrix",
  "After any history of element writes and read-modify-writes, insert_element, erase_element, clear and resize(..., false), a mapped_vector_of_mapped_vector over any two correct map types reports the shape of, and reads (operator(), find_element) at every place inside the matrix exactly as, a sparse matrix with that history; inserting an element twice raises bad_index in debug builds, a preserving resize raises internal_logic; reading or writing outside the matrix raises bad_index in debug builds.",
  "every legal history, map types, orientation, debug and release builds",
  "Lines are created by the first write into them and never removed, beside a sentinel line that always exists; which lines exist depends on the whole history.",
  A("matrix_sparse.hpp","mapped_vector_of_mapped_vector::operator ()","mapped_vector_of_mapped_vector::find_element","mapped_vector_of_mapped_vector::insert_element","mapped_vector_of_mapped_vector::erase_element","mapped_vector_of_mapped_vector::clear","mapped_vector_of_mapped_vector::resize"))
p("Iterating a mapped_vector_of_mapped_vector shows its stored elements",
  "After any history of element writes, inserts, erases, clears and resizes, iterating a mapped_vector_of_mapped_vector by rows or by columns, or a matrix_row or matrix_column of it (directly or through ranges, slices and indirect views), yields exactly the stored elements, each once, in increasing order, with its indices and value; iterating backwards yields them in the opposite order.",
  "every legal history, orientation, shape, line, stack of vector views, debug and release builds",
  "Whether find lands in the right line depends on which lines have ever been written, and the outer iterators compute their index from two maps in a way that depends on orientation and shape.",
  A("matrix_sparse.hpp","mapped_vector_of_mapped_vector::find1","mapped_vector_of_mapped_vector::find2","mapped_vector_of_mapped_vector::const_iterator1","mapped_vector_of_mapped_vector::const_iterator2"))
p("Extents and tensors of different kinds compare by their extents",
  "Two extents objects (dynamic, static rank, or fully static, in any combination) satisfy a == b exactly when they list the same extents and a != b exactly otherwise; accordingly two tensors over any kinds of extents satisfy A == B exactly when extents and elements agree, the order comparisons throw for different extents, and inner_prod(A, B) is the sum of all products for equal extents and throws std::length_error otherwise.",
  "every pair of kinds of extents, ranks, extents, layouts, element values",
  "Which overload of operator!= is selected depends on the kinds and ranks of both operands; an accepted pair of different shapes only shows when the memory of one happens to begin the memory of the other.",
  A("tensor/extents/extents_functions.hpp","operator==","operator!=")+A("tensor/extents/extents_static_functions.hpp","operator==","operator!=")+A("tensor/operators_comparison.hpp","detail::compare")+A("tensor/function/inner_prod.hpp","inner_prod"))
p("Compile-time functions on static extents agree with the run-time ones",
  "For every pack of extents get_v, cat_t, select_t, set_t, reverse_t and accumulate_v compute the element, concatenation, selection, replacement, reversal and left fold; product_v, is_valid_v, is_scalar_v, is_vector_v, is_matrix_v and is_tensor_v agree with product, is_valid, is_scalar, ... of the same extents at run time; all_of_v and any_of_v are the universal and the existential quantifier; to_strides_v places every multi-index at the position the layout prescribes and at the position the run-time strides give; out-of-range positions and zero extents (strides) are compile errors.",
  "every pack of extents of every length, position, layout",
  "Each instantiation is a separate program: testing covers only the packs written in the tests.",
  A("tensor/extents/extents_static_functions.hpp","get_v","cat_t","select_t","set_t","reverse_t","accumulate_v","product_v","all_of_v","any_of_v","is_valid_v","is_scalar_v","is_vector_v","is_matrix_v","is_tensor_v","to_strides_v")+A("tensor/extents/extents_functions.hpp","is_matrix","is_tensor"))
p("Static tensors: element access and construction",
  "For a tensor whose extents are part of the type, A(i1,...,ip) reads and writes the element at the multi-index and no other, and at() with an index outside its extent throws; a static tensor built from a value, a matrix, a vector, or another tensor of the same extents (any layout) holds exactly their elements at the corresponding indices, and sources of other sizes throw; ones/zeros (dynamic, static rank, static) give tensors with every element equal to the value and refuse zero extents.",
  "every rank from two, extents below 2^32, layout, multi-index, source",
  "The strides of a static tensor are computed by other code than those of the tensor it is built from or compared with; agreement has to hold for every shape and index.",
  A("tensor/tensor/tensor_static.hpp","tensor_core","at","operator()")+A("tensor/function/init.hpp","init","init_static_rank","init_static"))
p("compressed_matrix_view shows the matrix stored in the caller's arrays",
  "A compressed_matrix_view over three arrays that hold a sparse matrix in compressed row (or column) storage with index base IB reads, at every place inside the matrix, the stored element or zero, never touching memory outside the arrays, and follows later writes to the value array; the constructor refuses a wrong element count in debug builds; a view over the arrays of a compressed_matrix with completed index array agrees with that matrix; c_array_view presents exactly its window of memory and refuses other indices in debug builds.",
  "every shape, sparsity pattern, orientation, index base, array type, history of the viewed compressed_matrix",
  "The search runs over caller-supplied arrays: that it finds every element and stops inside the arrays depends on all patterns and offsets, including empty lines and non-zero bases.",
  A("experimental/sparse_view.hpp","compressed_matrix_view","compressed_matrix_view::operator()","compressed_matrix_view::find_element","compressed_matrix_view::find_index_in_row","compressed_matrix_view::storage_invariants","c_array_view")+A("matrix_sparse.hpp","compressed_matrix::complete_index1_data"))
p("A matrix seen as a vector of its rows or columns",
  "make_row_vector(m) and make_column_vector(m) behave as a vector of the rows (columns) of m: size() is their number, v[k](j) reads and writes the element of m, iteration forwards and backwards visits every line exactly once in order and random access moves by the given offset, resize(n, preserve) changes the number of lines and keeps the width and (on request) the lines; iterators of different matrices and elements outside the matrix are refused in debug builds.",
  "every dense matrix, orientation, history of writes and resizes, iterator offsets, debug and release builds",
  "It has to hold for every history of interleaved element writes and resizes and every position.",
  A("matrix_vector.hpp","matrix_row_vector","matrix_column_vector","detail::matrix_vector_iterator","make_row_vector","make_column_vector"))
p("Printing a tensor shows every element once in reading order",
  "out << t writes every element of t exactly once, slices of the last index outermost and each matrix row by row, with the documented separators, for every storage layout; scalars and vectors (of rank two or more) are written as one bracketed list in index order.",
  "every rank, extents below 2^32, layout, element values",
  "The recursion goes over an arbitrary rank and uses strides that depend on the layout; a wrong stride only shows for particular shapes.",
  A("tensor/ostream.hpp","print","operator <<"))
p("real, imag and conj of tensor expressions",
  "real(e), imag(e) and conj(e) of a tensor expression give, at every multi-index, the real part, imaginary part or conjugate of the element of e, with the extents of e, in whichever order the expression is evaluated; the empty tensor is refused.",
  "every expression over tensors of one layout, rank, extents, element values",
  "It ranges over all expressions and shapes.",
  A("tensor/function/real.hpp","real")+A("tensor/function/imag.hpp","imag")+A("tensor/function/conj.hpp","conj"))
p("Self-checks of debug builds: assignment never raises a false alarm",
  "In builds with the type check enabled, assigning (=, +=, -=, and the other element-wise forms) any expression to a compressed vector or matrix, or to a packed one, recomputes the result densely and compares; when the target can hold the result, the comparison passes and the outcome is that of a release build; when a packed target loses a non-zero element outside its structure, external_logic is raised.",
  "every target state, expression, size, element values, assignment operator, orientation",
  "The re-computation runs on every assignment in a debug build; that it never fires on a correct result and always fires on a lost element ranges over all contents.",
  A("detail/matrix_assign.hpp","matrix_assign","indexing_matrix_assign","disable_type_check")+A("detail/vector_assign.hpp","vector_assign")+A("detail/config.hpp","BOOST_UBLAS_CHECK","BOOST_UBLAS_TYPE_CHECK_EPSILON"))
p("Self-checks of debug builds: LU factorisation and substitution",
  "In builds with the type check enabled, lu_factorize (with and without pivots, and the axpy variant) and lu_substitute multiply their results back and compare with the input; for every input on which the release build succeeds the self-check passes and the outcome is the same.",
  "every matrix, shape, right-hand side, permutation",
  "The check involves products of the computed factors for every matrix; that it is satisfied by every correct factorisation cannot be settled by examples.",
  A("lu.hpp","lu_factorize","axpy_lu_factorize","lu_substitute"))
p("Self-checks of debug builds: axpy_prod and opb_prod",
  "In builds with the type check enabled, every axpy_prod and opb_prod overload recomputes its result through prod and compares; for every operands, target and init flag the comparison passes and the outcome is the one computed without the check, also when a triangular restriction is given.",
  "every matrix, vector, target contents, restriction, orientation, init flag",
  "The check runs on every call in debug builds; that it is satisfied by every correct result, including restricted ones, ranges over all operands.",
  A("operation.hpp","axpy_prod","opb_prod")+A("detail/config.hpp","BOOST_UBLAS_TYPE_CHECK"))
p("array_adaptor: own or borrowed storage",
  "An array_adaptor either owns its elements or refers to an array of the program. After any history of constructions, copies, resizes (with and without a new array), assignments, swaps, element writes and destructions, every adaptor and every program array holds exactly the elements that history gives it; a copy always owns its elements; assignment between equal sizes writes through to a borrowed array while a size change detaches from it; all memory obtained is released exactly once and borrowed arrays are never released; with checks on, an index not below size() is refused.",
  "every history of operations, number of adaptors and program arrays, sizes, element values, contents of fresh memory",
  "Double frees, leaks and unintended sharing depend on the interleaving of operations over arbitrarily many objects.",
  A("storage.hpp","array_adaptor"))
p("Element references of sparse containers",
  "In the default configuration v(i) and m(i,j) of a non-const mapped, compressed or coordinate container denote proxies. After any legal use of the container, every sequence of statements written with them (assignment of a value or of another element of the same container, +=, -=, *=, /=, ref()) changes exactly the element on the left, to the value ordinary variables would get, an absent element reading as zero; no such statement fails, reads outside the arrays or disturbs other elements, even when it makes the container grow; reading v(i) gives the current element; with checks on, vectors refuse indices not below size().",
  "every history of container operations, every list of element statements, index, value, operator, capacity, index base, orientation, contents of fresh memory",
  "A proxy looks its element up again on every use while the container grows or sorts itself between the look-ups; which branch is taken depends on the whole history.",
  A("vector_sparse.hpp","sparse_vector_element","mapped_vector","compressed_vector","coordinate_vector")+A("matrix_sparse.hpp","sparse_matrix_element","mapped_matrix","compressed_matrix","coordinate_matrix"))
p("Value arguments taken from the container itself",
  "A scalar or value argument passed by const reference that is an element of the target container acts as the value it had before the call: v *= v(k), m /= m(i,j) combine every element with the old value, and insert_element(i, existing element) stores the old value, whatever the capacity.",
  "every target container, contents, k, (i,j), operator, capacity, orientation, evaluation mode",
  "Whether the operand is overwritten, shifted or freed before it is read depends on its position relative to the others and on the capacity at that moment.",
  A("detail/vector_assign.hpp","vector_assign_scalar")+A("detail/matrix_assign.hpp","matrix_assign_scalar")+A("functional.hpp","scalar_multiplies_assign","scalar_divides_assign")+A("vector_sparse.hpp","compressed_vector","insert_element")+A("matrix_sparse.hpp","compressed_matrix","insert_element"))
p("Element references of hermitian matrices",
  "In the default configuration m(i,j) of a non-const hermitian_matrix or hermitian_adaptor denotes a proxy. Statements written with such elements - assignment, +=, -=, *=, /= of a value or another element, swap, chained assignment - and blocks that bind names to elements and work on the names have the effect they have on ordinary variables where m(j,i) is tied to conj(m(i,j)), on either side of the diagonal.",
  "every size, contents, triangle, layout, list of statements, set of named elements, order of evaluation of operands",
  "A proxy is a snapshot written back when it is destroyed; whether updates are lost depends on which proxies are alive together and in which order they end.",
  A("hermitian.hpp","hermitian_matrix_element","hermitian_matrix::operator()","hermitian_adaptor::operator ()"))
p("Builds with Duff's device compute the same as the plain loops",
 "Defining BOOST_UBLAS_USE_DUFF_DEVICE only unrolls the dense loops: scaling and assigning vectors and matrices, inner products and the elements of matrix products give the same results, with the same exceptions, as the build without it.",
 "every target, operand, functor and size, by indexing and by iterators, in debug and release builds",
 "The unrolled loop is entered in the middle, so it must be right for every residue of the size and for the empty and the very large sizes; tests try a few sizes.",
 A("include/boost/numeric/ublas/detail/duff.hpp","DD","DD_SWITCH")+A("include/boost/numeric/ublas/detail/vector_assign.hpp","indexing_vector_assign","iterating_vector_assign")+A("include/boost/numeric/ublas/detail/matrix_assign.hpp","indexing_matrix_assign")+A("include/boost/numeric/ublas/functional.hpp","vector_inner_prod","matrix_vector_prod1","matrix_matrix_prod"))
p("unbounded_array keeps its guarantees when an allocation or an element operation throws",
 "If an operation on an unbounded_array ends with an exception, every array is still usable and destructible, only the target of the operation may have changed, and no memory is lost; if the exception is std::bad_alloc nothing has changed at all. In particular a program that catches exceptions and goes on never leaks and never meets undefined behaviour.",
 "all histories of constructions, copies, moves, resizes, assignments, swaps, element writes and destructions of any number of arrays, all sizes, all subsets of allocations and element operations that fail, trivial and non-trivial element types",
 "which allocation or copy fails cannot be chosen in an ordinary test, and the number of failure points grows with every size and history; leaks and destruction of elements never constructed do not show as wrong values",
 A("include/boost/numeric/ublas/storage.hpp","unbounded_array","resize_internal","resize","operator =","assign_temporary","swap"))
p("A container survives a failed allocation",
 "If resize, reserve, assignment or insertion on a vector or matrix ends with std::bad_alloc, the container keeps its size and its elements and can be read, modified, resized and assigned to again; repeating the operation when memory is available succeeds.",
 "all dense, triangular, symmetric, hermitian, banded matrices, compressed and coordinate vectors and matrices, all old and new sizes, every allocation that can fail in an operation, all later reads and retries, both build modes",
 "the order in which members are updated only matters when an allocation in between throws, which tests do not arrange; the damage shows later, as an access outside an array",
 A("include/boost/numeric/ublas/matrix.hpp","matrix","resize","operator =")+A("include/boost/numeric/ublas/triangular.hpp","triangular_matrix","resize","operator =")+A("include/boost/numeric/ublas/symmetric.hpp","symmetric_matrix")+A("include/boost/numeric/ublas/hermitian.hpp","hermitian_matrix")+A("include/boost/numeric/ublas/banded.hpp","banded_matrix")+A("include/boost/numeric/ublas/vector_sparse.hpp","compressed_vector","coordinate_vector","reserve","resize","insert_element","append_element")+A("include/boost/numeric/ublas/matrix_sparse.hpp","compressed_matrix","coordinate_matrix","reserve","resize","insert_element","append_element","operator ="))
p("Tensors are values: construction, copy, move and assignment",
 "A tensor built from extents, an array, a matrix or a vector has exactly those extents and elements, or the constructor throws and no object exists; a copy is independent of its source; a moved-to tensor has the source's value and the source is left as a usable empty tensor; assignment, swap, fill and element-wise updates give the target its new value and leave every other tensor unchanged; an operation that throws changes nothing. At every moment size() is the number of multi-indices of extents().",
 "all programs (sequences of these operations) over any number of tensors with dynamic extents or a fixed number of extents, all extents, layouts, element values, orders of the parallel loop, and exceptions caught by the program",
 "value semantics are a statement about all histories; sharing, stale extents after a move and failed assertions appear only after particular sequences of operations",
 A("include/boost/numeric/ublas/tensor/tensor/tensor_dynamic.hpp","tensor_core","operator=","swap")+A("include/boost/numeric/ublas/tensor/tensor/tensor_static_rank.hpp","tensor_core","operator=","swap")+A("include/boost/numeric/ublas/tensor/extents/extents_static_size.hpp","extents_core"))
p("Debug builds refuse indices outside the container",
 "In a debug build an element read, an element write, insert_element, append_element or push_back with an index outside the container throws one of the library's exceptions; it never returns a value, never changes an element and never has undefined behaviour.",
 "all vectors, matrices, views of views, structured matrices, adaptors and sparse containers, every state a legal history leads to, all indices outside (each coordinate), all values",
 "the set of bad indices is infinite and whether one is noticed depends on the container's fill and capacity at that moment; a missed check does not show as a wrong value when the neighbouring memory happens to be harmless",
 A("include/boost/numeric/ublas/matrix.hpp","matrix","operator ()","insert_element")+A("include/boost/numeric/ublas/vector_proxy.hpp","vector_range","vector_slice","vector_indirect")+A("include/boost/numeric/ublas/matrix_proxy.hpp","matrix_row","matrix_range")+A("include/boost/numeric/ublas/vector_sparse.hpp","mapped_vector","compressed_vector","coordinate_vector","insert_element")+A("include/boost/numeric/ublas/matrix_sparse.hpp","mapped_matrix","compressed_matrix","coordinate_matrix","find_element")+A("include/boost/numeric/ublas/vector_of_vector.hpp","generalized_vector_of_vector"))
p("The build mode does not change results",
 "Whenever a program part runs without a failed check in a debug build, the release build (NDEBUG) of the same part returns normally with the same results: the same values from every read and the same container (sizes, counts and contents) after every sequence of operations.",
 "all dense, structured, sparse and map-based containers, views and adaptors, every starting state, every sequence of operations (insertions, writes, erasures, resizes, reserves, push and pop, sorts), all indices and values, any contents of newly allocated memory",
 "one would have to run every history in both builds and compare; the checks themselves contain code (lookups, sorts, recomputed sizes) whose side effects only matter in particular states",
 A("include/boost/numeric/ublas/vector_sparse.hpp","compressed_vector","coordinate_vector","mapped_vector","insert_element")+A("include/boost/numeric/ublas/matrix_sparse.hpp","compressed_matrix","coordinate_matrix","mapped_matrix","insert_element")+A("include/boost/numeric/ublas/matrix.hpp","matrix","resize")+A("include/boost/numeric/ublas/exception.hpp","BOOST_UBLAS_CHECK"))
p("Sizes and addresses are exact in 64-bit arithmetic, or refused",
 "For every matrix, tensor and sparse container: the number of storage cells, the capacity and the address or map key of every element that the library computes with 64-bit size_type arithmetic is the mathematical value; parameters for which it is not representable are refused with an exception. In particular two different elements never share storage.",
 "all 64-bit dimensions, bandwidths, extents (any rank), indices and requested numbers of non-zeros; both orientations and layouts; both build modes",
 "wrap-around shows only for sizes of several billion, where tests cannot allocate; intermediate expressions (2 * n - j + 1, upper + i - j, i * size2 + j) may wrap although the final value fits",
 A("include/boost/numeric/ublas/functional.hpp","lower_element","packed_size","element","triangular_size")+A("include/boost/numeric/ublas/banded.hpp","banded_indexing","is_element_in_band")+A("include/boost/numeric/ublas/matrix_sparse.hpp","mapped_matrix","compressed_matrix","restrict_capacity")+A("include/boost/numeric/ublas/tensor/extents/extents_functions.hpp","product","to_strides")+A("include/boost/numeric/ublas/tensor/index_functions.hpp","to_index"))
p("Assigning to a matrix or matrix view uses the right-hand side's values from before the assignment",
  "`m = e`, `m += e` and `m -= e` on a dense or compressed matrix, and `view = e`, `view += e`, `view -= e` on a matrix_range, matrix_slice or matrix_indirect of a dense matrix, store what `e` denotes on the contents before the assignment, even if `e` reads the target in any way (`m = trans (m)`, `m = prod (m, m)`, `project (m, r1, r2) = project (m, r3, r4)`); cells outside a view keep their value.  With `noalias` (or `assign`, `plus_assign`, `minus_assign`) this holds if no element of `e` reads a cell overwritten before.  Violated: copying one view to another view of the same type goes through the copy assignment operator, which uses no temporary, so overlapping ranges or slices are silently corrupted.",
  "every matrix, size, orientation, view, expression, build configuration (indexing, iterating, threshold; debug and release) and old contents",
  "whether a right-hand side overlaps the target depends on run-time ranges; tests copy between disjoint blocks, for which the missing temporary makes no difference",
  A("include/boost/numeric/ublas/matrix.hpp","matrix::operator =","matrix::operator +=","matrix::operator -=","matrix::assign")+A("include/boost/numeric/ublas/matrix_proxy.hpp","matrix_range::operator =","matrix_slice::operator =","matrix_indirect::operator =")+A("include/boost/numeric/ublas/detail/matrix_assign.hpp","matrix_assign","iterating_matrix_assign","indexing_matrix_assign")+A("include/boost/numeric/ublas/matrix_sparse.hpp","compressed_matrix::operator ="))
p("OpenCL transposition for every interleaving","After `opencl::trans (m, result, queue)` element (j, i) of `result` is element (i, j) of `m`, and after `opencl::change_layout (m, result, queue)` the two matrices have equal elements, whatever the order in which the device executes the work items of the kernel; every access stays inside the buffers and all other matrices keep their values.","All sizes, element values, layouts, distinct or identical arguments, and all interleavings of the work items' reads and writes.","The number of interleavings is exponential in the number of elements and the device chooses them; a test sees a few.",A("opencl/transpose.hpp","trans","change_layout","OPENCL_TRANSPOSITION_KERNEL")+A("opencl/matrix.hpp","matrix","from_host","to_host"))
p("OpenCL products for every interleaving","`opencl::prod` (matrix-matrix, matrix-vector, vector-matrix) and `opencl::outer_prod` store the mathematical product in `result`, for both layouts and for operands of different layout, whatever the order in which the device executes the work items; operands keep their values; the versions for host matrices return the product with the sizes of the product.","All sizes (including 0), values over any semiring, layouts, previous contents of the result and of fresh device memory, and all interleavings.","Sizes, layouts, uninitialised memory and schedules are unbounded; a test device behaves deterministically.",A("opencl/prod.hpp","prod","outer_prod")+A("opencl/transpose.hpp","change_layout")+A("opencl/matrix.hpp","matrix","fill","to_host")+A("opencl/vector.hpp","vector"))
p("OpenCL element-wise operations for every interleaving","`opencl::element_add`, `element_sub`, `element_prod`, `element_div`, `element_scale` and `element_wise` store in element (i, j) of `result` the operation applied to the elements (i, j) of the operands, also when `result` is one of the operands, whatever the order in which the device executes the work items.","All sizes, values, operations, layouts, aliasing of result and operands, and all interleavings.","In-place updates race unless no item reads what another writes; tests cannot enumerate schedules.",A("opencl/elementwise.hpp","element_wise","element_add","element_sub","element_prod","element_div","element_scale")+A("opencl/matrix.hpp","matrix"))
p("Concurrent reading of a shared container","Any number of threads may call const member functions (element reads) on one shared container at the same time without synchronization: every thread obtains exactly the values it would obtain alone, no access leaves the storage and the container is unchanged, for every interleaving of the individual memory accesses.","every container reachable by the API, every number of threads, every program of reads (later indices may depend on values read before), every interleaving of single memory accesses; both build modes","a race appears only under particular schedules; tests execute few of the interleavings, and a const function that sorts a mutable member looks innocent",A("include/boost/numeric/ublas/vector_sparse.hpp","compressed_vector","find_element","coordinate_vector","sort")+A("include/boost/numeric/ublas/matrix_sparse.hpp","compressed_matrix","find_element")+A("include/boost/numeric/ublas/matrix.hpp","operator ()")+A("include/boost/numeric/ublas/storage_sparse.hpp","lower_bound"))
p("Threads working on different elements of one container","If every element is written by at most one thread and nobody else reads it, threads may read and write elements of one shared container at the same time: every thread reads what it would read if the others did not exist, and after all threads finished each element holds the last value its owner wrote.","every dense, packed or compressed container, every number of threads, every assignment of elements to threads, every program of element reads and writes of each thread, every interleaving of single memory accesses","lost updates need a particular schedule; and whether two elements share mutable state depends on the storage scheme",A("include/boost/numeric/ublas/matrix.hpp","operator ()","at_element")+A("include/boost/numeric/ublas/vector_sparse.hpp","compressed_vector","operator ()","insert_element","at_element"))
p("Saving and loading a container restores it","Writing a vector or matrix container to an archive with its serialize member leaves the container unchanged, and reading that archive back, with the same or another build mode, into any container of the type, whatever it held before, gives a container with the same sizes and elements (the same members; over map_array, whose capacity is not saved, the same contents and iteration order), consuming exactly what was written, so that several objects can follow each other in one archive. Sparse containers: in every state a legal history can reach, sorted or not.","all contents and sizes of the saved container, all previous states of the container loaded into, both build modes, all archives before and after, all legal histories","A test saves a few containers and loads them into fresh ones; the claim is about every state of both containers, including capacities, unsorted elements and stale storage",A("storage.hpp","unbounded_array::serialize","bounded_array::serialize")+A("storage_sparse.hpp","map_std::serialize","map_array::serialize")+A("vector.hpp","serialize")+A("matrix.hpp","serialize")+A("vector_sparse.hpp","serialize")+A("matrix_sparse.hpp","serialize")+A("vector_of_vector.hpp","serialize"))
p("A damaged archive leaves a usable container","Loading an archive that is truncated or damaged either fails with an exception or succeeds, and in both cases touches no memory outside the storage and leaves a container that can still be used: every element its sizes announce has storage and is found.","all archives (sequences of values), all previous states of the container, both build modes","There are infinitely many damaged archives, and undefined behaviour after a failed load does not show in a test that only looks at the exception",A("storage.hpp","unbounded_array::serialize","bounded_array::serialize")+A("storage_sparse.hpp","map_std::serialize","map_array::serialize")+A("vector.hpp","serialize")+A("matrix.hpp","serialize")+A("vector_sparse.hpp","serialize")+A("matrix_sparse.hpp","serialize")+A("vector_of_vector.hpp","serialize"))
p("fixed_vector and fixed_matrix behave as vector and matrix of constant size","A fixed_vector or fixed_matrix is zero, filled or listed by its constructors; whatever is then done to it - element writes, clear, copies, assignment of expressions that may read it, +=, -=, noalias, container assignments, scaling, swap - it keeps its compile-time size and its elements are the ones the history says; indexes outside the size and expressions of another size are refused; its iterators visit every element once; empty () tells whether the size is zero.","all sizes, orientations, element rings, histories of operations and right-hand sides, both build modes, all iteration policies","Tests use two or three sizes and one operation each; the claim ranges over all compile-time sizes and all histories, and a dangling reference shows up only with some compilers.",A("vector.hpp","fixed_vector")+A("matrix.hpp","fixed_matrix")+A("exception.hpp","BOOST_UBLAS_SAME"))
p("Random-access iterators behave like positions","The iterators of dense vectors, scalar_vector, rows and columns of dense matrices, matrix_vector_range/slice/indirect, vector proxies, element-wise vector expressions of these, and of ranges, slices and indirect arrays themselves, moved by any sequence of ++, --, += and -= (positive or negative) that stays between begin () and end (), behave like positions: differences and the six comparisons are those of the positions, index () and * give the index and the element there, it [d] gives the element d further; reverse iterators do the same over the reversed sequence. In a checked build * and [] at the end raise bad_index.","all vectors, sizes below 2^63, nestings of proxies and expressions, all sequences of moves, all pairs of iterators, both build modes","Tests walk forward with ++; the claim is about every sequence of moves, every pair of iterators and 64-bit wrap-around of counters, and a negative difference or an unchecked subscript is rarely exercised.",A("vector.hpp","vector::const_iterator","scalar_vector::const_iterator")+A("storage.hpp","basic_range::const_iterator","basic_slice::const_iterator","indirect_array::const_iterator")+A("vector_proxy.hpp","vector_range::const_iterator","vector_slice::const_iterator","vector_indirect::const_iterator")+A("vector_expression.hpp","vector_unary::const_iterator","vector_binary::const_iterator","vector_binary_scalar1::const_iterator","vector_binary_scalar2::const_iterator")+A("matrix.hpp","matrix::const_iterator1","matrix::const_iterator2")+A("matrix_proxy.hpp","matrix_row::const_iterator","matrix_column::const_iterator","matrix_vector_range::const_iterator")+A("functional.hpp","distance_i","distance_j","increment_i","decrement_i")+A("detail/iterator.hpp","random_access_iterator_base","reverse_iterator_base"))
p("Generic major/minor loops visit a dense matrix in storage order","`size<tag::major>`, `size<tag::minor>`, `size<tag::leading>`, `begin<tag>`, `end<tag>` and `begin (it)`, `end (it)` let one program work for both orientations: the loop over the major dimension of a dense matrix, or of any number of `trans` around it, goes through size<major> lines of size<minor> elements and meets the elements of data () one after the other, each once, with the indices under which the expression shows it; element b of line a is at offset a * size<leading> + b; the loop over the minor dimension meets the same elements with lines and places exchanged; empty matrices end the loops at once; over proxies the loops meet every element of the proxy once, line by line; num_rows, num_columns, size<1>, size<2> agree; trans exchanges the dimensions and keeps major and minor sizes.","all shapes below 2^64, both orientations, any number of transpositions, all nested proxies, both build modes","Orientation bugs are invisible on square or single-line matrices; the statement ranges over all shapes and nestings.",A("operation/size.hpp","size")+A("operation/begin.hpp","begin")+A("operation/end.hpp","end")+A("operation/num_rows.hpp","num_rows")+A("traits/iterator_type.hpp","iterator_type")+A("matrix_expression.hpp","matrix_unary2","trans"))
p("Index labels of the Einstein notation match by value","For tuples of index labels (_a ... _z, the placeholder _ matches nothing): has_index tells whether a label occurs, valid_multi_index whether no label but _ is repeated, index_position is the first position of a label or the size, number_equal_indexes counts and index_position_pairs lists, within its array, the positions of the left tuple whose label is shared together with the first position of that label on the right - all common positions if the right tuple is valid; a multi_index<N> can be made exactly of N >= 1 labels that are not repeated, and reading outside it throws; array_to_vector of two multi-indices gives the one-based positions of all common labels.","all label tuples of all lengths","The functions are compile-time recursions over arbitrary tuples; tests instantiate a handful, all of the same length for array_to_vector.",A("tensor/multi_index_utility.hpp","has_index","valid_multi_index","number_equal_indexes","index_position","index_position_pairs")+A("tensor/multi_index.hpp","multi_index","array_to_vector")+A("tensor/index.hpp","index_type"))
p("Copies of shallow_array_adaptor share their elements and the memory lives exactly as long as needed","With BOOST_UBLAS_SHALLOW_ARRAY_ADAPTOR: a copy-constructed adaptor shows the elements of the original and stays shared with it, so a write through one is read through the other; resize to another size gives the adaptor a new array (elements kept, the rest set to the given value) and leaves the other owners alone; resize to the same size does nothing; assignment copies the elements, into the shared array if the sizes are equal, into a new one otherwise; adaptors over a program array write through to it and never release it; swap and assign_temporary exchange or copy. At every moment exactly the program's arrays and those of live adaptors are in memory: nothing is released early or twice, nothing leaks. In a checked build an index outside the size is refused.","all histories of constructions, copies, resizes, assignments, swaps, writes and destructions over any number of adaptors and program arrays, all contents of uninitialized memory, both build modes","Use after free, double delete and leaks depend on the whole history of shared owners; a test fixes one history",A("storage.hpp","shallow_array_adaptor"))
p("OpenCL operations refuse operands that do not match",
 "In a debug build opencl::trans, change_layout, prod and the element-wise operations throw when the sizes of their arguments (operands and result) do not fit together, before anything is written on the device; no call writes outside the buffer of its result.",
 "all device and host matrices and vectors, all sizes, layouts, element operations, every interleaving of the work items",
 "a violated size condition shows only for the combination of sizes not covered by a check, and as an overrun of device memory",
 A("include/boost/numeric/ublas/opencl/elementwise.hpp","element_wise","element_add","element_scale")+A("include/boost/numeric/ublas/opencl/prod.hpp","prod")+A("include/boost/numeric/ublas/opencl/transpose.hpp","trans","change_layout"))
p("Indexed-iterator builds: iterators are random-access iterators over the elements",
 "In a build with BOOST_UBLAS_USE_INDEXED_ITERATOR the iterators of dense vectors, scalar_vector, matrix lines, selectors, proxies, expressions and matrix ranges are random-access iterators over the elements they are documented to visit: for any two iterators reached from begin() or end() by ++, --, +=, -=, the six comparisons and the difference (of either sign) are those of the positions, index(), * and it[d] give the index and the element, and in a checked build * and it[d] at the end raise bad_index.",
 "all expressions, sizes below 2^63, sequences of moves, element types, both build modes",
 "The option is not enabled in the test suite, and the claim ranges over unboundedly many expressions and move sequences.",
 A("include/boost/numeric/ublas/detail/iterator.hpp","indexed_iterator","indexed_const_iterator","indexed_iterator1")+A("include/boost/numeric/ublas/vector_proxy.hpp","vector_range::find","vector_slice::find")+A("include/boost/numeric/ublas/storage.hpp","basic_range::begin")+A("include/boost/numeric/ublas/matrix_proxy.hpp","matrix_range::find1","matrix_range::find2")+A("include/boost/numeric/ublas/vector_expression.hpp","vector_binary::find"))
p("Tensors combined with vectors",
 "t op v and v op t for a tensor expression and a vector expression combine, at every multi-index, the tensor element with the vector element at that position of the memory order; a vector whose size is not the number of elements is refused.",
 "all ranks, extents, tensor expressions, vectors, binary operators, assignment operators and loop schedules",
 "Quantifies over all shapes, expressions and schedules; no test combines tensors with vectors of another size.",
 A("include/boost/numeric/ublas/tensor/operators_arithmetic.hpp","operator+","operator-","operator*","operator/")+A("include/boost/numeric/ublas/tensor/expression.hpp","binary_tensor_expression","make_binary_tensor_expression")+A("include/boost/numeric/ublas/tensor/expression_evaluation.hpp","eval","all_extents_equal"))
p("Matrices stored as an array of coordinate vectors add up appended elements and stay consistent through any history",
  "For generalized_vector_of_vector<T, L, vector<coordinate_vector<T>>>: after any history of element writes, insert_element, append_element, erase_element, reads, sort, clear and resize, the sizes, every element, the iteration over the matrix and over any line (increasing order, every element once), nnz after sort and nnz_capacity are those of a partial function to which append_element adds; no operation faults in either build mode.",
  "every history, every size, both orientations, every conforming std::sort, both sorting strategies, every index base, both build modes, arbitrary contents of uninitialised memory",
  "The order of insertion, the time of sorting (any read sorts one line) and the resizes interact; a resize can turn a line with pending elements into the sentinel line.",
  A("include/boost/numeric/ublas/vector_of_vector.hpp","generalized_vector_of_vector","append_element","sort","resize")+A("include/boost/numeric/ublas/vector_sparse.hpp","coordinate_vector"))
p("is_symmetric and is_hermitian decide symmetry, and the symmetric and hermitian containers against them",
  "is_hermitian (m) (is_symmetric (m)) reads only elements of the matrix and returns true exactly when the matrix is square and every element is the conjugate of (equals) its mirror. Every symmetric_matrix passes is_symmetric, whatever was done to it; a hermitian_matrix with no erase outside its stored triangle passes is_hermitian exactly when its diagonal elements are their own conjugates - the container does not enforce it.",
  "every matrix, all sizes, every involution as conjugation, both triangles and orientations, every history of the containers, both build modes",
  "Quantifies over all sizes and all histories; the predicates read only half of the pairs.",
  A("include/boost/numeric/ublas/symmetric.hpp","is_symmetric","symmetric_matrix")+A("include/boost/numeric/ublas/hermitian.hpp","is_hermitian","hermitian_matrix"))
p("Comparing tensor expressions with a scalar and with each other",
  "For every tensor expression x and scalar s the six comparisons s op x and x op s are true exactly when the relation holds at every multi-index, and x != s is the negation of x == s; the comparisons of two compound expressions compare their values at every multi-index, are false for == and throw for the order relations when the extents differ; operands whose parts have different extents throw. The comparison ends for every size.",
  "all tensor expressions, scalars, extents, layouts, operators, and all schedules of the evaluation loop",
  "Quantifies over all shapes, contents and schedules.",
  A("include/boost/numeric/ublas/tensor/operators_comparison.hpp","detail::compare","operator ==","operator !=","operator <","operator >="))
p("The iterators of a c_matrix behave like positions",
  "The iterators of every row and column of a c_matrix (and their reverses), moved by any sequence of ++, --, += and -= that stays between begin and end, behave like positions: comparisons and differences are those of the positions, index () and * give index and element, it [d] the element d further, also when the matrix is smaller than its capacity. In a checked build * and [] at the end raise bad_index.",
  "all capacities, sizes, contents, rows and columns, all sequences of moves, all pairs of iterators, both build modes",
  "Tests walk forward once over a few sizes; the arithmetic depends on the capacity, which differs from the size, and on the signedness of the types involved.",
  A("include/boost/numeric/ublas/matrix.hpp","c_matrix::iterator1","c_matrix::iterator2","c_matrix::const_iterator1","c_matrix::const_iterator2"))
p("at_element names the element",
 "`m.at_element (i, j) = v` on a triangular, symmetric or hermitian matrix changes element (i, j) (and its mirror image in a symmetric or hermitian matrix) and no other, wherever `m (i, j) = v` is allowed; with checks on it throws bad_index everywhere else.  Violated: symmetric_matrix::at_element does not look which triangle is stored: in the other triangle it throws with checks on, and without them changes an unrelated element; hermitian_matrix::at_element throws there.",
 "every size, every structure, both orientations, both build modes, every pair of indices, every contents",
 "the wrong element is changed only in the triangle that is not stored, in release builds; and its neighbours in the first row happen to be right",
 A("symmetric.hpp","symmetric_matrix::at_element")+A("triangular.hpp","triangular_matrix::at_element")+A("hermitian.hpp","hermitian_matrix::at_element"))
p("Reductions on the device return what the host functions return",
 "The OpenCL versions of inner_prod, a_sum, norm_1 and norm_2, for vectors on the device or on the host, return the sum of products, the sum of absolute values and the Euclidean norm of every vector; the value does not depend on uninitialised memory.  Violated: for empty vectors a_sum, norm_1 and norm_2 wait for an event that was never created; for complex elements the imaginary part of the result is never written.",
 "every size, every contents, the four element types, every contents of newly allocated memory",
 "the uninitialised words often happen to be zero; empty vectors are not tested",
 A("opencl/misc.hpp","a_sum","norm_1","norm_2")+A("opencl/prod.hpp","inner_prod"))
p("Containers are values",
 "Copy constructing, assigning and swapping containers of one type behaves as for mathematical values: after any sequence of operations on single variables, copy constructions, assignments and swaps - of a variable with itself too - nothing has faulted and every variable holds what it denotes; writing to one variable never changes another, and the source of a copy keeps its value.  Violated: mapped_vector and mapped_matrix over map_array: copy construction destroys the source and the copy.",
 "every number of variables, every sequence of statements, every shape, contents and capacity, both build modes, both orientations, every contents of newly allocated memory; vector, matrix, packed, mapped, compressed, coordinate and vector-of-vector containers",
 "a forgotten or swapped field of one of a dozen containers shows only in the operations that read it later; self-assignment and self-swap are seldom tested",
 A("vector_sparse.hpp","mapped_vector::swap","compressed_vector::operator =","compressed_vector::swap","coordinate_vector::swap")+A("matrix_sparse.hpp","mapped_matrix::swap","compressed_matrix::operator =","compressed_matrix::swap","coordinate_matrix::swap")+A("vector_of_vector.hpp","generalized_vector_of_vector::swap")+A("matrix.hpp","matrix::swap")+A("banded.hpp","banded_matrix::swap")+A("triangular.hpp","triangular_matrix::swap")+A("symmetric.hpp","symmetric_matrix::swap")+A("hermitian.hpp","hermitian_matrix::swap")+A("storage.hpp","unbounded_array::operator =","unbounded_array::swap")+A("storage_sparse.hpp","map_array"))
p("A dense vector is the list of its elements",
 "Through any program of constructions, element writes, erase_element, clear, resize, assignments and additions of other containers, v += v, scalings, copies, assignments and swaps of any number of vector<T> (or bounded_vector<T, N> within its capacity), no operation faults and each vector is the list of its elements: by size (), empty (), v (i), v [i], and by iteration forwards and backwards; sizes beyond the capacity, indices beyond the end and additions of other sizes are rejected with checks on.  As documented, elements of `vector (n)` are zero.  Violated: for elements with a trivial constructor they are whatever the memory holds.",
 "every program, every number of vectors, every size and contents, unbounded and bounded storage, every capacity, all dispatch modes, both build modes, every contents of newly allocated memory",
 "what a non-preserving resize leaves behind, and fresh memory, are usually zero in tests; self-additions and swaps of different sizes are seldom tested",
 A("vector.hpp","vector","bounded_vector","vector::resize","vector::swap","vector::const_iterator")+A("storage.hpp","unbounded_array","bounded_array")+A("detail/vector_assign.hpp","vector_assign","vector_assign_scalar"))
p("A dense matrix is the table of its elements",
 "Through any program of constructions, element writes (by index or through iterators), erase_element, clear, resize with or without preservation, assignments and additions of other containers, m += m, scalings, copies, assignments and swaps of any number of matrix<T, L> (or matrices over bounded_array, bounded_matrix<T, M, N, L>, within their capacity), no operation faults and each matrix is the table of its elements: by size1 (), size2 (), m (i, j), by iterating its rows with iterator1 and iterator2, and by iterating its columns.  Elements nobody has written are unspecified (their documented zero is C05).  More elements than the capacity, indices beyond the sizes and additions of other sizes are rejected with checks on.",
 "every program, every number of matrices, all sizes including zero rows or columns, every contents, both orientations, unbounded and bounded storage, every capacity, all dispatch modes, both build modes, every contents of newly allocated memory",
 "a stride or boundary mistake shows only for non-square or empty shapes in one orientation, after a particular resize or swap, and in one of the two loops that the size decides between",
 A("matrix.hpp","matrix","bounded_matrix","matrix::resize","matrix::swap","matrix::const_iterator1","matrix::const_iterator2","detail::matrix_resize_preserve")+A("storage.hpp","unbounded_array","bounded_array")+A("detail/matrix_assign.hpp","matrix_assign","matrix_assign_scalar"))
p("Element references of a strict map_array",
 "With BOOST_UBLAS_STRICT_MAP_ARRAY, where `m [k]` returns an object that writes the element back when it is destroyed, statements that read, assign, update (+=, -=, *=, /=), copy, combine, chain or swap elements have the effect they have with plain references: elements named for the first time come into being as zero, the same element may be named twice, no other element changes, and whatever the order of evaluation nothing faults, although naming one element may move the array under the reference to another.  Violated: a statement that changes an element and uses it through a second reference, such as `m [0] += (m [0] = 3)`, still sees the old value, or overwrites the new one, because writes are delayed to the end of the statement.",
 "every program of such statements and of the other members of map_array, every keys (equal or not, present or not), every value, both orders of evaluation, both build modes",
 "the build option is off by default and never tested; insertions under a live reference and references to one element twice depend on the state of the array and the order of evaluation",
 A("storage_sparse.hpp","sparse_storage_element","map_array::operator []","map_array"))
#NEXT
open('/verif/properties.jsonl','w').write(''.join(json.dumps(x)+'\n' for x in P))
print(len(P)); 
for x in P: print(x['id'],x['title'])
