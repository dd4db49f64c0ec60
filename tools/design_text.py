M = {}
METHOD = M
def m(ids, t):
    for i in ids.split(): M[i] = t
m('C01', 'Address formulas of both layouts on Nat with the debug checks; injectivity and surjectivity by division/modulo lemmas.')
m('C02', 'size_type as 64-bit words that wrap; the guard is shown to accept exactly the products that fit, and accepted addresses do not wrap.')
m('C03', 'As C02 for the triangular size formulas; the guard is refuted at n = 2^32 and shown exact below.')
m('C04', 'Matrix = sizes + flat list of cells in a monad with exceptions and undefined behaviour; simulation of every history of operations by a function (i,j) ↦ value.')
m('C05', 'resize with explicit unspecified contents of fresh storage; loop invariant for the copied block; witness for the missing zero fill.')
m('C06', 'All six triangular structures and both orientations; triangular-number lemmas give bounds, injectivity and the packed size.')
m('C07 C09 C11', 'Simulation of every legal history by the structured function, using only the layout laws (injective, in bounds).')
m('C08', 'Exact set of indices rejected by the checks of rectangular shapes; witness and proof for the square case.')
m('C10', 'Hermitian matrix over an abstract involution, writes through the element proxies of the default strict configuration; simulation over histories; witness for erase_element.')
m('C12 C62', 'range and slice as (start, stride, size) with wrap-around differences; composition proved pointwise.')
m('C13', 'indirect_array as an index list; composition proved pointwise; witnesses for the bounds checks.')
m('C14 C15', 'A view is an injective address function into the memory of its container; reads, writes and the frame follow for every stack of views, matrix_row/column/range/slice/indirect and matrix_vector_* included.')
m('C16', 'Heap of blocks with allocation and construction counters; invariants over every history of resize, assignment, swap and destruction.')
m('C17 C18', 'Literal lower_bound and insertion into a sorted array with capacity; refinement to a finite map for all histories.')
m('C19 C20 C21 C24 C25 C26 C28 C63 C64', 'Literal arrays, counters and faults of the container; a representation invariant preserved by every operation and for every history; refinement to a function with finite support.')
m('C22', 'The lazy sort as the code does it: sortedness flag, sorted prefix, merge and summation of duplicates; permutation and sum invariants. std::sort is trusted to sort; the in-place merge is modelled step by step.')
m('C23', 'pop_back after an unsorted append: witness, and proof for the histories that keep the flag truthful.')
m('C27 C61', 'resize with preserve modelled literally; preservation by loop invariants where true, witnesses where not.')
m('C29', 'The conversion constructor loop; correctness for index base 0 by induction over the sorted triples; witness for base 1.')
m('C30 C31 C32', 'Every dispatch path (dense, packed, sparse, random access; indexing, iterating and threshold modes) over operands that are only required to present a matrix or vector; sums by induction on the merged lists; the containers are shown to be such operands.')
m('C33 C34', 'All overloads of axpy_prod and opb_prod as loops over presented operands and lawful targets; accumulation invariants.')
m('C35', 'Triple loop over blocks; partial sums invariant over blocks; non-termination for block size 0.')
m('C36', 'Row-wise accumulation in a sparse temporary; invariant over the rows.')
m('C37', 'Forward and backward substitution loops, dense, packed and sparse, over any field; triangular-solve invariants; singular exactly when a zero pivot is met.')
m('C38 C69', 'Right-looking elimination with and without pivoting; Schur-complement invariant; determinant and singularity from the invariant over the field.')
m('C39 C41', 'Permutation as a fold of transpositions; combination of C37 and C38.')
m('C40', 'Left-looking factorisation with its own invariant, compared with C38 by uniqueness.')
m('C42 C43', 'Expressions read the same memory that is being written; equality with simultaneous evaluation proved for the temporary path and, for noalias, for same-index reads; witnesses otherwise.')
m('C44 C68', 'Dense, packed and sparse assignment loops, literally, over lawful targets (dense views, compressed, triangular, vector_of_vector, ranges of them) and presented right-hand sides; merge invariants.')
m('C45 C79', 'The swap loops over two targets in one memory; exchange invariants; witnesses for the packed cases.')
m('C46 C47', 'Norm loops by indexing and by iterators over an ordered field with abs and sqrt laws; max and sum invariants; the division by zero of scaled norm_2.')
m('C48 C67', 'Expression trees over presented operands; the binary sparse iterator is a state machine whose run is shown to enumerate the merged support.')
m('C49 C65 C66 C82 C83 C84 C85 C86 C88 C50', 'Iterators as positions with the code\'s find/increment/decrement; the visited list is computed by walking them and shown equal to the specified list, forwards and backwards.')
m('C51 C70', 'Stride vectors for both layouts and any rank; mixed-radix bijection by induction on the rank.')
m('C52 C53 C56', 'The recursive stride loops over pointers into a memory; effect on the whole memory by induction on the rank.')
m('C54 C55', 'The recursive ttv/ttm/ttt loops; contraction sums by induction on the modes.')
m('C57', 'The assigners as state machines (index manipulators, traversal policies, wrap); fill invariants over every history of comma operators.')
m('C58', 'Character-level stream with get, putback, width and failure flags; element printing and parsing are parameters required to round-trip; induction over the rows.')
m('C59 C74', 'The wrappers unfolded to assignments and products of the model.')
m('C60 C75 C78', 'Array of vectors over an abstract lawful inner vector, instantiated with compressed, mapped and dense vectors; representation invariant for all histories; look-ups and iteration across lines.')
m('C71 C72 C89 C95', 'Element-wise evaluation over two tensors of possibly different layouts, by multi-index and by position as the code does; comparisons of extents.')
m('C73', 'Label matching and permutation vectors as the code computes them; the contracted sum over shared labels.')
m('C76 C77', 'Literal members; simulation by functions; capacity checks.')
m('C80 C81', 'Adaptors as address maps into a dense matrix; reads, writes and iteration simulated by the structured function.')
m('C87', 'Map of maps with lazily created lines; refinement for all histories.')
m('C90 C91', 'Compile-time lists of extents; agreement with the run-time functions by induction.')
m('C92', 'The view\'s binary search over caller-owned arrays with index base; equality with the compressed_matrix model.')
m('C93', 'Row/column proxies of an arbitrary matrix as elements of a sequence; iterators as positions.')
m('C94', 'The recursive printer; output determined as a function of the element list.')
m('C96 C97 C98', 'The BOOST_UBLAS_TYPE_CHECK code around the operations (shadow copies, equality up to rounding, internal_logic); shown not to fire in exact arithmetic, or a witness where it does.')
m('C99', 'Own/borrowed flag and the heap model of C16; effects of resize, assignment and swap on the external array.')
m('C100', 'Element proxies as (container, index) with deferred look-up; laws for every container of the sparse family and any history of other element operations between taking and using a proxy.')
m('C101', 'The value argument is a pointer into the container\'s own memory and is read when the code reads it.')
m('C102', 'Hermitian element proxies that load on construction and store on destruction; block semantics for statements with several live proxies.')
m('C103', 'The DD macro as a jump into an unrolled do-while with an unsigned counter of W values; number of executions of the body for every size.')
m('C104', 'unbounded_array over a heap whose cells may hold no object, with an arbitrary set of failing allocation and element events; weakest-precondition proof of every operation with a normal and an exceptional postcondition, then induction over histories that catch exceptions.')
m('C105', 'The statements of resize, reserve, operator = and insert_element in source order over the container models, in a monad whose exception returns the members as they are; equality with the failure-free models, and the state after every failing allocation. The sparse containers (Model/ExcSparse) likewise; for the coordinate matrix the two index arrays are one allocation.')
m('C106','Programs over named tensors (constructors, copy, move, assignment, swap, fill, element writes, element-wise evaluation in any order) against a table of abstract values; induction over the program, for both kinds of extents.')
m('C107','Reads, writes and insertions with an index outside, in the debug variant (dbg = true) of the models of C01-C30, C60, C71, C78; histories as in C19, C21, C24, C26, C60. Proved from the checks for dense, structured and view accesses and from the invariants of the histories for sparse containers; refutations for every container whose debug checks miss a case.')
m('C108','The debug (dbg = true) and release (dbg = false) variants of the container, view and adaptor models compared call by call. Agrees in Spec/BuildModes.lean; one lemma per modelled function, in Lemmas/BuildModes{A,B,C}.lean, lifted to histories by induction. Not covered: the algorithms (products, solvers, LU) and the BOOST_UBLAS_TYPE_CHECK code of C96-C98.')
m('C109','Model/Machine64.lean repeats the size and address functions over BitVec 64 with wrapping operators (std::max, lower_element, packed_size, band index, capacity restriction, map keys, tensor product, strides and offsets) and each is compared with the natural-number model used by the other properties; so those models are justified for all representable sizes. Range and slice arithmetic is already modulo 2^64 in Model/Select.lean.')
m('C110','Model/MatrixAlias.lean: temporaries as dense/compressed matrices built by the assignment of Model/MatrixAssign; right-hand sides are functions of the old contents (with temporary) or lazily evaluated on the current array (noalias, copy assignment of views). Proof: C68 on the temporary and on the target; for the lazy forms an invariant over the lexicographic order of assignment; refutation by evaluating the model on a 3 x 3 matrix.')
m('C111','Model/OpenCL.lean: device memory as buffers, kernels as sets of work items (read cells one by one, then write one cell), executions as arbitrary interleavings of the items, 32-bit kernel indices. Proof: a kernel whose items write distinct cells inside their buffers and read no cell another item writes gives the same result in every complete interleaving (Lemmas/OpenCL.lean, invariant over the schedule); the transposition kernel is such a kernel. Counterexamples for in-place use, non-default size types and 2^32 elements.')
m('C112','Model/OpenCL.lean: fill, change_layout of the second operand into an uninitialised temporary, clBLAS gemm (external, by its documented effect, one item per element). Proof: as C111 for each launch, leading dimensions related to the layout functions. Counterexamples for results that are operands or have other sizes.')
m('C113','Model/OpenCL.lean: Boost.Compute transform as a kernel. Proof: as C111; in place an item reads only the cell it writes. Counterexamples for mixed layouts and smaller results.')
m('C114','Model/Threads.lean: member functions as programs of single memory accesses (each read or write of one size_type or one element is one step), threads run by an arbitrary schedule. Proof: invariant that every thread sees at its footprint the memory it would have alone (execute_ok); each program computes what the sequential model computes (Conf). Simplified: sequentially consistent, atomic cells; assertions of storage_invariants in coordinate_vector::sort omitted; coordinate_vector: the insertion without reallocation. Model/ThreadsCoordMat.lean: coordinate_matrix with its three arrays.')
m('C115','Model/ThreadsPacked.lean adds vector, triangular, symmetric and banded matrices, Model/ThreadsHerm.lean hermitian ones (Spec/ThreadsMirror.lean: what a program does when an element has two names). As C114 with the footprint of a thread = the cells of its own elements plus the read-only index arrays; cells of different elements are different by C01 (dense) or by sortedness (compressed). The counterexample runs two inserting threads under a concrete schedule.')
m('C116','`serialize` is one template for both directions, so the model is one program per container, run over an archive that is saving or loading. A relation `Tr` ties the saving run from x to the loading run into an arbitrary y and composes along the statements; the reachable states come from the invariants of C19-C27, C60, C87.')
m('C117','Hoare-style rule `Keeps` (normal and exceptional postcondition) over arbitrary tapes for the safe containers; explicit truncated or inconsistent tapes, followed by one element read, for the others.')
m('C118','fixed containers over a list of constant length: the vector/matrix assignment machinery (VT/MT targets) with a relational history specification `Hist`/`MHist`; mismatches by case analysis on the dispatched variant; iterators reuse C49 (identical text).')
m('C119','records of iterator operations (RVec) per container, closed under proxies, expressions and reversal; specification: positions and sequences of moves; a relation At k p preserved by every operation, composed by induction over the nesting of proxies and expressions; 64-bit counters by modular arithmetic.')
m('C120','Model/Oriented.lean: orientation category, dimension tags, the dispatch of size/begin/end by tag and orientation, trans as an iterator adaptor that exchanges the axes; the loop is the one of Model/ProxyIter.lean. Proof: traversing trans(X) along an axis is traversing X along the other axis with exchanged indices (any X), then induction on the number of transpositions from the dense traversal theorem of C83.')
m('C121','Model/MultiIndex.lean: the template recursions as recursions over lists of numbers, the array of index_position_pairs with its unchecked writes, multi_index with its static assertions as refusal by the compiler, array_to_vector as two loops. Spec/MultiIndex.lean lists the matching pairs of positions. Proof by induction over the tuples; the pair writer is shown to fill exactly the array that number_equal_indexes announces. C121_einstein links the functions to the model of C73.')
m('C122','Model/ShallowAdaptor.lean: shared_array as a reference to a control block (count, deleter, array) on the heap of Model/Storage; every member of the class, including the local shared_array of resize_internal and its destruction. Spec/ShallowAdaptor.lean: names denote prefixes of arrays that never go away. Proof: a representation invariant - every control block counts exactly its owners (named adaptors and locals), no two blocks release one array - preserved by retain, drop, new and writes; induction over the history.')
m('C123','The checks of Model/OpenCL evaluated before the kernels; for results an overrun theorem: a kernel with an active item whose target cell is outside its buffer has undefined behaviour in every complete schedule (induction over the schedule).')
m('C124','Model/IndexedIter: the counter iterators with the find of every class; the RandomAccess specification of C119 is reused. Induction over the expression for ranges starting at 0; general counterexample theorems for every range with a positive start.')
m('C125','The vector operand is a node of the tensor expression of C72, read by position; for short vectors induction over the schedule up to the first position outside.')
m('C126','The line invariant of C60 with the coordinate vectors of C21 as lines: representation invariant for all histories with one sorted bit per line; a sorted line has the arrays of a compressed vector, so the walk along it is the one of C60.')
m('C127','The two loops of the predicates, by induction on the rounds left; the containers through C09 and C10.')
m('C128','The loop of the unary comparison by induction; the operand becomes a tensor by the construction of C72.')
m('C129','The laws of C119 for offsets c + k * stride, with the capacity as the divisor of the index functions.')
m('C130','Model/AtElement.lean: at_element of triangular, symmetric and hermitian matrices as an assignment through the returned reference; compared with the reads of Model/Packed.lean. Proof: different stored positions have different cells (cellOf_inj), positions outside the structure are refused by the checks of lower_element.')
m('C131','Model/OpenCLReduce.lean: memory as real words, the clBLAS reductions by their documented effect (result written as one real word, no event for an empty vector), the type dispatch and the result buffer of the code. Sums by loop invariant; exact result for complex elements in terms of the uninitialised word.')
m('C132','Model/Values.lean: copy constructor, operator = and swap of each container field by field (arrays element by element, lines of a vector of vectors by the operators of compressed_vector), and the programs made of them over numbered variables. One lemma reduces any program to six laws per container; the laws rest on the step lemmas of C04-C11, C19-C25, C60.')
m('C133','Model/Vector.lean: every member of vector over an abstract storage array, instantiated with unbounded_array (a list; its heap is C16) and bounded_array (buffer and size), the element-wise assignments by index and by iterator, and programs over many vectors (Model/Values.lean). Spec/Vector.lean: lists of optional elements. Proved by loop invariants over the laws of the two arrays; the documented zero initialisation refuted.')
m('C134','Model/Table.lean: every member of matrix over the abstract storage arrays of C133, with layouts as offsets (Model/Layout.lean), the element-wise loops by index and by nested iterators, resize_preserve, and programs over many matrices (Model/Values.lean). Spec/Table.lean: tables of optional elements, no addresses. Proved by a loop invariant along the major/minor order and injectivity of the layout.')
m('C135','Model/StrictMap.lean: sparse_storage_element (copy of the element, index, dirty flag), its constructor from an index, destructor and swap, and statements with two references in either order of evaluation and destruction, over Model/MapArray.lean. Spec/StrictMap.lean: plain references on a partial function. Proved by refinement per statement and induction over programs; the delayed write refuted.')

HEAD = '''# DESIGN

This file is generated by tools/mkdesign.py from properties.jsonl, MANIFEST.json, the Lean sources and tools/design_text.py. Its first version (git history) was the plan written before the proofs.

## Approach

* The model is a shallow embedding, function by function, of the headers under /repo/include/boost/numeric/ublas. Every definition in `lean/Verif/Model` cites the file and lines it models and states its simplifications.
* `lean/Verif/Spec` holds the small independent specifications the theorems speak about (functions, finite supports, sums, permutations, "presents", "lawful target"); `lean/Verif/Lemmas` holds auxiliary facts; `lean/Verif/Props` holds the theorems and, beside them, concrete examples that meet their hypotheses.
* Every function that can raise or touch memory returns `Except Fault`. `Fault.ub` marks undefined behaviour (an access outside a block, use of an end iterator, read of an uninitialised cell where relevant) and is a result different from every exception, so "does not fault" includes "no undefined behaviour". `dbg : Bool` selects BOOST_UBLAS_CHECK_ENABLE (debug) or not (release); theorems hold for both unless they say otherwise.
* Fresh uninitialised storage is an arbitrary parameter (`junk`); theorems hold for all of it.
* Scalars are an arbitrary type with the algebraic structure the property needs (semiring, field, linear order, involution for conj). Floating-point rounding is not modelled.
* `size_type` is Nat, except in `Machine` (64-bit words), in the slice strides (Int/wrap-around differences) and in `Duff` (a counter of W values).
* Loops are structural or well-founded recursion; where the code can run forever (block_prod with block size 0) divergence is an explicit outcome.
* Templates are parameters: orientation, triangular type, storage category, functor, inner container; the dispatch tables (`*_assign_traits`, storage categories, promoted iterators) are modelled as functions.

## Trusted base

* Lean 4.33.0's kernel, and the three standard axioms propext, Classical.choice and Quot.sound as listed per theorem at the end. No axiom is added, nothing is compiled and trusted (no native_decide, no bv_decide); `decide +kernel` is evaluated by the kernel.
* The statements: Spec files and theorem statements, and the faithfulness of the Model files to the cited lines. The sandbox cannot compile the C++ code, so the correspondence was checked by reading only.
* The C++ standard library is trusted to meet its specification: std::sort, std::copy, std::copy_backward, std::swap_ranges, std::fill, std::lower_bound, std::map, std::vector, std::allocator, iostreams (character level). They are modelled by that specification, or literally where their order of effects matters (copies with overlap).
* C++ evaluation order and object lifetime are modelled only where a property is about them (C42, C43, C100–C102).
* Mutation testing (`seeded/LOG.jsonl`) records, for wrong versions of the model, which theorems fail.
'''

HEADERS = '''## Which parts of the code are modelled and which are not

| header | modelled | not modelled |
|---|---|---|
| functional.hpp | layouts (basic_row/column_major, lower/upper and their strict/unit forms), scalar functors through parameters, inner products, products, norms, index functors | SIMD and bindings branches (`BOOST_UBLAS_USE_SIMD`, `BOOST_UBLAS_HAVE_BINDINGS`), container overloads of prod that do not compile, type computations |
| vector.hpp, matrix.hpp | vector, matrix: constructors, element access, insert/erase/clear, resize, assignment and swap (as targets), iterators and reverse iterators; vector_of_vector-based matrix; unit/zero/scalar vectors and matrices; c_vector, c_matrix | serialisation, initializer lists, move semantics branches, `BOOST_UBLAS_USE_INDEXED_ITERATOR` mode; bounded_* and fixed_* only as dense containers over their storage |
| vector_proxy.hpp, matrix_proxy.hpp | range, slice, indirect, row, column, matrix_range/slice/indirect, matrix_vector_range/slice/indirect: element access, assignment as targets, iterators over dense, packed and sparse bases | lifetime of proxies held by iterators; the function templates `project`/`subrange` beyond their index computation |
| triangular.hpp, symmetric.hpp, hermitian.hpp, banded.hpp | the matrices and the adaptors: access, writes, resize, iterators; triangular solve; element proxies of hermitian matrices | serialisation; converting constructors of adaptors' iterators that do not compile |
| vector_sparse.hpp, matrix_sparse.hpp | mapped, compressed, coordinate vectors and matrices: all element operations, resize, reserve, clear, push_back/pop_back, sort, find, iterators, element proxies; mapped_vector_of_mapped_vector; conversion from coordinate to compressed | serialisation; mutable iterators' dereference of mapped and coordinate matrices (through at_element) |
| storage.hpp | unbounded_array, bounded_array, array_adaptor, range, slice, indirect_array, index_pair_array swap semantics used by sort; unbounded_array when allocations or element operations throw (C104) | shallow_array_adaptor (enabled only by a macro), allocator rebinding, `BOOST_UBLAS_CHECK`-free reverse iterators of arrays |
| storage_sparse.hpp | map_array, map traits' reserve/capacity | sparse_storage_element (STRICT_MAP_ARRAY is off by default) |
| vector_expression.hpp, matrix_expression.hpp | unary, binary, scalar, transposed, outer product, product expressions: element access, sizes, iteration incl. the binary sparse iterators, norms, index norms | iterators of product expressions beyond element access (each dereference evaluates the product already modelled); complex overload of trans |
| detail/vector_assign.hpp, detail/matrix_assign.hpp | every assign, assign_scalar and swap loop; type checks | restricted conformance dispatcher (1373–1386) |
| detail/duff.hpp | DD | – |
| detail/iterator.hpp | reverse iterators; the comparison and arithmetic operators derived by the CRTP bases, through the containers' iterators | `indexed_iterator`, `indexed_iterator1/2` and their const forms (only used with BOOST_UBLAS_USE_INDEXED_ITERATOR) |
| operation.hpp, operation_blocked.hpp, operation_sparse.hpp, blas.hpp, lu.hpp | all algorithms | block_prod's own self-check |
| vector_of_vector.hpp, matrix_vector.hpp, experimental/sparse_view.hpp | containers, look-ups, iterators, element access | the empty iterator classes of compressed_matrix_view |
| assignment.hpp, io.hpp | assigners, manipulators, traversal policies; printing and parsing of vectors, matrices and symmetric matrices | locales, number formatting |
| traits.hpp, exception.hpp | promote/real traits through the scalar parameters, same_impl, exceptions as faults | type-level code |
| tensor/* | extents (dynamic, static rank, static), strides, multi-index, access functions, copy/transform/trans/accumulate, ttv/ttm/ttt/inner/outer, Einstein products, expressions, comparison, arithmetic, printing, reshape, real/imag/conj, constructors, copy, move, assignment | concepts, tensor_core's constructors' overload resolution, allocator choice, fixed_rank_strides (`#if 0`) |
| detail/config.hpp, definitions.hpp, fwd.hpp, tags.hpp, expression_types.hpp, returntype_deduction.hpp, concepts.hpp, documentation.hpp, traits/*, operation/* | the default configuration choices are recorded in the models | type-level or forwarding code without run-time behaviour |
| detail/raw.hpp | – | raw addressing for external libraries (included nowhere; its stride1/stride2 call `functor_type::one1/one2`, which do not exist) |
| opencl/{matrix,vector,transpose,prod,elementwise,misc}.hpp | C111–C113, C123, C131: device trans, change_layout, prod, outer_prod, element-wise operations, host versions, all interleavings of work items; reductions | complex types, device handles and kernel compilation, clBLAS and Boost.Compute internals |
'''

FINDINGS = '''## Claims that are false of the code

Each has a theorem ending in `_refuted` or `_rejected_exactly` (the negation) or a named restriction, and theorems for the rest; the notes above say what exactly fails. Generated list of the properties with status `partial`: @PARTIAL@.
'''

NOTES = '''## Observations outside the theorems

* Found while reading, not modelled: matrix_row_vector::crend() and the const operator[] of matrix_row/column_vector do not compile over mutable matrices; compressed_matrix_view has empty iterator classes; fixed_vector::empty() returns a reference to a temporary (vector.hpp:929–931); fixed_matrix::operator=(matrix_container) calls a resize that does not exist (matrix.hpp:1425–1429); remove_element_t never compiles, so static tensor-times-vector cannot be instantiated; converting constructors of tensor_static_rank and tensor_dynamic (157–163) are ill-formed; `BOOST_UBLAS_USE_SIMD` does not compile for matrices; the left form of lu_substitute(matrix_expression, m) cannot be instantiated; mapped_vector_of_mapped_vector::nnz() does not compile; the column-major default policy of assignment.hpp (line 889) names a type that does not exist; functional.hpp 866/1212 have an ill-formed cast.
* Formal undefined behaviour that is harmless on usual machines and is not counted as a fault: pointers formed past the end by find1(n, n), by the tensor printer's last increment and by end iterators of dense vector_of_vector columns (`null + j`).
* Proxies' iterators hold pointers to the proxy; a dangling proxy is outside the model. `const T& r = v(i)` on a sparse container binds to a temporary proxy's copy.
* detail/raw.hpp: `base(v) + start(v)` misses the start of an inner view; `leading_dimension` of a matrix_range is the range's own size; `size(vector_reference)` calls itself.
* block_prod leaves the type check disabled if it throws; its error bound reads uninitialised memory in debug builds.
* The sparse operations named `modify` in the models follow at_element; the strict proxies of the default configuration are C100.
'''
