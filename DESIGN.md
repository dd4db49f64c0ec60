# DESIGN

This file is generated by tools/mkdesign.py from properties.jsonl, MANIFEST.json, the Lean sources and tools/design_text.py. Its first version (git history) was the plan written before the proofs.

## Approach

* The model is a shallow embedding, function by function, of the headers under /repo/include/boost/numeric/ublas. Every definition in `lean/Verif/Model` cites the file and lines it models and states its simplifications.
* `lean/Verif/Spec` holds the small independent specifications the theorems speak about (functions, finite supports, sums, permutations, "presents", "lawful target"); `lean/Verif/Lemmas` holds auxiliary facts; `lean/Verif/Props` holds the theorems and, beside them, concrete examples that meet their hypotheses.
* Every function that can raise or touch memory returns `Except Fault`. `Fault.ub` marks undefined behaviour (an access outside a block, use of an end iterator, read of an uninitialised cell where relevant) and is a result different from every exception, so "does not fault" includes "no undefined behaviour". `dbg : Bool` selects BOOST_UBLAS_CHECK_ENABLE (debug) or not (release); theorems hold for both unless they say otherwise.
* Fresh uninitialised storage is an arbitrary parameter (`junk`); theorems hold for all of it.
* Scalars are an arbitrary type with the algebraic structure the property needs (semiring, field, linear order, involution for conj). Floating-point rounding is not modelled.
* `size_type` is Nat, except in `Machine` (64-bit words), in the slice strides (Int/wrap-around differences) and in `Duff` (a counter of W values).
* Loops are structural or well-founded recursion; where the code can run forever (block_prod with block size 0) divergence is an explicit outcome.
* Templates are parameters: orientation, triangular type, storage category, functor, inner container; the dispatch tables (`*_assign_traits`, storage categories, promoted iterators) are modelled as functions.

## Trusted base

* Lean 4.33.0's kernel, and the three standard axioms propext, Classical.choice and Quot.sound as listed per theorem at the end. No axiom is added, nothing is compiled and trusted (no native_decide, no bv_decide); `decide +kernel` is evaluated by the kernel.
* The statements: Spec files and theorem statements, and the faithfulness of the Model files to the cited lines. The sandbox cannot compile the C++ code, so the correspondence was checked by reading only.
* The C++ standard library is trusted to meet its specification: std::sort, std::copy, std::copy_backward, std::swap_ranges, std::fill, std::lower_bound, std::map, std::vector, std::allocator, iostreams (character level). They are modelled by that specification, or literally where their order of effects matters (copies with overlap).
* C++ evaluation order and object lifetime are modelled only where a property is about them (C42, C43, C100–C102).
* Mutation testing (`seeded/LOG.jsonl`) records, for wrong versions of the model, which theorems fail.

## Per property: what is modelled, how it is proved

Theorem names are in MANIFEST.json. "Model" and "Proofs" name files under `lean/Verif/Model` and `lean/Verif/Props`. `partial` means that the claim as written in properties.jsonl is false of the code or proved with a restriction; the note says which, the theorems ending in `_refuted` prove the negation on a concrete or universally quantified case, and the theorems ending in `_partial` prove the rest.

* **C01** Dense matrix elements occupy distinct storage cells — *proved*. Address formulas of both layouts on Nat with the debug checks; injectivity and surjectivity by division/modulo lemmas. Model: Layout. Proofs: Layout. Bijection for all shapes, both orientations, both build modes.
* **C02** Dense storage size computation never silently overflows — *proved*. size_type as 64-bit words that wrap; the guard is shown to accept exactly the products that fit, and accepted addresses do not wrap. Model: Layout, Machine. Proofs: Machine. 64-bit machine arithmetic.
* **C03** Packed triangular storage size computation never silently overflows — *partial*. As C02 for the triangular size formulas; the guard is refuted at n = 2^32 and shown exact below. Model: Layout, Machine. Proofs: Machine. The overflow guard divides before adding one and lets n=2^32 wrap: refuted; exact below.
* **C04** Dense matrix read-after-write and frame — *proved*. Matrix = sizes + flat list of cells in a monad with exceptions and undefined behaviour; simulation of every history of operations by a function (i,j) ↦ value. Model: Dense, Layout, Packed. Proofs: Additions, Dense. Refinement for all histories of insert/erase/clear/resize.
* **C05** matrix::resize(preserve=true) keeps the common block — *partial*. resize with explicit unspecified contents of fresh storage; loop invariant for the copied block; witness for the missing zero fill. Model: Dense, Layout. Proofs: Dense. Preservation proved; the documented zero filling of new elements is false of the code (uninitialised storage) and refuted.
* **C06** Triangular packed layouts place structural elements injectively and in bounds — *proved*. All six triangular structures and both orientations; triangular-number lemmas give bounds, injectivity and the packed size. Model: Dense, Layout, Packed. Proofs: Packed. All six structures, both orientations, both build modes, any n>0.
* **C07** Triangular matrix reads and writes respect the structure — *proved*. Simulation of every legal history by the structured function, using only the layout laws (injective, in bounds). Model: Dense, Layout, Packed. Proofs: Packed. Refinement over all legal histories.
* **C08** Rectangular triangular matrices accept every structural element — *partial*. Exact set of indices rejected by the checks of rectangular shapes; witness and proof for the square case. Model: Dense, Layout, Packed. Proofs: Packed. With checks on, unit/strict rectangular matrices reject some of their own elements: refuted, with the exact rejected set.
* **C09** Symmetric matrix stays symmetric — *proved*. Simulation of every legal history by the structured function, using only the layout laws (injective, in bounds). Model: Dense, Layout, Packed. Proofs: Symmetric. Refinement over all legal histories.
* **C10** Hermitian matrix stays hermitian — *partial*. Hermitian matrix over an abstract involution, writes through the element proxies of the default strict configuration; simulation over histories; witness for erase_element. Model: Dense, Layout, Packed. Proofs: Symmetric. erase_element outside the stored triangle is wrong in the code: refuted; everything else proved (element writes through the proxies of the default configuration; the rejection theorem is for builds with BOOST_UBLAS_NO_ELEMENT_PROXIES).
* **C11** Banded matrix band elements are independent — *proved*. Simulation of every legal history by the structured function, using only the layout laws (injective, in bounds). Model: Banded. Proofs: Banded. Any shape and bandwidths; non-preserving resize only (preserving resize is C61).
* **C12** Range and slice composition — *proved*. range and slice as (start, stride, size) with wrap-around differences; composition proved pointwise. Model: Select. Proofs: Select. Any start and any (zero, negative) stride whose addressed indices are valid; associativity of slices modulo 2^64 in release builds.
* **C13** Indirect array composition — *partial*. indirect_array as an index list; composition proved pointwise; witnesses for the bounds checks. Model: Select. Proofs: Select. Complete for indirect arguments; for range/slice arguments exact when non-empty; empty ranges starting beyond the end are rejected although no index is invalid (refuted).
* **C14** Vector proxies write through and frame — *proved*. A view is an injective address function into the memory of its container; reads, writes and the frame follow for every stack of views, matrix_row/column/range/slice/indirect and matrix_vector_* included. Model: Select. Proofs: Select. Arbitrary nesting depth; project with explicit non-empty selectors (all() is C62).
* **C15** Matrix proxies address the right elements — *proved*. A view is an injective address function into the memory of its container; reads, writes and the frame follow for every stack of views, matrix_row/column/range/slice/indirect and matrix_vector_* included. Model: Select. Proofs: Select. Arbitrary nesting depth.
* **C16** unbounded_array/bounded_array value semantics — *proved*. Heap of blocks with allocation and construction counters; invariants over every history of resize, assignment, swap and destruction. Model: Storage. Proofs: Storage. Heap model with allocation, construction and release of each block; arbitrary histories.
* **C17** map_array behaves as an ordered map — *proved*. Literal lower_bound and insertion into a sorted array with capacity; refinement to a finite map for all histories. Model: MapArray, Search. Proofs: MapArray. Arbitrary histories in both build modes.
* **C18** map_array copy construction copies — *partial*. Literal lower_bound and insertion into a sorted array with capacity; refinement to a finite map for all histories. Model: MapArray, Search. Proofs: MapArray. The claim is false of the code: the copy constructor copies nothing (size_ is read before it is set). Negation proved; only the empty case holds.
* **C19** compressed_vector refines a sparse function — *proved*. Literal arrays, counters and faults of the container; a representation invariant preserved by every operation and for every history; refinement to a function with finite support. Model: CompressedVector, Mapped, Search. Proofs: CompressedVector. Arbitrary legal histories, any index base, uninitialised memory arbitrary.
* **C20** mapped_vector refines a sparse function — *proved*. Literal arrays, counters and faults of the container; a representation invariant preserved by every operation and for every history; refinement to a function with finite support. Model: Layout, MapArray, Mapped, Search. Proofs: Mapped. Any map meeting the map laws; both instances (map_array, std::map) proved to meet them.
* **C21** coordinate_vector refines summation semantics — *proved*. Literal arrays, counters and faults of the container; a representation invariant preserved by every operation and for every history; refinement to a function with finite support. Model: CompressedVector, Coo, Mapped, Search. Proofs: Coo. Arbitrary legal histories; any conforming std::sort. Legality excludes the three defects recorded as C23, C28, C63.
* **C22** Lazy sort of coordinate formats is a correct in-place merge — *proved*. The lazy sort as the code does it: sortedness flag, sorted prefix, merge and summation of duplicates; permutation and sum invariants. std::sort is trusted to sort; the in-place merge is modelled step by step. Model: CompressedVector, Coo, Mapped, Search. Proofs: Coo. inplace_merge and duplicate summing modelled step by step; std::sort abstract.
* **C23** pop_back preserves coordinate sortedness bookkeeping — *partial*. pop_back after an unsorted append: witness, and proof for the histories that keep the flag truthful. Model: CompressedVector, Coo, Mapped, Search. Proofs: Coo. False of the code for unsorted contents and for the last element (negations proved); proved otherwise.
* **C24** compressed_matrix refines a sparse matrix function — *proved*. Literal arrays, counters and faults of the container; a representation invariant preserved by every operation and for every history; refinement to a function with finite support. Model: CompressedMatrix, CompressedVector, Layout, Mapped, Search. Proofs: CompressedMatrix. Arbitrary legal histories, both orientations, any index base; uninitialised memory arbitrary. Legality excludes the defects recorded as C27, C28, C64.
* **C25** mapped_matrix refines a sparse matrix function — *proved*. Literal arrays, counters and faults of the container; a representation invariant preserved by every operation and for every history; refinement to a function with finite support. Model: Layout, MapArray, Mapped, Search. Proofs: Mapped. Any map, both orientations, non-preserving resize (preserving resize is C27).
* **C26** coordinate_matrix refines summation semantics — *proved*. Literal arrays, counters and faults of the container; a representation invariant preserved by every operation and for every history; refinement to a function with finite support. Model: CompressedVector, Coo, Mapped, Search. Proofs: Coo. Arbitrary legal histories, both orientations; any conforming std::sort.
* **C27** Sparse resize with preserve keeps elements inside the new bounds — *partial*. resize with preserve modelled literally; preservation by loop invariants where true, witnesses where not. Model: CompressedMatrix, CompressedVector, Coo, Layout, MapArray, Mapped, Search. Proofs: Coo, Mapped, CompressedMatrix, CompressedVector. Vectors proved; matrices do not implement it (refuted).
* **C28** Sparse reserve with preserve never loses elements — *partial*. Literal arrays, counters and faults of the container; a representation invariant preserved by every operation and for every history; refinement to a function with finite support. Model: CompressedMatrix, CompressedVector, Coo, Layout, Mapped, Search. Proofs: CompressedVector, Coo, CompressedMatrix. False of the code when n is below the number of stored elements (refuted); proved otherwise.
* **C29** Conversion from coordinate_matrix to compressed_matrix preserves every element — *partial*. The conversion constructor loop; correctness for index base 0 by induction over the sorted triples; witness for base 1. Model: CooToCMat. Proofs: CooToCMat. False of the code for one-based index arrays and for matrices without a major line (refuted); proved for zero-based arrays, every legal source history.
* **C30** inner_prod equals the mathematical sum for every storage combination — *proved*. Every dispatch path (dense, packed, sparse, random access; indexing, iterating and threshold modes) over operands that are only required to present a matrix or vector; sums by induction on the merged lists; the containers are shown to be such operands. Model: Operands, Prod. Proofs: Prod. operands are any vector expressions whose iterators/element access present a vector (Seq.Presents); dense vector and compressed_vector are shown to be such. Scalars from any semiring: rounding not modelled
* **C31** Matrix-vector prod element equals the row sum for every storage combination — *proved*. Every dispatch path (dense, packed, sparse, random access; indexing, iterating and threshold modes) over operands that are only required to present a matrix or vector; sums by induction on the merged lists; the containers are shown to be such operands. Model: Operands, Prod. Proofs: Prod. element by index and through iterators, all dispatch paths; the container classes are shown to satisfy the operand hypotheses
* **C32** Matrix-matrix prod element equals the sum for every storage combination — *proved*. Every dispatch path (dense, packed, sparse, random access; indexing, iterating and threshold modes) over operands that are only required to present a matrix or vector; sums by induction on the merged lists; the containers are shown to be such operands. Model: Operands, Prod. Proofs: Prod. as C31
* **C33** axpy_prod computes A*x and accumulates when init=false — *proved*. All overloads of axpy_prod and opb_prod as loops over presented operands and lawful targets; accumulation invariants. Model: Banded, Operation, Prod. Proofs: Axpy, AxpyMM, AxpySparse, Opb. All overloads; operands are any expressions presenting a matrix/vector (shown for the containers in C31), targets any dense or sparse container or view. For dense results the triangular restriction is ignored by the code (stated in C33_matrix_matrix).
* **C34** opb_prod computes A*B by outer products — *partial*. All overloads of axpy_prod and opb_prod as loops over presented operands and lawful targets; accumulation invariants. Model: Banded. Proofs: Opb. Proved in the default indexing mode. With BOOST_UBLAS_USE_ITERATING the claim is false of the code (refuted), because dense outer_prod iterators skip the rows of zero elements.
* **C35** block_prod equals prod for every block size — *proved*. Triple loop over blocks; partial sums invariant over blocks; non-termination for block size 0. Model: Blocked. Proofs: Blocked. block_prod with dense results, every block size > 0, every shape, any operand that presents a matrix/vector, debug and release, both evaluation modes; block size 0 never terminates
* **C36** sparse_prod equals prod — *partial*. Row-wise accumulation in a sparse temporary; invariant over the rows. Model: SparseProd. Proofs: SparseProd. proved when the result has at least one minor element; for results without (zero columns of a row_major, zero rows of a column_major result) the code reads temporary(0) of an empty vector as soon as a line is visited: C36_empty_result_refuted proves the fault for every such input
* **C37** Triangular inplace_solve solves the system — *proved*. Forward and backward substitution loops, dense, packed and sparse, over any field; triangular-solve invariants; singular exactly when a zero pivot is met. Model: Operation, Prod, Solve. Proofs: Solve. Every tag, orientation and storage category, any matrix operand that presents its elements, any right-hand side with element access; over an arbitrary field (no rounding).
* **C38** LU factorization reproduces the matrix — *proved*. Right-looking elimination with and without pivoting; Schur-complement invariant; determinant and singularity from the invariant over the field. Model: LU. Proofs: LU. Any dense-category matrix with element access, any shape, over an arbitrary field with exact arithmetic; default indexing evaluation.
* **C39** lu_substitute solves A x = b — *partial*. Permutation as a fold of transpositions; combination of C37 and C38. Model: Blocked. Proofs: LUSubst. A x = b proved for vectors and matrices, with and without pivoting; x A = b without pivoting. The left variant with pm is wrong whenever rows were exchanged (it permutes b instead of x): refuted, with the system it really solves.
* **C40** axpy_lu_factorize agrees with lu_factorize — *partial*. Left-looking factorisation with its own invariant, compared with C38 by uniqueness. Model: Blocked. Proofs: LUAxpy. Proved over any field for every matrix with at least as many rows as columns (any lawful storage, orientation, checks on or off): P A = L U, first zero pivot reported. Refuted for every wider matrix with a non-zero element right of the square part: the loop only runs to min (size1, size2) and the zero-filled mr overwrites the rest of U.
* **C41** swap_rows with a permutation matrix applies exactly that permutation — *proved*. Permutation as a fold of transpositions; combination of C37 and C38. Model: Blocked. Proofs: LUSubst. 
* **C42** Element-wise assignment evaluates the right-hand side before writing — *proved*. Expressions read the same memory that is being written; equality with simultaneous evaluation proved for the temporary path and, for noalias, for same-index reads; witnesses otherwise. Model: Expr, VectorAssign, VectorTargets. Proofs: AssignOps. vector<T>, the vector views and compressed_vector; the right-hand side is an arbitrary function of the old contents. Matrix targets not modelled.
* **C43** noalias assignment is safe exactly for same-index reads — *partial*. Expressions read the same memory that is being written; equality with simultaneous evaluation proved for the temporary path and, for noalias, for same-index reads; witnesses otherwise. Model: Expr, Layout, Packed, VectorAssign, VectorTargets. Proofs: Additions, AssignOps. False of the code when the expression is of sparse category (dense containers) or the target is sparse: the target is cleared first (refuted). Proved otherwise.
* **C44** Sparse and packed assignment store every element of the right-hand side — *proved*. Dense, packed and sparse assignment loops, literally, over lawful targets (dense views, compressed, triangular, vector_of_vector, ranges of them) and presented right-hand sides; merge invariants. Model: PackedIter, VectorAssign, VectorTargets. Proofs: VectorAssign, TriRow. sparse targets: compressed_vector; packed targets: rows of a triangular matrix; proxies: views
* **C45** Packed swap exchanges elements index-wise — *partial*. The swap loops over two targets in one memory; exchange invariants; witnesses for the packed cases. Model: PackedIter, VectorAssign, VectorTargets. Proofs: TriRow. False of the code for rows of an upper triangular matrix swapped in ascending order (refuted).
* **C46** Norms equal their definitions — *proved*. Norm loops by indexing and by iterators over an ordered field with abs and sqrt laws; max and sum invariants; the division by zero of scaled norm_2. Model: Norms, Operation, Prod. Proofs: Norms. Every evaluation mode and storage category, over an ordered field with an absolute value; square roots are a parameter.
* **C47** Scaled norm_2 never divides by zero — *partial*. Norm loops by indexing and by iterators over an ordered field with abs and sqrt laws; max and sum invariants; the division by zero of scaled norm_2. Model: Norms, Operation, Prod. Proofs: Norms. Right for the indexing evaluation and for iterator evaluation without a leading zero; the iterator versions compute 0/0 for every vector whose first visited element is zero (refuted).
* **C48** Element-wise expressions evaluate pointwise — *partial*. Expression trees over presented operands; the binary sparse iterator is a state machine whose run is shown to enumerate the merged support. Model: Expr. Proofs: Expr. Everything but outer_prod proved for all categories; dense outer_prod iterators skip the row of a zero element (refuted).
* **C49** Dense iterators traverse every element exactly once — *partial*. Iterators as positions with the code's find/increment/decrement; the visited list is computed by walking them and shown equal to the specified list, forwards and backwards. Model: Dense, DenseIter, Layout, Machine. Proofs: DenseIter, Machine. Traversal proved; negative differences of the minor-direction iterators are wrong in the code and refuted.
* **C50** Iterators of sparse containers enumerate exactly the stored elements in order — *proved*. Iterators as positions with the code's find/increment/decrement; the visited list is computed by walking them and shown equal to the specified list, forwards and backwards. Model: CMatIter, CompressedMatrix, CompressedVector, Layout, MapArray, Mapped, Search. Proofs: CMatIter, CompressedVector, Mapped. compressed_matrix: both axes, both orientations, after any legal history. Vectors: the entry sequences in C19/C20.
* **C51** Tensor strides give a bijection between multi-indices and memory — *proved*. Stride vectors for both layouts and any rank; mixed-radix bijection by induction on the rank. Model: Tensor, TensorExpr. Proofs: Tensor. size_t arithmetic is not wrapped: product of extents assumed to fit.
* **C52** Tensor copy/transform/accumulate visit every element once — *proved*. The recursive stride loops over pointers into a memory; effect on the whole memory by induction on the rank. Model: Tensor, TensorMul. Proofs: TensorAlg. Arbitrary rank, extents and strides (distinct target offsets), extents below 2^32 (the loop counters are unsigned).
* **C53** Tensor transposition permutes indices — *partial*. The recursive stride loops over pointers into a memory; effect on the whole memory by induction on the rank. Model: Tensor, TensorMul. Proofs: TensorTrans. Proved for rank 2 and more, any permutation. Refuted for rank 1: trans returns zeros.
* **C54** Tensor times vector/matrix contract the chosen mode — *partial*. The recursive ttv/ttm/ttt loops; contraction sums by induction on the modes. Model: Tensor, TensorMul. Proofs: TensorVec, TensorMat. tensor-times-vector proved for every rank and mode, tensor-times-matrix for rank 2 and more. Refuted for rank 1 with matrices: the kernel reads past the extents. Extents below 2^32.
* **C55** Tensor times tensor contracts the chosen modes; inner and outer products — *partial*. The recursive ttv/ttm/ttt loops; contraction sums by induction on the modes. Model: Operation, Prod, Solve. Proofs: TensorTen, TensorProd, TensorInner. General contraction, inner and outer products proved for every rank from 2 and every list of modes; refuted for rank-1 inner and outer products and for static-rank full contractions. Extents below 2^32.
* **C56** Tensor reshape keeps the elements in memory order — *proved*. The recursive stride loops over pointers into a memory; effect on the whole memory by induction on the rank. Model: Tensor, TensorExpr. Proofs: Tensor. 
* **C57** Comma/stream assignment fills in traversal order — *partial*. The assigners as state machines (index manipulators, traversal policies, wrap); fill invariants over every history of comma operators. Model: Assigner, CompressedMatrix, CompressedVector, Layout, Mapped, Operation, Prod, Search, Solve. Proofs: Assigner, AssignerUse, AssignerRefuted, AssignerBlocks. Every script performs exactly the specified writes in order, for any target; contents and refusals derived for dense and compressed targets. Refuted: a block behind a full row is refused instead of wrapped, an empty block reads its element (0,0), blocks without wrapping are placed diagonally, a move left of column 0 wraps to the next row. Operands that read the target are not covered.
* **C58** Text output and input round-trip — *partial*. Character-level stream with get, putback, width and failure flags; element printing and parsing are parameters required to round-trip; induction over the rows. Model: IO, Operation, Prod. Proofs: IOSize, IO, IORound. Accepted texts characterised for every byte string; round trips for every element type whose own output is read back. Refuted: a trailing comma is accepted, a size that cannot be allocated throws, and in release mode 2^32 x 2^32 announced elements are written outside memory. Classic locale, decimal format; float precision is the element type's.
* **C59** BLAS wrappers compute their formulas — *partial*. The wrappers unfolded to assignments and products of the model. Model: Blas, BlasSwap, Blocked. Proofs: Blas, BlasSwap. Dense targets, any operands, debug and release. rot on sparse vectors is refuted (it clears v2 before reading it). Rank updates with two dense vectors only in the default indexing mode (outer_prod iterators: C48). Not covered: swap, symmetric/hermitian targets, iterated evaluation of dense products over an empty inner dimension.
* **C60** vector_of_vector matrices behave as sparse matrices — *proved*. Array of vectors over an abstract lawful inner vector, instantiated with compressed, mapped and dense vectors; representation invariant for all histories; look-ups and iteration across lines. Model: CMatIter, CompressedMatrix, CompressedVector, Layout, Mapped, Search, VectorOfVector. Proofs: VectorOfVector. generalized_vector_of_vector<T, L, vector<compressed_vector<T>>>, both orientations, any index base; lines of coordinate vectors are C126.
* **C61** banded_matrix::resize(preserve=true) keeps the common band — *partial*. resize with preserve modelled literally; preservation by loop invariants where true, witnesses where not. Model: Banded. Proofs: Banded. banded_matrix::resize(preserve) is wrong in the code: refuted with out-of-bounds and value witnesses.
* **C62** Projecting a proxy with all() gives the whole proxy — *partial*. range and slice as (start, stride, size) with wrap-around differences; composition proved pointwise. Model: Select. Proofs: Select. all() applied to a proxy is resolved with the underlying size in the code: refuted.
* **C63** Discarding resize and reserve empty a coordinate_vector — *partial*. Literal arrays, counters and faults of the container; a representation invariant preserved by every operation and for every history; refinement to a function with finite support. Model: CompressedVector, Coo, Mapped, Search. Proofs: Coo. False of the code for unsorted contents in debug builds (refuted); proved from sorted contents.
* **C64** compressed_matrix::push_back appends any element after the last one — *partial*. Literal arrays, counters and faults of the container; a representation invariant preserved by every operation and for every history; refinement to a function with finite support. Model: CompressedMatrix, CompressedVector, Layout, Mapped, Search. Proofs: CompressedMatrix. False of the code after pop_back (refuted); proved when the target row is the last opened one or later.
* **C65** Reverse iteration of compressed_matrix visits the same elements backwards — *partial*. Iterators as positions with the code's find/increment/decrement; the visited list is computed by walking them and shown equal to the specified list, forwards and backwards. Model: CMatIter, CompressedMatrix, CompressedVector, Layout, Mapped, Search. Proofs: CMatIter. False of the code across the storage lines when trailing lines are empty (refuted); proved along storage lines.
* **C66** Triangular and banded traversal visits exactly the structure — *partial*. Iterators as positions with the code's find/increment/decrement; the visited list is computed by walking them and shown equal to the specified list, forwards and backwards. Model: PackedIter. Proofs: PackedIter. false as stated: column-wise traversal of a tall strict (or mutable unit) lower triangular matrix, and row-wise traversal of a wide upper one, miss the last line; proved for all other shapes and for banded_matrix
* **C67** Reverse iteration over element-wise expressions visits the same elements backwards — *partial*. Expression trees over presented operands; the binary sparse iterator is a state machine whose run is shown to enumerate the merged support. Model: Expr. Proofs: Expr. False of the code for sparse and packed operands (refuted); proved for dense operands.
* **C68** Matrix assignment stores every element of the right-hand side — *proved*. Dense, packed and sparse assignment loops, literally, over lawful targets (dense views, compressed, triangular, vector_of_vector, ranges of them) and presented right-hand sides; merge invariants. Model: Blocked, MatrixAssign, MatrixRange, MatrixTargets, VectorAssign. Proofs: MatrixAssign, MatrixRange. Holds for every expression whose iterators visit its non-zero elements; C68_strict_lower_refuted shows what the traversal defect C66 does to an assignment. Targets: dense matrices and views, compressed_matrix, lower/upper triangular_matrix. Ranges of any dense or sparse target: C68_range, C68_compressed_range. Not modelled: the conformant-restricted dispatcher.
* **C69** Pivoted LU decides singularity and yields the determinant — *proved*. Right-looking elimination with and without pivoting; Schur-complement invariant; determinant and singularity from the invariant over the field. Model: Blocked, LU. Proofs: LUSubst, LU. 
* **C70** Tensor element access by multi-index — *partial*. Stride vectors for both layouts and any rank; mixed-radix bijection by induction on the rank. Model: Tensor, TensorExpr. Proofs: Tensor. Valid multi-indices: read and write proved. A wrong number of indices throws. Refuted: an index beyond its own extent is accepted when its flat position is inside the container, e.g. t(n0,0,...) is t(0,1,...).
* **C71** Tensor comparisons compare elements at equal multi-indices — *partial*. Element-wise evaluation over two tensors of possibly different layouts, by multi-index and by position as the code does; comparisons of extents. Model: Tensor, TensorExpr. Proofs: Tensor. Proved for tensors of one layout and fewer than 2^32 elements. != is not the negation of == (refuted), tensors of different layouts are compared in memory order (refuted).
* **C72** Element-wise tensor expressions are element-wise — *partial*. Element-wise evaluation over two tensors of possibly different layouts, by multi-index and by position as the code does; comparisons of extents. Model: Tensor, TensorExpr. Proofs: Tensor, TensorMixed. Proved for operands of one layout, any schedule of the loop, fewer than 2^32 elements. Refuted for mixed layouts (memory order) and for 2^32 or more elements (unsigned counter never reaches the size). Refuted for shapes inside an operand of another tensor type (only its last tensor is compared). Vector operands: C125; matrix operands do not compile when evaluated.
* **C73** Einstein products contract the shared labels — *partial*. Label matching and permutation vectors as the code computes them; the contracted sum over shared labels. Model: TensorEin. Proofs: TensorEin. Contractions and equal label tuples proved; refuted when no label is shared: the operator is the element-wise product instead of the outer product.
* **C74** Scaling in place changes every element — *proved*. The wrappers unfolded to assignments and products of the model. Model: ScalarAssign. Proofs: ScalarAssign. Every evaluation mode and target category, for functions with F 0 = 0 (products with a scalar; quotients over a field); the implicit unit diagonal of a unit-triangular target stays 1.
* **C75** vector_of_vector look-ups and iteration across the lines — *partial*. Array of vectors over an abstract lawful inner vector, instantiated with compressed, mapped and dense vectors; representation invariant for all histories; look-ups and iteration across lines. Model: CMatIter, CompressedMatrix, CompressedVector, Layout, Mapped, Search, VectorOfVector. Proofs: VectorOfVector. Refuted: find_element never returns null (absent elements give a pointer to the shared zero); iterating across the lines throws external_logic in debug builds as soon as the line has an element (release visits exactly the stored elements); reverse iteration across the lines reads a past-the-end index; insert_element one line past the end writes outside memory.
* **C76** Constant containers are the vectors and matrices they name — *partial*. Literal members; simulation by functions; capacity checks. Model: Constant, VectorTargets. Proofs: Constant. Refuted: a unit_vector whose index lies outside (after a resize) still visits that index when iterated directly - assigning it throws or writes outside memory; column-wise iteration of any expression over a wide identity_matrix throws bad_index in debug builds.
* **C77** c_vector and c_matrix are vectors and matrices of bounded capacity — *partial*. Literal members; simulation by functions; capacity checks. Model: CArray, MatrixAssign, Prod. Proofs: CArray. Refuted: swap of c_vector/c_matrix demands equal sizes in debug builds and loses elements in release builds when the first is larger; therefore a preserving c_matrix::resize and an assignment of an expression of another size throw bad_size in debug builds. Proved: everything else, and release builds completely (except swap with a larger first operand).
* **C78** The dense vector_of_vector is a matrix — *partial*. Array of vectors over an abstract lawful inner vector, instantiated with compressed, mapped and dense vectors; representation invariant for all histories; look-ups and iteration across lines. Model: CArray, CompressedVector, DenseVV, Mapped, MatrixAssign, Prod, Search. Proofs: DenseVV. Refuted: (1) growing again after a reduction of the number of lines brings old values back in the first added line (the spare line is never cleared); (2) after a reduction positions in the first line outside are read without error in debug builds; (3) iterator assignment copies only the pointer, not the indices, so the assigned iterator goes on from the old position; (4) < across lines compares addresses of different allocations. Everything else is proved for all histories.
* **C79** Swapping two views exchanges their elements — *partial*. The swap loops over two targets in one memory; exchange invariants; witnesses for the packed cases. Model: Blocked, MatrixAssign, MatrixRange, Swap, VectorAssign. Proofs: Swap, MatrixSwap. Vector views: dense/dense, dense/sparse, sparse/dense, sparse/sparse, two lines of one compressed_matrix. Matrix views: the dense case; refuted in debug for views of matrices without columns. Sparse matrix views: C79_matrix_sparse for any lawful disjoint pair, C79_compressed_ranges for ranges of two compressed matrices. Packed matrix views of one shape: C79_matrix_packed, C79_triangular_ranges; of different shapes refuted (C79_mixed_triangles_refuted). Packed vector views are C45.
* **C80** Symmetric and hermitian adaptors present a symmetric (hermitian) matrix — *partial*. Adaptors as address maps into a dense matrix; reads, writes and iteration simulated by the structured function. Model: SymAdaptor. Proofs: SymAdaptor. Element access, writes, forward traversal, forward jumps and distances proved for a dense adapted matrix. Refuted: reverse loops over every line but the first (end iterators do not know their line's other segment: they read the other triangle, then leave the matrix); -= across the diagonal raises external_logic in debug; begin - end is wrong. Sparse adapted matrices and the mutable iterators (which walk the triangle only) are not modelled here.
* **C81** Triangular and banded adaptors present the structured part of a dense matrix — *partial*. Adaptors as address maps into a dense matrix; reads, writes and iteration simulated by the structured function. Model: PackedAdaptor. Proofs: PackedAdaptor. Refuted in debug builds: looping by columns (rows) over a lower (upper) adaptor of a matrix with at least two more columns (rows) than rows (columns) throws bad_index, because the inner iterator of a line wholly outside the triangle is placed beyond the matrix. Strict and unit triangles of the shapes of C66_refuted are excluded from the traversal theorem.
* **C82** Iterators of vector views visit what the view shows — *proved*. Iterators as positions with the code's find/increment/decrement; the visited list is computed by walking them and shown equal to the specified list, forwards and backwards. Model: CMatIter, CoordIter, Layout, MapArray, Mapped, MappedIter, ProxyIter, Search, Select. Proofs: ProxyIter, ProxyIterMapped, ProxyIterCoord. const iterators of vector_range, vector_slice, vector_indirect over vector, compressed_vector, mapped_vector and coordinate_vector, any nesting; the pointer an iterator holds to its proxy is not modelled.
* **C83** Iterators of matrix views visit what the view shows — *partial*. Iterators as positions with the code's find/increment/decrement; the visited list is computed by walking them and shown equal to the specified list, forwards and backwards. Model: CMatIter, CompressedMatrix, CompressedVector, Layout, Mapped, Search. Proofs: ProxyIterDense, ProxyIterSparse. Refuted: a matrix_range with the empty column range at the right edge of a row-major matrix: its row iterators report the wrong rows. For compressed matrices backward iteration is proved along the major direction (the other direction: C65); diagonal-like views of sparse matrices are not stated.
* **C84** Iterators of structured matrices and of their views — *proved*. Iterators as positions with the code's find/increment/decrement; the visited list is computed by walking them and shown equal to the specified list, forwards and backwards. Model: PackedIter. Proofs: ProxyIterPacked. const iterators (and mutable ones of symmetric_matrix). Strict triangles of shapes where C66 is refuted are excluded by hypothesis.
* **C85** Iterating a mapped_matrix shows its stored elements — *partial*. Iterators as positions with the code's find/increment/decrement; the visited list is computed by walking them and shown equal to the specified list, forwards and backwards. Model: Layout, MapArray, Mapped, MappedIter, Search. Proofs: ProxyIterMapped. const iterators. Refuted: backwards, in debug builds every step back from an end iterator throws bad_index, in release builds reverse iterators of a line yield every position down to the first stored one, stored or not.
* **C86** Iterating a coordinate_matrix shows its stored elements — *partial*. Iterators as positions with the code's find/increment/decrement; the visited list is computed by walking them and shown equal to the specified list, forwards and backwards. Model: CoordIter. Proofs: ProxyIterCoord. const iterators. Refuted: backwards, in debug builds stepping back from end1/end2, and from the end of a line across the storage order, throws bad_index; along the storage order the first step back from the end of a line arrives at an element of the next line.
* **C87** mapped_vector_of_mapped_vector behaves as a sparse matrix — *partial*. Map of maps with lazily created lines; refinement for all histories. Model: MapOfMaps. Proofs: MapOfMaps. Refuted: the container performs no index check at all; in both build modes reading outside the matrix yields zero, writing outside succeeds and the value is read back. nnz() and nnz_capacity() do not compile when instantiated.
* **C88** Iterating a mapped_vector_of_mapped_vector shows its stored elements — *partial*. Iterators as positions with the code's find/increment/decrement; the visited list is computed by walking them and shown equal to the specified list, forwards and backwards. Model: MapOfMapsIter. Proofs: MapOfMapsIter. default std::map storage; const iterators; views of lines, not matrix views. Refuted: a line never written shows the elements of the next line that was; reverse iteration across the storage order throws or is undefined; the nested loops against the storage order run past the end if the matrix is not square, and miss elements if it is.
* **C89** Extents and tensors of different kinds compare by their extents — *partial*. Element-wise evaluation over two tensors of possibly different layouts, by multi-index and by position as the code does; comparisons of extents. Model: TensorStatic. Proofs: TensorRank. Proved for every combination except two different extents of the same static rank. Refuted there: operator!= of two extents<n> is always false, so tensors of static rank with different shapes may compare equal, and inner_prod accepts them (reading past the second operand).
* **C90** Compile-time functions on static extents agree with the run-time ones — *partial*. Compile-time lists of extents; agreement with the run-time functions by induction. Model: TensorStatic. Proofs: ExtentsStatic. Refuted: any_of_v of an empty pack is true; for packs with a zero extent the compile-time and run-time shape predicates disagree. size_t products not wrapped. remove_element_t never compiles (not modelled).
* **C91** Static tensors: element access and construction — *partial*. Compile-time lists of extents; agreement with the run-time functions by induction. Model: Tensor, TensorMul, TensorStatic. Proofs: TensorFixed. Refuted: at(i1,i2,...) of a static tensor does not check its indices (documented to); a vector of length one is accepted for any static tensor of vector shape and leaves the other elements indeterminate.
* **C92** compressed_matrix_view shows the matrix stored in the caller's arrays — *partial*. The view's binary search over caller-owned arrays with index base; equality with the compressed_matrix model. Model: Search, SparseView. Proofs: SparseView. The view checks no index, even in debug builds (refuted: a column outside reads zero, a row outside leaves the arrays); arrays of a compressed_matrix without complete_index1_data are not complete storage (refuted by a counterexample).
* **C93** A matrix seen as a vector of its rows or columns — *proved*. Row/column proxies of an arbitrary matrix as elements of a sequence; iterators as positions. Model: MatrixVector. Proofs: MatrixVector. Over a dense matrix.
* **C94** Printing a tensor shows every element once in reading order — *partial*. The recursive printer; output determined as a function of the element list. Model: Tensor, TensorOut. Proofs: TensorOut. Refuted: a tensor of rank one with two or more elements throws std::out_of_range, and a default-constructed tensor leaves its extents. Token level: how one element is written is left to the element type.
* **C95** real, imag and conj of tensor expressions — *partial*. Element-wise evaluation over two tensors of possibly different layouts, by multi-index and by position as the code does; comparisons of extents. Model: TensorMap. Proofs: TensorMap. Proved for every expression over tensors of one layout with fewer than 2^32 elements. Refuted for 2^32 or more elements: the unsigned int loop counter wraps around and the call never returns.
* **C96** Self-checks of debug builds: assignment never raises a false alarm — *proved*. The BOOST_UBLAS_TYPE_CHECK code around the operations (shadow copies, equality up to rounding, internal_logic); shown not to fire in exact arithmetic, or a witness where it does. Model: Layout, TypeCheck. Proofs: TypeCheck. The comparison is a parameter (Sound: it accepts equal results), instantiated with the exact one and with the headers' norm_inf(a-b) <= eps * max(norms, min_norm) rule. C96_triangular: accepted iff nothing outside the triangle is lost, else external_logic.
* **C97** Self-checks of debug builds: LU factorisation and substitution — *partial*. The BOOST_UBLAS_TYPE_CHECK code around the operations (shadow copies, equality up to rounding, internal_logic); shown not to fire in exact arithmetic, or a witness where it does. Model: LUCheck. Proofs: LUCheck. Square matrices: the self-check always passes. Refuted for rectangular ones: the check multiplies two adaptors of the rectangular matrix, whose inner sizes differ, so a debug build raises bad_argument for every factorisable non-square matrix.
* **C98** Self-checks of debug builds: axpy_prod and opb_prod — *partial*. The BOOST_UBLAS_TYPE_CHECK code around the operations (shadow copies, equality up to rounding, internal_logic); shown not to fire in exact arithmetic, or a witness where it does. Model: AxpyCheck, Layout. Proofs: AxpyCheck. Exact arithmetic in the comparison. Refuted for axpy_prod with a triangular restriction into a sparse matrix: the check compares with the unrestricted product and raises internal_logic whenever the product is non-zero outside the restriction.
* **C99** array_adaptor: own or borrowed storage — *proved*. Own/borrowed flag and the heap model of C16; effects of resize, assignment and swap on the external array. Model: ArrayAdaptor, Storage. Proofs: ArrayAdaptor. On an explicit heap that also holds the program's arrays; pointers handed over are starts of program arrays that live as long as the adaptor.
* **C100** Element references of sparse containers — *proved*. Element proxies as (container, index) with deferred look-up; laws for every container of the sparse family and any history of other element operations between taking and using a proxy. Model: ElementProxy, Layout, Packed. Proofs: Additions, ElementProxy. The strict proxies (sparse_vector_element, sparse_matrix_element), which are the default; the statements combine at most two elements of one container each. std::map of the mapped containers is either map_array or std::map.
* **C101** Value arguments taken from the container itself — *partial*. The value argument is a pointer into the container's own memory and is read when the code reads it. Model: SelfInsert, SelfInsertCoo, SelfScalar. Proofs: SelfScalar, SelfInsert, SelfInsertCoo. Refuted: elements visited after v(k) are combined with its new value; insert_element into compressed containers reads the value after shifting (another element's value) or after freeing it (capacity exhausted). The exact behaviour is proved for every case. Coordinate containers: right with room and a reference just obtained; refuted when the debug duplicate check sorts in between, or without room.
* **C102** Element references of hermitian matrices — *partial*. Hermitian element proxies that load on construction and store on destruction; block semantics for statements with several live proxies. Model: HermitianProxy. Proofs: HermitianProxy. Refuted: m(i,j) = m(j,i) = x leaves m(i,j) = conj x when the right operand is evaluated first (C++17); two names of one element, or of an element and its mirror image, lose updates. Everything else proved.
* **C103** Builds with Duff's device compute the same as the plain loops — *partial*. The DD macro as a jump into an unrolled do-while with an unsigned counter of W values; number of executions of the body for every size. Model: Duff. Proofs: Duff. Equal for positive sizes up to d times the range of unsigned. Refuted: with size 0 the body runs d*2^32 times and reads an element that does not exist; sizes above d*2^32 are cut short.
* **C104** unbounded_array keeps its guarantees when an allocation or an element operation throws — *partial*. unbounded_array over a heap whose cells may hold no object, with an arbitrary set of failing allocation and element events; weakest-precondition proof of every operation with a normal and an exceptional postcondition, then induction over histories that catch exceptions. Model: ExcStorage. Proofs: ExcStorageMain. Allocation failures: strong guarantee and no leaks, proved for every history. Element failures: refuted for resize with a changed size (destroying the array afterwards destroys elements never constructed) and for leaks in throwing constructors; proved for everything else.
* **C105** A container survives a failed allocation — *partial*. The statements of resize, reserve, operator = and insert_element in source order over the container models, in a monad whose exception returns the members as they are; equality with the failure-free models, and the state after every failing allocation. The sparse containers (Model/ExcSparse) likewise; for the coordinate matrix the two index arrays are one allocation. Model: ExcContainers, ExcSparse. Proofs: ExcNothing, ExcInsert, ExcContainers, ExcSparse. Resizing dense, packed and banded matrices and assigning expressions: strong guarantee proved. Refuted: copy assignment sets the dimensions before the storage is obtained (reads outside the array afterwards); compressed_vector, compressed_matrix and the coordinate containers set capacity_, sizes and filled counts before their arrays are resized (a retried insertion writes outside the arrays, reads after a failed assignment are outside the arrays). Proved for them: after a failed reserve every element reads as before; a failed compressed_matrix resize can be repeated.
* **C106** Tensors are values: construction, copy, move and assignment — *partial*. Programs over named tensors (constructors, copy, move, assignment, swap, fill, element writes, element-wise evaluation in any order) against a table of abstract values; induction over the program, for both kinds of extents. Model: Tensor, TensorLife. Proofs: TensorLife. Dynamic extents: proved for every program. Fixed number of extents: refuted for moved-from tensors (extents stay, elements are gone), for copies of default constructed tensors in builds with assert, and for construction of a one-extent tensor from a vector (always throws); proved for programs that avoid these.
* **C107** Debug builds refuse indices outside the container — *partial*. Reads, writes and insertions with an index outside, in the debug variant (dbg = true) of the models of C01-C30, C60, C71, C78; histories as in C19, C21, C24, C26, C60. Proved from the checks for dense, structured and view accesses and from the invariants of the histories for sparse containers; refutations for every container whose debug checks miss a case. Model: CArray, PackedAdaptor, Select, SymAdaptor. Proofs: OutOfRange. Proved for dense, structured and coordinate vectors, all views and adaptors, mapped_matrix. Refuted: mapped_vector::insert_element and coordinate_matrix accept elements outside; compressed_matrix reads (zero) and writes (stored) outside columns; compressed_vector::insert_element on a full vector and vector_of_vector::insert_element one line past the end have undefined behaviour in debug builds. See also C87_unchecked_refuted (map of maps) and C78_rejects (dense vector_of_vector).
* **C108** The build mode does not change results — *partial*. The debug (dbg = true) and release (dbg = false) variants of the container, view and adaptor models compared call by call. Agrees in Spec/BuildModes.lean; one lemma per modelled function, in Lemmas/BuildModes{A,B,C}.lean, lifted to histories by induction. Not covered: the algorithms (products, solvers, LU) and the BOOST_UBLAS_TYPE_CHECK code of C96-C98. Model: Banded, CArray, CompressedMatrix, CompressedVector, Coo, Dense, DenseVV, Layout, MapArray, MapOfMaps, Mapped, Packed, PackedAdaptor, Select, SymAdaptor, VectorOfVector. Proofs: BuildModes. Proved for every container except the coordinate ones, whole histories from any state. Coordinate containers: refuted, insert_element sorts and sums duplicates in debug builds only, so nnz () differs; proved for histories without insert_element, and for element values in legal histories with it.
* **C109** Sizes and addresses are exact in 64-bit arithmetic, or refused — *partial*. Model/Machine64.lean repeats the size and address functions over BitVec 64 with wrapping operators (std::max, lower_element, packed_size, band index, capacity restriction, map keys, tensor product, strides and offsets) and each is compared with the natural-number model used by the other properties; so those models are justified for all representable sizes. Range and slice arithmetic is already modulo 2^64 in Model/Select.lean. Model: Layout, Machine64, Packed, Tensor. Proofs: Additions, Machine64. Packed matrices below 2^32, capacities and debug-mode map keys: proved. Refuted: banded_matrix and tensors accept sizes whose cell count wraps (no check in any build); mapped_matrix in release builds shares one key between different elements. Proved for those when the count is below 2^64. C02 and C03 cover dense storage and triangular_size.
* **C110** Assigning to a matrix or matrix view uses the right-hand side's values from before the assignment — *partial*. Model/MatrixAlias.lean: temporaries as dense/compressed matrices built by the assignment of Model/MatrixAssign; right-hand sides are functions of the old contents (with temporary) or lazily evaluated on the current array (noalias, copy assignment of views). Proof: C68 on the temporary and on the target; for the lazy forms an invariant over the lexicographic order of assignment; refutation by evaluating the model on a 3 x 3 matrix. Model: Blocked, MatrixAlias. Proofs: MatrixAlias. The forms with a temporary are proved for every right-hand side (any function of the old contents); noalias and the copy assignment of views under the condition that no cell is read after it was overwritten (for ranges: the source does not begin before the target, or the blocks are disjoint).  The copy assignment of overlapping ranges and slices is refuted.
* **C111** OpenCL transposition for every interleaving — *partial*. Model/OpenCL.lean: device memory as buffers, kernels as sets of work items (read cells one by one, then write one cell), executions as arbitrary interleavings of the items, 32-bit kernel indices. Proof: a kernel whose items write distinct cells inside their buffers and read no cell another item writes gives the same result in every complete interleaving (Lemmas/OpenCL.lean, invariant over the schedule); the transposition kernel is such a kernel. Counterexamples for in-place use, non-default size types and 2^32 elements. Model: OpenCL. Proofs: OpenCL. Proved for row_major/column_major, fewer than 2^32 elements and result different from the argument, for every interleaving. The rest is false of the code: in place the outcome depends on the schedule (no assertion), a row-major layout with other size types is treated as column-major, indices are 32-bit.
* **C112** OpenCL products for every interleaving — *partial*. Model/OpenCL.lean: fill, change_layout of the second operand into an uninitialised temporary, clBLAS gemm (external, by its documented effect, one item per element). Proof: as C111 for each launch, leading dimensions related to the layout functions. Counterexamples for results that are operands or have other sizes. Model: OpenCL. Proofs: OpenCL. Proved for row_major/column_major operands (also mixed) and a result of the right size in its own buffer; clBLAS gemm is modelled by its documented effect, one item per element of the result, any interleaving. False when the result is an operand (it is zeroed first) and for a host result of another size (not resized, overrun).
* **C113** OpenCL element-wise operations for every interleaving — *partial*. Model/OpenCL.lean: Boost.Compute transform as a kernel. Proof: as C111; in place an item reads only the cell it writes. Counterexamples for mixed layouts and smaller results. Model: OpenCL. Proofs: OpenCL. Proved, also in place, for operands and result of one orientation and size. False for operands of different layout, which the template accepts and pairs by memory position, and for a smaller result, whose size is not checked (overrun). The device version of element_sub (matrix, matrix, result) (opencl/elementwise.hpp:226-233) passes its arguments in the wrong order and does not compile.
* **C114** Concurrent reading of a shared container — *partial*. Model/Threads.lean: member functions as programs of single memory accesses (each read or write of one size_type or one element is one step), threads run by an arbitrary schedule. Proof: invariant that every thread sees at its footprint the memory it would have alone (execute_ok); each program computes what the sequential model computes (Conf). Simplified: sequentially consistent, atomic cells; assertions of storage_invariants in coordinate_vector::sort omitted; coordinate_vector: the insertion without reallocation. Model/ThreadsCoordMat.lean: coordinate_matrix with its three arrays. Model: Threads, ThreadsCoordMat, ThreadsHerm, ThreadsPacked. Proofs: Threads, ThreadsPacked, ThreadsHerm, ThreadsCoordMat. Dense vector and matrix, triangular, symmetric, hermitian and banded matrix, compressed_vector and compressed_matrix: proved for every reachable container, every set of reading threads and every interleaving. coordinate_vector and coordinate_matrix: proved when already sorted; false otherwise (const readers sort the mutable arrays: a schedule of two readers is exhibited in which one obtains a wrong value). A memory access is one atomic step (sequential consistency).
* **C115** Threads working on different elements of one container — *partial*. Model/ThreadsPacked.lean adds vector, triangular, symmetric and banded matrices, Model/ThreadsHerm.lean hermitian ones (Spec/ThreadsMirror.lean: what a program does when an element has two names). As C114 with the footprint of a thread = the cells of its own elements plus the read-only index arrays; cells of different elements are different by C01 (dense) or by sortedness (compressed). The counterexample runs two inserting threads under a concrete schedule. Model: Threads, ThreadsHerm, ThreadsPacked. Proofs: Threads, ThreadsPacked, ThreadsHerm. Dense vectors and matrices, triangular and banded matrices: proved for every interleaving. symmetric_matrix and hermitian_matrix: proved when every element is used under one of its two names, and when one thread owns both names and uses either; false when two threads own the two names of one element. compressed_vector: proved for elements that are already stored; false when threads assign to different elements that are not stored (insertion shifts the shared arrays: a lost update is exhibited).
* **C116** Saving and loading a container restores it — *proved*. `serialize` is one template for both directions, so the model is one program per container, run over an archive that is saving or loading. A relation `Tr` ties the saving run from x to the loading run into an arbitrary y and composes along the statements; the reachable states come from the invariants of C19-C27, C60, C87. Model: MapOfMapsIter, Serialize. Proofs: Serialize, SerializeFixed. Archives are sequences of primitive values; the serializers of built-in arrays and std::map (external) are modelled by their documented effect. A std::array is written as a built-in array.
* **C117** A damaged archive leaves a usable container — *partial*. Hoare-style rule `Keeps` (normal and exceptional postcondition) over arbitrary tapes for the safe containers; explicit truncated or inconsistent tapes, followed by one element read, for the others. Model: MapOfMapsIter, Serialize. Proofs: Serialize, SerializeFixed. Proved for vector, bounded_vector, c_vector, the constant containers and the mapped containers over std::map (element access). False as stated: matrix, vector_of_vector, the compressed and the coordinate containers set sizes and counts before the arrays are read, so a truncated archive leaves a container whose elements have no storage (undefined behaviour on the next read); c_matrix does not compare the sizes with its extents; map_array keeps stale keys; mapped_vector_of_mapped_vector loses its sentinel line. Allocation failure while loading is not modelled.
* **C118** fixed_vector and fixed_matrix behave as vector and matrix of constant size — *partial*. fixed containers over a list of constant length: the vector/matrix assignment machinery (VT/MT targets) with a relational history specification `Hist`/`MHist`; mismatches by case analysis on the dispatched variant; iterators reuse C49 (identical text). Model: Fixed, MatrixAssign, Prod. Proofs: Fixed. Everything is proved for histories whose right-hand sides have the right size. False of the code: without checks an expression of another size is not refused (a shorter one is read outside its storage, a longer one is cut), and fixed_vector::empty () returns a const bool & bound to the temporary that std::array::empty returned, so reading it is undefined. fixed_matrix::operator= (const matrix_container &) calls a member resize that does not exist; it cannot be instantiated and is not modelled.
* **C119** Random-access iterators behave like positions — *partial*. records of iterator operations (RVec) per container, closed under proxies, expressions and reversal; specification: positions and sequences of moves; a relation At k p preserved by every operation, composed by induction over the nesting of proxies and expressions; 64-bit counters by modular arithmetic. Model: RandomAccess, Select. Proofs: RandomAccess. Proved: moves, comparisons, index, element and subscript for all these iterators and their reverses, every difference except negative ones along a line that strides over storage, and bad_index at the end. False of the code: distance_i/distance_j divide a signed offset by an unsigned size, so a negative difference of row-major iterator1 (column-major iterator2) is a huge number; vector::iterator::operator [] does not check (its documentation says it does); * at the end of a contiguous matrix row or column passes the index checks and reads the next line.
* **C120** Generic major/minor loops visit a dense matrix in storage order — *proved*. Model/Oriented.lean: orientation category, dimension tags, the dispatch of size/begin/end by tag and orientation, trans as an iterator adaptor that exchanges the axes; the loop is the one of Model/ProxyIter.lean. Proof: traversing trans(X) along an axis is traversing X along the other axis with exchanged indices (any X), then induction on the number of transpositions from the dense traversal theorem of C83. Model: Oriented. Proofs: Oriented. Constness of iterators is not distinguished. For proxies the leading size is the one of the proxy (an example in Props/Oriented.lean), so it is not the distance between lines in storage; the property does not claim it.
* **C121** Index labels of the Einstein notation match by value — *partial*. Model/MultiIndex.lean: the template recursions as recursions over lists of numbers, the array of index_position_pairs with its unchecked writes, multi_index with its static assertions as refusal by the compiler, array_to_vector as two loops. Spec/MultiIndex.lean lists the matching pairs of positions. Proof by induction over the tuples; the pair writer is shown to fill exactly the array that number_equal_indexes announces. C121_einstein links the functions to the model of C73. Model: MultiIndex. Proofs: MultiIndex. Everything is proved except array_to_vector for multi-indices of different sizes, where the claim is false: the two loop bounds are exchanged and the call throws std::out_of_range, whatever the labels.
* **C122** Copies of shallow_array_adaptor share their elements and the memory lives exactly as long as needed — *proved*. Model/ShallowAdaptor.lean: shared_array as a reference to a control block (count, deleter, array) on the heap of Model/Storage; every member of the class, including the local shared_array of resize_internal and its destruction. Spec/ShallowAdaptor.lean: names denote prefixes of arrays that never go away. Proof: a representation invariant - every control block counts exactly its owners (named adaptors and locals), no two blocks release one array - preserved by retain, drop, new and writes; induction over the history. Model: ShallowAdaptor, Storage. Proofs: ShallowAdaptor. The class exists only with BOOST_UBLAS_SHALLOW_ARRAY_ADAPTOR. boost::shared_array is modelled by its documented reference counts; a pointer handed over is the start of an array of the program; std::copy of an array onto itself is a no-op; new does not throw.
* **C123** OpenCL operations refuse operands that do not match — *partial*. The checks of Model/OpenCL evaluated before the kernels; for results an overrun theorem: a kernel with an active item whose target cell is outside its buffer has undefined behaviour in every complete schedule (induction over the schedule). Model: OpenCL. Proofs: OpenCL. Operand mismatches are refused by all operations. Refuted: element_wise (and element_add, element_prod, element_div built on it) never looks at the size of the result; with a smaller result every schedule writes behind the end of its buffer, also in debug builds.
* **C124** Indexed-iterator builds: iterators are random-access iterators over the elements — *partial*. Model/IndexedIter: the counter iterators with the find of every class; the RandomAccess specification of C119 is reused. Induction over the expression for ranges starting at 0; general counterexample theorems for every range with a positive start. Model: IndexedIter, RandomAccess, Select. Proofs: IndexedIter. Proved for every expression whose ranges start at 0 (unlike the default build, differences of both signs and the end of every line are right). Refuted: every non-empty vector_range, basic_range and matrix_range with a start above 0 hands out iterators whose counter is the index in the container behind but is used as an index of the range: wrong elements, then bad_index (or reads outside in release builds).
* **C125** Tensors combined with vectors — *partial*. The vector operand is a node of the tensor expression of C72, read by position; for short vectors induction over the schedule up to the first position outside. Model: Tensor, TensorExpr. Proofs: TensorMixed. Proved for vectors with as many elements as the tensor, any tensor expression of one layout, any schedule, fewer than 2^32 elements. Refuted: the size of the vector is never compared; a shorter one is read behind its end (bad_index in the middle of the loop, or undefined behaviour), a longer one is cut.
* **C126** Matrices stored as an array of coordinate vectors add up appended elements and stay consistent through any history — *partial*. The line invariant of C60 with the coordinate vectors of C21 as lines: representation invariant for all histories with one sorted bit per line; a sorted line has the arrays of a compressed vector, so the walk along it is the one of C60. Model: CMatIter, CompressedMatrix, CompressedVector, Coo, Layout, Mapped, Search, VectorOfVector, VoVCoord. Proofs: VoVCoord. Proved for every history in which a preserving resize to fewer lines finds the first line it drops sorted. Refuted otherwise in debug builds: that line keeps sorted_ = false with no elements and its consistency check fails.
* **C127** is_symmetric and is_hermitian decide symmetry, and the symmetric and hermitian containers against them — *proved*. The two loops of the predicates, by induction on the rounds left; the containers through C09 and C10. Model: Predicates. Proofs: Predicates. Proved in full. The last theorem is an example of a hermitian_matrix which is not hermitian: a diagonal element that is not its own conjugate is stored as given.
* **C128** Comparing tensor expressions with a scalar and with each other — *partial*. The loop of the unary comparison by induction; the operand becomes a tensor by the construction of C72. Model: TensorCompare. Proofs: TensorCompare. Proved: the six relations with a scalar on either side, for every tensor expression of one layout with fewer than 2^32 elements; two expressions of one layout. Refuted: != is true only if every element differs, so == and != can both be false; from 2^32 elements on the unsigned counter of the comparison wraps around and it never ends.
* **C129** The iterators of a c_matrix behave like positions — *partial*. The laws of C119 for offsets c + k * stride, with the capacity as the divisor of the index functions. Model: CArrayIter. Proofs: CArrayIter. Proved: everything for rows, and for columns everything but negative differences; the end of columns and of rows shorter than the capacity is noticed. Refuted: the signed offset between two iterator1 is divided by the unsigned capacity, so a negative difference is a huge number; the end of a row as long as the capacity passes the checks of * and reads the next row.
* **C130** at_element names the element — *partial*. Model/AtElement.lean: at_element of triangular, symmetric and hermitian matrices as an assignment through the returned reference; compared with the reads of Model/Packed.lean. Proof: different stored positions have different cells (cellOf_inj), positions outside the structure are refused by the checks of lower_element. Model: AtElement, Layout, Packed. Proofs: Additions, AtElement. Triangular: proved. Symmetric and hermitian: proved for the stored triangle; in the other triangle symmetric_matrix::at_element throws (checks on) or changes an unrelated element (checks off), and hermitian_matrix::at_element throws. In dense, fixed and banded matrices operator () and at_element are one piece of code (C04, C11).
* **C131** Reductions on the device return what the host functions return — *partial*. Model/OpenCLReduce.lean: memory as real words, the clBLAS reductions by their documented effect (result written as one real word, no event for an empty vector), the type dispatch and the result buffer of the code. Sums by loop invariant; exact result for complex elements in terms of the uninitialised word. Model: OpenCLReduce. Proofs: OpenCLReduce. Proved for non-empty vectors of real elements, and inner_prod for all; refuted for empty vectors (every type, every memory) and for the imaginary part of complex results (exact result given). clBLAS and Boost.Compute by their documented effect.
* **C132** Containers are values — *partial*. Model/Values.lean: copy constructor, operator = and swap of each container field by field (arrays element by element, lines of a vector of vectors by the operators of compressed_vector), and the programs made of them over numbered variables. One lemma reduces any program to six laws per container; the laws rest on the step lemmas of C04-C11, C19-C25, C60. Model: Values. Proofs: Values. Proved for matrix, triangular, banded, symmetric, compressed, coordinate and vector-of-compressed-vector containers and the mapped ones over std::map; hermitian with erase_element at stored positions; over map_array without copy construction, which is refuted. unbounded_array itself, on which vector rests, is C16.
* **C133** A dense vector is the list of its elements — *partial*. Model/Vector.lean: every member of vector over an abstract storage array, instantiated with unbounded_array (a list; its heap is C16) and bounded_array (buffer and size), the element-wise assignments by index and by iterator, and programs over many vectors (Model/Values.lean). Spec/Vector.lean: lists of optional elements. Proved by loop invariants over the laws of the two arrays; the documented zero initialisation refuted. Model: Vector. Proofs: Vector. Proved with elements nobody wrote left unspecified; refuted: the documented zero initialisation of vector (n) for trivially constructible elements.
* **C134** A dense matrix is the table of its elements — *proved*. Model/Table.lean: every member of matrix over the abstract storage arrays of C133, with layouts as offsets (Model/Layout.lean), the element-wise loops by index and by nested iterators, resize_preserve, and programs over many matrices (Model/Values.lean). Spec/Table.lean: tables of optional elements, no addresses. Proved by a loop invariant along the major/minor order and injectivity of the layout. Model: Layout, Table. Proofs: Table. Elements nobody wrote are left unspecified; the documented zero fill is refuted at C05.
* **C135** Element references of a strict map_array — *partial*. Model/StrictMap.lean: sparse_storage_element (copy of the element, index, dirty flag), its constructor from an index, destructor and swap, and statements with two references in either order of evaluation and destruction, over Model/MapArray.lean. Spec/StrictMap.lean: plain references on a partial function. Proved by refinement per statement and induction over programs; the delayed write refuted. Model: StrictMap. Proofs: StrictMap. Proved for all statements that do not use, through a second reference, an element they have just changed; for those refuted.

## Which parts of the code are modelled and which are not

| header | modelled | not modelled |
|---|---|---|
| functional.hpp | layouts (basic_row/column_major, lower/upper and their strict/unit forms), scalar functors through parameters, inner products, products, norms, index functors | SIMD and bindings branches (`BOOST_UBLAS_USE_SIMD`, `BOOST_UBLAS_HAVE_BINDINGS`), container overloads of prod that do not compile, type computations |
| vector.hpp, matrix.hpp | vector, matrix: constructors, element access, insert/erase/clear, resize, assignment and swap (as targets), iterators and reverse iterators; vector_of_vector-based matrix; unit/zero/scalar vectors and matrices; c_vector, c_matrix | serialisation, initializer lists, move semantics branches, `BOOST_UBLAS_USE_INDEXED_ITERATOR` mode; bounded_* and fixed_* only as dense containers over their storage |
| vector_proxy.hpp, matrix_proxy.hpp | range, slice, indirect, row, column, matrix_range/slice/indirect, matrix_vector_range/slice/indirect: element access, assignment as targets, iterators over dense, packed and sparse bases | lifetime of proxies held by iterators; the function templates `project`/`subrange` beyond their index computation |
| triangular.hpp, symmetric.hpp, hermitian.hpp, banded.hpp | the matrices and the adaptors: access, writes, resize, iterators; triangular solve; element proxies of hermitian matrices | serialisation; converting constructors of adaptors' iterators that do not compile |
| vector_sparse.hpp, matrix_sparse.hpp | mapped, compressed, coordinate vectors and matrices: all element operations, resize, reserve, clear, push_back/pop_back, sort, find, iterators, element proxies; mapped_vector_of_mapped_vector; conversion from coordinate to compressed | serialisation; mutable iterators' dereference of mapped and coordinate matrices (through at_element) |
| storage.hpp | unbounded_array, bounded_array, array_adaptor, range, slice, indirect_array, index_pair_array swap semantics used by sort; unbounded_array when allocations or element operations throw (C104) | shallow_array_adaptor (enabled only by a macro), allocator rebinding, `BOOST_UBLAS_CHECK`-free reverse iterators of arrays |
| storage_sparse.hpp | map_array, map traits' reserve/capacity | sparse_storage_element (STRICT_MAP_ARRAY is off by default) |
| vector_expression.hpp, matrix_expression.hpp | unary, binary, scalar, transposed, outer product, product expressions: element access, sizes, iteration incl. the binary sparse iterators, norms, index norms | iterators of product expressions beyond element access (each dereference evaluates the product already modelled); complex overload of trans |
| detail/vector_assign.hpp, detail/matrix_assign.hpp | every assign, assign_scalar and swap loop; type checks | restricted conformance dispatcher (1373–1386) |
| detail/duff.hpp | DD | – |
| detail/iterator.hpp | reverse iterators; the comparison and arithmetic operators derived by the CRTP bases, through the containers' iterators | `indexed_iterator`, `indexed_iterator1/2` and their const forms (only used with BOOST_UBLAS_USE_INDEXED_ITERATOR) |
| operation.hpp, operation_blocked.hpp, operation_sparse.hpp, blas.hpp, lu.hpp | all algorithms | block_prod's own self-check |
| vector_of_vector.hpp, matrix_vector.hpp, experimental/sparse_view.hpp | containers, look-ups, iterators, element access | the empty iterator classes of compressed_matrix_view |
| assignment.hpp, io.hpp | assigners, manipulators, traversal policies; printing and parsing of vectors, matrices and symmetric matrices | locales, number formatting |
| traits.hpp, exception.hpp | promote/real traits through the scalar parameters, same_impl, exceptions as faults | type-level code |
| tensor/* | extents (dynamic, static rank, static), strides, multi-index, access functions, copy/transform/trans/accumulate, ttv/ttm/ttt/inner/outer, Einstein products, expressions, comparison, arithmetic, printing, reshape, real/imag/conj, constructors, copy, move, assignment | concepts, tensor_core's constructors' overload resolution, allocator choice, fixed_rank_strides (`#if 0`) |
| detail/config.hpp, definitions.hpp, fwd.hpp, tags.hpp, expression_types.hpp, returntype_deduction.hpp, concepts.hpp, documentation.hpp, traits/*, operation/* | the default configuration choices are recorded in the models | type-level or forwarding code without run-time behaviour |
| detail/raw.hpp | – | raw addressing for external libraries (included nowhere; its stride1/stride2 call `functor_type::one1/one2`, which do not exist) |
| opencl/{matrix,vector,transpose,prod,elementwise,misc}.hpp | C111–C113, C123, C131: device trans, change_layout, prod, outer_prod, element-wise operations, host versions, all interleavings of work items; reductions | complex types, device handles and kernel compilation, clBLAS and Boost.Compute internals |


### Which model files cite which header (citations carry the line numbers)

* `algorithms.hpp`: TensorAlg (11)
* `assignment.hpp`: Assigner (25)
* `banded.hpp`: Banded (11), ExcContainers (2), Machine64 (3), PackedAdaptor (13), PackedIter (6), ProxyIter (2), ThreadsPacked (5), Values (1)
* `begin.hpp`: Oriented (2)
* `blas.hpp`: Blas (28), BlasSwap (3)
* `config.hpp`: AxpyCheck (1), Duff (1), ElementProxy (1), HermitianProxy (1), LU (1), LUCheck (1), Packed (1), Prod (1), TypeCheck (2)
* `conj.hpp`: TensorMap (2)
* `definitions.hpp`: MatrixAlias (1), VectorTargets (2)
* `duff.hpp`: Duff (3)
* `elementwise.hpp`: OpenCL (7)
* `end.hpp`: Oriented (2)
* `exception.hpp`: Predicates (1), Prod (1), ProxyIter (1), RandomAccess (1), Threads (1)
* `expression.hpp`: TensorExpr (4)
* `expression_evaluation.hpp`: TensorExpr (6), TensorLife (1)
* `extents_dynamic_size.hpp`: Tensor (1), TensorLife (3), TensorStatic (2)
* `extents_functions.hpp`: Machine64 (3), Tensor (6), TensorStatic (6)
* `extents_static.hpp`: TensorStatic (2)
* `extents_static_functions.hpp`: TensorStatic (18)
* `extents_static_size.hpp`: Tensor (1), TensorLife (4), TensorStatic (2)
* `functional.hpp`: AxpyCheck (1), CMatIter (1), DenseIter (2), DenseVV (3), Duff (2), IO (1), Layout (14), Machine (8), Machine64 (5), MappedIter (1), MatrixAlias (1), MatrixTargets (2), Norms (13), OpenCL (2), Oriented (1), Packed (16), PackedAdaptor (1), PackedIter (12), Prod (13), RandomAccess (3), ScalarAssign (1), SelfScalar (1), Swap (1), SymAdaptor (3), Table (2), Threads (1), TypeCheck (2), VectorAssign (4), VectorOfVector (1)
* `fwd.hpp`: Oriented (1)
* `hermitian.hpp`: AtElement (1), ExcContainers (2), HermitianProxy (16), Packed (12), Predicates (4), ProxyIter (1), SymAdaptor (19), ThreadsHerm (5), Values (1)
* `imag.hpp`: TensorMap (2)
* `index.hpp`: MultiIndex (3)
* `index_functions.hpp`: Machine64 (1), Tensor (1)
* `init.hpp`: TensorStatic (3)
* `inner_prod.hpp`: TensorMul (1), TensorStatic (1)
* `io.hpp`: IO (20)
* `iterator.hpp`: Expr (1), IndexedIter (3), ProxyIter (1), RandomAccess (5), SymAdaptor (1), Vector (1), VectorOfVector (1)
* `iterator_type.hpp`: Oriented (1)
* `layout.hpp`: TensorLife (1)
* `library.hpp`: OpenCLReduce (1)
* `lu.hpp`: LU (28), LUCheck (8)
* `matrix.hpp`: Banded (1), Blas (2), Blocked (3), CArray (11), CArrayIter (4), Constant (22), Dense (13), DenseIter (8), DenseVV (23), ExcContainers (3), Fixed (19), IO (1), IndexedIter (1), MatrixAlias (6), MatrixTargets (2), OpenCL (5), Operands (2), Operation (2), Oriented (5), PackedAdaptor (3), ProxyIter (1), RandomAccess (1), Serialize (8), Solve (1), SymAdaptor (7), Table (24), Threads (3), Values (1)
* `matrix_assign.hpp`: Duff (6), LU (2), MatrixAlias (6), MatrixAssign (25), MatrixTargets (2), ScalarAssign (6), SelfScalar (6), Swap (10), Table (6), TypeCheck (4)
* `matrix_expression.hpp`: Blas (4), Blocked (3), Constant (2), Expr (11), MatrixAlias (1), Operation (1), Oriented (6), Prod (11), VectorTargets (1)
* `matrix_proxy.hpp`: Blocked (2), IndexedIter (3), LU (2), MatrixAlias (6), MatrixRange (3), MatrixVector (2), Operation (1), Oriented (1), ProxyIter (12), RandomAccess (3), Select (12), Swap (2), VectorTargets (2)
* `matrix_sparse.hpp`: Assigner (1), CMatIter (19), CompressedMatrix (21), Coo (31), CooToCMat (3), CoordIter (4), ElementProxy (11), ExcSparse (7), Machine64 (3), MapOfMaps (2), MapOfMapsIter (8), Mapped (13), MappedIter (7), MatrixAlias (2), MatrixTargets (3), Operands (1), Operation (1), ProxyIter (1), SelfInsert (1), SelfInsertCoo (2), Serialize (7), Solve (1), Threads (3), ThreadsCoordMat (9), Values (10)
* `matrix_vector.hpp`: MatrixVector (13)
* `misc.hpp`: OpenCLReduce (8)
* `multi_index.hpp`: MultiIndex (4)
* `multi_index_utility.hpp`: MultiIndex (8), TensorEin (3)
* `multiplication.hpp`: TensorMul (20)
* `norm.hpp`: TensorAlg (1)
* `num_columns.hpp`: Oriented (1)
* `num_rows.hpp`: Oriented (1)
* `operation.hpp`: AxpyCheck (10), LU (1), Operation (19)
* `operation_blocked.hpp`: Blocked (5)
* `operation_sparse.hpp`: SparseProd (7)
* `operators_arithmetic.hpp`: TensorEin (2), TensorExpr (4)
* `operators_comparison.hpp`: TensorCompare (7), TensorExpr (4), TensorStatic (1)
* `ostream.hpp`: TensorOut (4)
* `outer_prod.hpp`: TensorMul (1)
* `prod.hpp`: OpenCL (10), OpenCLReduce (2)
* `real.hpp`: TensorMap (2)
* `reshape.hpp`: Tensor (1)
* `size.hpp`: Oriented (2)
* `sparse_view.hpp`: SparseView (10)
* `storage.hpp`: ArrayAdaptor (15), Blocked (1), Coo (1), Dense (2), DenseVV (1), ExcContainers (3), ExcStorage (22), IndexedIter (1), MatrixRange (1), ProxyIter (7), RandomAccess (3), Search (2), Select (21), SelfInsert (1), Serialize (4), ShallowAdaptor (23), Storage (25), ThreadsPacked (2), Values (9), Vector (2)
* `storage_sparse.hpp`: Coo (1), MapArray (18), Mapped (5), MappedIter (2), Search (1), Serialize (2), StrictMap (8), Threads (2), ThreadsCoordMat (1), Values (1)
* `symmetric.hpp`: AtElement (1), ExcContainers (2), IO (2), Packed (10), Predicates (4), ProxyIter (2), SymAdaptor (19), ThreadsPacked (4), Values (1)
* `tags.hpp`: Oriented (1)
* `tensor_dynamic.hpp`: Tensor (6), TensorEin (1), TensorExpr (2), TensorLife (12)
* `tensor_static.hpp`: TensorStatic (6)
* `tensor_static_rank.hpp`: TensorLife (12)
* `tensor_times_matrix.hpp`: TensorMul (1)
* `tensor_times_tensor.hpp`: TensorMul (4)
* `tensor_times_vector.hpp`: TensorMul (2)
* `traits.hpp`: MatrixRange (1), Norms (1), Prod (2), Solve (1), Swap (1), VectorAssign (2)
* `trans.hpp`: TensorAlg (2)
* `transpose.hpp`: OpenCL (5)
* `triangular.hpp`: AtElement (1), Blas (1), ExcContainers (2), MatrixTargets (1), Packed (9), PackedAdaptor (9), PackedIter (7), ProxyIter (3), Solve (21), ThreadsPacked (3), Values (1), VectorTargets (1)
* `vector.hpp`: CArray (11), Constant (13), Fixed (15), IndexedIter (2), OpenCL (4), Operands (1), Operation (3), ProxyIter (1), RandomAccess (4), Select (1), Serialize (7), TensorExpr (1), ThreadsPacked (3), Vector (19), VectorOfVector (3), VectorTargets (8), VoVCoord (3)
* `vector_assign.hpp`: Duff (4), LU (3), ScalarAssign (5), SelfScalar (5), Swap (7), TypeCheck (3), Vector (3), VectorAssign (20), VectorTargets (3)
* `vector_expression.hpp`: Blas (3), Expr (20), IndexedIter (2), Norms (3), Prod (4), RandomAccess (4), TypeCheck (1), VectorTargets (2)
* `vector_of_vector.hpp`: Serialize (1), Values (5), VectorOfVector (22), VoVCoord (18)
* `vector_proxy.hpp`: Blocked (1), IndexedIter (2), LU (1), Operation (1), ProxyIter (9), RandomAccess (4), Select (11), Swap (1), VectorTargets (5)
* `vector_sparse.hpp`: Assigner (1), Blas (1), CompressedVector (20), Coo (31), CoordIter (2), ElementProxy (11), ExcContainers (4), ExcSparse (3), Mapped (13), MappedIter (2), Operation (2), ProxyIter (1), SelfInsert (1), SelfInsertCoo (2), SelfScalar (1), Serialize (3), Threads (11), Values (13), VectorOfVector (5), VectorTargets (6), VoVCoord (6)

## Claims that are false of the code

Each has a theorem ending in `_refuted` or `_rejected_exactly` (the negation) or a named restriction, and theorems for the rest; the notes above say what exactly fails. Generated list of the properties with status `partial`: C03, C05, C08, C10, C13, C18, C23, C27, C28, C29, C34, C36, C39, C40, C43, C45, C47, C48, C49, C53, C54, C55, C57, C58, C59, C61, C62, C63, C64, C65, C66, C67, C70, C71, C72, C73, C75, C76, C77, C78, C79, C80, C81, C83, C85, C86, C87, C88, C89, C90, C91, C92, C94, C95, C97, C98, C101, C102, C103, C104, C105, C106, C107, C108, C109, C110, C111, C112, C113, C114, C115, C117, C118, C119, C121, C123, C124, C125, C126, C128, C129, C130, C131, C132, C133, C135.


## Observations outside the theorems

* Found while reading, not modelled: matrix_row_vector::crend() and the const operator[] of matrix_row/column_vector do not compile over mutable matrices; compressed_matrix_view has empty iterator classes; fixed_vector::empty() returns a reference to a temporary (vector.hpp:929–931); fixed_matrix::operator=(matrix_container) calls a resize that does not exist (matrix.hpp:1425–1429); remove_element_t never compiles, so static tensor-times-vector cannot be instantiated; converting constructors of tensor_static_rank and tensor_dynamic (157–163) are ill-formed; `BOOST_UBLAS_USE_SIMD` does not compile for matrices; the left form of lu_substitute(matrix_expression, m) cannot be instantiated; mapped_vector_of_mapped_vector::nnz() does not compile; the column-major default policy of assignment.hpp (line 889) names a type that does not exist; functional.hpp 866/1212 have an ill-formed cast.
* Formal undefined behaviour that is harmless on usual machines and is not counted as a fault: pointers formed past the end by find1(n, n), by the tensor printer's last increment and by end iterators of dense vector_of_vector columns (`null + j`).
* Proxies' iterators hold pointers to the proxy; a dangling proxy is outside the model. `const T& r = v(i)` on a sparse container binds to a temporary proxy's copy.
* detail/raw.hpp: `base(v) + start(v)` misses the start of an inner view; `leading_dimension` of a matrix_range is the range's own size; `size(vector_reference)` calls itself.
* block_prod leaves the type check disabled if it throws; its error bound reads uninitialised memory in debug builds.
* The sparse operations named `modify` in the models follow at_element; the strict proxies of the default configuration are C100.


## Axioms of each theorem

Output of `#print axioms` for every theorem named in MANIFEST.json (tools/mkaxioms.py). No theorem depends on any other axiom.

* **propext, Classical.choice, Quot.sound** (576 theorems): `Adaptor.C99_all_destroyed`, `Adaptor.C99_value_semantics`, `Assigner.C57_block_after_row_refuted`, `Assigner.C57_compressed_matrix`, `Assigner.C57_compressed_vector`, `Assigner.C57_dense_values`, `Assigner.C57_matrix`, `Assigner.C57_matrix_blocks`, `Assigner.C57_matrix_push_back_values`, `Assigner.C57_matrix_values`, `Assigner.C57_matrix_writes`, `Assigner.C57_move_left_refuted`, `Assigner.C57_no_wrap_blocks_refuted`, `Assigner.C57_push_back_values`, `Assigner.C57_vector`, `Assigner.C57_vector_values`, `Assigner.C57_vector_writes`, `Axpy.C33_compressed_vector`, `Axpy.C33_coordinate_vector`, `Axpy.C33_into_compressed`, `Axpy.C33_into_compressed_matrix`, `Axpy.C33_into_dense_matrix`, `Axpy.C33_matrix_matrix`, `Axpy.C33_matrix_vector`, `Axpy.C33_vector_compressed`, `Axpy.C33_vector_matrix`, `Axpy.C33_view`, `Axpy.C34_dense_partial`, `Axpy.C34_opb_iterating_refuted`, `Axpy.C34_opb_prod_partial`, `Axpy.C98_compressed_matrix`, `Axpy.C98_compressed_vector`, `Axpy.C98_matrix_matrix`, `Axpy.C98_matrix_vector`, `Axpy.C98_opb`, `Axpy.C98_restricted_partial`, `Axpy.C98_restricted_refuted`, `Axpy.C98_vector_compressed`, `Axpy.C98_vector_matrix`, `Blas.C59_axpy`, `Blas.C59_axpy_self`, `Blas.C59_copy`, `Blas.C59_dot`, `Blas.C59_gmm`, `Blas.C59_gmv`, `Blas.C59_gr_partial`, `Blas.C59_hr2_partial`, `Blas.C59_hr2k`, `Blas.C59_hr_partial`, `Blas.C59_hrk`, `Blas.C59_reductions`, `Blas.C59_rot_compressed`, `Blas.C59_rot_partial`, `Blas.C59_scal`, `Blas.C59_sr2_partial`, `Blas.C59_sr2k`, `Blas.C59_sr_partial`, `Blas.C59_srk`, `Blas.C59_swap_bounded`, `Blas.C59_swap_compressed`, `Blas.C59_swap_demo`, `Blas.C59_tmm`, `Blas.C59_tmv`, `Blas.C59_tsm`, `Blas.C59_tsv`, `Blocked.C35_matrix_matrix`, `Blocked.C35_matrix_vector`, `Blocked.C35_vector_matrix`, `C01_dense_layout_bijection`, `C02_storage_size_exact`, `C03_triangular_size_partial`, `C04_history`, `C05_resize_preserve_partial`, `C06_packed_layout`, `C06_packed_size`, `C07_history`, `C07_initial`, `C08_rectangular_partial`, `C08_rejected_exactly`, `C09_symmetric_history`, `C100_compressed_matrix`, `C100_compressed_vector`, `C100_coordinate_matrix`, `C100_coordinate_vector`, `C100_mapped_instances`, `C100_mapped_matrix`, `C101_compressed_matrix_insert`, `C101_compressed_vector_insert`, `C101_coordinate_matrix_insert`, `C101_coordinate_vector_insert`, `C101_matrix`, `C101_matrix_partial`, `C102_adaptor_partial`, `C102_block_partial`, `C102_statements_partial`, `C103_empty_refuted`, `C103_matrix_assign_partial`, `C103_prod_partial`, `C103_vector_assign_partial`, `C107_compressed_matrix_partial`, `C107_compressed_matrix_read_refuted`, `C107_compressed_vector_full_refuted`, `C107_compressed_vector_partial`, `C107_coordinate_matrix_refuted`, `C107_coordinate_vector`, `C107_matrix_lines`, `C107_matrix_views`, `C107_structured`, `C107_vector_of_vector_insert_refuted`, `C107_vector_of_vector_partial`, `C108_coordinate_values`, `C109_banded_partial`, `C109_key_checked`, `C109_key_injective`, `C109_mapped_elements`, `C109_packed_element`, `C109_packed_size`, `C109_tensor_partial`, `C10_erase_refuted`, `C10_hermitian_history_partial`, `C110_assign`, `C110_compressed_assign`, `C110_noalias_partial`, `C110_op_assign`, `C110_range_copy_partial`, `C110_slice_copy_refuted`, `C110_view_assign`, `C110_view_copy_partial`, `C110_view_op_assign`, `C118_vector_history`, `C118_vector_mismatch`, `C11_band_layout`, `C11_history`, `C11_off_band_rejected`, `C120_empty`, `C120_storage_order`, `C120_views`, `C126_coordinate_lines_partial`, `C127_hermitian_matrix`, `C127_is_hermitian`, `C127_is_symmetric`, `C127_symmetric_matrix`, `C12_identity`, `C12_slice_assoc`, `C12_slice_compose`, `C12_slice_compose_range`, `C130_hermitian_partial`, `C130_kinds`, `C130_symmetric_partial`, `C130_triangular`, `C132_banded_matrix`, `C132_compressed_matrix`, `C132_compressed_vector`, `C132_coordinate_matrix`, `C132_coordinate_vector`, `C132_hermitian_matrix_partial`, `C132_map_of_maps`, `C132_mapped_matrix`, `C132_mapped_matrix_map_array_partial`, `C132_mapped_vector`, `C132_mapped_vector_map_array_partial`, `C132_matrix`, `C132_symmetric_matrix`, `C132_triangular_matrix`, `C132_vector_of_coordinate_vectors`, `C132_vector_of_vector`, `C133_bounded_vector_partial`, `C133_vector_partial`, `C133_zero_initialised_partial`, `C134_bounded_matrix`, `C134_matrix`, `C135_delayed_write_refuted`, `C135_strict_references_partial`, `C13_indirect_compose`, `C13_selector_compose_partial`, `C14_project`, `C14_selector_injective`, `C14_vector_proxy`, `C15_matrix_proxy`, `C15_matrix_vector_proxy`, `C15_project`, `C16_all_destroyed_all_freed`, `C16_bounded_resize`, `C16_bounded_value_semantics`, `C16_unbounded_value_semantics`, `C17_assignment`, `C17_map_array_refines_map`, `C18_copy_refuted`, `C19_compressed_vector`, `C19_rejects`, `C20_mapped_vector_instances`, `C21_coordinate_vector`, `C22_coordinate_matrix_sort`, `C22_coordinate_vector_sort`, `C23_pop_back_partial`, `C24_compressed_matrix`, `C25_mapped_matrix`, `C25_mapped_matrix_instances`, `C26_coordinate_matrix`, `C27_coordinate_vector_resize`, `C28_compressed_matrix_reserve_partial`, `C28_compressed_vector_reserve_effect`, `C28_compressed_vector_reserve_partial`, `C28_coordinate_matrix_reserve_partial`, `C28_coordinate_vector_reserve_partial`, `C29_compressed_of_coordinate_partial`, `C30_inner_prod`, `C31_matrix_vector`, `C32_matrix_matrix`, `C42_assign`, `C42_compressed_assign`, `C42_compressed_op_assign`, `C42_op_assign`, `C42_view_assign`, `C42_view_op_assign`, `C43_compressed_scaled`, `C43_noalias_partial`, `C43_noalias_view`, `C43_sparse_expression`, `C44_assign_every_element`, `C44_packed_view`, `C44_triangular_row`, `C45_swap_rows_partial`, `C48_binary`, `C48_expression_tree`, `C48_matrix_binary`, `C48_matrix_expression_tree`, `C48_outer_refuted`, `C49_traverse12_no_columns`, `C50_compressed_matrix_traversal`, `C60_insert_past_end_refuted`, `C60_vector_of_vector`, `C62_all_of_proxy_refuted`, `C63_discarding_resize_partial`, `C64_push_back_partial`, `C65_reverse_partial`, `C66_banded`, `C66_refuted`, `C66_triangular_partial`, `C67_dense_partial`, `C68_compressed`, `C68_compressed_range`, `C68_dense`, `C68_matrix_assign`, `C68_packed_target`, `C68_range`, `C68_triangular`, `C74_compressed_matrix`, `C74_compressed_vector`, `C74_dense_matrix`, `C74_dense_vector`, `C74_matrix`, `C74_triangular`, `C74_view`, `C75_across_debug`, `C75_across_release_partial`, `C75_across_reverse`, `C75_find_element`, `C75_find_element_refuted`, `C76_identity_assigned`, `C76_identity_columns_refuted`, `C76_identity_columns_throw`, `C76_identity_matrix_partial`, `C76_scalar_matrix`, `C76_scalar_vector`, `C77_c_matrix_refuted`, `C77_c_matrix_release_partial`, `C77_c_matrix_resize_throws`, `C77_c_matrix_step_partial`, `C77_c_matrix_swap_partial`, `C77_c_vector_assign_partial`, `C78_ctor`, `C78_history_partial`, `C78_walk`, `C79_compressed_lines`, `C79_compressed_ranges`, `C79_dense_sparse`, `C79_dense_views`, `C79_matrix_packed`, `C79_matrix_sparse`, `C79_matrix_views_partial`, `C79_sparse_sparse`, `C79_swap`, `C79_triangular_ranges`, `C80_insert_hermitian`, `C80_jump`, `C80_jump_back_refuted`, `C80_line`, `C80_reverse_element_refuted`, `C80_reverse_partial`, `C80_reverse_refuted`, `C80_step_back_partial`, `C80_traverse`, `C80_write`, `C80_write_hermitian`, `C80_write_hermitian_loose`, `C81_banded`, `C81_banded_read`, `C81_banded_write`, `C81_triangular_partial`, `C81_triangular_read`, `C81_triangular_reverse_row`, `C81_wide_refuted`, `C82_coordinate_views`, `C82_dense_views`, `C82_mapped_views`, `C82_sparse_views`, `C83_dense_lines`, `C83_dense_views_partial`, `C83_sparse_views`, `C84_banded_views`, `C84_hermitian_views`, `C84_readable`, `C84_symmetric_views`, `C84_triangular_views`, `C85_mapped_instances`, `C85_mapped_views_partial`, `C85_reverse_refuted`, `C86_coordinate_views_partial`, `C86_reverse_refuted`, `C87_map_of_maps`, `C87_map_of_maps_std`, `C87_rejects`, `C87_unchecked_refuted`, `C88_absent_line_refuted`, `C88_map_of_maps_iterators_partial`, `C88_minor_refuted`, `C88_minor_square_refuted`, `C88_reverse_refuted`, `C92_indices_unchecked_refuted`, `C92_view_of_compressed_matrix`, `C93_history`, `C93_random_access`, `C93_update_all`, `C96_compressed_matrix`, `C96_compressed_vector`, `C96_matrix_no_false_alarm`, `C96_matrix_packed`, `C96_triangular`, `C96_triangular_row`, `C96_vector_no_false_alarm`, `C96_vector_packed`, `Exc.C104_alloc_failure`, `Exc.C104_element_partial`, `Exc.C104_history`, `FMat.C118_matrix_history`, `IO.C58_alloc_refuted`, `IO.C58_matrix_accepts`, `IO.C58_matrix_only_partial`, `IO.C58_matrix_roundtrip`, `IO.C58_overflow_refuted`, `IO.C58_size_text`, `IO.C58_symmetric_accepts`, `IO.C58_symmetric_only`, `IO.C58_symmetric_roundtrip`, `IO.C58_trailing_comma_refuted`, `IO.C58_vector_accepts`, `IO.C58_vector_fail_unchanged`, `IO.C58_vector_roundtrip`, `IO.natIO_roundTrips`, `LU.C38_no_pivoting`, `LU.C38_pivoting`, `LU.C39_dense`, `LU.C39_left_pivot_partial`, `LU.C39_left_pivot_refuted`, `LU.C39_no_pivoting`, `LU.C39_pivoting`, `LU.C40_tall_partial`, `LU.C40_wide_refuted`, `LU.C41_matrix`, `LU.C41_permutation`, `LU.C41_vector`, `LU.C69_determinant`, `LU.C97_axpy`, `LU.C97_factorize`, `LU.C97_factorize_pivot`, `LU.C97_rectangular_pivot_refuted`, `LU.C97_substitute`, `LU.substPivotLeft_solves`, `MT.range_supports`, `Norms.C46_index_norm_inf`, `Norms.C46_matrix`, `Norms.C46_norm_1`, `Norms.C46_norm_2`, `Norms.C46_norm_inf`, `Norms.C46_sum`, `Norms.C47_indexed_partial`, `Norms.C47_iterated_partial`, `OpenCL.C111_change_layout_partial`, `OpenCL.C111_trans_host_partial`, `OpenCL.C111_trans_partial`, `OpenCL.C112_outer_prod_partial`, `OpenCL.C112_prod_host_partial`, `OpenCL.C112_prod_partial`, `OpenCL.C112_prod_vector_partial`, `OpenCL.C112_vector_prod_partial`, `OpenCL.C113_element_wise_partial`, `OpenCL.C113_element_wise_vector_partial`, `OpenCL.C113_host_partial`, `OpenCL.C113_scalar`, `OpenCL.C131_complex`, `OpenCL.C131_inner_prod`, `OpenCL.C131_inner_prod_host`, `OpenCL.C131_norms_host_partial`, `OpenCL.C131_norms_partial`, `RVec.C119_end_refused_partial`, `RVec.C119_random_access_partial`, `RVec.C119_reverse_partial`, `RVec.C119_selector`, `RVec.C124_end_refused_partial`, `RVec.C124_matrix_range_partial`, `RVec.C124_random_access_partial`, `RVec.C124_range_never_refuted`, `RVec.C124_range_refuted`, `RVec.C124_reverse_partial`, `RVec.C124_selector_partial`, `RVec.C129_end_refused_partial`, `RVec.C129_random_access_partial`, `RVec.C129_reverse_partial`, `Ser.C116_bounded_vector`, `Ser.C116_c_matrix`, `Ser.C116_c_vector`, `Ser.C116_compressed_matrix`, `Ser.C116_compressed_vector`, `Ser.C116_coordinate_matrix`, `Ser.C116_coordinate_vector`, `Ser.C116_fixed_matrix`, `Ser.C116_fixed_vector`, `Ser.C116_generalized_vector_of_vector`, `Ser.C116_map_of_maps`, `Ser.C116_mapped_matrix`, `Ser.C116_mapped_vector`, `Ser.C116_matrix`, `Ser.C116_vector`, `Ser.C116_vector_of_vector`, `Ser.C117_map_array_refuted`, `Ser.C117_matrix_refuted`, `Ser.C117_sparse_refuted`, `Shallow.C122_all_destroyed`, `Shallow.C122_shared_elements`, `Solve.C37_dense`, `Solve.C37_into_compressed_matrix`, `Solve.C37_into_compressed_vector`, `Solve.C37_into_matrix`, `Solve.C37_into_vector`, `Solve.C37_left`, `Solve.C37_matrix`, `Solve.C37_matrix_singular`, `Solve.C37_singular`, `Solve.C37_solve`, `Solve.C37_unique`, `Solve.C37_vector`, `SparseProd.C36_empty_result_refuted`, `SparseProd.C36_sparse_prod_partial`, `Tens.C125_combine_partial`, `Tens.C125_longer_refuted`, `Tens.C125_shorter_refuted`, `Tens.C128_expressions_partial`, `Tens.C128_ne_refuted`, `Tens.C128_scalar`, `Tens.C128_shapes`, `Tens.C51_bijection`, `Tens.C52_accumulate`, `Tens.C52_accumulate_sum`, `Tens.C52_copy`, `Tens.C52_norm`, `Tens.C52_transform`, `Tens.C53_invalid`, `Tens.C53_inverse_partial`, `Tens.C53_rank1_refuted`, `Tens.C53_trans_partial`, `Tens.C54_prodMat_partial`, `Tens.C54_prodMat_rank1_refuted`, `Tens.C54_prodVec`, `Tens.C54_prodVec_refused`, `Tens.C54_ttm`, `Tens.C54_ttv`, `Tens.C55_inner_partial`, `Tens.C55_inner_rank1_refuted`, `Tens.C55_outer_partial`, `Tens.C55_outer_rank1_refuted`, `Tens.C55_prod_partial`, `Tens.C55_prod_refused`, `Tens.C55_static_refuted`, `Tens.C55_ttt`, `Tens.C55_ttt_outer`, `Tens.C56_reshape`, `Tens.C70_access`, `Tens.C70_from_array`, `Tens.C70_range_refuted`, `Tens.C71_layout_refuted`, `Tens.C71_ne_refuted`, `Tens.C71_same_layout_partial`, `Tens.C72_construct_same_layout_partial`, `Tens.C72_eval_same_layout_partial`, `Tens.C72_mixed_checked`, `Tens.C72_mixed_refuted`, `Tens.C72_scalar`, `Tens.C73_contraction_partial`, `Tens.C73_disjoint_refuted`, `Tens.C73_equal_partial`, `Tens.C73_wrong_rank`, `Tens.C89_compare_partial`, `Tens.C89_compare_refuted`, `Tens.C89_inner_partial`, `Tens.C89_inner_refuted`, `Tens.C90_set`, `Tens.C90_shapes_partial`, `Tens.C90_strides`, `Tens.C91_access`, `Tens.C91_fill`, `Tens.C91_from_matrix`, `Tens.C91_from_tensor`, `Tens.C91_from_vector_partial`, `Tens.C91_from_vector_refuted`, `Tens.C91_init`, `Tens.C91_range_refuted`, `Tens.C94_print`, `Tens.C94_print_vector`, `Tens.C95_expression_partial`, `Tens.C95_large_refuted`, `Tens.C95_new_tensor_partial`, `Tens.Life.C106_dynamic`, `Tens.Life.C106_moved_from_refuted`, `Tens.Life.C106_static_rank_partial`, `Tens.MI.C121_einstein`, `Tens.MI.C121_make`, `Tens.MI.C121_number`, `Tens.MI.C121_pairs`, `Tens.MI.C121_pairs_valid`, `Tens.MI.C121_position`, `Tens.MI.C121_to_vector_refuted`, `Tens.MI.C121_valid`, `Threads.C114_banded`, `Threads.C114_compressed_matrix`, `Threads.C114_compressed_vector`, `Threads.C114_coordinate_alone`, `Threads.C114_coordinate_matrix_partial`, `Threads.C114_coordinate_partial`, `Threads.C114_dense`, `Threads.C114_hermitian`, `Threads.C114_symmetric`, `Threads.C114_triangular`, `Threads.C114_vector`, `Threads.C115_banded`, `Threads.C115_compressed_partial`, `Threads.C115_dense`, `Threads.C115_hermitian_partial`, `Threads.C115_symmetric_names_partial`, `Threads.C115_symmetric_partial`, `Threads.C115_triangular`, `Threads.C115_vector`, `XC.C105_banded_resize`, `XC.C105_cmatrix_assign_refuted`, `XC.C105_cmatrix_insert_otherwise`, `XC.C105_cmatrix_reserve_partial`, `XC.C105_cmatrix_resize_partial`, `XC.C105_cmatrix_retry_refuted`, `XC.C105_compressed_reserve_partial`, `XC.C105_compressed_retry_refuted`, `XC.C105_coordinate_append_otherwise`, `XC.C105_coordinate_assign_refuted`, `XC.C105_coordinate_reserve_partial`, `XC.C105_coordinate_retry_refuted`, `XC.C105_dense_assign_refuted`, `assign_elementwise`, `banded_operand`, `compressedMatrix_operand`, `compressedMatrix_supports`, `compressed_supports`, `denseVec_operand`, `dense_operand`, `mview_supports`, `tri_supports`, `triangular_operand`, `view_supports`

* **propext, Quot.sound** (135 theorems): `Adaptor.C99_out_of_range_rejected`, `Assigner.C57_empty_block_refuted`, `C01_element_rejects`, `C02_element_no_wrap`, `C04_filled`, `C04_initial`, `C04_out_of_range_rejected`, `C04_read_after_write`, `C07_write_outside_rejected`, `C100_compare`, `C100_mapped_vector`, `C101_vector`, `C101_vector_partial`, `C103_large_refuted`, `C107_mapped_partial`, `C107_mapped_vector_insert_refuted`, `C108_compressed_matrix`, `C108_coordinate_matrix_partial`, `C108_coordinate_vector_partial`, `C109_restrict_capacity`, `C10_assign_inside`, `C10_assign_outside_rejected`, `C118_vector_constructors`, `C120_trans`, `C12_range_assoc`, `C12_range_compose`, `C12_slice_iterator`, `C130_symmetric_rejects`, `C130_triangular_rejects`, `C133_rejects`, `C134_rejects`, `C16_bounded_rejects`, `C17_push_back_rejects`, `C18_copy_constructor_behaviour`, `C18_copy_empty_partial`, `C20_mapped_vector`, `C20_rejects`, `C27_mapped_matrix_resize_preserve_refuted`, `C43_prod_differs`, `C48_matrix_trans`, `C48_matrix_unary`, `C48_outer_partial`, `C48_unary`, `C49_iterator_arith_columns_partial`, `C49_iterator_arith_partial`, `C49_negative_distance_refuted`, `C49_traverse12`, `C49_traverse21`, `C67_packed_zeros`, `C67_refuted`, `C67_sparse_never_ends`, `C74_vector`, `C76_unit_vector_assigned`, `C76_unit_vector_partial`, `C76_unit_vector_refuted`, `C76_unit_vector_visits_outside`, `C76_zero_matrix`, `C76_zero_vector`, `C77_c_vector`, `C77_c_vector_swap_partial`, `C78_iterator_less_refuted`, `C78_iterator_rejects`, `C78_rejects_partial`, `C79_empty_refuted`, `C80_diagonal`, `C80_hermitian`, `C80_read`, `C80_symmetric`, `C81_triangular_write`, `C82_window_spec`, `C92_c_array_view`, `C92_construct`, `C92_view_follows_values`, `C92_view_reads`, `C93_initial`, `C93_iteration`, `C93_lines`, `Exc.C104_ctor_leak_refuted`, `Exc.C104_resize_element_refuted`, `FMat.C118_matrix_constructors`, `FMat.C118_matrix_traverse`, `LU.C97_rectangular_refuted`, `Norms.C47_leading_zero_refuted`, `OpenCL.C111_in_place_refuted`, `OpenCL.C113_layout_refuted`, `OpenCL.C123_result_refuted`, `OpenCL.C123_result_vector_refuted`, `RVec.C124_matrix_range_refuted`, `RVec.C124_selector_refuted`, `Ser.C117_constant_partial`, `Ser.C117_dense_partial`, `Ser.C117_fixed_partial`, `Ser.C117_map_array_partial`, `Ser.C117_map_of_maps_refuted`, `Ser.C117_mapped_std_partial`, `Shallow.C122_out_of_range`, `Tens.C128_large_refuted`, `Tens.C54_prodMat_refused`, `Tens.C56_invalid`, `Tens.C72_large_refuted`, `Tens.C72_shapes`, `Tens.C89_equal`, `Tens.C89_unequal_partial`, `Tens.C90_accumulate`, `Tens.C90_all_of`, `Tens.C90_any_of_partial`, `Tens.C90_any_of_refuted`, `Tens.C90_cat`, `Tens.C90_get`, `Tens.C90_product`, `Tens.C90_reverse`, `Tens.C90_select`, `Tens.C90_strides_rejected`, `Tens.C91_init_static`, `Tens.C91_single`, `Tens.C94_print_scalar`, `Tens.C94_rank1_refuted`, `Tens.Life.C106_copy_empty_refuted`, `Tens.MI.C121_has_index`, `Tens.MI.C121_to_vector_partial`, `XC.C105_assign_otherwise`, `XC.C105_banded_assign_refuted`, `XC.C105_cmatrix_otherwise`, `XC.C105_cmatrix_resize_refuted`, `XC.C105_compressed_assign_refuted`, `XC.C105_compressed_otherwise`, `XC.C105_compressed_resize_refuted`, `XC.C105_coordinate_otherwise`, `XC.C105_dense_expression`, `XC.C105_dense_resize`, `XC.C105_packed_assign_refuted`, `XC.C105_symmetric_assign_refuted`, `XC.C105_symmetric_resize`, `XC.C105_triangular_resize`, `compressedVector_operand`

* **propext** (114 theorems): `Blas.C59_rot_refuted`, `Blas.C59_swap`, `Blocked.C35_zero_block_diverges`, `C03_refuted`, `C05_zero_fill_refuted`, `C08_refuted`, `C100_out_of_range`, `C101_coordinate_insert_refuted`, `C101_self_insert_refuted`, `C101_self_scale_refuted`, `C102_refuted`, `C107_adaptors`, `C107_compressed_matrix_write_refuted`, `C107_dense`, `C107_vector_views`, `C108_adaptors`, `C108_compressed_vector`, `C108_coordinate_refuted`, `C108_dense_matrix`, `C108_mapped`, `C108_structured`, `C108_vector_of_vector`, `C108_views`, `C109_banded_refuted`, `C109_mapped_refuted`, `C109_tensor_refuted`, `C110_noalias_refuted`, `C110_range_copy_refuted`, `C118_empty_refuted`, `C118_release_sizes_refuted`, `C120_defined`, `C120_sizes`, `C126_shrink_refuted`, `C127_diagonal_refuted`, `C130_hermitian_rejects`, `C130_symmetric_refuted`, `C132_map_array_copy_refuted`, `C133_demo`, `C133_zero_initialised_refuted`, `C135_demo`, `C13_empty_rejected_refuted`, `C15_views`, `C16_out_of_range_rejected`, `C23_pop_back_last_refuted`, `C23_pop_back_unsorted_refuted`, `C27_compressed_matrix_resize_refuted`, `C27_coordinate_matrix_resize_refuted`, `C28_compressed_matrix_reserve_refuted`, `C28_compressed_vector_reserve_refuted`, `C28_coordinate_reserve_refuted`, `C29_index_base_refuted`, `C29_no_lines_refuted`, `C30_size_mismatch`, `C43_compressed_refuted`, `C43_refuted`, `C45_refuted`, `C48_size_mismatch`, `C60_rejects`, `C61_banded_resize_preserve_refuted`, `C61_banded_resize_shape_partial`, `C62_all_of_vector_partial`, `C62_out_of_bounds`, `C63_discarding_resize_refuted`, `C64_push_back_after_pop_back_refuted`, `C65_reverse_refuted`, `C68_strict_lower_refuted`, `C77_c_matrix_capacity`, `C77_c_matrix_swap_refuted`, `C77_c_vector_swap_refuted`, `C78_history_refuted`, `C78_iterator_assign_refuted`, `C78_iterator_less_partial`, `C78_rejects_refuted`, `C79_matrix_size_mismatch`, `C79_mixed_triangles_refuted`, `C79_size_mismatch`, `C83_dense_refuted`, `C92_incomplete_matrix_refuted`, `FMat.C118_matrix_mismatch`, `OpenCL.C111_layout_refuted`, `OpenCL.C111_size_refuted`, `OpenCL.C112_in_place_refuted`, `OpenCL.C112_result_size_refuted`, `OpenCL.C113_result_size_refuted`, `OpenCL.C123_host`, `OpenCL.C123_mismatch_partial`, `OpenCL.C131_complex_refuted`, `OpenCL.C131_empty_refuted`, `OpenCL.C131_inner_prod_mismatch`, `RVec.C119_distance_refuted`, `RVec.C119_line_end_refuted`, `RVec.C119_subscript_refuted`, `RVec.C129_distance_refuted`, `RVec.C129_line_end_refuted`, `Ser.C116_constant`, `Ser.C116_sequence`, `Ser.C117_c_matrix_refuted`, `Tens.C52_rank0`, `Tens.C55_inner_refused`, `Tens.C70_wrong_rank`, `Tens.C72_mixed_shapes_refuted`, `Tens.C89_unequal_refuted`, `Tens.C90_shapes_empty`, `Tens.C90_shapes_refuted`, `Tens.C94_default_refuted`, `Tens.C95_empty`, `Tens.Life.C106_from_vector_refuted`, `Tens.MI.C121_at`, `Tens.MI.C121_labels`, `Threads.C114_coordinate_matrix_refuted`, `Threads.C114_coordinate_refuted`, `Threads.C115_compressed_refuted`, `Threads.C115_hermitian_refuted`, `Threads.C115_symmetric_refuted`

* **no axioms** (2 theorems): `C134_demo`, `C80_distance_refuted`

* **Quot.sound** (1 theorems): `XC.C105_dense_assign_partial`

