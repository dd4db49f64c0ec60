import Verif.Lemmas.BuildModesC
import Verif.Props.Coo
import Verif.Props.CompressedMatrix
/-!
# C108: the build mode does not change results

A program that runs without a failed check in a debug build (`BOOST_UBLAS_CHECK` compiled in) gives the same results in a release
build (`NDEBUG`).  `Agrees` is in `Spec/BuildModes.lean`; a container is compared as a whole (sizes, counts, all storage), so every
observation made of it afterwards agrees too.
-/
namespace Ublas
variable {α σ τ R : Type}

/-- **C108** (dense matrices): whole histories of writes, erasures and resizes on any matrix, and reads. -/
theorem C108_dense_matrix (o : Orient) (zero : α) (m : Dense α) (ops : List (Dense.Op α × (Nat → α))) :
    Agrees (Dense.run true o zero m ops) (Dense.run false o zero m ops) ∧
    (∀ i j, Agrees (m.get true o i j) (m.get false o i j)) :=
  ⟨Dense.run_agrees o zero m ops, fun i j => Dense.get_agrees o m i j⟩

/-- **C108** (ranges, slices, indirect selections and rows/columns/ranges/slices of dense objects, to any nesting depth). -/
theorem C108_views (o : Orient) (m : Dense α) (l : List α) :
    (∀ (p : VRef) i, Agrees (p.read true l i) (p.read false l i)) ∧
    (∀ (p : VRef) i v, Agrees (p.write true l i v) (p.write false l i v)) ∧
    (∀ n (p : VRef) a, Agrees (VRef.project true n p a) (VRef.project false n p a)) ∧
    (∀ (p : MRef) i j, Agrees (MRef.read true o p m i j) (MRef.read false o p m i j)) ∧
    (∀ (p : MRef) i j v, Agrees (MRef.write true o p m i j v) (MRef.write false o p m i j v)) ∧
    (∀ r c (p : MRef) a b, Agrees (MRef.project true r c p a b) (MRef.project false r c p a b)) ∧
    (∀ (p : MVRef) i, Agrees (MVRef.read true o p m i) (MVRef.read false o p m i)) ∧
    (∀ (p : MVRef) i v, Agrees (MVRef.write true o p m i v) (MVRef.write false o p m i v)) :=
  ⟨fun p i => VRef.read_agrees p l i, fun p i v => VRef.write_agrees p l i v, fun n p a => VRef.project_agrees n p a,
   fun p i j => MRef.read_agrees o p m i j, fun p i j v => MRef.write_agrees o p m i j v, fun r c p a b => MRef.project_agrees r c p a b,
   fun p i => MVRef.read_agrees o p m i, fun p i v => MVRef.write_agrees o p m i v⟩

/-- **C108** (triangular, symmetric, hermitian and banded matrices). -/
theorem C108_structured [Zero α] [One α] (cj : α → α) (t : Tri) (o : Orient) :
    (∀ (m : Packed.TMat α) ops, Agrees (Packed.TMat.run true t o m ops) (Packed.TMat.run false t o m ops)) ∧
    (∀ (m : Packed.TMat α) i j, Agrees (m.get true t o i j) (m.get false t o i j)) ∧
    (∀ (m : Packed.SMat α) ops, Agrees (Packed.SMat.run true t o m ops) (Packed.SMat.run false t o m ops)) ∧
    (∀ (m : Packed.SMat α) i j, Agrees (m.get true t o i j) (m.get false t o i j)) ∧
    (∀ (m : Packed.SMat α) ops, Agrees (Packed.SMat.hrun cj true t o m ops) (Packed.SMat.hrun cj false t o m ops)) ∧
    (∀ (m : Packed.SMat α) i j, Agrees (Packed.SMat.hget cj true t o m i j) (Packed.SMat.hget cj false t o m i j)) ∧
    (∀ (m : BMat α) ops, Agrees (BMat.run true o m ops) (BMat.run false o m ops)) ∧
    (∀ (m : BMat α) i j, Agrees (m.get true o i j) (m.get false o i j)) :=
  ⟨fun m ops => Packed.TMat.run_agrees t o m ops, fun m i j => Packed.TMat.get_agrees t o m i j,
   fun m ops => Packed.SMat.run_agrees t o m ops, fun m i j => Packed.SMat.get_agrees t o m i j,
   fun m ops => Packed.SMat.hrun_agrees cj t o m ops, fun m i j => Packed.SMat.hget_agrees cj t o m i j,
   fun m ops => BMat.run_agrees o m ops, fun m i j => BMat.get_agrees o m i j⟩

/-- **C108** (triangular, banded, symmetric and hermitian adaptors; fixed-size containers; vectors of dense vectors): reads and writes. -/
theorem C108_adaptors [Zero R] [One R] (cj : R → R) (t : Tri) (upper : Bool) (l u r c n : Nat) (a : Nat → Nat → R) (i j : Nat) (x : R) :
    Agrees (Adapt.tget true t r c a i j) (Adapt.tget false t r c a i j) ∧
    Agrees (Adapt.tset true t r c a i j x) (Adapt.tset false t r c a i j x) ∧
    Agrees (Adapt.bget true l u r c a i j) (Adapt.bget false l u r c a i j) ∧
    Agrees (Adapt.bset true l u r c a i j x) (Adapt.bset false l u r c a i j x) ∧
    Agrees (SymAd.read true upper cj n a i j) (SymAd.read false upper cj n a i j) ∧
    Agrees (SymAd.writeSym true upper n a i j x) (SymAd.writeSym false upper n a i j x) ∧
    Agrees (SymAd.insertHerm true upper cj n a i j x) (SymAd.insertHerm false upper cj n a i j x) ∧
    (∀ (v : CVect R), Agrees (v.get true i) (v.get false i) ∧ Agrees (v.set true i x) (v.set false i x)) ∧
    (∀ (m : CMatx R), Agrees (m.get true c i j) (m.get false c i j) ∧ Agrees (m.set true c i j x) (m.set false c i j x)) ∧
    (∀ (m : VV R) (o : Orient), Agrees (m.get true o i j) (m.get false o i j) ∧ Agrees (m.set true o i j x) (m.set false o i j x)) :=
  ⟨Adapt.tget_agrees t r c a i j, Adapt.tset_agrees t r c a i j x, Adapt.bget_agrees l u r c a i j, Adapt.bset_agrees l u r c a i j x,
   SymAd.read_agrees upper cj n a i j, SymAd.writeSym_agrees upper n a i j x, SymAd.insertHerm_agrees upper cj n a i j x,
   fun v => ⟨CVect.get_agrees v i, CVect.set_agrees v i x⟩, fun m => ⟨CMatx.get_agrees c m i j, CMatx.set_agrees c m i j x⟩,
   fun m o => ⟨VV.get_agrees o m i j, VV.set_agrees o m i j x⟩⟩

/-- **C108** (compressed_vector): construction, whole histories from any state, reads and traversal. -/
theorem C108_compressed_vector (IB : Nat) (zero : α) :
    (∀ junk n nz, Agrees (CVec.ctor true IB junk n nz) (CVec.ctor (α := α) false IB junk n nz)) ∧
    (∀ (v : CVec α) ops, Agrees (CVec.run true IB zero v ops) (CVec.run false IB zero v ops)) ∧
    (∀ (v : CVec α) i, Agrees (v.get true IB zero i) (v.get false IB zero i)) ∧
    (∀ (v : CVec α) i, Agrees (v.traverseFrom true IB i) (v.traverseFrom false IB i)) :=
  ⟨fun junk n nz => CVec.ctor_agrees IB junk n nz, fun v ops => CVec.run_agrees IB zero v ops, fun v i => CVec.get_agrees IB zero v i,
   fun v i => CVec.traverseFrom_agrees IB v i⟩

/-- **C108** (compressed_matrix). -/
theorem C108_compressed_matrix (o : Orient) (IB : Nat) (zero : α) :
    (∀ junk r c nz, Agrees (CMat.ctor true o IB junk r c nz) (CMat.ctor (α := α) false o IB junk r c nz)) ∧
    (∀ (v : CMat α) ops, Agrees (CMat.run true o IB zero v ops) (CMat.run false o IB zero v ops)) ∧
    (∀ (v : CMat α) i j, Agrees (v.get true o IB zero i j) (v.get false o IB zero i j)) :=
  ⟨fun junk r c nz => CMat.ctor_agrees o IB junk r c nz, fun v ops => CMat.run_agrees o IB zero v ops, fun v i j => CMat.get_agrees o IB zero v i j⟩

/-- **C108** (generalized_vector_of_vector). -/
theorem C108_vector_of_vector (o : Orient) (IB : Nat) (zero : α) :
    (∀ junk rows r c, Agrees (VoV.ctor true o IB zero junk rows r c) (VoV.ctor false o IB zero junk rows r c)) ∧
    (∀ (v : VoV α) ops, Agrees (VoV.run true o IB zero v ops) (VoV.run false o IB zero v ops)) ∧
    (∀ (v : VoV α) i j, Agrees (v.get true o IB zero i j) (v.get false o IB zero i j)) :=
  ⟨fun junk rows r c => VoV.ctor_agrees o IB zero junk rows r c, fun v ops => VoV.run_agrees o IB zero v ops, fun v i j => VoV.get_agrees o IB zero v i j⟩

/-- **C108** (map_array, and the containers over any map whose own members agree: `std::map` and `map_array` do). -/
theorem C108_mapped (o : Orient) (zero : α) (O : MapImpl τ σ) (I : MapImpl σ α) [MapAgrees O] [MapAgrees I] :
    (∀ (m : MapArr α) ops, Agrees (MapArr.run true zero m ops) (MapArr.run false zero m ops)) ∧
    MapAgrees (mapArrayImpl zero) ∧ MapAgrees (stdMapImpl : MapImpl (List (Nat × α)) α) ∧
    (∀ (v : MappedVec σ) ops, Agrees (MappedVec.run I true zero v ops) (MappedVec.run I false zero v ops)) ∧
    (∀ (v : MappedVec σ) i, Agrees (MappedVec.get I true zero v i) (MappedVec.get I false zero v i)) ∧
    (∀ (v : MappedMat σ) ops, Agrees (MappedMat.run I true o zero v ops) (MappedMat.run I false o zero v ops)) ∧
    (∀ (v : MappedMat σ) i j, Agrees (MappedMat.get I true o zero v i j) (MappedMat.get I false o zero v i j)) ∧
    (∀ (v : MapMap τ) ops, Agrees (MapMap.run O I true o zero v ops) (MapMap.run O I false o zero v ops)) :=
  ⟨fun m ops => MapArr.run_agrees zero m ops, mapArrayImpl_agrees zero, stdMapImpl_agrees, fun v ops => MappedVec.run_agrees I zero v ops,
   fun v i => MappedVec.get_agrees I zero v i, fun v ops => MappedMat.run_agrees I zero o v ops, fun v i j => MappedMat.get_agrees I zero o v i j,
   fun v ops => MapMap.run_agrees I zero o O v ops⟩

/-! ## Coordinate containers -/

/-- Run a coordinate_vector<int> of size `n` (room for 4 elements) through `ops` and ask for `nnz ()`. -/
def vNnz (full dbg : Bool) (n : Nat) (ops : List (CoordVecOp Int)) : M Nat := do
  let v0 ← CoordVec.ctor vSort full dbg 0 vJunk n 4
  let v ← CoordVec.run vSort full dbg 0 0 v0 (ops.map (fun op => (op, vJunk)))
  .ok v.coo.filled
/-- The same for a coordinate_matrix<int>. -/
def mNnz (full dbg : Bool) (o : Orient) (r c : Nat) (ops : List (CoordMatOp Int)) : M Nat := do
  let v0 ← CoordMat.ctor mSort full dbg mJunk r c 4
  let v ← CoordMat.run mSort full dbg o 0 0 v0 (ops.map (fun op => (op, mJunk)))
  .ok v.coo.filled

/-- **C108** (coordinate containers, refuted).  `append_element (1, 10), append_element (1, 5), insert_element (2, 1)`: both builds return
normally, but `nnz ()` is 2 in debug builds and 3 in release builds, because the check inside `insert_element` looks the element up, and
looking up sorts the (mutable) arrays and sums duplicates. -/
theorem C108_coordinate_refuted (full : Bool) (o : Orient) :
    vNnz full true 5 [.core (.append 1 10), .core (.append 1 5), .core (.insert 2 1)] = .ok 2 ∧
    vNnz full false 5 [.core (.append 1 10), .core (.append 1 5), .core (.insert 2 1)] = .ok 3 ∧
    mNnz full true o 5 5 [.core (.append (1, 1) 10), .core (.append (1, 1) 5), .core (.insert (2, 2) 1)] = .ok 2 ∧
    mNnz full false o 5 5 [.core (.append (1, 1) 10), .core (.append (1, 1) 5), .core (.insert (2, 2) 1)] = .ok 3 := by
  cases full <;> cases o <;> decide

/-- **C108** (coordinate_vector, partial): construction, histories without `insert_element`, and reads; missing: histories with
`insert_element`, for which the claim is false (above). -/
theorem C108_coordinate_vector_partial [Add α] (srt : List (Nat × α) → List (Nat × α)) (full : Bool) (IB : Nat) (zero : α) :
    (∀ junk n nz, Agrees (CoordVec.ctor srt full true IB junk n nz) (CoordVec.ctor srt full false IB junk n nz)) ∧
    (∀ (v : CoordVec α) ops, (∀ i t j, (CoordVecOp.core (.insert i t), j) ∉ ops) →
      Agrees (CoordVec.run srt full true IB zero v ops) (CoordVec.run srt full false IB zero v ops)) ∧
    (∀ (v : CoordVec α) i, Agrees (v.get srt full true IB zero i) (v.get srt full false IB zero i)) :=
  ⟨fun junk n nz => CoordVec.ctor_agrees srt full IB junk n nz, fun v ops h => CoordVec.run_agrees srt full IB zero v ops h,
   fun v i => CoordVec.get_agrees srt full IB zero v i⟩

/-- **C108** (coordinate_matrix, partial). -/
theorem C108_coordinate_matrix_partial [Add α] (srt : List ((Nat × Nat) × α) → List ((Nat × Nat) × α)) (full : Bool) (o : Orient) (IB : Nat) (zero : α) :
    (∀ junk r c nz, Agrees (CoordMat.ctor srt full true junk r c nz) (CoordMat.ctor srt full false junk r c nz)) ∧
    (∀ (v : CoordMat α) ops, (∀ p t j, (CoordMatOp.core (.insert p t), j) ∉ ops) →
      Agrees (CoordMat.run srt full true o IB zero v ops) (CoordMat.run srt full false o IB zero v ops)) ∧
    (∀ (v : CoordMat α) p, Agrees (v.get srt full true o IB zero p) (v.get srt full false o IB zero p)) :=
  ⟨fun junk r c nz => CoordMat.ctor_agrees srt full junk r c nz, fun v ops h => CoordMat.run_agrees srt full o IB zero v ops h,
   fun v p => CoordMat.get_agrees srt full o IB zero v p⟩

/-- **C108** (coordinate containers, what is left with `insert_element`): in histories that keep the documented preconditions, sizes and
element values agree between the builds (only the storage, and with it `nnz ()`, may differ). -/
theorem C108_coordinate_values [AddCommMonoid α] (full : Bool) (IB : Nat) :
    (∀ (srt : List (Nat × α) → List (Nat × α)), CoordVec.Sorts srt → ∀ (junk : Coo.Junk Nat α) (n nz : Nat) (ops : List (CoordVecOp α × Coo.Junk Nat α)),
      CooSpec.vlegalRun ⟨n, fun _ => none, true⟩ (ops.map (·.1)) →
      ∃ d0 d r0 r, CoordVec.ctor srt full true IB junk n nz = .ok d0 ∧ CoordVec.run srt full true IB 0 d0 ops = .ok d ∧
        CoordVec.ctor srt full false IB junk n nz = .ok r0 ∧ CoordVec.run srt full false IB 0 r0 ops = .ok r ∧
        d.size = r.size ∧ ∀ i, i < d.size → ∃ x, d.get srt full true IB 0 i = .ok x ∧ r.get srt full false IB 0 i = .ok x) ∧
    (∀ (srt : List ((Nat × Nat) × α) → List ((Nat × Nat) × α)), CoordMat.Sorts srt → ∀ (o : Orient) (junk : Coo.Junk (Nat × Nat) α) (m n nz : Nat)
      (ops : List (CoordMatOp α × Coo.Junk (Nat × Nat) α)), CooSpec.mlegalRun o ⟨m, n, fun _ => none, true⟩ (ops.map (·.1)) →
      ∃ d0 d r0 r, CoordMat.ctor srt full true junk m n nz = .ok d0 ∧ CoordMat.run srt full true o IB 0 d0 ops = .ok d ∧
        CoordMat.ctor srt full false junk m n nz = .ok r0 ∧ CoordMat.run srt full false o IB 0 r0 ops = .ok r ∧
        d.size1 = r.size1 ∧ d.size2 = r.size2 ∧ ∀ p, ∃ x, d.get srt full true o IB 0 p = .ok x ∧ r.get srt full false o IB 0 p = .ok x) := by
  refine ⟨fun srt hs junk n nz ops hl => ?_, fun srt hs o junk m n nz ops hl => ?_⟩
  · obtain ⟨d0, d, e0, e1, h1⟩ := C21_coordinate_vector srt hs full true IB junk n nz ops hl
    obtain ⟨r0, r, f0, f1, h2⟩ := C21_coordinate_vector srt hs full false IB junk n nz ops hl
    exact ⟨d0, d, r0, r, e0, e1, f0, f1, h1.1.trans h2.1.symm, fun i hi => ⟨_, h1.2.1 i (h1.1 ▸ hi), h2.2.1 i (h1.1 ▸ hi)⟩⟩
  · obtain ⟨d0, d, e0, e1, h1⟩ := C26_coordinate_matrix srt hs full true o IB junk m n nz ops hl
    obtain ⟨r0, r, f0, f1, h2⟩ := C26_coordinate_matrix srt hs full false o IB junk m n nz ops hl
    exact ⟨d0, d, r0, r, e0, e1, f0, f1, h1.1.trans h2.1.symm, h1.2.1.trans h2.2.1.symm, fun p => ⟨_, h1.2.2.1 p, h2.2.2.1 p⟩⟩

/-- The debug build does return normally on non-trivial histories (so `Agrees` is not vacuous), and the release build then returns the same object. -/
example : ∃ v0 v, CMat.ctor true .row 1 cmJunk 3 3 2 = .ok v0 ∧ CMat.run true .row 1 0 v0 C24_demo = .ok v ∧ CMat.run false .row 1 0 v0 C24_demo = .ok v ∧ v.filled2 ≠ 0 := by
  refine ⟨_, _, rfl, rfl, rfl, by decide⟩
example : ∃ v, CoordMat.run mSort false true .row 0 0 ⟨3, 4, 4, 0, 0, true, List.replicate 4 (0, 0), [0, 0, 0, 0]⟩
      [(.core (.append (2, 1) 5), mJunk), (.core (.append (0, 1) 7), mJunk), (.core (.append (2, 1) 8), mJunk), (.core (.erase (0, 1)), mJunk)] = .ok v ∧
    CoordMat.run mSort false false .row 0 0 ⟨3, 4, 4, 0, 0, true, List.replicate 4 (0, 0), [0, 0, 0, 0]⟩
      [(.core (.append (2, 1) 5), mJunk), (.core (.append (0, 1) 7), mJunk), (.core (.append (2, 1) 8), mJunk), (.core (.erase (0, 1)), mJunk)] = .ok v ∧ v.coo.filled = 1 := by
  refine ⟨_, rfl, rfl, by decide⟩
/-- The two builds do differ on calls that a debug build refuses. -/
example : Dense.get (α := Int) true .row ⟨2, 3, [1, 2, 3, 4, 5, 6]⟩ 0 4 = .error .badIndex ∧ Dense.get false .row ⟨2, 3, [1, 2, 3, 4, 5, 6]⟩ 0 4 = .ok (5 : Int) := by decide

end Ublas
