import Verif.Lemmas.Serialize
import Verif.Props.CompressedMatrix
import Verif.Props.CompressedVector
import Verif.Props.Coo
import Verif.Props.Mapped
import Verif.Props.MapOfMaps
import Verif.Props.VectorOfVector
import Verif.Model.MapOfMapsIter
/-! # C116, C117: saving and loading containers -/
namespace Ublas
namespace Ser
open SparseSpec Assoc
variable {R σ τ α β γ : Type}

/-! ## C116: what was saved is restored -/

/-- **C116**, vector (any contents): the saved vector is restored over any other vector, and nothing beyond it is consumed. -/
theorem C116_vector (junk junk' : Nat → R) (x : List R) : RoundTrips (vector ampE junk) (vector ampE junk') (fun _ => True) x :=
  roundtrips_of_good (good_unbounded _ _ fun a _ => good_elt a)

/-- **C116**, vector on a bounded_array (bounded_vector). -/
theorem C116_bounded_vector (N : Nat) (x : Bounded R) (hx : x.size ≤ N ∧ x.data.length = N) :
    RoundTrips' (boundedVector ampE N) (boundedVector ampE N) (fun y => y.size ≤ N ∧ y.data.length = N)
      (fun x' => x'.size = x.size ∧ x'.data.length = N ∧ ∀ i, i < x.size → x'.data[i]? = x.data[i]?) x := by
  obtain ⟨o, ho⟩ := tr_arrayFrom (f := (ampE : S R R Unit)) (f' := ampE) (x := x.data) (fun a _ => good_elt a) x.size 0 (by omega)
  refine ⟨[.num x.size] ++ ([] ++ o), ?_⟩
  have key : ∀ y : Bounded R, y.size ≤ N ∧ y.data.length = N → ∃ x' : Bounded R, (x'.size = x.size ∧ x'.data.length = N ∧ ∀ i, i < x.size → x'.data[i]? = x.data[i]?) ∧
      Tr (boundedVector ampE N) (boundedVector ampE N) x ([.num x.size] ++ ([] ++ o)) () y x' := by
    intro y hy
    obtain ⟨z, hz, hl, hg⟩ := ho y.data (by omega)
    refine ⟨⟨x.size, z⟩, ⟨rfl, by rw [hl, hy.2], fun i hi => ?_⟩, ?_⟩
    · show z[i]? = _
      rw [hg i, if_pos ⟨Nat.zero_le _, by omega⟩]
    · refine Tr.bind (Tr.local Bounded.size x y) (Tr.bind (z := { y with size := x.size }) (Tr.whenLoading fun t => ?_) (Tr.member (x := x) (y := { y with size := x.size }) hz rfl))
      rw [bind_def]
      simp only [Ser.test, if_neg (show ¬ x.size > N by omega)]
      rfl
  refine ⟨?_, fun y hy => ?_⟩
  · obtain ⟨_, _, h⟩ := key x hx; exact h.save
  · obtain ⟨x', h1, h2⟩ := key y hy; exact ⟨x', h1, h2.load⟩

/-- **C116**, matrix. -/
theorem good_matrix {f f' : S R α Unit} (junk junk' : Nat → α) (x : Dense α) (h : ∀ a ∈ x.data, Good f f' a) : Good (matrix f junk) (matrix f' junk') x := by
  obtain ⟨o, ho⟩ := good_unbounded junk junk' h
  apply Exists.intro
  intro y
  exact Tr.bind (Tr.local Dense.size1 x y) (Tr.bind (Tr.local Dense.size2 x y) (Tr.bind (z := ⟨x.size1, x.size2, y.data⟩) (Tr.whenLoading fun t => rfl)
    (Tr.member (x := x) (y := ⟨x.size1, x.size2, y.data⟩) (ho y.data) rfl)))

theorem C116_matrix (junk junk' : Nat → R) (x : Dense R) : RoundTrips (matrix ampE junk) (matrix ampE junk') (fun _ => True) x :=
  roundtrips_of_good (good_matrix _ _ _ fun a _ => good_elt a)

/-- **C116**, vector_of_vector. -/
theorem C116_vector_of_vector (junk junk' : Nat → R) (x : VV R) : RoundTrips (vectorOfVector ampE junk) (vectorOfVector ampE junk') (fun _ => True) x := by
  apply roundtrips_of_good
  obtain ⟨o, ho⟩ := good_unbounded (f := vector (ampE : S R R Unit) junk) (f' := vector ampE junk') (x := x.data) (fun _ => []) (fun _ => [])
    (fun l _ => good_unbounded _ _ fun a _ => good_elt a)
  apply Exists.intro
  intro y
  exact Tr.bind (Tr.local VV.size1 x y) (Tr.bind (Tr.local VV.size2 x y) (Tr.bind (z := ⟨x.size1, x.size2, y.data⟩) (Tr.whenLoading fun t => rfl)
    (Tr.member (x := x) (y := ⟨x.size1, x.size2, y.data⟩) (ho y.data) rfl)))

/-- **C116**, c_vector. -/
theorem C116_c_vector (N : Nat) (x : CVect R) (hx : x.size ≤ N ∧ x.data.length = N) :
    RoundTrips (cVector ampE N) (cVector ampE N) (fun y => y.data.length = N) x := by
  obtain ⟨o, ho⟩ := tr_builtin (f := (ampE : S R R Unit)) (f' := ampE) (x := x.data) (fun a _ => good_elt a) 0 N (by omega)
  have key : ∀ y : CVect R, y.data.length = N → Tr (cVector ampE N) (cVector ampE N) x ([.num x.size] ++ ([] ++ o)) () y x := by
    intro y hy
    obtain ⟨z, hz, hl, hg⟩ := ho y.data (by omega)
    have e : z = x.data := by
      apply List.ext_getElem?; intro i; rw [hg i]
      by_cases c : i < N
      · rw [if_pos ⟨Nat.zero_le _, by omega⟩]
      · rw [if_neg (by omega), List.getElem?_eq_none (by omega), List.getElem?_eq_none (by omega)]
    rw [e] at hz
    refine Tr.bind (Tr.local CVect.size x y) (Tr.bind (z := { y with size := x.size }) (Tr.whenLoading fun t => ?_) (Tr.member (x := x) (y := { y with size := x.size }) hz rfl))
    rw [bind_def]
    simp only [Ser.test, if_neg (show ¬ x.size > N by omega)]
    rfl
  exact ⟨_, (key x hx.2).save, fun y hy => (key y hy).load⟩

/-- **C116**, c_matrix. -/
theorem C116_c_matrix (N C : Nat) (x : CMatx R) (hx : x.data.length = N * C) :
    RoundTrips (cMatrix ampE N C) (cMatrix ampE N C) (fun y => y.data.length = N * C) x := by
  obtain ⟨o, ho⟩ := tr_rows (f := (ampE : S R R Unit)) (f' := ampE) (x := x.data) (fun a _ => good_elt a) C N 0 (by rw [Nat.zero_add]; omega)
  have key : ∀ y : CMatx R, y.data.length = N * C → Tr (cMatrix ampE N C) (cMatrix ampE N C) x ([.num x.size1] ++ ([.num x.size2] ++ ([] ++ o))) () y x := by
    intro y hy
    obtain ⟨z, hz, hl, hg⟩ := ho y.data (by rw [Nat.zero_add]; omega)
    have e : z = x.data := by
      apply List.ext_getElem?; intro i; rw [hg i, Nat.zero_mul, Nat.zero_add]
      by_cases c : i < N * C
      · rw [if_pos ⟨Nat.zero_le _, c⟩]
      · rw [if_neg (by omega), List.getElem?_eq_none (by omega), List.getElem?_eq_none (by omega)]
    rw [e] at hz
    exact Tr.bind (Tr.local CMatx.size1 x y) (Tr.bind (Tr.local CMatx.size2 x y) (Tr.bind (z := ⟨x.size1, x.size2, y.data⟩) (Tr.whenLoading fun t => rfl)
      (Tr.member (x := x) (y := ⟨x.size1, x.size2, y.data⟩) hz rfl)))
  exact ⟨_, (key x hx).save, fun y hy => (key y hy).load⟩

/-- **C116**, the constant containers (an identity_matrix as constructed). -/
theorem C116_constant :
    (∀ x : ZeroVec, RoundTrips (zeroVector : S R ZeroVec Unit) zeroVector (fun _ => True) x) ∧
    (∀ x : UnitVec, RoundTrips (unitVector : S R UnitVec Unit) unitVector (fun _ => True) x) ∧
    (∀ x : ScalarVec R, RoundTrips (scalarVector ampE) (scalarVector ampE) (fun _ => True) x) ∧
    (∀ x : ZeroMat, RoundTrips (zeroMatrix : S R ZeroMat Unit) zeroMatrix (fun _ => True) x) ∧
    (∀ r c : Nat, RoundTrips (identityMatrix : S R IdMat Unit) identityMatrix (fun _ => True) (IdMat.ctor r c)) ∧
    (∀ x : ScalarMat R, RoundTrips (scalarMatrix ampE) (scalarMatrix ampE) (fun _ => True) x) := by
  refine ⟨fun x => roundtrips_of_good ?_, fun x => roundtrips_of_good ?_, fun x => roundtrips_of_good ?_, fun x => roundtrips_of_good ?_, fun r c => roundtrips_of_good ?_,
    fun x => roundtrips_of_good ?_⟩
  · apply Exists.intro; intro y
    exact Tr.bind (Tr.local ZeroVec.size x y) (Tr.upd _ _ x y)
  · apply Exists.intro; intro y
    exact Tr.bind (Tr.local UnitVec.size x y) (Tr.bind (Tr.upd _ _ x y) (Tr.member (x := x) (y := { y with size := x.size }) (Tr.num x.index y.index) rfl))
  · apply Exists.intro; intro y
    exact Tr.bind (Tr.local ScalarVec.size x y) (Tr.bind (Tr.upd _ _ x y) (Tr.member (x := x) (y := { y with size := x.size }) (Tr.elt x.value y.value) rfl))
  · apply Exists.intro; intro y
    exact Tr.bind (Tr.local ZeroMat.size1 x y) (Tr.bind (Tr.local ZeroMat.size2 x y) (Tr.whenLoading fun t => rfl))
  · apply Exists.intro; intro y
    exact Tr.bind (Tr.local IdMat.size1 (IdMat.ctor r c) y) (Tr.bind (Tr.local IdMat.size2 (IdMat.ctor r c) y) (Tr.whenLoading fun t => rfl))
  · apply Exists.intro; intro y
    exact Tr.bind (Tr.local ScalarMat.size1 x y) (Tr.bind (Tr.local ScalarMat.size2 x y) (Tr.bind (z := ⟨x.size1, x.size2, y.value⟩) (Tr.whenLoading fun t => rfl)
      (Tr.member (x := x) (y := ⟨x.size1, x.size2, y.value⟩) (Tr.elt x.value y.value) rfl)))

theorem good_compressedVector {f f' : S R α Unit} (dbg dbg' : Bool) (IB : Nat) (junk junk' : CVec.Junk α) (x : CVec α) (hx : ∀ d, x.invariants d IB = .ok ())
    (h : ∀ a ∈ x.val, Good f f' a) : Good (compressedVector f dbg IB junk) (compressedVector f' dbg' IB junk') x := by
  obtain ⟨o1, h1⟩ := good_unbounded (R := R) (x := x.idx) junk.1 junk'.1 (fun a _ => good_num a)
  obtain ⟨o2, h2⟩ := good_unbounded junk.2 junk'.2 h
  apply Exists.intro
  intro y
  exact Tr.bind (Tr.local CVec.size x y) (Tr.bind (Tr.upd _ _ x y)
    (Tr.bind (Tr.member (x := x) (y := ⟨x.size, y.cap, y.filled, y.idx, y.val⟩) (Tr.num x.cap y.cap) rfl)
    (Tr.bind (Tr.member (x := x) (y := ⟨x.size, x.cap, y.filled, y.idx, y.val⟩) (Tr.num x.filled y.filled) rfl)
    (Tr.bind (Tr.member (x := x) (y := ⟨x.size, x.cap, x.filled, y.idx, y.val⟩) (h1 y.idx) rfl)
    (Tr.bind (Tr.member (x := x) (y := ⟨x.size, x.cap, x.filled, x.idx, y.val⟩) (h2 y.val) rfl) (Tr.test (hx dbg) (hx dbg')))))))

/-- **C116**, compressed_vector: after any legal history (in a build `dbg`), what is saved is restored by any build `dbg'` over any other compressed_vector. -/
theorem C116_compressed_vector (dbg dbg' : Bool) (IB : Nat) (zero : R) (junk : CVec.Junk R) (n nz : Nat) (ops : List (CVOp R × CVec.Junk R))
    (hl : cvlegalRun zero ⟨n, fun _ => none⟩ (ops.map (·.1))) (j j' : CVec.Junk R) :
    ∃ v0 v, CVec.ctor dbg IB junk n nz = .ok v0 ∧ CVec.run dbg IB zero v0 ops = .ok v ∧
      RoundTrips (compressedVector ampE dbg IB j) (compressedVector ampE dbg' IB j') (fun _ => True) v := by
  obtain ⟨v0, e0, h0⟩ := CVec.inv_ctor dbg IB junk n nz
  obtain ⟨v, e, _, h⟩ := CVec.run_inv dbg IB zero ops v0 _ h0 hl
  exact ⟨v0, v, e0, e, roundtrips_of_good (good_compressedVector _ _ _ _ _ _ (fun d => h.invariants d) fun a _ => good_elt a)⟩

theorem good_compressedMatrix {f f' : S R α Unit} (dbg dbg' : Bool) (o : Orient) (IB : Nat) (junk junk' : CMat.Junk α) (x : CMat α) (hx : ∀ d, x.invariants d o IB = .ok ())
    (h : ∀ a ∈ x.val, Good f f' a) : Good (compressedMatrix f dbg o IB junk) (compressedMatrix f' dbg' o IB junk') x := by
  obtain ⟨o1, h1⟩ := good_unbounded (R := R) (x := x.idx1) junk.1 junk'.1 (fun a _ => good_num a)
  obtain ⟨o2, h2⟩ := good_unbounded (R := R) (x := x.idx2) junk.1 junk'.1 (fun a _ => good_num a)
  obtain ⟨o3, h3⟩ := good_unbounded junk.2 junk'.2 h
  apply Exists.intro
  intro y
  exact Tr.bind (Tr.local CMat.size1 x y) (Tr.bind (Tr.local CMat.size2 x y) (Tr.bind (z := ⟨x.size1, x.size2, y.cap, y.filled1, y.filled2, y.idx1, y.idx2, y.val⟩) (Tr.whenLoading fun t => rfl)
    (Tr.bind (Tr.member (x := x) (y := ⟨x.size1, x.size2, y.cap, y.filled1, y.filled2, y.idx1, y.idx2, y.val⟩) (Tr.num x.cap y.cap) rfl)
    (Tr.bind (Tr.member (x := x) (y := ⟨x.size1, x.size2, x.cap, y.filled1, y.filled2, y.idx1, y.idx2, y.val⟩) (Tr.num x.filled1 y.filled1) rfl)
    (Tr.bind (Tr.member (x := x) (y := ⟨x.size1, x.size2, x.cap, x.filled1, y.filled2, y.idx1, y.idx2, y.val⟩) (Tr.num x.filled2 y.filled2) rfl)
    (Tr.bind (Tr.member (x := x) (y := ⟨x.size1, x.size2, x.cap, x.filled1, x.filled2, y.idx1, y.idx2, y.val⟩) (h1 y.idx1) rfl)
    (Tr.bind (Tr.member (x := x) (y := ⟨x.size1, x.size2, x.cap, x.filled1, x.filled2, x.idx1, y.idx2, y.val⟩) (h2 y.idx2) rfl)
    (Tr.bind (Tr.member (x := x) (y := ⟨x.size1, x.size2, x.cap, x.filled1, x.filled2, x.idx1, x.idx2, y.val⟩) (h3 y.val) rfl) (Tr.test (hx dbg) (hx dbg'))))))))))

/-- **C116**, compressed_matrix. -/
theorem C116_compressed_matrix (dbg dbg' : Bool) (o : Orient) (IB : Nat) (zero : R) (junk : CMat.Junk R) (r c nz : Nat) (ops : List (CMOp R × CMat.Junk R))
    (hl : cmlegalRun o zero ⟨r, c, fun _ => none, 0⟩ (ops.map (·.1))) (j j' : CMat.Junk R) :
    ∃ v0 v, CMat.ctor dbg o IB junk r c nz = .ok v0 ∧ CMat.run dbg o IB zero v0 ops = .ok v ∧
      RoundTrips (compressedMatrix ampE dbg o IB j) (compressedMatrix ampE dbg' o IB j') (fun _ => True) v := by
  obtain ⟨v0, e0, h0⟩ := CMat.inv_ctor dbg o IB junk r c nz
  obtain ⟨v, e, _, h, _⟩ := CMat.run_inv dbg o IB zero ops v0 _ h0 hl
  exact ⟨v0, v, e0, e, roundtrips_of_good (good_compressedMatrix _ _ _ _ _ _ _ (fun d => h.invariants d) fun a _ => good_elt a)⟩

theorem good_coordinateVector {f f' : S R α Unit} (dbg dbg' : Bool) (P P' : CoordVec α → CooPar Nat α) (junk junk' : Coo.Junk Nat α) (x : CoordVec α)
    (hx : x.coo.invariants dbg (P x) = .ok ()) (hx' : x.coo.invariants dbg' (P' x) = .ok ())
    (h : ∀ a ∈ x.coo.val, Good f f' a) : Good (coordinateVector f dbg P junk) (coordinateVector f' dbg' P' junk') x := by
  obtain ⟨o1, h1⟩ := good_unbounded (R := R) (x := x.coo.idx) junk.1 junk'.1 (fun a _ => good_num a)
  obtain ⟨o2, h2⟩ := good_unbounded junk.2 junk'.2 h
  apply Exists.intro
  intro y
  exact Tr.bind (Tr.local CoordVec.size x y) (Tr.bind (Tr.upd _ _ x y)
    (Tr.bind (Tr.member (x := x) (y := ⟨x.size, y.coo⟩) (Tr.num x.coo.cap y.coo.cap) rfl)
    (Tr.bind (Tr.member (x := x) (y := ⟨x.size, ⟨x.coo.cap, y.coo.filled, y.coo.sortedFilled, y.coo.sorted, y.coo.idx, y.coo.val⟩⟩) (Tr.num x.coo.filled y.coo.filled) rfl)
    (Tr.bind (Tr.member (x := x) (y := ⟨x.size, ⟨x.coo.cap, x.coo.filled, y.coo.sortedFilled, y.coo.sorted, y.coo.idx, y.coo.val⟩⟩) (Tr.num x.coo.sortedFilled y.coo.sortedFilled) rfl)
    (Tr.bind (Tr.member (x := x) (y := ⟨x.size, ⟨x.coo.cap, x.coo.filled, x.coo.sortedFilled, y.coo.sorted, y.coo.idx, y.coo.val⟩⟩) (Tr.flag x.coo.sorted y.coo.sorted) rfl)
    (Tr.bind (Tr.member (x := x) (y := ⟨x.size, ⟨x.coo.cap, x.coo.filled, x.coo.sortedFilled, x.coo.sorted, y.coo.idx, y.coo.val⟩⟩) (h1 y.coo.idx) rfl)
    (Tr.bind (Tr.member (x := x) (y := ⟨x.size, ⟨x.coo.cap, x.coo.filled, x.coo.sortedFilled, x.coo.sorted, x.coo.idx, y.coo.val⟩⟩) (h2 y.coo.val) rfl) (Tr.test hx hx'))))))))

/-- **C116**, coordinate_vector, sorted or not. -/
theorem C116_coordinate_vector [AddCommMonoid R] (srt : List (Nat × R) → List (Nat × R)) (hsrt : CoordVec.Sorts srt) (full dbg dbg' : Bool) (IB : Nat)
    (junk : Coo.Junk Nat R) (n nz : Nat) (ops : List (CoordVecOp R × Coo.Junk Nat R))
    (hl : CooSpec.vlegalRun ⟨n, fun _ => none, true⟩ (ops.map (·.1))) (j j' : Coo.Junk Nat R) :
    ∃ v0 v, CoordVec.ctor srt full dbg IB junk n nz = .ok v0 ∧ CoordVec.run srt full dbg IB 0 v0 ops = .ok v ∧
      RoundTrips (coordinateVector ampE dbg (fun v => CoordVec.par srt full IB v.size) j) (coordinateVector ampE dbg' (fun v => CoordVec.par srt full IB v.size) j') (fun _ => True) v := by
  obtain ⟨v0, e0, h0⟩ := CoordVec.inv_ctor srt full dbg IB junk n nz
  obtain ⟨v, e1, h1, A, h2, _⟩ := CoordVec.run_inv srt hsrt full dbg IB ops v0 _ h0 hl
  rw [← h1] at h2
  exact ⟨v0, v, e0, e1, roundtrips_of_good (good_coordinateVector _ _ _ _ _ _ _ (h2.invariants dbg) (h2.invariants dbg') fun a _ => good_elt a)⟩

theorem good_coordinateMatrix {f f' : S R α Unit} (dbg dbg' : Bool) (junk junk' : CMat.Junk α) (x : CoordParts α) (hx : ∀ d, x.invariants d = .ok ())
    (h : ∀ a ∈ x.val, Good f f' a) : Good (coordinateMatrix f dbg junk) (coordinateMatrix f' dbg' junk') x := by
  obtain ⟨o1, h1⟩ := good_unbounded (R := R) (x := x.idx1) junk.1 junk'.1 (fun a _ => good_num a)
  obtain ⟨o2, h2⟩ := good_unbounded (R := R) (x := x.idx2) junk.1 junk'.1 (fun a _ => good_num a)
  obtain ⟨o3, h3⟩ := good_unbounded junk.2 junk'.2 h
  apply Exists.intro
  intro y
  exact Tr.bind (Tr.local CoordParts.size1 x y) (Tr.bind (Tr.local CoordParts.size2 x y)
    (Tr.bind (z := ⟨x.size1, x.size2, y.cap, y.filled, y.sortedFilled, y.sorted, y.idx1, y.idx2, y.val⟩) (Tr.whenLoading fun t => rfl)
    (Tr.bind (Tr.member (x := x) (y := ⟨x.size1, x.size2, y.cap, y.filled, y.sortedFilled, y.sorted, y.idx1, y.idx2, y.val⟩) (Tr.num x.cap y.cap) rfl)
    (Tr.bind (Tr.member (x := x) (y := ⟨x.size1, x.size2, x.cap, y.filled, y.sortedFilled, y.sorted, y.idx1, y.idx2, y.val⟩) (Tr.num x.filled y.filled) rfl)
    (Tr.bind (Tr.member (x := x) (y := ⟨x.size1, x.size2, x.cap, x.filled, y.sortedFilled, y.sorted, y.idx1, y.idx2, y.val⟩) (Tr.num x.sortedFilled y.sortedFilled) rfl)
    (Tr.bind (Tr.member (x := x) (y := ⟨x.size1, x.size2, x.cap, x.filled, x.sortedFilled, y.sorted, y.idx1, y.idx2, y.val⟩) (Tr.flag x.sorted y.sorted) rfl)
    (Tr.bind (Tr.member (x := x) (y := ⟨x.size1, x.size2, x.cap, x.filled, x.sortedFilled, x.sorted, y.idx1, y.idx2, y.val⟩) (h1 y.idx1) rfl)
    (Tr.bind (Tr.member (x := x) (y := ⟨x.size1, x.size2, x.cap, x.filled, x.sortedFilled, x.sorted, x.idx1, y.idx2, y.val⟩) (h2 y.idx2) rfl)
    (Tr.bind (Tr.member (x := x) (y := ⟨x.size1, x.size2, x.cap, x.filled, x.sortedFilled, x.sorted, x.idx1, x.idx2, y.val⟩) (h3 y.val) rfl) (Tr.test (hx dbg) (hx dbg')))))))))))

/-- Splitting the index pairs loses nothing. -/
theorem toMat_of (m : CoordMat α) : (CoordParts.of m).toMat = m := by
  obtain ⟨a, b, c, d, e, f, g, h⟩ := m
  show CoordMat.mk a b ⟨c, d, e, f, (g.map (·.1)).zip (g.map (·.2)), h⟩ = _
  have : (g.map (·.1)).zip (g.map (·.2)) = g := by
    induction g with
    | nil => rfl
    | cons p g ih => simpa using ih
  rw [this]

/-- **C116**, coordinate_matrix, sorted or not. -/
theorem C116_coordinate_matrix [AddCommMonoid R] (srt : List ((Nat × Nat) × R) → List ((Nat × Nat) × R)) (hsrt : CoordMat.Sorts srt) (full dbg dbg' : Bool) (o : Orient)
    (IB : Nat) (junk : Coo.Junk (Nat × Nat) R) (r c nz : Nat) (ops : List (CoordMatOp R × Coo.Junk (Nat × Nat) R))
    (hl : CooSpec.mlegalRun o ⟨r, c, fun _ => none, true⟩ (ops.map (·.1))) (j j' : CMat.Junk R) :
    ∃ v0 v, CoordMat.ctor srt full dbg junk r c nz = .ok v0 ∧ CoordMat.run srt full dbg o IB 0 v0 ops = .ok v ∧ (CoordParts.of v).toMat = v ∧
      RoundTrips (coordinateMatrix ampE dbg j) (coordinateMatrix ampE dbg' j') (fun _ => True) (CoordParts.of v) := by
  obtain ⟨v0, e0, h0⟩ := CoordMat.inv_ctor srt full dbg o IB junk r c nz
  obtain ⟨v, e1, h1, h1', A, h2, _⟩ := CoordMat.run_inv srt hsrt full dbg o IB ops v0 _ h0 hl
  refine ⟨v0, v, e0, e1, toMat_of v, roundtrips_of_good (good_coordinateMatrix _ _ _ _ _ (fun d => ?_) fun a _ => good_elt a)⟩
  unfold CoordParts.invariants CoordParts.of
  dsimp only
  rw [check_true (by rw [List.length_map]; exact h2.idxLen.symm), bind_ok, check_true (by rw [List.length_map]; exact h2.idxLen.symm), bind_ok, check_true h2.valLen.symm, bind_ok,
    check_true h2.fill, bind_ok, check_true h2.sfLe, bind_ok, check_true h2.sorted]

/-- **C116**, generalized_vector_of_vector. -/
theorem C116_generalized_vector_of_vector (dbg dbg' : Bool) (o : Orient) (IB : Nat) (zero : R) (junk : VoV.Junk R) (rws : Nat → CVec R) (r c : Nat)
    (ops : List (VVOp R × VoV.Junk R × (Nat → CVec R))) (hl : vvlegalRun zero ⟨r, c, fun _ => none⟩ (ops.map (·.1))) (j j' : CVec.Junk R) (row row' : Nat → CVec R) :
    ∃ v0 v, VoV.ctor dbg o IB zero junk rws r c = .ok v0 ∧ VoV.run dbg o IB zero v0 ops = .ok v ∧
      RoundTrips (generalizedVectorOfVector ampE dbg o IB j row) (generalizedVectorOfVector ampE dbg' o IB j' row') (fun _ => True) v := by
  obtain ⟨v0, e0, h0⟩ := VoV.inv_ctor dbg o IB zero junk rws r c
  obtain ⟨v, e, h⟩ := VoV.run_inv dbg o IB zero ops v0 _ h0 hl
  refine ⟨v0, v, e0, e, roundtrips_of_good ?_⟩
  obtain ⟨o1, h1⟩ := good_unbounded (x := v.data) row row' (fun l hm => good_compressedVector (f := (ampE : S R R Unit)) (f' := ampE) dbg dbg' IB j j' l (by
    obtain ⟨k, hk⟩ := List.mem_iff_getElem?.1 hm
    obtain ⟨E, hr⟩ := h.lines.2 k l _ rfl hk
    exact fun d => hr.invariants d) fun a _ => good_elt a)
  apply Exists.intro
  intro y
  exact Tr.bind (Tr.local VoV.size1 v y) (Tr.bind (Tr.local VoV.size2 v y) (Tr.bind (z := ⟨v.size1, v.size2, y.data⟩) (Tr.whenLoading fun t => rfl)
    (Tr.bind (Tr.member (x := v) (y := ⟨v.size1, v.size2, y.data⟩) (h1 y.data) rfl) (Tr.test (h.invariants dbg) (h.invariants dbg')))))

/-! ### Maps -/

theorem sortedInsert_last {l : List (Nat × α)} {k : Nat} {v : α} (h : ∀ p ∈ l, p.1 < k) : sortedInsert k v l = l ++ [(k, v)] := by
  induction l with
  | nil => rfl
  | cons p l ih =>
    obtain ⟨a, b⟩ := p
    have := h (a, b) (by simp)
    dsimp only at this
    simp only [sortedInsert]
    rw [if_neg (by omega), if_neg (by omega), ih fun q hq => h q (by simp [hq])]; rfl

theorem good_pairs {f f' : S R α Unit} (d : α) (l : List (Nat × α)) (h : ∀ p ∈ l, Good f f' p.2) (hs : l.Pairwise fun a b => a.1 < b.1) :
    ∃ o, (∀ s t, savePairs f l s ⟨false, t⟩ = .ok () s ⟨false, t ++ o⟩) ∧
      ∀ pre t, (∀ p ∈ pre, ∀ q ∈ l, p.1 < q.1) → loadPairs f' d l.length pre ⟨true, o ++ t⟩ = .ok () (pre ++ l) ⟨true, t⟩ := by
  induction l with
  | nil => exact ⟨[], fun s t => by simp [savePairs, pure_def], fun pre t _ => by simp [loadPairs, pure_def]⟩
  | cons p l ih =>
    obtain ⟨o, h1, h2⟩ := ih (fun q hq => h q (by simp [hq])) (List.pairwise_cons.1 hs).2
    obtain ⟨o0, h0⟩ := good_pair (h p (by simp))
    refine ⟨o0 ++ o, fun s t => ?_, fun pre t hp => ?_⟩
    · simp only [savePairs, (h0 (0, d)).save, h1, List.append_assoc]
    · simp only [List.length_cons, loadPairs, List.append_assoc, (h0 (0, d)).load]
      rw [sortedInsert_last fun q hq => hp q hq p (by simp), h2]
      · rw [List.append_assoc]; rfl
      · intro q hq w hw
        rcases List.mem_append.1 hq with hq | hq
        · exact hp q hq w (by simp [hw])
        · rw [List.mem_singleton.1 hq]; exact (List.pairwise_cons.1 hs).1 w hw

theorem good_stdMap {f f' : S R α Unit} (d d' : α) (x : List (Nat × α)) (h : ∀ p ∈ x, Good f f' p.2) (hs : x.Pairwise fun a b => a.1 < b.1) :
    Good (stdMap f d) (stdMap f' d') x := by
  obtain ⟨o, h1, h2⟩ := good_pairs d' x h hs
  refine ⟨[.num x.length] ++ ([.num 0] ++ o), fun y => ⟨fun t => ?_, fun t => ?_⟩⟩
  · simp [stdMap, pairs, bind_def, self, whenLoading, ampLocal, h1]
  · have := h2 [] t (by simp)
    simpa [stdMap, pairs, bind_def, self, whenLoading, upd, ampLocal] using this

theorem roundtrips_mappedVector {mp mp' : S R σ Unit} {Obj Same : σ → Prop} {x : MappedVec σ} (h : RoundTrips' mp mp' Obj Same x.map) :
    RoundTrips' (mappedVector mp) (mappedVector mp') (fun y => Obj y.map) (fun x' => x'.size = x.size ∧ Same x'.map) x := by
  obtain ⟨o, h1, h2⟩ := h
  refine ⟨[.num x.size] ++ ([] ++ o), fun t => ?_, fun y hy => ?_⟩
  · simp [mappedVector, bind_def, ampLocal, whenLoading, member, h1 _]
  · obtain ⟨x', hs, hl⟩ := h2 _ hy
    refine ⟨⟨x.size, x'⟩, ⟨rfl, hs⟩, fun t => ?_⟩
    simp [mappedVector, bind_def, ampLocal, whenLoading, member, upd, hl t]

theorem roundtrips_mappedMatrix {mp mp' : S R σ Unit} {Obj Same : σ → Prop} {x : MappedMat σ} (h : RoundTrips' mp mp' Obj Same x.map) :
    RoundTrips' (mappedMatrix mp) (mappedMatrix mp') (fun y => Obj y.map) (fun x' => x'.size1 = x.size1 ∧ x'.size2 = x.size2 ∧ Same x'.map) x := by
  obtain ⟨o, h1, h2⟩ := h
  refine ⟨[.num x.size1] ++ ([.num x.size2] ++ ([] ++ o)), fun t => ?_, fun y hy => ?_⟩
  · simp [mappedMatrix, bind_def, ampLocal, whenLoading, member, h1 _]
  · obtain ⟨x', hs, hl⟩ := h2 _ hy
    refine ⟨⟨x.size1, x.size2, x'⟩, ⟨rfl, rfl, hs⟩, fun t => ?_⟩
    simp [mappedMatrix, bind_def, ampLocal, whenLoading, member, upd, hl t]

/-- A `map_array` as its operations keep it. -/
def ArrayOk (m : MapArr α) : Prop := m.data.length = m.cap ∧ m.size ≤ m.cap

theorem ents_take (m : MapArr α) : m.ents = m.data.take m.size := rfl

theorem roundtrips_mapArr (dbg dbg' : Bool) (zero : R) (x : MapArr R) (hx : ArrayOk x) :
    RoundTrips' (mapArr ampE dbg zero) (mapArr ampE dbg' zero) ArrayOk (fun x' => ArrayOk x' ∧ x'.size = x.size ∧ x'.ents = x.ents) x := by
  obtain ⟨o, ho⟩ := tr_arrayFrom (f := pair (ampE : S R R Unit)) (f' := pair ampE) (x := x.data) (fun a _ => good_pair (good_elt a.2)) x.size 0 (by have := hx.1; have := hx.2; omega)
  refine ⟨[.num x.size] ++ ([] ++ o), fun t => ?_, fun y hy => ?_⟩
  · obtain ⟨z, hz, _⟩ := ho x.data (by have := hx.1; have := hx.2; omega)
    simp [mapArr, bind_def, ampLocal, whenLoading, member, hz.save]
  · have hr : ∃ m : MapArr R, y.resize dbg' zero x.size = .ok m ∧ m.size = x.size ∧ ArrayOk m := by
      have hy1 := hy.1
      have hy2 := hy.2
      by_cases c : x.size > y.cap
      · refine ⟨⟨2 * x.size, x.size, y.data.take (min x.size y.size) ++ List.replicate (2 * x.size - min x.size y.size) (0, zero)⟩, ?_, rfl, ?_, ?_⟩
        · simp only [MapArr.resize, check_true hy2, bind_ok, if_pos c, check_true (show 2 * x.size ≠ 0 by omega), check_true (show x.size ≤ 2 * x.size by omega)]
        · simp only [List.length_append, List.length_take, List.length_replicate]; omega
        · show x.size ≤ 2 * x.size; omega
      · refine ⟨⟨y.cap, x.size, y.data⟩, ?_, rfl, hy1, by show x.size ≤ y.cap; omega⟩
        simp only [MapArr.resize, check_true hy2, bind_ok, if_neg c, check_true (show x.size ≤ y.cap by omega)]
    obtain ⟨m, e, es, hm1, hm2⟩ := hr
    obtain ⟨z, hz, hl, hg⟩ := ho m.data (by omega)
    refine ⟨{ m with data := z }, ⟨⟨by show z.length = m.cap; omega, hm2⟩, es, ?_⟩, fun t => ?_⟩
    · show z.take m.size = x.data.take x.size
      rw [es]
      apply List.ext_getElem?; intro i
      rw [List.getElem?_take, List.getElem?_take]
      split
      · rw [hg i, if_pos ⟨Nat.zero_le _, by omega⟩]
      · rfl
    · simp [mapArr, bind_def, ampLocal, whenLoading, call, e, member, hz.load t]

theorem roundtrips'_of {ser ser' : S R σ Unit} {Obj : σ → Prop} {x : σ} (h : RoundTrips ser ser' Obj x) : RoundTrips' ser ser' Obj (fun x' => x' = x) x := by
  obtain ⟨o, h1, h2⟩ := h; exact ⟨o, h1, fun y hy => ⟨x, rfl, h2 y hy⟩⟩

theorem RoundTrips'.mono {ser ser' : S R σ Unit} {Obj Same Same' : σ → Prop} {x : σ} (h : RoundTrips' ser ser' Obj Same x) (hs : ∀ x', Same x' → Same' x') :
    RoundTrips' ser ser' Obj Same' x := by
  obtain ⟨o, h1, h2⟩ := h; exact ⟨o, h1, fun y hy => (h2 y hy).imp fun x' hx => ⟨hs _ hx.1, hx.2⟩⟩

theorem repr_ents {m m' : MapArr α} {s} (h : MapArr.Repr m s) (h' : ArrayOk m') (e : m'.ents = m.ents) : MapArr.Repr m' s := ⟨h'.1, h'.2, by rw [e]; exact h.2.2⟩

/-- **C116**, mapped_vector over `map_std` and over `map_array`: after any legal history in a build `dbg`, what is saved is restored by a build `dbg'` over any mapped_vector: over
`map_std` the object itself, over `map_array` (whose capacity is not saved) one with the same size, elements, stored positions and iteration order. -/
theorem C116_mapped_vector (dbg dbg' : Bool) (zero d d' : R) (n nz : Nat) (ops : List (SVOp R)) (hl : vlegalRun zero ⟨n, fun _ => none⟩ ops) :
    (∃ v0 v, MappedVec.ctor stdMapImpl dbg n nz = .ok v0 ∧ MappedVec.run stdMapImpl dbg zero v0 ops = .ok v ∧
      RoundTrips' (mappedVector (stdMap ampE d)) (mappedVector (stdMap ampE d')) (fun _ => True) (fun x' => x' = v) v) ∧
    ∃ v0 v, MappedVec.ctor (mapArrayImpl zero) dbg n nz = .ok v0 ∧ MappedVec.run (mapArrayImpl zero) dbg zero v0 ops = .ok v ∧
      RoundTrips' (mappedVector (mapArr ampE dbg zero)) (mappedVector (mapArr ampE dbg' zero)) (fun y => ArrayOk y.map)
        (fun x' => ArrayOk x'.map ∧ MappedVec.Observes (mapArrayImpl zero) dbg' zero x' (vrun zero ⟨n, fun _ => none⟩ ops)) v := by
  have start : ∀ {σ : Type} (I : MapImpl σ R) (Q : σ → (Nat → Option R) → Prop), MapLaws I Q → ∃ v0 v, MappedVec.ctor I dbg n nz = .ok v0 ∧ MappedVec.run I dbg zero v0 ops = .ok v ∧
      MappedVec.Inv Q v (vrun zero ⟨n, fun _ => none⟩ ops) := by
    intro σ I Q L
    obtain ⟨m0, g1, g2⟩ := L.reserve dbg I.empty _ (min nz n) L.empty (fun K _ hm => by
      cases K with
      | nil => simp
      | cons a K => exact absurd rfl (hm a (by simp)))
    obtain ⟨v, e1, h1⟩ := MappedVec.run_inv L dbg zero ops ⟨n, m0⟩ ⟨n, fun _ => none⟩ ⟨rfl, g2, fun _ _ => rfl⟩ hl
    exact ⟨⟨n, m0⟩, v, by simp [MappedVec.ctor, g1], e1, h1⟩
  constructor
  · obtain ⟨v0, v, e0, e, h⟩ := start _ _ stdMap_laws
    refine ⟨v0, v, e0, e, (roundtrips_mappedVector (roundtrips'_of (roundtrips_of_good (good_stdMap d d' v.map (fun a _ => good_elt a.2) h.2.1.1)))).mono ?_⟩
    rintro ⟨a, b⟩ ⟨h1, h2⟩
    cases v; cases h1; cases h2; rfl
  · obtain ⟨v0, v, e0, e, h⟩ := start _ _ (mapArray_laws zero)
    refine ⟨v0, v, e0, e, (roundtrips_mappedVector (roundtrips_mapArr dbg dbg' zero v.map ⟨h.2.1.1, h.2.1.2.1⟩)).mono ?_⟩
    rintro x' ⟨h1, h2, h3, h4⟩
    exact ⟨h2, MappedVec.Inv.observes (mapArray_laws zero) dbg' zero ⟨by rw [h1, h.1], repr_ents h.2.1 h2 h4, h.2.2⟩⟩

/-- **C116**, mapped_matrix over `map_std` and over `map_array`. -/
theorem C116_mapped_matrix (dbg dbg' : Bool) (o : Orient) (zero d d' : R) (r c nz : Nat) (ops : List (SMOp R)) (hl : mlegalRun zero ⟨r, c, fun _ => none⟩ ops) :
    (∃ v0 v, MappedMat.ctor stdMapImpl dbg r c nz = .ok v0 ∧ MappedMat.run stdMapImpl dbg o zero v0 ops = .ok v ∧
      RoundTrips' (mappedMatrix (stdMap ampE d)) (mappedMatrix (stdMap ampE d')) (fun _ => True) (fun x' => x' = v) v) ∧
    ∃ v0 v, MappedMat.ctor (mapArrayImpl zero) dbg r c nz = .ok v0 ∧ MappedMat.run (mapArrayImpl zero) dbg o zero v0 ops = .ok v ∧
      RoundTrips' (mappedMatrix (mapArr ampE dbg zero)) (mappedMatrix (mapArr ampE dbg' zero)) (fun y => ArrayOk y.map)
        (fun x' => ArrayOk x'.map ∧ MappedMat.Observes (mapArrayImpl zero) dbg' o zero x' (mrun zero ⟨r, c, fun _ => none⟩ ops)) v := by
  have start : ∀ {σ : Type} (I : MapImpl σ R) (Q : σ → (Nat → Option R) → Prop), MapLaws I Q → ∃ v0 v, MappedMat.ctor I dbg r c nz = .ok v0 ∧ MappedMat.run I dbg o zero v0 ops = .ok v ∧
      MappedMat.Inv Q o v (mrun zero ⟨r, c, fun _ => none⟩ ops) := by
    intro σ I Q L
    obtain ⟨m0, g1, g2⟩ := L.reserve dbg I.empty _ (MappedMat.restrictCapacity r c nz) L.empty (fun K _ hm => by
      cases K with
      | nil => simp
      | cons a K => exact absurd rfl (hm a (by simp)))
    obtain ⟨v, e1, h1⟩ := MappedMat.run_inv L dbg o zero ops ⟨r, c, m0⟩ ⟨r, c, fun _ => none⟩
      ⟨rfl, rfl, by convert g2 using 1; funext k; simp only [MappedMat.flat]; exact ite_self _, fun _ _ _ => rfl⟩ hl
    exact ⟨⟨r, c, m0⟩, v, by simp [MappedMat.ctor, g1], e1, h1⟩
  constructor
  · obtain ⟨v0, v, e0, e, h⟩ := start _ _ stdMap_laws
    refine ⟨v0, v, e0, e, (roundtrips_mappedMatrix (roundtrips'_of (roundtrips_of_good (good_stdMap d d' v.map (fun a _ => good_elt a.2) h.2.2.1.1)))).mono ?_⟩
    rintro ⟨a, b, m⟩ ⟨h1, h2, h3⟩
    cases v; cases h1; cases h2; cases h3; rfl
  · obtain ⟨v0, v, e0, e, h⟩ := start _ _ (mapArray_laws zero)
    refine ⟨v0, v, e0, e, (roundtrips_mappedMatrix (roundtrips_mapArr dbg dbg' zero v.map ⟨h.2.2.1.1, h.2.2.1.2.1⟩)).mono ?_⟩
    rintro x' ⟨h1, h1', h2, h3, h4⟩
    exact ⟨h2, MappedMat.Inv.observes (mapArray_laws zero) dbg' o zero ⟨by rw [h1, h.1], by rw [h1', h.2.1], repr_ents h.2.2.1 h2 h4, h.2.2.2⟩⟩

/-- **C116**, mapped_vector_of_mapped_vector over `map_std` of `map_std` (the default). -/
theorem C116_map_of_maps (dbg : Bool) (o : Orient) (zero d d' : R) (r c : Nat) (ops : List (MapMapOp R)) (hl : mlegalRun zero ⟨r, c, fun _ => none⟩ (ops.map (·.toSM))) :
    ∃ v0 v, MapMap.ctor stdMapImpl stdMapImpl dbg o r c = .ok v0 ∧ MapMap.run stdMapImpl stdMapImpl dbg o zero v0 ops = .ok v ∧
      RoundTrips (mapMap (stdMap (stdMap ampE d) [])) (mapMap (stdMap (stdMap ampE d') [])) (fun _ => True) v := by
  obtain ⟨v0, e0, g0⟩ := MapMap.ctor_inv (stdMap_laws (α := List (Nat × R))) stdMap_laws dbg o r c
  obtain ⟨v, e, h⟩ := MapMap.run_inv stdMap_laws stdMap_laws dbg o zero ops v0 _ g0 hl
  refine ⟨v0, v, e0, e, roundtrips_of_good ?_⟩
  obtain ⟨_, _, _, stored, hS, _, hl'⟩ := h
  obtain ⟨o1, h1⟩ := good_stdMap (f := stdMap (ampE : S R R Unit) d) (f' := stdMap ampE d') [] [] v.map (fun p hp => by
    have e := (hS.2 p.1 p.2).2 hp
    have := hl' p.1
    rw [e] at this
    exact good_stdMap d d' p.2 (fun a _ => good_elt a.2) this.2.1) hS.1
  apply Exists.intro
  intro y
  exact Tr.bind (Tr.local MapMap.size1 v y) (Tr.bind (Tr.local MapMap.size2 v y) (Tr.bind (z := ⟨v.size1, v.size2, y.map⟩) (Tr.whenLoading fun t => rfl)
    (Tr.member (x := v) (y := ⟨v.size1, v.size2, y.map⟩) (h1 y.map) rfl)))

/-- `ar & x & y`. -/
def both (m : S R σ Unit) (m' : S R τ Unit) : S R (σ × τ) Unit := do
  member Prod.fst (fun p x => (x, p.2)) m
  member Prod.snd (fun p x => (p.1, x)) m'

/-- **C116**: objects saved one after the other (hence any number of them) are restored in the same order. -/
theorem C116_sequence {m n : S R σ Unit} {m' n' : S R τ Unit} {Obj : σ → Prop} {Obj' : τ → Prop} {x : σ} {x' : τ} (h : RoundTrips m n Obj x) (h' : RoundTrips m' n' Obj' x') :
    RoundTrips (both m m') (both n n') (fun y => Obj y.1 ∧ Obj' y.2) (x, x') := by
  obtain ⟨o, h1, h2⟩ := h
  obtain ⟨o', h1', h2'⟩ := h'
  refine ⟨o ++ o', fun t => ?_, fun y hy t => ?_⟩
  · simp only [both, bind_def, member, h1 t, h1' _, List.append_assoc]
  · simp only [both, bind_def, member, List.append_assoc, h2 _ hy.1 _, h2' _ hy.2 t]

/-- Non-trivial cases: the demo histories are legal, so the theorems apply to them; an archive and a load, concretely. -/
example (dbg dbg' : Bool) (j j' : CVec.Junk Int) := C116_compressed_vector dbg dbg' 0 (0 : Int) j 8 0 [(.insert 4 40, j), (.insert 2 20, j)]
  ⟨⟨by decide, rfl⟩, ⟨show 2 < 8 by decide, rfl⟩, trivial⟩ j j'
example : vector (ampE : S Int Int Unit) (fun _ => 0) [4, 5] ⟨false, []⟩ = .ok () [4, 5] ⟨false, [.num 2, .elt 4, .elt 5]⟩ ∧
    vector (ampE : S Int Int Unit) (fun _ => 0) [9] ⟨true, [.num 2, .elt 4, .elt 5]⟩ = .ok () [4, 5] ⟨true, []⟩ := ⟨by rfl, by rfl⟩
example := C116_bounded_vector 3 (⟨2, [4, 5, 0]⟩ : Bounded Int) (by decide)

/-! ## C117: damaged archives -/

/-- Loading from a state satisfying `P` ends well in `Q`, or with an exception in `E`. -/
def Keeps (m : S R σ β) (P : σ → Prop) (Q : β → σ → Prop) (E : σ → Prop) : Prop := ∀ s tape, P s →
  (∃ b s' t, m s ⟨true, tape⟩ = .ok b s' ⟨true, t⟩ ∧ Q b s') ∨ ∃ f s', m s ⟨true, tape⟩ = .thrown f s' ∧ f ≠ .ub ∧ f ≠ .diverge ∧ E s'

theorem robust_of_keeps {m : S R σ Unit} {P : σ → Prop} (h : Keeps m P (fun _ => P) P) : Robust m P := by
  intro y tape hy
  rcases h y tape hy with ⟨_, s', t, e, h⟩ | h
  · exact .inl ⟨s', t, e, h⟩
  · exact .inr h

theorem Keeps.bind {m : S R σ β} {f : β → S R σ γ} {P : σ → Prop} {Q : β → σ → Prop} {E : σ → Prop} {T : γ → σ → Prop} (h : Keeps m P Q E) (h' : ∀ b, Keeps (f b) (Q b) T E) :
    Keeps (m >>= f) P T E := by
  intro s tape hs
  rcases h s tape hs with ⟨b, s', t, e, hq⟩ | ⟨f, s', e, h1, h2, h3⟩
  · rcases h' b s' t hq with ⟨c, s'', t', e', hq'⟩ | ⟨f, s'', e', h1, h2, h3⟩
    · exact .inl ⟨c, s'', t', by rw [bind_def, e]; exact e', hq'⟩
    · exact .inr ⟨f, s'', by rw [bind_def, e]; exact e', h1, h2, h3⟩
  · exact .inr ⟨f, s', by rw [bind_def, e], h1, h2, h3⟩

theorem Keeps.pure {P : σ → Prop} {E : σ → Prop} (b : β) : Keeps (Pure.pure b : S R σ β) P (fun _ => P) E := fun s tape hs => .inl ⟨b, s, tape, rfl, hs⟩

theorem Keeps.conseq {m : S R σ β} {P P' : σ → Prop} {Q Q' : β → σ → Prop} {E E' : σ → Prop} (h : Keeps m P Q E) (h1 : ∀ s, P' s → P s) (h2 : ∀ b s, Q b s → Q' b s)
    (h3 : ∀ s, E s → E' s) : Keeps m P' Q' E' := by
  intro s tape hs
  rcases h s tape (h1 s hs) with ⟨b, s', t, e, hq⟩ | ⟨f, s', e, a, b, c⟩
  · exact .inl ⟨b, s', t, e, h2 _ _ hq⟩
  · exact .inr ⟨f, s', e, a, b, h3 _ c⟩

theorem keeps_local {P : σ → Prop} (n : σ → Nat) : Keeps (ampLocal n : S R σ Nat) P (fun _ => P) P := by
  intro s tape hs
  rcases tape with _ | ⟨a | a | a, t⟩
  · exact .inr ⟨_, s, rfl, by simp, by simp, hs⟩
  · exact .inl ⟨_, s, _, rfl, hs⟩
  · exact .inr ⟨_, s, rfl, by simp, by simp, hs⟩
  · exact .inr ⟨_, s, rfl, by simp, by simp, hs⟩

theorem keeps_num : Keeps (ampN : S R Nat Unit) (fun _ => True) (fun _ _ => True) (fun _ => True) := by
  intro s tape hs
  rcases tape with _ | ⟨a | a | a, t⟩
  · exact .inr ⟨_, s, rfl, by simp, by simp, hs⟩
  · exact .inl ⟨_, a, _, rfl, hs⟩
  · exact .inr ⟨_, s, rfl, by simp, by simp, hs⟩
  · exact .inr ⟨_, s, rfl, by simp, by simp, hs⟩

theorem keeps_elt : Keeps (ampE : S R R Unit) (fun _ => True) (fun _ _ => True) (fun _ => True) := by
  intro s tape hs
  rcases tape with _ | ⟨a | a | a, t⟩
  · exact .inr ⟨_, s, rfl, by simp, by simp, hs⟩
  · exact .inr ⟨_, s, rfl, by simp, by simp, hs⟩
  · exact .inr ⟨_, s, rfl, by simp, by simp, hs⟩
  · exact .inl ⟨_, a, _, rfl, hs⟩

theorem keeps_member {get : σ → τ} {set : σ → τ → σ} {m : S R τ β} {P : σ → Prop} {p : τ → Prop} {q : β → τ → Prop} {r : τ → Prop} {Q : β → σ → Prop} {E : σ → Prop}
    (h : Keeps m p q r) (h1 : ∀ s, P s → p (get s)) (h2 : ∀ s b x, P s → q b x → Q b (set s x)) (h3 : ∀ s x, P s → r x → E (set s x)) : Keeps (member get set m) P Q E := by
  intro s tape hs
  rcases h _ tape (h1 s hs) with ⟨b, x, t, e, hq⟩ | ⟨f, x, e, a, b, c⟩
  · exact .inl ⟨b, set s x, t, by simp only [member, e], h2 _ _ _ hs hq⟩
  · exact .inr ⟨f, set s x, by simp only [member, e], a, b, h3 _ _ hs c⟩

theorem keeps_whenLoading {m : S R σ Unit} {P : σ → Prop} {Q : Unit → σ → Prop} {E : σ → Prop} (h : Keeps m P Q E) : Keeps (whenLoading m) P Q E := by
  intro s tape hs; simpa [whenLoading] using h s tape hs

theorem keeps_upd {f : σ → σ} {P Q E : σ → Prop} (h : ∀ s, P s → Q (f s)) : Keeps (upd f : S R σ Unit) P (fun _ => Q) E := fun s tape hs => .inl ⟨(), f s, tape, rfl, h s hs⟩

theorem keeps_cell {f : S R α Unit} {p : α → Prop} (hf : Keeps f p (fun _ => p) p) (k N : Nat) (hk : k < N) :
    Keeps (cell k f) (fun l => l.length = N ∧ ∀ a ∈ l, p a) (fun _ l => l.length = N ∧ ∀ a ∈ l, p a) (fun l => l.length = N ∧ ∀ a ∈ l, p a) := by
  rintro l tape ⟨h, hp⟩
  have e : l[k]? = some l[k] := List.getElem?_eq_getElem (by omega)
  rcases hf l[k] tape (hp _ (List.getElem_mem _)) with ⟨_, x, t, e', hx⟩ | ⟨g, x, e', a, b, hx⟩
  · refine .inl ⟨(), l.set k x, t, by simp only [cell, e, e'], by simpa using h, fun a ha => ?_⟩
    rcases List.mem_or_eq_of_mem_set ha with h | h
    · exact hp a h
    · rw [h]; exact hx
  · refine .inr ⟨g, l.set k x, by simp only [cell, e, e'], a, b, by simpa using h, fun a ha => ?_⟩
    rcases List.mem_or_eq_of_mem_set ha with h | h
    · exact hp a h
    · rw [h]; exact hx

theorem keeps_arrayFrom {f : S R α Unit} {p : α → Prop} (hf : Keeps f p (fun _ => p) p) (N : Nat) : ∀ n k, k + n ≤ N →
    Keeps (arrayFrom f k n) (fun l => l.length = N ∧ ∀ a ∈ l, p a) (fun _ l => l.length = N ∧ ∀ a ∈ l, p a) (fun l => l.length = N ∧ ∀ a ∈ l, p a) := by
  intro n
  induction n with
  | zero => intro k _; exact Keeps.pure ()
  | succ n ih => intro k hk; exact Keeps.bind (keeps_cell hf k N (by omega)) fun _ => ih (k + 1) (by omega)

theorem keeps_unbounded {f : S R α Unit} {p : α → Prop} (hf : Keeps f p (fun _ => p) p) (junk : Nat → α) (hj : ∀ i, p (junk i)) :
    Keeps (unbounded f junk) (fun l => ∀ a ∈ l, p a) (fun _ l => ∀ a ∈ l, p a) (fun l => ∀ a ∈ l, p a) := by
  refine Keeps.bind (keeps_local _) fun s => Keeps.bind (Q := fun _ l => l.length = s ∧ ∀ a ∈ l, p a) (keeps_whenLoading (keeps_upd fun l hl => ⟨arrayResize_length _ _ _, ?_⟩)) fun _ =>
    (keeps_arrayFrom hf s s 0 (by omega)).conseq (fun _ h => h) (fun _ _ h => h.2) (fun _ h => h.2)
  unfold Dense.arrayResize
  split
  · exact hl
  · intro a ha
    obtain ⟨i, _, rfl⟩ := List.mem_map.1 ha
    exact hj i

theorem keeps_fixed {f : S R R Unit} (hf : Keeps f (fun _ => True) (fun _ _ => True) (fun _ => True)) (N n k : Nat) (h : k + n ≤ N) :
    Keeps (arrayFrom f k n) (fun l => l.length = N) (fun _ l => l.length = N) (fun l => l.length = N) :=
  (keeps_arrayFrom (p := fun _ => True) hf N n k h).conseq (fun _ h => ⟨h, fun _ _ => trivial⟩) (fun _ _ h => h.1) (fun _ h => h.1)

/-- **C117**, the containers whose loading is safe whatever the archive holds: vector, bounded_vector, c_vector.  The object keeps what its operations rely on, whether or not
the load succeeds, and nothing outside the storage is touched. -/
theorem C117_dense_partial (junk : Nat → R) (N : Nat) :
    Robust (vector (ampE : S R R Unit) junk) (fun _ => True) ∧
    Robust (boundedVector (ampE : S R R Unit) N) (fun b => b.size ≤ N ∧ b.data.length = N) ∧
    Robust (cVector (ampE : S R R Unit) N) (fun v => v.size ≤ N ∧ v.data.length = N) := by
  refine ⟨?_, ?_, ?_⟩
  · exact robust_of_keeps ((keeps_unbounded (p := fun _ => True) keeps_elt junk fun _ => trivial).conseq (fun _ _ _ _ => trivial) (fun _ _ _ => trivial) fun _ _ => trivial)
  · refine robust_of_keeps (Keeps.bind (keeps_local _) fun s => Keeps.bind (Q := fun _ b => s ≤ N ∧ b.size = s ∧ b.data.length = N) (keeps_whenLoading ?_) fun _ => ?_)
    · intro b tape hb
      by_cases c : s > N
      · exact .inr ⟨.badSize, b, by rw [bind_def]; simp [Ser.test, c], by simp, by simp, hb⟩
      · exact .inl ⟨(), { b with size := s }, tape, by rw [bind_def]; simp [Ser.test, c, upd], by omega, rfl, hb.2⟩
    · by_cases c : s ≤ N
      · exact keeps_member (keeps_fixed keeps_elt N s 0 (by omega)) (fun b hb => hb.2.2) (fun b _ x hb hx => ⟨by dsimp only; omega, hx⟩) (fun b x hb hx => ⟨by dsimp only; omega, hx⟩)
      · exact fun b _ hb => absurd hb.1 c
  · refine robust_of_keeps (Keeps.bind (keeps_local _) fun s => Keeps.bind (Q := fun _ b => b.size ≤ N ∧ b.data.length = N) (keeps_whenLoading ?_) fun _ => ?_)
    · intro b tape hb
      by_cases c : s > N
      · exact .inr ⟨.badSize, b, by rw [bind_def]; simp [Ser.test, c], by simp, by simp, hb⟩
      · exact .inl ⟨(), { b with size := s }, tape, by rw [bind_def]; simp [Ser.test, c, upd], by dsimp only; omega, hb.2⟩
    · refine keeps_member (p := fun l => l.length = N) (q := fun _ l => l.length = N) (r := fun l => l.length = N) ?_ (fun b hb => hb.2) (fun b _ x hb hx => ⟨hb.1, hx⟩)
        (fun b x hb hx => ⟨hb.1, hx⟩)
      refine Keeps.bind (keeps_local _) fun c => Keeps.bind (Q := fun _ l => c ≤ N ∧ l.length = N) (keeps_whenLoading ?_) fun _ => ?_
      · intro l tape hl
        by_cases e : c > N
        · exact .inr ⟨.stdException, l, by simp [Ser.test, e], by simp, by simp, hl⟩
        · exact .inl ⟨(), l, tape, by simp [Ser.test, e], by omega, hl⟩
      · by_cases e : c ≤ N
        · exact (keeps_fixed keeps_elt N c 0 (by omega)).conseq (fun _ h => h.2) (fun _ _ h => h) fun _ h => h
        · exact fun l _ hl => absurd hl.1 e

/-- **C117**, the constant containers (an identity_matrix keeps its `size_common_` consistent). -/
theorem C117_constant_partial :
    Robust (zeroVector : S R ZeroVec Unit) (fun _ => True) ∧ Robust (unitVector : S R UnitVec Unit) (fun _ => True) ∧
    Robust (scalarVector (ampE : S R R Unit)) (fun _ => True) ∧ Robust (zeroMatrix : S R ZeroMat Unit) (fun _ => True) ∧
    Robust (identityMatrix : S R IdMat Unit) (fun m => m.common = min m.size1 m.size2) ∧ Robust (scalarMatrix (ampE : S R R Unit)) (fun _ => True) := by
  refine ⟨?_, ?_, ?_, ?_, ?_, ?_⟩
  · exact robust_of_keeps (Keeps.bind (keeps_local _) fun s => keeps_whenLoading (keeps_upd fun _ h => h))
  · exact robust_of_keeps (Keeps.bind (keeps_local _) fun s => Keeps.bind (Q := fun _ _ => True) (keeps_whenLoading (keeps_upd fun _ h => h)) fun _ =>
      keeps_member keeps_num (fun _ h => h) (fun _ _ _ h _ => h) (fun _ _ h _ => h))
  · exact robust_of_keeps (Keeps.bind (keeps_local _) fun s => Keeps.bind (Q := fun _ _ => True) (keeps_whenLoading (keeps_upd fun _ h => h)) fun _ =>
      keeps_member keeps_elt (fun _ h => h) (fun _ _ _ h _ => h) (fun _ _ h _ => h))
  · exact robust_of_keeps (Keeps.bind (keeps_local _) fun s => Keeps.bind (keeps_local _) fun s' => keeps_whenLoading (Keeps.bind (Q := fun _ _ => True) (keeps_upd fun _ h => h) fun _ => keeps_upd fun _ h => h))
  · refine robust_of_keeps (Keeps.bind (keeps_local _) fun s => Keeps.bind (keeps_local _) fun s' => keeps_whenLoading ?_)
    exact fun m tape hm => .inl ⟨(), ⟨s, s', min s s'⟩, tape, rfl, rfl⟩
  · exact robust_of_keeps (Keeps.bind (keeps_local _) fun s => Keeps.bind (keeps_local _) fun s' => Keeps.bind (Q := fun _ _ => True)
      (keeps_whenLoading (Keeps.bind (Q := fun _ _ => True) (keeps_upd fun _ h => h) fun _ => keeps_upd fun _ h => h)) fun _ =>
      keeps_member keeps_elt (fun _ h => h) (fun _ _ _ h _ => h) (fun _ _ h _ => h))

theorem keeps_pair {f : S R α Unit} {p : α → Prop} (hf : Keeps f p (fun _ => p) p) : Keeps (pair f) (fun x => p x.2) (fun _ x => p x.2) (fun x => p x.2) :=
  Keeps.bind (Q := fun _ x => p x.2) (keeps_member keeps_num (fun _ _ => trivial) (fun _ _ _ h _ => h) (fun _ _ h _ => h)) fun _ =>
    keeps_member hf (fun _ h => h) (fun _ _ _ _ h => h) (fun _ _ _ h => h)

/-- A `std::map`: keys in increasing order, values satisfying `p`. -/
def MapOk (p : α → Prop) (l : List (Nat × α)) : Prop := l.Pairwise (fun a b => a.1 < b.1) ∧ ∀ x ∈ l, p x.2

theorem mem_sortedInsert {l : List (Nat × α)} {k : Nat} {v : α} {x : Nat × α} (h : x ∈ sortedInsert k v l) : x = (k, v) ∨ x ∈ l := by
  induction l with
  | nil => exact .inl (by simpa [sortedInsert] using h)
  | cons p l ih =>
    obtain ⟨a, b⟩ := p
    simp only [sortedInsert] at h
    split at h
    · simpa using h
    · split at h
      · exact .inr h
      · rcases List.mem_cons.1 h with h | h
        · exact .inr (by simp [h])
        · exact (ih h).imp id fun h => by simp [h]

theorem mapOk_insert {p : α → Prop} {l : List (Nat × α)} (h : MapOk p l) (k : Nat) (v : α) (hv : p v) : MapOk p (sortedInsert k v l) := by
  refine ⟨?_, fun x hx => ?_⟩
  · have hs := h.1
    clear h
    induction l with
    | nil => simp [sortedInsert]
    | cons q l ih =>
      obtain ⟨a, b⟩ := q
      obtain ⟨h1, h2⟩ := List.pairwise_cons.1 hs
      simp only [sortedInsert]
      split
      · rename_i c
        refine List.pairwise_cons.2 ⟨fun x hx => ?_, hs⟩
        rcases List.mem_cons.1 hx with rfl | hx
        · exact c
        · exact Nat.lt_trans c (h1 x hx)
      · split
        · exact hs
        · refine List.pairwise_cons.2 ⟨fun x hx => ?_, ih h2⟩
          rcases mem_sortedInsert hx with rfl | hx
          · dsimp only; omega
          · exact h1 x hx
  · rcases mem_sortedInsert hx with rfl | hx
    · exact hv
    · exact h.2 x hx

theorem keeps_loadPairs {f : S R α Unit} {p : α → Prop} (hf : Keeps f p (fun _ => p) p) (d : α) (hd : p d) (n : Nat) : Keeps (loadPairs f d n) (MapOk p) (fun _ => MapOk p) (MapOk p) := by
  induction n with
  | zero => exact Keeps.pure ()
  | succ n ih =>
    intro s tape hs
    rcases keeps_pair hf (0, d) tape hd with ⟨_, x, t, e, hx⟩ | ⟨g, x, e, a, b, _⟩
    · simpa only [loadPairs, e] using ih _ t (mapOk_insert hs x.1 x.2 hx)
    · exact .inr ⟨g, s, by simp only [loadPairs, e], a, b, hs⟩

theorem keeps_stdMap {f : S R α Unit} {p : α → Prop} (hf : Keeps f p (fun _ => p) p) (d : α) (hd : p d) : Keeps (stdMap f d) (MapOk p) (fun _ => MapOk p) (MapOk p) := by
  refine Keeps.bind (Q := fun _ => MapOk p) (fun s tape hs => .inl ⟨s, s, tape, rfl, hs⟩) fun l => Keeps.bind (Q := fun _ => MapOk p)
    (keeps_whenLoading (keeps_upd fun _ _ => ⟨List.Pairwise.nil, by simp⟩)) fun _ => Keeps.bind (keeps_local _) fun n => Keeps.bind (keeps_local _) fun _ => ?_
  intro s tape hs
  simpa [pairs] using keeps_loadPairs hf d hd n s tape hs

/-- **C117**, mapped_vector, mapped_matrix and mapped_vector_of_mapped_vector over `map_std`: the maps stay maps.  (What is missing: the map of maps also needs a line past the last
one, see below.) -/
theorem C117_mapped_std_partial (d : R) :
    Robust (mappedVector (stdMap (ampE : S R R Unit) d)) (fun v => MapOk (fun _ => True) v.map) ∧
    Robust (mappedMatrix (stdMap (ampE : S R R Unit) d)) (fun v => MapOk (fun _ => True) v.map) ∧
    Robust (mapMap (stdMap (stdMap (ampE : S R R Unit) d) [])) (fun v => MapOk (MapOk fun _ => True) v.map) := by
  refine ⟨?_, ?_, ?_⟩
  · exact robust_of_keeps (Keeps.bind (keeps_local _) fun s => Keeps.bind (Q := fun _ v => MapOk (fun _ => True) v.map) (keeps_whenLoading (keeps_upd (by exact fun _ h => h))) fun _ =>
      keeps_member (keeps_stdMap keeps_elt d trivial) (fun _ h => h) (fun _ _ _ _ h => h) (fun _ _ _ h => h))
  · exact robust_of_keeps (Keeps.bind (keeps_local _) fun s => Keeps.bind (keeps_local _) fun s' => Keeps.bind (Q := fun _ v => MapOk (fun _ => True) v.map)
      (keeps_whenLoading (Keeps.bind (Q := fun _ v => MapOk (fun _ => True) v.map) (keeps_upd (by exact fun _ h => h)) fun _ => keeps_upd (by exact fun _ h => h))) fun _ =>
      keeps_member (keeps_stdMap keeps_elt d trivial) (fun _ h => h) (fun _ _ _ _ h => h) (fun _ _ _ h => h))
  · exact robust_of_keeps (Keeps.bind (keeps_local _) fun s => Keeps.bind (keeps_local _) fun s' => Keeps.bind (Q := fun _ v => MapOk (MapOk fun _ => True) v.map)
      (keeps_whenLoading (Keeps.bind (Q := fun _ v => MapOk (MapOk fun _ => True) v.map) (keeps_upd (by exact fun _ h => h)) fun _ => keeps_upd (by exact fun _ h => h))) fun _ =>
      keeps_member (keeps_stdMap (keeps_stdMap keeps_elt d trivial) [] ⟨List.Pairwise.nil, by simp⟩) (fun _ h => h) (fun _ _ _ _ h => h) (fun _ _ _ h => h))

/-- **C117**, the memory of a `map_array` stays in order (that its keys need not is shown below). -/
theorem C117_map_array_partial (dbg : Bool) (zero : R) : Robust (mapArr (ampE : S R R Unit) dbg zero) ArrayOk := by
  refine robust_of_keeps (Keeps.bind (keeps_local _) fun s => Keeps.bind (Q := fun _ m => s ≤ m.cap ∧ m.size = s ∧ m.data.length = m.cap) (keeps_whenLoading ?_) fun _ => ?_)
  · intro m tape hm
    have h1 := hm.1
    have h2 := hm.2
    by_cases c : s > m.cap
    · refine .inl ⟨(), ⟨2 * s, s, m.data.take (min s m.size) ++ List.replicate (2 * s - min s m.size) (0, zero)⟩, tape, ?_, ?_, rfl, ?_⟩
      · simp only [call, MapArr.resize, check_true h2, bind_ok, if_pos c, check_true (show 2 * s ≠ 0 by omega), check_true (show s ≤ 2 * s by omega)]
      · dsimp only; omega
      · simp only [List.length_append, List.length_take, List.length_replicate]; omega
    · refine .inl ⟨(), ⟨m.cap, s, m.data⟩, tape, ?_, ?_, rfl, h1⟩
      · simp only [call, MapArr.resize, check_true h2, bind_ok, if_neg c, check_true (show s ≤ m.cap by omega)]
      · dsimp only; omega
  · intro m tape hm
    obtain ⟨h1, h2, h3⟩ := hm
    have := keeps_member (R := R) (β := Unit) (P := fun x : MapArr R => x.cap = m.cap ∧ x.size = s ∧ x.data.length = m.cap) (Q := fun _ => ArrayOk) (E := ArrayOk) (get := MapArr.data) (set := fun m d => { m with data := d })
      (keeps_arrayFrom (p := fun _ => True) ((keeps_pair keeps_elt).conseq (fun _ _ => trivial) (fun _ _ _ => trivial) fun _ _ => trivial) m.cap s 0 (by omega))
      (fun x hx => ⟨hx.2.2, fun _ _ => trivial⟩) (fun x _ l hx hl => ⟨by rw [hl.1, hx.1], by show x.size ≤ x.cap; omega⟩) (fun x l hx hl => ⟨by rw [hl.1, hx.1], by show x.size ≤ x.cap; omega⟩)
    exact this m tape ⟨rfl, h2, h3⟩

/-- **C117, refuted** for matrix and vector_of_vector: the sizes are set before the elements are read.  An archive cut short leaves (after the exception) a matrix that claims elements it
has no storage for, and reading one of them in a release build is undefined; the sizes and the number of elements of a damaged archive are not compared either, so it loads without complaint. -/
theorem C117_matrix_refuted (o : Orient) (junk : Nat → Int) :
    (∃ (x : Dense Int) (out cut : List (Tok Int)) (y' : Dense Int), Saves (matrix ampE junk) x out ∧ cut <+: out ∧
      matrix ampE junk ⟨0, 0, []⟩ ⟨true, cut⟩ = .thrown .stdException y' ∧ y'.size1 = 1 ∧ y'.size2 = 1 ∧ y'.get false o 0 0 = .error .ub) ∧
    (∃ (tape : List (Tok Int)) (y' : Dense Int), matrix ampE junk ⟨0, 0, []⟩ ⟨true, tape⟩ = .ok () y' ⟨true, []⟩ ∧ y'.size1 = 1 ∧ y'.size2 = 1 ∧ y'.get false o 0 0 = .error .ub) ∧
    ∃ (x : VV Int) (out cut : List (Tok Int)) (y' : VV Int), Saves (vectorOfVector ampE junk) x out ∧ cut <+: out ∧
      vectorOfVector ampE junk ⟨0, 0, []⟩ ⟨true, cut⟩ = .thrown .stdException y' ∧ y'.size1 = 1 ∧ y'.size2 = 1 ∧ y'.get false o 0 0 = .error .ub := by
  refine ⟨⟨⟨1, 1, [7]⟩, [.num 1, .num 1, .num 1, .elt 7], [.num 1, .num 1], ⟨1, 1, []⟩, fun t => ?_, by decide, by rfl, rfl, rfl, by cases o <;> rfl⟩,
    ⟨[.num 1, .num 1, .num 0], ⟨1, 1, []⟩, by rfl, rfl, rfl, by cases o <;> rfl⟩,
    ⟨⟨1, 1, [[7], []]⟩, [.num 1, .num 1, .num 2, .num 1, .elt 7, .num 0], [.num 1, .num 1], ⟨1, 1, []⟩, fun t => ?_, by decide, by rfl, rfl, rfl, by cases o <;> rfl⟩⟩
  · simp [matrix, unbounded, arrayFrom, cell, bind_def, pure_def, ampLocal, ampE, whenLoading, member]
  · simp [vectorOfVector, vector, unbounded, arrayFrom, cell, bind_def, pure_def, ampLocal, ampE, whenLoading, member]

/-- **C117, refuted** for c_matrix: the sizes are not compared with the extents of the array (c_vector compares), so a damaged archive, or one of a larger c_matrix type read as far as the sizes,
gives a matrix whose elements lie outside its array; not even debug builds notice when such an element is read. -/
theorem C117_c_matrix_refuted (dbg : Bool) : ∃ (tape : List (Tok Int)) (y' : CMatx Int),
    cMatrix ampE 1 1 ⟨0, 0, [0]⟩ ⟨true, tape⟩ = .ok () y' ⟨true, []⟩ ∧ y'.size1 = 5 ∧ y'.size2 = 5 ∧ y'.get dbg 1 4 4 = .error .ub := by
  exact ⟨[.num 5, .num 5, .num 1, .elt 7], ⟨5, 5, [7]⟩, by rfl, rfl, rfl, by cases dbg <;> rfl⟩

/-- **C117, refuted** for the compressed and coordinate containers: the counts are set before the arrays are read.  An archive cut short leaves a container that claims stored elements without
storage; the next read of an element is undefined, in debug builds as well. -/
theorem C117_sparse_refuted (dbg : Bool) (junk : CVec.Junk Int) :
    (∃ (x : CVec Int) (out cut : List (Tok Int)) (y y' : CVec Int), CVec.ctor dbg 0 junk 0 0 = .ok y ∧ Saves (compressedVector ampE dbg 0 junk) x out ∧ cut <+: out ∧
      compressedVector ampE dbg 0 junk y ⟨true, cut⟩ = .thrown .stdException y' ∧ 0 < y'.size ∧ y'.get dbg 0 0 0 = .error .ub) ∧
    (∃ (x : CMat Int) (out cut : List (Tok Int)) (y y' : CMat Int), CMat.ctor dbg .row 0 junk 0 0 0 = .ok y ∧ Saves (compressedMatrix ampE dbg .row 0 junk) x out ∧ cut <+: out ∧
      compressedMatrix ampE dbg .row 0 junk y ⟨true, cut⟩ = .thrown .stdException y' ∧ 0 < y'.size1 ∧ 0 < y'.size2 ∧ y'.get false .row 0 0 0 0 = .error .ub) ∧
    (∃ (x : CoordVec Int) (out cut : List (Tok Int)) (y y' : CoordVec Int), CoordVec.ctor id true dbg 0 (fun _ => 0, fun _ => 0) 0 0 = .ok y ∧
      Saves (coordinateVector ampE dbg (fun v => CoordVec.par id true 0 v.size) junk) x out ∧ cut <+: out ∧
      coordinateVector ampE dbg (fun v => CoordVec.par id true 0 v.size) junk y ⟨true, cut⟩ = .thrown .stdException y' ∧ 1 < y'.size ∧ y'.get id true dbg 0 0 1 = .error .ub) := by
  refine ⟨⟨⟨1, 1, 1, [0], [7]⟩, [.num 1, .num 1, .num 1, .num 1, .num 0, .num 1, .elt 7], [.num 1, .num 1, .num 1], ⟨0, 0, 0, [], []⟩, ⟨1, 1, 1, [], []⟩, by cases dbg <;> rfl, fun t => ?_, by decide,
      by cases dbg <;> rfl, by decide, by cases dbg <;> rfl⟩,
    ⟨⟨1, 1, 1, 2, 1, [0, 1], [0], [7]⟩, [.num 1, .num 1, .num 1, .num 2, .num 1, .num 2, .num 0, .num 1, .num 1, .num 0, .num 1, .elt 7], [.num 1, .num 1, .num 1, .num 2, .num 1],
      ⟨0, 0, 0, 1, 0, [0], [], []⟩, ⟨1, 1, 1, 2, 1, [0], [], []⟩, by cases dbg <;> rfl, fun t => ?_, by decide, by cases dbg <;> rfl, by decide, by decide, by rfl⟩,
    ⟨⟨2, ⟨2, 2, 2, true, [0, 1], [7, 8]⟩⟩, [.num 2, .num 2, .num 2, .num 2, .flag true, .num 2, .num 0, .num 1, .num 2, .elt 7, .elt 8], [.num 2, .num 2, .num 2, .num 2, .flag true],
      ⟨0, ⟨1, 0, 0, true, [0], [0]⟩⟩, ⟨2, ⟨2, 2, 2, true, [0], [0]⟩⟩, by cases dbg <;> rfl, fun t => ?_, by decide, by cases dbg <;> rfl, by decide, by cases dbg <;> rfl⟩⟩
  · cases dbg <;> simp [compressedVector, unbounded, arrayFrom, cell, bind_def, pure_def, ampLocal, ampE, ampN, whenLoading, member, Ser.test] <;> rfl
  · cases dbg <;> simp [compressedMatrix, unbounded, arrayFrom, cell, bind_def, pure_def, ampLocal, ampE, ampN, whenLoading, member, Ser.test] <;> rfl
  · cases dbg <;> simp [coordinateVector, unbounded, arrayFrom, cell, bind_def, pure_def, ampLocal, ampE, ampN, ampB, whenLoading, member, Ser.test] <;> rfl

/-- **C117, refuted** for a `map_array`: it is resized before its pairs are read, and pairs not read keep their old keys.  An archive cut short leaves a mapped_vector in which a stored element
(index 6, value 8, as the traversal shows) is not found by index. -/
theorem C117_map_array_refuted (dbg : Bool) : ∃ (x : MappedVec (MapArr Int)) (out cut : List (Tok Int)) (y' : MappedVec (MapArr Int)),
    Saves (mappedVector (mapArr ampE dbg 0)) x out ∧ cut <+: out ∧ mappedVector (mapArr ampE dbg 0) ⟨9, MapArr.empty⟩ ⟨true, cut⟩ = .thrown .stdException y' ∧
    y'.traverse (mapArrayImpl 0) = .ok [(5, 7), (6, 8), (0, 0)] ∧ y'.get (mapArrayImpl 0) dbg 0 6 = .ok 0 := by
  refine ⟨⟨9, ⟨3, 3, [(5, 7), (6, 8), (7, 9)]⟩⟩, [.num 9, .num 3, .num 5, .elt 7, .num 6, .elt 8, .num 7, .elt 9], [.num 9, .num 3, .num 5, .elt 7, .num 6, .elt 8], ⟨9, ⟨6, 3, [(5, 7), (6, 8), (0, 0), (0, 0), (0, 0), (0, 0)]⟩⟩, fun t => ?_, by decide,
    by cases dbg <;> rfl, by rfl, by cases dbg <;> rfl⟩
  cases dbg <;> simp [mappedVector, mapArr, pair, arrayFrom, cell, bind_def, pure_def, ampLocal, ampE, ampN, whenLoading, member]

/-- **C117, refuted** for mapped_vector_of_mapped_vector: loading starts by clearing the map, and with it the line past the last one that every iterator relies on.  An archive cut short leaves
a matrix whose `begin1 ()` is undefined in release builds. -/
theorem C117_map_of_maps_refuted : ∃ (x : MapMapStd Int) (out cut : List (Tok Int)) (y y' : MapMapStd Int), MapMap.ctor stdMapImpl stdMapImpl false .row 1 1 = .ok y ∧
    Saves (mapMap (stdMap (stdMap ampE 0) [])) x out ∧ cut <+: out ∧ mapMap (stdMap (stdMap ampE 0) []) y ⟨true, cut⟩ = .thrown .stdException y' ∧
    (MIter.mapOfMaps false .row 0 y').find .one 0 0 0 = .error .ub := by
  refine ⟨⟨1, 1, [(1, [])]⟩, [.num 1, .num 1, .num 1, .num 0, .num 1, .num 0, .num 0], [.num 1, .num 1], ⟨1, 1, [(1, [])]⟩, ⟨1, 1, []⟩, by rfl, fun t => ?_, by decide, by rfl, by rfl⟩
  simp [mapMap, stdMap, pairs, savePairs, pair, self, bind_def, pure_def, ampLocal, ampN, whenLoading, member]

end Ser
end Ublas
