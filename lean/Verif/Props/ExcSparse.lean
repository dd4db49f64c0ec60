import Verif.Model.ExcSparse
import Verif.Props.ExcContainers
import Verif.Props.CompressedMatrix
import Verif.Props.Coo
/-! # C105 for compressed_matrix and the coordinate containers -/
namespace Ublas.XC
open Search SparseSpec
variable {κ α : Type}

/-! ## compressed_matrix -/

theorem cmReserve_eq (fail : Nat → Bool) (dbg : Bool) (o : Orient) (IB : Nat) (zero : α) (junk : CMat.Junk α) (nz : Nat) (v : CMat α) (k c k1 : Nat)
    (hc : c = CMat.restrictCapacity v.size1 v.size2 nz) (hk : k1 = if c ≠ v.idx2.length ∧ c ≠ 0 then k + 1 else k) :
    cmReserve fail dbg o IB zero nz v k =
      if c ≠ v.idx2.length ∧ c ≠ 0 ∧ fail k = true then .bad { v with cap := c }
      else if c ≠ v.val.length ∧ c ≠ 0 ∧ fail k1 = true then .bad { v with cap := c, idx2 := resizeInit v.idx2 c 0 }
      else match v.reserve dbg o IB zero junk nz true with
        | .ok v' => .ok () v' (if c ≠ v.val.length ∧ c ≠ 0 then k1 + 1 else k1)
        | .error f => .err f := by
  subst hc
  unfold cmReserve
  simp only [bind_upd, bind_self]
  rw [bind_room]
  split
  · rfl
  · simp only [bind_upd, bind_self]
    rw [bind_room, ← hk]
    split
    · rfl
    · simp only [bind_upd, bind_self, CMat.reserve, if_true, bind_ok]
      generalize (CMat.mk v.size1 v.size2 (CMat.restrictCapacity v.size1 v.size2 nz) v.filled1 (min (CMat.restrictCapacity v.size1 v.size2 nz) v.filled2) v.idx1
        (resizeInit v.idx2 (CMat.restrictCapacity v.size1 v.size2 nz) 0) (resizeInit v.val (CMat.restrictCapacity v.size1 v.size2 nz) zero)) = w
      cases hw : w.invariants dbg o IB with
      | ok u => rfl
      | error f => rfl

/-- The matrix with both arrays enlarged to `c`. -/
theorem core_resized {o : Orient} {IB : Nat} {v : CMat α} {E s} (h : CMat.Core o IB v E s) (zero : α) (c : Nat) (hc : v.filled2 ≤ c) :
    CMat.Core o IB { v with cap := c, idx2 := resizeInit v.idx2 c 0, val := resizeInit v.val c zero } E s where
  idx1Len := h.idx1Len
  idx2Len := CVec.length_resizeInit _ _ _
  valLen := CVec.length_resizeInit _ _ _
  pos := h.pos
  le := h.le
  fill := hc
  len := h.len
  minors := by
    show (resizeInit v.idx2 c 0).take v.filled2 = _
    rw [CVec.take_resizeInit _ _ _ _ hc (by rw [h.idx2Len]; exact h.fill)]; exact h.minors
  vals := by
    show (resizeInit v.val c zero).take v.filled2 = _
    rw [CVec.take_resizeInit _ _ _ _ hc (by rw [h.valLen]; exact h.fill)]; exact h.vals
  rep := h.rep
  below := h.below
  off := h.off

/-- **C105 (compressed_matrix, partial).** `reserve (nz)` with a capacity not below the number of stored elements: without failures it is the operation of C28; after `bad_alloc` of either array the sizes and
every element are unchanged for reading.  Missing: the matrix can be modified again. -/
theorem C105_cmatrix_reserve_partial (fail : Nat → Bool) (dbg : Bool) (o : Orient) (IB : Nat) (zero : α) (junk : CMat.Junk α) (nz : Nat) (v : CMat α) (s : CMatS α) (h : CMat.Inv o IB v s) (k : Nat)
    (hnz : v.filled2 ≤ CMat.restrictCapacity v.size1 v.size2 nz) :
    (∀ v' q, cmReserve fail dbg o IB zero nz v k = .ok () v' q → v.reserve dbg o IB zero junk nz true = .ok v') ∧
    (∀ v', cmReserve fail dbg o IB zero nz v k = .bad v' → v'.size1 = s.rows ∧ v'.size2 = s.cols ∧
      ∀ dbg i j, i < s.rows → j < s.cols → v'.get dbg o IB zero i j = .ok ((s.val (i, j)).getD zero)) := by
  obtain ⟨E, h, h1, h2, h3, h4⟩ := h
  obtain ⟨k1, hk1⟩ : ∃ k1, k1 = if CMat.restrictCapacity v.size1 v.size2 nz ≠ v.idx2.length ∧ CMat.restrictCapacity v.size1 v.size2 nz ≠ 0 then k + 1 else k := ⟨_, rfl⟩
  rw [cmReserve_eq fail dbg o IB zero junk nz v k _ k1 rfl hk1]
  have hget : ∀ dbg i j, i < s.rows → j < s.cols → v.get dbg o IB zero i j = .ok ((s.val (i, j)).getD zero) := by
    intro dbg i j hi hj
    rw [h.get dbg zero (by rw [h1, h2]; exact CMat.minor_lt o hi hj), h1, h2, CMat.flat_at o s hi hj]
  split
  · exact ⟨fun _ _ e => (by cases e), fun v' e => (by cases e; exact ⟨h1, h2, hget⟩)⟩
  · split
    · refine ⟨fun _ _ e => (by cases e), fun v' e => ?_⟩
      cases e
      refine ⟨h1, h2, fun dbg i j hi hj => ?_⟩
      have hw := core_resized h zero _ hnz
      have hm : o.indexm i j < o.sizem v.size1 v.size2 := by rw [h1, h2]; exact CMat.minor_lt o hi hj
      unfold CMat.get CMat.findElement
      rcases hw.slot (i := i) (j := j) hm with ⟨n, w, q1, q2, q3, q4, q5⟩ | ⟨q1, q2⟩
      · have q1' : CMat.slot o IB ({ v with cap := CMat.restrictCapacity v.size1 v.size2 nz, idx2 := resizeInit v.idx2 (CMat.restrictCapacity v.size1 v.size2 nz) 0 } : CMat α) i j = .ok (some n) := q1
        have hv : v.val[n]? = some w := by rw [h.valAt q2, q3]; rfl
        simp only [h1, h2, CMat.flat_at o s hi hj] at q4
        simp only [q1', bind_ok, rd_eq_ok.2 hv, q4, Option.getD_some]
      · have q1' : CMat.slot o IB ({ v with cap := CMat.restrictCapacity v.size1 v.size2 nz, idx2 := resizeInit v.idx2 (CMat.restrictCapacity v.size1 v.size2 nz) 0 } : CMat α) i j = .ok none := q1
        simp only [h1, h2, CMat.flat_at o s hi hj] at q2
        simp only [q1', bind_ok, q2, Option.getD_none]
    · cases hr : v.reserve dbg o IB zero junk nz true with
      | ok w => exact ⟨fun v' q e => (by cases e; rfl), fun _ e => (by cases e)⟩
      | error f => exact ⟨fun _ _ e => (by cases e), fun _ e => (by cases e)⟩

/-- Insertion into a matrix whose announced capacity is larger than one of its arrays. -/
theorem insert_beyond {o : Orient} {IB : Nat} {v w : CMat α} {E s} (hw : CMat.Core o IB w E s) (h1 : v.size1 = w.size1) (h2 : v.size2 = w.size2) (hf1 : v.filled1 = w.filled1)
    (hf2 : v.filled2 = w.filled2) (hi1 : v.idx1 = w.idx1) (hi2 : v.idx2 = w.idx2) (hcap : v.filled2 < v.cap)
    (hshort : v.idx2.length = v.filled2 ∨ (v.filled2 < v.idx2.length ∧ v.val.length = v.filled2)) {i j : Nat} (hi : i < v.size1) (hj : j < v.size2)
    (hnone : s (o.indexM i j * o.sizem w.size1 w.size2 + o.indexm i j) = none) (dbg : Bool) (zero : α) (junk : CMat.Junk α) (t : α) :
    v.insertElement dbg o IB zero junk i j t = .error .ub := by
  have hm : o.indexm i j < o.sizem w.size1 w.size2 := by rw [← h1, ← h2]; exact CMat.minor_lt o hi hj
  have hM : o.indexM i j < o.sizeM w.size1 w.size2 := by rw [← h1, ← h2]; exact CMat.major_lt o hi hj
  have hslot : v.slot o IB i j = .ok none := by
    have : v.slot o IB i j = w.slot o IB i j := by simp only [CMat.slot, CMat.seek, hf1, hi1, hi2]
    rw [this]
    rcases hw.slot (i := i) (j := j) hm with ⟨n, x, _, _, _, q4, _⟩ | ⟨q1, _⟩
    · rw [hnone] at q4; cases q4
    · exact q1
  have hdup : (if dbg = true then (do
      let r ← v.findElement dbg o IB i j
      check dbg (r.isNone = true) .badIndex : M Unit) else .ok ()) = .ok () := by
    split
    · simp only [CMat.findElement, hslot, bind_ok, Option.isNone_none, check_True]
    · rfl
  obtain ⟨w', o1, o2, o3, o4, o5, o6, o7⟩ := hw.openTo dbg (o.indexM i j + 2) (by omega)
  obtain ⟨l, hl⟩ : ∃ l, loop (fun k l => wr dbg l (w.filled1 + k) (w.filled2 + IB)) (o.indexM i j + 2 - w.filled1) w.idx1 = .ok l := by
    unfold CMat.openTo at o1
    cases hq : loop (fun k l => wr dbg l (w.filled1 + k) (w.filled2 + IB)) (o.indexM i j + 2 - w.filled1) w.idx1 with
    | ok l => exact ⟨l, rfl⟩
    | error e => rw [hq] at o1; cases o1
  have ho1 : w' = { w with filled1 := max w.filled1 (o.indexM i j + 2), idx1 := l } := by
    unfold CMat.openTo at o1
    rw [hl, bind_ok] at o1
    exact (Except.ok.inj o1).symm
  subst ho1
  obtain ⟨n, q1, q2, q3⟩ := o2.seek (e1 := o.indexM i j) (e2 := o.indexm i j) (by simp only; omega) hm
  have hn : n ≤ w.filled2 := by exact q2
  have hopen : v.openTo dbg IB (o.indexM i j + 2) = .ok { v with filled1 := max v.filled1 (o.indexM i j + 2), idx1 := l } := by
    unfold CMat.openTo
    rw [hf1, hf2, hi1, hl, bind_ok]
  have hseek : CMat.seek IB ({ v with filled1 := max v.filled1 (o.indexM i j + 2), idx1 := l } : CMat α) (o.indexM i j) (o.indexm i j) = .ok (n, false) := by
    have : CMat.seek IB ({ v with filled1 := max v.filled1 (o.indexM i j + 2), idx1 := l } : CMat α) (o.indexM i j) (o.indexm i j) =
        CMat.seek IB ({ w with filled1 := max w.filled1 (o.indexM i j + 2), idx1 := l } : CMat α) (o.indexM i j) (o.indexm i j) := by simp only [CMat.seek, hi2]
    rw [this, q1]
    simp only at hnone ⊢
    rw [hnone]; rfl
  unfold CMat.insertElement
  rw [hdup, bind_ok, if_neg (by omega), bind_ok, check_true hcap, bind_ok]
  simp only [hopen, hseek, bind_ok, check_True]
  rcases hshort with hs | ⟨hs1, hs2⟩
  · rcases insert_overflow v.idx2 n v.filled2 (o.indexm i j + IB) (by omega) hs.symm with q | ⟨q, q'⟩
    · rw [q]; rfl
    · rw [q, bind_ok, q']; rfl
  · obtain ⟨a1, a2, ha1, ha2, _, _⟩ := insert_prefix v.idx2 n v.filled2 (o.indexm i j + IB) (by omega) hs1
    rw [ha1, bind_ok, ha2, bind_ok]
    rcases insert_overflow v.val n v.filled2 t (by omega) hs2.symm with q | ⟨q, q'⟩
    · rw [q]; rfl
    · rw [q, bind_ok, q']; rfl

/-- **C105 refuted for compressed_matrix.** Take any full matrix (as many stored elements as its capacity) and any index pair without a stored element.  If inserting there runs out of memory - in either of its
two allocations - the matrix is left with a capacity its arrays do not have, and repeating the insertion, with memory available again, writes behind the end of an array, in release and in debug
builds (matrix_sparse.hpp:2999 sets the capacity before lines 3001-3002 allocate). -/
theorem C105_cmatrix_retry_refuted (fail : Nat → Bool) (dbg : Bool) (o : Orient) (IB : Nat) (zero : α) (junk : CMat.Junk α) (v : CMat α) (s : CMatS α) (h : CMat.Inv o IB v s) (hfull : v.filled2 = v.cap)
    (i j : Nat) (t : α) (hi : i < s.rows) (hj : j < s.cols) (hnone : s.val (i, j) = none) (k : Nat) (hf : fail k = true ∨ fail (k + 1) = true) :
    ∃ v', cmInsert fail dbg o IB zero junk i j t v k = .bad v' ∧ ∀ (dbg' : Bool) (junk' : CMat.Junk α), v'.insertElement dbg' o IB zero junk' i j t = .error .ub := by
  obtain ⟨E, h, h1, h2, h3, h4⟩ := h
  have hi' : i < v.size1 := by omega
  have hj' : j < v.size2 := by omega
  have hm : o.indexm i j < o.sizem v.size1 v.size2 := CMat.minor_lt o hi' hj'
  have hn : CMat.flat o s (o.indexM i j * o.sizem v.size1 v.size2 + o.indexm i j) = none := by rw [h1, h2, CMat.flat_at o s hi hj]; exact hnone
  have hkey : o.indexM i j * o.sizem v.size1 v.size2 + o.indexm i j < v.size1 * v.size2 := by
    have := CMat.key_lt (CMat.major_lt o hi' hj') hm
    rwa [CMat.sizeM_mul o] at this
  have hroom := h.filled2_lt hkey hn
  have hc : v.filled2 < CMat.restrictCapacity v.size1 v.size2 (2 * v.filled2) := CMat.lt_restrict hroom (fun _ => rfl)
  generalize hcc : CMat.restrictCapacity v.size1 v.size2 (2 * v.filled2) = c at hc
  have hci : c ≠ v.idx2.length := by rw [h.idx2Len]; omega
  have hcv : c ≠ v.val.length := by rw [h.valLen]; omega
  have hfind : (if dbg = true then (do
      let r ← v.findElement dbg o IB i j
      check dbg (r.isNone = true) .badIndex : M Unit) else .ok ()) = .ok () := by
    split
    · rw [h.findElement dbg hm, bind_ok, hn]; simp
    · rfl
  have hstart : ∀ v', cmReserve fail dbg o IB zero (2 * v.filled2) v k = .bad v' → cmInsert fail dbg o IB zero junk i j t v k = .bad v' := by
    intro v' hb
    unfold cmInsert
    simp only [bind_self]
    rw [hfind]
    simp only [bind_eval_ok]
    rw [if_pos (by omega)]
    show X.bind (cmReserve fail dbg o IB zero (2 * v.filled2)) _ v k = _
    unfold X.bind
    rw [hb]
  have hk1 : (if c ≠ v.idx2.length ∧ c ≠ 0 then k + 1 else k) = k + 1 := if_pos ⟨hci, by omega⟩
  have heq := cmReserve_eq fail dbg o IB zero (fun _ => 0, fun _ => zero) (2 * v.filled2) v k c (k + 1) hcc.symm hk1.symm
  by_cases hfk : fail k = true
  · refine ⟨_, hstart _ (by rw [heq, if_pos ⟨hci, by omega, hfk⟩]), fun dbg' junk' => ?_⟩
    exact insert_beyond (v := { v with cap := c }) h rfl rfl rfl rfl rfl rfl hc (.inl (by show v.idx2.length = v.filled2; rw [h.idx2Len]; exact hfull.symm)) hi' hj' hn dbg' zero junk' t
  · have hfk1 := hf.resolve_left hfk
    refine ⟨_, hstart _ (by rw [heq, if_neg (fun e => hfk e.2.2), if_pos ⟨hcv, by omega, hfk1⟩]), fun dbg' junk' => ?_⟩
    refine insert_beyond (v := { v with cap := c, idx2 := resizeInit v.idx2 c 0 }) (core_resized h zero c (by omega)) rfl rfl rfl rfl rfl rfl hc (.inr ⟨?_, ?_⟩) hi' hj' hn dbg' zero junk' t
    · show v.filled2 < (resizeInit v.idx2 c 0).length
      rw [CVec.length_resizeInit]; exact hc
    · show v.val.length = v.filled2
      rw [h.valLen]; exact hfull.symm

/-! ### resize -/

theorem length_resizeRaw {β : Type} (junk : Nat → β) (l : List β) (n : Nat) : (resizeRaw junk l n).length = n := by
  unfold resizeRaw
  split
  · rename_i h; exact h.symm
  · simp

/-- `resize` works from every state of the members. -/
theorem resize_any (dbg : Bool) (o : Orient) (IB : Nat) (junk : CMat.Junk α) (v : CMat α) (r c : Nat) :
    ∃ w, v.resize dbg o IB junk r c false = .ok w ∧ CMat.Inv o IB w ⟨r, c, fun _ => none, 0⟩ := by
  have hr := CMat.core_fresh o IB r c (CMat.restrictCapacity r c v.cap) (resizeRaw junk.1 v.idx1 (o.sizeM r c + 1)) (resizeRaw junk.1 v.idx2 (CMat.restrictCapacity r c v.cap))
    (resizeRaw junk.2 v.val (CMat.restrictCapacity r c v.cap)) (length_resizeRaw _ _ _) (length_resizeRaw _ _ _) (length_resizeRaw _ _ _)
  have hf : CMat.flat o (⟨r, c, fun _ => none, 0⟩ : CMatS α) = fun _ => none := by
    funext k; simp only [CMat.flat, MappedMat.flat, CMat.toMat]; exact ite_self _
  refine ⟨_, ?_, [], by rw [hf]; exact hr, rfl, rfl, rfl, fun _ _ _ => rfl⟩
  simp only [CMat.resize, check_True, bind_ok, wr_ok (show 0 < (resizeRaw junk.1 v.idx1 (o.sizeM r c + 1)).length by rw [length_resizeRaw]; omega)]
  rw [hr.invariants dbg, bind_ok]

/-- What a failed or completed `resize` leaves. -/
theorem cmResize_cases (fail : Nat → Bool) (dbg : Bool) (o : Orient) (IB : Nat) (junk : CMat.Junk α) (v : CMat α) (r c k : Nat) :
    (∀ v', cmResize fail dbg o IB junk r c v k = .bad v' → v'.size1 = r ∧ v'.size2 = c ∧ v'.filled1 = 1 ∧ v'.filled2 = 0) ∧
    (∀ f, cmResize fail dbg o IB junk r c v k ≠ .err f) ∧
    (∀ v' q, cmResize fail dbg o IB junk r c v k = .ok () v' q → v.resize dbg o IB junk r c false = .ok v') ∧
    ((∀ k, fail k = false) → ∃ v' q, cmResize fail dbg o IB junk r c v k = .ok () v' q) := by
  obtain ⟨w, hw, _⟩ := resize_any dbg o IB junk v r c
  have hlast : ∀ q, (do
      let m ← self
      let idx1 ← eval (wr dbg m.idx1 (m.filled1 - 1) (m.filled2 + IB))
      upd fun m => { m with idx1 := idx1 }
      let m ← self
      eval (m.invariants dbg o IB) : X (CMat α) Unit) ⟨r, c, CMat.restrictCapacity r c v.cap, 1, 0, resizeRaw junk.1 v.idx1 (o.sizeM r c + 1), resizeRaw junk.1 v.idx2 (CMat.restrictCapacity r c v.cap),
        resizeRaw junk.2 v.val (CMat.restrictCapacity r c v.cap)⟩ q = .ok () w q := by
    intro q
    simp only [CMat.resize, check_True, bind_ok] at hw
    simp only [bind_self]
    have hwr := wr_ok (dbg := dbg) (v := 0 + IB) (show 0 < (resizeRaw junk.1 v.idx1 (o.sizeM r c + 1)).length by rw [length_resizeRaw]; omega)
    rw [hwr, bind_ok] at hw
    rw [hwr, bind_eval_ok, bind_upd, bind_self]
    cases hinv : CMat.invariants dbg o IB (⟨r, c, CMat.restrictCapacity r c v.cap, 1, 0, (resizeRaw junk.1 v.idx1 (o.sizeM r c + 1)).set 0 (0 + IB), resizeRaw junk.1 v.idx2 (CMat.restrictCapacity r c v.cap),
        resizeRaw junk.2 v.val (CMat.restrictCapacity r c v.cap)⟩ : CMat α) with
    | error e => rw [hinv] at hw; cases hw
    | ok u => rw [hinv, bind_ok] at hw; cases hw; rfl
  unfold cmResize
  simp only [bind_upd, bind_self]
  rw [bind_room]
  split
  · rename_i hx
    refine ⟨fun v' e => (by cases e; exact ⟨rfl, rfl, rfl, rfl⟩), fun f e => (by cases e), fun _ _ e => (by cases e), fun hno => ?_⟩
    rw [hno] at hx; exact absurd hx.2.2 (by simp)
  · generalize (if o.sizeM r c + 1 ≠ v.idx1.length ∧ o.sizeM r c + 1 ≠ 0 then k + 1 else k) = k1
    simp only [bind_upd, bind_self]
    rw [bind_room]
    split
    · rename_i hx
      refine ⟨fun v' e => (by cases e; exact ⟨rfl, rfl, rfl, rfl⟩), fun f e => (by cases e), fun _ _ e => (by cases e), fun hno => ?_⟩
      rw [hno] at hx; exact absurd hx.2.2 (by simp)
    · generalize (if CMat.restrictCapacity r c v.cap ≠ v.idx2.length ∧ CMat.restrictCapacity r c v.cap ≠ 0 then k1 + 1 else k1) = k2
      simp only [bind_upd, bind_self]
      rw [bind_room]
      split
      · rename_i hx
        refine ⟨fun v' e => (by cases e; exact ⟨rfl, rfl, rfl, rfl⟩), fun f e => (by cases e), fun _ _ e => (by cases e), fun hno => ?_⟩
        rw [hno] at hx; exact absurd hx.2.2 (by simp)
      · rw [bind_upd]
        refine (fun H => ?_) (hlast (if CMat.restrictCapacity r c v.cap ≠ v.val.length ∧ CMat.restrictCapacity r c v.cap ≠ 0 then k2 + 1 else k2))
        simp only [] at H ⊢
        rw [H]
        exact ⟨fun _ e => (by cases e), fun f e => (by cases e), fun v' q e => (by cases e; exact hw), fun _ => ⟨_, _, rfl⟩⟩

/-- **C105 (resizing a compressed_matrix, partial).** A `resize (r, c, false)` that runs out of memory leaves an r x c matrix all of whose elements read as zero; repeating it when memory is available
succeeds and gives an empty matrix in a consistent state.  Missing: the old sizes and elements, and insertions before the repetition. -/
theorem C105_cmatrix_resize_partial (fail fail' : Nat → Bool) (dbg : Bool) (o : Orient) (IB : Nat) (zero : α) (junk junk' : CMat.Junk α) (v : CMat α) (r c k k' : Nat) :
    (∀ v' q, cmResize fail dbg o IB junk r c v k = .ok () v' q → v.resize dbg o IB junk r c false = .ok v') ∧
    ∀ v', cmResize fail dbg o IB junk r c v k = .bad v' → v'.size1 = r ∧ v'.size2 = c ∧ (∀ dbg i j, v'.get dbg o IB zero i j = .ok zero) ∧
      ((∀ k, fail' k = false) → ∃ w q, cmResize fail' dbg o IB junk' r c v' k' = .ok () w q ∧ CMat.Inv o IB w ⟨r, c, fun _ => none, 0⟩) := by
  obtain ⟨a1, _, a3, _⟩ := cmResize_cases fail dbg o IB junk v r c k
  refine ⟨a3, fun v' e => ?_⟩
  obtain ⟨b1, b2, b3, b4⟩ := a1 v' e
  refine ⟨b1, b2, fun dbg i j => ?_, fun hno => ?_⟩
  · simp only [CMat.get, CMat.findElement, CMat.slot, b3, if_pos (Nat.le_add_left 1 _), bind_ok]
  · obtain ⟨_, _, c3, c4⟩ := cmResize_cases fail' dbg o IB junk' v' r c k'
    obtain ⟨w, q, hq⟩ := c4 hno
    obtain ⟨w', hw', hinv⟩ := resize_any dbg o IB junk' v' r c
    rw [c3 w q hq] at hw'
    cases hw'
    exact ⟨w, q, hq, hinv⟩

/-- **C105 refuted for resizing a compressed_matrix.** If the first allocation of a resize to more rows (columns, for a column-major matrix) fails, the matrix has the new sizes, but every insertion into
a line that did not exist before writes behind the end of the offset array (`bad_index` in debug builds). -/
theorem C105_cmatrix_resize_refuted (fail : Nat → Bool) (dbg : Bool) (o : Orient) (IB : Nat) (zero : α) (junk : CMat.Junk α) (v : CMat α) (s : CMatS α) (h : CMat.Inv o IB v s) (r c k : Nat)
    (hgrow : o.sizeM s.rows s.cols < o.sizeM r c) (hf : fail k = true) :
    ∃ v', cmResize fail dbg o IB junk r c v k = .bad v' ∧ v'.size1 = r ∧ v'.size2 = c ∧
      ∀ (dbg' : Bool) (junk' : CMat.Junk α) i j t, i < r → j < c → o.sizeM s.rows s.cols ≤ o.indexM i j →
        v'.insertElement dbg' o IB zero junk' i j t = .error (if dbg' then .badIndex else .ub) := by
  obtain ⟨E, h, h1, h2, h3, h4⟩ := h
  have hlen := h.idx1Len
  rw [h1, h2] at hlen
  refine ⟨⟨r, c, CMat.restrictCapacity r c v.cap, 1, 0, v.idx1, v.idx2, v.val⟩, ?_, rfl, rfl, fun dbg' junk' i j t hi hj hM => ?_⟩
  · unfold cmResize
    simp only [bind_upd, bind_self]
    rw [bind_room, if_pos ⟨by omega, by omega, hf⟩]
  · have hcap : 0 < CMat.restrictCapacity r c v.cap :=
      CMat.lt_restrict (f := 0) (nz := v.cap) (Nat.mul_pos (by omega) (by omega)) (fun h => absurd rfl h)
    have hslot : CMat.slot o IB (⟨r, c, CMat.restrictCapacity r c v.cap, 1, 0, v.idx1, v.idx2, v.val⟩ : CMat α) i j = .ok none := by
      simp only [CMat.slot, if_pos (Nat.le_add_left 1 _)]
    have hdup : (if dbg' = true then (do
        let r ← CMat.findElement dbg' o IB (⟨r, c, CMat.restrictCapacity r c v.cap, 1, 0, v.idx1, v.idx2, v.val⟩ : CMat α) i j
        check dbg' (r.isNone = true) .badIndex : M Unit) else .ok ()) = .ok () := by
      split
      · simp only [CMat.findElement, hslot, bind_ok, Option.isNone_none, check_True]
      · rfl
    have hopen : CMat.openTo dbg' IB (⟨r, c, CMat.restrictCapacity r c v.cap, 1, 0, v.idx1, v.idx2, v.val⟩ : CMat α) (o.indexM i j + 2) = .error (if dbg' then .badIndex else .ub) := by
      unfold CMat.openTo
      have : ∀ n, v.idx1.length - 1 < n → ∀ l : List Nat, l.length = v.idx1.length →
          loop (fun k l => wr dbg' l (1 + k) (0 + IB)) n l = .error (if dbg' then .badIndex else .ub) := by
        intro n
        induction n with
        | zero => intro hn; omega
        | succ n ih =>
          intro hn l hl
          by_cases hlt : v.idx1.length - 1 < n
          · unfold loop; rw [ih hlt l hl]; rfl
          · have hn' : n = v.idx1.length - 1 := by omega
            obtain ⟨l', e1, e2⟩ := loop_inv (f := fun k l => wr dbg' l (1 + k) (0 + IB)) (n := n) (s := l) (fun _ l' => l'.length = v.idx1.length) hl
              (by intro q l' hq hl'; exact ⟨_, wr_ok (by omega), by simpa using hl'⟩)
            unfold loop
            rw [e1, bind_ok]
            unfold wr
            rw [if_neg (by omega)]
      simp only
      rw [this _ (by omega) _ rfl]
      rfl
    unfold CMat.insertElement
    rw [hdup, bind_ok, if_neg (by simp only; omega), bind_ok, check_true (by simpa using hcap), bind_ok]
    simp only [hopen]
    rfl

/-- **C105 refuted for assignment of compressed matrices.** If assigning to a default constructed matrix runs out of memory at its first allocation, the target claims the sizes and elements of the source
but has no offsets: reading any element stored in the source is undefined behaviour.  Repeating the assignment with memory available gives an exact copy. -/
theorem C105_cmatrix_assign_refuted (fail fail' : Nat → Bool) (dbg : Bool) (o : Orient) (IB : Nat) (zero : α) (w : CMat α) (s : CMatS α) (h : CMat.Inv o IB w s) (i j : Nat) (x : α)
    (hx : s.val (i, j) = some x) (k k' : Nat) (hf : fail k = true) (hno : ∀ k, fail' k = false) :
    ∃ v', cmAssign fail dbg o IB w (⟨0, 0, 0, 1, 0, [IB], [], []⟩ : CMat α) k = .bad v' ∧ v'.size1 = s.rows ∧ v'.size2 = s.cols ∧
      (∀ dbg i j x, s.val (i, j) = some x → v'.get dbg o IB zero i j = .error .ub) ∧ ∃ q, cmAssign fail' dbg o IB w v' k' = .ok () w q := by
  obtain ⟨E, h, h1, h2, h3, h4⟩ := h
  have hin : ∀ {i j x}, s.val (i, j) = some x → o.indexM i j + 1 < w.filled1 ∧ i < s.rows ∧ j < s.cols := by
    intro i j x hx
    have hr : i < s.rows ∧ j < s.cols := Classical.byContradiction fun hc => by rw [h4 i j hc] at hx; cases hx
    refine ⟨?_, hr⟩
    by_contra hc
    have := h.none_of_closed (e1 := o.indexM i j) (e2 := o.indexm i j) (by omega)
    rw [h1, h2, CMat.flat_at o s hr.1 hr.2, hx] at this; cases this
  have hlen : w.idx1.length ≠ 1 := by
    have := hin hx
    have := h.le
    rw [h.idx1Len]; omega
  refine ⟨⟨w.size1, w.size2, w.cap, w.filled1, w.filled2, [IB], [], []⟩, ?_, h1, h2, fun dbg i j x hx => ?_, ?_⟩
  · unfold cmAssign
    simp only [bind_upd, bind_self]
    rw [bind_room, if_pos ⟨by simpa using hlen, by rw [h.idx1Len]; omega, hf⟩]
  · obtain ⟨hM, _⟩ := hin hx
    unfold CMat.get CMat.findElement CMat.slot
    simp only [if_neg (show ¬ w.filled1 ≤ o.indexM i j + 1 by omega)]
    unfold CMat.seek
    have : rd false ([IB] : List Nat) (o.indexM i j + 1) = .error .ub := by
      unfold rd; rw [List.getElem?_eq_none (by simp)]; rfl
    cases hz : rd false ([IB] : List Nat) (o.indexM i j) with
    | ok b => simp only [bind_ok, this]; rfl
    | error e =>
      unfold rd at hz
      split at hz
      · cases hz
      · cases hz; rfl
  · unfold cmAssign
    simp only [bind_upd, bind_self]
    rw [bind_room, if_neg (by rw [hno]; simp)]
    simp only [bind_upd, bind_self]
    rw [bind_room, if_neg (by rw [hno]; simp)]
    simp only [bind_upd, bind_self]
    rw [bind_room, if_neg (by rw [hno]; simp)]
    simp only [bind_upd, bind_self]
    rw [show (⟨w.size1, w.size2, w.cap, w.filled1, w.filled2, w.idx1, w.idx2, w.val⟩ : CMat α) = w from rfl, h.invariants dbg]
    exact ⟨_, rfl⟩

/-! ## coordinate_vector and coordinate_matrix -/
section coordinate
variable [DecidableEq κ] [AddCommMonoid α]
open Ublas.Coo

theorem cooReserve_eq (fail : Nat → Bool) (dbg : Bool) (P : CooPar κ α) (zero : α) (junk : Coo.Junk κ α) (nz : Nat) (v v1 : Coo κ α) (hs : v.sort dbg P = .ok v1) (k c k1 : Nat)
    (hc : c = Coo.restrictCapacity P nz) (hk : k1 = if c ≠ v1.idx.length ∧ c ≠ 0 then k + 1 else k) :
    cooReserve fail dbg P zero nz v k =
      if c ≠ v1.idx.length ∧ c ≠ 0 ∧ fail k = true then .bad { v1 with cap := c }
      else if c ≠ v1.val.length ∧ c ≠ 0 ∧ fail k1 = true then .bad { v1 with cap := c, idx := resizeInit v1.idx c P.key0 }
      else match v.reserve dbg P zero junk nz true with
        | .ok v' => .ok () v' (if c ≠ v1.val.length ∧ c ≠ 0 then k1 + 1 else k1)
        | .error f => .err f := by
  subst hc
  unfold cooReserve
  simp only [bind_self, hs, bind_eval_ok, bind_upd]
  rw [bind_room]
  split
  · rfl
  · simp only [bind_upd, bind_self]
    rw [bind_room, ← hk]
    split
    · rfl
    · simp only [bind_upd, bind_self, Coo.reserve, true_or, if_true, hs, bind_ok]
      generalize (Coo.mk (Coo.restrictCapacity P nz) (min (Coo.restrictCapacity P nz) v1.filled) (min (Coo.restrictCapacity P nz) v1.filled) v1.sorted
        (resizeInit v1.idx (Coo.restrictCapacity P nz) P.key0) (resizeInit v1.val (Coo.restrictCapacity P nz) zero)) = w
      cases hw : w.invariants dbg P with
      | ok u => rfl
      | error f => rfl

/-- Reading needs the records in the arrays, not the capacity. -/
theorem coo_get {P : CooPar κ α} (hP : ParOk P) (dbg : Bool) (zero : α) (v : Coo κ α) (B : List (κ × α)) (hso : v.sorted = true) (hl : B.length = v.filled) (hh : Holds v.idx v.val B) (hst : Strict P.lt B)
    (k : κ) : v.get dbg P zero k = .ok (v, (collect B k).getD zero) := by
  obtain ⟨r, r1, r2, r3⟩ := hP.search v.idx B k hh.1 hst
  rw [hl] at r1
  have hsort : v.sort dbg P = .ok v := by
    unfold Coo.sort; rw [if_neg (by rw [hso]; simp)]
  unfold Coo.get Coo.find
  simp only [hsort, r1, bind_ok]
  cases r with
  | none => rw [(collect_eq_none B k).2 (r3 rfl)]; rfl
  | some n =>
    obtain ⟨hn, e⟩ := r2 n rfl
    have : collect B k = some B[n].2 := (collect_mem_strict hP.ord hst k _).2 (by rw [← e]; exact List.getElem_mem hn)
    simp only [rd_eq_ok.2 (hh.valAt hn), bind_ok, this]; rfl

/-- **C105 (coordinate containers, partial).** `reserve (nz)` with a capacity not below the number of records: without failures it is the operation of C28; after `bad_alloc` of either array every key reads
as before (the sum of its records).  Missing: the container can be modified again. -/
theorem C105_coordinate_reserve_partial {P : CooPar κ α} (hP : ParOk P) (fail : Nat → Bool) (dbg : Bool) (zero : α) (junk : Coo.Junk κ α) (nz : Nat) (v : Coo κ α) (A : List (κ × α)) (h : Coo.Inv P v A) (k : Nat)
    (hnz : v.filled ≤ Coo.restrictCapacity P nz) :
    (∀ v' q, cooReserve fail dbg P zero nz v k = .ok () v' q → v.reserve dbg P zero junk nz true = .ok v') ∧
    (∀ v', cooReserve fail dbg P zero nz v k = .bad v' → ∀ dbg x, ∃ v'', v'.get dbg P zero x = .ok (v'', (collect A x).getD zero)) := by
  obtain ⟨v1, B, e1, h1, h2, h3, h4, h5⟩ := sort_spec hP dbg h
  have hst := h1.strictAll h2
  rw [cooReserve_eq fail dbg P zero junk nz v v1 e1 k _ _ rfl rfl]
  generalize (if Coo.restrictCapacity P nz ≠ v1.idx.length ∧ Coo.restrictCapacity P nz ≠ 0 then k + 1 else k) = k1
  split
  · refine ⟨fun _ _ e => (by cases e), fun v' e dbg x => ?_⟩
    cases e
    exact ⟨_, by rw [← h3]; exact coo_get hP dbg zero { v1 with cap := Coo.restrictCapacity P nz } B h2 h1.len h1.holds hst x⟩
  · split
    · refine ⟨fun _ _ e => (by cases e), fun v' e dbg x => ?_⟩
      cases e
      have hi : (resizeInit v1.idx (Coo.restrictCapacity P nz) P.key0).take B.length = B.map (·.1) := by
        rw [CVec.take_resizeInit _ _ _ _ (by rw [h1.len]; omega) (by exact h1.holds.len.1)]
        exact h1.holds.1
      exact ⟨_, by rw [← h3]; exact coo_get hP dbg zero { v1 with cap := Coo.restrictCapacity P nz, idx := resizeInit v1.idx (Coo.restrictCapacity P nz) P.key0 } B h2 h1.len ⟨hi, h1.holds.2⟩ hst x⟩
    · cases hr : v.reserve dbg P zero junk nz true with
      | ok w => exact ⟨fun v' q e => (by cases e; rfl), fun _ e => (by cases e)⟩
      | error f => exact ⟨fun _ _ e => (by cases e), fun _ e => (by cases e)⟩

/-- With pairwise different keys sorting keeps all records. -/
theorem sort_keeps_length {P : CooPar κ α} (hP : ParOk P) {A B : List (κ × α)} (hst : Strict P.lt B) (hc : collect B = collect A) (hn : (A.map (·.1)).Nodup) : B.length = A.length := by
  have hB : (B.map (·.1)).Nodup := by
    refine List.pairwise_map.2 (hst.imp ?_)
    intro a b hab e
    rw [e] at hab
    have := hP.ord.asymm hab
    rw [hab] at this; cases this
  have : (B.map (·.1)).Perm (A.map (·.1)) := by
    refine (List.perm_ext_iff_of_nodup hB hn).2 fun x => ?_
    have e1 := collect_eq_none B x
    have e2 := collect_eq_none A x
    rw [hc] at e1
    exact not_iff_not.1 (e1.symm.trans e2)
  simpa using this.length_eq

/-- **C105 refuted for the coordinate containers.** Take any full container whose records have different keys.  If `append_element` runs out of memory - in either allocation - the container is left with a capacity
its arrays do not have, and repeating the operation, with memory available again, writes behind the end of an array: undefined behaviour in release builds, an exception in debug builds
(vector_sparse.hpp:1642 and matrix_sparse.hpp:4430 set the capacity before the arrays are enlarged). -/
theorem C105_coordinate_retry_refuted {P : CooPar κ α} (hP : ParOk P) (hmin : 0 < P.minCap) (fail : Nat → Bool) (dbg : Bool) (zero : α) (junk : Coo.Junk κ α) (v : Coo κ α) (A : List (κ × α)) (h : Coo.Inv P v A)
    (hd : (A.map (·.1)).Nodup) (hfull : v.filled = v.cap) (x : κ) (t : α) (k : Nat) (hf : fail k = true ∨ fail (k + 1) = true) :
    ∃ v', cooAppend fail dbg P zero junk x t v k = .bad v' ∧
      ∀ (dbg' : Bool) (junk' : Coo.Junk κ α) x t, v'.append dbg' P zero junk' x t = .error (if dbg' then .badIndex else .ub) := by
  obtain ⟨v1, B, e1, h1, h2, h3, h4, h5⟩ := sort_spec hP dbg h
  have hst := h1.strictAll h2
  have hlen := sort_keeps_length hP hst h3 hd
  have hfl : v1.filled = v1.cap := by rw [← h1.len, hlen, h.len, hfull, h4]
  have hcm := h.capMin
  have hc : v1.filled < Coo.restrictCapacity P (2 * v.filled) := by unfold Coo.restrictCapacity; omega
  generalize hcc : Coo.restrictCapacity P (2 * v.filled) = c at hc
  have hci : c ≠ v1.idx.length := by rw [h1.idxLen]; omega
  have hcv : c ≠ v1.val.length := by rw [h1.valLen]; omega
  have hstart : ∀ v', cooReserve fail dbg P zero (2 * v.filled) v k = .bad v' → cooAppend fail dbg P zero junk x t v k = .bad v' := by
    intro v' hb
    unfold cooAppend
    simp only [bind_self]
    rw [if_pos (by omega)]
    show X.bind (cooReserve fail dbg P zero (2 * v.filled)) _ v k = _
    unfold X.bind
    rw [hb]
  have heq := cooReserve_eq fail dbg P zero junk (2 * v.filled) v v1 e1 k c (k + 1) hcc.symm (if_pos ⟨hci, by omega⟩).symm
  by_cases hfk : fail k = true
  · refine ⟨_, hstart _ (by rw [heq, if_pos ⟨hci, by omega, hfk⟩]), fun dbg' junk' x t => ?_⟩
    unfold Coo.append
    rw [if_neg (by simp only; omega), bind_ok, check_true (by simpa using hc), bind_ok]
    have : wr dbg' v1.idx v1.filled x = .error (if dbg' then .badIndex else .ub) := by unfold wr; rw [if_neg (by rw [h1.idxLen]; omega)]
    simp only [this]; rfl
  · have hfk1 := hf.resolve_left hfk
    refine ⟨_, hstart _ (by rw [heq, if_neg (fun e => hfk e.2.2), if_pos ⟨hcv, by omega, hfk1⟩]), fun dbg' junk' x t => ?_⟩
    unfold Coo.append
    rw [if_neg (by simp only; omega), bind_ok, check_true (by simpa using hc), bind_ok]
    have : wr dbg' v1.val v1.filled t = .error (if dbg' then .badIndex else .ub) := by unfold wr; rw [if_neg (by rw [h1.valLen]; omega)]
    simp only [wr_ok (show v1.filled < (resizeInit v1.idx c P.key0).length by rw [CVec.length_resizeInit]; exact hc), bind_ok, this]; rfl

/-- **C105 refuted for assignment of coordinate containers.** If assigning a sorted container to a default constructed one runs out of memory at its second allocation, the target claims the elements of the source
but holds no values: reading any stored element is undefined behaviour (an exception in debug builds).  Repeating the assignment with memory available gives an exact copy. -/
theorem C105_coordinate_assign_refuted {P : CooPar κ α} (hP : ParOk P) (fail fail' : Nat → Bool) (dbg : Bool) (zero : α) (w : Coo κ α) (A : List (κ × α)) (h : Coo.Inv P w A) (hso : w.sorted = true) (hne : 0 < w.cap)
    (k k' : Nat) (hf0 : fail k = false) (hf : fail (k + 1) = true) (hno : ∀ k, fail' k = false) :
    ∃ v', cooAssign fail dbg P w (⟨0, 0, 0, true, [], []⟩ : Coo κ α) k = .bad v' ∧
      (∀ dbg x y, collect A x = some y → v'.get dbg P zero x = .error (if dbg then .badIndex else .ub)) ∧ ∃ q, cooAssign fail' dbg P w v' k' = .ok () w q := by
  have hst := h.strictAll hso
  refine ⟨{ w with val := [] }, ?_, fun dbg x y hx => ?_, ?_⟩
  · unfold cooAssign
    simp only [bind_upd, bind_self]
    rw [bind_room, if_neg (by rw [hf0]; simp), if_pos ⟨by rw [h.idxLen]; simp; omega, by rw [h.idxLen]; omega⟩]
    simp only [bind_upd, bind_self]
    rw [bind_room, if_pos ⟨by rw [h.valLen]; simp; omega, by rw [h.valLen]; omega, hf⟩]
  · obtain ⟨r, r1, r2, r3⟩ := hP.search w.idx A x h.holds.1 hst
    rw [h.len] at r1
    have hsort : Coo.sort dbg P { w with val := [] } = .ok { w with val := [] } := by
      unfold Coo.sort; rw [if_neg (by simp only [hso]; simp)]
    unfold Coo.get Coo.find
    simp only [hsort, r1, bind_ok]
    cases r with
    | none => rw [(collect_eq_none A x).2 (r3 rfl)] at hx; cases hx
    | some n => simp only [rd, List.getElem?_nil]; rfl
  · unfold cooAssign
    simp only [bind_upd, bind_self]
    rw [bind_room, if_neg (by rw [hno]; simp)]
    simp only [bind_upd, bind_self]
    rw [bind_room, if_neg (by rw [hno]; simp)]
    simp only [bind_upd, bind_self]
    rw [show (⟨w.cap, w.filled, w.sortedFilled, w.sorted, w.idx, w.val⟩ : Coo κ α) = w from rfl, h.invariants dbg]
    exact ⟨_, rfl⟩

end coordinate

/-! ## Concrete cases -/

/-- A full coordinate vector of size 5 after `append_element (3, 30)`, `append_element (1, 10)`: two records, unsorted. -/
def exCoo : Coo Nat Int := ⟨2, 2, 0, false, [3, 1], [30, 10]⟩
def exPar : CooPar Nat Int := CoordVec.par (insSort fun a b => decide (a < b)) false 0 5
theorem exPar_ok : Coo.ParOk exPar := CoordVec.parOk _ (insSort_ok natOrd) false 0 5
theorem exCoo_inv : Coo.Inv exPar exCoo [(3, 30), (1, 10)] :=
  { idxLen := rfl, valLen := rfl, len := rfl, holds := ⟨rfl, rfl⟩, sfLe := by decide, sorted := rfl, strict := List.Pairwise.nil, range := by decide, capMin := by decide }
example : ∃ v', cooAppend (fun k => k == 1) true exPar 0 (fun _ => 0, fun _ => 0) 2 20 exCoo 0 = .bad v' ∧
    ∀ (dbg' : Bool) (junk' : Coo.Junk Nat Int) x t, v'.append dbg' exPar 0 junk' x t = .error (if dbg' then .badIndex else .ub) :=
  C105_coordinate_retry_refuted exPar_ok (by decide) _ true 0 _ exCoo _ exCoo_inv (by decide) rfl 2 20 0 (.inr rfl)
/-- The same two records, sorted, assigned to an empty vector. -/
def exCooS : Coo Nat Int := ⟨2, 2, 2, true, [1, 3], [10, 30]⟩
theorem exCooS_inv : Coo.Inv exPar exCooS [(1, 10), (3, 30)] :=
  { idxLen := rfl, valLen := rfl, len := rfl, holds := ⟨rfl, rfl⟩, sfLe := by decide, sorted := rfl, strict := by simp [exCooS, Coo.Strict, exPar, CoordVec.par], range := by decide, capMin := by decide }
example : ∃ v', cooAssign (fun k => k == 1) false exPar exCooS (⟨0, 0, 0, true, [], []⟩ : Coo Nat Int) 0 = .bad v' ∧
    (∀ dbg x y, Coo.collect [(1, 10), (3, (30 : Int))] x = some y → v'.get dbg exPar 0 x = .error (if dbg then .badIndex else .ub)) ∧ ∃ q, cooAssign (fun _ => false) false exPar exCooS v' 0 = .ok () exCooS q :=
  C105_coordinate_assign_refuted exPar_ok (fun k => k == 1) _ false 0 exCooS _ exCooS_inv rfl (by decide) 0 0 rfl rfl (fun _ => rfl)

/-- A full 2 x 3 row-major compressed matrix: two elements, at (0, 1) and (1, 2). -/
def exM : CMat Int := ⟨2, 3, 2, 3, 2, [0, 1, 2], [1, 2], [7, 8]⟩
def exMs : CMatS Int := ⟨2, 3, fun p => if p = (0, 1) then some 7 else if p = (1, 2) then some 8 else none, 2⟩
theorem exM_inv : CMat.Inv .row 0 exM exMs := by
  refine ⟨[(1, 7), (5, 8)], ⟨rfl, rfl, rfl, by decide, by decide, by decide, rfl, rfl, rfl, ⟨by simp, fun k w => ?_⟩, by decide, ?_⟩, rfl, rfl, rfl, fun i j h => ?_⟩
  · show (if k < 2 * 3 then (if ((k / 3, k % 3) : Nat × Nat) = (0, 1) then some (7 : Int) else if (k / 3, k % 3) = (1, 2) then some 8 else none) else none) = some w ↔ _
    by_cases h1 : k = 1
    · subst h1; simp [eq_comm]
    · by_cases h5 : k = 5
      · subst h5; simp [eq_comm]
      · have a1 : ¬ ((k / 3, k % 3) : Nat × Nat) = (0, 1) := by rw [Prod.mk.injEq]; omega
        by_cases hk : k < 2 * 3
        · have a2 : ¬ ((k / 3, k % 3) : Nat × Nat) = (1, 2) := by rw [Prod.mk.injEq]; omega
          rw [if_pos hk, if_neg a1, if_neg a2]; simp [h1, h5]
        · rw [if_neg hk]; simp [h1, h5]
  · intro r hr
    have hr' : r < 3 := hr
    match r, hr' with
    | 0, _ => rfl
    | 1, _ => rfl
    | 2, _ => rfl
  · have h' : ¬ (i < 2 ∧ j < 3) := h
    show (if ((i, j) : Nat × Nat) = (0, 1) then some (7 : Int) else if (i, j) = (1, 2) then some 8 else none) = none
    rw [if_neg (by rw [Prod.mk.injEq]; omega), if_neg (by rw [Prod.mk.injEq]; omega)]
example : ∃ v', cmInsert (fun k => k == 1) true .row 0 0 (fun _ => 0, fun _ => 0) 0 2 99 exM 0 = .bad v' ∧
    ∀ (dbg' : Bool) (junk' : CMat.Junk Int), v'.insertElement dbg' .row 0 0 junk' 0 2 99 = .error .ub :=
  C105_cmatrix_retry_refuted _ true .row 0 0 _ exM exMs exM_inv rfl 0 2 99 (by decide) (by decide) rfl 0 (.inr rfl)
example : ∃ v', cmResize (fun _ => true) false .row 0 (fun _ => 0, fun _ => 0) 4 3 exM 0 = .bad v' ∧ v'.size1 = 4 ∧ v'.size2 = 3 ∧
    ∀ (dbg' : Bool) (junk' : CMat.Junk Int) i j t, i < 4 → j < 3 → 2 ≤ i → v'.insertElement dbg' .row 0 0 junk' i j t = .error (if dbg' then .badIndex else .ub) :=
  C105_cmatrix_resize_refuted (fun _ => true) false .row 0 0 _ exM exMs exM_inv 4 3 0 (by decide) rfl
example : ∃ v', cmAssign (fun _ => true) false .row 0 exM (⟨0, 0, 0, 1, 0, [0], [], []⟩ : CMat Int) 0 = .bad v' ∧ v'.size1 = 2 ∧ v'.size2 = 3 ∧
    (∀ dbg i j x, exMs.val (i, j) = some x → v'.get dbg .row 0 0 i j = .error .ub) ∧ ∃ q, cmAssign (fun _ => false) false .row 0 exM v' 0 = .ok () exM q :=
  C105_cmatrix_assign_refuted (fun _ => true) (fun _ => false) false .row 0 0 exM exMs exM_inv 0 1 7 rfl 0 0 rfl (fun _ => rfl)
example : exM.filled2 ≤ CMat.restrictCapacity exM.size1 exM.size2 5 := by decide
example : exCoo.filled ≤ Coo.restrictCapacity exPar 5 := by decide

end Ublas.XC
