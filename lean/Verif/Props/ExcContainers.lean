import Verif.Model.ExcContainers
import Verif.Props.Layout
import Verif.Props.CompressedVector
/-! # C105: containers when an allocation throws -/
namespace Ublas.XC
open Search
variable {σ α β γ : Type}

@[simp] theorem bind_upd (g : σ → σ) (f : Unit → X σ γ) (s : σ) (k : Nat) : (upd g >>= f) s k = f () (g s) k := rfl
@[simp] theorem bind_self (f : σ → X σ γ) (s : σ) (k : Nat) : (self >>= f) s k = f s s k := rfl
@[simp] theorem bind_pureX (b : β) (f : β → X σ γ) (s : σ) (k : Nat) : ((pure b : X σ β) >>= f) s k = f b s k := rfl
@[simp] theorem bind_eval_ok (b : β) (f : β → X σ γ) (s : σ) (k : Nat) : (eval (.ok b) >>= f) s k = f b s k := rfl
@[simp] theorem bind_eval_error (e : Fault) (f : β → X σ γ) (s : σ) (k : Nat) : (eval (.error e) >>= f) s k = .err e := rfl
@[simp] theorem upd_apply (g : σ → σ) (s : σ) (k : Nat) : upd g s k = .ok () (g s) k := rfl
@[simp] theorem eval_ok (b : β) (s : σ) (k : Nat) : (eval (.ok b) : X σ β) s k = .ok b s k := rfl
@[simp] theorem eval_error (e : Fault) (s : σ) (k : Nat) : (eval (.error e) : X σ β) s k = .err e := rfl

/-- An array that changes its size allocates once. -/
theorem bind_room (fail : Nat → Bool) (len n : Nat) (f : Unit → X σ γ) (s : σ) (k : Nat) :
    (room fail len n >>= f) s k = if n ≠ len ∧ n ≠ 0 ∧ fail k = true then .bad s else f () s (if n ≠ len ∧ n ≠ 0 then k + 1 else k) := by
  unfold room
  by_cases h : n ≠ len ∧ n ≠ 0
  · rw [if_pos h, if_pos h]
    by_cases hf : fail k = true
    · rw [if_pos ⟨h.1, h.2, hf⟩]
      show X.bind (allocate fail) f s k = _
      unfold X.bind allocate
      rw [if_pos hf]
    · rw [if_neg (fun e => hf e.2.2)]
      show X.bind (allocate fail) f s k = _
      unfold X.bind allocate
      rw [if_neg hf]
  · rw [if_neg h, if_neg h, if_neg (fun e => h ⟨e.1, e.2.1⟩)]
    rfl

/-- **C105 (dense resize and assignment of expressions).** When the allocation of `m.resize (r, c, preserve)` fails the matrix is exactly what it was; otherwise the result is that of the failure-free
operation (C05).  When the allocation of the temporary of `m = expression` fails nothing has changed; otherwise `m` is the temporary. -/
theorem C105_dense_resize (fail : Nat → Bool) (dbg : Bool) (o : Orient) (junk : Nat → α) (m : Dense α) (r c : Nat) (preserve : Bool) (k : Nat) :
    (∀ m', denseResize fail dbg o junk r c preserve m k = .bad m' → m' = m ∧ fail k = true) ∧
    (∀ m' k', denseResize fail dbg o junk r c preserve m k = .ok () m' k' → Dense.resize dbg o junk m r c preserve = .ok m') ∧
    (∀ f, denseResize fail dbg o junk r c preserve m k = .err f → Dense.resize dbg o junk m r c preserve = .error f) := by
  unfold denseResize Dense.resize
  cases preserve with
  | true =>
    simp only [if_true]
    rw [bind_room]
    split
    · rename_i h
      exact ⟨fun m' e => (by cases e; exact ⟨rfl, h.2.2⟩), fun _ _ e => (by cases e), fun _ e => (by cases e)⟩
    · simp only [bind_self]
      cases hr : Dense.resizePreserve dbg o m (Dense.mk' junk o r c) with
      | error f => simp
      | ok t => simp
  | false =>
    simp only [Bool.false_eq_true, if_false, bind_self]
    rw [bind_room]
    split
    · rename_i h
      exact ⟨fun m' e => (by cases e; exact ⟨rfl, h.2.2⟩), fun _ _ e => (by cases e), fun _ e => (by cases e)⟩
    · simp

theorem C105_dense_expression (fail : Nat → Bool) (o : Orient) (m : Dense α) (r c : Nat) (e : M (List α)) (k : Nat) :
    (∀ m', denseAssignExpr fail o r c e m k = .bad m' → m' = m ∧ fail k = true) ∧
    (∀ m' k', denseAssignExpr fail o r c e m k = .ok () m' k' → ∃ d, e = .ok d ∧ m' = ⟨r, c, d⟩) := by
  unfold denseAssignExpr
  rw [bind_room]
  split
  · rename_i h
    exact ⟨fun m' e => (by cases e; exact ⟨rfl, h.2.2⟩), fun _ _ e => (by cases e)⟩
  · cases e with
    | error f => simp
    | ok d => simp

/-- The packed and the banded matrices resize in the same way. -/
theorem C105_triangular_resize (fail : Nat → Bool) (dbg : Bool) (t : Tri) (o : Orient) (junk : Nat → α) (m : Packed.TMat α) (r c : Nat) (preserve : Bool) (k : Nat) :
    (∀ m', triResize fail dbg t o junk r c preserve m k = .bad m' → m' = m ∧ fail k = true) ∧
    (∀ m' k', triResize fail dbg t o junk r c preserve m k = .ok () m' k' → m.resize dbg t o junk r c preserve = .ok m') := by
  unfold triResize Packed.TMat.resize Packed.TMat.make
  cases hn : Packed.packedSize dbg t r c with
  | error f => cases preserve <;> simp
  | ok n =>
    cases preserve with
    | true =>
      simp only [if_true, bind_eval_ok, bind_ok, pure_eq_ok]
      rw [bind_room]
      split
      · rename_i h
        exact ⟨fun m' e => (by cases e; exact ⟨rfl, h.2.2⟩), fun _ _ e => (by cases e)⟩
      · simp only [bind_self]
        cases hr : Packed.resizeLoop dbg t o m.size1 m.size2 m.data r c ((List.range n).map junk) with
        | error f => simp
        | ok d => simp
    | false =>
      simp only [Bool.false_eq_true, if_false, bind_eval_ok, bind_self, bind_ok, pure_eq_ok]
      rw [bind_room]
      split
      · rename_i h
        exact ⟨fun m' e => (by cases e; exact ⟨rfl, h.2.2⟩), fun _ _ e => (by cases e)⟩
      · simp

theorem C105_symmetric_resize (fail : Nat → Bool) (dbg : Bool) (t : Tri) (o : Orient) (junk : Nat → α) (m : Packed.SMat α) (n : Nat) (preserve : Bool) (k : Nat) :
    (∀ m', symResize fail dbg t o junk n preserve m k = .bad m' → m' = m ∧ fail k = true) ∧
    (∀ m' k', symResize fail dbg t o junk n preserve m k = .ok () m' k' → m.resize dbg t o junk n preserve = .ok m') := by
  unfold symResize Packed.SMat.resize Packed.SMat.make
  cases hn : Packed.packedSize dbg t n n with
  | error f => cases preserve <;> simp
  | ok z =>
    cases preserve with
    | true =>
      simp only [if_true, bind_eval_ok, bind_ok, pure_eq_ok]
      rw [bind_room]
      split
      · rename_i h
        exact ⟨fun m' e => (by cases e; exact ⟨rfl, h.2.2⟩), fun _ _ e => (by cases e)⟩
      · simp only [bind_self]
        cases hr : Packed.resizeLoop dbg t o m.size m.size m.data n n ((List.range z).map junk) with
        | error f => simp
        | ok d => simp
    | false =>
      simp only [Bool.false_eq_true, if_false, bind_eval_ok, bind_self, bind_ok, pure_eq_ok]
      rw [bind_room]
      split
      · rename_i h
        exact ⟨fun m' e => (by cases e; exact ⟨rfl, h.2.2⟩), fun _ _ e => (by cases e)⟩
      · simp

theorem C105_banded_resize (fail : Nat → Bool) (dbg : Bool) (o : Orient) (junk : Nat → α) (m : BMat α) (r c l u : Nat) (preserve : Bool) (k : Nat) :
    (∀ m', bandResize fail dbg o junk r c l u preserve m k = .bad m' → m' = m ∧ fail k = true) ∧
    (∀ m' k', bandResize fail dbg o junk r c l u preserve m k = .ok () m' k' → m.resize dbg o junk r c l u preserve = .ok m') := by
  unfold bandResize BMat.resize
  cases preserve with
  | true =>
    simp only [if_true]
    rw [bind_room]
    split
    · rename_i h
      exact ⟨fun m' e => (by cases e; exact ⟨rfl, h.2.2⟩), fun _ _ e => (by cases e)⟩
    · simp only [bind_self]
      cases hr : Dense.resizePreserve dbg o ⟨m.size1, m.size2, m.data⟩ ⟨r, c, (BMat.make o junk r c l u).data⟩ with
      | error f => simp
      | ok d => simp
  | false =>
    simp only [Bool.false_eq_true, if_false, bind_self]
    rw [bind_room]
    split
    · rename_i h
      exact ⟨fun m' e => (by cases e; exact ⟨rfl, h.2.2⟩), fun _ _ e => (by cases e)⟩
    · simp

/-! ### Copy assignment -/

theorem denseAssign_eq (fail : Nat → Bool) (m n : Dense α) (k : Nat) :
    denseAssign fail n m k = if n.data.length ≠ m.data.length ∧ n.data.length ≠ 0 ∧ fail k = true then .bad ⟨n.size1, n.size2, m.data⟩
      else .ok () n (if n.data.length ≠ m.data.length ∧ n.data.length ≠ 0 then k + 1 else k) := by
  unfold denseAssign
  simp only [bind_upd, bind_self]
  rw [bind_room]
  split <;> rfl

/-- **C105 (copy assignment, partial).** `m = n` either gives an exact copy, or ends with `bad_alloc`; it allocates only when the storage sizes differ.  After `bad_alloc` the elements of the array are the
old ones, destroying the matrix and assigning to it again are fine (a repeated assignment that finds memory gives the exact copy).  Missing: the dimensions are the old ones. -/
theorem C105_dense_assign_partial (fail fail' : Nat → Bool) (m n : Dense α) (k k' : Nat) :
    (∀ m' q, denseAssign fail n m k = .ok () m' q → m' = n) ∧
    (∀ f, denseAssign fail n m k ≠ .err f) ∧
    (∀ m', denseAssign fail n m k = .bad m' → n.data.length ≠ m.data.length ∧ fail k = true ∧ m'.data = m.data ∧
      (fail' k' = false → ∃ q, denseAssign fail' n m' k' = .ok () n q)) := by
  rw [denseAssign_eq]
  split
  · rename_i h
    refine ⟨fun _ _ e => by (cases e), fun _ e => by (cases e), fun m' e => ?_⟩
    cases e
    refine ⟨h.1, h.2.2, rfl, fun hf => ?_⟩
    rw [denseAssign_eq, if_neg (fun e => by rw [hf] at e; exact Bool.false_ne_true e.2.2)]
    exact ⟨_, rfl⟩
  · exact ⟨fun m' q e => by (cases e; rfl), fun _ e => by (cases e), fun _ e => by (cases e)⟩

/-- **C105 refuted for copy assignment of dense matrices.** Whenever `m = n` needs more storage than `m` has and the allocation fails, `m` is left with the dimensions of `n` and its own old storage: there
are valid indices whose element lies outside the array, so reading them is undefined behaviour (`bad_index` in debug builds). -/
theorem C105_dense_assign_refuted (fail : Nat → Bool) (o : Orient) (m n : Dense α) (hn : n.WF) (k : Nat) (hmore : m.data.length < n.data.length) (hf : fail k = true) :
    ∃ m', denseAssign fail n m k = .bad m' ∧ m'.size1 = n.size1 ∧ m'.size2 = n.size2 ∧
      ∃ i j, i < m'.size1 ∧ j < m'.size2 ∧ m'.get false o i j = .error .ub ∧ m'.get true o i j = .error .badIndex := by
  refine ⟨⟨n.size1, n.size2, m.data⟩, by rw [denseAssign_eq, if_pos ⟨by omega, by omega, hf⟩], rfl, rfl, ?_⟩
  have hk : m.data.length < o.storageSize n.size1 n.size2 := by rw [show o.storageSize n.size1 n.size2 = n.size1 * n.size2 from rfl, ← hn]; exact hmore
  obtain ⟨⟨i, j⟩, ⟨hi, hj, he⟩, _⟩ := (C01_dense_layout_bijection false o n.size1 n.size2).2 _ hk
  have he' : o.element true i n.size1 j n.size2 = .ok m.data.length := by
    rw [element_ok true o hi hj]; rw [element_ok false o hi hj] at he; exact he
  refine ⟨i, j, hi, hj, ?_, ?_⟩
  · show (o.element false i n.size1 j n.size2 >>= fun k => rd false m.data k) = _
    rw [he, bind_ok, rd, List.getElem?_eq_none (Nat.le_refl _)]
    rfl
  · show (o.element true i n.size1 j n.size2 >>= fun k => rd true m.data k) = _
    rw [he', bind_ok, rd, List.getElem?_eq_none (Nat.le_refl _)]
    rfl

/-- **C105 refuted for copy assignment of triangular, symmetric / hermitian and banded matrices.** After a failed assignment to a default constructed matrix, the matrix has the dimensions of the source and
no storage: every read of a stored position is undefined behaviour. -/
theorem C105_packed_assign_refuted [Zero α] [One α] (fail : Nat → Bool) (t : Tri) (o : Orient) (n : Packed.TMat α) (k : Nat) (hn : n.data ≠ []) (hf : fail k = true) :
    ∃ m', triAssign fail n ⟨0, 0, []⟩ k = .bad m' ∧ m'.size1 = n.size1 ∧ m'.size2 = n.size2 ∧
      ∀ i j, i < n.size1 → j < n.size2 → Packed.other t i j = true → m'.get false t o i j = .error .ub := by
  have hl : n.data.length ≠ 0 := fun e => hn (List.length_eq_zero_iff.1 e)
  refine ⟨⟨n.size1, n.size2, []⟩, ?_, rfl, rfl, fun i j hi hj ho => ?_⟩
  · unfold triAssign
    simp only [bind_upd, bind_self]
    rw [bind_room, if_pos ⟨by simpa using hl, hl, hf⟩]
  · unfold Packed.TMat.get
    simp only [check_release, bind_ok, ho, if_true]
    cases he : Packed.element false t o i n.size1 j n.size2 with
    | ok c => rfl
    | error e =>
      exfalso
      unfold Packed.element at he
      obtain ⟨kd, up⟩ := t
      cases up <;> cases kd <;> cases o <;> simp [Packed.lelement, Packed.lowerElement, Orient.transposed] at he

theorem C105_symmetric_assign_refuted (fail : Nat → Bool) (t : Tri) (o : Orient) (n : Packed.SMat α) (k : Nat) (hn : n.data ≠ []) (hf : fail k = true) :
    ∃ m', symAssign fail n ⟨0, []⟩ k = .bad m' ∧ m'.size = n.size ∧ ∀ i j, i < n.size → j < n.size → m'.get false t o i j = .error .ub := by
  have hl : n.data.length ≠ 0 := fun e => hn (List.length_eq_zero_iff.1 e)
  refine ⟨⟨n.size, []⟩, ?_, rfl, fun i j hi hj => ?_⟩
  · unfold symAssign
    simp only [bind_upd, bind_self]
    rw [bind_room, if_pos ⟨by simpa using hl, hl, hf⟩]
  · unfold Packed.SMat.get
    simp only [check_release, bind_ok]
    cases he : Packed.SMat.cell false t o n.size i j with
    | ok c => rfl
    | error e =>
      exfalso
      unfold Packed.SMat.cell Packed.element at he
      obtain ⟨kd, up⟩ := t
      split at he <;> cases up <;> cases kd <;> cases o <;> simp [Packed.lelement, Packed.lowerElement, Orient.transposed] at he

theorem C105_banded_assign_refuted [Zero α] (fail : Nat → Bool) (o : Orient) (n : BMat α) (k : Nat) (hn : n.data ≠ []) (hf : fail k = true) :
    ∃ m', bandAssign fail n ⟨0, 0, 0, 0, []⟩ k = .bad m' ∧ m'.size1 = n.size1 ∧ m'.size2 = n.size2 ∧
      ∀ i j, i < n.size1 → j < n.size2 → n.inBand i j = true → m'.get false o i j = .error .ub := by
  have hl : n.data.length ≠ 0 := fun e => hn (List.length_eq_zero_iff.1 e)
  refine ⟨⟨n.size1, n.size2, n.lower, n.upper, []⟩, ?_, rfl, rfl, fun i j hi hj hb => ?_⟩
  · unfold bandAssign
    simp only [bind_upd, bind_self]
    rw [bind_room, if_pos ⟨by simpa using hl, hl, hf⟩]
  · have hb' : BMat.inBand (⟨n.size1, n.size2, n.lower, n.upper, []⟩ : BMat α) i j = true := hb
    unfold BMat.get
    simp only [check_release, bind_ok, hb', if_true]
    unfold BMat.getIndex
    cases o <;> simp [rd]

/-! ### compressed_vector -/

theorem cvReserve_eq (fail : Nat → Bool) (dbg : Bool) (IB : Nat) (zero : α) (junk : CVec.Junk α) (nz : Nat) (v : CVec α) (k c k1 : Nat) (hc : c = CVec.restrictCapacity v.size nz)
    (hk : k1 = if c ≠ v.idx.length ∧ c ≠ 0 then k + 1 else k) :
    cvReserve fail dbg IB zero nz v k =
      if c ≠ v.idx.length ∧ c ≠ 0 ∧ fail k = true then .bad ⟨v.size, c, v.filled, v.idx, v.val⟩
      else if c ≠ v.val.length ∧ c ≠ 0 ∧ fail k1 = true then .bad ⟨v.size, c, v.filled, resizeInit v.idx c 0, v.val⟩
      else match v.reserve dbg IB zero junk nz true with
        | .ok v' => .ok () v' (if c ≠ v.val.length ∧ c ≠ 0 then k1 + 1 else k1)
        | .error f => .err f := by
  subst hc
  unfold cvReserve
  simp only [bind_upd, bind_self]
  rw [bind_room]
  split
  · rfl
  · simp only [bind_upd, bind_self]
    rw [bind_room, ← hk]
    split
    · rfl
    · simp only [bind_upd, bind_self, CVec.reserve, if_true]
      generalize (CVec.mk v.size (CVec.restrictCapacity v.size nz) (min (CVec.restrictCapacity v.size nz) v.filled) (resizeInit v.idx (CVec.restrictCapacity v.size nz) 0)
        (resizeInit v.val (CVec.restrictCapacity v.size nz) zero)) = w
      cases hw : w.invariants dbg IB with
      | ok u => rfl
      | error f => rfl

/-- The elements read through arrays of which only the index array has been enlarged. -/
theorem get_half {IB : Nat} {v : CVec α} {s : SparseSpec.Vec α} (h : CVec.Inv IB v s) (dbg : Bool) (zero : α) (c c' i : Nat) (hi : i < s.size) (hfc : v.filled ≤ c) (hcs : c ≤ v.size) (hc0 : 0 < v.size → 0 < c) :
    CVec.get dbg IB zero ⟨v.size, c', v.filled, resizeInit v.idx c 0, v.val⟩ i = .ok ((s.val i).getD zero) := by
  obtain ⟨E, hE⟩ := h
  have hf := hE.fill
  have hw : CVec.Repr IB ⟨v.size, c, v.filled, resizeInit v.idx c 0, resizeInit v.val c zero⟩ E s :=
    { size := hE.size, idxLen := CVec.length_resizeInit _ _ _, valLen := CVec.length_resizeInit _ _ _, fill := hfc, capPos := hc0, capLe := hcs
      holds := hE.holds.resize hfc (by rw [hE.idxLen]; exact hf) (by rw [hE.valLen]; exact hf), rep := hE.rep, range := hE.range }
  unfold CVec.get
  rw [check_true (show i < v.size by rw [hE.size]; exact hi), bind_ok]
  rcases hw.slot i with ⟨n, w, h1, h2, h3, h4, _⟩ | ⟨h1, h2⟩
  · have h1' : CVec.slot IB (⟨v.size, c', v.filled, resizeInit v.idx c 0, v.val⟩ : CVec α) i = .ok (some n) := h1
    rw [h1', bind_ok]
    show rd dbg v.val n = _
    rw [h4, rd_eq_ok.2 (show v.val[n]? = some w by rw [hE.valAt h2, h3]; rfl)]
    rfl
  · have h1' : CVec.slot IB (⟨v.size, c', v.filled, resizeInit v.idx c 0, v.val⟩ : CVec α) i = .ok none := h1
    rw [h1', bind_ok, h2]
    rfl

/-- **C105 (compressed_vector, partial).** `reserve (nz)` with a capacity not below the number of stored elements: without failures it is the operation of C28; after `bad_alloc` (of either array) the size
and every element are unchanged for reading.  Missing: the vector can be modified again. -/
theorem C105_compressed_reserve_partial (fail : Nat → Bool) (dbg : Bool) (IB : Nat) (zero : α) (junk : CVec.Junk α) (nz : Nat) (v : CVec α) (s : SparseSpec.Vec α) (h : CVec.Inv IB v s) (k : Nat)
    (hnz : v.filled ≤ CVec.restrictCapacity v.size nz) :
    (∀ v' q, cvReserve fail dbg IB zero nz v k = .ok () v' q → v.reserve dbg IB zero junk nz true = .ok v') ∧
    (∀ v', cvReserve fail dbg IB zero nz v k = .bad v' → v'.size = v.size ∧ ∀ dbg i, i < s.size → v'.get dbg IB zero i = .ok ((s.val i).getD zero)) := by
  obtain ⟨k1, hk1⟩ : ∃ k1, k1 = if CVec.restrictCapacity v.size nz ≠ v.idx.length ∧ CVec.restrictCapacity v.size nz ≠ 0 then k + 1 else k := ⟨_, rfl⟩
  rw [cvReserve_eq fail dbg IB zero junk nz v k _ k1 rfl hk1]
  split
  · refine ⟨fun _ _ e => (by cases e), fun v' e => ?_⟩
    cases e
    refine ⟨rfl, fun dbg i hi => ?_⟩
    obtain ⟨E, hE⟩ := h
    exact hE.get dbg zero i hi
  · split
    · refine ⟨fun _ _ e => (by cases e), fun v' e => ?_⟩
      cases e
      refine ⟨rfl, fun dbg i hi => get_half h dbg zero _ _ i hi hnz ?_ fun h0 => ?_⟩
      · unfold CVec.restrictCapacity; omega
      · unfold CVec.restrictCapacity; omega
    · cases hr : v.reserve dbg IB zero junk nz true with
      | ok w => exact ⟨fun v' q e => (by cases e; rfl), fun _ e => (by cases e)⟩
      | error f => exact ⟨fun _ _ e => (by cases e), fun _ e => (by cases e)⟩

/-- Writing one element too many into a full array. -/
theorem insert_overflow {β : Type} (l : List β) (n f : Nat) (x : β) (hn : n ≤ f) (hf : f = l.length) :
    copyBackward l n f = .error .ub ∨ (copyBackward l n f = .ok l ∧ wr false l n x = .error .ub) := by
  by_cases e : n = f
  · right
    subst e
    refine ⟨by unfold copyBackward; rw [Nat.sub_self]; rfl, ?_⟩
    unfold wr
    rw [if_neg (by omega)]
    rfl
  · left
    unfold copyBackward
    obtain ⟨d, hd⟩ : ∃ d, f - n = d + 1 := ⟨f - n - 1, by omega⟩
    rw [hd]
    have : ∀ d, loop (fun j (l : List β) => (do
        let x ← rd false l (f - j - 1)
        wr false l (f - j) x : M (List β))) (d + 1) l = .error .ub := by
      intro d
      induction d with
      | zero =>
        show ((Except.ok l : M (List β)) >>= fun l => (do
          let x ← rd false l (f - 0 - 1)
          wr false l (f - 0) x : M (List β))) = _
        rw [bind_ok, rd_ok (by omega), bind_ok]
        unfold wr
        rw [if_neg (by omega)]
        rfl
      | succ d ih =>
        unfold loop
        rw [ih]
        rfl
    exact this d

/-- **C105 refuted for compressed_vector.** Take any full vector (as many stored elements as its capacity) and any index without a stored element.  If inserting there runs out of memory - in either of its
two allocations - the vector is left with a capacity its arrays do not have, and repeating the insertion, with memory available again, writes behind the end of an array, in release and in debug
builds (vector_sparse.hpp:976 sets the capacity before lines 978-979 allocate). -/
theorem C105_compressed_retry_refuted (fail : Nat → Bool) (dbg : Bool) (IB : Nat) (zero : α) (v : CVec α) (s : SparseSpec.Vec α) (h : CVec.Inv IB v s) (hfull : v.filled = v.cap) (i : Nat) (t : α)
    (hi : i < s.size) (hnone : s.val i = none) (k : Nat) (hf : fail k = true ∨ fail (k + 1) = true) :
    ∃ v', cvInsert fail dbg IB zero i t v k = .bad v' ∧ ∀ (dbg' : Bool) (junk : CVec.Junk α), v'.insertElement dbg' IB zero junk i t = .error .ub := by
  have hInv := h
  obtain ⟨E, hE⟩ := h
  have hroom := hE.filled_lt hi hnone
  have hcap := hE.capPos (by omega)
  have hc : CVec.restrictCapacity v.size (2 * v.cap) > v.cap := by unfold CVec.restrictCapacity; omega
  have hcs : CVec.restrictCapacity v.size (2 * v.cap) ≤ v.size := by unfold CVec.restrictCapacity; omega
  generalize hcc : CVec.restrictCapacity v.size (2 * v.cap) = c at hc hcs
  have hci : c ≠ v.idx.length := by rw [hE.idxLen]; omega
  have hcv : c ≠ v.val.length := by rw [hE.valLen]; omega
  have hfind : (if dbg = true then (do
      let r ← v.findElement dbg IB i
      check dbg (r.isNone = true) .badIndex : M Unit) else .ok ()) = .ok () := by
    split
    · rw [hE.findElement, bind_ok, hnone]; simp
    · rfl
  -- the state left behind
  have hstart : ∀ v', cvReserve fail dbg IB zero (2 * v.cap) v k = .bad v' → cvInsert fail dbg IB zero i t v k = .bad v' := by
    intro v' hb
    unfold cvInsert
    simp only [bind_self]
    rw [hfind]
    simp only [bind_eval_ok]
    rw [if_pos (by omega)]
    show X.bind (cvReserve fail dbg IB zero (2 * v.cap)) _ v k = _
    unfold X.bind
    rw [hb]
  have hw : CVec.Repr IB ⟨v.size, c, v.filled, resizeInit v.idx c 0, resizeInit v.val c zero⟩ E s :=
    { size := hE.size, idxLen := CVec.length_resizeInit _ _ _, valLen := CVec.length_resizeInit _ _ _, fill := by show v.filled ≤ c; omega, capPos := fun _ => by show 0 < c; omega, capLe := hcs
      holds := hE.holds.resize (by omega) (by rw [hE.idxLen]; omega) (by rw [hE.valLen]; omega), rep := hE.rep, range := hE.range }
  -- the second insertion, for any index array that holds the same indices
  have second : ∀ (J : List Nat) (w : CVec α), CVec.Repr IB w E s → w.filled = v.filled → w.idx = J → w.size = v.size → (J.length = v.filled ∨ v.filled < J.length) →
      ∀ (dbg' : Bool) (junk : CVec.Junk α), CVec.insertElement dbg' IB zero junk (⟨v.size, c, v.filled, J, v.val⟩ : CVec α) i t = .error .ub := by
    intro J w hR hwf hwi hws hJ dbg' junk
    obtain ⟨n, hn1, hn2, hn3⟩ := hR.lb i
    rw [hwf] at hn2
    have hlb : CVec.lb IB (⟨v.size, c, v.filled, J, v.val⟩ : CVec α) i = .ok n := by
      unfold CVec.lb at hn1 ⊢
      rw [hwf, hwi] at hn1
      exact hn1
    have hslot : CVec.slot IB (⟨v.size, c, v.filled, J, v.val⟩ : CVec α) i = .ok none := by
      rcases hR.slot i with ⟨_, _, _, _, _, h4, _⟩ | ⟨h1, _⟩
      · rw [hnone] at h4; cases h4
      · unfold CVec.slot at h1 ⊢
        unfold CVec.lb at h1 ⊢
        rw [hwf, hwi] at h1
        exact h1
    have hfirst : (if dbg' = true then (do
        let r ← CVec.findElement dbg' IB (⟨v.size, c, v.filled, J, v.val⟩ : CVec α) i
        check dbg' (r.isNone = true) .badIndex : M Unit) else .ok ()) = .ok () := by
      split
      · unfold CVec.findElement
        rw [hslot]; simp
      · rfl
    have hdup : (if dbg' = true ∧ v.filled ≠ 0 ∧ v.filled ≠ n then (do
        let x ← rd false J n
        check dbg' (x ≠ i + IB) .internalLogic : M Unit) else .ok ()) = .ok () := by
      split
      · rename_i hcnd
        have hn' : n < w.filled := by omega
        have hd : n < E.length := by rw [hR.holds.1]; exact hn'
        have hx := hR.idxAt hn'
        rw [List.getElem?_eq_getElem hd, hwi] at hx
        rw [rd_eq_ok.2 hx, bind_ok, check_true]
        intro e
        have : s.val E[n].1 = some E[n].2 := hR.rep.some_of_getElem (List.getElem?_eq_getElem hd)
        rw [show E[n].1 = i by simp only at e; omega, hnone] at this; simp at this
      · rfl
    unfold CVec.insertElement
    rw [hfirst, bind_ok, if_neg (by show ¬ v.filled ≥ c; omega), bind_ok, hlb, bind_ok]
    dsimp only
    rw [hdup, bind_ok]
    rcases hJ with hJ | hJ
    · rcases insert_overflow J n v.filled (i + IB) hn2 hJ.symm with h1 | ⟨h1, h2⟩
      · rw [h1]; rfl
      · rw [h1, bind_ok, h2]; rfl
    · obtain ⟨a1, a2, ha1, ha2, _, _⟩ := insert_prefix J n v.filled (i + IB) hn2 hJ
      rw [ha1, bind_ok, ha2, bind_ok]
      rcases insert_overflow v.val n v.filled t hn2 (by rw [hE.valLen]; exact hfull) with h1 | ⟨h1, h2⟩
      · rw [h1]; rfl
      · rw [h1, bind_ok, h2]; rfl
  have hk1 : (if c ≠ v.idx.length ∧ c ≠ 0 then k + 1 else k) = k + 1 := if_pos ⟨hci, by omega⟩
  have heq := cvReserve_eq fail dbg IB zero (fun _ => 0, fun _ => zero) (2 * v.cap) v k c (k + 1) hcc.symm hk1.symm
  by_cases hfk : fail k = true
  · refine ⟨_, hstart _ (by rw [heq, if_pos ⟨hci, by omega, hfk⟩]), ?_⟩
    exact second v.idx v hE rfl rfl rfl (.inl (by rw [hE.idxLen]; exact hfull.symm))
  · have hfk1 := hf.resolve_left hfk
    refine ⟨_, hstart _ (by rw [heq, if_neg (fun e => hfk e.2.2), if_pos ⟨hcv, by omega, hfk1⟩]), ?_⟩
    exact second _ _ hw rfl rfl rfl (.inr (by rw [CVec.length_resizeInit]; omega))

/-- **C105 refuted for assignment of compressed vectors.** If assigning a vector with stored elements to a default constructed one runs out of memory, the target claims the size and the elements of the
source but has no arrays: every read is undefined behaviour. -/
theorem C105_compressed_assign_refuted (fail : Nat → Bool) (dbg : Bool) (IB : Nat) (zero : α) (w : CVec α) (s : SparseSpec.Vec α) (h : CVec.Inv IB w s) (hne : w.filled ≠ 0) (k : Nat) (hf : fail k = true) :
    ∃ v', cvAssign fail dbg IB w (⟨0, 0, 0, [], []⟩ : CVec α) k = .bad v' ∧ v'.size = s.size ∧ ∀ i, v'.get false IB zero i = .error .ub := by
  obtain ⟨E, hE⟩ := h
  have hfl := hE.fill
  have hlen : w.idx.length ≠ 0 := by rw [hE.idxLen]; omega
  refine ⟨⟨w.size, w.cap, w.filled, [], []⟩, ?_, hE.size, fun i => ?_⟩
  · unfold cvAssign
    simp only [bind_upd, bind_self]
    rw [bind_room, if_pos ⟨by simpa using hlen, hlen, hf⟩]
  · unfold CVec.get CVec.slot CVec.lb lowerBound
    simp only [check_release, bind_ok]
    rw [if_neg (fun e => hne e.symm)]
    rfl

/-- **C105 refuted for shrinking a compressed vector.** If `resize (n)` of a vector with more than `n ≥ 1` stored elements succeeds in allocating the smaller index array but not the smaller value array, the
number of stored elements is still the old one: reading any position behind the first stored one runs over the end of the index array. -/
theorem C105_compressed_resize_refuted (fail : Nat → Bool) (dbg : Bool) (IB : Nat) (zero : α) (v : CVec α) (s : SparseSpec.Vec α) (h : CVec.Inv IB v s) (n k j : Nat) (hn : 0 < n) (hnf : n < v.filled)
    (hj : s.val j ≠ none) (hfirst : ∀ i, s.val i ≠ none → j ≤ i) (h0 : fail k = false) (h1 : fail (k + 1) = true) :
    ∃ v', cvResize fail dbg IB zero n v k = .bad v' ∧ v'.size = n ∧ ∀ i, j < i → i < n → v'.get false IB zero i = .error .ub := by
  obtain ⟨E, hE⟩ := h
  have hfl := hE.fill
  have hc : CVec.restrictCapacity n v.cap = n := by unfold CVec.restrictCapacity; omega
  have hil : n ≠ v.idx.length := by rw [hE.idxLen]; omega
  have hvl : n ≠ v.val.length := by rw [hE.valLen]; omega
  refine ⟨⟨n, n, v.filled, resizeInit v.idx n 0, v.val⟩, ?_, rfl, fun i hji hin => ?_⟩
  · unfold cvResize
    simp only [bind_upd, bind_self, hc]
    rw [bind_room, if_neg (fun e => by rw [h0] at e; exact Bool.false_ne_true e.2.2), if_pos ⟨hil, by omega⟩]
    simp only [bind_upd, bind_self]
    rw [bind_room, if_pos ⟨hvl, by omega, h1⟩]
  · have hl0 : 0 < E.length := by rw [hE.holds.1]; omega
    have hx := hE.idxAt (n := 0) (by omega)
    rw [List.getElem?_eq_getElem hl0, Option.map_some] at hx
    have hE0 : E[0].1 ≤ j := by
      -- the first stored pair has the smallest index
      cases hs : s.val j with
      | none => exact absurd hs hj
      | some w =>
        have hm := (hE.rep.2 j w).1 hs
        obtain ⟨q, hq, e⟩ := List.getElem_of_mem hm
        rcases Nat.eq_zero_or_pos q with h0 | h0
        · subst h0; rw [e]
        · have := hE.rep.sorted E.length 0 q E[0].1 j (by omega) (by omega) hq (by simp [List.getElem?_eq_getElem hl0]) (by rw [List.getElem?_map, List.getElem?_eq_getElem hq, e]; rfl)
          omega
    have hx' : (resizeInit v.idx n 0)[0]? = some (E[0].1 + IB) := by
      have := CVec.take_resizeInit v.idx n 0 1 (by omega) (by rw [hE.idxLen]; omega)
      have := congrArg (fun l => l[0]?) this
      simp only [List.getElem?_take, Nat.zero_lt_one, if_true] at this
      rw [this]; exact hx
    unfold CVec.get CVec.slot CVec.lb lowerBound
    simp only [check_release, bind_ok]
    rw [if_neg (by omega), rd_eq_ok.2 hx', bind_ok, if_neg (by omega)]
    rw [show rd false (resizeInit v.idx n 0) (v.filled - 1) = .error .ub from by
      unfold rd
      rw [List.getElem?_eq_none (by rw [CVec.length_resizeInit]; omega)]
      rfl]
    rfl

/-! ### Concrete cases -/

/-- A 1 x 2 matrix assigned from a 2 x 2 one without memory. -/
example : ∃ m', denseAssign (fun _ => true) (⟨2, 2, [1, 2, 3, 4]⟩ : Dense Nat) ⟨1, 2, [7, 8]⟩ 0 = .bad m' ∧ m'.size1 = 2 ∧ m'.size2 = 2 ∧
    ∃ i j, i < m'.size1 ∧ j < m'.size2 ∧ m'.get false .row i j = .error .ub ∧ m'.get true .row i j = .error .badIndex :=
  C105_dense_assign_refuted (fun _ => true) .row ⟨1, 2, [7, 8]⟩ ⟨2, 2, [1, 2, 3, 4]⟩ rfl 0 (by decide) rfl
example : (match denseResize (fun _ => true) false .row (fun _ => 0) 3 3 true (⟨1, 2, [7, 8]⟩ : Dense Nat) 0 with | .bad m' => m' = ⟨1, 2, [7, 8]⟩ | _ => False) := rfl
/-- A full vector of size 5 with three stored elements, at 0, 1 and 3. -/
def exC : CVec Int := ⟨5, 3, 3, [0, 1, 3], [5, 10, 30]⟩
def exCs : SparseSpec.Vec Int := ⟨5, fun i => if i = 0 then some 5 else if i = 1 then some 10 else if i = 3 then some 30 else none⟩
theorem exC_inv : CVec.Inv 0 exC exCs := by
  refine ⟨[(0, 5), (1, 10), (3, 30)], rfl, rfl, rfl, by decide, fun _ => by decide, by decide, ⟨rfl, rfl, rfl⟩, ⟨by simp, fun i w => ?_⟩, fun i hi => ?_⟩
  · show (if i = 0 then some (5 : Int) else if i = 1 then some 10 else if i = 3 then some 30 else none) = some w ↔ _
    by_cases h0 : i = 0
    · subst h0; simp [eq_comm]
    · by_cases h1 : i = 1
      · subst h1; simp [eq_comm]
      · by_cases h3 : i = 3
        · subst h3; simp [eq_comm]
        · simp [h0, h1, h3]
  · have hi' : 5 ≤ i := hi
    show (if i = 0 then some (5 : Int) else if i = 1 then some 10 else if i = 3 then some 30 else none) = none
    rw [if_neg (by omega), if_neg (by omega), if_neg (by omega)]
example : ∃ v', cvInsert (fun _ => true) true 0 0 2 (99 : Int) exC 0 = .bad v' ∧ ∀ (dbg' : Bool) (junk : CVec.Junk Int), v'.insertElement dbg' 0 0 junk 2 99 = .error .ub :=
  C105_compressed_retry_refuted (fun _ => true) true 0 0 exC _ exC_inv rfl 2 99 (by decide) rfl 0 (.inl rfl)
example : ∃ v', cvResize (fun k => k == 1) false 0 0 2 exC 0 = .bad v' ∧ v'.size = 2 ∧ ∀ i, 0 < i → i < 2 → v'.get false 0 0 i = .error .ub :=
  C105_compressed_resize_refuted (fun k => k == 1) false 0 0 exC exCs exC_inv 2 0 0 (by decide) (by decide) (by decide) (fun i _ => Nat.zero_le i) rfl rfl
example : exC.filled ≤ CVec.restrictCapacity exC.size 10 := by decide

end Ublas.XC
