import Verif.Spec.OutOfRange
import Verif.Model.SymAdaptor
import Verif.Model.PackedAdaptor
import Verif.Model.CArray
import Verif.Model.Select
import Verif.Props.CompressedMatrix
import Verif.Props.VectorOfVector
import Verif.Props.MapOfMaps
import Verif.Props.Coo
import Verif.Props.DenseVV
/-! # C107: debug builds refuse indices outside the container -/
namespace Ublas
open Search Assoc SparseSpec
variable {α σ τ : Type}

theorem BadIndex.refused {β : Type} {x : M β} (h : BadIndex x) : Refused x := ⟨_, h, by decide, by decide⟩

/-- Every fault is `bad_index`. -/
def OnlyBad {β : Type} (x : M β) : Prop := ∀ e, x = .error e → e = .badIndex
theorem OnlyBad.bind {β γ : Type} {x : M β} {f : β → M γ} (h : OnlyBad x) (hf : ∀ a, OnlyBad (f a)) : OnlyBad (x >>= f) := by
  intro e he
  cases x with
  | ok a => exact hf a e he
  | error g => rw [bind_error] at he; cases he; exact h e rfl
theorem OnlyBad.ok {β : Type} (a : β) : OnlyBad (.ok a : M β) := fun e h => by cases h
theorem OnlyBad.check {d : Bool} {p : Prop} [Decidable p] : OnlyBad (check d p .badIndex) := by
  intro e h; unfold Ublas.check at h; split at h <;> cases h; rfl
theorem OnlyBad.rd {β : Type} (l : List β) (i : Nat) : OnlyBad (rd true l i) := by
  intro e h; unfold Ublas.rd at h; split at h <;> cases h; rfl
theorem OnlyBad.wr {β : Type} (l : List β) (i : Nat) (x : β) : OnlyBad (wr true l i x) := by
  intro e h; unfold Ublas.wr at h; split at h <;> cases h; rfl
/-- A computation that can only fault with `bad_index` and cannot return does fault with it. -/
theorem OnlyBad.bad {β : Type} {x : M β} (h : OnlyBad x) (hn : ∀ a, x ≠ .ok a) : BadIndex x := by
  cases hx : x with
  | ok a => exact absurd hx (hn a)
  | error e => rw [h e hx]; rfl
theorem bind_ne_ok {β γ : Type} {x : M β} {f : β → M γ} (h : ∀ a, x = .ok a → ∀ b, f a ≠ .ok b) : ∀ b, (x >>= f) ≠ .ok b := by
  intro b hb
  cases hx : x with
  | ok a => rw [hx, bind_ok] at hb; exact h a hx b hb
  | error e => rw [hx] at hb; cases hb

theorem bad_check2 {β : Type} {r c i j : Nat} (h : Outside r c i j) (k : Unit → M β) :
    BadIndex (check true (i < r) .badIndex >>= fun _ => check true (j < c) .badIndex >>= k) := by
  unfold BadIndex
  by_cases hi : i < r
  · rw [check_true hi, bind_ok, check_dbg_false (fun hj => h ⟨hi, hj⟩)]; rfl
  · rw [check_dbg_false hi]; rfl

theorem bad_element (o : Orient) {r c i j : Nat} (h : Outside r c i j) : o.element true i r j c = .error .badIndex := bad_check2 h _

theorem rd_bad {β : Type} (l : List β) {i : Nat} (h : l.length ≤ i) : rd true l i = .error .badIndex := by
  simp [rd, List.getElem?_eq_none h]
theorem wr_bad {β : Type} (l : List β) {i : Nat} (x : β) (h : l.length ≤ i) : wr true l i x = .error .badIndex := by
  simp [wr, Nat.not_lt.2 h]

/-! ## dense containers and views -/

/-- **C107** for `matrix`, `c_vector` and `c_matrix`. -/
theorem C107_dense (o : Orient) (zero t : α) (i j : Nat) :
    (∀ m : Dense α, Outside m.size1 m.size2 i j →
      BadIndex (m.get true o i j) ∧ BadIndex (m.set true o i j t) ∧ BadIndex (m.erase true o zero i j)) ∧
    (∀ v : CVect α, ¬ i < v.size → BadIndex (v.get true i) ∧ BadIndex (v.set true i t)) ∧
    (∀ (m : CMatx α) (C : Nat), Outside m.size1 m.size2 i j → BadIndex (m.get true C i j) ∧ BadIndex (m.set true C i j t)) := by
  refine ⟨fun m h => ⟨?_, ?_, ?_⟩, fun v h => ⟨?_, ?_⟩, fun m C h => ⟨bad_check2 h _, bad_check2 h _⟩⟩
  · simp [BadIndex, Dense.get, bad_element o h]
  · simp [BadIndex, Dense.set, bad_element o h]
  · simp [BadIndex, Dense.erase, Dense.set, bad_element o h]
  · simp [BadIndex, CVect.get, check_dbg_false h]
  · simp [BadIndex, CVect.set, check_dbg_false h]

theorem onlyBad_at (s : Sel) (i : Nat) : OnlyBad (s.at_ true i) := by
  cases s with
  | range r => exact OnlyBad.check.bind fun _ => OnlyBad.ok _
  | slice s => exact OnlyBad.check.bind fun _ => OnlyBad.check.bind fun _ => OnlyBad.ok _
  | indirect l => exact OnlyBad.check.bind fun _ => OnlyBad.rd _ _
theorem at_out (s : Sel) {i : Nat} (h : s.size ≤ i) : s.at_ true i = .error .badIndex := by
  cases s with
  | range r => have h : ¬ i < r.size := Nat.not_lt.2 h; simp only [Sel.at_, Range.at_]; rw [check_dbg_false h]; rfl
  | slice s => have h : ¬ i < s.size := Nat.not_lt.2 h; simp only [Sel.at_, Slice.at_]; rw [check_dbg_false h]; rfl
  | indirect l => have h : ¬ i < List.length l := Nat.not_lt.2 h; simp only [Sel.at_, Indirect.at_]; rw [check_dbg_false h]; rfl
theorem onlyBad_addr (p : VRef) : ∀ i, OnlyBad (p.addr true i) := by
  induction p with
  | base => intro i; exact OnlyBad.ok _
  | sel p s ih => intro i; exact (onlyBad_at s i).bind fun k => ih k
theorem onlyBad_maddr (p : MRef) : ∀ i j, OnlyBad (p.addr true i j) := by
  induction p with
  | base => intro i j; exact OnlyBad.ok _
  | sel p s1 s2 ih => intro i j; exact (onlyBad_at s1 i).bind fun a => (onlyBad_at s2 j).bind fun b => ih a b

/-- **C107** for `vector` and every tower of `vector_range`, `vector_slice`, `vector_indirect` over it. -/
theorem C107_vector_views (p : VRef) (l : List α) (i : Nat) (t : α) (h : p.size l.length ≤ i) :
    BadIndex (p.read true l i) ∧ BadIndex (p.write true l i t) := by
  cases p with
  | base => exact ⟨by simp [BadIndex, VRef.read, VRef.addr, rd_bad l h], by simp [BadIndex, VRef.write, VRef.addr, wr_bad l t h]⟩
  | sel p s =>
    have h' : s.at_ true i = .error .badIndex := at_out s h
    exact ⟨by simp [BadIndex, VRef.read, VRef.addr, h'], by simp [BadIndex, VRef.write, VRef.addr, h']⟩

theorem maddr_out (p : MRef) (m : Dense α) {β : Type} (f : Nat × Nat → M β)
    (hf : ∀ a b, Outside m.size1 m.size2 a b → f (a, b) = .error .badIndex) {i j : Nat}
    (h : Outside (p.size1 m.size1) (p.size2 m.size2) i j) : (p.addr true i j >>= f) = .error .badIndex := by
  cases p with
  | base => exact hf i j h
  | sel p s1 s2 =>
    by_cases hi : i < s1.size
    · have hj : s2.size ≤ j := by
        have h' : ¬ (i < s1.size ∧ j < s2.size) := h
        omega
      have := onlyBad_at s1 i
      cases e : s1.at_ true i with
      | error g => rw [MRef.addr, e, this g e]; rfl
      | ok a => rw [MRef.addr, e, bind_ok, at_out s2 hj]; rfl
    · rw [MRef.addr, at_out s1 (Nat.le_of_not_lt hi)]; rfl

/-- **C107** for every tower of `matrix_range`, `matrix_slice`, `matrix_indirect` over a `matrix`. -/
theorem C107_matrix_views (p : MRef) (o : Orient) (m : Dense α) (i j : Nat) (t : α) (h : Outside (p.size1 m.size1) (p.size2 m.size2) i j) :
    BadIndex (p.read true o m i j) ∧ BadIndex (p.write true o m i j t) :=
  ⟨maddr_out p m _ (fun _ _ h => by simp [Dense.get, bad_element o h]) h, maddr_out p m _ (fun _ _ h => by simp [Dense.set, bad_element o h]) h⟩

/-- Number of elements of a vector view of a matrix: matrix_proxy.hpp:62-64 (row: `data_.size2 ()`), 535-537 (column: `data_.size1 ()`), 1020-1022, 1499-1501, 1964-1966 (the two selectors have the same size). -/
def MVRef.length (r c : Nat) : MVRef → Nat
  | .row m _ => m.size2 c
  | .column m _ => m.size1 r
  | .along _ s1 s2 => min s1.size s2.size

/-- **C107** for `matrix_row`, `matrix_column`, `matrix_vector_range`, `matrix_vector_slice`, `matrix_vector_indirect`. -/
theorem C107_matrix_lines (p : MVRef) (o : Orient) (m : Dense α) (i : Nat) (t : α) (h : p.length m.size1 m.size2 ≤ i) :
    BadIndex (p.read true o m i) ∧ BadIndex (p.write true o m i t) := by
  have key : ∀ {β : Type} (f : Nat × Nat → M β), (∀ a b, Outside m.size1 m.size2 a b → f (a, b) = .error .badIndex) → (p.addr true i >>= f) = .error .badIndex := by
    intro β f hf
    cases p with
    | row q k => exact maddr_out q m f hf (fun hh => absurd hh.2 (Nat.not_lt.2 h))
    | column q k => exact maddr_out q m f hf (fun hh => absurd hh.1 (Nat.not_lt.2 h))
    | along q s1 s2 =>
      have hm : min s1.size s2.size ≤ i := h
      by_cases hi : i < s1.size
      · have hj : s2.size ≤ i := by omega
        have := onlyBad_at s1 i
        cases e : s1.at_ true i with
        | error g => rw [MVRef.addr, e, this g e]; rfl
        | ok a => rw [MVRef.addr, e, bind_ok, at_out s2 hj]; rfl
      · rw [MVRef.addr, at_out s1 (Nat.le_of_not_lt hi)]; rfl
  exact ⟨key _ (fun _ _ h => by simp [Dense.get, bad_element o h]), key _ (fun _ _ h => by simp [Dense.set, bad_element o h])⟩

/-! ## structured matrices -/

theorem bad_packed (t : Tri) (o : Orient) {r c i j : Nat} (h : Outside r c i j) : Packed.element true t o i r j c = .error .badIndex := by
  have low : ∀ (o : Orient) (i si j sj : Nat), Outside si sj i j → Packed.lowerElement true o i si j sj = .error .badIndex :=
    fun o i si j sj h => bad_check2 h _
  have el : ∀ (k : LKind) (o : Orient) (i si j sj : Nat), Outside si sj i j → Packed.lelement true o k i si j sj = .error .badIndex := by
    intro k o i si j sj h
    have h' : ¬ (i < si ∧ j < sj) := h
    cases k with
    | lower => exact low o i si j sj h
    | unit =>
      simp only [Packed.lelement]
      by_cases g : si ≠ 0 ∧ sj ≠ 0 ∧ i ≠ 0
      · rw [check_true g, bind_ok]; exact low _ _ _ _ _ (fun hh => h' (by omega))
      · rw [check_dbg_false g]; rfl
    | strict =>
      simp only [Packed.lelement]
      by_cases g : si ≠ 0 ∧ sj ≠ 0 ∧ i ≠ 0
      · rw [check_true g, bind_ok]; exact low _ _ _ _ _ (fun hh => h' (by omega))
      · rw [check_dbg_false g]; rfl
  unfold Packed.element
  split
  · exact el _ _ _ _ _ _ (fun hh => h ⟨hh.2, hh.1⟩)
  · exact el _ _ _ _ _ _ h

theorem Outside.symm {n i j : Nat} (h : Outside n n i j) : Outside n n j i := fun hh => h ⟨hh.2, hh.1⟩

/-- **C107** for `triangular_matrix`, `symmetric_matrix`, `hermitian_matrix` and `banded_matrix` (element reads, element writes, `insert_element`, `erase_element`). -/
theorem C107_structured [Zero α] [One α] (conj : α → α) (t : Tri) (o : Orient) (i j : Nat) (x : α) :
    (∀ m : Packed.TMat α, Outside m.size1 m.size2 i j → BadIndex (m.get true t o i j) ∧ BadIndex (m.set true t o i j x) ∧ BadIndex (m.erase true t o i j)) ∧
    (∀ m : Packed.SMat α, Outside m.size m.size i j →
      BadIndex (m.get true t o i j) ∧ BadIndex (m.set true t o i j x) ∧ BadIndex (m.erase true t o i j) ∧
      BadIndex (m.hget conj true t o i j) ∧ BadIndex (m.hassign conj true t o i j x) ∧ BadIndex (m.hassignLoose true t o i j x) ∧
      BadIndex (m.hinsert conj true t o i j x) ∧ BadIndex (m.herase true t o i j)) ∧
    (∀ m : BMat α, Outside m.size1 m.size2 i j → BadIndex (m.get true o i j) ∧ BadIndex (m.set true o i j x) ∧ BadIndex (m.erase true o i j)) := by
  refine ⟨fun m h => ⟨bad_check2 h _, bad_check2 h _, bad_check2 h _⟩,
    fun m h => ⟨bad_check2 h _, bad_check2 h _, bad_check2 h _, bad_check2 h _, ?_, ?_, bad_check2 h _, bad_check2 h _⟩,
    fun m h => ⟨bad_check2 h _, bad_check2 h _, bad_check2 h _⟩⟩
  · have : m.hload conj true t o i j = .error .badIndex := by
      unfold Packed.SMat.hload; split
      · rw [bad_packed t o h]; rfl
      · rw [bad_packed t o h.symm]; rfl
    simp [BadIndex, Packed.SMat.hassign, HCont.exec, HCont.ref, Packed.SMat.hcont, this]
  · unfold BadIndex Packed.SMat.hassignLoose
    by_cases g : Packed.other t i j = true
    · rw [if_neg (by simp [g])]; exact bad_check2 h _
    · rw [if_pos g]; rfl

/-- **C107** for `triangular_adaptor`, `banded_adaptor`, `symmetric_adaptor` and `hermitian_adaptor`. -/
theorem C107_adaptors [Zero α] [One α] (conj : α → α) (t : Tri) (upper : Bool) (l u r c n : Nat) (a : Nat → Nat → α) (i j : Nat) (x : α) :
    (Outside r c i j → BadIndex (Adapt.tget true t r c a i j) ∧ BadIndex (Adapt.tset true t r c a i j x) ∧
      BadIndex (Adapt.bget true l u r c a i j) ∧ BadIndex (Adapt.bset true l u r c a i j x)) ∧
    (Outside n n i j → BadIndex (SymAd.read true upper conj n a i j) ∧ BadIndex (SymAd.writeSym true upper n a i j x) ∧
      BadIndex (SymAd.writeHerm true upper conj n a i j x) ∧ BadIndex (SymAd.insertHerm true upper conj n a i j x) ∧
      BadIndex (SymAd.writeHermLoose true upper n a i j x)) := by
  refine ⟨fun h => ⟨bad_check2 h _, bad_check2 h _, bad_check2 h _, bad_check2 h _⟩,
    fun h => ⟨bad_check2 h _, bad_check2 h _, ?_, bad_check2 h _, bad_check2 h _⟩⟩
  have : SymAd.read true upper conj n a i j = .error .badIndex := bad_check2 h _
  simp [BadIndex, SymAd.writeHerm, HCont.exec, HCont.ref, SymAd.hcont, this]

/-! ## sparse containers -/

/-- **C107** for `mapped_matrix` (any map), and for element access to a `mapped_vector` (partial: see `C107_mapped_vector_insert_refuted`). -/
theorem C107_mapped_partial (I : MapImpl σ α) (o : Orient) (zero x : α) (f : α → α) (i j : Nat) :
    (∀ m : MappedMat σ, Outside m.size1 m.size2 i j → BadIndex (m.findElement I true o i j) ∧ BadIndex (m.get I true o zero i j) ∧
      BadIndex (m.modify I true o zero i j f) ∧ BadIndex (m.insertElement I true o i j x) ∧ BadIndex (m.eraseElement I true o i j)) ∧
    (∀ v : MappedVec σ, ¬ i < v.size → BadIndex (v.get I true zero i) ∧ BadIndex (v.modify I true zero i f)) := by
  refine ⟨fun m h => ?_, fun v h => ⟨?_, ?_⟩⟩
  · have e := bad_element o h
    refine ⟨?_, ?_, ?_, ?_, ?_⟩ <;>
      simp [BadIndex, MappedMat.findElement, MappedMat.get, MappedMat.modify, MappedMat.insertElement, MappedMat.eraseElement, e]
  · simp [BadIndex, MappedVec.get, check_dbg_false h]
  · simp [BadIndex, MappedVec.modify, check_dbg_false h]

/-- **C107** (refuted for `mapped_vector::insert_element`): with either map, a debug build stores an element past the end of a vector without complaint. -/
theorem C107_mapped_vector_insert_refuted (I : MapImpl σ α) (R : σ → (Nat → Option α) → Prop) (L : MapLaws I R) (n nz i : Nat) (hi : n ≤ i) (t : α) :
    ∃ v v', MappedVec.ctor I true n nz = .ok v ∧ v.insertElement I true i t = .ok v' ∧ v'.size = n ∧ v'.findElement I i = .ok (some t) := by
  obtain ⟨m, e, h⟩ := L.reserve true _ _ (min nz n) L.empty (by intro L _ hm; cases L with | nil => simp | cons a l => exact absurd rfl (hm a (by simp)))
  obtain ⟨m', e', h'⟩ := L.insert true m _ i t h
  refine ⟨⟨n, m⟩, ⟨n, m'⟩, by simp [MappedVec.ctor, e], by simp [MappedVec.insertElement, e', check], rfl, ?_⟩
  simp [MappedVec.findElement, L.find _ _ i h', upd]

/-- The growth step of `insert_element` and `push_back` never fails by itself. -/
theorem CVec.Repr.grown {IB : Nat} {v : CVec α} {E s} (h : CVec.Repr IB v E s) (dbg : Bool) (zero : α) (junk : CVec.Junk α) :
    ∃ v', (if v.filled ≥ v.cap then v.reserve dbg IB zero junk (2 * v.cap) true else .ok v : M (CVec α)) = .ok v' ∧ CVec.Repr IB v' E s ∧
      v'.size = v.size ∧ v'.filled = v.filled := by
  by_cases hr : v.filled < v.size
  · obtain ⟨v', e, h', _⟩ := h.grow dbg zero junk hr
    exact ⟨v', e, h', by rw [h'.size, h.size], by rw [← h'.holds.1, h.holds.1]⟩
  · have h1 := h.fill
    have h2 := h.capLe
    have hc : CVec.restrictCapacity v.size (2 * v.cap) = v.cap := by unfold CVec.restrictCapacity; omega
    have hf : v.filled ≥ v.cap := by omega
    have hm : min v.cap v.filled = v.filled := by omega
    have e1 : resizeInit v.idx v.cap 0 = v.idx := by
      unfold resizeInit; rw [← h.idxLen]; simp
    have e2 : resizeInit v.val v.cap zero = v.val := by
      unfold resizeInit; rw [← h.valLen]; simp
    refine ⟨v, ?_, h, rfl, rfl⟩
    rw [if_pos hf]
    simp only [CVec.reserve, hc, hm, e1, e2, if_true]
    rw [h.invariants dbg, bind_ok]

/-- The lower bound of an index past the end is the end. -/
theorem CVec.Repr.lb_out {IB : Nat} {v : CVec α} {E s} (h : CVec.Repr IB v E s) {i : Nat} (hi : v.size ≤ i) : v.lb IB i = .ok v.filled := by
  obtain ⟨n, e, hn, _, _, _, h4⟩ := h.lb i
  have : n = v.filled := by
    refine Nat.le_antisymm hn (Nat.le_of_not_lt fun hlt => ?_)
    have hl : n < E.length := by rw [h.holds.1]; exact hlt
    have hk := h4 n E[n].1 (Nat.le_refl _) hl (by simp [hl])
    have hs := (h.rep.2 E[n].1 E[n].2).2 (List.getElem_mem hl)
    rw [h.range _ (by rw [← h.size]; omega)] at hs; cases hs
  rw [e, this]

theorem CVec.invariants_out (IB : Nat) (v : CVec α) {i : Nat} (hf : v.filled ≠ 0) (hx : v.idx[v.filled - 1]? = some (i + IB)) (hi : v.size ≤ i) :
    Refused (v.invariants true IB) := by
  unfold CVec.invariants
  by_cases h1 : v.cap = v.idx.length
  · by_cases h2 : v.cap = v.val.length
    · by_cases h3 : v.filled ≤ v.cap
      · rw [check_true h1, bind_ok, check_true h2, bind_ok, check_true h3, bind_ok, if_pos ⟨rfl, hf⟩, rd_eq_ok.2 hx, bind_ok, check_dbg_false (by omega)]
        exact ⟨_, rfl, by decide, by decide⟩
      · rw [check_true h1, bind_ok, check_true h2, bind_ok, check_dbg_false h3]
        exact ⟨_, rfl, by decide, by decide⟩
    · rw [check_true h1, bind_ok, check_dbg_false h2]
      exact ⟨_, rfl, by decide, by decide⟩
  · rw [check_dbg_false h1]
    exact ⟨_, rfl, by decide, by decide⟩

theorem Refused.bind {β γ : Type} {x : M β} {f : β → M γ} (h : Refused x) : Refused (x >>= f) := by
  obtain ⟨e, rfl, h1, h2⟩ := h
  exact ⟨e, rfl, h1, h2⟩

/-- `check` in a debug build either passes or refuses. -/
theorem Refused.check_bind {β : Type} {p : Prop} [Decidable p] {e : Fault} (h1 : e ≠ .ub) (h2 : e ≠ .diverge) {f : Unit → M β} (h : p → Refused (f ())) :
    Refused (check true p e >>= f) := by
  by_cases hp : p
  · rw [check_true hp, bind_ok]; exact h hp
  · rw [check_dbg_false hp]; exact ⟨e, rfl, h1, h2⟩

/-- **C107** for `compressed_vector`, after any legal history (partial): reads and writes past the end throw `bad_index`; `push_back` past the end throws, and so does
`insert_element` as long as some element is not stored.  Missing: `insert_element` on a vector whose elements are all stored, see the refutation. -/
theorem C107_compressed_vector_partial (IB : Nat) (zero : α) (junk junk' : CVec.Junk α) (n nz : Nat) (ops : List (CVOp α × CVec.Junk α))
    (hl : cvlegalRun zero ⟨n, fun _ => none⟩ (ops.map (·.1))) :
    ∃ v0 v, CVec.ctor true IB junk n nz = .ok v0 ∧ CVec.run true IB zero v0 ops = .ok v ∧ ∀ i, v.size ≤ i → ∀ (t : α) (f : α → α),
      BadIndex (v.get true IB zero i) ∧ BadIndex (v.modify true IB zero junk' i f) ∧ Refused (v.pushBack true IB zero junk' i t) ∧
      (v.filled < v.size → Refused (v.insertElement true IB zero junk' i t)) := by
  obtain ⟨v0, e0, h0⟩ := CVec.inv_ctor true IB junk n nz
  obtain ⟨v, e1, E, h⟩ := CVec.run_inv true IB zero ops v0 _ h0 hl
  refine ⟨v0, v, e0, e1, fun i hi t f => ⟨?_, ?_, ?_, ?_⟩⟩
  · simp [BadIndex, CVec.get, check_dbg_false (Nat.not_lt.2 hi)]
  · simp [BadIndex, CVec.modify, check_dbg_false (Nat.not_lt.2 hi)]
  · obtain ⟨v1, g1, g2, g3, g4⟩ := h.grown true zero junk'
    have tail : Refused (check true (v1.filled < v1.cap) Fault.internalLogic >>= fun _ => wr true v1.idx v1.filled (i + IB) >>= fun idx =>
        wr true v1.val v1.filled t >>= fun val => CVec.invariants true IB ⟨v1.size, v1.cap, v1.filled + 1, idx, val⟩ >>= fun _ =>
        (.ok ⟨v1.size, v1.cap, v1.filled + 1, idx, val⟩ : M (CVec α))) := by
      refine Refused.check_bind (by decide) (by decide) fun hc => ?_
      rw [wr_ok (by rw [g2.idxLen]; exact hc), bind_ok, wr_ok (by rw [g2.valLen]; exact hc), bind_ok]
      refine (CVec.invariants_out IB _ (i := i) (by simp) ?_ (by simpa [g3] using hi)).bind
      simp [g2.idxLen, hc]
    unfold CVec.pushBack
    dsimp only
    split
    · rename_i hd
      have hlt : v.filled - 1 < v.idx.length := by rw [h.idxLen]; have := h.fill; omega
      rw [rd_ok hlt, bind_ok]
      refine Refused.check_bind (by decide) (by decide) fun _ => ?_
      rw [g1, bind_ok]; exact tail
    · rw [bind_ok, g1, bind_ok]; exact tail
  · intro hroom
    obtain ⟨v1, g1, g2, g3⟩ := h.grow true zero junk' hroom
    have hs : v1.size = v.size := by rw [g2.size, h.size]
    have hlb := g2.lb_out (i := i) (by rw [hs]; exact hi)
    have hcb : ∀ {β : Type} (l : List β), copyBackward l v1.filled v1.filled = .ok l := by intro β l; simp [copyBackward, loop]
    unfold CVec.insertElement
    rw [if_pos rfl, h.findElement true i, bind_ok, h.range i (by rw [← h.size]; exact hi), check_true (by rfl), bind_ok, g1, bind_ok, hlb, bind_ok]
    rw [if_neg (by simp), bind_ok, hcb, bind_ok, wr_ok (by rw [g2.idxLen]; exact g3), bind_ok, hcb, bind_ok, wr_ok (by rw [g2.valLen]; exact g3), bind_ok]
    dsimp only
    refine (CVec.invariants_out IB _ (i := i) (by simp) ?_ (by simpa [hs] using hi)).bind
    simp [g2.idxLen, g3]

/-- **C107** (refuted for `compressed_vector::insert_element`): after any legal history that leaves every element stored (a vector of size 0 included), inserting past the end
in a *debug* build writes past the end of the index array before any check looks at the index. -/
theorem C107_compressed_vector_full_refuted (IB : Nat) (zero : α) (junk junk' : CVec.Junk α) (n nz : Nat) (ops : List (CVOp α × CVec.Junk α))
    (hl : cvlegalRun zero ⟨n, fun _ => none⟩ (ops.map (·.1))) :
    ∃ v0 v, CVec.ctor true IB junk n nz = .ok v0 ∧ CVec.run true IB zero v0 ops = .ok v ∧
      (v.filled = v.size → ∀ i, v.size ≤ i → ∀ t, v.insertElement true IB zero junk' i t = .error .ub) := by
  obtain ⟨v0, e0, h0⟩ := CVec.inv_ctor true IB junk n nz
  obtain ⟨v, e1, E, h⟩ := CVec.run_inv true IB zero ops v0 _ h0 hl
  refine ⟨v0, v, e0, e1, fun hfull i hi t => ?_⟩
  obtain ⟨v1, g1, g2, g3, g4⟩ := h.grown true zero junk'
  have hlb := g2.lb_out (i := i) (by rw [g3]; exact hi)
  have hcb : ∀ {β : Type} (l : List β), copyBackward l v1.filled v1.filled = .ok l := by intro β l; simp [copyBackward, loop]
  unfold CVec.insertElement
  rw [if_pos rfl, h.findElement true i, bind_ok, h.range i (by rw [← h.size]; exact hi), check_true (by rfl), bind_ok, g1, bind_ok, hlb, bind_ok]
  rw [if_neg (by simp), bind_ok, hcb, bind_ok]
  have : ¬ v1.filled < v1.idx.length := by rw [g2.idxLen]; have := g2.capLe; omega
  simp [wr, this]

/-! ### coordinate containers -/
section coordinate
variable {κ : Type} [DecidableEq κ] {β : Type} [AddCommMonoid β]

theorem Coo.invariants_out (P : CooPar κ β) (v : Coo κ β) {k : κ} (hf : v.filled ≠ 0) (hx : v.idx[v.filled - 1]? = some k) (hk : P.inRange k = false) :
    Refused (v.invariants true P) := by
  unfold Coo.invariants
  refine Refused.check_bind (by decide) (by decide) fun _ => Refused.check_bind (by decide) (by decide) fun _ => Refused.check_bind (by decide) (by decide) fun _ =>
    Refused.check_bind (by decide) (by decide) fun _ => Refused.check_bind (by decide) (by decide) fun _ => ?_
  rw [if_pos ⟨rfl, hf⟩, rd_eq_ok.2 hx, bind_ok, check_dbg_false (by simp [hk])]
  exact ⟨_, rfl, by decide, by decide⟩

theorem Coo.append_out {P : CooPar κ β} (hP : Coo.ParOk P) (zero : β) (junk : Coo.Junk κ β) {v : Coo κ β} {A} (h : Coo.Inv P v A) (hmin : 0 < P.minCap)
    (k : κ) (t : β) (hk : P.inRange k = false) : Refused (v.append true P zero junk k t) := by
  obtain ⟨v1, B, e, h1, h2, h3, _⟩ := Coo.grow_spec hP true zero junk h hmin
  unfold Coo.append
  rw [e, bind_ok, check_true h3, bind_ok, wr_ok (by rw [h1.idxLen]; exact h3), bind_ok, wr_ok (by rw [h1.valLen]; exact h3), bind_ok]
  dsimp only
  refine (Coo.invariants_out P _ (k := k) (by simp) ?_ hk).bind
  simp [h1.idxLen, h3]

theorem Coo.pushBack_out {P : CooPar κ β} (hP : Coo.ParOk P) (zero : β) (junk : Coo.Junk κ β) {v : Coo κ β} {A} (h : Coo.Inv P v A) (hmin : 0 < P.minCap)
    (k : κ) (t : β) (hk : P.inRange k = false) : Refused (v.pushBack true P zero junk k t) := by
  obtain ⟨v1, B, e, h1, h2, h3, _⟩ := Coo.grow_spec hP true zero junk h hmin
  have tail : Refused (check true (v1.filled < v1.cap) Fault.internalLogic >>= fun _ => wr true v1.idx v1.filled k >>= fun idx =>
      wr true v1.val v1.filled t >>= fun val => Coo.invariants true P ⟨v1.cap, v1.filled + 1, v1.filled + 1, v1.sorted, idx, val⟩ >>= fun _ =>
      (.ok ⟨v1.cap, v1.filled + 1, v1.filled + 1, v1.sorted, idx, val⟩ : M (Coo κ β))) := by
    rw [check_true h3, bind_ok, wr_ok (by rw [h1.idxLen]; exact h3), bind_ok, wr_ok (by rw [h1.valLen]; exact h3), bind_ok]
    refine (Coo.invariants_out P _ (k := k) (by simp) ?_ hk).bind
    simp [h1.idxLen, h3]
  unfold Coo.pushBack
  refine Refused.check_bind (by decide) (by decide) fun _ => ?_
  dsimp only
  split
  · have hlt : v.filled - 1 < v.idx.length := by rw [h.idxLen]; have := h.fill; omega
    rw [rd_ok hlt, bind_ok]
    refine Refused.check_bind (by decide) (by decide) fun _ => ?_
    rw [e, bind_ok]; exact tail
  · rw [bind_ok, e, bind_ok]; exact tail

/-- **C107** for `coordinate_vector`, after any legal history: reads and writes past the end throw `bad_index`, and `insert_element`, `append_element` and `push_back` throw. -/
theorem C107_coordinate_vector (srt : List (Nat × β) → List (Nat × β)) (hsrt : CoordVec.Sorts srt) (full : Bool) (IB : Nat)
    (junk junk' : Coo.Junk Nat β) (n nz : Nat) (ops : List (CoordVecOp β × Coo.Junk Nat β))
    (hl : CooSpec.vlegalRun ⟨n, fun _ => none, true⟩ (ops.map (·.1))) :
    ∃ v0 v, CoordVec.ctor srt full true IB junk n nz = .ok v0 ∧ CoordVec.run srt full true IB 0 v0 ops = .ok v ∧ ∀ i, v.size ≤ i → ∀ (t : β) (f : β → β),
      BadIndex (v.get srt full true IB 0 i) ∧ BadIndex (v.step srt full true IB 0 junk' (.core (.modify i f))) ∧
      Refused (v.step srt full true IB 0 junk' (.core (.insert i t))) ∧ Refused (v.step srt full true IB 0 junk' (.core (.append i t))) ∧
      Refused (v.step srt full true IB 0 junk' (.core (.pushBack i t))) := by
  obtain ⟨v0, e0, h0⟩ := CoordVec.inv_ctor srt full true IB junk n nz
  obtain ⟨v, e1, h⟩ := CoordVec.run_inv srt hsrt full true IB ops v0 _ h0 hl
  generalize CooSpec.vrun ⟨n, fun _ => none, true⟩ (ops.map (·.1)) = s at h
  obtain ⟨hsz, A, hA, hv, hin, hso⟩ := h
  refine ⟨v0, v, e0, e1, fun i hi t f => ?_⟩
  have hP := CoordVec.parOk srt hsrt full IB s.size
  have hk : (CoordVec.par srt full IB s.size).inRange (i + IB) = false := by simp [CoordVec.par]; omega
  have hm : 0 < (CoordVec.par srt full IB s.size).minCap := Nat.one_pos
  refine ⟨?_, ?_, ?_, ?_, ?_⟩
  · simp [BadIndex, CoordVec.get, check_dbg_false (Nat.not_lt.2 hi)]
  · simp [BadIndex, CoordVec.step, check_dbg_false (Nat.not_lt.2 hi)]
  · simp only [CoordVec.step, bind_ok, Coo.step]
    rw [hsz]
    refine Refused.bind ?_
    unfold Coo.insert
    obtain ⟨v1, B, r, e, h1, h2, h3, h4, h5⟩ := Coo.find_spec hP true hA (i + IB)
    rw [if_pos rfl, e, bind_ok]
    by_cases hr : r.isNone = true
    · rw [check_true hr]; exact Coo.append_out hP 0 junk' h1 hm _ t hk
    · rw [check_dbg_false hr]; exact ⟨_, rfl, by decide, by decide⟩
  · simp only [CoordVec.step, bind_ok, Coo.step]
    rw [hsz]
    exact (Coo.append_out hP 0 junk' hA hm _ t hk).bind
  · simp only [CoordVec.step, bind_ok, Coo.step]
    rw [hsz]
    exact (Coo.pushBack_out hP 0 junk' hA hm _ t hk).bind

/-- **C107** (refuted for `coordinate_matrix`): after any legal history on a matrix with rows and columns, a *debug* build answers a read outside the matrix with zero, and accepts an
element appended there, which then reads back. -/
theorem C107_coordinate_matrix_refuted (srt : List ((Nat × Nat) × β) → List ((Nat × Nat) × β)) (hsrt : CoordMat.Sorts srt) (full : Bool) (o : Orient) (IB : Nat)
    (junk junk' : Coo.Junk (Nat × Nat) β) (r c nz : Nat) (ops : List (CoordMatOp β × Coo.Junk (Nat × Nat) β))
    (hl : CooSpec.mlegalRun o ⟨r, c, fun _ => none, true⟩ (ops.map (·.1))) :
    ∃ v0 v, CoordMat.ctor srt full true junk r c nz = .ok v0 ∧ CoordMat.run srt full true o IB 0 v0 ops = .ok v ∧
      (0 < v.size1 → 0 < v.size2 → ∀ i j, Outside v.size1 v.size2 i j → ∀ t,
        v.get srt full true o IB 0 (i, j) = .ok 0 ∧
        ∃ v', v.step srt full true o IB 0 junk' (.core (.append (i, j) t)) = .ok v' ∧ v'.get srt full true o IB 0 (i, j) = .ok t) := by
  obtain ⟨v0, e0, h0⟩ := CoordMat.inv_ctor srt full true o IB junk r c nz
  obtain ⟨v, e1, h⟩ := CoordMat.run_inv srt hsrt full true o IB ops v0 _ h0 hl
  generalize CooSpec.mrun o ⟨r, c, fun _ => none, true⟩ (ops.map (·.1)) = s at h
  obtain ⟨hs1, hs2, A, hA, hv, hin, hso⟩ := h
  refine ⟨v0, v, e0, e1, fun hr hc i j hout t => ?_⟩
  have hP := CoordMat.parOk srt hsrt full s.rows s.cols
  have hm : 0 < (CoordMat.par srt full s.rows s.cols).minCap := by
    simp only [CoordMat.par]; omega
  have hnone : Coo.collect A (CoordMat.key o IB (i, j)) = none := by
    rw [Coo.collect_eq_none]; intro hmem
    obtain ⟨p, hp, e⟩ := List.mem_map.1 hmem
    obtain ⟨q, hq, e'⟩ := hin p hp
    have := CoordMat.key_inj o IB _ _ (e.symm.trans e')
    subst this
    exact hout ⟨by rw [hs1]; exact hq.1, by rw [hs2]; exact hq.2⟩
  obtain ⟨v1, B1, g1, _⟩ := Coo.get_spec hP true 0 hA (CoordMat.key o IB (i, j))
  obtain ⟨v2, B, e, h1, h2, h3⟩ := Coo.append_spec hP true 0 junk' hA hm (CoordMat.key o IB (i, j)) t rfl
  obtain ⟨v3, B3, g3, _⟩ := Coo.get_spec hP true 0 h1 (CoordMat.key o IB (i, j))
  refine ⟨?_, ⟨v.size1, v.size2, v2⟩, ?_, ?_⟩
  · unfold CoordMat.get
    rw [hs1, hs2, g1, hnone]; rfl
  · simp only [CoordMat.step, Coo.step]
    rw [hs1, hs2, e]; rfl
  · unfold CoordMat.get
    dsimp only
    rw [hs1, hs2, g3, Coo.collect_append_single, if_pos rfl, h2, hnone]
    simp
end coordinate

/-! ### compressed_matrix -/

theorem loop_wr_out {β : Type} (a : Nat) (x : β) : ∀ (n : Nat) (l : List β), 0 < n → l.length < a + n → loop (fun k l => wr true l (a + k) x) n l = .error .badIndex := by
  intro n
  induction n with
  | zero => intro l h; omega
  | succ n ih =>
    intro l _ h
    unfold loop
    by_cases hn : 0 < n ∧ l.length < a + n
    · rw [ih l hn.1 hn.2]; rfl
    · obtain ⟨t, e, ht⟩ := loop_inv (f := fun k (l : List β) => wr true l (a + k) x) (n := n) (s := l) (fun _ t => t.length = l.length) rfl
        (by intro k t hk ht; exact ⟨_, wr_ok (by rw [ht]; omega), by simpa using ht⟩)
      rw [e, bind_ok, wr_bad t x (by rw [ht]; omega)]

/-- **C107** for `compressed_matrix`, after any legal history (partial): a write, `insert_element` or `push_back` whose *major* index (the row of a row_major matrix) is outside throws.
Missing: minor indices, and reads; see the refutations. -/
theorem C107_compressed_matrix_partial (o : Orient) (IB : Nat) (zero : α) (junk junk' : CMat.Junk α) (r c nz : Nat) (ops : List (CMOp α × CMat.Junk α))
    (hl : cmlegalRun o zero ⟨r, c, fun _ => none, 0⟩ (ops.map (·.1))) :
    ∃ v0 v, CMat.ctor true o IB junk r c nz = .ok v0 ∧ CMat.run true o IB zero v0 ops = .ok v ∧
      ∀ i j, o.sizeM v.size1 v.size2 ≤ o.indexM i j → ∀ (t : α) (f : α → α),
        Refused (v.modify true o IB zero junk' i j f) ∧ Refused (v.insertElement true o IB zero junk' i j t) ∧ Refused (v.pushBack true o IB zero junk' i j t) := by
  obtain ⟨v0, e0, h0⟩ := CMat.inv_ctor true o IB junk r c nz
  obtain ⟨v, e1, E, h, hs1, hs2, hf, _⟩ := CMat.run_inv true o IB zero ops v0 _ h0 hl
  refine ⟨v0, v, e0, e1, fun i j hout t f => ?_⟩
  have hle := h.le
  have hslot : v.slot o IB i j = .ok none := by
    simp only [CMat.slot]; rw [if_pos (by omega)]
  have hgrow : ∃ v', (if v.filled2 ≥ v.cap then v.reserve true o IB zero junk' (2 * v.filled2) true else .ok v : M (CMat α)) = .ok v' ∧
      CMat.Core o IB v' E (CMat.flat o (cmrun o zero ⟨r, c, fun _ => none, 0⟩ (ops.map (·.1)))) ∧ v'.size1 = v.size1 ∧ v'.size2 = v.size2 := by
    by_cases hc : v.filled2 ≥ v.cap
    · obtain ⟨v', g1, g2, g3, g4, _⟩ := h.reserveTrue true zero junk' (2 * v.filled2) (CMat.le_restrict h.filled2_le (by omega))
      exact ⟨v', by rw [if_pos hc]; exact g1, g2, g3, g4⟩
    · exact ⟨v, by rw [if_neg hc], h, rfl, rfl⟩
  obtain ⟨v1, g1, g2, g3, g4⟩ := hgrow
  have hopen : v1.openTo true IB (o.indexM i j + 2) = .error .badIndex := by
    have h1 := g2.le
    rw [g3, g4] at h1
    have h2 := g2.idx1Len
    rw [g3, g4] at h2
    unfold CMat.openTo
    rw [loop_wr_out v1.filled1 (v1.filled2 + IB) _ v1.idx1 (by omega) (by omega)]
    rfl
  have hins : ∀ x, Refused (v.insertElement true o IB zero junk' i j x) := by
    intro x
    unfold CMat.insertElement
    rw [if_pos rfl]
    simp only [CMat.findElement, hslot, bind_ok]
    rw [check_true (by rfl), bind_ok, g1, bind_ok]
    refine Refused.check_bind (by decide) (by decide) fun _ => ?_
    rw [hopen]
    exact ⟨_, rfl, by decide, by decide⟩
  refine ⟨?_, hins t, ?_⟩
  · unfold CMat.modify
    rw [hslot, bind_ok]
    exact (hins zero).bind
  · unfold CMat.pushBack
    rw [g1, bind_ok]
    refine Refused.check_bind (by decide) (by decide) fun _ => ?_
    dsimp only
    rw [hopen]
    exact ⟨_, rfl, by decide, by decide⟩

/-- **C107** (refuted for reads of `compressed_matrix`): after any legal history, a *debug* build answers a read outside the rows of a row_major (the columns of a column_major) matrix with zero. -/
theorem C107_compressed_matrix_read_refuted (o : Orient) (IB : Nat) (zero : α) (junk : CMat.Junk α) (r c nz : Nat) (ops : List (CMOp α × CMat.Junk α))
    (hl : cmlegalRun o zero ⟨r, c, fun _ => none, 0⟩ (ops.map (·.1))) :
    ∃ v0 v, CMat.ctor true o IB junk r c nz = .ok v0 ∧ CMat.run true o IB zero v0 ops = .ok v ∧
      ∀ i j, o.sizeM v.size1 v.size2 ≤ o.indexM i j → v.get true o IB zero i j = .ok zero := by
  obtain ⟨v0, e0, h0⟩ := CMat.inv_ctor true o IB junk r c nz
  obtain ⟨v, e1, E, h, hs1, hs2, hf, _⟩ := CMat.run_inv true o IB zero ops v0 _ h0 hl
  refine ⟨v0, v, e0, e1, fun i j hout => ?_⟩
  have hle := h.le
  have hslot : v.slot o IB i j = .ok none := by
    simp only [CMat.slot]; rw [if_pos (by omega)]
  simp [CMat.get, CMat.findElement, hslot]

/-- **C107** (refuted for `compressed_matrix` writes): in a *debug* build the 2 × 2 matrix accepts an element in column 9, reads it back, and prints it among its elements as far as `nnz` goes;
reading (0, 7) gives zero. -/
theorem C107_compressed_matrix_write_refuted :
    (do let v0 ← CMat.ctor true .row 0 cmJunk 2 2 4
        let v ← v0.insertElement true .row 0 0 cmJunk 0 9 5
        let v' ← v.1.modify true .row 0 0 cmJunk 1 3 (fun _ => 6)
        let x ← v'.get true .row 0 0 0 9
        let y ← v'.get true .row 0 0 1 3
        let z ← v'.get true .row 0 0 0 7
        .ok (x, y, z, v'.filled2) : M (Int × Int × Int × Nat)) = .ok (5, 6, 0, 2) := by decide

/-! ### vector_of_vector -/

/-- **C107** for the sparse `generalized_vector_of_vector`, after any legal history (partial): reads and writes outside throw `bad_index`.  Missing: `insert_element`, see the refutation. -/
theorem C107_vector_of_vector_partial (o : Orient) (IB : Nat) (zero : α) (junk junk' : VoV.Junk α) (rows : Nat → CVec α) (r c : Nat)
    (ops : List (VVOp α × VoV.Junk α × (Nat → CVec α))) (hl : vvlegalRun zero ⟨r, c, fun _ => none⟩ (ops.map (·.1))) :
    ∃ v0 v, VoV.ctor true o IB zero junk rows r c = .ok v0 ∧ VoV.run true o IB zero v0 ops = .ok v ∧
      ∀ i j, Outside v.size1 v.size2 i j → ∀ (f : α → α), BadIndex (v.get true o IB zero i j) ∧ BadIndex (v.modify true o IB zero junk' i j f) := by
  obtain ⟨v0, e0, h0⟩ := VoV.inv_ctor true o IB zero junk rows r c
  obtain ⟨v, e1, h⟩ := VoV.run_inv true o IB zero ops v0 _ h0 hl
  generalize vvrun zero ⟨r, c, fun _ => none⟩ (ops.map (·.1)) = s at h
  refine ⟨v0, v, e0, e1, fun i j hout f => ?_⟩
  by_cases hk : o.indexM i j < o.sizeM s.rows s.cols + 1
  · obtain ⟨q, h1, h2, E, h3⟩ := h.lines.get true hk rfl
    have hsz : ¬ o.indexm i j < q.size := by
      rw [h3.size]
      simp only [VoV.lineSpec]
      split
      · rename_i hlt
        intro hm
        apply hout
        rw [h.size1, h.size2]
        cases o
        · exact ⟨hlt, hm⟩
        · exact ⟨hm, hlt⟩
      · simp
    constructor
    · simp [BadIndex, VoV.get, VoV.findElement, h1, check_dbg_false hsz]
    · simp [BadIndex, VoV.modify, VoV.onRow, h1, CVec.modify, check_dbg_false hsz]
  · have hb := rd_bad v.data (i := o.indexM i j) (by rw [h.lines.1]; omega)
    constructor
    · simp [BadIndex, VoV.get, VoV.findElement, hb]
    · simp [BadIndex, VoV.modify, VoV.onRow, hb]

/-- **C107** (refuted for `insert_element` of the sparse `generalized_vector_of_vector`): after any legal history, inserting into the line one past the last is undefined behaviour in a *debug* build. -/
theorem C107_vector_of_vector_insert_refuted (o : Orient) (IB : Nat) (zero : α) (junk junk' : VoV.Junk α) (rows : Nat → CVec α) (r c : Nat)
    (ops : List (VVOp α × VoV.Junk α × (Nat → CVec α))) (hl : vvlegalRun zero ⟨r, c, fun _ => none⟩ (ops.map (·.1))) :
    ∃ v0 v, VoV.ctor true o IB zero junk rows r c = .ok v0 ∧ VoV.run true o IB zero v0 ops = .ok v ∧
      ∀ i j, o.indexM i j = o.sizeM v.size1 v.size2 → ∀ t, v.insertElement true o IB zero junk' i j t = .error .ub := by
  obtain ⟨v0, e0, h0⟩ := VoV.inv_ctor true o IB zero junk rows r c
  obtain ⟨v, e1, h⟩ := VoV.run_inv true o IB zero ops v0 _ h0 hl
  generalize vvrun zero ⟨r, c, fun _ => none⟩ (ops.map (·.1)) = s at h
  refine ⟨v0, v, e0, e1, fun i j hk t => ?_⟩
  rw [h.size1, h.size2] at hk
  obtain ⟨q, h1, h2, E, h3⟩ := h.lines.get true (show o.indexM i j < o.sizeM s.rows s.cols + 1 by omega) rfl
  have hsz : q.size = 0 := by rw [h3.size]; simp only [VoV.lineSpec]; rw [if_neg (by omega)]
  have hub : q.insertElement true IB zero (junk' (o.indexM i j)) (o.indexm i j) t = .error .ub := by
    obtain ⟨v1, g1, g2, g3, g4⟩ := h3.grown true zero (junk' (o.indexM i j))
    have hlb := g2.lb_out (i := o.indexm i j) (by rw [g3, hsz]; exact Nat.zero_le _)
    have hcb : ∀ {β : Type} (l : List β), copyBackward l v1.filled v1.filled = .ok l := by intro β l; simp [copyBackward, loop]
    unfold CVec.insertElement
    rw [if_pos rfl, h3.findElement true _, bind_ok, h3.range _ (by rw [← h3.size, hsz]; exact Nat.zero_le _), check_true (by rfl), bind_ok, g1, bind_ok, hlb, bind_ok]
    rw [if_neg (by simp), bind_ok, hcb, bind_ok]
    have : ¬ v1.filled < v1.idx.length := by rw [g2.idxLen]; have := g2.capLe; omega
    simp [wr, this]
  unfold VoV.insertElement
  rw [h1, bind_ok, h.invariants true, bind_ok, hub]; rfl

/-! ### concrete cases

Legal histories that meet the hypotheses of the sparse theorems are `C19_demo`, `C21_demo`, `C24_demo`, `C26_demo` and `C60_demo`, shown legal beside the theorems of those properties. -/

/-- Places outside a 2 × 3 matrix; a view of a view. -/
example : Outside 2 3 2 0 ∧ Outside 2 3 0 3 ∧ ¬ Outside 2 3 1 2 ∧
    (VRef.sel (.sel .base (.range ⟨1, 4⟩)) (.slice ⟨0, 2, 2⟩)).size 5 ≤ 2 ∧
    (VRef.sel (.sel .base (.range ⟨1, 4⟩)) (.slice ⟨0, 2, 2⟩)).read true [10, 20, 30, 40, 50] 1 = .ok 40 ∧
    (VRef.sel (.sel .base (.range ⟨1, 4⟩)) (.slice ⟨0, 2, 2⟩)).read true [10, 20, 30, 40, 50] 2 = .error .badIndex := by
  refine ⟨by simp [Outside], by simp [Outside], by simp [Outside], by decide, by decide, by decide⟩

/-- A vector with all its elements stored, and one with room: the hypotheses of the two theorems about `compressed_vector::insert_element`. -/
example : (do let v0 ← CVec.ctor true 0 (fun i => 100 + i, fun i => (i : Int)) 2 0
              let v1 ← v0.insertElement true 0 0 (fun i => 100 + i, fun i => (i : Int)) 1 7
              let v2 ← v1.1.insertElement true 0 0 (fun i => 100 + i, fun i => (i : Int)) 0 5
              .ok (v1.1.filled < v1.1.size ∧ v2.1.filled = v2.1.size : Bool) : M Bool) = .ok true := by decide

end Ublas
