import Verif.Model.SelfInsertCoo
import Verif.Props.Coo
/-! # C101: the coordinate containers -/
namespace Ublas
open Search Coo SparseSpec CooSpec
variable {κ α ι : Type} [DecidableEq κ] [AddCommMonoid α]
namespace Coo

/-- With room, the value referred to is appended. -/
theorem appendRef_room (dbg : Bool) (P : CooPar κ α) (junk : Junk κ α) (v : Coo κ α) (k : κ) (p : Nat) (w : α) (hr : v.filled < v.cap) (hp : v.val[p]? = some w) :
    v.appendRef dbg P 0 junk k p = v.append dbg P 0 junk k w := by
  have hge : ¬ v.filled ≥ v.cap := by omega
  unfold appendRef append
  simp only [if_neg hge, bind_ok, selfRead, ne_eq, not_true_eq_false, if_false, rd_eq_ok.2 hp]

/-- Without room, the memory referred to is freed before it is read. -/
theorem appendRef_full {P : CooPar κ α} (hP : ParOk P) (dbg : Bool) (junk : Junk κ α) {v : Coo κ α} {A} (h : Inv P v A) (k : κ) (p : Nat) (hpos : 0 < v.filled) (hf : v.filled = v.cap) :
    v.appendRef dbg P 0 junk k p = .error .ub := by
  have hge : v.filled ≥ v.cap := by omega
  have hcm := h.capMin
  obtain ⟨v1, B, e, h1, h2, _, _, h4, h5⟩ := reserveTrue_spec hP dbg 0 junk h (2 * v.filled)
  have hc : restrictCapacity P (2 * v.filled) = 2 * v.filled := by unfold restrictCapacity; omega
  rw [hc] at h4
  have hlt : v1.filled < v1.cap := by
    have := h1.len
    rw [List.length_take] at this
    omega
  have hl : v1.val.length ≠ v.val.length := by rw [h1.valLen, h.valLen]; omega
  unfold appendRef
  simp only [if_pos hge, e, bind_ok, check_true hlt, wr_ok (show v1.filled < v1.idx.length by rw [h1.idxLen]; exact hlt), selfRead, ne_eq, hl, not_false_eq_true, if_true]
  rfl

/-- On a sorted container the check of `insert_element` moves nothing. -/
theorem insertRef_room {P : CooPar κ α} (dbg : Bool) (junk : Junk κ α) (v : Coo κ α) (k : κ) (p : Nat) (w : α) (hs : v.sorted = true) (hr : v.filled < v.cap) (hp : v.val[p]? = some w) :
    v.insertRef dbg P 0 junk k p = v.insert dbg P 0 junk k w := by
  have hsort : v.sort dbg P = .ok v := by unfold sort; rw [if_neg (by simp [hs])]
  unfold insertRef insert
  cases dbg with
  | false => simp only [Bool.false_eq_true, if_false, bind_ok]; exact appendRef_room false P junk v k p w hr hp
  | true =>
    simp only [if_true, find, hsort, bind_ok]
    cases P.search v.idx v.filled k with
    | error e => rfl
    | ok r =>
      simp only [bind_ok]
      cases check true (r.isNone = true) .badIndex with
      | error e => rfl
      | ok _ => simp only [bind_ok]; exact appendRef_room true P junk v k p w hr hp

theorem insertRef_full {P : CooPar κ α} (hP : ParOk P) (dbg : Bool) (junk : Junk κ α) {v : Coo κ α} {A} (h : Inv P v A) (k : κ) (p : Nat) (hs : v.sorted = true) (hn : collect A k = none)
    (hpos : 0 < v.filled) (hf : v.filled = v.cap) : v.insertRef dbg P 0 junk k p = .error .ub := by
  have hsort : v.sort dbg P = .ok v := by unfold sort; rw [if_neg (by simp [hs])]
  unfold insertRef
  cases dbg with
  | false => simp only [Bool.false_eq_true, if_false, bind_ok]; exact appendRef_full hP false junk h k p hpos hf
  | true =>
    obtain ⟨v1, B, r, e, h1, h2, h3, h4, h5⟩ := find_spec hP true h k
    have hv1 : v1 = v := by
      unfold find at e
      rw [hsort, bind_ok] at e
      cases hq : P.search v.idx v.filled k with
      | error x => rw [hq] at e; simp at e
      | ok q => rw [hq] at e; simp only [bind_ok, Except.ok.injEq, Prod.mk.injEq] at e; exact e.1.symm
    subst hv1
    rcases h5 with ⟨n, w, rfl, h6, h7⟩ | ⟨rfl, h6⟩
    · rw [hn] at h7; simp at h7
    · simp only [if_true, e, bind_ok, Option.isNone_none, check_True]
      exact appendRef_full hP true junk h k p hpos hf

/-- What both containers share: `find_element` of a stored element, then an operation with the reference it returned. -/
theorem refer_spec {P : CooPar κ α} (hP : ParOk P) {kb : ι → κ} {lt : ι → ι → Prop} {inside : ι → Prop} (hK : KeyMap P kb lt inside) (dbg : Bool) (junk : Junk κ α) {v : Coo κ α} {s : State ι α}
    (h : Rel P kb inside v s) (i j : ι) (w : α) (hi : inside i) (hj : s.val j = some w) :
    ∃ c p, v.find dbg P (kb j) = .ok (c, some p) ∧ c.val[p]? = some w ∧ Rel P kb inside c ⟨s.val, true⟩ ∧
      (c.filled = c.cap → c.appendRef dbg P 0 junk (kb i) p = .error .ub) ∧
      (c.filled < c.cap → ∃ c', c.appendRef dbg P 0 junk (kb i) p = .ok c' ∧ Rel P kb inside c' (CooSpec.step lt s (.append i w))) ∧
      (s.val i = none → c.filled = c.cap → c.insertRef dbg P 0 junk (kb i) p = .error .ub) ∧
      (s.val i = none → c.filled < c.cap → ∃ c', c.insertRef dbg P 0 junk (kb i) p = .ok c' ∧ Rel P kb inside c' (CooSpec.step lt s (.insert i w))) := by
  obtain ⟨A, hA, hv, hin, hso⟩ := h
  obtain ⟨c, B, r, e, h1, h2, h3, h4, h5⟩ := find_spec hP dbg hA (kb j)
  rcases h5 with ⟨n, w', rfl, h6, h7⟩ | ⟨rfl, h6⟩
  · rw [← hv, hj] at h7
    simp only [Option.some.injEq] at h7
    subst h7
    have hn : n < B.length := (List.getElem?_eq_some_iff.1 h6).1
    have hval : c.val[n]? = some w := by
      have := h1.holds.valAt hn
      rw [List.getElem?_eq_getElem hn] at h6
      simp only [Option.some.injEq] at h6
      rw [h6] at this
      exact this
    have hpos : 0 < c.filled := by rw [← h1.len]; omega
    have hrel : Rel P kb inside c ⟨s.val, true⟩ := ⟨B, h1, by intro k; simp only [hv, h4], keys_inside hin (by rw [h4]; exact fun _ h => h), h2.symm⟩
    refine ⟨c, n, e, hval, hrel, ?_, ?_, ?_, ?_⟩
    · exact fun hf => appendRef_full hP dbg junk h1 _ _ hpos hf
    · intro hr
      obtain ⟨c', g1, g2⟩ := step_rel hP hK dbg junk c _ (.append i w) hrel hi
      exact ⟨c', by rw [appendRef_room dbg P junk c _ _ w hr hval]; exact g1, g2⟩
    · exact fun hn hf => insertRef_full hP dbg junk h1 _ _ h2 (by rw [h4, ← hv]; exact hn) hpos hf
    · intro hn hr
      obtain ⟨c', g1, g2⟩ := step_rel hP hK dbg junk c _ (.insert i w) hrel ⟨hi, hn⟩
      exact ⟨c', by rw [insertRef_room dbg junk c _ _ w h2 hr hval]; exact g1, g2⟩
  · rw [← hv, hj] at h6; simp at h6

/-- The specification's states, with the decision procedures of the index type. -/
theorem step_append_eq [DecidableEq ι] (lt : ι → ι → Prop) (s : State ι α) (i : ι) (w : α) :
    CooSpec.step lt s (.append i w) = ⟨fun k => if k = i then some ((s.val i).getD 0 + w) else s.val k, false⟩ := by
  simp only [CooSpec.step]; congr 1; funext k; by_cases h : k = i <;> simp [h]

theorem step_insert_eq [DecidableEq ι] (lt : ι → ι → Prop) (s : State ι α) (i : ι) (w : α) :
    CooSpec.step lt s (.insert i w) = ⟨fun k => if k = i then some w else s.val k, false⟩ := by
  simp only [CooSpec.step]; congr 1; funext k; by_cases h : k = i <;> simp [h]

end Coo

/-- **C101** (coordinate_vector, partial).  In any reachable state, `find_element (j)` of a stored element yields a reference to its value; using it at once as the argument of `append_element (i, ·)`, or of
`insert_element (i, ·)` for an element that is not stored, adds or stores that value when there is room, for every `i`, also `i = j` for `append_element`; when the arrays are full the reference dangles before
it is read.  Missing: references taken before a later sort, see `C101_coordinate_insert_refuted`. -/
theorem C101_coordinate_vector_insert (srt : List (Nat × α) → List (Nat × α)) (hsrt : CoordVec.Sorts srt) (full dbg : Bool) (IB : Nat) (junk : Coo.Junk Nat α) (v : CoordVec α) (s : VState α)
    (h : CoordVec.Inv srt full IB v s) (i j : Nat) (w : α) (hi : i < s.size) (hj : s.st.val j = some w) :
    ∃ c p, v.coo.find dbg (CoordVec.par srt full IB v.size) (j + IB) = .ok (c, some p) ∧ c.val[p]? = some w ∧
      (c.filled = c.cap → c.appendRef dbg (CoordVec.par srt full IB v.size) 0 junk (i + IB) p = .error .ub) ∧
      (c.filled < c.cap → ∃ c', c.appendRef dbg (CoordVec.par srt full IB v.size) 0 junk (i + IB) p = .ok c' ∧
        CoordVec.Observes srt full dbg IB ⟨v.size, c'⟩ ⟨s.size, fun k => if k = i then some ((s.st.val i).getD 0 + w) else s.st.val k, false⟩) ∧
      (s.st.val i = none → c.filled = c.cap → c.insertRef dbg (CoordVec.par srt full IB v.size) 0 junk (i + IB) p = .error .ub) ∧
      (s.st.val i = none → c.filled < c.cap → ∃ c', c.insertRef dbg (CoordVec.par srt full IB v.size) 0 junk (i + IB) p = .ok c' ∧
        CoordVec.Observes srt full dbg IB ⟨v.size, c'⟩ ⟨s.size, fun k => if k = i then some w else s.st.val k, false⟩) := by
  obtain ⟨hsz, hr⟩ := h
  rw [hsz]
  obtain ⟨c, p, e, e1, _, h1, h2, h3, h4⟩ := refer_spec (CoordVec.parOk srt hsrt full IB s.size) (CoordVec.keyMap srt full IB s.size) dbg junk hr i j w hi hj
  refine ⟨c, p, e, e1, h1, ?_, h3, ?_⟩
  · intro hc
    obtain ⟨c', g1, g2⟩ := h2 hc
    rw [step_append_eq] at g2
    exact ⟨c', g1, CoordVec.Inv.observes hsrt dbg ⟨rfl, g2⟩⟩
  · intro hn hc
    obtain ⟨c', g1, g2⟩ := h4 hn hc
    rw [step_insert_eq] at g2
    exact ⟨c', g1, CoordVec.Inv.observes hsrt dbg ⟨rfl, g2⟩⟩

/-- **C101** (coordinate_matrix, partial).  The same. -/
theorem C101_coordinate_matrix_insert (srt : List ((Nat × Nat) × α) → List ((Nat × Nat) × α)) (hsrt : CoordMat.Sorts srt) (full dbg : Bool) (o : Orient) (IB : Nat) (junk : Coo.Junk (Nat × Nat) α)
    (v : CoordMat α) (s : MState α) (h : CoordMat.Inv srt full o IB v s) (i j : Nat × Nat) (w : α) (hi : i.1 < s.rows ∧ i.2 < s.cols) (hj : s.st.val j = some w) :
    ∃ c p, v.coo.find dbg (CoordMat.par srt full v.size1 v.size2) (CoordMat.key o IB j) = .ok (c, some p) ∧ c.val[p]? = some w ∧
      (c.filled = c.cap → c.appendRef dbg (CoordMat.par srt full v.size1 v.size2) 0 junk (CoordMat.key o IB i) p = .error .ub) ∧
      (c.filled < c.cap → ∃ c', c.appendRef dbg (CoordMat.par srt full v.size1 v.size2) 0 junk (CoordMat.key o IB i) p = .ok c' ∧
        CoordMat.Observes srt full dbg o IB ⟨v.size1, v.size2, c'⟩ ⟨s.rows, s.cols, fun k => if k = i then some ((s.st.val i).getD 0 + w) else s.st.val k, false⟩) ∧
      (s.st.val i = none → c.filled = c.cap → c.insertRef dbg (CoordMat.par srt full v.size1 v.size2) 0 junk (CoordMat.key o IB i) p = .error .ub) ∧
      (s.st.val i = none → c.filled < c.cap → ∃ c', c.insertRef dbg (CoordMat.par srt full v.size1 v.size2) 0 junk (CoordMat.key o IB i) p = .ok c' ∧
        CoordMat.Observes srt full dbg o IB ⟨v.size1, v.size2, c'⟩ ⟨s.rows, s.cols, fun k => if k = i then some w else s.st.val k, false⟩) := by
  obtain ⟨hs1, hs2, hr⟩ := h
  rw [hs1, hs2]
  obtain ⟨c, p, e, e1, _, h1, h2, h3, h4⟩ := refer_spec (CoordMat.parOk srt hsrt full s.rows s.cols) (CoordMat.keyMap srt full o IB s.rows s.cols) dbg junk hr i j w hi hj
  refine ⟨c, p, e, e1, h1, ?_, h3, ?_⟩
  · intro hc
    obtain ⟨c', g1, g2⟩ := h2 hc
    rw [step_append_eq] at g2
    exact ⟨c', g1, CoordMat.Inv.observes hsrt dbg ⟨rfl, rfl, g2⟩⟩
  · intro hn hc
    obtain ⟨c', g1, g2⟩ := h4 hn hc
    rw [step_insert_eq] at g2
    exact ⟨c', g1, CoordMat.Inv.observes hsrt dbg ⟨rfl, rfl, g2⟩⟩

/-- `coordinate_vector<int> v (8, nz); int &r = v.insert_element (5, 50); v.insert_element (3, 30); v.insert_element (i, r);` and then `v (i)` is read.  `insert_element` returns a reference to the last
position in use. -/
def C101_coo_run (full dbg : Bool) (nz i : Nat) : M Int := do
  let v0 ← CoordVec.ctor vSort full dbg 0 vJunk 8 nz
  let v ← CoordVec.run vSort full dbg 0 0 v0 [(.core (.insert 5 50), vJunk)]
  let p := v.coo.filled - 1
  let v ← CoordVec.run vSort full dbg 0 0 v [(.core (.insert 3 30), vJunk)]
  let c ← v.coo.insertRef dbg (CoordVec.par vSort full 0 8) 0 vJunk i p
  CoordVec.get vSort full dbg 0 0 ⟨8, c⟩ i

/-- **C101** (refuted, coordinate containers).  There is room for all elements and no reference is ever freed, yet element 7 becomes 30, the value of element 3, in a debug build, and 50 in a release build:
the duplicate check sorts the arrays between the call and the read of the argument.  Without room the memory referred to has been freed, in both. -/
theorem C101_coordinate_insert_refuted (full : Bool) :
    C101_coo_run full true 4 7 = .ok 30 ∧ C101_coo_run full false 4 7 = .ok 50 ∧ C101_coo_run full true 2 7 = .error .ub ∧ C101_coo_run full false 2 7 = .error .ub := by
  cases full <;> decide +kernel

/-- The hypotheses of `C101_coordinate_vector_insert` are met, with room and without. -/
example : ∃ (v : CoordVec Int) (s : VState Int), CoordVec.Inv vSort true 0 v s ∧ 2 < s.size ∧ s.st.val 2 = none ∧ s.st.val 5 = some 50 := by
  obtain ⟨v0, e0, h0⟩ := CoordVec.inv_ctor (α := Int) vSort true true 0 vJunk 8 4
  obtain ⟨v, e, h⟩ := CoordVec.run_inv vSort (insSort_ok natOrd) true true 0 [(.core (.insert 5 50), vJunk), (.core (.append 3 30), vJunk)] v0 _ h0
    ⟨⟨by decide, rfl⟩, by show 3 < 8; decide, trivial⟩
  refine ⟨v, _, h, by decide, ?_, ?_⟩ <;> simp [CooSpec.vrun, CooSpec.vstep, CooSpec.step]

end Ublas
