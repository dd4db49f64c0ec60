import Verif.Spec.MapArray
import Verif.Lemmas.Assoc
namespace Ublas.MapArr
open Search Assoc
variable {α : Type}

def ents (m : MapArr α) : List (Nat × α) := m.data.take m.size

/-- Representation invariant. -/
def Repr (m : MapArr α) (s : Nat → Option α) : Prop :=
  m.data.length = m.cap ∧ m.size ≤ m.cap ∧ Assoc.Rep m.ents s

theorem Repr.len {m : MapArr α} {s} (h : Repr m s) : m.ents.length = m.size := by
  simp [ents]; have := h.1; have := h.2.1; omega

theorem Repr.get {m : MapArr α} {s} (h : Repr m s) {n : Nat} (hn : n < m.size) : m.ents[n]? = m.data[n]? := by
  simp [ents, List.getElem?_take, hn]

theorem Repr.lb {m : MapArr α} {s} (h : Repr m s) (k : Nat) :
    ∃ n, m.lowerBound k = .ok n ∧ n ≤ m.size ∧ Splits (m.ents.map (·.1)) 0 m.ents.length k n := by
  have hlen := h.len
  have hs := h.2.2.sorted m.size
  have conv : ∀ (i : Nat), i < m.size → m.keys[i]? = (m.ents.map (·.1))[i]? := by
    intro i hi; simp [keys, ents, List.getElem?_take, hi]
  have hs' : SortedOn m.keys 0 m.size := by
    intro i j x y h1 h2 h3 h4 h5
    rw [conv i (by omega)] at h4; rw [conv j h3] at h5
    exact hs i j x y h1 h2 h3 h4 h5
  obtain ⟨n, h1, h2, h3, h4, h5⟩ := lowerBound_spec m.keys 0 m.size k (by omega) (by simp [keys, h.1]; exact h.2.1) hs'
  refine ⟨n, h1, h3, by omega, by omega, ?_, ?_⟩
  · intro i x q1 q2 q3; rw [← conv i (by omega)] at q3; exact h4 i x q1 q2 q3
  · intro i x q1 q2 q3; rw [← conv i (by omega)] at q3; exact h5 i x q1 (by omega) q3

/-- `find` lands on the element, or at the end when absent. -/
theorem Repr.find {m : MapArr α} {s} (h : Repr m s) (k : Nat) :
    (∃ n v, m.find k = .ok n ∧ n < m.size ∧ m.ents[n]? = some (k, v) ∧ s k = some v) ∨
    (m.find k = .ok m.size ∧ s k = none) := by
  obtain ⟨n, h1, h2, h3⟩ := h.lb k
  rcases h.2.2.lookup h3 with ⟨v, h4, h5⟩ | ⟨h4, h5⟩
  · left
    have hn : n < m.size := by
      have := (List.getElem?_eq_some_iff.1 h4).1; rw [h.len] at this; exact this
    rw [h.get hn] at h4
    refine ⟨n, v, ?_, hn, by rw [h.get hn]; exact h4, h5⟩
    simp [MapArr.find, h1, show n ≠ m.size by omega, rd, h4]
  · right
    refine ⟨?_, h5⟩
    simp only [MapArr.find, h1, bind_ok]
    by_cases hn : n = m.size
    · rw [if_pos hn]
    · rw [if_neg hn]
      have hn' : n < m.size := by omega
      have hd : n < m.data.length := by rw [h.1]; have := h.2.1; omega
      rw [rd_ok hd, bind_ok, if_pos]
      intro e
      apply h4 m.data[n].2
      rw [h.get hn', List.getElem?_eq_getElem hd, ← e]

theorem resize_spec (dbg : Bool) (zero : α) (m : MapArr α) (n : Nat) (h1 : m.data.length = m.cap) (h2 : m.size ≤ m.cap) :
    ∃ m', m.resize dbg zero n = .ok m' ∧ m'.data.length = m'.cap ∧ m'.size = n ∧ n ≤ m'.cap ∧
      m'.data.take (min n m.size) = m.data.take (min n m.size) ∧ m.cap ≤ m'.cap := by
  unfold resize
  rw [check_true h2, bind_ok]
  by_cases hn : n > m.cap
  · rw [if_pos hn]
    simp only []
    rw [check_true (show 2 * n ≠ 0 by omega)]
    simp only [bind_ok]
    rw [check_true (show n ≤ 2 * n by omega)]
    refine ⟨_, rfl, ?_, rfl, ?_, ?_, ?_⟩
    · simp; omega
    · simp; omega
    · have : (m.data.take (min n m.size)).length = min n m.size := by simp; omega
      rw [List.take_append_of_le_length (by omega), List.take_take, Nat.min_self]
    · simp; omega
  · rw [if_neg hn]
    simp only [bind_ok]
    rw [check_true (show n ≤ m.cap by omega)]
    exact ⟨_, rfl, h1, rfl, by simp; omega, rfl, by simp⟩

/-- Growing by one: the old entries are still the first `size` cells. -/
theorem grow_spec (dbg : Bool) (zero : α) (m : MapArr α) (h1 : m.data.length = m.cap) (h2 : m.size ≤ m.cap) :
    ∃ m', m.resize dbg zero (m.size + 1) = .ok m' ∧ m'.data.length = m'.cap ∧ m'.size = m.size + 1 ∧
      m.size < m'.cap ∧ m'.data.take m.size = m.ents := by
  obtain ⟨m', a, b, c, d, e, _⟩ := resize_spec dbg zero m (m.size + 1) h1 h2
  rw [show min (m.size + 1) m.size = m.size by omega] at e
  exact ⟨m', a, b, c, by omega, e⟩

theorem Repr.insert {m : MapArr α} {s} (h : Repr m s) (dbg : Bool) (zero : α) (k : Nat) (v : α) :
    ∃ m' n b, m.insert dbg zero k v = .ok (m', n, b) ∧ n < m'.size ∧ (b = true ↔ s k = none) ∧
      Repr m' (upd s k (some ((s k).getD v))) ∧ m'.ents[n]? = some (k, (s k).getD v) := by
  obtain ⟨n, h1, h2, h3⟩ := h.lb k
  rcases h.2.2.lookup h3 with ⟨w, h4, h5⟩ | ⟨h4, h5⟩
  · have hn : n < m.size := by
      have := (List.getElem?_eq_some_iff.1 h4).1; rw [h.len] at this; exact this
    refine ⟨m, n, false, ?_, hn, by simp [h5], ?_, by simp [h4, h5]⟩
    · rw [h.get hn] at h4
      simp [MapArr.insert, h1, show n ≠ m.size by omega, rd, h4]
    · have : upd s k (some ((s k).getD v)) = s := by
        funext j; simp only [upd]; split
        · rename_i e; subst e; simp [h5]
        · rfl
      rw [this]; exact h
  · obtain ⟨m1, g1, g2, g3, g4, g5⟩ := grow_spec dbg zero m h.1 h.2.1
    obtain ⟨d1, d2, c1, c2, c3, c4⟩ := insert_prefix m1.data n m.size (k, v) h2 (by omega)
    refine ⟨{ m1 with data := d2 }, n, true, ?_, by simp; omega, by simp [h5], ?_, ?_⟩
    · have hp : (if n ≠ m.size then (do
          let p ← rd false m.data n
          .ok (decide (p.1 = k)) : M Bool) else .ok false) = .ok false := by
        by_cases hn : n = m.size
        · simp [hn]
        · have hn' : n < m.size := by omega
          have hd : n < m.data.length := by rw [h.1]; have := h.2.1; omega
          rw [if_pos hn, rd_ok hd, bind_ok]
          have : ¬ m.data[n].1 = k := by
            intro e
            apply h4 m.data[n].2
            rw [h.get hn', List.getElem?_eq_getElem hd, ← e]
          simp [this]
      simp only [MapArr.insert, h1, bind_ok, hp, g1]
      simp only [g3, Nat.add_sub_cancel, c1, c2, bind_ok, Bool.false_eq_true, if_false]
    · refine ⟨by simp [c3, g2], by simp; omega, ?_⟩
      have : ({ m1 with data := d2 } : MapArr α).ents = m.ents.take n ++ (k, v) :: m.ents.drop n := by
        simp only [ents, g3, c4]; rw [g5]; rfl
      rw [this, h5]
      exact h.2.2.insert h3 h5 v
    · have : ({ m1 with data := d2 } : MapArr α).ents = m.ents.take n ++ (k, v) :: m.ents.drop n := by
        simp only [ents, g3, c4]; rw [g5]; rfl
      have hl := h.len
      rw [this, h5, List.getElem?_append_right (by simp; omega)]
      simp [show min n m.ents.length = n by omega]

theorem Repr.assign {m : MapArr α} {s} (h : Repr m s) {n k : Nat} {v0 : α} (hn : n < m.size) (he : m.ents[n]? = some (k, v0)) (v : α) :
    ∃ m', m.assign n v = .ok m' ∧ Repr m' (upd s k (some v)) ∧ m'.size = m.size := by
  have he' := he
  rw [h.get hn] at he'
  have hd : n < m.data.length := (List.getElem?_eq_some_iff.1 he').1
  refine ⟨{ m with data := m.data.set n (k, v) }, by simp [MapArr.assign, rd, he', wr_ok hd], ⟨by simp [h.1], h.2.1, ?_⟩, rfl⟩
  have : ({ m with data := m.data.set n (k, v) } : MapArr α).ents = m.ents.set n (k, v) := by
    simp [ents, List.take_set]
  rw [this]; exact h.2.2.set he v

theorem Repr.value {m : MapArr α} {s} (h : Repr m s) {n k : Nat} {v0 : α} (hn : n < m.size) (he : m.ents[n]? = some (k, v0)) :
    m.value n = .ok v0 := by
  rw [h.get hn] at he
  simp [MapArr.value, rd, he]

theorem Repr.erase {m : MapArr α} {s} (h : Repr m s) (dbg : Bool) (zero : α) {n k : Nat} {v0 : α} (hn : n < m.size) (he : m.ents[n]? = some (k, v0)) :
    ∃ m', m.erase dbg zero n = .ok m' ∧ Repr m' (upd s k none) := by
  have hsz := h.2.1
  have hlen := h.1
  obtain ⟨d, c1, c2, c3⟩ := erase_prefix m.data n m.size hn (by omega)
  obtain ⟨m', a, b, c, d', e, _⟩ := resize_spec dbg zero { m with data := d } (m.size - 1) (by simp [c2, h.1]) hsz
  refine ⟨m', by simp [MapArr.erase, check_true hn, c1, a], b, by omega, ?_⟩
  have : m'.ents = m.ents.take n ++ m.ents.drop (n + 1) := by
    simp only at e
    rw [show min (m.size - 1) m.size = m.size - 1 by omega] at e
    simp only [ents, c, e, c3]
  rw [this]; exact h.2.2.erase he

theorem Repr.eraseBetween {m : MapArr α} {s} (h : Repr m s) (dbg : Bool) (zero : α) (a b : Nat) (hab : a ≤ b) :
    ∃ i j m', m.lowerBound a = .ok i ∧ m.lowerBound b = .ok j ∧ m.eraseRange dbg zero i j = .ok m' ∧
      Repr m' (fun k => if a ≤ k ∧ k < b then none else s k) := by
  obtain ⟨n, n1, n2, n3⟩ := h.lb a
  obtain ⟨q, q1, q2, q3⟩ := h.lb b
  obtain ⟨hnq, hr⟩ := h.2.2.eraseBetween hab n3 q3
  refine ⟨n, q, ?_⟩
  by_cases e : n = q
  · refine ⟨m, n1, q1, by simp [eraseRange, e], h.1, h.2.1, ?_⟩
    rw [e, List.take_append_drop] at hr; exact hr
  · have hsz := h.2.1
    have hlen := h.1
    obtain ⟨d, c1, c2, c3⟩ := erase_block m.data n q m.size hnq q2 (by omega)
    obtain ⟨m', x1, x2, x3, x4, x5, _⟩ := resize_spec dbg zero { m with data := d } (m.size - (q - n)) (by simp [c2, h.1]) hsz
    refine ⟨m', n1, q1, by simp [eraseRange, e, check_true (show n < q ∧ q ≤ m.size by omega), c1, x1], x2, by omega, ?_⟩
    have : m'.ents = m.ents.take n ++ m.ents.drop q := by
      simp only at x5
      rw [show min (m.size - (q - n)) m.size = m.size - (q - n) by omega] at x5
      simp only [ents, x3, x5, c3]
    rw [this]; exact hr

theorem Repr.clear {m : MapArr α} {s} (h : Repr m s) (dbg : Bool) (zero : α) :
    ∃ m', m.clear dbg zero = .ok m' ∧ Repr m' (fun _ => none) := by
  obtain ⟨m', x1, x2, x3, x4, _, _⟩ := resize_spec dbg zero m 0 h.1 h.2.1
  refine ⟨m', x1, x2, by omega, ?_⟩
  simp only [ents, x3, List.take_zero]; exact rep_nil

theorem Repr.reserve {m : MapArr α} {s} (h : Repr m s) (dbg : Bool) (zero : α) (n : Nat) (hn : m.size ≤ n) :
    ∃ m', m.reserve dbg zero n = .ok m' ∧ Repr m' s ∧ m'.cap = n := by
  have hsz := h.2.1
  have hlen := h.1
  unfold MapArr.reserve
  rw [check_true h.2.1, bind_ok, check_true (show n ≥ m.size from hn), bind_ok, if_neg (by omega)]
  simp only []
  rw [check_true (show m.size ≤ n from hn)]
  refine ⟨_, rfl, ⟨?_, hn, ?_⟩, rfl⟩
  · simp only []; split
    · simp; omega
    · simp; omega
  · have : (⟨n, m.size, if n ≠ 0 then m.data.take m.size ++ List.replicate (n - m.size) (0, zero) else []⟩ : MapArr α).ents = m.ents := by
      simp only [ents]
      by_cases h0 : n = 0
      · have : m.size = 0 := by omega
        simp [h0, this]
      · rw [if_pos h0, List.take_append_of_le_length (by simp; omega), List.take_take, Nat.min_self]
    rw [this]; exact h.2.2

theorem Repr.pushBack {m : MapArr α} {s} (h : Repr m s) (dbg : Bool) (zero : α) (k : Nat) (v : α)
    (hk : ∀ j, s j ≠ none → j < k) :
    ∃ m', m.pushBack dbg zero k v = .ok m' ∧ Repr m' (upd s k (some v)) := by
  have hsz := h.2.1
  have hlen := h.1
  obtain ⟨m1, g1, g2, g3, g4, g5⟩ := grow_spec dbg zero m h.1 h.2.1
  have hok : (if m.size = 0 then .ok true else do
      let p ← rd false m.data (m.size - 1)
      .ok (decide (p.1 < k)) : M Bool) = .ok true := by
    by_cases h0 : m.size = 0
    · rw [if_pos h0]
    · have hd : m.size - 1 < m.data.length := by omega
      rw [if_neg h0, rd_ok hd, bind_ok]
      have hm : m.ents[m.size - 1]? = some m.data[m.size - 1] := by
        rw [h.get (by omega), List.getElem?_eq_getElem hd]
      have := hk m.data[m.size - 1].1 (by
        have := h.2.2.some_of_getElem (k := m.data[m.size - 1].1) (v := m.data[m.size - 1].2) hm
        rw [this]; simp)
      simp [this]
  have hd1 : m.size < m1.data.length := by omega
  refine ⟨{ m1 with data := m1.data.set m.size (k, v) }, ?_, ⟨by simp [g2], by simp; omega, ?_⟩⟩
  · simp only [MapArr.pushBack, hok, bind_ok, if_true, g1, g3, Nat.add_sub_cancel, wr_ok hd1]
  · have : ({ m1 with data := m1.data.set m.size (k, v) } : MapArr α).ents = m.ents ++ [(k, v)] := by
      simp only [ents, g3]
      rw [show List.take m.size m.data = m1.data.take m.size from by rw [g5]; rfl]
      rw [List.take_add_one]
      simp [List.take_set_of_le, hd1]
    rw [this]; exact h.2.2.append hk v

theorem Repr.lookup {m : MapArr α} {s} (h : Repr m s) (k : Nat) : m.lookup k = .ok (s k) := by
  rcases h.find k with ⟨n, v, h1, h2, h3, h4⟩ | ⟨h1, h2⟩
  · simp [MapArr.lookup, h1, show n ≠ m.size by omega, h.value h2 h3, h4]
  · simp [MapArr.lookup, h1, h2]

theorem Repr.traverse {m : MapArr α} {s} (h : Repr m s) : m.traverse = .ok m.ents := by
  have hsz := h.2.1
  have hlen := h.1
  obtain ⟨t, h1, h2⟩ := loop_inv (f := fun j (acc : List (Nat × α)) => (rd false m.data j >>= fun p => .ok (acc ++ [p]) : M _))
    (n := m.size) (s := []) (fun k t => t = m.data.take k) (by simp)
    (by
      rintro k t hk rfl
      have : k < m.data.length := by omega
      refine ⟨m.data.take k ++ [m.data[k]], by rw [rd_ok this, bind_ok], ?_⟩
      rw [List.take_add_one]; simp [this])
  rw [MapArr.traverse, h1, h2]; rfl

theorem Repr.observes {m : MapArr α} {s} (h : Repr m s) : MapSpec.Observes m s :=
  ⟨h.lookup, ⟨m.ents, h.traverse, h.len, h.2.2.1, fun k v => (h.2.2.2 k v).symm⟩, h.2.1⟩

theorem repr_empty : Repr (MapArr.empty : MapArr α) (fun _ => none) := ⟨rfl, Nat.le_refl _, rep_nil⟩

end Ublas.MapArr
