import Verif.Lemmas.MapArray
/-! # C17, C18: map_array -/
namespace Ublas
open MapArr Assoc
variable {α : Type}

namespace MapArr
theorem step_repr (dbg : Bool) (zero : α) (m : MapArr α) (s : Nat → Option α) (op : Op α) (h : Repr m s)
    (hl : MapSpec.legal s op) : ∃ m', MapArr.step dbg zero m op = .ok m' ∧ Repr m' (MapSpec.step zero s op) := by
  cases op with
  | modify k f =>
    obtain ⟨m1, n, q1, q2, q3, q4⟩ : ∃ m1 n, m.index dbg zero k = .ok (m1, n) ∧ n < m1.size ∧
        Repr m1 (upd s k (some ((s k).getD zero))) ∧ m1.ents[n]? = some (k, (s k).getD zero) := by
      rcases h.find k with ⟨n, v, h1, h2, h3, h4⟩ | ⟨h1, h2⟩
      · refine ⟨m, n, ?_, h2, ?_, by simp [h3, h4]⟩
        · simp [MapArr.index, h1, show n ≠ m.size by omega, check_true (show n ≠ m.size by omega)]
        · have : upd s k (some ((s k).getD zero)) = s := by
            funext j; simp only [upd]; split
            · rename_i e; subst e; simp [h4]
            · rfl
          rw [this]; exact h
      · obtain ⟨m1, n, b, g1, g2, _, g3, g4⟩ := h.insert dbg zero k zero
        refine ⟨m1, n, ?_, g2, g3, g4⟩
        simp [MapArr.index, h1, g1, check_true (show n ≠ m1.size by omega)]
    obtain ⟨m2, r1, r2, _⟩ := q3.assign q2 q4 (f ((s k).getD zero))
    refine ⟨m2, by simp [MapArr.step, q1, q3.value q2 q4, r1], ?_⟩
    have : upd (upd s k (some ((s k).getD zero))) k (some (f ((s k).getD zero))) = MapSpec.step zero s (.modify k f) := by
      funext j; simp only [upd, MapSpec.step]; split <;> rfl
    rw [← this]; exact r2
  | insert k v =>
    obtain ⟨m1, n, b, g1, _, _, g3, _⟩ := h.insert dbg zero k v
    exact ⟨m1, by simp [MapArr.step, g1], g3⟩
  | eraseKey k =>
    rcases h.find k with ⟨n, v, h1, h2, h3, h4⟩ | ⟨h1, h2⟩
    · obtain ⟨m1, g1, g2⟩ := h.erase dbg zero h2 h3
      exact ⟨m1, by simp [MapArr.step, h1, show n ≠ m.size by omega, g1], g2⟩
    · refine ⟨m, by simp [MapArr.step, h1], ?_⟩
      have : MapSpec.step zero s (.eraseKey k) = s := by
        funext j; simp only [MapSpec.step]; split
        · rename_i e; subst e; exact h2.symm
        · rfl
      rw [this]; exact h
  | eraseBetween a b =>
    obtain ⟨i, j, m1, g1, g2, g3, g4⟩ := h.eraseBetween dbg zero a b hl
    exact ⟨m1, by simp [MapArr.step, g1, g2, g3], g4⟩
  | pushBack k v => exact h.pushBack dbg zero k v hl
  | clear => exact h.clear dbg zero
  | reserve n =>
    obtain ⟨m1, g1, g2, _⟩ := h.reserve dbg zero n (by rw [← h.len]; exact h.2.2.length_le hl)
    exact ⟨m1, g1, g2⟩

theorem run_repr (dbg : Bool) (zero : α) (ops : List (Op α)) : ∀ (m : MapArr α) (s : Nat → Option α), Repr m s →
    MapSpec.legalRun zero s ops → ∃ m', MapArr.run dbg zero m ops = .ok m' ∧ Repr m' (MapSpec.run zero s ops) := by
  induction ops with
  | nil => intro m s h _; exact ⟨m, rfl, h⟩
  | cons op ops ih =>
    intro m s h hl
    obtain ⟨m1, e1, h1⟩ := step_repr dbg zero m s op h hl.1
    obtain ⟨m2, e2, h2⟩ := ih m1 _ h1 hl.2
    exact ⟨m2, by simp [MapArr.run, e1, e2], h2⟩
end MapArr

/-- **C17**.  Any legal history of `operator []`, `insert`, `erase`, range `erase`, `push_back`, `clear` and
`reserve` on a default-constructed map_array runs without a fault in either build mode (no access outside
the block), and afterwards look-up, traversal order, size and capacity are those of the mathematical map. -/
theorem C17_map_array_refines_map (dbg : Bool) (zero : α) (ops : List (MapArr.Op α))
    (hl : MapSpec.legalRun zero (fun _ => none) ops) :
    ∃ m, MapArr.run dbg zero MapArr.empty ops = .ok m ∧ MapSpec.Observes m (MapSpec.run zero (fun _ => none) ops) := by
  obtain ⟨m, h1, h2⟩ := MapArr.run_repr dbg zero ops _ _ MapArr.repr_empty hl
  exact ⟨m, h1, h2.observes⟩

/-- **C17** (assignment).  After any two legal histories, `a = b` succeeds and makes `a` observe `b`'s map. -/
theorem C17_assignment (dbg : Bool) (zero : α) (opsA opsB : List (MapArr.Op α))
    (ha : MapSpec.legalRun zero (fun _ => none) opsA) (hb : MapSpec.legalRun zero (fun _ => none) opsB) :
    ∃ a b a', MapArr.run dbg zero MapArr.empty opsA = .ok a ∧ MapArr.run dbg zero MapArr.empty opsB = .ok b ∧
      a.assignFrom dbg zero b = .ok a' ∧ MapSpec.Observes a' (MapSpec.run zero (fun _ => none) opsB) := by
  obtain ⟨a, h1, h2⟩ := MapArr.run_repr dbg zero opsA _ _ MapArr.repr_empty ha
  obtain ⟨b, h3, h4⟩ := MapArr.run_repr dbg zero opsB _ _ MapArr.repr_empty hb
  obtain ⟨a1, r1, r2, r3, r4, _, _⟩ := MapArr.resize_spec dbg zero a b.size h2.1 h2.2.1
  have hb1 := h4.1
  have hb2 := h4.2.1
  obtain ⟨d, e1, e2, e3⟩ := loop_inv (f := fun j (d : List (Nat × α)) => (rd false b.data j >>= fun x => wr false d j x : M _))
    (n := b.size) (s := a1.data) (fun k t => t.length = a1.data.length ∧ t.take k = b.data.take k) (by simp)
    (by
      rintro k t hk ⟨g1, g2⟩
      have k1 : k < b.data.length := by omega
      have k2 : k < t.length := by omega
      refine ⟨t.set k b.data[k], by rw [rd_ok k1, bind_ok, wr_ok k2], by simpa using g1, ?_⟩
      rw [List.take_add_one, List.take_add_one]
      simp [List.take_set_of_le, k2, g2, k1])
  refine ⟨a, b, { a1 with data := d }, h1, h3, by simp [MapArr.assignFrom, r1, e1], ?_⟩
  apply MapArr.Repr.observes
  refine ⟨by simp [e2, r2], by simp; omega, ?_⟩
  have : ({ a1 with data := d } : MapArr α).ents = b.ents := by simp only [ents, r3, e3]
  rw [this]; exact h4.2.2

/-- **C17** (guard).  `push_back` with a key that is not above the last one raises `external_logic` in every
build mode and the map is not touched. -/
theorem C17_push_back_rejects (dbg : Bool) (zero : α) (m : MapArr α) (s : Nat → Option α) (h : Repr m s) (k : Nat) (v : α)
    (hk : ∃ j, s j ≠ none ∧ k ≤ j) : m.pushBack dbg zero k v = .error .externalLogic := by
  obtain ⟨j, hj, hkj⟩ := hk
  obtain ⟨w, hw⟩ := Option.ne_none_iff_exists'.1 hj
  have hm := (h.2.2.2 j w).1 hw
  obtain ⟨i, hi⟩ := List.mem_iff_getElem?.1 hm
  have hil := (List.getElem?_eq_some_iff.1 hi).1
  rw [h.len] at hil
  have hd : m.size - 1 < m.data.length := by have := h.1; have := h.2.1; omega
  have hlast : m.ents[m.size - 1]? = some m.data[m.size - 1] := by
    rw [h.get (by omega), List.getElem?_eq_getElem hd]
  have hge : ¬ m.data[m.size - 1].1 < k := by
    by_cases e : i = m.size - 1
    · subst e; rw [hlast] at hi; simp at hi; rw [hi]; simp; omega
    · have := h.2.2.key_lt hi hlast (by omega)
      simp only at this; omega
  simp [MapArr.pushBack, show m.size ≠ 0 by omega, rd_ok hd, hge]

/-- A demonstration history (inserts out of order, overwrite, erase, push_back, reserve, range erase). -/
def C17_demo : List (MapArr.Op Int) :=
  [.insert 5 50, .modify 2 (fun _ => 20), .insert 5 99, .modify 7 (· + 1), .eraseKey 2, .pushBack 9 90,
   .reserve 8, .insert 0 1, .eraseBetween 6 9]

example : MapSpec.legalRun 0 (fun _ => none) C17_demo ∧ MapArr.run true 0 MapArr.empty C17_demo =
    .ok ⟨8, 3, [(0, 1), (5, 50), (9, 90), (9, 90), (0, 0), (0, 0), (0, 0), (0, 0)]⟩ := by
  refine ⟨?_, by decide⟩
  simp only [C17_demo, MapSpec.legalRun, MapSpec.legal, MapSpec.step, true_and, and_true]
  refine ⟨?_, ?_, by omega⟩
  · intro j; grind
  · intro L hL hm
    have hsub : ∀ i ∈ L, i ∈ [5, 7, 9] := by
      intro i hi; have := hm i hi; simp; grind
    have := nodup_length_le hL hsub
    simp at this; omega

/-! ## C18 -/

/-- What the copy constructor actually does, for every map: the new object holds the `size` junk values
of the freshly allocated block, and these junk values are written over the source's elements. -/
theorem C18_copy_constructor_behaviour (junk : Nat → Nat × α) (m : MapArr α) (s : Nat → Option α) (h : Repr m s) :
    ∃ src new, m.copyCtor junk = .ok (src, new) ∧ new.size = m.size ∧ new.ents = (List.range m.size).map junk ∧
      src.ents = (List.range m.size).map junk := by
  by_cases h0 : m.size = 0
  · exact ⟨m, ⟨0, 0, []⟩, by simp [MapArr.copyCtor, h0], by simp [h0], by simp [ents, h0], by simp [ents, h0]⟩
  · have h1 := h.1
    have h2 := h.2.1
    obtain ⟨d, e1, e2, e3⟩ := loop_inv (f := fun j (d : List (Nat × α)) => (rd false ((List.range m.size).map junk) j >>= fun x => wr false d j x : M _))
      (n := m.size) (s := m.data) (fun k t => t.length = m.data.length ∧ t.take k = ((List.range m.size).map junk).take k) (by simp)
      (by
        rintro k t hk ⟨g1, g2⟩
        have k1 : k < ((List.range m.size).map junk).length := by simpa using hk
        have k2 : k < t.length := by omega
        refine ⟨t.set k ((List.range m.size).map junk)[k], by rw [rd_ok k1, bind_ok, wr_ok k2], by simpa using g1, ?_⟩
        rw [List.take_add_one, List.take_add_one]
        simp [List.take_set_of_le, k2, g2, hk])
    refine ⟨{ m with data := d }, ⟨m.size, m.size, (List.range m.size).map junk⟩, by simp [MapArr.copyCtor, h0, e1], rfl, ?_, ?_⟩
    · simp only [ents]; rw [List.take_of_length_le (by simp)]
    · simp only [ents, e3]; rw [List.take_of_length_le (by simp)]

/-- **C18 refuted.**  C18 claims: copy construction makes the new map observe the source's map and leaves
the source unchanged.  A one-element map `{3 ↦ 7}` is a counterexample: if the fresh memory happens to
contain (0, 0), both the copy and the *source* map lose the element. -/
theorem C18_copy_refuted :
    ¬ ∀ (m : MapArr Int) (s : Nat → Option Int) (junk : Nat → Nat × Int), MapSpec.Observes m s →
      ∃ src new, m.copyCtor junk = .ok (src, new) ∧ MapSpec.Observes src s ∧ MapSpec.Observes new s := by
  intro hh
  have hrun : MapArr.run true 0 MapArr.empty [.insert 3 (7 : Int)] = .ok ⟨2, 1, [(3, 7), (0, 0)]⟩ := by decide
  obtain ⟨m, h1, h2⟩ := C17_map_array_refines_map true (0 : Int) [.insert 3 7] ⟨trivial, trivial⟩
  rw [hrun] at h1
  cases h1
  obtain ⟨src, new, e1, e2, _⟩ := hh _ _ (fun _ => (0, 0)) h2
  have e : (⟨2, 1, [(3, 7), (0, 0)]⟩ : MapArr Int).copyCtor (fun _ => (0, 0)) = .ok (⟨2, 1, [(0, 0), (0, 0)]⟩, ⟨1, 1, [(0, 0)]⟩) := by decide
  rw [e] at e1
  cases e1
  have := e2.1 3
  have hl : (⟨2, 1, [(0, 0), (0, 0)]⟩ : MapArr Int).lookup 3 = .ok none := by decide
  rw [hl] at this
  simp [MapSpec.run, MapSpec.step] at this

/-- **C18** (proved part).  Copying an empty map is correct.  Missing: every non-empty map (refuted). -/
theorem C18_copy_empty_partial (junk : Nat → Nat × α) (m : MapArr α) (h : MapSpec.Observes m (fun _ => none)) :
    ∃ new, m.copyCtor junk = .ok (m, new) ∧ MapSpec.Observes new (fun _ => none) := by
  have h0 : m.size = 0 := by
    obtain ⟨E, _, h1, _, h2⟩ := h.2.1
    cases E with
    | nil => exact h1.symm
    | cons p E => have := (h2 p.1 p.2).1 (by simp); simp at this
  refine ⟨⟨0, 0, []⟩, by simp [MapArr.copyCtor, h0], ?_⟩
  exact (MapArr.repr_empty (α := α)).observes

end Ublas
