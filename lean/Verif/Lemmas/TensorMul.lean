import Verif.Lemmas.TensorPerm
import Verif.Props.TensorAlg
/-! # Contractions: loops to sums -/
namespace Ublas.Tens
variable {R : Type}

/-- Loops whose free indices `y` stand for the multi-indices `φ y` of the target. -/
theorem upd_index {free contr : List (Nat × Ptrs)} {leaf : Ptrs → List R → M (List R)} {c : List R} {e wc : List Nat} {old : List Nat → R} (step : List Nat → List Nat → R → R) (φ ψ : List Nat → List Nat)
    (hφ : ∀ y, Valid (free.map (·.1)) y → Valid e (φ y) ∧ ψ (φ y) = y ∧ dotW (free.map fun l => l.2.c) y = dotW wc (φ y)) (hψ : ∀ i, Valid e i → Valid (free.map (·.1)) (ψ i) ∧ φ (ψ i) = i)
    (hz : ∀ l ∈ contr, l.2.c = 0) (hd : Distinct e wc) (hc : Lay c e wc old)
    (h : ∀ y z (d : List R) v, Valid (free.map (·.1)) y → Valid (contr.map (·.1)) z → d.length = c.length → d[dotW wc (φ y)]? = some v →
      leaf (addr (free ++ contr) ⟨0, 0, 0⟩ (y ++ z)) d = .ok (d.set (dotW wc (φ y)) (step (φ y) z v))) :
    ∃ c', nest (free ++ contr) leaf ⟨0, 0, 0⟩ c = .ok c' ∧ c'.length = c.length ∧ Lay c' e wc (fun i => (boxList (contr.map (·.1))).foldl (fun v z => step i z v) (old i)) ∧
      ∀ k, (∀ i, Valid e i → dotW wc i ≠ k) → c'[k]? = c[k]? := by
  obtain ⟨c', e1, e2, e3, e4⟩ := nest_contract (free := free) (contr := contr) (leaf := leaf) (c := c) (fun x v => step (φ (x.take free.length)) (x.drop free.length) v) hz
    (fun y y' hy hy' hyy => by
      rw [(hφ y hy).2.2, (hφ y' hy').2.2] at hyy
      rw [← (hφ y hy).2.1, ← (hφ y' hy').2.1, hd _ _ (hφ y hy).1 (hφ y' hy').1 hyy])
    (fun y hy => by rw [(hφ y hy).2.2]; exact (List.getElem?_eq_some_iff.1 (hc _ (hφ y hy).1)).1)
    (fun y z d v hy hz hlen hv => by
      have hyl : y.length = free.length := by rw [hy.length, List.length_map]
      rw [(hφ y hy).2.2] at hv ⊢
      rw [h y z d v hy hz hlen hv, ← hyl, List.take_left, List.drop_left])
  refine ⟨c', e1, e2, fun i hi => ?_, fun k hk => e4 k fun y hy => by rw [(hφ y hy).2.2]; exact hk _ (hφ y hy).1⟩
  obtain ⟨h1, h2⟩ := hψ i hi
  have h3 := (hφ _ h1).2.2
  rw [h2] at h3
  have := e3 (ψ i) (old i) h1 (by rw [h3]; exact hc i hi)
  have hyl : (ψ i).length = free.length := by rw [h1.length, List.length_map]
  simp only [← hyl, List.take_left, List.drop_left, h2] at this
  rw [h3] at this
  exact this

/-- Multiply-accumulate. -/
theorem mac_index [NonUnitalNonAssocSemiring R] {free contr : List (Nat × Ptrs)} {a b c : List R} {e wc : List Nat} {old : List Nat → R} {fa fb : List Nat → List Nat → R} (φ ψ : List Nat → List Nat)
    (hφ : ∀ y, Valid (free.map (·.1)) y → Valid e (φ y) ∧ ψ (φ y) = y ∧ dotW (free.map fun l => l.2.c) y = dotW wc (φ y)) (hψ : ∀ i, Valid e i → Valid (free.map (·.1)) (ψ i) ∧ φ (ψ i) = i)
    (hz : ∀ l ∈ contr, l.2.c = 0) (hd : Distinct e wc) (hc : Lay c e wc old)
    (ha : ∀ y z, Valid (free.map (·.1)) y → Valid (contr.map (·.1)) z → a[dotW (free.map fun l => l.2.a) y + dotW (contr.map fun l => l.2.a) z]? = some (fa (φ y) z))
    (hb : ∀ y z, Valid (free.map (·.1)) y → Valid (contr.map (·.1)) z → b[dotW (free.map fun l => l.2.b) y + dotW (contr.map fun l => l.2.b) z]? = some (fb (φ y) z)) :
    ∃ c', nest (free ++ contr) (mac a b) ⟨0, 0, 0⟩ c = .ok c' ∧ c'.length = c.length ∧ Lay c' e wc (fun i => old i + sumBox (contr.map (·.1)) fun z => fa i z * fb i z) ∧
      ∀ k, (∀ i, Valid e i → dotW wc i ≠ k) → c'[k]? = c[k]? := by
  obtain ⟨c', e1, e2, e3, e4⟩ := upd_index (leaf := mac a b) (fun i z v => v + fa i z * fb i z) φ ψ hφ hψ hz hd hc (by
    intro y z d v hy hz' hlen hv
    have hyl : y.length = free.length := by rw [hy.length, List.length_map]
    have h1 : (addr (free ++ contr) ⟨0, 0, 0⟩ (y ++ z)).c = dotW wc (φ y) := by
      rw [addr_append hyl, addr_c, addr_c, dotW_zero (w := contr.map fun l => l.2.c), ← (hφ y hy).2.2]
      · simp
      · intro x hx
        obtain ⟨l, hl, rfl⟩ := List.mem_map.1 hx
        exact hz l hl
    have h2 : (addr (free ++ contr) ⟨0, 0, 0⟩ (y ++ z)).a = dotW (free.map fun l => l.2.a) y + dotW (contr.map fun l => l.2.a) z := by
      rw [addr_append hyl, addr_a, addr_a]; simp
    have h3 : (addr (free ++ contr) ⟨0, 0, 0⟩ (y ++ z)).b = dotW (free.map fun l => l.2.b) y + dotW (contr.map fun l => l.2.b) z := by
      rw [addr_append hyl, addr_b, addr_b]; simp
    rw [mac, h1, h2, h3, rd_eq_ok.2 (ha y z hy hz'), rd_eq_ok.2 (hb y z hy hz'), rd_eq_ok.2 hv]
    simp only [bind_ok]
    rw [wr_ok (List.getElem?_eq_some_iff.1 hv).1])
  refine ⟨c', e1, e2, fun i hi => ?_, e4⟩
  rw [e3 i hi]
  beta_reduce
  rw [foldl_add (fun z => fa i z * fb i z), boxList_sum]

/-! ## Removing and inserting a component -/

/-- The mode that is component `j` after mode `m` has been removed. -/
def up (m j : Nat) : Nat := if j < m then j else j + 1

theorem up_lt {m j p : Nat} (hm : m < p) (hj : j < p - 1) : up m j < p := by unfold up; split <;> omega

theorem map_up {l : List Nat} {m p : Nat} (hl : l.length = p + 1) (hm : m ≤ p) : ((List.range p).map fun j => l.getD (up m j) 0) = l.eraseIdx m := by
  have hlen : (l.eraseIdx m).length = p := by rw [List.length_eraseIdx_of_lt (by omega)]; omega
  refine ext_getD (by simp [hlen]) fun k hk => ?_
  simp at hk
  rw [getD_lt (by simpa using hk), getD_lt (by omega), List.getElem_map, List.getElem_range, List.getElem_eraseIdx, getD_lt (by have := up_lt (p := p + 1) (m := m) (j := k) (by omega) (by omega); omega)]
  unfold up
  split <;> rfl

theorem dotW_insert {w i : List Nat} {m k : Nat} (hm : m < w.length) (hi : i.length + 1 = w.length) : dotW w (i.insertIdx m k) = dotW (w.eraseIdx m) i + k * w.getD m 0 := by
  induction m generalizing w i with
  | zero =>
    cases w with
    | nil => simp at hm
    | cons x w => simp [dotW]; omega
  | succ m ih =>
    cases w with
    | nil => simp at hm
    | cons x w =>
      cases i with
      | nil => simp only [List.length_nil, List.length_cons] at hi hm; omega
      | cons j i =>
        simp only [List.insertIdx_succ_cons, List.eraseIdx_cons_succ, dotW, List.getD_cons_succ]
        rw [ih (by simpa using hm) (by simpa using hi)]; omega

theorem valid_insert {e i : List Nat} {m k : Nat} (hm : m < e.length) (hi : Valid (e.eraseIdx m) i) (hk : k < e.getD m 0) : Valid e (i.insertIdx m k) := by
  induction m generalizing e i with
  | zero =>
    cases e with
    | nil => simp at hm
    | cons n e => exact .cons hk hi
  | succ m ih =>
    cases e with
    | nil => simp at hm
    | cons n e =>
      rcases hi with _ | ⟨h1, h2⟩
      exact .cons h1 (ih (by simpa using hm) h2 (by simpa using hk))

theorem erase_insert_length {e : List Nat} {m : Nat} (hm : m < e.length) : (e.eraseIdx m).length + 1 = e.length := by
  rw [List.length_eraseIdx_of_lt hm]; omega

theorem valid_erase {e i : List Nat} {m : Nat} (hm : m < e.length) (hi : Valid e i) : Valid (e.eraseIdx m) (i.eraseIdx m) ∧ i.getD m 0 < e.getD m 0 ∧ (i.eraseIdx m).insertIdx m (i.getD m 0) = i := by
  induction m generalizing e i with
  | zero =>
    cases e with
    | nil => simp at hm
    | cons n e =>
      rcases hi with _ | ⟨h1, h2⟩
      exact ⟨h2, h1, rfl⟩
  | succ m ih =>
    cases e with
    | nil => simp at hm
    | cons n e =>
      rcases hi with _ | ⟨h1, h2⟩
      obtain ⟨a1, a2, a3⟩ := ih (by simpa using hm) h2
      exact ⟨.cons h1 a1, a2, by simp only [List.eraseIdx_cons_succ, List.insertIdx_succ_cons, List.getD_cons_succ, a3]⟩

/-- The descending loops over the modes other than `m`. -/
theorem desc_fst (g : Nat → Nat × Ptrs) (q : Nat) : (desc g q).map (·.1) = ((List.range (q + 1)).map fun k => (g k).1).reverse := by rw [desc, List.map_reverse, List.map_map]; rfl
theorem desc_c (g : Nat → Nat × Ptrs) (q : Nat) : (desc g q).map (fun l => l.2.c) = ((List.range (q + 1)).map fun k => (g k).2.c).reverse := by rw [desc, List.map_reverse, List.map_map]; rfl
theorem desc_a (g : Nat → Nat × Ptrs) (q : Nat) : (desc g q).map (fun l => l.2.a) = ((List.range (q + 1)).map fun k => (g k).2.a).reverse := by rw [desc, List.map_reverse, List.map_map]; rfl
theorem desc_b (g : Nat → Nat × Ptrs) (q : Nat) : (desc g q).map (fun l => l.2.b) = ((List.range (q + 1)).map fun k => (g k).2.b).reverse := by rw [desc, List.map_reverse, List.map_map]; rfl

theorem expectEqual_ok {lhs rhs : Nat → M Nat} {n : Nat} (h : ∀ i, i < n → ∃ x, lhs i = .ok x ∧ rhs i = .ok x) : expectEqual lhs rhs n = .ok () := by
  obtain ⟨t, e, _⟩ := loop_inv (f := fun i (_ : Unit) => (do
    let x ← lhs i
    let y ← rhs i
    if x ≠ y then .error .stdException else .ok () : M Unit)) (n := n) (s := ()) (fun _ _ => True) trivial (by
      intro k t hk _
      obtain ⟨x, h1, h2⟩ := h k hk
      exact ⟨(), by simp [h1, h2], trivial⟩)
  exact e

end Ublas.Tens
