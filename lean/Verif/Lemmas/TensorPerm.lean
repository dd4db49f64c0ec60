import Verif.Lemmas.TensorNest
import Mathlib.Algebra.BigOperators.Group.List.Basic
import Mathlib.Data.List.Perm.Subperm
/-! # Permutation tuples -/
namespace Ublas.Tens

theorem getD_lt {l : List Nat} {k : Nat} (h : k < l.length) : l.getD k 0 = l[k] := by
  rw [List.getD_eq_getElem?_getD, List.getElem?_eq_getElem h]; rfl

theorem valid_iff {e i : List Nat} : Valid e i ↔ i.length = e.length ∧ ∀ k, k < e.length → i.getD k 0 < e.getD k 0 := by
  constructor
  · intro h
    refine ⟨h.length, fun k hk => ?_⟩
    have hk' : k < i.length := by rw [h.length]; exact hk
    rw [getD_lt hk, getD_lt hk']
    exact List.Forall₂.get h hk' hk
  · rintro ⟨h1, h2⟩
    refine List.forall₂_iff_get.2 ⟨h1, fun k hk hk' => ?_⟩
    have := h2 k hk'
    rwa [getD_lt hk, getD_lt hk'] at this

variable {p : Nat} {π : List Nat}

theorem IsPerm.length (h : IsPerm p π) : π.length = p := by rw [List.Perm.length_eq h]; simp
theorem IsPerm.nodup (h : IsPerm p π) : π.Nodup := (List.Perm.nodup_iff h).2 (List.nodup_range')
theorem IsPerm.mem (h : IsPerm p π) {t : Nat} : t ∈ π ↔ 1 ≤ t ∧ t ≤ p := by
  rw [List.Perm.mem_iff h, List.mem_range']
  constructor
  · rintro ⟨i, hi, rfl⟩; omega
  · rintro ⟨h1, h2⟩; exact ⟨t - 1, by omega, by omega⟩

theorem IsPerm.get (h : IsPerm p π) {k : Nat} (hk : k < p) : 1 ≤ π.getD k 0 ∧ π.getD k 0 ≤ p := by
  have hk' : k < π.length := by rw [h.length]; exact hk
  rw [getD_lt hk']
  exact h.mem.1 (List.getElem_mem hk')

theorem IsPerm.idx (h : IsPerm p π) {m : Nat} (hm : m < p) : π.idxOf (m + 1) < p ∧ π.getD (π.idxOf (m + 1)) 0 = m + 1 := by
  have hmem : m + 1 ∈ π := h.mem.2 ⟨by omega, by omega⟩
  have h1 : π.idxOf (m + 1) < π.length := List.idxOf_lt_length_of_mem hmem
  refine ⟨by rw [← h.length]; exact h1, ?_⟩
  rw [getD_lt h1, List.getElem_idxOf]

theorem IsPerm.idx_get (h : IsPerm p π) {k : Nat} (hk : k < p) : π.idxOf (π.getD k 0 - 1 + 1) = k := by
  have hk' : k < π.length := by rw [h.length]; exact hk
  have := (h.get hk).1
  rw [show π.getD k 0 - 1 + 1 = π.getD k 0 by omega, getD_lt hk']
  exact h.nodup.idxOf_getElem k hk'

theorem pick_length (π j : List Nat) : (pick π j).length = π.length := by simp [pick]
theorem place_length (π x : List Nat) : (place π x).length = x.length := by simp [place]

theorem pick_getD {π j : List Nat} {k : Nat} (h : k < π.length) : (pick π j).getD k 0 = j.getD (π.getD k 0 - 1) 0 := by
  rw [getD_lt (by rw [pick_length]; exact h), getD_lt h]
  simp [pick]

theorem place_getD {π x : List Nat} {m : Nat} (h : m < x.length) : (place π x).getD m 0 = x.getD (π.idxOf (m + 1)) 0 := by
  rw [getD_lt (by rw [place_length]; exact h)]
  simp [place]

theorem ext_getD {a b : List Nat} (h : a.length = b.length) (hk : ∀ k, k < a.length → a.getD k 0 = b.getD k 0) : a = b := by
  refine List.ext_getElem h fun k h1 h2 => ?_
  have := hk k h1
  rwa [getD_lt h1, getD_lt h2] at this

theorem pick_place (h : IsPerm p π) {x : List Nat} (hx : x.length = p) : pick π (place π x) = x := by
  refine ext_getD (by rw [pick_length, h.length, hx]) fun k hk => ?_
  rw [pick_length] at hk
  have hk' : k < p := by rw [← h.length]; exact hk
  have := h.get hk'
  rw [pick_getD hk, place_getD (by omega), h.idx_get hk']

theorem place_pick (h : IsPerm p π) {j : List Nat} (hj : j.length = p) : place π (pick π j) = j := by
  refine ext_getD (by rw [place_length, pick_length, h.length, hj]) fun m hm => ?_
  rw [place_length, pick_length, h.length] at hm
  have := h.idx hm
  rw [place_getD (by rw [pick_length, h.length]; exact hm), pick_getD (by rw [h.length]; exact this.1), this.2]; rfl

theorem valid_pick (h : IsPerm p π) {e j : List Nat} (he : e.length = p) (hj : Valid (place π e) j) : Valid e (pick π j) := by
  rw [valid_iff] at hj ⊢
  rw [place_length] at hj
  refine ⟨by rw [pick_length, h.length, he], fun k hk => ?_⟩
  have hk' : k < p := by omega
  have h1 := h.get hk'
  have := hj.2 (π.getD k 0 - 1) (by omega)
  rw [place_getD (by omega), h.idx_get hk'] at this
  rw [pick_getD (by rw [h.length]; omega)]; exact this

theorem valid_place (h : IsPerm p π) {e i : List Nat} (he : e.length = p) (hi : Valid e i) : Valid (place π e) (place π i) := by
  rw [valid_iff] at hi ⊢
  refine ⟨by rw [place_length, place_length, hi.1], fun m hm => ?_⟩
  rw [place_length] at hm
  have := h.idx (m := m) (by omega)
  rw [place_getD hm, place_getD (by omega)]
  exact hi.2 _ (by omega)

theorem dotW_eq_sum {w i : List Nat} (h : i.length = w.length) : dotW w i = ((List.range' 1 w.length).map fun t => i.getD (t - 1) 0 * w.getD (t - 1) 0).sum := by
  induction w generalizing i with
  | nil => rw [List.length_nil, List.length_eq_zero_iff] at h; subst h; rfl
  | cons x w ih =>
    cases i with
    | nil => simp at h
    | cons k i =>
      rw [dotW, ih (by simpa using h), List.length_cons, List.range'_succ, List.map_cons, List.sum_cons]
      congr 1
      rw [show (1 + 1 : Nat) = 0 + 1 + 1 by rfl, ← List.map_add_range' (a := 1) (s := 1), List.map_map]
      congr 1
      refine List.map_congr_left fun t ht => ?_
      obtain ⟨t', ht', rfl⟩ := List.mem_range'.1 ht
      simp only [Function.comp]
      rw [show 1 + (1 + 1 * t') - 1 = t' + 1 by omega, show 1 + 1 * t' - 1 = t' by omega, List.getD_cons_succ, List.getD_cons_succ]

/-- Walking with permuted strides. -/
theorem dotW_pick (h : IsPerm p π) {w j : List Nat} (hw : w.length = p) (hj : j.length = p) : dotW (π.map fun t => w.getD (t - 1) 0) (pick π j) = dotW w j := by
  rw [dotW_eq_sum (w := w) (by rw [hj, hw]), hw, ← ((show π.Perm _ from h).map _).sum_eq]
  clear hw hj h
  induction π with
  | nil => rfl
  | cons t π ih => rw [List.map_cons, List.map_cons, List.sum_cons, ← ih, pick, List.map_cons, dotW]; rfl

theorem dotW_place (h : IsPerm p π) {w x : List Nat} (hw : w.length = p) (hx : x.length = p) : dotW w (place π x) = dotW (π.map fun t => w.getD (t - 1) 0) x := by
  rw [← dotW_pick h hw (by rw [place_length, hx]), pick_place h hx]

theorem map_range_getD (h : π.length = p) (g : Nat → Nat) : ((List.range p).map fun k => g (π.getD k 0)) = π.map g := by
  subst h
  refine List.ext_getElem (by simp) fun k h1 h2 => ?_
  simp at h1
  simp [h1]

theorem place_positive (h : IsPerm p π) {e : List Nat} (he : e.length = p) (hp : ∀ n ∈ e, 0 < n) : ∀ n ∈ place π e, 0 < n := by
  intro n hn
  obtain ⟨m, hm, rfl⟩ := List.mem_map.1 hn
  rw [List.mem_range] at hm
  have := (h.idx (m := m) (by omega)).1
  rw [getD_lt (by omega)]
  exact hp _ (List.getElem_mem _)

end Ublas.Tens
