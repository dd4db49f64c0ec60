import Verif.Lemmas.TensorNest
import Verif.Props.Tensor
import Mathlib.Algebra.BigOperators.Group.List.Lemmas
/-! # C52, C53: copy, transform, accumulate and transposition of tensors -/
namespace Ublas.Tens
variable {R σ : Type}

/-! ## Descending recursions are nested loops -/

/-- The loops for `r, r - 1, ..., 0`. -/
def desc (g : Nat → Nat × Ptrs) (r : Nat) : List (Nat × Ptrs) := ((List.range (r + 1)).map g).reverse

theorem desc_succ (g : Nat → Nat × Ptrs) (r : Nat) : desc g (r + 1) = g (r + 1) :: desc g r := by
  rw [desc, List.range_succ, List.map_append, List.reverse_append]; rfl

theorem desc_zero (g : Nat → Nat × Ptrs) : desc g 0 = [g 0] := rfl

theorem rd_getD {l : List Nat} {k : Nat} (h : k < l.length) : rd false l k = .ok (l.getD k 0) := by
  rw [rd_ok h, List.getD_eq_getElem?_getD, List.getElem?_eq_getElem h]; rfl

theorem map_getD_range {l : List Nat} {p : Nat} (h : l.length = p) : ((List.range p).map fun k => l.getD k 0) = l := by
  subst h
  apply List.ext_getElem (by simp)
  intro i h1 h2
  simp [List.getD_eq_getElem?_getD, List.getElem?_eq_getElem h2]

theorem getD_mem {l : List Nat} {k : Nat} (h : k < l.length) : l.getD k 0 ∈ l := by
  rw [List.getD_eq_getElem?_getD, List.getElem?_eq_getElem h]; exact List.getElem_mem h

theorem transformRec_eq {op : R → R} {n wc wa : List Nat} {a : List R} (hs : ∀ k ∈ n, k < 2 ^ 32) {r : Nat} (hn : r < n.length) (hc : r < wc.length) (ha : r < wa.length) :
    transformRec op n wc wa a r = nest (desc (fun k => (n.getD k 0, ⟨wc.getD k 0, wa.getD k 0, 0⟩)) r) (assignVia op a) := by
  induction r with
  | zero =>
    funext p c
    rw [transformRec, rd_getD hn, rd_getD hc, rd_getD ha]
    simp only [bind_ok]
    rw [sweep32_eq (hs _ (getD_mem hn))]; rfl
  | succ r ih =>
    funext p c
    rw [transformRec, rd_getD hn, rd_getD hc, rd_getD ha]
    simp only [bind_ok]
    rw [sweep32_eq (hs _ (getD_mem hn)), ih (by omega) (by omega) (by omega), desc_succ]; rfl

theorem accumulateRec_eq {op : R → R → R} {n w : List Nat} {a : List R} (hs : ∀ k ∈ n, k < 2 ^ 32) {r : Nat} (hn : r < n.length) (ha : r < w.length) :
    accumulateRec op n w a r = nest (desc (fun k => (n.getD k 0, ⟨0, w.getD k 0, 0⟩)) r) (fun p k => (do
      let x ← rd false a p.a
      .ok (op k x) : M R)) := by
  induction r with
  | zero =>
    funext p c
    rw [accumulateRec, rd_getD hn, rd_getD ha]
    simp only [bind_ok]
    rw [sweep32_eq (hs _ (getD_mem hn))]; rfl
  | succ r ih =>
    funext p c
    rw [accumulateRec, rd_getD hn, rd_getD ha]
    simp only [bind_ok]
    rw [sweep32_eq (hs _ (getD_mem hn)), ih (by omega) (by omega), desc_succ]; rfl

theorem rdPerm_getD {w π : List Nat} {k : Nat} (h : k < π.length) (h0 : 0 < π.getD k 0) (h1 : π.getD k 0 ≤ w.length) : rdPerm w π k = .ok (w.getD (π.getD k 0 - 1) 0) := by
  rw [rdPerm, rd_getD h, bind_ok, if_neg (by omega), rd_getD (by omega)]

theorem transRec_eq {na pi wc wa : List Nat} {a : List R} (hs : ∀ k ∈ na, k < 2 ^ 32) {r : Nat} (hn : r < na.length) (hp : r < pi.length) (ha : r < wa.length)
    (h0 : ∀ t ∈ pi, 0 < t ∧ t ≤ wc.length) :
    transRec na pi wc wa a r = nest (desc (fun k => (na.getD k 0, ⟨wc.getD (pi.getD k 0 - 1) 0, wa.getD k 0, 0⟩)) r) (assignVia (fun x => x) a) := by
  have hrd : ∀ k, k < pi.length → (if pi.getD k 0 = 0 then .error .ub else rd false wc (pi.getD k 0 - 1) : M Nat) = .ok (wc.getD (pi.getD k 0 - 1) 0) := fun k hk => by
    have := h0 _ (getD_mem hk)
    rw [if_neg (by omega), rd_getD (by omega)]
  induction r with
  | zero =>
    funext p c
    rw [transRec, rd_getD hn, rd_getD hp, rd_getD ha]
    simp only [bind_ok, hrd _ hp]
    rw [sweep32_eq (hs _ (getD_mem hn))]; rfl
  | succ r ih =>
    funext p c
    rw [transRec, rd_getD hn, rd_getD hp, rd_getD ha]
    simp only [bind_ok, hrd _ hp]
    rw [sweep32_eq (hs _ (getD_mem hn)), ih (by omega) (by omega) (by omega), desc_succ]; rfl

/-! ## C52 -/

theorem addr_desc_c {g : Nat → Nat × Ptrs} {r : Nat} {i : List Nat} (h : i.length = r + 1) : (addr (desc g r) ⟨0, 0, 0⟩ i.reverse).c = dotW ((List.range (r + 1)).map fun k => (g k).2.c) i := by
  rw [addr_c, desc, List.map_reverse, List.map_map, dotW_reverse (by simp [h])]; simp only [Nat.zero_add]; rfl
theorem addr_desc_a {g : Nat → Nat × Ptrs} {r : Nat} {i : List Nat} (h : i.length = r + 1) : (addr (desc g r) ⟨0, 0, 0⟩ i.reverse).a = dotW ((List.range (r + 1)).map fun k => (g k).2.a) i := by
  rw [addr_a, desc, List.map_reverse, List.map_map, dotW_reverse (by simp [h])]; simp only [Nat.zero_add]; rfl
theorem addr_desc_b {g : Nat → Nat × Ptrs} {r : Nat} {i : List Nat} (h : i.length = r + 1) : (addr (desc g r) ⟨0, 0, 0⟩ i.reverse).b = dotW ((List.range (r + 1)).map fun k => (g k).2.b) i := by
  rw [addr_b, desc, List.map_reverse, List.map_map, dotW_reverse (by simp [h])]; simp only [Nat.zero_add]; rfl

theorem modify_eq_set {l : List R} {k : Nat} (x : R) : l.modify k (fun _ => x) = l.set k x := by
  apply List.ext_getElem? 
  intro i
  rw [List.getElem?_modify, List.getElem?_set]
  by_cases h : k = i
  · subst h
    by_cases hk : k < l.length
    · simp [hk]
    · simp [hk]
  · simp [h]

theorem modify_eq_set' {l : List R} {k : Nat} {z : R} (h : l[k]? = some z) (f : R → R) : l.modify k f = l.set k (f z) := by
  apply List.ext_getElem?
  intro i
  rw [List.getElem?_modify, List.getElem?_set]
  by_cases hk : k = i
  · subst hk
    have : k < l.length := by rw [List.getElem?_eq_some_iff] at h; exact h.1
    rw [if_pos rfl, if_pos this, h]; simp
  · simp [hk]

/-- Assignment loops: the general form. `cs`, `as` are the strides in the order of the indices. -/
theorem assign_nest {op : R → R} {g : Nat → Nat × Ptrs} {r : Nat} {a c : List R} {f : List Nat → R}
    (ha : Lay a ((List.range (r + 1)).map fun k => (g k).1) ((List.range (r + 1)).map fun k => (g k).2.a) f)
    (hc : ∀ i, Valid ((List.range (r + 1)).map fun k => (g k).1) i → dotW ((List.range (r + 1)).map fun k => (g k).2.c) i < c.length)
    (hd : Distinct ((List.range (r + 1)).map fun k => (g k).1) ((List.range (r + 1)).map fun k => (g k).2.c)) :
    ∃ c', nest (desc g r) (assignVia op a) ⟨0, 0, 0⟩ c = .ok c' ∧ c'.length = c.length ∧
      Lay c' ((List.range (r + 1)).map fun k => (g k).1) ((List.range (r + 1)).map fun k => (g k).2.c) (fun i => op (f i)) ∧
      ∀ k, (∀ i, Valid ((List.range (r + 1)).map fun k => (g k).1) i → dotW ((List.range (r + 1)).map fun k => (g k).2.c) i ≠ k) → c'[k]? = c[k]? := by
  have hfst : (desc g r).map (·.1) = ((List.range (r + 1)).map fun k => (g k).1).reverse := by rw [desc, List.map_reverse, List.map_map]; rfl
  set e := (List.range (r + 1)).map fun k => (g k).1 with he
  have hl : ∀ i, Valid e i → i.length = r + 1 := fun i hi => by rw [hi.length, he]; simp
  have hrev : ∀ y, Valid ((desc g r).map (·.1)) y → Valid e y.reverse := fun y hy => by rw [hfst] at hy; exact hy.of_reverse
  have hcs : (desc g r).map (fun l => l.2.c) = ((List.range (r + 1)).map fun k => (g k).2.c).reverse := by rw [desc, List.map_reverse, List.map_map]; rfl
  have hdot : ∀ y, Valid e y.reverse → dotW ((desc g r).map fun l => l.2.c) y = dotW ((List.range (r + 1)).map fun k => (g k).2.c) y.reverse := fun y hy => by
    rw [hcs, ← dotW_reverse (i := y.reverse) (by rw [hl _ hy]; simp), List.reverse_reverse]
  obtain ⟨c', e1, e2, e3, e4⟩ := nest_contract (free := desc g r) (contr := []) (leaf := assignVia op a) (c := c) (fun x _ => op (f x.reverse)) (by simp)
    (fun y y' hy hy' h => by
      have h1 := hrev y hy
      have h2 := hrev y' hy'
      rw [hdot _ h1, hdot _ h2] at h
      simpa using congrArg List.reverse (hd _ _ h1 h2 h))
    (fun y hy => by rw [hdot _ (hrev y hy)]; exact hc _ (hrev y hy))
    (fun y z d v hy hz hlen hv => by
      rcases hz with _ | _
      have h1 := hrev y hy
      have a1 := addr_desc_c (g := g) (hl _ h1)
      have a2 := addr_desc_a (g := g) (hl _ h1)
      rw [List.reverse_reverse] at a1 a2
      simp only [List.append_nil]
      rw [assignVia, a2, a1, rd_eq_ok.2 (ha _ h1), bind_ok, wr_ok (by rw [hlen]; exact hc _ h1), hdot _ h1])
  rw [List.append_nil] at e1
  refine ⟨c', e1, e2, fun i hi => ?_, fun k hk => e4 k fun y hy => ?_⟩
  · have h1 : Valid ((desc g r).map (·.1)) i.reverse := by rw [hfst]; exact hi.reverse
    have := hdot i.reverse (by rw [List.reverse_reverse]; exact hi)
    have := e3 _ (c[dotW ((List.range (r + 1)).map fun k => (g k).2.c) i]'(hc _ hi)) h1 (by rw [this, List.reverse_reverse]; exact List.getElem?_eq_getElem (hc _ hi))
    rw [hdot i.reverse (by rw [List.reverse_reverse]; exact hi)] at this
    simpa [boxList] using this
  · rw [hdot _ (hrev y hy)]; exact hk _ (hrev y hy)

/-- **C52**, `transform`: for arbitrary strides of both tensors, element `i` of the target becomes `op` of element `i` of the source; cells that are not elements of the target stay. -/
theorem C52_transform (op : R → R) {n wc wa : List Nat} {a c : List R} {f : List Nat → R} (hr : n ≠ []) (hs : ∀ k ∈ n, k < 2 ^ 32) (hlc : wc.length = n.length) (hla : wa.length = n.length)
    (ha : Lay a n wa f) (hc : ∀ i, Valid n i → dotW wc i < c.length) (hd : Distinct n wc) :
    ∃ c', transform op n.length n c wc a wa = .ok c' ∧ c'.length = c.length ∧ Lay c' n wc (fun i => op (f i)) ∧ ∀ k, (∀ i, Valid n i → dotW wc i ≠ k) → c'[k]? = c[k]? := by
  have hp : 0 < n.length := List.length_pos_of_ne_nil hr
  obtain ⟨r, hr⟩ : ∃ r, n.length = r + 1 := ⟨n.length - 1, by omega⟩
  have m1 := map_getD_range hr
  have m2 := map_getD_range (hlc.trans hr)
  have m3 := map_getD_range (hla.trans hr)
  have key := assign_nest (op := op) (g := fun k => (n.getD k 0, ⟨wc.getD k 0, wa.getD k 0, 0⟩)) (r := r) (a := a) (c := c) (f := f) (by simp only [m1, m3]; exact ha) (by simp only [m1, m2]; exact hc)
    (by simp only [m1, m2]; exact hd)
  simp only [m1, m2] at key
  rw [transform, if_neg (by omega), show n.length - 1 = r by omega, transformRec_eq hs (by omega) (by omega) (by omega)]
  exact key

/-- **C52**, `copy`. -/
theorem C52_copy {n wc wa : List Nat} {a c : List R} {f : List Nat → R} (hr : n ≠ []) (hs : ∀ k ∈ n, k < 2 ^ 32) (hlc : wc.length = n.length) (hla : wa.length = n.length)
    (ha : Lay a n wa f) (hc : ∀ i, Valid n i → dotW wc i < c.length) (hd : Distinct n wc) :
    ∃ c', copy n.length n c wc a wa = .ok c' ∧ c'.length = c.length ∧ Lay c' n wc f ∧ ∀ k, (∀ i, Valid n i → dotW wc i ≠ k) → c'[k]? = c[k]? :=
  C52_transform (fun x => x) hr hs hlc hla ha hc hd

/-- **C52**, `accumulate`: every element enters the fold exactly once. -/
theorem C52_accumulate (op : R → R → R) {n w : List Nat} {a : List R} {f : List Nat → R} (hr : n ≠ []) (hs : ∀ k ∈ n, k < 2 ^ 32) (hla : w.length = n.length) (ha : Lay a n w f) (k : R) :
    ∃ l : List (List Nat), l.Nodup ∧ (∀ i, i ∈ l ↔ Valid n i) ∧ accumulate op n.length n a w k = .ok (l.foldl (fun v i => op v (f i)) k) := by
  have hp : 0 < n.length := List.length_pos_of_ne_nil hr
  obtain ⟨r, hr⟩ : ∃ r, n.length = r + 1 := ⟨n.length - 1, by omega⟩
  have m1 := map_getD_range hr
  have m3 := map_getD_range (hla.trans hr)
  set g : Nat → Nat × Ptrs := fun k => (n.getD k 0, ⟨0, w.getD k 0, 0⟩) with hg
  have hfst : (desc g r).map (·.1) = n.reverse := by rw [desc, List.map_reverse, List.map_map]; exact congrArg List.reverse m1
  refine ⟨(boxList n.reverse).map List.reverse, (nodup_boxList _).map (fun a b h => List.reverse_injective h), fun i => ?_, ?_⟩
  · simp only [List.mem_map, mem_boxList]
    constructor
    · rintro ⟨j, hj, rfl⟩; exact hj.of_reverse
    · exact fun hi => ⟨i.reverse, hi.reverse, List.reverse_reverse i⟩
  · rw [accumulate, if_neg (by omega), show n.length - 1 = r by omega, accumulateRec_eq hs (by omega) (by omega)]
    obtain ⟨e1, _⟩ := nest_ok (ls := desc g r) (leaf := fun p k => (do
        let x ← rd false a p.a
        .ok (op k x) : M R)) (p := ⟨0, 0, 0⟩) (s := k) (fun _ => True) (fun x v => op v (f x.reverse)) trivial (by
      intro x s hx _
      rw [hfst] at hx
      have h1 := hx.of_reverse
      have a2 := addr_desc_a (g := g) (h1.length.trans hr)
      rw [List.reverse_reverse] at a2
      simp only [hg, m3] at a2
      refine ⟨?_, trivial⟩
      simp only [hg, a2, rd_eq_ok.2 (ha _ h1), bind_ok])
    rw [e1, hfst, List.foldl_map]

/-- **C52**, `accumulate` with `+`. -/
theorem C52_accumulate_sum [AddCommMonoid R] {n w : List Nat} {a : List R} {f : List Nat → R} (hr : n ≠ []) (hs : ∀ k ∈ n, k < 2 ^ 32) (hla : w.length = n.length) (ha : Lay a n w f) (k : R) :
    accumulate (fun x y => x + y) n.length n a w k = .ok (k + sumBox n f) := by
  obtain ⟨l, h1, h2, h3⟩ := C52_accumulate (fun x y => x + y) hr hs hla ha k
  rw [h3, foldl_add, ← boxList_sum]
  have : l.Perm (boxList n) := (List.perm_ext_iff_of_nodup h1 (nodup_boxList n)).2 fun i => by rw [h2, mem_boxList]
  rw [(this.map f).sum_eq]

theorem lay_of_holds {L : Layout} {t : Tensor R} {e : List Nat} {f : List Nat → R} (h : Holds L t e f) : Lay t.data e t.strides f := fun i hi => by
  rw [(toIndex_pos h.strides hi).2.1]; exact h.elem i hi

theorem strides_length {L : Layout} {t : Tensor R} {e : List Nat} {f : List Nat → R} (h : Holds L t e f) : t.strides.length = e.length := by
  obtain ⟨w, h1, h2, _⟩ := toStrides_ok L e
  rw [Except.ok.inj (h.strides.symm.trans h1), h2]

theorem distinct_of_holds {L : Layout} {t : Tensor R} {e : List Nat} {f : List Nat → R} (h : Holds L t e f) : Distinct e t.strides := fun i j hi hj hij => by
  rw [(toIndex_pos h.strides hi).2.1, (toIndex_pos h.strides hj).2.1] at hij
  exact pos_inj hi hj hij

/-- The Frobenius norm is the root of the sum of the squares. -/
theorem C52_norm [Semiring R] {L : Layout} {t : Tensor R} {e : List Nat} {f : List Nat → R} (h : Holds L t e f) (hs : ∀ k ∈ e, k < 2 ^ 32) : normSquared 0 t = .ok (sumBox e fun i => f i * f i) := by
  have hne : t.data ≠ [] := fun hc => by
    have := count_pos h.positive
    rw [← h.size, hc] at this; simp at this
  rw [normSquared, if_neg hne, h.extents]
  obtain ⟨l, h1, h2, h3⟩ := C52_accumulate (fun l r => l + r * r) h.rank hs (strides_length h) (lay_of_holds h) 0
  rw [h3, foldl_add (fun i => f i * f i), zero_add, ← boxList_sum]
  have : l.Perm (boxList e) := (List.perm_ext_iff_of_nodup h1 (nodup_boxList e)).2 fun i => by rw [h2, mem_boxList]
  rw [(this.map _).sum_eq]

/-- A 2 x 3 source with column-major strides copied to a target with padding. -/
example : copy 2 [2, 3] [0, 0, 0, 9, 0, 0, 0, 9] [4, 1] [1, 2, 3, 4, 5, 6] [1, 2] = .ok [1, 3, 5, 9, 2, 4, 6, 9] := by decide
example : Distinct [2, 3] [4, 1] := by
  intro i j hi hj h
  rcases hi with _ | ⟨h1, _ | ⟨h2, ⟨⟩⟩⟩
  rcases hj with _ | ⟨h3, _ | ⟨h4, ⟨⟩⟩⟩
  simp only [dotW] at h
  simp; omega
example : accumulate (fun x y => x + y) 2 [2, 3] [1, 2, 3, 4, 5, 6] [1, 2] 100 = .ok 121 := by decide

/-- A tensor of rank 0: nothing is copied. -/
theorem C52_rank0 (op : R → R) (c a : List R) (wc wa : List Nat) : transform op 0 [] c wc a wa = .ok c := rfl

end Ublas.Tens
