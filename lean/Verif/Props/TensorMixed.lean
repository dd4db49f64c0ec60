import Verif.Props.Tensor
/-! # C125: tensors combined with vectors -/
namespace Ublas.Tens
variable {R : Type}

/-- **C125**: `t = x op v` and `t = v op x` (and `t += …` etc.: `fn`) for a vector with as many elements as the tensor combine, at every multi-index, the
element of the tensor expression with the element of the vector at the position of the multi-index in memory order. -/
theorem C125_combine_partial {L : Layout} {t : Tensor R} {e : List Nat} {own f : List Nat → R} (ht : Holds L t e own) {x : TExp R}
    (hx : x.Means L e own f) (hs : count e < 2 ^ 32) (fn op : R → R → R) (dbg left : Bool) (v : List R) (hv : v.length = count e) [Inhabited R]
    {order : List Nat} (ho : order.Perm (List.range (count e))) :
    ∃ t', eval fn t (withVector dbg op left v x) order = .ok t' ∧
      Holds L t' e fun i => fn (own i) (if left = true then op (v.getD (pos L e i) default) (f i) else op (f i) (v.getD (pos L e i) default)) := by
  have hg : ∀ i, Valid e i → rd dbg v (pos L e i) = .ok (v.getD (pos L e i) default) := by
    intro i hi
    have := pos_lt (L := L) hi
    rw [rd_ok (by omega)]
    simp [List.getD, show pos L e i < v.length by omega]
  cases left with
  | true => exact C72_eval_same_layout_partial ht (.vecLeft op hg hx) hs fn ho
  | false => exact C72_eval_same_layout_partial ht (.vecRight op hg hx) hs fn ho

/-- A tensor expression reads every position below the number of its elements. -/
theorem TExp.Means.reads {L : Layout} {e : List Nat} {own f : List Nat → R} {x : TExp R} (h : x.Means L e own f) {d : List R} (hd : d.length = count e)
    {k : Nat} (hk : k < count e) : ∃ y, x.at_ d k = .ok y := by
  obtain ⟨i, hi, rfl⟩ := pos_surj (L := L) hk
  induction h with
  | leaf h => exact ⟨_, vectorAt_ok.2 (h.elem i hi)⟩
  | self => exact ⟨_, vectorAt_ok.2 (List.getElem?_eq_getElem (by rw [hd]; exact hk))⟩
  | unary _ _ ih => obtain ⟨y, e⟩ := ih; exact ⟨_, by simp only [TExp.at_, e, bind_ok]; rfl⟩
  | binary _ _ _ ih ih' =>
    obtain ⟨y, e⟩ := ih
    obtain ⟨z, e'⟩ := ih'
    exact ⟨_, by simp only [TExp.at_, e, e', bind_ok]; rfl⟩
  | vecLeft _ hg _ ih => obtain ⟨y, e⟩ := ih; exact ⟨_, by simp only [TExp.at_, e, hg i hi, bind_ok]; rfl⟩
  | vecRight _ hg _ ih => obtain ⟨y, e⟩ := ih; exact ⟨_, by simp only [TExp.at_, e, hg i hi, bind_ok]; rfl⟩

theorem rd_out {dbg : Bool} {v : List R} {k : Nat} (h : v.length ≤ k) : rd dbg v k = .error (if dbg = true then .badIndex else .ub) := by
  cases dbg <;> simp [rd, List.getElem?_eq_none h]

/-- The loop over an expression with a short vector stops with the error of the first read outside. -/
theorem evalLoop_short {L : Layout} {e : List Nat} {own f : List Nat → R} {x : TExp R} (fn op : R → R → R) (dbg left : Bool) (v : List R) (hx : x.Means L e own f)
    {order : List Nat} (ho : ∀ k ∈ order, k < count e) {d : List R} (hl : d.length = count e) (hsome : ∃ k ∈ order, v.length ≤ k) :
    order.foldlM (evalStep fn (withVector dbg op left v x)) d = .error (if dbg = true then .badIndex else .ub) := by
  induction order generalizing d with
  | nil => obtain ⟨k, hk, _⟩ := hsome; simp at hk
  | cons k order ih =>
    have hk : k < count e := ho k (by simp)
    obtain ⟨y, hy⟩ := hx.reads hl hk
    rw [List.foldlM_cons]
    by_cases hout : v.length ≤ k
    · have : evalStep fn (withVector dbg op left v x) d k = .error (if dbg = true then .badIndex else .ub) := by
        unfold evalStep withVector
        cases left <;> simp only [TExp.at_, hy, rd_out hout, bind_ok, bind_error]
      rw [this]; rfl
    · have hin : k < v.length := by omega
      obtain ⟨a, ha⟩ : ∃ a, vectorAt d k = .ok a := ⟨_, vectorAt_ok.2 (List.getElem?_eq_getElem (by rw [hl]; exact hk))⟩
      obtain ⟨d', hd', hlen⟩ : ∃ d', evalStep fn (withVector dbg op left v x) d k = .ok d' ∧ d'.length = count e := by
        unfold evalStep withVector
        cases left <;> exact ⟨_, by simp only [TExp.at_, hy, rd_ok hin, bind_ok, ha]; rfl, by rw [List.length_set, hl]⟩
      rw [hd', bind_ok]
      refine ih (fun j hj => ho j (by simp [hj])) hlen ?_
      obtain ⟨j, hj, hj'⟩ := hsome
      rcases List.mem_cons.1 hj with h | h
      · omega
      · exact ⟨j, h, hj'⟩

/-- **C125** refuted for shorter vectors: their size is never compared.  The vector is read behind its end: `bad_index` in the middle of the loop in
a checked build, undefined behaviour otherwise — whatever the tensor expression, the operator and the schedule. -/
theorem C125_shorter_refuted {L : Layout} {t : Tensor R} {e : List Nat} {own f : List Nat → R} (ht : Holds L t e own) {x : TExp R}
    (hx : x.Means L e own f) (hs : count e < 2 ^ 32) (fn op : R → R → R) (dbg left : Bool) (v : List R) (hv : v.length < count e)
    {order : List Nat} (ho : order.Perm (List.range (count e))) :
    eval fn t (withVector dbg op left v x) order = .error (if dbg = true then .badIndex else .ub) := by
  have ha : (withVector dbg op left v x).allEqual e e = true := hx.allEqual
  unfold eval
  rw [ht.extents, if_neg (by rw [ha]; simp), if_pos (by rw [ht.size]; exact hs),
    evalLoop_short fn op dbg left v hx (fun k hk => List.mem_range.1 (ho.mem_iff.1 hk)) ht.size
      ⟨v.length, ho.mem_iff.2 (List.mem_range.2 hv), Nat.le_refl _⟩, bind_error]

/-- **C125** refuted for longer vectors: they are accepted, and the surplus is ignored. -/
theorem C125_longer_refuted {L : Layout} {t : Tensor R} {e : List Nat} {own f : List Nat → R} (ht : Holds L t e own) {x : TExp R}
    (hx : x.Means L e own f) (hs : count e < 2 ^ 32) (fn op : R → R → R) (dbg left : Bool) (v : List R) (hv : count e < v.length) [Inhabited R]
    {order : List Nat} (ho : order.Perm (List.range (count e))) :
    ∃ t', eval fn t (withVector dbg op left v x) order = .ok t' ∧
      Holds L t' e fun i => fn (own i) (if left = true then op (v.getD (pos L e i) default) (f i) else op (f i) (v.getD (pos L e i) default)) := by
  have hg : ∀ i, Valid e i → rd dbg v (pos L e i) = .ok (v.getD (pos L e i) default) := by
    intro i hi
    have := pos_lt (L := L) hi
    rw [rd_ok (by omega)]
    simp [List.getD, show pos L e i < v.length by omega]
  cases left with
  | true => exact C72_eval_same_layout_partial ht (.vecLeft op hg hx) hs fn ho
  | false => exact C72_eval_same_layout_partial ht (.vecRight op hg hx) hs fn ho

/-- **C72** (refusal of other shapes) is refuted for operands of different tensor types: of the operand of the other type only one tensor is compared, the
last one.  Here a 3 × 2 and a 2 × 3 tensor of last-order layout are added, and a 2 × 2 one to their sum; the sum of that and a first-order 2 × 2 tensor is formed
and assigned without an exception. -/
theorem C72_mixed_shapes_refuted : ∃ (l x y z : Tensor ℤ) (r : TExp ℤ), l.extents = [2, 2] ∧ x.extents = [3, 2] ∧ y.extents = [2, 3] ∧
    (do let s ← TExp.combine [] (· + ·) (.leaf .last x) (.leaf .last y)
        let s' ← TExp.combine [] (· + ·) s (.leaf .last z)
        TExp.combine [] (· + ·) (.leaf .first l) s') = .ok r ∧
    ∃ t, construct .first 0 r (List.range 4) = .ok t := by
  refine ⟨⟨[2, 2], [1, 2], [1, 2, 3, 4]⟩, ⟨[3, 2], [2, 1], [10, 20, 30, 40, 50, 60]⟩, ⟨[2, 3], [3, 1], [100, 200, 300, 400, 500, 600]⟩, ⟨[2, 2], [2, 1], [0, 0, 0, 0]⟩,
    _, rfl, rfl, rfl, rfl, ⟨[2, 2], [1, 2], [111, 222, 333, 444]⟩, by decide⟩

/-! Concrete cases: a 2 × 2 tensor and vectors of 4, 3 and 5 elements. -/

example : (do
    let c ← createFrom .first [2, 2] ([10, 20, 30, 40] : List ℤ)
    eval (fun _ y => y) c (withVector true (· - ·) true [1, 2, 3, 4] (.self .first)) [2, 0, 3, 1]) = .ok ⟨[2, 2], [1, 2], [-9, -18, -27, -36]⟩ := by decide
example : (do
    let c ← createFrom .first [2, 2] ([10, 20, 30, 40] : List ℤ)
    eval (fun _ y => y) c (withVector true (· - ·) false [1, 2, 3] (.self .first)) [0, 1, 2, 3]) = .error .badIndex := by decide
example : (do
    let c ← createFrom .first [2, 2] ([10, 20, 30, 40] : List ℤ)
    eval (fun _ y => y) c (withVector false (· - ·) false [1, 2, 3] (.self .first)) [0, 1, 2, 3]) = .error .ub := by decide
example : (do
    let c ← createFrom .first [2, 2] ([10, 20, 30, 40] : List ℤ)
    eval (· + ·) c (withVector true (· * ·) false [1, 2, 3, 4, 5] (.self .first)) [0, 1, 2, 3]) = .ok ⟨[2, 2], [1, 2], [20, 60, 120, 200]⟩ := by decide

end Ublas.Tens
