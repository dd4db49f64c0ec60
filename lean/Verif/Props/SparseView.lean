import Verif.Spec.SparseView
import Verif.Lemmas.Search
import Verif.Props.CompressedMatrix
/-! # C92: compressed_matrix_view reads the sparse matrix stored in the caller's arrays -/
namespace Ublas
open Search SparseSpec
variable {α : Type}

/-- `c_array_view` is the window `[base, base + size)` of the caller's memory: every index inside is read, every other index is
refused in a build with checks, and iteration passes all cells in order. -/
theorem C92_c_array_view (a : CArrView) (mem : List α) (hin : a.base + a.size ≤ mem.length) :
    (∀ dbg i x, i < a.size → (a.get dbg mem i = .ok x ↔ mem[a.base + i]? = some x)) ∧
    (∀ i, ¬ i < a.size → a.get true mem i = .error .badIndex) ∧
    a.walk mem = .ok ((mem.drop a.base).take a.size) := by
  refine ⟨?_, ?_, ?_⟩
  · intro dbg i x hi
    unfold CArrView.get
    rw [check_true hi, bind_ok, rd_eq_ok]
  · intro i hi
    unfold CArrView.get
    rw [check_dbg_false hi]; rfl
  · obtain ⟨l, e, h⟩ := loop_inv (n := a.size) (s := ([] : List α))
      (f := fun k acc => (do let x ← rd false mem (a.base + k); .ok (acc ++ [x]) : M (List α)))
      (fun k acc => acc = (mem.drop a.base).take k) (by simp) (by
        intro k t hk ht
        refine ⟨t ++ [mem[a.base + k]'(by omega)], by rw [rd_ok (by omega)]; rfl, ?_⟩
        rw [ht, List.take_add_one]
        congr 1
        rw [List.getElem?_drop]; simp [show a.base + k < mem.length by omega])
    unfold CArrView.walk
    rw [e, h]

example : (CArrView.mk 2 1).base + (CArrView.mk 2 1).size ≤ [10, 11, 12, 13].length := by decide

namespace SpArrays

theorem Stores.mono {o : Orient} {IB : Nat} {a : SpArrays α} {r c nnz : Nat} {m : Nat → Nat → Option α} {off : Nat → Nat}
    (h : ∀ k, k < o.sizeM r c → off k ≤ off (k + 1)) (h1 : off (o.sizeM r c) = nnz) :
    ∀ k, k ≤ o.sizeM r c → off k ≤ nnz := by
  intro k hk
  obtain ⟨d, hd⟩ := Nat.exists_eq_add_of_le hk
  clear m a
  induction d generalizing k with
  | zero => rw [← h1, hd]; exact Nat.le_of_eq rfl
  | succ d ih =>
    have := ih (k + 1) (by omega) (by omega)
    have := h k (by omega)
    omega

theorem Stores.slot {o : Orient} {IB : Nat} {a : SpArrays α} {r c nnz : Nat} {m : Nat → Nat → Option α}
    (h : a.Stores o IB r c nnz m) (chk : Bool) {i j : Nat} (hi : i < r) (hj : j < c) :
    (∃ n x, SpView.slot chk o IB a i j = .ok (some n) ∧ m i j = some x ∧ a.value[n]? = some x) ∨
    (SpView.slot chk o IB a i j = .ok none ∧ m i j = none) := by
  obtain ⟨off, h1, h2, h3, h4, h5, h6, h7⟩ := h
  have hM := CMat.major_lt o hi hj
  have hle := Stores.mono (a := a) (m := m) (IB := IB) h2 h3 (o.indexM i j + 1) hM
  have hbe := h2 _ hM
  have hsort : SortedOn a.index2 (off (o.indexM i j)) (off (o.indexM i j + 1)) := by
    intro p q x y hp hpq hq hx hy
    rcases Nat.lt_or_ge p q with g | g
    · exact Nat.le_of_lt (h6 _ p q x y hM hp g hq hx hy)
    · have e : p = q := by omega
      subst e; rw [hx] at hy; cases hy; exact Nat.le_refl _
  obtain ⟨it, e, s1, s2, s3, s4⟩ := stdLowerBound_spec a.index2 (o.indexm i j + IB) (off (o.indexM i j)) (off (o.indexM i j + 1))
    (by omega) hsort (off (o.indexM i j + 1) - off (o.indexM i j)) (off (o.indexM i j)) (off (o.indexM i j + 1) - off (o.indexM i j))
    (Nat.le_refl _) (Nat.le_refl _) (by omega) (fun p x a b => by omega) (fun p x a b => by omega)
  have hnone : (∀ n x, off (o.indexM i j) ≤ n → n < off (o.indexM i j + 1) → a.index2[n]? = some x → x ≠ o.indexm i j + IB) → m i j = none := by
    intro hh
    cases hm : m i j with
    | none => rfl
    | some x =>
      obtain ⟨n, p1, p2, p3, p4⟩ := (h7 i j x hi hj).1 hm
      exact absurd rfl (hh n _ p1 p2 p3)
  have hb : SpView.slot chk o IB a i j = (if it = off (o.indexM i j + 1) then .ok none else do
      let z ← rd false a.index2 it
      .ok (if z = o.indexm i j + IB then some it else none) : M (Option Nat)) := by
    unfold SpView.slot
    have z1 : SpView.zeroBased IB (off (o.indexM i j) + IB) = .ok (off (o.indexM i j)) := by
      unfold SpView.zeroBased; rw [if_neg (by omega), Nat.add_sub_cancel]
    have z2 : SpView.zeroBased IB (off (o.indexM i j + 1) + IB) = .ok (off (o.indexM i j + 1)) := by
      unfold SpView.zeroBased; rw [if_neg (by omega), Nat.add_sub_cancel]
    have z3 : SpView.findIndexInRow IB a.index2 (off (o.indexM i j)) (off (o.indexM i j + 1)) (o.indexm i j) = .ok it := by
      unfold SpView.findIndexInRow
      rw [if_neg (by omega)]; exact e
    simp only [rd_eq_ok.2 (h1 _ (Nat.le_of_lt hM)), rd_eq_ok.2 (h1 _ hM), bind_ok, z1, z2, z3]
  rw [hb]
  by_cases hend : it = off (o.indexM i j + 1)
  · right
    rw [if_pos hend]
    refine ⟨rfl, hnone fun n x p1 p2 p3 => ?_⟩
    have := s3 n x p1 (by omega) p3
    omega
  · rw [if_neg hend]
    have hlt : it < a.index2.length := by omega
    rw [rd_ok hlt, bind_ok]
    by_cases hz : a.index2[it] = o.indexm i j + IB
    · left
      rw [if_pos hz]
      have hv : it < a.value.length := by omega
      refine ⟨it, a.value[it], rfl, (h7 i j _ hi hj).2 ⟨it, s1, by omega, by rw [← hz]; simp [hlt], by simp [hv]⟩, by simp [hv]⟩
    · right
      rw [if_neg hz]
      refine ⟨rfl, hnone fun n x p1 p2 p3 => ?_⟩
      rcases Nat.lt_trichotomy n it with g | g | g
      · have := s3 n x p1 g p3; omega
      · subst g
        rw [List.getElem?_eq_getElem hlt] at p3; cases p3; exact hz
      · have q1 := s4 it a.index2[it] (Nat.le_refl _) (by omega) (by simp [hlt])
        have := h6 _ it n _ x hM s1 g p2 (List.getElem?_eq_getElem hlt) p3
        omega

end SpArrays

/-- Reading through the view: for arrays that hold a sparse matrix in compressed storage, with either orientation and any index base,
`operator ()` returns the stored element, and zero where nothing is stored; no access leaves the arrays.  The view refers to the
arrays, so this holds for whatever they contain at the time of the read (`a` need not be the contents at construction). -/
theorem C92_view_reads (chk : Bool) (o : Orient) (IB : Nat) (zero : α) (v : SpView) (a : SpArrays α) (nnz : Nat) (m : Nat → Nat → Option α)
    (h : a.Stores o IB v.size1 v.size2 nnz m) (i j : Nat) (hi : i < v.size1) (hj : j < v.size2) :
    v.get chk o IB zero a i j = .ok ((m i j).getD zero) := by
  unfold SpView.get
  rcases h.slot chk hi hj with ⟨n, x, e, e1, e2⟩ | ⟨e, e1⟩
  · rw [e, bind_ok, e1]; dsimp only; rw [rd_eq_ok.2 e2]; rfl
  · rw [e, bind_ok, e1]; rfl

/-- Construction succeeds on arrays that hold a matrix with `nnz` stored elements; in a build with checks a wrong number of
elements is refused; the sizes are those given. -/
theorem C92_construct (chk : Bool) (o : Orient) (IB : Nat) (a : SpArrays α) (r c nnz : Nat) (m : Nat → Nat → Option α)
    (h : a.Stores o IB r c nnz m) :
    (∀ dbg, SpView.ctor dbg chk o IB a r c nnz = .ok ⟨r, c, nnz⟩) ∧
    (∀ k, k ≠ nnz → SpView.ctor true chk o IB a r c k = .error .externalLogic) ∧
    (∀ k, SpView.ctor false chk o IB a r c k = .ok ⟨r, c, k⟩) := by
  obtain ⟨off, h1, h2, h3, h4, h5, h6, h7⟩ := h
  have hx := h1 _ (Nat.le_refl _)
  rw [h3] at hx
  refine ⟨?_, ?_, ?_⟩
  · intro dbg
    unfold SpView.ctor
    cases dbg
    · simp
    · simp only [if_true, rd_eq_ok.2 hx, bind_ok, check_True]
  · intro k hk
    unfold SpView.ctor
    simp only [if_true, rd_eq_ok.2 hx, bind_ok]
    rw [check_dbg_false (by omega)]; rfl
  · intro k; rfl

/-- Writing a value cell of the caller's array changes what the view shows at that element, and nothing else. -/
theorem C92_view_follows_values (chk : Bool) (o : Orient) (IB : Nat) (zero : α) (v : SpView) (a : SpArrays α) (nnz : Nat) (m : Nat → Nat → Option α)
    (h : a.Stores o IB v.size1 v.size2 nnz m) (i j : Nat) (hi : i < v.size1) (hj : j < v.size2) (n : Nat)
    (hn : SpView.slot chk o IB a i j = .ok (some n)) (y : α) :
    v.get chk o IB zero { a with value := a.value.set n y } i j = .ok y ∧
    ∀ i' j', i' < v.size1 → j' < v.size2 → (i', j') ≠ (i, j) →
      v.get chk o IB zero { a with value := a.value.set n y } i' j' = v.get chk o IB zero a i' j' := by
  have hs : ∀ i j, SpView.slot chk o IB { a with value := a.value.set n y } i j = SpView.slot chk o IB a i j := fun _ _ => rfl
  have hval : n < a.value.length := by
    rcases h.slot chk hi hj with ⟨n', x, e, e1, e2⟩ | ⟨e, e1⟩
    · rw [hn] at e; cases e
      exact (List.getElem?_eq_some_iff.1 e2).1
    · rw [hn] at e; cases e
  refine ⟨?_, ?_⟩
  · unfold SpView.get
    rw [hs, hn, bind_ok]; dsimp only
    rw [rd_eq_ok]; simp [hval]
  · intro i' j' hi' hj' hne
    have hd : ∀ n', SpView.slot chk o IB a i' j' = .ok (some n') → n' ≠ n := by
      intro n' e' he
      subst he
      apply hne
      obtain ⟨off, h1, h2, h3, h4, h5, h6, h7⟩ := h
      -- both searches stop on the same cell, which lies in both lines and shows both minor indices
      have key : ∀ i j, i < v.size1 → j < v.size2 → SpView.slot chk o IB a i j = .ok (some n') →
          off (o.indexM i j) ≤ n' ∧ n' < off (o.indexM i j + 1) ∧ a.index2[n']? = some (o.indexm i j + IB) := by
        intro i j hi hj e
        have hM := CMat.major_lt o hi hj
        have hle := SpArrays.Stores.mono (a := a) (m := m) (IB := IB) h2 h3 (o.indexM i j + 1) hM
        have hbe := h2 _ hM
        have hsort : SortedOn a.index2 (off (o.indexM i j)) (off (o.indexM i j + 1)) := by
          intro p q x y hp hpq hq hx hy
          rcases Nat.lt_or_ge p q with g | g
          · exact Nat.le_of_lt (h6 _ p q x y hM hp g hq hx hy)
          · have e : p = q := by omega
            subst e; rw [hx] at hy; cases hy; exact Nat.le_refl _
        obtain ⟨it, e2, s1, s2, s3, s4⟩ := stdLowerBound_spec a.index2 (o.indexm i j + IB) (off (o.indexM i j)) (off (o.indexM i j + 1))
          (by omega) hsort (off (o.indexM i j + 1) - off (o.indexM i j)) (off (o.indexM i j)) (off (o.indexM i j + 1) - off (o.indexM i j))
          (Nat.le_refl _) (Nat.le_refl _) (by omega) (fun p x a b => by omega) (fun p x a b => by omega)
        unfold SpView.slot at e
        have z1 : SpView.zeroBased IB (off (o.indexM i j) + IB) = .ok (off (o.indexM i j)) := by
          unfold SpView.zeroBased; rw [if_neg (by omega), Nat.add_sub_cancel]
        have z2 : SpView.zeroBased IB (off (o.indexM i j + 1) + IB) = .ok (off (o.indexM i j + 1)) := by
          unfold SpView.zeroBased; rw [if_neg (by omega), Nat.add_sub_cancel]
        have z3 : SpView.findIndexInRow IB a.index2 (off (o.indexM i j)) (off (o.indexM i j + 1)) (o.indexm i j) = .ok it := by
          unfold SpView.findIndexInRow
          rw [if_neg (by omega)]; exact e2
        simp only [rd_eq_ok.2 (h1 _ (Nat.le_of_lt hM)), rd_eq_ok.2 (h1 _ hM), bind_ok, z1, z2, z3] at e
        by_cases hend : it = off (o.indexM i j + 1)
        · rw [if_pos hend] at e; cases e
        · rw [if_neg hend] at e
          have hlt : it < a.index2.length := by omega
          rw [rd_ok hlt, bind_ok] at e
          by_cases hz : a.index2[it] = o.indexm i j + IB
          · rw [if_pos hz] at e; cases e
            exact ⟨s1, by omega, by rw [← hz]; simp [hlt]⟩
          · rw [if_neg hz] at e; cases e
      obtain ⟨a1, a2, a3⟩ := key i j hi hj hn
      obtain ⟨b1, b2, b3⟩ := key i' j' hi' hj' e'
      have hmono : ∀ p q, p ≤ q → q ≤ o.sizeM v.size1 v.size2 → off p ≤ off q := by
        intro p q hpq
        obtain ⟨d, hd⟩ := Nat.exists_eq_add_of_le hpq
        subst hd
        induction d with
        | zero => intro _; exact Nat.le_refl _
        | succ d ih =>
          intro hq
          have := ih (by omega) (by omega)
          have := h2 (p + d) (by omega)
          rw [← Nat.add_assoc]; omega
      have hM := CMat.major_lt o hi hj
      have hM' := CMat.major_lt o hi' hj'
      have eM : o.indexM i' j' = o.indexM i j := by
        rcases Nat.lt_trichotomy (o.indexM i' j') (o.indexM i j) with g | g | g
        · have := hmono (o.indexM i' j' + 1) (o.indexM i j) g (Nat.le_of_lt hM); omega
        · exact g
        · have := hmono (o.indexM i j + 1) (o.indexM i' j') g (Nat.le_of_lt hM'); omega
      have em : o.indexm i' j' = o.indexm i j := by
        rw [a3] at b3
        have : o.indexm i j + IB = o.indexm i' j' + IB := Option.some.inj b3
        omega
      cases o <;> simp only [Orient.indexM, Orient.indexm] at eM em <;> rw [eM, em]
    unfold SpView.get
    rw [hs]
    rcases h.slot chk hi' hj' with ⟨n', x, e, e1, e2⟩ | ⟨e, e1⟩
    · rw [e, bind_ok, bind_ok]; dsimp only
      have hne' := hd n' e
      rw [rd_eq_ok.2 e2, rd_eq_ok, List.getElem?_set_ne (Ne.symm hne'), e2]
    · rw [e]; rfl

/-- The arrays of a compressed_matrix as the caller obtains them from index1_data (), index2_data (), value_data ()
(matrix_sparse.hpp:2912-2944). -/
def CMat.arrays (v : CMat α) : SpArrays α := ⟨v.idx1, v.idx2, v.val⟩

/-- A view made over the arrays of a compressed_matrix, after any legal history that ends with complete_index1_data (), shows that
matrix: the constructor accepts nnz (), and every element read agrees with the matrix's own `operator ()`. -/
theorem C92_view_of_compressed_matrix (dbg chk : Bool) (o : Orient) (IB : Nat) (zero : α) (junk : CMat.Junk α) (r c nz : Nat)
    (ops : List (CMOp α × CMat.Junk α)) (jc : CMat.Junk α)
    (hl : cmlegalRun o zero ⟨r, c, fun _ => none, 0⟩ ((ops ++ [(CMOp.complete, jc)]).map Prod.fst)) :
    ∃ v0 v w, CMat.ctor dbg o IB junk r c nz = .ok v0 ∧ CMat.run dbg o IB zero v0 (ops ++ [(CMOp.complete, jc)]) = .ok v ∧
      SpView.ctor dbg chk o IB v.arrays v.size1 v.size2 v.filled2 = .ok w ∧ w.size1 = v.size1 ∧ w.size2 = v.size2 ∧
      ∀ i j, i < v.size1 → j < v.size2 → w.get chk o IB zero v.arrays i j = v.get dbg o IB zero i j ∧
        w.get chk o IB zero v.arrays i j = .ok (((cmrun o zero ⟨r, c, fun _ => none, 0⟩ ((ops ++ [(CMOp.complete, jc)]).map Prod.fst)).val (i, j)).getD zero) := by
  obtain ⟨v0, v, e0, e, g1, g2, g3, _, g5, off, k1, k2, k3, k4, k5, k6, k7, k8, k9, k10, k11, k12, k13⟩ :=
    C24_compressed_matrix dbg o IB zero junk r c nz _ hl
  have hop : ∀ (ops : List (CMOp α)) (s : CMatS α), (cmrun o zero s (ops ++ [.complete])).opened =
      o.sizeM (cmrun o zero s (ops ++ [.complete])).rows (cmrun o zero s (ops ++ [.complete])).cols := by
    intro ops
    induction ops with
    | nil => intro s; rfl
    | cons op ops ih => intro s; exact ih _
  have hopen := hop (ops.map Prod.fst) ⟨r, c, fun _ => none, 0⟩
  have emap : (ops ++ [(CMOp.complete, jc)]).map Prod.fst = ops.map Prod.fst ++ [CMOp.complete] := by simp
  rw [← emap] at hopen
  generalize cmrun o zero ⟨r, c, fun _ => none, 0⟩ ((ops ++ [(CMOp.complete, jc)]).map Prod.fst) = s at *
  rw [hopen] at k2 k10 k11 k12 k13
  have hst : v.arrays.Stores o IB v.size1 v.size2 v.filled2 (fun i j => s.val (i, j)) := by
    rw [g1, g2]
    refine ⟨off, k10, fun k hk => k3 _ _ (Nat.le_succ _), k2, ?_, ?_, ?_, ?_⟩
    · show v.filled2 ≤ v.idx2.length; omega
    · show v.filled2 ≤ v.val.length; omega
    · intro k n n' x x' hk a b c d e; exact k12 k n n' x x' hk a b c d e
    · intro i j x hi hj
      constructor
      · intro hx
        obtain ⟨_, n, p1, p2, p3, p4⟩ := k13 i j x hx
        exact ⟨n, p1, p2, p3, p4⟩
      · rintro ⟨n, p1, p2, p3, p4⟩
        obtain ⟨m, x', q1, q2, q3⟩ := k11 _ n (CMat.major_lt o hi hj) p1 p2
        replace p3 : v.idx2[n]? = some (o.indexm i j + IB) := p3
        replace p4 : v.val[n]? = some x := p4
        rw [q1] at p3; rw [q2] at p4
        have em : m = o.indexm i j := by have := Option.some.inj p3; omega
        cases p4
        subst em
        have : (o.indexM (o.indexM i j) (o.indexm i j), o.indexm (o.indexM i j) (o.indexm i j)) = (i, j) := by cases o <;> rfl
        rw [this] at q3; exact q3
  refine ⟨v0, v, ⟨v.size1, v.size2, v.filled2⟩, e0, e, (C92_construct chk o IB _ _ _ _ _ hst).1 dbg, rfl, rfl, ?_⟩
  intro i j hi hj
  have hr := C92_view_reads chk o IB zero ⟨v.size1, v.size2, v.filled2⟩ v.arrays v.filled2 _ hst i j hi hj
  exact ⟨by rw [hr, g3 i j (by omega) (by omega)], hr⟩

/-- Without complete_index1_data () the arrays of a compressed_matrix are not complete compressed storage: after one insertion in
the first row of a 2 × 2 matrix, reading the second row through a view runs outside the arrays. -/
theorem C92_incomplete_matrix_refuted :
    ∃ v0 v w, CMat.ctor false .row 0 cmJunk 2 2 0 = .ok v0 ∧ CMat.run false .row 0 0 v0 [(.insert 0 0 5, cmJunk)] = .ok v ∧
      SpView.ctor false false .row 0 v.arrays 2 2 1 = .ok w ∧
      v.get false .row 0 0 1 0 = .ok 0 ∧ w.get false .row 0 0 v.arrays 1 0 = .error .ub := by
  refine ⟨⟨2, 2, 2, 1, 0, [0, 101, 102], [100, 101], [-3, -2]⟩, ⟨2, 2, 2, 2, 1, [0, 1, 102], [0, 101], [5, -2]⟩, ⟨2, 2, 1⟩, ?_⟩
  decide

/-- A valid view does not check the indices it is given, even in a build with checks: a column index outside the matrix reads as
zero, and a row index outside the matrix runs outside a plain index array. -/
theorem C92_indices_unchecked_refuted :
    ∃ (a : SpArrays Int) (v : SpView), a.Stores .row 1 v.size1 v.size2 2 (fun i j => if i = 0 ∧ j = 1 then some 7 else if i = 1 ∧ j = 0 then some 8 else none) ∧
      SpView.ctor true false .row 1 a v.size1 v.size2 2 = .ok v ∧
      v.get false .row 1 0 a 0 5 = .ok 0 ∧ v.get false .row 1 0 a 2 0 = .error .ub := by
  refine ⟨⟨[1, 2, 3], [2, 1], [7, 8]⟩, ⟨2, 2, 2⟩, ⟨fun k => k, ?_, ?_, rfl, by decide, by decide, ?_, ?_⟩, by decide, by decide, by decide⟩
  · intro k hk
    replace hk : k ≤ 2 := hk
    match k, hk with
    | 0, _ => rfl
    | 1, _ => rfl
    | 2, _ => rfl
  · intro k _; exact Nat.le_succ k
  · intro k n n' x x' _ a b c
    replace a : k ≤ n := a
    replace c : n' < k + 1 := c
    omega
  · intro i j x hi hj
    replace hi : i < 2 := hi
    replace hj : j < 2 := hj
    constructor
    · intro h
      refine ⟨i, Nat.le_refl _, Nat.lt_succ_self _, ?_⟩
      match i, hi, j, hj, h with
      | 0, _, 1, _, h => cases h; decide
      | 1, _, 0, _, h => cases h; decide
      | 0, _, 0, _, h => simp at h
      | 1, _, 1, _, h => simp at h
    · rintro ⟨n, h1, h2, h3, h4⟩
      replace h1 : i ≤ n := h1
      replace h2 : n < i + 1 := h2
      have : n = i := by omega
      subst this
      match n, hi, j, hj, h3, h4 with
      | 0, _, 1, _, _, h => simpa using h
      | 1, _, 0, _, _, h => simpa using h
      | 0, _, 0, _, h, _ => simp [Orient.indexm] at h
      | 1, _, 1, _, h, _ => simp [Orient.indexm] at h

/-- The history of `C24_demo` ends with complete_index1_data () and meets the hypotheses of `C92_view_of_compressed_matrix`. -/
example : (do let v0 ← CMat.ctor true .row 1 cmJunk 3 3 0
              let v ← CMat.run true .row 1 0 v0 C24_demo
              let w ← SpView.ctor true true .row 1 v.arrays v.size1 v.size2 v.filled2
              let x ← w.get true .row 1 0 v.arrays 1 1
              let y ← w.get true .row 1 0 v.arrays 2 2
              .ok (x, y) : M (Int × Int)) = .ok (11, 0) := by decide

end Ublas
