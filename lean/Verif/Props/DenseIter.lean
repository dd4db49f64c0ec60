import Verif.Model.DenseIter
import Verif.Lemmas.Dense
import Verif.Props.Machine
/-! # C49: dense iterators -/
namespace Ublas
open DenseIter
variable {α : Type}

theorem walk_eq {β : Type} (body : Nat → M β) (g : Nat → β) (stride : Nat) (hs : 0 < stride) (n : Nat) :
    ∀ (start fuel : Nat), n ≤ fuel → (∀ k, k < n → body (start + k * stride) = .ok (g k)) →
      walk body stride fuel start (start + n * stride) = .ok ((List.range n).map g) := by
  induction n generalizing g with
  | zero => intro start fuel _ _; unfold walk; simp
  | succ n ih =>
    intro start fuel hf hb
    obtain ⟨f, rfl⟩ : ∃ f, fuel = f + 1 := ⟨fuel - 1, by omega⟩
    have hne : start ≠ start + (n + 1) * stride := by
      have : 0 < (n + 1) * stride := Nat.mul_pos (by omega) hs
      omega
    unfold walk
    rw [if_neg hne]
    have h0 := hb 0 (by omega)
    simp only [Nat.zero_mul, Nat.add_zero] at h0
    have ih' := ih (fun k => g (k + 1)) (start + stride) f (by omega) (by
      intro k hk
      have := hb (k + 1) (by omega)
      rw [← this]; congr 1; ring)
    have he : start + (n + 1) * stride = start + stride + n * stride := by ring
    simp only [h0, he, ih', bind_ok, pure_eq_ok]
    rw [List.range_succ_eq_map, List.map_cons, List.map_map]; rfl

theorem walk_empty {β : Type} (body : Nat → M β) (stride fuel it : Nat) :
    walk body stride fuel it it = .ok [] := by unfold walk; simp

theorem deref_eq (dbg : Bool) (o : Orient) (m : Dense α) (hw : m.WF) {i j : Nat}
    (hi : i < m.size1) (hj : j < m.size2) :
    ∃ v, m.get dbg o i j = .ok v ∧ deref dbg o m (o.elementRaw i m.size1 j m.size2) = .ok (i, j, v) := by
  obtain ⟨h, e⟩ := Dense.get_eq dbg o m hw hi hj
  refine ⟨_, e, ?_⟩
  simp only [deref, indexI_elementRaw o hi hj, indexJ_elementRaw o hi hj, check_true hi, check_true hj,
    bind_ok, rd_ok h, pure_eq_ok]

theorem address_ok (dbg : Bool) (o : Orient) {i si j sj : Nat} (hi : i ≤ si) (hj : j ≤ sj) :
    o.address dbg i si j sj = .ok (o.elementRaw i si j sj) := by
  simp [Orient.address, check_true hi, check_true hj]

/-- Element the specification expects at (i,j): whatever `m (i, j)` reads. -/
def elemSpec (dbg : Bool) (o : Orient) (m : Dense α) (d : α) (i j : Nat) : Nat × Nat × α :=
  (i, j, match m.get dbg o i j with | .ok v => v | .error _ => d)

/-- **C49** (traversal, iterator1 outside).  For every shape with at least one column, every orientation and
build mode, the nested iterator loop terminates and visits the elements of row 0, row 1, ... in order, each
element exactly once, reporting its true indices and value.  With no columns it visits nothing. -/
theorem C49_traverse12 (dbg : Bool) (o : Orient) (m : Dense α) (hw : m.WF) (d : α) (fuel : Nat)
    (hf : m.size1 ≤ fuel) (hf2 : m.size2 ≤ fuel) (hc : 0 < m.size2) :
    traverse12 dbg o m fuel = .ok ((List.range m.size1).map fun i =>
      (List.range m.size2).map fun j => elemSpec dbg o m d i j) := by
  unfold traverse12 find
  rw [address_ok dbg o (Nat.zero_le _) (Nat.zero_le _), address_ok dbg o (Nat.le_refl _) (Nat.zero_le _)]
  simp only [bind_ok]
  rcases Nat.eq_zero_or_pos m.size1 with h0 | hpos
  · rw [h0]; cases o <;> simp [Orient.elementRaw, walk_empty]
  have inc1pos : 0 < inc1 o m := by cases o <;> simp [inc1, hc]
  have inc2pos : 0 < inc2 o m := by cases o <;> simp [inc2, hpos]
  have hb : o.elementRaw m.size1 m.size1 0 m.size2 = o.elementRaw 0 m.size1 0 m.size2 + m.size1 * inc1 o m := by
    cases o <;> simp [Orient.elementRaw, inc1]
  rw [hb]
  apply walk_eq _ _ _ inc1pos _ _ _ hf
  intro i hi
  have hk : o.elementRaw 0 m.size1 0 m.size2 + i * inc1 o m = o.elementRaw i m.size1 0 m.size2 := by
    cases o <;> simp [Orient.elementRaw, inc1]
  rw [hk, indexI_elementRaw o hi hc, address_ok dbg o (by omega) (Nat.zero_le _),
    address_ok dbg o (by omega) (Nat.le_refl _)]
  simp only [bind_ok]
  have hb2 : o.elementRaw i m.size1 m.size2 m.size2 = o.elementRaw i m.size1 0 m.size2 + m.size2 * inc2 o m := by
    cases o <;> simp [Orient.elementRaw, inc2]
  rw [hb2]
  apply walk_eq _ _ _ inc2pos _ _ _ hf2
  intro j hj
  have hk2 : o.elementRaw i m.size1 0 m.size2 + j * inc2 o m = o.elementRaw i m.size1 j m.size2 := by
    cases o <;> simp [Orient.elementRaw, inc2]
  rw [hk2]
  obtain ⟨v, hv, hd⟩ := deref_eq dbg o m hw hi hj
  rw [hd]; simp [elemSpec, hv]

/-- **C49** (traversal, iterator2 outside): columns in order, each element exactly once. -/
theorem C49_traverse21 (dbg : Bool) (o : Orient) (m : Dense α) (hw : m.WF) (d : α) (fuel : Nat)
    (hf : m.size1 ≤ fuel) (hf2 : m.size2 ≤ fuel) (hc : 0 < m.size1) :
    traverse21 dbg o m fuel = .ok ((List.range m.size2).map fun j =>
      (List.range m.size1).map fun i => elemSpec dbg o m d i j) := by
  unfold traverse21 find
  rw [address_ok dbg o (Nat.zero_le _) (Nat.zero_le _), address_ok dbg o (Nat.zero_le _) (Nat.le_refl _)]
  simp only [bind_ok]
  rcases Nat.eq_zero_or_pos m.size2 with h0 | hpos
  · rw [h0]; cases o <;> simp [Orient.elementRaw, walk_empty]
  have inc1pos : 0 < inc1 o m := by cases o <;> simp [inc1, hpos]
  have inc2pos : 0 < inc2 o m := by cases o <;> simp [inc2, hc]
  have hb : o.elementRaw 0 m.size1 m.size2 m.size2 = o.elementRaw 0 m.size1 0 m.size2 + m.size2 * inc2 o m := by
    cases o <;> simp [Orient.elementRaw, inc2]
  rw [hb]
  apply walk_eq _ _ _ inc2pos _ _ _ hf2
  intro j hj
  have hk : o.elementRaw 0 m.size1 0 m.size2 + j * inc2 o m = o.elementRaw 0 m.size1 j m.size2 := by
    cases o <;> simp [Orient.elementRaw, inc2]
  rw [hk, indexJ_elementRaw o hc hj, address_ok dbg o (Nat.zero_le _) (by omega),
    address_ok dbg o (Nat.le_refl _) (by omega)]
  simp only [bind_ok]
  have hb2 : o.elementRaw m.size1 m.size1 j m.size2 = o.elementRaw 0 m.size1 j m.size2 + m.size1 * inc1 o m := by
    cases o <;> simp [Orient.elementRaw, inc1] <;> ring
  rw [hb2]
  apply walk_eq _ _ _ inc1pos _ _ _ hf
  intro i hi
  have hk2 : o.elementRaw 0 m.size1 j m.size2 + i * inc1 o m = o.elementRaw i m.size1 j m.size2 := by
    cases o <;> simp [Orient.elementRaw, inc1] <;> ring
  rw [hk2]
  obtain ⟨v, hv, hd⟩ := deref_eq dbg o m hw hi hj
  rw [hd]; simp [elemSpec, hv]

/-- **C49** (degenerate shapes).  With no columns, the row iteration of a row-major matrix is empty (its
begin and end coincide) and that of a column-major matrix visits size1 empty rows; either way no element is
dereferenced and nothing faults. -/
theorem C49_traverse12_no_columns (dbg : Bool) (o : Orient) (m : Dense α) (hc : m.size2 = 0) (fuel : Nat)
    (hf : m.size1 ≤ fuel) :
    ∃ rows, traverse12 dbg o m fuel = .ok rows ∧ ∀ r ∈ rows, r = [] := by
  unfold traverse12 find
  rw [address_ok dbg o (Nat.zero_le _) (Nat.zero_le _), address_ok dbg o (Nat.le_refl _) (Nat.zero_le _)]
  simp only [bind_ok]
  cases o
  · exact ⟨[], by simp [Orient.elementRaw, hc, walk_empty], by simp⟩
  · refine ⟨(List.range m.size1).map fun _ => [], ?_, by simp⟩
    have hb : Orient.col.elementRaw m.size1 m.size1 0 m.size2
        = Orient.col.elementRaw 0 m.size1 0 m.size2 + m.size1 * inc1 .col m := by
      simp [Orient.elementRaw, inc1]
    rw [hb]
    apply walk_eq _ _ _ (by simp [inc1]) _ _ _ hf
    intro i hi
    have : Orient.col.indexI (Orient.col.elementRaw 0 m.size1 0 m.size2 + i * inc1 .col m) m.size1 m.size2 ≤ m.size1 := by
      simp only [Orient.indexI]; split
      · exact Nat.le_of_lt (Nat.mod_lt _ (by omega))
      · omega
    rw [address_ok dbg _ this (Nat.zero_le _), address_ok dbg _ this (Nat.le_refl _)]
    simp [hc, walk_empty]

/-- Column analogue of `C49_iterator_arith_partial`. -/
theorem C49_iterator_arith_columns_partial (o : Orient) (si sj : Nat) (hfit : si * sj < 2 ^ 63)
    (i j j' : Nat) (hi : i < si) (hj : j < sj) (hj' : j' < sj) :
    (Machine.incrementJ o (BitVec.ofNat 64 (o.elementRaw i si j sj)) (BitVec.ofInt 64 ((j' : Int) - j))
        (BitVec.ofNat 64 si) (BitVec.ofNat 64 sj) = BitVec.ofNat 64 (o.elementRaw i si j' sj)) ∧
    (j ≤ j' → (Machine.distanceJ o (BitVec.ofNat 64 (o.elementRaw i si j' sj) - BitVec.ofNat 64 (o.elementRaw i si j sj))
        (BitVec.ofNat 64 si) (BitVec.ofNat 64 sj)).toInt = (j' : Int) - j) := by
  have key := C49_iterator_arith_partial o.transposed sj si (by rwa [Nat.mul_comm]) j j' i hj hj' hi
  have hr : ∀ x, o.transposed.elementRaw x sj i si = o.elementRaw i si x sj := by
    intro x; cases o <;> simp [Orient.transposed, Orient.elementRaw, Nat.add_comm]
  rw [hr, hr] at key
  have h1 : ∀ a b c d, Machine.incrementJ o a b c d = Machine.incrementI o.transposed a b d c := by
    intro a b c d; cases o <;> rfl
  have h2 : ∀ a c d, Machine.distanceJ o a c d = Machine.distanceI o.transposed a d c := by
    intro a c d; cases o <;> rfl
  rw [h1, h2]; exact key

example : traverse12 true .col (⟨2, 2, [1, 2, 3, 4]⟩ : Dense Int) 5 =
    .ok [[(0, 0, 1), (0, 1, 3)], [(1, 0, 2), (1, 1, 4)]] := by decide
example : traverse21 true .row (⟨2, 2, [1, 2, 3, 4]⟩ : Dense Int) 5 =
    .ok [[(0, 0, 1), (1, 0, 3)], [(0, 1, 2), (1, 1, 4)]] := by decide

end Ublas
