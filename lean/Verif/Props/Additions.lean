import Verif.Props.Blas
import Verif.Props.AssignOps
import Verif.Props.ElementProxy
import Verif.Props.Machine64
import Verif.Lemmas.Layout
import Verif.Lemmas.Packed
/-! # C04, C43, C100, C109, C130: further statements about operations whose main properties are elsewhere -/
namespace Ublas
open Finset Axpy VAssign Blas

/-! ## C04: `matrix (size1, size2, init)` -/

/-- **C04** `matrix (size1, size2, init)`: the storage has one place for every element, and every element reads as `init`. -/
theorem C04_filled {α : Type} (dbg : Bool) (o : Orient) (s1 s2 : Nat) (init : α) :
    (Dense.filled o s1 s2 init).size1 = s1 ∧ (Dense.filled o s1 s2 init).size2 = s2 ∧ (Dense.filled o s1 s2 init).data.length = s1 * s2 ∧
      ∀ i j, i < s1 → j < s2 → (Dense.filled o s1 s2 init).get dbg o i j = .ok init := by
  refine ⟨rfl, rfl, by simp [Dense.filled, Orient.storageSize], fun i j hi hj => ?_⟩
  have hk := elementRaw_lt o hi hj
  have hl : o.elementRaw i s1 j s2 < (List.replicate (o.storageSize s1 s2) init).length := by simpa [Orient.storageSize] using hk
  simp only [Dense.filled, Dense.get, element_ok dbg o hi hj, bind_ok, rd_ok hl, List.getElem_replicate]

example : (Dense.filled .col 2 3 (7 : Int)).get true .col 1 2 = .ok 7 := (C04_filled true .col 2 3 7).2.2.2 1 2 (by decide) (by decide)

/-! ## C43: what `noalias (v) = t * v` does on a compressed vector -/

section scaled
open SparseSpec
variable {R : Type} [CommRing R] [DecidableEq R]

/-- **C43**, what `noalias (v) = t * v` does on a compressed vector with any contents and for every `t`: the result has the size of `v` and every element of it reads as zero, since `v` is
cleared before the expression is evaluated. -/
theorem C43_compressed_scaled (dbg : Bool) (mode : ProdFn.Mode) (IB : Nat) (junk : CVec.Junk R) (t : R) {v : CVec R} {s : Vec R} (h : CVec.Inv IB v s) :
    ∃ v', noaliasCompressed dbg mode IB junk (VExpr.scaledCompressed dbg IB s.size t) v = .ok v' ∧ v'.size = s.size ∧ ∀ i, i < s.size → v'.get dbg IB 0 i = .ok 0 := by
  have hsup := compressed_supports (R := R) dbg IB junk
  obtain ⟨E, r⟩ := h
  have hv : CVecRep IB v s.size (fun i => (s.val i).getD 0) (E.map (·.1)) := ⟨E, s, r, rfl, rfl, rfl⟩
  obtain ⟨hL, _, hi, _⟩ := hsup
  obtain ⟨u, S1, eu, hu, hS⟩ := hi.clear _ _ _ _ hv
  obtain ⟨Eu, su, ru, zu, wu, _⟩ := hu
  have hf : u.filled = 0 := by
    simp only [VT.compressed, CVec.clear] at eu
    cases hc : CVec.invariants dbg IB { v with filled := 0 } with
    | error f => rw [hc] at eu; cases eu
    | ok _ => rw [hc] at eu; cases eu; rfl
  have hz : (VT.compressed dbg IB junk : VT (CVec R) R).size v = s.size := hL.size _ _ _ _ hv
  refine ⟨u, ?_, by rw [ru.size, zu], fun i hi' => ?_⟩
  · have hsp : sparse dbg (VT.compressed dbg IB junk) (VExpr.scaledCompressed dbg IB s.size t) v = .ok u := by
      simp only [sparse, hz, show (VExpr.scaledCompressed dbg IB s.size t).size = s.size from rfl, check_True, bind_ok, eu]
      simp [VExpr.scaledCompressed, hf, insertLoop]
    unfold noaliasCompressed VAssign.assign
    rw [show (VExpr.scaledCompressed dbg IB s.size t).cat = .sparse from rfl]
    exact hsp
  · rw [ru.get dbg 0 i (by omega)]
    exact congrArg Except.ok (congrFun wu i).symm

example : ∃ v', noaliasCompressed true .indexing 0 (id, fun _ => 0) (VExpr.scaledCompressed true 0 2 2) (⟨2, 1, 1, [1], [7]⟩ : CVec Int) = .ok v' ∧ v'.get true 0 0 1 = .ok 0 := ⟨⟨2, 1, 0, [1], [7]⟩, by rfl, by rfl⟩

end scaled

/-! ## C100: comparing a proxy with a value -/

/-- **C100** `c (k) == d` through a proxy compares the value the container holds at `k` (zero if it stores none) with `d`; it changes nothing. -/
theorem C100_compare {σ κ π α : Type} [DecidableEq κ] [DecidableEq α] {C : ElemIface σ κ π α} {inside : κ → Prop} {R : σ → (κ → Option α) → Prop} (L : C.Laws inside R) (zero : α) {c : σ} {s : κ → Option α} {k : κ}
    (h : R c s) (hk : inside k) (d : α) : C.eqValue zero c k d = .ok (decide ((s k).getD zero = d)) := by
  simp only [ElemIface.eqValue, L.read zero h hk, bind_ok, ElemSpec.at_]

/-! ## C109: elements of map-based matrices with 64-bit keys -/

section keys
open Machine

theorem rep_of_sorted {α : Type} {m : List (Nat × α)} (hm : m.Pairwise (fun p q => p.1 < q.1)) : ∃ f, Assoc.Rep m f := by
  classical
  refine ⟨fun k => if h : ∃ v, (k, v) ∈ m then some h.choose else none, hm, fun k v => ?_⟩
  have uniq : ∀ {x y : α}, (k, x) ∈ m → (k, y) ∈ m → x = y := by
    intro x y hx hy
    obtain ⟨a, ha, ea⟩ := List.mem_iff_getElem.1 hx
    obtain ⟨b, hb, eb⟩ := List.mem_iff_getElem.1 hy
    rcases Nat.lt_trichotomy a b with h | h | h
    · have := List.pairwise_iff_getElem.1 hm a b ha hb h
      rw [ea, eb] at this; exact absurd this (Nat.lt_irrefl _)
    · subst h; rw [ea] at eb; exact (Prod.mk.inj eb).2
    · have := List.pairwise_iff_getElem.1 hm b a hb ha h
      rw [ea, eb] at this; exact absurd this (Nat.lt_irrefl _)
  by_cases h : ∃ v, (k, v) ∈ m
  · simp only [dif_pos h, Option.some.injEq]
    exact ⟨fun e => e ▸ h.choose_spec, fun e => uniq h.choose_spec e⟩
  · simp only [dif_neg h]
    exact ⟨fun e => by simp at e, fun e => absurd ⟨v, e⟩ h⟩

/-- **C109** (elements of a mapped_matrix, debug builds), for any 64-bit dimensions, also those whose product exceeds 2^64: after `m (i, j) = t` with a representable key, element (i, j) reads
`t` and every other element reads as before (those whose key is not representable are refused before and after). -/
theorem C109_mapped_elements {α : Type} (o : Orient) (s1 s2 i j : Sz) (hi : i < s1) (hj : j < s2) (hk : o.elementRaw i.toNat s1.toNat j.toNat s2.toNat < 2 ^ 64)
    {m : List (Nat × α)} (hm : m.Pairwise (fun p q => p.1 < q.1)) (zero t : α) :
    ∃ m', mapPut true o s1 s2 m i j zero t = .ok m' ∧ m'.Pairwise (fun p q => p.1 < q.1) ∧ mapGet true o s1 s2 m' zero i j = .ok t ∧
      ∀ i' j', i' < s1 → j' < s2 → (i', j') ≠ (i, j) → mapGet true o s1 s2 m' zero i' j' = mapGet true o s1 s2 m zero i' j' := by
  obtain ⟨e, e1, e2⟩ := (C109_key_checked o i s1 j s2 hi hj).1 hk
  obtain ⟨f, hr⟩ := rep_of_sorted hm
  obtain ⟨m1, g1, r1⟩ := stdMap_laws.insert true m f e.toNat zero hr
  obtain ⟨m2, g2, r2⟩ := stdMap_laws.setAt m1 _ e.toNat ((f e.toNat).getD zero) t r1 (by simp [Assoc.upd])
  refine ⟨m2, by simp only [mapPut, e1, g1, g2, bind_ok], r2.1, ?_, fun i' j' hi' hj' hne => ?_⟩
  · simp only [mapGet, e1, bind_ok, stdMap_laws.find m2 _ e.toNat r2]
    simp [Assoc.upd]
  · by_cases hk' : o.elementRaw i'.toNat s1.toNat j'.toNat s2.toNat < 2 ^ 64
    · obtain ⟨e', f1, f2⟩ := (C109_key_checked o i' s1 j' s2 hi' hj').1 hk'
      have hd : e'.toNat ≠ e.toNat := by
        intro h
        have : e' = e := BitVec.eq_of_toNat_eq h
        subst this
        obtain ⟨a, b⟩ := C109_key_injective o i s1 j s2 i' j' e' hi hj hi' hj' e1 f1
        exact hne (by rw [a, b])
      simp only [mapGet, f1, bind_ok, stdMap_laws.find m2 _ e'.toNat r2, stdMap_laws.find m _ e'.toNat hr]
      simp [Assoc.upd, hd]
    · simp only [mapGet, (C109_key_checked o i' s1 j' s2 hi' hj').2 hk', bind_error]

/-- In a `mapped_matrix` of 2^33 × 2^33. -/
example : ∃ m' : List (Nat × Int), mapPut true .row (BitVec.ofNat 64 (2 ^ 33)) (BitVec.ofNat 64 (2 ^ 33)) [(0, 1)] 5 7 0 9 = .ok m' ∧
    mapGet true .row (BitVec.ofNat 64 (2 ^ 33)) (BitVec.ofNat 64 (2 ^ 33)) m' 0 5 7 = .ok 9 := by
  obtain ⟨m', h, _, g, _⟩ := C109_mapped_elements .row (BitVec.ofNat 64 (2 ^ 33)) (BitVec.ofNat 64 (2 ^ 33)) 5 7 (by decide) (by decide) (by decide) (m := [(0, (1 : Int))]) (by simp) 0 9
  exact ⟨m', h, g⟩

end keys

/-! ## C130: the positions of packed structures -/

/-- **C130** every position of a triangular structure is of exactly one of three kinds: stored (`other`), a fixed one (`one`), or a fixed zero (`zero`). -/
theorem C130_kinds (t : Tri) (i j : Nat) :
    (Packed.other t i j = true ∧ Packed.one t i j = false ∧ Packed.zero t i j = false) ∨ (Packed.other t i j = false ∧ Packed.one t i j = true ∧ Packed.zero t i j = false) ∨
      (Packed.other t i j = false ∧ Packed.one t i j = false ∧ Packed.zero t i j = true) := by
  obtain ⟨k, u⟩ := t
  cases k <;> cases u <;> simp [Packed.other, Packed.one, Packed.zero, Packed.lother, Packed.lone, Packed.lzero] <;> omega

end Ublas
