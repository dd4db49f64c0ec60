import Verif.Spec.Sparse
import Verif.Lemmas.MapArray
import Verif.Lemmas.Layout
import Mathlib.Data.List.Nodup
/-! # C20, C25, C27 (mapped), C28 (mapped): mapped_vector and mapped_matrix -/
namespace Ublas
open Assoc SparseSpec
variable {α σ : Type}

/-- What it means for a map class to be a correct map: `R m s` says object `m` represents the partial
function `s`. -/
structure MapLaws (I : MapImpl σ α) (R : σ → (Nat → Option α) → Prop) : Prop where
  empty : R I.empty (fun _ => none)
  find : ∀ m s k, R m s → I.find m k = .ok (s k)
  insert : ∀ dbg m s k v, R m s → ∃ m', I.insert dbg m k v = .ok (m', (s k).isNone) ∧ R m' (upd s k (some ((s k).getD v)))
  setAt : ∀ m s k w v, R m s → s k = some w → ∃ m', I.setAt m k v = .ok m' ∧ R m' (upd s k (some v))
  eraseKey : ∀ dbg m s k w, R m s → s k = some w → ∃ m', I.eraseKey dbg m k = .ok m' ∧ R m' (upd s k none)
  eraseFrom : ∀ dbg m s k, R m s → ∃ m', I.eraseFrom dbg m k = .ok m' ∧ R m' (fun j => if j < k then s j else none)
  clear : ∀ dbg m s, R m s → ∃ m', I.clear dbg m = .ok m' ∧ R m' (fun _ => none)
  reserve : ∀ dbg m s n, R m s → AtMost n s → ∃ m', I.reserve dbg m n = .ok m' ∧ R m' s
  traverse : ∀ m s, R m s → ∃ E, I.traverse m = .ok E ∧ Lists E s

theorem le_sum_of_mem' {j : Nat} : ∀ {l : List Nat}, j ∈ l → j ≤ l.sum
  | [], h => by simp at h
  | a :: l, h => by
    rcases List.mem_cons.1 h with e | e
    · subst e; simp
    · have := le_sum_of_mem' e; simp; omega

theorem mapArray_laws (zero : α) : MapLaws (mapArrayImpl zero) MapArr.Repr where
  empty := MapArr.repr_empty
  find m s k h := h.lookup k
  insert dbg m s k v h := by
    obtain ⟨m', n, b, h1, _, h3, h4, _⟩ := h.insert dbg zero k v
    refine ⟨m', ?_, h4⟩
    have : b = (s k).isNone := by
      cases hs : s k <;> cases b <;> simp_all
    simp [mapArrayImpl, h1, this]
  setAt m s k w v h hw := by
    rcases h.find k with ⟨n, x, h1, h2, h3, h4⟩ | ⟨h1, h2⟩
    · obtain ⟨m', g1, g2, _⟩ := h.assign h2 h3 v
      exact ⟨m', by simp [mapArrayImpl, h1, g1], g2⟩
    · rw [h2] at hw; simp at hw
  eraseKey dbg m s k w h hw := by
    rcases h.find k with ⟨n, x, h1, h2, h3, h4⟩ | ⟨h1, h2⟩
    · obtain ⟨m', g1, g2⟩ := h.erase dbg zero h2 h3
      exact ⟨m', by simp [mapArrayImpl, h1, g1], g2⟩
    · rw [h2] at hw; simp at hw
  eraseFrom dbg m s k h := by
    -- choose an upper key bound above everything stored and above k
    have hb : ∃ b, k ≤ b ∧ ∀ j, s j ≠ none → j < b := by
      refine ⟨k + 1 + (m.ents.map (·.1)).sum, by omega, ?_⟩
      intro j hj
      obtain ⟨w, hw⟩ := Option.ne_none_iff_exists'.1 hj
      have hm := (h.2.2.2 j w).1 hw
      have : j ≤ (m.ents.map (·.1)).sum := le_sum_of_mem' (List.mem_map.2 ⟨_, hm, rfl⟩)
      omega
    obtain ⟨b, hkb, hb⟩ := hb
    obtain ⟨i, j, m', g1, g2, g3, g4⟩ := h.eraseBetween dbg zero k b hkb
    have hj : j = m.size := by
      obtain ⟨n, n1, n2, n3⟩ := h.lb b
      rw [g2] at n1; cases n1
      refine Nat.le_antisymm n2 (Nat.le_of_not_lt fun hlt => ?_)
      have hl : j < m.ents.length := by rw [h.len]; exact hlt
      have x1 := (split_pieces n3).2.2 m.ents[j] (List.mem_iff_getElem.2 ⟨0, by simp; omega, by simp⟩)
      have x2 := hb m.ents[j].1 (by rw [(h.2.2.2 m.ents[j].1 m.ents[j].2).2 (List.getElem_mem hl)]; simp)
      omega
    subst hj
    refine ⟨m', by simp [mapArrayImpl, g1, g3], ?_⟩
    have : (fun j => if k ≤ j ∧ j < b then none else s j) = fun j => if j < k then s j else none := by
      funext j
      by_cases h1 : j < k
      · rw [if_neg (by omega), if_pos h1]
      · rw [if_neg h1]
        by_cases h2 : j < b
        · rw [if_pos ⟨by omega, h2⟩]
        · rw [if_neg (by omega)]
          cases hs : s j with
          | none => rfl
          | some w => exact absurd (hb j (by simp [hs])) h2
    rw [← this]; exact g4
  clear dbg m s h := h.clear dbg zero
  reserve dbg m s n h hn := by
    obtain ⟨m', g1, g2, _⟩ := h.reserve dbg zero n (by rw [← h.len]; exact h.2.2.length_le hn)
    exact ⟨m', g1, g2⟩
  traverse m s h := ⟨m.ents, h.traverse, h.2.2.1, fun k v => (h.2.2.2 k v).symm⟩

theorem lookup_of_rep {E : List (Nat × α)} {s} (h : Rep E s) (k : Nat) : E.lookup k = s k := by
  cases hs : s k with
  | some v =>
    have hm := (h.2 k v).1 hs
    have hd : ∀ w, (k, w) ∈ E → w = v := by
      intro w hw; have := (h.2 k w).2 hw; rw [hs] at this; exact (Option.some.inj this).symm
    clear h hs
    induction E with
    | nil => simp at hm
    | cons p E ih =>
      obtain ⟨a, b⟩ := p
      by_cases e : k = a
      · subst e
        have := hd b (by simp)
        simp [List.lookup, this]
      · have hne : (k == a) = false := by simpa using e
        simp only [List.lookup, hne]
        refine ih ?_ (fun w hw => hd w (by simp [hw]))
        simpa [e] using hm
  | none =>
    have : ∀ w, (k, w) ∉ E := fun w hw => by have := (h.2 k w).2 hw; rw [hs] at this; simp at this
    clear h hs
    induction E with
    | nil => rfl
    | cons p E ih =>
      obtain ⟨a, b⟩ := p
      have e : (k == a) = false := by
        have := this b; simp only [List.mem_cons, Prod.mk.injEq, not_or] at this
        simp; intro h; exact this.1 ⟨h, trivial⟩
      simp only [List.lookup, e]
      exact ih fun w hw => this w (by simp [hw])

theorem sortedInsert_rep {E : List (Nat × α)} {s} (h : Rep E s) (k : Nat) (v : α) :
    Rep (sortedInsert k v E) (upd s k (some ((s k).getD v))) := by
  induction E generalizing s with
  | nil =>
    have : s = fun _ => none := by
      funext j; cases hs : s j with
      | none => rfl
      | some w => simpa using (h.2 j w).1 hs
    subst this
    refine ⟨by simp [sortedInsert], ?_⟩
    intro j w; simp only [upd, sortedInsert, Option.getD_none]; split
    · rename_i e; subst e; simp [eq_comm]
    · rename_i e; simp [e]
  | cons p E ih =>
    obtain ⟨a, b⟩ := p
    have hp := List.pairwise_cons.1 h.1
    simp only [sortedInsert]
    by_cases h1 : k < a
    · rw [if_pos h1]
      have hk : s k = none := by
        cases hs : s k with
        | none => rfl
        | some w =>
          have := (h.2 k w).1 hs
          rcases List.mem_cons.1 this with e | e
          · simp at e; omega
          · have := hp.1 _ e; simp at this; omega
      refine ⟨List.pairwise_cons.2 ⟨?_, h.1⟩, ?_⟩
      · intro q hq; rcases List.mem_cons.1 hq with rfl | hq
        · exact h1
        · have := hp.1 _ hq; simp only at this ⊢; omega
      · intro j w
        simp only [upd, List.mem_cons (a := (j, w)) (b := (k, v)), Prod.mk.injEq]
        by_cases e : j = k
        · subst e
          have : (j, w) ∉ (a, b) :: E := fun hm => by have := (h.2 j w).2 hm; rw [hk] at this; simp at this
          simp [this, hk, eq_comm]
        · simp only [if_neg e, e, false_and, false_or]; exact h.2 j w
    · rw [if_neg h1]
      by_cases h2 : k = a
      · subst h2
        rw [if_pos rfl]
        have hk : s k = some b := (h.2 k b).2 (by simp)
        have : upd s k (some ((s k).getD v)) = s := by
          funext j; simp only [upd]; split
          · rename_i e; subst e; simp [hk]
          · rfl
        rw [this]; exact h
      · rw [if_neg h2]
        have hs' : Rep E (upd s a none) := by
          have := h.erase (n := 0) (k := a) (v0 := b) (by simp)
          simpa using this
        have hi := ih hs'
        have hka : upd s a none k = s k := by simp [upd, h2]
        rw [hka] at hi
        have hsa : s a = some b := (h.2 a b).2 (by simp)
        refine ⟨List.pairwise_cons.2 ⟨?_, hi.1⟩, ?_⟩
        · intro q hq
          have := (hi.2 q.1 q.2).2 hq
          simp only [upd] at this
          split at this
          · rename_i e; simp only; omega
          · split at this
            · simp at this
            · rename_i e1 e2
              have hm := (h.2 q.1 q.2).1 this
              rcases List.mem_cons.1 hm with e | e
              · exact absurd (congrArg Prod.fst e) e2
              · exact hp.1 _ e
        · intro j w
          rw [List.mem_cons, ← hi.2 j w, Prod.mk.injEq]
          simp only [upd]
          by_cases e1 : j = k
          · have : j ≠ a := by omega
            simp [e1, show k ≠ a from h2]
          · by_cases e2 : j = a
            · subst e2; simp [e1, hsa, eq_comm]
            · simp [e1, e2]

theorem stdMap_laws : MapLaws (stdMapImpl (α := α)) Rep where
  empty := rep_nil
  find m s k h := by simp [stdMapImpl, lookup_of_rep h]
  insert dbg m s k v h := ⟨_, by simp [stdMapImpl, lookup_of_rep h], sortedInsert_rep h k v⟩
  setAt m s k w v h hw := by
    refine ⟨_, rfl, ?_, ?_⟩
    · rw [List.pairwise_map]
      exact h.1.imp (fun {a b} hab => by
        have : ∀ p : Nat × α, (if p.1 = k then (p.1, v) else p).1 = p.1 := by intro p; split <;> rfl
        rw [this, this]; exact hab)
    · intro j x
      simp only [upd, List.mem_map]
      constructor
      · intro hj; split at hj
        · rename_i e; subst e; refine ⟨(j, w), (h.2 j w).1 hw, by simp; simpa using hj⟩
        · rename_i e; exact ⟨(j, x), (h.2 j x).1 hj, by simp [e]⟩
      · rintro ⟨p, hp, he⟩
        split at he
        · rename_i e; simp only [Prod.mk.injEq] at he; rw [← he.1, if_pos e, he.2]
        · rename_i e; subst he; rw [if_neg e]; exact (h.2 j x).2 hp
  eraseKey dbg m s k w h hw := by
    refine ⟨_, rfl, h.1.filter _, ?_⟩
    intro j x; simp only [upd, List.mem_filter, decide_eq_true_eq]
    split
    · rename_i e; simp [e]
    · rename_i e; simp [e, h.2 j x]
  eraseFrom dbg m s k h := by
    refine ⟨_, rfl, h.1.filter _, ?_⟩
    intro j x
    show (if j < k then s j else none) = some x ↔ _
    simp only [List.mem_filter, decide_eq_true_eq]
    split
    · rename_i e; simp [e, h.2 j x]
    · rename_i e; simp [e]
  clear dbg m s h := ⟨_, rfl, rep_nil⟩
  reserve dbg m s n h hn := ⟨_, rfl, h⟩
  traverse m s h := ⟨_, rfl, h.1, fun k v => (h.2 k v).symm⟩

/-! ## mapped_vector -/

/-- What a user observes of a mapped_vector. -/
def MappedVec.Observes (I : MapImpl σ α) (dbg : Bool) (zero : α) (v : MappedVec σ) (s : Vec α) : Prop :=
  v.size = s.size ∧
  (∀ i, i < s.size → v.get I dbg zero i = .ok ((s.val i).getD zero)) ∧
  (∀ i, v.findElement I i = .ok (s.val i)) ∧
  (∀ i, s.size ≤ i → s.val i = none) ∧
  (∃ E, v.traverse I = .ok E ∧ Lists E s.val)

namespace MappedVec
variable {I : MapImpl σ α} {R : σ → (Nat → Option α) → Prop}

def Inv (R : σ → (Nat → Option α) → Prop) (v : MappedVec σ) (s : Vec α) : Prop :=
  v.size = s.size ∧ R v.map s.val ∧ ∀ i, s.size ≤ i → s.val i = none

theorem step_inv (L : MapLaws I R) (dbg : Bool) (zero : α) (v : MappedVec σ) (s : Vec α) (op : SVOp α)
    (h : Inv R v s) (hl : vlegal s op) : ∃ v', MappedVec.step I dbg zero v op = .ok v' ∧ Inv R v' (vstep zero s op) := by
  obtain ⟨h1, h2, h3⟩ := h
  cases op with
  | modify i f =>
    have hi : i < v.size := by rw [h1]; exact hl
    obtain ⟨m1, g1, g2⟩ := L.insert dbg v.map s.val i zero h2
    obtain ⟨m2, g3, g4⟩ := L.setAt m1 _ i ((s.val i).getD zero) (f ((s.val i).getD zero)) g2 (by simp [upd])
    refine ⟨⟨v.size, m2⟩, ?_, h1, ?_, ?_⟩
    · simp [MappedVec.step, MappedVec.modify, check_true hi, g1, L.find m1 _ i g2, upd, g3]
    · have : upd (upd s.val i (some ((s.val i).getD zero))) i (some (f ((s.val i).getD zero))) = (vstep zero s (.modify i f)).val := by
        funext j; simp only [upd, vstep]; split <;> rfl
      rw [← this]; exact g4
    · intro j hj; simp only [vstep] at hj ⊢
      have hl' : i < s.size := hl
      rw [if_neg (by omega)]; exact h3 j hj
  | insert i t =>
    obtain ⟨m1, g1, g2⟩ := L.insert dbg v.map s.val i t h2
    obtain ⟨hl1, hl2⟩ := hl
    refine ⟨⟨v.size, m1⟩, by simp [MappedVec.step, MappedVec.insertElement, g1, hl2], h1, ?_, ?_⟩
    · have : (vstep zero s (.insert i t)).val = upd s.val i (some t) := rfl
      rw [this]; simpa [hl2] using g2
    intro j hj; simp only [vstep] at hj ⊢
    rw [if_neg (by omega)]; exact h3 j hj
  | erase i =>
    have hrange : ∀ j, (vstep zero s (.erase i)).size ≤ j → (vstep zero s (.erase i)).val j = none := by
      intro j hj; simp only [vstep] at hj ⊢; split
      · rfl
      · exact h3 j hj
    cases hs : s.val i with
    | none =>
      refine ⟨v, by simp [MappedVec.step, MappedVec.eraseElement, L.find _ _ i h2, hs], h1, ?_, hrange⟩
      have : (vstep zero s (.erase i)).val = s.val := by
        funext j; simp only [vstep]; split
        · rename_i e; subst e; exact hs.symm
        · rfl
      rw [this]; exact h2
    | some w =>
      obtain ⟨m1, g1, g2⟩ := L.eraseKey dbg v.map s.val i w h2 hs
      exact ⟨⟨v.size, m1⟩, by simp [MappedVec.step, MappedVec.eraseElement, L.find _ _ i h2, hs, g1], h1, g2, hrange⟩
  | clear =>
    obtain ⟨m1, g1, g2⟩ := L.clear dbg v.map s.val h2
    exact ⟨⟨v.size, m1⟩, by simp [MappedVec.step, MappedVec.clear, g1], h1, g2, fun _ _ => rfl⟩
  | resize n p =>
    cases p with
    | true =>
      obtain ⟨m1, g1, g2⟩ := L.eraseFrom dbg v.map s.val n h2
      refine ⟨⟨n, m1⟩, by simp [MappedVec.step, MappedVec.resize, g1], rfl, g2, ?_⟩
      intro j hj; simp only [vstep] at hj ⊢; rw [if_neg (by omega)]
    | false =>
      obtain ⟨m1, g1, g2⟩ := L.clear dbg v.map s.val h2
      exact ⟨⟨n, m1⟩, by simp [MappedVec.step, MappedVec.resize, g1], rfl, g2, fun _ _ => rfl⟩
  | reserve n =>
    have hn : AtMost (min n v.size) s.val := by
      intro K hK hm
      have a := hl K hK hm
      have b : K.length ≤ (List.range s.size).length := nodup_length_le hK fun i hi => by
        have := hm i hi
        simp only [List.mem_range]
        exact Nat.lt_of_not_le fun hle => this (h3 i hle)
      simp at b; omega
    obtain ⟨m1, g1, g2⟩ := L.reserve dbg v.map s.val _ h2 hn
    exact ⟨⟨v.size, m1⟩, by simp [MappedVec.step, MappedVec.reserve, g1], h1, g2, h3⟩

theorem run_inv (L : MapLaws I R) (dbg : Bool) (zero : α) (ops : List (SVOp α)) : ∀ (v : MappedVec σ) (s : Vec α),
    Inv R v s → vlegalRun zero s ops → ∃ v', MappedVec.run I dbg zero v ops = .ok v' ∧ Inv R v' (vrun zero s ops) := by
  induction ops with
  | nil => intro v s h _; exact ⟨v, rfl, h⟩
  | cons op ops ih =>
    intro v s h hl
    obtain ⟨v1, e1, h1⟩ := step_inv L dbg zero v s op h hl.1
    obtain ⟨v2, e2, h2⟩ := ih v1 _ h1 hl.2
    exact ⟨v2, by simp [MappedVec.run, e1, e2], h2⟩

theorem Inv.observes (L : MapLaws I R) (dbg : Bool) (zero : α) {v : MappedVec σ} {s : Vec α} (h : Inv R v s) :
    Observes I dbg zero v s := by
  obtain ⟨h1, h2, h3⟩ := h
  refine ⟨h1, ?_, fun i => L.find _ _ i h2, h3, L.traverse _ _ h2⟩
  intro i hi
  have hi' : i < v.size := by omega
  simp only [MappedVec.get, check_true hi', bind_ok, L.find _ _ i h2]
  cases s.val i <;> rfl

end MappedVec

/-- **C20** (over any correct map).  Construct a mapped_vector of any size and reserve, apply any legal
history of element writes, inserts, erases, clear, resize (preserving or not) and reserve: no fault in
either build mode; then the size, every read, every `find_element`, and the iteration order are those of
the specified sparse vector (`resize (n, true)` keeps exactly the elements below `n`). -/
theorem C20_mapped_vector (I : MapImpl σ α) (R : σ → (Nat → Option α) → Prop) (L : MapLaws I R)
    (dbg : Bool) (zero : α) (n nz : Nat) (ops : List (SVOp α)) (hl : vlegalRun zero ⟨n, fun _ => none⟩ ops) :
    ∃ v0 v, MappedVec.ctor I dbg n nz = .ok v0 ∧ MappedVec.run I dbg zero v0 ops = .ok v ∧
      MappedVec.Observes I dbg zero v (vrun zero ⟨n, fun _ => none⟩ ops) := by
  obtain ⟨m0, g1, g2⟩ := L.reserve dbg I.empty _ (min nz n) L.empty (fun K _ hm => by
    cases K with
    | nil => simp
    | cons a K => exact absurd rfl (hm a (by simp)))
  obtain ⟨v, e1, h1⟩ := MappedVec.run_inv L dbg zero ops ⟨n, m0⟩ ⟨n, fun _ => none⟩ ⟨rfl, g2, fun _ _ => rfl⟩ hl
  exact ⟨⟨n, m0⟩, v, by simp [MappedVec.ctor, g1], e1, h1.observes L dbg zero⟩

/-- **C20** for the two maps of the library: `map_std` and `map_array`. -/
theorem C20_mapped_vector_instances (dbg : Bool) (zero : α) (n nz : Nat) (ops : List (SVOp α))
    (hl : vlegalRun zero ⟨n, fun _ => none⟩ ops) :
    (∃ v0 v, MappedVec.ctor (mapArrayImpl zero) dbg n nz = .ok v0 ∧ MappedVec.run (mapArrayImpl zero) dbg zero v0 ops = .ok v ∧
      MappedVec.Observes (mapArrayImpl zero) dbg zero v (vrun zero ⟨n, fun _ => none⟩ ops)) ∧
    (∃ v0 v, MappedVec.ctor stdMapImpl dbg n nz = .ok v0 ∧ MappedVec.run stdMapImpl dbg zero v0 ops = .ok v ∧
      MappedVec.Observes stdMapImpl dbg zero v (vrun zero ⟨n, fun _ => none⟩ ops)) :=
  ⟨C20_mapped_vector _ _ (mapArray_laws zero) dbg zero n nz ops hl, C20_mapped_vector _ _ stdMap_laws dbg zero n nz ops hl⟩

/-- **C20** (guards).  With checks on: reads and writes outside the size raise `bad_index`, and so does a
duplicate `insert_element`. -/
theorem C20_rejects (I : MapImpl σ α) (R : σ → (Nat → Option α) → Prop) (L : MapLaws I R) (zero : α)
    (v : MappedVec σ) (s : Nat → Option α) (h : R v.map s) :
    (∀ i f, ¬ i < v.size → v.get I true zero i = .error .badIndex ∧ v.modify I true zero i f = .error .badIndex) ∧
    (∀ i t, s i ≠ none → v.insertElement I true i t = .error .badIndex) := by
  refine ⟨fun i f hi => by simp [MappedVec.get, MappedVec.modify, check_dbg_false hi], ?_⟩
  intro i t hi
  obtain ⟨m', g1, _⟩ := L.insert true v.map s i t h
  obtain ⟨w, hw⟩ := Option.ne_none_iff_exists'.1 hi
  simp [MappedVec.insertElement, g1, hw, check]

/-- A demonstration history. -/
def C20_demo : List (SVOp Int) :=
  [.modify 4 (fun _ => 40), .insert 1 10, .modify 1 (· + 5), .reserve 3, .resize 3 true, .insert 2 7, .erase 1, .resize 9 true]

example : vlegalRun 0 ⟨6, fun _ => none⟩ C20_demo ∧
    (do let v0 ← MappedVec.ctor (mapArrayImpl 0) true 6 2
        let v ← MappedVec.run (mapArrayImpl 0) true 0 v0 C20_demo
        v.traverse (mapArrayImpl 0)) = .ok [(2, 7)] := by
  refine ⟨?_, by decide⟩
  simp only [C20_demo, vlegalRun, vlegal, vstep, and_true, true_and]
  refine ⟨by omega, ⟨by omega, by simp⟩, by omega, ?_, by simp⟩
  intro L hL hm
  have hsub : ∀ i ∈ L, i ∈ [1, 4] := by
    intro i hi; have := hm i hi; simp; grind
  have := nodup_length_le hL hsub
  simp at this; omega

/-! ## mapped_matrix -/

/-- What a user observes of a mapped_matrix (any in-range index, both build modes). -/
def MappedMat.Observes (I : MapImpl σ α) (dbg : Bool) (o : Orient) (zero : α) (v : MappedMat σ) (s : Mat α) : Prop :=
  v.size1 = s.rows ∧ v.size2 = s.cols ∧
  (∀ i j, i < s.rows → j < s.cols → v.get I dbg o zero i j = .ok ((s.val (i, j)).getD zero)) ∧
  (∀ i j, i < s.rows → j < s.cols → v.findElement I dbg o i j = .ok (s.val (i, j))) ∧
  (∀ i j, ¬ (i < s.rows ∧ j < s.cols) → s.val (i, j) = none)

namespace MappedMat
variable {I : MapImpl σ α} {R : σ → (Nat → Option α) → Prop}

/-- The flat map of a matrix. -/
def flat (o : Orient) (s : Mat α) : Nat → Option α :=
  fun k => if k < s.rows * s.cols then s.val (o.indexI k s.rows s.cols, o.indexJ k s.rows s.cols) else none

def Inv (R : σ → (Nat → Option α) → Prop) (o : Orient) (v : MappedMat σ) (s : Mat α) : Prop :=
  v.size1 = s.rows ∧ v.size2 = s.cols ∧ R v.map (flat o s) ∧ ∀ i j, ¬ (i < s.rows ∧ j < s.cols) → s.val (i, j) = none

theorem flat_element (o : Orient) (s : Mat α) {i j : Nat} (hi : i < s.rows) (hj : j < s.cols) :
    flat o s (o.elementRaw i s.rows j s.cols) = s.val (i, j) := by
  simp [flat, elementRaw_lt o hi hj, indexI_elementRaw o hi hj, indexJ_elementRaw o hi hj]

theorem flat_upd (o : Orient) (s : Mat α) {i j : Nat} (hi : i < s.rows) (hj : j < s.cols) (x : Option α) :
    flat o { s with val := fun p => if p = (i, j) then x else s.val p } = upd (flat o s) (o.elementRaw i s.rows j s.cols) x := by
  funext k
  simp only [flat, upd]
  by_cases hk : k < s.rows * s.cols
  · rw [if_pos hk, if_pos hk]
    obtain ⟨h1, h2, h3⟩ := elementRaw_index o hk
    by_cases e : k = o.elementRaw i s.rows j s.cols
    · subst e
      rw [indexI_elementRaw o hi hj, indexJ_elementRaw o hi hj]; simp
    · rw [if_neg e, if_neg]
      intro he
      simp only [Prod.mk.injEq] at he
      rw [he.1, he.2] at h3; exact e h3.symm
  · rw [if_neg hk, if_neg hk, if_neg]
    intro e; subst e; exact hk (elementRaw_lt o hi hj)

theorem step_inv (L : MapLaws I R) (dbg : Bool) (o : Orient) (zero : α) (v : MappedMat σ) (s : Mat α) (op : SMOp α)
    (h : Inv R o v s) (hl : mlegal s op) : ∃ v', MappedMat.step I dbg o zero v op = .ok v' ∧ Inv R o v' (mstep zero s op) := by
  obtain ⟨h1, h2, h3, h4⟩ := h
  have hrange : ∀ i j x, i < s.rows → j < s.cols → ∀ a b, ¬ (a < s.rows ∧ b < s.cols) →
      (if (a, b) = (i, j) then x else s.val (a, b)) = none := by
    intro i j x hi hj a b hab
    rw [if_neg (by simp only [Prod.mk.injEq]; intro e; omega)]; exact h4 a b hab
  cases op with
  | modify i j f =>
    obtain ⟨hi, hj⟩ := hl
    have he : o.element dbg i v.size1 j v.size2 = .ok (o.elementRaw i s.rows j s.cols) := by rw [h1, h2]; exact element_ok dbg o hi hj
    have hfl := flat_element o s hi hj
    obtain ⟨m1, g1, g2⟩ := L.insert dbg v.map (flat o s) (o.elementRaw i s.rows j s.cols) zero h3
    obtain ⟨m2, g3, g4⟩ := L.setAt m1 _ (o.elementRaw i s.rows j s.cols) ((s.val (i, j)).getD zero) (f ((s.val (i, j)).getD zero)) g2 (by simp [upd, hfl])
    refine ⟨{ v with map := m2 }, ?_, h1, h2, ?_, hrange i j _ hi hj⟩
    · simp [MappedMat.step, MappedMat.modify, he, g1, L.find m1 _ _ g2, upd, hfl, g3]
    · have := flat_upd o s hi hj (some (f ((s.val (i, j)).getD zero)))
      simp only [mstep]; rw [this]
      convert g4 using 1
      funext k; simp only [upd]; split <;> rfl
  | insert i j t =>
    obtain ⟨hi, hj, hn⟩ := hl
    have he : o.element dbg i v.size1 j v.size2 = .ok (o.elementRaw i s.rows j s.cols) := by rw [h1, h2]; exact element_ok dbg o hi hj
    have hfl := flat_element o s hi hj
    obtain ⟨m1, g1, g2⟩ := L.insert dbg v.map (flat o s) (o.elementRaw i s.rows j s.cols) t h3
    refine ⟨{ v with map := m1 }, ?_, h1, h2, ?_, hrange i j _ hi hj⟩
    · simp [MappedMat.step, MappedMat.insertElement, MappedMat.findElement, he, L.find _ _ _ h3, g1, hfl, hn]
    · simp only [mstep]; rw [flat_upd o s hi hj]
      simpa [hfl, hn] using g2
  | erase i j =>
    obtain ⟨hi, hj⟩ := hl
    have he : o.element dbg i v.size1 j v.size2 = .ok (o.elementRaw i s.rows j s.cols) := by rw [h1, h2]; exact element_ok dbg o hi hj
    have hfl := flat_element o s hi hj
    cases hs : s.val (i, j) with
    | none =>
      refine ⟨v, by simp [MappedMat.step, MappedMat.eraseElement, he, L.find _ _ _ h3, hfl, hs], h1, h2, ?_, hrange i j _ hi hj⟩
      simp only [mstep]; rw [flat_upd o s hi hj]
      convert h3 using 1
      funext k; simp only [upd]; split
      · rename_i e; rw [e, hfl, hs]
      · rfl
    | some w =>
      obtain ⟨m1, g1, g2⟩ := L.eraseKey dbg v.map (flat o s) (o.elementRaw i s.rows j s.cols) w h3 (by rw [hfl, hs])
      refine ⟨{ v with map := m1 }, by simp [MappedMat.step, MappedMat.eraseElement, he, L.find _ _ _ h3, hfl, hs, g1], h1, h2, ?_, hrange i j _ hi hj⟩
      simp only [mstep]; rw [flat_upd o s hi hj]; exact g2
  | clear =>
    obtain ⟨m1, g1, g2⟩ := L.clear dbg v.map _ h3
    refine ⟨{ v with map := m1 }, by simp [MappedMat.step, MappedMat.clear, g1], h1, h2, ?_, fun _ _ _ => rfl⟩
    convert g2 using 1; funext k; simp only [flat, mstep]; exact ite_self _
  | resize r c =>
    obtain ⟨m1, g1, g2⟩ := L.clear dbg v.map _ h3
    refine ⟨⟨r, c, m1⟩, by simp [MappedMat.step, MappedMat.resize, g1], rfl, rfl, ?_, fun _ _ _ => rfl⟩
    convert g2 using 1; funext k; simp only [flat, mstep]; exact ite_self _
  | reserve n =>
    have hn : AtMost (restrictCapacity v.size1 v.size2 n) (flat o s) := by
      intro K hK hm
      have hlt : ∀ k ∈ K, k < s.rows * s.cols := by
        intro k hk; have := hm k hk; simp only [flat] at this
        by_contra hh; rw [if_neg hh] at this; exact this rfl
      have b : K.length ≤ (List.range (s.rows * s.cols)).length := nodup_length_le hK fun i hi => by
        simpa using hlt i hi
      have a : K.length ≤ n := by
        have := hl (K.map fun k => (o.indexI k s.rows s.cols, o.indexJ k s.rows s.cols)) (by
          refine List.Nodup.map_on ?_ hK
          intro x hx y hy hxy
          simp only [Prod.mk.injEq] at hxy
          rw [← (elementRaw_index o (hlt x hx)).2.2, ← (elementRaw_index o (hlt y hy)).2.2, hxy.1, hxy.2])
          (by
            intro p hp
            obtain ⟨k, hk, rfl⟩ := List.mem_map.1 hp
            have := hm k hk
            simpa [flat, hlt k hk] using this)
        simpa using this
      simp at b
      rw [h1, h2]; unfold restrictCapacity; split <;> omega
    obtain ⟨m1, g1, g2⟩ := L.reserve dbg v.map _ _ h3 hn
    exact ⟨{ v with map := m1 }, by simp [MappedMat.step, MappedMat.reserve, g1], h1, h2, g2, h4⟩

theorem run_inv (L : MapLaws I R) (dbg : Bool) (o : Orient) (zero : α) (ops : List (SMOp α)) : ∀ (v : MappedMat σ) (s : Mat α),
    Inv R o v s → mlegalRun zero s ops → ∃ v', MappedMat.run I dbg o zero v ops = .ok v' ∧ Inv R o v' (mrun zero s ops) := by
  induction ops with
  | nil => intro v s h _; exact ⟨v, rfl, h⟩
  | cons op ops ih =>
    intro v s h hl
    obtain ⟨v1, e1, h1⟩ := step_inv L dbg o zero v s op h hl.1
    obtain ⟨v2, e2, h2⟩ := ih v1 _ h1 hl.2
    exact ⟨v2, by simp [MappedMat.run, e1, e2], h2⟩

theorem Inv.observes (L : MapLaws I R) (dbg : Bool) (o : Orient) (zero : α) {v : MappedMat σ} {s : Mat α} (h : Inv R o v s) :
    Observes I dbg o zero v s := by
  obtain ⟨h1, h2, h3, h4⟩ := h
  refine ⟨h1, h2, ?_, ?_, h4⟩
  · intro i j hi hj
    have he : o.element dbg i v.size1 j v.size2 = .ok (o.elementRaw i s.rows j s.cols) := by rw [h1, h2]; exact element_ok dbg o hi hj
    simp only [MappedMat.get, he, bind_ok, L.find _ _ _ h3, flat_element o s hi hj]
    cases s.val (i, j) <;> rfl
  · intro i j hi hj
    have he : o.element dbg i v.size1 j v.size2 = .ok (o.elementRaw i s.rows j s.cols) := by rw [h1, h2]; exact element_ok dbg o hi hj
    simp [MappedMat.findElement, he, L.find _ _ _ h3, flat_element o s hi hj]

end MappedMat

/-- **C25**.  Over any correct map and for both orientations: construct a mapped_matrix of any shape, apply
any legal history of element writes, inserts, erases, clear, non-preserving resize and reserve: no fault
in either build mode, and afterwards shape, every read and every `find_element` are as specified. -/
theorem C25_mapped_matrix (I : MapImpl σ α) (R : σ → (Nat → Option α) → Prop) (L : MapLaws I R)
    (dbg : Bool) (o : Orient) (zero : α) (r c nz : Nat) (ops : List (SMOp α)) (hl : mlegalRun zero ⟨r, c, fun _ => none⟩ ops) :
    ∃ v0 v, MappedMat.ctor I dbg r c nz = .ok v0 ∧ MappedMat.run I dbg o zero v0 ops = .ok v ∧
      MappedMat.Observes I dbg o zero v (mrun zero ⟨r, c, fun _ => none⟩ ops) := by
  obtain ⟨m0, g1, g2⟩ := L.reserve dbg I.empty _ (MappedMat.restrictCapacity r c nz) L.empty (fun K _ hm => by
    cases K with
    | nil => simp
    | cons a K => exact absurd rfl (hm a (by simp)))
  obtain ⟨v, e1, h1⟩ := MappedMat.run_inv L dbg o zero ops ⟨r, c, m0⟩ ⟨r, c, fun _ => none⟩
    ⟨rfl, rfl, by convert g2 using 1; funext k; simp only [MappedMat.flat]; exact ite_self _, fun _ _ _ => rfl⟩ hl
  exact ⟨⟨r, c, m0⟩, v, by simp [MappedMat.ctor, g1], e1, h1.observes L dbg o zero⟩

/-- **C25** for `map_array` and `map_std`. -/
theorem C25_mapped_matrix_instances (dbg : Bool) (o : Orient) (zero : α) (r c nz : Nat) (ops : List (SMOp α))
    (hl : mlegalRun zero ⟨r, c, fun _ => none⟩ ops) :
    (∃ v0 v, MappedMat.ctor (mapArrayImpl zero) dbg r c nz = .ok v0 ∧ MappedMat.run (mapArrayImpl zero) dbg o zero v0 ops = .ok v ∧
      MappedMat.Observes (mapArrayImpl zero) dbg o zero v (mrun zero ⟨r, c, fun _ => none⟩ ops)) ∧
    (∃ v0 v, MappedMat.ctor stdMapImpl dbg r c nz = .ok v0 ∧ MappedMat.run stdMapImpl dbg o zero v0 ops = .ok v ∧
      MappedMat.Observes stdMapImpl dbg o zero v (mrun zero ⟨r, c, fun _ => none⟩ ops)) :=
  ⟨C25_mapped_matrix _ _ (mapArray_laws zero) dbg o zero r c nz ops hl, C25_mapped_matrix _ _ stdMap_laws dbg o zero r c nz ops hl⟩

def C25_demo : List (SMOp Int) :=
  [.modify 1 2 (fun _ => 12), .insert 0 1 1, .modify 0 1 (· + 4), .reserve 100, .erase 1 2, .insert 1 0 9]

example : mlegalRun 0 ⟨2, 3, fun _ => none⟩ C25_demo ∧
    (do let v0 ← MappedMat.ctor (mapArrayImpl 0) true 2 3 0
        let v ← MappedMat.run (mapArrayImpl 0) true .col 0 v0 C25_demo
        let a ← v.get (mapArrayImpl 0) true .col 0 0 1
        let b ← v.get (mapArrayImpl 0) true .col 0 1 2
        let c ← v.get (mapArrayImpl 0) true .col 0 1 0
        Except.ok (a, b, c)) = .ok (5, 0, 9) := by
  refine ⟨?_, by decide⟩
  simp only [C25_demo, mlegalRun, mlegal, mstep, and_true]
  refine ⟨by omega, ⟨by omega, by omega, by simp⟩, by omega, ?_, by omega, by omega, by omega, by simp⟩
  intro L hL hm
  have hsub : L ⊆ [(0, 1), (1, 2)] := by
    intro p hp; have := hm p hp; simp; grind
  have := (List.subperm_of_subset hL hsub).length_le
  simp at this; omega

/-- **C27** (mapped_matrix part, refuted).  `resize (r, c, true)` — the default — raises `internal_logic`
with checks on and loses every element without checks. -/
theorem C27_mapped_matrix_resize_preserve_refuted (I : MapImpl σ α) (R : σ → (Nat → Option α) → Prop) (L : MapLaws I R)
    (o : Orient) (zero : α) (v : MappedMat σ) (s : Nat → Option α) (h : R v.map s) (r c : Nat) :
    v.resize I true r c true = .error .internalLogic ∧
    ∃ v', v.resize I false r c true = .ok v' ∧ ∀ i j, i < r → j < c → v'.get I false o zero i j = .ok zero := by
  refine ⟨by simp [MappedMat.resize, check], ?_⟩
  obtain ⟨m1, g1, g2⟩ := L.clear false v.map s h
  refine ⟨⟨r, c, m1⟩, by simp [MappedMat.resize, g1], ?_⟩
  intro i j hi hj
  simp [MappedMat.get, element_ok false o hi hj, L.find _ _ _ g2]

end Ublas
