import Verif.Lemmas.CompressedVector
/-! # C19, C28 (compressed_vector), C50 (compressed_vector): compressed_vector -/
namespace Ublas
open Search Assoc SparseSpec
variable {α : Type}
namespace CVec

def Inv (IB : Nat) (v : CVec α) (s : Vec α) : Prop := ∃ E, Repr IB v E s

theorem step_inv (dbg : Bool) (IB : Nat) (zero : α) (junk : Junk α) (v : CVec α) (s : Vec α) (op : CVOp α)
    (h : Inv IB v s) (hl : cvlegal s op) : ∃ v', CVec.step dbg IB zero junk v op = .ok v' ∧ Inv IB v' (cvstep zero s op) := by
  obtain ⟨E, h⟩ := h
  cases op with
  | modify i f =>
    have hi : i < s.size := hl
    have fin : ∀ (v1 : CVec α) (n : Nat) (E1) (s1 : Vec α) (w : α), Repr IB v1 E1 s1 → n < v1.filled → E1[n]? = some (i, w) →
        s1 = { s with val := upd s.val i (some w) } → w = (s.val i).getD zero →
        ∃ v', (do let x ← rd dbg v1.val n
                  let val ← wr dbg v1.val n (f x)
                  Except.ok { v1 with val := val } : M (CVec α)) = .ok v' ∧ Inv IB v' (cvstep zero s (.modify i f)) := by
      intro v1 n E1 s1 w hr hn he hs1 hw
      have hv := hr.valAt hn; rw [he] at hv
      have hlen : n < v1.val.length := by rw [hr.valLen]; have := hr.fill; omega
      refine ⟨_, by simp only [rd_eq_ok.2 hv, bind_ok, wr_ok hlen]; rfl, E1.set n (i, f w), ?_⟩
      have := hr.setAt hn he (f w)
      subst hs1; subst hw
      have e : (cvstep zero s (.modify i f)) = { s with val := upd (upd s.val i (some ((s.val i).getD zero))) i (some (f ((s.val i).getD zero))) } := by
        simp only [cvstep]; congr 1; funext j; simp only [upd]; split <;> rfl
      rw [e]; exact this
    simp only [CVec.step, CVec.modify]
    rw [check_true (by rw [h.size]; exact hi), bind_ok]
    rcases h.slot i with ⟨n, w, h1, h2, h3, h4, h5⟩ | ⟨h1, h2⟩
    · simp only [h1, bind_ok]
      refine fin v n E s w h h2 h3 ?_ (by rw [h4]; rfl)
      have : upd s.val i (some w) = s.val := by
        funext j; simp only [upd]; split
        · rename_i e; rw [e, h4]
        · rfl
      rw [this]
    · obtain ⟨v1, n, E1, g1, g2, g3, g4⟩ := h.insert dbg zero junk i zero hi h2
      simp only [h1, bind_ok, g1]
      exact fin v1 n E1 _ zero g2 g3 g4 rfl (by rw [h2]; rfl)
  | insert i t =>
    obtain ⟨v1, n, E1, g1, g2, g3, g4⟩ := h.insert dbg zero junk i t hl.1 hl.2
    exact ⟨v1, by simp only [CVec.step, g1, bind_ok], E1, g2⟩
  | erase i =>
    obtain ⟨v1, E1, g1, g2⟩ := h.erase dbg i
    exact ⟨v1, g1, E1, g2⟩
  | clear =>
    refine ⟨_, ?_, _, h.empty⟩
    simp only [CVec.step, CVec.clear, h.empty.invariants dbg, bind_ok]
  | resize n p =>
    cases p with
    | true =>
      obtain ⟨v1, E1, g1, g2⟩ := h.resizeTrue dbg zero junk n
      exact ⟨v1, g1, E1, g2⟩
    | false =>
      have hr := repr_fresh IB n (restrictCapacity n v.cap) (resizeRaw junk.1 v.idx (restrictCapacity n v.cap))
        (resizeRaw junk.2 v.val (restrictCapacity n v.cap)) (length_resizeRaw _ _ _) (length_resizeRaw _ _ _)
        (by intro hp; unfold restrictCapacity; omega) (by unfold restrictCapacity; omega)
      refine ⟨_, ?_, _, hr⟩
      simp only [CVec.step, CVec.resize, bind_ok, hr.invariants dbg, Bool.false_eq_true, if_false]
  | reserve n p =>
    cases p with
    | true =>
      obtain ⟨v1, g1, s1, g2, g3⟩ := h.reserveTrue dbg zero junk n
      have hE : E.take (max n 1) = E := List.take_of_length_le (by have := h.rep.length_le (hl rfl); omega)
      rw [hE] at g2
      refine ⟨v1, g1, E, ?_⟩
      have : s1 = s := by
        cases s1; cases s; simp only [Vec.mk.injEq] at g3 ⊢
        refine ⟨g3, ?_⟩
        funext j
        have a := g2.rep.2 j; have b := h.rep.2 j
        simp only at a b
        rename_i val1 _ val2
        cases h1 : val1 j with
        | some w => exact ((b w).2 ((a w).1 h1)).symm
        | none =>
          cases h2 : val2 j with
          | none => rfl
          | some w => have := (a w).2 ((b w).1 h2); rw [h1] at this; simp at this
      rw [this] at g2; exact g2
    | false =>
      have hr := repr_fresh IB v.size (restrictCapacity v.size n) (resizeRaw junk.1 v.idx (restrictCapacity v.size n))
        (resizeRaw junk.2 v.val (restrictCapacity v.size n)) (length_resizeRaw _ _ _) (length_resizeRaw _ _ _)
        (by intro hp; unfold restrictCapacity; omega) (by unfold restrictCapacity; omega)
      refine ⟨_, ?_, _, by rw [h.size] at hr; exact hr⟩
      simp only [CVec.step, CVec.reserve, Bool.false_eq_true, if_false, ← h.size, bind_ok, hr.invariants dbg]
  | pushBack i t =>
    obtain ⟨v1, E1, g1, g2⟩ := h.pushBack dbg zero junk i t hl.1 hl.2
    exact ⟨v1, g1, E1, g2⟩
  | popBack =>
    obtain ⟨v1, E1, k, g1, g2, g3⟩ := h.popBack dbg hl
    refine ⟨v1, g1, E1, ?_⟩
    have : cvstep zero s .popBack = { s with val := upd s.val k none } := by
      simp only [cvstep]; congr 1; funext j
      have : IsLast s.val j ↔ j = k := by
        constructor
        · intro hj; exact Nat.le_antisymm (g2.2 j hj.1) (hj.2 k g2.1)
        · intro e; subst e; exact g2
      simp only [upd, this]
    rw [this]; exact g3

theorem run_inv (dbg : Bool) (IB : Nat) (zero : α) (ops : List (CVOp α × Junk α)) : ∀ (v : CVec α) (s : Vec α),
    Inv IB v s → cvlegalRun zero s (ops.map (·.1)) →
    ∃ v', CVec.run dbg IB zero v ops = .ok v' ∧ Inv IB v' (cvrun zero s (ops.map (·.1))) := by
  induction ops with
  | nil => intro v s h _; exact ⟨v, rfl, h⟩
  | cons op ops ih =>
    intro v s h hl
    obtain ⟨v1, e1, h1⟩ := step_inv dbg IB zero op.2 v s op.1 h hl.1
    obtain ⟨v2, e2, h2⟩ := ih v1 _ h1 hl.2
    exact ⟨v2, by simp [CVec.run, e1, e2], h2⟩

theorem Inv.observes (dbg : Bool) (IB : Nat) (zero : α) {v : CVec α} {s : Vec α} (h : Inv IB v s) : CVObserves dbg IB zero v s := by
  obtain ⟨E, h⟩ := h
  refine ⟨h.size, fun i hi => h.get dbg zero i hi, fun i => h.findElement dbg i, ?_, ?_, h.fill, h.range⟩
  · intro i
    obtain ⟨n, h1, h2, h3⟩ := h.traverseFrom dbg i
    refine ⟨_, h3, h.rep.1.sublist (List.drop_sublist _ _), ?_⟩
    obtain ⟨p1, p2, p3⟩ := split_pieces h2
    intro j w
    constructor
    · intro hm
      show (if i ≤ j then s.val j else none) = some w
      rw [if_pos (p3 _ hm)]; exact (h.rep.2 j w).2 (List.mem_of_mem_drop hm)
    · intro hv
      change (if i ≤ j then s.val j else none) = some w at hv
      split at hv
      · rename_i hle
        have := (h.rep.2 j w).1 hv
        rw [← List.take_append_drop n E] at this
        rcases List.mem_append.1 this with e | e
        · have := p2 _ e; simp only at this; omega
        · exact e
      · simp at hv
  · obtain ⟨n, h1, h2, h3⟩ := h.traverseFrom dbg 0
    have hn : n = 0 := by
      obtain ⟨p1, p2, p3⟩ := split_pieces h2
      rcases Nat.eq_zero_or_pos n with e | e
      · exact e
      · have := p2 E[0] (List.mem_iff_getElem.2 ⟨0, by simp; omega, by simp⟩)
        omega
    subst hn
    rw [List.drop_zero] at h3
    exact ⟨E, h3, ⟨h.rep.1, fun i w => (h.rep.2 i w).symm⟩, h.holds.1.symm⟩

theorem inv_ctor (dbg : Bool) (IB : Nat) (junk : Junk α) (n nz : Nat) :
    ∃ v, CVec.ctor dbg IB junk n nz = .ok v ∧ Inv IB v ⟨n, fun _ => none⟩ := by
  have hr := repr_fresh IB n (restrictCapacity n nz) ((List.range (restrictCapacity n nz)).map junk.1)
    ((List.range (restrictCapacity n nz)).map junk.2) (by simp) (by simp)
    (by intro hp; unfold restrictCapacity; omega) (by unfold restrictCapacity; omega)
  refine ⟨_, ?_, _, hr⟩
  simp only [CVec.ctor, bind_ok, hr.invariants dbg]

end CVec

/-- **C19, C50**.  Construct a compressed_vector of any size, apply any legal history of writes, inserts,
erases, push_back, pop_back, clear, resize, reserve: whatever the build mode, the index base and the
contents of uninitialised memory, no fault occurs and afterwards every observation (size, reads,
find_element, iteration from any position, nnz and capacity) is as specified. -/
theorem C19_compressed_vector (dbg : Bool) (IB : Nat) (zero : α) (junk : CVec.Junk α) (n nz : Nat)
    (ops : List (CVOp α × CVec.Junk α)) (hl : cvlegalRun zero ⟨n, fun _ => none⟩ (ops.map (·.1))) :
    ∃ v0 v, CVec.ctor dbg IB junk n nz = .ok v0 ∧ CVec.run dbg IB zero v0 ops = .ok v ∧
      CVObserves dbg IB zero v (cvrun zero ⟨n, fun _ => none⟩ (ops.map (·.1))) := by
  obtain ⟨v0, e0, h0⟩ := CVec.inv_ctor dbg IB junk n nz
  obtain ⟨v, e1, h1⟩ := CVec.run_inv dbg IB zero ops v0 _ h0 hl
  exact ⟨v0, v, e0, e1, h1.observes dbg IB zero⟩

/-- With checks on, the misuses are reported: reading or writing out of range, inserting an element that
is already stored, push_back out of order, pop_back on an empty vector. -/
theorem C19_rejects (IB : Nat) (zero : α) (junk : CVec.Junk α) (v : CVec α) (s : Vec α) (h : CVec.Inv IB v s) (i : Nat) (t : α) (f : α → α) :
    (¬ i < s.size → v.get true IB zero i = .error .badIndex ∧ v.modify true IB zero junk i f = .error .badIndex) ∧
    (s.val i ≠ none → v.insertElement true IB zero junk i t = .error .badIndex) ∧
    ((∃ j, s.val j ≠ none ∧ i ≤ j) → v.pushBack true IB zero junk i t = .error .externalLogic) ∧
    ((∀ j, s.val j = none) → v.popBack true IB = .error .externalLogic) := by
  obtain ⟨E, h⟩ := h
  refine ⟨fun hi => ?_, fun hs => ?_, ?_, ?_⟩
  · have : ¬ i < v.size := by rw [h.size]; exact hi
    simp [CVec.get, CVec.modify, check_dbg_false this]
  · unfold CVec.insertElement
    rw [if_pos rfl, h.findElement, bind_ok, check_dbg_false (by simpa using hs)]; rfl
  · rintro ⟨j, hj, hij⟩
    obtain ⟨w, hw⟩ := Option.ne_none_iff_exists'.1 hj
    have hmem := (h.rep.2 j w).1 hw
    have hE : E ≠ [] := by intro e; rw [e] at hmem; simp at hmem
    have hf : 0 < v.filled := by rw [← h.holds.1]; exact List.length_pos_iff.2 hE
    have hd : v.filled - 1 < E.length := by rw [h.holds.1]; omega
    have hx := h.idxAt (n := v.filled - 1) (by omega)
    rw [List.getElem?_eq_getElem hd] at hx
    obtain ⟨d1, _, _⟩ := h.rep.dropLast (k := E[v.filled - 1].1) (v := E[v.filled - 1].2) (by
      rw [List.getLast?_eq_getElem?, h.holds.1, List.getElem?_eq_getElem hd])
    have := d1 j hj
    unfold CVec.pushBack
    rw [if_pos ⟨rfl, by omega⟩, rd_eq_ok.2 hx, bind_ok, check_dbg_false (by simp only; omega)]; rfl
  · intro hn
    have hE : E = [] := by
      cases E with
      | nil => rfl
      | cons p E => have := (h.rep.2 p.1 p.2).2 (by simp); rw [hn] at this; simp at this
    have : v.filled = 0 := by rw [← h.holds.1, hE]; rfl
    simp [CVec.popBack, this, check]

/-- What `reserve (n)` with the default `preserve = true` does in full: of the stored elements in index
order it keeps the first `max n 1` and silently drops the rest, in both build modes. -/
theorem C28_compressed_vector_reserve_effect (dbg : Bool) (IB : Nat) (zero : α) (junk : CVec.Junk α) (v : CVec α) (s : Vec α) (h : CVec.Inv IB v s)
    (E : List (Nat × α)) (hE : Lists E s.val) (n : Nat) :
    ∃ v' s', v.reserve dbg IB zero junk n true = .ok v' ∧ CVec.Inv IB v' s' ∧ s'.size = s.size ∧ Lists (E.take (max n 1)) s'.val := by
  obtain ⟨F, h⟩ := h
  have : E = F := Rep.unique (s := s.val) ⟨hE.1, fun i w => (hE.2 i w).symm⟩ h.rep
  subst this
  obtain ⟨v1, g1, s1, g2, g3⟩ := h.reserveTrue dbg zero junk n
  exact ⟨v1, s1, g1, ⟨_, g2⟩, g3, g2.rep.1, fun i w => (g2.rep.2 i w).symm⟩

/-- **C28** (compressed_vector, refuted).  Two elements stored, `reserve (1)`: the second is lost. -/
theorem C28_compressed_vector_reserve_refuted (dbg : Bool) :
    ∃ v0 v v' : CVec Int, CVec.ctor dbg 0 (fun _ => 0, fun _ => 0) 5 2 = .ok v0 ∧
      CVec.run dbg 0 0 v0 [(.insert 1 10, (fun _ => 0, fun _ => 0)), (.insert 3 30, (fun _ => 0, fun _ => 0))] = .ok v ∧
      v.get dbg 0 0 3 = .ok 30 ∧
      v.reserve dbg 0 0 (fun _ => 0, fun _ => 0) 1 true = .ok v' ∧ v'.get dbg 0 0 3 = .ok 0 := by
  cases dbg <;> exact ⟨_, _, _, rfl, rfl, rfl, rfl, rfl⟩

/-- **C28** (compressed_vector, partial).  `reserve (n)` for any `n` not below the number of stored elements
changes nothing.  Missing: smaller `n`, for which the claim is false (above). -/
theorem C28_compressed_vector_reserve_partial (dbg : Bool) (IB : Nat) (zero : α) (junk : CVec.Junk α) (v : CVec α) (s : Vec α)
    (h : CVec.Inv IB v s) (n : Nat) (hn : AtMost n s.val) :
    ∃ v', v.reserve dbg IB zero junk n true = .ok v' ∧ CVObserves dbg IB zero v' s := by
  obtain ⟨v', e, h'⟩ := CVec.step_inv dbg IB zero junk v s (.reserve n true) h (fun _ => hn)
  exact ⟨v', e, CVec.Inv.observes dbg IB zero h'⟩

/-- A history with growth, erasure, push_back, pop_back and shrinking, index base 1. -/
def C19_demo : List (CVOp Int × CVec.Junk Int) :=
  ([.insert 4 40, .modify 1 (· + 7), .insert 2 20, .erase 4, .pushBack 5 50, .pushBack 7 70, .popBack, .resize 5 true] : List (CVOp Int)).map
    (fun op => (op, (fun i => 100 + i, fun i => (i : Int) - 3)))

example : cvlegalRun 0 ⟨8, fun _ => none⟩ (C19_demo.map (·.1)) ∧
    (do let v0 ← CVec.ctor true 1 (fun i => 100 + i, fun i => (i : Int) - 3) 8 0
        let v ← CVec.run true 1 0 v0 C19_demo
        let E ← v.traverseFrom true 1 0
        Except.ok (E, v.cap)) = .ok ([(1, 7), (2, 20)], 4) := by
  refine ⟨?_, by decide⟩
  simp only [C19_demo, List.map_cons, List.map_nil, cvlegalRun, cvlegal, cvstep]
  refine ⟨⟨by omega, trivial⟩, by omega, ⟨by omega, by simp⟩, trivial, ⟨by omega, ?_⟩, ⟨by omega, ?_⟩, ⟨7, by simp⟩, trivial, trivial⟩
  · intro j hj; grind
  · intro j hj; grind

example : ∃ v : CVec Int, CVec.Inv 1 v ⟨8, fun j => if j = 2 then some 5 else none⟩ ∧
    AtMost 1 (fun j : Nat => if j = 2 then some (5 : Int) else none) := by
  obtain ⟨v0, _, h0⟩ := CVec.inv_ctor (α := Int) true 1 (fun _ => 0, fun _ => 0) 8 0
  obtain ⟨v, _, h1⟩ := CVec.step_inv true 1 0 (fun _ => 0, fun _ => 0) v0 _ (.insert 2 5) h0 ⟨by simp, rfl⟩
  refine ⟨v, h1, ?_⟩
  intro L hL hm
  have := nodup_length_le (L := L) (K := [2]) hL (by intro i hi; have := hm i hi; simp at this; simp; grind)
  simpa using this

end Ublas
