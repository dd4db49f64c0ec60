import Verif.Spec.CompressedVector
import Verif.Lemmas.Assoc
namespace Ublas.CVec
open Search Assoc SparseSpec
variable {α : Type}

/-- The array part of the representation invariant, in terms of the list of stored pairs. -/
def Holds (IB : Nat) (idx : List Nat) (val : List α) (f : Nat) (E : List (Nat × α)) : Prop :=
  E.length = f ∧ idx.take f = E.map (fun p => p.1 + IB) ∧ val.take f = E.map (·.2)

structure Repr (IB : Nat) (v : CVec α) (E : List (Nat × α)) (s : Vec α) : Prop where
  size : v.size = s.size
  idxLen : v.idx.length = v.cap
  valLen : v.val.length = v.cap
  fill : v.filled ≤ v.cap
  capPos : 0 < v.size → 0 < v.cap
  capLe : v.cap ≤ v.size
  holds : Holds IB v.idx v.val v.filled E
  rep : Rep E s.val
  range : ∀ i, s.size ≤ i → s.val i = none

theorem Repr.idxAt {IB : Nat} {v : CVec α} {E s} (h : Repr IB v E s) {n : Nat} (hn : n < v.filled) :
    v.idx[n]? = E[n]?.map (fun p => p.1 + IB) := by
  have := congrArg (fun l => l[n]?) h.holds.2.1
  simpa [List.getElem?_take, hn] using this

theorem Repr.valAt {IB : Nat} {v : CVec α} {E s} (h : Repr IB v E s) {n : Nat} (hn : n < v.filled) :
    v.val[n]? = E[n]?.map (·.2) := by
  have := congrArg (fun l => l[n]?) h.holds.2.2
  simpa [List.getElem?_take, hn] using this

theorem lb_of (IB : Nat) (idx : List Nat) (f : Nat) (E : List (Nat × α)) {s} (hr : Rep E s) (hl : E.length = f) (hf : f ≤ idx.length)
    (hi : idx.take f = E.map (fun p => p.1 + IB)) (i : Nat) :
    ∃ n, lowerBound idx 0 f (i + IB) = .ok n ∧ n ≤ f ∧ Splits (E.map (·.1)) 0 E.length i n := by
  have conv : ∀ (j x : Nat), j < f → (idx[j]? = some x ↔ IB ≤ x ∧ (E.map (·.1))[j]? = some (x - IB)) := by
    intro j x hj
    have := congrArg (fun l => l[j]?) hi
    simp only [List.getElem?_take, hj, if_true, List.getElem?_map] at this
    rw [this, List.getElem?_map]
    cases E[j]? with
    | none => simp
    | some p => simp; omega
  have hs : SortedOn idx 0 f := by
    intro a b x y h1 h2 h3 h4 h5
    obtain ⟨q1, q2⟩ := (conv a x (by omega)).1 h4
    obtain ⟨q3, q4⟩ := (conv b y h3).1 h5
    have := hr.sorted f a b _ _ h1 h2 h3 q2 q4
    omega
  obtain ⟨n, h1, _, h3, h4, h5⟩ := lowerBound_spec idx 0 f (i + IB) (by omega) hf hs
  refine ⟨n, h1, h3, by omega, by omega, ?_, ?_⟩
  · intro a x _ q2 q3
    have := h4 a (x + IB) (by omega) q2 ((conv a _ (by omega)).2 ⟨by omega, by simpa using q3⟩)
    omega
  · intro a x q1 q2 q3
    have := h5 a (x + IB) q1 (by omega) ((conv a _ (by omega)).2 ⟨by omega, by simpa using q3⟩)
    omega

theorem Repr.lb {IB : Nat} {v : CVec α} {E s} (h : Repr IB v E s) (i : Nat) :
    ∃ n, v.lb IB i = .ok n ∧ n ≤ v.filled ∧ Splits (E.map (·.1)) 0 E.length i n :=
  lb_of IB v.idx v.filled E h.rep h.holds.1 (by rw [h.idxLen]; exact h.fill) h.holds.2.1 i

/-- `slot` finds the element exactly when it is stored. -/
theorem Repr.slot {IB : Nat} {v : CVec α} {E s} (h : Repr IB v E s) (i : Nat) :
    (∃ n w, v.slot IB i = .ok (some n) ∧ n < v.filled ∧ E[n]? = some (i, w) ∧ s.val i = some w ∧ v.val[n]? = some w) ∨
    (v.slot IB i = .ok none ∧ s.val i = none) := by
  obtain ⟨n, h1, h2, h3⟩ := h.lb i
  rcases h.rep.lookup h3 with ⟨w, h4, h5⟩ | ⟨h4, h5⟩
  · left
    have hn : n < v.filled := by
      have := (List.getElem?_eq_some_iff.1 h4).1; rw [h.holds.1] at this; exact this
    refine ⟨n, w, ?_, hn, h4, h5, by rw [h.valAt hn, h4]; rfl⟩
    have := h.idxAt hn; rw [h4] at this
    simp [CVec.slot, h1, show n ≠ v.filled by omega, rd, this]
  · right
    refine ⟨?_, h5⟩
    simp only [CVec.slot, h1, bind_ok]
    by_cases hn : n = v.filled
    · rw [if_pos hn]
    · rw [if_neg hn]
      have hn' : n < v.filled := by omega
      have hd : n < E.length := by rw [h.holds.1]; exact hn'
      have := h.idxAt hn'
      rw [List.getElem?_eq_getElem hd] at this
      simp only [Option.map_some] at this
      rw [rd_eq_ok.2 this, bind_ok, if_pos]
      intro e
      apply h4 E[n].2
      rw [List.getElem?_eq_getElem hd]
      have : E[n].1 = i := by omega
      rw [← this]

theorem Repr.invariants {IB : Nat} {v : CVec α} {E s} (h : Repr IB v E s) (dbg : Bool) : v.invariants dbg IB = .ok () := by
  unfold CVec.invariants
  rw [check_true h.idxLen.symm, bind_ok, check_true h.valLen.symm, bind_ok, check_true h.fill, bind_ok]
  split
  · rename_i hd
    have hlt : v.filled - 1 < E.length := by rw [h.holds.1]; omega
    have hx := h.idxAt (n := v.filled - 1) (by omega)
    rw [List.getElem?_eq_getElem hlt] at hx
    rw [rd_eq_ok.2 hx, bind_ok, check_true]
    have : s.val E[v.filled - 1].1 = some E[v.filled - 1].2 := h.rep.some_of_getElem (List.getElem?_eq_getElem hlt)
    rw [h.size]
    refine Nat.lt_of_not_le fun hle => ?_
    rw [h.range _ (by simp only at hle; omega)] at this; simp at this
  · rfl

theorem Repr.findElement {IB : Nat} {v : CVec α} {E s} (h : Repr IB v E s) (dbg : Bool) (i : Nat) :
    v.findElement dbg IB i = .ok (s.val i) := by
  rcases h.slot i with ⟨n, w, h1, h2, h3, h4, h5⟩ | ⟨h1, h2⟩
  · simp [CVec.findElement, h1, rd, h5, h4]
  · simp [CVec.findElement, h1, h2]

theorem Repr.get {IB : Nat} {v : CVec α} {E s} (h : Repr IB v E s) (dbg : Bool) (zero : α) (i : Nat) (hi : i < s.size) :
    v.get dbg IB zero i = .ok ((s.val i).getD zero) := by
  unfold CVec.get
  rw [check_true (by rw [h.size]; exact hi), bind_ok]
  rcases h.slot i with ⟨n, w, h1, h2, h3, h4, h5⟩ | ⟨h1, h2⟩
  · simp [h1, rd, h5, h4]
  · simp [h1, h2]

/-- Distinct stored indices below `n` are at most `n` many. -/
theorem length_le_of_lt {E : List (Nat × α)} {s : Nat → Option α} (h : Rep E s) (n : Nat) (hn : ∀ j, s j ≠ none → j < n) : E.length ≤ n := by
  have := nodup_length_le (L := E.map (·.1)) (K := List.range n) (keys_nodup h.1) (by
    intro i hi
    obtain ⟨p, hp, rfl⟩ := List.mem_map.1 hi
    have : s p.1 ≠ none := by rw [(h.2 p.1 p.2).2 hp]; simp
    simpa using hn _ this)
  simpa using this

theorem take_resizeInit {β : Type} (l : List β) (n : Nat) (v : β) (f : Nat) (h1 : f ≤ n) (h2 : f ≤ l.length) :
    (resizeInit l n v).take f = l.take f := by
  unfold resizeInit
  rw [List.take_append_of_le_length (by simp; omega), List.take_take, Nat.min_eq_left h1]

theorem length_resizeInit {β : Type} (l : List β) (n : Nat) (v : β) : (resizeInit l n v).length = n := by
  simp [resizeInit]; omega

theorem length_resizeRaw {β : Type} (j : Nat → β) (l : List β) (n : Nat) : (resizeRaw j l n).length = n := by
  unfold resizeRaw; split
  · rename_i h; exact h.symm
  · simp

/-- Truncating the arrays to the first `f` entries. -/
theorem Holds.take {IB : Nat} {idx : List Nat} {val : List α} {f : Nat} {E} (h : Holds IB idx val f E) {g : Nat} (hg : g ≤ f) :
    Holds IB idx val g (E.take g) := by
  obtain ⟨h1, h2, h3⟩ := h
  refine ⟨by simp; omega, ?_, ?_⟩
  · rw [List.map_take, ← h2, List.take_take, Nat.min_eq_left hg]
  · rw [List.map_take, ← h3, List.take_take, Nat.min_eq_left hg]

theorem Holds.resize {IB : Nat} {idx : List Nat} {val : List α} {f : Nat} {E} (h : Holds IB idx val f E) {c : Nat} {z : Nat} {zero : α}
    (hc : f ≤ c) (h1 : f ≤ idx.length) (h2 : f ≤ val.length) : Holds IB (resizeInit idx c z) (resizeInit val c zero) f E :=
  ⟨h.1, by rw [take_resizeInit _ _ _ _ hc h1]; exact h.2.1, by rw [take_resizeInit _ _ _ _ hc h2]; exact h.2.2⟩

/-- Growing through `reserve (2 * capacity_)` when full and there is room. -/
theorem Repr.grow {IB : Nat} {v : CVec α} {E s} (h : Repr IB v E s) (dbg : Bool) (zero : α) (junk : Junk α) (hroom : v.filled < v.size) :
    ∃ v', (if v.filled ≥ v.cap then v.reserve dbg IB zero junk (2 * v.cap) true else .ok v : M (CVec α)) = .ok v' ∧
      Repr IB v' E s ∧ v'.filled < v'.cap := by
  by_cases hf : v.filled ≥ v.cap
  · rw [if_pos hf]
    have hcap := h.capPos (by omega)
    have hfc := h.fill
    have hc : restrictCapacity v.size (2 * v.cap) > v.cap := by unfold restrictCapacity; omega
    have hcl : restrictCapacity v.size (2 * v.cap) ≤ v.size := by unfold restrictCapacity; omega
    have hmin : min (restrictCapacity v.size (2 * v.cap)) v.filled = v.filled := by omega
    have hr : Repr IB ⟨v.size, restrictCapacity v.size (2 * v.cap), v.filled, resizeInit v.idx (restrictCapacity v.size (2 * v.cap)) 0,
        resizeInit v.val (restrictCapacity v.size (2 * v.cap)) zero⟩ E s :=
      { size := h.size, idxLen := length_resizeInit _ _ _, valLen := length_resizeInit _ _ _, fill := by simp only; omega
        capPos := fun _ => by simp only; omega, capLe := hcl
        holds := h.holds.resize (by omega) (by rw [h.idxLen]; exact hfc) (by rw [h.valLen]; exact hfc)
        rep := h.rep, range := h.range }
    refine ⟨_, ?_, hr, by simp only; omega⟩
    simp only [CVec.reserve, if_true, hmin, hr.invariants dbg, bind_ok]
  · rw [if_neg hf]
    exact ⟨v, rfl, h, by omega⟩

theorem Repr.filled_lt {IB : Nat} {v : CVec α} {E s} (h : Repr IB v E s) {i : Nat} (hi : i < s.size) (hn : s.val i = none) : v.filled < v.size := by
  have := nodup_length_le (L := i :: E.map (·.1)) (K := List.range s.size) (by
      refine List.nodup_cons.2 ⟨?_, keys_nodup h.rep.1⟩
      intro hm
      obtain ⟨p, hp, e⟩ := List.mem_map.1 hm
      have := (h.rep.2 p.1 p.2).2 hp
      rw [e, hn] at this; simp at this) (by
      intro j hj
      rcases List.mem_cons.1 hj with e | e
      · subst e; simpa using hi
      · obtain ⟨p, hp, rfl⟩ := List.mem_map.1 e
        have hv := (h.rep.2 p.1 p.2).2 hp
        simp only [List.mem_range]
        refine Nat.lt_of_not_le fun hle => ?_
        rw [h.range _ hle] at hv; simp at hv)
  simp [h.holds.1] at this
  rw [h.size]; omega

theorem Repr.insert {IB : Nat} {v : CVec α} {E s} (h : Repr IB v E s) (dbg : Bool) (zero : α) (junk : Junk α) (i : Nat) (t : α)
    (hi : i < s.size) (hn : s.val i = none) :
    ∃ v' n E', v.insertElement dbg IB zero junk i t = .ok (v', n) ∧ Repr IB v' E' { s with val := upd s.val i (some t) } ∧
      n < v'.filled ∧ E'[n]? = some (i, t) := by
  obtain ⟨v1, g1, g2, g3⟩ := h.grow dbg zero junk (h.filled_lt hi hn)
  obtain ⟨n, h1, h2, h3⟩ := g2.lb i
  obtain ⟨a1, a2, ha1, ha2, ha3, ha4⟩ := insert_prefix v1.idx n v1.filled (i + IB) h2 (by rw [g2.idxLen]; exact g3)
  obtain ⟨b1, b2, hb1, hb2, hb3, hb4⟩ := insert_prefix v1.val n v1.filled t h2 (by rw [g2.valLen]; exact g3)
  have hr : Repr IB ⟨v1.size, v1.cap, v1.filled + 1, a2, b2⟩ (E.take n ++ (i, t) :: E.drop n) { s with val := upd s.val i (some t) } :=
    { size := g2.size, idxLen := by simp only; rw [ha3, g2.idxLen], valLen := by simp only; rw [hb3, g2.valLen], fill := g3
      capPos := g2.capPos, capLe := g2.capLe
      holds := by
        refine ⟨?_, ?_, ?_⟩
        · have := g2.holds.1; simp; omega
        · simp only; rw [ha4, g2.holds.2.1]; simp [List.map_take, List.map_drop]
        · simp only; rw [hb4, g2.holds.2.2]; simp [List.map_take, List.map_drop]
      rep := g2.rep.insert h3 hn t
      range := by
        intro j hj; simp only [upd]; simp only at hj; rw [if_neg (by omega)]; exact h.range j hj }
  have hdup : (if dbg = true ∧ v1.filled ≠ 0 ∧ v1.filled ≠ n then (do
      let x ← rd false v1.idx n
      check dbg (x ≠ i + IB) .internalLogic : M Unit) else .ok ()) = .ok () := by
    split
    · rename_i hc
      have hn' : n < v1.filled := by omega
      have hd : n < E.length := by rw [g2.holds.1]; exact hn'
      have hx := g2.idxAt hn'
      rw [List.getElem?_eq_getElem hd] at hx
      rw [rd_eq_ok.2 hx, bind_ok, check_true]
      intro e
      have : s.val E[n].1 = some E[n].2 := g2.rep.some_of_getElem (List.getElem?_eq_getElem hd)
      rw [show E[n].1 = i by simp only at e; omega, hn] at this; simp at this
    · rfl
  have hfirst : (if dbg = true then (do
      let r ← v.findElement dbg IB i
      check dbg (r.isNone = true) .badIndex : M Unit) else .ok ()) = .ok () := by
    split
    · rw [h.findElement, bind_ok, hn]; simp
    · rfl
  refine ⟨_, n, _, ?_, hr, by simp only; omega, ?_⟩
  · unfold CVec.insertElement
    rw [hfirst, bind_ok, g1, bind_ok, h1, bind_ok, hdup, bind_ok, ha1, bind_ok, ha2, bind_ok, hb1, bind_ok, hb2, bind_ok]
    simp only [hr.invariants dbg, bind_ok]
  · have : (E.take n).length = n := by have := g2.holds.1; simp; omega
    rw [List.getElem?_append_right (by omega), this]; simp

theorem Repr.setAt {IB : Nat} {v : CVec α} {E s} (h : Repr IB v E s) {n i : Nat} {w : α} (hn : n < v.filled) (he : E[n]? = some (i, w)) (t : α) :
    Repr IB { v with val := v.val.set n t } (E.set n (i, t)) { s with val := upd s.val i (some t) } :=
  { size := h.size, idxLen := h.idxLen, valLen := by simpa using h.valLen, fill := h.fill, capPos := h.capPos, capLe := h.capLe
    holds := by
      refine ⟨by simpa using h.holds.1, ?_, ?_⟩
      · rw [List.map_set]
        simp only
        rw [h.holds.2.1]
        apply List.ext_getElem?; intro j
        rw [List.getElem?_set]
        split
        · rename_i e; subst e
          obtain ⟨hl, hv⟩ := List.getElem?_eq_some_iff.1 he
          simp [hl, hv]
        · rfl
      · rw [List.map_set, ← h.holds.2.2, List.take_set]
    rep := h.rep.set he t
    range := by
      intro j hj; simp only [upd]; simp only at hj
      split
      · rename_i e; subst e
        have := h.rep.some_of_getElem he
        rw [h.range j hj] at this; simp at this
      · exact h.range j hj }

theorem Repr.empty {IB : Nat} {v : CVec α} {E s} (h : Repr IB v E s) : Repr IB { v with filled := 0 } [] ⟨s.size, fun _ => none⟩ :=
  { size := h.size, idxLen := h.idxLen, valLen := h.valLen, fill := Nat.zero_le _, capPos := h.capPos, capLe := h.capLe
    holds := ⟨rfl, by simp, by simp⟩, rep := rep_nil, range := fun _ _ => rfl }

theorem repr_fresh (IB size cap : Nat) (idx : List Nat) (val : List α) (h1 : idx.length = cap) (h2 : val.length = cap)
    (hc : 0 < size → 0 < cap) (hl : cap ≤ size) : Repr IB ⟨size, cap, 0, idx, val⟩ [] ⟨size, fun _ => none⟩ :=
  { size := rfl, idxLen := h1, valLen := h2, fill := Nat.zero_le _, capPos := hc, capLe := hl
    holds := ⟨rfl, by simp, by simp⟩, rep := rep_nil, range := fun _ _ => rfl }

theorem Repr.erase {IB : Nat} {v : CVec α} {E s} (h : Repr IB v E s) (dbg : Bool) (i : Nat) :
    ∃ v' E', v.eraseElement dbg IB i = .ok v' ∧ Repr IB v' E' { s with val := upd s.val i none } := by
  unfold CVec.eraseElement
  rcases h.slot i with ⟨n, w, h1, h2, h3, h4, h5⟩ | ⟨h1, h2⟩
  · obtain ⟨a1, ha1, ha2, ha3⟩ := erase_prefix v.idx n v.filled h2 (by rw [h.idxLen]; exact h.fill)
    obtain ⟨b1, hb1, hb2, hb3⟩ := erase_prefix v.val n v.filled h2 (by rw [h.valLen]; exact h.fill)
    have hr : Repr IB ⟨v.size, v.cap, v.filled - 1, a1, b1⟩ (E.take n ++ E.drop (n + 1)) { s with val := upd s.val i none } :=
      { size := h.size, idxLen := by simp only; rw [ha2, h.idxLen], valLen := by simp only; rw [hb2, h.valLen]
        fill := by have := h.fill; simp only; omega, capPos := h.capPos, capLe := h.capLe
        holds := by
          refine ⟨?_, ?_, ?_⟩
          · have := h.holds.1; simp; omega
          · simp only; rw [ha3, h.holds.2.1]; simp [List.map_take, List.map_drop]
          · simp only; rw [hb3, h.holds.2.2]; simp [List.map_take, List.map_drop]
        rep := h.rep.erase h3
        range := by
          intro j hj; simp only [upd]; split
          · rfl
          · exact h.range j hj }
    refine ⟨_, _, ?_, hr⟩
    simp only [h1, bind_ok, ha1, hb1, hr.invariants dbg]
  · have hs : upd s.val i none = s.val := by
      funext j; simp only [upd]; split
      · rename_i e; rw [e, h2]
      · rfl
    refine ⟨v, E, ?_, by rw [hs]; exact h⟩
    simp only [h1, bind_ok, h.invariants dbg]

/-- The trimming loop stops at the first entry (from the back) below `size`. -/
theorem shrink_spec (dbg : Bool) (IB size : Nat) (idx : List Nat) (E : List (Nat × α)) {s : Nat → Option α} (hr : Rep E s) :
    ∀ f, f ≤ E.length → (∀ n, n < f → idx[n]? = E[n]?.map (fun p => p.1 + IB)) →
      ∃ g, shrink dbg IB size idx f = .ok g ∧ g ≤ f ∧ (∀ p ∈ E.take g, p.1 < size) ∧ (∀ n p, g ≤ n → n < f → E[n]? = some p → size ≤ p.1) := by
  intro f
  induction f with
  | zero => intro _ _; exact ⟨0, rfl, Nat.le_refl _, by simp, fun n p h1 h2 => by omega⟩
  | succ f ih =>
    intro hf hx
    have hlt : f < E.length := by omega
    have := hx f (by omega)
    rw [List.getElem?_eq_getElem hlt] at this
    rw [CVec.shrink, rd_eq_ok.2 this, bind_ok]
    by_cases hc : E[f].1 + IB - IB ≥ size
    · rw [if_pos hc]
      obtain ⟨g, g1, g2, g3, g4⟩ := ih (by omega) (fun n hn => hx n (by omega))
      refine ⟨g, g1, by omega, g3, ?_⟩
      intro n p q1 q2 q3
      by_cases e : n = f
      · subst e; rw [List.getElem?_eq_getElem hlt] at q3; cases q3; omega
      · exact g4 n p q1 (by omega) q3
    · rw [if_neg hc]
      refine ⟨f + 1, rfl, Nat.le_refl _, ?_, fun n p h1 h2 => by omega⟩
      intro p hp
      obtain ⟨n, hn, rfl⟩ := List.mem_iff_getElem.1 hp
      simp only [List.length_take] at hn
      rw [List.getElem_take]
      by_cases e : n = f
      · subst e; omega
      · have := hr.key_lt (List.getElem?_eq_getElem (show n < E.length by omega)) (List.getElem?_eq_getElem hlt) (by omega)
        omega

theorem splits_of_pieces {E : List (Nat × α)} {k n : Nat} (hn : n ≤ E.length) (h1 : ∀ p ∈ E.take n, p.1 < k)
    (h2 : ∀ (m : Nat) p, n ≤ m → E[m]? = some p → k ≤ p.1) : Splits (E.map (·.1)) 0 E.length k n := by
  refine ⟨by omega, hn, ?_, ?_⟩
  · intro i x _ hi hx
    rw [List.getElem?_map, Option.map_eq_some_iff] at hx
    obtain ⟨p, hp, rfl⟩ := hx
    exact h1 p (List.mem_of_getElem? (i := i) (by rw [List.getElem?_take, if_pos hi]; exact hp))
  · intro i x hi _ hx
    rw [List.getElem?_map, Option.map_eq_some_iff] at hx
    obtain ⟨p, hp, rfl⟩ := hx
    exact h2 i p hi hp

theorem Repr.resizeTrue {IB : Nat} {v : CVec α} {E s} (h : Repr IB v E s) (dbg : Bool) (zero : α) (junk : Junk α) (n : Nat) :
    ∃ v' E', v.resize dbg IB zero junk n true = .ok v' ∧ Repr IB v' E' ⟨n, fun j => if j < n then s.val j else none⟩ := by
  have hfc := h.fill
  have hlen := h.holds.1
  let c := restrictCapacity n v.cap
  have hc : c = restrictCapacity n v.cap := rfl
  have hcn : c ≤ n := by rw [hc]; unfold restrictCapacity; omega
  -- the entries that survive the truncation of the arrays
  have hold : Holds IB (resizeInit v.idx c 0) (resizeInit v.val c zero) (min c v.filled) (E.take (min c v.filled)) := by
    refine (h.holds.take (Nat.min_le_right _ _)).resize (Nat.min_le_left _ _) ?_ ?_
    · rw [h.idxLen]; omega
    · rw [h.valLen]; omega
  have hidx : ∀ m, m < min c v.filled → (resizeInit v.idx c 0)[m]? = E[m]?.map (fun p => p.1 + IB) := by
    intro m hm
    have := congrArg (fun l => l[m]?) hold.2.1
    simpa [List.getElem?_take, hm, show m < c by omega, show m < v.filled by omega] using this
  obtain ⟨g, g1, g2, g3, g4⟩ := shrink_spec dbg IB n (resizeInit v.idx c 0) E h.rep (min c v.filled) (by omega) hidx
  -- g is the split position of the whole list
  have hsp : Splits (E.map (·.1)) 0 E.length n g := by
    refine splits_of_pieces (by omega) g3 ?_
    intro m p hm hp
    by_cases hmf : m < min c v.filled
    · exact g4 m p hm hmf hp
    · -- then c < filled, hence c = n, and the m-th key of a strictly increasing list is at least m
      have hml : m < E.length := (List.getElem?_eq_some_iff.1 hp).1
      have hcn' : c = n := by
        rw [hc]; unfold restrictCapacity
        have : c < v.filled := by omega
        rw [hc] at this; unfold restrictCapacity at this
        omega
      have : ∀ k (q : Nat × α), E[k]? = some q → k ≤ q.1 := by
        intro k
        induction k with
        | zero => intro q _; omega
        | succ k ih =>
          intro q hq
          have hk : k < E.length := by have := (List.getElem?_eq_some_iff.1 hq).1; omega
          have a := ih _ (List.getElem?_eq_getElem hk)
          have b := h.rep.key_lt (List.getElem?_eq_getElem hk) hq (by omega)
          omega
      have := this m p hp
      omega
  have hr : Repr IB ⟨n, c, g, resizeInit v.idx c 0, resizeInit v.val c zero⟩ (E.take g) ⟨n, fun j => if j < n then s.val j else none⟩ :=
    { size := rfl, idxLen := length_resizeInit _ _ _, valLen := length_resizeInit _ _ _, fill := by simp only; omega
      capPos := by intro hp; simp only at hp ⊢; rw [hc]; unfold restrictCapacity; omega
      capLe := hcn
      holds := by
        have := hold.take g2
        rwa [List.take_take, Nat.min_eq_left g2] at this
      rep := h.rep.takeBelow hsp
      range := by intro i hi; simp only at hi ⊢; rw [if_neg (by omega)] }
  refine ⟨_, _, ?_, hr⟩
  unfold CVec.resize
  simp only [← hc, if_true, g1, bind_ok, hr.invariants dbg]

theorem Repr.reserveTrue {IB : Nat} {v : CVec α} {E s} (h : Repr IB v E s) (dbg : Bool) (zero : α) (junk : Junk α) (n : Nat) :
    ∃ v', v.reserve dbg IB zero junk n true = .ok v' ∧ ∃ s', Repr IB v' (E.take (max n 1)) s' ∧ s'.size = s.size := by
  have hfc := h.fill
  have hlen := h.holds.1
  have hcl := h.capLe
  let c := restrictCapacity v.size n
  have hc : c = restrictCapacity v.size n := rfl
  have hmin : min c v.filled = min (max n 1) v.filled := by rw [hc]; unfold restrictCapacity; omega
  have htake : E.take (min c v.filled) = E.take (max n 1) := by
    rw [hmin, ← hlen]
    rcases Nat.le_total (max n 1) E.length with hle | hle
    · rw [Nat.min_eq_left hle]
    · rw [Nat.min_eq_right hle, List.take_length, List.take_of_length_le hle]
  have hold : Holds IB (resizeInit v.idx c 0) (resizeInit v.val c zero) (min c v.filled) (E.take (max n 1)) := by
    rw [← htake]
    refine (h.holds.take (Nat.min_le_right _ _)).resize (Nat.min_le_left _ _) ?_ ?_
    · rw [h.idxLen]; omega
    · rw [h.valLen]; omega
  -- the partial function of the surviving entries
  classical
  let s' : Vec α := ⟨s.size, fun j => if (∃ w, (j, w) ∈ E.take (max n 1)) then s.val j else none⟩
  have hr : Repr IB ⟨v.size, c, min c v.filled, resizeInit v.idx c 0, resizeInit v.val c zero⟩ (E.take (max n 1)) s' :=
    { size := h.size, idxLen := length_resizeInit _ _ _, valLen := length_resizeInit _ _ _, fill := Nat.min_le_left _ _
      capPos := by intro hp; simp only at hp ⊢; rw [hc]; unfold restrictCapacity; omega
      capLe := by simp only; rw [hc]; unfold restrictCapacity; omega
      holds := hold
      rep := by
        refine ⟨h.rep.1.sublist (List.take_sublist _ _), ?_⟩
        intro k w
        show (if (∃ w, (k, w) ∈ E.take (max n 1)) then s.val k else none) = some w ↔ _
        constructor
        · intro hk
          split at hk
          · rename_i hex
            obtain ⟨w', hw'⟩ := hex
            have := (h.rep.2 k w').2 (List.mem_of_mem_take hw')
            rw [hk] at this; cases this; exact hw'
          · simp at hk
        · intro hk
          rw [if_pos ⟨w, hk⟩]
          exact (h.rep.2 k w).2 (List.mem_of_mem_take hk)
      range := by
        intro i hi
        show (if _ then s.val i else none) = none
        rw [h.range i hi]; exact ite_self _ }
  refine ⟨_, ?_, s', hr, rfl⟩
  unfold CVec.reserve
  simp only [← hc, if_true, hr.invariants dbg, bind_ok]

theorem Repr.pushBack {IB : Nat} {v : CVec α} {E s} (h : Repr IB v E s) (dbg : Bool) (zero : α) (junk : Junk α) (i : Nat) (t : α)
    (hi : i < s.size) (hn : ∀ j, s.val j ≠ none → j < i) :
    ∃ v' E', v.pushBack dbg IB zero junk i t = .ok v' ∧ Repr IB v' E' { s with val := upd s.val i (some t) } := by
  have hni : s.val i = none := by
    cases hs : s.val i with
    | none => rfl
    | some w => have := hn i (by simp [hs]); omega
  have hfirst : (if dbg = true ∧ v.filled ≠ 0 then (do
      let x ← rd dbg v.idx (v.filled - 1)
      check dbg (x < i + IB) .externalLogic : M Unit) else .ok ()) = .ok () := by
    split
    · rename_i hc
      have hd : v.filled - 1 < E.length := by rw [h.holds.1]; omega
      have hx := h.idxAt (n := v.filled - 1) (by omega)
      rw [List.getElem?_eq_getElem hd] at hx
      rw [rd_eq_ok.2 hx, bind_ok, check_true]
      have : s.val E[v.filled - 1].1 = some E[v.filled - 1].2 := h.rep.some_of_getElem (List.getElem?_eq_getElem hd)
      have := hn _ (by rw [this]; simp)
      simp only; omega
    · rfl
  obtain ⟨v1, g1, g2, g3⟩ := h.grow dbg zero junk (h.filled_lt hi hni)
  have ext {β : Type} (l : List β) (x : β) (hl : v1.filled < l.length) : (l.set v1.filled x).take (v1.filled + 1) = l.take v1.filled ++ [x] := by
    rw [List.take_add_one, List.take_set_of_le (Nat.le_refl _)]
    simp [hl]
  have hr : Repr IB ⟨v1.size, v1.cap, v1.filled + 1, v1.idx.set v1.filled (i + IB), v1.val.set v1.filled t⟩ (E ++ [(i, t)])
      { s with val := upd s.val i (some t) } :=
    { size := g2.size, idxLen := by simpa using g2.idxLen, valLen := by simpa using g2.valLen, fill := g3, capPos := g2.capPos, capLe := g2.capLe
      holds := by
        refine ⟨by have := g2.holds.1; simp; omega, ?_, ?_⟩
        · simp only; rw [ext _ _ (by rw [g2.idxLen]; exact g3), g2.holds.2.1]; simp
        · simp only; rw [ext _ _ (by rw [g2.valLen]; exact g3), g2.holds.2.2]; simp
      rep := g2.rep.append hn t
      range := by
        intro j hj; simp only [upd]; simp only at hj; rw [if_neg (by omega)]; exact h.range j hj }
  refine ⟨_, _, ?_, hr⟩
  unfold CVec.pushBack
  rw [hfirst, bind_ok, g1, bind_ok, check_true g3, bind_ok, wr_ok (by rw [g2.idxLen]; exact g3), bind_ok,
    wr_ok (by rw [g2.valLen]; exact g3), bind_ok]
  simp only [hr.invariants dbg, bind_ok]

theorem Repr.popBack {IB : Nat} {v : CVec α} {E s} (h : Repr IB v E s) (dbg : Bool) (hne : ∃ j, s.val j ≠ none) :
    ∃ v' E' k, v.popBack dbg IB = .ok v' ∧ IsLast s.val k ∧ Repr IB v' E' { s with val := upd s.val k none } := by
  obtain ⟨j, hj⟩ := hne
  obtain ⟨w, hw⟩ := Option.ne_none_iff_exists'.1 hj
  have hmem := (h.rep.2 j w).1 hw
  have hE : E ≠ [] := by intro e; rw [e] at hmem; simp at hmem
  obtain ⟨p, hp⟩ := List.getLast?_eq_some_iff.1 (List.getLast?_eq_some_getLast hE)
  have hl : E.getLast? = some ((E.getLast hE).1, (E.getLast hE).2) := List.getLast?_eq_some_getLast hE
  obtain ⟨d1, d2, d3⟩ := h.rep.dropLast hl
  have hf : 0 < v.filled := by
    rw [← h.holds.1]; exact List.length_pos_iff.2 hE
  have hr : Repr IB { v with filled := v.filled - 1 } E.dropLast { s with val := upd s.val (E.getLast hE).1 none } :=
    { size := h.size, idxLen := h.idxLen, valLen := h.valLen, fill := by have := h.fill; simp only; omega, capPos := h.capPos, capLe := h.capLe
      holds := by
        have := h.holds.take (g := v.filled - 1) (by omega)
        rwa [← h.holds.1, ← List.dropLast_eq_take, h.holds.1] at this
      rep := d3
      range := by
        intro i hi; simp only [upd]; split
        · rfl
        · exact h.range i hi }
  refine ⟨_, _, _, ?_, ⟨by rw [d2]; simp, d1⟩, hr⟩
  unfold CVec.popBack
  rw [check_true (show v.filled > 0 from hf), bind_ok, if_neg (by omega)]
  simp only [hr.invariants dbg, bind_ok]

/-- Iterating from `find (i)` to `end ()`. -/
theorem Repr.traverseFrom {IB : Nat} {v : CVec α} {E s} (h : Repr IB v E s) (dbg : Bool) (i : Nat) :
    ∃ n, v.find IB i = .ok n ∧ Splits (E.map (·.1)) 0 E.length i n ∧ v.traverseFrom dbg IB i = .ok (E.drop n) := by
  obtain ⟨n, h1, h2, h3⟩ := h.lb i
  obtain ⟨m, m1, m2, m3⟩ := h.lb v.size
  have hm : m = v.filled := by
    refine Nat.le_antisymm m2 (Nat.le_of_not_lt fun hlt => ?_)
    have hl : m < E.length := by rw [h.holds.1]; exact hlt
    have x1 := (split_pieces m3).2.2 E[m] (List.mem_iff_getElem.2 ⟨0, by simp; omega, by simp⟩)
    have x2 := h.rep.some_of_getElem (List.getElem?_eq_getElem hl)
    rw [h.range _ (by rw [← h.size]; exact x1)] at x2; simp at x2
  subst hm
  refine ⟨n, h1, h3, ?_⟩
  have hd : ∀ k, k < v.filled → ∃ hk : k < E.length, v.deref dbg IB k = .ok E[k] := by
    intro k hk
    have hl : k < E.length := by rw [h.holds.1]; exact hk
    refine ⟨hl, ?_⟩
    have a := h.idxAt hk; have b := h.valAt hk
    rw [List.getElem?_eq_getElem hl] at a b
    have x2 : s.val E[k].1 = some E[k].2 := h.rep.some_of_getElem (List.getElem?_eq_getElem hl)
    have hlt : E[k].1 < v.size := by
      rw [h.size]; refine Nat.lt_of_not_le fun hle => ?_
      rw [h.range _ hle] at x2; simp at x2
    simp only [CVec.deref, CVec.find, m1, bind_ok, check_true (show k ≠ v.filled by omega), rd_eq_ok.2 a, rd_eq_ok.2 b,
      Nat.add_sub_cancel, check_true hlt]
  obtain ⟨t, t1, t2⟩ := loop_inv (f := fun j acc => (do let p ← v.deref dbg IB (n + j); .ok (acc ++ [p]) : M (List (Nat × α))))
    (n := v.filled - n) (s := []) (fun k acc => acc = (E.drop n).take k) (by simp) (by
      intro k t hk e
      obtain ⟨hk', e1⟩ := hd (n + k) (by omega)
      refine ⟨t ++ [E[n + k]], by simp only [e1, bind_ok], ?_⟩
      rw [e, List.take_add_one, List.getElem?_drop, List.getElem?_eq_getElem hk']; rfl)
  simp only [CVec.traverseFrom, CVec.find, h1, m1, bind_ok, if_neg (show ¬ n > v.filled by omega), t1, t2]
  rw [List.take_of_length_le (by have := h.holds.1; simp; omega)]

end Ublas.CVec
