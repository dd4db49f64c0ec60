import Verif.Lemmas.Threads
/-! # The member functions as sequences of accesses do what the sequential models do -/
namespace Ublas
namespace Threads
open Search
variable {R A B : Type} {own ro : Loc → Prop}

theorem bind_eq_ok {α β : Type} {x : M α} {f : α → M β} {b : β} (h : (x >>= f) = .ok b) : ∃ a, x = .ok a ∧ f a = .ok b := by
  cases x with
  | error e => cases h
  | ok a => exact ⟨a, rfl, h⟩

theorem check_eq_ok {dbg : Bool} {p : Prop} [Decidable p] {f : Fault} {u : Unit} (h : check dbg p f = .ok u) : dbg = true → p := by
  intro hd
  refine Decidable.byContradiction fun hp => ?_
  unfold check at h
  rw [if_pos ⟨hd, hp⟩] at h
  cases h

theorem Conf.chk' {m : TMem R} {d : Bool} {p : Prop} [Decidable p] {f : Fault} {u : Unit} (h : Ublas.check d p f = .ok u) : Conf own ro m (checkT d p f) () m := by
  unfold checkT; rw [if_neg (by rintro ⟨h1, h2⟩; exact h2 (check_eq_ok h h1))]; exact .ret m ()

/-- `l [i]` of an integer array the thread may read. -/
theorem Conf.rN' {m : TMem R} {d d' : Bool} {arr off v : Nat} {l : List Nat} (hl : m.nat arr = l) (hc : ∀ off, own (.nat arr off) ∨ ro (.nat arr off)) (hv : rd d' l off = .ok v) :
    Conf own ro m (getN d arr off) v m := Conf.rN (hc off) (by rw [hl]; exact rd_eq_ok.1 hv)

theorem stdLowerBoundT_ok {m : TMem R} {arr k : Nat} (hc : ∀ off, own (.nat arr off) ∨ ro (.nat arr off)) {l : List Nat} (hl : m.nat arr = l) :
    ∀ (fuel first len : Nat) {r : Nat}, stdLowerBound l k fuel first len = .ok r → Conf own ro m (stdLowerBoundT arr k fuel first len) r m := by
  intro fuel
  induction fuel with
  | zero =>
    intro first len r h
    unfold stdLowerBound at h
    unfold stdLowerBoundT
    split at h
    · rename_i h0; rw [if_pos h0]; cases h; exact .ret _ _
    · cases h
  | succ fuel ih =>
    intro first len r h
    unfold stdLowerBound at h
    unfold stdLowerBoundT
    split at h
    · rename_i h0; rw [if_pos h0]; cases h; exact .ret _ _
    · rename_i h0; rw [if_neg h0]
      obtain ⟨x, e, h⟩ := bind_eq_ok h
      refine (Conf.rN' hl hc e).bind ?_
      split at h
      · rename_i h1; rw [if_pos h1]; exact ih _ _ h
      · rename_i h1; rw [if_neg h1]; exact ih _ _ h

theorem lowerBoundT_ok {m : TMem R} {arr b e k r : Nat} (hc : ∀ off, own (.nat arr off) ∨ ro (.nat arr off)) {l : List Nat} (hl : m.nat arr = l) (h : lowerBound l b e k = .ok r) :
    Conf own ro m (lowerBoundT arr b e k) r m := by
  unfold lowerBound at h
  unfold lowerBoundT
  split at h
  · rename_i h0; rw [if_pos h0]; cases h; exact .ret _ _
  · rename_i h0; rw [if_neg h0]
    obtain ⟨x, e1, h⟩ := bind_eq_ok h
    refine (Conf.rN' hl hc e1).bind ?_
    split at h
    · rename_i h1; rw [if_pos h1]; cases h; exact .ret _ _
    · rename_i h1; rw [if_neg h1]
      obtain ⟨y, e2, h⟩ := bind_eq_ok h
      refine (Conf.rN' hl hc e2).bind ?_
      split at h
      · rename_i h2; rw [if_pos h2]; cases h; exact .ret _ _
      · rename_i h2; rw [if_neg h2]; exact stdLowerBoundT_ok hc hl _ _ _ h

/-! ## compressed_vector -/

theorem cvecSlotT_ok {m : TMem R} {IB i a b f : Nat} {rest idx : List Nat} (hc : ∀ arr off, own (.nat arr off) ∨ ro (.nat arr off)) (h0 : m.nat 0 = a :: b :: f :: rest) (h1 : m.nat 1 = idx)
    {r : Option Nat} (h : CoordVec.search idx f (i + IB) = .ok r) : Conf own ro m (cvecSlotT IB i) r m := by
  unfold CoordVec.search at h
  unfold cvecSlotT
  obtain ⟨it, e, h⟩ := bind_eq_ok h
  refine (Conf.rN (v := f) (hc _ _) (by rw [h0]; rfl)).bind ?_
  refine (lowerBoundT_ok (hc 1) h1 e).bind ?_
  refine (Conf.rN (v := f) (hc _ _) (by rw [h0]; rfl)).bind ?_
  split at h
  · rename_i hi; rw [if_pos hi]; cases h; exact .ret _ _
  · rename_i hi; rw [if_neg hi]
    obtain ⟨x, e2, h⟩ := bind_eq_ok h
    refine (Conf.rN' h1 (hc 1) e2).bind ?_
    split at h
    · rename_i hx; rw [if_pos hx]; cases h; exact .ret _ _
    · rename_i hx; rw [if_neg hx]; cases h; exact .ret _ _

theorem cvec_slot_search (IB : Nat) (v : CVec R) (i : Nat) : v.slot IB i = CoordVec.search v.idx v.filled (i + IB) := rfl

theorem cvecGetT_ok {m : TMem R} {dbg : Bool} {IB i : Nat} {zero x : R} {v : CVec R} (hc : ∀ l, own l ∨ ro l) (h0 : m.nat = (cvecMem v).nat) (h1 : m.elt = v.val)
    (h : v.get dbg IB zero i = .ok x) : Conf own ro m (cvecGetT dbg IB zero i) x m := by
  unfold CVec.get at h
  unfold cvecGetT
  obtain ⟨u, e0, h⟩ := bind_eq_ok h
  refine (Conf.rN (v := v.size) (hc _) (by rw [h0]; rfl)).bind ((Conf.chk' e0).bind ?_)
  obtain ⟨r, e, h⟩ := bind_eq_ok h
  have n0 : m.nat 0 = [v.size, v.cap, v.filled] := by rw [h0]; rfl
  have n1 : m.nat 1 = v.idx := by rw [h0]; rfl
  refine (cvecSlotT_ok (fun a o => hc _) n0 n1 e).bind ?_
  cases r with
  | none => cases h; exact .ret _ _
  | some n => exact Conf.rR (hc _) (by rw [h1]; exact rd_eq_ok.1 h)

/-! ## compressed_matrix -/

theorem cmatGetT_ok {m : TMem R} {dbg : Bool} {o : Orient} {IB i j : Nat} {zero x : R} {v : CMat R} (hc : ∀ l, own l ∨ ro l) (h0 : m.nat = (cmatMem v).nat) (h1 : m.elt = v.val)
    (h : v.get dbg o IB zero i j = .ok x) : Conf own ro m (cmatGetT dbg o IB zero i j) x m := by
  unfold CMat.get CMat.findElement at h
  unfold cmatGetT
  have n1 : m.nat 1 = v.idx1 := by rw [h0]; rfl
  have n2 : m.nat 2 = v.idx2 := by rw [h0]; rfl
  obtain ⟨p, e1, h⟩ := bind_eq_ok h
  obtain ⟨r, e, e1⟩ := bind_eq_ok e1
  have hs : Conf own ro m (cmatSlotT o IB i j) r m := by
    unfold CMat.slot at e
    unfold cmatSlotT
    refine (Conf.rN (v := v.filled1) (hc _) (by rw [h0]; rfl)).bind ?_
    dsimp only at e
    split at e
    · rename_i hf; rw [if_pos hf]; cases e; exact .ret _ _
    · rename_i hf; rw [if_neg hf]
      obtain ⟨q, e2, e⟩ := bind_eq_ok e
      unfold CMat.seek at e2
      obtain ⟨b, g1, e2⟩ := bind_eq_ok e2
      obtain ⟨e', g2, e2⟩ := bind_eq_ok e2
      obtain ⟨it, g3, e2⟩ := bind_eq_ok e2
      refine (Conf.rN' n1 (fun _ => hc _) g1).bind ((Conf.rN' n1 (fun _ => hc _) g2).bind
        ((lowerBoundT_ok (fun _ => hc _) n2 g3).bind ?_))
      split at e2
      · rename_i hi; rw [if_pos hi]; cases e2; cases e; exact .ret _ _
      · rename_i hi; rw [if_neg hi]
        obtain ⟨y, g4, e2⟩ := bind_eq_ok e2
        refine (Conf.rN' n2 (fun _ => hc _) g4).bind ?_
        cases e2
        dsimp only at e
        by_cases hy : y = o.indexm i j + IB
        · rw [if_neg (by simpa using hy)]
          rw [if_pos (by simpa using hy)] at e
          cases e; exact .ret _ _
        · rw [if_pos hy]
          rw [if_neg (by simpa using hy)] at e
          cases e; exact .ret _ _
  refine hs.bind ?_
  cases r with
  | none => cases e1; cases h; exact .ret _ _
  | some n =>
    obtain ⟨y, g, e1⟩ := bind_eq_ok e1
    cases e1; cases h
    exact Conf.rR (hc _) (by rw [h1]; exact rd_eq_ok.1 g)

/-! ## coordinate_vector, already sorted -/

theorem coordGetT_sorted [Add R] {m : TMem R} {dbg full : Bool} {srt : List (Nat × R) → List (Nat × R)} {IB i : Nat} {zero x : R} {v : CoordVec R} (hc : ∀ l, own l ∨ ro l)
    (h0 : m.nat = (coordMem v).nat) (h1 : m.elt = v.coo.val) (hs : v.coo.sorted = true) (h : v.get srt full dbg IB zero i = .ok x) : Conf own ro m (coordGetT dbg srt IB zero i) x m := by
  unfold CoordVec.get at h
  unfold coordGetT
  obtain ⟨u, e0, h⟩ := bind_eq_ok h
  refine (Conf.rN (v := v.size) (hc _) (by rw [h0]; rfl)).bind ((Conf.chk' e0).bind ?_)
  have hsort : Conf own ro m (coordSortT dbg srt) () m := by
    unfold coordSortT
    refine (Conf.rN (v := 1) (hc _) (by rw [h0]; show [_, _, _, _, if v.coo.sorted = true then 1 else 0][4]? = _; rw [hs]; rfl)).bind ?_
    rw [if_pos (by decide)]; exact .ret _ _
  refine hsort.bind ?_
  obtain ⟨p, e1, h⟩ := bind_eq_ok h
  cases h
  unfold Coo.get at e1
  obtain ⟨q, e2, e1⟩ := bind_eq_ok e1
  unfold Coo.find at e2
  obtain ⟨w, e3, e2⟩ := bind_eq_ok e2
  unfold Coo.sort at e3
  rw [if_neg (by rw [hs]; simp)] at e3
  cases e3
  obtain ⟨r, e4, e2⟩ := bind_eq_ok e2
  cases e2
  have n0 : m.nat 0 = [v.size, v.coo.cap, v.coo.filled, v.coo.sortedFilled, if v.coo.sorted then 1 else 0] := by rw [h0]; rfl
  have n1 : m.nat 1 = v.coo.idx := by rw [h0]; rfl
  refine (cvecSlotT_ok (fun a o => hc _) n0 n1 e4).bind ?_
  cases r with
  | none => cases e1; exact .ret _ _
  | some n =>
    obtain ⟨y, g, e1⟩ := bind_eq_ok e1
    cases e1
    exact Conf.rR (hc _) (by rw [h1]; exact rd_eq_ok.1 g)

/-! ## Dense matrix -/

theorem elementT_ok {m : TMem R} {dbg : Bool} {o : Orient} {i j s1 s2 : Nat} (hc : ∀ arr off, own (.nat arr off) ∨ ro (.nat arr off)) (h0 : m.nat 0 = [s1, s2]) (hi : i < s1) (hj : j < s2) :
    Conf own ro m (elementT dbg o i j) (o.elementRaw i s1 j s2) m := by
  unfold elementT
  exact (Conf.rN (v := s1) (hc _ _) (by rw [h0]; rfl)).bind ((Conf.rN (v := s2) (hc _ _) (by rw [h0]; rfl)).bind ((Conf.chk hi).bind ((Conf.chk hj).bind (.ret _ _))))

end Threads
end Ublas
