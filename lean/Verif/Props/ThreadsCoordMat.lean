import Verif.Model.ThreadsCoordMat
import Verif.Props.Threads
/-! # C114 for coordinate_matrix -/
namespace Ublas
namespace Threads
open Search
variable {R A B : Type} {own ro : Loc → Prop}

theorem stdUpperBoundT_ok {m : TMem R} {arr k : Nat} (hc : ∀ off, own (.nat arr off) ∨ ro (.nat arr off)) {l : List Nat} (hl : m.nat arr = l) :
    ∀ (fuel first len : Nat) {r : Nat}, stdUpperBound l k fuel first len = .ok r → Conf own ro m (stdUpperBoundT arr k fuel first len) r m := by
  intro fuel
  induction fuel with
  | zero =>
    intro first len r h
    unfold stdUpperBound at h
    unfold stdUpperBoundT
    split at h
    · rename_i h0; rw [if_pos h0]; cases h; exact .ret _ _
    · cases h
  | succ fuel ih =>
    intro first len r h
    unfold stdUpperBound at h
    unfold stdUpperBoundT
    split at h
    · rename_i h0; rw [if_pos h0]; cases h; exact .ret _ _
    · rename_i h0; rw [if_neg h0]
      obtain ⟨x, e, h⟩ := bind_eq_ok h
      refine (Conf.rN' hl hc e).bind ?_
      split at h
      · rename_i h1; rw [if_pos h1]; exact ih _ _ h
      · rename_i h1; rw [if_neg h1]; exact ih _ _ h

theorem upperBoundT_ok {m : TMem R} {arr b e k r : Nat} (hc : ∀ off, own (.nat arr off) ∨ ro (.nat arr off)) {l : List Nat} (hl : m.nat arr = l) (h : upperBound l b e k = .ok r) :
    Conf own ro m (upperBoundT arr b e k) r m := by
  unfold upperBound at h
  unfold upperBoundT
  split at h
  · rename_i h0; rw [if_pos h0]; cases h; exact .ret _ _
  · rename_i h0; rw [if_neg h0]
    obtain ⟨x, e1, h⟩ := bind_eq_ok h
    refine (Conf.rN' hl hc e1).bind ?_
    split at h
    · rename_i h1; rw [if_pos h1]; cases h; exact .ret _ _
    · rename_i h1; rw [if_neg h1]
      obtain ⟨y, e2, h⟩ := bind_eq_ok h
      refine (Conf.rN' hl hc e2).bind ?_
      split at h
      · rename_i h2; rw [if_pos h2]; cases h; exact .ret _ _
      · rename_i h2; rw [if_neg h2]; exact stdUpperBoundT_ok hc hl _ _ _ h

theorem coordMatSlotT_ok {m : TMem R} {o : Orient} {IB : Nat} {p : Nat × Nat} {a b c f : Nat} {rest : List Nat} {idx : List (Nat × Nat)} (hc : ∀ arr off, own (.nat arr off) ∨ ro (.nat arr off))
    (h0 : m.nat 0 = a :: b :: c :: f :: rest) (h1 : m.nat 1 = idx.map (·.1)) (h2 : m.nat 2 = idx.map (·.2)) {r : Option Nat} (h : CoordMat.search idx f (CoordMat.key o IB p) = .ok r) :
    Conf own ro m (coordMatSlotT o IB p) r m := by
  unfold CoordMat.search CoordMat.key at h
  unfold coordMatSlotT
  obtain ⟨b, e1, h⟩ := bind_eq_ok h
  obtain ⟨e, e2, h⟩ := bind_eq_ok h
  have hf : Conf own ro m (getN false 0 3) f m := Conf.rN (v := f) (hc _ _) (by rw [h0]; rfl)
  refine hf.bind ((lowerBoundT_ok (hc 1) h1 e1).bind (hf.bind ((upperBoundT_ok (hc 1) h1 e2).bind ?_)))
  split at h
  · rename_i hi; rw [if_pos hi]; cases h; exact .ret _ _
  · rename_i hi; rw [if_neg hi]
    obtain ⟨it, e3, h⟩ := bind_eq_ok h
    refine (lowerBoundT_ok (hc 2) h2 e3).bind ?_
    split at h
    · rename_i hi; rw [if_pos hi]; cases h; exact .ret _ _
    · rename_i hi; rw [if_neg hi]
      obtain ⟨x, e4, h⟩ := bind_eq_ok h
      refine (Conf.rN' h2 (hc 2) e4).bind ?_
      split at h
      · rename_i hx; rw [if_pos hx]; cases h; exact .ret _ _
      · rename_i hx; rw [if_neg hx]; cases h; exact .ret _ _

theorem coordMatGetT_sorted [Add R] {m : TMem R} {dbg full : Bool} {srt : List ((Nat × Nat) × R) → List ((Nat × Nat) × R)} {o : Orient} {IB : Nat} {p : Nat × Nat} {zero x : R} {v : CoordMat R}
    (hc : ∀ l, own l ∨ ro l) (h0 : m.nat = (coordMatMem v).nat) (h1 : m.elt = v.coo.val) (hs : v.coo.sorted = true) (h : v.get srt full dbg o IB zero p = .ok x) :
    Conf own ro m (coordMatGetT dbg srt o IB zero p) x m := by
  unfold CoordMat.get at h
  unfold coordMatGetT
  have hsort : Conf own ro m (coordMatSortT dbg srt) () m := by
    unfold coordMatSortT
    refine (Conf.rN (v := 1) (hc _) (by rw [h0]; show [_, _, _, _, _, if v.coo.sorted = true then 1 else 0][5]? = _; rw [hs]; rfl)).bind ?_
    rw [if_pos (by decide)]; exact .ret _ _
  refine hsort.bind ?_
  obtain ⟨p, e1, h⟩ := bind_eq_ok h
  cases h
  unfold Coo.get at e1
  obtain ⟨q, e2, e1⟩ := bind_eq_ok e1
  unfold Coo.find at e2
  obtain ⟨w, e3, e2⟩ := bind_eq_ok e2
  unfold Coo.sort at e3
  rw [if_neg (by rw [hs]; simp)] at e3
  cases e3
  obtain ⟨r, e4, e2⟩ := bind_eq_ok e2
  cases e2
  have n0 : m.nat 0 = [v.size1, v.size2, v.coo.cap, v.coo.filled, v.coo.sortedFilled, if v.coo.sorted then 1 else 0] := by rw [h0]; rfl
  have n1 : m.nat 1 = v.coo.idx.map (·.1) := by rw [h0]; rfl
  have n2 : m.nat 2 = v.coo.idx.map (·.2) := by rw [h0]; rfl
  refine (coordMatSlotT_ok (fun a o => hc _) n0 n1 n2 e4).bind ?_
  cases r with
  | none => cases e1; exact .ret _ _
  | some n =>
    obtain ⟨y, g, e1⟩ := bind_eq_ok e1
    cases e1
    exact Conf.rR (hc _) (by rw [h1]; exact rd_eq_ok.1 g)

/-- **C114** (partial), coordinate_matrix in a sorted state.  Missing: unsorted states, where it is false (`C114_coordinate_matrix_refuted`). -/
theorem C114_coordinate_matrix_partial [AddCommMonoid R] (srt : List ((Nat × Nat) × R) → List ((Nat × Nat) × R)) (hsrt : CoordMat.Sorts srt) (full dbg : Bool) (o : Orient) (IB : Nat) (v : CoordMat R)
    (s : CooSpec.MState R) (h : CoordMat.Inv srt full o IB v s) (hv : v.coo.sorted = true) (C : Nat → Client (Nat × Nat) R A) (w : Nat × Nat → R → Th R Unit)
    (hC : ∀ t, (C t).Keeps (fun p => p.1 < s.rows ∧ p.2 < s.cols) (fun _ => False) (fun p => (s.st.val p).getD 0)) :
    ReadersFine (fun t => (C t).prog (coordMatGetT dbg srt o IB 0) w) (coordMatMem v) (fun t => ((C t).sem fun p => (s.st.val p).getD 0).1) :=
  readers (fun p _ => coordMatGetT_sorted (full := full) (fun _ => .inr trivial) rfl rfl hv ((h.observes hsrt dbg).2.2.1 p)) C hC

/-- `std::sort` for the examples: insertion sort by key. -/
def demoSortM : List ((Nat × Nat) × Int) → List ((Nat × Nat) × Int) := insSort lexLt

/-- A 2 × 2 matrix to which 3 and 4 were appended at (1, 0), not yet sorted. -/
def demoCoordM : CoordMat Int := ⟨2, 2, ⟨2, 2, 0, false, [(1, 0), (1, 0)], [3, 4]⟩⟩

/-- **C114** refuted for coordinate_matrix: on a matrix to which two elements were appended at one position and that nobody has read yet, two threads that only *read* element (1, 0) — through a
const reference — race: in one schedule both finish, one answers 7 (= 3 + 4) and the other 11, and the matrix is left with 11. -/
theorem C114_coordinate_matrix_refuted : (∃ v0, CoordMat.ctor demoSortM false true (fun _ => (0, 0), fun _ => 0) 2 2 2 = .ok v0 ∧
      CoordMat.run demoSortM false true .row 0 0 v0 [(.core (.append (1, 0) 3), (fun _ => (0, 0), fun _ => 0)), (.core (.append (1, 0) 4), (fun _ => (0, 0), fun _ => 0))] = .ok demoCoordM) ∧
    demoCoordM.get demoSortM false true .row 0 0 (1, 0) = .ok 7 ∧
    ∃ sched c, execute sched (fun t => if t < 2 then (Client.get (1, 0) .done : Client (Nat × Nat) Int Int).prog (coordMatGetT true demoSortM .row 0 0) (fun _ _ => .ret ()) else .ret 0) (coordMatMem demoCoordM) = .ok c ∧
      c.th 0 = .ret 11 ∧ c.th 1 = .ret 7 ∧ c.mem.elt = [11, 4] ∧ ¬ RaceFree c.log := by
  refine ⟨⟨_, rfl, rfl⟩, rfl, List.replicate 19 0 ++ List.replicate 38 1 ++ List.replicate 22 0, _, rfl, rfl, rfl, rfl, fun h => ?_⟩
  have := h ⟨0, .elt 0, true⟩ (by decide) ⟨1, .elt 0, true⟩ (by decide) (by decide) rfl
  exact absurd this.1 (by decide)

/-- Two threads reading a sorted matrix, one of them adaptively, interleaved. -/
example : ∃ c, execute ((List.range 70).map (· % 2)) (fun t => if t = 0 then Client.prog (A := Int) (coordMatGetT true demoSortM .row 0 0) (fun _ _ => .ret ()) (.get (1, 0) fun x => .get (if x = 7 then (0, 1) else (1, 1)) .done)
      else if t = 1 then Client.prog (coordMatGetT true demoSortM .row 0 0) (fun _ _ => .ret ()) (.get (1, 1) .done) else .ret 0)
      (coordMatMem (⟨2, 2, ⟨4, 2, 2, true, [(0, 1), (1, 0), (9, 9), (9, 9)], [5, 7, 0, 0]⟩⟩ : CoordMat Int)) = .ok c ∧
    c.th 0 = .ret 5 ∧ c.th 1 = .ret 0 := ⟨_, rfl, rfl, rfl⟩

end Threads
end Ublas
