import Verif.Spec.VoVCoord
import Verif.Props.Coo
import Verif.Lemmas.VectorOfVector
import Mathlib.Tactic.Convert
namespace Ublas.VoVC
open Search Assoc CooSpec
open VoV (lt_major major_lt major_lt_iff pos_eq pos_pos)
variable {α : Type} [AddCommMonoid α]

/-- What a line represents. -/
abbrev LInv (P : VVCPar α) : CoordVec α → VState α → Prop := CoordVec.Inv P.srt P.full P.IB

theorem inv_emptyRow (P : VVCPar α) (dbg : Bool) (junk : Coo.Junk Nat α) :
    ∃ r, emptyRow P dbg junk = .ok r ∧ LInv P r ⟨0, fun _ => none, true⟩ := CoordVec.inv_ctor P.srt P.full dbg P.IB junk 0 0

/-- `d` has `n` lines; line `k` represents `f k` when that is known. -/
def Lines (P : VVCPar α) (d : List (CoordVec α)) (n : Nat) (f : Nat → Option (VState α)) : Prop :=
  d.length = n ∧ ∀ k r s, f k = some s → d[k]? = some r → LInv P r s

theorem Lines.congr {P : VVCPar α} {d : List (CoordVec α)} {n : Nat} {f g : Nat → Option (VState α)} (h : Lines P d n f)
    (hfg : ∀ k, k < n → ∀ s, g k = some s → f k = some s) : Lines P d n g := by
  refine ⟨h.1, fun k r s hs hr => ?_⟩
  have : k < d.length := (List.getElem?_eq_some_iff.1 hr).1
  exact h.2 k r s (hfg k (by rw [← h.1]; exact this) s hs) hr

theorem Lines.set {P : VVCPar α} {d : List (CoordVec α)} {n : Nat} {f : Nat → Option (VState α)} (h : Lines P d n f) {k : Nat} {r : CoordVec α} {s : VState α}
    (hr : LInv P r s) : Lines P (d.set k r) n (fun l => if l = k then some s else f l) := by
  refine ⟨by simp [h.1], fun l q t ht hq => ?_⟩
  rw [List.getElem?_set] at hq
  simp only at ht
  split at ht
  · rename_i e; subst e; cases ht
    rw [if_pos rfl] at hq
    split at hq
    · cases hq; exact hr
    · cases hq
  · rename_i e
    rw [if_neg (fun h => e h.symm)] at hq
    exact h.2 l q t ht hq

theorem Lines.get {P : VVCPar α} {d : List (CoordVec α)} {n : Nat} {f : Nat → Option (VState α)} (h : Lines P d n f) (dbg : Bool) {k : Nat} (hk : k < n) {s : VState α}
    (hs : f k = some s) : ∃ r, rd dbg d k = .ok r ∧ d[k]? = some r ∧ LInv P r s := by
  have hl : k < d.length := by rw [h.1]; exact hk
  exact ⟨d[k], rd_ok hl, List.getElem?_eq_getElem hl, h.2 k _ s hs (List.getElem?_eq_getElem hl)⟩

/-- Any legal operation on a line. -/
theorem Lines.onRow {P : VVCPar α} (hsrt : CoordVec.Sorts P.srt) {d : List (CoordVec α)} {n : Nat} {f : Nat → Option (VState α)} (h : Lines P d n f) (dbg : Bool)
    (junk : Coo.Junk Nat α) {k : Nat} (hk : k < n) {s : VState α} (hs : f k = some s) (op : CoordVecOp α) (hl : vlegal s op) :
    ∃ d', VoVC.onRow dbg d k (fun r => r.step P.srt P.full dbg P.IB 0 junk op) = .ok d' ∧
      Lines P d' n (fun l => if l = k then some (vstep s op) else f l) := by
  obtain ⟨r, h1, h2, h3⟩ := h.get dbg hk hs
  obtain ⟨r', h4, h5⟩ := CoordVec.step_inv P.srt hsrt P.full dbg P.IB junk r s op h3 hl
  refine ⟨d.set k r', ?_, h.set h5⟩
  simp only [VoVC.onRow, h1, bind_ok, h4, wr_ok (show k < d.length by rw [h.1]; exact hk)]

theorem Lines.sentinel {P : VVCPar α} {d : List (CoordVec α)} {n : Nat} {f : Nat → Option (VState α)} (h : Lines P d n f) (dbg : Bool) (junk : Junk α)
    {k : Nat} (hk : k < n) :
    ∃ d', VoVC.sentinel P dbg junk d k = .ok d' ∧ Lines P d' n (fun l => if l = k then some ⟨0, fun _ => none, true⟩ else f l) := by
  obtain ⟨e, e1, e2⟩ := inv_emptyRow P dbg (junk k)
  exact ⟨d.set k e, by simp only [VoVC.sentinel, e1, bind_ok, wr_ok (show k < d.length by rw [h.1]; exact hk)], h.set e2⟩

theorem Lines.freshRow {P : VVCPar α} (hsrt : CoordVec.Sorts P.srt) {d : List (CoordVec α)} {n : Nat} {f : Nat → Option (VState α)} (h : Lines P d n f) (dbg : Bool)
    (junk junk' : Junk α) {k : Nat} (hk : k < n) (m : Nat) :
    ∃ d', VoVC.freshRow P dbg 0 junk junk' m d k = .ok d' ∧ Lines P d' n (fun l => if l = k then some ⟨m, fun _ => none, true⟩ else f l) := by
  obtain ⟨e, e1, e2⟩ := inv_emptyRow P dbg (junk k)
  obtain ⟨d', d1, d2⟩ := (h.set (k := k) e2).onRow hsrt dbg (junk' k) hk (if_pos rfl) (.resize m false) rfl
  have d1' : VoVC.onRow dbg (d.set k e) k (fun r => r.resize P.srt P.full dbg P.IB 0 (junk' k) m false) = .ok d' := d1
  refine ⟨d', ?_, d2.congr ?_⟩
  · simp only [VoVC.freshRow, e1, wr_ok (show k < d.length by rw [h.1]; exact hk), bind_ok, d1']
  · intro l hl s hs
    by_cases c : l = k
    · rw [if_pos c] at hs ⊢; exact hs
    · rw [if_neg c] at hs ⊢; simp only [if_neg c]; exact hs

/-- What line `k` of a matrix stores. -/
def lineSpec (o : Orient) (s : VVCState α) (k : Nat) : VState α :=
  if k < o.sizeM s.rows s.cols then ⟨o.sizem s.rows s.cols, fun l => s.val (o.indexM k l, o.indexm k l), s.sorted k⟩ else ⟨0, fun _ => none, true⟩

structure Inv (P : VVCPar α) (o : Orient) (v : VoVC α) (s : VVCState α) : Prop where
  size1 : v.size1 = s.rows
  size2 : v.size2 = s.cols
  lines : Lines P v.data (o.sizeM s.rows s.cols + 1) (fun k => some (lineSpec o s k))
  out : ∀ i j, ¬ (i < s.rows ∧ j < s.cols) → s.val (i, j) = none

theorem Inv.invariants {P : VVCPar α} {o : Orient} {v : VoVC α} {s : VVCState α} (h : Inv P o v s) (dbg : Bool) : v.invariants dbg o = .ok () := by
  simp only [VoVC.invariants, check_true (show o.sizeM v.size1 v.size2 + 1 = v.data.length by rw [h.size1, h.size2, h.lines.1]),
    check_true (show v.data.length ≠ 0 by rw [h.lines.1]; omega), bind_ok]

omit [AddCommMonoid α] in
theorem lineSpec_in {o : Orient} {s : VVCState α} {k : Nat} (h : k < o.sizeM s.rows s.cols) :
    lineSpec o s k = ⟨o.sizem s.rows s.cols, fun l => s.val (o.indexM k l, o.indexm k l), s.sorted k⟩ := by rw [lineSpec, if_pos h]

omit [AddCommMonoid α] in
theorem lineSpec_out {o : Orient} {s : VVCState α} {k : Nat} (h : ¬ k < o.sizeM s.rows s.cols) :
    lineSpec o s k = ⟨0, fun _ => none, true⟩ := by rw [lineSpec, if_neg h]

/-- All lines up to the last fresh, then the sentinel. -/
theorem inv_fresh {P : VVCPar α} (hsrt : CoordVec.Sorts P.srt) (dbg : Bool) (o : Orient) (junk junk' : Junk α) (d0 : List (CoordVec α)) (r c : Nat)
    (h0 : d0.length = o.sizeM r c + 1) :
    ∃ d d', loop (fun k d => VoVC.freshRow P dbg 0 junk junk' (o.sizem r c) d k) (o.sizeM r c) d0 = .ok d ∧ VoVC.sentinel P dbg junk d (o.sizeM r c) = .ok d' ∧
      Inv P o ⟨r, c, d'⟩ ⟨r, c, fun _ => none, fun _ => true⟩ := by
  obtain ⟨d, d1, d2⟩ := loop_inv (n := o.sizeM r c) (s := d0)
    (f := fun k d => VoVC.freshRow P dbg 0 junk junk' (o.sizem r c) d k)
    (fun k d => Lines P d (o.sizeM r c + 1) (fun l => if l < k then some ⟨o.sizem r c, fun _ => none, true⟩ else none))
    ⟨h0, by simp⟩ (by
      intro k d hk hd
      obtain ⟨d', e1, e2⟩ := hd.freshRow hsrt dbg junk junk' (show k < o.sizeM r c + 1 by omega) (o.sizem r c)
      refine ⟨d', e1, e2.congr ?_⟩
      intro l hl s hs
      by_cases e : l = k
      · rw [if_pos e]; rw [if_pos (by omega)] at hs; exact hs
      · rw [if_neg e]
        by_cases e' : l < k
        · rw [if_pos e']; rw [if_pos (by omega)] at hs; exact hs
        · rw [if_neg (by omega)] at hs; cases hs)
  obtain ⟨d', e1, e2⟩ := d2.sentinel dbg junk (show o.sizeM r c < o.sizeM r c + 1 by omega)
  refine ⟨d, d', d1, e1, rfl, rfl, e2.congr ?_, fun _ _ _ => rfl⟩
  intro k hk s hs
  by_cases e : k = o.sizeM r c
  · rw [if_pos e]; rw [lineSpec_out (by simp only; omega)] at hs; exact hs
  · rw [if_neg e, if_pos (by omega)]; rw [lineSpec_in (by simp only; omega)] at hs; exact hs

theorem inv_ctor {P : VVCPar α} (hsrt : CoordVec.Sorts P.srt) (dbg : Bool) (o : Orient) (junk junk' : Junk α) (rows : Nat → CoordVec α) (r c : Nat) :
    ∃ v, VoVC.ctor P dbg o 0 junk junk' rows r c = .ok v ∧ Inv P o v ⟨r, c, fun _ => none, fun _ => true⟩ := by
  obtain ⟨d, d', d1, d2, d3⟩ := inv_fresh hsrt dbg o junk junk' ((List.range (o.sizeM r c + 1)).map rows) r c (by simp)
  exact ⟨_, by simp only [VoVC.ctor, d1, d2, bind_ok, d3.invariants dbg], d3⟩

theorem Inv.update {P : VVCPar α} {o : Orient} {v : VoVC α} {s s' : VVCState α} (h : Inv P o v s) {d : List (CoordVec α)} {i j : Nat}
    (hi : i < s.rows) (hj : j < s.cols) {x : Option α} {b : Bool} {t : VState α}
    (hd : Lines P d (o.sizeM s.rows s.cols + 1) (fun l => if l = o.indexM i j then some t else some (lineSpec o s l)))
    (ht : t = ⟨o.sizem s.rows s.cols, fun m => if m = o.indexm i j then x else s.val (o.indexM (o.indexM i j) m, o.indexm (o.indexM i j) m), b⟩)
    (hs : s' = { s with val := fun p => if p = (i, j) then x else s.val p, sorted := fun k => if k = o.indexM i j then b else s.sorted k }) :
    Inv P o { v with data := d } s' := by
  subst hs; subst ht
  refine ⟨h.size1, h.size2, hd.congr ?_, ?_⟩
  · intro k hk t ht
    have hM := (lt_major (o := o) ⟨hi, hj⟩).1
    rw [← ht]
    by_cases e : k = o.indexM i j
    · subst e
      rw [if_pos rfl, lineSpec_in (by exact hM)]
      congr 3
      · funext l
        dsimp only
        by_cases e : l = o.indexm i j
        · subst e; rw [if_pos rfl, if_pos (pos_pos o i j)]
        · rw [if_neg e, if_neg (fun h => e (pos_eq.1 h).2)]
      · simp only [if_true]
    · rw [if_neg e]
      by_cases hk' : k < o.sizeM s.rows s.cols
      · rw [lineSpec_in hk', lineSpec_in (by exact hk')]
        congr 3
        · funext l
          dsimp only
          rw [if_neg (fun h => e (pos_eq.1 h).1)]
        · simp only [if_neg e]
      · rw [lineSpec_out hk', lineSpec_out (by exact hk')]
  · intro a b hab
    simp only at hab ⊢
    rw [if_neg, h.out a b hab]
    rintro ⟨⟩; exact hab ⟨hi, hj⟩

theorem Inv.line {P : VVCPar α} {o : Orient} {v : VoVC α} {s : VVCState α} (h : Inv P o v s) (dbg : Bool) {k : Nat} (hk : k < o.sizeM s.rows s.cols) :
    ∃ r, rd dbg v.data k = .ok r ∧ v.data[k]? = some r ∧ LInv P r ⟨o.sizem s.rows s.cols, fun l => s.val (o.indexM k l, o.indexm k l), s.sorted k⟩ := by
  have := h.lines.get dbg (show k < o.sizeM s.rows s.cols + 1 by omega) rfl
  rwa [lineSpec_in hk] at this

theorem Inv.last {P : VVCPar α} {o : Orient} {v : VoVC α} {s : VVCState α} (h : Inv P o v s) (dbg : Bool) :
    ∃ r, rd dbg v.data (o.sizeM s.rows s.cols) = .ok r ∧ v.data[o.sizeM s.rows s.cols]? = some r ∧ LInv P r ⟨0, fun _ => none, true⟩ := by
  have := h.lines.get dbg (show o.sizeM s.rows s.cols < o.sizeM s.rows s.cols + 1 by omega) rfl
  rwa [lineSpec_out (by omega)] at this

theorem lines_resizeInit {P : VVCPar α} {d : List (CoordVec α)} {n : Nat} {f : Nat → VState α} (h : Lines P d n (fun k => some (f k))) (n' : Nat) {e : CoordVec α}
    (he : LInv P e ⟨0, fun _ => none, true⟩) :
    Lines P (resizeInit d n' e) n' (fun k => some (if k < n then f k else ⟨0, fun _ => none, true⟩)) := by
  refine ⟨CVec.length_resizeInit _ _ _, fun k r s hs hr => ?_⟩
  cases hs
  simp only [resizeInit, List.getElem?_append, List.length_take, List.getElem?_take, List.getElem?_replicate] at hr
  have hn := h.1
  by_cases hk : k < n
  · rw [if_pos hk]
    split at hr
    · rw [if_pos (by omega)] at hr; exact h.2 k r _ rfl hr
    · split at hr
      · omega
      · cases hr
  · rw [if_neg hk]
    split at hr
    · rw [if_pos (by omega)] at hr
      have := (List.getElem?_eq_some_iff.1 hr).1; omega
    · split at hr
      · cases hr; exact he
      · cases hr

/-- An operation on the line of (i, j) that ends with the element `x` there and the bit `b`. -/
theorem Inv.onRow {P : VVCPar α} (hsrt : CoordVec.Sorts P.srt) {o : Orient} {v : VoVC α} {s s' : VVCState α} (h : Inv P o v s) (dbg : Bool) (junk : Coo.Junk Nat α)
    {i j : Nat} (hi : i < s.rows) (hj : j < s.cols) (op : CoordVecOp α)
    (hl : vlegal ⟨o.sizem s.rows s.cols, fun l => s.val (o.indexM (o.indexM i j) l, o.indexm (o.indexM i j) l), s.sorted (o.indexM i j)⟩ op)
    {x : Option α} {b : Bool}
    (ht : vstep ⟨o.sizem s.rows s.cols, fun l => s.val (o.indexM (o.indexM i j) l, o.indexm (o.indexM i j) l), s.sorted (o.indexM i j)⟩ op =
      ⟨o.sizem s.rows s.cols, fun m => if m = o.indexm i j then x else s.val (o.indexM (o.indexM i j) m, o.indexm (o.indexM i j) m), b⟩)
    (hs : s' = { s with val := fun p => if p = (i, j) then x else s.val p, sorted := fun k => if k = o.indexM i j then b else s.sorted k }) :
    ∃ r r', rd dbg v.data (o.indexM i j) = .ok r ∧ r.step P.srt P.full dbg P.IB 0 junk op = .ok r' ∧
      wr dbg v.data (o.indexM i j) r' = .ok (v.data.set (o.indexM i j) r') ∧ Inv P o { v with data := v.data.set (o.indexM i j) r' } s' := by
  have hM := (lt_major (o := o) ⟨hi, hj⟩).1
  obtain ⟨r, h1, h2, h3⟩ := h.line dbg hM
  obtain ⟨r', h4, h5⟩ := CoordVec.step_inv P.srt hsrt P.full dbg P.IB junk r _ op h3 hl
  exact ⟨r, r', h1, h4, wr_ok (by rw [h.lines.1]; omega), h.update hi hj (h.lines.set h5) ht hs⟩

theorem step_inv {P : VVCPar α} (hsrt : CoordVec.Sorts P.srt) (dbg : Bool) (o : Orient) (junk junk' : Junk α) (rows : Nat → CoordVec α) (v : VoVC α)
    (s : VVCState α) (op : VVCOp α) (h : Inv P o v s) (hl : vvclegal o s op) :
    ∃ v', VoVC.step P dbg o 0 junk junk' rows v op = .ok v' ∧ Inv P o v' (vvcstep o s op) := by
  cases op with
  | modify i j f =>
    have hlt := lt_major (o := o) hl
    obtain ⟨r, r', e1, e2, e3, e4⟩ := h.onRow hsrt dbg (junk (o.indexM i j)) hl.1 hl.2 (.core (.modify (o.indexm i j) f)) hlt.2
      (x := some (f ((s.val (i, j)).getD 0))) (b := (s.val (i, j)).isSome) (by simp only [CooSpec.vstep, CooSpec.step, pos_pos]) rfl
    exact ⟨_, by simp only [VoVC.step, VoVC.modify, VoVC.onRow, e1, bind_ok, e2, e3], e4⟩
  | insert i j t =>
    have hlt := lt_major (o := o) (r := s.rows) (c := s.cols) ⟨hl.1, hl.2.1⟩
    obtain ⟨r, r', e1, e2, e3, e4⟩ := h.onRow hsrt dbg (junk (o.indexM i j)) hl.1 hl.2.1 (.core (.insert (o.indexm i j) t))
      ⟨hlt.2, by simp only [pos_pos]; exact hl.2.2⟩ (x := some t) (b := false) (by simp only [CooSpec.vstep, CooSpec.step, pos_pos]) rfl
    exact ⟨_, by simp only [VoVC.step, VoVC.insertElement, e1, bind_ok, h.invariants dbg, e2, e3], e4⟩
  | append i j t =>
    have hlt := lt_major (o := o) hl
    obtain ⟨r, r', e1, e2, e3, e4⟩ := h.onRow hsrt dbg (junk (o.indexM i j)) hl.1 hl.2 (.core (.append (o.indexm i j) t)) hlt.2
      (x := some ((s.val (i, j)).getD 0 + t)) (b := false) (by simp only [CooSpec.vstep, CooSpec.step, pos_pos]) rfl
    exact ⟨_, by simp only [VoVC.step, VoVC.appendElement, e1, bind_ok, h.invariants dbg, e2, e3], e4⟩
  | erase i j =>
    have hlt := lt_major (o := o) hl
    obtain ⟨r, r', e1, e2, e3, e4⟩ := h.onRow hsrt dbg (junk (o.indexM i j)) hl.1 hl.2 (.core (.erase (o.indexm i j))) trivial
      (x := none) (b := true) (by simp only [CooSpec.vstep, CooSpec.step, pos_pos]) (s' := vvcstep o s (.erase i j)) rfl
    refine ⟨_, ?_, e4⟩
    simp only [VoVC.step, VoVC.eraseElement, if_neg (show ¬ o.indexM i j = v.data.length by rw [h.lines.1]; omega), VoVC.onRow, e1, bind_ok, e2, e3, e4.invariants dbg]
  | read i j =>
    have hlt := lt_major (o := o) hl
    obtain ⟨r, h1, h2, hsz, hr⟩ := h.line dbg hlt.1
    obtain ⟨c, c1, c2⟩ := hr.get (CoordVec.parOk P.srt hsrt P.full P.IB _) dbg (o.indexm i j)
    refine ⟨{ v with data := v.data.set (o.indexM i j) ⟨o.sizem s.rows s.cols, c⟩ }, ?_, h.update hl.1 hl.2 (x := s.val (i, j)) (b := true)
      (h.lines.set (s := ⟨o.sizem s.rows s.cols, fun l => s.val (o.indexM (o.indexM i j) l, o.indexm (o.indexM i j) l), true⟩) ⟨rfl, c2⟩) ?_ ?_⟩
    · have hsz' : r.size = o.sizem s.rows s.cols := hsz
      simp only [VoVC.step, VoVC.get, h1, bind_ok, hsz', check_true hlt.2, c1,
        wr_ok (show o.indexM i j < v.data.length by rw [h.lines.1]; omega)]
    · congr 1; congr 1
      funext m
      split
      · rename_i e; subst e; simp only [pos_pos]
      · rfl
    · simp only [vvcstep]; congr 1
      funext p
      split
      · rename_i e; rw [e]
      · rfl
  | clear =>
    obtain ⟨d, d1, d2⟩ := loop_inv (n := o.sizeM v.size1 v.size2) (s := v.data)
      (f := fun k d => VoVC.onRow dbg d k fun r => r.step P.srt P.full dbg P.IB 0 (junk k) (.core .clear))
      (fun k d => Lines P d (o.sizeM s.rows s.cols + 1) (fun l => some (if l < k then ⟨o.sizem s.rows s.cols, fun _ => none, true⟩ else lineSpec o s l)))
      (h.lines.congr (by intro k hk t ht; simpa using ht)) (by
        intro k d hk hd
        rw [h.size1, h.size2] at hk
        obtain ⟨d', e1, e2⟩ := hd.onRow hsrt dbg (junk k) (show k < o.sizeM s.rows s.cols + 1 by omega) rfl (.core .clear) trivial
        refine ⟨d', e1, e2.congr ?_⟩
        intro l hl t ht
        by_cases e : l = k
        · subst e
          rw [if_pos (by omega)] at ht
          rw [if_pos rfl, if_neg (by omega), lineSpec_in hk]; exact ht
        · rw [if_neg e]
          by_cases e' : l < k
          · rw [if_pos (by omega)] at ht; rw [if_pos e']; exact ht
          · rw [if_neg (by omega)] at ht; rw [if_neg e']; exact ht)
    have hi : Inv P o { v with data := d } (vvcstep o s .clear) := by
      refine ⟨h.size1, h.size2, d2.congr ?_, fun _ _ _ => rfl⟩
      intro k hk t ht
      rw [← ht, h.size1, h.size2]
      by_cases e : k < o.sizeM s.rows s.cols
      · rw [if_pos e, lineSpec_in (by exact e)]; rfl
      · rw [if_neg e, lineSpec_out e, lineSpec_out (by exact e)]
    exact ⟨_, by simp only [VoVC.step, VoVC.clear, d1, bind_ok, hi.invariants dbg], hi⟩
  | sort =>
    obtain ⟨d, d1, d2⟩ := loop_inv (n := v.data.length) (s := v.data)
      (f := fun k d => VoVC.onRow dbg d k fun r => r.step P.srt P.full dbg P.IB 0 (junk k) (.core .sort))
      (fun k d => Lines P d (o.sizeM s.rows s.cols + 1) (fun l => some (if l < k then lineSpec o (vvcstep o s .sort) l else lineSpec o s l)))
      (h.lines.congr (by intro k hk t ht; simpa using ht)) (by
        intro k d hk hd
        rw [h.lines.1] at hk
        obtain ⟨d', e1, e2⟩ := hd.onRow hsrt dbg (junk k) hk rfl (.core .sort) trivial
        refine ⟨d', e1, e2.congr ?_⟩
        intro l hl t ht
        by_cases e : l = k
        · subst e
          rw [if_pos (by omega)] at ht
          rw [if_pos rfl, if_neg (by omega), ← ht]
          by_cases e : l < o.sizeM s.rows s.cols
          · rw [lineSpec_in e, lineSpec_in (by exact e)]; rfl
          · rw [lineSpec_out e, lineSpec_out (by exact e)]; rfl
        · rw [if_neg e]
          by_cases e' : l < k
          · rw [if_pos (by omega)] at ht; rw [if_pos e']; exact ht
          · rw [if_neg (by omega)] at ht; rw [if_neg e']; exact ht)
    refine ⟨{ v with data := d }, by simp only [VoVC.step, VoVC.sort, d1, bind_ok], h.size1, h.size2, d2.congr ?_, h.out⟩
    intro k hk t ht
    rw [if_pos (by rw [h.lines.1]; exact hk)]; exact ht
  | resize r c p =>
    cases p with
    | false =>
      obtain ⟨d, d', d1, d2, d3⟩ := inv_fresh hsrt dbg o junk junk' (resizeRaw rows v.data (o.sizeM r c + 1)) r c (CVec.length_resizeRaw _ _ _)
      exact ⟨_, by simp only [VoVC.step, VoVC.resize, Bool.false_eq_true, if_false, d1, bind_ok, d2, d3.invariants dbg], d3⟩
    | true =>
      -- what line `k` holds before and after its own resize
      let old : Nat → VState α := fun k => if k < o.sizeM s.rows s.cols + 1 then lineSpec o s k else ⟨0, fun _ => none, true⟩
      let new : Nat → VState α := fun k => ⟨o.sizem r c, fun l => if l < o.sizem r c then (old k).st.val l else none, true⟩
      obtain ⟨e, he1, he2⟩ := inv_emptyRow P dbg (junk 0)
      obtain ⟨d, d1, d2⟩ := loop_inv (n := min (o.sizeM s.rows s.cols + 1) (o.sizeM r c)) (s := resizeInit v.data (o.sizeM r c + 1) e)
        (f := fun k d => VoVC.onRow dbg d k fun q => q.resize P.srt P.full dbg P.IB 0 (junk k) (o.sizem r c) true)
        (fun k d => Lines P d (o.sizeM r c + 1) (fun l => some (if l < k then new l else old l)))
        ((lines_resizeInit h.lines _ he2).congr (by intro k hk t ht; simpa using ht)) (by
          intro k d hk hd
          obtain ⟨d', e1, e2⟩ := hd.onRow hsrt dbg (junk k) (show k < o.sizeM r c + 1 by omega) rfl (.resize (o.sizem r c) true) trivial
          refine ⟨d', e1, e2.congr ?_⟩
          intro l hl t ht
          by_cases e : l = k
          · subst e
            rw [if_pos (by omega)] at ht
            rw [if_pos rfl, if_neg (by omega)]; exact ht
          · rw [if_neg e]
            by_cases e' : l < k
            · rw [if_pos (by omega)] at ht; rw [if_pos e']; exact ht
            · rw [if_neg (by omega)] at ht; rw [if_neg e']; exact ht)
      obtain ⟨d', d3, d4⟩ := loop_inv (n := o.sizeM r c - (o.sizeM s.rows s.cols + 1)) (s := d)
        (f := fun k d => VoVC.freshRow P dbg 0 junk junk' (o.sizem r c) d (o.sizeM s.rows s.cols + 1 + k))
        (fun k d => Lines P d (o.sizeM r c + 1) (fun l => some (if l < min (o.sizeM s.rows s.cols + 1 + k) (o.sizeM r c) then new l else old l)))
        (d2.congr (by intro k hk t ht; simpa using ht)) (by
          intro k d hk hd
          obtain ⟨d', e1, e2⟩ := hd.freshRow hsrt dbg junk junk' (show o.sizeM s.rows s.cols + 1 + k < o.sizeM r c + 1 by omega) (o.sizem r c)
          refine ⟨d', e1, e2.congr ?_⟩
          intro l hl t ht
          by_cases e : l = o.sizeM s.rows s.cols + 1 + k
          · rw [if_pos (by omega)] at ht
            rw [if_pos e, ← ht]
            simp only [new, old, if_neg (show ¬ l < o.sizeM s.rows s.cols + 1 by omega), ite_self]
          · rw [if_neg e]
            by_cases e' : l < min (o.sizeM s.rows s.cols + 1 + k) (o.sizeM r c)
            · rw [if_pos (by omega)] at ht; rw [if_pos e']; exact ht
            · rw [if_neg (by omega)] at ht; rw [if_neg e']; exact ht)
      have hmain : ∃ d'', (if o.sizeM r c > o.sizeM s.rows s.cols then VoVC.sentinel P dbg junk d' (o.sizeM r c)
            else VoVC.onRow dbg d' (o.sizeM r c) fun q => q.resize P.srt P.full dbg P.IB 0 (junk (o.sizeM r c)) 0 false) = .ok d'' ∧
          Lines P d'' (o.sizeM r c + 1) (fun l => some (if l < o.sizeM r c then new l else ⟨0, fun _ => none, true⟩)) := by
        by_cases hg : o.sizeM r c > o.sizeM s.rows s.cols
        · rw [if_pos hg]
          obtain ⟨d'', e1, e2⟩ := d4.sentinel dbg junk (show o.sizeM r c < o.sizeM r c + 1 by omega)
          refine ⟨d'', e1, e2.congr ?_⟩
          intro l hl t ht
          by_cases e : l = o.sizeM r c
          · rw [if_pos e]; rw [if_neg (by omega)] at ht; exact ht
          · rw [if_neg e, if_pos (by omega)]; rw [if_pos (by omega)] at ht; exact ht
        · rw [if_neg hg]
          obtain ⟨d'', e1, e2⟩ := d4.onRow hsrt dbg (junk (o.sizeM r c)) (show o.sizeM r c < o.sizeM r c + 1 by omega) rfl (.resize 0 false) (by
            rw [if_neg (by omega)]
            simp only [vlegal, old, if_pos (show o.sizeM r c < o.sizeM s.rows s.cols + 1 by omega)]
            by_cases hlt : o.sizeM r c < o.sizeM s.rows s.cols
            · rw [lineSpec_in hlt]; exact hl hlt
            · rw [lineSpec_out hlt])
          refine ⟨d'', e1, e2.congr ?_⟩
          intro l hl t ht
          by_cases e : l = o.sizeM r c
          · rw [if_pos e]; rw [if_neg (by omega)] at ht; exact ht
          · rw [if_neg e, if_pos (by omega)]; rw [if_pos (by omega)] at ht; exact ht
      obtain ⟨d'', d5, d6⟩ := hmain
      have hi : Inv P o (⟨r, c, d''⟩ : VoVC α) (vvcstep o s (.resize r c true)) := by
        refine ⟨rfl, rfl, d6.congr ?_, ?_⟩
        · intro k hk t ht
          rw [← ht]
          by_cases e : k < o.sizeM r c
          · rw [if_pos e, lineSpec_in (by exact e)]
            simp only [vvcstep, new, old]
            congr 3
            funext l
            by_cases hl : l < o.sizem r c
            · rw [if_pos hl, if_pos (major_lt e hl)]
              by_cases hko : k < o.sizeM s.rows s.cols
              · rw [if_pos (by omega), lineSpec_in hko]
              · have hn : s.val (o.indexM k l, o.indexm k l) = none := h.out _ _ (fun hh => hko (major_lt_iff.1 hh).1)
                rw [hn]
                split
                · rw [lineSpec_out hko]
                · rfl
            · rw [if_neg hl, if_neg (fun hh => hl (major_lt_iff.1 hh).2)]
          · rw [if_neg e, lineSpec_out (by exact e)]
        · intro i j hij
          simp only [vvcstep] at hij ⊢
          rw [if_neg hij]
      refine ⟨_, ?_, hi⟩
      simp only [VoVC.step, VoVC.resize, if_true, h.size1, h.size2, he1, d1, bind_ok, d3, d5, hi.invariants dbg]

theorem run_inv {P : VVCPar α} (hsrt : CoordVec.Sorts P.srt) (dbg : Bool) (o : Orient) (as : List (Act α)) : ∀ (v : VoVC α) (s : VVCState α),
    Inv P o v s → vvclegalRun o s (as.map (·.op)) →
    ∃ v', VoVC.run P dbg o 0 v as = .ok v' ∧ Inv P o v' (vvcrun o s (as.map (·.op))) := by
  induction as with
  | nil => intro v s h _; exact ⟨v, rfl, h⟩
  | cons a as ih =>
    intro v s h hl
    obtain ⟨v1, e1, h1⟩ := step_inv hsrt dbg o a.junk a.junk' a.rows v s a.op h hl.1
    obtain ⟨v2, e2, h2⟩ := ih v1 _ h1 hl.2
    exact ⟨v2, by simp [VoVC.run, e1, e2], h2⟩

end Ublas.VoVC
