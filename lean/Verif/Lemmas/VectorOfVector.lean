import Verif.Spec.VectorOfVector
import Verif.Props.CompressedVector
import Verif.Lemmas.CMatIter
import Mathlib.Tactic.Convert
namespace Ublas.VoV
open Search Assoc SparseSpec
variable {α : Type}

theorem inv_empty (IB : Nat) : CVec.Inv IB (emptyRow : CVec α) ⟨0, fun _ => none⟩ :=
  ⟨_, CVec.repr_fresh IB 0 0 [] [] rfl rfl (by omega) (by omega)⟩

/-- `d` has `n` lines; line `k` represents `f k` when that is known. -/
def Lines (IB : Nat) (d : List (CVec α)) (n : Nat) (f : Nat → Option (Vec α)) : Prop :=
  d.length = n ∧ ∀ k r s, f k = some s → d[k]? = some r → CVec.Inv IB r s

theorem Lines.congr {IB : Nat} {d : List (CVec α)} {n : Nat} {f g : Nat → Option (Vec α)} (h : Lines IB d n f)
    (hfg : ∀ k, k < n → ∀ s, g k = some s → f k = some s) : Lines IB d n g := by
  refine ⟨h.1, fun k r s hs hr => ?_⟩
  have : k < d.length := (List.getElem?_eq_some_iff.1 hr).1
  exact h.2 k r s (hfg k (by rw [← h.1]; exact this) s hs) hr

theorem Lines.set {IB : Nat} {d : List (CVec α)} {n : Nat} {f : Nat → Option (Vec α)} (h : Lines IB d n f) {k : Nat} {r : CVec α} {s : Vec α}
    (hr : CVec.Inv IB r s) : Lines IB (d.set k r) n (fun l => if l = k then some s else f l) := by
  refine ⟨by simp [h.1], fun l q t ht hq => ?_⟩
  rw [List.getElem?_set] at hq
  simp only at ht
  split at ht
  · rename_i e; subst e; cases ht
    rw [if_pos rfl] at hq
    split at hq
    · cases hq; exact hr
    · cases hq
  · rename_i e
    rw [if_neg (fun h => e h.symm)] at hq
    exact h.2 l q t ht hq

theorem Lines.get {IB : Nat} {d : List (CVec α)} {n : Nat} {f : Nat → Option (Vec α)} (h : Lines IB d n f) (dbg : Bool) {k : Nat} (hk : k < n) {s : Vec α}
    (hs : f k = some s) : ∃ r, rd dbg d k = .ok r ∧ d[k]? = some r ∧ CVec.Inv IB r s := by
  have hl : k < d.length := by rw [h.1]; exact hk
  exact ⟨d[k], rd_ok hl, List.getElem?_eq_getElem hl, h.2 k _ s hs (List.getElem?_eq_getElem hl)⟩

/-- Any legal operation on a line. -/
theorem Lines.onRow {IB : Nat} {d : List (CVec α)} {n : Nat} {f : Nat → Option (Vec α)} (h : Lines IB d n f) (dbg : Bool) (zero : α) (junk : CVec.Junk α)
    {k : Nat} (hk : k < n) {s : Vec α} (hs : f k = some s) (op : CVOp α) (hl : cvlegal s op) :
    ∃ d', VoV.onRow dbg d k (fun r => r.step dbg IB zero junk op) = .ok d' ∧
      Lines IB d' n (fun l => if l = k then some (cvstep zero s op) else f l) := by
  obtain ⟨r, h1, h2, h3⟩ := h.get dbg hk hs
  obtain ⟨r', h4, h5⟩ := CVec.step_inv dbg IB zero junk r s op h3 hl
  refine ⟨d.set k r', ?_, h.set h5⟩
  simp only [VoV.onRow, h1, bind_ok, h4, wr_ok (show k < d.length by rw [h.1]; exact hk)]

theorem Lines.freshRow {IB : Nat} {d : List (CVec α)} {n : Nat} {f : Nat → Option (Vec α)} (h : Lines IB d n f) (dbg : Bool) (zero : α) (junk : Junk α)
    {k : Nat} (hk : k < n) (m : Nat) :
    ∃ d', VoV.freshRow dbg IB zero junk m d k = .ok d' ∧ Lines IB d' n (fun l => if l = k then some ⟨m, fun _ => none⟩ else f l) := by
  obtain ⟨r, h1, h2⟩ := CVec.step_inv dbg IB zero (junk k) emptyRow _ (.resize m false) (inv_empty IB) trivial
  have h1' : (emptyRow : CVec α).resize dbg IB zero (junk k) m false = .ok r := h1
  refine ⟨(d.set k emptyRow).set k r, ?_, ?_⟩
  · simp only [VoV.freshRow, wr_ok (show k < d.length by rw [h.1]; exact hk), bind_ok, h1', wr_ok (show k < (d.set k emptyRow).length by rw [List.length_set, h.1]; exact hk)]
  · rw [List.set_set]; exact h.set h2

/-- What line `k` of a matrix stores. -/
def lineSpec (o : Orient) (s : Mat α) (k : Nat) : Vec α :=
  if k < o.sizeM s.rows s.cols then ⟨o.sizem s.rows s.cols, fun l => s.val (o.indexM k l, o.indexm k l)⟩ else ⟨0, fun _ => none⟩

structure Inv (o : Orient) (IB : Nat) (v : VoV α) (s : Mat α) : Prop where
  size1 : v.size1 = s.rows
  size2 : v.size2 = s.cols
  lines : Lines IB v.data (o.sizeM s.rows s.cols + 1) (fun k => some (lineSpec o s k))
  out : ∀ i j, ¬ (i < s.rows ∧ j < s.cols) → s.val (i, j) = none

theorem Inv.invariants {o : Orient} {IB : Nat} {v : VoV α} {s : Mat α} (h : Inv o IB v s) (dbg : Bool) : v.invariants dbg o = .ok () := by
  simp only [VoV.invariants, check_true (show o.sizeM v.size1 v.size2 + 1 = v.data.length by rw [h.size1, h.size2, h.lines.1]),
    check_true (show v.data.length ≠ 0 by rw [h.lines.1]; omega), bind_ok]

theorem lt_major {o : Orient} {i j r c : Nat} (h : i < r ∧ j < c) : o.indexM i j < o.sizeM r c ∧ o.indexm i j < o.sizem r c := by
  cases o <;> simp only [Orient.indexM, Orient.indexm, Orient.sizeM, Orient.sizem] <;> exact ⟨by first | exact h.1 | exact h.2, by first | exact h.1 | exact h.2⟩

theorem major_lt {o : Orient} {k l r c : Nat} (h : k < o.sizeM r c) (h' : l < o.sizem r c) : o.indexM k l < r ∧ o.indexm k l < c := by
  cases o <;> simp_all [Orient.indexM, Orient.indexm, Orient.sizeM, Orient.sizem]

theorem major_lt_iff {o : Orient} {k l r c : Nat} : (o.indexM k l < r ∧ o.indexm k l < c) ↔ (k < o.sizeM r c ∧ l < o.sizem r c) := by
  cases o <;> simp [Orient.indexM, Orient.indexm, Orient.sizeM, Orient.sizem, and_comm]

theorem pos_eq {o : Orient} {k l i j : Nat} : ((o.indexM k l, o.indexm k l) = (i, j)) ↔ (k = o.indexM i j ∧ l = o.indexm i j) := by
  cases o <;> simp [Orient.indexM, Orient.indexm, and_comm]

theorem pos_pos (o : Orient) (i j : Nat) : (o.indexM (o.indexM i j) (o.indexm i j), o.indexm (o.indexM i j) (o.indexm i j)) = (i, j) := by
  cases o <;> rfl

theorem lineSpec_in {o : Orient} {s : Mat α} {k : Nat} (h : k < o.sizeM s.rows s.cols) :
    lineSpec o s k = ⟨o.sizem s.rows s.cols, fun l => s.val (o.indexM k l, o.indexm k l)⟩ := by rw [lineSpec, if_pos h]

theorem lineSpec_out {o : Orient} {s : Mat α} {k : Nat} (h : ¬ k < o.sizeM s.rows s.cols) :
    lineSpec o s k = ⟨0, fun _ => none⟩ := by rw [lineSpec, if_neg h]

theorem inv_ctor (dbg : Bool) (o : Orient) (IB : Nat) (zero : α) (junk : Junk α) (rows : Nat → CVec α) (r c : Nat) :
    ∃ v, VoV.ctor dbg o IB zero junk rows r c = .ok v ∧ Inv o IB v ⟨r, c, fun _ => none⟩ := by
  obtain ⟨d, d1, d2⟩ := loop_inv (n := o.sizeM r c) (s := (List.range (o.sizeM r c + 1)).map rows)
    (f := fun k d => VoV.freshRow dbg IB zero junk (o.sizem r c) d k)
    (fun k d => Lines IB d (o.sizeM r c + 1) (fun l => if l < k then some ⟨o.sizem r c, fun _ => none⟩ else none))
    ⟨by simp, by simp⟩ (by
      intro k d hk hd
      obtain ⟨d', e1, e2⟩ := hd.freshRow dbg zero junk (show k < o.sizeM r c + 1 by omega) (o.sizem r c)
      refine ⟨d', e1, e2.congr ?_⟩
      intro l hl s hs
      by_cases e : l = k
      · rw [if_pos e]; rw [if_pos (by omega)] at hs; exact hs
      · rw [if_neg e]
        by_cases e' : l < k
        · rw [if_pos e']; rw [if_pos (by omega)] at hs; exact hs
        · rw [if_neg (by omega)] at hs; cases hs)
  have hfin := d2.set (k := o.sizeM r c) (inv_empty IB)
  have hi : Inv o IB (⟨r, c, d.set (o.sizeM r c) emptyRow⟩ : VoV α) ⟨r, c, fun _ => none⟩ := by
    refine ⟨rfl, rfl, hfin.congr ?_, fun _ _ _ => rfl⟩
    intro k hk s hs
    by_cases e : k = o.sizeM r c
    · rw [if_pos e]; rw [lineSpec_out (by simp only; omega)] at hs; exact hs
    · rw [if_neg e, if_pos (by omega)]; rw [lineSpec_in (by simp only; omega)] at hs; exact hs
  refine ⟨_, ?_, hi⟩
  simp only [VoV.ctor, d1, bind_ok, wr_ok (show o.sizeM r c < d.length by rw [d2.1]; omega), hi.invariants dbg]

theorem Inv.update {o : Orient} {IB : Nat} {v : VoV α} {s s' : Mat α} (h : Inv o IB v s) {d : List (CVec α)} {i j : Nat}
    (hi : i < s.rows) (hj : j < s.cols) {x : Option α}
    (hd : Lines IB d (o.sizeM s.rows s.cols + 1) (fun l => if l = o.indexM i j then
      some ⟨o.sizem s.rows s.cols, fun m => if m = o.indexm i j then x else s.val (o.indexM (o.indexM i j) m, o.indexm (o.indexM i j) m)⟩ else some (lineSpec o s l)))
    (hs : s' = { s with val := fun p => if p = (i, j) then x else s.val p }) : Inv o IB { v with data := d } s' := by
  subst hs
  refine ⟨h.size1, h.size2, hd.congr ?_, ?_⟩
  · intro k hk t ht
    have hM := (lt_major (o := o) ⟨hi, hj⟩).1
    rw [← ht]
    by_cases e : k = o.indexM i j
    · subst e
      rw [if_pos rfl, lineSpec_in (by exact hM)]
      congr 2
      funext l
      dsimp only
      by_cases e : l = o.indexm i j
      · subst e; rw [if_pos rfl, if_pos (pos_pos o i j)]
      · rw [if_neg e, if_neg (fun h => e (pos_eq.1 h).2)]
    · rw [if_neg e]
      by_cases hk' : k < o.sizeM s.rows s.cols
      · rw [lineSpec_in hk', lineSpec_in (by exact hk')]
        congr 2
        funext l
        dsimp only
        rw [if_neg (fun h => e (pos_eq.1 h).1)]
      · rw [lineSpec_out hk', lineSpec_out (by exact hk')]
  · intro a b hab
    simp only at hab ⊢
    rw [if_neg, h.out a b hab]
    rintro ⟨⟩; exact hab ⟨hi, hj⟩

theorem Inv.line {o : Orient} {IB : Nat} {v : VoV α} {s : Mat α} (h : Inv o IB v s) (dbg : Bool) {k : Nat} (hk : k < o.sizeM s.rows s.cols) :
    ∃ r, rd dbg v.data k = .ok r ∧ v.data[k]? = some r ∧ CVec.Inv IB r ⟨o.sizem s.rows s.cols, fun l => s.val (o.indexM k l, o.indexm k l)⟩ := by
  have := h.lines.get dbg (show k < o.sizeM s.rows s.cols + 1 by omega) rfl
  rwa [lineSpec_in hk] at this

theorem Inv.last {o : Orient} {IB : Nat} {v : VoV α} {s : Mat α} (h : Inv o IB v s) (dbg : Bool) :
    ∃ r, rd dbg v.data (o.sizeM s.rows s.cols) = .ok r ∧ v.data[o.sizeM s.rows s.cols]? = some r ∧ CVec.Inv IB r ⟨0, fun _ => none⟩ := by
  have := h.lines.get dbg (show o.sizeM s.rows s.cols < o.sizeM s.rows s.cols + 1 by omega) rfl
  rwa [lineSpec_out (by omega)] at this

theorem lines_resizeInit {IB : Nat} {d : List (CVec α)} {n : Nat} {f : Nat → Vec α} (h : Lines IB d n (fun k => some (f k))) (n' : Nat) :
    Lines IB (resizeInit d n' emptyRow) n' (fun k => some (if k < n then f k else ⟨0, fun _ => none⟩)) := by
  refine ⟨CVec.length_resizeInit _ _ _, fun k r s hs hr => ?_⟩
  cases hs
  simp only [resizeInit, List.getElem?_append, List.length_take, List.getElem?_take, List.getElem?_replicate] at hr
  have hn := h.1
  by_cases hk : k < n
  · rw [if_pos hk]
    split at hr
    · rw [if_pos (by omega)] at hr; exact h.2 k r _ rfl hr
    · split at hr
      · omega
      · cases hr
  · rw [if_neg hk]
    split at hr
    · rw [if_pos (by omega)] at hr
      have := (List.getElem?_eq_some_iff.1 hr).1; omega
    · split at hr
      · cases hr; exact inv_empty IB
      · cases hr

theorem lines_raw {IB : Nat} (rows : Nat → CVec α) (d : List (CVec α)) (n : Nat) : Lines IB (resizeRaw rows d n) n (fun _ => none) :=
  ⟨CVec.length_resizeRaw _ _ _, by simp⟩

theorem step_inv (dbg : Bool) (o : Orient) (IB : Nat) (zero : α) (junk : Junk α) (rows : Nat → CVec α) (v : VoV α) (s : Mat α) (op : VVOp α)
    (h : Inv o IB v s) (hl : vvlegal s op) : ∃ v', VoV.step dbg o IB zero junk rows v op = .ok v' ∧ Inv o IB v' (vvstep zero s op) := by
  cases op with
  | modify i j f =>
    have hlt := lt_major (o := o) hl
    obtain ⟨d', e1, e2⟩ := h.lines.onRow dbg zero (junk (o.indexM i j)) (show o.indexM i j < _ by omega) rfl (.modify (o.indexm i j) f)
      (by rw [lineSpec_in hlt.1]; exact hlt.2)
    refine ⟨{ v with data := d' }, ?_, h.update (i := i) (j := j) hl.1 hl.2 (x := some (f ((s.val (i, j)).getD zero))) ?_ rfl⟩
    · simp only [CVec.step] at e1
      simp only [VoV.step, VoV.modify, e1, bind_ok]
    · convert e2 using 4
      rw [lineSpec_in hlt.1]
      simp only [cvstep, pos_pos]
  | insert i j t =>
    have hlt := lt_major (o := o) (r := s.rows) (c := s.cols) ⟨hl.1, hl.2.1⟩
    obtain ⟨r, h1, h2, h3⟩ := h.line dbg hlt.1
    obtain ⟨r', e1, e2⟩ := CVec.step_inv dbg IB zero (junk (o.indexM i j)) r _ (.insert (o.indexm i j) t) h3 (by
      refine ⟨hlt.2, ?_⟩
      simp only [pos_pos]; exact hl.2.2)
    simp only [CVec.step] at e1
    cases hr : r.insertElement dbg IB zero (junk (o.indexM i j)) (o.indexm i j) t with
    | error e => rw [hr] at e1; cases e1
    | ok q =>
      rw [hr] at e1; cases e1
      refine ⟨{ v with data := v.data.set (o.indexM i j) q.1 }, ?_, h.update (i := i) (j := j) hl.1 hl.2.1 (x := some t) ?_ rfl⟩
      · simp only [VoV.step, VoV.insertElement, h1, bind_ok, h.invariants dbg, hr, wr_ok (show o.indexM i j < v.data.length by rw [h.lines.1]; omega)]
      · exact h.lines.set e2
  | erase i j =>
    have hlt := lt_major (o := o) hl
    obtain ⟨d', e1, e2⟩ := h.lines.onRow dbg zero (junk (o.indexM i j)) (show o.indexM i j < _ by omega) rfl (.erase (o.indexm i j)) trivial
    have hi : Inv o IB { v with data := d' } (vvstep zero s (.erase i j)) := by
      refine h.update (i := i) (j := j) hl.1 hl.2 (x := none) ?_ rfl
      convert e2 using 4
      rw [lineSpec_in hlt.1]; rfl
    refine ⟨{ v with data := d' }, ?_, hi⟩
    simp only [CVec.step] at e1
    simp only [VoV.step, VoV.eraseElement, if_neg (show ¬ o.indexM i j = v.data.length by rw [h.lines.1]; omega), e1, bind_ok, hi.invariants dbg]
  | clear =>
    obtain ⟨d, d1, d2⟩ := loop_inv (n := o.sizeM v.size1 v.size2) (s := v.data)
      (f := fun k d => VoV.onRow dbg d k fun r => r.clear dbg IB)
      (fun k d => Lines IB d (o.sizeM s.rows s.cols + 1) (fun l => some (if l < k then ⟨o.sizem s.rows s.cols, fun _ => none⟩ else lineSpec o s l)))
      (h.lines.congr (by intro k hk t ht; simpa using ht)) (by
        intro k d hk hd
        rw [h.size1, h.size2] at hk
        obtain ⟨d', e1, e2⟩ := hd.onRow dbg zero (junk k) (show k < o.sizeM s.rows s.cols + 1 by omega) rfl .clear trivial
        refine ⟨d', e1, e2.congr ?_⟩
        intro l hl t ht
        by_cases e : l = k
        · subst e
          rw [if_pos (by omega)] at ht
          rw [if_pos rfl, if_neg (by omega), lineSpec_in hk]; exact ht
        · rw [if_neg e]
          by_cases e' : l < k
          · rw [if_pos (by omega)] at ht; rw [if_pos e']; exact ht
          · rw [if_neg (by omega)] at ht; rw [if_neg e']; exact ht)
    have hi : Inv o IB { v with data := d } (vvstep zero s .clear) := by
      refine ⟨h.size1, h.size2, d2.congr ?_, fun _ _ _ => rfl⟩
      intro k hk t ht
      rw [← ht, h.size1, h.size2]
      by_cases e : k < o.sizeM s.rows s.cols
      · rw [if_pos e, lineSpec_in (by exact e)]; rfl
      · rw [if_neg e, lineSpec_out e, lineSpec_out (by exact e)]
    refine ⟨_, ?_, hi⟩
    simp only [VoV.step, VoV.clear, d1, bind_ok, hi.invariants dbg]
  | resize r c p =>
    cases p with
    | false =>
      obtain ⟨d, d1, d2⟩ := loop_inv (n := o.sizeM r c) (s := resizeRaw rows v.data (o.sizeM r c + 1))
        (f := fun k d => VoV.freshRow dbg IB zero junk (o.sizem r c) d k)
        (fun k d => Lines IB d (o.sizeM r c + 1) (fun l => if l < k then some ⟨o.sizem r c, fun _ => none⟩ else none))
        ((lines_raw rows v.data _).congr (by simp)) (by
          intro k d hk hd
          obtain ⟨d', e1, e2⟩ := hd.freshRow dbg zero junk (show k < o.sizeM r c + 1 by omega) (o.sizem r c)
          refine ⟨d', e1, e2.congr ?_⟩
          intro l hl s hs
          by_cases e : l = k
          · rw [if_pos e]; rw [if_pos (by omega)] at hs; exact hs
          · rw [if_neg e]
            by_cases e' : l < k
            · rw [if_pos e']; rw [if_pos (by omega)] at hs; exact hs
            · rw [if_neg (by omega)] at hs; cases hs)
      have hfin := d2.set (k := o.sizeM r c) (inv_empty IB)
      have hi : Inv o IB (⟨r, c, d.set (o.sizeM r c) emptyRow⟩ : VoV α) ⟨r, c, fun _ => none⟩ := by
        refine ⟨rfl, rfl, hfin.congr ?_, fun _ _ _ => rfl⟩
        intro k hk s hs
        by_cases e : k = o.sizeM r c
        · rw [if_pos e]; rw [lineSpec_out (by simp only; omega)] at hs; exact hs
        · rw [if_neg e, if_pos (by omega)]; rw [lineSpec_in (by simp only; omega)] at hs; exact hs
      refine ⟨_, ?_, hi⟩
      simp only [VoV.step, VoV.resize, Bool.false_eq_true, if_false, d1, bind_ok, wr_ok (show o.sizeM r c < d.length by rw [d2.1]; omega), hi.invariants dbg]
    | true =>
      -- what line `k` holds before and after its own resize
      let old : Nat → Vec α := fun k => if k < o.sizeM s.rows s.cols + 1 then lineSpec o s k else ⟨0, fun _ => none⟩
      let new : Nat → Vec α := fun k => ⟨o.sizem r c, fun l => if l < o.sizem r c then (old k).val l else none⟩
      obtain ⟨d, d1, d2⟩ := loop_inv (n := min (o.sizeM s.rows s.cols + 1) (o.sizeM r c)) (s := resizeInit v.data (o.sizeM r c + 1) emptyRow)
        (f := fun k d => VoV.onRow dbg d k fun q => q.resize dbg IB zero (junk k) (o.sizem r c) true)
        (fun k d => Lines IB d (o.sizeM r c + 1) (fun l => some (if l < k then new l else old l)))
        ((lines_resizeInit h.lines _).congr (by intro k hk t ht; simpa using ht)) (by
          intro k d hk hd
          obtain ⟨d', e1, e2⟩ := hd.onRow dbg zero (junk k) (show k < o.sizeM r c + 1 by omega) rfl (.resize (o.sizem r c) true) trivial
          refine ⟨d', e1, e2.congr ?_⟩
          intro l hl t ht
          by_cases e : l = k
          · subst e
            rw [if_pos (by omega)] at ht
            rw [if_pos rfl, if_neg (by omega)]; exact ht
          · rw [if_neg e]
            by_cases e' : l < k
            · rw [if_pos (by omega)] at ht; rw [if_pos e']; exact ht
            · rw [if_neg (by omega)] at ht; rw [if_neg e']; exact ht)
      obtain ⟨d', d3, d4⟩ := loop_inv (n := o.sizeM r c - (o.sizeM s.rows s.cols + 1)) (s := d)
        (f := fun k d => VoV.freshRow dbg IB zero junk (o.sizem r c) d (o.sizeM s.rows s.cols + 1 + k))
        (fun k d => Lines IB d (o.sizeM r c + 1) (fun l => some (if l < min (o.sizeM s.rows s.cols + 1 + k) (o.sizeM r c) then new l else old l)))
        (d2.congr (by intro k hk t ht; simpa using ht)) (by
          intro k d hk hd
          obtain ⟨d', e1, e2⟩ := hd.freshRow dbg zero junk (show o.sizeM s.rows s.cols + 1 + k < o.sizeM r c + 1 by omega) (o.sizem r c)
          refine ⟨d', e1, e2.congr ?_⟩
          intro l hl t ht
          by_cases e : l = o.sizeM s.rows s.cols + 1 + k
          · rw [if_pos (by omega)] at ht
            rw [if_pos e, ← ht]
            simp only [new, old, if_neg (show ¬ l < o.sizeM s.rows s.cols + 1 by omega), ite_self]
          · rw [if_neg e]
            by_cases e' : l < min (o.sizeM s.rows s.cols + 1 + k) (o.sizeM r c)
            · rw [if_pos (by omega)] at ht; rw [if_pos e']; exact ht
            · rw [if_neg (by omega)] at ht; rw [if_neg e']; exact ht)
      have hmain : ∃ d'', (if o.sizeM r c > o.sizeM s.rows s.cols then wr dbg d' (o.sizeM r c) emptyRow
            else VoV.onRow dbg d' (o.sizeM r c) fun q => q.resize dbg IB zero (junk (o.sizeM r c)) 0 false) = .ok d'' ∧
          Lines IB d'' (o.sizeM r c + 1) (fun l => some (if l < o.sizeM r c then new l else ⟨0, fun _ => none⟩)) := by
        by_cases hg : o.sizeM r c > o.sizeM s.rows s.cols
        · rw [if_pos hg]
          refine ⟨_, wr_ok (by rw [d4.1]; omega), (d4.set (k := o.sizeM r c) (inv_empty IB)).congr ?_⟩
          intro l hl t ht
          by_cases e : l = o.sizeM r c
          · rw [if_pos e]; rw [if_neg (by omega)] at ht; exact ht
          · rw [if_neg e, if_pos (by omega)]; rw [if_pos (by omega)] at ht; exact ht
        · rw [if_neg hg]
          obtain ⟨d'', e1, e2⟩ := d4.onRow dbg zero (junk (o.sizeM r c)) (show o.sizeM r c < o.sizeM r c + 1 by omega) rfl (.resize 0 false) trivial
          refine ⟨d'', e1, e2.congr ?_⟩
          intro l hl t ht
          by_cases e : l = o.sizeM r c
          · rw [if_pos e]; rw [if_neg (by omega)] at ht; exact ht
          · rw [if_neg e, if_pos (by omega)]; rw [if_pos (by omega)] at ht; exact ht
      obtain ⟨d'', d5, d6⟩ := hmain
      have hi : Inv o IB (⟨r, c, d''⟩ : VoV α) (vvstep zero s (.resize r c true)) := by
        refine ⟨rfl, rfl, d6.congr ?_, ?_⟩
        · intro k hk t ht
          rw [← ht]
          by_cases e : k < o.sizeM r c
          · rw [if_pos e, lineSpec_in (by exact e)]
            simp only [vvstep, new, old]
            congr 2
            funext l
            by_cases hl : l < o.sizem r c
            · rw [if_pos hl, if_pos (major_lt e hl)]
              by_cases hko : k < o.sizeM s.rows s.cols
              · rw [if_pos (by omega), lineSpec_in hko]
              · have hn : s.val (o.indexM k l, o.indexm k l) = none := h.out _ _ (fun hh => hko (major_lt_iff.1 hh).1)
                rw [hn]
                split
                · rw [lineSpec_out hko]
                · rfl
            · rw [if_neg hl, if_neg (fun hh => hl (major_lt_iff.1 hh).2)]
          · rw [if_neg e, lineSpec_out (by exact e)]
        · intro i j hij
          simp only [vvstep] at hij ⊢
          rw [if_neg hij]
      refine ⟨_, ?_, hi⟩
      simp only [VoV.step, VoV.resize, if_true, h.size1, h.size2, d1, bind_ok, d3, d5, hi.invariants dbg]

theorem run_inv (dbg : Bool) (o : Orient) (IB : Nat) (zero : α) (ops : List (VVOp α × Junk α × (Nat → CVec α))) : ∀ (v : VoV α) (s : Mat α),
    Inv o IB v s → vvlegalRun zero s (ops.map (·.1)) →
    ∃ v', VoV.run dbg o IB zero v ops = .ok v' ∧ Inv o IB v' (vvrun zero s (ops.map (·.1))) := by
  induction ops with
  | nil => intro v s h _; exact ⟨v, rfl, h⟩
  | cons op ops ih =>
    intro v s h hl
    obtain ⟨v1, e1, h1⟩ := step_inv dbg o IB zero op.2.1 op.2.2 v s op.1 h hl.1
    obtain ⟨v2, e2, h2⟩ := ih v1 _ h1 hl.2
    exact ⟨v2, by simp [VoV.run, e1, e2], h2⟩

end Ublas.VoV
