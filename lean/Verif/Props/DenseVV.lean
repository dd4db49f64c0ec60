import Verif.Spec.DenseVV
import Verif.Props.MatrixAssign
import Verif.Lemmas.CompressedVector
import Mathlib.Tactic.IntervalCases
/-! # C78: vector_of_vector is a dense matrix -/
namespace Ublas
open Search VVSpec
open CArraySpec (Mtx)
variable {R : Type}
namespace VV

theorem eachLine_ok (dbg : Bool) (f : List R → List R) (n : Nat) (d : List (List R)) (hn : n ≤ d.length) :
    ∃ d', loop (onLine dbg f) n d = .ok d' ∧ d'.length = d.length ∧ ∀ k, d'[k]? = if k < n then d[k]?.map f else d[k]? := by
  obtain ⟨d', e, h⟩ := loop_inv (n := n) (f := onLine dbg f) (s := d) (I := fun i x => x.length = d.length ∧ ∀ k, x[k]? = if k < i then d[k]?.map f else d[k]?)
    ⟨rfl, fun k => by rw [if_neg (Nat.not_lt_zero _)]⟩ (fun i x hi ⟨h1, h2⟩ => by
      have hx : x[i]? = some d[i] := by rw [h2, if_neg (Nat.lt_irrefl _), List.getElem?_eq_getElem]
      refine ⟨x.set i (f d[i]), ?_, by simpa using h1, fun k => ?_⟩
      · unfold onLine
        rw [rd_eq_ok.2 hx, bind_ok, wr_ok (by omega)]
      · rw [List.getElem?_set]
        by_cases hk : i = k
        · subst hk
          rw [if_pos rfl, if_pos (by omega), if_pos (by omega), List.getElem?_eq_getElem (by omega)]; rfl
        · rw [if_neg hk, h2 k]
          by_cases hk' : k < i
          · rw [if_pos hk', if_pos (by omega)]
          · rw [if_neg hk', if_neg (by omega)])
  exact ⟨d', e, h⟩

/-! ## The lines as a target of assignments -/

/-- State of the lines; the spare line is `orig`'s. -/
def LRep (r c : Nat) (orig : List (List R)) (s : List (List R)) (r' c' : Nat) (w : Nat → Nat → R) (Ls : List Nat) (S : Nat → List Nat) : Prop :=
  r' = r ∧ c' = c ∧ Ls = List.range r ∧ (S = fun _ => List.range c) ∧ s.length = r + 1 ∧
  (∀ k, k < r → ∃ ln, s[k]? = some ln ∧ ln.length = c ∧ ∀ l, l < c → ln[l]? = some (w k l)) ∧ s[r]? = orig[r]?

theorem LRep.write {r c : Nat} {orig : List (List R)} (dbg : Bool) {s : List (List R)} {r' c' : Nat} {w : Nat → Nat → R} {Ls : List Nat} {S : Nat → List Nat}
    (h : LRep r c orig s r' c' w Ls S) {k l : Nat} (hk : k < r) (hl : l < c) (t : R) :
    ∃ s', (do let ln ← rd dbg s k; let ln ← wr dbg ln l t; wr dbg s k ln : M (List (List R))) = .ok s' ∧ LRep r c orig s' r' c' (update2 w k l t) Ls S := by
  obtain ⟨h1, h2, h3, h4, h5, h6, h7⟩ := h
  obtain ⟨ln, a1, a2, a3⟩ := h6 k hk
  refine ⟨s.set k (ln.set l t), ?_, h1, h2, h3, h4, by simpa using h5, fun i hi => ?_, ?_⟩
  · rw [rd_eq_ok.2 a1, bind_ok, wr_ok (by omega), bind_ok, wr_ok (by omega)]
  · by_cases hik : k = i
    · subst hik
      refine ⟨ln.set l t, by rw [List.getElem?_set, if_pos rfl, if_pos (by omega)], by simpa using a2, fun j hj => ?_⟩
      rw [List.getElem?_set]
      by_cases hjl : l = j
      · subst hjl; rw [if_pos rfl, if_pos (by omega)]; simp [update2]
      · rw [if_neg hjl, a3 j hj]; simp [update2, Ne.symm hjl]
    · obtain ⟨ln', b1, b2, b3⟩ := h6 i hi
      refine ⟨ln', by rw [List.getElem?_set, if_neg hik, b1], b2, fun j hj => ?_⟩
      rw [b3 j hj]; simp [update2, Ne.symm hik]
  · rw [List.getElem?_set, if_neg (by omega), h7]

theorem target_supports [Zero R] (dbg : Bool) (r c : Nat) (orig : List (List R)) : (target dbg r c : MT (List (List R)) R).Supports .dense (LRep r c orig) := by
  have hvis : ∀ s r' c' w Ls S, LRep r c orig s r' c' w Ls S → ∀ k ∈ Ls, ∀ l ∈ S k, k < r ∧ l < c := by
    intro s r' c' w Ls S h k hk l hl
    obtain ⟨h1, h2, h3, h4, _⟩ := h
    rw [h4, List.mem_range] at hl
    rw [h3, List.mem_range] at hk
    exact ⟨hk, hl⟩
  have hL : (target dbg r c : MT (List (List R)) R).Lawful (LRep r c orig) := {
    sizes := fun s r' c' w Ls S h => ⟨h.1.symm, h.2.1.symm⟩
    lines := fun s r' c' w Ls S h => ⟨h.2.2.1.symm, by rw [h.2.2.1]; exact List.pairwise_lt_range, fun k hk => by rw [h.2.2.1] at hk; rw [h.1]; simpa using hk⟩
    its := fun s r' c' w Ls S h k _ => ⟨by rw [h.2.2.2.1]; rfl, by rw [h.2.2.2.1]; exact List.pairwise_lt_range, fun l hl => by
      rw [h.2.2.2.1, List.mem_range] at hl; rw [h.2.1]; exact hl⟩
    off := fun s r' c' w Ls S h k l hk hl hn => by
      rw [h.1] at hk; rw [h.2.1] at hl
      exact absurd ⟨by rw [h.2.2.1]; simpa using hk, by rw [h.2.2.2.1]; simpa using hl⟩ hn
    get := fun s r' c' w Ls S h k hk l hl => by
      obtain ⟨a, b⟩ := hvis s r' c' w Ls S h k hk l hl
      obtain ⟨ln, a1, a2, a3⟩ := h.2.2.2.2.2.1 k a
      show (do let ln ← rd dbg s k; rd dbg ln l) = _
      rw [rd_eq_ok.2 a1, bind_ok]; exact rd_eq_ok.2 (a3 l b)
    put := fun s r' c' w Ls S h k hk l hl t => by
      obtain ⟨a, b⟩ := hvis s r' c' w Ls S h k hk l hl
      exact h.write dbg a b t
    consec := fun s r' c' w Ls S h _ => by
      refine ⟨⟨0, ?_⟩, fun k _ => ⟨0, by rw [h.2.2.2.1, List.length_range, List.range_eq_range']⟩⟩
      rw [h.2.2.1, List.length_range, List.range_eq_range'] }
  have hF : (target dbg r c : MT (List (List R)) R).Full (LRep r c orig) := {
    all := fun s r' c' w Ls S h => ⟨fun hc => by rw [h.2.2.1, h.1], fun k _ => by rw [h.2.2.2.1, h.2.1]⟩
    ref := fun s r' c' w Ls S h k l hk hl t => h.write dbg (h.1 ▸ hk) (h.2.1 ▸ hl) t }
  refine ⟨hL, hF, ⟨?_, ?_⟩, rfl⟩
  · intro s r' c' w Ls S h
    obtain ⟨h1, h2, h3, h4, h5, h6, h7⟩ := h
    obtain ⟨s', e, g1, g2⟩ := eachLine_ok dbg (fun ln => ln.map fun _ => (0 : R)) r s (by omega)
    refine ⟨s', Ls, S, e, ⟨h1, h2, h3, h4, by omega, fun k hk => ?_, by rw [g2, if_neg (Nat.lt_irrefl _), h7]⟩, .inr hF⟩
    obtain ⟨ln, a1, a2, a3⟩ := h6 k hk
    refine ⟨ln.map fun _ => 0, by rw [g2, if_pos hk, a1]; rfl, by simpa using a2, fun l hl => ?_⟩
    rw [List.getElem?_map, a3 l hl]; rfl
  · intro s r' c' w Ls S h k l hk hl _ t
    rw [h.1] at hk; rw [h.2.1] at hl
    obtain ⟨s', e, h'⟩ := h.write dbg hk hl t
    refine ⟨s', Ls, S, e, h', fun i j hi hj => ⟨.inr, fun hx => hx.elim (fun hx => ?_) id⟩⟩
    obtain ⟨rfl, rfl⟩ := hx
    exact ⟨by rw [h.2.2.1]; simpa using hk, by rw [h.2.2.2.1]; simpa using hl⟩

/-! ## Operations -/

theorem idx_lt (o : Orient) {r c i j : Nat} (hi : i < r) (hj : j < c) : o.indexM i j < o.sizeM r c ∧ o.indexm i j < o.sizem r c := by
  cases o
  · exact ⟨hi, hj⟩
  · exact ⟨hj, hi⟩
theorem idx_lt' (o : Orient) {r c k l : Nat} (hk : k < o.sizeM r c) (hl : l < o.sizem r c) : o.indexM k l < r ∧ o.indexm k l < c := by
  cases o
  · exact ⟨hk, hl⟩
  · exact ⟨hl, hk⟩
theorem idx_idx (o : Orient) (i j : Nat) : o.indexM (o.indexM i j) (o.indexm i j) = i ∧ o.indexm (o.indexM i j) (o.indexm i j) = j := by cases o <;> exact ⟨rfl, rfl⟩
theorem size_idx (o : Orient) (r c : Nat) : o.indexM (o.sizeM r c) (o.sizem r c) = r ∧ o.indexm (o.sizeM r c) (o.sizem r c) = c := by cases o <;> exact ⟨rfl, rfl⟩

theorem stores_shows {o : Orient} {v : VV R} {s : St R} (h : Stores o v s) : Shows o v s.m := by
  obtain ⟨h1, h2, h3, h4, _⟩ := h
  refine ⟨h1, h2, fun dbg i j x hi hj hx => ?_⟩
  have hlt := idx_lt o hi hj
  obtain ⟨ln, a1, a2, a3⟩ := h4 _ hlt.1
  unfold get
  rw [rd_eq_ok.2 a1, bind_ok]
  exact rd_eq_ok.2 (a3 _ x hlt.2 (by rw [(idx_idx o i j).1, (idx_idx o i j).2]; exact hx))

theorem set_ok {o : Orient} {v : VV R} {s : St R} (h : Stores o v s) (dbg : Bool) {i j : Nat} (t : R) (hi : i < s.m.rows) (hj : j < s.m.cols) :
    ∃ v', v.set dbg o i j t = .ok v' ∧ Stores o v' ⟨{ s.m with val := fun k l => if k = i ∧ l = j then some t else s.m.val k l }, s.clean⟩ := by
  obtain ⟨h1, h2, h3, h4, h5⟩ := h
  have hlt := idx_lt o hi hj
  obtain ⟨ln, a1, a2, a3⟩ := h4 _ hlt.1
  refine ⟨{ v with data := v.data.set (o.indexM i j) (ln.set (o.indexm i j) t) }, ?_, h1, h2, by simpa using h3, fun k hk => ?_, fun hc => ?_⟩
  · unfold set
    rw [rd_eq_ok.2 a1, bind_ok, wr_ok (by omega), bind_ok, wr_ok (by omega)]; rfl
  · simp only at hk
    by_cases hik : o.indexM i j = k
    · refine ⟨ln.set (o.indexm i j) t, by rw [← hik, List.getElem?_set, if_pos rfl, if_pos (by omega)], by simpa using a2, fun l x hl hx => ?_⟩
      simp only at hl hx
      rw [List.getElem?_set]
      by_cases hjl : o.indexm i j = l
      · rw [← hik, ← hjl, if_pos (idx_idx o i j)] at hx
        rw [if_pos hjl, if_pos (by omega)]; exact hx
      · rw [if_neg hjl]
        rw [if_neg (fun hh => hjl (by rw [← hh.1, ← hh.2]; exact (idx_idx o k l).2))] at hx
        exact a3 l x hl (by rw [hik]; exact hx)
    · obtain ⟨ln', b1, b2, b3⟩ := h4 k hk
      refine ⟨ln', by rw [List.getElem?_set, if_neg hik, b1], b2, fun l x hl hx => b3 l x hl ?_⟩
      simp only at hx
      rw [if_neg (fun hh => hik (by rw [← hh.1, ← hh.2]; exact (idx_idx o k l).1))] at hx
      exact hx
  · simp only at hc ⊢
    rw [List.getElem?_set, if_neg (by omega)]; exact h5 hc

theorem clear_ok [Zero R] {o : Orient} {v : VV R} {s : St R} (h : Stores o v s) (dbg : Bool) :
    ∃ v', v.clear dbg o = .ok v' ∧ Stores o v' ⟨{ s.m with val := fun _ _ => some 0 }, s.clean⟩ := by
  obtain ⟨h1, h2, h3, h4, h5⟩ := h
  have hn : v.nM o = o.sizeM s.m.rows s.m.cols := by unfold nM; rw [h1, h2]
  obtain ⟨d, e, g1, g2⟩ := eachLine_ok dbg (fun ln => ln.map fun _ => (0 : R)) (v.nM o) v.data (by omega)
  refine ⟨{ v with data := d }, by unfold clear; rw [show loop (fun k d => onLine dbg _ k d) (v.nM o) v.data = _ from e]; rfl, h1, h2, by rw [← h3]; exact g1, fun k hk => ?_, fun hc => ?_⟩
  · obtain ⟨ln, a1, a2, a3⟩ := h4 k hk
    refine ⟨ln.map fun _ => 0, by rw [g2, if_pos (by rw [hn]; exact hk), a1]; rfl, by simpa using a2, fun l x hl hx => ?_⟩
    simp only [Option.some.injEq] at hx hl
    rw [List.getElem?_map, List.getElem?_eq_getElem (by omega), ← hx]; rfl
  · simp only
    rw [g2, if_neg (by rw [hn]; exact Nat.lt_irrefl _)]; exact h5 hc

theorem get_resizeInit {β : Type} (l : List β) (n : Nat) (v : β) (k : Nat) : (resizeInit l n v)[k]? = if k < n then (if k < l.length then l[k]? else some v) else none := by
  unfold resizeInit
  rw [List.getElem?_append, List.length_take]
  by_cases hk : k < n
  · rw [if_pos hk]
    by_cases hl : k < l.length
    · rw [if_pos (by omega), if_pos hl, List.getElem?_take, if_pos hk]
    · rw [if_neg (by omega), if_neg hl, List.getElem?_replicate, if_pos (by omega)]
  · rw [if_neg hk, if_neg (by omega), List.getElem?_replicate, if_neg (by omega)]

theorem resize_ok [Zero R] {o : Orient} {v : VV R} {s : St R} (h : Stores o v s) (dbg : Bool) (junk : Nat → R) (r c : Nat) :
    ∃ v', v.resize dbg o junk r c true = .ok v' ∧ Stores o v' ⟨resized o s.clean s.m r c,
      if o.sizeM r c > o.sizeM s.m.rows s.m.cols then true else if o.sizeM r c = o.sizeM s.m.rows s.m.cols then s.clean else false⟩ := by
  obtain ⟨h1, h2, h3, h4, h5⟩ := h
  set M := o.sizeM s.m.rows s.m.cols with hM
  set m := o.sizem s.m.rows s.m.cols with hm
  set M' := o.sizeM r c with hM'
  set m' := o.sizem r c with hm'
  have hl0 : (resizeInit v.data (M' + 1) []).length = M' + 1 := CVec.length_resizeInit _ _ _
  obtain ⟨d, e, g1, g2⟩ := eachLine_ok dbg (fun ln => resizeInit ln m' (0 : R)) M' (resizeInit v.data (M' + 1) []) (by omega)
  refine ⟨⟨r, c, d⟩, ?_, rfl, rfl, by show d.length = M' + 1; omega, fun k hk => ?_, fun hc => ?_⟩
  · unfold resize
    simp only [if_true]
    rw [show loop (fun k d => onLine dbg (fun ln => resizeInit ln m' 0) k d) M' (resizeInit v.data (M' + 1) []) = _ from e]; rfl
  · have hk : k < M' := hk
    show ∃ ln, d[k]? = some ln ∧ ln.length = m' ∧ ∀ l x, l < m' → (resized o s.clean s.m r c).val (o.indexM k l) (o.indexm k l) = some x → _
    rw [g2, if_pos hk, get_resizeInit, if_pos (by omega)]
    by_cases hkM : k < M
    · obtain ⟨ln, a1, a2, a3⟩ := h4 k hkM
      rw [if_pos (by omega), a1]
      refine ⟨_, rfl, CVec.length_resizeInit _ _ _, fun l x hl hx => ?_⟩
      rw [get_resizeInit, if_pos hl]
      simp only [resized, (idx_idx o k l).1] at hx
      by_cases hlm : l < m
      · rw [if_pos (by omega)]
        rw [if_pos (idx_lt' o hkM hlm)] at hx
        exact a3 l x hlm hx
      · rw [if_neg (by omega)]
        rw [if_neg (fun hh => hlm (by have := (idx_lt o hh.1 hh.2).2; rwa [(idx_idx o k l).2] at this)), if_neg (fun hh => by omega)] at hx
        exact hx
    · by_cases hkM' : k = M
      · subst hkM'
        rw [if_pos (by omega)]
        rw [List.getElem?_eq_getElem (by omega)]
        refine ⟨_, rfl, CVec.length_resizeInit _ _ _, fun l x hl hx => ?_⟩
        simp only [resized, (idx_idx o M l).1] at hx
        rw [if_neg (fun hh => by have := (idx_lt o hh.1 hh.2).1; rw [(idx_idx o M l).1] at this; omega)] at hx
        cases hcl : s.clean with
        | false => rw [if_pos ⟨hcl, rfl⟩] at hx; cases hx
        | true =>
          have h5 := h5 hcl
          rw [List.getElem?_eq_getElem (by omega)] at h5
          rw [if_neg (by simp [hcl])] at hx
          rw [Option.some.inj h5, get_resizeInit, if_pos hl, if_neg (by simp)]; exact hx
      · rw [if_neg (by omega)]
        refine ⟨_, rfl, CVec.length_resizeInit _ _ _, fun l x hl hx => ?_⟩
        simp only [resized, (idx_idx o k l).1] at hx
        rw [if_neg (fun hh => by have := (idx_lt o hh.1 hh.2).1; rw [(idx_idx o k l).1] at this; omega), if_neg (fun hh => by omega)] at hx
        rw [get_resizeInit, if_pos hl, if_neg (by simp)]; exact hx
  · show d[M']? = some []
    rw [g2, if_neg (Nat.lt_irrefl _), get_resizeInit, if_pos (by omega)]
    simp only at hc
    by_cases hgt : M' > M
    · rw [if_neg (by omega)]
    · rw [if_neg hgt] at hc
      by_cases heq : M' = M
      · rw [if_pos heq] at hc; rw [if_pos (by omega), heq]; exact h5 hc
      · rw [if_neg heq] at hc; cases hc

theorem get_resizeRaw_length {β : Type} (j : Nat → β) (l : List β) (n : Nat) : (resizeRaw j l n).length = n := CVec.length_resizeRaw _ _ _

theorem resizeAway_ok [Zero R] {o : Orient} {v : VV R} {s : St R} (h : Stores o v s) (dbg : Bool) (junk : Nat → R) (r c : Nat) :
    ∃ v', v.resize dbg o junk r c false = .ok v' ∧ Stores o v' ⟨⟨r, c, fun _ _ => none⟩, if o.sizeM r c = o.sizeM s.m.rows s.m.cols then s.clean else true⟩ := by
  obtain ⟨h1, h2, h3, h4, h5⟩ := h
  have hl0 := get_resizeRaw_length (fun _ => ([] : List R)) v.data (o.sizeM r c + 1)
  obtain ⟨d, e, g1, g2⟩ := eachLine_ok dbg (fun ln => resizeRaw junk ln (o.sizem r c)) (o.sizeM r c) (resizeRaw (fun _ => []) v.data (o.sizeM r c + 1)) (by omega)
  refine ⟨⟨r, c, d⟩, ?_, rfl, rfl, by show d.length = o.sizeM r c + 1; omega, fun k hk => ?_, fun hc => ?_⟩
  · unfold resize
    simp only [Bool.false_eq_true, if_false]
    rw [show loop (fun k d => onLine dbg (fun ln => resizeRaw junk ln (o.sizem r c)) k d) (o.sizeM r c) (resizeRaw (fun _ => []) v.data (o.sizeM r c + 1)) = _ from e]; rfl
  · have hk : k < o.sizeM r c := hk
    show ∃ ln, d[k]? = some ln ∧ _
    rw [g2, if_pos hk, List.getElem?_eq_getElem (by omega)]
    exact ⟨_, rfl, get_resizeRaw_length _ _ _, fun _ _ _ hx => by cases hx⟩
  · show d[o.sizeM r c]? = some []
    simp only at hc
    rw [g2, if_neg (Nat.lt_irrefl _)]
    unfold resizeRaw
    by_cases heq : o.sizeM r c = o.sizeM s.m.rows s.m.cols
    · rw [if_pos heq] at hc
      rw [if_pos (by omega), heq]; exact h5 hc
    · rw [if_neg (by omega)]; simp

section expr
variable [Ring R] [DecidableEq R]

theorem assign_ok {o : Orient} {v : VV R} {s : St R} (h : Stores o v s) (dbg : Bool) (mode : ProdFn.Mode) (F : AssignF) (e : MExp R) (a : Nat → Nat → R) (he : ExprIs o e s.m.rows s.m.cols a) :
    ∃ v', v.assign dbg mode o F e = .ok v' ∧
      Stores o v' ⟨{ s.m with val := fun i j => if F = .assign then some (a i j) else (s.m.val i j).map fun x => F.apply x (a i j) }, s.clean⟩ := by
  obtain ⟨h1, h2, h3, h4, h5⟩ := h
  have hn : v.nM o = o.sizeM s.m.rows s.m.cols ∧ v.nm o = o.sizem s.m.rows s.m.cols := by unfold nM nm; rw [h1, h2]; exact ⟨rfl, rfl⟩
  obtain ⟨d, w', Ls', S', e1, ⟨_, _, _, _, a5, a6, a7⟩, g⟩ := C68_matrix_assign dbg mode .dense F e _ _ _ v.data (fun k l => ((v.data.getD k []).getD l 0)) _ _
    (target_supports dbg (v.nM o) (v.nm o) v.data) (by simp) (by rw [hn.1, hn.2]; exact he) ⟨rfl, rfl, rfl, rfl, by omega, fun k hk => by
      obtain ⟨ln, b1, b2, b3⟩ := h4 k (by omega)
      exact ⟨ln, b1, by omega, fun l hl => by simp [List.getD, b1, show l < ln.length by omega]⟩, rfl⟩
  refine ⟨{ v with data := d }, by unfold assign; rw [e1]; rfl, h1, h2, by rw [← hn.1]; exact a5, fun k hk => ?_, fun hc => ?_⟩
  · simp only at hk
    obtain ⟨ln, b1, b2, b3⟩ := a6 k (by omega)
    obtain ⟨ln0, c1, c2, c3⟩ := h4 k hk
    refine ⟨ln, b1, by rw [b2]; exact hn.2, fun l x hl hx => ?_⟩
    simp only at hl hx
    rw [b3 l (by omega), g k l (by omega) (by omega)]
    by_cases hF : F = .assign
    · rw [if_pos hF] at hx; subst hF; exact hx
    · rw [if_neg hF] at hx
      cases hv : s.m.val (o.indexM k l) (o.indexm k l) with
      | none => rw [hv] at hx; cases hx
      | some y =>
        rw [hv] at hx
        have hy := c3 l y hl hv
        simp only [Option.map_some, Option.some.injEq] at hx
        simp only [List.getD, c1, hy, Option.getD_some]
        rw [hx]
  · simp only
    rw [← hn.1, a7, hn.1]; exact h5 hc

theorem fromExpr_ok (o : Orient) (dbg : Bool) (mode : ProdFn.Mode) (junk : Nat → R) (e : MExp R) (r c : Nat) (a : Nat → Nat → R) (he : ExprIs o e r c a) :
    ∃ v', VV.fromExpr dbg mode o junk e = .ok v' ∧ Stores o v' ⟨⟨r, c, fun i j => some (a i j)⟩, true⟩ := by
  obtain ⟨s1, s2⟩ := he.sizes
  obtain ⟨d, e1, g1, g2⟩ := eachLine_ok dbg (fun ln => resizeRaw junk ln e.sizem) e.sizeM (List.replicate (e.sizeM + 1) []) (by simp)
  have hst : Stores o (⟨r, c, d⟩ : VV R) ⟨⟨r, c, fun _ _ => none⟩, true⟩ := by
    refine ⟨rfl, rfl, by rw [g1, s1]; simp, fun k hk => ?_, fun _ => ?_⟩
    · show ∃ ln, d[k]? = some ln ∧ _
      rw [g2, if_pos (by rw [s1]; exact hk), List.getElem?_replicate, if_pos (by rw [s1]; exact Nat.lt_succ_of_lt hk)]
      exact ⟨_, rfl, by rw [get_resizeRaw_length, s2], fun _ _ _ hx => by cases hx⟩
    · show d[o.sizeM r c]? = some []
      rw [← s1, g2, if_neg (Nat.lt_irrefl _), List.getElem?_replicate, if_pos (by omega)]
  obtain ⟨v', e2, hv⟩ := assign_ok hst dbg mode .assign e a he
  refine ⟨v', ?_, ?_⟩
  · unfold fromExpr
    rw [show loop (fun k d => onLine dbg (fun ln => resizeRaw junk ln e.sizem) k d) e.sizeM (List.replicate (e.sizeM + 1) []) = _ from e1, bind_ok]
    unfold assign at e2
    rw [s1, s2, (size_idx o r c).1, (size_idx o r c).2]
    exact e2
  · simpa using hv

theorem assignContainer_ok {o : Orient} {v : VV R} {s : St R} (h : Stores o v s) (dbg : Bool) (mode : ProdFn.Mode) (junk : Nat → R) (e : MExp R) (r c : Nat) (a : Nat → Nat → R) (he : ExprIs o e r c a) :
    ∃ v', v.assignContainer dbg mode o junk e = .ok v' ∧ Stores o v' ⟨⟨r, c, fun i j => some (a i j)⟩, if o.sizeM r c = o.sizeM s.m.rows s.m.cols then s.clean else true⟩ := by
  obtain ⟨s1, s2⟩ := he.sizes
  obtain ⟨v1, e1, h1⟩ := resizeAway_ok h dbg junk r c
  obtain ⟨v2, e2, h2⟩ := assign_ok h1 dbg mode .assign e a he
  refine ⟨v2, ?_, by simpa using h2⟩
  unfold assignContainer
  rw [s1, s2, (size_idx o r c).1, (size_idx o r c).2, e1, bind_ok, e2]

theorem step_ok {o : Orient} {v : VV R} {s t : St R} {op : Op R} (h : Stores o v s) (hs : Step false o s op t) (dbg : Bool) (mode : ProdFn.Mode) (junk : Nat → R) :
    ∃ v', op.run dbg mode o junk v = .ok v' ∧ Stores o v' t := by
  cases hs with
  | set i j x hi hj => exact set_ok h dbg x hi hj
  | erase i j hi hj => exact set_ok h dbg 0 hi hj
  | clear => exact clear_ok h dbg
  | resize r c => exact resize_ok h dbg junk r c
  | resizeAway r c => exact resizeAway_ok h dbg junk r c
  | copy _ src hsrc => exact ⟨src, rfl, hsrc⟩
  | fromExpr e r c a he => exact fromExpr_ok o dbg mode junk e r c a he
  | assignContainer e r c a he => exact assignContainer_ok h dbg mode junk e r c a he
  | assign F e a he => exact assign_ok h dbg mode F e a he
end expr
end VV

variable [Ring R] [DecidableEq R]

theorem VV.empty_stores (o : Orient) : Stores o (VV.empty : VV R) ⟨⟨0, 0, fun _ _ => none⟩, true⟩ := by
  have : o.sizeM 0 0 = 0 := by cases o <;> rfl
  refine ⟨rfl, rfl, ?_, fun k hk => ?_, fun _ => ?_⟩
  · show 1 = o.sizeM 0 0 + 1; rw [this]
  · have hk : k < o.sizeM 0 0 := hk; omega
  · show [[]][o.sizeM 0 0]? = some ([] : List R); rw [this]; rfl

theorem VV.hist_ok (dbg : Bool) (mode : ProdFn.Mode) (o : Orient) (junk : Nat → R) {v : VV R} {s t : St R} {ops : List (Op R)} (h : Stores o v s) (hh : Hist false o s ops t) :
    ∃ v', ops.foldlM (Op.run dbg mode o junk) v = .ok v' ∧ Stores o v' t := by
  induction hh generalizing v with
  | nil s => exact ⟨v, rfl, h⟩
  | cons hs _ ih =>
    obtain ⟨v1, e1, h1⟩ := VV.step_ok h hs dbg mode junk
    obtain ⟨v2, e2, h2⟩ := ih h1
    exact ⟨v2, by rw [List.foldlM_cons, e1]; exact e2, h2⟩

/-- **C78** for histories from an empty matrix, with the first line added after a reduction of the number of lines left open: both orientations, builds and evaluation modes. -/
theorem C78_history_partial (dbg : Bool) (mode : ProdFn.Mode) (o : Orient) (junk : Nat → R) (ops : List (Op R)) (t : St R) (hh : Hist false o ⟨⟨0, 0, fun _ _ => none⟩, true⟩ ops t) :
    ∃ v, ops.foldlM (Op.run dbg mode o junk) VV.empty = .ok v ∧ Shows o v t.m := by
  obtain ⟨v, e, h⟩ := VV.hist_ok dbg mode o junk (VV.empty_stores o) hh
  exact ⟨v, e, VV.stores_shows h⟩

/-- The constructor makes a matrix of zeros. -/
theorem C78_ctor (dbg : Bool) (o : Orient) (junk : Nat → R) (r c : Nat) : ∃ v, VV.ctor dbg o junk r c = .ok v ∧ Shows o v ⟨r, c, fun _ _ => some 0⟩ := by
  have hz : Stores o (⟨0, 0, [[]]⟩ : VV R) ⟨⟨0, 0, fun _ _ => none⟩, true⟩ := VV.empty_stores o
  obtain ⟨v, e, h⟩ := VV.resize_ok hz dbg junk r c
  refine ⟨v, e, ?_⟩
  have := VV.stores_shows h
  simpa [resized] using this

/-- The full claim: new elements of a preserving resize are zero in every history. -/
def C78_history_claim (R : Type) [Ring R] [DecidableEq R] : Prop :=
  ∀ (dbg : Bool) (mode : ProdFn.Mode) (o : Orient) (junk : Nat → R) (ops : List (Op R)) (t : St R), Hist true o ⟨⟨0, 0, fun _ _ => none⟩, true⟩ ops t →
    ∃ v, ops.foldlM (Op.run dbg mode o junk) VV.empty = .ok v ∧ Shows o v t.m

/-- It fails: after writing 7 to the last row of a 2 x 1 matrix, `resize (1, 1)` and `resize (2, 1)` bring the 7 back. -/
theorem C78_history_refuted : ¬ C78_history_claim Int := by
  intro h
  obtain ⟨v, e, _, _, hv⟩ := h true .indexing .row (fun _ => 0) [.resize 2 1 true, .set 1 0 7, .resize 1 1 true, .resize 2 1 true] _
    (.cons (.resize _ 2 1) (.cons (.set _ 1 0 7 (by decide) (by decide)) (.cons (.resize _ 1 1) (.cons (.resize _ 2 1) (.nil _)))))
  have e' : [Op.resize 2 1 true, .set 1 0 7, .resize 1 1 true, .resize 2 1 true].foldlM (Op.run true .indexing .row (fun _ => (0 : Int))) VV.empty = .ok ⟨2, 1, [[0], [7], []]⟩ := by decide
  rw [e'] at e
  cases e
  have := hv true 1 0 0 (by decide) (by decide) (by decide)
  exact absurd this (by decide)

/-- **C78**, positions outside: debug builds refuse them if the spare line is empty. -/
theorem C78_rejects_partial (o : Orient) (v : VV R) (s : St R) (h : Stores o v s) (hc : s.clean = true) (i j : Nat) (t : R) (hij : ¬ (i < s.m.rows ∧ j < s.m.cols)) :
    v.get true o i j = .error .badIndex ∧ v.set true o i j t = .error .badIndex := by
  obtain ⟨h1, h2, h3, h4, h5⟩ := h
  have key : rd true v.data (o.indexM i j) = .error .badIndex ∨ ∃ ln, rd true v.data (o.indexM i j) = .ok ln ∧ ln.length ≤ o.indexm i j := by
    by_cases hM : o.indexM i j < o.sizeM s.m.rows s.m.cols
    · obtain ⟨ln, a1, a2, a3⟩ := h4 _ hM
      refine .inr ⟨ln, rd_eq_ok.2 a1, ?_⟩
      rw [a2]
      by_contra hm
      have := VV.idx_lt' o hM (Nat.lt_of_not_le hm)
      rw [(VV.idx_idx o i j).1, (VV.idx_idx o i j).2] at this
      exact hij this
    · by_cases he : o.indexM i j = o.sizeM s.m.rows s.m.cols
      · exact .inr ⟨[], rd_eq_ok.2 (by rw [he]; exact h5 hc), Nat.zero_le _⟩
      · left
        unfold rd
        rw [List.getElem?_eq_none (by omega)]; rfl
  unfold VV.get VV.set
  rcases key with e | ⟨ln, e, hl⟩
  · rw [e]; exact ⟨rfl, rfl⟩
  · rw [e, bind_ok, bind_ok]
    refine ⟨by unfold rd; rw [List.getElem?_eq_none hl]; rfl, ?_⟩
    unfold wr
    rw [if_neg (by omega)]; rfl

/-- After a reduction of the number of lines a position outside is read without an error, even in debug builds. -/
theorem C78_rejects_refuted : ∃ v : VV Int, [Op.resize 2 1 true, .set 1 0 7, .resize 1 1 true].foldlM (Op.run true .indexing .row (fun _ => (0 : Int))) VV.empty = .ok v ∧
    v.size1 = 1 ∧ v.get true .row 1 0 = .ok 7 := ⟨⟨1, 1, [[0], [7]]⟩, by decide, rfl, by decide⟩

/-! ## Iterators -/

/-- `n` increments. -/
def VV.advance (dbg : Bool) (o : Orient) (v : VV R) (d : VV.Dir) : Nat → VV.It → M VV.It
  | 0, it => .ok it
  | n + 1, it => v.advance dbg o d n it >>= v.incr dbg o d
/-- Position `n` of the walk that starts at (i, j). -/
def VV.Dir.pos (d : VV.Dir) (i j n : Nat) : Nat × Nat := match d with | .one => (i + n, j) | .two => (i, j + n)
/-- The number of elements from (i, j) to the end of the range. -/
def VV.Dir.len (d : VV.Dir) (v : VV R) (i j : Nat) : Nat := match d with | .one => v.size1 - i | .two => v.size2 - j

theorem VV.iter_incr (dbg : Bool) {o : Orient} {v : VV R} {s : St R} (h : Stores o v s) (d : VV.Dir) (i j : Nat) (hi : i ≤ s.m.rows) (hj : j ≤ s.m.cols) (n : Nat) (hn : n ≤ d.len v i j)
    (it : VV.It) (hf : v.find dbg o i j = .ok it) :
    ∃ jt, v.find dbg o (d.pos i j n).1 (d.pos i j n).2 = .ok jt ∧ v.advance dbg o d n it = .ok jt := by
  obtain ⟨h1, h2, h3, h4, h5⟩ := h
  have hfind : ∀ i' j', i' ≤ s.m.rows → j' ≤ s.m.cols → v.find dbg o i' j' = .ok ⟨i', j', o.indexM i' j', o.indexm i' j'⟩ := by
    intro i' j' hi' hj'
    unfold VV.find
    have : o.indexM i' j' < v.data.length := by
      cases o
      · show i' < _; rw [h3]; exact Nat.lt_succ_of_le hi'
      · show j' < _; rw [h3]; exact Nat.lt_succ_of_le hj'
    rw [rd_ok this]; rfl
  have hit := hf
  rw [hfind i j hi hj] at hit
  cases hit
  have hin : ∀ n, n ≤ d.len v i j → (d.pos i j n).1 ≤ s.m.rows ∧ (d.pos i j n).2 ≤ s.m.cols := by
    intro n hn
    cases d
    · simp only [VV.Dir.len, VV.Dir.pos] at hn ⊢; omega
    · simp only [VV.Dir.len, VV.Dir.pos] at hn ⊢; omega
  refine ⟨_, hfind _ _ (hin n hn).1 (hin n hn).2, ?_⟩
  induction n with
  | zero => cases d <;> rfl
  | succ n ih =>
    have ih := ih (by omega)
    unfold VV.advance
    rw [ih, bind_ok]
    have hf' := hfind _ _ (hin (n + 1) hn).1 (hin (n + 1) hn).2
    unfold VV.incr
    cases d <;> cases o <;> simp only [VV.Dir.along, VV.Dir.pos, Bool.false_eq_true, if_false, if_true] at hf' ⊢
    · rw [Nat.add_assoc, hf']; rfl
    · rfl
    · rfl
    · rw [Nat.add_assoc, hf']; rfl

/-- **C78**, walking: `++` applied `n` times to the position of (i, j) gives the position of the element `n` further on; it is the end of the range exactly when `n` elements lie in between, and
before that it dereferences to the element. -/
theorem C78_walk (dbg : Bool) (o : Orient) (v : VV R) (s : St R) (h : Stores o v s) (d : VV.Dir) (i j : Nat) (hi : i ≤ s.m.rows) (hj : j ≤ s.m.cols) (n : Nat) (hn : n ≤ d.len v i j) :
    ∃ it jt last, v.find dbg o i j = .ok it ∧ v.last dbg o d i j = .ok last ∧ v.advance dbg o d n it = .ok jt ∧
      (jt.i, jt.j) = d.pos i j n ∧ (jt.cell = last.cell ↔ n = d.len v i j) ∧
      ∀ x, n < d.len v i j → (d = .one → j < s.m.cols) → (d = .two → i < s.m.rows) → s.m.val (d.pos i j n).1 (d.pos i j n).2 = some x → v.deref dbg jt = .ok x := by
  have hst := h
  obtain ⟨h1, h2, h3, h4, h5⟩ := h
  have hfind : ∀ i' j', i' ≤ s.m.rows → j' ≤ s.m.cols → v.find dbg o i' j' = .ok ⟨i', j', o.indexM i' j', o.indexm i' j'⟩ := by
    intro i' j' hi' hj'
    unfold VV.find
    have : o.indexM i' j' < v.data.length := by
      cases o
      · show i' < _; rw [h3]; exact Nat.lt_succ_of_le hi'
      · show j' < _; rw [h3]; exact Nat.lt_succ_of_le hj'
    rw [rd_ok this]; rfl
  have hin : (d.pos i j n).1 ≤ s.m.rows ∧ (d.pos i j n).2 ≤ s.m.cols := by
    cases d
    · simp only [VV.Dir.len, VV.Dir.pos] at hn ⊢; omega
    · simp only [VV.Dir.len, VV.Dir.pos] at hn ⊢; omega
  obtain ⟨jt, e1, e2⟩ := VV.iter_incr dbg hst d i j hi hj n hn _ (hfind i j hi hj)
  rw [hfind _ _ hin.1 hin.2] at e1
  cases e1
  refine ⟨_, _, ⟨d.pos i j (d.len v i j) |>.1, d.pos i j (d.len v i j) |>.2, o.indexM (d.pos i j (d.len v i j)).1 (d.pos i j (d.len v i j)).2, o.indexm (d.pos i j (d.len v i j)).1 (d.pos i j (d.len v i j)).2⟩,
    hfind i j hi hj, ?_, e2, rfl, ?_, fun x hlt hd1 hd2 hx => ?_⟩
  · unfold VV.last
    cases d
    · simp only [VV.Dir.pos, VV.Dir.len]
      rw [show i + (v.size1 - i) = v.size1 by omega]
      exact hfind _ _ (by omega) hj
    · simp only [VV.Dir.pos, VV.Dir.len]
      rw [show j + (v.size2 - j) = v.size2 by omega]
      exact hfind _ _ hi (by omega)
  · cases d <;> cases o <;> simp only [VV.Dir.pos, VV.Dir.len, Orient.indexM, Orient.indexm, Prod.mk.injEq] at hn ⊢ <;> constructor <;> intro hh <;> (try constructor) <;> (try trivial) <;> omega
  · have hr : (d.pos i j n).1 < s.m.rows ∧ (d.pos i j n).2 < s.m.cols := by
      cases d
      · have := hd1 rfl; simp only [VV.Dir.pos, VV.Dir.len] at hlt ⊢; omega
      · have := hd2 rfl; simp only [VV.Dir.pos, VV.Dir.len] at hlt ⊢; omega
    unfold VV.deref
    rw [check_true (by rw [h1]; exact hr.1), bind_ok, check_true (by rw [h2]; exact hr.2), bind_ok]
    have := (VV.stores_shows hst).2.2 false _ _ x hr.1 hr.2 hx
    exact this

/-- **C78**, iterators outside: in a debug build asking for a position more than one line behind the last throws `bad_index`, and so does dereferencing a position outside the matrix; there is no
undefined behaviour. -/
theorem C78_iterator_rejects (o : Orient) (v : VV R) (s : St R) (h : Stores o v s) (i j : Nat) :
    (o.sizeM s.m.rows s.m.cols < o.indexM i j → v.find true o i j = .error .badIndex) ∧
    (¬ (i < s.m.rows ∧ j < s.m.cols) → ∀ c, v.deref true ⟨i, j, c⟩ = .error .badIndex) := by
  obtain ⟨h1, h2, h3, h4, h5⟩ := h
  refine ⟨fun hl => ?_, fun hn c => ?_⟩
  · unfold VV.find rd
    rw [List.getElem?_eq_none (by omega)]; rfl
  · unfold VV.deref
    simp only [h1, h2]
    by_cases hi : i < s.m.rows
    · rw [check_true hi, bind_ok]
      have hj : ¬ j < s.m.cols := fun hj => hn ⟨hi, hj⟩
      simp only [check, hj]; rfl
    · simp only [check, hi]; rfl

/-- The full claim: an assigned iterator behaves like the one it was assigned. -/
def C78_iterator_assign_claim : Prop := ∀ it other : VV.It, (it.assign other).i = other.i ∧ (it.assign other).j = other.j

/-- It fails: after `it = m.begin1 () + 1` the index is still 0, and (row_major, 3 x 1) `++ it` stays at row 1 instead of going on to row 2. -/
theorem C78_iterator_assign_refuted : ¬ C78_iterator_assign_claim ∧
    ∃ (v : VV Int) (it b1 nx : VV.It), v.size1 = 3 ∧ v.find true .row 0 0 = .ok it ∧ v.incr true .row .one it = .ok b1 ∧ v.deref true (it.assign b1) = .ok 5 ∧
      v.incr true .row .one (it.assign b1) = .ok nx ∧ v.deref true nx = .ok 5 ∧ v.get true .row 2 0 = .ok 6 :=
  ⟨fun h => absurd (h ⟨0, 0, 0, 0⟩ ⟨1, 0, 1, 0⟩).1 (by decide),
    ⟨3, 1, [[4], [5], [6], []]⟩, ⟨0, 0, 0, 0⟩, ⟨1, 0, 1, 0⟩, ⟨1, 0, 1, 0⟩, rfl, by decide, by decide, by decide, by decide, by decide, by decide⟩

/-- **C78**, `<` within a line: agrees with the indices. -/
theorem C78_iterator_less_partial (base : Nat → Nat) (o : Orient) (a b : VV.It) (ha : a.cell = (o.indexM a.i a.j, o.indexm a.i a.j)) (hb : b.cell = (o.indexM b.i b.j, o.indexm b.i b.j))
    (hl : o.indexM a.i a.j = o.indexM b.i b.j) : VV.less base a b = decide (o.indexm a.i a.j < o.indexm b.i b.j) := by
  unfold VV.less
  rw [ha, hb, hl]
  simp

/-- Across lines it depends on where the lines were allocated: whatever the two rows are, some placement of the lines makes `begin1 () < end1 ()` false. -/
theorem C78_iterator_less_refuted (k k' : Nat) (h : k < k') : ∃ base, (∀ n, base n ≠ base (n + 1)) ∧ VV.less base ⟨k, 0, k, 0⟩ ⟨k', 0, k', 0⟩ = false := by
  refine ⟨fun n => if n ≤ k' then 2 * (k' - n) else 2 * n + 1, fun n => ?_, ?_⟩
  · by_cases h1 : n + 1 ≤ k'
    · simp only [h1, show n ≤ k' by omega, if_true]; omega
    · by_cases h2 : n ≤ k'
      · simp only [h1, h2, if_true, if_false]; omega
      · simp only [h1, h2, if_false]; omega
  · unfold VV.less
    simp only [Nat.le_refl, if_true, show k ≤ k' by omega]
    simp

/-- Non-vacuity: a 2 x 2 column_major matrix. -/
example : Stores .col (⟨2, 2, [[1, 2], [3, 4], []]⟩ : VV Int) ⟨⟨2, 2, fun i j => some ((1 + i + 2 * j : Nat) : Int)⟩, true⟩ := by
  refine ⟨rfl, rfl, rfl, fun k hk => ?_, fun _ => rfl⟩
  have hk : k < 2 := hk
  interval_cases k
  · exact ⟨[1, 2], rfl, rfl, fun l x hl hx => by
      have hl : l < 2 := hl
      interval_cases l <;> simp [Orient.indexM, Orient.indexm] at hx <;> subst hx <;> rfl⟩
  · exact ⟨[3, 4], rfl, rfl, fun l x hl hx => by
      have hl : l < 2 := hl
      interval_cases l <;> simp [Orient.indexM, Orient.indexm] at hx <;> subst hx <;> rfl⟩

end Ublas
