import Verif.Model.MapOfMapsIter
import Verif.Props.MapOfMaps
import Verif.Props.ProxyIterM
/-! # C88: iterators of mapped_vector_of_mapped_vector -/
namespace Ublas
open Assoc SparseSpec
variable {α : Type}

theorem inc_before_iff {β : Type} {L : List (Nat × β)} (h : Inc L) (i : Nat) : ∀ {a : Nat} (ha : a < L.length), L[a].1 < i ↔ a < before L i := by
  induction L with
  | nil => intro a ha; simp at ha
  | cons x L ih =>
    intro a ha
    have h' := List.pairwise_cons.1 h
    rw [before_cons]
    by_cases hx : x.1 < i
    · rw [if_pos hx]
      cases a with
      | zero => simp [hx]
      | succ a => have := ih h'.2 (a := a) (by simpa using ha); simp only [List.getElem_cons_succ, this]; omega
    · have e : before L i = 0 := before_none fun y hy => by have := h'.1 y hy; omega
      rw [if_neg hx, e]
      cases a with
      | zero => simp; omega
      | succ a =>
        have hal : a < L.length := by simpa using ha
        have := h'.1 L[a] (List.getElem_mem hal)
        simp only [List.getElem_cons_succ]; omega

theorem before_key {β : Type} {L : List (Nat × β)} (h : Inc L) {a : Nat} (ha : a < L.length) : before L L[a].1 = a := by
  rcases Nat.lt_trichotomy (before L L[a].1) a with hlt | e | hgt
  · have := (inc_before_iff h L[a].1 (a := before L L[a].1) (by omega)).1 (List.pairwise_iff_getElem.1 h _ _ (by omega) ha hlt)
    omega
  · exact e
  · have := (inc_before_iff h L[a].1 ha).2 hgt; omega

theorem before_key_succ {β : Type} {L : List (Nat × β)} (h : Inc L) {a : Nat} (ha : a < L.length) : before L (L[a].1 + 1) = a + 1 := by
  have h1 := (inc_before_iff h (L[a].1 + 1) ha).1 (by omega)
  rcases Nat.lt_or_ge (a + 1) (before L (L[a].1 + 1)) with hlt | hge
  · have hl := before_le L (L[a].1 + 1)
    have h2 := (inc_before_iff h (L[a].1 + 1) (a := a + 1) (by omega)).2 hlt
    have h3 := List.pairwise_iff_getElem.1 h a (a + 1) ha (by omega) (by omega)
    omega
  · omega

/-- An entry with key `l`. -/
def HasKey {β : Type} (x : List (Nat × β)) (l : Nat) : Prop := ∃ w, (l, w) ∈ x

theorem hasKey_iff {β : Type} {x : List (Nat × β)} (h : Inc x) (l : Nat) : HasKey x l ↔ ∃ hb : before x l < x.length, x[before x l].1 = l := by
  constructor
  · rintro ⟨w, hw⟩
    obtain ⟨a, ha, e⟩ := List.mem_iff_getElem.1 hw
    have := before_key h ha
    rw [e] at this
    simp only at this
    refine ⟨by rw [this]; exact ha, ?_⟩
    simp only [this, e]
  · rintro ⟨hb, e⟩
    refine ⟨x[before x l].2, ?_⟩
    have := List.getElem_mem hb
    rw [show (l, x[before x l].2) = x[before x l] by rw [Prod.ext_iff]; exact ⟨e.symm, rfl⟩]
    exact this

namespace MapMap
open CMat (along setAlong)
open MIter (coord)

theorem lower_eq {β : Type} (m : List (Nat × β)) (k : Nat) : lower m k = before m k := rfl

theorem setAlong_coord (ax : Axis) (i j k : Nat) : setAlong ax i j k = coord ax k (along ax.other i j) := by cases ax <;> rfl
theorem along_coord (ax : Axis) (k l : Nat) : along ax (coord ax k l).1 (coord ax k l).2 = k := by cases ax <;> rfl
theorem across_coord (ax : Axis) (k l : Nat) : along ax.other (coord ax k l).1 (coord ax k l).2 = l := by cases ax <;> rfl

/-- The default storage laid out: the lines in order of their keys, then the sentinel. -/
structure Laid (o : Orient) (v : MapMapStd α) (s : Mat α) (T : List (Nat × List (Nat × α))) : Prop where
  z1 : v.size1 = s.rows
  z2 : v.size2 = s.cols
  map : v.map = T ++ [(o.sizeM s.rows s.cols, [])]
  inc : Inc T
  below : ∀ x ∈ T, x.1 < o.sizeM s.rows s.cols
  lines : ∀ x ∈ T, Lists x.2 (lineVal o s x.1)
  absent : ∀ k, (∀ x ∈ T, x.1 ≠ k) → lineVal o s k = fun _ => none
  out : ∀ i j, ¬ (i < s.rows ∧ j < s.cols) → s.val (i, j) = none

theorem Inv.laid {o : Orient} {v : MapMapStd α} {s : Mat α} (h : Inv Rep Rep o v s) : ∃ T, Laid o v s T := by
  obtain ⟨h1, h2, h3, S, h4, h5, h6⟩ := h
  obtain ⟨x, hx⟩ := Option.ne_none_iff_exists'.1 h5
  obtain ⟨A, B, hAB⟩ := List.append_of_mem ((h4.2 _ _).1 hx)
  have hle : ∀ y ∈ v.map, y.1 ≤ o.sizeM s.rows s.cols := by
    intro y hy
    have := h6 y.1
    rw [(h4.2 y.1 y.2).2 hy] at this
    exact this.1
  have hp := h4.1
  rw [hAB] at hp
  have hB : B = [] := by
    cases B with
    | nil => rfl
    | cons b B =>
      have h7 := (List.pairwise_cons.1 (List.pairwise_append.1 hp).2.1).1 b (by simp)
      have h8 := hle b (by rw [hAB]; simp)
      simp only at h7; omega
  subst hB
  have hxe : x = [] := by
    have := h6 (o.sizeM s.rows s.cols)
    rw [hx] at this
    cases x with
    | nil => rfl
    | cons y x =>
      have h7 := (this.2.2 y.1 y.2).2 (by simp)
      have h8 : lineVal o s (o.sizeM s.rows s.cols) y.1 = none := by
        refine h3 _ _ ?_
        cases o <;> simp [Orient.indexM, Orient.indexm, Orient.sizeM]
      rw [h8] at h7; simp at h7
  subst hxe
  refine ⟨A, h1, h2, hAB, (List.pairwise_append.1 hp).1, fun y hy => (List.pairwise_append.1 hp).2.2 y hy _ (List.mem_singleton.2 rfl), ?_, ?_, h3⟩
  · intro y hy
    have := h6 y.1
    rw [(h4.2 y.1 y.2).2 (by rw [hAB]; simp [hy])] at this
    exact ⟨this.2.1, fun k w => (this.2.2 k w).symm⟩
  · intro k hk
    have := h6 k
    split at this <;> rename_i e
    · exact this
    · have hm := (h4.2 _ _).1 e
      rw [hAB, List.mem_append] at hm
      rcases hm with hm | hm
      · exact absurd rfl (hk _ hm)
      · simp only [List.mem_singleton, Prod.mk.injEq] at hm
        funext m
        refine h3 _ _ ?_
        rw [hm.1]
        cases o <;> simp [Orient.indexM, Orient.indexm, Orient.sizeM]

/-- The key and the elements of the line at place `a` (the sentinel behind the last). -/
def keyAt (T : List (Nat × List (Nat × α))) (z a : Nat) : Nat := (T[a]?.map (·.1)).getD z
def rowAt (T : List (Nat × List (Nat × α))) (a : Nat) : List (Nat × α) := (T[a]?.map (·.2)).getD []

theorem keyAt_lt {T : List (Nat × List (Nat × α))} {z a : Nat} (h : a < T.length) : keyAt T z a = T[a].1 := by simp [keyAt, h]
theorem keyAt_end (T : List (Nat × List (Nat × α))) (z : Nat) : keyAt T z T.length = z := by simp [keyAt]
theorem rowAt_lt {T : List (Nat × List (Nat × α))} {a : Nat} (h : a < T.length) : rowAt T a = T[a].2 := by simp [rowAt, h]
theorem rowAt_end (T : List (Nat × List (Nat × α))) : rowAt T T.length = [] := by simp [rowAt]

section
variable {o : Orient} {v : MapMapStd α} {s : Mat α} {T : List (Nat × List (Nat × α))} (h : Laid o v s T)
include h

theorem Laid.length : v.map.length = T.length + 1 := by rw [h.map]; simp

theorem Laid.entry {a : Nat} (ha : a ≤ T.length) : MapMap.entry v.map a = .ok (keyAt T (o.sizeM s.rows s.cols) a, rowAt T a) := by
  rw [MapMap.entry, rd_eq_ok, h.map]
  rcases Nat.lt_or_ge a T.length with hl | hl
  · rw [List.getElem?_append_left hl, keyAt_lt hl, rowAt_lt hl, List.getElem?_eq_getElem hl]
  · have : a = T.length := by omega
    subst this
    rw [keyAt_end, rowAt_end]; simp

theorem Laid.lower {k : Nat} (hk : k ≤ o.sizeM s.rows s.cols) : MapMap.lower v.map k = before T k := by
  rw [h.map, lower_eq, before, List.countP_append]
  simp only [List.countP_cons, List.countP_nil, decide_eq_true_eq]
  rw [if_neg (by omega)]; rfl

theorem Laid.rowInc (a : Nat) : Inc (rowAt T a) := by
  rcases Nat.lt_or_ge a T.length with hl | hl
  · rw [rowAt_lt hl]; exact (h.lines _ (List.getElem_mem hl)).1
  · have : rowAt T a = [] := by simp [rowAt, List.getElem?_eq_none hl]
    rw [this]; exact List.Pairwise.nil

theorem Laid.rowBelow (a : Nat) : ∀ x ∈ rowAt T a, x.1 < o.sizem s.rows s.cols := by
  intro x hx
  rcases Nat.lt_or_ge a T.length with hl | hl
  · rw [rowAt_lt hl] at hx
    have h1 := ((h.lines _ (List.getElem_mem hl)).2 x.1 x.2).1 hx
    refine Nat.lt_of_not_le fun hge => ?_
    have h2 : lineVal o s T[a].1 x.1 = none := by
      refine h.out _ _ ?_
      cases o <;> simp [Orient.indexM, Orient.indexm, Orient.sizem] at hge ⊢ <;> omega
    rw [h1] at h2; simp at h2
  · have : rowAt T a = [] := by simp [rowAt, List.getElem?_eq_none hl]
    rw [this] at hx; simp at hx

theorem Laid.beforeEnd : before T (o.sizeM s.rows s.cols) = T.length := before_all h.below

theorem Laid.keyBefore {a : Nat} (ha : a ≤ T.length) : before T (keyAt T (o.sizeM s.rows s.cols) a) = a := by
  rcases Nat.lt_or_ge a T.length with hl | hl
  · rw [keyAt_lt hl]; exact before_key h.inc hl
  · have : a = T.length := by omega
    subst this; rw [keyAt_end]; exact h.beforeEnd

theorem Laid.keyLe {a : Nat} (ha : a ≤ T.length) : keyAt T (o.sizeM s.rows s.cols) a ≤ o.sizeM s.rows s.cols := by
  rcases Nat.lt_or_ge a T.length with hl | hl
  · rw [keyAt_lt hl]; exact Nat.le_of_lt (h.below _ (List.getElem_mem hl))
  · have : a = T.length := by omega
    subst this; rw [keyAt_end]

/-- `find` of rank 0. -/
theorem Laid.find0 (dbg : Bool) (ax : Axis) {i j : Nat} (hM : o.indexM i j ≤ o.sizeM s.rows s.cols) :
    ∃ m, (before (rowAt T (before T (o.indexM i j))) (o.indexm i j) = (rowAt T (before T (o.indexM i j))).length → m = o.sizem s.rows s.cols) ∧
      (∀ hb : before (rowAt T (before T (o.indexM i j))) (o.indexm i j) < (rowAt T (before T (o.indexM i j))).length, m = (rowAt T (before T (o.indexM i j)))[before (rowAt T (before T (o.indexM i j))) (o.indexm i j)].1) ∧
      v.lookup dbg o ax true 0 i j = .ok
        ⟨0, (setAlong ax i j (match ax with | .one => o.indexM (keyAt T (o.sizeM s.rows s.cols) (before T (o.indexM i j))) m | .two => o.indexm (keyAt T (o.sizeM s.rows s.cols) (before T (o.indexM i j))) m)).1,
          (setAlong ax i j (match ax with | .one => o.indexM (keyAt T (o.sizeM s.rows s.cols) (before T (o.indexM i j))) m | .two => o.indexm (keyAt T (o.sizeM s.rows s.cols) (before T (o.indexM i j))) m)).2,
          before T (o.indexM i j), before T (o.indexM i j), before (rowAt T (before T (o.indexM i j))) (o.indexm i j)⟩ := by
  have hb := before_le T (o.indexM i j)
  have hne : v.map.length ≠ 0 := by rw [h.length]; omega
  rw [lookup, check_true hne, bind_ok, findIt]
  simp only [h.lower hM, h.length, h.entry hb, bind_ok, lower_eq, if_true]
  rw [if_neg (by omega)]
  by_cases hit : before (rowAt T (before T (o.indexM i j))) (o.indexm i j) = (rowAt T (before T (o.indexM i j))).length
  · refine ⟨o.sizem s.rows s.cols, fun _ => rfl, fun hh => by omega, ?_⟩
    simp only [if_pos hit, h.z1, h.z2, bind_ok]
    cases ax <;> rfl
  · have hlt : before (rowAt T (before T (o.indexM i j))) (o.indexm i j) < (rowAt T (before T (o.indexM i j))).length := by
      have := before_le (rowAt T (before T (o.indexM i j))) (o.indexm i j); omega
    refine ⟨(rowAt T (before T (o.indexM i j)))[before (rowAt T (before T (o.indexM i j))) (o.indexm i j)].1, fun hh => absurd hh hit, fun _ => rfl, ?_⟩
    simp only [if_neg hit, MapMap.entry, rd_ok hlt, bind_ok]
    cases ax <;> rfl

/-- `find` of rank 1 along the lines: the first element not before the place, in the line at the key or else in the next line there is. -/
theorem Laid.findFast (dbg : Bool) {ax : Axis} (hf : o.fast ax = true) {l : Nat} (hl : l ≤ o.sizeM s.rows s.cols) (k : Nat) :
    ∃ p, v.lookup dbg o ax true 1 (coord ax k l).1 (coord ax k l).2 = .ok p ∧ p.rank = 1 ∧ p.itv = before T l ∧ p.line = before T l ∧
      p.it = before (rowAt T (before T l)) k ∧ along ax.other p.i p.j = l := by
  have hM : ∀ k, o.indexM (coord ax k l).1 (coord ax k l).2 = l := by intro k; cases o <;> cases ax <;> first | rfl | simp [Orient.fast] at hf
  have hm : ∀ k, o.indexm (coord ax k l).1 (coord ax k l).2 = k := by intro k; cases o <;> cases ax <;> first | rfl | simp [Orient.fast] at hf
  have hb := before_le T l
  have hne : v.map.length ≠ 0 := by rw [h.length]; omega
  rw [lookup, check_true hne, bind_ok, show v.size1 + v.size2 + 2 = (v.size1 + v.size2) + 1 + 1 from rfl, findIt]
  simp only [hM, hm, h.lower hl, h.length, h.entry hb, bind_ok, lower_eq, Nat.one_ne_zero, if_false]
  rw [if_neg (by omega)]
  by_cases hit : before (rowAt T (before T l)) k = (rowAt T (before T l)).length
  · simp only [if_pos hit, bind_ok, hf, Bool.false_eq_true, if_false]
    exact ⟨_, rfl, rfl, rfl, rfl, rfl, across_coord ax k l⟩
  · have hlt : before (rowAt T (before T l)) k < (rowAt T (before T l)).length := by
      have := before_le (rowAt T (before T l)) k; omega
    simp only [if_neg hit, MapMap.entry, rd_ok hlt, bind_ok, hf]
    by_cases e : (rowAt T (before T l))[before (rowAt T (before T l)) k].1 = k
    · rw [if_pos (by simpa using e)]
      exact ⟨_, rfl, rfl, rfl, rfl, rfl, across_coord ax k l⟩
    · rw [if_neg (by simpa using e), setAlong_coord, across_coord, findIt]
      have hkey := before_key (h.rowInc (before T l)) hlt
      simp only [hM, hm, h.lower hl, h.length, h.entry hb, bind_ok, lower_eq, Nat.one_ne_zero, if_false, hkey]
      rw [if_neg (by omega), if_neg hit]
      simp only [MapMap.entry, rd_ok hlt, bind_ok, decide_true, if_true]
      exact ⟨_, rfl, rfl, rfl, rfl, rfl, across_coord ax _ l⟩

/-- `find` of rank 1 across the lines: the first line, from the place on, that has an element there. -/
theorem Laid.findSlow {ax : Axis} (hf : o.fast ax = false) (l : Nat) :
    ∀ fuel k, k ≤ o.sizeM s.rows s.cols → o.sizeM s.rows s.cols - k < fuel →
    ∃ p, findIt o v ax true 1 fuel (coord ax k l).1 (coord ax k l).2 = .ok p ∧ p.rank = 1 ∧ p.line = p.itv ∧ p.itv ≤ T.length ∧ before T k ≤ p.itv ∧
      p.it = before (rowAt T p.itv) l ∧ along ax.other p.i p.j = l ∧ (p.itv < T.length → HasKey (rowAt T p.itv) l) ∧
      ∀ a, before T k ≤ a → a < p.itv → ¬ HasKey (rowAt T a) l := by
  have hM : ∀ k, o.indexM (coord ax k l).1 (coord ax k l).2 = k := by intro k; cases o <;> cases ax <;> first | rfl | simp [Orient.fast] at hf
  have hm : ∀ k, o.indexm (coord ax k l).1 (coord ax k l).2 = l := by intro k; cases o <;> cases ax <;> first | rfl | simp [Orient.fast] at hf
  have hz : along ax v.size1 v.size2 = o.sizeM s.rows s.cols := by
    rw [h.z1, h.z2]; cases o <;> cases ax <;> first | rfl | simp [Orient.fast] at hf
  intro fuel
  induction fuel with
  | zero => intro k _ hk; omega
  | succ f ih =>
    intro k hk hfu
    have hb := before_le T k
    rw [findIt]
    simp only [hM, hm, h.lower hk, h.length, h.entry hb, bind_ok, lower_eq, Nat.one_ne_zero, if_false, hf, hz, along_coord, setAlong_coord, across_coord]
    rw [if_neg (by omega)]
    have hstep : ¬ HasKey (rowAt T (before T k)) l →
        (do let hit ← (Except.ok false : M Bool)
            if hit = true then Except.ok (⟨1, (coord ax k l).1, (coord ax k l).2, before T k, before T k, before (rowAt T (before T k)) l⟩ : MapMapIter) else
              if k ≥ o.sizeM s.rows s.cols then Except.ok ⟨1, (coord ax k l).1, (coord ax k l).2, before T k, before T k, before (rowAt T (before T k)) l⟩ else
              findIt o v ax true 1 f (coord ax (k + 1) l).1 (coord ax (k + 1) l).2 : M _) = 
            (if k ≥ o.sizeM s.rows s.cols then Except.ok ⟨1, (coord ax k l).1, (coord ax k l).2, before T k, before T k, before (rowAt T (before T k)) l⟩ else
              findIt o v ax true 1 f (coord ax (k + 1) l).1 (coord ax (k + 1) l).2 : M _) := by
      intro _; simp
    have hrest : ¬ HasKey (rowAt T (before T k)) l →
        ∃ p, (if k ≥ o.sizeM s.rows s.cols then Except.ok ⟨1, (coord ax k l).1, (coord ax k l).2, before T k, before T k, before (rowAt T (before T k)) l⟩ else
              findIt o v ax true 1 f (coord ax (k + 1) l).1 (coord ax (k + 1) l).2 : M MapMapIter) = .ok p ∧ p.rank = 1 ∧ p.line = p.itv ∧ p.itv ≤ T.length ∧ before T k ≤ p.itv ∧
      p.it = before (rowAt T p.itv) l ∧ along ax.other p.i p.j = l ∧ (p.itv < T.length → HasKey (rowAt T p.itv) l) ∧
      ∀ a, before T k ≤ a → a < p.itv → ¬ HasKey (rowAt T a) l := by
      intro hno
      by_cases hge : k ≥ o.sizeM s.rows s.cols
      · rw [if_pos hge]
        have : k = o.sizeM s.rows s.cols := by omega
        refine ⟨_, rfl, rfl, rfl, hb, Nat.le_refl _, rfl, across_coord ax k l, fun hlt => ?_, fun a h1 h2 => by simp only at h2; omega⟩
        simp only at hlt
        rw [this, h.beforeEnd] at hlt; omega
      · rw [if_neg hge]
        obtain ⟨p, p1, p2, p3, p4, p5, p6, p7, p8, p9⟩ := ih (k + 1) (by omega) (by omega)
        refine ⟨p, p1, p2, p3, p4, Nat.le_trans (before_mono T (by omega)) p5, p6, p7, p8, fun a h1 h2 => ?_⟩
        by_cases ha : a = before T k
        · subst ha; exact hno
        · refine p9 a ?_ h2
          -- the place `before T k` is the only one that may be skipped
          rcases Nat.lt_or_ge a (before T (k + 1)) with hlt | hge'
          · exfalso
            have ha' : a < T.length := by have := before_le T (k + 1); omega
            have q1 := (inc_before_iff h.inc (k + 1) ha').2 hlt
            have q2 : before T k < T.length := by omega
            have q3 : ¬ T[before T k].1 < k := fun hh => by have := (inc_before_iff h.inc k q2).1 hh; omega
            have q4 := List.pairwise_iff_getElem.1 h.inc (before T k) a q2 ha' (by omega)
            omega
          · exact hge'
    by_cases hend : before (rowAt T (before T k)) l = (rowAt T (before T k)).length
    · have hno : ¬ HasKey (rowAt T (before T k)) l := by rw [hasKey_iff (h.rowInc _)]; rintro ⟨hb, _⟩; omega
      simp only [if_pos hend, bind_ok, Bool.false_eq_true, if_false]
      exact hrest hno
    · have hlt : before (rowAt T (before T k)) l < (rowAt T (before T k)).length := by
        have := before_le (rowAt T (before T k)) l; omega
      simp only [if_neg hend, MapMap.entry, rd_ok hlt, bind_ok, decide_eq_true_eq]
      by_cases e : (rowAt T (before T k))[before (rowAt T (before T k)) l].1 = l
      · rw [if_pos e]
        exact ⟨_, rfl, rfl, rfl, hb, Nat.le_refl _, rfl, across_coord ax k l, fun _ => (hasKey_iff (h.rowInc _) l).2 ⟨hlt, e⟩, fun a h1 h2 => by simp only at h2; omega⟩
      · rw [if_neg e]
        refine hrest ?_
        rw [hasKey_iff (h.rowInc _)]; rintro ⟨_, e'⟩; exact e e'


theorem Laid.len (dbg : Bool) (zero : α) (ax : Axis) : (MIter.mapOfMaps dbg o zero v).len ax = along ax s.rows s.cols := by
  simp only [MIter.len, MIter.mapOfMaps, h.z1, h.z2]

/-- What an inner iterator at an element reports. -/
theorem Laid.see (dbg : Bool) (zero : α) (ax : Axis) {p : MapMapIter} (h1 : p.rank = 1) (h2 : p.line = p.itv) (h3 : p.itv < T.length)
    (h4 : p.it < (rowAt T p.itv).length) (hne : v.notEnd dbg o ax p = .ok ()) :
    v.index1 dbg o ax p = .ok (o.indexM T[p.itv].1 (rowAt T p.itv)[p.it].1) ∧ v.index2 dbg o ax p = .ok (o.indexm T[p.itv].1 (rowAt T p.itv)[p.it].1) ∧
      v.deref dbg o zero ax p = .ok (rowAt T p.itv)[p.it].2 := by
  have hk : v.keys p = .ok (T[p.itv].1, (rowAt T p.itv)[p.it].1) := by
    rw [keys, h2, h.entry (Nat.le_of_lt h3), bind_ok, bind_ok, MapMap.entry, rd_ok h4, bind_ok, keyAt_lt h3]
  have b1 := h.below _ (List.getElem_mem h3)
  have b2 := h.rowBelow _ _ (List.getElem_mem h4)
  have c1 : o.indexM T[p.itv].1 (rowAt T p.itv)[p.it].1 < v.size1 := by rw [h.z1]; cases o <;> simpa [Orient.indexM, Orient.sizeM, Orient.sizem] using by first | exact b1 | exact b2
  have c2 : o.indexm T[p.itv].1 (rowAt T p.itv)[p.it].1 < v.size2 := by rw [h.z2]; cases o <;> simpa [Orient.indexm, Orient.sizeM, Orient.sizem] using by first | exact b2 | exact b1
  have e1 : v.index1 dbg o ax p = .ok (o.indexM T[p.itv].1 (rowAt T p.itv)[p.it].1) := by
    simp only [index1, hne, ite_self, bind_ok, h1, if_true, hk, check_true c1]
  have e2 : v.index2 dbg o ax p = .ok (o.indexm T[p.itv].1 (rowAt T p.itv)[p.it].1) := by
    simp only [index2, hne, ite_self, bind_ok, h1, if_true, hk, check_true c2]
  refine ⟨e1, e2, ?_⟩
  have : (if dbg = true then do
      let i ← v.index1 dbg o ax p
      check dbg (i < v.size1) .badIndex
      let j ← v.index2 dbg o ax p
      check dbg (j < v.size2) .badIndex
    else .ok () : M Unit) = .ok () := by
    simp only [e1, e2, bind_ok, check_true c1, check_true c2, ite_self]
  rw [deref, this, bind_ok, if_pos h1, h2, h.entry (Nat.le_of_lt h3), bind_ok, MapMap.entry, rd_ok h4, bind_ok]

/-- Along the lines. -/
theorem Laid.seeFast (dbg : Bool) (zero : α) {ax : Axis} (hf : o.fast ax = true) {l : Nat} (hl : l ≤ o.sizeM s.rows s.cols) {p : MapMapIter} {k : Nat}
    (h1 : p.rank = 1) (h2 : p.itv = before T l) (h3 : p.line = before T l) (h4 : p.it = k) (h5 : along ax.other p.i p.j = l)
    (hk : k < (rowAt T (before T l)).length) :
    (MIter.mapOfMaps dbg o zero v).indexAlong ax p = .ok (rowAt T (before T l))[k].1 ∧
    (MIter.mapOfMaps dbg o zero v).indexAcross ax p = .ok (keyAt T (o.sizeM s.rows s.cols) (before T l)) ∧
    (MIter.mapOfMaps dbg o zero v).deref ax p = .ok (rowAt T (before T l))[k].2 := by
  have hb : before T l < T.length := by
    have := before_le T l
    rcases Nat.lt_or_ge (before T l) T.length with hlt | hge
    · exact hlt
    · have e : before T l = T.length := by omega
      rw [e, rowAt_end] at hk; simp at hk
  have hM : o.indexM (coord ax (along ax v.size1 v.size2) l).1 (coord ax (along ax v.size1 v.size2) l).2 = l := by
    cases o <;> cases ax <;> first | rfl | simp [Orient.fast] at hf
  have hm : o.indexm (coord ax (along ax v.size1 v.size2) l).1 (coord ax (along ax v.size1 v.size2) l).2 = o.sizem s.rows s.cols := by
    rw [h.z1, h.z2]; cases o <;> cases ax <;> first | rfl | simp [Orient.fast] at hf
  have hne : v.notEnd dbg o ax p = .ok () := by
    unfold notEnd
    cases dbg
    · rfl
    · rw [if_pos rfl, setAlong_coord, h5]
      obtain ⟨m, _, _, e⟩ := h.find0 true ax (i := (coord ax (along ax v.size1 v.size2) l).1) (j := (coord ax (along ax v.size1 v.size2) l).2) (by rw [hM]; exact hl)
      rw [e, bind_ok, hM, hm, before_all (h.rowBelow _)]
      have : ∀ i j, iterEq p ⟨0, i, j, before T l, before T l, (rowAt T (before T l)).length⟩ = false := by
        intro i j
        rw [iterEq, if_pos (Or.inl h1), decide_eq_false_iff_not]
        rintro ⟨_, e⟩
        simp only at e; omega
      exact check_true (this _ _)
  have hk' : p.it < (rowAt T p.itv).length := by rw [h2, h4]; exact hk
  obtain ⟨e1, e2, e3⟩ := h.see dbg zero ax h1 (h3.trans h2.symm) (by rw [h2]; exact hb) hk' hne
  simp only [h2, h4] at e1 e2 e3
  rw [keyAt_lt hb]
  have c1 : (MIter.mapOfMaps dbg o zero v).index1 ax p = v.index1 dbg o ax p := rfl
  have c2 : (MIter.mapOfMaps dbg o zero v).index2 ax p = v.index2 dbg o ax p := rfl
  refine ⟨?_, ?_, e3⟩
  · cases o <;> cases ax <;> first | exact e1 | exact e2 | simp [Orient.fast] at hf
  · cases o <;> cases ax <;> first | exact e1 | exact e2 | simp [Orient.fast] at hf

/-- Where an inner iterator along the lines stands. -/
def FastAt (T : List (Nat × List (Nat × α))) (ax : Axis) (l k : Nat) (p : MapMapIter) : Prop :=
  p.rank = 1 ∧ p.itv = before T l ∧ p.line = before T l ∧ p.it = k ∧ along ax.other p.i p.j = l

theorem Laid.fast_stands (dbg d : Bool) (zero : α) {ax : Axis} (hf : o.fast ax = true) {l : Nat} (hl : l ≤ o.sizeM s.rows s.cols) :
    ((MIter.mapOfMaps dbg o zero v).line d ax l).Stands (rowAt T (before T l)) (FastAt T ax l) := by
  have hz : along ax s.rows s.cols = o.sizem s.rows s.cols := by cases o <;> cases ax <;> first | rfl | simp [Orient.fast] at hf
  have hlen : ((MIter.mapOfMaps dbg o zero v).line d ax l).size = o.sizem s.rows s.cols := by rw [← hz]; exact h.len dbg zero ax
  refine ⟨h.rowInc _, ?_, ?_, ?_, ?_, ?_⟩
  · rw [hlen]; exact h.rowBelow _
  · intro i _
    obtain ⟨p, p1, p2, p3, p4, p5, p6⟩ := h.findFast dbg hf hl i
    refine ⟨p, ?_, p2, p3, p4, p5, p6⟩
    cases ax <;> exact p1
  · rintro k (p : MapMapIter) ⟨p2, p3, p4, p5, p6⟩ hk
    have e : v.next dbg o ax p = .ok { p with it := p.it + 1 } := by
      rw [MapMap.next, if_pos ⟨p2, hf⟩, p4, h.entry (before_le _ _), bind_ok, if_neg (by simp only [p5]; omega)]
    exact ⟨_, e, p2, p3, p4, by simp only [p5], p6⟩
  · rintro a b (p : MapMapIter) (q : MapMapIter) _ _ ⟨p2, p3, p4, p5, p6⟩ ⟨q2, q3, q4, q5, q6⟩
    refine congrArg Except.ok (?_ : iterEq p q = _)
    rw [MapMap.iterEq, if_pos (Or.inl p2), p4, q4, p5, q5]; simp
  · rintro k p hk ⟨p2, p3, p4, p5, p6⟩
    obtain ⟨e1, e2, e3⟩ := h.seeFast dbg zero hf hl p2 p3 p4 p5 p6 hk
    refine ⟨e1, ?_⟩
    simp only [MIter.line, e1, bind_ok]
    have hb := h.rowBelow _ _ (List.getElem_mem hk)
    rw [← hlen] at hb
    replace hb : (rowAt T (before T l))[k].1 < (MIter.mapOfMaps dbg o zero v).len ax := hb
    cases d
    · exact e3
    · simp only [if_true, check_true hb, bind_ok]; exact e3

theorem Laid.fast_backs (dbg d : Bool) (zero : α) {ax : Axis} (hf : o.fast ax = true) (l : Nat) :
    ((MIter.mapOfMaps dbg o zero v).line d ax l).Backs (rowAt T (before T l)) (FastAt T ax l) := by
  rintro k (p : MapMapIter) ⟨p2, p3, p4, p5, p6⟩ hk
  have e : v.prev dbg o ax p = .ok { p with it := p.it - 1 } := by
    rw [MapMap.prev, if_pos ⟨p2, hf⟩, if_neg (by omega)]
  exact ⟨_, e, p2, p3, p4, by simp only [p5]; omega, p6⟩

end

/-- The elements at minor index `l` of the lines, with the keys of the lines. -/
def cross (T : List (Nat × List (Nat × α))) (l : Nat) : List (Nat × α) :=
  T.filterMap fun x => (x.2.find? fun y => decide (y.1 = l)).map fun y => (x.1, y.2)

theorem cross_append (A B : List (Nat × List (Nat × α))) (l : Nat) : cross (A ++ B) l = cross A l ++ cross B l := List.filterMap_append

theorem cross_none {x : Nat × List (Nat × α)} {l : Nat} (hn : ¬ HasKey x.2 l) : cross [x] l = [] := by
  have : (x.2.find? fun y => decide (y.1 = l)) = none := by
    rw [List.find?_eq_none]
    intro y hy e
    simp only [decide_eq_true_eq] at e
    exact hn ⟨y.2, by rw [← e]; exact hy⟩
  simp [cross, this]

theorem cross_some {x : Nat × List (Nat × α)} {l : Nat} (hi : Inc x.2) (hb : before x.2 l < x.2.length) (e : x.2[before x.2 l].1 = l) :
    cross [x] l = [(x.1, x.2[before x.2 l].2)] := by
  have : ∀ L : List (Nat × α), Inc L → ∀ (hb : before L l < L.length), L[before L l].1 = l → (L.find? fun y => decide (y.1 = l)) = some L[before L l] := by
    intro L
    induction L with
    | nil => intro _ hb; simp at hb
    | cons y L ih =>
      intro hi hb e
      by_cases hy : y.1 = l
      · have : before (y :: L) l = 0 := before_none fun z hz => by
          rcases List.mem_cons.1 hz with rfl | hz
          · omega
          · have := (List.pairwise_cons.1 hi).1 z hz; omega
        simp [List.find?_cons, hy, this]
      · by_cases hlt : y.1 < l
        · have hbe : before (y :: L) l = before L l + 1 := by rw [before_cons, if_pos hlt]
          simp only [hbe, List.getElem_cons_succ] at e ⊢
          rw [List.find?_cons_of_neg (by simpa using hy)]
          exact ih (List.pairwise_cons.1 hi).2 (by rw [hbe] at hb; simpa using hb) e
        · exfalso
          have : before (y :: L) l = 0 := before_none fun z hz => by
            rcases List.mem_cons.1 hz with rfl | hz
            · omega
            · have := (List.pairwise_cons.1 hi).1 z hz; omega
          simp only [this, List.getElem_cons_zero] at e
          exact hy e
  simp [cross, this _ hi hb e]

theorem cross_keys {T : List (Nat × List (Nat × α))} {l : Nat} {x : Nat × α} (hx : x ∈ cross T l) : ∃ y ∈ T, y.1 = x.1 ∧ (l, x.2) ∈ y.2 := by
  obtain ⟨y, hy, e⟩ := List.mem_filterMap.1 hx
  obtain ⟨z, hz, e2⟩ := Option.map_eq_some_iff.1 e
  refine ⟨y, hy, by rw [← e2], ?_⟩
  have h1 := List.find?_some hz
  have h2 := List.mem_of_find?_eq_some hz
  simp only [decide_eq_true_eq] at h1
  rw [← e2, ← h1]; exact h2

theorem cross_inc {T : List (Nat × List (Nat × α))} (h : Inc T) (l : Nat) : Inc (cross T l) := by
  unfold cross Inc
  rw [List.pairwise_filterMap]
  refine h.imp ?_
  intro a b hab x hx y hy
  obtain ⟨_, _, e1⟩ := Option.map_eq_some_iff.1 hx
  obtain ⟨_, _, e2⟩ := Option.map_eq_some_iff.1 hy
  rw [← e1, ← e2]; exact hab

/-- Number of elements in the first `a` lines. -/
def crossed (T : List (Nat × List (Nat × α))) (l a : Nat) : Nat := (cross (T.take a) l).length

section
variable {o : Orient} {v : MapMapStd α} {s : Mat α} {T : List (Nat × List (Nat × α))} (h : Laid o v s T)
include h

theorem Laid.crossed_skip {l a : Nat} (ha : a < T.length) (hn : ¬ HasKey (rowAt T a) l) : crossed T l (a + 1) = crossed T l a := by
  rw [crossed, crossed, ← List.take_append_getElem ha, cross_append, cross_none (by rw [rowAt_lt ha] at hn; exact hn)]; simp

theorem Laid.crossed_hit {l a : Nat} (ha : a < T.length) (hn : HasKey (rowAt T a) l) : crossed T l (a + 1) = crossed T l a + 1 := by
  obtain ⟨hb, e⟩ := (hasKey_iff (h.rowInc _) l).1 hn
  simp only [rowAt_lt ha] at hb e
  rw [crossed, crossed, ← List.take_append_getElem ha, cross_append, cross_some (h.lines _ (List.getElem_mem ha)).1 hb e]; simp

theorem Laid.crossed_mono (l : Nat) {a b : Nat} (hab : a ≤ b) : crossed T l a ≤ crossed T l b := by
  have : T.take b = T.take a ++ (T.take b).drop a := by
    have e := List.take_append_drop a (T.take b)
    rw [List.take_take, Nat.min_eq_left hab] at e
    exact e.symm
  rw [crossed, crossed, this, cross_append]; simp

theorem Laid.crossed_gap {l a b : Nat} (hab : a ≤ b) (hb : b ≤ T.length) (hn : ∀ c, a ≤ c → c < b → ¬ HasKey (rowAt T c) l) : crossed T l b = crossed T l a := by
  induction b with
  | zero => have : a = 0 := by omega
            rw [this]
  | succ b ih =>
    rcases Nat.lt_or_ge b a with hlt | hge
    · have : a = b + 1 := by omega
      rw [this]
    · rw [h.crossed_skip (by omega) (hn b hge (by omega))]
      exact ih hge (by omega) fun c h1 h2 => hn c h1 (by omega)

theorem Laid.crossed_all (l : Nat) : crossed T l T.length = (cross T l).length := by rw [crossed, List.take_length]

theorem Laid.crossed_before (l k : Nat) : before (cross T l) k = crossed T l (before T k) := by
  have e : cross T l = cross (T.take (before T k)) l ++ cross (T.drop (before T k)) l := by rw [← cross_append, List.take_append_drop]
  have h1 : before (cross (T.take (before T k)) l) k = (cross (T.take (before T k)) l).length := by
    refine before_all fun x hx => ?_
    obtain ⟨y, hy, e1, _⟩ := cross_keys hx
    obtain ⟨n, hn, e2⟩ := List.mem_iff_getElem.1 hy
    simp only [List.length_take] at hn
    rw [List.getElem_take] at e2
    have := (inc_before_iff h.inc k (a := n) (by omega)).2 (by omega)
    rw [e2] at this; omega
  have h2 : before (cross (T.drop (before T k)) l) k = 0 := by
    refine before_none fun x hx => ?_
    obtain ⟨y, hy, e1, _⟩ := cross_keys hx
    obtain ⟨n, hn, e2⟩ := List.mem_iff_getElem.1 hy
    simp only [List.length_drop] at hn
    rw [List.getElem_drop] at e2
    have := mt (inc_before_iff h.inc k (a := before T k + n) (by omega)).1 (by omega)
    rw [e2] at this; omega
  have : before (cross T l) k = before (cross (T.take (before T k)) l) k + before (cross (T.drop (before T k)) l) k := by
    conv_lhs => rw [e, before, List.countP_append]
    rfl
  rw [this, h1, h2]; rfl

theorem Laid.cross_get {l a : Nat} (ha : a < T.length) (hn : HasKey (rowAt T a) l) : ∃ hb : before (rowAt T a) l < (rowAt T a).length,
    (rowAt T a)[before (rowAt T a) l].1 = l ∧ (cross T l)[crossed T l a]? = some (T[a].1, (rowAt T a)[before (rowAt T a) l].2) := by
  obtain ⟨hb, e⟩ := (hasKey_iff (h.rowInc _) l).1 hn
  refine ⟨hb, e, ?_⟩
  have e0 : cross T l = cross (T.take a) l ++ (cross [T[a]] l ++ cross (T.drop (a + 1)) l) := by
    rw [← cross_append, ← cross_append]; congr 1; simp
  simp only [rowAt_lt ha] at hb e ⊢
  rw [e0, crossed, List.getElem?_append_right (Nat.le_refl _), Nat.sub_self, cross_some (h.lines _ (List.getElem_mem ha)).1 hb e]
  simp

/-- Where an inner iterator across the lines stands. -/
def SlowAt (T : List (Nat × List (Nat × α))) (ax : Axis) (l c : Nat) (p : MapMapIter) : Prop :=
  p.rank = 1 ∧ p.line = p.itv ∧ p.itv ≤ T.length ∧ p.it = before (rowAt T p.itv) l ∧ along ax.other p.i p.j = l ∧
    (p.itv < T.length → HasKey (rowAt T p.itv) l) ∧ c = crossed T l p.itv

theorem Laid.lookSlow (dbg : Bool) {ax : Axis} (hf : o.fast ax = false) (l : Nat) {k : Nat} (hk : k ≤ o.sizeM s.rows s.cols) :
    ∃ p, v.lookup dbg o ax true 1 (coord ax k l).1 (coord ax k l).2 = .ok p ∧ SlowAt T ax l (crossed T l (before T k)) p := by
  have hne : v.map.length ≠ 0 := by rw [h.length]; omega
  have hz : o.sizeM s.rows s.cols - k < v.size1 + v.size2 + 2 := by
    rw [h.z1, h.z2]; cases o <;> simp only [Orient.sizeM] <;> omega
  obtain ⟨p, p1, p2, p3, p4, p5, p6, p7, p8, p9⟩ := h.findSlow hf l _ k hk hz
  refine ⟨p, ?_, p2, p3, p4, p6, p7, p8, ?_⟩
  · rw [lookup, check_true hne, bind_ok]; exact p1
  · exact (h.crossed_gap p5 p4 p9).symm

theorem Laid.slowEnd {ax : Axis} {l c : Nat} {p : MapMapIter} (hp : SlowAt T ax l c p) (hc : c < (cross T l).length) : p.itv < T.length := by
  obtain ⟨_, _, p4, _, _, _, p8⟩ := hp
  rcases Nat.lt_or_ge p.itv T.length with hlt | hge
  · exact hlt
  · have : p.itv = T.length := by omega
    rw [this, h.crossed_all] at p8; omega

/-- Across the lines. -/
theorem Laid.seeSlow (dbg : Bool) (zero : α) {ax : Axis} (hf : o.fast ax = false) {l c : Nat} {p : MapMapIter} (hp : SlowAt T ax l c p)
    (hc : c < (cross T l).length) :
    v.indexAlong dbg o ax p = .ok (cross T l)[c].1 ∧ v.indexAcross dbg o ax p = .ok l ∧
      v.deref dbg o zero ax p = .ok (cross T l)[c].2 ∧ (keyAt T (o.sizeM s.rows s.cols) p.itv) = (cross T l)[c].1 := by
  have hlt := h.slowEnd hp hc
  obtain ⟨p1, p2, p3, p4, p5, p6, p7⟩ := hp
  obtain ⟨hb, e1, e2⟩ := h.cross_get hlt (p6 hlt)
  have hM : o.indexM (coord ax (along ax v.size1 v.size2) l).1 (coord ax (along ax v.size1 v.size2) l).2 = o.sizeM s.rows s.cols := by
    rw [h.z1, h.z2]; cases o <;> cases ax <;> first | rfl | simp [Orient.fast] at hf
  have hne : v.notEnd dbg o ax p = .ok () := by
    unfold notEnd
    cases dbg
    · rfl
    · rw [if_pos rfl, setAlong_coord, p5]
      obtain ⟨m, _, _, e⟩ := h.find0 true ax (i := (coord ax (along ax v.size1 v.size2) l).1) (j := (coord ax (along ax v.size1 v.size2) l).2) (by rw [hM])
      rw [e, bind_ok, hM, h.beforeEnd]
      have : ∀ i j w, iterEq p ⟨0, i, j, T.length, T.length, w⟩ = false := by
        intro i j w
        rw [iterEq, if_pos (Or.inl p1), decide_eq_false_iff_not]
        rintro ⟨e, _⟩
        simp only at e; omega
      exact check_true (this _ _ _)
  have hk' : p.it < (rowAt T p.itv).length := by rw [p4]; exact hb
  obtain ⟨f1, f2, f3⟩ := h.see dbg zero ax p1 p2 hlt hk' hne
  simp only [p4, e1] at f1 f2 f3
  rw [← p7] at e2
  have e3 := (List.getElem?_eq_some_iff.1 e2).2
  rw [keyAt_lt hlt]
  refine ⟨?_, ?_, by rw [e3]; exact f3, by rw [e3]⟩
  · rw [e3]; cases o <;> cases ax <;> first | exact f1 | exact f2 | simp [Orient.fast] at hf
  · cases o <;> cases ax <;> first | exact f1 | exact f2 | simp [Orient.fast] at hf

theorem Laid.nextSlow (dbg : Bool) {ax : Axis} (hf : o.fast ax = false) {l c : Nat} {p : MapMapIter} (hp : SlowAt T ax l c p)
    (hc : c < (cross T l).length) : ∃ q, v.next dbg o ax p = .ok q ∧ SlowAt T ax l (c + 1) q := by
  obtain ⟨x0, hx0⟩ : ∃ x : α, True := ⟨(cross T l)[c].2, trivial⟩
  obtain ⟨s1, _, _, s2⟩ := h.seeSlow dbg x0 hf hp hc
  have hlt := h.slowEnd hp hc
  obtain ⟨p1, p2, p3, p4, p5, p6, p7⟩ := hp
  rw [keyAt_lt hlt] at s2
  have hM0 : o.indexM (coord ax (along ax v.size1 v.size2) 0).1 (coord ax (along ax v.size1 v.size2) 0).2 = o.sizeM s.rows s.cols := by
    rw [h.z1, h.z2]; cases o <;> cases ax <;> first | rfl | simp [Orient.fast] at hf
  have h00 : along ax.other 0 0 = 0 := by cases ax <;> rfl
  obtain ⟨m, _, _, e⟩ := h.find0 dbg ax (i := (coord ax (along ax v.size1 v.size2) 0).1) (j := (coord ax (along ax v.size1 v.size2) 0).2) (by rw [hM0])
  rw [hM0, h.beforeEnd] at e
  have hkb : before T ((cross T l)[c].1 + 1) = p.itv + 1 := by rw [← s2]; exact before_key_succ h.inc hlt
  have hcr : crossed T l (p.itv + 1) = c + 1 := by rw [h.crossed_hit hlt (p6 hlt), p7]
  have hkle : (cross T l)[c].1 + 1 ≤ o.sizeM s.rows s.cols := by rw [← s2]; exact h.below _ (List.getElem_mem hlt)
  obtain ⟨q, q1, q2⟩ := h.lookSlow dbg hf l hkle
  rw [hkb, hcr] at q2
  rw [MapMap.next, if_neg (by rw [hf]; simp), if_neg (by omega), s1, bind_ok, if_neg (by rw [h.length]; omega)]
  simp only [setAlong_coord, h00, p5, e, bind_ok, p1]
  by_cases hlast : p.itv + 1 = T.length
  · rw [if_pos hlast]; exact ⟨q, q1, q2⟩
  · rw [if_neg hlast, h.entry (by omega), bind_ok]
    by_cases hemp : (rowAt T (p.itv + 1)).length = 0
    · simp only [if_pos hemp]; exact ⟨q, q1, q2⟩
    · simp only [if_neg hemp]
      have hb2 : p.itv + 1 < T.length := by omega
      have hpos : 0 < (rowAt T (p.itv + 1)).length := by omega
      have hac : ∀ r : MapMapIter, r.rank = 1 → r.line = p.itv + 1 → r.itv = p.itv + 1 → r.it = 0 →
          v.indexAcross dbg o ax r = .ok (rowAt T (p.itv + 1))[0].1 := by
        intro r r1 r2 r3 r4
        have hk : v.keys r = .ok (T[p.itv + 1].1, (rowAt T (p.itv + 1))[0].1) := by
          rw [keys, r2, r3, h.entry (Nat.le_of_lt hb2), bind_ok, bind_ok, r4, MapMap.entry, rd_ok hpos, bind_ok, keyAt_lt hb2]
        have b2 := h.rowBelow _ _ (List.getElem_mem hpos)
        have b1 := h.below _ (List.getElem_mem hb2)
        have c1 : o.indexM T[p.itv + 1].1 (rowAt T (p.itv + 1))[0].1 < v.size1 := by rw [h.z1]; cases o <;> simpa [Orient.indexM, Orient.sizeM, Orient.sizem] using by first | exact b1 | exact b2
        have c2 : o.indexm T[p.itv + 1].1 (rowAt T (p.itv + 1))[0].1 < v.size2 := by rw [h.z2]; cases o <;> simpa [Orient.indexm, Orient.sizeM, Orient.sizem] using by first | exact b2 | exact b1
        cases ax
        · have : o = .row := by cases o <;> first | rfl | simp [Orient.fast] at hf
          simp only [indexAcross, index2, reduceCtorEq, if_false, bind_ok, r1, if_true, hk, check_true c2]
          subst this; rfl
        · have : o = .col := by cases o <;> first | rfl | simp [Orient.fast] at hf
          simp only [indexAcross, index1, reduceCtorEq, if_false, bind_ok, r1, if_true, hk, check_true c1]
          subst this; rfl
      rw [hac _ rfl rfl rfl rfl, bind_ok, across_coord]
      by_cases hne : (rowAt T (p.itv + 1))[0].1 = l
      · rw [if_neg (by simpa using hne)]
        have hbz : before (rowAt T (p.itv + 1)) l = 0 := by rw [← hne]; exact before_key (h.rowInc _) hpos
        refine ⟨_, rfl, rfl, rfl, by simp only; omega, hbz.symm, across_coord _ _ _, fun _ => ⟨(rowAt T (p.itv + 1))[0].2, ?_⟩, hcr.symm⟩
        have := List.getElem_mem hpos
        show (l, (rowAt T (p.itv + 1))[0].2) ∈ rowAt T (p.itv + 1)
        rw [← hne]; exact this
      · rw [if_pos hne]; exact ⟨q, q1, q2⟩

theorem Laid.slow_stands (dbg d : Bool) (zero : α) {ax : Axis} (hf : o.fast ax = false) (l : Nat) :
    ((MIter.mapOfMaps dbg o zero v).line d ax l).Stands (cross T l) (SlowAt T ax l) := by
  have hz : along ax s.rows s.cols = o.sizeM s.rows s.cols := by cases o <;> cases ax <;> first | rfl | simp [Orient.fast] at hf
  have hlen : ((MIter.mapOfMaps dbg o zero v).line d ax l).size = o.sizeM s.rows s.cols := by rw [← hz]; exact h.len dbg zero ax
  have hbel : ∀ x ∈ cross T l, x.1 < o.sizeM s.rows s.cols := by
    intro x hx
    obtain ⟨y, hy, e, _⟩ := cross_keys hx
    rw [← e]; exact h.below y hy
  refine ⟨cross_inc h.inc l, by rw [hlen]; exact hbel, ?_, ?_, ?_, ?_⟩
  · intro i hi
    rw [hlen] at hi
    obtain ⟨p, p1, p2⟩ := h.lookSlow dbg hf l hi
    refine ⟨p, ?_, by rw [h.crossed_before]; exact p2⟩
    cases ax <;> exact p1
  · intro k p hp hk
    exact h.nextSlow dbg hf hp hk
  · rintro a b (p : MapMapIter) (q : MapMapIter) _ _ hp hq
    refine congrArg Except.ok (?_ : iterEq p q = _)
    obtain ⟨p1, p2, p3, p4, p5, p6, p7⟩ := hp
    obtain ⟨q1, q2, q3, q4, q5, q6, q7⟩ := hq
    rw [MapMap.iterEq, if_pos (Or.inl p1), p2, q2, p4, q4]
    congr 1
    simp only [eq_iff_iff]
    constructor
    · rintro ⟨e, _⟩; rw [p7, q7, e]
    · intro e
      have : p.itv = q.itv := by
        rcases Nat.lt_trichotomy p.itv q.itv with hlt | e' | hgt
        · have g1 := h.crossed_hit (show p.itv < T.length by omega) (p6 (by omega))
          have g2 := h.crossed_mono l (show p.itv + 1 ≤ q.itv by omega)
          omega
        · exact e'
        · have g1 := h.crossed_hit (show q.itv < T.length by omega) (q6 (by omega))
          have g2 := h.crossed_mono l (show q.itv + 1 ≤ p.itv by omega)
          omega
      rw [this]; exact ⟨rfl, rfl⟩
  · intro k p hk hp
    obtain ⟨e1, e2, e3, _⟩ := h.seeSlow dbg zero hf hp hk
    have e1' : (MIter.mapOfMaps dbg o zero v).indexAlong ax p = .ok (cross T l)[k].1 := by cases ax <;> exact e1
    refine ⟨e1', ?_⟩
    simp only [MIter.line, e1', bind_ok]
    have hb := hbel _ (List.getElem_mem hk)
    rw [← hlen] at hb
    replace hb : (cross T l)[k].1 < (MIter.mapOfMaps dbg o zero v).len ax := hb
    cases d
    · exact e3
    · simp only [if_true, check_true hb, bind_ok]; exact e3

end

/-- Inner loops. -/
theorem walk_line {X : MIter α} {ax : Axis} {l : Nat} {L : List (Nat × α)} {At : Nat → X.Pos → Prop} (hs : (X.line false ax l).Stands L At) {w : Nat}
    (hac : ∀ k p, k < L.length → At k p → X.indexAcross ax p = .ok w) {e : X.Pos} (he : At L.length e) :
    ∀ fuel k p, At k p → k ≤ L.length → L.length - k < fuel → X.walk ax e fuel p = .ok ((L.drop k).map fun x => (coord ax x.1 w, x.2)) := by
  intro fuel
  induction fuel with
  | zero => intro k p _ _ hf; omega
  | succ f ih =>
    intro k p hp hk hf
    have heq : X.eq ax p e = .ok (decide (k = L.length)) := hs.eq _ _ _ _ hk (Nat.le_refl _) hp he
    rw [MIter.walk, heq, bind_ok]
    by_cases hkn : k = L.length
    · rw [if_pos (by simpa using hkn), List.drop_eq_nil_of_le (by omega)]; rfl
    · rw [if_neg (by simpa using hkn)]
      have hk' : k < L.length := by omega
      obtain ⟨s1, s3⟩ := hs.see k p hk' hp
      replace s1 : X.indexAlong ax p = .ok L[k].1 := s1
      replace s3 : X.deref ax p = .ok L[k].2 := s3
      have s2 := hac k p hk' hp
      obtain ⟨(q : X.Pos), q1, q2⟩ := hs.next k p hp hk'
      replace q1 : X.next ax p = .ok q := q1
      have ih := ih (k + 1) q q2 (by omega) (by omega)
      rw [List.drop_eq_getElem_cons hk']
      cases ax
      · simp only [MIter.indexAlong, MIter.indexAcross] at s1 s2
        rw [s1, s2, s3, q1]
        simp only [bind_ok, ih, List.map_cons]; rfl
      · simp only [MIter.indexAlong, MIter.indexAcross] at s1 s2
        rw [s1, s2, s3, q1]
        simp only [bind_ok, ih, List.map_cons]; rfl

theorem walkOuter_stop {X : MIter α} {ax : Axis} {e p : X.Pos} (heq : X.eq ax p e = .ok true) (f : Nat) : X.walkOuter ax e (f + 1) p = .ok [] := by
  rw [MIter.walkOuter, heq, bind_ok, if_pos rfl]

theorem walkOuter_round {X : MIter α} {ax : Axis} {e p ib ie : X.Pos} {k : Nat} {l : List ((Nat × Nat) × α)} (heq : X.eq ax p e = .ok false)
    (j0 : X.indexAlong ax p = .ok k) (j1 : X.innerBegin ax p = .ok ib) (j2 : X.innerEnd ax p = .ok ie)
    (j3 : X.walk ax.other ie (X.len ax.other + 1) ib = .ok l) (f : Nat) :
    X.walkOuter ax e (f + 1) p = (do
      let q ← X.next ax p
      let r ← X.walkOuter ax e f q
      .ok ((k, l) :: r) : M _) := by
  rw [MIter.walkOuter, heq, bind_ok, if_neg (by simp), j0, bind_ok, j1, bind_ok, j2, bind_ok, j3, bind_ok]

theorem walkOuter_round' {X : MIter α} {ax : Axis} {e p ib ie q : X.Pos} {k : Nat} {l : List ((Nat × Nat) × α)} {f : Nat} {r} (heq : X.eq ax p e = .ok false)
    (j0 : X.indexAlong ax p = .ok k) (j1 : X.innerBegin ax p = .ok ib) (j2 : X.innerEnd ax p = .ok ie)
    (j3 : X.walk ax.other ie (X.len ax.other + 1) ib = .ok l) (j4 : X.next ax p = .ok q) (j5 : X.walkOuter ax e f q = .ok r) :
    X.walkOuter ax e (f + 1) p = .ok ((k, l) :: r) := by
  rw [walkOuter_round heq j0 j1 j2 j3, j4, bind_ok, j5, bind_ok]

theorem traverse_begin {X : MIter α} {ax : Axis} {b e : X.Pos} (c1 : X.look ax 0 0 0 = .ok b) (c2 : X.look ax 0 (X.len ax) 0 = .ok e) :
    X.traverse ax = X.walkOuter ax e (X.len ax + 1) b := by
  rw [MIter.traverse, c1, bind_ok, c2, bind_ok]

section
variable {o : Orient} {v : MapMapStd α} {s : Mat α} {T : List (Nat × List (Nat × α))} (h : Laid o v s T)
include h

/-- The inner loop over a line that exists. -/
theorem Laid.innerFast (dbg : Bool) (zero : α) {ax : Axis} (hf : o.fast ax = true) {a : Nat} (ha : a < T.length) :
    ∃ ib ie, v.lookup dbg o ax true 1 (coord ax 0 T[a].1).1 (coord ax 0 T[a].1).2 = .ok ib ∧
      v.lookup dbg o ax true 1 (coord ax (along ax v.size1 v.size2) T[a].1).1 (coord ax (along ax v.size1 v.size2) T[a].1).2 = .ok ie ∧
      (MIter.mapOfMaps dbg o zero v).walk ax ie ((MIter.mapOfMaps dbg o zero v).len ax + 1) ib = .ok (T[a].2.map fun x => (coord ax x.1 T[a].1, x.2)) := by
  have hl := Nat.le_of_lt (h.below _ (List.getElem_mem ha))
  have hb := before_key h.inc ha
  have hz : along ax v.size1 v.size2 = o.sizem s.rows s.cols := by rw [h.z1, h.z2]; cases o <;> cases ax <;> first | rfl | simp [Orient.fast] at hf
  obtain ⟨ib, b1, b2, b3, b4, b5, b6⟩ := h.findFast dbg hf hl 0
  obtain ⟨ie, e1, e2, e3, e4, e5, e6⟩ := h.findFast dbg hf hl (along ax v.size1 v.size2)
  rw [before_zero] at b5
  rw [hz, before_all (h.rowBelow _)] at e5
  have hs := h.fast_stands dbg false zero hf hl
  have hlen := inc_length (h.rowInc (before T T[a].1)) (h.rowBelow (before T T[a].1))
  refine ⟨ib, ie, b1, e1, ?_⟩
  have := walk_line hs (w := T[a].1) (e := ie) (by
    rintro k p hk ⟨p2, p3, p4, p5, p6⟩
    rw [(h.seeFast dbg zero hf hl p2 p3 p4 p5 p6 hk).2.1, hb, keyAt_lt ha]) ⟨e2, e3, e4, e5, e6⟩ ((MIter.mapOfMaps dbg o zero v).len ax + 1) 0 ib
    ⟨b2, b3, b4, b5, b6⟩ (Nat.zero_le _) (by
      show _ - 0 < along ax v.size1 v.size2 + 1
      rw [hz]; omega)
  rw [this, hb, rowAt_lt ha]; rfl

/-- The inner loop across the lines. -/
theorem Laid.innerSlow (dbg : Bool) (zero : α) {ax : Axis} (hf : o.fast ax = false) (l : Nat) :
    ∃ ib ie, v.lookup dbg o ax true 1 (coord ax 0 l).1 (coord ax 0 l).2 = .ok ib ∧
      v.lookup dbg o ax true 1 (coord ax (along ax v.size1 v.size2) l).1 (coord ax (along ax v.size1 v.size2) l).2 = .ok ie ∧
      (MIter.mapOfMaps dbg o zero v).walk ax ie ((MIter.mapOfMaps dbg o zero v).len ax + 1) ib = .ok ((cross T l).map fun x => (coord ax x.1 l, x.2)) := by
  have hz : along ax v.size1 v.size2 = o.sizeM s.rows s.cols := by rw [h.z1, h.z2]; cases o <;> cases ax <;> first | rfl | simp [Orient.fast] at hf
  obtain ⟨ib, b1, b2⟩ := h.lookSlow dbg hf l (k := 0) (Nat.zero_le _)
  obtain ⟨ie, e1, e2⟩ := h.lookSlow dbg hf l (k := along ax v.size1 v.size2) (by rw [hz])
  rw [before_zero, show crossed T l 0 = 0 from rfl] at b2
  rw [hz, h.beforeEnd, h.crossed_all] at e2
  have hs := h.slow_stands dbg false zero hf l
  have hlen := inc_length hs.inc hs.below
  replace hlen : (cross T l).length ≤ along ax v.size1 v.size2 := hlen
  refine ⟨ib, ie, b1, e1, ?_⟩
  have := walk_line hs (w := l) (e := ie) (by
    intro k p hk hp
    have := (h.seeSlow dbg zero hf hp hk).2.1
    cases ax <;> exact this) e2 ((MIter.mapOfMaps dbg o zero v).len ax + 1) 0 ib
    b2 (Nat.zero_le _) (by
      show _ - 0 < along ax v.size1 v.size2 + 1
      omega)
  rw [this]; rfl

/-- Outer iterators of rank 0. -/
def OuterAt (ax : Axis) (k a : Nat) (p : MapMapIter) : Prop := p.rank = 0 ∧ along ax p.i p.j = k ∧ along ax.other p.i p.j = 0 ∧ p.itv = a

theorem iterEq0 {p q : MapMapIter} {ax : Axis} {k l a b : Nat} (hp : OuterAt ax k a p) (hq : OuterAt ax l b q) : iterEq p q = decide (k = l) := by
  obtain ⟨p1, p2, p3, _⟩ := hp
  obtain ⟨q1, q2, q3, _⟩ := hq
  rw [iterEq, if_neg (by omega)]
  congr 1
  simp only [eq_iff_iff]
  cases ax <;> simp only [along, Axis.other] at p2 p3 q2 q3 <;> omega

theorem Laid.look0 (dbg : Bool) {ax : Axis} (k : Nat) (hM : o.indexM (coord ax k 0).1 (coord ax k 0).2 ≤ o.sizeM s.rows s.cols) :
    ∃ p m, v.lookup dbg o ax true 0 (coord ax k 0).1 (coord ax k 0).2 = .ok p ∧
      (o.fast ax = false → OuterAt ax (keyAt T (o.sizeM s.rows s.cols) (before T k)) (before T k) p) ∧
      (o.fast ax = true → OuterAt ax m 0 p) ∧
      (before (rowAt T 0) k = (rowAt T 0).length → m = o.sizem s.rows s.cols) ∧
      (∀ hb : before (rowAt T 0) k < (rowAt T 0).length, m = (rowAt T 0)[before (rowAt T 0) k].1) := by
  by_cases hf : o.fast ax = true
  · have eM : o.indexM (coord ax k 0).1 (coord ax k 0).2 = 0 := by cases o <;> cases ax <;> first | rfl | simp [Orient.fast] at hf
    have em : o.indexm (coord ax k 0).1 (coord ax k 0).2 = k := by cases o <;> cases ax <;> first | rfl | simp [Orient.fast] at hf
    obtain ⟨m, m1, m2, e⟩ := h.find0 dbg ax hM
    simp only [eM, em, before_zero] at m1 m2 e
    refine ⟨_, m, e, (fun hh => by rw [hf] at hh; cases hh), fun _ => ?_, m1, m2⟩
    cases o <;> cases ax <;> first | exact ⟨rfl, rfl, rfl, rfl⟩ | simp [Orient.fast] at hf
  · have hf' : o.fast ax = false := by simpa using hf
    have eM : o.indexM (coord ax k 0).1 (coord ax k 0).2 = k := by cases o <;> cases ax <;> first | rfl | simp [Orient.fast] at hf
    obtain ⟨m, m1, m2, e⟩ := h.find0 dbg ax hM
    simp only [eM] at e
    refine ⟨_, if hb : before (rowAt T 0) k < (rowAt T 0).length then (rowAt T 0)[before (rowAt T 0) k].1 else o.sizem s.rows s.cols, e, fun _ => ?_,
      fun hh => absurd hh hf, fun hh => dif_neg (by omega), fun hb => dif_pos hb⟩
    cases o <;> cases ax <;> first | exact ⟨rfl, rfl, rfl, rfl⟩ | simp [Orient.fast] at hf'

/-- `end1 ()` / `end2 ()`. -/
theorem Laid.lookEnd (dbg : Bool) (ax : Axis) : ∃ e b, v.lookup dbg o ax true 0 (coord ax (along ax v.size1 v.size2) 0).1 (coord ax (along ax v.size1 v.size2) 0).2 = .ok e ∧
    OuterAt ax (along ax v.size1 v.size2) b e := by
  by_cases hf : o.fast ax = true
  · have hz : along ax v.size1 v.size2 = o.sizem s.rows s.cols := by rw [h.z1, h.z2]; cases o <;> cases ax <;> first | rfl | simp [Orient.fast] at hf
    obtain ⟨e, m, e1, _, e3, e4, _⟩ := h.look0 dbg (ax := ax) (along ax v.size1 v.size2) (by
      have : o.indexM (coord ax (along ax v.size1 v.size2) 0).1 (coord ax (along ax v.size1 v.size2) 0).2 = 0 := by cases o <;> cases ax <;> first | rfl | simp [Orient.fast] at hf
      rw [this]; exact Nat.zero_le _)
    have := e4 (by rw [hz]; exact before_all (h.rowBelow _))
    have e3 := e3 hf
    rw [this, ← hz] at e3
    exact ⟨e, 0, e1, e3⟩
  · have hf' : o.fast ax = false := by simpa using hf
    have hz : along ax v.size1 v.size2 = o.sizeM s.rows s.cols := by rw [h.z1, h.z2]; cases o <;> cases ax <;> first | rfl | simp [Orient.fast] at hf'
    obtain ⟨e, m, e1, e2, _⟩ := h.look0 dbg (ax := ax) (along ax v.size1 v.size2) (by
      have : o.indexM (coord ax (along ax v.size1 v.size2) 0).1 (coord ax (along ax v.size1 v.size2) 0).2 = along ax v.size1 v.size2 := by cases o <;> cases ax <;> first | rfl | simp [Orient.fast] at hf'
      rw [this, hz])
    have e2 := e2 hf'
    rw [hz, h.beforeEnd, keyAt_end] at e2
    rw [← hz] at e2
    exact ⟨e, _, e1, e2⟩

/-- The index of an outer iterator short of the end. -/
theorem Laid.index0 (dbg : Bool) {ax : Axis} {k a : Nat} {p : MapMapIter} (hp : OuterAt ax k a p) (hk : k ≠ along ax v.size1 v.size2) :
    v.indexAlong dbg o ax p = .ok k := by
  have hne : v.notEnd dbg o ax p = .ok () := by
    unfold notEnd
    cases dbg
    · rfl
    · obtain ⟨e, b, e1, e2⟩ := h.lookEnd true ax
      rw [if_pos rfl, setAlong_coord, hp.2.2.1, e1, bind_ok]
      exact check_true (by rw [iterEq0 h hp e2]; simpa using hk)
  have h0 : ¬ p.rank = 1 := by rw [hp.1]; decide
  cases ax
  · simp only [indexAlong, index1, if_true, hne, bind_ok, if_neg h0]; exact congrArg Except.ok hp.2.1
  · simp only [indexAlong, index2, if_true, hne, bind_ok, if_neg h0]; exact congrArg Except.ok hp.2.1

theorem Laid.next0 (dbg : Bool) {ax : Axis} {k a : Nat} {p : MapMapIter} (hp : OuterAt ax k a p) (ha : a < T.length) :
    ∃ q, v.next dbg o ax p = .ok q ∧ OuterAt ax (keyAt T (o.sizeM s.rows s.cols) (a + 1)) (a + 1) q := by
  obtain ⟨p1, p2, p3, p4⟩ := hp
  rw [MapMap.next, if_neg (by omega), if_pos p1, if_neg (by rw [h.length]; omega), p4, h.entry (by omega), bind_ok]
  refine ⟨_, rfl, p1, ?_, ?_, by simp only [p4]⟩
  · simp only [setAlong_coord, along_coord]
  · simp only [setAlong_coord, across_coord, p3]

/-- Stepping beyond the sentinel. -/
theorem Laid.nextOut (dbg : Bool) {ax : Axis} {k : Nat} {p : MapMapIter} (hp : OuterAt ax k T.length p) : v.next dbg o ax p = .error .ub := by
  obtain ⟨p1, p2, p3, p4⟩ := hp
  rw [MapMap.next, if_neg (by omega), if_pos p1, if_neg (by rw [h.length]; omega), p4]
  have : MapMap.entry v.map (T.length + 1) = .error .ub := by
    unfold MapMap.entry rd
    have : v.map[T.length + 1]? = none := List.getElem?_eq_none (by rw [h.length])
    simp [this]
  rw [this]; rfl

theorem Laid.outerFast (dbg : Bool) (zero : α) {ax : Axis} (hf : o.fast ax = false) {e : MapMapIter} {b : Nat} (he : OuterAt ax (along ax v.size1 v.size2) b e) :
    ∀ fuel a p, OuterAt ax (keyAt T (o.sizeM s.rows s.cols) a) a p → a ≤ T.length → T.length - a < fuel →
      (MIter.mapOfMaps dbg o zero v).walkOuter ax e fuel p = .ok ((T.drop a).map fun x => (x.1, x.2.map fun y => (coord ax x.1 y.1, y.2))) := by
  have hz : along ax v.size1 v.size2 = o.sizeM s.rows s.cols := by rw [h.z1, h.z2]; cases o <;> cases ax <;> first | rfl | simp [Orient.fast] at hf
  have hfo : o.fast ax.other = true := by cases o <;> cases ax <;> first | rfl | simp [Orient.fast] at hf
  intro fuel
  induction fuel with
  | zero => intro a p _ _ hh; omega
  | succ f ih =>
    intro a p hp ha hfu
    have heq : (MIter.mapOfMaps dbg o zero v).eq ax p e = .ok (decide (keyAt T (o.sizeM s.rows s.cols) a = along ax v.size1 v.size2)) :=
      congrArg Except.ok (iterEq0 h hp he)
    rw [hz] at heq
    by_cases han : a = T.length
    · subst han
      rw [keyAt_end, decide_eq_true rfl] at heq
      rw [List.drop_eq_nil_of_le (Nat.le_refl _)]
      exact walkOuter_stop heq f
    · have ha' : a < T.length := by omega
      have hkl := h.below _ (List.getElem_mem ha')
      rw [keyAt_lt ha'] at hp heq
      rw [decide_eq_false (by omega)] at heq
      have hi := h.index0 dbg hp (by rw [hz]; omega)
      obtain ⟨ib, ie, i1, i2, i3⟩ := h.innerFast dbg zero hfo ha'
      obtain ⟨q, q1, q2⟩ := h.next0 dbg hp ha'
      have ih := ih (a + 1) q q2 (by omega) (by omega)
      have j0 : (MIter.mapOfMaps dbg o zero v).indexAlong ax p = .ok T[a].1 := by cases ax <;> exact hi
      have j1 : (MIter.mapOfMaps dbg o zero v).innerBegin ax p = .ok ib := by
        refine Eq.trans (?_ : _ = (v.indexAlong dbg o ax p >>= fun k => v.lookup dbg o ax.other true 1 (setAlong ax 0 0 k).1 (setAlong ax 0 0 k).2)) ?_
        · rfl
        · rw [hi, bind_ok]; cases ax <;> exact i1
      have j2 : (MIter.mapOfMaps dbg o zero v).innerEnd ax p = .ok ie := by
        refine Eq.trans (?_ : _ = (v.indexAlong dbg o ax p >>= fun k => v.lookup dbg o ax.other true 1 (setAlong ax v.size1 v.size2 k).1 (setAlong ax v.size1 v.size2 k).2)) ?_
        · rfl
        · rw [hi, bind_ok]; cases ax <;> exact i2
      refine (walkOuter_round' heq j0 j1 j2 i3 q1 ih).trans ?_
      rw [List.drop_eq_getElem_cons ha', List.map_cons]
      cases ax <;> rfl

/-- The nested loops in the direction of the storage order. -/
theorem Laid.traverseMajor (dbg : Bool) (zero : α) {ax : Axis} (hf : o.fast ax = false) :
    (MIter.mapOfMaps dbg o zero v).traverse ax = .ok (T.map fun x => (x.1, x.2.map fun y => (coord ax x.1 y.1, y.2))) := by
  have hz : along ax v.size1 v.size2 = o.sizeM s.rows s.cols := by rw [h.z1, h.z2]; cases o <;> cases ax <;> first | rfl | simp [Orient.fast] at hf
  obtain ⟨b, _, b1, b2, _⟩ := h.look0 dbg (ax := ax) 0 (by
    have : o.indexM (coord ax 0 0).1 (coord ax 0 0).2 = 0 := by cases o <;> cases ax <;> rfl
    rw [this]; exact Nat.zero_le _)
  obtain ⟨e, w, e1, e2⟩ := h.lookEnd dbg ax
  have b2 := b2 hf
  rw [before_zero] at b2
  have c1 : (MIter.mapOfMaps dbg o zero v).look ax 0 0 0 = .ok b := by cases ax <;> exact b1
  have c2 : (MIter.mapOfMaps dbg o zero v).look ax 0 ((MIter.mapOfMaps dbg o zero v).len ax) 0 = .ok e := by cases ax <;> exact e1
  have hlen := inc_length h.inc h.below
  rw [traverse_begin c1 c2, h.outerFast dbg zero hf e2 _ 0 b b2 (Nat.zero_le _) (by show _ < along ax v.size1 v.size2 + 1; rw [hz]; omega)]
  rfl

/-- One round of the nested loops against the storage order. -/
theorem Laid.roundMinor (dbg : Bool) (zero : α) {ax : Axis} (hf : o.fast ax = true) {e : MapMapIter} {b : Nat} (he : OuterAt ax (along ax v.size1 v.size2) b e)
    (fuel : Nat) {k a : Nat} {p : MapMapIter} (hp : OuterAt ax k a p) (hk : k ≠ along ax v.size1 v.size2) :
    (MIter.mapOfMaps dbg o zero v).walkOuter ax e (fuel + 1) p = (do
      let q ← v.next dbg o ax p
      let r ← (MIter.mapOfMaps dbg o zero v).walkOuter ax e fuel q
      .ok ((k, (cross T k).map fun x => (coord ax.other x.1 k, x.2)) :: r) : M _) := by
  have hfo : o.fast ax.other = false := by cases o <;> cases ax <;> first | rfl | simp [Orient.fast] at hf
  have heq : (MIter.mapOfMaps dbg o zero v).eq ax p e = .ok (decide (k = along ax v.size1 v.size2)) := congrArg Except.ok (iterEq0 h hp he)
  have hi := h.index0 dbg hp hk
  obtain ⟨ib, ie, i1, i2, i3⟩ := h.innerSlow dbg zero hfo k
  have j0 : (MIter.mapOfMaps dbg o zero v).indexAlong ax p = .ok k := by cases ax <;> exact hi
  have j1 : (MIter.mapOfMaps dbg o zero v).innerBegin ax p = .ok ib := by
    refine Eq.trans (?_ : _ = (v.indexAlong dbg o ax p >>= fun k => v.lookup dbg o ax.other true 1 (setAlong ax 0 0 k).1 (setAlong ax 0 0 k).2)) ?_
    · rfl
    · rw [hi, bind_ok]; cases ax <;> exact i1
  have j2 : (MIter.mapOfMaps dbg o zero v).innerEnd ax p = .ok ie := by
    refine Eq.trans (?_ : _ = (v.indexAlong dbg o ax p >>= fun k => v.lookup dbg o ax.other true 1 (setAlong ax v.size1 v.size2 k).1 (setAlong ax v.size1 v.size2 k).2)) ?_
    · rfl
    · rw [hi, bind_ok]; cases ax <;> exact i2
  rw [decide_eq_false hk] at heq
  refine (walkOuter_round heq j0 j1 j2 i3 fuel).trans ?_
  rfl

theorem Laid.stopMinor (dbg : Bool) (zero : α) {ax : Axis} {e : MapMapIter} {b : Nat} (he : OuterAt ax (along ax v.size1 v.size2) b e)
    (fuel : Nat) {a : Nat} {p : MapMapIter} (hp : OuterAt ax (along ax v.size1 v.size2) a p) :
    (MIter.mapOfMaps dbg o zero v).walkOuter ax e (fuel + 1) p = .ok [] := by
  have heq : (MIter.mapOfMaps dbg o zero v).eq ax p e = .ok (decide (along ax v.size1 v.size2 = along ax v.size1 v.size2)) := congrArg Except.ok (iterEq0 h hp he)
  rw [decide_eq_true rfl] at heq
  exact walkOuter_stop heq fuel

/-- How the nested loops against the storage order begin. -/
theorem Laid.startMinor (dbg : Bool) (zero : α) {ax : Axis} (hf : o.fast ax = true) (hpos : 0 < (rowAt T 0).length) :
    ∃ b e w, OuterAt ax (rowAt T 0)[0].1 0 b ∧ OuterAt ax (along ax v.size1 v.size2) w e ∧
      (MIter.mapOfMaps dbg o zero v).traverse ax = (MIter.mapOfMaps dbg o zero v).walkOuter ax e (along ax v.size1 v.size2 + 1) b := by
  obtain ⟨b, m, b1, _, b2, _, b3⟩ := h.look0 dbg (ax := ax) 0 (by
    have : o.indexM (coord ax 0 0).1 (coord ax 0 0).2 = 0 := by cases o <;> cases ax <;> rfl
    rw [this]; exact Nat.zero_le _)
  obtain ⟨e, w, e1, e2⟩ := h.lookEnd dbg ax
  have b2 := b2 hf
  simp only [before_zero] at b3
  rw [b3 hpos] at b2
  have c1 : (MIter.mapOfMaps dbg o zero v).look ax 0 0 0 = .ok b := by cases ax <;> exact b1
  have c2 : (MIter.mapOfMaps dbg o zero v).look ax 0 ((MIter.mapOfMaps dbg o zero v).len ax) 0 = .ok e := by cases ax <;> exact e1
  refine ⟨b, e, w, b2, e2, ?_⟩
  rw [traverse_begin c1 c2]
  rfl

end
theorem lineVal_fast {o : Orient} {ax : Axis} (hf : o.fast ax = true) (s : Mat α) (l k : Nat) : lineVal o s l k = s.val (coord ax k l) := by
  cases o <;> cases ax <;> first | rfl | simp [Orient.fast] at hf
theorem lineVal_slow {o : Orient} {ax : Axis} (hf : o.fast ax = false) (s : Mat α) (l k : Nat) : lineVal o s l k = s.val (coord ax l k) := by
  cases o <;> cases ax <;> first | rfl | simp [Orient.fast] at hf

section
variable {o : Orient} {v : MapMapStd α} {s : Mat α} {T : List (Nat × List (Nat × α))} (h : Laid o v s T)
include h

theorem Laid.fast_lists {ax : Axis} (hf : o.fast ax = true) {l : Nat}
    (hx : (∃ k, s.val (coord ax k l) ≠ none) ∨ ∀ l', l ≤ l' → ∀ k, s.val (coord ax k l') = none) :
    Lists (rowAt T (before T l)) fun k => s.val (coord ax k l) := by
  have e : (fun k => s.val (coord ax k l)) = lineVal o s l := by funext k; exact (lineVal_fast hf s l k).symm
  rw [e]
  rcases hx with ⟨k, hk⟩ | hall
  · have : ∃ x ∈ T, x.1 = l := by
      refine Classical.byContradiction fun hno => hk ?_
      have := h.absent l fun x hx e => hno ⟨x, hx, e⟩
      rw [← lineVal_fast hf, this]
    obtain ⟨x, hx, rfl⟩ := this
    obtain ⟨a, ha, rfl⟩ := List.mem_iff_getElem.1 hx
    rw [before_key h.inc ha, rowAt_lt ha]
    exact h.lines _ hx
  · have hemp : rowAt T (before T l) = [] := by
      rcases Nat.lt_or_ge (before T l) T.length with hlt | hge
      · have h1 := mt (inc_before_iff h.inc l hlt).1 (by omega)
        rw [rowAt_lt hlt]
        refine List.eq_nil_iff_forall_not_mem.2 fun x hx => ?_
        have h2 := ((h.lines _ (List.getElem_mem hlt)).2 x.1 x.2).1 hx
        rw [lineVal_fast hf, hall _ (by omega)] at h2
        simp at h2
      · have := before_le T l
        have e : before T l = T.length := by omega
        rw [e, rowAt_end]
    rw [hemp]
    refine ⟨List.Pairwise.nil, fun k w => ?_⟩
    rw [lineVal_fast hf, hall l (Nat.le_refl _)]
    simp

theorem Laid.slow_lists {ax : Axis} (hf : o.fast ax = false) (l : Nat) : Lists (cross T l) fun k => s.val (coord ax k l) := by
  refine ⟨cross_inc h.inc l, fun k w => ?_⟩
  show _ ↔ s.val (coord ax k l) = some w
  rw [← lineVal_slow hf]
  constructor
  · intro hm
    obtain ⟨y, hy, e1, e2⟩ := cross_keys hm
    simp only at e1 e2
    have := ((h.lines y hy).2 l w).1 e2
    rw [e1] at this; exact this
  · intro hv
    have : ∃ x ∈ T, x.1 = k := by
      refine Classical.byContradiction fun hno => ?_
      have := h.absent k fun x hx e => hno ⟨x, hx, e⟩
      rw [this] at hv; simp at hv
    obtain ⟨x, hx, rfl⟩ := this
    have hm := ((h.lines x hx).2 l w).2 hv
    obtain ⟨a, ha, rfl⟩ := List.mem_iff_getElem.1 hx
    obtain ⟨hb, g1, g2⟩ := h.cross_get ha (l := l) (by rw [rowAt_lt ha]; exact ⟨w, hm⟩)
    have g3 := List.mem_of_getElem? g2
    have g4 : (l, (rowAt T a)[before (rowAt T a) l].2) ∈ T[a].2 := by
      have hz : ∀ z : Nat × α, z ∈ rowAt T a → z.1 = l → (l, z.2) ∈ T[a].2 := by
        rintro z hz rfl; rw [rowAt_lt ha] at hz; exact hz
      exact hz _ (List.getElem_mem hb) g1
    have g5 := ((h.lines _ hx).2 l _).1 g4
    rw [hv] at g5
    simp only [Option.some.injEq] at g5
    rw [← g5] at g3; exact g3

end
end MapMap

open MIter (coord)

/-- **C88 (lines and the nested loops in storage order).** After any legal history of a `mapped_vector_of_mapped_vector` with its default storage, of either
orientation: iterating a row or a column, directly or through any stack of vector views, visits exactly the stored elements shown, in increasing order, with
their indices and values (through slices and indirect arrays: every element), for every line against the storage order, and for those along it that have an
element or have no element after them; along the storage order also backwards.  The nested loops in storage order visit, in order, every line with elements (and
possibly some without), and in each exactly its elements.  (`o.fast ax`: the axis runs along the stored lines: rows if row-major.)
Missing: `C88_absent_line_refuted`, `C88_reverse_refuted`, `C88_minor_refuted`; matrix views. -/
theorem C88_map_of_maps_iterators_partial (dbg : Bool) (o : Orient) (zero : α) (r c : Nat) (ops : List (MapMapOp α))
    (hl : mlegalRun zero ⟨r, c, fun _ => none⟩ (ops.map (·.toSM))) (s : Mat α) (hs : s = mrun zero ⟨r, c, fun _ => none⟩ (ops.map (·.toSM)))
    (h1 : s.rows < 2 ^ 64) (h2 : s.cols < 2 ^ 64) :
    ∃ v0 v, MapMap.ctor stdMapImpl stdMapImpl dbg o r c = .ok v0 ∧ MapMap.run stdMapImpl stdMapImpl dbg o zero v0 ops = .ok v ∧
      (∀ ax l, l < CMat.along ax.other s.rows s.cols →
        (o.fast ax = true → (∃ k, s.val (coord ax k l) ≠ none) ∨ ∀ l', l ≤ l' → ∀ k, s.val (coord ax k l') = none) →
        ∃ E, Lists E (fun k => s.val (coord ax k l)) ∧ ∀ p : VRef, p.Fits (CMat.along ax s.rows s.cols) →
          (((MIter.mapOfMaps dbg o zero v).line dbg ax l).view dbg p).els = .ok (p.shown (fun k => (s.val (coord ax k l)).getD zero) E) ∧
          (o.fast ax = true →
            (((MIter.mapOfMaps dbg o zero v).line dbg ax l).view dbg p).elsBack = .ok (p.shown (fun k => (s.val (coord ax k l)).getD zero) E).reverse)) ∧
      (∀ ax, o.fast ax = false → ∃ T : List (Nat × List (Nat × α)), Inc T ∧ (∀ x ∈ T, Lists x.2 fun k => s.val (coord ax x.1 k)) ∧
        (∀ k l, s.val (coord ax k l) ≠ none → ∃ x ∈ T, x.1 = k) ∧
        (MIter.mapOfMaps dbg o zero v).traverse ax = .ok (T.map fun x => (x.1, x.2.map fun y => (coord ax x.1 y.1, y.2)))) := by
  obtain ⟨v0, e0, g0⟩ := MapMap.ctor_inv stdMap_laws stdMap_laws dbg o r c
  obtain ⟨v, e, hi⟩ := MapMap.run_inv stdMap_laws stdMap_laws dbg o zero ops v0 _ g0 hl
  rw [← hs] at hi
  have hobs := hi.observes stdMap_laws stdMap_laws o zero
  obtain ⟨T, h⟩ := hi.laid
  refine ⟨v0, v, e0, e, ?_, ?_⟩
  · intro ax l hlt hx
    have hsz : ((MIter.mapOfMaps dbg o zero v).line dbg ax l).size = CMat.along ax s.rows s.cols := h.len dbg zero ax
    have hs64 : ((MIter.mapOfMaps dbg o zero v).line dbg ax l).size < 2 ^ 64 := by rw [hsz]; cases ax <;> assumption
    have hrd : (MIter.mapOfMaps dbg o zero v).Reads fun i j => (s.val (i, j)).getD zero := by
      intro i j hi hj
      exact hobs.2.2.1 i j (h.z1 ▸ hi) (h.z2 ▸ hj)
    have hrl := hrd.line dbg ax (l := l) (by rw [h.len dbg zero]; exact hlt)
    have hfun : (fun k => (s.val ((coord ax k l).1, (coord ax k l).2)).getD zero) = fun k => (s.val (coord ax k l)).getD zero := rfl
    cases hf : o.fast ax with
    | true =>
      have hM : l ≤ o.sizeM s.rows s.cols := by cases o <;> cases ax <;> first | exact Nat.le_of_lt hlt | simp [Orient.fast] at hf
      refine ⟨_, h.fast_lists hf (hx hf), fun p hp => ?_⟩
      obtain ⟨⟨At', i1, i2⟩, _⟩ := VIter.view_stands (h.fast_stands dbg dbg zero hf hM) hrl hs64 dbg p (by rw [hsz]; exact hp)
      exact ⟨i1.els, fun _ => i1.elsBack (i2 (h.fast_backs dbg dbg zero hf l))⟩
    | false =>
      refine ⟨_, h.slow_lists hf l, fun p hp => ?_⟩
      obtain ⟨⟨At', i1, i2⟩, _⟩ := VIter.view_stands (h.slow_stands dbg dbg zero hf l) hrl hs64 dbg p (by rw [hsz]; exact hp)
      exact ⟨i1.els, fun hh => by cases hh⟩
  · intro ax hf
    refine ⟨T, h.inc, fun x hx => ?_, fun k l hk => ?_, h.traverseMajor dbg zero hf⟩
    · have : (fun k => s.val (coord ax x.1 k)) = MapMap.lineVal o s x.1 := by funext k; exact (MapMap.lineVal_slow hf s x.1 k).symm
      rw [this]; exact h.lines x hx
    · refine Classical.byContradiction fun hno => hk ?_
      have := h.absent k fun x hx e => hno ⟨x, hx, e⟩
      rw [← MapMap.lineVal_slow hf, this]

theorem VIter.elsBack_fault {V : VIter α} {b q : V.Pos} {x : Fault} (h1 : V.find 0 = .ok b) (h2 : V.find V.size = .ok q) (h3 : V.eq q b = .ok false)
    (h4 : V.prev q = .error x) : V.elsBack = .error x := by
  rw [VIter.elsBack, h1, bind_ok, h2, bind_ok, VIter.walkBack, h3, bind_ok, if_neg (by simp), h4]; rfl

/-- **C88 refuted (backwards across the storage order).** After any legal history, iterating backwards a column of a row-major (a row of a column-major) matrix
that has an element throws `bad_index` in debug builds and reads the end of an empty map in release builds. -/
theorem C88_reverse_refuted (dbg : Bool) (o : Orient) (zero : α) (r c : Nat) (ops : List (MapMapOp α))
    (hl : mlegalRun zero ⟨r, c, fun _ => none⟩ (ops.map (·.toSM))) (s : Mat α) (hs : s = mrun zero ⟨r, c, fun _ => none⟩ (ops.map (·.toSM))) :
    ∃ v0 v, MapMap.ctor stdMapImpl stdMapImpl dbg o r c = .ok v0 ∧ MapMap.run stdMapImpl stdMapImpl dbg o zero v0 ops = .ok v ∧
      ∀ ax l, o.fast ax = false → (∃ k, s.val (coord ax k l) ≠ none) →
        ((MIter.mapOfMaps dbg o zero v).line dbg ax l).elsBack = .error (if dbg = true then .badIndex else .ub) := by
  obtain ⟨v0, e0, g0⟩ := MapMap.ctor_inv stdMap_laws stdMap_laws dbg o r c
  obtain ⟨v, e, hi⟩ := MapMap.run_inv stdMap_laws stdMap_laws dbg o zero ops v0 _ g0 hl
  rw [← hs] at hi
  obtain ⟨T, h⟩ := hi.laid
  refine ⟨v0, v, e0, e, ?_⟩
  rintro ax l hf ⟨k, hk⟩
  have hst := h.slow_stands dbg dbg zero hf l
  have hlist := h.slow_lists hf l
  have hpos : 0 < (MapMap.cross T l).length := by
    obtain ⟨w, hw⟩ := Option.ne_none_iff_exists'.1 hk
    exact List.length_pos_of_mem ((hlist.2 k w).2 hw)
  obtain ⟨b, b1, b2⟩ := hst.find 0 (Nat.zero_le _)
  obtain ⟨(q : MapMapIter), q1, q2⟩ := hst.find _ (Nat.le_refl _)
  rw [before_zero] at b2
  rw [before_all hst.below] at q2
  have heq := hst.eq _ _ _ _ (Nat.le_refl _) (Nat.zero_le _) q2 b2
  rw [decide_eq_false (by omega)] at heq
  obtain ⟨p1, p2, p3, p4, p5, p6, p7⟩ := q2
  have hend : q.itv = T.length := by
    rcases Nat.lt_or_ge q.itv T.length with hlt | hge
    · have g1 := h.crossed_hit hlt (p6 hlt)
      have g2 := h.crossed_mono l (show q.itv + 1 ≤ T.length from hlt)
      rw [h.crossed_all] at g2; omega
    · omega
  have hbad : v.prev dbg o ax q = .error (if dbg = true then .badIndex else .ub) := by
    have hix : v.indexAlong dbg o ax q = .error (if dbg = true then .badIndex else .ub) := by
      have hky : v.keys q = .error .ub := by
        rw [MapMap.keys, p2, hend, h.entry (Nat.le_refl _), bind_ok, bind_ok, MapMap.rowAt_end]
        rfl
      cases dbg
      · have hne : v.notEnd false o ax q = .ok () := rfl
        cases ax
        · simp only [MapMap.indexAlong, MapMap.index1, hne, if_true, bind_ok, p1, hky]; rfl
        · simp only [MapMap.indexAlong, MapMap.index2, hne, if_true, bind_ok, p1, hky]; rfl
      · have hne : v.notEnd true o ax q = .error .badIndex := by
          unfold MapMap.notEnd
          rw [if_pos rfl, MapMap.setAlong_coord, p5]
          have hM : o.indexM (coord ax (CMat.along ax v.size1 v.size2) l).1 (coord ax (CMat.along ax v.size1 v.size2) l).2 = o.sizeM s.rows s.cols := by
            rw [h.z1, h.z2]; cases o <;> cases ax <;> first | rfl | simp [Orient.fast] at hf
          obtain ⟨m, _, _, e⟩ := h.find0 true ax (i := (coord ax (CMat.along ax v.size1 v.size2) l).1) (j := (coord ax (CMat.along ax v.size1 v.size2) l).2) (by rw [hM])
          rw [e, bind_ok, hM, h.beforeEnd]
          have : ∀ i j w, w = 0 → MapMap.iterEq q ⟨0, i, j, T.length, T.length, w⟩ = true := by
            intro i j w hw
            rw [MapMap.iterEq, if_pos (Or.inl p1), decide_eq_true_eq]
            refine ⟨p2.trans hend, ?_⟩
            rw [p4, hend, MapMap.rowAt_end, hw]; rfl
          rw [this _ _ _ (by rw [MapMap.rowAt_end]; rfl)]
          rfl
        cases ax
        · simp only [MapMap.indexAlong, MapMap.index1, hne, if_true]; rfl
        · simp only [MapMap.indexAlong, MapMap.index2, hne, if_true]; rfl
    rw [MapMap.prev, if_neg (by rw [hf]; simp), if_neg (by omega), hix]; rfl
  exact VIter.elsBack_fault b1 q1 heq hbad

/-- One written element. -/
theorem MapMap.one_element (dbg : Bool) (o : Orient) (zero : α) {r c i j : Nat} (hi : i < r) (hj : j < c) (t : α) :
    ∃ v0 v, MapMap.ctor stdMapImpl stdMapImpl dbg o r c = .ok v0 ∧ v0.modify stdMapImpl stdMapImpl dbg o zero i j (fun _ => t) = .ok v ∧
      ∃ s : Mat α, MapMap.Laid o v s [(o.indexM i j, [(o.indexm i j, t)])] ∧ s.rows = r ∧ s.cols = c := by
  have hl : mlegal (⟨r, c, fun _ => none⟩ : Mat α) (MapMapOp.toSM (.modify i j fun _ => t)) := ⟨hi, hj⟩
  obtain ⟨v0, e0, g0⟩ := MapMap.ctor_inv stdMap_laws stdMap_laws dbg o r c
  obtain ⟨v, e, g⟩ := MapMap.step_inv stdMap_laws stdMap_laws dbg o zero v0 _ _ g0 hl
  obtain ⟨T, h⟩ := g.laid
  have hM : o.indexM i j < o.sizeM r c := by cases o <;> simpa [Orient.indexM, Orient.sizeM]
  have hmap : v.map = [(o.indexM i j, [(o.indexm i j, t)])] ++ [(o.sizeM r c, [])] := by
    have h0 : v0.map = [(o.sizeM r c, [])] := by
      have e0' := e0
      simp only [MapMap.ctor, MapMap.putEmpty, stdMapImpl, sortedInsert, bind_ok, List.map_cons, List.map_nil, if_true, Except.ok.injEq] at e0'
      rw [← e0']
    have hne : ¬ o.sizeM r c = o.indexM i j := by omega
    have hne' : ¬ o.indexM i j = o.sizeM r c := by omega
    have e' := e
    simp [MapMap.step, MapMap.modify, stdMapImpl, h0, sortedInsert, hM, hne, hne', List.lookup] at e'
    rw [← e']; rfl
  have hT : T = [(o.indexM i j, [(o.indexm i j, t)])] := by
    have := h.map
    rw [hmap] at this
    exact (List.append_inj_left' this rfl).symm
  rw [hT] at h
  exact ⟨v0, v, e0, e, _, h, rfl, rfl⟩

/-- Two written elements in different lines. -/
theorem MapMap.two_elements (dbg : Bool) (o : Orient) (zero : α) {r c i j i' j' : Nat} (hi : i < r) (hj : j < c) (hi' : i' < r) (hj' : j' < c) (t t' : α)
    (hlt : o.indexM i j < o.indexM i' j') :
    ∃ v0 v1 v, MapMap.ctor stdMapImpl stdMapImpl dbg o r c = .ok v0 ∧ v0.modify stdMapImpl stdMapImpl dbg o zero i j (fun _ => t) = .ok v1 ∧
      v1.modify stdMapImpl stdMapImpl dbg o zero i' j' (fun _ => t') = .ok v ∧
      ∃ s : Mat α, MapMap.Laid o v s [(o.indexM i j, [(o.indexm i j, t)]), (o.indexM i' j', [(o.indexm i' j', t')])] ∧ s.rows = r ∧ s.cols = c := by
  have hl : mlegal (⟨r, c, fun _ => none⟩ : Mat α) (MapMapOp.toSM (.modify i j fun _ => t)) := ⟨hi, hj⟩
  obtain ⟨v0, e0, g0⟩ := MapMap.ctor_inv stdMap_laws stdMap_laws dbg o r c
  obtain ⟨v1, e1, g1⟩ := MapMap.step_inv stdMap_laws stdMap_laws dbg o zero v0 _ _ g0 hl
  have hl' : mlegal (mstep zero (⟨r, c, fun _ => none⟩ : Mat α) (MapMapOp.toSM (.modify i j fun _ => t))) (MapMapOp.toSM (.modify i' j' fun _ => t')) := ⟨hi', hj'⟩
  obtain ⟨v, e, g⟩ := MapMap.step_inv stdMap_laws stdMap_laws dbg o zero v1 _ _ g1 hl'
  obtain ⟨T, h⟩ := g.laid
  have hM : o.indexM i j < o.sizeM r c := by cases o <;> simpa [Orient.indexM, Orient.sizeM]
  have hM' : o.indexM i' j' < o.sizeM r c := by cases o <;> simpa [Orient.indexM, Orient.sizeM]
  have hmap : v.map = [(o.indexM i j, [(o.indexm i j, t)]), (o.indexM i' j', [(o.indexm i' j', t')])] ++ [(o.sizeM r c, [])] := by
    have h0 : v0.map = [(o.sizeM r c, [])] := by
      have e0' := e0
      simp only [MapMap.ctor, MapMap.putEmpty, stdMapImpl, sortedInsert, bind_ok, List.map_cons, List.map_nil, if_true, Except.ok.injEq] at e0'
      rw [← e0']
    have hne : ¬ o.sizeM r c = o.indexM i j := by omega
    have hne' : ¬ o.indexM i j = o.sizeM r c := by omega
    have h1 : v1.map = [(o.indexM i j, [(o.indexm i j, t)]), (o.sizeM r c, [])] := by
      have e' := e1
      simp [MapMap.step, MapMap.modify, stdMapImpl, h0, sortedInsert, hM, hne, hne', List.lookup] at e'
      rw [← e']
    have hn1 : ¬ o.sizeM r c = o.indexM i' j' := by omega
    have hn2 : ¬ o.indexM i' j' = o.sizeM r c := by omega
    have hn3 : ¬ o.indexM i j = o.indexM i' j' := by omega
    have hn4 : ¬ o.indexM i' j' = o.indexM i j := by omega
    have hn5 : ¬ o.indexM i' j' < o.indexM i j := by omega
    have e' := e
    have hb : (o.indexM i' j' == o.indexM i j) = false := by simpa using hn4
    simp [MapMap.step, MapMap.modify, stdMapImpl, h1, sortedInsert, hM', hn1, hn2, hn3, hn4, hn5, hb, List.lookup] at e'
    rw [← e']; rfl
  have hT : T = [(o.indexM i j, [(o.indexm i j, t)]), (o.indexM i' j', [(o.indexm i' j', t')])] := by
    have := h.map
    rw [hmap] at this
    exact (List.append_inj_left' this rfl).symm
  rw [hT] at h
  exact ⟨v0, v1, v, e0, e1, e, _, h, rfl, rfl⟩

/-- **C88 refuted (lines without elements).** Write one element `(i, j)` into an empty matrix of any shape: in both build modes every earlier row of a row-major
(column of a column-major) matrix then shows that element too, although it is zero everywhere. -/
theorem C88_absent_line_refuted (dbg : Bool) (o : Orient) (zero : α) (r c i j : Nat) (hi : i < r) (hj : j < c) (t : α) (ax : Axis) (hf : o.fast ax = true)
    (l : Nat) (hlt : l < o.indexM i j) :
    ∃ v0 v, MapMap.ctor stdMapImpl stdMapImpl dbg o r c = .ok v0 ∧ v0.modify stdMapImpl stdMapImpl dbg o zero i j (fun _ => t) = .ok v ∧
      (∀ k, v.get stdMapImpl stdMapImpl o zero (coord ax k l).1 (coord ax k l).2 = .ok zero) ∧
      ((MIter.mapOfMaps dbg o zero v).line dbg ax l).els = .ok [(o.indexm i j, t)] := by
  obtain ⟨v0, v, e0, e, s, h, hr, hc⟩ := MapMap.one_element dbg o zero hi hj t
  have hM : l ≤ o.sizeM s.rows s.cols := by have := h.below _ List.mem_cons_self; simp only at this; omega
  have hb : before [(o.indexM i j, [(o.indexm i j, t)])] l = 0 := before_none fun x hx => by
    rw [List.mem_singleton] at hx; rw [hx]; exact Nat.le_of_lt hlt
  refine ⟨v0, v, e0, e, fun k => ?_, ?_⟩
  · have eM : o.indexM (coord ax k l).1 (coord ax k l).2 = l := by cases o <;> cases ax <;> first | rfl | simp [Orient.fast] at hf
    have h1 : v.map = [(o.indexM i j, [(o.indexm i j, t)]), (o.sizeM s.rows s.cols, [])] := h.map
    have n1 : (l == o.indexM i j) = false := by simp; omega
    have n2 : (l == o.sizeM s.rows s.cols) = false := by
      have := h.below _ List.mem_cons_self; simp only at this; simp; omega
    simp [MapMap.get, stdMapImpl, eM, h1, List.lookup, n1, n2]
  · have := (h.fast_stands dbg dbg zero hf hM).els
    rw [hb] at this; exact this

/-- **C88 refuted (nested loops against the storage order).** In both build modes: iterating by columns a row-major (by rows a column-major) matrix that is not
square and has one element increments an iterator past its end. -/
theorem C88_minor_refuted (dbg : Bool) (o : Orient) (zero : α) (r c i j : Nat) (hi : i < r) (hj : j < c) (hrc : r ≠ c) (t : α) (ax : Axis) (hf : o.fast ax = true) :
    ∃ v0 v, MapMap.ctor stdMapImpl stdMapImpl dbg o r c = .ok v0 ∧ v0.modify stdMapImpl stdMapImpl dbg o zero i j (fun _ => t) = .ok v ∧
      (MIter.mapOfMaps dbg o zero v).traverse ax = .error .ub := by
  obtain ⟨v0, v, e0, e, s, h, hr, hc⟩ := MapMap.one_element dbg o zero hi hj t
  obtain ⟨b, q, w, b1, q1, q2⟩ := h.startMinor dbg zero hf (by exact Nat.one_pos)
  replace b1 : MapMap.OuterAt ax (o.indexm i j) 0 b := b1
  have hz : CMat.along ax v.size1 v.size2 = o.sizem r c := by rw [h.z1, h.z2, hr, hc]; cases o <;> cases ax <;> first | rfl | simp [Orient.fast] at hf
  have hm : o.indexm i j < o.sizem r c := by cases o <;> simpa [Orient.indexm, Orient.sizem]
  have hMm : o.sizeM r c ≠ o.sizem r c := by cases o <;> simp [Orient.sizeM, Orient.sizem] <;> omega
  refine ⟨v0, v, e0, e, ?_⟩
  obtain ⟨b', n1, n2⟩ := h.next0 dbg b1 (by exact Nat.one_pos)
  have hkey : MapMap.keyAt [(o.indexM i j, [(o.indexm i j, t)])] (o.sizeM s.rows s.cols) (0 + 1) = o.sizeM r c := by rw [hr, hc]; rfl
  rw [hkey] at n2
  rw [q2, h.roundMinor dbg zero hf q1 _ b1 (by omega), n1]
  obtain ⟨f, hfu⟩ : ∃ f, CMat.along ax v.size1 v.size2 = f + 1 := ⟨CMat.along ax v.size1 v.size2 - 1, by omega⟩
  have := h.roundMinor dbg zero hf q1 f n2 (by rw [hz]; exact hMm)
  rw [← hfu] at this
  rw [h.nextOut dbg n2] at this
  refine Eq.trans (bind_ok _ _) ?_
  rw [this]; rfl

/-- **C88 refuted (nested loops against the storage order, square).** In both build modes: a square row-major matrix with elements at `(0, a)` and `(b, k)`, `b > 0`,
iterated by columns, visits the columns `a` and `b`; the column `k`, if neither of them, is never visited, and its element never seen (likewise with
columns and rows exchanged). -/
theorem C88_minor_square_refuted (dbg : Bool) (o : Orient) (zero : α) (n a b k : Nat) (ha : a < n) (hb : b < n) (hk : k < n) (h0 : 0 < b) (t t' : α)
    (ax : Axis) (hf : o.fast ax = true) :
    ∃ v0 v1 v u w, MapMap.ctor stdMapImpl stdMapImpl dbg o n n = .ok v0 ∧
      v0.modify stdMapImpl stdMapImpl dbg o zero (coord ax a 0).1 (coord ax a 0).2 (fun _ => t) = .ok v1 ∧
      v1.modify stdMapImpl stdMapImpl dbg o zero (coord ax k b).1 (coord ax k b).2 (fun _ => t') = .ok v ∧
      (MIter.mapOfMaps dbg o zero v).traverse ax = .ok [(a, u), (b, w)] := by
  have m0 : ∀ x y, o.indexM (coord ax x y).1 (coord ax x y).2 = y := by intro x y; cases o <;> cases ax <;> first | rfl | simp [Orient.fast] at hf
  have m1 : ∀ x y, o.indexm (coord ax x y).1 (coord ax x y).2 = x := by intro x y; cases o <;> cases ax <;> first | rfl | simp [Orient.fast] at hf
  have hn : 0 < n := by omega
  obtain ⟨v0, v1, v, e0, e1, e, s, h, hr, hc⟩ := MapMap.two_elements dbg o zero (r := n) (c := n) (i := (coord ax a 0).1) (j := (coord ax a 0).2)
    (i' := (coord ax k b).1) (j' := (coord ax k b).2) (by cases ax <;> assumption) (by cases ax <;> assumption) (by cases ax <;> assumption)
    (by cases ax <;> assumption) t t' (by rw [m0, m0]; exact h0)
  simp only [m0, m1] at h
  obtain ⟨p, q, w, b1, q1, q2⟩ := h.startMinor dbg zero hf (by exact Nat.one_pos)
  replace b1 : MapMap.OuterAt ax a 0 p := b1
  have hz : CMat.along ax v.size1 v.size2 = n := by rw [h.z1, h.z2, hr, hc]; cases ax <;> rfl
  have hMn : o.sizeM s.rows s.cols = n := by rw [hr, hc]; cases o <;> rfl
  obtain ⟨p1, n1, n2⟩ := h.next0 dbg b1 (by exact Nat.two_pos)
  have k1 : MapMap.keyAt [(0, [(a, t)]), (b, [(k, t')])] (o.sizeM s.rows s.cols) (0 + 1) = b := rfl
  rw [k1] at n2
  obtain ⟨p2, n3, n4⟩ := h.next0 dbg n2 (by show 1 < 2; decide)
  have k2 : MapMap.keyAt [(0, [(a, t)]), (b, [(k, t')])] (o.sizeM s.rows s.cols) (0 + 1 + 1) = n := hMn
  rw [k2] at n4
  obtain ⟨f, hfu⟩ : ∃ f, n = f + 1 + 1 := ⟨n - 2, by omega⟩
  have c3 := h.stopMinor dbg zero q1 f (p := p2) (a := 0 + 1 + 1) (by rw [hz]; exact n4)
  have c2 := h.roundMinor dbg zero hf q1 (f + 1) n2 (by omega)
  rw [n3] at c2
  have c2' := c2.trans (bind_ok _ _)
  rw [c3] at c2'
  replace c2' := c2'.trans (bind_ok _ _)
  have c1 := h.roundMinor dbg zero hf q1 (f + 1 + 1) b1 (by omega)
  rw [n1] at c1
  replace c1 := c1.trans (bind_ok _ _)
  rw [c2'] at c1
  replace c1 := c1.trans (bind_ok _ _)
  have q3 : (MIter.mapOfMaps dbg o zero v).traverse ax = (MIter.mapOfMaps dbg o zero v).walkOuter ax q (f + 1 + 1 + 1) p := by rw [q2, hz, hfu]
  exact ⟨v0, v1, v, _, _, e0, e1, e, q3.trans c1⟩

/-- The demonstration history of C87, seen through its iterators: by rows, then along column 1; the hypotheses of the theorems hold of it. -/
example : mlegalRun 0 ⟨2, 3, fun _ => none⟩ (C87_demo.map (·.toSM)) ∧
    (do let v0 ← MapMap.ctor stdMapImpl stdMapImpl true .row 2 3
        let v ← MapMap.run stdMapImpl stdMapImpl true .row 0 v0 C87_demo
        let a ← (MIter.mapOfMaps true .row 0 v).traverse .one
        let b ← ((MIter.mapOfMaps true .row 0 v).line true .one 1).els
        let c ← ((MIter.mapOfMaps true .row 0 v).line true .two 1).elsBack
        Except.ok (a, b, c) : M _) = .ok ([(0, [((0, 1), 5)]), (1, [((1, 0), 9)])], [(0, 5)], [(0, 9)]) := by
  refine ⟨?_, by rfl⟩
  simp [C87_demo, MapMapOp.toSM, mlegalRun, mlegal, mstep]

end Ublas
