import Verif.Spec.ElementProxy
import Verif.Props.Mapped
import Verif.Props.CompressedVector
import Verif.Props.CompressedMatrix
import Verif.Props.Coo
/-! # C100: element proxies of sparse containers -/
namespace Ublas
open ElemSpec SparseSpec
variable {σ κ π α : Type} [DecidableEq κ]

/-- What the proxies rely on. -/
structure ElemIface.Laws (C : ElemIface σ κ π α) (inside : κ → Prop) (R : σ → (κ → Option α) → Prop) : Prop where
  create : ∀ c s k, R c s → inside k → C.create c k = .ok ()
  find : ∀ c s k, R c s → inside k → ∃ c', R c' s ∧ ((s k = none ∧ C.find c k = .ok (c', none)) ∨
    ∃ p w, s k = some w ∧ C.find c k = .ok (c', some p) ∧ C.load c' p = .ok w ∧ ∀ x, ∃ c'', C.save c' p x = .ok c'' ∧ R c'' (put s k x))
  insert : ∀ c s k x, R c s → inside k → s k = none → ∃ c', C.insert c k x = .ok c' ∧ R c' (put s k x)

namespace ElemIface
variable {C : ElemIface σ κ π α} {inside : κ → Prop} {R : σ → (κ → Option α) → Prop}

theorem Laws.getD (L : C.Laws inside R) (zero : α) {c : σ} {s : κ → Option α} {k : κ} (h : R c s) (hk : inside k) :
    ∃ c', C.getD zero c k = .ok (c', at_ zero s k) ∧ R c' s := by
  obtain ⟨c', h1, h2⟩ := L.find c s k h hk
  rcases h2 with ⟨h2, h3⟩ | ⟨p, w, h2, h3, h4, _⟩
  · exact ⟨c', by simp [ElemIface.getD, h3, bind_ok, at_, h2], h1⟩
  · exact ⟨c', by simp [ElemIface.getD, h3, h4, bind_ok, at_, h2], h1⟩

theorem Laws.set (L : C.Laws inside R) {c : σ} {s : κ → Option α} {k : κ} (h : R c s) (hk : inside k) (x : α) :
    ∃ c', C.set c k x = .ok c' ∧ R c' (put s k x) := by
  obtain ⟨c', h1, h2⟩ := L.find c s k h hk
  rcases h2 with ⟨h2, h3⟩ | ⟨p, w, h2, h3, h4, h5⟩
  · obtain ⟨c'', e, r⟩ := L.insert c' s k x h1 hk h2
    exact ⟨c'', by simp only [ElemIface.set, h3, bind_ok, e], r⟩
  · obtain ⟨c'', e, r⟩ := h5 x
    exact ⟨c'', by simp only [ElemIface.set, h3, bind_ok, e], r⟩

theorem put_put (s : κ → Option α) (k : κ) (x y : α) : put (put s k x) k y = put s k y := by
  funext j; simp only [put]; split <;> rfl

theorem Laws.ref (L : C.Laws inside R) (zero : α) {c : σ} {s : κ → Option α} {k : κ} (h : R c s) (hk : inside k) (f : α → α) :
    ∃ c', C.ref zero c k f = .ok c' ∧ R c' (put s k (f (at_ zero s k))) := by
  obtain ⟨c', h1, h2⟩ := L.find c s k h hk
  rcases h2 with ⟨h2, h3⟩ | ⟨p, w, h2, h3, h4, h5⟩
  · obtain ⟨c1, e, r⟩ := L.insert c' s k zero h1 hk h2
    obtain ⟨c2, g1, g2⟩ := L.find c1 _ k r hk
    rcases g2 with ⟨g2, _⟩ | ⟨p, w, g2, g3, g4, g5⟩
    · simp [put] at g2
    · have hw : w = zero := by simpa [put, eq_comm] using g2
      subst hw
      obtain ⟨c3, e3, r3⟩ := g5 (f w)
      refine ⟨c3, by simp only [ElemIface.ref, h3, bind_ok, e, g3, g4, e3], ?_⟩
      rw [put_put] at r3
      simpa [at_, h2] using r3
  · obtain ⟨c2, e, r⟩ := h5 (f w)
    exact ⟨c2, by simp only [ElemIface.ref, h3, bind_ok, h4, e], by simpa [at_, h2] using r⟩

theorem Laws.step (L : C.Laws inside R) (zero : α) {c : σ} {s : κ → Option α} (h : R c s) (op : ElemOp κ α) (hl : legal inside op) :
    ∃ c', C.step zero c op = .ok c' ∧ R c' (ElemSpec.step zero s op) := by
  cases op with
  | assign k d =>
    obtain ⟨c', e, r⟩ := L.set h hl d
    exact ⟨c', by simp only [ElemIface.step, L.create c s k h hl, bind_ok, e], r⟩
  | update k g d =>
    obtain ⟨c1, e1, r1⟩ := L.getD zero h hl
    obtain ⟨c', e, r⟩ := L.set r1 hl (g (at_ zero s k) d)
    exact ⟨c', by simp only [ElemIface.step, L.create c s k h hl, bind_ok, e1, e], r⟩
  | copy k l =>
    obtain ⟨c1, e1, r1⟩ := L.getD zero h hl.2
    obtain ⟨c', e, r⟩ := L.set r1 hl.1 (at_ zero s l)
    exact ⟨c', by simp only [ElemIface.step, L.create c s k h hl.1, L.create c s l h hl.2, bind_ok, e1, e], r⟩
  | combine k l g =>
    obtain ⟨c1, e1, r1⟩ := L.getD zero h hl.1
    obtain ⟨c2, e2, r2⟩ := L.getD zero r1 hl.2
    obtain ⟨c', e, r⟩ := L.set r2 hl.1 (g (at_ zero s k) (at_ zero s l))
    exact ⟨c', by simp only [ElemIface.step, L.create c s k h hl.1, L.create c s l h hl.2, bind_ok, e1, e2, e], r⟩
  | refer k f =>
    obtain ⟨c', e, r⟩ := L.ref zero h hl f
    exact ⟨c', by simp only [ElemIface.step, L.create c s k h hl, bind_ok, e], r⟩

theorem run_ok {J : Type} {C : J → ElemIface σ κ π α} (L : ∀ j, (C j).Laws inside R) (zero : α) : ∀ (ops : List (ElemOp κ α × J)) {c : σ} {s : κ → Option α}, R c s →
    (∀ q ∈ ops, legal inside q.1) → ∃ c', ElemIface.run C zero c ops = .ok c' ∧ R c' (ElemSpec.run zero s (ops.map (·.1)))
  | [], c, s, h, _ => ⟨c, rfl, h⟩
  | (op, j) :: ops, c, s, h, hl => by
    obtain ⟨c1, e1, r1⟩ := (L j).step zero h op (hl (op, j) (by simp))
    obtain ⟨c2, e2, r2⟩ := run_ok L zero ops r1 fun q hq => hl q (by simp [hq])
    exact ⟨c2, by simp only [ElemIface.run, e1, bind_ok, e2], r2⟩

theorem Laws.read (L : C.Laws inside R) (zero : α) {c : σ} {s : κ → Option α} {k : κ} (h : R c s) (hk : inside k) : C.read zero c k = .ok (at_ zero s k) := by
  obtain ⟨c', e, _⟩ := L.getD zero h hk
  simp only [ElemIface.read, L.create c s k h hk, bind_ok, e]

end ElemIface

/-! ## The containers -/

theorem put_eq_upd (s : Nat → Option α) (k : Nat) (x : α) : put s k x = Assoc.upd s k (some x) := by
  funext j; simp only [put, Assoc.upd]

theorem MappedVec.elem_laws {I : MapImpl σ α} {R : σ → (Nat → Option α) → Prop} (L : MapLaws I R) (dbg : Bool) (n : Nat) :
    (MappedVec.elem I dbg).Laws (· < n) (fun v s => MappedVec.Inv R v ⟨n, s⟩) where
  create v s k h hk := check_true (by rw [h.1]; exact hk)
  find v s k h hk := by
    refine ⟨v, h, ?_⟩
    have hf := L.find v.map s k h.2.1
    cases hs : s k with
    | none => exact .inl ⟨rfl, by simp [MappedVec.elem, hf, hs, bind_ok]⟩
    | some w =>
      refine .inr ⟨k, w, rfl, by simp [MappedVec.elem, hf, hs, bind_ok], by simp [MappedVec.elem, hf, hs, bind_ok], fun x => ?_⟩
      obtain ⟨m', e, r⟩ := L.setAt v.map s k w x h.2.1 hs
      refine ⟨⟨v.size, m'⟩, by simp only [MappedVec.elem, e, bind_ok], h.1, by rw [put_eq_upd]; exact r, fun i hi => ?_⟩
      simp only [put]
      rw [if_neg (by simp only at hi; omega)]
      exact h.2.2 i hi
  insert v s k x h hk hs := by
    obtain ⟨v', e, r⟩ := MappedVec.step_inv L dbg x v ⟨n, s⟩ (.insert k x) h ⟨hk, hs⟩
    exact ⟨v', e, r⟩

theorem CVec.elem_laws (dbg : Bool) (IB : Nat) (zero : α) (junk : CVec.Junk α) (n : Nat) :
    (CVec.elem dbg IB zero junk).Laws (· < n) (fun v s => CVec.Inv IB v ⟨n, s⟩) where
  create v s k h hk := by obtain ⟨E, h⟩ := h; exact check_true (by rw [h.size]; exact hk)
  find v s k h hk := by
    refine ⟨v, h, ?_⟩
    obtain ⟨E, h⟩ := h
    rcases h.slot k with ⟨m, w, h1, h2, h3, h4, h5⟩ | ⟨h1, h2⟩
    · have hlen : m < v.val.length := (List.getElem?_eq_some_iff.1 h5).1
      refine .inr ⟨m, w, h4, by simp [CVec.elem, h1, bind_ok], rd_eq_ok.2 h5, fun x => ⟨_, by simp only [CVec.elem, wr_ok hlen, bind_ok]; rfl, E.set m (k, x), ?_⟩⟩
      have := h.setAt h2 h3 x
      rw [put_eq_upd]; exact this
    · exact .inl ⟨h2, by simp [CVec.elem, h1, bind_ok]⟩
  insert v s k x h hk hs := by
    obtain ⟨v', e, r⟩ := CVec.step_inv dbg IB zero junk v ⟨n, s⟩ (.insert k x) h ⟨hk, hs⟩
    exact ⟨v', e, r⟩

theorem put_pair (s : Nat × Nat → Option α) (i j : Nat) (x : α) : put s (i, j) x = fun p => if p = (i, j) then some x else s p := rfl

theorem MappedMat.elem_laws {I : MapImpl σ α} {R : σ → (Nat → Option α) → Prop} (L : MapLaws I R) (dbg : Bool) (o : Orient) (r c : Nat) :
    (MappedMat.elem I dbg o).Laws (fun p => p.1 < r ∧ p.2 < c) (fun v s => MappedMat.Inv R o v ⟨r, c, s⟩) where
  create v s k h hk := rfl
  find v s k h hk := by
    refine ⟨v, h, ?_⟩
    obtain ⟨i, j⟩ := k
    obtain ⟨h1, h2, h3, h4⟩ := h
    simp only at h1 h2 hk
    have he : o.element dbg i v.size1 j v.size2 = .ok (o.elementRaw i r j c) := by rw [h1, h2]; exact element_ok dbg o hk.1 hk.2
    have hfl := MappedMat.flat_element o (⟨r, c, s⟩ : Mat α) hk.1 hk.2
    have hf := L.find v.map _ (o.elementRaw i r j c) h3
    simp only at hfl
    cases hs : s (i, j) with
    | none => exact .inl ⟨rfl, by simp [MappedMat.elem, MappedMat.findElement, he, hf, hfl, hs, bind_ok]⟩
    | some w =>
      refine .inr ⟨o.elementRaw i r j c, w, rfl, by
        simp only [MappedMat.elem, MappedMat.findElement, he, bind_ok, hf, hfl, hs, Option.map]
        rw [h1, h2], by simp [MappedMat.elem, hf, hfl, hs, bind_ok], fun x => ?_⟩
      obtain ⟨m', e, q⟩ := L.setAt v.map _ (o.elementRaw i r j c) w x h3 (by rw [hfl, hs])
      refine ⟨⟨v.size1, v.size2, m'⟩, by simp only [MappedMat.elem, e, bind_ok], h1, h2, ?_, fun a b hab => ?_⟩
      · rw [put_pair]
        have := MappedMat.flat_upd o (⟨r, c, s⟩ : Mat α) hk.1 hk.2 (some x)
        simp only at this
        rw [this]; exact q
      · simp only [put]
        rw [if_neg (by simp only [Prod.mk.injEq]; intro e; simp only at hab; omega)]
        exact h4 a b hab
  insert v s k x h hk hs := by
    obtain ⟨v', e, q⟩ := MappedMat.step_inv L dbg o x v ⟨r, c, s⟩ (.insert k.1 k.2 x) h ⟨hk.1, hk.2, hs⟩
    exact ⟨v', e, q⟩

theorem CMat.elem_laws (dbg : Bool) (o : Orient) (IB : Nat) (zero : α) (junk : CMat.Junk α) (r c : Nat) :
    (CMat.elem dbg o IB zero junk).Laws (fun p => p.1 < r ∧ p.2 < c) (fun v s => ∃ op, CMat.Inv o IB v ⟨r, c, s, op⟩) where
  create v s k h hk := rfl
  find v s k h hk := by
    refine ⟨v, h, ?_⟩
    obtain ⟨i, j⟩ := k
    obtain ⟨op, E, h0, h1, h2, h3, h4⟩ := h
    simp only at h1 h2 h3 hk
    have hm : o.indexm i j < o.sizem v.size1 v.size2 := by rw [h1, h2]; exact CMat.minor_lt o hk.1 hk.2
    have hat := CMat.flat_at o (⟨r, c, s, op⟩ : CMatS α) hk.1 hk.2
    simp only at hat
    rcases h0.slot hm with ⟨n, w, q1, q2, q3, q4, q5⟩ | ⟨q1, q2⟩
    · rw [h1, h2] at q3 q4
      rw [hat] at q4
      have hlen : n < v.val.length := (List.getElem?_eq_some_iff.1 q5).1
      refine .inr ⟨n, w, q4, by simp [CMat.elem, q1, bind_ok], rd_eq_ok.2 q5, fun x => ⟨{ v with val := v.val.set n x }, by simp only [CMat.elem, wr_ok hlen, bind_ok], op,
        E.set n (o.indexM i j * o.sizem r c + o.indexm i j, x), ?_, h1, h2, h3, fun a b hab => ?_⟩⟩
      · have := h0.setAt q3 x
        have e := CMat.flat_upd o (⟨r, c, s, op⟩ : CMatS α) hk.1 hk.2 (some x) op
        simp only at e
        rw [put_pair, e]; exact this
      · simp only [put]
        rw [if_neg (by simp only [Prod.mk.injEq]; intro e; simp only at hab; omega)]
        exact h4 a b hab
    · rw [h1, h2, hat] at q2
      exact .inl ⟨q2, by simp [CMat.elem, q1, bind_ok]⟩
  insert v s k x h hk hs := by
    obtain ⟨op, h⟩ := h
    obtain ⟨v', e, q⟩ := CMat.step_inv dbg o IB zero junk v ⟨r, c, s, op⟩ (.insert k.1 k.2 x) h ⟨hk.1, hk.2, hs⟩
    exact ⟨v', e, _, q⟩

section Coord
variable {ι α : Type} [DecidableEq ι] [AddCommMonoid α]
open Coo

/-- `find` on a coordinate container, and a write through the pointer it returns. -/
theorem Coo.find_rel {P : CooPar κ α} (hP : ParOk P) {kb : ι → κ} {lt : ι → ι → Prop} {inside : ι → Prop} (hK : KeyMap P kb lt inside) (dbg : Bool) {v : Coo κ α} {s : ι → Option α} {b : Bool}
    (h : Rel P kb inside v ⟨s, b⟩) {i : ι} (hi : inside i) : ∃ v' r, v.find dbg P (kb i) = .ok (v', r) ∧ Rel P kb inside v' ⟨s, true⟩ ∧
      ((r = none ∧ s i = none) ∨ ∃ n w, r = some n ∧ s i = some w ∧ v'.val[n]? = some w ∧ ∀ x, Rel P kb inside { v' with val := v'.val.set n x } ⟨put s i x, true⟩) := by
  obtain ⟨A, hA, hv, hin, hso⟩ := h
  obtain ⟨v1, B, r, e, h1, h2, h3, h4, h5⟩ := find_spec hP dbg hA (kb i)
  simp only at hv
  have hB : ∀ p ∈ B, ∃ i, inside i ∧ p.1 = kb i := keys_inside hin (by rw [h4]; exact fun _ h => h)
  refine ⟨v1, r, e, ⟨B, h1, fun j => by rw [h4]; exact hv j, hB, h2.symm⟩, ?_⟩
  rcases h5 with ⟨n, w, rfl, h6, h7⟩ | ⟨rfl, h6⟩
  · have hn : n < B.length := (List.getElem?_eq_some_iff.1 h6).1
    have hval := h1.holds.valAt hn
    have h6' := h6
    rw [List.getElem?_eq_getElem hn] at h6'
    simp only [Option.some.injEq] at h6'
    rw [h6'] at hval
    refine .inr ⟨n, w, rfl, by rw [hv, h7], hval, fun x => ⟨B.set n (kb i, x), h1.setAt h6 x, fun j => ?_, fun p hp => ?_, h2.symm⟩⟩
    · rw [collect_set_strict hP.ord h3 h6]
      simp only [put]
      by_cases hj : j = i
      · rw [if_pos hj, if_pos (by rw [hj])]
      · rw [if_neg hj, if_neg (fun e => hj (hK.inj _ _ e)), h4]; exact hv j
    · rcases List.mem_or_eq_of_mem_set hp with h8 | h8
      · exact hB p h8
      · exact ⟨i, hi, by rw [h8]⟩
  · exact .inl ⟨rfl, by rw [hv, h6]⟩

theorem CoordVec.elem_laws (srt : List (Nat × α) → List (Nat × α)) (hsrt : CoordVec.Sorts srt) (full dbg : Bool) (IB : Nat) (junk : Coo.Junk Nat α) (n : Nat) :
    (CoordVec.elem srt full dbg IB 0 junk).Laws (· < n) (fun v s => ∃ b, CoordVec.Inv srt full IB v ⟨n, s, b⟩) where
  create v s k h hk := by obtain ⟨b, h, _⟩ := h; exact check_true (by rw [h]; exact hk)
  find v s k h hk := by
    obtain ⟨b, h1, h2⟩ := h
    simp only at h1 h2
    obtain ⟨c, q, e, g1, g2⟩ := Coo.find_rel (CoordVec.parOk srt hsrt full IB n) (CoordVec.keyMap srt full IB n) dbg h2 hk
    refine ⟨⟨v.size, c⟩, ⟨true, h1, g1⟩, ?_⟩
    rcases g2 with ⟨rfl, g2⟩ | ⟨m, w, rfl, g2, g3, g4⟩
    · exact .inl ⟨g2, by simp only [CoordVec.elem, h1, e, bind_ok]⟩
    · have hlen : m < c.val.length := (List.getElem?_eq_some_iff.1 g3).1
      exact .inr ⟨m, w, g2, by simp only [CoordVec.elem, h1, e, bind_ok], rd_eq_ok.2 g3, fun x => ⟨⟨v.size, { c with val := c.val.set m x }⟩, by simp only [CoordVec.elem, wr_ok hlen, bind_ok], true, h1, g4 x⟩⟩
  insert v s k x h hk hs := by
    obtain ⟨b, h⟩ := h
    obtain ⟨v', e, q⟩ := CoordVec.step_inv srt hsrt full dbg IB junk v ⟨n, s, b⟩ (.core (.insert k x)) h ⟨hk, hs⟩
    refine ⟨v', ?_, false, ?_⟩
    · exact e
    · have hp : put s k x = fun j => @ite _ (j = k) (Classical.propDecidable _) (some x) (s j) := by
        funext j; simp only [put]; by_cases hj : j = k <;> simp [hj]
      rw [hp]; exact q

theorem CoordMat.elem_laws (srt : List ((Nat × Nat) × α) → List ((Nat × Nat) × α)) (hsrt : CoordMat.Sorts srt) (full dbg : Bool) (o : Orient) (IB : Nat) (junk : Coo.Junk (Nat × Nat) α) (r c : Nat) :
    (CoordMat.elem srt full dbg o IB 0 junk).Laws (fun p => p.1 < r ∧ p.2 < c) (fun v s => ∃ b, CoordMat.Inv srt full o IB v ⟨r, c, s, b⟩) where
  create v s k h hk := rfl
  find v s k h hk := by
    obtain ⟨b, h1, h2, h3⟩ := h
    simp only at h1 h2 h3
    obtain ⟨d, q, e, g1, g2⟩ := Coo.find_rel (CoordMat.parOk srt hsrt full r c) (CoordMat.keyMap srt full o IB r c) dbg h3 hk
    refine ⟨⟨v.size1, v.size2, d⟩, ⟨true, h1, h2, g1⟩, ?_⟩
    rcases g2 with ⟨rfl, g2⟩ | ⟨m, w, rfl, g2, g3, g4⟩
    · exact .inl ⟨g2, by simp only [CoordMat.elem, h1, h2, e, bind_ok]⟩
    · have hlen : m < d.val.length := (List.getElem?_eq_some_iff.1 g3).1
      exact .inr ⟨m, w, g2, by simp only [CoordMat.elem, h1, h2, e, bind_ok], rd_eq_ok.2 g3, fun x => ⟨⟨v.size1, v.size2, { d with val := d.val.set m x }⟩, by simp only [CoordMat.elem, wr_ok hlen, bind_ok], true, h1, h2, g4 x⟩⟩
  insert v s k x h hk hs := by
    obtain ⟨b, h⟩ := h
    obtain ⟨v', e, q⟩ := CoordMat.step_inv srt hsrt full dbg o IB junk v ⟨r, c, s, b⟩ (.core (.insert k x)) h ⟨hk, hs⟩
    refine ⟨v', ?_, false, ?_⟩
    · exact e
    · have hp : put s k x = fun j => @ite _ (j = k) (Classical.propDecidable _) (some x) (s j) := by
        funext j; simp only [put]; by_cases hj : j = k <;> simp [hj]
      rw [hp]; exact q

end Coord

/-! ## C100 -/

/-- The elements with indices inside an r×c matrix. -/
abbrev InMat (r c : Nat) (p : Nat × Nat) : Prop := p.1 < r ∧ p.2 < c

/-- **C100** (mapped_vector).  After any legal use of a mapped_vector, any sequence of statements written with `v (i)` for `i` inside the vector runs without an error in both build modes; the vector then
shows exactly the elements obtained by doing the statements on a plain sequence, and `v (i)` reads them. -/
theorem C100_mapped_vector (I : MapImpl σ α) (R : σ → (Nat → Option α) → Prop) (L : MapLaws I R) (dbg : Bool) (zero : α) (n nz : Nat) (hist : List (SVOp α))
    (hl : vlegalRun zero ⟨n, fun _ => none⟩ hist) (ops : List (ElemOp Nat α)) (ho : ∀ op ∈ ops, legal (· < (vrun zero ⟨n, fun _ => none⟩ hist).size) op) :
    ∃ v0 v w, MappedVec.ctor I dbg n nz = .ok v0 ∧ MappedVec.run I dbg zero v0 hist = .ok v ∧
      ElemIface.run (fun _ : Unit => MappedVec.elem I dbg) zero v (ops.map fun op => (op, ())) = .ok w ∧
      MappedVec.Observes I dbg zero w ⟨(vrun zero ⟨n, fun _ => none⟩ hist).size, ElemSpec.run zero (vrun zero ⟨n, fun _ => none⟩ hist).val ops⟩ ∧
      ∀ i, i < (vrun zero ⟨n, fun _ => none⟩ hist).size →
        (MappedVec.elem I dbg).read zero w i = .ok (at_ zero (ElemSpec.run zero (vrun zero ⟨n, fun _ => none⟩ hist).val ops) i) := by
  obtain ⟨m0, g1, g2⟩ := L.reserve dbg I.empty _ (min nz n) L.empty (fun K _ hm => by
    cases K with
    | nil => simp
    | cons a K => exact absurd rfl (hm a (by simp)))
  obtain ⟨v, e1, h1⟩ := MappedVec.run_inv L dbg zero hist ⟨n, m0⟩ ⟨n, fun _ => none⟩ ⟨rfl, g2, fun _ _ => rfl⟩ hl
  have L' := MappedVec.elem_laws L dbg (vrun zero ⟨n, fun _ => none⟩ hist).size
  obtain ⟨w, e2, h2⟩ := ElemIface.run_ok (J := Unit) (fun _ => L') zero (ops.map fun op => (op, ())) (s := (vrun zero ⟨n, fun _ => none⟩ hist).val) h1
    (by simpa using ho)
  have hm : (ops.map fun op => (op, ())).map (·.1) = ops := by simp [Function.comp_def]
  rw [hm] at h2
  exact ⟨⟨n, m0⟩, v, w, by simp [MappedVec.ctor, g1], e1, e2, h2.observes L dbg zero, fun i hi => L'.read zero h2 hi⟩

/-- **C100** (mapped_matrix). -/
theorem C100_mapped_matrix (I : MapImpl σ α) (R : σ → (Nat → Option α) → Prop) (L : MapLaws I R) (dbg : Bool) (o : Orient) (zero : α) (r c nz : Nat) (hist : List (SMOp α))
    (hl : mlegalRun zero ⟨r, c, fun _ => none⟩ hist) (ops : List (ElemOp (Nat × Nat) α)) (s : Mat α) (hs : s = mrun zero ⟨r, c, fun _ => none⟩ hist)
    (ho : ∀ op ∈ ops, legal (InMat s.rows s.cols) op) :
    ∃ v0 v w, MappedMat.ctor I dbg r c nz = .ok v0 ∧ MappedMat.run I dbg o zero v0 hist = .ok v ∧
      ElemIface.run (fun _ : Unit => MappedMat.elem I dbg o) zero v (ops.map fun op => (op, ())) = .ok w ∧
      MappedMat.Observes I dbg o zero w ⟨s.rows, s.cols, ElemSpec.run zero s.val ops⟩ ∧
      ∀ p, InMat s.rows s.cols p → (MappedMat.elem I dbg o).read zero w p = .ok (at_ zero (ElemSpec.run zero s.val ops) p) := by
  subst hs
  obtain ⟨m0, g1, g2⟩ := L.reserve dbg I.empty _ (MappedMat.restrictCapacity r c nz) L.empty (fun K _ hm => by
    cases K with
    | nil => simp
    | cons a K => exact absurd rfl (hm a (by simp)))
  obtain ⟨v, e1, h1⟩ := MappedMat.run_inv L dbg o zero hist ⟨r, c, m0⟩ ⟨r, c, fun _ => none⟩
    ⟨rfl, rfl, by convert g2 using 1; funext k; simp only [MappedMat.flat]; exact ite_self _, fun _ _ _ => rfl⟩ hl
  have L' := MappedMat.elem_laws L dbg o (mrun zero ⟨r, c, fun _ => none⟩ hist).rows (mrun zero ⟨r, c, fun _ => none⟩ hist).cols
  obtain ⟨w, e2, h2⟩ := ElemIface.run_ok (J := Unit) (fun _ => L') zero (ops.map fun op => (op, ())) (s := (mrun zero ⟨r, c, fun _ => none⟩ hist).val) h1
    (by simpa using ho)
  have hm : (ops.map fun op => (op, ())).map (·.1) = ops := by simp [Function.comp_def]
  rw [hm] at h2
  exact ⟨⟨r, c, m0⟩, v, w, by simp [MappedMat.ctor, g1], e1, e2, h2.observes L dbg o zero, fun i hi => L'.read zero h2 hi⟩

/-- **C100** for the two maps of the library. -/
theorem C100_mapped_instances {α : Type} (zero : α) : MapLaws (mapArrayImpl zero) MapArr.Repr ∧ MapLaws (stdMapImpl (α := α)) Assoc.Rep := ⟨mapArray_laws zero, stdMap_laws⟩

/-- **C100** (compressed_vector); each statement may find different garbage in the memory it allocates. -/
theorem C100_compressed_vector (dbg : Bool) (IB : Nat) (zero : α) (junk : CVec.Junk α) (n nz : Nat) (hist : List (CVOp α × CVec.Junk α))
    (hl : cvlegalRun zero ⟨n, fun _ => none⟩ (hist.map (·.1))) (ops : List (ElemOp Nat α × CVec.Junk α)) (s : Vec α) (hs : s = cvrun zero ⟨n, fun _ => none⟩ (hist.map (·.1)))
    (ho : ∀ q ∈ ops, legal (· < s.size) q.1) :
    ∃ v0 v w, CVec.ctor dbg IB junk n nz = .ok v0 ∧ CVec.run dbg IB zero v0 hist = .ok v ∧
      ElemIface.run (CVec.elem dbg IB zero) zero v ops = .ok w ∧
      CVObserves dbg IB zero w ⟨s.size, ElemSpec.run zero s.val (ops.map (·.1))⟩ ∧
      ∀ j i, i < s.size → (CVec.elem dbg IB zero j).read zero w i = .ok (at_ zero (ElemSpec.run zero s.val (ops.map (·.1))) i) := by
  subst hs
  obtain ⟨v0, e0, h0⟩ := CVec.inv_ctor dbg IB junk n nz
  obtain ⟨v, e1, h1⟩ := CVec.run_inv dbg IB zero hist v0 _ h0 hl
  obtain ⟨w, e2, h2⟩ := ElemIface.run_ok (fun j => CVec.elem_laws dbg IB zero j _) zero ops (s := (cvrun zero ⟨n, fun _ => none⟩ (hist.map (·.1))).val) h1 ho
  exact ⟨v0, v, w, e0, e1, e2, h2.observes dbg IB zero, fun j i hi => (CVec.elem_laws dbg IB zero j _).read zero h2 hi⟩

/-- **C100** (compressed_matrix). -/
theorem C100_compressed_matrix (dbg : Bool) (o : Orient) (IB : Nat) (zero : α) (junk : CMat.Junk α) (r c nz : Nat) (hist : List (CMOp α × CMat.Junk α))
    (hl : cmlegalRun o zero ⟨r, c, fun _ => none, 0⟩ (hist.map (·.1))) (ops : List (ElemOp (Nat × Nat) α × CMat.Junk α)) (s : CMatS α)
    (hs : s = cmrun o zero ⟨r, c, fun _ => none, 0⟩ (hist.map (·.1))) (ho : ∀ q ∈ ops, legal (InMat s.rows s.cols) q.1) :
    ∃ v0 v w op, CMat.ctor dbg o IB junk r c nz = .ok v0 ∧ CMat.run dbg o IB zero v0 hist = .ok v ∧
      ElemIface.run (CMat.elem dbg o IB zero) zero v ops = .ok w ∧
      CMObserves dbg o IB zero w ⟨s.rows, s.cols, ElemSpec.run zero s.val (ops.map (·.1)), op⟩ ∧
      ∀ j p, InMat s.rows s.cols p → (CMat.elem dbg o IB zero j).read zero w p = .ok (at_ zero (ElemSpec.run zero s.val (ops.map (·.1))) p) := by
  subst hs
  obtain ⟨v0, e0, h0⟩ := CMat.inv_ctor dbg o IB junk r c nz
  obtain ⟨v, e1, h1⟩ := CMat.run_inv dbg o IB zero hist v0 _ h0 hl
  obtain ⟨w, e2, h2⟩ := ElemIface.run_ok (fun j => CMat.elem_laws dbg o IB zero j _ _) zero ops (s := (cmrun o zero ⟨r, c, fun _ => none, 0⟩ (hist.map (·.1))).val) ⟨_, h1⟩ ho
  have h3 := h2
  obtain ⟨op, h3⟩ := h3
  exact ⟨v0, v, w, op, e0, e1, e2, h3.observes dbg o IB zero, fun j i hi => (CMat.elem_laws dbg o IB zero j _ _).read zero h2 hi⟩

section CoordC
variable {α : Type} [AddCommMonoid α]
open CooSpec

/-- **C100** (coordinate_vector): reading through a proxy sorts the vector, assigning to an absent element appends. -/
theorem C100_coordinate_vector (srt : List (Nat × α) → List (Nat × α)) (hsrt : CoordVec.Sorts srt) (full dbg : Bool) (IB : Nat) (junk : Coo.Junk Nat α) (n nz : Nat)
    (hist : List (CoordVecOp α × Coo.Junk Nat α)) (hl : CooSpec.vlegalRun ⟨n, fun _ => none, true⟩ (hist.map (·.1))) (ops : List (ElemOp Nat α × Coo.Junk Nat α)) (s : VState α)
    (hs : s = CooSpec.vrun ⟨n, fun _ => none, true⟩ (hist.map (·.1))) (ho : ∀ q ∈ ops, ElemSpec.legal (· < s.size) q.1) :
    ∃ v0 v w b, CoordVec.ctor srt full dbg IB junk n nz = .ok v0 ∧ CoordVec.run srt full dbg IB 0 v0 hist = .ok v ∧
      ElemIface.run (CoordVec.elem srt full dbg IB 0) 0 v ops = .ok w ∧
      CoordVec.Observes srt full dbg IB w ⟨s.size, ElemSpec.run 0 s.st.val (ops.map (·.1)), b⟩ ∧
      ∀ j i, i < s.size → (CoordVec.elem srt full dbg IB 0 j).read 0 w i = .ok (at_ 0 (ElemSpec.run 0 s.st.val (ops.map (·.1))) i) := by
  subst hs
  obtain ⟨v0, e0, h0⟩ := CoordVec.inv_ctor srt full dbg IB junk n nz
  obtain ⟨v, e1, h1⟩ := CoordVec.run_inv srt hsrt full dbg IB hist v0 _ h0 hl
  obtain ⟨w, e2, h2⟩ := ElemIface.run_ok (fun j => CoordVec.elem_laws srt hsrt full dbg IB j _) 0 ops (s := (CooSpec.vrun ⟨n, fun _ => none, true⟩ (hist.map (·.1))).st.val) ⟨_, h1⟩ ho
  have h3 := h2
  obtain ⟨b, h3⟩ := h3
  exact ⟨v0, v, w, b, e0, e1, e2, h3.observes hsrt dbg, fun j i hi => (CoordVec.elem_laws srt hsrt full dbg IB j _).read 0 h2 hi⟩

/-- **C100** (coordinate_matrix). -/
theorem C100_coordinate_matrix (srt : List ((Nat × Nat) × α) → List ((Nat × Nat) × α)) (hsrt : CoordMat.Sorts srt) (full dbg : Bool) (o : Orient) (IB : Nat) (junk : Coo.Junk (Nat × Nat) α) (r c nz : Nat)
    (hist : List (CoordMatOp α × Coo.Junk (Nat × Nat) α)) (hl : CooSpec.mlegalRun o ⟨r, c, fun _ => none, true⟩ (hist.map (·.1))) (ops : List (ElemOp (Nat × Nat) α × Coo.Junk (Nat × Nat) α)) (s : MState α)
    (hs : s = CooSpec.mrun o ⟨r, c, fun _ => none, true⟩ (hist.map (·.1))) (ho : ∀ q ∈ ops, ElemSpec.legal (InMat s.rows s.cols) q.1) :
    ∃ v0 v w b, CoordMat.ctor srt full dbg junk r c nz = .ok v0 ∧ CoordMat.run srt full dbg o IB 0 v0 hist = .ok v ∧
      ElemIface.run (CoordMat.elem srt full dbg o IB 0) 0 v ops = .ok w ∧
      CoordMat.Observes srt full dbg o IB w ⟨s.rows, s.cols, ElemSpec.run 0 s.st.val (ops.map (·.1)), b⟩ ∧
      ∀ j p, InMat s.rows s.cols p → (CoordMat.elem srt full dbg o IB 0 j).read 0 w p = .ok (at_ 0 (ElemSpec.run 0 s.st.val (ops.map (·.1))) p) := by
  subst hs
  obtain ⟨v0, e0, h0⟩ := CoordMat.inv_ctor srt full dbg o IB junk r c nz
  obtain ⟨v, e1, h1⟩ := CoordMat.run_inv srt hsrt full dbg o IB hist v0 _ h0 hl
  obtain ⟨w, e2, h2⟩ := ElemIface.run_ok (fun j => CoordMat.elem_laws srt hsrt full dbg o IB j _ _) 0 ops (s := (CooSpec.mrun o ⟨r, c, fun _ => none, true⟩ (hist.map (·.1))).st.val) ⟨_, h1⟩ ho
  have h3 := h2
  obtain ⟨b, h3⟩ := h3
  exact ⟨v0, v, w, b, e0, e1, e2, h3.observes hsrt dbg, fun j i hi => (CoordMat.elem_laws srt hsrt full dbg o IB j _ _).read 0 h2 hi⟩

/-- **C100** (guards).  With checks on, a proxy for an index outside the vector is refused, whatever it is used for. -/
theorem C100_out_of_range (zero d : α) (i : Nat) (g : α → α → α) :
    (∀ (σ : Type) (I : MapImpl σ α) (v : MappedVec σ), v.size ≤ i → (MappedVec.elem I true).step zero v (.assign i d) = .error .badIndex ∧
      (MappedVec.elem I true).step zero v (.update i g d) = .error .badIndex ∧ (MappedVec.elem I true).read zero v i = .error .badIndex) ∧
    (∀ IB junk (v : CVec α), v.size ≤ i → (CVec.elem true IB zero junk).step zero v (.assign i d) = .error .badIndex ∧
      (CVec.elem true IB zero junk).step zero v (.update i g d) = .error .badIndex ∧ (CVec.elem true IB zero junk).read zero v i = .error .badIndex) ∧
    (∀ srt full IB junk (v : CoordVec α), v.size ≤ i → (CoordVec.elem srt full true IB zero junk).step zero v (.assign i d) = .error .badIndex ∧
      (CoordVec.elem srt full true IB zero junk).step zero v (.update i g d) = .error .badIndex ∧ (CoordVec.elem srt full true IB zero junk).read zero v i = .error .badIndex) := by
  refine ⟨fun _ I v h => ?_, fun IB junk v h => ?_, fun srt full IB junk v h => ?_⟩ <;>
    simp [ElemIface.step, ElemIface.read, MappedVec.elem, CVec.elem, CoordVec.elem, check_dbg_false (Nat.not_lt.2 h)]

end CoordC

/-! ### The hypotheses are met: `v (3) = 5; v (1) += 2; v (0) = v (3); v (3) *= v (1); ref (v (2)) = 9; v (4) -= v (0)` -/

def C100_demo : List (ElemOp Nat Int) := [.assign 3 5, .update 1 (· + ·) 2, .copy 0 3, .combine 3 1 (· * ·), .refer 2 (fun _ => 9), .combine 4 0 (· - ·)]

example : (∀ op ∈ C100_demo, legal (· < 5) op) ∧
    (do let v0 ← MappedVec.ctor (mapArrayImpl (0 : Int)) true 5 0
        let w ← ElemIface.run (fun _ : Unit => MappedVec.elem (mapArrayImpl (0 : Int)) true) 0 v0 (C100_demo.map fun op => (op, ()))
        (List.range 5).mapM fun i => (MappedVec.elem (mapArrayImpl (0 : Int)) true).read 0 w i) = .ok [5, 2, 9, 10, -5] := by
  refine ⟨?_, by rfl⟩
  simp [C100_demo, legal]

example : (do let v0 ← CVec.ctor true 1 (fun i => 100 + i, fun i => (i : Int) - 3) 5 0
              let w ← ElemIface.run (CVec.elem true 1 0) 0 v0 (C100_demo.map fun op => (op, (fun i => 100 + i, fun i => (i : Int) - 3)))
              (List.range 5).mapM fun i => (CVec.elem true 1 0 (fun i => 100 + i, fun i => (i : Int) - 3)).read 0 w i) = .ok [5, 2, 9, 10, -5] := by rfl

example : (do let v0 ← CoordVec.ctor vSort true true 1 vJunk 5 0
              let w ← ElemIface.run (CoordVec.elem vSort true true 1 0) 0 v0 (C100_demo.map fun op => (op, vJunk))
              (List.range 5).mapM fun i => (CoordVec.elem vSort true true 1 0 vJunk).read 0 w i) = .ok [5, 2, 9, 10, -5] := by decide +kernel

/-- The same statements in row 1 of a 2×5 matrix, whose element (0, 2) was stored before. -/
def C100_mdemo : List (ElemOp (Nat × Nat) Int) :=
  [.assign (1, 3) 5, .update (1, 1) (· + ·) 2, .copy (1, 0) (1, 3), .combine (1, 3) (1, 1) (· * ·), .refer (1, 2) (fun _ => 9), .combine (0, 4) (0, 2) (· - ·)]

example : (∀ op ∈ C100_mdemo, legal (InMat 2 5) op) ∧
    (do let v0 ← CMat.ctor true .row 0 cmJunk 2 5 0
        let v ← CMat.run true .row 0 0 v0 [(.insert 0 2 7, cmJunk)]
        let w ← ElemIface.run (CMat.elem true .row 0 0) 0 v (C100_mdemo.map fun op => (op, cmJunk))
        [(0, 2), (0, 4), (1, 0), (1, 1), (1, 2), (1, 3), (1, 4)].mapM fun p => (CMat.elem true .row 0 0 cmJunk).read 0 w p) = .ok [7, -7, 5, 2, 9, 10, 0] := by
  refine ⟨?_, by decide +kernel⟩
  simp [C100_mdemo, legal, InMat]

example : (do let v0 ← CoordMat.ctor mSort false true mJunk 2 5 0
              let v ← CoordMat.run mSort false true .col 0 0 v0 [(.core (.append (0, 2) 7), mJunk)]
              let w ← ElemIface.run (CoordMat.elem mSort false true .col 0 0) 0 v (C100_mdemo.map fun op => (op, mJunk))
              [(0, 2), (0, 4), (1, 0), (1, 1), (1, 2), (1, 3), (1, 4)].mapM fun p => (CoordMat.elem mSort false true .col 0 0 mJunk).read 0 w p) = .ok [7, -7, 5, 2, 9, 10, 0] := by
  decide +kernel

example : (do let v0 ← MappedMat.ctor (stdMapImpl (α := Int)) true 2 5 0
              let v ← MappedMat.run stdMapImpl true .col 0 v0 [.insert 0 2 7]
              let w ← ElemIface.run (fun _ : Unit => MappedMat.elem stdMapImpl true .col) 0 v (C100_mdemo.map fun op => (op, ()))
              [(0, 2), (0, 4), (1, 0), (1, 1), (1, 2), (1, 3), (1, 4)].mapM fun p => (MappedMat.elem stdMapImpl true .col).read 0 w p) = .ok [7, -7, 5, 2, 9, 10, 0] := by rfl

end Ublas
