import Verif.Props.KeyLines
import Verif.Props.Mapped
/-! # C85: iterators of mapped_matrix (and mapped_vector, C82) -/
namespace Ublas
open Search Assoc SparseSpec CMat
variable {R σ : Type}

/-- The map iterators run over the stored pairs in key order. -/
structure PosLaws (P : MapPos σ R) (m : σ) (E : List (Nat × R)) : Prop where
  lower : ∀ k, P.lower m k = .ok (cnt E k)
  count : P.count m = E.length
  entry : ∀ n x, E[n]? = some x → P.entry m n = .ok x

theorem mapArrayPos_laws {m : MapArr R} {s : Nat → Option R} (h : MapArr.Repr m s) : PosLaws mapArrayPos m m.ents := by
  refine ⟨fun k => ?_, h.len.symm, fun n x hx => ?_⟩
  · obtain ⟨n, h1, _, h3⟩ := h.lb k
    rw [cnt_of_splits h3]; exact h1
  · have hn : n < m.size := by rw [← h.len]; exact (List.getElem?_eq_some_iff.1 hx).1
    simp only [mapArrayPos, if_pos hn]
    rw [rd_eq_ok, ← h.get hn]; exact hx

theorem stdMapPos_laws (E : List (Nat × R)) : PosLaws stdMapPos E E :=
  ⟨fun _ => rfl, rfl, fun _ _ hx => rd_eq_ok.2 hx⟩

/-- The map implementation and its iterators belong together. -/
def MapPos.Fits (P : MapPos σ R) (Rel : σ → (Nat → Option R) → Prop) : Prop := ∀ m s, Rel m s → ∃ E, Rep E s ∧ PosLaws P m E

theorem mapArray_fits : (mapArrayPos (R := R)).Fits MapArr.Repr := fun m s h => ⟨m.ents, h.2.2, mapArrayPos_laws h⟩
theorem stdMap_fits : (stdMapPos (R := R)).Fits Rep := fun m s h => ⟨m, h, stdMapPos_laws m⟩

namespace VIter

theorem mapped_stands (I : MapImpl σ R) {P : MapPos σ R} {v : MappedVec σ} {E : List (Nat × R)} (h : Inc E) (hP : PosLaws P v.map E)
    (hb : ∀ x ∈ E, x.1 < v.size) (dbg : Bool) (zero : R) : (VIter.mapped I P dbg zero v).Stands E fun k p => p = k := by
  refine ⟨h, hb, fun i _ => ⟨_, hP.lower i, rfl⟩, fun k p hp _ => ⟨_, rfl, by subst hp; rfl⟩, ?_, ?_⟩
  · intro a b p q _ _ hp hq
    replace hp : p = a := hp
    replace hq : q = b := hq
    subst hp; subst hq; rfl
  · intro k p hk hp
    replace hp : k = p := Eq.symm hp
    subst hp
    have hx := hb _ (List.getElem_mem hk)
    have hne : k ≠ P.count v.map := by rw [hP.count]; exact Nat.ne_of_lt hk
    simp only [VIter.mapped, check_true hne, bind_ok, hP.entry _ _ (List.getElem?_eq_getElem hk), check_true hx, and_self]

theorem mapped_backs (I : MapImpl σ R) (P : MapPos σ R) (v : MappedVec σ) (E : List (Nat × R)) (dbg : Bool) (zero : R) :
    (VIter.mapped I P dbg zero v).Backs E fun k p => p = k := by
  intro k p hp _
  replace hp : p = k + 1 := hp
  subst hp
  exact ⟨k, rfl, rfl⟩

end VIter

namespace MIter
open MappedMat

/-- Where an inner iterator of a mapped matrix stands. -/
def mAt1 (o : Orient) (n1 n2 : Nat) (E : List (Nat × R)) (ax : Axis) (l k : Nat) (p : MMIter) : Prop :=
  p.it = slot o n1 n2 E ax l k ∧ CMat.along ax.other p.i p.j = l ∧
    (p.rank = 1 ∨ (p.rank = 0 ∧ k = (keyLine o n1 n2 E ax l).length ∧ CMat.along ax p.i p.j = CMat.along ax n1 n2))

def mAt0 (ax : Axis) (l k : Nat) (p : MMIter) : Prop := p.rank = 0 ∧ (p.i, p.j) = coord ax k l

variable {P : MapPos σ R} {o : Orient} {v : MappedMat σ} {E : List (Nat × R)}

theorem mapped_addr (dbg : Bool) (o : Orient) (v : MappedMat σ) (ax : Axis) {k l : Nat} (hk : k ≤ CMat.along ax v.size1 v.size2)
    (hl : l ≤ CMat.along ax.other v.size1 v.size2) : v.addr dbg o ax k l = .ok (addr o v.size1 v.size2 ax l k) := by
  cases ax <;> simp only [CMat.along, Axis.other] at hk hl
  · exact address_ok dbg o hk hl
  · exact address_ok dbg o hl hk

theorem mapped_loop (h : Inc E) (hb : ∀ x ∈ E, x.1 < v.size1 * v.size2) (hP : PosLaws P v.map E) (dbg : Bool) (ax : Axis) {l : Nat}
    (hl : l < CMat.along ax.other v.size1 v.size2) :
    ∀ fuel k c, k ≤ CMat.along ax v.size1 v.size2 → CMat.along ax v.size1 v.size2 < k + fuel → c ≠ l →
      ∃ r, findLoop P dbg o v ax true l fuel k (cnt E (addr o v.size1 v.size2 ax l k)) c = .ok r ∧
        r.2.1 = slot o v.size1 v.size2 E ax l (before (keyLine o v.size1 v.size2 E ax l) k) ∧
        (r.2.2 = l ↔ before (keyLine o v.size1 v.size2 E ax l) k < (keyLine o v.size1 v.size2 E ax l).length) := by
  intro fuel
  have hinc := keyLine_inc (o := o) h hb ax l
  induction fuel with
  | zero => intro k c hk hf; omega
  | succ f ih =>
    intro k c hk hf hc
    rw [findLoop]
    by_cases hend : cnt E (addr o v.size1 v.size2 ax l k) = E.length
    · have hall := cnt_end h hend
      have hn : before (keyLine o v.size1 v.size2 E ax l) k = (keyLine o v.size1 v.size2 E ax l).length := by
        refine before_all ?_
        intro x hx
        by_contra hc
        have h1 := hall _ ((keyLine_mem hb ax hl x.1 x.2).1 hx).2
        have h2 := addr_mono o v.size1 v.size2 ax l (Nat.le_of_not_lt hc)
        simp only at h1
        omega
      rw [hP.count, if_pos hend]
      refine ⟨_, rfl, ?_, ?_⟩
      · have h1 := cnt_mono E (addr_mono o v.size1 v.size2 ax l hk)
        have h2 := cnt_le E (addr o v.size1 v.size2 ax l (CMat.along ax v.size1 v.size2))
        rw [hn, slot_end]
        simp only
        omega
      · simp [hc, hn]
    · have hlt : cnt E (addr o v.size1 v.size2 ax l k) < E.length := by
        have := cnt_le E (addr o v.size1 v.size2 ax l k); omega
      rw [hP.count, if_neg hend, hP.entry _ _ (List.getElem?_eq_getElem hlt), bind_ok, if_pos rfl]
      have hge := cnt_ge h (Nat.le_refl _) (List.getElem?_eq_getElem hlt)
      have hmem := List.getElem_mem hlt
      have hat : cnt E (E[cnt E (addr o v.size1 v.size2 ax l k)]).1 = cnt E (addr o v.size1 v.size2 ax l k) :=
        before_at h hlt (Nat.le_refl _) (fun x _ => Nat.lt_or_ge _ _)
      generalize E[cnt E (addr o v.size1 v.size2 ax l k)] = e at *
      have hke := hb _ hmem
      obtain ⟨g1, g2, g3⟩ := key_spec o ax hke
      by_cases hac : keyAcross o v.size1 v.size2 ax e.1 = l
      · have hal : k ≤ keyAlong o v.size1 v.size2 ax e.1 := (addr_le_key o ax hke k).1 (by rw [hac]; exact hge)
        have hin : (keyAlong o v.size1 v.size2 ax e.1, e.2) ∈ keyLine o v.size1 v.size2 E ax l := by
          rw [keyLine_mem hb ax hl]; exact ⟨g2, by rw [← hac, ← g1]; exact hmem⟩
        have hn : before (keyLine o v.size1 v.size2 E ax l) k < (keyLine o v.size1 v.size2 E ax l).length := by
          by_contra hcc
          have h1 := before_le (keyLine o v.size1 v.size2 E ax l) k
          have hbe : before (keyLine o v.size1 v.size2 E ax l) k = (keyLine o v.size1 v.size2 E ax l).length := by omega
          have := before_none_ge hinc hbe _ hin
          simp only at this
          omega
        rw [if_pos (Or.inl ⟨hal, hac⟩)]
        refine ⟨_, rfl, ?_, ⟨fun _ => hn, fun _ => hac⟩⟩
        obtain ⟨b1, b2⟩ := before_get hinc hn
        have b3 := b2 _ hin hal
        rw [slot_at ax l hn]
        simp only at b3 ⊢
        have h1 := cnt_mono E (addr_mono o v.size1 v.size2 ax l b1)
        have h2 := cnt_mono E (addr_mono o v.size1 v.size2 ax l b3)
        have g1' : addr o v.size1 v.size2 ax l (keyAlong o v.size1 v.size2 ax e.1) = e.1 := by rw [← hac]; exact g1.symm
        rw [g1', hat] at h2
        omega
      · by_cases hkk : k = CMat.along ax v.size1 v.size2
        · rw [if_pos (Or.inr (by omega))]
          have hn : before (keyLine o v.size1 v.size2 E ax l) k = (keyLine o v.size1 v.size2 E ax l).length := by
            refine before_all ?_
            intro x hx
            rw [hkk]
            exact ((keyLine_mem hb ax hl x.1 x.2).1 hx).1
          refine ⟨_, rfl, ?_, ?_⟩
          · rw [hn, slot_end, hkk]
          · simp [hac, hn]
        · rw [if_neg (by simp only [hac, and_false, false_or]; omega), mapped_addr dbg o v ax (by omega) (Nat.le_of_lt hl), bind_ok, hP.lower, bind_ok]
          have hskip : before (keyLine o v.size1 v.size2 E ax l) (k + 1) = before (keyLine o v.size1 v.size2 E ax l) k := by
            refine before_skip ?_
            intro x hx hxk
            have h1 := get_cnt h ((keyLine_mem hb ax hl x.1 x.2).1 hx).2
            rw [hxk] at h1
            have h2 : cnt E (addr o v.size1 v.size2 ax l k) = cnt E e.1 := hat.symm
            have h3 := get_cnt h (show (e.1, e.2) ∈ E from hmem)
            rw [← h2, h1] at h3
            simp only [Option.some.injEq, Prod.mk.injEq] at h3
            rw [← h3.1, (addr_key o ax (by omega) hl).2.1] at hac
            exact hac rfl
          rw [← hskip]
          exact ih (k + 1) _ (by omega) (by omega) hac

theorem mapped_find1 (h : Inc E) (hb : ∀ x ∈ E, x.1 < v.size1 * v.size2) (hP : PosLaws P v.map E) (h1 : v.size1 < 2 ^ 64) (h2 : v.size2 < 2 ^ 64)
    (dbg : Bool) (ax : Axis) {k l : Nat} (hk : k ≤ CMat.along ax v.size1 v.size2) (hl : l < CMat.along ax.other v.size1 v.size2) :
    ∃ p, v.lookup P dbg o ax true 1 k l = .ok p ∧ mAt1 o v.size1 v.size2 E ax l (before (keyLine o v.size1 v.size2 E ax l) k) p ∧
      (p.rank = 0 ↔ before (keyLine o v.size1 v.size2 E ax l) k = (keyLine o v.size1 v.size2 E ax l).length) := by
  have hl' : (2 ^ 64 - 1 : Nat) ≠ l := by cases ax <;> simp only [CMat.along, Axis.other] at hl <;> omega
  obtain ⟨r, r1, r2, r3⟩ := mapped_loop h hb hP (o := o) dbg ax hl (CMat.along ax v.size1 v.size2 + 1) k (2 ^ 64 - 1) hk (by omega) hl'
  have hle := before_le (keyLine o v.size1 v.size2 E ax l) k
  unfold lookup
  rw [mapped_addr dbg o v ax hk (Nat.le_of_lt hl), bind_ok, hP.lower, bind_ok, if_pos rfl, r1, bind_ok]
  by_cases hc : r.2.2 = l
  · have := r3.1 hc
    simp only [hc, ne_eq, not_true, if_false]
    cases ax
    · exact ⟨_, rfl, ⟨r2, rfl, Or.inl rfl⟩, by simp; omega⟩
    · exact ⟨_, rfl, ⟨r2, rfl, Or.inl rfl⟩, by simp; omega⟩
  · have hn : ¬ before (keyLine o v.size1 v.size2 E ax l) k < (keyLine o v.size1 v.size2 E ax l).length := fun hh => hc (r3.2 hh)
    simp only [hc, ne_eq, not_false_eq_true, if_true]
    cases ax
    · exact ⟨_, rfl, ⟨r2, rfl, Or.inr ⟨rfl, by omega, rfl⟩⟩, by simp; omega⟩
    · exact ⟨_, rfl, ⟨r2, rfl, Or.inr ⟨rfl, by omega, rfl⟩⟩, by simp; omega⟩

theorem mapped_find0 (hP : PosLaws P v.map E) (dbg fwd : Bool) (ax : Axis) {k l : Nat} (hk : k ≤ CMat.along ax v.size1 v.size2)
    (hl : l ≤ CMat.along ax.other v.size1 v.size2) :
    v.lookup P dbg o ax fwd 0 k l = .ok ⟨0, (coord ax k l).1, (coord ax k l).2, cnt E (addr o v.size1 v.size2 ax l k)⟩ := by
  unfold lookup
  rw [mapped_addr dbg o v ax hk hl, bind_ok, hP.lower, bind_ok, if_neg (by decide)]
  cases ax <;> rfl

theorem mapped_stands (I : MapImpl σ R) (h : Inc E) (hb : ∀ x ∈ E, x.1 < v.size1 * v.size2) (hP : PosLaws P v.map E) (h1 : v.size1 < 2 ^ 64)
    (h2 : v.size2 < 2 ^ 64) (dbg : Bool) (zero : R) :
    (MIter.mapped I P dbg o zero v).Stands (flines v.size1 v.size2) (keyLine o v.size1 v.size2 E) mAt0 (mAt1 o v.size1 v.size2 E) := by
  have hbelow : ∀ ax l, l < CMat.along ax.other v.size1 v.size2 → ∀ x ∈ keyLine o v.size1 v.size2 E ax l, x.1 < CMat.along ax v.size1 v.size2 :=
    fun ax l hl x hx => ((keyLine_mem hb ax hl x.1 x.2).1 hx).1
  have hlook : ∀ ax rank k l, (MIter.mapped I P dbg o zero v).look ax rank k l = v.lookup P dbg o ax true rank k l := by
    intro ax rank k l; cases ax <;> rfl
  have hsee0 : ∀ ax l k p, k < CMat.along ax v.size1 v.size2 → l < CMat.along ax.other v.size1 v.size2 → mAt0 ax l k p → v.indexAlong P dbg o ax p = .ok k := by
    intro ax l k p hk hl hp
    obtain ⟨hr, hp⟩ := hp
    have hlp : CMat.along ax.other p.i p.j = l ∧ CMat.along ax p.i p.j = k := by
      cases ax <;> simp only [coord, Prod.mk.injEq] at hp <;> simp [CMat.along, Axis.other, hp]
    have hne : v.notEnd P dbg o ax p = .ok () := by
      unfold MappedMat.notEnd
      rw [hlp.1, mapped_find0 hP dbg true ax (Nat.le_refl _) (Nat.le_of_lt hl), bind_ok, check_true, ite_self]
      simp only [MappedMat.iterEq, hr]
      cases ax <;> simp only [coord, CMat.along, Prod.mk.injEq] at hp hk ⊢ <;> simp [hp] <;> omega
    unfold MappedMat.indexAlong MappedMat.index1 MappedMat.index2
    cases ax <;> simp only [hne, if_true, bind_ok, hr] <;> simp only [coord, Prod.mk.injEq] at hp <;> simp [hp]
  have hsee1 : ∀ ax l k p (hk : k < (keyLine o v.size1 v.size2 E ax l).length), l < CMat.along ax.other v.size1 v.size2 → mAt1 o v.size1 v.size2 E ax l k p →
      v.index1 P dbg o ax p = .ok (coord ax (keyLine o v.size1 v.size2 E ax l)[k].1 l).1 ∧
      v.index2 P dbg o ax p = .ok (coord ax (keyLine o v.size1 v.size2 E ax l)[k].1 l).2 ∧
      v.deref I P dbg o zero ax p = .ok (keyLine o v.size1 v.size2 E ax l)[k].2 := by
    intro ax l k p hk hl hp
    obtain ⟨p1, p2, p3⟩ := hp
    have hr : p.rank = 1 := by rcases p3 with c | ⟨_, c, _⟩ <;> omega
    have hent : P.entry v.map p.it = .ok (addr o v.size1 v.size2 ax l (keyLine o v.size1 v.size2 E ax l)[k].1, (keyLine o v.size1 v.size2 E ax l)[k].2) := by
      rw [p1]; exact hP.entry _ _ (slot_get h hb ax hl hk)
    have hx := (keyLine_stored hb ax hl hk).1
    obtain ⟨a1, a2, a3⟩ := addr_key o ax hx hl
    have hne : v.notEnd P dbg o ax p = .ok () := by
      unfold MappedMat.notEnd
      rw [p2, mapped_find0 hP dbg true ax (Nat.le_refl _) (Nat.le_of_lt hl), bind_ok, check_true, ite_self]
      simp only [MappedMat.iterEq, hr, true_or, if_true, decide_eq_false_iff_not, p1]
      have := slot_lt h hb ax hl hk (Nat.le_refl _)
      rw [slot_end] at this
      omega
    generalize (keyLine o v.size1 v.size2 E ax l)[k] = x at *
    have i1 : v.index1 P dbg o ax p = .ok (coord ax x.1 l).1 := by
      unfold MappedMat.index1
      rw [hne, ite_self, bind_ok, if_pos hr, hent, bind_ok]
      cases ax <;> simp only [keyAlong, keyAcross, CMat.along, Axis.other] at a1 a2 hx hl <;> simp only [a1, a2, coord]
      · rw [check_true hx]; rfl
      · rw [check_true hl]; rfl
    have i2 : v.index2 P dbg o ax p = .ok (coord ax x.1 l).2 := by
      unfold MappedMat.index2
      rw [hne, ite_self, bind_ok, if_pos hr, hent, bind_ok]
      cases ax <;> simp only [keyAlong, keyAcross, CMat.along, Axis.other] at a1 a2 hx hl <;> simp only [a1, a2, coord]
      · rw [check_true hl]; rfl
      · rw [check_true hx]; rfl
    have hin : (coord ax x.1 l).1 < v.size1 ∧ (coord ax x.1 l).2 < v.size2 := by
      cases ax <;> simp only [coord, CMat.along, Axis.other] at hx hl ⊢ <;> omega
    refine ⟨i1, i2, ?_⟩
    unfold MappedMat.deref
    rw [i1, i2]
    simp only [bind_ok, check_true hin.1, check_true hin.2, ite_self, if_pos hr, hent]
  have halong : ∀ ax l k p (hk : k < (keyLine o v.size1 v.size2 E ax l).length), l < CMat.along ax.other v.size1 v.size2 → mAt1 o v.size1 v.size2 E ax l k p →
      v.indexAlong P dbg o ax p = .ok (keyLine o v.size1 v.size2 E ax l)[k].1 := by
    intro ax l k p hk hl hp
    obtain ⟨i1, i2, _⟩ := hsee1 ax l k p hk hl hp
    cases ax
    · exact i1
    · exact i2
  refine ⟨fun ax => everyone_inc _ _, fun ax => everyone_below _ _, fun ax l _ => keyLine_inc h hb ax l, fun ax l hl => hbelow ax l hl, ?_, ?_, ?_, ?_, ?_, ?_, ?_, ?_, ?_⟩
  · intro ax k l hk hl
    rw [hlook, mapped_find0 hP dbg true ax hk (Nat.le_of_lt hl)]
    refine ⟨_, rfl, rfl, ?_⟩
    have hb : before (flines v.size1 v.size2 ax) k = k := flines_before _ _ _ hk
    show _ = coord ax (before (flines v.size1 v.size2 ax) k) l
    rw [hb]
  · intro ax l k p hl hp hk
    rw [flines_length] at hk
    have hia := hsee0 ax l k p hk hl hp
    obtain ⟨hr, hp⟩ := hp
    have hlp : CMat.along ax.other p.i p.j = l := by
      cases ax <;> simp only [coord, Prod.mk.injEq] at hp <;> simp [CMat.along, Axis.other, hp]
    show ∃ q, v.next P dbg o ax p = .ok q ∧ _
    unfold MappedMat.next
    rw [if_neg (by rw [hr]; simp), hia, bind_ok, hlp, hr, mapped_find0 hP dbg true ax hk (Nat.le_of_lt hl)]
    exact ⟨_, rfl, rfl, rfl⟩
  · intro ax l k k' p q _ _ _ hp hq
    show Except.ok (MappedMat.iterEq p q) = _
    obtain ⟨hr, hp⟩ := hp
    obtain ⟨hr', hq⟩ := hq
    simp only [MappedMat.iterEq, hr, hr']
    cases ax <;> simp only [coord, Prod.mk.injEq] at hp hq <;> simp [hp, hq]
  · intro ax l k p hk hl hp
    rw [flines_get]
    rw [flines_length] at hk
    have := hsee0 ax l k p hk hl hp
    cases ax <;> exact this
  · intro ax l k p hk hl hp
    rw [flines_get]
    rw [flines_length] at hk
    have hia := hsee0 ax l k p hk hl hp
    have hkk : k < CMat.along ax.other.other v.size1 v.size2 := by rw [other_other]; exact hk
    obtain ⟨b, b1, b2, _⟩ := mapped_find1 h hb hP (o := o) h1 h2 dbg ax.other (Nat.zero_le _) hkk
    obtain ⟨e, e1, e2, _⟩ := mapped_find1 h hb hP (o := o) h1 h2 dbg ax.other (Nat.le_refl _) hkk
    rw [before_zero] at b2
    rw [before_all (hbelow ax.other k hkk)] at e2
    refine ⟨b, e, ?_, ?_, b2, e2⟩
    · show (v.indexAlong P dbg o ax p >>= fun k => v.lookup P dbg o ax.other true 1 0 k) = _
      rw [hia, bind_ok]; exact b1
    · show (v.indexAlong P dbg o ax p >>= fun k => v.lookup P dbg o ax.other true 1 (CMat.along ax.other v.size1 v.size2) k) = _
      rw [hia, bind_ok]; exact e1
  · intro ax k l hk hl
    obtain ⟨p, p1, p2, _⟩ := mapped_find1 h hb hP (o := o) h1 h2 dbg ax hk hl
    exact ⟨p, by rw [hlook]; exact p1, p2⟩
  · intro ax l k p hl hp hk
    show ∃ q, v.next P dbg o ax p = .ok q ∧ _
    have hia := halong ax l k p hk hl hp
    obtain ⟨p1, p2, p3⟩ := hp
    have hr : p.rank = 1 := by rcases p3 with c | ⟨_, c, _⟩ <;> omega
    cases hf : o.fast ax with
    | true =>
      refine ⟨{ p with it := p.it + 1 }, by unfold MappedMat.next; rw [if_pos ⟨hr, hf⟩], ?_, p2, Or.inl hr⟩
      simp only [p1]
      exact slot_succ h hb hf hl hk
    | false =>
      obtain ⟨q, q1, q2, _⟩ := mapped_find1 h hb hP (o := o) h1 h2 dbg ax (k := (keyLine o v.size1 v.size2 E ax l)[k].1 + 1) (keyLine_stored hb ax hl hk).1 hl
      rw [before_succ (keyLine_inc h hb ax l) hk] at q2
      refine ⟨q, ?_, q2⟩
      unfold MappedMat.next
      rw [if_neg (by rw [hf]; simp), hia, bind_ok, p2, hr]
      exact q1
  · intro ax l a b p q hl ha hb' hp hq
    show Except.ok (MappedMat.iterEq p q) = _
    obtain ⟨p1, p2, p3⟩ := hp
    obtain ⟨q1, q2, q3⟩ := hq
    congr 1
    unfold MappedMat.iterEq
    by_cases hr : p.rank = 1 ∨ q.rank = 1
    · rw [if_pos hr, p1, q1, decide_eq_decide]
      exact slot_inj h hb ax hl ha hb'
    · rw [if_neg hr]
      rcases p3 with c | ⟨_, c1, c2⟩
      · exact absurd (Or.inl c) hr
      rcases q3 with d | ⟨_, d1, d2⟩
      · exact absurd (Or.inr d) hr
      rw [decide_eq_decide]
      refine ⟨fun _ => by omega, fun _ => ?_⟩
      cases ax <;> simp only [CMat.along, Axis.other] at p2 q2 c2 d2 <;> omega
  · intro ax l k p hk hl hp
    obtain ⟨i1, i2, i3⟩ := hsee1 ax l k p hk hl hp
    refine ⟨?_, ?_, i3⟩ <;> cases ax <;> first | exact i1 | exact i2

/-- What iterating a matrix and every stack of views on it must give, `L ax l` being the elements it shows along column `l` (`ax = one`) or row `l`
(`ax = two`), in increasing order of the index, and `elem` all its elements.  Row by row and column by column the nested loops over the view visit every row
(column) in order and in each exactly the elements `MRef.shown`; so do the iterators of a row or column of the view seen through any stack of vector views,
backwards too where `back`. -/
def ShownThroughViews (X : MIter R) (dbg : Bool) (rows cols : Nat) (elem : Nat → Nat → R) (L : Axis → Nat → List (Nat × R)) (back : Axis → Prop) : Prop :=
  ∀ p : MRef, p.Fits rows cols →
    (0 < p.size2 cols → (X.view dbg p).traverse .one = .ok ((List.range (p.size1 rows)).map fun i => (i, (p.shown elem L .two i).map fun x => ((i, x.1), x.2)))) ∧
    (0 < p.size1 rows → (X.view dbg p).traverse .two = .ok ((List.range (p.size2 cols)).map fun j => (j, (p.shown elem L .one j).map fun x => ((x.1, j), x.2)))) ∧
    (∀ i q, i < p.size1 rows → VRef.Fits (p.size2 cols) q →
      (((X.view dbg p).line dbg .two i).view dbg q).els = .ok (q.shown (fun j => elem (p.index i j).1 (p.index i j).2) (p.shown elem L .two i)) ∧
      (back .two → (((X.view dbg p).line dbg .two i).view dbg q).elsBack = .ok (q.shown (fun j => elem (p.index i j).1 (p.index i j).2) (p.shown elem L .two i)).reverse)) ∧
    (∀ j q, j < p.size2 cols → VRef.Fits (p.size1 rows) q →
      (((X.view dbg p).line dbg .one j).view dbg q).els = .ok (q.shown (fun i => elem (p.index i j).1 (p.index i j).2) (p.shown elem L .one j)) ∧
      (back .one → (((X.view dbg p).line dbg .one j).view dbg q).elsBack = .ok (q.shown (fun i => elem (p.index i j).1 (p.index i j).2) (p.shown elem L .one j)).reverse))

theorem shownThroughViews {X : MIter R} {rows cols : Nat} {elem : Nat → Nat → R} {L : Axis → Nat → List (Nat × R)} {back : Axis → Prop} {At0 At1}
    (z1 : X.size1 = rows) (z2 : X.size2 = cols) (h1 : rows < 2 ^ 64) (h2 : cols < 2 ^ 64) (hst : X.Stands (flines rows cols) L At0 At1)
    (hb : ∀ ax, back ax → X.Backs L At1 ax) (hr : X.Reads elem) (dbg : Bool) : X.ShownThroughViews dbg rows cols elem L back := by
  intro p hp
  subst z1; subst z2
  obtain ⟨⟨A0, A1, k1, k2⟩, k3, k4, k5, k6, k7⟩ := MIter.view_stands hst hr h1 h2 dbg p hp
  have eL := MRef.shownLines_full X.size1 X.size2 p hp
  have e1 : ∀ {m : Nat}, m < p.size1 X.size1 → m < (X.view dbg p).len Axis.two.other := by
    intro m hm; show m < MIter.size1 _; rw [k4]; exact hm
  have e2 : ∀ {m : Nat}, m < p.size2 X.size2 → m < (X.view dbg p).len Axis.one.other := by
    intro m hm; show m < MIter.size2 _; rw [k5]; exact hm
  refine ⟨fun h => ?_, fun h => ?_, fun i q hi hq => ?_, fun j q hj hq => ?_⟩
  · refine (k1.traverse (ax := .one) (e2 h)).trans ?_
    unfold MIter.table
    rw [eL]
    simp only [MIter.flines, everyone, List.map_map, CMat.along]
    rfl
  · refine (k1.traverse (ax := .two) (e1 h)).trans ?_
    unfold MIter.table
    rw [eL]
    simp only [MIter.flines, everyone, List.map_map, CMat.along]
    rfl
  · have t1 := k1.line dbg .two (e1 hi)
    have t3 := k3.line dbg .two (e1 hi)
    have hsz : ((X.view dbg p).line dbg .two i).size = p.size2 X.size2 := k5
    obtain ⟨⟨At, u1, u2⟩, _⟩ := VIter.view_stands t1 t3 (by rw [hsz]; exact k7) dbg q (by rw [hsz]; exact hq)
    exact ⟨u1.els, fun ho => u1.elsBack (u2 ((k2 .two (hb .two ho)).line dbg (e1 hi)))⟩
  · have t1 := k1.line dbg .one (e2 hj)
    have t3 := k3.line dbg .one (e2 hj)
    have hsz : ((X.view dbg p).line dbg .one j).size = p.size1 X.size1 := k4
    obtain ⟨⟨At, u1, u2⟩, _⟩ := VIter.view_stands t1 t3 (by rw [hsz]; exact k6) dbg q (by rw [hsz]; exact hq)
    exact ⟨u1.els, fun ho => u1.elsBack (u2 ((k2 .one (hb .one ho)).line dbg (e2 hj)))⟩

/-- The list behind a reachable mapped matrix. -/
theorem mapped_list {Rel : σ → (Nat → Option R) → Prop} {o : Orient} {v : MappedMat σ} {s : Mat R} (hP : P.Fits Rel) (hi : MappedMat.Inv Rel o v s) :
    ∃ E : List (Nat × R), Inc E ∧ (∀ x ∈ E, x.1 < s.rows * s.cols) ∧ PosLaws P v.map E ∧
      (∀ i j w, i < s.rows → j < s.cols → ((o.elementRaw i s.rows j s.cols, w) ∈ E ↔ s.val (i, j) = some w)) := by
  obtain ⟨h1, h2, h3, h4⟩ := hi
  obtain ⟨E, e1, e2⟩ := hP _ _ h3
  refine ⟨E, e1.1, ?_, e2, ?_⟩
  · intro x hx
    have := (e1.2 x.1 x.2).2 hx
    unfold MappedMat.flat at this
    split at this
    · assumption
    · cases this
  · intro i j w hi hj
    rw [← e1.2, MappedMat.flat_element o s hi hj]

end MIter

/-- Any history of a mapped matrix, over either map. -/
theorem MappedMat.reach (I : MapImpl σ R) (Rel : σ → (Nat → Option R) → Prop) (L : MapLaws I Rel) (dbg : Bool) (o : Orient) (zero : R) (r c nz : Nat)
    (ops : List (SMOp R)) (hl : mlegalRun zero ⟨r, c, fun _ => none⟩ ops) :
    ∃ v0 v, MappedMat.ctor I dbg r c nz = .ok v0 ∧ MappedMat.run I dbg o zero v0 ops = .ok v ∧ MappedMat.Inv Rel o v (mrun zero ⟨r, c, fun _ => none⟩ ops) := by
  obtain ⟨m0, g1, g2⟩ := L.reserve dbg I.empty _ (MappedMat.restrictCapacity r c nz) L.empty (fun K _ hm => by
    cases K with
    | nil => simp
    | cons a K => exact absurd rfl (hm a (by simp)))
  have hflat : MappedMat.flat o (⟨r, c, fun _ => none⟩ : Mat R) = fun _ => none := by
    funext k; simp [MappedMat.flat]
  obtain ⟨v, e1, h1⟩ := MappedMat.run_inv L dbg o zero ops ⟨r, c, m0⟩ ⟨r, c, fun _ => none⟩ ⟨rfl, rfl, by rw [hflat]; exact g2, fun _ _ _ => rfl⟩ hl
  exact ⟨⟨r, c, m0⟩, v, by simp [MappedMat.ctor, g1], e1, h1⟩

/-- **C85 (forwards).** After any legal history of a `mapped_matrix` (over `map_array` or `std::map`), iterating it or any stack of views on it forwards, by rows or
by columns, visits exactly the stored elements, in increasing order, with their indices and values (through slices and indirect arrays: every element).
Missing (see `C85_reverse_refuted`): iterating backwards. -/
theorem C85_mapped_views_partial (I : MapImpl σ R) (Rel : σ → (Nat → Option R) → Prop) (Lw : MapLaws I Rel) (P : MapPos σ R) (hP : P.Fits Rel) (dbg : Bool) (o : Orient)
    (zero : R) (r c nz : Nat) (ops : List (SMOp R)) (hl : mlegalRun zero ⟨r, c, fun _ => none⟩ ops) (s : Mat R)
    (hs : s = mrun zero ⟨r, c, fun _ => none⟩ ops) (h1 : s.rows < 2 ^ 64) (h2 : s.cols < 2 ^ 64) :
    ∃ v0 v, ∃ L : Axis → Nat → List (Nat × R), MappedMat.ctor I dbg r c nz = .ok v0 ∧ MappedMat.run I dbg o zero v0 ops = .ok v ∧
      (∀ i, i < s.rows → Lists (L .two i) fun j => s.val (i, j)) ∧ (∀ j, j < s.cols → Lists (L .one j) fun i => s.val (i, j)) ∧
      (MIter.mapped I P dbg o zero v).ShownThroughViews dbg s.rows s.cols (fun i j => (s.val (i, j)).getD zero) L fun _ => False := by
  obtain ⟨v0, v, e0, e, hi⟩ := MappedMat.reach I Rel Lw dbg o zero r c nz ops hl
  rw [← hs] at hi
  obtain ⟨E, b1, b2, b3, b4⟩ := MIter.mapped_list hP hi
  have hobs := MappedMat.Inv.observes Lw dbg o zero hi
  obtain ⟨z1, z2, _, hn⟩ := hi
  refine ⟨v0, v, MIter.keyLine o s.rows s.cols E, e0, e, fun i hi => ?_, fun j hj => ?_, ?_⟩
  · exact MIter.keyLine_lists b1 b4 b2 hn .two hi
  · exact MIter.keyLine_lists b1 b4 b2 hn .one hj
  · have hst := MIter.mapped_stands (o := o) (v := v) I b1 (by rw [z1, z2]; exact b2) b3 (by rw [z1]; exact h1) (by rw [z2]; exact h2) dbg zero
    rw [z1, z2] at hst
    exact MIter.shownThroughViews z1 z2 h1 h2 hst (fun _ h => h.elim) (fun i j hi hj => hobs.2.2.1 i j (by rw [← z1]; exact hi) (by rw [← z2]; exact hj)) dbg

theorem VIter.walkBack_stop {V : VIter R} {b p : V.Pos} (n : Nat) (h : V.eq p b = .ok true) : V.walkBack b (n + 1) p = .ok [] := by
  rw [VIter.walkBack, h, bind_ok, if_pos rfl]
theorem VIter.walkBack_step {V : VIter R} {b p q : V.Pos} {n i : Nat} {x : R} {l : List (Nat × R)} (h : V.eq p b = .ok false) (h1 : V.prev p = .ok q)
    (h2 : V.index q = .ok i) (h3 : V.deref q = .ok x) (h4 : V.walkBack b n q = .ok l) : V.walkBack b (n + 1) p = .ok ((i, x) :: l) := by
  rw [VIter.walkBack, h, bind_ok, if_neg (by decide), h1, bind_ok, h2, bind_ok, h3, bind_ok, h4, bind_ok]
theorem VIter.walkBack_fail {V : VIter R} {b p : V.Pos} {n : Nat} {e : Fault} (h : V.eq p b = .ok false) (h1 : V.prev p = .error e) :
    V.walkBack b (n + 1) p = .error e := by
  rw [VIter.walkBack, h, bind_ok, if_neg (by decide), h1]; rfl
theorem VIter.elsBack_of {V : VIter R} {b e : V.Pos} (h1 : V.find 0 = .ok b) (h2 : V.find V.size = .ok e) : V.elsBack = V.walkBack b (V.size + 1) e := by
  rw [VIter.elsBack, h1, bind_ok, h2, bind_ok]

/-- Release builds: going back from the end of a line with rank 0. -/
theorem MIter.mapped_walkBack (I : MapImpl σ R) {P : MapPos σ R} {o : Orient} {v : MappedMat σ} {E : List (Nat × R)} (h : Inc E) (hP : PosLaws P v.map E)
    (h1 : v.size1 < 2 ^ 64) (h2 : v.size2 < 2 ^ 64) (zero : R) (ax : Axis) {l : Nat}
    (hl : l < CMat.along ax.other v.size1 v.size2) {f : Nat} {w : R} (hf : (MIter.addr o v.size1 v.size2 ax l f, w) ∈ E) {a : Nat → R}
    (ha : ∀ k, k < CMat.along ax v.size1 v.size2 → v.get I false o zero (MIter.coord ax k l).1 (MIter.coord ax k l).2 = .ok (a k)) (b : MMIter) (hb1 : b.rank = 1)
    (hb2 : b.it = cnt E (MIter.addr o v.size1 v.size2 ax l f)) :
    ∀ fuel k, f ≤ k → k ≤ CMat.along ax v.size1 v.size2 → k < f + fuel →
      VIter.walkBack ((MIter.mapped I P false o zero v).line false ax l) b fuel
        (⟨0, (MIter.coord ax k l).1, (MIter.coord ax k l).2, cnt E (MIter.addr o v.size1 v.size2 ax l k)⟩ : MMIter) =
      .ok ((((List.range k).filter fun x => decide (f ≤ x)).map fun x => (x, a x)).reverse) := by
  intro fuel
  induction fuel with
  | zero => intro k _ _ _; omega
  | succ n ih =>
    intro k hk hkl hfu
    by_cases e : k = f
    · subst e
      have hnil : (List.range k).filter (fun x => decide (k ≤ x)) = [] := by
        rw [List.filter_eq_nil_iff]
        intro x hx
        simp only [List.mem_range] at hx
        simp only [decide_eq_true_eq]
        omega
      rw [hnil]
      refine VIter.walkBack_stop n ?_
      show Except.ok (MappedMat.iterEq _ b) = _
      simp only [MappedMat.iterEq, hb1, hb2, or_true, if_true, decide_true]
    · have hlt := cnt_lt h hf (MIter.addr_lt' o ax hl (show f < k by omega))
      have hu : u64 ((k : Int) - 1) = k - 1 := by
        have hk64 : k < 2 ^ 64 := by cases ax <;> simp only [CMat.along] at hkl <;> omega
        exact MIter.u64_sub (b := 1) (by omega) (Nat.le_refl _) hk64
      have ih := ih (k - 1) (by omega) (by omega) (by omega)
      have hal : CMat.along ax (MIter.coord ax k l).1 (MIter.coord ax k l).2 = k := by cases ax <;> rfl
      have hal' : CMat.along ax (MIter.coord ax (k - 1) l).1 (MIter.coord ax (k - 1) l).2 = k - 1 := by cases ax <;> rfl
      have hac : CMat.along ax.other (MIter.coord ax k l).1 (MIter.coord ax k l).2 = l := by cases ax <;> rfl
      have hidx : ∀ p : MMIter, p.rank = 0 → v.indexAlong P false o ax p = .ok (CMat.along ax p.i p.j) := by
        intro p hp
        cases ax <;> simp [MappedMat.indexAlong, MappedMat.index1, MappedMat.index2, MappedMat.notEnd, hp, CMat.along]
      have hprev' : v.prev P false o ax ⟨0, (MIter.coord ax k l).1, (MIter.coord ax k l).2, cnt E (MIter.addr o v.size1 v.size2 ax l k)⟩ =
          .ok ⟨0, (MIter.coord ax (k - 1) l).1, (MIter.coord ax (k - 1) l).2, cnt E (MIter.addr o v.size1 v.size2 ax l (k - 1))⟩ := by
        unfold MappedMat.prev
        rw [if_neg (by simp), hidx _ rfl, bind_ok, hal, hac, hu, MIter.mapped_find0 hP false false ax (by omega) (Nat.le_of_lt hl)]
      have hprev : ((MIter.mapped I P false o zero v).line false ax l).prev
          (⟨0, (MIter.coord ax k l).1, (MIter.coord ax k l).2, cnt E (MIter.addr o v.size1 v.size2 ax l k)⟩ : MMIter) =
          .ok (⟨0, (MIter.coord ax (k - 1) l).1, (MIter.coord ax (k - 1) l).2, cnt E (MIter.addr o v.size1 v.size2 ax l (k - 1))⟩ : MMIter) := hprev'
      have heq : ((MIter.mapped I P false o zero v).line false ax l).eq
          (⟨0, (MIter.coord ax k l).1, (MIter.coord ax k l).2, cnt E (MIter.addr o v.size1 v.size2 ax l k)⟩ : MMIter) b = .ok false := by
        show Except.ok (MappedMat.iterEq _ b) = _
        simp only [MappedMat.iterEq, hb1, hb2, or_true, if_true]
        congr 1
        simp only [decide_eq_false_iff_not]
        omega
      have hix : ((MIter.mapped I P false o zero v).line false ax l).index
          (⟨0, (MIter.coord ax (k - 1) l).1, (MIter.coord ax (k - 1) l).2, cnt E (MIter.addr o v.size1 v.size2 ax l (k - 1))⟩ : MMIter) = .ok (k - 1) := by
        have := hidx ⟨0, (MIter.coord ax (k - 1) l).1, (MIter.coord ax (k - 1) l).2, cnt E (MIter.addr o v.size1 v.size2 ax l (k - 1))⟩ rfl
        rw [hal'] at this
        cases ax <;> exact this
      have hde : ((MIter.mapped I P false o zero v).line false ax l).deref
          (⟨0, (MIter.coord ax (k - 1) l).1, (MIter.coord ax (k - 1) l).2, cnt E (MIter.addr o v.size1 v.size2 ax l (k - 1))⟩ : MMIter) = .ok (a (k - 1)) := by
        have := ha (k - 1) (by omega)
        refine Eq.trans ?_ this
        simp [MIter.line, MIter.mapped, MappedMat.deref]
      refine (VIter.walkBack_step heq hprev hix hde ih).trans ?_
      have hr : List.range k = List.range (k - 1) ++ [k - 1] := by
        conv_lhs => rw [show k = k - 1 + 1 by omega, List.range_succ]
      rw [hr, List.filter_append, List.map_append, List.reverse_append]
      simp [show f ≤ k - 1 by omega]

/-- **C85 refuted (backwards).** After any legal history: take a row or column with a stored element, the first at `f`.  In a debug build the reverse iterators
throw `bad_index` at once (their first step asks the end iterator for its index), and the same happens stepping back from `end1 ()`, `end2 ()`.  In a release
build the reverse iterators yield *every* position from the last down to `f`, stored or not, instead of the stored elements. -/
theorem C85_reverse_refuted (I : MapImpl σ R) (Rel : σ → (Nat → Option R) → Prop) (Lw : MapLaws I Rel) (P : MapPos σ R) (hP : P.Fits Rel) (dbg : Bool) (o : Orient)
    (zero : R) (r c nz : Nat) (ops : List (SMOp R)) (hl : mlegalRun zero ⟨r, c, fun _ => none⟩ ops) (s : Mat R)
    (hs : s = mrun zero ⟨r, c, fun _ => none⟩ ops) (h1 : s.rows < 2 ^ 64) (h2 : s.cols < 2 ^ 64) (ax : Axis) (l : Nat)
    (hll : l < CMat.along ax.other s.rows s.cols) (f : Nat) (hf : s.val (MIter.coord ax f l) ≠ none) (hmin : ∀ k, k < f → s.val (MIter.coord ax k l) = none) :
    ∃ v0 v, MappedMat.ctor I dbg r c nz = .ok v0 ∧ MappedMat.run I dbg o zero v0 ops = .ok v ∧
      (dbg = true → ((MIter.mapped I P dbg o zero v).line dbg ax l).elsBack = .error .badIndex ∧
        ∃ e, (MIter.mapped I P dbg o zero v).look ax 0 (CMat.along ax s.rows s.cols) 0 = .ok e ∧ (MIter.mapped I P dbg o zero v).prev ax e = .error .badIndex) ∧
      (dbg = false → ((MIter.mapped I P dbg o zero v).line dbg ax l).elsBack =
        .ok ((((List.range (CMat.along ax s.rows s.cols)).filter fun k => decide (f ≤ k)).map fun k => (k, (s.val (MIter.coord ax k l)).getD zero)).reverse)) := by
  obtain ⟨v0, v, e0, e, hi⟩ := MappedMat.reach I Rel Lw dbg o zero r c nz ops hl
  rw [← hs] at hi
  obtain ⟨E, b1, b2, b3, b4⟩ := MIter.mapped_list hP hi
  have hobs := MappedMat.Inv.observes Lw dbg o zero hi
  obtain ⟨z1, z2, _, hn⟩ := hi
  have b2' : ∀ x ∈ E, x.1 < v.size1 * v.size2 := by rw [z1, z2]; exact b2
  have hll' : l < CMat.along ax.other v.size1 v.size2 := by rw [z1, z2]; exact hll
  obtain ⟨li, lm⟩ := MIter.keyLine_lists (o := o) b1 b4 b2 hn ax hll
  rw [← z1, ← z2] at li lm
  obtain ⟨w, hw⟩ := Option.ne_none_iff_exists'.1 hf
  have hmem : (f, w) ∈ MIter.keyLine o v.size1 v.size2 E ax l := (lm f w).2 hw
  obtain ⟨fl, fE⟩ := (MIter.keyLine_mem b2' ax hll' f w).1 hmem
  have hlen : 0 < (MIter.keyLine o v.size1 v.size2 E ax l).length := List.length_pos_of_mem hmem
  have hfirst : (MIter.keyLine o v.size1 v.size2 E ax l)[0].1 = f := by
    have g1 : s.val (MIter.coord ax (MIter.keyLine o v.size1 v.size2 E ax l)[0].1 l) = some (MIter.keyLine o v.size1 v.size2 E ax l)[0].2 :=
      (lm _ _).1 (List.getElem_mem hlen)
    have g2 : f ≤ (MIter.keyLine o v.size1 v.size2 E ax l)[0].1 := by
      by_contra hc
      rw [hmin _ (by omega)] at g1
      cases g1
    obtain ⟨j, hj, ej⟩ := List.mem_iff_getElem.1 hmem
    rcases Nat.eq_zero_or_pos j with c | c
    · subst c; rw [ej]
    · have := List.pairwise_iff_getElem.1 li 0 j hlen hj c
      rw [ej] at this
      simp only at this
      omega
  obtain ⟨pb, pb1, ⟨pb2, pb3, pb4⟩, pb5⟩ := MIter.mapped_find1 b1 b2' b3 (o := o) (by rw [z1]; exact h1) (by rw [z2]; exact h2) dbg ax (Nat.zero_le _) hll'
  obtain ⟨pe, pe1, ⟨pe2, pe3, pe4⟩, pe5⟩ := MIter.mapped_find1 b1 b2' b3 (o := o) (by rw [z1]; exact h1) (by rw [z2]; exact h2) dbg ax (Nat.le_refl _) hll'
  have hall : before (MIter.keyLine o v.size1 v.size2 E ax l) (CMat.along ax v.size1 v.size2) = (MIter.keyLine o v.size1 v.size2 E ax l).length :=
    before_all fun x hx => ((MIter.keyLine_mem b2' ax hll' x.1 x.2).1 hx).1
  rw [before_zero] at pb2 pb4 pb5
  rw [hall] at pe2 pe5
  have rb : pb.rank = 1 := by rcases pb4 with c | ⟨_, c, _⟩ <;> omega
  have re : pe.rank = 0 := pe5.2 rfl
  rw [MIter.slot_at ax l hlen, hfirst] at pb2
  rw [MIter.slot_end] at pe2
  have hpe : pe = ⟨0, (MIter.coord ax (CMat.along ax v.size1 v.size2) l).1, (MIter.coord ax (CMat.along ax v.size1 v.size2) l).2,
      cnt E (MIter.addr o v.size1 v.size2 ax l (CMat.along ax v.size1 v.size2))⟩ := by
    rcases pe4 with c | ⟨_, _, c⟩
    · omega
    · obtain ⟨q1, q2, q3, q4⟩ := pe
      cases ax <;> simp only [CMat.along, Axis.other, MIter.coord] at * <;> simp [re, pe2, pe3, c]
  have hlook : ∀ rank k l, (MIter.mapped I P dbg o zero v).look ax rank k l = v.lookup P dbg o ax true rank k l := by
    intro rank k l; cases ax <;> rfl
  have hbad : ∀ q : MMIter, dbg = true → ∀ l, l ≤ CMat.along ax.other v.size1 v.size2 →
      q = ⟨0, (MIter.coord ax (CMat.along ax v.size1 v.size2) l).1, (MIter.coord ax (CMat.along ax v.size1 v.size2) l).2,
        cnt E (MIter.addr o v.size1 v.size2 ax l (CMat.along ax v.size1 v.size2))⟩ → v.prev P dbg o ax q = .error .badIndex := by
    intro q hd l hl hq
    have hr : q.rank = 0 := by rw [hq]
    have hac : CMat.along ax.other q.i q.j = l := by rw [hq]; cases ax <;> rfl
    have hne : v.notEnd P dbg o ax q = .error .badIndex := by
      unfold MappedMat.notEnd
      rw [if_pos hd, hac, MIter.mapped_find0 b3 dbg true ax (Nat.le_refl _) hl, bind_ok, ← hq, hd]
      exact check_dbg_false (by simp [MappedMat.iterEq, hr])
    unfold MappedMat.prev MappedMat.indexAlong MappedMat.index1 MappedMat.index2
    rw [if_neg (by rw [hr]; simp)]
    cases ax <;> simp only [hne, if_true] <;> rfl
  refine ⟨v0, v, e0, e, fun hd => ⟨?_, ?_⟩, fun hd => ?_⟩
  · have e1 : ((MIter.mapped I P dbg o zero v).line dbg ax l).find 0 = .ok pb := by
      show (MIter.mapped I P dbg o zero v).look ax 1 0 l = _
      rw [hlook]; exact pb1
    have e2 : ((MIter.mapped I P dbg o zero v).line dbg ax l).find ((MIter.mapped I P dbg o zero v).line dbg ax l).size = .ok pe := by
      show (MIter.mapped I P dbg o zero v).look ax 1 _ l = _
      rw [hlook]; exact pe1
    have hne : ((MIter.mapped I P dbg o zero v).line dbg ax l).eq pe pb = .ok false := by
      show Except.ok (MappedMat.iterEq pe pb) = _
      simp only [MappedMat.iterEq, rb, or_true, if_true, pb2, pe2]
      have := cnt_lt b1 fE (MIter.addr_lt' o ax hll' fl)
      congr 1
      simp only [decide_eq_false_iff_not]
      omega
    have hpv : ((MIter.mapped I P dbg o zero v).line dbg ax l).prev pe = .error .badIndex := hbad pe hd l (Nat.le_of_lt hll') hpe
    exact (VIter.elsBack_of e1 e2).trans (VIter.walkBack_fail hne hpv)
  · rw [← z1, ← z2, hlook]
    refine ⟨_, MIter.mapped_find0 b3 dbg true ax (Nat.le_refl _) (Nat.zero_le _), ?_⟩
    exact hbad _ hd 0 (Nat.zero_le _) rfl
  · subst hd
    have e1 : ((MIter.mapped I P false o zero v).line false ax l).find 0 = .ok pb := by
      show (MIter.mapped I P false o zero v).look ax 1 0 l = _
      rw [hlook]; exact pb1
    have e2 : ((MIter.mapped I P false o zero v).line false ax l).find ((MIter.mapped I P false o zero v).line false ax l).size = .ok pe := by
      show (MIter.mapped I P false o zero v).look ax 1 _ l = _
      rw [hlook]; exact pe1
    refine (VIter.elsBack_of e1 e2).trans ?_
    rw [hpe, ← z1, ← z2]
    refine MIter.mapped_walkBack I b1 b3 (by rw [z1]; exact h1) (by rw [z2]; exact h2) zero ax hll' fE ?_ pb rb pb2 _ _ (Nat.le_of_lt fl) (Nat.le_refl _) ?_
    · intro k hk
      have hin : (MIter.coord ax k l).1 < s.rows ∧ (MIter.coord ax k l).2 < s.cols := by
        cases ax <;> simp only [MIter.coord, CMat.along, Axis.other] at hk hll ⊢ <;> omega
      exact hobs.2.2.1 _ _ hin.1 hin.2
    · show CMat.along ax v.size1 v.size2 < f + (CMat.along ax v.size1 v.size2 + 1)
      omega

/-- **C85** for the two maps of the library. -/
theorem C85_mapped_instances : MapLaws (mapArrayImpl (0 : Int)) MapArr.Repr ∧ (mapArrayPos (R := Int)).Fits MapArr.Repr ∧
    MapLaws (stdMapImpl (α := Int)) Rep ∧ (stdMapPos (R := Int)).Fits Rep :=
  ⟨mapArray_laws 0, mapArray_fits, stdMap_laws, stdMap_fits⟩

/-- A demonstration history: a 2 × 4 matrix with stored elements (0,1), (0,3), (1,0). -/
def C85_demo : List (SMOp Int) := [.insert 0 3 30, .modify 0 1 (fun _ => 10), .insert 1 0 7]

/-- Forwards by rows and columns, with `map_array` in a debug build; backwards along row 0 in a release build (position 2 is not stored) and in a debug build. -/
example : mlegalRun 0 ⟨2, 4, fun _ => none⟩ C85_demo ∧
    (do let v0 ← MappedMat.ctor (mapArrayImpl 0) true 2 4 0
        let v ← MappedMat.run (mapArrayImpl 0) true .row 0 v0 C85_demo
        let a ← (MIter.mapped (mapArrayImpl 0) mapArrayPos true .row 0 v).traverse .one
        let b ← (MIter.mapped (mapArrayImpl 0) mapArrayPos true .row 0 v).traverse .two
        let d ← ((MIter.mapped (mapArrayImpl 0) mapArrayPos false .row 0 v).line false .two 0).elsBack
        Except.ok (a, b, d) : M _) =
    .ok ([(0, [((0, 1), 10), ((0, 3), 30)]), (1, [((1, 0), 7)])], [(0, [((1, 0), 7)]), (1, [((0, 1), 10)]), (2, []), (3, [((0, 3), 30)])],
      [(3, 30), (2, 0), (1, 10)]) ∧
    (do let v0 ← MappedMat.ctor (mapArrayImpl 0) true 2 4 0
        let v ← MappedMat.run (mapArrayImpl 0) true .row 0 v0 C85_demo
        ((MIter.mapped (mapArrayImpl 0) mapArrayPos true .row 0 v).line true .two 0).elsBack : M _) = .error .badIndex := by
  refine ⟨?_, by rfl, by rfl⟩
  simp [C85_demo, mlegalRun, mlegal, mstep]

/-- **C82 (mapped).** Views of a `mapped_vector`: after any legal history, whatever ranges, slices and indirect arrays are stacked on it, its iterators show the
stored elements in the window (through ranges) or every element, forwards and backwards. -/
theorem C82_mapped_views (I : MapImpl σ R) (Rel : σ → (Nat → Option R) → Prop) (Lw : MapLaws I Rel) (P : MapPos σ R) (hP : P.Fits Rel) (dbg : Bool) (zero : R)
    (n nz : Nat) (ops : List (SVOp R)) (hl : vlegalRun zero ⟨n, fun _ => none⟩ ops) (s : Vec R) (hs : s = vrun zero ⟨n, fun _ => none⟩ ops)
    (hn : s.size < 2 ^ 64) (p : VRef) (hp : p.Fits s.size) :
    ∃ v0 v, ∃ L : List (Nat × R), MappedVec.ctor I dbg n nz = .ok v0 ∧ MappedVec.run I dbg zero v0 ops = .ok v ∧ Lists L s.val ∧
      ((VIter.mapped I P dbg zero v).view dbg p).els = .ok (p.shown (fun i => (s.val i).getD zero) L) ∧
      ((VIter.mapped I P dbg zero v).view dbg p).elsBack = .ok (p.shown (fun i => (s.val i).getD zero) L).reverse := by
  obtain ⟨m0, g1, g2⟩ := Lw.reserve dbg I.empty _ (min nz n) Lw.empty (fun K _ hm => by
    cases K with
    | nil => simp
    | cons a K => exact absurd rfl (hm a (by simp)))
  obtain ⟨v, e1, hi⟩ := MappedVec.run_inv Lw dbg zero ops ⟨n, m0⟩ ⟨n, fun _ => none⟩ ⟨rfl, g2, fun _ _ => rfl⟩ hl
  rw [← hs] at hi
  have hobs := MappedVec.Inv.observes Lw dbg zero hi
  obtain ⟨z, hR, hnone⟩ := hi
  obtain ⟨E, E1, E2⟩ := hP _ _ hR
  have hbel : ∀ x ∈ E, x.1 < v.size := by
    intro x hx
    rw [z]
    by_contra hc
    have := (E1.2 x.1 x.2).2 hx
    rw [hnone _ (by omega)] at this
    cases this
  have hst := VIter.mapped_stands I E1.1 E2 hbel dbg zero
  have hrd : (VIter.mapped I P dbg zero v).Reads fun i => (s.val i).getD zero := fun i hi => hobs.2.1 i (by rw [← z]; exact hi)
  obtain ⟨⟨At, u1, u2⟩, _⟩ := VIter.view_stands hst hrd (by show v.size < _; rw [z]; exact hn) dbg p (by show VRef.Fits v.size p; rw [z]; exact hp)
  exact ⟨⟨n, m0⟩, v, E, by simp [MappedVec.ctor, g1], e1, ⟨E1.1, fun k w => (E1.2 k w).symm⟩, u1.els, u1.elsBack (u2 (VIter.mapped_backs I P v E dbg zero))⟩

end Ublas
