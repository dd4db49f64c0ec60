import Verif.Spec.Storage
/-! Lemmas for the storage array model. -/
namespace Ublas.Storage
variable {α : Type}

/-- Array object `a` holds the list `l` in heap `h`. -/
def ArrOK (h : Heap α) (a : UArr) (l : List α) : Prop :=
  a.size = l.length ∧ ((l = [] ∧ a.ptr = none) ∨ (l ≠ [] ∧ ∃ p, a.ptr = some p ∧ h.blk p = some l))

def Fresh (h : Heap α) : Prop := ∀ p, h.next ≤ p → h.blk p = none

theorem Fresh.lt {h : Heap α} (hf : Fresh h) {p : Nat} {l} (hp : h.blk p = some l) : p < h.next := by
  refine Nat.lt_of_not_le fun hh => ?_
  rw [hf p hh] at hp; exact absurd hp (by simp)

theorem copyN_spec (h : Heap α) (s d n : Nat) (ls ld : List α) (hs : h.blk s = some ls)
    (hd : h.blk d = some ld) (hne : s ≠ d) (hn : n ≤ ls.length) (hn' : n ≤ ld.length) :
    copyN h (some s) (some d) n =
      .ok ⟨h.next, fun q => if q = d then some (ls.take n ++ ld.drop n) else h.blk q⟩ := by
  have := loop_inv (f := fun k (h : Heap α) =>
      (h.read s k >>= fun v => h.write d k v : M (Heap α))) (n := n) (s := h)
      (fun k t => t = ⟨h.next, fun q => if q = d then some (ls.take k ++ ld.drop k) else h.blk q⟩)
      (by cases h; congr 1; funext q; simp only at hd ⊢; split <;> simp_all)
      (by
        rintro k t hk rfl
        refine ⟨_, ?_, rfl⟩
        have h1 : k < ls.length := by omega
        have h2 : k < ld.length := by omega
        simp only [Heap.read, hne, if_false, hs, rd_ok h1, bind_ok, Heap.write, if_true]
        rw [wr_ok (by simp; omega)]
        simp only [bind_ok]
        congr 2
        funext q
        by_cases hq : q = d
        · simp only [hq, if_true]
          congr 1
          apply List.ext_getElem?
          intro i
          grind
        · simp [hq])
  obtain ⟨t, ht, rfl⟩ := this
  exact ht

theorem copyN_zero (h : Heap α) (s d : Option Nat) : copyN h s d 0 = .ok h := rfl

theorem fillFrom_spec (h : Heap α) (d a b : Nat) (v : α) (ld : List α) (hd : h.blk d = some ld)
    (hab : a ≤ b) (hb : b ≤ ld.length) :
    fillFrom h (some d) a b v =
      .ok ⟨h.next, fun q => if q = d then some (ld.take a ++ List.replicate (b - a) v ++ ld.drop b) else h.blk q⟩ := by
  have := loop_inv (f := fun k (h : Heap α) => (h.write d (a + k) v : M (Heap α))) (n := b - a) (s := h)
      (fun k t => t = ⟨h.next, fun q => if q = d then some (ld.take a ++ List.replicate k v ++ ld.drop (a + k)) else h.blk q⟩)
      (by cases h; congr 1; funext q; simp only at hd ⊢; split <;> simp_all)
      (by
        rintro k t hk rfl
        refine ⟨_, ?_, rfl⟩
        simp only [Heap.write, if_true]
        rw [wr_ok (by simp; omega)]
        simp only [bind_ok]
        congr 2
        funext q
        by_cases hq : q = d
        · simp only [hq, if_true]
          congr 1
          rw [List.drop_eq_getElem_cons (i := a + k) (by omega), List.set_append_right _ _ (by simp; omega)]
          simp only [List.length_append, List.length_take, List.length_replicate]
          rw [show a + k - (min a ld.length + k) = 0 by omega, List.set_cons_zero, List.replicate_succ', ← Nat.add_assoc]
          simp
        · simp [hq])
  obtain ⟨t, ht, rfl⟩ := this
  rw [fillFrom, ht]
  congr; funext q; rw [show a + (b - a) = b by omega]

/-- Object `a` (or nothing) was replaced by `a'` holding `l'`, and nothing else changed. -/
structure Repl (h h' : Heap α) (old : Option Nat) (a' : UArr) (l' : List α) : Prop where
  ok : ArrOK h' a' l'
  frame : ∀ q, old ≠ some q → a'.ptr ≠ some q → h'.blk q = h.blk q
  freed : ∀ q, old = some q → a'.ptr ≠ some q → h'.blk q = none
  own : ∀ q, a'.ptr = some q → old = some q ∨ h.blk q = none
  fresh : Fresh h'

theorem ctor_repl (h : Heap α) (hf : Fresh h) (junk : Nat → α) (n : Nat) :
    ∃ a h' l, ctor h junk n = .ok (a, h') ∧ Repl h h' none a l ∧ l.length = n := by
  by_cases hn : n = 0
  · subst hn
    refine ⟨_, _, [], rfl, ⟨⟨rfl, .inl ⟨rfl, rfl⟩⟩, ?_, ?_, ?_, hf⟩, rfl⟩ <;> simp
  · refine ⟨_, _, (List.range n).map junk, by simp [ctor, hn, Heap.alloc]; exact ⟨rfl, rfl⟩,
      ⟨⟨by simp, .inr ⟨by simpa using hn, h.next, rfl, by simp⟩⟩, ?_, ?_, ?_, ?_⟩, by simp⟩
    · intro q _ h2; simp only [ne_eq, Option.some.injEq] at h2; simp; intro e; exact absurd e.symm h2
    · simp
    · intro q h2; simp only [Option.some.injEq] at h2; right; exact hf q (by omega)
    · intro p hp; simp only at hp ⊢; rw [if_neg (by omega)]; exact hf p (by omega)

theorem ctorInit_repl (h : Heap α) (hf : Fresh h) (junk : Nat → α) (n : Nat) (v : α) :
    ∃ a h', ctorInit h junk n v = .ok (a, h') ∧ Repl h h' none a (List.replicate n v) := by
  by_cases hn : n = 0
  · subst hn
    refine ⟨_, _, rfl, ⟨⟨rfl, .inl ⟨rfl, rfl⟩⟩, ?_, ?_, ?_, hf⟩⟩ <;> simp
  · have e := fillFrom_spec (h.alloc junk n).2 h.next 0 n v ((List.range n).map junk) (by simp [Heap.alloc])
      (by omega) (by simp)
    refine ⟨_, _, by simp [ctorInit, hn, Heap.alloc] at e ⊢; rw [e]; simp only [bind_ok]; rfl, ?_⟩
    refine ⟨⟨by simp, .inr ⟨by simpa using hn, h.next, rfl, by simp⟩⟩, ?_, ?_, ?_, ?_⟩
    · intro q _ h2; simp only [ne_eq, Option.some.injEq] at h2
      have h3 : q ≠ h.next := fun e => h2 e.symm
      simp [h3]
    · simp
    · intro q h2; simp only [Option.some.injEq] at h2; right; exact hf q (by omega)
    · intro p hp; simp only at hp ⊢; rw [if_neg (by omega), if_neg (by omega)]; exact hf p (by omega)

theorem copyCtor_repl (h : Heap α) (hf : Fresh h) (junk : Nat → α) (c : UArr) (l : List α) (hc : ArrOK h c l) :
    ∃ a h', copyCtor h junk c = .ok (a, h') ∧ Repl h h' none a l := by
  obtain ⟨hs, hc⟩ := hc
  rcases hc with ⟨rfl, hp⟩ | ⟨hl, p, hp, hb⟩
  · simp at hs
    refine ⟨⟨0, none⟩, h, by simp [copyCtor, hs], ⟨⟨rfl, .inl ⟨rfl, rfl⟩⟩, ?_, ?_, ?_, hf⟩⟩ <;> simp
  · have hl0 : l.length ≠ 0 := by simpa using hl
    have hlt := hf.lt hb
    have e := copyN_spec (h.alloc junk c.size).2 p h.next c.size l ((List.range c.size).map junk)
      (by simp [Heap.alloc, hb]; omega) (by simp [Heap.alloc]) (by omega) (by omega) (by simp)
    refine ⟨_, _, by simp [copyCtor, hs, hl, Heap.alloc, hp] at e ⊢; rw [e]; simp only [bind_ok]; rfl, ?_⟩
    refine ⟨⟨by simp, .inr ⟨hl, h.next, rfl, by simp⟩⟩, ?_, ?_, ?_, ?_⟩
    · intro q _ h2; simp only [ne_eq, Option.some.injEq] at h2
      have h3 : q ≠ h.next := fun e => h2 e.symm
      simp [h3]
    · simp
    · intro q h2; simp only [Option.some.injEq] at h2; right; exact hf q (by omega)
    · intro p hp; simp only at hp ⊢; rw [if_neg (by omega), if_neg (by omega)]; exact hf p (by omega)

theorem resize_repl (h : Heap α) (hf : Fresh h) (junk : Nat → α) (a : UArr) (l : List α) (ha : ArrOK h a l)
    (n : Nat) (init : α) (pres : Bool) :
    ∃ a' h' l', resizeInternal h junk a n init pres = .ok (a', h') ∧ Repl h h' a.ptr a' l' ∧ l'.length = n ∧
      (pres = true → l' = l.take n ++ List.replicate (n - l.length) init) ∧
      (pres = false → l.length = n → l' = l) := by
  by_cases hn : n = a.size
  · refine ⟨a, h, l, by simp [resizeInternal, hn], ⟨ha, fun _ _ _ => rfl, fun q h1 h2 => absurd h1 h2, fun q h1 => .inl h1, hf⟩, by rw [hn, ha.1], ?_, fun _ _ => rfl⟩
    intro _; rw [hn, ha.1]; simp
  obtain ⟨hs, ha⟩ := ha
  by_cases hn0 : n = 0
  · subst hn0
    rcases ha with ⟨rfl, hp⟩ | ⟨hl, p, hp, hb⟩
    · simp at hs; omega
    · refine ⟨⟨0, none⟩, ⟨h.next, fun q => if q = p then none else h.blk q⟩, [], ?_, ⟨⟨rfl, .inl ⟨rfl, rfl⟩⟩, ?_, ?_, ?_, ?_⟩, rfl, ?_, ?_⟩
      · simp [resizeInternal, dtor, hp, Heap.dealloc, hb, hs, hl]
        intro e; omega
      · intro q h1 _; rw [hp] at h1; simp only [ne_eq, Option.some.injEq] at h1
        have h3 : q ≠ p := fun e => h1 e.symm
        simp [h3]
      · intro q h1 _; rw [hp] at h1; simp only [Option.some.injEq] at h1; simp [h1]
      · simp
      · intro q hq; simp only at hq ⊢; split
        · rfl
        · exact hf q hq
      · simp
      · intro _ h1; simp at h1; exact absurd h1 hl
  -- n ≠ 0
  have fin : ∀ (h1 : Heap α) (l' : List α), l'.length = n → h1.next = h.next + 1 →
      (∀ q, h1.blk q = if q = h.next then some l' else h.blk q) →
      ∃ h', dtor h1 a = .ok h' ∧ Repl h h' a.ptr ⟨n, some h.next⟩ l' := by
    intro h1 l' hlen hnx hblk
    rcases ha with ⟨rfl, hp⟩ | ⟨hl, p, hp, hb⟩
    · simp at hs
      refine ⟨h1, by simp [dtor, hs], ⟨⟨hlen.symm, .inr ⟨by rintro rfl; simp at hlen; omega, h.next, rfl, by simp [hblk]⟩⟩, ?_, ?_, ?_, ?_⟩⟩
      · intro q _ h2; simp only [ne_eq, Option.some.injEq] at h2; rw [hblk, if_neg (fun e => h2 e.symm)]
      · simp [hp]
      · intro q h2; simp only [Option.some.injEq] at h2; right; exact hf q (by omega)
      · intro q hq; rw [hnx] at hq; rw [hblk, if_neg (by omega)]; exact hf q (by omega)
    · have hlt := hf.lt hb
      have hbp : h1.blk p = some l := by rw [hblk, if_neg (by omega), hb]
      refine ⟨⟨h1.next, fun q => if q = p then none else h1.blk q⟩, by simp [dtor, hp, Heap.dealloc, hbp, hs, hl],
        ⟨⟨hlen.symm, .inr ⟨by rintro rfl; simp at hlen; omega, h.next, rfl, by simp [hblk]; omega⟩⟩, ?_, ?_, ?_, ?_⟩⟩
      · intro q h1 h2; rw [hp] at h1; simp only [ne_eq, Option.some.injEq] at h1 h2
        simp only [hblk]
        rw [if_neg (fun e => h1 e.symm), if_neg (fun e => h2 e.symm)]
      · intro q h1 _; rw [hp] at h1; simp only [Option.some.injEq] at h1; simp [h1]
      · intro q h2; simp only [Option.some.injEq] at h2; right; exact hf q (by omega)
      · intro q hq; simp only [hnx] at hq; simp only [hblk]
        rw [if_neg (by omega), if_neg (by omega)]; exact hf q (by omega)
  have hne : ¬ n = a.size := hn
  cases pres with
  | false =>
    obtain ⟨h', e, r⟩ := fin (h.alloc junk n).2 ((List.range n).map junk) (by simp) rfl (fun q => rfl)
    refine ⟨_, h', _, ?_, r, by simp, by simp, ?_⟩
    · simp only [resizeInternal, ne_eq, hne, not_false_eq_true, if_true, hn0, Heap.alloc, bind_ok, Bool.false_eq_true, if_false] at e ⊢
      rw [e]; rfl
    · intro _ h1; omega
  | true =>
    by_cases hlt : n < a.size
    · rcases ha with ⟨rfl, hp⟩ | ⟨hl, p, hp, hb⟩
      · simp at hs; omega
      have hpl := hf.lt hb
      have ec := copyN_spec (h.alloc junk n).2 p h.next n l ((List.range n).map junk)
        (by simp [Heap.alloc, hb]; omega) (by simp [Heap.alloc]) (by omega) (by omega) (by simp)
      obtain ⟨h', e, r⟩ := fin ⟨h.next + 1, fun q => if q = h.next then some (l.take n) else h.blk q⟩ (l.take n)
        (by simp; omega) rfl (fun q => rfl)
      refine ⟨_, h', _, ?_, r, by simp; omega, by intro _; rw [show n - l.length = 0 by omega]; simp, by simp⟩
      simp only [resizeInternal, ne_eq, hne, not_false_eq_true, if_true, hn0, Heap.alloc, hlt, bind_ok, if_false, hp] at e ec ⊢
      rw [ec]
      simp only [bind_ok]
      have : (fun q => if q = h.next then some (List.take n l ++ List.drop n (List.map junk (List.range n))) else if q = h.next then some (List.map junk (List.range n)) else h.blk q)
        = fun q => if q = h.next then some (l.take n) else h.blk q := by
        funext q; by_cases hq : q = h.next <;> simp [hq]
      rw [this, e]; rfl
    · have hge : a.size ≤ n := by omega
      obtain ⟨h1, e1, hblk1, hnx1⟩ : ∃ h1, copyN (h.alloc junk n).2 a.ptr (some h.next) a.size = .ok h1 ∧
          (∀ q, h1.blk q = if q = h.next then some (l ++ ((List.range n).map junk).drop l.length) else h.blk q) ∧
          h1.next = h.next + 1 := by
        rcases ha with ⟨rfl, hp⟩ | ⟨hl, p, hp, hb⟩
        · simp at hs
          refine ⟨_, by rw [hs]; rfl, by intro q; simp [Heap.alloc], rfl⟩
        · have hpl := hf.lt hb
          have ec := copyN_spec (h.alloc junk n).2 p h.next a.size l ((List.range n).map junk)
            (by simp [Heap.alloc, hb]; omega) (by simp [Heap.alloc]) (by omega) (by omega) (by simp; omega)
          refine ⟨_, by rw [hp]; exact ec, ?_, rfl⟩
          intro q; by_cases hq : q = h.next
          · simp [hq, hs]
          · simp [hq, Heap.alloc]
      have ef := fillFrom_spec h1 h.next a.size n init (l ++ ((List.range n).map junk).drop l.length) (by rw [hblk1]; simp) hge (by simp; omega)
      obtain ⟨h', e, r⟩ := fin ⟨h1.next, fun q => if q = h.next then some (l ++ List.replicate (n - a.size) init) else h.blk q⟩ (l ++ List.replicate (n - a.size) init) (by simp; omega) (hnx1)
        (by intro q; exact rfl)
      refine ⟨_, h', _, ?_, r, by simp; omega, by intro _; rw [List.take_of_length_le (by omega), hs], by simp⟩
      simp only [resizeInternal, ne_eq, hne, not_false_eq_true, if_true, hn0, if_false, hlt] at e ⊢
      simp only [Heap.alloc] at e1 ⊢
      rw [e1]; simp only [bind_ok]
      rw [ef]; simp only [bind_ok]
      have : (fun q => if q = h.next then some (List.take a.size (l ++ List.drop l.length (List.map junk (List.range n))) ++ List.replicate (n - a.size) init ++
          List.drop n (l ++ List.drop l.length (List.map junk (List.range n)))) else h1.blk q)
        = fun q => if q = h.next then some (l ++ List.replicate (n - a.size) init) else h.blk q := by
        funext q; by_cases hq : q = h.next
        · simp only [hq, if_true]
          rw [List.drop_of_length_le (l := (l ++ List.drop l.length (List.map junk (List.range n)))) (by simp; omega)]
          simp [hs]
        · simp [hq, hblk1]
      rw [this, e]; rfl

/-! ### Whole-state representation -/

/-- The state holds exactly the contents `c`. -/
structure Rep (s : St α) (c : Nat → Option (List α)) : Prop where
  dead : ∀ x, c x = none → s.var x = none
  livev : ∀ x l, c x = some l → ∃ a, s.var x = some a ∧ ArrOK s.heap a l
  inj : ∀ x y a b p, s.var x = some a → s.var y = some b → a.ptr = some p → b.ptr = some p → x = y
  noleak : ∀ p, s.heap.blk p ≠ none → ∃ x a, s.var x = some a ∧ a.ptr = some p
  fresh : Fresh s.heap

theorem Rep.ok {s : St α} {c} (r : Rep s c) {x a} (h : s.var x = some a) : ∃ l, c x = some l ∧ ArrOK s.heap a l := by
  cases hc : c x with
  | none => rw [r.dead x hc] at h; simp at h
  | some l =>
    obtain ⟨a', h1, h2⟩ := r.livev x l hc
    rw [h] at h1; cases h1; exact ⟨l, rfl, h2⟩

theorem ArrOK.blk {h : Heap α} {a : UArr} {l p} (ha : ArrOK h a l) (hp : a.ptr = some p) : h.blk p = some l := by
  rcases ha.2 with ⟨_, h2⟩ | ⟨_, q, h2, h3⟩
  · rw [h2] at hp; simp at hp
  · rw [h2] at hp; cases hp; exact h3

theorem ArrOK.frame {h h' : Heap α} {a : UArr} {l} (ha : ArrOK h a l)
    (hf : ∀ p, a.ptr = some p → h'.blk p = h.blk p) : ArrOK h' a l := by
  refine ⟨ha.1, ?_⟩
  rcases ha.2 with h2 | ⟨h1, q, h2, h3⟩
  · exact .inl h2
  · exact .inr ⟨h1, q, h2, by rw [hf q h2, h3]⟩

theorem Rep.replace {s : St α} {c} (r : Rep s c) (x : Nat) (h' : Heap α) (a' : UArr) (l' : List α)
    (hr : Repl s.heap h' ((s.var x).bind UArr.ptr) a' l') :
    Rep ⟨h', setVar s.var x (some a')⟩ (setVar c x (some l')) := by
  have key : ∀ y b p, y ≠ x → s.var y = some b → b.ptr = some p →
      (s.var x).bind UArr.ptr ≠ some p ∧ a'.ptr ≠ some p := by
    intro y b p hy hb hp
    have h1 : (s.var x).bind UArr.ptr ≠ some p := by
      intro e
      cases hx : s.var x with
      | none => simp [hx] at e
      | some a => exact hy (r.inj y x b a p hb hx hp (by simpa [hx] using e))
    refine ⟨h1, fun e => ?_⟩
    rcases hr.own p e with e' | e'
    · exact h1 e'
    · obtain ⟨l, _, hok⟩ := r.ok hb
      rw [hok.blk hp] at e'; simp at e'
  refine ⟨?_, ?_, ?_, ?_, hr.fresh⟩
  · intro y hy
    by_cases e : y = x
    · simp [setVar, e] at hy
    · simp only [setVar, if_neg e] at hy ⊢; exact r.dead y hy
  · intro y l hy
    by_cases e : y = x
    · simp only [setVar, if_pos e, Option.some.injEq] at hy ⊢; subst hy; exact ⟨a', rfl, hr.ok⟩
    · simp only [setVar, if_neg e] at hy ⊢
      obtain ⟨b, h1, h2⟩ := r.livev y l hy
      exact ⟨b, h1, h2.frame fun p hp => hr.frame p (key y b p e h1 hp).1 (key y b p e h1 hp).2⟩
  · intro y z b d p hb hd hbp hdp
    by_cases e : y = x
    · by_cases e' : z = x
      · rw [e, e']
      · simp only [setVar, if_pos e, if_neg e', Option.some.injEq] at hb hd
        subst hb; exact absurd hbp (key z d p e' hd hdp).2
    · by_cases e' : z = x
      · simp only [setVar, if_pos e', if_neg e, Option.some.injEq] at hb hd
        subst hd; exact absurd hdp (key y b p e hb hbp).2
      · simp only [setVar, if_neg e', if_neg e] at hb hd
        exact r.inj y z b d p hb hd hbp hdp
  · intro p hp
    by_cases e1 : a'.ptr = some p
    · exact ⟨x, a', by simp [setVar], e1⟩
    · by_cases e2 : (s.var x).bind UArr.ptr = some p
      · exact absurd (hr.freed p e2 e1) hp
      · simp only at hp
        rw [hr.frame p e2 e1] at hp
        obtain ⟨y, b, h1, h2⟩ := r.noleak p hp
        refine ⟨y, b, ?_, h2⟩
        have : y ≠ x := by rintro rfl; simp [h1, h2] at e2
        simp [setVar, this, h1]

end Ublas.Storage
