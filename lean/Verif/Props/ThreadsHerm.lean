import Verif.Model.ThreadsHerm
import Verif.Spec.ThreadsMirror
import Verif.Props.ThreadsPacked
/-! # C114, C115: threads sharing a hermitian or symmetric matrix, using both names of an element -/
namespace Ublas
namespace Threads
open Packed PackedSpec
variable {R A : Type} {own ro : Loc → Prop}

/-- Access to a matrix whose elements (i, j) and (j, i) share the cell `addr`; `view p` is what name `p` shows of a cell and what it puts there. -/
structure Mirror (nats : Nat → List Nat) (conj : R → R) (valid : Nat × Nat → Prop) (addr : Nat × Nat → Nat) (view : Nat × Nat → R → R) (g : Nat × Nat → Th R R) (s : Nat × Nat → R → Th R Unit) : Prop where
  share : ∀ p q, valid p → valid q → (addr p = addr q ↔ q = p ∨ q = p.swap)
  same : ∀ p x, view p (view p x) = x
  swap : ∀ p x, p ≠ p.swap → valid p → view p.swap (view p x) = conj x
  get : ∀ (own ro : Loc → Prop) (m : TMem R) p x, valid p → m.nat = nats → (∀ a o, own (.nat a o) ∨ ro (.nat a o)) → own (.elt (addr p)) ∨ ro (.elt (addr p)) → m.elt[addr p]? = some x →
    Conf own ro m (g p) (view p x) m
  set : ∀ (own ro : Loc → Prop) (m : TMem R) p v, valid p → m.nat = nats → (∀ a o, own (.nat a o) ∨ ro (.nat a o)) → own (.elt (addr p)) → addr p < m.elt.length →
    Conf own ro m (s p v) () { m with elt := m.elt.set (addr p) (view p v) }

variable {nats : Nat → List Nat} {conj : R → R} {valid : Nat × Nat → Prop} {addr : Nat × Nat → Nat} {view : Nat × Nat → R → R} {g : Nat × Nat → Th R R} {s : Nat × Nat → R → Th R Unit}

theorem Mirror.client (S : Mirror nats conj valid addr view g s) (mine shared : Nat × Nat → Prop) :
    ∀ (c : Client (Nat × Nat) R A) (f : Nat × Nat → R) (m : TMem R), m.nat = nats → (∀ p, valid p → ∃ x, m.elt[addr p]? = some x ∧ view p x = f p) →
      c.KeepsM conj (fun p => valid p ∧ (mine p ∨ shared p)) (fun p => valid p ∧ mine p) f →
      ∃ m', Conf (elems valid addr mine) (common valid addr shared) m (c.prog g s) (c.semM conj f).1 m' ∧ ∀ p, valid p → ∃ x, m'.elt[addr p]? = some x ∧ view p x = (c.semM conj f).2 p := by
  intro c
  induction c with
  | done a => intro f m hn hm _; exact ⟨m, .ret _ _, hm⟩
  | get p k ih =>
    intro f m hn hm hk
    obtain ⟨m', h1, h2⟩ := ih (f p) f m hn hm hk.2
    obtain ⟨x, e1, e2⟩ := hm p hk.1.1
    have := S.get (elems valid addr mine) (common valid addr shared) m p x hk.1.1 hn (fun a o => .inr (.inl ⟨a, o, rfl⟩)) (by
      rcases hk.1.2 with h | h
      · exact .inl ⟨p, hk.1.1, h, rfl⟩
      · exact .inr (.inr ⟨p, hk.1.1, h, rfl⟩)) e1
    rw [e2] at this
    exact ⟨m', this.bind h1, h2⟩
  | set p v k ih =>
    intro f m hn hm hk
    obtain ⟨x, e1, _⟩ := hm p hk.1.1
    have hlt : addr p < m.elt.length := (List.getElem?_eq_some_iff.1 e1).1
    obtain ⟨m', h1, h2⟩ := ih (mirrored conj f p v) { m with elt := m.elt.set (addr p) (view p v) } hn (fun q hq => by
      obtain ⟨y, y1, y2⟩ := hm q hq
      show ∃ x, (m.elt.set (addr p) (view p v))[addr q]? = some x ∧ _
      rw [List.getElem?_set]
      unfold mirrored
      by_cases he : addr p = addr q
      · rw [if_pos he, if_pos hlt]
        rcases (S.share p q hk.1.1 hq).1 he with rfl | rfl
        · exact ⟨_, rfl, by rw [if_pos rfl, S.same]⟩
        · refine ⟨_, rfl, ?_⟩
          by_cases hp : p.swap = p
          · rw [if_pos hp, hp, S.same]
          · rw [if_neg hp, if_pos rfl, S.swap p v (fun e => hp e.symm) hk.1.1]
      · have h3 : ¬ q = p := fun e => he ((S.share p q hk.1.1 hq).2 (.inl e))
        have h4 : ¬ q = p.swap := fun e => he ((S.share p q hk.1.1 hq).2 (.inr e))
        rw [if_neg he, if_neg h3, if_neg h4]
        exact ⟨y, y1, y2⟩) hk.2
    exact ⟨m', (S.set _ _ m p v hk.1.1 hn (fun a o => .inr (.inl ⟨a, o, rfl⟩)) ⟨p, hk.1.1, hk.1.2, rfl⟩ hlt).bind h1, h2⟩

/-- What C115 promises for a matrix with mirrored elements: as `WorkersFine`, with `semM`. -/
def MirrorFine (conj : R → R) (g : Nat × Nat → Th R R) (s : Nat × Nat → R → Th R Unit) (m : TMem R) (valid : Nat × Nat → Prop) (look : List R → Nat × Nat → M R) (f : Nat × Nat → R)
    (mine : Nat → Nat × Nat → Prop) (C : Nat → Client (Nat × Nat) R A) : Prop :=
  ∃ N : Nat → Nat, ∀ sched, ∃ c, execute sched (fun t => (C t).prog g s) m = .ok c ∧ RaceFree c.log ∧
    (∀ t, N t ≤ sched.count t → c.th t = .ret ((C t).semM conj f).1) ∧
    (∀ t b, c.th t = .ret b → b = ((C t).semM conj f).1 ∧ ∀ p, valid p → mine t p → look c.mem.elt p = .ok (((C t).semM conj f).2 p)) ∧
    ∀ p, valid p → (∀ t, ¬ mine t p) → look c.mem.elt p = .ok (f p)

theorem Mirror.workers (S : Mirror nats conj valid addr view g s) (f : Nat × Nat → R) (m : TMem R) (look : List R → Nat × Nat → M R)
    (hl : ∀ d p x, valid p → (look d p = .ok x ↔ ∃ y, d[addr p]? = some y ∧ view p y = x)) (hn : m.nat = nats) (hm : ∀ p, valid p → look m.elt p = .ok (f p))
    (mine : Nat → Nat × Nat → Prop) (shared : Nat × Nat → Prop) (hsw : ∀ t p, mine t p → mine t p.swap) (hd : ∀ t u p, mine t p → mine u p → t = u) (hsh : ∀ t p, mine t p → ¬ shared p)
    (C : Nat → Client (Nat × Nat) R A) (hC : ∀ t, (C t).KeepsM conj (fun p => valid p ∧ (mine t p ∨ shared p)) (fun p => valid p ∧ mine t p) f) : MirrorFine conj g s m valid look f mine C := by
  have hall := fun t => S.client (mine t) shared (C t) f m hn (fun p hp => (hl _ p _ hp).1 (hm p hp)) (hC t)
  choose mf hconf hmf using hall
  have own2 : ∀ t p q, valid p → valid q → mine t p → addr p = addr q → mine t q := by
    intro t p q hp hq h e
    rcases (S.share p q hp hq).1 e with rfl | rfl
    · exact h
    · exact hsw t p h
  have hap : Apart (fun t => elems valid addr (mine t)) (common valid addr shared) := by
    refine ⟨?_, ?_⟩
    · rintro t u l ⟨i, vi, mi, rfl⟩ ⟨j, vj, mj, e⟩
      exact hd t u j (own2 t i j vi vj mi (by simpa using e)) mj
    · rintro t l ⟨i, vi, mi, rfl⟩ (⟨a, o, e⟩ | ⟨j, vj, sj, e⟩)
      · cases e
      · exact hsh t j (own2 t i j vi vj mi (by simpa using e)) sj
  obtain ⟨N, hN⟩ := execute_ok hap hconf
  refine ⟨N, fun sched => ?_⟩
  obtain ⟨c, e, hr, h1, h2, h3⟩ := hN sched
  refine ⟨c, e, hr, h1, fun t b hb => ⟨(h2 t b hb).1, fun p vp mp => ?_⟩, fun p vp hp => ?_⟩
  · obtain ⟨x, x1, x2⟩ := hmf t p vp
    exact (hl _ p _ vp).2 ⟨x, peek_elt.1 (((h2 t b hb).2 (.elt (addr p)) ⟨p, vp, mp, rfl⟩).trans (peek_elt.2 x1)), x2⟩
  · obtain ⟨x, x1, x2⟩ := (hl _ p _ vp).1 (hm p vp)
    refine (hl _ p _ vp).2 ⟨x, peek_elt.1 ((h3 (.elt (addr p)) ?_).trans (peek_elt.2 x1)), x2⟩
    rintro t ⟨j, vj, mj, e⟩
    have e' : addr p = addr j := by simpa using e
    exact hp t (own2 t j p vj vp mj e'.symm)

/-! ## symmetric_matrix -/

theorem symAddr_swap (t : Tri) (ht : t.kind = .lower) (o : Orient) (n : Nat) (p : Nat × Nat) : symAddr t o n p.swap = symAddr t o n p := by
  unfold symAddr
  obtain ⟨i, j⟩ := p
  obtain ⟨k, u⟩ := t
  simp only at ht; subst ht
  by_cases h1 : other ⟨.lower, u⟩ i j = true <;> by_cases h2 : other ⟨.lower, u⟩ j i = true
  · have : i = j := by rw [other_iff] at h1 h2; cases u <;> simp only [Mutable] at h1 h2 <;> omega
    subst this; rfl
  · simp [h1, h2]
  · simp [h1, h2]
  · exfalso; rw [other_iff] at h1 h2; cases u <;> simp only [Mutable] at h1 h2 <;> omega

theorem symMirror (dbg : Bool) (t : Tri) (ht : t.kind = .lower) (o : Orient) (m : SMat R) :
    Mirror (symMem m).nat (id : R → R) (fun p => p.1 < m.size ∧ p.2 < m.size) (symAddr t o m.size) (fun _ => id) (fun p => symGetT dbg t o p.1 p.2) (fun p => symSetT dbg t o p.1 p.2) where
  share := fun p q hp hq => ⟨fun e => by
      rcases symAddr_inj ht hp hq e with h | h
      · exact .inl h.symm
      · exact .inr (by rw [h, Prod.swap_swap]), fun h => by
      rcases h with rfl | rfl
      · rfl
      · exact (symAddr_swap t ht o m.size p).symm⟩
  same := fun _ _ => rfl
  swap := fun _ _ _ _ => rfl
  get := fun own ro m' p v hp hn hnat hc hv => (symCellT_ok ht (by rw [hn]; rfl) hnat hp.1 hp.2).bind (Conf.rR hc hv)
  set := fun own ro m' p v hp hn hnat hc hv => (symCellT_ok ht (by rw [hn]; rfl) hnat hp.1 hp.2).bind (Conf.wR hc hv)

/-- **C115**, symmetric matrix: threads that own elements under both their names — (i, j) and (j, i) —, use either name at will, and read elements nobody writes.  Missing: threads that own different
names of one element (`C115_symmetric_refuted`). -/
theorem C115_symmetric_names_partial (dbg : Bool) (t : Tri) (ht : t.kind = .lower) (o : Orient) (m : SMat R) (f : Nat × Nat → R) (hf : ∀ i j, i < m.size → j < m.size → m.get dbg t o i j = .ok (f (i, j)))
    (mine : Nat → Nat × Nat → Prop) (shared : Nat × Nat → Prop) (hsw : ∀ t p, mine t p → mine t p.swap) (hd : ∀ t u p, mine t p → mine u p → t = u) (hsh : ∀ t p, mine t p → ¬ shared p)
    (C : Nat → Client (Nat × Nat) R A)
    (hC : ∀ k, (C k).KeepsM id (fun p => (p.1 < m.size ∧ p.2 < m.size) ∧ (mine k p ∨ shared p)) (fun p => (p.1 < m.size ∧ p.2 < m.size) ∧ mine k p) f) :
    MirrorFine id (fun p => symGetT dbg t o p.1 p.2) (fun p => symSetT dbg t o p.1 p.2) (symMem m) (fun p => p.1 < m.size ∧ p.2 < m.size)
      (fun d p => (⟨m.size, d⟩ : SMat R).get dbg t o p.1 p.2) f mine C :=
  (symMirror dbg t ht o m).workers f (symMem m) _ (fun d p x hp => by simp [symLook ht d p x hp]) rfl (fun p hp => hf p.1 p.2 hp.1 hp.2) mine shared hsw hd hsh C hC

/-! ## hermitian_matrix -/

theorem hermCellT_ok {m : TMem R} {n : Nat} {dbg : Bool} {t : Tri} {o : Orient} (ht : t.kind = .lower) (h0 : m.nat 0 = [n]) (hc : ∀ arr off, own (.nat arr off) ∨ ro (.nat arr off)) {i j : Nat}
    (hi : i < n) (hj : j < n) : Conf own ro m (hermCellT dbg t o i j) (symAddr t o n (i, j)) m := by
  have hf : Fit dbg t n n := fit_of dbg t _ _ fun _ => .inl ht
  unfold hermCellT
  refine (Conf.rN (v := n) (hc _ _) (by rw [h0]; rfl)).bind ((Conf.rN (v := n) (hc _ _) (by rw [h0]; rfl)).bind (localT_ok ?_))
  unfold symAddr
  by_cases h : other t i j = true
  · rw [if_pos h, if_pos h]; exact element_eq hf hi hj h
  · rw [if_neg h, if_neg h]
    refine element_eq hf hj hi ?_
    rw [other_iff] at h ⊢
    obtain ⟨k, u⟩ := t
    simp only at ht; subst ht
    cases u <;> simp only [Mutable] at h ⊢ <;> omega

/-- What name `p` shows of its cell. -/
def hermView (conj : R → R) (t : Tri) (p : Nat × Nat) (x : R) : R := if other t p.1 p.2 then x else conj x

theorem hermMirror (conj : R → R) (hconj : ∀ x, conj (conj x) = x) (dbg : Bool) (t : Tri) (ht : t.kind = .lower) (o : Orient) (m : SMat R) :
    Mirror (hermMem m).nat conj (fun p => p.1 < m.size ∧ p.2 < m.size) (symAddr t o m.size) (hermView conj t) (fun p => hermGetT conj dbg t o p.1 p.2) (fun p => hermSetT conj dbg t o p.1 p.2) where
  share := (symMirror (R := R) dbg t ht o m).share
  same := fun p x => by unfold hermView; by_cases h : other t p.1 p.2 = true <;> simp [h, hconj]
  swap := fun p x hp _ => by
    unfold hermView
    obtain ⟨i, j⟩ := p
    obtain ⟨k, u⟩ := t
    simp only at ht; subst ht
    have hne : i ≠ j := fun e => hp (by subst e; rfl)
    simp only [Prod.swap_prod_mk]
    by_cases h1 : other ⟨.lower, u⟩ i j = true <;> by_cases h2 : other ⟨.lower, u⟩ j i = true
    · exfalso; rw [other_iff] at h1 h2; cases u <;> simp only [Mutable] at h1 h2 <;> omega
    · simp [h1, h2]
    · simp [h1, h2]
    · exfalso; rw [other_iff] at h1 h2; cases u <;> simp only [Mutable] at h1 h2 <;> omega
  get := fun own ro m' p x hp hn hnat hc hv => by
    have n0 : m'.nat 0 = [m.size] := by rw [hn]; rfl
    unfold hermGetT
    exact (Conf.rN (v := m.size) (hnat _ _) (by rw [n0]; rfl)).bind ((Conf.chk hp.1).bind ((Conf.rN (v := m.size) (hnat _ _) (by rw [n0]; rfl)).bind ((Conf.chk hp.2).bind
      ((hermCellT_ok ht n0 hnat hp.1 hp.2).bind ((Conf.rR hc hv).bind (.ret _ _))))))
  set := fun own ro m' p v hp hn hnat hc hv => by
    have n0 : m'.nat 0 = [m.size] := by rw [hn]; rfl
    unfold hermSetT hermInsertT
    refine (hermCellT_ok ht n0 hnat hp.1 hp.2).bind ((Conf.rR (.inl hc) (List.getElem?_eq_getElem hv)).bind ?_)
    exact (Conf.rN (v := m.size) (hnat _ _) (by rw [n0]; rfl)).bind ((Conf.chk hp.1).bind ((Conf.rN (v := m.size) (hnat _ _) (by rw [n0]; rfl)).bind ((Conf.chk hp.2).bind
      ((hermCellT_ok ht n0 hnat hp.1 hp.2).bind (Conf.wR hc hv)))))

theorem hermLook {conj : R → R} {dbg : Bool} {t : Tri} (ht : t.kind = .lower) {o : Orient} {m : SMat R} (d : List R) (p : Nat × Nat) (x : R) (hp : p.1 < m.size ∧ p.2 < m.size) :
    (⟨m.size, d⟩ : SMat R).hget conj dbg t o p.1 p.2 = .ok x ↔ ∃ y, d[symAddr t o m.size p]? = some y ∧ hermView conj t p y = x := by
  have hf : Fit dbg t m.size m.size := fit_of dbg t _ _ fun _ => .inl ht
  unfold SMat.hget symAddr hermView
  simp only
  rw [check_true hp.1, bind_ok, check_true hp.2, bind_ok]
  by_cases h : other t p.1 p.2 = true
  · simp only [if_pos h, element_eq hf hp.1 hp.2 h, bind_ok, rd_eq_ok, exists_eq_right]
  · have h' : other t p.2 p.1 = true := by
      rw [other_iff] at h ⊢
      obtain ⟨k, u⟩ := t
      simp only at ht; subst ht
      cases u <;> simp only [Mutable] at h ⊢ <;> omega
    simp only [if_neg h, element_eq hf hp.2 hp.1 h', bind_ok]
    generalize hk : cellOf t o p.2 m.size p.1 m.size = k
    cases e : rd dbg d k with
    | error f =>
      constructor
      · intro h; cases h
      · rintro ⟨y, y1, _⟩
        rw [rd_eq_ok.2 y1] at e; cases e
    | ok y =>
      rw [rd_eq_ok] at e
      rw [e]
      simp [bind_ok, pure_eq_ok]

/-- **C115**, hermitian matrix (`conj` any involution; elements assigned through the proxies of the default configuration): threads that own elements under both their names, use either name at will,
and read elements nobody writes.  Missing: threads that own different names of one element (`C115_hermitian_refuted`). -/
theorem C115_hermitian_partial (conj : R → R) (hconj : ∀ x, conj (conj x) = x) (dbg : Bool) (t : Tri) (ht : t.kind = .lower) (o : Orient) (m : SMat R) (f : Nat × Nat → R)
    (hf : ∀ i j, i < m.size → j < m.size → m.hget conj dbg t o i j = .ok (f (i, j)))
    (mine : Nat → Nat × Nat → Prop) (shared : Nat × Nat → Prop) (hsw : ∀ t p, mine t p → mine t p.swap) (hd : ∀ t u p, mine t p → mine u p → t = u) (hsh : ∀ t p, mine t p → ¬ shared p)
    (C : Nat → Client (Nat × Nat) R A)
    (hC : ∀ k, (C k).KeepsM conj (fun p => (p.1 < m.size ∧ p.2 < m.size) ∧ (mine k p ∨ shared p)) (fun p => (p.1 < m.size ∧ p.2 < m.size) ∧ mine k p) f) :
    MirrorFine conj (fun p => hermGetT conj dbg t o p.1 p.2) (fun p => hermSetT conj dbg t o p.1 p.2) (hermMem m) (fun p => p.1 < m.size ∧ p.2 < m.size)
      (fun d p => (⟨m.size, d⟩ : SMat R).hget conj dbg t o p.1 p.2) f mine C :=
  (hermMirror conj hconj dbg t ht o m).workers f (hermMem m) _ (fun d p x hp => hermLook ht d p x hp) rfl (fun p hp => hf p.1 p.2 hp.1 hp.2) mine shared hsw hd hsh C hC

/-- **C114**, hermitian matrix: any number of reading threads, under both names. -/
theorem C114_hermitian (conj : R → R) (hconj : ∀ x, conj (conj x) = x) (dbg : Bool) (t : Tri) (ht : t.kind = .lower) (o : Orient) (m : SMat R) (f : Nat × Nat → R)
    (hf : ∀ i j, i < m.size → j < m.size → m.hget conj dbg t o i j = .ok (f (i, j))) (C : Nat → Client (Nat × Nat) R A) (w : Nat × Nat → R → Th R Unit)
    (hC : ∀ k, (C k).Keeps (fun p => p.1 < m.size ∧ p.2 < m.size) (fun _ => False) f) :
    ReadersFine (fun k => (C k).prog (fun p => hermGetT conj dbg t o p.1 p.2) w) (hermMem m) (fun k => ((C k).sem f).1) :=
  readers (fun p hp => by
    obtain ⟨y, y1, y2⟩ := (hermLook ht m.data p (f p) hp).1 (hf p.1 p.2 hp.1 hp.2)
    rw [← y2]
    exact (hermMirror conj hconj dbg t ht o m).get _ _ (hermMem m) p y hp rfl (fun _ _ => .inr trivial) (.inr trivial) y1) C hC

/-- **C115** refuted for hermitian matrices: one thread assigns to element (1, 0), another to (0, 1); they race for the one cell (here conjugation is negation), and the first finds its element changed
after both have finished. -/
theorem C115_hermitian_refuted : ∃ sched c, execute sched (fun t =>
      if t = 0 then (Client.set (1, 0) 5 (.done 0) : Client (Nat × Nat) Int Nat).prog (fun p => hermGetT (- ·) true ⟨.lower, false⟩ .row p.1 p.2) (fun p => hermSetT (- ·) true ⟨.lower, false⟩ .row p.1 p.2)
      else if t = 1 then (Client.set (0, 1) 7 (.done 0) : Client (Nat × Nat) Int Nat).prog (fun p => hermGetT (- ·) true ⟨.lower, false⟩ .row p.1 p.2) (fun p => hermSetT (- ·) true ⟨.lower, false⟩ .row p.1 p.2)
      else .ret 0) (hermMem (⟨2, [1, 2, 3]⟩ : SMat Int)) = .ok c ∧
    c.th 0 = .ret 0 ∧ c.th 1 = .ret 0 ∧ (⟨2, c.mem.elt⟩ : SMat Int).hget (- ·) true ⟨.lower, false⟩ .row 1 0 = .ok (-7) ∧ ¬ RaceFree c.log := by
  refine ⟨List.replicate 12 0 ++ List.replicate 12 1, _, rfl, rfl, rfl, rfl, fun h => ?_⟩
  have := h ⟨0, .elt 1, true⟩ (by decide) ⟨1, .elt 1, true⟩ (by decide) (by decide) rfl
  exact absurd this.1 (by decide)

/-- Two threads, interleaved: thread 0 owns (1, 0) and (0, 1) and uses both names, thread 1 owns the diagonal element (1, 1) and reads (0, 0), which nobody writes. -/
example : ∃ c, execute ((List.range 70).map (· % 2)) (fun t => if t = 0 then (Client.set (0, 1) 5 (.get (1, 0) fun x => .set (1, 0) (x + 10) (.get (0, 1) fun y => .done (x, y))) : Client (Nat × Nat) Int (Int × Int)).prog
      (fun p => hermGetT (- ·) true ⟨.lower, false⟩ .row p.1 p.2) (fun p => hermSetT (- ·) true ⟨.lower, false⟩ .row p.1 p.2)
    else if t = 1 then (Client.get (0, 0) fun x => .set (1, 1) (x + 1) (.done (x, x)) : Client (Nat × Nat) Int (Int × Int)).prog
      (fun p => hermGetT (- ·) true ⟨.lower, false⟩ .row p.1 p.2) (fun p => hermSetT (- ·) true ⟨.lower, false⟩ .row p.1 p.2) else .ret (0, 0)) (hermMem (⟨2, [1, 2, 3]⟩ : SMat Int)) = .ok c ∧
    c.th 0 = .ret (-5, -5) ∧ c.th 1 = .ret (1, 1) ∧ c.mem.elt = [1, 5, 2] := ⟨_, rfl, rfl, rfl, rfl⟩

end Threads
end Ublas
