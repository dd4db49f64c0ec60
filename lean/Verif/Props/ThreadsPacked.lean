import Verif.Model.ThreadsPacked
import Verif.Props.Threads
import Verif.Props.Packed
import Verif.Props.Banded
/-! # C114, C115: threads sharing a vector or a matrix with packed storage -/
namespace Ublas
namespace Threads
open Packed PackedSpec BandSpec
variable {ι R A : Type} [DecidableEq ι] {own ro : Loc → Prop}

/-- What C115 promises: threads doing `C t` with element access `g`, `s` on the memory `m`; elements are `valid`, `look` reads one from the elements in memory after the threads have stopped. -/
def WorkersFine (g : ι → Th R R) (s : ι → R → Th R Unit) (m : TMem R) (valid : ι → Prop) (look : List R → ι → M R) (f : ι → R) (mine : Nat → ι → Prop) (C : Nat → Client ι R A) : Prop :=
  ∃ N : Nat → Nat, ∀ sched, ∃ c, execute sched (fun t => (C t).prog g s) m = .ok c ∧ RaceFree c.log ∧
    (∀ t, N t ≤ sched.count t → c.th t = .ret ((C t).sem f).1) ∧
    (∀ t b, c.th t = .ret b → b = ((C t).sem f).1 ∧ ∀ i, valid i → mine t i → look c.mem.elt i = .ok (((C t).sem f).2 i)) ∧
    ∀ i, valid i → (∀ t, ¬ mine t i) → look c.mem.elt i = .ok (f i)

theorem Store.workers {nats : Nat → List Nat} {valid : ι → Prop} {addr : ι → Nat} {g : ι → Th R R} {s : ι → R → Th R Unit} {free : ι → Prop} {fv : ι → R}
    (S : Store nats valid addr g s free fv) (f : ι → R) (m : TMem R) (look : List R → ι → M R) (hl : ∀ d i x, valid i → (look d i = .ok x ↔ d[addr i]? = some x))
    (hn : m.nat = nats) (hm : ∀ i, valid i → look m.elt i = .ok (f i)) (hf : ∀ i, free i → f i = fv i) (mine : Nat → ι → Prop) (shared : ι → Prop)
    (hd : ∀ t u i, mine t i → mine u i → t = u) (hs : ∀ t i, mine t i → ¬ shared i) (C : Nat → Client ι R A)
    (hC : ∀ t, (C t).Keeps (fun i => (valid i ∧ (mine t i ∨ shared i)) ∨ free i) (fun i => valid i ∧ mine t i) f) : WorkersFine g s m valid look f mine C := by
  obtain ⟨N, hN⟩ := S.threads f m hn (fun i hi => (hl _ i _ hi).1 (hm i hi)) hf mine shared hd hs C hC
  refine ⟨N, fun sched => ?_⟩
  obtain ⟨c, e, hr, _, h1, h2, h3⟩ := hN sched
  exact ⟨c, e, hr, h1, fun t b hb => ⟨(h2 t b hb).1, fun i vi mi => (hl _ i _ vi).2 ((h2 t b hb).2 i vi mi)⟩, fun i vi hi => (hl _ i _ vi).2 (h3 i vi hi)⟩

/-- Readers are fine on any `Store`. -/
theorem Store.readers {nats : Nat → List Nat} {valid : ι → Prop} {addr : ι → Nat} {g : ι → Th R R} {s : ι → R → Th R Unit} {free : ι → Prop} {fv : ι → R}
    (S : Store nats valid addr g s free fv) (f : ι → R) (m : TMem R) (w : ι → R → Th R Unit) (look : List R → ι → M R) (hl : ∀ d i x, valid i → (look d i = .ok x ↔ d[addr i]? = some x))
    (hn : m.nat = nats) (hm : ∀ i, valid i → look m.elt i = .ok (f i)) (hf : ∀ i, free i → f i = fv i) (C : Nat → Client ι R A)
    (hC : ∀ t, (C t).Keeps (fun i => valid i ∨ free i) (fun _ => False) f) : ReadersFine (fun t => (C t).prog g w) m (fun t => ((C t).sem f).1) := by
  refine Threads.readers (fun i hi => ?_) C hC
  rcases hi with hi | hi
  · exact S.get _ _ m i (f i) hi hn (fun _ _ => .inr trivial) (.inr trivial) ((hl _ i _ hi).1 (hm i hi))
  · have := S.const noLoc allLoc m i hi hn (fun _ _ => .inr trivial)
    rwa [← hf i hi] at this

theorem localT_ok {m : TMem R} {x : M A} {a : A} (h : x = .ok a) : Conf own ro m (localT x : Th R A) a m := by subst h; exact .ret _ _

/-! ## vector -/

theorem vecStore (dbg : Bool) (v : List R) (f : Nat → R) : Store (R := R) (vecMem v).nat (· < v.length) id (vecGetT dbg) (vecSetT dbg) (fun _ => False) f where
  apart := fun _ h => h.elim
  const := fun _ _ _ _ h => h.elim
  inj := fun _ _ _ _ h => h
  get := fun _ _ _ _ _ _ _ _ hc hv => Conf.rR hc hv
  set := fun _ _ _ _ _ _ _ _ hc hv => Conf.wR hc hv

/-- **C115**, vector: threads that each write only elements of their own and read those and elements nobody writes can run in any order. -/
theorem C115_vector (dbg : Bool) (v : List R) (f : Nat → R) (hf : ∀ i, i < v.length → rd dbg v i = .ok (f i)) (mine : Nat → Nat → Prop) (shared : Nat → Prop)
    (hd : ∀ t u i, mine t i → mine u i → t = u) (hs : ∀ t i, mine t i → ¬ shared i) (C : Nat → Client Nat R A)
    (hC : ∀ t, (C t).Keeps (fun i => i < v.length ∧ (mine t i ∨ shared i)) (fun i => i < v.length ∧ mine t i) f) :
    WorkersFine (vecGetT dbg) (vecSetT dbg) (vecMem v) (· < v.length) (rd dbg) f mine C :=
  (vecStore dbg v f).workers f (vecMem v) (rd dbg) (fun _ _ _ _ => rd_eq_ok) rfl hf (fun _ h => h.elim) mine shared hd hs C (fun t => (hC t).mono (fun _ h => .inl h))

/-- **C114**, vector. -/
theorem C114_vector (dbg : Bool) (v : List R) (f : Nat → R) (hf : ∀ i, i < v.length → rd dbg v i = .ok (f i)) (C : Nat → Client Nat R A) (w : Nat → R → Th R Unit)
    (hC : ∀ t, (C t).Keeps (· < v.length) (fun _ => False) f) : ReadersFine (fun t => (C t).prog (vecGetT dbg) w) (vecMem v) (fun t => ((C t).sem f).1) :=
  (vecStore dbg v f).readers f (vecMem v) w (rd dbg) (fun _ _ _ _ => rd_eq_ok) rfl hf (fun _ h => h.elim) C (fun t => (hC t).mono (fun _ h => .inl h))

/-! ## triangular_matrix -/

/-- An element of an r x c matrix that can be written. -/
def TriValid (t : Tri) (r c : Nat) (p : Nat × Nat) : Prop := p.1 < r ∧ p.2 < c ∧ Mutable t p.1 p.2
/-- An element that cannot: always zero or one. -/
def TriFixed (t : Tri) (r c : Nat) (p : Nat × Nat) : Prop := p.1 < r ∧ p.2 < c ∧ ¬ Mutable t p.1 p.2

theorem triStore [Zero R] [One R] (dbg : Bool) (t : Tri) (o : Orient) (m : TMat R) (hs : ShapeOk dbg t m.size1 m.size2) :
    Store (R := R) (triMem m).nat (TriValid t m.size1 m.size2) (fun p => cellOf t o p.1 m.size1 p.2 m.size2) (fun p => triGetT dbg t o p.1 p.2) (fun p => triSetT dbg t o p.1 p.2)
      (TriFixed t m.size1 m.size2) (fun p => fixedValue t p.1 p.2) := by
  have hf := fit_of dbg t _ _ hs
  have n0 : ∀ {m' : TMem R}, m'.nat = (triMem m).nat → m'.nat 0 = [m.size1, m.size2] := fun h => by rw [h]; rfl
  refine ⟨fun p h h' => h.2.2 h'.2.2, ?_, ?_, ?_, ?_⟩
  · intro own ro m' p ⟨h1, h2, h3⟩ hn hc
    have h3' : ¬ other t p.1 p.2 = true := by rwa [other_iff]
    unfold triGetT
    refine (Conf.rN (v := m.size1) (hc _ _) (by rw [n0 hn]; rfl)).bind ((Conf.chk h1).bind ((Conf.rN (v := m.size2) (hc _ _) (by rw [n0 hn]; rfl)).bind ((Conf.chk h2).bind ?_)))
    rw [if_neg h3']
    obtain ⟨k, u⟩ := t
    unfold fixedValue
    by_cases hk : k = .unit ∧ p.1 = p.2
    · have : one ⟨k, u⟩ p.1 p.2 = true := by obtain ⟨rfl, e⟩ := hk; cases u <;> simp [one, lone, e]
      rw [if_pos this, if_pos hk]; exact .ret _ _
    · have : ¬ one ⟨k, u⟩ p.1 p.2 = true := by
        cases k <;> cases u <;> simp [one, lone] <;> intro e <;> apply hk <;> simp [e]
      rw [if_neg this, if_neg hk]; exact .ret _ _
  · intro p q hp hq e
    obtain ⟨e1, e2⟩ := cellOf_inj hp.1 hp.2.1 ((other_iff t _ _).2 hp.2.2) hq.1 hq.2.1 ((other_iff t _ _).2 hq.2.2) e
    exact Prod.ext e1 e2
  · intro own ro m' p v ⟨h1, h2, h3⟩ hn hc ha hv
    unfold triGetT
    refine (Conf.rN (v := m.size1) (hc _ _) (by rw [n0 hn]; rfl)).bind ((Conf.chk h1).bind ((Conf.rN (v := m.size2) (hc _ _) (by rw [n0 hn]; rfl)).bind ((Conf.chk h2).bind ?_)))
    rw [if_pos ((other_iff t _ _).2 h3)]
    exact (Conf.rN (v := m.size1) (hc _ _) (by rw [n0 hn]; rfl)).bind ((Conf.rN (v := m.size2) (hc _ _) (by rw [n0 hn]; rfl)).bind
      ((localT_ok (element_eq hf h1 h2 ((other_iff t _ _).2 h3))).bind (Conf.rR ha hv)))
  · intro own ro m' p v ⟨h1, h2, h3⟩ hn hc ha hv
    unfold triSetT
    refine (Conf.rN (v := m.size1) (hc _ _) (by rw [n0 hn]; rfl)).bind ((Conf.chk h1).bind ((Conf.rN (v := m.size2) (hc _ _) (by rw [n0 hn]; rfl)).bind ((Conf.chk h2).bind ?_)))
    rw [if_neg (not_not.2 ((other_iff t _ _).2 h3))]
    exact (Conf.rN (v := m.size1) (hc _ _) (by rw [n0 hn]; rfl)).bind ((Conf.rN (v := m.size2) (hc _ _) (by rw [n0 hn]; rfl)).bind
      ((localT_ok (element_eq hf h1 h2 ((other_iff t _ _).2 h3))).bind (Conf.wR ha hv)))

theorem triLook [Zero R] [One R] {dbg : Bool} {t : Tri} {o : Orient} {m : TMat R} (hs : ShapeOk dbg t m.size1 m.size2) (d : List R) (p : Nat × Nat) (x : R)
    (hp : TriValid t m.size1 m.size2 p) : (⟨m.size1, m.size2, d⟩ : TMat R).get dbg t o p.1 p.2 = .ok x ↔ d[cellOf t o p.1 m.size1 p.2 m.size2]? = some x := by
  rw [tget_eq (m := ⟨m.size1, m.size2, d⟩) (fit_of dbg t _ _ hs) hp.1 hp.2.1 hp.2.2, rd_eq_ok]

theorem triFree [Zero R] [One R] {dbg : Bool} {t : Tri} {o : Orient} {m : TMat R} {f : Nat × Nat → R} (hf : ∀ i j, i < m.size1 → j < m.size2 → m.get dbg t o i j = .ok (f (i, j)))
    (p : Nat × Nat) (hp : TriFixed t m.size1 m.size2 p) : f p = fixedValue t p.1 p.2 := by
  have := hf p.1 p.2 hp.1 hp.2.1
  rw [tget_fixed hp.1 hp.2.1 hp.2.2] at this
  simpa using this.symm

/-- **C115**, triangular matrix (`f`: its elements as `m (i, j)` reads them): threads that each write only elements of their own — where elements can be written — and read those, elements nobody
writes and the fixed zeros and ones. -/
theorem C115_triangular [Zero R] [One R] (dbg : Bool) (t : Tri) (o : Orient) (m : TMat R) (hs : ShapeOk dbg t m.size1 m.size2) (f : Nat × Nat → R)
    (hf : ∀ i j, i < m.size1 → j < m.size2 → m.get dbg t o i j = .ok (f (i, j)))
    (mine : Nat → Nat × Nat → Prop) (shared : Nat × Nat → Prop) (hd : ∀ t u p, mine t p → mine u p → t = u) (hsh : ∀ t p, mine t p → ¬ shared p) (C : Nat → Client (Nat × Nat) R A)
    (hC : ∀ k, (C k).Keeps (fun p => (p.1 < m.size1 ∧ p.2 < m.size2) ∧ (¬ Mutable t p.1 p.2 ∨ mine k p ∨ shared p)) (fun p => (p.1 < m.size1 ∧ p.2 < m.size2) ∧ Mutable t p.1 p.2 ∧ mine k p) f) :
    WorkersFine (fun p => triGetT dbg t o p.1 p.2) (fun p => triSetT dbg t o p.1 p.2) (triMem m) (fun p => p.1 < m.size1 ∧ p.2 < m.size2 ∧ Mutable t p.1 p.2)
      (fun d p => (⟨m.size1, m.size2, d⟩ : TMat R).get dbg t o p.1 p.2) f mine C := by
  refine (triStore dbg t o m hs).workers f (triMem m) _ (fun d p x hp => triLook hs d p x hp) rfl (fun p hp => hf p.1 p.2 hp.1 hp.2.1) (triFree hf) mine shared hd hsh C (fun k => ?_)
  refine ((hC k).mono (rd' := fun p => (TriValid t m.size1 m.size2 p ∧ (mine k p ∨ shared p)) ∨ TriFixed t m.size1 m.size2 p) fun p h => ?_).monoW fun p h => ⟨⟨h.1.1, h.1.2, h.2.1⟩, h.2.2⟩
  by_cases hm : Mutable t p.1 p.2
  · exact .inl ⟨⟨h.1.1, h.1.2, hm⟩, h.2.resolve_left fun h' => h' hm⟩
  · exact .inr ⟨h.1.1, h.1.2, hm⟩

/-- **C114**, triangular matrix: any number of reading threads. -/
theorem C114_triangular [Zero R] [One R] (dbg : Bool) (t : Tri) (o : Orient) (m : TMat R) (hs : ShapeOk dbg t m.size1 m.size2) (f : Nat × Nat → R)
    (hf : ∀ i j, i < m.size1 → j < m.size2 → m.get dbg t o i j = .ok (f (i, j))) (C : Nat → Client (Nat × Nat) R A) (w : Nat × Nat → R → Th R Unit)
    (hC : ∀ k, (C k).Keeps (fun p => p.1 < m.size1 ∧ p.2 < m.size2) (fun _ => False) f) :
    ReadersFine (fun k => (C k).prog (fun p => triGetT dbg t o p.1 p.2) w) (triMem m) (fun k => ((C k).sem f).1) :=
  (triStore dbg t o m hs).readers f (triMem m) w _ (fun d p x hp => triLook hs d p x hp) rfl (fun p hp => hf p.1 p.2 hp.1 hp.2.1) (triFree hf) C
    fun k => (hC k).mono fun p h => by by_cases hm : Mutable t p.1 p.2 <;> [exact .inl ⟨h.1, h.2, hm⟩; exact .inr ⟨h.1, h.2, hm⟩]

/-! ## banded_matrix -/

theorem inBandT_ok {m : TMem R} {B : BMat R} (h0 : m.nat 0 = [B.size1, B.size2, B.lower, B.upper]) (hc : ∀ arr off, own (.nat arr off) ∨ ro (.nat arr off)) (i j : Nat) :
    Conf own ro m (inBandT i j : Th R Bool) (B.inBand i j) m := by
  unfold inBandT
  refine (Conf.rN (v := B.upper) (hc _ _) (by rw [h0]; rfl)).bind ?_
  split
  · have : B.inBand i j = false := by simp [BMat.inBand]; omega
    rw [this]; exact .ret _ _
  · refine (Conf.rN (v := B.lower) (hc _ _) (by rw [h0]; rfl)).bind ?_
    have : B.inBand i j = decide (i ≤ j + B.lower) := by
      by_cases h : i ≤ j + B.lower <;> simp [BMat.inBand, h]; omega
    rw [this]; exact .ret _ _

theorem bandCellT_ok {m : TMem R} {B : BMat R} {dbg : Bool} {o : Orient} (h0 : m.nat 0 = [B.size1, B.size2, B.lower, B.upper]) (hc : ∀ arr off, own (.nat arr off) ∨ ro (.nat arr off)) {i j : Nat}
    (hi : i < B.size1) (hj : j < B.size2) (h : InBand B.lower B.upper i j) : Conf own ro m (bandCellT dbg o i j : Th R Nat) (bcell o B.lower B.upper i j) m := by
  unfold bandCellT
  exact (Conf.rN (v := B.size1) (hc _ _) (by rw [h0]; rfl)).bind ((Conf.rN (v := B.size2) (hc _ _) (by rw [h0]; rfl)).bind ((Conf.rN (v := B.lower) (hc _ _) (by rw [h0]; rfl)).bind
    ((Conf.rN (v := B.upper) (hc _ _) (by rw [h0]; rfl)).bind (localT_ok (bidx_eq (m := ⟨B.size1, B.size2, B.lower, B.upper, []⟩) hi hj h)))))

theorem bandStore [Zero R] (dbg : Bool) (o : Orient) (B : BMat R) :
    Store (R := R) (bandMem B).nat (fun p : Nat × Nat => p.1 < B.size1 ∧ p.2 < B.size2 ∧ InBand B.lower B.upper p.1 p.2) (fun p : Nat × Nat => bcell o B.lower B.upper p.1 p.2) (fun p : Nat × Nat => bandGetT dbg o p.1 p.2)
      (fun p : Nat × Nat => bandSetT dbg o p.1 p.2) (fun p : Nat × Nat => p.1 < B.size1 ∧ p.2 < B.size2 ∧ ¬ InBand B.lower B.upper p.1 p.2) (fun _ : Nat × Nat => 0) := by
  have n0 : ∀ {m' : TMem R}, m'.nat = (bandMem B).nat → m'.nat 0 = [B.size1, B.size2, B.lower, B.upper] := fun h => by rw [h]; rfl
  refine ⟨fun p h h' => h.2.2 h'.2.2, ?_, ?_, ?_, ?_⟩
  · intro own ro m' p ⟨h1, h2, h3⟩ hn hc
    unfold bandGetT
    refine (Conf.rN (v := B.size1) (hc _ _) (by rw [n0 hn]; rfl)).bind ((Conf.chk h1).bind ((Conf.rN (v := B.size2) (hc _ _) (by rw [n0 hn]; rfl)).bind ((Conf.chk h2).bind ?_)))
    refine (inBandT_ok (n0 hn) hc p.1 p.2).bind ?_
    rw [if_neg (by rwa [inBand_iff])]
    exact .ret _ _
  · intro p q hp hq e
    obtain ⟨e1, e2⟩ := bcell_inj hp.2.2 hq.2.2 e
    exact Prod.ext e1 e2
  · intro own ro m' p v ⟨h1, h2, h3⟩ hn hc ha hv
    unfold bandGetT
    refine (Conf.rN (v := B.size1) (hc _ _) (by rw [n0 hn]; rfl)).bind ((Conf.chk h1).bind ((Conf.rN (v := B.size2) (hc _ _) (by rw [n0 hn]; rfl)).bind ((Conf.chk h2).bind ?_)))
    refine (inBandT_ok (n0 hn) hc p.1 p.2).bind ?_
    rw [if_pos ((inBand_iff B _ _).2 h3)]
    exact (bandCellT_ok (n0 hn) hc h1 h2 h3).bind (Conf.rR ha hv)
  · intro own ro m' p v ⟨h1, h2, h3⟩ hn hc ha hv
    unfold bandSetT
    refine (Conf.rN (v := B.size1) (hc _ _) (by rw [n0 hn]; rfl)).bind ((Conf.chk h1).bind ((Conf.rN (v := B.size2) (hc _ _) (by rw [n0 hn]; rfl)).bind ((Conf.chk h2).bind ?_)))
    refine Conf.bind (m1 := m') (a := true) ?_ ((Conf.chk (p := true = true) rfl).bind ((bandCellT_ok (n0 hn) hc h1 h2 h3).bind (Conf.wR ha hv)))
    cases dbg
    · exact .ret _ _
    · have := inBandT_ok (own := own) (ro := ro) (n0 hn) hc p.1 p.2
      rwa [(inBand_iff B _ _).2 h3] at this

theorem bandLook [Zero R] {dbg : Bool} {o : Orient} {B : BMat R} (d : List R) (p : Nat × Nat) (x : R) (hp : p.1 < B.size1 ∧ p.2 < B.size2 ∧ InBand B.lower B.upper p.1 p.2) :
    ({ B with data := d } : BMat R).get dbg o p.1 p.2 = .ok x ↔ d[bcell o B.lower B.upper p.1 p.2]? = some x := by
  rw [bget_in (m := { B with data := d }) hp.1 hp.2.1 hp.2.2, rd_eq_ok]

theorem bandFree [Zero R] {dbg : Bool} {o : Orient} {B : BMat R} {f : Nat × Nat → R} (hf : ∀ i j, i < B.size1 → j < B.size2 → B.get dbg o i j = .ok (f (i, j)))
    (p : Nat × Nat) (hp : p.1 < B.size1 ∧ p.2 < B.size2 ∧ ¬ InBand B.lower B.upper p.1 p.2) : f p = 0 := by
  have := hf p.1 p.2 hp.1 hp.2.1
  rw [bget_off hp.1 hp.2.1 hp.2.2] at this
  simpa using this.symm

/-- **C115**, banded matrix: threads that each write only elements of their own — within the band — and read those, elements nobody writes and the zeros off the band. -/
theorem C115_banded [Zero R] (dbg : Bool) (o : Orient) (B : BMat R) (f : Nat × Nat → R) (hf : ∀ i j, i < B.size1 → j < B.size2 → B.get dbg o i j = .ok (f (i, j)))
    (mine : Nat → Nat × Nat → Prop) (shared : Nat × Nat → Prop) (hd : ∀ t u p, mine t p → mine u p → t = u) (hsh : ∀ t p, mine t p → ¬ shared p) (C : Nat → Client (Nat × Nat) R A)
    (hC : ∀ k, (C k).Keeps (fun p => (p.1 < B.size1 ∧ p.2 < B.size2) ∧ (¬ InBand B.lower B.upper p.1 p.2 ∨ mine k p ∨ shared p))
      (fun p => (p.1 < B.size1 ∧ p.2 < B.size2) ∧ InBand B.lower B.upper p.1 p.2 ∧ mine k p) f) :
    WorkersFine (fun p => bandGetT dbg o p.1 p.2) (fun p => bandSetT dbg o p.1 p.2) (bandMem B) (fun p => p.1 < B.size1 ∧ p.2 < B.size2 ∧ InBand B.lower B.upper p.1 p.2)
      (fun d p => ({ B with data := d } : BMat R).get dbg o p.1 p.2) f mine C := by
  refine (bandStore dbg o B).workers f (bandMem B) _ (fun d p x hp => bandLook d p x hp) rfl (fun p hp => hf p.1 p.2 hp.1 hp.2.1) (bandFree hf) mine shared hd hsh C (fun k => ?_)
  refine ((hC k).mono (rd' := fun p => ((p.1 < B.size1 ∧ p.2 < B.size2 ∧ InBand B.lower B.upper p.1 p.2) ∧ (mine k p ∨ shared p)) ∨ (p.1 < B.size1 ∧ p.2 < B.size2 ∧ ¬ InBand B.lower B.upper p.1 p.2))
    fun p h => ?_).monoW (wr' := fun p => (p.1 < B.size1 ∧ p.2 < B.size2 ∧ InBand B.lower B.upper p.1 p.2) ∧ mine k p) fun p h => ⟨⟨h.1.1, h.1.2, h.2.1⟩, h.2.2⟩
  by_cases hm : InBand B.lower B.upper p.1 p.2
  · exact .inl ⟨⟨h.1.1, h.1.2, hm⟩, h.2.resolve_left fun h' => h' hm⟩
  · exact .inr ⟨h.1.1, h.1.2, hm⟩

/-- **C114**, banded matrix: any number of reading threads. -/
theorem C114_banded [Zero R] (dbg : Bool) (o : Orient) (B : BMat R) (f : Nat × Nat → R) (hf : ∀ i j, i < B.size1 → j < B.size2 → B.get dbg o i j = .ok (f (i, j)))
    (C : Nat → Client (Nat × Nat) R A) (w : Nat × Nat → R → Th R Unit) (hC : ∀ k, (C k).Keeps (fun p => p.1 < B.size1 ∧ p.2 < B.size2) (fun _ => False) f) :
    ReadersFine (fun k => (C k).prog (fun p => bandGetT dbg o p.1 p.2) w) (bandMem B) (fun k => ((C k).sem f).1) :=
  (bandStore dbg o B).readers f (bandMem B) w _ (fun d p x hp => bandLook d p x hp) rfl (fun p hp => hf p.1 p.2 hp.1 hp.2.1) (bandFree hf) C
    fun k => (hC k).mono (rd' := fun p => (p.1 < B.size1 ∧ p.2 < B.size2 ∧ InBand B.lower B.upper p.1 p.2) ∨ (p.1 < B.size1 ∧ p.2 < B.size2 ∧ ¬ InBand B.lower B.upper p.1 p.2)) fun p h => by by_cases hm : InBand B.lower B.upper p.1 p.2 <;> [exact .inl ⟨h.1, h.2, hm⟩; exact .inr ⟨h.1, h.2, hm⟩]

/-! ## symmetric_matrix: (i, j) and (j, i) are one element -/

/-- Where (i, j) is stored. -/
def symAddr (t : Tri) (o : Orient) (n : Nat) (p : Nat × Nat) : Nat := if other t p.1 p.2 then cellOf t o p.1 n p.2 n else cellOf t o p.2 n p.1 n

theorem symCellT_ok {m : TMem R} {n : Nat} {dbg : Bool} {t : Tri} {o : Orient} (ht : t.kind = .lower) (h0 : m.nat 0 = [n]) (hc : ∀ arr off, own (.nat arr off) ∨ ro (.nat arr off)) {i j : Nat}
    (hi : i < n) (hj : j < n) : Conf own ro m (symCellT dbg t o i j : Th R Nat) (symAddr t o n (i, j)) m := by
  have hf : Fit dbg t n n := fit_of dbg t n n fun _ => .inl ht
  unfold symCellT
  refine (Conf.rN (v := n) (hc _ _) (by rw [h0]; rfl)).bind ((Conf.chk hi).bind ((Conf.rN (v := n) (hc _ _) (by rw [h0]; rfl)).bind ((Conf.chk hj).bind
    ((Conf.rN (v := n) (hc _ _) (by rw [h0]; rfl)).bind ((Conf.rN (v := n) (hc _ _) (by rw [h0]; rfl)).bind (localT_ok ?_))))))
  unfold symAddr
  by_cases h : other t i j = true
  · rw [if_pos h, if_pos h]; exact element_eq hf hi hj h
  · rw [if_neg h, if_neg h]
    refine element_eq hf hj hi ?_
    rw [other_iff] at h ⊢
    obtain ⟨k, u⟩ := t
    simp only at ht; subst ht
    cases u <;> simp only [Mutable] at h ⊢ <;> omega

theorem symAddr_inj {t : Tri} {o : Orient} {n : Nat} (ht : t.kind = .lower) {p q : Nat × Nat} (hp : p.1 < n ∧ p.2 < n) (hq : q.1 < n ∧ q.2 < n) (e : symAddr t o n p = symAddr t o n q) :
    p = q ∨ p = q.swap := by
  have hsw : ∀ p : Nat × Nat, ¬ other t p.1 p.2 = true → other t p.2 p.1 = true := by
    intro p h
    rw [other_iff] at h ⊢
    obtain ⟨k, u⟩ := t
    simp only at ht; subst ht
    cases u <;> simp only [Mutable] at h ⊢ <;> omega
  unfold symAddr at e
  by_cases h1 : other t p.1 p.2 = true <;> by_cases h2 : other t q.1 q.2 = true
  · rw [if_pos h1, if_pos h2] at e
    obtain ⟨a, b⟩ := cellOf_inj hp.1 hp.2 h1 hq.1 hq.2 h2 e
    exact .inl (Prod.ext a b)
  · rw [if_pos h1, if_neg h2] at e
    obtain ⟨a, b⟩ := cellOf_inj hp.1 hp.2 h1 hq.2 hq.1 (hsw q h2) e
    exact .inr (Prod.ext a b)
  · rw [if_neg h1, if_pos h2] at e
    obtain ⟨a, b⟩ := cellOf_inj hp.2 hp.1 (hsw p h1) hq.1 hq.2 h2 e
    exact .inr (Prod.ext b a)
  · rw [if_neg h1, if_neg h2] at e
    obtain ⟨a, b⟩ := cellOf_inj hp.2 hp.1 (hsw p h1) hq.2 hq.1 (hsw q h2) e
    exact .inl (Prod.ext b a)

theorem symStore (dbg : Bool) (t : Tri) (ht : t.kind = .lower) (o : Orient) (m : SMat R) (used : Nat × Nat → Prop) (hu : ∀ p, used p → used p.swap → p = p.swap) (f : Nat × Nat → R) :
    Store (R := R) (symMem m).nat (fun p => (p.1 < m.size ∧ p.2 < m.size) ∧ used p) (symAddr t o m.size) (fun p => symGetT dbg t o p.1 p.2) (fun p => symSetT dbg t o p.1 p.2) (fun _ => False) f where
  apart := fun _ h => h.elim
  const := fun _ _ _ _ h => h.elim
  inj := fun p q hp hq e => by
    rcases symAddr_inj ht hp.1 hq.1 e with h | h
    · exact h
    · rw [h] at hp ⊢
      exact (hu q hq.2 hp.2).symm
  get := fun own ro m' p v hp hn hnat hc hv => (symCellT_ok ht (by rw [hn]; rfl) hnat hp.1.1 hp.1.2).bind (Conf.rR hc hv)
  set := fun own ro m' p v hp hn hnat hc hv => (symCellT_ok ht (by rw [hn]; rfl) hnat hp.1.1 hp.1.2).bind (Conf.wR hc hv)

theorem symLook {dbg : Bool} {t : Tri} (ht : t.kind = .lower) {o : Orient} {m : SMat R} (d : List R) (p : Nat × Nat) (x : R) (hp : p.1 < m.size ∧ p.2 < m.size) :
    (⟨m.size, d⟩ : SMat R).get dbg t o p.1 p.2 = .ok x ↔ d[symAddr t o m.size p]? = some x := by
  have hf : Fit dbg t m.size m.size := fit_of dbg t _ _ fun _ => .inl ht
  have : SMat.cell dbg t o m.size p.1 p.2 = .ok (symAddr t o m.size p) := by
    unfold SMat.cell symAddr
    by_cases h : other t p.1 p.2 = true
    · rw [if_pos h, if_pos h]; exact element_eq hf hp.1 hp.2 h
    · rw [if_neg h, if_neg h]
      refine element_eq hf hp.2 hp.1 ?_
      rw [other_iff] at h ⊢
      obtain ⟨k, u⟩ := t
      simp only at ht; subst ht
      cases u <;> simp only [Mutable] at h ⊢ <;> omega
  simp only [SMat.get]
  rw [check_true hp.1, bind_ok, check_true hp.2, bind_ok, this, bind_ok, rd_eq_ok]

/-- **C115** (partial), symmetric matrix: the threads together use each off-diagonal element under one of its two names only (`used`).  Missing: threads that own different names of one element
(`C115_symmetric_refuted`: (i, j) and (j, i) are one cell), and programs that call one element by both names. -/
theorem C115_symmetric_partial (dbg : Bool) (t : Tri) (ht : t.kind = .lower) (o : Orient) (m : SMat R) (used : Nat × Nat → Prop) (hu : ∀ p, used p → used p.swap → p = p.swap)
    (f : Nat × Nat → R) (hf : ∀ i j, i < m.size → j < m.size → m.get dbg t o i j = .ok (f (i, j)))
    (mine : Nat → Nat × Nat → Prop) (shared : Nat × Nat → Prop) (hd : ∀ t u p, mine t p → mine u p → t = u) (hsh : ∀ t p, mine t p → ¬ shared p) (C : Nat → Client (Nat × Nat) R A)
    (hC : ∀ k, (C k).Keeps (fun p => ((p.1 < m.size ∧ p.2 < m.size) ∧ used p) ∧ (mine k p ∨ shared p)) (fun p => ((p.1 < m.size ∧ p.2 < m.size) ∧ used p) ∧ mine k p) f) :
    WorkersFine (fun p => symGetT dbg t o p.1 p.2) (fun p => symSetT dbg t o p.1 p.2) (symMem m) (fun p => (p.1 < m.size ∧ p.2 < m.size) ∧ used p)
      (fun d p => (⟨m.size, d⟩ : SMat R).get dbg t o p.1 p.2) f mine C :=
  (symStore dbg t ht o m used hu f).workers f (symMem m) _ (fun d p x hp => symLook ht d p x hp.1) rfl (fun p hp => hf p.1 p.2 hp.1.1 hp.1.2) (fun _ h => h.elim) mine shared hd hsh C
    (fun k => (hC k).mono (fun _ h => .inl h))

/-- **C114**, symmetric matrix: any number of reading threads, under both names. -/
theorem C114_symmetric (dbg : Bool) (t : Tri) (ht : t.kind = .lower) (o : Orient) (m : SMat R) (f : Nat × Nat → R) (hf : ∀ i j, i < m.size → j < m.size → m.get dbg t o i j = .ok (f (i, j)))
    (C : Nat → Client (Nat × Nat) R A) (w : Nat × Nat → R → Th R Unit) (hC : ∀ k, (C k).Keeps (fun p => p.1 < m.size ∧ p.2 < m.size) (fun _ => False) f) :
    ReadersFine (fun k => (C k).prog (fun p => symGetT dbg t o p.1 p.2) w) (symMem m) (fun k => ((C k).sem f).1) :=
  readers (fun p hp => (symCellT_ok ht rfl (fun _ _ => .inr trivial) hp.1 hp.2).bind (Conf.rR (.inr trivial) ((symLook ht m.data p (f p) hp).1 (hf p.1 p.2 hp.1 hp.2)))) C hC

/-- **C115** refuted for symmetric matrices: one thread assigns to element (1, 0), another to (0, 1); they race for the one cell, and the first finds its element changed after both have finished. -/
theorem C115_symmetric_refuted : ∃ sched c, execute sched (fun t => if t = 0 then (Client.set (1, 0) 5 (.done 0) : Client (Nat × Nat) Int Nat).prog (fun p => symGetT true ⟨.lower, false⟩ .row p.1 p.2)
        (fun p => symSetT true ⟨.lower, false⟩ .row p.1 p.2)
      else if t = 1 then (Client.set (0, 1) 7 (.done 0) : Client (Nat × Nat) Int Nat).prog (fun p => symGetT true ⟨.lower, false⟩ .row p.1 p.2) (fun p => symSetT true ⟨.lower, false⟩ .row p.1 p.2)
      else .ret 0) (symMem (⟨2, [1, 2, 3]⟩ : SMat Int)) = .ok c ∧
    c.th 0 = .ret 0 ∧ c.th 1 = .ret 0 ∧ (⟨2, c.mem.elt⟩ : SMat Int).get true ⟨.lower, false⟩ .row 1 0 = .ok 7 ∧ ¬ RaceFree c.log := by
  refine ⟨List.replicate 5 0 ++ List.replicate 5 1, _, rfl, rfl, rfl, rfl, fun h => ?_⟩
  have := h ⟨0, .elt 1, true⟩ (by decide) ⟨1, .elt 1, true⟩ (by decide) (by decide) rfl
  exact absurd this.1 (by decide)

/-- Two threads on a 2 x 2 unit lower matrix and on a tridiagonal one: thread 0 changes (1, 0), thread 1 reads the fixed one at (0, 0) and gives (1, 0)-free answers. -/
example : ∃ c, execute ((List.range 60).map (· % 2)) (fun t => if t = 0 then (Client.get (1, 0) fun x => .set (1, 0) (x + 10) (.done x) : Client (Nat × Nat) Int Int).prog
      (fun p => triGetT true ⟨.unit, false⟩ .row p.1 p.2) (fun p => triSetT true ⟨.unit, false⟩ .row p.1 p.2)
    else if t = 1 then (Client.get (0, 0) fun x => .get (0, 1) fun y => .done (x + y) : Client (Nat × Nat) Int Int).prog
      (fun p => triGetT true ⟨.unit, false⟩ .row p.1 p.2) (fun p => triSetT true ⟨.unit, false⟩ .row p.1 p.2) else .ret 0) (triMem (⟨2, 2, [4]⟩ : TMat Int)) = .ok c ∧
    c.th 0 = .ret 4 ∧ c.th 1 = .ret 1 ∧ c.mem.elt = [14] := ⟨_, rfl, rfl, rfl, rfl⟩

example : ∃ c, execute ((List.range 60).map (· % 2)) (fun t => if t < 2 then (Client.get (t, t + 1) fun x => .set (t, t) (x + 10) (.done x) : Client (Nat × Nat) Int Int).prog
      (fun p => bandGetT true .row p.1 p.2) (fun p => bandSetT true .row p.1 p.2) else .ret 0) (bandMem (⟨3, 3, 0, 1, [1, 2, 3, 4, 5, 6]⟩ : BMat Int)) = .ok c ∧
    c.th 0 = .ret 2 ∧ c.th 1 = .ret 4 ∧ c.mem.elt = [12, 2, 14, 4, 5, 6] := ⟨_, rfl, rfl, rfl, rfl⟩

end Threads
end Ublas
