import Verif.Spec.Threads
import Verif.Lemmas.ThreadsCoord
import Verif.Props.CompressedVector
import Verif.Props.CompressedMatrix
import Verif.Props.Coo
import Verif.Props.Dense
/-! # C114, C115: threads sharing a container -/
namespace Ublas
namespace Threads
open Search SparseSpec
variable {ι R A : Type} [DecidableEq ι]

/-- Nothing is owned. -/
def noLoc : Loc → Prop := fun _ => False
/-- Everything may be read. -/
def allLoc : Loc → Prop := fun _ => True

theorem list_of_peek {α β : Type} {f : α → β} (hf : ∀ x y, f x = f y → x = y) {l l' : List α} (h : ∀ i : Nat, (l[i]?).map f = (l'[i]?).map f) : l = l' := by
  refine List.ext_getElem? fun i => ?_
  have := h i
  cases h1 : l[i]? with
  | none => cases h2 : l'[i]? with
    | none => rfl
    | some y => rw [h1, h2] at this; cases this
  | some x => cases h2 : l'[i]? with
    | none => rw [h1, h2] at this; cases this
    | some y => rw [h1, h2] at this; simp only [Option.map_some, Option.some.injEq] at this; rw [hf _ _ this]

theorem mem_of_peek {m m' : TMem R} (h : ∀ l, m.peek l = m'.peek l) : m.elt = m'.elt ∧ ∀ a, m.nat a = m'.nat a :=
  ⟨list_of_peek (fun _ _ h => Sum.inr.inj h) fun i => h (.elt i), fun a => list_of_peek (fun _ _ h => Sum.inl.inj h) fun i => h (.nat a i)⟩

/-- Reading clients of any container whose element reads only read memory. -/
theorem readers {valid : ι → Prop} {g : ι → Th R R} {s : ι → R → Th R Unit} {f : ι → R} {m : TMem R} (hg : ∀ i, valid i → Conf noLoc allLoc m (g i) (f i) m)
    (C : Nat → Client ι R A) (hC : ∀ t, (C t).Keeps valid (fun _ => False) f) : ReadersFine (fun t => (C t).prog g s) m (fun t => ((C t).sem f).1) := by
  have hc : ∀ c : Client ι R A, c.Keeps valid (fun _ => False) f → Conf noLoc allLoc m (c.prog g s) (c.sem f).1 m := by
    intro c
    induction c with
    | done a => intro _; exact .ret _ _
    | get i k ih => intro h; exact (hg i h.1).bind (ih (f i) h.2)
    | set i v k _ => intro h; exact h.1.elim
  obtain ⟨N, hN⟩ := execute_ok (own := fun _ => noLoc) (ro := allLoc) ⟨fun _ _ _ h => h.elim, fun _ _ h => h.elim⟩ (m0 := m) (th := fun t => (C t).prog g s)
    (a := fun t => ((C t).sem f).1) (mf := fun _ => m) fun t => hc (C t) (hC t)
  refine ⟨N, fun sched => ?_⟩
  obtain ⟨c, e, hr, h1, h2, h3⟩ := hN sched
  obtain ⟨h4, h5⟩ := mem_of_peek fun l => h3 l fun _ h => h
  exact ⟨c, e, hr, h4, h5, h1, fun t b hb => (h2 t b hb).1⟩

/-! ## C114: concurrent reading -/

/-- **C114**, compressed_vector: after any legal history, any number of threads that read elements (adaptively, through const member functions) can run in any order. -/
theorem C114_compressed_vector (dbg : Bool) (IB : Nat) (zero : R) (junk : CVec.Junk R) (n nz : Nat) (ops : List (CVOp R × CVec.Junk R))
    (hl : cvlegalRun zero ⟨n, fun _ => none⟩ (ops.map (·.1))) :
    ∃ v0 v, CVec.ctor dbg IB junk n nz = .ok v0 ∧ CVec.run dbg IB zero v0 ops = .ok v ∧
      ∀ (C : Nat → Client Nat R A) (s : Nat → R → Th R Unit), let S := cvrun zero ⟨n, fun _ => none⟩ (ops.map (·.1))
        (∀ t, (C t).Keeps (· < S.size) (fun _ => False) (fun i => (S.val i).getD zero)) →
        ReadersFine (fun t => (C t).prog (cvecGetT dbg IB zero) s) (cvecMem v) (fun t => ((C t).sem fun i => (S.val i).getD zero).1) := by
  obtain ⟨v0, v, e0, e1, h⟩ := C19_compressed_vector dbg IB zero junk n nz ops hl
  exact ⟨v0, v, e0, e1, by intro C s S hC; exact readers (fun i hi => cvecGetT_ok (fun _ => .inr trivial) rfl rfl (h.2.1 i hi)) C hC⟩

/-- **C114**, compressed_matrix. -/
theorem C114_compressed_matrix (dbg : Bool) (o : Orient) (IB : Nat) (zero : R) (junk : CMat.Junk R) (r c nz : Nat) (ops : List (CMOp R × CMat.Junk R))
    (hl : cmlegalRun o zero ⟨r, c, fun _ => none, 0⟩ (ops.map (·.1))) :
    ∃ v0 v, CMat.ctor dbg o IB junk r c nz = .ok v0 ∧ CMat.run dbg o IB zero v0 ops = .ok v ∧
      ∀ (C : Nat → Client (Nat × Nat) R A) (s : Nat × Nat → R → Th R Unit), let S := cmrun o zero ⟨r, c, fun _ => none, 0⟩ (ops.map (·.1))
        (∀ t, (C t).Keeps (fun p => p.1 < S.rows ∧ p.2 < S.cols) (fun _ => False) (fun p => (S.val p).getD zero)) →
        ReadersFine (fun t => (C t).prog (fun p => cmatGetT dbg o IB zero p.1 p.2) s) (cmatMem v) (fun t => ((C t).sem fun p => (S.val p).getD zero).1) := by
  obtain ⟨v0, v, e0, e1, h⟩ := C24_compressed_matrix dbg o IB zero junk r c nz ops hl
  exact ⟨v0, v, e0, e1, by intro C s S hC; exact readers (fun p hp => cmatGetT_ok (fun _ => .inr trivial) rfl rfl (h.2.2.1 p.1 p.2 hp.1 hp.2)) C hC⟩

/-- **C114**, dense matrix. -/
theorem C114_dense (dbg : Bool) (o : Orient) (m : Dense R) (f : Nat × Nat → R) (hf : ∀ i j, i < m.size1 → j < m.size2 → m.get dbg o i j = .ok (f (i, j)))
    (C : Nat → Client (Nat × Nat) R A) (s : Nat × Nat → R → Th R Unit) (hC : ∀ t, (C t).Keeps (fun p => p.1 < m.size1 ∧ p.2 < m.size2) (fun _ => False) f) :
    ReadersFine (fun t => (C t).prog (fun p => denseGetT dbg o p.1 p.2) s) (denseMem m) (fun t => ((C t).sem f).1) := by
  refine readers (fun p hp => ?_) C hC
  have h := hf p.1 p.2 hp.1 hp.2
  unfold Dense.get Orient.element at h
  rw [check_true hp.1, bind_ok, check_true hp.2, bind_ok, pure_eq_ok, bind_ok] at h
  exact (elementT_ok (fun _ _ => .inr trivial) rfl hp.1 hp.2).bind (Conf.rR (.inr trivial) (rd_eq_ok.1 h))

/-- **C114** (partial), coordinate_vector in a sorted state (for example after `sort ()` or any single read by one thread).  Missing: unsorted states, where it is false
(`C114_coordinate_refuted`). -/
theorem C114_coordinate_partial [AddCommMonoid R] (srt : List (Nat × R) → List (Nat × R)) (hsrt : CoordVec.Sorts srt) (full dbg : Bool) (IB : Nat) (v : CoordVec R) (s : CooSpec.VState R)
    (h : CoordVec.Inv srt full IB v s) (hv : v.coo.sorted = true) (C : Nat → Client Nat R A) (w : Nat → R → Th R Unit)
    (hC : ∀ t, (C t).Keeps (· < s.size) (fun _ => False) (fun i => (s.st.val i).getD 0)) :
    ReadersFine (fun t => (C t).prog (coordGetT dbg srt IB 0) w) (coordMem v) (fun t => ((C t).sem fun i => (s.st.val i).getD 0).1) :=
  readers (fun i hi => coordGetT_sorted (full := full) (fun _ => .inr trivial) rfl rfl hv ((h.observes hsrt dbg).2.1 i hi)) C hC

/-- **C114**, coordinate_vector in any reachable state, used by one thread only (thread 0; the others do nothing): reading is correct although it sorts behind the scenes. -/
theorem C114_coordinate_alone [AddCommMonoid R] (srt : List (Nat × R) → List (Nat × R)) (hsrt : CoordVec.Sorts srt) (dbg : Bool) (IB : Nat) (v : CoordVec R) (s : CooSpec.VState R)
    (h : CoordVec.Inv srt false IB v s) (C : Nat → Client Nat R A) (hC : (C 0).Keeps (· < s.size) (fun _ => False) (fun i => (s.st.val i).getD 0)) (w : Nat → R → Th R Unit)
    (hO : ∀ t, t ≠ 0 → ∃ a, C t = .done a) :
    ∃ N, ∀ sched : List Nat, ∃ c, execute sched (fun t => (C t).prog (coordGetT dbg srt IB 0) w) (coordMem v) = .ok c ∧ RaceFree c.log ∧
      (N ≤ sched.count 0 → c.th 0 = .ret ((C 0).sem fun i => (s.st.val i).getD 0).1) ∧ ∀ b, c.th 0 = .ret b → b = ((C 0).sem fun i => (s.st.val i).getD 0).1 := by
  have hlen : ∀ l, (srt l).length = l.length := fun l => (hsrt l).1.length_eq
  have hc : ∀ (c : Client Nat R A) (v : CoordVec R) (b : Bool), CoordVec.Inv srt false IB v ⟨s.size, s.st.val, b⟩ → c.Keeps (· < s.size) (fun _ => False) (fun i => (s.st.val i).getD 0) →
      ∃ m', Conf allLoc noLoc (coordMem v) (c.prog (coordGetT dbg srt IB 0) w) (c.sem fun i => (s.st.val i).getD 0).1 m' := by
    intro c
    induction c with
    | done a => intro v b _ _; exact ⟨_, .ret _ _⟩
    | get i k ih =>
      intro v b hv hk
      obtain ⟨sz, co⟩ := v
      obtain ⟨hsz, hr⟩ := hv
      obtain ⟨v', e, hr'⟩ := hr.get (CoordVec.parOk srt hsrt false IB s.size) dbg i
      simp only at hsz; subst hsz
      obtain ⟨m', hm⟩ := ih _ ⟨s.size, v'⟩ true ⟨rfl, hr'⟩ hk.2
      exact ⟨m', (coordGetT_ok (fun _ => trivial) hlen hk.1 e).bind hm⟩
    | set i v k _ => intro _ _ _ h; exact h.1.elim
  obtain ⟨m', hm⟩ := hc (C 0) v s.st.sorted h hC
  have hall : ∀ t, ∃ (a : A) (mf : TMem R), Conf (fun l => t = 0 ∧ allLoc l) noLoc (coordMem v) ((C t).prog (coordGetT dbg srt IB 0) w) a mf ∧ (t = 0 → a = ((C 0).sem fun i => (s.st.val i).getD 0).1) := by
    intro t
    by_cases ht : t = 0
    · subst ht
      refine ⟨_, m', ?_, fun _ => rfl⟩
      have : (fun l => 0 = 0 ∧ allLoc l) = allLoc := by funext l; simp
      rw [this]; exact hm
    · obtain ⟨a, ha⟩ := hO t ht
      refine ⟨a, coordMem v, ?_, fun h => absurd h ht⟩
      rw [ha]; exact .ret _ _
  choose a mf hconf ha using hall
  obtain ⟨N, hN⟩ := execute_ok (own := fun t l => t = 0 ∧ allLoc l) (ro := noLoc) ⟨fun t u _ h1 h2 => h1.1.trans h2.1.symm, fun _ _ _ h => h⟩ hconf
  refine ⟨N 0, fun sched => ?_⟩
  obtain ⟨c, e, hr, h1, h2, _⟩ := hN sched
  exact ⟨c, e, hr, fun hn => by rw [h1 0 hn, ha 0 rfl], fun b hb => by rw [(h2 0 b hb).1, ha 0 rfl]⟩

/-- `std::sort` for the examples: insertion sort by key. -/
def demoSort : List (Nat × Int) → List (Nat × Int) := insSort fun a b => decide (a < b)

/-- A vector of size 2 to which 3 and 4 were appended at index 1, not yet sorted. -/
def demoCoord : CoordVec Int := ⟨2, ⟨2, 2, 0, false, [1, 1], [3, 4]⟩⟩

/-- The thread reads element 1. -/
def demoRead : Client Nat Int Int := .get 1 .done

/-- **C114** refuted for coordinate_vector: on a vector that has not been sorted since elements were appended (reached by two `append_element`), two threads that only *read* element 1 — through a
const reference — race: in one schedule both finish, one answers 7 (= 3 + 4) and the other 11, and the vector is left with 11. -/
theorem C114_coordinate_refuted : (∃ v0, CoordVec.ctor demoSort false true 0 (fun _ => 0, fun _ => 0) 2 2 = .ok v0 ∧
      CoordVec.run demoSort false true 0 0 v0 [(.core (.append 1 3), (fun _ => 0, fun _ => 0)), (.core (.append 1 4), (fun _ => 0, fun _ => 0))] = .ok demoCoord) ∧
    demoCoord.get demoSort false true 0 0 1 = .ok 7 ∧
    ∃ sched c, execute sched (fun t => if t < 2 then demoRead.prog (coordGetT true demoSort 0 0) (fun _ _ => .ret ()) else .ret 0) (coordMem demoCoord) = .ok c ∧
      c.th 0 = .ret 11 ∧ c.th 1 = .ret 7 ∧ c.mem.elt = [11, 4] ∧ ¬ RaceFree c.log := by
  refine ⟨⟨_, rfl, rfl⟩, rfl, List.replicate 13 0 ++ List.replicate 40 1 ++ List.replicate 40 0, _, rfl, rfl, rfl, rfl, fun h => ?_⟩
  have := h ⟨0, .elt 0, true⟩ (by decide) ⟨1, .elt 0, true⟩ (by decide) (by decide) rfl
  exact absurd this.1 (by decide)

/-- Non-vacuity of C114: two threads, one reading adaptively, on a compressed_vector, in a schedule that interleaves them. -/
example : ∃ c, execute ((List.range 40).map (· % 2)) (fun t => if t = 0 then Client.prog (A := Int) (cvecGetT true 0 0) (fun _ _ => .ret ()) (.get 2 fun x => .get (if x = 7 then 0 else 1) .done)
      else if t = 1 then Client.prog (cvecGetT true 0 0) (fun _ _ => .ret ()) (.get 0 .done) else .ret 0) (cvecMem (⟨3, 3, 2, [0, 2, 9], [5, 7, 9]⟩ : CVec Int)) = .ok c ∧
    c.th 0 = .ret 5 ∧ c.th 1 = .ret 5 := ⟨_, rfl, rfl, rfl⟩

theorem Client.Keeps.mono {rd rd' wr : ι → Prop} (h : ∀ i, rd i → rd' i) : ∀ {c : Client ι R A} {f : ι → R}, c.Keeps rd wr f → c.Keeps rd' wr f := by
  intro c
  induction c with
  | done a => intro f _; trivial
  | get i k ih => intro f hk; exact ⟨h i hk.1, ih _ hk.2⟩
  | set i v k ih => intro f hk; exact ⟨hk.1, ih hk.2⟩

theorem Client.Keeps.monoW {rd wr wr' : ι → Prop} : ∀ {c : Client ι R A} {f : ι → R}, c.Keeps rd wr f → (∀ i, wr i → wr' i) → c.Keeps rd wr' f := by
  intro c
  induction c with
  | done a => intro f _ _; trivial
  | get i k ih => intro f hk h; exact ⟨hk.1, ih _ hk.2 h⟩
  | set i v k ih => intro f hk h; exact ⟨h i hk.1, ih hk.2 h⟩

/-! ## C115: threads working on different elements -/

/-- Elements stored at distinct addresses, read and written through `g` and `s`; `nats` are the integer members, which are not written.  Elements in `free` are not stored: they always have the
value `fv`. -/
structure Store (nats : Nat → List Nat) (valid : ι → Prop) (addr : ι → Nat) (g : ι → Th R R) (s : ι → R → Th R Unit) (free : ι → Prop) (fv : ι → R) : Prop where
  apart : ∀ i, free i → ¬ valid i
  const : ∀ (own ro : Loc → Prop) (m : TMem R) i, free i → m.nat = nats → (∀ a o, own (.nat a o) ∨ ro (.nat a o)) → Conf own ro m (g i) (fv i) m
  inj : ∀ i j, valid i → valid j → addr i = addr j → i = j
  get : ∀ (own ro : Loc → Prop) (m : TMem R) i v, valid i → m.nat = nats → (∀ a o, own (.nat a o) ∨ ro (.nat a o)) → own (.elt (addr i)) ∨ ro (.elt (addr i)) → m.elt[addr i]? = some v →
    Conf own ro m (g i) v m
  set : ∀ (own ro : Loc → Prop) (m : TMem R) i v, valid i → m.nat = nats → (∀ a o, own (.nat a o) ∨ ro (.nat a o)) → own (.elt (addr i)) → addr i < m.elt.length →
    Conf own ro m (s i v) () { m with elt := m.elt.set (addr i) v }

/-- The cells of the elements in `mine`. -/
def elems (valid : ι → Prop) (addr : ι → Nat) (mine : ι → Prop) : Loc → Prop := fun l => ∃ i, valid i ∧ mine i ∧ l = .elt (addr i)
/-- The integer members and the cells of the elements in `shared`. -/
def common (valid : ι → Prop) (addr : ι → Nat) (shared : ι → Prop) : Loc → Prop := fun l => (∃ a o, l = .nat a o) ∨ elems valid addr shared l

theorem Store.client {nats : Nat → List Nat} {valid : ι → Prop} {addr : ι → Nat} {g : ι → Th R R} {s : ι → R → Th R Unit} {free : ι → Prop} {fv : ι → R}
    (S : Store nats valid addr g s free fv) (mine shared : ι → Prop) :
    ∀ (c : Client ι R A) (f : ι → R) (m : TMem R), m.nat = nats → (∀ i, valid i → m.elt[addr i]? = some (f i)) → (∀ i, free i → f i = fv i) →
      c.Keeps (fun i => (valid i ∧ (mine i ∨ shared i)) ∨ free i) (fun i => valid i ∧ mine i) f →
      ∃ m', Conf (elems valid addr mine) (common valid addr shared) m (c.prog g s) (c.sem f).1 m' ∧ ∀ i, valid i → m'.elt[addr i]? = some ((c.sem f).2 i) := by
  intro c
  induction c with
  | done a => intro f m hn hm _ _; exact ⟨m, .ret _ _, hm⟩
  | get i k ih =>
    intro f m hn hm hf hk
    obtain ⟨m', h1, h2⟩ := ih (f i) f m hn hm hf hk.2
    rcases hk.1 with hv | hfr
    · refine ⟨m', (S.get _ _ m i (f i) hv.1 hn (fun a o => .inr (.inl ⟨a, o, rfl⟩)) ?_ (hm i hv.1)).bind h1, h2⟩
      rcases hv.2 with h | h
      · exact .inl ⟨i, hv.1, h, rfl⟩
      · exact .inr (.inr ⟨i, hv.1, h, rfl⟩)
    · have := S.const (elems valid addr mine) (common valid addr shared) m i hfr hn (fun a o => .inr (.inl ⟨a, o, rfl⟩))
      rw [← hf i hfr] at this
      exact ⟨m', this.bind h1, h2⟩
  | set i v k ih =>
    intro f m hn hm hf hk
    have hlt : addr i < m.elt.length := (List.getElem?_eq_some_iff.1 (hm i hk.1.1)).1
    obtain ⟨m', h1, h2⟩ := ih (fun j => if j = i then v else f j) { m with elt := m.elt.set (addr i) v } hn (fun j hj => by
      show (m.elt.set (addr i) v)[addr j]? = _
      rw [List.getElem?_set]
      by_cases he : addr i = addr j
      · have : j = i := (S.inj _ _ hk.1.1 hj he).symm
        subst this; rw [if_pos rfl, if_pos hlt]; simp
      · rw [if_neg he, hm j hj, if_neg]
        rintro rfl; exact he rfl) (fun j hj => by
      have : j ≠ i := fun e => S.apart j hj (e ▸ hk.1.1)
      rw [if_neg this]; exact hf j hj) hk.2
    exact ⟨m', (S.set _ _ m i v hk.1.1 hn (fun a o => .inr (.inl ⟨a, o, rfl⟩)) ⟨i, hk.1.1, hk.1.2, rfl⟩ hlt).bind h1, h2⟩

/-- Threads that write only their own elements and read only their own elements and elements nobody writes. -/
theorem Store.threads {nats : Nat → List Nat} {valid : ι → Prop} {addr : ι → Nat} {g : ι → Th R R} {s : ι → R → Th R Unit} {free : ι → Prop} {fv : ι → R}
    (S : Store nats valid addr g s free fv) (f : ι → R) (m : TMem R)
    (hn : m.nat = nats) (hm : ∀ i, valid i → m.elt[addr i]? = some (f i)) (hf : ∀ i, free i → f i = fv i) (mine : Nat → ι → Prop) (shared : ι → Prop) (hd : ∀ t u i, mine t i → mine u i → t = u)
    (hs : ∀ t i, mine t i → ¬ shared i) (C : Nat → Client ι R A)
    (hC : ∀ t, (C t).Keeps (fun i => (valid i ∧ (mine t i ∨ shared i)) ∨ free i) (fun i => valid i ∧ mine t i) f) :
    ∃ N : Nat → Nat, ∀ sched, ∃ c, execute sched (fun t => (C t).prog g s) m = .ok c ∧ RaceFree c.log ∧ (∀ a, c.mem.nat a = m.nat a) ∧
      (∀ t, N t ≤ sched.count t → c.th t = .ret ((C t).sem f).1) ∧
      (∀ t b, c.th t = .ret b → b = ((C t).sem f).1 ∧ ∀ i, valid i → mine t i → c.mem.elt[addr i]? = some (((C t).sem f).2 i)) ∧
      ∀ i, valid i → (∀ t, ¬ mine t i) → c.mem.elt[addr i]? = some (f i) := by
  have hall := fun t => S.client (mine t) shared (C t) f m hn hm hf (hC t)
  choose mf hconf hmf using hall
  have hap : Apart (fun t => elems valid addr (mine t)) (common valid addr shared) := by
    refine ⟨?_, ?_⟩
    · rintro t u l ⟨i, vi, mi, rfl⟩ ⟨j, vj, mj, e⟩
      have : i = j := S.inj _ _ vi vj (by simpa using e)
      subst this; exact hd t u i mi mj
    · rintro t l ⟨i, vi, mi, rfl⟩ (⟨a, o, e⟩ | ⟨j, vj, sj, e⟩)
      · cases e
      · have : i = j := S.inj _ _ vi vj (by simpa using e)
        subst this; exact hs t i mi sj
  obtain ⟨N, hN⟩ := execute_ok hap hconf
  refine ⟨N, fun sched => ?_⟩
  obtain ⟨c, e, hr, h1, h2, h3⟩ := hN sched
  refine ⟨c, e, hr, fun a => ?_, h1, fun t b hb => ⟨(h2 t b hb).1, fun i vi mi => ?_⟩, fun i vi hi => ?_⟩
  · exact list_of_peek (fun _ _ h => Sum.inl.inj h) fun k => h3 (.nat a k) (by rintro t ⟨i, _, _, e⟩; cases e)
  · exact peek_elt.1 (((h2 t b hb).2 (.elt (addr i)) ⟨i, vi, mi, rfl⟩).trans (peek_elt.2 (hmf t i vi)))
  · refine peek_elt.1 ((h3 (.elt (addr i)) ?_).trans (peek_elt.2 (hm i vi)))
    rintro t ⟨j, vj, mj, e⟩
    have : i = j := S.inj _ _ vi vj (by simpa using e)
    subst this; exact hi t mj

/-- **C115**, dense matrix: threads that each write only elements of their own (and read those and elements nobody writes) can run in any order: no data race, every thread computes what it computes
alone, its elements end with the values it gave them, and all other elements keep theirs. -/
theorem C115_dense (dbg : Bool) (o : Orient) (m : Dense R) (hw : m.WF) (f : Nat × Nat → R) (hf : ∀ i j, i < m.size1 → j < m.size2 → m.get dbg o i j = .ok (f (i, j)))
    (mine : Nat → Nat × Nat → Prop) (shared : Nat × Nat → Prop) (hd : ∀ t u p, mine t p → mine u p → t = u) (hs : ∀ t p, mine t p → ¬ shared p) (C : Nat → Client (Nat × Nat) R A)
    (hC : ∀ t, (C t).Keeps (fun p => (p.1 < m.size1 ∧ p.2 < m.size2) ∧ (mine t p ∨ shared p)) (fun p => (p.1 < m.size1 ∧ p.2 < m.size2) ∧ mine t p) f) :
    ∃ N : Nat → Nat, ∀ sched, ∃ c, execute sched (fun t => (C t).prog (fun p => denseGetT dbg o p.1 p.2) (fun p => denseSetT dbg o p.1 p.2)) (denseMem m) = .ok c ∧ RaceFree c.log ∧
      (∀ t, N t ≤ sched.count t → c.th t = .ret ((C t).sem f).1) ∧
      (∀ t b, c.th t = .ret b → b = ((C t).sem f).1 ∧
        ∀ p, p.1 < m.size1 ∧ p.2 < m.size2 → mine t p → (⟨m.size1, m.size2, c.mem.elt⟩ : Dense R).get dbg o p.1 p.2 = .ok (((C t).sem f).2 p)) ∧
      ∀ p, p.1 < m.size1 ∧ p.2 < m.size2 → (∀ t, ¬ mine t p) → (⟨m.size1, m.size2, c.mem.elt⟩ : Dense R).get dbg o p.1 p.2 = .ok (f p) := by
  have hget : ∀ (d : List R) (p : Nat × Nat) (x : R), p.1 < m.size1 ∧ p.2 < m.size2 →
      ((⟨m.size1, m.size2, d⟩ : Dense R).get dbg o p.1 p.2 = .ok x ↔ d[o.elementRaw p.1 m.size1 p.2 m.size2]? = some x) := by
    intro d p x hp
    unfold Dense.get Orient.element
    rw [check_true hp.1, bind_ok, check_true hp.2, bind_ok, pure_eq_ok, bind_ok, rd_eq_ok]
  have S : Store (R := R) (denseMem m).nat (fun p : Nat × Nat => p.1 < m.size1 ∧ p.2 < m.size2) (fun p => o.elementRaw p.1 m.size1 p.2 m.size2) (fun p => denseGetT dbg o p.1 p.2)
      (fun p => denseSetT dbg o p.1 p.2) (fun _ => False) f := {
    apart := fun _ h => h.elim
    const := fun _ _ _ _ h => h.elim
    inj := fun p q hp hq e => by
      obtain ⟨h1, h2⟩ := elementRaw_inj o hp.1 hp.2 hq.1 hq.2 e
      exact Prod.ext h1 h2
    get := fun own ro m' p v hp hn hnat hc hv => (elementT_ok hnat (by rw [hn]; rfl) hp.1 hp.2).bind (Conf.rR hc hv)
    set := fun own ro m' p v hp hn hnat hc hv => (elementT_ok hnat (by rw [hn]; rfl) hp.1 hp.2).bind (Conf.wR hc hv) }
  obtain ⟨N, hN⟩ := S.threads f (denseMem m) rfl (fun p hp => (hget m.data p (f p) hp).1 (hf p.1 p.2 hp.1 hp.2)) (fun _ h => h.elim) mine shared hd hs C
    (fun t => (hC t).mono (fun _ h => .inl h))
  refine ⟨N, fun sched => ?_⟩
  obtain ⟨c, e, hr, _, h1, h2, h3⟩ := hN sched
  exact ⟨c, e, hr, h1, fun t b hb => ⟨(h2 t b hb).1, fun p hp mp => (hget _ p _ hp).2 ((h2 t b hb).2 p hp mp)⟩, fun p hp hm => (hget _ p _ hp).2 (h3 p hp hm)⟩

/-- **C115** (partial), compressed_vector: the same for elements that are stored.  Missing: elements that are not stored yet (`C115_compressed_refuted`). -/
theorem C115_compressed_partial (dbg : Bool) (IB : Nat) (zero : R) (v : CVec R) (s : Vec R) (h : CVec.Inv IB v s) (f : Nat → R) (hf : ∀ i, s.val i ≠ none → s.val i = some (f i))
    (mine : Nat → Nat → Prop) (shared : Nat → Prop) (hd : ∀ t u i, mine t i → mine u i → t = u) (hs : ∀ t i, mine t i → ¬ shared i) (C : Nat → Client Nat R A)
    (hC : ∀ t, (C t).Keeps (fun i => s.val i ≠ none ∧ (mine t i ∨ shared i)) (fun i => s.val i ≠ none ∧ mine t i) f) :
    ∃ N : Nat → Nat, ∀ sched, ∃ c, execute sched (fun t => (C t).prog (cvecGetT dbg IB zero) (cvecSetT dbg IB)) (cvecMem v) = .ok c ∧ RaceFree c.log ∧
      (∀ t, N t ≤ sched.count t → c.th t = .ret ((C t).sem f).1) ∧
      (∀ t b, c.th t = .ret b → b = ((C t).sem f).1 ∧
        ∀ i, s.val i ≠ none → mine t i → ({ v with val := c.mem.elt } : CVec R).findElement dbg IB i = .ok (some (((C t).sem f).2 i))) ∧
      ∀ i, s.val i ≠ none → (∀ t, ¬ mine t i) → ({ v with val := c.mem.elt } : CVec R).findElement dbg IB i = .ok (s.val i) := by
  have ho := h.observes dbg IB zero
  have hsize : ∀ i, s.val i ≠ none → i < v.size := fun i hi => by
    rw [ho.1]
    refine Nat.lt_of_not_le fun hle => hi (ho.2.2.2.2.2.2 i hle)
  -- the position of a stored element
  have hpos : ∀ i, s.val i ≠ none → ∃ n, CoordVec.search v.idx v.filled (i + IB) = .ok (some n) ∧ v.val[n]? = some (f i) ∧ v.idx[n]? = some (i + IB) := by
    intro i hi
    have := ho.2.2.1 i
    rw [hf i hi] at this
    unfold CVec.findElement at this
    obtain ⟨r, e, h1⟩ := bind_eq_ok this
    rw [cvec_slot_search] at e
    cases r with
    | none => cases h1
    | some n =>
      obtain ⟨x, e2, h2⟩ := bind_eq_ok h1
      cases h2
      refine ⟨n, e, rd_eq_ok.1 e2, ?_⟩
      unfold CoordVec.search at e
      obtain ⟨it, e3, e⟩ := bind_eq_ok e
      split at e
      · cases e
      · obtain ⟨y, e4, e⟩ := bind_eq_ok e
        split at e
        · cases e
        · rename_i hy
          cases e
          rw [rd_eq_ok.1 e4]
          simpa using hy
  choose! pos hp1 hp2 hp3 using hpos
  have S : Store (R := R) (cvecMem v).nat (fun i => s.val i ≠ none) pos (cvecGetT dbg IB zero) (cvecSetT dbg IB) (fun _ => False) f := {
    apart := fun _ h => h.elim
    const := fun _ _ _ _ h => h.elim
    inj := fun i j hi hj e => by
      have h1 := hp3 i hi
      rw [e, hp3 j hj] at h1
      simp only [Option.some.injEq] at h1; omega
    get := fun own ro m' i x hi hn hnat hc hv => by
      have n0 : m'.nat 0 = [v.size, v.cap, v.filled] := by rw [hn]; rfl
      have n1 : m'.nat 1 = v.idx := by rw [hn]; rfl
      exact (Conf.rN (v := v.size) (hnat _ _) (by rw [n0]; rfl)).bind ((Conf.chk (hsize i hi)).bind ((cvecSlotT_ok hnat n0 n1 (hp1 i hi)).bind (Conf.rR hc hv)))
    set := fun own ro m' i x hi hn hnat hc hv => by
      have n0 : m'.nat 0 = [v.size, v.cap, v.filled] := by rw [hn]; rfl
      have n1 : m'.nat 1 = v.idx := by rw [hn]; rfl
      exact (Conf.rN (v := v.size) (hnat _ _) (by rw [n0]; rfl)).bind ((Conf.chk (hsize i hi)).bind ((cvecSlotT_ok hnat n0 n1 (hp1 i hi)).bind (Conf.wR hc hv))) }
  obtain ⟨N, hN⟩ := S.threads f (cvecMem v) rfl (fun i hi => hp2 i hi) (fun _ h => h.elim) mine shared hd hs C (fun t => (hC t).mono (fun _ h => .inl h))
  have hfind : ∀ (d : List R) i x, s.val i ≠ none → d[pos i]? = some x → ({ v with val := d } : CVec R).findElement dbg IB i = .ok (some x) := by
    intro d i x hi hx
    unfold CVec.findElement
    rw [show ({ v with val := d } : CVec R).slot IB i = .ok (some (pos i)) from hp1 i hi, bind_ok]
    dsimp only
    rw [rd_eq_ok.2 hx, bind_ok]
  refine ⟨N, fun sched => ?_⟩
  obtain ⟨c, e, hr, _, h1, h2, h3⟩ := hN sched
  exact ⟨c, e, hr, h1, fun t b hb => ⟨(h2 t b hb).1, fun i hi mi => hfind _ i _ hi ((h2 t b hb).2 i hi mi)⟩, fun i hi hm => by rw [hf i hi]; exact hfind _ i _ hi (h3 i hi hm)⟩

/-- **C115** refuted for sparse containers: two threads assign to the *different* elements 0 and 1 of an empty compressed_vector with room for both.  They race on the structure, and in one
schedule the assignment to element 1 is lost: one element is stored afterwards. -/
theorem C115_compressed_refuted : ∃ v0, CVec.ctor true 0 (fun _ => 9, fun _ => 9) 2 2 = .ok v0 ∧
    ∃ sched c, execute sched (fun t => if t = 0 then (Client.set 0 5 (.done 0) : Client Nat Int Nat).prog (cvecGetT true 0 0) (cvecSetT true 0)
        else if t = 1 then (Client.set 1 7 (.done 0) : Client Nat Int Nat).prog (cvecGetT true 0 0) (cvecSetT true 0) else .ret 0) (cvecMem v0) = .ok c ∧
      c.th 0 = .ret 0 ∧ c.th 1 = .ret 0 ∧ c.mem.nat 0 = [2, 2, 1] ∧ c.mem.nat 1 = [0, 9] ∧ c.mem.elt = [5, 9] ∧ ¬ RaceFree c.log := by
  refine ⟨_, rfl, List.replicate 5 0 ++ List.replicate 8 1 ++ List.replicate 3 0, _, rfl, rfl, rfl, rfl, rfl, rfl, fun h => ?_⟩
  have := h ⟨0, .elt 0, true⟩ (by decide) ⟨1, .elt 0, true⟩ (by decide) (by decide) rfl
  exact absurd this.1 (by decide)

/-- Non-vacuity of C115: two threads on a 2 x 2 matrix, each updating its row from a shared element. -/
example : ∃ c, execute ((List.range 60).map (· % 2)) (fun t => if t < 2 then (Client.get (t, 0) fun x => .set (t, 0) (x + 10) (.done x) : Client (Nat × Nat) Int Int).prog
      (fun p => denseGetT true .row p.1 p.2) (fun p => denseSetT true .row p.1 p.2) else .ret 0) (denseMem (⟨2, 2, [1, 2, 3, 4]⟩ : Dense Int)) = .ok c ∧
    c.th 0 = .ret 1 ∧ c.th 1 = .ret 3 ∧ c.mem.elt = [11, 2, 13, 4] := ⟨_, rfl, rfl, rfl, rfl⟩

end Threads
end Ublas
