import Verif.Model.OpenCL
import Mathlib.Data.List.Basic
import Mathlib.Data.List.Count
/-! # Kernels: the result does not depend on the interleaving of the work items -/
namespace Ublas.OpenCL
variable {R : Type}

/-- Contents of a cell. -/
def Mem.cell (m : Mem R) (p : Cell) : Option R := (m p.1)[p.2]?

theorem Mem.read_ok {m : Mem R} {p : Cell} {x : R} (h : m.cell p = some x) : m.read p = .ok x := by
  unfold Mem.read; unfold Mem.cell at h; rw [h]

theorem Mem.write_ok {m : Mem R} {p : Cell} {x : R} (h : p.2 < (m p.1).length) :
    ∃ m', m.write p x = .ok m' ∧ (∀ b, (m' b).length = (m b).length) ∧ m'.cell p = some x ∧ ∀ q, q ≠ p → m'.cell q = m.cell q := by
  refine ⟨fun b => if b = p.1 then (m b).set p.2 x else m b, by unfold Mem.write; rw [if_pos h], fun b => ?_, ?_, fun q hq => ?_⟩
  · dsimp only; split <;> simp
  · unfold Mem.cell; dsimp only; rw [if_pos rfl, List.getElem?_set_self h]
  · unfold Mem.cell; dsimp only
    split
    · rename_i hb
      rw [List.getElem?_set_ne]
      intro e
      exact hq (Prod.ext hb e.symm)
    · rfl

theorem Mem.cell_lt {m : Mem R} {p : Cell} (h : p.2 < (m p.1).length) [Zero R] : m.cell p = some ((m.cell p).getD 0) := by
  unfold Mem.cell; rw [List.getElem?_eq_getElem h]; rfl

/-- Conditions under which a kernel is race free on a memory. -/
structure Kernel.Safe (K : Kernel R) (m : Mem R) : Prop where
  src : ∀ x, x < K.items → K.act x = true → ∀ p ∈ K.src x, p.2 < (m p.1).length
  dst : ∀ x, x < K.items → K.act x = true → (K.dst x).2 < (m (K.dst x).1).length
  inj : ∀ x y, x < K.items → y < K.items → K.act x = true → K.act y = true → K.dst x = K.dst y → x = y
  disj : ∀ x y, x < K.items → y < K.items → K.act x = true → K.act y = true → x ≠ y → K.dst y ∉ K.src x

/-- `m'` is `m` with every active item's result in place. -/
def Kernel.Result [Zero R] (K : Kernel R) (m m' : Mem R) : Prop :=
  (∀ b, (m' b).length = (m b).length) ∧ (∀ x, x < K.items → K.act x = true → m'.cell (K.dst x) = some (K.fn x ((K.src x).map fun p => (m.cell p).getD 0))) ∧
    ∀ p, (∀ x, x < K.items → K.act x = true → K.dst x ≠ p) → m'.cell p = m.cell p

structure Kernel.Inv [Zero R] (K : Kernel R) (m : Mem R) (cnt : Nat → Nat) (st : St R) : Prop where
  len : ∀ b, (st.mem b).length = (m b).length
  run : ∀ x, x < K.items → K.act x = true → st.done x = false → cnt x ≤ (K.src x).length ∧ st.regs x = ((K.src x).take (cnt x)).map fun p => (m.cell p).getD 0
  fin : ∀ x, x < K.items → K.act x = true → st.done x = true → st.mem.cell (K.dst x) = some (K.fn x ((K.src x).map fun p => (m.cell p).getD 0))
  rest : ∀ p, (∀ x, x < K.items → K.act x = true → st.done x = true → K.dst x ≠ p) → st.mem.cell p = m.cell p

theorem Kernel.step_ok [Zero R] {K : Kernel R} {m : Mem R} (hs : K.Safe m) {cnt : Nat → Nat} {st : St R} (h : K.Inv m cnt st) {x : Nat} (hx : x < K.items) :
    ∃ st', K.step st x = .ok st' ∧ K.Inv m (fun y => if y = x then cnt x + 1 else cnt y) st' := by
  unfold Kernel.step
  by_cases hc : K.act x = false ∨ st.done x = true
  · rw [if_pos hc]
    refine ⟨st, rfl, h.len, fun y hy ha hd => ?_, h.fin, h.rest⟩
    have hne : y ≠ x := by rintro rfl; rcases hc with hc | hc <;> simp_all
    rw [if_neg hne]
    exact h.run y hy ha hd
  · rw [if_neg hc]
    rw [not_or, Bool.not_eq_false, Bool.not_eq_true] at hc
    obtain ⟨ha, hd⟩ := hc
    obtain ⟨r1, r2⟩ := h.run x hx ha hd
    have hlen : (st.regs x).length = cnt x := by rw [r2, List.length_map, List.length_take]; omega
    rw [hlen]
    by_cases hlt : cnt x < (K.src x).length
    · rw [List.getElem?_eq_getElem hlt]
      have hmem : (K.src x)[cnt x] ∈ K.src x := List.getElem_mem hlt
      have hcell : st.mem.cell ((K.src x)[cnt x]) = m.cell ((K.src x)[cnt x]) := h.rest _ fun y hy hay hdy e => by
        have hne : x ≠ y := by rintro rfl; rw [hd] at hdy; cases hdy
        exact hs.disj x y hx hy ha hay hne (e ▸ hmem)
      have hval := Mem.cell_lt (m := m) (hs.src x hx ha _ hmem)
      dsimp only
      rw [Mem.read_ok (hcell.trans hval), bind_ok]
      refine ⟨_, rfl, h.len, fun y hy hay hdy => ?_, h.fin, h.rest⟩
      by_cases e : y = x
      · subst e
        simp only [if_true]
        refine ⟨hlt, ?_⟩
        rw [r2, List.take_add_one, List.getElem?_eq_getElem hlt, List.map_append]
        rfl
      · simp only [if_neg e]
        exact h.run y hy hay hdy
    · rw [List.getElem?_eq_none (by omega)]
      have hall : st.regs x = (K.src x).map fun p => (m.cell p).getD 0 := by rw [r2, List.take_of_length_le (by omega)]
      obtain ⟨m', w1, w2, w3, w4⟩ := Mem.write_ok (m := st.mem) (p := K.dst x) (x := K.fn x (st.regs x)) (by rw [h.len]; exact hs.dst x hx ha)
      dsimp only
      rw [w1, bind_ok]
      refine ⟨_, rfl, fun b => by rw [w2, h.len], fun y hy hay hdy => ?_, fun y hy hay hdy => ?_, fun p hp => ?_⟩
      · dsimp only at hdy ⊢
        split at hdy
        · cases hdy
        · rename_i e
          rw [if_neg e]
          exact h.run y hy hay hdy
      · dsimp only at hdy ⊢
        by_cases e : y = x
        · subst e; rw [w3, hall]
        · rw [if_neg e] at hdy
          rw [w4 _ fun c => e (hs.inj y x hy hx hay ha c)]
          exact h.fin y hy hay hdy
      · dsimp only at hp ⊢
        rw [w4 p fun c => hp x hx ha (by simp) c.symm]
        refine h.rest p fun y hy hay hdy => hp y hy hay ?_
        split
        · rfl
        · exact hdy

theorem Kernel.fold_ok [Zero R] {K : Kernel R} {m : Mem R} (hs : K.Safe m) : ∀ (sched : List Nat) (cnt : Nat → Nat) (st : St R), (∀ x ∈ sched, x < K.items) → K.Inv m cnt st →
    ∃ st', sched.foldlM K.step st = .ok st' ∧ K.Inv m (fun y => cnt y + sched.count y) st'
  | [], cnt, st, _, h => ⟨st, rfl, by simpa using h⟩
  | x :: l, cnt, st, hl, h => by
    obtain ⟨s1, e1, h1⟩ := Kernel.step_ok hs h (hl x (by simp))
    obtain ⟨s2, e2, h2⟩ := Kernel.fold_ok hs l _ s1 (fun y hy => hl y (by simp [hy])) h1
    refine ⟨s2, by rw [List.foldlM_cons]; simp only [e1]; exact e2, ?_⟩
    convert h2 using 1
    funext y
    rw [List.count_cons]
    by_cases e : y = x
    · subst e; simp; omega
    · have : (x == y) = false := by simpa using fun c => e c.symm
      simp [e, this]

/-- A race-free kernel has one result, whatever the interleaving. -/
theorem Kernel.run_ok [Zero R] {K : Kernel R} {m : Mem R} (hs : K.Safe m) {sched : List Nat} (hc : K.Complete sched) : ∃ m', K.run sched m = .ok m' ∧ K.Result m m' := by
  have h0 : K.Inv m (fun _ => 0) ⟨m, fun _ => [], fun _ => false⟩ := ⟨fun _ => rfl, fun x _ _ _ => ⟨Nat.zero_le _, by simp⟩, fun x _ _ h => by simp at h, fun _ _ => rfl⟩
  obtain ⟨st, e, h⟩ := Kernel.fold_ok hs sched _ _ hc.1 h0
  have hd : ∀ x, x < K.items → K.act x = true → st.done x = true := by
    intro x hx ha
    by_contra hn
    rw [Bool.not_eq_true] at hn
    have := (h.run x hx ha hn).1
    have := hc.2 x hx
    omega
  refine ⟨st.mem, by unfold Kernel.run; rw [e]; rfl, h.len, fun x hx ha => h.fin x hx ha (hd x hx ha), fun p hp => h.rest p fun x hx ha _ => hp x hx ha⟩

/-- One schedule always exists: one item after the other. -/
def Kernel.seq (K : Kernel R) : List Nat := (List.range K.items).flatMap fun x => List.replicate ((K.src x).length + 1) x

theorem Kernel.seq_complete (K : Kernel R) : K.Complete K.seq := by
  constructor
  · intro x hx
    obtain ⟨y, hy, hxy⟩ := List.mem_flatMap.1 hx
    rw [(List.mem_replicate.1 hxy).2]
    simpa using hy
  · intro x hx
    have : ∀ (l : List Nat), x ∈ l → (K.src x).length < (l.flatMap fun x => List.replicate ((K.src x).length + 1) x).count x := by
      intro l
      induction l with
      | nil => simp
      | cons a l ih =>
        intro hm
        rw [List.flatMap_cons, List.count_append]
        rcases List.mem_cons.1 hm with rfl | hm
        · rw [List.count_replicate_self]; omega
        · have := ih hm; omega
    exact this _ (by simpa using hx)

/-- The sequential scheduler. -/
def seqSched : Scheduler R := fun _ K => K.seq
theorem seqSched_fair : (seqSched : Scheduler R).Fair := fun _ K => K.seq_complete

end Ublas.OpenCL
