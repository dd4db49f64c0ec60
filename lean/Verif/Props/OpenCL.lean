import Verif.Lemmas.OpenCL
import Mathlib.Algebra.BigOperators.Group.List.Basic
import Mathlib.Algebra.Ring.Defs
import Mathlib.Algebra.Ring.Int.Defs
/-! # C111 – C113: the OpenCL back end, for every interleaving of the work items -/
namespace Ublas.OpenCL
variable {R : Type}

/-! ## Specification -/

/-- The device matrix `m` with layout `l` holds the values `a i j`. -/
def MatIs (mem : Mem R) (l : Lay) (m : DMat) (a : Nat → Nat → R) : Prop :=
  (mem m.buf).length = m.size1 * m.size2 ∧ ∀ i j, i < m.size1 → j < m.size2 → (mem m.buf)[l.o.elementRaw i m.size1 j m.size2]? = some (a i j)

/-- The device vector `v` holds the values `a i`. -/
def VecIs (mem : Mem R) (v : DVec) (a : Nat → R) : Prop :=
  (mem v.buf).length = v.size ∧ ∀ i, i < v.size → (mem v.buf)[i]? = some (a i)

/-- A host matrix holds the values `a i j`. -/
def HostIs (l : Lay) (m : Dense R) (a : Nat → Nat → R) : Prop :=
  m.data.length = m.size1 * m.size2 ∧ ∀ i j, i < m.size1 → j < m.size2 → m.data[l.o.elementRaw i m.size1 j m.size2]? = some (a i j)

/-- All buffers but `b` keep their contents. -/
def Frame (mem mem' : Mem R) (b : Nat) : Prop := ∀ b', b' ≠ b → mem' b' = mem b'

/-! ## Addresses -/

theorem mulAdd_lt {r c k l : Nat} (hk : k < r) (hl : l < c) : k * c + l < r * c := by
  have : (k + 1) * c ≤ r * c := Nat.mul_le_mul_right _ hk
  rw [Nat.add_mul] at this; omega

theorem mulAdd_div {c k l : Nat} (hl : l < c) : (k * c + l) / c = k ∧ (k * c + l) % c = l := by
  constructor
  · rw [Nat.add_comm, Nat.add_mul_div_right _ _ (by omega), Nat.div_eq_of_lt hl, Nat.zero_add]
  · rw [Nat.add_comm, Nat.add_mul_mod_self_right, Nat.mod_eq_of_lt hl]

theorem div_lt_items {x m n : Nat} (h : x < m * n) : x / n < m ∧ x % n < n := by
  have hn : 0 < n := by
    rcases Nat.eq_zero_or_pos n with rfl | hn
    · simp at h
    · exact hn
  exact ⟨(Nat.div_lt_iff_lt_mul hn).2 h, Nat.mod_lt _ hn⟩

theorem raw_lt (o : Orient) {i j r c : Nat} (hi : i < r) (hj : j < c) : o.elementRaw i r j c < r * c := by
  cases o
  · exact mulAdd_lt hi hj
  · show i + j * r < r * c
    rw [Nat.add_comm, Nat.mul_comm r c]; exact mulAdd_lt hj hi

theorem raw_inj (o : Orient) {i j i' j' r c : Nat} (hi : i < r) (hj : j < c) (hi' : i' < r) (hj' : j' < c) (h : o.elementRaw i r j c = o.elementRaw i' r j' c) :
    i = i' ∧ j = j' := by
  cases o
  · have h1 := mulAdd_div (k := i) hj
    have h2 := mulAdd_div (k := i') hj'
    have h : i * c + j = i' * c + j' := h
    rw [h] at h1
    exact ⟨h1.1.symm.trans h2.1, h1.2.symm.trans h2.2⟩
  · have h1 := mulAdd_div (k := j) hi
    have h2 := mulAdd_div (k := j') hi'
    have h : i + j * r = i' + j' * r := h
    rw [Nat.add_comm i, Nat.add_comm i'] at h
    rw [h] at h1
    exact ⟨h1.2.symm.trans h2.2, h1.1.symm.trans h2.1⟩

/-- Every offset below `r * c` is the address of an element. -/
theorem raw_surj (o : Orient) {x r c : Nat} (h : x < r * c) : ∃ i j, i < r ∧ j < c ∧ o.elementRaw i r j c = x := by
  cases o
  · obtain ⟨h1, h2⟩ := div_lt_items h
    exact ⟨x / c, x % c, h1, h2, by show x / c * c + x % c = x; rw [Nat.mul_comm]; exact Nat.div_add_mod x c⟩
  · obtain ⟨h1, h2⟩ := div_lt_items (Nat.mul_comm r c ▸ h)
    exact ⟨x % r, x / r, h2, h1, by show x % r + x / r * r = x; rw [Nat.mul_comm, Nat.add_comm]; exact Nat.div_add_mod x r⟩

theorem Kernel.Result.frame [Zero R] {K : Kernel R} {m m' : Mem R} (h : K.Result m m') {b : Nat} (hb : ∀ x, x < K.items → K.act x = true → (K.dst x).1 = b) : Frame m m' b := by
  intro b' hne
  refine List.ext_getElem? fun i => ?_
  exact h.2.2 (b', i) fun x hx ha e => hne (by rw [← hb x hx ha, e])

/-! ## C111: transposition and change of layout -/

section transpose
variable [Zero R]

theorem transposeK_ok {inp out w h : Nat} (hwh : w * h < 2 ^ 32) (hne : inp ≠ out) {m : Mem R} (h1 : w * h ≤ (m inp).length) (h2 : w * h ≤ (m out).length)
    {sched : List Nat} (hc : (transposeK inp out w h : Kernel R).Complete sched) :
    ∃ m', (transposeK inp out w h : Kernel R).run sched m = .ok m' ∧ Frame m m' out ∧ (m' out).length = (m out).length ∧
      ∀ c r, c < w → r < h → (m' out)[r + h * c]? = (m inp)[c + w * r]? := by
  have hw : w * h ≠ 0 → w < 2 ^ 32 ∧ h < 2 ^ 32 := by
    intro h0
    have : 0 < w ∧ 0 < h := ⟨Nat.pos_of_ne_zero fun e => h0 (by rw [e]; simp), Nat.pos_of_ne_zero fun e => h0 (by rw [e]; simp)⟩
    exact ⟨lt_of_le_of_lt (Nat.le_mul_of_pos_right w this.2) hwh, lt_of_le_of_lt (Nat.le_mul_of_pos_left h this.1) hwh⟩
  have hx : ∀ x, x < w * h → x / w < h ∧ x % w < w ∧ u32 (x % w) = x % w ∧ u32 (x / w) = x / w ∧ u32 w = w ∧ u32 h = h ∧
      u32 (x % w + w * (x / w)) = x ∧ u32 (x / w + h * (x % w)) = x / w + h * (x % w) ∧ x / w + h * (x % w) < w * h := by
    intro x hx
    obtain ⟨a, b⟩ := div_lt_items (Nat.mul_comm w h ▸ hx)
    obtain ⟨c, d⟩ := hw (by omega)
    have hd : x / w + h * (x % w) < w * h := by rw [Nat.add_comm, Nat.mul_comm h (x % w)]; exact mulAdd_lt b a
    exact ⟨a, b, Nat.mod_eq_of_lt (by omega), Nat.mod_eq_of_lt (by omega), Nat.mod_eq_of_lt c, Nat.mod_eq_of_lt d,
      by rw [Nat.mod_add_div]; exact Nat.mod_eq_of_lt (by omega), Nat.mod_eq_of_lt (by omega), hd⟩
  have hsrc : ∀ x, x < w * h → (transposeK inp out w h : Kernel R).src x = [(inp, x)] := by
    intro x hx'
    obtain ⟨_, _, e1, e2, e3, e4, e5, _⟩ := hx x hx'
    show [(inp, u32 (u32 (x % w) + u32 w * u32 (x / w)))] = _
    rw [e1, e2, e3, e5]
  have hdst : ∀ x, x < w * h → (transposeK inp out w h : Kernel R).dst x = (out, x / w + h * (x % w)) := by
    intro x hx'
    obtain ⟨_, _, e1, e2, e3, e4, _, e6, _⟩ := hx x hx'
    show (out, u32 (u32 (x / w) + u32 h * u32 (x % w))) = _
    rw [e1, e2, e4, e6]
  have hact : ∀ x, x < w * h → (transposeK inp out w h : Kernel R).act x = true := by
    intro x hx'
    obtain ⟨a, b, e1, e2, e3, e4, _⟩ := hx x hx'
    show (decide (u32 (x % w) < u32 w) && decide (u32 (x / w) < u32 h)) = true
    rw [e1, e2, e3, e4]; simp [a, b]
  have hs : (transposeK inp out w h : Kernel R).Safe m := {
    src := fun x hx' _ p hp => by
      have hx' : x < w * h := hx'
      rw [hsrc x hx', List.mem_singleton] at hp
      subst hp
      show x < (m inp).length
      omega
    dst := fun x hx' _ => by
      have hx' : x < w * h := hx'
      rw [hdst x hx']
      have := (hx x hx').2.2.2.2.2.2.2.2
      show x / w + h * (x % w) < (m out).length
      omega
    inj := fun x y hx' hy' _ _ e => by
      have hx' : x < w * h := hx'
      have hy' : y < w * h := hy'
      rw [hdst x hx', hdst y hy', Prod.mk.injEq] at e
      obtain ⟨a, b, _⟩ := hx x hx'
      obtain ⟨a', b', _⟩ := hx y hy'
      have e := e.2
      rw [Nat.add_comm, Nat.mul_comm, Nat.add_comm (y / w), Nat.mul_comm h (y % w)] at e
      have q1 := mulAdd_div (k := x % w) a
      have q2 := mulAdd_div (k := y % w) a'
      rw [e] at q1
      rw [← Nat.mod_add_div x w, ← Nat.mod_add_div y w, q1.1.symm.trans q2.1, q1.2.symm.trans q2.2]
    disj := fun x y hx' hy' _ _ _ hm => by
      rw [hsrc x hx', hdst y hy', List.mem_singleton, Prod.mk.injEq] at hm
      exact hne hm.1.symm }
  obtain ⟨m', e, hr⟩ := Kernel.run_ok hs hc
  refine ⟨m', e, hr.frame fun x hx' _ => by rw [hdst x hx'], hr.1 out, fun c r hcw hrh => ?_⟩
  have hlt : c + w * r < w * h := by rw [Nat.add_comm, Nat.mul_comm w r, Nat.mul_comm w h]; exact mulAdd_lt hrh hcw
  have q : (c + w * r) / w = r ∧ (c + w * r) % w = c := by rw [Nat.add_comm, Nat.mul_comm]; exact mulAdd_div hcw
  have := hr.2.1 (c + w * r) hlt (hact _ hlt)
  rw [hdst _ hlt, q.1, q.2, hsrc _ hlt] at this
  have h3 : (m inp)[c + w * r]? = some (((m inp)[c + w * r]?).getD 0) := by rw [List.getElem?_eq_getElem (by omega)]; rfl
  rw [h3]
  exact this

/-- **C111** (partial).  `trans (m, result, queue)` on the device, default layouts, fewer than 2^32 elements, `result` another matrix: for every interleaving of the work items, element
(j, i) of the result is element (i, j) of `m`, and nothing else changes.  Missing: `trans (m, m)` (`C111_in_place_refuted`), layouts with other size types (`C111_layout_refuted`), 2^32 or more
elements (`C111_size_refuted`). -/
theorem C111_trans_partial (dbg : Bool) (sch : Kernel R → List Nat) (hf : ∀ K : Kernel R, K.Complete (sch K)) (l : Lay) (hl : l.std = true) (m result : DMat) (mem : Mem R) (a : Nat → Nat → R)
    (hm : MatIs mem l m a) (hr : (mem result.buf).length = result.size1 * result.size2) (hs : result.size1 = m.size2 ∧ result.size2 = m.size1) (hb : m.buf ≠ result.buf)
    (hn : m.size1 * m.size2 < 2 ^ 32) :
    ∃ mem', trans dbg sch l m result mem = .ok mem' ∧ MatIs mem' l result (fun i j => a j i) ∧ Frame mem mem' result.buf := by
  obtain ⟨o, std⟩ := l
  simp only at hl; subst hl
  obtain ⟨hm1, hm2⟩ := hm
  unfold trans
  rw [check_true ⟨hs.2.symm, hs.1.symm⟩, bind_ok]
  cases o with
  | row =>
    obtain ⟨m', e, f, g, t⟩ := transposeK_ok (m := mem) (inp := m.buf) (out := result.buf) (w := m.size2) (h := m.size1) (by rw [Nat.mul_comm]; exact hn) hb
      (by rw [hm1, Nat.mul_comm]) (by rw [hr, hs.1, hs.2]) (hf _)
    refine ⟨m', e, ⟨g.trans hr, fun i j hi hj => ?_⟩, f⟩
    rw [hs.1] at hi; rw [hs.2] at hj
    have := t i j hi hj
    show (m' result.buf)[i * result.size2 + j]? = _
    rw [hs.2, Nat.add_comm, Nat.mul_comm, this, ← hm2 j i hj hi]
    show _ = (mem m.buf)[j * m.size2 + i]?
    rw [Nat.add_comm, Nat.mul_comm]
  | col =>
    obtain ⟨m', e, f, g, t⟩ := transposeK_ok (m := mem) (inp := m.buf) (out := result.buf) (w := m.size1) (h := m.size2) hn hb
      (by rw [hm1]) (by rw [hr, hs.1, hs.2, Nat.mul_comm]) (hf _)
    refine ⟨m', e, ⟨g.trans hr, fun i j hi hj => ?_⟩, f⟩
    rw [hs.1] at hi; rw [hs.2] at hj
    have := t j i hj hi
    show (m' result.buf)[i + j * result.size1]? = _
    rw [hs.1, Nat.mul_comm, this, ← hm2 j i hj hi]
    show _ = (mem m.buf)[j + i * m.size1]?
    rw [Nat.mul_comm]

/-- **C111** (partial).  `change_layout (m, result, queue)` between the default layouts: the result has the same elements. -/
theorem C111_change_layout_partial (dbg : Bool) (sch : Kernel R → List Nat) (hf : ∀ K : Kernel R, K.Complete (sch K)) (l1 l2 : Lay) (h1 : l1.std = true) (h2 : l2.std = true) (hne : l1 ≠ l2)
    (m result : DMat) (mem : Mem R) (a : Nat → Nat → R) (hm : MatIs mem l1 m a) (hr : (mem result.buf).length = result.size1 * result.size2)
    (hs : result.size1 = m.size1 ∧ result.size2 = m.size2) (hb : m.buf ≠ result.buf) (hn : m.size1 * m.size2 < 2 ^ 32) :
    ∃ mem', changeLayout dbg sch l1 l2 m result mem = .ok mem' ∧ MatIs mem' l2 result a ∧ Frame mem mem' result.buf := by
  obtain ⟨o1, std1⟩ := l1
  obtain ⟨o2, std2⟩ := l2
  simp only at h1 h2; subst h1 h2
  obtain ⟨hm1, hm2⟩ := hm
  unfold changeLayout
  rw [check_true ⟨hs.1.symm, hs.2.symm⟩, bind_ok, check_true hne, bind_ok]
  cases o1 with
  | row =>
    cases o2 with
    | row => exact absurd rfl hne
    | col =>
      obtain ⟨m', e, f, g, t⟩ := transposeK_ok (m := mem) (inp := m.buf) (out := result.buf) (w := m.size2) (h := m.size1) (by rw [Nat.mul_comm]; exact hn) hb
        (by rw [hm1, Nat.mul_comm]) (by rw [hr, hs.1, hs.2, Nat.mul_comm]) (hf _)
      refine ⟨m', e, ⟨g.trans hr, fun i j hi hj => ?_⟩, f⟩
      rw [hs.1] at hi; rw [hs.2] at hj
      have := t j i hj hi
      show (m' result.buf)[i + j * result.size1]? = _
      rw [hs.1, Nat.mul_comm, this, ← hm2 i j hi hj]
      show _ = (mem m.buf)[i * m.size2 + j]?
      rw [Nat.add_comm, Nat.mul_comm]
  | col =>
    cases o2 with
    | col => exact absurd rfl hne
    | row =>
      obtain ⟨m', e, f, g, t⟩ := transposeK_ok (m := mem) (inp := m.buf) (out := result.buf) (w := m.size1) (h := m.size2) hn hb
        (by rw [hm1]) (by rw [hr, hs.1, hs.2]) (hf _)
      refine ⟨m', e, ⟨g.trans hr, fun i j hi hj => ?_⟩, f⟩
      rw [hs.1] at hi; rw [hs.2] at hj
      have := t i j hi hj
      show (m' result.buf)[i * result.size2 + j]? = _
      rw [hs.2, Nat.add_comm, Nat.mul_comm, this, ← hm2 i j hi hj]
      show _ = (mem m.buf)[i + j * m.size1]?
      rw [Nat.mul_comm]

theorem toHost_ok {dev host : List R} (h : dev.length = host.length) : toHost dev host = .ok dev := by
  unfold toHost; rw [if_pos (by omega), h, List.drop_length, List.append_nil]

/-- **C111** (partial), host matrices: `trans (m, result, queue)` with a `result` of the right size. -/
theorem C111_trans_host_partial (dbg : Bool) (sch : Kernel R → List Nat) (hf : ∀ K : Kernel R, K.Complete (sch K)) (junk : Nat → R) (l : Lay) (hl : l.std = true) (m result : Dense R)
    (a : Nat → Nat → R) (hm : HostIs l m a) (hr : result.data.length = result.size1 * result.size2) (hs : result.size1 = m.size2 ∧ result.size2 = m.size1)
    (hn : m.size1 * m.size2 < 2 ^ 32) :
    ∃ r, transHost dbg sch junk l m result = .ok r ∧ r.size1 = m.size2 ∧ r.size2 = m.size1 ∧ HostIs l r (fun i j => a j i) := by
  obtain ⟨mem', e, ⟨h1, h2⟩, _⟩ := C111_trans_partial dbg sch hf l hl ⟨m.size1, m.size2, 0⟩ ⟨result.size1, result.size2, 2⟩
    (hostMem m.data [] (result.size1 * result.size2) junk) a hm (by simp [hostMem]) hs (by simp) hn
  refine ⟨{ result with data := mem' 2 }, ?_, hs.1, hs.2, h1, h2⟩
  unfold transHost
  simp only [DMat.len]
  rw [e, bind_ok, toHost_ok (by rw [hr]; exact h1), bind_ok]

end transpose

/-- **C111** refuted in place: `trans (m, m, queue)` on a 2 x 2 matrix depends on the interleaving: one item after the other gives 1 2 / 2 4, another order 1 3 / 2 4. -/
theorem C111_in_place_refuted : ∃ (s1 s2 : List Nat), (transposeK 0 0 2 2 : Kernel Int).Complete s1 ∧ (transposeK 0 0 2 2 : Kernel Int).Complete s2 ∧
    ((trans true (fun _ => s1) ⟨.row, true⟩ ⟨2, 2, 0⟩ ⟨2, 2, 0⟩ fun _ => [(1 : Int), 2, 3, 4]).map fun m => m 0) = .ok [1, 2, 2, 4] ∧
    ((trans true (fun _ => s2) ⟨.row, true⟩ ⟨2, 2, 0⟩ ⟨2, 2, 0⟩ fun _ => [(1 : Int), 2, 3, 4]).map fun m => m 0) = .ok [1, 3, 2, 4] := by
  refine ⟨[0, 0, 1, 1, 2, 2, 3, 3], [0, 1, 2, 3, 0, 1, 2, 3], ⟨by decide, fun x hx => ?_⟩, ⟨by decide, fun x hx => ?_⟩, by rfl, by rfl⟩
  all_goals
    have : x = 0 ∨ x = 1 ∨ x = 2 ∨ x = 3 := by have : x < 4 := hx; omega
    rcases this with rfl | rfl | rfl | rfl <;> decide

/-- **C111** refuted for `basic_row_major` with other than the default size types: it is taken for a column-major layout, and the transpose of 1 2 3 / 4 5 6 becomes 1 3 / 5 2 / 4 6. -/
theorem C111_layout_refuted : ((trans true Kernel.seq ⟨.row, false⟩ ⟨2, 3, 0⟩ ⟨3, 2, 1⟩ fun b => if b = 0 then [(1 : Int), 2, 3, 4, 5, 6] else List.replicate 6 0).map fun m => m 1) =
    .ok [1, 3, 5, 2, 4, 6] := by rfl

/-- **C111** refuted for 2^32 elements: the width passed to the kernel is cut to 32 bits, here to 0, and no work item does anything, in any interleaving. -/
theorem C111_size_refuted (dbg : Bool) (sch : Kernel Int → List Nat) (mem : Mem Int) : trans dbg sch ⟨.row, true⟩ ⟨1, 2 ^ 32, 0⟩ ⟨2 ^ 32, 1, 1⟩ mem = .ok mem := by
  unfold trans
  rw [check_true ⟨rfl, rfl⟩, bind_ok]
  have hK : ∀ x, (transposeK 0 1 (2 ^ 32) 1 : Kernel Int).act x = false := by
    intro x
    show (decide (u32 (x % 2 ^ 32) < u32 (2 ^ 32)) && decide (u32 (x / 2 ^ 32) < u32 1)) = false
    have : u32 (2 ^ 32) = 0 := by rfl
    rw [this]; simp
  show (transposeK 0 1 (2 ^ 32) 1 : Kernel Int).run _ mem = _
  have hst : ∀ st x, (transposeK 0 1 (2 ^ 32) 1 : Kernel Int).step st x = .ok st := fun st x => by
    unfold Kernel.step; rw [if_pos (.inl (hK x))]
  have hfold : ∀ (l : List Nat) st, l.foldlM (transposeK 0 1 (2 ^ 32) 1 : Kernel Int).step st = .ok st := by
    intro l
    induction l with
    | nil => intro st; rfl
    | cons x l ih => intro st; rw [List.foldlM_cons, hst]; exact ih st
  unfold Kernel.run
  rw [hfold]; rfl

/-- Non-vacuity of C111: a 2 x 3 matrix, sequential and lock-step interleavings. -/
example : ((trans true Kernel.seq ⟨.row, true⟩ ⟨2, 3, 0⟩ ⟨3, 2, 1⟩ fun b => if b = 0 then [(1 : Int), 2, 3, 4, 5, 6] else List.replicate 6 0).map fun m => m 1) = .ok [1, 4, 2, 5, 3, 6] ∧
    ((trans true (fun _ => [5, 4, 3, 2, 1, 0, 0, 1, 2, 3, 4, 5]) ⟨.row, true⟩ ⟨2, 3, 0⟩ ⟨3, 2, 1⟩ fun b => if b = 0 then [(1 : Int), 2, 3, 4, 5, 6] else List.replicate 6 0).map fun m => m 1) =
      .ok [1, 4, 2, 5, 3, 6] := ⟨by rfl, by rfl⟩

/-! ## C112: products -/

section gemm

theorem fillK_ok [Zero R] {b n : Nat} (v : R) {m : Mem R} (h : (m b).length = n) {sched : List Nat} (hc : (fillK b n v).Complete sched) :
    ∃ m', (fillK b n v).run sched m = .ok m' ∧ Frame m m' b ∧ m' b = List.replicate n v := by
  have hs : (fillK b n v).Safe m := {
    src := fun x _ _ p hp => by cases hp
    dst := fun x hx _ => by have hx : x < n := hx; show x < (m b).length; omega
    inj := fun x y _ _ _ _ e => (Prod.mk.inj e).2
    disj := fun x y _ _ _ _ _ hm => by cases hm }
  obtain ⟨m', e, hr⟩ := Kernel.run_ok hs hc
  refine ⟨m', e, hr.frame fun _ _ _ => rfl, List.ext_getElem? fun i => ?_⟩
  rw [List.getElem?_replicate]
  split
  · rename_i hi; exact hr.2.1 i hi rfl
  · rename_i hi
    rw [List.getElem?_eq_none]
    rw [hr.1 b, h]; omega

variable [Semiring R]

/-- Value of the inner product of row `i` of `a` and column `j` of `b`. -/
def dot (k : Nat) (a b : Nat → Nat → R) (i j : Nat) : R := ((List.range k).map fun p => a i p * b p j).sum

theorem gemmFn {k : Nat} (c : R) (f g : Nat → R) :
    (fun l : List R => l.getD 0 0 + ((List.range k).map fun p => l.getD (1 + p) 0 * l.getD (1 + k + p) 0).sum) (c :: (List.range k).map f ++ (List.range k).map g) =
      c + ((List.range k).map fun p => f p * g p).sum := by
  dsimp only
  congr 1
  congr 1
  refine List.map_congr_left fun p hp => ?_
  rw [List.mem_range] at hp
  congr 1
  · rw [Nat.add_comm 1 p, List.cons_append, List.getD_cons_succ, List.getD_eq_getElem?_getD, List.getElem?_append_left (by simpa using hp)]
    simp [hp]
  · rw [show 1 + k + p = (k + p) + 1 by omega, List.cons_append, List.getD_cons_succ, List.getD_eq_getElem?_getD, List.getElem?_append_right (by simp)]
    simp [hp]

/-- The leading dimension of a compact `r` x `c` matrix. -/
def ldOf (o : Orient) (r c : Nat) : Nat := match o with | .row => c | .col => r

/-- clBLAS `gemm` as called by ublas: compact matrices in the order of the layout. -/
theorem gemm_ok (sch : Kernel R → List Nat) (hf : ∀ K : Kernel R, K.Complete (sch K)) (o : Orient) (m n k ba bb bc lda ldb ldc : Nat) (mem : Mem R) (a b c : Nat → Nat → R)
    (hlda : lda = ldOf o m k) (hldb : ldb = ldOf o k n) (hldc : ldc = ldOf o m n)
    (ha : (mem ba).length = m * k ∧ ∀ i j, i < m → j < k → (mem ba)[o.elementRaw i m j k]? = some (a i j))
    (hb : (mem bb).length = k * n ∧ ∀ i j, i < k → j < n → (mem bb)[o.elementRaw i k j n]? = some (b i j))
    (hc : (mem bc).length = m * n ∧ ∀ i j, i < m → j < n → (mem bc)[o.elementRaw i m j n]? = some (c i j))
    (h1 : bc ≠ ba) (h2 : bc ≠ bb) :
    ∃ mem', gemm sch (o == .row) m n k ba lda bb ldb bc ldc mem = .ok mem' ∧ (mem' bc).length = m * n ∧ Frame mem mem' bc ∧
      ∀ i j, i < m → j < n → (mem' bc)[o.elementRaw i m j n]? = some (c i j + dot k a b i j) := by
  have hat : ∀ r q i j ld, ld = ldOf o r q → blasAt (o == .row) ld i j = o.elementRaw i r j q := by
    intro r q i j ld h; subst h
    cases o <;> rfl
  have hneed : ∀ r q ld, ld = ldOf o r q → r ≠ 0 → q ≠ 0 → blasNeed (o == .row) ld r q = r * q := by
    intro r q ld h hr hq; subst h
    cases o
    · show (r - 1) * q + q = r * q
      obtain ⟨r, rfl⟩ := Nat.exists_eq_succ_of_ne_zero hr
      rw [Nat.succ_sub_one, Nat.succ_mul]
    · show r + (q - 1) * r = r * q
      obtain ⟨q, rfl⟩ := Nat.exists_eq_succ_of_ne_zero hq
      rw [Nat.succ_sub_one, Nat.mul_comm r, Nat.succ_mul, Nat.add_comm]
  unfold gemm
  by_cases h0 : m = 0 ∨ n = 0 ∨ k = 0
  · rw [if_pos h0]
    refine ⟨mem, rfl, hc.1, fun _ _ => rfl, fun i j hi hj => ?_⟩
    rw [hc.2 i j hi hj]
    rcases h0 with rfl | rfl | rfl
    · omega
    · omega
    · simp [dot]
  · rw [if_neg h0]
    rw [not_or, not_or] at h0
    rw [if_neg (by subst hlda hldb hldc; cases o <;> simp [ldOf])]
    rw [if_neg (by rw [hneed m k lda hlda h0.1 h0.2.2, hneed k n ldb hldb h0.2.2 h0.2.1, hneed m n ldc hldc h0.1 h0.2.1, ha.1, hb.1, hc.1]; omega)]
    have hsrc : ∀ x, (gemmK (o == .row) m n k ba lda bb ldb bc ldc : Kernel R).src x = (bc, o.elementRaw (x / n) m (x % n) n) ::
        (List.range k).map (fun p => (ba, o.elementRaw (x / n) m p k)) ++ (List.range k).map fun p => (bb, o.elementRaw p k (x % n) n) := by
      intro x
      show (bc, blasAt _ ldc (x / n) (x % n)) :: (List.range k).map (fun p => (ba, blasAt _ lda (x / n) p)) ++ (List.range k).map (fun p => (bb, blasAt _ ldb p (x % n))) = _
      simp only [hat m k _ _ lda hlda, hat k n _ _ ldb hldb, hat m n _ _ ldc hldc]
    have hdst : ∀ x, (gemmK (o == .row) m n k ba lda bb ldb bc ldc : Kernel R).dst x = (bc, o.elementRaw (x / n) m (x % n) n) := by
      intro x
      show (bc, blasAt _ ldc (x / n) (x % n)) = _
      rw [hat m n _ _ ldc hldc]
    have hs : (gemmK (o == .row) m n k ba lda bb ldb bc ldc : Kernel R).Safe mem := {
      src := fun x hx _ p hp => by
        obtain ⟨d1, d2⟩ := div_lt_items (show x < m * n from hx)
        rw [hsrc x, List.cons_append, List.mem_cons, List.mem_append, List.mem_map, List.mem_map] at hp
        rcases hp with rfl | ⟨q, hq, rfl⟩ | ⟨q, hq, rfl⟩
        · show _ < (mem bc).length; rw [hc.1]; exact raw_lt o d1 d2
        · show _ < (mem ba).length; rw [ha.1]; exact raw_lt o d1 (by simpa using hq)
        · show _ < (mem bb).length; rw [hb.1]; exact raw_lt o (by simpa using hq) d2
      dst := fun x hx _ => by
        obtain ⟨d1, d2⟩ := div_lt_items (show x < m * n from hx)
        rw [hdst x]; show _ < (mem bc).length; rw [hc.1]; exact raw_lt o d1 d2
      inj := fun x y hx hy _ _ e => by
        obtain ⟨d1, d2⟩ := div_lt_items (show x < m * n from hx)
        obtain ⟨d3, d4⟩ := div_lt_items (show y < m * n from hy)
        rw [hdst x, hdst y, Prod.mk.injEq] at e
        obtain ⟨e1, e2⟩ := raw_inj o d1 d2 d3 d4 e.2
        rw [← Nat.div_add_mod x n, ← Nat.div_add_mod y n, e1, e2]
      disj := fun x y hx hy _ _ hne hm => by
        obtain ⟨d1, d2⟩ := div_lt_items (show x < m * n from hx)
        obtain ⟨d3, d4⟩ := div_lt_items (show y < m * n from hy)
        rw [hsrc x, hdst y, List.cons_append, List.mem_cons, List.mem_append, List.mem_map, List.mem_map] at hm
        rcases hm with e | ⟨q, _, e⟩ | ⟨q, _, e⟩
        · rw [Prod.mk.injEq] at e
          obtain ⟨e1, e2⟩ := raw_inj o d3 d4 d1 d2 e.2
          exact hne (by rw [← Nat.div_add_mod x n, ← Nat.div_add_mod y n, e1, e2])
        · exact h1 (Prod.mk.inj e).1.symm
        · exact h2 (Prod.mk.inj e).1.symm }
    obtain ⟨mem', e, hr⟩ := Kernel.run_ok hs (hf _)
    refine ⟨mem', e, (hr.1 bc).trans hc.1, hr.frame fun x _ _ => by rw [hdst x], fun i j hi hj => ?_⟩
    have hlt := mulAdd_lt hi hj
    obtain ⟨q1, q2⟩ := mulAdd_div (k := i) hj
    have := hr.2.1 (i * n + j) hlt rfl
    rw [hdst, hsrc, q1, q2] at this
    refine this.trans (congrArg some ?_)
    simp only [List.cons_append, List.map_cons, List.map_append, List.map_map]
    refine (gemmFn (k := k) _ _ _).trans ?_
    congr 1
    · show ((mem bc)[o.elementRaw i m j n]?).getD 0 = _
      rw [hc.2 i j hi hj]; rfl
    · unfold dot
      congr 1
      refine List.map_congr_left fun p hp => ?_
      rw [List.mem_range] at hp
      show ((mem ba)[o.elementRaw i m p k]?).getD 0 * ((mem bb)[o.elementRaw p k j n]?).getD 0 = _
      rw [ha.2 i p hi hp, hb.2 p j hp hj]; rfl

theorem Lay.isRow_std {l : Lay} (h : l.std = true) : l.isRow = (l.o == .row) := by
  obtain ⟨o, s⟩ := l
  simp only at h; subst h
  cases o <;> rfl

theorem ite_row (o : Orient) (r c : Nat) : (if (o == Orient.row) = true then c else r) = ldOf o r c := by cases o <;> rfl

/-- **C112** (partial).  `prod (a, b, result, queue)` for device matrices of the default layouts (`b` may have the other layout) and a `result` of the right size that is neither `a` nor `b`:
for every interleaving of the work items of every kernel, the result is the matrix product, and the operands keep their contents.  Missing: `result` also an operand (`C112_in_place_refuted`), other
sizes of `result` (`C112_result_size_refuted`), layouts with other size types (as C111). -/
theorem C112_prod_partial (dbg : Bool) (sch : Scheduler R) (hf : sch.Fair) (junk : Nat → R) (l1 l2 : Lay) (h1 : l1.std = true) (h2 : l2.std = true) (a b result : DMat) (tmp : Nat)
    (mem : Mem R) (x y : Nat → Nat → R) (ha : MatIs mem l1 a x) (hb : MatIs mem l2 b y) (hr : (mem result.buf).length = result.size1 * result.size2)
    (hk : a.size2 = b.size1) (hs : result.size1 = a.size1 ∧ result.size2 = b.size2) (hn : l1 ≠ l2 → b.size1 * b.size2 < 2 ^ 32)
    (hd : result.buf ≠ a.buf ∧ result.buf ≠ b.buf ∧ tmp ≠ a.buf ∧ tmp ≠ b.buf ∧ tmp ≠ result.buf) :
    ∃ mem', prodMM dbg sch junk l1 l2 a b result tmp mem = .ok mem' ∧ MatIs mem' l1 result (dot a.size2 x y) ∧ ∀ b', b' ≠ result.buf → b' ≠ tmp → mem' b' = mem b' := by
  obtain ⟨d1, d2, d3, d4, d5⟩ := hd
  obtain ⟨m1, e1, f1, z1⟩ := fillK_ok (n := result.len) (0 : R) hr (hf 0 _)
  unfold prodMM
  rw [check_true hk, bind_ok, e1, bind_ok]
  have hres : (m1 result.buf).length = a.size1 * b.size2 ∧ ∀ i j, i < a.size1 → j < b.size2 → (m1 result.buf)[l1.o.elementRaw i a.size1 j b.size2]? = some (0 : R) := by
    have hl : result.len = a.size1 * b.size2 := by unfold DMat.len; rw [hs.1, hs.2]
    rw [z1, hl]
    refine ⟨by simp, fun i j hi hj => ?_⟩
    rw [List.getElem?_replicate, if_pos (raw_lt l1.o hi hj)]
  -- the operand b in layout 1
  obtain ⟨m2, bb, e2, f2, g2, h2', hbb⟩ : ∃ (m2 : Mem R) (bb : Nat), (if l1 = l2 then .ok (m1, b.buf) else do
      let bl1 : DMat := ⟨b.size1, b.size2, tmp⟩
      let mem ← changeLayout dbg (sch 1) l2 l1 b bl1 (m1.alloc tmp bl1.len junk)
      .ok (mem, tmp) : M (Mem R × Nat)) = .ok (m2, bb) ∧ (∀ b', b' ≠ tmp → m2 b' = m1 b') ∧ (m2 bb).length = b.size1 * b.size2 ∧
      (∀ i j, i < b.size1 → j < b.size2 → (m2 bb)[l1.o.elementRaw i b.size1 j b.size2]? = some (y i j)) ∧ result.buf ≠ bb := by
    by_cases hl : l1 = l2
    · subst hl
      rw [if_pos rfl]
      refine ⟨m1, b.buf, rfl, fun _ _ => rfl, ?_, fun i j hi hj => ?_, d2⟩
      · rw [f1 _ d2.symm]; exact hb.1
      · rw [f1 _ d2.symm]; exact hb.2 i j hi hj
    · rw [if_neg hl]
      have hal : ∀ b', b' ≠ tmp → (m1.alloc tmp (DMat.len ⟨b.size1, b.size2, tmp⟩) junk) b' = m1 b' := fun b' h => by unfold Mem.alloc; rw [if_neg h]
      have hbm : MatIs (m1.alloc tmp (DMat.len ⟨b.size1, b.size2, tmp⟩) junk) l2 b y := by
        unfold MatIs
        rw [hal _ d4.symm, f1 _ d2.symm]; exact hb
      obtain ⟨m2, e2, p2, q2⟩ := C111_change_layout_partial dbg (sch 1) (hf 1) l2 l1 h2 h1 (Ne.symm hl) b ⟨b.size1, b.size2, tmp⟩ _ y hbm
        (by simp [Mem.alloc, DMat.len]) ⟨rfl, rfl⟩ d4.symm (hn hl)
      refine ⟨m2, tmp, ?_, fun b' h => by rw [q2 b' h, hal b' h], p2.1, p2.2, d5.symm⟩
      simp only [e2, bind_ok]
  rw [e2, bind_ok]
  dsimp only
  rw [Lay.isRow_std h1]
  obtain ⟨m3, e3, g3, f3, v3⟩ := gemm_ok (sch 2) (hf 2) l1.o a.size1 b.size2 a.size2 a.buf bb result.buf _ _ _ m2 x y (fun _ _ => 0) (ite_row l1.o _ _) (ite_row l1.o _ _) (ite_row l1.o _ _)
    (by rw [f2 _ d3.symm, f1 _ d1.symm]; exact ha) (by rw [hk]; exact ⟨g2, h2'⟩) (by rw [f2 _ d5.symm]; exact hres) d1 hbb
  refine ⟨m3, e3, ⟨by rw [g3, hs.1, hs.2], fun i j hi hj => ?_⟩, fun b' n1 n2 => by rw [f3 b' n1, f2 b' n2, f1 b' n1]⟩
  rw [hs.1] at hi; rw [hs.2] at hj
  rw [hs.1, hs.2, v3 i j hi hj, zero_add]

/-- **C112** (partial).  `prod (a, b, result, queue)`: matrix times vector on the device. -/
theorem C112_prod_vector_partial (dbg : Bool) (sch : Scheduler R) (hf : sch.Fair) (l : Lay) (hl : l.std = true) (a : DMat) (b result : DVec) (mem : Mem R) (x : Nat → Nat → R) (y : Nat → R)
    (ha : MatIs mem l a x) (hb : VecIs mem b y) (hr : (mem result.buf).length = result.size) (hk : a.size2 = b.size) (hs : result.size = a.size1)
    (hd : result.buf ≠ a.buf ∧ result.buf ≠ b.buf) :
    ∃ mem', prodMV dbg sch l a b result mem = .ok mem' ∧ VecIs mem' result (fun i => ((List.range a.size2).map fun p => x i p * y p).sum) ∧ Frame mem mem' result.buf := by
  obtain ⟨m1, e1, f1, z1⟩ := fillK_ok (n := result.size) (0 : R) hr (hf 0 _)
  unfold prodMV
  rw [check_true hk, bind_ok, e1, bind_ok]
  dsimp only
  rw [Lay.isRow_std hl]
  have hcol : ∀ (o : Orient) i r, o.elementRaw i r 0 1 = i := by intro o i r; cases o <;> simp [Orient.elementRaw]
  obtain ⟨m3, e3, g3, f3, v3⟩ := gemm_ok (sch 1) (hf 1) l.o a.size1 1 a.size2 a.buf b.buf result.buf _ _ _ m1 x (fun i _ => y i) (fun _ _ => 0) (ite_row l.o _ _) (ite_row l.o _ _)
    (ite_row l.o _ _) (by rw [f1 _ hd.1.symm]; exact ha)
    (by
      rw [f1 _ hd.2.symm]
      refine ⟨by rw [hb.1, hk]; omega, fun i j hi hj => ?_⟩
      obtain rfl : j = 0 := by omega
      rw [hcol]; exact hb.2 i (by omega))
    (by
      rw [z1]
      refine ⟨by rw [List.length_replicate, hs]; omega, fun i j hi hj => ?_⟩
      obtain rfl : j = 0 := by omega
      rw [hcol, List.getElem?_replicate, if_pos (by omega)]) hd.1 hd.2
  refine ⟨m3, e3, ⟨by rw [g3, hs]; omega, fun i hi => ?_⟩, fun b' n1 => by rw [f3 b' n1, f1 b' n1]⟩
  have := v3 i 0 (by omega) (by omega)
  rw [hcol, zero_add] at this
  exact this

/-- **C112** (partial).  `prod (a, b, result, queue)`: vector times matrix on the device. -/
theorem C112_vector_prod_partial (dbg : Bool) (sch : Scheduler R) (hf : sch.Fair) (l : Lay) (hl : l.std = true) (a : DVec) (b : DMat) (result : DVec) (mem : Mem R) (x : Nat → R)
    (y : Nat → Nat → R) (ha : VecIs mem a x) (hb : MatIs mem l b y) (hr : (mem result.buf).length = result.size) (hk : a.size = b.size1) (hs : result.size = b.size2)
    (hd : result.buf ≠ a.buf ∧ result.buf ≠ b.buf) :
    ∃ mem', prodVM dbg sch l a b result mem = .ok mem' ∧ VecIs mem' result (fun j => ((List.range a.size).map fun p => x p * y p j).sum) ∧ Frame mem mem' result.buf := by
  obtain ⟨m1, e1, f1, z1⟩ := fillK_ok (n := result.size) (0 : R) hr (hf 0 _)
  unfold prodVM
  rw [check_true hk, bind_ok, e1, bind_ok]
  dsimp only
  rw [Lay.isRow_std hl]
  have hrow : ∀ (o : Orient) j c, o.elementRaw 0 1 j c = j := by intro o j c; cases o <;> simp [Orient.elementRaw]
  obtain ⟨m3, e3, g3, f3, v3⟩ := gemm_ok (sch 1) (hf 1) l.o 1 b.size2 a.size a.buf b.buf result.buf _ _ _ m1 (fun _ p => x p) y (fun _ _ => 0) (ite_row l.o _ _) (ite_row l.o _ _)
    (ite_row l.o _ _)
    (by
      rw [f1 _ hd.1.symm]
      refine ⟨by rw [ha.1]; omega, fun i j hi hj => ?_⟩
      obtain rfl : i = 0 := by omega
      rw [hrow]; exact ha.2 j hj)
    (by rw [f1 _ hd.2.symm, hk]; exact hb)
    (by
      rw [z1]
      refine ⟨by rw [List.length_replicate, hs]; omega, fun i j hi hj => ?_⟩
      obtain rfl : i = 0 := by omega
      rw [hrow, List.getElem?_replicate, if_pos (by omega)]) hd.1 hd.2
  refine ⟨m3, e3, ⟨by rw [g3, hs]; omega, fun j hj => ?_⟩, fun b' n1 => by rw [f3 b' n1, f1 b' n1]⟩
  have := v3 0 j (by omega) (by omega)
  rw [hrow, zero_add] at this
  exact this

/-- **C112** (partial).  `outer_prod (a, b, result, queue)` on the device. -/
theorem C112_outer_prod_partial (sch : Scheduler R) (hf : sch.Fair) (l : Lay) (hl : l.std = true) (a b : DVec) (result : DMat) (mem : Mem R) (x y : Nat → R)
    (ha : VecIs mem a x) (hb : VecIs mem b y) (hr : (mem result.buf).length = result.size1 * result.size2) (hs : result.size1 = a.size ∧ result.size2 = b.size)
    (hd : result.buf ≠ a.buf ∧ result.buf ≠ b.buf) :
    ∃ mem', outerProd sch l a b result mem = .ok mem' ∧ MatIs mem' l result (fun i j => x i * y j) ∧ Frame mem mem' result.buf := by
  obtain ⟨m1, e1, f1, z1⟩ := fillK_ok (n := result.len) (0 : R) hr (hf 0 _)
  unfold outerProd
  rw [e1, bind_ok]
  dsimp only
  rw [Lay.isRow_std hl]
  have hcol : ∀ (o : Orient) i r, o.elementRaw i r 0 1 = i := by intro o i r; cases o <;> simp [Orient.elementRaw]
  have hrow : ∀ (o : Orient) j c, o.elementRaw 0 1 j c = j := by intro o j c; cases o <;> simp [Orient.elementRaw]
  obtain ⟨m3, e3, g3, f3, v3⟩ := gemm_ok (sch 1) (hf 1) l.o a.size b.size 1 a.buf b.buf result.buf _ _ _ m1 (fun i _ => x i) (fun _ j => y j) (fun _ _ => 0) (ite_row l.o _ _) (ite_row l.o _ _)
    (ite_row l.o _ _)
    (by
      rw [f1 _ hd.1.symm]
      refine ⟨by rw [ha.1]; omega, fun i j hi hj => ?_⟩
      obtain rfl : j = 0 := by omega
      rw [hcol]; exact ha.2 i hi)
    (by
      rw [f1 _ hd.2.symm]
      refine ⟨by rw [hb.1]; omega, fun i j hi hj => ?_⟩
      obtain rfl : i = 0 := by omega
      rw [hrow]; exact hb.2 j hj)
    (by
      have hl : result.len = a.size * b.size := by unfold DMat.len; rw [hs.1, hs.2]
      rw [z1, hl]
      refine ⟨by simp, fun i j hi hj => ?_⟩
      rw [List.getElem?_replicate, if_pos (raw_lt l.o hi hj)]) hd.1 hd.2
  refine ⟨m3, e3, ⟨by rw [g3, hs.1, hs.2], fun i j hi hj => ?_⟩, fun b' n1 => by rw [f3 b' n1, f1 b' n1]⟩
  rw [hs.1] at hi; rw [hs.2] at hj
  rw [hs.1, hs.2, v3 i j hi hj, zero_add]
  simp [dot]

/-- **C112** (partial), host matrices: `prod (a, b, queue)` returns the matrix product.  Missing: layouts with other size types, and an operand of 2^32 or more elements in the other layout. -/
theorem C112_prod_host_partial (dbg : Bool) (sch : Scheduler R) (hf : sch.Fair) (junk : Nat → R) (l1 l2 : Lay) (h1 : l1.std = true) (h2 : l2.std = true) (a b : Dense R) (x y : Nat → Nat → R)
    (ha : HostIs l1 a x) (hb : HostIs l2 b y) (hk : a.size2 = b.size1) (hn : l1 ≠ l2 → b.size1 * b.size2 < 2 ^ 32) :
    ∃ r, prodMMNew dbg sch junk l1 l2 a b = .ok r ∧ r.size1 = a.size1 ∧ r.size2 = b.size2 ∧ HostIs l1 r (dot a.size2 x y) := by
  obtain ⟨mem', e, ⟨g1, g2⟩, _⟩ := C112_prod_partial dbg sch hf junk l1 l2 h1 h2 ⟨a.size1, a.size2, 0⟩ ⟨b.size1, b.size2, 1⟩ ⟨a.size1, b.size2, 2⟩ 3
    (hostMem a.data b.data (a.size1 * b.size2) junk) x y ha hb (by simp [hostMem]) hk ⟨rfl, rfl⟩ hn (by refine ⟨?_, ?_, ?_, ?_, ?_⟩ <;> simp)
  refine ⟨⟨a.size1, b.size2, mem' 2⟩, ?_, rfl, rfl, g1, g2⟩
  unfold prodMMNew prodMMHost
  simp only [DMat.len]
  rw [e, bind_ok, toHost_ok (by rw [g1]; simp [Dense.mk', Orient.storageSize]), bind_ok]
  rfl

end gemm

/-- **C112** refuted when the result is an operand: `prod (a, b, a, queue)` first fills `a` with zeros; identity times identity gives zero. -/
theorem C112_in_place_refuted : ((prodMM true seqSched (fun _ => 0) ⟨.row, true⟩ ⟨.row, true⟩ ⟨1, 1, 0⟩ ⟨1, 1, 1⟩ ⟨1, 1, 0⟩ 3 fun _ => [(1 : Int)]).map fun m => m 0) = .ok [0] := by rfl

/-- **C112** refuted for a `result` of another size: `to_host` says the matrix "will be resized", but it is not: a 2 x 2 product written to a 1 x 1 matrix runs over its storage, and written to a
1 x 6 matrix leaves it 1 x 6 with two stale elements — also in debug builds. -/
theorem C112_result_size_refuted : prodMMHost true seqSched (fun _ => 0) ⟨.row, true⟩ ⟨.row, true⟩ ⟨2, 2, [1, 2, 3, 4]⟩ ⟨2, 2, [1, 0, 0, (1 : Int)]⟩ ⟨1, 1, [9]⟩ = .error .ub ∧
    prodMMHost true seqSched (fun _ => 0) ⟨.row, true⟩ ⟨.row, true⟩ ⟨2, 2, [1, 2, 3, 4]⟩ ⟨2, 2, [1, 0, 0, (1 : Int)]⟩ ⟨1, 6, [9, 9, 9, 9, 9, 9]⟩ = .ok ⟨1, 6, [1, 2, 3, 4, 9, 9]⟩ := ⟨by rfl, by rfl⟩

/-- Non-vacuity of C112: a 2 x 2 product with operands of different layout, in two interleavings. -/
example : prodMMNew true seqSched (fun _ => 7) ⟨.row, true⟩ ⟨.col, true⟩ ⟨2, 2, [1, 2, 3, 4]⟩ (⟨2, 2, [5, 7, 6, 8]⟩ : Dense Int) = .ok ⟨2, 2, [19, 22, 43, 50]⟩ ∧
    prodMMNew true (fun _ K => K.seq.reverse) (fun _ => 7) ⟨.row, true⟩ ⟨.col, true⟩ ⟨2, 2, [1, 2, 3, 4]⟩ (⟨2, 2, [5, 7, 6, 8]⟩ : Dense Int) = .ok ⟨2, 2, [19, 22, 43, 50]⟩ := ⟨by rfl, by rfl⟩

/-! ## C113: element-wise operations -/

section elementwise
variable [Zero R]

theorem zipK_ok (op : R → R → R) {n a b r : Nat} {m : Mem R} (h1 : n ≤ (m a).length) (h2 : n ≤ (m b).length) (h3 : n ≤ (m r).length) {sched : List Nat}
    (hc : (zipK n a b r op).Complete sched) :
    ∃ m', (zipK n a b r op).run sched m = .ok m' ∧ Frame m m' r ∧ (m' r).length = (m r).length ∧ ∀ x, x < n → (m' r)[x]? = some (op ((m a)[x]?.getD 0) ((m b)[x]?.getD 0)) := by
  have hs : (zipK n a b r op).Safe m := {
    src := fun x hx _ p hp => by
      have hx : x < n := hx
      have hp : p ∈ [(a, x), (b, x)] := hp
      rcases List.mem_cons.1 hp with rfl | hp
      · show x < (m a).length; omega
      · rw [List.mem_singleton] at hp; subst hp; show x < (m b).length; omega
    dst := fun x hx _ => by have hx : x < n := hx; show x < (m r).length; omega
    inj := fun x y _ _ _ _ e => (Prod.mk.inj e).2
    disj := fun x y _ _ _ _ hne hm => by
      have hm : (r, y) ∈ [(a, x), (b, x)] := hm
      rcases List.mem_cons.1 hm with e | hm
      · exact hne (Prod.mk.inj e).2.symm
      · rw [List.mem_singleton] at hm; exact hne (Prod.mk.inj hm).2.symm }
  obtain ⟨m', e, hr⟩ := Kernel.run_ok hs hc
  exact ⟨m', e, hr.frame fun _ _ _ => rfl, hr.1 r, fun x hx => hr.2.1 x hx rfl⟩

theorem mapK_ok (op : R → R) {n a r : Nat} {m : Mem R} (h1 : n ≤ (m a).length) (h3 : n ≤ (m r).length) {sched : List Nat} (hc : (mapK n a r op).Complete sched) :
    ∃ m', (mapK n a r op).run sched m = .ok m' ∧ Frame m m' r ∧ (m' r).length = (m r).length ∧ ∀ x, x < n → (m' r)[x]? = some (op ((m a)[x]?.getD 0)) := by
  have hs : (mapK n a r op).Safe m := {
    src := fun x hx _ p hp => by
      have hx : x < n := hx
      have hp : p ∈ [(a, x)] := hp
      rw [List.mem_singleton] at hp; subst hp; show x < (m a).length; omega
    dst := fun x hx _ => by have hx : x < n := hx; show x < (m r).length; omega
    inj := fun x y _ _ _ _ e => (Prod.mk.inj e).2
    disj := fun x y _ _ _ _ hne hm => by
      have hm : (r, y) ∈ [(a, x)] := hm
      rw [List.mem_singleton] at hm; exact hne (Prod.mk.inj hm).2.symm }
  obtain ⟨m', e, hr⟩ := Kernel.run_ok hs hc
  exact ⟨m', e, hr.frame fun _ _ _ => rfl, hr.1 r, fun x hx => hr.2.1 x hx rfl⟩

/-- **C113** (partial).  `element_wise (a, b, result, op, queue)` (element_add, element_prod, element_div) for device matrices of one orientation; the result may be one of the operands: for
every interleaving, element (i, j) of the result is `op` of the operands' elements (i, j).  Missing: operands of different orientation (`C113_layout_refuted`) and a smaller
result (`C113_result_size_refuted`). -/
theorem C113_element_wise_partial (dbg : Bool) (sch : Kernel R → List Nat) (hf : ∀ K : Kernel R, K.Complete (sch K)) (op : R → R → R) (l1 l2 l3 : Lay) (hl : l1.o = l2.o ∧ l1.o = l3.o)
    (a b result : DMat) (mem : Mem R) (x y : Nat → Nat → R) (ha : MatIs mem l1 a x) (hb : MatIs mem l2 b y) (hr : (mem result.buf).length = result.size1 * result.size2)
    (hs : a.size1 = b.size1 ∧ a.size2 = b.size2) (ht : result.size1 = a.size1 ∧ result.size2 = a.size2) :
    ∃ mem', elementWise dbg sch op a b result mem = .ok mem' ∧ MatIs mem' l3 result (fun i j => op (x i j) (y i j)) ∧ Frame mem mem' result.buf := by
  unfold elementWise
  rw [check_true hs, bind_ok]
  obtain ⟨m', e, f, g, v⟩ := zipK_ok op (m := mem) (n := a.len) (a := a.buf) (b := b.buf) (r := result.buf) (by rw [ha.1]; exact Nat.le_refl _)
    (by rw [hb.1, ← hs.1, ← hs.2]; exact Nat.le_refl _) (by rw [hr, ht.1, ht.2]; exact Nat.le_refl _) (hf _)
  refine ⟨m', e, ⟨g.trans hr, fun i j hi hj => ?_⟩, f⟩
  rw [ht.1] at hi; rw [ht.2] at hj
  rw [ht.1, ht.2, ← hl.2, v _ (raw_lt l1.o hi hj), ha.2 i j hi hj]
  have := hb.2 i j (by omega) (by omega)
  rw [← hl.1, ← hs.1, ← hs.2] at this
  rw [this]; rfl

/-- **C113** for device vectors. -/
theorem C113_element_wise_vector_partial (dbg : Bool) (sch : Kernel R → List Nat) (hf : ∀ K : Kernel R, K.Complete (sch K)) (op : R → R → R) (a b result : DVec) (mem : Mem R) (x y : Nat → R)
    (ha : VecIs mem a x) (hb : VecIs mem b y) (hr : (mem result.buf).length = result.size) (hs : a.size = b.size) (ht : result.size = a.size) :
    ∃ mem', elementWiseVec dbg sch op a b result mem = .ok mem' ∧ VecIs mem' result (fun i => op (x i) (y i)) ∧ Frame mem mem' result.buf := by
  unfold elementWiseVec
  rw [check_true hs, bind_ok]
  obtain ⟨m', e, f, g, v⟩ := zipK_ok op (m := mem) (n := a.size) (a := a.buf) (b := b.buf) (r := result.buf) (by rw [ha.1]) (by rw [hb.1, ← hs]) (by rw [hr, ht]) (hf _)
  refine ⟨m', e, ⟨g.trans hr, fun i hi => ?_⟩, f⟩
  rw [ht] at hi
  rw [v i hi, ha.2 i hi, hb.2 i (by omega)]; rfl

/-- **C113** with a scalar (element_add, element_sub, element_scale). -/
theorem C113_scalar (dbg : Bool) (sch : Kernel R → List Nat) (hf : ∀ K : Kernel R, K.Complete (sch K)) (op : R → R) (l : Lay) (m result : DMat) (mem : Mem R) (x : Nat → Nat → R)
    (hm : MatIs mem l m x) (hr : (mem result.buf).length = result.size1 * result.size2) (hs : m.size1 = result.size1 ∧ m.size2 = result.size2) :
    ∃ mem', elementScalar dbg sch op m result mem = .ok mem' ∧ MatIs mem' l result (fun i j => op (x i j)) ∧ Frame mem mem' result.buf := by
  unfold elementScalar
  rw [check_true hs, bind_ok]
  obtain ⟨m', e, f, g, v⟩ := mapK_ok op (m := mem) (n := m.len) (a := m.buf) (r := result.buf) (by rw [hm.1]; exact Nat.le_refl _)
    (by rw [hr, ← hs.1, ← hs.2]; exact Nat.le_refl _) (hf _)
  refine ⟨m', e, ⟨g.trans hr, fun i j hi hj => ?_⟩, f⟩
  rw [← hs.1] at hi; rw [← hs.2] at hj
  rw [← hs.1, ← hs.2, v _ (raw_lt l.o hi hj), hm.2 i j hi hj]; rfl

/-- **C113**, host matrices: `element_add (a, b, queue)`, … for operands of one layout. -/
theorem C113_host_partial (dbg : Bool) (sch : Kernel R → List Nat) (hf : ∀ K : Kernel R, K.Complete (sch K)) (junk : Nat → R) (op : R → R → R) (l : Lay) (a b : Dense R) (x y : Nat → Nat → R)
    (ha : HostIs l a x) (hb : HostIs l b y) (hs : a.size1 = b.size1 ∧ a.size2 = b.size2) :
    ∃ r, elementWiseNew dbg sch junk op l a b = .ok r ∧ r.size1 = a.size1 ∧ r.size2 = a.size2 ∧ HostIs l r (fun i j => op (x i j) (y i j)) := by
  obtain ⟨mem', e, ⟨g1, g2⟩, _⟩ := C113_element_wise_partial dbg sch hf op l l l ⟨rfl, rfl⟩ ⟨a.size1, a.size2, 0⟩ ⟨b.size1, b.size2, 1⟩ ⟨a.size1, b.size2, 2⟩
    (hostMem a.data b.data (a.size1 * b.size2) junk) x y ha hb (by simp [hostMem]) hs ⟨rfl, hs.2.symm⟩
  refine ⟨⟨a.size1, b.size2, mem' 2⟩, ?_, rfl, hs.2.symm, g1, g2⟩
  unfold elementWiseNew elementWiseHost
  simp only [DMat.len]
  rw [e, bind_ok, toHost_ok (by rw [g1]; simp [Dense.mk', Orient.storageSize]), bind_ok]
  rfl

end elementwise

/-- **C113** refuted for operands of different layout: the template accepts them, but pairs the elements by their position in memory: 1 2 / 3 4 (row_major) plus 10 20 / 30 40 (column_major)
gives 11 32 / 23 44 instead of 11 22 / 33 44. -/
theorem C113_layout_refuted : ¬ ∀ (l1 l2 : Lay) (a b : Dense Int) (x y : Nat → Nat → Int), l1.std = true → l2.std = true → HostIs l1 a x → HostIs l2 b y → a.size1 = b.size1 ∧ a.size2 = b.size2 →
    ∃ r, elementWiseNew true Kernel.seq (fun _ => 0) (· + ·) l1 a b = .ok r ∧ HostIs l1 r (fun i j => x i j + y i j) := by
  intro h
  have hlt : ∀ {i : Nat}, i < 2 → i = 0 ∨ i = 1 := by omega
  obtain ⟨r, e, _, h2⟩ := h ⟨.row, true⟩ ⟨.col, true⟩ ⟨2, 2, [1, 2, 3, 4]⟩ ⟨2, 2, [10, 30, 20, 40]⟩ (fun i j => 2 * i + j + 1) (fun i j => 10 * (2 * i + j + 1)) rfl rfl
    ⟨rfl, fun i j hi hj => by rcases hlt hi with rfl | rfl <;> rcases hlt hj with rfl | rfl <;> rfl⟩
    ⟨rfl, fun i j hi hj => by rcases hlt hi with rfl | rfl <;> rcases hlt hj with rfl | rfl <;> rfl⟩ ⟨rfl, rfl⟩
  have : elementWiseNew true Kernel.seq (fun _ => 0) (· + ·) ⟨.row, true⟩ ⟨2, 2, [1, 2, 3, 4]⟩ (⟨2, 2, [10, 30, 20, 40]⟩ : Dense Int) = .ok ⟨2, 2, [11, 32, 23, 44]⟩ := by rfl
  rw [this] at e; cases e
  exact absurd (h2 0 1 (by decide) (by decide)) (by decide)

/-- **C113** refuted for a smaller result: the sizes of `result` are not looked at, and the transform writes past its buffer, also in debug builds. -/
theorem C113_result_size_refuted : ((elementWise true Kernel.seq (· + ·) ⟨1, 2, 0⟩ ⟨1, 2, 1⟩ ⟨1, 1, 2⟩ fun b => if b = 2 then [0] else [(1 : Int), 2]).map fun m => m 2) = .error .ub := by rfl

/-- Non-vacuity of C113: in place. -/
example : ((elementWise true Kernel.seq (· * ·) ⟨1, 2, 0⟩ ⟨1, 2, 1⟩ ⟨1, 2, 0⟩ fun b => if b = 0 then [3, 4] else [(1 : Int), 2]).map fun m => m 0) = .ok [3, 8] := by rfl

/-! ## C123: checks -/
section checks
variable [Zero R] [Add R] [Mul R]

/-- **C123** (partial).  In a debug build the OpenCL operations throw `internal_logic` when the sizes of their operands do not match - before any work item runs, so nothing is written.  Missing: the size of
the result of products and of element-wise operations of two operands (`C123_result_refuted`). -/
theorem C123_mismatch_partial (sch : Kernel R → List Nat) (sch' : Scheduler R) (junk : Nat → R) (l1 l2 : Lay) (op : R → R → R) (f : R → R) (a b result : DMat) (x y z : DVec) (tmp : Nat) (mem : Mem R) :
    (¬ (a.size1 = result.size2 ∧ a.size2 = result.size1) → trans true sch l1 a result mem = .error .internalLogic) ∧
    (¬ (a.size1 = result.size1 ∧ a.size2 = result.size2) → changeLayout true sch l1 l2 a result mem = .error .internalLogic) ∧
    (changeLayout true sch l1 l1 a result mem = .error .internalLogic) ∧
    (a.size2 ≠ b.size1 → prodMM true sch' junk l1 l2 a b result tmp mem = .error .internalLogic) ∧
    (a.size2 ≠ x.size → prodMV true sch' l1 a x z mem = .error .internalLogic) ∧
    (x.size ≠ a.size1 → prodVM true sch' l1 x a z mem = .error .internalLogic) ∧
    (¬ (a.size1 = b.size1 ∧ a.size2 = b.size2) → elementWise true sch op a b result mem = .error .internalLogic) ∧
    (x.size ≠ y.size → elementWiseVec true sch op x y z mem = .error .internalLogic) ∧
    (¬ (a.size1 = result.size1 ∧ a.size2 = result.size2) → elementScalar true sch f a result mem = .error .internalLogic) := by
  have hc : ∀ {p : Prop} [Decidable p], ¬ p → check true p .internalLogic = .error .internalLogic := by
    intro p _ h; unfold check; rw [if_pos ⟨rfl, h⟩]
  refine ⟨fun h => ?_, fun h => ?_, ?_, fun h => ?_, fun h => ?_, fun h => ?_, fun h => ?_, fun h => ?_, fun h => ?_⟩
  · unfold trans; rw [hc h]; rfl
  · unfold changeLayout; rw [hc h]; rfl
  · unfold changeLayout
    by_cases h : a.size1 = result.size1 ∧ a.size2 = result.size2
    · rw [check_true h, bind_ok, hc (by simp)]; rfl
    · rw [hc h]; rfl
  · unfold prodMM; rw [hc h]; rfl
  · unfold prodMV; rw [hc h]; rfl
  · unfold prodVM; rw [hc h]; rfl
  · unfold elementWise; rw [hc h]; rfl
  · unfold elementWiseVec; rw [hc h]; rfl
  · unfold elementScalar; rw [hc h]; rfl

/-- Hence with host operands too: `prod (a, b, queue)` and `element_wise (a, b, op, queue)` of host matrices that do not match throw. -/
theorem C123_host (sch : Kernel R → List Nat) (sch' : Scheduler R) (junk : Nat → R) (l1 l2 : Lay) (op : R → R → R) (a b result : Dense R) :
    (a.size2 ≠ b.size1 → prodMMNew true sch' junk l1 l2 a b = .error .internalLogic) ∧
    (¬ (a.size1 = b.size1 ∧ a.size2 = b.size2) → elementWiseNew true sch junk op l1 a b = .error .internalLogic) ∧
    (¬ (a.size1 = result.size2 ∧ a.size2 = result.size1) → transHost true sch junk l1 a result = .error .internalLogic) := by
  refine ⟨fun h => ?_, fun h => ?_, fun h => ?_⟩
  · unfold prodMMNew prodMMHost
    simp only []
    rw [(C123_mismatch_partial sch sch' junk l1 l2 op id ⟨a.size1, a.size2, 0⟩ ⟨b.size1, b.size2, 1⟩ ⟨a.size1, b.size2, 2⟩ ⟨0, 0⟩ ⟨0, 0⟩ ⟨0, 0⟩ 3 _).2.2.2.1 h]; rfl
  · unfold elementWiseNew elementWiseHost
    simp only []
    rw [(C123_mismatch_partial sch sch' junk l1 l2 op id ⟨a.size1, a.size2, 0⟩ ⟨b.size1, b.size2, 1⟩ ⟨a.size1, b.size2, 2⟩ ⟨0, 0⟩ ⟨0, 0⟩ ⟨0, 0⟩ 3 _).2.2.2.2.2.2.1 h]; rfl
  · unfold transHost
    simp only []
    rw [(C123_mismatch_partial sch sch' junk l1 l2 op id ⟨a.size1, a.size2, 0⟩ ⟨b.size1, b.size2, 1⟩ ⟨result.size1, result.size2, 2⟩ ⟨0, 0⟩ ⟨0, 0⟩ ⟨0, 0⟩ 3 _).1 h]; rfl

end checks

section overrun
variable {R : Type}

theorem Kernel.step_fault {K : Kernel R} {st : St R} {x : Nat} {f : Fault} (h : K.step st x = .error f) : f = .ub := by
  unfold Kernel.step at h
  split at h
  · cases h
  · split at h
    · rename_i p _
      unfold Mem.read at h
      split at h
      · cases h
      · cases h; rfl
    · unfold Mem.write at h
      split at h
      · cases h
      · cases h; rfl

/-- What a step that does not fault has done: buffers keep their lengths, an item that is not finished has read one more cell, an item that has written had its cell inside the buffer. -/
theorem Kernel.step_did {K : Kernel R} {st st' : St R} {y : Nat} (h : K.step st y = .ok st') :
    (∀ b, (st'.mem b).length = (st.mem b).length) ∧
    ∀ x, K.act x = true → (st'.done x = true → st.done x = true ∨ (K.dst x).2 < (st.mem (K.dst x).1).length) ∧
      (st'.done x = true ∨ (st.done x = false ∧ (st'.regs x).length = (st.regs x).length + (if y = x then 1 else 0) ∧ ((st.regs x).length ≤ (K.src x).length → (st'.regs x).length ≤ (K.src x).length))) := by
  unfold Kernel.step at h
  split at h
  · rename_i hc
    cases h
    refine ⟨fun _ => rfl, fun x hx => ⟨fun h => .inl h, ?_⟩⟩
    by_cases hd : st.done x = true
    · exact .inl hd
    · refine .inr ⟨by simpa using hd, ?_, id⟩
      by_cases e : y = x
      · subst e; rcases hc with hc | hc
        · rw [hx] at hc; cases hc
        · exact absurd hc hd
      · rw [if_neg e]; rfl
  · split at h
    · rename_i hc p hp
      cases hr : st.mem.read p with
      | error f => rw [hr] at h; cases h
      | ok v =>
        rw [hr, bind_ok] at h; cases h
        refine ⟨fun _ => rfl, fun x hx => ⟨fun h => .inl h, ?_⟩⟩
        by_cases hd : st.done x = true
        · exact .inl hd
        · refine .inr ⟨by simpa using hd, ?_, ?_⟩
          · by_cases e : y = x
            · subst e; simp
            · simp [e, Ne.symm e]
          · intro hl
            by_cases e : x = y
            · subst e
              have := (List.getElem?_eq_some_iff.1 hp).1
              simp only [if_true, List.length_append, List.length_singleton]; omega
            · simp only [if_neg e]; exact hl
    · rename_i hc hp
      cases hr : st.mem.write (K.dst y) (K.fn y (st.regs y)) with
      | error f => rw [hr] at h; cases h
      | ok m =>
        rw [hr, bind_ok] at h; cases h
        unfold Mem.write at hr
        split at hr
        · rename_i hlt
          cases hr
          refine ⟨fun b => ?_, fun x hx => ?_⟩
          · simp only; split
            · rw [List.length_set]
            · rfl
          · by_cases e : x = y
            · subst e; exact ⟨fun _ => .inr hlt, .inl (by simp)⟩
            · simp only [if_neg e, if_neg (Ne.symm e)]
              refine ⟨fun h => .inl h, ?_⟩
              by_cases hd : st.done x = true
              · exact .inl hd
              · exact .inr ⟨by simpa using hd, rfl, id⟩
        · cases hr

theorem Kernel.fold_did {K : Kernel R} (sched : List Nat) : ∀ {st st' : St R}, sched.foldlM K.step st = .ok st' → ∀ x, K.act x = true → (st.regs x).length ≤ (K.src x).length →
    (st'.done x = true → st.done x = true ∨ (K.dst x).2 < (st.mem (K.dst x).1).length) ∧
    (st'.done x = true ∨ ((st'.regs x).length = (st.regs x).length + sched.count x ∧ (st'.regs x).length ≤ (K.src x).length)) := by
  induction sched with
  | nil => intro st st' h x hx hl; cases h; exact ⟨fun h => .inl h, .inr ⟨by simp, hl⟩⟩
  | cons y sched ih =>
    intro st st' h x hx hl
    rw [List.foldlM_cons] at h
    cases hs : K.step st y with
    | error f => rw [hs] at h; cases h
    | ok s1 =>
      rw [hs, bind_ok] at h
      obtain ⟨a1, a2⟩ := Kernel.step_did hs
      obtain ⟨b1, b2⟩ := a2 x hx
      by_cases hd : s1.done x = true
      · have hdone : ∀ (l : List Nat) (s s' : St R), s.done x = true → l.foldlM K.step s = .ok s' → s'.done x = true := by
          intro l
          induction l with
          | nil => intro s s' h1 h2; cases h2; exact h1
          | cons z l ihl =>
            intro s s' h1 h2
            rw [List.foldlM_cons] at h2
            cases hz : K.step s z with
            | error f => rw [hz] at h2; cases h2
            | ok s2 =>
              rw [hz, bind_ok] at h2
              rcases ((Kernel.step_did hz).2 x hx).2 with q | q
              · exact ihl s2 s' q h2
              · rw [h1] at q; cases q.1
        have := hdone sched s1 st' hd h
        exact ⟨fun _ => b1 hd, .inl this⟩
      · rcases b2 with b2 | ⟨c1, c2, c3⟩
        · exact absurd b2 hd
        · obtain ⟨d1, d2⟩ := ih h x hx (c3 hl)
          refine ⟨fun h' => ?_, ?_⟩
          · rcases d1 h' with q | q
            · exact absurd q hd
            · right; rw [a1] at q; exact q
          · rcases d2 with q | ⟨q1, q2⟩
            · exact .inl q
            · refine .inr ⟨?_, q2⟩
              rw [q1, c2, List.count_cons]
              simp only [beq_iff_eq]; omega

/-- A kernel one of whose active items writes outside its buffer has undefined behaviour in every complete schedule. -/
theorem Kernel.overrun {K : Kernel R} {sched : List Nat} (hc : K.Complete sched) {mem : Mem R} {x : Nat} (hx : x < K.items) (ha : K.act x = true) (hout : (mem (K.dst x).1).length ≤ (K.dst x).2) :
    K.run sched mem = .error .ub := by
  unfold Kernel.run
  cases h : sched.foldlM K.step ⟨mem, fun _ => [], fun _ => false⟩ with
  | error f =>
    have : ∀ (l : List Nat) (s : St R) (f : Fault), l.foldlM K.step s = .error f → f = .ub := by
      intro l
      induction l with
      | nil => intro s f h; cases h
      | cons z l ihl =>
        intro s f h
        rw [List.foldlM_cons] at h
        cases hz : K.step s z with
        | error g => rw [hz] at h; cases h; exact Kernel.step_fault hz
        | ok s2 => rw [hz, bind_ok] at h; exact ihl s2 f h
    rw [this _ _ _ h]; rfl
  | ok st =>
    obtain ⟨a, b⟩ := Kernel.fold_did sched h x ha (by simp)
    exfalso
    have hd : st.done x = true := by
      rcases b with b | ⟨b1, b2⟩
      · exact b
      · have := hc.2 x hx
        simp at b1; omega
    rcases a hd with q | q
    · cases q
    · simp only at q; omega

end overrun

/-- **C123** refuted for results: with matching operands and a result of any smaller size, element_add (or any other operation) writes behind the end of the result's buffer, also in a debug build: no check
looks at the result.  (For the products see C112_result_size_refuted.) -/
theorem C123_result_refuted [Zero R] (dbg : Bool) (sch : Kernel R → List Nat) (hf : ∀ K : Kernel R, K.Complete (sch K)) (op : R → R → R) (a b result : DMat) (mem : Mem R)
    (hr : (mem result.buf).length = result.size1 * result.size2) (hs : a.size1 = b.size1 ∧ a.size2 = b.size2) (hsmall : result.size1 * result.size2 < a.size1 * a.size2) :
    elementWise dbg sch op a b result mem = .error .ub := by
  unfold elementWise
  rw [check_true hs, bind_ok]
  exact Kernel.overrun (K := zipK a.len a.buf b.buf result.buf op) (hf _) (x := result.size1 * result.size2) hsmall rfl (Nat.le_of_eq hr)

/-- The same for vectors. -/
theorem C123_result_vector_refuted [Zero R] (dbg : Bool) (sch : Kernel R → List Nat) (hf : ∀ K : Kernel R, K.Complete (sch K)) (op : R → R → R) (a b result : DVec) (mem : Mem R)
    (hr : (mem result.buf).length = result.size) (hs : a.size = b.size) (hsmall : result.size < a.size) : elementWiseVec dbg sch op a b result mem = .error .ub := by
  unfold elementWiseVec
  rw [check_true hs, bind_ok]
  exact Kernel.overrun (K := zipK a.size a.buf b.buf result.buf op) (hf _) (x := result.size) hsmall rfl (Nat.le_of_eq hr)

/-- Non-vacuity: 2 x 2 operands, 1 x 3 result; operands that do not match. -/
example : elementWise true Kernel.seq (· + ·) ⟨2, 2, 0⟩ ⟨2, 2, 1⟩ ⟨1, 3, 2⟩ (fun b => if b = 2 then [0, 0, 0] else [(1 : Int), 2, 3, 4]) = .error .ub := by rfl
example : elementWise true Kernel.seq (· + ·) ⟨2, 2, 0⟩ ⟨4, 1, 1⟩ ⟨2, 2, 2⟩ (fun _ => [(1 : Int), 2, 3, 4]) = .error .internalLogic := by rfl

end Ublas.OpenCL
